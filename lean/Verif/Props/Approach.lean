import Verif.Props.Passage

/-!
# Closest approach to a geometry and hits of a geometry (C25, C26, C69)
-/

namespace Proposal

open Spec

/-- The point lies on the polyline through the positions of the entries. -/
def Spec.OnTrack : List Entry → Vec3 → Prop
  | [], _ => False
  | [a], z => z = a.state.position
  | a :: b :: l, z =>
    (∃ τ, 0 ≤ τ ∧ τ ≤ 1 ∧ z.x = a.state.position.x + τ * (b.state.position.x - a.state.position.x) ∧
      z.y = a.state.position.y + τ * (b.state.position.y - a.state.position.y) ∧
      z.z = a.state.position.z + τ * (b.state.position.z - a.state.position.z)) ∨
    OnTrack (b :: l) z

lemma onTrack_head (a : Entry) (l : List Entry) : OnTrack (a :: l) a.state.position := by
  cases l with
  | nil => rfl
  | cons b l => exact Or.inl ⟨0, le_rfl, zero_le_one, by ring, by ring, by ring⟩

lemma onTrack_step (a b : Entry) (l : List Entry) {t : ℝ} (h : 0 < euclid a.state.position b.state.position)
    (h0 : 0 ≤ t) (h1 : t ≤ euclid a.state.position b.state.position) :
    OnTrack (a :: b :: l) (a.state.position + t • towards a.state.position b.state.position) := by
  refine Or.inl ⟨t / euclid a.state.position b.state.position, div_nonneg h0 h.le, (div_le_one h).2 h1, ?_, ?_, ?_⟩ <;>
  · unfold towards; simp; ring

lemma reprop' {S : List Sector} {x : PState} {u : Vec3} {t : ℝ} {r : PState}
    (h : rePropagateDistance S x u t = .ok r) :
    r.position = x.position + t • u ∧ r.distance = x.distance + t := by
  unfold rePropagateDistance at h
  cases hs : lookupSector S x.position u with
  | error e => rw [hs] at h; cases h
  | ok s =>
    rw [hs] at h
    obtain rfl := Except.ok.inj h
    exact ⟨rfl, rfl⟩

/-- C25: the returned state is on the track. -/
theorem C25_on_track (secs : List Sector) (g : Geo) (l : List Entry) (r : PState)
    (h : closestApproachPoint secs g l = .ok r) : OnTrack l r.position := by
  cases l with
  | nil => cases h
  | cons a l =>
    change closestFrom secs g a l = .ok r at h
    induction l generalizing a with
    | nil => obtain rfl := Except.ok.inj h; rfl
    | cons b l ih =>
      rw [closestFrom] at h
      rcases norm_cases a.state.position b.state.position with ⟨h0, hn⟩ | ⟨h0, hn⟩
      · rw [hn] at h; exact Or.inr (ih b h)
      · rw [hn] at h
        simp only [← euclid_eq'] at h
        split_ifs at h with h1 h2 h3
        · obtain rfl := Except.ok.inj h; exact Or.inr (onTrack_head _ _)
        · obtain rfl := Except.ok.inj h; exact onTrack_head _ _
        · rw [(reprop' h).1]
          exact onTrack_step a b l h0 (res_pos.le.trans (not_lt.1 h3)) h2.le
        · exact Or.inr (ih b h)

/-- All steps of the track go in the direction `u`. -/
def Spec.Along (u : Vec3) (l : List Entry) : Prop :=
  List.IsChain (fun a b : Entry => ∃ k, 0 ≤ k ∧ b.state.position.x = a.state.position.x + k * u.x ∧
    b.state.position.y = a.state.position.y + k * u.y ∧
    b.state.position.z = a.state.position.z + k * u.z) l

lemma euclid_along {p q u : Vec3} (hu : UnitVec u) {k : ℝ} (hk : 0 ≤ k) (hx : q.x = p.x + k * u.x)
    (hy : q.y = p.y + k * u.y) (hz : q.z = p.z + k * u.z) : euclid p q = k := by
  unfold euclid UnitVec at *
  rw [hx, hy, hz, show (p.x + k * u.x - p.x) ^ 2 + (p.y + k * u.y - p.y) ^ 2 + (p.z + k * u.z - p.z) ^ 2 =
    k ^ 2 by linear_combination k ^ 2 * hu]
  exact Real.sqrt_sq hk

lemma towards_along {p q u : Vec3} (hu : UnitVec u) {k : ℝ} (hk : 0 < k) (hx : q.x = p.x + k * u.x)
    (hy : q.y = p.y + k * u.y) (hz : q.z = p.z + k * u.z) : towards p q = u := by
  unfold towards
  rw [euclid_along hu hk.le hx hy hz, hx, hy, hz]
  ext <;> field_simp <;> ring

lemma closest_shift (g : Geo) {p q u : Vec3} (hu : UnitVec u) {k : ℝ} (hx : q.x = p.x + k * u.x)
    (hy : q.y = p.y + k * u.y) (hz : q.z = p.z + k * u.z) :
    g.closestApproach q u = g.closestApproach p u - k := by
  unfold Geo.closestApproach Vec3.dot
  unfold UnitVec at hu
  simp only [Vec3.sub_x, Vec3.sub_y, Vec3.sub_z, hx, hy, hz]
  linear_combination (-k) * hu

lemma straight_param (u : Vec3) (hu : UnitVec u) (a : Entry) (l : List Entry) (h : Along u (a :: l)) :
    ∃ L, 0 ≤ L ∧ (∀ z, OnTrack (a :: l) z → ∃ σ, 0 ≤ σ ∧ σ ≤ L ∧ z = a.state.position + σ • u) ∧
    ∀ (secs : List Sector) (g : Geo) (r : PState), closestFrom secs g a l = .ok r →
      ∃ σ, r.position = a.state.position + σ • u ∧
        |σ - max 0 (min (g.closestApproach a.state.position u) L)| ≤ PARTICLE_POSITION_RESOLUTION := by
  have hres := res_pos
  induction l generalizing a with
  | nil =>
    refine ⟨0, le_rfl, ?_, ?_⟩
    · intro z hz
      refine ⟨0, le_rfl, le_rfl, ?_⟩
      rw [show z = a.state.position from hz]; ext <;> simp
    · intro secs g r h
      obtain rfl := Except.ok.inj h
      refine ⟨0, by ext <;> simp, ?_⟩
      rw [max_eq_left (min_le_right _ _)]; simpa using hres.le
  | cons b l ih =>
    obtain ⟨⟨k, hk, hx, hy, hz⟩, hl⟩ := List.isChain_cons_cons.1 h
    obtain ⟨L, hL, h1, h2⟩ := ih b hl
    have hb : b.state.position = a.state.position + k • u := by ext <;> simp [*]
    have hshift : ∀ σ : ℝ, b.state.position + σ • u = a.state.position + (k + σ) • u := by
      intro σ; rw [hb]; ext <;> simp <;> ring
    refine ⟨k + L, by linarith, ?_, ?_⟩
    · intro z hz'
      rcases hz' with ⟨τ, t0, t1, zx, zy, zz⟩ | hz'
      · refine ⟨τ * k, mul_nonneg t0 hk, ?_, ?_⟩
        · nlinarith
        · ext <;> simp [zx, zy, zz, hx, hy, hz] <;> ring
      · obtain ⟨σ, s0, s1, e⟩ := h1 z hz'
        exact ⟨k + σ, by linarith, by linarith, by rw [e, hshift]⟩
    · intro secs g r hr
      rw [closestFrom] at hr
      have hT := closest_shift g hu hx hy hz
      have he := euclid_along hu hk hx hy hz
      have again : closestFrom secs g b l = .ok r → k ≤ g.closestApproach a.state.position u ∨ k = 0 →
          ∃ σ, r.position = a.state.position + σ • u ∧
          |σ - max 0 (min (g.closestApproach a.state.position u) (k + L))| ≤ PARTICLE_POSITION_RESOLUTION := by
        intro hr hkT
        obtain ⟨σ, e, hσ⟩ := h2 secs g r hr
        refine ⟨k + σ, by rw [e, hshift], ?_⟩
        rw [hT] at hσ
        generalize g.closestApproach a.state.position u = T at *
        rcases hkT with hkT | rfl
        · rw [max_eq_right (le_min (by linarith) hL)] at hσ
          rw [max_eq_right (le_min (by linarith) (by linarith))]
          rw [show k + σ - min T (k + L) = σ - min (T - k) L by
            rw [show min T (k + L) = min (T - k) L + k by rw [min_add]; congr 1 <;> ring]; ring]
          exact hσ
        · simpa using hσ
      rcases norm_cases a.state.position b.state.position with ⟨h0, hn⟩ | ⟨h0, hn⟩
      · rw [hn] at hr
        exact again hr (Or.inr (by rw [← he]; exact h0))
      · rw [hn] at hr
        rw [he] at h0
        simp only [← euclid_eq', he, towards_along hu h0 hx hy hz] at hr
        split_ifs at hr with c1 c2 c3
        · obtain rfl := Except.ok.inj hr
          refine ⟨k, hb, ?_⟩
          generalize g.closestApproach a.state.position u = T at *
          rw [abs_le] at c1 ⊢
          grind
        · obtain rfl := Except.ok.inj hr
          refine ⟨0, by ext <;> simp, ?_⟩
          generalize g.closestApproach a.state.position u = T at *
          rw [abs_le]
          grind
        · refine ⟨_, (reprop' hr).1, ?_⟩
          generalize g.closestApproach a.state.position u = T at *
          rw [max_eq_right (le_min (by linarith) (by linarith)), min_eq_left (by linarith)]
          simpa using hres.le
        · exact again hr (Or.inl (not_lt.1 c2))

lemma euclid_sq (p q : Vec3) :
    euclid p q ^ 2 = (q.x - p.x) ^ 2 + (q.y - p.y) ^ 2 + (q.z - p.z) ^ 2 :=
  Real.sq_sqrt (by positivity)

/-- C25 for straight tracks, up to the resolution of 1e-3: no point of the track is nearer to the
centre of the geometry than the returned state by more than that. Missing are tracks that bend, where
the claim fails, see `C25_not_closest`. -/
theorem C25_straight_track_partial (secs : List Sector) (g : Geo) (l : List Entry) (u : Vec3)
    (hu : UnitVec u) (hl : Along u l) (r : PState) (h : closestApproachPoint secs g l = .ok r)
    (z : Vec3) (hz : OnTrack l z) :
    euclid g.center r.position ≤ euclid g.center z + PARTICLE_POSITION_RESOLUTION := by
  cases l with
  | nil => cases h
  | cons a l =>
    obtain ⟨L, hL, h1, h2⟩ := straight_param u hu a l hl
    obtain ⟨σ, s0, s1, e⟩ := h1 z hz
    obtain ⟨σ', e', hσ'⟩ := h2 secs g r h
    set T := g.closestApproach a.state.position u with hT
    set m := max 0 (min T L) with hm
    have hu' := (unitVec_iff u).1 hu
    have q : ∀ s, euclid g.center (a.state.position + s • u) ^ 2 = rayDistSq g.center a.state.position u s := by
      intro s; rw [euclid_sq]; unfold rayDistSq; simp
    have e1 : T = -((a.state.position - g.center).dot u) := by
      rw [hT]; unfold Geo.closestApproach Vec3.dot; simp; ring
    have key : euclid g.center (a.state.position + m • u) ≤ euclid g.center z := by
      refine (sq_le_sq₀ (euclid_nonneg _ _) (euclid_nonneg _ _)).1 ?_
      rw [e, q, q, rayDistSq_eq _ _ _ hu', rayDistSq_eq _ _ _ hu']
      have : |m - T| ≤ |σ - T| := by
        rw [hm]; rcases le_total T 0 with c | c <;> rcases le_total T L with c' | c' <;>
          (rw [abs_le]; grind)
      have := sq_le_sq.2 this
      have hB : (a.state.position - g.center).dot u = -T := by rw [e1]; ring
      rw [hB]; nlinarith
    have near := near_of_ray (c := g.center) (p := r.position) hu' (s := m - σ')
      (euclid_nonneg g.center (a.state.position + m • u)) (by
        rw [q, e']; unfold rayDistSq; simp; ring)
    rw [abs_sub_comm] at hσ'
    have := (abs_le.1 (near.trans hσ')).2
    linarith

/-- An entry at a given position. -/
noncomputable def Spec.at' (p : Vec3) (E dist : ℝ) : Entry :=
  ⟨⟨E, dist, p, ⟨0, 0, 1⟩, dist⟩, .continuousEnergyLoss, 0⟩

/-- The hypotheses of `C25_straight_track_partial` hold for a track of two steps along z that passes
the centre in its second step. -/
example :
    let l := [at' ⟨1, 0, -9⟩ 20 0, at' ⟨1, 0, -4⟩ 15 5, at' ⟨1, 0, 4⟩ 7 13]
    UnitVec ⟨0, 0, 1⟩ ∧ Along ⟨0, 0, 1⟩ l ∧
    ∃ r, closestApproachPoint [Toy.sector 100] (Toy.geo 100) l = .ok r ∧ r.position = ⟨1, 0, 0⟩ := by
  intro l
  refine ⟨by unfold UnitVec; norm_num, ?_, ?_⟩
  · refine List.isChain_cons_cons.2 ⟨⟨5, by norm_num, ?_⟩, List.isChain_cons_cons.2
      ⟨⟨8, by norm_num, ?_⟩, List.isChain_singleton _⟩⟩ <;> simp [at'] <;> norm_num
  · have n1 : (⟨1, 0, -4⟩ - ⟨1, 0, -9⟩ : Vec3).normalize = some ⟨0, 0, 1⟩ := by
      have hm : (⟨1, 0, -4⟩ - ⟨1, 0, -9⟩ : Vec3).mag = 5 := by
        rw [Vec3.mag]; simp; norm_num
        rw [show (25 : ℝ) = 5 ^ 2 by norm_num]; exact Real.sqrt_sq (by norm_num)
      rw [normalize_of_pos (by rw [hm]; norm_num), hm]
      congr 1; ext <;> simp; norm_num
    have m1 : (⟨1, 0, -4⟩ - ⟨1, 0, -9⟩ : Vec3).mag = 5 := by
        rw [Vec3.mag]; simp; norm_num
        rw [show (25 : ℝ) = 5 ^ 2 by norm_num]; exact Real.sqrt_sq (by norm_num)
    have m2 : (⟨1, 0, 4⟩ - ⟨1, 0, -4⟩ : Vec3).mag = 8 := by
        rw [Vec3.mag]; simp; norm_num
    have n2 : (⟨1, 0, 4⟩ - ⟨1, 0, -4⟩ : Vec3).normalize = some ⟨0, 0, 1⟩ := by
      rw [normalize_of_pos (by rw [m2]; norm_num), m2]
      congr 1; ext <;> simp; norm_num
    have t1 : (Toy.geo 100).closestApproach ⟨1, 0, -9⟩ ⟨0, 0, 1⟩ = 9 := by
      unfold Geo.closestApproach Toy.geo Vec3.dot; simp
    have t2 : (Toy.geo 100).closestApproach ⟨1, 0, -4⟩ ⟨0, 0, 1⟩ = 4 := by
      unfold Geo.closestApproach Toy.geo Vec3.dot; simp
    have hr : PARTICLE_POSITION_RESOLUTION = 1 / 1000 := by unfold PARTICLE_POSITION_RESOLUTION; norm_num
    have hrp : ∀ x : PState, ∃ r, rePropagateDistance [Toy.sector 100] x ⟨0, 0, 1⟩ 4 = .ok r := by
      intro x
      unfold rePropagateDistance lookupSector
      rw [Toy.current 100 (by norm_num)]
      exact ⟨_, rfl⟩
    obtain ⟨r, h⟩ := hrp (at' ⟨1, 0, -4⟩ 15 5).state
    refine ⟨r, ?_, ?_⟩
    · simp only [closestApproachPoint, l, closestFrom, at', n1, n2, m1, m2, t1, t2, hr]
      norm_num
      exact h
    · rw [(reprop' h).1]; ext <;> simp [at']

/-- C25 fails for tracks that bend: the search stops at the first local minimum. Here the returned
state is 10 cm away from the centre, the last point of the track only √2 cm. -/
theorem C25_not_closest :
    let l := [at' ⟨-1, 10, 0⟩ 20 0, at' ⟨1, 10, 0⟩ 18 2, at' ⟨1, 1, 0⟩ 9 11]
    ∃ r, closestApproachPoint [Toy.sector 100] (Toy.geo 100) l = .ok r ∧
      euclid (Toy.geo 100).center r.position = 10 ∧
      ∃ z, OnTrack l z ∧ euclid (Toy.geo 100).center z = Real.sqrt 2 := by
  intro l
  have m1 : (⟨1, 10, 0⟩ - ⟨-1, 10, 0⟩ : Vec3).mag = 2 := by
    rw [Vec3.mag]; simp; norm_num
  have n1 : (⟨1, 10, 0⟩ - ⟨-1, 10, 0⟩ : Vec3).normalize = some ⟨1, 0, 0⟩ := by
    rw [normalize_of_pos (by rw [m1]; norm_num), m1]
    congr 1; ext <;> simp; norm_num
  have t1 : (Toy.geo 100).closestApproach ⟨-1, 10, 0⟩ ⟨1, 0, 0⟩ = 1 := by
    unfold Geo.closestApproach Toy.geo Vec3.dot; simp
  have hr : PARTICLE_POSITION_RESOLUTION = 1 / 1000 := by unfold PARTICLE_POSITION_RESOLUTION; norm_num
  have hrp : ∀ x : PState, ∃ r, rePropagateDistance [Toy.sector 100] x ⟨1, 0, 0⟩ 1 = .ok r := by
    intro x
    unfold rePropagateDistance lookupSector
    rw [Toy.current 100 (by norm_num)]
    exact ⟨_, rfl⟩
  obtain ⟨r, h⟩ := hrp (at' ⟨-1, 10, 0⟩ 20 0).state
  refine ⟨r, ?_, ?_, ⟨1, 1, 0⟩, Or.inr (Or.inr rfl), ?_⟩
  · simp only [closestApproachPoint, l, closestFrom, at', n1, m1, t1, hr]
    norm_num
    exact h
  · rw [(reprop' h).1]
    unfold euclid Toy.geo at'
    simp
  · unfold euclid Toy.geo
    congr 1
    norm_num

/-! ## C26: hits -/

lemma euclid_ray {c p d : Vec3} (t : ℝ) : euclid c (p + t • d) ^ 2 = rayDistSq c p d t := by
  rw [euclid_sq]; unfold rayDistSq; simp

lemma lt_of_ray {c p d : Vec3} {t R : ℝ} (hR : 0 < R) (h : rayDistSq c p d t < R ^ 2) :
    euclid c (p + t • d) < R := by
  rw [← euclid_ray] at h
  exact lt_of_pow_lt_pow_left₀ 2 hR.le h

lemma euclid_self_add {p d : Vec3} (hd : UnitVec d) (s t : ℝ) :
    euclid (p + s • d) (p + t • d) = |t - s| := by
  unfold euclid UnitVec at *
  rw [show (p + t • d).x - (p + s • d).x = (t - s) * d.x by simp; ring,
    show (p + t • d).y - (p + s • d).y = (t - s) * d.y by simp; ring,
    show (p + t • d).z - (p + s • d).z = (t - s) * d.z by simp; ring,
    show ((t - s) * d.x) ^ 2 + ((t - s) * d.y) ^ 2 + ((t - s) * d.z) ^ 2 = (t - s) ^ 2 by
      linear_combination (t - s) ^ 2 * hd]
  exact Real.sqrt_sq_eq_abs _

lemma ray_zero (p d : Vec3) : p + (0 : ℝ) • d = p := by ext <;> simp

/-- A point that `IsInside` accepts is within `GEOMETRY_PRECISION` of the open ball. -/
lemma inside_near (S : Sphere) (hR : 0 < S.radius) (hr : S.inner < S.radius) (n : ℕ) {p d : Vec3}
    (hd : UnitVec d) (h : (S.toGeo n).isInside p d) :
    ∃ w, euclid S.center w < S.radius ∧ euclid p w ≤ GEOMETRY_PRECISION := by
  have hP := prec_pos
  have hev := (C06_sphere_inside S hR hr n p d hd).1 h
  have hgt : ∀ᶠ s in nhdsWithin GEOMETRY_PRECISION (Set.Iio GEOMETRY_PRECISION), -GEOMETRY_PRECISION < s :=
    lt_left_iff.2 (by linarith)
  have hlt : ∀ᶠ s in nhdsWithin GEOMETRY_PRECISION (Set.Iio GEOMETRY_PRECISION), s < GEOMETRY_PRECISION :=
    eventually_mem_nhdsWithin
  obtain ⟨s0, ⟨hm, _⟩, hs1, hs2⟩ := (hev.and (hgt.and hlt)).exists
  refine ⟨p + s0 • d, lt_of_ray hR hm, ?_⟩
  have := euclid_self_add (p := p) hd 0 s0
  rw [ray_zero] at this
  rw [this, abs_le]
  constructor <;> linarith

lemma rayDistSq_shift {c p q d : Vec3} {k : ℝ} (hx : q.x = p.x + k * d.x) (hy : q.y = p.y + k * d.y)
    (hz : q.z = p.z + k * d.z) (t : ℝ) : rayDistSq c q d t = rayDistSq c p d (k + t) := by
  unfold rayDistSq; rw [hx, hy, hz]; ring

lemma crosses_shift {c p q d : Vec3} {k ρ : ℝ} (hx : q.x = p.x + k * d.x) (hy : q.y = p.y + k * d.y)
    (hz : q.z = p.z + k * d.z) (t : ℝ) : CrossesSphere c q d ρ t ↔ CrossesSphere c p d ρ (k + t) := by
  unfold CrossesSphere
  simp only [rayDistSq_shift hx hy hz]
  constructor
  · rintro ⟨h, h1, s, hs⟩; exact ⟨h, h1, k + s, hs⟩
  · rintro ⟨h, h1, s, hs⟩; exact ⟨h, h1, s - k, by rw [show k + (s - k) = s by ring]; exact hs⟩

/-- Between two crossings of a sphere the ray is in the ball. -/
lemma between_roots {c p d : Vec3} (hd : UnitVec d) {ρ a b m : ℝ} (ha : rayDistSq c p d a = ρ ^ 2)
    (hb : rayDistSq c p d b = ρ ^ 2) (h1 : a < m) (h2 : m < b) : rayDistSq c p d m < ρ ^ 2 := by
  rw [rayDistSq_eq _ _ _ ((unitVec_iff d).1 hd)] at *
  nlinarith [mul_pos (sub_pos.2 h1) (sub_pos.2 h2)]

/-- C26, soundness: if a hit of a solid sphere is reported, some point within 1e-9 of the track is
inside the ball. -/
theorem C26_hit_sound (S : Sphere) (hR : 0 < S.radius) (hr : S.inner ≤ 0) (n : ℕ) (l : List Entry)
    (hd : ∀ x, l.getLast? = some x → UnitVec x.state.direction) (P : Prop)
    (h : hitGeometry (S.toGeo n) l = some P) (hP : P) :
    ∃ z w, OnTrack l z ∧ euclid S.center w < S.radius ∧ euclid z w ≤ GEOMETRY_PRECISION := by
  have hp := prec_pos
  cases l with
  | nil => cases h
  | cons a l =>
    obtain rfl := Option.some.inj h
    clear h
    induction l generalizing a with
    | nil =>
      obtain ⟨w, h1, h2⟩ := inside_near S hR (hr.trans_lt hR) n (hd a rfl) hP
      exact ⟨_, w, rfl, h1, h2⟩
    | cons b l ih =>
      have again : hitFrom (S.toGeo n) b l →
          ∃ z w, OnTrack (a :: b :: l) z ∧ euclid S.center w < S.radius ∧ euclid z w ≤ GEOMETRY_PRECISION := by
        intro h
        obtain ⟨z, w, h1, h2⟩ := ih b (fun x hx => hd x (by simpa using hx)) h
        exact ⟨z, w, Or.inr h1, h2⟩
      rw [hitFrom] at hP
      rcases norm_cases a.state.position b.state.position with ⟨h0, hn⟩ | ⟨h0, hn⟩
      · rw [hn] at hP; exact again hP
      · rw [hn] at hP
        have hu := towards_unit h0
        rcases hP with hP | ⟨h1, h2⟩ | hP
        · obtain ⟨w, h1, h2⟩ := inside_near S hR (hr.trans_lt hR) n hu hP
          exact ⟨_, w, onTrack_head _ _, h1, h2⟩
        · obtain ⟨ex, ey, ez⟩ := towards_end h0
          have Ta := C01_solid_sphere_distances S hR hr a.state.position _ hu
          have Tb := C01_solid_sphere_distances S hR hr b.state.position _ hu
          set u := towards a.state.position b.state.position with hu'
          set L := euclid a.state.position b.state.position with hL
          obtain ⟨h1a, h1b⟩ : (S.distanceToBorder a.state.position u).1 > 0 ∧
            (S.distanceToBorder a.state.position u).2 > 0 := h1
          obtain ⟨h2a, h2b⟩ : (S.distanceToBorder b.state.position u).1 < 0 ∧
            (S.distanceToBorder b.state.position u).2 < 0 := h2
          rcases Ta with ⟨e, _⟩ | ⟨t, e, _⟩ | ⟨t1, t2, ht, e, hT⟩
          · rw [e] at h1b; norm_num at h1b
          · rw [e] at h1b; norm_num at h1b
          have m1 : t1 ∈ ({t1, t2} : Set ℝ) := by simp
          have m2 : t2 ∈ ({t1, t2} : Set ℝ) := by simp
          rw [← hT] at m1 m2
          have hb2 : t2 < L + GEOMETRY_PRECISION := by
            by_contra hc
            push Not at hc
            have hmem : t2 - L ∈ {t | GEOMETRY_PRECISION ≤ t ∧ CrossesSphere S.center b.state.position u S.radius t} := by
              refine ⟨by linarith, ?_⟩
              rw [crosses_shift ex ey ez, show L + (t2 - L) = t2 by ring]
              exact m2.2
            rcases Tb with ⟨_, e'⟩ | ⟨t, e', e''⟩ | ⟨t, t', _, e', e''⟩
            · rw [e'] at hmem; exact hmem
            · rw [e'] at h2a
              have : t ∈ ({t} : Set ℝ) := by simp
              rw [← e''] at this
              have := this.1
              simp only at h2a; linarith
            · rw [e'] at h2a
              have : t ∈ ({t, t'} : Set ℝ) := by simp
              rw [← e''] at this
              have := this.1
              simp only at h2a; linarith
          have hm := between_roots hu m1.2.2.1 m2.2.2.1 (m := (t1 + t2) / 2) (by linarith) (by linarith)
          have ht1 := m1.1
          refine ⟨a.state.position + min ((t1 + t2) / 2) L • u, _,
            onTrack_step a b l h0 (le_min (by linarith) h0.le) (min_le_right _ _), lt_of_ray hR hm, ?_⟩
          rw [euclid_self_add hu, abs_le]
          rcases le_total ((t1 + t2) / 2) L with c | c
          · rw [min_eq_left c]; constructor <;> linarith
          · rw [min_eq_right c]; constructor <;> linarith
        · exact again hP

/-- A ray that is inside the ball at `s` crosses the sphere before and after. -/
lemma roots_around {c p d : Vec3} (hd : UnitVec d) {ρ s : ℝ} (hρ : 0 < ρ)
    (h : rayDistSq c p d s < ρ ^ 2) : ∃ a b, a < s ∧ s < b ∧ CrossesSphere c p d ρ a ∧
      CrossesSphere c p d ρ b ∧ (∀ t, CrossesSphere c p d ρ t → t = a ∨ t = b) ∧
      (∀ t, ρ ^ 2 ≤ rayDistSq c p d t → t ≤ a ∨ b ≤ t) := by
  have hd' := (unitVec_iff d).1 hd
  have hs := h
  rw [rayDistSq_eq _ _ _ hd'] at h
  have hdet : 0 < ((p - c).dot d) ^ 2 - ((p - c).mag ^ 2 - ρ ^ 2) := by
    nlinarith [sq_nonneg (s + (p - c).dot d)]
  have key : ∀ t, rayDistSq c p d t - ρ ^ 2 =
      (t - (-(p - c).dot d - Real.sqrt (((p - c).dot d) ^ 2 - ((p - c).mag ^ 2 - ρ ^ 2)))) *
      (t - (-(p - c).dot d + Real.sqrt (((p - c).dot d) ^ 2 - ((p - c).mag ^ 2 - ρ ^ 2)))) := by
    intro t
    rw [rayDistSq_eq _ _ _ hd']
    linear_combination (Real.sq_sqrt hdet.le)
  have hw := Real.sqrt_pos.2 hdet
  generalize ha : -(p - c).dot d - Real.sqrt (((p - c).dot d) ^ 2 - ((p - c).mag ^ 2 - ρ ^ 2)) = a at *
  generalize hb : -(p - c).dot d + Real.sqrt (((p - c).dot d) ^ 2 - ((p - c).mag ^ 2 - ρ ^ 2)) = b at *
  have hab : a < b := by linarith
  have h1 := key s
  have hsa : a < s := by
    by_contra hc; push Not at hc
    nlinarith [mul_nonneg (sub_nonneg.2 hc) (sub_nonneg.2 (hc.trans hab.le))]
  have hsb : s < b := by
    by_contra hc; push Not at hc
    nlinarith [mul_nonneg (sub_nonneg.2 hc) (sub_nonneg.2 (hab.le.trans hc))]
  refine ⟨a, b, hsa, hsb, ⟨hρ, ?_, s, hs⟩, ⟨hρ, ?_, s, hs⟩, ?_, ?_⟩
  · have := key a; simp at this; linarith
  · have := key b; simp at this; linarith
  · rintro t ⟨_, h, _⟩
    have := key t
    rw [h, sub_self] at this
    rcases mul_eq_zero.1 this.symm with h | h
    · left; linarith
    · right; linarith
  · intro t ht
    by_contra hc; push Not at hc
    have := key t
    nlinarith [mul_pos (sub_pos.2 hc.1) (sub_pos.2 hc.2)]

lemma inside_of_deep (S : Sphere) (hR : 0 < S.radius) (hr : S.inner ≤ 0) (n : ℕ) {p d : Vec3}
    (hd : UnitVec d) (h : euclid S.center p + GEOMETRY_PRECISION ≤ S.radius) : (S.toGeo n).isInside p d := by
  have hP := prec_pos
  have h0 := euclid_nonneg S.center p
  have hlt : rayDistSq S.center p d 0 < S.radius ^ 2 := by
    rw [← euclid_ray, ray_zero]
    exact pow_lt_pow_left₀ (by linarith) h0 two_ne_zero
  obtain ⟨a, b, ha, hb, ca, cb, hall, _⟩ := roots_around hd hR hlt
  have hd' := (unitVec_iff d).1 hd
  have hb' : GEOMETRY_PRECISION ≤ b := by
    have := near_of_ray hd' hR.le cb.2.1
    rw [abs_of_pos hb] at this
    have := (abs_le.1 this).1
    linarith
  have T := C01_solid_sphere_distances S hR hr p d hd
  have hTb : {t | GEOMETRY_PRECISION ≤ t ∧ CrossesSphere S.center p d S.radius t} = {b} := by
    ext t
    simp only [Set.mem_ofPred_eq, Set.mem_singleton_iff]
    constructor
    · rintro ⟨h1, h2⟩
      rcases hall t h2 with rfl | rfl
      · linarith
      · rfl
    · rintro rfl; exact ⟨hb', cb⟩
  unfold Geo.isInside
  change (S.distanceToBorder p d).1 > 0 ∧ (S.distanceToBorder p d).2 < 0
  rcases T with ⟨_, e⟩ | ⟨t, e, e'⟩ | ⟨t, t', ht, _, e⟩
  · rw [hTb] at e; exact absurd e (Set.singleton_ne_empty b)
  · rw [hTb] at e'
    rw [e]
    have := Set.singleton_injective e'
    constructor
    · simp only; linarith
    · norm_num
  · rw [hTb] at e
    have h1 : t ∈ ({b} : Set ℝ) := by rw [e]; simp
    have h2 : t' ∈ ({b} : Set ℝ) := by rw [e]; simp
    rw [Set.mem_singleton_iff] at h1 h2
    linarith

lemma hit_of_deep (S : Sphere) (hR : 0 < S.radius) (hr : S.inner ≤ 0) (n : ℕ) (a : Entry) (l : List Entry)
    (hd : ∀ x, (a :: l).getLast? = some x → UnitVec x.state.direction)
    (h : ∃ x ∈ a :: l, euclid S.center x.state.position + GEOMETRY_PRECISION ≤ S.radius) :
    hitFrom (S.toGeo n) a l := by
  induction l generalizing a with
  | nil =>
    obtain ⟨x, hx, h⟩ := h
    obtain rfl : x = a := by simpa using hx
    exact inside_of_deep S hR hr n (hd _ rfl) h
  | cons b l ih =>
    have hd' : ∀ x, (b :: l).getLast? = some x → UnitVec x.state.direction :=
      fun x hx => hd x (by simpa using hx)
    rw [hitFrom]
    obtain ⟨x, hx, h⟩ := h
    rcases norm_cases a.state.position b.state.position with ⟨h0, hn⟩ | ⟨h0, hn⟩
    · rw [hn]
      rcases List.mem_cons.1 hx with rfl | hx
      · refine ih b hd' ⟨b, by simp, ?_⟩
        have : x.state.position = b.state.position := by
          rw [euclid_eq'] at h0
          have h2 := Vec3.mag_sq (b.state.position - x.state.position)
          rw [h0] at h2
          unfold Vec3.dot at h2
          simp only [Vec3.sub_x, Vec3.sub_y, Vec3.sub_z] at h2
          ext <;> nlinarith [sq_nonneg (b.state.position.x - x.state.position.x),
            sq_nonneg (b.state.position.y - x.state.position.y),
            sq_nonneg (b.state.position.z - x.state.position.z)]
        rw [← this]; exact h
      · exact ih b hd' ⟨x, hx, h⟩
    · rw [hn]
      rcases List.mem_cons.1 hx with rfl | hx
      · exact Or.inl (inside_of_deep S hR hr n (towards_unit h0) h)
      · exact Or.inr (Or.inr (ih b hd' ⟨x, hx, h⟩))

/-- C26, completeness: a track with a point at depth 1e-9 or more in a solid sphere hits it. The track
points themselves are taken in general position: each of them is outside or on the sphere, or at
depth 1e-9 or more. -/
theorem C26_hit_complete (S : Sphere) (hR : 0 < S.radius) (hr : S.inner ≤ 0) (n : ℕ) (l : List Entry)
    (hd : ∀ x, l.getLast? = some x → UnitVec x.state.direction)
    (hgen : ∀ x ∈ l, S.radius ≤ euclid S.center x.state.position ∨
      euclid S.center x.state.position + GEOMETRY_PRECISION ≤ S.radius)
    (z : Vec3) (hz : OnTrack l z) (hdeep : euclid S.center z + GEOMETRY_PRECISION ≤ S.radius) :
    ∃ P, hitGeometry (S.toGeo n) l = some P ∧ P := by
  have hp := prec_pos
  cases l with
  | nil => exact absurd hz (by simp [OnTrack])
  | cons a l =>
    refine ⟨_, rfl, ?_⟩
    by_cases hall : ∃ x ∈ a :: l, euclid S.center x.state.position + GEOMETRY_PRECISION ≤ S.radius
    · exact hit_of_deep S hR hr n a l hd hall
    push Not at hall
    have hout : ∀ x ∈ a :: l, S.radius ≤ euclid S.center x.state.position := fun x hx =>
      (hgen x hx).resolve_right (not_le.2 (hall x hx))
    clear hall hgen hd
    induction l generalizing a with
    | nil =>
      have := hout a (by simp)
      rw [show z = a.state.position from hz] at hdeep
      linarith
    | cons b l ih =>
      rw [hitFrom]
      rcases hz with ⟨τ, t0, t1, zx, zy, zz⟩ | hz
      · rcases norm_cases a.state.position b.state.position with ⟨h0, hn⟩ | ⟨h0, hn⟩
        · exfalso
          have : z = a.state.position := by
            have h2 := euclid_sq a.state.position b.state.position
            rw [h0] at h2
            have e1 : b.state.position.x - a.state.position.x = 0 := by
              nlinarith [sq_nonneg (b.state.position.x - a.state.position.x),
                sq_nonneg (b.state.position.y - a.state.position.y),
                sq_nonneg (b.state.position.z - a.state.position.z)]
            have e2 : b.state.position.y - a.state.position.y = 0 := by
              nlinarith [sq_nonneg (b.state.position.x - a.state.position.x),
                sq_nonneg (b.state.position.y - a.state.position.y),
                sq_nonneg (b.state.position.z - a.state.position.z)]
            have e3 : b.state.position.z - a.state.position.z = 0 := by
              nlinarith [sq_nonneg (b.state.position.x - a.state.position.x),
                sq_nonneg (b.state.position.y - a.state.position.y),
                sq_nonneg (b.state.position.z - a.state.position.z)]
            ext
            · rw [zx, e1]; ring
            · rw [zy, e2]; ring
            · rw [zz, e3]; ring
          have h3 := hout a (by simp)
          rw [this] at hdeep
          linarith
        · rw [hn]
          have hu := towards_unit h0
          have hu' := (unitVec_iff _).1 hu
          obtain ⟨ex, ey, ez⟩ := towards_end h0
          have Ta := C01_solid_sphere_distances S hR hr a.state.position _ hu
          have Tb := C01_solid_sphere_distances S hR hr b.state.position _ hu
          have oa := hout a (by simp)
          have ob := hout b (by simp)
          set u := towards a.state.position b.state.position with hudef
          set L := euclid a.state.position b.state.position with hL
          have hzs : z = a.state.position + (τ * L) • u := by
            ext
            · rw [zx]; simp; rw [ex]; ring
            · rw [zy]; simp; rw [ey]; ring
            · rw [zz]; simp; rw [ez]; ring
          have hbL : b.state.position = a.state.position + L • u := by
            ext <;> simp [← ex, ← ey, ← ez]
          have hlt : rayDistSq S.center a.state.position u (τ * L) < S.radius ^ 2 := by
            rw [← euclid_ray, ← hzs]
            exact pow_lt_pow_left₀ (by linarith) (euclid_nonneg _ _) two_ne_zero
          obtain ⟨r1, r2, h1, h2, c1, c2, hroots, hfar⟩ := roots_around hu hR hlt
          have f0 : S.radius ^ 2 ≤ rayDistSq S.center a.state.position u 0 := by
            rw [← euclid_ray, ray_zero]; exact pow_le_pow_left₀ hR.le oa 2
          have fL : S.radius ^ 2 ≤ rayDistSq S.center a.state.position u L := by
            rw [← euclid_ray, ← hbL]; exact pow_le_pow_left₀ hR.le ob 2
          have hs0 : 0 ≤ τ * L := mul_nonneg t0 h0.le
          have hsL : τ * L ≤ L := by nlinarith
          have hr1 : 0 ≤ r1 := by
            rcases hfar 0 f0 with h | h
            · exact h
            · linarith
          have hr2 : r2 ≤ L := by
            rcases hfar L fL with h | h
            · linarith
            · exact h
          have depth : ∀ r, CrossesSphere S.center a.state.position u S.radius r →
              GEOMETRY_PRECISION ≤ |r - τ * L| := by
            intro r hc
            have := near_of_ray (c := S.center) (p := z) hu' (s := r - τ * L) hR.le (by
              rw [← hc.2.1, hzs]; unfold rayDistSq; simp; ring)
            have := (abs_le.1 this).1
            linarith
          have d2 : GEOMETRY_PRECISION ≤ r2 - τ * L := by
            have := depth r2 c2; rwa [abs_of_pos (by linarith)] at this
          have hTb : {t | GEOMETRY_PRECISION ≤ t ∧ CrossesSphere S.center b.state.position u S.radius t} = ∅ := by
            ext t
            simp only [Set.mem_ofPred_eq, Set.mem_empty_iff_false, iff_false]
            rintro ⟨k1, k2⟩
            rw [crosses_shift ex ey ez] at k2
            rcases hroots _ k2 with k | k <;> linarith
          by_cases hfirst : GEOMETRY_PRECISION ≤ r1
          · right; left
            have hTa : {t | GEOMETRY_PRECISION ≤ t ∧ CrossesSphere S.center a.state.position u S.radius t} = {r1, r2} := by
              ext t
              simp only [Set.mem_ofPred_eq, Set.mem_insert_iff, Set.mem_singleton_iff]
              constructor
              · rintro ⟨_, k⟩; exact hroots t k
              · rintro (rfl | rfl)
                · exact ⟨hfirst, c1⟩
                · exact ⟨by linarith, c2⟩
            constructor
            · change (S.distanceToBorder a.state.position u).1 > 0 ∧ (S.distanceToBorder a.state.position u).2 > 0
              rcases Ta with ⟨_, e⟩ | ⟨t, _, e⟩ | ⟨t, t', ht, e, e'⟩
              · have : r1 ∈ ({r1, r2} : Set ℝ) := by simp
                rw [← hTa, e] at this; exact absurd this (Set.notMem_empty _)
              · have k1 : r1 ∈ ({r1, r2} : Set ℝ) := by simp
                have k2 : r2 ∈ ({r1, r2} : Set ℝ) := by simp
                rw [← hTa, e, Set.mem_singleton_iff] at k1 k2
                linarith
              · rw [e]
                have k1 : t ∈ ({t, t'} : Set ℝ) := by simp
                rw [← e'] at k1
                have := k1.1
                constructor <;> simp only <;> linarith
            · change (S.distanceToBorder b.state.position u).1 < 0 ∧ (S.distanceToBorder b.state.position u).2 < 0
              rcases Tb with ⟨e, _⟩ | ⟨t, _, e⟩ | ⟨t, t', _, _, e⟩
              · rw [e]; norm_num
              · rw [hTb] at e; exact absurd e.symm (Set.singleton_ne_empty _)
              · rw [hTb] at e; exact absurd e.symm (Set.insert_nonempty _ _).ne_empty
          · left
            have hTa : {t | GEOMETRY_PRECISION ≤ t ∧ CrossesSphere S.center a.state.position u S.radius t} = {r2} := by
              ext t
              simp only [Set.mem_ofPred_eq, Set.mem_singleton_iff]
              constructor
              · rintro ⟨k0, k⟩
                rcases hroots t k with rfl | rfl
                · exact absurd k0 hfirst
                · rfl
              · rintro rfl; exact ⟨by linarith, c2⟩
            change (S.distanceToBorder a.state.position u).1 > 0 ∧ (S.distanceToBorder a.state.position u).2 < 0
            rcases Ta with ⟨_, e⟩ | ⟨t, e, e'⟩ | ⟨t, t', ht, _, e⟩
            · rw [hTa] at e; exact absurd e (Set.singleton_ne_empty _)
            · rw [hTa] at e'
              have := Set.singleton_injective e'
              rw [e]
              constructor
              · simp only; linarith
              · norm_num
            · rw [hTa] at e
              have k1 : t ∈ ({r2} : Set ℝ) := by rw [e]; simp
              have k2 : t' ∈ ({r2} : Set ℝ) := by rw [e]; simp
              rw [Set.mem_singleton_iff] at k1 k2
              linarith
      · have := ih b hz (fun x hx => hout x (List.mem_cons_of_mem _ hx))
        rcases norm_cases a.state.position b.state.position with ⟨h0, hn⟩ | ⟨h0, hn⟩
        · rw [hn]; exact this
        · rw [hn]; exact Or.inr (Or.inr this)

/-- The hypotheses of the completeness theorem hold for a step right through a ball. -/
example :
    let S : Sphere := ⟨⟨0, 0, 0⟩, 5, 0⟩
    let l := [at' ⟨0, 0, -10⟩ 20 0, at' ⟨0, 0, 10⟩ 5 20]
    (∀ x, l.getLast? = some x → UnitVec x.state.direction) ∧
    (∀ x ∈ l, S.radius ≤ euclid S.center x.state.position ∨
      euclid S.center x.state.position + GEOMETRY_PRECISION ≤ S.radius) ∧
    OnTrack l ⟨0, 0, 0⟩ ∧ euclid S.center ⟨0, 0, 0⟩ + GEOMETRY_PRECISION ≤ S.radius := by
  intro S l
  refine ⟨?_, ?_, Or.inl ⟨1 / 2, by norm_num, by norm_num, ?_⟩, ?_⟩
  · rintro x hx
    obtain rfl : at' ⟨0, 0, 10⟩ 5 20 = x := by simpa [l] using hx
    unfold UnitVec at'; norm_num
  · intro x hx
    left
    simp only [l, List.mem_cons, List.not_mem_nil, or_false] at hx
    rcases hx with rfl | rfl <;> simp [S, at', euclid] <;> norm_num
  · simp [at']; norm_num
  · simp [S, euclid]; unfold GEOMETRY_PRECISION; norm_num

/-- C69: for hollow spheres a hit can be missed. A track that goes through the wall and ends in the
cavity is not reported, although it has a point in the middle of the wall. -/
theorem C69_hollow_hit_missed : ∃ (S : Sphere) (l : List Entry) (z : Vec3),
    0 < S.inner ∧ S.inner < S.radius ∧ (∀ x ∈ l, UnitVec x.state.direction) ∧ OnTrack l z ∧
    S.inner + 1 / 2 ≤ euclid S.center z ∧ euclid S.center z + 1 / 2 ≤ S.radius ∧
    ∀ P, hitGeometry (S.toGeo 0) l = some P → ¬ P := by
  have hp := prec_pos
  have hp1 : GEOMETRY_PRECISION < 1 := by unfold GEOMETRY_PRECISION; norm_num
  set S : Sphere := ⟨⟨0, 0, 0⟩, 5, 4⟩ with hS
  set u : Vec3 := ⟨0, 0, 1⟩ with hudef
  have hu : UnitVec u := by unfold UnitVec; norm_num [u]
  have hout : (⟨0, 0, -10⟩ - S.center : Vec3).mag = 10 := by
    rw [Vec3.mag]; simp [S]
  have hin : (⟨0, 0, 0⟩ - S.center : Vec3).mag = 0 := by
    rw [Vec3.mag]; simp [S]
  have c1 := (C06_sphere_inside_direction_free S (by norm_num [S]) (by norm_num [S]) 0 ⟨0, 0, -10⟩ u hu).2
    (Or.inr (by rw [hout]; norm_num [S]; linarith))
  have c2 := (C06_sphere_inside_direction_free S (by norm_num [S]) (by norm_num [S]) 0 ⟨0, 0, 0⟩ u hu).2
    (Or.inl (by rw [hin]; norm_num [S]; linarith))
  have c3 : ¬ (S.toGeo 0).isBehind ⟨0, 0, 0⟩ u := by
    intro h
    obtain ⟨q, _, hl, hq⟩ := C02_shell_distances S (by norm_num [S]) (by norm_num [S]) ⟨0, 0, 0⟩ u hu
    have h1 : (S.distanceToBorder ⟨0, 0, 0⟩ u).1 < 0 := h.1
    have hmem : (4 : ℝ) ∈ q := by
      rw [hl]
      refine ⟨by linarith, Or.inr ⟨by norm_num [S], ?_, 0, ?_⟩⟩ <;> unfold rayDistSq <;> norm_num [S, u]
    rw [hq] at h1
    cases q with
    | nil => simp at hmem
    | cons a q =>
      have : (borderPair (a :: q)).1 = a := by
        cases q with
        | nil => rfl
        | cons b q => simp only [borderPair]; split_ifs <;> rfl
      rw [this] at h1
      have := ((hl a).1 (by simp)).1
      linarith
  have hn : (⟨0, 0, 0⟩ - ⟨0, 0, -10⟩ : Vec3).normalize = some u := by
    have hm : (⟨0, 0, 0⟩ - ⟨0, 0, -10⟩ : Vec3).mag = 10 := by
      rw [Vec3.mag]; simp
    rw [normalize_of_pos (by rw [hm]; norm_num), hm]
    congr 1
    ext <;> simp [u]
  refine ⟨S, [at' ⟨0, 0, -10⟩ 20 0, at' ⟨0, 0, 0⟩ 10 10], ⟨0, 0, -(9 / 2)⟩, by norm_num [S], by norm_num [S],
    ?_, Or.inl ⟨11 / 20, by norm_num, by norm_num, ?_⟩, ?_, ?_, ?_⟩
  · intro x hx
    simp only [List.mem_cons, List.not_mem_nil, or_false] at hx
    rcases hx with rfl | rfl <;> exact hu
  · simp [at']; norm_num
  · have : euclid S.center ⟨0, 0, -(9 / 2)⟩ = 9 / 2 := by
      simp [S, euclid]; exact Real.sqrt_sq (by norm_num)
    rw [this]; norm_num [S]
  · have : euclid S.center ⟨0, 0, -(9 / 2)⟩ = 9 / 2 := by
      simp [S, euclid]; exact Real.sqrt_sq (by norm_num)
    rw [this]; norm_num [S]
  · intro P hP
    obtain rfl := Option.some.inj hP
    simp only [hitFrom, at', hn]
    rintro (h | h | h)
    · exact c1 h
    · exact c3 h.2
    · exact c2 h

end Proposal
