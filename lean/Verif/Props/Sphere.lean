import Verif.Lemmas.Sphere
import Verif.Spec.Vec3
import Mathlib.Tactic.NormNum

/-! # C01, C02, C05, C06 (sphere), C07 -/

namespace Proposal

open Spec

/-- **C02** (and C01 as the special case without a hole). For every spherical shell with
`0 ≤ inner < radius`, every position and every unit direction, `DistanceToBorder` reports exactly
the border crossings of the forward ray: no crossing gives `(-1,-1)`, an odd number (the particle
is in the material) gives the nearest crossing and `-1`, an even positive number gives the
nearest two. Crossings closer than `GEOMETRY_PRECISION` and tangential touches do not count. -/
theorem C02_shell_distances (S : Sphere) (hR : 0 < S.radius) (hr : S.inner < S.radius)
    (p d : Vec3) (hd : UnitVec d) :
    Reports (shellCrossings S p d) (S.distanceToBorder p d) := by
  have hd' : d.mag = 1 := (unitVec_iff d).1 hd
  have hp := prec_pos
  unfold Reports shellCrossings Sphere.distanceToBorder
  simp only [crossesSphere_iff S.center p d hd', Set.mem_ofPred_eq]
  generalize (p - S.center).dot d = B
  generalize (p - S.center).mag ^ 2 = l2
  generalize S.radius = R at *
  generalize S.inner = r at *
  by_cases hdet : 0 < B * B - (l2 - R * R)
  · rw [outer_val hdet]
    have hs : 0 < Real.sqrt (B * B - (l2 - R * R)) := Real.sqrt_pos.2 hdet
    by_cases hin : 0 < r ∧ 0 < B * B - (l2 - r * r)
    · obtain ⟨hr0, hdet'⟩ := hin
      have hs' : 0 < Real.sqrt (B * B - (l2 - r * r)) := Real.sqrt_pos.2 hdet'
      have hss : Real.sqrt (B * B - (l2 - r * r)) < Real.sqrt (B * B - (l2 - R * R)) := by
        apply Real.sqrt_lt_sqrt hdet'.le
        nlinarith
      have H := fun q => hollow_val hr0 hdet' q _ _ rfl rfl
      simp only [hdet, hdet', hR, hr0, true_and]
      generalize Real.sqrt (B * B - (l2 - R * R)) = s at *
      generalize Real.sqrt (B * B - (l2 - r * r)) = s' at *
      by_cases c1 : GEOMETRY_PRECISION ≤ -1 * B - s
      · refine ⟨[-1 * B - s, -1 * B - s', -1 * B + s', -1 * B + s], ?_, ?_, ?_⟩
        · simp only [List.pairwise_cons, List.mem_cons, List.not_mem_nil]
          refine ⟨?_, ?_, ?_, ?_, List.Pairwise.nil⟩ <;> intro a ha <;>
            rcases ha with h | h | h | h <;> first | linarith | exact h.elim
        · intro t
          simp only [List.mem_cons, List.not_mem_nil, or_false]
          constructor
          · rintro (h | h | h | h) <;> rw [h] <;> refine ⟨by linarith, by simp⟩
          · rintro ⟨_, (h | h) | (h | h)⟩ <;> rw [h] <;> simp
        · rw [if_pos c1]
          simp only []
          rw [if_neg (by intro h; linarith [h.1]), (H _).1 _ _ rfl c1 (by linarith) (by linarith),
            finalControl_two c1 (by linarith)]
          simp [borderPair]
      · rw [if_neg c1]
        by_cases c2 : GEOMETRY_PRECISION ≤ -1 * B + s
        · rw [if_pos c2]
          simp only []
          rw [if_neg (by intro h; linarith [h.1]), (H _).2 _ rfl c2]
          by_cases c3 : GEOMETRY_PRECISION ≤ -1 * B - s'
          · refine ⟨[-1 * B - s', -1 * B + s', -1 * B + s], ?_, ?_, ?_⟩
            · simp only [List.pairwise_cons, List.mem_cons, List.not_mem_nil, or_false]
              refine ⟨?_, ?_, ?_, List.Pairwise.nil⟩
              · rintro a (h | h) <;> linarith
              · rintro a h; linarith
              · simp
            · intro t
              simp only [List.mem_cons, List.not_mem_nil, or_false]
              constructor
              · rintro (h | h | h) <;> rw [h] <;> refine ⟨by linarith, by simp⟩
              · rintro ⟨hP, (h | h) | (h | h)⟩ <;> first | (exfalso; linarith) | (rw [h]; simp)
            · rw [if_pos c3, finalControl_one c3]
              simp [borderPair]
          · rw [if_neg c3]
            by_cases c4 : GEOMETRY_PRECISION ≤ -1 * B + s'
            · refine ⟨[-1 * B + s', -1 * B + s], ?_, ?_, ?_⟩
              · simp only [List.pairwise_cons, List.mem_cons, List.not_mem_nil, or_false]
                refine ⟨?_, ?_, List.Pairwise.nil⟩
                · rintro a h; linarith
                · simp
              · intro t
                simp only [List.mem_cons, List.not_mem_nil, or_false]
                constructor
                · rintro (h | h) <;> rw [h] <;> refine ⟨by linarith, by simp⟩
                · rintro ⟨hP, (h | h) | (h | h)⟩ <;> first | (exfalso; linarith) | (rw [h]; simp)
              · rw [if_pos c4, finalControl_two c4 c2]
                simp [borderPair]
            · refine ⟨[-1 * B + s], by simp, ?_, ?_⟩
              · intro t
                simp only [List.mem_cons, List.not_mem_nil, or_false]
                constructor
                · rintro h; rw [h]; refine ⟨by linarith, by simp⟩
                · rintro ⟨hP, (h | h) | (h | h)⟩ <;> first | (exfalso; linarith) | (rw [h])
              · rw [if_neg c4, finalControl_one c2]
                simp [borderPair]
        · rw [if_neg c2]
          refine ⟨[], by simp, ?_, ?_⟩
          · intro t
            simp only [List.not_mem_nil, false_iff]
            rintro ⟨hP, (h | h) | (h | h)⟩ <;> linarith
          · simp [borderPair]
    · have hin' : ∀ q : Prop, (0 < r ∧ 0 < B * B - (l2 - r * r) ∧ q) ↔ False := by
        intro q; constructor
        · rintro ⟨a, b, _⟩; exact hin ⟨a, b⟩
        · exact False.elim
      simp only [hin', hdet, hR, true_and, or_false, hollow_id hin]
      generalize Real.sqrt (B * B - (l2 - R * R)) = s at *
      by_cases c1 : GEOMETRY_PRECISION ≤ -1 * B - s
      · refine ⟨[-1 * B - s, -1 * B + s], ?_, ?_, ?_⟩
        · simp only [List.pairwise_cons, List.mem_cons, List.not_mem_nil, or_false]
          refine ⟨?_, ?_, List.Pairwise.nil⟩
          · rintro a h; linarith
          · simp
        · intro t
          simp only [List.mem_cons, List.not_mem_nil, or_false]
          constructor
          · rintro (h | h) <;> rw [h] <;> refine ⟨by linarith, by simp⟩
          · rintro ⟨_, h | h⟩ <;> rw [h] <;> simp
        · rw [if_pos c1]
          simp only []
          rw [if_neg (by intro h; linarith [h.1]), finalControl_two c1 (by linarith)]
          simp [borderPair]
      · rw [if_neg c1]
        by_cases c2 : GEOMETRY_PRECISION ≤ -1 * B + s
        · refine ⟨[-1 * B + s], by simp, ?_, ?_⟩
          · intro t
            simp only [List.mem_cons, List.not_mem_nil, or_false]
            constructor
            · rintro h; rw [h]; refine ⟨by linarith, by simp⟩
            · rintro ⟨hP, h | h⟩
              · exact h
              · exfalso; linarith
          · rw [if_pos c2]
            simp only []
            rw [if_neg (by intro h; linarith [h.1]), finalControl_one c2]
            simp [borderPair]
        · rw [if_neg c2]
          refine ⟨[], by simp, ?_, ?_⟩
          · intro t
            simp only [List.not_mem_nil, false_iff]
            rintro ⟨hP, h | h⟩ <;> linarith
          · simp [borderPair]
  · rw [outer_none hdet]
    refine ⟨[], by simp, ?_, ?_⟩
    · intro t
      simp only [List.not_mem_nil, false_iff]
      rintro ⟨_, h | h⟩
      · exact hdet h.2.1
      · apply hdet
        nlinarith [h.1, h.2.1]
    · simp [borderPair]

/-- A hollow sphere of radii 2 and 1 seen from outside along the x axis meets the hypotheses of
`C02_shell_distances`, and the reported pair is the two surfaces in front. -/
example : (⟨0, 2, 1⟩ : Sphere).distanceToBorder ⟨-5, 0, 0⟩ ⟨1, 0, 0⟩ = (3, 4) := by
  obtain ⟨l, hl, hm, hq⟩ := C02_shell_distances ⟨0, 2, 1⟩ (by norm_num) (by norm_num)
    ⟨-5, 0, 0⟩ ⟨1, 0, 0⟩ (by norm_num [UnitVec])
  have hT : ∀ t, t ∈ l ↔ t = 3 ∨ t = 4 ∨ t = 6 ∨ t = 7 := by
    intro t
    rw [hm]
    simp only [shellCrossings, CrossesSphere, rayDistSq, Set.mem_ofPred_eq, Vec3.zero_x,
      Vec3.zero_y, Vec3.zero_z, GEOMETRY_PRECISION]
    constructor
    · rintro ⟨_, h | h⟩
      · have : (t - 3) * (t - 7) = 0 := by nlinarith [h.2.1]
        rcases mul_eq_zero.1 this with h | h
        · left; linarith
        · right; right; right; linarith
      · have : (t - 4) * (t - 6) = 0 := by nlinarith [h.2.1]
        rcases mul_eq_zero.1 this with h | h
        · right; left; linarith
        · right; right; left; linarith
    · rintro (h | h | h | h) <;> rw [h] <;> refine ⟨by norm_num, ?_⟩
      · left; refine ⟨by norm_num, by norm_num, 5, by norm_num⟩
      · right; refine ⟨by norm_num, by norm_num, 5, by norm_num⟩
      · right; refine ⟨by norm_num, by norm_num, 5, by norm_num⟩
      · left; refine ⟨by norm_num, by norm_num, 5, by norm_num⟩
  have : l = [3, 4, 6, 7] := by
    refine List.Perm.eq_of_pairwise (le := (· < ·)) ?_ hl ?_ ?_
    · intro a b _ _ h1 h2; linarith
    · norm_num
    · refine (List.perm_ext_iff_of_nodup ?_ ?_).2 ?_
      · exact hl.imp (fun h => ne_of_lt h)
      · norm_num
      · intro t; rw [hT]; simp
  rw [hq, this]; simp [borderPair]

/-- **C01**. A solid sphere reports exactly its forward surface crossings: none, one or two. -/
theorem C01_solid_sphere_distances (S : Sphere) (hR : 0 < S.radius) (hr : S.inner ≤ 0)
    (p d : Vec3) (hd : UnitVec d) :
    let T := {t | GEOMETRY_PRECISION ≤ t ∧ CrossesSphere S.center p d S.radius t}
    (S.distanceToBorder p d = (-1, -1) ∧ T = ∅) ∨
    (∃ a, S.distanceToBorder p d = (a, -1) ∧ T = {a}) ∨
    (∃ a b, a < b ∧ S.distanceToBorder p d = (a, b) ∧ T = {a, b}) := by
  intro T
  have hd' : d.mag = 1 := (unitVec_iff d).1 hd
  have hT : shellCrossings S p d = T := by
    ext t
    simp only [shellCrossings, T, Set.mem_ofPred_eq]
    constructor
    · rintro ⟨h, h' | h'⟩
      · exact ⟨h, h'⟩
      · exact absurd h'.1 (not_lt.2 hr)
    · rintro ⟨h, h'⟩; exact ⟨h, Or.inl h'⟩
  obtain ⟨l, hl, hm, hq⟩ := C02_shell_distances S hR (by linarith) p d hd
  rw [hT] at hm
  have key : ∀ t ∈ l, t = -1 * (p - S.center).dot d + Real.sqrt (((p - S.center).dot d) * ((p - S.center).dot d) - ((p - S.center).mag ^ 2 - S.radius * S.radius)) ∨
       t = -1 * (p - S.center).dot d - Real.sqrt (((p - S.center).dot d) * ((p - S.center).dot d) - ((p - S.center).mag ^ 2 - S.radius * S.radius)) := by
    intro t ht
    have := (hm t).1 ht
    exact ((crossesSphere_iff S.center p d hd' _ t).1 this.2).2.2
  match l, hl, hm, hq, key with
  | [], _, hm, hq, _ =>
    left; refine ⟨by simpa [borderPair] using hq, ?_⟩
    ext t; rw [← hm]; simp
  | [a], _, hm, hq, _ =>
    right; left; refine ⟨a, by simpa [borderPair] using hq, ?_⟩
    ext t; rw [← hm]; simp
  | [a, b], hl, hm, hq, _ =>
    right; right; refine ⟨a, b, by simpa using hl, by simpa [borderPair] using hq, ?_⟩
    ext t; rw [← hm]; simp
  | a :: b :: c :: l, hl, _, _, key =>
    exfalso
    have h1 : a < b := by simp only [List.pairwise_cons] at hl; exact hl.1 b (by simp)
    have h2 : b < c := by simp only [List.pairwise_cons] at hl; exact hl.2.1 c (by simp)
    rcases key a (by simp) with ha | ha <;> rcases key b (by simp) with hb | hb <;>
      rcases key c (by simp) with hc | hc <;> linarith

/-- **C05**. For every geometry whose distance pairs have the documented shape exactly one of the
three locations holds, `GetLocation` names it, entering implies inside, leaving implies behind,
and entering and leaving exclude each other. -/
theorem C05_location_partition (g : Geo) (p d : Vec3) (hv : ValidPair (g.dist p d)) :
    ((g.isInfront p d ∧ ¬ g.isInside p d ∧ ¬ g.isBehind p d) ∨
     (¬ g.isInfront p d ∧ g.isInside p d ∧ ¬ g.isBehind p d) ∨
     (¬ g.isInfront p d ∧ ¬ g.isInside p d ∧ g.isBehind p d)) ∧
    (g.location p d = .infront ↔ g.isInfront p d) ∧
    (g.location p d = .inside ↔ g.isInside p d) ∧
    (g.location p d = .behind ↔ g.isBehind p d) ∧
    (g.isEntering p d → g.isInside p d) ∧
    (g.isLeaving p d → g.isBehind p d) ∧
    ¬ (g.isEntering p d ∧ g.isLeaving p d) := by
  unfold Geo.location Geo.isInfront Geo.isInside Geo.isBehind Geo.isEntering Geo.isLeaving
  rcases hv with h | h | h
  · rw [h]; norm_num; simp
  · have h1 : ¬ (g.dist p d).1 < 0 := by linarith [h.1]
    have h2 : ¬ (g.dist p d).1 = -1 := by intro h'; linarith [h.1]
    rw [h.2]
    simp only [h.1, h1, h2, gt_iff_lt]
    norm_num; simp
  · have h1 : ¬ (g.dist p d).1 < 0 := by linarith [h.1]
    have h2 : ¬ (g.dist p d).1 = -1 := by intro h'; linarith [h.1]
    have h3 : ¬ (g.dist p d).2 < 0 := by linarith [h.2]
    have h4 : ¬ (g.dist p d).2 = -1 := by intro h'; linarith [h.2]
    simp only [h.1, h1, h2, h3, h4, h.2]
    norm_num; simp

/-- **C05** Entering is being inside in this direction and behind in the opposite one, leaving is the reverse: a particle
leaves in a direction exactly if it enters in the opposite one. -/
theorem C05_leaving_reversed (g : Geo) (p d : Vec3) (hv : ValidPair (g.dist p d)) (hw : ValidPair (g.dist p (-d))) :
    (g.isEntering p d ↔ g.isInside p d ∧ g.isBehind p (-d)) ∧
    (g.isLeaving p d ↔ g.isBehind p d ∧ g.isInside p (-d)) ∧
    (g.isLeaving p d ↔ g.isEntering p (-d)) := by
  have hdd : - -d = d := by
    ext <;> simp
  have one : ∀ q : ℝ × ℝ, ValidPair q →
      ((q.1 ≥ 0 ∧ q.2 = -1) ↔ (q.1 > 0 ∧ q.2 < 0)) ∧ ((q.1 = -1 ∧ q.2 = -1) ↔ (q.1 < 0 ∧ q.2 < 0)) := by
    rintro ⟨x, y⟩ (h | h | h)
    · obtain ⟨rfl, rfl⟩ := Prod.mk.inj h
      norm_num
    · have h1 := h.1
      have h2 := h.2
      simp only at h1 h2
      refine ⟨⟨fun hh => ⟨by linarith, by linarith [hh.2]⟩, fun hh => ⟨by linarith, ?_⟩⟩,
        ⟨fun hh => ⟨by linarith [hh.1], by linarith [hh.2]⟩, fun hh => ?_⟩⟩
      · linarith
      · linarith [hh.1]
    · have h1 := h.1
      have h2 := h.2
      simp only at h1 h2
      refine ⟨⟨fun hh => ?_, fun hh => ?_⟩, ⟨fun hh => ?_, fun hh => ?_⟩⟩ <;> exfalso <;> linarith [hh.1, hh.2]
  have a := one _ hv
  have b := one _ hw
  unfold Geo.isEntering Geo.isLeaving Geo.isInside Geo.isBehind
  rw [hdd, a.1, a.2, b.1, b.2]
  exact ⟨Iff.rfl, Iff.rfl, and_comm⟩

/-- Every sphere has the documented shape (for arbitrary, even non-unit, directions and radii). -/
theorem C05_sphere_valid (S : Sphere) (n : ℕ) (p d : Vec3) :
    ValidPair ((S.toGeo n).dist p d) := sphere_valid S p d

/-- Every sphere, position and direction meets the hypotheses of `C05_leaving_reversed`. -/
example (S : Sphere) (n : ℕ) (p d : Vec3) : (S.toGeo n).isLeaving p d ↔ (S.toGeo n).isEntering p (-d) :=
  (C05_leaving_reversed _ p d (C05_sphere_valid S n p d) (C05_sphere_valid S n p (-d))).2.2

/-- **C06** (sphere). A particle is classified inside exactly when the ray point just short of
`GEOMETRY_PRECISION` ahead lies in the open material: for every position and unit direction,
including positions on and near the borders. -/
theorem C06_sphere_inside (S : Sphere) (hR : 0 < S.radius) (hr : S.inner < S.radius) (n : ℕ)
    (p d : Vec3) (hd : UnitVec d) :
    (S.toGeo n).isInside p d ↔
      ∀ᶠ s in nhdsWithin GEOMETRY_PRECISION (Set.Iio GEOMETRY_PRECISION), InMaterial S p d s := by
  have hd' : d.mag = 1 := (unitVec_iff d).1 hd
  have e := sphere_inside_roots S hr hR ((p - S.center).mag ^ 2) ((p - S.center).dot d)
  unfold Geo.isInside Sphere.toGeo InMaterial
  simp only [rayDistSq_eq S.center p d hd', Filter.eventually_and]
  unfold Sphere.distanceToBorder
  rw [e]
  generalize (p - S.center).dot d = B
  generalize (p - S.center).mag ^ 2 = l2
  have root : ∀ ρ s, 0 < B * B - (l2 - ρ * ρ) →
      s ^ 2 + 2 * s * B + l2 - ρ ^ 2 =
      (s - (-1 * B + Real.sqrt (B * B - (l2 - ρ * ρ)))) * (s - (-1 * B - Real.sqrt (B * B - (l2 - ρ * ρ)))) := by
    intro ρ s h
    have := Real.mul_self_sqrt h.le
    linear_combination this
  have ord : ∀ ρ, 0 < B * B - (l2 - ρ * ρ) → -1 * B - Real.sqrt (B * B - (l2 - ρ * ρ)) <
      -1 * B + Real.sqrt (B * B - (l2 - ρ * ρ)) := by
    intro ρ h; have := Real.sqrt_pos.2 h; linarith
  refine and_congr ?_ ?_
  · by_cases hdet : 0 < B * B - (l2 - S.radius * S.radius)
    · rw [← (prod_left _ _ GEOMETRY_PRECISION (ord _ hdet)).1]
      simp only [hdet, true_and, ← root _ _ hdet, sub_neg]
    · constructor
      · intro h; exact absurd h.1 hdet
      · intro h
        obtain ⟨s, hs⟩ := h.exists
        exfalso; apply hdet; nlinarith [sq_nonneg (s + B)]
  · by_cases hin : 0 < S.inner
    · by_cases hdet : 0 < B * B - (l2 - S.inner * S.inner)
      · simp only [hdet, hin, true_and, forall_const]
        rw [← (prod_left _ _ GEOMETRY_PRECISION (ord _ hdet)).2]
        simp only [← root _ _ hdet, sub_pos]
      · simp only [hdet, hin, forall_const, and_false, false_and, not_false_eq_true, true_iff]
        by_cases hz : GEOMETRY_PRECISION ≤ -B
        · have h2 : ∀ᶠ s in nhdsWithin GEOMETRY_PRECISION (Set.Iio GEOMETRY_PRECISION),
              s < GEOMETRY_PRECISION := eventually_mem_nhdsWithin
          filter_upwards [h2] with s hs
          have : 0 < (-(s + B)) * (-(s + B)) := by apply mul_pos <;> linarith
          nlinarith
        · filter_upwards [lt_left_iff.2 (lt_of_not_ge hz)] with s hs
          have : 0 < (s + B) * (s + B) := by apply mul_pos <;> linarith
          nlinarith
    · simp [hin]

/-- **C06** (sphere). For points of the material farther than `GEOMETRY_PRECISION` from the
borders the classification does not depend on the direction; points farther than that from the
material are never inside. -/
theorem C06_sphere_inside_direction_free (S : Sphere) (hr0 : 0 ≤ S.inner) (hr : S.inner < S.radius) (n : ℕ)
    (p d : Vec3) (hd : UnitVec d) :
    ((S.inner + GEOMETRY_PRECISION ≤ (p - S.center).mag ∨ S.inner = 0) →
      (p - S.center).mag + GEOMETRY_PRECISION ≤ S.radius → (S.toGeo n).isInside p d) ∧
    ((p - S.center).mag + GEOMETRY_PRECISION ≤ S.inner ∨
      S.radius + GEOMETRY_PRECISION ≤ (p - S.center).mag → ¬ (S.toGeo n).isInside p d) := by
  have hp := prec_pos
  have hd' : d.mag = 1 := (unitVec_iff d).1 hd
  have hl0 := Vec3.mag_nonneg (p - S.center)
  have hB : |(p - S.center).dot d| ≤ (p - S.center).mag := by
    apply abs_le_of_sq_le_sq _ hl0
    have h0 : 0 ≤ Spec.rayDistSq S.center p d (-((p - S.center).dot d)) := by
      unfold Spec.rayDistSq; positivity
    rw [rayDistSq_eq S.center p d hd'] at h0
    nlinarith
  rw [C06_sphere_inside S (by linarith) hr n p d hd]
  have h2 : ∀ᶠ s in nhdsWithin GEOMETRY_PRECISION (Set.Iio GEOMETRY_PRECISION),
              s < GEOMETRY_PRECISION := eventually_mem_nhdsWithin
  have h3 : ∀ᶠ s in nhdsWithin GEOMETRY_PRECISION (Set.Iio GEOMETRY_PRECISION),
              0 < s := lt_left_iff.2 hp
  unfold InMaterial
  simp only [rayDistSq_eq S.center p d hd']
  generalize (p - S.center).dot d = B at *
  generalize (p - S.center).mag = l at *
  obtain ⟨hB1, hB2⟩ := abs_le.1 hB
  constructor
  · intro h1 h1'
    filter_upwards [h2, h3] with s hs hs0
    constructor
    · have : s ^ 2 + 2 * s * B + l ^ 2 ≤ (l + s) ^ 2 := by nlinarith
      nlinarith
    · intro hi
      rcases h1 with h1 | h1
      · have : (l - s) ^ 2 ≤ s ^ 2 + 2 * s * B + l ^ 2 := by nlinarith
        nlinarith
      · linarith
  · intro h h'
    obtain ⟨s, ⟨hs1, hs2⟩, hs, hs0⟩ := (h'.and (h2.and h3)).exists
    rcases h with h | h
    · have hi : 0 < S.inner := by linarith
      have := hs2 hi
      have : s ^ 2 + 2 * s * B + l ^ 2 ≤ (l + s) ^ 2 := by nlinarith
      nlinarith
    · have : (l - s) ^ 2 ≤ s ^ 2 + 2 * s * B + l ^ 2 := by nlinarith
      nlinarith

/-- The centre of a solid ball is inside for the direction z. -/
example : ((⟨0, 2, 0⟩ : Sphere).toGeo 0).isInside 0 ⟨0, 0, 1⟩ := by
  have hm : ((0 : Vec3) - 0).mag = 0 := by
    rw [Vec3.mag_eq_zero_iff]; ext <;> simp
  refine (C06_sphere_inside_direction_free ⟨0, 2, 0⟩ le_rfl (by norm_num) 0 0 ⟨0, 0, 1⟩
    (by norm_num [UnitVec])).1 (Or.inr rfl) ?_
  simp only [hm, GEOMETRY_PRECISION]; norm_num

/-- **C07**. `DistanceToClosestApproach` is the unique minimiser of the distance to the centre
along the whole line. -/
theorem C07_closest_approach (g : Geo) (p d : Vec3) (hd : UnitVec d) (s : ℝ) :
    rayDistSq g.center p d (g.closestApproach p d) ≤ rayDistSq g.center p d s ∧
    (rayDistSq g.center p d s = rayDistSq g.center p d (g.closestApproach p d) →
      s = g.closestApproach p d) := by
  have hd' : d.mag = 1 := (unitVec_iff d).1 hd
  have e : g.closestApproach p d = -((p - g.center).dot d) := by
    unfold Geo.closestApproach Vec3.dot; simp; ring
  simp only [rayDistSq_eq g.center p d hd', e]
  generalize (p - g.center).dot d = B
  generalize (p - g.center).mag ^ 2 = l2
  constructor
  · nlinarith [sq_nonneg (s + B)]
  · intro h
    have : (s + B) ^ 2 = 0 := by nlinarith
    have := pow_eq_zero_iff (two_ne_zero) |>.1 this
    linarith

/-- A line passing the origin at distance 3: closest approach is 2 ahead. -/
example (f) : (⟨0, 0, f⟩ : Geo).closestApproach ⟨-2, 3, 0⟩ ⟨1, 0, 0⟩ = 2 := by
  simp [Geo.closestApproach, Vec3.dot]

end Proposal
