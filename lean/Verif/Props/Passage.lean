import Verif.Props.Lookup
import Verif.Props.Sphere

/-!
# Passage of a track through a geometry (C24 to C26)
-/

namespace Proposal

open Spec

/-! ## C24: entry and exit points -/

/-- Seen from `a`, the nearest border of `g` in the direction of `b` is at distance `t` and not
behind `b`. -/
def Spec.Crossed (g : Geo) (a b : Entry) (t : ℝ) : Prop :=
  0 < euclid a.state.position b.state.position ∧
  (g.dist a.state.position (towards a.state.position b.state.position)).1 = t ∧ 0 ≤ t ∧
  t ≤ euclid a.state.position b.state.position

/-- Seen from `b` looking back to `a`, the nearest border of `g` is at distance `t` and not behind
`a`. -/
def Spec.CrossedBack (g : Geo) (a b : Entry) (t : ℝ) : Prop :=
  0 < euclid a.state.position b.state.position ∧
  (g.dist b.state.position (-towards a.state.position b.state.position)).1 = t ∧ 0 ≤ t ∧
  t ≤ euclid a.state.position b.state.position

/-- `s` is the state reached on the step from `a` to `b` after the way `t`. -/
def Spec.Reached (a b : Entry) (t : ℝ) (s : PState) : Prop :=
  s.position.x = a.state.position.x + t * (towards a.state.position b.state.position).x ∧
  s.position.y = a.state.position.y + t * (towards a.state.position b.state.position).y ∧
  s.position.z = a.state.position.z + t * (towards a.state.position b.state.position).z ∧
  s.distance = a.state.distance + t

/-- No step of the list meets the border. -/
def Spec.NoCrossing (g : Geo) (l : List Entry) : Prop :=
  List.IsChain (fun a b => ∀ t, ¬ Crossed g a b t) l

/-- Looking back, no step of the list meets the border. -/
def Spec.NoCrossingBack (g : Geo) (l : List Entry) : Prop :=
  List.IsChain (fun a b => ∀ t, ¬ CrossedBack g a b t) l

lemma euclid_eq' (p q : Vec3) : euclid p q = (q - p).mag := (mag_sub_eq p q).symm

lemma euclid_nonneg (p q : Vec3) : 0 ≤ euclid p q := Real.sqrt_nonneg _

lemma norm_cases (p q : Vec3) :
    (euclid p q = 0 ∧ (q - p).normalize = none) ∨
    (0 < euclid p q ∧ (q - p).normalize = some (towards p q)) := by
  rcases (euclid_nonneg p q).eq_or_lt with h | h
  · left
    refine ⟨h.symm, normalize_of_zero ?_⟩
    rw [← euclid_eq', ← h]
  · right
    refine ⟨h, ?_⟩
    rw [euclid_eq'] at h
    rw [normalize_of_pos h]
    congr 1
    unfold Spec.towards
    rw [euclid_eq']
    ext <;> simp <;> ring

lemma reprop {S : List Sector} {x : PState} {u : Vec3} {t : ℝ} {r : Option PState}
    (h : (rePropagateDistance S x u t).map some = .ok r) :
    ∃ s, r = some s ∧ s.position = x.position + t • u ∧ s.distance = x.distance + t := by
  unfold rePropagateDistance at h
  cases hs : lookupSector S x.position u with
  | error e => rw [hs] at h; cases h
  | ok s =>
    rw [hs] at h
    obtain rfl := Except.ok.inj h
    exact ⟨_, rfl, rfl, rfl⟩

lemma entryFrom_ok {S : List Sector} {g : Geo} {a : Entry} {l : List Entry} {r : Option PState}
    (h : entryFrom S g a l = .ok r) :
    (r = none ∧ NoCrossing g (a :: l)) ∨
    (∃ l1 x y l2 t s, a :: l = l1 ++ x :: y :: l2 ∧ NoCrossing g (l1 ++ [x]) ∧ Crossed g x y t ∧
      r = some s ∧ ((|euclid x.state.position y.state.position - t| < PARTICLE_POSITION_RESOLUTION ∧ s = y.state) ∨
       (PARTICLE_POSITION_RESOLUTION ≤ |euclid x.state.position y.state.position - t| ∧ Reached x y t s))) := by
  induction l generalizing a with
  | nil => left; exact ⟨(Except.ok.inj h).symm, List.isChain_singleton _⟩
  | cons b l ih =>
    have cont : (∀ t, ¬ Crossed g a b t) → entryFrom S g b l = .ok r →
        (r = none ∧ NoCrossing g (a :: b :: l)) ∨
        (∃ l1 x y l2 t s, a :: b :: l = l1 ++ x :: y :: l2 ∧ NoCrossing g (l1 ++ [x]) ∧ Crossed g x y t ∧
          r = some s ∧ ((|euclid x.state.position y.state.position - t| < PARTICLE_POSITION_RESOLUTION ∧ s = y.state) ∨
          (PARTICLE_POSITION_RESOLUTION ≤ |euclid x.state.position y.state.position - t| ∧ Reached x y t s))) := by
      intro hn h
      rcases ih h with ⟨h1, h2⟩ | ⟨l1, x, y, l2, t, s, h1, h2, h3⟩
      · left; exact ⟨h1, List.isChain_cons_cons.2 ⟨hn, h2⟩⟩
      · right
        refine ⟨a :: l1, x, y, l2, t, s, by rw [h1]; rfl, ?_, h3⟩
        cases l1 with
        | nil =>
          obtain ⟨rfl, _⟩ : b = x ∧ l = y :: l2 := by simpa using h1
          exact List.isChain_cons_cons.2 ⟨hn, List.isChain_singleton _⟩
        | cons z l1 =>
          obtain ⟨rfl, _⟩ : b = z ∧ l = l1 ++ x :: y :: l2 := by simpa using h1
          exact List.isChain_cons_cons.2 ⟨hn, h2⟩
    rw [entryFrom] at h
    rcases norm_cases a.state.position b.state.position with ⟨h0, hn⟩ | ⟨h0, hn⟩
    · rw [hn] at h
      exact cont (fun t hc => absurd hc.1 (by rw [h0]; exact lt_irrefl _)) h
    · rw [hn] at h
      simp only [← euclid_eq'] at h
      split_ifs at h with h1 h2
      · right
        exact ⟨[], a, b, l, _, _, rfl, List.isChain_singleton _, ⟨h0, rfl, h1.2, h1.1⟩,
          (Except.ok.inj h).symm, Or.inl ⟨h2, rfl⟩⟩
      · right
        obtain ⟨s, hs, hp, hd⟩ := reprop h
        refine ⟨[], a, b, l, _, s, rfl, List.isChain_singleton _, ⟨h0, rfl, h1.2, h1.1⟩, hs,
          Or.inr ⟨not_lt.1 h2, ?_, ?_, ?_, hd⟩⟩ <;> rw [hp] <;> simp
      · exact cont (fun t hc => h1 ⟨by rw [hc.2.1]; exact hc.2.2.2, by rw [hc.2.1]; exact hc.2.2.1⟩) h

/-- The first crossing is unique. -/
lemma first_unique {R : Entry → Entry → Prop} {l1 l1' l2 l2' : List Entry} {x y x' y' : Entry}
    (h : l1 ++ x :: y :: l2 = l1' ++ x' :: y' :: l2')
    (h1 : List.IsChain (fun a b => ¬ R a b) (l1 ++ [x])) (h2 : R x y)
    (h1' : List.IsChain (fun a b => ¬ R a b) (l1' ++ [x'])) (h2' : R x' y') : x = x' ∧ y = y' := by
  induction l1 generalizing l1' with
  | nil =>
    cases l1' with
    | nil =>
      simp only [List.nil_append, List.cons.injEq] at h
      exact ⟨h.1, h.2.1⟩
    | cons z l1' =>
      simp only [List.nil_append, List.cons_append, List.cons.injEq] at h
      obtain ⟨rfl, h⟩ := h
      exfalso
      cases l1' with
      | nil =>
        simp only [List.nil_append, List.cons.injEq] at h
        obtain ⟨rfl, _⟩ := h
        exact (List.isChain_cons_cons.1 h1').1 h2
      | cons w l1' =>
        simp only [List.cons_append, List.cons.injEq] at h
        obtain ⟨rfl, _⟩ := h
        exact (List.isChain_cons_cons.1 h1').1 h2
  | cons z l1 ih =>
    cases l1' with
    | nil =>
      simp only [List.nil_append, List.cons_append, List.cons.injEq] at h
      obtain ⟨rfl, h⟩ := h
      exfalso
      cases l1 with
      | nil =>
        simp only [List.nil_append, List.cons.injEq] at h
        obtain ⟨rfl, _⟩ := h
        exact (List.isChain_cons_cons.1 h1).1 h2'
      | cons w l1 =>
        simp only [List.cons_append, List.cons.injEq] at h
        obtain ⟨rfl, _⟩ := h
        exact (List.isChain_cons_cons.1 h1).1 h2'
    | cons z' l1' =>
      simp only [List.cons_append, List.cons.injEq] at h
      refine ih h.2 ?_ ?_
      · exact h1.tail
      · exact h1'.tail

/-- C24: `GetEntryPoint` returns the start of the track when the particle enters there, nothing when
the track starts inside, nothing when no step meets the border, and otherwise a state on the first
step that does: the end of the step if the border is within 1e-3 of it, else the state exactly at the
border. -/
theorem C24_entry_point (S : List Sector) (g : Geo) (x : Entry) (l : List Entry) (r : Option PState)
    (h : entryPoint S g (x :: l) = .ok r) :
    (g.isEntering x.state.position x.state.direction → r = some x.state) ∧
    (¬ g.isEntering x.state.position x.state.direction →
      g.isInside x.state.position x.state.direction → r = none) ∧
    (¬ g.isEntering x.state.position x.state.direction →
      ¬ g.isInside x.state.position x.state.direction →
      (r = none ↔ NoCrossing g (x :: l)) ∧
      ∀ l1 a b l2 t, x :: l = l1 ++ a :: b :: l2 → NoCrossing g (l1 ++ [a]) → Crossed g a b t →
        ∃ s, r = some s ∧
          ((|euclid a.state.position b.state.position - t| < PARTICLE_POSITION_RESOLUTION ∧ s = b.state) ∨
          (PARTICLE_POSITION_RESOLUTION ≤ |euclid a.state.position b.state.position - t| ∧ Reached a b t s))) := by
  simp only [entryPoint] at h
  refine ⟨?_, ?_, ?_⟩
  · intro h1
    rw [if_pos h1] at h
    exact (Except.ok.inj h).symm
  · intro h1 h2
    rw [if_neg h1, if_pos h2] at h
    exact (Except.ok.inj h).symm
  · intro h1 h2
    rw [if_neg h1, if_neg h2] at h
    have no : ∀ l1 a b l2 t, x :: l = l1 ++ a :: b :: l2 → Crossed g a b t → ¬ NoCrossing g (x :: l) := by
      intro l1 a b l2 t hl hc hno
      rw [hl] at hno
      have := (List.isChain_append.1 hno).2.1
      exact (List.isChain_cons_cons.1 this).1 t hc
    rcases entryFrom_ok h with ⟨h3, h4⟩ | ⟨l1, a, b, l2, t, s, h3, h4, h5, h6, h7⟩
    · refine ⟨⟨fun _ => h4, fun _ => h3⟩, ?_⟩
      intro l1 a b l2 t hl _ hc
      exact absurd h4 (no l1 a b l2 t hl hc)
    · refine ⟨⟨fun hr => (by rw [hr] at h6; cases h6), fun hn => absurd hn (no l1 a b l2 t h3 h5)⟩, ?_⟩
      intro l1' a' b' l2' t' hl hn hc
      have hu := first_unique (R := fun a b => ∃ t, Crossed g a b t) (h3.symm.trans hl)
        (by simpa [NoCrossing] using h4) ⟨t, h5⟩ (by simpa [NoCrossing] using hn) ⟨t', hc⟩
      obtain ⟨rfl, rfl⟩ := hu
      obtain rfl : t = t' := by rw [← h5.2.1, ← hc.2.1]
      exact ⟨s, h6, h7⟩

lemma exitFrom_ok {S : List Sector} {g : Geo} {b : Entry} {l : List Entry} {r : Option PState}
    (h : exitFrom S g b l = .ok r) :
    (r = none ∧ NoCrossingBack g (l.reverse ++ [b])) ∨
    (∃ l1 x y l2 t s, l.reverse ++ [b] = l1 ++ x :: y :: l2 ∧ NoCrossingBack g (y :: l2) ∧
      CrossedBack g x y t ∧ r = some s ∧
      ((|euclid x.state.position y.state.position - t| < PARTICLE_POSITION_RESOLUTION ∧ s = x.state) ∨
       (PARTICLE_POSITION_RESOLUTION ≤ |euclid x.state.position y.state.position - t| ∧
        Reached x y (euclid x.state.position y.state.position - t) s))) := by
  induction l generalizing b with
  | nil => left; exact ⟨(Except.ok.inj h).symm, List.isChain_singleton _⟩
  | cons a l ih =>
    rw [List.reverse_cons]
    have cont : (∀ t, ¬ CrossedBack g a b t) → exitFrom S g a l = .ok r →
        (r = none ∧ NoCrossingBack g (l.reverse ++ [a] ++ [b])) ∨
        (∃ l1 x y l2 t s, l.reverse ++ [a] ++ [b] = l1 ++ x :: y :: l2 ∧ NoCrossingBack g (y :: l2) ∧
          CrossedBack g x y t ∧ r = some s ∧
          ((|euclid x.state.position y.state.position - t| < PARTICLE_POSITION_RESOLUTION ∧ s = x.state) ∨
          (PARTICLE_POSITION_RESOLUTION ≤ |euclid x.state.position y.state.position - t| ∧
          Reached x y (euclid x.state.position y.state.position - t) s))) := by
      intro hn h
      rcases ih h with ⟨h1, h2⟩ | ⟨l1, x, y, l2, t, s, h1, h2, h3⟩
      · left
        refine ⟨h1, List.isChain_append.2 ⟨h2, List.isChain_singleton _, ?_⟩⟩
        intro u hu v hv
        obtain rfl : a = u := by simpa using hu
        obtain rfl : b = v := by simpa using hv
        exact hn
      · right
        refine ⟨l1, x, y, l2 ++ [b], t, s, by rw [h1]; simp, ?_, h3⟩
        unfold Spec.NoCrossingBack
        rw [← List.cons_append]
        refine List.isChain_append.2 ⟨h2, List.isChain_singleton _, ?_⟩
        intro u hu v hv
        have hlast : (l.reverse ++ [a]).getLast? = (y :: l2).getLast? := by
          rw [h1, List.getLast?_append, List.getLast?_cons_cons]
          simp [List.getLast?_cons]
        rw [← hlast] at hu
        obtain rfl : a = u := by simpa using hu
        obtain rfl : b = v := by simpa using hv
        exact hn
    rw [exitFrom] at h
    rcases norm_cases a.state.position b.state.position with ⟨h0, hn⟩ | ⟨h0, hn⟩
    · rw [hn] at h
      exact cont (fun t hc => absurd hc.1 (by rw [h0]; exact lt_irrefl _)) h
    · rw [hn] at h
      simp only [← euclid_eq'] at h
      split_ifs at h with h1 h2
      · right
        exact ⟨l.reverse, a, b, [], _, _, by simp, List.isChain_singleton _, ⟨h0, rfl, h1.2, h1.1⟩,
          (Except.ok.inj h).symm, Or.inl ⟨h2, rfl⟩⟩
      · right
        obtain ⟨s, hs, hp, hd⟩ := reprop h
        refine ⟨l.reverse, a, b, [], _, s, by simp, List.isChain_singleton _, ⟨h0, rfl, h1.2, h1.1⟩, hs,
          Or.inr ⟨not_lt.1 h2, ?_, ?_, ?_, hd⟩⟩ <;> rw [hp] <;> simp
      · exact cont (fun t hc => h1 ⟨by rw [hc.2.1]; exact hc.2.2.2, by rw [hc.2.1]; exact hc.2.2.1⟩) h

/-- C24: `GetExitPoint` returns the end of the track when the particle leaves there, nothing when the
track ends inside; otherwise a state on the last step that meets the border (looking back): the start
of the step if the border is within 1e-3 of it, else the state exactly at the border; and when no step
does, the start of the track if the particle leaves there, and nothing otherwise. -/
theorem C24_exit_point (S : List Sector) (g : Geo) (l : List Entry) (x0 x : Entry) (r : Option PState)
    (h0 : (l ++ [x]).head? = some x0) (h : exitPoint S g (l ++ [x]) = .ok r) :
    (g.isLeaving x.state.position x.state.direction → r = some x.state) ∧
    (¬ g.isLeaving x.state.position x.state.direction →
      g.isInside x.state.position x.state.direction → r = none) ∧
    (¬ g.isLeaving x.state.position x.state.direction →
      ¬ g.isInside x.state.position x.state.direction →
      (NoCrossingBack g (l ++ [x]) →
        (g.isLeaving x0.state.position x0.state.direction → r = some x0.state) ∧
        (¬ g.isLeaving x0.state.position x0.state.direction → r = none)) ∧
      ∀ l1 a b l2 t, l ++ [x] = l1 ++ a :: b :: l2 → NoCrossingBack g (b :: l2) → CrossedBack g a b t →
        ∃ s, r = some s ∧
          ((|euclid a.state.position b.state.position - t| < PARTICLE_POSITION_RESOLUTION ∧ s = a.state) ∨
          (PARTICLE_POSITION_RESOLUTION ≤ |euclid a.state.position b.state.position - t| ∧
            Reached a b (euclid a.state.position b.state.position - t) s))) := by
  simp only [exitPoint, h0, List.reverse_append, List.reverse_singleton, List.singleton_append] at h
  refine ⟨?_, ?_, ?_⟩
  · intro h1
    rw [if_pos h1] at h
    exact (Except.ok.inj h).symm
  · intro h1 h2
    rw [if_neg h1, if_pos h2] at h
    exact (Except.ok.inj h).symm
  · intro h1 h2
    rw [if_neg h1, if_neg h2] at h
    have no : ∀ l1 a b l2 t, l ++ [x] = l1 ++ a :: b :: l2 → CrossedBack g a b t →
        ¬ NoCrossingBack g (l ++ [x]) := by
      intro l1 a b l2 t hl hc hno
      rw [hl] at hno
      have := (List.isChain_append.1 hno).2.1
      exact (List.isChain_cons_cons.1 this).1 t hc
    cases he : exitFrom S g x l.reverse with
    | error e => rw [he] at h; cases h
    | ok r' =>
      rcases exitFrom_ok he with ⟨h3, h4⟩ | ⟨l1, a, b, l2, t, s, h3, h4, h5, h6, h7⟩
      · rw [List.reverse_reverse] at h4
        subst h3
        rw [he] at h
        simp only [] at h
        refine ⟨fun _ => ⟨?_, ?_⟩, ?_⟩
        · intro hl
          rw [if_pos hl] at h
          exact (Except.ok.inj h).symm
        · intro hl
          rw [if_neg hl] at h
          exact (Except.ok.inj h).symm
        · intro l1 a b l2 t hl _ hc
          exact absurd h4 (no l1 a b l2 t hl hc)
      · rw [List.reverse_reverse] at h3
        subst h6
        rw [he] at h
        obtain rfl := Except.ok.inj h
        refine ⟨fun hn => absurd hn (no l1 a b l2 t h3 h5), ?_⟩
        intro l1' a' b' l2' t' hl hn hc
        have hu := first_unique (R := fun b a => ∃ t, CrossedBack g a b t)
          (l1 := l2.reverse) (l1' := l2'.reverse) (x := b) (y := a) (x' := b') (y' := a')
          (l2 := l1.reverse) (l2' := l1'.reverse)
          (by simpa using congrArg List.reverse (h3.symm.trans hl))
          (by rw [← List.reverse_cons, List.isChain_reverse]; simpa [NoCrossingBack, Function.flip_def] using h4)
          ⟨t, h5⟩
          (by rw [← List.reverse_cons, List.isChain_reverse]; simpa [NoCrossingBack, Function.flip_def] using hn)
          ⟨t', hc⟩
        obtain ⟨rfl, rfl⟩ := hu
        obtain rfl : t = t' := by rw [← h5.2.1, ← hc.2.1]
        exact ⟨s, rfl, h7⟩

/-- C24: `GetELost` is the energy difference of entry and exit point, and dereferences a null pointer
when one of them is missing, for instance for every track that starts or ends inside. -/
theorem C24_energy_lost (S : List Sector) (g : Geo) (l : List Entry) (i f : Option PState)
    (hi : entryPoint S g l = .ok i) (hf : exitPoint S g l = .ok f) :
    (∀ a b, i = some a → f = some b → eLost S g l = .ok (a.energy - b.energy)) ∧
    (i = none ∨ f = none → eLost S g l = .error .nullPtr) := by
  simp only [eLost, hi, hf]
  constructor
  · rintro a b rfl rfl; rfl
  · rintro (rfl | rfl)
    · rfl
    · cases i <;> rfl

/-! ### Entry and exit points of spherical shells -/

lemma mag_sq_eq (c p : Vec3) : (p - c).mag ^ 2 = (p.x - c.x) ^ 2 + (p.y - c.y) ^ 2 + (p.z - c.z) ^ 2 := by
  rw [Vec3.mag_sq]; unfold Vec3.dot; simp; ring

lemma dot_bound (a d : Vec3) (hd : d.mag = 1) : |a.dot d| ≤ a.mag := by
  apply abs_le_of_sq_le_sq _ (Vec3.mag_nonneg a)
  rw [Vec3.mag_sq]
  rw [Vec3.mag_eq_one_iff] at hd
  unfold Vec3.dot at *
  nlinarith [sq_nonneg (a.x * d.y - a.y * d.x), sq_nonneg (a.x * d.z - a.z * d.x),
    sq_nonneg (a.y * d.z - a.z * d.y)]

/-- A point from which a sphere is met after the way `s` is not farther than `|s|` from it. -/
lemma near_of_ray {c p d : Vec3} (hd : d.mag = 1) {s ρ : ℝ} (hρ : 0 ≤ ρ)
    (h : rayDistSq c p d s = ρ ^ 2) : |euclid c p - ρ| ≤ |s| := by
  rw [rayDistSq_eq c p d hd] at h
  rw [euclid_eq']
  have hB := dot_bound (p - c) d hd
  have h0 := Vec3.mag_nonneg (p - c)
  generalize (p - c).mag = m at *
  generalize (p - c).dot d = B at *
  have hs := abs_nonneg s
  have hBs : |2 * B * s| ≤ 2 * m * |s| := by
    rw [abs_mul, abs_mul, abs_two]
    have := mul_le_mul_of_nonneg_right hB hs
    nlinarith
  have hs2 : |s| ^ 2 = s ^ 2 := sq_abs s
  have h1 := (abs_le.1 hBs)
  rw [abs_le]
  constructor
  · by_contra hc
    have : m + |s| < ρ := by linarith
    nlinarith
  · by_contra hc
    have : ρ < m - |s| := by linarith
    nlinarith

lemma first_on_shell (S : Sphere) (hR : 0 < S.radius) (hr : S.inner < S.radius) (p d : Vec3)
    (hd : UnitVec d) (h : 0 ≤ (S.distanceToBorder p d).1) :
    rayDistSq S.center p d (S.distanceToBorder p d).1 = S.radius ^ 2 ∨
    (0 < S.inner ∧ rayDistSq S.center p d (S.distanceToBorder p d).1 = S.inner ^ 2) := by
  obtain ⟨l, _, hl, hq⟩ := C02_shell_distances S hR hr p d hd
  rw [hq] at h ⊢
  have key : ∀ t, t ∈ l → rayDistSq S.center p d t = S.radius ^ 2 ∨
      (0 < S.inner ∧ rayDistSq S.center p d t = S.inner ^ 2) := by
    intro t ht
    rcases ((hl t).1 ht).2 with h | h
    · exact Or.inl h.2.1
    · exact Or.inr ⟨h.1, h.2.1⟩
  cases l with
  | nil => simp only [borderPair] at h; linarith
  | cons a l =>
    have : (borderPair (a :: l)).1 = a := by
      cases l with
      | nil => rfl
      | cons b l => simp only [borderPair]; split_ifs <;> rfl
    rw [this]
    exact key a (by simp)

lemma neg_unit {d : Vec3} (hd : UnitVec d) : UnitVec (-d) := by
  unfold UnitVec at *; simpa using hd

lemma rayDistSq_neg (c p d : Vec3) (t : ℝ) : rayDistSq c p (-d) t = rayDistSq c p d (-t) := by
  unfold rayDistSq; simp

/-- A particle that enters a shell is within `GEOMETRY_PRECISION` of its outer sphere. -/
lemma entering_near (S : Sphere) (hR : 0 < S.radius) (hr : S.inner < S.radius) (n : ℕ) (p d : Vec3)
    (hd : UnitVec d) (h : (S.toGeo n).isEntering p d) :
    |euclid S.center p - S.radius| ≤ GEOMETRY_PRECISION := by
  have hP := prec_pos
  have hd' : d.mag = 1 := (unitVec_iff d).1 hd
  obtain ⟨⟨h1, h2⟩, h3, h4⟩ := h
  have hin : (S.toGeo n).isInside p d := by
    rcases sphere_valid S p d with hv | hv | hv
    · have : (S.distanceToBorder p d).1 = -1 := by rw [hv]
      change 0 ≤ (S.distanceToBorder p d).1 at h1
      linarith
    · exact ⟨hv.1, by rw [h2]; norm_num⟩
    · have := hv.2
      change (S.distanceToBorder p d).2 = -1 at h2
      linarith
  have hev := (C06_sphere_inside S hR hr n p d hd).1 hin
  have hgt : ∀ᶠ s in nhdsWithin GEOMETRY_PRECISION (Set.Iio GEOMETRY_PRECISION), -GEOMETRY_PRECISION < s :=
    lt_left_iff.2 (by linarith)
  have hlt : ∀ᶠ s in nhdsWithin GEOMETRY_PRECISION (Set.Iio GEOMETRY_PRECISION), s < GEOMETRY_PRECISION :=
    eventually_mem_nhdsWithin
  obtain ⟨s0, ⟨hm, _⟩, hs1, hs2⟩ := (hev.and (hgt.and hlt)).exists
  have hback : ∀ t, t ∉ shellCrossings S p (-d) := by
    obtain ⟨l, _, hl, hq⟩ := C02_shell_distances S hR hr p (-d) (neg_unit hd)
    intro t ht
    change (S.distanceToBorder p (-d)).1 = -1 at h3
    have ht' := (hl t).2 ht
    cases l with
    | nil => simp at ht'
    | cons a l =>
      have : (borderPair (a :: l)).1 = a := by
        cases l with
        | nil => rfl
        | cons b l => simp only [borderPair]; split_ifs <;> rfl
      rw [hq, this] at h3
      have := ((hl a).1 (by simp)).1
      linarith
  have hfar : S.radius ^ 2 ≤ rayDistSq S.center p d (-GEOMETRY_PRECISION) := by
    by_contra hc
    push Not at hc
    rw [rayDistSq_eq _ _ _ hd'] at hc
    generalize hB : (p - S.center).dot d = B at *
    generalize hl2 : (p - S.center).mag ^ 2 = l2 at *
    have hdet : 0 < B ^ 2 - (l2 - S.radius ^ 2) := by nlinarith [sq_nonneg (B - GEOMETRY_PRECISION)]
    have hsq := Real.sq_sqrt hdet.le
    have hsp := Real.sqrt_pos.2 hdet
    set w := Real.sqrt (B ^ 2 - (l2 - S.radius ^ 2)) with hw
    refine hback (B + w) ⟨?_, Or.inl ⟨hR, ?_, GEOMETRY_PRECISION, ?_⟩⟩
    · by_contra hc'
      push Not at hc'
      nlinarith
    · rw [rayDistSq_neg, rayDistSq_eq _ _ _ hd', hB, hl2]
      nlinarith
    · rw [rayDistSq_neg, rayDistSq_eq _ _ _ hd', hB, hl2]
      exact hc
  have hcont : ContinuousOn (fun s => rayDistSq S.center p d s) (Set.Icc (-GEOMETRY_PRECISION) s0) := by
    unfold rayDistSq; fun_prop
  obtain ⟨s, hs, hsv⟩ := intermediate_value_Icc' hs1.le hcont ⟨hm.le, hfar⟩
  refine (near_of_ray hd' hR.le hsv).trans ?_
  rw [abs_le]
  exact ⟨hs.1, hs.2.trans hs2.le⟩

lemma towards_unit {p q : Vec3} (h : 0 < euclid p q) : UnitVec (towards p q) := by
  have h2 : euclid p q ^ 2 = (q.x - p.x) ^ 2 + (q.y - p.y) ^ 2 + (q.z - p.z) ^ 2 :=
    Real.sq_sqrt (by positivity)
  unfold UnitVec Spec.towards
  have := h.ne'
  simp only []
  field_simp
  linarith

lemma towards_end {p q : Vec3} (h : 0 < euclid p q) :
    q.x = p.x + euclid p q * (towards p q).x ∧ q.y = p.y + euclid p q * (towards p q).y ∧
    q.z = p.z + euclid p q * (towards p q).z := by
  unfold Spec.towards
  have := h.ne'
  refine ⟨?_, ?_, ?_⟩ <;> field_simp <;> ring

/-- The state is within 1e-3 of the outer or the inner surface of the shell. -/
def Spec.OnShell (S : Sphere) (s : PState) : Prop :=
  |euclid S.center s.position - S.radius| < PARTICLE_POSITION_RESOLUTION ∨
  (0 < S.inner ∧ |euclid S.center s.position - S.inner| < PARTICLE_POSITION_RESOLUTION)

lemma onShell_of_ray (S : Sphere) (hR : 0 < S.radius) {s : PState} {d : Vec3} (hd : UnitVec d) {t : ℝ}
    (ht : |t| < PARTICLE_POSITION_RESOLUTION)
    (h : rayDistSq S.center s.position d t = S.radius ^ 2 ∨
      (0 < S.inner ∧ rayDistSq S.center s.position d t = S.inner ^ 2)) : OnShell S s := by
  rcases h with h | ⟨h0, h⟩
  · exact Or.inl ((near_of_ray ((unitVec_iff d).1 hd) hR.le h).trans_lt ht)
  · exact Or.inr ⟨h0, (near_of_ray ((unitVec_iff d).1 hd) h0.le h).trans_lt ht⟩

lemma prec_lt_res : GEOMETRY_PRECISION < PARTICLE_POSITION_RESOLUTION := by
  unfold GEOMETRY_PRECISION PARTICLE_POSITION_RESOLUTION; norm_num

lemma res_pos : 0 < PARTICLE_POSITION_RESOLUTION := by
  unfold PARTICLE_POSITION_RESOLUTION; norm_num

/-- C24: an entry point into a spherical shell, hollow or solid, is within 1e-3 of its surface. -/
theorem C24_entry_on_surface (secs : List Sector) (S : Sphere) (hR : 0 < S.radius)
    (hr : S.inner < S.radius) (n : ℕ) (x : Entry) (l : List Entry) (s : PState)
    (hd : UnitVec x.state.direction) (h : entryPoint secs (S.toGeo n) (x :: l) = .ok (some s)) :
    OnShell S s := by
  obtain ⟨h1, h2, h3⟩ := C24_entry_point secs (S.toGeo n) x l (some s) h
  by_cases he : (S.toGeo n).isEntering x.state.position x.state.direction
  · obtain rfl := Option.some.inj (h1 he)
    exact Or.inl ((entering_near S hR hr n _ _ hd he).trans_lt prec_lt_res)
  · by_cases hi : (S.toGeo n).isInside x.state.position x.state.direction
    · cases h2 he hi
    · simp only [entryPoint, if_neg he, if_neg hi] at h
      rcases entryFrom_ok h with ⟨h', _⟩ | ⟨l1, a, b, l2, t, s', _, _, hc, h6, h7⟩
      · cases h'
      · obtain rfl := Option.some.inj h6
        obtain ⟨k0, k1, k2, k3⟩ := hc
        have hu := towards_unit k0
        have hon := first_on_shell S hR hr a.state.position _ hu (by
          change 0 ≤ ((S.toGeo n).dist _ _).1; rw [k1]; exact k2)
        have k1' : (S.distanceToBorder a.state.position (towards a.state.position b.state.position)).1 = t := k1
        rw [k1'] at hon
        rcases h7 with ⟨h7, rfl⟩ | ⟨_, e1, e2, e3, _⟩
        · obtain ⟨e1, e2, e3⟩ := towards_end k0
          refine onShell_of_ray S hR hu
            (t := t - euclid a.state.position b.state.position) (by rw [abs_sub_comm]; exact h7) ?_
          have : rayDistSq S.center b.state.position (towards a.state.position b.state.position)
              (t - euclid a.state.position b.state.position) =
              rayDistSq S.center a.state.position (towards a.state.position b.state.position) t := by
            unfold rayDistSq
            generalize euclid a.state.position b.state.position = L at *
            generalize towards a.state.position b.state.position = u at *
            rw [e1, e2, e3]; ring
          rw [this]; exact hon
        · refine onShell_of_ray S hR hu (t := 0) (by rw [abs_zero]; exact res_pos) ?_
          have : rayDistSq S.center s.position (towards a.state.position b.state.position) 0 =
              rayDistSq S.center a.state.position (towards a.state.position b.state.position) t := by
            unfold rayDistSq
            rw [e1, e2, e3]; ring
          rw [this]; exact hon

/-- C24: an exit point of a spherical shell, hollow or solid, is within 1e-3 of its surface. -/
theorem C24_exit_on_surface (secs : List Sector) (S : Sphere) (hR : 0 < S.radius)
    (hr : S.inner < S.radius) (n : ℕ) (l : List Entry) (x0 x : Entry) (s : PState)
    (h0 : (l ++ [x]).head? = some x0) (hd0 : UnitVec x0.state.direction)
    (hd : UnitVec x.state.direction) (h : exitPoint secs (S.toGeo n) (l ++ [x]) = .ok (some s)) :
    OnShell S s := by
  have leaving : ∀ y : Entry, UnitVec y.state.direction →
      (S.toGeo n).isLeaving y.state.position y.state.direction → OnShell S y.state := by
    intro y hy hl
    have : (S.toGeo n).isEntering y.state.position (-y.state.direction) := by
      refine ⟨hl.2, ?_⟩
      rw [show -(-y.state.direction) = y.state.direction by ext <;> simp]
      exact hl.1
    exact Or.inl ((entering_near S hR hr n _ _ (neg_unit hy) this).trans_lt prec_lt_res)
  obtain ⟨h1, h2, h3⟩ := C24_exit_point secs (S.toGeo n) l x0 x (some s) h0 h
  by_cases he : (S.toGeo n).isLeaving x.state.position x.state.direction
  · obtain rfl := Option.some.inj (h1 he)
    exact leaving x hd he
  · by_cases hi : (S.toGeo n).isInside x.state.position x.state.direction
    · cases h2 he hi
    · obtain ⟨h4, _⟩ := h3 he hi
      simp only [exitPoint, h0, List.reverse_append, List.reverse_singleton, List.singleton_append,
        if_neg he, if_neg hi] at h
      cases hx : exitFrom secs (S.toGeo n) x l.reverse with
      | error e => rw [hx] at h; cases h
      | ok r' =>
        rcases exitFrom_ok hx with ⟨h', hno⟩ | ⟨l1, a, b, l2, t, s', _, _, hc, h6, h7⟩
        · rw [List.reverse_reverse] at hno
          obtain ⟨k1, k2⟩ := h4 hno
          by_cases hl : (S.toGeo n).isLeaving x0.state.position x0.state.direction
          · obtain rfl := Option.some.inj (k1 hl)
            exact leaving x0 hd0 hl
          · cases k2 hl
        · subst h6
          rw [hx] at h
          obtain rfl := Option.some.inj (Except.ok.inj h)
          obtain ⟨k0, k1, k2, k3⟩ := hc
          have hu := towards_unit k0
          have hon := first_on_shell S hR hr b.state.position _ (neg_unit hu) (by
            change 0 ≤ ((S.toGeo n).dist _ _).1; rw [k1]; exact k2)
          have k1' : (S.distanceToBorder b.state.position (-towards a.state.position b.state.position)).1 = t := k1
          rw [k1', rayDistSq_neg] at hon
          obtain ⟨e1, e2, e3⟩ := towards_end k0
          have hshift : rayDistSq S.center b.state.position (towards a.state.position b.state.position) (-t) =
              rayDistSq S.center a.state.position (towards a.state.position b.state.position)
                (euclid a.state.position b.state.position - t) := by
            unfold rayDistSq
            generalize euclid a.state.position b.state.position = L at *
            generalize towards a.state.position b.state.position = u at *
            rw [e1, e2, e3]; ring
          rw [hshift] at hon
          rcases h7 with ⟨h7, rfl⟩ | ⟨_, f1, f2, f3, _⟩
          · exact onShell_of_ray S hR hu h7 hon
          · refine onShell_of_ray S hR hu (t := 0) (by rw [abs_zero]; exact res_pos) ?_
            have : rayDistSq S.center s'.position (towards a.state.position b.state.position) 0 =
                rayDistSq S.center a.state.position (towards a.state.position b.state.position)
                  (euclid a.state.position b.state.position - t) := by
              unfold rayDistSq
              rw [f1, f2, f3]; ring
            rw [this]; exact hon

/-- Distances to a ball of radius 5 around the origin from 10 cm below, along the z axis, and from the
other side. -/
lemma ball_axis (σ : ℝ) (hσ : σ ^ 2 = 1) :
    (⟨⟨0, 0, 0⟩, 5, 0⟩ : Sphere).distanceToBorder ⟨0, 0, -(σ * 10)⟩ ⟨0, 0, σ⟩ = (5, 15) := by
  have hp : GEOMETRY_PRECISION < 1 := by unfold GEOMETRY_PRECISION; norm_num
  have q : ∀ t, rayDistSq ⟨0, 0, 0⟩ ⟨0, 0, -(σ * 10)⟩ ⟨0, 0, σ⟩ t = (t - 10) ^ 2 := by
    intro t; unfold rayDistSq; simp only []; linear_combination (t - 10) ^ 2 * hσ
  have T := C01_solid_sphere_distances ⟨⟨0, 0, 0⟩, 5, 0⟩ (by norm_num) le_rfl ⟨0, 0, -(σ * 10)⟩ ⟨0, 0, σ⟩
    (by unfold UnitVec; simpa using hσ)
  have hT : {t | GEOMETRY_PRECISION ≤ t ∧ CrossesSphere ⟨0, 0, 0⟩ ⟨0, 0, -(σ * 10)⟩ ⟨0, 0, σ⟩ 5 t} = {5, 15} := by
    ext t
    simp only [Set.mem_ofPred_eq, Set.mem_insert_iff, Set.mem_singleton_iff, CrossesSphere, q]
    constructor
    · rintro ⟨_, _, h, _⟩
      have : (t - 5) * (t - 15) = 0 := by linarith
      rcases mul_eq_zero.1 this with h | h
      · left; linarith
      · right; linarith
    · rintro (rfl | rfl)
      · exact ⟨by linarith, by norm_num, by norm_num, 10, by norm_num⟩
      · exact ⟨by linarith, by norm_num, by norm_num, 10, by norm_num⟩
  simp only [hT] at T
  have m5 : (5 : ℝ) ∈ ({5, 15} : Set ℝ) := by simp
  have m15 : (15 : ℝ) ∈ ({5, 15} : Set ℝ) := by simp
  rcases T with ⟨_, e⟩ | ⟨a, _, e⟩ | ⟨a, b, hab, e, e'⟩
  · rw [e] at m5; exact absurd m5 (Set.notMem_empty _)
  · rw [e, Set.mem_singleton_iff] at m5 m15; linarith
  · have k1 : a ∈ ({a, b} : Set ℝ) := by simp
    have k2 : b ∈ ({a, b} : Set ℝ) := by simp
    rw [← e'] at k1 k2
    simp only [Set.mem_insert_iff, Set.mem_singleton_iff] at k1 k2
    rw [e]
    rcases k1 with rfl | rfl <;> rcases k2 with rfl | rfl <;> first | rfl | (norm_num at hab)

/-- A step of 20 cm right through the ball has both points and loses 10 MeV in between: the hypotheses
of the C24 theorems are met. -/
example :
    let S : Sphere := ⟨⟨0, 0, 0⟩, 5, 0⟩
    let x : Entry := ⟨⟨40, 0, ⟨0, 0, -10⟩, ⟨0, 0, 1⟩, 0⟩, .continuousEnergyLoss, 0⟩
    let y : Entry := ⟨⟨20, 20, ⟨0, 0, 10⟩, ⟨0, 0, 1⟩, 20⟩, .continuousEnergyLoss, 0⟩
    ∃ s s', entryPoint [Toy.sector 100] (S.toGeo 0) [x, y] = .ok (some s) ∧ s.position = ⟨0, 0, -5⟩ ∧
      exitPoint [Toy.sector 100] (S.toGeo 0) [x, y] = .ok (some s') ∧ s'.position = ⟨0, 0, 5⟩ ∧
      eLost [Toy.sector 100] (S.toGeo 0) [x, y] = .ok 10 := by
  intro S x y
  have hp : GEOMETRY_PRECISION < 1 := by unfold GEOMETRY_PRECISION; norm_num
  have hm : (⟨0, 0, 10⟩ - ⟨0, 0, -10⟩ : Vec3).mag = 20 := by
    rw [← euclid_eq']; unfold euclid
    rw [show ((0 : ℝ) - 0) ^ 2 + (0 - 0) ^ 2 + (10 - -10) ^ 2 = 20 ^ 2 by norm_num]
    exact Real.sqrt_sq (by norm_num)
  have hn : (⟨0, 0, 10⟩ - ⟨0, 0, -10⟩ : Vec3).normalize = some ⟨0, 0, 1⟩ := by
    rw [normalize_of_pos (by rw [hm]; norm_num), hm]
    congr 1; ext <;> simp; norm_num
  have d1 : (S.toGeo 0).dist ⟨0, 0, -10⟩ ⟨0, 0, 1⟩ = (5, 15) := by
    have := ball_axis 1 (by norm_num); rwa [one_mul] at this
  have d2 : (S.toGeo 0).dist ⟨0, 0, 10⟩ ⟨0, 0, -1⟩ = (5, 15) := by
    have := ball_axis (-1) (by norm_num); rwa [show -((-1 : ℝ) * 10) = 10 by norm_num] at this
  have d3 : (S.toGeo 0).dist ⟨0, 0, 10⟩ ⟨0, 0, 1⟩ = (-1, -1) := by
    have T := C01_solid_sphere_distances S (by norm_num [S]) (by norm_num [S]) ⟨0, 0, 10⟩ ⟨0, 0, 1⟩
      (by unfold UnitVec; norm_num)
    have none : ∀ t, t ∉ {t | GEOMETRY_PRECISION ≤ t ∧ CrossesSphere S.center ⟨0, 0, 10⟩ ⟨0, 0, 1⟩ S.radius t} := by
      rintro t ⟨h1, _, h2, _⟩
      have := prec_pos
      unfold rayDistSq at h2
      norm_num [S] at h2
      nlinarith
    rcases T with ⟨e, _⟩ | ⟨a, _, e⟩ | ⟨a, b, _, _, e⟩
    · exact e
    · exact absurd (by rw [e]; simp) (none a)
    · exact absurd (by rw [e]; simp) (none a)
  have neg1 : (-⟨0, 0, 1⟩ : Vec3) = ⟨0, 0, -1⟩ := by ext <;> simp
  have hr : PARTICLE_POSITION_RESOLUTION = 1 / 1000 := by unfold PARTICLE_POSITION_RESOLUTION; norm_num
  have rp : ∀ (p : PState) (u : Vec3) (t : ℝ), rePropagateDistance [Toy.sector 100] p u t =
      .ok ⟨p.energy - t, p.time + t, p.position + t • u, u, p.distance + t⟩ := by
    intro p u t
    unfold rePropagateDistance lookupSector
    rw [Toy.current 100 (by norm_num)]
    rfl
  have e1 : entryPoint [Toy.sector 100] (S.toGeo 0) [x, y] = .ok (some ⟨35, 5, ⟨0, 0, -5⟩, ⟨0, 0, 1⟩, 5⟩) := by
    simp only [entryPoint, Geo.isEntering, Geo.isInside, x, y, d1, entryFrom, hn, hm, hr, rp, Except.map]
    norm_num
    ext <;> simp; norm_num
  have e2 : exitPoint [Toy.sector 100] (S.toGeo 0) [x, y] = .ok (some ⟨25, 15, ⟨0, 0, 5⟩, ⟨0, 0, 1⟩, 15⟩) := by
    simp only [exitPoint, Geo.isLeaving, Geo.isInside, x, y, d3, d2, neg1, List.head?_cons, List.reverse_cons, List.reverse_nil,
      List.nil_append, List.cons_append, exitFrom, hn, hm, hr, rp, Except.map]
    norm_num
    ext <;> simp; norm_num
  refine ⟨_, _, e1, rfl, e2, rfl, ?_⟩
  unfold eLost
  rw [e1, e2]
  norm_num

end Proposal
