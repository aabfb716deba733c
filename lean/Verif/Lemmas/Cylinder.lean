import Verif.Spec.Cylinder
import Verif.Lemmas.Sphere

/-! Helper lemmas for the cylinder. -/

namespace Proposal

open Spec

/-! ## Where a union of intervals changes -/

lemma changes_none {M : ℝ → Prop} (h : ∀ t, ¬ M t) (t : ℝ) : ¬ Changes M t := by
  rintro ⟨ε, hε, hc⟩
  exact h _ ((hc (ε / 2) (by linarith) (by linarith)).2 (h _))

lemma changes_two {M : ℝ → Prop} {a b c e : ℝ} (hab : a < b) (hbc : b < c) (hce : c < e)
    (h : ∀ t, M t ↔ (a < t ∧ t < b) ∨ (c < t ∧ t < e)) (t : ℝ) : Changes M t ↔ t = a ∨ t = b ∨ t = c ∨ t = e := by
  constructor
  · rintro ⟨ε, hε, hc⟩
    by_contra hne
    push Not at hne
    obtain ⟨n1, n2, n3, n4⟩ := hne
    have p1 := abs_pos.2 (sub_ne_zero.2 n1)
    have p2 := abs_pos.2 (sub_ne_zero.2 n2)
    have p3 := abs_pos.2 (sub_ne_zero.2 n3)
    have p4 := abs_pos.2 (sub_ne_zero.2 n4)
    obtain ⟨s, s0, s1, s2, s3, s4, s5⟩ : ∃ s, 0 < s ∧ s < ε ∧ s < |t - a| ∧ s < |t - b| ∧ s < |t - c| ∧ s < |t - e| := by
      refine ⟨min ε (min (min |t - a| |t - b|) (min |t - c| |t - e|)) / 2, ?_⟩
      have hm : 0 < min ε (min (min |t - a| |t - b|) (min |t - c| |t - e|)) := by
        simp only [lt_min_iff]; exact ⟨hε, ⟨p1, p2⟩, p3, p4⟩
      have h1 : min ε (min (min |t - a| |t - b|) (min |t - c| |t - e|)) ≤ ε := min_le_left _ _
      have h2 : min ε (min (min |t - a| |t - b|) (min |t - c| |t - e|)) ≤ |t - a| :=
        (min_le_right _ _).trans ((min_le_left _ _).trans (min_le_left _ _))
      have h3 : min ε (min (min |t - a| |t - b|) (min |t - c| |t - e|)) ≤ |t - b| :=
        (min_le_right _ _).trans ((min_le_left _ _).trans (min_le_right _ _))
      have h4 : min ε (min (min |t - a| |t - b|) (min |t - c| |t - e|)) ≤ |t - c| :=
        (min_le_right _ _).trans ((min_le_right _ _).trans (min_le_left _ _))
      have h5 : min ε (min (min |t - a| |t - b|) (min |t - c| |t - e|)) ≤ |t - e| :=
        (min_le_right _ _).trans ((min_le_right _ _).trans (min_le_right _ _))
      refine ⟨by linarith, by linarith, by linarith, by linarith, by linarith, by linarith⟩
    have side : ∀ x, s < |t - x| → ((x < t - s ∧ x < t + s) ∨ (t - s < x ∧ t + s < x)) := by
      intro x hx
      rcases lt_abs.1 hx with hx | hx
      · left; constructor <;> linarith
      · right; constructor <;> linarith
    have hiff : M (t - s) ↔ M (t + s) := by
      rw [h, h]
      rcases side a s2 with ⟨a1, a2⟩ | ⟨a1, a2⟩ <;> rcases side b s3 with ⟨b1, b2⟩ | ⟨b1, b2⟩ <;>
        rcases side c s4 with ⟨c1, c2⟩ | ⟨c1, c2⟩ <;> rcases side e s5 with ⟨e1, e2⟩ | ⟨e1, e2⟩ <;>
        simp only [a1, a2, b1, b2, c1, c2, e1, e2, not_lt.2 a1.le, not_lt.2 a2.le, not_lt.2 b1.le, not_lt.2 b2.le,
          not_lt.2 c1.le, not_lt.2 c2.le, not_lt.2 e1.le, not_lt.2 e2.le]
    have := hc s s0 s1
    tauto
  · have hm : 0 < min (b - a) (min (c - b) (e - c)) := by
      simp only [lt_min_iff]; exact ⟨by linarith, by linarith, by linarith⟩
    have m1 : min (b - a) (min (c - b) (e - c)) ≤ b - a := min_le_left _ _
    have m2 : min (b - a) (min (c - b) (e - c)) ≤ c - b := (min_le_right _ _).trans (min_le_left _ _)
    have m3 : min (b - a) (min (c - b) (e - c)) ≤ e - c := (min_le_right _ _).trans (min_le_right _ _)
    intro ht
    refine ⟨_, hm, ?_⟩
    intro s s0 s1
    rw [h, h]
    rcases ht with rfl | rfl | rfl | rfl
    · constructor
      · rintro (⟨x, _⟩ | ⟨x, _⟩) <;> linarith
      · intro hx; exact absurd (Or.inl ⟨by linarith, by linarith⟩) hx
    · constructor
      · rintro _ (⟨_, y⟩ | ⟨x, _⟩) <;> linarith
      · intro _; exact Or.inl ⟨by linarith, by linarith⟩
    · constructor
      · rintro (⟨_, y⟩ | ⟨x, _⟩) <;> linarith
      · intro hx; exact absurd (Or.inr ⟨by linarith, by linarith⟩) hx
    · constructor
      · rintro _ (⟨_, y⟩ | ⟨_, y⟩) <;> linarith
      · intro _; exact Or.inr ⟨by linarith, by linarith⟩

lemma changes_one {M : ℝ → Prop} {a b : ℝ} (hab : a < b) (h : ∀ t, M t ↔ a < t ∧ t < b) (t : ℝ) :
    Changes M t ↔ t = a ∨ t = b := by
  constructor
  · rintro ⟨ε, hε, hc⟩
    by_contra hne
    push Not at hne
    obtain ⟨n1, n2⟩ := hne
    have p1 := abs_pos.2 (sub_ne_zero.2 n1)
    have p2 := abs_pos.2 (sub_ne_zero.2 n2)
    obtain ⟨s, s0, s1, s2, s3⟩ : ∃ s, 0 < s ∧ s < ε ∧ s < |t - a| ∧ s < |t - b| := by
      refine ⟨min ε (min |t - a| |t - b|) / 2, ?_⟩
      have hm : 0 < min ε (min |t - a| |t - b|) := by
        simp only [lt_min_iff]; exact ⟨hε, p1, p2⟩
      have h1 : min ε (min |t - a| |t - b|) ≤ ε := min_le_left _ _
      have h2 : min ε (min |t - a| |t - b|) ≤ |t - a| := (min_le_right _ _).trans (min_le_left _ _)
      have h3 : min ε (min |t - a| |t - b|) ≤ |t - b| := (min_le_right _ _).trans (min_le_right _ _)
      refine ⟨by linarith, by linarith, by linarith, by linarith⟩
    have side : ∀ x, s < |t - x| → ((x < t - s ∧ x < t + s) ∨ (t - s < x ∧ t + s < x)) := by
      intro x hx
      rcases lt_abs.1 hx with hx | hx
      · left; constructor <;> linarith
      · right; constructor <;> linarith
    have hiff : M (t - s) ↔ M (t + s) := by
      rw [h, h]
      rcases side a s2 with ⟨a1, a2⟩ | ⟨a1, a2⟩ <;> rcases side b s3 with ⟨b1, b2⟩ | ⟨b1, b2⟩ <;>
        simp only [a1, a2, b1, b2, not_lt.2 a1.le, not_lt.2 a2.le, not_lt.2 b1.le, not_lt.2 b2.le]
    have := hc s s0 s1
    tauto
  · intro ht
    refine ⟨b - a, by linarith, ?_⟩
    intro s s0 s1
    rw [h, h]
    rcases ht with rfl | rfl
    · constructor
      · rintro ⟨x, _⟩; linarith
      · intro hx; exact absurd ⟨by linarith, by linarith⟩ hx
    · constructor
      · rintro _ ⟨_, y⟩; linarith
      · intro _; exact ⟨by linarith, by linarith⟩

/-- A single point does not matter. -/
lemma changes_except {M N : ℝ → Prop} {x : ℝ} (h : ∀ t, t ≠ x → (M t ↔ N t)) (t : ℝ) : Changes M t → Changes N t := by
  rintro ⟨ε, hε, hc⟩
  by_cases ht : t = x
  · subst ht
    refine ⟨ε, hε, fun s s0 s1 => ?_⟩
    rw [← h (t - s) (by linarith), ← h (t + s) (by linarith)]
    exact hc s s0 s1
  · have hp := abs_pos.2 (sub_ne_zero.2 ht)
    refine ⟨min ε |t - x|, lt_min hε hp, fun s s0 s1 => ?_⟩
    have h1 : s < ε := s1.trans_le (min_le_left _ _)
    have h2 : s < |t - x| := s1.trans_le (min_le_right _ _)
    rw [← h (t - s), ← h (t + s)]
    · exact hc s s0 h1
    · intro he
      rw [show t - x = -s by linarith, abs_neg, abs_of_pos s0] at h2
      exact lt_irrefl _ h2
    · intro he
      rw [show t - x = s by linarith, abs_of_pos s0] at h2
      exact lt_irrefl _ h2

/-- A set of at most two intervals, up to a point, with the ends listed in order. -/
def Form (M : ℝ → Prop) (f : List ℝ) : Prop :=
  (f = [] ∧ ∀ t, ¬ M t) ∨
  (∃ a b x : ℝ, f = [a, b] ∧ a < b ∧ ∀ t, t ≠ x → (M t ↔ a < t ∧ t < b)) ∨
  (∃ a b c e : ℝ, f = [a, b, c, e] ∧ a < b ∧ b < c ∧ c < e ∧ ∀ t, M t ↔ (a < t ∧ t < b) ∨ (c < t ∧ t < e))

lemma Form.sorted {M : ℝ → Prop} {f : List ℝ} (h : Form M f) : f.Pairwise (· < ·) := by
  rcases h with ⟨rfl, _⟩ | ⟨a, b, x, rfl, hab, _⟩ | ⟨a, b, c, e, rfl, hab, hbc, hce, _⟩
  · simp
  · simpa using hab
  · simp only [List.pairwise_cons, List.mem_cons, List.not_mem_nil, or_false, forall_eq_or_imp, forall_eq,
      IsEmpty.forall_iff, implies_true, List.Pairwise.nil, and_true]
    exact ⟨⟨hab, by linarith, by linarith⟩, ⟨hbc, by linarith⟩, hce⟩

lemma Form.changes {M : ℝ → Prop} {f : List ℝ} (h : Form M f) (t : ℝ) : Changes M t ↔ t ∈ f := by
  rcases h with ⟨rfl, hM⟩ | ⟨a, b, x, rfl, hab, hM⟩ | ⟨a, b, c, e, rfl, hab, hbc, hce, hM⟩
  · exact iff_of_false (changes_none hM t) (by simp)
  · have : Changes M t ↔ Changes (fun t => a < t ∧ t < b) t :=
      ⟨changes_except hM t, changes_except (fun t ht => (hM t ht).symm) t⟩
    rw [this, changes_one hab (fun _ => Iff.rfl)]
    simp
  · rw [changes_two hab hbc hce hM]
    simp

/-! ## The outer cylinder -/

open Classical in
/-- A list of at most one element. -/
noncomputable def hitIf (b : Prop) (t : ℝ) : List ℝ := if b then [t] else []

lemma hitIf_pos {b : Prop} (h : b) (t : ℝ) : hitIf b t = [t] := if_pos h
lemma hitIf_neg {b : Prop} (h : ¬ b) (t : ℝ) : hitIf b t = [] := if_neg h

/-- `dist` in terms of the parameters of the intersections. -/
noncomputable def distOf (bar cap : List ℝ) : List ℝ := if bar.length < 2 then bar ++ cap else bar

open Classical in
/-- The pair made of those of two numbers that are there. -/
noncomputable def pairOf (a : Prop) (x : ℝ) (b : Prop) (y : ℝ) : ℝ × ℝ :=
  if a then (if b then (x, y) else (x, -1)) else (if b then (y, -1) else (-1, -1))

lemma select_two {x y : ℝ} (h : x < y) :
    Cylinder.select [x, y] = (x, y) ∧ Cylinder.select [y, x] = (x, y) := by
  simp only [Cylinder.select, swapIf]
  rw [if_neg (by linarith), if_pos h]
  exact ⟨rfl, rfl⟩

/-- Two lists of at most one element each, in one of the two orders. -/
lemma select_caps {x y : ℝ} (h : x < y) (a b : Prop) (k : List ℝ)
    (hk : k = hitIf a x ++ hitIf b y ∨ k = hitIf b y ++ hitIf a x) : Cylinder.select k = pairOf a x b y := by
  by_cases ha : a <;> by_cases hb : b <;> simp only [pairOf, hitIf, ha, hb, if_true, if_false, List.nil_append,
    List.append_nil, List.cons_append] at hk ⊢ <;> rcases hk with rfl | rfl
  · exact (select_two h).1
  · exact (select_two h).2
  all_goals rfl

lemma outer_select {P R1 R2 ca cb : ℝ} {hida hidb : Prop} (hR : R2 < R1) (hc : ca < cb) (n1 : ca ≠ R1) (n2 : ca ≠ R2)
    (n3 : cb ≠ R1) (n4 : cb ≠ R2) (k : List ℝ)
    (hk : k = hitIf (P ≤ ca ∧ (R2 ≤ ca ∧ ca ≤ R1) ∧ ¬ hida) ca ++ hitIf (P ≤ cb ∧ (R2 ≤ cb ∧ cb ≤ R1) ∧ ¬ hidb) cb ∨
      k = hitIf (P ≤ cb ∧ (R2 ≤ cb ∧ cb ≤ R1) ∧ ¬ hidb) cb ++ hitIf (P ≤ ca ∧ (R2 ≤ ca ∧ ca ≤ R1) ∧ ¬ hida) ca) :
    (max R2 ca < min R1 cb → Cylinder.select (distOf (hitIf (P ≤ R1 ∧ ca < R1 ∧ R1 < cb) R1 ++
      hitIf (P ≤ R2 ∧ ca < R2 ∧ R2 < cb) R2) k) =
        pairOf ((ca < R2 ∨ ¬ hida) ∧ P ≤ max R2 ca) (max R2 ca) ((R1 < cb ∨ ¬ hidb) ∧ P ≤ min R1 cb) (min R1 cb)) ∧
    (¬ max R2 ca < min R1 cb → Cylinder.select (distOf (hitIf (P ≤ R1 ∧ ca < R1 ∧ R1 < cb) R1 ++
      hitIf (P ≤ R2 ∧ ca < R2 ∧ R2 < cb) R2) k) = (-1, -1)) := by
  have hnil : ∀ a b : Prop, ¬ a → ¬ b → k = hitIf a ca ++ hitIf b cb ∨ k = hitIf b cb ++ hitIf a ca → k = [] := by
    intro a b ha hb h
    rw [hitIf_neg ha, hitIf_neg hb] at h
    rcases h with h | h <;> exact h
  rcases lt_or_gt_of_ne n1 with h1 | h1
  swap
  · -- the caps are behind the barrel
    have hk' := hnil _ _ (by rintro ⟨_, ⟨_, x⟩, _⟩; linarith) (by rintro ⟨_, ⟨_, x⟩, _⟩; linarith) hk
    subst hk'
    rw [hitIf_neg (by rintro ⟨_, x, _⟩; linarith), hitIf_neg (by rintro ⟨_, x, _⟩; linarith)]
    refine ⟨fun h => ?_, fun _ => rfl⟩
    have := (le_max_right R2 ca).trans_lt (h.trans_le (min_le_left _ _))
    linarith
  rcases lt_or_gt_of_ne n4 with h4 | h4
  · have hk' := hnil _ _ (by rintro ⟨_, ⟨x, _⟩, _⟩; linarith) (by rintro ⟨_, ⟨x, _⟩, _⟩; linarith) hk
    subst hk'
    rw [hitIf_neg (by rintro ⟨_, _, x⟩; linarith), hitIf_neg (by rintro ⟨_, _, x⟩; linarith)]
    refine ⟨fun h => ?_, fun _ => rfl⟩
    have := (le_max_left R2 ca).trans_lt (h.trans_le (min_le_right _ _))
    linarith
  have hlt : max R2 ca < min R1 cb := max_lt (lt_min hR h4) (lt_min h1 hc)
  refine ⟨fun _ => ?_, fun h => absurd hlt h⟩
  rcases lt_or_gt_of_ne n2 with h2 | h2 <;> rcases lt_or_gt_of_ne n3 with h3 | h3
  · -- from the barrel to a cap
    rw [max_eq_left h2.le, min_eq_right h3.le]
    have e1 : hitIf (P ≤ R1 ∧ ca < R1 ∧ R1 < cb) R1 = [] := hitIf_neg (by rintro ⟨_, _, x⟩; linarith) _
    have e2 : hitIf (P ≤ ca ∧ (R2 ≤ ca ∧ ca ≤ R1) ∧ ¬ hida) ca = [] := hitIf_neg (by rintro ⟨_, ⟨x, _⟩, _⟩; linarith) _
    have e3 : k = hitIf (P ≤ cb ∧ ¬ hidb) cb := by
      rw [e2] at hk
      simp only [List.nil_append, List.append_nil, or_self] at hk
      rw [hk]
      congr 1
      simp only [h4.le, h3.le, and_self, true_and]
    have e4 : (P ≤ R2 ∧ ca < R2 ∧ R2 < cb) ↔ P ≤ R2 := by simp only [h2, h4, and_self, and_true]
    rw [e1, e3, e4, List.nil_append]
    have e5 : distOf (hitIf (P ≤ R2) R2) (hitIf (P ≤ cb ∧ ¬ hidb) cb) = hitIf (P ≤ R2) R2 ++ hitIf (P ≤ cb ∧ ¬ hidb) cb := by
      unfold distOf hitIf
      split_ifs <;> simp_all
    rw [e5, select_caps h4 _ _ _ (Or.inl rfl)]
    simp only [h2, not_lt.2 h3.le, true_or, true_and, false_or, and_comm]
  · -- from barrel to barrel
    rw [max_eq_left h2.le, min_eq_left h3.le]
    have hk' := hnil _ _ (by rintro ⟨_, ⟨x, _⟩, _⟩; linarith) (by rintro ⟨_, ⟨_, x⟩, _⟩; linarith) hk
    subst hk'
    have e4 : (P ≤ R2 ∧ ca < R2 ∧ R2 < cb) ↔ P ≤ R2 := by simp only [h2, h4, and_self, and_true]
    have e6 : (P ≤ R1 ∧ ca < R1 ∧ R1 < cb) ↔ P ≤ R1 := by
      have : R1 < cb := h3
      simp only [h1, this, and_self, and_true]
    rw [e4, e6]
    have e5 : distOf (hitIf (P ≤ R1) R1 ++ hitIf (P ≤ R2) R2) [] = hitIf (P ≤ R1) R1 ++ hitIf (P ≤ R2) R2 := by
      unfold distOf
      split_ifs <;> simp
    rw [e5, select_caps hR _ _ _ (Or.inr rfl)]
    have h3' : R1 < cb := h3
    simp only [h2, h3', true_or, true_and]
  · -- from cap to cap
    rw [max_eq_right (le_of_lt h2), min_eq_right h3.le]
    have h2' : R2 < ca := h2
    rw [hitIf_neg (by rintro ⟨_, _, x⟩; linarith), hitIf_neg (by rintro ⟨_, x, _⟩; linarith)]
    have e5 : distOf ([] ++ []) k = k := by simp [distOf]
    rw [e5, select_caps hc _ _ _ hk]
    simp only [h2'.le, h1.le, h4.le, h3.le, and_self, true_and, not_lt.2 h2'.le, not_lt.2 h3.le, false_or, and_comm]
  · -- from a cap to the barrel
    have h2' : R2 < ca := h2
    have h3' : R1 < cb := h3
    rw [max_eq_right h2'.le, min_eq_left h3'.le]
    have e1 : hitIf (P ≤ R2 ∧ ca < R2 ∧ R2 < cb) R2 = [] := hitIf_neg (by rintro ⟨_, x, _⟩; linarith) _
    have e2 : hitIf (P ≤ cb ∧ (R2 ≤ cb ∧ cb ≤ R1) ∧ ¬ hidb) cb = [] := hitIf_neg (by rintro ⟨_, ⟨_, x⟩, _⟩; linarith) _
    have e3 : k = hitIf (P ≤ ca ∧ ¬ hida) ca := by
      rw [e2] at hk
      simp only [List.nil_append, List.append_nil, or_self] at hk
      rw [hk]
      congr 1
      simp only [h2'.le, h1.le, and_self, true_and]
    have e4 : (P ≤ R1 ∧ ca < R1 ∧ R1 < cb) ↔ P ≤ R1 := by simp only [h1, h3', and_self, and_true]
    rw [e1, e3, e4, List.append_nil]
    have e5 : distOf (hitIf (P ≤ R1) R1) (hitIf (P ≤ ca ∧ ¬ hida) ca) = hitIf (P ≤ R1) R1 ++ hitIf (P ≤ ca ∧ ¬ hida) ca := by
      unfold distOf hitIf
      split_ifs <;> simp_all
    rw [e5, select_caps h1 _ _ _ (Or.inr rfl)]
    simp only [h3', not_lt.2 h2'.le, true_or, true_and, false_or, and_comm]

/-! ## The inner barrel -/

open Classical in
/-- The elements from the precision on. -/
noncomputable def ahead (f : List ℝ) : List ℝ := f.filter (fun t => GEOMETRY_PRECISION ≤ t)

lemma ahead_cons_pos {x : ℝ} (h : GEOMETRY_PRECISION ≤ x) (f : List ℝ) : ahead (x :: f) = x :: ahead f := by
  simp [ahead, h]

lemma ahead_cons_neg {x : ℝ} (h : x < GEOMETRY_PRECISION) (f : List ℝ) : ahead (x :: f) = ahead f := by
  simp [ahead, not_le.2 h]

lemma ahead_nil : ahead [] = [] := rfl

lemma mem_ahead {f : List ℝ} {t : ℝ} : t ∈ ahead f ↔ GEOMETRY_PRECISION ≤ t ∧ t ∈ f := by
  simp [ahead, and_comm]

lemma ahead_sorted {f : List ℝ} (h : f.Pairwise (· < ·)) : (ahead f).Pairwise (· < ·) := h.filter _

lemma pairOf_pp {a b : Prop} (ha : a) (hb : b) (x y : ℝ) : pairOf a x b y = (x, y) := by simp [pairOf, ha, hb]
lemma pairOf_pn {a b : Prop} (ha : a) (hb : ¬ b) (x y : ℝ) : pairOf a x b y = (x, -1) := by simp [pairOf, ha, hb]
lemma pairOf_np {a b : Prop} (ha : ¬ a) (hb : b) (x y : ℝ) : pairOf a x b y = (y, -1) := by simp [pairOf, ha, hb]
lemma pairOf_nn {a b : Prop} (ha : ¬ a) (hb : ¬ b) (x y : ℝ) : pairOf a x b y = (-1, -1) := by simp [pairOf, ha, hb]

lemma pairOf_ahead {x y : ℝ} (h : x < y) :
    pairOf (GEOMETRY_PRECISION ≤ x) x (GEOMETRY_PRECISION ≤ y) y = borderPair (ahead [x, y]) := by
  by_cases h1 : GEOMETRY_PRECISION ≤ x
  · have h2 : GEOMETRY_PRECISION ≤ y := by linarith
    rw [pairOf_pp h1 h2, ahead_cons_pos h1, ahead_cons_pos h2, ahead_nil]; rfl
  · by_cases h2 : GEOMETRY_PRECISION ≤ y
    · rw [pairOf_np h1 h2, ahead_cons_neg (not_le.1 h1), ahead_cons_pos h2, ahead_nil]; rfl
    · rw [pairOf_nn h1 h2, ahead_cons_neg (not_le.1 h1), ahead_cons_neg (not_le.1 h2), ahead_nil]; rfl

/-- The final control keeps what is ahead. -/
lemma finalControl_border {l : List ℝ} (h : ∀ t ∈ l, GEOMETRY_PRECISION ≤ t) :
    finalControl (borderPair l) = borderPair l := by
  match l, h with
  | [], _ => exact finalControl_none
  | [a], h => exact finalControl_one (h a (by simp))
  | a :: b :: l, h =>
    simp only [borderPair]
    split_ifs
    · exact finalControl_two (h a (by simp)) (h b (by simp))
    · exact finalControl_one (h a (by simp))

/-- Nothing happens when no intersection lies at a height of the cylinder. -/
lemma innerUpdate_id {H : ℝ → Prop} {inside : Prop} {t1 t2 : ℝ} (h1 : t1 > 0 → ¬ H t1) (h2 : t2 > 0 → ¬ H t2)
    (q : ℝ × ℝ) : Cylinder.innerUpdate H inside t1 t2 q = q := by
  by_cases p1 : t1 > 0 <;> by_cases p2 : t2 > 0
  · have n1 := h1 p1; have n2 := h2 p2
    simp only [Cylinder.innerUpdate, n1, n2, false_and, and_false, if_false, ite_self]
  · have n1 := h1 p1
    simp only [Cylinder.innerUpdate, n1, p2, false_and, and_false, if_false, ite_self, p1, true_and, or_false, if_true]
  · have n2 := h2 p2
    simp only [Cylinder.innerUpdate, p1, n2, false_and, and_false, if_false, ite_self]
  · simp only [Cylinder.innerUpdate, p1, p2, false_and, and_false, if_false, ite_self, or_self]

/-- Both intersections ahead and both crossings of the outer surface ahead. -/
lemma innerUpdate_both {H : ℝ → Prop} {inside : Prop} {L U I1 I2 : ℝ} (hL : 0 < L) (hLI : L < I2) (hI : I2 < I1)
    (hU : I1 < U) (h1 : H I1) (h2 : H I2) : Cylinder.innerUpdate H inside I1 I2 (L, U) = (L, I2) := by
  have a1 : L > 0 ∧ U > 0 := ⟨hL, by linarith⟩
  have a2 : I1 > 0 := by linarith
  have a3 : I2 > 0 := by linarith
  simp only [Cylinder.innerUpdate, a1, a2, a3, h1, h2, hU, hI, and_self, if_true]

/-- Start inside before the hole. -/
lemma innerUpdate_before {H : ℝ → Prop} {inside : Prop} {U I1 I2 : ℝ} (h0 : 0 < I2) (hI : I2 < I1) (hU : I1 < U)
    (h1 : H I1) (h2 : H I2) (hi : inside) : Cylinder.innerUpdate H inside I1 I2 (U, -1) = (I2, -1) := by
  have a1 : ¬ (-1 : ℝ) > 0 := by linarith
  have a2 : ¬ U < 0 := by linarith
  have a3 : I1 > 0 := by linarith
  have a8 : I2 > 0 := h0
  have a4 : ¬ I1 < 0 := by linarith
  have a9 : ¬ I2 < 0 := by linarith
  have a5 : I1 ≠ 0 := by linarith
  have a6 : I2 ≠ 0 := by linarith
  simp only [Cylinder.innerUpdate, a1, a2, a3, a4, a8, a9, a5, a6, h1, h2, hi, hU, hI, and_self, and_false, or_self, true_and, if_true, if_false, false_and]

/-- Start in the hole or in its column, the far side of the hole ahead. -/
lemma innerUpdate_mid {H : ℝ → Prop} {inside : Prop} {U t I1 : ℝ} (h0 : 0 < I1) (ht : t ≤ 0) (hU : I1 < U)
    (h1 : H I1) : Cylinder.innerUpdate H inside I1 t (U, -1) = (I1, U) := by
  have a1 : ¬ (-1 : ℝ) > 0 := by linarith
  have a2 : ¬ U < 0 := by linarith
  have a3 : ¬ t > 0 := by linarith
  have a5 : I1 ≠ 0 := by linarith
  have a7 : I1 > 0 := h0
  rcases ht.lt_or_eq with hlt | heq
  · have a6 : t ≠ 0 := hlt.ne
    simp only [Cylinder.innerUpdate, a1, a2, a3, hlt, a6, a7, h1, if_true, if_false, false_and, and_false, and_self, true_or]
  · subst heq
    simp only [Cylinder.innerUpdate, a1, a2, a3, a5, a7, h1, if_true, if_false, false_and, and_false, true_and, and_self,
      or_self]

/-- Start outside, the way into the material leads through an opening of the hole. -/
lemma innerUpdate_opening {H : ℝ → Prop} {inside : Prop} {U I1 I2 : ℝ} (h0 : 0 < I2) (hI : I2 < I1) (hU : I1 < U)
    (h1 : H I1) (hi : ¬ inside) : Cylinder.innerUpdate H inside I1 I2 (U, -1) = (U, I1) := by
  have a1 : ¬ (-1 : ℝ) > 0 := by linarith
  have a2 : ¬ U < 0 := by linarith
  have a3 : I1 > 0 := by linarith
  have a8 : I2 > 0 := h0
  have a4 : ¬ I1 < 0 := by linarith
  have a9 : ¬ I2 < 0 := by linarith
  have a5 : I1 ≠ 0 := by linarith
  have a6 : I2 ≠ 0 := by linarith
  simp only [Cylinder.innerUpdate, a1, a2, a3, a4, a8, a9, a5, a6, h1, hi, and_self, and_false, or_self, true_and, if_true, if_false, false_and]

/-- Start outside, the way out of the material leads into the hole and through an opening. -/
lemma innerUpdate_out {H : ℝ → Prop} {inside : Prop} {L I1 I2 : ℝ} (hL : 0 < L) (h0 : 0 < I2) (hI : I2 < I1)
    (h1 : ¬ H I1) (h2 : H I2) (hi : ¬ inside) : Cylinder.innerUpdate H inside I1 I2 (L, -1) = (L, I2) := by
  have a1 : ¬ (-1 : ℝ) > 0 := by linarith
  have a2 : ¬ L < 0 := by linarith
  have a3 : I1 > 0 := by linarith
  have a8 : I2 > 0 := h0
  have a4 : ¬ I1 < 0 := by linarith
  have a9 : ¬ I2 < 0 := by linarith
  have a5 : I1 ≠ 0 := by linarith
  have a6 : I2 ≠ 0 := by linarith
  have a7 : (-1 : ℝ) < 0 := by linarith
  simp only [Cylinder.innerUpdate, a1, a2, a3, a4, a8, a9, a5, a6, a7, h1, h2, hi, and_self, and_false, or_self, true_and, if_true, if_false, false_and]

/-- Start in the material, the way out leads into the hole and through an opening. -/
lemma innerUpdate_none {H : ℝ → Prop} {inside : Prop} {t I2 : ℝ} (h0 : 0 < I2)
    (h1 : ¬ H t) (h2 : H I2) : Cylinder.innerUpdate H inside t I2 (-1, -1) = (I2, -1) := by
  have a1 : ¬ ((-1 : ℝ) > 0 ∧ (-1 : ℝ) > 0) := by rintro ⟨_, h⟩; linarith
  have a2 : ((-1 : ℝ) < 0 ∧ (-1 : ℝ) < 0) := ⟨by linarith, by linarith⟩
  have a3 : I2 > 0 := h0
  simp only [Cylinder.innerUpdate, a1, a2, a3, h1, h2, and_self, and_false, if_true, if_false]

/-- The pair after the inner barrel, for the outer crossings `L < U` and the inner ones `I2 < I1`. -/
lemma inner_core {H : ℝ → Prop} {inside : Prop} {L U I1 I2 : ℝ} (hLU : L < U) (hI : I2 < I1) (n1 : L ≠ I1) (n2 : L ≠ I2)
    (n3 : U ≠ I1) (n4 : U ≠ I2) (hH1 : H I1 ↔ L < I1 ∧ I1 < U) (hH2 : H I2 ↔ L < I2 ∧ I2 < U)
    (hin : inside → L ≤ 0) (hout : ¬ inside → GEOMETRY_PRECISION ≤ I2 → GEOMETRY_PRECISION ≤ L ∨ U < GEOMETRY_PRECISION) :
    ∃ f : List ℝ, Form (fun t => (L < t ∧ t < U) ∧ (t < I2 ∨ I1 < t)) f ∧
      (Cylinder.innerUpdate H inside (snap I1) (snap I2)
          (pairOf (¬ (I2 < L ∧ L < I1) ∧ GEOMETRY_PRECISION ≤ L) L (¬ (I2 < U ∧ U < I1) ∧ GEOMETRY_PRECISION ≤ U) U) =
        borderPair (ahead f) ∨
      ((GEOMETRY_PRECISION ≤ I2 ∧ I2 < L ∧ L < I1 ∧ I1 < U) ∧ f = [I1, U] ∧
        Cylinder.innerUpdate H inside (snap I1) (snap I2)
          (pairOf (¬ (I2 < L ∧ L < I1) ∧ GEOMETRY_PRECISION ≤ L) L (¬ (I2 < U ∧ U < I1) ∧ GEOMETRY_PRECISION ≤ U) U) =
            (U, I1))) := by
  have hp := prec_pos
  have idn : (¬ H I1 ∨ I1 < GEOMETRY_PRECISION) → (¬ H I2 ∨ I2 < GEOMETRY_PRECISION) → ∀ q,
      Cylinder.innerUpdate H inside (snap I1) (snap I2) q = q := by
    intro h1 h2 q
    refine innerUpdate_id ?_ ?_ q
    · intro hs
      have := snap_pos_iff.1 hs
      rw [snap_of_ge this]
      rcases h1 with h1 | h1
      · exact h1
      · linarith
    · intro hs
      have := snap_pos_iff.1 hs
      rw [snap_of_ge this]
      rcases h2 with h2 | h2
      · exact h2
      · linarith
  rcases lt_or_gt_of_ne n4 with u2 | u2
  · -- the hole comes after the exit
    refine ⟨[L, U], Or.inr (Or.inl ⟨L, U, 0, rfl, hLU, ?_⟩), Or.inl ?_⟩
    · exact fun s _ => ⟨fun h => h.1, fun h => ⟨h, Or.inl (by linarith [h.2])⟩⟩
    · have e1 : ¬ (I2 < L ∧ L < I1) := by rintro ⟨h, _⟩; linarith
      have e2 : ¬ (I2 < U ∧ U < I1) := by rintro ⟨h, _⟩; linarith
      rw [idn (Or.inl (by rw [hH1]; rintro ⟨_, h⟩; linarith)) (Or.inl (by rw [hH2]; rintro ⟨_, h⟩; linarith))]
      simp only [e1, e2, not_false_eq_true, true_and]
      exact pairOf_ahead hLU
  rcases lt_or_gt_of_ne n1 with l1 | l1
  swap
  · -- the hole comes before the entry
    refine ⟨[L, U], Or.inr (Or.inl ⟨L, U, 0, rfl, hLU, ?_⟩), Or.inl ?_⟩
    · exact fun s _ => ⟨fun h => h.1, fun h => ⟨h, Or.inr (by linarith [h.1])⟩⟩
    · have e1 : ¬ (I2 < L ∧ L < I1) := by rintro ⟨_, h⟩; linarith
      have e2 : ¬ (I2 < U ∧ U < I1) := by rintro ⟨_, h⟩; linarith
      rw [idn (Or.inl (by rw [hH1]; rintro ⟨h, _⟩; linarith)) (Or.inl (by rw [hH2]; rintro ⟨h, _⟩; linarith))]
      simp only [e1, e2, not_false_eq_true, true_and]
      exact pairOf_ahead hLU
  have u2' : I2 < U := u2
  rcases lt_or_gt_of_ne n2 with l2 | l2 <;> rcases lt_or_gt_of_ne n3 with u1 | u1
  · -- L < I2 < U < I1
    have h1 : ¬ H I1 := by rw [hH1]; rintro ⟨_, h⟩; linarith
    have h2 : H I2 := hH2.2 ⟨l2, u2'⟩
    refine ⟨[L, I2], Or.inr (Or.inl ⟨L, I2, 0, rfl, l2, fun s _ => ⟨?_, fun h => ⟨⟨h.1, by linarith [h.2]⟩, Or.inl h.2⟩⟩⟩),
      Or.inl ?_⟩
    · rintro ⟨⟨a, b⟩, c | c⟩
      · exact ⟨a, c⟩
      · linarith
    · have e1 : ¬ (I2 < L ∧ L < I1) := by rintro ⟨h, _⟩; linarith
      have e2 : (I2 < U ∧ U < I1) := ⟨u2', u1⟩
      simp only [e1, e2, not_true_eq_false, not_false_eq_true, true_and, false_and, and_self]
      by_cases p1 : GEOMETRY_PRECISION ≤ L
      · rw [pairOf_pn p1 not_false, ahead_cons_pos p1, ahead_cons_pos (by linarith), ahead_nil,
          snap_of_ge (show GEOMETRY_PRECISION ≤ I1 by linarith), snap_of_ge (show GEOMETRY_PRECISION ≤ I2 by linarith)]
        exact innerUpdate_out (by linarith) (by linarith) hI h1 h2 (fun h => by linarith [hin h])
      · rw [pairOf_nn p1 not_false, ahead_cons_neg (not_le.1 p1)]
        by_cases p2 : GEOMETRY_PRECISION ≤ I2
        · rw [ahead_cons_pos p2, ahead_nil, snap_of_ge p2, snap_of_ge (show GEOMETRY_PRECISION ≤ I1 by linarith)]
          exact innerUpdate_none (by linarith) h1 h2
        · rw [ahead_cons_neg (not_le.1 p2), ahead_nil, idn (Or.inl h1) (Or.inr (not_le.1 p2))]; rfl
  · -- L < I2 < I1 < U
    have u1' : I1 < U := u1
    have h1 : H I1 := hH1.2 ⟨by linarith, u1'⟩
    have h2 : H I2 := hH2.2 ⟨l2, u2'⟩
    refine ⟨[L, I2, I1, U], Or.inr (Or.inr ⟨L, I2, I1, U, rfl, l2, hI, u1', fun s => ⟨?_, ?_⟩⟩), Or.inl ?_⟩
    · rintro ⟨⟨a, b⟩, c | c⟩
      · exact Or.inl ⟨a, c⟩
      · exact Or.inr ⟨c, b⟩
    · rintro (⟨a, b⟩ | ⟨a, b⟩)
      · exact ⟨⟨a, by linarith⟩, Or.inl b⟩
      · exact ⟨⟨by linarith, b⟩, Or.inr a⟩
    · have e1 : ¬ (I2 < L ∧ L < I1) := by rintro ⟨h, _⟩; linarith
      have e2 : ¬ (I2 < U ∧ U < I1) := by rintro ⟨_, h⟩; linarith
      simp only [e1, e2, not_false_eq_true, true_and]
      by_cases p1 : GEOMETRY_PRECISION ≤ L
      · rw [pairOf_pp p1 (by linarith), ahead_cons_pos p1, ahead_cons_pos (by linarith), ahead_cons_pos (by linarith),
          ahead_cons_pos (by linarith), ahead_nil,
          snap_of_ge (show GEOMETRY_PRECISION ≤ I1 by linarith), snap_of_ge (show GEOMETRY_PRECISION ≤ I2 by linarith)]
        rw [innerUpdate_both (by linarith) l2 hI u1' h1 h2]
        simp [borderPair]
      · rw [ahead_cons_neg (not_le.1 p1)]
        by_cases p2 : GEOMETRY_PRECISION ≤ I2
        · rw [pairOf_np p1 (by linarith), ahead_cons_pos p2, ahead_cons_pos (by linarith), ahead_cons_pos (by linarith),
            ahead_nil, snap_of_ge p2, snap_of_ge (show GEOMETRY_PRECISION ≤ I1 by linarith)]
          have hi : inside := by
            by_contra hni
            rcases hout hni p2 with h | h <;> linarith
          exact innerUpdate_before (by linarith) hI u1' h1 h2 hi
        · rw [ahead_cons_neg (not_le.1 p2)]
          by_cases p3 : GEOMETRY_PRECISION ≤ I1
          · rw [pairOf_np p1 (by linarith), ahead_cons_pos p3, ahead_cons_pos (by linarith), ahead_nil, snap_of_ge p3]
            exact innerUpdate_mid (by linarith) (snap_nonpos_iff.2 (not_le.1 p2)) u1' h1
          · rw [ahead_cons_neg (not_le.1 p3), idn (Or.inr (not_le.1 p3)) (Or.inr (not_le.1 p2))]
            by_cases p4 : GEOMETRY_PRECISION ≤ U
            · rw [pairOf_np p1 p4, ahead_cons_pos p4, ahead_nil]; rfl
            · rw [pairOf_nn p1 p4, ahead_cons_neg (not_le.1 p4), ahead_nil]; rfl
  · -- I2 < L < U < I1
    have l2' : I2 < L := l2
    have h1 : ¬ H I1 := by rw [hH1]; rintro ⟨_, h⟩; linarith
    have h2 : ¬ H I2 := by rw [hH2]; rintro ⟨h, _⟩; linarith
    refine ⟨[], Or.inl ⟨rfl, ?_⟩, Or.inl ?_⟩
    · rintro s ⟨⟨a, b⟩, c | c⟩ <;> linarith
    · have e1 : (I2 < L ∧ L < I1) := ⟨l2', l1⟩
      have e2 : (I2 < U ∧ U < I1) := ⟨u2', u1⟩
      simp only [e1, e2, not_true_eq_false, false_and, and_self]
      rw [idn (Or.inl h1) (Or.inl h2), pairOf_nn not_false not_false, ahead_nil]; rfl
  · -- I2 < L < I1 < U
    have l2' : I2 < L := l2
    have u1' : I1 < U := u1
    have h1 : H I1 := hH1.2 ⟨l1, u1'⟩
    have h2 : ¬ H I2 := by rw [hH2]; rintro ⟨h, _⟩; linarith
    refine ⟨[I1, U], Or.inr (Or.inl ⟨I1, U, 0, rfl, u1', fun s _ => ⟨?_, fun h => ⟨⟨by linarith [h.1], h.2⟩, Or.inr h.1⟩⟩⟩), ?_⟩
    · rintro ⟨⟨a, b⟩, c | c⟩
      · linarith
      · exact ⟨c, b⟩
    · have e1 : (I2 < L ∧ L < I1) := ⟨l2', l1⟩
      have e2 : ¬ (I2 < U ∧ U < I1) := by rintro ⟨_, h⟩; linarith
      simp only [e1, e2, not_true_eq_false, not_false_eq_true, true_and, false_and, and_self]
      by_cases p2 : GEOMETRY_PRECISION ≤ I2
      · right
        refine ⟨⟨p2, u1'⟩, ?_⟩
        rw [pairOf_np not_false (by linarith), snap_of_ge p2, snap_of_ge (show GEOMETRY_PRECISION ≤ I1 by linarith)]
        exact innerUpdate_opening (by linarith) hI u1' h1 (fun h => by linarith [hin h])
      · left
        by_cases p3 : GEOMETRY_PRECISION ≤ I1
        · rw [pairOf_np not_false (by linarith), ahead_cons_pos p3, ahead_cons_pos (by linarith), ahead_nil, snap_of_ge p3]
          exact innerUpdate_mid (by linarith) (snap_nonpos_iff.2 (not_le.1 p2)) u1' h1
        · rw [ahead_cons_neg (not_le.1 p3), idn (Or.inr (not_le.1 p3)) (Or.inr (not_le.1 p2))]
          by_cases p4 : GEOMETRY_PRECISION ≤ U
          · rw [pairOf_np not_false p4, ahead_cons_pos p4, ahead_nil]; rfl
          · rw [pairOf_nn not_false p4, ahead_cons_neg (not_le.1 p4), ahead_nil]; rfl

end Proposal
