import Verif.Lemmas.Decay
import Mathlib.Analysis.SpecialFunctions.Gamma.Basic
import Mathlib.Tactic.LinearCombination

/-! The kinematics of many body decays. -/

namespace Proposal

open Spec

/-- Every virtual mass is at least the one before plus the mass of the product. -/
def MassChain : (v : ℝ) → (vs ms : List ℝ) → Prop
  | _, [], [] => True
  | v, v' :: vs, m :: ms => v + m ≤ v' ∧ MassChain v' vs ms
  | _, _, _ => False

theorem decayMomentum_zero : decayMomentum 0 0 0 = 0 := by
  unfold decayMomentum kaellen; simp

/-- The energies of two products add up to the mass of the system, also if that is 0. -/
theorem decayMomentum_sum (M m1 m2 : ℝ) (h1 : 0 ≤ m1) (h2 : 0 ≤ m2) (h : m1 + m2 ≤ M) :
    0 ≤ decayMomentum M m1 m2 ∧
    energyOfMomentum m1 (decayMomentum M m1 m2) + energyOfMomentum m2 (decayMomentum M m1 m2) = M := by
  rcases (add_nonneg h1 h2 |>.trans h).eq_or_lt with h0 | h0
  · have e1 : m1 = 0 := by linarith
    have e2 : m2 = 0 := by linarith
    subst h0 e1 e2
    rw [decayMomentum_zero]
    simp [energyOfMomentum]
  · obtain ⟨a, b, -, -⟩ := decayMomentum_spec M m1 m2 h0 h1 h2 h
    exact ⟨a, b⟩

theorem sameOrigin_refl (p : Part) : SameOrigin p p := ⟨rfl, rfl, rfl, rfl, rfl⟩

theorem sameOrigin_trans {p q r : Part} (h : SameOrigin p q) (h' : SameOrigin q r) : SameOrigin p r := by
  obtain ⟨a1, a2, a3, a4, a5⟩ := h
  obtain ⟨b1, b2, b3, b4, b5⟩ := h'
  exact ⟨b1.trans a1, b2.trans a2, b3.trans a3, b4.trans a4, b5.trans a5⟩

theorem forall_sameOrigin_trans {l l' l'' : List Part} (h : List.Forall₂ SameOrigin l l') (h' : List.Forall₂ SameOrigin l' l'') :
    List.Forall₂ SameOrigin l l'' := by
  induction h generalizing l'' with
  | nil => exact h'
  | cons a _ ih =>
    cases h' with
    | cons b c => exact .cons (sameOrigin_trans a b) (ih c)

theorem forall_sameOrigin_append {l l' k k' : List Part} (h : List.Forall₂ SameOrigin l l') (h' : List.Forall₂ SameOrigin k k') :
    List.Forall₂ SameOrigin (l ++ k) (l' ++ k') := by
  induction h with
  | nil => exact h'
  | cons a _ ih => exact .cons a ih

theorem forall_sameOrigin_refl (l : List Part) : List.Forall₂ SameOrigin l l := by
  induction l with
  | nil => exact .nil
  | cons p l ih => exact .cons (sameOrigin_refl p) ih

theorem setMomentum_sameOrigin (p : Part) (k : ℝ) (d : Vec3) : SameOrigin p { p.setMomentum k with dir := d } :=
  ⟨rfl, rfl, rfl, rfl, rfl⟩

/-- Adding products one after the other keeps the system at rest, with the virtual mass as energy. -/
theorem growEvent_spec (todo : List Part) : ∀ (done : List Part) (v m0 : ℝ) (vs : List ℝ) (us : List (ℝ × ℝ)) (res : List Part),
    (∀ p ∈ done, PhysicalState p) → totalEnergy done = v → totalMomentum done = 0 → 0 ≤ v →
    (∀ p ∈ todo, 0 ≤ p.mass) → MassChain v vs (todo.map Part.mass) → (∀ u ∈ us, 0 ≤ u.2 ∧ u.2 ≤ 1) →
    growEvent done todo (virtualMomenta (v :: vs) (m0 :: todo.map Part.mass)) (v :: vs) us = some res →
    (∀ p ∈ res, PhysicalState p) ∧ totalEnergy res = (v :: vs).getLast (by simp) ∧ totalMomentum res = 0 ∧
    List.Forall₂ SameOrigin (done ++ todo) res := by
  induction todo with
  | nil =>
    intro done v m0 vs us res hd he hz hv hm hc hu h
    cases vs with
    | nil =>
      simp only [growEvent, Option.some.injEq] at h
      subst h
      exact ⟨hd, by simpa using he, hz, by simpa using forall_sameOrigin_refl done⟩
    | cons v' vs => simp [MassChain] at hc
  | cons p ps ih =>
    intro done v m0 vs us res hd he hz hv hm hc hu h
    cases vs with
    | nil => simp [MassChain] at hc
    | cons v' vs =>
      simp only [List.map_cons, MassChain] at hc
      cases us with
      | nil => simp [growEvent, virtualMomenta] at h
      | cons u us =>
        simp only [List.map_cons, virtualMomenta, growEvent] at h
        split_ifs at h with hv0
        have hvp : 0 < v := lt_of_le_of_ne hv (Ne.symm hv0)
        have hpm := hm p List.mem_cons_self
        obtain ⟨hu0, hu1⟩ := hu u List.mem_cons_self
        have hn := randomDirection_unit u hu0 hu1
        obtain ⟨k0, k1⟩ := decayMomentum_sum v' v p.mass hv hpm hc.1
        generalize decayMomentum v' v p.mass = k at *
        cases hb : boostAll (randomDirection u) (Real.sqrt (k * k + v * v) / v) (k / v) done with
        | none => rw [hb] at h; simp at h
        | some done' =>
          rw [hb] at h
          simp only at h
          have hs : Real.sqrt (k * k + v * v) ^ 2 = k * k + v * v := Real.sq_sqrt (by positivity)
          have hγ : (Real.sqrt (k * k + v * v) / v) ^ 2 - (k / v) ^ 2 = 1 := by
            rw [div_pow, div_pow, hs]; field_simp; ring
          obtain ⟨a1, a2, a3, a4⟩ := boostAll_spec _ _ _ hn (by positivity) hγ done done' hd hb
          obtain ⟨b1, b2, -, -⟩ := setMomentum_spec p hpm _ _ _ k0 hn rfl
          have hE : totalEnergy done' = Real.sqrt (k * k + v * v) := by
            rw [a3, he, hz]
            simp only [Vec3.dot, Vec3.zero_x, Vec3.zero_y, Vec3.zero_z, zero_mul, add_zero, mul_zero, sub_zero]
            field_simp
          have hP : totalMomentum done' = -k • randomDirection u := by
            rw [a4, he, hz]
            unfold boostedVec Vec3.dot
            ext <;> simp [div_mul_cancel₀ k hvp.ne']
          have := ih (done' ++ [{ p.setMomentum k with dir := randomDirection u }]) v' p.mass vs us res ?_ ?_ ?_ ?_
            (fun q hq => hm q (List.mem_cons_of_mem _ hq)) hc.2 (fun q hq => hu q (List.mem_cons_of_mem _ hq)) h
          · obtain ⟨c1, c2, c3, c4⟩ := this
            refine ⟨c1, by simpa using c2, c3, ?_⟩
            apply forall_sameOrigin_trans _ c4
            rw [List.append_assoc]
            exact forall_sameOrigin_append a2 (.cons (setMomentum_sameOrigin _ _ _) (forall_sameOrigin_refl ps))
          · intro q hq
            rcases List.mem_append.1 hq with hq | hq
            · exact a1 q hq
            · rw [List.mem_singleton] at hq; rw [hq]; exact b1
          · rw [totalEnergy_append, hE, totalEnergy_cons, totalEnergy_nil, add_zero]
            simp only [Part.setMomentum]
            rw [← k1]
            unfold energyOfMomentum
            rw [sq v]
          · rw [totalMomentum_append, hP, totalMomentum_cons, totalMomentum_nil, b2]
            ext <;> simp
          · linarith [hc.1]

theorem generateEvent_spec (p0 p1 : Part) (ps : List Part) (v1 : ℝ) (vs : List ℝ) (w : ℝ) (us : List (ℝ × ℝ)) (res : List Part)
    (h0 : 0 ≤ p0.mass) (h1 : 0 ≤ p1.mass) (hm : ∀ p ∈ ps, 0 ≤ p.mass)
    (hc : MassChain p0.mass (v1 :: vs) ((p1 :: ps).map Part.mass)) (hu : ∀ u ∈ us, 0 ≤ u.2 ∧ u.2 ≤ 1)
    (h : generateEvent (p0 :: p1 :: ps) ⟨p0.mass :: v1 :: vs, virtualMomenta (p0.mass :: v1 :: vs) ((p0 :: p1 :: ps).map Part.mass), w⟩ us
      = some res) :
    (∀ p ∈ res, PhysicalState p) ∧ totalEnergy res = (v1 :: vs).getLast (by simp) ∧ totalMomentum res = 0 ∧
    List.Forall₂ SameOrigin (p0 :: p1 :: ps) res := by
  simp only [List.map_cons, MassChain] at hc
  cases us with
  | nil => simp [generateEvent] at h
  | cons u us =>
    simp only [generateEvent, List.map_cons, virtualMomenta] at h
    obtain ⟨hu0, hu1⟩ := hu u List.mem_cons_self
    have hn := randomDirection_unit u hu0 hu1
    obtain ⟨k0, k1⟩ := decayMomentum_sum v1 p0.mass p1.mass h0 h1 hc.1
    generalize decayMomentum v1 p0.mass p1.mass = k at *
    obtain ⟨a1, a2, -, -⟩ := setMomentum_spec p0 h0 _ _ _ k0 (neg_unit hn) rfl
    obtain ⟨b1, b2, -, -⟩ := setMomentum_spec p1 h1 _ _ _ k0 hn rfl
    have := growEvent_spec ps _ v1 p1.mass vs us res ?_ ?_ ?_ (by linarith [hc.1]) hm hc.2
      (fun q hq => hu q (List.mem_cons_of_mem _ hq)) h
    · obtain ⟨c1, c2, c3, c4⟩ := this
      refine ⟨c1, c2, c3, ?_⟩
      apply forall_sameOrigin_trans _ c4
      exact .cons (setMomentum_sameOrigin _ _ _) (.cons (setMomentum_sameOrigin _ _ _) (forall_sameOrigin_refl ps))
    · intro q hq
      simp only [List.mem_cons, List.not_mem_nil, or_false] at hq
      rcases hq with rfl | rfl
      · exact a1
      · exact b1
    · simp only [totalEnergy_cons, totalEnergy_nil, add_zero]
      exact k1
    · simp only [totalMomentum_cons, totalMomentum_nil]
      rw [a2, b2]
      ext <;> simp

/-! ## The sorted random numbers -/

theorem le_last : ∀ (l : List ℝ), l.Pairwise (· ≤ ·) → ∀ x ∈ l, ∀ y, l.getLast? = some y → x ≤ y := by
  intro l
  induction l with
  | nil => intro _ x hx; simp at hx
  | cons a l ih =>
    intro hs x hx y hy
    rw [List.pairwise_cons] at hs
    cases l with
    | nil =>
      simp only [List.getLast?_singleton, Option.some.injEq] at hy
      simp only [List.mem_singleton] at hx
      rw [hx, hy]
    | cons b l =>
      rw [List.getLast?_cons_cons] at hy
      rcases List.mem_cons.1 hx with rfl | hx
      · exact (hs.1 b List.mem_cons_self).trans (ih hs.2 b List.mem_cons_self y hy)
      · exact ih hs.2 x hx y hy

theorem sorted_randoms (us : List ℝ) (hu : ∀ u ∈ us, 0 ≤ u ∧ u ≤ 1) :
    ∃ rs : List ℝ, List.insertionSort (· ≤ ·) (0 :: us ++ [1]) = 0 :: rs ∧ rs.length = us.length + 1 ∧
      (0 :: rs).Pairwise (· ≤ ·) ∧ (∀ r ∈ rs, 0 ≤ r ∧ r ≤ 1) ∧ rs.getLast? = some 1 ∧ (0 :: rs).Perm (0 :: us ++ [1]) := by
  have hperm := List.perm_insertionSort (· ≤ ·) (0 :: us ++ [1])
  have hsort := List.pairwise_insertionSort (· ≤ ·) (0 :: us ++ [1])
  generalize List.insertionSort (· ≤ ·) (0 :: us ++ [1]) = l at *
  have hmem : ∀ r ∈ l, 0 ≤ r ∧ r ≤ 1 := by
    intro r hr
    have := hperm.mem_iff.1 hr
    simp only [List.cons_append, List.mem_cons, List.mem_append, List.not_mem_nil, or_false] at this
    rcases this with rfl | h | rfl
    · norm_num
    · exact hu r h
    · norm_num
  have hlen := hperm.length_eq
  cases l with
  | nil => simp at hlen
  | cons a rs =>
    have h0 : (0 : ℝ) ∈ a :: rs := hperm.mem_iff.2 (by simp)
    have h1 : (1 : ℝ) ∈ a :: rs := hperm.mem_iff.2 (by simp)
    rw [List.pairwise_cons] at hsort
    have ha : a = 0 := by
      rcases List.mem_cons.1 h0 with h | h
      · exact h.symm
      · exact le_antisymm (hsort.1 0 h) (hmem a List.mem_cons_self).1
    subst ha
    refine ⟨rs, rfl, by simpa using hlen, List.pairwise_cons.2 hsort, fun r hr => hmem r (List.mem_cons_of_mem _ hr), ?_, hperm⟩
    have h1' : (1 : ℝ) ∈ rs := by
      rcases List.mem_cons.1 h1 with h | h
      · norm_num at h
      · exact h
    have hne : rs ≠ [] := List.ne_nil_of_mem h1'
    rw [List.getLast?_eq_some_getLast hne]
    congr 1
    apply le_antisymm (hmem _ (List.mem_cons_of_mem _ (List.getLast_mem hne))).2
    exact le_last rs hsort.2 1 h1' _ (List.getLast?_eq_some_getLast hne)

theorem virtualMasses_chain (Q : ℝ) (hQ : 0 ≤ Q) : ∀ (ms rs : List ℝ) (acc m r : ℝ), rs.length = ms.length →
    (r :: rs).Pairwise (· ≤ ·) → MassChain (acc + m + r * Q) (virtualMasses Q (acc + m) ms rs) ms := by
  intro ms
  induction ms with
  | nil =>
    intro rs acc m r hl hs
    cases rs with
    | nil => simp [virtualMasses, MassChain]
    | cons r' rs => simp at hl
  | cons m' ms ih =>
    intro rs acc m r hl hs
    cases rs with
    | nil => simp at hl
    | cons r' rs =>
      simp only [virtualMasses, MassChain]
      rw [List.pairwise_cons] at hs
      refine ⟨?_, ih rs (acc + m) m' r' (by simpa using hl) hs.2⟩
      have := mul_le_mul_of_nonneg_right (hs.1 r' List.mem_cons_self) hQ
      linarith

theorem virtualMasses_last (Q : ℝ) : ∀ (ms rs : List ℝ) (acc : ℝ), rs.length = ms.length → rs.getLast? = some 1 →
    (virtualMasses Q acc ms rs).getLast? = some (acc + ms.sum + Q) := by
  intro ms
  induction ms with
  | nil =>
    intro rs acc hl h
    cases rs with
    | nil => simp at h
    | cons r rs => simp at hl
  | cons m ms ih =>
    intro rs acc hl h
    cases rs with
    | nil => simp at hl
    | cons r rs =>
      simp only [virtualMasses]
      cases rs with
      | nil =>
        cases ms with
        | nil =>
          simp only [List.getLast?_singleton, Option.some.injEq] at h
          subst h
          simp [virtualMasses]
        | cons m' ms => simp at hl
      | cons r' rs =>
        rw [List.getLast?_cons_cons] at h
        cases ms with
        | nil => simp at hl
        | cons m' ms =>
          have := ih (r' :: rs) (acc + m) (by simpa using hl) h
          simp only [virtualMasses] at this ⊢
          rw [List.getLast?_cons_cons, this]
          simp only [List.sum_cons, Option.some.injEq]
          ring

/-! ## Weights -/

/-- The momentum in a two-body decay grows with the mass of the parent and falls with that of a daughter. -/
theorem decayMomentum_mono (M M' a a' b : ℝ) (ha : 0 ≤ a') (hb : 0 ≤ b) (haa : a' ≤ a) (h : a + b ≤ M) (hM : M ≤ M') :
    decayMomentum M a b ≤ decayMomentum M' a' b := by
  have h0 : 0 ≤ M := by linarith
  rcases h0.eq_or_lt with hz | hpos
  · have : decayMomentum M a b = 0 := by
      have e1 : a = 0 := by linarith
      have e2 : b = 0 := by linarith
      rw [← hz, e1, e2, decayMomentum_zero]
    rw [this]
    exact (decayMomentum_sum M' a' b ha hb (by linarith)).1
  · have hM' : 0 < M' := by linarith
    obtain ⟨k0, -, -, k1⟩ := decayMomentum_spec M a b hpos (by linarith) hb h
    obtain ⟨l0, -, -, l1⟩ := decayMomentum_spec M' a' b hM' ha hb (by linarith)
    apply (sq_le_sq₀ k0 l0).1
    rw [k1, l1]
    have step1 : kaellen M a b ≤ kaellen M a' b := by
      have e : kaellen M a' b - kaellen M a b = (a ^ 2 - a' ^ 2) * ((M ^ 2 - a ^ 2) + (M ^ 2 - a' ^ 2) + 2 * b ^ 2) := by
        unfold kaellen; ring
      have : 0 ≤ (a ^ 2 - a' ^ 2) * ((M ^ 2 - a ^ 2) + (M ^ 2 - a' ^ 2) + 2 * b ^ 2) := by
        apply mul_nonneg
        · nlinarith
        · have : a ^ 2 ≤ M ^ 2 := by nlinarith
          have : a' ^ 2 ≤ M ^ 2 := by nlinarith
          positivity
      linarith
    have step2 : kaellen M a' b / (4 * M ^ 2) ≤ kaellen M' a' b / (4 * M' ^ 2) := by
      rw [div_le_div_iff₀ (by positivity) (by positivity)]
      have e : kaellen M' a' b * (4 * M ^ 2) - kaellen M a' b * (4 * M' ^ 2) =
          4 * (M' ^ 2 - M ^ 2) * (M ^ 2 * M' ^ 2 - (a' ^ 2 - b ^ 2) ^ 2) := by
        unfold kaellen; ring
      have : 0 ≤ 4 * (M' ^ 2 - M ^ 2) * (M ^ 2 * M' ^ 2 - (a' ^ 2 - b ^ 2) ^ 2) := by
        apply mul_nonneg
        · nlinarith
        · have i1 : (a' ^ 2 - b ^ 2) ^ 2 ≤ ((a' + b) ^ 2) ^ 2 := by
            apply sq_le_sq' <;> nlinarith [mul_nonneg ha hb]
          have i2 : (a' + b) ^ 2 ≤ M ^ 2 := by
            apply pow_le_pow_left₀ (by linarith); linarith
          have i3 : M ^ 2 ≤ M' ^ 2 := pow_le_pow_left₀ h0 hM 2
          have i4 : ((a' + b) ^ 2) ^ 2 ≤ M ^ 2 * M' ^ 2 := by
            rw [sq ((a' + b) ^ 2)]
            apply mul_le_mul i2 (i2.trans i3) (sq_nonneg _) (sq_nonneg _)
          linarith
      linarith
    exact (div_le_div_of_nonneg_right step1 (by positivity)).trans step2

theorem weights_le (Q : ℝ) (hQ : 0 ≤ Q) : ∀ (ms rs : List ℝ) (acc m r : ℝ), rs.length = ms.length → 0 ≤ acc → 0 ≤ m →
    (∀ m ∈ ms, 0 ≤ m) → (r :: rs).Pairwise (· ≤ ·) → 0 ≤ r → (∀ r ∈ rs, r ≤ 1) →
    0 ≤ (virtualMomenta ((acc + m + r * Q) :: virtualMasses Q (acc + m) ms rs) (m :: ms)).prod ∧
    (virtualMomenta ((acc + m + r * Q) :: virtualMasses Q (acc + m) ms rs) (m :: ms)).prod ≤
      maxWeightLoop acc (acc + m + Q) m ms := by
  intro ms
  induction ms with
  | nil =>
    intro rs acc m r hl _ _ _ _ _ _
    cases rs with
    | nil => simp [virtualMasses, virtualMomenta, maxWeightLoop]
    | cons r' rs => simp at hl
  | cons m' ms ih =>
    intro rs acc m r hl ha hm hms hs hr hrs
    cases rs with
    | nil => simp at hl
    | cons r' rs =>
      rw [List.pairwise_cons] at hs
      have hm' := hms m' List.mem_cons_self
      have hrr := hs.1 r' List.mem_cons_self
      have hr1 := hrs r' List.mem_cons_self
      obtain ⟨i1, i2⟩ := ih rs (acc + m) m' r' (by simpa using hl) (by linarith) hm'
        (fun q hq => hms q (List.mem_cons_of_mem _ hq)) hs.2 (by linarith) (fun q hq => hrs q (List.mem_cons_of_mem _ hq))
      have q1 : r * Q ≤ r' * Q := mul_le_mul_of_nonneg_right hrr hQ
      have q2 : r' * Q ≤ Q := by nlinarith
      have q3 : 0 ≤ r * Q := mul_nonneg hr hQ
      obtain ⟨k0, -⟩ := decayMomentum_sum (acc + m + m' + r' * Q) (acc + m + r * Q) m' (by linarith) hm' (by linarith)
      have k1 := decayMomentum_mono (acc + m + m' + r' * Q) (acc + m + Q + m') (acc + m + r * Q) (acc + m) m' (by linarith) hm'
        (by linarith) (by linarith) (by linarith)
      simp only [virtualMasses, virtualMomenta, List.prod_cons, maxWeightLoop]
      refine ⟨mul_nonneg k0 i1, ?_⟩
      rw [show acc + m + Q + m' = acc + m + m' + Q by ring] at *
      exact mul_le_mul k1 i2 i1 (k0.trans k1)

theorem normalization_nonneg (M : ℝ) (masses : List ℝ) (hM : 0 < M) (hs : masses.sum ≤ M) (hl : 2 ≤ masses.length) :
    0 ≤ normalization M masses := by
  unfold normalization
  have hg : 0 < Real.Gamma ((masses.length : ℝ) - 2 + 1) := by
    apply Real.Gamma_pos_of_pos
    have : (2 : ℝ) ≤ masses.length := by exact_mod_cast hl
    linarith
  have h1 : 0 ≤ (M - masses.sum) ^ ((masses.length : ℤ) - 2) := zpow_nonneg (by linarith) _
  have h2 : 0 ≤ (2 * Real.pi) ^ ((masses.length : ℝ) - 1) := Real.rpow_nonneg (by positivity) _
  positivity

end Proposal
