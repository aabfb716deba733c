import Verif.Model.PhotonPair
import Mathlib.Topology.Algebra.InfiniteSum.NatInt
import Mathlib.Analysis.PSeries
import Mathlib.Topology.Algebra.Order.LiminfLimsup

/-!
# C133: the Coulomb corrections are those of Bethe and Maximon
-/

namespace Proposal

open Finset Filter Topology

/-- The function of Bethe and Maximon, `f(a) = a² Σ 1 / (n (n² + a²))` with `a = α Z`. -/
noncomputable def Spec.betheMaximon (a : ℝ) : ℝ := a ^ 2 * ∑' n : ℕ, 1 / (((n : ℝ) + 1) * (((n : ℝ) + 1) ^ 2 + a ^ 2))

/-- Sums of inverse powers from two on. -/
noncomputable def zetaTail (k : ℕ) : ℝ := ∑' n : ℕ, 1 / ((n : ℝ) + 2) ^ k

lemma summable_inv_pow (k m : ℕ) (hk : 2 ≤ k) : Summable fun n : ℕ => 1 / ((n : ℝ) + m) ^ k := by
  have h := (summable_nat_add_iff m).mpr (Real.summable_one_div_nat_pow.mpr (by omega : 1 < k))
  refine h.congr fun n => ?_
  push_cast
  rfl

lemma tail_upper : ∑' n : ℕ, 1 / ((n : ℝ) + 21) ^ 3 ≤ 1 / 840 := by
  refine Real.tsum_le_of_sum_range_le (fun n => by positivity) fun N => ?_
  have h : ∀ N : ℕ, ∑ i ∈ range N, 1 / ((i : ℝ) + 21) ^ 3 ≤ 1 / 840 - 1 / (2 * ((N : ℝ) + 20) * (N + 21)) := by
    intro N
    induction N with
    | zero => norm_num
    | succ N ih =>
      rw [sum_range_succ]
      have : 1 / ((N : ℝ) + 21) ^ 3 ≤ 1 / (2 * ((N : ℝ) + 20) * (N + 21)) - 1 / (2 * ((N : ℝ) + 21) * (N + 22)) := by
        have e : 1 / (2 * ((N : ℝ) + 20) * (N + 21)) - 1 / (2 * ((N : ℝ) + 21) * (N + 22)) = 1 / ((N + 20) * (N + 21) * (N + 22)) := by
          field_simp; ring
        rw [e]
        apply one_div_le_one_div_of_le (by positivity)
        nlinarith [Nat.cast_nonneg (α := ℝ) N]
      push_cast
      have e : (N : ℝ) + 1 + 20 = N + 21 := by ring
      have e' : (N : ℝ) + 1 + 21 = N + 22 := by ring
      rw [e, e']
      linarith
  have := h N
  have h0 : 0 ≤ 1 / (2 * ((N : ℝ) + 20) * (N + 21)) := by positivity
  linarith

lemma tail_lower : 1 / 841 ≤ ∑' n : ℕ, 1 / ((n : ℝ) + 21) ^ 3 := by
  have h : ∀ N : ℕ, 1 / 841 - 1 / (2 * (((N : ℝ) + 20) * (N + 21) + 1 / 2)) ≤ ∑ i ∈ range N, 1 / ((i : ℝ) + 21) ^ 3 := by
    intro N
    induction N with
    | zero => norm_num
    | succ N ih =>
      rw [sum_range_succ]
      have : 1 / (2 * (((N : ℝ) + 20) * (N + 21) + 1 / 2)) - 1 / (2 * (((N : ℝ) + 21) * (N + 22) + 1 / 2)) ≤ 1 / ((N : ℝ) + 21) ^ 3 := by
        have h1 : 0 < ((N : ℝ) + 20) * (N + 21) + 1 / 2 := by positivity
        have h2 : 0 < ((N : ℝ) + 21) * (N + 22) + 1 / 2 := by positivity
        have e : 1 / (2 * (((N : ℝ) + 20) * (N + 21) + 1 / 2)) - 1 / (2 * (((N : ℝ) + 21) * (N + 22) + 1 / 2)) =
            ((N : ℝ) + 21) / ((((N : ℝ) + 20) * (N + 21) + 1 / 2) * (((N : ℝ) + 21) * (N + 22) + 1 / 2)) := by
          rw [div_sub_div _ _ (by positivity) (by positivity), div_eq_div_iff (by positivity) (by positivity)]; ring
        rw [e, div_le_div_iff₀ (by positivity) (by positivity)]
        nlinarith [Nat.cast_nonneg (α := ℝ) N]
      push_cast
      have e : (N : ℝ) + 1 + 20 = N + 21 := by ring
      have e' : (N : ℝ) + 1 + 21 = N + 22 := by ring
      rw [e, e']
      linarith
  have hs := (summable_inv_pow 3 21 (by norm_num)).hasSum.tendsto_sum_nat
  push_cast at hs
  have hz : Tendsto (fun N : ℕ => (1 / 841 : ℝ) - 1 / (2 * (((N : ℝ) + 20) * (N + 21) + 1 / 2))) atTop (𝓝 (1 / 841 - 0)) := by
    refine Tendsto.const_sub _ ?_
    have h1 : Tendsto (fun N : ℕ => 1 / ((N : ℝ) + 1)) atTop (𝓝 0) := tendsto_one_div_add_atTop_nhds_zero_nat
    refine squeeze_zero (fun N => by positivity) (fun N => ?_) h1
    apply one_div_le_one_div_of_le (by positivity)
    nlinarith [Nat.cast_nonneg (α := ℝ) N]
  rw [sub_zero] at hz
  exact le_of_tendsto_of_tendsto' hz hs h

lemma zetaTail_split (k : ℕ) (hk : 2 ≤ k) :
    zetaTail k = ∑ i ∈ range 19, 1 / ((i : ℝ) + 2) ^ k + ∑' n : ℕ, 1 / ((n : ℝ) + 21) ^ k := by
  unfold zetaTail
  have hs : Summable fun n : ℕ => 1 / ((n : ℝ) + 2) ^ k := by
    have := summable_inv_pow k 2 hk
    push_cast at this
    exact this
  rw [← hs.sum_add_tsum_nat_add 19]
  congr 1
  refine tsum_congr fun n => ?_
  push_cast
  congr 2
  ring

lemma zetaTail_le (j : ℕ) : zetaTail (3 + j) ≤ ∑ i ∈ range 19, 1 / ((i : ℝ) + 2) ^ (3 + j) + 1 / 840 / 21 ^ j := by
  rw [zetaTail_split _ (by omega)]
  have h3 := summable_inv_pow 3 21 (by norm_num)
  have hk := summable_inv_pow (3 + j) 21 (by omega)
  push_cast at h3 hk
  have : ∑' n : ℕ, 1 / ((n : ℝ) + 21) ^ (3 + j) ≤ ∑' n : ℕ, (1 / ((n : ℝ) + 21) ^ 3) / 21 ^ j := by
    refine hk.tsum_le_tsum (fun n => ?_) (h3.div_const _)
    rw [div_div]
    apply one_div_le_one_div_of_le (by positivity)
    rw [pow_add]
    have : (21 : ℝ) ^ j ≤ ((n : ℝ) + 21) ^ j := pow_le_pow_left₀ (by norm_num) (by linarith [Nat.cast_nonneg (α := ℝ) n]) j
    exact mul_le_mul_of_nonneg_left this (by positivity)
  rw [tsum_div_const] at this
  have h2 : (∑' n : ℕ, 1 / ((n : ℝ) + 21) ^ 3) / 21 ^ j ≤ 1 / 840 / 21 ^ j := div_le_div_of_nonneg_right tail_upper (by positivity)
  linarith

lemma zetaTail_ge (k : ℕ) (hk : 2 ≤ k) : ∑ i ∈ range 19, 1 / ((i : ℝ) + 2) ^ k ≤ zetaTail k := by
  rw [zetaTail_split k hk]
  have : 0 ≤ ∑' n : ℕ, 1 / ((n : ℝ) + 21) ^ k := tsum_nonneg fun n => by positivity
  linarith

lemma zeta3 : 0.202056 ≤ zetaTail 3 ∧ zetaTail 3 ≤ 0.202059 := by
  rw [zetaTail_split 3 (by norm_num)]
  have h1 := tail_lower
  have h2 := tail_upper
  have h : ∑ i ∈ range 19, 1 / ((i : ℝ) + 2) ^ 3 ∈ Set.Icc (0.2020583 - 1 / 840 : ℝ) (0.2020584 - 1 / 840) := by
    simp only [sum_range_succ, range_zero, sum_empty]
    norm_num
  constructor <;> [have := h.1; have := h.2] <;> norm_num at * <;> linarith

lemma zeta5 : 0.03692 ≤ zetaTail 5 ∧ zetaTail 5 ≤ 0.03693 := by
  have h1 := zetaTail_ge 5 (by norm_num)
  have h2 := zetaTail_le 2
  simp only [sum_range_succ, range_zero, sum_empty] at h1 h2
  norm_num at h1 h2
  constructor <;> norm_num <;> linarith

lemma zeta7 : 0.00834 ≤ zetaTail 7 ∧ zetaTail 7 ≤ 0.00835 := by
  have h1 := zetaTail_ge 7 (by norm_num)
  have h2 := zetaTail_le 4
  simp only [sum_range_succ, range_zero, sum_empty] at h1 h2
  norm_num at h1 h2
  constructor <;> norm_num <;> linarith

lemma zeta9 : 0.002008 ≤ zetaTail 9 ∧ zetaTail 9 ≤ 0.002009 := by
  have h1 := zetaTail_ge 9 (by norm_num)
  have h2 := zetaTail_le 6
  simp only [sum_range_succ, range_zero, sum_empty] at h1 h2
  norm_num at h1 h2
  constructor <;> norm_num <;> linarith

lemma zeta11 : zetaTail 11 ≤ 0.000495 := by
  have h2 := zetaTail_le 8
  simp only [sum_range_succ, range_zero, sum_empty] at h2
  norm_num at h2
  norm_num; linarith

/-- The function of Bethe and Maximon as alternating sum of its first terms. -/
lemma betheMaximon_series (a : ℝ) : ∃ R, 0 ≤ R ∧ R ≤ zetaTail 11 ∧ Spec.betheMaximon a = a ^ 2 * (1 / (1 + a ^ 2) + zetaTail 3 -
    a ^ 2 * zetaTail 5 + (a ^ 2) ^ 2 * zetaTail 7 - (a ^ 2) ^ 3 * zetaTail 9 + (a ^ 2) ^ 4 * R) := by
  have hz : 0 ≤ a ^ 2 := sq_nonneg a
  unfold Spec.betheMaximon
  generalize a ^ 2 = z at hz ⊢
  have hs : ∀ k, 2 ≤ k → Summable fun n : ℕ => 1 / ((n : ℝ) + 2) ^ k := fun k hk => by
    have := summable_inv_pow k 2 hk
    push_cast at this
    exact this
  have hle : ∀ n : ℕ, 1 / (((n : ℝ) + 2) ^ 9 * (((n : ℝ) + 2) ^ 2 + z)) ≤ 1 / ((n : ℝ) + 2) ^ 11 := by
    intro n
    apply one_div_le_one_div_of_le (by positivity)
    have : 0 ≤ ((n : ℝ) + 2) ^ 9 * z := by positivity
    nlinarith
  have hR : Summable fun n : ℕ => 1 / (((n : ℝ) + 2) ^ 9 * (((n : ℝ) + 2) ^ 2 + z)) :=
    Summable.of_nonneg_of_le (fun n => by positivity) hle (hs 11 (by norm_num))
  refine ⟨∑' n : ℕ, 1 / (((n : ℝ) + 2) ^ 9 * (((n : ℝ) + 2) ^ 2 + z)), tsum_nonneg fun n => by positivity,
    hR.tsum_le_tsum hle (hs 11 (by norm_num)), ?_⟩
  have hsum : Summable fun n : ℕ => 1 / (((n : ℝ) + 1) * (((n : ℝ) + 1) ^ 2 + z)) := by
    have h1 := summable_inv_pow 3 1 (by norm_num)
    push_cast at h1
    refine Summable.of_nonneg_of_le (fun n => by positivity) (fun n => ?_) h1
    apply one_div_le_one_div_of_le (by positivity)
    have : 0 ≤ ((n : ℝ) + 1) * z := by positivity
    nlinarith
  rw [hsum.tsum_eq_zero_add]
  congr 1
  have h := ((((hs 3 (by norm_num)).hasSum.sub ((hs 5 (by norm_num)).hasSum.mul_left z)).add
    ((hs 7 (by norm_num)).hasSum.mul_left (z ^ 2))).sub ((hs 9 (by norm_num)).hasSum.mul_left (z ^ 3))).add (hR.hasSum.mul_left (z ^ 4))
  have e : (fun n : ℕ => 1 / ((((n + 1 : ℕ) : ℝ) + 1) * ((((n + 1 : ℕ) : ℝ) + 1) ^ 2 + z))) = fun n : ℕ => 1 / ((n : ℝ) + 2) ^ 3 -
      z * (1 / ((n : ℝ) + 2) ^ 5) + z ^ 2 * (1 / ((n : ℝ) + 2) ^ 7) - z ^ 3 * (1 / ((n : ℝ) + 2) ^ 9) +
      z ^ 4 * (1 / (((n : ℝ) + 2) ^ 9 * (((n : ℝ) + 2) ^ 2 + z))) := by
    funext n
    push_cast
    have e1 : (n : ℝ) + 1 + 1 = n + 2 := by ring
    rw [e1]
    have h2 : 0 < (n : ℝ) + 2 := by positivity
    generalize (n : ℝ) + 2 = w at h2 ⊢
    have hw : w ^ 2 + z ≠ 0 := by positivity
    field_simp
    ring
  rw [e, h.tsum_eq]
  unfold zetaTail
  push_cast
  ring

/-- The Coulomb correction in the bremsstrahlung of electrons and in `PhotoPairKochMotz` is that of Bethe and Maximon up to
`6e-5 (α Z)²`, for all elements up to 100. -/
theorem C133_coulomb (Z : ℝ) (h0 : 0 ≤ Z) (h1 : Z ≤ 100) :
    |coulombCorrection Z - Spec.betheMaximon (ALPHA * Z)| ≤ 6e-5 * (ALPHA * Z) ^ 2 := by
  obtain ⟨R, hR0, hR1, h⟩ := betheMaximon_series (ALPHA * Z)
  have hz0 : 0 ≤ (ALPHA * Z) ^ 2 := sq_nonneg _
  have hz1 : (ALPHA * Z) ^ 2 ≤ 0.5326 := by
    have ha : 0 ≤ ALPHA := by norm_num [ALPHA]
    have : ALPHA * Z ≤ ALPHA * 100 := mul_le_mul_of_nonneg_left h1 ha
    have h2 : ALPHA * 100 ≤ 0.72974 := by norm_num [ALPHA]
    have h3 : 0 ≤ ALPHA * Z := mul_nonneg ha h0
    nlinarith
  have e : coulombCorrection Z = (ALPHA * Z) ^ 2 * (1 / (1 + (ALPHA * Z) ^ 2) + 0.20206 + (ALPHA * Z) ^ 2 *
      (-0.0369 + (ALPHA * Z) ^ 2 * (0.0083 - 0.002 * (ALPHA * Z) ^ 2))) := by
    unfold coulombCorrection
    simp only
    rw [← sq]
  rw [e, h]
  generalize (ALPHA * Z) ^ 2 = z at hz0 hz1 ⊢
  rw [← mul_sub, abs_mul, abs_of_nonneg hz0, mul_comm]
  refine mul_le_mul_of_nonneg_right ?_ hz0
  obtain ⟨a3, b3⟩ := zeta3
  obtain ⟨a5, b5⟩ := zeta5
  obtain ⟨a7, b7⟩ := zeta7
  obtain ⟨a9, b9⟩ := zeta9
  have b11 := hR1.trans zeta11
  have z2 : z ^ 2 ≤ 0.5326 ^ 2 := pow_le_pow_left₀ hz0 hz1 2
  have z3 : z ^ 3 ≤ 0.5326 ^ 3 := pow_le_pow_left₀ hz0 hz1 3
  have z4 : z ^ 4 ≤ 0.5326 ^ 4 := pow_le_pow_left₀ hz0 hz1 4
  have p2 : 0 ≤ z ^ 2 := by positivity
  have p3 : 0 ≤ z ^ 3 := by positivity
  have p4 : 0 ≤ z ^ 4 := by positivity
  have e2 : 1 / (1 + z) + 0.20206 + z * (-0.0369 + z * (0.0083 - 0.002 * z)) - (1 / (1 + z) + zetaTail 3 - z * zetaTail 5 +
      z ^ 2 * zetaTail 7 - z ^ 3 * zetaTail 9 + z ^ 4 * R) = (0.20206 - zetaTail 3) + z * (zetaTail 5 - 0.0369) -
      z ^ 2 * (zetaTail 7 - 0.0083) + z ^ 3 * (zetaTail 9 - 0.002) - z ^ 4 * R := by ring
  rw [e2, abs_le, mul_sub, mul_sub, mul_sub]
  have m5 := mul_le_mul_of_nonneg_left b5 hz0
  have m5' := mul_le_mul_of_nonneg_left a5 hz0
  have m7 := mul_le_mul_of_nonneg_left b7 p2
  have m7' := mul_le_mul_of_nonneg_left a7 p2
  have m9 := mul_le_mul_of_nonneg_left b9 p3
  have m9' := mul_le_mul_of_nonneg_left a9 p3
  have m11 := mul_le_mul_of_nonneg_left b11 p4
  have m11' := mul_nonneg p4 hR0
  norm_num at z2 z3 z4
  constructor <;> linarith

/-- The Coulomb correction of `PhotoPairTsai` is that of Bethe and Maximon with the fine structure constant 1/137 up to
`1.2e-3 (Z / 137)²`. -/
theorem C133_tsai (Z : ℝ) (h0 : 0 ≤ Z) (h1 : Z ≤ 100) :
    |tsaiCoulomb Z - Spec.betheMaximon (Z / 137)| ≤ 1.2e-3 * (Z / 137) ^ 2 := by
  obtain ⟨R, hR0, hR1, h⟩ := betheMaximon_series (Z / 137)
  have hz0 : 0 ≤ (Z / 137) ^ 2 := sq_nonneg _
  have hz1 : (Z / 137) ^ 2 ≤ 0.5329 := by
    have : Z / 137 ≤ 0.73 := by rw [div_le_iff₀ (by norm_num)]; linarith
    have h3 : 0 ≤ Z / 137 := by positivity
    nlinarith
  have e : tsaiCoulomb Z = 1.202 * (Z / 137) ^ 2 - 1.0369 * ((Z / 137) ^ 2) ^ 2 + 1.008 * ((Z / 137) ^ 2) ^ 3 / (1 + (Z / 137) ^ 2) := rfl
  rw [e, h]
  generalize (Z / 137) ^ 2 = z at hz0 hz1 ⊢
  have e2 : 1.202 * z - 1.0369 * z ^ 2 + 1.008 * z ^ 3 / (1 + z) - z * (1 / (1 + z) + zetaTail 3 - z * zetaTail 5 +
      z ^ 2 * zetaTail 7 - z ^ 3 * zetaTail 9 + z ^ 4 * R) = z * ((0.202 - zetaTail 3) + z * (zetaTail 5 - 0.0369) + z ^ 2 *
      (0.008 / (1 + z) - zetaTail 7) + z ^ 3 * zetaTail 9 - z ^ 4 * R) := by
    have : 1 + z ≠ 0 := by positivity
    field_simp
    ring
  rw [e2, abs_mul, abs_of_nonneg hz0, mul_comm]
  refine mul_le_mul_of_nonneg_right ?_ hz0
  obtain ⟨a3, b3⟩ := zeta3
  obtain ⟨a5, b5⟩ := zeta5
  obtain ⟨a7, b7⟩ := zeta7
  obtain ⟨a9, b9⟩ := zeta9
  have b11 := hR1.trans zeta11
  have q1 : 0.008 / (1 + z) ≤ 0.008 := div_le_self (by norm_num) (by linarith)
  have q2 : 0.008 - 0.008 * z ≤ 0.008 / (1 + z) := by
    rw [le_div_iff₀ (by linarith)]
    nlinarith
  generalize (0.008 : ℝ) / (1 + z) = q at q1 q2 ⊢
  have z2 : z ^ 2 ≤ 0.5329 ^ 2 := pow_le_pow_left₀ hz0 hz1 2
  have z3 : z ^ 3 ≤ 0.5329 ^ 3 := pow_le_pow_left₀ hz0 hz1 3
  have z4 : z ^ 4 ≤ 0.5329 ^ 4 := pow_le_pow_left₀ hz0 hz1 4
  have p2 : 0 ≤ z ^ 2 := by positivity
  have p3 : 0 ≤ z ^ 3 := by positivity
  have p4 : 0 ≤ z ^ 4 := by positivity
  have m5 := mul_le_mul_of_nonneg_left b5 hz0
  have m5' := mul_le_mul_of_nonneg_left a5 hz0
  have m7 := mul_le_mul_of_nonneg_left (show q - zetaTail 7 ≤ 0 by linarith) p2
  have m7' := mul_le_mul_of_nonneg_left (show -0.00035 - 0.008 * z ≤ q - zetaTail 7 by linarith) p2
  have m9 := mul_le_mul_of_nonneg_left b9 p3
  have m9' := mul_le_mul_of_nonneg_left a9 p3
  have m11 := mul_le_mul_of_nonneg_left b11 p4
  have m11' := mul_nonneg p4 hR0
  have z33 : z ^ 2 * (0.008 * z) = 0.008 * z ^ 3 := by ring
  rw [abs_le, mul_sub z (zetaTail 5)]
  norm_num at z2 z3 z4
  constructor <;> linarith

/-- The correction is positive, grows with the charge, and is about a third for lead. -/
example : 0.331 < Spec.betheMaximon (ALPHA * 82) ∧ Spec.betheMaximon (ALPHA * 82) < 0.333 := by
  have h := abs_le.mp (C133_coulomb 82 (by norm_num) (by norm_num))
  norm_num [coulombCorrection, ALPHA] at h ⊢
  constructor <;> linarith [h.1, h.2]

end Proposal
