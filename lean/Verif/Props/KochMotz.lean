import Verif.Model.KochMotz
import Verif.Props.RandomEngine
import Verif.Props.Secondaries
import Mathlib.Analysis.SpecialFunctions.Log.Deriv
import Mathlib.Analysis.Complex.ExponentialBounds
import Mathlib.Analysis.Real.Pi.Bounds

/-!
# The angles of bremsstrahlung after Koch and Motz (C142) and their random numbers (C141)
-/

namespace Proposal

open Spec

private lemma log_quarter : Real.log 0.252 ≤ -1.378 := by
  have h2 := Real.log_two_gt_d9
  have : (0.252 : ℝ) = 1.008 / (2 * 2) := by norm_num
  rw [this, Real.log_div (by norm_num) (by norm_num), Real.log_mul (by norm_num) (by norm_num)]
  have := Real.log_le_sub_one_of_pos (x := 1.008) (by norm_num)
  linarith

/-- C142: the function of the angular distribution is positive, at least 0.3, so that no candidate is impossible and the normalisation is
finite. -/
theorem C142_positive (x E E0 Z : ℝ) (hx : 0 ≤ x) (hE : 1 ≤ E) (hE0 : E < E0) (hZ0 : 0 ≤ Z) (hZ : Z ≤ 100) :
    0.3 ≤ kochMotzG x E E0 Z := by
  unfold kochMotzG
  simp only
  have hE0p : 0 < E0 := by linarith
  have hr0 : 0 < E / E0 := by positivity
  have hr1 : E / E0 < 1 := (div_lt_one hE0p).2 hE0
  have hEr : E0 * (E / E0) = E := by field_simp
  have hm1 : (1 - E / E0) / (2 * E0 * (E / E0)) ≤ (1 - E / E0) / 2 := by
    rw [mul_assoc, hEr]
    exact div_le_div_of_nonneg_left (by linarith) (by norm_num) (by linarith)
  have hm0 : 0 < (1 - E / E0) / (2 * E0 * (E / E0)) := by
    have : 0 < 1 - E / E0 := by linarith
    positivity
  set r := E / E0
  clear_value r
  set A := (1 - r) / (2 * E0 * r)
  clear_value A
  have hZ3 : Z ^ (1 / 3 : ℝ) ≤ 4.65 := by
    rw [one_div]
    refine (Real.rpow_inv_le_iff_of_pos hZ0 (by norm_num) (by norm_num)).2 ?_
    have : (4.65 : ℝ) ^ (3 : ℝ) = 4.65 ^ (3 : ℕ) := by exact_mod_cast Real.rpow_natCast (4.65 : ℝ) 3
    rw [this]
    norm_num
    linarith
  have hZ3p : 0 ≤ Z ^ (1 / 3 : ℝ) := Real.rpow_nonneg hZ0 _
  set B := Z ^ (1 / 3 : ℝ) / (111 * (x + 1)) with hB
  have hB0 : 0 ≤ B := by positivity
  have hB1 : B ≤ 0.042 := by
    rw [hB, div_le_iff₀ (by positivity)]
    nlinarith
  clear_value B
  have hm : A ^ 2 + B ^ 2 ≤ (1 - r) ^ 2 / 4 + 0.002 := by
    have h1 : A ^ 2 ≤ ((1 - r) / 2) ^ 2 := pow_le_pow_left₀ hm0.le hm1 2
    have h2 : B ^ 2 ≤ 0.042 ^ 2 := pow_le_pow_left₀ hB0 hB1 2
    nlinarith
  have hmp : 0 < A ^ 2 + B ^ 2 := by positivity
  have hlog : Real.log (A ^ 2 + B ^ 2) ≤ -1.378 + ((1 - r) ^ 2 / 4 + 0.002) / 0.252 - 1 := by
    have h1 := Real.log_le_sub_one_of_pos (x := (A ^ 2 + B ^ 2) / 0.252) (by positivity)
    rw [Real.log_div hmp.ne' (by norm_num)] at h1
    have h2 : (A ^ 2 + B ^ 2) / 0.252 ≤ ((1 - r) ^ 2 / 4 + 0.002) / 0.252 := div_le_div_of_nonneg_right hm (by norm_num)
    linarith [log_quarter]
  have hq1 : 4 * x * r / (x + 1) ^ 2 ≤ r := by
    rw [div_le_iff₀ (by positivity)]
    nlinarith [mul_nonneg hr0.le (sq_nonneg (x - 1))]
  have hq0 : 0 ≤ 4 * x * r / (x + 1) ^ 2 := by positivity
  set q := 4 * x * r / (x + 1) ^ 2
  clear_value q
  set L := 4 + Real.log (A ^ 2 + B ^ 2) with hL
  have hL1 : L ≤ 2.622 + (-0.5 * r + 0.25 * r ^ 2) / 0.252 := by
    have : ((1 - r) ^ 2 / 4 + 0.002) / 0.252 = 1 + (-0.5 * r + 0.25 * r ^ 2) / 0.252 := by ring
    linarith
  clear_value L
  rcases le_or_gt L 0 with h | h
  · have : 0 ≤ -L * (1 + r * r - q) := mul_nonneg (by linarith) (by nlinarith)
    nlinarith [sq_nonneg (r - 1 / 3)]
  · have h1 : L * (1 + r * r - q) ≤ L * (1 + r * r) := mul_le_mul_of_nonneg_left (by linarith) h.le
    have h2 : L * (1 + r * r) ≤ (2.622 + (-0.5 * r + 0.25 * r ^ 2) / 0.252) * (1 + r * r) :=
      mul_le_mul_of_nonneg_right hL1 (by nlinarith)
    have h3 : (0.3 : ℝ) ≤ 3 * (1 + r * r) - 2 * r - (2.622 + (-0.5 * r + 0.25 * r ^ 2) / 0.252) * (1 + r * r) := by
      have e : 3 * (1 + r * r) - 2 * r - (2.622 + (-0.5 * r + 0.25 * r ^ 2) / 0.252) * (1 + r * r) =
        0.378 + r * (0.5 / 0.252 - 2) + r ^ 2 * (0.378 - 0.25 / 0.252) + r ^ 3 * (0.25 / 0.252) + r ^ 2 * (r * (1 - r)) * (0.25 / 0.252) := by ring
      rw [e]
      have p : 0 ≤ r ^ 2 * (r * (1 - r)) := by
        have : 0 ≤ 1 - r := by linarith
        positivity
      have n1 : (0.5 / 0.252 - 2 : ℝ) = -0.016 + 0.5/0.252 - 1.984 := by norm_num
      have n2 : -0.616 + 0 ≤ (0.378 - 0.25 / 0.252 : ℝ) := by norm_num
      have n3 : (0.99 : ℝ) ≤ 0.25 / 0.252 := by norm_num
      have n4 : (-0.016 : ℝ) ≤ 0.5 / 0.252 - 2 := by norm_num
      have t1 : r * (-0.016) ≤ r * (0.5 / 0.252 - 2) := mul_le_mul_of_nonneg_left n4 hr0.le
      have t2 : r ^ 2 * (-0.616 + 0) ≤ r ^ 2 * (0.378 - 0.25 / 0.252) := mul_le_mul_of_nonneg_left n2 (by positivity)
      have t3 : r ^ 3 * 0.99 ≤ r ^ 3 * (0.25 / 0.252) := mul_le_mul_of_nonneg_left n3 (by positivity)
      have t4 : 0 ≤ r ^ 2 * (r * (1 - r)) * (0.25 / 0.252) := mul_nonneg p (by norm_num)
      have t5 : 0 ≤ (r - 0.415) ^ 2 * (0.99 * r + 0.2) := mul_nonneg (sq_nonneg _) (by linarith)
      nlinarith
    linarith

/-- The probability with which a candidate is accepted, as the code computes it. -/
noncomputable def Spec.kmAcceptance (E E0 Z phi : ℝ) : ℝ := kochMotzN E E0 Z * kochMotzG ((E0 * phi) ^ 2) E E0 Z

/-- C142: every candidate is accepted with positive probability. -/
theorem C142_acceptance (phi E E0 Z : ℝ) (hE : 1 ≤ E) (hE0 : E < E0) (hZ0 : 0 ≤ Z) (hZ : Z ≤ 100) : 0 < kmAcceptance E E0 Z phi := by
  have h1 := C142_positive ((E0 * phi) ^ 2) E E0 Z (sq_nonneg _) hE hE0 hZ0 hZ
  have h2 := C142_positive 0 E E0 Z le_rfl hE hE0 hZ0 hZ
  unfold Spec.kmAcceptance kochMotzN
  refine mul_pos (one_div_pos.2 ?_) (by linarith)
  exact lt_of_lt_of_le (by linarith) ((le_max_left _ _).trans (le_max_left _ _))

private lemma loop_state (E E0 Z : ℝ) (s : Mt) (fuel k : ℕ) (phi : ℝ) (e : Mt) :
    kochMotzLoop E E0 Z fuel (mtStep^[2 * k] s) = some (phi, e) ↔ ∃ j < fuel,
      phi = phiCandidate E0 (mtDouble (mtStep^[2 * (k + 2 * j)] s)).1 ∧
      (mtDouble (mtStep^[2 * (k + 2 * j + 1)] s)).1 ≤ kmAcceptance E E0 Z phi ∧
      (∀ i < j, kmAcceptance E E0 Z (phiCandidate E0 (mtDouble (mtStep^[2 * (k + 2 * i)] s)).1) < (mtDouble (mtStep^[2 * (k + 2 * i + 1)] s)).1) ∧
      e = mtStep^[2 * (k + 2 * (j + 1))] s := by
  induction fuel generalizing k with
  | zero => simp [kochMotzLoop]
  | succ fuel ih =>
    have e1 : (mtDouble (mtStep^[2 * k] s)).2 = mtStep^[2 * (k + 1)] s := by rw [mtDouble_eq]; rfl
    have e2 : (mtDouble (mtStep^[2 * (k + 1)] s)).2 = mtStep^[2 * (k + 2)] s := by rw [mtDouble_eq]; rfl
    rw [kochMotzLoop]
    simp only [e1, e2]
    by_cases h : (mtDouble (mtStep^[2 * (k + 1)] s)).1 > kochMotzN E E0 Z *
        kochMotzG ((E0 * phiCandidate E0 (mtDouble (mtStep^[2 * k] s)).1) ^ 2) E E0 Z
    · rw [if_pos h, ih (k + 2)]
      constructor
      · rintro ⟨j, hj, h1, h2, h3, h4⟩
        refine ⟨j + 1, by omega, ?_, ?_, ?_, ?_⟩
        · rwa [show k + 2 * (j + 1) = k + 2 + 2 * j by ring]
        · rwa [show k + 2 * (j + 1) = k + 2 + 2 * j by ring]
        · intro i hi
          rcases i with _ | i
          · exact h
          · have := h3 i (by omega)
            rwa [show k + 2 * (i + 1) = k + 2 + 2 * i by ring]
        · rwa [show k + 2 * (j + 1 + 1) = k + 2 + 2 * (j + 1) by ring]
      · rintro ⟨j, hj, h1, h2, h3, h4⟩
        rcases j with _ | j
        · exfalso
          rw [h1] at h2
          exact absurd h (not_lt.2 h2)
        · refine ⟨j, by omega, ?_, ?_, ?_, ?_⟩
          · rwa [show k + 2 * (j + 1) = k + 2 + 2 * j by ring] at h1
          · rwa [show k + 2 * (j + 1) = k + 2 + 2 * j by ring] at h2
          · intro i hi
            have := h3 (i + 1) (by omega)
            rwa [show k + 2 * (i + 1) = k + 2 + 2 * i by ring] at this
          · rwa [show k + 2 * (j + 1 + 1) = k + 2 + 2 * (j + 1) by ring] at h4
    · rw [if_neg h]
      constructor
      · intro he
        rw [Option.some.injEq, Prod.mk.injEq] at he
        refine ⟨0, by omega, he.1.symm, ?_, fun i hi => absurd hi (by omega), he.2.symm⟩
        rw [← he.1]
        exact not_lt.1 h
      · rintro ⟨j, hj, h1, h2, h3, h4⟩
        rcases j with _ | j
        · rw [h1, h4]
          rfl
        · exact absurd (h3 0 (by omega)) h

private lemma number_at (g : RandomGen) (hg : g.custom = none) (n i : ℕ) (hi : i < n) :
    (g.numbers n).getD i 0 = (mtDouble (mtStep^[2 * i] g.engine)).1 := by
  have h := numbers_state g hg n 0
  simp only [Function.iterate_zero, id_eq] at h
  rw [h]
  simp [List.getD_eq_getElem?_getD, hi]

/-- C142: the loop takes the numbers of the seeded generator in pairs and returns the candidate of the first pair whose second number is at
most the acceptance. -/
theorem C142_first_accepted (E E0 Z : ℝ) (fuel : ℕ) (g : RandomGen) (hg : g.custom = none) (phi : ℝ) :
    (∃ e, kochMotzLoop E E0 Z fuel g.engine = some (phi, e)) ↔ ∃ j < fuel,
      phi = phiCandidate E0 ((g.numbers (2 * fuel)).getD (2 * j) 0) ∧
      (g.numbers (2 * fuel)).getD (2 * j + 1) 0 ≤ kmAcceptance E E0 Z phi ∧
      ∀ i < j, kmAcceptance E E0 Z (phiCandidate E0 ((g.numbers (2 * fuel)).getD (2 * i) 0)) < (g.numbers (2 * fuel)).getD (2 * i + 1) 0 := by
  constructor
  · rintro ⟨e, he⟩
    obtain ⟨j, hj, h1, h2, h3, -⟩ := (loop_state E E0 Z g.engine fuel 0 phi e).1 he
    refine ⟨j, hj, ?_, ?_, ?_⟩
    · rw [number_at g hg _ _ (by omega), h1, Nat.zero_add]
    · rw [number_at g hg _ _ (by omega)]
      rwa [Nat.zero_add] at h2
    · intro i hi
      rw [number_at g hg _ _ (by omega), number_at g hg _ _ (by omega)]
      have := h3 i hi
      rwa [Nat.zero_add] at this
  · rintro ⟨j, hj, h1, h2, h3⟩
    rw [number_at g hg _ _ (by omega)] at h1 h2
    refine ⟨_, (loop_state E E0 Z g.engine fuel 0 phi _).2 ⟨j, hj, ?_, ?_, ?_, rfl⟩⟩
    · rwa [Nat.zero_add]
    · rwa [Nat.zero_add]
    · intro i hi
      have := h3 i hi
      rw [number_at g hg _ _ (by omega), number_at g hg _ _ (by omega)] at this
      rwa [Nat.zero_add]

/-- C142: the returned angle is between 0 and π. -/
theorem C142_angle (E E0 Z : ℝ) (hE0 : 0 < E0) (fuel : ℕ) (g : RandomGen) (hg : g.custom = none) (phi : ℝ) (e : Mt)
    (h : kochMotzLoop E E0 Z fuel g.engine = some (phi, e)) : 0 ≤ phi ∧ phi ≤ Real.pi := by
  obtain ⟨j, hj, rfl, -, -⟩ := (C142_first_accepted E E0 Z fuel g hg phi).1 ⟨e, h⟩
  have hl : (g.numbers (2 * fuel)).length = 2 * fuel := by
    have h := numbers_state g hg (2 * fuel) 0
    simp only [Function.iterate_zero, id_eq] at h
    rw [h]
    simp
  have hu := C141_unit_interval g hg (2 * fuel) ((g.numbers (2 * fuel)).getD (2 * j) 0) (by
    rw [List.getD_eq_getElem?_getD, List.getElem?_eq_getElem (by omega), Option.getD_some]
    exact List.getElem_mem _)
  exact ⟨(C90_candidate E0 _ hE0 hu.1 hu.2.le).1, (C90_candidate E0 _ hE0 hu.1 hu.2.le).2.1⟩

/-! ## The witness: a loss of 14/17 of the energy in oxygen -/

private lemma rpow_eight : (8 : ℝ) ^ (1 / 3 : ℝ) = 2 := by
  rw [show (8 : ℝ) = 2 ^ (3 : ℕ) by norm_num, ← Real.rpow_natCast, ← Real.rpow_mul (by norm_num)]
  norm_num

private lemma witness_eq (x : ℝ) : kochMotzG x 3 17 8 = 3 * (1 + 3 / 17 * (3 / 17)) - 2 * (3 / 17) -
    (4 + Real.log ((7 / 51) ^ 2 + (2 / (111 * (x + 1))) ^ 2)) * ((1 + 3 / 17 * (3 / 17)) - 4 * x * (3 / 17) / (x + 1) ^ 2) := by
  unfold kochMotzG
  simp only [rpow_eight]
  norm_num

private lemma log_witness : -3.981 ≤ Real.log ((7 / 51 : ℝ) ^ 2) ∧ Real.log ((7 / 51 : ℝ) ^ 2) ≤ -3.96 := by
  have h1 := Real.exp_one_gt_d9
  have h2 := Real.exp_one_lt_d9
  have e : Real.exp 4 = Real.exp 1 ^ 4 := by rw [← Real.exp_nat_mul]; norm_num
  have l4 : (2.7182818283 : ℝ) ^ 4 ≤ Real.exp 4 := by rw [e]; exact pow_le_pow_left₀ (by norm_num) h1.le 4
  have u4 : Real.exp 4 ≤ (2.7182818286 : ℝ) ^ 4 := by rw [e]; exact pow_le_pow_left₀ (Real.exp_pos _).le h2.le 4
  have hs : Real.log ((7 / 51 : ℝ) ^ 2 * Real.exp 4) = Real.log ((7 / 51 : ℝ) ^ 2) + 4 := by
    rw [Real.log_mul (by norm_num) (Real.exp_pos _).ne', Real.log_exp]
  have hp : 0 < (7 / 51 : ℝ) ^ 2 * Real.exp 4 := by positivity
  have hu := Real.log_le_sub_one_of_pos hp
  have hl := Real.one_sub_inv_le_log_of_pos hp
  rw [hs] at hu hl
  have b1 : (7 / 51 : ℝ) ^ 2 * (2.7182818283 : ℝ) ^ 4 ≤ (7 / 51 : ℝ) ^ 2 * Real.exp 4 := mul_le_mul_of_nonneg_left l4 (by norm_num)
  have b2 : (7 / 51 : ℝ) ^ 2 * Real.exp 4 ≤ (7 / 51 : ℝ) ^ 2 * (2.7182818286 : ℝ) ^ 4 := mul_le_mul_of_nonneg_left u4 (by norm_num)
  constructor
  · have : ((7 / 51 : ℝ) ^ 2 * Real.exp 4)⁻¹ ≤ 1.02⁻¹ := inv_anti₀ (by norm_num) (le_trans (by norm_num) b1)
    have h3 : (1.02 : ℝ)⁻¹ ≤ 0.981 := by norm_num
    linarith
  · have : (7 / 51 : ℝ) ^ 2 * Real.exp 4 ≤ 1.04 := b2.trans (by norm_num)
    linarith

private lemma log_shift (x : ℝ) (hx : 0 ≤ x) : Real.log ((7 / 51 : ℝ) ^ 2 + (2 / (111 * (x + 1))) ^ 2) =
    Real.log ((7 / 51 : ℝ) ^ 2) + Real.log (1 + (34 / (259 * (x + 1))) ^ 2) := by
  rw [← Real.log_mul (by norm_num) (by positivity)]
  congr 1
  have : x + 1 ≠ 0 := by positivity
  field_simp
  ring

/-- C142, the disagreement: the acceptance exceeds 1 for angles that occur, so that the angles do not follow the distribution. An electron
with 17 times its rest energy loses 14/17 of its energy in oxygen. -/
theorem C142_envelope : ∃ rnd, 0 ≤ rnd ∧ rnd < 1 ∧ 1 < kmAcceptance 3 17 8 (phiCandidate 17 rnd) := by
  have hpi := Real.pi_gt_three
  obtain ⟨hl1, hl2⟩ := log_witness
  set Y := (Real.pi * 17) ^ 2 with hY
  have hY1 : 2601 ≤ Y := by rw [hY]; nlinarith
  have hYp : 0 < Y := by linarith
  have hinv : 1 / Y ≤ 1 / 2601 := one_div_le_one_div_of_le (by norm_num) hY1
  have hinv0 : 0 < 1 / Y := by positivity
  refine ⟨2 / 3 * (1 + 1 / Y), by positivity, by linarith, ?_⟩
  have hphi : (17 * phiCandidate 17 (2 / 3 * (1 + 1 / Y))) ^ 2 = 2 := by
    unfold phiCandidate
    rw [← hY, ← mul_assoc, mul_one_div_cancel (by norm_num), one_mul, Real.sq_sqrt]
    · rw [div_eq_iff (by linarith)]
      ring
    · refine div_nonneg (by positivity) (by linarith)
  unfold Spec.kmAcceptance kochMotzN
  rw [hphi]
  have e2 := Real.log_le_sub_one_of_pos (x := 1 + (34 / (259 * (2 + 1))) ^ 2) (by norm_num)
  have e1 := Real.one_sub_inv_le_log_of_pos (x := 1 + (34 / (259 * (1 + 1))) ^ 2) (by norm_num)
  have e0 := Real.log_nonneg (x := 1 + (34 / (259 * (0 + 1))) ^ 2) (by norm_num)
  have ei := Real.log_nonneg (x := 1 + (34 / (259 * (Y + 1))) ^ 2) (by have := sq_nonneg (34 / (259 * (Y + 1))); linarith)
  have hqi : 4 * Y * (3 / 17) / (Y + 1) ^ 2 ≤ 0.001 := by
    rw [div_le_iff₀ (by positivity)]
    nlinarith
  have hqi0 : 0 ≤ 4 * Y * (3 / 17) / (Y + 1) ^ 2 := by positivity
  rw [one_div, ← div_eq_inv_mul]
  refine (one_lt_div ?_).2 ?_
  · refine lt_of_lt_of_le ?_ ((le_max_left _ _).trans (le_max_left _ _))
    have := C142_positive 0 3 17 8 le_rfl (by norm_num) (by norm_num) (by norm_num) (by norm_num)
    linarith
  · refine max_lt (max_lt ?_ ?_) ?_
    · rw [witness_eq, witness_eq, log_shift 2 (by norm_num), log_shift 0 (by norm_num)]
      norm_num at e2 e0 ⊢
      linarith
    · rw [witness_eq, witness_eq, log_shift 2 (by norm_num), log_shift 1 (by norm_num)]
      norm_num at e2 e1 ⊢
      linarith
    · rw [witness_eq, witness_eq, log_shift 2 (by norm_num), log_shift Y hYp.le]
      generalize 4 * Y * (3 / 17) / (Y + 1) ^ 2 = q at hqi hqi0 ⊢
      generalize Real.log (1 + (34 / (259 * (Y + 1))) ^ 2) = li at ei ⊢
      generalize Real.log ((7 / 51 : ℝ) ^ 2) = l at hl1 hl2 ⊢
      have h1 : 0 ≤ li * (1 - q) := mul_nonneg ei (by linarith)
      have h2 : (4 + l) * q ≤ (4 + l) * 0.001 := mul_le_mul_of_nonneg_left hqi (by linarith)
      norm_num at e2 h2 ⊢
      nlinarith

/-- The largest value for the witness. -/
private lemma witness_le (x : ℝ) (hx : 0 ≤ x) : kochMotzG x 3 17 8 ≤ 3 := by
  rw [witness_eq, log_shift x hx]
  have h1 := Real.log_nonneg (x := 1 + (34 / (259 * (x + 1))) ^ 2) (by have := sq_nonneg (34 / (259 * (x + 1))); linarith)
  have h2 := log_witness.1
  have hq : 4 * x * (3 / 17) / (x + 1) ^ 2 ≤ 1 := by
    rw [div_le_iff₀ (by positivity)]
    nlinarith
  have : 0 ≤ (4 + (Real.log ((7 / 51 : ℝ) ^ 2) + Real.log (1 + (34 / (259 * (x + 1))) ^ 2))) *
      ((1 + 3 / 17 * (3 / 17)) - 4 * x * (3 / 17) / (x + 1) ^ 2) := mul_nonneg (by linarith) (by linarith)
  norm_num at this ⊢
  linarith

private lemma witness_acceptance (phi : ℝ) : 0.1 ≤ kmAcceptance 3 17 8 phi := by
  have h1 := C142_positive ((17 * phi) ^ 2) 3 17 8 (sq_nonneg _) (by norm_num) (by norm_num) (by norm_num) (by norm_num)
  have h0 := C142_positive 0 3 17 8 le_rfl (by norm_num) (by norm_num) (by norm_num) (by norm_num)
  unfold Spec.kmAcceptance kochMotzN
  have hm : max (max (kochMotzG 0 3 17 8) (kochMotzG 1 3 17 8)) (kochMotzG ((Real.pi * 17) ^ 2) 3 17 8) ≤ 3 :=
    max_le (max_le (witness_le 0 le_rfl) (witness_le 1 (by norm_num))) (witness_le _ (sq_nonneg _))
  have hp : 0 < max (max (kochMotzG 0 3 17 8) (kochMotzG 1 3 17 8)) (kochMotzG ((Real.pi * 17) ^ 2) 3 17 8) :=
    lt_of_lt_of_le (by linarith) ((le_max_left _ _).trans (le_max_left _ _))
  rw [one_div, ← div_eq_inv_mul, le_div_iff₀ hp]
  linarith

/-- C141, the disagreement: the angles of a bremsstrahlung after Koch and Motz reseed the generator of the whole program. Whatever the state
of the generators before, with the same loss and random numbers all numbers afterwards are the same. -/
theorem C141_disturbed (fuel : ℕ) (primary : Daughter) (l : SLoss) (Z rnd0 rnd1 : ℝ) (g h : RandomGen) (hg : g.custom = none)
    (hh : h.custom = none) (n : ℕ) :
    (kochMotzSecondaries fuel primary l Z rnd0 rnd1 g).map (fun r => (r.1, r.2.numbers n)) =
      (kochMotzSecondaries fuel primary l Z rnd0 rnd1 h).map (fun r => (r.1, r.2.numbers n)) := by
  unfold kochMotzSecondaries RandomGen.setSeed
  simp only
  split
  · rfl
  · rename_i phi s _
    simp only [Option.map_some]
    have h1 := numbers_state { g with engine := s } hg n 0
    have h2 := numbers_state { h with engine := s } hh n 0
    have h3 : RandomGen.numbers n { g with engine := s } = RandomGen.numbers n { h with engine := s } := h1.trans h2.symm
    rw [h3]

/-- C141: the secondaries do not touch the numbers of a function set by the user. -/
theorem C141_custom_undisturbed (fuel : ℕ) (primary : Daughter) (l : SLoss) (Z rnd0 rnd1 : ℝ) (g h : RandomGen) (f : ℕ → ℝ)
    (r : Option (List Part)) (hr : kochMotzSecondaries fuel primary l Z rnd0 rnd1 (g.setCustom f) = some (r, h)) (n : ℕ) :
    h.numbers n = (List.range n).map f := by
  unfold kochMotzSecondaries at hr
  split at hr
  · exact absurd hr (by simp)
  · rw [Option.some.injEq, Prod.mk.injEq] at hr
    rw [← hr.2]
    exact (C141_custom { g with engine := _ } f 0 [] 0 n).1

/-- An electron in oxygen. -/
noncomputable def kmLossExample : SLoss := ⟨14 * ME, ⟨0, 0, 0⟩, ⟨0, 0, 1⟩, 0, 0, 17 * ME⟩

set_option maxRecDepth 100000 in
private lemma words54 : (mtCall (mtStep (mtStep (mtSeed 54)))).1 = 1560101762 ∧ (mtCall (mtStep (mtStep (mtStep (mtSeed 54))))).1 = 10809103 := by
  decide +kernel

private lemma example_seed : kochMotzSeed (54 / 2147483647) = 54 := by
  unfold kochMotzSeed
  rw [mul_div_cancel₀ _ (by norm_num)]
  exact_mod_cast Int.floor_intCast (54 : ℤ)

theorem kmExample_runs (g : RandomGen) : ∃ r h, kochMotzSecondaries 1 sEMinus kmLossExample 8 (54 / 2147483647) (1 / 3) g = some (r, h) := by
  have hM : ME ≠ 0 := by norm_num [ME]
  unfold kochMotzSecondaries
  rw [example_seed]
  have a1 : (kmLossExample.parentEnergy - kmLossExample.energy) / ME = 3 := by
    unfold kmLossExample
    field_simp
    ring
  have a2 : kmLossExample.parentEnergy / ME = 17 := by
    unfold kmLossExample
    field_simp
  rw [a1, a2]
  have hu : (mtDouble (mtDouble (mtSeed 54)).2).1 ≤ 0.1 := by
    have : (mtDouble (mtDouble (mtSeed 54)).2).1 = (((mtCall (mtStep (mtStep (mtSeed 54)))).1 : ℝ) +
        ((mtCall (mtStep (mtStep (mtStep (mtSeed 54))))).1 : ℝ) * 2 ^ 32) / 2 ^ 64 := rfl
    rw [this, words54.1, words54.2]
    norm_num
  have hl : kochMotzLoop 3 17 8 1 (g.setSeed 54).engine = some (phiCandidate 17 (mtDouble (mtSeed 54)).1, (mtDouble (mtDouble (mtSeed 54)).2).2) := by
    have hs : (g.setSeed 54).engine = mtSeed 54 := rfl
    rw [hs, kochMotzLoop]
    refine if_neg ?_
    refine not_lt.2 (hu.trans ?_)
    exact witness_acceptance _
  rw [hl]
  exact ⟨_, _, rfl⟩

/-- Two programs with the seeds 1 and 2: their numbers differ at first, and are the same after one bremsstrahlung. -/
example : (fresh.setSeed 1).numbers 312 ≠ (fresh.setSeed 2).numbers 312 ∧
    ∃ r1 h1 r2 h2, kochMotzSecondaries 1 sEMinus kmLossExample 8 (54 / 2147483647) (1 / 3) (fresh.setSeed 1) = some (r1, h1) ∧
      kochMotzSecondaries 1 sEMinus kmLossExample 8 (54 / 2147483647) (1 / 3) (fresh.setSeed 2) = some (r2, h2) ∧
      ∀ n, h1.numbers n = h2.numbers n := by
  refine ⟨C141_seeds_differ fresh fresh rfl rfl 1 2 (by norm_num) (by norm_num) (by norm_num) (by norm_num) (by norm_num), ?_⟩
  obtain ⟨r1, h1, e1⟩ := kmExample_runs (fresh.setSeed 1)
  obtain ⟨r2, h2, e2⟩ := kmExample_runs (fresh.setSeed 2)
  refine ⟨r1, h1, r2, h2, e1, e2, fun n => ?_⟩
  have := C141_disturbed 1 sEMinus kmLossExample 8 (54 / 2147483647) (1 / 3) (fresh.setSeed 1) (fresh.setSeed 2) rfl rfl n
  rw [e1, e2] at this
  simp only [Option.map_some, Option.some.injEq, Prod.mk.injEq] at this
  exact this.2

/-- Lead and an electron of 20 rest energies. -/
example : 0 < kmAcceptance 3 20 82 1 := C142_acceptance 1 3 20 82 (by norm_num) (by norm_num) (by norm_num) (by norm_num)

end Proposal
