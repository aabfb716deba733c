import Verif.Model.Polynom
import Mathlib.Algebra.BigOperators.Ring.Finset
import Mathlib.Algebra.BigOperators.Intervals
import Mathlib.Data.Nat.Choose.Sum
import Mathlib.Analysis.Calculus.Deriv.Add
import Mathlib.Analysis.Calculus.Deriv.Mul
import Mathlib.Analysis.Calculus.Deriv.Pow
import Mathlib.Tactic.Linarith
import Mathlib.Tactic.FieldSimp
import Mathlib.Tactic.Positivity

/-!
# Polynomials (C49, C50)
-/

namespace Proposal

open Finset

/-- The value of the polynomial with the given coefficients. -/
noncomputable def Spec.polyVal (p : List ℝ) (x : ℝ) : ℝ := ∑ k ∈ range p.length, p.getD k 0 * x ^ k

open Spec

private lemma polyVal_cons (a : ℝ) (l : List ℝ) (x : ℝ) : polyVal (a :: l) x = polyVal l x * x + a := by
  unfold polyVal
  rw [List.length_cons, sum_range_succ', sum_mul]
  simp only [List.getD_cons_succ, List.getD_cons_zero, pow_zero, mul_one]
  congr 1
  apply sum_congr rfl
  intro k _
  ring

private lemma horner_eq (x a : ℝ) (l : List ℝ) : horner x a l = polyVal (a :: l) x := by
  induction l generalizing a with
  | nil => simp [horner, polyVal]
  | cons b l ih => rw [horner, ih, polyVal_cons a]

/-- C49: evaluating a polynomial with at least one coefficient gives the sum of the coefficients times
the powers. -/
theorem C49_evaluate (p : Poly) (x : ℝ) (h : p ≠ []) : p.evaluate x = some (polyVal p x) := by
  cases p with
  | nil => exact absurd rfl h
  | cons a l => simp only [Poly.evaluate, horner_eq]

private lemma coef_map_range (f : ℕ → ℝ) (n k : ℕ) (h : k < n) : ((List.range n).map f).getD k 0 = f k := by
  simp [List.getD_eq_getElem?_getD, h]

/-- C49: the value of the derived polynomial is the derivative of the value. -/
theorem C49_derivative (p : Poly) (x : ℝ) : HasDerivAt (polyVal p) (polyVal p.derivative x) x := by
  have h : HasDerivAt (fun y => ∑ k ∈ range p.length, p.getD k 0 * y ^ k)
      (∑ k ∈ range p.length, p.getD k 0 * (k * x ^ (k - 1))) x := by
    apply HasDerivAt.fun_sum
    intro k _
    exact (hasDerivAt_pow k x).const_mul _
  have e : polyVal p = fun y => ∑ k ∈ range p.length, p.getD k 0 * y ^ k := rfl
  rw [e]
  convert h using 1
  unfold polyVal
  have hl : p.derivative.length = p.length - 1 := by simp [Poly.derivative]
  rw [hl]
  cases hp : p.length with
  | zero => simp
  | succ n =>
    rw [sum_range_succ']
    simp only [Nat.add_sub_cancel, Nat.cast_zero, zero_mul, mul_zero, add_zero]
    apply sum_congr rfl
    intro k hk
    unfold Poly.derivative
    rw [hp, Nat.add_sub_cancel, coef_map_range _ _ _ (mem_range.1 hk)]
    simp only [Poly.coef]
    ring

/-- C49: with at least two coefficients the derived polynomial can be evaluated. Missing are constants,
see `C49_constant_derivative`. -/
theorem C49_derivative_evaluates_partial (p : Poly) (x : ℝ) (h : 2 ≤ p.length) :
    p.derivative.evaluate x = some (deriv (polyVal p) x) := by
  rw [C49_evaluate, (C49_derivative p x).deriv]
  intro h0
  have : p.derivative.length = 0 := by rw [h0]; rfl
  simp only [Poly.derivative, List.length_map, List.length_range] at this
  omega

/-- C49 fails: the derivative of a constant has no coefficients, and evaluating it reads outside of the
array. -/
theorem C49_constant_derivative (c x : ℝ) : Poly.evaluate (Poly.derivative [c]) x = none := by
  simp [Poly.derivative, Poly.evaluate]

/-- C49: the antiderivative has the given value at 0, its derivative is the polynomial, as a function and
in terms of the coefficients; and it can always be evaluated. -/
theorem C49_antiderivative (p : Poly) (c x : ℝ) :
    (p.antiderivative c).evaluate x = some (polyVal (p.antiderivative c) x) ∧
    polyVal (p.antiderivative c) 0 = c ∧ HasDerivAt (polyVal (p.antiderivative c)) (polyVal p x) x ∧
    (p.antiderivative c).derivative = p := by
  have hd : (p.antiderivative c).derivative = p := by
    apply List.ext_getElem?
    intro k
    simp only [Poly.derivative, Poly.antiderivative, List.length_cons, List.length_map, List.length_range,
      Nat.add_sub_cancel, Poly.coef, List.getD_cons_succ, List.getElem?_map]
    by_cases hk : k < p.length
    · have hk' : ((k : ℝ) + 1) ≠ 0 := by positivity
      have e : ((List.range p.length).map fun i => p.getD i 0 / ((i : ℝ) + 1)).getD k 0 = p.getD k 0 / ((k : ℝ) + 1) :=
        coef_map_range _ _ _ hk
      simp only [Nat.cast_add, Nat.cast_one, List.getElem?_range hk, Option.map_some, e, div_mul_cancel₀ _ hk']
      rw [List.getElem?_eq_getElem hk, List.getD_eq_getElem?_getD, List.getElem?_eq_getElem hk]
      rfl
    · push Not at hk
      simp [hk]
  refine ⟨C49_evaluate _ _ (by simp [Poly.antiderivative]), ?_, ?_, hd⟩
  · unfold Poly.antiderivative
    rw [polyVal_cons]
    ring
  · have := C49_derivative (p.antiderivative c) x
    rwa [hd] at this

private lemma table_eq (a : ℕ → ℝ) (x : ℝ) (n : ℕ) (i j : ℕ) (hi : i ≤ n) :
    (i < n → shiftTable a x n i 0 = a (n - i - 1) * x ^ (n - i - 1)) ∧
    (j ≤ i → shiftTable a x n i (j + 1) =
      ∑ k ∈ range (i + 1), (k.choose j : ℝ) * (a (n - i + k) * x ^ (n - i + k))) := by
  induction i generalizing j with
  | zero =>
    refine ⟨fun _ => rfl, ?_⟩
    intro hj
    obtain rfl : j = 0 := by omega
    simp [shiftTable]
  | succ i ih =>
    refine ⟨fun _ => rfl, ?_⟩
    intro hj
    simp only [shiftTable]
    rcases hj.eq_or_lt with rfl | hj
    · rw [if_pos le_rfl, sum_range_succ, sum_eq_zero]
      · rw [Nat.choose_self, show n - (i + 1) + (i + 1) = n by omega]; simp
      · intro k hk
        rw [Nat.choose_eq_zero_of_lt (mem_range.1 hk)]
        simp
    · rw [if_neg (by omega), (ih j (by omega)).2 (by omega)]
      rw [sum_range_succ' _ (i + 1)]
      cases j with
      | zero =>
        rw [(ih 0 (by omega)).1 (by omega), add_comm]
        congr 1
        · apply sum_congr rfl
          intro k _
          rw [show n - i + k = n - (i + 1) + (k + 1) by omega]
          simp
        · simp only [Nat.choose_self, Nat.cast_one, one_mul, add_zero, Nat.sub_sub]
      | succ j =>
        rw [(ih j (by omega)).2 (by omega), ← sum_add_distrib]
        simp only [Nat.choose_zero_succ, Nat.cast_zero, zero_mul, add_zero]
        apply sum_congr rfl
        intro k _
        rw [show n - i + k = n - (i + 1) + (k + 1) by omega, Nat.choose_succ_succ]
        push_cast
        ring

/-- C49: after the shift by more than 1e-9 the polynomial has at every point the value that it had at
the shifted point. Missing are smaller shifts, see `C49_tiny_shift`. -/
theorem C49_shift_partial (p : Poly) (s x : ℝ) (hs : 1 / 10 ^ 9 < |s|) :
    polyVal (p.shift s) x = polyVal p (x + s) := by
  have s0 : s ≠ 0 := by
    rintro rfl
    rw [abs_zero] at hs
    have : (0 : ℝ) < 1 / 10 ^ 9 := by positivity
    linarith
  by_cases h : p = []
  · subst h
    simp [polyVal, Poly.shift]
  obtain ⟨n, hn⟩ : ∃ n, p.length = n + 1 :=
    Nat.exists_eq_succ_of_ne_zero (fun h0 => h (List.length_eq_zero_iff.1 h0))
  have hsh : p.shift s = (List.range p.length).map fun i =>
      if i = p.length - 1 then p.coef i
      else shiftTable p.coef s (p.length - 1) (p.length - 1) (i + 1) / s ^ i := by
    unfold Poly.shift
    rw [if_pos (by unfold shiftPrecision; exact hs)]
  have coeff : ∀ i ∈ range (n + 1), (p.shift s).getD i 0 * x ^ i =
      ∑ m ∈ range (n + 1), p.getD m 0 * s ^ m * ((m.choose i : ℝ) * (x / s) ^ i) := by
    intro i hi
    have hi' := mem_range.1 hi
    rw [hsh, coef_map_range _ _ _ (by omega)]
    simp only [hn, Nat.add_sub_cancel]
    by_cases hin : i = n
    · subst hin
      rw [if_pos rfl, sum_range_succ, sum_eq_zero, Nat.choose_self]
      · rw [zero_add, Nat.cast_one, one_mul, div_pow, mul_assoc, mul_div_cancel₀ _ (pow_ne_zero _ s0)]
        rfl
      · intro m hm
        rw [Nat.choose_eq_zero_of_lt (mem_range.1 hm)]
        simp
    · rw [if_neg hin, (table_eq p.coef s n n i le_rfl).2 (by omega), div_mul_eq_mul_div, div_eq_iff (pow_ne_zero _ s0),
        sum_mul, sum_mul]
      apply sum_congr rfl
      intro m _
      rw [Nat.sub_self, zero_add, div_pow]
      unfold Poly.coef
      field_simp
  have hlen : (p.shift s).length = n + 1 := by rw [hsh]; simp [hn]
  unfold polyVal
  rw [hlen, sum_congr rfl coeff, sum_comm, hn]
  apply sum_congr rfl
  intro m hm
  rw [← mul_sum]
  have : ∑ i ∈ range (n + 1), (m.choose i : ℝ) * (x / s) ^ i = (x / s + 1) ^ m := by
    rw [add_pow]
    rw [← sum_subset (range_subset_range.2 (show m + 1 ≤ n + 1 by have := mem_range.1 hm; omega))]
    · apply sum_congr rfl
      intro i _
      simp [mul_comm]
    · intro i _ hi
      rw [Nat.choose_eq_zero_of_lt (by simpa using hi)]
      simp
  rw [this, mul_assoc, ← mul_pow]
  congr 2
  field_simp

/-- C49 fails for tiny shifts, which are skipped: the polynomial x shifted by 1e-9 is still 0 at 0. -/
theorem C49_tiny_shift : polyVal (Poly.shift [0, 1] (1 / 10 ^ 9)) 0 = 0 ∧ polyVal [0, 1] (0 + 1 / 10 ^ 9) = 1 / 10 ^ 9 := by
  constructor
  · unfold Poly.shift
    rw [if_neg]
    · simp [polyVal, sum_range_succ]
    · unfold shiftPrecision
      rw [abs_of_pos (by positivity)]
      exact lt_irrefl _
  · simp [polyVal, sum_range_succ]

/-- C49: the shift keeps the number of coefficients. -/
theorem C49_shift_degree (p : Poly) (s : ℝ) : (p.shift s).length = p.length := by
  unfold Poly.shift
  split_ifs <;> simp

/-- A shift the theorem applies to: x² shifted by 3 is x² + 6x + 9. -/
example : (1 : ℝ) / 10 ^ 9 < |3| ∧ Poly.shift [0, 0, 1] 3 = [9, 6, 1] := by
  have h : (1 : ℝ) / 10 ^ 9 < |3| := by rw [abs_of_pos (by norm_num)]; norm_num
  refine ⟨h, ?_⟩
  unfold Poly.shift
  rw [if_pos (by unfold shiftPrecision; exact h)]
  simp [List.range_succ, shiftTable, Poly.coef]
  norm_num

/-! ## C50 -/

/-- C50 fails: shifting a copy changes the polynomial it was copied from. Here x is copied and the copy
shifted by 1; then the value of the original at 0 is 1. -/
theorem C50_copy_shares_buffer :
    let (m, p) := PolyObj.new [] [0, 1]
    let (m', q) := PolyObj.copy m p
    (p.get m).evaluate 0 = some 0 ∧ (p.get (q.shift m' 1)).evaluate 0 = some 1 := by
  have hs : Poly.shift [0, 1] 1 = [1, 1] := by
    unfold Poly.shift
    rw [if_pos (by unfold shiftPrecision; rw [abs_one]; norm_num)]
    simp [List.range_succ, shiftTable, Poly.coef]
  simp only [PolyObj.new, PolyObj.copy, PolyObj.get, PolyObj.shift]
  simp [hs, Poly.evaluate, horner]

/-- C50: polynomials constructed from coefficients are independent: shifting one does not change any
polynomial that was constructed separately. Missing are copies, see `C50_copy_shares_buffer`. -/
theorem C50_separate_objects_partial (m : Buffers) (p : PolyObj) (hp : p.buffer < m.length) (coefficients : Poly) (s : ℝ) :
    let (m', q) := PolyObj.new m coefficients
    q.get m' = coefficients ∧ p.get m' = p.get m ∧ p.get (q.shift m' s) = p.get m ∧
    q.get (p.shift m' s) = coefficients := by
  simp only [PolyObj.new, PolyObj.get, PolyObj.shift]
  have h1 : m.length ≠ p.buffer := by omega
  refine ⟨?_, ?_, ?_, ?_⟩
  · simp [List.getD_eq_getElem?_getD]
  · simp [List.getD_eq_getElem?_getD, List.getElem?_append_left hp]
  · simp [List.getD_eq_getElem?_getD, List.getElem?_append_left hp]
  · rw [List.getD_eq_getElem?_getD, List.getElem?_set_ne h1.symm]
    simp

example : ∃ (m : Buffers) (p : PolyObj), p.buffer < m.length := ⟨[[1, 2]], ⟨0⟩, by simp⟩

end Proposal
