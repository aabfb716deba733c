import Verif.Props.Neville
import Mathlib.Algebra.Polynomial.Taylor
import Mathlib.Algebra.Polynomial.HasseDeriv
import Mathlib.Analysis.Calculus.Deriv.Polynomial
import Mathlib.MeasureTheory.Integral.IntervalIntegral.FundThmCalculus
import Mathlib.Analysis.SpecialFunctions.Integrals.Basic

/-!
# C97, C98: Romberg integration
-/

open Polynomial

namespace Proposal

/-! ## Sums over the cells -/

lemma sum_pairs (t : ℕ → ℝ) : ∀ n, ∑ k ∈ Finset.range (2 * n), t k = ∑ l ∈ Finset.range n, (t (2 * l) + t (2 * l + 1)) := by
  intro n
  induction n with
  | zero => simp
  | succ n ih =>
    rw [show 2 * (n + 1) = 2 * n + 1 + 1 by ring, Finset.sum_range_succ, Finset.sum_range_succ, ih, Finset.sum_range_succ]
    ring

lemma sum_triples (t : ℕ → ℝ) : ∀ n, ∑ k ∈ Finset.range (3 * n), t k =
    ∑ l ∈ Finset.range n, (t (3 * l) + t (3 * l + 1) + t (3 * l + 2)) := by
  intro n
  induction n with
  | zero => simp
  | succ n ih =>
    rw [show 3 * (n + 1) = 3 * n + 1 + 1 + 1 by ring, Finset.sum_range_succ, Finset.sum_range_succ, Finset.sum_range_succ,
      ih, Finset.sum_range_succ]
    ring

lemma midpointLoop_eq (F : ℝ → ℝ) (step hi : ℝ) (hs : 0 < step) : ∀ (n r : ℕ) (x acc : ℝ), r ≤ n → x = hi - (r - 1 / 2) * step →
    midpointLoop F step hi n x acc = acc + ∑ j ∈ Finset.range r, F (x + j * step) := by
  intro n
  induction n with
  | zero =>
    intro r x acc hr _
    have : r = 0 := by omega
    subst this
    simp [midpointLoop]
  | succ n ih =>
    intro r x acc hr hx
    unfold midpointLoop
    rcases Nat.eq_zero_or_pos r with h0 | h0
    · subst h0
      rw [if_neg]
      · simp
      · rw [hx]; push_cast; linarith
    · obtain ⟨r, rfl⟩ : ∃ k, r = k + 1 := ⟨r - 1, by omega⟩
      rw [if_pos]
      · rw [ih r (x + step) (acc + F x) (by omega) (by rw [hx]; push_cast; ring), Finset.sum_range_succ' _ r]
        simp only [Nat.cast_zero, zero_mul, add_zero]
        have : ∀ j : ℕ, x + step + j * step = x + ((j + 1 : ℕ) : ℝ) * step := by intro j; push_cast; ring
        simp only [this]
        ring
      · rw [hx]
        push_cast
        have : (0 : ℝ) ≤ r := Nat.cast_nonneg r
        nlinarith

lemma tripleLoop_eq (F : ℝ → ℝ) (step hi : ℝ) (hs : 0 < step) : ∀ (n r : ℕ) (x acc : ℝ), r ≤ n → x = hi - (3 * r - 1 / 2) * step →
    tripleLoop F step hi n x acc = acc + ∑ j ∈ Finset.range r, (F (x + 3 * j * step) + F (x + (3 * j + 2) * step)) := by
  intro n
  induction n with
  | zero =>
    intro r x acc hr _
    have : r = 0 := by omega
    subst this
    simp [tripleLoop]
  | succ n ih =>
    intro r x acc hr hx
    unfold tripleLoop
    rcases Nat.eq_zero_or_pos r with h0 | h0
    · subst h0
      rw [if_neg]
      · simp
      · rw [hx]; push_cast; linarith
    · obtain ⟨r, rfl⟩ : ∃ k, r = k + 1 := ⟨r - 1, by omega⟩
      rw [if_pos]
      · rw [ih r (x + 2 * step + step) _ (by omega) (by rw [hx]; push_cast; ring), Finset.sum_range_succ' _ r]
        have h1 : ∀ j : ℕ, x + 2 * step + step + 3 * j * step = x + 3 * ((j + 1 : ℕ) : ℝ) * step := by
          intro j; push_cast; ring
        have h2 : ∀ j : ℕ, x + 2 * step + step + (3 * j + 2) * step = x + (3 * ((j + 1 : ℕ) : ℝ) + 2) * step := by
          intro j; push_cast; ring
        simp only [h1, h2, Nat.cast_zero, mul_zero, zero_mul, add_zero, zero_add]
        ring
      · rw [hx]
        push_cast
        have : (0 : ℝ) ≤ r := Nat.cast_nonneg r
        nlinarith

/-- The midpoint rule with `N` cells of width `h` from `a` on. -/
noncomputable def midRule (F : ℝ → ℝ) (a h : ℝ) (N : ℕ) : ℝ := ∑ j ∈ Finset.range N, h * F (a + (j + 1 / 2) * h)

/-- The trapezoidal rule. -/
noncomputable def trapRule (F : ℝ → ℝ) (a h : ℝ) (N : ℕ) : ℝ :=
  ∑ j ∈ Finset.range N, h / 2 * (F (a + j * h) + F (a + (j + 1) * h))

lemma trapezoid_double (F : ℝ → ℝ) (lo hi : ℝ) (h : lo < hi) (m : ℕ) (hm : 0 < m) :
    trapezoid F lo hi (m * 2) (trapRule F lo ((hi - lo) / m) m) =
      trapRule F lo ((hi - lo) / (m * 2 : ℕ)) (m * 2) := by
  have hm' : (0 : ℝ) < m := Nat.cast_pos.mpr hm
  have hne := hm'.ne'
  unfold trapezoid
  rw [if_neg (by omega), Nat.mul_div_cancel m (by norm_num)]
  dsimp only
  have hs : 0 < (hi - lo) / m := div_pos (by linarith) hm'
  rw [midpointLoop_eq F _ hi hs (m + 1) m _ 0 (by omega) (by field_simp; ring)]
  have hstep : (hi - lo) / ((m * 2 : ℕ) : ℝ) = (hi - lo) / m / 2 := by push_cast; field_simp
  rw [hstep]
  generalize (hi - lo) / (m : ℝ) = H
  unfold trapRule
  rw [mul_comm m 2, sum_pairs, zero_add, Finset.sum_mul, ← Finset.sum_add_distrib, Finset.sum_div]
  refine Finset.sum_congr rfl (fun j _ => ?_)
  have e1 : lo + ((2 * j : ℕ) : ℝ) * (H / 2) = lo + j * H := by push_cast; ring
  have e2 : lo + (((2 * j : ℕ) : ℝ) + 1) * (H / 2) = lo + H / 2 + j * H := by push_cast; ring
  have e3 : lo + ((2 * j + 1 : ℕ) : ℝ) * (H / 2) = lo + H / 2 + j * H := by push_cast; ring
  have e4 : lo + (((2 * j + 1 : ℕ) : ℝ) + 1) * (H / 2) = lo + (j + 1) * H := by push_cast; ring
  rw [e1, e2, e3, e4]
  ring

lemma trapezoid3_triple (F : ℝ → ℝ) (lo hi : ℝ) (h : lo < hi) (m : ℕ) (hm : 0 < m) :
    trapezoid3 F lo hi (m * 3) (midRule F lo ((hi - lo) / m) m) =
      midRule F lo ((hi - lo) / (m * 3 : ℕ)) (m * 3) := by
  have hm' : (0 : ℝ) < m := Nat.cast_pos.mpr hm
  have hne := hm'.ne'
  unfold trapezoid3
  rw [if_neg (by omega)]
  dsimp only
  have hs : 0 < (hi - lo) / ((m * 3 : ℕ) : ℝ) := div_pos (by linarith) (by push_cast; linarith)
  rw [tripleLoop_eq F _ hi hs (m * 3 + 1) m _ 0 (by omega) (by push_cast; field_simp; ring)]
  have hstep : (hi - lo) / (m : ℝ) = (hi - lo) / ((m * 3 : ℕ) : ℝ) * 3 := by push_cast; field_simp
  rw [hstep]
  generalize (hi - lo) / ((m * 3 : ℕ) : ℝ) = H
  unfold midRule
  rw [mul_comm m 3, sum_triples, zero_add, Finset.sum_mul, Finset.sum_div, ← Finset.sum_add_distrib]
  refine Finset.sum_congr rfl (fun j _ => ?_)
  have e1 : lo + (((3 * j : ℕ) : ℝ) + 1 / 2) * H = lo + H / 2 + 3 * j * H := by push_cast; ring
  have e2 : lo + (((3 * j + 1 : ℕ) : ℝ) + 1 / 2) * H = lo + (j + 1 / 2) * (H * 3) := by push_cast; ring
  have e3 : lo + (((3 * j + 2 : ℕ) : ℝ) + 1 / 2) * H = lo + H / 2 + (3 * j + 2) * H := by push_cast; ring
  rw [e1, e2, e3]
  ring

/-! ## The sums are polynomials in the square of the width of the cells -/

lemma derivative_hasse (G : ℝ[X]) (k : ℕ) : derivative (hasseDeriv k G) = (k + 1 : ℕ) • hasseDeriv (k + 1) G := by
  have h := congrArg (fun f => f G) (hasseDeriv_comp (R := ℝ) 1 k)
  simp only [LinearMap.comp_apply, LinearMap.smul_apply, hasseDeriv_one, Nat.choose_one_right] at h
  rw [h, Nat.add_comm 1 k]

lemma taylor_two {G : ℝ[X]} {n : ℕ} (hG : G.natDegree < 2 * n) (m t : ℝ) :
    G.eval (m + t) - G.eval (m - t) = ∑ l ∈ Finset.range n, 2 * (hasseDeriv (2 * l + 1) G).eval m * t ^ (2 * l + 1) ∧
    G.eval (m + t) + G.eval (m - t) = ∑ l ∈ Finset.range n, 2 * (hasseDeriv (2 * l) G).eval m * t ^ (2 * l) := by
  have h : ∀ u : ℝ, G.eval (m + u) = ∑ l ∈ Finset.range n, ((hasseDeriv (2 * l) G).eval m * u ^ (2 * l) +
      (hasseDeriv (2 * l + 1) G).eval m * u ^ (2 * l + 1)) := by
    intro u
    rw [add_comm, ← taylor_eval, eval_eq_sum_range' (n := 2 * n) (by rwa [natDegree_taylor]), sum_pairs]
    simp only [taylor_coeff]
  have he : ∀ l : ℕ, (-t) ^ (2 * l) = t ^ (2 * l) := fun l => (even_two_mul l).neg_pow t
  have ho : ∀ l : ℕ, (-t) ^ (2 * l + 1) = -t ^ (2 * l + 1) := fun l => (odd_two_mul_add_one l).neg_pow t
  rw [sub_eq_add_neg m t, h t, h (-t), ← Finset.sum_sub_distrib, ← Finset.sum_add_distrib]
  simp only [he, ho]
  constructor <;> exact Finset.sum_congr rfl (fun l _ => by ring)

/-- `E` gives, at the square of the width, a function whose difference over a cell is the midpoint rule there. -/
def MidOf (G : ℝ[X]) (E : ℝ[X][X]) : Prop := E.eval 0 = G ∧ ∀ x h : ℝ,
  h * (derivative G).eval (x + h / 2) = (E.eval (C (h ^ 2))).eval (x + h) - (E.eval (C (h ^ 2))).eval x

lemma midpoint_expansion : ∀ d : ℕ, ∀ G : ℝ[X], G.natDegree ≤ 2 * d + 2 →
    ∃ E : ℝ[X][X], E.natDegree ≤ d ∧ MidOf G E := by
  intro d
  induction d using Nat.strong_induction_on with
  | _ d ih =>
    intro G hG
    have hex : ∀ l, ∃ E : ℝ[X][X], l < d → E.natDegree ≤ d - (l + 1) ∧
        MidOf (C (1 / (2 * l + 3 : ℝ)) * hasseDeriv (2 * l + 2) G) E := by
      intro l
      by_cases hl : l < d
      · obtain ⟨E, h1, h2⟩ := ih (d - (l + 1)) (by omega) (C (1 / (2 * l + 3 : ℝ)) * hasseDeriv (2 * l + 2) G) (by
          refine (natDegree_C_mul_le _ _).trans ((natDegree_hasseDeriv_le G _).trans ?_)
          omega)
        exact ⟨E, fun _ => ⟨h1, h2⟩⟩
      · exact ⟨0, fun h => absurd h hl⟩
    choose E hE using hex
    refine ⟨C G - ∑ l ∈ Finset.range d, C (C ((1 / 4 : ℝ) ^ (l + 1))) * X ^ (l + 1) * E l, ?_, ?_, ?_⟩
    · refine (natDegree_sub_le _ _).trans (max_le (by simp) ?_)
      refine natDegree_sum_le_of_forall_le _ _ (fun l hl => ?_)
      have hl' := Finset.mem_range.mp hl
      refine natDegree_mul_le.trans ?_
      have h1 : (C (C ((1 / 4 : ℝ) ^ (l + 1))) * X ^ (l + 1) : ℝ[X][X]).natDegree ≤ l + 1 := natDegree_C_mul_X_pow_le _ _
      have h2 := (hE l hl').1
      omega
    · simp [eval_finsetSum]
    · intro x h
      have ht := (taylor_two (n := d + 2) (G := G) (by omega) (x + h / 2) (h / 2)).1
      have e1 : x + h / 2 + h / 2 = x + h := by ring
      have e2 : x + h / 2 - h / 2 = x := by ring
      rw [e1, e2] at ht
      have hlast : hasseDeriv (2 * (d + 1) + 1) G = 0 := hasseDeriv_eq_zero_of_lt_natDegree _ _ (by omega)
      rw [Finset.sum_range_succ, hlast, Finset.sum_range_succ'] at ht
      simp only [eval_zero, mul_zero, zero_mul, add_zero, zero_add, hasseDeriv_one', pow_one] at ht
      simp only [eval_sub, eval_C, eval_finsetSum, eval_mul, eval_pow, eval_X]
      have hsum : ∀ y, ∑ l ∈ Finset.range d, (1 / 4 : ℝ) ^ (l + 1) * (h ^ 2) ^ (l + 1) *
          ((E l).eval (C (h ^ 2))).eval y =
          ∑ l ∈ Finset.range d, (h / 2) ^ (2 * (l + 1)) * ((E l).eval (C (h ^ 2))).eval y := by
        intro y
        refine Finset.sum_congr rfl (fun l _ => ?_)
        rw [← mul_pow, pow_mul]
        congr 2
        ring
      have hdiff : ∑ l ∈ Finset.range d, (h / 2) ^ (2 * (l + 1)) * ((E l).eval (C (h ^ 2))).eval (x + h) -
          ∑ l ∈ Finset.range d, (h / 2) ^ (2 * (l + 1)) * ((E l).eval (C (h ^ 2))).eval x =
          ∑ l ∈ Finset.range d, 2 * (hasseDeriv (2 * (l + 1) + 1) G).eval (x + h / 2) * (h / 2) ^ (2 * (l + 1) + 1) := by
        rw [← Finset.sum_sub_distrib]
        refine Finset.sum_congr rfl (fun l hl => ?_)
        have hm := (hE l (Finset.mem_range.mp hl)).2.2 x h
        rw [derivative_C_mul, derivative_hasse, eval_mul, eval_C, eval_smul, nsmul_eq_mul] at hm
        rw [← mul_sub, ← hm]
        have hne : (2 * l + 3 : ℝ) ≠ 0 := by positivity
        have hk : 2 * (l + 1) + 1 = 2 * l + 2 + 1 := by ring
        rw [hk]
        push_cast
        have : 1 / (2 * (l : ℝ) + 3) * ((2 * l + 2 + 1) * (hasseDeriv (2 * l + 2 + 1) G).eval (x + h / 2)) =
            (hasseDeriv (2 * l + 2 + 1) G).eval (x + h / 2) := by
          rw [← mul_assoc, show (2 * (l : ℝ) + 2 + 1) = 2 * l + 3 by ring, one_div, inv_mul_cancel₀ hne, one_mul]
        rw [this]
        ring
      rw [hsum, hsum]
      have : (G.eval (x + h) - ∑ l ∈ Finset.range d, (h / 2) ^ (2 * (l + 1)) * ((E l).eval (C (h ^ 2))).eval (x + h)) -
          (G.eval x - ∑ l ∈ Finset.range d, (h / 2) ^ (2 * (l + 1)) * ((E l).eval (C (h ^ 2))).eval x) =
          (G.eval (x + h) - G.eval x) -
          (∑ l ∈ Finset.range d, (h / 2) ^ (2 * (l + 1)) * ((E l).eval (C (h ^ 2))).eval (x + h) -
           ∑ l ∈ Finset.range d, (h / 2) ^ (2 * (l + 1)) * ((E l).eval (C (h ^ 2))).eval x) := by ring
      rw [this, hdiff, ht]
      ring

/-- The same for the trapezoidal rule. -/
lemma trapezoid_expansion (d : ℕ) (G : ℝ[X]) (hG : G.natDegree ≤ 2 * d + 2) :
    ∃ E : ℝ[X][X], E.natDegree ≤ d ∧ E.eval 0 = G ∧ ∀ x h : ℝ,
      h / 2 * ((derivative G).eval x + (derivative G).eval (x + h)) =
        (E.eval (C (h ^ 2))).eval (x + h) - (E.eval (C (h ^ 2))).eval x := by
  have hex : ∀ l, ∃ E : ℝ[X][X], l ≤ d → E.natDegree ≤ d - l ∧ MidOf (hasseDeriv (2 * l) G) E := by
    intro l
    by_cases hl : l ≤ d
    · obtain ⟨E, h1, h2⟩ := midpoint_expansion (d - l) (hasseDeriv (2 * l) G) (by
        refine (natDegree_hasseDeriv_le G _).trans ?_
        omega)
      exact ⟨E, fun _ => ⟨h1, h2⟩⟩
    · exact ⟨0, fun h => absurd h hl⟩
  choose E hE using hex
  refine ⟨∑ l ∈ Finset.range (d + 1), C (C ((1 / 4 : ℝ) ^ l)) * X ^ l * E l, ?_, ?_, ?_⟩
  · refine natDegree_sum_le_of_forall_le _ _ (fun l hl => ?_)
    have hl' := Finset.mem_range.mp hl
    refine natDegree_mul_le.trans ?_
    have h1 : (C (C ((1 / 4 : ℝ) ^ l)) * X ^ l : ℝ[X][X]).natDegree ≤ l := natDegree_C_mul_X_pow_le _ _
    have h2 := (hE l (by omega)).1
    omega
  · rw [eval_finsetSum, Finset.sum_range_succ']
    have h0 := (hE 0 (by omega)).2.1
    simp only [mul_zero, hasseDeriv_zero'] at h0
    simp [h0]
  · intro x h
    have ht := (taylor_two (n := d + 1) (G := derivative G) (by
      have := natDegree_derivative_le G; omega) (x + h / 2) (h / 2)).2
    have e1 : x + h / 2 + h / 2 = x + h := by ring
    have e2 : x + h / 2 - h / 2 = x := by ring
    rw [e1, e2] at ht
    rw [add_comm ((derivative G).eval x), ht]
    simp only [eval_finsetSum, eval_mul, eval_pow, eval_X, eval_C]
    rw [← Finset.sum_sub_distrib, Finset.mul_sum]
    refine Finset.sum_congr rfl (fun l hl => ?_)
    have hl' : l ≤ d := by have := Finset.mem_range.mp hl; omega
    have hm := (hE l hl').2.2 x h
    have hcomm : hasseDeriv (2 * l) (derivative G) = derivative (hasseDeriv (2 * l) G) := by
      have h1 := congrArg (fun f => f G) (hasseDeriv_comp (R := ℝ) (2 * l) 1)
      have h2 := congrArg (fun f => f G) (hasseDeriv_comp (R := ℝ) 1 (2 * l))
      simp only [LinearMap.comp_apply, LinearMap.smul_apply, hasseDeriv_one, Nat.choose_one_right] at h1 h2
      rw [h1, h2, Nat.choose_succ_self_right, Nat.add_comm 1]
    rw [hcomm, ← mul_sub, ← hm]
    have hp : ((1 / 4 : ℝ) ^ l * (h ^ 2) ^ l) = (h / 2) ^ (2 * l) := by
      rw [← mul_pow, pow_mul]
      congr 1
      ring
    rw [hp]
    ring

lemma exists_antiderivative (p : ℝ[X]) : ∃ G : ℝ[X], derivative G = p ∧ G.natDegree ≤ p.natDegree + 1 := by
  refine ⟨∑ i ∈ Finset.range (p.natDegree + 1), C (p.coeff i / (i + 1)) * X ^ (i + 1), ?_, ?_⟩
  · conv_rhs => rw [p.as_sum_range_C_mul_X_pow]
    rw [derivative_sum]
    refine Finset.sum_congr rfl (fun i _ => ?_)
    rw [derivative_C_mul_X_pow, Nat.add_sub_cancel]
    congr 2
    push_cast
    have : (i + 1 : ℝ) ≠ 0 := by positivity
    field_simp
  · refine natDegree_sum_le_of_forall_le _ _ (fun i hi => ?_)
    have := Finset.mem_range.mp hi
    exact (natDegree_C_mul_X_pow_le _ _).trans (by omega)

/-- Sums of differences over the cells. -/
lemma telescope (Q : ℝ → ℝ) (a h : ℝ) : ∀ N : ℕ, ∑ j ∈ Finset.range N, (Q (a + j * h + h) - Q (a + j * h)) =
    Q (a + N * h) - Q a := by
  intro N
  induction N with
  | zero => simp
  | succ N ih =>
    rw [Finset.sum_range_succ, ih]
    have : a + ((N + 1 : ℕ) : ℝ) * h = a + N * h + h := by push_cast; ring
    rw [this]; ring

lemma bivariate_poly (E : ℝ[X][X]) (a b w : ℝ) (d : ℕ) (hE : E.natDegree ≤ d) :
    ∃ P : ℝ[X], P.natDegree ≤ d ∧ ∀ n : ℝ, P.eval n = (E.eval (C (w * n))).eval b - (E.eval (C (w * n))).eval a := by
  have key : ∀ y : ℝ, ∃ P : ℝ[X], P.natDegree ≤ d ∧ ∀ n : ℝ, P.eval n = (E.eval (C (w * n))).eval y := by
    intro y
    refine ⟨(E.map (evalRingHom y)).comp (C w * X), ?_, ?_⟩
    · refine natDegree_comp_le.trans ?_
      have h1 : (C w * X : ℝ[X]).natDegree ≤ 1 := (natDegree_C_mul_le _ _).trans natDegree_X_le
      have h2 : (E.map (evalRingHom y)).natDegree ≤ d := natDegree_map_le.trans hE
      calc _ ≤ d * 1 := Nat.mul_le_mul h2 h1
        _ = d := by ring
    · intro n
      rw [eval_comp, eval_mul, eval_C, eval_X]
      have h1 : (E.eval (C (w * n))).eval y = (evalRingHom y) (E.eval (C (w * n))) := rfl
      rw [h1, ← eval_map_apply]
      simp
  obtain ⟨P, hP1, hP2⟩ := key b
  obtain ⟨P', hP1', hP2'⟩ := key a
  exact ⟨P - P', (natDegree_sub_le _ _).trans (max_le hP1 hP1'), fun n => by rw [eval_sub, hP2, hP2']⟩

lemma integral_poly (G : ℝ[X]) (a b : ℝ) : ∫ x in a..b, (derivative G).eval x = G.eval b - G.eval a := by
  refine intervalIntegral.integral_eq_sub_of_hasDerivAt (fun x _ => G.hasDerivAt x) ?_
  exact (derivative G).differentiable.continuous.intervalIntegrable _ _

lemma rules_poly (p : ℝ[X]) (d : ℕ) (hp : p.natDegree ≤ 2 * d + 1) (a b : ℝ) :
    (∃ P : ℝ[X], P.natDegree ≤ d ∧ P.eval 0 = ∫ x in a..b, p.eval x ∧ ∀ N : ℕ, 0 < N →
      midRule (fun x => p.eval x) a ((b - a) / N) N = P.eval (1 / (N : ℝ) ^ 2)) ∧
    (∃ P : ℝ[X], P.natDegree ≤ d ∧ P.eval 0 = ∫ x in a..b, p.eval x ∧ ∀ N : ℕ, 0 < N →
      trapRule (fun x => p.eval x) a ((b - a) / N) N = P.eval (1 / (N : ℝ) ^ 2)) := by
  obtain ⟨G, rfl, hG⟩ := exists_antiderivative p
  have hG' : G.natDegree ≤ 2 * d + 2 := by omega
  have hend : ∀ N : ℕ, 0 < N → a + N * ((b - a) / N) = b := by
    intro N hN
    have : (N : ℝ) ≠ 0 := Nat.cast_ne_zero.mpr hN.ne'
    field_simp
    ring
  have hsq : ∀ N : ℕ, ((b - a) / N) ^ 2 = (b - a) ^ 2 * (1 / (N : ℝ) ^ 2) := by
    intro N; rw [div_pow, mul_one_div]
  constructor
  · obtain ⟨E, hE, h0, hm⟩ := midpoint_expansion d G hG'
    obtain ⟨P, hP1, hP2⟩ := bivariate_poly E a b ((b - a) ^ 2) d hE
    refine ⟨P, hP1, ?_, ?_⟩
    · rw [hP2, integral_poly, mul_zero, C_0, h0]
    · intro N hN
      rw [hP2, ← hsq]
      unfold midRule
      have : ∀ j ∈ Finset.range N, (b - a) / N * (derivative G).eval (a + (j + 1 / 2) * ((b - a) / N)) =
          (E.eval (C (((b - a) / N) ^ 2))).eval (a + j * ((b - a) / N) + (b - a) / N) -
          (E.eval (C (((b - a) / N) ^ 2))).eval (a + j * ((b - a) / N)) := by
        intro j _
        rw [← hm]
        congr 2
        ring
      rw [Finset.sum_congr rfl this, telescope (fun y => (E.eval (C (((b - a) / N) ^ 2))).eval y), hend N hN]
  · obtain ⟨E, hE, h0, hm⟩ := trapezoid_expansion d G hG'
    obtain ⟨P, hP1, hP2⟩ := bivariate_poly E a b ((b - a) ^ 2) d hE
    refine ⟨P, hP1, ?_, ?_⟩
    · rw [hP2, integral_poly, mul_zero, C_0, h0]
    · intro N hN
      rw [hP2, ← hsq]
      unfold trapRule
      have : ∀ j ∈ Finset.range N, (b - a) / N / 2 * ((derivative G).eval (a + j * ((b - a) / N)) +
            (derivative G).eval (a + (j + 1) * ((b - a) / N))) =
          (E.eval (C (((b - a) / N) ^ 2))).eval (a + j * ((b - a) / N) + (b - a) / N) -
          (E.eval (C (((b - a) / N) ^ 2))).eval (a + j * ((b - a) / N)) := by
        intro j _
        rw [← hm]
        congr 3
        ring
      rw [Finset.sum_congr rfl this, telescope (fun y => (E.eval (C (((b - a) / N) ^ 2))).eval y), hend N hN]

/-! ## The loop -/

lemma stage_error {X Y : ℕ → ℝ} {n : ℕ} (hX : DistinctNodes X n) (x : ℝ) (k : ℕ) (hk : k + 1 < n) (s : Neville)
    (h : Scheme X Y x n k s) : ∃ i j, i + (k + 1) < n ∧ j + k < n ∧
      (nevilleStage X x n s (k + 1)).error = nv X Y x (k + 1) i - nv X Y x k j := by
  have h2 := stage_scheme hX x k hk s h
  refine ⟨_, s.num, h2.num, h.num, ?_⟩
  rw [← h2.result, ← h.result]
  unfold nevilleStage
  dsimp only
  ring

lemma nev_shift (X Y : ℕ → ℝ) : ∀ k i, nev X Y k i = nev (fun j => X (i + j)) (fun j => Y (i + j)) k 0 := by
  have h : ∀ k i m, nev X Y k (i + m) = nev (fun j => X (i + j)) (fun j => Y (i + j)) k m := by
    intro k
    induction k with
    | zero => intro i m; simp [nev]
    | succ k ih =>
      intro i m
      simp only [nev]
      rw [ih i m, show i + m + 1 = i + (m + 1) by ring, ih i (m + 1)]
      simp only [← add_assoc]
  intro k i
  have := h k i 0
  simpa using this

lemma nv_poly {X : ℕ → ℝ} {n : ℕ} (hX : DistinctNodes X n) (p : ℝ[X]) (x : ℝ) (k i : ℕ) (hk : i + k < n)
    (hd : p.natDegree ≤ k) : nv X (fun j => p.eval (X j)) x k i = p.eval x := by
  unfold nv
  rw [nev_shift, nev_unique (n := k) ?_ p hd (fun _ _ => rfl)]
  intro a ha b hb h
  have := hX (i + a) (by omega) (i + b) (by omega) h
  omega

/-- On a polynomial of a degree with a node to spare the value is exact and the error zero. -/
lemma interpolate_poly {X Y : ℕ → ℝ} {n : ℕ} (hX : DistinctNodes X n) (p : ℝ[X]) (x : ℝ) (hd : p.natDegree + 1 < n)
    (hY : ∀ i < n, Y i = p.eval (X i)) : interpolateNodes X Y n x = (p.eval x, 0) := by
  have hval := C64_neville X Y n x hX p (by omega) (fun i hi => (hY i hi).symm)
  refine Prod.ext hval ?_
  unfold interpolateNodes
  dsimp only
  generalize hdd : (if (nearestNode X x n).1 = 0 then true
      else if (nearestNode X x n).1 = n - 1 then false
        else _ : Bool) = dd
  have h0 : Scheme X Y x n 0 ⟨Y, Y, (nearestNode X x n).1, dd, Y (nearestNode X x n).1, 0⟩ := by
    refine ⟨by simpa using nearestNode_lt X x n (by omega), by simp [nv, nev], ?_⟩
    intro i _
    simp [nv, nev]
  obtain ⟨m, hm⟩ : ∃ m, n - 1 = m + 1 := ⟨n - 2, by omega⟩
  rw [hm, List.range'_concat, List.foldl_append]
  simp only [List.foldl_cons, List.foldl_nil, one_mul]
  have h1 := loop_scheme hX x _ h0 m (by omega)
  obtain ⟨i, j, hi, hj, he⟩ := stage_error hX x m (by omega) _ h1
  rw [Nat.add_comm 1 m, he]
  have hnv : ∀ k i, i + k < n → nv X Y x k i = nv X (fun j => p.eval (X j)) x k i := by
    intro k
    induction k with
    | zero => intro i hi; simp [nv, nev, hY i (by omega)]
    | succ k ih =>
      intro i hi
      have a1 := ih i (by omega)
      have a2 := ih (i + 1) (by omega)
      simp only [nv] at a1 a2 ⊢
      simp only [nev, eval_mul, eval_C, eval_add, eval_sub, eval_X, a1, a2]
  rw [hnv _ _ hi, hnv _ _ hj, nv_poly hX p x (m + 1) i hi (by omega), nv_poly hX p x m j hj (by omega), sub_self]

lemma rombergLoop_poly (T : ℕ → ℝ → ℝ) (q size romberg : ℕ) (precision : ℝ) (big : Option ℝ) (qags : ℝ) (hq : 2 ≤ q)
    (S : ℕ → ℝ) (hS0 : T 1 0 = S 0) (hS : ∀ i, T (q ^ (i + 1)) (S i) = S (i + 1))
    (p : ℝ[X]) (hp : ∀ i, S i = p.eval (1 / ((q : ℝ) * q) ^ i)) (hdeg : p.natDegree + 1 < romberg) (hsize : romberg ≤ size)
    (hprec : 0 < precision) (hbig : big ≠ some 0) :
    ∀ m i fuel X Y, i + m = romberg - 1 → m < fuel → (∀ j < i, X j = 1 / ((q : ℝ) * q) ^ j ∧ Y j = S j) →
      rombergLoop T q size romberg precision big qags fuel i (q ^ i) (1 / ((q : ℝ) * q) ^ i)
        (if i = 0 then 0 else S (i - 1)) X Y = some (p.eval 0) := by
  have hq0 : (1 : ℝ) < (q : ℝ) * q := by
    have : (2 : ℝ) ≤ q := by exact_mod_cast hq
    nlinarith
  have hTi : ∀ i, T (q ^ i) (if i = 0 then 0 else S (i - 1)) = S i := by
    intro i
    rcases Nat.eq_zero_or_pos i with h | h
    · subst h; simpa using hS0
    · obtain ⟨i, rfl⟩ : ∃ k, i = k + 1 := ⟨i - 1, by omega⟩
      rw [if_neg (by omega), Nat.add_sub_cancel, hS]
  intro m
  induction m with
  | zero =>
    intro i fuel X Y him hf hXY
    obtain ⟨fuel, rfl⟩ : ∃ k, fuel = k + 1 := ⟨fuel - 1, by omega⟩
    unfold rombergLoop
    rw [if_neg (by omega)]
    dsimp only
    rw [if_pos (by omega), hTi i]
    have hs : i - (romberg - 1) = 0 := by omega
    rw [hs]
    have hX' : ∀ j < romberg, Function.update X i (1 / ((q : ℝ) * q) ^ i) (0 + j) = 1 / ((q : ℝ) * q) ^ j := by
      intro j hj
      rw [zero_add]
      rcases Nat.lt_or_ge j i with h | h
      · rw [Function.update_of_ne (by omega), (hXY j h).1]
      · have : j = i := by omega
        subst this; rw [Function.update_self]
    have hY' : ∀ j < romberg, Function.update Y i (S i) (0 + j) = S j := by
      intro j hj
      rw [zero_add]
      rcases Nat.lt_or_ge j i with h | h
      · rw [Function.update_of_ne (by omega), (hXY j h).2]
      · have : j = i := by omega
        subst this; rw [Function.update_self]
    have hres := interpolate_poly (X := fun j => Function.update X i (1 / ((q : ℝ) * q) ^ i) (0 + j))
      (Y := fun j => Function.update Y i (S i) (0 + j)) (n := romberg) (by
        intro a ha b hb h
        beta_reduce at h
        rw [hX' a ha, hX' b hb] at h
        have h' : ((q : ℝ) * q) ^ a = (q * q) ^ b := by
          have h1 : (0 : ℝ) < (q * q) ^ a := by positivity
          have h2 : (0 : ℝ) < (q * q) ^ b := by positivity
          rw [div_eq_div_iff h1.ne' h2.ne'] at h
          linarith
        exact pow_right_injective₀ (by linarith) hq0.ne' h') p 0 hdeg (by
        intro a ha
        rw [hX' a ha, hY' a ha, hp])
    rw [hres]
    have hacc : acceptRomberg precision big (p.eval 0, 0) = true := by
      unfold acceptRomberg
      rcases big with _ | b
      · simp [hprec]
      · have : b ≠ 0 := fun h => hbig (by rw [h])
        simp [hprec, this]
    rw [if_pos hacc]
  | succ m ih =>
    intro i fuel X Y him hf hXY
    obtain ⟨fuel, rfl⟩ : ∃ k, fuel = k + 1 := ⟨fuel - 1, by omega⟩
    unfold rombergLoop
    rw [if_neg (by omega)]
    dsimp only
    rw [if_neg (by omega), hTi i]
    have h := ih (i + 1) fuel (Function.update X i (1 / ((q : ℝ) * q) ^ i)) (Function.update Y i (S i)) (by omega)
      (by omega) (by
        intro j hj
        rcases Nat.lt_or_ge j i with h | h
        · rw [Function.update_of_ne (by omega), Function.update_of_ne (by omega)]
          exact hXY j h
        · have : j = i := by omega
          subst this
          rw [Function.update_self, Function.update_self]
          exact ⟨rfl, rfl⟩)
    rw [if_neg (by omega), Nat.add_sub_cancel, pow_succ, pow_succ] at h
    have he : 1 / ((q : ℝ) * q) ^ i / (q * q) = 1 / (((q : ℝ) * q) ^ i * (q * q)) := by rw [div_div]
    rw [he]
    exact h

/-- C97: both Romberg integrations are exact, after the first possible step, on polynomials up to the degree
`2 * romberg - 3` (7 for the default of 5 nodes), for every interval, precision and fallback. -/
theorem C97_romberg_polynomials (size romberg : ℕ) (precision qags : ℝ) (hr : 2 ≤ romberg) (hr' : romberg ≤ 12)
    (hsize : romberg ≤ size) (hprec : 0 < precision) (p : ℝ[X]) (hp : p.natDegree ≤ 2 * romberg - 3) (lo hi : ℝ)
    (h : lo < hi) :
    rombergClosed size romberg precision qags (fun x => p.eval x) lo hi = some (∫ x in lo..hi, p.eval x) ∧
    rombergOpened size romberg precision qags (fun x => p.eval x) lo hi = some (∫ x in lo..hi, p.eval x) := by
  obtain ⟨⟨P, hP1, hP2, hP3⟩, ⟨P', hP1', hP2', hP3'⟩⟩ := rules_poly p (romberg - 2) (by omega) lo hi
  have hcast : ∀ (q i : ℕ), 1 / ((q : ℝ) * q) ^ i = 1 / ((q ^ i : ℕ) : ℝ) ^ 2 := by
    intro q i; push_cast; rw [mul_pow, ← sq]
  constructor
  · rw [← hP2']
    have hgo := rombergLoop_poly (trapezoid (fun x => p.eval x) lo hi) 2 size romberg precision none qags le_rfl
      (fun i => trapRule (fun x => p.eval x) lo ((hi - lo) / ((2 ^ i : ℕ) : ℝ)) (2 ^ i)) ?_ ?_ P' ?_ (by omega) hsize
      hprec (by simp) (romberg - 1) 0 12 (fun _ => 0) (fun _ => 0) (by omega) (by omega) (by simp)
    · simpa [rombergClosed] using hgo
    · simp [trapezoid, trapRule]; ring
    · intro i
      have := trapezoid_double (fun x => p.eval x) lo hi h (2 ^ i) (by positivity)
      rw [pow_succ]
      exact this
    · intro i
      rw [hP3' (2 ^ i) (by positivity), hcast]
  · rw [← hP2]
    have hgo := rombergLoop_poly (trapezoid3 (fun x => p.eval x) lo hi) 3 size romberg precision none qags (by norm_num)
      (fun i => midRule (fun x => p.eval x) lo ((hi - lo) / ((3 ^ i : ℕ) : ℝ)) (3 ^ i)) ?_ ?_ P ?_ (by omega) hsize
      hprec (by simp) (romberg - 1) 0 12 (fun _ => 0) (fun _ => 0) (by omega) (by omega) (by simp)
    · simpa [rombergOpened] using hgo
    · simp only [trapezoid3, midRule]
      simp
      left
      congr 1
      ring
    · intro i
      have := trapezoid3_triple (fun x => p.eval x) lo hi h (3 ^ i) (by positivity)
      rw [pow_succ]
      exact this
    · intro i
      rw [hP3 (3 ^ i) (by positivity), hcast]

example : rombergOpened 20 5 (1 / 10 ^ 6) 0 (fun x => x ^ 7) 0 1 = some (1 / 8) := by
  have h := (C97_romberg_polynomials 20 5 (1 / 10 ^ 6) 0 (by norm_num) (by norm_num) (by norm_num) (by norm_num)
    (X ^ 7) (by simp) 0 1 (by norm_num)).2
  simp only [eval_pow, eval_X] at h
  rw [h]
  norm_num [integral_pow]

/-! ## The arrays of the integration -/

lemma rombergLoop_some (T : ℕ → ℝ → ℝ) (q size romberg : ℕ) (precision : ℝ) (big : Option ℝ) (qags : ℝ) :
    ∀ fuel i k n r X Y, i + fuel ≤ size →
      (rombergLoop T q size romberg precision big qags fuel i k n r X Y).isSome := by
  intro fuel
  induction fuel with
  | zero => intro i k n r X Y _; simp [rombergLoop]
  | succ fuel ih =>
    intro i k n r X Y h
    unfold rombergLoop
    rw [if_neg (by omega)]
    dsimp only
    split_ifs
    · simp
    · exact ih _ _ _ _ _ _ (by omega)
    · exact ih _ _ _ _ _ _ (by omega)

/-- C98: an object made for at least 12 steps never leaves the arrays of the Romberg integrations, whatever the
integrand. -/
theorem C98_in_bounds_partial (size romberg : ℕ) (precision qags : ℝ) (F : ℝ → ℝ) (lo hi : ℝ) (h : 12 ≤ size) :
    (rombergClosed size romberg precision qags F lo hi).isSome ∧ (rombergOpened size romberg precision qags F lo hi).isSome :=
  ⟨rombergLoop_some _ _ _ _ _ _ _ _ _ _ _ _ _ _ (by omega), rombergLoop_some _ _ _ _ _ _ _ _ _ _ _ _ _ _ (by omega)⟩

lemma rombergLoop_none (T : ℕ → ℝ → ℝ) (q size romberg : ℕ) (precision : ℝ) (big : Option ℝ) (qags : ℝ)
    (hr : size < romberg) : ∀ m i k n r X Y fuel, i + m = size → m < fuel →
      rombergLoop T q size romberg precision big qags fuel i k n r X Y = none := by
  intro m
  induction m with
  | zero =>
    intro i k n r X Y fuel h hf
    obtain ⟨fuel, rfl⟩ : ∃ k, fuel = k + 1 := ⟨fuel - 1, by omega⟩
    unfold rombergLoop
    rw [if_pos (by omega)]
  | succ m ih =>
    intro i k n r X Y fuel h hf
    obtain ⟨fuel, rfl⟩ : ∃ k, fuel = k + 1 := ⟨fuel - 1, by omega⟩
    unfold rombergLoop
    rw [if_neg (by omega)]
    dsimp only
    rw [if_neg (by omega)]
    exact ih _ _ _ _ _ _ _ (by omega) (by omega)

/-- C98, where the code differs: the arrays have the size of the other step limit, the one for upper limits. An object
made with fewer steps than nodes writes beyond the end of its arrays for every integrand and interval. -/
theorem C98_out_of_bounds (size romberg : ℕ) (precision qags : ℝ) (F : ℝ → ℝ) (lo hi : ℝ) (h : size < romberg)
    (h' : size < 12) : rombergClosed size romberg precision qags F lo hi = none ∧
      rombergOpened size romberg precision qags F lo hi = none :=
  ⟨rombergLoop_none _ _ _ _ _ _ _ h size 0 _ _ _ _ _ _ (by omega) h',
    rombergLoop_none _ _ _ _ _ _ _ h size 0 _ _ _ _ _ _ (by omega) h'⟩

example : rombergClosed 4 5 (1 / 10 ^ 6) 0 (fun x => x) 0 1 = none :=
  (C98_out_of_bounds 4 5 _ 0 _ 0 1 (by norm_num) (by norm_num)).1

end Proposal
