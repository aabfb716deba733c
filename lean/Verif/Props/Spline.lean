import Verif.Model.Spline
import Verif.Props.Polynom
import Mathlib.Analysis.Calculus.Deriv.Comp
import Mathlib.Analysis.Calculus.Deriv.Shift
import Mathlib.MeasureTheory.Integral.IntervalIntegral.FundThmCalculus
import Mathlib.Tactic.LinearCombination

/-!
# Splines (C72 to C76)
-/

namespace Proposal

open Finset

/-- A spline as the constructors from nodes make it: increasing knots, one piece between any two
neighbouring ones, no empty piece. -/
structure Spec.RegularSpline (s : Spline) : Prop where
  pos : 0 < s.n
  pieces : s.pieces.length = s.n
  knots : s.knots.length = s.n + 1
  increasing : ∀ i j, i < j → j ≤ s.n → s.knots.getD i 0 < s.knots.getD j 0
  nonempty : ∀ p ∈ s.pieces, p ≠ []

open Spec

private lemma Spec.RegularSpline.knot {s : Spline} (h : RegularSpline s) {i : ℕ} (hi : i ≤ s.n) :
    s.knots[i]? = some (s.knots.getD i 0) := by
  have : i < s.knots.length := by rw [h.knots]; omega
  rw [List.getD_eq_getElem?_getD, List.getElem?_eq_getElem this]
  rfl

private lemma Spec.RegularSpline.piece {s : Spline} (h : RegularSpline s) {i : ℕ} (hi : i < s.n) (x : ℝ) :
    s.pieces[i]?.bind (·.evaluate x) = some (polyVal (s.pieces.getD i []) x) := by
  have hl : i < s.pieces.length := by rw [h.pieces]; exact hi
  rw [List.getD_eq_getElem?_getD, List.getElem?_eq_getElem hl]
  simp only [Option.bind_some, Option.getD_some]
  exact C49_evaluate _ _ (h.nonempty _ (List.getElem_mem hl))

private lemma Spec.RegularSpline.last {s : Spline} (h : RegularSpline s) : s.knots.getLast? = some (s.knots.getD s.n 0) := by
  rw [List.getLast?_eq_getElem?, h.knots]
  exact h.knot le_rfl

private lemma Spec.RegularSpline.mono {s : Spline} (h : RegularSpline s) {i j : ℕ} (hij : i ≤ j) (hj : j ≤ s.n) :
    s.knots.getD i 0 ≤ s.knots.getD j 0 := by
  rcases hij.eq_or_lt with rfl | hij
  · exact le_rfl
  · exact (h.increasing i j hij hj).le

private lemma eval_in {s : Spline} (h : RegularSpline s) (i : ℕ) (hi : i < s.n) (x : ℝ) (h1 : s.knots.getD i 0 < x)
    (h2 : x ≤ s.knots.getD (i + 1) 0) : s.evaluate x = some (polyVal (s.pieces.getD i []) x) := by
  have go : ∀ k j, j + k = s.n → j ≤ i → s.evaluateGo x k j = some (polyVal (s.pieces.getD i []) x) := by
    intro k
    induction k with
    | zero => intro j h1 h2; omega
    | succ k ih =>
      intro j hj hji
      simp only [Spline.evaluateGo, h.knot (show j ≤ s.n by omega), h.knot (show j + 1 ≤ s.n by omega)]
      have := h.mono hji hi.le
      rw [if_pos (by linarith)]
      rcases hji.eq_or_lt with rfl | hlt
      · rw [if_pos h2, h.piece hi]
      · have := h.mono (show j + 1 ≤ i by omega) hi.le
        rw [if_neg (by linarith)]
        exact ih (j + 1) (by omega) (by omega)
  exact go s.n 0 (by omega) (by omega)

private lemma eval_first {s : Spline} (h : RegularSpline s) (x : ℝ) (h2 : x ≤ s.knots.getD 1 0) :
    s.evaluate x = some (polyVal (s.pieces.getD 0 []) x) := by
  rcases lt_or_ge (s.knots.getD 0 0) x with h1 | h1
  · exact eval_in h 0 h.pos x h1 h2
  · rcases h1.eq_or_lt with h1 | h1
    · unfold Spline.evaluate
      obtain ⟨m, hm⟩ := Nat.exists_eq_succ_of_ne_zero h.pos.ne'
      have k0 := h.knot (Nat.zero_le s.n)
      have k1 := h.knot (show 0 + 1 ≤ s.n from h.pos)
      rw [hm]
      simp only [Spline.evaluateGo, k0, k1]
      rw [if_pos h1.symm.le, if_pos h2, h.piece h.pos]
    · have go : ∀ k j, j + k = s.n → s.evaluateGo x k j = some (polyVal (s.pieces.getD 0 []) x) := by
        intro k
        induction k with
        | zero =>
          intro j hj
          simp only [Spline.evaluateGo, h.last]
          have := h.mono (Nat.zero_le s.n) le_rfl
          rw [if_neg (by linarith), h.piece h.pos]
        | succ k ih =>
          intro j hj
          simp only [Spline.evaluateGo, h.knot (show j ≤ s.n by omega)]
          have := h.mono (Nat.zero_le j) (show j ≤ s.n by omega)
          rw [if_neg (by linarith)]
          exact ih (j + 1) (by omega)
      exact go s.n 0 (by omega)

private lemma eval_last {s : Spline} (h : RegularSpline s) (x : ℝ) (h1 : s.knots.getD s.n 0 < x) :
    s.evaluate x = some (polyVal (s.pieces.getD (s.n - 1) []) x) := by
  have go : ∀ k j, j + k = s.n → s.evaluateGo x k j = some (polyVal (s.pieces.getD (s.n - 1) []) x) := by
    intro k
    induction k with
    | zero =>
      intro j hj
      simp only [Spline.evaluateGo, h.last]
      rw [if_pos h1, if_neg h.pos.ne', h.piece (by have := h.pos; omega)]
    | succ k ih =>
      intro j hj
      simp only [Spline.evaluateGo, h.knot (show j ≤ s.n by omega), h.knot (show j + 1 ≤ s.n by omega)]
      have a := h.mono (show j ≤ s.n by omega) le_rfl
      have b := h.mono (show j + 1 ≤ s.n by omega) le_rfl
      rw [if_pos (by linarith), if_neg (by linarith)]
      exact ih (j + 1) (by omega)
  exact go s.n 0 (by omega)

/-- Nodes as the constructors need them: at least two, as many ordinates, increasing abscissae. -/
structure Spec.Nodes (x y : List ℝ) : Prop where
  two : 2 ≤ x.length
  same : y.length = x.length
  increasing : ∀ i j, i < j → j < x.length → x.getD i 0 < x.getD j 0

private lemma getD_map_range (f : ℕ → Poly) (n k : ℕ) (h : k < n) : ((List.range n).map f).getD k [] = f k := by
  simp [List.getD_eq_getElem?_getD, h]

lemma linear_regular {x y : List ℝ} (h : Nodes x y) : RegularSpline (Spline.linear x y) := by
  have h2 := h.two
  refine ⟨?_, ?_, ?_, ?_, ?_⟩
  · simp only [Spline.linear]; omega
  · simp [Spline.linear]
  · simp only [Spline.linear]; omega
  · intro i j hij hj
    simp only [Spline.linear] at *
    exact h.increasing i j hij (by omega)
  · intro p hp
    simp only [Spline.linear, List.mem_map] at hp
    obtain ⟨i, _, rfl⟩ := hp
    simp

private lemma polyVal_two (a b t : ℝ) : polyVal [a, b] t = a + b * t := by
  simp [polyVal, sum_range_succ]

/-- C72: a linear spline interpolates its nodes linearly: between two neighbouring nodes, ends included,
its value is on the straight line through them. -/
theorem C72_linear (x y : List ℝ) (h : Nodes x y) (i : ℕ) (hi : i + 1 < x.length) (t : ℝ) (h0 : x.getD i 0 ≤ t)
    (h1 : t ≤ x.getD (i + 1) 0) :
    (Spline.linear x y).evaluate t = some (y.getD i 0 +
      (y.getD (i + 1) 0 - y.getD i 0) * (t - x.getD i 0) / (x.getD (i + 1) 0 - x.getD i 0)) := by
  have hr := linear_regular h
  have hn : (Spline.linear x y).n = x.length - 1 := rfl
  have hk : (Spline.linear x y).knots = x := rfl
  have piece : ∀ j, j < x.length - 1 → ∀ t, polyVal ((Spline.linear x y).pieces.getD j []) t =
      y.getD j 0 + (y.getD (j + 1) 0 - y.getD j 0) * (t - x.getD j 0) / (x.getD (j + 1) 0 - x.getD j 0) := by
    intro j hj t
    have e : (Spline.linear x y).pieces.getD j [] = _ := getD_map_range _ _ _ hj
    rw [e]
    simp only
    rw [polyVal_two]
    ring
  rcases h0.eq_or_lt with h0 | h0
  · cases i with
    | zero =>
      rw [eval_first hr t (by rw [hk]; exact h1), piece 0 (by omega)]
    | succ i =>
      rw [eval_in hr i (by rw [hn]; omega) t (by rw [hk, ← h0]; exact h.increasing _ _ (by omega) (by omega))
        (by rw [hk, ← h0]), piece i (by omega), ← h0]
      have : x.getD (i + 1) 0 - x.getD i 0 ≠ 0 :=
        sub_ne_zero.2 (h.increasing i (i + 1) (by omega) (by omega)).ne'
      congr 1
      field_simp
      ring
  · rw [eval_in hr i (by rw [hn]; omega) t (by rw [hk]; exact h0) (by rw [hk]; exact h1), piece i (by omega)]

/-- C72: at the nodes a linear spline has the given ordinates. -/
theorem C72_linear_nodes (x y : List ℝ) (h : Nodes x y) (i : ℕ) (hi : i < x.length) :
    (Spline.linear x y).evaluate (x.getD i 0) = some (y.getD i 0) := by
  by_cases hl : i + 1 < x.length
  · rw [C72_linear x y h i hl _ le_rfl (h.increasing _ _ (by omega) hl).le]
    simp
  · have h2 := h.two
    obtain ⟨j, rfl⟩ : ∃ j, i = j + 1 := ⟨i - 1, by omega⟩
    have hx := h.increasing j (j + 1) (by omega) hi
    rw [C72_linear x y h j hi _ hx.le le_rfl, mul_div_assoc, div_self (sub_ne_zero.2 hx.ne'), mul_one]
    congr 1
    ring

example : Nodes [0, 1, 3] [5, 7, 4] := by
  refine ⟨by simp, by simp, ?_⟩
  intro i j hij hj
  simp only [List.length_cons, List.length_nil] at hj
  interval_cases j <;> interval_cases i <;> norm_num [List.getD]

/-! ## Cubic splines -/

section Cubic

variable {x a : ℕ → ℝ} {n : ℕ}

private lemma forward_pos (hx : ∀ i, i < n → x i < x (i + 1)) (i : ℕ) (hi : i < n) :
    0 < (cubicForward x a i).1 ∧ 0 ≤ (cubicForward x a i).2.1 ∧ (cubicForward x a i).2.1 < 1 := by
  induction i with
  | zero => simp [cubicForward]
  | succ i ih =>
    obtain ⟨_, h2, h3⟩ := ih (by omega)
    have hi0 := hx i (by omega)
    have hi1 := hx (i + 1) hi
    have hl : cubicH x (i + 1) < (cubicForward x a (i + 1)).1 := by
      simp only [cubicForward, cubicH]
      nlinarith
    have hh : 0 < cubicH x (i + 1) := by simp only [cubicH]; linarith
    refine ⟨by linarith, ?_, ?_⟩
    · change 0 ≤ cubicH x (i + 1) / (cubicForward x a (i + 1)).1
      exact div_nonneg hh.le (by linarith)
    · change cubicH x (i + 1) / (cubicForward x a (i + 1)).1 < 1
      rw [div_lt_one (by linarith)]
      exact hl

private lemma back_step (j : ℕ) (hj : j < n) :
    cubicC x a n j = (cubicForward x a j).2.2 - (cubicForward x a j).2.1 * cubicC x a n (j + 1) := by
  unfold cubicC
  obtain ⟨k, hk⟩ : ∃ k, n - j = k + 1 := ⟨n - j - 1, by omega⟩
  rw [hk, cubicBack, show n - (k + 1) = j by omega, show n - (j + 1) = k by omega]

/-- The tridiagonal system that the algorithm solves. -/
private lemma tridiagonal (hx : ∀ i, i < n → x i < x (i + 1)) (i : ℕ) (hi : i + 1 < n) :
    cubicH x i * cubicC x a n i + 2 * (cubicH x i + cubicH x (i + 1)) * cubicC x a n (i + 1) +
      cubicH x (i + 1) * cubicC x a n (i + 2) = cubicAlpha x a (i + 1) := by
  have hl := (forward_pos (a := a) hx (i + 1) hi).1.ne'
  have e1 := back_step (x := x) (a := a) i (show i < n by omega)
  have e2 := back_step (x := x) (a := a) (i + 1) hi
  have m : (cubicForward x a (i + 1)).2.1 * (cubicForward x a (i + 1)).1 = cubicH x (i + 1) := by
    change cubicH x (i + 1) / (cubicForward x a (i + 1)).1 * _ = _
    exact div_mul_cancel₀ _ hl
  have z : (cubicForward x a (i + 1)).2.2 * (cubicForward x a (i + 1)).1 =
      cubicAlpha x a (i + 1) - cubicH x i * (cubicForward x a i).2.2 := by
    change (cubicAlpha x a (i + 1) - cubicH x i * (cubicForward x a i).2.2) / (cubicForward x a (i + 1)).1 * _ = _
    exact div_mul_cancel₀ _ hl
  have l : (cubicForward x a (i + 1)).1 = 2 * (cubicH x i + cubicH x (i + 1)) - cubicH x i * (cubicForward x a i).2.1 := by
    simp only [cubicForward, cubicH]
    ring
  have e2' : cubicC x a n (i + 1) * (cubicForward x a (i + 1)).1 =
      cubicAlpha x a (i + 1) - cubicH x i * (cubicForward x a i).2.2 - cubicH x (i + 1) * cubicC x a n (i + 2) := by
    rw [e2, sub_mul, z, mul_right_comm, m]
  rw [l] at e2'
  rw [e1]
  linear_combination e2'

private lemma c_last : cubicC x a n n = 0 := by simp [cubicC, cubicBack]

private lemma c_first (hn : 0 < n) : cubicC x a n 0 = 0 := by
  rw [back_step 0 hn]
  simp [cubicForward]

private lemma cubic_val (i : ℕ) (t : ℝ) : polyVal (cubicPiece x a n i) t =
    a i + cubicB x a n i * t + cubicC x a n i * t ^ 2 + cubicD x a n i * t ^ 3 := by
  simp [polyVal, sum_range_succ, cubicPiece]

private lemma cubic_deriv (i : ℕ) (t : ℝ) : deriv (polyVal (cubicPiece x a n i)) t =
    cubicB x a n i + 2 * cubicC x a n i * t + 3 * cubicD x a n i * t ^ 2 := by
  rw [(C49_derivative _ t).deriv]
  simp [polyVal, sum_range_succ, cubicPiece, Poly.derivative, List.range_succ, Poly.coef]
  ring

private lemma cubic_deriv2 (i : ℕ) (t : ℝ) : deriv (deriv (polyVal (cubicPiece x a n i))) t =
    2 * cubicC x a n i + 6 * cubicD x a n i * t := by
  have : deriv (polyVal (cubicPiece x a n i)) = polyVal (cubicPiece x a n i).derivative := by
    ext s; exact (C49_derivative _ s).deriv
  rw [this, (C49_derivative _ t).deriv]
  simp [polyVal, sum_range_succ, cubicPiece, Poly.derivative, List.range_succ, Poly.coef]
  ring

private lemma join0 (hx : ∀ i, i < n → x i < x (i + 1)) (i : ℕ) (hi : i < n) :
    polyVal (cubicPiece x a n i) (cubicH x i) = a (i + 1) := by
  have h0 : cubicH x i ≠ 0 := by have := hx i hi; simp only [cubicH]; linarith
  rw [cubic_val]
  unfold cubicB cubicD
  field_simp
  ring

private lemma join2 (hx : ∀ i, i < n → x i < x (i + 1)) (i : ℕ) (hi : i < n) :
    deriv (deriv (polyVal (cubicPiece x a n i))) (cubicH x i) = 2 * cubicC x a n (i + 1) := by
  have h0 : cubicH x i ≠ 0 := by have := hx i hi; simp only [cubicH]; linarith
  rw [cubic_deriv2]
  unfold cubicD
  field_simp
  ring

private lemma join1 (hx : ∀ i, i < n → x i < x (i + 1)) (i : ℕ) (hi : i + 1 < n) :
    deriv (polyVal (cubicPiece x a n i)) (cubicH x i) = deriv (polyVal (cubicPiece x a n (i + 1))) 0 := by
  have h0 : cubicH x i ≠ 0 := by have := hx i (by omega); simp only [cubicH]; linarith
  have h1 : cubicH x (i + 1) ≠ 0 := by have := hx (i + 1) hi; simp only [cubicH]; linarith
  have t := tridiagonal (a := a) hx i hi
  rw [cubic_deriv, cubic_deriv]
  unfold cubicB cubicD
  unfold cubicAlpha at t
  simp only [Nat.add_sub_cancel] at t
  field_simp at t ⊢
  linear_combination t

end Cubic

/-- The abscissae are zero or above the precision below which the shift of a polynomial is skipped. -/
def Spec.NotTiny (x : List ℝ) : Prop := ∀ i < x.length, x.getD i 0 = 0 ∨ 1 / 10 ^ 9 < |x.getD i 0|

private lemma shift_val (p : Poly) (s t : ℝ) (hs : s = 0 ∨ 1 / 10 ^ 9 < |s|) :
    polyVal (p.shift (-s)) t = polyVal p (t - s) := by
  rcases hs with rfl | hs
  · unfold Poly.shift
    rw [if_neg]
    · simp
    · rw [neg_zero, abs_zero]; unfold shiftPrecision; norm_num
  · rw [C49_shift_partial p (-s) t (by rwa [abs_neg])]
    congr 1

lemma cubic_regular {x y : List ℝ} (h : Nodes x y) : RegularSpline (Spline.cubic x y) := by
  have h2 := h.two
  refine ⟨?_, ?_, ?_, ?_, ?_⟩
  · simp only [Spline.cubic]; omega
  · simp [Spline.cubic]
  · simp only [Spline.cubic]; omega
  · intro i j hij hj
    simp only [Spline.cubic] at *
    exact h.increasing i j hij (by omega)
  · intro p hp
    simp only [Spline.cubic, List.mem_map] at hp
    obtain ⟨i, _, rfl⟩ := hp
    intro h0
    have := C49_shift_degree (cubicPiece (x.getD · 0) (y.getD · 0) (x.length - 1) i) (-x.getD i 0)
    rw [h0] at this
    simp [cubicPiece] at this

private lemma cubic_piece_val {x y : List ℝ} (ht : NotTiny x) (i : ℕ) (hi : i < x.length - 1) (t : ℝ) :
    polyVal ((Spline.cubic x y).pieces.getD i []) t =
      polyVal (cubicPiece (x.getD · 0) (y.getD · 0) (x.length - 1) i) (t - x.getD i 0) := by
  have e : (Spline.cubic x y).pieces.getD i [] = _ := getD_map_range _ _ _ hi
  rw [e]
  exact shift_val _ _ _ (ht i (by omega))

private lemma increasing_fun {x y : List ℝ} (h : Nodes x y) : ∀ i, i < x.length - 1 → x.getD i 0 < x.getD (i + 1) 0 :=
  fun i hi => h.increasing i (i + 1) (by omega) (by omega)

/-- C72: at the nodes a cubic spline has the given ordinates. Missing are abscissae within 1e-9 of zero,
see `C72_cubic_tiny`. -/
theorem C72_cubic_nodes_partial (x y : List ℝ) (h : Nodes x y) (ht : NotTiny x) (i : ℕ) (hi : i < x.length) :
    (Spline.cubic x y).evaluate (x.getD i 0) = some (y.getD i 0) := by
  have hr := cubic_regular h
  have h2 := h.two
  have hk : (Spline.cubic x y).knots = x := rfl
  cases i with
  | zero =>
    rw [eval_first hr _ (by rw [hk]; exact (h.increasing 0 1 one_pos (by omega)).le), cubic_piece_val ht 0 (by omega),
      sub_self, cubic_val]
    simp
  | succ i =>
    rw [eval_in hr i (by simp only [Spline.cubic]; omega) _ (by rw [hk]; exact h.increasing _ _ (by omega) hi)
      (by rw [hk]), cubic_piece_val ht i (by omega)]
    exact congrArg some (join0 (increasing_fun h) i (by omega))

/-- C72 fails for tiny abscissae: with the nodes (1e-9, 0) and (1, 1) the value at the second node is not
the given 1, because the shift of the piece is skipped. -/
theorem C72_cubic_tiny : ∃ v, (Spline.cubic [1 / 10 ^ 9, 1] [0, 1]).evaluate 1 = some v ∧ v ≠ 1 := by
  have hN : Nodes [1 / 10 ^ 9, 1] [0, 1] := by
    refine ⟨by simp, by simp, ?_⟩
    intro i j hij hj
    simp only [List.length_cons, List.length_nil] at hj
    interval_cases j
    all_goals interval_cases i
    norm_num [List.getD]
  refine ⟨_, eval_first (cubic_regular hN) 1 (by simp [Spline.cubic]), ?_⟩
  have e : (Spline.cubic [1 / 10 ^ 9, 1] [0, 1]).pieces.getD 0 [] = _ := getD_map_range _ _ _ (by simp)
  rw [e]
  have hs : ∀ p : Poly, p.shift (-(1 / 10 ^ 9)) = p := by
    intro p
    unfold Poly.shift
    rw [if_neg]
    unfold shiftPrecision
    rw [abs_neg, abs_of_pos (by positivity)]
    exact lt_irrefl _
  simp only [List.getD_cons_zero, hs]
  rw [cubic_val]
  simp only [cubicB, cubicC, cubicD, cubicH, cubicBack, List.length_cons, List.length_nil]
  norm_num [cubicBack, cubicForward]

/-- C73: neighbouring pieces of a cubic spline have the same first and second derivative at the knot
between them, and the second derivative vanishes at both ends. -/
theorem C73_cubic_smooth_partial (x y : List ℝ) (h : Nodes x y) (ht : NotTiny x) :
    let piece := fun i => polyVal ((Spline.cubic x y).pieces.getD i [])
    (∀ i, i + 2 < x.length →
      deriv (piece i) (x.getD (i + 1) 0) = deriv (piece (i + 1)) (x.getD (i + 1) 0) ∧
      deriv (deriv (piece i)) (x.getD (i + 1) 0) = deriv (deriv (piece (i + 1))) (x.getD (i + 1) 0)) ∧
    deriv (deriv (piece 0)) (x.getD 0 0) = 0 ∧
    deriv (deriv (piece (x.length - 2))) (x.getD (x.length - 1) 0) = 0 := by
  intro piece
  have h2 := h.two
  have hf := increasing_fun h
  have e0 : ∀ i, i < x.length - 1 → piece i = fun t =>
      polyVal (cubicPiece (x.getD · 0) (y.getD · 0) (x.length - 1) i) (t - x.getD i 0) :=
    fun i hi => funext fun t => cubic_piece_val ht i hi t
  have e1 : ∀ i, i < x.length - 1 → deriv (piece i) = fun t =>
      deriv (polyVal (cubicPiece (x.getD · 0) (y.getD · 0) (x.length - 1) i)) (t - x.getD i 0) := by
    intro i hi
    rw [e0 i hi]
    funext t
    exact deriv_comp_sub_const ..
  have e2 : ∀ i, i < x.length - 1 → deriv (deriv (piece i)) = fun t =>
      deriv (deriv (polyVal (cubicPiece (x.getD · 0) (y.getD · 0) (x.length - 1) i))) (t - x.getD i 0) := by
    intro i hi
    rw [e1 i hi]
    funext t
    exact deriv_comp_sub_const ..
  refine ⟨?_, ?_, ?_⟩
  · intro i hi
    constructor
    · rw [e1 i (by omega), e1 (i + 1) (by omega)]
      simp only [sub_self]
      exact join1 hf i (by omega)
    · rw [e2 i (by omega), e2 (i + 1) (by omega)]
      simp only [sub_self]
      rw [show x.getD (i + 1) 0 - x.getD i 0 = cubicH (x.getD · 0) i from rfl, join2 hf i (by omega), cubic_deriv2]
      simp
  · rw [e2 0 (by omega)]
    simp only [sub_self]
    rw [cubic_deriv2, c_first (by omega)]
    simp
  · rw [e2 _ (by omega)]
    simp only
    have hc := join2 (a := (y.getD · 0)) hf (x.length - 2) (by omega)
    rw [show x.length - 2 + 1 = x.length - 1 by omega, c_last, mul_zero] at hc
    have e : cubicH (x.getD · 0) (x.length - 2) = x.getD (x.length - 1) 0 - x.getD (x.length - 2) 0 := by
      unfold cubicH
      rw [show x.length - 2 + 1 = x.length - 1 by omega]
    rw [← e]
    exact hc

example : Nodes [-1, 0, 2] [5, 7, 4] ∧ NotTiny [-1, 0, 2] := by
  refine ⟨⟨by simp, by simp, ?_⟩, ?_⟩
  · intro i j hij hj
    simp only [List.length_cons, List.length_nil] at hj
    interval_cases j <;> interval_cases i <;> norm_num [List.getD]
  · intro i hi
    simp only [List.length_cons, List.length_nil] at hi
    interval_cases i
    · right; norm_num [List.getD, abs_of_pos]
    · left; rfl
    · right; norm_num [List.getD, abs_of_pos]

/-! ## Antiderivative -/

private lemma polyVal_continuous (p : Poly) : Continuous (polyVal p) :=
  continuous_iff_continuousAt.2 fun x => (C49_derivative p x).continuousAt

private lemma anti_diff (p : Poly) (c a b : ℝ) :
    polyVal (p.antiderivative c) b - polyVal (p.antiderivative c) a = ∫ t in a..b, polyVal p t :=
  (intervalIntegral.integral_eq_sub_of_hasDerivAt (fun t _ => (C49_antiderivative p c t).2.2.1)
    ((polyVal_continuous p).intervalIntegrable _ _)).symm

private lemma anti_const (p : Poly) (c a : ℝ) :
    polyVal (p.antiderivative c) a = polyVal (p.antiderivative 0) a + c := by
  have h1 := anti_diff p c 0 a
  have h2 := anti_diff p 0 0 a
  have h3 := (C49_antiderivative p c 0).2.1
  have h4 := (C49_antiderivative p 0 0).2.1
  linarith

private lemma antiPiece_eq (p : Poly) (a b v : ℝ) :
    ∃ c, antiPiece p a b v = some (p.antiderivative c, polyVal (p.antiderivative c) b) ∧
      polyVal (p.antiderivative c) a = v := by
  refine ⟨v - polyVal (p.antiderivative 0) a, ?_, ?_⟩
  · simp only [antiPiece, (C49_antiderivative p _ _).1, Option.bind_eq_bind, Option.bind_some, Option.pure_def]
    have := anti_const p (v - polyVal (p.antiderivative 0) a) a
    congr 2
    linarith
  · rw [anti_const]; ring

private lemma antiGo_eq {s : Spline} (h : RegularSpline s) (k i : ℕ) (v : ℝ) (hki : i + k = s.n) :
    ∃ qs, s.antiGo k i v = some qs ∧ qs.length = k ∧
      (∀ j < k, ∃ c, qs.getD j [] = (s.pieces.getD (i + j) []).antiderivative c) ∧
      (0 < k → polyVal (qs.getD 0 []) (s.knots.getD i 0) = v) ∧
      (∀ j, j + 1 < k → polyVal (qs.getD (j + 1) []) (s.knots.getD (i + (j + 1)) 0) =
        polyVal (qs.getD j []) (s.knots.getD (i + (j + 1)) 0)) := by
  induction k generalizing i v with
  | zero => exact ⟨[], rfl, rfl, by simp, by simp, by simp⟩
  | succ k ih =>
    obtain ⟨c, hc, hv⟩ := antiPiece_eq (s.pieces.getD i []) (s.knots.getD i 0) (s.knots.getD (i + 1) 0) v
    obtain ⟨qs, h1, h2, h3, h4, h5⟩ := ih (i + 1)
      (polyVal ((s.pieces.getD i []).antiderivative c) (s.knots.getD (i + 1) 0)) (by omega)
    refine ⟨(s.pieces.getD i []).antiderivative c :: qs, ?_, by simp [h2], ?_, ?_, ?_⟩
    · have hp : s.pieces[i]? = some (s.pieces.getD i []) := by
        have : i < s.pieces.length := by rw [h.pieces]; omega
        rw [List.getD_eq_getElem?_getD, List.getElem?_eq_getElem this]
        rfl
      simp only [Spline.antiGo, hp, h.knot (show i ≤ s.n by omega), h.knot (show i + 1 ≤ s.n by omega), hc, h1,
        Option.bind_eq_bind, Option.bind_some, Option.pure_def]
    · intro j hj
      cases j with
      | zero => exact ⟨c, rfl⟩
      | succ j =>
        obtain ⟨d, hd⟩ := h3 j (by omega)
        refine ⟨d, ?_⟩
        rw [List.getD_cons_succ, hd, show i + (j + 1) = i + 1 + j by omega]
    · intro _
      exact hv
    · intro j hj
      rw [List.getD_cons_succ]
      cases j with
      | zero => exact h4 (by omega)
      | succ j =>
        rw [List.getD_cons_succ, show i + (j + 1 + 1) = i + 1 + (j + 1) by omega]
        exact h5 j (by omega)

private lemma locate {s : Spline} (t : ℝ) (ht : t ≤ s.knots.getD s.n 0) :
    t ≤ s.knots.getD 0 0 ∨ ∃ i < s.n, s.knots.getD i 0 < t ∧ t ≤ s.knots.getD (i + 1) 0 := by
  have go : ∀ k ≤ s.n, t ≤ s.knots.getD k 0 →
      t ≤ s.knots.getD 0 0 ∨ ∃ i < s.n, s.knots.getD i 0 < t ∧ t ≤ s.knots.getD (i + 1) 0 := by
    intro k
    induction k with
    | zero => intro _ h; exact Or.inl h
    | succ k ih =>
      intro hk h
      rcases le_or_gt t (s.knots.getD k 0) with h' | h'
      · exact ih (by omega) h'
      · exact Or.inr ⟨k, by omega, h', h⟩
  exact go s.n le_rfl ht

/-- C74: the antiderivative of a spline is a spline on the same knots, has the given value at the first
knot, and everywhere its increase from there is the integral of the given spline, across knots and
beyond the ends. -/
theorem C74_antiderivative (s : Spline) (h : RegularSpline s) (c : ℝ) :
    ∃ s', s.antiderivative c = some s' ∧ RegularSpline s' ∧ s'.knots = s.knots ∧
      s'.evaluate (s.knots.getD 0 0) = some c ∧
      ∀ t, s'.evaluate t = some (c + ∫ u in s.knots.getD 0 0..t, (s.evaluate u).getD 0) := by
  obtain ⟨qs, h1, h2, h3, h4, h5⟩ := antiGo_eq h s.n 0 c (by omega)
  simp only [Nat.zero_add] at h3 h4 h5
  have hdrop : s.pieces.drop s.n = [] := by rw [List.drop_eq_nil_iff, h.pieces]
  refine ⟨{ s with pieces := qs }, ?_, ?_, rfl, ?_⟩
  · simp [Spline.antiderivative, h1, hdrop]
  · refine ⟨h.pos, h2, h.knots, h.increasing, ?_⟩
    intro p hp
    obtain ⟨j, hj, rfl⟩ := List.getElem_of_mem hp
    obtain ⟨d, hd⟩ := h3 j (by simpa [h2] using hj)
    have : qs[j] = qs.getD j [] := by
      rw [List.getD_eq_getElem?_getD, List.getElem?_eq_getElem (by simpa using hj)]; rfl
    simp only [this, hd]
    intro h0
    have := (C49_antiderivative (s.pieces.getD j []) d 0).1
    rw [h0] at this
    simp [Poly.evaluate] at this
  have hr' : RegularSpline { s with pieces := qs } := by
    refine ⟨h.pos, h2, h.knots, h.increasing, ?_⟩
    intro p hp
    obtain ⟨j, hj, rfl⟩ := List.getElem_of_mem hp
    obtain ⟨d, hd⟩ := h3 j (by simpa [h2] using hj)
    have : qs[j] = qs.getD j [] := by
      rw [List.getD_eq_getElem?_getD, List.getElem?_eq_getElem (by simpa using hj)]; rfl
    simp only [this, hd]
    intro h0
    have := (C49_antiderivative (s.pieces.getD j []) d 0).1
    rw [h0] at this
    simp [Poly.evaluate] at this
  have K := h.increasing
  -- the integral over a part of one piece
  have part : ∀ i < s.n, ∀ t, s.knots.getD i 0 ≤ t → (i + 1 = s.n ∨ t ≤ s.knots.getD (i + 1) 0) →
      IntervalIntegrable (fun u => (s.evaluate u).getD 0) MeasureTheory.volume (s.knots.getD i 0) t ∧
      (∫ u in s.knots.getD i 0..t, (s.evaluate u).getD 0) =
        polyVal (qs.getD i []) t - polyVal (qs.getD i []) (s.knots.getD i 0) := by
    intro i hi t ht1 ht2
    have hS : ∀ u ∈ Set.uIoc (s.knots.getD i 0) t, polyVal (s.pieces.getD i []) u = (s.evaluate u).getD 0 := by
      intro u hu
      rw [Set.uIoc_of_le ht1] at hu
      rcases le_or_gt u (s.knots.getD (i + 1) 0) with hu2 | hu2
      · rw [eval_in h i hi u hu.1 hu2]
        rfl
      · rcases ht2 with e | ht2
        · rw [e] at hu2
          rw [eval_last h u hu2, show s.n - 1 = i by omega]
          rfl
        · exact absurd (hu.2.trans ht2) (not_le.2 hu2)
    constructor
    · exact ((polyVal_continuous (s.pieces.getD i [])).intervalIntegrable _ _).congr hS
    · obtain ⟨d, hd⟩ := h3 i hi
      rw [hd, anti_diff]
      exact (intervalIntegral.integral_congr_ae (Filter.Eventually.of_forall hS)).symm
  have main : ∀ i < s.n,
      IntervalIntegrable (fun u => (s.evaluate u).getD 0) MeasureTheory.volume (s.knots.getD 0 0) (s.knots.getD i 0) ∧
      c + (∫ u in s.knots.getD 0 0..s.knots.getD i 0, (s.evaluate u).getD 0) =
        polyVal (qs.getD i []) (s.knots.getD i 0) := by
    intro i
    induction i with
    | zero =>
      intro hi
      exact ⟨by simp, by simp [← h4 hi]⟩
    | succ i ih =>
      intro hi
      obtain ⟨i1, i2⟩ := ih (by omega)
      obtain ⟨p1, p2⟩ := part i (by omega) _ (K i (i + 1) (by omega) (by omega)).le (Or.inr le_rfl)
      refine ⟨i1.trans p1, ?_⟩
      rw [← intervalIntegral.integral_add_adjacent_intervals i1 p1, p2, h5 i hi]
      linarith
  have ev : ∀ t, ({ s with pieces := qs } : Spline).evaluate t =
      some (c + ∫ u in s.knots.getD 0 0..t, (s.evaluate u).getD 0) := by
    intro t
    rcases le_or_gt t (s.knots.getD s.n 0) with ht2 | ht2
    · rcases locate t ht2 with h0 | ⟨i, hi, hi1, hi2⟩
      · rw [eval_first hr' t (h0.trans (K 0 1 one_pos h.pos).le)]
        have hS : ∀ u ∈ Set.uIoc (s.knots.getD 0 0) t, polyVal (s.pieces.getD 0 []) u = (s.evaluate u).getD 0 := by
          intro u hu
          rw [Set.uIoc_of_ge h0] at hu
          rw [eval_first h u (hu.2.trans (K 0 1 one_pos h.pos).le)]
          rfl
        have e := intervalIntegral.integral_congr_ae (μ := MeasureTheory.volume) (Filter.Eventually.of_forall hS)
        obtain ⟨d, hd⟩ := h3 0 h.pos
        have e' := anti_diff (s.pieces.getD 0 []) d (s.knots.getD 0 0) t
        rw [← hd] at e'
        rw [← e, ← e', h4 h.pos]
        exact congrArg some (by simp)
      · obtain ⟨m1, m2⟩ := main i hi
        obtain ⟨p1, p2⟩ := part i hi t hi1.le (Or.inr hi2)
        rw [eval_in hr' i hi t hi1 hi2, ← intervalIntegral.integral_add_adjacent_intervals m1 p1, p2]
        congr 1
        linarith
    · have hp := h.pos
      have hm : s.n - 1 < s.n := by omega
      have hm1 : s.n - 1 + 1 = s.n := by omega
      obtain ⟨m1, m2⟩ := main (s.n - 1) hm
      obtain ⟨p1, p2⟩ := part (s.n - 1) hm t ((h.mono (by omega) le_rfl).trans ht2.le) (Or.inl hm1)
      rw [eval_last hr' t ht2, ← intervalIntegral.integral_add_adjacent_intervals m1 p1, p2]
      congr 1
      simp only
      linarith
  refine ⟨?_, ev⟩
  rw [ev]
  simp

/-- C74: a regular spline can be evaluated and integrated everywhere. -/
theorem C74_integrable (s : Spline) (h : RegularSpline s) (a b : ℝ) :
    IntervalIntegrable (fun u => (s.evaluate u).getD 0) MeasureTheory.volume a b ∧ ∀ t, ∃ v, s.evaluate t = some v := by
  have K := h.increasing
  have left : ∀ t ≤ s.knots.getD 0 0,
      IntervalIntegrable (fun u => (s.evaluate u).getD 0) MeasureTheory.volume (s.knots.getD 0 0) t := by
    intro t ht
    apply ((polyVal_continuous (s.pieces.getD 0 [])).intervalIntegrable _ _).congr
    intro u hu
    rw [Set.uIoc_of_ge ht] at hu
    simp only [eval_first h u (hu.2.trans (K 0 1 one_pos h.pos).le), Option.getD_some]
  have knot : ∀ i ≤ s.n,
      IntervalIntegrable (fun u => (s.evaluate u).getD 0) MeasureTheory.volume (s.knots.getD 0 0) (s.knots.getD i 0) := by
    intro i
    induction i with
    | zero => intro _; simp
    | succ i ih =>
      intro hi
      refine (ih (by omega)).trans ?_
      apply ((polyVal_continuous (s.pieces.getD i [])).intervalIntegrable _ _).congr
      intro u hu
      rw [Set.uIoc_of_le (K i (i + 1) (by omega) hi).le] at hu
      simp only [eval_in h i hi u hu.1 hu.2, Option.getD_some]
  have all : ∀ t, IntervalIntegrable (fun u => (s.evaluate u).getD 0) MeasureTheory.volume (s.knots.getD 0 0) t := by
    intro t
    rcases le_or_gt t (s.knots.getD s.n 0) with ht | ht
    · rcases le_or_gt t (s.knots.getD 0 0) with h0 | h0
      · exact left t h0
      · exact (knot s.n le_rfl).mono_set (by
          rw [Set.uIcc_of_le h0.le, Set.uIcc_of_le (h.mono (Nat.zero_le _) le_rfl)]
          exact Set.Icc_subset_Icc le_rfl ht)
    · refine (knot s.n le_rfl).trans ?_
      apply ((polyVal_continuous (s.pieces.getD (s.n - 1) [])).intervalIntegrable _ _).congr
      intro u hu
      rw [Set.uIoc_of_le ht.le] at hu
      simp only [eval_last h u hu.1, Option.getD_some]
  refine ⟨(all a).symm.trans (all b), ?_⟩
  intro t
  rcases le_or_gt t (s.knots.getD s.n 0) with ht | ht
  · rcases locate t ht with h0 | ⟨i, hi, hi1, hi2⟩
    · exact ⟨_, eval_first h t (h0.trans (K 0 1 one_pos h.pos).le)⟩
    · exact ⟨_, eval_in h i hi t hi1 hi2⟩
  · exact ⟨_, eval_last h t ht⟩

/-- The hypothesis is met by splines with several pieces. -/
example : RegularSpline (Spline.linear [0, 1, 3] [5, 7, 4]) := by
  apply linear_regular
  refine ⟨by simp, by simp, ?_⟩
  intro i j hij hj
  simp only [List.length_cons, List.length_nil] at hj
  interval_cases j <;> interval_cases i <;> norm_num [List.getD]

/-! ## Derivative -/

/-- C75 fails: `Derivative` changes nothing, whatever the spline. -/
theorem C75_derivative_no_effect (s : Spline) (x : ℝ) : s.derivative.evaluate x = s.evaluate x := by
  have : s.derivative = s := by simp [Spline.derivative]
  rw [this]

/-- C75 fails: after `Derivative` the line from (0, 0) to (1, 2) has the value 1 at 1/2, its slope is 2. -/
theorem C75_derivative_wrong : (Spline.linear [0, 1] [0, 2]).derivative.evaluate (1 / 2) = some 1 ∧
    ∀ t ∈ Set.Icc (0 : ℝ) 1, (Spline.linear [0, 1] [0, 2]).evaluate t = some (2 * t) := by
  have hN : Nodes [0, 1] [0, 2] := by
    refine ⟨by simp, by simp, ?_⟩
    intro i j hij hj
    simp only [List.length_cons, List.length_nil] at hj
    interval_cases j
    all_goals interval_cases i
    norm_num [List.getD]
  have e : ∀ t ∈ Set.Icc (0 : ℝ) 1, (Spline.linear [0, 1] [0, 2]).evaluate t = some (2 * t) := by
    intro t ht
    rw [C72_linear _ _ hN 0 (by simp) t (by simpa using ht.1) (by simpa using ht.2)]
    simp
  refine ⟨?_, e⟩
  rw [C75_derivative_no_effect, e _ (by constructor <;> norm_num)]
  norm_num

/-! ## Splines from polynomials -/

/-- C76: a spline constructed from polynomials and one knot more has, between the knots, the value of the
polynomial belonging there. Missing are the arguments beyond the last knot and the antiderivative, see
`C76_beyond_last_knot` and `C76_antiderivative`. -/
theorem C76_between_knots_partial (pieces : List Poly) (knots : List ℝ) (h : RegularSpline ⟨pieces, knots, pieces.length⟩)
    (i : ℕ) (hi : i < pieces.length) (t : ℝ) (h1 : knots.getD i 0 < t) (h2 : t ≤ knots.getD (i + 1) 0) :
    (Spline.ofPolynoms pieces knots).evaluate t = some (polyVal (pieces.getD i []) t) := by
  have hk : knots.length = pieces.length + 1 := h.knots
  have go : ∀ k j, j + k = knots.length → j ≤ i →
      (Spline.ofPolynoms pieces knots).evaluateGo t k j = some (polyVal (pieces.getD i []) t) := by
    intro k
    induction k with
    | zero => intro j h1 h2; omega
    | succ k ih =>
      intro j hj hji
      have e1 : (Spline.ofPolynoms pieces knots).knots[j]? = some (knots.getD j 0) :=
        h.knot (show j ≤ pieces.length by omega)
      have e2 : (Spline.ofPolynoms pieces knots).knots[j + 1]? = some (knots.getD (j + 1) 0) :=
        h.knot (show j + 1 ≤ pieces.length by omega)
      have m1 : knots.getD j 0 ≤ knots.getD i 0 := h.mono hji hi.le
      simp only [Spline.evaluateGo, e1, e2]
      rw [if_pos (by linarith)]
      rcases hji.eq_or_lt with rfl | hlt
      · rw [if_pos h2]
        exact h.piece hi t
      · have m2 : knots.getD (j + 1) 0 ≤ knots.getD i 0 := h.mono (show j + 1 ≤ i by omega) hi.le
        rw [if_neg (by linarith)]
        exact ih (j + 1) (by omega) (by omega)
  exact go knots.length 0 (by omega) (by omega)

/-- C76 fails: beyond the last knot such a spline reads outside of its vectors. -/
theorem C76_beyond_last_knot (pieces : List Poly) (knots : List ℝ) (h : RegularSpline ⟨pieces, knots, pieces.length⟩)
    (t : ℝ) (ht : knots.getD pieces.length 0 < t) : (Spline.ofPolynoms pieces knots).evaluate t = none := by
  have hk : knots.length = pieces.length + 1 := h.knots
  have go : ∀ k j, j + k = knots.length → 0 < k → (Spline.ofPolynoms pieces knots).evaluateGo t k j = none := by
    intro k
    induction k with
    | zero => intro j _ h0; omega
    | succ k ih =>
      intro j hj _
      have e1 : (Spline.ofPolynoms pieces knots).knots[j]? = some (knots.getD j 0) :=
        h.knot (show j ≤ pieces.length by omega)
      have m1 : knots.getD j 0 ≤ knots.getD pieces.length 0 := h.mono (show j ≤ pieces.length by omega) le_rfl
      simp only [Spline.evaluateGo, e1]
      rw [if_pos (by linarith)]
      by_cases hl : j + 1 ≤ pieces.length
      · have e2 : (Spline.ofPolynoms pieces knots).knots[j + 1]? = some (knots.getD (j + 1) 0) := h.knot hl
        have m2 : knots.getD (j + 1) 0 ≤ knots.getD pieces.length 0 := h.mono hl le_rfl
        simp only [e2]
        rw [if_neg (by linarith)]
        exact ih (j + 1) (by omega) (by omega)
      · have e2 : (Spline.ofPolynoms pieces knots).knots[j + 1]? = none :=
          List.getElem?_eq_none (by simp only [Spline.ofPolynoms]; omega)
        simp only [e2]
  exact go knots.length 0 (by omega) (by omega)

/-- C76 fails: the antiderivative of such a spline reads outside of its vectors. -/
theorem C76_antiderivative (pieces : List Poly) (knots : List ℝ) (h : RegularSpline ⟨pieces, knots, pieces.length⟩)
    (c : ℝ) : (Spline.ofPolynoms pieces knots).antiderivative c = none := by
  have hk : knots.length = pieces.length + 1 := h.knots
  have go : ∀ k j v, j + k = knots.length → 0 < k → (Spline.ofPolynoms pieces knots).antiGo k j v = none := by
    intro k
    induction k with
    | zero => intro j _ _ h0; omega
    | succ k ih =>
      intro j v hj _
      simp only [Spline.antiGo, Option.bind_eq_bind, Option.pure_def, Option.bind_eq_none_iff]
      intro p hp a _ b _ q _ qs hqs
      exfalso
      have hj' : j < pieces.length := (List.getElem?_eq_some_iff.1 hp).1
      have := ih (j + 1) q.2 (by omega) (by omega)
      rw [this] at hqs
      simp at hqs
  have : (Spline.ofPolynoms pieces knots).antiGo knots.length 0 c = none := go _ _ _ (by omega) (by omega)
  unfold Spline.antiderivative
  rw [show (Spline.ofPolynoms pieces knots).n = knots.length from rfl, this]
  rfl

example : RegularSpline ⟨[[1], [0, 1]], [0, 1, 3], 2⟩ := by
  refine ⟨by simp, by simp, by simp, ?_, by simp⟩
  intro i j hij hj
  simp only at hj
  interval_cases j <;> interval_cases i <;> norm_num [List.getD]

end Proposal
