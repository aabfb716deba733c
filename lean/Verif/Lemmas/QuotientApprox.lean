import Verif.Lemmas.PolyCert
import Mathlib.Analysis.SpecialFunctions.Log.Deriv
import Mathlib.Analysis.SpecialFunctions.ExpDeriv
import Mathlib.Analysis.Calculus.Deriv.Inv
import Mathlib.Analysis.Calculus.Deriv.Pow
import Mathlib.Analysis.Calculus.MeanValue

/-!
# Quotients of polynomials that approximate the normal quantile

For a quotient `x = N / D` of polynomials, `log x' - x² / 2` has the derivative `x'' / x' - x x'`, a quotient of polynomials. It vanishes
for the exact quantile as a function of the probability; for the approximation the certificates bound it.
-/

namespace Proposal.IntPoly

/-- The numerator of the first derivative; the denominator is `D ^ 2`. -/
def qP (N D : List ℤ) : List ℤ := sub (mul (der N) D) (mul N (der D))

/-- The numerator of the second derivative; the denominator is `D ^ 3`. -/
def qS (N D : List ℤ) : List ℤ := sub (mul (der (qP N D)) D) (smul 2 (mul (qP N D) (der D)))

/-- Numerator and denominator of `x'' / x' - x x'`. -/
def qNum (N D : List ℤ) : List ℤ := sub (mul (qS N D) (mul D D)) (mul N (mul (qP N D) (qP N D)))
def qDen (N D : List ℤ) : List ℤ := mul (mul D (mul D D)) (qP N D)

/-- Numerator and denominator of `x'' / x' - x x' + q - 1 / q`, both times -1. -/
def tNum (N D : List ℤ) : List ℤ := add (mul [0, 1] (qNum N D)) (mul [-1, 0, 1] (qDen N D))
def tDen (N D : List ℤ) : List ℤ := mul [0, -1] (qDen N D)

/-- `|p| ≤ k / m * q` between `a / d` and `b / d`. -/
def within (k m : ℤ) (p q : List ℤ) (a b d : ℤ) : Bool := certify a b d (sub (smul k q) (smul m p)) && certify a b d (add (smul k q) (smul m p))

lemma within_le {k m : ℤ} {p q : List ℤ} {a b d : ℤ} (h : within k m p q a b d = true) (hd : 0 < d) (hab : a < b) {x : ℝ}
    (h1 : (a : ℝ) / d ≤ x) (h2 : x ≤ (b : ℝ) / d) (hm : 0 < m) : |ev x p| * m ≤ k * ev x q := by
  have hm' : (0 : ℝ) < m := by exact_mod_cast hm
  simp only [within, Bool.and_eq_true] at h
  have e1 := certified h.1 hd hab h1 h2
  have e2 := certified h.2 hd hab h1 h2
  rw [ev_sub, ev_smul, ev_smul] at e1
  rw [ev_add, ev_smul, ev_smul] at e2
  rcases abs_cases (ev x p) with ⟨e, -⟩ | ⟨e, -⟩ <;> rw [e] <;> linarith

lemma quot_deriv (N D : List ℤ) {q : ℝ} (hD : ev q D ≠ 0) : HasDerivAt (fun y => ev y N / ev y D) (ev q (qP N D) / ev q D ^ 2) q := by
  refine ((ev_der q N).div (ev_der q D) hD).congr_deriv ?_
  simp only [qP, ev_sub, ev_mul]

lemma quot_deriv2 (N D : List ℤ) {q : ℝ} (hD : ev q D ≠ 0) :
    HasDerivAt (fun y => ev y (qP N D) / ev y D ^ 2) (ev q (qS N D) / ev q D ^ 3) q := by
  refine ((ev_der q (qP N D)).div ((ev_der q D).pow 2) (pow_ne_zero 2 hD)).congr_deriv ?_
  simp only [qS, ev_sub, ev_mul, ev_smul, Pi.pow_apply]
  push_cast
  field_simp

/-- The logarithm of the derivative, minus half of the square. -/
noncomputable def qLog (N D : List ℤ) (q : ℝ) : ℝ := Real.log (ev q (qP N D) / ev q D ^ 2) - (ev q N / ev q D) ^ 2 / 2

lemma qLog_deriv (N D : List ℤ) {q : ℝ} (hD : ev q D ≠ 0) (hP : ev q (qP N D) ≠ 0) :
    HasDerivAt (qLog N D) (ev q (qNum N D) / ev q (qDen N D)) q := by
  have h1 := (quot_deriv2 N D hD).log (div_ne_zero hP (pow_ne_zero 2 hD))
  have h2 := ((quot_deriv N D hD).pow 2).div_const 2
  refine (h1.sub h2).congr_deriv ?_
  simp only [qNum, qDen, ev_sub, ev_mul]
  push_cast
  field_simp

/-- The same for a quotient of the root of the logarithm. -/
noncomputable def tLog (N D : List ℤ) (q : ℝ) : ℝ := qLog N D q + q ^ 2 / 2 - Real.log q

lemma tLog_deriv (N D : List ℤ) {q : ℝ} (hq : q ≠ 0) (hD : ev q D ≠ 0) (hP : ev q (qP N D) ≠ 0) :
    HasDerivAt (tLog N D) (-(ev q (tNum N D) / ev q (tDen N D))) q := by
  have h1 := ((qLog_deriv N D hD hP).add (((hasDerivAt_id q).pow 2).div_const 2)).sub (Real.hasDerivAt_log hq)
  refine h1.congr_deriv ?_
  have hden : ev q (qDen N D) ≠ 0 := by
    simp only [qDen, ev_mul]
    exact mul_ne_zero (mul_ne_zero hD (mul_ne_zero hD hD)) hP
  have e1 : ev q (tDen N D) = -(q * ev q (qDen N D)) := by
    simp only [tDen, ev_mul, ev]
    push_cast
    ring
  have e2 : ev q (tNum N D) = q * ev q (qNum N D) + (q ^ 2 - 1) * ev q (qDen N D) := by
    simp only [tNum, ev_add, ev_mul, ev]
    push_cast
    ring
  rw [e1, e2]
  simp only [id]
  push_cast
  field_simp
  ring

/-- The mean value theorem. -/
lemma step_le {f f' : ℝ → ℝ} {a b ε : ℝ} (hf : ∀ q ∈ Set.Icc a b, HasDerivAt f (f' q) q) (hb : ∀ q ∈ Set.Icc a b, |f' q| ≤ ε) {q r : ℝ}
    (hq : q ∈ Set.Icc a b) (hr : r ∈ Set.Icc a b) : |f r - f q| ≤ ε * |r - q| := by
  have := (convex_Icc a b).norm_image_sub_le_of_norm_hasDerivWithin_le (f := f) (f' := f') (C := ε)
    (fun x hx => (hf x hx).hasDerivWithinAt) (fun x hx => hb x hx) hq hr
  simpa [Real.norm_eq_abs] using this

lemma abs_div_le_of {x y k m : ℝ} (hm : 0 < m) (hy : 0 < y) (h : |x| * m ≤ k * y) : |x / y| ≤ k / m := by
  rw [abs_div, abs_of_pos hy, div_le_div_iff₀ hy hm]
  exact h

lemma qLog_step {N D : List ℤ} {k m a b d : ℤ} (h : within k m (qNum N D) (qDen N D) a b d = true) (hd : 0 < d) (hab : a < b) (hm : 0 < m)
    (hD : ∀ q, (a : ℝ) / d ≤ q → q ≤ b / d → 0 < ev q D) (hP : ∀ q, (a : ℝ) / d ≤ q → q ≤ b / d → 0 < ev q (qP N D)) {q r : ℝ}
    (hq1 : (a : ℝ) / d ≤ q) (hq2 : q ≤ b / d) (hr1 : (a : ℝ) / d ≤ r) (hr2 : r ≤ b / d) : |qLog N D r - qLog N D q| ≤ k / m * |r - q| := by
  refine step_le (fun x hx => qLog_deriv N D (hD x hx.1 hx.2).ne' (hP x hx.1 hx.2).ne') (fun x hx => ?_) ⟨hq1, hq2⟩ ⟨hr1, hr2⟩
  refine abs_div_le_of (by exact_mod_cast hm) ?_ (within_le h hd hab hx.1 hx.2 hm)
  have h1 := hD x hx.1 hx.2
  have h2 := hP x hx.1 hx.2
  simp only [qDen, ev_mul]
  positivity

lemma tLog_step {N D : List ℤ} {k m a b d : ℤ} (h : within k m (tNum N D) (tDen N D) a b d = true) (hd : 0 < d) (ha : 0 < a) (hab : a < b)
    (hm : 0 < m)
    (hD : ∀ q, (a : ℝ) / d ≤ q → q ≤ b / d → 0 < ev q D) (hP : ∀ q, (a : ℝ) / d ≤ q → q ≤ b / d → ev q (qP N D) < 0) {q r : ℝ}
    (hq1 : (a : ℝ) / d ≤ q) (hq2 : q ≤ b / d) (hr1 : (a : ℝ) / d ≤ r) (hr2 : r ≤ b / d) : |tLog N D r - tLog N D q| ≤ k / m * |r - q| := by
  have hq : ∀ x : ℝ, (a : ℝ) / d ≤ x → 0 < x := fun x hx => lt_of_lt_of_le (div_pos (by exact_mod_cast ha) (by exact_mod_cast hd)) hx
  refine step_le (fun x hx => tLog_deriv N D (hq x hx.1).ne' (hD x hx.1 hx.2).ne' (hP x hx.1 hx.2).ne) (fun x hx => ?_) ⟨hq1, hq2⟩ ⟨hr1, hr2⟩
  rw [abs_neg]
  refine abs_div_le_of (by exact_mod_cast hm) ?_ (within_le h hd hab hx.1 hx.2 hm)
  have h1 := hD x hx.1 hx.2
  have h2 := hP x hx.1 hx.2
  have h3 := hq x hx.1
  simp only [tDen, qDen, ev_mul, ev]
  push_cast
  have h4 : 0 < x * (ev x D * (ev x D * ev x D)) := by positivity
  nlinarith

end Proposal.IntPoly
