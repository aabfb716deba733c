import Verif.Lemmas.NormalCdf
import Verif.Lemmas.QuotientApprox
import Mathlib.Analysis.Complex.Exponential
import Mathlib.Analysis.Complex.ExponentialBounds

/-! # Halley's method for the normal quantile -/

namespace Proposal
open Spec IntPoly

lemma density_add (x s : ℝ) : density (x + s) = density x * Real.exp (-(x * s) - s ^ 2 / 2) := by
  unfold density
  rw [div_mul_eq_mul_div, ← Real.exp_add]
  congr 2
  ring

lemma halley_num {X U c : ℝ} (U0 : 0 ≤ U) (c0 : 0 < c) (h1 : U ≤ 1 / 1000) (c1 : c ≤ 1001 / 1000) :
    ((X * c + U ^ 2 * c ^ 2 / 2) ^ 2 + U ^ 2 * c ^ 2 / 2) * c + X ^ 2 * c ^ 2 / 4 ≤ 3 * X ^ 2 + U ^ 2 := by
  have k1 : (X * c + U ^ 2 * c ^ 2 / 2) ^ 2 ≤ 2 * (X * c) ^ 2 + 2 * (U ^ 2 * c ^ 2 / 2) ^ 2 := by
    linarith [sq_nonneg (X * c - U ^ 2 * c ^ 2 / 2)]
  have k2 : c ^ 2 ≤ 101 / 100 := by nlinarith
  have k3 : U ^ 2 ≤ 1 / 1000 := by nlinarith
  have X2 := sq_nonneg X
  have U2 := sq_nonneg U
  have k5 : (X * c) ^ 2 ≤ X ^ 2 * (101 / 100) := by rw [mul_pow]; exact mul_le_mul_of_nonneg_left k2 X2
  have k6 : U ^ 2 * c ^ 2 ≤ U ^ 2 * (101 / 100) := mul_le_mul_of_nonneg_left k2 U2
  have k7 : X ^ 2 * c ^ 2 ≤ X ^ 2 * (101 / 100) := mul_le_mul_of_nonneg_left k2 X2
  have k4 : (U ^ 2 * c ^ 2 / 2) ^ 2 ≤ U ^ 2 * (1 / 1000) := by
    have h0 : 0 ≤ U ^ 2 * c ^ 2 / 2 := by positivity
    have : U ^ 2 * c ^ 2 / 2 ≤ U ^ 2 := by linarith
    rw [sq (U ^ 2 * c ^ 2 / 2)]
    exact mul_le_mul this (this.trans k3) h0 U2
  have k8 : (X * c + U ^ 2 * c ^ 2 / 2) ^ 2 + U ^ 2 * c ^ 2 / 2 ≤ 203 / 100 * X ^ 2 + 51 / 100 * U ^ 2 := by linarith
  have k9 := mul_le_mul k8 c1 c0.le (by positivity)
  linarith

/-- One step of Halley's method for the normal quantile. -/
lemma halley {x p u : ℝ} (hu : Phi x - p = density x * u) (h1 : |u| ≤ 1e-3) (h2 : |x * u| ≤ 1e-3) :
    1 + x * u * 0.5 ≠ 0 ∧ |Phi (x - u / (1 + x * u * 0.5)) - p| ≤ |Phi x - p| * (3 * (x * u) ^ 2 + u ^ 2) := by
  have hc : 0 < 1 + x * u * 0.5 := by
    have := abs_le.1 h2
    norm_num at this ⊢
    linarith
  refine ⟨hc.ne', ?_⟩
  set c := (1 + x * u * 0.5)⁻¹ with hcdef
  have c0 : 0 < c := inv_pos.2 hc
  have hcc : c * (1 + x * u * 0.5) = 1 := inv_mul_cancel₀ hc.ne'
  have c1 : c ≤ 1.001 := by
    have := abs_le.1 h2
    norm_num at this hcc hc ⊢
    nlinarith
  set δ := -(u * c) with hδ
  have e1 : x - u / (1 + x * u * 0.5) = x + δ := by
    rw [hδ, hcdef]
    ring
  rw [e1]
  have d0 := density_pos x
  set r : ℝ → ℝ := fun s => Phi (x + s) - density x * (s - x * s ^ 2 / 2) with hr
  have hder : ∀ s, HasDerivAt r (density (x + s) - density x * (1 - x * s)) s := fun s => by
    have a1 : HasDerivAt (fun s => Phi (x + s)) (density (x + s)) s := by
      have := (Phi_deriv (x + s)).comp s ((hasDerivAt_id s).const_add x)
      rw [mul_one] at this
      exact this
    have a2 : HasDerivAt (fun s : ℝ => s - x * s ^ 2 / 2) (1 - x * s) s := by
      have := (hasDerivAt_id s).sub ((((hasDerivAt_id s).pow 2).const_mul x).div_const 2)
      refine this.congr_deriv ?_
      simp only [id]
      push_cast
      ring
    exact a1.sub (a2.const_mul _)
  have δ1 : |δ| ≤ 1.1e-3 := by
    rw [hδ, abs_neg, abs_mul, abs_of_pos c0]
    have := abs_nonneg u
    norm_num at *
    nlinarith
  have w1 : |x * δ| ≤ 1.1e-3 := by
    rw [hδ, show x * -(u * c) = -(x * u * c) by ring, abs_neg, abs_mul, abs_of_pos c0]
    have := abs_nonneg (x * u)
    norm_num at *
    nlinarith
  set M := density x * ((|x * δ| + δ ^ 2 / 2) ^ 2 + δ ^ 2 / 2) with hM
  have hstep : |r δ - r 0| ≤ M * |δ - 0| := by
    refine step_le (a := -|δ|) (b := |δ|) (fun s _ => hder s) (fun s hs => ?_) ⟨by linarith [abs_nonneg δ], abs_nonneg δ⟩ ⟨neg_abs_le δ, le_abs_self δ⟩
    have hs1 : |s| ≤ |δ| := abs_le.2 hs
    have hs2 : s ^ 2 ≤ δ ^ 2 := sq_le_sq.2 hs1
    have hxs : |x * s| ≤ |x * δ| := by
      rw [abs_mul, abs_mul]
      exact mul_le_mul_of_nonneg_left hs1 (abs_nonneg x)
    set y := -(x * s) - s ^ 2 / 2 with hy
    have y1 : |y| ≤ |x * δ| + δ ^ 2 / 2 := by
      rw [hy]
      refine (abs_sub _ _).trans ?_
      rw [abs_neg, abs_of_nonneg (by positivity : (0 : ℝ) ≤ s ^ 2 / 2)]
      linarith
    have hδ2 : δ ^ 2 ≤ 1 := by
      rw [← sq_abs]
      have := abs_nonneg δ
      norm_num at δ1
      nlinarith
    have y2 : |y| ≤ 1 := by
      have : (1.1e-3 : ℝ) ≤ 1 / 4 := by norm_num
      linarith
    have y3 := Real.abs_exp_sub_one_sub_id_le y2
    have y4 : y ^ 2 ≤ (|x * δ| + δ ^ 2 / 2) ^ 2 := by
      rw [← sq_abs]
      exact pow_le_pow_left₀ (abs_nonneg y) y1 2
    rw [density_add, ← mul_sub, abs_mul, abs_of_pos d0, hM]
    refine mul_le_mul_of_nonneg_left ?_ d0.le
    have e3 : Real.exp y - (1 - x * s) = (Real.exp y - 1 - y) + -(s ^ 2 / 2) := by
      rw [hy]
      ring
    rw [e3]
    refine (abs_add_le _ _).trans ?_
    rw [abs_neg, abs_of_nonneg (by positivity : (0 : ℝ) ≤ s ^ 2 / 2)]
    linarith
  have e4 : Phi (x + δ) - p = (r δ - r 0) + density x * (u * (x * δ) ^ 2 / 4) := by
    have e5 : u + δ - x * δ ^ 2 / 2 = u * (x * δ) ^ 2 / 4 := by
      have e6 : δ = -u * (1 + x * δ / 2) := by
        rw [hδ]
        linear_combination (-u) * hcc
      linear_combination (1 - x * δ / 2) * e6
    have e7 : Phi x - p - density x * u = 0 := by linarith
    simp only [hr, add_zero]
    linear_combination e7 + density x * e5
  have hdu : |Phi x - p| = density x * |u| := by rw [hu, abs_mul, abs_of_pos d0]
  rw [e4, hdu]
  refine (abs_add_le _ _).trans ?_
  rw [sub_zero] at hstep
  have f1 : |density x * (u * (x * δ) ^ 2 / 4)| = density x * |u| * ((x * δ) ^ 2 / 4) := by
    rw [abs_mul, abs_of_pos d0, abs_div, abs_mul, abs_of_nonneg (sq_nonneg (x * δ)), abs_of_pos (by norm_num : (0 : ℝ) < 4)]
    ring
  have f2 : |δ| = |u| * c := by rw [hδ, abs_neg, abs_mul, abs_of_pos c0]
  have f3 : (x * δ) ^ 2 = (x * u) ^ 2 * c ^ 2 := by rw [hδ]; ring
  have f4 : |x * δ| = |x * u| * c := by rw [hδ, show x * -(u * c) = -(x * u * c) by ring, abs_neg, abs_mul, abs_of_pos c0]
  have f5 : δ ^ 2 = u ^ 2 * c ^ 2 := by rw [hδ]; ring
  rw [f1]
  refine (add_le_add_left hstep _).trans ?_
  rw [hM, f2, f3, f4, f5, ← sq_abs (x * u), ← sq_abs u]
  generalize |x * u| = X at *
  generalize hU : |u| = U at *
  have X0 : 0 ≤ X := by
    have := abs_nonneg (x * δ)
    rw [f4] at this
    exact nonneg_of_mul_nonneg_left this c0
  have U0 : 0 ≤ U := hU ▸ abs_nonneg u
  have key := halley_num (X := X) U0 c0 (by norm_num at h1 ⊢; exact h1) (by norm_num at c1 ⊢; exact c1)
  have := mul_le_mul_of_nonneg_left key (mul_nonneg d0.le U0)
  linarith

end Proposal
