import Mathlib.Probability.Distributions.Gaussian.Real
import Mathlib.Probability.CDF
import Mathlib.MeasureTheory.Integral.IntegralEqImproper
import Mathlib.Analysis.Calculus.Deriv.MeanValue
import Mathlib.Analysis.Real.Pi.Bounds

/-!
# The standard normal distribution

`Spec.Phi` is its distribution function and `Spec.erfc` the complementary error function.
-/

namespace Proposal
open ProbabilityTheory MeasureTheory Filter Topology

/-- The complementary error function. -/
noncomputable def Spec.erfc (z : ℝ) : ℝ := 2 / Real.sqrt Real.pi * ∫ t in Set.Ioi z, Real.exp (-t ^ 2)

/-- The distribution function of the standard normal distribution. -/
noncomputable def Spec.Phi (x : ℝ) : ℝ := cdf (gaussianReal 0 1) x

/-- Its density. -/
noncomputable def Spec.density (x : ℝ) : ℝ := Real.exp (-(x ^ 2 / 2)) / Real.sqrt (2 * Real.pi)

open Spec

lemma density_pos (x : ℝ) : 0 < density x := div_pos (Real.exp_pos _) (Real.sqrt_pos.2 (by positivity))

lemma density_pdf : gaussianPDFReal 0 1 = density := by
  funext x
  rw [gaussianPDFReal_def]
  simp only [density, NNReal.coe_one, mul_one, sub_zero]
  rw [neg_div, mul_comm, ← div_eq_mul_inv]

lemma density_integrable : Integrable density := density_pdf ▸ integrable_gaussianPDFReal 0 1

lemma density_continuous : Continuous density := by
  unfold density
  fun_prop

lemma Phi_eq (x : ℝ) : Phi x = ∫ t in Set.Iic x, density t := by
  unfold Phi
  rw [cdf_eq_real, Measure.real, gaussianReal_apply_eq_integral 0 one_ne_zero, density_pdf, ENNReal.toReal_ofReal]
  exact integral_nonneg fun t => (density_pos t).le

lemma Phi_deriv (x : ℝ) : HasDerivAt Phi (density x) x := by
  have h : ∀ y, Phi y = Phi x + ∫ t in x..y, density t := fun y => by
    rw [Phi_eq, Phi_eq, ← intervalIntegral.integral_Iic_sub_Iic density_integrable.integrableOn density_integrable.integrableOn]
    ring
  have h1 := (intervalIntegral.integral_hasDerivAt_right (density_integrable.intervalIntegrable (a := x) (b := x))
    (density_continuous.stronglyMeasurableAtFilter _ _) density_continuous.continuousAt).const_add (Phi x)
  exact h1.congr_of_eventuallyEq (Eventually.of_forall h)

lemma Phi_neg (x : ℝ) : Phi (-x) = 1 - Phi x := by
  have h1 : ∫ t in Set.Iic (-x), density t = ∫ t in Set.Ioi x, density t := by
    have := integral_comp_neg_Iic (-x) density
    rw [neg_neg] at this
    rw [← this]
    refine integral_congr_ae (Eventually.of_forall fun t => ?_)
    simp only [density, neg_sq]
  have h2 := intervalIntegral.integral_Iic_add_Ioi (b := x) density_integrable.integrableOn density_integrable.integrableOn
  have h3 : ∫ t, density t = 1 := density_pdf ▸ integral_gaussianPDFReal_eq_one 0 one_ne_zero
  rw [Phi_eq, Phi_eq, h1]
  linarith

lemma Phi_zero : Phi 0 = 1 / 2 := by
  have := Phi_neg 0
  rw [neg_zero] at this
  linarith

lemma Phi_erfc (x : ℝ) : 0.5 * erfc (-x / Real.sqrt 2) = Phi x := by
  have hs : 0 < Real.sqrt 2 := Real.sqrt_pos.2 (by norm_num)
  have hss : Real.sqrt 2 ^ 2 = 2 := Real.sq_sqrt (by norm_num)
  have h1 := integral_comp_mul_left_Ioi density (-x / Real.sqrt 2) hs
  rw [mul_div_cancel₀ _ hs.ne'] at h1
  have h2 : Phi x = ∫ t in Set.Ioi (-x), density t := by
    rw [Phi_eq]
    have := integral_comp_neg_Iic x density
    rw [← this]
    refine integral_congr_ae (Eventually.of_forall fun t => ?_)
    simp only [density, neg_sq]
  have h3 : ∀ t, density (Real.sqrt 2 * t) = Real.exp (-t ^ 2) / Real.sqrt (2 * Real.pi) := fun t => by
    unfold density
    rw [mul_pow, hss]
    congr 2
    ring
  simp only [h3] at h1
  rw [integral_div] at h1
  rw [h2, erfc]
  have h4 : Real.sqrt (2 * Real.pi) = Real.sqrt 2 * Real.sqrt Real.pi := Real.sqrt_mul (by norm_num) _
  have h5 : 0 < Real.sqrt Real.pi := Real.sqrt_pos.2 Real.pi_pos
  rw [h4] at h1
  simp only [smul_eq_mul] at h1
  field_simp at h1
  rw [neg_div, h1]
  field_simp
  norm_num

lemma erfc_neg (z : ℝ) : erfc (-z) = 2 - erfc z := by
  have hs : 0 < Real.sqrt 2 := Real.sqrt_pos.2 (by norm_num)
  have h1 := Phi_erfc (z * Real.sqrt 2)
  have h2 := Phi_erfc (-(z * Real.sqrt 2))
  rw [Phi_neg, ← h1, neg_neg, mul_div_cancel_right₀ _ hs.ne'] at h2
  rw [← neg_mul, mul_div_cancel_right₀ _ hs.ne'] at h2
  norm_num at h2
  linarith

lemma density_deriv (x : ℝ) : HasDerivAt density (-x * density x) x := by
  have h := ((((hasDerivAt_id x).pow 2).div_const 2).neg.exp).div_const (Real.sqrt (2 * Real.pi))
  refine h.congr_deriv ?_
  simp only [density, id]
  push_cast
  simp only [Pi.neg_apply, Pi.pow_apply, id]
  ring

lemma Phi_le_density {x : ℝ} (hx : x ≤ -1) : Phi x ≤ density x := by
  have hd : ∀ y, HasDerivAt (fun z => density z - Phi z) (-y * density y - density y) y := fun y => (density_deriv y).sub (Phi_deriv y)
  have hm : MonotoneOn (fun z => density z - Phi z) (Set.Iic (-1)) := by
    refine monotoneOn_of_deriv_nonneg (convex_Iic _) (fun y _ => (hd y).continuousAt.continuousWithinAt)
      (fun y _ => (hd y).differentiableAt.differentiableWithinAt) (fun y hy => ?_)
    rw [(hd y).deriv]
    rw [interior_Iic] at hy
    have := density_pos y
    have hy' : y < -1 := hy
    nlinarith
  have h0 : Tendsto density atBot (𝓝 0) := by
    have hle : ∀ᶠ y in atBot, density y ≤ Real.exp y := by
      filter_upwards [eventually_le_atBot (-2 : ℝ)] with y hy
      unfold density
      have hs : 1 ≤ Real.sqrt (2 * Real.pi) := by
        rw [Real.one_le_sqrt]
        have := Real.pi_gt_three
        linarith
      refine (div_le_self (Real.exp_pos _).le hs).trans (Real.exp_le_exp.2 ?_)
      nlinarith
    exact tendsto_of_tendsto_of_tendsto_of_le_of_le' tendsto_const_nhds Real.tendsto_exp_atBot (Eventually.of_forall fun y => (density_pos y).le) hle
  have h1 : Tendsto Phi atBot (𝓝 0) := tendsto_cdf_atBot (gaussianReal 0 1)
  have h2 := h0.sub h1
  rw [sub_zero] at h2
  have h3 : 0 ≤ density x - Phi x := by
    refine le_of_tendsto h2 ?_
    filter_upwards [eventually_le_atBot x] with y hy
    exact hm (Set.mem_Iic.2 (hy.trans hx)) hx hy
  linarith

lemma Phi_nonneg (x : ℝ) : 0 ≤ Phi x := cdf_nonneg _ _

end Proposal
