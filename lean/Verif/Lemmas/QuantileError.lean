import Verif.Lemmas.QuantileCentre
import Mathlib.Analysis.Real.Pi.Bounds

/-! # The error of the normal quantile in the centre -/

namespace Proposal
open Spec IntPoly

lemma sqrt_two_pi : 2.506628274 ≤ Real.sqrt (2 * Real.pi) ∧ Real.sqrt (2 * Real.pi) ≤ 2.506628275 := by
  have h1 := Real.pi_gt_d20
  have h2 := Real.pi_lt_d20
  constructor
  · refine Real.le_sqrt_of_sq_le ?_
    norm_num at h1 ⊢
    linarith
  · refine Real.sqrt_le_iff.2 ⟨by norm_num, ?_⟩
    norm_num at h2 ⊢
    linarith

/-- `|exp y - 1|` for small `y`. -/
lemma exp_near {y ε : ℝ} (h : |y| ≤ ε) (hε : ε ≤ 1) : |Real.exp y - 1| ≤ ε + ε ^ 2 := by
  have h1 := Real.abs_exp_sub_one_sub_id_le (h.trans hε)
  have h2 : y ^ 2 ≤ ε ^ 2 := by
    rw [← sq_abs]
    exact pow_le_pow_left₀ (abs_nonneg y) h 2
  rw [show Real.exp y - 1 = (Real.exp y - 1 - y) + y by ring]
  refine (abs_add_le _ _).trans ?_
  linarith

lemma log_near {a b ε : ℝ} (ha : 0 < a) (hb : 0 < b) (h1 : a ≤ b * (1 + ε)) (h2 : b ≤ a * (1 + ε)) : |Real.log a - Real.log b| ≤ ε := by
  rw [abs_le]
  have e1 : Real.log a - Real.log b ≤ ε := by
    rw [← Real.log_div ha.ne' hb.ne']
    have := Real.log_le_sub_one_of_pos (div_pos ha hb)
    have : a / b ≤ 1 + ε := by
      rw [div_le_iff₀ hb]
      linarith
    linarith
  have e2 : Real.log b - Real.log a ≤ ε := by
    rw [← Real.log_div hb.ne' ha.ne']
    have := Real.log_le_sub_one_of_pos (div_pos hb ha)
    have : b / a ≤ 1 + ε := by
      rw [div_le_iff₀ ha]
      linarith
    linarith
  constructor <;> linarith

/-- The slope of the probability at the approximation. -/
lemma ctr_slope {q : ℝ} (h0 : 0 ≤ q) (h1 : q ≤ 0.47575) :
    |density (ev q ctrN / ev q ctrD) * (ev q (qP ctrN ctrD) / ev q ctrD ^ 2) - 1| ≤ 2.95e-6 := by
  have hD := ctr_D h0 h1
  have hP := ctr_P h0 h1
  have hs := sqrt_two_pi
  have hs0 : 0 < Real.sqrt (2 * Real.pi) := by
    refine lt_of_lt_of_le ?_ hs.1
    norm_num
  have e0 : qLog ctrN ctrD 0 = Real.log 2.506628277459239 := by
    have p0 : qP ctrN ctrD = 2506628277459239000000000000000 :: (qP ctrN ctrD).tail := by decide +kernel
    unfold qLog
    rw [p0]
    simp only [ctrN, ctrD, ev]
    norm_num
  have e1 : |Real.log 2.506628277459239 - Real.log (Real.sqrt (2 * Real.pi))| ≤ 2e-9 := by
    refine log_near (by norm_num) hs0 ?_ ?_
    · refine le_trans ?_ (mul_le_mul_of_nonneg_right hs.1 (by norm_num))
      norm_num
    · refine hs.2.trans ?_
      norm_num
  have e2 := ctr_change h0 h1
  rw [e0] at e2
  have e3 : |qLog ctrN ctrD q - Real.log (Real.sqrt (2 * Real.pi))| ≤ 2.943e-6 := by
    rw [show qLog ctrN ctrD q - Real.log (Real.sqrt (2 * Real.pi)) = (qLog ctrN ctrD q - Real.log 2.506628277459239) +
      (Real.log 2.506628277459239 - Real.log (Real.sqrt (2 * Real.pi))) by ring]
    refine (abs_add_le _ _).trans ((add_le_add e2 e1).trans ?_)
    norm_num
  have e4 : density (ev q ctrN / ev q ctrD) * (ev q (qP ctrN ctrD) / ev q ctrD ^ 2) =
      Real.exp (qLog ctrN ctrD q - Real.log (Real.sqrt (2 * Real.pi))) := by
    unfold qLog density
    rw [Real.exp_sub, Real.exp_sub, Real.exp_log (by positivity), Real.exp_log hs0, Real.exp_neg]
    ring
  rw [e4]
  refine (exp_near e3 (by norm_num)).trans ?_
  norm_num

/-- The error of the probability at the approximation. -/
lemma ctr_error {q : ℝ} (h0 : 0 ≤ q) (h1 : q ≤ 0.47575) : |Phi (ev q ctrN / ev q ctrD) - (0.5 + q)| ≤ 1.404e-6 := by
  have hx : ∀ y ∈ Set.Icc (0 : ℝ) 0.47575, HasDerivAt (fun z => Phi (ev z ctrN / ev z ctrD) - z)
      (density (ev y ctrN / ev y ctrD) * (ev y (qP ctrN ctrD) / ev y ctrD ^ 2) - 1) y := fun y hy =>
    ((Phi_deriv _).comp y (quot_deriv ctrN ctrD (ctr_D hy.1 hy.2).ne')).sub (hasDerivAt_id y)
  have := step_le hx (fun y hy => ctr_slope hy.1 hy.2) (q := 0) (r := q) ⟨le_rfl, by norm_num⟩ ⟨h0, h1⟩
  have e0 : ev 0 ctrN / ev 0 ctrD = 0 := by simp [ctrN, ctrD, ev]
  rw [e0, Phi_zero, sub_zero, sub_zero, abs_of_nonneg h0] at this
  rw [show Phi (ev q ctrN / ev q ctrD) - (0.5 + q) = Phi (ev q ctrN / ev q ctrD) - q - 1 / 2 by norm_num; ring]
  refine this.trans ?_
  norm_num at h1 ⊢
  linarith

/-- The quantile in the upper half of the centre. -/
lemma ctr_quantile {p : ℝ} (h0 : 0.5 ≤ p) (h1 : p ≤ 0.97575) : ∃ x, normalppf erfc p = some x ∧ |Phi x - p| ≤ 1e-12 * (1 - p) := by
  obtain ⟨q, rfl⟩ : ∃ q, p = 0.5 + q := ⟨p - 0.5, by ring⟩
  have q0 : 0 ≤ q := by linarith
  have q1 : q ≤ 0.47575 := by norm_num at h1 ⊢; linarith
  have hst : ppfStart (0.5 + q) = ev q ctrN / ev q ctrD := by
    unfold ppfStart
    rw [if_neg (by norm_num; linarith), if_pos (by norm_num at q1 ⊢; linarith), ctr_eq]
  have hb := ctr_bounds q0 q1
  have hsl := ctr_slope q0 q1
  have her := ctr_error q0 q1
  unfold normalppf
  rw [if_pos ⟨by norm_num at q0 ⊢; linarith, by norm_num at q1 ⊢; linarith⟩]
  simp only [hst, Phi_erfc]
  have hslope : 0 < ev q (qP ctrN ctrD) / ev q ctrD ^ 2 := div_pos (ctr_P q0 q1) (pow_pos (ctr_D q0 q1) 2)
  generalize ev q ctrN / ev q ctrD = x at *
  generalize ev q (qP ctrN ctrD) / ev q ctrD ^ 2 = s at *
  have hd := density_pos x
  have hu : (Phi x - (0.5 + q)) * Real.sqrt (2 * Real.pi) * Real.exp (0.5 * x * x) = (Phi x - (0.5 + q)) / density x := by
    unfold density
    rw [Real.exp_neg, show 0.5 * x * x = x ^ 2 / 2 by norm_num; ring]
    have := Real.exp_pos (x ^ 2 / 2)
    field_simp
  rw [hu]
  set u := (Phi x - (0.5 + q)) / density x with hudef
  have hu1 : Phi x - (0.5 + q) = density x * u := by rw [hudef]; field_simp
  have hs1 : 0.999 ≤ density x * s := by
    have := (abs_le.1 hsl).1
    norm_num at this ⊢
    linarith
  have hs2 : 1 / density x ≤ 17.63 := by
    rw [div_le_iff₀ hd]
    have := mul_le_mul_of_nonneg_left hb.2.2 hd.le
    norm_num at this hs1 ⊢
    linarith
  have u1 : |u| ≤ 2.48e-5 := by
    rw [hudef, abs_div, abs_of_pos hd, div_eq_mul_one_div]
    refine (mul_le_mul her hs2 (by positivity) (by norm_num)).trans ?_
    norm_num
  have u2 : |x * u| ≤ 4.92e-5 := by
    rw [abs_mul, abs_of_nonneg hb.1]
    refine (mul_le_mul hb.2.1 u1 (abs_nonneg u) (by norm_num)).trans ?_
    norm_num
  obtain ⟨a, b⟩ := halley hu1 (u1.trans (by norm_num)) (u2.trans (by norm_num))
  rw [if_neg a]
  refine ⟨_, rfl, b.trans ?_⟩
  have v1 : u ^ 2 ≤ (2.48e-5) ^ 2 := by
    rw [← sq_abs]
    exact pow_le_pow_left₀ (abs_nonneg u) u1 2
  have v2 : (x * u) ^ 2 ≤ (4.92e-5) ^ 2 := by
    rw [← sq_abs]
    exact pow_le_pow_left₀ (abs_nonneg _) u2 2
  have v3 : 3 * (x * u) ^ 2 + u ^ 2 ≤ 8e-9 := by
    norm_num at v1 v2 ⊢
    linarith
  refine (mul_le_mul her v3 (by positivity) (by norm_num)).trans ?_
  norm_num at h1 ⊢
  linarith

end Proposal
