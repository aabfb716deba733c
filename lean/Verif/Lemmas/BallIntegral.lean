import Mathlib.Analysis.SpecialFunctions.PolarCoord
import Mathlib.MeasureTheory.Function.JacobianOneDim
import Mathlib.MeasureTheory.Measure.Lebesgue.EqHaar
import Mathlib.MeasureTheory.Measure.Prod
import Mathlib.Tactic.Linarith
import Mathlib.Tactic.Positivity

/-!
Integrals over the unit ball in the coordinates of a sphere: a function of the direction
alone, integrated over the ball, is a constant times its integral over the cosine of the
polar angle and over the azimuth.  Points are written `(z, x, y)`.
-/

namespace Proposal
namespace BallIntegral

open MeasureTheory Set Real
open scoped ENNReal

/-- The square of the distance from the origin. -/
noncomputable def sq3 (p : ℝ × ℝ × ℝ) : ℝ := p.1 ^ 2 + p.2.1 ^ 2 + p.2.2 ^ 2

/-- The point of the sphere in the same direction. -/
noncomputable def unit3 (p : ℝ × ℝ × ℝ) : ℝ × ℝ × ℝ := (Real.sqrt (sq3 p))⁻¹ • p

/-- A function of the direction, cut off outside the unit ball. -/
noncomputable def cut (h : ℝ × ℝ × ℝ → ℝ≥0∞) (p : ℝ × ℝ × ℝ) : ℝ≥0∞ :=
  {q | sq3 q ≤ 1}.indicator (fun q => h (unit3 q)) p

theorem measurable_sq3 : Measurable sq3 := by unfold sq3; fun_prop

theorem measurable_unit3 : Measurable unit3 := by
  unfold unit3
  have := measurable_sq3
  fun_prop

theorem measurable_cut {h : ℝ × ℝ × ℝ → ℝ≥0∞} (hh : Measurable h) : Measurable (cut h) := by
  unfold cut
  exact (hh.comp measurable_unit3).indicator (measurableSet_le measurable_sq3 measurable_const)

/-- The point of the sphere with the cosine `s` of the polar angle and the azimuth `φ`. -/
noncomputable def point (φ s : ℝ) : ℝ × ℝ × ℝ :=
  (s, Real.sqrt (1 - s ^ 2) * cos φ, Real.sqrt (1 - s ^ 2) * sin φ)

theorem measurable_point : Measurable (fun q : ℝ × ℝ => point q.1 q.2) := by
  unfold point; fun_prop

theorem cut_polar (h : ℝ × ℝ × ℝ → ℝ≥0∞) (ρ θ φ : ℝ) (hρ : 0 < ρ) (hθ : 0 ≤ sin θ) :
    cut h (ρ * cos θ, ρ * sin θ * cos φ, ρ * sin θ * sin φ)
      = (Iic (1 : ℝ)).indicator (fun _ => h (point φ (cos θ))) ρ := by
  have hs : sq3 (ρ * cos θ, ρ * sin θ * cos φ, ρ * sin θ * sin φ) = ρ ^ 2 := by
    unfold sq3
    have := sin_sq_add_cos_sq φ
    have := sin_sq_add_cos_sq θ
    simp only
    calc (ρ * cos θ) ^ 2 + (ρ * sin θ * cos φ) ^ 2 + (ρ * sin θ * sin φ) ^ 2
        = ρ ^ 2 * (cos θ ^ 2 + sin θ ^ 2 * (sin φ ^ 2 + cos φ ^ 2)) := by ring
      _ = ρ ^ 2 := by rw [sin_sq_add_cos_sq]; rw [mul_one, add_comm, sin_sq_add_cos_sq, mul_one]
  have hu : unit3 (ρ * cos θ, ρ * sin θ * cos φ, ρ * sin θ * sin φ) = point φ (cos θ) := by
    unfold unit3 point
    rw [hs, Real.sqrt_sq hρ.le]
    have : Real.sqrt (1 - cos θ ^ 2) = sin θ := by
      rw [show 1 - cos θ ^ 2 = sin θ ^ 2 by have := sin_sq_add_cos_sq θ; linarith,
        Real.sqrt_sq hθ]
    rw [this]
    simp only [Prod.smul_mk, smul_eq_mul]
    ext <;> simp only <;> field_simp
  unfold cut
  by_cases c : ρ ≤ 1
  · rw [indicator_of_mem (show _ ∈ {q | sq3 q ≤ 1} from by
      rw [mem_ofPred_eq, hs]; nlinarith), indicator_of_mem (show ρ ∈ Iic (1:ℝ) from c), hu]
  · rw [indicator_of_notMem (show _ ∉ {q | sq3 q ≤ 1} from by
      rw [mem_ofPred_eq, hs]; push Not at c ⊢; nlinarith),
      indicator_of_notMem (show ρ ∉ Iic (1:ℝ) from c)]

/-- The integral of the square of the radius. -/
noncomputable def radial : ℝ≥0∞ := ∫⁻ ρ in Ioi (0 : ℝ),
  ENNReal.ofReal ρ * ENNReal.ofReal ρ * (Iic (1 : ℝ)).indicator (fun _ => 1) ρ

theorem radial_ne_zero : radial ≠ 0 := by
  unfold radial
  have low : ∫⁻ _ρ in Ioc (1 / 2 : ℝ) 1, ENNReal.ofReal (1 / 2) * ENNReal.ofReal (1 / 2)
      ≤ ∫⁻ ρ in Ioi (0 : ℝ),
        ENNReal.ofReal ρ * ENNReal.ofReal ρ * (Iic (1 : ℝ)).indicator (fun _ => 1) ρ := by
    refine le_trans (setLIntegral_mono' measurableSet_Ioc
      (g := fun ρ => ENNReal.ofReal ρ * ENNReal.ofReal ρ
        * (Iic (1 : ℝ)).indicator (fun _ => 1) ρ) ?_) (lintegral_mono_set ?_)
    · intro ρ hρ
      rw [indicator_of_mem (show ρ ∈ Iic (1:ℝ) from hρ.2), mul_one]
      exact mul_le_mul' (ENNReal.ofReal_le_ofReal hρ.1.le) (ENNReal.ofReal_le_ofReal hρ.1.le)
    · intro ρ hρ
      exact lt_trans (by norm_num) hρ.1
  have pos : 0 < ∫⁻ _ρ in Ioc (1 / 2 : ℝ) 1,
      ENNReal.ofReal (1 / 2) * ENNReal.ofReal (1 / 2) := by
    rw [setLIntegral_const, Real.volume_Ioc, ← ENNReal.ofReal_mul (by norm_num),
      ← ENNReal.ofReal_mul (by norm_num), ENNReal.ofReal_pos]
    norm_num
  exact (lt_of_lt_of_le pos low).ne'

theorem radial_ne_top : radial ≠ ∞ := by
  unfold radial
  have : ∫⁻ ρ in Ioi (0 : ℝ),
      ENNReal.ofReal ρ * ENNReal.ofReal ρ * (Iic (1 : ℝ)).indicator (fun _ => 1) ρ
      ≤ ∫⁻ ρ in Ioi (0 : ℝ), (Ioc (0:ℝ) 1).indicator (fun _ => 1) ρ := by
    apply setLIntegral_mono' measurableSet_Ioi
    intro ρ hρ
    by_cases c : ρ ≤ 1
    · rw [indicator_of_mem (show ρ ∈ Iic (1:ℝ) from c),
        indicator_of_mem (show ρ ∈ Ioc (0:ℝ) 1 from ⟨hρ, c⟩), mul_one]
      have : ENNReal.ofReal ρ ≤ 1 := by simpa using c
      calc _ ≤ (1 : ℝ≥0∞) * 1 := mul_le_mul' this this
        _ = 1 := one_mul 1
    · rw [indicator_of_notMem (show ρ ∉ Iic (1:ℝ) from c), mul_zero]
      exact zero_le
  refine ne_top_of_le_ne_top ?_ this
  refine ne_top_of_le_ne_top ?_ (setLIntegral_le_lintegral _ _)
  rw [lintegral_indicator_const measurableSet_Ioc]
  simp

/-- The half plane of one azimuth. -/
theorem half_plane (h : ℝ × ℝ × ℝ → ℝ≥0∞) (hh : Measurable h) (φ : ℝ) :
    ∫⁻ p : ℝ × ℝ, (Ioi (0:ℝ)).indicator
        (fun r => ENNReal.ofReal r * cut h (p.1, r * cos φ, r * sin φ)) p.2
      = radial * ∫⁻ s in Ioo (-1 : ℝ) 1, h (point φ s) := by
  rw [← lintegral_comp_polarCoord_symm]
  have e1 : ∀ p ∈ polarCoord.target, ENNReal.ofReal p.1 • (Ioi (0:ℝ)).indicator
        (fun r => ENNReal.ofReal r * cut h ((polarCoord.symm p).1, r * cos φ, r * sin φ))
          (polarCoord.symm p).2
      = (ENNReal.ofReal p.1 * ENNReal.ofReal p.1 * (Iic (1 : ℝ)).indicator (fun _ => 1) p.1)
        * (Ioo 0 π).indicator (fun θ => ENNReal.ofReal (sin θ) * h (point φ (cos θ))) p.2 := by
    rintro ⟨ρ, θ⟩ ⟨hρ, hθ⟩
    simp only [mem_Ioi, mem_Ioo] at hρ hθ
    simp only [polarCoord_symm_apply, smul_eq_mul]
    by_cases c : 0 < θ
    · have hsin : 0 < sin θ := sin_pos_of_pos_of_lt_pi c hθ.2
      rw [indicator_of_mem (show ρ * sin θ ∈ Ioi (0:ℝ) from mul_pos hρ hsin),
        indicator_of_mem (show θ ∈ Ioo 0 π from ⟨c, hθ.2⟩),
        cut_polar h ρ θ φ hρ hsin.le, ENNReal.ofReal_mul hρ.le]
      by_cases c1 : ρ ≤ 1
      · rw [indicator_of_mem (show ρ ∈ Iic (1:ℝ) from c1),
          indicator_of_mem (show ρ ∈ Iic (1:ℝ) from c1)]
        ring
      · rw [indicator_of_notMem (show ρ ∉ Iic (1:ℝ) from c1),
          indicator_of_notMem (show ρ ∉ Iic (1:ℝ) from c1)]
        simp
    · push Not at c
      have hsin : sin θ ≤ 0 := sin_nonpos_of_nonpos_of_neg_pi_le c hθ.1.le
      rw [indicator_of_notMem (show ρ * sin θ ∉ Ioi (0:ℝ) from by
          rw [mem_Ioi]; nlinarith),
        indicator_of_notMem (show θ ∉ Ioo 0 π from fun k => absurd k.1 (not_lt.mpr c))]
      simp
  have ht : MeasurableSet polarCoord.target := polarCoord.open_target.measurableSet
  rw [setLIntegral_congr_fun ht e1]
  have hm1 : Measurable (fun ρ : ℝ =>
      ENNReal.ofReal ρ * ENNReal.ofReal ρ * (Iic (1 : ℝ)).indicator (fun _ => (1 : ℝ≥0∞)) ρ) :=
    (ENNReal.measurable_ofReal.mul ENNReal.measurable_ofReal).mul
      (measurable_const.indicator measurableSet_Iic)
  have hp : ∀ φ, Measurable (fun s => h (point φ s)) := fun φ => by
    have := measurable_point.comp (measurable_const (a := φ) |>.prodMk (measurable_id (α := ℝ)))
    exact hh.comp this
  have hm2 : Measurable ((Ioo 0 π).indicator
      (fun θ => ENNReal.ofReal (sin θ) * h (point φ (cos θ)))) := by
    refine Measurable.indicator ?_ measurableSet_Ioo
    exact (ENNReal.measurable_ofReal.comp measurable_sin).mul ((hp φ).comp measurable_cos)
  have e2 : (volume : Measure (ℝ × ℝ)).restrict polarCoord.target
      = (volume.restrict (Ioi (0:ℝ))).prod (volume.restrict (Ioo (-π) π)) := by
    rw [Measure.prod_restrict]; rfl
  rw [e2, lintegral_prod_mul hm1.aemeasurable hm2.aemeasurable]
  congr 1
  rw [lintegral_indicator measurableSet_Ioo, Measure.restrict_restrict measurableSet_Ioo,
    inter_eq_left.mpr (Ioo_subset_Ioo_left (by linarith [pi_pos]))]
  have im : cos '' Ioo 0 π = Ioo (-1) 1 := by
    ext s
    constructor
    · rintro ⟨θ, hθ, rfl⟩
      constructor
      · rw [← cos_pi]
        exact strictAntiOn_cos ⟨hθ.1.le, hθ.2.le⟩ ⟨pi_pos.le, le_refl _⟩ hθ.2
      · rw [← cos_zero]
        exact strictAntiOn_cos ⟨le_refl _, pi_pos.le⟩ ⟨hθ.1.le, hθ.2.le⟩ hθ.1
    · rintro ⟨h1, h2⟩
      refine ⟨arccos s, ⟨arccos_pos.mpr h2, ?_⟩, cos_arccos h1.le h2.le⟩
      refine lt_of_le_of_ne (arccos_le_pi s) ?_
      rw [Ne, arccos_eq_pi]
      exact not_le.mpr h1
  rw [← im, lintegral_image_eq_lintegral_abs_deriv_mul measurableSet_Ioo
    (f' := fun θ => - sin θ) (fun θ _ => (hasDerivAt_cos θ).hasDerivWithinAt)
    (strictAntiOn_cos.injOn.mono Ioo_subset_Icc_self)]
  apply setLIntegral_congr_fun measurableSet_Ioo
  intro θ hθ
  simp only [abs_neg, abs_of_pos (sin_pos_of_pos_of_lt_pi hθ.1 hθ.2)]

/-- The integral over the ball in the coordinates of the sphere. -/
theorem ball_integral (h : ℝ × ℝ × ℝ → ℝ≥0∞) (hh : Measurable h) :
    ∫⁻ p, cut h p = radial * ∫⁻ φ in Ioo (-π) π, ∫⁻ s in Ioo (-1 : ℝ) 1, h (point φ s) := by
  have hc := measurable_cut hh
  have e0 : ∫⁻ p, cut h p = ∫⁻ z : ℝ, ∫⁻ q : ℝ × ℝ, cut h (z, q) := by
    rw [Measure.volume_eq_prod, lintegral_prod _ hc.aemeasurable]
  have hmG : Measurable (fun a : (ℝ × ℝ) × ℝ => (Ioi (0:ℝ)).indicator
      (fun r => ENNReal.ofReal r * cut h (a.1.1, r * cos a.2, r * sin a.2)) a.1.2) := by
    have : (fun a : (ℝ × ℝ) × ℝ => (Ioi (0:ℝ)).indicator
      (fun r => ENNReal.ofReal r * cut h (a.1.1, r * cos a.2, r * sin a.2)) a.1.2)
      = {a : (ℝ × ℝ) × ℝ | a.1.2 ∈ Ioi (0:ℝ)}.indicator
        (fun a => ENNReal.ofReal a.1.2 * cut h (a.1.1, a.1.2 * cos a.2, a.1.2 * sin a.2)) := by
      funext a; rfl
    rw [this]
    refine Measurable.indicator ?_ ?_
    · refine Measurable.mul (by fun_prop) (hc.comp (by fun_prop))
    · exact measurableSet_Ioi.preimage (by fun_prop : Measurable (fun a : (ℝ × ℝ) × ℝ => a.1.2))
  have e1 : ∀ z : ℝ, ∫⁻ q : ℝ × ℝ, cut h (z, q)
      = ∫⁻ φ in Ioo (-π) π, ∫⁻ r : ℝ, (Ioi (0:ℝ)).indicator
          (fun r => ENNReal.ofReal r * cut h (z, r * cos φ, r * sin φ)) r := by
    intro z
    rw [← lintegral_comp_polarCoord_symm]
    have e2 : (volume : Measure (ℝ × ℝ)).restrict polarCoord.target
        = (volume.restrict (Ioi (0:ℝ))).prod (volume.restrict (Ioo (-π) π)) := by
      rw [Measure.prod_restrict]; rfl
    rw [e2, lintegral_prod_symm]
    · apply lintegral_congr
      intro φ
      rw [lintegral_indicator measurableSet_Ioi]
      rfl
    · apply Measurable.aemeasurable
      have : Measurable (fun p : ℝ × ℝ => ENNReal.ofReal p.1 • cut h (z, polarCoord.symm p)) := by
        simp only [polarCoord_symm_apply, smul_eq_mul]
        exact Measurable.mul (by fun_prop) (hc.comp (by fun_prop))
      exact this
  rw [e0]
  simp_rw [e1]
  rw [lintegral_lintegral_swap]
  · rw [← lintegral_const_mul']
    · apply lintegral_congr
      intro φ
      rw [← half_plane h hh φ, Measure.volume_eq_prod, lintegral_prod]
      exact (hmG.comp (measurable_id.prodMk measurable_const)).aemeasurable
    · exact radial_ne_top
  · apply Measurable.aemeasurable
    have := hmG.comp (show Measurable (fun a : (ℝ × ℝ) × ℝ => ((a.1.1, a.2), a.1.2)) by fun_prop)
    exact this.lintegral_prod_right'

end BallIntegral
end Proposal
