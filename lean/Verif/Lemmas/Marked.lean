import Verif.Lemmas.Competition

/-!
The first of two events with a mark whose probability depends on the energy of the event.
-/

namespace Proposal
namespace Competition

open MeasureTheory Set
open scoped ENNReal

/-- The mean of a function of the energy of an event that happens above `e` and before another one. The random number of the event is the
second one. -/
theorem first_weighted {x₁ x₂ l₁ l₂ : ℝ → ℝ} {lo₁ lo₂ E e : ℝ} (a : Law x₁ l₁ lo₁ E) (b : Law x₂ l₂ lo₂ E) (h0 : lo₁ ≤ e)
    (h0' : lo₂ ≤ e) (h1 : e ≤ E) (g : ℝ → ℝ≥0∞) (hg : Measurable g) (F : ℝ × ℝ → ℝ≥0∞)
    (hF : ∀ r ∈ Ico (0:ℝ) 1 ×ˢ Ico (0:ℝ) 1, e < x₁ r.2 → x₂ r.1 < x₁ r.2 → F r = g (x₁ r.2))
    (hF0 : ∀ r ∈ Ico (0:ℝ) 1 ×ˢ Ico (0:ℝ) 1, ¬ (e < x₁ r.2 ∧ x₂ r.1 < x₁ r.2) → F r = 0) :
    ∫⁻ r in Ico (0:ℝ) 1 ×ˢ Ico (0:ℝ) 1, F r
      = ∫⁻ z in Ioo e E, ENNReal.ofReal (l₁ z * Real.exp (-∫ y in z..E, (l₁ y + l₂ y))) * g z := by
  set X : ℝ → ℝ := fun r => x₁ (max 0 (min 1 r)) with hX
  set f : ℝ → ℝ := fun r => quiet l₂ E (max e (X r)) with hf
  have c0 : ∀ r : ℝ, 0 ≤ max 0 (min 1 r) := fun r => le_max_left _ _
  have c1 : ∀ r : ℝ, max 0 (min 1 r) ≤ 1 := fun r => max_le zero_le_one (min_le_left _ _)
  have Xm : Monotone X := fun r s hrs => a.mono (c0 r) (max_le_max le_rfl (min_le_min le_rfl hrs)) (c1 s)
  have XE : ∀ r, X r ≤ E := fun r => (a.mem' (c0 r) (c1 r)).2
  have fm : Monotone f := fun r s hrs =>
    b.quiet_mono (h0'.trans (le_max_left _ _)) (max_le_max le_rfl (Xm hrs)) (max_le h1 (XE s))
  have f1 : ∀ r, f r ≤ 1 := fun r => b.quiet_le (h0'.trans (le_max_left _ _)) (max_le h1 (XE r))
  have Xx : ∀ r ∈ Ico (0:ℝ) 1, X r = x₁ r := fun r hr => by
    simp only [hX, min_eq_right hr.2.le, max_eq_right hr.1]
  have fx : ∀ r ∈ Ico (0:ℝ) 1, e < x₁ r → f r = quiet l₂ E (x₁ r) := fun r hr he => by
    simp only [hf, Xx r hr, max_eq_right he.le]
  set q := quiet l₁ E e
  have q0 : 0 < q := quiet_pos _ _ _
  have lt_iff : ∀ r ∈ Ico (0:ℝ) 1, (e < x₁ r ↔ q < r) := fun r hr => by
    rw [← not_le, ← not_le, a.le_iff h0 h1 hr.1 hr.2.le]
  set A : Set (ℝ × ℝ) := {r | q < r.2 ∧ r.1 < f r.2} with hA
  have hAm : MeasurableSet A := by
    apply MeasurableSet.inter
    · exact measurableSet_lt measurable_const measurable_snd
    · exact measurableSet_lt measurable_fst (fm.measurable.comp measurable_snd)
  have hG : Measurable fun r : ℝ × ℝ => g (X r.2) := hg.comp (Xm.measurable.comp measurable_snd)
  have step : ∀ r ∈ Ico (0:ℝ) 1 ×ˢ Ico (0:ℝ) 1, F r = A.indicator (fun r => g (X r.2)) r := by
    rintro ⟨r, s⟩ hr
    have hs : s ∈ Ico (0:ℝ) 1 := hr.2
    by_cases he : e < x₁ s
    · have cmp : x₂ r < x₁ s ↔ r < f s := by
        rw [fx s hs he]
        exact b.lt_iff (h0'.trans_lt he) (a.mem' hs.1 hs.2.le).2 hr.1.1 hr.1.2.le
      by_cases hc : x₂ r < x₁ s
      · rw [hF _ hr he hc, indicator_of_mem (show (r, s) ∈ A from ⟨(lt_iff s hs).mp he, cmp.mp hc⟩), Xx s hs]
      · rw [hF0 _ hr fun k => hc k.2, indicator_of_notMem (show (r, s) ∉ A from fun k => hc (cmp.mpr k.2))]
    · rw [hF0 _ hr fun k => he k.1, indicator_of_notMem (show (r, s) ∉ A from fun k => he ((lt_iff s hs).mpr k.1))]
  rw [setLIntegral_congr_fun (measurableSet_Ico.prod measurableSet_Ico) step, Measure.volume_eq_prod, ← Measure.prod_restrict,
    lintegral_prod_symm' _ (hG.indicator hAm)]
  have slice : ∀ s ∈ Ico (0:ℝ) 1, ∫⁻ r in Ico (0:ℝ) 1, A.indicator (fun r => g (X r.2)) (r, s)
      = (Ioo q 1).indicator (fun s => ENNReal.ofReal (f s) * g (X s)) s := by
    intro s hs
    by_cases hq : q < s
    · rw [indicator_of_mem (show s ∈ Ioo q 1 from ⟨hq, hs.2⟩)]
      have : ∀ r, A.indicator (fun r => g (X r.2)) (r, s) = (Iio (f s)).indicator (fun _ => g (X s)) r := fun r => by
        by_cases hr : r < f s
        · rw [indicator_of_mem (show (r, s) ∈ A from ⟨hq, hr⟩), indicator_of_mem (show r ∈ Iio (f s) from hr)]
        · rw [indicator_of_notMem (show (r, s) ∉ A from fun k => hr k.2), indicator_of_notMem (show r ∉ Iio (f s) from hr)]
      rw [lintegral_congr this, lintegral_indicator_const measurableSet_Iio, Measure.restrict_apply measurableSet_Iio, inter_comm,
        volume_lt _ (f1 s), mul_comm]
    · rw [indicator_of_notMem fun k => hq k.1]
      have : ∀ r, A.indicator (fun r => g (X r.2)) (r, s) = 0 := fun r =>
        indicator_of_notMem (show (r, s) ∉ A from fun k => hq k.1) _
      rw [lintegral_congr this, lintegral_zero]
  rw [setLIntegral_congr_fun measurableSet_Ico slice, lintegral_indicator measurableSet_Ioo,
    Measure.restrict_restrict measurableSet_Ioo, show Ioo q 1 ∩ Ico (0:ℝ) 1 = Ioo q 1 from inter_eq_left.mpr fun s hs => ⟨q0.le.trans hs.1.le, hs.2⟩]
  have image : quiet l₁ E '' Ioo e E = Ioo q 1 := by
    ext r
    constructor
    · rintro ⟨y, hy, rfl⟩
      refine ⟨a.quiet_strict h0 hy.1 hy.2.le, ?_⟩
      rw [← quiet_end l₁ E]
      exact a.quiet_strict (h0.trans hy.1.le) hy.2 le_rfl
    · intro hr
      have hr' : r ∈ Ico (0:ℝ) 1 := ⟨q0.le.trans hr.1.le, hr.2⟩
      have he := (lt_iff r hr').mpr hr.1
      refine ⟨x₁ r, ⟨he, ?_⟩, a.back hr'.1 hr'.2.le (h0.trans_lt he)⟩
      rw [a.lt_iff ((h0.trans_lt he).trans_le (a.mem' hr'.1 hr'.2.le).2) le_rfl hr'.1 hr'.2.le, quiet_end]
      exact hr.2
  rw [← image, lintegral_image_eq_lintegral_abs_deriv_mul measurableSet_Ioo
    (f' := fun y => l₁ y * quiet l₁ E y)
    (fun y hy => (a.quiet_deriv (h0.trans_lt hy.1) hy.2).hasDerivWithinAt)
    (fun y hy z hz k => by
      rw [← a.hit (h0.trans hy.1.le) hy.2.le, ← a.hit (h0.trans hz.1.le) hz.2.le, k])]
  apply setLIntegral_congr_fun measurableSet_Ioo
  intro y hy
  have hy0 := h0.trans hy.1.le
  have hl := a.pos y ⟨hy0, hy.2.le⟩
  have hq : quiet l₁ E y ∈ Ico (0:ℝ) 1 := by
    refine ⟨(quiet_pos _ _ _).le, ?_⟩
    rw [← quiet_end l₁ E]
    exact a.quiet_strict hy0 hy.2 le_rfl
  have hx := a.hit hy0 hy.2.le
  simp only
  rw [fx _ hq (by rw [hx]; exact hy.1), Xx _ hq, hx, abs_of_pos (mul_pos hl (quiet_pos _ _ _)), ← mul_assoc,
    ← ENNReal.ofReal_mul (mul_pos hl (quiet_pos _ _ _)).le]
  congr 2
  unfold quiet
  rw [mul_assoc, ← Real.exp_add,
    intervalIntegral.integral_add (a.integrable hy0 hy.2.le le_rfl) (b.integrable (h0'.trans hy.1.le) hy.2.le le_rfl)]
  congr 2
  ring

end Competition
end Proposal
