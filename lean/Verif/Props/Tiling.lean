import Verif.Model.CrossSection
import Verif.Props.EnergyCut
import Mathlib.MeasureTheory.Integral.IntervalIntegral.IntegrationByParts
import Mathlib.Analysis.SpecialFunctions.ExpDeriv
import Mathlib.Analysis.SpecialFunctions.Log.Basic

/-!
# Continuous and stochastic losses tile the kinematic range (C29)
-/

namespace Proposal

open Spec MeasureTheory

private lemma cutIn_fin (c : Cut) (hc : ValidCut c) (lim : KinLim) (hl : lim.vMin ≤ lim.vMax) (E : ℝ)
    (hE : 0 < E) : ∃ x, c.cutIn lim E = .fin x ∧ lim.vMin ≤ x ∧ x ≤ lim.vMax := by
  obtain ⟨x, y, h, _, h1, h2, _⟩ := C27_cut_in_limits c hc lim hl E hE
  exact ⟨x, h, h1, h2⟩

/-- C29: with a cut, the stochastic rate counts the losses between one and the same `v_cut` and the
upper limit, the continuous loss those from the lower limit to `v_cut`; together they make up the total
loss. The same holds for the variance of the continuous losses. -/
theorem C29_tiling (σ : ℝ → ℝ) (c : Cut) (hc : ValidCut c) (lim : KinLim) (hl : lim.vMin ≤ lim.vMax)
    (E : ℝ) (hE : 0 < E) (hint : IntervalIntegrable (fun v => v * σ v) volume lim.vMin lim.vMax) :
    ∃ vCut, lim.vMin ≤ vCut ∧ vCut ≤ lim.vMax ∧ c.cutIn lim E = .fin vCut ∧
      dndxTotal σ (some c) lim E = some (∫ v in vCut..lim.vMax, σ v) ∧
      dedx σ c lim E = some ((∫ v in lim.vMin..vCut, v * σ v) * E) ∧
      de2dx σ c lim E = some ((∫ v in lim.vMin..vCut, v ^ 2 * σ v) * E ^ 2) ∧
      (∫ v in lim.vMin..vCut, v * σ v) * E + (∫ v in vCut..lim.vMax, v * σ v) * E =
        (∫ v in lim.vMin..lim.vMax, v * σ v) * E := by
  obtain ⟨x, hx, h1, h2⟩ := cutIn_fin c hc lim hl E hE
  refine ⟨x, h1, h2, hx, ?_, ?_, ?_, ?_⟩
  · unfold dndxTotal dndxUpTo integrationLimits
    simp only [hx, Dbl.max_fin, max_eq_left h1]
    rcases h2.lt_or_eq with h | h
    · rw [if_pos h]
    · rw [if_neg (not_lt.2 h.ge), h, intervalIntegral.integral_same]
  · unfold dedx; rw [hx]
  · unfold de2dx; rw [hx]; ring_nf
  · rw [← add_mul, intervalIntegral.integral_add_adjacent_intervals]
    · refine hint.mono_set ?_
      rw [Set.uIcc_of_le h1, Set.uIcc_of_le hl]; exact Set.Icc_subset_Icc le_rfl h2
    · refine hint.mono_set ?_
      rw [Set.uIcc_of_le h2, Set.uIcc_of_le hl]; exact Set.Icc_subset_Icc h1 le_rfl

/-- C29: the cumulative rate up to `v` counts the losses from `v_cut` to `v`, and nothing below. -/
theorem C29_cumulative (σ : ℝ → ℝ) (c : Cut) (hc : ValidCut c) (lim : KinLim) (hl : lim.vMin ≤ lim.vMax)
    (E v : ℝ) (hE : 0 < E) : ∃ vCut, c.cutIn lim E = .fin vCut ∧
      (vCut ≤ v → dndxUpTo σ (some c) lim E v = some (∫ x in vCut..v, σ x)) ∧
      (v ≤ vCut → dndxUpTo σ (some c) lim E v = some 0) := by
  obtain ⟨x, hx, h1, h2⟩ := cutIn_fin c hc lim hl E hE
  refine ⟨x, hx, ?_, ?_⟩ <;> intro h <;> unfold dndxUpTo integrationLimits <;>
    simp only [hx, Dbl.max_fin, max_eq_left h1]
  · rcases h.lt_or_eq with h | h
    · rw [if_pos h]
    · rw [if_neg (not_lt.2 h.ge), h, intervalIntegral.integral_same]
  · rw [if_neg (not_lt.2 h)]

/-- C29: without cut every loss is stochastic and there is no continuous loss. -/
theorem C29_without_cut (σ : ℝ → ℝ) (lim : KinLim) (hl : lim.vMin ≤ lim.vMax) (E : ℝ) (cs : List Comp)
    (mk : Comp → ℝ → ℝ) :
    dndxTotal σ none lim E = some (∫ v in lim.vMin..lim.vMax, σ v) ∧
    edxOf (buildDedx cs mk none) E = 0 := by
  refine ⟨?_, rfl⟩
  unfold dndxTotal dndxUpTo integrationLimits
  rcases hl.lt_or_eq with h | h
  · simp only [if_pos h]
  · simp only [if_neg (not_lt.2 h.ge)]; rw [h, intervalIntegral.integral_same]

/-- C29: with `ecut = inf` and `vcut = 1` no rate calculator is made, the rate vanishes and the
continuous loss covers the whole range. -/
theorem C29_only_continuous (σ : ℝ → ℝ) (b : Bool) (lim : KinLim) (hl : lim.vMin ≤ lim.vMax)
    (h1 : lim.vMax ≤ 1) (E : ℝ) (h : ℝ → ℝ → ℝ → ℕ) (cs : List Comp) (mk : Comp → DndxCalc) :
    let c : Cut := ⟨.pinf, .fin 1, b⟩
    ndxOf (buildDndx h cs mk (some c)) E = 0 ∧ perTargetOf (buildDndx h cs mk (some c)) E = [] ∧
    dndxTotal σ (some c) lim E = some 0 ∧
    dedx σ c lim E = some ((∫ v in lim.vMin..lim.vMax, v * σ v) * E) := by
  intro c
  have hb : buildDndx h cs mk (some c) = none := by
    unfold buildDndx
    rw [if_pos]
    exact ⟨trivial, rfl⟩
  have hcut : c.cutIn lim E = .fin lim.vMax := by
    have hcut : c.cut E = .fin 1 := by simp [c, Cut.cut, Dbl.min, Dbl.divPos, Dbl.lt]
    unfold Cut.cutIn
    rw [hcut, Dbl.max_fin, Dbl.min_fin, min_eq_right (le_max_of_le_right h1)]
  refine ⟨by rw [hb]; rfl, by rw [hb]; rfl, ?_, ?_⟩
  · unfold dndxTotal dndxUpTo integrationLimits
    simp only [hcut, Dbl.max_fin, max_eq_left hl, lt_irrefl, if_false]
  · unfold dedx; rw [hcut]

private lemma subst_log (g : ℝ → ℝ) {a b : ℝ} (hab : a ≤ b) (hb : b < 1) :
    (∫ t in Real.log (1 - b)..Real.log (1 - a), Real.exp t * g (1 - Real.exp t)) = ∫ v in a..b, g v := by
  have hpb : 0 < 1 - b := by linarith
  have hpa : 0 < 1 - a := by linarith
  have := intervalIntegral.integral_comp_mul_deriv_of_deriv_nonpos (a := Real.log (1 - b))
    (b := Real.log (1 - a)) (f := fun t => 1 - Real.exp t) (f' := fun t => -Real.exp t) (g := g)
    (by fun_prop) (fun x _ => by simpa using (Real.hasDerivAt_exp x).const_sub 1)
    (fun x _ => by simpa using (Real.exp_pos x).le)
  simp only [Function.comp_apply, Real.exp_log hpa, Real.exp_log hpb, sub_sub_cancel] at this
  rw [intervalIntegral.integral_symm b a, ← this, ← intervalIntegral.integral_neg]
  congr 1
  ext t
  ring

/-- C29: for Compton scattering the logarithmic substitution changes neither the rate nor the
continuous loss. -/
theorem C29_compton (σ : ℝ → ℝ) (c : Cut) (hc : ValidCut c) (lim : KinLim) (hl : lim.vMin ≤ lim.vMax)
    (h1 : lim.vMax < 1) (E : ℝ) (hE : 0 < E) :
    dndxCompton σ lim.vMin lim.vMax = (∫ v in lim.vMin..lim.vMax, σ v) ∧
    dedxCompton σ c lim E = dedx σ c lim E := by
  refine ⟨subst_log σ hl h1, ?_⟩
  obtain ⟨x, hx, h2, h3⟩ := cutIn_fin c hc lim hl E hE
  unfold dedxCompton dedx
  rw [hx]
  simp only
  rw [← subst_log (fun v => v * σ v) h2 (h3.trans_lt h1)]

/-- C29: for electron pair production splitting the integral at 0.8 and mirroring its upper part does
not change the continuous loss. -/
theorem C29_epair (σ : ℝ → ℝ) (c : Cut) (hc : ValidCut c) (lim : KinLim) (h0 : 0 ≤ lim.vMin)
    (hl : lim.vMin ≤ lim.vMax) (E : ℝ) (hE : 0 < E)
    (hint : IntervalIntegrable (fun v => v * σ v) volume lim.vMin lim.vMax) :
    dedxEpair σ c lim E = dedx σ c lim E := by
  obtain ⟨x, hx, h2, h3⟩ := cutIn_fin c hc lim hl E hE
  unfold dedxEpair dedx
  rw [hx]
  simp only
  split_ifs with h
  · have hx0 : 0 ≤ x := h0.trans h2
    have hr : 8 / 10 < x := by
      have h := h.1
      unfold HALF_PRECISION at h
      norm_num at h ⊢
      nlinarith
    have hr1 : max (min (8 / 10) x) lim.vMin ≤ x := max_le (min_le_right _ _) h2
    have hr0 : lim.vMin ≤ max (min (8 / 10) x) lim.vMin := le_max_right _ _
    generalize max (min (8 / 10) x) lim.vMin = r1 at *
    have hx' : IntervalIntegrable (fun v => v * σ v) volume lim.vMin x := by
      refine hint.mono_set ?_
      rw [Set.uIcc_of_le h2, Set.uIcc_of_le hl]; exact Set.Icc_subset_Icc le_rfl h3
    have i1 : IntervalIntegrable (fun v => v * σ v) volume lim.vMin r1 := by
      refine hx'.mono_set ?_
      rw [Set.uIcc_of_le h2, Set.uIcc_of_le hr0]; exact Set.Icc_subset_Icc le_rfl hr1
    have i2 : IntervalIntegrable (fun v => v * σ v) volume r1 x := by
      refine hx'.mono_set ?_
      rw [Set.uIcc_of_le h2, Set.uIcc_of_le hr1]; exact Set.Icc_subset_Icc hr0 le_rfl
    have i3 : IntervalIntegrable (fun v => (1 - v) * σ (1 - v)) volume (1 - x) (1 - r1) := by
      have := i2.comp_sub_left 1
      exact this.symm
    set r2 := min (max (1 - x) (1 / 10 ^ 10)) (1 - r1) with hr2
    have b1 : 1 - x ≤ r2 := le_min (le_max_left _ _) (by linarith)
    have b2 : r2 ≤ 1 - r1 := min_le_right _ _
    have i4 : IntervalIntegrable (fun v => (1 - v) * σ (1 - v)) volume (1 - x) r2 := by
      refine i3.mono_set ?_
      rw [Set.uIcc_of_le b1, Set.uIcc_of_le (b1.trans b2)]; exact Set.Icc_subset_Icc le_rfl b2
    have i5 : IntervalIntegrable (fun v => (1 - v) * σ (1 - v)) volume r2 (1 - r1) := by
      refine i3.mono_set ?_
      rw [Set.uIcc_of_le b2, Set.uIcc_of_le (b1.trans b2)]; exact Set.Icc_subset_Icc b1 le_rfl
    rw [add_assoc, intervalIntegral.integral_add_adjacent_intervals i4 i5,
      intervalIntegral.integral_comp_sub_left (fun v => v * σ v) 1]
    simp only [sub_sub_cancel]
    rw [intervalIntegral.integral_add_adjacent_intervals i1 i2]
  · rfl

/-- The hypotheses of the C29 theorems hold for a constant cross section and ordinary cuts. -/
example : ValidCut ⟨.fin 500, .fin (1 / 20), false⟩ ∧ (0 : ℝ) ≤ 1 / 1000 ∧ (1 / 1000 : ℝ) ≤ 9 / 10 ∧ (9 / 10 : ℝ) < 1 ∧
    IntervalIntegrable (fun v : ℝ => v * (fun _ => (1 : ℝ)) v) volume (1 / 1000) (9 / 10) := by
  refine ⟨⟨Or.inr ⟨500, by norm_num, rfl⟩, 1 / 20, by norm_num, by norm_num, rfl⟩, by norm_num, by norm_num,
    by norm_num, ?_⟩
  exact Continuous.intervalIntegrable (by fun_prop) _ _

end Proposal
