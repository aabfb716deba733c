import Mathlib.MeasureTheory.Function.JacobianOneDim
import Mathlib.MeasureTheory.Measure.Prod
import Mathlib.MeasureTheory.Measure.Lebesgue.Basic
import Mathlib.MeasureTheory.Integral.IntervalIntegral.FundThmCalculus
import Mathlib.MeasureTheory.Constructions.BorelSpace.Order
import Mathlib.Analysis.SpecialFunctions.Log.Basic
import Mathlib.Analysis.SpecialFunctions.ExpDeriv
import Mathlib.Tactic.Linarith
import Mathlib.Tactic.Positivity

/-!
Energies of events whose expected number is drawn from the exponential distribution, and which of two such events comes
first.
-/

namespace Proposal
namespace Competition

open MeasureTheory Set
open scoped ENNReal

/-- The energy `x r` of an event for the random number `r`: the expected number of events above it is `-log r`, or the
event happens at the lower end. `l` is the density of events in energy. -/
structure Law (x l : ℝ → ℝ) (lo E : ℝ) : Prop where
  le : lo ≤ E
  pos : ∀ y ∈ Icc lo E, 0 < l y
  cont : ContinuousOn l (Icc lo E)
  zero : x 0 = lo
  mem : ∀ r, 0 < r → r ≤ 1 → x r ∈ Icc lo E
  value : ∀ r, 0 < r → r ≤ 1 → ∫ y in x r..E, l y = min (-Real.log r) (∫ y in lo..E, l y)

/-- The probability that no event happens above `e`. -/
noncomputable def quiet (l : ℝ → ℝ) (E e : ℝ) : ℝ := Real.exp (-∫ y in e..E, l y)

section one

variable {x l : ℝ → ℝ} {lo E : ℝ}

theorem Law.integrable (h : Law x l lo E) {a b : ℝ} (ha : lo ≤ a) (hab : a ≤ b) (hb : b ≤ E) :
    IntervalIntegrable l volume a b := by
  apply ContinuousOn.intervalIntegrable
  rw [uIcc_of_le hab]
  exact h.cont.mono (Icc_subset_Icc ha hb)

theorem Law.strict (h : Law x l lo E) {a b : ℝ} (ha : lo ≤ a) (hab : a < b) (hb : b ≤ E) :
    ∫ y in b..E, l y < ∫ y in a..E, l y := by
  have i1 := h.integrable ha hab.le hb
  have i2 := h.integrable (ha.trans hab.le) hb le_rfl
  have := intervalIntegral.integral_add_adjacent_intervals i1 i2
  have hp := intervalIntegral.intervalIntegral_pos_of_pos_on i1
    (fun y hy => h.pos y ⟨ha.trans hy.1.le, hy.2.le.trans hb⟩) hab
  linarith

theorem Law.antitone (h : Law x l lo E) {a b : ℝ} (ha : lo ≤ a) (hab : a ≤ b) (hb : b ≤ E) :
    ∫ y in b..E, l y ≤ ∫ y in a..E, l y := by
  rcases hab.eq_or_lt with rfl | hlt
  · exact le_rfl
  · exact (h.strict ha hlt hb).le

theorem Law.quiet_strict (h : Law x l lo E) {a b : ℝ} (ha : lo ≤ a) (hab : a < b) (hb : b ≤ E) :
    quiet l E a < quiet l E b :=
  Real.exp_lt_exp.mpr (neg_lt_neg (h.strict ha hab hb))

theorem Law.quiet_mono (h : Law x l lo E) {a b : ℝ} (ha : lo ≤ a) (hab : a ≤ b) (hb : b ≤ E) :
    quiet l E a ≤ quiet l E b :=
  Real.exp_le_exp.mpr (neg_le_neg (h.antitone ha hab hb))

theorem quiet_pos (l : ℝ → ℝ) (E e : ℝ) : 0 < quiet l E e := Real.exp_pos _

theorem quiet_end (l : ℝ → ℝ) (E : ℝ) : quiet l E E = 1 := by
  unfold quiet; simp

theorem Law.quiet_le (h : Law x l lo E) {e : ℝ} (h0 : lo ≤ e) (h1 : e ≤ E) : quiet l E e ≤ 1 := by
  rw [← quiet_end l E]; exact h.quiet_mono h0 h1 le_rfl

theorem Law.le_iff (h : Law x l lo E) {e r : ℝ} (h0 : lo ≤ e) (h1 : e ≤ E) (r0 : 0 ≤ r) (r1 : r ≤ 1) :
    x r ≤ e ↔ r ≤ quiet l E e := by
  rcases r0.eq_or_lt with rfl | r0
  · rw [h.zero]
    exact ⟨fun _ => (quiet_pos _ _ _).le, fun _ => h0⟩
  · have hm := h.mem r r0 r1
    have hv := h.value r r0 r1
    have key : x r ≤ e ↔ ∫ y in e..E, l y ≤ ∫ y in x r..E, l y := by
      constructor
      · intro k; exact h.antitone hm.1 k h1
      · intro k
        by_contra c
        push Not at c
        exact absurd k (not_le.mpr (h.strict h0 c hm.2))
    rw [key, hv, le_min_iff]
    have : ∫ y in e..E, l y ≤ ∫ y in lo..E, l y := h.antitone le_rfl h0 h1
    unfold quiet
    rw [← Real.log_le_iff_le_exp r0]
    constructor
    · intro k; linarith [k.1]
    · intro k; exact ⟨by linarith, this⟩

theorem Law.mem' (h : Law x l lo E) {r : ℝ} (r0 : 0 ≤ r) (r1 : r ≤ 1) : x r ∈ Icc lo E := by
  rcases r0.eq_or_lt with rfl | r0
  · rw [h.zero]; exact ⟨le_rfl, h.le⟩
  · exact h.mem r r0 r1

theorem Law.hit (h : Law x l lo E) {y : ℝ} (h0 : lo ≤ y) (h1 : y ≤ E) : x (quiet l E y) = y := by
  have q0 := (quiet_pos l E y).le
  have q1 := h.quiet_le h0 h1
  have hm := h.mem' q0 q1
  apply le_antisymm ((h.le_iff h0 h1 q0 q1).mpr le_rfl)
  have := (h.le_iff hm.1 hm.2 q0 q1).mp le_rfl
  by_contra c
  push Not at c
  exact absurd this (not_le.mpr (h.quiet_strict hm.1 c h1))

theorem Law.back (h : Law x l lo E) {r : ℝ} (r0 : 0 ≤ r) (r1 : r ≤ 1) (hx : lo < x r) : quiet l E (x r) = r := by
  rcases r0.eq_or_lt with rfl | r0
  · rw [h.zero] at hx; exact absurd hx (lt_irrefl _)
  · have hm := h.mem r r0 r1
    have hv := h.value r r0 r1
    have := h.strict le_rfl hx hm.2
    rcases min_choice (-Real.log r) (∫ y in lo..E, l y) with k | k
    · rw [k] at hv
      unfold quiet
      rw [hv, neg_neg, Real.exp_log r0]
    · rw [k] at hv; linarith

theorem Law.lt_iff (h : Law x l lo E) {e r : ℝ} (h0 : lo < e) (h1 : e ≤ E) (r0 : 0 ≤ r) (r1 : r ≤ 1) :
    x r < e ↔ r < quiet l E e := by
  have hm := h.mem' r0 r1
  constructor
  · intro k
    have := (h.le_iff hm.1 hm.2 r0 r1).mp le_rfl
    exact this.trans_lt (h.quiet_strict hm.1 k h1)
  · intro k
    have hle := (h.le_iff h0.le h1 r0 r1).mpr k.le
    apply lt_of_le_of_ne hle
    intro c
    have := h.back r0 r1 (by rw [c]; exact h0)
    rw [c] at this
    linarith

theorem Law.mono (h : Law x l lo E) {r s : ℝ} (r0 : 0 ≤ r) (rs : r ≤ s) (s1 : s ≤ 1) : x r ≤ x s := by
  have hm := h.mem' (r0.trans rs) s1
  rw [h.le_iff hm.1 hm.2 r0 (rs.trans s1)]
  exact rs.trans ((h.le_iff hm.1 hm.2 (r0.trans rs) s1).mp le_rfl)

theorem Law.quiet_deriv (h : Law x l lo E) {y : ℝ} (h0 : lo < y) (h1 : y < E) :
    HasDerivAt (quiet l E) (l y * quiet l E y) y := by
  have hc : ContinuousAt l y := h.cont.continuousAt (Icc_mem_nhds h0 h1)
  have hi := h.integrable h0.le h1.le le_rfl
  have hs : StronglyMeasurableAtFilter l (nhds y) volume :=
    ContinuousOn.stronglyMeasurableAtFilter isOpen_Ioo (h.cont.mono Ioo_subset_Icc_self) y ⟨h0, h1⟩
  have hd := intervalIntegral.integral_hasDerivAt_left hi hs hc
  have := hd.neg.exp
  unfold quiet
  simpa [mul_comm] using this

end one

theorem volume_le (t : ℝ) (h1 : t ≤ 1) : volume (Ico (0:ℝ) 1 ∩ Iic t) = ENNReal.ofReal t := by
  rcases h1.eq_or_lt with rfl | h
  · rw [inter_eq_left.mpr (fun y hy => (show y ∈ Iic (1:ℝ) from hy.2.le)), Real.volume_Ico, sub_zero]
  · rw [show Ico (0 : ℝ) 1 ∩ Iic t = Icc 0 t by
      ext y
      simp only [mem_inter_iff, mem_Ico, mem_Iic, mem_Icc]
      constructor
      · rintro ⟨⟨a, _⟩, b⟩; exact ⟨a, b⟩
      · rintro ⟨a, b⟩; exact ⟨⟨a, by linarith⟩, b⟩, Real.volume_Icc, sub_zero]

theorem volume_lt (t : ℝ) (h1 : t ≤ 1) : volume (Ico (0:ℝ) 1 ∩ Iio t) = ENNReal.ofReal t := by
  rw [Ico_inter_Iio, min_eq_right h1, Real.volume_Ico, sub_zero]

/-- Neither event happens above `e`. -/
theorem neither {x₁ x₂ l₁ l₂ : ℝ → ℝ} {lo₁ lo₂ E e : ℝ} (a : Law x₁ l₁ lo₁ E) (b : Law x₂ l₂ lo₂ E) (h0 : lo₁ ≤ e)
    (h0' : lo₂ ≤ e) (h1 : e ≤ E) :
    volume ({r : ℝ × ℝ | x₁ r.1 ≤ e ∧ x₂ r.2 ≤ e} ∩ Ico 0 1 ×ˢ Ico 0 1)
      = ENNReal.ofReal (Real.exp (-∫ y in e..E, (l₁ y + l₂ y))) := by
  have hset : {r : ℝ × ℝ | x₁ r.1 ≤ e ∧ x₂ r.2 ≤ e} ∩ Ico 0 1 ×ˢ Ico 0 1
      = (Ico 0 1 ∩ Iic (quiet l₁ E e)) ×ˢ (Ico 0 1 ∩ Iic (quiet l₂ E e)) := by
    ext ⟨r, s⟩
    simp only [mem_inter_iff, mem_ofPred_eq, mem_prod, mem_Iic]
    constructor
    · rintro ⟨⟨k1, k2⟩, hr, hs⟩
      exact ⟨⟨hr, (a.le_iff h0 h1 hr.1 hr.2.le).mp k1⟩, hs, (b.le_iff h0' h1 hs.1 hs.2.le).mp k2⟩
    · rintro ⟨⟨hr, k1⟩, hs, k2⟩
      exact ⟨⟨(a.le_iff h0 h1 hr.1 hr.2.le).mpr k1, (b.le_iff h0' h1 hs.1 hs.2.le).mpr k2⟩, hr, hs⟩
  rw [hset, Measure.volume_eq_prod, Measure.prod_prod, volume_le _ (a.quiet_le h0 h1),
    volume_le _ (b.quiet_le h0' h1), ← ENNReal.ofReal_mul (quiet_pos _ _ _).le]
  unfold quiet
  rw [← Real.exp_add, intervalIntegral.integral_add (a.integrable h0 h1 le_rfl) (b.integrable h0' h1 le_rfl)]
  congr 2
  ring

/-- The first event happens above `e` and before the second one: the density of first events times the probability of
having had neither event before. -/
theorem first {x₁ x₂ l₁ l₂ : ℝ → ℝ} {lo₁ lo₂ E e : ℝ} (a : Law x₁ l₁ lo₁ E) (b : Law x₂ l₂ lo₂ E) (h0 : lo₁ ≤ e)
    (h0' : lo₂ ≤ e) (h1 : e ≤ E) (sharp : Bool) :
    volume ({r : ℝ × ℝ | e < x₁ r.1 ∧ (if sharp then x₂ r.2 < x₁ r.1 else x₂ r.2 ≤ x₁ r.1)} ∩ Ico 0 1 ×ˢ Ico 0 1)
      = ∫⁻ z in Ioo e E, ENNReal.ofReal (l₁ z * Real.exp (-∫ y in z..E, (l₁ y + l₂ y))) := by
  -- the second random number is below the probability for the energy of the first event
  set f : ℝ → ℝ := fun r => quiet l₂ E (max e (x₁ (max 0 (min 1 r)))) with hf
  have c0 : ∀ r : ℝ, 0 ≤ max 0 (min 1 r) := fun r => le_max_left _ _
  have c1 : ∀ r : ℝ, max 0 (min 1 r) ≤ 1 := fun r => max_le zero_le_one (min_le_left _ _)
  have fm : Monotone f := by
    intro r s hrs
    have hc : max 0 (min 1 r) ≤ max 0 (min 1 s) := max_le_max le_rfl (min_le_min le_rfl hrs)
    have := a.mono (c0 r) hc (c1 s)
    exact b.quiet_mono (h0'.trans (le_max_left _ _)) (max_le_max le_rfl this)
      (max_le h1 (a.mem' (c0 s) (c1 s)).2)
  have f1 : ∀ r, f r ≤ 1 := fun r => b.quiet_le (h0'.trans (le_max_left _ _)) (max_le h1 (a.mem' (c0 r) (c1 r)).2)
  have fx : ∀ r ∈ Ico (0:ℝ) 1, e < x₁ r → f r = quiet l₂ E (x₁ r) := by
    intro r hr he
    simp only [hf, min_eq_right hr.2.le, max_eq_right hr.1, max_eq_right he.le]
  set q := quiet l₁ E e
  have q1 : q ≤ 1 := a.quiet_le h0 h1
  have q0 : 0 < q := quiet_pos _ _ _
  have lt_iff : ∀ r ∈ Ico (0:ℝ) 1, (e < x₁ r ↔ q < r) := by
    intro r hr
    rw [← not_le, ← not_le, a.le_iff h0 h1 hr.1 hr.2.le]
  have hset : {r : ℝ × ℝ | e < x₁ r.1 ∧ (if sharp then x₂ r.2 < x₁ r.1 else x₂ r.2 ≤ x₁ r.1)} ∩ Ico 0 1 ×ˢ Ico 0 1
      = (Ioo q 1 ×ˢ Ico 0 1) ∩ {r : ℝ × ℝ | if sharp then r.2 < f r.1 else r.2 ≤ f r.1} := by
    ext ⟨r, s⟩
    have cmp : r ∈ Ico (0:ℝ) 1 → s ∈ Ico (0:ℝ) 1 → e < x₁ r →
        ((if sharp then x₂ s < x₁ r else x₂ s ≤ x₁ r) ↔ (if sharp then s < f r else s ≤ f r)) := by
      intro hr hs he
      have hm := a.mem' hr.1 hr.2.le
      rw [fx r hr he]
      cases sharp
      · simpa using b.le_iff (h0'.trans he.le) hm.2 hs.1 hs.2.le
      · simpa using b.lt_iff (h0'.trans_lt he) hm.2 hs.1 hs.2.le
    simp only [mem_inter_iff, mem_ofPred_eq, mem_prod]
    constructor
    · rintro ⟨⟨k1, k2⟩, hr, hs⟩
      exact ⟨⟨⟨(lt_iff r hr).mp k1, hr.2⟩, hs⟩, (cmp hr hs k1).mp k2⟩
    · rintro ⟨⟨hr, hs⟩, k⟩
      have hr' : r ∈ Ico (0:ℝ) 1 := ⟨q0.le.trans hr.1.le, hr.2⟩
      have he := (lt_iff r hr').mpr hr.1
      exact ⟨⟨he, (cmp hr' hs he).mpr k⟩, hr', hs⟩
  have hmeas : MeasurableSet ((Ioo q 1 ×ˢ Ico (0:ℝ) 1) ∩ {r : ℝ × ℝ | if sharp then r.2 < f r.1 else r.2 ≤ f r.1}) := by
    apply (measurableSet_Ioo.prod measurableSet_Ico).inter
    have hfm : Measurable (fun r : ℝ × ℝ => f r.1) := fm.measurable.comp measurable_fst
    cases sharp
    · simpa using measurableSet_le measurable_snd hfm
    · simpa using measurableSet_lt measurable_snd hfm
  rw [hset, Measure.volume_eq_prod, Measure.prod_apply hmeas]
  have slice : ∀ r, volume (Prod.mk r ⁻¹' ((Ioo q 1 ×ˢ Ico (0:ℝ) 1)
      ∩ {r : ℝ × ℝ | if sharp then r.2 < f r.1 else r.2 ≤ f r.1}))
      = (Ioo q 1).indicator (fun r => ENNReal.ofReal (f r)) r := by
    intro r
    by_cases hr : r ∈ Ioo q 1
    · rw [indicator_of_mem hr]
      cases sharp
      · rw [← volume_le _ (f1 r)]
        congr 1
        ext s
        simp [hr.1, hr.2, and_assoc]
      · rw [← volume_lt _ (f1 r)]
        congr 1
        ext s
        simp [hr.1, hr.2, and_assoc]
    · rw [indicator_of_notMem hr]
      rw [show Prod.mk r ⁻¹' ((Ioo q 1 ×ˢ Ico (0:ℝ) 1)
        ∩ {r : ℝ × ℝ | if sharp then r.2 < f r.1 else r.2 ≤ f r.1}) = ∅ by
          ext s
          simp only [mem_preimage, mem_inter_iff, mem_prod, mem_empty_iff_false, iff_false]
          rintro ⟨⟨k, -⟩, -⟩
          exact hr k]
      exact measure_empty
  rw [lintegral_congr slice, lintegral_indicator measurableSet_Ioo]
  have image : quiet l₁ E '' Ioo e E = Ioo q 1 := by
    ext r
    constructor
    · rintro ⟨y, hy, rfl⟩
      refine ⟨a.quiet_strict h0 hy.1 hy.2.le, ?_⟩
      rw [← quiet_end l₁ E]
      exact a.quiet_strict (h0.trans hy.1.le) hy.2 le_rfl
    · intro hr
      have hr' : r ∈ Ico (0:ℝ) 1 := ⟨q0.le.trans hr.1.le, hr.2⟩
      have he := (lt_iff r hr').mpr hr.1
      refine ⟨x₁ r, ⟨he, ?_⟩, a.back hr'.1 hr'.2.le (h0.trans_lt he)⟩
      rw [a.lt_iff ((h0.trans_lt he).trans_le (a.mem' hr'.1 hr'.2.le).2) le_rfl hr'.1 hr'.2.le, quiet_end]
      exact hr.2
  rw [← image, lintegral_image_eq_lintegral_abs_deriv_mul measurableSet_Ioo
    (f' := fun y => l₁ y * quiet l₁ E y)
    (fun y hy => (a.quiet_deriv (h0.trans_lt hy.1) hy.2).hasDerivWithinAt)
    (fun y hy z hz k => by
      rw [← a.hit (h0.trans hy.1.le) hy.2.le, ← a.hit (h0.trans hz.1.le) hz.2.le, k])]
  apply setLIntegral_congr_fun measurableSet_Ioo
  intro y hy
  have hy0 := h0.trans hy.1.le
  have hl := a.pos y ⟨hy0, hy.2.le⟩
  have hq : quiet l₁ E y ∈ Ico (0:ℝ) 1 := by
    refine ⟨(quiet_pos _ _ _).le, ?_⟩
    rw [← quiet_end l₁ E]
    exact a.quiet_strict hy0 hy.2 le_rfl
  have hx := a.hit hy0 hy.2.le
  simp only
  rw [fx _ hq (by rw [hx]; exact hy.1), hx, abs_of_pos (mul_pos hl (quiet_pos _ _ _)),
    ← ENNReal.ofReal_mul (mul_pos hl (quiet_pos _ _ _)).le]
  congr 1
  unfold quiet
  rw [mul_assoc, ← Real.exp_add,
    intervalIntegral.integral_add (a.integrable hy0 hy.2.le le_rfl) (b.integrable (h0'.trans hy.1.le) hy.2.le le_rfl)]
  congr 2
  ring

end Competition
end Proposal
