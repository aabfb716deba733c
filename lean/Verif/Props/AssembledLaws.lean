import Verif.Props.Assembled
import Verif.Props.Rates

/-!
# C146: the laws of the utility made of cross sections
-/

open MeasureTheory Set

namespace Proposal

open Spec

/-- The energy loss per grammage of all cross sections together. -/
noncomputable def Spec.lossOf (xs : List XSec) (y : ℝ) : ℝ := (xs.map fun x => x.edx y).sum

/-- The variance of the energy loss per grammage of all cross sections together. -/
noncomputable def Spec.spreadOf (xs : List XSec) (y : ℝ) : ℝ := (xs.map fun x => x.e2dx y).sum

/-- The rate of the stochastic losses of all cross sections together. -/
noncomputable def Spec.rateOf (xs : List XSec) (y : ℝ) : ℝ := (xs.map fun x => x.ndx y).sum

/-- C146: the settings for which there is a utility. -/
theorem C146_constructed (c : UtilitySettings) :
    (∃ u, c.utility = some u) ↔ c.cross ≠ [] ∧ (c.contRand = true → some true ∈ c.cuts) := by
  constructor
  · rintro ⟨u, hu⟩
    obtain ⟨l, hl, h, _⟩ := utility_some hu
    refine ⟨fun h => ?_, h⟩
    rw [h] at hl
    cases hl
  · rintro ⟨h1, h2⟩
    unfold UtilitySettings.utility
    cases hl : lowerLimOf c.cross with
    | none =>
      cases hx : c.cross with
      | nil => exact absurd hx h1
      | cons x xs => rw [hx] at hl; cases hl
    | some l =>
      simp only [Option.bind_eq_bind, Option.bind_some]
      have : ¬(c.contRand && !contRandAllowed c.cuts) = true := by
        intro h
        rw [Bool.and_eq_true, Bool.not_eq_true'] at h
        have := (C61_allowed c.cuts).2 (h2 h.1)
        rw [this] at h
        exact absurd h.2 (by decide)
      rw [if_neg this]
      exact ⟨_, rfl⟩

/-- C146: the parts of the utility that are there for the settings, and the smallest of the lower limits. -/
theorem C146_parts (c : UtilitySettings) (u : Utility) (hu : c.utility = some u) :
    (∃ x ∈ c.cross, x.lowerLim = u.lowerLim) ∧ (∀ x ∈ c.cross, u.lowerLim ≤ x.lowerLim) ∧
    (u.decay.isSome = c.lifetime.isSome) ∧ (u.contRand.isSome = c.contRand) ∧ u.scattering = c.scattering ∧
    ∀ E r l, sampleLoss E (ratesOf c.cross E) r = .ok l → u.sampleLoss E r = l := by
  obtain ⟨l, hl, _, hm⟩ := utility_some hu
  obtain rfl := Option.some.inj hm
  obtain ⟨h1, h2⟩ := (C70_lower_limit c.cross).2 l hl
  refine ⟨h1, h2, ?_, ?_, rfl, ?_⟩
  · change (c.lifetime.map _).isSome = _
    rw [Option.isSome_map]
  · change (if c.contRand then _ else none : Option _).isSome = _
    cases c.contRand <;> rfl
  · intro E r v h
    change c.sample E r = v
    unfold UtilitySettings.sample
    rw [h]

lemma utility_fields {c : UtilitySettings} {u : Utility} (hu : c.utility = some u) :
    (∀ E e, u.lengthContinuous E e = ((c.displacement u.lowerLim).calculate c.junk E e).1) ∧
    (∀ E g, u.energyDistance E g = ((c.displacement u.lowerLim).upperLimit c.junk E g).orElse E) ∧
    (u.timeElapsed = if c.timeExact then exactTime (fun E e => ((c.time u.lowerLim).calculate c.junk E e).1) else approximateTime) ∧
    (∀ E r, u.interaction E r = ((c.interaction u.lowerLim).energyInteraction c.junk E r).orElse E) ∧
    (u.decay = c.lifetime.map fun t E r d => ((c.decay u.lowerLim).energyDecay t c.junk E r d).orElse E) ∧
    (u.contRand = if c.contRand then some (energyRandomizeOf c.N
      (fun E e => ((c.randomisation u.lowerLim).calculate c.junk E e).1) u.lowerLim) else none) := by
  obtain ⟨l, hl, _, hm⟩ := utility_some hu
  obtain rfl := Option.some.inj hm
  exact ⟨fun _ _ => rfl, fun _ _ => rfl, rfl, fun _ _ => rfl, rfl, rfl⟩

/-- C146: grammage and time between two energies. -/
theorem C146_grammage_partial (c : UtilitySettings) (u : Utility) (hu : c.utility = some u) (hc : GoodSettings c u.lowerLim)
    (E e : ℝ) (he : 0 < e) (hE : WellAbove E e) (hpos : ∀ y ∈ Icc e E, 0 < lossOf c.cross y) :
    u.lengthContinuous E e = ∫ y in e..E, 1 / lossOf c.cross y ∧
    (∀ g ρ, c.timeExact = false → u.timeElapsed E e g ρ = g / (ρ * SPEED)) ∧
    (∀ g ρ, c.timeExact = true → 0 ≤ c.mass → c.mass < e → u.timeElapsed E e g ρ =
      (∫ y in e..E, y / (Real.sqrt (y ^ 2 - c.mass ^ 2) * SPEED * lossOf c.cross y)) / ρ) := by
  obtain ⟨f1, f2, f3, f4, f5, f6⟩ := utility_fields hu
  have key : ∀ U : IntegralUtil, U.Q = c.Q → (U.calculate c.junk E e).1 = ∫ y in E..e, U.f y := by
    intro U hU
    exact calculate_exact { U with lower := e } (by change ExactQuadrature U.Q; rw [hU]; exact hc.quadrature) c.junk E he hE
  refine ⟨?_, ?_, ?_⟩
  · rw [f1, key _ rfl]
    exact integral_flip _ _ hE.1.le fun y hy => displacementIntegrand_neg (dedx := c.dedx) (hpos y hy)
  · intro g ρ ht
    rw [f3, ht]
    rfl
  · intro g ρ ht hm0 hm
    rw [f3, ht]
    change ((c.time u.lowerLim).calculate c.junk E e).1 / ρ = _
    rw [key _ rfl]
    congr 1
    refine integral_flip _ _ hE.1.le fun y hy => ?_
    exact timeIntegrand_neg (dedx := c.dedx) (hpos y hy) hm0 (hm.trans_le hy.1)

/-- C146: the energy after a grammage. -/
theorem C146_energy_partial (c : UtilitySettings) (u : Utility) (hu : c.utility = some u) (hc : GoodSettings c u.lowerLim)
    (E g : ℝ) (hE : WellAbove E u.lowerLim) (hpos : ∀ y ∈ Icc u.lowerLim E, 0 < lossOf c.cross y) (h0 : 0 ≤ g)
    (h1 : g ≤ ∫ y in u.lowerLim..E, 1 / lossOf c.cross y) :
    u.lowerLim ≤ u.energyDistance E g ∧ u.energyDistance E g ≤ E ∧ ∫ y in u.energyDistance E g..E, 1 / lossOf c.cross y = g := by
  obtain ⟨f1, f2, f3, f4, f5, f6⟩ := utility_fields hu
  obtain ⟨x, e1, e2, e3, e4⟩ := C99_energy_partial (c.displacement u.lowerLim) hc.quadrature hc.search c.dedx rfl c.junk E g hc.lower_pos hE
    hpos h0 h1
  rw [f2, e1]
  exact ⟨e2, e3, e4⟩

/-- C146: the energy of the next interaction. The integral of the rate over the grammage is the exponentially distributed number. -/
theorem C146_interaction_partial (c : UtilitySettings) (u : Utility) (hu : c.utility = some u) (hc : GoodSettings c u.lowerLim)
    (E r : ℝ) (hE : WellAbove E u.lowerLim) (hpos : ∀ y ∈ Icc u.lowerLim E, 0 < lossOf c.cross y ∧ 0 < rateOf c.cross y)
    (h0 : 0 < r) (h1 : r ≤ 1) :
    u.lowerLim ≤ u.interaction E r ∧ u.interaction E r ≤ E ∧
    ∫ y in u.interaction E r..E, rateOf c.cross y / lossOf c.cross y =
      min (-Real.log r) (∫ y in u.lowerLim..E, rateOf c.cross y / lossOf c.cross y) := by
  obtain ⟨f1, f2, f3, f4, f5, f6⟩ := utility_fields hu
  obtain ⟨x, e1, e2, e3, e4⟩ := C62_interaction_law_partial (c.interaction u.lowerLim) hc.quadrature hc.search c.dedx (totalRate c.cross) rfl
    c.junk E r hc.lower_pos hE hpos h0 h1
  rw [f4, e1]
  exact ⟨e2, e3, e4⟩

/-- C146: the energy of the decay of a particle with the lifetime `t`. -/
theorem C146_decay_partial (c : UtilitySettings) (u : Utility) (hu : c.utility = some u) (hc : GoodSettings c u.lowerLim)
    (t : ℝ) (ht : c.lifetime = some t) (E r ρ : ℝ) (hE : WellAbove E u.lowerLim)
    (hpos : ∀ y ∈ Icc u.lowerLim E, 0 < lossOf c.cross y) (h0 : 0 < r) (h1 : r ≤ 1) (hρ : 0 < ρ) :
    ∃ f, u.decay = some f ∧ u.lowerLim ≤ f E r ρ ∧ f E r ρ ≤ E ∧
      (∫ y in f E r ρ..E, c.mass / (SPEED * Real.sqrt (y ^ 2 - c.mass ^ 2) * lossOf c.cross y)) / ρ =
        min (-Real.log r * t)
          ((∫ y in u.lowerLim..E, c.mass / (SPEED * Real.sqrt (y ^ 2 - c.mass ^ 2) * lossOf c.cross y)) / ρ) := by
  obtain ⟨f1, f2, f3, f4, f5, f6⟩ := utility_fields hu
  obtain ⟨x, e1, e2, e3, e4⟩ := C62_decay_law_partial (c.decay u.lowerLim) hc.quadrature hc.search c.dedx c.mass t ρ rfl
    c.junk E r hc.lower_pos hE hpos h0 h1 hρ (hc.lifetime t ht)
  refine ⟨fun E r d => ((c.decay u.lowerLim).energyDecay t c.junk E r d).orElse E, ?_, ?_⟩
  · rw [f5, ht]
    rfl
  · dsimp only
    rw [e1]
    exact ⟨e2, e3, e4⟩

/-- C146: the randomised energy is drawn around the final energy with the variance of the losses between the energies. -/
theorem C146_randomised_partial (c : UtilitySettings) (u : Utility) (hu : c.utility = some u) (hc : GoodSettings c u.lowerLim)
    (hr : c.contRand = true) (E e r m : ℝ) (he : 0 < e) (hE : WellAbove E e) (hpos : ∀ y ∈ Icc e E, 0 < lossOf c.cross y)
    (hv : 0 ≤ ∫ y in e..E, spreadOf c.cross y / lossOf c.cross y) :
    ∃ f, u.contRand = some f ∧ f E e r m = sampleFromGaussian c.N e
      (Real.sqrt (∫ y in e..E, spreadOf c.cross y / lossOf c.cross y)) r (.at (max u.lowerLim m)) (.at E) := by
  obtain ⟨f1, f2, f3, f4, f5, f6⟩ := utility_fields hu
  refine ⟨energyRandomizeOf c.N (fun E e => ((c.randomisation u.lowerLim).calculate c.junk E e).1) u.lowerLim, ?_, ?_⟩
  · rw [f6, hr]
    rfl
  · have : ((c.randomisation u.lowerLim).calculate c.junk E e).1 = ∫ y in e..E, spreadOf c.cross y / lossOf c.cross y := by
      refine (calculate_exact { c.randomisation u.lowerLim with lower := e } hc.quadrature c.junk E he hE).trans ?_
      refine integral_flip _ _ hE.1.le fun y hy => ?_
      change displacementIntegrand c.dedx y * c.de2dx y = _
      rw [displacementIntegrand_neg (dedx := c.dedx) (hpos y hy)]
      change -(1 / lossOf c.cross y) * spreadOf c.cross y = _
      ring
    unfold energyRandomizeOf
    dsimp only
    rw [this, max_eq_left hv]

lemma Deep.loss (search : IState → Option ℝ) (y : ℝ) : lossOf (Deep.settings search).cross y = 1 := by
  simp [lossOf, Deep.settings, Deep.process]

lemma Deep.well : WellAbove 100 1 := by
  refine ⟨by norm_num, ?_, ?_⟩
  · unfold Different
    norm_num
  · simp only [Apart, coordinate]
    norm_num

/-- A particle with the energy loss 1 loses 99 on the grammage 99, and interacts after the grammage `-log r`. -/
example : ∃ search, GoodSettings (Deep.settings search) (Deep.util search).lowerLim ∧
    (Deep.util search).lengthContinuous 100 1 = 99 ∧ 100 - (Deep.util search).interaction 100 (1 / 2) = Real.log 2 := by
  obtain ⟨search, h⟩ := exactRefine_exists
  have hg := Deep.good search h
  have hw := Deep.well
  have l1 : (Deep.util search).lowerLim = 1 := rfl
  refine ⟨search, hg, ?_, ?_⟩
  · have := (C146_grammage_partial _ _ (Deep.util_eq search) hg 100 1 one_pos hw fun y _ => by
      rw [Deep.loss]; exact one_pos).1
    rw [this]
    simp only [Deep.loss]
    norm_num
  · have h1 : ∀ y, rateOf (Deep.settings search).cross y = 1 := fun y => by simp [rateOf, Deep.settings, Deep.process]
    have := (C146_interaction_partial _ _ (Deep.util_eq search) hg 100 (1 / 2) hw (fun y _ => by
      rw [Deep.loss, h1]; exact ⟨one_pos, one_pos⟩) (by norm_num) (by norm_num)).2.2
    simp only [Deep.loss, h1, l1] at this
    rw [intervalIntegral.integral_const, intervalIntegral.integral_const] at this
    have h2 : Real.log 2 < 1 := by linarith [Real.log_two_lt_d9]
    have h3 : -Real.log (1 / 2) = Real.log 2 := by rw [one_div, Real.log_inv, neg_neg]
    norm_num at this
    rw [this, h3, min_eq_left (by linarith)]

end Proposal
