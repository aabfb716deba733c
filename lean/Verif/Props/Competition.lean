import Verif.Lemmas.Competition
import Verif.Props.AssembledLaws
import Verif.Props.Isotropy

/-!
# C157: what happens next, and where

The two random numbers of an iteration of `Propagate` for the energies of the decay and of the stochastic interaction are
uniform in `[0, 1)` and independent.
-/

open MeasureTheory Set

namespace Proposal

/-- The stream of random numbers with the next two given. -/
def Spec.nextTwo (ω : ℕ → ℝ) (pos : ℕ) (r : ℝ × ℝ) : ℕ → ℝ :=
  Function.update (Function.update ω pos r.1) (pos + 1) r.2

/-- The number of interactions per energy lost. -/
noncomputable def Spec.interactionDensity (c : UtilitySettings) (y : ℝ) : ℝ :=
  (c.cross.map fun x => x.ndx y).sum / (c.cross.map fun x => x.edx y).sum

/-- The number of decays per energy lost: the proper time for the loss of the energy over the lifetime. -/
noncomputable def Spec.decayDensity (c : UtilitySettings) (τ ρ y : ℝ) : ℝ :=
  c.mass / Real.sqrt (y ^ 2 - c.mass ^ 2) / (SPEED * (ρ * (c.cross.map fun x => x.edx y).sum) * τ)

/-- A particle at the energy `E`: exact integration, continuous positive losses and rates. -/
structure Spec.Interacting (c : UtilitySettings) (lower E : ℝ) : Prop where
  quadrature : Spec.ExactQuadrature c.Q
  search : Spec.ExactRefine c.search
  limit : lowerLimOf c.cross = some lower
  lower_pos : 0 < lower
  energy : Spec.WellAbove E lower
  loss_pos : ∀ y ∈ Icc lower E, 0 < (c.cross.map fun x => x.edx y).sum
  rate_pos : ∀ y ∈ Icc lower E, 0 < (c.cross.map fun x => x.ndx y).sum
  loss_cont : ContinuousOn (fun y => (c.cross.map fun x => x.edx y).sum) (Icc lower E)
  rate_cont : ContinuousOn (fun y => (c.cross.map fun x => x.ndx y).sum) (Icc lower E)

/-- A decaying particle at the energy `E` in a medium of the density `ρ`. -/
structure Spec.Competing (c : UtilitySettings) (lower τ ρ E : ℝ) : Prop extends Spec.Interacting c lower E where
  lifetime : c.lifetime = some τ
  lifetime_pos : 0 < τ
  density_pos : 0 < ρ
  mass_pos : 0 < c.mass
  above_mass : c.mass < lower

open Spec

namespace Competition

variable {c : UtilitySettings} {lower τ ρ E : ℝ}

theorem interaction_law (h : Interacting c lower E) :
    Law (fun r => ((c.interaction lower).energyInteraction c.junk E r).orElse E) (interactionDensity c) lower E where
  le := h.energy.1.le
  pos := fun y hy => div_pos (h.rate_pos y hy) (h.loss_pos y hy)
  cont := h.rate_cont.div h.loss_cont fun y hy => (h.loss_pos y hy).ne'
  zero := by
    unfold IntegralUtil.energyInteraction
    rw [if_pos (Or.inl rfl)]
    rfl
  mem := fun r r0 r1 => by
    obtain ⟨x, e, x0, x1, -⟩ := C62_interaction_law_partial (c.interaction lower) h.quadrature h.search c.dedx (totalRate c.cross)
      rfl c.junk E r h.lower_pos h.energy (fun y hy => ⟨h.loss_pos y hy, h.rate_pos y hy⟩) r0 r1
    simp only [e, UOut.orElse]
    exact ⟨x0, x1⟩
  value := fun r r0 r1 => by
    obtain ⟨x, e, x0, x1, v⟩ := C62_interaction_law_partial (c.interaction lower) h.quadrature h.search c.dedx (totalRate c.cross)
      rfl c.junk E r h.lower_pos h.energy (fun y hy => ⟨h.loss_pos y hy, h.rate_pos y hy⟩) r0 r1
    simp only [e, UOut.orElse]
    exact v

theorem decayDensity_eq (y : ℝ) : decayDensity c τ ρ y
    = c.mass / (SPEED * Real.sqrt (y ^ 2 - c.mass ^ 2) * c.dedx y) / ρ / τ := by
  unfold decayDensity UtilitySettings.dedx
  rw [div_div, div_div, div_div]
  congr 1
  ring

theorem decay_law (h : Competing c lower τ ρ E) :
    Law (fun r => ((c.decay lower).energyDecay τ c.junk E r ρ).orElse E) (decayDensity c τ ρ) lower E := by
  have hS : 0 < SPEED := by unfold SPEED; norm_num
  have hm := h.mass_pos
  have hρ := h.density_pos
  have hτ := h.lifetime_pos
  have hr : ∀ y ∈ Icc lower E, 0 < Real.sqrt (y ^ 2 - c.mass ^ 2) := fun y hy =>
    Real.sqrt_pos.mpr (by nlinarith [hy.1, h.above_mass])
  have law := fun r r0 r1 => C62_decay_law_partial (c.decay lower) h.quadrature h.search c.dedx c.mass τ ρ rfl c.junk E r
      (h.mass_pos.trans h.above_mass) h.energy h.loss_pos r0 r1 hρ hτ
  refine ⟨h.energy.1.le, fun y hy => ?_, ?_, ?_, fun r r0 r1 => ?_, fun r r0 r1 => ?_⟩
  · have := hr y hy
    have := h.loss_pos y hy
    unfold decayDensity
    positivity
  · unfold decayDensity
    refine ContinuousOn.div (ContinuousOn.div continuousOn_const ?_ fun y hy => (hr y hy).ne') ?_ fun y hy => ?_
    · exact (Real.continuous_sqrt.comp ((continuous_pow 2).sub continuous_const)).continuousOn
    · exact (continuousOn_const.mul (continuousOn_const.mul h.loss_cont)).mul continuousOn_const
    · have := h.loss_pos y hy
      positivity
  · unfold IntegralUtil.energyDecay
    rw [if_pos (Or.inl rfl)]
    rfl
  · obtain ⟨x, e, x0, x1, -⟩ := law r r0 r1
    simp only [e, UOut.orElse]
    exact ⟨x0, x1⟩
  · obtain ⟨x, e, x0, x1, v⟩ := law r r0 r1
    simp only [e, UOut.orElse]
    simp only [decayDensity_eq]
    rw [intervalIntegral.integral_div, intervalIntegral.integral_div, v, intervalIntegral.integral_div,
      intervalIntegral.integral_div]
    rw [← min_div_div_right hτ.le, mul_div_cancel_right₀ _ hτ.ne']
    rfl

/-- The utility of a particle that decays. -/
theorem energies (h : Competing c lower τ ρ E) (u : Utility) (hu : c.utility = some u) (a : PropArgs) (q : Prop')
    (hq : q.sector.util = u) (hE : q.state.energy = E) (hd : q.sector.dens.evaluate q.state.position = ρ) (r : ℝ × ℝ) :
    (eDecayOf { a with ω := nextTwo a.ω q.pos r } q).1 = ((c.decay lower).energyDecay τ c.junk E r.1 ρ).orElse E ∧
    (eStochOf { a with ω := nextTwo a.ω q.pos r } q).1 = ((c.interaction lower).energyInteraction c.junk E r.2).orElse E ∧
    eMinOf { a with ω := nextTwo a.ω q.pos r } q = max a.minEnergy lower := by
  obtain ⟨l, hl, -, hm⟩ := utility_some hu
  obtain rfl : lower = l := Option.some.inj (h.limit.symm.trans hl)
  obtain rfl := Option.some.inj hm
  have hdec : q.sector.util.decay = some fun E r d => ((c.decay lower).energyDecay τ c.junk E r d).orElse E := by
    rw [hq]
    show c.lifetime.map _ = _
    rw [h.lifetime]
    rfl
  have hw0 : nextTwo a.ω q.pos r q.pos = r.1 := by
    unfold nextTwo
    rw [Function.update_of_ne (by omega), Function.update_self]
  have hw1 : nextTwo a.ω q.pos r (q.pos + 1) = r.2 := by
    unfold nextTwo
    rw [Function.update_self]
  refine ⟨?_, ?_, ?_⟩
  · unfold eDecayOf Utility.energyDecay
    rw [hdec]
    simp only [hw0, hE, hd]
  · unfold eStochOf eDecayOf Utility.energyInteraction Utility.energyDecay
    rw [hdec]
    simp only [hw1, hE]
    rw [hq]
  · unfold eMinOf
    rw [hq]

theorem next_max (a : PropArgs) (q : Prop') :
    eNextOf a q = max (max (eDecayOf a q).1 (eMinOf a q)) (eStochOf a q).1 := by
  unfold eNextOf nextOf maximize
  by_cases h1 : (eDecayOf a q).1 < eMinOf a q
  · simp only [h1, if_true]
    by_cases h2 : eMinOf a q < (eStochOf a q).1
    · simp only [h2, if_true, max_eq_right h1.le, max_eq_right h2.le]
    · simp only [h2, if_false, max_eq_right h1.le, max_eq_left (not_lt.mp h2)]
  · simp only [h1, if_false]
    by_cases h2 : (eDecayOf a q).1 < (eStochOf a q).1
    · simp only [h2, if_true, max_eq_left (not_lt.mp h1), max_eq_right h2.le]
    · simp only [h2, if_false, max_eq_left (not_lt.mp h1), max_eq_left (not_lt.mp h2)]

theorem next_decay (a : PropArgs) (q : Prop') (e : ℝ) (hm : eMinOf a q ≤ e) :
    (nextOf a q = .decay ∧ e < eNextOf a q) ↔ (e < (eDecayOf a q).1 ∧ (eStochOf a q).1 ≤ (eDecayOf a q).1) := by
  rw [next_max]
  unfold nextOf maximize
  by_cases h1 : (eDecayOf a q).1 < eMinOf a q
  · simp only [h1, if_true]
    constructor
    · rintro ⟨k, -⟩
      split_ifs at k
    · rintro ⟨k, -⟩; linarith
  · simp only [h1, if_false]
    by_cases h2 : (eDecayOf a q).1 < (eStochOf a q).1
    · simp only [h2, if_true]
      constructor
      · rintro ⟨k, -⟩; cases k
      · rintro ⟨-, k⟩; linarith
    · simp only [h2, if_false, max_eq_left (not_lt.mp h1), max_eq_left (not_lt.mp h2)]
      exact ⟨fun k => ⟨k.2, not_lt.mp h2⟩, fun k => ⟨trivial, k.1⟩⟩

theorem next_stochastic (a : PropArgs) (q : Prop') (e : ℝ) (hm : eMinOf a q ≤ e) :
    (nextOf a q = .stochastic ∧ e < eNextOf a q) ↔ (e < (eStochOf a q).1 ∧ (eDecayOf a q).1 < (eStochOf a q).1) := by
  rw [next_max]
  unfold nextOf maximize
  by_cases h1 : (eDecayOf a q).1 < eMinOf a q
  · simp only [h1, if_true]
    by_cases h2 : eMinOf a q < (eStochOf a q).1
    · simp only [h2, if_true, max_eq_right h1.le, max_eq_right h2.le]
      exact ⟨fun k => ⟨k.2, h1.trans h2⟩, fun k => ⟨trivial, k.1⟩⟩
    · simp only [h2, if_false]
      constructor
      · rintro ⟨k, -⟩; cases k
      · rintro ⟨k, -⟩; linarith
  · simp only [h1, if_false]
    by_cases h2 : (eDecayOf a q).1 < (eStochOf a q).1
    · simp only [h2, if_true, max_eq_left (not_lt.mp h1), max_eq_right h2.le]
      exact ⟨fun k => ⟨k.2, trivial⟩, fun k => ⟨trivial, k.1⟩⟩
    · simp only [h2, if_false]
      constructor
      · rintro ⟨k, -⟩; cases k
      · rintro ⟨-, k⟩; exact k.elim

end Competition

open Competition

/-- C157: the probability that the next event is not above an energy is the exponential of minus the expected number of
interactions and decays above it. Missing: the numerics are exact. -/
theorem C157_next_energy_partial (c : UtilitySettings) (lower τ ρ : ℝ) (u : Utility) (hu : c.utility = some u) (a : PropArgs)
    (q : Prop') (h : Competing c lower τ ρ q.state.energy) (hq : q.sector.util = u)
    (hd : q.sector.dens.evaluate q.state.position = ρ) (e : ℝ) (h0 : lower ≤ e) (h1 : a.minEnergy ≤ e)
    (h2 : e ≤ q.state.energy) :
    chance {r | eNextOf { a with ω := nextTwo a.ω q.pos r } q ≤ e}
      = ENNReal.ofReal (Real.exp (-∫ y in e..q.state.energy, (decayDensity c τ ρ y + interactionDensity c y))) := by
  rw [← neither (decay_law h) (interaction_law h.toInteracting) h0 h0 h2]
  unfold chance Draws
  congr 2
  ext r
  obtain ⟨k1, k2, k3⟩ := energies h u hu a q hq rfl hd r
  simp only [mem_ofPred_eq, next_max, k1, k2, k3, max_le_iff]
  exact ⟨fun k => ⟨k.1.1, k.2⟩, fun k => ⟨⟨k.1, h1, h0⟩, k.2⟩⟩

/-- C157: the probability that the next event is a decay above an energy: the decays per energy lost, each with the
probability that nothing happened before. Missing: the numerics are exact. -/
theorem C157_decay_partial (c : UtilitySettings) (lower τ ρ : ℝ) (u : Utility) (hu : c.utility = some u) (a : PropArgs)
    (q : Prop') (h : Competing c lower τ ρ q.state.energy) (hq : q.sector.util = u)
    (hd : q.sector.dens.evaluate q.state.position = ρ) (e : ℝ) (h0 : lower ≤ e) (h1 : a.minEnergy ≤ e)
    (h2 : e ≤ q.state.energy) :
    chance {r | nextOf { a with ω := nextTwo a.ω q.pos r } q = .decay ∧ e < eNextOf { a with ω := nextTwo a.ω q.pos r } q}
      = ∫⁻ z in Ioo e q.state.energy, ENNReal.ofReal (decayDensity c τ ρ z
          * Real.exp (-∫ y in z..q.state.energy, (decayDensity c τ ρ y + interactionDensity c y))) := by
  rw [← first (decay_law h) (interaction_law h.toInteracting) h0 h0 h2 false]
  unfold chance Draws
  congr 2
  ext r
  obtain ⟨k1, k2, k3⟩ := energies h u hu a q hq rfl hd r
  have hm : eMinOf { a with ω := nextTwo a.ω q.pos r } q ≤ e := by rw [k3]; exact max_le h1 h0
  simp only [mem_ofPred_eq, next_decay _ q e hm, k1, k2]
  simp

/-- C157: the probability that the next event is an interaction above an energy: the interactions per energy lost, each
with the probability that nothing happened before. Missing: the numerics are exact. -/
theorem C157_interaction_partial (c : UtilitySettings) (lower τ ρ : ℝ) (u : Utility) (hu : c.utility = some u) (a : PropArgs)
    (q : Prop') (h : Competing c lower τ ρ q.state.energy) (hq : q.sector.util = u)
    (hd : q.sector.dens.evaluate q.state.position = ρ) (e : ℝ) (h0 : lower ≤ e) (h1 : a.minEnergy ≤ e)
    (h2 : e ≤ q.state.energy) :
    chance {r | nextOf { a with ω := nextTwo a.ω q.pos r } q = .stochastic ∧
        e < eNextOf { a with ω := nextTwo a.ω q.pos r } q}
      = ∫⁻ z in Ioo e q.state.energy, ENNReal.ofReal (interactionDensity c z
          * Real.exp (-∫ y in z..q.state.energy, (decayDensity c τ ρ y + interactionDensity c y))) := by
  have swap : ∀ z, (∫ y in z..q.state.energy, (decayDensity c τ ρ y + interactionDensity c y))
      = ∫ y in z..q.state.energy, (interactionDensity c y + decayDensity c τ ρ y) := fun z => by
    congr 1; funext y; ring
  simp only [swap]
  rw [← first (interaction_law h.toInteracting) (decay_law h) h0 h0 h2 true]
  unfold chance Draws
  have sw : ∀ A : Set (ℝ × ℝ), volume (Prod.swap ⁻¹' A) = volume A := by
    intro A
    have : MeasurePreserving (MeasurableEquiv.prodComm : ℝ × ℝ ≃ᵐ ℝ × ℝ) volume volume := by
      refine ⟨MeasurableEquiv.prodComm.measurable, ?_⟩
      rw [Measure.volume_eq_prod]
      exact Measure.prod_swap
    exact this.measure_preimage_equiv A
  rw [← sw]
  congr 1
  ext ⟨s, r⟩
  obtain ⟨k1, k2, k3⟩ := energies h u hu a q hq rfl hd (r, s)
  have hm : eMinOf { a with ω := nextTwo a.ω q.pos (r, s) } q ≤ e := by rw [k3]; exact max_le h1 h0
  simp only [mem_preimage, Prod.swap_prod_mk, mem_inter_iff, mem_ofPred_eq, mem_prod, next_stochastic _ q e hm, k1, k2,
    if_true]
  exact ⟨fun k => ⟨k.1, k.2.2, k.2.1⟩, fun k => ⟨k.1, k.2.2, k.2.1⟩⟩

/-- C157: for a stable particle only the interactions count. Missing: the numerics are exact. -/
theorem C157_stable_partial (c : UtilitySettings) (lower : ℝ) (u : Utility) (hu : c.utility = some u)
    (hs : c.lifetime = none) (a : PropArgs) (q : Prop') (h : Interacting c lower q.state.energy) (hq : q.sector.util = u)
    (e : ℝ) (h0 : lower ≤ e) (h1 : a.minEnergy ≤ e) (h2 : e ≤ q.state.energy) :
    volume ({r | eNextOf { a with ω := Function.update a.ω q.pos r } q ≤ e} ∩ Ico (0 : ℝ) 1)
      = ENNReal.ofReal (Real.exp (-∫ y in e..q.state.energy, interactionDensity c y)) := by
  have law := interaction_law h
  obtain ⟨l, hl, -, hm⟩ := utility_some hu
  obtain rfl : lower = l := Option.some.inj (h.limit.symm.trans hl)
  obtain rfl := Option.some.inj hm
  have hdec : q.sector.util.decay = none := by
    rw [hq]
    show c.lifetime.map _ = _
    rw [hs]
    rfl
  have k1 : ∀ w, eDecayOf { a with ω := w } q = (0, q.pos) := fun w => by
    unfold eDecayOf Utility.energyDecay
    rw [hdec]
  have k2 : ∀ r, (eStochOf { a with ω := Function.update a.ω q.pos r } q).1
      = ((c.interaction lower).energyInteraction c.junk q.state.energy r).orElse q.state.energy := fun r => by
    unfold eStochOf Utility.energyInteraction
    rw [k1]
    simp only [Function.update_self]
    rw [hq]
  have k3 : ∀ r, eMinOf { a with ω := Function.update a.ω q.pos r } q = max a.minEnergy lower := fun r => by
    unfold eMinOf
    rw [hq]
  have hset : {r | eNextOf { a with ω := Function.update a.ω q.pos r } q ≤ e} ∩ Ico (0 : ℝ) 1
      = Ico 0 1 ∩ Iic (quiet (interactionDensity c) q.state.energy e) := by
    ext r
    simp only [mem_inter_iff, mem_ofPred_eq, mem_Iic, next_max, k1, k2, k3, max_le_iff]
    constructor
    · rintro ⟨⟨-, k⟩, hr⟩
      exact ⟨hr, (law.le_iff h0 h2 hr.1 hr.2.le).mp k⟩
    · rintro ⟨hr, k⟩
      exact ⟨⟨⟨h.lower_pos.le.trans h0, h1, h0⟩, (law.le_iff h0 h2 hr.1 hr.2.le).mpr k⟩, hr⟩
  rw [hset, volume_le _ (law.quiet_le h0 h2)]
  rfl

/-- C157: whatever the numerics, the random numbers of the energies of decay and interaction are the next two of the
stream, each used once. -/
theorem C157_two_numbers (c : UtilitySettings) (u : Utility) (hu : c.utility = some u) (τ : ℝ) (hτ : c.lifetime = some τ)
    (a : PropArgs) (q : Prop') (hq : q.sector.util = u) (ω' : ℕ → ℝ) (h0 : ω' q.pos = a.ω q.pos)
    (h1 : ω' (q.pos + 1) = a.ω (q.pos + 1)) :
    eNextOf { a with ω := ω' } q = eNextOf a q ∧ nextOf { a with ω := ω' } q = nextOf a q ∧
    (eStochOf a q).2 = q.pos + 2 := by
  obtain ⟨l, hl, -, hm⟩ := utility_some hu
  obtain rfl := Option.some.inj hm
  have hdec : q.sector.util.decay = some fun E r d => ((c.decay l).energyDecay τ c.junk E r d).orElse E := by
    rw [hq]
    show c.lifetime.map _ = _
    rw [hτ]
    rfl
  have e1 : eDecayOf { a with ω := ω' } q = eDecayOf a q := by
    unfold eDecayOf Utility.energyDecay
    rw [hdec]
    simp only [h0]
  have p1 : (eDecayOf a q).2 = q.pos + 1 := by
    unfold eDecayOf Utility.energyDecay
    rw [hdec]
  have e2 : eStochOf { a with ω := ω' } q = eStochOf a q := by
    unfold eStochOf Utility.energyInteraction
    rw [e1, p1]
    simp only [h1]
  have e3 : eMinOf { a with ω := ω' } q = eMinOf a q := rfl
  have e4 : nextOf { a with ω := ω' } q = nextOf a q := by unfold nextOf; rw [e1, e2, e3]
  refine ⟨?_, e4, ?_⟩
  · rw [next_max, next_max, e1, e2, e3]
  · unfold eStochOf Utility.energyInteraction
    rw [p1]

/-- The particle of `Deep`, with the constant energy loss 1 and the rate 1, is a case. -/
example (search : IState → Option ℝ) (h : ExactRefine search) : Competing (Deep.settings search) 1 1 1 100 where
  quadrature := exactQ_exact
  search := h
  limit := rfl
  lower_pos := one_pos
  lifetime := rfl
  lifetime_pos := one_pos
  density_pos := one_pos
  mass_pos := by norm_num [Deep.settings]
  above_mass := by norm_num [Deep.settings]
  energy := Deep.well
  loss_pos := fun y _ => by simp [Deep.settings, Deep.process]
  rate_pos := fun y _ => by simp [Deep.settings, Deep.process]
  loss_cont := by simpa [Deep.settings, Deep.process] using continuousOn_const
  rate_cont := by simpa [Deep.settings, Deep.process] using continuousOn_const

/-- And so is the same particle without decay. -/
example (search : IState → Option ℝ) (h : ExactRefine search) :
    Interacting { Deep.settings search with lifetime := none } 1 100 where
  quadrature := exactQ_exact
  search := h
  limit := rfl
  lower_pos := one_pos
  energy := Deep.well
  loss_pos := fun y _ => by simp [Deep.settings, Deep.process]
  rate_pos := fun y _ => by simp [Deep.settings, Deep.process]
  loss_cont := by simpa [Deep.settings, Deep.process] using continuousOn_const
  rate_cont := by simpa [Deep.settings, Deep.process] using continuousOn_const

end Proposal
