import Verif.Props.FirstInteraction
import Verif.Props.FreePath

/-!
# C162 and C157 for the track: particles that pass, and decays
-/

open MeasureTheory Set Filter Topology

namespace Proposal

open Spec Competition FreePath LossLaw

/-- An iteration of `Propagate` takes the particle to the maximal distance, adds nothing but a continuous loss to the track and ends the
propagation. -/
def Spec.Passes (a : PropArgs) (q : Prop') : Prop :=
  ∃ q', propStep a q = .ok q' ∧ q'.track = q.track ++ [⟨q'.state, .continuousEnergyLoss, 0⟩] ∧ q'.state.distance = a.maxDistance ∧
    q'.running = false

/-- A particle in a homogeneous sector of the density `ρ` that is larger than its range, before the maximal distance, and not scattered. -/
structure Spec.InLargeSector (c : UtilitySettings) (lower ρ : ℝ) (a : PropArgs) (q : Prop') : Prop where
  density : q.sector.dens = homogeneousDensity ρ
  inside : q.sector.geo.isInside q.state.position q.state.direction
  large : (∫ y in lower..q.state.energy, 1 / lossOf c.cross y) / ρ + PARTICLE_POSITION_RESOLUTION <
    distanceToBorder a.sectors q.state.position q.state.direction q.sector.geo
  before : q.state.distance < a.maxDistance
  minimum : a.minEnergy ≤ q.state.energy
  straight : c.scattering = none

/-- An iteration of `Propagate` adds a continuous loss down to an energy above `e` and a decay at that energy to the track, and ends the
propagation. -/
def Spec.Decays (a : PropArgs) (q : Prop') (e : ℝ) : Prop :=
  ∃ q' s, propStep a q = .ok q' ∧ q'.track = q.track ++ [⟨s, .continuousEnergyLoss, 0⟩, ⟨s, .decay, 0⟩] ∧ e < s.energy ∧ q'.running = false

namespace FreePath

variable {c : UtilitySettings} {u : Utility} {lower τ ρ E : ℝ}

/-- Energies below one that is well below another are so, too. -/
lemma well_mono {e e' : ℝ} (h : WellAbove E e) (h0 : 0 < e') (h1 : e' ≤ e) : WellAbove E e' := by
  obtain ⟨a1, a2, a3⟩ := h
  have hE : 0 < E := h0.trans (h1.trans_lt a1)
  refine ⟨h1.trans_lt a1, ?_, ?_⟩
  · unfold Different at a2 ⊢
    rw [abs_of_neg (by linarith : e - E < 0)] at a2
    rw [abs_of_neg (by linarith : e' - E < 0)]
    linarith
  · unfold Apart coordinate at a3 ⊢
    norm_num at a3 ⊢
    have l1 : Real.log e' ≤ Real.log e := Real.log_le_log h0 h1
    have l2 : Real.log e < Real.log E := Real.log_lt_log (h0.trans_le h1) a1
    generalize Real.log E = A at *
    generalize Real.log e = C at *
    generalize Real.log e' = B at *
    rw [abs_of_pos (by linarith : 0 < A - C)] at a3
    rw [abs_of_pos (by linarith : 0 < A - B)]
    have m1 := le_max_left |A| |C|
    have m2 := le_max_right |A| |C|
    rcases max_cases |A| |B| with ⟨hm, -⟩ | ⟨hm, -⟩ <;> rw [hm]
    · linarith
    · have hA := neg_abs_le A
      have hA' := le_abs_self A
      have hC := neg_abs_le C
      have hC' := le_abs_self C
      rcases abs_cases B with ⟨hB, hB'⟩ | ⟨hB, hB'⟩ <;> rw [hB]
      · linarith
      · linarith

lemma length_exact (hu : c.utility = some u) (h : Interacting c lower E) {e : ℝ} (he : lower ≤ e) (hE : WellAbove E e) :
    u.lengthContinuous E e = ∫ y in e..E, 1 / lossOf c.cross y := by
  rw [(utility_fields hu).1]
  rw [show ((c.displacement u.lowerLim).calculate c.junk E e).1 = ∫ y in E..e, (c.displacement u.lowerLim).f y from
    calculate_exact { c.displacement u.lowerLim with lower := e } h.quadrature c.junk E (h.lower_pos.trans_le he) hE]
  exact integral_flip _ _ hE.1.le fun y hy => displacementIntegrand_neg (dedx := c.dedx) (h.loss_pos y ⟨he.trans hy.1, hy.2⟩)

/-- Without the assumption on the energies the length may be zero. -/
lemma length_cases (hu : c.utility = some u) (h : Interacting c lower E) {e : ℝ} (he : lower ≤ e) (hE : e ≤ E) :
    u.lengthContinuous E e = 0 ∨ u.lengthContinuous E e = ∫ y in e..E, 1 / lossOf c.cross y := by
  rw [(utility_fields hu).1]
  rcases calculate_cases (c.displacement u.lowerLim) h.quadrature c.junk E e (h.lower_pos.trans_le he) hE with ⟨-, k⟩ | ⟨-, k⟩
  · exact Or.inl k
  · refine Or.inr (k.trans ?_)
    exact integral_flip _ _ hE fun y hy => displacementIntegrand_neg (dedx := c.dedx) (h.loss_pos y ⟨he.trans hy.1, hy.2⟩)

lemma inverse_int (h : Interacting c lower E) {x y : ℝ} (hx : lower ≤ x) (hxy : x ≤ y) (hy : y ≤ E) :
    IntervalIntegrable (fun y => 1 / lossOf c.cross y) volume x y := by
  refine ContinuousOn.intervalIntegrable ?_
  rw [uIcc_of_le hxy]
  exact (inverse_cont h hx).mono (Icc_subset_Icc_right hy)

lemma inverse_nonneg (h : Interacting c lower E) {x y : ℝ} (hx : lower ≤ x) (hxy : x ≤ y) (hy : y ≤ E) :
    0 ≤ ∫ z in x..y, 1 / lossOf c.cross z :=
  intervalIntegral.integral_nonneg hxy fun z hz => (one_div_pos.mpr (h.loss_pos z ⟨hx.trans hz.1, hz.2.trans hy⟩)).le

lemma inverse_lt (h : Interacting c lower E) {x y : ℝ} (hx : lower ≤ x) (hxy : x < y) (hy : y ≤ E) :
    ∫ z in y..E, 1 / lossOf c.cross z < ∫ z in x..E, 1 / lossOf c.cross z := by
  have := intervalIntegral.intervalIntegral_pos_of_pos_on (inverse_int h hx hxy.le hy)
      (fun z hz => one_div_pos.mpr (h.loss_pos z ⟨hx.trans hz.1.le, hz.2.le.trans hy⟩)) hxy
  have := intervalIntegral.integral_add_adjacent_intervals (inverse_int h hx hxy.le hy) (inverse_int h (hx.trans hxy.le) hy le_rfl)
  linarith

/-- The next energy is one of the possible ones. -/
lemma next_mem (h : Competing c lower τ ρ E) (hu : c.utility = some u) (a : PropArgs) (q : Prop') (hE : q.state.energy = E)
    (hq : q.sector.util = u) (hd : q.sector.dens.evaluate q.state.position = ρ) (hmin : a.minEnergy ≤ E) {r : ℝ × ℝ} (hr : r ∈ Draws) :
    lower ≤ eNextOf { a with ω := nextTwo a.ω q.pos r } q ∧ eNextOf { a with ω := nextTwo a.ω q.pos r } q ≤ E := by
  obtain ⟨k1, k2, k3⟩ := energies h u hu a q hq hE hd r
  rw [next_max, k1, k2, k3]
  have m1 := (decay_law h).mem' hr.1.1 hr.1.2.le
  have m2 := (interaction_law h.toInteracting).mem' hr.2.1 hr.2.2.le
  exact ⟨m2.1.trans (le_max_right _ _), max_le (max_le m1.2 (max_le hmin h.energy.1.le)) m2.2⟩

lemma no_scattering (hu : c.utility = some u) (hs : c.scattering = none) : u.scattering = none := by
  obtain ⟨l, -, -, hm⟩ := utility_some hu
  obtain rfl := Option.some.inj hm
  exact hs

/-- A sampled interaction has the type of one of the cross sections. -/
lemma sample_type (hx : ∀ x ∈ c.cross, x.type ≠ .decay) (E r : ℝ) : (c.sample E r).type ≠ .decay := by
  unfold UtilitySettings.sample
  split
  · rename_i l hl
    unfold sampleLoss at hl
    simp only at hl
    cases hg : sampleGo (ratesOf c.cross E) (r * ((ratesOf c.cross E).map Rate.rate).sum) with
    | none =>
      rw [hg] at hl
      simp only at hl
      split_ifs at hl
      cases hl
      simp
    | some p =>
      rw [hg] at hl
      obtain ⟨y, left⟩ := p
      simp only at hl
      have hm : y.cross ∈ c.cross := by
        have := sampleGo_mem _ _ _ _ hg
        unfold ratesOf at this
        simp only [List.mem_flatMap, List.mem_map] at this
        obtain ⟨x, h1, p, h2, rfl⟩ := this
        exact h1
      cases hv : y.cross.stochasticLoss y.hash E left with
      | error e => rw [hv] at hl; cases hl
      | ok v =>
        rw [hv] at hl
        cases hl
        exact hx _ hm
  · simp

/-- A particle whose next event is beyond the maximal distance passes. -/
lemma passes_of (h : Interacting c lower E) (hu : c.utility = some u) (a : PropArgs) (q : Prop') (hE : q.state.energy = E)
    (hq : q.sector.util = u) (hρ : 0 < ρ) (hL : InLargeSector c lower ρ a q)
    (h1 : (a.maxDistance - q.state.distance) * ρ ≤ ∫ y in lower..E, 1 / lossOf c.cross y)
    (hw : WellAbove E (u.energyDistance E ((a.maxDistance - q.state.distance) * ρ)))
    (hlow : lower ≤ eNextOf a q) (hn : eNextOf a q < u.energyDistance E ((a.maxDistance - q.state.distance) * ρ)) : Passes a q := by
  obtain ⟨d1, d2, d3, d4, d5, d6⟩ := hL
  have hs := no_scattering hu d6
  subst hq
  subst hE
  generalize hX : a.maxDistance - q.state.distance = X at *
  have X0 : 0 < X := by linarith
  obtain ⟨b1, b2, b3⟩ := FreePath.after hu h (g := X * ρ) (by positivity) h1
  have e0 : 0 < eNextOf a q := h.lower_pos.trans_le hlow
  have hlen := length_exact hu h hlow (well_mono hw e0 hn.le)
  have hlt := inverse_lt h hlow hn b2
  rw [b3, ← hlen] at hlt
  have hle : q.sector.util.lengthContinuous q.state.energy (eNextOf a q) ≤ ∫ y in lower..q.state.energy, 1 / lossOf c.cross y := by
    rw [hlen]
    have := inverse_nonneg h le_rfl hlow (hn.le.trans b2)
    have := intervalIntegral.integral_add_adjacent_intervals (inverse_int h le_rfl hlow (hn.le.trans b2))
      (inverse_int h hlow (hn.le.trans b2) le_rfl)
    linarith
  have hlt' : X < q.sector.util.lengthContinuous q.state.energy (eNextOf a q) / ρ := by rwa [lt_div_iff₀ hρ]
  have hle' : q.sector.util.lengthContinuous q.state.energy (eNextOf a q) / ρ ≤
      (∫ y in lower..q.state.energy, 1 / lossOf c.cross y) / ρ := div_le_div_of_nonneg_right hle hρ.le
  have hres : 0 < PARTICLE_POSITION_RESOLUTION := by unfold PARTICLE_POSITION_RESOLUTION; norm_num
  have hcal : q.sector.dens.calculate q.state.position q.state.direction X = X * ρ := by
    rw [d1]
    simp [homogeneousDensity, homogeneousCalculate, homogeneousIntegrate, mul_comm]
  have hsc : ∀ w m g e, q.sector.util.directionsScatter w m g q.state.energy e q.state.direction = (q.state.direction, q.state.direction, m) := by
    intro w m g e
    unfold Utility.directionsScatter
    rw [hs]
  obtain ⟨s, k1, k2, k3⟩ := C12_end_reached a q (eNextOf a q) (eStochOf a q).2 ⟨next_max a q, rfl⟩
    (some (q.sector.util.lengthContinuous q.state.energy (eNextOf a q) / ρ)) _ X _ q.state.direction q.state.direction
    (Memo.init (eStochOf a q).2) _ ⟨by linarith, by rw [d1]; rfl, ⟨_, _, _, hsc _ _ _ _, d2, rfl, hsc _ _ _ _⟩,
      by rw [hX]; exact (min_eq_right (by linarith)).symm, fun d hd => by
        obtain rfl := Option.some.inj hd
        refine ⟨hlt', ?_⟩
        rw [abs_of_neg (by linarith)]
        linarith, by linarith, by rw [hcal]; exact hlt, rfl, by rw [hcal]; exact hn.ne', d2, rfl⟩ hX.symm (by linarith) _ _ rfl rfl
  exact ⟨_, k3, rfl, k2, rfl⟩

/-- A particle that passes has its next event not before the maximal distance. -/
lemma of_passes (h : Interacting c lower E) (hu : c.utility = some u) (a : PropArgs) (q : Prop') (hE : q.state.energy = E)
    (hq : q.sector.util = u) (hρ : 0 < ρ) (hL : InLargeSector c lower ρ a q)
    (h1 : (a.maxDistance - q.state.distance) * ρ ≤ ∫ y in lower..E, 1 / lossOf c.cross y)
    (hlow : lower ≤ eNextOf a q) (hup : eNextOf a q ≤ E) (hp : Passes a q) :
    eNextOf a q ≤ u.energyDistance E ((a.maxDistance - q.state.distance) * ρ) := by
  classical
  obtain ⟨d1, d2, d3, d4, d5, d6⟩ := hL
  have hs := no_scattering hu d6
  subst hq
  subst hE
  generalize hX : a.maxDistance - q.state.distance = X at *
  have X0 : 0 < X := by linarith
  obtain ⟨b1, b2, b3⟩ := FreePath.after hu h (g := X * ρ) (by positivity) h1
  by_contra hc
  push Not at hc
  have hlen : q.sector.util.lengthContinuous q.state.energy (eNextOf a q) < X * ρ := by
    rcases length_cases hu h hlow hup with k | k
    · rw [k]; positivity
    · rw [k, ← b3]
      exact inverse_lt h b1 hc hup
  have hlen' : q.sector.util.lengthContinuous q.state.energy (eNextOf a q) / ρ < X := by rwa [div_lt_iff₀ hρ]
  have hlen2 : X ≤ (∫ y in lower..q.state.energy, 1 / lossOf c.cross y) / ρ := by rwa [le_div_iff₀ hρ]
  have hres : 0 < PARTICLE_POSITION_RESOLUTION := by unfold PARTICLE_POSITION_RESOLUTION; norm_num
  have e0 : 0 < eNextOf a q := h.lower_pos.trans_le hlow
  have hu' : Undisturbed a q (eNextOf a q) (eStochOf a q).2 (q.sector.util.lengthContinuous q.state.energy (eNextOf a q) / ρ)
      q.state.direction q.state.direction (Memo.init (eStochOf a q).2) := by
    refine ⟨by linarith, by rw [d1]; rfl, ?_, d2, by linarith, by rw [hX]; exact hlen'.le⟩
    unfold Utility.directionsScatter
    rw [hs]
  obtain ⟨q', k1, k2, k3, k4⟩ := hp
  rw [step_undisturbed a q _ _ _ _ hu'] at k1
  have hdist : q'.state.distance = q.state.distance + q.sector.util.lengthContinuous q.state.energy (eNextOf a q) / ρ := by
    unfold react finish at k1
    simp only at k1
    cases hn : nextOf a q <;> rw [hn] at k1 <;> simp only at k1 <;> obtain rfl := Except.ok.inj k1 <;> rfl
  linarith

end FreePath

/-- C162: the probability that a propagation ends at the maximal distance without any event on the way, in a homogeneous sector that is
larger than the range of the particle. Missing: the numerics are exact. -/
theorem C162_ends_partial (c : UtilitySettings) (lower τ ρ : ℝ) (u : Utility) (hu : c.utility = some u) (a : PropArgs) (q : Prop')
    (h : Competing c lower τ ρ q.state.energy) (hq : q.sector.util = u) (hL : InLargeSector c lower ρ a q)
    (h1 : (a.maxDistance - q.state.distance) * ρ ≤ ∫ y in lower..q.state.energy, 1 / lossOf c.cross y) (e : ℝ)
    (he : e = u.energyDistance q.state.energy ((a.maxDistance - q.state.distance) * ρ)) (hw : WellAbove q.state.energy e)
    (h2 : lower < e) (h3 : a.minEnergy < e) :
    chance {r | Passes { a with ω := nextTwo a.ω q.pos r } q}
      = ENNReal.ofReal (Real.exp (-∫ y in e..q.state.energy, (decayDensity c τ ρ y + interactionDensity c y))) := by
  have hd : q.sector.dens.evaluate q.state.position = ρ := by rw [hL.density]; rfl
  have hL' : ∀ r, InLargeSector c lower ρ { a with ω := nextTwo a.ω q.pos r } q := fun r =>
    ⟨hL.density, hL.inside, hL.large, hL.before, hL.minimum, hL.straight⟩
  have low : ∀ r, lower ≤ eNextOf { a with ω := nextTwo a.ω q.pos r } q := fun r => by
    obtain ⟨k1, k2, k3⟩ := energies h u hu a q hq rfl hd r
    rw [next_max, k3]
    exact (le_max_right _ _).trans ((le_max_right _ _).trans (le_max_left _ _))
  apply le_antisymm
  · rw [← C157_next_energy_partial c lower τ ρ u hu a q h hq hd e h2.le h3.le hw.1.le]
    unfold chance
    refine measure_mono fun r hr => ⟨?_, hr.2⟩
    have := of_passes h.toInteracting hu { a with ω := nextTwo a.ω q.pos r } q rfl hq h.density_pos (hL' r) h1 (low r)
      (next_mem h hu a q rfl hq hd hL.minimum hr.2).2 hr.1
    rw [he]
    exact this
  · have key : ∀ e' ∈ Ico (max lower a.minEnergy) e,
        ENNReal.ofReal (Real.exp (-∫ y in e'..q.state.energy, (decayDensity c τ ρ y + interactionDensity c y)))
          ≤ chance {r | Passes { a with ω := nextTwo a.ω q.pos r } q} := fun e' he' => by
      rw [← C157_next_energy_partial c lower τ ρ u hu a q h hq hd e' ((le_max_left _ _).trans he'.1) ((le_max_right _ _).trans he'.1)
        (he'.2.le.trans hw.1.le)]
      unfold chance
      refine measure_mono fun r hr => ⟨?_, hr.2⟩
      refine passes_of h.toInteracting hu { a with ω := nextTwo a.ω q.pos r } q rfl hq h.density_pos (hL' r) h1 ?_ (low r) ?_
      · rw [he] at hw; exact hw
      · have hlt : eNextOf { a with ω := nextTwo a.ω q.pos r } q < e := lt_of_le_of_lt hr.1 he'.2
        rw [he] at hlt; exact hlt
    have hm : max lower a.minEnergy < e := max_lt h2 h3
    have hne : (𝓝[Ico (max lower a.minEnergy) e] e).NeBot := by
      rw [← mem_closure_iff_nhdsWithin_neBot, closure_Ico hm.ne]
      exact right_mem_Icc.mpr hm.le
    have hcont : ContinuousOn (fun x => ∫ y in x..q.state.energy, (decayDensity c τ ρ y + interactionDensity c y)) (Icc lower q.state.energy) := by
      have := intervalIntegral.continuousOn_primitive_interval_left (μ := volume) (a := lower) (b := q.state.energy)
        (f := fun y => decayDensity c τ ρ y + interactionDensity c y) (by
          rw [uIcc_of_le h.energy.1.le]
          exact ((decay_law h).cont.add (interaction_law h.toInteracting).cont).integrableOn_Icc)
      rwa [uIcc_of_le h.energy.1.le] at this
    have ht : Tendsto (fun e' => ENNReal.ofReal (Real.exp (-∫ y in e'..q.state.energy, (decayDensity c τ ρ y + interactionDensity c y))))
        (𝓝[Ico (max lower a.minEnergy) e] e)
        (𝓝 (ENNReal.ofReal (Real.exp (-∫ y in e..q.state.energy, (decayDensity c τ ρ y + interactionDensity c y))))) := by
      refine ENNReal.tendsto_ofReal (Real.continuous_exp.continuousAt.tendsto.comp (Tendsto.neg ?_))
      have := hcont e ⟨h2.le, hw.1.le⟩
      exact this.mono_left (nhdsWithin_mono _ fun x hx => ⟨(le_max_left _ _).trans hx.1, hx.2.le.trans hw.1.le⟩)
    exact le_of_tendsto ht (eventually_of_mem self_mem_nhdsWithin key)

/-- C157: the decay in the track, in a step with nothing in the way, without continuous randomization and multiple scattering. -/
theorem C157_decay_entry_partial (c : UtilitySettings) (lower τ ρ : ℝ) (u : Utility) (hu : c.utility = some u) (hcr : c.contRand = false)
    (hsc : c.scattering = none) (a : PropArgs) (q : Prop') (h : Competing c lower τ ρ q.state.energy) (hq : q.sector.util = u)
    (hd : q.sector.dens.evaluate q.state.position = ρ) (hclear : ∀ E1, lower ≤ E1 → E1 ≤ q.state.energy → Unhindered a q E1)
    (hmin : a.minEnergy ≤ q.state.energy) (hx : ∀ x ∈ c.cross, x.type ≠ .decay)
    (e : ℝ) (h0 : lower ≤ e) (h1 : a.minEnergy ≤ e) (h2 : e ≤ q.state.energy) :
    chance {r | Decays { a with ω := nextTwo a.ω q.pos r } q e}
      = ∫⁻ z in Ioo e q.state.energy, ENNReal.ofReal (decayDensity c τ ρ z
          * Real.exp (-∫ y in z..q.state.energy, (decayDensity c τ ρ y + interactionDensity c y))) := by
  classical
  have hnodecay := sample_type hx
  rw [← C157_decay_partial c lower τ ρ u hu a q h hq hd e h0 h1 h2]
  have hcol : u.scattering = none ∧ u.contRand = none ∧ u.sampleLoss = c.sample := by
    obtain ⟨l, -, -, hm'⟩ := utility_some hu
    obtain rfl := Option.some.inj hm'
    refine ⟨hsc, ?_, rfl⟩
    show (if c.contRand = true then _ else none) = none
    rw [hcr]
    rfl
  unfold chance
  congr 1
  ext r
  simp only [mem_inter_iff, mem_ofPred_eq, and_congr_left_iff]
  intro hr
  obtain ⟨m1, m2⟩ := next_mem h hu a q rfl hq hd hmin hr
  obtain ⟨s1, e1, e2⟩ := step_clear (a := { a with ω := nextTwo a.ω q.pos r }) (q := q) (by rw [hq]; exact hcol.1)
    (by rw [hq]; exact hcol.2.1) (hclear _ m1 m2)
  constructor
  · rintro ⟨q', s, k1, k2, k3, k4⟩
    rw [e2] at k1
    cases hn : nextOf { a with ω := nextTwo a.ω q.pos r } q with
    | decay =>
      rw [hn] at k1
      simp only [react] at k1
      obtain rfl := Except.ok.inj k1
      simp at k2
      rw [← e1, k2]
      exact ⟨rfl, k3⟩
    | minimalE =>
      rw [hn] at k1
      simp only [react] at k1
      obtain rfl := Except.ok.inj k1
      simp at k2
    | stochastic =>
      rw [hn] at k1
      simp only [react] at k1
      obtain rfl := Except.ok.inj k1
      simp only at k2
      split_ifs at k2 with hty
      · simp at k2
        have hk := k2.2.2.1
        simp only [doStochastic, Utility.stochasticLoss] at hk
        rw [hq, hcol.2.2] at hk
        exact absurd hk (hnodecay _ _)
      · simp at k2
  · rintro ⟨hn, k⟩
    rw [hn] at e2
    simp only [react] at e2
    exact ⟨_, s1, e2, by simp, by rw [e1]; exact k, rfl⟩

/-- C162 fails in a medium whose density is not constant: the decay depends on the density at the start of the step only. In an atmosphere
of falling density there are particles that decay after any multiple `K` of the lifetimes that the law gives for their random number `r`:
they fly a length `d` of `K (-log r)` decay lengths. -/
theorem C162_inhomogeneous (K : ℝ) (search : IState → Option ℝ) (h : ExactRefine search) :
    ∃ (D : ExpDensity) (x dir : Vec3) (r d : ℝ) (f : ℝ → ℝ → ℝ → ℝ), 0 < r ∧ r < 1 ∧ (Deep.util search).decay = some f ∧
      f 100 r (D.evaluate x) = 99 ∧ D.correct x dir ((Deep.util search).lengthContinuous 100 99) = .dist d ∧
      K * (-Real.log r) < d / decayLength (Deep.settings search).mass 1 100 := by
  have hc := deep search h
  have law := decay_law hc
  have hn : 0 < 2 * |K| + 1 := by positivity
  generalize hnn : 2 * |K| + 1 = n at hn
  have hx1 : Real.exp (-n) < 1 := Real.exp_lt_one_iff.mpr (by linarith)
  have hx0 := Real.exp_pos (-n)
  have hw : WellAbove 100 99 := by
    refine ⟨by norm_num, by unfold Different; norm_num, ?_⟩
    have l1 : Real.log (100 / 99) = Real.log 100 - Real.log 99 := Real.log_div (by norm_num) (by norm_num)
    have l2 : 1 / 100 ≤ Real.log (100 / 99) := by
      have := Real.one_sub_inv_le_log_of_pos (show (0 : ℝ) < 100 / 99 by norm_num)
      norm_num at this ⊢
      linarith
    have l3 : Real.log 100 ≤ 99 := by
      have := Real.log_le_sub_one_of_pos (show (0 : ℝ) < 100 by norm_num)
      linarith
    have l4 : 0 ≤ Real.log 99 := Real.log_nonneg (by norm_num)
    unfold Apart coordinate
    norm_num
    rw [abs_of_nonneg (by linarith), abs_of_nonneg l4, abs_of_nonneg (by linarith), max_eq_left (by linarith)]
    linarith
  have hlen : (Deep.util search).lengthContinuous 100 99 = 1 := by
    rw [length_exact (Deep.util_eq search) hc.toInteracting (by norm_num) hw]
    simp only [deep_loss]
    norm_num
  obtain ⟨-, d2⟩ := decays hc (e := 99) (by norm_num) (by norm_num)
  have hint : ∫ y in (99 : ℝ)..100, 1 / lossOf (Deep.settings search).cross y = 1 := by
    simp only [deep_loss]
    norm_num
  rw [hint, mul_one, one_mul] at d2
  have hm : (Deep.settings search).mass = 1 / 2 := rfl
  rw [hm] at d2 ⊢
  have hpos := law.strict (x := fun r => (((Deep.settings search).decay 1).energyDecay 1 (Deep.settings search).junk 100 r 1).orElse 100)
    (show (1 : ℝ) ≤ 99 by norm_num) (show (99 : ℝ) < 100 by norm_num) le_rfl
  rw [intervalIntegral.integral_same] at hpos
  refine ⟨⟨.cartesian ⟨1, 0, 0⟩ 0, -(1 / (1 - Real.exp (-n))), 0, 1⟩, 0, ⟨1, 0, 0⟩, Competition.quiet (decayDensity (Deep.settings search) 1 1) 100 99,
    1 / (1 - Real.exp (-n)) * n, _, Real.exp_pos _, ?_, rfl, ?_, ?_, ?_⟩
  · exact Real.exp_lt_one_iff.mpr (by linarith)
  · have hev : ExpDensity.evaluate ⟨.cartesian ⟨1, 0, 0⟩ 0, -(1 / (1 - Real.exp (-n))), 0, 1⟩ 0 = 1 := by
      simp [ExpDensity.evaluate, ExpDensity.depth, Axis.depth, Vec3.dot]
    rw [hev]
    exact law.hit (by norm_num) (by norm_num)
  · rw [hlen]
    have heff : ExpDensity.effective ⟨.cartesian ⟨1, 0, 0⟩ 0, -(1 / (1 - Real.exp (-n))), 0, 1⟩ 0 ⟨1, 0, 0⟩ = some (-(1 - Real.exp (-n))) := by
      simp [ExpDensity.effective, Axis.effective, Vec3.dot]
    have hdep : ExpDensity.depth ⟨.cartesian ⟨1, 0, 0⟩ 0, -(1 / (1 - Real.exp (-n))), 0, 1⟩ 0 = 0 := by
      simp [ExpDensity.depth, Axis.depth, Vec3.dot]
    unfold ExpDensity.correct
    rw [heff, hdep]
    simp only [neg_zero, Real.exp_zero]
    have ha : 1 + 1 * 1 * -(1 - Real.exp (-n)) / 1 = Real.exp (-n) := by ring
    rw [ha, if_neg (by linarith), if_neg (by linarith), if_neg (by linarith), Real.log_exp]
    congr 1
    have : 1 - Real.exp (-n) ≠ 0 := by linarith
    field_simp
  · have hlog : -Real.log (Competition.quiet (decayDensity (Deep.settings search) 1 1) 100 99)
        = ∫ y in (99 : ℝ)..100, decayDensity (Deep.settings search) 1 1 y := by
      unfold Competition.quiet
      rw [Real.log_exp, neg_neg]
    rw [hlog]
    have hS := speed_pos
    have p1 : 98 ≤ momentumAt (1 / 2) 99 := Real.le_sqrt_of_sq_le (by norm_num)
    have p2 : momentumAt (1 / 2) 100 ≤ 100 := Real.sqrt_le_iff.mpr ⟨by norm_num, by norm_num⟩
    have p3 : 0 < momentumAt (1 / 2) 100 := momentum_pos (by norm_num) (by norm_num)
    have b1 : ∫ y in (99 : ℝ)..100, decayDensity (Deep.settings search) 1 1 y ≤ 1 / (196 * SPEED) := by
      refine d2.trans (one_div_le_one_div_of_le (by positivity) ?_)
      unfold decayLength
      nlinarith
    have b2 : n / (200 * SPEED) ≤ 1 / (1 - Real.exp (-n)) * n / decayLength (1 / 2) 1 100 := by
      have c1 : n ≤ 1 / (1 - Real.exp (-n)) * n := by
        have : 1 ≤ 1 / (1 - Real.exp (-n)) := by
          rw [le_div_iff₀ (by linarith)]
          linarith
        nlinarith
      have c2 : decayLength (1 / 2) 1 100 ≤ 200 * SPEED := by
        unfold decayLength
        nlinarith
      have c3 : 0 < decayLength (1 / 2) 1 100 := by
        unfold decayLength
        positivity
      exact div_le_div₀ (by positivity) c1 c3 c2
    refine lt_of_lt_of_le ?_ b2
    have b3 : K * (∫ y in (99 : ℝ)..100, decayDensity (Deep.settings search) 1 1 y) ≤ |K| * (1 / (196 * SPEED)) :=
      (mul_le_mul_of_nonneg_right (le_abs_self K) hpos.le).trans (mul_le_mul_of_nonneg_left b1 (abs_nonneg K))
    refine b3.trans_lt ?_
    rw [mul_one_div, div_lt_div_iff₀ (by positivity) (by positivity), ← hnn]
    nlinarith [abs_nonneg K, mul_nonneg (abs_nonneg K) hS.le]

/-! ## Examples -/

/-- The particle of `Deep` with the range 99 is in a sector that reaches 1000 far. -/
lemma FreePath.deep_large (search : IState → Option ℝ) :
    InLargeSector (Deep.settings search) 1 1 (Deep.args search) ⟨Deep.init, Deep.sector search, [], 0, true⟩ := by
  have hd : (Deep.sector search).geo.dist Deep.init.position Deep.init.direction = (1000, -1) := by
    have := Deep.dist search 0 le_rfl (by norm_num)
    have e : Deep.init.position + (0 : ℝ) • Deep.init.direction = Deep.init.position := by ext <;> simp
    rw [e, sub_zero] at this
    exact this
  refine ⟨rfl, ?_, ?_, by norm_num [Deep.init, Deep.args], by norm_num [Deep.init, Deep.args], rfl⟩
  · show (Deep.sector search).geo.isInside Deep.init.position Deep.init.direction
    unfold Geo.isInside
    rw [hd]
    constructor <;> norm_num
  · simp only [deep_loss]
    simp only [distanceToBorder, Deep.args, List.foldl, hd, lt_irrefl, if_false]
    norm_num [Deep.init, PARTICLE_POSITION_RESOLUTION]

/-- It passes the maximal distance 20 with a probability below `exp(-20)`. -/
example (search : IState → Option ℝ) (h : ExactRefine search) :
    let q : Prop' := ⟨Deep.init, Deep.sector search, [], 0, true⟩
    chance {r | Passes { Deep.args search with ω := nextTwo (Deep.args search).ω q.pos r } q} ≤ ENNReal.ofReal (Real.exp (-20)) := by
  intro q
  have hX : (Deep.args search).maxDistance - q.state.distance = 20 := by norm_num [Deep.args, q, Deep.init]
  have hint : ∫ y in (1 : ℝ)..q.state.energy, 1 / lossOf (Deep.settings search).cross y = 99 := by
    simp only [deep_loss]; norm_num [q, Deep.init]
  have he : (Deep.util search).energyDistance q.state.energy (20 * 1) = 80 := by
    obtain ⟨-, -, h3⟩ := FreePath.after (Deep.util_eq search) (deep search h).toInteracting (g := 20 * 1) (by norm_num)
      (by simp only [deep_loss]; norm_num)
    simp only [deep_loss, div_one, intervalIntegral.integral_const, smul_eq_mul, mul_one] at h3
    have : q.state.energy = 100 := rfl
    rw [this, mul_one]
    linarith
  have hr : ∀ y, rateOf (Deep.settings search).cross y = 1 := fun y => by simp [rateOf, Deep.settings, Deep.process]
  have hmin : (Deep.args search).minEnergy = 1 := rfl
  have hw : WellAbove q.state.energy 80 := by
    have hE : q.state.energy = 100 := rfl
    rw [hE]
    refine ⟨by norm_num, by unfold Different; norm_num, ?_⟩
    have l1 : Real.log (100 / 80) = Real.log 100 - Real.log 80 := Real.log_div (by norm_num) (by norm_num)
    have l2 : 1 / 10 ≤ Real.log (100 / 80) := by
      have := Real.one_sub_inv_le_log_of_pos (show (0 : ℝ) < 100 / 80 by norm_num)
      norm_num at this ⊢
      linarith
    have l3 : Real.log 100 ≤ 99 := by
      have := Real.log_le_sub_one_of_pos (show (0 : ℝ) < 100 by norm_num)
      linarith
    have l4 : 0 ≤ Real.log 80 := Real.log_nonneg (by norm_num)
    unfold Apart coordinate
    norm_num
    rw [abs_of_nonneg (by linarith), abs_of_nonneg l4, abs_of_nonneg (by linarith), max_eq_left (by linarith)]
    linarith
  have k1 := C162_ends_partial (Deep.settings search) 1 1 1 (Deep.util search) (Deep.util_eq search) (Deep.args search) q (deep search h) rfl
    (deep_large search) (by rw [hX, hint]; norm_num) 80 (by rw [hX, he]) hw (by norm_num) (by rw [hmin]; norm_num)
  rw [k1, ← C157_next_energy_partial (Deep.settings search) 1 1 1 (Deep.util search) (Deep.util_eq search) (Deep.args search) q (deep search h)
    rfl rfl 80 (by norm_num) (by rw [hmin]; norm_num) hw.1.le]
  have k2 := (C162_passes_partial (Deep.settings search) 1 1 1 (Deep.util search) (Deep.util_eq search) (Deep.args search) q (deep search h) rfl
    rfl 20 (by norm_num) (by rw [hint]; norm_num) (by rw [he, hmin]; norm_num) 1 1 (fun y _ => by rw [hr]; norm_num)).2
  rw [he] at k2
  refine k2.trans (ENNReal.ofReal_le_ofReal (Real.exp_le_exp.mpr ?_))
  have : 0 ≤ 20 / decayLength (Deep.settings search).mass 1 q.state.energy := by
    refine div_nonneg (by norm_num) ?_
    unfold decayLength momentumAt SPEED
    have : (0 : ℝ) ≤ (Deep.settings search).mass := by norm_num [Deep.settings]
    positivity
  linarith

end Proposal
