import Verif.Props.Competition

/-!
# C162: free paths and decay lengths

The laws of the next event in terms of what is observed: the distance, the amount of matter and the time.
-/

open MeasureTheory Set

namespace Proposal

/-- The momentum of a particle of the mass `m`. -/
noncomputable def Spec.momentumAt (m E : ℝ) : ℝ := Real.sqrt (E ^ 2 - m ^ 2)

/-- The decay length of a particle of the mass `m` and the lifetime `τ`: its velocity times its dilated lifetime. -/
noncomputable def Spec.decayLength (m τ E : ℝ) : ℝ := Spec.momentumAt m E / m * SPEED * τ

open Spec

namespace FreePath

variable {c : UtilitySettings} {u : Utility} {lower τ ρ E : ℝ}

/-- An integral between two multiples of another one. -/
lemma between {f g : ℝ → ℝ} {a b k l : ℝ} (hab : a ≤ b) (hf : ContinuousOn f (Icc a b)) (hg : ContinuousOn g (Icc a b))
    (h : ∀ y ∈ Icc a b, k * g y ≤ f y ∧ f y ≤ l * g y) :
    k * (∫ y in a..b, g y) ≤ ∫ y in a..b, f y ∧ ∫ y in a..b, f y ≤ l * ∫ y in a..b, g y := by
  have i1 : IntervalIntegrable f volume a b := (by rwa [uIcc_of_le hab] : ContinuousOn f (uIcc a b)).intervalIntegrable
  have i2 : IntervalIntegrable g volume a b := (by rwa [uIcc_of_le hab] : ContinuousOn g (uIcc a b)).intervalIntegrable
  rw [← intervalIntegral.integral_const_mul, ← intervalIntegral.integral_const_mul]
  exact ⟨intervalIntegral.integral_mono_on hab (i2.const_mul k) i1 fun y hy => (h y hy).1,
    intervalIntegral.integral_mono_on hab i1 (i2.const_mul l) fun y hy => (h y hy).2⟩

lemma inverse_cont (h : Interacting c lower E) {e : ℝ} (he : lower ≤ e) : ContinuousOn (fun y => 1 / lossOf c.cross y) (Icc e E) :=
  continuousOn_const.div (h.loss_cont.mono (Icc_subset_Icc_left he)) fun y hy => (h.loss_pos y ⟨he.trans hy.1, hy.2⟩).ne'

lemma momentum_pos {m y : ℝ} (hm : 0 < m) (hy : m < y) : 0 < momentumAt m y := Real.sqrt_pos.mpr (by nlinarith)

lemma momentum_mono {m x y : ℝ} (hm : 0 < m) (hx : m < x) (h : x ≤ y) : momentumAt m x ≤ momentumAt m y :=
  Real.sqrt_le_sqrt (by nlinarith)

lemma speed_pos : 0 < SPEED := by unfold SPEED; norm_num

lemma decay_cont (h : Competing c lower τ ρ E) {e : ℝ} (he : lower ≤ e) : ContinuousOn (decayDensity c τ ρ) (Icc e E) :=
  (Competition.decay_law h).cont.mono (Icc_subset_Icc_left he)

/-- The number of interactions between two energies. -/
lemma interactions (h : Interacting c lower E) {e : ℝ} (he : lower ≤ e) (hE : e ≤ E) (k l : ℝ)
    (hr : ∀ y ∈ Icc e E, k ≤ rateOf c.cross y ∧ rateOf c.cross y ≤ l) :
    k * (∫ y in e..E, 1 / lossOf c.cross y) ≤ ∫ y in e..E, interactionDensity c y ∧
    ∫ y in e..E, interactionDensity c y ≤ l * ∫ y in e..E, 1 / lossOf c.cross y := by
  refine between hE ((Competition.interaction_law h).cont.mono (Icc_subset_Icc_left he)) (inverse_cont h he) fun y hy => ?_
  have hL : 0 < lossOf c.cross y := h.loss_pos y ⟨he.trans hy.1, hy.2⟩
  obtain ⟨h1, h2⟩ := hr y hy
  change k * (1 / lossOf c.cross y) ≤ rateOf c.cross y / lossOf c.cross y ∧ rateOf c.cross y / lossOf c.cross y ≤ _
  rw [mul_one_div, mul_one_div]
  exact ⟨div_le_div_of_nonneg_right h1 hL.le, div_le_div_of_nonneg_right h2 hL.le⟩

/-- The number of decays between two energies. -/
lemma decays (h : Competing c lower τ ρ E) {e : ℝ} (he : lower ≤ e) (hE : e ≤ E) :
    1 / (ρ * decayLength c.mass τ E) * (∫ y in e..E, 1 / lossOf c.cross y) ≤ ∫ y in e..E, decayDensity c τ ρ y ∧
    ∫ y in e..E, decayDensity c τ ρ y ≤ 1 / (ρ * decayLength c.mass τ e) * ∫ y in e..E, 1 / lossOf c.cross y := by
  refine between hE (decay_cont h he) (inverse_cont h.toInteracting he) fun y hy => ?_
  have hL : 0 < lossOf c.cross y := h.loss_pos y ⟨he.trans hy.1, hy.2⟩
  have hm := h.mass_pos
  have hτ := h.lifetime_pos
  have hρ := h.density_pos
  have hS := speed_pos
  have hme : c.mass < e := h.above_mass.trans_le he
  have pe := momentum_pos hm hme
  have py := momentum_pos hm (hme.trans_le hy.1)
  have l1 := momentum_mono hm hme hy.1
  have l2 := momentum_mono hm (hme.trans_le hy.1) hy.2
  have key : decayDensity c τ ρ y = 1 / (ρ * decayLength c.mass τ y) * (1 / lossOf c.cross y) := by
    change c.mass / momentumAt c.mass y / (SPEED * (ρ * lossOf c.cross y) * τ) = _
    unfold decayLength
    field_simp
  rw [key]
  unfold decayLength
  have hE0 := pe.trans_le (l1.trans l2)
  constructor
  · refine mul_le_mul_of_nonneg_right ?_ (by positivity)
    refine one_div_le_one_div_of_le (by positivity) ?_
    gcongr
  · refine mul_le_mul_of_nonneg_right ?_ (by positivity)
    refine one_div_le_one_div_of_le (by positivity) ?_
    gcongr

end FreePath

open FreePath

/-- C162: the expected number of decays over a piece of the track is the time that the particle took, dilated with its energy at
the beginning at most and at the end at least, over the lifetime. -/
theorem C162_time_partial (c : UtilitySettings) (lower τ ρ E : ℝ) (u : Utility) (hu : c.utility = some u)
    (h : Competing c lower τ ρ E) (ht : c.timeExact = true) (e : ℝ) (he : lower ≤ e) (hE : WellAbove E e) (g : ℝ) :
    u.timeElapsed E e g ρ / (E / c.mass * τ) ≤ ∫ y in e..E, decayDensity c τ ρ y ∧
    ∫ y in e..E, decayDensity c τ ρ y ≤ u.timeElapsed E e g ρ / (e / c.mass * τ) := by
  obtain ⟨f1, f2, f3, f4, f5, f6⟩ := utility_fields hu
  have hm := h.mass_pos
  have hτ := h.lifetime_pos
  have hρ := h.density_pos
  have hS := speed_pos
  have hme : c.mass < e := h.above_mass.trans_le he
  have e0 : 0 < e := hm.trans hme
  have hpos : ∀ y ∈ Icc e E, 0 < lossOf c.cross y := fun y hy => h.loss_pos y ⟨he.trans hy.1, hy.2⟩
  have key : u.timeElapsed E e g ρ = (∫ y in e..E, y / (momentumAt c.mass y * SPEED * lossOf c.cross y)) / ρ := by
    rw [f3, ht]
    change ((c.time u.lowerLim).calculate c.junk E e).1 / ρ = _
    rw [show ((c.time u.lowerLim).calculate c.junk E e).1 = ∫ y in E..e, (c.time u.lowerLim).f y from
      calculate_exact { c.time u.lowerLim with lower := e } h.quadrature c.junk E e0 hE]
    congr 1
    exact integral_flip _ _ hE.1.le fun y hy => timeIntegrand_neg (dedx := c.dedx) (hpos y hy) hm.le (hme.trans_le hy.1)
  have hcont : ContinuousOn (fun y => y / (momentumAt c.mass y * SPEED * lossOf c.cross y)) (Icc e E) := by
    refine continuousOn_id.div ?_ fun y hy => ?_
    · refine ContinuousOn.mul (ContinuousOn.mul ?_ continuousOn_const) (h.loss_cont.mono (Icc_subset_Icc_left he))
      exact (Real.continuous_sqrt.comp ((continuous_pow 2).sub continuous_const)).continuousOn
    · have := hpos y hy
      have := momentum_pos hm (hme.trans_le hy.1)
      positivity
  have E0 : 0 < E := e0.trans hE.1
  obtain ⟨b1, b2⟩ := between (k := c.mass / (E * τ * ρ)) (l := c.mass / (e * τ * ρ)) hE.1.le (decay_cont h he) hcont fun y hy => by
    have hL := hpos y hy
    have py := momentum_pos hm (hme.trans_le hy.1)
    have y0 : 0 < y := e0.trans_le hy.1
    have : decayDensity c τ ρ y = c.mass / (y * τ * ρ) * (y / (momentumAt c.mass y * SPEED * lossOf c.cross y)) := by
      change c.mass / momentumAt c.mass y / (SPEED * (ρ * lossOf c.cross y) * τ) = _
      field_simp
    rw [this]
    constructor
    · refine mul_le_mul_of_nonneg_right ?_ (by positivity)
      have := hy.2
      gcongr
    · refine mul_le_mul_of_nonneg_right ?_ (by positivity)
      have := hy.1
      gcongr
  rw [key]
  generalize (∫ y in e..E, y / (momentumAt c.mass y * SPEED * lossOf c.cross y)) = T at b1 b2 ⊢
  refine ⟨le_of_eq_of_le ?_ b1, le_of_le_of_eq b2 ?_⟩ <;> field_simp

/-- C162: the expected number of interactions over a piece of the track is its amount of matter times the rate. -/
theorem C162_matter_partial (c : UtilitySettings) (lower E : ℝ) (u : Utility) (hu : c.utility = some u) (h : Interacting c lower E)
    (e : ℝ) (he : lower ≤ e) (hE : WellAbove E e) (k l : ℝ)
    (hr : ∀ y ∈ Icc e E, k ≤ rateOf c.cross y ∧ rateOf c.cross y ≤ l) :
    k * u.lengthContinuous E e ≤ ∫ y in e..E, interactionDensity c y ∧
    ∫ y in e..E, interactionDensity c y ≤ l * u.lengthContinuous E e := by
  have key : u.lengthContinuous E e = ∫ y in e..E, 1 / lossOf c.cross y := by
    rw [(utility_fields hu).1]
    rw [show ((c.displacement u.lowerLim).calculate c.junk E e).1 = ∫ y in E..e, (c.displacement u.lowerLim).f y from
      calculate_exact { c.displacement u.lowerLim with lower := e } h.quadrature c.junk E (h.lower_pos.trans_le he) hE]
    exact integral_flip _ _ hE.1.le fun y hy => displacementIntegrand_neg (dedx := c.dedx) (h.loss_pos y ⟨he.trans hy.1, hy.2⟩)
  rw [key]
  exact interactions h he hE.1.le k l hr

/-- The energy after an amount of matter. -/
lemma FreePath.after {c : UtilitySettings} {u : Utility} {lower E : ℝ} (hu : c.utility = some u) (h : Interacting c lower E) {g : ℝ}
    (h0 : 0 ≤ g) (h1 : g ≤ ∫ y in lower..E, 1 / lossOf c.cross y) :
    lower ≤ u.energyDistance E g ∧ u.energyDistance E g ≤ E ∧ ∫ y in u.energyDistance E g..E, 1 / lossOf c.cross y = g := by
  obtain ⟨l, hl, -, hm⟩ := utility_some hu
  obtain rfl : lower = l := Option.some.inj (h.limit.symm.trans hl)
  obtain rfl := Option.some.inj hm
  obtain ⟨x, e1, e2, e3, e4⟩ := C99_energy_partial (c.displacement lower) h.quadrature h.search c.dedx rfl c.junk E g h.lower_pos h.energy
    h.loss_pos h0 h1
  change lower ≤ ((c.displacement lower).upperLimit c.junk E g).orElse E ∧ ((c.displacement lower).upperLimit c.junk E g).orElse E ≤ E ∧
    ∫ y in ((c.displacement lower).upperLimit c.junk E g).orElse E..E, 1 / lossOf c.cross y = g
  rw [e1]
  exact ⟨e2, e3, e4⟩

/-- C162: the probability that a particle passes the length `s` of a medium of the density `ρ` with neither an interaction nor a decay
is that of the physical law: with `k` interactions per grammage at least and `l` at most, and with the decay lengths of the particle
before and after. Missing: the numerics are exact. -/
theorem C162_passes_partial (c : UtilitySettings) (lower τ ρ : ℝ) (u : Utility) (hu : c.utility = some u) (a : PropArgs) (q : Prop')
    (h : Competing c lower τ ρ q.state.energy) (hq : q.sector.util = u) (hd : q.sector.dens.evaluate q.state.position = ρ)
    (s : ℝ) (h0 : 0 ≤ s) (h1 : s * ρ ≤ ∫ y in lower..q.state.energy, 1 / lossOf c.cross y)
    (h2 : a.minEnergy ≤ u.energyDistance q.state.energy (s * ρ)) (k l : ℝ)
    (hr : ∀ y ∈ Icc (u.energyDistance q.state.energy (s * ρ)) q.state.energy, k ≤ rateOf c.cross y ∧ rateOf c.cross y ≤ l) :
    ENNReal.ofReal (Real.exp (-(s * ρ * l + s / decayLength c.mass τ (u.energyDistance q.state.energy (s * ρ))))) ≤
      chance {r | eNextOf { a with ω := nextTwo a.ω q.pos r } q ≤ u.energyDistance q.state.energy (s * ρ)} ∧
    chance {r | eNextOf { a with ω := nextTwo a.ω q.pos r } q ≤ u.energyDistance q.state.energy (s * ρ)} ≤
      ENNReal.ofReal (Real.exp (-(s * ρ * k + s / decayLength c.mass τ q.state.energy))) := by
  obtain ⟨b1, b2, b3⟩ := FreePath.after hu h.toInteracting (mul_nonneg h0 h.density_pos.le) h1
  rw [C157_next_energy_partial c lower τ ρ u hu a q h hq hd _ b1 h2 b2]
  have hρ := h.density_pos
  obtain ⟨i1, i2⟩ := interactions h.toInteracting b1 b2 k l hr
  obtain ⟨d1, d2⟩ := decays h b1 b2
  rw [b3] at i1 i2 d1 d2
  have hsum : ∫ y in u.energyDistance q.state.energy (s * ρ)..q.state.energy, (decayDensity c τ ρ y + interactionDensity c y)
      = (∫ y in u.energyDistance q.state.energy (s * ρ)..q.state.energy, decayDensity c τ ρ y)
        + ∫ y in u.energyDistance q.state.energy (s * ρ)..q.state.energy, interactionDensity c y := by
    refine intervalIntegral.integral_add ?_ ?_
    · exact ContinuousOn.intervalIntegrable (by rw [uIcc_of_le b2]; exact decay_cont h b1)
    · refine ContinuousOn.intervalIntegrable ?_
      rw [uIcc_of_le b2]
      exact (Competition.interaction_law h.toInteracting).cont.mono (Icc_subset_Icc_left b1)
  have hx : ∀ x, 1 / (ρ * x) * (s * ρ) = s / x := fun x => by
    rw [one_div, mul_inv, div_eq_mul_inv]
    field_simp
  rw [hx] at d1 d2
  rw [hsum]
  constructor <;> refine ENNReal.ofReal_le_ofReal (Real.exp_le_exp.mpr ?_) <;> linarith

/-- C162: without decays and with a constant rate the free path is exponentially distributed. -/
theorem C162_free_path_partial (c : UtilitySettings) (lower : ℝ) (u : Utility) (hu : c.utility = some u) (hs : c.lifetime = none)
    (a : PropArgs) (q : Prop') (h : Interacting c lower q.state.energy) (hq : q.sector.util = u) (g : ℝ) (h0 : 0 ≤ g)
    (h1 : g ≤ ∫ y in lower..q.state.energy, 1 / lossOf c.cross y) (h2 : a.minEnergy ≤ u.energyDistance q.state.energy g) (k : ℝ)
    (hr : ∀ y ∈ Icc (u.energyDistance q.state.energy g) q.state.energy, rateOf c.cross y = k) :
    volume ({r | eNextOf { a with ω := Function.update a.ω q.pos r } q ≤ u.energyDistance q.state.energy g} ∩ Ico (0 : ℝ) 1)
      = ENNReal.ofReal (Real.exp (-(k * g))) := by
  obtain ⟨b1, b2, b3⟩ := FreePath.after hu h h0 h1
  rw [C157_stable_partial c lower u hu hs a q h hq _ b1 h2 b2]
  obtain ⟨i1, i2⟩ := interactions h b1 b2 k k fun y hy => ⟨(hr y hy).ge, (hr y hy).le⟩
  rw [b3] at i1 i2
  rw [le_antisymm i2 i1]

/-- C162: the next event lies beyond an amount of matter exactly if its energy is at most the one after this amount. -/
theorem C162_beyond_partial (c : UtilitySettings) (lower E : ℝ) (u : Utility) (hu : c.utility = some u) (h : Interacting c lower E)
    (e : ℝ) (he : lower ≤ e) (hE : WellAbove E e) (g : ℝ) (h0 : 0 ≤ g) (h1 : g ≤ ∫ y in lower..E, 1 / lossOf c.cross y) :
    g ≤ u.lengthContinuous E e ↔ e ≤ u.energyDistance E g := by
  obtain ⟨b1, b2, b3⟩ := FreePath.after hu h h0 h1
  have key : u.lengthContinuous E e = ∫ y in e..E, 1 / lossOf c.cross y := by
    rw [(utility_fields hu).1]
    rw [show ((c.displacement u.lowerLim).calculate c.junk E e).1 = ∫ y in E..e, (c.displacement u.lowerLim).f y from
      calculate_exact { c.displacement u.lowerLim with lower := e } h.quadrature c.junk E (h.lower_pos.trans_le he) hE]
    exact integral_flip _ _ hE.1.le fun y hy => displacementIntegrand_neg (dedx := c.dedx) (h.loss_pos y ⟨he.trans hy.1, hy.2⟩)
  rw [key]
  have hi : ∀ x y, lower ≤ x → x ≤ y → y ≤ E → IntervalIntegrable (fun y => 1 / lossOf c.cross y) volume x y := fun x y hx hxy hy => by
    refine ContinuousOn.intervalIntegrable ?_
    rw [uIcc_of_le hxy]
    exact (inverse_cont h hx).mono (Icc_subset_Icc_right hy)
  have hpos : ∀ x y, lower ≤ x → x < y → y ≤ E → 0 < ∫ z in x..y, 1 / lossOf c.cross z := fun x y hx hxy hy =>
    intervalIntegral.intervalIntegral_pos_of_pos_on (hi x y hx hxy.le hy)
      (fun z hz => one_div_pos.mpr (h.loss_pos z ⟨hx.trans hz.1.le, hz.2.le.trans hy⟩)) hxy
  constructor
  · intro hg
    by_contra hc
    push Not at hc
    have := hpos _ _ b1 hc hE.1.le
    have := intervalIntegral.integral_add_adjacent_intervals (hi _ _ b1 hc.le hE.1.le) (hi _ _ he hE.1.le le_rfl)
    linarith
  · intro hle
    rcases hle.eq_or_lt with h' | h'
    · rw [h', b3]
    · have := hpos _ _ he h' b2
      have := intervalIntegral.integral_add_adjacent_intervals (hi _ _ he h'.le b2) (hi _ _ b1 b2 le_rfl)
      linarith

/-! ## Examples -/

namespace FreePath

lemma deep (search : IState → Option ℝ) (h : ExactRefine search) : Competing (Deep.settings search) 1 1 1 100 where
  quadrature := exactQ_exact
  search := h
  limit := rfl
  lower_pos := one_pos
  lifetime := rfl
  lifetime_pos := one_pos
  density_pos := one_pos
  mass_pos := by norm_num [Deep.settings]
  above_mass := by norm_num [Deep.settings]
  energy := Deep.well
  loss_pos := fun y _ => by simp [Deep.settings, Deep.process]
  rate_pos := fun y _ => by simp [Deep.settings, Deep.process]
  loss_cont := by simpa [Deep.settings, Deep.process] using continuousOn_const
  rate_cont := by simpa [Deep.settings, Deep.process] using continuousOn_const

lemma deep_loss (search : IState → Option ℝ) (y : ℝ) : lossOf (Deep.settings search).cross y = 1 := by
  simp [lossOf, Deep.settings, Deep.process]

lemma deep_after (search : IState → Option ℝ) (h : ExactRefine search) : (Deep.util search).energyDistance 100 10 = 90 := by
  obtain ⟨-, -, h3⟩ := FreePath.after (Deep.util_eq search) (deep search h).toInteracting (g := 10) (by norm_num)
    (by simp only [deep_loss]; norm_num)
  simp only [deep_loss, div_one, intervalIntegral.integral_const, smul_eq_mul, mul_one] at h3
  linarith

end FreePath

/-- A particle that interacts once per unit of matter and lives for one second passes 10 cm of the density 1 with a probability next to
`exp(-10)`: the decay lengths are above 10 km. -/
example (search : IState → Option ℝ) (h : ExactRefine search) (a : PropArgs) (ha : a.minEnergy = 1) :
    let q : Prop' := ⟨Deep.init, Deep.sector search, [], 0, true⟩
    ENNReal.ofReal (Real.exp (-(10 + 1 / 10 ^ 5))) ≤ chance {r | eNextOf { a with ω := nextTwo a.ω q.pos r } q ≤ 90} ∧
    chance {r | eNextOf { a with ω := nextTwo a.ω q.pos r } q ≤ 90} ≤ ENNReal.ofReal (Real.exp (-10)) := by
  intro q
  have hr : ∀ y, rateOf (Deep.settings search).cross y = 1 := fun y => by simp [rateOf, Deep.settings, Deep.process]
  have key := C162_passes_partial (Deep.settings search) 1 1 1 (Deep.util search) (Deep.util_eq search) a q (deep search h) rfl rfl 10
    (by norm_num) (by simp only [deep_loss]; norm_num [q, Deep.init])
    (by rw [mul_one]; change a.minEnergy ≤ (Deep.util search).energyDistance 100 10; rw [deep_after search h, ha]; norm_num)
    1 1 (fun y _ => by rw [hr]; norm_num)
  rw [show (Deep.util search).energyDistance q.state.energy (10 * 1) = 90 by rw [mul_one]; exact deep_after search h] at key
  have hl : ∀ E : ℝ, 1 ≤ E → 10 ^ 6 ≤ decayLength (Deep.settings search).mass 1 E := fun E hE => by
    have : (1 / 2 : ℝ) ≤ momentumAt (1 / 2) E := by
      refine Real.le_sqrt_of_sq_le ?_
      nlinarith
    unfold decayLength SPEED
    simp only [Deep.settings]
    linarith
  have d1 := hl 90 (by norm_num)
  have d2 := hl q.state.energy (by norm_num [q, Deep.init])
  refine ⟨le_trans (ENNReal.ofReal_le_ofReal (Real.exp_le_exp.mpr ?_)) key.1,
    key.2.trans (ENNReal.ofReal_le_ofReal (Real.exp_le_exp.mpr ?_))⟩
  · have : 10 / decayLength (Deep.settings search).mass 1 90 ≤ 1 / 10 ^ 5 := by
      rw [div_le_iff₀ (by linarith)]
      linarith
    linarith
  · have : 0 ≤ 10 / decayLength (Deep.settings search).mass 1 q.state.energy := div_nonneg (by norm_num) (by linarith)
    linarith

end Proposal
