import Verif.Props.PassLaw
import Verif.Props.Highland

/-!
# C164: dividing a piece of matter does not change the law of events
-/

open MeasureTheory Set

namespace Proposal

open Spec Competition FreePath

open Classical in
/-- The energy of the next event of a particle that stops at the energy `stop`, for example because of a border of a sector, and goes on from
there in the state `q'`: the random numbers `r` are used before, `r'` behind. -/
noncomputable def Spec.dividedNext (a : PropArgs) (q q' : Prop') (stop : ℝ) (p : (ℝ × ℝ) × (ℝ × ℝ)) : ℝ :=
  if stop < eNextOf { a with ω := nextTwo a.ω q.pos p.1 } q then eNextOf { a with ω := nextTwo a.ω q.pos p.1 } q
  else eNextOf { a with ω := nextTwo a.ω q'.pos p.2 } q'

/-- The probability of an event of two times two random numbers. -/
noncomputable def Spec.chance4 (A : Set ((ℝ × ℝ) × (ℝ × ℝ))) : ENNReal := volume (A ∩ Draws ×ˢ Draws)

lemma FreePath.draws_one : (volume : Measure (ℝ × ℝ)) Draws = 1 := by
  unfold Draws
  rw [Measure.volume_eq_prod, Measure.prod_prod]
  simp

lemma FreePath.two_first (ω : ℕ → ℝ) (n : ℕ) (r : ℝ × ℝ) : nextTwo ω n r n = r.1 := by
  unfold nextTwo
  rw [Function.update_of_ne (by omega), Function.update_self]

lemma FreePath.two_second (ω : ℕ → ℝ) (n : ℕ) (r : ℝ × ℝ) : nextTwo ω n r (n + 1) = r.2 := by
  unfold nextTwo
  rw [Function.update_self]

lemma FreePath.two_other {ω : ℕ → ℝ} {n k : ℕ} (r : ℝ × ℝ) (h0 : k ≠ n) (h1 : k ≠ n + 1) : nextTwo ω n r k = ω k := by
  unfold nextTwo
  rw [Function.update_of_ne h1, Function.update_of_ne h0]

/-- The next event depends on two random numbers. -/
lemma FreePath.next_local (a : PropArgs) (q : Prop') {ω ω' : ℕ → ℝ} (h0 : ω q.pos = ω' q.pos) (h1 : ω (q.pos + 1) = ω' (q.pos + 1)) :
    eNextOf { a with ω := ω } q = eNextOf { a with ω := ω' } q := by
  unfold eNextOf nextOf eStochOf eDecayOf eMinOf Utility.energyInteraction Utility.energyDecay
  cases q.sector.util.decay <;> simp only [h0, h1]

/-- C164: a particle that passes from a medium into another one: no event down to the energy `e` in the second medium has the probability of
no event before the border times the one of no event behind. Missing: the numerics are exact. -/
theorem C164_two_media_partial (c c' : UtilitySettings) (lower lower' τ ρ ρ' : ℝ) (u u' : Utility) (hu : c.utility = some u)
    (hu' : c'.utility = some u') (a : PropArgs) (q q' : Prop') (h : Competing c lower τ ρ q.state.energy)
    (h' : Competing c' lower' τ ρ' q'.state.energy) (hq : q.sector.util = u) (hq' : q'.sector.util = u')
    (hd : q.sector.dens.evaluate q.state.position = ρ) (hd' : q'.sector.dens.evaluate q'.state.position = ρ')
    (h0 : lower ≤ q'.state.energy) (h1 : a.minEnergy ≤ q'.state.energy) (h2 : q'.state.energy ≤ q.state.energy)
    (e : ℝ) (he : lower' ≤ e) (hmin : a.minEnergy ≤ e) (hlt : e < q'.state.energy) :
    chance4 {p | dividedNext a q q' q'.state.energy p ≤ e}
      = ENNReal.ofReal (Real.exp (-((∫ y in q'.state.energy..q.state.energy, (decayDensity c τ ρ y + interactionDensity c y))
        + ∫ y in e..q'.state.energy, (decayDensity c' τ ρ' y + interactionDensity c' y)))) := by
  have k1 := C157_next_energy_partial c lower τ ρ u hu a q h hq hd q'.state.energy h0 h1 h2
  have k2 := C157_next_energy_partial c' lower' τ ρ' u' hu' a q' h' hq' hd' e he hmin hlt.le
  rw [neg_add, Real.exp_add, ENNReal.ofReal_mul (Real.exp_pos _).le, ← k1, ← k2]
  unfold chance4 chance
  rw [Measure.volume_eq_prod, ← Measure.prod_prod]
  congr 1
  ext p
  unfold dividedNext
  simp only [mem_inter_iff, mem_prod]
  constructor
  · rintro ⟨g1, g2, g3⟩
    change (if _ then _ else _) ≤ e at g1
    split_ifs at g1 with hx
    · linarith
    · exact ⟨⟨not_lt.mp hx, g2⟩, g1, g3⟩
  · rintro ⟨⟨g1, g2⟩, g3, g4⟩
    refine ⟨?_, g2, g4⟩
    change (if _ then _ else _) ≤ e
    rw [if_neg (not_lt.mpr g1)]
    exact g3

/-- C164: a particle that stops anywhere in a homogeneous medium and goes on has the same law of its next event as without the stop. Missing:
the numerics are exact. -/
theorem C164_divided_partial (c : UtilitySettings) (lower τ ρ : ℝ) (u : Utility) (hu : c.utility = some u) (a : PropArgs) (q q' : Prop')
    (h : Competing c lower τ ρ q.state.energy) (h' : WellAbove q'.state.energy lower) (hq : q.sector.util = u) (hq' : q'.sector.util = u)
    (hd : q.sector.dens.evaluate q.state.position = ρ) (hd' : q'.sector.dens.evaluate q'.state.position = ρ)
    (h1 : a.minEnergy ≤ q'.state.energy) (h2 : q'.state.energy ≤ q.state.energy)
    (e : ℝ) (he : lower ≤ e) (hmin : a.minEnergy ≤ e) (hle : e ≤ q.state.energy) :
    chance4 {p | dividedNext a q q' q'.state.energy p ≤ e} = chance {r | eNextOf { a with ω := nextTwo a.ω q.pos r } q ≤ e} := by
  have hsub : Icc lower q'.state.energy ⊆ Icc lower q.state.energy := Icc_subset_Icc_right h2
  have hc : Competing c lower τ ρ q'.state.energy :=
    ⟨⟨h.quadrature, h.search, h.limit, h.lower_pos, h', fun y hy => h.loss_pos y (hsub hy), fun y hy => h.rate_pos y (hsub hy),
      h.loss_cont.mono hsub, h.rate_cont.mono hsub⟩, h.lifetime, h.lifetime_pos, h.density_pos, h.mass_pos, h.above_mass⟩
  rcases lt_or_ge e q'.state.energy with hlt | hge
  · rw [C164_two_media_partial c c lower lower τ ρ ρ u u hu hu a q q' h hc hq hq' hd hd' h'.1.le h1 h2 e he hmin hlt,
      C157_next_energy_partial c lower τ ρ u hu a q h hq hd e he hmin hle]
    have hi : ContinuousOn (fun y => decayDensity c τ ρ y + interactionDensity c y) (Icc lower q.state.energy) :=
      (decay_cont h le_rfl).add (interaction_law h.toInteracting).cont
    have ii : ∀ x y, lower ≤ x → x ≤ y → y ≤ q.state.energy →
        IntervalIntegrable (fun y => decayDensity c τ ρ y + interactionDensity c y) volume x y := fun x y hx hxy hy => by
      refine ContinuousOn.intervalIntegrable ?_
      rw [uIcc_of_le hxy]
      exact hi.mono (Icc_subset_Icc hx hy)
    rw [add_comm, intervalIntegral.integral_add_adjacent_intervals (ii _ _ he hlt.le h2) (ii _ _ h'.1.le h2 le_rfl)]
  · unfold chance4 chance
    have : {p | dividedNext a q q' q'.state.energy p ≤ e} ∩ Draws ×ˢ Draws
        = ({r | eNextOf { a with ω := nextTwo a.ω q.pos r } q ≤ e} ∩ Draws) ×ˢ Draws := by
      ext p
      simp only [mem_inter_iff, mem_prod]
      constructor
      · rintro ⟨g1, g2, g3⟩
        refine ⟨⟨?_, g2⟩, g3⟩
        change (if _ then _ else _) ≤ e at g1
        change _ ≤ e
        split_ifs at g1 with hx
        · exact g1
        · exact (not_lt.mp hx).trans hge
      · rintro ⟨⟨g1, g2⟩, g3⟩
        refine ⟨?_, g2, g3⟩
        change (if _ then _ else _) ≤ e
        split_ifs with hx
        · exact g1
        · exact (next_mem hc hu a q' rfl hq' hd' h1 g3).2.trans hge
    rw [this, Measure.volume_eq_prod, Measure.prod_prod, draws_one, mul_one]

/-- C164: a particle whose next event is behind the border of its homogeneous sector stops at the border, with the energy that is left after
the matter on the way, and goes on in the next sector with new random numbers; the state there does not depend on the random numbers used
before. Without scattering and continuous randomization. Missing: the numerics are exact. -/
theorem C164_border_partial (c : UtilitySettings) (lower ρ : ℝ) (u : Utility) (hu : c.utility = some u) (a : PropArgs) (q : Prop')
    (h : Interacting c lower q.state.energy) (hq : q.sector.util = u) (hρ : 0 < ρ) (hdens : q.sector.dens = homogeneousDensity ρ)
    (hs : c.scattering = none) (hr : c.contRand = false) (hin : q.sector.geo.isInside q.state.position q.state.direction) (B : ℝ)
    (hB : B = distanceToBorder a.sectors q.state.position q.state.direction q.sector.geo) (h0 : 0 ≤ B)
    (hmax : B < a.maxDistance - q.state.distance)
    (hrange : (B + PARTICLE_POSITION_RESOLUTION) * ρ ≤ ∫ y in lower..q.state.energy, 1 / lossOf c.cross y)
    (hw : WellAbove q.state.energy (u.energyDistance q.state.energy ((B + PARTICLE_POSITION_RESOLUTION) * ρ)))
    (next : Sector) (hnext : currentSector a.sectors (q.state.position + B • q.state.direction) q.state.direction = some next) :
    ∃ q', (∀ ω, lower ≤ eNextOf { a with ω := ω } q →
        eNextOf { a with ω := ω } q < u.energyDistance q.state.energy ((B + PARTICLE_POSITION_RESOLUTION) * ρ) →
        propStep { a with ω := ω } q = .ok q') ∧
      q'.sector = next ∧ q'.state.energy = u.energyDistance q.state.energy (B * ρ) ∧
      q'.state.position = q.state.position + B • q.state.direction ∧ q'.state.direction = q.state.direction ∧
      q'.state.distance = q.state.distance + B ∧ q'.track = q.track ++ [⟨q'.state, .continuousEnergyLoss, 0⟩] ∧
      q'.pos = q.pos + (if c.lifetime.isSome then 2 else 1) ∧
      (q'.running = false ↔ a.hierarchyCondition < q.sector.geo.hierarchy ∧ next.geo.hierarchy < a.hierarchyCondition) := by
  have hsc0 := no_scattering hu hs
  subst hq
  obtain ⟨-, -, -, -, f5, f6⟩ := utility_fields hu
  have hcr : q.sector.util.contRand = none := by
    rw [f6, hr]
    rfl
  have hpos : ∀ ω, (eStochOf { a with ω := ω } q).2 = q.pos + (if c.lifetime.isSome then 2 else 1) := by
    intro ω
    unfold eStochOf eDecayOf Utility.energyInteraction Utility.energyDecay
    rw [f5]
    cases c.lifetime <;> rfl
  have hres : 0 < PARTICLE_POSITION_RESOLUTION := by unfold PARTICLE_POSITION_RESOLUTION; norm_num
  obtain ⟨b1, b2, b3⟩ := FreePath.after hu h (g := (B + PARTICLE_POSITION_RESOLUTION) * ρ) (by positivity) hrange
  obtain ⟨d1, d2, d3⟩ := FreePath.after hu h (g := B * ρ) (by positivity) (by nlinarith)
  have hhigh : q.sector.util.energyDistance q.state.energy ((B + PARTICLE_POSITION_RESOLUTION) * ρ)
      ≤ q.sector.util.energyDistance q.state.energy (B * ρ) := by
    by_contra hc
    push Not at hc
    have := inverse_lt h d1 hc b2
    rw [b3, d3] at this
    nlinarith
  have hcal : q.sector.dens.calculate q.state.position q.state.direction B = B * ρ := by
    rw [hdens]
    simp [homogeneousDensity, homogeneousCalculate, homogeneousIntegrate, mul_comm]
  have hsc : ∀ w m g e, q.sector.util.directionsScatter w m g q.state.energy e q.state.direction = (q.state.direction, q.state.direction, m) := by
    intro w m g e
    unfold Utility.directionsScatter
    rw [hsc0]
  have hrand : ∀ w m e f, q.sector.util.energyRandomize w m q.state.energy e f = (e, m) := by
    intro w m e f
    unfold Utility.energyRandomize
    rw [hcr]
  set s := afterShort q (B * ρ) (q.sector.util.energyDistance q.state.energy (B * ρ)) (q.sector.util.energyDistance q.state.energy (B * ρ)) B
    q.state.direction q.state.direction with hs'
  refine ⟨⟨s, next, q.track ++ [⟨s, .continuousEnergyLoss, 0⟩], q.pos + (if c.lifetime.isSome then 2 else 1),
    !(decide (a.hierarchyCondition < q.sector.geo.hierarchy) && decide (next.geo.hierarchy < a.hierarchyCondition))⟩, ?_, rfl, rfl, rfl, rfl,
    rfl, rfl, rfl, by simp⟩
  intro ω hlow hn
  have e0 : 0 < eNextOf { a with ω := ω } q := h.lower_pos.trans_le hlow
  have hlen := length_exact hu h hlow (well_mono hw e0 hn.le)
  have hlt := inverse_lt h hlow hn b2
  rw [b3, ← hlen] at hlt
  have hlt' : B + PARTICLE_POSITION_RESOLUTION < q.sector.util.lengthContinuous q.state.energy (eNextOf { a with ω := ω } q) / ρ := by
    rwa [lt_div_iff₀ hρ]
  refine C09_border_reached { a with ω := ω } q (eNextOf { a with ω := ω } q) (eStochOf { a with ω := ω } q).2 ⟨next_max _ q, rfl⟩
    (some (q.sector.util.lengthContinuous q.state.energy (eNextOf { a with ω := ω } q) / ρ)) B B
    (q.sector.util.energyDistance q.state.energy (B * ρ))
    q.state.direction q.state.direction (Memo.init (eStochOf { a with ω := ω } q).2) B
    ⟨by linarith, by rw [hdens]; rfl, ⟨_, _, _, hsc _ _ _ _, hin, hB, hsc _ _ _ _⟩, (min_eq_left hmax.le).symm, fun d hd => by
        obtain rfl := Option.some.inj hd
        refine ⟨by linarith, ?_⟩
        rw [abs_of_pos (by linarith)]
        linarith, by linarith, by rw [hcal]; nlinarith, by rw [hcal], (hn.trans_le hhigh).ne', hin, hB⟩ hmax.ne
    (by rw [sub_self, abs_zero]; exact hres.le) (q.sector.util.energyDistance q.state.energy (B * ρ)) _ ?_ ?_ s ?_ next hnext
  · rw [hrand]
  · rw [hrand, ← hpos ω]
    rfl
  · rw [hcal]

/-- C164: the probability to pass the border of a homogeneous sector and then a part of the next one without an event is the product of both,
for the steps of the propagation themselves; the border lies within the resolution of the positions. Missing: the numerics are exact. -/
theorem C164_passage_partial (c c' : UtilitySettings) (lower lower' τ ρ ρ' : ℝ) (u u' : Utility) (hu : c.utility = some u)
    (hu' : c'.utility = some u') (a : PropArgs) (q : Prop')
    (h : Competing c lower τ ρ q.state.energy) (hq : q.sector.util = u) (hdens : q.sector.dens = homogeneousDensity ρ)
    (hs : c.scattering = none) (hr : c.contRand = false) (hin : q.sector.geo.isInside q.state.position q.state.direction) (B : ℝ)
    (hB : B = distanceToBorder a.sectors q.state.position q.state.direction q.sector.geo) (h0 : 0 ≤ B)
    (hmax : B < a.maxDistance - q.state.distance)
    (hrange : (B + PARTICLE_POSITION_RESOLUTION) * ρ ≤ ∫ y in lower..q.state.energy, 1 / lossOf c.cross y)
    (next : Sector) (hnext : currentSector a.sectors (q.state.position + B • q.state.direction) q.state.direction = some next)
    (hq' : next.util = u') (hdens' : next.dens = homogeneousDensity ρ') (E' E'' : ℝ)
    (hw : WellAbove q.state.energy (u.energyDistance q.state.energy ((B + PARTICLE_POSITION_RESOLUTION) * ρ))) (hlow : lower ≤ E')
    (hE : a.minEnergy ≤ E') (hE' : E' < u.energyDistance q.state.energy ((B + PARTICLE_POSITION_RESOLUTION) * ρ))
    (hE'' : E'' = u.energyDistance q.state.energy (B * ρ)) (h' : Competing c' lower' τ ρ' E'')
    (e : ℝ) (he : lower' ≤ e) (hmin : a.minEnergy ≤ e) (hle : e ≤ E'') :
    ENNReal.ofReal (Real.exp (-((∫ y in E'..q.state.energy, (decayDensity c τ ρ y + interactionDensity c y))
        + ∫ y in e..E'', (decayDensity c' τ ρ' y + interactionDensity c' y))))
      ≤ chance4 {p | ∃ q', propStep { a with ω := nextTwo (nextTwo a.ω q.pos p.1) (q.pos + 2) p.2 } q = .ok q' ∧ q'.sector = next ∧
          q'.state.position = q.state.position + B • q.state.direction ∧
          eNextOf { a with ω := nextTwo (nextTwo a.ω q.pos p.1) (q.pos + 2) p.2 } q' ≤ e} := by
  obtain ⟨b1, b2, -⟩ := FreePath.after hu h.toInteracting (g := (B + PARTICLE_POSITION_RESOLUTION) * ρ)
    (mul_nonneg (add_nonneg h0 (by unfold PARTICLE_POSITION_RESOLUTION; norm_num)) h.density_pos.le) hrange
  obtain ⟨q', k0, k1, k2, k3, -, -, -, k7, -⟩ := C164_border_partial c lower ρ u hu a q h.toInteracting hq h.density_pos hdens hs hr hin B hB h0
    hmax hrange hw next hnext
  rw [h.lifetime] at k7
  replace k7 : q'.pos = q.pos + 2 := k7
  have hE2 : q'.state.energy = E'' := k2.trans hE''.symm
  have l1 := C157_next_energy_partial c lower τ ρ u hu a q h hq (by rw [hdens]; rfl) E' hlow hE (hE'.le.trans b2)
  have l2 := C157_next_energy_partial c' lower' τ ρ' u' hu' a q' (by rw [hE2]; exact h') (by rw [k1]; exact hq')
    (by rw [k1, hdens']; rfl) e he hmin (by rw [hE2]; exact hle)
  rw [hE2] at l2
  rw [neg_add, Real.exp_add, ENNReal.ofReal_mul (Real.exp_pos _).le, ← l1, ← l2]
  unfold chance4 chance
  rw [Measure.volume_eq_prod, ← Measure.prod_prod]
  refine measure_mono ?_
  rintro ⟨r, r'⟩ ⟨⟨g1, g2⟩, g3, g4⟩
  replace g1 : eNextOf { a with ω := nextTwo a.ω q.pos r } q ≤ E' := g1
  replace g3 : eNextOf { a with ω := nextTwo a.ω q'.pos r' } q' ≤ e := g3
  have m1 := (next_mem h hu a q rfl hq (by rw [hdens]; rfl) (hE.trans (hE'.le.trans b2)) g2).1
  have e1 : eNextOf { a with ω := nextTwo (nextTwo a.ω q.pos r) (q.pos + 2) r' } q = eNextOf { a with ω := nextTwo a.ω q.pos r } q :=
    next_local a q (two_other _ (by omega) (by omega)) (two_other _ (by omega) (by omega))
  have e2 : eNextOf { a with ω := nextTwo (nextTwo a.ω q.pos r) (q.pos + 2) r' } q' = eNextOf { a with ω := nextTwo a.ω q'.pos r' } q' :=
    next_local a q' (by rw [k7, two_first, two_first]) (by rw [k7, two_second, two_second])
  refine ⟨⟨q', k0 _ (by rw [e1]; exact m1) (by rw [e1]; exact g1.trans_lt hE'), k1, k3, ?_⟩, g2, g4⟩
  change eNextOf { a with ω := nextTwo (nextTwo a.ω q.pos r) (q.pos + 2) r' } q' ≤ e
  rw [e2]
  exact g3

/-- C164: the energy after two amounts of matter is that after both together. Missing: the numerics are exact. -/
theorem C164_energy_partial (c : UtilitySettings) (lower E : ℝ) (u : Utility) (hu : c.utility = some u) (h : Interacting c lower E)
    (g g' : ℝ) (h0 : 0 ≤ g) (h0' : 0 ≤ g') (h1 : g + g' ≤ ∫ y in lower..E, 1 / lossOf c.cross y)
    (h' : WellAbove (u.energyDistance E g) lower) :
    u.energyDistance (u.energyDistance E g) g' = u.energyDistance E (g + g') := by
  obtain ⟨a1, a2, a3⟩ := FreePath.after hu h h0 (by linarith)
  obtain ⟨b1, b2, b3⟩ := FreePath.after hu h (by linarith : 0 ≤ g + g') h1
  have hsub : Icc lower (u.energyDistance E g) ⊆ Icc lower E := Icc_subset_Icc_right a2
  have hc : Interacting c lower (u.energyDistance E g) :=
    ⟨h.quadrature, h.search, h.limit, h.lower_pos, h', fun y hy => h.loss_pos y (hsub hy), fun y hy => h.rate_pos y (hsub hy),
      h.loss_cont.mono hsub, h.rate_cont.mono hsub⟩
  have hadd := intervalIntegral.integral_add_adjacent_intervals (inverse_int h le_rfl a1 a2) (inverse_int h a1 a2 le_rfl)
  obtain ⟨d1, d2, d3⟩ := FreePath.after hu hc (g := g') h0' (by linarith)
  have hsum := intervalIntegral.integral_add_adjacent_intervals (inverse_int h d1 d2 a2) (inverse_int h a1 a2 le_rfl)
  rw [d3, a3] at hsum
  rcases lt_trichotomy (u.energyDistance (u.energyDistance E g) g') (u.energyDistance E (g + g')) with hx | hx | hx
  · have := inverse_lt h d1 hx b2
    linarith
  · exact hx
  · have := inverse_lt h b1 hx (d2.trans a2)
    linarith

/-- C164 fails for the multiple scattering: ten layers of matter together scatter less than the whole, because the logarithm in the angle is that
of each layer. -/
theorem C164_scattering_divided (h : Highland) (e : ℝ) (n : ℕ) (hm : 0 ≤ h.mass) (hX : 0 < h.radiationLength) (he : h.mass < e)
    (hz : h.charge ≠ 0) :
    ∃ t t', h.theta0 (10 ^ (n + 1) * h.radiationLength) e = some t ∧ h.theta0 (10 ^ n * h.radiationLength) e = some t' ∧
      10 * t' ^ 2 < t ^ 2 := by
  have k := C108_value h e (n + 1 : ℕ) hm hX he (by omega)
  have k' := C108_value h e n hm hX he (by omega)
  rw [zpow_natCast] at k k'
  refine ⟨_, _, k, k', ?_⟩
  have hK : 0 < (13.6 * |h.charge| * e / (e ^ 2 - h.mass ^ 2)) ^ 2 := by
    have : 0 < e ^ 2 - h.mass ^ 2 := by nlinarith
    have : 0 < |h.charge| := abs_pos.mpr hz
    have : 0 < e := by linarith
    positivity
  generalize 13.6 * |h.charge| * e / (e ^ 2 - h.mass ^ 2) = K at hK
  have s1 : Real.sqrt ((10 : ℝ) ^ (n + 1)) ^ 2 = 10 ^ (n + 1) := Real.sq_sqrt (by positivity)
  have s2 : Real.sqrt ((10 : ℝ) ^ n) ^ 2 = 10 ^ n := Real.sq_sqrt (by positivity)
  have hp : (0 : ℝ) < 10 ^ n := by positivity
  rw [mul_pow, mul_pow, mul_pow, mul_pow, s1, s2, pow_succ]
  push_cast
  have hn : (0 : ℝ) ≤ n := Nat.cast_nonneg n
  have : (1 + 0.088 * (n : ℝ)) ^ 2 < (1 + 0.088 * ((n : ℝ) + 1)) ^ 2 := by nlinarith
  have h2 : 0 < K ^ 2 * (10 ^ n * 10) := by positivity
  calc 10 * (K ^ 2 * 10 ^ n * (1 + 0.088 * (n : ℝ)) ^ 2) = K ^ 2 * (10 ^ n * 10) * (1 + 0.088 * (n : ℝ)) ^ 2 := by ring
    _ < K ^ 2 * (10 ^ n * 10) * (1 + 0.088 * ((n : ℝ) + 1)) ^ 2 := by gcongr

/-! ## Examples -/

namespace DividedSteps

/-- The particle of the examples without continuous randomization. -/
noncomputable def settings (search : IState → Option ℝ) : UtilitySettings := { Deep.settings search with contRand := false }

noncomputable def util (search : IState → Option ℝ) : Utility :=
  match (settings search).utility with
  | some u => u
  | none => Toy.util

lemma util_eq (search : IState → Option ℝ) : (settings search).utility = some (util search) := rfl

lemma loss_one (search : IState → Option ℝ) (y : ℝ) : lossOf (settings search).cross y = 1 := deep_loss search y

lemma good (search : IState → Option ℝ) (h : ExactRefine search) : Competing (settings search) 1 1 1 100 :=
  have k := deep search h
  ⟨⟨k.quadrature, k.search, k.limit, k.lower_pos, k.energy, k.loss_pos, k.rate_pos, k.loss_cont, k.rate_cont⟩, k.lifetime, k.lifetime_pos,
    k.density_pos, k.mass_pos, k.above_mass⟩

/-- A sphere of the radius 20, inside of one of the radius 1000. -/
noncomputable def inner (search : IState → Option ℝ) : Sector := ⟨(⟨0, 20, 0⟩ : Sphere).toGeo 1, util search, homogeneousDensity 1⟩

noncomputable def outer (search : IState → Option ℝ) : Sector := ⟨(⟨0, 1000, 0⟩ : Sphere).toGeo 0, util search, homogeneousDensity 1⟩

noncomputable def args (search : IState → Option ℝ) : PropArgs := ⟨[outer search, inner search], fun _ => 1 / 2, 50, 1, 0⟩

noncomputable def start (search : IState → Option ℝ) : Prop' := ⟨Deep.init, inner search, [], 0, true⟩

lemma after_eq (search : IState → Option ℝ) (h : ExactRefine search) (g : ℝ) (h0 : 0 ≤ g) (h1 : g ≤ 99) :
    (util search).energyDistance 100 g = 100 - g := by
  obtain ⟨-, -, h3⟩ := FreePath.after (util_eq search) (good search h).toInteracting (g := g) h0 (by simp only [loss_one]; norm_num; linarith)
  simp only [loss_one, div_one, intervalIntegral.integral_const, smul_eq_mul, mul_one] at h3
  linarith

lemma well : WellAbove 100 80 := by
  refine ⟨by norm_num, by unfold Different; norm_num, ?_⟩
  have l1 : Real.log (100 / 80) = Real.log 100 - Real.log 80 := Real.log_div (by norm_num) (by norm_num)
  have l2 : 1 / 10 ≤ Real.log (100 / 80) := by
    have := Real.one_sub_inv_le_log_of_pos (show (0 : ℝ) < 100 / 80 by norm_num)
    norm_num at this ⊢
    linarith
  have l3 : Real.log 100 ≤ 99 := by
    have := Real.log_le_sub_one_of_pos (show (0 : ℝ) < 100 by norm_num)
    linarith
  have l4 : 0 ≤ Real.log 80 := Real.log_nonneg (by norm_num)
  unfold Apart coordinate
  norm_num
  rw [abs_of_nonneg (by linarith), abs_of_nonneg l4, abs_of_nonneg (by linarith), max_eq_left (by linarith)]
  linarith

lemma dist_inner (search : IState → Option ℝ) : (DividedSteps.inner search).geo.dist ⟨0, 0, 0⟩ ⟨1, 0, 0⟩ = (20, -1) := by
  have := axis_inside (R := 20) (x := 0) (by norm_num) (by norm_num) (by rw [Over.prec_val]; norm_num)
  rw [sub_zero] at this
  exact this

lemma inside (search : IState → Option ℝ) : (DividedSteps.inner search).geo.isInside ⟨0, 0, 0⟩ ⟨1, 0, 0⟩ := by
  unfold Geo.isInside
  rw [dist_inner]
  norm_num

lemma border (search : IState → Option ℝ) :
    20 = distanceToBorder [outer search, DividedSteps.inner search] ⟨0, 0, 0⟩ ⟨1, 0, 0⟩ (DividedSteps.inner search).geo := by
  unfold distanceToBorder
  rw [dist_inner]
  simp [outer, DividedSteps.inner, Sphere.toGeo]

lemma moved (search : IState → Option ℝ) : (start search).state.position + (20 : ℝ) • (start search).state.direction = ⟨20, 0, 0⟩ := by
  ext <;> simp [start, Deep.init]

lemma behind (search : IState → Option ℝ) :
    currentSector [outer search, DividedSteps.inner search] ⟨20, 0, 0⟩ ⟨1, 0, 0⟩ = some (outer search) := by
  have dob : (outer search).geo.dist ⟨20, 0, 0⟩ ⟨1, 0, 0⟩ = (1000 - 20, -1) :=
    axis_inside (R := 1000) (by norm_num) (by norm_num) (by rw [Over.prec_val]; norm_num)
  have dib : (DividedSteps.inner search).geo.dist ⟨20, 0, 0⟩ ⟨1, 0, 0⟩ = (-1, -1) :=
    axis_outside (R := 20) (by norm_num) (by norm_num) (by rw [Over.prec_val]; norm_num)
  have h1 : ¬ (DividedSteps.inner search).geo.isInside ⟨20, 0, 0⟩ ⟨1, 0, 0⟩ := by unfold Geo.isInside; rw [dib]; norm_num
  have h2 : (outer search).geo.isInside ⟨20, 0, 0⟩ ⟨1, 0, 0⟩ := by unfold Geo.isInside; rw [dob]; norm_num
  rw [currentSector, List.filter_cons_of_pos (by simpa using h2), List.filter_cons_of_neg (by simpa using h1)]
  rfl

lemma well' : WellAbove 80 1 := by
  refine ⟨by norm_num, by unfold Different; norm_num, ?_⟩
  have l3 : Real.log 80 ≤ 79 := by
    have := Real.log_le_sub_one_of_pos (show (0 : ℝ) < 80 by norm_num)
    linarith
  have l4 : 1 / 2 ≤ Real.log 80 := by
    have := Real.one_sub_inv_le_log_of_pos (show (0 : ℝ) < 80 by norm_num)
    norm_num at this ⊢
    linarith
  unfold Apart coordinate
  norm_num

lemma good' (search : IState → Option ℝ) (h : ExactRefine search) : Competing (settings search) 1 1 1 80 :=
  have k := good search h
  have hs : Icc (1 : ℝ) 80 ⊆ Icc 1 100 := Icc_subset_Icc_right (by norm_num)
  ⟨⟨k.quadrature, k.search, k.limit, k.lower_pos, well', fun y hy => k.loss_pos y (hs hy), fun y hy => k.rate_pos y (hs hy),
    k.loss_cont.mono hs, k.rate_cont.mono hs⟩, k.lifetime, k.lifetime_pos, k.density_pos, k.mass_pos, k.above_mass⟩

end DividedSteps

open DividedSteps

/-- A particle of the energy 100 that stops at the energy 4 and goes on. -/
example (search : IState → Option ℝ) (h : ExactRefine search) (s : PState) (hs : s.energy = 4) (e : ℝ) (h1 : 1 ≤ e) (h2 : e ≤ 100) :
    chance4 {p | dividedNext (args search) (start search) ⟨s, outer search, [], 2, true⟩ 4 p ≤ e}
      = chance {r | eNextOf { args search with ω := nextTwo (args search).ω 0 r } (start search) ≤ e} := by
  have := C164_divided_partial (settings search) 1 1 1 (util search) (util_eq search) (args search) (start search)
    ⟨s, outer search, [], 2, true⟩ (good search h)
    (by change WellAbove s.energy 1; rw [hs]; exact wellAbove_example le_rfl (by norm_num) le_rfl) rfl rfl rfl rfl
    (by change (1 : ℝ) ≤ s.energy; rw [hs]; norm_num) (by change s.energy ≤ 100; rw [hs]; norm_num) e h1 h1 h2
  simp only [hs] at this
  exact this

/-- The particle goes on in another sphere with the energy 80, behind the border at 20: there are random numbers for it, as many as the
probability says. -/
example (search : IState → Option ℝ) (h : ExactRefine search) :
    ∃ r ∈ Draws, ∃ q', propStep { args search with ω := nextTwo (args search).ω 0 r } (start search) = .ok q' ∧ q'.sector = outer search ∧
      q'.state.energy = 80 ∧ q'.state.position = ⟨20, 0, 0⟩ ∧ q'.state.distance = 20 := by
  have hres : 0 < PARTICLE_POSITION_RESOLUTION := by unfold PARTICLE_POSITION_RESOLUTION; norm_num
  have hres' : PARTICLE_POSITION_RESOLUTION ≤ 1 := by unfold PARTICLE_POSITION_RESOLUTION; norm_num
  have hE : (start search).state.energy = 100 := rfl
  have key := C157_next_energy_partial (settings search) 1 1 1 (util search) (util_eq search) (args search) (start search) (good search h)
    rfl rfl 10 (by norm_num) (by change (1 : ℝ) ≤ 10; norm_num) (by rw [hE]; norm_num)
  obtain ⟨r, hr, hd⟩ : ({r | eNextOf { args search with ω := nextTwo (args search).ω 0 r } (start search) ≤ 10} ∩ Draws).Nonempty := by
    by_contra hc
    rw [not_nonempty_iff_eq_empty] at hc
    unfold chance at key
    rw [show (start search).pos = 0 from rfl, hc, measure_empty] at key
    exact (ENNReal.ofReal_pos.mpr (Real.exp_pos _)).ne key
  replace hr : eNextOf { args search with ω := nextTwo (args search).ω 0 r } (start search) ≤ 10 := hr
  refine ⟨r, hd, ?_⟩
  have hlow : 1 ≤ eNextOf { args search with ω := nextTwo (args search).ω 0 r } (start search) :=
    (next_mem (good search h) (util_eq search) (args search) (start search) rfl rfl rfl (by change (1 : ℝ) ≤ 100; norm_num) hd).1
  have e1 : (util search).energyDistance 100 ((20 + PARTICLE_POSITION_RESOLUTION) * 1) = 80 - PARTICLE_POSITION_RESOLUTION := by
    rw [after_eq search h _ (by linarith) (by linarith)]
    ring
  obtain ⟨q', k1, k2, k3, k4, -, k5, -⟩ := C164_border_partial (settings search) 1 1 (util search) (util_eq search)
    (args search) (start search) (good search h).toInteracting rfl one_pos rfl rfl rfl (inside search) 20 (border search) (by norm_num)
    (by change (20 : ℝ) < 50 - 0; norm_num) (by simp only [loss_one, hE]; norm_num; linarith)
    (by rw [hE, e1]; exact well_mono well (by linarith) (by linarith)) (outer search) (by rw [moved]; exact behind search)
  refine ⟨q', k1 _ hlow (by rw [hE, e1]; linarith), k2, ?_, k4.trans (moved search), ?_⟩
  · rw [k3, hE, after_eq search h _ (by norm_num) (by norm_num)]
    norm_num
  · rw [k5]
    change (0 : ℝ) + 20 = 20
    norm_num

/-- The same particle passes the border and loses energy down to 10 in the outer sphere without an event. -/
example (search : IState → Option ℝ) (h : ExactRefine search) :
    ENNReal.ofReal (Real.exp (-((∫ y in (79 : ℝ)..100, (decayDensity (settings search) 1 1 y + interactionDensity (settings search) y))
        + ∫ y in (10 : ℝ)..80, (decayDensity (settings search) 1 1 y + interactionDensity (settings search) y))))
      ≤ chance4 {p | ∃ q', propStep { args search with ω := nextTwo (nextTwo (args search).ω 0 p.1) 2 p.2 } (start search) = .ok q' ∧
          q'.sector = outer search ∧ q'.state.position = ⟨20, 0, 0⟩ ∧
          eNextOf { args search with ω := nextTwo (nextTwo (args search).ω 0 p.1) 2 p.2 } q' ≤ 10} := by
  have hres : 0 < PARTICLE_POSITION_RESOLUTION := by unfold PARTICLE_POSITION_RESOLUTION; norm_num
  have hres' : PARTICLE_POSITION_RESOLUTION < 1 := by unfold PARTICLE_POSITION_RESOLUTION; norm_num
  have hE : (start search).state.energy = 100 := rfl
  have e1 : (util search).energyDistance 100 ((20 + PARTICLE_POSITION_RESOLUTION) * 1) = 80 - PARTICLE_POSITION_RESOLUTION := by
    rw [after_eq search h _ (by linarith) (by linarith)]
    ring
  have := C164_passage_partial (settings search) (settings search) 1 1 1 1 1 (util search) (util search) (util_eq search) (util_eq search)
    (args search) (start search) (good search h) rfl rfl rfl rfl (inside search) 20 (border search) (by norm_num)
    (by change (20 : ℝ) < 50 - 0; norm_num) (by simp only [loss_one, hE]; norm_num; linarith) (outer search)
    (by rw [moved]; exact behind search) rfl rfl 79 80 (by rw [hE, e1]; exact well_mono well (by linarith) (by linarith)) (by norm_num)
    (by change (1 : ℝ) ≤ 79; norm_num) (by rw [hE, e1]; linarith) (by rw [hE, after_eq search h _ (by norm_num) (by norm_num)]; norm_num)
    (good' search h) 10 (by norm_num) (by change (1 : ℝ) ≤ 10; norm_num) (by norm_num)
  rw [moved] at this
  exact this

/-- From 100 to 4 and from 4 to 2. -/
example (search : IState → Option ℝ) (h : ExactRefine search) :
    (util search).energyDistance ((util search).energyDistance 100 96) 2 = 2 := by
  have e4 : (util search).energyDistance 100 96 = 4 := by rw [after_eq search h _ (by norm_num) (by norm_num)]; norm_num
  rw [C164_energy_partial (settings search) 1 100 (util search) (util_eq search) (good search h).toInteracting 96 2 (by norm_num) (by norm_num)
    (by simp only [loss_one]; norm_num) (by rw [e4]; exact wellAbove_example le_rfl (by norm_num) le_rfl),
    after_eq search h _ (by norm_num) (by norm_num)]
  norm_num

end Proposal
