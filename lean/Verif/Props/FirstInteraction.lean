import Verif.Lemmas.Marked
import Verif.Props.Competition
import Verif.Props.LossLaw
import Verif.Props.StepEvents

/-!
# C160: energy, type, target and loss of the next interaction together
-/

open MeasureTheory Set

namespace Proposal

namespace Spec

/-- Cross sections with their sources at all energies between two limits; the total rates are the sums of the rates per target. -/
structure SourcesAt (c : UtilitySettings) (lower E : ℝ) (L : ℝ → List (XSec × List LossSource)) : Prop where
  cross : ∀ z ∈ Icc lower E, (L z).map Prod.fst = c.cross
  sampled : ∀ z ∈ Icc lower E, ∀ p ∈ L z, SampledBy p.1 z p.2
  totals : ∀ z ∈ Icc lower E, totalRate c.cross z = ((ratesOf c.cross z).map Rate.rate).sum

open Classical in
/-- The rate of interactions of a type on a target with losses in a set. -/
noncomputable def partialRate (S : List LossSource) (t : IType) (h : ℕ) (B : Set ℝ) : ENNReal :=
  (S.map fun s => if s.type = t ∧ s.target = h then s.law B else 0).sum

end Spec

open Spec Competition LossLaw

lemma LossLaw.total_rate {c : UtilitySettings} {lower E : ℝ} {L : ℝ → List (XSec × List LossSource)} (hL : SourcesAt c lower E L)
    {z : ℝ} (hz : z ∈ Icc lower E) :
    (((L z).flatMap Prod.snd).map fun s => s.law univ).sum = ENNReal.ofReal (totalRate c.cross z) := by
  rw [hL.totals z hz, ← hL.cross z hz, ofReal_sum _ (rates_nonneg z _ (hL.sampled z hz))]
  exact (rates_of z (L z) (hL.sampled z hz) _ _ fun p hp s hs => ENNReal.ofReal_toReal ((hL.sampled z hz p hp).finite s hs)).symm

/-- The chance of the third random number for a type, a target and a set of losses. -/
lemma LossLaw.third {c : UtilitySettings} {lower E : ℝ} {L : ℝ → List (XSec × List LossSource)} (hL : SourcesAt c lower E L)
    {u : Utility} (hu : c.utility = some u) {z : ℝ} (hz : z ∈ Icc lower E) (hpos : 0 < totalRate c.cross z) (s : PState)
    (hs : s.energy = z) (ω : ℕ → ℝ) (pos : ℕ) (t : IType) (ht : t ≠ .undefined) (h : ℕ) {B : Set ℝ} (hB : MeasurableSet B) :
    volume {r : ℝ | 0 ≤ r ∧ r < 1 ∧ (doStochastic (Function.update ω pos r) u s pos).1.type = t ∧
        (doStochastic (Function.update ω pos r) u s pos).1.comp = h ∧ (doStochastic (Function.update ω pos r) u s pos).1.v ∈ B}
      = partialRate ((L z).flatMap Prod.snd) t h B / ENNReal.ofReal (totalRate c.cross z) := by
  have htot := total_rate hL hz
  have hex : ∃ p ∈ L z, ∃ s ∈ p.2, s.law univ ≠ 0 := by
    by_contra hc
    push Not at hc
    have : (((L z).flatMap Prod.snd).map fun s => s.law univ).sum = 0 := by
      apply List.sum_eq_zero
      intro x hx
      obtain ⟨s, hs, rfl⟩ := List.mem_map.mp hx
      obtain ⟨p, hp, hsp⟩ := List.mem_flatMap.mp hs
      exact hc p hp s hsp
    rw [htot, ENNReal.ofReal_eq_zero] at this
    linarith
  rw [← htot]
  unfold partialRate
  rw [← C159_law z (L z) (hL.sampled z hz) hex t h B hB, hL.cross z hz]
  have hs' : u.sampleLoss = c.sample := by
    obtain ⟨l, -, -, hm⟩ := utility_some hu
    obtain rfl := Option.some.inj hm
    rfl
  have e : ∀ r, (doStochastic (Function.update ω pos r) u s pos).1 = c.sample z r := fun r => by
    simp only [doStochastic, Utility.stochasticLoss, hs', Function.update_self, hs]
  congr 1
  ext r
  simp only [mem_ofPred_eq, e, UtilitySettings.sample]
  refine and_congr_right fun _ => and_congr_right fun _ => ?_
  cases hx : sampleLoss z (ratesOf c.cross z) r with
  | error e => simp [Ne.symm ht]
  | ok l => simp

open Classical in
/-- C160: the next event is an interaction above an energy, of a type, on a target and with a loss in a set: per energy lost, this happens
with the rate of these interactions over the energy loss, times the probability of neither a decay nor an interaction before. The first two
random numbers decide on the energy, and the one at the interaction on the rest. Missing: the numerics are exact. -/
theorem C160_next_interaction_partial (c : UtilitySettings) (lower τ ρ : ℝ) (u : Utility) (hu : c.utility = some u) (a : PropArgs)
    (q : Prop') (hc : Competing c lower τ ρ q.state.energy) (hq : q.sector.util = u)
    (hd : q.sector.dens.evaluate q.state.position = ρ) (L : ℝ → List (XSec × List LossSource))
    (hL : SourcesAt c lower q.state.energy L) (t : IType) (ht : t ≠ .undefined) (h : ℕ) (B : Set ℝ) (hB : MeasurableSet B)
    (hm : Measurable fun z => partialRate ((L z).flatMap Prod.snd) t h B / ENNReal.ofReal (totalRate c.cross z))
    (s : ℝ × ℝ → PState) (hs : ∀ r, (s r).energy = eNextOf { a with ω := nextTwo a.ω q.pos r } q) (ω : ℝ × ℝ → ℕ → ℝ) (pos : ℝ × ℝ → ℕ)
    (e : ℝ) (h0 : lower ≤ e) (h1 : a.minEnergy ≤ e) (h2 : e ≤ q.state.energy) :
    ∫⁻ r in Draws, (if nextOf { a with ω := nextTwo a.ω q.pos r } q = .stochastic ∧
          e < eNextOf { a with ω := nextTwo a.ω q.pos r } q then
        volume {x : ℝ | 0 ≤ x ∧ x < 1 ∧ (doStochastic (Function.update (ω r) (pos r) x) u (s r) (pos r)).1.type = t ∧
          (doStochastic (Function.update (ω r) (pos r) x) u (s r) (pos r)).1.comp = h ∧
          (doStochastic (Function.update (ω r) (pos r) x) u (s r) (pos r)).1.v ∈ B} else 0)
      = ∫⁻ z in Ioo e q.state.energy,
          partialRate ((L z).flatMap Prod.snd) t h B / ENNReal.ofReal (c.cross.map fun x => x.edx z).sum *
            ENNReal.ofReal (Real.exp (-∫ y in z..q.state.energy, (decayDensity c τ ρ y + interactionDensity c y))) := by
  have law1 := interaction_law hc.toInteracting
  have law2 := decay_law hc
  have key : ∀ r ∈ Draws, (nextOf { a with ω := nextTwo a.ω q.pos r } q = .stochastic ∧
      e < eNextOf { a with ω := nextTwo a.ω q.pos r } q) ↔
      (e < ((c.interaction lower).energyInteraction c.junk q.state.energy r.2).orElse q.state.energy ∧
      ((c.decay lower).energyDecay τ c.junk q.state.energy r.1 ρ).orElse q.state.energy <
        ((c.interaction lower).energyInteraction c.junk q.state.energy r.2).orElse q.state.energy) := fun r _ => by
    obtain ⟨k1, k2, k3⟩ := energies hc u hu a q hq rfl hd r
    rw [next_stochastic _ q e (by rw [k3]; exact max_le h1 h0), k1, k2]
  have enext : ∀ r ∈ Draws, e < ((c.interaction lower).energyInteraction c.junk q.state.energy r.2).orElse q.state.energy →
      ((c.decay lower).energyDecay τ c.junk q.state.energy r.1 ρ).orElse q.state.energy <
        ((c.interaction lower).energyInteraction c.junk q.state.energy r.2).orElse q.state.energy →
      eNextOf { a with ω := nextTwo a.ω q.pos r } q =
        ((c.interaction lower).energyInteraction c.junk q.state.energy r.2).orElse q.state.energy := fun r _ g1 g2 => by
    obtain ⟨k1, k2, k3⟩ := energies hc u hu a q hq rfl hd r
    rw [next_max, k1, k2, k3]
    exact max_eq_right (max_le g2.le ((max_le h1 h0).trans g1.le))
  unfold Draws
  rw [first_weighted law1 law2 h0 h0 h2 _ hm _ (fun r hr g1 g2 => ?_) (fun r hr g => ?_)]
  · refine setLIntegral_congr_fun measurableSet_Ioo fun z hz => ?_
    have hz' : z ∈ Icc lower q.state.energy := ⟨h0.trans hz.1.le, hz.2.le⟩
    have p1 := hc.loss_pos z hz'
    have p2 := hc.rate_pos z hz'
    have swap : ∫ y in z..q.state.energy, (interactionDensity c y + decayDensity c τ ρ y)
        = ∫ y in z..q.state.energy, (decayDensity c τ ρ y + interactionDensity c y) := by
      congr 1; funext y; ring
    simp only [swap]
    have ed : interactionDensity c z = totalRate c.cross z / (c.cross.map fun x => x.edx z).sum := rfl
    have p2' : 0 < totalRate c.cross z := p2
    have hpd : 0 ≤ interactionDensity c z := (div_pos p2 p1).le
    rw [ENNReal.ofReal_mul hpd, ed, ENNReal.ofReal_div_of_pos p1]
    have n1 : ENNReal.ofReal (totalRate c.cross z) ≠ 0 := by simpa using p2'
    have n2 : ENNReal.ofReal (totalRate c.cross z) ≠ ⊤ := ENNReal.ofReal_ne_top
    generalize ENNReal.ofReal (totalRate c.cross z) = T at *
    generalize ENNReal.ofReal (Real.exp _) = X
    generalize ENNReal.ofReal (List.map _ c.cross).sum = D
    simp only [div_eq_mul_inv]
    calc T * D⁻¹ * X * (partialRate ((L z).flatMap Prod.snd) t h B * T⁻¹)
        = partialRate ((L z).flatMap Prod.snd) t h B * D⁻¹ * X * (T * T⁻¹) := by ring
      _ = _ := by rw [ENNReal.mul_inv_cancel n1 n2, mul_one]
  · rw [if_pos ((key r hr).mpr ⟨g1, g2⟩)]
    have hz : ((c.interaction lower).energyInteraction c.junk q.state.energy r.2).orElse q.state.energy ∈ Icc lower q.state.energy :=
      law1.mem' hr.2.1 hr.2.2.le
    exact third hL hu hz (hc.rate_pos _ hz) (s r) ((hs r).trans (enext r hr g1 g2)) (ω r) (pos r) t ht h hB
  · rw [if_neg fun k => g ((key r hr).mp k)]

/-- Nothing is in the way of the particle until its next event: without multiple scattering it flies straight on inside its sector and within
the distance. -/
def Spec.Unhindered (a : PropArgs) (q : Prop') (E1 : ℝ) : Prop :=
  E1 ≠ -1 ∧ ∃ d, q.sector.dens.correct q.state.position q.state.direction (q.sector.util.lengthContinuous q.state.energy E1)
      (a.maxDistance - q.state.distance) = some d ∧ q.sector.geo.isInside q.state.position q.state.direction ∧
    d ≤ distanceToBorder a.sectors q.state.position q.state.direction q.sector.geo ∧ d ≤ a.maxDistance - q.state.distance

/-- The stream of random numbers with the next three given. -/
def Spec.nextThree (ω : ℕ → ℝ) (pos : ℕ) (r : ℝ × ℝ) (x : ℝ) : ℕ → ℝ := Function.update (nextTwo ω pos r) (pos + 2) x

/-- An iteration of `Propagate` adds a continuous loss down to an energy above `e` and an interaction of the type `t` on the target `h` with a
relative loss in `B` to the track. -/
def Spec.Interacts (a : PropArgs) (q : Prop') (t : IType) (h : ℕ) (e : ℝ) (B : Set ℝ) : Prop :=
  ∃ q' s1 s2, propStep a q = .ok q' ∧ q'.track = q.track ++ [⟨s1, .continuousEnergyLoss, 0⟩, ⟨s2, t, h⟩] ∧ e < s1.energy ∧
    1 - s2.energy / s1.energy ∈ B

/-- What an iteration does if nothing is in the way and there is neither randomisation nor scattering. -/
lemma LossLaw.step_clear {a : PropArgs} {q : Prop'} (hs : q.sector.util.scattering = none) (hr : q.sector.util.contRand = none)
    (hc : Unhindered a q (eNextOf a q)) :
    ∃ s1 : PState, s1.energy = eNextOf a q ∧ propStep a q = react a q (nextOf a q) (eMinOf a q) ⟨.interaction, s1, q.sector, (eStochOf a q).2⟩ := by
  obtain ⟨h1, d, h2, h3, h4, h5⟩ := hc
  have hu : Undisturbed a q (eNextOf a q) (eStochOf a q).2 d q.state.direction q.state.direction (Memo.init (eStochOf a q).2) := by
    refine ⟨h1, h2, ?_, h3, h4, h5⟩
    unfold Utility.directionsScatter
    rw [hs]
  refine ⟨afterStep q (eNextOf a q) (eNextOf a q) d q.state.direction q.state.direction, rfl, (step_undisturbed a q d _ _ _ hu).trans ?_⟩
  unfold finish Utility.energyRandomize
  simp only [hr, ite_self]
  rfl

/-- When the iteration ends with an interaction. -/
lemma LossLaw.interacts_iff {a : PropArgs} {q : Prop'} (hs : q.sector.util.scattering = none) (hr : q.sector.util.contRand = none)
    (hc : Unhindered a q (eNextOf a q)) {e : ℝ} (he : 0 ≤ e) {t : IType} (ht : t ≠ .undefined) (ht' : t ≠ .decay) (h : ℕ) (B : Set ℝ) :
    ∃ s1 : PState, s1.energy = eNextOf a q ∧ (Interacts a q t h e B ↔ nextOf a q = .stochastic ∧ e < eNextOf a q ∧
      (doStochastic a.ω q.sector.util s1 (eStochOf a q).2).1.type = t ∧ (doStochastic a.ω q.sector.util s1 (eStochOf a q).2).1.comp = h ∧
      (doStochastic a.ω q.sector.util s1 (eStochOf a q).2).1.v ∈ B) := by
  classical
  obtain ⟨s1, e1, e2⟩ := step_clear hs hr hc
  refine ⟨s1, e1, ?_⟩
  have hen : ∀ s2 : PState, s2 = (doStochastic a.ω q.sector.util s1 (eStochOf a q).2).2.1 → e < s1.energy →
      1 - s2.energy / s1.energy = (doStochastic a.ω q.sector.util s1 (eStochOf a q).2).1.v := by
    rintro s2 rfl hlt
    have : s1.energy ≠ 0 := (he.trans_lt hlt).ne'
    simp only [doStochastic]
    field_simp
    ring
  constructor
  · rintro ⟨q', t1, t2, k1, k2, k3, k4⟩
    rw [e2] at k1
    cases hn : nextOf a q with
    | decay =>
      rw [hn] at k1
      simp only [react] at k1
      obtain rfl := Except.ok.inj k1
      simp at k2
      exact absurd k2.2.2.1.symm ht'
    | minimalE =>
      rw [hn] at k1
      simp only [react] at k1
      obtain rfl := Except.ok.inj k1
      simp at k2
    | stochastic =>
      rw [hn] at k1
      simp only [react] at k1
      obtain rfl := Except.ok.inj k1
      simp only at k2
      split_ifs at k2 with hty
      · simp at k2
        obtain ⟨rfl, g2, g3, g4⟩ := k2
        refine ⟨rfl, e1 ▸ k3, g3, g4, ?_⟩
        rw [← hen t2 g2.symm k3]
        exact k4
      · simp at k2
  · rintro ⟨hn, k1, k2, k3, k4⟩
    have hlt : e < s1.energy := by rw [e1]; exact k1
    have hp : ∃ q', propStep a q = .ok q' ∧ q'.track =
        q.track ++ [⟨s1, .continuousEnergyLoss, 0⟩, ⟨(doStochastic a.ω q.sector.util s1 (eStochOf a q).2).2.1, t, h⟩] := by
      rw [e2, hn]
      simp only [react]
      refine ⟨_, rfl, ?_⟩
      simp only [k2, k3]
      rw [if_pos ht]
      simp
    obtain ⟨q', g1, g2⟩ := hp
    exact ⟨q', s1, _, g1, g2, hlt, by rw [hen _ rfl hlt]; exact k4⟩

/-- C160: the same for the track, in a step with nothing in the way, without continuous randomization and multiple scattering: the next three
random numbers decide on the two new entries of the track. Missing: the numerics are exact. -/
theorem C160_step_partial (c : UtilitySettings) (lower τ ρ : ℝ) (u : Utility) (hu : c.utility = some u) (hcr : c.contRand = false)
    (hsc : c.scattering = none) (a : PropArgs) (q : Prop') (hc : Competing c lower τ ρ q.state.energy) (hq : q.sector.util = u)
    (hd : q.sector.dens.evaluate q.state.position = ρ) (L : ℝ → List (XSec × List LossSource))
    (hL : SourcesAt c lower q.state.energy L) (t : IType) (ht : t ≠ .undefined) (ht' : t ≠ .decay) (h : ℕ) (B : Set ℝ)
    (hB : MeasurableSet B)
    (hm : Measurable fun z => partialRate ((L z).flatMap Prod.snd) t h B / ENNReal.ofReal (totalRate c.cross z))
    (hclear : ∀ E1, lower ≤ E1 → E1 ≤ q.state.energy → Unhindered a q E1)
    (e : ℝ) (h0 : lower ≤ e) (h1 : a.minEnergy ≤ e) (h2 : e ≤ q.state.energy) (h3 : a.minEnergy ≤ q.state.energy) :
    ∫⁻ r in Draws, volume {x : ℝ | 0 ≤ x ∧ x < 1 ∧ Interacts { a with ω := nextThree a.ω q.pos r x } q t h e B}
      = ∫⁻ z in Ioo e q.state.energy,
          partialRate ((L z).flatMap Prod.snd) t h B / ENNReal.ofReal (c.cross.map fun x => x.edx z).sum *
            ENNReal.ofReal (Real.exp (-∫ y in z..q.state.energy, (decayDensity c τ ρ y + interactionDensity c y))) := by
  classical
  have hcol : u.scattering = none ∧ u.contRand = none := by
    obtain ⟨l, -, -, hm'⟩ := utility_some hu
    obtain rfl := Option.some.inj hm'
    refine ⟨hsc, ?_⟩
    show (if c.contRand = true then _ else none) = none
    rw [hcr]
    rfl
  have hpos0 : 0 ≤ e := hc.lower_pos.le.trans h0
  rw [← C160_next_interaction_partial c lower τ ρ u hu a q hc hq hd L hL t ht h B hB hm
    (fun r => { q.state with energy := eNextOf { a with ω := nextTwo a.ω q.pos r } q }) (fun _ => rfl)
    (fun r => nextTwo a.ω q.pos r) (fun _ => q.pos + 2) e h0 h1 h2]
  refine setLIntegral_congr_fun (measurableSet_Ico.prod measurableSet_Ico) fun r hr => ?_
  have two : ∀ x, eNextOf { a with ω := nextThree a.ω q.pos r x } q = eNextOf { a with ω := nextTwo a.ω q.pos r } q ∧
      nextOf { a with ω := nextThree a.ω q.pos r x } q = nextOf { a with ω := nextTwo a.ω q.pos r } q ∧
      (eStochOf { a with ω := nextThree a.ω q.pos r x } q).2 = q.pos + 2 := fun x => by
    obtain ⟨g1, g2, -⟩ := C157_two_numbers c u hu τ hc.lifetime { a with ω := nextTwo a.ω q.pos r } q hq (nextThree a.ω q.pos r x)
      (by unfold nextThree; rw [Function.update_of_ne (by omega)]) (by unfold nextThree; rw [Function.update_of_ne (by omega)])
    obtain ⟨-, -, g3⟩ := C157_two_numbers c u hu τ hc.lifetime { a with ω := nextThree a.ω q.pos r x } q hq _ rfl rfl
    exact ⟨g1, g2, g3⟩
  have hmem : lower ≤ eNextOf { a with ω := nextTwo a.ω q.pos r } q ∧ eNextOf { a with ω := nextTwo a.ω q.pos r } q ≤ q.state.energy := by
    obtain ⟨k1, k2, k3⟩ := energies hc u hu a q hq rfl hd r
    rw [next_max, k1, k2, k3]
    have m1 := (decay_law hc).mem' hr.1.1 hr.1.2.le
    have m2 := (interaction_law hc.toInteracting).mem' hr.2.1 hr.2.2.le
    exact ⟨m2.1.trans (le_max_right _ _), max_le (max_le m1.2 (max_le h3 hc.energy.1.le)) m2.2⟩
  have key : ∀ x, Interacts { a with ω := nextThree a.ω q.pos r x } q t h e B ↔
      nextOf { a with ω := nextTwo a.ω q.pos r } q = .stochastic ∧ e < eNextOf { a with ω := nextTwo a.ω q.pos r } q ∧
      (c.sample (eNextOf { a with ω := nextTwo a.ω q.pos r } q) x).type = t ∧
      (c.sample (eNextOf { a with ω := nextTwo a.ω q.pos r } q) x).comp = h ∧
      (c.sample (eNextOf { a with ω := nextTwo a.ω q.pos r } q) x).v ∈ B := fun x => by
    obtain ⟨w1, w2, w3⟩ := two x
    obtain ⟨s1, g1, g2⟩ := interacts_iff (a := { a with ω := nextThree a.ω q.pos r x }) (q := q) (by rw [hq]; exact hcol.1)
      (by rw [hq]; exact hcol.2) (by rw [w1]; exact hclear _ hmem.1 hmem.2) hpos0 ht ht' h B
    rw [g2, w1, w2, w3]
    have : (doStochastic (nextThree a.ω q.pos r x) q.sector.util s1 (q.pos + 2)).1
        = c.sample (eNextOf { a with ω := nextTwo a.ω q.pos r } q) x := by
      rw [← w1, ← g1, hq]
      obtain ⟨l, -, -, hm'⟩ := utility_some hu
      obtain rfl := Option.some.inj hm'
      simp only [doStochastic, Utility.stochasticLoss, nextThree, Function.update_self]
    simp only [this]
  have hsamp : ∀ x, (doStochastic (Function.update (nextTwo a.ω q.pos r) (q.pos + 2) x) u
      { q.state with energy := eNextOf { a with ω := nextTwo a.ω q.pos r } q } (q.pos + 2)).1
        = c.sample (eNextOf { a with ω := nextTwo a.ω q.pos r } q) x := fun x => by
    obtain ⟨l, -, -, hm'⟩ := utility_some hu
    obtain rfl := Option.some.inj hm'
    simp only [doStochastic, Utility.stochasticLoss, Function.update_self]
  simp only [key, hsamp]
  by_cases hn : nextOf { a with ω := nextTwo a.ω q.pos r } q = .stochastic ∧ e < eNextOf { a with ω := nextTwo a.ω q.pos r } q
  · rw [if_pos hn]
    congr 1
    ext x
    simp only [mem_ofPred_eq, hn.1, hn.2, true_and]
  · rw [if_neg hn]
    convert measure_empty (μ := (volume : Measure ℝ))
    refine eq_empty_of_forall_notMem ?_
    rintro x ⟨-, -, g1, g2, -⟩
    exact hn ⟨g1, g2⟩

/-- The particle of `Deep`, whose interactions have the rate 1 and take half of the energy. -/
example (search : IState → Option ℝ) :
    SourcesAt (Deep.settings search) 1 100 (fun _ => [(Deep.process, [⟨.brems, 7, Measure.dirac (1 / 2)⟩])]) ∧
    ∀ B, MeasurableSet B → partialRate [⟨.brems, 7, Measure.dirac (1 / 2)⟩] .brems 7 B = Measure.dirac (1 / 2) B := by
  refine ⟨⟨fun _ _ => rfl, fun z _ p hp => ?_, fun z _ => by simp [totalRate, ratesOf, Deep.settings, Deep.process]⟩,
    fun B _ => by simp [partialRate]⟩
  obtain rfl := List.mem_singleton.mp hp
  refine ⟨by simp [Deep.process], by simp, by simp [Deep.process], fun s hs B hB => ?_⟩
  obtain rfl := List.mem_singleton.mp hs
  simp only [Deep.process, measure_univ, ENNReal.toReal_one, Except.ok.injEq, Measure.dirac_apply' _ hB]
  by_cases hb : (1 / 2 : ℝ) ∈ B
  · have : {left : ℝ | 0 < left ∧ left ≤ 1 ∧ ∃ v, 1 / 2 = v ∧ v ∈ B} = Ioc 0 1 := by
      ext x
      simpa using fun _ _ => by simpa using hb
    rw [this, indicator_of_mem hb]
    simp
  · have : {left : ℝ | 0 < left ∧ left ≤ 1 ∧ ∃ v, 1 / 2 = v ∧ v ∈ B} = ∅ := by
      ext x
      simpa using fun _ _ => by simpa using hb
    rw [this, indicator_of_notMem hb]
    simp

/-- Nothing is in the way of that particle in the centre of a sphere of the radius 1000 if it may fly 200. -/
example (search : IState → Option ℝ) (E1 : ℝ) (h1 : 1 ≤ E1) (h2 : E1 ≤ 100) :
    Unhindered ⟨[Deep.sector search], fun _ => 1 / 2, 200, 1, 0⟩ ⟨Deep.init, Deep.sector search, [], 0, true⟩ E1 := by
  have hd : (Deep.sector search).geo.dist Deep.init.position Deep.init.direction = (1000, -1) := by
    have := Deep.dist search 0 le_rfl (by norm_num)
    have e : Deep.init.position + (0 : ℝ) • Deep.init.direction = Deep.init.position := by ext <;> simp
    rw [e, sub_zero] at this
    exact this
  have hl : (Deep.sector search).util.lengthContinuous 100 E1 ≤ 100 - E1 := by
    change (((Deep.settings search).displacement 1).calculate newIntegral 100 E1).1 ≤ 100 - E1
    rcases calculate_cases ((Deep.settings search).displacement 1) exactQ_exact newIntegral 100 E1 (by linarith) h2 with ⟨_, h⟩ | ⟨_, h⟩
    · rw [h]; linarith
    · rw [h]
      have : ((Deep.settings search).displacement 1).f = fun _ => -1 := by
        funext y
        simp [displacementIntegrand, UtilitySettings.dedx, Deep.settings, Deep.process, UtilitySettings.displacement,
          UtilitySettings.integralOf]
      rw [this, intervalIntegral.integral_const]
      simp
  refine ⟨by linarith, _, rfl, ?_, ?_, ?_⟩
  · show (Deep.sector search).geo.isInside Deep.init.position Deep.init.direction
    unfold Geo.isInside
    rw [hd]
    constructor <;> norm_num
  · show (Deep.sector search).util.lengthContinuous 100 E1 / 1 ≤ _
    simp only [distanceToBorder, List.foldl, hd, lt_irrefl, if_false]
    rw [div_one]
    linarith
  · show (Deep.sector search).util.lengthContinuous 100 E1 / 1 ≤ 200 - 0
    rw [div_one]
    linarith

end Proposal
