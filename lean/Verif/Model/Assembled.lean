import Verif.Model.Calculators
import Verif.Model.CrossSection
import Verif.Model.Density
import Verif.Model.Propagator
import Verif.Model.Time

/-!
# The propagation utility made of cross sections

Models `Propagator::CreateUtility` (`Propagator.cxx` 448-470) with the calculators themselves: `make_displacement`, `make_interaction`,
`make_decay`, `make_contrand` and `make_time` without interpolation, all for the same vector of cross sections. `Model/Config.lean` has the
same function with the settings only.

* The quadrature, the search for upper limits and the normal distribution are parameters, as in `Model/Calculators.lean`.
* A calculator that throws, or whose search ends with a NaN, gives the energy it was called with. In the code an exception leaves
  `Propagate`, so the runs of the model contain the runs of the code without exceptions.
* The members of an `Integral` before a call are arbitrary (`junk`); `C146_state` shows that they do not matter.
-/

namespace Proposal

/-- The settings of `CreateUtility`: cross sections with the continuous randomization of their cuts, mass and lifetime of the particle
(`none`: infinite), flags and the scattering. -/
structure UtilitySettings where
  Q : Quadrature
  search : IState → Option ℝ
  junk : IState
  N : Normal
  cross : List XSec
  cuts : List (Option Bool)
  mass : ℝ
  lifetime : Option ℝ
  contRand : Bool
  timeExact : Bool
  scattering : Option ScatterCalc

/-- The value of a calculator, or `E` instead of an exception or a NaN. -/
def UOut.orElse (o : UOut) (E : ℝ) : ℝ :=
  match o with
  | .value x => x
  | _ => E

namespace UtilitySettings

/-- The sum of the energy losses (Displacment.cxx 8-10). -/
noncomputable def dedx (c : UtilitySettings) (E : ℝ) : ℝ := (c.cross.map fun x => x.edx E).sum

/-- The sum of the squared energy losses (ContRand.cxx 30-32). -/
noncomputable def de2dx (c : UtilitySettings) (E : ℝ) : ℝ := (c.cross.map fun x => x.e2dx E).sum

/-- A `UtilityIntegral` with the lower limit of the cross sections. -/
def integralOf (c : UtilitySettings) (lower : ℝ) (f : ℝ → ℝ) : IntegralUtil := ⟨c.Q, c.search, f, lower⟩

/-- `make_displacement` (DisplacmentBuilder.cxx 40-47). -/
noncomputable def displacement (c : UtilitySettings) (lower : ℝ) : IntegralUtil := c.integralOf lower (displacementIntegrand c.dedx)

/-- `make_interaction` (InteractionBuilder.cxx 95-109). -/
noncomputable def interaction (c : UtilitySettings) (lower : ℝ) : IntegralUtil :=
  c.integralOf lower (interactionIntegrand c.dedx (totalRate c.cross))

/-- `make_decay` (DecayBuilder.cxx 38-56). -/
noncomputable def decay (c : UtilitySettings) (lower : ℝ) : IntegralUtil := c.integralOf lower (decayIntegrand c.dedx c.mass)

/-- `make_contrand` (ContRandBuilder.cxx 18-37). -/
noncomputable def randomisation (c : UtilitySettings) (lower : ℝ) : IntegralUtil :=
  c.integralOf lower (contRandIntegrand c.dedx c.de2dx)

/-- `make_time` (TimeBuilder.cxx 51-70). -/
noncomputable def time (c : UtilitySettings) (lower : ℝ) : IntegralUtil := c.integralOf lower (timeIntegrand c.dedx c.mass)

/-- `Interaction::SampleLoss` for the rates at the energy (Interaction.cxx 35-77); no loss instead of an exception. -/
noncomputable def sample (c : UtilitySettings) (E rnd : ℝ) : Loss :=
  match sampleLoss E (ratesOf c.cross E) rnd with
  | .ok l => l
  | .error _ => ⟨.undefined, 0, 0⟩

/-- `CreateUtility` (Propagator.cxx 448-470) after the constructors of the calculators: the collection for a lower limit. -/
noncomputable def collection (c : UtilitySettings) (lower : ℝ) : Collection where
  interaction := some (fun E r => ((c.interaction lower).energyInteraction c.junk E r).orElse E, c.sample)
  displacement := some (lower, fun E e => ((c.displacement lower).calculate c.junk E e).1,
    fun E g => ((c.displacement lower).upperLimit c.junk E g).orElse E)
  time := some (if c.timeExact then exactTime (fun E e => ((c.time lower).calculate c.junk E e).1) else approximateTime)
  scattering := c.scattering
  decay := c.lifetime.map fun l E r d => ((c.decay lower).energyDecay l c.junk E r d).orElse E
  contRand := if c.contRand then
    some (energyRandomizeOf c.N (fun E e => ((c.randomisation lower).calculate c.junk E e).1) lower) else none

/-- `PropagationUtility(CreateUtility(...))` (Propagator.cxx 424-432); `none` for `std::invalid_argument` of a constructor. -/
noncomputable def utility (c : UtilitySettings) : Option Utility := do
  let lower ← lowerLimOf c.cross
  if c.contRand && !contRandAllowed c.cuts then none
  else (c.collection lower).make

end UtilitySettings

/-- A homogeneous density as the propagator uses it (density_homogeneous.cxx 34-62). -/
noncomputable def homogeneousDensity (ρ : ℝ) : Density where
  correct := fun _ _ res _ => match homogeneousCorrect ρ res with
    | .dist d => some d
    | _ => none
  calculate := fun _ _ l => homogeneousCalculate ρ l
  evaluate := fun _ => ρ

end Proposal
