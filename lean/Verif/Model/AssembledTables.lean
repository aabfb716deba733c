import Verif.Model.Assembled

/-!
# The propagation utility made of cross sections, with tables

Models `Propagator::CreateUtility` (`Propagator.cxx` 448-470) for `do_interpol = true`: the calculators are `UtilityInterpolant`s whose
tables are built from the integrals of `Model/Assembled.lean`.

* The cubic spline made of a function (`CubicInterpolation`, not part of the repository) and the search in it are parameters. The spline is
  a function of all energies; the code has it from the lower limit up to `UPPER_ENERGY_LIM`.
* Exceptions and NaN as in `Model/Assembled.lean`. The tables on disk are not modelled.
-/

namespace Proposal

/-- What the tables are made with: the spline of a function, the search for a value in a spline and
`InterpolationSettings::UPPER_ENERGY_LIM`. -/
structure TableMaker where
  spline : (ℝ → ℝ) → ℝ → ℝ
  find : (ℝ → ℝ) → (target lo hi start : ℝ) → Option ℝ
  top : ℝ

/-- `UtilityInterpolant::BuildTables` (PropagationUtilityInterpolant.cxx 34-60): the spline of the integrals from or to the reference
energy. -/
noncomputable def TableMaker.build (T : TableMaker) (U : IntegralUtil) (junk : IState) (reverse : Bool) : TableUtil :=
  let table := T.spline (if reverse then fun E => (U.calculate junk T.top E).1 else fun E => (U.calculate junk E U.lower).1)
  ⟨U.f, table, reverse, U.lower, T.find table⟩

namespace UtilitySettings

/-- `DisplacementBuilder` with a table (DisplacmentBuilder.cxx 15-25). -/
noncomputable def displacementTable (c : UtilitySettings) (T : TableMaker) (lower : ℝ) : TableUtil :=
  T.build (c.displacement lower) c.junk false

/-- `InteractionBuilder` with a table (InteractionBuilder.cxx 22-38). -/
noncomputable def interactionTable (c : UtilitySettings) (T : TableMaker) (lower : ℝ) : TableUtil :=
  T.build (c.interaction lower) c.junk false

/-- `DecayBuilder` with a table (DecayBuilder.cxx 14-25); the only one that counts from the upper end. -/
noncomputable def decayTable (c : UtilitySettings) (T : TableMaker) (lower : ℝ) : TableUtil :=
  T.build (c.decay lower) c.junk true

/-- `ContRandBuilder` with a table (ContRandBuilder.cxx 10-14). -/
noncomputable def randomisationTable (c : UtilitySettings) (T : TableMaker) (lower : ℝ) : TableUtil :=
  T.build (c.randomisation lower) c.junk false

/-- `ExactTimeBuilder` with a table (TimeBuilder.cxx 18-29). -/
noncomputable def timeTable (c : UtilitySettings) (T : TableMaker) (lower : ℝ) : TableUtil :=
  T.build (c.time lower) c.junk false

/-- `CreateUtility` (Propagator.cxx 448-470) with `do_interpol`. -/
noncomputable def tableCollection (c : UtilitySettings) (T : TableMaker) (lower : ℝ) : Collection where
  interaction := some (fun E r => ((c.interactionTable T lower).energyInteraction E r).orElse E, c.sample)
  displacement := some (lower, fun E e => (c.displacementTable T lower).calculate E e,
    fun E g => ((c.displacementTable T lower).upperLimit E g).orElse E)
  time := some (if c.timeExact then exactTime (fun E e => (c.timeTable T lower).calculate E e) else approximateTime)
  scattering := c.scattering
  decay := c.lifetime.map fun l E r d => ((c.decayTable T lower).energyDecay l E r d).orElse E
  contRand := if c.contRand then
    some (energyRandomizeOf c.N (fun E e => (c.randomisationTable T lower).calculate E e) lower) else none

/-- `PropagationUtility(CreateUtility(...))` (Propagator.cxx 424-432) with tables. -/
noncomputable def tableUtility (c : UtilitySettings) (T : TableMaker) : Option Utility := do
  let lower ← lowerLimOf c.cross
  if c.contRand && !contRandAllowed c.cuts then none
  else (c.tableCollection T lower).make

end UtilitySettings

end Proposal
