import Verif.Model.Utility
import Verif.Model.Integral
import Verif.Model.RootFinding
import Verif.Model.Statistics
import Verif.Model.Time

/-!
# The calculators behind a propagation utility

`/repo/src/PROPOSAL/detail/PROPOSAL/propagation_utility/*.cxx` and
`/repo/src/PROPOSAL/PROPOSAL/propagation_utility/ContRandBuilder.h`. Rates, dE/dx and dE2/dx are arbitrary functions of the
energy. Interpolation tables are arbitrary functions, the search `cubic_splines::find_parameter` of the external library is
a parameter. Random numbers lie in [0, 1]; the logarithm of 0 is handled separately since it is infinite in the code.
Asserts, hashes and the building of tables are left out.
-/

namespace Proposal

/-! ## Integrands -/

open Classical in
/-- `Displacement::FunctionToIntegral` (Displacment.cxx 6-13) for the sum `dedx` of the energy losses. -/
noncomputable def displacementIntegrand (dedx : ℝ → ℝ) (E : ℝ) : ℝ := if dedx E > 0 then -1 / dedx E else 0

open Classical in
/-- `Interaction::FunctionToIntegral` (Interaction.cxx 20-26) for the total rate `rate`. -/
noncomputable def interactionIntegrand (dedx rate : ℝ → ℝ) (E : ℝ) : ℝ :=
  if rate E > 0 then displacementIntegrand dedx E * rate E else 0

/-- `Decay::FunctionToIntegral` (Decay.cxx 7-13). -/
noncomputable def decayIntegrand (dedx : ℝ → ℝ) (mass E : ℝ) : ℝ :=
  displacementIntegrand dedx E / (SPEED * Real.sqrt ((E - mass) * (E + mass)) / mass)

/-- `ContRand::FunctionToIntegral` (ContRand.cxx 28-35) for the sum `de2dx`. -/
noncomputable def contRandIntegrand (dedx de2dx : ℝ → ℝ) (E : ℝ) : ℝ := displacementIntegrand dedx E * de2dx E

open Classical in
/-- `ExactTimeBuilder::FunctionToIntegral` (TimeBuilder.cxx 40-48). -/
noncomputable def timeIntegrand (dedx : ℝ → ℝ) (mass E : ℝ) : ℝ :=
  if displacementIntegrand dedx E = 0 then 0
  else displacementIntegrand dedx E * E / (Real.sqrt (max ((E - mass) * (E + mass)) 0) * SPEED)

/-! ## Integrals over the energy -/

/-- What `GetUpperLimit` and the functions that use it give: a number, a NaN, or an exception (`std::logic_error`,
`MathException`, `std::invalid_argument`). -/
inductive UOut
  | value (x : ℝ)
  | nan
  | logicError
  | mathError
  | invalidArgument

/-- `UtilityIntegral`: numerical methods, integrand and lower limit. The state of its `Integral` is passed separately. -/
structure IntegralUtil where
  Q : Quadrature
  search : IState → Option ℝ
  f : ℝ → ℝ
  lower : ℝ

/-- `UtilityIntegral::Calculate` (PropagationUtilityIntegral.cxx 18-22). -/
noncomputable def IntegralUtil.calculate (U : IntegralUtil) (s : IState) (initial final : ℝ) : ℝ × IState :=
  Integrate U.Q s initial final U.f 4 0

/-- What `Integral::GetUpperLimit` returns, as an outcome. Without an integral it logs an error and returns 0. -/
def Upper.out : Upper → UOut
  | .value x _ => .value x
  | .noIntegral => .value 0
  | .nan => .nan

open Classical in
/-- `UtilityIntegral::GetUpperLimit` (PropagationUtilityIntegral.cxx 24-37). -/
noncomputable def IntegralUtil.upperLimit (U : IntegralUtil) (s : IState) (initial rnd : ℝ) : UOut :=
  match integrateRandom U.Q s initial U.lower U.f 4 (-rnd) 0 with
  | none => .invalidArgument
  | some r => if rnd > r.1 then .logicError else (getUpperLimit U.search r.2).out

open Classical in
/-- `InteractionBuilder::EnergyInteraction` (InteractionBuilder.cxx 66-74) without interpolation. -/
noncomputable def IntegralUtil.energyInteraction (U : IntegralUtil) (s : IState) (energy rnd : ℝ) : UOut :=
  let c := U.calculate s energy U.lower
  if rnd = 0 ∨ -Real.log rnd ≥ c.1 then .value U.lower else U.upperLimit c.2 energy (-Real.log rnd)

open Classical in
/-- `DecayBuilder::EnergyDecay` (DecayBuilder.cxx 27-35) without interpolation. For the random number 0 and a positive
density the left side of the comparison is infinite. -/
noncomputable def IntegralUtil.energyDecay (U : IntegralUtil) (lifetime : ℝ) (s : IState) (energy rnd density : ℝ) : UOut :=
  let c := U.calculate s energy U.lower
  let rndd := -Real.log rnd * density
  if rnd = 0 ∨ rndd ≥ c.1 / lifetime then .value U.lower else U.upperLimit c.2 energy (rndd * lifetime)

/-! ## Interpolated integrals -/

/-- `IPREC` (Constants.cxx 22). -/
noncomputable def IPREC : ℝ := 1 / 10 ^ 6

/-- `UtilityInterpolant`: integrand, table, direction of the table, lower limit, and the search for a parameter of the
table with a given value in a bracket from a starting point (`none` for `std::runtime_error`). -/
structure TableUtil where
  f : ℝ → ℝ
  table : ℝ → ℝ
  reverse : Bool
  lower : ℝ
  find : (target lo hi start : ℝ) → Option ℝ

open Classical in
/-- `UtilityInterpolant::Calculate` (PropagationUtilityInterpolant.cxx 64-79). -/
noncomputable def TableUtil.calculate (U : TableUtil) (initial final : ℝ) : ℝ :=
  if initial - final < initial * IPREC then U.f ((initial + initial) / 2) * (final - initial)
  else if U.reverse then U.table final - U.table initial else U.table initial - U.table final

open Classical in
/-- The end of `UtilityInterpolant::GetUpperLimit` (lines 97-126) for the value `target` of the table. -/
noncomputable def TableUtil.search (U : TableUtil) (upper target : ℝ) : UOut :=
  let g := fun x => U.table x - target
  match bisection g U.lower upper ((upper - U.lower) * (1 / 10 ^ 2)) 100 with
  | .error _ => .mathError
  | .ok p =>
    match U.find target p.1 p.2 (if p.2 = upper then upper else (p.1 + p.2) / 2) with
    | some x => .value x
    | none =>
      match bisection g U.lower upper (1 / 10 ^ 6) 100 with
      | .error _ => .mathError
      | .ok q => .value q.1

open Classical in
/-- `UtilityInterpolant::GetUpperLimit` (PropagationUtilityInterpolant.cxx 82-130). -/
noncomputable def TableUtil.upperLimit (U : TableUtil) (upper rnd : ℝ) : UOut :=
  let maxRnd := U.calculate upper U.lower
  if rnd > maxRnd then .logicError
  else if rnd = maxRnd then .value U.lower
  else U.search upper (U.table upper - if U.reverse then -rnd else rnd)

open Classical in
/-- `InteractionBuilder::EnergyInteraction` (InteractionBuilder.cxx 66-74) with interpolation. -/
noncomputable def TableUtil.energyInteraction (U : TableUtil) (energy rnd : ℝ) : UOut :=
  if rnd = 0 ∨ -Real.log rnd ≥ U.calculate energy U.lower then .value U.lower
  else U.upperLimit energy (-Real.log rnd)

open Classical in
/-- `DecayBuilder::EnergyDecay` (DecayBuilder.cxx 27-35) with interpolation. -/
noncomputable def TableUtil.energyDecay (U : TableUtil) (lifetime energy rnd density : ℝ) : UOut :=
  let rndd := -Real.log rnd * density
  if rnd = 0 ∨ rndd ≥ U.calculate energy U.lower / lifetime then .value U.lower
  else U.upperLimit energy (rndd * lifetime)

/-! ## Other calculators -/

/-- `ContRandBuilder::EnergyRandomize` (ContRandBuilder.h 29-38) for the function `variance`. -/
noncomputable def energyRandomizeOf (N : Normal) (variance : ℝ → ℝ → ℝ) (lower initial final rnd minEnergy : ℝ) : ℝ :=
  sampleFromGaussian N final (Real.sqrt (max (variance initial final) 0)) rnd (.at (max lower minEnergy)) (.at initial)

/-- The test of the constructor of `ContRand` (ContRand.cxx 9-27): the settings of the cross sections, `none` for no
energy cuts, the number for `GetContRand`. `false` stands for `std::invalid_argument`. -/
def contRandAllowed (cuts : List (Option Bool)) : Bool := cuts.any (fun c => c = some true)

open Classical in
/-- `InteractionBuilder::MeanFreePath` (InteractionBuilder.cxx 80-93); `none` stands for infinity. `table` is the rate
interpolant with its lower energy, if there is one. -/
noncomputable def meanFreePath (table : Option ((ℝ → ℝ) × ℝ)) (rate : ℝ → ℝ) (E : ℝ) : Option ℝ :=
  let inv (r : ℝ) : Option ℝ := if r = 0 then none else some (1 / r)
  match table with
  | some t => if E < t.2 then none else if t.1 E < 0 then none else inv (t.1 E)
  | none => inv (rate E)

/-- `PropagationUtility::Collection` with its pointers, `none` for a null pointer. -/
structure Collection where
  interaction : Option ((ℝ → ℝ → ℝ) × (ℝ → ℝ → Loss))
  displacement : Option (ℝ × (ℝ → ℝ → ℝ) × (ℝ → ℝ → ℝ))
  time : Option (ℝ → ℝ → ℝ → ℝ → ℝ)
  scattering : Option ScatterCalc
  decay : Option (ℝ → ℝ → ℝ → ℝ)
  contRand : Option (ℝ → ℝ → ℝ → ℝ → ℝ)

/-- The constructor of `PropagationUtility` (PropagationUtility.cxx 80-90); `none` stands for `std::invalid_argument`. -/
def Collection.make (c : Collection) : Option Utility :=
  match c.interaction, c.displacement, c.time with
  | some i, some d, some t => some ⟨d.1, c.decay, i.1, i.2, c.contRand, d.2.2, d.2.1, t, c.scattering⟩
  | _, _, _ => none

end Proposal
