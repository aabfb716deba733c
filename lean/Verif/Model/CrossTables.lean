import Verif.Model.CrossSection
import Verif.Model.RootFinding
import Mathlib.Analysis.SpecialFunctions.Log.Basic

/-!
# Cross sections with tables

The parts of `CrossSection` that depend on the argument `interpol`: the factories `make_dndx`, `make_dedx` and `make_de2dx` in
`/repo/src/PROPOSAL/PROPOSAL/crosssection/CrossSectionDNDX/CrossSectionDNDXBuilder.h`, `CrossSectionDEDX/CrossSectionDEDXBuilder.h` and
`CrossSectionDE2DX/CrossSectionDE2DXBuilder.h`, the tables of total losses and rates, and their use in
`/repo/src/PROPOSAL/PROPOSAL/crosssection/CrossSection.h` 72-201, 289-298 and 338-364; `InitializeRateInterpolant` in
`/repo/src/PROPOSAL/detail/PROPOSAL/propagation_utility/InteractionBuilder.cxx` 40-64. The splines are a parameter, as they are in the
library CubicInterpolation, and so is the axis formula of its `ExpAxis`. Rates are those of all losses (`Calculate(energy)`); the
components have different hashes. Files and log messages are left out.
-/

namespace Proposal

/-- `InterpolationSettings` (Constants.cxx 28-33). -/
structure CrossTableSettings where
  up : ℝ
  nodesDedx : ℕ
  nodesDe2dx : ℕ
  nodesDndx : ℕ
  nodesRate : ℕ

/-- `ExpAxis(low, up, n).back_transform` of CubicInterpolation: `n` nodes from `low` to `up`, equidistant in the logarithm. -/
noncomputable def expAxis (low up : ℝ) (n : ℕ) (x : ℝ) : ℝ := low * Real.exp (x * (Real.log (up / low) / (n - 1)))

/-- The splines: function, lower end, upper end, number of nodes, energy. -/
abbrev SplineMaker := (ℝ → ℝ) → ℝ → ℝ → ℕ → ℝ → ℝ

/-- The exceptions of the constructors. -/
inductive BuildErr where
  | logicError
  | mathError
deriving DecidableEq

open Classical in
/-- `CrossSectionDEDXInterpolant::Calculate` (CrossSectionDEDXInterpolant.cxx 25-30) and `CrossSectionDE2DXInterpolant::Calculate`
(CrossSectionDE2DXInterpolant.cxx 24-29) for the lower end `l`. -/
noncomputable def lossTable (S : SplineMaker) (f : ℝ → ℝ) (l up : ℝ) (n : ℕ) (E : ℝ) : ℝ :=
  if E < l then 0 else S f l up n E

/-- `make_dedx` (CrossSectionDEDXBuilder.h 9-23) with `build_dedx_def` (CrossSectionDEDXInterpolant.h 16-28): without a positive node
there is no calculator. `f` is the integral. -/
noncomputable def makeDedx (S : SplineMaker) (s : CrossTableSettings) (interpol : Bool) (low : ℝ) (f : ℝ → ℝ) :
    Except BuildErr (Option (ℝ → ℝ)) :=
  if interpol then
    match refineRange (fun i => f (expAxis low s.up s.nodesDedx i)) s.nodesDedx with
    | .outOfRange => .ok none
    | .math => .error .mathError
    | .start i => .ok (some (lossTable S f (expAxis low s.up s.nodesDedx i) s.up s.nodesDedx))
  else .ok (some f)

/-- `make_de2dx` (CrossSectionDE2DXBuilder.h 7-17) with `build_de2dx_def` (CrossSectionDE2DXInterpolant.h 13-27). -/
noncomputable def makeDe2dx (S : SplineMaker) (s : CrossTableSettings) (interpol : Bool) (low : ℝ) (f : ℝ → ℝ) :
    Except BuildErr (ℝ → ℝ) :=
  if interpol then
    match refineRangeDE2DX (fun i => f (expAxis low s.up s.nodesDe2dx i)) s.nodesDe2dx with
    | .outOfRange => .error .logicError
    | .math => .error .mathError
    | .start i => .ok (lossTable S f (expAxis low s.up s.nodesDe2dx i) s.up s.nodesDe2dx)
  else .ok f

open Classical in
/-- `evaluate_interpolant` (CrossSectionDNDXInterpolant.cxx 63-76) at the upper end of the losses. -/
noncomputable def rateTable (S : SplineMaker) (f : ℝ → ℝ) (l up : ℝ) (n : ℕ) (E : ℝ) : ℝ :=
  if E < l then 0 else if S f l up n E < 0 then 0 else S f l up n E

/-- `make_dndx` (CrossSectionDNDXBuilder.h 10-20) with `build_dndx_def` (CrossSectionDNDXInterpolant.h 62-84), as far as the rate of
all losses is concerned. -/
noncomputable def makeDndx (S : SplineMaker) (s : CrossTableSettings) (interpol : Bool) (low : ℝ) (f : ℝ → ℝ) :
    Except BuildErr (ℝ → ℝ) :=
  if interpol then
    match refineRange (fun i => f (expAxis low s.up s.nodesDndx i)) s.nodesDndx with
    | .outOfRange => .error .logicError
    | .math => .error .mathError
    | .start i => .ok (rateTable S f (expAxis low s.up s.nodesDndx i) s.up s.nodesDndx)
  else .ok f

/-- The loops over the components (CrossSection.h 102-108, 117-123, 162-165): one calculator each. -/
def eachComp {β : Type} (mk : Comp → Except BuildErr β) : List Comp → Except BuildErr (List (Comp × β))
  | [] => .ok []
  | c :: cs => do
    let b ← mk c
    let bs ← eachComp mk cs
    pure ((c, b) :: bs)

/-- What a cross section calculates. -/
structure CrossFns where
  ndx : ℝ → ℝ
  edx : ℝ → ℝ
  e2dx : ℝ → ℝ

open Classical in
/-- The constructor of a component wise `CrossSection` (CrossSection.h 239-257 with 89-201) and its `CalculatedNdx`, `CalculatedEdx` and
`CalculatedE2dx` (289-298, 338-364), for the rates, losses and squared losses by integration. -/
noncomputable def buildCross (S : SplineMaker) (s : CrossTableSettings) (interpol : Bool) (cs : List Comp) (low : ℝ)
    (rate loss var : Comp → ℝ → ℝ) (cut : Option Cut) : Except BuildErr CrossFns := do
  let nd ← if onlyContinuous cut then .ok [] else eachComp (fun c => makeDndx S s interpol low (rate c)) cs
  let de ← if cut.isSome then eachComp (fun c => makeDedx S s interpol low (loss c)) cs else .ok []
  let d2 ← if (cut.map Cut.contRand).getD false then eachComp (fun c => makeDe2dx S s interpol low (var c)) cs else .ok []
  pure
    { ndx := fun E => (nd.map fun e => e.2 E / weightComponent cs e.1).sum
      edx := fun E => (de.map fun e => (e.2.map fun t => t E / weightComponent cs e.1).getD 0).sum
      e2dx := fun E => (d2.map fun e => e.2 E / weightComponent cs e.1).sum }

/-- `InitializeRateInterpolant` (InteractionBuilder.cxx 40-64) for the total rate: the table and its lower end. -/
noncomputable def makeRateTable (S : SplineMaker) (s : CrossTableSettings) (low : ℝ) (rate : ℝ → ℝ) :
    Except BuildErr ((ℝ → ℝ) × ℝ) :=
  match refineRange (fun i => rate (expAxis low s.up s.nodesRate i)) s.nodesRate with
  | .outOfRange => .error .logicError
  | .math => .error .mathError
  | .start i => .ok (S rate (expAxis low s.up s.nodesRate i) s.up s.nodesRate, expAxis low s.up s.nodesRate i)

end Proposal
