import Verif.Model.EnergyCut
import Verif.Model.Utility
import Mathlib.MeasureTheory.Integral.IntervalIntegral.Basic

/-!
# Cross sections

Model of `CrossSection`, its rate and loss calculators, `CrossSectionMultiplier`,
`CrossSectionVector` and the sampling of losses in `Interaction`. Hashes are natural numbers.
`Integral::Integrate` is taken to be exact, i.e. the integral of the integrand.
-/

namespace Proposal

/-- `Component` (medium/Components.h): what the constructor takes (Components.cxx 34-66). The other
members are computed from charge and mass number. -/
structure Comp where
  name : String
  charge : ℝ
  atomicNum : ℝ
  atoms : ℝ

/-- `Component::GetHash` (Components.cxx 56-58, 113-116): a function of charge, mass number and number of
atoms; the other hashed members are computed from these. The name is not hashed. -/
def Comp.hash (h : ℝ → ℝ → ℝ → ℕ) (c : Comp) : ℕ := h c.charge c.atomicNum c.atoms

/-- `sumNucleons_` (Medium.cxx 164-174). -/
noncomputable def sumNucleons (cs : List Comp) : ℝ := (cs.map fun c => c.atoms * c.atomicNum).sum

/-- `weight_component` (CrossSection.h 67-70). -/
noncomputable def weightComponent (cs : List Comp) (c : Comp) : ℝ :=
  sumNucleons cs / (c.atoms * c.atomicNum)

/-- `CrossSectionDNDX` (CrossSectionDNDX.h): rate, cumulative rate and its inverse. -/
structure DndxCalc where
  rate : ℝ → ℝ
  cumulative : ℝ → ℝ → ℝ
  upperLimit : ℝ → ℝ → ℝ

/-- The failures of cross section functions. -/
inductive XErr where
  | logicError
  /-- `operator[]` of the map made an empty entry, whose null pointer is used -/
  | nullPtr
deriving DecidableEq

/-- The map from target hashes to weight and calculator, in iteration order. -/
abbrev DndxMap := List (ℕ × ℝ × DndxCalc)

/-- `emplace`: an existing key keeps its value. -/
def emplace (m : DndxMap) (k : ℕ) (w : ℝ) (c : DndxCalc) : DndxMap :=
  if k ∈ m.map (·.1) then m else m ++ [(k, w, c)]

/-- No stochastic part: `ecut = inf` and `vcut = 1` (CrossSection.h 80-82 and 97-100). -/
def onlyContinuous : Option Cut → Prop
  | none => False
  | some c => Dbl.eq c.ecut .pinf ∧ Dbl.eq c.vcut (.fin 1)

open Classical in
/-- `build_dndx` for component wise parametrizations (CrossSection.h 89-110). The iteration order of
the hash map is not specified; nothing proved about the model depends on it. -/
noncomputable def buildDndx (h : ℝ → ℝ → ℝ → ℕ) (cs : List Comp) (mk : Comp → DndxCalc)
    (cut : Option Cut) : Option DndxMap :=
  if onlyContinuous cut then none
  else some (cs.foldl (fun m c => emplace m (c.hash h) (weightComponent cs c) (mk c)) [])

open Classical in
/-- `build_dndx` for parametrizations of a whole medium (CrossSection.h 72-87). -/
noncomputable def buildDndxMedium (mediumHash : ℕ) (mk : DndxCalc) (cut : Option Cut) : Option DndxMap :=
  if onlyContinuous cut then none else some [(mediumHash, 1, mk)]

/-- `build_dedx` and `_build_dedx` (CrossSection.h 112-155), with all calculators present. -/
noncomputable def buildDedx (cs : List Comp) (mk : Comp → ℝ → ℝ) (cut : Option Cut) :
    Option (List (ℝ × (ℝ → ℝ))) :=
  match cut with
  | none => none
  | some _ => some (cs.map fun c => (weightComponent cs c, mk c))

/-- `CrossSectionBase` (CrossSection.h 47-64) as far as it is used for sampling. -/
structure XSec where
  type : IType
  edx : ℝ → ℝ
  e2dx : ℝ → ℝ
  ndx : ℝ → ℝ
  ndxTarget : ℝ → ℕ → Except XErr ℝ
  cumulative : ℝ → ℕ → ℝ → Except XErr ℝ
  perTarget : ℝ → List (ℕ × ℝ)
  stochasticLoss : ℕ → ℝ → ℝ → Except XErr ℝ
  lowerLim : ℝ

/-- `CalculatedNdx(E)` (CrossSection.h 289-298). -/
noncomputable def ndxOf (m : Option DndxMap) (E : ℝ) : ℝ :=
  match m with
  | none => 0
  | some m => (m.map fun e => e.2.2.rate E / e.2.1).sum

/-- `(*dndx)[hash]`. -/
def lookup (m : DndxMap) (hash : ℕ) : Except XErr (ℝ × DndxCalc) :=
  match m.find? (fun e => e.1 = hash) with
  | some e => .ok e.2
  | none => .error .nullPtr

/-- `CalculatedNdx(E, hash)` (CrossSection.h 300-306). -/
noncomputable def ndxTargetOf (m : Option DndxMap) (E : ℝ) (hash : ℕ) : Except XErr ℝ :=
  match m with
  | none => .ok 0
  | some m => (lookup m hash).map fun wc => wc.2.rate E / wc.1

/-- `CalculateCumulativeCrosssection` (CrossSection.h 308-315). -/
noncomputable def cumulativeOf (m : Option DndxMap) (E : ℝ) (hash : ℕ) (v : ℝ) : Except XErr ℝ :=
  match m with
  | none => .ok 0
  | some m => (lookup m hash).map fun wc => wc.2.cumulative E v / wc.1

/-- `CalculatedNdx_PerTarget` (CrossSection.h 317-326). The lookup of a key of the map succeeds. -/
noncomputable def perTargetOf (m : Option DndxMap) (E : ℝ) : List (ℕ × ℝ) :=
  match m with
  | none => []
  | some m => m.map fun e => (e.1, match ndxTargetOf (some m) E e.1 with | .ok r => r | .error _ => 0)

/-- `CalculateStochasticLoss` (CrossSection.h 328-336 and 276-286). -/
noncomputable def stochasticLossOf (onlyStochastic : Bool) (m : Option DndxMap) (hash : ℕ) (E rate : ℝ) :
    Except XErr ℝ :=
  match m with
  | none => .error .logicError
  | some m => if onlyStochastic then .ok 1 else
      (lookup m hash).map fun wc => wc.2.upperLimit E (rate * wc.1)

/-- `CalculatedEdx` and `CalculatedE2dx` (CrossSection.h 338-364). -/
noncomputable def edxOf (l : Option (List (ℝ × (ℝ → ℝ)))) (E : ℝ) : ℝ :=
  match l with
  | none => 0
  | some l => (l.map fun e => e.2 E / e.1).sum

/-- A `CrossSection` (CrossSection.h 214-385). -/
noncomputable def mkXSec (type : IType) (onlyStochastic : Bool) (lim : ℝ) (dndx : Option DndxMap)
    (dedx de2dx : Option (List (ℝ × (ℝ → ℝ)))) : XSec :=
  ⟨type, edxOf dedx, edxOf de2dx, ndxOf dndx, ndxTargetOf dndx, cumulativeOf dndx, perTargetOf dndx,
    stochasticLossOf onlyStochastic dndx, lim⟩

/-- `CrossSectionMultiplier` (CrossSectionMultiplier.h 5-42). -/
noncomputable def XSec.mul (k : ℝ) (x : XSec) : XSec :=
  { type := x.type
    edx := fun E => k * x.edx E
    e2dx := fun E => k * x.e2dx E
    ndx := fun E => k * x.ndx E
    ndxTarget := fun E h => (x.ndxTarget E h).map (k * ·)
    cumulative := fun E h v => (x.cumulative E h v).map (k * ·)
    perTarget := fun E => (x.perTarget E).map fun r => (r.1, r.2 * k)
    stochasticLoss := fun h E rate => x.stochasticLoss h E (rate / k)
    lowerLim := x.lowerLim }

/-! ## Limits of the loss integrals -/

/-- `GetIntegrationLimits` (CrossSectionDNDX.cxx 41-51). -/
noncomputable def integrationLimits (cut : Option Cut) (lim : KinLim) (E : ℝ) : Dbl × ℝ :=
  match cut with
  | none => (.fin lim.vMin, lim.vMax)
  | some c => (Dbl.max (c.cutIn lim E) (.fin lim.vMin), lim.vMax)

/-- `CrossSectionDNDXIntegral::Calculate(energy, v)` (CrossSectionDNDXIntegral.cxx 146-152) for the
differential cross section `σ`; `none`: the limit is not a number. -/
noncomputable def dndxUpTo (σ : ℝ → ℝ) (cut : Option Cut) (lim : KinLim) (E v : ℝ) : Option ℝ :=
  match (integrationLimits cut lim E).1 with
  | .fin a => some (if a < v then ∫ x in a..v, σ x else 0)
  | _ => none

/-- `CrossSectionDNDXIntegral::Calculate(energy)` (CrossSectionDNDXIntegral.cxx 140-144). -/
noncomputable def dndxTotal (σ : ℝ → ℝ) (cut : Option Cut) (lim : KinLim) (E : ℝ) : Option ℝ :=
  dndxUpTo σ cut lim E lim.vMax

/-- The Klein-Nishina variant of the rate integral, with the substitution `t = log(1 - v)`
(CrossSectionDNDXIntegral.cxx 44-60). -/
noncomputable def dndxCompton (σ : ℝ → ℝ) (vMin vMax : ℝ) : ℝ :=
  ∫ t in Real.log (1 - vMax)..Real.log (1 - vMin), Real.exp t * σ (1 - Real.exp t)

/-- `_define_dedx_integral` and `_define_dedx_integral_log` (CrossSectionDEDXIntegral.cxx 21-53) times
the energy (line 178). -/
noncomputable def dedx (σ : ℝ → ℝ) (cut : Cut) (lim : KinLim) (E : ℝ) : Option ℝ :=
  match cut.cutIn lim E with
  | .fin vCut => some ((∫ v in lim.vMin..vCut, v * σ v) * E)
  | _ => none

/-- Energy loss by Compton scattering with the substitution `t = log(1 - v)`
(CrossSectionDEDXIntegral.cxx 105-126). -/
noncomputable def dedxCompton (σ : ℝ → ℝ) (cut : Cut) (lim : KinLim) (E : ℝ) : Option ℝ :=
  match cut.cutIn lim E with
  | .fin vCut => some ((∫ t in Real.log (1 - vCut)..Real.log (1 - lim.vMin),
      Real.exp t * ((1 - Real.exp t) * σ (1 - Real.exp t))) * E)
  | _ => none

/-- `HALF_PRECISION` (Constants.cxx 42). -/
noncomputable def HALF_PRECISION : ℝ := 1 / 10 ^ 5

/-- Energy loss by electron pair production: the integral is split if the integrand rises towards the
cut (CrossSectionDEDXIntegral.cxx 128-163). -/
noncomputable def dedxEpair (σ : ℝ → ℝ) (cut : Cut) (lim : KinLim) (E : ℝ) : Option ℝ :=
  match cut.cutIn lim E with
  | .fin vCut =>
    let rUp := vCut * (1 - HALF_PRECISION)
    some (if 8 / 10 < rUp ∧ 2 * (8 / 10 * σ (8 / 10)) < rUp * σ rUp then
      let r1 := max (min (8 / 10) vCut) lim.vMin
      let r2 := min (max (1 - vCut) (1 / 10 ^ 10)) (1 - r1)
      ((∫ v in lim.vMin..r1, v * σ v) + (∫ v in (1 - vCut)..r2, (1 - v) * σ (1 - v)) +
        ∫ v in r2..(1 - r1), (1 - v) * σ (1 - v)) * E
    else (∫ v in lim.vMin..vCut, v * σ v) * E)
  | _ => none

/-- `_define_de2dx_integral` (CrossSectionDE2DXIntegral.cxx 14-28) times the energy squared (line 47). -/
noncomputable def de2dx (σ : ℝ → ℝ) (cut : Cut) (lim : KinLim) (E : ℝ) : Option ℝ :=
  match cut.cutIn lim E with
  | .fin vCut => some ((∫ v in lim.vMin..vCut, v ^ 2 * σ v) * E * E)
  | _ => none

/-! ## Sampling of a loss -/

/-- `Interaction::Rate` (Interaction.h). -/
structure Rate where
  cross : XSec
  hash : ℕ
  rate : ℝ

/-- `Interaction::Rates` (Interaction.cxx 67-77). -/
noncomputable def ratesOf (xs : List XSec) (E : ℝ) : List Rate :=
  xs.flatMap fun x => (x.perTarget E).map fun r => ⟨x, r.1, r.2⟩

/-- `Interaction::calculate_total_rate` (Interaction.cxx 28-33). -/
noncomputable def totalRate (xs : List XSec) (E : ℝ) : ℝ := (xs.map fun x => x.ndx E).sum

/-- The loop of `SampleLoss` (Interaction.cxx 41-48): the selected rate and what is left of it. -/
noncomputable def sampleGo : List Rate → ℝ → Option (Rate × ℝ)
  | [], _ => none
  | r :: rs, s => if s - r.rate < 0 then some (r, -(s - r.rate)) else sampleGo rs (s - r.rate)

/-- `Interaction::SampleLoss` (Interaction.cxx 35-65). -/
noncomputable def sampleLoss (E : ℝ) (rates : List Rate) (rnd : ℝ) : Except XErr Loss :=
  let overall := (rates.map Rate.rate).sum
  match sampleGo rates (rnd * overall) with
  | some (r, left) => (r.cross.stochasticLoss r.hash E left).map fun v => ⟨r.cross.type, r.hash, v⟩
  | none => if overall = 0 then .ok ⟨.undefined, 0, 0⟩ else .error .logicError

/-- `CrossSectionVector::GetLowerLim` (CrossSectionVector.h 24-33): `max_element` with the reversed
order; `none`: the iterator past the end of an empty vector is dereferenced. -/
noncomputable def lowerLimOf : List XSec → Option ℝ
  | [] => none
  | x :: xs => some (xs.foldl (fun best y => if best.lowerLim > y.lowerLim then y else best) x).lowerLim

end Proposal
