import Verif.Model.Assembled
import Verif.Model.Config
import Verif.Model.DiffCross
import Verif.Model.PhotonCross
import Verif.Model.Registry

/-!
# Construction of cross sections from parametrizations

`make_crosssection` (CrossSectionBuilder.h), the classes which it chooses (CrossSectionIntegral.h, CrossSectionInterpolant.h,
CrossSectionDirect.h), the traits of parametrizations (Parametrization.h 58-62, Parametrization.hpp) and the parametrizations without a
differential cross section (ParametrizationDirect.h, Annihilation.h, Photoeffect.h, Photoproduction.h).

Simplifications:
* Calculators of rates and losses are parameters (`CrossParts`); they are modelled in `CrossSection.lean` and `CrossTables.lean`.
* Rates which are not a number count as 0 in `DirectRates`. `C148_rates` states where this makes no difference.
* `volatile` objects are left out.
-/

namespace Proposal

/-- A type `T`, `const T`, `T&` or `const T&` for a class `T` of parametrizations. -/
structure CxxType where
  cls : CrossClass
  const : Bool
  ref : Bool
  deriving DecidableEq

/-- `std::remove_cv_t`: only the outermost `const` is removed, that of `const T&` is not. -/
def removeCv (t : CxxType) : CxxType := if t.ref then t else { t with const := false }

/-- `std::remove_reference_t`. -/
def removeReference (t : CxxType) : CxxType := { t with ref := false }

/-- `Param` for the argument of `make_crosssection(Param&& param, ...)`: a reference for objects with a name. -/
def deduced (cls : CrossClass) (const named : Bool) : CxxType := ⟨cls, const, named⟩

/-- `_param` (CrossSectionBuilder.h 43, CrossSectionIntegral.h 35, CrossSectionInterpolant.h 36). -/
def paramType (t : CxxType) : CxxType := removeReference (removeCv t)

/-- `is_only_stochastic` (Parametrization.h 61-62, Parametrization.hpp 21-43); the specializations are not for `const` types. -/
def isOnlyStochastic (t : CxxType) : Bool :=
  !t.const && !t.ref && match t.cls with
    | .annihilationHeitler | .photoeffectSauter | .par .photoMuPairBurkhardtKelnerKokoulin | .par .photoPairTsai
    | .par .photoPairKochMotz | .par .weakCooperSarkarMertsch => true
    | _ => false

/-- `is_component_wise` (Parametrization.h 58-59, Parametrization.hpp 5-19). -/
def isComponentWise (t : CxxType) : Bool :=
  !(!t.const && !t.ref && match t.cls with
    | .par .ionizBergerSeltzerBhabha | .par .ionizBetheBlochRossi | .par .ionizBergerSeltzerMoller => true
    | _ => false)

/-- Whether the class is derived from `ParametrizationDirect` (Annihilation.h 36, Photoeffect.h 16, Photoproduction.h 16). -/
def CrossClass.isDirect : CrossClass → Bool
  | .par _ => false
  | _ => true

/-- Whether the class is derived from `Parametrization<Medium>` (Ionization.h). -/
def CrossClass.ofMedium : CrossClass → Bool
  | .par .ionizBergerSeltzerBhabha | .par .ionizBetheBlochRossi | .par .ionizBergerSeltzerMoller => true
  | _ => false

/-- The type of the interaction: `ParametrizationId` (CrossSection.h 243), or `GetInteractionType` (Annihilation.cxx 15-17,
Photoeffect.cxx 8-10, Photoproduction.cxx 9-11). -/
def CrossClass.itype : CrossClass → IType
  | .annihilationHeitler => .annihilation
  | .photoeffectSauter => .photoeffect
  | .photoproduction _ => .photoproduction
  | .par c => match c with
    | .bremsPetrukhinShestakov | .bremsKelnerKokoulinPetrukhin | .bremsCompleteScreening | .bremsAndreevBezrukovBugaev
    | .bremsSandrockSoedingreksoRhode | .bremsElectronScreening => .brems
    | .ionizBetheBlochRossi | .ionizBergerSeltzerBhabha | .ionizBergerSeltzerMoller => .ioniz
    | .epairKelnerKokoulinPetrukhin | .epairSandrockSoedingreksoRhode | .epairForElectronPositron => .epair
    | .photoZeus | .photoBezrukovBugaev | .photoKokoulin | .photoRhode | .photoAbramowiczLevinLevyMaor91
    | .photoAbramowiczLevinLevyMaor97 | .photoButkevichMikheyev | .photoRenoSarcevicSu | .photoAbtFT
    | .photoBlockDurandHa => .photonuclear
    | .mupairKelnerKokoulinPetrukhin => .muPair
    | .weakCooperSarkarMertsch => .weakInt
    | .comptonKleinNishina => .compton
    | .photoPairTsai | .photoPairKochMotz => .photopair
    | .photoMuPairBurkhardtKelnerKokoulin => .photoMuPair

/-- What a `CrossSection` is built of: the calculators with integrals (`false`) and with tables (`true`). -/
structure CrossParts where
  h : ℝ → ℝ → ℝ → ℕ
  comps : List Comp
  mediumHash : ℕ
  rate : Bool → Comp → DndxCalc
  rateMedium : Bool → DndxCalc
  loss : Bool → Comp → ℝ → ℝ
  lossMedium : Bool → ℝ → ℝ
  loss2 : Bool → Comp → ℝ → ℝ
  loss2Medium : Bool → ℝ → ℝ
  lower : ℝ

/-- `build_dedx` for parametrizations of a whole medium (CrossSection.h 126-155). -/
def buildDedxMedium (f : ℝ → ℝ) : Option Cut → Option (List (ℝ × (ℝ → ℝ)))
  | none => none
  | some _ => some [(1, f)]

/-- `build_de2dx` (CrossSection.h 179-197): nothing without continuous randomization. -/
def onlyRandomised : Option Cut → Option Cut
  | none => none
  | some c => if c.contRand then some c else none

/-- The constructor of `CrossSection` (CrossSection.h 225-262) with the traits `comp_wise` and `only_stochastic`. -/
noncomputable def crossSectionOf (P : CrossParts) (type : IType) (compWise onlyStochastic interpol : Bool) (cut : Option Cut) : XSec :=
  if compWise then
    mkXSec type onlyStochastic P.lower (buildDndx P.h P.comps (P.rate interpol) cut) (buildDedx P.comps (P.loss interpol) cut)
      (buildDedx P.comps (P.loss2 interpol) (onlyRandomised cut))
  else
    mkXSec type onlyStochastic P.lower (buildDndxMedium P.mediumHash (P.rateMedium interpol) cut)
      (buildDedxMedium (P.lossMedium interpol) cut) (buildDedxMedium (P.loss2Medium interpol) (onlyRandomised cut))

/-- The functions of a `ParametrizationDirect` which the three kinds define differently (ParametrizationDirect.h 23-41). -/
structure DirectRates where
  target : ℝ → ℕ → Except XErr ℝ
  perTarget : ℝ → List (ℕ × ℝ)
  lower : ℝ

/-- `CrossSectionDirect` (CrossSectionDirect.h 7-65) with the functions which the three kinds have in common: no continuous losses, no
cumulative cross section and the loss of all energy (Annihilation.h 41-50, Photoeffect.h 27-36, Photoproduction.h 28-37), the sum of the
rates (Annihilation.cxx 50-55, Photoeffect.cxx 52-57, Photoproduction.cxx 55-60). The cuts are stored only. -/
noncomputable def directXSec (type : IType) (R : DirectRates) : XSec where
  type := type
  edx := fun _ => 0
  e2dx := fun _ => 0
  ndx := fun E => ((R.perTarget E).map Prod.snd).sum
  ndxTarget := R.target
  cumulative := fun _ _ _ => .error .logicError
  perTarget := R.perTarget
  stochasticLoss := fun _ _ _ => .ok 1
  lowerLim := R.lower

/-- `make_crosssection` (CrossSectionBuilder.h 11-64). `none`: the template is not compiled, as there are no calculators of a component
for the parametrization of a medium. -/
noncomputable def makeCrossSection (t : CxxType) (P : CrossParts) (R : DirectRates) (cut : Option Cut) (interpol : Bool) :
    Option (Except XErr XSec) :=
  if t.cls.isDirect then
    some (if isOnlyStochastic (paramType t) && cut.isSome then .error .logicError else .ok (directXSec t.cls.itype R))
  else if isComponentWise (paramType t) = t.cls.ofMedium then none
  else
    some (if isOnlyStochastic (paramType t) && cut.isSome then .error .logicError
      else .ok (crossSectionOf P t.cls.itype (isComponentWise (paramType t)) (isOnlyStochastic (paramType t)) interpol cut))

/-! ## The rates of the parametrizations without differential cross section -/

/-- `Component::GetComponentForHash` (Components.cxx 263-268); `std::invalid_argument` is a `std::logic_error`. -/
def componentForHash (reg : Registry Hash Component) (h : ℕ) : Except XErr Component :=
  match lookupHash reg (BitVec.ofNat 64 h) with
  | .value c => .ok c
  | .invalidArgument => .error .logicError
  | .undefined => .error .nullPtr

/-- A list of rates in the order of the components. -/
noncomputable def rateList (M : Med) (f : Component → Option ℝ) : List (ℕ × ℝ) :=
  M.components.map fun c => (c.hash.toNat, (f c).getD 0)

/-- `AnnihilationHeitler` (Annihilation.cxx 26-28, 34-65) for a particle of mass `m`; the components of the medium are registered. -/
noncomputable def annihilationRates (reg : Registry Hash Component) (m : ℝ) (M : Med) : DirectRates where
  target := fun E h => if E ≤ m then .ok 0 else (componentForHash reg h).map fun c => heitlerRate m M c E
  perTarget := fun E => rateList M fun c => some (heitlerRate m M c E)
  lower := m

/-- `Photoeffect` (Photoeffect.cxx 18-23, 45-71); a medium without components, whose lower limit is infinite, has 0 here. -/
noncomputable def photoeffectRates (reg : Registry Hash Component) (M : Med) : DirectRates where
  target := fun E h => (componentForHash reg h).map fun c => (photoeffectNdxTarget M E c).getD 0
  perTarget := fun E => rateList M fun c => if E > photoeffectCutOff c then photoeffectNdxTarget M E c else some 0
  lower := (lowestCutOff photoeffectCutOff M.components).getD 0

/-- `Photoproduction` (Photoproduction.cxx 19-24, 48-72) for the function of the cross section of an atom. -/
noncomputable def photoproductionRates (reg : Registry Hash Component) (atom : ℝ → Component → Option ℝ) (M : Med) : DirectRates where
  target := fun E h => (componentForHash reg h).map fun c => (photoproductionNdxTarget (atom E) M c).getD 0
  perTarget := fun E => rateList M (photoproductionNdxTarget (atom E) M)
  lower := (lowestCutOff pionThreshold M.components).getD 0

end Proposal
