import Verif.Model.Tables
import Verif.Model.Json
import Verif.Model.EnergyCut
import Verif.Model.GeometryJson

/-!
# A propagator from a configuration

`Propagator(p_def, json)` (`Propagator.cxx` 42-56), `InitializeSectorFromJSON`, `CreateUtility`, `CreateCrossSectionList` and
`GlobalSettings` (`Propagator.cxx` 389-546), the factories of cross sections
(`/repo/src/PROPOSAL/detail/PROPOSAL/crosssection/Factories/*.cxx`), the default cross sections
(`ParticleDefaultCrossSectionList.h`) and `CreateDensityDistribution` (`density_distr.cxx` 145-165).

Simplifications:
* A cross section is described by the arguments with which it is built (`CrossSpec`), a propagation utility by those of `CreateUtility`.
* The constructors of cuts, geometries and densities from JSON are parameters (`ConfigParts`); they are modelled in `EnergyCut.lean`,
  `GeometryJson.lean` and `Density.lean`. The same for `make_scattering` (`ScatteringJson.lean`), which can fail.
* Asserts are on: an array is asserted where arrays are expected, otherwise the result is `assertion`.
* Exceptions of the calculations when tables are built are left out.
-/

namespace Proposal

/-- Outcomes that are no propagator. -/
inductive CfgErr where
  | thrown (e : JsonErr)
  | undefined
  | assertion
  deriving DecidableEq

/-- Exceptions of JSON values. -/
def cfgThrown {α : Type} : Except JsonErr α → Except CfgErr α
  | .ok a => .ok a
  | .error e => .error (.thrown e)

/-- `value(key, default)` for a truth value. -/
def valueB (j : Json) (key : String) (default : Bool) : Except CfgErr Bool :=
  match j with
  | .obj f => match f key with
    | some (.bool b) => .ok b
    | some _ => .error (.thrown .typeError)
    | none => .ok default
  | _ => .error (.thrown .typeError)

/-- `value(key, default)` for a JSON value. -/
def valueJ (j : Json) (key : String) (default : Json) : Except CfgErr Json :=
  match j with
  | .obj f => .ok ((f key).getD default)
  | _ => .error (.thrown .typeError)

open Classical in
/-- `empty()`. -/
noncomputable def Json.isEmpty : Json → Bool
  | .null => true
  | .arr l => l.isEmpty
  | .obj f => if ∀ k, f k = none then true else false
  | _ => false

/-- The class of a cross section. -/
inductive CrossClass where
  | par (c : ParClass)
  | annihilationHeitler
  | photoeffectSauter
  | photoproduction (name : String)
  deriving DecidableEq

/-- A cross section, given by the arguments with which it is built. -/
structure CrossSpec where
  cls : CrossClass
  opt : ParOption
  /-- whether the cuts are passed, or a null pointer -/
  cuts : Bool
  interpol : Bool
  multiplier : ℝ

/-- The end of all factories: `multiplier`. -/
def withMultiplier (config : Json) (c : ℝ → CrossSpec) : Except CfgErr CrossSpec := do
  let m ← cfgThrown (config.valueD "multiplier" 1)
  return c m

/-- The begin of all factories: the name of the parametrization. -/
def paramName (config : Json) : Except CfgErr String := do
  if !config.contains "parametrization" then throw (.thrown .logicError)
  let j ← cfgThrown (config.get "parametrization")
  cfgThrown j.toStr

/-- The lookup of a name in the map of a factory. -/
def lookupParam {α : Type} (err : JsonErr) (name : String) (m : List (String × α)) : Except CfgErr α :=
  match findName (bytes name) (m.map fun e => (bytes e.1, e.2)) with
  | none => .error .undefined
  | some none => .error (.thrown err)
  | some (some a) => .ok a

/-- The map of a factory with the names of the classes. -/
def classMap (cs : List ParClass) : List (String × ParClass) := cs.map fun c => (c.name, c)

/-- `brems_map` (BremsstrahlungFactory.cxx 24-31). -/
def bremsClasses : List ParClass :=
  [.bremsKelnerKokoulinPetrukhin, .bremsPetrukhinShestakov, .bremsCompleteScreening, .bremsAndreevBezrukovBugaev,
   .bremsSandrockSoedingreksoRhode, .bremsElectronScreening]

/-- `epair_map` (EpairProductionFactory.cxx 24-28). -/
def epairClasses : List ParClass := [.epairKelnerKokoulinPetrukhin, .epairSandrockSoedingreksoRhode, .epairForElectronPositron]

/-- `photoQ2_map` (PhotonuclearFactory.cxx 35-42). -/
def photoQ2Classes : List ParClass :=
  [.photoAbramowiczLevinLevyMaor91, .photoAbramowiczLevinLevyMaor97, .photoButkevichMikheyev, .photoRenoSarcevicSu, .photoAbtFT,
   .photoBlockDurandHa]

/-- `photoreal_map` (PhotonuclearFactory.cxx 47-52). -/
def photoRealClasses : List ParClass := [.photoZeus, .photoBezrukovBugaev, .photoKokoulin, .photoRhode]

/-- `ioniz_map` (IonizationFactory.cxx 22-26). -/
def ionizClasses : List ParClass := [.ionizBetheBlochRossi, .ionizBergerSeltzerBhabha, .ionizBergerSeltzerMoller]

/-- `photopair_map` (PhotoPairProductionFactory.cxx). -/
def photoPairClasses : List ParClass := [.photoPairTsai, .photoPairKochMotz]

/-- `shadow_map` (PhotonuclearFactory.cxx 59-62) with the strings that the shadowing combines into its hash. -/
def shadowMap : List (String × String) :=
  [("duttarenosarcevicseckel", "duttarenosarcevicseckel"), ("butkevichmikheyev", "butkevichmikheyev")]

/-- `photoproduction_map` (PhotoproductionFactory.cxx). -/
def photoproductionNames : List String := ["Zeus", "BezrukovBugaev", "Caldwell", "Kokoulin", "Rhode", "Heck", "HeckC7Shadowing"]

/-- `make_bremsstrahlung` (BremsstrahlungFactory.cxx 34-53). -/
noncomputable def makeBrems (interpol : Bool) (density : ℝ) (config : Json) : Except CfgErr CrossSpec := do
  let n ← paramName config
  let lpm ← valueB config "lpm" true
  let c ← lookupParam .logicError n (classMap bremsClasses)
  withMultiplier config fun m => ⟨.par c, if lpm then .bremsLpm density else .plain, true, interpol, m⟩

/-- `make_epairproduction` (EpairProductionFactory.cxx 31-51). -/
noncomputable def makeEpair (interpol : Bool) (density : ℝ) (config : Json) : Except CfgErr CrossSpec := do
  let n ← paramName config
  let lpm ← valueB config "lpm" true
  let c ← lookupParam .logicError n (classMap epairClasses)
  withMultiplier config fun m => ⟨.par c, .epair (if lpm then some density else none), true, interpol, m⟩

/-- `make_photopairproduction` (PhotoPairProductionFactory.cxx). -/
noncomputable def makePhotoPair (interpol : Bool) (density : ℝ) (config : Json) : Except CfgErr CrossSpec := do
  let n ← paramName config
  let lpm ← valueB config "lpm" true
  let c ← lookupParam .logicError n (classMap photoPairClasses)
  withMultiplier config fun m => ⟨.par c, if lpm then .pairLpm density else .plain, false, interpol, m⟩

/-- `make_photonuclearreal` (PhotonuclearFactory.cxx 93-111). -/
noncomputable def makePhotoReal (interpol : Bool) (config : Json) : Except CfgErr CrossSpec := do
  let n ← paramName config
  let hard ← valueB config "hard_component" true
  let c ← lookupParam .invalidArgument n (classMap photoRealClasses)
  withMultiplier config fun m => ⟨.par c, .hard hard, true, interpol, m⟩

/-- `make_photonuclearQ2` (PhotonuclearFactory.cxx 65-90). -/
noncomputable def makePhotoQ2 (interpol : Bool) (config : Json) : Except CfgErr CrossSpec := do
  let n ← paramName config
  let s ← cfgThrown (valueS config "shadow" "ButkevichMikheyev")
  let c ← lookupParam .invalidArgument n (classMap photoQ2Classes)
  let sh ← lookupParam .logicError s shadowMap
  withMultiplier config fun m => ⟨.par c, .shadow sh, true, interpol, m⟩

/-- `make_ionization` (IonizationFactory.cxx 29-47); the option are the cuts. -/
noncomputable def makeIoniz (interpol : Bool) (cut : Option ℝ × ℝ) (config : Json) : Except CfgErr CrossSpec := do
  let n ← paramName config
  let c ← lookupParam .logicError n (classMap ionizClasses)
  withMultiplier config fun m => ⟨.par c, .cuts cut, true, interpol, m⟩

/-- The factories of parametrizations without options: `make_compton`, `make_mupairproduction` (with cuts), `make_photomupairproduction`,
`make_weakinteraction`, `make_annihilation`, `make_photoeffect` and `make_photoproduction` (without cuts). -/
noncomputable def makePlain (m : List (String × CrossClass)) (cuts interpol : Bool) (config : Json) : Except CfgErr CrossSpec := do
  let n ← paramName config
  let c ← lookupParam .logicError n m
  withMultiplier config fun k => ⟨c, .plain, cuts, interpol, k⟩

/-- `if (config.contains(key)) cross.emplace_back(make(config[key]))`. -/
def addCross (config : Json) (key : String) (make : Json → Except CfgErr CrossSpec) (l : List CrossSpec) : Except CfgErr (List CrossSpec) :=
  if config.contains key then do
    let j ← cfgThrown (config.get key)
    let c ← make j
    return l ++ [c]
  else return l

/-- The photonuclear interaction: real photons first, and the integration over the virtuality after `std::invalid_argument`
(Propagator.cxx 497-505). -/
noncomputable def makePhoto (interpol : Bool) (config : Json) : Except CfgErr CrossSpec :=
  match makePhotoReal interpol config with
  | .error (.thrown .invalidArgument) => makePhotoQ2 interpol config
  | r => r

/-- `Propagator::CreateCrossSectionList` (Propagator.cxx 472-523). -/
noncomputable def createCrossSectionList (cut : Option ℝ × ℝ) (interpol : Bool) (density : ℝ) (config : Json) :
    Except CfgErr (List CrossSpec) := do
  let l ← addCross config "annihilation" (makePlain [("Heitler", .annihilationHeitler)] false interpol) []
  let l ← addCross config "brems" (makeBrems interpol density) l
  let l ← addCross config "compton" (makePlain [("KleinNishina", .par .comptonKleinNishina)] true interpol) l
  let l ← addCross config "epair" (makeEpair interpol density) l
  let l ← addCross config "ioniz" (makeIoniz interpol cut) l
  let l ← addCross config "mupair" (makePlain [("KelnerKokoulinPetrukhin", .par .mupairKelnerKokoulinPetrukhin)] true interpol) l
  let l ← addCross config "photo" (makePhoto interpol) l
  let l ← addCross config "photoeffect" (makePlain [("Sauter", .photoeffectSauter)] false false) l
  let l ← addCross config "photomupair"
    (makePlain [("BurkhardtKelnerKokoulin", .par .photoMuPairBurkhardtKelnerKokoulin)] false interpol) l
  let l ← addCross config "photoproduction" (makePlain (photoproductionNames.map fun n => (n, .photoproduction n)) false false) l
  let l ← addCross config "photopair" (makePhotoPair interpol density) l
  addCross config "weak" (makePlain [("CooperSarkarMertsch", .par .weakCooperSarkarMertsch)] false interpol) l

/-- `GetStdCrossSections` (ParticleDefaultCrossSectionList.h 71-175) for the type of the particle; `none` for
`std::invalid_argument`. -/
def stdCrossSections (type : ℤ) (cut : Option ℝ × ℝ) (interpol : Bool) : Option (List CrossSpec) :=
  let mk (c : CrossClass) (o : ParOption) (cuts : Bool) : CrossSpec := ⟨c, o, cuts, interpol, 1⟩
  let photo := mk (.par .photoAbramowiczLevinLevyMaor97) (.shadow "butkevichmikheyev") true
  let heavy := [mk (.par .bremsKelnerKokoulinPetrukhin) .plain true, mk (.par .epairKelnerKokoulinPetrukhin) .plain true,
    mk (.par .ionizBetheBlochRossi) (.cuts cut) true, photo]
  if type = 11 then
    some [mk (.par .bremsElectronScreening) .plain true, mk (.par .epairForElectronPositron) .plain true,
      mk (.par .ionizBergerSeltzerMoller) (.cuts cut) true, photo]
  else if type = -11 then
    some [mk (.par .bremsElectronScreening) .plain true, mk (.par .epairForElectronPositron) .plain true,
      mk (.par .ionizBergerSeltzerBhabha) (.cuts cut) true, photo, mk .annihilationHeitler .plain false]
  else if type = 13 ∨ type = -13 ∨ type = 15 ∨ type = -15 then some heavy
  else if type = 22 then
    some [mk (.par .photoPairKochMotz) .plain false, mk (.par .comptonKleinNishina) .plain true,
      mk (.photoproduction "Rhode") .plain false, mk .photoeffectSauter .plain false]
  else none

/-- The constructors from JSON that are modelled elsewhere, and the densities of the media. -/
structure ConfigParts (Geo Dens : Type) where
  cut : Json → Except CfgErr Cut
  geometry : Json → Except CfgErr Geo
  density : Json → Except CfgErr Dens
  scattering : Json → Except CfgErr Unit
  massDensity : MediumClass → ℝ

/-- `GlobalSettings` (Propagator.h). -/
structure GlobalSettings where
  medium : Option MediumClass
  cross : Json
  cuts : Option Cut
  scattering : Json
  exactTime : Bool
  interpolation : Bool

/-- A propagation utility, given by the arguments with which it is built. -/
structure UtilitySpec where
  crosss : List CrossSpec
  medium : MediumClass
  cuts : Cut
  interpolation : Bool
  exactTime : Bool
  /-- the configuration of the scattering, if there is one -/
  scattering : Option Json
  decay : Bool
  contRand : Bool

/-- A sector. -/
structure CfgSector (Geo Dens : Type) where
  geometry : Geo
  utility : UtilitySpec
  density : Dens

section
variable {Geo Dens : Type} (P : ConfigParts Geo Dens)

/-- `CreateMedium(json[key].get<std::string>())`. -/
def cfgMedium (j : Json) : Except CfgErr MediumClass := do
  let n ← cfgThrown j.toStr
  match createMedium (bytes n) with
  | some m => return m
  | none => throw (.thrown .invalidArgument)

/-- `if (config.contains(key)) x = make(config[key])`. -/
def readIf {α : Type} (config : Json) (key : String) (make : Json → Except CfgErr α) (default : α) : Except CfgErr α :=
  if config.contains key then do
    let j ← cfgThrown (config.get key)
    make j
  else pure default

/-- `GlobalSettings(config)` (Propagator.cxx 525-537). -/
def globalOfJson (config : Json) : Except CfgErr GlobalSettings := do
  let medium ← readIf config "medium" (fun j => (cfgMedium j).map some) none
  let cross ← readIf config "CrossSections" pure .null
  let cuts ← readIf config "cuts" (fun j => (P.cut j).map some) none
  let scattering ← readIf config "scattering" pure .null
  let exactTime ← valueB config "exact_time" true
  let interpolation ← valueB config "do_interpolation" true
  return ⟨medium, cross, cuts, scattering, exactTime, interpolation⟩

/-- `GlobalSettings()` (Propagator.cxx 539-546). -/
def globalDefault : GlobalSettings := ⟨none, .null, none, .null, true, true⟩

/-- `Propagator::CreateUtility` (Propagator.cxx 448-470): `make_displacement` demands a cross section, `make_contrand` one with cuts with
continuous randomization. -/
noncomputable def createUtility (lifetime : Option ℝ) (crosss : List CrossSpec) (medium : MediumClass) (cuts : Cut)
    (interpolation exactTime : Bool) (scatter : Json) : Except CfgErr UtilitySpec := do
  if crosss.isEmpty then throw (.thrown .invalidArgument)
  if !scatter.isEmpty then P.scattering scatter
  if cuts.contRand && !(crosss.any fun c => c.cuts) then throw (.thrown .invalidArgument)
  return ⟨crosss, medium, cuts, interpolation, exactTime, if scatter.isEmpty then none else some scatter, lifetime.isSome, cuts.contRand⟩

/-- The cuts as they enter hashes: an infinite energy is `none`. -/
noncomputable def cutPair (c : Cut) : Option ℝ × ℝ :=
  (match c.ecut with | .fin x => some x | _ => none, match c.vcut with | .fin x => x | _ => 0)

/-- The elements of an array; anything else is stopped by an assert. -/
def Json.elements : Json → Except CfgErr (List Json)
  | .arr l => .ok l
  | _ => .error .assertion

/-- The density distribution of a sector (Propagator.cxx 411-414). -/
noncomputable def sectorDensity (massDensity : ℝ) (j : Json) : Except CfgErr Json :=
  if j.contains "density_distribution" then cfgThrown (j.get "density_distribution")
  else .ok (.obj fun k => if k = "type" then some (.str "homogeneous") else if k = "mass_density" then some (.num massDensity) else none)

/-- The medium of a sector (Propagator.cxx 396-402). -/
def sectorMedium (global : Option MediumClass) (j : Json) : Except CfgErr MediumClass :=
  if j.contains "medium" then do
    let m ← cfgThrown (j.get "medium")
    cfgMedium m
  else match global with
    | some m => pure m
    | none => throw (.thrown .invalidArgument)

/-- The cuts of a sector (Propagator.cxx 403-410). -/
def sectorCuts (global : Option Cut) (j : Json) : Except CfgErr Cut :=
  if j.contains "cuts" then do
    let c ← cfgThrown (j.get "cuts")
    P.cut c
  else match global with
    | some c => pure c
    | none => throw (.thrown .invalidArgument)

/-- The cross sections of a sector (Propagator.cxx 418-431): those of the configuration with the density relative to that of the medium, or
the default ones. -/
noncomputable def sectorCross (type : ℤ) (cuts : Cut) (interpolation : Bool) (massDensity : ℝ) (density crossConfig : Json) :
    Except CfgErr (List CrossSpec) :=
  if !crossConfig.isEmpty then do
    let d ← cfgThrown (density.valueD "mass_density" massDensity)
    createCrossSectionList (cutPair cuts) interpolation (d / massDensity) crossConfig
  else match stdCrossSections type (cutPair cuts) interpolation with
    | some l => pure l
    | none => throw (.thrown .invalidArgument)

/-- The loop over the geometries (Propagator.cxx 434-445). -/
def sectorGeometries (utility : UtilitySpec) (density j : Json) : Except CfgErr (List (CfgSector Geo Dens)) :=
  if j.contains "geometries" then do
    let gs ← cfgThrown (j.get "geometries")
    let gs ← gs.elements
    gs.mapM fun gj => do
      let geo ← P.geometry gj
      let dens ← P.density density
      return ⟨geo, utility, dens⟩
  else throw (.thrown .invalidArgument)

/-- `Propagator::InitializeSectorFromJSON` (Propagator.cxx 389-446): the sectors that are added. -/
noncomputable def sectorsOfJson (type : ℤ) (lifetime : Option ℝ) (j : Json) (g : GlobalSettings) :
    Except CfgErr (List (CfgSector Geo Dens)) := do
  let interpolation ← valueB j "do_interpolation" g.interpolation
  let exactTime ← valueB j "exact_time" g.exactTime
  let scatter ← valueJ j "scattering" g.scattering
  let medium ← sectorMedium g.medium j
  let cuts ← sectorCuts P g.cuts j
  let density ← sectorDensity (P.massDensity medium) j
  let crossConfig ← valueJ j "CrossSections" g.cross
  let crosss ← sectorCross type cuts interpolation (P.massDensity medium) density crossConfig
  let utility ← createUtility P lifetime crosss medium cuts interpolation exactTime scatter
  sectorGeometries P utility density j

/-- The loop over the sectors. -/
noncomputable def sectorLoop (type : ℤ) (lifetime : Option ℝ) (g : GlobalSettings) : List Json → Except CfgErr (List (CfgSector Geo Dens))
  | [] => return []
  | j :: js => do
    let s ← sectorsOfJson P type lifetime j g
    let ss ← sectorLoop type lifetime g js
    return s ++ ss

/-- `Propagator(p_def, config)` (Propagator.cxx 42-56): the list of sectors. -/
noncomputable def propagatorOfJson (type : ℤ) (lifetime : Option ℝ) (config : Json) : Except CfgErr (List (CfgSector Geo Dens)) := do
  let g ← readIf config "global" (globalOfJson P) globalDefault
  if config.contains "sectors" then do
    let js ← cfgThrown (config.get "sectors")
    let js ← js.elements
    sectorLoop P type lifetime g js
  else throw (.thrown .invalidArgument)

end

end Proposal
