import Verif.Model.Registry
import Verif.Model.NuclearCross

/-!
# Names of the interpolation tables

Model of the names under which PROPOSAL stores interpolation tables in `InterpolationSettings::TABLES_PATH`:
`methods.h` 77-83 (`hash_combine`), `CrossSection.cxx` 10-37, `CrossSection.h` 70-150 and 236-272, `CrossSectionDNDX.cxx` 22-39,
`CrossSectionDNDXInterpolant.cxx` 44-61, `CrossSectionDEDX.cxx` 12-18, `CrossSectionDEDXInterpolant.cxx` 12-23, `CrossSectionDE2DX`
(the same with `NODES_DE2DX`), `CrossSectionVector.h` 34-40, `CrossSectionMultiplier.h` 42-46, the hashes of the parametrizations
(`Bremsstrahlung.cxx` 16-37, 436-458, 566-576; `EpairProduction.cxx` 16-58, 549-573; `PhotoPairProduction.cxx` 46-112, 338-347;
`Photonuclear.cxx` 24-38; `PhotoRealPhotonAssumption.cxx` 12-37; `PhotoQ2Integration.cxx` 29-34; `Ionization.cxx` 14-17, 64, 231, 359;
`WeakInteraction.cxx` 42), of particles (`ParticleDef.cxx` 250-254), media (`Medium.cxx` 201-210), components (`Components.cxx` 33-58)
and cuts (`EnergyCutSettings.cxx` 99-103), and of the utilities (`PropagationUtilityInterpolant.cxx` 34-58, `DisplacmentBuilder.cxx` 15-24,
`TimeBuilder.cxx` 19-29, `DecayBuilder.cxx` 15-24, `Decay.cxx` 15-22, `InteractionBuilder.cxx` 40-63, `Interaction.cxx` 10-17,
`ContRand.cxx` 37-39, `HighlandIntegral.cxx` 26-41), and of the secondaries (`PhotoPairProductionInterpolant.h` 31-35,
`PhotoMuPairProductionBurkhardtKelnerKokoulin.h` 29-33, `WeakCooperSarkarMertsch.cxx` 10-15).

Simplifications:
* `hash_combine` is a parameter: the functions are written for any algebra with the operations "combine a string, an integer, a
  floating point number, a truth value, a hash, the address of a character" (`HashAlg`). `stdAlg` is the instance of the code for given
  `std::hash`; `HTerm.free` is the one in which nothing collides.
* The objects for the LPM effect are built for the particle and the medium of the cross section, as in the default constructors and in
  the examples of the documentation.
* A table is found by its name (prefix and hash). Reading and writing files is done by the external library CubicInterpolation:
  `openTable` states its contract: an existing file is read, otherwise the table is built and written.
* The order in which the tables of a cross section are combined is that of an unordered map; it is an argument.
-/

namespace Proposal

/-- The operations with which hashes are made: `hash_combine(seed, value)` for the types of values that occur. Infinite floating point
numbers are `none`. -/
structure HashAlg (α : Type) where
  zero : α
  str : α → String → α
  int : α → ℤ → α
  dbl : α → Option ℝ → α
  bool : α → Bool → α
  size : α → α → α
  ptr : α → ℕ → α

/-- The hashes in which nothing collides. -/
inductive HTerm where
  | zero
  | str (s : HTerm) (v : String)
  | int (s : HTerm) (v : ℤ)
  | dbl (s : HTerm) (v : Option ℝ)
  | bool (s : HTerm) (v : Bool)
  | size (s v : HTerm)
  | ptr (s : HTerm) (v : ℕ)

/-- The algebra of terms. -/
def HTerm.free : HashAlg HTerm := ⟨.zero, .str, .int, .dbl, .bool, .size, .ptr⟩

/-- The value of a term in an algebra. -/
def HTerm.eval {α : Type} (A : HashAlg α) : HTerm → α
  | .zero => A.zero
  | .str s v => A.str (s.eval A) v
  | .int s v => A.int (s.eval A) v
  | .dbl s v => A.dbl (s.eval A) v
  | .bool s v => A.bool (s.eval A) v
  | .size s v => A.size (s.eval A) (v.eval A)
  | .ptr s v => A.ptr (s.eval A) v

/-- `hash_combine` (methods.h 77-83) with the functions `std::hash`. -/
def stdAlg (H : Hasher) (hstr : String → Hash) (hinf : Hash) (hbool : Bool → Hash) (hptr : ℕ → Hash) : HashAlg Hash where
  zero := 0
  str s v := hashStep s (hstr v)
  int s v := hashStep s (H.int v)
  dbl s v := hashStep s (match v with | some x => H.dbl x | none => hinf)
  bool s v := hashStep s (hbool v)
  size s v := hashStep s (H.size v)
  ptr s v := hashStep s (hptr v)

/-- `InterpolationSettings` (Constants.h 52-61). -/
structure TableSettings where
  nodesDedx : ℤ
  nodesDe2dx : ℤ
  nodesDndxE : ℤ
  nodesDndxV : ℤ
  nodesUtility : ℤ
  nodesRate : ℤ
  upper : ℝ

section keys
variable {α : Type} (A : HashAlg α)

/-- The hash of a component (Components.cxx 56-57). -/
def compKey (c : Component) : α :=
  [c.nucCharge, c.atomicNum, c.atomInMolecule, c.logConstant, c.bPrime, c.averageNucleonWeight, c.woodSaxon].foldl
    (fun s x => A.dbl s (some x)) A.zero

/-- `Medium::GetHash` (Medium.cxx 201-210). -/
def medKey (m : Med) : α :=
  m.components.foldl (fun s c => A.size s (compKey A c))
    ([m.sumCharge, m.ZA, m.I, m.C, m.a, m.m, m.X0, m.X1, m.d0, m.massDensity, m.molDensity, m.radiationLength, m.MM,
      m.sumNucleons].foldl (fun s x => A.dbl s (some x)) (A.int A.zero m.numComponents))

/-- `ParticleDef::GetHash` (ParticleDef.cxx 250-254). -/
def partKey (p : PDef) : α :=
  A.int (A.dbl (A.dbl (A.dbl (A.dbl A.zero (some p.mass)) (some p.low)) p.lifetime) (some p.charge)) p.weakPartner

/-- `EnergyCutSettings::GetHash` (EnergyCutSettings.cxx 99-104); the energy of the cut is `none` if it is infinite. -/
def cutKey (cut : Option ℝ × ℝ) : α := A.dbl (A.dbl A.zero cut.1) (some cut.2)

end keys

/-- The parametrizations for which cross sections with tables can be built. -/
inductive ParClass where
  | bremsPetrukhinShestakov | bremsKelnerKokoulinPetrukhin | bremsCompleteScreening | bremsAndreevBezrukovBugaev
  | bremsSandrockSoedingreksoRhode | bremsElectronScreening
  | ionizBetheBlochRossi | ionizBergerSeltzerBhabha | ionizBergerSeltzerMoller
  | epairKelnerKokoulinPetrukhin | epairSandrockSoedingreksoRhode | epairForElectronPositron
  | photoZeus | photoBezrukovBugaev | photoKokoulin | photoRhode
  | photoAbramowiczLevinLevyMaor91 | photoAbramowiczLevinLevyMaor97 | photoButkevichMikheyev | photoRenoSarcevicSu
  | photoAbtFT | photoBlockDurandHa
  | mupairKelnerKokoulinPetrukhin
  | weakCooperSarkarMertsch
  | comptonKleinNishina
  | photoPairTsai | photoPairKochMotz
  | photoMuPairBurkhardtKelnerKokoulin
  deriving DecidableEq

/-- `ParametrizationName` of the parametrizations. -/
def ParClass.name : ParClass → String
  | .bremsPetrukhinShestakov => "PetrukhinShestakov"
  | .bremsKelnerKokoulinPetrukhin => "KelnerKokoulinPetrukhin"
  | .bremsCompleteScreening => "CompleteScreening"
  | .bremsAndreevBezrukovBugaev => "AndreevBezrukovBugaev"
  | .bremsSandrockSoedingreksoRhode => "SandrockSoedingreksoRhode"
  | .bremsElectronScreening => "ElectronScreening"
  | .ionizBetheBlochRossi => "BetheBlochRossi"
  | .ionizBergerSeltzerBhabha => "BergerSeltzerBhabha"
  | .ionizBergerSeltzerMoller => "BergerSeltzerMoller"
  | .epairKelnerKokoulinPetrukhin => "KelnerKokoulinPetrukhin"
  | .epairSandrockSoedingreksoRhode => "SandrockSoedingreksoRhode"
  | .epairForElectronPositron => "ForElectronPositron"
  | .photoZeus => "Zeus"
  | .photoBezrukovBugaev => "BezrukovBugaev"
  | .photoKokoulin => "Kokoulin"
  | .photoRhode => "Rhode"
  | .photoAbramowiczLevinLevyMaor91 => "AbramowiczLevinLevyMaor91"
  | .photoAbramowiczLevinLevyMaor97 => "AbramowiczLevinLevyMaor97"
  | .photoButkevichMikheyev => "ButkevichMikheyev"
  | .photoRenoSarcevicSu => "RenoSarcevicSu"
  | .photoAbtFT => "AbtFT"
  | .photoBlockDurandHa => "BlockDurandHa"
  | .mupairKelnerKokoulinPetrukhin => "KelnerKokoulinPetrukhin"
  | .weakCooperSarkarMertsch => "CooperSarkarMertsch"
  | .comptonKleinNishina => "KleinNishina"
  | .photoPairTsai => "Tsai"
  | .photoPairKochMotz => "kochmotz"
  | .photoMuPairBurkhardtKelnerKokoulin => "BurkhardtKelnerKokoulin"

/-- `ParametrizationId` of the parametrizations (the values of `InteractionType`, Particle.h). -/
def ParClass.id : ParClass → ℤ
  | .bremsPetrukhinShestakov | .bremsKelnerKokoulinPetrukhin | .bremsCompleteScreening | .bremsAndreevBezrukovBugaev
  | .bremsSandrockSoedingreksoRhode | .bremsElectronScreening => 1000000002
  | .ionizBetheBlochRossi | .ionizBergerSeltzerBhabha | .ionizBergerSeltzerMoller => 1000000003
  | .epairKelnerKokoulinPetrukhin | .epairSandrockSoedingreksoRhode | .epairForElectronPositron => 1000000004
  | .photoZeus | .photoBezrukovBugaev | .photoKokoulin | .photoRhode | .photoAbramowiczLevinLevyMaor91
  | .photoAbramowiczLevinLevyMaor97 | .photoButkevichMikheyev | .photoRenoSarcevicSu | .photoAbtFT
  | .photoBlockDurandHa => 1000000005
  | .mupairKelnerKokoulinPetrukhin => 1000000006
  | .weakCooperSarkarMertsch => 1000000009
  | .comptonKleinNishina => 1000000010
  | .photoPairTsai | .photoPairKochMotz => 1000000013
  | .photoMuPairBurkhardtKelnerKokoulin => 1000000015

/-- The string that the constructor combines at last, if there is one (Bremsstrahlung.cxx 24, 36, 442, 457; EpairProduction.cxx 20, 27;
MupairProduction.cxx 15; PhotoPairProduction.cxx 53, 67, 94, 111; PhotoRealPhotonAssumption.cxx 17; Ionization.cxx 64, 231, 359;
WeakInteraction.cxx 42; PhotoMuPairProduction.h 53). -/
def ParClass.tag : ParClass → Option String
  | .bremsElectronScreening => some "electron_screening"
  | .ionizBetheBlochRossi => some "bethe_bloch_rossi"
  | .ionizBergerSeltzerBhabha => some "berger_seltzer_bhabha"
  | .ionizBergerSeltzerMoller => some "berger_seltzer_moller"
  | .photoAbramowiczLevinLevyMaor91 | .photoAbramowiczLevinLevyMaor97 | .photoButkevichMikheyev | .photoRenoSarcevicSu
  | .photoAbtFT | .photoBlockDurandHa => none
  | .weakCooperSarkarMertsch => some "cooper_sarkar_mertsch"
  | .comptonKleinNishina => none
  | .photoPairTsai => some "tsai"
  | .photoMuPairBurkhardtKelnerKokoulin => some "burkhardtkelnerkokoulin"
  | c => some c.name

/-- The options of a parametrization that enter its hash. -/
inductive ParOption where
  /-- no option -/
  | plain
  /-- bremsstrahlung with LPM effect for a medium of modified density -/
  | bremsLpm (density : ℝ)
  /-- pairs of electrons by photons with LPM effect -/
  | pairLpm (density : ℝ)
  /-- pairs of electrons by charged particles, built for a medium, with the LPM effect or without it -/
  | epair (lpm : Option ℝ)
  /-- the shadowing of the photonuclear interaction with integration over the virtuality -/
  | shadow (name : String)
  /-- the photonuclear interaction with real photons, with hard component or without it -/
  | hard (b : Bool)
  /-- ionization: the cuts for which the differential cross section is cut -/
  | cuts (cut : Option ℝ × ℝ)

/-- What the name of a table of a cross section can depend on: the arguments with which the cross section was built, and the target of
the table: a component or the medium. -/
structure TableReq where
  cls : ParClass
  opt : ParOption
  particle : PDef
  medium : Med
  cut : Option (Option ℝ × ℝ)
  target : Option Component
  set : TableSettings

section names
variable {α : Type} (A : HashAlg α)

/-- The hash of `BremsLPM` (Bremsstrahlung.cxx 566-576); the hash of the parametrization is still zero. -/
def bremsLpmKey (p : PDef) (m : Med) : α :=
  A.size (A.dbl (A.dbl (A.dbl (A.dbl A.zero (some p.mass)) (some m.molDensity)) (some m.massDensity)) (some m.sumCharge)) A.zero

/-- The hash of `PhotoPairLPM` (PhotoPairProduction.cxx 338-347). -/
def pairLpmKey (m : Med) : α :=
  A.size (A.dbl (A.dbl (A.dbl A.zero (some m.molDensity)) (some m.massDensity)) (some m.sumCharge)) A.zero

/-- The hash of `EpairLPM` (EpairProduction.cxx 553-573). -/
noncomputable def epairLpmKey (p : PDef) (m : Med) : α :=
  A.dbl (A.dbl (A.dbl A.zero (some p.mass)) (some |p.charge|)) (some m.molDensity)

/-- The hash of a parametrization before its constructor combines its own string. -/
noncomputable def optKey (p : PDef) (m : Med) : ParOption → α
  | .plain => A.zero
  | .bremsLpm d => A.size (A.dbl A.zero (some d)) (bremsLpmKey A p m)
  | .pairLpm d => A.size (A.dbl A.zero (some d)) (pairLpmKey A m)
  | .epair none => A.size (A.size A.zero (partKey A p)) (medKey A m)
  | .epair (some d) => A.size (A.size (A.size (A.dbl A.zero (some d)) (epairLpmKey A p m)) (partKey A p)) (medKey A m)
  | .shadow s => A.size A.zero (A.str A.zero s)
  | .hard b => A.bool A.zero b
  | .cuts c => A.size A.zero (cutKey A c)

/-- `Parametrization::GetHash`. -/
noncomputable def parKey (r : TableReq) : α :=
  match r.cls.tag with
  | none => optKey A r.particle r.medium r.opt
  | some t => A.str (optKey A r.particle r.medium r.opt) t

/-- `_generate_cross_hash` (CrossSection.cxx 11-21). -/
noncomputable def crossKey (r : TableReq) : α :=
  let h := A.size (A.size (A.size (A.int (A.str A.zero r.cls.name) r.cls.id) (parKey A r)) (partKey A r.particle)) (medKey A r.medium)
  match r.cut with
  | none => h
  | some c => A.size h (cutKey A c)

/-- The hash of the component, for targets that are components (CrossSectionDNDX.cxx 31-39, CrossSectionDEDX.cxx 12-18). -/
def targetKey (h : α) : Option Component → α
  | none => h
  | some c => A.size h (compKey A c)

/-- `CrossSectionDNDXInterpolant::GetHash` (CrossSectionDNDXInterpolant.cxx 55-61) for the hash `h` of the cross section. -/
def dndxKey (s : TableSettings) (h : α) (t : Option Component) : α :=
  targetKey A (A.dbl (A.int (A.int h s.nodesDndxE) s.nodesDndxV) (some s.upper)) t

/-- `CrossSectionDEDXInterpolant::GetHash` (CrossSectionDEDXInterpolant.cxx 18-23). -/
def dedxKey (s : TableSettings) (h : α) (t : Option Component) : α := targetKey A (A.dbl (A.int h s.nodesDedx) (some s.upper)) t

/-- `CrossSectionDE2DXInterpolant::GetHash`. -/
def de2dxKey (s : TableSettings) (h : α) (t : Option Component) : α := targetKey A (A.dbl (A.int h s.nodesDe2dx) (some s.upper)) t

/-- The kinds of tables of a cross section. -/
inductive CrossTable where
  | dndx | dedx | de2dx
  deriving DecidableEq

/-- The prefix of the name. -/
def CrossTable.pre : CrossTable → String
  | .dndx => "dndx_"
  | .dedx => "dedx_"
  | .de2dx => "de2dx_"

/-- The hash of a table of a cross section. -/
noncomputable def CrossTable.key (k : CrossTable) (r : TableReq) : α :=
  match k with
  | .dndx => dndxKey A r.set (crossKey A r) r.target
  | .dedx => dedxKey A r.set (crossKey A r) r.target
  | .de2dx => de2dxKey A r.set (crossKey A r) r.target

/-- The name of a table of a cross section: prefix and hash (`gen_name`). -/
noncomputable def CrossTable.fileName (k : CrossTable) (r : TableReq) : String × α := (k.pre, k.key A r)

/-- Combining hashes one after the other: `CrossSectionVector::GetHash` (CrossSectionVector.h 34-40) and the hash of a cross section made
of those of its tables (CrossSection.h 257-271). -/
def combineKeys (ks : List α) : α := ks.foldl A.size A.zero

/-- `CrossSectionMultiplier::GetHash` (CrossSectionMultiplier.h 42-46). -/
def multiplierKey (h : α) (k : ℝ) : α := A.dbl h (some k)

/-- The hash of a utility with tables (PropagationUtilityInterpolant.cxx 34-46). -/
def utilKey (s : TableSettings) (h : α) (nodes : ℤ) (rev : Bool) : α := A.dbl (A.bool (A.int h nodes) rev) (some s.upper)

/-- The tables of the utilities, with the arguments that the tables depend on beside the cross sections. -/
inductive UtilTable where
  | displacement | exactTime (mass : ℝ) | decay (lifetime mass : ℝ) | interaction | rates | contRand | highland (mass : ℝ)

/-- The prefixes of the names. -/
def UtilTable.pre : UtilTable → String
  | .displacement => "disp_"
  | .exactTime _ => "time_"
  | .decay _ _ => "decay_"
  | .interaction => "inter_"
  | .rates => "rates_"
  | .contRand => "cont_rand_"
  | .highland _ => "scattering_"

/-- The hash of a utility that is made of the cross sections with the hashes `ks`. The masses of the exact time and of the multiple
scattering do not enter (TimeBuilder.cxx 23, HighlandIntegral.cxx 39). -/
def UtilTable.key (u : UtilTable) (s : TableSettings) (ks : List α) : α :=
  let h := combineKeys A ks
  match u with
  | .displacement => utilKey A s h s.nodesUtility false
  | .exactTime _ => utilKey A s h s.nodesUtility false
  | .decay l m => utilKey A s (A.dbl (A.dbl (A.size A.zero h) (some l)) (some m)) s.nodesUtility true
  | .interaction => utilKey A s h s.nodesUtility false
  | .rates => A.dbl (A.int h s.nodesRate) (some s.upper)
  | .contRand => utilKey A s (A.size A.zero h) s.nodesUtility false
  | .highland _ => utilKey A s h 500 true

/-- The name of a table of a utility. -/
def UtilTable.fileName (u : UtilTable) (s : TableSettings) (ks : List α) : String × α := (u.pre, u.key A s ks)

/-- The name of the tables of the secondaries of photons: `build_dndx(..., Param(), p, medium, nullptr)` with the default `hash = 0`
(PhotoPairProductionInterpolant.h 31-35, PhotoMuPairProductionBurkhardtKelnerKokoulin.h 29-33, CrossSection.h 90-110). -/
def photonSecondaryName (s : TableSettings) (_cls : ParClass) (_p : PDef) (c : Component) : String × α :=
  (CrossTable.dndx.pre, dndxKey A s A.zero (some c))

/-- The name of the table of the secondaries of weak interactions (WeakCooperSarkarMertsch.cxx 10-15); `addr` is the address of the
string literal. -/
def weakSecondaryName (s : TableSettings) (addr : ℕ) (p : PDef) (m : Med) (c : Component) : String × α :=
  (CrossTable.dndx.pre, dndxKey A s (A.ptr (A.size (A.size A.zero (partKey A p)) (medKey A m)) addr) (some c))

end names

open Classical in
/-- Opening a table with a path for tables: the file with the name is read if it exists, otherwise the table is built and written. The
result is the table and the files after it. -/
noncomputable def openTable {N T : Type} (files : N → Option T) (n : N) (build : T) : T × (N → Option T) :=
  match files n with
  | some t => (t, files)
  | none => (build, fun n' => if n' = n then some build else files n')

/-- Opening several tables one after the other, in one run of the program or in several: the tables that are obtained and the files. -/
noncomputable def openTables {N T : Type} (files : N → Option T) : List (N × T) → List T × (N → Option T)
  | [] => ([], files)
  | (n, b) :: rs =>
    let (t, files) := openTable files n b
    let (ts, files) := openTables files rs
    (t :: ts, files)

end Proposal
