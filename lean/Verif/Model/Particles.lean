import Verif.Model.Registry
import Verif.Model.Names

/-!
# The built-in particles

The constructors of `/repo/src/PROPOSAL/detail/PROPOSAL/particle/ParticleDef.cxx` and the builder of
`/repo/src/PROPOSAL/PROPOSAL/particle/ParticleDef.h`. A constructor is its list of arguments for the constructor of
`ParticleDef` (model: `constructDef`). An infinite lifetime is `none`.
-/

namespace Proposal

/-- Lifetimes (Constants.cxx 65, 68, 71, 74 and 78). -/
noncomputable def LMU : ℝ := 2.1969811e-6
noncomputable def LTAU : ℝ := 290.3e-15
noncomputable def LPI : ℝ := 2.6033e-8
noncomputable def LPI0 : ℝ := 8.52e-17
noncomputable def LKAON : ℝ := 1.2380e-8
/-- Mass and charge of the monopole (Constants.cxx 84-86). -/
noncomputable def MMON : ℝ := 1e5
noncomputable def CMON : ℝ := 68.51799988
/-- Mass of the stable massive particles and of the staus (Constants.cxx 88-89). -/
noncomputable def MSMP : ℝ := 1e5
noncomputable def MSTAU : ℝ := 1e5

/-- `HardComponentTables::MuonTable` (ParticleDef.cxx 97-112). -/
noncomputable def hardMuonTable : List (List ℝ) :=
  [[7.174409e-4, 1.7132e-3, 4.082304e-3, 8.628455e-3, 0.01244159, 0.02204591, 0.03228755],
   [-0.2436045, -0.5756682, -1.553973, -3.251305, -5.976818, -9.495636, -13.92918],
   [-0.2942209, -0.68615, -2.004218, -3.999623, -6.855045, -10.05705, -14.37232],
   [-0.1658391, -0.3825223, -1.207777, -2.33175, -3.88775, -5.636636, -8.418409],
   [-0.05227727, -0.1196482, -0.4033373, -0.7614046, -1.270677, -1.883845, -2.948277],
   [-9.328318e-3, -0.02124577, -0.07555636, -0.1402496, -0.2370768, -0.3614146, -0.5819409],
   [-8.751909e-4, -1.987841e-3, -7.399682e-3, -0.01354059, -0.02325118, -0.03629659, -0.059275],
   [-3.343145e-5, -7.584046e-5, -2.943396e-4, -5.3155e-4, -9.265136e-4, -1.473118e-3, -2.419946e-3]]

/-- `HardComponentTables::TauTable` (ParticleDef.cxx 115-131). -/
noncomputable def hardTauTable : List (List ℝ) :=
  [[-1.269205e-4, -2.843877e-4, -5.761546e-4, -1.195445e-3, -1.317386e-3, -9.689228e-15, -6.4595e-15],
   [-0.01563032, -0.03589573, -0.07768545, -0.157375, -0.2720009, -0.4186136, -0.8045046],
   [0.04693954, 0.1162945, 0.3064255, 0.7041273, 1.440518, 2.533355, 3.217832],
   [0.05338546, 0.130975, 0.3410341, 0.7529364, 1.425927, 2.284968, 2.5487],
   [0.02240132, 0.05496, 0.144945, 0.3119032, 0.5576727, 0.8360727, 0.8085682],
   [4.658909e-3, 0.01146659, 0.03090286, 0.06514455, 0.1109868, 0.1589677, 0.1344223],
   [4.822364e-4, 1.193018e-3, 3.302773e-3, 6.843364e-3, 0.011191, 0.015614, 0.01173827],
   [1.9837e-5, 4.940182e-5, 1.409573e-4, 2.877909e-4, 4.544877e-4, 6.280818e-4, 4.281932e-4]]

/-- The decay table of stable particles (ParticleDef.cxx 29, 307, 490 and others). -/
noncomputable def tableStable : List (ℝ × Channel) := addChannel 1.1 .stable []

/-- EMinusDef (ParticleDef.cxx 304-311). -/
noncomputable def defEMinus : PDef := ⟨bytes "EMinus", ME, ME, none, -1, [], tableStable, 11, 12⟩
/-- EPlusDef (ParticleDef.cxx 314-321). -/
noncomputable def defEPlus : PDef := ⟨bytes "EPlus", ME, ME, none, 1, [], tableStable, -11, -12⟩
/-- MuMinusDef (ParticleDef.cxx 324-333). -/
noncomputable def defMuMinus : PDef := ⟨bytes "MuMinus", MMU, MMU, some LMU, -1, hardMuonTable, tableMuMinus, 13, 14⟩
/-- MuPlusDef (ParticleDef.cxx 336-344). -/
noncomputable def defMuPlus : PDef := ⟨bytes "MuPlus", MMU, MMU, some LMU, 1, hardMuonTable, tableMuPlus, -13, -14⟩
/-- TauMinusDef (ParticleDef.cxx 347-411). -/
noncomputable def defTauMinus : PDef := ⟨bytes "TauMinus", MTAU, MTAU, some LTAU, -1, hardTauTable, tableTauMinus, 15, 16⟩
/-- TauPlusDef (ParticleDef.cxx 414-478). -/
noncomputable def defTauPlus : PDef := ⟨bytes "TauPlus", MTAU, MTAU, some LTAU, 1, hardTauTable, tableTauPlus, -15, -16⟩
/-- GammaDef (ParticleDef.cxx 487-494). -/
noncomputable def defGamma : PDef := ⟨bytes "Gamma", 0, 2 * ME, none, 0, [], tableStable, 22, 0⟩
/-- NuEDef (ParticleDef.cxx 497-504). -/
noncomputable def defNuE : PDef := ⟨bytes "NuE", 0, 0, none, 0, [], tableStable, 12, 11⟩
/-- NuEBarDef (ParticleDef.cxx 507-514). -/
noncomputable def defNuEBar : PDef := ⟨bytes "NuEBar", 0, 0, none, 0, [], tableStable, -12, -11⟩
/-- NuMuDef (ParticleDef.cxx 517-524). -/
noncomputable def defNuMu : PDef := ⟨bytes "NuMu", 0, 0, none, 0, [], tableStable, 14, 13⟩
/-- NuMuBarDef (ParticleDef.cxx 527-534). -/
noncomputable def defNuMuBar : PDef := ⟨bytes "NuMuBar", 0, 0, none, 0, [], tableStable, -14, -13⟩
/-- NuTauDef (ParticleDef.cxx 537-544). -/
noncomputable def defNuTau : PDef := ⟨bytes "NuTau", 0, 0, none, 0, [], tableStable, 16, 15⟩
/-- NuTauBarDef (ParticleDef.cxx 547-554). -/
noncomputable def defNuTauBar : PDef := ⟨bytes "NuTauBar", 0, 0, none, 0, [], tableStable, -16, -15⟩

/-- The macro `PARTICLE_IMP` (ParticleDef.cxx 25-32). -/
noncomputable def particleImp (cls : List Byte) (mass : ℝ) (lifetime : Option ℝ) (charge : ℝ) (type : ℤ) : PDef :=
  ⟨cls, mass, mass, lifetime, charge, [], tableStable, type, 0⟩

/-- The staus (ParticleDef.cxx 564-567); they are not in `create_particle_map`. -/
noncomputable def defStauMinus : PDef := particleImp (bytes "StauMinus") MSTAU none (-1) 1000015
noncomputable def defStauPlus : PDef := particleImp (bytes "StauPlus") MSTAU none 1 (-1000015)
/-- Pions, kaons, the monopole and stable massive particles (ParticleDef.cxx 569-583). -/
noncomputable def defPi0 : PDef := particleImp (bytes "Pi0") MPI0 (some LPI0) 0 111
noncomputable def defPiMinus : PDef := particleImp (bytes "PiMinus") MPI (some LPI) (-1) (-211)
noncomputable def defPiPlus : PDef := particleImp (bytes "PiPlus") MPI (some LPI) 1 211
noncomputable def defK0 : PDef := particleImp (bytes "K0") MKAON (some (-1)) 0 311
noncomputable def defKMinus : PDef := particleImp (bytes "KMinus") MKAON (some LKAON) (-1) (-321)
noncomputable def defKPlus : PDef := particleImp (bytes "KPlus") MKAON (some LKAON) 1 321
noncomputable def defMonopole : PDef := particleImp (bytes "Monopole") MMON none CMON 41
noncomputable def defSMPMinus : PDef := particleImp (bytes "SMPMinus") MSMP none (-1) (-9500)
noncomputable def defSMPPlus : PDef := particleImp (bytes "SMPPlus") MSMP none 1 9500

/-- The definitions in the order of `create_particle_map` (ParticleDef.cxx 257-280). -/
noncomputable def builtinDefs : List PDef :=
  [defEMinus, defEPlus, defNuE, defNuEBar, defMuMinus, defNuMu, defNuMuBar, defMuPlus, defTauMinus, defTauPlus, defNuTau,
   defNuTauBar, defGamma, defPi0, defPiPlus, defPiMinus, defK0, defKPlus, defKMinus, defMonopole, defSMPPlus, defSMPMinus]

open Classical in
/-- `DecayTable::operator==` (DecayTable.cxx 57-77). -/
noncomputable def tableEqual (l r : List (ℝ × Channel)) : Bool :=
  decide (l.length = r.length) && (l.zip r).all fun p => decide (p.1.1 = p.2.1) && p.1.2.equal p.2.2

/-- `ParticleDef::Builder()` (ParticleDef.cxx 287-298). -/
noncomputable def builderDefault : PDef := ⟨[], 0, 0, none, -1, [], [], 0, 0⟩

open Classical in
/-- `ParticleDef::Builder::build` before the constructor (ParticleDef.h 246-255). The setters (199-244) replace one field,
`SetParticleDef` all of them. -/
noncomputable def builderBuild (b : PDef) : PDef := { b with low := if b.low < b.mass then b.mass else b.low }

end Proposal
