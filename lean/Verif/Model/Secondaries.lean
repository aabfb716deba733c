import Verif.Model.Decay
import Verif.Model.Kinematics
import Verif.Model.RootFinding
import Mathlib.Analysis.SpecialFunctions.Pow.Real
import Mathlib.Analysis.SpecialFunctions.Log.Basic

/-!
# Secondaries of stochastic losses

`/repo/src/PROPOSAL/detail/PROPOSAL/secondaries/parametrization` (the `.cxx` files below) and
`/repo/src/PROPOSAL/PROPOSAL/secondaries/parametrization` (the `.h` files). A state of the model carries also the mass of its
particle type. Outcome `none` stands for a NaN or an infinity among the directions. Numbers that the code takes from an
integration routine (the share of a pair, the azimuth sampling of `BremsKochMotz`) are arguments.
-/

namespace Proposal

/-- `StochasticLoss` (Particle.h 118-137), without the target. -/
structure SLoss where
  energy : ℝ
  pos : Vec3
  dir : Vec3
  time : ℝ
  dist : ℝ
  parentEnergy : ℝ

/-- The state at the place and time of a loss; the numbers are particle type and mass, direction, energy and distance. -/
def SLoss.state (l : SLoss) (d : Daughter) (dir : Vec3) (E : ℝ) (dist : ℝ) : Part :=
  ⟨d.type, d.mass, l.pos, dir, E, l.time, dist⟩

/-- `std::fmod` for a positive second argument. -/
noncomputable def fmod (x y : ℝ) : ℝ := x - y * (if 0 ≤ x / y then (⌊x / y⌋ : ℝ) else (⌈x / y⌉ : ℝ))

noncomputable def sGamma : Daughter := ⟨22, 0⟩
noncomputable def sEMinus : Daughter := ⟨11, ME⟩
noncomputable def sEPlus : Daughter := ⟨-11, ME⟩
noncomputable def sMuMinus : Daughter := ⟨13, MMU⟩
noncomputable def sMuPlus : Daughter := ⟨-13, MMU⟩
/-- `ParticleType::Hadron`, which has no definition and no mass of its own. -/
noncomputable def sHadron : Daughter := ⟨81, 0⟩

/-- The two directions deflected by opposite azimuths, in all two-particle final states of the code (for instance
NaivCompton.cxx 22-27). -/
noncomputable def opposite (dir : Vec3) (c0 c1 theta : ℝ) : Vec3 × Vec3 :=
  (dir.deflect c0 theta, dir.deflect c1 (fmod (theta + Real.pi) (2 * Real.pi)))

open Classical in
/-- `NaivCompton::CalculateDirections` (compton/NaivCompton.cxx 15-28). -/
noncomputable def comptonDirections (dir : Vec3) (E v rnd : ℝ) : Option (Vec3 × Vec3) :=
  if E * (1 - v) = 0 ∨ Real.sqrt (2 * v * E * ME + v * v * E * E) = 0 then none
  else
    let cg := 1 - (v * ME) / (E * (1 - v))
    let ce := v * (E + ME) / Real.sqrt (2 * v * E * ME + v * v * E * E)
    some (opposite dir cg ce (rnd * 2 * Real.pi))

/-- `NaivCompton::CalculateSecondaries` (compton/NaivCompton.cxx 30-52). -/
noncomputable def comptonSecondaries (l : SLoss) (rnd : ℝ) : Option (List Part) :=
  let v := l.energy / l.parentEnergy
  match comptonDirections l.dir l.parentEnergy v rnd with
  | none => none
  | some d => some [l.state sGamma d.1 (l.parentEnergy * (1 - v)) 0, l.state sEMinus d.2 (ME + l.parentEnergy * v) 0]

open Classical in
/-- `NaivIonization::CalculateDirections` (ionization/NaivIonization.cxx 16-38); a negative argument of a root gives a NaN. -/
noncomputable def ionizationDirections (m : ℝ) (dir : Vec3) (E v rnd : ℝ) : Option (Vec3 × Vec3) :=
  let Ef := E * (1 - v)
  let Ee := E * v + ME
  if (E + m) * (E - m) ≤ 0 ∨ (Ef + m) * (Ef - m) ≤ 0 ∨ (Ee + ME) * (Ee - ME) ≤ 0 then none
  else
    let pi := Real.sqrt ((E + m) * (E - m))
    let pf := Real.sqrt ((Ef + m) * (Ef - m))
    let pe := Real.sqrt ((Ee + ME) * (Ee - ME))
    some (opposite dir (((E + ME) * Ef - E * ME - m * m) / (pi * pf)) (((E + ME) * Ee - E * ME - ME * ME) / (pi * pe))
      (rnd * 2 * Real.pi))

/-- `NaivIonization::CalculateSecondaries` (ionization/NaivIonization.cxx 40-61). -/
noncomputable def ionizationSecondaries (primary : Daughter) (l : SLoss) (rnd : ℝ) : Option (List Part) :=
  let v := l.energy / l.parentEnergy
  match ionizationDirections primary.mass l.dir l.parentEnergy v rnd with
  | none => none
  | some d => some [l.state primary d.1 (l.parentEnergy * (1 - v)) 0, l.state sEMinus d.2 (l.parentEnergy * v + ME) 0]

/-- `f_term` (annihilation/HeitlerAnnihilation.cxx 6-8). -/
noncomputable def heitlerTerm (a1 a2 ρ : ℝ) : ℝ := a1 * Real.log ρ + a2 / ρ - ρ

/-- `rho_min` and `rho_max` (annihilation/HeitlerAnnihilation.cxx 18-27). -/
noncomputable def heitlerLimits (γ : ℝ) : ℝ × ℝ :=
  if γ ≤ 1 then (0, 0)
  else (0.5 * (1 - Real.sqrt ((γ - 1) / (γ + 1))), 0.5 * (1 + Real.sqrt ((γ - 1) / (γ + 1))))

/-- The function whose root is searched (annihilation/HeitlerAnnihilation.cxx 10-12, 29-32). -/
noncomputable def heitlerFunction (γ rnd ρ : ℝ) : ℝ :=
  let a2 := 1 / (γ + 1) ^ 2
  let a1 := 1 + 2 * γ * a2
  let lim := heitlerLimits γ
  heitlerTerm a1 a2 ρ - heitlerTerm a1 a2 lim.1 - rnd * (heitlerTerm a1 a2 lim.2 - heitlerTerm a1 a2 lim.1)

/-- `HeitlerAnnihilation::CalculateRho` (annihilation/HeitlerAnnihilation.cxx 14-35), for a positron of mass `m` above its rest
energy; HALF_PRECISION = 1e-5. -/
noncomputable def heitlerRho (m E rnd : ℝ) : Except MathErr ℝ :=
  let γ := E / m
  let lim := heitlerLimits γ
  match bisection (heitlerFunction γ rnd) lim.1 lim.2 (lim.1 * E * 1e-5) 100 with
  | .error e => .error e
  | .ok p => .ok p.1

open Classical in
/-- `HeitlerAnnihilation::CalculateDirections` (annihilation/HeitlerAnnihilation.cxx 37-54). -/
noncomputable def annihilationDirections (dir : Vec3) (E ρ rnd : ℝ) : Option (Vec3 × Vec3) :=
  let com := E + ME
  let kin := E - ME
  if com * kin ≤ 0 ∨ ρ = 0 ∨ ρ = 1 then none
  else some (opposite dir ((com * (1 - ρ) - ME) / ((1 - ρ) * Real.sqrt (com * kin)))
    ((com * ρ - ME) / (ρ * Real.sqrt (com * kin))) (rnd * 2 * Real.pi))

/-- `HeitlerAnnihilation::CalculateSecondaries` (annihilation/HeitlerAnnihilation.cxx 56-81). -/
noncomputable def annihilationSecondaries (m : ℝ) (l : SLoss) (rnd0 rnd1 : ℝ) : Except MathErr (Option (List Part)) :=
  match heitlerRho m l.parentEnergy rnd0 with
  | .error e => .error e
  | .ok ρ =>
    match annihilationDirections l.dir l.parentEnergy ρ rnd1 with
    | none => .ok none
    | some d => .ok (some [l.state sGamma d.1 ((l.parentEnergy + ME) * (1 - ρ)) 0, l.state sGamma d.2 ((l.parentEnergy + ME) * ρ) 0])

/-- The kinds of bremsstrahlung secondaries; the argument of `kochMotz` is the polar angle accepted by its loop
(BremsKochMotz.cxx 43-52). -/
inductive BremsAngle where
  | none
  | egs4
  | kochMotz (phi : ℝ)

open Classical in
/-- `CalculateDirections` of the bremsstrahlung: BremsNoDeflection.cxx 7-11, BremsEGS4Approximation.cxx 7-24 and BremsKochMotz.cxx
52-64. -/
noncomputable def bremsDirections (a : BremsAngle) (m : ℝ) (dir : Vec3) (E k rnd : ℝ) : Option (Vec3 × Vec3) :=
  let recoil (phi : ℝ) : Option (Vec3 × Vec3) :=
    let photon := dir.deflect (Real.cos phi) (rnd * 2 * Real.pi)
    if (E + m) * (E - m) < 0 then .none
    else ((Real.sqrt ((E + m) * (E - m)) • dir - k • photon).normalize).map fun e => (e, photon)
  match a with
  | .none => some (dir, dir)
  | .egs4 => recoil (m / E)
  | .kochMotz phi => recoil phi

/-- `Bremsstrahlung::CalculateSecondaries` (bremsstrahlung/Bremsstrahlung.cxx 6-28). -/
noncomputable def bremsSecondaries (a : BremsAngle) (primary : Daughter) (l : SLoss) (rnd : ℝ) : Option (List Part) :=
  match bremsDirections a primary.mass l.dir l.parentEnergy l.energy rnd with
  | none => none
  | some d => some [l.state primary d.1 (l.parentEnergy - l.energy) 0, l.state sGamma d.2 l.energy 0]

/-- The energies of a pair (KelnerKokoulinPetrukhinEpairProduction.h 26-31, KelnerKokoulinPetrukhinMupairProduction.cxx 46-53). -/
noncomputable def pairEnergies (E ρ : ℝ) : ℝ × ℝ := (0.5 * E * (1 + ρ), 0.5 * E * (1 - ρ))

/-- The outcomes of `EpairProductionRhoIntegral::CalculateRho`. -/
inductive RhoResult where
  | logicError
  | nan
  | rho (r : ℝ)

open Classical in
/-- `EpairProductionRhoIntegral::CalculateRho` (KelnerKokoulinPetrukhinEpairProduction.h 43-73); `upper ρmax rnd` is the limit
that the integration routine returns, 0 if the integral is not positive. -/
noncomputable def epairRho (m : ℝ) (upper : ℝ → ℝ → ℝ) (E v rnd1 rnd2 : ℝ) : RhoResult :=
  let aux := 1 - (4 * ME) / (E * v)
  let aux2 := 1 - (6 * m * m) / (E * E * (1 - v))
  if aux < 0 then .nan
  else
    let rhoMax := Real.sqrt aux * aux2
    if rhoMax < 0 then .logicError
    else .rho (if rnd2 < 0.5 then upper rhoMax rnd1 * (-1) else upper rhoMax rnd1)

open Classical in
/-- `KelnerKokoulinPetrukhinMupairProduction::CalculateRho` (KelnerKokoulinPetrukhinMupairProduction.cxx 19-37). -/
noncomputable def mupairRho (upper : ℝ → ℝ → ℝ) (E v rnd1 rnd2 : ℝ) : ℝ :=
  let rhoMax := 1 - 2 * MMU / (v * E)
  if rhoMax < 0 then 0 else if rnd2 < 0.5 then -upper rhoMax rnd1 else upper rhoMax rnd1

/-- The three states of a pair production (KelnerKokoulinPetrukhinEpairProduction.h 76-102,
KelnerKokoulinPetrukhinMupairProduction.cxx 55-79): the primary keeps the propagated distance. -/
noncomputable def pairSecondaries (primary minus plus : Daughter) (l : SLoss) (ρ : ℝ) : List Part :=
  [l.state primary l.dir (l.parentEnergy - l.energy) l.dist,
   l.state minus l.dir (pairEnergies l.energy ρ).1 0,
   l.state plus l.dir (pairEnergies l.energy ρ).2 0]

/-- `EpairProductionRhoIntegral::CalculateSecondaries`; `none` stands for the exception or NaN energies. -/
noncomputable def epairSecondaries (primary : Daughter) (upper : ℝ → ℝ → ℝ) (l : SLoss) (rnd1 rnd2 : ℝ) : Option (List Part) :=
  match epairRho primary.mass upper l.parentEnergy (l.energy / l.parentEnergy) rnd1 rnd2 with
  | .rho ρ => some (pairSecondaries primary sEMinus sEPlus l ρ)
  | _ => none

/-- `KelnerKokoulinPetrukhinMupairProduction::CalculateSecondaries`. -/
noncomputable def mupairSecondaries (primary : Daughter) (upper : ℝ → ℝ → ℝ) (l : SLoss) (rnd1 rnd2 : ℝ) : List Part :=
  pairSecondaries primary sMuMinus sMuPlus l (mupairRho upper l.parentEnergy (l.energy / l.parentEnergy) rnd1 rnd2)

/-- `NaivEpairProduction::CalculateSecondaries` (NaivEpairProduction.h 20-24). -/
def naivEpairSecondaries (_ : SLoss) : List Part := []

/-- `Photonuclear::CalculateSecondaries` (Photonuclear.h 22-43). -/
noncomputable def photonuclearSecondaries (primary : Daughter) (l : SLoss) : List Part :=
  [l.state primary l.dir (l.parentEnergy - l.energy) 0, l.state sHadron l.dir l.energy 0]

/-- `Photoproduction::CalculateSecondaries` (Photoproduction.h 20-34). -/
noncomputable def photoproductionSecondaries (l : SLoss) : List Part := [l.state sHadron l.dir l.energy 0]

/-- `PhotoeffectNoDeflection::CalculateSecondaries` (PhotoeffectNoDeflection.cxx 9-20). -/
noncomputable def photoeffectSecondaries (Z : ℝ) (l : SLoss) : List Part :=
  [l.state sEMinus l.dir (ME + l.parentEnergy - (Z * ALPHA) ^ 2 * ME / 2) 0]

/-- `WeakCooperSarkarMertsch::CalculateSecondaries` (WeakCooperSarkarMertsch.cxx 36-51); `v` is the sampled share of the hadron. -/
noncomputable def weakSecondaries (partner : Daughter) (l : SLoss) (v : ℝ) : List Part :=
  [l.state partner l.dir ((1 - v) * l.energy) 0, l.state sHadron l.dir (v * l.energy) 0]

open Classical in
/-- `CalculateDirections` of pairs from photons: the repair `cosphi = -1` to 1 and the opposite deflections
(PhotoPairProductionInterpolant.h 56-74, SauterSampling.h 29-40, PhotoPairProductionTsai.cxx 113-126,
PhotoMuPairProductionBurkhardtKelnerKokoulin.cxx 26-43). -/
noncomputable def photoPairDirections (dir : Vec3) (c0 c1 rnd : ℝ) : Vec3 × Vec3 :=
  opposite dir (if c0 = -1 then 1 else c0) (if c1 = -1 then 1 else c1) (rnd * 2 * Real.pi)

/-- The cosine of the Sauter sampling (SauterSampling.h 21-27) for an energy and a random number. -/
noncomputable def sauterCos (E rnd : ℝ) : ℝ :=
  let p := Real.sqrt (E * E - ME * ME)
  (E * (2 * rnd - 1) + p) / (p * (2 * rnd - 1) + E)

/-- `PhotoPairProductionInterpolant::CalculateSecondaries` (PhotoPairProductionInterpolant.h 76-104) for a sampled share `ρ` and
cosines. -/
noncomputable def photoPairSecondaries (l : SLoss) (ρ c0 c1 rnd : ℝ) : List Part :=
  let d := photoPairDirections l.dir c0 c1 rnd
  [l.state sEMinus d.1 (l.parentEnergy * ρ) 0, l.state sEPlus d.2 (l.parentEnergy * (1 - ρ)) 0]

/-- `PhotoMuPairProductionBurkhardtKelnerKokoulin::CalculateSecondaries` (PhotoMuPairProductionBurkhardtKelnerKokoulin.cxx 45-62 and
.h 38-40) for a sampled share `x`. -/
noncomputable def photoMuPairSecondaries (l : SLoss) (x rnd : ℝ) : List Part :=
  let c := Real.cos (1 / (l.parentEnergy / MMU))
  let d := photoPairDirections l.dir c c rnd
  [l.state sMuMinus d.1 ((1 - x) * l.parentEnergy) 0, l.state sMuPlus d.2 (x * l.parentEnergy) 0]

/-- `CalculatePhiCandidate` (bremsstrahlung/BremsKochMotz.cxx 10-13). -/
noncomputable def phiCandidate (E0 r : ℝ) : ℝ := 1 / E0 * Real.sqrt (r / (1 - r + 1 / (Real.pi * E0) ^ 2))

end Proposal
