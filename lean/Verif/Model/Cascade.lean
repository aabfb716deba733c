import Verif.Model.Secondaries
import Verif.Model.Registration
import Verif.Model.DecayTable

/-!
# The default secondary calculators applied to a track

The classes derived from `DefaultSecondaries` in `/repo/src/PROPOSAL/PROPOSAL/secondaries/parametrization`, the map that
their registration builds (`DefaultFactory.h` 27-40, `RegisteredInDefault.h`) and the use of a `SecondariesCalculator`
(`SecondariesCalculator.h` 38-69) for the losses that `Secondaries::GetStochasticLosses` reports. Shares which the code
samples from integrals or tables are arguments. Not modelled: the exceptions of these tables for unknown components.
-/

namespace Proposal

/-- `StochasticLoss` as the calculators read it (Particle.h 118-137). -/
def StochLoss.toS (l : StochLoss) : SLoss := ⟨l.energy, l.position, l.direction, l.time, l.distance, l.parentEnergy⟩

/-- The arguments of `CalculateSecondaries`: the loss, the charge of the component and the random numbers. -/
structure SecInput where
  loss : SLoss
  Z : ℝ
  rnd : ℕ → ℝ

/-- What the calculators take from integrals and tables: the asymmetry of electron and muon pairs for a largest asymmetry
and a random number, and the shares of weak interactions and of pairs from photons for a random number. -/
structure SecSampling where
  epair : SecInput → ℝ → ℝ → ℝ
  mupair : SecInput → ℝ → ℝ → ℝ
  weak : SecInput → ℝ → ℝ
  photopair : SecInput → ℝ → ℝ
  photomupair : SecInput → ℝ → ℝ

/-- `PhotoPairProductionKochMotzSauter` (PhotoPairProductionKochMotz.h 19-36, PhotoPairProductionInterpolant.h 84-104). -/
noncomputable def sauterPair (l : SLoss) (ρ r1 r2 r3 : ℝ) : List Part :=
  photoPairSecondaries l ρ (sauterCos (l.parentEnergy * ρ) r2) (sauterCos (l.parentEnergy * (1 - ρ)) r3) r1

/-- The default calculators for a particle and its weak partner: BremsEGS4Approximation.h 8-26, NaivIonization.h 8-28,
KelnerKokoulinPetrukhinEpairProduction.h 97-104 (numbers 70-96), KelnerKokoulinPetrukhinMupairProduction.cxx 55-79,
Photonuclear.h 8-44, NaivCompton.cxx 30-52, HeitlerAnnihilation.cxx 64-81, PhotoPairProductionKochMotz.h 19-36,
PhotoMuPairProductionBurkhardtKelnerKokoulin.cxx 45-62, Photoproduction.h 8-34, PhotoeffectNoDeflection.cxx 9-20 and
WeakCooperSarkarMertsch.cxx 36-51. `none` stands for a NaN or an exception of a numerical routine. -/
noncomputable def defaultCalculators (o : SecSampling) (primary partner : Daughter) :
    List (SecParam SecInput (Option (List Part))) :=
  [⟨.brems, 1, fun i => bremsSecondaries .egs4 primary i.loss (i.rnd 0)⟩,
   ⟨.ioniz, 1, fun i => ionizationSecondaries primary i.loss (i.rnd 0)⟩,
   ⟨.epair, 3, fun i => epairSecondaries primary (o.epair i) i.loss (i.rnd 0) (i.rnd 1)⟩,
   ⟨.muPair, 3, fun i => some (mupairSecondaries primary (o.mupair i) i.loss (i.rnd 0) (i.rnd 1))⟩,
   ⟨.photonuclear, 0, fun i => some (photonuclearSecondaries primary i.loss)⟩,
   ⟨.compton, 1, fun i => comptonSecondaries i.loss (i.rnd 0)⟩,
   ⟨.annihilation, 2, fun i => match annihilationSecondaries primary.mass i.loss (i.rnd 0) (i.rnd 1) with
     | .ok r => r
     | .error _ => none⟩,
   ⟨.photopair, 4, fun i => some (sauterPair i.loss (o.photopair i (i.rnd 0)) (i.rnd 1) (i.rnd 2) (i.rnd 3))⟩,
   ⟨.photoMuPair, 2, fun i => some (photoMuPairSecondaries i.loss (o.photomupair i (i.rnd 0)) (i.rnd 1))⟩,
   ⟨.photoproduction, 0, fun i => some (photoproductionSecondaries i.loss)⟩,
   ⟨.photoeffect, 0, fun i => some (photoeffectSecondaries i.Z i.loss)⟩,
   ⟨.weakInt, 1, fun i => some (weakSecondaries partner i.loss (o.weak i (i.rnd 0)))⟩]

/-- The map of `DefaultFactory<secondaries::Parametrization>` after the static registrations (RegisteredInDefault.h). -/
noncomputable def defaultFactory (o : SecSampling) (primary partner : Daughter) :
    FactoryMap (SecParam SecInput (Option (List Part))) :=
  (defaultCalculators o primary partner).foldl (fun m p => (factoryRegister m p.type p).1) none

/-- `make_secondaries` followed by `CalculateSecondaries` for a reported loss (SecondariesCalculator.h 38-45 and 75-81,
SecondariesCalculator.cxx 5-16). -/
noncomputable def lossSecondaries (o : SecSampling) (primary partner : Daughter) (ts : List IType) (l : StochLoss) (Z : ℝ)
    (rnd : ℕ → ℝ) : Except RegErr (Option (List Part)) :=
  (secondariesFor (defaultFactory o primary partner) ts).bind fun m => calculateSecondaries m l.type ⟨l.toS, Z, rnd⟩

/-- The states of a track as `GetDecayProducts` sees them (Secondaries.cxx 52-71): the state with its particle type and
mass, and whether the entry is a decay. -/
noncomputable def decayView (primary : Daughter) (track : List Entry) : List (Part × Bool) :=
  track.map fun e => (⟨primary.type, primary.mass, e.state.position, e.state.direction, e.state.energy, e.state.time,
    e.state.distance⟩, decide (e.type = .decay))

end Proposal
