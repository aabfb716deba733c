import Verif.Model.Sphere

/-!
# Interaction types, particle states, random streams, propagation utility

Models `particle/Particle.h` 39-57, `propagation_utility/PropagationUtility.cxx` 80-183,
`scattering/Scattering.h` 107-160 and the random number sources of `Propagator.cxx`.
-/

namespace Proposal

/-- `InteractionType` (particle/Particle.h 39-57). -/
inductive IType
  | undefined | particle | brems | ioniz | epair | photonuclear | muPair | hadrons
  | continuousEnergyLoss | weakInt | compton | decay | annihilation | photopair
  | photoproduction | photoMuPair | photoeffect
  deriving DecidableEq

/-- `Interaction::Loss` (propagation_utility/Interaction.h): type, component hash and fractional
loss. -/
structure Loss where
  type : IType
  comp : ℕ
  v : ℝ

/-- `ParticleState` (particle/Particle.h) without the particle type, which never changes during
propagation. -/
@[ext] structure PState where
  energy : ℝ
  time : ℝ
  position : Vec3
  direction : Vec3
  distance : ℝ

/-- The memoising lambda of `AdvanceParticle` (Propagator.cxx 175-183): four slots with sentinel
-1, the call counter `i` and the position in the underlying random stream. -/
structure Memo where
  slots : Fin 4 → ℝ
  i : ℕ
  pos : ℕ

/-- `random_numbers = {-1,-1,-1,-1}; i = 0` (Propagator.cxx 176-177). -/
def Memo.init (pos : ℕ) : Memo := ⟨fun _ => -1, 0, pos⟩

/-- The slot used by the next call: `i % 4`. -/
def Memo.idx (m : Memo) : Fin 4 := ⟨m.i % 4, Nat.mod_lt _ (by norm_num)⟩

open Classical in
/-- One call of the lambda (Propagator.cxx 178-182) on the random stream `ω`. -/
noncomputable def Memo.next (ω : ℕ → ℝ) (m : Memo) : ℝ × Memo :=
  if m.slots m.idx = -1 then
    (ω m.pos, ⟨Function.update m.slots m.idx (ω m.pos), m.i + 1, m.pos + 1⟩)
  else (m.slots m.idx, { m with i := m.i + 1 })

/-- `for (auto& r: random_numbers) r = rnd_generator();` (Propagator.cxx 209-211, 268-270). -/
def Memo.redraw (ω : ℕ → ℝ) (m : Memo) : Memo :=
  ⟨fun k => ω (m.pos + k.val), m.i, m.pos + 4⟩

/-- Four calls of the lambda. -/
noncomputable def Memo.next4 (ω : ℕ → ℝ) (m : Memo) : (Fin 4 → ℝ) × Memo :=
  let a := m.next ω
  let b := a.2.next ω
  let c := b.2.next ω
  let d := c.2.next ω
  (![a.1, b.1, c.1, d.1], d.2)

/-- `Scattering` (scattering/Scattering.h): the optional multiple scattering calculator
(grammage, initial energy, final energy, four random numbers) and the map of stochastic deflection
calculators, each with its number of random numbers and its (zenith, azimuth) function of initial
energy, final energy, random numbers and component. -/
structure ScatterCalc where
  multiple : Option (ℝ → ℝ → ℝ → (Fin 4 → ℝ) → ScatteringOffset)
  deflection : IType → Option (ℕ × (ℝ → ℝ → List ℝ → ℕ → ℝ × ℝ))

/-- `PropagationUtility::Collection` (propagation_utility/PropagationUtility.h), reduced to what
the propagator calls. The numerical calculators are arbitrary functions. -/
structure Utility where
  /-- `displacement_calc->GetLowerLim()` -/
  lowerLim : ℝ
  /-- `decay_calc->EnergyDecay(energy, rnd, density)`, `none` for a null pointer -/
  decay : Option (ℝ → ℝ → ℝ → ℝ)
  /-- `interaction_calc->EnergyInteraction(energy, rnd)` -/
  interaction : ℝ → ℝ → ℝ
  /-- `interaction_calc->SampleLoss(energy, Rates(energy), rnd)` -/
  sampleLoss : ℝ → ℝ → Loss
  /-- `cont_rand->EnergyRandomize(initial, final, rnd, min_energy)`, `none` for a null pointer -/
  contRand : Option (ℝ → ℝ → ℝ → ℝ → ℝ)
  /-- `displacement_calc->UpperLimitTrackIntegral(initial, grammage)` -/
  energyDistance : ℝ → ℝ → ℝ
  /-- `displacement_calc->SolveTrackIntegral(initial, final)` -/
  lengthContinuous : ℝ → ℝ → ℝ
  /-- `time_calc->TimeElapsed(initial, final, grammage, density)` -/
  timeElapsed : ℝ → ℝ → ℝ → ℝ → ℝ
  /-- `scattering`, `none` for a null pointer -/
  scattering : Option ScatterCalc

/-- `PropagationUtility::EnergyDecay` (PropagationUtility.cxx 101-108) on the random stream;
returns the energy and the new stream position. -/
def Utility.energyDecay (u : Utility) (ω : ℕ → ℝ) (pos : ℕ) (energy density : ℝ) : ℝ × ℕ :=
  match u.decay with
  | some f => (f energy (ω pos) density, pos + 1)
  | none => (0, pos)

/-- `PropagationUtility::EnergyInteraction` (PropagationUtility.cxx 110-114). -/
def Utility.energyInteraction (u : Utility) (ω : ℕ → ℝ) (pos : ℕ) (energy : ℝ) : ℝ × ℕ :=
  (u.interaction energy (ω pos), pos + 1)

/-- `PropagationUtility::EnergyStochasticloss` (PropagationUtility.cxx 92-99). -/
def Utility.stochasticLoss (u : Utility) (energy rnd : ℝ) : Loss := u.sampleLoss energy rnd

/-- `PropagationUtility::EnergyRandomize` (PropagationUtility.cxx 116-125). -/
noncomputable def Utility.energyRandomize (u : Utility) (ω : ℕ → ℝ) (m : Memo)
    (initial final minEnergy : ℝ) : ℝ × Memo :=
  match u.contRand with
  | some f => (f initial final (m.next ω).1 minEnergy, (m.next ω).2)
  | none => (final, m)

/-- `PropagationUtility::DirectionsScatter` (PropagationUtility.cxx 141-158). -/
noncomputable def Utility.directionsScatter (u : Utility) (ω : ℕ → ℝ) (m : Memo)
    (grammage initial final : ℝ) (dir : Vec3) : Vec3 × Vec3 × Memo :=
  match u.scattering with
  | none => (dir, dir, m)
  | some s =>
    match s.multiple with
    | some f =>
      let o := f grammage initial final (m.next4 ω).1
      let r := scatterInitialDirection dir o
      (r.1, r.2, (m.next4 ω).2)
    | none =>
      let r := scatterInitialDirection dir ⟨0, 0, 0, 0⟩
      (r.1, r.2, m)

/-- `PropagationUtility::DirectionDeflect` (PropagationUtility.cxx 160-176) drawing directly from
the stream: `StochasticDeflectionRandomNumbers` numbers, then `CalculateStochasticDeflection`
(scattering/Scattering.h 107-145; an unknown type gives the angles (0,0)). -/
noncomputable def Utility.directionDeflect (u : Utility) (ω : ℕ → ℝ) (pos : ℕ) (type : IType)
    (initial final : ℝ) (dir : Vec3) (comp : ℕ) : Vec3 × ℕ :=
  match u.scattering with
  | none => (dir, pos)
  | some s =>
    match s.deflection type with
    | some (n, f) =>
      let angles := f initial final ((List.range n).map (fun k => ω (pos + k))) comp
      (dir.deflect (Real.cos angles.1) angles.2, pos + n)
    | none => (dir.deflect (Real.cos 0) 0, pos)

end Proposal
