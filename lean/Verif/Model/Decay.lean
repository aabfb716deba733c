import Verif.Model.Vec3
import Verif.Model.RootFinding
import Mathlib.Analysis.SpecialFunctions.Log.Basic
import Mathlib.Data.List.Sort
import Mathlib.Analysis.SpecialFunctions.Gamma.Basic

/-!
# Decay

`/repo/src/PROPOSAL/detail/PROPOSAL/decay/*.cxx` and `Secondaries::GetDecayProducts` (Secondaries.cxx 52-71).

The mass of a particle state is a field of the state; in the code it is looked up by the particle type in the
registry of particle definitions, which cannot contain a type twice (C57). The outcome `none` of a decay stands for
products with a NaN in an energy or a direction. Log messages are left out.
-/

namespace Proposal

/-- `ParticleState` (particle/Particle.h) together with the mass of its particle definition. -/
structure Part where
  type : ℤ
  mass : ℝ
  pos : Vec3
  dir : Vec3
  energy : ℝ
  time : ℝ
  dist : ℝ

/-- The data of a daughter's `ParticleDef` that a decay channel uses. -/
structure Daughter where
  type : ℤ
  mass : ℝ

/-- `SetMomentum` (Particle.cxx 108-112). -/
noncomputable def Part.setMomentum (p : Part) (k : ℝ) : Part := { p with energy := energyOfMomentum p.mass k }

/-- `DecayChannel::Boost` of one particle (DecayChannel.cxx 54-71). -/
noncomputable def boost (p : Part) (direction : Vec3) (gamma betagamma : ℝ) : Option Part :=
  match direction.normalize, momentumOfEnergy p.mass p.energy with
  | some n, some k =>
    let v := k • p.dir
    let corr := (gamma - 1) * v.dot n - betagamma * p.energy
    let v' := v + corr • n
    match v'.normalize with
    | some d => some { p.setMomentum v'.mag with dir := d }
    | none => none
  | _, _ => none

/-- `DecayChannel::Boost` of a vector of particles (DecayChannel.cxx 74-80). -/
noncomputable def boostAll (direction : Vec3) (gamma betagamma : ℝ) : List Part → Option (List Part)
  | [] => some []
  | p :: ps =>
    match boost p direction gamma betagamma, boostAll direction gamma betagamma ps with
    | some q, some qs => some (q :: qs)
    | _, _ => none

/-- The Källén function as it is written in `Momentum` (DecayChannel.cxx 85). -/
def kaellen (m1 m2 m3 : ℝ) : ℝ := (m1 - m2 - m3) * (m1 + m2 + m3) * (m1 - m2 + m3) * (m1 + m2 - m3)

/-- `DecayChannel::Momentum` (DecayChannel.cxx 83-106). -/
noncomputable def decayMomentum (m1 m2 m3 : ℝ) : ℝ :=
  if kaellen m1 m2 m3 > 0 then Real.sqrt (kaellen m1 m2 m3) / (2 * m1) else 0

/-- `GenerateRandomDirection` (DecayChannel.cxx 109-116) with its two random numbers. -/
noncomputable def randomDirection (u : ℝ × ℝ) : Vec3 :=
  let phi := 2 * Real.pi * u.1
  let cosTheta := 2 * u.2 - 1
  let sinTheta := Real.sqrt ((1 - cosTheta) * (1 + cosTheta))
  ⟨sinTheta * Real.cos phi, sinTheta * Real.sin phi, cosTheta⟩

/-- The state with which every product starts, `emplace_back(type, p_condition.position, direction, energy,
p_condition.time, 0)`. -/
def product (d : Daughter) (parent : Part) (dir : Vec3) (energy : ℝ) : Part :=
  ⟨d.type, d.mass, parent.pos, dir, energy, parent.time, 0⟩

/-- The boost into the laboratory frame at the end of every `Decay`, e.g. TwoBodyPhaseSpace.cxx 57-61. -/
noncomputable def toLab (M : ℝ) (parent : Part) (products : List Part) : Option (List Part) :=
  let p := Real.sqrt (max ((parent.energy + M) * (parent.energy - M)) 0)
  boostAll (-parent.dir) (parent.energy / M) (p / M) products

/-- The products of `TwoBodyPhaseSpace::Decay` in the rest frame (TwoBodyPhaseSpace.cxx 41-55). -/
noncomputable def twoBodyRest (M : ℝ) (d1 d2 : Daughter) (parent : Part) (u : ℝ × ℝ) : List Part :=
  let k := decayMomentum M d1.mass d2.mass
  let n := randomDirection u
  [(product d1 parent n parent.energy).setMomentum k, (product d2 parent (-n) parent.energy).setMomentum k]

/-- `TwoBodyPhaseSpace::Decay` (TwoBodyPhaseSpace.cxx 41-64). -/
noncomputable def twoBodyDecay (M : ℝ) (d1 d2 : Daughter) (parent : Part) (u : ℝ × ℝ) : Option (List Part) :=
  toLab M parent (twoBodyRest M d1 d2 parent u)

/-! ## Leptonic decays -/

/-- `DecayRate` without `right_side`: the approximation (LeptonicDecayChannel.cxx 68-74) and the exact form (209-220).
`std::log` of a non-positive argument does not occur for lepton energies of at least the mass. -/
noncomputable def decayRate (exact : Bool) (m M emax x : ℝ) : ℝ :=
  if exact then
    let E := emax * x
    let s := Real.sqrt (max 0 (E * E - m * m))
    1.5 * (m * m) * (m * m) * M * Real.log (s + E) +
      s * ((M * M + m * m - M * E) * (E * E - m * m) - 1.5 * M * E * (m * m))
  else x * x * x * (1 - 0.5 * x)

/-- `DifferentialDecayRate` (LeptonicDecayChannel.cxx 77-83, 223-229). -/
noncomputable def differentialDecayRate (exact : Bool) (m M emax x : ℝ) : ℝ :=
  if exact then
    let E := emax * x
    emax * Real.sqrt (E * E - m * m) * (M * E * (3 * M - 4 * E) + m * m * (3 * E - 2 * M))
  else (3 - 2 * x) * x * x

/-- `emax` (LeptonicDecayChannel.cxx 103). -/
noncomputable def leptonEmax (M m : ℝ) : ℝ := (M * M + m * m) / (2 * M)

/-- The search of the energy fraction (LeptonicDecayChannel.cxx 103-110 with `FindRoot` 86-96). -/
noncomputable def leptonFraction (exact : Bool) (M m u : ℝ) : Except MathErr (Option ℝ) :=
  let emax := leptonEmax M m
  let xmin := m / emax
  let fmin := decayRate exact m M emax xmin - 0
  let fmax := decayRate exact m M emax 1 - 0
  let right := fmin + (fmax - fmin) * u
  newtonRaphson (fun x => decayRate exact m M emax x - right) (differentialDecayRate exact m M emax) xmin 1 0.5 40 1e-3

/-- The products of a leptonic decay in the rest frame for the energy fraction `x` (LeptonicDecayChannel.cxx 112-161). A
negative radicand or a vanishing `virtual_mass` gives NaN. -/
noncomputable def leptonicRest (M : ℝ) (l n1 n2 : Daughter) (parent : Part) (x : ℝ) (ul un : ℝ × ℝ) :
    Option (List Part) :=
  let El := max (x * leptonEmax M l.mass) l.mass
  let pl := Real.sqrt ((El - l.mass) * (El + l.mass))
  let lepton := product l parent (randomDirection ul) El
  let En := M - El
  let vm2 := (En - pl) * (En + pl)
  if vm2 ≤ 0 then none
  else
    let vm := Real.sqrt vm2
    let k := 0.5 * vm
    let dir := randomDirection un
    match boost (product n1 parent dir k) lepton.dir (En / vm) (pl / vm),
      boost (product n2 parent (-dir) k) lepton.dir (En / vm) (pl / vm) with
    | some q1, some q2 => some [lepton, q1, q2]
    | _, _ => none

/-- `LeptonicDecayChannelApprox::Decay` (LeptonicDecayChannel.cxx 99-170). Random numbers: `u` for the energy, `ul`
and `un` for the directions. -/
noncomputable def leptonicDecay (exact : Bool) (M : ℝ) (l n1 n2 : Daughter) (parent : Part) (u : ℝ) (ul un : ℝ × ℝ) :
    Except MathErr (Option (List Part)) :=
  match leptonFraction exact M l.mass u with
  | .error e => .error e
  | .ok none => .ok none
  | .ok (some x) =>
    match leptonicRest M l n1 n2 parent x ul un with
    | none => .ok none
    | some ps => .ok (toLab M parent ps)

/-! ## Many body decays -/

/-- The virtual masses (ManyBodyPhaseSpace.cxx 313-318) from the sorted random numbers; `Q` is the mass difference,
`acc` the sum of the masses before. -/
def virtualMasses (Q : ℝ) : (acc : ℝ) → (masses randoms : List ℝ) → List ℝ
  | acc, m :: ms, r :: rs => (acc + m + r * Q) :: virtualMasses Q (acc + m) ms rs
  | _, _, _ => []

/-- The momenta (ManyBodyPhaseSpace.cxx 324-329). -/
noncomputable def virtualMomenta : (vms masses : List ℝ) → List ℝ
  | v0 :: v1 :: vs, _ :: m1 :: ms => decayMomentum v1 v0 m1 :: virtualMomenta (v1 :: vs) (m1 :: ms)
  | _, _ => []

/-- `PhaseSpaceKinematics`. -/
structure PhaseSpace where
  vms : List ℝ
  momenta : List ℝ
  weight : ℝ

/-- `CalculateKinematics` (ManyBodyPhaseSpace.cxx 293-334) with the random numbers `us`, one for every daughter but
two. -/
noncomputable def kinematics (normalization M : ℝ) (masses us : List ℝ) : PhaseSpace :=
  let randoms := List.insertionSort (· ≤ ·) (0 :: us ++ [1])
  let vms := virtualMasses (M - masses.sum) 0 masses randoms
  let ks := virtualMomenta vms masses
  ⟨vms, ks, normalization * ks.prod⟩

/-- The loop of `GenerateEvent` (ManyBodyPhaseSpace.cxx 164-183): `done` are the products so far, then for the remaining
products their momenta, the virtual masses of the products so far and the random numbers. -/
noncomputable def growEvent : (done todo : List Part) → (ks vms : List ℝ) → (dirs : List (ℝ × ℝ)) → Option (List Part)
  | done, [], _, _, _ => some done
  | done, p :: ps, k :: ks, v :: vs, u :: us =>
    let n := randomDirection u
    if v = 0 then none
    else
      match boostAll n (Real.sqrt (k * k + v * v) / v) (k / v) done with
      | none => none
      | some done' => growEvent (done' ++ [{ p.setMomentum k with dir := n }]) ps ks vs us
  | _, _, _, _, _ => none

/-- `GenerateEvent` (ManyBodyPhaseSpace.cxx 151-184). With less than two products, momenta or directions the code
reads beyond the vectors. -/
noncomputable def generateEvent (products : List Part) (kin : PhaseSpace) (dirs : List (ℝ × ℝ)) : Option (List Part) :=
  match products, kin.momenta, kin.vms, dirs with
  | p0 :: p1 :: ps, k :: ks, _ :: vms, u :: us =>
    let n := randomDirection u
    growEvent [{ p0.setMomentum k with dir := -n }, { p1.setMomentum k with dir := n }] ps ks vms us
  | _, _, _, _ => none

/-- `CalculateNormalization` (ManyBodyPhaseSpace.cxx 223-231). -/
noncomputable def normalization (M : ℝ) (masses : List ℝ) : ℝ :=
  (M - masses.sum) ^ ((masses.length : ℤ) - 2) / Real.Gamma (masses.length - 2 + 1) *
    (2 * Real.pi) ^ ((masses.length : ℝ) - 1) / (2 * M)

/-- The product of momenta in `EstimateMaxWeight` (ManyBodyPhaseSpace.cxx 234-245): `E_min` and `E_max` at the head of
the loop, the last mass and the remaining ones. -/
noncomputable def maxWeightLoop : (eMin eMax prev : ℝ) → (masses : List ℝ) → ℝ
  | _, _, _, [] => 1
  | eMin, eMax, prev, m :: ms =>
    decayMomentum (eMax + m) (eMin + prev) m * maxWeightLoop (eMin + prev) (eMax + m) m ms

/-- `weight_max` of `EstimateMaxWeight` (ManyBodyPhaseSpace.cxx 234-249). -/
noncomputable def maxWeight (normalization M : ℝ) : (masses : List ℝ) → ℝ
  | [] => normalization
  | m :: ms => normalization * maxWeightLoop 0 (M - (m :: ms).sum + m) m ms

/-- The smallest and largest weight of `SampleEstimateMaxWeight` (ManyBodyPhaseSpace.cxx 252-291): `w` is the weight of the
first sampled event, `ws` are those of the further ones. -/
noncomputable def sampleWeights (w : ℝ) (ws : List ℝ) : ℝ × ℝ :=
  ws.foldl (fun (acc : ℝ × ℝ) r => (if r < acc.1 then r else acc.1, if r > acc.2 then r else acc.2)) (w, w)

/-- The random numbers of one round of the rejection loop. -/
structure Round where
  us : List ℝ
  dirs : List (ℝ × ℝ)
  accept : ℝ

/-- The weights of a many body channel: smallest and largest weight and the matrix element of an event. -/
structure Weights where
  wMin : ℝ
  wMax : ℝ
  element : List Part → ℝ

open Classical in
/-- The rejection loop (ManyBodyPhaseSpace.cxx 119-133), `none` if no round is accepted or an event contains a
NaN. Every round overwrites energies and directions of all products, so that it may start with the original
products. -/
noncomputable def rejectionLoop (norm M : ℝ) (products : List Part) (w : Weights) : List Round → Option (List Part)
  | [] => none
  | r :: rs =>
    let kin := kinematics norm M (products.map Part.mass) r.us
    match generateEvent products kin r.dirs with
    | none => none
    | some ev =>
      if w.wMin + r.accept * (w.wMax - w.wMin) > kin.weight * w.element ev then rejectionLoop norm M products w rs
      else some ev

/-- `ManyBodyPhaseSpace::Decay` (ManyBodyPhaseSpace.cxx 106-148); if `uniform` is not set the first round is used without
rejection. -/
noncomputable def manyBodyDecay (M : ℝ) (ds : List Daughter) (uniform : Bool) (w : Weights) (parent : Part)
    (rounds : List Round) : Option (List Part) :=
  let products := ds.map fun d => product d parent parent.dir parent.energy
  let norm := normalization M (ds.map Daughter.mass)
  let ev := if uniform then rejectionLoop norm M products w rounds
    else match rounds with
      | [] => none
      | r :: _ => generateEvent products (kinematics norm M (products.map Part.mass) r.us) r.dirs
  match ev with
  | none => none
  | some ev => toLab M parent ev

end Proposal
