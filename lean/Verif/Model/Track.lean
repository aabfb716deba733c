import Verif.Model.Propagator

/-!
# The track of a propagated particle

Models `Secondaries.cxx` 33-39, 73-122, 164-476 and the loss records of `particle/Particle.cxx`
120-142. The three vectors `track_`, `types_` and `target_hashes_` are one list of entries (they
are only ever extended together, 33-50). `assert` and logging are not modelled. Decay products
(52-71) are modelled in `Verif.Model.Decay`.

A normalised zero displacement is NaN in every component. No comparison with NaN succeeds, so every
shape reports the distances (-1,-1) for it: it is outside of everything, and a sector lookup throws.
-/

namespace Proposal

/-- `StochasticLoss` (particle/Particle.h 126-137). -/
@[ext] structure StochLoss where
  type : IType
  energy : ℝ
  position : Vec3
  direction : Vec3
  time : ℝ
  distance : ℝ
  parentEnergy : ℝ
  target : ℕ

/-- `ContinuousLoss` (particle/Particle.h 139-148). -/
@[ext] structure ContLoss where
  energy : ℝ
  parentEnergy : ℝ
  startPosition : Vec3
  endPosition : Vec3
  directionInitial : Vec3
  directionFinal : Vec3
  timeInitial : ℝ
  timeFinal : ℝ

/-- The pairs `(track_[i-1], track_[i])` for `i = 1, 2, ...`. -/
def steps (l : List Entry) : List (Entry × Entry) := l.zip l.tail

/-- The `StochasticLoss` built from two consecutive entries (Secondaries.cxx 377-381). -/
def mkStoch (p : Entry × Entry) : StochLoss :=
  ⟨p.2.type, p.1.state.energy - p.2.state.energy, p.2.state.position, p.2.state.direction,
   p.2.state.time, p.2.state.distance, p.1.state.energy, p.2.target⟩

/-- The `ContinuousLoss` built from two consecutive entries (Secondaries.cxx 446-450). -/
def mkCont (p : Entry × Entry) : ContLoss :=
  ⟨p.1.state.energy - p.2.state.energy, p.1.state.energy, p.1.state.position, p.2.state.position,
   p.1.state.direction, p.2.state.direction, p.1.state.time, p.2.state.time⟩

/-- `GetStochasticLosses()` (Secondaries.cxx 368-385). -/
def stochasticLosses (l : List Entry) : List StochLoss :=
  ((steps l).filter (fun p => p.2.type ≠ .continuousEnergyLoss ∧ p.2.type ≠ .decay)).map mkStoch

open Classical in
/-- `GetStochasticLosses(geometry)` (Secondaries.cxx 387-406). -/
noncomputable def stochasticLossesIn (g : Geo) (l : List Entry) : List StochLoss :=
  ((steps l).filter (fun p => g.isInside p.2.state.position p.2.state.direction ∧
    p.2.type ≠ .continuousEnergyLoss ∧ p.2.type ≠ .decay)).map mkStoch

/-- `GetStochasticLosses(type)` (Secondaries.cxx 408-424). -/
def stochasticLossesOf (t : IType) (l : List Entry) : List StochLoss :=
  ((steps l).filter (fun p => p.2.type = t)).map mkStoch

/-- `Type_Interaction_Name_Map` (particle/Particle.h 68-87); `none` for the missing key. -/
def IType.name : IType → Option String
  | .undefined => none
  | .particle => some "Particle"
  | .brems => some "Brems"
  | .ioniz => some "Ioniz"
  | .epair => some "Epair"
  | .photonuclear => some "Photonuclear"
  | .muPair => some "MuPair"
  | .hadrons => some "Hadrons"
  | .continuousEnergyLoss => some "ContinuousEnergyLoss"
  | .weakInt => some "WeakInt"
  | .compton => some "Compton"
  | .decay => some "Decay"
  | .annihilation => some "Annihilation"
  | .photopair => some "Photopair"
  | .photoproduction => some "Photoproduction"
  | .photoMuPair => some "PhotoMuPairProduction"
  | .photoeffect => some "Photoeffect"

/-- All interaction types. The iteration order of the `unordered_map` does not matter because the
names are pairwise different. -/
def IType.all : List IType :=
  [.undefined, .particle, .brems, .ioniz, .epair, .photonuclear, .muPair, .hadrons,
   .continuousEnergyLoss, .weakInt, .compton, .decay, .annihilation, .photopair,
   .photoproduction, .photoMuPair, .photoeffect]

/-- `GetStochasticLosses(string)` (Secondaries.cxx 426-437). `none`: the name is unknown; the code
logs and dereferences the end iterator (undefined behaviour). -/
def stochasticLossesNamed (name : String) (l : List Entry) : Option (List StochLoss) :=
  (IType.all.find? (fun t => t.name = some name)).map (fun t => stochasticLossesOf t l)

/-- `GetContinuousLosses()` (Secondaries.cxx 439-455). -/
def continuousLosses (l : List Entry) : List ContLoss :=
  ((steps l).filter (fun p => p.2.type = .continuousEnergyLoss)).map mkCont

open Classical in
/-- `GetContinuousLosses(geometry)` (Secondaries.cxx 457-476). -/
noncomputable def continuousLossesIn (g : Geo) (l : List Entry) : List ContLoss :=
  ((steps l).filter (fun p => g.isInside p.2.state.position p.2.state.direction ∧
    p.2.type = .continuousEnergyLoss)).map mkCont

open Classical in
/-- `GetTrack(geometry)` (Secondaries.cxx 73-81). -/
noncomputable def trackIn (g : Geo) (l : List Entry) : List PState :=
  (l.map Entry.state).filter (fun s => decide (g.isInside s.position s.direction))

/-! ### Lookup of states -/

/-- Abnormal ends of the lookup functions. -/
inductive LookupErr
  | emptyTrack  -- undefined behaviour: `front()` or `back()` of an empty vector
  | noSector    -- exception of Secondaries.cxx 356-358
  | density     -- the density correction throws or yields NaN
  | nullPtr     -- undefined behaviour: Secondaries.cxx 168 dereferences a null pointer
  deriving DecidableEq

/-- `GetCurrentSector` (Secondaries.cxx 345-366). -/
noncomputable def lookupSector (sectors : List Sector) (p d : Vec3) : Except LookupErr Sector :=
  match currentSector sectors p d with
  | some s => .ok s
  | none => .error .noSector

/-- `RePropagateEnergy` (Secondaries.cxx 292-319). -/
noncomputable def rePropagateEnergy (sectors : List Sector) (init : PState) (u : Vec3)
    (energyLost maxDistance : ℝ) : Except LookupErr PState :=
  match lookupSector sectors init.position u with
  | .error e => .error e
  | .ok s =>
    let g := s.util.lengthContinuous init.energy (init.energy - energyLost)
    match s.dens.correct init.position init.direction g maxDistance with
    | none => .error .density
    | some displacement =>
      .ok ⟨init.energy - energyLost,
        init.time + s.util.timeElapsed init.energy (init.energy - energyLost) displacement
          (s.dens.evaluate init.position),
        init.position + displacement • u, u, init.distance + displacement⟩

/-- `RePropagateDistance` (Secondaries.cxx 321-343). -/
noncomputable def rePropagateDistance (sectors : List Sector) (init : PState) (u : Vec3)
    (displacement : ℝ) : Except LookupErr PState :=
  match lookupSector sectors init.position u with
  | .error e => .error e
  | .ok s =>
    let g := s.dens.calculate init.position init.direction displacement
    let E := s.util.energyDistance init.energy g
    .ok ⟨E, init.time + s.util.timeElapsed init.energy E displacement (s.dens.evaluate init.position),
      init.position + displacement • u, u, init.distance + displacement⟩

/-- The loop of `GetStateForEnergy` (Secondaries.cxx 89-103) from the entry `prev` on. -/
noncomputable def stateForEnergyFrom (sectors : List Sector) (E : ℝ) :
    Entry → List Entry → Except LookupErr PState
  | prev, [] => .ok prev.state
  | prev, x :: l =>
    if x.state.energy < E then
      if x.type = .continuousEnergyLoss then
        match (x.state.position - prev.state.position).normalize with
        | none => .error .noSector
        | some u => rePropagateEnergy sectors prev.state u (prev.state.energy - E)
            (prev.state.distance - x.state.distance)
      else .ok prev.state
    else stateForEnergyFrom sectors E x l

/-- `GetStateForEnergy` (Secondaries.cxx 84-104). -/
noncomputable def stateForEnergy (sectors : List Sector) (l : List Entry) (E : ℝ) :
    Except LookupErr PState :=
  match l with
  | [] => .error .emptyTrack
  | x :: l => if E ≥ x.state.energy then .ok x.state else stateForEnergyFrom sectors E x l

/-- The loop of `GetStateForDistance` (Secondaries.cxx 111-121) from the entry `prev` on. -/
noncomputable def stateForDistanceFrom (sectors : List Sector) (D : ℝ) :
    Entry → List Entry → Except LookupErr PState
  | prev, [] => .ok prev.state
  | prev, x :: l =>
    if x.state.distance > D then
      match (x.state.position - prev.state.position).normalize with
      | none => .error .noSector
      | some u => rePropagateDistance sectors prev.state u (D - prev.state.distance)
    else stateForDistanceFrom sectors D x l

/-- `GetStateForDistance` (Secondaries.cxx 106-122). -/
noncomputable def stateForDistance (sectors : List Sector) (l : List Entry) (D : ℝ) :
    Except LookupErr PState :=
  match l with
  | [] => .error .emptyTrack
  | x :: l => if x.state.distance ≥ D then .ok x.state else stateForDistanceFrom sectors D x l

/-- The loop of `GetEntryPoint` (Secondaries.cxx 180-198) from the entry `a` on. -/
noncomputable def entryFrom (sectors : List Sector) (g : Geo) :
    Entry → List Entry → Except LookupErr (Option PState)
  | _, [] => .ok none
  | a, b :: l =>
    match (b.state.position - a.state.position).normalize with
    | none => entryFrom sectors g b l
    | some u =>
      let len := (b.state.position - a.state.position).mag
      let t := (g.dist a.state.position u).1
      if t ≤ len ∧ t ≥ 0 then
        if |len - t| < PARTICLE_POSITION_RESOLUTION then .ok (some b.state)
        else (rePropagateDistance sectors a.state u t).map some
      else entryFrom sectors g b l

open Classical in
/-- `GetEntryPoint` (Secondaries.cxx 171-200); `none` is the null pointer. -/
noncomputable def entryPoint (sectors : List Sector) (g : Geo) (l : List Entry) :
    Except LookupErr (Option PState) :=
  match l with
  | [] => .error .emptyTrack
  | x :: l =>
    if g.isEntering x.state.position x.state.direction then .ok (some x.state)
    else if g.isInside x.state.position x.state.direction then .ok none
    else entryFrom sectors g x l

/-- The loop of `GetExitPoint` (Secondaries.cxx 211-229) over the reversed track from the entry `b`
on; `none`: no exit point found in the loop. -/
noncomputable def exitFrom (sectors : List Sector) (g : Geo) :
    Entry → List Entry → Except LookupErr (Option PState)
  | _, [] => .ok none
  | b, a :: l =>
    match (b.state.position - a.state.position).normalize with
    | none => exitFrom sectors g a l
    | some u =>
      let len := (b.state.position - a.state.position).mag
      let t := (g.dist b.state.position (-u)).1
      if t ≤ len ∧ t ≥ 0 then
        if |len - t| < PARTICLE_POSITION_RESOLUTION then .ok (some a.state)
        else (rePropagateDistance sectors a.state u (len - t)).map some
      else exitFrom sectors g a l

open Classical in
/-- `GetExitPoint` (Secondaries.cxx 202-237); `none` is the null pointer. -/
noncomputable def exitPoint (sectors : List Sector) (g : Geo) (l : List Entry) :
    Except LookupErr (Option PState) :=
  match l.head?, l.reverse with
  | some front, last :: rest =>
    if g.isLeaving last.state.position last.state.direction then .ok (some last.state)
    else if g.isInside last.state.position last.state.direction then .ok none
    else
      match exitFrom sectors g last rest with
      | .ok none =>
        if g.isLeaving front.state.position front.state.direction then .ok (some front.state)
        else .ok none
      | r => r
  | _, _ => .error .emptyTrack

/-- `GetELost` (Secondaries.cxx 164-169). -/
noncomputable def eLost (sectors : List Sector) (g : Geo) (l : List Entry) : Except LookupErr ℝ :=
  match entryPoint sectors g l with
  | .error e => .error e
  | .ok i =>
    match exitPoint sectors g l with
    | .error e => .error e
    | .ok f =>
      match i, f with
      | some i, some f => .ok (i.energy - f.energy)
      | _, _ => .error .nullPtr

/-- The loop of `GetClosestApproachPoint` (Secondaries.cxx 245-265) from the entry `a` on. -/
noncomputable def closestFrom (sectors : List Sector) (g : Geo) :
    Entry → List Entry → Except LookupErr PState
  | a, [] => .ok a.state
  | a, b :: l =>
    match (b.state.position - a.state.position).normalize with
    | none => closestFrom sectors g b l
    | some u =>
      let len := (b.state.position - a.state.position).mag
      let t := g.closestApproach a.state.position u
      if |t - len| ≤ PARTICLE_POSITION_RESOLUTION then .ok b.state
      else if t < len then
        if t < PARTICLE_POSITION_RESOLUTION then .ok a.state
        else rePropagateDistance sectors a.state u t
      else closestFrom sectors g b l

/-- `GetClosestApproachPoint` (Secondaries.cxx 239-267). -/
noncomputable def closestApproachPoint (sectors : List Sector) (g : Geo) (l : List Entry) :
    Except LookupErr PState :=
  match l with
  | [] => .error .emptyTrack
  | x :: l => closestFrom sectors g x l

/-- The loop of `HitGeometry` (Secondaries.cxx 270-283) from the entry `a` on, and the final check
(285-289). -/
def hitFrom (g : Geo) : Entry → List Entry → Prop
  | a, [] => g.isInside a.state.position a.state.direction
  | a, b :: l =>
    match (b.state.position - a.state.position).normalize with
    | none => hitFrom g b l
    | some u => g.isInside a.state.position u ∨
        (g.isInfront a.state.position u ∧ g.isBehind b.state.position u) ∨ hitFrom g b l

/-- `HitGeometry` (Secondaries.cxx 269-290); `none`: undefined behaviour on an empty track. -/
def hitGeometry (g : Geo) (l : List Entry) : Option Prop :=
  match l with
  | [] => none
  | x :: l => some (hitFrom g x l)

end Proposal
