import Verif.Model.Utility

/-!
# Propagator

Models `Propagator.cxx` 58-360. The physics of a sector (utility and density) is an arbitrary
record of functions, the random generator an arbitrary stream.
-/

namespace Proposal

/-- `Density_distr` as used by the propagator. `correct` is `none` when the code ends up with an
infinite distance (DensityException) or with NaN; in both cases all comparisons in
`AdvanceParticle` that follow are false. -/
structure Density where
  correct : Vec3 → Vec3 → ℝ → ℝ → Option ℝ
  calculate : Vec3 → Vec3 → ℝ → ℝ
  evaluate : Vec3 → ℝ

/-- `Sector` (Propagator.h). -/
structure Sector where
  geo : Geo
  util : Utility
  dens : Density

/-- `std::max_element` with `hierarchy(a) < hierarchy(b)`: the first maximal element. -/
def maxHierarchy : List Sector → Option Sector
  | [] => none
  | s :: l => some (l.foldl (fun best t => if best.geo.hierarchy < t.geo.hierarchy then t else best) s)

open Classical in
/-- `GetCurrentSector` (Propagator.cxx 337-360; the same selection in Secondaries.cxx 345-366).
`none`: no sector contains the point. Propagator.cxx then dereferences the end iterator
(undefined behaviour), Secondaries.cxx throws. -/
noncomputable def currentSector (sectors : List Sector) (p d : Vec3) : Option Sector :=
  maxHierarchy (sectors.filter (fun s => decide (s.geo.isInside p d)))

/-- `CalculateDistanceToBorder` (Propagator.cxx 305-321). -/
noncomputable def distanceToBorder (sectors : List Sector) (p d : Vec3) (g : Geo) : ℝ :=
  sectors.foldl (fun acc s =>
    if s.geo.hierarchy > g.hierarchy then
      (if (s.geo.dist p d).1 ≥ 0 then min acc (s.geo.dist p d).1 else acc)
    else acc) (g.dist p d).1

/-- `enum Type` (Propagator.h). -/
inductive NextType
  | decay | minimalE | stochastic
  deriving DecidableEq

/-- `maximize` on the array (decay, minimalE, stochastic) (Propagator.cxx 323-328): the first
maximal element. -/
noncomputable def maximize (eDecay eMin eStoch : ℝ) : NextType :=
  let best : NextType × ℝ := (.decay, eDecay)
  let best := if best.2 < eMin then (.minimalE, eMin) else best
  let best := if best.2 < eStoch then (.stochastic, eStoch) else best
  best.1

/-- `enum AdvancementType` (Propagator.h) without `InvalidStep`. -/
inductive AdvType
  | interaction | maxDistance | border
  deriving DecidableEq

/-- Abnormal ends. -/
inductive Fault
  | logicError   -- the exception of Propagator.cxx 226-229
  | noSector     -- undefined behaviour of Propagator.cxx 359
  deriving DecidableEq

/-- Fixed data of one call of `AdvanceParticle`. -/
structure StepEnv where
  sectors : List Sector
  ω : ℕ → ℝ
  state : PState
  eNext : ℝ
  finalDistance : ℝ

/-- `max_distance` (Propagator.cxx 166). -/
noncomputable def StepEnv.maxDist (e : StepEnv) : ℝ := e.finalDistance - e.state.distance

/-- Variables at the head of the do-while loop (Propagator.cxx 190). -/
structure Trial where
  energy : ℝ
  distance : ℝ
  gNext : ℝ
  sector : Sector
  memo : Memo
  numSteps : ℕ
  backscatter : Bool

/-- Variables after the loop (Propagator.cxx 291). -/
structure Finished where
  type : AdvType
  energy : ℝ
  grammage : ℝ
  distance : ℝ
  mean : Vec3
  new : Vec3
  sector : Sector
  memo : Memo
  numSteps : ℕ

/-- Result of one loop iteration. -/
inductive TrialResult
  | again (t : Trial)
  | done (f : Finished)
  | fault (f : Fault)

/-- A step proposal: energy, grammage, distance (`none` = infinite or NaN), random numbers. -/
structure Proposed where
  energy : ℝ
  grammage : ℝ
  distance : Option ℝ
  memo : Memo

open Classical in
/-- First half of an iteration (Propagator.cxx 192-230); `none` is the `std::logic_error`. -/
noncomputable def propose (e : StepEnv) (t : Trial) : Option Proposed :=
  let u := t.sector.util
  let ρ := t.sector.dens
  if t.energy ≠ -1 ∧ t.distance = -1 then
    let g := u.lengthContinuous e.state.energy t.energy
    some ⟨t.energy, g, ρ.correct e.state.position e.state.direction g e.maxDist, t.memo⟩
  else if t.energy = -1 ∧ t.distance ≠ -1 then
    let gs := ρ.calculate e.state.position e.state.direction t.distance
    if gs < t.gNext then
      some ⟨u.energyDistance e.state.energy gs, gs, some t.distance, t.memo⟩
    else
      some ⟨e.eNext, t.gNext,
        ρ.correct e.state.position e.state.direction t.gNext e.maxDist, t.memo.redraw e.ω⟩
  else none

/-- `distance <= x`, false for an infinite or NaN distance. -/
def leDist (d : Option ℝ) (x : ℝ) : Prop := ∃ y, d = some y ∧ y ≤ x

/-- `PropagationSettings::ADVANCE_PARTICLE_MAX_STEPS` (Constants.cxx 38). -/
def MAX_STEPS : ℕ := 200

open Classical in
/-- Second half of an iteration (Propagator.cxx 232-290): scattering proposal and the decision. -/
noncomputable def decideStep (e : StepEnv) (t : Trial) (p : Proposed) : TrialResult :=
  let u := t.sector.util
  let sc := u.directionsScatter e.ω p.memo p.grammage e.state.energy p.energy e.state.direction
  let mean := sc.1
  let new := sc.2.1
  let memo := sc.2.2
  let dtb := distanceToBorder e.sectors e.state.position mean t.sector.geo
  let inside := t.sector.geo.isInside e.state.position mean
  let n := t.numSteps + 1
  if n > MAX_STEPS then
    let g := t.sector.dens.calculate e.state.position e.state.direction dtb
    .done ⟨.border, u.energyDistance e.state.energy g, g, dtb, mean, new, t.sector, memo, n⟩
  else if ¬ inside then
    match currentSector e.sectors e.state.position mean with
    | none => .fault .noSector
    | some s =>
      .again ⟨e.eNext, -1, s.util.lengthContinuous e.state.energy e.eNext, s,
        (if t.backscatter then memo.redraw e.ω else memo), n, true⟩
  else if leDist p.distance dtb ∧ leDist p.distance e.maxDist ∧ p.energy = e.eNext then
    .done ⟨.interaction, p.energy, p.grammage, p.distance.getD 0, mean, new, t.sector, memo, n⟩
  else if leDist p.distance dtb ∧ p.distance = some e.maxDist then
    .done ⟨.maxDistance, p.energy, p.grammage, p.distance.getD 0, mean, new, t.sector, memo, n⟩
  else if ∃ d, p.distance = some d ∧ |d - dtb| ≤ PARTICLE_POSITION_RESOLUTION then
    .done ⟨.border, p.energy, p.grammage, dtb, mean, new, t.sector, memo, n⟩
  else
    .again ⟨-1, min dtb e.maxDist, t.gNext, t.sector, memo, n, t.backscatter⟩

/-- One iteration (Propagator.cxx 190-290). -/
noncomputable def trial (e : StepEnv) (t : Trial) : TrialResult :=
  match propose e t with
  | none => .fault .logicError
  | some p => decideStep e t p

/-- The do-while loop with a bound on the number of iterations; `none`: not finished. -/
noncomputable def loop (e : StepEnv) : ℕ → Trial → Option (Except Fault Finished)
  | 0, _ => none
  | k + 1, t =>
    match trial e t with
    | .again t' => loop e k t'
    | .done f => some (.ok f)
    | .fault f => some (.error f)

/-- Initial loop variables (Propagator.cxx 161-188). -/
noncomputable def Trial.init (e : StepEnv) (s : Sector) (pos : ℕ) : Trial :=
  ⟨e.eNext, -1, s.util.lengthContinuous e.state.energy e.eNext, s, Memo.init pos, 0, false⟩

/-- Result of `AdvanceParticle`: the type, the new state, the (possibly switched) sector and the
position in the random stream. -/
structure Advanced where
  type : AdvType
  state : PState
  sector : Sector
  pos : ℕ

open Classical in
/-- Update of the state after the loop (Propagator.cxx 293-302). -/
noncomputable def finish (e : StepEnv) (minStep : Bool) (minEnergy : ℝ) (f : Finished) : Advanced :=
  let u := f.sector.util
  let r := if minStep = true ∧ f.type = .interaction then (f.energy, f.memo)
    else u.energyRandomize e.ω f.memo e.state.energy f.energy minEnergy
  ⟨f.type,
   ⟨r.1,
    e.state.time + u.timeElapsed e.state.energy f.energy f.grammage
      (f.sector.dens.evaluate e.state.position),
    e.state.position + f.distance • f.mean, f.new, e.state.distance + f.distance⟩,
   f.sector, r.2.pos⟩

/-- `AdvanceParticle` (Propagator.cxx 153-303) with a bound on the number of loop iterations
(`C11_step_terminates`: 201 suffices). -/
noncomputable def advance (fuel : ℕ) (e : StepEnv) (s : Sector) (minStep : Bool) (minEnergy : ℝ)
    (pos : ℕ) : Option (Except Fault Advanced) :=
  (loop e fuel (Trial.init e s pos)).map (Except.map (finish e minStep minEnergy))

/-- One entry of the track: state, type, target hash (Secondaries.cxx 33-39). -/
structure Entry where
  state : PState
  type : IType
  target : ℕ

/-- Variables of `Propagate` at the head of the while loop (Propagator.cxx 75). -/
structure Prop' where
  state : PState
  sector : Sector
  track : List Entry
  pos : ℕ
  running : Bool

/-- Arguments of `Propagate`. -/
structure PropArgs where
  sectors : List Sector
  ω : ℕ → ℝ
  maxDistance : ℝ
  minEnergy : ℝ
  hierarchyCondition : ℕ

/-- `DoStochasticInteraction` (Propagator.cxx 141-151). -/
noncomputable def doStochastic (ω : ℕ → ℝ) (u : Utility) (s : PState) (pos : ℕ) :
    Loss × PState × ℕ :=
  let loss := u.stochasticLoss s.energy (ω pos)
  let d := u.directionDeflect ω (pos + 1) loss.type s.energy (s.energy * (1 - loss.v)) s.direction loss.comp
  (loss, { s with direction := d.1, energy := s.energy * (1 - loss.v) }, d.2)

/-- `InteractionEnergy[MinimalE]` (Propagator.cxx 79-80). -/
noncomputable def eMinOf (a : PropArgs) (q : Prop') : ℝ := max a.minEnergy q.sector.util.lowerLim

/-- `InteractionEnergy[Decay]` (Propagator.cxx 81-82) and the new stream position. -/
noncomputable def eDecayOf (a : PropArgs) (q : Prop') : ℝ × ℕ :=
  q.sector.util.energyDecay a.ω q.pos q.state.energy (q.sector.dens.evaluate q.state.position)

/-- `InteractionEnergy[Stochastic]` (Propagator.cxx 83-84) and the new stream position. -/
noncomputable def eStochOf (a : PropArgs) (q : Prop') : ℝ × ℕ :=
  q.sector.util.energyInteraction a.ω (eDecayOf a q).2 q.state.energy

/-- `next_interaction_type` (Propagator.cxx 86). -/
noncomputable def nextOf (a : PropArgs) (q : Prop') : NextType :=
  maximize (eDecayOf a q).1 (eMinOf a q) (eStochOf a q).1

/-- `energy_at_next_interaction` (Propagator.cxx 87-88). -/
noncomputable def eNextOf (a : PropArgs) (q : Prop') : ℝ :=
  match nextOf a q with
  | .decay => (eDecayOf a q).1
  | .minimalE => eMinOf a q
  | .stochastic => (eStochOf a q).1

/-- The arguments of the call of `AdvanceParticle` (Propagator.cxx 90-93). -/
noncomputable def envOf (a : PropArgs) (q : Prop') : StepEnv :=
  ⟨a.sectors, a.ω, q.state, eNextOf a q, a.maxDistance⟩

/-- The call of `AdvanceParticle` (Propagator.cxx 90-93). -/
noncomputable def advanceOf (a : PropArgs) (q : Prop') : Option (Except Fault Advanced) :=
  advance (MAX_STEPS + 1) (envOf a q) q.sector (decide (nextOf a q = .minimalE)) (eMinOf a q)
    (eStochOf a q).2

open Classical in
/-- Reaction to the advancement type (Propagator.cxx 104-137). -/
noncomputable def react (a : PropArgs) (q : Prop') (next : NextType) (eMin : ℝ) (r : Advanced) :
    Except Fault Prop' :=
  let track := q.track ++ [⟨r.state, .continuousEnergyLoss, 0⟩]
  match r.type with
  | .interaction =>
    match next with
    | .stochastic =>
      let l := doStochastic a.ω r.sector.util r.state r.pos
      let track' := if l.1.type ≠ .undefined then track ++ [⟨l.2.1, l.1.type, l.1.comp⟩] else track
      .ok ⟨l.2.1, r.sector, track', l.2.2, decide (¬ l.2.1.energy ≤ eMin)⟩
    | .decay => .ok ⟨r.state, r.sector, track ++ [⟨r.state, .decay, 0⟩], r.pos, false⟩
    | .minimalE => .ok ⟨r.state, r.sector, track, r.pos, false⟩
  | .border =>
    match currentSector a.sectors r.state.position r.state.direction with
    | none => .error .noSector
    | some s =>
      .ok ⟨r.state, s, track, r.pos,
        decide (¬ (r.sector.geo.hierarchy > a.hierarchyCondition ∧
          s.geo.hierarchy < a.hierarchyCondition))⟩
  | .maxDistance => .ok ⟨r.state, r.sector, track, r.pos, false⟩

/-- One iteration of the while loop of `Propagate` (Propagator.cxx 75-138). The case `none` never
occurs (`C11_step_terminates`). -/
noncomputable def propStep (a : PropArgs) (q : Prop') : Except Fault Prop' :=
  match advanceOf a q with
  | none => .error .logicError
  | some (.error f) => .error f
  | some (.ok r) => react a q (nextOf a q) (eMinOf a q) r

/-- State before the while loop (Propagator.cxx 61-73). -/
noncomputable def propInit (a : PropArgs) (init : PState) (pos : ℕ) : Except Fault Prop' :=
  match currentSector a.sectors init.position init.direction with
  | none => .error .noSector
  | some s => .ok ⟨init, s, [⟨init, .continuousEnergyLoss, 0⟩], pos, true⟩

/-- The situations of the while loop after any number of iterations. The returned track of a
terminating `Propagate` is the track of a reachable situation with `running = false`. -/
inductive Reachable (a : PropArgs) (init : PState) (pos : ℕ) : Prop' → Prop
  | start (q) : propInit a init pos = .ok q → Reachable a init pos q
  | step (q q') : Reachable a init pos q → q.running = true → propStep a q = .ok q' →
      Reachable a init pos q'

end Proposal
