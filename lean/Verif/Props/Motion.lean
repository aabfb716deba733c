import Verif.Props.Step
import Verif.Props.Sector
import Verif.Lemmas.Run
import Verif.Lemmas.Vec3
import Verif.Model.Track
import Verif.Model.Density
import Verif.Model.Box
import Verif.Model.Cylinder
import Verif.Model.Assembled

/-!
# Moving the whole setup (C151)

The same setup at another place, turned, started at another time and with another distance already counted gives the same track, moved in
the same way.
-/

namespace Proposal

/-- A motion of the whole setup: it is turned, then shifted; clocks and distances start with other values. -/
structure Spec.Motion where
  turn : Vec3 → Vec3
  back : Vec3 → Vec3
  shift : Vec3
  time : ℝ
  distance : ℝ
  back_turn : ∀ a, back (turn a) = a
  turn_back : ∀ a, turn (back a) = a
  turn_add : ∀ a b, turn (a + b) = turn a + turn b
  turn_smul : ∀ (k : ℝ) a, turn (k • a) = k • turn a
  turn_dot : ∀ a b, (turn a).dot (turn b) = a.dot b

namespace Spec.Motion

/-- The new place of a point. -/
def point (M : Motion) (p : Vec3) : Vec3 := M.turn p + M.shift

/-- The old place of a point. -/
def origin (M : Motion) (p : Vec3) : Vec3 := M.back (p - M.shift)

/-- The new state. -/
def state (M : Motion) (s : PState) : PState :=
  ⟨s.energy, s.time + M.time, M.point s.position, M.turn s.direction, s.distance + M.distance⟩

/-- The geometry at its new place. -/
def geo (M : Motion) (g : Geo) : Geo := ⟨g.hierarchy, M.point g.center, fun p d => g.dist (M.origin p) (M.back d)⟩

/-- The density at its new place. -/
def density (M : Motion) (ρ : Density) : Density :=
  ⟨fun p d => ρ.correct (M.origin p) (M.back d), fun p d => ρ.calculate (M.origin p) (M.back d), fun p => ρ.evaluate (M.origin p)⟩

/-- The sector at its new place; the physics is the same. -/
def sector (M : Motion) (s : Sector) : Sector := ⟨M.geo s.geo, s.util, M.density s.dens⟩

/-- The entry of a track. -/
def entry (M : Motion) (x : Entry) : Entry := ⟨M.state x.state, x.type, x.target⟩

/-- The arguments of a propagation. -/
def arguments (M : Motion) (a : PropArgs) : PropArgs :=
  ⟨a.sectors.map M.sector, a.ω, a.maxDistance + M.distance, a.minEnergy, a.hierarchyCondition⟩

/-- A situation between two steps. -/
def situation (M : Motion) (q : Prop') : Prop' := ⟨M.state q.state, M.sector q.sector, q.track.map M.entry, q.pos, q.running⟩

/-- The changes of direction are turned too. This is so for all shifts, and for all motions if nothing is scattered. -/
def Scatters (M : Motion) (u : Utility) : Prop :=
  (∀ ω m g a b d, u.directionsScatter ω m g a b (M.turn d) =
    (M.turn (u.directionsScatter ω m g a b d).1, M.turn (u.directionsScatter ω m g a b d).2.1, (u.directionsScatter ω m g a b d).2.2)) ∧
  ∀ ω pos t a b d c, u.directionDeflect ω pos t a b (M.turn d) c =
    (M.turn (u.directionDeflect ω pos t a b d c).1, (u.directionDeflect ω pos t a b d c).2)

/-- A shift without a turn. -/
def shifted (v : Vec3) (time distance : ℝ) : Motion where
  turn := id
  back := id
  shift := v
  time := time
  distance := distance
  back_turn _ := rfl
  turn_back _ := rfl
  turn_add _ _ := rfl
  turn_smul _ _ := rfl
  turn_dot _ _ := rfl

end Spec.Motion

open Spec

variable (M : Motion)

@[ext] theorem Sector.ext' {a b : Sector} (h1 : a.geo = b.geo) (h2 : a.util = b.util) (h3 : a.dens = b.dens) : a = b := by
  cases a; cases b; simp_all

theorem Motion.back_add (a b : Vec3) : M.back (a + b) = M.back a + M.back b := by
  rw [← M.back_turn (M.back a + M.back b), M.turn_add, M.turn_back, M.turn_back]

theorem Motion.back_smul (k : ℝ) (a : Vec3) : M.back (k • a) = k • M.back a := by
  rw [← M.back_turn (k • M.back a), M.turn_smul, M.turn_back]

theorem Motion.back_dot (a b : Vec3) : (M.back a).dot (M.back b) = a.dot b := by
  rw [← M.turn_dot, M.turn_back, M.turn_back]

theorem neg_smul_one (a : Vec3) : -a = (-1 : ℝ) • a := by
  ext <;> simp

theorem Motion.turn_neg (a : Vec3) : M.turn (-a) = -M.turn a := by
  rw [neg_smul_one, M.turn_smul, ← neg_smul_one]

theorem Motion.back_neg (a : Vec3) : M.back (-a) = -M.back a := by
  rw [neg_smul_one, Motion.back_smul, ← neg_smul_one]

theorem sub_add_neg (a b : Vec3) : a - b = a + -b := by
  ext <;> simp [sub_eq_add_neg]

theorem Motion.turn_sub (a b : Vec3) : M.turn (a - b) = M.turn a - M.turn b := by
  rw [sub_add_neg, M.turn_add, Motion.turn_neg, ← sub_add_neg]

theorem Motion.back_sub (a b : Vec3) : M.back (a - b) = M.back a - M.back b := by
  rw [sub_add_neg, Motion.back_add, Motion.back_neg, ← sub_add_neg]

theorem add_sub_cancel_vec (a b : Vec3) : a + b - b = a := by
  ext <;> simp

theorem Motion.origin_point (p : Vec3) : M.origin (M.point p) = p := by
  unfold Motion.origin Motion.point
  rw [add_sub_cancel_vec, M.back_turn]

theorem Motion.geo_dist (g : Geo) (p d : Vec3) : (M.geo g).dist (M.point p) (M.turn d) = g.dist p d := by
  unfold Motion.geo
  simp only [Motion.origin_point, M.back_turn]

theorem Motion.geo_inside (g : Geo) (p d : Vec3) : (M.geo g).isInside (M.point p) (M.turn d) = g.isInside p d := by
  unfold Geo.isInside
  rw [Motion.geo_dist]

theorem Motion.density_correct (ρ : Density) (p d : Vec3) : (M.density ρ).correct (M.point p) (M.turn d) = ρ.correct p d := by
  unfold Motion.density
  simp only [Motion.origin_point, M.back_turn]

theorem Motion.density_calculate (ρ : Density) (p d : Vec3) : (M.density ρ).calculate (M.point p) (M.turn d) = ρ.calculate p d := by
  unfold Motion.density
  simp only [Motion.origin_point, M.back_turn]

theorem Motion.density_evaluate (ρ : Density) (p : Vec3) : (M.density ρ).evaluate (M.point p) = ρ.evaluate p := by
  unfold Motion.density
  simp only [Motion.origin_point]

theorem maxHierarchy_moved (l : List Sector) : maxHierarchy (l.map M.sector) = (maxHierarchy l).map M.sector := by
  cases l with
  | nil => rfl
  | cons s l =>
    simp only [List.map_cons, maxHierarchy, Option.map_some]
    congr 1
    induction l generalizing s with
    | nil => rfl
    | cons t l ih =>
      simp only [List.map_cons, List.foldl_cons]
      rw [show (if (M.sector s).geo.hierarchy < (M.sector t).geo.hierarchy then M.sector t else M.sector s)
          = M.sector (if s.geo.hierarchy < t.geo.hierarchy then t else s) from (apply_ite M.sector _ _ _).symm]
      exact ih _

theorem currentSector_moved (l : List Sector) (p d : Vec3) :
    currentSector (l.map M.sector) (M.point p) (M.turn d) = (currentSector l p d).map M.sector := by
  unfold currentSector
  rw [← maxHierarchy_moved, List.filter_map]
  congr 2
  refine List.filter_congr fun s _ => ?_
  exact decide_eq_decide.mpr (Motion.geo_inside M s.geo p d ▸ Iff.rfl)

theorem distanceToBorder_moved (l : List Sector) (p d : Vec3) (g : Geo) :
    distanceToBorder (l.map M.sector) (M.point p) (M.turn d) (M.geo g) = distanceToBorder l p d g := by
  unfold distanceToBorder
  rw [List.foldl_map, Motion.geo_dist]
  simp only [Motion.sector, Motion.geo_dist]
  rfl

/-- The data of a step. -/
def Motion.env (e : StepEnv) : StepEnv :=
  ⟨e.sectors.map M.sector, e.ω, M.state e.state, e.eNext, e.finalDistance + M.distance⟩

/-- The variables of the loop. -/
def Motion.trial (t : Trial) : Trial := { t with sector := M.sector t.sector }

/-- The variables after the loop. -/
def Motion.finished (f : Finished) : Finished :=
  { f with mean := M.turn f.mean, new := M.turn f.new, sector := M.sector f.sector }

/-- The result of an iteration. -/
def Motion.result : TrialResult → TrialResult
  | .again t => .again (Motion.trial M t)
  | .done f => .done (Motion.finished M f)
  | .fault f => .fault f

theorem Motion.env_maxDist (e : StepEnv) : (Motion.env M e).maxDist = e.maxDist := by
  unfold StepEnv.maxDist Motion.env Motion.state
  simp

theorem propose_moved (e : StepEnv) (t : Trial) : propose (Motion.env M e) (Motion.trial M t) = propose e t := by
  unfold propose
  simp only [Motion.env_maxDist]
  simp only [Motion.env, Motion.trial, Motion.sector, Motion.state, Motion.density_correct, Motion.density_calculate]

theorem ite_same {α : Type} {b c : Prop} {x y u v : α} {i : Decidable b} {j : Decidable c} (h₁ : b = c) (h₂ : c → x = u) (h₃ : ¬ c → y = v) :
    @ite α b i x y = @ite α c j u v := by
  subst h₁
  by_cases h : b
  · rw [if_pos h, if_pos h, h₂ h]
  · rw [if_neg h, if_neg h, h₃ h]

theorem decideStep_moved (e : StepEnv) (t : Trial) (p : Proposed) (h : M.Scatters t.sector.util) :
    decideStep (Motion.env M e) (Motion.trial M t) p = Motion.result M (decideStep e t p) := by
  obtain ⟨sc, hsc⟩ : ∃ sc, sc = t.sector.util.directionsScatter e.ω p.memo p.grammage e.state.energy p.energy e.state.direction := ⟨_, rfl⟩
  have hsc' : (Motion.trial M t).sector.util.directionsScatter (Motion.env M e).ω p.memo p.grammage (Motion.env M e).state.energy p.energy
      (Motion.env M e).state.direction = (M.turn sc.1, M.turn sc.2.1, sc.2.2) := by
    rw [hsc]; exact h.1 _ _ _ _ _ _
  obtain ⟨dtb, hd⟩ : ∃ dtb, dtb = distanceToBorder e.sectors e.state.position sc.1 t.sector.geo := ⟨_, rfl⟩
  have hd' : distanceToBorder (Motion.env M e).sectors (Motion.env M e).state.position (M.turn sc.1) (Motion.trial M t).sector.geo = dtb := by
    rw [hd]; exact distanceToBorder_moved M _ _ _ _
  have hi : (Motion.trial M t).sector.geo.isInside (Motion.env M e).state.position (M.turn sc.1)
      = t.sector.geo.isInside e.state.position sc.1 := Motion.geo_inside M _ _ _
  have hc : currentSector (Motion.env M e).sectors (Motion.env M e).state.position (M.turn sc.1)
      = (currentSector e.sectors e.state.position sc.1).map M.sector := currentSector_moved M _ _ _
  have hg : (Motion.trial M t).sector.dens.calculate (Motion.env M e).state.position (Motion.env M e).state.direction
      = t.sector.dens.calculate e.state.position e.state.direction := Motion.density_calculate M _ _ _
  unfold decideStep
  simp only [apply_ite (Motion.result M)]
  rw [← hsc]
  refine ite_same rfl (fun _ => ?_) (fun _ => ite_same ?_ (fun _ => ?_) (fun _ => ite_same ?_ (fun _ => ?_) (fun _ =>
    ite_same ?_ (fun _ => ?_) (fun _ => ite_same ?_ (fun _ => ?_) (fun _ => ?_)))))
  · rw [hsc', hd', hg, ← hd]; rfl
  · rw [hsc', hi]
  · rw [hsc', hc]
    cases currentSector e.sectors e.state.position sc.1 <;> rfl
  · rw [hsc', hd', ← hd, Motion.env_maxDist]; rfl
  · rw [hsc']; rfl
  · rw [hsc', hd', ← hd, Motion.env_maxDist]
  · rw [hsc']; rfl
  · rw [hsc', hd', ← hd]
  · rw [hsc', hd', ← hd]; rfl
  · rw [hsc', hd', ← hd, Motion.env_maxDist]; rfl

theorem trial_moved (e : StepEnv) (t : Trial) (h : M.Scatters t.sector.util) :
    trial (Motion.env M e) (Motion.trial M t) = Motion.result M (trial e t) := by
  unfold trial
  rw [propose_moved]
  cases propose e t with
  | none => rfl
  | some p => exact decideStep_moved M e t p h

theorem trial_sector {e : StepEnv} {t t' : Trial} (h : trial e t = .again t') : t'.sector = t.sector ∨ t'.sector ∈ e.sectors := by
  obtain ⟨p, _, _, _, ⟨_, hc, _⟩ | ⟨_, hc, _⟩⟩ := trial_again h
  · exact Or.inr (currentSector_mem hc)
  · exact Or.inl hc

theorem loop_moved (e : StepEnv) (he : ∀ s ∈ e.sectors, M.Scatters s.util) (k : ℕ) (t : Trial) (ht : M.Scatters t.sector.util) :
    loop (Motion.env M e) k (Motion.trial M t) = (loop e k t).map (Except.map (Motion.finished M)) := by
  induction k generalizing t with
  | zero => rfl
  | succ k ih =>
    unfold loop
    rw [trial_moved M e t ht]
    cases h : trial e t with
    | again t' =>
      simp only [Motion.result]
      refine ih t' ?_
      rcases trial_sector h with h | h
      · rw [h]; exact ht
      · exact he _ h
    | done f => rfl
    | fault f => rfl

/-- The result of a step. -/
def Motion.advanced (r : Advanced) : Advanced := ⟨r.type, M.state r.state, M.sector r.sector, r.pos⟩

theorem finish_moved (e : StepEnv) (ms : Bool) (me : ℝ) (f : Finished) :
    finish (Motion.env M e) ms me (Motion.finished M f) = Motion.advanced M (finish e ms me f) := by
  unfold finish Motion.advanced
  simp only [Motion.env, Motion.finished, Motion.sector, Motion.state, Motion.density_evaluate]
  congr 2
  · ring
  · unfold Motion.point
    rw [M.turn_add, M.turn_smul]
    ext <;> simp <;> ring
  · ring

theorem advance_moved (fuel : ℕ) (e : StepEnv) (he : ∀ s ∈ e.sectors, M.Scatters s.util) (s : Sector) (hs : M.Scatters s.util) (ms : Bool)
    (me : ℝ) (pos : ℕ) :
    advance fuel (Motion.env M e) (M.sector s) ms me pos = (advance fuel e s ms me pos).map (Except.map (Motion.advanced M)) := by
  unfold advance
  rw [show Trial.init (Motion.env M e) (M.sector s) pos = Motion.trial M (Trial.init e s pos) from rfl, loop_moved M e he _ _ hs]
  cases loop e fuel (Trial.init e s pos) with
  | none => rfl
  | some r =>
    cases r with
    | error f => rfl
    | ok f => simp only [Option.map_some, Except.map, finish_moved]

theorem eDecay_moved (a : PropArgs) (q : Prop') : eDecayOf (M.arguments a) (M.situation q) = eDecayOf a q := by
  unfold eDecayOf
  simp only [Motion.arguments, Motion.situation, Motion.sector, Motion.state, Motion.density_evaluate]

theorem eStoch_moved (a : PropArgs) (q : Prop') : eStochOf (M.arguments a) (M.situation q) = eStochOf a q := by
  unfold eStochOf
  rw [eDecay_moved]
  rfl

theorem next_moved (a : PropArgs) (q : Prop') : nextOf (M.arguments a) (M.situation q) = nextOf a q := by
  unfold nextOf
  rw [eDecay_moved, eStoch_moved]
  rfl

theorem eNext_moved (a : PropArgs) (q : Prop') : eNextOf (M.arguments a) (M.situation q) = eNextOf a q := by
  unfold eNextOf
  rw [next_moved, eDecay_moved, eStoch_moved]
  rfl

theorem react_moved (a : PropArgs) (q : Prop') (next : NextType) (eMin : ℝ) (r : Advanced) (hr : M.Scatters r.sector.util) :
    react (M.arguments a) (M.situation q) next eMin (Motion.advanced M r) = (react a q next eMin r).map M.situation := by
  unfold react
  simp only [Motion.advanced]
  cases r.type with
  | interaction =>
    cases next with
    | stochastic =>
      simp only [doStochastic, Motion.arguments, Motion.situation, Motion.sector, Motion.state, hr.2, Except.map]
      by_cases h : (r.sector.util.stochasticLoss r.state.energy (a.ω r.pos)).type = .undefined
      · simp [h, Motion.entry, Motion.state]
      · simp [h, Motion.entry, Motion.state]
    | decay => simp [Except.map, Motion.situation, Motion.entry]
    | minimalE => simp [Except.map, Motion.situation, Motion.entry]
  | border =>
    simp only [Motion.arguments, Motion.state, currentSector_moved]
    cases currentSector a.sectors r.state.position r.state.direction with
    | none => rfl
    | some s => simp [Except.map, Motion.situation, Motion.entry, Motion.state, Motion.sector, Motion.geo]
  | maxDistance => simp [Except.map, Motion.situation, Motion.entry]

theorem propInit_moved (a : PropArgs) (init : PState) (pos : ℕ) :
    propInit (M.arguments a) (M.state init) pos = (propInit a init pos).map M.situation := by
  unfold propInit
  simp only [Motion.arguments, Motion.state, currentSector_moved]
  cases currentSector a.sectors init.position init.direction <;> rfl

theorem propStep_moved (a : PropArgs) (ha : ∀ s ∈ a.sectors, M.Scatters s.util) (q : Prop') (hq : q.sector ∈ a.sectors) :
    propStep (M.arguments a) (M.situation q) = (propStep a q).map M.situation := by
  have h : advanceOf (M.arguments a) (M.situation q) = (advanceOf a q).map (Except.map (Motion.advanced M)) := by
    unfold advanceOf
    rw [next_moved, eStoch_moved, show envOf (M.arguments a) (M.situation q) = Motion.env M (envOf a q) by
      unfold envOf; rw [eNext_moved]; rfl]
    exact advance_moved M _ (envOf a q) ha q.sector (ha _ hq) _ _ _
  unfold propStep
  rw [h, next_moved]
  cases h' : advanceOf a q with
  | none => rfl
  | some r =>
    cases r with
    | error f => rfl
    | ok r => exact react_moved M a q _ _ r (ha _ (r_sector_mem hq h'))

/-- The situations of the moved setup are exactly the moved situations: same energies, losses, types and random numbers; places and
directions are moved, times and distances shifted. -/
theorem C151_track (a : PropArgs) (ha : ∀ s ∈ a.sectors, M.Scatters s.util) (init : PState) (pos : ℕ) (q' : Prop') :
    Reachable (M.arguments a) (M.state init) pos q' ↔ ∃ q, Reachable a init pos q ∧ q' = M.situation q := by
  constructor
  · intro h
    induction h with
    | start q' h =>
      rw [propInit_moved] at h
      cases h' : propInit a init pos with
      | error f => rw [h'] at h; cases h
      | ok q => rw [h'] at h; exact ⟨q, .start q h', (Except.ok.inj h).symm⟩
    | step q₁ q₂ _ hr hs ih =>
      obtain ⟨q, hq, rfl⟩ := ih
      rw [propStep_moved M a ha q (reachable_basic hq).mem] at hs
      cases h' : propStep a q with
      | error f => rw [h'] at hs; cases hs
      | ok q₃ => rw [h'] at hs; exact ⟨q₃, .step q q₃ hq hr h', (Except.ok.inj hs).symm⟩
  · rintro ⟨q, hq, rfl⟩
    induction hq with
    | start q h => exact .start _ (by rw [propInit_moved, h]; rfl)
    | step q₁ q₂ hq hr hs ih =>
      exact .step _ _ ih hr (by rw [propStep_moved M a ha q₁ (reachable_basic hq).mem, hs]; rfl)

/-- It fails where and as it failed before. -/
theorem C151_faults (a : PropArgs) (ha : ∀ s ∈ a.sectors, M.Scatters s.util) (init : PState) (pos : ℕ) (f : Fault) :
    (propInit (M.arguments a) (M.state init) pos = .error f ↔ propInit a init pos = .error f) ∧
    ∀ q, Reachable a init pos q → (propStep (M.arguments a) (M.situation q) = .error f ↔ propStep a q = .error f) := by
  constructor
  · rw [propInit_moved]
    cases propInit a init pos <;> simp [Except.map]
  · intro q hq
    rw [propStep_moved M a ha q (reachable_basic hq).mem]
    cases propStep a q <;> simp [Except.map]

/-- All physics can be shifted. -/
theorem C151_shifts (v : Vec3) (t d : ℝ) (u : Utility) : (Motion.shifted v t d).Scatters u := ⟨fun _ _ _ _ _ _ => rfl, fun _ _ _ _ _ _ _ => rfl⟩

/-- Without scattering everything can be turned. -/
theorem C151_turns (u : Utility) (hu : u.scattering = none) : M.Scatters u := by
  constructor
  · intro ω m g a b d; simp [Utility.directionsScatter, hu]
  · intro ω pos t a b d c; simp [Utility.directionDeflect, hu]

theorem Motion.turn_mag (a : Vec3) : (M.turn a).mag = a.mag := by
  have := M.turn_dot a a
  unfold Vec3.dot at this
  unfold Vec3.mag
  rw [this]

theorem Motion.origin_sub (p c : Vec3) : M.origin p - c = M.back (p - M.point c) := by
  rw [← M.back_turn (M.origin p - c), Motion.turn_sub]
  unfold Motion.origin Motion.point
  rw [M.turn_back]
  congr 1
  ext <;> simp <;> ring

theorem Motion.back_mag (a : Vec3) : (M.back a).mag = a.mag := by
  rw [← Motion.turn_mag M (M.back a), M.turn_back]

/-- A moved sphere is the sphere about the moved centre. -/
theorem C151_sphere (S : Sphere) (h : ℕ) : M.geo (S.toGeo h) = (⟨M.point S.center, S.radius, S.inner⟩ : Sphere).toGeo h := by
  unfold Motion.geo Sphere.toGeo
  congr 1
  funext p d
  unfold Sphere.distanceToBorder
  simp only [Motion.origin_sub, Motion.back_mag, Motion.back_dot]

/-- A shifted box is the box about the shifted centre. -/
theorem C151_box (v : Vec3) (t₀ d₀ : ℝ) (b : Box) (h : ℕ) :
    (Motion.shifted v t₀ d₀).geo (b.toGeo h) = (⟨b.center + v, b.x, b.y, b.z⟩ : Box).toGeo h := by
  unfold Motion.geo Box.toGeo
  congr 1
  funext p d
  have hw : ∀ c w len q e t, within (c + w) len q e t = within c len (q - w) e t := by
    intro c w len q e t
    unfold within
    congr 1 <;> apply propext <;> constructor <;> intro h <;> linarith
  have hf : ∀ c w k q e ok, faceHit (c + w + k) q e ok = faceHit (c + k) (q - w) e ok := by
    intro c w k q e ok
    unfold faceHit
    rw [show c + w + k - q = c + k - (q - w) by ring]
  have hf' : ∀ c w k q e ok, faceHit (c + w - k) q e ok = faceHit (c - k) (q - w) e ok := by
    intro c w k q e ok
    unfold faceHit
    rw [show c + w - k - q = c - k - (q - w) by ring]
  simp only [Box.distanceToBorder, Box.hits, Vec3.add_x, Vec3.add_y, Vec3.add_z, hw, hf, hf']
  rfl

/-- A motion that keeps heights moves a cylinder to the cylinder about the moved centre. -/
theorem C151_cylinder (hz : ∀ a, (M.turn a).z = a.z) (c : Cylinder) (h : ℕ) :
    M.geo (c.toGeo h) = (⟨M.point c.center, c.radius, c.inner, c.z⟩ : Cylinder).toGeo h := by
  have hbz : ∀ a, (M.back a).z = a.z := fun a => by rw [← hz (M.back a), M.turn_back]
  have hxy : ∀ a b, (M.back a).x * (M.back b).x + (M.back a).y * (M.back b).y = a.x * b.x + a.y * b.y := by
    intro a b
    have := Motion.back_dot M a b
    unfold Vec3.dot at this
    rw [hbz, hbz] at this
    linarith
  have hd : ∀ a, ((M.back a).x = 0 ∧ (M.back a).y = 0) = (a.x = 0 ∧ a.y = 0) := by
    intro a
    have := hxy a a
    apply propext
    constructor
    · rintro ⟨h1, h2⟩
      rw [h1, h2] at this
      constructor <;> nlinarith [sq_nonneg a.x, sq_nonneg a.y]
    · rintro ⟨h1, h2⟩
      rw [h1, h2] at this
      constructor <;> nlinarith [sq_nonneg (M.back a).x, sq_nonneg (M.back a).y]
  have hsq : ∀ a, (M.back a).x ^ 2 + (M.back a).y ^ 2 = a.x ^ 2 + a.y ^ 2 := fun a => by have := hxy a a; nlinarith
  have ox : ∀ p, (M.origin p).x - c.center.x = (M.back (p - M.point c.center)).x := fun p => by rw [← Motion.origin_sub]; rfl
  have oy : ∀ p, (M.origin p).y - c.center.y = (M.back (p - M.point c.center)).y := fun p => by rw [← Motion.origin_sub]; rfl
  have oz : ∀ p, (M.origin p).z = p.z - (M.point c.center).z + c.center.z := fun p => by
    have := congrArg Vec3.z (Motion.origin_sub M p c.center)
    rw [hbz] at this
    simp only [Vec3.sub_z] at this
    linarith
  unfold Motion.geo Cylinder.toGeo
  congr 1
  funext p d
  set c' : Cylinder := ⟨M.point c.center, c.radius, c.inner, c.z⟩ with hc'
  have hr : ∀ ρ, c.roots ρ (M.origin p) (M.back d) = c'.roots ρ p d := by
    intro ρ
    unfold Cylinder.roots
    simp only [ox, oy, hsq, hxy, hd]
    rfl
  have hh : c.inHeight (M.origin p) (M.back d) = c'.inHeight p d := by
    funext t
    unfold Cylinder.inHeight
    rw [oz, hbz]
    simp only [hc']
    congr 1 <;> apply propext <;> constructor <;> intro h <;> linarith
  have hax : c.axisDist (M.origin p) (M.back d) = c'.axisDist p d := by
    funext t
    unfold Cylinder.axisDist
    have e1 : (M.origin p).x + t * (M.back d).x - c.center.x = (M.back (p - M.point c.center + t • d)).x := by
      rw [Motion.back_add, Motion.back_smul, Vec3.add_x, Vec3.smul_x, ← ox]; ring
    have e2 : (M.origin p).y + t * (M.back d).y - c.center.y = (M.back (p - M.point c.center + t • d)).y := by
      rw [Motion.back_add, Motion.back_smul, Vec3.add_y, Vec3.smul_y, ← oy]; ring
    rw [e1, e2, hsq]
    congr 2 <;> simp [hc'] <;> ring
  have hcap : c.onCap (M.origin p) (M.back d) = c'.onCap p d := by
    funext t
    unfold Cylinder.onCap
    rw [hax]
  have hb : c.barrelHits (M.origin p) (M.back d) = c'.barrelHits p d := by
    unfold Cylinder.barrelHits Cylinder.barrelHit
    rw [hr, hh]
  have hch : c.capHits (M.origin p) (M.back d) = c'.capHits p d := by
    unfold Cylinder.capHits faceHit
    rw [hcap, oz, hbz]
    simp only [hc']
    rw [show c.center.z + 0.5 * c.z - (p.z - (M.point c.center).z + c.center.z) = (M.point c.center).z + 0.5 * c.z - p.z by ring,
      show c.center.z - 0.5 * c.z - (p.z - (M.point c.center).z + c.center.z) = (M.point c.center).z - 0.5 * c.z - p.z by ring]
  have hho : c.holds (M.origin p) = c'.holds p := by
    unfold Cylinder.holds
    rw [ox, oy, hsq, oz]
    simp only [hc', Vec3.sub_x, Vec3.sub_y]
    congr 2 <;> apply propext <;> constructor <;> intro h <;> linarith
  change c.distanceToBorder (M.origin p) (M.back d) = c'.distanceToBorder p d
  unfold Cylinder.distanceToBorder Cylinder.hollow Cylinder.hits
  rw [hr, hh, hho, hb, hch]

/-- The axis of a density at its new place. -/
def Spec.Motion.axis (M : Motion) : Axis → Axis
  | .cartesian fAxis fp0 => .cartesian (M.turn fAxis) (M.point fp0)
  | .radial fp0 => .radial (M.point fp0)

theorem Motion.point_sub (p c : Vec3) : M.point p - M.point c = M.turn (p - c) := by
  rw [Motion.turn_sub]
  unfold Motion.point
  ext <;> simp

theorem Motion.turn_normalize (a : Vec3) : (M.turn a).normalize = a.normalize.map M.turn := by
  unfold Vec3.normalize
  rw [Motion.turn_mag]
  split_ifs
  · rfl
  · have h : ∀ b : Vec3, (⟨b.x / a.mag, b.y / a.mag, b.z / a.mag⟩ : Vec3) = (1 / a.mag) • b := by
      intro b; ext <;> simp <;> ring
    rw [Option.map_some, h, h, M.turn_smul]

theorem Motion.axis_depth (A : Axis) (x : Vec3) : (M.axis A).depth (M.point x) = A.depth x := by
  cases A with
  | cartesian f c => simp only [Motion.axis, Axis.depth, Motion.point_sub, M.turn_dot]
  | radial c => simp only [Motion.axis, Axis.depth, Motion.point_sub, Motion.turn_mag]

theorem Motion.axis_effective (A : Axis) (x d : Vec3) : (M.axis A).effective (M.point x) (M.turn d) = A.effective x d := by
  cases A with
  | cartesian f c => simp only [Motion.axis, Axis.effective, M.turn_dot]
  | radial c =>
    simp only [Motion.axis, Axis.effective, Motion.point_sub, Motion.turn_normalize, Option.map_map]
    congr 1
    funext u
    simp only [Function.comp, ← Motion.turn_neg, M.turn_dot]

/-- An exponential density with the moved axis answers at the moved place what it answered before. -/
theorem C151_exponential (D : ExpDensity) (x d : Vec3) (l : ℝ) :
    let D' : ExpDensity := ⟨M.axis D.axis, D.sigma, D.d0, D.ρ⟩
    D'.correct (M.point x) (M.turn d) l = D.correct x d l ∧ D'.calculate (M.point x) (M.turn d) l = D.calculate x d l ∧
      D'.evaluate (M.point x) = D.evaluate x := by
  intro D'
  have h1 : D'.effective (M.point x) (M.turn d) = D.effective x d := by
    simp only [ExpDensity.effective, D', Motion.axis_effective]
  have h2 : D'.depth (M.point x) = D.depth x := by
    simp only [ExpDensity.depth, D', Motion.axis_depth]
  refine ⟨?_, ?_, ?_⟩
  · unfold ExpDensity.correct
    rw [h1, h2]
  · unfold ExpDensity.calculate ExpDensity.integrate
    rw [h1, h2]
  · unfold ExpDensity.evaluate
    rw [h2]

/-- So does a density of a polynomial or a spline. -/
theorem C151_depth (D : DepthDensity) (x d : Vec3) (l border : ℝ) :
    let D' : DepthDensity := ⟨M.axis D.axis, D.p, D.P, D.ρ⟩
    D'.correct (M.point x) (M.turn d) l border = D.correct x d l border ∧ D'.calculate (M.point x) (M.turn d) l = D.calculate x d l ∧
      D'.evaluate (M.point x) = D.evaluate x := by
  intro D'
  have he : ∀ y, D'.evaluate (M.point y) = D.evaluate y := fun y => by
    simp only [DepthDensity.evaluate, D', Motion.axis_depth]
  have hi : ∀ l, D'.integrate (M.point x) (M.turn d) l = D.integrate x d l := fun l => by
    simp only [DepthDensity.integrate, D', Motion.axis_depth, Motion.axis_effective]
  have hF : D'.helperF (M.point x) (M.turn d) l = D.helperF x d l := by
    funext k
    unfold DepthDensity.helperF
    rw [hi, hi]
  have hDF : D'.helperDF (M.point x) (M.turn d) = D.helperDF x d := by
    funext k
    unfold DepthDensity.helperDF
    rw [he, show M.point x + k • M.turn d = M.point (x + k • d) by
      unfold Motion.point; rw [M.turn_add, M.turn_smul]; ext <;> simp <;> ring, he]
  refine ⟨?_, ?_, he x⟩
  · unfold DepthDensity.correct
    rw [hi, hF, hDF]
  · unfold DepthDensity.calculate
    rw [hi, hi]

/-- A homogeneous density is the same everywhere. -/
theorem C151_homogeneous (ρ : ℝ) : M.density (homogeneousDensity ρ) = homogeneousDensity ρ := rfl

/-! ## Looking up states of the track -/

theorem Motion.state_rePropagate (s : PState) (E t : ℝ) (u : Vec3) (l : ℝ) :
    (⟨E, (M.state s).time + t, (M.state s).position + l • M.turn u, M.turn u, (M.state s).distance + l⟩ : PState)
      = M.state ⟨E, s.time + t, s.position + l • u, u, s.distance + l⟩ := by
  unfold Motion.state Motion.point
  rw [M.turn_add, M.turn_smul]
  ext <;> simp <;> ring

theorem lookupSector_moved (l : List Sector) (p d : Vec3) :
    lookupSector (l.map M.sector) (M.point p) (M.turn d) = (lookupSector l p d).map M.sector := by
  unfold lookupSector
  rw [currentSector_moved]
  cases currentSector l p d <;> rfl

theorem rePropagateEnergy_moved (l : List Sector) (s : PState) (u : Vec3) (e m : ℝ) :
    rePropagateEnergy (l.map M.sector) (M.state s) (M.turn u) e m = (rePropagateEnergy l s u e m).map M.state := by
  unfold rePropagateEnergy
  rw [show (M.state s).position = M.point s.position from rfl, lookupSector_moved]
  cases lookupSector l s.position u with
  | error f => rfl
  | ok x =>
    simp only [Except.map]
    simp only [Motion.sector, show (M.state s).direction = M.turn s.direction from rfl, show (M.state s).energy = s.energy from rfl,
      Motion.density_correct, Motion.density_evaluate]
    cases x.dens.correct s.position s.direction (x.util.lengthContinuous s.energy (s.energy - e)) m with
    | none => rfl
    | some k => exact congrArg Except.ok (Motion.state_rePropagate M s _ _ _ _)

theorem rePropagateDistance_moved (l : List Sector) (s : PState) (u : Vec3) (k : ℝ) :
    rePropagateDistance (l.map M.sector) (M.state s) (M.turn u) k = (rePropagateDistance l s u k).map M.state := by
  unfold rePropagateDistance
  rw [show (M.state s).position = M.point s.position from rfl, lookupSector_moved]
  cases lookupSector l s.position u with
  | error f => rfl
  | ok x =>
    simp only [Except.map]
    simp only [Motion.sector, show (M.state s).direction = M.turn s.direction from rfl, show (M.state s).energy = s.energy from rfl,
      Motion.density_calculate, Motion.density_evaluate]
    exact congrArg Except.ok (Motion.state_rePropagate M s _ _ _ _)

theorem Motion.entry_normalize (a b : Entry) :
    ((M.entry b).state.position - (M.entry a).state.position).normalize
      = (b.state.position - a.state.position).normalize.map M.turn := by
  rw [← Motion.turn_normalize, ← Motion.point_sub]
  rfl

theorem Motion.entry_mag (a b : Entry) :
    ((M.entry b).state.position - (M.entry a).state.position).mag = (b.state.position - a.state.position).mag := by
  rw [← Motion.turn_mag M (b.state.position - a.state.position), ← Motion.point_sub]
  rfl

/-- The state for an energy is the moved one. -/
theorem C151_energy_lookup (sectors : List Sector) (l : List Entry) (E : ℝ) :
    stateForEnergy (sectors.map M.sector) (l.map M.entry) E = (stateForEnergy sectors l E).map M.state := by
  have hf : ∀ (l : List Entry) (p : Entry),
      stateForEnergyFrom (sectors.map M.sector) E (M.entry p) (l.map M.entry) = (stateForEnergyFrom sectors E p l).map M.state := by
    intro l
    induction l with
    | nil => intro p; rfl
    | cons x l ih =>
      intro p
      simp only [List.map_cons, stateForEnergyFrom]
      rw [Motion.entry_normalize, apply_ite (Except.map M.state), apply_ite (Except.map M.state)]
      refine ite_same rfl (fun _ => ite_same rfl (fun _ => ?_) (fun _ => rfl)) (fun _ => ih x)
      cases (x.state.position - p.state.position).normalize with
      | none => rfl
      | some u =>
        simp only [Option.map_some]
        rw [show (M.entry p).state.distance - (M.entry x).state.distance = p.state.distance - x.state.distance by
          simp [Motion.entry, Motion.state]]
        exact rePropagateEnergy_moved M sectors p.state u _ _
  cases l with
  | nil => rfl
  | cons x l =>
    simp only [List.map_cons, stateForEnergy]
    rw [apply_ite (Except.map M.state)]
    exact ite_same rfl (fun _ => rfl) (fun _ => hf l x)

/-- The state for a distance is the moved one. -/
theorem C151_distance_lookup (sectors : List Sector) (l : List Entry) (D : ℝ) :
    stateForDistance (sectors.map M.sector) (l.map M.entry) (D + M.distance) = (stateForDistance sectors l D).map M.state := by
  have hf : ∀ (l : List Entry) (p : Entry),
      stateForDistanceFrom (sectors.map M.sector) (D + M.distance) (M.entry p) (l.map M.entry)
        = (stateForDistanceFrom sectors D p l).map M.state := by
    intro l
    induction l with
    | nil => intro p; rfl
    | cons x l ih =>
      intro p
      simp only [List.map_cons, stateForDistanceFrom]
      rw [Motion.entry_normalize, apply_ite (Except.map M.state)]
      refine ite_same ?_ (fun _ => ?_) (fun _ => ih x)
      · simp [Motion.entry, Motion.state]
      cases (x.state.position - p.state.position).normalize with
      | none => rfl
      | some u =>
        simp only [Option.map_some]
        rw [show D + M.distance - (M.entry p).state.distance = D - p.state.distance by simp [Motion.entry, Motion.state]]
        exact rePropagateDistance_moved M sectors p.state u _
  cases l with
  | nil => rfl
  | cons x l =>
    simp only [List.map_cons, stateForDistance]
    rw [apply_ite (Except.map M.state)]
    refine ite_same ?_ (fun _ => rfl) (fun _ => hf l x)
    simp [Motion.entry, Motion.state]

theorem Motion.geo_dist_neg (g : Geo) (p d : Vec3) : (M.geo g).dist (M.point p) (-M.turn d) = g.dist p (-d) := by
  rw [← Motion.turn_neg, Motion.geo_dist]

theorem Motion.geo_entering (g : Geo) (s : PState) :
    (M.geo g).isEntering (M.state s).position (M.state s).direction = g.isEntering s.position s.direction := by
  unfold Geo.isEntering
  simp only [Motion.state, Motion.geo_dist, Motion.geo_dist_neg]

theorem Motion.geo_leaving (g : Geo) (s : PState) :
    (M.geo g).isLeaving (M.state s).position (M.state s).direction = g.isLeaving s.position s.direction := by
  unfold Geo.isLeaving
  simp only [Motion.state, Motion.geo_dist, Motion.geo_dist_neg]

/-- The entry point is the moved one. -/
theorem C151_entry (sectors : List Sector) (g : Geo) (l : List Entry) :
    entryPoint (sectors.map M.sector) (M.geo g) (l.map M.entry) = (entryPoint sectors g l).map (Option.map M.state) := by
  have hf : ∀ (l : List Entry) (p : Entry),
      entryFrom (sectors.map M.sector) (M.geo g) (M.entry p) (l.map M.entry) = (entryFrom sectors g p l).map (Option.map M.state) := by
    intro l
    induction l with
    | nil => intro p; rfl
    | cons x l ih =>
      intro p
      simp only [List.map_cons, entryFrom]
      rw [Motion.entry_normalize, Motion.entry_mag]
      cases (x.state.position - p.state.position).normalize with
      | none => exact ih x
      | some u =>
        simp only [Option.map_some]
        rw [show (M.geo g).dist (M.entry p).state.position (M.turn u) = g.dist p.state.position u from Motion.geo_dist M _ _ _,
          apply_ite (Except.map (Option.map M.state)), apply_ite (Except.map (Option.map M.state))]
        refine ite_same rfl (fun _ => ite_same rfl (fun _ => rfl) (fun _ => ?_)) (fun _ => ih x)
        rw [show (M.entry p).state = M.state p.state from rfl, rePropagateDistance_moved]
        cases rePropagateDistance sectors p.state u _ <;> rfl
  cases l with
  | nil => rfl
  | cons x l =>
    simp only [List.map_cons, entryPoint]
    rw [apply_ite (Except.map (Option.map M.state)), apply_ite (Except.map (Option.map M.state))]
    refine ite_same ?_ (fun _ => rfl) (fun _ => ite_same ?_ (fun _ => rfl) (fun _ => hf l x))
    · exact Motion.geo_entering M g x.state
    · exact Motion.geo_inside M g _ _

/-- The exit point is the moved one. -/
theorem C151_exit (sectors : List Sector) (g : Geo) (l : List Entry) :
    exitPoint (sectors.map M.sector) (M.geo g) (l.map M.entry) = (exitPoint sectors g l).map (Option.map M.state) := by
  have hf : ∀ (l : List Entry) (p : Entry),
      exitFrom (sectors.map M.sector) (M.geo g) (M.entry p) (l.map M.entry) = (exitFrom sectors g p l).map (Option.map M.state) := by
    intro l
    induction l with
    | nil => intro p; rfl
    | cons x l ih =>
      intro p
      simp only [List.map_cons, exitFrom]
      rw [Motion.entry_normalize, Motion.entry_mag]
      cases (p.state.position - x.state.position).normalize with
      | none => exact ih x
      | some u =>
        simp only [Option.map_some]
        rw [show (M.geo g).dist (M.entry p).state.position (-M.turn u) = g.dist p.state.position (-u) from Motion.geo_dist_neg M _ _ _,
          apply_ite (Except.map (Option.map M.state)), apply_ite (Except.map (Option.map M.state))]
        refine ite_same rfl (fun _ => ite_same rfl (fun _ => rfl) (fun _ => ?_)) (fun _ => ih x)
        rw [show (M.entry x).state = M.state x.state from rfl, rePropagateDistance_moved]
        cases rePropagateDistance sectors x.state u _ <;> rfl
  unfold exitPoint
  rw [List.head?_map, ← List.map_reverse]
  cases l.head? with
  | none => rfl
  | some front =>
    cases l.reverse with
    | nil => rfl
    | cons last rest =>
      simp only [Option.map_some, List.map_cons]
      rw [apply_ite (Except.map (Option.map M.state)), apply_ite (Except.map (Option.map M.state)), hf]
      refine ite_same ?_ (fun _ => rfl) (fun _ => ite_same ?_ (fun _ => rfl) (fun _ => ?_))
      · exact Motion.geo_leaving M g last.state
      · exact Motion.geo_inside M g _ _
      · cases exitFrom sectors g last rest with
        | error f => rfl
        | ok r =>
          cases r with
          | some x => rfl
          | none =>
            by_cases h : g.isLeaving front.state.position front.state.direction
            · have h' : (M.geo g).isLeaving (M.entry front).state.position (M.entry front).state.direction :=
                (Motion.geo_leaving M g front.state).mpr h
              simp only [Except.map, Option.map_none, if_pos h, if_pos h']
              rfl
            · have h' : ¬ (M.geo g).isLeaving (M.entry front).state.position (M.entry front).state.direction :=
                fun h'' => h ((Motion.geo_leaving M g front.state).mp h'')
              simp only [Except.map, Option.map_none, if_neg h, if_neg h']

/-- The point of closest approach is the moved one. -/
theorem C151_closest (sectors : List Sector) (g : Geo) (l : List Entry) :
    closestApproachPoint (sectors.map M.sector) (M.geo g) (l.map M.entry) = (closestApproachPoint sectors g l).map M.state := by
  have hf : ∀ (l : List Entry) (p : Entry),
      closestFrom (sectors.map M.sector) (M.geo g) (M.entry p) (l.map M.entry) = (closestFrom sectors g p l).map M.state := by
    intro l
    induction l with
    | nil => intro p; rfl
    | cons x l ih =>
      intro p
      simp only [List.map_cons, closestFrom]
      rw [Motion.entry_normalize, Motion.entry_mag]
      cases (x.state.position - p.state.position).normalize with
      | none => exact ih x
      | some u =>
        simp only [Option.map_some]
        rw [show (M.geo g).closestApproach (M.entry p).state.position (M.turn u) = g.closestApproach p.state.position u by
            unfold Geo.closestApproach
            rw [show (M.geo g).center - (M.entry p).state.position = M.turn (g.center - p.state.position) from Motion.point_sub M _ _, M.turn_dot],
          apply_ite (Except.map M.state), apply_ite (Except.map M.state), apply_ite (Except.map M.state)]
        refine ite_same rfl (fun _ => rfl) (fun _ => ite_same rfl (fun _ => ite_same rfl (fun _ => rfl) (fun _ => ?_)) (fun _ => ih x))
        exact rePropagateDistance_moved M sectors p.state u _
  cases l with
  | nil => rfl
  | cons x l => exact hf l x

/-- The moved geometry is hit exactly if the geometry was. -/
theorem C151_hit (g : Geo) (l : List Entry) : hitGeometry (M.geo g) (l.map M.entry) = hitGeometry g l := by
  have hf : ∀ (l : List Entry) (p : Entry), hitFrom (M.geo g) (M.entry p) (l.map M.entry) = hitFrom g p l := by
    intro l
    induction l with
    | nil => intro p; exact Motion.geo_inside M g _ _
    | cons x l ih =>
      intro p
      simp only [List.map_cons, hitFrom]
      rw [Motion.entry_normalize]
      cases (x.state.position - p.state.position).normalize with
      | none => exact ih x
      | some u =>
        simp only [Option.map_some]
        rw [ih x]
        unfold Geo.isInside Geo.isInfront Geo.isBehind
        rw [show (M.geo g).dist (M.entry p).state.position (M.turn u) = g.dist p.state.position u from Motion.geo_dist M _ _ _,
          show (M.geo g).dist (M.entry x).state.position (M.turn u) = g.dist x.state.position u from Motion.geo_dist M _ _ _]
  cases l with
  | nil => rfl
  | cons x l => exact congrArg some (hf l x)

/-- A quarter turn about the vertical, with a shift. -/
noncomputable def Motion.quarter : Motion where
  turn a := ⟨-a.y, a.x, a.z⟩
  back a := ⟨a.y, -a.x, a.z⟩
  shift := ⟨100, 200, 300⟩
  time := 5
  distance := 7
  back_turn a := by ext <;> simp
  turn_back a := by ext <;> simp
  turn_add a b := by ext <;> simp; ring
  turn_smul k a := by ext <;> simp
  turn_dot a b := by unfold Vec3.dot; simp; ring

/-- The hypotheses of `C151_track` hold for a quarter turn of the toy world, in which a particle moves, and the height is kept as in
`C151_cylinder`. -/
example : (∀ s ∈ [Toy.sector 10], Motion.quarter.Scatters s.util) ∧ (∀ a, (Motion.quarter.turn a).z = a.z) ∧
    ∃ q, Reachable ⟨[Toy.sector 10], fun _ => 1 / 2, 100, 1, 0⟩ ⟨8, 0, ⟨0, 0, 0⟩, ⟨0, 0, 1⟩, 0⟩ 0 q := by
  refine ⟨?_, fun a => rfl, ⟨⟨8, 0, ⟨0, 0, 0⟩, ⟨0, 0, 1⟩, 0⟩, Toy.sector 10, [⟨⟨8, 0, ⟨0, 0, 0⟩, ⟨0, 0, 1⟩, 0⟩, .continuousEnergyLoss, 0⟩], 0, true⟩, ?_⟩
  · intro s hs
    rw [List.mem_singleton.mp hs]
    exact C151_turns _ _ rfl
  · refine .start _ ?_
    have : (Toy.geo 10).isInside ⟨0, 0, 0⟩ ⟨0, 0, 1⟩ := Toy.inside (by norm_num) _ _
    simp [propInit, currentSector, maxHierarchy, Toy.sector, this]

end Proposal
