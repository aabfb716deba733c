import Verif.Props.Replay
import Verif.Props.Sector
import Verif.Props.Sphere

/-!
# C154: which sectors matter to a propagation

The order of the list, the numbers used as hierarchies and sectors behind others.
-/

namespace Proposal

/-- The sector with its hierarchy renumbered. -/
def Spec.renumber (f : ℕ → ℕ) (s : Sector) : Sector := ⟨⟨f s.geo.hierarchy, s.geo.center, s.geo.dist⟩, s.util, s.dens⟩

/-- The situation with the hierarchy of its sector renumbered. -/
def Spec.renumbered (f : ℕ → ℕ) (q : Prop') : Prop' := ⟨q.state, renumber f q.sector, q.track, q.pos, q.running⟩

/-- Directions stay in a set: multiple scattering and deflections of these sectors lead from it to it. -/
structure Spec.Keeps (V : Set Vec3) (s : Sector) : Prop where
  scatter : ∀ ω m g E e, ∀ d ∈ V, (s.util.directionsScatter ω m g E e d).1 ∈ V ∧ (s.util.directionsScatter ω m g E e d).2.1 ∈ V
  deflect : ∀ ω pos type E e c, ∀ d ∈ V, (s.util.directionDeflect ω pos type E e d c).1 ∈ V

namespace World
open Spec

/-- Sectors that can be the current one in a region. -/
def Live (R V : Set Vec3) (L : List Sector) (s : Sector) : Prop := ∃ p ∈ R, ∃ d ∈ V, currentSector L p d = some s

/-- Two lists of sectors that look the same from a region, up to the numbers of the hierarchies. -/
structure Same (R V : Set Vec3) (f : ℕ → ℕ) (L L' : List Sector) (c c' : ℕ) : Prop where
  keeps : ∀ s ∈ L, Keeps V s
  sector : ∀ p ∈ R, ∀ d ∈ V, currentSector L' p d = (currentSector L p d).map (renumber f)
  border : ∀ p ∈ R, ∀ d ∈ V, ∀ s, Live R V L s → distanceToBorder L' p d (renumber f s).geo = distanceToBorder L p d s.geo
  above : ∀ s, Live R V L s → (c' < f s.geo.hierarchy ↔ c < s.geo.hierarchy)
  below : ∀ s, Live R V L s → (f s.geo.hierarchy < c' ↔ s.geo.hierarchy < c)

variable {R V : Set Vec3} {f : ℕ → ℕ} {L L' : List Sector} {c c' : ℕ}

/-- The call in the other world. -/
def env (L' : List Sector) (e : StepEnv) : StepEnv := ⟨L', e.ω, e.state, e.eNext, e.finalDistance⟩

def trial' (f : ℕ → ℕ) (t : Trial) : Trial := ⟨t.energy, t.distance, t.gNext, renumber f t.sector, t.memo, t.numSteps, t.backscatter⟩

def finished (f : ℕ → ℕ) (r : Finished) : Finished :=
  ⟨r.type, r.energy, r.grammage, r.distance, r.mean, r.new, renumber f r.sector, r.memo, r.numSteps⟩

def result (f : ℕ → ℕ) : TrialResult → TrialResult
  | .again t => .again (trial' f t)
  | .done r => .done (finished f r)
  | .fault x => .fault x

open Classical in
/-- The decision as a function of the distance to the border and of the sector found in the scattered direction. -/
noncomputable def core (e : StepEnv) (t : Trial) (p : Proposed) (sc : Vec3 × Vec3 × Memo) (dtb : ℝ) (cs : Option Sector) : TrialResult :=
  let u := t.sector.util
  let mean := sc.1
  let new := sc.2.1
  let memo := sc.2.2
  let inside := t.sector.geo.isInside e.state.position mean
  let n := t.numSteps + 1
  if n > MAX_STEPS then
    let g := t.sector.dens.calculate e.state.position e.state.direction dtb
    .done ⟨.border, u.energyDistance e.state.energy g, g, dtb, mean, new, t.sector, memo, n⟩
  else if ¬ inside then
    match cs with
    | none => .fault .noSector
    | some s =>
      .again ⟨e.eNext, -1, s.util.lengthContinuous e.state.energy e.eNext, s, (if t.backscatter then memo.redraw e.ω else memo), n, true⟩
  else if leDist p.distance dtb ∧ leDist p.distance e.maxDist ∧ p.energy = e.eNext then
    .done ⟨.interaction, p.energy, p.grammage, p.distance.getD 0, mean, new, t.sector, memo, n⟩
  else if leDist p.distance dtb ∧ p.distance = some e.maxDist then
    .done ⟨.maxDistance, p.energy, p.grammage, p.distance.getD 0, mean, new, t.sector, memo, n⟩
  else if ∃ d, p.distance = some d ∧ |d - dtb| ≤ PARTICLE_POSITION_RESOLUTION then
    .done ⟨.border, p.energy, p.grammage, dtb, mean, new, t.sector, memo, n⟩
  else
    .again ⟨-1, min dtb e.maxDist, t.gNext, t.sector, memo, n, t.backscatter⟩

theorem decide_core (e : StepEnv) (t : Trial) (p : Proposed) (sc : Vec3 × Vec3 × Memo)
    (hsc : t.sector.util.directionsScatter e.ω p.memo p.grammage e.state.energy p.energy e.state.direction = sc) :
    decideStep e t p = core e t p sc (distanceToBorder e.sectors e.state.position sc.1 t.sector.geo)
      (currentSector e.sectors e.state.position sc.1) := by
  subst hsc
  rfl

theorem core_map (e : StepEnv) (t : Trial) (p : Proposed) (sc : Vec3 × Vec3 × Memo) (dtb : ℝ) (cs : Option Sector) :
    core (env L' e) (trial' f t) p sc dtb (cs.map (renumber f)) = result f (core e t p sc dtb cs) := by
  unfold core
  simp only []
  by_cases c1 : t.numSteps + 1 > MAX_STEPS
  · have c1' : (trial' f t).numSteps + 1 > MAX_STEPS := c1
    rw [if_pos c1, if_pos c1']
    rfl
  have c1' : ¬ (trial' f t).numSteps + 1 > MAX_STEPS := c1
  rw [if_neg c1, if_neg c1']
  by_cases c2 : t.sector.geo.isInside e.state.position sc.1
  swap
  · have c2' : ¬ (trial' f t).sector.geo.isInside (env L' e).state.position sc.1 := c2
    rw [if_pos c2, if_pos c2']
    cases cs <;> rfl
  have c2' : ¬¬ (trial' f t).sector.geo.isInside (env L' e).state.position sc.1 := not_not.mpr c2
  rw [if_neg (not_not.mpr c2), if_neg c2']
  by_cases c3 : leDist p.distance dtb ∧ leDist p.distance e.maxDist ∧ p.energy = e.eNext
  · have c3' : leDist p.distance dtb ∧ leDist p.distance (env L' e).maxDist ∧ p.energy = (env L' e).eNext := c3
    rw [if_pos c3, if_pos c3']
    rfl
  have c3' : ¬ (leDist p.distance dtb ∧ leDist p.distance (env L' e).maxDist ∧ p.energy = (env L' e).eNext) := c3
  rw [if_neg c3, if_neg c3']
  by_cases c4 : leDist p.distance dtb ∧ p.distance = some e.maxDist
  · have c4' : leDist p.distance dtb ∧ p.distance = some (env L' e).maxDist := c4
    rw [if_pos c4, if_pos c4']
    rfl
  have c4' : ¬ (leDist p.distance dtb ∧ p.distance = some (env L' e).maxDist) := c4
  rw [if_neg c4, if_neg c4']
  by_cases c5 : ∃ d, p.distance = some d ∧ |d - dtb| ≤ PARTICLE_POSITION_RESOLUTION
  · rw [if_pos c5, if_pos c5]
    rfl
  rw [if_neg c5, if_neg c5]
  rfl

theorem live_mem {s : Sector} (h : Live R V L s) : s ∈ L := by
  obtain ⟨p, _, d, _, h⟩ := h
  exact currentSector_mem h

theorem trial_map (w : Same R V f L L' c c') {e : StepEnv} (he : e.sectors = L) (hp : e.state.position ∈ R) (hd : e.state.direction ∈ V) {t : Trial}
    (ht : Live R V L t.sector) : trial (env L' e) (trial' f t) = result f (trial e t) := by
  unfold trial
  have : propose (env L' e) (trial' f t) = propose e t := rfl
  rw [this]
  cases propose e t with
  | none => rfl
  | some p =>
    simp only []
    have hm := ((w.keeps _ (live_mem ht)).scatter e.ω p.memo p.grammage e.state.energy p.energy e.state.direction hd).1
    obtain ⟨sc, hsc⟩ : ∃ sc, t.sector.util.directionsScatter e.ω p.memo p.grammage e.state.energy p.energy e.state.direction = sc := ⟨_, rfl⟩
    rw [hsc] at hm
    rw [decide_core e t p sc hsc, decide_core (env L' e) (trial' f t) p sc hsc]
    have e1 : distanceToBorder (env L' e).sectors (env L' e).state.position sc.1 (trial' f t).sector.geo =
        distanceToBorder e.sectors e.state.position sc.1 t.sector.geo := by
      rw [he]
      exact w.border _ hp _ hm _ ht
    have e2 : currentSector (env L' e).sectors (env L' e).state.position sc.1 =
        (currentSector e.sectors e.state.position sc.1).map (renumber f) := by
      rw [he]
      exact w.sector _ hp _ hm
    rw [e1, e2, core_map]

theorem again_live {e : StepEnv} (he : e.sectors = L) (hp : e.state.position ∈ R) (hd : e.state.direction ∈ V) (hk : ∀ s ∈ L, Keeps V s) {t t' : Trial}
    (ht : Live R V L t.sector) (h : trial e t = .again t') : Live R V L t'.sector := by
  unfold trial at h
  cases hpr : propose e t with
  | none => rw [hpr] at h; cases h
  | some p =>
    rw [hpr] at h
    simp only [] at h
    have hm := ((hk _ (live_mem ht)).scatter e.ω p.memo p.grammage e.state.energy p.energy e.state.direction hd).1
    obtain ⟨sc, hsc⟩ : ∃ sc, t.sector.util.directionsScatter e.ω p.memo p.grammage e.state.energy p.energy e.state.direction = sc := ⟨_, rfl⟩
    rw [hsc] at hm
    rw [decide_core e t p sc hsc] at h
    unfold core at h
    simp only [] at h
    split_ifs at h
    · rw [TrialResult.again.injEq] at h
      rw [← h]
      exact ht
    all_goals
      cases hc : currentSector e.sectors e.state.position sc.1 with
      | none => rw [hc] at h; cases h
      | some s =>
        rw [hc] at h
        rw [TrialResult.again.injEq] at h
        rw [← h]
        rw [he] at hc
        exact ⟨_, hp, _, hm, hc⟩

theorem done_live {e : StepEnv} (hd : e.state.direction ∈ V) (hk : ∀ s ∈ L, Keeps V s) {t : Trial} {r : Finished}
    (ht : Live R V L t.sector) (h : trial e t = .done r) : Live R V L r.sector ∧ r.new ∈ V := by
  unfold trial at h
  cases hpr : propose e t with
  | none => rw [hpr] at h; cases h
  | some p =>
    rw [hpr] at h
    simp only [] at h
    have hm := ((hk _ (live_mem ht)).scatter e.ω p.memo p.grammage e.state.energy p.energy e.state.direction hd).2
    obtain ⟨sc, hsc⟩ : ∃ sc, t.sector.util.directionsScatter e.ω p.memo p.grammage e.state.energy p.energy e.state.direction = sc := ⟨_, rfl⟩
    rw [hsc] at hm
    rw [decide_core e t p sc hsc] at h
    unfold core at h
    simp only [] at h
    split_ifs at h
    all_goals first
      | (rw [TrialResult.done.injEq] at h; rw [← h]; exact ⟨ht, hm⟩)
      | (cases hc : currentSector e.sectors e.state.position sc.1 <;> rw [hc] at h <;> cases h)

theorem loop_map (w : Same R V f L L' c c') {e : StepEnv} (he : e.sectors = L) (hp : e.state.position ∈ R) (hd : e.state.direction ∈ V) (n : ℕ) {t : Trial}
    (ht : Live R V L t.sector) {r : Finished} (h : loop e n t = some (.ok r)) :
    loop (env L' e) n (trial' f t) = some (.ok (finished f r)) ∧ Live R V L r.sector ∧ r.new ∈ V := by
  induction n generalizing t with
  | zero => simp [loop] at h
  | succ n ih =>
    unfold loop at h ⊢
    rw [trial_map w he hp hd ht]
    cases hr : trial e t with
    | fault x => rw [hr] at h; simp at h
    | done r' =>
      rw [hr] at h
      obtain rfl := Except.ok.inj (Option.some.inj h)
      exact ⟨rfl, done_live hd w.keeps ht hr⟩
    | again t' =>
      rw [hr] at h
      exact ih (again_live he hp hd w.keeps ht hr) h

/-- The arguments with another list of sectors and another hierarchy condition. -/
def args (L' : List Sector) (c' : ℕ) (a : PropArgs) : PropArgs := ⟨L', a.ω, a.maxDistance, a.minEnergy, c'⟩

def advanced (f : ℕ → ℕ) (r : Advanced) : Advanced := ⟨r.type, r.state, renumber f r.sector, r.pos⟩

theorem advance_map {a : PropArgs} (w : Same R V f a.sectors L' a.hierarchyCondition c') {q : Prop'} (hp : q.state.position ∈ R)
    (hd : q.state.direction ∈ V) (hq : Live R V a.sectors q.sector) {r : Advanced} (h : advanceOf a q = some (.ok r)) :
    advanceOf (args L' c' a) (renumbered f q) = some (.ok (advanced f r)) ∧ Live R V a.sectors r.sector ∧ r.state.direction ∈ V := by
  obtain ⟨r', hr, rfl⟩ := advanceOf_ok h
  have ht : Live R V a.sectors (Trial.init (envOf a q) q.sector (eStochOf a q).2).sector := hq
  obtain ⟨h1, h2, h3⟩ := loop_map w (e := envOf a q) rfl hp hd _ ht hr
  refine ⟨?_, h2, h3⟩
  unfold advanceOf advance
  have e1 : envOf (args L' c' a) (renumbered f q) = env L' (envOf a q) := rfl
  have e2 : Trial.init (env L' (envOf a q)) (renumbered f q).sector (eStochOf (args L' c' a) (renumbered f q)).2 =
      trial' f (Trial.init (envOf a q) q.sector (eStochOf a q).2) := rfl
  rw [e1, e2, h1]
  rfl

theorem step_map {a : PropArgs} (w : Same R V f a.sectors L' a.hierarchyCondition c') {q q' : Prop'} (hp : q.state.position ∈ R)
    (hp' : q'.state.position ∈ R) (hd : q.state.direction ∈ V) (hq : Live R V a.sectors q.sector) (h : propStep a q = .ok q') :
    propStep (args L' c' a) (renumbered f q) = .ok (renumbered f q') ∧ q'.state.direction ∈ V ∧ Live R V a.sectors q'.sector := by
  unfold propStep at h ⊢
  cases hr : advanceOf a q with
  | none => rw [hr] at h; cases h
  | some x =>
    cases x with
    | error x => rw [hr] at h; cases h
    | ok r =>
      rw [hr] at h
      simp only [] at h
      obtain ⟨h1, h2, h3⟩ := advance_map w hp hd hq hr
      rw [h1]
      simp only []
      have e1 : nextOf (args L' c' a) (renumbered f q) = nextOf a q := rfl
      have e2 : eMinOf (args L' c' a) (renumbered f q) = eMinOf a q := rfl
      rw [e1, e2]
      unfold react at h ⊢
      simp only [advanced] at h ⊢
      cases ht : r.type with
      | interaction =>
        rw [ht] at h
        simp only [] at h ⊢
        cases hn : nextOf a q with
        | stochastic =>
          rw [hn] at h
          obtain rfl := Except.ok.inj h
          exact ⟨rfl, (w.keeps _ (live_mem h2)).deflect _ _ _ _ _ _ _ h3, h2⟩
        | decay =>
          rw [hn] at h
          obtain rfl := Except.ok.inj h
          exact ⟨rfl, h3, h2⟩
        | minimalE =>
          rw [hn] at h
          obtain rfl := Except.ok.inj h
          exact ⟨rfl, h3, h2⟩
      | maxDistance =>
        rw [ht] at h
        obtain rfl := Except.ok.inj h
        exact ⟨rfl, h3, h2⟩
      | border =>
        rw [ht] at h
        simp only [] at h ⊢
        cases hc : currentSector a.sectors r.state.position r.state.direction with
        | none => rw [hc] at h; cases h
        | some s =>
          rw [hc] at h
          obtain rfl := Except.ok.inj h
          have e3 : currentSector (args L' c' a).sectors r.state.position r.state.direction = some (renumber f s) := by
            rw [show (args L' c' a).sectors = L' from rfl, w.sector _ hp' _ h3, hc]
            rfl
          have hs : Live R V a.sectors s := ⟨_, hp', _, h3, hc⟩
          refine ⟨?_, h3, hs⟩
          rw [e3]
          simp only [renumbered, Except.ok.injEq, Prop'.mk.injEq, true_and]
          exact decide_eq_decide.mpr <| not_congr (and_congr (w.above r.sector h2) (w.below s hs))

theorem reachable_map {a : PropArgs} (w : Same R V f a.sectors L' a.hierarchyCondition c') {init : PState} (hd : init.direction ∈ V) {pos : ℕ}
    {q : Prop'} (h : Reachable a init pos q) (hR : ∀ x ∈ q.track, x.state.position ∈ R) :
    Reachable (args L' c' a) init pos (renumbered f q) ∧ q.state.direction ∈ V ∧ Live R V a.sectors q.sector := by
  induction h with
  | start q hq =>
    unfold propInit at hq
    cases hc : currentSector a.sectors init.position init.direction with
    | none => rw [hc] at hq; cases hq
    | some s =>
      rw [hc] at hq
      obtain rfl := Except.ok.inj hq
      have hp : init.position ∈ R := hR _ (List.mem_singleton_self _)
      refine ⟨.start _ ?_, hd, _, hp, _, hd, hc⟩
      unfold propInit
      rw [show (args L' c' a).sectors = L' from rfl, w.sector _ hp _ hd, hc]
      rfl
  | step q q' hq hrun hs ih =>
    obtain ⟨h1, h2, h3⟩ := ih fun x hx => hR x (track_grows hs x hx)
    have last : ∀ {q : Prop'}, Reachable a init pos q → (∀ x ∈ q.track, x.state.position ∈ R) → q.state.position ∈ R := by
      intro q hq h
      obtain ⟨_, l, x, hl, hx, _⟩ := reachable_basic hq
      rw [← hx]
      exact h x (by rw [hl]; simp)
    obtain ⟨g1, g2, g3⟩ := step_map w (last hq fun x hx => hR x (track_grows hs x hx)) (last (.step _ _ hq hrun hs) hR) h2 h3 hs
    exact ⟨.step _ _ h1 hrun g1, g2, g3⟩

/-- The current sector is listed, contains the point, and has the highest hierarchy. -/
theorem current_max {L : List Sector} {p d : Vec3} {s : Sector} (h : currentSector L p d = some s) :
    s ∈ L ∧ s.geo.isInside p d ∧ ∀ t ∈ L, t.geo.isInside p d → t.geo.hierarchy ≤ s.geo.hierarchy := by
  obtain ⟨h1, l1, l2, rfl, h2, h3⟩ := (C08_current_sector L p d).1 s h
  refine ⟨by simp, h1, fun t ht hi => ?_⟩
  rcases List.mem_append.mp ht with ht | ht
  · exact (h2 t ht hi).le
  · rcases List.mem_cons.mp ht with rfl | ht
    · exact le_rfl
    · exact h3 t ht hi

theorem current_unique {L : List Sector} {p d : Vec3} {s : Sector} (hs : s ∈ L) (hi : s.geo.isInside p d)
    (h : ∀ t ∈ L, t.geo.isInside p d → t.geo.hierarchy ≤ s.geo.hierarchy ∧ (t.geo.hierarchy = s.geo.hierarchy → t = s)) :
    currentSector L p d = some s := by
  cases hc : currentSector L p d with
  | none => exact absurd hi ((C08_current_sector L p d).2.1 hc s hs)
  | some s' =>
    obtain ⟨h1, h2, h3⟩ := current_max hc
    obtain ⟨h4, h5⟩ := h s' h1 h2
    rw [h5 (le_antisymm h4 (h3 s hs hi))]

theorem border_congr {L L' : List Sector} {p d : Vec3} {g : Geo}
    (h : ∀ x, (∃ s ∈ L, g.hierarchy < s.geo.hierarchy ∧ 0 ≤ (s.geo.dist p d).1 ∧ x = (s.geo.dist p d).1) ↔
      ∃ s ∈ L', g.hierarchy < s.geo.hierarchy ∧ 0 ≤ (s.geo.dist p d).1 ∧ x = (s.geo.dist p d).1) :
    distanceToBorder L' p d g = distanceToBorder L p d g := by
  have h1 := C09_border_distance L p d g
  have h2 := C09_border_distance L' p d g
  have : {x | ∃ s ∈ L, g.hierarchy < s.geo.hierarchy ∧ 0 ≤ (s.geo.dist p d).1 ∧ x = (s.geo.dist p d).1} =
      {x | ∃ s ∈ L', g.hierarchy < s.geo.hierarchy ∧ 0 ≤ (s.geo.dist p d).1 ∧ x = (s.geo.dist p d).1} := Set.ext h
  rw [this] at h1
  exact h2.unique h1

theorem renumber_id (s : Sector) : renumber id s = s := rfl

theorem renumbered_id (q : Prop') : renumbered id q = q := rfl

theorem map_id (x : Option Sector) : x.map (renumber id) = x := by cases x <;> rfl

theorem keeps_all (s : Sector) : Keeps Set.univ s := ⟨fun _ _ _ _ _ _ _ => ⟨trivial, trivial⟩, fun _ _ _ _ _ _ _ _ => trivial⟩

theorem same_perm {L L' : List Sector} (h : L.Perm L') (c : ℕ)
    (hu : ∀ s ∈ L, ∀ t ∈ L, s.geo.hierarchy = t.geo.hierarchy → (∃ p d, s.geo.isInside p d ∧ t.geo.isInside p d) → s = t) :
    Same Set.univ Set.univ id L L' c c := by
  refine ⟨fun s _ => keeps_all s, fun p _ d _ => ?_, fun p _ d _ s _ => ?_, fun _ _ => Iff.rfl, fun _ _ => Iff.rfl⟩
  · rw [map_id]
    cases hc : currentSector L p d with
    | none =>
      rw [(C08_current_sector L' p d).2]
      intro s hs
      exact (C08_current_sector L p d).2.1 hc s (h.mem_iff.mpr hs)
    | some s =>
      obtain ⟨h1, h2, h3⟩ := current_max hc
      refine current_unique (h.mem_iff.mp h1) h2 fun t ht hi => ?_
      rw [← h.mem_iff] at ht
      exact ⟨h3 t ht hi, fun he => hu t ht s h1 he ⟨p, d, hi, h2⟩⟩
  · exact border_congr fun x => by simp only [h.mem_iff]

end World

open Spec in
/-- C154: the order in which the sectors are listed does not matter, unless two different sectors of the same hierarchy overlap. -/
theorem C154_order (a : PropArgs) (L' : List Sector) (h : a.sectors.Perm L')
    (hu : ∀ s ∈ a.sectors, ∀ t ∈ a.sectors, s.geo.hierarchy = t.geo.hierarchy → (∃ p d, s.geo.isInside p d ∧ t.geo.isInside p d) → s = t)
    (init : PState) (pos : ℕ) (q : Prop') :
    Reachable a init pos q ↔ Reachable ⟨L', a.ω, a.maxDistance, a.minEnergy, a.hierarchyCondition⟩ init pos q := by
  constructor
  · intro hq
    exact (World.reachable_map (World.same_perm h a.hierarchyCondition hu) trivial hq fun _ _ => trivial).1
  · intro hq
    have := World.same_perm h.symm a.hierarchyCondition
      (fun s hs t ht => hu s (h.mem_iff.mpr hs) t (h.mem_iff.mpr ht))
    exact (World.reachable_map (a := ⟨L', a.ω, a.maxDistance, a.minEnergy, a.hierarchyCondition⟩) this trivial hq fun _ _ => trivial).1

namespace World
open Spec

theorem fold_stay {l : List Sector} {s : Sector} (h : ∀ t ∈ l, t.geo.hierarchy ≤ s.geo.hierarchy) :
    l.foldl (fun best t => if best.geo.hierarchy < t.geo.hierarchy then t else best) s = s := by
  induction l with
  | nil => rfl
  | cons t l ih =>
    rw [List.foldl_cons, if_neg (not_lt.mpr (h t List.mem_cons_self))]
    exact ih fun t ht => h t (List.mem_cons_of_mem _ ht)

theorem fold_mem (l : List Sector) (s : Sector) :
    l.foldl (fun best t => if best.geo.hierarchy < t.geo.hierarchy then t else best) s ∈ s :: l := by
  induction l generalizing s with
  | nil => simp
  | cons t l ih =>
    rw [List.foldl_cons]
    split_ifs
    · exact List.mem_cons_of_mem _ (ih t)
    · rcases List.mem_cons.mp (ih s) with h | h
      · exact List.mem_cons.mpr (Or.inl h)
      · exact List.mem_cons_of_mem _ (List.mem_cons_of_mem _ h)

theorem max_first {A B : List Sector} {s : Sector} (hA : ∀ t ∈ A, t.geo.hierarchy < s.geo.hierarchy)
    (hB : ∀ t ∈ B, t.geo.hierarchy ≤ s.geo.hierarchy) : maxHierarchy (A ++ s :: B) = some s := by
  cases A with
  | nil => simp only [List.nil_append, maxHierarchy, fold_stay hB]
  | cons a A =>
    simp only [List.cons_append, maxHierarchy, List.foldl_append, List.foldl_cons]
    rw [if_pos (hA _ (fold_mem A a)), fold_stay hB]

/-- The first sector of the highest hierarchy that contains the point is the current one. -/
theorem current_first {A B : List Sector} {s : Sector} {p d : Vec3} (hs : s.geo.isInside p d)
    (hA : ∀ t ∈ A, t.geo.isInside p d → t.geo.hierarchy < s.geo.hierarchy)
    (hB : ∀ t ∈ B, t.geo.isInside p d → t.geo.hierarchy ≤ s.geo.hierarchy) : currentSector (A ++ s :: B) p d = some s := by
  unfold currentSector
  rw [List.filter_append, List.filter_cons, if_pos (by simpa using hs)]
  refine max_first (fun t ht => ?_) fun t ht => ?_
  · obtain ⟨h1, h2⟩ := List.mem_filter.mp ht
    exact hA t h1 (by simpa using h2)
  · obtain ⟨h1, h2⟩ := List.mem_filter.mp ht
    exact hB t h1 (by simpa using h2)

theorem current_behind {l₁ l₂ : List Sector} {x w : Sector} {p d : Vec3} (hw : w ∈ l₁ ++ l₂) (hh : x.geo.hierarchy < w.geo.hierarchy)
    (hi : w.geo.isInside p d) : currentSector (l₁ ++ x :: l₂) p d = currentSector (l₁ ++ l₂) p d := by
  cases hc : currentSector (l₁ ++ l₂) p d with
  | none => exact absurd hi ((C08_current_sector _ p d).2.1 hc w hw)
  | some s =>
    have hxs : x.geo.hierarchy < s.geo.hierarchy := lt_of_lt_of_le hh ((current_max hc).2.2 w hw hi)
    obtain ⟨h1, A, B, hAB, hA, hB⟩ := (C08_current_sector _ p d).1 s hc
    rcases List.append_eq_append_iff.mp hAB with ⟨C, rfl, h2⟩ | ⟨C, rfl, h2⟩
    · subst h2
      have : l₁ ++ x :: (C ++ s :: B) = (l₁ ++ x :: C) ++ s :: B := by simp
      rw [this]
      refine current_first h1 (fun t ht hi => ?_) hB
      rcases List.mem_append.mp ht with ht | ht
      · exact hA t (List.mem_append_left _ ht) hi
      · rcases List.mem_cons.mp ht with rfl | ht
        · exact hxs
        · exact hA t (List.mem_append_right _ ht) hi
    · cases C with
      | nil =>
        simp only [List.nil_append] at h2
        subst h2
        have : (A ++ []) ++ x :: (s :: B) = (A ++ [x]) ++ s :: B := by simp
        rw [this]
        refine current_first h1 (fun t ht hi => ?_) hB
        rcases List.mem_append.mp ht with ht | ht
        · exact hA t ht hi
        · obtain rfl := List.mem_singleton.mp ht
          exact hxs
      | cons s' C =>
        simp only [List.cons_append, List.cons.injEq] at h2
        obtain ⟨rfl, rfl⟩ := h2
        have : (A ++ s :: C) ++ x :: l₂ = A ++ s :: (C ++ x :: l₂) := by simp
        rw [this]
        refine current_first h1 hA fun t ht hi => ?_
        rcases List.mem_append.mp ht with ht | ht
        · exact hB t (List.mem_append_left _ ht) hi
        · rcases List.mem_cons.mp ht with rfl | ht
          · exact hxs.le
          · exact hB t (List.mem_append_right _ ht) hi

theorem same_behind {l₁ l₂ : List Sector} {x w : Sector} {R V : Set Vec3} (c : ℕ) (hk : ∀ s ∈ l₁ ++ x :: l₂, Keeps V s)
    (hw : w ∈ l₁ ++ l₂) (hh : x.geo.hierarchy < w.geo.hierarchy) (hR : ∀ p ∈ R, ∀ d ∈ V, w.geo.isInside p d) :
    Same R V id (l₁ ++ x :: l₂) (l₁ ++ l₂) c c ∧ Same R V id (l₁ ++ l₂) (l₁ ++ x :: l₂) c c := by
  have hmem : ∀ s, s ∈ l₁ ++ x :: l₂ ↔ s = x ∨ s ∈ l₁ ++ l₂ := by
    intro s
    simp only [List.mem_append, List.mem_cons]
    tauto
  have e : ∀ p ∈ R, ∀ d ∈ V, currentSector (l₁ ++ x :: l₂) p d = currentSector (l₁ ++ l₂) p d :=
    fun p hp d hd => current_behind hw hh (hR p hp d hd)
  have live : ∀ s, Live R V (l₁ ++ x :: l₂) s ↔ Live R V (l₁ ++ l₂) s := by
    intro s
    constructor
    · rintro ⟨p, hp, d, hd, h⟩
      exact ⟨p, hp, d, hd, by rw [← e p hp d hd]; exact h⟩
    · rintro ⟨p, hp, d, hd, h⟩
      exact ⟨p, hp, d, hd, by rw [e p hp d hd]; exact h⟩
  have b : ∀ p ∈ R, ∀ d ∈ V, ∀ s, Live R V (l₁ ++ l₂) s → distanceToBorder (l₁ ++ l₂) p d s.geo = distanceToBorder (l₁ ++ x :: l₂) p d s.geo := by
    rintro p hp d hd s ⟨p', hp', d', hd', hs⟩
    refine border_congr fun y => ?_
    have hxs : x.geo.hierarchy < s.geo.hierarchy := lt_of_lt_of_le hh ((current_max hs).2.2 w hw (hR p' hp' d' hd'))
    constructor
    · rintro ⟨t, ht, h1, h2⟩
      rcases (hmem t).mp ht with rfl | ht
      · omega
      · exact ⟨t, ht, h1, h2⟩
    · rintro ⟨t, ht, h1, h2⟩
      exact ⟨t, (hmem t).mpr (Or.inr ht), h1, h2⟩
  refine ⟨⟨hk, fun p hp d hd => ?_, fun p hp d hd s hs => b p hp d hd s ((live s).mp hs), fun _ _ => Iff.rfl, fun _ _ => Iff.rfl⟩,
    ⟨fun s hs => hk s ((hmem s).mpr (Or.inr hs)), fun p hp d hd => ?_, fun p hp d hd s hs => (b p hp d hd s hs).symm, fun _ _ => Iff.rfl,
      fun _ _ => Iff.rfl⟩⟩
  · rw [map_id, e p hp d hd]
  · rw [map_id, e p hp d hd]

end World

open Spec in
/-- C154: a sector does not matter in a region that is filled by a sector of higher hierarchy: as long as the track stays there, the
propagation is the same without it. `V` are the directions that occur, the unit vectors for example. -/
theorem C154_behind (l₁ l₂ : List Sector) (x w : Sector) (R V : Set Vec3) (hk : ∀ s ∈ l₁ ++ x :: l₂, Keeps V s) (hw : w ∈ l₁ ++ l₂)
    (hh : x.geo.hierarchy < w.geo.hierarchy) (hR : ∀ p ∈ R, ∀ d ∈ V, w.geo.isInside p d) (ω : ℕ → ℝ) (D Emin : ℝ) (c : ℕ) (init : PState)
    (hinit : init.direction ∈ V) (pos : ℕ) (q : Prop') (hq : ∀ y ∈ q.track, y.state.position ∈ R) :
    Reachable ⟨l₁ ++ x :: l₂, ω, D, Emin, c⟩ init pos q ↔ Reachable ⟨l₁ ++ l₂, ω, D, Emin, c⟩ init pos q := by
  obtain ⟨h1, h2⟩ := World.same_behind c hk hw hh hR
  constructor
  · intro h
    exact (World.reachable_map (a := ⟨l₁ ++ x :: l₂, ω, D, Emin, c⟩) h1 hinit h hq).1
  · intro h
    exact (World.reachable_map (a := ⟨l₁ ++ l₂, ω, D, Emin, c⟩) h2 hinit h hq).1

namespace World
open Spec

theorem fold_map {f : ℕ → ℕ} (l : List Sector) (s : Sector)
    (h : ∀ t ∈ s :: l, ∀ u ∈ s :: l, f t.geo.hierarchy < f u.geo.hierarchy ↔ t.geo.hierarchy < u.geo.hierarchy) :
    (l.map (renumber f)).foldl (fun best t => if best.geo.hierarchy < t.geo.hierarchy then t else best) (renumber f s) =
      renumber f (l.foldl (fun best t => if best.geo.hierarchy < t.geo.hierarchy then t else best) s) := by
  induction l generalizing s with
  | nil => rfl
  | cons t l ih =>
    rw [List.map_cons, List.foldl_cons, List.foldl_cons]
    have := h s (by simp) t (by simp)
    by_cases c : s.geo.hierarchy < t.geo.hierarchy
    · have c' : (renumber f s).geo.hierarchy < (renumber f t).geo.hierarchy := this.mpr c
      rw [if_pos c', if_pos c]
      exact ih t fun u hu v hv => h u (List.mem_cons_of_mem _ hu) v (List.mem_cons_of_mem _ hv)
    · have c' : ¬ (renumber f s).geo.hierarchy < (renumber f t).geo.hierarchy := fun h => c (this.mp h)
      rw [if_neg c', if_neg c]
      refine ih s fun u hu v hv => h u ?_ v ?_
      · rcases List.mem_cons.mp hu with rfl | hu
        · simp
        · exact List.mem_cons_of_mem _ (List.mem_cons_of_mem _ hu)
      · rcases List.mem_cons.mp hv with rfl | hv
        · simp
        · exact List.mem_cons_of_mem _ (List.mem_cons_of_mem _ hv)

theorem current_map {f : ℕ → ℕ} {L : List Sector}
    (h : ∀ t ∈ L, ∀ u ∈ L, f t.geo.hierarchy < f u.geo.hierarchy ↔ t.geo.hierarchy < u.geo.hierarchy) (p d : Vec3) :
    currentSector (L.map (renumber f)) p d = (currentSector L p d).map (renumber f) := by
  unfold currentSector
  rw [List.filter_map]
  have e : ((fun s : Sector => @decide (s.geo.isInside p d) (Classical.propDecidable _)) ∘ renumber f) =
      fun s : Sector => @decide (s.geo.isInside p d) (Classical.propDecidable _) := rfl
  rw [e]
  cases hl : L.filter (fun s : Sector => @decide (s.geo.isInside p d) (Classical.propDecidable _)) with
  | nil => rfl
  | cons s l =>
    simp only [List.map_cons, maxHierarchy, Option.map_some]
    rw [fold_map]
    have hm : ∀ t ∈ s :: l, t ∈ L := fun t ht => (List.mem_filter.mp (by rw [hl]; exact ht)).1
    exact fun t ht u hu => h t (hm t ht) u (hm u hu)

theorem border_map {f : ℕ → ℕ} {L : List Sector} {s : Sector} (hs : s ∈ L)
    (h : ∀ t ∈ L, ∀ u ∈ L, f t.geo.hierarchy < f u.geo.hierarchy ↔ t.geo.hierarchy < u.geo.hierarchy) (p d : Vec3) :
    distanceToBorder (L.map (renumber f)) p d (renumber f s).geo = distanceToBorder L p d s.geo := by
  unfold distanceToBorder
  rw [List.foldl_map]
  refine List.foldl_ext _ _ _ fun acc t ht => ?_
  have e := h s hs t ht
  by_cases c : s.geo.hierarchy < t.geo.hierarchy
  · have c' : (renumber f t).geo.hierarchy > (renumber f s).geo.hierarchy := e.mpr c
    rw [if_pos c', if_pos c]
    rfl
  · have c' : ¬ (renumber f t).geo.hierarchy > (renumber f s).geo.hierarchy := fun h => c (e.mp h)
    rw [if_neg c', if_neg c]

end World

open Spec in
/-- C154: only the order of the hierarchies matters, not the numbers: if the sectors and the hierarchy condition are renumbered without
changing their order, the propagation is the same. -/
theorem C154_renumber (a : PropArgs) (f : ℕ → ℕ) (c : ℕ)
    (hf : ∀ s ∈ a.sectors, ∀ t ∈ a.sectors, f s.geo.hierarchy < f t.geo.hierarchy ↔ s.geo.hierarchy < t.geo.hierarchy)
    (hc : ∀ s ∈ a.sectors, (c < f s.geo.hierarchy ↔ a.hierarchyCondition < s.geo.hierarchy) ∧
      (f s.geo.hierarchy < c ↔ s.geo.hierarchy < a.hierarchyCondition))
    (init : PState) (pos : ℕ) (q : Prop') (hq : Reachable a init pos q) :
    Reachable ⟨a.sectors.map (renumber f), a.ω, a.maxDistance, a.minEnergy, c⟩ init pos (renumbered f q) := by
  have : World.Same Set.univ Set.univ f a.sectors (a.sectors.map (renumber f)) a.hierarchyCondition c :=
    ⟨fun s _ => World.keeps_all s, fun p _ d _ => World.current_map hf p d, fun p _ d _ s hs => World.border_map (World.live_mem hs) hf p d,
      fun s hs => (hc s (World.live_mem hs)).1, fun s hs => (hc s (World.live_mem hs)).2⟩
  exact (World.reachable_map this trivial hq fun _ _ => trivial).1

namespace World

theorem step_condition {a : PropArgs} {q q' : Prop'} (h : propStep a q = .ok q') :
    ∃ b, (q'.running = true → b = true) ∧
      propStep ⟨a.sectors, a.ω, a.maxDistance, a.minEnergy, 0⟩ q = .ok ⟨q'.state, q'.sector, q'.track, q'.pos, b⟩ := by
  unfold propStep at h ⊢
  rw [show advanceOf ⟨a.sectors, a.ω, a.maxDistance, a.minEnergy, 0⟩ q = advanceOf a q from rfl]
  cases hr : advanceOf a q with
  | none => rw [hr] at h; cases h
  | some x =>
    cases x with
    | error x => rw [hr] at h; cases h
    | ok r =>
      rw [hr] at h
      simp only [] at h ⊢
      rw [show nextOf ⟨a.sectors, a.ω, a.maxDistance, a.minEnergy, 0⟩ q = nextOf a q from rfl,
        show eMinOf ⟨a.sectors, a.ω, a.maxDistance, a.minEnergy, 0⟩ q = eMinOf a q from rfl]
      unfold react at h ⊢
      simp only [] at h ⊢
      cases ht : r.type with
      | interaction =>
        rw [ht] at h
        cases hn : nextOf a q <;> rw [hn] at h <;> obtain rfl := Except.ok.inj h <;> exact ⟨_, id, rfl⟩
      | maxDistance =>
        rw [ht] at h
        obtain rfl := Except.ok.inj h
        exact ⟨_, id, rfl⟩
      | border =>
        rw [ht] at h
        simp only [] at h ⊢
        cases hc : currentSector a.sectors r.state.position r.state.direction with
        | none => rw [hc] at h; cases h
        | some s =>
          rw [hc] at h
          obtain rfl := Except.ok.inj h
          exact ⟨_, fun _ => by simp, rfl⟩

end World

/-- C154: the hierarchy condition only cuts the track short: every situation of a run with a condition is, apart from the end, a situation
of the run without one (condition 0), which goes on whenever the other one does. -/
theorem C154_condition {a : PropArgs} {init : PState} {pos : ℕ} {q : Prop'} (h : Reachable a init pos q) :
    ∃ b, (q.running = true → b = true) ∧
      Reachable ⟨a.sectors, a.ω, a.maxDistance, a.minEnergy, 0⟩ init pos ⟨q.state, q.sector, q.track, q.pos, b⟩ := by
  induction h with
  | start q hq => exact ⟨_, id, .start q hq⟩
  | step q q' _ hrun hs ih =>
    obtain ⟨b, hb, hq⟩ := ih
    obtain rfl := hb hrun
    rw [show (⟨q.state, q.sector, q.track, q.pos, true⟩ : Prop') = q by rw [← hrun]] at hq
    obtain ⟨b', hb', hs'⟩ := World.step_condition hs
    exact ⟨b', hb', .step _ _ hq hrun hs'⟩

/-! ### The hypotheses can be met -/

namespace World

/-- A sphere without scattering. -/
noncomputable def ball (radius : ℝ) (n : ℕ) : Sector := ⟨(⟨0, radius, 0⟩ : Sphere).toGeo n, Toy.util, Toy.dens⟩

theorem ball_keeps (r : ℝ) (n : ℕ) : Spec.Keeps {d | Spec.UnitVec d} (ball r n) :=
  ⟨fun _ _ _ _ _ _ hd => ⟨hd, hd⟩, fun _ _ _ _ _ _ _ hd => hd⟩

end World

/-- Two spheres inside each other can be listed in both orders. -/
example (init : PState) (q : Prop') :
    Reachable ⟨[World.ball 10 1, World.ball 100 0], fun _ => 1 / 2, 5, 1, 0⟩ init 0 q ↔
      Reachable ⟨[World.ball 100 0, World.ball 10 1], fun _ => 1 / 2, 5, 1, 0⟩ init 0 q := by
  refine C154_order ⟨[World.ball 10 1, World.ball 100 0], fun _ => 1 / 2, 5, 1, 0⟩ _ (List.Perm.swap _ _ _) ?_ init 0 q
  intro s hs t ht h _
  simp only [List.mem_cons, List.not_mem_nil, or_false] at hs ht
  rcases hs with rfl | rfl <;> rcases ht with rfl | rfl
  · rfl
  · exact absurd h (by simp [World.ball, Sphere.toGeo])
  · exact absurd h (by simp [World.ball, Sphere.toGeo])
  · rfl

/-- Inside the smaller sphere the larger one does not matter. -/
example (init : PState) (hi : Spec.UnitVec init.direction) (q : Prop') (hq : ∀ y ∈ q.track, y.state.position.mag ≤ 9) :
    Reachable ⟨[World.ball 10 1, World.ball 100 0], fun _ => 1 / 2, 5, 1, 0⟩ init 0 q ↔
      Reachable ⟨[World.ball 10 1], fun _ => 1 / 2, 5, 1, 0⟩ init 0 q := by
  refine C154_behind [World.ball 10 1] [] (World.ball 100 0) (World.ball 10 1) {p | p.mag ≤ 9} {d | Spec.UnitVec d} ?_ (by simp)
    (by simp [World.ball, Sphere.toGeo]) ?_ _ 5 1 0 init hi 0 q hq
  · intro s hs
    simp only [List.cons_append, List.nil_append, List.mem_cons, List.not_mem_nil, or_false] at hs
    rcases hs with rfl | rfl <;> exact World.ball_keeps _ _
  · intro p hp d hd
    refine (C06_sphere_inside_direction_free ⟨0, 10, 0⟩ le_rfl (by norm_num) 1 p d hd).1 (Or.inr rfl) ?_
    have : p - (0 : Vec3) = p := by ext <;> simp
    simp only [this, GEOMETRY_PRECISION]
    have : p.mag ≤ 9 := hp
    linarith

/-- Hierarchies 0 and 1 with the condition 1 act like 10 and 20 with the condition 20. -/
example (init : PState) (q : Prop') (h : Reachable ⟨[World.ball 10 1, World.ball 100 0], fun _ => 1 / 2, 5, 1, 1⟩ init 0 q) :
    Reachable ⟨[World.ball 10 20, World.ball 100 10], fun _ => 1 / 2, 5, 1, 20⟩ init 0 (Spec.renumbered (fun n => 10 * n + 10) q) := by
  refine C154_renumber ⟨[World.ball 10 1, World.ball 100 0], fun _ => 1 / 2, 5, 1, 1⟩ (fun n => 10 * n + 10) 20 ?_ ?_ init 0 q h
  · intro s _ t _
    show 10 * s.geo.hierarchy + 10 < 10 * t.geo.hierarchy + 10 ↔ _
    omega
  · intro s _
    show (20 < 10 * s.geo.hierarchy + 10 ↔ 1 < s.geo.hierarchy) ∧ (10 * s.geo.hierarchy + 10 < 20 ↔ s.geo.hierarchy < 1)
    omega

/-- Two different sectors of the same hierarchy at the same place: the first one in the list is taken, so that the order does matter. -/
theorem C154_ties (g : Geo) (p d : Vec3) (h : g.isInside p d) (u u' : Utility) (ρ ρ' : Density) :
    currentSector [⟨g, u, ρ⟩, ⟨g, u', ρ'⟩] p d = some ⟨g, u, ρ⟩ ∧ currentSector [⟨g, u', ρ'⟩, ⟨g, u, ρ⟩] p d = some ⟨g, u', ρ'⟩ := by
  constructor
  · exact World.current_first (A := []) h (by simp) (by simp)
  · exact World.current_first (A := []) h (by simp) (by simp)

end Proposal
