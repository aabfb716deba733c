import Verif.Lemmas.Run
import Verif.Props.Vec3
import Verif.Props.Step

/-!
# Whole propagations (C12 to C16, C18)
-/

namespace Proposal

open Spec

/-! ## C15: shape of the track -/

/-- Entry `b` may follow entry `a`: nothing follows a decay, and an entry that is not a continuous
loss follows a continuous one. -/
def Spec.MayFollow (a b : Entry) : Prop :=
  a.type ≠ .decay ∧ (b.type ≠ .continuousEnergyLoss → a.type = .continuousEnergyLoss)

/-- Why a propagation may stop: the particle decayed, or it is at or below the minimal energy of a
sector, or it is at the requested distance, or it went from a sector above the hierarchy condition
to one below it. -/
def Spec.StopReason (a : PropArgs) (q : Prop') : Prop :=
  (∃ l x, q.track = l ++ [x] ∧ x.type = .decay) ∨
  (∃ s ∈ a.sectors, q.state.energy ≤ max a.minEnergy s.util.lowerLim) ∨
  q.state.distance = a.maxDistance ∨
  (∃ s ∈ a.sectors, s.geo.hierarchy > a.hierarchyCondition ∧
    q.sector.geo.hierarchy < a.hierarchyCondition)

/-- C15: every track starts with the unmodified initial state. -/
theorem C15_track_head (a : PropArgs) (init : PState) (pos : ℕ) (q : Prop')
    (h : Reachable a init pos q) :
    ∃ l, q.track = ⟨init, .continuousEnergyLoss, 0⟩ :: l := by
  induction h with
  | start q hq =>
    obtain ⟨_, _, h3, _⟩ := propInit_ok hq
    exact ⟨[], h3⟩
  | step q q' _ _ hs ih =>
    obtain ⟨l, hl⟩ := ih
    obtain ⟨r, _, _, _, _, h | ⟨x, _, h, _⟩⟩ := step_shape hs
    · exact ⟨_, by rw [h.1, hl]; rfl⟩
    · exact ⟨_, by rw [h, hl]; rfl⟩

/-- C15: stochastic entries are preceded by continuous ones and a decay is always the last entry,
provided the loss sampling never reports a decay. -/
theorem C15_track_shape (a : PropArgs) (init : PState) (pos : ℕ) (q : Prop')
    (hloss : ∀ s ∈ a.sectors, ∀ E rnd, (s.util.sampleLoss E rnd).type ≠ .decay)
    (h : Reachable a init pos q) : List.IsChain MayFollow q.track := by
  refine (chain_induction (a := a) (init := init) (pos := pos) MayFollow
    (fun q x => q.running = true → x.type ≠ .decay) ?_ ?_ h).1
  · intro q _ _; simp
  · intro q q' l x r hreach hrun hx hI hs hr
    refine ⟨⟨hI hrun, fun h => absurd rfl h⟩, fun _ _ => (by simp), ?_⟩
    intro y hy
    refine ⟨⟨by simp, fun _ => rfl⟩, ?_⟩
    intro hrun' hdec
    have hm := r_sector_mem (reachable_basic hreach).mem hr
    obtain ⟨r', hr', _, _, _, h | ⟨x', _, h, h2⟩⟩ := step_shape hs
    · rw [hr] at hr'
      obtain rfl : r = r' := by simpa using hr'
      rw [h.1] at hy
      simp at hy
    · rw [hr] at hr'
      obtain rfl : r = r' := by simpa using hr'
      rw [h] at hy
      have hxy : x' = y := by simpa using hy
      subst hxy
      rcases h2 with ⟨_, _, hf⟩ | ⟨ht, _⟩
      · rw [hrun'] at hf; cases hf
      · rw [hdec] at ht
        exact hloss _ hm _ _ ht.symm

/-- C15: a finished propagation stopped for one of the documented reasons. -/
theorem C15_stop_reason (a : PropArgs) (init : PState) (pos : ℕ) (q : Prop')
    (h : Reachable a init pos q) (hstop : q.running = false) : StopReason a q := by
  cases h with
  | start _ hq =>
    obtain ⟨_, _, _, h4⟩ := propInit_ok hq
    rw [h4] at hstop; cases hstop
  | step q0 _ hreach _ hs =>
    obtain ⟨r, hr, hq⟩ := propStep_ok hs
    have hm := (reachable_basic hreach).mem
    have hm' := r_sector_mem hm hr
    rcases react_ok hq with ⟨_, hn, hsec, hst, hrun, _⟩ | ⟨_, _, _, _, _, h⟩ | ⟨ht, hn, _, hst, _⟩ |
      ⟨ht, _, hst, _⟩ | ⟨_, _, _, hrun, _⟩
    · right; left
      refine ⟨_, hm, ?_⟩
      by_contra hc
      have := hrun.2 (not_le.1 hc)
      rw [hstop] at this; cases this
    · left; exact ⟨_, _, h, rfl⟩
    · right; left
      refine ⟨_, hm, ?_⟩
      rw [hst]
      obtain ⟨f, hf, rfl⟩ := advanceOf_ok hr
      obtain ⟨t', _, h' | h'⟩ := loop_inv (e := envOf a q0) (fun _ => True) (fun _ _ _ _ => trivial) _ _
        trivial _ hf
      · obtain ⟨f', hf', hd⟩ := h'
        obtain rfl := Except.ok.inj hf'
        have ht' : f.type = .interaction := ht
        obtain ⟨p, _, _, _, _, _, _, h | ⟨_, _, he, _, h⟩⟩ := trial_done hd
        · rw [ht'] at h; cases h.2.1
        · rcases h with ⟨_, _, _, _, h⟩ | ⟨h, _⟩ | ⟨h, _⟩
          · have : (finish (envOf a q0) (decide (nextOf a q0 = .minimalE)) (eMinOf a q0) f).state.energy
                = f.energy := by
              unfold finish
              simp [hn, ht']
            rw [this, he, h]
            simp only [envOf, eNextOf, hn, eMinOf]
            exact le_rfl
          · rw [ht'] at h; cases h
          · rw [ht'] at h; cases h
      · obtain ⟨f', hf', _⟩ := h'; cases hf'
    · right; right; left
      rw [hst]
      obtain ⟨f, hf, rfl⟩ := advanceOf_ok hr
      obtain ⟨t', _, h' | h'⟩ := loop_inv (e := envOf a q0) (fun _ => True) (fun _ _ _ _ => trivial) _ _
        trivial _ hf
      · obtain ⟨f', hf', hd⟩ := h'
        obtain rfl := Except.ok.inj hf'
        have ht' : f.type = .maxDistance := ht
        obtain ⟨p, _, _, _, _, _, _, h | ⟨_, _, he, _, h⟩⟩ := trial_done hd
        · rw [ht'] at h; cases h.2.1
        · rcases h with ⟨h, _⟩ | ⟨_, _, h, _⟩ | ⟨h, _⟩
          · rw [ht'] at h; cases h
          · show q0.state.distance + f.distance = _
            rw [h]
            simp [StepEnv.maxDist, envOf]
          · rw [ht'] at h; cases h
      · obtain ⟨f', hf', _⟩ := h'; cases hf'
    · right; right; right
      exact ⟨_, hm', hrun.1 hstop⟩

/-! ## C18: the hierarchy condition -/

/-- C18: at a border, propagation stops exactly when the sector left has a hierarchy above the
condition and the sector entered, which is the sector of maximal hierarchy at the new point, has a
hierarchy below it. -/
theorem C18_hierarchy_condition (a : PropArgs) (q q' : Prop') (r : Advanced)
    (hs : propStep a q = .ok q') (hr : advanceOf a q = some (.ok r)) (hb : r.type = .border) :
    (q'.running = false ↔
      (a.hierarchyCondition < r.sector.geo.hierarchy ∧
       q'.sector.geo.hierarchy < a.hierarchyCondition)) ∧
    q'.sector.geo.isInside q'.state.position q'.state.direction ∧
    ∀ s ∈ a.sectors, s.geo.isInside q'.state.position q'.state.direction →
      s.geo.hierarchy ≤ q'.sector.geo.hierarchy := by
  obtain ⟨r', hr', hq⟩ := propStep_ok hs
  rw [hr] at hr'
  obtain rfl : r = r' := by simpa using hr'
  rcases react_ok hq with ⟨h, _⟩ | ⟨h, _⟩ | ⟨h, _⟩ | ⟨h, _⟩ | ⟨_, hc, hst, hrun, _⟩
  · rw [hb] at h; cases h
  · rw [hb] at h; cases h
  · rw [hb] at h; cases h
  · rw [hb] at h; cases h
  · rw [hst]
    obtain ⟨h1, l1, l2, h2, h3, h4⟩ := (C08_current_sector _ _ _).1 _ hc
    refine ⟨hrun, h1, ?_⟩
    intro s hs hin
    rw [h2] at hs
    rcases List.mem_append.1 hs with h | h
    · exact (h3 s h hin).le
    · rcases List.mem_cons.1 h with rfl | h
      · exact le_rfl
      · exact h4 s h hin

/-! ## C16: straight steps -/

/-- Euclidean distance written out in coordinates. -/
noncomputable def Spec.euclid (p q : Vec3) : ℝ :=
  Real.sqrt ((q.x - p.x) ^ 2 + (q.y - p.y) ^ 2 + (q.z - p.z) ^ 2)

/-- Length of the polyline through the entries of a track. -/
noncomputable def Spec.polyline : List Entry → ℝ
  | a :: b :: l => euclid a.state.position b.state.position + polyline (b :: l)
  | _ => 0

/-- A step from `a` to `b` is straight: its Euclidean length is the change of the propagated
distance, and an entry that is not a continuous loss happens on the spot. -/
def Spec.Straight (a b : Entry) : Prop :=
  euclid a.state.position b.state.position = |b.state.distance - a.state.distance| ∧
  (b.type ≠ .continuousEnergyLoss → b.state.position = a.state.position ∧
    b.state.distance = a.state.distance ∧ b.state.time = a.state.time)

/-- The scattering of a sector produces unit directions from unit directions. -/
def Spec.UnitScattering (u : Utility) : Prop :=
  ∀ ω m g E E' d, UnitVec d →
    UnitVec (u.directionsScatter ω m g E E' d).1 ∧ UnitVec (u.directionsScatter ω m g E E' d).2.1

/-- C16: a step moves the particle by the change of the propagated distance along a mean direction
that the scattering of a listed sector produced from the old direction. -/
theorem C16_step_straight (a : PropArgs) (q : Prop') (r : Advanced) (hq : q.sector ∈ a.sectors)
    (hr : advanceOf a q = some (.ok r)) :
    ∃ s ∈ a.sectors, ∃ m g E,
      r.state.position = q.state.position + (r.state.distance - q.state.distance) •
        (s.util.directionsScatter a.ω m g q.state.energy E q.state.direction).1 ∧
      r.state.direction = (s.util.directionsScatter a.ω m g q.state.energy E q.state.direction).2.1 := by
  obtain ⟨f, hf, rfl⟩ := advanceOf_ok hr
  have hm := loop_sector_mem (e := envOf a q) hq hf
  obtain ⟨t', _, h' | h'⟩ := loop_inv (e := envOf a q) (fun _ => True) (fun _ _ _ _ => trivial) _ _
    trivial _ hf
  · obtain ⟨f', hf', hd⟩ := h'
    obtain rfl := Except.ok.inj hf'
    obtain ⟨p, _, hsec, hmean, hnew, _⟩ := trial_done hd
    refine ⟨f.sector, hm, p.memo, p.grammage, p.energy, ?_, ?_⟩
    · show q.state.position + f.distance • f.mean = _
      rw [hmean]
      show _ = q.state.position + (q.state.distance + f.distance - q.state.distance) • _
      rw [add_sub_cancel_left, hsec]
      rfl
    · show f.new = _
      rw [hnew, hsec]
      rfl
  · obtain ⟨f', hf', _⟩ := h'; cases hf'

private lemma euclid_step (p m : Vec3) (hm : UnitVec m) (k : ℝ) : euclid p (p + k • m) = |k| := by
  unfold Spec.euclid
  unfold UnitVec at hm
  simp only [Vec3.add_x, Vec3.add_y, Vec3.add_z, Vec3.smul_x, Vec3.smul_y, Vec3.smul_z]
  rw [← Real.sqrt_sq_eq_abs]
  congr 1
  linear_combination k ^ 2 * hm

private lemma deflect_dir_unit (u : Utility) (ω : ℕ → ℝ) (pos : ℕ) (ty : IType) (E E' : ℝ) (d : Vec3)
    (c : ℕ) (hd : UnitVec d) : UnitVec (u.directionDeflect ω pos ty E E' d c).1 := by
  unfold Utility.directionDeflect
  cases u.scattering with
  | none => exact hd
  | some s =>
    simp only []
    cases s.deflection ty with
    | none => exact C45_deflect_unit d hd _ _
    | some nf => exact C45_deflect_unit d hd _ _

/-- C16: with unit mean directions every step of a track is straight, for tracks of any length. -/
theorem C16_track_straight (a : PropArgs) (init : PState) (pos : ℕ) (q : Prop')
    (hu : ∀ s ∈ a.sectors, UnitScattering s.util) (hd : UnitVec init.direction)
    (h : Reachable a init pos q) : List.IsChain Straight q.track := by
  refine (chain_induction (a := a) (init := init) (pos := pos) Straight
    (fun q x => UnitVec q.state.direction ∧ x.state.position = q.state.position ∧
      x.state.distance = q.state.distance) ?_ ?_ h).1
  · intro q hq
    rw [(propInit_ok hq).1]; exact ⟨hd, rfl, rfl⟩
  · intro q q' l x r hreach hrun hx hI hs hr
    obtain ⟨hI, hpos, hdist⟩ := hI
    obtain ⟨s, hsm, m, g, E, h1, h2⟩ := C16_step_straight a q r (reachable_basic hreach).mem hr
    have hu' := hu s hsm a.ω m g q.state.energy E _ hI
    have hr' : UnitVec r.state.direction := by rw [h2]; exact hu'.2
    have hst : UnitVec q'.state.direction := by
      obtain ⟨r', hr'', _, _, _, h | ⟨x', _, h, h2⟩⟩ := step_shape hs
      · rw [hr] at hr''
        obtain rfl : r = r' := by simpa using hr''
        rcases h.2 with h | h
        · rw [h]; exact hr'
        · rw [h]; exact deflect_dir_unit _ _ _ _ _ _ _ _ hr'
      · rw [hr] at hr''
        obtain rfl : r = r' := by simpa using hr''
        rcases h2 with ⟨_, h, _⟩ | ⟨_, _, h, _⟩
        · rw [h]; exact hr'
        · rw [h]; exact deflect_dir_unit _ _ _ _ _ _ _ _ hr'
    obtain ⟨r', hr'', k1, k2, k3, h | ⟨x', hx', h, h2⟩⟩ := step_shape hs
    all_goals
      rw [hr] at hr''
      obtain rfl : r = r' := by simpa using hr''
    · refine ⟨⟨?_, fun h => absurd rfl h⟩, fun _ => ⟨hst, k1.symm, k3.symm⟩, ?_⟩
      · simp only []
        rw [hpos, hdist, h1]
        exact euclid_step _ _ hu'.1 _
      · intro y hy
        rw [h.1] at hy
        simp at hy
    · refine ⟨⟨?_, fun h => absurd rfl h⟩, fun _ => ⟨hst, k1.symm, k3.symm⟩, ?_⟩
      · simp only []
        rw [hpos, hdist, h1]
        exact euclid_step _ _ hu'.1 _
      · intro y hy
        rw [h] at hy
        have hxy : x' = y := by simpa using hy
        subst hxy
        have e1 : x'.state.position = r.state.position := by rw [hx', k1]
        have e2 : x'.state.distance = r.state.distance := by rw [hx', k3]
        have e3 : x'.state.time = r.state.time := by rw [hx', k2]
        refine ⟨⟨?_, fun _ => ⟨e1, e2, e3⟩⟩, hst, by rw [hx'], by rw [hx']⟩
        simp only []
        rw [e1, e2]
        simp [Spec.euclid]

/-- C16: when moreover no step goes backwards, the polyline length of the track is the propagated
distance. -/
theorem C16_polyline_length (l : List Entry) (x y : Entry)
    (h1 : List.IsChain Straight (x :: l))
    (h2 : List.IsChain (fun a b : Entry => a.state.distance ≤ b.state.distance) (x :: l))
    (hy : (x :: l).getLast? = some y) : polyline (x :: l) = y.state.distance - x.state.distance := by
  induction l generalizing x with
  | nil =>
    simp at hy
    subst hy
    simp [Spec.polyline]
  | cons z l ih =>
    rw [List.isChain_cons_cons] at h1 h2
    have := ih z h1.2 h2.2 (by simpa using hy)
    unfold Spec.polyline
    rw [this, h1.1.1, abs_of_nonneg (by linarith [h2.1])]
    ring

end Proposal
