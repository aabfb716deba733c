import Verif.Props.Motion

/-!
# C152: without scattering, runs with different maximal distances agree as long as none of them has reached its end
-/

namespace Proposal

/-- The distance that belongs to an amount of material does not depend on how far the particle may go. -/
def Spec.NoBorder (ρ : Density) : Prop := ∀ p d g m m', ρ.correct p d g m = ρ.correct p d g m'

/-- Nothing is scattered in the sector, and its density does not look at the border. -/
def Spec.Unscattered (s : Sector) : Prop := s.util.scattering = none ∧ Spec.NoBorder s.dens

/-- The same call with another final distance. -/
def StepEnv.until' (e : StepEnv) (D : ℝ) : StepEnv := { e with finalDistance := D }

theorem propose_until (e : StepEnv) (D : ℝ) (t : Trial) (h : Spec.NoBorder t.sector.dens) : propose (e.until' D) t = propose e t := by
  have h' : ∀ g, t.sector.dens.correct e.state.position e.state.direction g (e.until' D).maxDist =
      t.sector.dens.correct e.state.position e.state.direction g e.maxDist := fun g => h _ _ _ _ _
  unfold propose
  simp only [StepEnv.until'] at h' ⊢
  simp only [h']

/-- The distance to the border in the direction of the particle. -/
noncomputable def borderOf (e : StepEnv) (s : Sector) : ℝ := distanceToBorder e.sectors e.state.position e.state.direction s.geo

open Classical in
/-- The decision after a trial without scattering, with the maximal distance `m`. -/
noncomputable def plainDecide (e : StepEnv) (m : ℝ) (t : Trial) (p : Proposed) : TrialResult :=
  if t.numSteps + 1 > MAX_STEPS then
    .done ⟨.border, t.sector.util.energyDistance e.state.energy
      (t.sector.dens.calculate e.state.position e.state.direction (borderOf e t.sector)),
      t.sector.dens.calculate e.state.position e.state.direction (borderOf e t.sector), borderOf e t.sector, e.state.direction,
      e.state.direction, t.sector, p.memo, t.numSteps + 1⟩
  else if ¬ t.sector.geo.isInside e.state.position e.state.direction then
    match currentSector e.sectors e.state.position e.state.direction with
    | none => .fault .noSector
    | some s => .again ⟨e.eNext, -1, s.util.lengthContinuous e.state.energy e.eNext, s,
        (if t.backscatter then p.memo.redraw e.ω else p.memo), t.numSteps + 1, true⟩
  else if leDist p.distance (borderOf e t.sector) ∧ leDist p.distance m ∧ p.energy = e.eNext then
    .done ⟨.interaction, p.energy, p.grammage, p.distance.getD 0, e.state.direction, e.state.direction, t.sector, p.memo, t.numSteps + 1⟩
  else if leDist p.distance (borderOf e t.sector) ∧ p.distance = some m then
    .done ⟨.maxDistance, p.energy, p.grammage, p.distance.getD 0, e.state.direction, e.state.direction, t.sector, p.memo, t.numSteps + 1⟩
  else if ∃ d, p.distance = some d ∧ |d - borderOf e t.sector| ≤ PARTICLE_POSITION_RESOLUTION then
    .done ⟨.border, p.energy, p.grammage, borderOf e t.sector, e.state.direction, e.state.direction, t.sector, p.memo, t.numSteps + 1⟩
  else .again ⟨-1, min (borderOf e t.sector) m, t.gNext, t.sector, p.memo, t.numSteps + 1, t.backscatter⟩

theorem decideStep_straight (e : StepEnv) (t : Trial) (p : Proposed) (h : t.sector.util.scattering = none) :
    decideStep e t p = plainDecide e e.maxDist t p := by
  have hsc : t.sector.util.directionsScatter e.ω p.memo p.grammage e.state.energy p.energy e.state.direction =
      (e.state.direction, e.state.direction, p.memo) := by
    unfold Utility.directionsScatter
    rw [h]
  unfold decideStep plainDecide borderOf
  simp only [hsc]
  exact ite_same rfl (fun _ => rfl) (fun _ => ite_same (by simp only [hsc]) (fun _ => rfl) (fun _ => ite_same (by simp only [hsc]) (fun _ => rfl) (fun _ =>
    ite_same (by simp only [hsc]) (fun _ => rfl) (fun _ => ite_same rfl (fun _ => rfl) (fun _ => rfl)))))

/-- From here on the trial ends at the distance `μ` or behind it. -/
structure Beyond (e : StepEnv) (μ : ℝ) (t : Trial) : Prop where
  straight : t.sector.util.scattering = none
  inside : t.sector.geo.isInside e.state.position e.state.direction
  energy : t.energy = -1
  distance : μ ≤ t.distance
  border : μ ≤ borderOf e t.sector
  next : ∀ d, t.sector.dens.correct e.state.position e.state.direction t.gNext e.maxDist = some d → μ ≤ d

theorem beyond_loop (e : StepEnv) (μ : ℝ) (hm : μ ≤ e.maxDist) (k : ℕ) (t : Trial) (h : Beyond e μ t) (f : Finished)
    (hf : loop e k t = some (.ok f)) : μ ≤ f.distance := by
  induction k generalizing t with
  | zero => simp [loop] at hf
  | succ k ih =>
    unfold loop at hf
    have hp : ∀ p, propose e t = some p → ∀ d, p.distance = some d → μ ≤ d := by
      intro p hp d hd
      rcases propose_cases e t with ⟨hE, _, _⟩ | ⟨_, _, _, h'⟩ | ⟨_, _, _, h'⟩ | ⟨_, _, h'⟩
      · exact absurd h.energy hE
      · rw [hp] at h'; obtain rfl := Option.some.inj h'
        obtain rfl := Option.some.inj hd
        exact h.distance
      · rw [hp] at h'; obtain rfl := Option.some.inj h'
        exact h.next d hd
      · rw [hp] at h'; cases h'
    cases ht : trial e t with
    | fault f' => rw [ht] at hf; simp at hf
    | done f' =>
      rw [ht] at hf
      obtain rfl := Except.ok.inj (Option.some.inj hf)
      unfold trial at ht
      cases hp' : propose e t with
      | none => rw [hp'] at ht; cases ht
      | some p =>
        rw [hp'] at ht
        simp only [] at ht
        rw [decideStep_straight e t p h.straight] at ht
        unfold plainDecide at ht
        rw [if_neg (not_not.mpr h.inside)] at ht
        split_ifs at ht with h1 h2 h3 h4
        · rw [TrialResult.done.injEq] at ht; rw [← ht]; exact h.border
        · obtain ⟨⟨d, hd, _⟩, _⟩ := h2
          rw [TrialResult.done.injEq] at ht; rw [← ht]
          simp only [hd, Option.getD_some]
          exact hp p hp' d hd
        · obtain ⟨⟨d, hd, _⟩, _⟩ := h3
          rw [TrialResult.done.injEq] at ht; rw [← ht]
          simp only [hd, Option.getD_some]
          exact hp p hp' d hd
        · rw [TrialResult.done.injEq] at ht; rw [← ht]; exact h.border
    | again t' =>
      rw [ht] at hf
      refine ih t' ?_ hf
      unfold trial at ht
      cases hp' : propose e t with
      | none => rw [hp'] at ht; cases ht
      | some p =>
        rw [hp'] at ht
        simp only [] at ht
        rw [decideStep_straight e t p h.straight] at ht
        unfold plainDecide at ht
        rw [if_neg (not_not.mpr h.inside)] at ht
        split_ifs at ht
        rw [TrialResult.again.injEq] at ht
        subst ht
        exact ⟨h.straight, h.inside, rfl, le_min h.border hm, h.border, h.next⟩

/-- The trials at the head of the loop: to the next interaction, or to the border. -/
def AtHead (e : StepEnv) (μ : ℝ) (t : Trial) : Prop :=
  (t.energy = e.eNext ∧ t.distance = -1 ∧ t.gNext = t.sector.util.lengthContinuous e.state.energy e.eNext) ∨
    (t.energy = -1 ∧ t.distance = borderOf e t.sector ∧ borderOf e t.sector ≤ μ)

theorem loop_until (e : StepEnv) (D μ : ℝ) (hm : μ ≤ e.maxDist) (hm' : μ ≤ (e.until' D).maxDist) (he : ∀ s ∈ e.sectors, Spec.Unscattered s)
    (k : ℕ) (t : Trial) (hs : Spec.Unscattered t.sector) (ht : AtHead e μ t) (f : Finished) (hf : loop e k t = some (.ok f))
    (hμ : f.distance < μ) : loop (e.until' D) k t = some (.ok f) := by
  induction k generalizing t with
  | zero => simp [loop] at hf
  | succ k ih =>
    unfold loop at hf ⊢
    have hpr := propose_until e D t hs.2
    unfold trial at hf ⊢
    rw [hpr]
    cases hp : propose e t with
    | none => rw [hp] at hf; simp at hf
    | some p =>
      rw [hp] at hf
      simp only [] at hf ⊢
      rw [decideStep_straight e t p hs.1] at hf
      rw [show decideStep (e.until' D) t p = plainDecide e (e.until' D).maxDist t p from decideStep_straight (e.until' D) t p hs.1]
      unfold plainDecide at hf ⊢
      set B := borderOf e t.sector with hB
      by_cases c1 : t.numSteps + 1 > MAX_STEPS
      · rw [if_pos c1] at hf ⊢
        exact hf
      rw [if_neg c1] at hf ⊢
      by_cases c2 : t.sector.geo.isInside e.state.position e.state.direction
      swap
      · rw [if_pos c2] at hf ⊢
        cases hc : currentSector e.sectors e.state.position e.state.direction with
        | none => rw [hc] at hf; simp at hf
        | some s =>
          rw [hc] at hf
          simp only [] at hf ⊢
          exact ih _ (he s (currentSector_mem hc)) (Or.inl ⟨rfl, rfl, rfl⟩) hf
      rw [if_neg (not_not.mpr c2)] at hf ⊢
      by_cases c3 : leDist p.distance B ∧ leDist p.distance e.maxDist ∧ p.energy = e.eNext
      · rw [if_pos c3] at hf
        obtain ⟨⟨d, hd, hdB⟩, _, hE⟩ := c3
        have hfd := Except.ok.inj (Option.some.inj hf)
        have : d < μ := by
          rw [← hfd] at hμ
          simpa [hd] using hμ
        rw [if_pos ⟨⟨d, hd, hdB⟩, ⟨d, hd, by linarith⟩, hE⟩]
        exact hf
      rw [if_neg c3] at hf
      by_cases c4 : leDist p.distance B ∧ p.distance = some e.maxDist
      · rw [if_pos c4] at hf
        have hfd := Except.ok.inj (Option.some.inj hf)
        rw [← hfd] at hμ
        simp only [c4.2, Option.getD_some] at hμ
        linarith
      rw [if_neg c4] at hf
      by_cases c5 : ∃ d, p.distance = some d ∧ |d - B| ≤ PARTICLE_POSITION_RESOLUTION
      · rw [if_pos c5] at hf
        have hfd := Except.ok.inj (Option.some.inj hf)
        have hBμ : B < μ := by rw [← hfd] at hμ; exact hμ
        have c3' : ¬ (leDist p.distance B ∧ leDist p.distance (e.until' D).maxDist ∧ p.energy = e.eNext) := by
          rintro ⟨⟨d, hd, hdB⟩, _, hE⟩
          exact c3 ⟨⟨d, hd, hdB⟩, ⟨d, hd, by linarith⟩, hE⟩
        have c4' : ¬ (leDist p.distance B ∧ p.distance = some (e.until' D).maxDist) := by
          rintro ⟨⟨d, hd, hdB⟩, hD⟩
          rw [hd] at hD
          have := Option.some.inj hD
          linarith
        rw [if_neg c3', if_neg c4', if_pos c5]
        exact hf
      rw [if_neg c5] at hf
      by_cases hBμ : B ≤ μ
      · have c3' : ¬ (leDist p.distance B ∧ leDist p.distance (e.until' D).maxDist ∧ p.energy = e.eNext) := by
          rintro ⟨⟨d, hd, hdB⟩, _, hE⟩
          exact c3 ⟨⟨d, hd, hdB⟩, ⟨d, hd, by linarith⟩, hE⟩
        have c4' : ¬ (leDist p.distance B ∧ p.distance = some (e.until' D).maxDist) := by
          rintro ⟨⟨d, hd, hdB⟩, hD⟩
          rw [hd] at hD
          have := Option.some.inj hD
          refine c5 ⟨d, hd, ?_⟩
          rw [show d - B = 0 by linarith]
          simp [PARTICLE_POSITION_RESOLUTION]
        rw [if_neg c3', if_neg c4', if_neg c5]
        rw [min_eq_left (by linarith : B ≤ e.maxDist)] at hf
        rw [min_eq_left (by linarith : B ≤ (e.until' D).maxDist)]
        exact ih _ hs (Or.inr ⟨rfl, rfl, hBμ⟩) hf
      · exfalso
        push Not at hBμ
        refine absurd (beyond_loop e μ hm k _ ?_ f hf) (not_le.mpr hμ)
        refine ⟨hs.1, c2, rfl, le_min hBμ.le hm, hBμ.le, ?_⟩
        intro d hd
        rcases ht with ⟨h1, h2, h3⟩ | ⟨_, _, h3⟩
        · have hpE : p.energy = e.eNext ∧ p.distance = some d := by
            simp only [h3] at hd
            rcases propose_cases e t with ⟨_, _, h'⟩ | ⟨_, hx, _, h'⟩ | ⟨_, hx, _, h'⟩ | ⟨_, _, h'⟩
            · rw [hp] at h'; obtain rfl := Option.some.inj h'
              exact ⟨h1, by simp only [h1]; exact hd⟩
            · exact absurd h2 hx
            · exact absurd h2 hx
            · rw [hp] at h'; cases h'
          by_contra hd'
          push Not at hd'
          exact c3 ⟨⟨d, hpE.2, by linarith⟩, ⟨d, hpE.2, by linarith⟩, hpE.1⟩
        · linarith

/-- The arguments with another maximal distance. -/
def Spec.upTo (a : PropArgs) (D : ℝ) : PropArgs := ⟨a.sectors, a.ω, D, a.minEnergy, a.hierarchyCondition⟩

theorem advance_until (a : PropArgs) (D : ℝ) (ha : ∀ s ∈ a.sectors, Spec.Unscattered s) (q : Prop') (hq : q.sector ∈ a.sectors) (r : Advanced)
    (h : advanceOf a q = some (.ok r)) (h1 : r.state.distance < a.maxDistance) (h2 : r.state.distance < D) :
    advanceOf (Spec.upTo a D) q = some (.ok r) := by
  obtain ⟨f, hf, rfl⟩ := advanceOf_ok h
  have hd : (finish (envOf a q) (decide (nextOf a q = .minimalE)) (eMinOf a q) f).state.distance = q.state.distance + f.distance := rfl
  rw [hd] at h1 h2
  have e1 : envOf (Spec.upTo a D) q = (envOf a q).until' D := rfl
  have hl := loop_until (envOf a q) D (min (envOf a q).maxDist ((envOf a q).until' D).maxDist) (min_le_left _ _) (min_le_right _ _) ha _ _
    (ha _ hq) (Or.inl ⟨rfl, rfl, rfl⟩) f hf (by
      have m1 : (envOf a q).maxDist = a.maxDistance - q.state.distance := rfl
      have m2 : ((envOf a q).until' D).maxDist = D - q.state.distance := rfl
      rw [m1, m2]
      exact lt_min (by linarith) (by linarith))
  unfold advanceOf advance
  rw [e1, show Trial.init ((envOf a q).until' D) q.sector (eStochOf (Spec.upTo a D) q).2 = Trial.init (envOf a q) q.sector (eStochOf a q).2
    from rfl, hl]
  rfl

theorem step_until (a : PropArgs) (D : ℝ) (ha : ∀ s ∈ a.sectors, Spec.Unscattered s) (q q' : Prop') (hq : q.sector ∈ a.sectors)
    (h : propStep a q = .ok q') (h1 : ∀ x ∈ q'.track, x.state.distance < a.maxDistance ∧ x.state.distance < D) :
    propStep (Spec.upTo a D) q = .ok q' := by
  obtain ⟨r, hr, -⟩ := step_shape h
  have hmem : ∃ x ∈ q'.track, x.state.distance = r.state.distance := by
    obtain ⟨r', hr', _, _, _, hs⟩ := step_shape h
    rw [hr] at hr'
    obtain rfl := Except.ok.inj (Option.some.inj hr')
    rcases hs with hs | ⟨x', _, hs, _⟩
    · exact ⟨_, by rw [hs.1]; exact List.mem_append_right _ (List.mem_singleton_self _), rfl⟩
    · exact ⟨⟨r.state, .continuousEnergyLoss, 0⟩, by rw [hs]; simp, rfl⟩
  obtain ⟨x, hx, hxd⟩ := hmem
  have := advance_until a D ha q hq r hr (by rw [← hxd]; exact (h1 x hx).1) (by rw [← hxd]; exact (h1 x hx).2)
  unfold propStep at h ⊢
  rw [this]
  rw [hr] at h
  exact h

theorem track_grows {a : PropArgs} {q q' : Prop'} (h : propStep a q = .ok q') : ∀ x ∈ q.track, x ∈ q'.track := by
  intro x hx
  obtain ⟨r, _, _, _, _, hs⟩ := step_shape h
  rcases hs with hs | ⟨x', _, hs, _⟩
  · rw [hs.1]; exact List.mem_append_left _ hx
  · rw [hs]; simp [hx]

theorem reachable_until (a : PropArgs) (D : ℝ) (ha : ∀ s ∈ a.sectors, Spec.Unscattered s) (init : PState) (pos : ℕ) (q : Prop')
    (h : Reachable a init pos q) (hd : ∀ x ∈ q.track, x.state.distance < a.maxDistance ∧ x.state.distance < D) :
    Reachable (Spec.upTo a D) init pos q := by
  induction h with
  | start q hq => exact .start q hq
  | step q q' hq hrun hs ih =>
    exact .step q q' (ih fun x hx => hd x (track_grows hs x hx)) hrun (step_until a D ha q q' (reachable_basic hq).mem hs hd)

/-- C152: as long as all distances lie below both maximal distances, the situations of the two runs are the same: states, tracks, sectors,
random numbers, and whether the run goes on. -/
theorem C152_same_track (a : PropArgs) (D D' : ℝ) (ha : ∀ s ∈ a.sectors, Spec.Unscattered s) (init : PState) (pos : ℕ) (q : Prop')
    (hd : ∀ x ∈ q.track, x.state.distance < D ∧ x.state.distance < D') :
    Reachable (Spec.upTo a D) init pos q ↔ Reachable (Spec.upTo a D') init pos q :=
  ⟨fun h => reachable_until (Spec.upTo a D) D' ha init pos q h hd,
    fun h => reachable_until (Spec.upTo a D') D ha init pos q h fun x hx => ⟨(hd x hx).2, (hd x hx).1⟩⟩

/-- The situation after `n` iterations. -/
noncomputable def afterSteps (a : PropArgs) (q : Prop') : ℕ → Option Prop'
  | 0 => some q
  | n + 1 => match afterSteps a q n with
    | none => none
    | some q' => if q'.running then (match propStep a q' with | .ok q'' => some q'' | .error _ => none) else none

theorem reachable_after {a : PropArgs} {init : PState} {pos : ℕ} {q : Prop'} (h : Reachable a init pos q) :
    ∃ q₀ n, propInit a init pos = .ok q₀ ∧ afterSteps a q₀ n = some q := by
  induction h with
  | start q hq => exact ⟨q, 0, hq, rfl⟩
  | step q q' _ hrun hs ih =>
    obtain ⟨q₀, n, h0, hn⟩ := ih
    exact ⟨q₀, n + 1, h0, by simp only [afterSteps, hn, hrun, hs, if_true]⟩

theorem after_stopped {a : PropArgs} {q₀ q : Prop'} {n m : ℕ} (hn : afterSteps a q₀ n = some q) (hr : q.running = false) (h : n < m) :
    afterSteps a q₀ m = none := by
  induction m with
  | zero => omega
  | succ m ih =>
    rcases Nat.lt_succ_iff_lt_or_eq.mp h with h | rfl
    · simp only [afterSteps, ih h]
    · simp [afterSteps, hn, hr]

theorem final_unique {a : PropArgs} {init : PState} {pos : ℕ} {q q' : Prop'} (h : Reachable a init pos q) (hr : q.running = false)
    (h' : Reachable a init pos q') (hr' : q'.running = false) : q = q' := by
  obtain ⟨q₀, n, h0, hn⟩ := reachable_after h
  obtain ⟨q₁, m, h1, hm⟩ := reachable_after h'
  rw [h0] at h1
  obtain rfl := Except.ok.inj h1
  rcases lt_trichotomy n m with hlt | rfl | hlt
  · rw [after_stopped hn hr hlt] at hm; cases hm
  · rw [hn] at hm; exact Option.some.inj hm
  · rw [after_stopped hm hr' hlt] at hn; cases hn

/-- C152: a run that ends by itself before the maximal distance (by a decay, at the lowest energy or at the chosen border) ends in the
same way with every larger maximal distance. -/
theorem C152_finished (a : PropArgs) (D D' : ℝ) (hD : D ≤ D') (ha : ∀ s ∈ a.sectors, Spec.Unscattered s) (init : PState) (pos : ℕ) (q : Prop')
    (h : Reachable (Spec.upTo a D) init pos q) (hend : q.running = false) (hd : ∀ x ∈ q.track, x.state.distance < D) :
    Reachable (Spec.upTo a D') init pos q ∧ ∀ q', Reachable (Spec.upTo a D') init pos q' → q'.running = false → q' = q := by
  have h' := (C152_same_track a D D' ha init pos q fun x hx => ⟨hd x hx, lt_of_lt_of_le (hd x hx) hD⟩).mp h
  exact ⟨h', fun q' hq' hr' => final_unique hq' hr' h' hend⟩

/-- In the toy world, a run up to the distance 10 and one up to the distance 20 agree as long as the distance is below 10. -/
example (init : PState) (q : Prop') (hd : ∀ x ∈ q.track, x.state.distance < 10) :
    Reachable (Spec.upTo ⟨[Toy.sector 100], fun _ => 1 / 2, 10, 1, 0⟩ 10) init 0 q ↔
      Reachable (Spec.upTo ⟨[Toy.sector 100], fun _ => 1 / 2, 10, 1, 0⟩ 20) init 0 q := by
  refine C152_same_track _ 10 20 ?_ init 0 q fun x hx => ⟨hd x hx, by linarith [hd x hx]⟩
  intro s hs
  obtain rfl := List.mem_singleton.mp hs
  exact ⟨rfl, fun _ _ _ _ _ => rfl⟩

end Proposal
