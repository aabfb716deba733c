import Verif.Props.Run

/-!
# Monotonicity along a track (C12, C13, C14)
-/

namespace Proposal

open Spec

/-! ## C12 -/

/-- C12: a step that ends at an interaction or at the maximal distance stays within the requested
distance, one that ends at the maximal distance ends exactly there, and one that ends at a border
before the emergency exit moved exactly to the border. Missing for the full property: a border step may
exceed the distance, see `C12_overshoot`. -/
theorem C12_step_distance_partial (a : PropArgs) (q : Prop') (r : Advanced)
    (hr : advanceOf a q = some (.ok r)) :
    (r.type = .interaction → r.state.distance ≤ a.maxDistance) ∧
    (r.type = .maxDistance → r.state.distance = a.maxDistance) := by
  obtain ⟨f, hf, rfl⟩ := advanceOf_ok hr
  obtain ⟨t', _, h' | h'⟩ := loop_inv (e := envOf a q) (fun _ => True) (fun _ _ _ _ => trivial) _ _
    trivial _ hf
  · obtain ⟨f', hf', hd⟩ := h'
    obtain rfl := Except.ok.inj hf'
    obtain ⟨p, _, _, _, _, _, _, h | ⟨_, _, he, _, h⟩⟩ := trial_done hd
    · constructor
      · intro ht; have ht' : f.type = .interaction := ht; rw [ht'] at h; cases h.2.1
      · intro ht; have ht' : f.type = .maxDistance := ht; rw [ht'] at h; cases h.2.1
    · have hmx : (envOf a q).maxDist = a.maxDistance - q.state.distance := rfl
      constructor
      · intro ht
        have ht' : f.type = .interaction := ht
        rcases h with ⟨_, _, _, h, _⟩ | ⟨h, _⟩ | ⟨h, _⟩
        · show q.state.distance + f.distance ≤ _
          rw [hmx] at h; linarith
        · rw [ht'] at h; cases h
        · rw [ht'] at h; cases h
      · intro ht
        have ht' : f.type = .maxDistance := ht
        rcases h with ⟨h, _⟩ | ⟨_, _, h, _⟩ | ⟨h, _⟩
        · rw [ht'] at h; cases h
        · show q.state.distance + f.distance = _
          rw [hmx] at h; linarith
        · rw [ht'] at h; cases h
  · obtain ⟨f', hf', _⟩ := h'; cases hf'

/-- C12: if no border step of the run ends beyond the requested distance, no entry of the track is
beyond it. -/
theorem C12_max_distance_partial (a : PropArgs) (init : PState) (pos : ℕ) (q : Prop')
    (hb : ∀ q r, Reachable a init pos q → q.running = true → advanceOf a q = some (.ok r) →
      r.type = .border → r.state.distance ≤ a.maxDistance)
    (h0 : init.distance ≤ a.maxDistance) (h : Reachable a init pos q) :
    ∀ x ∈ q.track, x.state.distance ≤ a.maxDistance := by
  induction h with
  | start q hq =>
    obtain ⟨_, _, h3, _⟩ := propInit_ok hq
    rw [h3]
    intro x hx
    rw [List.mem_singleton] at hx
    rw [hx]; exact h0
  | step q q' hreach hrun hs ih =>
    obtain ⟨r, hr, _, _, k3, h⟩ := step_shape hs
    have hrd : r.state.distance ≤ a.maxDistance := by
      obtain ⟨h1, h2⟩ := C12_step_distance_partial a q r hr
      cases ht : r.type with
      | interaction => exact h1 ht
      | maxDistance => exact (h2 ht).le
      | border => exact hb q r hreach hrun hr ht
    intro x hx
    rcases h with h | ⟨y, hy, h, _⟩
    · rw [h.1, List.mem_append, List.mem_singleton] at hx
      rcases hx with hx | rfl
      · exact ih x hx
      · exact hrd
    · rw [h, List.mem_append, List.mem_append, List.mem_singleton, List.mem_singleton] at hx
      rcases hx with (hx | rfl) | rfl
      · exact ih x hx
      · exact hrd
      · rw [hy, k3]; exact hrd

/-! ## C14: reported fractions -/

/-- C14: every entry that is neither continuous nor a decay reports a loss sampled at the energy of
the preceding entry, and the energy drops by exactly the sampled fraction; a decay entry leaves the
state unchanged. -/
theorem C14_reported_fraction (a : PropArgs) (init : PState) (pos : ℕ) (q : Prop')
    (h : Reachable a init pos q) :
    List.IsChain (fun x y : Entry => y.type ≠ .continuousEnergyLoss →
      (y.type = .decay ∧ y.state = x.state) ∨
      ∃ s ∈ a.sectors, ∃ rnd, y.type = (s.util.sampleLoss x.state.energy rnd).type ∧
        y.target = (s.util.sampleLoss x.state.energy rnd).comp ∧
        y.state.energy = x.state.energy * (1 - (s.util.sampleLoss x.state.energy rnd).v)) q.track := by
  refine (chain_induction (a := a) (init := init) (pos := pos) _ (fun _ _ => True)
    (fun _ _ => trivial) ?_ h).1
  intro q q' l x r hreach hrun hx _ hs hr
  refine ⟨fun h => absurd rfl h, fun _ => trivial, ?_⟩
  intro y hy
  refine ⟨fun _ => ?_, trivial⟩
  have hm := r_sector_mem (reachable_basic hreach).mem hr
  obtain ⟨r', hr', _, _, _, h | ⟨x', hx', h, h2⟩⟩ := step_shape hs
  · rw [hr] at hr'
    obtain rfl : r = r' := by simpa using hr'
    rw [h.1] at hy
    simp at hy
  · rw [hr] at hr'
    obtain rfl : r = r' := by simpa using hr'
    rw [h] at hy
    have hxy : x' = y := by simpa using hy
    subst hxy
    rcases h2 with ⟨h1, h2, _⟩ | ⟨h1, h2, h3, _⟩
    · left; exact ⟨h1, by rw [hx', h2]⟩
    · right
      refine ⟨_, hm, a.ω r.pos, h1, h2, ?_⟩
      rw [hx', h3]; rfl

/-! ## C13 and C14: monotonicity -/

/-- Documented ranges of a density: positions, material and distances are not negative. -/
structure Spec.GoodDensity (ρ : Density) : Prop where
  correct_nonneg : ∀ p d g m x, 0 ≤ g → ρ.correct p d g m = some x → 0 ≤ x
  calculate_nonneg : ∀ p d l, 0 ≤ l → 0 ≤ ρ.calculate p d l
  evaluate_nonneg : ∀ p, 0 ≤ ρ.evaluate p

/-- Documented ranges of the physics, for energies above the lower limit and random numbers of the unit interval: nothing
gains energy, nothing takes negative time, and a grammage shorter than the one to energy `e` leaves at least energy `e`. -/
structure Spec.GoodUtility (u : Utility) : Prop where
  decay_le : ∀ f, u.decay = some f → ∀ E r d, u.lowerLim ≤ E → 0 ≤ r → r < 1 → 0 ≤ d → f E r d ≤ E
  interaction_le : ∀ E r, u.lowerLim ≤ E → 0 ≤ r → r < 1 → u.interaction E r ≤ E
  loss_range : ∀ E r, u.lowerLim ≤ E → 0 ≤ r → r < 1 → 0 ≤ (u.sampleLoss E r).v ∧ (u.sampleLoss E r).v ≤ 1
  contRand_range : ∀ f, u.contRand = some f → ∀ E e r m, u.lowerLim ≤ m → m ≤ e → e ≤ E → 0 ≤ r → r < 1 →
    m ≤ f E e r m ∧ f E e r m ≤ E
  length_nonneg : ∀ E e, u.lowerLim ≤ e → e ≤ E → 0 ≤ u.lengthContinuous E e
  distance_range : ∀ E e g, u.lowerLim ≤ e → e ≤ E → 0 ≤ g → g < u.lengthContinuous E e →
    e ≤ u.energyDistance E g ∧ u.energyDistance E g ≤ E
  time_nonneg : ∀ E e g ρ, u.lowerLim ≤ e → e ≤ E → 0 ≤ g → 0 ≤ ρ → 0 ≤ u.timeElapsed E e g ρ

/-- The random numbers lie in the interval from 0 (included) to 1 (excluded). -/
def Spec.UnitRandoms (ω : ℕ → ℝ) : Prop := ∀ k, 0 ≤ ω k ∧ ω k < 1

/-- A regular run: no step uses the emergency exit after 200 trials, and no situation is beyond the
requested distance. -/
structure Spec.Regular (a : PropArgs) (init : PState) (pos : ℕ) : Prop where
  noEmergency : ∀ q f, Reachable a init pos q → q.running = true →
    loop (envOf a q) (MAX_STEPS + 1) (Trial.init (envOf a q) q.sector (eStochOf a q).2) =
      some (.ok f) → f.numSteps ≤ MAX_STEPS
  noOvershoot : ∀ q, Reachable a init pos q → q.state.distance ≤ a.maxDistance

/-- A slot of the memo is empty or holds a drawn random number. -/
def Drawn (ω : ℕ → ℝ) (m : Memo) : Prop := ∀ i, m.slots i = -1 ∨ ∃ k, m.slots i = ω k

lemma Drawn.next {ω : ℕ → ℝ} {m : Memo} (h : Drawn ω m) : Drawn ω (m.next ω).2 ∧ ∃ k, (m.next ω).1 = ω k := by
  unfold Memo.next
  split_ifs with hc
  · refine ⟨fun i => ?_, _, rfl⟩
    by_cases hi : i = m.idx
    · subst hi
      exact Or.inr ⟨m.pos, by simp⟩
    · simpa [Function.update_of_ne hi] using h i
  · exact ⟨h, (h m.idx).resolve_left hc⟩

lemma Drawn.redraw (ω : ℕ → ℝ) (m : Memo) : Drawn ω (m.redraw ω) := fun _ => Or.inr ⟨_, rfl⟩

lemma Drawn.init (ω : ℕ → ℝ) (pos : ℕ) : Drawn ω (Memo.init pos) := fun _ => Or.inl rfl

lemma Drawn.scatter {ω : ℕ → ℝ} {m : Memo} (h : Drawn ω m) (u : Utility) (g E e : ℝ) (d : Vec3) :
    Drawn ω (u.directionsScatter ω m g E e d).2.2 := by
  unfold Utility.directionsScatter
  split
  · exact h
  · split
    · exact h.next.1.next.1.next.1.next.1
    · exact h

lemma Drawn.propose {e : StepEnv} {t : Trial} {p : Proposed} (h : Drawn e.ω t.memo) (hp : propose e t = some p) :
    Drawn e.ω p.memo := by
  rcases propose_cases e t with ⟨_, _, h2⟩ | ⟨_, _, _, h2⟩ | ⟨_, _, _, h2⟩ | ⟨_, _, h2⟩
  · rw [hp] at h2
    obtain rfl := Option.some.inj h2
    exact h
  · rw [hp] at h2
    obtain rfl := Option.some.inj h2
    exact h
  · rw [hp] at h2
    obtain rfl := Option.some.inj h2
    exact Drawn.redraw _ _
  · rw [hp] at h2; cases h2

/-- After the trials of a step the memo holds drawn random numbers. -/
lemma finished_drawn {e : StepEnv} {s : Sector} {pos k : ℕ} {f : Finished}
    (hf : loop e k (Trial.init e s pos) = some (.ok f)) : Drawn e.ω f.memo := by
  obtain ⟨t, hd, h' | h'⟩ := loop_inv (e := e) (fun t => Drawn e.ω t.memo)
    (fun t t' ht h => by
      obtain ⟨p, hp, _, _, h⟩ := trial_again h
      rcases h with ⟨_, _, _, _, _, hm, _⟩ | ⟨_, _, _, _, _, hm, _⟩
      · rw [hm]
        split_ifs
        · exact Drawn.redraw _ _
        · exact (ht.propose hp).scatter _ _ _ _ _
      · rw [hm]
        exact (ht.propose hp).scatter _ _ _ _ _) k _ (Drawn.init _ _) _ hf
  · obtain ⟨f', hf', hdone⟩ := h'
    obtain rfl := Except.ok.inj hf'
    obtain ⟨p, hp, _, _, _, hm, _⟩ := trial_done hdone
    rw [hm]
    exact (hd.propose hp).scatter _ _ _ _ _
  · obtain ⟨_, hf', _⟩ := h'; cases hf'

/-- Ranges of one finished step. -/
lemma finished_range {e : StepEnv} {s : Sector} {pos k : ℕ} {f : Finished}
    (hu : ∀ s ∈ e.sectors, GoodUtility s.util) (hρ : ∀ s ∈ e.sectors, GoodDensity s.dens)
    (hlow : ∀ s ∈ e.sectors, s.util.lowerLim ≤ e.eNext)
    (hs : s ∈ e.sectors) (hm : 0 ≤ e.maxDist) (hE : e.eNext ≤ e.state.energy)
    (hf : loop e k (Trial.init e s pos) = some (.ok f)) (hn : f.numSteps ≤ MAX_STEPS) :
    0 ≤ f.distance ∧ 0 ≤ f.grammage ∧ e.eNext ≤ f.energy ∧ f.energy ≤ e.state.energy ∧
      f.sector ∈ e.sectors ∧ (f.type = .interaction → f.energy = e.eNext) := by
  have hsm := loop_sector_mem hs hf
  obtain ⟨t, ⟨hh, hmem, hg⟩, h' | h'⟩ := loop_inv (e := e)
    (fun t => HeadInv e t ∧ t.sector ∈ e.sectors ∧
      t.gNext = t.sector.util.lengthContinuous e.state.energy e.eNext)
    (fun t t' ht h => by
      refine ⟨headInv_again hm h, ?_⟩
      obtain ⟨p, _, _, _, h⟩ := trial_again h
      rcases h with ⟨_, hc, _, _, h, _⟩ | ⟨_, hc, _, _, h, _⟩
      · exact ⟨currentSector_mem hc, h⟩
      · rw [hc, h]; exact ht.2) k _ ⟨Or.inl ⟨rfl, rfl⟩, hs, rfl⟩ _ hf
  · obtain ⟨f', hf', hd⟩ := h'
    obtain rfl := Except.ok.inj hf'
    obtain ⟨p, hp, hsec, hmean, _, _, _, h⟩ := trial_done hd
    rcases h with ⟨h, _⟩ | ⟨_, hin, he, hgr, h⟩
    · omega
    have gu := hu _ hmem
    have gρ := hρ _ hmem
    have gl := gu.length_nonneg _ _ (hlow _ hmem) hE
    have hp' : (∀ d, p.distance = some d → 0 ≤ d) ∧ 0 ≤ p.grammage ∧ e.eNext ≤ p.energy ∧
        p.energy ≤ e.state.energy := by
      rcases propose_cases e t with ⟨_, h1, h2⟩ | ⟨h0, h1, h3, h2⟩ | ⟨_, h1, _, h2⟩ | ⟨_, _, h2⟩
      · rw [hp] at h2
        obtain rfl := Option.some.inj h2
        rcases hh with ⟨h3, _⟩ | ⟨_, h3⟩
        · simp only [h3]
          exact ⟨fun d hd => gρ.correct_nonneg _ _ _ _ _ gl hd, gl, le_rfl, hE⟩
        · linarith
      · rw [hp] at h2
        obtain rfl := Option.some.inj h2
        rcases hh with ⟨_, h4⟩ | ⟨_, h4⟩
        · exact absurd h4 h1
        · have h5 := gρ.calculate_nonneg e.state.position e.state.direction _ h4
          rw [hg] at h3
          have h6 := gu.distance_range _ _ _ (hlow _ hmem) hE h5 h3
          refine ⟨?_, h5, h6.1, h6.2⟩
          intro d hd
          rw [← Option.some.inj hd]; exact h4
      · rw [hp] at h2
        obtain rfl := Option.some.inj h2
        simp only [hg]
        exact ⟨fun d hd => gρ.correct_nonneg _ _ _ _ _ gl hd, gl, le_rfl, hE⟩
      · rw [hp] at h2; cases h2
    refine ⟨?_, by rw [hgr]; exact hp'.2.1, by rw [he]; exact hp'.2.2.1, by rw [he]; exact hp'.2.2.2, hsm, ?_⟩
    · rcases h with ⟨_, h, _⟩ | ⟨_, h, _⟩ | ⟨_, h, _⟩
      · exact hp'.1 _ h
      · exact hp'.1 _ h
      · rw [h]
        rw [hmean] at hin
        exact border_nonneg hin
    · intro ht
      rcases h with ⟨_, _, _, _, h⟩ | ⟨h, _⟩ | ⟨h, _⟩
      · rw [he, h]
      · rw [ht] at h; cases h
      · rw [ht] at h; cases h
  · obtain ⟨f', hf', _⟩ := h'; cases hf'

lemma eNext_range (a : PropArgs) (q : Prop') (hω : UnitRandoms a.ω) (hu : GoodUtility q.sector.util)
    (hρ : GoodDensity q.sector.dens)
    (hE : eMinOf a q ≤ q.state.energy) (hE0 : 0 ≤ q.state.energy) :
    eMinOf a q ≤ eNextOf a q ∧ eNextOf a q ≤ q.state.energy := by
  have hl : q.sector.util.lowerLim ≤ q.state.energy := le_trans (le_max_right _ _) hE
  have hd : (eDecayOf a q).1 ≤ q.state.energy := by
    unfold eDecayOf Utility.energyDecay
    cases hc : q.sector.util.decay with
    | none => exact hE0
    | some f => exact hu.decay_le f hc _ _ _ hl (hω _).1 (hω _).2 (hρ.evaluate_nonneg _)
  have hs : (eStochOf a q).1 ≤ q.state.energy := hu.interaction_le _ _ hl (hω _).1 (hω _).2
  have h := (C10_next_interaction (eDecayOf a q).1 (eMinOf a q) (eStochOf a q).1 (nextOf a q)).1 rfl
    .minimalE
  unfold eNextOf
  cases hn : nextOf a q <;> rw [hn] at h <;> simp only [Spec.energyOf] at h ⊢
  · exact ⟨by rcases h with h | h <;> linarith [h], hd⟩
  · exact ⟨le_rfl, hE⟩
  · exact ⟨by rcases h with h | h <;> linarith [h], hs⟩

/-- Entry `b` is not before `a` in distance and time and has not more energy. -/
def Spec.Later (a b : Entry) : Prop :=
  a.state.distance ≤ b.state.distance ∧ a.state.time ≤ b.state.time ∧
  b.state.energy ≤ a.state.energy

/-- Ranges of one completed continuous step that does not use the emergency exit. -/
lemma advance_range_of {a : PropArgs} {q : Prop'} {r : Advanced}
    (hω : UnitRandoms a.ω) (hu : ∀ s ∈ a.sectors, GoodUtility s.util) (hρ : ∀ s ∈ a.sectors, GoodDensity s.dens)
    (hlow : ∀ s ∈ a.sectors, s.util.lowerLim ≤ a.minEnergy) (hmem : q.sector ∈ a.sectors)
    (hnum : ∀ f, loop (envOf a q) (MAX_STEPS + 1) (Trial.init (envOf a q) q.sector (eStochOf a q).2) = some (.ok f) →
      f.numSteps ≤ MAX_STEPS) (hdist : q.state.distance ≤ a.maxDistance)
    (hE : eMinOf a q ≤ q.state.energy) (hE0 : 0 ≤ q.state.energy)
    (hr : advanceOf a q = some (.ok r)) :
    q.state.distance ≤ r.state.distance ∧ q.state.time ≤ r.state.time ∧
      eMinOf a q ≤ r.state.energy ∧ r.state.energy ≤ q.state.energy := by
  obtain ⟨h1, h2⟩ := eNext_range a q hω (hu _ hmem) (hρ _ hmem) hE hE0
  have hlow' : ∀ s ∈ a.sectors, s.util.lowerLim ≤ eMinOf a q := fun s hs => (hlow s hs).trans (le_max_left _ _)
  obtain ⟨f, hf, rfl⟩ := advanceOf_ok hr
  have hn := hnum f hf
  have hm : 0 ≤ (envOf a q).maxDist := by
    show 0 ≤ a.maxDistance - q.state.distance
    linarith
  obtain ⟨k1, k2, k3, k4, k5, _⟩ := finished_range (e := envOf a q) hu hρ
    (fun s hs => (hlow' s hs).trans h1) hmem hm h2 hf hn
  have k3' : eMinOf a q ≤ f.energy := le_trans h1 k3
  have k4' : f.energy ≤ q.state.energy := k4
  refine ⟨?_, ?_, ?_⟩
  · show q.state.distance ≤ q.state.distance + f.distance
    linarith
  · show q.state.time ≤ q.state.time + _
    have := (hu _ k5).time_nonneg q.state.energy f.energy f.grammage
      (f.sector.dens.evaluate q.state.position) ((hlow' _ k5).trans k3') k4' k2 ((hρ _ k5).evaluate_nonneg _)
    show q.state.time ≤ q.state.time + f.sector.util.timeElapsed q.state.energy f.energy f.grammage
      (f.sector.dens.evaluate q.state.position)
    linarith
  · unfold finish
    simp only []
    split_ifs with hc
    · exact ⟨k3', k4'⟩
    · unfold Utility.energyRandomize
      cases hcr : f.sector.util.contRand with
      | none => exact ⟨k3', k4'⟩
      | some g => 
        obtain ⟨k, hk⟩ := (finished_drawn hf).next.2
        have hk' : (f.memo.next (envOf a q).ω).1 = a.ω k := hk
        simp only [hk']
        exact (hu _ k5).contRand_range g hcr _ _ _ _ (hlow' _ k5) k3' k4' (hω _).1 (hω _).2

/-- Ranges of one completed continuous step of a regular run. -/
lemma advance_range {a : PropArgs} {init : PState} {pos : ℕ} {q : Prop'} {r : Advanced}
    (hω : UnitRandoms a.ω) (hu : ∀ s ∈ a.sectors, GoodUtility s.util) (hρ : ∀ s ∈ a.sectors, GoodDensity s.dens)
    (hlow : ∀ s ∈ a.sectors, s.util.lowerLim ≤ a.minEnergy)
    (hreg : Regular a init pos) (hq : Reachable a init pos q) (hrun : q.running = true)
    (hE : eMinOf a q ≤ q.state.energy) (hE0 : 0 ≤ q.state.energy)
    (hr : advanceOf a q = some (.ok r)) :
    q.state.distance ≤ r.state.distance ∧ q.state.time ≤ r.state.time ∧
      eMinOf a q ≤ r.state.energy ∧ r.state.energy ≤ q.state.energy :=
  advance_range_of hω hu hρ hlow (reachable_basic hq).mem (fun f hf => hreg.noEmergency q f hq hrun hf)
    (hreg.noOvershoot q hq) hE hE0 hr

/-- C13 and C14 for regular runs: along the track distance and time never decrease and the energy
never increases. The hypotheses beyond the documented ranges of the plugged-in physics are: the
requested minimal energy is at least the lower limit of every sector, the particle starts with at least
that energy, and the run is regular. Without regularity the claim fails: `C13_distance_decreases`. -/
theorem C13_distance_time_energy_partial (a : PropArgs) (init : PState) (pos : ℕ) (q : Prop')
    (hω : UnitRandoms a.ω) (hu : ∀ s ∈ a.sectors, GoodUtility s.util) (hρ : ∀ s ∈ a.sectors, GoodDensity s.dens)
    (hlow : ∀ s ∈ a.sectors, s.util.lowerLim ≤ a.minEnergy) (hmin : 0 ≤ a.minEnergy)
    (hinit : a.minEnergy ≤ init.energy) (hreg : Regular a init pos)
    (h : Reachable a init pos q) : List.IsChain Later q.track := by
  have hemin : ∀ q : Prop', q.sector ∈ a.sectors → eMinOf a q = a.minEnergy := fun q hq =>
    max_eq_left (hlow _ hq)
  refine (chain_induction (a := a) (init := init) (pos := pos) Later
    (fun q x => x.state.distance = q.state.distance ∧ x.state.time = q.state.time ∧
      q.state.energy ≤ x.state.energy ∧ (q.running = true → a.minEnergy ≤ q.state.energy)) ?_ ?_ h).1
  · intro q hq
    rw [(propInit_ok hq).1]
    exact ⟨rfl, rfl, le_rfl, fun _ => hinit⟩
  · intro q q' l x r hreach hrun hx hI hs hr
    obtain ⟨i1, i2, i3, i4⟩ := hI
    have i4 := i4 hrun
    have hmem := (reachable_basic hreach).mem
    have hE : eMinOf a q ≤ q.state.energy := by rw [hemin q hmem]; exact i4
    obtain ⟨a1, a2, a3, a4⟩ := advance_range hω hu hρ hlow hreg hreach hrun hE (by linarith) hr
    rw [hemin q hmem] at a3
    have hrm := r_sector_mem hmem hr
    have hsto : (doStochastic a.ω r.sector.util r.state r.pos).2.1.energy ≤ r.state.energy := by
      rw [(doStochastic_keeps _ _ _ _).2.2.2.2]
      have := (hu _ hrm).loss_range r.state.energy (a.ω r.pos) ((hlow _ hrm).trans a3) (hω _).1 (hω _).2
      nlinarith
    have hrunE : q'.running = true → a.minEnergy ≤ q'.state.energy := by
      intro hrun'
      obtain ⟨r', hr', hq⟩ := propStep_ok hs
      rw [hr] at hr'
      obtain rfl : r = r' := by simpa using hr'
      rcases react_ok hq with ⟨_, _, _, _, hr2, _⟩ | ⟨_, _, _, _, hr2, _⟩ | ⟨_, _, _, _, hr2, _⟩ |
        ⟨_, _, _, hr2, _⟩ | ⟨_, _, h, _⟩
      · have := hr2.1 hrun'
        rw [hemin q hmem] at this
        exact this.le
      · rw [hrun'] at hr2; cases hr2
      · rw [hrun'] at hr2; cases hr2
      · rw [hrun'] at hr2; cases hr2
      · rw [h]; exact a3
    have hfirst : Later x ⟨r.state, .continuousEnergyLoss, 0⟩ :=
      ⟨by rw [i1]; exact a1, by rw [i2]; exact a2, le_trans a4 i3⟩
    obtain ⟨r', hr', k1, k2, k3, h | ⟨x', hx', h, h2⟩⟩ := step_shape hs
    all_goals
      rw [hr] at hr'
      obtain rfl : r = r' := by simpa using hr'
    · refine ⟨hfirst, fun _ => ⟨k3.symm, k2.symm, ?_, hrunE⟩, ?_⟩
      · rcases h.2 with h | h
        · rw [h]
        · rw [h]; exact hsto
      · intro y hy
        rw [h.1] at hy
        simp at hy
    · refine ⟨hfirst, ?_, ?_⟩
      · intro hy
        rw [h] at hy
        simp at hy
      · intro y hy
        rw [h] at hy
        have hxy : x' = y := by simpa using hy
        subst hxy
        refine ⟨⟨?_, ?_, ?_⟩, by rw [hx'], by rw [hx'], by rw [hx'], hrunE⟩
        · simp only []; rw [hx', k3]
        · simp only []; rw [hx', k2]
        · simp only []
          rw [hx']
          rcases h2 with ⟨_, h, _⟩ | ⟨_, _, h, _⟩
          · rw [h]
          · rw [h]; exact hsto

/-- C14, the energy part of `C13_distance_time_energy_partial`, for any two entries of the track. -/
theorem C14_energy_never_increases_partial (a : PropArgs) (init : PState) (pos : ℕ) (q : Prop')
    (hω : UnitRandoms a.ω) (hu : ∀ s ∈ a.sectors, GoodUtility s.util) (hρ : ∀ s ∈ a.sectors, GoodDensity s.dens)
    (hlow : ∀ s ∈ a.sectors, s.util.lowerLim ≤ a.minEnergy) (hmin : 0 ≤ a.minEnergy)
    (hinit : a.minEnergy ≤ init.energy) (hreg : Regular a init pos)
    (h : Reachable a init pos q) :
    q.track.Pairwise (fun x y => y.state.energy ≤ x.state.energy) := by
  have hc := C13_distance_time_energy_partial a init pos q hω hu hρ hlow hmin hinit hreg h
  have hch : List.IsChain (fun x y : Entry => y.state.energy ≤ x.state.energy) q.track :=
    hc.imp (fun x y h => h.2.2)
  have : IsTrans Entry (fun x y : Entry => y.state.energy ≤ x.state.energy) :=
    ⟨fun x y z h1 h2 => le_trans h2 h1⟩
  exact List.isChain_iff_pairwise.1 hch

end Proposal
