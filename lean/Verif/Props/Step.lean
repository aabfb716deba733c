import Verif.Lemmas.Propagator

/-!
# One continuous step (C11, C68)
-/

namespace Proposal

/-- C11: a step finishes within 201 trial iterations, whatever the plugged-in components do: with
room for 201 iterations there is a result, more room changes nothing, and a completed step reports at
most 201 iterations. -/
theorem C11_step_terminates (e : StepEnv) (s : Sector) (minStep : Bool) (minEnergy : ℝ) (pos : ℕ) :
    ∃ r, (∀ fuel, 201 ≤ fuel → advance fuel e s minStep minEnergy pos = some r) ∧
      ∀ f, loop e 201 (Trial.init e s pos) = some (.ok f) → 1 ≤ f.numSteps ∧ f.numSteps ≤ 201 := by
  have h0 : loop e 201 (Trial.init e s pos) ≠ none :=
    loop_ne_none e 201 _ (by unfold MAX_STEPS; omega) (by norm_num)
  obtain ⟨x, hx⟩ := Option.ne_none_iff_exists'.1 h0
  refine ⟨x.map (finish e minStep minEnergy), ?_, ?_⟩
  · intro fuel hf
    unfold advance
    rw [loop_mono e 201 fuel _ h0 hf, hx]
    rfl
  · intro f hf
    obtain ⟨t', ht', h | h⟩ := loop_inv (e := e) (fun t => t.numSteps ≤ MAX_STEPS)
      (fun t t' _ h => by obtain ⟨h1, h2⟩ := trial_again_steps h; omega) 201 _
      (show (Trial.init e s pos).numSteps ≤ MAX_STEPS by unfold Trial.init; simp) _ hf
    · obtain ⟨f', hf', hd⟩ := h
      obtain rfl := Except.ok.inj hf'
      obtain ⟨p, _, _, _, _, _, hn, _⟩ := trial_done hd
      unfold MAX_STEPS at ht'
      omega
    · obtain ⟨f', hf', _⟩ := h; cases hf'

/-- C11: as long as the remaining distance is not negative and the energy of the next interaction is
not the sentinel -1, the internal consistency exception is unreachable. -/
theorem C11_no_logic_error (e : StepEnv) (s : Sector) (minStep : Bool) (minEnergy : ℝ) (pos : ℕ)
    (hE : e.eNext ≠ -1) (hm : e.state.distance ≤ e.finalDistance) (fuel : ℕ) :
    advance fuel e s minStep minEnergy pos ≠ some (.error .logicError) := by
  intro h
  have hm' : 0 ≤ e.maxDist := by unfold StepEnv.maxDist; linarith
  unfold advance at h
  cases hl : loop e fuel (Trial.init e s pos) with
  | none => rw [hl] at h; cases h
  | some x =>
    rw [hl] at h
    obtain ⟨t', ht', h' | h'⟩ := loop_inv (e := e) (HeadInv e)
      (fun t t' _ h => headInv_again hm' h) fuel _ (Or.inl ⟨rfl, rfl⟩) _ hl
    · obtain ⟨f, rfl, _⟩ := h'
      simp [Except.map] at h
    · obtain ⟨f, rfl, hd⟩ := h'
      simp only [Option.map_some, Except.map, Option.some.injEq, Except.error.injEq] at h
      subst h
      rcases trial_fault hd with ⟨_, hp⟩ | ⟨hc, _⟩
      · rcases propose_cases e t' with ⟨_, _, h'⟩ | ⟨_, _, _, h'⟩ | ⟨_, _, _, h'⟩ | ⟨n1, n2, _⟩
        · rw [hp] at h'; cases h'
        · rw [hp] at h'; cases h'
        · rw [hp] at h'; cases h'
        · rcases ht' with ⟨h1, h2⟩ | ⟨h1, h2⟩
          · exact n1 ⟨h1 ▸ hE, h2⟩
          · exact n2 ⟨h1, by linarith⟩
      · cases hc

/-- A toy physics: constant loss of 1 per unit grammage, next interaction at half the energy, no decay,
no scattering, no randomisation, elapsed time equal to the grammage. -/
noncomputable def Toy.util : Utility where
  lowerLim := 1
  decay := none
  interaction := fun e _ => e / 2
  sampleLoss := fun _ _ => ⟨.brems, 0, 1 / 2⟩
  contRand := none
  energyDistance := fun e g => e - g
  lengthContinuous := fun a b => a - b
  timeElapsed := fun _ _ g _ => g
  scattering := none

/-- Homogeneous density 1. -/
noncomputable def Toy.dens : Density where
  correct := fun _ _ g _ => some g
  calculate := fun _ _ l => l
  evaluate := fun _ => 1

/-- An observer for which the border is always at distance `L`. -/
noncomputable def Toy.geo (L : ℝ) : Geo := ⟨0, ⟨0, 0, 0⟩, fun _ _ => (L, -1)⟩

/-- A sector of the toy world. -/
noncomputable def Toy.sector (L : ℝ) : Sector := ⟨Toy.geo L, Toy.util, Toy.dens⟩

/-- A step in the toy world. -/
noncomputable def Toy.env (L E dist final : ℝ) : StepEnv :=
  ⟨[Toy.sector L], fun _ => 1 / 2, ⟨E, 0, ⟨0, 0, 0⟩, ⟨0, 0, 1⟩, dist⟩, E / 2, final⟩

/-- The hypotheses of `C11_no_logic_error` hold for an ordinary step. -/
example : (Toy.env 10 8 1 20).eNext ≠ -1 ∧
    (Toy.env 10 8 1 20).state.distance ≤ (Toy.env 10 8 1 20).finalDistance := by
  unfold Toy.env; norm_num

lemma Toy.dtb (L : ℝ) (p d : Vec3) : distanceToBorder [Toy.sector L] p d (Toy.geo L) = L := by
  unfold distanceToBorder
  simp [Toy.sector, Toy.geo]

lemma Toy.inside {L : ℝ} (hL : 0 < L) (p d : Vec3) : (Toy.geo L).isInside p d := by
  unfold Geo.isInside Toy.geo
  simp [hL]

/-- C11: the restriction to a non-negative remaining distance is needed. When the particle has been
propagated exactly one unit too far (`C12_overshoot` shows that it can be too far), the next step
throws the internal consistency exception. -/
theorem C11_logic_error_after_overshoot :
    advance 201 (Toy.env 10 8 1 0) (Toy.sector 10) false 0 0 = some (.error .logicError) := by
  have hm : (Toy.env 10 8 1 0).maxDist = -1 := by unfold StepEnv.maxDist Toy.env; norm_num
  have h1 : ∃ t', trial (Toy.env 10 8 1 0) (Trial.init (Toy.env 10 8 1 0) (Toy.sector 10) 0) = .again t' ∧
      t'.energy = -1 ∧ t'.distance = -1 := by
    have hp : propose (Toy.env 10 8 1 0) (Trial.init (Toy.env 10 8 1 0) (Toy.sector 10) 0)
        = some ⟨4, 4, some 4, Memo.init 0⟩ := by
      unfold propose Trial.init
      simp only [Toy.env, Toy.sector, Toy.util, Toy.dens]
      norm_num
    unfold trial
    rw [hp]
    refine ⟨⟨-1, -1, 4, Toy.sector 10, Memo.init 0, 1, false⟩, ?_, rfl, rfl⟩
    unfold decideStep
    simp only [hm]
    simp only [Trial.init, Toy.env, Utility.directionsScatter]
    have hd := Toy.dtb 10
    have hi := fun p d => @Toy.inside 10 (by norm_num) p d
    simp only [show (Toy.sector 10).util = Toy.util from rfl, show Toy.util.scattering = none from rfl,
      show (Toy.sector 10).geo = Toy.geo 10 from rfl, hd, hi, MAX_STEPS, leDist]
    norm_num [PARTICLE_POSITION_RESOLUTION, StepEnv.maxDist, Toy.util]
  obtain ⟨t', h1, h2, h3⟩ := h1
  unfold advance
  have : loop (Toy.env 10 8 1 0) 201 (Trial.init (Toy.env 10 8 1 0) (Toy.sector 10) 0)
      = some (.error .logicError) := by
    rw [show (201 : ℕ) = 199 + 1 + 1 from rfl]
    unfold loop
    rw [h1]
    simp only []
    unfold loop
    have : trial (Toy.env 10 8 1 0) t' = .fault .logicError := by
      unfold trial propose
      simp [h2, h3]
    rw [this]
  rw [this]
  rfl

/-- A density whose two directions agree: if the material up to distance `d` suffices for the grammage
`g`, the distance belonging to `g` exists and is at most `d`. -/
def Spec.ConsistentDensity (ρ : Density) : Prop :=
  ∀ p dir g d m, g ≤ ρ.calculate p dir d → ∃ x, ρ.correct p dir g m = some x ∧ x ≤ d

/-- C68: without scattering, with a consistent density and starting inside the sector a step needs at
most two trials, so the emergency exit after 200 trials is never taken. -/
theorem C68_two_trials (e : StepEnv) (s : Sector) (pos : ℕ)
    (hs : s.util.scattering = none) (hρ : Spec.ConsistentDensity s.dens)
    (hin : s.geo.isInside e.state.position e.state.direction)
    (hm : e.state.distance ≤ e.finalDistance) (hE : e.eNext ≠ -1) :
    ∃ f, loop e 2 (Trial.init e s pos) = some (.ok f) ∧ f.numSteps ≤ 2 := by
  have hm' : 0 ≤ e.maxDist := by unfold StepEnv.maxDist; linarith
  have key : ∀ (t : Trial) (p : Proposed), t.sector = s →
      scat e t p = (e.state.direction, e.state.direction, p.memo) := by
    intro t p ht
    unfold scat Utility.directionsScatter
    rw [ht, hs]
  have key2 : ∀ (t : Trial) (p : Proposed), t.sector = s →
      dtbOf e t p = distanceToBorder e.sectors e.state.position e.state.direction s.geo := by
    intro t p ht
    unfold dtbOf
    rw [key t p ht, ht]
  set D := distanceToBorder e.sectors e.state.position e.state.direction s.geo with hD
  have hD0 : 0 ≤ D := border_nonneg hin
  have nofault : ∀ t, t.sector = s → HeadInv e t → ∀ f, trial e t ≠ .fault f := by
    intro t ht hh f hf
    rcases trial_fault hf with ⟨_, hp⟩ | ⟨_, p, _, hni, _⟩
    · rcases propose_cases e t with ⟨_, _, h'⟩ | ⟨_, _, _, h'⟩ | ⟨_, _, _, h'⟩ | ⟨n1, n2, _⟩
      · rw [hp] at h'; cases h'
      · rw [hp] at h'; cases h'
      · rw [hp] at h'; cases h'
      · rcases hh with ⟨h1, h2⟩ | ⟨h1, h2⟩
        · exact n1 ⟨h1 ▸ hE, h2⟩
        · exact n2 ⟨h1, by linarith⟩
    · rw [key t p ht, ht] at hni
      exact hni hin
  cases h1 : trial e (Trial.init e s pos) with
  | fault f => exact absurd h1 (nofault _ rfl (Or.inl ⟨rfl, rfl⟩) f)
  | done f =>
    refine ⟨f, by unfold loop; rw [h1], ?_⟩
    obtain ⟨p, _, _, _, _, _, hn, _⟩ := trial_done h1
    rw [hn]; simp [Trial.init]
  | again t' =>
    have hh := headInv_again hm' h1
    obtain ⟨p, hp, hn, _, h⟩ := trial_again h1
    rw [key _ p rfl, key2 _ p rfl] at h
    rcases h with ⟨hni, _⟩ | ⟨_, hsec, he, hdist, hg, hmemo, _, hno1, hno2, hno3⟩
    · exact absurd hin hni
    have hp' : p.energy = e.eNext ∧ p.distance = s.dens.correct e.state.position e.state.direction
        (s.util.lengthContinuous e.state.energy e.eNext) e.maxDist := by
      rcases propose_cases e (Trial.init e s pos) with ⟨_, _, h'⟩ | ⟨_, hx, _, h'⟩ | ⟨_, hx, _, h'⟩ | ⟨n1, n2, h'⟩
      · rw [hp] at h'
        obtain rfl := Option.some.inj h'
        exact ⟨rfl, rfl⟩
      · exact absurd rfl hx
      · exact absurd rfl hx
      · rw [hp] at h'; cases h'
    have hsec' : t'.sector = s := hsec
    cases h2 : trial e t' with
    | fault f => exact absurd h2 (nofault _ hsec' hh f)
    | done f =>
      refine ⟨f, by unfold loop; rw [h1]; simp only []; unfold loop; rw [h2], ?_⟩
      obtain ⟨p', _, _, _, _, _, hn', _⟩ := trial_done h2
      rw [hn', hn]; simp [Trial.init]
    | again t'' =>
      exfalso
      obtain ⟨q, hq, _, _, h⟩ := trial_again h2
      rw [key _ q hsec', key2 _ q hsec', hsec'] at h
      rcases h with ⟨hni, _⟩ | ⟨_, _, _, _, _, _, _, g1, g2, g3⟩
      · exact hni hin
      have hd1 : t'.distance ≤ D := by rw [hdist]; exact min_le_left _ _
      have hd2 : t'.distance ≤ e.maxDist := by rw [hdist]; exact min_le_right _ _
      have hd0 : 0 ≤ t'.distance := by rw [hdist]; exact le_min hD0 hm'
      rcases propose_cases e t' with ⟨_, hx, h'⟩ | ⟨_, hx, _, h'⟩ | ⟨_, hx, hle, h'⟩ | ⟨n1, n2, h'⟩
      · linarith
      · rw [hq] at h'
        obtain rfl := Option.some.inj h'
        rcases min_choice D e.maxDist with hc | hc
        · apply g3
          refine ⟨_, rfl, ?_⟩
          rw [hdist, hc]
          simp [PARTICLE_POSITION_RESOLUTION]
        · apply g2
          refine ⟨⟨_, rfl, hd1⟩, ?_⟩
          simp only []
          rw [hdist, hc]
      · apply hno1
        rw [hsec', hg] at hle
        obtain ⟨x, hx, hxd⟩ := hρ _ _ _ _ e.maxDist hle
        rw [hp'.2]
        exact ⟨⟨x, hx, by linarith⟩, ⟨x, hx, by linarith⟩, hp'.1⟩
      · rw [hq] at h'; cases h'

/-- The hypotheses of `C68_two_trials` hold in the toy world. -/
example : (Toy.sector 10).util.scattering = none ∧ Spec.ConsistentDensity (Toy.sector 10).dens ∧
    (Toy.sector 10).geo.isInside (Toy.env 10 8 0 20).state.position (Toy.env 10 8 0 20).state.direction ∧
    (Toy.env 10 8 0 20).state.distance ≤ (Toy.env 10 8 0 20).finalDistance ∧
    (Toy.env 10 8 0 20).eNext ≠ -1 := by
  refine ⟨rfl, ?_, Toy.inside (by norm_num) _ _, by unfold Toy.env; norm_num, by unfold Toy.env; norm_num⟩
  intro p dir g d m h
  exact ⟨g, rfl, h⟩

end Proposal
