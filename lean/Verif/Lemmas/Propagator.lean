import Verif.Model.Propagator
import Verif.Props.Sector
import Verif.Lemmas.Sphere

/-! Helper lemmas for the propagator. -/

namespace Proposal

lemma border_nonneg {sectors : List Sector} {p d : Vec3} {g : Geo} (h : g.isInside p d) :
    0 ≤ distanceToBorder sectors p d g := by
  have hl := (C09_border_distance sectors p d g).1
  rcases hl with hl | ⟨s, _, _, h0, he⟩
  · rw [Set.mem_singleton_iff] at hl
    rw [hl]; exact h.1.le
  · rw [he]; exact h0

/-- Inversion of one decision. -/
lemma decideStep_cases (e : StepEnv) (t : Trial) (p : Proposed) :
    let sc := t.sector.util.directionsScatter e.ω p.memo p.grammage e.state.energy p.energy e.state.direction
    let dtb := distanceToBorder e.sectors e.state.position sc.1 t.sector.geo
    (∃ g, g = t.sector.dens.calculate e.state.position e.state.direction dtb ∧
      t.numSteps + 1 > MAX_STEPS ∧
      decideStep e t p = .done ⟨.border, t.sector.util.energyDistance e.state.energy g, g, dtb,
        sc.1, sc.2.1, t.sector, sc.2.2, t.numSteps + 1⟩) ∨
    (t.numSteps + 1 ≤ MAX_STEPS ∧ ¬ t.sector.geo.isInside e.state.position sc.1 ∧
      currentSector e.sectors e.state.position sc.1 = none ∧
      decideStep e t p = .fault .noSector) ∨
    (t.numSteps + 1 ≤ MAX_STEPS ∧ ¬ t.sector.geo.isInside e.state.position sc.1 ∧
      ∃ s, currentSector e.sectors e.state.position sc.1 = some s ∧
      decideStep e t p = .again ⟨e.eNext, -1, s.util.lengthContinuous e.state.energy e.eNext, s,
        (if t.backscatter then sc.2.2.redraw e.ω else sc.2.2), t.numSteps + 1, true⟩) ∨
    (t.numSteps + 1 ≤ MAX_STEPS ∧ t.sector.geo.isInside e.state.position sc.1 ∧
      ∃ d, p.distance = some d ∧ d ≤ dtb ∧ d ≤ e.maxDist ∧ p.energy = e.eNext ∧
      decideStep e t p = .done ⟨.interaction, p.energy, p.grammage, d, sc.1, sc.2.1, t.sector,
        sc.2.2, t.numSteps + 1⟩) ∨
    (t.numSteps + 1 ≤ MAX_STEPS ∧ t.sector.geo.isInside e.state.position sc.1 ∧
      p.distance = some e.maxDist ∧ e.maxDist ≤ dtb ∧ p.energy ≠ e.eNext ∧
      decideStep e t p = .done ⟨.maxDistance, p.energy, p.grammage, e.maxDist, sc.1, sc.2.1, t.sector,
        sc.2.2, t.numSteps + 1⟩) ∨
    (t.numSteps + 1 ≤ MAX_STEPS ∧ t.sector.geo.isInside e.state.position sc.1 ∧
      (∃ d, p.distance = some d ∧ |d - dtb| ≤ PARTICLE_POSITION_RESOLUTION) ∧
      ¬ (leDist p.distance dtb ∧ leDist p.distance e.maxDist ∧ p.energy = e.eNext) ∧
      ¬ (leDist p.distance dtb ∧ p.distance = some e.maxDist) ∧
      decideStep e t p = .done ⟨.border, p.energy, p.grammage, dtb, sc.1, sc.2.1, t.sector,
        sc.2.2, t.numSteps + 1⟩) ∨
    (t.numSteps + 1 ≤ MAX_STEPS ∧ t.sector.geo.isInside e.state.position sc.1 ∧
      ¬ (leDist p.distance dtb ∧ leDist p.distance e.maxDist ∧ p.energy = e.eNext) ∧
      ¬ (leDist p.distance dtb ∧ p.distance = some e.maxDist) ∧
      (¬ ∃ d, p.distance = some d ∧ |d - dtb| ≤ PARTICLE_POSITION_RESOLUTION) ∧
      decideStep e t p = .again ⟨-1, min dtb e.maxDist, t.gNext, t.sector, sc.2.2,
        t.numSteps + 1, t.backscatter⟩) := by
  intro sc dtb
  unfold decideStep
  simp only []
  by_cases h1 : t.numSteps + 1 > MAX_STEPS
  · left
    exact ⟨_, rfl, h1, by rw [if_pos h1]⟩
  · right
    rw [if_neg h1]
    have h1' : t.numSteps + 1 ≤ MAX_STEPS := not_lt.1 h1
    by_cases h2 : t.sector.geo.isInside e.state.position sc.1
    · right; right
      rw [if_neg (not_not.2 h2)]
      by_cases h3 : leDist p.distance dtb ∧ leDist p.distance e.maxDist ∧ p.energy = e.eNext
      · left
        rw [if_pos h3]
        obtain ⟨⟨d, hd, hd1⟩, ⟨d', hd', hd2⟩, he⟩ := h3
        rw [hd] at hd'; obtain rfl := Option.some.inj hd'
        exact ⟨h1', h2, d, hd, hd1, hd2, he, by rw [hd]; rfl⟩
      · right
        rw [if_neg h3]
        by_cases h4 : leDist p.distance dtb ∧ p.distance = some e.maxDist
        · left
          rw [if_pos h4]
          obtain ⟨⟨d, hd, hd1⟩, hm⟩ := h4
          have hmd : d = e.maxDist := by rw [hd] at hm; exact Option.some.inj hm
          refine ⟨h1', h2, hm, hmd ▸ hd1, ?_, by rw [hm]; rfl⟩
          intro he
          exact h3 ⟨⟨d, hd, hd1⟩, ⟨d, hd, hmd.le⟩, he⟩
        · right
          rw [if_neg h4]
          by_cases h5 : ∃ d, p.distance = some d ∧ |d - dtb| ≤ PARTICLE_POSITION_RESOLUTION
          · left
            rw [if_pos h5]
            exact ⟨h1', h2, h5, h3, h4, rfl⟩
          · right
            rw [if_neg h5]
            exact ⟨h1', h2, h3, h4, h5, rfl⟩
    · rw [if_pos h2]
      cases hc : currentSector e.sectors e.state.position sc.1 with
      | none =>
        left
        exact ⟨h1', h2, rfl, rfl⟩
      | some s =>
        right; left
        exact ⟨h1', h2, s, rfl, rfl⟩

lemma trial_again_steps {e : StepEnv} {t t' : Trial} (h : trial e t = .again t') :
    t'.numSteps = t.numSteps + 1 ∧ t.numSteps + 1 ≤ MAX_STEPS := by
  unfold trial at h
  cases hp : propose e t with
  | none => rw [hp] at h; cases h
  | some p =>
    rw [hp] at h
    simp only [] at h
    rcases decideStep_cases e t p with ⟨g, _, _, hd⟩ | ⟨_, _, _, hd⟩ | ⟨h1, _, s, _, hd⟩ |
      ⟨_, _, d, _, _, _, _, hd⟩ | ⟨_, _, _, _, _, hd⟩ | ⟨_, _, _, _, _, hd⟩ | ⟨h1, _, _, _, _, hd⟩ <;>
      rw [hd] at h <;> cases h
    · exact ⟨rfl, h1⟩
    · exact ⟨rfl, h1⟩

lemma loop_ne_none (e : StepEnv) : ∀ (k : ℕ) (t : Trial), MAX_STEPS + 1 ≤ k + t.numSteps → 0 < k →
    loop e k t ≠ none := by
  intro k
  induction k with
  | zero => intro t _ h; omega
  | succ k ih =>
    intro t hk _
    unfold loop
    cases ht : trial e t with
    | again t' =>
      obtain ⟨h1, h2⟩ := trial_again_steps ht
      apply ih t'
      · omega
      · omega
    | done f => simp
    | fault f => simp

lemma loop_mono (e : StepEnv) : ∀ (k m : ℕ) (t : Trial), loop e k t ≠ none → k ≤ m →
    loop e m t = loop e k t := by
  intro k
  induction k with
  | zero => intro m t h; exact absurd rfl h
  | succ k ih =>
    intro m t h hm
    obtain ⟨m, rfl⟩ : ∃ m', m = m' + 1 := ⟨m - 1, by omega⟩
    unfold loop at h ⊢
    cases ht : trial e t with
    | again t' =>
      rw [ht] at h
      exact ih m t' h (by omega)
    | done f => rfl
    | fault f => rfl

/-- Induction principle for the do-while loop. -/
lemma loop_inv {e : StepEnv} (I : Trial → Prop)
    (hI : ∀ t t', I t → trial e t = .again t' → I t') :
    ∀ (k : ℕ) (t : Trial), I t → ∀ r, loop e k t = some r →
      ∃ t', I t' ∧ ((∃ f, r = .ok f ∧ trial e t' = .done f) ∨
        (∃ f, r = .error f ∧ trial e t' = .fault f)) := by
  intro k
  induction k with
  | zero => intro t _ r h; cases h
  | succ k ih =>
    intro t ht r h
    unfold loop at h
    cases hc : trial e t with
    | again t' =>
      rw [hc] at h
      exact ih t' (hI t t' ht hc) r h
    | done f =>
      rw [hc] at h
      exact ⟨t, ht, Or.inl ⟨f, by simpa using h.symm, hc⟩⟩
    | fault f =>
      rw [hc] at h
      exact ⟨t, ht, Or.inr ⟨f, by simpa using h.symm, hc⟩⟩

/-- The alternatives for a proposal. -/
lemma propose_cases (e : StepEnv) (t : Trial) :
    (t.energy ≠ -1 ∧ t.distance = -1 ∧
      propose e t = some ⟨t.energy, t.sector.util.lengthContinuous e.state.energy t.energy,
        t.sector.dens.correct e.state.position e.state.direction
          (t.sector.util.lengthContinuous e.state.energy t.energy) e.maxDist, t.memo⟩) ∨
    (t.energy = -1 ∧ t.distance ≠ -1 ∧
      t.sector.dens.calculate e.state.position e.state.direction t.distance < t.gNext ∧
      propose e t = some ⟨t.sector.util.energyDistance e.state.energy
          (t.sector.dens.calculate e.state.position e.state.direction t.distance),
        t.sector.dens.calculate e.state.position e.state.direction t.distance,
        some t.distance, t.memo⟩) ∨
    (t.energy = -1 ∧ t.distance ≠ -1 ∧
      t.gNext ≤ t.sector.dens.calculate e.state.position e.state.direction t.distance ∧
      propose e t = some ⟨e.eNext, t.gNext,
        t.sector.dens.correct e.state.position e.state.direction t.gNext e.maxDist,
        t.memo.redraw e.ω⟩) ∨
    (¬ (t.energy ≠ -1 ∧ t.distance = -1) ∧ ¬ (t.energy = -1 ∧ t.distance ≠ -1) ∧
      propose e t = none) := by
  unfold propose
  simp only []
  by_cases h1 : t.energy ≠ -1 ∧ t.distance = -1
  · left; rw [if_pos h1]; exact ⟨h1.1, h1.2, rfl⟩
  · right
    rw [if_neg h1]
    by_cases h2 : t.energy = -1 ∧ t.distance ≠ -1
    · rw [if_pos h2]
      by_cases h3 : t.sector.dens.calculate e.state.position e.state.direction t.distance < t.gNext
      · left; rw [if_pos h3]; exact ⟨h2.1, h2.2, h3, rfl⟩
      · right; left; rw [if_neg h3]; exact ⟨h2.1, h2.2, not_lt.1 h3, rfl⟩
    · right; right; rw [if_neg h2]; exact ⟨h1, h2, rfl⟩

/-- The loop-head invariant: exactly one of energy and distance is known. -/
def HeadInv (e : StepEnv) (t : Trial) : Prop :=
  (t.energy = e.eNext ∧ t.distance = -1) ∨ (t.energy = -1 ∧ 0 ≤ t.distance)

lemma headInv_again {e : StepEnv} (hm : 0 ≤ e.maxDist) {t t' : Trial}
    (h : trial e t = .again t') : HeadInv e t' := by
  unfold trial at h
  cases hp : propose e t with
  | none => rw [hp] at h; cases h
  | some p =>
    rw [hp] at h
    simp only [] at h
    rcases decideStep_cases e t p with ⟨g, _, _, hd⟩ | ⟨_, _, _, hd⟩ | ⟨h1, _, s, _, hd⟩ |
      ⟨_, _, d, _, _, _, _, hd⟩ | ⟨_, _, _, _, _, hd⟩ | ⟨_, _, _, _, _, hd⟩ | ⟨h1, hin, _, _, _, hd⟩ <;>
      rw [hd] at h <;> cases h
    · left; exact ⟨rfl, rfl⟩
    · right; exact ⟨rfl, le_min (border_nonneg hin) hm⟩

/-- Scattering proposal of a trial. -/
noncomputable def scat (e : StepEnv) (t : Trial) (p : Proposed) : Vec3 × Vec3 × Memo :=
  t.sector.util.directionsScatter e.ω p.memo p.grammage e.state.energy p.energy e.state.direction

/-- Border distance of a trial. -/
noncomputable def dtbOf (e : StepEnv) (t : Trial) (p : Proposed) : ℝ :=
  distanceToBorder e.sectors e.state.position (scat e t p).1 t.sector.geo

/-- Inversion of a finished trial. -/
lemma trial_done {e : StepEnv} {t : Trial} {f : Finished} (h : trial e t = .done f) :
    ∃ p, propose e t = some p ∧ f.sector = t.sector ∧ f.mean = (scat e t p).1 ∧
      f.new = (scat e t p).2.1 ∧ f.memo = (scat e t p).2.2 ∧ f.numSteps = t.numSteps + 1 ∧
      ((f.numSteps > MAX_STEPS ∧ f.type = .border ∧ f.distance = dtbOf e t p ∧
          f.grammage = t.sector.dens.calculate e.state.position e.state.direction f.distance ∧
          f.energy = t.sector.util.energyDistance e.state.energy f.grammage) ∨
       (f.numSteps ≤ MAX_STEPS ∧ t.sector.geo.isInside e.state.position f.mean ∧
          f.energy = p.energy ∧ f.grammage = p.grammage ∧
          ((f.type = .interaction ∧ p.distance = some f.distance ∧ f.distance ≤ dtbOf e t p ∧
              f.distance ≤ e.maxDist ∧ p.energy = e.eNext) ∨
           (f.type = .maxDistance ∧ p.distance = some f.distance ∧ f.distance = e.maxDist ∧
              f.distance ≤ dtbOf e t p ∧ p.energy ≠ e.eNext) ∨
           (f.type = .border ∧ f.distance = dtbOf e t p ∧
              ∃ d, p.distance = some d ∧ |d - dtbOf e t p| ≤ PARTICLE_POSITION_RESOLUTION)))) := by
  unfold trial at h
  cases hp : propose e t with
  | none => rw [hp] at h; cases h
  | some p =>
    rw [hp] at h
    simp only [] at h
    refine ⟨p, rfl, ?_⟩
    rcases decideStep_cases e t p with ⟨g, hg, hn, hd⟩ | ⟨_, _, _, hd⟩ | ⟨h1, _, s, _, hd⟩ |
      ⟨hn, hin, d, hd0, hd1, hd2, he, hd⟩ | ⟨hn, hin, hm, hmd, he, hd⟩ | ⟨hn, hin, hx, _, _, hd⟩ | ⟨h1, hin, _, _, _, hd⟩ <;>
      rw [hd] at h <;> cases h
    · refine ⟨rfl, rfl, rfl, rfl, rfl, Or.inl ⟨hn, rfl, rfl, hg, rfl⟩⟩
    · exact ⟨rfl, rfl, rfl, rfl, rfl, Or.inr ⟨hn, hin, rfl, rfl, Or.inl ⟨rfl, hd0, hd1, hd2, he⟩⟩⟩
    · exact ⟨rfl, rfl, rfl, rfl, rfl,
        Or.inr ⟨hn, hin, rfl, rfl, Or.inr (Or.inl ⟨rfl, hm, rfl, hmd, he⟩)⟩⟩
    · exact ⟨rfl, rfl, rfl, rfl, rfl,
        Or.inr ⟨hn, hin, rfl, rfl, Or.inr (Or.inr ⟨rfl, rfl, hx⟩)⟩⟩

/-- Inversion of a repeated trial. -/
lemma trial_again {e : StepEnv} {t t' : Trial} (h : trial e t = .again t') :
    ∃ p, propose e t = some p ∧ t'.numSteps = t.numSteps + 1 ∧ t'.numSteps ≤ MAX_STEPS ∧
      ((¬ t.sector.geo.isInside e.state.position (scat e t p).1 ∧
          currentSector e.sectors e.state.position (scat e t p).1 = some t'.sector ∧
          t'.energy = e.eNext ∧ t'.distance = -1 ∧
          t'.gNext = t'.sector.util.lengthContinuous e.state.energy e.eNext ∧
          t'.memo = (if t.backscatter then (scat e t p).2.2.redraw e.ω else (scat e t p).2.2) ∧
          t'.backscatter = true) ∨
       (t.sector.geo.isInside e.state.position (scat e t p).1 ∧ t'.sector = t.sector ∧
          t'.energy = -1 ∧ t'.distance = min (dtbOf e t p) e.maxDist ∧ t'.gNext = t.gNext ∧
          t'.memo = (scat e t p).2.2 ∧ t'.backscatter = t.backscatter ∧
          ¬ (leDist p.distance (dtbOf e t p) ∧ leDist p.distance e.maxDist ∧ p.energy = e.eNext) ∧
          ¬ (leDist p.distance (dtbOf e t p) ∧ p.distance = some e.maxDist) ∧
          ¬ ∃ d, p.distance = some d ∧ |d - dtbOf e t p| ≤ PARTICLE_POSITION_RESOLUTION)) := by
  unfold trial at h
  cases hp : propose e t with
  | none => rw [hp] at h; cases h
  | some p =>
    rw [hp] at h
    simp only [] at h
    refine ⟨p, rfl, ?_⟩
    rcases decideStep_cases e t p with ⟨g, hg, hn, hd⟩ | ⟨_, _, _, hd⟩ | ⟨h1, hi, s, hs, hd⟩ |
      ⟨hn, hin, d, hd0, hd1, hd2, he, hd⟩ | ⟨hn, hin, hm, hmd, he, hd⟩ | ⟨hn, hin, hx, _, _, hd⟩ | ⟨h1, hin, ha, hb, hc, hd⟩ <;>
      rw [hd] at h <;> cases h
    · exact ⟨rfl, h1, Or.inl ⟨hi, hs, rfl, rfl, rfl, rfl, rfl⟩⟩
    · exact ⟨rfl, h1, Or.inr ⟨hin, rfl, rfl, rfl, rfl, rfl, rfl, ha, hb, hc⟩⟩

/-- Inversion of an abnormal end. -/
lemma trial_fault {e : StepEnv} {t : Trial} {f : Fault} (h : trial e t = .fault f) :
    (f = .logicError ∧ propose e t = none) ∨
    (f = .noSector ∧ ∃ p, propose e t = some p ∧
      ¬ t.sector.geo.isInside e.state.position (scat e t p).1 ∧
      currentSector e.sectors e.state.position (scat e t p).1 = none) := by
  unfold trial at h
  cases hp : propose e t with
  | none => rw [hp] at h; cases h; exact Or.inl ⟨rfl, rfl⟩
  | some p =>
    rw [hp] at h
    simp only [] at h
    right
    rcases decideStep_cases e t p with ⟨g, hg, hn, hd⟩ | ⟨_, hi, hs, hd⟩ | ⟨h1, hi, s, hs, hd⟩ |
      ⟨hn, hin, d, hd0, hd1, hd2, he, hd⟩ | ⟨hn, hin, hm, hmd, he, hd⟩ | ⟨hn, hin, hx, _, _, hd⟩ | ⟨h1, hin, ha, hb, hc, hd⟩ <;>
      rw [hd] at h <;> cases h
    exact ⟨rfl, p, rfl, hi, hs⟩

/-- Inversion of a completed step. -/
lemma advance_ok {fuel : ℕ} {e : StepEnv} {s : Sector} {ms : Bool} {me : ℝ} {pos : ℕ} {r : Advanced}
    (h : advance fuel e s ms me pos = some (.ok r)) :
    ∃ f, loop e fuel (Trial.init e s pos) = some (.ok f) ∧ r = finish e ms me f := by
  unfold advance at h
  cases hl : loop e fuel (Trial.init e s pos) with
  | none => rw [hl] at h; cases h
  | some x =>
    cases x with
    | error f => rw [hl] at h; simp [Except.map] at h
    | ok f =>
      rw [hl] at h
      simp only [Option.map_some, Except.map, Option.some.injEq, Except.ok.injEq] at h
      exact ⟨f, rfl, h.symm⟩

end Proposal
