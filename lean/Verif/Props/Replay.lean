import Verif.Props.Continuation
import Verif.Props.Overshoot

/-!
# C153: a propagation is determined by the random numbers between its start and its end
-/

namespace Proposal

/-- From the place `lo` up to the place `hi` the second stream, read `k` places later, has the numbers of the first one. -/
def Spec.Replays (ω ω' : ℕ → ℝ) (k lo hi : ℕ) : Prop := ∀ i, lo ≤ i → i < hi → ω' (i + k) = ω i

namespace Replay
open Spec

variable {ω ω' : ℕ → ℝ} {k : ℕ}

theorem mono {lo hi lo' hi' : ℕ} (h : Replays ω ω' k lo hi) (h1 : lo ≤ lo') (h2 : hi' ≤ hi) : Replays ω ω' k lo' hi' :=
  fun i hi1 hi2 => h i (h1.trans hi1) (lt_of_lt_of_le hi2 h2)

/-- The memo with the place in the second stream. -/
def memo (k : ℕ) (m : Memo) : Memo := ⟨m.slots, m.i, m.pos + k⟩

theorem next_le (m : Memo) : m.pos ≤ (m.next ω).2.pos := by
  unfold Memo.next
  split_ifs
  · exact Nat.le_succ _
  · exact le_rfl

theorem next (m : Memo) (h : Replays ω ω' k m.pos (m.next ω).2.pos) :
    (memo k m).next ω' = ((m.next ω).1, memo k (m.next ω).2) := by
  unfold Memo.next at h ⊢
  have hi : (memo k m).idx = m.idx := rfl
  rw [hi]
  by_cases c : m.slots m.idx = -1
  · rw [if_pos c] at h ⊢
    rw [if_pos (show (memo k m).slots m.idx = -1 from c)]
    have := h m.pos le_rfl (Nat.lt_succ_self _)
    simp only [memo, this]
    congr 2
    omega
  · rw [if_neg c]
    rw [if_neg (show ¬ (memo k m).slots m.idx = -1 from c)]
    rfl

theorem redraw (m : Memo) (h : Replays ω ω' k m.pos (m.redraw ω).pos) : (memo k m).redraw ω' = memo k (m.redraw ω) := by
  unfold Memo.redraw memo at *
  congr 1
  · funext j
    have := h (m.pos + j.val) (by omega) (by simp only []; omega)
    simp only []
    rw [← this]
    congr 1
    omega
  · simp only []; omega

theorem redraw_le (m : Memo) : m.pos ≤ (m.redraw ω).pos := Nat.le_add_right _ _

theorem next4_le (m : Memo) : m.pos ≤ (m.next4 ω).2.pos :=
  (next_le m).trans ((next_le _).trans ((next_le _).trans (next_le _)))

theorem next4 (m : Memo) (h : Replays ω ω' k m.pos (m.next4 ω).2.pos) : (memo k m).next4 ω' = ((m.next4 ω).1, memo k (m.next4 ω).2) := by
  unfold Memo.next4 at h ⊢
  simp only [] at h ⊢
  have l1 := next_le (ω := ω) m
  have l2 := next_le (ω := ω) (m.next ω).2
  have l3 := next_le (ω := ω) ((m.next ω).2.next ω).2
  have l4 := next_le (ω := ω) (((m.next ω).2.next ω).2.next ω).2
  have e1 := next m (mono h le_rfl (by omega))
  have e2 := next (m.next ω).2 (mono h (by omega) (by omega))
  have e3 := next ((m.next ω).2.next ω).2 (mono h (by omega) (by omega))
  have e4 := next (((m.next ω).2.next ω).2.next ω).2 (mono h (by omega) (by omega))
  simp only [e1, e2, e3, e4]

theorem randomize_le (u : Utility) (m : Memo) (a b c : ℝ) : m.pos ≤ (u.energyRandomize ω m a b c).2.pos := by
  unfold Utility.energyRandomize
  split
  · exact next_le m
  · exact le_rfl

theorem randomize (u : Utility) (m : Memo) (a b c : ℝ) (h : Replays ω ω' k m.pos (u.energyRandomize ω m a b c).2.pos) :
    u.energyRandomize ω' (memo k m) a b c = ((u.energyRandomize ω m a b c).1, memo k (u.energyRandomize ω m a b c).2) := by
  unfold Utility.energyRandomize at h ⊢
  cases hc : u.contRand with
  | none => rfl
  | some f =>
    rw [hc] at h
    simp only [] at h ⊢
    rw [next m h]

theorem scatter_le (u : Utility) (m : Memo) (g a b : ℝ) (d : Vec3) : m.pos ≤ (u.directionsScatter ω m g a b d).2.2.pos := by
  unfold Utility.directionsScatter
  split
  · exact le_rfl
  · split
    · exact next4_le m
    · exact le_rfl

theorem scatter (u : Utility) (m : Memo) (g a b : ℝ) (d : Vec3) (h : Replays ω ω' k m.pos (u.directionsScatter ω m g a b d).2.2.pos) :
    u.directionsScatter ω' (memo k m) g a b d = ((u.directionsScatter ω m g a b d).1, (u.directionsScatter ω m g a b d).2.1,
      memo k (u.directionsScatter ω m g a b d).2.2) := by
  unfold Utility.directionsScatter at h ⊢
  cases hs : u.scattering with
  | none => rfl
  | some s =>
    rw [hs] at h
    simp only [] at h ⊢
    cases hm : s.multiple with
    | none => rfl
    | some f =>
      rw [hm] at h
      simp only [] at h ⊢
      rw [next4 m h]

/-- The call with the second stream. -/
def env (ω' : ℕ → ℝ) (e : StepEnv) : StepEnv := { e with ω := ω' }

/-- The trial with the place in the second stream. -/
def trial' (k : ℕ) (t : Trial) : Trial := { t with memo := memo k t.memo }

/-- The proposal with the place in the second stream. -/
def proposed (k : ℕ) (p : Proposed) : Proposed := { p with memo := memo k p.memo }

/-- The end of a step with the place in the second stream. -/
def finished (k : ℕ) (f : Finished) : Finished := { f with memo := memo k f.memo }

theorem propose_le {e : StepEnv} {t : Trial} {p : Proposed} (h : propose e t = some p) : t.memo.pos ≤ p.memo.pos := by
  rcases propose_cases e t with ⟨_, _, h'⟩ | ⟨_, _, _, h'⟩ | ⟨_, _, _, h'⟩ | ⟨_, _, h'⟩
  · rw [h] at h'; obtain rfl := Option.some.inj h'; exact le_rfl
  · rw [h] at h'; obtain rfl := Option.some.inj h'; exact le_rfl
  · rw [h] at h'; obtain rfl := Option.some.inj h'; exact redraw_le _
  · rw [h] at h'; cases h'

theorem propose_replay {e : StepEnv} {t : Trial} {p : Proposed} (h : propose e t = some p) (hr : Replays e.ω ω' k t.memo.pos p.memo.pos) :
    propose (env ω' e) (trial' k t) = some (proposed k p) := by
  rcases propose_cases e t with ⟨h1, h2, h'⟩ | ⟨h1, h2, h3, h'⟩ | ⟨h1, h2, h3, h'⟩ | ⟨_, _, h'⟩
  · rw [h] at h'; obtain rfl := Option.some.inj h'
    rcases propose_cases (env ω' e) (trial' k t) with ⟨_, _, g⟩ | ⟨_, g, _⟩ | ⟨_, g, _⟩ | ⟨g, _⟩
    · rw [g]; rfl
    · exact absurd h2 g
    · exact absurd h2 g
    · exact absurd ⟨h1, h2⟩ g
  · rw [h] at h'; obtain rfl := Option.some.inj h'
    rcases propose_cases (env ω' e) (trial' k t) with ⟨g, _⟩ | ⟨_, _, _, g⟩ | ⟨_, _, g, _⟩ | ⟨_, g, _⟩
    · exact absurd h1 g
    · rw [g]; rfl
    · exact absurd h3 (not_lt.mpr g)
    · exact absurd ⟨h1, h2⟩ g
  · rw [h] at h'; obtain rfl := Option.some.inj h'
    rcases propose_cases (env ω' e) (trial' k t) with ⟨g, _⟩ | ⟨_, _, g, _⟩ | ⟨_, _, _, g⟩ | ⟨_, g, _⟩
    · exact absurd h1 g
    · exact absurd g (not_lt.mpr h3)
    · rw [g]
      have e1 : (trial' k t).memo.redraw (env ω' e).ω = memo k (t.memo.redraw e.ω) := redraw t.memo hr
      rw [e1]
      rfl
    · exact absurd ⟨h1, h2⟩ g
  · rw [h] at h'; cases h'

open Classical in
/-- The decision with the random numbers after the scattering, and after drawing again. -/
noncomputable def core (e : StepEnv) (t : Trial) (p : Proposed) (mean new : Vec3) (m m2 : Memo) : TrialResult :=
  let u := t.sector.util
  let dtb := distanceToBorder e.sectors e.state.position mean t.sector.geo
  let inside := t.sector.geo.isInside e.state.position mean
  let n := t.numSteps + 1
  if n > MAX_STEPS then
    let g := t.sector.dens.calculate e.state.position e.state.direction dtb
    .done ⟨.border, u.energyDistance e.state.energy g, g, dtb, mean, new, t.sector, m, n⟩
  else if ¬ inside then
    match currentSector e.sectors e.state.position mean with
    | none => .fault .noSector
    | some s => .again ⟨e.eNext, -1, s.util.lengthContinuous e.state.energy e.eNext, s, (if t.backscatter then m2 else m), n, true⟩
  else if leDist p.distance dtb ∧ leDist p.distance e.maxDist ∧ p.energy = e.eNext then
    .done ⟨.interaction, p.energy, p.grammage, p.distance.getD 0, mean, new, t.sector, m, n⟩
  else if leDist p.distance dtb ∧ p.distance = some e.maxDist then
    .done ⟨.maxDistance, p.energy, p.grammage, p.distance.getD 0, mean, new, t.sector, m, n⟩
  else if ∃ d, p.distance = some d ∧ |d - dtb| ≤ PARTICLE_POSITION_RESOLUTION then
    .done ⟨.border, p.energy, p.grammage, dtb, mean, new, t.sector, m, n⟩
  else
    .again ⟨-1, min dtb e.maxDist, t.gNext, t.sector, m, n, t.backscatter⟩

theorem decide_core (e : StepEnv) (t : Trial) (p : Proposed) (sc : Vec3 × Vec3 × Memo)
    (hsc : t.sector.util.directionsScatter e.ω p.memo p.grammage e.state.energy p.energy e.state.direction = sc) :
    decideStep e t p = core e t p sc.1 sc.2.1 sc.2.2 (sc.2.2.redraw e.ω) := by
  subst hsc
  rfl

theorem core_env (e : StepEnv) (t : Trial) (p : Proposed) (mean new : Vec3) (m m2 : Memo) :
    core (env ω' e) (trial' k t) (proposed k p) mean new m m2 = core e t p mean new m m2 := rfl

theorem core_again {e : StepEnv} {t t' : Trial} {p : Proposed} {mean new : Vec3} {m m2 : Memo} (h : core e t p mean new m m2 = .again t') :
    (t'.memo = m ∧ ∀ n n2, core e t p mean new n n2 = .again { t' with memo := n }) ∨
      (t'.memo = m2 ∧ ∀ n n2, core e t p mean new n n2 = .again { t' with memo := n2 }) := by
  unfold core at h ⊢
  simp only [] at h ⊢
  split_ifs at h with c1 c2 c3 c4 c5
  · rw [TrialResult.again.injEq] at h
    subst h
    left
    exact ⟨rfl, fun n n2 => by rw [if_neg c1, if_neg (not_not.mpr c2), if_neg c3, if_neg c4, if_neg c5]⟩
  all_goals
    cases hc : currentSector e.sectors e.state.position mean with
    | none => rw [hc] at h; cases h
    | some s =>
      rw [hc] at h
      rw [TrialResult.again.injEq] at h
      subst h
      rename_i hb
      first
        | (right; exact ⟨rfl, fun n n2 => by rw [if_neg c1, if_pos c2]; simp only [if_pos hb]⟩)
        | (left; exact ⟨rfl, fun n n2 => by rw [if_neg c1, if_pos c2]; simp only [if_neg hb]⟩)

theorem core_done {e : StepEnv} {t : Trial} {f : Finished} {p : Proposed} {mean new : Vec3} {m m2 : Memo}
    (h : core e t p mean new m m2 = .done f) : f.memo = m ∧ ∀ n n2, core e t p mean new n n2 = .done { f with memo := n } := by
  unfold core at h ⊢
  simp only [] at h ⊢
  split_ifs at h with c1 c2 c3 c4 c5
  · rw [TrialResult.done.injEq] at h
    subst h
    exact ⟨rfl, fun n n2 => by rw [if_pos c1]⟩
  · rw [TrialResult.done.injEq] at h
    subst h
    exact ⟨rfl, fun n n2 => by rw [if_neg c1, if_neg (not_not.mpr c2), if_pos c3]⟩
  · rw [TrialResult.done.injEq] at h
    subst h
    exact ⟨rfl, fun n n2 => by rw [if_neg c1, if_neg (not_not.mpr c2), if_neg c3, if_pos c4]⟩
  · rw [TrialResult.done.injEq] at h
    subst h
    exact ⟨rfl, fun n n2 => by rw [if_neg c1, if_neg (not_not.mpr c2), if_neg c3, if_neg c4, if_pos c5]⟩
  all_goals cases hc : currentSector e.sectors e.state.position mean <;> rw [hc] at h <;> cases h

theorem trial_again_replay {e : StepEnv} {t t' : Trial} (h : trial e t = .again t') :
    t.memo.pos ≤ t'.memo.pos ∧ (Replays e.ω ω' k t.memo.pos t'.memo.pos → trial (env ω' e) (trial' k t) = .again (trial' k t')) := by
  unfold trial at h ⊢
  cases hp : propose e t with
  | none => rw [hp] at h; cases h
  | some p =>
    rw [hp] at h
    simp only [] at h
    obtain ⟨sc, hsc⟩ : ∃ sc, t.sector.util.directionsScatter e.ω p.memo p.grammage e.state.energy p.energy e.state.direction = sc := ⟨_, rfl⟩
    rw [decide_core e t p sc hsc] at h
    have l1 := propose_le hp
    have l2 : p.memo.pos ≤ sc.2.2.pos := by rw [← hsc]; exact scatter_le _ _ _ _ _ _
    have l3 : sc.2.2.pos ≤ (sc.2.2.redraw e.ω).pos := redraw_le _
    have hsc' : Replays e.ω ω' k p.memo.pos sc.2.2.pos → (trial' k t).sector.util.directionsScatter (env ω' e).ω (proposed k p).memo
        (proposed k p).grammage (env ω' e).state.energy (proposed k p).energy (env ω' e).state.direction = (sc.1, sc.2.1, memo k sc.2.2) := by
      intro hr
      rw [← hsc] at hr ⊢
      exact scatter _ _ _ _ _ _ hr
    rcases core_again h with ⟨h1, h2⟩ | ⟨h1, h2⟩
    · refine ⟨by rw [h1]; omega, fun hr => ?_⟩
      rw [h1] at hr
      rw [propose_replay hp (mono hr le_rfl l2)]
      simp only []
      rw [decide_core _ _ _ _ (hsc' (mono hr l1 le_rfl)), core_env, h2]
      unfold trial'
      rw [h1]
    · refine ⟨by rw [h1]; omega, fun hr => ?_⟩
      rw [h1] at hr
      rw [propose_replay hp (mono hr le_rfl (by omega))]
      simp only []
      rw [decide_core _ _ _ _ (hsc' (mono hr l1 l3)), core_env, h2]
      unfold trial'
      rw [h1]
      simp only []
      rw [show (memo k sc.2.2).redraw (env ω' e).ω = memo k (sc.2.2.redraw e.ω) from redraw _ (mono hr (by omega) le_rfl)]

theorem trial_done_replay {e : StepEnv} {t : Trial} {f : Finished} (h : trial e t = .done f) :
    t.memo.pos ≤ f.memo.pos ∧ (Replays e.ω ω' k t.memo.pos f.memo.pos → trial (env ω' e) (trial' k t) = .done (finished k f)) := by
  unfold trial at h ⊢
  cases hp : propose e t with
  | none => rw [hp] at h; cases h
  | some p =>
    rw [hp] at h
    simp only [] at h
    obtain ⟨sc, hsc⟩ : ∃ sc, t.sector.util.directionsScatter e.ω p.memo p.grammage e.state.energy p.energy e.state.direction = sc := ⟨_, rfl⟩
    rw [decide_core e t p sc hsc] at h
    have l1 := propose_le hp
    have l2 : p.memo.pos ≤ sc.2.2.pos := by rw [← hsc]; exact scatter_le _ _ _ _ _ _
    have hsc' : Replays e.ω ω' k p.memo.pos sc.2.2.pos → (trial' k t).sector.util.directionsScatter (env ω' e).ω (proposed k p).memo
        (proposed k p).grammage (env ω' e).state.energy (proposed k p).energy (env ω' e).state.direction = (sc.1, sc.2.1, memo k sc.2.2) := by
      intro hr
      rw [← hsc] at hr ⊢
      exact scatter _ _ _ _ _ _ hr
    obtain ⟨h1, h2⟩ := core_done h
    refine ⟨by rw [h1]; omega, fun hr => ?_⟩
    rw [h1] at hr
    rw [propose_replay hp (mono hr le_rfl l2)]
    simp only []
    rw [decide_core _ _ _ _ (hsc' (mono hr l1 le_rfl)), core_env, h2]
    unfold finished
    rw [h1]

theorem loop_replay {e : StepEnv} (n : ℕ) {t : Trial} {f : Finished} (h : loop e n t = some (.ok f)) :
    t.memo.pos ≤ f.memo.pos ∧ (Replays e.ω ω' k t.memo.pos f.memo.pos → loop (env ω' e) n (trial' k t) = some (.ok (finished k f))) := by
  induction n generalizing t with
  | zero => simp [loop] at h
  | succ n ih =>
    unfold loop at h ⊢
    cases ht : trial e t with
    | fault f' => rw [ht] at h; simp at h
    | done f' =>
      rw [ht] at h
      obtain rfl := Except.ok.inj (Option.some.inj h)
      obtain ⟨h1, h2⟩ := trial_done_replay (ω' := ω') (k := k) ht
      exact ⟨h1, fun hr => by rw [h2 hr]⟩
    | again t' =>
      rw [ht] at h
      obtain ⟨h1, h2⟩ := trial_again_replay (ω' := ω') (k := k) ht
      obtain ⟨h3, h4⟩ := ih h
      exact ⟨h1.trans h3, fun hr => by rw [h2 (mono hr le_rfl h3)]; exact h4 (mono hr h1 le_rfl)⟩

/-- The result of a step with the place in the second stream. -/
def advanced (k : ℕ) (r : Advanced) : Advanced := ⟨r.type, r.state, r.sector, r.pos + k⟩

theorem finish_replay (e : StepEnv) (ms : Bool) (me : ℝ) (f : Finished) :
    f.memo.pos ≤ (finish e ms me f).pos ∧
      (Replays e.ω ω' k f.memo.pos (finish e ms me f).pos → finish (env ω' e) ms me (finished k f) = advanced k (finish e ms me f)) := by
  unfold finish
  by_cases c : ms = true ∧ f.type = .interaction
  · simp only [if_pos c]
    refine ⟨le_rfl, fun _ => ?_⟩
    have c' : ms = true ∧ (finished k f).type = .interaction := c
    simp only [if_pos c']
    rfl
  · simp only [if_neg c]
    refine ⟨randomize_le _ _ _ _ _, fun hr => ?_⟩
    have c' : ¬ (ms = true ∧ (finished k f).type = .interaction) := c
    have := randomize _ _ _ _ _ hr
    simp only [if_neg c']
    have e1 : (finished k f).sector.util.energyRandomize (env ω' e).ω (finished k f).memo (env ω' e).state.energy (finished k f).energy me =
      ((f.sector.util.energyRandomize e.ω f.memo e.state.energy f.energy me).1,
        memo k (f.sector.util.energyRandomize e.ω f.memo e.state.energy f.energy me).2) := this
    rw [e1]
    rfl

end Replay

/-- The situation with the place in the random stream increased. -/
def Spec.later (k : ℕ) (q : Prop') : Prop' := ⟨q.state, q.sector, q.track, q.pos + k, q.running⟩

/-- The arguments with another random stream. -/
def Spec.withStream (a : PropArgs) (ω' : ℕ → ℝ) : PropArgs := ⟨a.sectors, ω', a.maxDistance, a.minEnergy, a.hierarchyCondition⟩

namespace Replay
open Spec
variable {ω' : ℕ → ℝ} {k : ℕ}

theorem decay_replay (a : PropArgs) (q : Prop') :
    q.pos ≤ (eDecayOf a q).2 ∧ (Replays a.ω ω' k q.pos (eDecayOf a q).2 →
      eDecayOf (withStream a ω') (later k q) = ((eDecayOf a q).1, (eDecayOf a q).2 + k)) := by
  unfold eDecayOf Utility.energyDecay
  simp only [later, withStream]
  cases q.sector.util.decay with
  | none => exact ⟨le_rfl, fun _ => rfl⟩
  | some f =>
    refine ⟨Nat.le_succ _, fun hr => ?_⟩
    have := hr q.pos le_rfl (Nat.lt_succ_self _)
    simp only [this]
    congr 1
    omega

theorem stoch_replay (a : PropArgs) (q : Prop') :
    (eDecayOf a q).2 ≤ (eStochOf a q).2 ∧ (Replays a.ω ω' k q.pos (eStochOf a q).2 →
      eStochOf (withStream a ω') (later k q) = ((eStochOf a q).1, (eStochOf a q).2 + k)) := by
  obtain ⟨h1, h2⟩ := decay_replay (ω' := ω') (k := k) a q
  have h3 : (eStochOf a q).2 = (eDecayOf a q).2 + 1 := rfl
  refine ⟨by omega, fun hr => ?_⟩
  have e1 := h2 (mono hr le_rfl (by omega))
  unfold eStochOf Utility.energyInteraction at hr ⊢
  rw [e1]
  have := hr (eDecayOf a q).2 h1 (Nat.lt_succ_self _)
  simp only [later, withStream, this]
  congr 1
  omega

theorem advance_replay {a : PropArgs} {q : Prop'} {r : Advanced} (h : advanceOf a q = some (.ok r)) :
    (eStochOf a q).2 ≤ r.pos ∧ (Replays a.ω ω' k q.pos r.pos → advanceOf (withStream a ω') (later k q) = some (.ok (advanced k r)) ∧
      nextOf (withStream a ω') (later k q) = nextOf a q) := by
  obtain ⟨f, hf, rfl⟩ := advanceOf_ok h
  obtain ⟨l1, h1⟩ := loop_replay (ω' := ω') (k := k) _ hf
  obtain ⟨l2, h2⟩ := finish_replay (ω' := ω') (k := k) (envOf a q) (decide (nextOf a q = .minimalE)) (eMinOf a q) f
  obtain ⟨l3, h3⟩ := decay_replay (ω' := ω') (k := k) a q
  obtain ⟨l4, h4⟩ := stoch_replay (ω' := ω') (k := k) a q
  have l5 : (Trial.init (envOf a q) q.sector (eStochOf a q).2).memo.pos = (eStochOf a q).2 := rfl
  rw [l5] at l1 h1
  refine ⟨l1.trans l2, fun hr => ?_⟩
  have g3 := h3 (mono hr le_rfl (by omega))
  have g4 := h4 (mono hr le_rfl (by omega))
  have g1 := h1 (mono hr (by omega) l2)
  have g2 := h2 (mono hr (by omega) le_rfl)
  have hm : eMinOf (withStream a ω') (later k q) = eMinOf a q := rfl
  have hn : nextOf (withStream a ω') (later k q) = nextOf a q := by
    unfold nextOf
    rw [g3, g4, hm]
  have he : eNextOf (withStream a ω') (later k q) = eNextOf a q := by
    unfold eNextOf
    rw [hn, g3, g4, hm]
  refine ⟨?_, hn⟩
  have henv : envOf (withStream a ω') (later k q) = env ω' (envOf a q) := by
    unfold envOf
    rw [he]
    rfl
  unfold advanceOf advance
  rw [henv, hn, hm, g4]
  have hi : Trial.init (env ω' (envOf a q)) (later k q).sector ((eStochOf a q).2 + k) =
      trial' k (Trial.init (envOf a q) q.sector (eStochOf a q).2) := rfl
  simp only [hi, g1, Option.map_some, Except.map, g2]

theorem deflect_replay (u : Utility) (ω : ℕ → ℝ) (pos : ℕ) (type : IType) (a b : ℝ) (d : Vec3) (c : ℕ) :
    pos ≤ (u.directionDeflect ω pos type a b d c).2 ∧ (Replays ω ω' k pos (u.directionDeflect ω pos type a b d c).2 →
      u.directionDeflect ω' (pos + k) type a b d c =
        ((u.directionDeflect ω pos type a b d c).1, (u.directionDeflect ω pos type a b d c).2 + k)) := by
  unfold Utility.directionDeflect
  cases u.scattering with
  | none => exact ⟨le_rfl, fun _ => rfl⟩
  | some s =>
    simp only []
    cases s.deflection type with
    | none => exact ⟨le_rfl, fun _ => rfl⟩
    | some x =>
      obtain ⟨n, f⟩ := x
      simp only []
      refine ⟨Nat.le_add_right _ _, fun hr => ?_⟩
      have : (List.range n).map (fun j => ω' (pos + k + j)) = (List.range n).map (fun j => ω (pos + j)) := by
        refine List.map_congr_left fun j hj => ?_
        rw [List.mem_range] at hj
        rw [← hr (pos + j) (by omega) (by omega)]
        congr 1
        omega
      rw [this]
      congr 1
      omega

theorem doStochastic_replay (u : Utility) (ω : ℕ → ℝ) (s : PState) (pos : ℕ) :
    pos ≤ (doStochastic ω u s pos).2.2 ∧ (Replays ω ω' k pos (doStochastic ω u s pos).2.2 →
      doStochastic ω' u s (pos + k) = ((doStochastic ω u s pos).1, (doStochastic ω u s pos).2.1, (doStochastic ω u s pos).2.2 + k)) := by
  obtain ⟨h1, h2⟩ := deflect_replay (ω' := ω') (k := k) u ω (pos + 1) (u.stochasticLoss s.energy (ω pos)).type s.energy
    (s.energy * (1 - (u.stochasticLoss s.energy (ω pos)).v)) s.direction (u.stochasticLoss s.energy (ω pos)).comp
  have l : (doStochastic ω u s pos).2.2 = (u.directionDeflect ω (pos + 1) (u.stochasticLoss s.energy (ω pos)).type s.energy
    (s.energy * (1 - (u.stochasticLoss s.energy (ω pos)).v)) s.direction (u.stochasticLoss s.energy (ω pos)).comp).2 := rfl
  refine ⟨by rw [l]; omega, fun hr => ?_⟩
  rw [l] at hr
  have e1 := hr pos le_rfl (by omega)
  have e2 := h2 (mono hr (by omega) le_rfl)
  unfold doStochastic
  simp only [e1]
  rw [show pos + k + 1 = pos + 1 + k by omega, e2]

theorem react_replay {a : PropArgs} {q q' : Prop'} {next : NextType} {eMin : ℝ} {r : Advanced} (h : react a q next eMin r = .ok q') :
    r.pos ≤ q'.pos ∧ (Replays a.ω ω' k r.pos q'.pos →
      react (withStream a ω') (later k q) next eMin (advanced k r) = .ok (later k q')) := by
  unfold react at h ⊢
  simp only [advanced] at h ⊢
  cases hr : r.type with
  | interaction =>
    rw [hr] at h
    simp only [] at h ⊢
    cases next with
    | stochastic =>
      simp only [] at h ⊢
      obtain ⟨l1, h1⟩ := doStochastic_replay (ω' := ω') (k := k) r.sector.util a.ω r.state r.pos
      obtain rfl := Except.ok.inj h
      refine ⟨l1, fun hr => ?_⟩
      have := h1 hr
      simp only [withStream, this, later]
    | decay =>
      obtain rfl := Except.ok.inj h
      exact ⟨le_rfl, fun _ => rfl⟩
    | minimalE =>
      obtain rfl := Except.ok.inj h
      exact ⟨le_rfl, fun _ => rfl⟩
  | border =>
    rw [hr] at h
    simp only [withStream] at h ⊢
    cases hc : currentSector a.sectors r.state.position r.state.direction with
    | none => rw [hc] at h; cases h
    | some s =>
      rw [hc] at h
      obtain rfl := Except.ok.inj h
      exact ⟨le_rfl, fun _ => rfl⟩
  | maxDistance =>
    rw [hr] at h
    obtain rfl := Except.ok.inj h
    exact ⟨le_rfl, fun _ => rfl⟩

theorem step_replay {a : PropArgs} {q q' : Prop'} (h : propStep a q = .ok q') :
    q.pos < q'.pos ∧ (Replays a.ω ω' k q.pos q'.pos → propStep (withStream a ω') (later k q) = .ok (later k q')) := by
  unfold propStep at h ⊢
  cases hr : advanceOf a q with
  | none => rw [hr] at h; cases h
  | some x =>
    cases x with
    | error f => rw [hr] at h; cases h
    | ok r =>
      rw [hr] at h
      simp only [] at h
      obtain ⟨l1, h1⟩ := advance_replay (ω' := ω') (k := k) hr
      obtain ⟨l2, h2⟩ := react_replay (ω' := ω') (k := k) h
      have l3 := (decay_replay (ω' := ω') (k := k) a q).1
      have l4 : (eStochOf a q).2 = (eDecayOf a q).2 + 1 := rfl
      refine ⟨by omega, fun hR => ?_⟩
      obtain ⟨g1, g2⟩ := h1 (mono hR le_rfl l2)
      rw [g1]
      simp only []
      rw [g2]
      exact h2 (mono hR (by omega) le_rfl)

end Replay

open Spec in
/-- C153: the places in the stream never go back, and every iteration uses at least one number. -/
theorem C153_forward {a : PropArgs} {init : PState} {pos : ℕ} {q : Prop'} (h : Reachable a init pos q) :
    pos ≤ q.pos ∧ ∀ q', propStep a q = .ok q' → q.pos < q'.pos := by
  refine ⟨?_, fun q' hq' => (Replay.step_replay (ω' := a.ω) (k := 0) hq').1⟩
  induction h with
  | start q hq =>
    unfold propInit at hq
    cases hc : currentSector a.sectors init.position init.direction with
    | none => rw [hc] at hq; cases hq
    | some s =>
      rw [hc] at hq
      obtain rfl := Except.ok.inj hq
      exact le_rfl
  | step q q' _ _ hs ih => exact ih.trans (Replay.step_replay (ω' := a.ω) (k := 0) hs).1.le

open Spec in
/-- C153: a propagation depends only on the random numbers between its start and its end. With another stream that contains the same
numbers, at the same or at a later place, everything is the same: states, track, sector, and whether it goes on. The next number to be used
is the one behind them. -/
theorem C153_replay {a : PropArgs} {init : PState} {pos : ℕ} {q : Prop'} (h : Reachable a init pos q) (ω' : ℕ → ℝ) (k : ℕ)
    (hr : Replays a.ω ω' k pos q.pos) : Reachable (withStream a ω') init (pos + k) (later k q) := by
  induction h with
  | start q hq =>
    refine .start _ ?_
    unfold propInit at hq ⊢
    simp only [withStream]
    cases hc : currentSector a.sectors init.position init.direction with
    | none => rw [hc] at hq; cases hq
    | some s =>
      rw [hc] at hq
      obtain rfl := Except.ok.inj hq
      rfl
  | step q q' hq hrun hs ih =>
    obtain ⟨l1, h1⟩ := Replay.step_replay (ω' := ω') (k := k) hs
    exact .step _ _ (ih (Replay.mono hr le_rfl l1.le)) hrun (h1 (Replay.mono hr (C153_forward hq).1 le_rfl))

open Spec in
/-- C153: a finished propagation is the only result for these numbers: whatever the stream contains before and behind them, a propagation
that starts with the same numbers and comes to an end has the same result. -/
theorem C153_reproducible {a : PropArgs} {init : PState} {pos : ℕ} {q q' : Prop'} (h : Reachable a init pos q) (hend : q.running = false)
    (ω' : ℕ → ℝ) (k : ℕ) (hr : Replays a.ω ω' k pos q.pos) (h' : Reachable (withStream a ω') init (pos + k) q')
    (hend' : q'.running = false) : q' = later k q :=
  final_unique h' hend' (C153_replay h ω' k hr) hend

/-- A stream with ten other numbers in front gives the same propagation from the place 10 on. -/
example {a : PropArgs} {init : PState} {q : Prop'} (h : Reachable a init 0 q) :
    Reachable (Spec.withStream a fun i => if i < 10 then 1 / 3 else a.ω (i - 10)) init 10 (Spec.later 10 q) := by
  have := C153_replay h (fun i => if i < 10 then 1 / 3 else a.ω (i - 10)) 10 (by
    intro i _ _
    simp)
  simpa using this

/-- The finished run of `C12_overshoot`, with numbers that are only the same up to its end. -/
example (ω' : ℕ → ℝ) (h : ∀ i < Over.q2.pos, ω' i = Over.args.ω i) (q' : Prop') (h' : Reachable (Spec.withStream Over.args ω') Over.init 0 q')
    (he : q'.running = false) : q' = Over.q2 :=
  C153_reproducible Over.reach2 rfl ω' 0 (fun i _ hi => h i hi) h' he

end Proposal
