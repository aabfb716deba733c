import Verif.Props.Step

/-!
# Random numbers within one continuous step (C17, C67)
-/

namespace Proposal

open Spec

/-- How often the numbers of a step are redrawn by one repeated trial: once when the border or the
requested distance cannot be reached before the next interaction (Propagator.cxx 205-212), once when
the particle scatters back out of the sector for the second time (Propagator.cxx 264-271). -/
noncomputable def Spec.redraws (e : StepEnv) (t : Trial) (t' : Trial) : ℕ :=
  open Classical in
  (if t.energy = -1 ∧ t.gNext ≤ t.sector.dens.calculate e.state.position e.state.direction t.distance
    then 1 else 0) +
  (if t'.energy = e.eNext ∧ t'.distance = -1 ∧ t.backscatter = true then 1 else 0)

/-- The trials of one step, with the number of redraws so far. -/
inductive Spec.TrialOf (e : StepEnv) (s : Sector) (pos : ℕ) : Trial → ℕ → Prop
  | first : TrialOf e s pos (Trial.init e s pos) 0
  | next (t t' : Trial) (n : ℕ) : TrialOf e s pos t n → trial e t = .again t' →
      TrialOf e s pos t' (n + redraws e t t')

/-- The numbers which the scattering of the trial `t` with proposal `p` gets to see. -/
noncomputable def Spec.numbersSeen (e : StepEnv) (p : Proposed) : Fin 4 → ℝ := (p.memo.next4 e.ω).1

private lemma next_fresh (ω : ℕ → ℝ) (m : Memo) (h : m.slots m.idx = -1) :
    m.next ω = (ω m.pos, ⟨Function.update m.slots m.idx (ω m.pos), m.i + 1, m.pos + 1⟩) := by
  unfold Memo.next; rw [if_pos h]

private lemma next_old (ω : ℕ → ℝ) (m : Memo) (h : m.slots m.idx ≠ -1) :
    m.next ω = (m.slots m.idx, ⟨m.slots, m.i + 1, m.pos⟩) := by
  unfold Memo.next; rw [if_neg h]

/-- A memo holding the block of four numbers that starts at stream position `b`. -/
def HoldsBlock (ω : ℕ → ℝ) (m : Memo) (b : ℕ) : Prop :=
  m.i % 4 = 0 ∧ m.pos = b + 4 ∧ ∀ k : Fin 4, m.slots k = ω (b + k.val)

private lemma idx_of {m : Memo} {j : ℕ} (hj : j < 4) (h : m.i % 4 = j) : m.idx = ⟨j, hj⟩ := by
  unfold Memo.idx; simp [h]

private lemma next4_block {ω : ℕ → ℝ} (hω : ∀ n, ω n ≠ -1) {m : Memo} {b : ℕ} (h : HoldsBlock ω m b) :
    (∀ k : Fin 4, (m.next4 ω).1 k = ω (b + k.val)) ∧ HoldsBlock ω (m.next4 ω).2 b := by
  obtain ⟨slots, i, pos⟩ := m
  obtain ⟨h1, h2, h3⟩ := h
  simp only at h1 h2 h3
  have key : ∀ j (hj : j < 4), (⟨slots, i + j, pos⟩ : Memo).next ω = (ω (b + j), ⟨slots, i + j + 1, pos⟩) := by
    intro j hj
    have hi : (⟨slots, i + j, pos⟩ : Memo).idx = ⟨j, hj⟩ := idx_of hj (by simp only []; omega)
    rw [next_old ω _ (by rw [hi]; simp only [h3]; exact hω _), hi]
    simp only [h3]
  have k0 := key 0 (by norm_num)
  have k1 := key 1 (by norm_num)
  have k2 := key 2 (by norm_num)
  have k3 := key 3 (by norm_num)
  simp only [Nat.add_zero] at k0 k1 k2 k3
  unfold Memo.next4
  simp only [k0, k1, k2, k3]
  refine ⟨?_, by simp only []; omega, h2, h3⟩
  intro k
  fin_cases k <;> rfl

private lemma next4_init {ω : ℕ → ℝ} (pos : ℕ) :
    (∀ k : Fin 4, ((Memo.init pos).next4 ω).1 k = ω (pos + k.val)) ∧
      HoldsBlock ω ((Memo.init pos).next4 ω).2 pos := by
  have k0 : (Memo.init pos).next ω = (ω pos, ⟨![ω pos, -1, -1, -1], 1, pos + 1⟩) := by
    rw [next_fresh ω _ rfl, idx_of (j := 0) (by norm_num) rfl]
    congr 2
    ext k; fin_cases k <;> rfl
  have k1 : (⟨![ω pos, -1, -1, -1], 1, pos + 1⟩ : Memo).next ω =
      (ω (pos + 1), ⟨![ω pos, ω (pos + 1), -1, -1], 2, pos + 2⟩) := by
    rw [next_fresh ω _ rfl, idx_of (j := 1) (by norm_num) rfl]
    congr 2
    ext k; fin_cases k <;> rfl
  have k2 : (⟨![ω pos, ω (pos + 1), -1, -1], 2, pos + 2⟩ : Memo).next ω =
      (ω (pos + 2), ⟨![ω pos, ω (pos + 1), ω (pos + 2), -1], 3, pos + 3⟩) := by
    rw [next_fresh ω _ rfl, idx_of (j := 2) (by norm_num) rfl]
    congr 2
    ext k; fin_cases k <;> rfl
  have k3 : (⟨![ω pos, ω (pos + 1), ω (pos + 2), -1], 3, pos + 3⟩ : Memo).next ω =
      (ω (pos + 3), ⟨![ω pos, ω (pos + 1), ω (pos + 2), ω (pos + 3)], 4, pos + 4⟩) := by
    rw [next_fresh ω _ rfl, idx_of (j := 3) (by norm_num) rfl]
    congr 2
    ext k; fin_cases k <;> rfl
  unfold Memo.next4
  simp only [k0, k1, k2, k3]
  refine ⟨?_, by norm_num, rfl, ?_⟩ <;> (intro k; fin_cases k <;> rfl)

private lemma redraw_block {ω : ℕ → ℝ} {m : Memo} (h : m.i % 4 = 0) :
    HoldsBlock ω (m.redraw ω) m.pos := ⟨h, rfl, fun _ => rfl⟩

/-- Every sector uses multiple scattering. -/
def Spec.AllScatter (e : StepEnv) (s : Sector) : Prop :=
  ∀ s' : Sector, (s' = s ∨ s' ∈ e.sectors) →
    ∃ c f, s'.util.scattering = some c ∧ c.multiple = some f

private lemma scat_memo {e : StepEnv} {t : Trial} {p : Proposed}
    (h : ∃ c f, t.sector.util.scattering = some c ∧ c.multiple = some f) :
    (scat e t p).2.2 = (p.memo.next4 e.ω).2 := by
  obtain ⟨c, f, h1, h2⟩ := h
  unfold scat Utility.directionsScatter
  rw [h1]
  simp only []
  rw [h2]

private lemma c17_inv (e : StepEnv) (s : Sector) (pos : ℕ) (hω : ∀ n, e.ω n ≠ -1)
    (hs : AllScatter e s) (hE : e.eNext ≠ -1) (t : Trial) (n : ℕ) (h : TrialOf e s pos t n) :
    (t.sector = s ∨ t.sector ∈ e.sectors) ∧
    ((t = Trial.init e s pos ∧ n = 0) ∨ HoldsBlock e.ω t.memo (pos + 4 * n)) ∧
    ∀ p, propose e t = some p →
      (∀ k : Fin 4, numbersSeen e p k = e.ω (pos + 4 * (n + if t.energy = -1 ∧
        t.gNext ≤ t.sector.dens.calculate e.state.position e.state.direction t.distance
        then 1 else 0) + k.val)) ∧
      HoldsBlock e.ω (p.memo.next4 e.ω).2 (pos + 4 * (n + if t.energy = -1 ∧
        t.gNext ≤ t.sector.dens.calculate e.state.position e.state.direction t.distance
        then 1 else 0)) := by
  have prop : ∀ (t : Trial) (n : ℕ),
      ((t = Trial.init e s pos ∧ n = 0) ∨ HoldsBlock e.ω t.memo (pos + 4 * n)) →
      ∀ p, propose e t = some p →
      (∀ k : Fin 4, numbersSeen e p k = e.ω (pos + 4 * (n + if t.energy = -1 ∧
        t.gNext ≤ t.sector.dens.calculate e.state.position e.state.direction t.distance
        then 1 else 0) + k.val)) ∧
      HoldsBlock e.ω (p.memo.next4 e.ω).2 (pos + 4 * (n + if t.energy = -1 ∧
        t.gNext ≤ t.sector.dens.calculate e.state.position e.state.direction t.distance
        then 1 else 0)) := by
    intro t n ht p hp
    unfold Spec.numbersSeen
    rcases ht with ⟨rfl, rfl⟩ | ht
    · have hm : p.memo = Memo.init pos := by
        rcases propose_cases e (Trial.init e s pos) with ⟨_, _, h'⟩ | ⟨_, hx, _, h'⟩ | ⟨_, hx, _, h'⟩ | ⟨n1, n2, h'⟩
        · rw [hp] at h'
          obtain rfl := Option.some.inj h'
          rfl
        · exact absurd rfl hx
        · exact absurd rfl hx
        · rw [hp] at h'; cases h'
      rw [hm]
      have hn : ¬ ((Trial.init e s pos).energy = -1 ∧ (Trial.init e s pos).gNext ≤
          (Trial.init e s pos).sector.dens.calculate e.state.position e.state.direction
            (Trial.init e s pos).distance) := fun h => hE h.1
      rw [if_neg hn]
      exact next4_init pos
    · rcases propose_cases e t with ⟨h1, _, h'⟩ | ⟨_, _, hlt, h'⟩ | ⟨h1, _, hle, h'⟩ | ⟨n1, n2, h'⟩
      · rw [hp] at h'
        obtain rfl := Option.some.inj h'
        rw [if_neg (fun h => h1 h.1)]
        exact next4_block hω ht
      · rw [hp] at h'
        obtain rfl := Option.some.inj h'
        rw [if_neg (fun h => absurd h.2 (not_le.2 hlt))]
        exact next4_block hω ht
      · rw [hp] at h'
        obtain rfl := Option.some.inj h'
        rw [if_pos ⟨h1, hle⟩]
        have := redraw_block (ω := e.ω) ht.1
        rw [ht.2.1, show pos + 4 * n + 4 = pos + 4 * (n + 1) by ring] at this
        exact next4_block hω this
      · rw [hp] at h'; cases h'
  induction h with
  | first => exact ⟨Or.inl rfl, Or.inl ⟨rfl, rfl⟩, prop _ _ (Or.inl ⟨rfl, rfl⟩)⟩
  | next t t' n _ ha ih =>
    obtain ⟨i1, i2, i3⟩ := ih
    obtain ⟨p, hp, _, _, h⟩ := trial_again ha
    obtain ⟨_, j2⟩ := i3 p hp
    have hm : (scat e t p).2.2 = (p.memo.next4 e.ω).2 := scat_memo (hs _ i1)
    have h1 : t'.sector = s ∨ t'.sector ∈ e.sectors := by
      rcases h with ⟨_, hc, _⟩ | ⟨_, hc, _⟩
      · obtain ⟨_, l1, l2, h', _⟩ := (C08_current_sector _ _ _).1 _ hc
        right; rw [h']; simp
      · rw [hc]; exact i1
    have h2 : HoldsBlock e.ω t'.memo (pos + 4 * (n + redraws e t t')) := by
      unfold Spec.redraws
      rcases h with ⟨_, _, h3, h4, _, h5, _⟩ | ⟨_, _, h3, _, _, h5, _⟩
      · cases hb : t.backscatter with
        | false =>
          rw [hb] at h5
          simp only [Bool.false_eq_true, if_false] at h5
          rw [h5, hm]
          simpa using j2
        | true =>
          rw [hb] at h5
          simp only [if_true] at h5
          rw [h5, hm]
          have := redraw_block (ω := e.ω) j2.1
          rw [j2.2.1] at this
          simp only [h3, h4, and_self, if_true]
          convert this using 1
          ring
      · rw [h5, hm]
        have : ¬ (t'.energy = e.eNext ∧ t'.distance = -1 ∧ t.backscatter = true) := by
          intro hc
          rw [h3] at hc
          exact hE hc.1.symm
        rw [if_neg this, Nat.add_zero]
        exact j2
    exact ⟨h1, Or.inr h2, prop _ _ (Or.inr h2)⟩

/-- C17: all trials of a step between two redraws see the same four numbers, namely four consecutive
numbers of the stream; every redraw moves on by exactly four. So the numbers of a trial are those
starting at the position of the step plus four times the number of redraws up to and including
the proposal of that trial. -/
theorem C17_numbers_of_trial (e : StepEnv) (s : Sector) (pos : ℕ) (hω : ∀ n, e.ω n ≠ -1)
    (hs : AllScatter e s) (hE : e.eNext ≠ -1) (t : Trial) (n : ℕ) (h : TrialOf e s pos t n)
    (p : Proposed) (hp : propose e t = some p) (k : Fin 4) :
    numbersSeen e p k = e.ω (pos + 4 * (n + if t.energy = -1 ∧
        t.gNext ≤ t.sector.dens.calculate e.state.position e.state.direction t.distance
        then 1 else 0) + k.val) :=
  ((c17_inv e s pos hω hs hE t n h).2.2 p hp).1 k

/-- C17: a finished step consumed four numbers per set: the stream position after it is the start
plus four for the first set and four for every redraw. -/
theorem C17_consumed (e : StepEnv) (s : Sector) (pos : ℕ) (hω : ∀ n, e.ω n ≠ -1)
    (hs : AllScatter e s) (hE : e.eNext ≠ -1) (t : Trial) (n : ℕ) (h : TrialOf e s pos t n)
    (f : Finished) (hf : trial e t = .done f) (minStep : Bool) (minE : ℝ) :
    (finish e minStep minE f).pos = pos + 4 * (n + if t.energy = -1 ∧
        t.gNext ≤ t.sector.dens.calculate e.state.position e.state.direction t.distance
        then 1 else 0) + 4 := by
  obtain ⟨i1, _, i3⟩ := c17_inv e s pos hω hs hE t n h
  obtain ⟨p, hp, hsec, _, _, hmemo, _⟩ := trial_done hf
  obtain ⟨_, j2⟩ := i3 p hp
  rw [scat_memo (hs _ i1)] at hmemo
  have hpos : f.memo.pos = pos + 4 * (n + if t.energy = -1 ∧
        t.gNext ≤ t.sector.dens.calculate e.state.position e.state.direction t.distance
        then 1 else 0) + 4 := by rw [hmemo]; exact j2.2.1
  rw [← hpos]
  unfold finish
  simp only []
  split_ifs with hc
  · rfl
  · unfold Utility.energyRandomize
    cases f.sector.util.contRand with
    | none => rfl
    | some g =>
      simp only []
      rw [next_old e.ω f.memo]
      rw [hmemo, idx_of (j := 0) (by norm_num) j2.1, j2.2.2]
      exact hω _

/-- C67 is violated: the continuous randomisation does not get a random number of its own. In every
step with multiple scattering it is given the very first of the four numbers the scattering of the
accepted trial has already used, so energy fluctuation and deflection are fully correlated. -/
theorem C67_randomisation_reuses_scattering_number (e : StepEnv) (s : Sector) (pos : ℕ)
    (hω : ∀ n, e.ω n ≠ -1) (hs : AllScatter e s) (hE : e.eNext ≠ -1) (t : Trial) (n : ℕ)
    (h : TrialOf e s pos t n) (f : Finished) (hf : trial e t = .done f)
    (g : ℝ → ℝ → ℝ → ℝ → ℝ) (hg : f.sector.util.contRand = some g) (minE : ℝ) :
    ∃ p, propose e t = some p ∧
      (finish e false minE f).state.energy = g e.state.energy f.energy (numbersSeen e p 0) minE := by
  obtain ⟨i1, _, i3⟩ := c17_inv e s pos hω hs hE t n h
  obtain ⟨p, hp, hsec, _, _, hmemo, _⟩ := trial_done hf
  obtain ⟨j1, j2⟩ := i3 p hp
  rw [scat_memo (hs _ i1)] at hmemo
  refine ⟨p, hp, ?_⟩
  unfold finish Utility.energyRandomize
  simp only [hg]
  rw [j1 0, next_old e.ω f.memo]
  · simp only [Bool.false_eq_true, false_and, if_false]
    rw [hmemo, idx_of (j := 0) (by norm_num) j2.1, j2.2.2]
    rfl
  · rw [hmemo, idx_of (j := 0) (by norm_num) j2.1, j2.2.2]
    exact hω _

/-- A toy physics with multiple scattering and continuous randomisation. -/
noncomputable def Toy.scatUtil : Utility :=
  { Toy.util with
    scattering := some ⟨some (fun _ _ _ r => ⟨r 0 / 10, 0, 0, 0⟩), fun _ => none⟩
    contRand := some (fun E e r m => max m (min E (e + r))) }

/-- The hypotheses of C17 and C67 hold for a step in the toy world with scattering, and the first
trial is finished. -/
example : ∃ (e : StepEnv) (s : Sector) (f : Finished), (∀ n, e.ω n ≠ -1) ∧ AllScatter e s ∧
    e.eNext ≠ -1 ∧ trial e (Trial.init e s 0) = .done f := by
  let s : Sector := ⟨Toy.geo 10, Toy.scatUtil, Toy.dens⟩
  let e : StepEnv := ⟨[s], fun _ => 1 / 2, ⟨8, 0, ⟨0, 0, 0⟩, ⟨0, 0, 1⟩, 0⟩, 4, 20⟩
  have hp : propose e (Trial.init e s 0) = some ⟨4, 4, some 4, Memo.init 0⟩ := by
    unfold propose Trial.init
    norm_num [e, s, Toy.scatUtil, Toy.util, Toy.dens]
  refine ⟨e, s, ⟨.interaction, 4, 4, 4, (scat e (Trial.init e s 0) ⟨4, 4, some 4, Memo.init 0⟩).1,
      (scat e (Trial.init e s 0) ⟨4, 4, some 4, Memo.init 0⟩).2.1, s,
      (scat e (Trial.init e s 0) ⟨4, 4, some 4, Memo.init 0⟩).2.2, 1⟩, ?_, ?_, ?_, ?_⟩
  · intro n; norm_num [e]
  · intro s' hs'
    have : s' = s := by rcases hs' with h | h <;> simpa [e] using h
    subst this
    exact ⟨_, _, rfl, rfl⟩
  · norm_num [e]
  · unfold trial
    rw [hp]
    have hd : ∀ p d, distanceToBorder e.sectors p d (Trial.init e s 0).sector.geo = 10 := by
      intro p d
      unfold distanceToBorder
      simp [e, s, Trial.init, Toy.geo]
    have hi : ∀ p d, (Trial.init e s 0).sector.geo.isInside p d := fun p d =>
      Toy.inside (by norm_num) p d
    simp only [decideStep, hd, hi, leDist, MAX_STEPS]
    norm_num [e, StepEnv.maxDist, Trial.init, scat]

end Proposal
