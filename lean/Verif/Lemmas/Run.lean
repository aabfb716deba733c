import Verif.Lemmas.Propagator

/-! Helper lemmas about whole propagations. -/

namespace Proposal

lemma currentSector_mem {sectors : List Sector} {p d : Vec3} {s : Sector}
    (h : currentSector sectors p d = some s) : s ∈ sectors := by
  obtain ⟨_, l1, l2, h', _⟩ := (C08_current_sector sectors p d).1 s h
  rw [h']; simp

lemma propStep_ok {a : PropArgs} {q q' : Prop'} (h : propStep a q = .ok q') :
    ∃ r, advanceOf a q = some (.ok r) ∧ react a q (nextOf a q) (eMinOf a q) r = .ok q' := by
  unfold propStep at h
  cases hr : advanceOf a q with
  | none => rw [hr] at h; cases h
  | some x =>
    rw [hr] at h
    cases x with
    | error f => cases h
    | ok r => exact ⟨r, rfl, h⟩

lemma advanceOf_ok {a : PropArgs} {q : Prop'} {r : Advanced} (h : advanceOf a q = some (.ok r)) :
    ∃ f, loop (envOf a q) (MAX_STEPS + 1) (Trial.init (envOf a q) q.sector (eStochOf a q).2) =
        some (.ok f) ∧ r = finish (envOf a q) (decide (nextOf a q = .minimalE)) (eMinOf a q) f :=
  advance_ok h

/-- Inversion of the reaction to a finished step. -/
lemma react_ok {a : PropArgs} {q q' : Prop'} {n : NextType} {eM : ℝ} {r : Advanced}
    (h : react a q n eM r = .ok q') :
    (r.type = .interaction ∧ n = .stochastic ∧ q'.sector = r.sector ∧
      q'.state = (doStochastic a.ω r.sector.util r.state r.pos).2.1 ∧
      (q'.running = true ↔ eM < q'.state.energy) ∧
      ((doStochastic a.ω r.sector.util r.state r.pos).1.type ≠ .undefined ∧
        q'.track = q.track ++ [⟨r.state, .continuousEnergyLoss, 0⟩] ++
        [⟨q'.state, (doStochastic a.ω r.sector.util r.state r.pos).1.type,
          (doStochastic a.ω r.sector.util r.state r.pos).1.comp⟩] ∨
       (doStochastic a.ω r.sector.util r.state r.pos).1.type = .undefined ∧
        q'.track = q.track ++ [⟨r.state, .continuousEnergyLoss, 0⟩])) ∨
    (r.type = .interaction ∧ n = .decay ∧ q'.sector = r.sector ∧ q'.state = r.state ∧
      q'.running = false ∧
      q'.track = q.track ++ [⟨r.state, .continuousEnergyLoss, 0⟩] ++ [⟨r.state, .decay, 0⟩]) ∨
    (r.type = .interaction ∧ n = .minimalE ∧ q'.sector = r.sector ∧ q'.state = r.state ∧
      q'.running = false ∧ q'.track = q.track ++ [⟨r.state, .continuousEnergyLoss, 0⟩]) ∨
    (r.type = .maxDistance ∧ q'.sector = r.sector ∧ q'.state = r.state ∧
      q'.running = false ∧ q'.track = q.track ++ [⟨r.state, .continuousEnergyLoss, 0⟩]) ∨
    (r.type = .border ∧ currentSector a.sectors r.state.position r.state.direction = some q'.sector ∧
      q'.state = r.state ∧
      (q'.running = false ↔ (r.sector.geo.hierarchy > a.hierarchyCondition ∧
        q'.sector.geo.hierarchy < a.hierarchyCondition)) ∧
      q'.track = q.track ++ [⟨r.state, .continuousEnergyLoss, 0⟩]) := by
  unfold react at h
  simp only [] at h
  cases ht : r.type with
  | interaction =>
    rw [ht] at h
    cases n with
    | stochastic =>
      left
      simp only [Except.ok.injEq] at h
      subst h
      refine ⟨rfl, rfl, rfl, rfl, by simp, ?_⟩
      by_cases hc : (doStochastic a.ω r.sector.util r.state r.pos).1.type ≠ .undefined
      · left
        exact ⟨hc, by simp only [hc, if_true, ne_eq, not_false_eq_true]⟩
      · right
        refine ⟨not_not.1 hc, ?_⟩
        simp only [hc, if_false]
    | decay =>
      right; left
      simp only [Except.ok.injEq] at h
      subst h
      exact ⟨rfl, rfl, rfl, rfl, rfl, rfl⟩
    | minimalE =>
      right; right; left
      simp only [Except.ok.injEq] at h
      subst h
      exact ⟨rfl, rfl, rfl, rfl, rfl, rfl⟩
  | maxDistance =>
    rw [ht] at h
    right; right; right; left
    simp only [Except.ok.injEq] at h
    subst h
    exact ⟨rfl, rfl, rfl, rfl, rfl⟩
  | border =>
    rw [ht] at h
    right; right; right; right
    cases hc : currentSector a.sectors r.state.position r.state.direction with
    | none => rw [hc] at h; cases h
    | some s =>
      rw [hc] at h
      simp only [Except.ok.injEq] at h
      subst h
      refine ⟨rfl, rfl, rfl, ?_, rfl⟩
      rw [decide_eq_false_iff_not, not_not]

/-- Sectors of trials come from the list. -/
lemma loop_sector_mem {e : StepEnv} {s : Sector} (hs : s ∈ e.sectors) {k pos : ℕ} {f : Finished}
    (h : loop e k (Trial.init e s pos) = some (.ok f)) : f.sector ∈ e.sectors := by
  obtain ⟨t', ht', h' | h'⟩ := loop_inv (e := e) (fun t => t.sector ∈ e.sectors)
    (fun t t' ht h => by
      obtain ⟨p, _, _, _, h⟩ := trial_again h
      rcases h with ⟨_, hc, _⟩ | ⟨_, hc, _⟩
      · exact currentSector_mem hc
      · rw [hc]; exact ht) k _ hs _ h
  · obtain ⟨f', hf', hd⟩ := h'
    obtain rfl := Except.ok.inj hf'
    obtain ⟨p, _, hsec, _⟩ := trial_done hd
    rw [hsec]; exact ht'
  · obtain ⟨f', hf', _⟩ := h'; cases hf'

lemma doStochastic_keeps (ω : ℕ → ℝ) (u : Utility) (s : PState) (pos : ℕ) :
    (doStochastic ω u s pos).2.1.position = s.position ∧
    (doStochastic ω u s pos).2.1.time = s.time ∧
    (doStochastic ω u s pos).2.1.distance = s.distance ∧
    (doStochastic ω u s pos).1 = u.sampleLoss s.energy (ω pos) ∧
    (doStochastic ω u s pos).2.1.energy = s.energy * (1 - (u.sampleLoss s.energy (ω pos)).v) :=
  ⟨rfl, rfl, rfl, rfl, rfl⟩

/-- The sector of every situation is in the list, the track is never empty, and its last entry has
the current position, time and distance. -/
structure Basic (a : PropArgs) (q : Prop') : Prop where
  mem : q.sector ∈ a.sectors
  last : ∃ l x, q.track = l ++ [x] ∧ x.state.position = q.state.position ∧
    x.state.time = q.state.time ∧ x.state.distance = q.state.distance

lemma propInit_ok {a : PropArgs} {init : PState} {pos : ℕ} {q : Prop'} (h : propInit a init pos = .ok q) :
    q.state = init ∧ q.sector ∈ a.sectors ∧ q.track = [⟨init, .continuousEnergyLoss, 0⟩] ∧
      q.running = true := by
  unfold propInit at h
  cases hc : currentSector a.sectors init.position init.direction with
  | none => rw [hc] at h; cases h
  | some s =>
    rw [hc] at h
    simp only [Except.ok.injEq] at h
    subst h
    exact ⟨rfl, currentSector_mem hc, rfl, rfl⟩

lemma r_sector_mem {a : PropArgs} {q : Prop'} (hq : q.sector ∈ a.sectors) {r : Advanced}
    (h : advanceOf a q = some (.ok r)) : r.sector ∈ a.sectors := by
  obtain ⟨f, hf, rfl⟩ := advanceOf_ok h
  exact loop_sector_mem (e := envOf a q) hq hf

/-- What one iteration of `Propagate` does to the track, uniformly over all cases. -/
lemma step_shape {a : PropArgs} {q q' : Prop'} (h : propStep a q = .ok q') :
    ∃ r, advanceOf a q = some (.ok r) ∧
      q'.state.position = r.state.position ∧ q'.state.time = r.state.time ∧
      q'.state.distance = r.state.distance ∧
      ((q'.track = q.track ++ [⟨r.state, .continuousEnergyLoss, 0⟩] ∧
          (q'.state = r.state ∨ q'.state = (doStochastic a.ω r.sector.util r.state r.pos).2.1)) ∨
       (∃ x : Entry, x.state = q'.state ∧
          q'.track = q.track ++ [⟨r.state, .continuousEnergyLoss, 0⟩] ++ [x] ∧
          ((x.type = .decay ∧ q'.state = r.state ∧ q'.running = false) ∨
           (x.type = (doStochastic a.ω r.sector.util r.state r.pos).1.type ∧
            x.target = (doStochastic a.ω r.sector.util r.state r.pos).1.comp ∧
            q'.state = (doStochastic a.ω r.sector.util r.state r.pos).2.1 ∧ x.type ≠ .undefined)))) := by
  obtain ⟨r, hr, hq⟩ := propStep_ok h
  refine ⟨r, hr, ?_⟩
  have hk := doStochastic_keeps a.ω r.sector.util r.state r.pos
  rcases react_ok hq with ⟨_, _, _, hs, _, h | h⟩ | ⟨_, _, _, hs, hr, h⟩ | ⟨_, _, _, hs, _, h⟩ | ⟨_, _, hs, _, h⟩ |
    ⟨_, _, hs, _, h⟩
  · exact ⟨by rw [hs, hk.1], by rw [hs, hk.2.1], by rw [hs, hk.2.2.1],
      Or.inr ⟨_, rfl, h.2, Or.inr ⟨rfl, rfl, hs, h.1⟩⟩⟩
  · exact ⟨by rw [hs, hk.1], by rw [hs, hk.2.1], by rw [hs, hk.2.2.1], Or.inl ⟨h.2, Or.inr hs⟩⟩
  · exact ⟨by rw [hs], by rw [hs], by rw [hs], Or.inr ⟨_, hs.symm, h, Or.inl ⟨rfl, hs, hr⟩⟩⟩
  all_goals exact ⟨by rw [hs], by rw [hs], by rw [hs], Or.inl ⟨h, Or.inl hs⟩⟩

lemma reachable_basic {a : PropArgs} {init : PState} {pos : ℕ} {q : Prop'}
    (h : Reachable a init pos q) : Basic a q := by
  induction h with
  | start q hq =>
    obtain ⟨h1, h2, h3, _⟩ := propInit_ok hq
    exact ⟨h2, [], _, by rw [h3]; rfl, by rw [h1], by rw [h1], by rw [h1]⟩
  | step q q' _ _ hs ih =>
    obtain ⟨r, hr, hq⟩ := propStep_ok hs
    refine ⟨?_, ?_⟩
    · have hm := r_sector_mem ih.mem hr
      rcases react_ok hq with ⟨_, _, h, _⟩ | ⟨_, _, h, _⟩ | ⟨_, _, h, _⟩ | ⟨_, h, _⟩ | ⟨_, h, _⟩
      · rw [h]; exact hm
      · rw [h]; exact hm
      · rw [h]; exact hm
      · rw [h]; exact hm
      · exact currentSector_mem h
    · obtain ⟨r, _, h1, h2, h3, h | ⟨x, hx, h, _⟩⟩ := step_shape hs
      · exact ⟨_, _, h.1, h1.symm, h2.symm, h3.symm⟩
      · exact ⟨_, _, h, by rw [hx], by rw [hx], by rw [hx]⟩

/-- Extending a chain at the end. -/
lemma isChain_snoc {α : Type*} {R : α → α → Prop} {l : List α} {x y : α}
    (h : List.IsChain R (l ++ [x])) (hxy : R x y) : List.IsChain R (l ++ [x] ++ [y]) := by
  rw [List.isChain_append]
  refine ⟨h, List.isChain_singleton _, ?_⟩
  intro u hu v hv
  simp at hu hv
  rw [← hu, ← hv]; exact hxy

/-- General induction: if every continuous step and every extra entry respects `R`, the track is an
`R`-chain. `I` is an invariant of the situation and its last entry. -/
lemma chain_induction {a : PropArgs} {init : PState} {pos : ℕ} (R : Entry → Entry → Prop)
    (I : Prop' → Entry → Prop)
    (h0 : ∀ q, propInit a init pos = .ok q → I q ⟨init, .continuousEnergyLoss, 0⟩)
    (hstep : ∀ q q' l x r, Reachable a init pos q → q.running = true → q.track = l ++ [x] → I q x →
      propStep a q = .ok q' → advanceOf a q = some (.ok r) →
      R x ⟨r.state, .continuousEnergyLoss, 0⟩ ∧
      (q'.track = q.track ++ [⟨r.state, .continuousEnergyLoss, 0⟩] → I q' ⟨r.state, .continuousEnergyLoss, 0⟩) ∧
      (∀ y, q'.track = q.track ++ [⟨r.state, .continuousEnergyLoss, 0⟩] ++ [y] →
        R ⟨r.state, .continuousEnergyLoss, 0⟩ y ∧ I q' y))
    {q : Prop'} (h : Reachable a init pos q) :
    List.IsChain R q.track ∧ ∃ l x, q.track = l ++ [x] ∧ I q x := by
  induction h with
  | start q hq =>
    obtain ⟨h1, h2, h3, _⟩ := propInit_ok hq
    rw [h3]
    exact ⟨List.isChain_singleton _, [], _, rfl, h0 q hq⟩
  | step q q' hreach hrun hs ih =>
    obtain ⟨hc, l, x, hx, hI⟩ := ih
    obtain ⟨r, hr, _, _, _, h | ⟨y, _, h, _⟩⟩ := step_shape hs
    · obtain ⟨k1, k2, _⟩ := hstep q q' l x r hreach hrun hx hI hs hr
      refine ⟨?_, _, _, h.1, k2 h.1⟩
      rw [h.1, hx]; rw [hx] at hc
      exact isChain_snoc hc k1
    · obtain ⟨k1, _, k2⟩ := hstep q q' l x r hreach hrun hx hI hs hr
      obtain ⟨k2, k3⟩ := k2 y h
      refine ⟨?_, _, _, h, k3⟩
      rw [h, hx]; rw [hx] at hc
      exact isChain_snoc (isChain_snoc hc k1) k2

end Proposal
