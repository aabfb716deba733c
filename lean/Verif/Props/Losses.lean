import Verif.Model.Track
import Verif.Props.Overshoot

/-!
# Loss lists of a track (C19, C20)
-/

namespace Proposal

open Spec

/-- The energy lost in decay entries. -/
def Spec.decayDrop (l : List Entry) : ℝ :=
  (((l.zip l.tail).filter (fun p => p.2.type = .decay)).map
    (fun p => p.1.state.energy - p.2.state.energy)).sum

private lemma steps_cons (a b : Entry) (l : List Entry) :
    steps (a :: b :: l) = (a, b) :: steps (b :: l) := rfl

private lemma mem_steps (l : List Entry) (x y : Entry) :
    (x, y) ∈ steps l ↔ ∃ i, l[i]? = some x ∧ l[i + 1]? = some y := by
  unfold steps
  simp only [List.mem_iff_getElem?, List.getElem?_zip_eq_some, List.getElem?_tail]

/-- C19: for every track, continuous losses, stochastic losses and the energy drop in decay entries
add up to initial minus final energy. -/
theorem C19_energy_balance (x : Entry) (l : List Entry) (y : Entry)
    (hy : (x :: l).getLast? = some y) :
    ((continuousLosses (x :: l)).map ContLoss.energy).sum +
      ((stochasticLosses (x :: l)).map StochLoss.energy).sum + decayDrop (x :: l) =
      x.state.energy - y.state.energy := by
  unfold Spec.decayDrop continuousLosses stochasticLosses
  change _ + _ + (((steps (x :: l)).filter _).map _).sum = _
  simp only [List.map_map]
  induction l generalizing x with
  | nil => simp at hy; subst hy; simp [steps]
  | cons b l ih =>
    have ih := ih b (by simpa using hy)
    rw [steps_cons]
    by_cases h1 : b.type = .continuousEnergyLoss
    · simp [h1, mkCont] at ih ⊢
      linarith
    · by_cases h2 : b.type = .decay
      · simp [h2] at ih ⊢
        linarith
      · simp [h1, h2, mkStoch] at ih ⊢
        linarith

/-- C19: in every propagation the reported continuous and stochastic losses alone add up to initial
minus final energy, because decays change no energy. The loss sampling must not report a decay. -/
theorem C19_energy_balance_of_propagation (a : PropArgs) (init : PState) (pos : ℕ) (q : Prop') (y : Entry)
    (hloss : ∀ s ∈ a.sectors, ∀ E rnd, (s.util.sampleLoss E rnd).type ≠ .decay)
    (h : Reachable a init pos q) (hy : q.track.getLast? = some y) :
    ((continuousLosses q.track).map ContLoss.energy).sum +
      ((stochasticLosses q.track).map StochLoss.energy).sum = init.energy - y.state.energy := by
  obtain ⟨l, hl⟩ := C15_track_head a init pos q h
  have h2 := C14_reported_fraction a init pos q h
  rw [hl] at h2 hy ⊢
  rw [← C19_energy_balance _ l y hy]
  suffices decayDrop (⟨init, .continuousEnergyLoss, 0⟩ :: l) = 0 by rw [this, add_zero]
  generalize (⟨init, .continuousEnergyLoss, 0⟩ : Entry) = x at h2
  unfold Spec.decayDrop
  clear hl hy
  change (((steps (x :: l)).filter _).map _).sum = 0
  induction l generalizing x with
  | nil => rfl
  | cons b l ih =>
    rw [List.isChain_cons_cons] at h2
    have := ih b h2.2
    rw [steps_cons]
    by_cases hb : b.type = .decay
    · have e : b.state.energy = x.state.energy := by
        rcases h2.1 (by simp [hb]) with h | ⟨s, hs, rnd, h, _⟩
        · rw [h.2]
        · rw [hb] at h; exact absurd h.symm (hloss s hs _ _)
      simp only [List.filter_cons, hb, decide_true, if_true, List.map_cons, List.sum_cons, e, this]
      ring
    · simpa [List.filter_cons, hb] using this

/-- C20: every entry after the first is reported exactly once: as a continuous loss, as a stochastic
loss, or as a decay. -/
theorem C20_partition (l : List Entry) :
    (continuousLosses l).length + (stochasticLosses l).length +
      (stochasticLossesOf .decay l).length = l.length - 1 := by
  cases l with
  | nil => simp [continuousLosses, stochasticLosses, stochasticLossesOf, steps]
  | cons x l =>
    unfold continuousLosses stochasticLosses stochasticLossesOf
    simp only [List.length_map]
    induction l generalizing x with
    | nil => simp [steps]
    | cons b l ih =>
      have ih := ih b
      rw [steps_cons]
      by_cases h1 : b.type = .continuousEnergyLoss
      · simp [h1] at ih ⊢
        omega
      · by_cases h2 : b.type = .decay
        · simp [h2] at ih ⊢
          omega
        · simp [h1, h2] at ih ⊢
          omega

/-- C20: a stochastic loss is reported exactly for those consecutive entries `x, y` of the track
where `y` is neither a continuous loss nor a decay; it carries the type, place, time, target of `y`,
the energy before and the energy difference. -/
theorem C20_stochastic_content (l : List Entry) (s : StochLoss) :
    s ∈ stochasticLosses l ↔
    ∃ i x y, l[i]? = some x ∧ l[i + 1]? = some y ∧
      y.type ≠ .continuousEnergyLoss ∧ y.type ≠ .decay ∧
      s = ⟨y.type, x.state.energy - y.state.energy, y.state.position, y.state.direction, y.state.time,
        y.state.distance, x.state.energy, y.target⟩ := by
  unfold stochasticLosses
  simp only [List.mem_map, List.mem_filter, mem_steps, decide_eq_true_eq, Prod.exists]
  constructor
  · rintro ⟨x, y, ⟨⟨i, h1, h2⟩, h3, h4⟩, rfl⟩
    exact ⟨i, x, y, h1, h2, h3, h4, rfl⟩
  · rintro ⟨i, x, y, h1, h2, h3, h4, rfl⟩
    exact ⟨x, y, ⟨⟨i, h1, h2⟩, h3, h4⟩, rfl⟩

/-- C20: a continuous loss is reported exactly for those consecutive entries whose second one is a
continuous loss, with the end points, directions and times of the step. -/
theorem C20_continuous_content (l : List Entry) (s : ContLoss) :
    s ∈ continuousLosses l ↔
    ∃ i x y, l[i]? = some x ∧ l[i + 1]? = some y ∧ y.type = .continuousEnergyLoss ∧
      s = ⟨x.state.energy - y.state.energy, x.state.energy, x.state.position, y.state.position,
        x.state.direction, y.state.direction, x.state.time, y.state.time⟩ := by
  unfold continuousLosses
  simp only [List.mem_map, List.mem_filter, mem_steps, decide_eq_true_eq, Prod.exists]
  constructor
  · rintro ⟨x, y, ⟨⟨i, h1, h2⟩, h3⟩, rfl⟩
    exact ⟨i, x, y, h1, h2, h3, rfl⟩
  · rintro ⟨i, x, y, h1, h2, h3, rfl⟩
    exact ⟨x, y, ⟨⟨i, h1, h2⟩, h3⟩, rfl⟩

/-- C20: the losses of one stochastic type are the matching sublist, in order. -/
theorem C20_by_type (l : List Entry) (t : IType) (h1 : t ≠ .continuousEnergyLoss) (h2 : t ≠ .decay) :
    stochasticLossesOf t l = (stochasticLosses l).filter (fun s => s.type = t) := by
  unfold stochasticLossesOf stochasticLosses
  rw [List.filter_map, List.filter_filter]
  congr 1
  apply List.filter_congr
  intro p _
  by_cases h : p.2.type = t
  · simp [mkStoch, h, h1, h2]
  · simp [mkStoch, h]

/-- C20: the losses by name are the losses by type, for every type that has a name; any other name
is undefined behaviour. -/
theorem C20_by_name (l : List Entry) :
    (∀ t n, t.name = some n → stochasticLossesNamed n l = some (stochasticLossesOf t l)) ∧
    (∀ n, (∀ t : IType, t.name ≠ some n) → stochasticLossesNamed n l = none) := by
  constructor
  · intro t n hn
    unfold stochasticLossesNamed
    suffices h : IType.all.find? (fun t => t.name = some n) = some t by rw [h]; rfl
    cases t <;> simp [IType.name] at hn <;> subst hn <;> decide
  · intro n hn
    unfold stochasticLossesNamed
    rw [List.find?_eq_none.2]
    · rfl
    · intro t _; simpa using hn t

/-- C20: restricted to a geometry both lists are sublists of the full ones, in order; they contain
exactly the losses whose end point is inside. -/
theorem C20_by_geometry (g : Geo) (l : List Entry) :
    (stochasticLossesIn g l).Sublist (stochasticLosses l) ∧
    (continuousLossesIn g l).Sublist (continuousLosses l) ∧
    (∀ s, s ∈ stochasticLossesIn g l ↔ s ∈ stochasticLosses l ∧ g.isInside s.position s.direction) ∧
    (∀ s, s ∈ continuousLossesIn g l ↔ s ∈ continuousLosses l ∧ g.isInside s.endPosition s.directionFinal) := by
  classical
  have e1 : stochasticLossesIn g l =
      (stochasticLosses l).filter (fun s => decide (g.isInside s.position s.direction)) := by
    unfold stochasticLossesIn stochasticLosses
    rw [List.filter_map, List.filter_filter]
    congr 1
    apply List.filter_congr
    intro p _
    rw [Bool.eq_iff_iff]; simp [mkStoch]
    intros; exact decide_eq_true_iff.symm
  have e2 : continuousLossesIn g l =
      (continuousLosses l).filter (fun s => decide (g.isInside s.endPosition s.directionFinal)) := by
    unfold continuousLossesIn continuousLosses
    rw [List.filter_map, List.filter_filter]
    congr 1
    apply List.filter_congr
    intro p _
    rw [Bool.eq_iff_iff]; simp [mkCont]
    intros; exact decide_eq_true_iff.symm
  rw [e1, e2]
  refine ⟨List.filter_sublist, List.filter_sublist, ?_, ?_⟩ <;> intro s <;> simp

/-- The track of `Over.reach2` has three entries and is an instance of all the theorems above. -/
example : ∃ (a : PropArgs) (init : PState) (q : Prop'), Reachable a init 0 q ∧
    (∀ s ∈ a.sectors, ∀ E rnd, (s.util.sampleLoss E rnd).type ≠ .decay) ∧ q.track.length = 3 := by
  refine ⟨Over.args, Over.init, Over.q2, Over.reach2, ?_, rfl⟩
  intro s hs
  have : s.util = Toy.util := by
    simp only [Over.args, List.mem_cons, List.not_mem_nil, or_false] at hs
    rcases hs with rfl | rfl <;> rfl
  rw [this]
  intro E rnd; simp [Toy.util]

end Proposal
