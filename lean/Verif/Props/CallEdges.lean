import Verif.Props.Vec3
import Verif.Props.Random
import Verif.Props.Losses
import Verif.Props.Rates

/-!
# Calls of the optional calculators, tracks in a geometry and rates of a medium (C20, C32, C60, C61)
-/

namespace Proposal

open Spec

/-- C60, C61: a randomisation gets the energy before the step, the energy after it, a number of the generator and the minimal energy, in this
order, and one number is drawn. -/
theorem C60_randomised (u : Utility) (f : ℝ → ℝ → ℝ → ℝ → ℝ) (h : u.contRand = some f) (ω : ℕ → ℝ) (pos : ℕ) (initial final minEnergy : ℝ) :
    (u.energyRandomize ω (Memo.init pos) initial final minEnergy).1 = f initial final (ω pos) minEnergy ∧
    (u.energyRandomize ω (Memo.init pos) initial final minEnergy).2.pos = pos + 1 := by
  unfold Utility.energyRandomize
  rw [h]
  simp only [Memo.next, Memo.init, if_true, and_self]

/-- C60: a stochastic deflection turns the direction by the first angle of its calculator, and draws as many numbers as the calculator needs;
the calculator gets the energies before and after the loss, these numbers and the component. -/
theorem C60_deflection (u : Utility) (s : ScatterCalc) (hs : u.scattering = some s) (type : IType) (n : ℕ)
    (f : ℝ → ℝ → List ℝ → ℕ → ℝ × ℝ) (hf : s.deflection type = some (n, f)) (ω : ℕ → ℝ) (pos : ℕ) (initial final : ℝ) (dir : Vec3)
    (hd : UnitVec dir) (comp : ℕ) (θ φ : ℝ) (ha : f initial final ((List.range n).map fun k => ω (pos + k)) comp = (θ, φ)) :
    UnitVec (u.directionDeflect ω pos type initial final dir comp).1 ∧
    cosAngle dir (u.directionDeflect ω pos type initial final dir comp).1 = Real.cos θ ∧
    (u.directionDeflect ω pos type initial final dir comp).2 = pos + n := by
  unfold Utility.directionDeflect
  simp only [hs, hf, ha]
  exact ⟨C45_deflect_unit dir hd _ _, C45_deflect_angle dir hd _ _ (Real.neg_one_le_cos θ) (Real.cos_le_one θ), trivial⟩

/-- C60: without a calculator for its type a loss does not change the direction and draws nothing. -/
theorem C60_no_deflection (u : Utility) (s : ScatterCalc) (hs : u.scattering = some s) (type : IType) (hf : s.deflection type = none)
    (ω : ℕ → ℝ) (pos : ℕ) (initial final : ℝ) (dir : Vec3) (comp : ℕ) :
    u.directionDeflect ω pos type initial final dir comp = (dir, pos) := by
  unfold Utility.directionDeflect
  simp only [hs, hf, Real.cos_zero]
  rw [(C45_deflect_extreme dir 1 0).1 le_rfl]

/-- C20: the track inside a geometry consists of the states of the track that are inside, in their order. -/
theorem C20_track_in (g : Geo) (l : List Entry) :
    (trackIn g l).Sublist (l.map Entry.state) ∧ ∀ s, s ∈ trackIn g l ↔ (∃ e ∈ l, e.state = s) ∧ g.isInside s.position s.direction := by
  classical
  unfold trackIn
  refine ⟨List.filter_sublist, fun s => ?_⟩
  rw [List.mem_filter, List.mem_map, decide_eq_true_iff]

/-- C32: the rate and the losses of a parametrization for a whole medium are those of its calculator, unless everything is continuous. -/
theorem C32_medium (n : ℕ) (c : DndxCalc) (cut : Option Cut) (h : ¬ onlyContinuous cut) (E r : ℝ) :
    ndxOf (buildDndxMedium n c cut) E = c.rate E ∧ perTargetOf (buildDndxMedium n c cut) E = [(n, c.rate E)] ∧
    stochasticLossOf false (buildDndxMedium n c cut) n E r = .ok (c.upperLimit E r) ∧
    cumulativeOf (buildDndxMedium n c cut) E n r = .ok (c.cumulative E r) := by
  unfold buildDndxMedium
  rw [if_neg h]
  refine ⟨?_, ?_, ?_, ?_⟩
  · simp [ndxOf]
  · simp [perTargetOf, ndxTargetOf, lookup, Except.map]
  · simp [stochasticLossOf, lookup, Except.map]
  · simp [cumulativeOf, lookup, Except.map]

-- no cut: everything is stochastic
example : ¬ onlyContinuous none := fun h => h

-- a calculator of deflections that needs two numbers
example : ∃ (s : ScatterCalc) (n : ℕ) (f : ℝ → ℝ → List ℝ → ℕ → ℝ × ℝ), s.deflection .brems = some (n, f) ∧ s.deflection .epair = none ∧
    f 2 1 ((List.range n).map fun k => (fun i : ℕ => (i : ℝ)) (5 + k)) 7 = (5, 6) ∧ UnitVec ⟨0, 0, 1⟩ :=
  ⟨⟨none, fun t => if t = .brems then some (2, fun _ _ l _ => (l.headD 0, l.tail.headD 0)) else none⟩, 2,
    fun _ _ l _ => (l.headD 0, l.tail.headD 0), rfl, rfl, by norm_num [List.range_succ], by norm_num [UnitVec]⟩

end Proposal
