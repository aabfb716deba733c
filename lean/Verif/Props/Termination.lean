import Verif.Props.Monotone
import Verif.Props.Overshoot
import Verif.Model.Box
import Verif.Model.Cylinder

/-!
# Propagation ends (C143)
-/

namespace Proposal

open Spec

/-- The situation after `n` passes of the loop of `Propagate`. -/
inductive Spec.After (a : PropArgs) (init : PState) (pos : ℕ) : ℕ → Prop' → Prop
  | start (q) : propInit a init pos = .ok q → Spec.After a init pos 0 q
  | step (n q q') : Spec.After a init pos n q → q.running = true → propStep a q = .ok q' → Spec.After a init pos (n + 1) q'

/-- A geometry that reports either no border in front or one that is at least the precision away. -/
def Spec.Resolved (g : Geo) : Prop := ∀ p d, (g.dist p d).1 < 0 ∨ GEOMETRY_PRECISION ≤ (g.dist p d).1

private lemma precision_pos : 0 < GEOMETRY_PRECISION := by norm_num [GEOMETRY_PRECISION]

private lemma finalControl_resolved (q : ℝ × ℝ) : (finalControl q).1 < 0 ∨ GEOMETRY_PRECISION ≤ (finalControl q).1 := by
  unfold finalControl swapIf
  simp only
  split_ifs <;> first
    | (left; norm_num; done)
    | (right; linarith)

/-- C143: all shapes report borders that are at least the precision away. -/
theorem C143_shapes (S : Sphere) (B : Box) (C : Cylinder) (h : ℕ) : Resolved (S.toGeo h) ∧ Resolved (B.toGeo h) ∧ Resolved (C.toGeo h) := by
  refine ⟨fun p d => ?_, fun p d => ?_, fun p d => ?_⟩
  · show (S.distanceToBorder p d).1 < 0 ∨ GEOMETRY_PRECISION ≤ (S.distanceToBorder p d).1
    unfold Sphere.distanceToBorder
    simp only
    split_ifs with hc
    · left
      exact hc.1
    · exact finalControl_resolved _
  · exact finalControl_resolved _
  · exact finalControl_resolved _

private lemma border_resolved {sectors : List Sector} {p d : Vec3} {g : Geo} (hg : Resolved g) (hs : ∀ s ∈ sectors, Resolved s.geo)
    (hin : g.isInside p d) : GEOMETRY_PRECISION ≤ distanceToBorder sectors p d g := by
  have h0 : GEOMETRY_PRECISION ≤ (g.dist p d).1 := by
    rcases hg p d with h | h
    · exact absurd hin.1 (not_lt.2 h.le)
    · exact h
  unfold distanceToBorder
  generalize (g.dist p d).1 = x at h0
  induction sectors generalizing x with
  | nil => exact h0
  | cons s l ih =>
    rw [List.foldl_cons]
    refine ih (fun t ht => hs t (List.mem_cons_of_mem _ ht)) _ ?_
    split_ifs with h1 h2
    · refine le_min h0 ?_
      rcases hs s List.mem_cons_self p d with h | h
      · linarith
      · exact h
    · exact h0
    · exact h0

/-- A step that ends at a border has at least the length of the precision. -/
private lemma border_step {e : StepEnv} {s : Sector} {pos k : ℕ} {f : Finished} (hg : ∀ s ∈ e.sectors, Resolved s.geo)
    (hs : s ∈ e.sectors) (hf : loop e k (Trial.init e s pos) = some (.ok f)) (hn : f.numSteps ≤ MAX_STEPS) (hb : f.type = .border) :
    GEOMETRY_PRECISION ≤ f.distance := by
  obtain ⟨t, hmem, h' | h'⟩ := loop_inv (e := e) (fun t => t.sector ∈ e.sectors)
    (fun t t' ht h => by
      obtain ⟨p, _, _, _, h⟩ := trial_again h
      rcases h with ⟨_, hc, _⟩ | ⟨_, hc, _⟩
      · exact currentSector_mem hc
      · rw [hc]; exact ht) k _ (by exact hs) _ hf
  · obtain ⟨f', hf', hd⟩ := h'
    obtain rfl := Except.ok.inj hf'
    obtain ⟨p, hp, hsec, hmean, _, _, _, h⟩ := trial_done hd
    rcases h with ⟨h, _⟩ | ⟨_, hin, he, hgr, h⟩
    · omega
    rcases h with ⟨h, _⟩ | ⟨h, _⟩ | ⟨_, h, _⟩
    · rw [hb] at h; cases h
    · rw [hb] at h; cases h
    · rw [h]
      rw [hmean] at hin
      exact border_resolved (hg _ hmem) hg hin
  · obtain ⟨f', hf', _⟩ := h'; cases hf'

private lemma after_reachable {a : PropArgs} {init : PState} {pos n : ℕ} {q : Prop'} (h : After a init pos n q) : Reachable a init pos q := by
  induction h with
  | start q hq => exact .start q hq
  | step n q q' _ hr hs ih => exact .step q q' ih hr hs

/-- C143: every pass of the loop that does not end the propagation either is one of the interactions, of which there are not more than it
takes to bring the energy down to the minimum, or goes to a border, and then it has at least the length of the precision. `ε` is the smallest
energy an interaction takes: with cuts `ecut` and `vcut` the smaller one of `ecut` and `vcut` times the minimal energy. -/
theorem C143_passes_partial (a : PropArgs) (init : PState) (pos n : ℕ) (q : Prop') (ε : ℝ)
    (hω : UnitRandoms a.ω) (hu : ∀ s ∈ a.sectors, GoodUtility s.util) (hρ : ∀ s ∈ a.sectors, GoodDensity s.dens)
    (hg : ∀ s ∈ a.sectors, Resolved s.geo)
    (hlow : ∀ s ∈ a.sectors, s.util.lowerLim ≤ a.minEnergy) (hmin : 0 ≤ a.minEnergy)
    (hinit : a.minEnergy ≤ init.energy) (hreg : Regular a init pos)
    (hε : ∀ s ∈ a.sectors, ∀ E, a.minEnergy ≤ E → ∀ k, ε ≤ E * (s.util.sampleLoss E (a.ω k)).v)
    (h : After a init pos n q) (hrun : q.running = true) :
    ∃ borders interactions : ℕ, n = borders + interactions ∧
      init.distance + borders * GEOMETRY_PRECISION ≤ a.maxDistance ∧
      a.minEnergy + interactions * ε ≤ init.energy := by
  have hemin : ∀ q : Prop', q.sector ∈ a.sectors → eMinOf a q = a.minEnergy := fun q hq => max_eq_left (hlow _ hq)
  have key : ∃ b i : ℕ, n = b + i ∧ init.distance + b * GEOMETRY_PRECISION ≤ q.state.distance ∧
      q.state.energy + i * ε ≤ init.energy ∧ a.minEnergy ≤ q.state.energy := by
    induction h with
    | start q hq =>
      have := (propInit_ok hq).1
      exact ⟨0, 0, rfl, by rw [this]; simp, by rw [this]; simp, by rw [this]; exact hinit⟩
    | step n q q' haft hr0 hs ih =>
      obtain ⟨b, i, rfl, h1, h2, h3⟩ := ih hr0
      have hreach := after_reachable haft
      have hmem := (reachable_basic hreach).mem
      have hE : eMinOf a q ≤ q.state.energy := by rw [hemin q hmem]; exact h3
      obtain ⟨r, hr, hq⟩ := propStep_ok hs
      obtain ⟨a1, -, a3, a4⟩ := advance_range hω hu hρ hlow hreg hreach hr0 hE (by linarith) hr
      rw [hemin q hmem] at a3
      have hrm := r_sector_mem hmem hr
      rcases react_ok hq with ⟨_, _, _, hst, hr2, _⟩ | ⟨_, _, _, _, hr2, _⟩ | ⟨_, _, _, _, hr2, _⟩ | ⟨_, _, _, hr2, _⟩ | ⟨hb, _, hst, _⟩
      · have hk := doStochastic_keeps a.ω r.sector.util r.state r.pos
        have hv := hε _ hrm r.state.energy a3 r.pos
        have hE' : q'.state.energy = r.state.energy * (1 - (r.sector.util.sampleLoss r.state.energy (a.ω r.pos)).v) := by
          rw [hst, hk.2.2.2.2]
        have hmin' := hr2.1 hrun
        rw [hemin q hmem] at hmin'
        refine ⟨b, i + 1, rfl, ?_, ?_, hmin'.le⟩
        · rw [hst, hk.2.2.1]
          exact h1.trans a1
        · rw [hE']
          push_cast
          linarith
      · rw [hrun] at hr2; cases hr2
      · rw [hrun] at hr2; cases hr2
      · rw [hrun] at hr2; cases hr2
      · obtain ⟨f, hf, rfl⟩ := advanceOf_ok hr
        have hn := hreg.noEmergency q f hreach hr0 hf
        have hd := border_step (e := envOf a q) hg hmem hf hn hb
        refine ⟨b + 1, i, by omega, ?_, ?_, ?_⟩
        · rw [hst]
          show _ ≤ q.state.distance + f.distance
          push_cast
          linarith
        · rw [hst]
          linarith
        · rw [hst]
          exact a3
  obtain ⟨b, i, h1, h2, h3, h4⟩ := key
  exact ⟨b, i, h1, h2.trans (hreg.noOvershoot q (after_reachable h)), by linarith⟩

/-- C143: a regular propagation ends if every interaction takes at least some fixed energy, after a number of passes known in advance. -/
theorem C143_ends_partial (a : PropArgs) (init : PState) (pos : ℕ) (ε : ℝ)
    (hω : UnitRandoms a.ω) (hu : ∀ s ∈ a.sectors, GoodUtility s.util) (hρ : ∀ s ∈ a.sectors, GoodDensity s.dens)
    (hg : ∀ s ∈ a.sectors, Resolved s.geo)
    (hlow : ∀ s ∈ a.sectors, s.util.lowerLim ≤ a.minEnergy) (hmin : 0 ≤ a.minEnergy)
    (hinit : a.minEnergy ≤ init.energy) (hreg : Regular a init pos) (hε0 : 0 < ε)
    (hε : ∀ s ∈ a.sectors, ∀ E, a.minEnergy ≤ E → ∀ k, ε ≤ E * (s.util.sampleLoss E (a.ω k)).v) :
    ∀ n q, After a init pos n q →
      (n : ℝ) ≤ max 0 ((a.maxDistance - init.distance) / GEOMETRY_PRECISION + (init.energy - a.minEnergy) / ε) + 1 := by
  have hp := precision_pos
  intro n q h
  cases h with
  | start q hq => exact_mod_cast by positivity
  | step n q q' h1 hr hs =>
    obtain ⟨b, i, rfl, h2, h3⟩ := C143_passes_partial a init pos n q ε hω hu hρ hg hlow hmin hinit hreg hε h1 hr
    have e1 : (b : ℝ) ≤ (a.maxDistance - init.distance) / GEOMETRY_PRECISION := (le_div_iff₀ hp).2 (by linarith)
    have e2 : (i : ℝ) ≤ (init.energy - a.minEnergy) / ε := (le_div_iff₀ hε0).2 (by linarith)
    have := le_max_right 0 ((a.maxDistance - init.distance) / GEOMETRY_PRECISION + (init.energy - a.minEnergy) / ε)
    push_cast
    linarith

/-- The toy world, where every interaction takes half of the energy and the border is always 1000 ahead. -/
example : ∀ n q, After Reg.args Reg.init 0 n q → (n : ℝ) ≤
    max 0 ((Reg.args.maxDistance - Reg.init.distance) / GEOMETRY_PRECISION + (Reg.init.energy - Reg.args.minEnergy) / (1 / 2)) + 1 := by
  have hs : ∀ s ∈ Reg.args.sectors, s = Toy.sector 1000 := by intro s hs; simpa [Reg.args] using hs
  refine C143_ends_partial Reg.args Reg.init 0 (1 / 2) Toy.half ?_ ?_ ?_ ?_ (by norm_num [Reg.args]) (by norm_num [Reg.args, Reg.init]) Reg.regular
    (by norm_num) ?_
  · intro s h; rw [hs s h]; exact Toy.util_good
  · intro s h; rw [hs s h]; exact Toy.dens_good
  · intro s h; rw [hs s h]
    intro p d
    right
    norm_num [Toy.sector, Toy.geo, GEOMETRY_PRECISION]
  · intro s h; rw [hs s h]; norm_num [Toy.sector, Toy.util, Reg.args]
  · intro s h E hE k; rw [hs s h]
    have : (1 : ℝ) ≤ E := by simpa [Reg.args] using hE
    simp only [Toy.sector, Toy.util]
    linarith

end Proposal
