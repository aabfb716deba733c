import Verif.Props.Continuation
import Verif.Props.RandomLaw
import Verif.Props.Competition

/-!
# C165: a smaller minimal energy continues the same track
-/

open Set

namespace Proposal

open Spec Competition

/-- The arguments with another minimal energy. -/
def Spec.downTo (a : PropArgs) (m : ℝ) : PropArgs := ⟨a.sectors, a.ω, a.maxDistance, m, a.hierarchyCondition⟩

/-- The situations of a run as long as the next decay or interaction lies above the minimal energy and the lower limit of the calculators. -/
inductive Spec.Untouched (a : PropArgs) (init : PState) (pos : ℕ) : Prop' → Prop
  | start (q) : propInit a init pos = .ok q → Untouched a init pos q
  | step (q q') : Untouched a init pos q → q.running = true → max a.minEnergy q.sector.util.lowerLim < eNextOf a q →
      propStep a q = .ok q' → Untouched a init pos q'

namespace MinimalEnergy

theorem untouched_reachable {a : PropArgs} {init : PState} {pos : ℕ} {q : Prop'} (h : Untouched a init pos q) : Reachable a init pos q := by
  induction h with
  | start q hq => exact .start q hq
  | step q q' _ hr _ hs ih => exact .step q q' ih hr hs

lemma choose_other {d m m' s : ℝ} (hm : m' ≤ m) (h : m < max (max d m) s) :
    maximize d m' s = maximize d m s ∧ maximize d m s ≠ .minimalE ∧ max (max d m') s = max (max d m) s := by
  unfold maximize
  simp only
  by_cases h1 : d < m <;> by_cases h2 : d < m' <;> by_cases h3 : m < s <;> by_cases h4 : m' < s <;> by_cases h5 : d < s <;>
    simp_all <;> grind

variable {a : PropArgs} {m : ℝ} {q : Prop'}

lemma same_next (hm : m ≤ a.minEnergy) (h : max a.minEnergy q.sector.util.lowerLim < eNextOf a q) :
    nextOf (downTo a m) q = nextOf a q ∧ nextOf a q ≠ .minimalE ∧ eNextOf (downTo a m) q = eNextOf a q := by
  have h0 : eMinOf (downTo a m) q ≤ eMinOf a q := max_le_max hm le_rfl
  rw [next_max] at h
  obtain ⟨k1, k2, k3⟩ := choose_other h0 h
  refine ⟨k1, k2, ?_⟩
  rw [next_max, next_max]
  exact k3

lemma same_advance (hm : m ≤ a.minEnergy) (h : max a.minEnergy q.sector.util.lowerLim < eNextOf a q) (hq : q.sector ∈ a.sectors)
    (hr : ∀ s ∈ a.sectors, s.util.contRand = none) (r : Advanced) (hs : advanceOf a q = some (.ok r)) :
    advanceOf (downTo a m) q = some (.ok r) := by
  obtain ⟨k1, k2, k3⟩ := same_next hm h
  obtain ⟨f, hf, rfl⟩ := advanceOf_ok hs
  have e1 : envOf (downTo a m) q = envOf a q := by unfold envOf; rw [k3]; rfl
  have hsec : f.sector.util.contRand = none := hr _ (r_sector_mem hq hs)
  unfold advanceOf advance
  rw [e1, show (eStochOf (downTo a m) q).2 = (eStochOf a q).2 from rfl, hf]
  simp only [Option.map_some, Except.map, finish, Utility.energyRandomize, hsec, k1]

/-- A step with a smaller minimal energy. -/
lemma same_step (hm : m ≤ a.minEnergy) (h : max a.minEnergy q.sector.util.lowerLim < eNextOf a q) (hq : q.sector ∈ a.sectors)
    (hr : ∀ s ∈ a.sectors, s.util.contRand = none) (q' : Prop') (hs : propStep a q = .ok q') :
    ∃ go, propStep (downTo a m) q = .ok { q' with running := go } ∧ (q'.running = true → go = true) := by
  obtain ⟨k1, k2, k3⟩ := same_next hm h
  obtain ⟨r, hadv, hq'⟩ := propStep_ok hs
  have hadv' := same_advance hm h hq hr r hadv
  unfold propStep
  rw [hadv']
  simp only [k1]
  have h0 : eMinOf (downTo a m) q ≤ eMinOf a q := max_le_max hm le_rfl
  unfold react at hq' ⊢
  cases ht : r.type with
  | interaction =>
    simp only [ht] at hq' ⊢
    cases hn : nextOf a q with
    | decay =>
      simp only [hn] at hq' ⊢
      obtain rfl := Except.ok.inj hq'
      exact ⟨_, rfl, id⟩
    | minimalE => exact absurd hn k2
    | stochastic =>
      simp only [hn] at hq' ⊢
      obtain rfl := Except.ok.inj hq'
      refine ⟨_, rfl, fun hx => ?_⟩
      simp only [decide_eq_true_eq, not_le] at hx ⊢
      exact h0.trans_lt hx
  | border =>
    simp only [ht] at hq' ⊢
    cases hc : currentSector a.sectors r.state.position r.state.direction with
    | none => rw [hc] at hq'; cases hq'
    | some s =>
      rw [hc] at hq'
      rw [show (downTo a m).sectors = a.sectors from rfl, hc]
      obtain rfl := Except.ok.inj hq'
      exact ⟨_, rfl, id⟩
  | maxDistance =>
    simp only [ht] at hq' ⊢
    obtain rfl := Except.ok.inj hq'
    exact ⟨_, rfl, id⟩

end MinimalEnergy

open MinimalEnergy

/-- C165: as long as all decays and interactions lie above the minimal energy, a run with a smaller minimal energy goes through the same
situations: states, sectors, tracks and random numbers; it can only go on where the first one has ended. Without continuous randomization. -/
theorem C165_same_track (a : PropArgs) (m : ℝ) (hm : m ≤ a.minEnergy) (hr : ∀ s ∈ a.sectors, s.util.contRand = none) (init : PState) (pos : ℕ)
    (q : Prop') (h : Untouched a init pos q) :
    ∃ go, Reachable (downTo a m) init pos { q with running := go } ∧ (q.running = true → go = true) := by
  induction h with
  | start q hq => exact ⟨q.running, .start q hq, id⟩
  | step q q' hq hrun hmin hs ih =>
    obtain ⟨go, k1, k2⟩ := ih
    obtain rfl := k2 hrun
    have e : ({ q with running := true } : Prop') = q := by rw [← hrun]
    rw [e] at k1
    obtain ⟨go, g1, g2⟩ := same_step hm hmin (reachable_basic (untouched_reachable hq)).mem hr q' hs
    exact ⟨go, .step q _ k1 hrun g1, g2⟩

/-- C165: the run with the smaller minimal energy goes on after an interaction that leaves more than its minimal energy and its lower limit,
and the run with the larger one has ended there if the energy is not above its own. -/
theorem C165_goes_on (a : PropArgs) (m : ℝ) (hm : m ≤ a.minEnergy) (hr : ∀ s ∈ a.sectors, s.util.contRand = none) (init : PState) (pos : ℕ)
    (q q' : Prop') (h : Untouched a init pos q) (hrun : q.running = true) (hmin : max a.minEnergy q.sector.util.lowerLim < eNextOf a q)
    (hs : propStep a q = .ok q') (x : Entry) (hx : q'.track.getLast? = some x) (hxt : x.type ≠ .decay ∧ x.type ≠ .continuousEnergyLoss)
    (hl : q.sector.util.lowerLim ≤ m) :
    (q'.running = true ↔ a.minEnergy < q'.state.energy) ∧
      Reachable (downTo a m) init pos { q' with running := decide (m < q'.state.energy) } := by
  obtain ⟨go, k1, k2⟩ := C165_same_track a m hm hr init pos q h
  obtain rfl := k2 hrun
  have e : ({ q with running := true } : Prop') = q := by rw [← hrun]
  rw [e] at k1
  obtain ⟨n1, n2, n3⟩ := same_next hm hmin
  have hmem := (reachable_basic (untouched_reachable h)).mem
  obtain ⟨r, hadv, hq'⟩ := propStep_ok hs
  have hadv' := same_advance hm hmin hmem hr r hadv
  have e1 : eMinOf a q = a.minEnergy := max_eq_left (hl.trans hm)
  have e2 : eMinOf (downTo a m) q = m := max_eq_left hl
  have hstep : propStep (downTo a m) q = react (downTo a m) q (nextOf a q) m r := by
    unfold propStep
    rw [hadv']
    simp only [n1, e2]
  rw [e1] at hq'
  unfold react at hq' hstep
  have hno : ∀ s : Entry, s.type = .continuousEnergyLoss → q'.track ≠ q.track ++ [s] := by
    intro s hc ht
    rw [ht, List.getLast?_append] at hx
    obtain rfl : s = x := by simpa using hx
    exact hxt.2 hc
  cases ht : r.type with
  | interaction =>
    simp only [ht] at hq' hstep
    cases hn : nextOf a q with
    | decay =>
      simp only [hn] at hq'
      obtain rfl := Except.ok.inj hq'
      simp only [List.getLast?_append, List.getLast?_singleton, Option.some_or, Option.some.injEq] at hx
      exact absurd (by rw [← hx]) hxt.1
    | minimalE => exact absurd hn n2
    | stochastic =>
      simp only [hn] at hq' hstep
      obtain rfl := Except.ok.inj hq'
      refine ⟨by simp, ?_⟩
      have : Reachable (downTo a m) init pos _ := .step q _ k1 hrun hstep
      simp only [not_le, show (downTo a m).ω = a.ω from rfl] at this
      exact this
  | border =>
    simp only [ht] at hq'
    cases hc : currentSector a.sectors r.state.position r.state.direction with
    | none => rw [hc] at hq'; cases hq'
    | some s =>
      rw [hc] at hq'
      obtain rfl := Except.ok.inj hq'
      exact absurd rfl (hno ⟨r.state, .continuousEnergyLoss, 0⟩ rfl)
  | maxDistance =>
    simp only [ht] at hq'
    obtain rfl := Except.ok.inj hq'
    exact absurd rfl (hno ⟨r.state, .continuousEnergyLoss, 0⟩ rfl)

/-- C165: minimal energies below the lower limits of all calculators make no difference at all, with continuous randomization as well. -/
theorem C165_below_limits (a : PropArgs) (m : ℝ) (h : ∀ s ∈ a.sectors, a.minEnergy ≤ s.util.lowerLim ∧ m ≤ s.util.lowerLim) (init : PState)
    (pos : ℕ) (q : Prop') : Reachable a init pos q ↔ Reachable (downTo a m) init pos q := by
  have key : ∀ (a : PropArgs) (m : ℝ), (∀ s ∈ a.sectors, a.minEnergy ≤ s.util.lowerLim ∧ m ≤ s.util.lowerLim) →
      Reachable a init pos q → Reachable (downTo a m) init pos q := by
    intro a m h hq
    induction hq with
    | start q hq => exact .start q hq
    | step q q' hq hrun hs ih =>
      refine .step q q' ih hrun ?_
      have hmem := (reachable_basic hq).mem
      have e : eMinOf (downTo a m) q = eMinOf a q := by
        unfold eMinOf
        rw [max_eq_right (h _ hmem).1, max_eq_right]
        exact (h _ hmem).2
      have n1 : nextOf (downTo a m) q = nextOf a q := by
        unfold nextOf
        rw [e]
        rfl
      have n2 : eNextOf (downTo a m) q = eNextOf a q := by
        rw [next_max, next_max, e]
        rfl
      have e1 : envOf (downTo a m) q = envOf a q := by unfold envOf; rw [n2]; rfl
      have e2 : advanceOf (downTo a m) q = advanceOf a q := by
        unfold advanceOf
        rw [e1, n1, e]
        rfl
      rw [← hs]
      unfold propStep
      rw [e2, n1, e]
      rfl
  refine ⟨key a m h, fun hq => ?_⟩
  exact key (downTo a m) a.minEnergy (fun s hs => (h s hs).symm) hq

/-- C165 fails with continuous randomization: the same random number gives another energy for every minimal energy above the lower limit,
because the minimal energy is a limit of the distribution. -/
theorem C165_randomised (variance : ℝ → ℝ → ℝ) (lower E e m m' rnd : ℝ) (hv : 0 < variance E e) (hl : lower ≤ m) (hm : m < m') (hE : m' < E)
    (h0 : 0 ≤ rnd) (h1 : rnd < 1) :
    energyRandomizeOf exactNormal variance lower E e rnd m < energyRandomizeOf exactNormal variance lower E e rnd m' := by
  unfold energyRandomizeOf
  rw [max_eq_right hl, max_eq_right (hl.trans hm.le), max_eq_left hv.le]
  have hs : 0 < Real.sqrt (variance E e) := Real.sqrt_pos.mpr hv
  generalize Real.sqrt (variance E e) = σ at hs
  unfold sampleFromGaussian
  rw [if_neg hs.ne', if_neg hs.ne']
  simp only [Normal.lower, Normal.upper]
  change σ * Function.invFun Phi (Phi ((m - e) / σ) + (Phi ((E - e) / σ) - Phi ((m - e) / σ)) * rnd) + e
    < σ * Function.invFun Phi (Phi ((m' - e) / σ) + (Phi ((E - e) / σ) - Phi ((m' - e) / σ)) * rnd) + e
  have p1 : Phi ((m - e) / σ) < Phi ((m' - e) / σ) := Phi_strictMono (by gcongr)
  have p2 : Phi ((m' - e) / σ) < Phi ((E - e) / σ) := Phi_strictMono (by gcongr)
  have q0 := Phi_pos ((m - e) / σ)
  have q1 := Phi_lt_one ((E - e) / σ)
  generalize Phi ((m - e) / σ) = x at *
  generalize Phi ((m' - e) / σ) = y at *
  generalize Phi ((E - e) / σ) = z at *
  have r1 : x + (z - x) * rnd < y + (z - y) * rnd := by nlinarith
  obtain ⟨u, hu⟩ := Phi_surj (p := x + (z - x) * rnd) (by nlinarith) (by nlinarith)
  obtain ⟨w, hw⟩ := Phi_surj (p := y + (z - y) * rnd) (by nlinarith) (by nlinarith)
  rw [← hu, ← hw, Function.leftInverse_invFun Phi_strictMono.injective, Function.leftInverse_invFun Phi_strictMono.injective]
  have : u < w := Phi_strictMono.lt_iff_lt.mp (by rw [hu, hw]; exact r1)
  nlinarith

/-! ## Examples -/

namespace MinimalEnergy

/-- Minimal energy 3. -/
noncomputable def args : PropArgs := ⟨[Toy.sector 10], fun _ => 1 / 2, 20, 3, 0⟩
/-- before the interaction -/
noncomputable def s1 : PState := ⟨4, 4, ⟨4, 0, 0⟩, ⟨1, 0, 0⟩, 4⟩
/-- after the interaction -/
noncomputable def s2 : PState := ⟨2, 4, ⟨4, 0, 0⟩, ⟨1, 0, 0⟩, 4⟩
/-- A particle of the energy 8 interacts at the energy 4 and keeps half of it, which is less than the minimal energy. -/
noncomputable def q1 : Prop' :=
  ⟨s2, Toy.sector 10, [⟨Low.init, .continuousEnergyLoss, 0⟩, ⟨s1, .continuousEnergyLoss, 0⟩, ⟨s2, .brems, 0⟩], 2, false⟩

lemma next : nextOf args Low.q0 = .stochastic ∧ eNextOf args Low.q0 = 4 ∧ eMinOf args Low.q0 = 3 ∧ (eStochOf args Low.q0).2 = 1 := by
  have h : nextOf args Low.q0 = .stochastic := by
    unfold nextOf maximize eDecayOf eMinOf eStochOf
    norm_num [Utility.energyDecay, Utility.energyInteraction, Low.q0, Toy.sector, Toy.util, Low.init, args]
  refine ⟨h, ?_, ?_, rfl⟩
  · unfold eNextOf
    rw [h]
    norm_num [eStochOf, Utility.energyInteraction, Low.q0, Toy.sector, Toy.util, Low.init]
  · norm_num [eMinOf, args, Low.q0, Toy.sector, Toy.util]

lemma step : propStep args Low.q0 = .ok q1 := by
  have he : envOf args Low.q0 = ⟨[Toy.sector 10], fun _ => 1 / 2, Low.init, 4, 20⟩ := by
    unfold envOf; rw [next.2.1]; rfl
  have hp : propose ⟨[Toy.sector 10], fun _ => 1 / 2, Low.init, 4, 20⟩
      (Trial.init ⟨[Toy.sector 10], fun _ => 1 / 2, Low.init, 4, 20⟩ (Toy.sector 10) 1) = some ⟨4, 4, some 4, Memo.init 1⟩ := by
    unfold propose Trial.init
    norm_num [Toy.sector, Toy.util, Toy.dens, Low.init]
  have hd := Toy.dtb 10
  have hi := fun p d => @Toy.inside 10 (by norm_num) p d
  have ht : trial ⟨[Toy.sector 10], fun _ => 1 / 2, Low.init, 4, 20⟩
      (Trial.init ⟨[Toy.sector 10], fun _ => 1 / 2, Low.init, 4, 20⟩ (Toy.sector 10) 1) =
      .done ⟨.interaction, 4, 4, 4, ⟨1, 0, 0⟩, ⟨1, 0, 0⟩, Toy.sector 10, Memo.init 1, 1⟩ := by
    unfold trial
    rw [hp]
    simp only [decideStep, Trial.init, Utility.directionsScatter,
      show (Toy.sector 10).util = Toy.util from rfl, show Toy.util.scattering = none from rfl,
      show (Toy.sector 10).geo = Toy.geo 10 from rfl, Low.init, hd, hi, MAX_STEPS, leDist]
    norm_num [PARTICLE_POSITION_RESOLUTION, StepEnv.maxDist]
  have ha : advanceOf args Low.q0 = some (.ok ⟨.interaction, s1, Toy.sector 10, 1⟩) := by
    unfold advanceOf advance
    rw [next.2.2.2, next.1, next.2.2.1, he, show Low.q0.sector = Toy.sector 10 from rfl]
    unfold loop
    rw [ht]
    simp only [Option.map_some, Except.map, finish, Utility.energyRandomize, show (Toy.sector 10).util.contRand = none from rfl]
    norm_num [Low.q0, Low.init, Toy.sector, Toy.util, s1, Memo.init]
    ext <;> norm_num
  have hsto : doStochastic args.ω (Toy.sector 10).util s1 1 = (⟨.brems, 0, 1 / 2⟩, s2, 2) := by
    unfold doStochastic Utility.stochasticLoss Utility.directionDeflect
    norm_num [Toy.sector, Toy.util, s1, s2]
  unfold propStep
  rw [ha, next.1, next.2.2.1]
  simp only [react, hsto]
  norm_num [Low.q0, q1, s2]
  exact IType.noConfusion

lemma untouched : Untouched args Low.init 0 Low.q0 := .start _ Low.start

lemma quiet : ∀ s ∈ args.sectors, s.util.contRand = none := by
  intro s hs
  obtain rfl : s = Toy.sector 10 := by simpa [args] using hs
  rfl

end MinimalEnergy

/-- The run with the minimal energy 3 ends after the interaction, the one with the minimal energy 1 goes on with the energy 2. -/
example : Reachable (downTo MinimalEnergy.args 1) Low.init 0 { MinimalEnergy.q1 with running := true } := by
  have := (C165_goes_on MinimalEnergy.args 1 (by norm_num [MinimalEnergy.args]) quiet Low.init 0 Low.q0 MinimalEnergy.q1 untouched rfl
    (by rw [next.2.1]; norm_num [MinimalEnergy.args, Low.q0, Toy.sector, Toy.util]) MinimalEnergy.step ⟨s2, .brems, 0⟩ rfl
    ⟨by simp, by simp⟩ (by norm_num [Low.q0, Toy.sector, Toy.util])).2
  rwa [show decide ((1 : ℝ) < MinimalEnergy.q1.state.energy) = true by norm_num [MinimalEnergy.q1, s2]] at this

example : ∃ go, Reachable (downTo MinimalEnergy.args 2) Low.init 0 { MinimalEnergy.q1 with running := go } ∧
    (MinimalEnergy.q1.running = true → go = true) :=
  C165_same_track MinimalEnergy.args 2 (by norm_num [MinimalEnergy.args]) quiet Low.init 0 MinimalEnergy.q1
    (.step _ _ untouched rfl (by rw [next.2.1]; norm_num [MinimalEnergy.args, Low.q0, Toy.sector, Toy.util]) MinimalEnergy.step)

/-- The limit of the toy world is 1. -/
example (init : PState) (q : Prop') :
    Reachable ⟨[Toy.sector 10], fun _ => 1 / 2, 20, 1, 0⟩ init 0 q ↔ Reachable ⟨[Toy.sector 10], fun _ => 1 / 2, 20, 0, 0⟩ init 0 q := by
  refine C165_below_limits ⟨[Toy.sector 10], fun _ => 1 / 2, 20, 1, 0⟩ 0 (fun s hs => ?_) init 0 q
  obtain rfl : s = Toy.sector 10 := by simpa using hs
  norm_num [Toy.sector, Toy.util]

example : energyRandomizeOf exactNormal (fun _ _ => 1) 1 100 50 (1 / 2) 2 < energyRandomizeOf exactNormal (fun _ _ => 1) 1 100 50 (1 / 2) 3 :=
  C165_randomised (fun _ _ => 1) 1 100 50 2 3 (1 / 2) (by norm_num) (by norm_num) (by norm_num) (by norm_num) (by norm_num) (by norm_num)

end Proposal
