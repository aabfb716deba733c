import Verif.Props.Monotone

/-!
# Counterexamples for C12, C13 and C14, and a regular run
-/

namespace Proposal

open Spec

lemma Toy.util_good : GoodUtility Toy.util := by
  constructor
  · intro f hf; cases hf
  · intro E r h _ _; simp only [Toy.util] at *; linarith
  · intro E r _ _ _; norm_num [Toy.util]
  · intro f hf; cases hf
  · intro E e _ h; simp only [Toy.util]; linarith
  · intro E e g _ _ h1 h2; simp only [Toy.util] at *; constructor <;> linarith
  · intro E e g ρ _ _ h _; exact h

lemma Toy.half : UnitRandoms (fun _ => 1 / 2) := fun _ => by norm_num

lemma Toy.dens_good : GoodDensity Toy.dens := by
  constructor
  · intro p d g m x h hx; rw [← Option.some.inj hx]; exact h
  · intro p d l h; exact h
  · intro p; norm_num [Toy.dens]

/-! ## A run that overshoots -/

private lemma axis_dot (x : ℝ) : ((⟨x, 0, 0⟩ : Vec3) - 0).dot ⟨1, 0, 0⟩ = x := by
  simp [Vec3.dot, Vec3.sub_x, Vec3.sub_y, Vec3.sub_z]

private lemma axis_mag (x : ℝ) : ((⟨x, 0, 0⟩ : Vec3) - 0).mag ^ 2 = x * x := by
  rw [Vec3.mag_sq]
  simp [Vec3.dot, Vec3.sub_x, Vec3.sub_y, Vec3.sub_z]

private lemma axis_outer {R x : ℝ} (hR : 0 < R) (h1 : -R ≤ x) :
    Sphere.outer R (x * x) x =
      if GEOMETRY_PRECISION ≤ R - x then (R - x, -1) else (-1, -1) := by
  have hp := prec_pos
  have hd : x * x - (x * x - R * R) = R * R := by ring
  have hs : Real.sqrt (R * R) = R := Real.sqrt_mul_self hR.le
  rw [outer_val (by rw [hd]; positivity), hd, hs]
  have c1 : ¬ GEOMETRY_PRECISION ≤ -1 * x - R := by linarith
  have c2 : -1 * x + R = R - x := by ring
  simp only [c1, c2, if_false]

lemma axis_inside {R x : ℝ} (hR : 0 < R) (h1 : -R ≤ x) (h2 : GEOMETRY_PRECISION ≤ R - x) :
    (⟨0, R, 0⟩ : Sphere).distanceToBorder ⟨x, 0, 0⟩ ⟨1, 0, 0⟩ = (R - x, -1) := by
  have hp := prec_pos
  unfold Sphere.distanceToBorder
  simp only [axis_dot, axis_mag, axis_outer hR h1, h2, if_true]
  have c : ¬ (R - x < 0 ∧ (-1 : ℝ) < 0) := by intro h; linarith [h.1]
  rw [if_neg c, hollow_id (by simp), finalControl_one h2]

lemma axis_outside {R x : ℝ} (hR : 0 < R) (h1 : -R ≤ x) (h2 : R - x < GEOMETRY_PRECISION) :
    (⟨0, R, 0⟩ : Sphere).distanceToBorder ⟨x, 0, 0⟩ ⟨1, 0, 0⟩ = (-1, -1) := by
  unfold Sphere.distanceToBorder
  simp only [axis_dot, axis_mag, axis_outer hR h1, not_le.2 h2, if_false]
  norm_num

namespace Over

/-- The inner sphere, radius 100.0005, hierarchy 1. -/
noncomputable def inner : Sector := ⟨(⟨0, 100 + 1 / 2000, 0⟩ : Sphere).toGeo 1, Toy.util, Toy.dens⟩
/-- The surrounding sphere, radius 1000, hierarchy 0. -/
noncomputable def outer : Sector := ⟨(⟨0, 1000, 0⟩ : Sphere).toGeo 0, Toy.util, Toy.dens⟩
/-- A muon-like particle of energy 200 in the centre. -/
noncomputable def init : PState := ⟨200, 0, ⟨0, 0, 0⟩, ⟨1, 0, 0⟩, 0⟩
/-- Propagate by at most 5. -/
noncomputable def args : PropArgs := ⟨[outer, inner], fun _ => 1 / 2, 5, 1, 0⟩

/-- situation before the loop -/
noncomputable def q0 : Prop' := ⟨init, inner, [⟨init, .continuousEnergyLoss, 0⟩], 0, true⟩
/-- state after the first step -/
noncomputable def s1 : PState :=
  ⟨100, 100, ⟨100 + 1 / 2000, 0, 0⟩, ⟨1, 0, 0⟩, 100 + 1 / 2000⟩
/-- situation after the first step -/
noncomputable def q1 : Prop' :=
  ⟨s1, outer, [⟨init, .continuousEnergyLoss, 0⟩, ⟨s1, .continuousEnergyLoss, 0⟩], 1, true⟩
/-- state after the second step -/
noncomputable def s2 : PState :=
  ⟨195 + 1 / 2000, 5 - 1 / 2000, ⟨5, 0, 0⟩, ⟨1, 0, 0⟩, 5⟩
/-- final situation -/
noncomputable def q2 : Prop' :=
  ⟨s2, outer, [⟨init, .continuousEnergyLoss, 0⟩, ⟨s1, .continuousEnergyLoss, 0⟩,
    ⟨s2, .continuousEnergyLoss, 0⟩], 2, false⟩

lemma prec_val : GEOMETRY_PRECISION = 1 / 10 ^ 9 := by norm_num [GEOMETRY_PRECISION]

lemma dist_inner0 : inner.geo.dist ⟨0, 0, 0⟩ ⟨1, 0, 0⟩ = (100 + 1 / 2000, -1) := by
  have := axis_inside (R := 100 + 1 / 2000) (x := 0) (by norm_num) (by norm_num)
    (by rw [prec_val]; norm_num)
  rw [sub_zero] at this
  exact this

lemma dist_outer0 : outer.geo.dist ⟨0, 0, 0⟩ ⟨1, 0, 0⟩ = (1000, -1) := by
  have := axis_inside (R := 1000) (x := 0) (by norm_num) (by norm_num) (by rw [prec_val]; norm_num)
  rw [sub_zero] at this
  exact this

lemma dist_inner1 : inner.geo.dist ⟨100 + 1 / 2000, 0, 0⟩ ⟨1, 0, 0⟩ = (-1, -1) :=
  axis_outside (R := 100 + 1 / 2000) (by norm_num) (by norm_num) (by rw [prec_val]; norm_num)

lemma dist_outer1 : outer.geo.dist ⟨100 + 1 / 2000, 0, 0⟩ ⟨1, 0, 0⟩ = (1000 - (100 + 1 / 2000), -1) :=
  axis_inside (R := 1000) (by norm_num) (by norm_num) (by rw [prec_val]; norm_num)

lemma sector0 : currentSector [outer, inner] ⟨0, 0, 0⟩ ⟨1, 0, 0⟩ = some inner := by
  have h1 : inner.geo.isInside ⟨0, 0, 0⟩ ⟨1, 0, 0⟩ := by
    unfold Geo.isInside; rw [dist_inner0]; norm_num
  have h2 : outer.geo.isInside ⟨0, 0, 0⟩ ⟨1, 0, 0⟩ := by
    unfold Geo.isInside; rw [dist_outer0]; norm_num
  rw [currentSector, List.filter_cons_of_pos (by simpa using h2),
    List.filter_cons_of_pos (by simpa using h1)]
  simp [maxHierarchy, inner, outer, Sphere.toGeo]

lemma sector1 : currentSector [outer, inner] ⟨100 + 1 / 2000, 0, 0⟩ ⟨1, 0, 0⟩ = some outer := by
  have h1 : ¬ inner.geo.isInside ⟨100 + 1 / 2000, 0, 0⟩ ⟨1, 0, 0⟩ := by
    unfold Geo.isInside; rw [dist_inner1]; norm_num
  have h2 : outer.geo.isInside ⟨100 + 1 / 2000, 0, 0⟩ ⟨1, 0, 0⟩ := by
    unfold Geo.isInside; rw [dist_outer1]; norm_num
  rw [currentSector, List.filter_cons_of_pos (by simpa using h2),
    List.filter_cons_of_neg (by simpa using h1)]
  rfl

lemma start : propInit args init 0 = .ok q0 := by
  unfold propInit
  rw [show currentSector args.sectors init.position init.direction = some inner from sector0]
  rfl

lemma next0 : nextOf args q0 = .stochastic ∧ eNextOf args q0 = 100 ∧ eMinOf args q0 = 1 ∧
    (eStochOf args q0).2 = 1 := by
  have h : nextOf args q0 = .stochastic := by
    unfold nextOf maximize eDecayOf eMinOf eStochOf
    norm_num [Utility.energyDecay, Utility.energyInteraction, q0, inner, Toy.util, init, args]
  refine ⟨h, ?_, ?_, ?_⟩
  · unfold eNextOf
    rw [h]
    norm_num [eStochOf, Utility.energyInteraction, q0, inner, Toy.util, init]
  · norm_num [eMinOf, args, q0, inner, Toy.util]
  · rfl

lemma next1 : nextOf args q1 = .stochastic ∧ eNextOf args q1 = 50 ∧ eMinOf args q1 = 1 ∧
    (eStochOf args q1).2 = 2 := by
  have h : nextOf args q1 = .stochastic := by
    unfold nextOf maximize eDecayOf eMinOf eStochOf
    norm_num [Utility.energyDecay, Utility.energyInteraction, q1, outer, Toy.util, s1, args]
  refine ⟨h, ?_, ?_, ?_⟩
  · unfold eNextOf
    rw [h]
    norm_num [eStochOf, Utility.energyInteraction, q1, outer, Toy.util, s1]
  · norm_num [eMinOf, args, q1, outer, Toy.util]
  · rfl

lemma loop0 : loop (envOf args q0) 201 (Trial.init (envOf args q0) inner 1) =
    some (.ok ⟨.border, 100, 100, 100 + 1 / 2000, ⟨1, 0, 0⟩, ⟨1, 0, 0⟩, inner, Memo.init 1, 1⟩) := by
  have he : envOf args q0 = ⟨[outer, inner], fun _ => 1 / 2, init, 100, 5⟩ := by
    unfold envOf; rw [next0.2.1]; rfl
  rw [he]
  unfold loop
  have hp : propose ⟨[outer, inner], fun _ => 1 / 2, init, 100, 5⟩
      (Trial.init ⟨[outer, inner], fun _ => 1 / 2, init, 100, 5⟩ inner 1) =
      some ⟨100, 100, some 100, Memo.init 1⟩ := by
    unfold propose Trial.init
    norm_num [inner, Toy.util, Toy.dens, init]
  have hin : inner.geo.isInside ⟨0, 0, 0⟩ ⟨1, 0, 0⟩ := by
    unfold Geo.isInside; rw [dist_inner0]; norm_num
  have hd : distanceToBorder [outer, inner] ⟨0, 0, 0⟩ ⟨1, 0, 0⟩ inner.geo = 100 + 1 / 2000 := by
    unfold distanceToBorder
    rw [dist_inner0]
    simp [outer, inner, Sphere.toGeo]
  have ht : trial ⟨[outer, inner], fun _ => 1 / 2, init, 100, 5⟩
      (Trial.init ⟨[outer, inner], fun _ => 1 / 2, init, 100, 5⟩ inner 1) =
      .done ⟨.border, 100, 100, 100 + 1 / 2000, ⟨1, 0, 0⟩, ⟨1, 0, 0⟩, inner, Memo.init 1, 1⟩ := by
    unfold trial
    rw [hp]
    simp only [decideStep, Trial.init, Utility.directionsScatter,
      show inner.util.scattering = none from rfl, init, hin, hd, leDist, MAX_STEPS]
    norm_num [PARTICLE_POSITION_RESOLUTION, StepEnv.maxDist]
  rw [ht]

lemma step0 : propStep args q0 = .ok q1 := by
  have ha : advanceOf args q0 = some (.ok ⟨.border, s1, inner, 1⟩) := by
    unfold advanceOf advance
    rw [next0.2.2.2, next0.1, next0.2.2.1, show q0.sector = inner from rfl,
      show MAX_STEPS + 1 = 201 from rfl, loop0]
    simp only [Option.map_some, Except.map, finish, Utility.energyRandomize,
      show inner.util.contRand = none from rfl]
    norm_num [envOf, q0, init, inner, Toy.util, s1, Memo.init]
    ext <;> simp
  unfold propStep
  rw [ha]
  simp only [react]
  rw [show currentSector args.sectors s1.position s1.direction = some outer from sector1]
  simp [q0, q1, args]

lemma loop1 : loop (envOf args q1) 201 (Trial.init (envOf args q1) outer 2) =
    some (.ok ⟨.maxDistance, 195 + 1 / 2000, -95 - 1 / 2000, -95 - 1 / 2000, ⟨1, 0, 0⟩, ⟨1, 0, 0⟩, outer,
      Memo.init 2, 2⟩) := by
  have he : envOf args q1 = ⟨[outer, inner], fun _ => 1 / 2, s1, 50, 5⟩ := by
    unfold envOf; rw [next1.2.1]; rfl
  rw [he]
  have hin : outer.geo.isInside ⟨100 + 1 / 2000, 0, 0⟩ ⟨1, 0, 0⟩ := by
    unfold Geo.isInside; rw [dist_outer1]; norm_num
  have hd : distanceToBorder [outer, inner] ⟨100 + 1 / 2000, 0, 0⟩ ⟨1, 0, 0⟩ outer.geo =
      1000 - (100 + 1 / 2000) := by
    unfold distanceToBorder
    have h1 : inner.geo.hierarchy = 1 := rfl
    have h0 : outer.geo.hierarchy = 0 := rfl
    simp only [List.foldl_cons, List.foldl_nil, h1, h0, dist_inner1, dist_outer1]
    norm_num
  have hp : propose ⟨[outer, inner], fun _ => 1 / 2, s1, 50, 5⟩
      (Trial.init ⟨[outer, inner], fun _ => 1 / 2, s1, 50, 5⟩ outer 2) =
      some ⟨50, 50, some 50, Memo.init 2⟩ := by
    unfold propose Trial.init
    norm_num [outer, Toy.util, Toy.dens, s1]
  have ht : trial ⟨[outer, inner], fun _ => 1 / 2, s1, 50, 5⟩
      (Trial.init ⟨[outer, inner], fun _ => 1 / 2, s1, 50, 5⟩ outer 2) =
      .again ⟨-1, -95 - 1 / 2000, 50, outer, Memo.init 2, 1, false⟩ := by
    unfold trial
    rw [hp]
    simp only [decideStep, Trial.init, Utility.directionsScatter,
      show outer.util.scattering = none from rfl, s1, hin, hd, leDist, MAX_STEPS]
    norm_num [PARTICLE_POSITION_RESOLUTION, StepEnv.maxDist, abs_of_neg]
    norm_num [outer, Toy.util]
  have hp' : propose ⟨[outer, inner], fun _ => 1 / 2, s1, 50, 5⟩
      ⟨-1, -95 - 1 / 2000, 50, outer, Memo.init 2, 1, false⟩ =
      some ⟨195 + 1 / 2000, -95 - 1 / 2000, some (-95 - 1 / 2000), Memo.init 2⟩ := by
    unfold propose
    norm_num [outer, Toy.util, Toy.dens, s1]
  have ht' : trial ⟨[outer, inner], fun _ => 1 / 2, s1, 50, 5⟩
      ⟨-1, -95 - 1 / 2000, 50, outer, Memo.init 2, 1, false⟩ =
      .done ⟨.maxDistance, 195 + 1 / 2000, -95 - 1 / 2000, -95 - 1 / 2000, ⟨1, 0, 0⟩, ⟨1, 0, 0⟩, outer,
      Memo.init 2, 2⟩ := by
    unfold trial
    rw [hp']
    simp only [decideStep, Utility.directionsScatter,
      show outer.util.scattering = none from rfl, s1, hin, hd, leDist, MAX_STEPS]
    norm_num [PARTICLE_POSITION_RESOLUTION, StepEnv.maxDist]
  rw [show (201 : ℕ) = 199 + 1 + 1 from rfl]
  unfold loop
  rw [ht]
  simp only []
  unfold loop
  rw [ht']

lemma step1 : propStep args q1 = .ok q2 := by
  have ha : advanceOf args q1 = some (.ok ⟨.maxDistance, s2, outer, 2⟩) := by
    unfold advanceOf advance
    rw [next1.2.2.2, next1.1, next1.2.2.1, show q1.sector = outer from rfl,
      show MAX_STEPS + 1 = 201 from rfl, loop1]
    simp only [Option.map_some, Except.map, finish, Utility.energyRandomize,
      show outer.util.contRand = none from rfl]
    norm_num [envOf, q1, s1, outer, Toy.util, s2, Memo.init]
    ext <;> norm_num
  unfold propStep
  rw [ha]
  simp [react, q1, q2]

lemma reach1 : Reachable args init 0 q1 := .step q0 q1 (.start q0 start) rfl step0

lemma reach2 : Reachable args init 0 q2 := .step q1 q2 reach1 rfl step1

end Over

/-- C12 is violated. There is a finished run, starting within the requested distance, in a world made
of two concentric spheres with homogeneous density and a constant energy loss, whose track contains an
entry beyond the requested distance: the particle is asked to go 5 and reaches 100.0005, because the
next interaction happens to lie within 0.001 of the border and the border branch does not look at the
requested distance. -/
theorem C12_overshoot :
    ∃ (a : PropArgs) (init : PState) (q : Prop'), init.distance ≤ a.maxDistance ∧
      Reachable a init 0 q ∧ q.running = false ∧
      ∃ x ∈ q.track, a.maxDistance + 95 < x.state.distance := by
  refine ⟨Over.args, Over.init, Over.q2, by norm_num [Over.args, Over.init], Over.reach2, rfl,
    ⟨Over.s1, .continuousEnergyLoss, 0⟩, by simp [Over.q2], ?_⟩
  norm_num [Over.args, Over.s1]

/-- C13 and C14 are violated by the same run: after the overshoot the remaining distance is negative,
so the next step moves the particle backwards in distance and time and gives energy back. The physics
is within its documented ranges: the utility and the density are good. -/
theorem C13_distance_decreases :
    ∃ (a : PropArgs) (init : PState) (q : Prop'),
      UnitRandoms a.ω ∧ (∀ s ∈ a.sectors, GoodUtility s.util ∧ GoodDensity s.dens) ∧
      init.distance ≤ a.maxDistance ∧ a.minEnergy ≤ init.energy ∧
      Reachable a init 0 q ∧ q.running = false ∧
      ∃ l x y, q.track = l ++ [x, y] ∧ y.state.distance < x.state.distance ∧
        y.state.time < x.state.time ∧ x.state.energy < y.state.energy := by
  refine ⟨Over.args, Over.init, Over.q2, Toy.half, ?_, by norm_num [Over.args, Over.init],
    by norm_num [Over.args, Over.init], Over.reach2, rfl,
    [⟨Over.init, .continuousEnergyLoss, 0⟩], ⟨Over.s1, .continuousEnergyLoss, 0⟩,
    ⟨Over.s2, .continuousEnergyLoss, 0⟩, rfl, ?_, ?_, ?_⟩
  · have hu := Toy.util_good
    have hρ := Toy.dens_good
    intro s hs
    simp only [Over.args, List.mem_cons, List.not_mem_nil, or_false] at hs
    rcases hs with rfl | rfl <;> exact ⟨hu, hρ⟩
  · norm_num [Over.s1, Over.s2]
  · norm_num [Over.s1, Over.s2]
  · norm_num [Over.s1, Over.s2]

/-! ## A particle that starts below the requested minimal energy -/

namespace Low

/-- One sector, border always 10 ahead; minimal energy 9. -/
noncomputable def args : PropArgs := ⟨[Toy.sector 10], fun _ => 1 / 2, 20, 9, 0⟩
/-- A particle of energy 8. -/
noncomputable def init : PState := ⟨8, 0, ⟨0, 0, 0⟩, ⟨1, 0, 0⟩, 0⟩
/-- the situation before the loop -/
noncomputable def q0 : Prop' := ⟨init, Toy.sector 10, [⟨init, .continuousEnergyLoss, 0⟩], 0, true⟩
/-- the state after the first step -/
noncomputable def s1 : PState := ⟨9, -1, ⟨-1, 0, 0⟩, ⟨1, 0, 0⟩, -1⟩
/-- the final situation -/
noncomputable def q1 : Prop' :=
  ⟨s1, Toy.sector 10, [⟨init, .continuousEnergyLoss, 0⟩, ⟨s1, .continuousEnergyLoss, 0⟩], 1, false⟩

lemma start : propInit args init 0 = .ok q0 := by
  unfold propInit
  have : currentSector args.sectors init.position init.direction = some (Toy.sector 10) := by
    unfold currentSector
    rw [show args.sectors = [Toy.sector 10] from rfl, List.filter_cons_of_pos]
    · rfl
    · exact @decide_eq_true _ (Classical.propDecidable _) (Toy.inside (by norm_num) _ _)
  rw [this]
  rfl

lemma next : nextOf args q0 = .minimalE ∧ eNextOf args q0 = 9 ∧ eMinOf args q0 = 9 ∧
    (eStochOf args q0).2 = 1 := by
  have h : nextOf args q0 = .minimalE := by
    unfold nextOf maximize eDecayOf eMinOf eStochOf
    norm_num [Utility.energyDecay, Utility.energyInteraction, q0, Toy.sector, Toy.util, init, args]
  refine ⟨h, ?_, ?_, rfl⟩
  · unfold eNextOf
    rw [h]
    norm_num [eMinOf, args, q0, Toy.sector, Toy.util]
  · norm_num [eMinOf, args, q0, Toy.sector, Toy.util]

lemma step : propStep args q0 = .ok q1 := by
  have he : envOf args q0 = ⟨[Toy.sector 10], fun _ => 1 / 2, init, 9, 20⟩ := by
    unfold envOf; rw [next.2.1]; rfl
  have hp : propose ⟨[Toy.sector 10], fun _ => 1 / 2, init, 9, 20⟩
      (Trial.init ⟨[Toy.sector 10], fun _ => 1 / 2, init, 9, 20⟩ (Toy.sector 10) 1) =
      some ⟨9, -1, some (-1), Memo.init 1⟩ := by
    unfold propose Trial.init
    norm_num [Toy.sector, Toy.util, Toy.dens, init]
  have hd := Toy.dtb 10
  have hi := fun p d => @Toy.inside 10 (by norm_num) p d
  have ht : trial ⟨[Toy.sector 10], fun _ => 1 / 2, init, 9, 20⟩
      (Trial.init ⟨[Toy.sector 10], fun _ => 1 / 2, init, 9, 20⟩ (Toy.sector 10) 1) =
      .done ⟨.interaction, 9, -1, -1, ⟨1, 0, 0⟩, ⟨1, 0, 0⟩, Toy.sector 10, Memo.init 1, 1⟩ := by
    unfold trial
    rw [hp]
    simp only [decideStep, Trial.init, Utility.directionsScatter,
      show (Toy.sector 10).util = Toy.util from rfl, show Toy.util.scattering = none from rfl,
      show (Toy.sector 10).geo = Toy.geo 10 from rfl, init, hd, hi, MAX_STEPS, leDist]
    norm_num [PARTICLE_POSITION_RESOLUTION, StepEnv.maxDist]
  have ha : advanceOf args q0 = some (.ok ⟨.interaction, s1, Toy.sector 10, 1⟩) := by
    unfold advanceOf advance
    rw [next.2.2.2, next.1, next.2.2.1, he, show q0.sector = Toy.sector 10 from rfl]
    unfold loop
    rw [ht]
    simp only [Option.map_some, Except.map, finish]
    norm_num [q0, init, Toy.sector, Toy.util, s1, Memo.init]
    ext <;> norm_num
  unfold propStep
  rw [ha, next.1]
  simp [react, q0, q1]

end Low

/-- C14: the restriction on the initial energy is needed. A particle that starts below the requested
minimal energy is moved backwards until it has the minimal energy: energy 8 becomes 9, distance 0
becomes -1. -/
theorem C14_energy_raised_to_minimum :
    ∃ (a : PropArgs) (init : PState) (q : Prop'),
      UnitRandoms a.ω ∧ (∀ s ∈ a.sectors, GoodUtility s.util ∧ GoodDensity s.dens) ∧
      Reachable a init 0 q ∧ q.running = false ∧
      ∃ x y, q.track = [x, y] ∧ x.state.energy < y.state.energy ∧
        y.state.distance < x.state.distance := by
  refine ⟨Low.args, Low.init, Low.q1, Toy.half, ?_, .step _ _ (.start _ Low.start) rfl Low.step, rfl,
    _, _, rfl, by norm_num [Low.init, Low.s1], by norm_num [Low.init, Low.s1]⟩
  intro s hs
  simp only [Low.args, List.mem_cons, List.not_mem_nil, or_false] at hs
  rw [hs]
  exact ⟨Toy.util_good, Toy.dens_good⟩

/-! ## A regular run -/

namespace Reg

/-- One sector, border always 1000 ahead; distance at most 20, minimal energy 1. -/
noncomputable def args : PropArgs := ⟨[Toy.sector 1000], fun _ => 1 / 2, 20, 1, 0⟩
/-- A particle of energy 100. -/
noncomputable def init : PState := ⟨100, 0, ⟨0, 0, 0⟩, ⟨1, 0, 0⟩, 0⟩

/-- invariant of the run -/
def Inv (q : Prop') : Prop :=
  q.sector = Toy.sector 1000 ∧ 0 ≤ q.state.distance ∧ q.state.distance ≤ 20 ∧
  q.state.energy ≤ 100 ∧ (q.running = true → 1 ≤ q.state.energy)

lemma few_trials (q : Prop') (h : Inv q) (hrun : q.running = true) (f : Finished)
    (hf : loop (envOf args q) (MAX_STEPS + 1)
      (Trial.init (envOf args q) q.sector (eStochOf args q).2) = some (.ok f)) :
    f.numSteps ≤ MAX_STEPS ∧ 0 ≤ f.distance ∧ f.distance ≤ 20 - q.state.distance ∧
      1 ≤ f.energy ∧ f.energy ≤ q.state.energy ∧ f.sector = Toy.sector 1000 ∧
      f.type ≠ .border := by
  obtain ⟨h1, h2, h3, h4, h5⟩ := h
  have h5 := h5 hrun
  have hmin : eMinOf args q = 1 := by simp [eMinOf, h1, args, Toy.sector, Toy.util]
  obtain ⟨e1, e2⟩ := eNext_range args q Toy.half (by rw [h1]; exact Toy.util_good) (by rw [h1]; exact Toy.dens_good) (by rw [hmin]; exact h5)
    (by linarith)
  rw [hmin] at e1
  have hin : q.sector.geo.isInside (envOf args q).state.position (envOf args q).state.direction := by
    rw [h1]; exact Toy.inside (by norm_num) _ _
  obtain ⟨f', hf', hn⟩ := C68_two_trials (envOf args q) q.sector (eStochOf args q).2 (by rw [h1]; rfl)
    (by rw [h1]; intro p dir g d m h; exact ⟨g, rfl, h⟩) hin h3 (by show eNextOf args q ≠ -1; linarith)
  have := loop_mono (envOf args q) 2 (MAX_STEPS + 1) (Trial.init (envOf args q) q.sector (eStochOf args q).2)
    (by rw [hf']; simp) (by unfold MAX_STEPS; omega)
  rw [this, hf'] at hf
  obtain rfl : f' = f := by simpa using hf
  have hn' : f'.numSteps ≤ MAX_STEPS := by unfold MAX_STEPS; omega
  have hmd : (envOf args q).maxDist = 20 - q.state.distance := rfl
  obtain ⟨r1, r2, r3, r4, r5, r6⟩ := finished_range (e := envOf args q) (s := q.sector)
    (by intro s hs; rw [show s = Toy.sector 1000 by simpa [envOf, args] using hs]; exact Toy.util_good)
    (by intro s hs; rw [show s = Toy.sector 1000 by simpa [envOf, args] using hs]; exact Toy.dens_good)
    (by
      intro s hs
      rw [show s = Toy.sector 1000 by simpa [envOf, args] using hs]
      simpa [Toy.sector, Toy.util] using (show (1 : ℝ) ≤ (envOf args q).eNext from e1))
    (by rw [h1]; simp [envOf, args]) (by rw [hmd]; linarith) e2 hf' hn'
  have r4' : f'.energy ≤ q.state.energy := r4
  have r3' : eNextOf args q ≤ f'.energy := r3
  have hsec : f'.sector = Toy.sector 1000 := by simpa [envOf, args] using r5
  suffices hfin : f'.distance ≤ 20 - q.state.distance ∧ f'.type ≠ .border from
    ⟨hn', r1, hfin.1, by linarith, r4', hsec, hfin.2⟩
  obtain ⟨t, ⟨i1, i2, i3⟩, h' | h'⟩ := loop_inv (e := envOf args q)
    (fun t => t.sector = Toy.sector 1000 ∧ t.gNext = q.state.energy - eNextOf args q ∧
      ((t.energy = eNextOf args q ∧ t.distance = -1) ∨
        (t.energy = -1 ∧ t.distance ≤ 20 - q.state.distance)))
    (fun t t' ht h => by
      obtain ⟨p, _, _, _, h⟩ := trial_again h
      rcases h with ⟨_, hc, he, hd, h, _⟩ | ⟨_, hc, he, hd, h, _⟩
      · have hs : t'.sector = Toy.sector 1000 := by
          obtain ⟨_, l1, l2, h', _⟩ := (C08_current_sector _ _ _).1 _ hc
          have : t'.sector ∈ (envOf args q).sectors := by rw [h']; simp
          simpa [envOf, args] using this
        refine ⟨hs, ?_, Or.inl ⟨he, hd⟩⟩
        rw [h, hs]; rfl
      · exact ⟨hc.trans ht.1, h.trans ht.2.1, Or.inr ⟨he, by rw [hd]; exact min_le_right _ _⟩⟩)
    2 _ ⟨h1, by simp [Trial.init, h1, Toy.sector, Toy.util, envOf], Or.inl ⟨rfl, rfl⟩⟩ _ hf'
  swap
  · obtain ⟨_, hx, _⟩ := h'; cases hx
  obtain ⟨f'', hx, hd⟩ := h'
  obtain rfl := Except.ok.inj hx
  obtain ⟨p, hp, _, _, _, _, _, h⟩ := trial_done hd
  have hdtb : dtbOf (envOf args q) t p = 1000 := by
    unfold dtbOf
    rw [i1]
    exact Toy.dtb 1000 _ _
  rw [hdtb] at h
  rcases h with ⟨h, _⟩ | ⟨_, _, _, _, h⟩
  · omega
  · rcases h with ⟨ht, _, _, h, _⟩ | ⟨ht, _, h, _⟩ | ⟨_, _, d, hpd, hdd⟩
    · exact ⟨h, by rw [ht]; simp⟩
    · exact ⟨by rw [h]; exact le_rfl, by rw [ht]; simp⟩
    · exfalso
      have hd100 : d ≤ 100 := by
        rcases propose_cases (envOf args q) t with ⟨hne, _, h'⟩ | ⟨ha, hx, _, h'⟩ | ⟨_, hx, hle, h'⟩ | ⟨n1, n2, h'⟩
        · rw [hp] at h'
          obtain rfl := Option.some.inj h'
          rw [i1] at hpd
          have : d = q.state.energy - t.energy := (Option.some.inj hpd).symm
          rcases i3 with i3 | i3
          · rw [this, i3.1]; linarith
          · exact absurd i3.1 hne
        · rw [hp] at h'
          obtain rfl := Option.some.inj h'
          have : d = t.distance := (Option.some.inj hpd).symm
          rcases i3 with i3 | i3
          · linarith [i3.2]
          · linarith [i3.2]
        · rw [hp] at h'
          obtain rfl := Option.some.inj h'
          rw [i1] at hpd
          have : d = t.gNext := (Option.some.inj hpd).symm
          rw [this, i2]; linarith
        · rw [hp] at h'; cases h'
      have := (abs_le.1 hdd).1
      unfold PARTICLE_POSITION_RESOLUTION at this
      linarith

lemma inv (q : Prop') (h : Reachable args init 0 q) : Inv q := by
  induction h with
  | start q hq =>
    obtain ⟨h1, h2, _, h4⟩ := propInit_ok hq
    refine ⟨by simpa [args] using h2, ?_, ?_, ?_, ?_⟩ <;> rw [h1] <;> norm_num [init]
  | step q q' hreach hrun hs ih =>
    obtain ⟨r, hr, hq⟩ := propStep_ok hs
    obtain ⟨f, hf, rfl⟩ := advanceOf_ok hr
    obtain ⟨k1, k2, k3, k4, k5, k6, k7⟩ := few_trials q ih hrun f hf
    obtain ⟨h1, h2, h3, h4, h5⟩ := ih
    have hmin : eMinOf args q = 1 := by simp [eMinOf, h1, args, Toy.sector, Toy.util]
    have hen : (finish (envOf args q) (decide (nextOf args q = .minimalE)) (eMinOf args q) f).state.energy
        = f.energy := by
      unfold finish
      rw [k6]
      simp [Utility.energyRandomize, Toy.sector, Toy.util]
    have hdi : (finish (envOf args q) (decide (nextOf args q = .minimalE)) (eMinOf args q) f).state.distance
        = q.state.distance + f.distance := rfl
    rcases react_ok hq with ⟨_, _, hsec, hst, hr2, _⟩ | ⟨_, _, hsec, hst, hr2, _⟩ | ⟨_, _, hsec, hst, hr2, _⟩ |
        ⟨_, hsec, hst, hr2, _⟩ | ⟨hb, _⟩
    · have hkd := (doStochastic_keeps args.ω
        (finish (envOf args q) (decide (nextOf args q = .minimalE)) (eMinOf args q) f).sector.util
        (finish (envOf args q) (decide (nextOf args q = .minimalE)) (eMinOf args q) f).state
        (finish (envOf args q) (decide (nextOf args q = .minimalE)) (eMinOf args q) f).pos)
      refine ⟨hsec.trans k6, ?_, ?_, ?_, ?_⟩
      · rw [hst, hkd.2.2.1, hdi]; linarith
      · rw [hst, hkd.2.2.1, hdi]; linarith
      · rw [hst, hkd.2.2.2.2, hen,
          show (finish (envOf args q) (decide (nextOf args q = .minimalE)) (eMinOf args q) f).sector =
            Toy.sector 1000 from k6]
        norm_num [Toy.sector, Toy.util]
        linarith
      · intro hrun'
        have := hr2.1 hrun'
        rw [hmin] at this
        exact this.le
    all_goals first
      | exact absurd hb k7
      | (refine ⟨hsec.trans k6, ?_, ?_, ?_, ?_⟩
         · rw [hst, hdi]; linarith
         · rw [hst, hdi]; linarith
         · rw [hst, hen]; linarith
         · intro hrun'; rw [hrun'] at hr2; cases hr2)

lemma regular : Regular args init 0 where
  noEmergency q f hq hrun hf := (few_trials q (inv q hq) hrun f hf).1
  noOvershoot q hq := (inv q hq).2.2.1

end Reg

/-- The hypotheses of `C12_max_distance_partial`, `C13_distance_time_energy_partial` and
`C14_energy_never_increases_partial` hold for a run in the toy world. -/
example : UnitRandoms Reg.args.ω ∧ (∀ s ∈ Reg.args.sectors, GoodUtility s.util) ∧ (∀ s ∈ Reg.args.sectors, GoodDensity s.dens) ∧
    (∀ s ∈ Reg.args.sectors, s.util.lowerLim ≤ Reg.args.minEnergy) ∧ 0 ≤ Reg.args.minEnergy ∧
    Reg.args.minEnergy ≤ Reg.init.energy ∧ Regular Reg.args Reg.init 0 ∧
    ∃ q, Reachable Reg.args Reg.init 0 q := by
  have hs : ∀ s ∈ Reg.args.sectors, s = Toy.sector 1000 := by intro s hs; simpa [Reg.args] using hs
  refine ⟨Toy.half, ?_, ?_, ?_, by norm_num [Reg.args], by norm_num [Reg.args, Reg.init], Reg.regular, ?_⟩
  · intro s h; rw [hs s h]; exact Toy.util_good
  · intro s h; rw [hs s h]; exact Toy.dens_good
  · intro s h; rw [hs s h]; norm_num [Toy.sector, Toy.util, Reg.args]
  · refine ⟨⟨Reg.init, Toy.sector 1000, [⟨Reg.init, .continuousEnergyLoss, 0⟩], 0, true⟩, .start _ ?_⟩
    unfold propInit
    have : currentSector Reg.args.sectors Reg.init.position Reg.init.direction = some (Toy.sector 1000) := by
      unfold currentSector
      rw [show Reg.args.sectors = [Toy.sector 1000] from rfl, List.filter_cons_of_pos]
      · rfl
      · exact @decide_eq_true _ (Classical.propDecidable _) (Toy.inside (by norm_num) _ _)
    rw [this]

end Proposal
