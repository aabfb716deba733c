import Verif.Props.Overshoot

/-!
# What one iteration of `Propagate` does (C10, C12, C61)
-/

namespace Proposal

/-- The particle gets from its state to the energy `E1` inside its sector: the proposed distance is `d`, it is covered along `mean`, and the
particle leaves with the direction `new`; `memo` are the random numbers afterwards. -/
structure Spec.Undisturbed (a : PropArgs) (q : Prop') (E1 : ℝ) (pos : ℕ) (d : ℝ) (mean new : Vec3) (memo : Memo) : Prop where
  valid : E1 ≠ -1
  distance : q.sector.dens.correct q.state.position q.state.direction (q.sector.util.lengthContinuous q.state.energy E1)
    (a.maxDistance - q.state.distance) = some d
  scattered : q.sector.util.directionsScatter a.ω (Memo.init pos) (q.sector.util.lengthContinuous q.state.energy E1) q.state.energy E1
    q.state.direction = (mean, new, memo)
  inside : q.sector.geo.isInside q.state.position mean
  border : d ≤ distanceToBorder a.sectors q.state.position mean q.sector.geo
  range : d ≤ a.maxDistance - q.state.distance

/-- The state after a continuous step of the length `d` from `E` to `E1`, with the energy `E2` after the randomisation. -/
noncomputable def Spec.afterStep (q : Prop') (E1 E2 d : ℝ) (mean new : Vec3) : PState :=
  ⟨E2, q.state.time + q.sector.util.timeElapsed q.state.energy E1 (q.sector.util.lengthContinuous q.state.energy E1)
      (q.sector.dens.evaluate q.state.position),
    q.state.position + d • mean, new, q.state.distance + d⟩

private lemma loop_undisturbed (a : PropArgs) (q : Prop') (E1 : ℝ) (pos : ℕ) (d : ℝ) (mean new : Vec3) (memo : Memo)
    (h : Spec.Undisturbed a q E1 pos d mean new memo) :
    loop ⟨a.sectors, a.ω, q.state, E1, a.maxDistance⟩ (MAX_STEPS + 1)
        (Trial.init ⟨a.sectors, a.ω, q.state, E1, a.maxDistance⟩ q.sector pos) =
      some (.ok ⟨.interaction, E1, q.sector.util.lengthContinuous q.state.energy E1, d, mean, new, q.sector, memo, 1⟩) := by
  have hp : propose ⟨a.sectors, a.ω, q.state, E1, a.maxDistance⟩
      (Trial.init ⟨a.sectors, a.ω, q.state, E1, a.maxDistance⟩ q.sector pos) =
      some ⟨E1, q.sector.util.lengthContinuous q.state.energy E1, some d, Memo.init pos⟩ := by
    unfold propose Trial.init
    rw [if_pos ⟨h.valid, rfl⟩]
    simp only [StepEnv.maxDist]
    rw [h.distance]
  have hd : decideStep ⟨a.sectors, a.ω, q.state, E1, a.maxDistance⟩
      (Trial.init ⟨a.sectors, a.ω, q.state, E1, a.maxDistance⟩ q.sector pos)
      ⟨E1, q.sector.util.lengthContinuous q.state.energy E1, some d, Memo.init pos⟩ =
      .done ⟨.interaction, E1, q.sector.util.lengthContinuous q.state.energy E1, d, mean, new, q.sector, memo, 1⟩ := by
    unfold decideStep Trial.init
    simp only
    rw [if_neg (by norm_num [MAX_STEPS]), if_neg (not_not.2 (by rw [h.scattered]; exact h.inside)),
      if_pos ⟨⟨d, rfl, by rw [h.scattered]; exact h.border⟩, ⟨d, rfl, h.range⟩, rfl⟩, h.scattered]
    rfl
  unfold loop
  unfold trial
  rw [hp]
  simp only [hd]

open Spec

/-- The reaction after a step that reached the energy `E1`. -/
lemma step_undisturbed (a : PropArgs) (q : Prop') (d : ℝ) (mean new : Vec3) (memo : Memo)
    (h : Undisturbed a q (eNextOf a q) (eStochOf a q).2 d mean new memo) :
    propStep a q = react a q (nextOf a q) (eMinOf a q)
      (finish (envOf a q) (decide (nextOf a q = .minimalE)) (eMinOf a q)
        ⟨.interaction, eNextOf a q, q.sector.util.lengthContinuous q.state.energy (eNextOf a q), d, mean, new, q.sector, memo, 1⟩) := by
  have := loop_undisturbed a q _ _ d mean new memo h
  unfold propStep advanceOf advance
  rw [show envOf a q = ⟨a.sectors, a.ω, q.state, eNextOf a q, a.maxDistance⟩ from rfl, this]
  rfl

/-- C10: a decay that comes first (at an energy not below the others) is reached when nothing is in the way: the particle loses energy
continuously down to the energy of the decay, this energy is randomised, and the track ends with the decay. -/
theorem C10_decay_reached (a : PropArgs) (q : Prop') (D : ℝ → ℝ → ℝ → ℝ) (hD : q.sector.util.decay = some D)
    (ed es em : ℝ) (h1 : ed = D q.state.energy (a.ω q.pos) (q.sector.dens.evaluate q.state.position))
    (h2 : es = q.sector.util.interaction q.state.energy (a.ω (q.pos + 1))) (h3 : em = max a.minEnergy q.sector.util.lowerLim)
    (hm : em ≤ ed) (hs : es ≤ ed) (d : ℝ) (mean new : Vec3) (memo : Memo)
    (h : Undisturbed a q ed (q.pos + 2) d mean new memo) :
    propStep a q = .ok ⟨afterStep q ed (q.sector.util.energyRandomize a.ω memo q.state.energy ed em).1 d mean new, q.sector,
      q.track ++ [⟨afterStep q ed (q.sector.util.energyRandomize a.ω memo q.state.energy ed em).1 d mean new, .continuousEnergyLoss, 0⟩,
        ⟨afterStep q ed (q.sector.util.energyRandomize a.ω memo q.state.energy ed em).1 d mean new, .decay, 0⟩],
      (q.sector.util.energyRandomize a.ω memo q.state.energy ed em).2.pos, false⟩ := by
  have e1 : eDecayOf a q = (ed, q.pos + 1) := by
    unfold eDecayOf Utility.energyDecay
    rw [hD, h1]
  have e2 : eStochOf a q = (es, q.pos + 2) := by
    unfold eStochOf Utility.energyInteraction
    rw [e1, h2]
  have e3 : eMinOf a q = em := h3.symm
  have e4 : nextOf a q = .decay := by
    unfold nextOf
    rw [e1, e2, e3]
    simp only [maximize]
    rw [if_neg (not_lt.2 hm)]
    rw [if_neg (not_lt.2 hs)]
  have e5 : eNextOf a q = ed := by
    unfold eNextOf
    rw [e4, e1]
  rw [step_undisturbed a q d mean new memo (by rw [e5, e2]; exact h), e4, e3, e5]
  unfold react finish afterStep envOf
  simp

/-- C10: when the minimal energy comes first, it is reached exactly, without randomisation, and the propagation ends. -/
theorem C10_minimum_reached (a : PropArgs) (q : Prop') (D : ℝ → ℝ → ℝ → ℝ) (hD : q.sector.util.decay = some D)
    (ed es em : ℝ) (h1 : ed = D q.state.energy (a.ω q.pos) (q.sector.dens.evaluate q.state.position))
    (h2 : es = q.sector.util.interaction q.state.energy (a.ω (q.pos + 1))) (h3 : em = max a.minEnergy q.sector.util.lowerLim)
    (hd : ed < em) (hs : es ≤ em) (d : ℝ) (mean new : Vec3) (memo : Memo)
    (h : Undisturbed a q em (q.pos + 2) d mean new memo) :
    propStep a q = .ok ⟨afterStep q em em d mean new, q.sector,
      q.track ++ [⟨afterStep q em em d mean new, .continuousEnergyLoss, 0⟩], memo.pos, false⟩ := by
  have e1 : eDecayOf a q = (ed, q.pos + 1) := by
    unfold eDecayOf Utility.energyDecay
    rw [hD, h1]
  have e2 : eStochOf a q = (es, q.pos + 2) := by
    unfold eStochOf Utility.energyInteraction
    rw [e1, h2]
  have e3 : eMinOf a q = em := h3.symm
  have e4 : nextOf a q = .minimalE := by
    unfold nextOf
    rw [e1, e2, e3]
    simp only [maximize]
    rw [if_pos hd]
    rw [if_neg (not_lt.2 hs)]
  have e5 : eNextOf a q = em := by
    unfold eNextOf
    rw [e4, e3]
  rw [step_undisturbed a q d mean new memo (by rw [e5, e2]; exact h), e4, e3, e5]
  unfold react finish afterStep envOf
  simp

/-- C10: when a stochastic interaction comes first, the particle loses energy continuously down to its energy `es`, this is randomised to
`E2`, then a loss is drawn at `E2` with the next random number; the propagation goes on if more than the minimal energy is left. -/
theorem C10_interaction_reached (a : PropArgs) (q : Prop') (D : ℝ → ℝ → ℝ → ℝ) (hD : q.sector.util.decay = some D)
    (ed es em : ℝ) (h1 : ed = D q.state.energy (a.ω q.pos) (q.sector.dens.evaluate q.state.position))
    (h2 : es = q.sector.util.interaction q.state.energy (a.ω (q.pos + 1))) (h3 : em = max a.minEnergy q.sector.util.lowerLim)
    (hd : ed < es) (hm : em < es) (d : ℝ) (mean new : Vec3) (memo : Memo)
    (h : Undisturbed a q es (q.pos + 2) d mean new memo) (E2 : ℝ) (pos : ℕ)
    (hr : E2 = (q.sector.util.energyRandomize a.ω memo q.state.energy es em).1)
    (hpos : pos = (q.sector.util.energyRandomize a.ω memo q.state.energy es em).2.pos)
    (l : Loss) (hl : l = q.sector.util.sampleLoss E2 (a.ω pos)) (hu : l.type ≠ .undefined)
    (dir : Vec3) (pos' : ℕ)
    (hdir : q.sector.util.directionDeflect a.ω (pos + 1) l.type E2 (E2 * (1 - l.v)) new l.comp = (dir, pos')) :
    propStep a q = .ok ⟨{ afterStep q es E2 d mean new with energy := E2 * (1 - l.v), direction := dir }, q.sector,
        q.track ++ [⟨afterStep q es E2 d mean new, .continuousEnergyLoss, 0⟩,
          ⟨{ afterStep q es E2 d mean new with energy := E2 * (1 - l.v), direction := dir }, l.type, l.comp⟩], pos',
        decide (em < E2 * (1 - l.v))⟩ := by
  classical
  have e1 : eDecayOf a q = (ed, q.pos + 1) := by
    unfold eDecayOf Utility.energyDecay
    rw [hD, h1]
  have e2 : eStochOf a q = (es, q.pos + 2) := by
    unfold eStochOf Utility.energyInteraction
    rw [e1, h2]
  have e3 : eMinOf a q = em := h3.symm
  have e4 : nextOf a q = .stochastic := by
    unfold nextOf
    rw [e1, e2, e3]
    simp only [maximize]
    by_cases hc : ed < em
    · rw [if_pos hc]
      rw [if_pos hm]
    · rw [if_neg hc]
      rw [if_pos hd]
  have e5 : eNextOf a q = es := by
    unfold eNextOf
    rw [e4, e2]
  rw [step_undisturbed a q d mean new memo (by rw [e5, e2]; exact h), e4, e3, e5]
  subst hr hpos hl
  unfold react finish afterStep envOf doStochastic Utility.stochasticLoss
  simp [hu, hdir]

/-- The particle does not get to the energy `E1`: the proposed distance `p` leads beyond the border at `B1` or beyond the maximal distance, so
that the step is repeated with the distance `D` to the nearer of the two. `E2` is the energy there, `mean`, `new` and `memo` belong to the
repeated step, and `B2` is its distance to the border. -/
structure Spec.Shortened (a : PropArgs) (q : Prop') (E1 : ℝ) (pos : ℕ) (p : Option ℝ) (B1 D E2 : ℝ) (mean new : Vec3) (memo : Memo) (B2 : ℝ) :
    Prop where
  valid : E1 ≠ -1
  distance : q.sector.dens.correct q.state.position q.state.direction (q.sector.util.lengthContinuous q.state.energy E1)
    (a.maxDistance - q.state.distance) = p
  first : ∃ mean1 new1 memo1, q.sector.util.directionsScatter a.ω (Memo.init pos) (q.sector.util.lengthContinuous q.state.energy E1)
      q.state.energy E1 q.state.direction = (mean1, new1, memo1) ∧ q.sector.geo.isInside q.state.position mean1 ∧
    B1 = distanceToBorder a.sectors q.state.position mean1 q.sector.geo ∧
    q.sector.util.directionsScatter a.ω memo1 (q.sector.dens.calculate q.state.position q.state.direction D) q.state.energy E2
      q.state.direction = (mean, new, memo)
  nearer : D = min B1 (a.maxDistance - q.state.distance)
  beyond : ∀ d, p = some d → D < d ∧ PARTICLE_POSITION_RESOLUTION < |d - B1|
  ahead : D ≠ -1
  earlier : q.sector.dens.calculate q.state.position q.state.direction D < q.sector.util.lengthContinuous q.state.energy E1
  energy : E2 = q.sector.util.energyDistance q.state.energy (q.sector.dens.calculate q.state.position q.state.direction D)
  higher : E2 ≠ E1
  inside : q.sector.geo.isInside q.state.position mean
  border : B2 = distanceToBorder a.sectors q.state.position mean q.sector.geo

private lemma loop_shortened (a : PropArgs) (q : Prop') (E1 : ℝ) (pos : ℕ) (p : Option ℝ) (B1 D E2 : ℝ) (mean new : Vec3) (memo : Memo)
    (B2 : ℝ) (h : Spec.Shortened a q E1 pos p B1 D E2 mean new memo B2) (k : ℕ) (f : Finished)
    (hf : decideStep ⟨a.sectors, a.ω, q.state, E1, a.maxDistance⟩
      ⟨-1, D, q.sector.util.lengthContinuous q.state.energy E1, q.sector,
        (q.sector.util.directionsScatter a.ω (Memo.init pos) (q.sector.util.lengthContinuous q.state.energy E1)
      q.state.energy E1 q.state.direction).2.2, 1, false⟩
      ⟨E2, q.sector.dens.calculate q.state.position q.state.direction D, some D,
        (q.sector.util.directionsScatter a.ω (Memo.init pos) (q.sector.util.lengthContinuous q.state.energy E1)
      q.state.energy E1 q.state.direction).2.2⟩ = .done f) :
    loop ⟨a.sectors, a.ω, q.state, E1, a.maxDistance⟩ (k + 2)
        (Trial.init ⟨a.sectors, a.ω, q.state, E1, a.maxDistance⟩ q.sector pos) = some (.ok f) := by
  obtain ⟨mean1, new1, memo1, s1, s2, s3, s4⟩ := h.first
  have hp : propose ⟨a.sectors, a.ω, q.state, E1, a.maxDistance⟩
      (Trial.init ⟨a.sectors, a.ω, q.state, E1, a.maxDistance⟩ q.sector pos) =
      some ⟨E1, q.sector.util.lengthContinuous q.state.energy E1, p, Memo.init pos⟩ := by
    unfold propose Trial.init
    rw [if_pos ⟨h.valid, rfl⟩]
    simp only [StepEnv.maxDist]
    rw [h.distance]
  have hno : ∀ d, p = some d → ¬ (d ≤ B1 ∧ d ≤ a.maxDistance - q.state.distance) := by
    intro d hd hc
    have := (h.beyond d hd).1
    rw [h.nearer] at this
    exact absurd (le_min hc.1 hc.2) (not_le.2 this)
  have hd : decideStep ⟨a.sectors, a.ω, q.state, E1, a.maxDistance⟩
      (Trial.init ⟨a.sectors, a.ω, q.state, E1, a.maxDistance⟩ q.sector pos)
      ⟨E1, q.sector.util.lengthContinuous q.state.energy E1, p, Memo.init pos⟩ =
      .again ⟨-1, D, q.sector.util.lengthContinuous q.state.energy E1, q.sector, memo1, 1, false⟩ := by
    unfold decideStep Trial.init
    simp only
    rw [if_neg (by norm_num [MAX_STEPS]), if_neg (not_not.2 (by rw [s1]; exact s2)), if_neg, if_neg, if_neg, s1]
    · simp only
      rw [← s3, h.nearer]
      rfl
    · rintro ⟨d, hd, hr⟩
      rw [s1] at hr
      simp only at hr
      rw [← s3] at hr
      exact absurd hr (not_le.2 (h.beyond d hd).2)
    · rintro ⟨⟨d, hd, hb⟩, hR⟩
      rw [s1] at hb
      simp only at hb
      rw [← s3] at hb
      rw [hd] at hR
      exact hno d hd ⟨hb, (Option.some.inj hR).le⟩
    · rintro ⟨⟨d, hd, hb⟩, ⟨d', hd', hR⟩, -⟩
      rw [s1] at hb
      simp only at hb
      rw [← s3] at hb
      rw [hd] at hd'
      obtain rfl := Option.some.inj hd'
      exact hno d hd ⟨hb, hR⟩
  rw [s1] at hf
  have hp2 : propose ⟨a.sectors, a.ω, q.state, E1, a.maxDistance⟩
      ⟨-1, D, q.sector.util.lengthContinuous q.state.energy E1, q.sector, memo1, 1, false⟩ =
      some ⟨E2, q.sector.dens.calculate q.state.position q.state.direction D, some D, memo1⟩ := by
    unfold propose
    rw [if_neg (by simp), if_pos ⟨rfl, h.ahead⟩]
    simp only
    rw [if_pos h.earlier, h.energy]
  rw [loop]
  unfold trial
  rw [hp]
  simp only [hd]
  rw [loop]
  unfold trial
  rw [hp2]
  simp only [hf]

/-- The state after a step of the length `d` and the grammage `g` to the energy `E2`, randomised to `E3`. -/
noncomputable def Spec.afterShort (q : Prop') (g E2 E3 d : ℝ) (mean new : Vec3) : PState :=
  ⟨E3, q.state.time + q.sector.util.timeElapsed q.state.energy E2 g (q.sector.dens.evaluate q.state.position),
    q.state.position + d • mean, new, q.state.distance + d⟩

/-- The energy and the stream position at which the next interaction is expected. -/
structure Spec.NextAt (a : PropArgs) (q : Prop') (E1 : ℝ) (pos : ℕ) : Prop where
  energy : E1 = max (max (q.sector.util.energyDecay a.ω q.pos q.state.energy (q.sector.dens.evaluate q.state.position)).1
    (max a.minEnergy q.sector.util.lowerLim))
    (q.sector.util.interaction q.state.energy
      (a.ω (q.sector.util.energyDecay a.ω q.pos q.state.energy (q.sector.dens.evaluate q.state.position)).2))
  position : pos = (q.sector.util.energyDecay a.ω q.pos q.state.energy (q.sector.dens.evaluate q.state.position)).2 + 1

private lemma next_at (a : PropArgs) (q : Prop') (E1 : ℝ) (pos : ℕ) (h : Spec.NextAt a q E1 pos) :
    eNextOf a q = E1 ∧ (eStochOf a q).2 = pos := by
  refine ⟨?_, h.position.symm⟩
  rw [h.energy]
  unfold eNextOf nextOf maximize
  have e1 : (eStochOf a q).1 = q.sector.util.interaction q.state.energy
      (a.ω (q.sector.util.energyDecay a.ω q.pos q.state.energy (q.sector.dens.evaluate q.state.position)).2) := rfl
  have e2 : eMinOf a q = max a.minEnergy q.sector.util.lowerLim := rfl
  have e3 : (eDecayOf a q).1 =
      (q.sector.util.energyDecay a.ω q.pos q.state.energy (q.sector.dens.evaluate q.state.position)).1 := rfl
  rw [← e1, ← e2, ← e3]
  generalize (eStochOf a q).1 = x
  generalize eMinOf a q = y
  generalize (eDecayOf a q).1 = z
  by_cases h1 : z < y
  · simp only [h1, if_true]
    rw [max_eq_right h1.le]
    by_cases h2 : y < x
    · simp only [h2, if_true]; rw [max_eq_right h2.le]
    · simp only [h2, if_false]; rw [max_eq_left (not_lt.1 h2)]
  · simp only [h1, if_false]
    rw [max_eq_left (not_lt.1 h1)]
    by_cases h2 : z < x
    · simp only [h2, if_true]; rw [max_eq_right h2.le]
    · simp only [h2, if_false]; rw [max_eq_left (not_lt.1 h2)]

/-- C12: when the maximal distance comes before the next interaction and before the border, the particle stops there: at the energy that the
grammage on the way leaves, exactly at the maximal distance. -/
theorem C12_end_reached (a : PropArgs) (q : Prop') (E1 : ℝ) (pos : ℕ) (hn : NextAt a q E1 pos) (p : Option ℝ) (B1 D E2 : ℝ)
    (mean new : Vec3) (memo : Memo) (B2 : ℝ) (h : Shortened a q E1 pos p B1 D E2 mean new memo B2)
    (hD : D = a.maxDistance - q.state.distance) (hB : D ≤ B2) (E3 : ℝ) (pos' : ℕ)
    (hr : E3 = (q.sector.util.energyRandomize a.ω memo q.state.energy E2 (max a.minEnergy q.sector.util.lowerLim)).1)
    (hpos : pos' = (q.sector.util.energyRandomize a.ω memo q.state.energy E2 (max a.minEnergy q.sector.util.lowerLim)).2.pos) :
    ∃ s, s = afterShort q (q.sector.dens.calculate q.state.position q.state.direction D) E2 E3 D mean new ∧ s.distance = a.maxDistance ∧
      propStep a q = .ok ⟨s, q.sector, q.track ++ [⟨s, .continuousEnergyLoss, 0⟩], pos', false⟩ := by
  obtain ⟨n1, n2⟩ := next_at a q E1 pos hn
  obtain ⟨mean1, new1, memo1, s1, s2, s3, s4⟩ := h.first
  refine ⟨_, rfl, by simp [afterShort, hD], ?_⟩
  have hl := loop_shortened a q E1 pos p B1 D E2 mean new memo B2 h 199
    ⟨.maxDistance, E2, q.sector.dens.calculate q.state.position q.state.direction D, D, mean, new, q.sector, memo, 2⟩ (by
      rw [s1]
      unfold decideStep
      simp only
      rw [if_neg (by norm_num [MAX_STEPS]), if_neg (not_not.2 (by rw [s4]; exact h.inside)), if_neg (fun hc => h.higher hc.2.2),
        if_pos, s4]
      · rfl
      · refine ⟨⟨D, rfl, ?_⟩, by rw [hD]; rfl⟩
        rw [s4]
        exact h.border ▸ hB)
  unfold propStep advanceOf advance
  rw [show envOf a q = ⟨a.sectors, a.ω, q.state, eNextOf a q, a.maxDistance⟩ from rfl, n1, n2,
    show MAX_STEPS + 1 = 199 + 2 from rfl, hl]
  subst hr hpos
  unfold react finish afterShort
  simp only [Option.map_some, Except.map]
  rw [if_neg (by simp)]
  rfl

/-- C09: when a border comes before the next interaction and before the maximal distance, the particle is moved to the border, and continues
in the sector that is there; the propagation ends at the border if the hierarchy falls from above to below the given one. -/
theorem C09_border_reached (a : PropArgs) (q : Prop') (E1 : ℝ) (pos : ℕ) (hn : NextAt a q E1 pos) (p : Option ℝ) (B1 D E2 : ℝ)
    (mean new : Vec3) (memo : Memo) (B2 : ℝ) (h : Shortened a q E1 pos p B1 D E2 mean new memo B2)
    (hD : D ≠ a.maxDistance - q.state.distance) (hB : |D - B2| ≤ PARTICLE_POSITION_RESOLUTION) (E3 : ℝ) (pos' : ℕ)
    (hr : E3 = (q.sector.util.energyRandomize a.ω memo q.state.energy E2 (max a.minEnergy q.sector.util.lowerLim)).1)
    (hpos : pos' = (q.sector.util.energyRandomize a.ω memo q.state.energy E2 (max a.minEnergy q.sector.util.lowerLim)).2.pos)
    (s : PState) (hs : s = afterShort q (q.sector.dens.calculate q.state.position q.state.direction D) E2 E3 B2 mean new)
    (next : Sector) (hnext : currentSector a.sectors s.position s.direction = some next) :
    propStep a q = .ok ⟨s, next, q.track ++ [⟨s, .continuousEnergyLoss, 0⟩], pos',
      !(decide (a.hierarchyCondition < q.sector.geo.hierarchy) && decide (next.geo.hierarchy < a.hierarchyCondition))⟩ := by
  obtain ⟨n1, n2⟩ := next_at a q E1 pos hn
  obtain ⟨mean1, new1, memo1, s1, s2, s3, s4⟩ := h.first
  have hl := loop_shortened a q E1 pos p B1 D E2 mean new memo B2 h 199
    ⟨.border, E2, q.sector.dens.calculate q.state.position q.state.direction D, B2, mean, new, q.sector, memo, 2⟩ (by
      rw [s1]
      unfold decideStep
      simp only
      rw [if_neg (by norm_num [MAX_STEPS]), if_neg (not_not.2 (by rw [s4]; exact h.inside)), if_neg (fun hc => h.higher hc.2.2),
        if_neg (fun hc => hD (Option.some.inj hc.2)), if_pos, s4]
      · simp only [← h.border]
      · refine ⟨D, rfl, ?_⟩
        rw [s4]
        exact h.border ▸ hB)
  unfold propStep advanceOf advance
  rw [show envOf a q = ⟨a.sectors, a.ω, q.state, eNextOf a q, a.maxDistance⟩ from rfl, n1, n2,
    show MAX_STEPS + 1 = 199 + 2 from rfl, hl]
  subst hr hpos
  unfold afterShort at hs
  unfold react finish
  simp only [Option.map_some, Except.map]
  rw [if_neg (by simp)]
  have hs' := hs
  subst hs
  simp only [eMinOf]
  rw [hnext]
  rcases lt_or_ge next.geo.hierarchy a.hierarchyCondition with g | g
  · rcases lt_or_ge a.hierarchyCondition q.sector.geo.hierarchy with g' | g'
    · simp [g, g', not_le.2 g']
    · simp [g, g', not_lt.2 g']
  · simp [g, not_lt.2 g]

/-! ## Examples -/

/-- A sphere of the radius `R` in which a particle decays at an energy of 150, and interacts at half of its energy. -/
noncomputable def decaySector (R : ℝ) : Sector := ⟨(⟨0, R, 0⟩ : Sphere).toGeo 1, { Toy.util with decay := some fun _ _ _ => 150 }, Toy.dens⟩

/-- A particle of the energy 200 in the centre of the sphere. -/
noncomputable def decayStart (R : ℝ) : Prop' := ⟨⟨200, 0, ⟨0, 0, 0⟩, ⟨1, 0, 0⟩, 0⟩, decaySector R, [], 0, true⟩

/-- The propagation in this sphere. -/
noncomputable def decayArgs (R far : ℝ) : PropArgs := ⟨[decaySector R], fun _ => 1 / 2, far, 1, 0⟩

private lemma decay_dist (R : ℝ) (hR : 1 ≤ R) : (decaySector R).geo.dist ⟨0, 0, 0⟩ ⟨1, 0, 0⟩ = (R, -1) := by
  have := axis_inside (R := R) (x := 0) (by linarith) (by linarith) (by rw [Over.prec_val]; norm_num; linarith)
  rw [sub_zero] at this
  exact this

private lemma decay_border (R far : ℝ) (hR : 1 ≤ R) :
    distanceToBorder (decayArgs R far).sectors ⟨0, 0, 0⟩ ⟨1, 0, 0⟩ (decaySector R).geo = R := by
  unfold distanceToBorder decayArgs
  rw [decay_dist R hR]
  simp

/-- In a large sphere the decay is reached. -/
example : Undisturbed (decayArgs 1000 1000) (decayStart 1000) 150 2 50 ⟨1, 0, 0⟩ ⟨1, 0, 0⟩ (Memo.init 2) where
  valid := by norm_num
  distance := by norm_num [decayStart, decaySector, Toy.util, Toy.dens]
  scattered := by rfl
  inside := by
    show (decaySector 1000).geo.isInside ⟨0, 0, 0⟩ ⟨1, 0, 0⟩
    unfold Geo.isInside
    rw [decay_dist 1000 (by norm_num)]
    norm_num
  border := by
    show _ ≤ distanceToBorder (decayArgs 1000 1000).sectors ⟨0, 0, 0⟩ ⟨1, 0, 0⟩ (decaySector 1000).geo
    rw [decay_border 1000 1000 (by norm_num)]
    norm_num
  range := by norm_num [decayArgs, decayStart]

/-- In a small sphere the border is reached before. -/
example : NextAt (decayArgs 30 1000) (decayStart 30) 150 2 ∧
    Shortened (decayArgs 30 1000) (decayStart 30) 150 2 (some 50) 30 30 170 ⟨1, 0, 0⟩ ⟨1, 0, 0⟩ (Memo.init 2) 30 := by
  have hi : (decaySector 30).geo.isInside ⟨0, 0, 0⟩ ⟨1, 0, 0⟩ := by
    unfold Geo.isInside
    rw [decay_dist 30 (by norm_num)]
    norm_num
  have hb := decay_border 30 1000 (by norm_num)
  refine ⟨⟨?_, rfl⟩, ⟨by norm_num, ?_, ⟨⟨1, 0, 0⟩, ⟨1, 0, 0⟩, Memo.init 2, rfl, hi, hb.symm, rfl⟩, ?_, ?_, by norm_num, ?_, ?_, by norm_num, hi,
    hb.symm⟩⟩
  · norm_num [decayStart, decaySector, decayArgs, Toy.util, Utility.energyDecay]
  · norm_num [decayStart, decaySector, Toy.util, Toy.dens]
  · norm_num [decayArgs, decayStart]
  · rintro d hd
    obtain rfl := Option.some.inj hd
    norm_num [PARTICLE_POSITION_RESOLUTION]
  · norm_num [decayStart, decaySector, Toy.util, Toy.dens]
  · norm_num [decayStart, decaySector, Toy.util, Toy.dens]

end Proposal
