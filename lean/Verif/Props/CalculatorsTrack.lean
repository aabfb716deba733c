import Verif.Props.Calculators

/-!
# C99, C100, C101: lengths, times and mean free paths
-/

open MeasureTheory Set

namespace Proposal

lemma calculate_between (U : IntegralUtil) (hQ : Spec.ExactQuadrature U.Q) (s : IState) (E F : ℝ) (hF : 0 < F)
    (h : Spec.WellAbove E F) : (U.calculate s E F).1 = ∫ y in E..F, U.f y :=
  C95_integral_partial U.Q hQ s E F U.f 4 0 (by norm_num) (suitable_log (hF.trans h.1)) (suitable_log hF) h.2.2

lemma displacementIntegrand_neg {dedx : ℝ → ℝ} {y : ℝ} (h1 : 0 < dedx y) : displacementIntegrand dedx y = -(1 / dedx y) := by
  unfold displacementIntegrand
  rw [if_pos h1]
  ring

lemma track_flip (U : IntegralUtil) (dedx : ℝ → ℝ) (hf : U.f = displacementIntegrand dedx) {E x : ℝ} (hx : x ≤ E)
    (hpos : ∀ y ∈ Icc x E, 0 < dedx y) : ∫ y in E..x, U.f y = ∫ y in x..E, 1 / dedx y := by
  refine integral_flip _ _ hx ?_
  intro y hy
  rw [hf, displacementIntegrand_neg (hpos y hy)]

/-! ## Lengths -/

/-- C99: the length of a continuous step is the integral of the inverse energy loss, so that it is positive. -/
theorem C99_length_partial (U : IntegralUtil) (hQ : Spec.ExactQuadrature U.Q) (dedx : ℝ → ℝ)
    (hf : U.f = displacementIntegrand dedx) (s : IState) (E F : ℝ) (hF : 0 < F) (hE : Spec.WellAbove E F)
    (hpos : ∀ y ∈ Icc F E, 0 < dedx y) (hc : ContinuousOn dedx (Icc F E)) :
    (U.calculate s E F).1 = ∫ y in F..E, 1 / dedx y ∧ 0 < (U.calculate s E F).1 := by
  have e : (U.calculate s E F).1 = ∫ y in F..E, 1 / dedx y := by
    rw [calculate_between U hQ s E F hF hE, track_flip U dedx hf hE.1.le hpos]
  refine ⟨e, ?_⟩
  rw [e]
  have hi : IntervalIntegrable (fun y => 1 / dedx y) volume F E := by
    refine ContinuousOn.intervalIntegrable ?_
    rw [uIcc_of_le hE.1.le]
    exact continuousOn_const.div hc (fun y hy => (hpos y hy).ne')
  exact intervalIntegral.intervalIntegral_pos_of_pos_on hi (fun y hy => one_div_pos.mpr (hpos y ⟨hy.1.le, hy.2.le⟩)) hE.1

/-- C99: the lengths of two consecutive steps add up. -/
theorem C99_length_additive_partial (U : IntegralUtil) (hQ : Spec.ExactQuadrature U.Q) (dedx : ℝ → ℝ)
    (hf : U.f = displacementIntegrand dedx) (s s' s'' : IState) (E F G : ℝ) (hG : 0 < G) (h1 : Spec.WellAbove E F)
    (h2 : Spec.WellAbove F G) (h3 : Spec.WellAbove E G) (hpos : ∀ y ∈ Icc G E, 0 < dedx y) (hc : ContinuousOn dedx (Icc G E)) :
    (U.calculate s E G).1 = (U.calculate s' E F).1 + (U.calculate s'' F G).1 := by
  have hF : 0 < F := hG.trans h2.1
  have hi : IntervalIntegrable (fun y => 1 / dedx y) volume G E := by
    refine ContinuousOn.intervalIntegrable ?_
    rw [uIcc_of_le h3.1.le]
    exact continuousOn_const.div hc (fun y hy => (hpos y hy).ne')
  rw [calculate_between U hQ s E G hG h3, calculate_between U hQ s' E F hF h1, calculate_between U hQ s'' F G hG h2,
    track_flip U dedx hf h3.1.le hpos, track_flip U dedx hf h1.1.le (fun y hy => hpos y ⟨h2.1.le.trans hy.1, hy.2⟩),
    track_flip U dedx hf h2.1.le (fun y hy => hpos y ⟨hy.1, hy.2.trans h1.1.le⟩), add_comm]
  refine (intervalIntegral.integral_add_adjacent_intervals (hi.mono_set ?_) (hi.mono_set ?_)).symm
  · rw [uIcc_of_le h3.1.le, uIcc_of_le h2.1.le]; exact Icc_subset_Icc le_rfl h1.1.le
  · rw [uIcc_of_le h3.1.le, uIcc_of_le h1.1.le]; exact Icc_subset_Icc h2.1.le le_rfl

/-- C99: the energy after a given length is the one whose step has this length. -/
theorem C99_energy_partial (U : IntegralUtil) (hQ : Spec.ExactQuadrature U.Q) (hr : Spec.ExactRefine U.search) (dedx : ℝ → ℝ)
    (hf : U.f = displacementIntegrand dedx) (s : IState) (E length : ℝ) (hl : 0 < U.lower) (hE : Spec.WellAbove E U.lower)
    (hpos : ∀ y ∈ Icc U.lower E, 0 < dedx y) (h0 : 0 ≤ length) (h1 : length ≤ ∫ y in U.lower..E, 1 / dedx y) :
    ∃ x, U.upperLimit s E length = .value x ∧ U.lower ≤ x ∧ x ≤ E ∧ ∫ y in x..E, 1 / dedx y = length := by
  obtain ⟨x, e1, e2, e3, e4⟩ := upperLimit_exact U hQ hr s E length hl hE h0 (by
    rw [track_flip U dedx hf hE.1.le hpos]; exact h1)
  refine ⟨x, e1, e2, e3, ?_⟩
  rw [← e4, track_flip U dedx hf e3 (fun y hy => hpos y ⟨e2.trans hy.1, hy.2⟩)]

/-- C99: the energy after the length of a step is the energy at the end of the step. -/
theorem C99_round_trip_partial (U : IntegralUtil) (hQ : Spec.ExactQuadrature U.Q) (hr : Spec.ExactRefine U.search)
    (dedx : ℝ → ℝ) (hf : U.f = displacementIntegrand dedx) (s s' : IState) (E F : ℝ) (hl : 0 < U.lower)
    (hlF : U.lower ≤ F) (hEF : Spec.WellAbove E F) (hE : Spec.WellAbove E U.lower)
    (hpos : ∀ y ∈ Icc U.lower E, 0 < dedx y) (hc : ContinuousOn dedx (Icc U.lower E)) :
    U.upperLimit s' E (U.calculate s E F).1 = .value F := by
  have hF : 0 < F := hl.trans_le hlF
  have hi : IntervalIntegrable (fun y => 1 / dedx y) volume U.lower E := by
    refine ContinuousOn.intervalIntegrable ?_
    rw [uIcc_of_le hE.1.le]
    exact continuousOn_const.div hc (fun y hy => (hpos y hy).ne')
  have hp : ∀ y ∈ Icc F E, 0 < dedx y := fun y hy => hpos y ⟨hlF.trans hy.1, hy.2⟩
  have hcF : ContinuousOn dedx (Icc F E) := hc.mono (Icc_subset_Icc hlF le_rfl)
  obtain ⟨e, hpos'⟩ := C99_length_partial U hQ dedx hf s E F hF hEF hp hcF
  have hle : ∫ y in F..E, 1 / dedx y ≤ ∫ y in U.lower..E, 1 / dedx y := by
    rw [← intervalIntegral.integral_add_adjacent_intervals (a := U.lower) (b := F) (c := E)
      (hi.mono_set (by rw [uIcc_of_le hE.1.le, uIcc_of_le hlF]; exact Icc_subset_Icc le_rfl hEF.1.le))
      (hi.mono_set (by rw [uIcc_of_le hE.1.le, uIcc_of_le hEF.1.le]; exact Icc_subset_Icc hlF le_rfl))]
    have : 0 ≤ ∫ y in U.lower..F, 1 / dedx y := intervalIntegral.integral_nonneg hlF
      (fun y hy => (one_div_pos.mpr (hpos y ⟨hy.1, hy.2.trans hEF.1.le⟩)).le)
    linarith
  obtain ⟨x, e1, e2, e3, e4⟩ := C99_energy_partial U hQ hr dedx hf s' E (U.calculate s E F).1 hl hE hpos hpos'.le
    (by rw [e]; exact hle)
  rw [e1]
  rw [e] at e4
  have hg : ∀ y ∈ Icc U.lower E, 0 < 1 / dedx y := fun y hy => one_div_pos.mpr (hpos y hy)
  rw [le_antisymm (start_order e2 e3 hlF hi hg e4.ge) (start_order hlF hEF.1.le e2 hi hg e4.le)]

/-- C99: a length beyond the range of the particle is an error. -/
theorem C99_too_far_partial (U : IntegralUtil) (hQ : Spec.ExactQuadrature U.Q) (dedx : ℝ → ℝ)
    (hf : U.f = displacementIntegrand dedx) (s : IState) (E length : ℝ) (hl : 0 < U.lower) (hE : Spec.WellAbove E U.lower)
    (hpos : ∀ y ∈ Icc U.lower E, 0 < dedx y) (h1 : ∫ y in U.lower..E, 1 / dedx y < length) :
    U.upperLimit s E length = .logicError := by
  obtain ⟨n1, n2⟩ := above_narrow hE
  have h0 : 0 ≤ ∫ y in U.lower..E, 1 / dedx y :=
    intervalIntegral.integral_nonneg hE.1.le (fun y hy => (one_div_pos.mpr (hpos y hy)).le)
  unfold IntegralUtil.upperLimit
  rw [integrateRandom_prepared U s E length hl hE.1 (h0.trans h1.le) n1]
  dsimp only
  rw [if_pos]
  rw [prepared_saved U (exact_mirrored U.Q hQ) s E length hl hE.1, ← calculate_eq U s E hl hE.1 n2,
    calculate_exact U hQ s E hl hE, track_flip U dedx hf hE.1.le hpos]
  exact h1

/-! ## Lengths from tables -/

lemma table_difference (U : TableUtil) (dedx : ℝ → ℝ) (hf : U.f = displacementIntegrand dedx) (top E : ℝ)
    (hT : Spec.ExactTable U top E) (htop : E ≤ top) (hpos : ∀ y ∈ Icc U.lower top, 0 < dedx y)
    (hi : IntervalIntegrable U.f volume U.lower top) {F G : ℝ} (hF : U.lower ≤ F) (hFG : F ≤ G) (hG : G ≤ E) :
    (if U.reverse then U.table F - U.table G else U.table G - U.table F) = ∫ y in F..G, 1 / dedx y := by
  have hsub : ∀ y z, y ∈ Icc U.lower top → z ∈ Icc U.lower top → IntervalIntegrable U.f volume y z := by
    intro y z hy hz
    refine hi.mono_set ?_
    rw [uIcc_of_le (hF.trans (hFG.trans (hG.trans htop)))]
    exact uIcc_subset_Icc hy hz
  have mF : F ∈ Icc U.lower top := ⟨hF, hFG.trans (hG.trans htop)⟩
  have mG : G ∈ Icc U.lower top := ⟨hF.trans hFG, hG.trans htop⟩
  have mt : top ∈ Icc U.lower top := ⟨mG.1.trans mG.2, le_rfl⟩
  have ml : U.lower ∈ Icc U.lower top := ⟨le_rfl, mt.1⟩
  have e1 := hT F ⟨hF, hFG.trans hG⟩
  have e2 := hT G ⟨hF.trans hFG, hG⟩
  have hflip : ∫ y in G..F, U.f y = ∫ y in F..G, 1 / dedx y := by
    refine integral_flip _ _ hFG ?_
    intro y hy
    rw [hf, displacementIntegrand_neg (hpos y ⟨hF.trans hy.1, hy.2.trans mG.2⟩)]
  rw [← hflip]
  cases hr : U.reverse <;> simp only [hr, if_true, if_false, Bool.false_eq_true] at * <;> rw [e1, e2]
  · have := intervalIntegral.integral_add_adjacent_intervals (hsub G F mG mF) (hsub F U.lower mF ml)
    linarith
  · have := intervalIntegral.integral_add_adjacent_intervals (hsub top G mt mG) (hsub G F mG mF)
    linarith

lemma track_integrable (U : TableUtil) (dedx : ℝ → ℝ) (hf : U.f = displacementIntegrand dedx) (top : ℝ) (h : U.lower ≤ top)
    (hpos : ∀ y ∈ Icc U.lower top, 0 < dedx y) (hc : ContinuousOn dedx (Icc U.lower top)) :
    IntervalIntegrable (fun y => 1 / dedx y) volume U.lower top ∧ IntervalIntegrable U.f volume U.lower top := by
  have hi : IntervalIntegrable (fun y => 1 / dedx y) volume U.lower top := by
    refine ContinuousOn.intervalIntegrable ?_
    rw [uIcc_of_le h]
    exact continuousOn_const.div hc (fun y hy => (hpos y hy).ne')
  refine ⟨hi, hi.neg.congr ?_⟩
  intro y hy
  rw [uIoc_of_le h] at hy
  simp only [hf, displacementIntegrand_neg (hpos y ⟨hy.1.le, hy.2⟩), Pi.neg_apply]

/-- C99 with an exact table of either direction: the length between two energies is the integral of the inverse energy loss,
if they differ by a millionth or more. Closer energies use the energy loss at the upper one. -/
theorem C99_table_length_partial (U : TableUtil) (dedx : ℝ → ℝ) (hf : U.f = displacementIntegrand dedx) (top E F : ℝ)
    (hT : Spec.ExactTable U top E) (hF : U.lower ≤ F) (hFE : F ≤ E) (htop : E ≤ top)
    (hpos : ∀ y ∈ Icc U.lower top, 0 < dedx y) (hc : ContinuousOn dedx (Icc U.lower top)) :
    (E * (1 / 10 ^ 6) ≤ E - F → U.calculate E F = ∫ y in F..E, 1 / dedx y) ∧
    (E - F < E * (1 / 10 ^ 6) → U.calculate E F = (E - F) / dedx E) := by
  have hl : U.lower ≤ top := hF.trans (hFE.trans htop)
  obtain ⟨-, hi⟩ := track_integrable U dedx hf top hl hpos hc
  unfold TableUtil.calculate IPREC
  constructor
  · intro h
    rw [if_neg (not_lt.mpr h)]
    exact table_difference U dedx hf top E hT htop hpos hi hF hFE le_rfl
  · intro h
    rw [if_pos h, hf, show (E + E) / 2 = E by ring, displacementIntegrand_neg (hpos E ⟨hF.trans hFE, htop⟩)]
    ring

/-- C99 with an exact table: the energy after a length within the range is the one whose step has this length. -/
theorem C99_table_energy_partial (U : TableUtil) (hs : Spec.ExactFind U) (dedx : ℝ → ℝ) (hf : U.f = displacementIntegrand dedx)
    (top E length : ℝ) (hT : Spec.ExactTable U top E) (h : Spec.TableAbove E U.lower) (htop : E ≤ top)
    (hpos : ∀ y ∈ Icc U.lower top, 0 < dedx y) (hc : ContinuousOn dedx (Icc U.lower top)) (h0 : 0 ≤ length) :
    (length ≤ ∫ y in U.lower..E, 1 / dedx y →
      ∃ x, U.upperLimit E length = .value x ∧ U.lower ≤ x ∧ x ≤ E ∧ ∫ y in x..E, 1 / dedx y = length) ∧
    (∫ y in U.lower..E, 1 / dedx y < length → U.upperLimit E length = .logicError) := by
  have hl : U.lower ≤ top := h.1.le.trans htop
  obtain ⟨-, hi⟩ := track_integrable U dedx hf top hl hpos hc
  have hcalc := (C99_table_length_partial U dedx hf top E U.lower hT le_rfl h.1.le htop hpos hc).1 h.2
  constructor
  · intro h1
    obtain ⟨x, e1, e2, e3, e4⟩ := table_upper_exact U hs top E length hT h htop hi h0 (by rw [hcalc]; exact h1)
    refine ⟨x, e1, e2, e3, ?_⟩
    rw [← e4]
    symm
    refine integral_flip _ _ e3 ?_
    intro y hy
    rw [hf, displacementIntegrand_neg (hpos y ⟨e2.trans hy.1, hy.2.trans htop⟩)]
  · intro h1
    unfold TableUtil.upperLimit
    dsimp only
    rw [hcalc, if_pos h1]

/-- C99 with an exact table: the energy after the length of a step is the energy at its end. -/
theorem C99_table_round_trip_partial (U : TableUtil) (hs : Spec.ExactFind U) (dedx : ℝ → ℝ) (hf : U.f = displacementIntegrand dedx)
    (top E F : ℝ) (hT : Spec.ExactTable U top E) (hF : U.lower ≤ F) (hFE : F ≤ E) (hEF : E * (1 / 10 ^ 6) ≤ E - F)
    (h : Spec.TableAbove E U.lower) (htop : E ≤ top) (hpos : ∀ y ∈ Icc U.lower top, 0 < dedx y)
    (hc : ContinuousOn dedx (Icc U.lower top)) : U.upperLimit E (U.calculate E F) = .value F := by
  have hl : U.lower ≤ top := h.1.le.trans htop
  obtain ⟨hi, -⟩ := track_integrable U dedx hf top hl hpos hc
  have hsub : ∀ y z, y ∈ Icc U.lower top → z ∈ Icc U.lower top → IntervalIntegrable (fun y => 1 / dedx y) volume y z := by
    intro y z hy hz
    refine hi.mono_set ?_
    rw [uIcc_of_le hl]
    exact uIcc_subset_Icc hy hz
  have hp : ∀ y ∈ Icc U.lower top, 0 < 1 / dedx y := fun y hy => one_div_pos.mpr (hpos y hy)
  have mF : F ∈ Icc U.lower top := ⟨hF, hFE.trans htop⟩
  have mE : E ∈ Icc U.lower top := ⟨h.1.le, htop⟩
  have ml : U.lower ∈ Icc U.lower top := ⟨le_rfl, hl⟩
  rw [(C99_table_length_partial U dedx hf top E F hT hF hFE htop hpos hc).1 hEF]
  have n0 : 0 ≤ ∫ y in F..E, 1 / dedx y :=
    intervalIntegral.integral_nonneg hFE (fun y hy => (hp y ⟨hF.trans hy.1, hy.2.trans htop⟩).le)
  have n1 : 0 ≤ ∫ y in U.lower..F, 1 / dedx y :=
    intervalIntegral.integral_nonneg hF (fun y hy => (hp y ⟨hy.1, hy.2.trans mF.2⟩).le)
  have add := intervalIntegral.integral_add_adjacent_intervals (hsub _ _ ml mF) (hsub _ _ mF mE)
  obtain ⟨x, e1, e2, e3, e4⟩ := (C99_table_energy_partial U hs dedx hf top E _ hT h htop hpos hc n0).1 (by linarith)
  rw [e1]
  congr 1
  have mx : x ∈ Icc U.lower top := ⟨e2, e3.trans htop⟩
  have add' := intervalIntegral.integral_add_adjacent_intervals (hsub _ _ mx mF) (hsub _ _ mF mE)
  have z : ∫ y in x..F, 1 / dedx y = 0 := by linarith
  rcases lt_trichotomy x F with hx | hx | hx
  · have := intervalIntegral.intervalIntegral_pos_of_pos_on (hsub _ _ mx mF)
      (fun y hy => hp y ⟨e2.trans hy.1.le, hy.2.le.trans mF.2⟩) hx
    linarith
  · exact hx
  · have := intervalIntegral.intervalIntegral_pos_of_pos_on (hsub _ _ mF mx)
      (fun y hy => hp y ⟨hF.trans hy.1.le, hy.2.le.trans mx.2⟩) hx
    rw [intervalIntegral.integral_symm] at this
    linarith

/-- A table of the code's reversed kind for a constant energy loss, with the exact search. -/
example : let U : TableUtil := ⟨displacementIntegrand fun _ => 1, fun y => 10 - y, true, 1, fun t _ _ _ => some (10 - t)⟩
    Spec.ExactTable U 10 5 ∧ Spec.ExactFind U ∧ Spec.TableAbove 5 U.lower := by
  intro U
  refine ⟨?_, ?_, by norm_num [Spec.TableAbove, U]⟩
  · intro y _
    have : (displacementIntegrand fun _ => 1) = fun _ => (-1 : ℝ) := by
      funext z
      simp [displacementIntegrand]
    simp only [U, if_true, this, intervalIntegral.integral_const, smul_eq_mul]
    ring
  · intro t lo hi start _ h
    refine ⟨10 - t, rfl, ?_, ?_, by simp [U]⟩ <;> simp only [U] at h <;> nlinarith

/-! ## Times -/

lemma timeIntegrand_neg {dedx : ℝ → ℝ} {mass y : ℝ} (h1 : 0 < dedx y) (hm : 0 ≤ mass) (hy : mass < y) :
    timeIntegrand dedx mass y = -(y / (Real.sqrt (y ^ 2 - mass ^ 2) * SPEED * dedx y)) := by
  unfold timeIntegrand
  have hn : displacementIntegrand dedx y ≠ 0 := by
    rw [displacementIntegrand_neg h1]; exact neg_ne_zero.mpr (one_div_pos.mpr h1).ne'
  have hp : 0 < y ^ 2 - mass ^ 2 := by nlinarith
  have hs := Real.sqrt_pos.mpr hp
  have hS : 0 < SPEED := by unfold SPEED; norm_num
  rw [if_neg hn, displacementIntegrand_neg h1, show (y - mass) * (y + mass) = y ^ 2 - mass ^ 2 by ring, max_eq_left hp.le]
  field_simp

/-- The two time calculators for the same energy loss. -/
theorem C100_slower_than_light_partial (T D : IntegralUtil) (hT : Spec.ExactQuadrature T.Q) (hD : Spec.ExactQuadrature D.Q)
    (dedx : ℝ → ℝ) (mass : ℝ) (hfT : T.f = timeIntegrand dedx mass) (hfD : D.f = displacementIntegrand dedx) (s s' : IState)
    (E F density g : ℝ) (hm : 0 ≤ mass) (hF : mass < F) (hE : Spec.WellAbove E F) (hpos : ∀ y ∈ Icc F E, 0 < dedx y)
    (hc : ContinuousOn dedx (Icc F E)) (hd : 0 < density) :
    (D.calculate s' E F).1 / density ≤ SPEED * exactTime (fun a b => (T.calculate s a b).1) E F g density ∧
    (0 < mass → (D.calculate s' E F).1 / density < SPEED * exactTime (fun a b => (T.calculate s a b).1) E F g density) ∧
    (mass = 0 → exactTime (fun a b => (T.calculate s a b).1) E F g density =
      approximateTime E F (D.calculate s' E F).1 density) := by
  have hF0 : 0 < F := hm.trans_lt hF
  have hS : 0 < SPEED := by unfold SPEED; norm_num
  have hp2 : ∀ y ∈ Icc F E, 0 < y ^ 2 - mass ^ 2 := fun y hy => by nlinarith [hy.1]
  have e1 : (D.calculate s' E F).1 = ∫ y in F..E, 1 / dedx y :=
    (C99_length_partial D hD dedx hfD s' E F hF0 hE hpos hc).1
  have e2 : (T.calculate s E F).1 = ∫ y in F..E, y / (Real.sqrt (y ^ 2 - mass ^ 2) * SPEED * dedx y) := by
    rw [calculate_between T hT s E F hF0 hE]
    refine integral_flip _ _ hE.1.le ?_
    intro y hy
    rw [hfT, timeIntegrand_neg (hpos y hy) hm (hF.trans_le hy.1)]
  have c1 : ContinuousOn (fun y => 1 / dedx y) (Icc F E) := continuousOn_const.div hc (fun y hy => (hpos y hy).ne')
  have c2 : ContinuousOn (fun y => SPEED * (y / (Real.sqrt (y ^ 2 - mass ^ 2) * SPEED * dedx y))) (Icc F E) := by
    refine continuousOn_const.mul (continuousOn_id.div ?_ ?_)
    · refine (ContinuousOn.mul ?_ continuousOn_const).mul hc
      exact (Real.continuous_sqrt.comp (by fun_prop)).continuousOn
    · intro y hy
      exact (mul_pos (mul_pos (Real.sqrt_pos.mpr (hp2 y hy)) hS) (hpos y hy)).ne'
  have hval : ∀ y ∈ Icc F E, SPEED * (y / (Real.sqrt (y ^ 2 - mass ^ 2) * SPEED * dedx y)) =
      y / Real.sqrt (y ^ 2 - mass ^ 2) * (1 / dedx y) := by
    intro y hy
    have := Real.sqrt_pos.mpr (hp2 y hy)
    have := hpos y hy
    field_simp
  have hone : ∀ y ∈ Icc F E, 1 ≤ y / Real.sqrt (y ^ 2 - mass ^ 2) ∧ (0 < mass → 1 < y / Real.sqrt (y ^ 2 - mass ^ 2)) := by
    intro y hy
    have hy0 : 0 < y := hF0.trans_le hy.1
    rw [one_le_div (Real.sqrt_pos.mpr (hp2 y hy)), one_lt_div (Real.sqrt_pos.mpr (hp2 y hy))]
    constructor
    · rw [Real.sqrt_le_left hy0.le]; nlinarith
    · intro h; rw [Real.sqrt_lt' hy0]; nlinarith
  have hle : ∀ y ∈ Icc F E, 1 / dedx y ≤ SPEED * (y / (Real.sqrt (y ^ 2 - mass ^ 2) * SPEED * dedx y)) := by
    intro y hy
    rw [hval y hy]
    exact le_mul_of_one_le_left (one_div_pos.mpr (hpos y hy)).le (hone y hy).1
  unfold exactTime approximateTime
  dsimp only
  rw [e1, e2]
  refine ⟨?_, ?_, ?_⟩
  · rw [← mul_div_assoc, div_le_div_iff_of_pos_right hd, ← intervalIntegral.integral_const_mul]
    exact intervalIntegral.integral_mono_on hE.1.le (c1.intervalIntegrable_of_Icc hE.1.le) (c2.intervalIntegrable_of_Icc hE.1.le) hle
  · intro hm'
    rw [← mul_div_assoc, div_lt_div_iff_of_pos_right hd, ← intervalIntegral.integral_const_mul]
    refine intervalIntegral.integral_lt_integral_of_continuousOn_of_le_of_exists_lt hE.1 c1 c2
      (fun y hy => hle y (Ioc_subset_Icc_self hy)) ⟨F, ⟨le_rfl, hE.1.le⟩, ?_⟩
    rw [hval F ⟨le_rfl, hE.1.le⟩]
    exact lt_mul_of_one_lt_left (one_div_pos.mpr (hpos F ⟨le_rfl, hE.1.le⟩)) ((hone F ⟨le_rfl, hE.1.le⟩).2 hm')
  · intro hm'
    have : ∫ y in F..E, y / (Real.sqrt (y ^ 2 - mass ^ 2) * SPEED * dedx y) = ∫ y in F..E, SPEED⁻¹ * (1 / dedx y) := by
      refine intervalIntegral.integral_congr ?_
      intro y hy
      rw [uIcc_of_le hE.1.le] at hy
      have hy0 : 0 < y := hF0.trans_le hy.1
      have := hpos y hy
      simp only [hm']
      rw [show y ^ 2 - (0 : ℝ) ^ 2 = y ^ 2 by ring, Real.sqrt_sq hy0.le]
      field_simp
    rw [this, intervalIntegral.integral_const_mul]
    field_simp

/-! ## Mean free paths -/

/-- C101: the mean free path times the rate is one, and it is infinite where there is no interaction. -/
theorem C101_mean_free_path (rate : ℝ → ℝ) (E : ℝ) :
    (∀ l, meanFreePath none rate E = some l → l * rate E = 1) ∧ (meanFreePath none rate E = none ↔ rate E = 0) := by
  unfold meanFreePath
  dsimp only
  split_ifs with h
  · simp [h]
  · refine ⟨?_, by simp [h]⟩
    rintro l e
    obtain rfl := Option.some.inj e
    exact one_div_mul_cancel h

/-- C101: with an interpolated rate it is never negative, and it is infinite below the begin of the table. -/
theorem C101_mean_free_path_table (t : (ℝ → ℝ) × ℝ) (rate : ℝ → ℝ) (E : ℝ) :
    (∀ l, meanFreePath (some t) rate E = some l → 0 < l ∧ l * t.1 E = 1 ∧ t.2 ≤ E) ∧
    (E < t.2 → meanFreePath (some t) rate E = none) := by
  unfold meanFreePath
  dsimp only
  split_ifs with h h1 h2
  · exact ⟨by rintro l ⟨⟩, fun _ => rfl⟩
  · exact ⟨by rintro l ⟨⟩, fun e => absurd e h⟩
  · exact ⟨by rintro l ⟨⟩, fun e => absurd e h⟩
  · refine ⟨?_, fun e => absurd e h⟩
    rintro l e
    obtain rfl := Option.some.inj e
    push Not at h h1
    have : 0 < t.1 E := lt_of_le_of_ne h1 (Ne.symm h2)
    exact ⟨one_div_pos.mpr this, one_div_mul_cancel h2, h⟩

/-! ## The hypotheses can be met -/

lemma wellAbove_example {a b : ℝ} (ha : 1 ≤ a) (hab : a + 1 ≤ b) (hb : b ≤ 4) : Spec.WellAbove b a := by
  refine ⟨by linarith, ?_, ?_⟩
  · unfold Spec.Different
    rw [abs_of_pos (by linarith), abs_of_neg (by linarith)]
    linarith
  · have h4 : Real.log 4 < 2 := by
      rw [show (4 : ℝ) = 2 ^ 2 by norm_num, Real.log_pow]
      have := Real.log_two_lt_d9
      norm_num
      linarith
    have l1 : Real.log b ≤ Real.log 4 := Real.log_le_log (by linarith) hb
    have l2 : Real.log a < Real.log b := Real.log_lt_log (by linarith) (by linarith)
    have l3 : 0 ≤ Real.log a := Real.log_nonneg ha
    have l4 : 1 / 5 ≤ Real.log b - Real.log a := by
      rw [← Real.log_div (by linarith) (by linarith)]
      have h1 : 5 / 4 ≤ b / a := by rw [le_div_iff₀ (by linarith)]; linarith
      have h7 : Real.log (5 / 4) ≤ Real.log (b / a) := Real.log_le_log (by norm_num) h1
      have h8 : (1 : ℝ) - (5 / 4)⁻¹ ≤ Real.log (5 / 4) := Real.one_sub_inv_le_log_of_pos (by norm_num)
      norm_num at h8
      linarith
    simp only [Spec.Apart, Spec.coordinate]
    norm_num
    rw [abs_of_nonneg (by linarith), abs_of_nonneg (by linarith), abs_of_nonneg (by linarith), max_eq_left l2.le]
    linarith

-- C62: with exact numerics, unit rate and energy loss, the random number exp(-1) leads from 4 to 3, a larger one to a
-- higher energy, and exp(-5) to the lower limit 1
example : ∃ search, Spec.ExactRefine search ∧
    let U : IntegralUtil := ⟨exactQ, search, interactionIntegrand (fun _ => 1) (fun _ => 1), 1⟩
    U.energyInteraction newIntegral 4 (Real.exp (-1)) = .value 3 ∧
    U.energyInteraction newIntegral 4 (Real.exp (-5)) = .value 1 := by
  obtain ⟨search, hr⟩ := exactRefine_exists
  refine ⟨search, hr, ?_⟩
  intro U
  have key : ∀ v : ℝ, 0 ≤ v → U.energyInteraction newIntegral 4 (Real.exp (-v)) = .value (4 - min v 3) := by
    intro v hv
    obtain ⟨x, e1, e2, e3, e4⟩ := C62_interaction_law_partial U exactQ_exact hr (fun _ => 1) (fun _ => 1) rfl newIntegral 4
      (Real.exp (-v)) one_pos (wellAbove_example le_rfl (show (1 : ℝ) + 1 ≤ 4 by norm_num) le_rfl)
      (fun _ _ => ⟨one_pos, one_pos⟩) (Real.exp_pos _) (Real.exp_le_one_iff.mpr (by linarith))
    rw [e1]
    simp only [div_one, intervalIntegral.integral_const, Real.log_exp, neg_neg, smul_eq_mul, mul_one] at e4
    have : U.lower = 1 := rfl
    rw [this, show (4 : ℝ) - 1 = 3 by norm_num] at e4
    rw [← e4]
    congr 1
    ring
  refine ⟨?_, ?_⟩
  · rw [key 1 (by norm_num)]; norm_num
  · rw [key 5 (by norm_num)]; norm_num

-- C62, decays: the hypotheses of the law and of the order
example : ∃ U : IntegralUtil, Spec.ExactQuadrature U.Q ∧ Spec.ExactRefine U.search ∧
    U.f = decayIntegrand (fun _ => 2) (1 / 2) ∧ U.lower = 1 ∧ Spec.WellAbove 4 U.lower ∧
    IntervalIntegrable (fun y => (1 / 2) / (SPEED * Real.sqrt (y ^ 2 - (1 / 2) ^ 2) * (2 : ℝ))) volume U.lower 4 := by
  obtain ⟨search, hr⟩ := exactRefine_exists
  refine ⟨⟨exactQ, search, decayIntegrand (fun _ => 2) (1 / 2), 1⟩, exactQ_exact, hr, rfl, rfl,
    wellAbove_example le_rfl (by norm_num) le_rfl, ?_⟩
  refine ContinuousOn.intervalIntegrable ?_
  rw [uIcc_of_le (by norm_num)]
  refine continuousOn_const.div ?_ ?_
  · exact ((continuous_const.mul (Real.continuous_sqrt.comp (by fun_prop))).mul continuous_const).continuousOn
  · intro y hy
    have hS : 0 < SPEED := by unfold SPEED; norm_num
    have : 0 < y ^ 2 - (1 / 2) ^ 2 := by nlinarith [hy.1]
    exact (mul_pos (mul_pos hS (Real.sqrt_pos.mpr this)) two_pos).ne'

-- C62: a table of the same integral, filled in either direction, gives the same energy
example (reverse : Bool) :
    let U : TableUtil := ⟨interactionIntegrand (fun _ => 1) (fun _ => 1), fun y => if reverse then 10 - y else y - 1, reverse, 1,
      fun t lo hi _ => some (max lo (min hi (if reverse then 10 - t else t + 1)))⟩
    Spec.FindInBracket U ∧ U.energyInteraction 4 (Real.exp (-1)) = .value 3 := by
  intro U
  have hf : ∀ y : ℝ, U.f y = -1 := by
    intro y
    change interactionIntegrand (fun _ => 1) (fun _ => 1) y = -1
    rw [interactionIntegrand_neg (by norm_num) (by norm_num)]; norm_num
  have hfind : Spec.ExactFind U := by
    intro t lo hi start h hb
    have hU : U.reverse = reverse := rfl
    change ((if reverse then 10 - lo else lo - 1) - t) * ((if reverse then 10 - hi else hi - 1) - t) ≤ 0 at hb
    refine ⟨_, rfl, le_max_left _ _, max_le h (min_le_left _ _), ?_⟩
    change (if reverse then _ else _) = t
    cases reverse <;> simp only [if_true, if_false, Bool.false_eq_true] at hb ⊢
    · have h1 : lo ≤ t + 1 := by by_contra hc; push Not at hc; nlinarith
      have h2 : t + 1 ≤ hi := by by_contra hc; push Not at hc; nlinarith
      rw [min_eq_right h2, max_eq_right h1]; ring
    · have h1 : lo ≤ 10 - t := by by_contra hc; push Not at hc; nlinarith
      have h2 : 10 - t ≤ hi := by by_contra hc; push Not at hc; nlinarith
      rw [min_eq_right h2, max_eq_right h1]; ring
  refine ⟨?_, ?_⟩
  · intro t lo hi start x h e
    obtain rfl := Option.some.inj e
    exact ⟨le_max_left _ _, max_le h (min_le_left _ _)⟩
  · have hT : Spec.ExactTable U 10 4 := by
      intro y _
      change (if reverse then 10 - y else y - 1) = if reverse then ∫ z in (10 : ℝ)..y, U.f z else ∫ z in y..1, U.f z
      simp only [hf, intervalIntegral.integral_const, smul_eq_mul]
      cases reverse <;> simp
    obtain ⟨x, e1, e2, e3, e4⟩ := C62_table_interaction_law_partial U hfind (fun _ => 1) (fun _ => 1) rfl 10 4 (Real.exp (-1)) hT
      ⟨by change (1 : ℝ) < 4; norm_num, by change (4 : ℝ) * (1 / 10 ^ 6) ≤ 4 - 1; norm_num⟩ (by norm_num)
      (fun _ _ => ⟨one_pos, one_pos⟩) (by simp) (Real.exp_pos _) (Real.exp_le_one_iff.mpr (by norm_num))
    rw [e1]
    have hU : U.lower = 1 := rfl
    simp only [div_one, intervalIntegral.integral_const, Real.log_exp, neg_neg, smul_eq_mul, mul_one, hU] at e4
    norm_num at e4
    congr 1
    linarith

-- C61: an exact distribution with a variance, and its range
example : ∃ N : Normal, Spec.Exact N ∧ 5 ≤ energyRandomizeOf N (fun _ _ => 1) 1 10 3 (1 / 2) 5 := by
  have hN : Spec.Exact ⟨fun x => (1 + Real.exp (-x))⁻¹, fun p => -Real.log (p⁻¹ - 1)⟩ := by
    refine ⟨?_, ?_, ?_, ?_⟩
    · intro x y hxy
      simp only
      gcongr
    · intro x; positivity
    · intro x
      exact inv_lt_one_of_one_lt₀ (by linarith [Real.exp_pos (-x)])
    · intro p h0 h1
      have : 0 < p⁻¹ - 1 := by
        have := (one_lt_inv₀ h0).2 h1
        linarith
      simp only [neg_neg, Real.exp_log this]
      rw [add_sub_cancel, inv_inv]
  exact ⟨_, hN, (C61_randomised_in_range_partial _ hN _ 1 10 3 (1 / 2) 5 one_pos (by norm_num) (by norm_num) (by norm_num)).2.1⟩

-- C99, C100: lengths add up, the energy after a length, and the time of a massive particle
example : ∃ search, Spec.ExactRefine search ∧
    let U : IntegralUtil := ⟨exactQ, search, displacementIntegrand (fun _ => 2), 1⟩
    let T : IntegralUtil := ⟨exactQ, search, timeIntegrand (fun _ => 2) (1 / 2), 1⟩
    (U.calculate newIntegral 4 2).1 = 1 ∧ U.upperLimit newIntegral 4 1 = .value 2 ∧
    U.upperLimit newIntegral 4 2 = .logicError ∧
    (U.calculate newIntegral 4 1).1 = (U.calculate newIntegral 4 2).1 + (U.calculate newIntegral 2 1).1 ∧
    1 / 3 < SPEED * exactTime (fun a b => (T.calculate newIntegral a b).1) 4 2 0 3 := by
  obtain ⟨search, hr⟩ := exactRefine_exists
  refine ⟨search, hr, ?_⟩
  intro U T
  have w1 : Spec.WellAbove 4 1 := wellAbove_example le_rfl (by norm_num) le_rfl
  have w2 : Spec.WellAbove 4 2 := wellAbove_example (by norm_num) (by norm_num) le_rfl
  have w3 : Spec.WellAbove 2 1 := wellAbove_example le_rfl (by norm_num) (by norm_num)
  have e : (U.calculate newIntegral 4 2).1 = 1 := by
    rw [(C99_length_partial U exactQ_exact (fun _ => 2) rfl newIntegral 4 2 two_pos w2 (fun _ _ => two_pos)
      continuousOn_const).1, intervalIntegral.integral_const]
    norm_num
  refine ⟨e, ?_, ?_, ?_, ?_⟩
  · have := C99_round_trip_partial U exactQ_exact hr (fun _ => 2) rfl newIntegral newIntegral 4 2 one_pos one_le_two w2 w1
      (fun _ _ => two_pos) continuousOn_const
    rwa [e] at this
  · refine C99_too_far_partial U exactQ_exact (fun _ => 2) rfl newIntegral 4 2 one_pos w1 (fun _ _ => two_pos) ?_
    rw [intervalIntegral.integral_const]
    change (4 - (1 : ℝ)) • (1 / 2 : ℝ) < 2
    norm_num
  · exact C99_length_additive_partial U exactQ_exact (fun _ => 2) rfl _ _ _ 4 2 1 one_pos w2 w3 w1 (fun _ _ => two_pos)
      continuousOn_const
  · have := (C100_slower_than_light_partial T U exactQ_exact exactQ_exact (fun _ => 2) (1 / 2) rfl rfl newIntegral newIntegral 4 2 3 0
      (by norm_num) (by norm_num) w2 (fun _ _ => two_pos) continuousOn_const (by norm_num)).2.1 (by norm_num)
    rwa [e] at this

/-! ## Energies just above the lower limit -/

/-- C99, where the code differs: if the logarithms of the energy and the lower limit are too close to be integrated while the energies are
not, every length gives the logarithm of the lower limit instead of an energy. -/
theorem C99_narrow_limits (U : IntegralUtil) (hQ : Spec.ExactQuadrature U.Q) (s : IState) (E length : ℝ) (hl : 0 < U.lower)
    (hE : U.lower < E) (n1 : narrow E U.lower = false) (n2 : narrow (Real.log U.lower) (Real.log E) = true) (h0 : 0 ≤ length)
    (h1 : length ≤ ∫ y in E..U.lower, U.f y) :
    U.upperLimit s E length = .value (Real.log U.lower) ∧ Real.log U.lower < U.lower := by
  have hlog : Real.log U.lower ≤ Real.log E := Real.log_le_log hl hE.le
  constructor
  · have hsaved : -(preparedState U s E length).saved = ∫ y in E..U.lower, U.f y := by
      rw [prepared_saved U (exact_mirrored U.Q hQ) s E length hl hE, hQ.opened _ _ _ hlog, weighted_exp _ _ _ hlog, Real.exp_log hl,
        Real.exp_log (hl.trans hE), one_mul, ← intervalIntegral.integral_symm]
    unfold IntegralUtil.upperLimit
    rw [integrateRandom_prepared U s E length hl hE h0 n1]
    dsimp only
    rw [hsaved, if_neg (not_lt.mpr h1)]
    unfold getUpperLimit
    have e1 : (preparedState U s E length).done = true := rfl
    have e2 : narrow (preparedState U s E length).lo (preparedState U s E length).hi = true := n2
    rw [e1, e2]
    rfl
  · linarith [Real.log_le_sub_one_of_pos hl]

/-- C99: an energy of that kind, for the lower limit `exp 20` and the constant energy loss 1: after the length 0 the energy is 20. -/
theorem C99_narrow_witness (search : IState → Option ℝ) (s : IState) :
    let U : IntegralUtil := ⟨exactQ, search, displacementIntegrand (fun _ => 1), Real.exp 20⟩
    U.lower < Real.exp (20 + 1 / 10 ^ 9) ∧ U.upperLimit s (Real.exp (20 + 1 / 10 ^ 9)) 0 = .value 20 := by
  intro U
  have hE : U.lower < Real.exp (20 + 1 / 10 ^ 9) := Real.exp_lt_exp.mpr (by norm_num)
  have hU : U.lower = Real.exp 20 := rfl
  refine ⟨hE, ?_⟩
  have hexp : Real.exp (20 + 1 / 10 ^ 9) = Real.exp 20 * Real.exp (1 / 10 ^ 9) := Real.exp_add _ _
  have hb : (1 : ℝ) + 1 / 10 ^ 9 ≤ Real.exp (1 / 10 ^ 9) := by linarith [Real.add_one_le_exp (1 / 10 ^ 9 : ℝ)]
  have hp := Real.exp_pos 20
  have n1 : narrow (Real.exp (20 + 1 / 10 ^ 9)) U.lower = false := by
    unfold narrow computerPrecision
    rw [decide_eq_false_iff_not, not_le, abs_of_pos (Real.exp_pos _), abs_of_neg (by linarith), hU, hexp]
    have := mul_le_mul_of_nonneg_left hb hp.le
    norm_num at this ⊢
    linarith
  have n2 : narrow (Real.log U.lower) (Real.log (Real.exp (20 + 1 / 10 ^ 9))) = true := by
    unfold narrow computerPrecision
    rw [decide_eq_true_eq, hU, Real.log_exp, Real.log_exp]
    norm_num
  have := (C99_narrow_limits U exactQ_exact s _ 0 hp hE n1 n2 le_rfl (by
    have hf : U.f = fun _ => -1 := by
      funext y
      simp [U, displacementIntegrand]
    rw [hf, intervalIntegral.integral_const]
    simp only [smul_eq_mul]
    linarith)).1
  rwa [hU, Real.log_exp] at this

end Proposal
