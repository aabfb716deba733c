import Verif.Props.UpperLimit
import Verif.Props.RootFinding
import Verif.Props.Statistics
import Verif.Props.Vec3
import Verif.Model.Calculators

/-!
# C60, C61, C62: the calculators behind a propagation utility
-/

open MeasureTheory Set

namespace Proposal

/-! ## Integration without interpolation -/

/-- The sums of the quadrature do not depend on the direction in which the nodes are visited. -/
def Spec.Mirrored (Q : Quadrature) : Prop :=
  ∀ (F : ℝ → ℝ) (a b : ℝ), a ≤ b → Q.opened (fun x => F (a + b - x)) a b = Q.opened F a b

/-- A result of the search lies between the limits of the integral. -/
def Spec.SearchInRange (search : IState → Option ℝ) : Prop :=
  ∀ t : IState, t.lo ≤ t.hi → 0 ≤ t.rnd → t.rnd < 1 → (t.rnd = 0 → t.x = t.lo) → ∀ x, search t = some x → t.lo ≤ x ∧ x ≤ t.hi

lemma refine_inRange (Q : Quadrature) (steps : ℕ) (precision : ℝ) : Spec.SearchInRange (refineUpperLimit Q steps precision) := by
  intro t h h0 h1 hx x hs
  refine C96_search_in_range Q steps precision t h ⟨h0, h1.le⟩ ?_ x hs
  rintro (e | e)
  · rw [hx e]; exact ⟨le_rfl, h⟩
  · linarith

lemma exact_inRange (search : IState → Option ℝ) (h : Spec.ExactRefine search) : Spec.SearchInRange search := by
  intro t hl h0 h1 _ x hx
  obtain ⟨y, hy, hy1, hy2, _⟩ := h t hl h0 h1.le
  rw [hx] at hy
  obtain rfl := Option.some.inj hy
  exact ⟨hy1, hy2⟩

lemma calculate_eq (U : IntegralUtil) (s : IState) (E : ℝ) (hl : 0 < U.lower) (hE : U.lower < E)
    (h : narrow (Real.log U.lower) (Real.log E) = false) :
    (U.calculate s E U.lower).1 = -U.Q.opened (weighted true 0 U.f) (Real.log U.lower) (Real.log E) := by
  unfold IntegralUtil.calculate Integrate
  have ho : orient E U.lower = (U.lower, E, -1) := by unfold orient; rw [if_pos hE]
  rw [if_neg (by rintro ⟨_, e⟩; linarith), if_neg (by norm_num), if_neg (by norm_num), if_neg (by norm_num), if_pos rfl,
    if_neg (by rintro (e | e) <;> linarith)]
  unfold integrateLog initLog
  simp only [ho, h, Bool.false_eq_true, if_false, neg_one_mul]
  rfl

lemma calculate_narrow (U : IntegralUtil) (s : IState) (E : ℝ) (hl : 0 < U.lower) (hE : U.lower < E)
    (h : narrow (Real.log U.lower) (Real.log E) = true) : (U.calculate s E U.lower).1 = 0 := by
  unfold IntegralUtil.calculate Integrate
  have ho : orient E U.lower = (U.lower, E, -1) := by unfold orient; rw [if_pos hE]
  rw [if_neg (by rintro ⟨_, e⟩; linarith), if_neg (by norm_num), if_neg (by norm_num), if_neg (by norm_num), if_pos rfl,
    if_neg (by rintro (e | e) <;> linarith)]
  unfold integrateLog initLog
  simp only [ho, h, if_true]

lemma calculate_same (U : IntegralUtil) (s : IState) (hl : 0 < U.lower) : (U.calculate s U.lower U.lower).1 = 0 := by
  unfold IntegralUtil.calculate Integrate
  rw [if_neg (by rintro ⟨_, e⟩; linarith), if_neg (by norm_num), if_neg (by norm_num), if_neg (by norm_num), if_pos rfl,
    if_neg (by rintro (e | e) <;> linarith)]
  have hn : narrow (Real.log U.lower) (Real.log U.lower) = true := by
    unfold narrow computerPrecision
    rw [decide_eq_true_eq, sub_self, abs_zero]
    positivity
  have ho : orient U.lower U.lower = (U.lower, U.lower, 1) := by unfold orient; rw [if_neg (lt_irrefl _)]
  unfold integrateLog initLog
  simp only [ho, hn, if_true]

/-- The state of the `Integral` after the integration with a random ratio. -/
noncomputable def preparedState (U : IntegralUtil) (s : IState) (E v : ℝ) : IState :=
  let s1 : IState := { s with
    lo := Real.log U.lower, hi := Real.log E, reverse := true, reverseX := Real.log U.lower + Real.log E, useLog := true,
    pos := 0, rnd := -v, f := U.f }
  let result := U.Q.opened s1.function s1.lo s1.hi
  { s1 with rnd := ratioOf (-v) result, saved := result, done := true, x := firstX U.Q s1 }

lemma integrateRandom_prepared (U : IntegralUtil) (s : IState) (E v : ℝ) (hl : 0 < U.lower) (hE : U.lower < E) (hv : 0 ≤ v)
    (h1 : narrow E U.lower = false) :
    integrateRandom U.Q s E U.lower U.f 4 (-v) 0 = some (-(preparedState U s E v).saved, preparedState U s E v) := by
  have ho : orient E U.lower = (U.lower, E, -1) := by unfold orient; rw [if_pos hE]
  unfold integrateRandom
  rw [if_neg (by rintro ⟨_, e⟩; linarith), if_neg (by norm_num), if_pos rfl, if_neg (by rintro (e | e) <;> linarith)]
  unfold integrateLogRandom preparedState
  have g : ¬ (-v > 1) := by linarith
  have g2 : decide (E > U.lower) = true := by simpa using hE
  simp only [h1, Bool.false_eq_true, if_false, ho, g, g2, if_true, neg_neg, one_mul, neg_one_mul]

lemma upperLimit_eq (U : IntegralUtil) (s : IState) (E v : ℝ) (hl : 0 < U.lower) (hE : U.lower < E) (hv : 0 ≤ v)
    (h1 : narrow E U.lower = false) (h2 : narrow (Real.log U.lower) (Real.log E) = false)
    (hle : v ≤ -(preparedState U s E v).saved) :
    U.upperLimit s E v = match U.search (preparedState U s E v) with
      | none => .nan
      | some x => .value (Real.exp (Real.log U.lower + Real.log E - x)) := by
  unfold IntegralUtil.upperLimit
  rw [integrateRandom_prepared U s E v hl hE hv h1]
  dsimp only
  rw [if_neg (not_lt.mpr hle)]
  unfold getUpperLimit
  have d : (preparedState U s E v).done = true := rfl
  have n : narrow (preparedState U s E v).lo (preparedState U s E v).hi = false := h2
  rw [if_pos d, n]
  simp only [Bool.false_eq_true, if_false]
  cases hs : U.search (preparedState U s E v) with
  | none => rfl
  | some x =>
    have r : (preparedState U s E v).reverse = true := rfl
    have p : (preparedState U s E v).pos = 0 := rfl
    have l : (preparedState U s E v).useLog = true := rfl
    have rx : (preparedState U s E v).reverseX = Real.log U.lower + Real.log E := rfl
    simp only [r, p, l, rx, if_true, gt_iff_lt, lt_irrefl, if_false, Upper.out]

lemma prepared_saved (U : IntegralUtil) (hm : Spec.Mirrored U.Q) (s : IState) (E v : ℝ) (hl : 0 < U.lower) (hE : U.lower < E) :
    (preparedState U s E v).saved = U.Q.opened (weighted true 0 U.f) (Real.log U.lower) (Real.log E) := by
  unfold preparedState
  dsimp only
  rw [← hm (weighted true 0 U.f) _ _ (Real.log_le_log hl hE.le)]
  rfl

lemma upperLimit_narrow (U : IntegralUtil) (s : IState) (E v : ℝ) (hl : 0 < U.lower) (hE : U.lower < E)
    (h1 : narrow E U.lower = true) : U.upperLimit s E v = if v > 0 then .logicError else .value E := by
  have e : integrateRandom U.Q s E U.lower U.f 4 (-v) 0 =
      some (0, { s with lo := E, hi := U.lower, reverse := false, useLog := true, done := true }) := by
    unfold integrateRandom
    rw [if_neg (by rintro ⟨_, e⟩; linarith), if_neg (by norm_num), if_pos rfl, if_neg (by rintro (e | e) <;> linarith)]
    unfold integrateLogRandom
    rw [if_pos h1]
  unfold IntegralUtil.upperLimit
  rw [e]
  dsimp only
  by_cases g : v > 0
  · rw [if_pos g, if_pos g]
  · rw [if_neg g, if_neg g]
    unfold getUpperLimit
    simp only [h1, if_true, Upper.out]

/-- The energy found for a part of the integral lies between the lower limit and the initial energy. -/
lemma upperLimit_range (U : IntegralUtil) (hm : Spec.Mirrored U.Q) (hs : Spec.SearchInRange U.search) (s s' : IState)
    (E v : ℝ) (hl : 0 < U.lower) (hE : U.lower ≤ E) (hv : 0 ≤ v) (hlt : v < (U.calculate s E U.lower).1) (x : ℝ)
    (h : U.upperLimit s' E v = .value x) : U.lower ≤ x ∧ x ≤ E := by
  rcases hE.eq_or_lt with rfl | hE
  · rw [calculate_same U s hl] at hlt; linarith
  have h2 : narrow (Real.log U.lower) (Real.log E) = false := by
    by_contra hc
    rw [Bool.not_eq_false] at hc
    rw [calculate_narrow U s E hl hE hc] at hlt
    linarith
  rw [calculate_eq U s E hl hE h2] at hlt
  cases h1 : narrow E U.lower with
  | true =>
    rw [upperLimit_narrow U s' E v hl hE h1] at h
    split_ifs at h
    obtain rfl := UOut.value.inj h
    exact ⟨hE.le, le_rfl⟩
  | false =>
    have hsaved := prepared_saved U hm s' E v hl hE
    rw [upperLimit_eq U s' E v hl hE hv h1 h2 (by rw [hsaved]; exact hlt.le)] at h
    cases hx : U.search (preparedState U s' E v) with
    | none => rw [hx] at h; cases h
    | some y =>
      rw [hx] at h
      obtain rfl := UOut.value.inj h
      have hlog : Real.log U.lower ≤ Real.log E := Real.log_le_log hl hE.le
      have hr : (preparedState U s' E v).rnd = v / -(preparedState U s' E v).saved := by
        change ratioOf (-v) (preparedState U s' E v).saved = _
        rw [hsaved]
        generalize U.Q.opened (weighted true 0 U.f) (Real.log U.lower) (Real.log E) = r at hlt
        unfold ratioOf
        rcases hv.eq_or_lt with rfl | hv
        · simp
        · have a1 : -v / r = v / -r := by rw [div_neg, neg_div]
          have a2 : ¬ (v / -r > 1) := not_lt.mpr ((div_le_one (by linarith)).mpr hlt.le)
          have a3 : ¬ (v / -r < 0) := not_lt.mpr (div_nonneg hv.le (by linarith))
          have a4 : -v < 0 := by linarith
          simp only [a1, a2, a3, a4, if_true, if_false]
      have hpos : 0 < -(preparedState U s' E v).saved := by rw [hsaved]; linarith
      obtain ⟨b1, b2⟩ := hs (preparedState U s' E v) hlog (by rw [hr]; exact div_nonneg hv hpos.le)
        (by rw [hr, div_lt_one hpos, hsaved]; exact hlt)
        (by
          intro e
          rw [hr, div_eq_zero_iff] at e
          rcases e with e | e
          · subst e
            unfold preparedState firstX
            simp
          · exact absurd e hpos.ne') y hx
      have c1 : Real.log U.lower ≤ y := b1
      have c2 : y ≤ Real.log E := b2
      constructor
      · calc U.lower = Real.exp (Real.log U.lower) := (Real.exp_log hl).symm
          _ ≤ _ := Real.exp_le_exp.mpr (by linarith)
      · calc Real.exp (Real.log U.lower + Real.log E - y) ≤ Real.exp (Real.log E) := Real.exp_le_exp.mpr (by linarith)
          _ = E := Real.exp_log (by linarith)

/-- C62: an interaction energy lies between the lower limit and the current energy. The integrand is arbitrary, the
quadrature only has to be independent of the direction of the nodes. -/
theorem C62_interaction_in_range (U : IntegralUtil) (hm : Spec.Mirrored U.Q) (steps : ℕ) (precision : ℝ)
    (hs : U.search = refineUpperLimit U.Q steps precision) (s : IState) (E rnd : ℝ) (hl : 0 < U.lower) (hE : U.lower ≤ E)
    (h0 : 0 ≤ rnd) (h1 : rnd ≤ 1) (x : ℝ) (h : U.energyInteraction s E rnd = .value x) : U.lower ≤ x ∧ x ≤ E := by
  unfold IntegralUtil.energyInteraction at h
  dsimp only at h
  split_ifs at h with hc
  · obtain rfl := UOut.value.inj h
    exact ⟨le_rfl, hE⟩
  · push Not at hc
    exact upperLimit_range U hm (by rw [hs]; exact refine_inRange _ _ _) s _ E _ hl hE
      (neg_nonneg.mpr (Real.log_nonpos h0 h1)) hc.2 x h

/-- C62: a decay energy lies between the lower limit and the current energy. -/
theorem C62_decay_in_range (U : IntegralUtil) (hm : Spec.Mirrored U.Q) (steps : ℕ) (precision : ℝ)
    (hs : U.search = refineUpperLimit U.Q steps precision) (lifetime : ℝ) (hlt : 0 < lifetime) (s : IState)
    (E rnd density : ℝ) (hd : 0 < density) (hl : 0 < U.lower) (hE : U.lower ≤ E) (h0 : 0 ≤ rnd) (h1 : rnd ≤ 1) (x : ℝ)
    (h : U.energyDecay lifetime s E rnd density = .value x) : U.lower ≤ x ∧ x ≤ E := by
  unfold IntegralUtil.energyDecay at h
  dsimp only at h
  split_ifs at h with hc
  · obtain rfl := UOut.value.inj h
    exact ⟨le_rfl, hE⟩
  · push Not at hc
    have hn : 0 ≤ -Real.log rnd := neg_nonneg.mpr (Real.log_nonpos h0 h1)
    exact upperLimit_range U hm (by rw [hs]; exact refine_inRange _ _ _) s _ E _ hl hE (by positivity)
      ((lt_div_iff₀ hlt).mp hc.2) x h

/-! ## Exact numerics -/

lemma exact_mirrored (Q : Quadrature) (hQ : Spec.ExactQuadrature Q) : Spec.Mirrored Q := by
  intro F a b h
  rw [hQ.opened _ a b h, hQ.opened _ a b h, intervalIntegral.integral_comp_sub_left (fun y => F y) (a + b)]
  congr 1 <;> ring

/-- The current energy differs from the lower limit by more than the precision of the integration. -/
def Spec.WellAbove (E lower : ℝ) : Prop := lower < E ∧ Spec.Different E lower ∧ Spec.Apart 4 0 E lower

lemma suitable_log {x : ℝ} (h : 0 < x) : Spec.Suitable 4 0 x := ⟨fun _ => h, by norm_num, by norm_num⟩

lemma above_narrow {E lower : ℝ} (h : Spec.WellAbove E lower) :
    narrow E lower = false ∧ narrow (Real.log lower) (Real.log E) = false := by
  refine ⟨narrow_of_different h.2.1, narrow_of_apart ?_⟩
  have := h.2.2
  simp only [Spec.Apart, Spec.coordinate] at this
  norm_num at this ⊢
  rw [max_comm, abs_sub_comm]
  exact this

lemma calculate_exact (U : IntegralUtil) (hQ : Spec.ExactQuadrature U.Q) (s : IState) (E : ℝ) (hl : 0 < U.lower)
    (h : Spec.WellAbove E U.lower) : (U.calculate s E U.lower).1 = ∫ y in E..U.lower, U.f y :=
  C95_integral_partial U.Q hQ s E U.lower U.f 4 0 (by norm_num) (suitable_log (hl.trans h.1)) (suitable_log hl) h.2.2

/-- With exact numerics the energy found for a part of the integral is the right one. -/
lemma upperLimit_exact (U : IntegralUtil) (hQ : Spec.ExactQuadrature U.Q) (hr : Spec.ExactRefine U.search) (s : IState)
    (E v : ℝ) (hl : 0 < U.lower) (hE : Spec.WellAbove E U.lower) (h0 : 0 ≤ v) (h1 : v ≤ ∫ y in E..U.lower, U.f y) :
    ∃ x, U.upperLimit s E v = .value x ∧ U.lower ≤ x ∧ x ≤ E ∧ ∫ y in E..x, U.f y = v := by
  obtain ⟨n1, n2⟩ := above_narrow hE
  have hm := exact_mirrored U.Q hQ
  have hc := calculate_exact U hQ s E hl hE
  rw [calculate_eq U s E hl hE.1 n2] at hc
  have hsaved := prepared_saved U hm s E v hl hE.1
  have key : ∃ s' x s'', integrateRandom U.Q s E U.lower U.f 4 (-v) 0 = some (∫ y in E..U.lower, U.f y, s') ∧
      getUpperLimit U.search s' = .value x s'' ∧ ∫ y in E..x, U.f y = v := by
    rcases h0.eq_or_lt with rfl | h0
    · have := C96_ratio_partial U.Q hQ U.search hr s E U.lower U.f 4 0 0 (Or.inr rfl) (suitable_log (hl.trans hE.1))
        (suitable_log hl) hE.2.1 hE.2.2 le_rfl zero_le_one
      rw [zero_mul] at this
      rw [neg_zero]
      exact this
    · exact C96_value_partial U.Q hQ U.search hr s E U.lower U.f 4 0 v (Or.inr rfl) (suitable_log (hl.trans hE.1))
        (suitable_log hl) hE.2.1 hE.2.2 h0 h1
  obtain ⟨s', x, s'', e1, e2, e3⟩ := key
  have hv : U.upperLimit s E v = .value x := by
    unfold IntegralUtil.upperLimit
    rw [e1]
    dsimp only
    rw [if_neg (not_lt.mpr h1), e2]
    rfl
  refine ⟨x, hv, ?_⟩
  have hle : v ≤ -(preparedState U s E v).saved := by rw [hsaved, hc]; exact h1
  have hlog : Real.log U.lower ≤ Real.log E := Real.log_le_log hl hE.1.le
  have hrn : 0 ≤ (preparedState U s E v).rnd ∧ (preparedState U s E v).rnd ≤ 1 := by
    change 0 ≤ ratioOf (-v) (preparedState U s E v).saved ∧ ratioOf (-v) (preparedState U s E v).saved ≤ 1
    simp only [ratioOf]
    split_ifs <;> constructor <;> linarith
  obtain ⟨y, hy, hy1, hy2, _⟩ := hr (preparedState U s E v) hlog hrn.1 hrn.2
  rw [upperLimit_eq U s E v hl hE.1 h0 n1 n2 hle, hy] at hv
  obtain rfl := UOut.value.inj hv
  have c1 : Real.log U.lower ≤ y := hy1
  have c2 : y ≤ Real.log E := hy2
  refine ⟨?_, ?_, e3⟩
  · calc U.lower = Real.exp (Real.log U.lower) := (Real.exp_log hl).symm
      _ ≤ _ := Real.exp_le_exp.mpr (by linarith)
  · calc Real.exp (Real.log U.lower + Real.log E - y) ≤ Real.exp (Real.log E) := Real.exp_le_exp.mpr (by linarith)
      _ = E := Real.exp_log (by linarith [hE.1])

lemma integral_flip (f g : ℝ → ℝ) {a b : ℝ} (hab : a ≤ b) (h : ∀ y ∈ Icc a b, f y = -g y) :
    ∫ y in b..a, f y = ∫ y in a..b, g y := by
  rw [intervalIntegral.integral_symm, ← intervalIntegral.integral_neg]
  refine intervalIntegral.integral_congr ?_
  intro y hy
  rw [uIcc_of_le hab] at hy
  simp only [h y hy, neg_neg]

lemma interactionIntegrand_neg {dedx rate : ℝ → ℝ} {y : ℝ} (h1 : 0 < dedx y) (h2 : 0 < rate y) :
    interactionIntegrand dedx rate y = -(rate y / dedx y) := by
  unfold interactionIntegrand displacementIntegrand
  rw [if_pos h2, if_pos h1]
  ring

/-- C62: with exact numerics there is always an interaction energy. If the expected number of interactions down to the
lower limit is not larger than −log(rnd) it is the lower limit. Otherwise the expected number of interactions between the
current energy and the interaction energy is −log(rnd). -/
theorem C62_interaction_law_partial (U : IntegralUtil) (hQ : Spec.ExactQuadrature U.Q) (hr : Spec.ExactRefine U.search)
    (dedx rate : ℝ → ℝ) (hf : U.f = interactionIntegrand dedx rate) (s : IState) (E rnd : ℝ) (hl : 0 < U.lower)
    (hE : Spec.WellAbove E U.lower) (hpos : ∀ y ∈ Icc U.lower E, 0 < dedx y ∧ 0 < rate y) (h0 : 0 < rnd) (h1 : rnd ≤ 1) :
    ∃ x, U.energyInteraction s E rnd = .value x ∧ U.lower ≤ x ∧ x ≤ E ∧
      ∫ y in x..E, rate y / dedx y = min (-Real.log rnd) (∫ y in U.lower..E, rate y / dedx y) := by
  have hflip : ∀ x, U.lower ≤ x → x ≤ E → ∫ y in E..x, U.f y = ∫ y in x..E, rate y / dedx y := by
    intro x hx hxE
    refine integral_flip _ _ hxE ?_
    intro y hy
    obtain ⟨a, b⟩ := hpos y ⟨hx.trans hy.1, hy.2⟩
    rw [hf, interactionIntegrand_neg a b]
  have hlog : 0 ≤ -Real.log rnd := neg_nonneg.mpr (Real.log_nonpos h0.le h1)
  unfold IntegralUtil.energyInteraction
  dsimp only
  rw [calculate_exact U hQ s E hl hE, hflip U.lower le_rfl hE.1.le]
  by_cases hc : -Real.log rnd ≥ ∫ y in U.lower..E, rate y / dedx y
  · rw [if_pos (Or.inr hc)]
    exact ⟨U.lower, rfl, le_rfl, hE.1.le, (min_eq_right hc).symm⟩
  · rw [if_neg (by rintro (e | e); exacts [h0.ne' e, hc e])]
    push Not at hc
    obtain ⟨x, e1, e2, e3, e4⟩ := upperLimit_exact U hQ hr (U.calculate s E U.lower).2 E (-Real.log rnd) hl hE hlog
      (by rw [hflip U.lower le_rfl hE.1.le]; exact hc.le)
    refine ⟨x, e1, e2, e3, ?_⟩
    rw [← hflip x e2 e3, e4, min_eq_left hc.le]

/-- If a positive integrand gives a smaller integral up to `b`, it starts later. -/
lemma start_order {g : ℝ → ℝ} {lo E x x' : ℝ} (hx : lo ≤ x) (hxE : x ≤ E) (hx' : lo ≤ x')
    (hi : IntervalIntegrable g volume lo E) (hg : ∀ y ∈ Icc lo E, 0 < g y)
    (h : ∫ y in x'..E, g y ≤ ∫ y in x..E, g y) : x ≤ x' := by
  by_contra hc
  push Not at hc
  have s1 : uIcc x' x ⊆ uIcc lo E := by
    rw [uIcc_of_le hc.le, uIcc_of_le (hx.trans hxE)]; exact Icc_subset_Icc hx' hxE
  have s2 : uIcc x E ⊆ uIcc lo E := by
    rw [uIcc_of_le hxE, uIcc_of_le (hx.trans hxE)]; exact Icc_subset_Icc hx le_rfl
  have i1 := hi.mono_set s1
  have i2 := hi.mono_set s2
  have := intervalIntegral.integral_add_adjacent_intervals i1 i2
  have hp := intervalIntegral.intervalIntegral_pos_of_pos_on i1
    (fun y hy => hg y ⟨hx'.trans hy.1.le, hy.2.le.trans hxE⟩) hc
  linarith

/-- C62: larger random numbers give earlier interactions, that is higher energies. -/
theorem C62_interaction_order_partial (U : IntegralUtil) (hQ : Spec.ExactQuadrature U.Q) (hr : Spec.ExactRefine U.search)
    (dedx rate : ℝ → ℝ) (hf : U.f = interactionIntegrand dedx rate) (s s' : IState) (E rnd rnd' : ℝ) (hl : 0 < U.lower)
    (hE : Spec.WellAbove E U.lower) (hpos : ∀ y ∈ Icc U.lower E, 0 < dedx y ∧ 0 < rate y)
    (hi : IntervalIntegrable (fun y => rate y / dedx y) volume U.lower E) (h0 : 0 ≤ rnd) (h : rnd ≤ rnd') (h1 : rnd' ≤ 1) :
    ∃ x x', U.energyInteraction s E rnd = .value x ∧ U.energyInteraction s' E rnd' = .value x' ∧ x ≤ x' := by
  rcases h0.eq_or_lt with rfl | h0
  · have e : U.energyInteraction s E 0 = .value U.lower := by
      unfold IntegralUtil.energyInteraction
      rw [if_pos (Or.inl rfl)]
    rcases h.eq_or_lt with rfl | h
    · exact ⟨U.lower, U.lower, e, by unfold IntegralUtil.energyInteraction; rw [if_pos (Or.inl rfl)], le_rfl⟩
    · obtain ⟨x', e1, e2, _⟩ := C62_interaction_law_partial U hQ hr dedx rate hf s' E rnd' hl hE hpos h h1
      exact ⟨U.lower, x', e, e1, e2⟩
  · obtain ⟨x, a1, a2, a3, a4⟩ := C62_interaction_law_partial U hQ hr dedx rate hf s E rnd hl hE hpos h0 (h.trans h1)
    obtain ⟨x', b1, b2, b3, b4⟩ :=
      C62_interaction_law_partial U hQ hr dedx rate hf s' E rnd' hl hE hpos (h0.trans_le h) h1
    refine ⟨x, x', a1, b1, start_order a2 a3 b2 hi (fun y hy => div_pos (hpos y hy).2 (hpos y hy).1) ?_⟩
    rw [a4, b4]
    exact min_le_min_right _ (neg_le_neg (Real.log_le_log h0 h))

lemma decayIntegrand_neg {dedx : ℝ → ℝ} {mass y : ℝ} (h1 : 0 < dedx y) :
    decayIntegrand dedx mass y = -(mass / (SPEED * Real.sqrt (y ^ 2 - mass ^ 2) * dedx y)) := by
  unfold decayIntegrand displacementIntegrand
  rw [if_pos h1, show (y - mass) * (y + mass) = y ^ 2 - mass ^ 2 by ring]
  generalize SPEED * Real.sqrt (y ^ 2 - mass ^ 2) = w
  rw [div_div_eq_mul_div, div_mul_eq_mul_div, div_div, neg_mul, one_mul, neg_div, mul_comm (dedx y)]

/-- C62: with exact numerics there is always a decay energy. The proper time between the current energy and the decay
energy (the integral divided by the density) is −log(rnd) lifetimes, unless the lower limit is reached before. -/
theorem C62_decay_law_partial (U : IntegralUtil) (hQ : Spec.ExactQuadrature U.Q) (hr : Spec.ExactRefine U.search)
    (dedx : ℝ → ℝ) (mass lifetime density : ℝ) (hf : U.f = decayIntegrand dedx mass) (s : IState) (E rnd : ℝ)
    (hl : 0 < U.lower) (hE : Spec.WellAbove E U.lower) (hpos : ∀ y ∈ Icc U.lower E, 0 < dedx y) (h0 : 0 < rnd)
    (h1 : rnd ≤ 1) (hd : 0 < density) (ht : 0 < lifetime) :
    ∃ x, U.energyDecay lifetime s E rnd density = .value x ∧ U.lower ≤ x ∧ x ≤ E ∧
      (∫ y in x..E, mass / (SPEED * Real.sqrt (y ^ 2 - mass ^ 2) * dedx y)) / density =
        min (-Real.log rnd * lifetime)
          ((∫ y in U.lower..E, mass / (SPEED * Real.sqrt (y ^ 2 - mass ^ 2) * dedx y)) / density) := by
  have hflip : ∀ x, U.lower ≤ x → x ≤ E →
      ∫ y in E..x, U.f y = ∫ y in x..E, mass / (SPEED * Real.sqrt (y ^ 2 - mass ^ 2) * dedx y) := by
    intro x hx hxE
    refine integral_flip _ _ hxE ?_
    intro y hy
    rw [hf, decayIntegrand_neg (hpos y ⟨hx.trans hy.1, hy.2⟩)]
  have hlog : 0 ≤ -Real.log rnd := neg_nonneg.mpr (Real.log_nonpos h0.le h1)
  unfold IntegralUtil.energyDecay
  dsimp only
  rw [calculate_exact U hQ s E hl hE, hflip U.lower le_rfl hE.1.le]
  generalize hI : ∫ y in U.lower..E, mass / (SPEED * Real.sqrt (y ^ 2 - mass ^ 2) * dedx y) = I
  by_cases hc : -Real.log rnd * density ≥ I / lifetime
  · rw [if_pos (Or.inr hc)]
    refine ⟨U.lower, rfl, le_rfl, hE.1.le, ?_⟩
    rw [hI, min_eq_right]
    rw [ge_iff_le, div_le_iff₀ ht] at hc
    rw [div_le_iff₀ hd]
    linarith
  · rw [if_neg (by rintro (e | e); exacts [h0.ne' e, hc e])]
    push Not at hc
    rw [lt_div_iff₀ ht] at hc
    obtain ⟨x, e1, e2, e3, e4⟩ := upperLimit_exact U hQ hr (U.calculate s E U.lower).2 E (-Real.log rnd * density * lifetime)
      hl hE (by positivity) (by rw [hflip U.lower le_rfl hE.1.le, hI]; exact hc.le)
    refine ⟨x, e1, e2, e3, ?_⟩
    rw [← hflip x e2 e3, e4, min_eq_left]
    · field_simp
    · rw [le_div_iff₀ hd]; linarith

/-- C62: larger random numbers give earlier decays. -/
theorem C62_decay_order_partial (U : IntegralUtil) (hQ : Spec.ExactQuadrature U.Q) (hr : Spec.ExactRefine U.search)
    (dedx : ℝ → ℝ) (mass lifetime density : ℝ) (hf : U.f = decayIntegrand dedx mass) (s s' : IState) (E rnd rnd' : ℝ)
    (hm : 0 < mass) (hml : mass < U.lower) (hE : Spec.WellAbove E U.lower) (hpos : ∀ y ∈ Icc U.lower E, 0 < dedx y)
    (hi : IntervalIntegrable (fun y => mass / (SPEED * Real.sqrt (y ^ 2 - mass ^ 2) * dedx y)) volume U.lower E)
    (h0 : 0 < rnd) (h : rnd ≤ rnd') (h1 : rnd' ≤ 1) (hd : 0 < density) (ht : 0 < lifetime) :
    ∃ x x', U.energyDecay lifetime s E rnd density = .value x ∧ U.energyDecay lifetime s' E rnd' density = .value x' ∧
      x ≤ x' := by
  have hl : 0 < U.lower := hm.trans hml
  obtain ⟨x, a1, a2, a3, a4⟩ :=
    C62_decay_law_partial U hQ hr dedx mass lifetime density hf s E rnd hl hE hpos h0 (h.trans h1) hd ht
  obtain ⟨x', b1, b2, b3, b4⟩ :=
    C62_decay_law_partial U hQ hr dedx mass lifetime density hf s' E rnd' hl hE hpos (h0.trans_le h) h1 hd ht
  refine ⟨x, x', a1, b1, start_order a2 a3 b2 hi ?_ ?_⟩
  · intro y hy
    have hS : 0 < SPEED := by unfold SPEED; norm_num
    have : 0 < y ^ 2 - mass ^ 2 := by nlinarith [hy.1]
    exact div_pos hm (mul_pos (mul_pos hS (Real.sqrt_pos.mpr this)) (hpos y hy))
  · rw [← div_le_div_iff_of_pos_right hd, a4, b4]
    exact min_le_min_right _ (mul_le_mul_of_nonneg_right (neg_le_neg (Real.log_le_log h0 h)) ht.le)

/-! ## Interpolation tables -/

/-- The search in the table returns an energy inside of its bracket. -/
def Spec.FindInBracket (U : TableUtil) : Prop :=
  ∀ t lo hi start x, lo ≤ hi → U.find t lo hi start = some x → lo ≤ x ∧ x ≤ hi

/-- The search in the table finds an energy with the right value if the bracket has one. -/
def Spec.ExactFind (U : TableUtil) : Prop :=
  ∀ t lo hi start, lo ≤ hi → (U.table lo - t) * (U.table hi - t) ≤ 0 →
    ∃ x, U.find t lo hi start = some x ∧ lo ≤ x ∧ x ≤ hi ∧ U.table x = t

/-- The table holds the integral of the integrand from a reference energy, as `BuildTables` fills it. -/
def Spec.ExactTable (U : TableUtil) (top E : ℝ) : Prop :=
  ∀ y ∈ Icc U.lower E, U.table y = if U.reverse then ∫ z in top..y, U.f z else ∫ z in y..U.lower, U.f z

/-- The current energy is above the lower limit by at least a millionth. -/
def Spec.TableAbove (E lower : ℝ) : Prop := lower < E ∧ E * (1 / 10 ^ 6) ≤ E - lower

lemma table_calculate (U : TableUtil) (E : ℝ) (h : Spec.TableAbove E U.lower) :
    U.calculate E U.lower = if U.reverse then U.table U.lower - U.table E else U.table E - U.table U.lower := by
  unfold TableUtil.calculate
  rw [if_neg (by unfold IPREC; exact not_lt.mpr h.2)]

lemma table_bracket (U : TableUtil) (E v : ℝ) (h : Spec.TableAbove E U.lower) (h0 : 0 ≤ v)
    (h1 : v ≤ U.calculate E U.lower) :
    (U.table U.lower - (U.table E - if U.reverse then -v else v)) *
      (U.table E - (U.table E - if U.reverse then -v else v)) ≤ 0 := by
  rw [table_calculate U E h] at h1
  cases hr : U.reverse <;> simp only [hr, if_true, if_false, Bool.false_eq_true] at * <;> nlinarith

/-- The table search never fails for a part of the integral, and stays in the range. -/
lemma table_upper (U : TableUtil) (hf : Spec.FindInBracket U) (E v : ℝ) (h : Spec.TableAbove E U.lower)
    (h0 : 0 ≤ v) (h1 : v ≤ U.calculate E U.lower) : ∃ x, U.upperLimit E v = .value x ∧ U.lower ≤ x ∧ x ≤ E := by
  unfold TableUtil.upperLimit
  dsimp only
  rw [if_neg (not_lt.mpr h1)]
  by_cases hv : v = U.calculate E U.lower
  · rw [if_pos hv]; exact ⟨_, rfl, le_rfl, h.1.le⟩
  rw [if_neg hv]
  have hb := table_bracket U E v h h0 h1
  generalize U.table E - (if U.reverse then -v else v) = t at hb
  unfold TableUtil.search
  dsimp only
  obtain ⟨a, b, e1, e2, e3, e4, _⟩ :=
    (C51_bisection (fun x => U.table x - t) U.lower E ((E - U.lower) * (1 / 10 ^ 2)) 100).2 hb
  rw [e1]
  rw [min_eq_left h.1.le] at e2
  rw [max_eq_right h.1.le] at e4
  dsimp only
  cases hx : U.find t a b (if b = E then E else (a + b) / 2) with
  | some x =>
    obtain ⟨b1, b2⟩ := hf _ _ _ _ _ e3 hx
    exact ⟨x, rfl, e2.trans b1, b2.trans e4⟩
  | none =>
    dsimp only
    obtain ⟨a', b', e1', e2', e3', e4', _⟩ :=
      (C51_bisection (fun x => U.table x - t) U.lower E (1 / 10 ^ 6) 100).2 hb
    rw [e1']
    rw [min_eq_left h.1.le] at e2'
    rw [max_eq_right h.1.le] at e4'
    exact ⟨a', rfl, e2', e3'.trans e4'⟩

/-- C62 with an interpolation table: for any table there is an interaction energy between the lower limit and the current
energy, and no exception, if the search stays in its bracket. Missing are energies within a millionth of the lower limit,
see `C62_table_error`. -/
theorem C62_table_interaction_in_range_partial (U : TableUtil) (hf : Spec.FindInBracket U) (E rnd : ℝ)
    (h : Spec.TableAbove E U.lower) (h0 : 0 ≤ rnd) (h1 : rnd ≤ 1) :
    ∃ x, U.energyInteraction E rnd = .value x ∧ U.lower ≤ x ∧ x ≤ E := by
  unfold TableUtil.energyInteraction
  split_ifs with hc
  · exact ⟨_, rfl, le_rfl, h.1.le⟩
  · push Not at hc
    exact table_upper U hf E _ h (neg_nonneg.mpr (Real.log_nonpos h0 h1)) hc.2.le

/-- C62 with an interpolation table: the same for decays. -/
theorem C62_table_decay_in_range_partial (U : TableUtil) (hf : Spec.FindInBracket U) (lifetime E rnd density : ℝ)
    (ht : 0 < lifetime) (hd : 0 < density) (h : Spec.TableAbove E U.lower) (h0 : 0 ≤ rnd) (h1 : rnd ≤ 1) :
    ∃ x, U.energyDecay lifetime E rnd density = .value x ∧ U.lower ≤ x ∧ x ≤ E := by
  unfold TableUtil.energyDecay
  dsimp only
  split_ifs with hc
  · exact ⟨_, rfl, le_rfl, h.1.le⟩
  · push Not at hc
    have hn : 0 ≤ -Real.log rnd := neg_nonneg.mpr (Real.log_nonpos h0 h1)
    exact table_upper U hf E _ h (by positivity) ((lt_div_iff₀ ht).mp hc.2).le

lemma table_upper_exact (U : TableUtil) (hf : Spec.ExactFind U) (top E v : ℝ) (hT : Spec.ExactTable U top E)
    (h : Spec.TableAbove E U.lower) (htop : E ≤ top) (hi : IntervalIntegrable U.f volume U.lower top) (h0 : 0 ≤ v)
    (h1 : v ≤ U.calculate E U.lower) :
    ∃ x, U.upperLimit E v = .value x ∧ U.lower ≤ x ∧ x ≤ E ∧ ∫ y in E..x, U.f y = v := by
  have hsub : ∀ y z, y ∈ Icc U.lower top → z ∈ Icc U.lower top → IntervalIntegrable U.f volume y z := by
    intro y z hy hz
    refine hi.mono_set ?_
    rw [uIcc_of_le (h.1.le.trans htop)]
    exact uIcc_subset_Icc hy hz
  have hl : U.lower ∈ Icc U.lower top := ⟨le_rfl, h.1.le.trans htop⟩
  have hEm : E ∈ Icc U.lower top := ⟨h.1.le, htop⟩
  have htm : top ∈ Icc U.lower top := ⟨h.1.le.trans htop, le_rfl⟩
  -- the difference of two values of the table
  have hdiff : ∀ x ∈ Icc U.lower E, ∫ y in E..x, U.f y = if U.reverse then U.table x - U.table E else U.table E - U.table x := by
    intro x hx
    have hxm : x ∈ Icc U.lower top := ⟨hx.1, hx.2.trans htop⟩
    have e1 := hT x hx
    have e2 := hT E ⟨h.1.le, le_rfl⟩
    cases hr : U.reverse <;> simp only [hr, if_true, if_false, Bool.false_eq_true] at * <;> rw [e1, e2]
    · have := intervalIntegral.integral_add_adjacent_intervals (hsub E x hEm hxm) (hsub x U.lower hxm hl)
      linarith
    · have := intervalIntegral.integral_add_adjacent_intervals (hsub top E htm hEm) (hsub E x hEm hxm)
      linarith
  have hb := table_bracket U E v h h0 h1
  have hfin : ∀ x ∈ Icc U.lower E, U.table x = U.table E - (if U.reverse then -v else v) → ∫ y in E..x, U.f y = v := by
    intro x hx e
    rw [hdiff x hx, e]
    cases U.reverse <;> simp
  unfold TableUtil.upperLimit
  dsimp only
  rw [if_neg (not_lt.mpr h1)]
  by_cases hv : v = U.calculate E U.lower
  · rw [if_pos hv]
    refine ⟨_, rfl, le_rfl, h.1.le, ?_⟩
    rw [hdiff _ ⟨le_rfl, h.1.le⟩, hv, table_calculate U E h]
  rw [if_neg hv]
  generalize U.table E - (if U.reverse then -v else v) = t at hb hfin
  unfold TableUtil.search
  dsimp only
  obtain ⟨a, b, e1, e2, e3, e4, e5, _⟩ :=
    (C51_bisection (fun x => U.table x - t) U.lower E ((E - U.lower) * (1 / 10 ^ 2)) 100).2 hb
  rw [e1]
  rw [min_eq_left h.1.le] at e2
  rw [max_eq_right h.1.le] at e4
  dsimp only
  obtain ⟨x, c1, c2, c3, c4⟩ := hf t a b (if b = E then E else (a + b) / 2) e3 e5
  rw [c1]
  exact ⟨x, rfl, e2.trans c2, c3.trans e4, hfin x ⟨e2.trans c2, c3.trans e4⟩ c4⟩

/-- C62 with an exact interpolation table, of either direction: the interaction energy follows the same law as without. -/
theorem C62_table_interaction_law_partial (U : TableUtil) (hf : Spec.ExactFind U) (dedx rate : ℝ → ℝ)
    (hg : U.f = interactionIntegrand dedx rate) (top E rnd : ℝ) (hT : Spec.ExactTable U top E)
    (h : Spec.TableAbove E U.lower) (htop : E ≤ top) (hpos : ∀ y ∈ Icc U.lower top, 0 < dedx y ∧ 0 < rate y)
    (hi : IntervalIntegrable (fun y => rate y / dedx y) volume U.lower top) (h0 : 0 < rnd) (h1 : rnd ≤ 1) :
    ∃ x, U.energyInteraction E rnd = .value x ∧ U.lower ≤ x ∧ x ≤ E ∧
      ∫ y in x..E, rate y / dedx y = min (-Real.log rnd) (∫ y in U.lower..E, rate y / dedx y) := by
  have hflip : ∀ x, U.lower ≤ x → x ≤ E → ∫ y in E..x, U.f y = ∫ y in x..E, rate y / dedx y := by
    intro x hx hxE
    refine integral_flip _ _ hxE ?_
    intro y hy
    obtain ⟨a, b⟩ := hpos y ⟨hx.trans hy.1, hy.2.trans htop⟩
    rw [hg, interactionIntegrand_neg a b]
  have hi' : IntervalIntegrable U.f volume U.lower top := by
    refine hi.neg.congr ?_
    intro y hy
    rw [uIoc_of_le (h.1.le.trans htop)] at hy
    obtain ⟨a, b⟩ := hpos y ⟨hy.1.le, hy.2⟩
    simp only [hg, interactionIntegrand_neg a b, Pi.neg_apply]
  have hlog : 0 ≤ -Real.log rnd := neg_nonneg.mpr (Real.log_nonpos h0.le h1)
  have hcalc : U.calculate E U.lower = ∫ y in U.lower..E, rate y / dedx y := by
    rw [← hflip _ le_rfl h.1.le, table_calculate U E h]
    have e1 := hT U.lower ⟨le_rfl, h.1.le⟩
    have e2 := hT E ⟨h.1.le, le_rfl⟩
    rw [e1, e2]
    cases U.reverse <;> simp only [if_true, if_false, Bool.false_eq_true]
    · rw [intervalIntegral.integral_same, sub_zero]
    · have hs1 : IntervalIntegrable U.f volume top E := hi'.mono_set (by
        rw [uIcc_of_le (h.1.le.trans htop), uIcc_of_ge htop]; exact Icc_subset_Icc h.1.le le_rfl)
      have hs2 : IntervalIntegrable U.f volume E U.lower := hi'.mono_set (by
        rw [uIcc_of_le (h.1.le.trans htop), uIcc_of_ge h.1.le]; exact Icc_subset_Icc le_rfl htop)
      have := intervalIntegral.integral_add_adjacent_intervals hs1 hs2
      linarith
  unfold TableUtil.energyInteraction
  by_cases hc : -Real.log rnd ≥ U.calculate E U.lower
  · rw [if_pos (Or.inr hc)]
    rw [hcalc] at hc
    exact ⟨U.lower, rfl, le_rfl, h.1.le, (min_eq_right hc).symm⟩
  · rw [if_neg (by rintro (e | e); exacts [h0.ne' e, hc e])]
    push Not at hc
    obtain ⟨x, e1, e2, e3, e4⟩ := table_upper_exact U hf top E _ hT h htop hi' hlog hc.le
    refine ⟨x, e1, e2, e3, ?_⟩
    rw [hcalc] at hc
    rw [← hflip x e2 e3, e4, min_eq_left hc.le]

/-! ## Where the code differs -/

lemma narrow_log_start {d : ℝ} (h : 0 < d) : narrow (Real.log 1) (Real.log (1 + d)) = false := by
  unfold narrow
  rw [decide_eq_false_iff_not, Real.log_one, abs_zero, zero_mul, not_le, abs_pos, sub_zero]
  exact (Real.log_pos (by linarith)).ne'

/-- C62, where the code differs: closely above the lower limit the two integrals of `EnergyInteraction` disagree about
whether the range is empty. The random number asks for an interaction in the range, and the second integral throws
`std::logic_error`. -/
theorem C62_narrow_error (search : IState → Option ℝ) (s : IState) :
    IntegralUtil.energyInteraction ⟨exactQ, search, fun _ => -(10 ^ 12), 1⟩ s (1 + 1 / 10 ^ 11) (Real.exp (-1)) = .logicError := by
  have hn : narrow (1 + 1 / 10 ^ 11) 1 = true := by
    unfold narrow computerPrecision
    rw [decide_eq_true_iff, abs_of_neg (by norm_num), abs_of_pos (by norm_num)]
    norm_num
  have hc : (IntegralUtil.calculate ⟨exactQ, search, fun _ => -(10 ^ 12), 1⟩ s (1 + 1 / 10 ^ 11) 1).1 = 10 := by
    have := calculate_eq ⟨exactQ, search, fun _ => -(10 ^ 12), 1⟩ s (1 + 1 / 10 ^ 11) one_pos
      (show (1 : ℝ) < 1 + 1 / 10 ^ 11 by norm_num) (narrow_log_start (by norm_num))
    rw [this]
    change -(∫ x in Real.log 1..Real.log (1 + 1 / 10 ^ 11), weighted true 0 (fun _ => -(10 ^ 12)) x) = 10
    rw [weighted_exp _ _ _ (Real.log_le_log one_pos (by norm_num)), Real.exp_log one_pos, Real.exp_log (by norm_num),
      intervalIntegral.integral_const]
    norm_num
  unfold IntegralUtil.energyInteraction
  dsimp only
  rw [hc, Real.log_exp, if_neg (by
    rintro (e | e)
    · exact (Real.exp_pos _).ne' e
    · norm_num at e)]
  rw [upperLimit_narrow _ _ _ _ one_pos (by norm_num) hn]
  norm_num

/-- C62, where the code differs: within a millionth of the lower limit the interpolated calculation multiplies the
integrand at the current energy (not at the mean energy, as the two terms of the sum suggest) with the width, here for
rates that grow with the energy and an exact table. The result exceeds the integral of the table, and the search for some
random numbers throws a `MathException`. -/
theorem C62_table_error (find : (target lo hi start : ℝ) → Option ℝ) :
    let U : TableUtil := ⟨interactionIntegrand (fun _ => 1) (fun y => y), fun y => (y ^ 2 - 1) / 2, false, 1, find⟩
    Spec.ExactTable U 2 2 ∧
    ∃ E rnd, 1 < E ∧ E < 1 + 1 / 10 ^ 6 ∧ 0 < rnd ∧ rnd < 1 ∧ U.energyInteraction E rnd = .mathError := by
  intro U
  have hf : ∀ y : ℝ, 0 < y → U.f y = -y := by
    intro y hy
    change interactionIntegrand (fun _ => 1) (fun y => y) y = -y
    rw [interactionIntegrand_neg (by norm_num) hy, div_one]
  refine ⟨?_, 1 + 1 / (2 * 10 ^ 6), Real.exp (-(1 / (2 * 10 ^ 6) * ((3 * (1 + 1 / (2 * 10 ^ 6)) + 1) / 4))), ?_, ?_,
    Real.exp_pos _, ?_, ?_⟩
  · intro y hy
    change (y ^ 2 - 1) / 2 = ∫ z in y..1, U.f z
    have hy1 : (1 : ℝ) ≤ y := hy.1
    rw [integral_flip U.f (fun z => z) hy1 (fun z hz => hf z (by linarith [hz.1])), integral_id]
    norm_num
  · norm_num
  · norm_num
  · rw [Real.exp_lt_one_iff]; norm_num
  · have hc : U.calculate (1 + 1 / (2 * 10 ^ 6)) 1 = 1 / (2 * 10 ^ 6) * (1 + 1 / (2 * 10 ^ 6)) := by
      unfold TableUtil.calculate
      rw [if_pos (by unfold IPREC; norm_num), hf _ (by norm_num)]
      norm_num
    have hlow : U.lower = 1 := rfl
    unfold TableUtil.energyInteraction
    rw [Real.log_exp, hlow, hc, if_neg (by
      rintro (e | e)
      · exact (Real.exp_pos _).ne' e
      · norm_num at e)]
    unfold TableUtil.upperLimit
    dsimp only
    rw [hlow, hc, if_neg (by norm_num), if_neg (by norm_num)]
    unfold TableUtil.search
    dsimp only
    rw [hlow]
    have hb : ∀ xacc n, bisection (fun x => U.table x - (U.table (1 + 1 / (2 * 10 ^ 6)) -
        if U.reverse = true then -(- -(1 / (2 * 10 ^ 6) * ((3 * (1 + 1 / (2 * 10 ^ 6)) + 1) / 4)))
        else - -(1 / (2 * 10 ^ 6) * ((3 * (1 + 1 / (2 * 10 ^ 6)) + 1) / 4)))) 1 (1 + 1 / (2 * 10 ^ 6)) xacc n =
        .error .notBracketed := by
      intro xacc n
      rw [(C51_bisection _ _ _ _ _).1]
      change 0 < ((1 ^ 2 - 1) / 2 - (((1 + 1 / (2 * 10 ^ 6)) ^ 2 - 1) / 2 - _)) * _
      have hrev : U.reverse = false := rfl
      simp only [hrev, Bool.false_eq_true, if_false]
      norm_num
    rw [hb]

/-- C62, where the code differs: a particle with the lifetime −1 (the neutral kaon) has a decay calculator, and it never
decays before the lower limit. -/
theorem C62_negative_lifetime (U : IntegralUtil) (hQ : Spec.ExactQuadrature U.Q) (dedx : ℝ → ℝ) (mass : ℝ)
    (hf : U.f = decayIntegrand dedx mass) (s : IState) (E rnd density : ℝ) (hm : 0 < mass) (hl : 0 < U.lower)
    (hE : Spec.WellAbove E U.lower) (hpos : ∀ y ∈ Icc U.lower E, 0 < dedx y) (h0 : 0 ≤ rnd) (h1 : rnd ≤ 1) (hd : 0 < density) :
    U.energyDecay (-1) s E rnd density = .value U.lower := by
  have hlog : 0 ≤ -Real.log rnd := neg_nonneg.mpr (Real.log_nonpos h0 h1)
  have hI : 0 ≤ (U.calculate s E U.lower).1 := by
    rw [calculate_exact U hQ s E hl hE, integral_flip U.f
      (fun y => mass / (SPEED * Real.sqrt (y ^ 2 - mass ^ 2) * dedx y)) hE.1.le
      (fun y hy => by rw [hf, decayIntegrand_neg (hpos y hy)])]
    refine intervalIntegral.integral_nonneg hE.1.le ?_
    intro y hy
    have hS : 0 < SPEED := by unfold SPEED; norm_num
    have := hpos y hy
    positivity
  unfold IntegralUtil.energyDecay
  dsimp only
  rw [if_pos]
  right
  have h2 : (U.calculate s E U.lower).1 / -1 ≤ 0 := by rw [div_neg, div_one]; linarith
  exact h2.trans (by positivity)

/-! ## Continuous randomisation -/

lemma gaussian_closed (N : Normal) (hN : Spec.Exact N) (mean sigma rnd a b : ℝ) (hs : 0 < sigma) (hab : a < b) (h0 : 0 ≤ rnd)
    (h1 : rnd ≤ 1) :
    a ≤ sampleFromGaussian N mean sigma rnd (.at a) (.at b) ∧ sampleFromGaussian N mean sigma rnd (.at a) (.at b) ≤ b := by
  have hlt : N.cdf ((a - mean) / sigma) < N.cdf ((b - mean) / sigma) := hN.mono (by gcongr)
  have pl := hN.pos ((a - mean) / sigma)
  have pu := hN.lt_one ((b - mean) / sigma)
  have p0 : N.cdf ((a - mean) / sigma) ≤
      N.cdf ((a - mean) / sigma) + (N.cdf ((b - mean) / sigma) - N.cdf ((a - mean) / sigma)) * rnd := by nlinarith
  have p1 : N.cdf ((a - mean) / sigma) + (N.cdf ((b - mean) / sigma) - N.cdf ((a - mean) / sigma)) * rnd ≤
      N.cdf ((b - mean) / sigma) := by nlinarith
  unfold sampleFromGaussian
  simp only [if_neg hs.ne', Normal.lower, Normal.upper]
  generalize N.cdf ((a - mean) / sigma) + (N.cdf ((b - mean) / sigma) - N.cdf ((a - mean) / sigma)) * rnd = p at p0 p1
  have hi := hN.inverse p (pl.trans_le p0) (p1.trans_lt pu)
  rw [← hi, hN.mono.le_iff_le] at p0 p1
  rw [div_le_iff₀ hs] at p0
  rw [le_div_iff₀ hs] at p1
  constructor <;> linarith

/-- C61: the randomised energy lies between the larger of lower limit and minimal energy, and the initial energy. Missing
is a variance of zero, see `C61_zero_variance`. -/
theorem C61_randomised_in_range_partial (N : Normal) (hN : Spec.Exact N) (variance : ℝ → ℝ → ℝ)
    (lower initial final rnd minEnergy : ℝ) (hv : 0 < variance initial final) (hl : max lower minEnergy < initial)
    (h0 : 0 ≤ rnd) (h1 : rnd ≤ 1) :
    lower ≤ energyRandomizeOf N variance lower initial final rnd minEnergy ∧
    minEnergy ≤ energyRandomizeOf N variance lower initial final rnd minEnergy ∧
    energyRandomizeOf N variance lower initial final rnd minEnergy ≤ initial := by
  unfold energyRandomizeOf
  rw [max_eq_left hv.le]
  have := gaussian_closed N hN final (Real.sqrt (variance initial final)) rnd _ _ (Real.sqrt_pos.mpr hv) hl h0 h1
  exact ⟨(le_max_left _ _).trans this.1, (le_max_right _ _).trans this.1, this.2⟩

/-- C61: without variance the energy is not changed. -/
theorem C61_no_variance (N : Normal) (variance : ℝ → ℝ → ℝ) (lower initial final rnd minEnergy : ℝ)
    (hv : variance initial final ≤ 0) : energyRandomizeOf N variance lower initial final rnd minEnergy = final := by
  unfold energyRandomizeOf sampleFromGaussian
  rw [max_eq_right hv, Real.sqrt_zero, if_pos rfl]

/-- C61, where the code differs: without variance an energy below the minimal energy stays there. -/
theorem C61_zero_variance (N : Normal) (rnd : ℝ) : energyRandomizeOf N (fun _ _ => 0) 1 10 3 rnd 5 = 3 :=
  C61_no_variance N _ _ _ _ _ _ le_rfl

/-- C61: larger random numbers give larger energies. -/
theorem C61_randomised_order (N : Normal) (hN : Spec.Exact N) (variance : ℝ → ℝ → ℝ)
    (lower initial final r r' minEnergy : ℝ) (hv : 0 < variance initial final) (hl : max lower minEnergy < initial)
    (h0 : 0 < r) (h : r < r') (h1 : r' < 1) :
    energyRandomizeOf N variance lower initial final r minEnergy <
      energyRandomizeOf N variance lower initial final r' minEnergy := by
  unfold energyRandomizeOf
  rw [max_eq_left hv.le]
  exact C53_gaussian_monotone N hN final _ r r' (Real.sqrt_pos.mpr hv) (.at (max lower minEnergy)) (.at initial) hl h0 h h1

/-- C61: the settings under which a randomisation can be made. -/
theorem C61_allowed (cuts : List (Option Bool)) : contRandAllowed cuts = true ↔ some true ∈ cuts := by
  unfold contRandAllowed
  rw [List.any_eq_true]
  constructor
  · rintro ⟨c, h1, h2⟩
    rw [decide_eq_true_iff] at h2
    rwa [h2] at h1
  · intro h
    exact ⟨_, h, by simp⟩

/-! ## Optional parts -/

/-- C60: a utility can be made exactly if interaction, displacement and time calculators are there. -/
theorem C60_required (c : Collection) :
    (∃ u, c.make = some u) ↔ c.interaction ≠ none ∧ c.displacement ≠ none ∧ c.time ≠ none := by
  unfold Collection.make
  cases c.interaction <;> cases c.displacement <;> cases c.time <;> simp

/-- C60: without a decay calculator the decay energy is zero and no number is drawn. With one, one number is drawn. -/
theorem C60_decay (c : Collection) (u : Utility) (h : c.make = some u) (ω : ℕ → ℝ) (pos : ℕ) (energy density : ℝ) :
    (c.decay = none → u.energyDecay ω pos energy density = (0, pos)) ∧
    (∀ f, c.decay = some f → u.energyDecay ω pos energy density = (f energy (ω pos) density, pos + 1)) := by
  have hu : u.decay = c.decay := by
    unfold Collection.make at h
    split at h
    · obtain rfl := Option.some.inj h; rfl
    · cases h
  unfold Utility.energyDecay
  constructor
  · intro e; rw [hu, e]
  · intro f e; rw [hu, e]

/-- C60: without a randomisation the energy is unchanged and no number is used. -/
theorem C60_randomisation (c : Collection) (u : Utility) (h : c.make = some u) (hc : c.contRand = none) (ω : ℕ → ℝ) (m : Memo)
    (initial final minEnergy : ℝ) : u.energyRandomize ω m initial final minEnergy = (final, m) := by
  have hu : u.contRand = c.contRand := by
    unfold Collection.make at h
    split at h
    · obtain rfl := Option.some.inj h; rfl
    · cases h
  unfold Utility.energyRandomize
  rw [hu, hc]

/-- C60: without scattering the directions are unchanged and no number is used, neither in a continuous step nor in a
stochastic loss. -/
theorem C60_scattering (c : Collection) (u : Utility) (h : c.make = some u) (hc : c.scattering = none) (ω : ℕ → ℝ) :
    (∀ m grammage initial final dir, u.directionsScatter ω m grammage initial final dir = (dir, dir, m)) ∧
    (∀ pos type initial final dir comp, u.directionDeflect ω pos type initial final dir comp = (dir, pos)) := by
  have hu : u.scattering = c.scattering := by
    unfold Collection.make at h
    split at h
    · obtain rfl := Option.some.inj h; rfl
    · cases h
  constructor
  · intros; unfold Utility.directionsScatter; rw [hu, hc]
  · intros; unfold Utility.directionDeflect; rw [hu, hc]

/-- C60: the required calculators get the arguments of the call. One number is drawn for an interaction. -/
theorem C60_calls (c : Collection) (u : Utility) (i : (ℝ → ℝ → ℝ) × (ℝ → ℝ → Loss)) (d : ℝ × (ℝ → ℝ → ℝ) × (ℝ → ℝ → ℝ))
    (t : ℝ → ℝ → ℝ → ℝ → ℝ) (hi : c.interaction = some i) (hd : c.displacement = some d) (ht : c.time = some t)
    (h : c.make = some u) (ω : ℕ → ℝ) (pos : ℕ) (a b g ρ : ℝ) :
    u.energyInteraction ω pos a = (i.1 a (ω pos), pos + 1) ∧ u.stochasticLoss a b = i.2 a b ∧ u.lowerLim = d.1 ∧
    u.lengthContinuous a b = d.2.1 a b ∧ u.energyDistance a g = d.2.2 a g ∧ u.timeElapsed a b g ρ = t a b g ρ := by
  unfold Collection.make at h
  rw [hi, hd, ht] at h
  obtain rfl := Option.some.inj h
  exact ⟨rfl, rfl, rfl, rfl, rfl, rfl⟩

-- a collection without optional parts, and one that is incomplete
example : ∃ c : Collection, ∃ u, c.make = some u ∧ c.decay = none ∧ c.contRand = none ∧ c.scattering = none :=
  ⟨⟨some (fun _ _ => 1, fun _ _ => ⟨.brems, 1, 1⟩), some (0, fun _ _ => 1, fun _ _ => 1), some (fun _ _ _ _ => 1), none, none,
    none⟩, _, rfl, rfl, rfl, rfl⟩
example : (Collection.mk none (some (0, fun _ _ => 1, fun _ _ => 1)) (some fun _ _ _ _ => 1) none none none).make = none := rfl

end Proposal
