import Verif.Props.CalculatorsTrack
import Verif.Props.Overshoot
import Verif.Props.Termination
import Verif.Props.Density
import Verif.Props.NormalQuantile
import Verif.Model.Assembled

/-!
# C146: the propagation with the utility made of cross sections
-/

open MeasureTheory Set

namespace Proposal

open Spec

/-! ## Integrals between two energies -/

lemma calculate_cases (U : IntegralUtil) (hQ : Spec.ExactQuadrature U.Q) (s : IState) (E F : ℝ) (hF : 0 < F) (h : F ≤ E) :
    (narrow (Real.log F) (Real.log E) = true ∧ (U.calculate s E F).1 = 0) ∨
    (narrow (Real.log F) (Real.log E) = false ∧ (U.calculate s E F).1 = ∫ y in E..F, U.f y) := by
  rcases h.eq_or_lt with rfl | h
  · left
    have hn : narrow (Real.log F) (Real.log F) = true := by
      unfold narrow computerPrecision
      rw [decide_eq_true_eq, sub_self, abs_zero]
      positivity
    have := calculate_same { U with lower := F } s hF
    exact ⟨hn, this⟩
  · cases hn : narrow (Real.log F) (Real.log E) with
    | true => exact Or.inl ⟨rfl, calculate_narrow { U with lower := F } s E hF h hn⟩
    | false =>
      refine Or.inr ⟨rfl, ?_⟩
      have e := calculate_eq { U with lower := F } s E hF h hn
      have : (U.calculate s E F).1 = -U.Q.opened (weighted true 0 U.f) (Real.log F) (Real.log E) := e
      rw [this, hQ.opened _ _ _ (Real.log_le_log hF h.le), weighted_exp _ _ _ (Real.log_le_log hF h.le), Real.exp_log hF,
        Real.exp_log (hF.trans h), one_mul, ← intervalIntegral.integral_symm]

lemma narrow_logs {l F E : ℝ} (hl : 0 < l) (h1 : l ≤ F) (h2 : F ≤ E) (h : narrow (Real.log l) (Real.log E) = true) :
    narrow (Real.log F) (Real.log E) = true := by
  have a1 := Real.log_le_log hl h1
  have a2 := Real.log_le_log (hl.trans_le h1) h2
  unfold narrow computerPrecision at *
  rw [decide_eq_true_eq] at *
  rw [abs_of_nonneg (by linarith)] at h
  rw [abs_of_nonneg (by linarith)]
  rcases abs_cases (Real.log l) with ⟨e1, e2⟩ | ⟨e1, e2⟩ <;> rcases abs_cases (Real.log F) with ⟨e3, e4⟩ | ⟨e3, e4⟩ <;>
    rw [e1] at h <;> rw [e3] <;> norm_num at h ⊢ <;> linarith

lemma displacement_nonpos (d : ℝ → ℝ) (y : ℝ) : displacementIntegrand d y ≤ 0 := by
  unfold displacementIntegrand
  split_ifs with h
  · exact div_nonpos_of_nonpos_of_nonneg (by norm_num) h.le
  · exact le_rfl

lemma time_nonpos (d : ℝ → ℝ) (mass y : ℝ) (hy : 0 ≤ y) : timeIntegrand d mass y ≤ 0 := by
  unfold timeIntegrand
  split_ifs with h
  · exact le_rfl
  · have hS : 0 < SPEED := by unfold SPEED; norm_num
    exact div_nonpos_of_nonpos_of_nonneg (mul_nonpos_of_nonpos_of_nonneg (displacement_nonpos d y) hy) (by positivity)

lemma calculate_nonneg (U : IntegralUtil) (hQ : Spec.ExactQuadrature U.Q) (s : IState) (E F : ℝ) (hF : 0 < F) (h : F ≤ E)
    (hf : ∀ y, F ≤ y → U.f y ≤ 0) : 0 ≤ (U.calculate s E F).1 := by
  rcases calculate_cases U hQ s E F hF h with ⟨_, e⟩ | ⟨_, e⟩
  · rw [e]
  · rw [e, integral_flip U.f (fun y => -U.f y) h (fun y _ => (neg_neg _).symm)]
    exact intervalIntegral.integral_nonneg h (fun y hy => by linarith [hf y hy.1])

/-! ## Calls of an integral that was used before -/

/-- The result of `Calculate` does not depend on what the `Integral` was used for before. -/
lemma calculate_state (U : IntegralUtil) (s s' : IState) (E F : ℝ) : (U.calculate s E F).1 = (U.calculate s' E F).1 := by
  unfold IntegralUtil.calculate Integrate integrateLog initLog
  split_ifs <;> try rfl
  all_goals first | contradiction | skip
  all_goals (dsimp only; split_ifs <;> rfl)

/-- The members of the prepared `Integral` that the search reads. -/
lemma upperLimit_state (U : IntegralUtil) (steps : ℕ) (precision : ℝ) (hs : U.search = refineUpperLimit U.Q steps precision)
    (s s' : IState) (E v : ℝ) (hl : 0 < U.lower) (hE : U.lower < E) (hv : 0 ≤ v) : U.upperLimit s E v = U.upperLimit s' E v := by
  cases h : narrow E U.lower with
  | true => rw [upperLimit_narrow U s E v hl hE h, upperLimit_narrow U s' E v hl hE h]
  | false =>
    unfold IntegralUtil.upperLimit
    rw [integrateRandom_prepared U s E v hl hE hv h, integrateRandom_prepared U s' E v hl hE hv h, hs]
    rfl

/-- C146: the results of the calculators do not depend on the calls before. -/
theorem C146_state (U : IntegralUtil) (steps : ℕ) (precision : ℝ) (hs : U.search = refineUpperLimit U.Q steps precision)
    (s s' : IState) (E : ℝ) (hl : 0 < U.lower) (hE : U.lower ≤ E) :
    (∀ F, (U.calculate s E F).1 = (U.calculate s' E F).1) ∧
    (∀ g, 0 ≤ g → U.lower < E → U.upperLimit s E g = U.upperLimit s' E g) ∧
    (∀ r, 0 ≤ r → r ≤ 1 → U.energyInteraction s E r = U.energyInteraction s' E r) ∧
    (∀ t r d, 0 < t → 0 ≤ d → 0 ≤ r → r ≤ 1 → U.energyDecay t s E r d = U.energyDecay t s' E r d) := by
  refine ⟨fun F => calculate_state U s s' E F, fun g hg hE => upperLimit_state U steps precision hs s s' E g hl hE hg, ?_, ?_⟩
  · intro r h0 h1
    have hn : 0 ≤ -Real.log r := neg_nonneg.mpr (Real.log_nonpos h0 h1)
    unfold IntegralUtil.energyInteraction
    dsimp only
    rw [calculate_state U s s' E U.lower]
    split_ifs with hc
    · rfl
    · push Not at hc
      rcases hE.eq_or_lt with rfl | hE
      · rw [calculate_same U s' hl] at hc
        linarith [hc.2]
      · exact upperLimit_state U steps precision hs _ _ E _ hl hE hn
  · intro t r d ht hd h0 h1
    have hn : 0 ≤ -Real.log r := neg_nonneg.mpr (Real.log_nonpos h0 h1)
    unfold IntegralUtil.energyDecay
    dsimp only
    rw [calculate_state U s s' E U.lower]
    split_ifs with hc
    · rfl
    · push Not at hc
      rcases hE.eq_or_lt with rfl | hE
      · rw [calculate_same U s' hl, zero_div] at hc
        linarith [hc.2, mul_nonneg hn hd]
      · exact upperLimit_state U steps precision hs _ _ E _ hl hE (by positivity)

/-! ## The ranges of the calculators -/

/-- What is assumed of the numerics and of the cross sections: the integrals and the search are exact, the lower limit is
positive, the inverse energy loss can be integrated, rates are not negative, and a loss sampled from a part of a rate is a
fraction of the energy. -/
structure Spec.GoodSettings (c : UtilitySettings) (lower : ℝ) : Prop where
  quadrature : ExactQuadrature c.Q
  search : ExactRefine c.search
  normal : Exact c.N
  lower_pos : 0 < lower
  integrable : ∀ E, lower ≤ E → IntervalIntegrable (displacementIntegrand c.dedx) volume lower E
  rates : ∀ E, lower ≤ E → ∀ r ∈ ratesOf c.cross E, 0 ≤ r.rate
  losses : ∀ E, lower ≤ E → ∀ r ∈ ratesOf c.cross E, ∀ left v, 0 < left → left ≤ r.rate →
    r.cross.stochasticLoss r.hash E left = .ok v → 0 ≤ v ∧ v ≤ 1
  lifetime : ∀ l, c.lifetime = some l → 0 < l

lemma sampleGo_part (rates : List Rate) : ∀ s, 0 ≤ s → ∀ r left, sampleGo rates s = some (r, left) →
    r ∈ rates ∧ 0 < left ∧ left ≤ r.rate := by
  induction rates with
  | nil => intro s _ r left h; cases h
  | cons x xs ih =>
    intro s hs r left h
    unfold sampleGo at h
    split_ifs at h with hc
    · obtain ⟨rfl, rfl⟩ := Prod.mk.inj (Option.some.inj h)
      exact ⟨List.mem_cons_self, by linarith, by linarith⟩
    · obtain ⟨h1, h2⟩ := ih _ (not_lt.mp hc) r left h
      exact ⟨List.mem_cons_of_mem _ h1, h2⟩

lemma sample_range (c : UtilitySettings) (lower : ℝ) (hc : GoodSettings c lower) (E rnd : ℝ) (hE : lower ≤ E) (h0 : 0 ≤ rnd) :
    0 ≤ (c.sample E rnd).v ∧ (c.sample E rnd).v ≤ 1 := by
  unfold UtilitySettings.sample sampleLoss
  dsimp only
  have hsum : 0 ≤ ((ratesOf c.cross E).map Rate.rate).sum := by
    apply List.sum_nonneg
    intro z hz
    obtain ⟨y, hy, rfl⟩ := List.mem_map.1 hz
    exact hc.rates E hE y hy
  cases hg : sampleGo (ratesOf c.cross E) (rnd * ((ratesOf c.cross E).map Rate.rate).sum) with
  | none =>
    dsimp only
    split_ifs <;> norm_num
  | some p =>
    obtain ⟨r, left⟩ := p
    obtain ⟨h1, h2, h3⟩ := sampleGo_part _ _ (mul_nonneg h0 hsum) r left hg
    dsimp only
    cases hl : r.cross.stochasticLoss r.hash E left with
    | error e => norm_num [Except.map]
    | ok v => exact hc.losses E hE r h1 left v h2 h3 hl

lemma orElse_range (o : UOut) (a E : ℝ) (ha : a ≤ E) (h : ∀ x, o = .value x → a ≤ x ∧ x ≤ E) : a ≤ o.orElse E ∧ o.orElse E ≤ E := by
  cases o with
  | value x => exact h x rfl
  | _ => exact ⟨ha, le_rfl⟩

/-- With exact numerics the search gives the energy where the integral has the wanted value. -/
lemma upperLimit_inverse (U : IntegralUtil) (hQ : ExactQuadrature U.Q) (hr : ExactRefine U.search) (s : IState) (E v : ℝ)
    (hl : 0 < U.lower) (hE : U.lower < E) (n1 : narrow E U.lower = false)
    (n2 : narrow (Real.log U.lower) (Real.log E) = false) (h0 : 0 ≤ v) (h1 : v < ∫ y in E..U.lower, U.f y) :
    ∃ x, U.upperLimit s E v = .value x ∧ U.lower ≤ x ∧ x ≤ E ∧ ∫ y in E..x, U.f y = v := by
  have hlog : Real.log U.lower ≤ Real.log E := Real.log_le_log hl hE.le
  have hE0 := hl.trans hE
  have hsaved : (preparedState U s E v).saved = -∫ y in E..U.lower, U.f y := by
    rw [prepared_saved U (exact_mirrored U.Q hQ) s E v hl hE, hQ.opened _ _ _ hlog, weighted_exp _ _ _ hlog, Real.exp_log hl,
      Real.exp_log hE0, one_mul, ← intervalIntegral.integral_symm]
  set I := ∫ y in E..U.lower, U.f y with hI
  have hpos : 0 < I := h0.trans_lt h1
  have hrnd : (preparedState U s E v).rnd = v / I := by
    change ratioOf (-v) (preparedState U s E v).saved = _
    rw [hsaved]
    unfold ratioOf
    rcases h0.eq_or_lt with rfl | hv
    · simp
    · have a2 : ¬ (v / I > 1) := not_lt.mpr ((div_le_one hpos).mpr h1.le)
      have a3 : ¬ (v / I < 0) := not_lt.mpr (div_nonneg hv.le hpos.le)
      have a4 : -v < 0 := by linarith
      simp only [neg_div_neg_eq, a2, a3, a4, if_true, if_false]
  obtain ⟨y, hy, hy1, hy2, hy3⟩ := hr (preparedState U s E v) hlog (by rw [hrnd]; positivity)
    (by rw [hrnd]; exact (div_le_one hpos).mpr h1.le)
  have c1 : Real.log U.lower ≤ y := hy1
  have c2 : y ≤ Real.log E := hy2
  refine ⟨Real.exp (Real.log U.lower + Real.log E - y), ?_, ?_, ?_, ?_⟩
  · rw [upperLimit_eq U s E v hl hE h0 n1 n2 (by rw [hsaved]; linarith), hy]
  · calc U.lower = Real.exp (Real.log U.lower) := (Real.exp_log hl).symm
      _ ≤ _ := Real.exp_le_exp.mpr (by linarith)
  · calc Real.exp (Real.log U.lower + Real.log E - y) ≤ Real.exp (Real.log E) := Real.exp_le_exp.mpr (by linarith)
      _ = E := Real.exp_log hE0
  · have := upper_core (weighted true 0 U.f) U.f Real.exp 1 (Real.log U.lower) (Real.log E) E U.lower (v / I) y true one_ne_zero
      hlog (fun u w _ h _ => weighted_exp U.f u w h) (by simp [Real.exp_log hE0]) (by simp [Real.exp_log hl]) c1 c2 (by
        rw [← hrnd]; exact hy3)
    rw [if_pos rfl] at this
    rw [this, ← hI, div_mul_cancel₀ _ hpos.ne']

/-- The energy after a length shorter than the one to the energy `e` is above `e`. -/
lemma distance_between (U : IntegralUtil) (hQ : ExactQuadrature U.Q) (hr : ExactRefine U.search) (s : IState) (E e g : ℝ)
    (hl : 0 < U.lower) (he : U.lower ≤ e) (hE : e ≤ E) (hi : IntervalIntegrable U.f volume U.lower E) (hf : ∀ y, U.f y ≤ 0)
    (h0 : 0 ≤ g) (h1 : g < (U.calculate s E e).1) (x : ℝ) (hx : U.upperLimit s E g = .value x) : e ≤ x ∧ x ≤ E := by
  have he0 := hl.trans_le he
  rcases calculate_cases U hQ s E e he0 hE with ⟨_, h⟩ | ⟨hn, h⟩
  · rw [h] at h1; linarith
  have hlt : e < E := by
    rcases hE.eq_or_lt with rfl | hE
    · rw [h, intervalIntegral.integral_same] at h1; linarith
    · exact hE
  have hlE : U.lower < E := he.trans_lt hlt
  have hn' : narrow (Real.log U.lower) (Real.log E) = false := by
    by_contra hc
    rw [Bool.not_eq_false] at hc
    rw [narrow_logs hl he hE hc] at hn
    cases hn
  have hsub : ∀ a b, U.lower ≤ a → a ≤ b → b ≤ E → IntervalIntegrable U.f volume a b := fun a b h1 h2 h3 =>
    hi.mono_set (by rw [uIcc_of_le hlE.le, uIcc_of_le h2]; exact Icc_subset_Icc h1 h3)
  have hmono : ∀ a b, U.lower ≤ a → a ≤ b → b ≤ E → ∫ y in E..b, U.f y ≤ ∫ y in E..a, U.f y := by
    intro a b h1 h2 h3
    rw [← intervalIntegral.integral_add_adjacent_intervals (hsub b E (h1.trans h2) h3 le_rfl).symm (hsub a b h1 h2 h3).symm]
    have : 0 ≤ ∫ y in b..a, U.f y := by
      rw [integral_flip U.f (fun y => -U.f y) h2 (fun y _ => (neg_neg _).symm)]
      exact intervalIntegral.integral_nonneg h2 (fun y _ => by linarith [hf y])
    linarith
  cases hw : narrow E U.lower with
  | true =>
    rw [upperLimit_narrow U s E g hl hlE hw] at hx
    split_ifs at hx
    obtain rfl := UOut.value.inj hx
    exact ⟨hE, le_rfl⟩
  | false =>
    rw [h] at h1
    obtain ⟨x', e1, e2, e3, e4⟩ := upperLimit_inverse U hQ hr s E g hl hlE hw hn' h0 (h1.trans_le (hmono _ _ le_rfl he hE))
    rw [hx] at e1
    obtain rfl := UOut.value.inj e1
    refine ⟨?_, e3⟩
    by_contra hlt
    have := hmono x e e2 (not_le.mp hlt).le hE
    linarith

lemma neg_log_nonneg {r : ℝ} (h0 : 0 ≤ r) (h1 : r < 1) : 0 ≤ -Real.log r := neg_nonneg.mpr (Real.log_nonpos h0 h1.le)

lemma utility_some {c : UtilitySettings} {u : Utility} (h : c.utility = some u) :
    ∃ lower, lowerLimOf c.cross = some lower ∧ (c.contRand = true → some true ∈ c.cuts) ∧ (c.collection lower).make = some u := by
  unfold UtilitySettings.utility at h
  cases hl : lowerLimOf c.cross with
  | none => rw [hl] at h; cases h
  | some l =>
    rw [hl] at h
    simp only [Option.bind_eq_bind, Option.bind_some] at h
    split_ifs at h with hc
    refine ⟨l, rfl, fun hr => ?_, h⟩
    rw [← C61_allowed]
    simpa [hr] using hc

/-- C146: the utility made of cross sections keeps to the ranges that the properties of a track need. -/
theorem C146_good_utility (c : UtilitySettings) (u : Utility) (hu : c.utility = some u) (lower : ℝ)
    (hlower : lowerLimOf c.cross = some lower) (hc : GoodSettings c lower) : u.lowerLim = lower ∧ GoodUtility u := by
  obtain ⟨l, hl, _, hm⟩ := utility_some hu
  obtain rfl : lower = l := Option.some.inj (hlower.symm.trans hl)
  obtain rfl := Option.some.inj hm
  have hl0 := hc.lower_pos
  have hM := exact_mirrored c.Q hc.quadrature
  have hR := exact_inRange c.search hc.search
  refine ⟨rfl, ?_, ?_, ?_, ?_, ?_, ?_, ?_⟩
  · intro f hf E r d (hE : lower ≤ E) h0 h1 hd
    change c.lifetime.map _ = some f at hf
    cases ht : c.lifetime with
    | none => rw [ht] at hf; cases hf
    | some t =>
      rw [ht] at hf
      obtain rfl := Option.some.inj hf
      have ht0 := hc.lifetime t ht
      refine (orElse_range _ lower E hE fun x h => ?_).2
      unfold IntegralUtil.energyDecay at h
      dsimp only at h
      split_ifs at h with hh
      · obtain rfl := UOut.value.inj h
        exact ⟨le_rfl, hE⟩
      · push Not at hh
        have hn := neg_log_nonneg h0 h1
        exact upperLimit_range (c.decay lower) hM hR c.junk _ E _ hl0 hE (by positivity) ((lt_div_iff₀ ht0).mp hh.2) x h
  · intro E r (hE : lower ≤ E) h0 h1
    refine (orElse_range _ lower E hE fun x h => ?_).2
    unfold IntegralUtil.energyInteraction at h
    dsimp only at h
    split_ifs at h with hh
    · obtain rfl := UOut.value.inj h
      exact ⟨le_rfl, hE⟩
    · push Not at hh
      exact upperLimit_range (c.interaction lower) hM hR c.junk _ E _ hl0 hE (neg_log_nonneg h0 h1) hh.2 x h
  · intro E r (hE : lower ≤ E) h0 _
    exact sample_range c lower hc E r hE h0
  · intro f hf E e r m (hm : lower ≤ m) he hE h0 h1
    change (if c.contRand then _ else none) = some f at hf
    split_ifs at hf
    obtain rfl := Option.some.inj hf
    by_cases hv : 0 < ((c.randomisation lower).calculate c.junk E e).1
    · have hlt : m < E := by
        rcases (he.trans hE).eq_or_lt with rfl | h
        · obtain rfl : e = m := le_antisymm hE he
          have := calculate_same { c.randomisation lower with lower := e } c.junk (hl0.trans_le hm)
          exact absurd this hv.ne'
        · exact h
      have := C61_randomised_in_range_partial c.N hc.normal (fun E e => ((c.randomisation lower).calculate c.junk E e).1) lower E e
        r m hv (max_lt (hm.trans_lt hlt) hlt) h0 h1.le
      exact ⟨this.2.1, this.2.2⟩
    · rw [C61_no_variance _ _ _ _ _ _ _ (not_lt.mp hv)]
      exact ⟨he, hE⟩
  · intro E e (he : lower ≤ e) hE
    exact calculate_nonneg (c.displacement lower) hc.quadrature c.junk E e (hl0.trans_le he) hE fun y _ => displacement_nonpos _ y
  · intro E e g (he : lower ≤ e) hE h0 hg
    exact orElse_range _ e E hE fun x hx => distance_between (c.displacement lower) hc.quadrature hc.search c.junk E e g hl0 he hE
      (hc.integrable E (he.trans hE)) (displacement_nonpos _) h0 hg x hx
  · intro E e g ρ (he : lower ≤ e) hE hg hρ
    change 0 ≤ (if c.timeExact then exactTime (fun E e => ((c.time lower).calculate c.junk E e).1) else approximateTime) E e g ρ
    split_ifs
    · exact div_nonneg (calculate_nonneg (c.time lower) hc.quadrature c.junk E e (hl0.trans_le he) hE
        fun y hy => time_nonpos _ _ y ((hl0.trans_le he).le.trans hy)) hρ
    · have hS : 0 < SPEED := by unfold SPEED; norm_num
      unfold approximateTime
      positivity

/-! ## Densities -/

/-- C146: a homogeneous density gives lengths and grammages that are not negative. -/
theorem C146_homogeneous (ρ : ℝ) (h : 0 < ρ) : GoodDensity (homogeneousDensity ρ) := by
  refine ⟨fun p d g m x hg hx => ?_, fun p d l hl => ?_, fun _ => h.le⟩
  · obtain rfl := Option.some.inj hx
    exact div_nonneg hg h.le
  · change 0 ≤ homogeneousCalculate ρ l
    unfold homogeneousCalculate homogeneousIntegrate
    rw [mul_zero, sub_zero]
    positivity

/-! ## The track -/

/-- A sector whose utility is made of cross sections and whose density is homogeneous. -/
def Spec.Assembled (s : Sector) (c : UtilitySettings) (lower ρ : ℝ) : Prop :=
  c.utility = some s.util ∧ lowerLimOf c.cross = some lower ∧ GoodSettings c lower ∧ s.dens = homogeneousDensity ρ ∧ 0 < ρ

lemma assembled_good {s : Sector} {c : UtilitySettings} {lower ρ : ℝ} (h : Assembled s c lower ρ) :
    s.util.lowerLim = lower ∧ GoodUtility s.util ∧ GoodDensity s.dens := by
  obtain ⟨h1, h2, h3, h4, h5⟩ := h
  obtain ⟨h6, h7⟩ := C146_good_utility c s.util h1 lower h2 h3
  exact ⟨h6, h7, by rw [h4]; exact C146_homogeneous ρ h5⟩

/-- C146: with sectors made of cross sections and homogeneous densities, along the track of a regular run distance and time do not
decrease and the energy does not increase. Missing: runs that are not regular. -/
theorem C146_track_partial (a : PropArgs) (init : PState) (pos : ℕ) (q : Prop') (hω : UnitRandoms a.ω)
    (hs : ∀ s ∈ a.sectors, ∃ c lower ρ, Assembled s c lower ρ ∧ lower ≤ a.minEnergy) (hmin : 0 ≤ a.minEnergy)
    (hinit : a.minEnergy ≤ init.energy) (hreg : Regular a init pos) (h : Reachable a init pos q) :
    List.IsChain Later q.track ∧ q.track.Pairwise (fun x y => y.state.energy ≤ x.state.energy) := by
  have hu : ∀ s ∈ a.sectors, GoodUtility s.util := fun s hm => by
    obtain ⟨c, l, ρ, h, _⟩ := hs s hm
    exact (assembled_good h).2.1
  have hρ : ∀ s ∈ a.sectors, GoodDensity s.dens := fun s hm => by
    obtain ⟨c, l, ρ, h, _⟩ := hs s hm
    exact (assembled_good h).2.2
  have hlow : ∀ s ∈ a.sectors, s.util.lowerLim ≤ a.minEnergy := fun s hm => by
    obtain ⟨c, l, ρ, h, h'⟩ := hs s hm
    rw [(assembled_good h).1]; exact h'
  exact ⟨C13_distance_time_energy_partial a init pos q hω hu hρ hlow hmin hinit hreg h,
    C14_energy_never_increases_partial a init pos q hω hu hρ hlow hmin hinit hreg h⟩

/-! ## A contained particle -/

/-- A particle that flies straight on in one sector and cannot reach its border: without scattering, with a homogeneous density, and
with a border that is everywhere on its way farther than the remaining distance and than every step. -/
structure Spec.Contained (a : PropArgs) (init : PState) (s : Sector) (ρ border : ℝ) : Prop where
  sectors : a.sectors = [s]
  straight : s.util.scattering = none
  density : s.dens = homogeneousDensity ρ
  density_pos : 0 < ρ
  inside : ∀ x, 0 ≤ x → init.distance + x ≤ a.maxDistance → s.geo.isInside (init.position + x • init.direction) init.direction
  far : ∀ x, 0 ≤ x → init.distance + x ≤ a.maxDistance → border ≤ (s.geo.dist (init.position + x • init.direction) init.direction).1
  distance : a.maxDistance - init.distance + PARTICLE_POSITION_RESOLUTION < border
  steps : ∀ E e, a.minEnergy ≤ e → e ≤ E → E ≤ init.energy →
    s.util.lengthContinuous E e / ρ + PARTICLE_POSITION_RESOLUTION < border

lemma homogeneous_consistent (ρ : ℝ) (h : 0 < ρ) : ConsistentDensity (homogeneousDensity ρ) := by
  intro p dir g d m hg
  refine ⟨g / ρ, rfl, ?_⟩
  change g ≤ homogeneousCalculate ρ d at hg
  unfold homogeneousCalculate homogeneousIntegrate at hg
  rw [div_le_iff₀ h]
  linarith

/-- The state of a contained particle. -/
def OnRay (a : PropArgs) (init : PState) (s : Sector) (q : Prop') : Prop :=
  q.sector = s ∧ init.distance ≤ q.state.distance ∧ q.state.distance ≤ a.maxDistance ∧ q.state.energy ≤ init.energy ∧
  q.state.position = init.position + (q.state.distance - init.distance) • init.direction ∧ q.state.direction = init.direction ∧
  (q.running = true → a.minEnergy ≤ q.state.energy)

section contained

variable {a : PropArgs} {init : PState} {s : Sector} {ρ border : ℝ}

lemma contained_step (hC : Contained a init s ρ border) (hω : UnitRandoms a.ω) (hu : GoodUtility s.util)
    (hlow : s.util.lowerLim ≤ a.minEnergy) (hmin : 0 ≤ a.minEnergy) (q : Prop') (h : OnRay a init s q) (hrun : q.running = true)
    (f : Finished) (hf : loop (envOf a q) (MAX_STEPS + 1) (Trial.init (envOf a q) q.sector (eStochOf a q).2) = some (.ok f)) :
    f.numSteps ≤ MAX_STEPS ∧ f.distance ≤ a.maxDistance - q.state.distance ∧ f.sector = s ∧ f.type ≠ .border ∧
      f.mean = init.direction ∧ f.new = init.direction := by
  obtain ⟨h1, h2, h3, h4, h5, h6, h7⟩ := h
  have h7 := h7 hrun
  have hd : GoodDensity s.dens := by rw [hC.density]; exact C146_homogeneous ρ hC.density_pos
  have hmax : eMinOf a q = a.minEnergy := by unfold eMinOf; rw [h1]; exact max_eq_left hlow
  obtain ⟨e1, e2⟩ := eNext_range a q hω (by rw [h1]; exact hu) (by rw [h1]; exact hd) (by rw [hmax]; exact h7) (by linarith)
  rw [hmax] at e1
  have hx0 : 0 ≤ q.state.distance - init.distance := by linarith
  have hx1 : init.distance + (q.state.distance - init.distance) ≤ a.maxDistance := by linarith
  have hin : q.sector.geo.isInside (envOf a q).state.position (envOf a q).state.direction := by
    change q.sector.geo.isInside q.state.position q.state.direction
    rw [h1, h5, h6]; exact hC.inside _ hx0 hx1
  obtain ⟨f', hf', hn⟩ := C68_two_trials (envOf a q) q.sector (eStochOf a q).2 (by rw [h1]; exact hC.straight)
    (by rw [h1, hC.density]; exact homogeneous_consistent ρ hC.density_pos) hin h3 (by show eNextOf a q ≠ -1; linarith)
  have := loop_mono (envOf a q) 2 (MAX_STEPS + 1) (Trial.init (envOf a q) q.sector (eStochOf a q).2)
    (by rw [hf']; simp) (by unfold MAX_STEPS; omega)
  rw [this, hf'] at hf
  obtain rfl : f' = f := by simpa using hf
  have hn' : f'.numSteps ≤ MAX_STEPS := by unfold MAX_STEPS; omega
  have hmd : (envOf a q).maxDist = a.maxDistance - q.state.distance := rfl
  have hscat : ∀ (t : Trial) (p : Proposed), t.sector = s → (scat (envOf a q) t p).1 = init.direction ∧
      (scat (envOf a q) t p).2.1 = init.direction := by
    intro t p ht
    unfold scat Utility.directionsScatter
    rw [ht, hC.straight]
    exact ⟨h6, h6⟩
  obtain ⟨t, ⟨i1, i2, i3⟩, h' | h'⟩ := loop_inv (e := envOf a q)
    (fun t => t.sector = s ∧ t.gNext = s.util.lengthContinuous q.state.energy (eNextOf a q) ∧
      ((t.energy = eNextOf a q ∧ t.distance = -1) ∨ (t.energy = -1 ∧ t.distance ≤ a.maxDistance - q.state.distance)))
    (fun t t' ht h => by
      obtain ⟨p, _, _, _, h⟩ := trial_again h
      rcases h with ⟨_, hc, he, hd, h, _⟩ | ⟨_, hc, he, hd, h, _⟩
      · have hs : t'.sector = s := by
          obtain ⟨_, l1, l2, h', _⟩ := (C08_current_sector _ _ _).1 _ hc
          have : t'.sector ∈ (envOf a q).sectors := by rw [h']; simp
          simpa [envOf, hC.sectors] using this
        refine ⟨hs, ?_, Or.inl ⟨he, hd⟩⟩
        rw [h, hs]; rfl
      · exact ⟨hc.trans ht.1, h.trans ht.2.1, Or.inr ⟨he, by rw [hd]; exact min_le_right _ _⟩⟩)
    2 _ ⟨h1, by simp [Trial.init, h1, envOf], Or.inl ⟨rfl, rfl⟩⟩ _ hf'
  swap
  · obtain ⟨_, hx, _⟩ := h'; cases hx
  obtain ⟨f'', hx, hdone⟩ := h'
  obtain rfl := Except.ok.inj hx
  obtain ⟨p, hp, k1, k2, k3, _, _, h⟩ := trial_done hdone
  have hdtb : border ≤ dtbOf (envOf a q) t p := by
    unfold dtbOf distanceToBorder
    rw [i1, (hscat t p i1).1]
    change border ≤ List.foldl _ _ a.sectors
    rw [hC.sectors]
    simp only [List.foldl_cons, List.foldl_nil, gt_iff_lt, lt_self_iff_false, if_false]
    change border ≤ (s.geo.dist q.state.position init.direction).1
    rw [h5]
    exact hC.far _ hx0 hx1
  have hlen := hC.steps q.state.energy (eNextOf a q) e1 e2 h4
  have hshort : ∀ d, p.distance = some d → d + PARTICLE_POSITION_RESOLUTION < border := by
    intro d hpd
    rcases propose_cases (envOf a q) t with ⟨hne, _, h'⟩ | ⟨ha, hx, _, h'⟩ | ⟨_, hx, hle, h'⟩ | ⟨n1, n2, h'⟩
    · rw [hp] at h'
      obtain rfl := Option.some.inj h'
      rw [i1, hC.density] at hpd
      rw [← Option.some.inj hpd]
      rcases i3 with i3 | i3
      · rw [i3.1]; exact hlen
      · exact absurd i3.1 hne
    · rw [hp] at h'
      obtain rfl := Option.some.inj h'
      rw [← Option.some.inj hpd]
      rcases i3 with i3 | i3
      · exact absurd i3.2 hx
      · linarith [i3.2, hC.distance]
    · rw [hp] at h'
      obtain rfl := Option.some.inj h'
      rw [i1, hC.density] at hpd
      rw [← Option.some.inj hpd, i2]
      exact hlen
    · rw [hp] at h'; cases h'
  refine ⟨hn', ?_, k1.trans i1, ?_, k2.trans (hscat t p i1).1, k3.trans (hscat t p i1).2⟩ <;>
    rcases h with ⟨h, _⟩ | ⟨_, _, _, _, h⟩
  · omega
  · rcases h with ⟨ht, _, _, h, _⟩ | ⟨ht, _, h, _⟩ | ⟨_, _, d, hpd, hdd⟩
    · exact h
    · exact h.le
    · exfalso
      have := (abs_le.1 hdd).1
      linarith [hshort d hpd]
  · omega
  · rcases h with ⟨ht, _, _, h, _⟩ | ⟨ht, _, h, _⟩ | ⟨_, _, d, hpd, hdd⟩
    · rw [ht]; simp
    · rw [ht]; simp
    · exfalso
      have := (abs_le.1 hdd).1
      linarith [hshort d hpd]

lemma contained_inv (hC : Contained a init s ρ border) (hω : UnitRandoms a.ω) (hu : GoodUtility s.util)
    (hlow : s.util.lowerLim ≤ a.minEnergy) (hmin : 0 ≤ a.minEnergy) (hinit : a.minEnergy ≤ init.energy)
    (hdist : init.distance ≤ a.maxDistance) {pos : ℕ} (q : Prop') (h : Reachable a init pos q) : OnRay a init s q := by
  have hd : GoodDensity s.dens := by rw [hC.density]; exact C146_homogeneous ρ hC.density_pos
  have hmem : ∀ t ∈ a.sectors, t = s := fun t ht => by simpa [hC.sectors] using ht
  induction h with
  | start q hq =>
    obtain ⟨h1, h2, _, h4⟩ := propInit_ok hq
    refine ⟨by simpa [hC.sectors] using h2, ?_, ?_, ?_, ?_, ?_, ?_⟩ <;> rw [h1]
    · exact hdist
    · ext <;> simp
    · exact fun _ => hinit
  | step q q' hreach hrun hs ih =>
    obtain ⟨r, hr, hq⟩ := propStep_ok hs
    have hstep := contained_step hC hω hu hlow hmin q ih hrun
    obtain ⟨h1, h2, h3, h4, h5, h6, h7⟩ := ih
    have h7 := h7 hrun
    have hmax : eMinOf a q = a.minEnergy := by unfold eMinOf; rw [h1]; exact max_eq_left hlow
    obtain ⟨r1, _, r3, r4⟩ := advance_range_of hω (fun t ht => by rw [hmem t ht]; exact hu)
      (fun t ht => by rw [hmem t ht]; exact hd) (fun t ht => by rw [hmem t ht]; exact hlow)
      (by rw [h1, hC.sectors]; simp) (fun f hf => (hstep f hf).1) h3 (by rw [hmax]; exact h7) (by linarith) hr
    obtain ⟨f, hf, rfl⟩ := advanceOf_ok hr
    obtain ⟨_, k2, k3, k4, k5, k6⟩ := hstep f hf
    set r := finish (envOf a q) (decide (nextOf a q = .minimalE)) (eMinOf a q) f with hrdef
    have p1 : r.state.distance = q.state.distance + f.distance := rfl
    have p2 : r.state.position = init.position + (r.state.distance - init.distance) • init.direction := by
      have : r.state.position = q.state.position + f.distance • f.mean := rfl
      rw [this, h5, k5, p1]
      ext <;> simp <;> ring
    have p3 : r.state.direction = init.direction := k6
    have p4 : r.sector = s := k3
    have hray : ∀ st : PState, st.distance = r.state.distance → st.energy ≤ r.state.energy → st.position = r.state.position →
        st.direction = r.state.direction → init.distance ≤ st.distance ∧ st.distance ≤ a.maxDistance ∧ st.energy ≤ init.energy ∧
        st.position = init.position + (st.distance - init.distance) • init.direction ∧ st.direction = init.direction := by
      intro st g1 g2 g3 g4
      rw [g1, g3, g4]
      exact ⟨by linarith, by linarith, by linarith, p2, p3⟩
    rcases react_ok hq with ⟨_, _, hsec, hst, hr2, _⟩ | ⟨_, _, hsec, hst, hr2, _⟩ | ⟨_, _, hsec, hst, hr2, _⟩ |
        ⟨_, hsec, hst, hr2, _⟩ | ⟨hb, _⟩
    · have hkd := doStochastic_keeps a.ω r.sector.util r.state r.pos
      have hloss := hu.loss_range r.state.energy (a.ω r.pos) (by linarith) (hω _).1 (hω _).2
      obtain ⟨g1, g2, g3, g4, g5⟩ := hray q'.state (by rw [hst, hkd.2.2.1]) (by
        rw [hst, hkd.2.2.2.2, p4]
        nlinarith [hloss.1]) (by rw [hst, hkd.1]) (by
        rw [hst]
        unfold doStochastic Utility.directionDeflect
        rw [p4, hC.straight])
      refine ⟨hsec.trans p4, g1, g2, g3, g4, g5, fun hrun' => ?_⟩
      have := hr2.1 hrun'
      rw [hmax] at this
      exact this.le
    all_goals first
      | exact absurd hb k4
      | (obtain ⟨g1, g2, g3, g4, g5⟩ := hray q'.state (by rw [hst]) (by rw [hst]) (by rw [hst]) (by rw [hst])
         exact ⟨hsec.trans p4, g1, g2, g3, g4, g5, fun hrun' => by rw [hrun'] at hr2; cases hr2⟩)

/-- C146: the runs of a contained particle are regular. -/
theorem C146_regular (hC : Contained a init s ρ border) (hω : UnitRandoms a.ω) (hu : GoodUtility s.util)
    (hlow : s.util.lowerLim ≤ a.minEnergy) (hmin : 0 ≤ a.minEnergy) (hinit : a.minEnergy ≤ init.energy)
    (hdist : init.distance ≤ a.maxDistance) (pos : ℕ) : Regular a init pos where
  noEmergency q f hq hrun hf :=
    (contained_step hC hω hu hlow hmin q (contained_inv hC hω hu hlow hmin hinit hdist q hq) hrun f hf).1
  noOvershoot q hq := (contained_inv hC hω hu hlow hmin hinit hdist q hq).2.2.1

lemma contained_progress (hC : Contained a init s ρ border) (hω : UnitRandoms a.ω) (hu : GoodUtility s.util)
    (hlow : s.util.lowerLim ≤ a.minEnergy) (hmin : 0 ≤ a.minEnergy) (q : Prop') (h : OnRay a init s q) (hrun : q.running = true) :
    ∃ q', propStep a q = .ok q' := by
  have hstep := contained_step hC hω hu hlow hmin q h hrun
  obtain ⟨h1, h2, h3, h4, h5, h6, h7⟩ := h
  have hin : q.sector.geo.isInside (envOf a q).state.position (envOf a q).state.direction := by
    change q.sector.geo.isInside q.state.position q.state.direction
    rw [h1, h5, h6]; exact hC.inside _ (by linarith) (by linarith)
  have hd : GoodDensity s.dens := by rw [hC.density]; exact C146_homogeneous ρ hC.density_pos
  have hmax : eMinOf a q = a.minEnergy := by unfold eMinOf; rw [h1]; exact max_eq_left hlow
  obtain ⟨e1, _⟩ := eNext_range a q hω (by rw [h1]; exact hu) (by rw [h1]; exact hd) (by rw [hmax]; exact h7 hrun)
    (by linarith [h7 hrun])
  obtain ⟨f, hf, _⟩ := C68_two_trials (envOf a q) q.sector (eStochOf a q).2 (by rw [h1]; exact hC.straight)
    (by rw [h1, hC.density]; exact homogeneous_consistent ρ hC.density_pos) hin h3 (by show eNextOf a q ≠ -1; linarith)
  have := loop_mono (envOf a q) 2 (MAX_STEPS + 1) (Trial.init (envOf a q) q.sector (eStochOf a q).2)
    (by rw [hf]; simp) (by unfold MAX_STEPS; omega)
  rw [hf] at this
  have hb := (hstep f this).2.2.2.1
  unfold propStep advanceOf advance
  rw [this]
  simp only [Option.map_some, Except.map]
  unfold react
  have ht : (finish (envOf a q) (decide (nextOf a q = .minimalE)) (eMinOf a q) f).type = f.type := rfl
  simp only [ht]
  cases hty : f.type with
  | interaction => cases nextOf a q <;> exact ⟨_, rfl⟩
  | maxDistance => exact ⟨_, rfl⟩
  | border => exact absurd hty hb

private lemma reachable_of_after {pos n : ℕ} {q : Prop'} (h : After a init pos n q) : Reachable a init pos q := by
  induction h with
  | start q hq => exact .start q hq
  | step n q q' _ hr hs ih => exact .step q q' ih hr hs

lemma contained_energy (hC : Contained a init s ρ border) (hω : UnitRandoms a.ω) (hu : GoodUtility s.util)
    (hlow : s.util.lowerLim ≤ a.minEnergy) (hmin : 0 ≤ a.minEnergy) (hinit : a.minEnergy ≤ init.energy)
    (hdist : init.distance ≤ a.maxDistance) {pos n : ℕ} {ε : ℝ}
    (hε : ∀ E k, a.minEnergy ≤ E → ε ≤ E * (s.util.sampleLoss E (a.ω k)).v) (q : Prop') (h : After a init pos n q) :
    q.running = true → q.state.energy + n * ε ≤ init.energy := by
  induction h with
  | start q hq => rw [(propInit_ok hq).1]; simp
  | step n q q' hafter hrun hs ih =>
    intro hrun'
    have ih := ih hrun
    have hray := contained_inv hC hω hu hlow hmin hinit hdist q (reachable_of_after hafter)
    have hstep := contained_step hC hω hu hlow hmin q hray hrun
    have hd : GoodDensity s.dens := by rw [hC.density]; exact C146_homogeneous ρ hC.density_pos
    have hmem : ∀ t ∈ a.sectors, t = s := fun t ht => by simpa [hC.sectors] using ht
    obtain ⟨h1, _, h3, _, _, _, h7⟩ := hray
    have h7 := h7 hrun
    have hmax : eMinOf a q = a.minEnergy := by unfold eMinOf; rw [h1]; exact max_eq_left hlow
    obtain ⟨r, hr, hq⟩ := propStep_ok hs
    obtain ⟨_, _, r3, r4⟩ := advance_range_of hω (fun t ht => by rw [hmem t ht]; exact hu)
      (fun t ht => by rw [hmem t ht]; exact hd) (fun t ht => by rw [hmem t ht]; exact hlow)
      (by rw [h1, hC.sectors]; simp) (fun f hf => (hstep f hf).1) h3 (by rw [hmax]; exact h7) (by linarith) hr
    obtain ⟨f, hf, rfl⟩ := advanceOf_ok hr
    have hf' := hstep f hf
    rcases react_ok hq with ⟨_, _, hsec, hst, hr2, _⟩ | ⟨_, _, hsec, hst, hr2, _⟩ | ⟨_, _, hsec, hst, hr2, _⟩ |
        ⟨_, hsec, hst, hr2, _⟩ | ⟨hb, _⟩
    · set r := finish (envOf a q) (decide (nextOf a q = .minimalE)) (eMinOf a q) f with hrdef
      have hkd := doStochastic_keeps a.ω r.sector.util r.state r.pos
      have p4 : r.sector = s := hf'.2.2.1
      rw [hst, hkd.2.2.2.2, p4]
      have := hε r.state.energy r.pos (by linarith)
      push_cast
      linarith
    all_goals first
      | exact absurd hb hf'.2.2.2.1
      | (rw [hrun'] at hr2; cases hr2)

/-- C146: the propagation of a contained particle ends, without exception and without undefined behaviour, when the interactions take at
least the energy `ε`. -/
theorem C146_ends (hC : Contained a init s ρ border) (hω : UnitRandoms a.ω) (hu : GoodUtility s.util)
    (hlow : s.util.lowerLim ≤ a.minEnergy) (hmin : 0 ≤ a.minEnergy) (hinit : a.minEnergy ≤ init.energy)
    (hdist : init.distance ≤ a.maxDistance) (pos : ℕ) {ε : ℝ} (h0 : 0 < ε)
    (hε : ∀ E k, a.minEnergy ≤ E → ε ≤ E * (s.util.sampleLoss E (a.ω k)).v) :
    ∃ n q, After a init pos n q ∧ q.running = false ∧ (n : ℝ) ≤ (init.energy - a.minEnergy) / ε + 1 := by
  have hinv := fun n q (h : After a init pos n q) => contained_inv hC hω hu hlow hmin hinit hdist q (reachable_of_after h)
  have hbound : ∀ n q, After a init pos n q → q.running = true → (n : ℝ) ≤ (init.energy - a.minEnergy) / ε := by
    intro n q h hrun
    have h1 := contained_energy hC hω hu hlow hmin hinit hdist hε q h hrun
    have h2 := (hinv n q h).2.2.2.2.2.2 hrun
    rw [le_div_iff₀ h0]
    linarith
  have hstart : ∃ q, After a init pos 0 q := by
    have hin := hC.inside 0 le_rfl (by simpa using hdist)
    have e : init.position + (0 : ℝ) • init.direction = init.position := by ext <;> simp
    rw [e] at hin
    have hc : currentSector a.sectors init.position init.direction = some s := by
      unfold currentSector
      rw [hC.sectors, List.filter_cons_of_pos]
      · rfl
      · exact @decide_eq_true _ (Classical.propDecidable _) hin
    refine ⟨⟨init, s, [⟨init, .continuousEnergyLoss, 0⟩], pos, true⟩, .start _ ?_⟩
    unfold propInit
    rw [hc]
  by_contra hcon
  push Not at hcon
  have hall : ∀ n, ∃ q, After a init pos n q ∧ q.running = true := by
    intro n
    induction n with
    | zero =>
      obtain ⟨q, hq⟩ := hstart
      refine ⟨q, hq, ?_⟩
      by_contra hf
      have := hcon 0 q hq (by simpa using hf)
      have hp : 0 ≤ (init.energy - a.minEnergy) / ε := div_nonneg (by linarith) h0.le
      push_cast at this
      linarith
    | succ n ih =>
      obtain ⟨q, hq, hrun⟩ := ih
      obtain ⟨q', hq'⟩ := contained_progress hC hω hu hlow hmin q (hinv n q hq) hrun
      refine ⟨q', .step n q q' hq hrun hq', ?_⟩
      by_contra hf
      have := hcon (n + 1) q' (.step n q q' hq hrun hq') (by simpa using hf)
      have := hbound n q hq hrun
      push_cast at *
      linarith
  obtain ⟨n, hn⟩ := exists_nat_gt ((init.energy - a.minEnergy) / ε)
  obtain ⟨q, hq, hrun⟩ := hall n
  linarith [hbound n q hq hrun]

end contained

/-- C146: for a contained particle and a utility made of cross sections, along the whole track distance and time do not decrease, the
energy does not increase, and every entry lies on the ray of the particle within the requested distance. -/
theorem C146_contained (a : PropArgs) (init : PState) (pos : ℕ) (s : Sector) (c : UtilitySettings) (lower ρ border : ℝ)
    (hC : Contained a init s ρ border) (hA : Assembled s c lower ρ) (hω : UnitRandoms a.ω) (hlow : lower ≤ a.minEnergy)
    (hinit : a.minEnergy ≤ init.energy) (hdist : init.distance ≤ a.maxDistance) (q : Prop') (h : Reachable a init pos q) :
    List.IsChain Later q.track ∧ q.track.Pairwise (fun x y => y.state.energy ≤ x.state.energy) ∧
    q.state.distance ≤ a.maxDistance ∧
    q.state.position = init.position + (q.state.distance - init.distance) • init.direction ∧ q.state.direction = init.direction := by
  obtain ⟨g1, g2, g3⟩ := assembled_good hA
  have hmin : 0 ≤ a.minEnergy := hA.2.2.1.lower_pos.le.trans hlow
  have hlow' : s.util.lowerLim ≤ a.minEnergy := by rw [g1]; exact hlow
  have hreg := C146_regular hC hω g2 hlow' hmin hinit hdist pos
  obtain ⟨t1, t2⟩ := C146_track_partial a init pos q hω (fun t ht => by
    obtain rfl : t = s := by simpa [hC.sectors] using ht
    exact ⟨c, lower, ρ, hA, hlow⟩) hmin hinit hreg h
  obtain ⟨_, _, i3, _, i5, i6, _⟩ := contained_inv hC hω g2 hlow' hmin hinit hdist q h
  exact ⟨t1, t2, i3, i5, i6⟩

/-! ## Example -/

namespace Deep

/-- A process with the energy loss 1 and the rate 1 that takes half of the energy. -/
noncomputable def process : XSec where
  type := .brems
  edx := fun _ => 1
  e2dx := fun _ => 1
  ndx := fun _ => 1
  ndxTarget := fun _ _ => .ok 1
  cumulative := fun _ _ _ => .ok 1
  perTarget := fun _ => [(7, 1)]
  stochasticLoss := fun _ _ _ => .ok (1 / 2)
  lowerLim := 1

/-- A particle with lifetime, continuous randomization and exact times. -/
noncomputable def settings (search : IState → Option ℝ) : UtilitySettings :=
  ⟨exactQ, search, newIntegral, exactNormal, [process], [some true], 1 / 2, some 1, true, true, none⟩

lemma good (search : IState → Option ℝ) (h : ExactRefine search) : GoodSettings (settings search) 1 where
  quadrature := exactQ_exact
  search := h
  normal := C138_exact
  lower_pos := one_pos
  integrable := fun E _ => by
    have : displacementIntegrand (settings search).dedx = fun _ => -1 := by
      funext y
      simp [displacementIntegrand, UtilitySettings.dedx, settings, process]
    rw [this]
    exact intervalIntegrable_const
  rates := fun E _ r hr => by
    have : r = ⟨process, 7, 1⟩ := by simpa [ratesOf, settings, process] using hr
    rw [this]
    norm_num
  losses := fun E _ r hr left v _ _ hv => by
    have : r = ⟨process, 7, 1⟩ := by simpa [ratesOf, settings, process] using hr
    rw [this] at hv
    obtain rfl : (1 / 2 : ℝ) = v := Except.ok.inj hv
    norm_num
  lifetime := fun l hl => by
    obtain rfl := Option.some.inj hl
    norm_num

noncomputable def util (search : IState → Option ℝ) : Utility :=
  match (settings search).utility with
  | some u => u
  | none => Toy.util

lemma util_eq (search : IState → Option ℝ) : (settings search).utility = some (util search) := rfl

/-- A sphere of the radius 1000 filled with the density 1. -/
noncomputable def sector (search : IState → Option ℝ) : Sector :=
  ⟨(⟨0, 1000, 0⟩ : Sphere).toGeo 1, util search, homogeneousDensity 1⟩

noncomputable def args (search : IState → Option ℝ) : PropArgs := ⟨[sector search], fun _ => 1 / 2, 20, 1, 0⟩

noncomputable def init : PState := ⟨100, 0, ⟨0, 0, 0⟩, ⟨1, 0, 0⟩, 0⟩

lemma dist (search : IState → Option ℝ) (x : ℝ) (h0 : 0 ≤ x) (h1 : x ≤ 20) :
    (sector search).geo.dist (init.position + x • init.direction) init.direction = (1000 - x, -1) := by
  have := axis_inside (R := 1000) (x := x) (by norm_num) (by linarith) (by rw [Over.prec_val]; norm_num; linarith)
  have e : init.position + x • init.direction = ⟨x, 0, 0⟩ := by ext <;> simp [init]
  rw [e]
  exact this

lemma contained (search : IState → Option ℝ) : Contained (args search) init (sector search) 1 980 where
  sectors := rfl
  straight := rfl
  density := rfl
  density_pos := one_pos
  inside := fun x h0 h1 => by
    have h1 : x ≤ 20 := by simpa [args, init] using h1
    unfold Geo.isInside
    rw [dist search x h0 h1]
    constructor <;> simp only <;> linarith
  far := fun x h0 h1 => by
    have h1 : x ≤ 20 := by simpa [args, init] using h1
    rw [dist search x h0 h1]
    simp only
    linarith
  distance := by norm_num [args, init, PARTICLE_POSITION_RESOLUTION]
  steps := fun E e h1 h2 h3 => by
    have h1 : (1 : ℝ) ≤ e := h1
    have h3 : E ≤ 100 := h3
    have : (sector search).util.lengthContinuous E e ≤ E - e := by
      change (((settings search).displacement 1).calculate newIntegral E e).1 ≤ E - e
      rcases calculate_cases ((settings search).displacement 1) exactQ_exact newIntegral E e (by linarith) h2 with ⟨_, h⟩ | ⟨_, h⟩
      · rw [h]; linarith
      · rw [h]
        have : ((settings search).displacement 1).f = fun _ => -1 := by
          funext y
          simp [displacementIntegrand, UtilitySettings.dedx, settings, process, UtilitySettings.displacement,
            UtilitySettings.integralOf]
        rw [this, intervalIntegral.integral_const]
        simp
    unfold PARTICLE_POSITION_RESOLUTION
    rw [div_one]
    norm_num
    linarith

end Deep

/-- The hypotheses hold for a particle of the energy 100 in the centre of the sphere. -/
example : ∃ search, ExactRefine search ∧ GoodSettings (Deep.settings search) 1 ∧
    Contained (Deep.args search) Deep.init (Deep.sector search) 1 980 ∧ Assembled (Deep.sector search) (Deep.settings search) 1 1 ∧
    UnitRandoms (Deep.args search).ω ∧ (∃ n q, After (Deep.args search) Deep.init 0 n q ∧ q.running = false ∧
      List.IsChain Later q.track) := by
  obtain ⟨search, h⟩ := exactRefine_exists
  have hA : Assembled (Deep.sector search) (Deep.settings search) 1 1 := ⟨Deep.util_eq search, rfl, Deep.good search h, rfl, one_pos⟩
  obtain ⟨g1, g2, _⟩ := assembled_good hA
  have hC := Deep.contained search
  refine ⟨search, h, Deep.good search h, hC, hA, Toy.half, ?_⟩
  obtain ⟨n, q, h1, h2, _⟩ := C146_ends hC Toy.half g2 (by rw [g1]; exact le_rfl) zero_le_one (by norm_num [Deep.args, Deep.init])
    (by norm_num [Deep.args, Deep.init]) 0 (ε := 1 / 2) (by norm_num) (fun E k hE => by
      have hE : (1 : ℝ) ≤ E := hE
      have : ((Deep.sector search).util.sampleLoss E ((Deep.args search).ω k)).v = 1 / 2 := by
        change ((Deep.settings search).sample E (1 / 2)).v = 1 / 2
        norm_num [UtilitySettings.sample, sampleLoss, ratesOf, Deep.settings, Deep.process, sampleGo, Except.map]
      rw [this]
      linarith)
  refine ⟨n, q, h1, h2, (C146_contained _ _ 0 _ _ 1 1 980 hC hA Toy.half le_rfl (by norm_num [Deep.args, Deep.init])
    (by norm_num [Deep.args, Deep.init]) q (reachable_of_after h1)).1⟩

end Proposal
