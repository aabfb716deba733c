import Verif.Props.IntegralExact
import Mathlib.MeasureTheory.Integral.IntervalIntegral.FundThmCalculus
import Mathlib.Analysis.SpecialFunctions.Integrals.Basic
import Mathlib.Analysis.Complex.ExponentialBounds
import Mathlib.Tactic.LinearCombination

/-!
# C96: upper limits of integrals
-/

open MeasureTheory Set

namespace Proposal

/-- A search for the upper limit that succeeds: the integral up to the limit is the requested part of the whole. -/
def Spec.ExactRefine (refine : IState → Option ℝ) : Prop :=
  ∀ t : IState, t.lo ≤ t.hi → 0 ≤ t.rnd → t.rnd ≤ 1 → ∃ x, refine t = some x ∧ t.lo ≤ x ∧ x ≤ t.hi ∧
    ∫ y in t.lo..x, t.function y = t.rnd * ∫ y in t.lo..t.hi, t.function y

/-- The limits differ by more than the precision as such. -/
def Spec.Different (a b : ℝ) : Prop := |a| * (1 / 10 ^ 10) < |b - a|

/-! ## The search stays between the limits -/

lemma refineLoop_range (F : ℝ → ℝ) (romb : ℝ → ℝ → ℝ) (x0 fv precision lo hi : ℝ) :
    ∀ n xlow xhi f df dX dO x y, lo ≤ xlow → xlow ≤ hi → lo ≤ xhi → xhi ≤ hi → lo ≤ x → x ≤ hi →
      refineLoop F romb x0 fv precision n xlow xhi f df dX dO x = some y → lo ≤ y ∧ y ≤ hi := by
  classical
  intro n
  induction n with
  | zero =>
    intro xlow xhi f df dX dO x y _ _ _ _ h5 h6 h
    simp only [refineLoop, Option.some.injEq] at h
    subst h
    exact ⟨h5, h6⟩
  | succ n ih =>
    intro xlow0 xhi0 f df dX dO x y h1 h2 h3 h4 h5 h6 h
    unfold refineLoop at h
    dsimp only at h
    obtain ⟨l1, l2⟩ : lo ≤ (if f < 0 then x else xlow0) ∧ (if f < 0 then x else xlow0) ≤ hi := by
      split_ifs <;> exact ⟨by assumption, by assumption⟩
    obtain ⟨u1, u2⟩ : lo ≤ (if f < 0 then xhi0 else x) ∧ (if f < 0 then xhi0 else x) ≤ hi := by
      split_ifs <;> exact ⟨by assumption, by assumption⟩
    generalize (if f < 0 then x else xlow0) = xlow at h l1 l2
    generalize (if f < 0 then xhi0 else x) = xhi at h u1 u2
    by_cases hc : ((x - xhi) * df - f) * ((x - xlow) * df - f) > 0 ∨ |2 * f| > |dO * df|
    · rw [if_pos hc] at h
      have m1 : lo ≤ xlow + (xhi - xlow) / 2 := by linarith
      have m2 : xlow + (xhi - xlow) / 2 ≤ hi := by linarith
      generalize xlow + (xhi - xlow) / 2 = z at h m1 m2
      split_ifs at h
      · obtain rfl := Option.some.inj h; exact ⟨m1, m2⟩
      · obtain rfl := Option.some.inj h; exact ⟨m1, m2⟩
      · exact ih _ _ _ _ _ _ _ _ l1 l2 u1 u2 m1 m2 h
    · rw [if_neg hc] at h
      by_cases hd : df = 0
      · rw [if_pos hd] at h; exact absurd h (by simp)
      · rw [if_neg hd] at h
        push Not at hc
        have hz : lo ≤ x - f / df ∧ x - f / df ≤ hi := by
          have e1 : (x - xhi) * df - f = df * (x - f / df - xhi) := by field_simp; ring
          have e2 : (x - xlow) * df - f = df * (x - f / df - xlow) := by field_simp; ring
          have hp := hc.1
          rw [e1, e2] at hp
          have hsq : 0 < df ^ 2 := by positivity
          have hp' : (x - f / df - xhi) * (x - f / df - xlow) ≤ 0 := by
            have : df * (x - f / df - xhi) * (df * (x - f / df - xlow)) =
              df ^ 2 * ((x - f / df - xhi) * (x - f / df - xlow)) := by ring
            rw [this] at hp
            by_contra hcon
            push Not at hcon
            have := mul_pos hsq hcon
            linarith
          rcases mul_nonpos_iff.mp hp' with ⟨g1, g2⟩ | ⟨g1, g2⟩
          · constructor <;> linarith
          · constructor <;> linarith
        generalize x - f / df = z at h hz
        split_ifs at h
        · obtain rfl := Option.some.inj h; exact hz
        · obtain rfl := Option.some.inj h; exact hz
        · exact ih _ _ _ _ _ _ _ _ l1 l2 u1 u2 hz.1 hz.2 h

/-- C96: whatever the integrand and however bad the integrations are, the search for the upper limit ends between the
limits of the integral, or fails with a NaN. For the random numbers 0 and 1, where nothing is searched, this needs that
the estimate made before lies between the limits. -/
theorem C96_search_in_range (Q : Quadrature) (steps : ℕ) (precision : ℝ) (s : IState) (h : s.lo ≤ s.hi)
    (hr : 0 ≤ s.rnd ∧ s.rnd ≤ 1) (h01 : s.rnd = 0 ∨ s.rnd = 1 → s.lo ≤ s.x ∧ s.x ≤ s.hi) (x : ℝ)
    (hx : refineUpperLimit Q steps precision s = some x) : s.lo ≤ x ∧ x ≤ s.hi := by
  unfold refineUpperLimit at hx
  by_cases hc : s.rnd = 0 ∨ s.rnd = 1
  · rw [if_pos hc] at hx
    obtain rfl := Option.some.inj hx
    exact h01 hc
  rw [if_neg hc] at hx
  dsimp only at hx
  have hb : ¬ (-s.rnd * s.saved * ((1 - s.rnd) * s.saved) > 0) := by
    have h1 : 0 ≤ s.rnd * (1 - s.rnd) := mul_nonneg hr.1 (by linarith [hr.2])
    have h2 : -s.rnd * s.saved * ((1 - s.rnd) * s.saved) = -(s.rnd * (1 - s.rnd) * s.saved ^ 2) := by ring
    rw [h2]
    have := mul_nonneg h1 (sq_nonneg s.saved)
    linarith
  rw [if_neg hb] at hx
  have hx0 : s.lo ≤ (if s.x < s.lo ∨ s.x > s.hi then (s.lo + s.hi) / 2 else s.x) ∧
      (if s.x < s.lo ∨ s.x > s.hi then (s.lo + s.hi) / 2 else s.x) ≤ s.hi := by
    by_cases hc : s.x < s.lo ∨ s.x > s.hi
    · rw [if_pos hc]; constructor <;> linarith
    · rw [if_neg hc]; push Not at hc; exact ⟨hc.1, hc.2⟩
  generalize (if s.x < s.lo ∨ s.x > s.hi then (s.lo + s.hi) / 2 else s.x) = x0 at hx hx0
  refine refineLoop_range _ _ _ _ _ _ _ _ _ _ _ _ _ _ _ _ ?_ ?_ ?_ ?_ hx0.1 hx0.2 hx
  all_goals split_ifs <;> linarith

/-! ## Reversed and transformed limits -/

lemma upper_core (W f φ : ℝ → ℝ) (σ lo hi a b r x : ℝ) (rev : Bool) (hσ : σ ≠ 0) (hlh : lo ≤ hi)
    (hW : ∀ u v, lo ≤ u → u ≤ v → v ≤ hi → ∫ y in u..v, W y = σ * ∫ y in φ u..φ v, f y)
    (ha : φ (if rev then hi else lo) = a) (hb : φ (if rev then lo else hi) = b) (hx1 : lo ≤ x) (hx2 : x ≤ hi)
    (h : ∫ y in lo..x, W (if rev then lo + hi - y else y) = r * ∫ y in lo..hi, W (if rev then lo + hi - y else y)) :
    ∫ y in a..φ (if rev then lo + hi - x else x), f y = r * ∫ y in a..b, f y := by
  cases rev
  · simp only [Bool.false_eq_true, if_false] at h ha hb ⊢
    rw [hW lo x le_rfl hx1 hx2, hW lo hi le_rfl hlh le_rfl, ha, hb] at h
    refine mul_left_cancel₀ hσ ?_
    rw [h]; ring
  · simp only [if_true] at h ha hb ⊢
    rw [intervalIntegral.integral_comp_sub_left (fun y => W y) (lo + hi),
      intervalIntegral.integral_comp_sub_left (fun y => W y) (lo + hi), add_sub_cancel_left, add_sub_cancel_right,
      hW (lo + hi - x) hi (by linarith) (by linarith) le_rfl, hW lo hi le_rfl hlh le_rfl, ha, hb] at h
    refine mul_left_cancel₀ hσ ?_
    rw [intervalIntegral.integral_symm a, intervalIntegral.integral_symm a b] at h
    linarith

lemma weighted_exp (f : ℝ → ℝ) (u v : ℝ) (h : u ≤ v) :
    ∫ y in u..v, weighted true 0 f y = 1 * ∫ y in Real.exp u..Real.exp v, f y := by
  rw [one_mul, intervalIntegral.integral_of_le h, integral_Ioc_eq_integral_Ioo,
    intervalIntegral.integral_of_le (Real.exp_le_exp.mpr h), integral_Ioc_eq_integral_Ioo,
    ← (maps_zero measurableSet_Ioo).integral_log measurableSet_Ioo]
  have := exp_image_Ioo (Real.exp_pos u) (Real.exp_pos v)
  rw [Real.log_exp, Real.log_exp] at this
  rw [this]

lemma weighted_id (f : ℝ → ℝ) (u v : ℝ) : ∫ y in u..v, weighted false 0 f y = 1 * ∫ y in u..v, f y := by
  simp [weighted]

lemma rpow_back' {p y : ℝ} (hp : p ≠ 0) (hy : 0 < y) : (y ^ (-p)) ^ (-1 / p) = y := by
  rw [← Real.rpow_mul hy.le, mul_div_assoc', neg_mul_neg, mul_one, div_self hp, Real.rpow_one]

lemma tOf_pos {p x : ℝ} (hp : 0 < p) : tOf p x = x ^ (-p) := by
  simp [tOf, hp.ne', hp]

lemma weighted_pos (f : ℝ → ℝ) {p u v : ℝ} (hp : 0 < p) (hu : 0 < u) (h : u ≤ v) :
    ∫ y in u..v, weighted false p f y = -1 * ∫ y in tOf p u..tOf p v, f y := by
  have hv := hu.trans_le h
  have hle : v ^ (-p) ≤ u ^ (-p) := Real.rpow_le_rpow_of_nonpos hu h (by linarith)
  rw [tOf_pos hp, tOf_pos hp, intervalIntegral.integral_of_le h, integral_Ioc_eq_integral_Ioo,
    intervalIntegral.integral_symm, intervalIntegral.integral_of_le hle, integral_Ioc_eq_integral_Ioo]
  have himg := image_Ioo hp (Real.rpow_pos_of_pos hv (-p)) (Real.rpow_pos_of_pos hu (-p))
  rw [rpow_back' hp.ne' hu, rpow_back' hp.ne' hv] at himg
  rw [(maps_pos hp measurableSet_Ioo (fun x hx => hu.trans hx.1) himg).integral f]
  ring

lemma weighted_neg (f : ℝ → ℝ) {q u v : ℝ} (hq : 0 < q) (hv : v < 0) (h : u ≤ v) :
    ∫ y in u..v, weighted false (-q) f y = -1 * ∫ y in tOf (-q) u..tOf (-q) v, f y := by
  have hu := h.trans_lt hv
  have hv' : 0 < -v := by linarith
  have hu' : 0 < -u := by linarith
  have hle : (-u) ^ (-q) ≤ (-v) ^ (-q) := Real.rpow_le_rpow_of_nonpos hv' (by linarith) (by linarith)
  rw [tOf_neg hq, tOf_neg hq, tOf_pos hq, tOf_pos hq, intervalIntegral.integral_of_le h, integral_Ioc_eq_integral_Ioo,
    intervalIntegral.integral_symm, intervalIntegral.integral_of_le (neg_le_neg hle), integral_Ioc_eq_integral_Ioo]
  have himg := image_Ioo hq (Real.rpow_pos_of_pos hu' (-q)) (Real.rpow_pos_of_pos hv' (-q))
  rw [rpow_back' hq.ne' hu', rpow_back' hq.ne' hv'] at himg
  have hm := maps_neg hq (maps_pos hq measurableSet_Ioo (fun x hx => hv'.trans hx.1) himg) (fun x hx => hv'.trans hx.1)
  rw [image_neg_Ioo, image_neg_Ioo, neg_neg, neg_neg] at hm
  rw [hm.integral f]
  ring

/-- The last steps of `GetUpperLimit`. -/
noncomputable def finishUpper (pos : ℝ) (useLog : Bool) (x : ℝ) : ℝ :=
  if useLog then Real.exp (tOf pos x) else tOf pos x

lemma getUpperLimit_eq (refine : IState → Option ℝ) (s : IState) (hd : s.done = true) (hn : narrow s.lo s.hi = false)
    (x : ℝ) (hx : refine s = some x) :
    ∃ s', getUpperLimit refine s =
      .value (finishUpper s.pos s.useLog (if s.reverse then s.reverseX - x else x)) s' := by
  unfold getUpperLimit
  simp only [hd, hn, if_true, if_false, hx, Bool.false_eq_true]
  refine ⟨{ s with x := finishUpper s.pos s.useLog (if s.reverse then s.reverseX - x else x) }, ?_⟩
  have : ∀ y, (if s.pos > 0 then y ^ (-s.pos) else if s.pos < 0 then -(-y) ^ s.pos else y) = tOf s.pos y := by
    intro y
    unfold tOf
    rcases lt_trichotomy s.pos 0 with h | h | h
    · rw [if_neg (by linarith), if_pos h, if_neg h.ne, if_neg (by linarith)]
    · rw [if_neg (by linarith), if_neg (by linarith), if_pos h]
    · rw [if_pos h, if_neg h.ne', if_pos h]
  simp only [this, finishUpper, ← hd]

lemma narrow_of_different {a b : ℝ} (h : Spec.Different a b) : narrow a b = false := by
  unfold narrow computerPrecision
  rw [decide_eq_false_iff_not, not_le]
  exact h

lemma ne_of_different {a b : ℝ} (h : Spec.Different a b) : a ≠ b := by
  rintro rfl
  unfold Spec.Different at h
  rw [sub_self, abs_zero] at h
  have : 0 ≤ |a| * (1 / 10 ^ 10) := by positivity
  linarith

/-- What an integration with a random ratio leaves behind: an integral from `a` to `b` in a variable with the limits
`lo` and `hi`. -/
structure Prepared (s : IState) (a b : ℝ) (f : ℝ → ℝ) (σ : ℝ) : Prop where
  done : s.done = true
  le : s.lo ≤ s.hi
  rev : s.reverse = true → s.reverseX = s.lo + s.hi
  integrand : s.f = f
  sign : σ = 1 ∨ σ = -1
  core : ∀ u v, s.lo ≤ u → u ≤ v → v ≤ s.hi → ∫ y in u..v, weighted s.useLog s.pos f y =
    σ * ∫ y in finishUpper s.pos s.useLog u..finishUpper s.pos s.useLog v, f y
  start : finishUpper s.pos s.useLog (if s.reverse then s.hi else s.lo) = a
  stop : finishUpper s.pos s.useLog (if s.reverse then s.lo else s.hi) = b

lemma Prepared.function {s : IState} {a b σ : ℝ} {f : ℝ → ℝ} (h : Prepared s a b f σ) (y : ℝ) :
    s.function y = weighted s.useLog s.pos f (if s.reverse then s.lo + s.hi - y else y) := by
  unfold IState.function
  rw [h.integrand]
  rcases hrev : s.reverse
  · simp
  · simp [h.rev hrev]

lemma Prepared.integral {s : IState} {a b σ : ℝ} {f : ℝ → ℝ} (h : Prepared s a b f σ) :
    (if s.reverse then -σ else σ) * ∫ y in s.lo..s.hi, s.function y = ∫ y in a..b, f y := by
  have hσ : σ * σ = 1 := by rcases h.sign with e | e <;> rw [e] <;> norm_num
  have h1 := h.core s.lo s.hi le_rfl h.le le_rfl
  have h2 := h.start
  have h3 := h.stop
  simp only [h.function]
  rcases hrev : s.reverse
  · simp only [hrev, Bool.false_eq_true, if_false] at h2 h3 ⊢
    rw [h1, h2, h3, ← mul_assoc, hσ, one_mul]
  · simp only [hrev, if_true] at h2 h3 ⊢
    rw [intervalIntegral.integral_comp_sub_left (fun y => weighted s.useLog s.pos f y) (s.lo + s.hi),
      add_sub_cancel_left, add_sub_cancel_right, h1, h2, h3, intervalIntegral.integral_symm a b]
    linear_combination (∫ y in a..b, f y) * hσ

lemma Prepared.upper {s : IState} {a b σ : ℝ} {f : ℝ → ℝ} (h : Prepared s a b f σ) (refine : IState → Option ℝ)
    (hr : Spec.ExactRefine refine) (h0 : 0 ≤ s.rnd) (h1 : s.rnd ≤ 1) (hn : narrow s.lo s.hi = false) :
    ∃ x s', getUpperLimit refine s = .value x s' ∧ ∫ y in a..x, f y = s.rnd * ∫ y in a..b, f y := by
  obtain ⟨x, hx, hx1, hx2, hint⟩ := hr s h.le h0 h1
  obtain ⟨s', hs'⟩ := getUpperLimit_eq refine s h.done hn x hx
  refine ⟨_, s', hs', ?_⟩
  have hσ : σ ≠ 0 := by rcases h.sign with e | e <;> rw [e] <;> norm_num
  simp only [h.function] at hint
  have := upper_core (weighted s.useLog s.pos f) f (finishUpper s.pos s.useLog) σ s.lo s.hi a b s.rnd x s.reverse hσ h.le
    h.core h.start h.stop hx1 hx2 hint
  rcases hrev : s.reverse
  · simpa [hrev] using this
  · simpa [hrev, h.rev hrev] using this

/-- The random number after the integration, for an integral of the value `I`. -/
noncomputable def ratioFor (method : ℤ) (ratio I : ℝ) : ℝ :=
  ratioOf (if ratio > 1 then 1 else ratio) (if method = 4 then -I else -|I|)

lemma log_prepared (Q : Quadrature) (hQ : Spec.ExactQuadrature Q) (s : IState) (a b : ℝ) (f : ℝ → ℝ) (ratio : ℝ)
    (ha : 0 < a) (hb : 0 < b) (hd : Spec.Different a b) :
    ∃ s', integrateLogRandom Q s a b f ratio = (∫ y in a..b, f y, s') ∧ Prepared s' a b f 1 ∧
      s'.rnd = ratioFor 4 ratio (∫ y in a..b, f y) ∧
      s'.lo = Real.log (min a b) ∧ s'.hi = Real.log (max a b) := by
  classical
  have hne := ne_of_different hd
  unfold integrateLogRandom
  rw [narrow_of_different hd]
  simp only [Bool.false_eq_true, if_false]
  generalize hs1 : ({ s with
      lo := Real.log (orient a b).1, hi := Real.log (orient a b).2.1, reverse := decide (a > b),
      reverseX := if decide (a > b) = true then Real.log (orient a b).1 + Real.log (orient a b).2.1 else s.reverseX,
      useLog := true, pos := 0, rnd := if ratio > 1 then 1 else ratio, f := f } : IState) = s1
  have key : ∀ (v x : ℝ) (r : ℝ), Prepared { s1 with rnd := r, saved := v, done := true, x := x } a b f 1 := by
    intro v x r
    subst hs1
    refine ⟨rfl, ?_, ?_, rfl, Or.inl rfl, ?_, ?_, ?_⟩
    · dsimp only
      rcases lt_or_gt_of_ne hne with h | h
      · rw [(orient_lt h).1]; exact Real.log_le_log ha h.le
      · rw [(orient_lt h).2]; exact Real.log_le_log hb h.le
    · dsimp only
      intro h
      rw [if_pos h]
    · intro u v _ huv _
      rw [weighted_exp f u v huv]
      simp [finishUpper, tOf]
    · rcases lt_or_gt_of_ne hne with h | h
      · simp [finishUpper, tOf, (orient_lt h).1, not_lt.mpr h.le, Real.exp_log ha]
      · simp [finishUpper, tOf, (orient_lt h).2, h, Real.exp_log ha]
    · rcases lt_or_gt_of_ne hne with h | h
      · simp [finishUpper, tOf, (orient_lt h).1, not_lt.mpr h.le, Real.exp_log hb]
      · simp [finishUpper, tOf, (orient_lt h).2, h, Real.exp_log hb]
  have hI : (orient a b).2.2 * Q.opened s1.function s1.lo s1.hi = ∫ y in a..b, f y := by
    have hk := key 0 0 0
    rw [← hk.integral, hQ.opened _ _ _ hk.le]
    have : (orient a b).2.2 = if s1.reverse then -1 else 1 := by
      subst hs1
      rcases lt_or_gt_of_ne hne with h | h
      · simp [(orient_lt h).1, not_lt.mpr h.le]
      · simp [(orient_lt h).2, h]
    rw [this]
    rfl
  subst hs1
  refine ⟨_, Prod.ext hI rfl, key _ _ _, ?_, ?_, ?_⟩
  · unfold ratioFor
    rw [if_pos rfl]
    exact congrArg (ratioOf _) ((neg_mul _ _).trans (congrArg Neg.neg hI))
  · rcases lt_or_gt_of_ne hne with h | h
    · simp [(orient_lt h).1, min_eq_left h.le]
    · simp [(orient_lt h).2, min_eq_right h.le]
  · rcases lt_or_gt_of_ne hne with h | h
    · simp [(orient_lt h).1, max_eq_right h.le]
    · simp [(orient_lt h).2, max_eq_left h.le]

/-- The limits of a substitution, with the sign of the change of variables. -/
lemma substitution_core (pos lo hi : ℝ) (f : ℝ → ℝ) (h1 : pos > 0 → 0 < lo ∧ 0 < hi) (h2 : pos < 0 → lo < 0 ∧ hi < 0)
    (hlt : lo < hi) :
    ∃ (l : ℝ × ℝ × ℝ × Bool) (σ : ℝ), substitutedLimits lo hi pos = some l ∧ l.2.2.1 = 1 ∧ l.1 ≤ l.2.1 ∧
      (σ = if l.2.2.2 then -1 else 1) ∧
      (∀ u v, l.1 ≤ u → u ≤ v → v ≤ l.2.1 →
        ∫ y in u..v, weighted false pos f y = σ * ∫ y in tOf pos u..tOf pos v, f y) ∧
      tOf pos (if l.2.2.2 then l.2.1 else l.1) = lo ∧ tOf pos (if l.2.2.2 then l.1 else l.2.1) = hi := by
  unfold substitutedLimits
  rcases lt_trichotomy pos 0 with hp | hp | hp
  · obtain ⟨ha, hb⟩ := h2 hp
    obtain ⟨q, hq, rfl⟩ : ∃ q, 0 < q ∧ pos = -q := ⟨-pos, by linarith, by ring⟩
    have ha' : 0 < -lo := by linarith
    have hb' : 0 < -hi := by linarith
    have he : (1 : ℝ) / -q = -1 / q := by rw [div_neg, neg_div]
    have hback : ∀ y : ℝ, y < 0 → tOf (-q) (-(-y) ^ (1 / -q)) = y := by
      intro y hy
      have hy' : 0 < -y := by linarith
      rw [tOf_neg hq, tOf_pos hq, he, neg_neg, rpow_back hq.ne' hy', neg_neg]
    rw [if_neg (by linarith), if_pos hp, if_pos ⟨hb, ha⟩]
    refine ⟨_, -1, rfl, rfl, ?_, by simp, ?_, ?_, ?_⟩
    · dsimp only
      rw [he]
      have hz : -1 / q ≤ 0 := (div_neg_of_neg_of_pos (by norm_num) hq).le
      have := Real.rpow_le_rpow_of_nonpos hb' (by linarith : -hi ≤ -lo) hz
      linarith
    · dsimp only
      intro u v _ huv hv
      have hneg : -(-lo) ^ (1 / -q) < 0 := neg_neg_of_pos (Real.rpow_pos_of_pos ha' _)
      exact weighted_neg f hq (hv.trans_lt hneg) huv
    · simpa using hback lo ha
    · simpa using hback hi hb
  · subst hp
    rw [if_neg (by simp), if_neg (by simp)]
    refine ⟨_, 1, rfl, rfl, hlt.le, by simp, ?_, by simp [tOf], by simp [tOf]⟩
    intro u v _ _ _
    rw [weighted_id]
    simp [tOf]
  · obtain ⟨ha, hb⟩ := h1 hp
    rw [if_pos hp, if_pos ⟨hb, ha⟩]
    refine ⟨_, -1, rfl, rfl, ?_, by simp, ?_, ?_, ?_⟩
    · exact Real.rpow_le_rpow_of_nonpos ha hlt.le (div_neg_of_neg_of_pos (by norm_num) hp).le
    · dsimp only
      intro u v hu huv _
      exact weighted_pos f hp ((Real.rpow_pos_of_pos hb _).trans_le hu) huv
    · simp only [if_true]
      rw [tOf_pos hp, rpow_back hp.ne' ha]
    · simp only [if_true]
      rw [tOf_pos hp, rpow_back hp.ne' hb]

lemma substitution_prepared (Q : Quadrature) (hQ : Spec.ExactQuadrature Q) (s : IState) (a b : ℝ) (f : ℝ → ℝ)
    (ratio pos : ℝ) (h1 : pos > 0 → 0 < a ∧ 0 < b) (h2 : pos < 0 → a < 0 ∧ b < 0) (hd : Spec.Different a b) :
    ∃ s' σ l, integrateSubstitutionRandom Q s a b f pos ratio = (∫ y in a..b, f y, s') ∧ Prepared s' a b f σ ∧
      s'.rnd = ratioFor 3 ratio (∫ y in a..b, f y) ∧
      substitutedLimits (min a b) (max a b) pos = some l ∧ s'.lo = l.1 ∧ s'.hi = l.2.1 := by
  classical
  have hne := ne_of_different hd
  have hmm : min a b < max a b := min_lt_max.mpr hne
  obtain ⟨l, σ, hl, hl1, hle, hσ, hcore, hlo, hhi⟩ := substitution_core pos (min a b) (max a b) f
    (fun h => ⟨lt_min (h1 h).1 (h1 h).2, lt_max_of_lt_left (h1 h).1⟩)
    (fun h => ⟨min_lt_of_left_lt (h2 h).1, max_lt (h2 h).1 (h2 h).2⟩) hmm
  have ho : orient a b = (min a b, max a b, if a > b then -1 else 1) := by
    rcases lt_or_gt_of_ne hne with h | h
    · rw [(orient_lt h).1, min_eq_left h.le, max_eq_right h.le, if_neg (by linarith)]
    · rw [(orient_lt h).2, min_eq_right h.le, max_eq_left h.le, if_pos h]
  unfold integrateSubstitutionRandom
  rw [narrow_of_different hd, ho]
  simp only [Bool.false_eq_true, if_false, hl]
  generalize hs1 : ({ s with
      lo := l.1, hi := l.2.1, reverse := xor (decide (a > b)) l.2.2.2,
      reverseX := if (xor (decide (a > b)) l.2.2.2) = true then l.1 + l.2.1 else s.reverseX, useLog := false,
      pos := pos, rnd := if ratio > 1 then 1 else ratio, f := f } : IState) = s1
  have key : ∀ (v x : ℝ) (r : ℝ), Prepared { s1 with rnd := r, saved := v, done := true, x := x } a b f σ := by
    intro v x r
    subst hs1
    refine ⟨rfl, hle, ?_, rfl, ?_, ?_, ?_, ?_⟩
    · dsimp only
      intro h
      rw [if_pos h]
    · rw [hσ]; split_ifs <;> simp
    · intro u v hu huv hv
      exact hcore u v hu huv hv
    · rcases lt_or_gt_of_ne hne with h | h
      · have h' : ¬ (b < a) := not_lt.mpr h.le
        simpa [finishUpper, h', min_eq_left h.le] using hlo
      · rw [max_eq_left h.le] at hhi
        rcases hb4 : l.2.2.2 <;> simpa [finishUpper, h, hb4] using hhi
    · rcases lt_or_gt_of_ne hne with h | h
      · have h' : ¬ (b < a) := not_lt.mpr h.le
        simpa [finishUpper, h', max_eq_right h.le] using hhi
      · rw [min_eq_right h.le] at hlo
        rcases hb4 : l.2.2.2 <;> simpa [finishUpper, h, hb4] using hlo
  have hI : (if a > b then -1 else 1) * l.2.2.1 * Q.opened s1.function s1.lo s1.hi = ∫ y in a..b, f y := by
    have hk := key 0 0 0
    rw [← hk.integral, hQ.opened _ _ _ hk.le, hl1, mul_one]
    have : (if a > b then (-1 : ℝ) else 1) = if s1.reverse then -σ else σ := by
      subst hs1
      rw [hσ]
      rcases lt_or_gt_of_ne hne with h | h
      · have h' : ¬ (b < a) := not_lt.mpr h.le
        rcases l.2.2.2 <;> simp [h']
      · rcases l.2.2.2 <;> simp [h]
    rw [this]
    rfl
  have habs : |Q.opened s1.function s1.lo s1.hi| = |∫ y in a..b, f y| := by
    rw [← hI, abs_mul, hl1, mul_one]
    split_ifs <;> simp
  subst hs1
  refine ⟨_, σ, l, Prod.ext hI rfl, key _ _ _, ?_, rfl, rfl, rfl⟩
  have h34 : ¬ ((3 : ℤ) = 4) := by norm_num
  simp only [ratioFor, h34, if_false]
  exact congrArg (ratioOf _) (congrArg Neg.neg habs)

/-- Both methods: the value is the integral, and `GetUpperLimit` finds the limit for the resulting random number. -/
lemma upper_both (Q : Quadrature) (hQ : Spec.ExactQuadrature Q) (refine : IState → Option ℝ)
    (hr : Spec.ExactRefine refine) (s : IState) (a b : ℝ) (f : ℝ → ℝ) (method : ℤ) (pos ratio : ℝ)
    (hm : method = 3 ∨ method = 4) (ha : Spec.Suitable method pos a) (hb : Spec.Suitable method pos b)
    (hd : Spec.Different a b) (hap : Spec.Apart method pos a b)
    (h0 : 0 ≤ ratioFor method ratio (∫ y in a..b, f y)) (h1 : ratioFor method ratio (∫ y in a..b, f y) ≤ 1) :
    ∃ s' x s'', integrateRandom Q s a b f method ratio pos = some (∫ y in a..b, f y, s') ∧
      getUpperLimit refine s' = .value x s'' ∧
      ∫ y in a..x, f y = ratioFor method ratio (∫ y in a..b, f y) * ∫ y in a..b, f y := by
  have hne := ne_of_different hd
  have h00 : ¬ (a = 0 ∧ b = 0) := by rintro ⟨rfl, rfl⟩; exact hne rfl
  have hapm : Spec.Apart method pos (min a b) (max a b) := by
    rcases le_total a b with h | h
    · rwa [min_eq_left h, max_eq_right h]
    · rw [min_eq_right h, max_eq_left h]
      unfold Spec.Apart at hap ⊢
      rwa [max_comm, abs_sub_comm]
  unfold integrateRandom
  rw [if_neg h00]
  rcases hm with rfl | rfl
  · have sa := ha.2.1 rfl
    have sb := hb.2.1 rfl
    obtain ⟨s', σ, l, e1, hp, e2, e3, e4, e5⟩ := substitution_prepared Q hQ s a b f ratio pos
      (fun h => ⟨sa.1 h, sb.1 h⟩) (fun h => ⟨sa.2 h, sb.2 h⟩) hd
    rw [← e2] at h0 h1
    have hn : narrow s'.lo s'.hi = false := by
      obtain ⟨l', hl', hlc⟩ := substitutedLimits_coordinate (a := min a b) (b := max a b) (pos := pos)
        (fun h => ⟨lt_min (sa.1 h) (sb.1 h), lt_max_of_lt_left (sa.1 h)⟩)
        (fun h => ⟨min_lt_of_left_lt (sa.2 h), max_lt (sa.2 h) (sb.2 h)⟩)
      rw [hl'] at e3
      obtain rfl := Option.some.inj e3
      rw [e4, e5]
      refine narrow_of_apart ?_
      rcases hlc with ⟨c1, c2⟩ | ⟨c1, c2⟩
      · rw [c1, c2]; exact hapm
      · rw [c1, c2, max_comm, abs_sub_comm]; exact hapm
    obtain ⟨x, s'', hx1, hx2⟩ := hp.upper refine hr h0 h1 hn
    refine ⟨s', x, s'', ?_, hx1, ?_⟩
    · rw [if_pos rfl, e1]
    · rw [hx2, e2]
  · have ha0 := ha.1 (Or.inl rfl)
    have hb0 := hb.1 (Or.inl rfl)
    obtain ⟨s', e1, hp, e2, e4, e5⟩ := log_prepared Q hQ s a b f ratio ha0 hb0 hd
    rw [← e2] at h0 h1
    have hn : narrow s'.lo s'.hi = false := by
      rw [e4, e5]
      exact narrow_of_apart (by simpa [Spec.Apart, Spec.coordinate] using hapm)
    obtain ⟨x, s'', hx1, hx2⟩ := hp.upper refine hr h0 h1 hn
    have hpn : ¬ (a ≤ 0 ∨ b ≤ 0) := by rintro (h | h) <;> linarith
    refine ⟨s', x, s'', ?_, hx1, ?_⟩
    · rw [if_neg (by norm_num), if_pos rfl, if_neg hpn, e1]
    · rw [hx2, e2]

/-- C96: if the Romberg integrations are exact and the search succeeds, then for a ratio in [0, 1] the integral up to the
upper limit is the ratio times the integral, for both methods, any power of substitution and either order of the
limits. The limits must differ by more than the precision, also in the variable of the method. -/
theorem C96_ratio_partial (Q : Quadrature) (hQ : Spec.ExactQuadrature Q) (refine : IState → Option ℝ)
    (hr : Spec.ExactRefine refine) (s : IState) (a b : ℝ) (f : ℝ → ℝ) (method : ℤ) (pos ratio : ℝ)
    (hm : method = 3 ∨ method = 4) (ha : Spec.Suitable method pos a) (hb : Spec.Suitable method pos b)
    (hd : Spec.Different a b) (hap : Spec.Apart method pos a b) (h0 : 0 ≤ ratio) (h1 : ratio ≤ 1) :
    ∃ s' x s'', integrateRandom Q s a b f method ratio pos = some (∫ y in a..b, f y, s') ∧
      getUpperLimit refine s' = .value x s'' ∧ ∫ y in a..x, f y = ratio * ∫ y in a..b, f y := by
  have e : ratioFor method ratio (∫ y in a..b, f y) = ratio := by
    have g1 : ¬ ratio > 1 := by linarith
    have g2 : ¬ ratio < 0 := by linarith
    simp only [ratioFor, ratioOf, g1, g2, if_false]
  have := upper_both Q hQ refine hr s a b f method pos ratio hm ha hb hd hap (by rw [e]; exact h0) (by rw [e]; exact h1)
  rwa [e] at this

/-- C96: a negative ratio asks for the value of the integral itself: the integral up to the upper limit is the negative
of the ratio, if the whole integral is at least that. -/
theorem C96_value_partial (Q : Quadrature) (hQ : Spec.ExactQuadrature Q) (refine : IState → Option ℝ)
    (hr : Spec.ExactRefine refine) (s : IState) (a b : ℝ) (f : ℝ → ℝ) (method : ℤ) (pos value : ℝ)
    (hm : method = 3 ∨ method = 4) (ha : Spec.Suitable method pos a) (hb : Spec.Suitable method pos b)
    (hd : Spec.Different a b) (hap : Spec.Apart method pos a b) (h0 : 0 < value) (h1 : value ≤ ∫ y in a..b, f y) :
    ∃ s' x s'', integrateRandom Q s a b f method (-value) pos = some (∫ y in a..b, f y, s') ∧
      getUpperLimit refine s' = .value x s'' ∧ ∫ y in a..x, f y = value := by
  have hI : 0 < ∫ y in a..b, f y := h0.trans_le h1
  have e : ratioFor method (-value) (∫ y in a..b, f y) = value / ∫ y in a..b, f y := by
    have g1 : ¬ -value > 1 := by linarith
    have g2 : -value < 0 := by linarith
    simp only [ratioFor, ratioOf, g1, g2, if_false, if_true]
    have hnorm : (if method = 4 then -∫ y in a..b, f y else -|∫ y in a..b, f y|) = -∫ y in a..b, f y := by
      rw [abs_of_pos hI, ite_self]
    have hle : value / ∫ y in a..b, f y ≤ 1 := (div_le_one hI).mpr h1
    have hge : 0 ≤ value / ∫ y in a..b, f y := (div_pos h0 hI).le
    rw [hnorm, neg_div_neg_eq]
    rw [if_neg (not_lt.mpr hle), if_neg (not_lt.mpr hge)]
  have := upper_both Q hQ refine hr s a b f method pos (-value) hm ha hb hd hap
    (by rw [e]; exact (div_pos h0 hI).le) (by rw [e]; exact (div_le_one hI).mpr h1)
  rwa [e, div_mul_cancel₀ _ hI.ne'] at this

/-- The search of a state can always succeed. -/
lemma exact_limit_exists (t : IState) (h : t.lo ≤ t.hi) (h0 : 0 ≤ t.rnd) (h1 : t.rnd ≤ 1) :
    ∃ x, t.lo ≤ x ∧ x ≤ t.hi ∧ ∫ y in t.lo..x, t.function y = t.rnd * ∫ y in t.lo..t.hi, t.function y := by
  by_cases hi : IntervalIntegrable t.function volume t.lo t.hi
  · set g : ℝ → ℝ := fun x => ∫ y in t.lo..x, t.function y with hg
    have hc : ContinuousOn g (uIcc t.lo t.hi) :=
      intervalIntegral.continuousOn_primitive_interval' hi left_mem_uIcc
    have hsub := intermediate_value_uIcc hc
    have hmem : t.rnd * g t.hi ∈ uIcc (g t.lo) (g t.hi) := by
      have hz : g t.lo = 0 := by simp [hg]
      rw [hz]
      rcases le_total 0 (g t.hi) with hp | hp
      · rw [uIcc_of_le hp]
        exact ⟨mul_nonneg h0 hp, mul_le_of_le_one_left hp h1⟩
      · rw [uIcc_of_ge hp]
        exact ⟨by nlinarith, mul_nonpos_of_nonneg_of_nonpos h0 hp⟩
    obtain ⟨x, hx, he⟩ := hsub hmem
    rw [uIcc_of_le h] at hx
    exact ⟨x, hx.1, hx.2, he⟩
  · refine ⟨t.lo, le_rfl, h, ?_⟩
    rw [intervalIntegral.integral_undef hi]
    simp

/-- A search that succeeds for every state. -/
lemma exactRefine_exists : ∃ refine, Spec.ExactRefine refine := by
  classical
  refine ⟨fun t => if h : t.lo ≤ t.hi ∧ 0 ≤ t.rnd ∧ t.rnd ≤ 1 then
    some (exact_limit_exists t h.1 h.2.1 h.2.2).choose else none, ?_⟩
  intro t h h0 h1
  refine ⟨(exact_limit_exists t h h0 h1).choose, ?_, (exact_limit_exists t h h0 h1).choose_spec⟩
  exact dif_pos ⟨h, h0, h1⟩

-- the track of a particle: from 4 down to 1 with a negative integrand, for the value 3/2
example : ∃ refine s' x s'', Spec.ExactRefine refine ∧
    integrateRandom exactQ newIntegral 4 1 (fun _ => -1) 4 (-(3 / 2)) 0 = some (3, s') ∧
      getUpperLimit refine s' = .value x s'' ∧ ∫ _ in (4 : ℝ)..x, (-1 : ℝ) = 3 / 2 := by
  obtain ⟨refine, hr⟩ := exactRefine_exists
  have hI : ∫ _ in (4 : ℝ)..1, (-1 : ℝ) = 3 := by
    rw [intervalIntegral.integral_const]; norm_num
  have h4 : (1 : ℝ) < Real.log 4 := by
    rw [show (4 : ℝ) = 2 ^ 2 by norm_num, Real.log_pow]
    have := Real.log_two_gt_d9
    norm_num
    linarith
  have h5 : Real.log 4 < 2 := by
    rw [show (4 : ℝ) = 2 ^ 2 by norm_num, Real.log_pow]
    have := Real.log_two_lt_d9
    norm_num
    linarith
  obtain ⟨s', x, s'', e1, e2, e3⟩ := C96_value_partial exactQ exactQ_exact refine hr newIntegral 4 1 (fun _ => -1) 4 0
    (3 / 2) (Or.inr rfl) ⟨by norm_num, by norm_num, by norm_num⟩ ⟨by norm_num, by norm_num, by norm_num⟩
    (by unfold Spec.Different; norm_num [abs_of_neg])
    (by
      simp only [Spec.Apart, Spec.coordinate]
      norm_num)
    (by norm_num) (by rw [hI]; norm_num)
  rw [hI] at e1
  exact ⟨refine, s', x, s'', hr, e1, e2, e3⟩

/-! ## Where the code differs -/

/-- C96, where the code differs: with the logarithmic method, limits that differ by more than the precision as such but
not in their logarithm give the logarithm of the lower limit, here 5 for limits above 100. -/
theorem C96_narrow_logarithm (refine : IState → Option ℝ) (Q : Quadrature) (s : IState) (f : ℝ → ℝ) (ratio : ℝ) :
    ∃ r s', integrateRandom Q s (Real.exp (5 + 2 / 10 ^ 10)) (Real.exp 5) f 4 ratio 0 = some r ∧
      getUpperLimit refine r.2 = .value 5 s' ∧ 100 < Real.exp 5 ∧ Real.exp 5 < Real.exp (5 + 2 / 10 ^ 10) := by
  have hlt : Real.exp 5 < Real.exp (5 + 2 / 10 ^ 10) := Real.exp_lt_exp.mpr (by norm_num)
  have hp := Real.exp_pos 5
  have hd : narrow (Real.exp (5 + 2 / 10 ^ 10)) (Real.exp 5) = false := by
    unfold narrow computerPrecision
    rw [decide_eq_false_iff_not, not_le, abs_of_pos (Real.exp_pos _), abs_of_neg (by linarith), Real.exp_add]
    have h1 := Real.add_one_le_exp (2 / 10 ^ 10 : ℝ)
    have h2 : (2 / 10 ^ 10 : ℝ) * (1 - 1 / 10 ^ 10) - 1 / 10 ^ 10 > 0 := by norm_num
    have h3 : Real.exp 5 * (Real.exp (2 / 10 ^ 10) * (1 - 1 / 10 ^ 10) - 1) > 0 := by
      refine mul_pos hp ?_
      have : (2 / 10 ^ 10 + 1 : ℝ) * (1 - 1 / 10 ^ 10) ≤ Real.exp (2 / 10 ^ 10) * (1 - 1 / 10 ^ 10) :=
        mul_le_mul_of_nonneg_right h1 (by norm_num)
      have h4 : (2 / 10 ^ 10 + 1 : ℝ) * (1 - 1 / 10 ^ 10) > 1 := by norm_num
      linarith
    linarith
  have hn : narrow (5 : ℝ) (5 + 2 / 10 ^ 10) = true := by
    unfold narrow computerPrecision
    rw [decide_eq_true_eq]
    norm_num [abs_of_pos]
  have he : (100 : ℝ) < Real.exp 5 := by
    have h1 := Real.exp_one_gt_d9
    have h2 : Real.exp 5 = Real.exp 1 ^ 5 := by rw [← Real.exp_nat_mul]; norm_num
    rw [h2]
    calc (100 : ℝ) < 2.7 ^ 5 := by norm_num
      _ ≤ Real.exp 1 ^ 5 := pow_le_pow_left₀ (by norm_num) (by linarith) 5
  have hpn : ¬ (Real.exp (5 + 2 / 10 ^ 10) ≤ 0 ∨ Real.exp 5 ≤ 0) := by
    rintro (h | h)
    · exact absurd h (not_le.mpr (Real.exp_pos _))
    · linarith
  refine ⟨integrateLogRandom Q s (Real.exp (5 + 2 / 10 ^ 10)) (Real.exp 5) f ratio,
    (integrateLogRandom Q s (Real.exp (5 + 2 / 10 ^ 10)) (Real.exp 5) f ratio).2, ?_, ?_, he, hlt⟩
  · unfold integrateRandom
    rw [if_neg (by rintro ⟨_, h⟩; linarith), if_neg (by norm_num), if_pos rfl, if_neg hpn]
  · unfold integrateLogRandom getUpperLimit
    simp only [hd, Bool.false_eq_true, if_false, (orient_lt hlt).2, Real.log_exp, hn, if_true]

/-- C96, where the code differs: `GetUpperLimit` changes the object. Called twice after an integration from 1 to 2 with
the ratio 0, it returns 1 and then e. -/
theorem C96_second_call (Q : Quadrature) (steps : ℕ) (precision : ℝ) (s : IState) (f : ℝ → ℝ) :
    ∃ r s1 s2, integrateRandom Q s 1 2 f 4 0 0 = some r ∧
      getUpperLimit (refineUpperLimit Q steps precision) r.2 = .value 1 s1 ∧
      getUpperLimit (refineUpperLimit Q steps precision) s1 = .value (Real.exp 1) s2 := by
  have hd : narrow 1 2 = false := by
    unfold narrow computerPrecision
    rw [decide_eq_false_iff_not, not_le]
    norm_num [abs_of_pos]
  have hn : narrow 0 (Real.log 2) = false := by
    unfold narrow
    rw [decide_eq_false_iff_not, not_le, abs_zero, zero_mul, sub_zero]
    exact abs_pos.mpr (Real.log_pos (by norm_num)).ne'
  have hlt : (1 : ℝ) < 2 := by norm_num
  have hg : ¬ ((1 : ℝ) > 2) := by norm_num
  have hz : ¬ ((1 : ℝ) < 0) := by norm_num
  refine ⟨integrateLogRandom Q s 1 2 f 0, { (integrateLogRandom Q s 1 2 f 0).2 with x := 1 },
    { (integrateLogRandom Q s 1 2 f 0).2 with x := Real.exp 1 }, ?_, ?_, ?_⟩
  · unfold integrateRandom
    rw [if_neg (by norm_num), if_neg (by norm_num), if_pos rfl, if_neg (by norm_num)]
  · unfold integrateLogRandom getUpperLimit
    simp [hd, (orient_lt hlt).1, hn, refineUpperLimit, firstX, ratioOf, hz]
  · unfold integrateLogRandom getUpperLimit
    simp [hd, (orient_lt hlt).1, hn, refineUpperLimit, ratioOf, hz]

/-- C96, where the code differs: for an integrand that vanishes the search divides zero by zero, and `GetUpperLimit`
returns a NaN for every random number but 0 and 1. -/
theorem C96_zero_integrand (steps : ℕ) (hs : 0 < steps) (precision ratio : ℝ) (h0 : 0 < ratio) (h1 : ratio < 1) :
    ∃ s', integrateRandom exactQ newIntegral 1 2 (fun _ => 0) 4 ratio 0 = some (0, s') ∧
      getUpperLimit (refineUpperLimit exactQ steps precision) s' = .nan := by
  have hd : narrow 1 2 = false := by
    unfold narrow computerPrecision
    rw [decide_eq_false_iff_not, not_le]
    norm_num [abs_of_pos]
  have hn : narrow 0 (Real.log 2) = false := by
    unfold narrow
    rw [decide_eq_false_iff_not, not_le, abs_zero, zero_mul, sub_zero]
    exact abs_pos.mpr (Real.log_pos (by norm_num)).ne'
  have hlt : (1 : ℝ) < 2 := by norm_num
  have hg : ¬ ((1 : ℝ) > 2) := by norm_num
  have g1 : ¬ 1 < ratio := by linarith
  have g2 : ¬ ratio < 0 := by linarith
  have hw : ∀ x, weighted true 0 (fun _ => 0) x = 0 := by intro x; simp [weighted]
  obtain ⟨n, rfl⟩ : ∃ n, steps = n + 1 := ⟨steps - 1, by omega⟩
  refine ⟨(integrateLogRandom exactQ newIntegral 1 2 (fun _ => 0) ratio).2, ?_, ?_⟩
  · unfold integrateRandom
    rw [if_neg (by norm_num), if_neg (by norm_num), if_pos rfl, if_neg (by norm_num)]
    congr 1
    refine Prod.ext ?_ rfl
    unfold integrateLogRandom
    simp [hd, exactQ, IState.function, hw]
  · unfold integrateLogRandom getUpperLimit
    simp [hd, (orient_lt hlt).1, hn, refineUpperLimit, ratioOf, g1, g2, h0.ne', h1.ne, exactQ, IState.function, hw,
      refineLoop]

/-- C96: without an integration with a random ratio before there is no upper limit; the code logs an error and returns
0. -/
theorem C96_without_integral (Q : Quadrature) (refine : IState → Option ℝ) (s : IState) (a b : ℝ) (f : ℝ → ℝ)
    (ha : 0 < a) (hb : 0 < b) (pos : ℝ) :
    getUpperLimit refine (Integrate Q s a b f 4 pos).2 = .noIntegral := by
  unfold Integrate
  rw [if_neg (by rintro ⟨h, _⟩; linarith), if_neg (by norm_num), if_neg (by norm_num), if_neg (by norm_num), if_pos rfl,
    if_neg (by rintro (h | h) <;> linarith)]
  unfold integrateLog initLog
  dsimp only
  split_ifs <;> simp [getUpperLimit]

end Proposal
