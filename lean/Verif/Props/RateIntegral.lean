import Verif.Model.RateIntegral
import Verif.Props.UpperLimit
import Verif.Props.LossAxis
import Verif.Props.RootFinding
import Verif.Props.Tiling
import Mathlib.Analysis.Complex.ExponentialBounds

/-!
# C114: a sampled loss carries the requested rate
-/

open MeasureTheory Set

namespace Proposal

/-- Numbers up to 1 that differ by more than a hundred millionth, and are no smaller than 10⁻²⁰. -/
def Spec.Separated (a b : ℝ) : Prop := 1 / 10 ^ 20 ≤ a ∧ a * (1 + 1 / 10 ^ 8) ≤ b ∧ b ≤ 1

/-- Limits of losses, or for Compton scattering of what is left of the photon, that are separated. -/
def Spec.SeparatedLosses (k : RateKind) (a b : ℝ) : Prop :=
  if k = .compton then Spec.Separated (1 - b) (1 - a) else Spec.Separated a b

/-! ## Limits of the integrations -/

lemma Spec.Separated.pos {a b : ℝ} (h : Spec.Separated a b) : 0 < a := lt_of_lt_of_le (by norm_num) h.1

lemma Spec.Separated.lt {a b : ℝ} (h : Spec.Separated a b) : a < b := by
  have := h.pos
  have := h.2.1
  nlinarith

lemma Spec.Separated.logs {a b : ℝ} (h : Spec.Separated a b) :
    |Real.log a| * (1 / 10 ^ 10) < Real.log b - Real.log a ∧ |Real.log b| ≤ |Real.log a| := by
  have ha := h.pos
  have hab := h.lt
  have hb : 0 < b := ha.trans hab
  have hla : Real.log a ≤ 0 := Real.log_nonpos ha.le (hab.le.trans h.2.2)
  have hlb : Real.log b ≤ 0 := Real.log_nonpos hb.le h.2.2
  have hl : Real.log a ≤ Real.log b := Real.log_le_log ha hab.le
  rw [abs_of_nonpos hla, abs_of_nonpos hlb]
  refine ⟨?_, by linarith⟩
  have h1 : -Real.log a ≤ 56 := by
    have h2 : Real.log (1 / 10 ^ 20) ≤ Real.log a := Real.log_le_log (by norm_num) h.1
    have h3 : Real.log (1 / 10 ^ 20) = -(20 * Real.log 10) := by
      rw [one_div, Real.log_inv, Real.log_pow]
      norm_num
    have h4 : Real.log 10 ≤ 4 * Real.log 2 := by
      have : Real.log 10 ≤ Real.log (2 ^ 4) := Real.log_le_log (by norm_num) (by norm_num)
      rw [Real.log_pow] at this
      exact_mod_cast this
    have h5 := Real.log_two_lt_d9
    linarith
  have h6 : 1 - (1 + 1 / 10 ^ 8 : ℝ)⁻¹ ≤ Real.log (b / a) := by
    refine (Real.one_sub_inv_le_log_of_pos (by norm_num)).trans (Real.log_le_log (by norm_num) ?_)
    rw [le_div_iff₀ ha]
    linarith [h.2.1]
  rw [Real.log_div hb.ne' ha.ne'] at h6
  have h7 : (56 : ℝ) * (1 / 10 ^ 10) < 1 - (1 + 1 / 10 ^ 8 : ℝ)⁻¹ := by norm_num
  have : -Real.log a * (1 / 10 ^ 10) ≤ 56 * (1 / 10 ^ 10) := by gcongr
  linarith

lemma Spec.Separated.gap {a b : ℝ} (h : Spec.Separated a b) : b * (1 / 10 ^ 9) < b - a := by
  have := h.pos
  have := h.2.1
  nlinarith

lemma Spec.Separated.apart_log {a b : ℝ} (h : Spec.Separated a b) : Spec.Apart 4 0 a b := by
  obtain ⟨h1, h2⟩ := h.logs
  have hl : Real.log a ≤ Real.log b := Real.log_le_log h.pos h.lt.le
  have : Spec.coordinate 4 0 = Real.log := by funext x; simp [Spec.coordinate]
  rw [Spec.Apart, this, max_eq_left h2, abs_sub_comm (Real.log a), abs_of_nonneg (show 0 ≤ Real.log b - Real.log a by linarith)]
  exact h1

lemma Spec.Separated.different {a b : ℝ} (h : Spec.Separated a b) : Spec.Different a b := by
  have h1 := h.pos
  have h2 := h.lt
  have h3 := h.gap
  unfold Spec.Different
  rw [abs_of_pos h1, abs_of_pos (by linarith)]
  nlinarith

lemma Spec.Separated.apart_inv {a b : ℝ} (h : Spec.Separated a b) : Spec.Apart 3 1 a b := by
  have h1 := h.pos
  have h2 := h.lt
  have h4 : 0 < b := h1.trans h2
  have h3 := h.gap
  have : Spec.coordinate 3 1 = fun x => 1 / x := by funext x; simp [Spec.coordinate]
  have hle : 1 / b ≤ 1 / a := one_div_le_one_div_of_le h1 h2.le
  rw [Spec.Apart, this]
  simp only
  rw [abs_of_pos (by positivity : 0 < 1 / a), abs_of_pos (by positivity : 0 < 1 / b), max_eq_left hle,
    abs_of_nonneg (by linarith)]
  have e : 1 / a - 1 / b = 1 / a * ((b - a) / b) := by field_simp
  rw [e]
  refine mul_lt_mul_of_pos_left ?_ (by positivity)
  rw [lt_div_iff₀ h4]
  nlinarith

lemma Spec.Separated.apart_plain {a b : ℝ} (h : Spec.Separated a b) : Spec.Apart 3 0 a b := by
  have h1 := h.pos
  have h2 := h.lt
  have h3 := h.gap
  have : Spec.coordinate 3 0 = fun x => x := by funext x; simp [Spec.coordinate]
  rw [Spec.Apart, this]
  simp only
  rw [abs_of_pos h1, abs_of_pos (h1.trans h2), max_eq_right h2.le, abs_sub_comm, abs_of_pos (by linarith)]
  nlinarith

/-- In the logarithms, with the methods that do not transform their variable. -/
lemma Spec.Separated.log_apart {a b : ℝ} (h : Spec.Separated a b) (method : ℤ) (hm : method = 2 ∨ method = 3) :
    Spec.Apart method 0 (Real.log a) (Real.log b) ∧ Spec.Different (Real.log b) (Real.log a) := by
  obtain ⟨h1, h2⟩ := h.logs
  have hl : Real.log a ≤ Real.log b := Real.log_le_log h.pos h.lt.le
  have : Spec.coordinate method 0 = fun x => x := by
    funext x
    rcases hm with rfl | rfl <;> simp [Spec.coordinate]
  refine ⟨?_, ?_⟩
  · rw [Spec.Apart, this]
    simp only
    rw [max_eq_left h2, abs_sub_comm (Real.log a), abs_of_nonneg (show 0 ≤ Real.log b - Real.log a by linarith)]
    exact h1
  · unfold Spec.Different
    rw [abs_sub_comm (Real.log a), abs_of_nonneg (show 0 ≤ Real.log b - Real.log a by linarith)]
    have : |Real.log b| * (1 / 10 ^ 10) ≤ |Real.log a| * (1 / 10 ^ 10) := by gcongr
    linarith

lemma integral_overLog (σ : ℝ → ℝ) {a b : ℝ} (ha : a < 1) (hb : b < 1) :
    ∫ t in Real.log (1 - b)..Real.log (1 - a), overLog σ t = ∫ v in a..b, σ v := by
  wlog hab : a ≤ b generalizing a b
  · rw [intervalIntegral.integral_symm, this hb ha (le_of_not_ge hab), ← intervalIntegral.integral_symm]
  have := (C29_compton σ ⟨.pinf, .fin 1, false⟩ (by
    exact ⟨Or.inl rfl, 1, one_pos, le_rfl, rfl⟩) ⟨a, b⟩ hab hb 1 one_pos).1
  exact this

/-- The integral of every kind is the integral over the losses. -/
lemma RateKind.integral_eq (k : RateKind) (Q : Quadrature) (hQ : Spec.ExactQuadrature Q) (junk : IState) (σ : ℝ → ℝ) (a b : ℝ)
    (h : Spec.SeparatedLosses k a b) : k.integral Q junk σ a b = ∫ v in a..b, σ v := by
  unfold Spec.SeparatedLosses at h
  cases k with
  | general =>
    rw [if_neg (by decide)] at h
    have hb := h.pos.trans h.lt
    exact C95_integral_partial Q hQ _ a b σ 4 0 (by norm_num) ⟨fun _ => h.pos, by norm_num, by norm_num⟩
      ⟨fun _ => hb, by norm_num, by norm_num⟩ h.apart_log
  | ionization =>
    rw [if_neg (by decide)] at h
    have hb := h.pos.trans h.lt
    exact C95_integral_partial Q hQ _ a b σ 3 1 (by norm_num)
      ⟨by norm_num, fun _ => ⟨fun _ => h.pos, by norm_num⟩, by norm_num⟩
      ⟨by norm_num, fun _ => ⟨fun _ => hb, by norm_num⟩, by norm_num⟩ h.apart_inv
  | photoPair =>
    rw [if_neg (by decide)] at h
    exact C95_integral_partial Q hQ _ a b σ 3 0 (by norm_num) ⟨by norm_num, by norm_num, by norm_num⟩
      ⟨by norm_num, by norm_num, by norm_num⟩ h.apart_plain
  | compton =>
    rw [if_pos rfl] at h
    have h1 := h.pos
    have h2 := h.lt
    refine (C95_integral_partial Q hQ _ _ _ (overLog σ) 2 0 (by norm_num) ⟨by norm_num, by norm_num, by norm_num⟩
      ⟨by norm_num, by norm_num, by norm_num⟩ (h.log_apart 2 (Or.inl rfl)).1).trans ?_
    exact integral_overLog σ (by linarith) (by linarith)

/-! ## The search -/

lemma Prepared.upper_between {s : IState} {a b τ : ℝ} {f : ℝ → ℝ} (h : Prepared s a b f τ) (refine : IState → Option ℝ)
    (hr : Spec.ExactRefine refine) (h0 : 0 ≤ s.rnd) (h1 : s.rnd ≤ 1) (hn : narrow s.lo s.hi = false)
    (hm : Monotone (finishUpper s.pos s.useLog)) :
    ∃ x s', getUpperLimit refine s = .value x s' ∧ ∫ y in a..x, f y = s.rnd * ∫ y in a..b, f y ∧
      min a b ≤ x ∧ x ≤ max a b := by
  obtain ⟨x, s', e1, e2⟩ := h.upper refine hr h0 h1 hn
  refine ⟨x, s', e1, e2, ?_⟩
  obtain ⟨y, hy, hy1, hy2, -⟩ := hr s h.le h0 h1
  obtain ⟨s'', hs''⟩ := getUpperLimit_eq refine s h.done hn y hy
  rw [hs''] at e1
  obtain ⟨rfl, -⟩ := Upper.value.inj e1
  have h2 := h.start
  have h3 := h.stop
  rcases hrev : s.reverse
  · simp only [hrev, Bool.false_eq_true, if_false] at h2 h3 ⊢
    rw [← h2, ← h3]
    exact ⟨(min_le_left _ _).trans (hm hy1), (hm hy2).trans (le_max_right _ _)⟩
  · simp only [hrev, if_true] at h2 h3 ⊢
    rw [h.rev hrev, ← h2, ← h3]
    exact ⟨(min_le_right _ _).trans (hm (by linarith)), (hm (by linarith)).trans (le_max_left _ _)⟩

lemma finishUpper_mono (useLog : Bool) : Monotone (finishUpper 0 useLog) := by
  intro x y h
  cases useLog
  · simpa [finishUpper, tOf] using h
  · simpa [finishUpper, tOf] using h

lemma random_members (Q : Quadrature) (s : IState) (a b : ℝ) (f : ℝ → ℝ) (ratio : ℝ) (h : narrow a b = false) :
    (integrateLogRandom Q s a b f ratio).2.pos = 0 ∧ (integrateSubstitutionRandom Q s a b f 0 ratio).2.pos = 0 ∧
    (integrateSubstitutionRandom Q s a b f 0 ratio).2.lo = (orient a b).1 ∧
    (integrateSubstitutionRandom Q s a b f 0 ratio).2.hi = (orient a b).2.1 := by
  unfold integrateLogRandom integrateSubstitutionRandom substitutedLimits
  simp [h]

lemma ratio_value {method : ℤ} {value I : ℝ} (h0 : 0 < value) (h1 : value ≤ |I|) (hm : method = 4 → 0 ≤ I) :
    ratioFor method (-value) I = value / |I| := by
  have hI : 0 < |I| := h0.trans_le h1
  have g1 : ¬ -value > 1 := by linarith
  have g2 : -value < 0 := by linarith
  have hnorm : (if method = 4 then -I else -|I|) = -|I| := by
    split_ifs with h
    · rw [abs_of_nonneg (hm h)]
    · rfl
  simp only [ratioFor, ratioOf, g1, g2, if_false, if_true, hnorm, neg_div_neg_eq]
  rw [if_neg (not_lt.mpr ((div_le_one hI).mpr h1)), if_neg (not_lt.mpr (div_pos h0 hI).le)]

/-- The logarithmic method. -/
lemma upper_log (Q : Quadrature) (hQ : Spec.ExactQuadrature Q) (search : IState → Option ℝ) (hr : Spec.ExactRefine search)
    (s : IState) (σ : ℝ → ℝ) (a b rate : ℝ) (h : Spec.Separated a b) (h0 : 0 < rate) (h1 : rate ≤ ∫ v in a..b, σ v) :
    ∃ v, upperAfter search (integrateRandom Q s a b σ 4 (-rate) 0) = .loss v ∧ a ≤ v ∧ v ≤ b ∧ ∫ x in a..v, σ x = rate := by
  have ha := h.pos
  have hab := h.lt
  have hb := ha.trans hab
  have hI : 0 < ∫ v in a..b, σ v := h0.trans_le h1
  obtain ⟨s', e1, hp, e2, e4, e5⟩ := log_prepared Q hQ s a b σ (-rate) ha hb h.different
  rw [ratio_value h0 (by rwa [abs_of_pos hI]) (fun _ => hI.le), abs_of_pos hI] at e2
  have hpos : s'.pos = 0 := by
    have := (random_members Q s a b σ (-rate) (narrow_of_different h.different)).1
    rwa [e1] at this
  have hn : narrow s'.lo s'.hi = false := by
    rw [e4, e5, min_eq_left hab.le, max_eq_right hab.le]
    exact narrow_of_apart (by simpa [Spec.Apart, Spec.coordinate] using h.apart_log)
  obtain ⟨x, s'', hx1, hx2, hx3, hx4⟩ := hp.upper_between search hr (by rw [e2]; positivity)
    (by rw [e2]; exact (div_le_one hI).mpr h1) hn (by rw [hpos]; exact finishUpper_mono _)
  rw [min_eq_left hab.le] at hx3
  rw [max_eq_right hab.le] at hx4
  refine ⟨x, ?_, hx3, hx4, ?_⟩
  · have : integrateRandom Q s a b σ 4 (-rate) 0 = some (integrateLogRandom Q s a b σ (-rate)) := by
      unfold integrateRandom
      rw [if_neg (by rintro ⟨rfl, -⟩; exact ha.ne rfl), if_neg (by norm_num), if_pos rfl,
        if_neg (by rintro (h | h) <;> linarith)]
    rw [this, e1]
    simp only [upperAfter, hx1]
  · rw [hx2, e2, div_mul_cancel₀ _ hI.ne']

/-- The method of Compton scattering. -/
lemma upper_compton (Q : Quadrature) (hQ : Spec.ExactQuadrature Q) (search : IState → Option ℝ) (hr : Spec.ExactRefine search)
    (s : IState) (σ : ℝ → ℝ) (a b rate : ℝ) (h : Spec.Separated (1 - b) (1 - a)) (h0 : 0 < rate)
    (h1 : rate ≤ ∫ v in a..b, σ v) :
    ∃ t, upperAfter search (integrateRandom Q s (Real.log (1 - a)) (Real.log (1 - b)) (overLog σ) 3 (-rate) 0) = .loss t ∧
      a ≤ 1 - Real.exp t ∧ 1 - Real.exp t ≤ b ∧ ∫ x in a..(1 - Real.exp t), σ x = rate := by
  have hb : 0 < 1 - b := h.pos
  have hlt := h.lt
  have ha : 0 < 1 - a := hb.trans hlt
  have hl : Real.log (1 - b) < Real.log (1 - a) := Real.log_lt_log hb hlt
  have hI : 0 < ∫ v in a..b, σ v := h0.trans_le h1
  obtain ⟨hap, hd⟩ := h.log_apart 3 (Or.inr rfl)
  obtain ⟨s', τ, l, e1, hp, e2, -, -, -⟩ := substitution_prepared Q hQ s (Real.log (1 - a)) (Real.log (1 - b)) (overLog σ)
    (-rate) 0 (fun h => absurd h (lt_irrefl 0)) (fun h => absurd h (lt_irrefl 0)) hd
  have hint : ∫ t in Real.log (1 - a)..Real.log (1 - b), overLog σ t = -∫ v in a..b, σ v := by
    rw [intervalIntegral.integral_symm, integral_overLog σ (by linarith) (by linarith)]
  rw [hint, ratio_value h0 (by rwa [abs_neg, abs_of_pos hI]) (by norm_num), abs_neg, abs_of_pos hI] at e2
  obtain ⟨-, m2, m3, m4⟩ := random_members Q s (Real.log (1 - a)) (Real.log (1 - b)) (overLog σ) (-rate) (narrow_of_different hd)
  rw [e1] at m2 m3 m4
  rw [(orient_lt hl).2] at m3 m4
  have hn : narrow s'.lo s'.hi = false := by
    rw [m3, m4]
    exact narrow_of_apart (by simpa [Spec.Apart, Spec.coordinate] using hap)
  obtain ⟨x, s'', hx1, hx2, hx3, hx4⟩ := hp.upper_between search hr (by rw [e2]; positivity)
    (by rw [e2]; exact (div_le_one hI).mpr h1) hn (by rw [m2]; exact finishUpper_mono _)
  rw [min_eq_right hl.le] at hx3
  rw [max_eq_left hl.le] at hx4
  have g1 : 1 - b ≤ Real.exp x := by
    have := Real.exp_le_exp.mpr hx3
    rwa [Real.exp_log hb] at this
  have g2 : Real.exp x ≤ 1 - a := by
    have := Real.exp_le_exp.mpr hx4
    rwa [Real.exp_log ha] at this
  refine ⟨x, ?_, by linarith, by linarith, ?_⟩
  · have : integrateRandom Q s (Real.log (1 - a)) (Real.log (1 - b)) (overLog σ) 3 (-rate) 0 =
        some (integrateSubstitutionRandom Q s (Real.log (1 - a)) (Real.log (1 - b)) (overLog σ) 0 (-rate)) := by
      unfold integrateRandom
      rw [if_neg (by rintro ⟨h3, h4⟩; rw [h3, h4] at hl; exact lt_irrefl _ hl), if_pos rfl]
    rw [this, e1]
    simp only [upperAfter, hx1]
  · rw [hint, e2] at hx2
    have hback : ∫ t in x..Real.log (1 - a), overLog σ t = ∫ v in a..(1 - Real.exp x), σ v := by
      have := integral_overLog σ (a := a) (b := 1 - Real.exp x) (by linarith) (by linarith [Real.exp_pos x])
      rwa [sub_sub_cancel, Real.log_exp] at this
    rw [← hback, intervalIntegral.integral_symm, hx2]
    field_simp

/-- The lower limit of the losses: the kinematic one without a cut, the cut otherwise. -/
def Spec.LossRange (R : RateCalc) (E a b : ℝ) : Prop :=
  (integrationLimits R.cut (R.lim E) E).1 = .fin a ∧ (R.lim E).vMax = b

/-- C114: if the Romberg integrations and the search are exact, then for every kind of cross section and every differential
cross section, the rate is the integral over the losses, and the loss sampled for a part of the rate lies between the limits,
carries this part, and is given back as the cumulative rate. The limits have to be separated. -/
theorem C114_integral_partial (R : RateCalc) (Q : Quadrature) (hQ : Spec.ExactQuadrature Q) (search : IState → Option ℝ)
    (hr : Spec.ExactRefine search) (junk : IState) (E a b : ℝ) (hl : Spec.LossRange R E a b)
    (hs : Spec.SeparatedLosses R.kind a b) :
    R.calculate Q junk E = some (∫ v in a..b, R.diff E v) ∧
    ∀ rate, 0 < rate → rate ≤ ∫ v in a..b, R.diff E v →
      ∃ v, R.upperLimit Q search junk E rate = .loss v ∧ a ≤ v ∧ v ≤ b ∧ ∫ x in a..v, R.diff E x = rate ∧
        (Spec.SeparatedLosses R.kind a v → R.calculateTo Q junk E v = some rate) := by
  obtain ⟨hl1, hl2⟩ := hl
  have hto : ∀ v, Spec.SeparatedLosses R.kind a v → R.calculateTo Q junk E v = some (∫ x in a..v, R.diff E x) := by
    intro v hv
    have hav : a < v := by
      unfold Spec.SeparatedLosses at hv
      split_ifs at hv
      · linarith [hv.lt]
      · exact hv.lt
    unfold RateCalc.calculateTo
    rw [hl1]
    simp only [if_pos hav, R.kind.integral_eq Q hQ junk (R.diff E) a v hv]
  refine ⟨?_, ?_⟩
  · unfold RateCalc.calculate
    rw [hl2]
    exact hto b hs
  · intro rate h0 h1
    have key : ∃ v, R.upperLimit Q search junk E rate = .loss v ∧ a ≤ v ∧ v ≤ b ∧ ∫ x in a..v, R.diff E x = rate := by
      unfold RateCalc.upperLimit
      rw [hl1, hl2]
      unfold Spec.SeparatedLosses at hs
      rcases hk : R.kind <;> simp only [hk, reduceCtorEq, if_true, if_false] at hs <;> simp only [RateKind.upperLimit]
      · exact upper_log Q hQ search hr _ _ a b rate hs h0 h1
      · exact upper_log Q hQ search hr _ _ a b rate hs h0 h1
      · exact upper_log Q hQ search hr _ _ a b rate hs h0 h1
      · obtain ⟨t, e1, e2, e3, e4⟩ := upper_compton Q hQ search hr (freshIntegral junk) (R.diff E) a b rate hs h0 h1
        exact ⟨1 - Real.exp t, by rw [e1], e2, e3, e4⟩
    obtain ⟨v, e1, e2, e3, e4⟩ := key
    exact ⟨v, e1, e2, e3, e4, fun h => by rw [hto v h, e4]⟩

/-- C114: with a positive differential cross section, a larger part of the rate gives a larger loss. -/
theorem C114_monotone_partial (R : RateCalc) (Q : Quadrature) (hQ : Spec.ExactQuadrature Q) (search : IState → Option ℝ)
    (hr : Spec.ExactRefine search) (junk : IState) (E a b : ℝ) (hl : Spec.LossRange R E a b)
    (hs : Spec.SeparatedLosses R.kind a b) (hi : IntervalIntegrable (R.diff E) volume a b)
    (hp : ∀ v, a < v → v < b → 0 ≤ R.diff E v) (r1 r2 v1 v2 : ℝ) (h0 : 0 < r1) (h12 : r1 < r2)
    (h2 : r2 ≤ ∫ v in a..b, R.diff E v) (e1 : R.upperLimit Q search junk E r1 = .loss v1)
    (e2 : R.upperLimit Q search junk E r2 = .loss v2) : v1 < v2 := by
  obtain ⟨-, key⟩ := C114_integral_partial R Q hQ search hr junk E a b hl hs
  obtain ⟨w1, f1, g1, k1, i1, -⟩ := key r1 h0 (h12.le.trans h2)
  obtain ⟨w2, f2, g2, k2, i2, -⟩ := key r2 (h0.trans h12) h2
  rw [f1] at e1
  rw [f2] at e2
  obtain rfl := LossOut.loss.inj e1
  obtain rfl := LossOut.loss.inj e2
  by_contra hle
  push Not at hle
  have hab : a ≤ b := g1.trans k1
  have hsub : ∀ u w, a ≤ u → u ≤ w → w ≤ b → IntervalIntegrable (R.diff E) volume u w := by
    intro u w hu huw hw
    refine hi.mono_set ?_
    rw [Set.uIcc_of_le huw, Set.uIcc_of_le hab]
    exact Set.Icc_subset_Icc hu hw
  have hadd : (∫ x in a..w2, R.diff E x) + ∫ x in w2..w1, R.diff E x = ∫ x in a..w1, R.diff E x :=
    intervalIntegral.integral_add_adjacent_intervals (hsub a w2 le_rfl g2 k2) (hsub w2 w1 g2 hle k1)
  have hnn : 0 ≤ ∫ x in w2..w1, R.diff E x := by
    rw [intervalIntegral.integral_of_le hle, integral_Ioc_eq_integral_Ioo]
    refine setIntegral_nonneg measurableSet_Ioo fun x hx => hp x (g2.trans_lt hx.1) (hx.2.trans_le k1)
  linarith

/-! ## Where the code differs -/

/-- C114, where the code differs: for losses that start at 0, as those of bremsstrahlung without a cut, every rate of a general
process is 0, and the search for a loss throws. -/
theorem C114_zero_lower_limit (R : RateCalc) (Q : Quadrature) (search : IState → Option ℝ) (junk : IState) (E b : ℝ)
    (hk : R.kind = .general) (hl : Spec.LossRange R E 0 b) (hb : 0 < b) :
    R.calculate Q junk E = some 0 ∧ (∀ v, R.calculateTo Q junk E v = some 0) ∧
    ∀ rate, R.upperLimit Q search junk E rate = .invalidArgument := by
  obtain ⟨hl1, hl2⟩ := hl
  have hto : ∀ v, R.calculateTo Q junk E v = some 0 := by
    intro v
    unfold RateCalc.calculateTo
    rw [hl1, hk]
    simp only [RateKind.integral]
    split_ifs with h
    · simp [Integrate]
    · rfl
  refine ⟨hto _, hto, fun rate => ?_⟩
  unfold RateCalc.upperLimit
  rw [hl1, hl2, hk]
  simp only [RateKind.upperLimit]
  have : integrateRandom Q (freshIntegral junk) 0 b (R.diff E) 4 (-rate) 0 = none := by
    unfold integrateRandom
    rw [if_neg (by rintro ⟨-, h⟩; exact hb.ne' h), if_neg (by norm_num), if_pos rfl, if_pos (Or.inl le_rfl)]
  rw [this]
  rfl

/-- C114, where the code differs: for limits that are closer in their logarithm than the precision, the search returns the
logarithm of the lower limit, here the loss -10. -/
theorem C114_negative_loss (Q : Quadrature) (search : IState → Option ℝ) (junk : IState) (σ : ℝ → ℝ → ℝ) (E rate : ℝ) :
    let R : RateCalc := ⟨.general, fun _ => ⟨Real.exp (-10), Real.exp (-10 + 5 / 10 ^ 10)⟩, none, σ⟩
    R.upperLimit Q search junk E rate = .loss (-10) := by
  intro R
  have hlt : Real.exp (-10) < Real.exp (-10 + 5 / 10 ^ 10) := Real.exp_lt_exp.mpr (by norm_num)
  have hp := Real.exp_pos (-10)
  have hd : narrow (Real.exp (-10)) (Real.exp (-10 + 5 / 10 ^ 10)) = false := by
    refine narrow_of_different ?_
    unfold Spec.Different
    rw [abs_of_pos hp, abs_of_pos (by linarith), Real.exp_add]
    have h1 := Real.add_one_le_exp (5 / 10 ^ 10 : ℝ)
    nlinarith
  have hn : narrow (-10 : ℝ) (-10 + 5 / 10 ^ 10) = true := by
    unfold narrow computerPrecision
    rw [decide_eq_true_eq]
    norm_num [abs_of_pos]
  have hpn : ¬ (Real.exp (-10) ≤ 0 ∨ Real.exp (-10 + 5 / 10 ^ 10) ≤ 0) := by
    rintro (h | h) <;> linarith
  have e1 : integrateRandom Q (freshIntegral junk) (Real.exp (-10)) (Real.exp (-10 + 5 / 10 ^ 10)) (σ E) 4 (-rate) 0 =
      some (integrateLogRandom Q (freshIntegral junk) (Real.exp (-10)) (Real.exp (-10 + 5 / 10 ^ 10)) (σ E) (-rate)) := by
    unfold integrateRandom
    rw [if_neg (by rintro ⟨_, h⟩; linarith), if_neg (by norm_num), if_pos rfl, if_neg hpn]
  have e2 : getUpperLimit search
      (integrateLogRandom Q (freshIntegral junk) (Real.exp (-10)) (Real.exp (-10 + 5 / 10 ^ 10)) (σ E) (-rate)).2 =
      .value (-10) (integrateLogRandom Q (freshIntegral junk) (Real.exp (-10)) (Real.exp (-10 + 5 / 10 ^ 10)) (σ E) (-rate)).2 := by
    unfold integrateLogRandom getUpperLimit
    simp only [hd, Bool.false_eq_true, if_false, (orient_lt hlt).1, Real.log_exp, hn, if_true]
  change upperAfter search (integrateRandom Q (freshIntegral junk) (Real.exp (-10)) (Real.exp (-10 + 5 / 10 ^ 10)) (σ E) 4 (-rate) 0) = _
  rw [e1]
  simp only [upperAfter, e2]

/-- C114, where the code differs: the cumulative rate is not limited at the largest loss. Up to `v` beyond it, the differential
cross section is integrated where it has no meaning. -/
theorem C114_beyond (Q : Quadrature) (hQ : Spec.ExactQuadrature Q) (junk : IState) (E : ℝ) :
    ∃ R : RateCalc, (∀ v, 0 ≤ R.diff E v) ∧ R.calculate Q junk E = some (1 / 4) ∧ R.calculateTo Q junk E 1 = some (3 / 4) := by
  refine ⟨⟨.general, fun _ => ⟨1 / 4, 1 / 2⟩, none, fun _ _ => 1⟩, fun _ => zero_le_one, ?_, ?_⟩
  · have h := RateKind.integral_eq .general Q hQ junk (fun _ => 1) (1 / 4) (1 / 2)
      (by rw [Spec.SeparatedLosses, if_neg (by decide)]; unfold Spec.Separated; norm_num)
    simp only [RateCalc.calculate, RateCalc.calculateTo, integrationLimits, h]
    norm_num
  · have h := RateKind.integral_eq .general Q hQ junk (fun _ => 1) (1 / 4) 1
      (by rw [Spec.SeparatedLosses, if_neg (by decide)]; unfold Spec.Separated; norm_num)
    simp only [RateCalc.calculateTo, integrationLimits, h]
    norm_num

/-! ## Tables -/

/-- A table that reproduces, for an energy, the integrals over the losses up to that of the coordinate. -/
def Spec.TableExact (T : RateTable) (R : RateCalc) (E a b : ℝ) : Prop :=
  T.lim = R.lim ∧ T.cut = R.cut ∧ T.lower ≤ E ∧
    ∀ x v, 0 ≤ x → x ≤ 1 → T.axis.transform a b x = some v → T.table E x = ∫ y in a..v, R.diff E y

/-- A search that only returns coordinates of the table with the requested rate. -/
def Spec.FindExact (T : RateTable) (E : ℝ) : Prop :=
  ∀ rate x, T.find E rate = some x → 0 ≤ x ∧ x ≤ 1 ∧ T.table E x = rate

/-- C114: these integrals are what a table is made of, if the integrations are exact: at the first node, and at all nodes whose
loss is separated from the lower limit. -/
theorem C114_nodes_partial (R : RateCalc) (axis : LossAxis) (Q : Quadrature) (hQ : Spec.ExactQuadrature Q) (junk : IState)
    (E a b : ℝ) (hl : Spec.LossRange R E a b) (h0 : 0 < a) (h1 : a < b) (h2 : b < 1) :
    R.tabulated axis Q junk E 0 = some 0 ∧
    ∀ x, 0 < x → x ≤ 1 → ∃ v, axis.transform a b x = some v ∧ a < v ∧ v ≤ b ∧
      (Spec.SeparatedLosses R.kind a v → R.tabulated axis Q junk E x = some (∫ y in a..v, R.diff E y)) := by
  have hc := C35_inverse_bijections axis a b h0 h1 h2
  refine ⟨?_, ?_⟩
  · unfold RateCalc.tabulated
    rw [hl.1, hl.2]
    simp only [hc.low, Option.bind_some]
    unfold RateCalc.calculateTo
    rw [hl.1]
    simp
  · intro x hx0 hx1
    obtain ⟨v, e1, e2, e3, e4⟩ := hc.range x hx0.le hx1
    have hav := hc.mono 0 x a v le_rfl hx0 hx1 hc.low e1
    refine ⟨v, e1, hav, e3, fun hs => ?_⟩
    unfold RateCalc.tabulated
    rw [hl.1, hl.2]
    simp only [e1, Option.bind_some]
    unfold RateCalc.calculateTo
    rw [hl.1]
    simp only [if_pos hav, R.kind.integral_eq Q hQ junk (R.diff E) a v hs]

/-- C114: where a table is exact, it gives the rates of the integration, if these are not negative. -/
theorem C114_table_rates_partial (T : RateTable) (R : RateCalc) (Q : Quadrature) (hQ : Spec.ExactQuadrature Q) (junk : IState)
    (E a b : ℝ) (ht : Spec.TableExact T R E a b) (hl : Spec.LossRange R E a b) (h0 : 0 < a) (h1 : a < b) (h2 : b < 1)
    (hp : ∀ v, a < v → v < b → 0 ≤ R.diff E v) :
    T.calculate E = ∫ y in a..b, R.diff E y ∧
    (∀ v, a ≤ v → v ≤ b → T.calculateTo E v = some (∫ y in a..v, R.diff E y)) ∧
    (Spec.SeparatedLosses R.kind a b → R.calculate Q junk E = some (T.calculate E)) ∧
    ∀ v, v ≤ b → Spec.SeparatedLosses R.kind a v → T.calculateTo E v = R.calculateTo Q junk E v := by
  have hc := C35_inverse_bijections T.axis a b h0 h1 h2
  have hE : ¬ E < T.lower := not_lt.mpr ht.2.2.1
  have hev : ∀ x v, 0 ≤ x → x ≤ 1 → T.axis.transform a b x = some v → a ≤ v → v ≤ b →
      T.evaluate E x = ∫ y in a..v, R.diff E y := by
    intro x v hx0 hx1 hv hav hvb
    have hnn : 0 ≤ ∫ y in a..v, R.diff E y := by
      rw [intervalIntegral.integral_of_le hav, integral_Ioc_eq_integral_Ioo]
      exact setIntegral_nonneg measurableSet_Ioo fun y hy => hp y hy.1 (hy.2.trans_le hvb)
    unfold RateTable.evaluate
    rw [if_neg hE, ht.2.2.2 x v hx0 hx1 hv, if_neg (not_lt.mpr hnn)]
  have hfull : T.calculate E = ∫ y in a..b, R.diff E y := hev 1 b zero_le_one le_rfl hc.high h1.le le_rfl
  have hto : ∀ v, a ≤ v → v ≤ b → T.calculateTo E v = some (∫ y in a..v, R.diff E y) := by
    intro v hv1 hv2
    obtain ⟨x, e1, e2, e3, e4⟩ := hc.back v hv1 hv2
    unfold RateTable.calculateTo
    rw [if_neg hE, ht.1, ht.2.1, hl.1, hl.2]
    simp only [e1, Option.map_some, hev x v e2 e3 e4 hv1 hv2]
  have hRto : ∀ v, Spec.SeparatedLosses R.kind a v → a < v ∧ R.calculateTo Q junk E v = some (∫ y in a..v, R.diff E y) := by
    intro v hv
    have hav : a < v := by
      unfold Spec.SeparatedLosses at hv
      split_ifs at hv
      · linarith [hv.lt]
      · exact hv.lt
    refine ⟨hav, ?_⟩
    unfold RateCalc.calculateTo
    rw [hl.1]
    simp only [if_pos hav, R.kind.integral_eq Q hQ junk (R.diff E) a v hv]
  refine ⟨hfull, hto, fun hs => ?_, fun v hv hs => ?_⟩
  · unfold RateCalc.calculate
    rw [hl.2, (hRto b hs).2, hfull]
  · rw [(hRto v hs).2, hto v (hRto v hs).1.le hv]

/-- C114: where a table is exact, a loss from the search carries the requested rate. If the search fails, the bisection gives a
loss whose coordinate differs by less than a millionth from that of a loss with this rate. -/
theorem C114_table_loss_partial (T : RateTable) (R : RateCalc) (E a b rate : ℝ)
    (ht : Spec.TableExact T R E a b) (hf : Spec.FindExact T E) (hl : Spec.LossRange R E a b) (h0 : 0 < a) (h1 : a < b)
    (h2 : b < 1) (hcont : ContinuousOn (T.table E) (Set.Icc 0 1)) (hr0 : 0 ≤ rate) (hr : rate ≤ ∫ y in a..b, R.diff E y) :
    ∃ v, T.upperLimit E rate = .loss v ∧ a ≤ v ∧ v ≤ b ∧
      (T.find E rate ≠ none → ∫ y in a..v, R.diff E y = rate) ∧
      ∃ w x y, a ≤ w ∧ w ≤ b ∧ ∫ y in a..w, R.diff E y = rate ∧ T.axis.transform a b x = some v ∧
        T.axis.transform a b y = some w ∧ |x - y| < 1 / 10 ^ 6 := by
  have hc := C35_inverse_bijections T.axis a b h0 h1 h2
  have hE : ¬ E < T.lower := not_lt.mpr ht.2.2.1
  have hat := ht.2.2.2
  have hstart : T.table E 0 = 0 := by
    rw [hat 0 a le_rfl zero_le_one hc.low, intervalIntegral.integral_same]
  have hend : T.table E 1 = ∫ y in a..b, R.diff E y := hat 1 b zero_le_one le_rfl hc.high
  unfold RateTable.upperLimit
  rw [if_neg hE, ht.1, ht.2.1, hl.1, hl.2]
  simp only
  rcases hfind : T.find E rate with _ | x
  · obtain ⟨x1, e1, e2, e3, e4⟩ := hc.back a le_rfl h1.le
    obtain ⟨x2, f1, f2, f3, f4⟩ := hc.back b h1.le le_rfl
    have g1 : x1 = 0 := by
      by_contra h
      have := hc.mono 0 x1 a a le_rfl (lt_of_le_of_ne e2 (Ne.symm h)) e3 hc.low e4
      exact lt_irrefl _ this
    have g2 : x2 = 1 := by
      by_contra h
      have := hc.mono x2 1 b b f2 (lt_of_le_of_ne f3 h) le_rfl f4 hc.high
      exact lt_irrefl _ this
    subst g1 g2
    rw [e1, f1]
    simp only
    have hprod : (T.table E 0 - rate) * (T.table E 1 - rate) ≤ 0 := by
      rw [hstart, hend]
      exact mul_nonpos_of_nonpos_of_nonneg (by linarith) (by linarith)
    obtain ⟨p, q, b1, b2, b3, b4, b5, b6⟩ := (C51_bisection (fun x => T.table E x - rate) 0 1 (1 / 10 ^ 6) 100).2 hprod
    obtain ⟨p', q', c1, c2, r, c3, c4, c5⟩ := C51_bisection_root (fun x => T.table E x - rate) 0 1 (1 / 10 ^ 6) 100
      (by rw [Set.uIcc_of_le zero_le_one]; exact hcont.sub continuousOn_const) hprod (by norm_num)
    rw [b1] at c1
    obtain ⟨rfl, rfl⟩ := Prod.mk.inj (Except.ok.inj c1)
    rw [b1]
    simp only [min_eq_left zero_le_one, max_eq_right zero_le_one] at b2 b4 ⊢
    obtain ⟨v, k1, k2, k3, k4⟩ := hc.range ((p + q) / 2) (by linarith) (by linarith)
    obtain ⟨w, l1, l2, l3, l4⟩ := hc.range r (by linarith) (by linarith)
    rw [k1]
    refine ⟨v, rfl, k2, k3, fun h => absurd rfl h, w, _, r, l2, l3, ?_, k1, l1, ?_⟩
    · rw [← hat r w (by linarith) (by linarith) l1]
      linarith
    · rw [abs_lt]
      constructor <;> linarith
  · obtain ⟨k0, k1, k2⟩ := hf rate x hfind
    obtain ⟨v, l1, l2, l3, l4⟩ := hc.range x k0 k1
    simp only [l1]
    have := hat x v k0 k1 l1
    rw [k2] at this
    exact ⟨v, rfl, l2, l3, fun _ => this.symm, v, x, x, l2, l3, this.symm, l1, l1, by norm_num⟩

/-- C114, where the code differs: below the table the rate is 0, whatever the cross section, and the search throws. Negative
values of the spline are rates of 0. -/
theorem C114_table_below (T : RateTable) (E : ℝ) :
    (E < T.lower → T.calculate E = 0 ∧ (∀ v, T.calculateTo E v = some 0) ∧ ∀ rate, T.upperLimit E rate = .invalidArgument) ∧
    0 ≤ T.calculate E ∧ ∀ v r, T.calculateTo E v = some r → 0 ≤ r := by
  have hev : ∀ x, 0 ≤ T.evaluate E x := by
    intro x
    unfold RateTable.evaluate
    split_ifs with h1 h2
    · exact le_rfl
    · exact le_rfl
    · exact not_lt.mp h2
  refine ⟨fun h => ⟨?_, fun v => ?_, fun rate => ?_⟩, hev 1, fun v r => ?_⟩
  · unfold RateTable.calculate RateTable.evaluate
    rw [if_pos h]
  · unfold RateTable.calculateTo
    rw [if_pos h]
  · unfold RateTable.upperLimit
    rw [if_pos h]
  · unfold RateTable.calculateTo
    split_ifs with h
    · intro e
      rw [← Option.some.inj e]
    · rcases (integrationLimits T.cut (T.lim E) E).1 with a | _ | _ | _ <;> intro e
      · rcases h3 : T.axis.retransform a (T.lim E).vMax v with _ | x
        · simp [h3] at e
        · simp only [h3, Option.map_some, Option.some.injEq] at e
          rw [← e]
          exact hev x
      all_goals simp at e

/-- Beyond the largest loss, a table gives the full rate except for Compton scattering, as opposed to `C114_beyond`. -/
theorem C114_table_beyond (T : RateTable) (E a v : ℝ) (hk : T.axis ≠ .compton) (hE : T.lower ≤ E)
    (hl : (integrationLimits T.cut (T.lim E) E).1 = .fin a) (h1 : a < (T.lim E).vMax) (h0 : 0 < a) (hv : (T.lim E).vMax ≤ v) :
    T.calculateTo E v = some (T.calculate E) := by
  unfold RateTable.calculateTo
  rw [if_neg (not_lt.mpr hE), hl]
  have : T.axis.retransform a (T.lim E).vMax v = some 1 := by
    rcases hax : T.axis with _ | _ | _
    · exact (C35_clamped a _ 1 0 v h0 h1).2.2.2 hv
    · exact (C35_clamped a _ (3 / 2) 0 v h0 h1).2.2.2 hv
    · exact absurd hax hk
  simp only [this, Option.map_some]
  rfl

/-! ## Examples -/

/-- Constant cross sections between 1/4 and 1/2: half of the rate gives the loss 3/8, for each kind. -/
example (k : RateKind) : ∃ search, Spec.ExactRefine search ∧
    let R : RateCalc := ⟨k, fun _ => ⟨1 / 4, 1 / 2⟩, none, fun _ _ => 2⟩
    R.calculate exactQ newIntegral 1 = some (1 / 2) ∧ R.upperLimit exactQ search newIntegral 1 (1 / 4) = .loss (3 / 8) ∧
    ∀ r2 v2, 1 / 4 < r2 → r2 ≤ 1 / 2 → R.upperLimit exactQ search newIntegral 1 r2 = .loss v2 → 3 / 8 < v2 := by
  obtain ⟨search, hr⟩ := exactRefine_exists
  refine ⟨search, hr, ?_⟩
  intro R
  have hl : Spec.LossRange R 1 (1 / 4) (1 / 2) := ⟨rfl, rfl⟩
  have hs : Spec.SeparatedLosses R.kind (1 / 4) (1 / 2) := by
    unfold Spec.SeparatedLosses Spec.Separated
    split_ifs <;> norm_num
  have hint : ∫ v in (1 / 4 : ℝ)..(1 / 2), R.diff 1 v = 1 / 2 := by
    simp only [R, intervalIntegral.integral_const, smul_eq_mul]
    norm_num
  obtain ⟨h1, h2⟩ := C114_integral_partial R exactQ exactQ_exact search hr newIntegral 1 _ _ hl hs
  rw [hint] at h1
  obtain ⟨v, e1, -, -, e4, -⟩ := h2 (1 / 4) (by norm_num) (by rw [hint]; norm_num)
  have hv : v = 3 / 8 := by
    simp only [R, intervalIntegral.integral_const, smul_eq_mul] at e4
    linarith
  subst hv
  refine ⟨h1, e1, fun r2 v2 h3 h4 h5 => ?_⟩
  exact C114_monotone_partial R exactQ exactQ_exact search hr newIntegral 1 _ _ hl hs (by simp [R])
    (fun _ _ _ => by norm_num [R]) (1 / 4) r2 _ v2 (by norm_num) h3 (by rw [hint]; exact h4) e1 h5

/-- The table of a constant cross section between 1/4 and 1/2, without a search: half of the rate gives a loss near 3/8. -/
example : let R : RateCalc := ⟨.general, fun _ => ⟨1 / 4, 1 / 2⟩, none, fun _ _ => 2⟩
    let T : RateTable := ⟨.general, R.lim, none, 1, fun _ x => 2 * (1 / 4 * Real.exp (x * Real.log 2) - 1 / 4), fun _ _ => none⟩
    T.calculate 2 = 1 / 2 ∧ R.calculate exactQ newIntegral 2 = some (1 / 2) ∧
    ∃ v x y, T.upperLimit 2 (1 / 4) = .loss v ∧ T.axis.transform (1 / 4) (1 / 2) x = some v ∧
      T.axis.transform (1 / 4) (1 / 2) y = some (3 / 8) ∧ |x - y| < 1 / 10 ^ 6 := by
  intro R T
  have hl : Spec.LossRange R 2 (1 / 4) (1 / 2) := ⟨rfl, rfl⟩
  have ht : Spec.TableExact T R 2 (1 / 4) (1 / 2) := by
    refine ⟨rfl, rfl, by norm_num [T], fun x v h0 h1 hv => ?_⟩
    have hv' : v = 1 / 4 * Real.exp (x * Real.log 2) := by
      simp only [T, LossAxis.transform, transformRel] at hv
      rw [if_neg (by rintro (h | h) <;> linarith)] at hv
      rcases h1.lt_or_eq with h1 | rfl
      · rw [if_neg (not_le.mpr h1), if_neg (by norm_num)] at hv
        rw [← Option.some.inj hv, Real.rpow_one]
        norm_num
      · rw [if_pos le_rfl] at hv
        rw [← Option.some.inj hv, one_mul, Real.exp_log two_pos]
        norm_num
    simp only [T, R, intervalIntegral.integral_const, smul_eq_mul, hv']
    ring
  have hs : Spec.SeparatedLosses R.kind (1 / 4) (1 / 2) := by
    simp only [R]
    rw [Spec.SeparatedLosses, if_neg (by decide)]
    unfold Spec.Separated
    norm_num
  have hint : ∫ v in (1 / 4 : ℝ)..(1 / 2), R.diff 2 v = 1 / 2 := by
    simp only [R, intervalIntegral.integral_const, smul_eq_mul]
    norm_num
  obtain ⟨h1, -, h3, -⟩ := C114_table_rates_partial T R exactQ exactQ_exact newIntegral 2 _ _ ht hl (by norm_num) (by norm_num)
    (by norm_num) (fun _ _ _ => by norm_num [R])
  rw [hint] at h1
  obtain ⟨v, e1, -, -, -, w, x, y, -, -, e2, e3, e4, e5⟩ := C114_table_loss_partial T R 2 _ _ (1 / 4) ht
    (fun _ _ h => by simp [T] at h) hl (by norm_num) (by norm_num) (by norm_num) (by simp only [T]; fun_prop) (by norm_num)
    (by rw [hint]; norm_num)
  have hw : w = 3 / 8 := by
    simp only [R, intervalIntegral.integral_const, smul_eq_mul] at e2
    linarith
  rw [h1] at h3
  exact ⟨h1, h3 hs, v, x, y, e1, e3, hw ▸ e4, e5⟩

/-- A general process from 0 on. -/
example (search : IState → Option ℝ) : let R : RateCalc := ⟨.general, fun _ => ⟨0, 1 / 2⟩, none, fun _ _ => 2⟩
    R.calculate exactQ newIntegral 1 = some 0 ∧ R.upperLimit exactQ search newIntegral 1 1 = .invalidArgument := by
  intro R
  obtain ⟨h1, -, h2⟩ := C114_zero_lower_limit R exactQ search newIntegral 1 (1 / 2) rfl ⟨rfl, rfl⟩ (by norm_num)
  exact ⟨h1, h2 1⟩

end Proposal
