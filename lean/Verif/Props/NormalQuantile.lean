import Verif.Lemmas.QuantileTailError
import Verif.Props.Highland
import Verif.Props.Statistics

/-! Property C138: the quantiles of the normal distribution, with the coefficients of the code. -/

namespace Proposal
open Spec

/-- C138: at the value of `normalppf` the normal distribution function is the given probability, up to 10^-12 of the smaller of the
probability and its complement. This holds for every probability that a normal number of type double can be. -/
theorem C138_probability (p : ℝ) (h0 : (10 : ℝ) ^ (-308 : ℤ) ≤ p) (h1 : (10 : ℝ) ^ (-308 : ℤ) ≤ 1 - p) :
    ∃ x, normalppf erfc p = some x ∧ |Phi x - p| ≤ 1e-12 * min p (1 - p) := by
  have lower : ∀ p : ℝ, (10 : ℝ) ^ (-308 : ℤ) ≤ p → p ≤ 0.5 → ∃ x, normalppf erfc p = some x ∧ |Phi x - p| ≤ 1e-12 * p := by
    intro p a b
    rcases lt_or_ge p 0.02425 with c | c
    · exact tail_quantile a c
    · obtain ⟨x, e, h⟩ := ctr_quantile (p := 1 - p) (by norm_num at b ⊢; linarith) (by norm_num at c ⊢; linarith)
      rw [C108_symmetric erfc erfc_neg] at e
      cases hp : normalppf erfc p with
      | none => simp [hp] at e
      | some y =>
        rw [hp, Option.map_some, Option.some.injEq] at e
        refine ⟨y, rfl, ?_⟩
        rw [← e, Phi_neg, show 1 - Phi y - (1 - p) = -(Phi y - p) by ring, abs_neg, sub_sub_cancel] at h
        exact h
  rcases le_total p 0.5 with c | c
  · rw [min_eq_left (by norm_num at c ⊢; linarith)]
    exact lower p h0 c
  · rw [min_eq_right (by norm_num at c ⊢; linarith)]
    obtain ⟨x, e, h⟩ := lower (1 - p) h1 (by norm_num at c ⊢; linarith)
    have e' := C108_symmetric erfc erfc_neg (1 - p)
    rw [sub_sub_cancel, e] at e'
    refine ⟨-x, e', ?_⟩
    rw [Phi_neg, show 1 - Phi x - p = -(Phi x - (1 - p)) by ring, abs_neg]
    exact h

lemma Phi_strictMono : StrictMono Phi :=
  strictMono_of_deriv_pos fun x => by rw [(Phi_deriv x).deriv]; exact density_pos x

/-- The probability is at most three times the density below the mean. -/
lemma Phi_le_three {z : ℝ} (hz : z ≤ 0) : Phi z ≤ 3 * density z := by
  rcases le_total z (-1) with h | h
  · linarith [Phi_le_density h, density_pos z]
  · have h1 : Phi z ≤ 1 / 2 := Phi_zero ▸ Phi_strictMono.monotone hz
    have h2 : 1 / 6 ≤ density z := by
      unfold density
      have hs := sqrt_two_pi
      have hs0 : 0 < Real.sqrt (2 * Real.pi) := Real.sqrt_pos.2 (by positivity)
      rw [le_div_iff₀ hs0]
      have a1 : 1 - 1 / 2 ≤ Real.exp (-(z ^ 2 / 2)) := by
        have := Real.add_one_le_exp (-(z ^ 2 / 2))
        nlinarith
      have := hs.2
      norm_num at this a1 ⊢
      linarith
    linarith

/-- Close below and above a point the distribution function changes by at least half of the density there. -/
lemma Phi_gap {z s ε : ℝ} (hε : 0 ≤ ε) (h1 : ε ≤ 1 / 4) (h2 : |z| * ε ≤ 1 / 4) (hs : z + ε ≤ s ∨ s ≤ z - ε) :
    ε * density z / 2 ≤ |Phi s - Phi z| := by
  have hd := density_pos z
  have hlow : ∀ t, |t| ≤ ε → density z / 2 ≤ density (z + t) := by
    intro t ht
    rw [density_add]
    have a1 := Real.add_one_le_exp (-(z * t) - t ^ 2 / 2)
    have a2 : |z * t| ≤ 1 / 4 := by
      rw [abs_mul]
      exact (mul_le_mul_of_nonneg_left ht (abs_nonneg z)).trans h2
    have a3 : t ^ 2 ≤ 1 / 4 := by
      rw [← sq_abs]
      nlinarith [abs_nonneg t]
    have a4 := abs_le.1 a2
    have a5 : 1 / 2 ≤ Real.exp (-(z * t) - t ^ 2 / 2) := by linarith
    nlinarith
  have hmvt : ∀ a b, a ≤ b → (∀ y ∈ Set.Icc a b, density z / 2 ≤ density y) → density z / 2 * (b - a) ≤ Phi b - Phi a := by
    intro a b hab h
    exact Convex.mul_sub_le_image_sub_of_le_deriv (convex_Icc a b) (fun y _ => (Phi_deriv y).continuousAt.continuousWithinAt)
      (fun y _ => (Phi_deriv y).differentiableAt.differentiableWithinAt)
      (fun y hy => by rw [(Phi_deriv y).deriv]; exact h y (interior_subset hy)) a (Set.left_mem_Icc.2 hab) b (Set.right_mem_Icc.2 hab) hab
  rcases hs with hs | hs
  · have m := hmvt z (z + ε) (by linarith) (fun y hy => by
      have := hlow (y - z) (by rw [abs_of_nonneg (by linarith [hy.1])]; linarith [hy.2])
      rwa [add_sub_cancel] at this)
    have := Phi_strictMono.monotone hs
    refine le_trans ?_ (le_abs_self _)
    linarith
  · have m := hmvt (z - ε) z (by linarith) (fun y hy => by
      have := hlow (y - z) (by rw [abs_of_nonpos (by linarith [hy.2])]; linarith [hy.1])
      rwa [add_sub_cancel] at this)
    have := Phi_strictMono.monotone hs
    refine le_trans ?_ (neg_le_abs _)
    linarith

/-- C138: there is exactly one number at which the distribution function is the given probability, and `normalppf` gives it up to 10^-11. -/
theorem C138_quantile (p : ℝ) (h0 : (10 : ℝ) ^ (-308 : ℤ) ≤ p) (h1 : (10 : ℝ) ^ (-308 : ℤ) ≤ 1 - p) :
    ∃! z, Phi z = p ∧ ∃ x, normalppf erfc p = some x ∧ |x - z| ≤ 1e-11 := by
  have p0 : 0 < p := lt_of_lt_of_le (by positivity) h0
  have p1 : p < 1 := by
    have : (0 : ℝ) < (10 : ℝ) ^ (-308 : ℤ) := by positivity
    linarith
  have hc : Continuous Phi := continuous_iff_continuousAt.2 fun x => (Phi_deriv x).continuousAt
  obtain ⟨z, hz⟩ : ∃ z, Phi z = p := by
    have hb : Filter.Tendsto Phi Filter.atBot (nhds 0) := ProbabilityTheory.tendsto_cdf_atBot _
    have ht : Filter.Tendsto Phi Filter.atTop (nhds 1) := ProbabilityTheory.tendsto_cdf_atTop _
    obtain ⟨a, ha⟩ := (hb.eventually_lt_const p0).exists
    obtain ⟨b, hb⟩ := (ht.eventually_const_lt p1).exists
    exact mem_range_of_exists_le_of_exists_ge hc ⟨a, ha.le⟩ ⟨b, hb.le⟩
  obtain ⟨x, hx, he⟩ := C138_probability p h0 h1
  refine ⟨z, ⟨hz, x, hx, ?_⟩, fun y hy => Phi_strictMono.injective (hy.1.trans hz.symm)⟩
  -- the lower half
  have lower : ∀ {z x : ℝ}, z ≤ 0 → (10 : ℝ) ^ (-308 : ℤ) ≤ Phi z → |Phi x - Phi z| ≤ 1e-12 * Phi z → |x - z| ≤ 1e-11 := by
    intro z x hz0 hlow hx
    by_contra hcon
    push Not at hcon
    have hz1 : |z| ≤ 100 := by
      rw [abs_of_nonpos hz0]
      by_contra h
      push Not at h
      have a1 := Phi_le_density (x := z) (by linarith)
      have a2 : density z ≤ Real.exp (-5000) := by
        unfold density
        have hs : 1 ≤ Real.sqrt (2 * Real.pi) := by
          rw [Real.one_le_sqrt]
          have := Real.pi_gt_three
          linarith
        refine (div_le_self (Real.exp_pos _).le hs).trans (Real.exp_le_exp.2 ?_)
        nlinarith
      have a3 : Real.exp (-5000) < (10 : ℝ) ^ (-308 : ℤ) := by
        rw [← Real.lt_log_iff_exp_lt (by positivity), Real.log_zpow]
        have : Real.log 10 ≤ 9 := by
          have := Real.log_le_sub_one_of_pos (show (0 : ℝ) < 10 by norm_num)
          linarith
        push_cast
        linarith
      linarith
    have hgap := Phi_gap (z := z) (s := x) (ε := 1e-11) (by norm_num) (by norm_num)
      ((mul_le_mul_of_nonneg_right hz1 (by norm_num)).trans (by norm_num)) (by
        rcases lt_abs.1 hcon with h | h
        · exact Or.inl (by linarith)
        · exact Or.inr (by linarith))
    have h3 := Phi_le_three hz0
    have hd := density_pos z
    have := hgap.trans hx
    norm_num at this
    linarith
  rw [← hz] at he h0 h1
  rcases le_total z 0 with h | h
  · exact lower h h0 (he.trans (mul_le_mul_of_nonneg_left (min_le_left _ _) (by norm_num)))
  · have := lower (z := -z) (x := -x) (by linarith) (by rw [Phi_neg]; exact h1) (by
      rw [Phi_neg, Phi_neg, show 1 - Phi x - (1 - Phi z) = -(Phi x - Phi z) by ring, abs_neg]
      exact he.trans (mul_le_mul_of_nonneg_left (min_le_right _ _) (by norm_num)))
    rwa [show -x - -z = -(x - z) by ring, abs_neg] at this

lemma Phi_pos (x : ℝ) : 0 < Phi x := lt_of_le_of_lt (Phi_nonneg (x - 1)) (Phi_strictMono (by linarith))

lemma Phi_lt_one (x : ℝ) : Phi x < 1 := by
  have := Phi_pos (-x)
  rw [Phi_neg] at this
  linarith

/-- C138: for a random number with equal probability everywhere between 0 and 1 the values of `normalppf` have the normal distribution,
up to 2·10^-12 in every probability. -/
theorem C138_law (t : ℝ) :
    ENNReal.ofReal (Phi t - 2e-12) ≤ MeasureTheory.volume {r : ℝ | 0 < r ∧ r < 1 ∧ ∃ x, normalppf erfc r = some x ∧ x ≤ t} ∧
      MeasureTheory.volume {r : ℝ | 0 < r ∧ r < 1 ∧ ∃ x, normalppf erfc r = some x ∧ x ≤ t} ≤ ENNReal.ofReal (Phi t + 2e-12) := by
  have hsmall : (10 : ℝ) ^ (-308 : ℤ) ≤ 1e-12 := by
    have : (10 : ℝ) ^ (-308 : ℤ) ≤ (10 : ℝ) ^ (-12 : ℤ) := zpow_le_zpow_right₀ (by norm_num) (by norm_num)
    refine this.trans (le_of_eq ?_)
    norm_num
  have t1 := Phi_lt_one t
  have acc : ∀ r : ℝ, 1e-12 ≤ r → r ≤ 1 - 1e-12 → ∃ x, normalppf erfc r = some x ∧ |Phi x - r| ≤ 1e-12 := by
    intro r a b
    obtain ⟨x, e, h⟩ := C138_probability r (hsmall.trans a) (by linarith)
    refine ⟨x, e, h.trans ?_⟩
    have h2 : min r (1 - r) ≤ 1 := (min_le_right _ _).trans (by linarith)
    exact (mul_le_mul_of_nonneg_left h2 (by norm_num)).trans (by norm_num)
  constructor
  · rw [show Phi t - 2e-12 = (Phi t - 1e-12) - 1e-12 by norm_num; ring, ← Real.volume_Ico]
    refine MeasureTheory.measure_mono fun r hr => ?_
    obtain ⟨x, e, h⟩ := acc r hr.1 (by linarith [hr.2])
    have hr1 := hr.1
    have hr2 := hr.2
    refine ⟨by norm_num at hr1 ⊢; linarith, by norm_num at hr2 ⊢; linarith, x, e, Phi_strictMono.le_iff_le.1 ?_⟩
    linarith [(abs_le.1 h).2]
  · have p0 := Phi_pos t
    have hsub : {r : ℝ | 0 < r ∧ r < 1 ∧ ∃ x, normalppf erfc r = some x ∧ x ≤ t} ⊆
        Set.Icc 0 (Phi t + 1e-12) ∪ Set.Icc (1 - 1e-12) 1 := by
      rintro r ⟨r0, r1, x, e, hx⟩
      rcases le_total (1 - 1e-12) r with h | h
      · exact Or.inr ⟨h, r1.le⟩
      refine Or.inl ⟨r0.le, ?_⟩
      by_contra hcon
      push Not at hcon
      obtain ⟨y, e', hy⟩ := acc r (by linarith) h
      rw [e, Option.some.injEq] at e'
      subst e'
      have := Phi_strictMono.monotone hx
      linarith [(abs_le.1 hy).1]
    refine (MeasureTheory.measure_mono hsub).trans ((MeasureTheory.measure_union_le _ _).trans ?_)
    rw [Real.volume_Icc, Real.volume_Icc, ← ENNReal.ofReal_add (by norm_num; linarith) (by norm_num)]
    refine ENNReal.ofReal_le_ofReal ?_
    norm_num
    linarith

/-- The normal distribution with the quantile function of the code; NaN is 0 here and excluded below. -/
noncomputable def codeNormal : Normal := ⟨Phi, fun p => (normalppf erfc p).getD 0⟩

/-- The normal distribution with its exact quantile function. -/
noncomputable def exactNormal : Normal := ⟨Phi, fun p => Function.invFun Phi p⟩

lemma Phi_surj {p : ℝ} (p0 : 0 < p) (p1 : p < 1) : ∃ z, Phi z = p := by
  have hc : Continuous Phi := continuous_iff_continuousAt.2 fun x => (Phi_deriv x).continuousAt
  have hb : Filter.Tendsto Phi Filter.atBot (nhds 0) := ProbabilityTheory.tendsto_cdf_atBot _
  have ht : Filter.Tendsto Phi Filter.atTop (nhds 1) := ProbabilityTheory.tendsto_cdf_atTop _
  obtain ⟨a, ha⟩ := (hb.eventually_lt_const p0).exists
  obtain ⟨b, hb⟩ := (ht.eventually_const_lt p1).exists
  exact mem_range_of_exists_le_of_exists_ge hc ⟨a, ha.le⟩ ⟨b, hb.le⟩

/-- C138: the normal distribution meets the assumption of the properties C53 and C61. -/
theorem C138_exact : Exact exactNormal where
  mono := Phi_strictMono
  pos := Phi_pos
  lt_one := Phi_lt_one
  inverse := fun _ h0 h1 => Function.invFun_eq (Phi_surj h0 h1)

/-- C138: `SampleFromGaussian` gives the same sample as with exact quantiles up to 10^-11 widths, so it has the truncated distribution of
`C53_gaussian_distribution` and stays within the limits up to 10^-11 widths, as long as the drawn probability is a normal number of type
double. -/
theorem C138_gaussian (mean sigma rnd : ℝ) (hs : 0 < sigma) (lo hi : Limit) (h : Ordered lo hi) (r0 : 0 < rnd) (r1 : rnd < 1)
    (h0 : (10 : ℝ) ^ (-308 : ℤ) ≤ exactNormal.lower mean sigma lo + (exactNormal.upper mean sigma hi - exactNormal.lower mean sigma lo) * rnd)
    (h1 : (10 : ℝ) ^ (-308 : ℤ) ≤
      1 - (exactNormal.lower mean sigma lo + (exactNormal.upper mean sigma hi - exactNormal.lower mean sigma lo) * rnd)) :
    |sampleFromGaussian codeNormal mean sigma rnd lo hi - sampleFromGaussian exactNormal mean sigma rnd lo hi| ≤ 1e-11 * sigma ∧
      Above (sampleFromGaussian codeNormal mean sigma rnd lo hi + 1e-11 * sigma) lo ∧
      Below (sampleFromGaussian codeNormal mean sigma rnd lo hi - 1e-11 * sigma) hi := by
  have hrange := C53_gaussian_in_range_partial exactNormal C138_exact mean sigma rnd hs lo hi h r0 r1
  have key : |sampleFromGaussian codeNormal mean sigma rnd lo hi - sampleFromGaussian exactNormal mean sigma rnd lo hi| ≤ 1e-11 * sigma := by
    unfold sampleFromGaussian
    simp only [if_neg hs.ne']
    have e1 : codeNormal.lower mean sigma lo = exactNormal.lower mean sigma lo := by cases lo <;> rfl
    have e2 : codeNormal.upper mean sigma hi = exactNormal.upper mean sigma hi := by cases hi <;> rfl
    rw [e1, e2]
    generalize exactNormal.lower mean sigma lo + (exactNormal.upper mean sigma hi - exactNormal.lower mean sigma lo) * rnd = p at *
    obtain ⟨z, ⟨hz, x, hx, hxz⟩, -⟩ := C138_quantile p h0 h1
    have c1 : codeNormal.ppf p = x := by
      show (normalppf erfc p).getD 0 = x
      rw [hx]
      rfl
    have c2 : exactNormal.ppf p = z := by
      show Function.invFun Phi p = z
      rw [← hz]
      exact Function.leftInverse_invFun Phi_strictMono.injective z
    rw [c1, c2, show sigma * x + mean - (sigma * z + mean) = (x - z) * sigma by ring, abs_mul, abs_of_pos hs]
    exact mul_le_mul_of_nonneg_right hxz hs.le
  refine ⟨key, ?_, ?_⟩
  · cases lo with
    | inf => trivial
    | «at» a =>
      have h2 : a ≤ sampleFromGaussian exactNormal mean sigma rnd (.at a) hi := hrange.1
      show a ≤ _
      linarith [(abs_le.1 key).1]
  · cases hi with
    | inf => trivial
    | «at» a =>
      have h2 : sampleFromGaussian exactNormal mean sigma rnd lo (.at a) ≤ a := hrange.2
      show _ ≤ a
      linarith [(abs_le.1 key).2]

/-- The hypotheses of `C138_gaussian` for the median of the whole normal distribution. -/
example : (10 : ℝ) ^ (-308 : ℤ) ≤ exactNormal.lower 0 1 .inf + (exactNormal.upper 0 1 .inf - exactNormal.lower 0 1 .inf) * (1 / 2) ∧
    Ordered .inf .inf ∧ (10 : ℝ) ^ (-308 : ℤ) ≤ 1 - (1 / 2 : ℝ) := by
  have : (10 : ℝ) ^ (-308 : ℤ) ≤ 1 / 2 := by
    have : (10 : ℝ) ^ (-308 : ℤ) ≤ (10 : ℝ) ^ (-1 : ℤ) := zpow_le_zpow_right₀ (by norm_num) (by norm_num)
    norm_num at this ⊢
    linarith
  refine ⟨?_, trivial, by linarith⟩
  simp only [Normal.lower, Normal.upper]
  linarith

/-- `C138_probability` in the middle: the quantile of one half. -/
example : ∃ x, normalppf erfc (1 / 2) = some x ∧ |Phi x - 1 / 2| ≤ 1e-12 * (1 / 2) := by
  have h : (10 : ℝ) ^ (-308 : ℤ) ≤ 1 / 2 := by
    have : (10 : ℝ) ^ (-308 : ℤ) ≤ (10 : ℝ) ^ (-1 : ℤ) := zpow_le_zpow_right₀ (by norm_num) (by norm_num)
    norm_num at this ⊢
    linarith
  have := C138_probability (1 / 2) h (by linarith)
  rwa [show (1 : ℝ) - 1 / 2 = 1 / 2 by norm_num, min_self] at this

end Proposal
