import Verif.Model.MultipleScattering
import Mathlib.MeasureTheory.Integral.Bochner.Basic
import Mathlib.MeasureTheory.Integral.Bochner.Set
import Mathlib.MeasureTheory.Measure.Count
import Mathlib.Analysis.SpecialFunctions.Integrals.Basic
import Mathlib.Analysis.Complex.ExponentialBounds
import Verif.Model.Calculators

/-! Properties C108, C109: Highland's parametrization of multiple scattering. -/

namespace Proposal

/-! ## The normal distribution -/

private theorem ppfCentre_neg (p : ℝ) : ppfCentre (1 - p) = -ppfCentre p := by
  unfold ppfCentre
  have h : 1 - p - 0.5 = -(p - 0.5) := by ring
  simp only [h, neg_mul_neg]
  rw [mul_neg, neg_div]

private theorem ppfStart_neg (p : ℝ) : ppfStart (1 - p) = -ppfStart p := by
  unfold ppfStart
  by_cases h1 : p < 0.02425
  · rw [if_pos h1, if_neg (by norm_num at h1 ⊢; linarith), if_neg (by norm_num at h1 ⊢; linarith), sub_sub_cancel]
  · rw [if_neg h1]
    by_cases h2 : p ≤ 1 - 0.02425
    · rw [if_pos h2, if_neg (by norm_num at h2 ⊢; linarith), if_pos (by norm_num at h1 ⊢; linarith), ppfCentre_neg]
    · rw [if_neg h2, if_pos (by norm_num at h2 ⊢; linarith), neg_neg]

/-- C108: the sampled normal distribution is symmetric: the complementary random number gives the opposite value. -/
theorem C108_symmetric (erfc : ℝ → ℝ) (he : ∀ z, erfc (-z) = 2 - erfc z) (p : ℝ) :
    normalppf erfc (1 - p) = (normalppf erfc p).map (-·) := by
  unfold normalppf
  simp only [ppfStart_neg]
  set x := ppfStart p
  have h1 : 0.5 * erfc (- -x / Real.sqrt 2) - (1 - p) = -(0.5 * erfc (-x / Real.sqrt 2) - p) := by
    have := he (x / Real.sqrt 2)
    rw [neg_neg, neg_div, this]
    ring
  have h2 : 0.5 * -x * -x = 0.5 * x * x := by ring
  rw [h1, h2]
  set e := 0.5 * erfc (-x / Real.sqrt 2) - p
  set w := Real.exp (0.5 * x * x)
  have h3 : 1 + -x * (-e * Real.sqrt (2 * Real.pi) * w) * 0.5 = 1 + x * (e * Real.sqrt (2 * Real.pi) * w) * 0.5 := by ring
  rw [h3]
  by_cases hp : 0 < p ∧ p < 1
  · rw [if_pos hp, if_pos ⟨by linarith [hp.2], by linarith [hp.1]⟩]
    split_ifs
    · rfl
    · simp only [Option.map_some, Option.some.injEq]
      ring
  · rw [if_neg hp, if_neg (fun h => hp ⟨by linarith [h.2], by linarith [h.1]⟩)]
    rfl

/-- C108: the result is the exact quantile if and only if the start value is: Halley's step moves every other value. -/
theorem C108_refined (erfc : ℝ → ℝ) (p x : ℝ) (h : normalppf erfc p = some x) :
    x = ppfStart p ↔ 0.5 * erfc (-ppfStart p / Real.sqrt 2) = p := by
  unfold normalppf at h
  simp only at h
  split_ifs at h with h1 h2
  simp only [Option.some.injEq] at h
  set y := ppfStart p
  have hs : 0 < Real.sqrt (2 * Real.pi) := Real.sqrt_pos.2 (by positivity)
  have hw := Real.exp_pos (0.5 * y * y)
  rw [← h, sub_eq_self, div_eq_zero_iff, or_iff_left h2, mul_eq_zero, or_iff_left hw.ne', mul_eq_zero, or_iff_left hs.ne', sub_eq_zero]

/-- C108: random numbers outside of (0, 1) - also 0 and 1 - give no number. -/
theorem C108_outside (erfc : ℝ → ℝ) (p : ℝ) (h : p ≤ 0 ∨ 1 ≤ p) : normalppf erfc p = none := by
  unfold normalppf
  rw [if_neg]
  rintro ⟨h1, h2⟩
  rcases h with h | h <;> linarith

/-! ## The characteristic angle -/

/-- The correction factor of the logarithm. -/
private theorem corr_mono {y y' : ℝ} (h : 0 ≤ y) (hy : y ≤ y') :
    (if y = 0 then 0 else max (1 + 0.088 * log10 y) 0) ≤ (if y' = 0 then 0 else max (1 + 0.088 * log10 y') 0) := by
  by_cases h0 : y = 0
  · rw [if_pos h0]
    split_ifs
    · exact le_rfl
    · exact le_max_right _ _
  · have hpos : 0 < y := lt_of_le_of_ne h (Ne.symm h0)
    rw [if_neg h0, if_neg (hpos.trans_le hy).ne']
    apply max_le_max_right
    have : Real.log y ≤ Real.log y' := Real.log_le_log hpos hy
    have h10 : 0 < Real.log 10 := Real.log_pos (by norm_num)
    unfold log10
    gcongr

private theorem corr_nonneg (y : ℝ) : (0 : ℝ) ≤ (if y = 0 then 0 else max (1 + 0.088 * log10 y) 0) := by
  split_ifs
  · exact le_rfl
  · exact le_max_right _ _

private theorem betaP_pos {m e : ℝ} (hm : 0 ≤ m) (he : m < e) : 0 < (e - m) * (e + m) / e := by
  have : 0 < e - m := by linarith
  have : 0 < e + m := by linarith
  have : 0 < e := by linarith
  positivity

/-- C108: Highland's angle is defined for every energy above the mass and not negative. It does not decrease with the grammage
and does not increase with the energy, and it is proportional to the charge. -/
theorem C108_theta0 (h : Highland) (g g' e e' c : ℝ) (hm : 0 ≤ h.mass) (hX : 0 < h.radiationLength) (hg : 0 ≤ g) (hgg : g ≤ g')
    (he : h.mass < e) (hee : e ≤ e') :
    ∃ t t' t'', h.theta0 g e = some t ∧ h.theta0 g' e = some t' ∧ h.theta0 g e' = some t'' ∧ 0 ≤ t ∧ t ≤ t' ∧ t'' ≤ t ∧
      ({ h with charge := c * h.charge }).theta0 g e = some (|c| * t) := by
  have hb := betaP_pos hm he
  have hb' := betaP_pos hm (he.trans_le hee)
  have e0 : 0 < e := by linarith
  have e0' : 0 < e' := by linarith
  have hbb : (e - h.mass) * (e + h.mass) / e ≤ (e' - h.mass) * (e' + h.mass) / e' := by
    rw [div_le_div_iff₀ e0 e0']
    nlinarith [mul_nonneg (mul_nonneg e0.le e0'.le) (sub_nonneg.2 hee), mul_nonneg (mul_nonneg hm hm) (sub_nonneg.2 hee)]
  have hy : 0 ≤ g / h.radiationLength := by positivity
  have hyy : g / h.radiationLength ≤ g' / h.radiationLength := by gcongr
  have hc := corr_mono hy hyy
  have hc0 := corr_nonneg (g / h.radiationLength)
  have n1 : ¬(e = 0 ∨ (e - h.mass) * (e + h.mass) / e = 0) := by push Not; exact ⟨e0.ne', hb.ne'⟩
  have n2 : ¬(e' = 0 ∨ (e' - h.mass) * (e' + h.mass) / e' = 0) := by push Not; exact ⟨e0'.ne', hb'.ne'⟩
  simp only [Highland.theta0, if_neg n1, if_neg n2]
  refine ⟨_, _, _, rfl, rfl, rfl, ?_, ?_, ?_, ?_⟩
  · positivity
  · gcongr
  · gcongr
  · rw [abs_mul]
    congr 1
    ring

/-- C108: for one radiation length the angle is 13.6 MeV / (β p); the relative corrections to the root are 8.8 % per decade. -/
theorem C108_value (h : Highland) (e : ℝ) (n : ℤ) (hm : 0 ≤ h.mass) (hX : 0 < h.radiationLength) (he : h.mass < e) (hn : -11 ≤ n) :
    h.theta0 (10 ^ n * h.radiationLength) e =
      some (13.6 * |h.charge| * e / (e ^ 2 - h.mass ^ 2) * Real.sqrt (10 ^ n) * (1 + 0.088 * n)) := by
  have hb := betaP_pos hm he
  have e0 : 0 < e := by linarith
  have hp : (0 : ℝ) < 10 ^ n := by positivity
  unfold Highland.theta0
  simp only
  rw [if_neg (by push Not; exact ⟨e0.ne', hb.ne'⟩), mul_div_cancel_right₀ _ hX.ne', if_neg hp.ne']
  have hl : log10 (10 ^ n) = n := by
    unfold log10
    rw [Real.log_zpow]
    have : Real.log 10 ≠ 0 := (Real.log_pos (by norm_num)).ne'
    field_simp
  have hn' : (-11 : ℝ) ≤ n := by exact_mod_cast hn
  rw [hl, max_eq_left (by linarith)]
  have e1 : e ^ 2 - h.mass ^ 2 = (e - h.mass) * (e + h.mass) := by ring
  have h1 : 0 < e - h.mass := by linarith
  have h2 : 0 < e + h.mass := by linarith
  rw [e1]
  congr 1
  field_simp

/-- C108: below 10^(-12) radiation lengths there is no scattering; at rest there is no number. -/
theorem C108_vanishing (h : Highland) (g e : ℝ) (hm : 0 ≤ h.mass) (hX : 0 < h.radiationLength) (he : h.mass < e) (hg : 0 ≤ g)
    (hs : g ≤ 1e-12 * h.radiationLength) : h.theta0 g e = some 0 ∧ h.theta0 g h.mass = none := by
  have hb := betaP_pos hm he
  have e0 : 0 < e := by linarith
  constructor
  · unfold Highland.theta0
    simp only
    rw [if_neg (by push Not; exact ⟨e0.ne', hb.ne'⟩)]
    congr 1
    rw [mul_eq_zero]
    right
    split_ifs with h0
    · rfl
    · apply max_eq_right
      have hy : 0 < g / h.radiationLength := lt_of_le_of_ne (by positivity) (Ne.symm h0)
      have h1 : g / h.radiationLength ≤ 10 ^ (-12 : ℤ) := by
        rw [div_le_iff₀ hX]
        norm_num at hs ⊢
        exact hs
      have h2 := Real.log_le_log hy h1
      rw [Real.log_zpow] at h2
      have h10 : 0 < Real.log 10 := Real.log_pos (by norm_num)
      have h3 : log10 (g / h.radiationLength) ≤ -12 := by
        unfold log10
        rw [div_le_iff₀ h10]
        push_cast at h2
        exact h2
      linarith
  · unfold Highland.theta0
    simp

/-- C108: Highland's angle has no bound; the one of `HighlandIntegral` is between 0 and 1 for every value of the integral. -/
theorem C108_bounds (h : Highland) (e B : ℝ) (hm : 0 ≤ h.mass) (hX : 0 < h.radiationLength) (he : h.mass < e) (hc : h.charge ≠ 0) :
    (∃ g t, 0 < g ∧ h.theta0 g e = some t ∧ B < t) ∧
    ∀ integral g, ∃ t, h.theta0Integral false integral g = some t ∧ 0 ≤ t ∧ t ≤ 1 := by
  constructor
  · have hb := betaP_pos hm he
    have e0 : 0 < e := by linarith
    have hk : 0 < 13.6 * |h.charge| * e / (e ^ 2 - h.mass ^ 2) := by
      have h1 : 0 < e - h.mass := by linarith
      have h2 : 0 < e + h.mass := by linarith
      have : e ^ 2 - h.mass ^ 2 = (e - h.mass) * (e + h.mass) := by ring
      rw [this]
      have := abs_pos.2 hc
      positivity
    set k := 13.6 * |h.charge| * e / (e ^ 2 - h.mass ^ 2) with hkdef
    obtain ⟨n, hn⟩ := exists_nat_gt (B / k)
    refine ⟨10 ^ ((2 * n : ℕ) : ℤ) * h.radiationLength, _, by positivity, C108_value h e _ hm hX he (by omega), ?_⟩
    rw [← hkdef]
    have h1 : Real.sqrt (10 ^ ((2 * n : ℕ) : ℤ)) = 10 ^ n := by
      rw [zpow_natCast, mul_comm, pow_mul]
      exact Real.sqrt_sq (by positivity)
    rw [h1]
    have h2 : (n : ℝ) ≤ 10 ^ n := by
      have := Nat.lt_pow_self (n := n) (show 1 < 10 by norm_num)
      exact_mod_cast this.le
    have h3 : B < k * n := by rwa [div_lt_iff₀' hk] at hn
    have h4 : k * n ≤ k * 10 ^ n := mul_le_mul_of_nonneg_left h2 hk.le
    have h5 : k * 10 ^ n * 1 ≤ k * 10 ^ n * (1 + 0.088 * (((2 * n : ℕ) : ℤ) : ℝ)) := by
      apply mul_le_mul_of_nonneg_left _ (by positivity)
      have : (0 : ℝ) ≤ (((2 * n : ℕ) : ℤ) : ℝ) := by positivity
      linarith
    linarith
  · intro integral g
    unfold Highland.theta0Integral
    rw [if_neg (by simp)]
    refine ⟨_, rfl, le_min ?_ zero_le_one, min_le_right _ _⟩
    apply mul_nonneg (by positivity)
    split_ifs
    · exact le_rfl
    · exact le_max_right _ _

/-- Highland's angle for `y` radiation lengths at the energy `e`. -/
noncomputable def Spec.highlandAngle (mass charge e y : ℝ) : ℝ :=
  13.6 * |charge| * (e / (e ^ 2 - mass ^ 2)) * (Real.sqrt y * max (1 + 0.038 * Real.log y) 0)

/-- C108: for a particle that loses energy along the way, the angle of `HighlandIntegral` lies between Highland's angle at the
initial and at the final energy for the same grammage, each bounded by 1. The integral is exact. -/
theorem C108_integral_bracket (h : Highland) (asserts : Bool) (dedx : ℝ → ℝ) (ei ef : ℝ) (hm : 0 ≤ h.mass)
    (hX : 0 < h.radiationLength) (hef : h.mass < ef) (hle : ef < ei) (hd : ContinuousOn dedx (Set.Icc ef ei))
    (hp : ∀ E ∈ Set.Icc ef ei, 0 < dedx E) :
    let grammage := ∫ E in ef..ei, 1 / dedx E
    0 < grammage ∧ ∃ t, h.theta0Integral asserts (∫ E in ei..ef, h.integrand (displacementIntegrand dedx) E) grammage = some t ∧
      min (Spec.highlandAngle h.mass h.charge ei (grammage / h.radiationLength)) 1 ≤ t ∧
      t ≤ min (Spec.highlandAngle h.mass h.charge ef (grammage / h.radiationLength)) 1 := by
  intro g
  set a : ℝ → ℝ := fun E => E / ((E - h.mass) * (E + h.mass)) with ha
  have hq : ∀ E ∈ Set.Icc ef ei, 0 < (E - h.mass) * (E + h.mass) := fun E hE =>
    mul_pos (by linarith [hE.1]) (by linarith [hE.1])
  have hc1 : ContinuousOn (fun E => 1 / dedx E) (Set.Icc ef ei) := continuousOn_const.div hd fun E hE => (hp E hE).ne'
  have hca : ContinuousOn a (Set.Icc ef ei) := by
    refine ContinuousOn.div continuousOn_id ?_ fun E hE => (hq E hE).ne'
    fun_prop
  have hai : ∀ E E', h.mass < E → E ≤ E' → 0 ≤ a E' ∧ a E' ≤ a E := by
    intro E E' h1 h2
    have p1 : 0 < (E - h.mass) * (E + h.mass) := mul_pos (by linarith) (by linarith)
    have p2 : 0 < (E' - h.mass) * (E' + h.mass) := mul_pos (by linarith) (by linarith)
    refine ⟨div_nonneg (by linarith) p2.le, ?_⟩
    simp only [ha]
    rw [div_le_div_iff₀ p2 p1]
    have e0 : 0 ≤ E := by linarith
    have e1 : 0 ≤ E' := by linarith
    nlinarith [mul_nonneg (mul_nonneg e0 e1) (sub_nonneg.2 h2), mul_nonneg (mul_nonneg hm hm) (sub_nonneg.2 h2)]
  have hg : 0 < g := by
    refine intervalIntegral.intervalIntegral_pos_of_pos_on ?_ ?_ hle
    · exact ContinuousOn.intervalIntegrable (by rw [Set.uIcc_of_le hle.le]; exact hc1)
    · intro E hE
      exact div_pos one_pos (hp E ⟨hE.1.le, hE.2.le⟩)
  have hI : ∫ E in ei..ef, h.integrand (displacementIntegrand dedx) E = ∫ E in ef..ei, 1 / dedx E * (a E * a E) := by
    rw [intervalIntegral.integral_symm, ← intervalIntegral.integral_neg]
    refine intervalIntegral.integral_congr fun E hE => ?_
    rw [Set.uIcc_of_le hle.le] at hE
    unfold Highland.integrand displacementIntegrand
    simp only [if_pos (hp E hE), ha]
    ring
  have hint : ∀ f : ℝ → ℝ, ContinuousOn f (Set.Icc ef ei) → IntervalIntegrable f MeasureTheory.volume ef ei := fun f hf =>
    ContinuousOn.intervalIntegrable (by rw [Set.uIcc_of_le hle.le]; exact hf)
  set I := ∫ E in ef..ei, 1 / dedx E * (a E * a E) with hIdef
  have hlo : a ei ^ 2 * g ≤ I := by
    rw [← intervalIntegral.integral_const_mul]
    refine intervalIntegral.integral_mono_on hle.le (hint _ (continuousOn_const.mul hc1)) (hint _ (hc1.mul (hca.mul hca))) ?_
    intro E hE
    have h1 := hai E ei (by linarith [hE.1]) hE.2
    have h2 : 0 < 1 / dedx E := div_pos one_pos (hp E hE)
    have h3 : a ei ^ 2 ≤ a E * a E := by nlinarith
    nlinarith
  have hhi : I ≤ a ef ^ 2 * g := by
    rw [← intervalIntegral.integral_const_mul]
    refine intervalIntegral.integral_mono_on hle.le (hint _ (hc1.mul (hca.mul hca))) (hint _ (continuousOn_const.mul hc1)) ?_
    intro E hE
    have h1 := hai ef E hef hE.1
    have h2 : 0 < 1 / dedx E := div_pos one_pos (hp E hE)
    have h3 : a E * a E ≤ a ef ^ 2 := by nlinarith
    nlinarith
  have hI0 : 0 ≤ I := le_trans (by positivity) hlo
  have hy : 0 < g / h.radiationLength := by positivity
  refine ⟨hg, min (13.6 * Real.sqrt (max I 0 / h.radiationLength) * |h.charge| * (if g / h.radiationLength = 0 then 0 else
    max (1 + 0.038 * Real.log (g / h.radiationLength)) 0)) 1, ?_, ?_⟩
  · rw [hI]
    unfold Highland.theta0Integral
    rw [if_neg (by rintro ⟨_, h1⟩; exact h1 hI0)]
  · set c := max (1 + 0.038 * Real.log (g / h.radiationLength)) 0 with hc
    have hc0 : 0 ≤ c := le_max_right _ _
    have hroot : ∀ x, 0 ≤ x → Real.sqrt (x ^ 2 * g / h.radiationLength) = x * Real.sqrt (g / h.radiationLength) := by
      intro x hx
      rw [mul_div_assoc, Real.sqrt_mul (by positivity), Real.sqrt_sq hx]
    have hs : ∀ E, E / (E ^ 2 - h.mass ^ 2) = a E := by
      intro E
      simp only [ha]
      congr 1
      ring
    have b1 := hroot (a ei) (hai ei ei (by linarith) le_rfl).1
    have b2 := hroot (a ef) (hai ef ef hef le_rfl).1
    have s1 : Real.sqrt (a ei ^ 2 * g / h.radiationLength) ≤ Real.sqrt (I / h.radiationLength) :=
      Real.sqrt_le_sqrt (by gcongr)
    have s2 : Real.sqrt (I / h.radiationLength) ≤ Real.sqrt (a ef ^ 2 * g / h.radiationLength) :=
      Real.sqrt_le_sqrt (by gcongr)
    rw [b1] at s1
    rw [b2] at s2
    unfold Spec.highlandAngle
    simp only [hs]
    rw [if_neg hy.ne', max_eq_left hI0, ← hc]
    have hz := abs_nonneg h.charge
    constructor
    · refine min_le_min_right _ ?_
      have := mul_le_mul_of_nonneg_right s1 (mul_nonneg (mul_nonneg (by norm_num : (0 : ℝ) ≤ 13.6) hz) hc0)
      linarith
    · refine min_le_min_right _ ?_
      have := mul_le_mul_of_nonneg_right s2 (mul_nonneg (mul_nonneg (by norm_num : (0 : ℝ) ≤ 13.6) hz) hc0)
      linarith

/-- A muon that loses 2 MeV per grammage from 2000 to 1000 MeV. -/
example : ∃ t, (⟨MMU, -1, 36⟩ : Highland).theta0Integral true (∫ E in (2000 : ℝ)..1000,
    (⟨MMU, -1, 36⟩ : Highland).integrand (displacementIntegrand fun _ => 2) E) 500 = some t ∧ 0 < t := by
  obtain ⟨_, t, h1, h2, _⟩ := C108_integral_bracket ⟨MMU, -1, 36⟩ true (fun _ => 2) 2000 1000 (by norm_num [MMU]) (by norm_num)
    (by norm_num [MMU]) (by norm_num) continuousOn_const (by norm_num)
  have e : ∫ _ in (1000 : ℝ)..2000, (1 : ℝ) / 2 = 500 := by
    rw [intervalIntegral.integral_const]
    norm_num
  rw [e] at h1 h2
  refine ⟨t, h1, lt_of_lt_of_le ?_ h2⟩
  refine lt_min ?_ one_pos
  unfold Spec.highlandAngle
  have : 0 < Real.log (500 / 36) := Real.log_pos (by norm_num)
  have h3 : (0 : ℝ) < max (1 + 0.038 * Real.log (500 / 36)) 0 := lt_max_of_lt_left (by positivity)
  have h4 : (0 : ℝ) < 13.6 * |(-1 : ℝ)| * (2000 / (2000 ^ 2 - MMU ^ 2)) := by norm_num [MMU]
  exact mul_pos h4 (mul_pos (Real.sqrt_pos.2 (by norm_num)) h3)

/-- C108: the factors of the two logarithms, decadic and natural, agree to within a percent. -/
theorem C108_log_factors (y : ℝ) : |0.088 * log10 y - 0.038 * Real.log y| ≤ 0.00038 * |Real.log y| := by
  have h1 := Real.log_two_gt_d9
  have h2 := Real.log_two_lt_d9
  have e : 0.088 * log10 y - 0.038 * Real.log y = (0.088 / Real.log 10 - 0.038) * Real.log y := by
    unfold log10
    ring
  have h3 : 2.3 ≤ Real.log 10 := by
    have := Real.log_le_log (by norm_num) (by norm_num : (2 : ℝ) ^ 93 ≤ 10 ^ 28)
    rw [Real.log_pow, Real.log_pow] at this
    norm_num at this ⊢
    linarith
  have h4 : Real.log 10 ≤ 2.311 := by
    have := Real.log_le_log (by norm_num) (by norm_num : (10 : ℝ) ^ 3 ≤ 2 ^ 10)
    rw [Real.log_pow, Real.log_pow] at this
    norm_num at this ⊢
    linarith
  rw [e, abs_mul]
  refine mul_le_mul_of_nonneg_right ?_ (abs_nonneg _)
  rw [abs_le]
  have h5 : 0 < Real.log 10 := by linarith
  constructor
  · rw [le_sub_iff_add_le, le_div_iff₀ h5]; norm_num; linarith
  · rw [sub_le_iff_le_add, div_le_iff₀ h5]; norm_num; linarith

/-! ## The offsets -/

/-- C108: for uncorrelated normalized variables the final angles of the two planes have the variance `θ₀²`, the offsets the
variance `θ₀² / 3`, and the covariance of angle and offset of a plane is `θ₀² / 2`; the planes are uncorrelated. -/
theorem C108_covariance {Ω : Type} [MeasurableSpace Ω] (μ : MeasureTheory.Measure Ω) (z : Fin 4 → Ω → ℝ) (t : ℝ)
    (hi : ∀ i j, MeasureTheory.Integrable (fun w => z i w * z j w) μ)
    (h : ∀ i j, ∫ w, z i w * z j w ∂μ = if i = j then 1 else 0) (ppf : ℝ → Option ℝ) (r : Ω → Fin 4 → ℝ)
    (hz : ∀ i w, ppf (r w i) = some (z i w)) (o : Ω → ScatteringOffset)
    (ho : ∀ w, highlandOffsets ppf (some t) (r w) = some (o w)) :
    ∫ w, (o w).tx * (o w).tx ∂μ = t ^ 2 ∧ ∫ w, (o w).ty * (o w).ty ∂μ = t ^ 2 ∧
    ∫ w, (o w).sx * (o w).sx ∂μ = t ^ 2 / 3 ∧ ∫ w, (o w).sy * (o w).sy ∂μ = t ^ 2 / 3 ∧
    ∫ w, (o w).sx * (o w).tx ∂μ = t ^ 2 / 2 ∧ ∫ w, (o w).sy * (o w).ty ∂μ = t ^ 2 / 2 ∧
    ∫ w, (o w).sx * (o w).sy ∂μ = 0 ∧ ∫ w, (o w).tx * (o w).ty ∂μ = 0 ∧ ∫ w, (o w).sx * (o w).ty ∂μ = 0 := by
  have ho : ∀ w, o w = offsetsOf (t * z 0 w) (t * z 1 w) (t * z 2 w) (t * z 3 w) := by
    intro w
    have := ho w
    unfold highlandOffsets at this
    simp only [hz, bind, Option.bind_some, pure, Option.some.injEq] at this
    exact this.symm
  have lin : ∀ (a b c d : ℝ) (i j k l : Fin 4), ∫ w, (a * z i w + b * z j w) * (c * z k w + d * z l w) ∂μ =
      a * c * (if i = k then 1 else 0) + a * d * (if i = l then 1 else 0) + b * c * (if j = k then 1 else 0) +
        b * d * (if j = l then 1 else 0) := by
    intro a b c d i j k l
    have e : (fun w => (a * z i w + b * z j w) * (c * z k w + d * z l w)) = fun w =>
        a * c * (z i w * z k w) + a * d * (z i w * z l w) + b * c * (z j w * z k w) + b * d * (z j w * z l w) := by
      funext w; ring
    have i1 : MeasureTheory.Integrable (fun w => a * c * (z i w * z k w)) μ := (hi i k).const_mul _
    have i2 : MeasureTheory.Integrable (fun w => a * d * (z i w * z l w)) μ := (hi i l).const_mul _
    have i3 : MeasureTheory.Integrable (fun w => b * c * (z j w * z k w)) μ := (hi j k).const_mul _
    have i4 : MeasureTheory.Integrable (fun w => b * d * (z j w * z l w)) μ := (hi j l).const_mul _
    have i12 : MeasureTheory.Integrable (fun w => a * c * (z i w * z k w) + a * d * (z i w * z l w)) μ := i1.add i2
    have i123 : MeasureTheory.Integrable (fun w => a * c * (z i w * z k w) + a * d * (z i w * z l w) + b * c * (z j w * z k w)) μ :=
      i12.add i3
    rw [e, MeasureTheory.integral_add i123 i4, MeasureTheory.integral_add i12 i3, MeasureTheory.integral_add i1 i2,
      MeasureTheory.integral_const_mul, MeasureTheory.integral_const_mul, MeasureTheory.integral_const_mul,
      MeasureTheory.integral_const_mul, h, h, h, h]
  have h3 : Real.sqrt 3 * Real.sqrt 3 = 3 := Real.mul_self_sqrt (by norm_num)
  have h30 : Real.sqrt 3 ≠ 0 := by positivity
  have sx : ∀ w, (o w).sx = (0.5 * t / Real.sqrt 3) * z 0 w + (0.5 * t) * z 1 w := by
    intro w; rw [ho]; show 0.5 * (t * z 0 w / Real.sqrt 3 + t * z 1 w) = _; ring
  have sy : ∀ w, (o w).sy = (0.5 * t / Real.sqrt 3) * z 2 w + (0.5 * t) * z 3 w := by
    intro w; rw [ho]; show 0.5 * (t * z 2 w / Real.sqrt 3 + t * z 3 w) = _; ring
  have tx : ∀ w, (o w).tx = t * z 1 w + 0 * z 1 w := by intro w; rw [ho]; show t * z 1 w = _; ring
  have ty : ∀ w, (o w).ty = t * z 3 w + 0 * z 3 w := by intro w; rw [ho]; show t * z 3 w = _; ring
  have q : (0.5 * t / Real.sqrt 3) * (0.5 * t / Real.sqrt 3) = t ^ 2 / 12 := by
    rw [div_mul_div_comm, h3]; ring
  have d : ∀ i j : Fin 4, (if i = j then (1 : ℝ) else 0) = if i.val = j.val then 1 else 0 := by
    intro i j
    simp only [Fin.ext_iff]
  have v0 : ((0 : Fin 4) : ℕ) = 0 := rfl
  have v1 : ((1 : Fin 4) : ℕ) = 1 := rfl
  have v2 : ((2 : Fin 4) : ℕ) = 2 := rfl
  have v3 : ((3 : Fin 4) : ℕ) = 3 := rfl
  simp only [sx, sy, tx, ty, lin, d]
  simp only [q, v0, v1, v2, v3]
  norm_num
  and_intros <;> ring

/-- C108: the angle in space is the length of the two plane angles, so that the mean of its square is `2 θ₀²`. -/
theorem C108_space_angle {Ω : Type} [MeasurableSpace Ω] (μ : MeasureTheory.Measure Ω) (z₁ z₂ r₁ r₂ a : Ω → ℝ) (t : ℝ)
    (ppf : ℝ → Option ℝ) (h1 : ∀ w, ppf (r₁ w) = some (z₁ w)) (h2 : ∀ w, ppf (r₂ w) = some (z₂ w))
    (ha : ∀ w, highlandAngle2D ppf (some t) (r₁ w) (r₂ w) = some (a w))
    (i1 : MeasureTheory.Integrable (fun w => z₁ w * z₁ w) μ) (i2 : MeasureTheory.Integrable (fun w => z₂ w * z₂ w) μ)
    (v1 : ∫ w, z₁ w * z₁ w ∂μ = 1) (v2 : ∫ w, z₂ w * z₂ w ∂μ = 1) :
    (∀ w, 0 ≤ a w ∧ a w ^ 2 = (t * z₁ w) ^ 2 + (t * z₂ w) ^ 2) ∧ ∫ w, a w ^ 2 ∂μ = 2 * t ^ 2 := by
  have key : ∀ w, 0 ≤ a w ∧ a w ^ 2 = (t * z₁ w) ^ 2 + (t * z₂ w) ^ 2 := by
    intro w
    have := ha w
    unfold highlandAngle2D at this
    simp only [h1, h2, bind, Option.bind_some, pure, Option.some.injEq] at this
    rw [← this]
    refine ⟨Real.sqrt_nonneg _, ?_⟩
    rw [Real.sq_sqrt (by nlinarith [mul_self_nonneg (t * z₁ w), mul_self_nonneg (t * z₂ w)])]
    ring
  refine ⟨key, ?_⟩
  have e : (fun w => a w ^ 2) = fun w => t ^ 2 * (z₁ w * z₁ w) + t ^ 2 * (z₂ w * z₂ w) := by
    funext w
    rw [(key w).2]
    ring
  rw [e, MeasureTheory.integral_add (i1.const_mul _) (i2.const_mul _), MeasureTheory.integral_const_mul,
    MeasureTheory.integral_const_mul, v1, v2]
  ring

/-- C108: the offsets follow the signs of the random numbers: with all complementary ones they are opposite. -/
theorem C108_offsets_symmetric (ppf : ℝ → Option ℝ) (hp : ∀ p, ppf (1 - p) = (ppf p).map (-·)) (theta0 : Option ℝ) (r : Fin 4 → ℝ) :
    highlandOffsets ppf theta0 (fun i => 1 - r i) =
      (highlandOffsets ppf theta0 r).map (fun o => ⟨-o.sx, -o.sy, -o.tx, -o.ty⟩) := by
  unfold highlandOffsets
  simp only [hp]
  cases theta0 with
  | none => rfl
  | some t =>
    cases ppf (r 0) with
    | none => rfl
    | some a =>
      cases ppf (r 1) with
      | none => rfl
      | some b =>
        cases ppf (r 2) with
        | none => rfl
        | some c =>
          cases ppf (r 3) with
          | none => rfl
          | some d =>
            simp only [Option.map_some, bind, Option.bind_some, pure, offsetsOf, Option.some.injEq, ScatteringOffset.mk.injEq]
            refine ⟨?_, ?_, ?_, ?_⟩ <;> ring

/-- C108: a random number 0 makes the offsets NaN. -/
theorem C108_random_zero (erfc : ℝ → ℝ) (theta0 : Option ℝ) (r : Fin 4 → ℝ) (i : Fin 4) (h : r i = 0) :
    highlandOffsets (normalppf erfc) theta0 r = none := by
  have hz : normalppf erfc (r i) = none := by rw [h]; exact C108_outside erfc 0 (Or.inl le_rfl)
  unfold highlandOffsets
  have key : ∀ j, j = i → normalppf erfc (r j) = none := by rintro j rfl; exact hz
  cases theta0 with
  | none => rfl
  | some t =>
    fin_cases i
    · simp [key 0 rfl]
    · simp [key 1 rfl]
    · simp [key 2 rfl]
    · simp [key 3 rfl]

/-- A muon in ice: one radiation length at 1 GeV. -/
example : ∃ t, (⟨MMU, -1, 36⟩ : Highland).theta0 36 1000 = some t ∧ 0 < t := by
  have h := C108_value ⟨MMU, -1, 36⟩ 1000 0 (by norm_num [MMU]) (by norm_num) (by norm_num [MMU]) (by norm_num)
  simp only [zpow_zero, one_mul] at h
  refine ⟨_, h, ?_⟩
  norm_num [MMU]

/-- Uncorrelated variables: four points of weight 1 / 4. -/
example : ∃ (μ : MeasureTheory.Measure (Fin 4)) (z : Fin 4 → Fin 4 → ℝ),
    (∀ i j, MeasureTheory.Integrable (fun w => z i w * z j w) μ) ∧ ∀ i j, ∫ w, z i w * z j w ∂μ = if i = j then 1 else 0 := by
  refine ⟨MeasureTheory.Measure.count, fun i w => if i = w then 1 else 0, ?_, ?_⟩
  · intro i j
    exact MeasureTheory.Integrable.of_finite
  · intro i j
    rw [MeasureTheory.integral_countable MeasureTheory.Integrable.of_finite]
    simp

/-! ## Objects -/

/-- C109: two objects of Highland's class (or its derived class) compare equal exactly if mass, charge and radiation length agree;
the class and the integral play no role. -/
theorem C109_highland_equal (b b' : Bool) (h k : Highland) :
    (MsObj.highland b h).equal (.highland b' k) = some true ↔ h = k := by
  unfold MsObj.equal MsObj.mass
  split_ifs with hm
  · simp only [Option.some.injEq, Bool.false_eq_true, false_iff]
    rintro rfl
    exact hm rfl
  · push Not at hm
    obtain ⟨m, c, x⟩ := h
    obtain ⟨m', c', x'⟩ := k
    simp only at hm
    subst hm
    simp only [Option.some.injEq, decide_eq_true_eq, Highland.mk.injEq, true_and]
    exact and_comm

/-- C109: a comparison is undefined exactly for an object of Highland's class on the left and one of Molière's on the right, with the
same mass. The other order gives `false`. -/
theorem C109_undefined (a b : MsObj) :
    a.equal b = none ↔ ∃ i h j s, a = .highland i h ∧ b = .moliere j s ∧ h.mass = s.mass := by
  unfold MsObj.equal
  constructor
  · intro h
    split_ifs at h with hm
    push Not at hm
    cases a <;> cases b <;> simp_all [MsObj.mass]
  · rintro ⟨i, h, j, s, rfl, rfl, hm⟩
    rw [if_neg (by simpa [MsObj.mass] using hm)]

/-- C109: comparisons that are defined in both orders agree. -/
theorem C109_symmetric_partial (a b : MsObj) (x y : Bool) (h1 : a.equal b = some x) (h2 : b.equal a = some y) : x = y := by
  unfold MsObj.equal at h1 h2
  by_cases hm : a.mass = b.mass
  · rw [if_neg (by simpa using hm)] at h1
    rw [if_neg (by simpa using hm.symm)] at h2
    cases a <;> cases b <;> simp_all [eq_comm, and_comm]
  · rw [if_pos hm] at h1
    rw [if_pos (Ne.symm hm)] at h2
    simp_all

/-- C109: an object of the derived class works as long as the object on which the clones were first made exists. -/
theorem C109_clone_partial (live : List ℕ) (p q : ℕ) (b small : Bool) :
    let o := HighlandIntegralObj.new live p b
    let c := HighlandIntegralObj.clone o.1 o.2 q
    HighlandIntegralObj.calculate c.1 o.2 small = some () ∧ HighlandIntegralObj.calculate c.1 c.2 small = some () := by
  simp [HighlandIntegralObj.new, HighlandIntegralObj.clone, HighlandIntegralObj.calculate]

/-- C109: after the original is destroyed a clone has undefined behaviour, with tables only for small steps. -/
theorem C109_clone_dangling (live : List ℕ) (p q : ℕ) (b small : Bool) (hp : p ∉ live) (hpq : p ≠ q) :
    let o := HighlandIntegralObj.new live p b
    let c := HighlandIntegralObj.clone o.1 o.2 q
    HighlandIntegralObj.calculate (o.2.destroy c.1) c.2 small = none ↔ (b = false ∨ small = true) := by
  have h1 : q ∈ (q :: p :: live).erase p := by
    rw [List.erase_cons_tail (by simpa using hpq.symm)]
    simp
  have h2 : p ∉ (q :: p :: live).erase p := by
    rw [List.erase_cons_tail (by simpa using hpq.symm), List.erase_cons_head]
    simp [hpq, hp]
  simp only [HighlandIntegralObj.new, HighlandIntegralObj.clone, HighlandIntegralObj.calculate, HighlandIntegralObj.destroy, h1, h2]
  cases b <;> cases small <;> simp

end Proposal
