import Verif.Model.Dilog
import Mathlib.MeasureTheory.Integral.IntervalIntegral.FundThmCalculus
import Mathlib.MeasureTheory.Integral.DominatedConvergence
import Mathlib.Analysis.SpecialFunctions.Integrals.Basic
import Mathlib.Analysis.SpecialFunctions.Log.Deriv
import Mathlib.Analysis.SpecialFunctions.Log.NegMulLog
import Mathlib.NumberTheory.ZetaValues
import Mathlib.Analysis.Real.Pi.Bounds
import Mathlib.Analysis.Calculus.MeanValue
import Mathlib.Analysis.Calculus.DSlope

/-!
# C124: the dilogarithm
-/

open MeasureTheory Filter Topology Set

namespace Proposal

/-- The real part of the dilogarithm. -/
noncomputable def Spec.dilog (x : ℝ) : ℝ := -∫ t in (0 : ℝ)..x, Real.log |1 - t| / t

lemma dilog_integrable (a b : ℝ) : IntervalIntegrable (fun t : ℝ => Real.log |1 - t| / t) volume a b := by
  have hsub : ∀ c d : ℝ, IntervalIntegrable (fun t : ℝ => Real.log |1 - t|) volume c d := by
    intro c d
    have := (intervalIntegral.intervalIntegrable_log' (a := 1 - c) (b := 1 - d)).comp_sub_left 1
    simpa [Real.log_abs] using this
  -- away from zero
  have haway : ∀ c d : ℝ, (0 : ℝ) ∉ uIcc c d → IntervalIntegrable (fun t : ℝ => Real.log |1 - t| / t) volume c d := by
    intro c d h
    have := (hsub c d).mul_continuousOn (g := fun t : ℝ => t⁻¹) (continuousOn_inv₀.mono (fun x hx => by
      rintro rfl
      exact h hx))
    simpa [div_eq_mul_inv] using this
  -- close to zero
  have hmid : IntervalIntegrable (fun t : ℝ => Real.log |1 - t| / t) volume (-1 / 2) (1 / 2) := by
    have hc : ContinuousOn (dslope (fun t : ℝ => Real.log |1 - t|) 0) (uIcc (-1 / 2) (1 / 2)) := by
      have hd : ∀ t ∈ uIcc (-1 / 2 : ℝ) (1 / 2), HasDerivAt (fun t : ℝ => Real.log |1 - t|) (-1 / (1 - t)) t := by
        intro t ht
        rw [uIcc_of_le (by norm_num)] at ht
        simp only [Real.log_abs]
        exact ((hasDerivAt_id t).const_sub 1).log (by simp; linarith [ht.2])
      apply (continuousOn_dslope (by rw [uIcc_of_le (by norm_num)]; exact Icc_mem_nhds (by norm_num) (by norm_num))).2
      refine ⟨fun t ht => (hd t ht).continuousAt.continuousWithinAt, (hd 0 ?_).differentiableAt⟩
      rw [uIcc_of_le (by norm_num)]
      constructor <;> norm_num
    refine hc.intervalIntegrable.congr_ae ?_
    apply ae_restrict_of_ae
    have : ∀ᵐ t : ℝ, t ≠ 0 := by
      rw [ae_iff]
      simp
    filter_upwards [this] with t ht
    rw [dslope_of_ne _ ht, slope_def_field]
    simp
  have h1 : ∀ d : ℝ, IntervalIntegrable (fun t : ℝ => Real.log |1 - t| / t) volume 0 d := by
    have hm0 : IntervalIntegrable (fun t : ℝ => Real.log |1 - t| / t) volume 0 (1 / 2) :=
      hmid.mono_set (by rw [uIcc_of_le (by norm_num), uIcc_of_le (by norm_num)]; exact Icc_subset_Icc (by norm_num) le_rfl)
    have hm1 : IntervalIntegrable (fun t : ℝ => Real.log |1 - t| / t) volume 0 (-1 / 2) :=
      (hmid.mono_set (by rw [uIcc_of_le (by norm_num), uIcc_of_le (by norm_num)]; exact Icc_subset_Icc le_rfl (by norm_num))).symm
    intro d
    rcases lt_trichotomy d 0 with h | h | h
    · refine hm1.trans (haway _ _ ?_)
      rw [mem_uIcc]
      rintro (⟨k1, k2⟩ | ⟨k1, k2⟩) <;> linarith
    · rw [h]
    · refine hm0.trans (haway _ _ ?_)
      rw [mem_uIcc]
      rintro (⟨k1, k2⟩ | ⟨k1, k2⟩) <;> linarith
  exact (h1 a).symm.trans (h1 b)

lemma dilog_continuous : Continuous Spec.dilog :=
  (intervalIntegral.continuous_primitive dilog_integrable 0).neg

lemma dilog_deriv {x : ℝ} (h0 : x ≠ 0) (h1 : x ≠ 1) : HasDerivAt Spec.dilog (-(Real.log |1 - x| / x)) x := by
  have hc : ContinuousAt (fun t : ℝ => Real.log |1 - t| / t) x := by
    have : |1 - x| ≠ 0 := by
      rw [abs_ne_zero, sub_ne_zero]
      exact h1.symm
    fun_prop (disch := assumption)
  have hm : StronglyMeasurableAtFilter (fun t : ℝ => Real.log |1 - t| / t) (𝓝 x) := by
    have : Measurable (fun t : ℝ => Real.log |1 - t| / t) := by fun_prop
    exact this.stronglyMeasurable.stronglyMeasurableAtFilter
  exact (intervalIntegral.integral_hasDerivAt_right (dilog_integrable 0 x) hm hc).neg

lemma dilog_zero : Spec.dilog 0 = 0 := by simp [Spec.dilog]

/-- The series. -/
lemma dilog_series {x : ℝ} (h0 : 0 ≤ x) (h1 : x ≤ 1) : HasSum (fun n : ℕ => x ^ (n + 1) / ((n : ℝ) + 1) ^ 2) (Spec.dilog x) := by
  have hint : ∀ n : ℕ, ∫ t in (0 : ℝ)..x, t ^ n / ((n : ℝ) + 1) = x ^ (n + 1) / ((n : ℝ) + 1) ^ 2 := by
    intro n
    rw [intervalIntegral.integral_div, integral_pow]
    simp
    field_simp
  have hs : Summable fun n : ℕ => x ^ (n + 1) / ((n : ℝ) + 1) ^ 2 := by
    have := (summable_nat_add_iff 1).2 (Real.summable_one_div_nat_pow.2 (one_lt_two))
    refine Summable.of_nonneg_of_le (fun n => by positivity) (fun n => ?_) this
    push_cast
    gcongr
    exact pow_le_one₀ h0 h1
  have key := hasSum_integral_of_summable_integral_norm (μ := volume.restrict (Ioc 0 x)) (F := fun (n : ℕ) (t : ℝ) => t ^ n / ((n : ℝ) + 1))
    (fun n => ?_) ?_
  · have e : ∀ n : ℕ, (∫ t, t ^ n / ((n : ℝ) + 1) ∂(volume.restrict (Ioc 0 x))) = x ^ (n + 1) / ((n : ℝ) + 1) ^ 2 := by
      intro n
      rw [← hint n, intervalIntegral.integral_of_le h0]
    simp only [e] at key
    suffices hval : Spec.dilog x = ∫ t in Ioc 0 x, ∑' n : ℕ, t ^ n / ((n : ℝ) + 1) by
      rw [hval]
      exact key
    unfold Spec.dilog
    rw [intervalIntegral.integral_of_le h0, ← integral_neg]
    apply integral_congr_ae
    have h1' : ∀ᵐ t : ℝ ∂(volume.restrict (Ioc 0 x)), t ≠ 1 := ae_restrict_of_ae (by rw [ae_iff]; simp)
    filter_upwards [ae_restrict_mem measurableSet_Ioc, h1'] with t ht ht1
    have ht2 : t < 1 := lt_of_le_of_ne (ht.2.trans h1) ht1
    have hl := Real.hasSum_pow_div_log_of_abs_lt_one (x := t) (by rw [abs_of_pos ht.1]; exact ht2)
    have : HasSum (fun n : ℕ => t ^ n / ((n : ℝ) + 1)) (-Real.log (1 - t) / t) := by
      have := hl.div_const t
      refine this.congr_fun ?_ |> id
      intro n
      have := ht.1.ne'
      field_simp
      ring
    rw [abs_of_pos (by linarith), this.tsum_eq, neg_div]
  · apply (Continuous.integrableOn_Ioc (by fun_prop))
  · refine hs.congr ?_ |> id
    intro n
    rw [← hint n, intervalIntegral.integral_of_le h0]
    apply setIntegral_congr_fun measurableSet_Ioc
    intro t ht
    have := ht.1
    simp only
    rw [Real.norm_of_nonneg (by positivity)]

lemma dilog_one : Spec.dilog 1 = Real.pi ^ 2 / 6 := by
  have h := dilog_series (x := 1) zero_le_one le_rfl
  have h2 := hasSum_zeta_two
  have h3 : HasSum (fun n : ℕ => (1 : ℝ) ^ (n + 1) / ((n : ℝ) + 1) ^ 2) (Real.pi ^ 2 / 6) := by
    have := (hasSum_nat_add_iff' 1).2 h2
    simpa using this
  exact h.unique h3

lemma eq_of_deriv_zero {f : ℝ → ℝ} {a b : ℝ} (hab : a ≤ b) (hc : ContinuousOn f (Icc a b))
    (hd : ∀ x ∈ Ioo a b, HasDerivAt f 0 x) : f a = f b := by
  rcases hab.eq_or_lt with h | h
  · rw [h]
  · obtain ⟨c, hc, he⟩ := exists_hasDerivAt_eq_slope f (fun _ => 0) h hc hd
    have : f b - f a = 0 := by
      rw [eq_comm, div_eq_zero_iff] at he
      rcases he with he | he
      · exact he
      · linarith
    linarith

/-- The reflection. -/
lemma dilog_reflect {x : ℝ} (h0 : 0 < x) (h1 : x < 1) :
    Spec.dilog x + Spec.dilog (1 - x) = Real.pi ^ 2 / 6 - Real.log x * Real.log (1 - x) := by
  set h : ℝ → ℝ := fun t => Spec.dilog t + Spec.dilog (1 - t) + Real.log t * Real.log (1 - t) with hh
  have hd : ∀ t ∈ Ioo (0 : ℝ) 1, HasDerivAt h 0 t := by
    intro t ht
    have d1 := dilog_deriv (x := t) ht.1.ne' ht.2.ne
    have d2 := (dilog_deriv (x := 1 - t) (by linarith [ht.2]) (by linarith [ht.1])).comp t ((hasDerivAt_id t).const_sub 1)
    have d3 := (Real.hasDerivAt_log ht.1.ne').mul (((hasDerivAt_id t).const_sub 1).log (by simp; linarith [ht.2]))
    refine ((d1.add d2).add d3).congr_deriv ?_
    have : (1 - t) ≠ 0 := by linarith [ht.2]
    have := ht.1.ne'
    rw [abs_of_pos (by linarith [ht.2]), abs_of_pos (by linarith [ht.1])]
    simp only [id, sub_sub_cancel]
    field_simp
    ring
  have hconst : ∀ t ∈ Ioo (0 : ℝ) x, h t = h x := by
    intro t ht
    apply eq_of_deriv_zero ht.2.le
    · intro u hu
      exact (hd u ⟨ht.1.trans_le hu.1, hu.2.trans_lt h1⟩).continuousAt.continuousWithinAt
    · intro u hu
      exact hd u ⟨ht.1.trans hu.1, hu.2.trans h1⟩
  have hlim : Tendsto h (𝓝[>] 0) (𝓝 (Spec.dilog 0 + Spec.dilog (1 - 0) + 0)) := by
    have c1 : Tendsto (fun t => Spec.dilog t + Spec.dilog (1 - t)) (𝓝[>] 0) (𝓝 (Spec.dilog 0 + Spec.dilog (1 - 0))) := by
      have : Continuous fun t => Spec.dilog t + Spec.dilog (1 - t) := by
        have := dilog_continuous
        fun_prop
      exact this.continuousAt.tendsto.mono_left nhdsWithin_le_nhds
    refine c1.add ?_
    have c2 : Tendsto (fun t : ℝ => 2 * |Real.log t * t|) (𝓝[>] 0) (𝓝 0) := by
      have := ((Real.continuous_mul_log.tendsto 0).abs.const_mul 2).mono_left (nhdsWithin_le_nhds (s := Ioi 0))
      simpa [mul_comm] using this
    refine squeeze_zero_norm' ?_ c2
    filter_upwards [Ioo_mem_nhdsGT (show (0 : ℝ) < 1 / 2 by norm_num)] with t ht
    rw [Real.norm_eq_abs, abs_mul, abs_mul]
    have hb : |Real.log (1 - t)| ≤ 2 * |t| := by
      rw [abs_of_pos ht.1]
      have l1 := Real.one_sub_inv_le_log_of_pos (show 0 < 1 - t by linarith [ht.2])
      have l2 := Real.log_nonpos (show 0 ≤ 1 - t by linarith [ht.2]) (by linarith [ht.1])
      have l3 : (1 - t)⁻¹ ≤ 1 + 2 * t := by
        rw [inv_le_iff_one_le_mul₀ (by linarith [ht.2])]
        nlinarith [ht.1, ht.2]
      rw [abs_of_nonpos l2]
      linarith
    have := abs_nonneg (Real.log t)
    nlinarith
  have hx : h x = Spec.dilog 0 + Spec.dilog (1 - 0) + 0 := by
    refine tendsto_nhds_unique (tendsto_const_nhds.congr' ?_) hlim
    filter_upwards [Ioo_mem_nhdsGT h0] with t ht
    exact (hconst t ht).symm
  rw [dilog_zero, sub_zero, dilog_one, hh] at hx
  simp only at hx
  linarith

/-- Landen's transformation. -/
lemma dilog_landen {x : ℝ} (h0 : x ≤ 0) :
    Spec.dilog x + Spec.dilog (x / (x - 1)) = -(1 / 2) * Real.log (1 - x) ^ 2 := by
  set h : ℝ → ℝ := fun t => Spec.dilog t + Spec.dilog (t / (t - 1)) + 1 / 2 * Real.log (1 - t) ^ 2 with hh
  have hx : h x = h 0 := by
    apply eq_of_deriv_zero h0
    · have := dilog_continuous
      have c1 : ContinuousOn (fun t : ℝ => t / (t - 1)) (Icc x 0) := by
        apply ContinuousOn.div (by fun_prop) (by fun_prop)
        intro t ht
        linarith [ht.2]
      have c2 : ContinuousOn (fun t : ℝ => Real.log (1 - t)) (Icc x 0) := by
        apply ContinuousOn.log (by fun_prop)
        intro t ht
        linarith [ht.2]
      exact (this.continuousOn.add (this.comp_continuousOn c1)).add ((c2.pow 2).const_smul (1 / 2 : ℝ) |>.congr (fun t _ => by simp))
    · intro t ht
      have n1 : t - 1 ≠ 0 := by linarith [ht.2]
      have n2 : t ≠ 0 := ht.2.ne
      have n3 : 1 - t ≠ 0 := by linarith [ht.2]
      have d1 := dilog_deriv (x := t) n2 (by linarith [ht.2])
      have dq : HasDerivAt (fun t : ℝ => t / (t - 1)) ((1 * (t - 1) - t * 1) / (t - 1) ^ 2) t :=
        (hasDerivAt_id t).div ((hasDerivAt_id t).sub_const 1) n1
      have hlt : t / (t - 1) < 1 := by
        rw [div_lt_one_of_neg (by linarith [ht.2])]
        linarith
      have d2 := (dilog_deriv (x := t / (t - 1)) (div_ne_zero n2 n1) hlt.ne).comp t dq
      have d3 := ((((hasDerivAt_id t).const_sub 1).log n3).pow 2).const_mul (1 / 2 : ℝ)
      refine ((d1.add d2).add d3).congr_deriv ?_
      have e : |1 - t / (t - 1)| = (1 - t)⁻¹ := by
        rw [abs_of_pos (by linarith)]
        field_simp
        ring
      rw [e, Real.log_inv, abs_of_pos (by linarith [ht.2])]
      simp only [id]
      field_simp
      ring
  rw [hh] at hx
  simp [dilog_zero] at hx
  linarith

/-- The inversion. -/
lemma dilog_invert {x : ℝ} (h1 : 1 ≤ x) :
    Spec.dilog x + Spec.dilog (1 / x) = Real.pi ^ 2 / 3 - 1 / 2 * Real.log x ^ 2 := by
  set h : ℝ → ℝ := fun t => Spec.dilog t + Spec.dilog (1 / t) + 1 / 2 * Real.log t ^ 2 with hh
  have hx : h 1 = h x := by
    apply eq_of_deriv_zero h1
    · have := dilog_continuous
      have c1 : ContinuousOn (fun t : ℝ => 1 / t) (Icc 1 x) := by
        apply ContinuousOn.div (by fun_prop) (by fun_prop)
        intro t ht
        linarith [ht.1]
      have c2 : ContinuousOn (fun t : ℝ => Real.log t) (Icc 1 x) := by
        apply ContinuousOn.log (by fun_prop)
        intro t ht
        linarith [ht.1]
      exact (this.continuousOn.add (this.comp_continuousOn c1)).add ((c2.pow 2).const_smul (1 / 2 : ℝ) |>.congr (fun t _ => by simp))
    · intro t ht
      have n2 : t ≠ 0 := by linarith [ht.1]
      have d1 := dilog_deriv (x := t) n2 ht.1.ne'
      have dq : HasDerivAt (fun t : ℝ => 1 / t) (-1 / t ^ 2) t := by
        simpa [one_div, neg_div] using hasDerivAt_inv n2
      have ht0 : 0 < t := by linarith [ht.1]
      have hlt : 1 / t < 1 := by
        rw [div_lt_one ht0]
        exact ht.1
      have d2 := (dilog_deriv (x := 1 / t) (by positivity) hlt.ne).comp t dq
      have d3 := (((Real.hasDerivAt_log n2)).pow 2).const_mul (1 / 2 : ℝ)
      refine ((d1.add d2).add d3).congr_deriv ?_
      have e : |1 - 1 / t| = (t - 1) / t := by
        rw [abs_of_pos (by linarith)]
        field_simp
      have e2 : |1 - t| = t - 1 := by
        rw [abs_sub_comm, abs_of_pos (by linarith [ht.1])]
      rw [e, e2, Real.log_div (by linarith [ht.1]) n2]
      field_simp
      ring
  rw [hh] at hx
  simp [dilog_one] at hx
  simp only [one_div] at *
  linarith

/-! ## The rational approximation -/

/-- A polynomial by its coefficients. -/
def pev : List ℚ → ℝ → ℝ
  | [], _ => 0
  | a :: p, x => a + x * pev p x

def padd : List ℚ → List ℚ → List ℚ
  | [], q => q
  | p, [] => p
  | a :: p, b :: q => (a + b) :: padd p q

def pscale (c : ℚ) : List ℚ → List ℚ
  | [] => []
  | a :: p => (c * a) :: pscale c p

def pmul : List ℚ → List ℚ → List ℚ
  | [], _ => []
  | a :: p, q => padd (pscale a q) (0 :: pmul p q)

/-- `p (c + h * w)` as a polynomial in `w`. -/
def pshift (c h : ℚ) : List ℚ → List ℚ
  | [] => []
  | a :: p => padd [a] (pmul [c, h] (pshift c h p))

def psum : List ℚ → ℚ
  | [] => 0
  | a :: p => |a| + psum p

lemma pev_padd (p q : List ℚ) (x : ℝ) : pev (padd p q) x = pev p x + pev q x := by
  induction p generalizing q with
  | nil => simp [padd, pev]
  | cons a p ih =>
    cases q with
    | nil => simp [padd, pev]
    | cons b q => simp only [padd, pev, ih, Rat.cast_add]; ring

lemma pev_pscale (c : ℚ) (p : List ℚ) (x : ℝ) : pev (pscale c p) x = c * pev p x := by
  induction p with
  | nil => simp [pscale, pev]
  | cons a p ih => simp only [pscale, pev, ih, Rat.cast_mul]; ring

lemma pev_pmul (p q : List ℚ) (x : ℝ) : pev (pmul p q) x = pev p x * pev q x := by
  induction p with
  | nil => simp [pmul, pev]
  | cons a p ih => simp only [pmul, pev, ih, pev_padd, pev_pscale, Rat.cast_zero]; ring

lemma pev_pshift (c h : ℚ) (p : List ℚ) (w : ℝ) : pev (pshift c h p) w = pev p (c + h * w) := by
  induction p with
  | nil => simp [pshift, pev]
  | cons a p ih => simp only [pshift, pev, ih, pev_padd, pev_pmul]; ring

lemma pev_le_psum (p : List ℚ) {w : ℝ} (hw : |w| ≤ 1) : |pev p w| ≤ psum p := by
  induction p with
  | nil => simp [pev, psum]
  | cons a p ih =>
    simp only [pev, psum, Rat.cast_add, Rat.cast_abs]
    calc |(a : ℝ) + w * pev p w| ≤ |(a : ℝ)| + |w * pev p w| := abs_add_le _ _
      _ ≤ |(a : ℝ)| + psum p := by
        rw [abs_mul]
        gcongr
        calc |w| * |pev p w| ≤ 1 * |pev p w| := by gcongr
          _ ≤ psum p := by rw [one_mul]; exact ih

lemma pev_nonneg (p : List ℚ) {x : ℝ} (hx : 0 ≤ x) (hp : ∀ a ∈ p, 0 ≤ a) : 0 ≤ pev p x := by
  induction p with
  | nil => simp [pev]
  | cons a p ih =>
    simp only [pev]
    have h1 : (0 : ℝ) ≤ a := by exact_mod_cast hp a (by simp)
    have h2 := ih fun b hb => hp b (by simp [hb])
    positivity

lemma pev_concat (p : List ℚ) (a : ℚ) (x : ℝ) : pev (p ++ [a]) x = pev p x + a * x ^ p.length := by
  induction p with
  | nil => simp [pev]
  | cons b p ih => simp only [List.cons_append, pev, ih, List.length_cons]; ring

lemma pev_range (f : ℕ → ℚ) (n : ℕ) (x : ℝ) : pev ((List.range n).map f) x = ∑ k ∈ Finset.range n, (f k : ℝ) * x ^ k := by
  induction n with
  | zero => simp [pev]
  | succ n ih => rw [List.range_succ, List.map_append, List.map_cons, List.map_nil, pev_concat, ih, Finset.sum_range_succ]; simp

/-- The beginning of the series: `∑ y^k / k²` up to `k = 44`. -/
def dilogSeries : List ℚ := 0 :: (List.range 44).map fun n : ℕ => 1 / ((n : ℚ) + 1) ^ 2

def dilogPList : List ℚ := [0.9999999999999999502, -2.6883926818565423430, 2.6477222699473109692, -1.1538559607887416355,
  2.0886077795020607837e-1, -1.0859777134152463084e-2]

def dilogQList : List ℚ := [1, -2.9383926818565635485, 3.2712093293018635389, -1.7076702173954289421, 4.1596017228400603836e-1,
  -3.9801343754084482956e-2, 8.2743668974466659035e-4]

def dilogRest : List ℚ := padd (pmul dilogSeries dilogQList) (pscale (-1) (0 :: dilogPList))

lemma rest_pieces : ∀ i ∈ List.range 5, psum (pshift ((2 * i + 1) / 20) (1 / 20) dilogRest) ≤ 32 / 10 ^ 17 := by decide +kernel

lemma q_pieces : ∀ a ∈ padd [-0.159] (pshift (1 / 2) (-1) dilogQList), 0 ≤ a := by decide +kernel

lemma dilogP_list (y : ℝ) : dilogP y = pev dilogPList y := by
  simp only [dilogP, dilogPList, pev]
  push_cast
  ring

lemma dilogQ_list (y : ℝ) : dilogQ y = pev dilogQList y := by
  simp only [dilogQ, dilogQList, pev]
  push_cast
  ring

lemma dilogQ_lower {y : ℝ} (h1 : y ≤ 1 / 2) : 0.159 ≤ dilogQ y := by
  have h := pev_nonneg _ (x := 1 / 2 - y) (by linarith) q_pieces
  rw [pev_padd, pev_pshift] at h
  have e : ((1 / 2 : ℚ) : ℝ) + ((-1 : ℚ) : ℝ) * (1 / 2 - y) = y := by push_cast; ring
  rw [e, ← dilogQ_list] at h
  simp only [pev] at h
  push_cast at h
  linarith

lemma rest_bound {y : ℝ} (h0 : 0 ≤ y) (h1 : y ≤ 1 / 2) : |pev dilogRest y| ≤ 32 / 10 ^ 17 := by
  have key : ∀ i : ℕ, i < 5 → |y - (2 * i + 1) / 20| ≤ 1 / 20 → |pev dilogRest y| ≤ 32 / 10 ^ 17 := by
    intro i hi hy
    have h := pev_le_psum (pshift ((2 * i + 1) / 20) (1 / 20) dilogRest) (w := (y - (2 * i + 1) / 20) * 20) (by
      rw [abs_mul]
      norm_num
      linarith)
    rw [pev_pshift] at h
    have e : (((2 * i + 1) / 20 : ℚ) : ℝ) + ((1 / 20 : ℚ) : ℝ) * ((y - (2 * i + 1) / 20) * 20) = y := by push_cast; ring
    rw [e] at h
    refine h.trans ?_
    have := rest_pieces i (List.mem_range.2 hi)
    have h2 : ((psum (pshift ((2 * i + 1) / 20) (1 / 20) dilogRest) : ℚ) : ℝ) ≤ ((32 / 10 ^ 17 : ℚ) : ℝ) := by exact_mod_cast this
    refine h2.trans ?_
    push_cast
    exact le_rfl
  rcases le_total y (1 / 10) with a | a
  · exact key 0 (by norm_num) (by rw [abs_le]; push_cast; constructor <;> linarith)
  rcases le_total y (2 / 10) with b | b
  · exact key 1 (by norm_num) (by rw [abs_le]; push_cast; constructor <;> linarith)
  rcases le_total y (3 / 10) with c | c
  · exact key 2 (by norm_num) (by rw [abs_le]; push_cast; constructor <;> linarith)
  rcases le_total y (4 / 10) with d | d
  · exact key 3 (by norm_num) (by rw [abs_le]; push_cast; constructor <;> linarith)
  · exact key 4 (by norm_num) (by rw [abs_le]; push_cast; constructor <;> linarith)

lemma series_tail {y : ℝ} (h0 : 0 ≤ y) (h1 : y ≤ 1 / 2) :
    pev dilogSeries y ≤ Spec.dilog y ∧ Spec.dilog y ≤ pev dilogSeries y + 1 / 10 ^ 16 := by
  have hs := dilog_series h0 (by linarith : y ≤ 1)
  have e : pev dilogSeries y = ∑ k ∈ Finset.range 44, y ^ (k + 1) / ((k : ℝ) + 1) ^ 2 := by
    unfold dilogSeries
    rw [pev, pev_range, Rat.cast_zero, zero_add, Finset.mul_sum]
    apply Finset.sum_congr rfl
    intro k _
    push_cast
    ring
  have hsplit := hs.summable.sum_add_tsum_nat_add 44
  rw [hs.tsum_eq] at hsplit
  have htail0 : 0 ≤ ∑' k : ℕ, y ^ (k + 44 + 1) / (((k + 44 : ℕ) : ℝ) + 1) ^ 2 := tsum_nonneg fun k => by positivity
  have hgeo : HasSum (fun k : ℕ => (1 / 2 : ℝ) ^ k * ((1 / 2) ^ 45 / 45 ^ 2)) (2 * ((1 / 2) ^ 45 / 45 ^ 2)) :=
    hasSum_geometric_two.mul_right _
  have htail1 : ∑' k : ℕ, y ^ (k + 44 + 1) / (((k + 44 : ℕ) : ℝ) + 1) ^ 2 ≤ 2 * ((1 / 2) ^ 45 / 45 ^ 2) := by
    rw [← hgeo.tsum_eq]
    apply Summable.tsum_le_tsum _ ((summable_nat_add_iff 44).2 hs.summable) hgeo.summable
    intro k
    calc y ^ (k + 44 + 1) / (((k + 44 : ℕ) : ℝ) + 1) ^ 2 ≤ (1 / 2) ^ (k + 44 + 1) / 45 ^ 2 := by
          gcongr
          push_cast
          linarith [Nat.cast_nonneg (α := ℝ) k]
      _ = (1 / 2 : ℝ) ^ k * ((1 / 2) ^ 45 / 45 ^ 2) := by ring
  have hnum : (2 * ((1 / 2) ^ 45 / 45 ^ 2) : ℝ) ≤ 1 / 10 ^ 16 := by norm_num
  rw [e]
  constructor <;> linarith

/-- C124: on `[0, 1/2]` the rational function is the dilogarithm. -/
theorem C124_rational (y : ℝ) (h0 : 0 ≤ y) (h1 : y ≤ 1 / 2) : |y * dilogP y / dilogQ y - Spec.dilog y| ≤ 2.5e-15 := by
  have hQ := dilogQ_lower h1
  have hQ0 : 0 < dilogQ y := by linarith
  obtain ⟨t0, t1⟩ := series_tail h0 h1
  have hR := rest_bound h0 h1
  have e : pev dilogRest y = pev dilogSeries y * dilogQ y - y * dilogP y := by
    unfold dilogRest
    rw [pev_padd, pev_pmul, pev_pscale, pev, ← dilogP_list, ← dilogQ_list]
    push_cast
    ring
  have e2 : y * dilogP y / dilogQ y - pev dilogSeries y = -(pev dilogRest y / dilogQ y) := by
    rw [e]
    field_simp
    ring
  have h3 : |y * dilogP y / dilogQ y - pev dilogSeries y| ≤ (32 / 10 ^ 17) / 0.159 := by
    rw [e2, abs_neg, abs_div, abs_of_pos hQ0]
    gcongr
  have h4 : ((32 / 10 ^ 17) / 0.159 : ℝ) + 1 / 10 ^ 16 ≤ 2.5e-15 := by norm_num
  rw [abs_le] at h3 ⊢
  constructor <;> linarith [h3.1, h3.2]

lemma pi_error : |dilogPI * dilogPI - Real.pi ^ 2| ≤ 3e-16 := by
  have h1 := Real.pi_gt_d20
  have h2 := Real.pi_lt_d20
  unfold dilogPI
  rw [abs_le]
  norm_num at h1 h2 ⊢
  constructor <;> nlinarith

/-- C124: every argument but `-1`, `0` and `1` is transformed to `(0, 1/2]`, and the transformation is an identity of the
dilogarithm, up to the digits of `π`. -/
theorem C124_transform (x y r s : ℝ) (h : dilogArgs x = some (y, r, s)) :
    0 < y ∧ y ≤ 1 / 2 ∧ (s = 1 ∨ s = -1) ∧ |r + s * Spec.dilog y - Spec.dilog x| ≤ 1e-16 := by
  have hpi := pi_error
  rw [abs_le] at hpi
  unfold dilogArgs at h
  by_cases c1 : x < -1
  · rw [if_pos c1] at h
    simp only [Option.some.injEq, Prod.mk.injEq] at h
    obtain ⟨rfl, rfl, rfl⟩ := h
    have p1 : 0 < 1 - x := by linarith
    have hy : 1 / (1 - x) ≤ 1 / 2 := by
      apply one_div_le_one_div_of_le <;> linarith
    refine ⟨by positivity, hy, Or.inl rfl, ?_⟩
    have hl := dilog_landen (x := x) (by linarith)
    have hr := dilog_reflect (x := 1 / (1 - x)) (by positivity) (by linarith)
    have n1 : x - 1 ≠ 0 := by linarith
    have e1 : 1 - 1 / (1 - x) = x / (x - 1) := by
      have : 1 - x ≠ 0 := p1.ne'
      rw [← neg_sub x 1] at this ⊢
      field_simp
      ring
    have e2 : x / (x - 1) = (-x) / (1 - x) := by rw [← neg_sub x 1, neg_div_neg_eq]
    rw [e1] at hr
    rw [show Real.log (x / (x - 1)) = Real.log (-x) - Real.log (1 - x) by
      rw [e2, Real.log_div (by linarith) p1.ne'], one_div, Real.log_inv] at hr
    rw [abs_le, one_div]
    norm_num at hpi hr hl ⊢
    constructor <;> nlinarith
  rw [if_neg c1] at h
  by_cases c2 : x = -1
  · rw [if_pos c2] at h; cases h
  rw [if_neg c2] at h
  by_cases c3 : x < 0
  · rw [if_pos c3] at h
    simp only [Option.some.injEq, Prod.mk.injEq] at h
    obtain ⟨rfl, rfl, rfl⟩ := h
    have hx : -1 < x := lt_of_le_of_ne (not_lt.1 c1) (Ne.symm c2)
    have hl := dilog_landen (x := x) c3.le
    have e2 : x / (x - 1) = (-x) / (1 - x) := by rw [← neg_sub x 1, neg_div_neg_eq]
    refine ⟨?_, ?_, Or.inr rfl, ?_⟩
    · rw [e2]
      apply div_pos <;> linarith
    · rw [e2, div_le_div_iff₀ (by linarith) (by norm_num)]
      linarith
    · have : -0.5 * Real.log (1 - x) * Real.log (1 - x) + -1 * Spec.dilog (x / (x - 1)) - Spec.dilog x = 0 := by
        norm_num
        linarith
      rw [this, abs_zero]
      norm_num
  rw [if_neg c3] at h
  by_cases c4 : x = 0
  · rw [if_pos c4] at h; cases h
  rw [if_neg c4] at h
  have x0 : 0 < x := lt_of_le_of_ne (not_lt.1 c3) (Ne.symm c4)
  by_cases c5 : x < 0.5
  · rw [if_pos c5] at h
    simp only [Option.some.injEq, Prod.mk.injEq] at h
    obtain ⟨rfl, rfl, rfl⟩ := h
    refine ⟨x0, by norm_num at c5 ⊢; exact c5.le, Or.inl rfl, ?_⟩
    norm_num
  rw [if_neg c5] at h
  have x5 : 1 / 2 ≤ x := by
    have := not_lt.1 c5
    norm_num at this
    linarith
  by_cases c6 : x < 1
  · rw [if_pos c6] at h
    simp only [Option.some.injEq, Prod.mk.injEq] at h
    obtain ⟨rfl, rfl, rfl⟩ := h
    have hr := dilog_reflect x0 c6
    refine ⟨by linarith, by linarith, Or.inr rfl, ?_⟩
    rw [abs_le]
    norm_num at hpi hr ⊢
    constructor <;> linarith
  rw [if_neg c6] at h
  by_cases c7 : x = 1
  · rw [if_pos c7] at h; cases h
  rw [if_neg c7] at h
  have x1 : 1 < x := lt_of_le_of_ne (not_lt.1 c6) (Ne.symm c7)
  have hi := dilog_invert x1.le
  have hinv : 1 / x < 1 := by rw [div_lt_one x0]; exact x1
  by_cases c8 : x < 2
  · rw [if_pos c8] at h
    simp only [Option.some.injEq, Prod.mk.injEq] at h
    obtain ⟨rfl, rfl, rfl⟩ := h
    have hr := dilog_reflect (x := 1 / x) (by positivity) hinv
    have : (1 / 2 : ℝ) ≤ 1 / x := by
      apply one_div_le_one_div_of_le <;> linarith
    refine ⟨by linarith, by linarith, Or.inl rfl, ?_⟩
    rw [show Real.log (1 / x) = - Real.log x by rw [one_div, Real.log_inv]] at hr
    rw [abs_le]
    norm_num at hpi hr hi ⊢
    constructor <;> nlinarith
  · rw [if_neg c8] at h
    simp only [Option.some.injEq, Prod.mk.injEq] at h
    obtain ⟨rfl, rfl, rfl⟩ := h
    have : 1 / x ≤ 1 / 2 := by
      apply one_div_le_one_div_of_le <;> linarith
    refine ⟨by positivity, this, Or.inr rfl, ?_⟩
    rw [abs_le]
    norm_num at hpi hi ⊢
    constructor <;> nlinarith

lemma dilog_minus_one : Spec.dilog (-1) = -(Real.pi ^ 2 / 12) := by
  have h1 := dilog_landen (x := -1) (by norm_num)
  have h2 := dilog_reflect (x := 1 / 2) (by norm_num) (by norm_num)
  norm_num at h1 h2
  rw [show Real.log (1 / 2) = -Real.log 2 by rw [one_div, Real.log_inv]] at h2
  nlinarith

/-- C124: for every argument `dilog` is the real part of the dilogarithm, to 14 digits. -/
theorem C124_dilog (x : ℝ) : |dilog x - Spec.dilog x| ≤ 3e-15 := by
  have hpi := pi_error
  unfold dilog
  rcases h : dilogArgs x with _ | ⟨y, r, s⟩
  · simp only
    have hx : x = -1 ∨ x = 0 ∨ x = 1 := by
      unfold dilogArgs at h
      by_contra hn
      push Not at hn
      rw [if_neg hn.1, if_neg hn.2.1, if_neg hn.2.2] at h
      split_ifs at h
    rw [abs_le] at hpi ⊢
    rcases hx with rfl | rfl | rfl
    · rw [if_pos rfl, dilog_minus_one]
      norm_num at hpi ⊢
      constructor <;> linarith
    · rw [if_neg (by norm_num), if_pos rfl, dilog_zero]
      norm_num
    · rw [if_neg (by norm_num), if_neg (by norm_num), dilog_one]
      norm_num at hpi ⊢
      constructor <;> linarith
  · simp only
    obtain ⟨y0, y1, hs, hr⟩ := C124_transform x y r s h
    have hp := C124_rational y y0.le y1
    rw [abs_le] at hp hr ⊢
    norm_num at hp hr ⊢
    rcases hs with rfl | rfl
    · rw [one_mul] at hr ⊢
      constructor <;> linarith [hp.1, hp.2, hr.1, hr.2]
    · rw [show -1 * y * dilogP y / dilogQ y = -(y * dilogP y / dilogQ y) by ring]
      constructor <;> linarith [hp.1, hp.2, hr.1, hr.2]

/-- The value at 2. -/
example : |dilog 2 - Real.pi ^ 2 / 4| ≤ 3e-15 := by
  have h1 := dilog_invert (x := 2) (by norm_num)
  have h2 := dilog_reflect (x := 1 / 2) (by norm_num) (by norm_num)
  norm_num at h1 h2
  rw [show Real.log (1 / 2) = -Real.log 2 by rw [one_div, Real.log_inv]] at h2
  have h3 : Spec.dilog 2 = Real.pi ^ 2 / 4 := by nlinarith
  rw [← h3]
  exact C124_dilog 2

example : dilogArgs (-3) = some (1 / 4, -dilogPI * dilogPI / 6 + Real.log 4 * (0.5 * Real.log 4 - Real.log 3), 1) := by
  norm_num [dilogArgs]

end Proposal
