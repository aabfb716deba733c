import Verif.Model.PhotonPair
import Verif.Props.Dilog
import Verif.Props.PhotonMuonPairs
import Verif.Props.PhotoproductionRate
import Mathlib.Analysis.SpecialFunctions.Trigonometric.ArctanDeriv
import Mathlib.Analysis.SpecialFunctions.Trigonometric.Bounds

/-!
# C125: electron pairs by photons
-/

open MeasureTheory Filter Topology Set

namespace Proposal

/-! ## Elementary functions -/

lemma arctan_lower {x : ℝ} (hx : 0 ≤ x) : x - x ^ 3 / 3 ≤ Real.arctan x := by
  have := nonneg_of_deriv (f := fun x => Real.arctan x - (x - x ^ 3 / 3)) (f' := fun x => 1 / (1 + x ^ 2) - (1 - x ^ 2))
    (fun x => by
      refine ((Real.hasDerivAt_arctan x).sub ((hasDerivAt_id x).sub ((hasDerivAt_pow 3 x).div_const 3))).congr_deriv ?_
      norm_num) (by simp) (fun x _ => by
      have : 1 / (1 + x ^ 2) - (1 - x ^ 2) = x ^ 4 / (1 + x ^ 2) := by
        field_simp
        ring
      rw [this]
      positivity) hx
  simpa using this

lemma arctan_upper {x : ℝ} (hx : 0 ≤ x) : Real.arctan x ≤ x - x ^ 3 / 3 + x ^ 5 / 5 := by
  have := nonneg_of_deriv (f := fun x => (x - x ^ 3 / 3 + x ^ 5 / 5) - Real.arctan x) (f' := fun x => (1 - x ^ 2 + x ^ 4) - 1 / (1 + x ^ 2))
    (fun x => by
      refine ((((hasDerivAt_id x).sub ((hasDerivAt_pow 3 x).div_const 3)).add ((hasDerivAt_pow 5 x).div_const 5)).sub
        (Real.hasDerivAt_arctan x)).congr_deriv ?_
      norm_num) (by simp) (fun x _ => by
      have : (1 - x ^ 2 + x ^ 4) - 1 / (1 + x ^ 2) = x ^ 6 / (1 + x ^ 2) := by
        field_simp
        ring
      rw [this]
      positivity) hx
  simpa using this

lemma arctan_le_self {x : ℝ} (hx : 0 ≤ x) : Real.arctan x ≤ x := by
  have := nonneg_of_deriv (f := fun x => x - Real.arctan x) (f' := fun x => 1 - 1 / (1 + x ^ 2))
    (fun x => (hasDerivAt_id x).sub (Real.hasDerivAt_arctan x)) (by simp) (fun x _ => by
      rw [sub_nonneg, div_le_one (by positivity)]
      nlinarith [sq_nonneg x]) hx
  simpa using this

lemma cArctan_bounds {C : ℝ} (hC : 0 < C) : 1 - 1 / C ^ 2 / 3 ≤ C * Real.arctan (1 / C) ∧ C * Real.arctan (1 / C) ≤ 1 := by
  have h0 : 0 ≤ 1 / C := by positivity
  constructor
  · have := mul_le_mul_of_nonneg_left (arctan_lower h0) hC.le
    refine le_trans (le_of_eq ?_) this
    field_simp
  · have := mul_le_mul_of_nonneg_left (arctan_le_self h0) hC.le
    refine this.trans (le_of_eq ?_)
    field_simp

lemma c2Arctan_bounds {C : ℝ} (hC : 0 < C) :
    1 / 3 - 1 / C ^ 2 / 5 ≤ C ^ 2 * (1 - C * Real.arctan (1 / C)) ∧ C ^ 2 * (1 - C * Real.arctan (1 / C)) ≤ 1 / 3 := by
  have h0 : 0 ≤ 1 / C := by positivity
  have hC3 : 0 ≤ C ^ 3 := by positivity
  have e : C ^ 2 * (1 - C * Real.arctan (1 / C)) = C ^ 2 - C ^ 3 * Real.arctan (1 / C) := by ring
  rw [e]
  constructor
  · have := mul_le_mul_of_nonneg_left (arctan_upper h0) hC3
    have e2 : C ^ 3 * (1 / C - (1 / C) ^ 3 / 3 + (1 / C) ^ 5 / 5) = C ^ 2 - 1 / 3 + 1 / C ^ 2 / 5 := by
      field_simp
    linarith
  · have := mul_le_mul_of_nonneg_left (arctan_lower h0) hC3
    have e2 : C ^ 3 * (1 / C - (1 / C) ^ 3 / 3) = C ^ 2 - 1 / 3 := by
      field_simp
    linarith

lemma c2log_bounds {C : ℝ} (hC : 0 < C) :
    1 / (1 + 1 / C ^ 2) ≤ C ^ 2 * Real.log (1 + (C ^ 2)⁻¹) ∧ C ^ 2 * Real.log (1 + (C ^ 2)⁻¹) ≤ 1 := by
  have h2 : 0 < C ^ 2 := by positivity
  have h3 : 0 < 1 + (C ^ 2)⁻¹ := by positivity
  constructor
  · have := mul_le_mul_of_nonneg_left (Real.one_sub_inv_le_log_of_pos h3) h2.le
    refine le_trans (le_of_eq ?_) this
    field_simp
    ring
  · have := mul_le_mul_of_nonneg_left (Real.log_le_sub_one_of_pos h3) h2.le
    refine this.trans (le_of_eq ?_)
    field_simp
    ring

lemma inv_sq_atTop : Tendsto (fun C : ℝ => 1 / C ^ 2) atTop (𝓝 0) := by
  have := tendsto_pow_neg_atTop (𝕜 := ℝ) (n := 2) (by norm_num)
  refine this.congr fun C => ?_
  rw [zpow_neg, one_div]
  norm_cast

lemma tendsto_cArctan : Tendsto (fun C : ℝ => C * Real.arctan (1 / C)) atTop (𝓝 1) := by
  refine tendsto_of_tendsto_of_tendsto_of_le_of_le' (g := fun C : ℝ => 1 - 1 / C ^ 2 / 3) (h := fun _ => 1) ?_ tendsto_const_nhds ?_ ?_
  · have := (inv_sq_atTop.div_const 3).const_sub 1
    simpa using this
  · filter_upwards [eventually_gt_atTop 0] with C hC using (cArctan_bounds hC).1
  · filter_upwards [eventually_gt_atTop 0] with C hC using (cArctan_bounds hC).2

lemma tendsto_c2Arctan : Tendsto (fun C : ℝ => C ^ 2 * (1 - C * Real.arctan (1 / C))) atTop (𝓝 (1 / 3)) := by
  refine tendsto_of_tendsto_of_tendsto_of_le_of_le' (g := fun C : ℝ => 1 / 3 - 1 / C ^ 2 / 5) (h := fun _ => 1 / 3) ?_ tendsto_const_nhds ?_ ?_
  · have := (inv_sq_atTop.div_const 5).const_sub (1 / 3)
    simpa using this
  · filter_upwards [eventually_gt_atTop 0] with C hC using (c2Arctan_bounds hC).1
  · filter_upwards [eventually_gt_atTop 0] with C hC using (c2Arctan_bounds hC).2

lemma tendsto_c2log : Tendsto (fun C : ℝ => C ^ 2 * Real.log (1 + (C ^ 2)⁻¹)) atTop (𝓝 1) := by
  refine tendsto_of_tendsto_of_tendsto_of_le_of_le' (g := fun C : ℝ => 1 / (1 + 1 / C ^ 2)) (h := fun _ => 1) ?_ tendsto_const_nhds ?_ ?_
  · have := ((inv_sq_atTop.const_add 1).inv₀ (by norm_num))
    simpa using this
  · filter_upwards [eventually_gt_atTop 0] with C hC using (c2log_bounds hC).1
  · filter_upwards [eventually_gt_atTop 0] with C hC using (c2log_bounds hC).2

lemma tendsto_log_one_add : Tendsto (fun C : ℝ => Real.log (1 + C ^ 2) - 2 * Real.log C) atTop (𝓝 0) := by
  have h : Tendsto (fun C : ℝ => Real.log (1 + 1 / C ^ 2)) atTop (𝓝 (Real.log (1 + 0))) := (inv_sq_atTop.const_add 1).log (by norm_num)
  rw [add_zero, Real.log_one] at h
  refine h.congr' ?_
  filter_upwards [eventually_gt_atTop 0] with C hC
  have : 1 + 1 / C ^ 2 = (1 + C ^ 2) / C ^ 2 := by
    field_simp
    ring
  rw [this, Real.log_div (by positivity) (by positivity), Real.log_pow]
  norm_num

/-! Close to zero. -/

lemma tendsto_cArctan_zero : Tendsto (fun C : ℝ => C * Real.arctan (1 / C)) (𝓝[>] 0) (𝓝 0) := by
  have hb : Tendsto (fun C : ℝ => |C| * 2) (𝓝[>] 0) (𝓝 0) := by
    have : Continuous fun C : ℝ => |C| * 2 := by fun_prop
    have := (this.tendsto 0).mono_left (nhdsWithin_le_nhds (s := Ioi 0))
    simpa using this
  refine squeeze_zero_norm (fun C => ?_) hb
  rw [Real.norm_eq_abs, abs_mul]
  gcongr
  have h1 := Real.arctan_lt_pi_div_two (1 / C)
  have h2 := Real.neg_pi_div_two_lt_arctan (1 / C)
  have := Real.pi_le_four
  rw [abs_le]
  constructor <;> linarith

lemma tendsto_sq_zero : Tendsto (fun C : ℝ => C ^ 2) (𝓝[>] 0) (𝓝 0) := by
  have : Continuous fun C : ℝ => C ^ 2 := by fun_prop
  have := (this.tendsto 0).mono_left (nhdsWithin_le_nhds (s := Ioi 0))
  simpa using this

lemma tendsto_c2Arctan_zero : Tendsto (fun C : ℝ => C ^ 2 * (1 - C * Real.arctan (1 / C))) (𝓝[>] 0) (𝓝 0) := by
  have := tendsto_sq_zero.mul (tendsto_cArctan_zero.const_sub 1)
  simpa using this

lemma clog_zero : Tendsto (fun C : ℝ => C * Real.log (1 + (C ^ 2)⁻¹)) (𝓝[>] 0) (𝓝 0) := by
  have h1 : Tendsto (fun C : ℝ => C * Real.log (1 + C ^ 2) - 2 * (C * Real.log C)) (𝓝[>] 0) (𝓝 0) := by
    have a : ContinuousAt (fun C : ℝ => C * Real.log (1 + C ^ 2) - 2 * (C * Real.log C)) 0 := by
      apply ContinuousAt.sub
      · have : (1 + (0 : ℝ) ^ 2) ≠ 0 := by norm_num
        fun_prop (disch := assumption)
      · exact (Real.continuous_mul_log.const_smul (2 : ℝ)).continuousAt
    have := a.tendsto.mono_left (nhdsWithin_le_nhds (s := Ioi 0))
    simpa using this
  refine h1.congr' ?_
  filter_upwards [self_mem_nhdsWithin] with C hC
  have hC : 0 < C := hC
  have : 1 + (C ^ 2)⁻¹ = (1 + C ^ 2) / C ^ 2 := by
    field_simp
    ring
  rw [this, Real.log_div (by positivity) (by positivity), Real.log_pow]
  push_cast
  ring

lemma c2log_zero : Tendsto (fun C : ℝ => C ^ 2 * Real.log (1 + (C ^ 2)⁻¹)) (𝓝[>] 0) (𝓝 0) := by
  have hid : Tendsto (fun C : ℝ => C) (𝓝[>] 0) (𝓝 0) := tendsto_id.mono_left nhdsWithin_le_nhds
  have := hid.mul clog_zero
  rw [mul_zero] at this
  refine this.congr fun C => by ring

lemma log_one_add_zero : Tendsto (fun C : ℝ => Real.log (1 + C ^ 2)) (𝓝[>] 0) (𝓝 0) := by
  have := (tendsto_sq_zero.const_add 1).log (by norm_num)
  simpa using this

lemma inv_one_add_inv_zero : Tendsto (fun C : ℝ => (1 + (C ^ 2)⁻¹)⁻¹) (𝓝[>] 0) (𝓝 0) := by
  refine squeeze_zero' ?_ ?_ tendsto_sq_zero
  · filter_upwards with C using by positivity
  · filter_upwards [self_mem_nhdsWithin] with C hC
    have hC : 0 < C := hC
    rw [inv_le_comm₀ (by positivity) (by positivity)]
    linarith

lemma inv_one_add_inv : Tendsto (fun C : ℝ => (1 + (C ^ 2)⁻¹)⁻¹) atTop (𝓝 1) := by
  have := ((inv_sq_atTop.const_add 1).inv₀ (by norm_num))
  simpa using this

/-- The combination of dilogarithms. -/
lemma dilog_combination {C : ℝ} (hC : 0 < C) :
    -Real.log (C ^ 2) * Real.log (1 + (C ^ 2)⁻¹) + Spec.dilog (1 + (C ^ 2)⁻¹) - Spec.dilog 1 =
      Real.log (1 + (C ^ 2)⁻¹) ^ 2 / 2 + Spec.dilog ((1 + C ^ 2)⁻¹) := by
  set x := 1 + (C ^ 2)⁻¹ with hx
  have hx1 : 1 < x := by
    have : 0 < (C ^ 2)⁻¹ := by positivity
    linarith
  have hi := dilog_invert hx1.le
  have hr := dilog_reflect (x := 1 / x) (by positivity) (by rw [div_lt_one (by linarith)]; exact hx1)
  have e1 : 1 - 1 / x = (1 + C ^ 2)⁻¹ := by
    rw [hx]
    field_simp
    ring
  have e2 : Real.log ((1 + C ^ 2)⁻¹) = -(Real.log (C ^ 2) + Real.log x) := by
    rw [Real.log_inv, ← Real.log_mul (by positivity) (by positivity), hx]
    congr 2
    field_simp
    ring
  rw [e1, e2, one_div, Real.log_inv] at hr
  rw [one_div] at hi
  rw [dilog_one]
  linarith [hi, hr]

lemma dilog_small {y : ℝ} (h0 : 0 ≤ y) (h1 : y < 1) : y ≤ Spec.dilog y ∧ Spec.dilog y ≤ y / (1 - y) := by
  have hs := dilog_series h0 h1.le
  constructor
  · have := hs.summable.sum_le_tsum {0} (fun i _ => by positivity)
    rw [hs.tsum_eq] at this
    simpa using this
  · have hg : HasSum (fun n : ℕ => y ^ n * y) ((1 - y)⁻¹ * y) := (hasSum_geometric_of_lt_one h0 h1).mul_right y
    have := hasSum_le (fun n => ?_) hs hg
    · rwa [div_eq_inv_mul]
    · rw [← pow_succ]
      apply div_le_self (by positivity)
      have : (0 : ℝ) ≤ n := Nat.cast_nonneg n
      nlinarith

lemma tendsto_dilog_combination : Tendsto (fun C : ℝ => C ^ 2 * (-Real.log (C ^ 2) * Real.log (1 + (C ^ 2)⁻¹) + Spec.dilog (1 + (C ^ 2)⁻¹) -
    Spec.dilog 1)) atTop (𝓝 1) := by
  have h1 : Tendsto (fun C : ℝ => C ^ 2 * Real.log (1 + (C ^ 2)⁻¹) * Real.log (1 + (C ^ 2)⁻¹) / 2) atTop (𝓝 0) := by
    have l : Tendsto (fun C : ℝ => Real.log (1 + (C ^ 2)⁻¹)) atTop (𝓝 (Real.log (1 + 0))) := by
      have := inv_sq_atTop
      simp only [one_div] at this
      exact (this.const_add 1).log (by norm_num)
    have := (tendsto_c2log.mul l).div_const 2
    simpa using this
  have h2 : Tendsto (fun C : ℝ => C ^ 2 * Spec.dilog ((1 + C ^ 2)⁻¹)) atTop (𝓝 1) := by
    refine tendsto_of_tendsto_of_tendsto_of_le_of_le' (g := fun C : ℝ => (1 + (C ^ 2)⁻¹)⁻¹) (h := fun _ => 1) inv_one_add_inv tendsto_const_nhds ?_ ?_
    · filter_upwards [eventually_gt_atTop 0] with C hC
      have := (dilog_small (y := (1 + C ^ 2)⁻¹) (by positivity) (inv_lt_one_of_one_lt₀ (by nlinarith))).1
      have := mul_le_mul_of_nonneg_left this (sq_nonneg C)
      refine le_trans (le_of_eq ?_) this
      field_simp
      ring
    · filter_upwards [eventually_gt_atTop 0] with C hC
      have := (dilog_small (y := (1 + C ^ 2)⁻¹) (by positivity) (inv_lt_one_of_one_lt₀ (by nlinarith))).2
      have := mul_le_mul_of_nonneg_left this (sq_nonneg C)
      refine this.trans (le_of_eq ?_)
      field_simp
      ring
  have := h1.add h2
  rw [zero_add] at this
  refine this.congr' ?_
  filter_upwards [eventually_gt_atTop 0] with C hC
  rw [dilog_combination hC]
  ring

lemma dilog_combination_zero : Tendsto (fun C : ℝ => C ^ 2 * (-Real.log (C ^ 2) * Real.log (1 + (C ^ 2)⁻¹) + Spec.dilog (1 + (C ^ 2)⁻¹) -
    Spec.dilog 1)) (𝓝[>] 0) (𝓝 0) := by
  have h1 := (clog_zero.pow 2).div_const 2
  have h2 : Tendsto (fun C : ℝ => C ^ 2 * Spec.dilog ((1 + C ^ 2)⁻¹)) (𝓝[>] 0) (𝓝 (0 * Spec.dilog ((1 + 0)⁻¹))) :=
    tendsto_sq_zero.mul ((dilog_continuous.tendsto _).comp ((tendsto_sq_zero.const_add 1).inv₀ (by norm_num)))
  have := h1.add h2
  norm_num at this
  refine this.congr' ?_
  filter_upwards [self_mem_nhdsWithin] with C hC
  rw [dilog_combination hC]
  ring

/-! ## Structure functions of Tsai -/

/-- `Φ₁`, `Φ₂` of the atom and `Ψ₁`, `Ψ₂` of its electrons, with the exact dilogarithm, and with the screening radius of the
electrons throughout in lithium and beryllium (Tsai, equations 3.25-3.28, 3.46-3.49, 3.38-3.41). -/
noncomputable def Spec.tsai (Z δ : ℝ) : TsaiFunctions :=
  let F := tsaiFunctions Z δ
  if Z ≤ 2.5 then
    let η := if Z ≤ 1.5 then 1 else 1.6875
    let C := δ / (2 * ALPHA * ME * η)
    { F with
      psi2 := 8 / 3 * Real.log Z + 4 * Real.log (1 / (2 * η * ALPHA)) + 7 - 2 * Real.log (1 + C ^ 2) -
        105 * C ^ 2 * (1 - C * Real.arctan (1 / C)) + 50 * C ^ 2 * Real.log (1 + (C ^ 2)⁻¹) -
        24 * C ^ 2 * (-Real.log (C ^ 2) * Real.log (1 + (C ^ 2)⁻¹) + Spec.dilog (1 + (C ^ 2)⁻¹) - Spec.dilog 1) }
  else if Z ≤ 4.5 then
    let ap := (if Z ≤ 3.5 then 418.6 else 571.4) * Z ^ (-2 / 3 : ℝ) / ME
    let bp := δ * ap
    { F with
      psi1 := 2 * (1 + Real.log (ap ^ 2 * Z ^ (4 / 3 : ℝ) * ME ^ 2)) - 2 * Real.log (1 + bp ^ 2) - 4 * bp * Real.arctan (1 / bp)
      psi2 := 2 * (2 / 3 + Real.log (ap ^ 2 * Z ^ (4 / 3 : ℝ) * ME ^ 2)) - 2 * Real.log (1 + bp ^ 2) +
        8 * bp ^ 2 * (1 - bp * Real.arctan (1 / bp) - 3 / 4 * Real.log (1 + (bp ^ 2)⁻¹)) }
  else F

/-- C125: for hydrogen and helium the code is this formula up to the error of the dilogarithm. -/
theorem C125_light (Z δ : ℝ) (hZ : Z ≤ 2.5) :
    (tsaiFunctions Z δ).phi1 = (Spec.tsai Z δ).phi1 ∧ (tsaiFunctions Z δ).phi2 = (Spec.tsai Z δ).phi2 ∧
    (tsaiFunctions Z δ).psi1 = (Spec.tsai Z δ).psi1 ∧
    |(tsaiFunctions Z δ).psi2 - (Spec.tsai Z δ).psi2| ≤ 1e-8 * (δ / ME) ^ 2 := by
  unfold Spec.tsai
  simp only [if_pos hZ]
  refine ⟨trivial, trivial, trivial, ?_⟩
  unfold tsaiFunctions
  simp only [if_pos hZ, tsaiLight]
  set η : ℝ := if Z ≤ 1.5 then 1 else 1.6875 with hη
  have hη1 : 1 ≤ η := by
    rw [hη]
    split_ifs <;> norm_num
  set C := δ / (2 * ALPHA * ME * η) with hC
  have d1 := C124_dilog (1 + (C ^ 2)⁻¹)
  have d2 := C124_dilog 1
  have e : 8 / 3 * Real.log Z + 4 * Real.log (1 / (2 * η * ALPHA)) + 21 / 3 - 2 * Real.log (1 + C ^ 2) -
        105 * C ^ 2 * (1 - C * Real.arctan (1 / C)) + 50 * C ^ 2 * Real.log (1 + (C ^ 2)⁻¹) -
        24 * C ^ 2 * (-Real.log (C ^ 2) * Real.log (1 + (C ^ 2)⁻¹) + dilog (1 + (C ^ 2)⁻¹) - dilog 1) -
      (8 / 3 * Real.log Z + 4 * Real.log (1 / (2 * η * ALPHA)) + 7 - 2 * Real.log (1 + C ^ 2) -
        105 * C ^ 2 * (1 - C * Real.arctan (1 / C)) + 50 * C ^ 2 * Real.log (1 + (C ^ 2)⁻¹) -
        24 * C ^ 2 * (-Real.log (C ^ 2) * Real.log (1 + (C ^ 2)⁻¹) + Spec.dilog (1 + (C ^ 2)⁻¹) - Spec.dilog 1)) =
      -(24 * C ^ 2) * ((dilog (1 + (C ^ 2)⁻¹) - Spec.dilog (1 + (C ^ 2)⁻¹)) - (dilog 1 - Spec.dilog 1)) := by ring
  rw [e, abs_mul, abs_neg, abs_of_nonneg (by positivity)]
  have hsum : |(dilog (1 + (C ^ 2)⁻¹) - Spec.dilog (1 + (C ^ 2)⁻¹)) - (dilog 1 - Spec.dilog 1)| ≤ 6e-15 := by
    refine (abs_sub _ _).trans ?_
    norm_num at d1 d2 ⊢
    linarith
  have hC2 : C ^ 2 ≤ 4800 * (δ / ME) ^ 2 := by
    have hal := alpha_pos'
    have hme := me_pos'
    have e2 : C = δ / ME * (1 / (2 * ALPHA * η)) := by
      rw [hC]
      field_simp
    rw [e2, mul_pow, mul_comm]
    gcongr
    have : 1 / (2 * ALPHA * η) ≤ 69 := by
      rw [div_le_iff₀ (by positivity)]
      have : (1 : ℝ) ≤ 69 * (2 * ALPHA) := by norm_num [ALPHA]
      nlinarith
    have h0 : 0 ≤ 1 / (2 * ALPHA * η) := by positivity
    nlinarith
  calc 24 * C ^ 2 * |(dilog (1 + (C ^ 2)⁻¹) - Spec.dilog (1 + (C ^ 2)⁻¹)) - (dilog 1 - Spec.dilog 1)|
      ≤ 24 * (4800 * (δ / ME) ^ 2) * 6e-15 := by gcongr
    _ ≤ 1e-8 * (δ / ME) ^ 2 := by
      have := sq_nonneg (δ / ME)
      norm_num
      nlinarith

/-- C125: from boron on the code is this formula; for lithium and beryllium only `Φ₁` and `Φ₂` are shown to be. -/
theorem C125_heavy_partial (Z δ : ℝ) : (4.5 < Z → tsaiFunctions Z δ = Spec.tsai Z δ) ∧
    (tsaiFunctions Z δ).phi1 = (Spec.tsai Z δ).phi1 ∧ (tsaiFunctions Z δ).phi2 = (Spec.tsai Z δ).phi2 := by
  refine ⟨fun h => ?_, ?_, ?_⟩
  · unfold Spec.tsai
    simp only [if_neg (show ¬ Z ≤ 2.5 by norm_num at h ⊢; linarith), if_neg (not_le.mpr h)]
  all_goals
    unfold Spec.tsai
    by_cases h1 : Z ≤ 2.5
    · simp only [if_pos h1]
    · by_cases h2 : Z ≤ 4.5
      · simp only [if_neg h1, if_pos h2]
      · simp only [if_neg h1, if_neg h2]

/-- Water has a light and a heavier element. -/
example : (1 : ℝ) ≤ 2.5 ∧ (4.5 : ℝ) < 8 := by norm_num

lemma scale_atTop {k : ℝ} (hk : 0 < k) : Tendsto (fun δ : ℝ => δ * k) atTop atTop := tendsto_id.atTop_mul_const hk

lemma scale_zero {k : ℝ} (hk : 0 < k) : Tendsto (fun δ : ℝ => δ * k) (𝓝[>] 0) (𝓝[>] 0) := by
  apply tendsto_nhdsWithin_of_tendsto_nhds_of_eventually_within
  · have : Continuous fun δ : ℝ => δ * k := by fun_prop
    have := (this.tendsto 0).mono_left (nhdsWithin_le_nhds (s := Ioi 0))
    simpa using this
  · filter_upwards [self_mem_nhdsWithin] with δ hδ
    exact mul_pos hδ hk

/-- The structure functions of Thomas-Fermi type with a screening radius. -/
lemma middle_unscreened (L b0 : ℝ) (hb : 0 < b0) (hL : L = 2 * Real.log b0) :
    Tendsto (fun δ : ℝ => 2 * (1 + L) - 2 * Real.log (1 + (δ * b0) ^ 2) - 4 * (δ * b0) * Real.arctan (1 / (δ * b0)) + 4 * Real.log δ) atTop (𝓝 (-2)) ∧
    Tendsto (fun δ : ℝ => 2 * (2 / 3 + L) - 2 * Real.log (1 + (δ * b0) ^ 2) +
      8 * (δ * b0) ^ 2 * (1 - δ * b0 * Real.arctan (1 / (δ * b0)) - 3 / 4 * Real.log (1 + ((δ * b0) ^ 2)⁻¹)) + 4 * Real.log δ) atTop (𝓝 (-2)) := by
  have ht := scale_atTop hb
  have l1 := tendsto_log_one_add.comp ht
  have l2 := tendsto_cArctan.comp ht
  have l3 := tendsto_c2Arctan.comp ht
  have l4 := tendsto_c2log.comp ht
  constructor
  · have := ((l1.const_mul 2).const_sub 2).sub (l2.const_mul 4)
    norm_num at this
    refine this.congr' ?_
    filter_upwards [eventually_gt_atTop 0] with δ hδ
    try simp only [Function.comp]
    rw [Real.log_mul hδ.ne' hb.ne', hL]
    ring_nf
  · have := (((l1.const_mul 2).const_sub (4 / 3)).add (l3.const_mul 8)).sub (l4.const_mul 6)
    norm_num at this
    refine this.congr' ?_
    filter_upwards [eventually_gt_atTop 0] with δ hδ
    try simp only [Function.comp]
    rw [Real.log_mul hδ.ne' hb.ne', hL]
    ring_nf

/-- Light elements as functions of the momentum transfer. -/
lemma light_unscreened (k K : ℝ) (hk : 0 < k) (hK : K = Real.log k) :
    Tendsto (fun δ : ℝ => 4 * K + 13 / 3 - 2 * Real.log (1 + (δ * k) ^ 2) - (13 / 2) * (δ * k) * Real.arctan (1 / (δ * k)) +
      (1 / 6) / (1 + ((δ * k) ^ 2)⁻¹) + 4 * Real.log δ) atTop (𝓝 (-2)) ∧
    Tendsto (fun δ : ℝ => 4 * K + 11 / 3 - 2 * Real.log (1 + (δ * k) ^ 2) + 25 * (δ * k) ^ 2 * (1 - δ * k * Real.arctan (1 / (δ * k))) -
      14 * (δ * k) ^ 2 * Real.log (1 + ((δ * k) ^ 2)⁻¹) + 4 * Real.log δ) atTop (𝓝 (-2)) ∧
    Tendsto (fun δ : ℝ => 4 * K + 23 / 3 - 2 * Real.log (1 + (δ * k) ^ 2) - 17.5 * (δ * k) * Real.arctan (1 / (δ * k)) +
      8 * (δ * k) ^ 2 * Real.log (1 + ((δ * k) ^ 2)⁻¹) - 1 / 6 / (1 + ((δ * k) ^ 2)⁻¹) + 4 * Real.log δ) atTop (𝓝 (-2)) ∧
    Tendsto (fun δ : ℝ => 4 * K + 7 - 2 * Real.log (1 + (δ * k) ^ 2) - 105 * (δ * k) ^ 2 * (1 - δ * k * Real.arctan (1 / (δ * k))) +
      50 * (δ * k) ^ 2 * Real.log (1 + ((δ * k) ^ 2)⁻¹) - 24 * (δ * k) ^ 2 * (-Real.log ((δ * k) ^ 2) * Real.log (1 + ((δ * k) ^ 2)⁻¹) +
      Spec.dilog (1 + ((δ * k) ^ 2)⁻¹) - Spec.dilog 1) + 4 * Real.log δ) atTop (𝓝 (-2)) := by
  have ht := scale_atTop hk
  have l1 := tendsto_log_one_add.comp ht
  have l2 := tendsto_cArctan.comp ht
  have l3 := tendsto_c2Arctan.comp ht
  have l4 := tendsto_c2log.comp ht
  have l5 := inv_one_add_inv.comp ht
  have l6 := tendsto_dilog_combination.comp ht
  refine ⟨?_, ?_, ?_, ?_⟩
  · have := (((l1.const_mul 2).const_sub (13 / 3)).sub (l2.const_mul (13 / 2))).add (l5.const_mul (1 / 6))
    norm_num at this
    refine this.congr' ?_
    filter_upwards [eventually_gt_atTop 0] with δ hδ
    try simp only [Function.comp]
    rw [Real.log_mul hδ.ne' hk.ne', hK]
    ring_nf
  · have := (((l1.const_mul 2).const_sub (11 / 3)).add (l3.const_mul 25)).sub (l4.const_mul 14)
    norm_num at this
    refine this.congr' ?_
    filter_upwards [eventually_gt_atTop 0] with δ hδ
    try simp only [Function.comp]
    rw [Real.log_mul hδ.ne' hk.ne', hK]
    ring_nf
  · have := ((((l1.const_mul 2).const_sub (23 / 3)).sub (l2.const_mul 17.5)).add (l4.const_mul 8)).sub (l5.const_mul (1 / 6))
    norm_num at this
    refine this.congr' ?_
    filter_upwards [eventually_gt_atTop 0] with δ hδ
    try simp only [Function.comp]
    rw [Real.log_mul hδ.ne' hk.ne', hK]
    ring_nf
  · have := ((((l1.const_mul 2).const_sub 7).sub (l3.const_mul 105)).add (l4.const_mul 50)).sub (l6.const_mul 24)
    norm_num at this
    refine this.congr' ?_
    filter_upwards [eventually_gt_atTop 0] with δ hδ
    try simp only [Function.comp]
    rw [Real.log_pow, Real.log_mul hδ.ne' hk.ne', hK]
    push_cast
    ring_nf

lemma exp_scale_atTop {k a : ℝ} (hk : 0 < k) (ha : 0 < a) : Tendsto (fun δ : ℝ => Real.exp (-a * (δ * k))) atTop (𝓝 0) := by
  have h : Tendsto (fun δ : ℝ => a * (δ * k)) atTop atTop := (scale_atTop hk).const_mul_atTop ha
  refine (Real.tendsto_exp_neg_atTop_nhds_zero.comp h).congr fun δ => ?_
  simp [Function.comp]

lemma log_scale_sq_atTop {k a : ℝ} (hk : 0 < k) (ha : 0 < a) :
    Tendsto (fun δ : ℝ => Real.log (1 + (a * (δ * k)) ^ 2) - 2 * Real.log δ) atTop (𝓝 (2 * Real.log (a * k))) := by
  have := (tendsto_log_one_add.comp (scale_atTop (mul_pos ha hk))).add_const (2 * Real.log (a * k))
  rw [zero_add] at this
  refine this.congr' ?_
  filter_upwards [eventually_gt_atTop 0] with δ hδ
  simp only [Function.comp]
  rw [Real.log_mul hδ.ne' (mul_pos ha hk).ne', show δ * (a * k) = a * (δ * k) by ring]
  ring

lemma poly_inv_atTop {k a b : ℝ} (hk : 0 < k) (ha : 0 < a) (hb : 0 < b) :
    Tendsto (fun δ : ℝ => 2 / 3 * 1 / (1 + a * (δ * k) + b * (δ * k) ^ 2)) atTop (𝓝 0) := by
  apply tendsto_const_nhds.div_atTop
  have h1 := (scale_atTop hk).const_mul_atTop ha
  have h2 := ((tendsto_pow_atTop two_ne_zero).comp (scale_atTop hk)).const_mul_atTop hb
  have := (h1.atTop_add_atTop h2)
  refine (tendsto_atTop_add_const_left _ 1 this).congr fun δ => ?_
  simp only [Function.comp]
  ring

/-- A logarithm by comparing a power of the number with a power of `e`. -/
lemma log_by_power {x lo hi : ℝ} (k n : ℕ) (hx : 0 < x) (hk : 0 < k)
    (h1 : lo * k ≤ n + 1 - 2.7182818286 ^ n / x ^ k) (h2 : n + x ^ k / 2.7182818283 ^ n - 1 ≤ hi * k) :
    lo ≤ Real.log x ∧ Real.log x ≤ hi := by
  have e1 := Real.exp_one_gt_d9
  have e2 := Real.exp_one_lt_d9
  have hk' : (0 : ℝ) < k := by exact_mod_cast hk
  have hy : 0 < x ^ k / Real.exp 1 ^ n := by positivity
  have e : Real.log (x ^ k / Real.exp 1 ^ n) = k * Real.log x - n := by
    rw [Real.log_div (by positivity) (by positivity), Real.log_pow, Real.log_pow, Real.log_exp, mul_one]
  have a1 := Real.one_sub_inv_le_log_of_pos hy
  have a2 := Real.log_le_sub_one_of_pos hy
  rw [e] at a1 a2
  rw [inv_div] at a1
  have p1 : Real.exp 1 ^ n / x ^ k ≤ 2.7182818286 ^ n / x ^ k := by gcongr
  have p2 : x ^ k / Real.exp 1 ^ n ≤ x ^ k / 2.7182818283 ^ n := by gcongr
  constructor
  · have : lo * k ≤ Real.log x * k := by linarith
    exact le_of_mul_le_mul_right this hk'
  · have : Real.log x * k ≤ hi * k := by linarith
    exact le_of_mul_le_mul_right this hk'

/-- C125: without screening, at large momentum transfers, the formulas of all four functions of every element tend to those of Bethe and Heitler,
`4 log(m/δ) - 2` (within 0.01). The code follows them except in lithium and beryllium. -/
theorem C125_unscreened_partial (Z : ℝ) (hZ : 0 < Z) : ∃ c₁ c₂ c₃ c₄ : ℝ, |c₁ + 2| ≤ 0.01 ∧ |c₂ + 2| ≤ 0.01 ∧ |c₃ + 2| ≤ 0.01 ∧ |c₄ + 2| ≤ 0.01 ∧
    Tendsto (fun δ => (Spec.tsai Z δ).phi1 - 4 / 3 * Real.log Z - 4 * Real.log (ME / δ)) atTop (𝓝 c₁) ∧
    Tendsto (fun δ => (Spec.tsai Z δ).phi2 - 4 / 3 * Real.log Z - 4 * Real.log (ME / δ)) atTop (𝓝 c₂) ∧
    Tendsto (fun δ => (Spec.tsai Z δ).psi1 - 8 / 3 * Real.log Z - 4 * Real.log (ME / δ)) atTop (𝓝 c₃) ∧
    Tendsto (fun δ => (Spec.tsai Z δ).psi2 - 8 / 3 * Real.log Z - 4 * Real.log (ME / δ)) atTop (𝓝 c₄) := by
  have hal := alpha_pos'
  have hme := me_pos'
  by_cases h1 : Z ≤ 2.5
  · refine ⟨-2, -2, -2, -2, by norm_num, by norm_num, by norm_num, by norm_num, ?_⟩
    set η : ℝ := if Z ≤ 1.5 then 1 else 1.6875 with hη
    have hη0 : 0 < η := by
      rw [hη]
      split_ifs <;> norm_num
    have hk : 0 < 1 / (2 * ALPHA * ME * η) := by positivity
    obtain ⟨t1, t2, t3, t4⟩ := light_unscreened (1 / (2 * ALPHA * ME * η)) _ hk rfl
    have hK : Real.log (1 / (2 * ALPHA * ME * η)) = Real.log (1 / (2 * η * ALPHA)) - Real.log ME := by
      rw [← Real.log_div (by positivity) hme.ne']
      congr 1
      field_simp
    rw [hK] at t1 t2 t3 t4
    simp only [Spec.tsai, tsaiFunctions, tsaiLight, if_pos h1, ← hη]
    refine ⟨t1.congr' ?_, t2.congr' ?_, t3.congr' ?_, t4.congr' ?_⟩ <;>
    · filter_upwards [eventually_gt_atTop 0] with δ hδ
      rw [Real.log_div hme.ne' hδ.ne', mul_one_div]
      ring
  by_cases h2 : Z ≤ 4.5
  · refine ⟨-2, -2, -2, -2, by norm_num, by norm_num, by norm_num, by norm_num, ?_⟩
    have key : ∀ a0 a0' : ℝ, 0 < a0 → 0 < a0' → Tendsto (fun δ => (tsaiMiddle Z (a0 * Z ^ (-1 / 3 : ℝ) / ME) (a0' * Z ^ (-2 / 3 : ℝ) / ME) δ).phi1 - 4 / 3 * Real.log Z - 4 * Real.log (ME / δ)) atTop (𝓝 (-2)) ∧
        Tendsto (fun δ => (tsaiMiddle Z (a0 * Z ^ (-1 / 3 : ℝ) / ME) (a0' * Z ^ (-2 / 3 : ℝ) / ME) δ).phi2 - 4 / 3 * Real.log Z - 4 * Real.log (ME / δ)) atTop (𝓝 (-2)) ∧
        Tendsto (fun δ => 2 * (1 + Real.log ((a0' * Z ^ (-2 / 3 : ℝ) / ME) ^ 2 * Z ^ (4 / 3 : ℝ) * ME ^ 2)) - 2 * Real.log (1 + (δ * (a0' * Z ^ (-2 / 3 : ℝ) / ME)) ^ 2) - 4 * (δ * (a0' * Z ^ (-2 / 3 : ℝ) / ME)) * Real.arctan (1 / (δ * (a0' * Z ^ (-2 / 3 : ℝ) / ME))) - 8 / 3 * Real.log Z - 4 * Real.log (ME / δ)) atTop (𝓝 (-2)) ∧
        Tendsto (fun δ => 2 * (2 / 3 + Real.log ((a0' * Z ^ (-2 / 3 : ℝ) / ME) ^ 2 * Z ^ (4 / 3 : ℝ) * ME ^ 2)) - 2 * Real.log (1 + (δ * (a0' * Z ^ (-2 / 3 : ℝ) / ME)) ^ 2) +
          8 * (δ * (a0' * Z ^ (-2 / 3 : ℝ) / ME)) ^ 2 * (1 - δ * (a0' * Z ^ (-2 / 3 : ℝ) / ME) * Real.arctan (1 / (δ * (a0' * Z ^ (-2 / 3 : ℝ) / ME))) - 3 / 4 * Real.log (1 + ((δ * (a0' * Z ^ (-2 / 3 : ℝ) / ME)) ^ 2)⁻¹)) - 8 / 3 * Real.log Z - 4 * Real.log (ME / δ)) atTop (𝓝 (-2)) := by
      intro a0 a0' ha ha'
      have hz1 := Real.rpow_pos_of_pos hZ (-1 / 3)
      have hz2 := Real.rpow_pos_of_pos hZ (-2 / 3)
      have ha1 : 0 < a0 * Z ^ (-1 / 3 : ℝ) / ME := by positivity
      have ha2 : 0 < a0' * Z ^ (-2 / 3 : ℝ) / ME := by positivity
      obtain ⟨t1, t2⟩ := middle_unscreened _ _ ha1 rfl
      obtain ⟨t3, t4⟩ := middle_unscreened _ _ ha2 rfl
      have l1 : Real.log ((a0 * Z ^ (-1 / 3 : ℝ) / ME) ^ 2 * Z ^ (2 / 3 : ℝ) * ME ^ 2) = 2 * Real.log (a0 * Z ^ (-1 / 3 : ℝ) / ME) + 2 / 3 * Real.log Z + 2 * Real.log ME := by
        rw [Real.log_mul (by positivity) (by positivity), Real.log_mul (by positivity) (by positivity), Real.log_pow, Real.log_pow, Real.log_rpow hZ]
        norm_num
      have l2 : Real.log ((a0' * Z ^ (-2 / 3 : ℝ) / ME) ^ 2 * Z ^ (4 / 3 : ℝ) * ME ^ 2) = 2 * Real.log (a0' * Z ^ (-2 / 3 : ℝ) / ME) + 4 / 3 * Real.log Z + 2 * Real.log ME := by
        rw [Real.log_mul (by positivity) (by positivity), Real.log_mul (by positivity) (by positivity), Real.log_pow, Real.log_pow, Real.log_rpow hZ]
        norm_num
      simp only [tsaiMiddle, l1, l2]
      refine ⟨t1.congr' ?_, t2.congr' ?_, t3.congr' ?_, t4.congr' ?_⟩ <;>
      · filter_upwards [eventually_gt_atTop 0] with δ hδ
        rw [Real.log_div hme.ne' hδ.ne']
        norm_num
        ring
    by_cases h3 : Z ≤ 3.5
    · obtain ⟨t1, t2, t3, t4⟩ := key 100 418.6 (by norm_num) (by norm_num)
      simp only [Spec.tsai, tsaiFunctions, if_neg h1, if_pos h2, if_pos h3]
      exact ⟨t1, t2, t3, t4⟩
    · obtain ⟨t1, t2, t3, t4⟩ := key 106 571.4 (by norm_num) (by norm_num)
      simp only [Spec.tsai, tsaiFunctions, if_neg h1, if_pos h2, if_neg h3]
      exact ⟨t1, t2, t3, t4⟩
  · have hz1 := Real.rpow_pos_of_pos hZ (1 / 3)
    have hz2 := Real.rpow_pos_of_pos hZ (2 / 3)
    have hk1 : 0 < 200 / (ME * Z ^ (1 / 3 : ℝ)) := by positivity
    have hk2 : 0 < 200 / (ME * Z ^ (2 / 3 : ℝ)) := by positivity
    have b1 := log_by_power (x := 111.692) (lo := 4.7155) (hi := 4.716) 7 33 (by norm_num) (by norm_num) (by norm_num) (by norm_num)
    have b2 := log_by_power (x := 724.2) (lo := 6.584) (hi := 6.586) 5 33 (by norm_num) (by norm_num) (by norm_num) (by norm_num)
    have hzl : ∀ q : ℝ, ∀ a : ℝ, 0 < a → Real.log (a * (200 / (ME * Z ^ q))) = Real.log (a * 200) - Real.log ME - q * Real.log Z := by
      intro q a ha
      have hz := Real.rpow_pos_of_pos hZ q
      rw [show a * (200 / (ME * Z ^ q)) = a * 200 / (ME * Z ^ q) by ring, Real.log_div (by positivity) (by positivity),
        Real.log_mul hme.ne' hz.ne', Real.log_rpow hZ]
      ring
    have f1 := ((log_scale_sq_atTop hk1 (show (0 : ℝ) < 0.55846 by norm_num)).const_mul 2).const_sub 20.863
    have f2 := (((exp_scale_atTop hk1 (show (0 : ℝ) < 0.9 by norm_num)).const_mul 0.6).const_sub 1).sub
      ((exp_scale_atTop hk1 (show (0 : ℝ) < 1.5 by norm_num)).const_mul 0.4)
    have f3 := (f1.sub (f2.const_mul 4)).sub_const (4 * Real.log ME + 4 / 3 * Real.log Z)
    have f4 := f3.sub (poly_inv_atTop hk1 (show (0 : ℝ) < 6.5 by norm_num) (show (0 : ℝ) < 6 by norm_num))
    have g1 := ((log_scale_sq_atTop hk2 (show (0 : ℝ) < 3.621 by norm_num)).const_mul 2).const_sub 28.340
    have g2 := (((exp_scale_atTop hk2 (show (0 : ℝ) < 8 by norm_num)).const_mul 0.7).const_sub 1).sub
      ((exp_scale_atTop hk2 (show (0 : ℝ) < 29.2 by norm_num)).const_mul 0.3)
    have g3 := (g1.sub (g2.const_mul 4)).sub_const (4 * Real.log ME + 8 / 3 * Real.log Z)
    have g4 := g3.sub (poly_inv_atTop hk2 (show (0 : ℝ) < 40 by norm_num) (show (0 : ℝ) < 400 by norm_num))
    rw [hzl _ _ (by norm_num), show (0.55846 : ℝ) * 200 = 111.692 by norm_num] at f3 f4
    rw [hzl _ _ (by norm_num), show (3.621 : ℝ) * 200 = 724.2 by norm_num] at g3 g4
    have e1 : ∀ δ : ℝ, 200 * δ / (ME * Z ^ (1 / 3 : ℝ)) = δ * (200 / (ME * Z ^ (1 / 3 : ℝ))) := fun δ => by ring
    have e2 : ∀ δ : ℝ, 200 * δ / (ME * Z ^ (2 / 3 : ℝ)) = δ * (200 / (ME * Z ^ (2 / 3 : ℝ))) := fun δ => by ring
    simp only [Spec.tsai, tsaiFunctions, tsaiHeavy, if_neg h1, if_neg h2, e1, e2]
    refine ⟨_, _, _, _, ?_, ?_, ?_, ?_, f3.congr' ?_, f4.congr' ?_, g3.congr' ?_, g4.congr' ?_⟩
    · rw [abs_le]; constructor <;> linarith [b1.1, b1.2]
    · rw [abs_le]; constructor <;> linarith [b1.1, b1.2]
    · rw [abs_le]; constructor <;> linarith [b2.1, b2.2]
    · rw [abs_le]; constructor <;> linarith [b2.1, b2.2]
    all_goals
      filter_upwards [eventually_gt_atTop 0] with δ hδ
      rw [Real.log_div hme.ne' hδ.ne']
      ring

lemma exp_scale_zero (k a : ℝ) : Tendsto (fun δ : ℝ => Real.exp (-a * (δ * k))) (𝓝[>] 0) (𝓝 1) := by
  have : Continuous fun δ : ℝ => Real.exp (-a * (δ * k)) := by fun_prop
  have := (this.tendsto 0).mono_left (nhdsWithin_le_nhds (s := Ioi 0))
  simpa using this

lemma poly_inv_zero (k a b : ℝ) :
    Tendsto (fun δ : ℝ => 2 / 3 * 1 / (1 + a * (δ * k) + b * (δ * k) ^ 2)) (𝓝[>] 0) (𝓝 (2 / 3)) := by
  have : ContinuousAt (fun δ : ℝ => 2 / 3 * 1 / (1 + a * (δ * k) + b * (δ * k) ^ 2)) 0 := by
    have : (1 + a * (0 * k) + b * (0 * k) ^ 2) ≠ 0 := by norm_num
    fun_prop (disch := assumption)
  have := this.tendsto.mono_left (nhdsWithin_le_nhds (s := Ioi 0))
  simpa using this

lemma scale_zero' (k : ℝ) : Tendsto (fun δ : ℝ => δ * k) (𝓝[>] 0) (𝓝 0) := by
  have : Continuous fun δ : ℝ => δ * k := by fun_prop
  have := (this.tendsto 0).mono_left (nhdsWithin_le_nhds (s := Ioi 0))
  simpa using this

lemma arctan_mul_zero (f : ℝ → ℝ) {g : ℝ → ℝ} (hg : Tendsto g (𝓝[>] 0) (𝓝 0)) :
    Tendsto (fun δ => g δ * Real.arctan (f δ)) (𝓝[>] 0) (𝓝 0) := by
  have hb : Tendsto (fun δ => |g δ| * 2) (𝓝[>] 0) (𝓝 0) := by
    have := hg.abs.mul_const 2
    simpa using this
  refine squeeze_zero_norm (fun δ => ?_) hb
  rw [Real.norm_eq_abs, abs_mul]
  have h1 := Real.arctan_lt_pi_div_two (f δ)
  have h2 := Real.neg_pi_div_two_lt_arctan (f δ)
  have h3 := Real.pi_le_four
  have : |Real.arctan (f δ)| ≤ 2 := by
    rw [abs_le]
    constructor <;> linarith
  gcongr

lemma light_screened (k Z η : ℝ) (hk : 0 < k) :
    Tendsto (fun δ => (tsaiLight Z η (δ * k)).phi1 - 4 / 3 * Real.log Z) (𝓝[>] 0) (𝓝 (4 * Real.log (1 / (2 * η * ALPHA)) + 13 / 3)) ∧
    Tendsto (fun δ => (tsaiLight Z η (δ * k)).phi2 - 4 / 3 * Real.log Z) (𝓝[>] 0) (𝓝 (4 * Real.log (1 / (2 * η * ALPHA)) + 11 / 3)) ∧
    Tendsto (fun δ => (tsaiLight Z η (δ * k)).psi1 - 8 / 3 * Real.log Z) (𝓝[>] 0) (𝓝 (4 * Real.log (1 / (2 * η * ALPHA)) + 23 / 3)) ∧
    Tendsto (fun δ => (tsaiLight Z η (δ * k)).psi2 - 8 / 3 * Real.log Z) (𝓝[>] 0) (𝓝 (4 * Real.log (1 / (2 * η * ALPHA)) + 7)) := by
  have ht := scale_zero hk
  have l1 := log_one_add_zero.comp ht
  have l2 := tendsto_cArctan_zero.comp ht
  have l3 := tendsto_c2Arctan_zero.comp ht
  have l4 := c2log_zero.comp ht
  have l5 := inv_one_add_inv_zero.comp ht
  have l6 := dilog_combination_zero.comp ht
  have l7 : Tendsto (fun δ : ℝ => (δ * k) ^ 2 * ((dilog (1 + ((δ * k) ^ 2)⁻¹) - Spec.dilog (1 + ((δ * k) ^ 2)⁻¹)) - (dilog 1 - Spec.dilog 1)))
      (𝓝[>] 0) (𝓝 0) := by
    have hb : Tendsto (fun δ : ℝ => (δ * k) ^ 2 * 1) (𝓝[>] 0) (𝓝 0) := by
      have := (tendsto_sq_zero.comp ht).mul_const 1
      simpa using this
    refine squeeze_zero_norm (fun δ => ?_) hb
    rw [Real.norm_eq_abs, abs_mul, abs_of_nonneg (sq_nonneg _)]
    have d1 := C124_dilog (1 + ((δ * k) ^ 2)⁻¹)
    have d2 := C124_dilog 1
    gcongr
    refine (abs_sub _ _).trans ?_
    norm_num at d1 d2 ⊢
    linarith
  simp only [tsaiLight]
  refine ⟨?_, ?_, ?_, ?_⟩
  · have := (((l1.const_mul 2).const_sub (4 * Real.log (1 / (2 * η * ALPHA)) + 13 / 3)).sub (l2.const_mul (13 / 2))).add (l5.const_mul (1 / 6))
    rw [mul_zero, mul_zero, mul_zero, sub_zero, sub_zero, add_zero] at this
    refine this.congr fun δ => ?_
    simp only [Function.comp]
    ring
  · have := (((l1.const_mul 2).const_sub (4 * Real.log (1 / (2 * η * ALPHA)) + 11 / 3)).add (l3.const_mul 25)).sub (l4.const_mul 14)
    rw [mul_zero, mul_zero, mul_zero, sub_zero, sub_zero, add_zero] at this
    refine this.congr fun δ => ?_
    simp only [Function.comp]
    ring
  · have := ((((l1.const_mul 2).const_sub (4 * Real.log (1 / (2 * η * ALPHA)) + 23 / 3)).sub (l2.const_mul 17.5)).add (l4.const_mul 8)).sub (l5.const_mul (1 / 6))
    rw [mul_zero, mul_zero, mul_zero, mul_zero, sub_zero, sub_zero, add_zero, sub_zero] at this
    refine this.congr fun δ => ?_
    simp only [Function.comp]
    ring
  · have := (((((l1.const_mul 2).const_sub (4 * Real.log (1 / (2 * η * ALPHA)) + 7)).sub (l3.const_mul 105)).add (l4.const_mul 50)).sub
      (l6.const_mul 24)).sub (l7.const_mul 24)
    rw [mul_zero, mul_zero, mul_zero, mul_zero, sub_zero, sub_zero, add_zero, sub_zero, sub_zero] at this
    refine this.congr fun δ => ?_
    simp only [Function.comp]
    ring

lemma middle_screened (Z a ap : ℝ) (hZ : 0 < Z) (ha : 0 < a) (hap : 0 < ap) :
    let A := a * Z ^ (-1 / 3 : ℝ) / ME
    let A' := ap * Z ^ (-2 / 3 : ℝ) / ME
    Tendsto (fun δ => (tsaiMiddle Z A A' δ).phi1 - 4 / 3 * Real.log Z) (𝓝[>] 0) (𝓝 (2 + 4 * Real.log a - 4 / 3 * Real.log Z)) ∧
    Tendsto (fun δ => (tsaiMiddle Z A A' δ).phi2 - 4 / 3 * Real.log Z) (𝓝[>] 0) (𝓝 (4 / 3 + 4 * Real.log a - 4 / 3 * Real.log Z)) ∧
    Tendsto (fun δ => (tsaiMiddle Z A A' δ).psi1 - 8 / 3 * Real.log Z) (𝓝[>] 0) (𝓝 (2 + 4 * Real.log ap - 8 / 3 * Real.log Z)) ∧
    Tendsto (fun δ => (tsaiMiddle Z A A' δ).psi2 - 8 / 3 * Real.log Z) (𝓝[>] 0) (𝓝 (4 / 3 + 4 * Real.log ap - 8 / 3 * Real.log Z)) := by
  intro A A'
  have hme := me_pos'
  have hz1 := Real.rpow_pos_of_pos hZ (-1 / 3)
  have hz2 := Real.rpow_pos_of_pos hZ (-2 / 3)
  have hA : 0 < A := by positivity
  have hA' : 0 < A' := by positivity
  have l1 : Real.log (A ^ 2 * Z ^ (2 / 3 : ℝ) * ME ^ 2) = 2 * Real.log a := by
    have : A ^ 2 * Z ^ (2 / 3 : ℝ) * ME ^ 2 = a ^ 2 := by
      have e : (Z ^ (-1 / 3 : ℝ)) ^ 2 * Z ^ (2 / 3 : ℝ) = 1 := by
        rw [← Real.rpow_natCast, ← Real.rpow_mul hZ.le, ← Real.rpow_add hZ]
        norm_num
      have : A ^ 2 * Z ^ (2 / 3 : ℝ) * ME ^ 2 = a ^ 2 * ((Z ^ (-1 / 3 : ℝ)) ^ 2 * Z ^ (2 / 3 : ℝ)) := by
        simp only [A]
        field_simp
      rw [this, e, mul_one]
    rw [this, Real.log_pow]
    norm_num
  have l2 : Real.log (A' ^ 2 * Z ^ (4 / 3 : ℝ) * ME ^ 2) = 2 * Real.log ap := by
    have : A' ^ 2 * Z ^ (4 / 3 : ℝ) * ME ^ 2 = ap ^ 2 := by
      have e : (Z ^ (-2 / 3 : ℝ)) ^ 2 * Z ^ (4 / 3 : ℝ) = 1 := by
        rw [← Real.rpow_natCast, ← Real.rpow_mul hZ.le, ← Real.rpow_add hZ]
        norm_num
      have : A' ^ 2 * Z ^ (4 / 3 : ℝ) * ME ^ 2 = ap ^ 2 * ((Z ^ (-2 / 3 : ℝ)) ^ 2 * Z ^ (4 / 3 : ℝ)) := by
        simp only [A']
        field_simp
      rw [this, e, mul_one]
    rw [this, Real.log_pow]
    norm_num
  have t1 := scale_zero hA
  have t2 := scale_zero hA'
  have s1 := scale_zero' A
  have s2 := scale_zero' A'
  have a1 := log_one_add_zero.comp t1
  have a2 := log_one_add_zero.comp t2
  have b1 := arctan_mul_zero (fun δ => 1 / (δ * A)) s1
  have b2 := arctan_mul_zero (fun δ => 1 / (δ * A)) s2
  have b3 := arctan_mul_zero (fun δ => 1 / (δ * A')) s1
  have c1 := c2log_zero.comp t1
  have c2 := c2log_zero.comp t2
  simp only [tsaiMiddle, l1, l2]
  refine ⟨?_, ?_, ?_, ?_⟩
  · have := ((a1.const_mul 2).const_sub (2 + 4 * Real.log a - 4 / 3 * Real.log Z)).sub (b1.const_mul 4)
    rw [mul_zero, mul_zero, sub_zero, sub_zero] at this
    refine this.congr fun δ => ?_
    simp only [Function.comp]
    ring
  · have := (((a1.const_mul 2).const_sub (4 / 3 + 4 * Real.log a - 4 / 3 * Real.log Z)).add
      (((s1.pow 2).mul (b1.const_sub 1)).const_mul 8)).sub (c1.const_mul 6)
    norm_num at this
    refine this.congr fun δ => ?_
    norm_num
    ring
  · have := ((a2.const_mul 2).const_sub (2 + 4 * Real.log ap - 8 / 3 * Real.log Z)).sub (b2.const_mul 4)
    rw [mul_zero, mul_zero, sub_zero, sub_zero] at this
    refine this.congr fun δ => ?_
    simp only [Function.comp]
    ring
  · have := (((a2.const_mul 2).const_sub (4 / 3 + 4 * Real.log ap - 8 / 3 * Real.log Z)).add
      (((s2.pow 2).mul (b3.const_sub 1)).const_mul 8)).sub (c2.const_mul 6)
    norm_num at this
    refine this.congr fun δ => ?_
    norm_num
    ring

lemma heavy_screened (Z : ℝ) :
    Tendsto (fun δ => (tsaiHeavy Z δ).phi1 - 4 / 3 * Real.log Z) (𝓝[>] 0) (𝓝 (20.863 - 4 / 3 * Real.log Z)) ∧
    Tendsto (fun δ => (tsaiHeavy Z δ).phi2 - 4 / 3 * Real.log Z) (𝓝[>] 0) (𝓝 (20.863 - 2 / 3 - 4 / 3 * Real.log Z)) ∧
    Tendsto (fun δ => (tsaiHeavy Z δ).psi1 - 8 / 3 * Real.log Z) (𝓝[>] 0) (𝓝 (28.34 - 8 / 3 * Real.log Z)) ∧
    Tendsto (fun δ => (tsaiHeavy Z δ).psi2 - 8 / 3 * Real.log Z) (𝓝[>] 0) (𝓝 (28.34 - 2 / 3 - 8 / 3 * Real.log Z)) := by
  have key : ∀ f : ℝ → ℝ, ∀ y, ContinuousAt f 0 → f 0 = y → Tendsto f (𝓝[>] 0) (𝓝 y) := fun f y h h' =>
    h' ▸ h.tendsto.mono_left nhdsWithin_le_nhds
  have p1 : ∀ u : ℝ, (1 + (0.55846 * (200 * 0 / u)) ^ 2 : ℝ) ≠ 0 := fun u => by positivity
  have p2 : ∀ u : ℝ, (1 + (3.621 * (200 * 0 / u)) ^ 2 : ℝ) ≠ 0 := fun u => by positivity
  have p3 : ∀ u a b : ℝ, (1 + a * (200 * 0 / u) + b * (200 * 0 / u) ^ 2 : ℝ) ≠ 0 := fun u => by norm_num
  refine ⟨key _ _ ?_ ?_, key _ _ ?_ ?_, key _ _ ?_ ?_, key _ _ ?_ ?_⟩ <;> simp only [tsaiHeavy]
  · have := p1 (ME * Z ^ (1 / 3 : ℝ))
    fun_prop (disch := assumption)
  · norm_num
  · have := p1 (ME * Z ^ (1 / 3 : ℝ))
    have := p3 (ME * Z ^ (1 / 3 : ℝ)) 6.5 6
    fun_prop (disch := assumption)
  · norm_num
  · have := p2 (ME * Z ^ (2 / 3 : ℝ))
    fun_prop (disch := assumption)
  · norm_num
  · have := p2 (ME * Z ^ (2 / 3 : ℝ))
    have := p3 (ME * Z ^ (2 / 3 : ℝ)) 40 400
    fun_prop (disch := assumption)
  · norm_num

/-- C125: with complete screening, at small momentum transfers, the functions of every element tend to its radiation logarithms
(within 0.01), with `Φ₁ - Φ₂ → 2/3` and `Ψ₁ - Ψ₂ → 2/3`. -/
theorem C125_screened (n : ℕ) (hn : 1 ≤ n) : ∃ L L' : ℝ, |L - (radiationLogs n).1| ≤ 0.01 ∧ |L' - (radiationLogs n).2| ≤ 0.01 ∧
    Tendsto (fun δ => (tsaiFunctions n δ).phi1 - 4 / 3 * Real.log n) (𝓝[>] 0) (𝓝 (4 * L)) ∧
    Tendsto (fun δ => (tsaiFunctions n δ).phi2 - 4 / 3 * Real.log n) (𝓝[>] 0) (𝓝 (4 * L - 2 / 3)) ∧
    Tendsto (fun δ => (tsaiFunctions n δ).psi1 - 8 / 3 * Real.log n) (𝓝[>] 0) (𝓝 (4 * L')) ∧
    Tendsto (fun δ => (tsaiFunctions n δ).psi2 - 8 / 3 * Real.log n) (𝓝[>] 0) (𝓝 (4 * L' - 2 / 3)) := by
  have hal := alpha_pos'
  have hme := me_pos'
  have hfl : ⌊(n : ℝ) + 0.5⌋ = (n : ℤ) := by
    rw [Int.floor_eq_iff]
    push_cast
    constructor <;> norm_num
  have light : ∀ Z η : ℝ, 0 < η → (∀ δ, tsaiFunctions Z δ = tsaiLight Z η (δ / (2 * ALPHA * ME * η))) →
      ∃ M : ℝ, M = Real.log (1 / (2 * η * ALPHA)) ∧
      Tendsto (fun δ => (tsaiFunctions Z δ).phi1 - 4 / 3 * Real.log Z) (𝓝[>] 0) (𝓝 (4 * (M + 13 / 12))) ∧
      Tendsto (fun δ => (tsaiFunctions Z δ).phi2 - 4 / 3 * Real.log Z) (𝓝[>] 0) (𝓝 (4 * (M + 13 / 12) - 2 / 3)) ∧
      Tendsto (fun δ => (tsaiFunctions Z δ).psi1 - 8 / 3 * Real.log Z) (𝓝[>] 0) (𝓝 (4 * (M + 23 / 12))) ∧
      Tendsto (fun δ => (tsaiFunctions Z δ).psi2 - 8 / 3 * Real.log Z) (𝓝[>] 0) (𝓝 (4 * (M + 23 / 12) - 2 / 3)) := by
    intro Z η hη h
    refine ⟨_, rfl, ?_⟩
    have hk : 0 < 1 / (2 * ALPHA * ME * η) := by positivity
    obtain ⟨t1, t2, t3, t4⟩ := light_screened _ Z η hk
    simp only [mul_one_div] at t1 t2 t3 t4
    simp only [h]
    refine ⟨?_, ?_, ?_, ?_⟩
    · convert t1 using 2; ring
    · convert t2 using 2; ring
    · convert t3 using 2; ring
    · convert t4 using 2; ring
  by_cases h1 : n = 1
  · subst h1
    obtain ⟨M, hM, t⟩ := light (1 : ℕ) 1 one_pos (fun δ => by
      unfold tsaiFunctions
      norm_num)
    have b := log_by_power (x := 1 / (2 * 1 * ALPHA)) (lo := 4.2265) (hi := 4.228) 9 38 (by positivity) (by norm_num)
      (by norm_num [ALPHA]) (by norm_num [ALPHA])
    rw [← hM] at b
    refine ⟨_, _, ?_, ?_, t⟩
    · rw [radiationLogs, hfl]
      show |M + 13 / 12 - 5.31| ≤ _
      rw [abs_le]
      constructor <;> norm_num <;> linarith [b.1, b.2]
    · rw [radiationLogs, hfl]
      show |M + 23 / 12 - 6.144| ≤ _
      rw [abs_le]
      constructor <;> norm_num <;> linarith [b.1, b.2]
  by_cases h2 : n = 2
  · subst h2
    obtain ⟨M, hM, t⟩ := light (2 : ℕ) 1.6875 (by norm_num) (fun δ => by
      unfold tsaiFunctions
      norm_num)
    have b := log_by_power (x := 1 / (2 * 1.6875 * ALPHA)) (lo := 3.7035) (hi := 3.7045) 10 37 (by positivity) (by norm_num)
      (by norm_num [ALPHA]) (by norm_num [ALPHA])
    rw [← hM] at b
    refine ⟨_, _, ?_, ?_, t⟩
    · rw [radiationLogs, hfl]
      show |M + 13 / 12 - 4.79| ≤ _
      rw [abs_le]
      constructor <;> norm_num <;> linarith [b.1, b.2]
    · rw [radiationLogs, hfl]
      show |M + 23 / 12 - 5.621| ≤ _
      rw [abs_le]
      constructor <;> norm_num <;> linarith [b.1, b.2]
  have middle : ∀ Z a ap : ℝ, 0 < Z → 0 < a → 0 < ap →
      (∀ δ, tsaiFunctions Z δ = tsaiMiddle Z (a * Z ^ (-1 / 3 : ℝ) / ME) (ap * Z ^ (-2 / 3 : ℝ) / ME) δ) →
      Tendsto (fun δ => (tsaiFunctions Z δ).phi1 - 4 / 3 * Real.log Z) (𝓝[>] 0) (𝓝 (4 * (1 / 2 + Real.log a - 1 / 3 * Real.log Z))) ∧
      Tendsto (fun δ => (tsaiFunctions Z δ).phi2 - 4 / 3 * Real.log Z) (𝓝[>] 0) (𝓝 (4 * (1 / 2 + Real.log a - 1 / 3 * Real.log Z) - 2 / 3)) ∧
      Tendsto (fun δ => (tsaiFunctions Z δ).psi1 - 8 / 3 * Real.log Z) (𝓝[>] 0) (𝓝 (4 * (1 / 2 + Real.log ap - 2 / 3 * Real.log Z))) ∧
      Tendsto (fun δ => (tsaiFunctions Z δ).psi2 - 8 / 3 * Real.log Z) (𝓝[>] 0) (𝓝 (4 * (1 / 2 + Real.log ap - 2 / 3 * Real.log Z) - 2 / 3)) := by
    intro Z a ap hZ ha hap h
    obtain ⟨t1, t2, t3, t4⟩ := middle_screened Z a ap hZ ha hap
    simp only [h]
    refine ⟨?_, ?_, ?_, ?_⟩
    · convert t1 using 2; ring
    · convert t2 using 2; ring
    · convert t3 using 2; ring
    · convert t4 using 2; ring
  by_cases h3 : n = 3
  · subst h3
    have t := middle (3 : ℕ) 100 418.6 (by norm_num) (by norm_num) (by norm_num) (fun δ => by
      unfold tsaiFunctions
      norm_num)
    have b1 := log_by_power (x := 100) (lo := 4.605) (hi := 4.606) 5 23 (by norm_num) (by norm_num) (by norm_num) (by norm_num)
    have b2 := log_by_power (x := 418.6) (lo := 6.036) (hi := 6.038) 1 6 (by norm_num) (by norm_num) (by norm_num) (by norm_num)
    have b3 := log_by_power (x := ((3 : ℕ) : ℝ)) (lo := 1.0985) (hi := 1.0987) 10 11 (by norm_num) (by norm_num) (by norm_num) (by norm_num)
    refine ⟨_, _, ?_, ?_, t⟩
    · rw [radiationLogs, hfl]
      show |1 / 2 + Real.log 100 - 1 / 3 * Real.log (3 : ℕ) - 4.74| ≤ _
      rw [abs_le]
      constructor <;> linarith [b1.1, b1.2, b3.1, b3.2]
    · rw [radiationLogs, hfl]
      show |1 / 2 + Real.log 418.6 - 2 / 3 * Real.log (3 : ℕ) - 5.805| ≤ _
      rw [abs_le]
      constructor <;> linarith [b2.1, b2.2, b3.1, b3.2]
  by_cases h4 : n = 4
  · subst h4
    have t := middle (4 : ℕ) 106 571.4 (by norm_num) (by norm_num) (by norm_num) (fun δ => by
      unfold tsaiFunctions
      norm_num)
    have b1 := log_by_power (x := 106) (lo := 4.6633) (hi := 4.6636) 3 14 (by norm_num) (by norm_num) (by norm_num) (by norm_num)
    have b2 := log_by_power (x := 571.4) (lo := 6.347) (hi := 6.349) 3 19 (by norm_num) (by norm_num) (by norm_num) (by norm_num)
    have b3 := log_by_power (x := ((4 : ℕ) : ℝ)) (lo := 1.3862) (hi := 1.3864) 13 18 (by norm_num) (by norm_num) (by norm_num) (by norm_num)
    refine ⟨_, _, ?_, ?_, t⟩
    · rw [radiationLogs, hfl]
      show |1 / 2 + Real.log 106 - 1 / 3 * Real.log (4 : ℕ) - 4.71| ≤ _
      rw [abs_le]
      constructor <;> linarith [b1.1, b1.2, b3.1, b3.2]
    · rw [radiationLogs, hfl]
      show |1 / 2 + Real.log 571.4 - 2 / 3 * Real.log (4 : ℕ) - 5.924| ≤ _
      rw [abs_le]
      constructor <;> linarith [b2.1, b2.2, b3.1, b3.2]
  · have hn5 : 5 ≤ n := by omega
    have hz5 : (5 : ℝ) ≤ n := by exact_mod_cast hn5
    have hz0 : (0 : ℝ) < n := by linarith
    have hr : radiationLogs n = (Real.log (184.15 * (n : ℝ) ^ (-1 / 3 : ℝ)), Real.log (1194 * (n : ℝ) ^ (-1 / 3 : ℝ) * (n : ℝ) ^ (-1 / 3 : ℝ))) := by
      rw [radiationLogs, hfl]
      split <;> first | omega | rfl
    have hz := Real.rpow_pos_of_pos hz0 (-1 / 3)
    have b1 := log_by_power (x := 184.15) (lo := 5.215) (hi := 5.2165) 5 26 (by norm_num) (by norm_num) (by norm_num) (by norm_num)
    have b2 := log_by_power (x := 1194) (lo := 7.0845) (hi := 7.0855) 12 85 (by norm_num) (by norm_num) (by norm_num) (by norm_num)
    obtain ⟨t1, t2, t3, t4⟩ := heavy_screened n
    have ht : ∀ δ, tsaiFunctions n δ = tsaiHeavy n δ := fun δ => by
      unfold tsaiFunctions
      rw [if_neg (by norm_num; linarith), if_neg (by norm_num; linarith)]
    simp only [ht, hr]
    refine ⟨20.863 / 4 - 1 / 3 * Real.log n, 28.34 / 4 - 2 / 3 * Real.log n, ?_, ?_, ?_, ?_, ?_, ?_⟩
    · rw [Real.log_mul (by norm_num) hz.ne', Real.log_rpow hz0, abs_le]
      constructor <;> linarith [b1.1, b1.2]
    · rw [Real.log_mul (by positivity) hz.ne', Real.log_mul (by norm_num) hz.ne', Real.log_rpow hz0, abs_le]
      constructor <;> linarith [b2.1, b2.2]
    · convert t1 using 2; ring
    · convert t2 using 2; ring
    · convert t3 using 2; ring
    · convert t4 using 2; ring

end Proposal
