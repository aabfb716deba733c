import Verif.Props.EpairElectron

/-!
# C129: suppression of electron pairs in dense media
-/

open Set Filter Topology MeasureTheory

namespace Proposal

/-! ## The functions of Ternovskii as integrals -/

/-- The denominators: `t` is the variable of integration over the virtuality, `a = 6 s`. -/
noncomputable def Spec.ternQ (a x t : ℝ) : ℝ := (x + t) ^ 2 + (t / a) ^ 2

lemma ternQ_pos {a x t : ℝ} (hx : 0 < x) (ht : 0 ≤ t) : 0 < Spec.ternQ a x t := by
  unfold Spec.ternQ
  positivity

lemma ternQ_cont {a x : ℝ} : Continuous (fun t => Spec.ternQ a x t) := by
  unfold Spec.ternQ
  fun_prop

lemma q_cont {a x : ℝ} (hx : 0 < x) {f : ℝ → ℝ} (hf : Continuous f) : ContinuousOn (fun t => f t / Spec.ternQ a x t) (uIcc 0 1) := by
  rw [uIcc_of_le zero_le_one]
  exact hf.continuousOn.div ternQ_cont.continuousOn fun t ht => (ternQ_pos hx ht.1).ne'

lemma l_cont {k x : ℝ} (hk : 0 < k) (hx : 0 < x) {f : ℝ → ℝ} (hf : Continuous f) : ContinuousOn (fun t => f t / (x + k * t)) (uIcc 0 1) := by
  rw [uIcc_of_le zero_le_one]
  refine hf.continuousOn.div (by fun_prop) fun t ht => ?_
  have : 0 ≤ k * t := mul_nonneg hk.le ht.1
  linarith

/-- The arc tangent. -/
lemma tern_arctan {a x : ℝ} (ha : 0 < a) (hx : 0 < x) : ∫ t in (0 : ℝ)..1, x / Spec.ternQ a x t = a * Real.arctan (1 / (a * (1 + x))) := by
  have hd : ∀ t ∈ uIcc (0 : ℝ) 1, HasDerivAt (fun t => a * Real.arctan (t / a / (x + t))) (x / Spec.ternQ a x t) t := by
    intro t ht
    rw [uIcc_of_le zero_le_one] at ht
    have hxt : 0 < x + t := by linarith [ht.1]
    have h1 : HasDerivAt (fun t : ℝ => t / a / (x + t)) (((1 / a) * (x + t) - t / a * 1) / (x + t) ^ 2) t := by
      have := ((hasDerivAt_id t).div_const a).div ((hasDerivAt_id t).const_add x) hxt.ne'
      exact this
    refine (h1.arctan.const_mul a).congr_deriv ?_
    unfold Spec.ternQ
    field_simp
    ring
  rw [intervalIntegral.integral_eq_sub_of_hasDerivAt hd (q_cont hx continuous_const).intervalIntegrable]
  simp only [zero_div, Real.arctan_zero, mul_zero, sub_zero]
  congr 2
  field_simp
  ring

/-- The logarithm of the denominator. -/
lemma tern_log {a x : ℝ} (ha : 0 < a) (hx : 0 < x) :
    ∫ t in (0 : ℝ)..1, (2 * (x + t) + 2 * t / a ^ 2) / Spec.ternQ a x t = Real.log ((a ^ 2 * (1 + x) ^ 2 + 1) / (a ^ 2 * x ^ 2)) := by
  have hd : ∀ t ∈ uIcc (0 : ℝ) 1, HasDerivAt (fun t => Real.log (Spec.ternQ a x t)) ((2 * (x + t) + 2 * t / a ^ 2) / Spec.ternQ a x t) t := by
    intro t ht
    rw [uIcc_of_le zero_le_one] at ht
    have h1 : HasDerivAt (fun t : ℝ => Spec.ternQ a x t) (2 * (x + t) + 2 * t / a ^ 2) t := by
      have := (((hasDerivAt_id t).const_add x).pow 2).add (((hasDerivAt_id t).div_const a).pow 2)
      refine this.congr_deriv ?_
      norm_num
      field_simp
    exact h1.log (ternQ_pos hx ht.1).ne'
  rw [intervalIntegral.integral_eq_sub_of_hasDerivAt hd (q_cont hx (by fun_prop)).intervalIntegrable,
    ← Real.log_div (ternQ_pos hx zero_le_one).ne' (ternQ_pos hx le_rfl).ne']
  congr 1
  unfold Spec.ternQ
  field_simp
  ring

lemma tern_one {a x : ℝ} (hx : 0 < x) : ∫ t in (0 : ℝ)..1, Spec.ternQ a x t / Spec.ternQ a x t = 1 := by
  rw [intervalIntegral.integral_congr (g := fun _ => (1 : ℝ))]
  · simp
  · intro t ht
    rw [uIcc_of_le zero_le_one] at ht
    exact div_self (ternQ_pos hx ht.1).ne'

/-- The logarithm of the linear denominators. -/
lemma tern_lin {k x : ℝ} (hk : 0 < k) (hx : 0 < x) : ∫ t in (0 : ℝ)..1, k / (x + k * t) = Real.log ((x + k) / x) := by
  have hd : ∀ t ∈ uIcc (0 : ℝ) 1, HasDerivAt (fun t => Real.log (x + k * t)) (k / (x + k * t)) t := by
    intro t ht
    rw [uIcc_of_le zero_le_one] at ht
    have : 0 ≤ k * t := mul_nonneg hk.le ht.1
    have h1 : HasDerivAt (fun t : ℝ => x + k * t) (k * 1) t := ((hasDerivAt_id t).const_mul k).const_add x
    rw [mul_one] at h1
    exact h1.log (by linarith)
  rw [intervalIntegral.integral_eq_sub_of_hasDerivAt hd (l_cont hk hx continuous_const).intervalIntegrable, mul_one, mul_zero, add_zero,
    ← Real.log_div (by linarith) hx.ne']

lemma tern_lin_one {k x : ℝ} (hk : 0 < k) (hx : 0 < x) : ∫ t in (0 : ℝ)..1, (x + k * t) / (x + k * t) = 1 := by
  rw [intervalIntegral.integral_congr (g := fun _ => (1 : ℝ))]
  · simp
  · intro t ht
    rw [uIcc_of_le zero_le_one] at ht
    have : 0 ≤ k * t := mul_nonneg hk.le ht.1
    exact div_self (by linarith)

lemma tern_t {k x : ℝ} (hk : 0 < k) (hx : 0 < x) :
    ∫ t in (0 : ℝ)..1, t / (x + k * t) = 1 / k - x / k ^ 2 * Real.log ((x + k) / x) := by
  rw [← tern_lin hk hx]
  nth_rewrite 1 [show (1 : ℝ) / k = 1 / k * ∫ t in (0 : ℝ)..1, (x + k * t) / (x + k * t) by rw [tern_lin_one hk hx, mul_one]]
  rw [← intervalIntegral.integral_const_mul, ← intervalIntegral.integral_const_mul, ← intervalIntegral.integral_sub
    ((l_cont hk hx (by fun_prop)).intervalIntegrable.const_mul _) ((l_cont hk hx (by fun_prop)).intervalIntegrable.const_mul _)]
  apply intervalIntegral.integral_congr
  intro t ht
  rw [uIcc_of_le zero_le_one] at ht
  have : 0 ≤ k * t := mul_nonneg hk.le ht.1
  have : 0 < x + k * t := by linarith
  simp only
  field_simp
  ring

lemma tern_1t {k x : ℝ} (hk : 0 < k) (hx : 0 < x) :
    ∫ t in (0 : ℝ)..1, (1 - t) / (x + k * t) = (1 / k + x / k ^ 2) * Real.log ((x + k) / x) - 1 / k := by
  have h : ∀ t : ℝ, (1 - t) / (x + k * t) = 1 / k * (k / (x + k * t)) - t / (x + k * t) := by
    intro t
    field_simp
  simp only [h]
  rw [intervalIntegral.integral_sub ((l_cont hk hx (by fun_prop)).intervalIntegrable.const_mul _) ((l_cont hk hx (by fun_prop)).intervalIntegrable),
    intervalIntegral.integral_const_mul, tern_lin hk hx, tern_t hk hx]
  ring

/-- C129: the functions `B` and `D` of the code. -/
theorem C129_integrals_BD (s x : ℝ) (hs : 0 < s) (hx : 0 < x) :
    ternovskiiB s x (Real.log ((6 * s * (1 + x) + 1) / (6 * s * x))) = ∫ t in (0 : ℝ)..1, (1 - t) / (x + (1 + 1 / (6 * s)) * t) ∧
    ternovskiiD s x (Real.log ((6 * s * (1 + x) + 1) / (6 * s * x))) = ∫ t in (0 : ℝ)..1, t / (x + (1 + 1 / (6 * s)) * t) := by
  have hk : 0 < 1 + 1 / (6 * s) := by positivity
  rw [tern_1t hk hx, tern_t hk hx]
  have e : (x + (1 + 1 / (6 * s))) / x = (6 * s * (1 + x) + 1) / (6 * s * x) := by
    field_simp
    ring
  rw [e]
  set l := Real.log ((6 * s * (1 + x) + 1) / (6 * s * x))
  unfold ternovskiiB ternovskiiD
  simp only
  constructor <;> field_simp

lemma int_sum {f g h : ℝ → ℝ} (α β γ : ℝ) (hf : ContinuousOn f (uIcc 0 1)) (hg : ContinuousOn g (uIcc 0 1)) (hh : ContinuousOn h (uIcc 0 1)) :
    α * (∫ t in (0 : ℝ)..1, f t) + β * (∫ t in (0 : ℝ)..1, g t) + γ * (∫ t in (0 : ℝ)..1, h t) = ∫ t in (0 : ℝ)..1, (α * f t + β * g t + γ * h t) := by
  rw [intervalIntegral.integral_add, intervalIntegral.integral_add, intervalIntegral.integral_const_mul, intervalIntegral.integral_const_mul, intervalIntegral.integral_const_mul]
  · exact hf.intervalIntegrable.const_mul _
  · exact hg.intervalIntegrable.const_mul _
  · exact (hf.intervalIntegrable.const_mul _).add (hg.intervalIntegrable.const_mul _)
  · exact hh.intervalIntegrable.const_mul _

lemma tern_atan_eq {a : ℝ} {x : ℝ} (ha : 0 < a) (hx : 0 < x) : Real.arctan (a * (x + 1)) - Real.pi / 2 = -Real.arctan (1 / (a * (1 + x))) := by
  have h : 0 < a * (1 + x) := by positivity
  have := Real.arctan_inv_of_pos h
  rw [one_div, this, add_comm x 1]
  ring

/-- C129: the functions `A`, `C` and `E`. -/
theorem C129_integrals_ACE (s x : ℝ) (hs : 0 < s) (hx : 0 < x) :
    let a := Real.arctan (6 * s * (x + 1)) - Real.pi / 2
    let l := Real.log ((36 * s * s * (1 + x) * (1 + x) + 1) / (36 * s * s * x * x))
    ternovskiiA s x a l = (∫ t in (0 : ℝ)..1, t * (1 - t) / Spec.ternQ (6 * s) x t) ∧
    ternovskiiC s x a l = (∫ t in (0 : ℝ)..1, t ^ 2 / Spec.ternQ (6 * s) x t) ∧
    -(6 * s) * a = ∫ t in (0 : ℝ)..1, x / Spec.ternQ (6 * s) x t := by
  simp only
  have ha : 0 < 6 * s := by positivity
  rw [tern_atan_eq ha hx]
  have el : (36 * s * s * (1 + x) * (1 + x) + 1) / (36 * s * s * x * x) = ((6 * s) ^ 2 * (1 + x) ^ 2 + 1) / ((6 * s) ^ 2 * x ^ 2) := by
    congr 1 <;> ring
  rw [el]
  have hE := tern_arctan ha hx
  have hl := tern_log ha hx
  have h1 := tern_one (a := 6 * s) hx
  set θ := Real.arctan (1 / (6 * s * (1 + x)))
  set l := Real.log (((6 * s) ^ 2 * (1 + x) ^ 2 + 1) / ((6 * s) ^ 2 * x ^ 2))
  have s36 : 36 * s * s = (6 * s) ^ 2 := by ring
  have key : ∀ α β γ : ℝ, ∀ f : ℝ → ℝ, (∀ t, f t = α * x + β * (2 * (x + t) + 2 * t / (6 * s) ^ 2) + γ * Spec.ternQ (6 * s) x t) →
      ∫ t in (0 : ℝ)..1, f t / Spec.ternQ (6 * s) x t = α * (6 * s * θ) + β * l + γ := by
    intro α β γ f hf
    have := int_sum α β γ (q_cont (a := 6 * s) hx (f := fun _ => x) continuous_const) (q_cont (a := 6 * s) hx (f := fun t => 2 * (x + t) + 2 * t / (6 * s) ^ 2) (by fun_prop))
      (q_cont (a := 6 * s) hx (ternQ_cont (a := 6 * s) (x := x)))
    rw [hE, hl, h1] at this
    rw [show α * (6 * s * θ) + β * l + γ = α * (6 * s * θ) + β * l + γ * 1 by ring, this]
    congr 1
    ext t
    rw [hf t]
    ring
  refine ⟨?_, ?_, ?_⟩
  · rw [key (-(6 * s) ^ 2 / ((6 * s) ^ 2 + 1) * (1 + (((6 * s) ^ 2 - 1) / ((6 * s) ^ 2 + 1)) * x))
      (0.5 * ((6 * s) ^ 2 / ((6 * s) ^ 2 + 1)) * (1 + 2 * ((6 * s) ^ 2 / ((6 * s) ^ 2 + 1)) * x)) (-((6 * s) ^ 2 / ((6 * s) ^ 2 + 1)))]
    · unfold ternovskiiA
      simp only [s36]
      ring
    · intro t
      unfold Spec.ternQ
      have : 0 < (6 * s) ^ 2 + 1 := by positivity
      field_simp
      ring
  · rw [key ((6 * s) ^ 2 / ((6 * s) ^ 2 + 1) * (((6 * s) ^ 2 - 1) / ((6 * s) ^ 2 + 1)) * x)
      (-((6 * s) ^ 2 / ((6 * s) ^ 2 + 1)) * ((6 * s) ^ 2 / ((6 * s) ^ 2 + 1)) * x) ((6 * s) ^ 2 / ((6 * s) ^ 2 + 1))]
    · unfold ternovskiiC
      simp only [s36]
      have : 0 < (6 * s) ^ 2 + 1 := by positivity
      field_simp
      ring
    · intro t
      unfold Spec.ternQ
      have : 0 < (6 * s) ^ 2 + 1 := by positivity
      field_simp
      ring
  · rw [hE]
    ring

end Proposal
