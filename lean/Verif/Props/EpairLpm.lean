import Verif.Props.EpairTernovskii

/-!
# C129: suppression of electron pairs in dense media
-/

open Set Filter Topology MeasureTheory

namespace Proposal

/-- The weights of the two denominators; `b` is `v²/(2(1-v))`, `r2` the square of the asymmetry. -/
noncomputable def Spec.ternN1 (b r2 x t : ℝ) : ℝ := (1 + b) * (t * (1 - t)) + b * t ^ 2 + (1 - r2) * x
noncomputable def Spec.ternN2 (b r2 t : ℝ) : ℝ := (1 + r2) * ((1 + b) * (1 - t) + b * t)

/-- The production in a medium, with the coherence parameter `a = 6 s`, at the value `t` of the variable of the virtual photon. -/
noncomputable def Spec.ternDense (a b r2 x t : ℝ) : ℝ :=
  Spec.ternN1 b r2 x t / ((x + t) ^ 2 + (t / a) ^ 2) + Spec.ternN2 b r2 t / (x + t + t / a)

/-- The production by a single atom. -/
noncomputable def Spec.ternThin (b r2 x t : ℝ) : ℝ :=
  Spec.ternN1 b r2 x t / (x + t) ^ 2 + Spec.ternN2 b r2 t / (x + t)

lemma n1_nonneg {b r2 x t : ℝ} (hb : 0 ≤ b) (hr : r2 ≤ 1) (hx : 0 < x) (h0 : 0 ≤ t) (h1 : t ≤ 1) : 0 ≤ Spec.ternN1 b r2 x t := by
  unfold Spec.ternN1
  have a1 : 0 ≤ t * (1 - t) := mul_nonneg h0 (by linarith)
  have a2 : 0 ≤ (1 - r2) * x := mul_nonneg (by linarith) hx.le
  positivity

lemma n2_nonneg {b r2 t : ℝ} (hb : 0 ≤ b) (hr : 0 ≤ r2) (h0 : 0 ≤ t) (h1 : t ≤ 1) : 0 ≤ Spec.ternN2 b r2 t := by
  unfold Spec.ternN2
  have a1 : 0 ≤ 1 - t := by linarith
  positivity

lemma n1_cont {b r2 x : ℝ} : Continuous (fun t => Spec.ternN1 b r2 x t) := by
  unfold Spec.ternN1
  fun_prop

lemma n2_cont {b r2 : ℝ} : Continuous (fun t => Spec.ternN2 b r2 t) := by
  unfold Spec.ternN2
  fun_prop

lemma dense_cont {a b r2 x : ℝ} (ha : 0 < a) (hx : 0 < x) : ContinuousOn (fun t => Spec.ternDense a b r2 x t) (Icc 0 1) := by
  unfold Spec.ternDense
  refine ContinuousOn.add (n1_cont.continuousOn.div (by fun_prop) ?_) (n2_cont.continuousOn.div (by fun_prop) ?_)
  · intro t ht
    have := ht.1
    positivity
  · intro t ht
    have := ht.1
    positivity

lemma thin_cont {b r2 x : ℝ} (hx : 0 < x) : ContinuousOn (fun t => Spec.ternThin b r2 x t) (Icc 0 1) := by
  unfold Spec.ternThin
  refine ContinuousOn.add (n1_cont.continuousOn.div (by fun_prop) ?_) (n2_cont.continuousOn.div (by fun_prop) ?_)
  · intro t ht
    have := ht.1
    positivity
  · intro t ht
    have := ht.1
    positivity

/-- The single atom: the coefficient of the electron diagram. -/
theorem C129_single (b r2 x : ℝ) (hx : 0 < x) : epairPhiE x b r2 = ∫ t in (0 : ℝ)..1, Spec.ternThin b r2 x t := by
  have i1 : ∫ t in (0 : ℝ)..1, x / (x + 1 * t) ^ 2 = 1 / (1 + x) := by
    have hd : ∀ t ∈ uIcc (0 : ℝ) 1, HasDerivAt (fun t => -x / (x + 1 * t)) (x / (x + 1 * t) ^ 2) t := by
      intro t ht
      rw [uIcc_of_le zero_le_one] at ht
      have h1 : HasDerivAt (fun t : ℝ => x + 1 * t) (1 * 1) t := ((hasDerivAt_id t).const_mul 1).const_add x
      have := (hasDerivAt_const t (-x)).div h1 (by linarith [ht.1])
      refine this.congr_deriv ?_
      ring
    rw [intervalIntegral.integral_eq_sub_of_hasDerivAt hd]
    · field_simp
      ring
    · apply ContinuousOn.intervalIntegrable
      rw [uIcc_of_le zero_le_one]
      refine continuousOn_const.div (by fun_prop) ?_
      intro t ht
      have := ht.1
      positivity
  have i2 := tern_lin one_pos hx
  have e0 : (x + 1) / x = 1 + 1 / x := by
    field_simp
  rw [e0] at i2
  have i3 := tern_lin_one one_pos hx
  have c1 : ContinuousOn (fun t => x / (x + 1 * t) ^ 2) (uIcc 0 1) := by
    rw [uIcc_of_le zero_le_one]
    refine continuousOn_const.div (by fun_prop) ?_
    intro t ht
    have := ht.1
    positivity
  have c2 := l_cont one_pos hx (f := fun _ => (1 : ℝ)) continuous_const
  have c3 := l_cont one_pos hx (f := fun t => x + 1 * t) (by fun_prop)
  have := int_sum ((1 + b) * (-1 - x) + b * x + (1 - r2)) ((1 + b) * (1 + 2 * x) - 2 * b * x + (1 + r2) * ((1 + b) * (1 + x) - b * x))
    (-(1 + b) + b + (1 + r2) * (-(1 + b) + b)) c1 c2 c3
  rw [i1, i2, i3] at this
  have goal : (∫ t in (0 : ℝ)..1, Spec.ternThin b r2 x t) = ∫ t in (0 : ℝ)..1, (((1 + b) * (-1 - x) + b * x + (1 - r2)) * (x / (x + 1 * t) ^ 2) +
      ((1 + b) * (1 + 2 * x) - 2 * b * x + (1 + r2) * ((1 + b) * (1 + x) - b * x)) * (1 / (x + 1 * t)) +
      (-(1 + b) + b + (1 + r2) * (-(1 + b) + b)) * ((x + 1 * t) / (x + 1 * t))) := by
    apply intervalIntegral.integral_congr
    intro t ht
    rw [uIcc_of_le zero_le_one] at ht
    have : 0 < x + t := by linarith [ht.1]
    have : 0 < x + 1 * t := by linarith [ht.1]
    simp only
    unfold Spec.ternThin Spec.ternN1 Spec.ternN2
    rw [one_mul]
    field_simp
    ring
  rw [goal, ← this]
  unfold epairPhiE
  field_simp
  ring

/-- The sum of the code for the suppressed production. -/
lemma dense_sum (s b r2 x : ℝ) (hs : 0 < s) (hx : 0 < x) :
    let a := Real.arctan (6 * s * (x + 1)) - Real.pi / 2
    let l := Real.log ((36 * s * s * (1 + x) * (1 + x) + 1) / (36 * s * s * x * x))
    let l2 := Real.log ((6 * s * (1 + x) + 1) / (6 * s * x))
    (1 + b) * (ternovskiiA s x a l + (1 + r2) * ternovskiiB s x l2) + b * (ternovskiiC s x a l + (1 + r2) * ternovskiiD s x l2) + (1 - r2) * (-(6 * s) * a) =
      ∫ t in (0 : ℝ)..1, Spec.ternDense (6 * s) b r2 x t := by
  simp only
  obtain ⟨hA, hC, hE⟩ := C129_integrals_ACE s x hs hx
  obtain ⟨hB, hD⟩ := C129_integrals_BD s x hs hx
  rw [hA, hB, hC, hD, hE]
  have hk : 0 < 1 + 1 / (6 * s) := by positivity
  have q1 := int_sum (1 + b) b (1 - r2) (q_cont (a := 6 * s) hx (f := fun t => t * (1 - t)) (by fun_prop)) (q_cont (a := 6 * s) hx (f := fun t => t ^ 2) (by fun_prop))
    (q_cont (a := 6 * s) hx (f := fun _ => x) continuous_const)
  have q2 := int_sum ((1 + r2) * (1 + b)) ((1 + r2) * b) 0 (l_cont hk hx (f := fun t => 1 - t) (by fun_prop)) (l_cont hk hx (f := fun t => t) (by fun_prop))
    (l_cont hk hx (f := fun _ => 0) continuous_const)
  have e : ∀ t : ℝ, Spec.ternDense (6 * s) b r2 x t =
      ((1 + b) * (t * (1 - t) / Spec.ternQ (6 * s) x t) + b * (t ^ 2 / Spec.ternQ (6 * s) x t) + (1 - r2) * (x / Spec.ternQ (6 * s) x t)) +
      ((1 + r2) * (1 + b) * ((1 - t) / (x + (1 + 1 / (6 * s)) * t)) + (1 + r2) * b * (t / (x + (1 + 1 / (6 * s)) * t)) + 0 * (0 / (x + (1 + 1 / (6 * s)) * t))) := by
    intro t
    unfold Spec.ternDense Spec.ternN1 Spec.ternN2 Spec.ternQ
    rw [show x + (1 + 1 / (6 * s)) * t = x + t + t / (6 * s) by ring]
    ring
  simp only [e]
  rw [intervalIntegral.integral_add, ← q1, ← q2]
  · ring
  · apply ContinuousOn.intervalIntegrable
    have a1 := q_cont (a := 6 * s) hx (f := fun t => t * (1 - t)) (by fun_prop)
    have a2 := q_cont (a := 6 * s) hx (f := fun t => t ^ 2) (by fun_prop)
    have a3 := q_cont (a := 6 * s) hx (f := fun _ => x) continuous_const
    exact ((continuousOn_const.mul a1).add (continuousOn_const.mul a2)).add (continuousOn_const.mul a3)
  · apply ContinuousOn.intervalIntegrable
    have a1 := l_cont hk hx (f := fun t => 1 - t) (by fun_prop)
    have a2 := l_cont hk hx (f := fun t => t) (by fun_prop)
    have a3 := l_cont hk hx (f := fun _ => 0) continuous_const
    exact ((continuousOn_const.mul a1).add (continuousOn_const.mul a2)).add (continuousOn_const.mul a3)

/-- The coherence parameter `6 s`. -/
noncomputable def Spec.pairCoherence (D : EpairLpmData) (E v r2 ρ : ℝ) : ℝ := 3 / 2 * Real.sqrt (D.eLpm / (ρ * E * v * (1 - r2)))

lemma coherence_pos {D : EpairLpmData} {E v r2 ρ : ℝ} (hD : 0 < D.eLpm) (hE : 0 < E) (h0 : 0 < v) (hr : r2 < 1) (hρ : 0 < ρ) : 0 < Spec.pairCoherence D E v r2 ρ := by
  unfold Spec.pairCoherence
  have : 0 < 1 - r2 := by linarith
  have := Real.sqrt_pos.mpr (by positivity : 0 < D.eLpm / (ρ * E * v * (1 - r2)))
  positivity

/-- C129: the factor of the code is the ratio of the production in the medium and by a single atom; far below the critical energy it is 1. -/
theorem C129_formula (D : EpairLpmData) (E v r2 b x ρ : ℝ) (hD : 0 < D.eLpm) (hE : 0 < E) (h0 : 0 < v) (hr : r2 < 1) (hx : 0 < x) (hρ : 0 < ρ) :
    (Spec.pairCoherence D E v r2 ρ * (x + 1) ≤ 1e10 →
      epairSuppression D E v r2 b x ρ = (∫ t in (0 : ℝ)..1, Spec.ternDense (Spec.pairCoherence D E v r2 ρ) b r2 x t) / ∫ t in (0 : ℝ)..1, Spec.ternThin b r2 x t) ∧
    (1e10 < Spec.pairCoherence D E v r2 ρ * (x + 1) → epairSuppression D E v r2 b x ρ = 1) := by
  have ha := coherence_pos hD hE h0 hr hρ
  have e6 : 6 * (0.25 * Real.sqrt (D.eLpm / (ρ * E * v * (1 - r2)))) = Spec.pairCoherence D E v r2 ρ := by
    unfold Spec.pairCoherence
    ring
  have hp : 1 / computerPrecision = 1e10 := by norm_num [computerPrecision]
  unfold epairSuppression
  simp only [hp]
  have hs : 0 < 0.25 * Real.sqrt (D.eLpm / (ρ * E * v * (1 - r2))) := by linarith
  constructor
  · intro h
    rw [if_neg (by rw [e6]; exact not_lt.mpr h), ← C129_single b r2 x hx]
    congr 1
    have := dense_sum _ b r2 x hs hx
    simp only at this
    rw [this, e6]
  · intro h
    rw [if_pos (by rw [e6]; exact h)]

/-! ## Bounds -/

lemma dense_le {a b r2 x t : ℝ} (ha : 0 < a) (hb : 0 ≤ b) (hr0 : 0 ≤ r2) (hr : r2 ≤ 1) (hx : 0 < x) (h0 : 0 ≤ t) (h1 : t ≤ 1) :
    0 ≤ Spec.ternDense a b r2 x t ∧ Spec.ternDense a b r2 x t ≤ Spec.ternThin b r2 x t := by
  have n1 := n1_nonneg hb hr hx h0 h1
  have n2 := n2_nonneg hb hr0 h0 h1
  have hxt : 0 < x + t := by linarith
  have hta : 0 ≤ t / a := by positivity
  unfold Spec.ternDense Spec.ternThin
  refine ⟨by positivity, ?_⟩
  apply add_le_add
  · apply div_le_div_of_nonneg_left n1 (by positivity)
    nlinarith [sq_nonneg (t / a)]
  · exact div_le_div_of_nonneg_left n2 hxt (by linarith)

lemma dense_mono {a a' b r2 x t : ℝ} (ha : 0 < a) (haa : a ≤ a') (hb : 0 ≤ b) (hr0 : 0 ≤ r2) (hr : r2 ≤ 1) (hx : 0 < x) (h0 : 0 ≤ t) (h1 : t ≤ 1) :
    Spec.ternDense a b r2 x t ≤ Spec.ternDense a' b r2 x t := by
  have n1 := n1_nonneg hb hr hx h0 h1
  have n2 := n2_nonneg hb hr0 h0 h1
  have hxt : 0 < x + t := by linarith
  have ha' : 0 < a' := by linarith
  have hta : t / a' ≤ t / a := by gcongr
  have hta0 : 0 ≤ t / a' := by positivity
  unfold Spec.ternDense
  apply add_le_add
  · apply div_le_div_of_nonneg_left n1 (by positivity)
    gcongr
  · exact div_le_div_of_nonneg_left n2 (by positivity) (by linarith)

lemma dense_ge {a b r2 x t : ℝ} (ha : 0 < a) (hb : 0 ≤ b) (hr0 : 0 ≤ r2) (hr : r2 ≤ 1) (hx : 0 < x) (h0 : 0 ≤ t) (h1 : t ≤ 1) :
    min (a / (a + 1)) (a ^ 2 / (a ^ 2 + 1)) * Spec.ternThin b r2 x t ≤ Spec.ternDense a b r2 x t := by
  have n1 := n1_nonneg hb hr hx h0 h1
  have n2 := n2_nonneg hb hr0 h0 h1
  have hxt : 0 < x + t := by linarith
  unfold Spec.ternDense Spec.ternThin
  rw [mul_add]
  apply add_le_add
  · refine (mul_le_mul_of_nonneg_right (min_le_right _ _) (by positivity)).trans ?_
    rw [div_mul_div_comm, div_le_div_iff₀ (by positivity) (by positivity)]
    have e : (x + t) ^ 2 + (t / a) ^ 2 ≤ (a ^ 2 + 1) * (x + t) ^ 2 / a ^ 2 := by
      rw [le_div_iff₀ (by positivity), add_mul, div_pow, div_mul_cancel₀ _ (by positivity)]
      nlinarith
    calc a ^ 2 * Spec.ternN1 b r2 x t * ((x + t) ^ 2 + (t / a) ^ 2) ≤ a ^ 2 * Spec.ternN1 b r2 x t * ((a ^ 2 + 1) * (x + t) ^ 2 / a ^ 2) := by gcongr
      _ = Spec.ternN1 b r2 x t * ((a ^ 2 + 1) * (x + t) ^ 2) := by field_simp
  · refine (mul_le_mul_of_nonneg_right (min_le_left _ _) (by positivity)).trans ?_
    rw [div_mul_div_comm, div_le_div_iff₀ (by positivity) (by positivity)]
    have e : x + t + t / a ≤ (a + 1) * (x + t) / a := by
      rw [le_div_iff₀ ha, add_mul, div_mul_cancel₀ _ ha.ne']
      nlinarith
    calc a * Spec.ternN2 b r2 t * (x + t + t / a) ≤ a * Spec.ternN2 b r2 t * ((a + 1) * (x + t) / a) := by gcongr
      _ = Spec.ternN2 b r2 t * ((a + 1) * (x + t)) := by field_simp

lemma ratio_bounds {a b r2 x : ℝ} (ha : 0 < a) (hb : 0 ≤ b) (hr0 : 0 ≤ r2) (hr : r2 ≤ 1) (hx : 0 < x) :
    0 < (∫ t in (0 : ℝ)..1, Spec.ternThin b r2 x t) ∧
    (∫ t in (0 : ℝ)..1, Spec.ternDense a b r2 x t) < (∫ t in (0 : ℝ)..1, Spec.ternThin b r2 x t) ∧
    min (a / (a + 1)) (a ^ 2 / (a ^ 2 + 1)) * (∫ t in (0 : ℝ)..1, Spec.ternThin b r2 x t) ≤ (∫ t in (0 : ℝ)..1, Spec.ternDense a b r2 x t) := by
  refine ⟨?_, ?_, ?_⟩
  · rw [← C129_single b r2 x hx]
    exact lt_trans (by positivity) (C128_phiE x b r2 hx hb hr0 hr)
  · refine intervalIntegral.integral_lt_integral_of_continuousOn_of_le_of_exists_lt one_pos (dense_cont ha hx) (thin_cont hx) ?_ ⟨1 / 2, by norm_num, ?_⟩
    · intro t ht
      exact (dense_le ha hb hr0 hr hx ht.1.le ht.2).2
    · have n1 := n1_nonneg (t := 1 / 2) hb hr hx (by norm_num) (by norm_num)
      have n2 : 0 < Spec.ternN2 b r2 (1 / 2) := by
        unfold Spec.ternN2
        have : (0 : ℝ) < 1 - 1 / 2 := by norm_num
        positivity
      unfold Spec.ternDense Spec.ternThin
      have hta : 0 < 1 / 2 / a := by positivity
      apply add_lt_add_of_le_of_lt
      · apply div_le_div_of_nonneg_left n1 (by positivity)
        nlinarith [sq_nonneg (1 / 2 / a)]
      · exact div_lt_div_of_pos_left n2 (by positivity) (by linarith)
  · rw [← intervalIntegral.integral_const_mul]
    have c1 : IntervalIntegrable (fun t => Spec.ternThin b r2 x t) volume 0 1 := by
      apply ContinuousOn.intervalIntegrable
      rw [uIcc_of_le zero_le_one]
      exact thin_cont hx
    have c2 : IntervalIntegrable (fun t => Spec.ternDense a b r2 x t) volume 0 1 := by
      apply ContinuousOn.intervalIntegrable
      rw [uIcc_of_le zero_le_one]
      exact dense_cont ha hx
    refine intervalIntegral.integral_mono_on zero_le_one (c1.const_mul _) c2 ?_
    intro t ht
    exact dense_ge ha hb hr0 hr hx ht.1 ht.2

/-- C129: it is a suppression, never an enhancement; it differs from 1 by at most the inverse of the coherence parameter `a` where `a` is at
least 1, so the switch to the value 1 is a step below `1e-10 (1 + ξ)`. -/
theorem C129_range (D : EpairLpmData) (E v r2 b x ρ : ℝ) (hD : 0 < D.eLpm) (hE : 0 < E) (h0 : 0 < v) (hr0 : 0 ≤ r2) (hr : r2 < 1) (hb : 0 ≤ b) (hx : 0 < x) (hρ : 0 < ρ) :
    0 < epairSuppression D E v r2 b x ρ ∧ epairSuppression D E v r2 b x ρ ≤ 1 ∧
    (Spec.pairCoherence D E v r2 ρ * (x + 1) ≤ 1e10 → epairSuppression D E v r2 b x ρ < 1) ∧
    (1 ≤ Spec.pairCoherence D E v r2 ρ → 1 - 1 / Spec.pairCoherence D E v r2 ρ ≤ epairSuppression D E v r2 b x ρ) := by
  have ha := coherence_pos hD hE h0 hr hρ
  obtain ⟨f1, f2⟩ := C129_formula D E v r2 b x ρ hD hE h0 hr hx hρ
  obtain ⟨p1, p2, p3⟩ := ratio_bounds ha hb hr0 hr.le hx
  set a := Spec.pairCoherence D E v r2 ρ
  rcases le_or_gt (a * (x + 1)) 1e10 with h | h
  · rw [f1 h]
    have hm : 0 < min (a / (a + 1)) (a ^ 2 / (a ^ 2 + 1)) := lt_min (by positivity) (by positivity)
    have hlow := mul_pos hm p1
    refine ⟨div_pos (by linarith) p1, (div_le_one p1).mpr p2.le, fun _ => (div_lt_one p1).mpr p2, fun h1 => ?_⟩
    rw [le_div_iff₀ p1]
    refine le_trans (mul_le_mul_of_nonneg_right ?_ p1.le) p3
    have e : 1 - 1 / a = (a - 1) / a := by field_simp
    rw [e]
    apply le_min
    · rw [div_le_div_iff₀ ha (by positivity)]
      nlinarith
    · rw [div_le_div_iff₀ ha (by positivity)]
      nlinarith
  · rw [f2 h]
    refine ⟨one_pos, le_rfl, fun h' => absurd h' (not_le.mpr h), fun _ => ?_⟩
    have : 0 < 1 / a := by positivity
    linarith

/-- C129: the suppression grows with the energy and with the density. -/
theorem C129_monotone (D : EpairLpmData) (E E' v r2 b x ρ ρ' : ℝ) (hD : 0 < D.eLpm) (hE : 0 < E) (hEE : E ≤ E') (h0 : 0 < v) (hr0 : 0 ≤ r2) (hr : r2 < 1) (hb : 0 ≤ b)
    (hx : 0 < x) (hρ : 0 < ρ) (hρρ : ρ ≤ ρ') :
    epairSuppression D E' v r2 b x ρ' ≤ epairSuppression D E v r2 b x ρ := by
  have hE' : 0 < E' := by linarith
  have hρ' : 0 < ρ' := by linarith
  have hr' : 0 < 1 - r2 := by linarith
  have ha' := coherence_pos hD hE' h0 hr hρ'
  have haa : Spec.pairCoherence D E' v r2 ρ' ≤ Spec.pairCoherence D E v r2 ρ := by
    unfold Spec.pairCoherence
    gcongr
  obtain ⟨f1, f2⟩ := C129_formula D E v r2 b x ρ hD hE h0 hr hx hρ
  obtain ⟨g1, g2⟩ := C129_formula D E' v r2 b x ρ' hD hE' h0 hr hx hρ'
  have hone := (C129_range D E' v r2 b x ρ' hD hE' h0 hr0 hr hb hx hρ').2.1
  obtain ⟨p1, -, -⟩ := ratio_bounds ha' hb hr0 hr.le hx
  set a := Spec.pairCoherence D E v r2 ρ
  set a' := Spec.pairCoherence D E' v r2 ρ'
  rcases le_or_gt (a * (x + 1)) 1e10 with h | h
  · have h' : a' * (x + 1) ≤ 1e10 := le_trans (by gcongr) h
    rw [f1 h, g1 h']
    apply div_le_div_of_nonneg_right _ p1.le
    have c : ∀ k : ℝ, 0 < k → IntervalIntegrable (fun t => Spec.ternDense k b r2 x t) volume 0 1 := by
      intro k hk
      apply ContinuousOn.intervalIntegrable
      rw [uIcc_of_le zero_le_one]
      exact dense_cont hk hx
    refine intervalIntegral.integral_mono_on zero_le_one (c a' ha') (c a (by linarith)) ?_
    intro t ht
    exact dense_mono ha' haa hb hr0 hr.le hx ht.1 ht.2
  · rw [f2 h]
    exact hone

end Proposal
