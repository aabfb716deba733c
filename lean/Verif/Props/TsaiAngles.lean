import Verif.Model.TsaiAngles
import Verif.Props.UpperLimit
import Mathlib.MeasureTheory.Integral.IntervalIntegral.IntegrationByParts
import Mathlib.Analysis.SpecialFunctions.Pow.Deriv
import Mathlib.Analysis.Complex.ExponentialBounds
import Mathlib.Analysis.Real.Pi.Bounds

/-!
# Angles of electron pairs after Tsai (C140)
-/

namespace Proposal

open Real

private lemma me0 : 0 < ME := by norm_num [ME]

/-- The argument of a logarithm with the screening: `W` is the radius times `1 + l`, `c` the ratio `2 E x (1 - x) / ME`. -/
private noncomputable def scr (W c : ℝ) : ℝ := log (1 / (1 / c ^ 2 + 1 / W ^ 2)) - 1

private lemma scr_eq {R z E x l : ℝ} (hR : 0 < R) (hz : 0 < z) (hE : 0 < E) (hx0 : 0 < x) (hx1 : x < 1) (hl : 0 ≤ l) :
    tsaiScreened (R * (z / ME)) E x l = scr (R * z * (1 + l)) (2 * E * x * (1 - x) / ME) := by
  have hM := me0
  have h1 : 0 < 1 - x := by linarith
  have h2 : 0 < 1 + l := by linarith
  unfold tsaiScreened scr tsaiT
  congr 2
  field_simp

private lemma scr_mono {W c V b : ℝ} (hV : 0 < V) (hb : 0 < b) (h1 : V ≤ W) (h2 : b ≤ c) :
    log (1 / (1 / b ^ 2 + 1 / V ^ 2)) - 1 ≤ scr W c := by
  unfold scr
  have hW : 0 < W := hV.trans_le h1
  have hc : 0 < c := hb.trans_le h2
  have : 1 / (1 / b ^ 2 + 1 / V ^ 2) ≤ 1 / (1 / c ^ 2 + 1 / W ^ 2) := by
    apply one_div_le_one_div_of_le (by positivity)
    have e1 : 1 / c ^ 2 ≤ 1 / b ^ 2 := one_div_le_one_div_of_le (by positivity) (by gcongr)
    have e2 : 1 / W ^ 2 ≤ 1 / V ^ 2 := one_div_le_one_div_of_le (by positivity) (by gcongr)
    linarith
  have := log_le_log (by positivity) this
  linarith

private lemma scr_le {W c : ℝ} (hW : 0 < W) (hc : 0 < c) : scr W c ≤ log (c ^ 2) - 1 := by
  unfold scr
  have : 1 / (1 / c ^ 2 + 1 / W ^ 2) ≤ c ^ 2 := by
    rw [div_le_iff₀ (by positivity)]
    have : c ^ 2 * (1 / c ^ 2) = 1 := mul_one_div_cancel (by positivity)
    have h2 : 0 ≤ c ^ 2 * (1 / W ^ 2) := by positivity
    nlinarith
  have := log_le_log (by positivity) this
  linarith

private lemma coulomb_nonneg {Z : ℝ} (h0 : 0 ≤ Z) (h1 : Z ≤ 100) : 0 ≤ tsaiCoulomb Z ∧ tsaiCoulomb Z ≤ 1 / 2 := by
  unfold tsaiCoulomb
  simp only
  have hz0 : 0 ≤ (Z / 137) ^ 2 := sq_nonneg _
  have hz1 : (Z / 137) ^ 2 ≤ 0.533 := by
    have : Z / 137 ≤ 0.73 := by rw [div_le_iff₀ (by norm_num)]; linarith
    have h3 : 0 ≤ Z / 137 := by positivity
    nlinarith
  generalize (Z / 137) ^ 2 = z at *
  have h3 : 0 ≤ z ^ 3 / (1 + z) := by positivity
  have h4 : z ^ 3 / (1 + z) ≤ z ^ 3 := div_le_self (by positivity) (by linarith)
  have e : 1.008 * z ^ 3 / (1 + z) = 1.008 * (z ^ 3 / (1 + z)) := by ring
  rw [e]
  constructor
  · nlinarith
  · have h5 : z ^ 3 ≤ 0.533 * z ^ 2 := by nlinarith [mul_nonneg hz0 (mul_nonneg hz0 (sub_nonneg.2 hz1))]
    nlinarith

private lemma third {Z : ℝ} (h0 : 2.5 ≤ Z) (h1 : Z ≤ 100) : 1 / 5 ≤ Z ^ (-1 / 3 : ℝ) ∧ 0 < Z ^ (-1 / 3 : ℝ) := by
  have hZ : 0 < Z := by linarith
  refine ⟨?_, rpow_pos_of_pos hZ _⟩
  have h5 : (1 / 5 : ℝ) = 125 ^ (-1 / 3 : ℝ) := by
    rw [show (125 : ℝ) = 5 ^ (3 : ℝ) by norm_num, ← rpow_mul (by norm_num)]
    norm_num
  rw [h5]
  exact rpow_le_rpow_of_nonpos hZ (by linarith) (by norm_num)

private lemma radii {Z : ℝ} (h0 : 2.5 ≤ Z) : 100 ≤ (tsaiRadii Z).1 ∧ 418 ≤ (tsaiRadii Z).2 ∨ Z = 2.5 := by
  by_cases h : Z = 2.5
  · right; exact h
  left
  have : 2.5 < Z := lt_of_le_of_ne h0 (Ne.symm h)
  unfold tsaiRadii
  rw [if_neg (by norm_num at *; linarith), if_neg (by norm_num at *; linarith)]
  split_ifs <;> norm_num

/-- The part of the density in the brackets for a charge above 2.5: `y = x (1 - x)`. -/
private noncomputable def core (Z c y l : ℝ) : ℝ :=
  let z := Z ^ (-1 / 3 : ℝ)
  let X := scr ((tsaiRadii Z).1 * z * (1 + l)) c * Z ^ 2 + scr ((tsaiRadii Z).2 * (z * z) * (1 + l)) c * Z - 2 * Z ^ 2 * tsaiCoulomb Z
  (Z ^ 2 + Z) * (2 * y * (1 - 6 * (l / (1 + l) ^ 2))) + X * (1 - 2 * y + 4 * y * (l / (1 + l) ^ 2))

private lemma angle_eq {Z E x θ : ℝ} (hZ : 2.5 < Z) (hE : 0 < E) (hx0 : 0 < x) (hx1 : x < 1) :
    tsaiAngle Z E x θ = core Z (2 * E * x * (1 - x) / ME) (x * (1 - x)) (tsaiL E x θ) / (1 + tsaiL E x θ) ^ 2 * sin θ := by
  have hM := me0
  have hl : 0 ≤ tsaiL E x θ := by
    unfold tsaiL
    have : 0 ≤ (E * x * θ) ^ 2 / (ME * ME) := by positivity
    calc (0 : ℝ) ≤ (E * x * θ) ^ 2 / (ME * ME) := this
      _ = _ := by ring
  have hZ0 : 0 < Z := by linarith
  have hz : 0 < Z ^ (-1 / 3 : ℝ) := rpow_pos_of_pos hZ0 _
  have hr : 0 < (tsaiRadii Z).1 ∧ 0 < (tsaiRadii Z).2 := by
    rcases radii hZ.le with h | h
    · exact ⟨by linarith [h.1], by linarith [h.2]⟩
    · linarith
  unfold tsaiAngle core
  simp only
  rw [if_neg (not_lt.2 hZ.le)]
  unfold tsaiXHeavy
  simp only
  rw [scr_eq hr.1 hz hE hx0 hx1 hl, scr_eq hr.2 (mul_pos hz hz) hE hx0 hx1 hl]
  generalize tsaiL E x θ = l at *
  generalize scr _ _ = S1
  generalize scr _ _ = S2
  have h2 : (1 + l) ≠ 0 := by positivity
  field_simp
  ring

private lemma frac_le {l : ℝ} (hl : 0 ≤ l) : 0 ≤ l / (1 + l) ^ 2 ∧ l / (1 + l) ^ 2 ≤ 1 / 4 := by
  refine ⟨by positivity, ?_⟩
  rw [div_le_iff₀ (by positivity)]
  nlinarith [sq_nonneg (1 - l)]

private lemma L_nonneg (E x θ : ℝ) : 0 ≤ tsaiL E x θ := by
  have hM := me0
  unfold tsaiL
  have : 0 ≤ (E * x * θ) ^ 2 / (ME * ME) := by positivity
  calc (0 : ℝ) ≤ (E * x * θ) ^ 2 / (ME * ME) := this
    _ = _ := by ring

private lemma log_12 : (5 / 2 : ℝ) ≤ log 15 := by
  rw [le_log_iff_exp_le (by norm_num)]
  have h : exp (5 / 2) = exp 1 * exp 1 * exp (1 / 2) := by rw [← exp_add, ← exp_add]; norm_num
  have h1 := exp_one_lt_d9
  have h0 := exp_pos 1
  have h2 : exp (1 / 2) * exp (1 / 2) = exp 1 := by rw [← exp_add]; norm_num
  have h3 : exp (1 / 2) < 1.65 := by
    by_contra hc
    push Not at hc
    nlinarith
  rw [h]
  have : exp 1 * exp 1 < 7.3891 := by nlinarith
  have h5 := exp_pos (1 / 2)
  nlinarith

/-- A lower bound of the brackets for pairs well above the threshold. -/
private lemma core_lower {Z c y l : ℝ} (hZ : 2.5 < Z) (hZ1 : Z ≤ 100) (hc : 4 ≤ c) (hy0 : 0 < y) (hy1 : y ≤ 1 / 4) (hl : 0 ≤ l) :
    (Z ^ 2 + Z) * (1 / 2 - 3 / 2 * y) ≤ core Z c y l := by
  obtain ⟨hr1, hr2⟩ := (radii hZ.le).resolve_right hZ.ne'
  obtain ⟨hz, hz0⟩ := third hZ.le hZ1
  obtain ⟨hf0, hf1⟩ := coulomb_nonneg (by linarith : 0 ≤ Z) hZ1
  unfold core
  simp only
  generalize Z ^ (-1 / 3 : ℝ) = z at *
  obtain ⟨w0, w1⟩ := frac_le hl
  have b1 : 16 ≤ (tsaiRadii Z).1 * z * (1 + l) := by
    have : 20 ≤ (tsaiRadii Z).1 * z := by nlinarith
    nlinarith
  have b2 : 16 ≤ (tsaiRadii Z).2 * (z * z) * (1 + l) := by
    have : 1 / 25 ≤ z * z := by nlinarith
    have : 16 ≤ (tsaiRadii Z).2 * (z * z) := by nlinarith
    nlinarith
  have base : (3 / 2 : ℝ) ≤ log (1 / (1 / 4 ^ 2 + 1 / 16 ^ 2)) - 1 := by
    have h1 : log 15 ≤ log (1 / (1 / 4 ^ 2 + 1 / 16 ^ 2)) := log_le_log (by norm_num) (by norm_num)
    linarith [log_12]
  have s1 := base.trans (scr_mono (by norm_num) (by norm_num) b1 hc)
  have s2 := base.trans (scr_mono (by norm_num) (by norm_num) b2 hc)
  generalize scr ((tsaiRadii Z).1 * z * (1 + l)) c = S1 at *
  generalize scr ((tsaiRadii Z).2 * (z * z) * (1 + l)) c = S2 at *
  generalize l / (1 + l) ^ 2 = w at *
  have hX : (Z ^ 2 + Z) / 2 ≤ S1 * Z ^ 2 + S2 * Z - 2 * Z ^ 2 * tsaiCoulomb Z := by
    have a1 : 3 / 2 * Z ^ 2 ≤ S1 * Z ^ 2 := mul_le_mul_of_nonneg_right s1 (sq_nonneg _)
    have a2 : 3 / 2 * Z ≤ S2 * Z := mul_le_mul_of_nonneg_right s2 (by linarith)
    have a3 : Z ^ 2 * tsaiCoulomb Z ≤ Z ^ 2 * (1 / 2) := mul_le_mul_of_nonneg_left hf1 (sq_nonneg _)
    nlinarith
  have hk : 0 ≤ 1 - 2 * y + 4 * y * w := by nlinarith [mul_nonneg hy0.le w0]
  have hX2 := mul_le_mul_of_nonneg_right hX hk
  have hG : 0 < Z ^ 2 + Z := by nlinarith
  have hyw : y * w ≤ y * (1 / 4) := mul_le_mul_of_nonneg_left w1 hy0.le
  have := mul_le_mul_of_nonneg_left hyw hG.le
  nlinarith

/-- C140: for elements heavier than helium the density of the polar angle is positive, when the product of the energies of electron and
positron is at least two electron masses times the photon energy. -/
theorem C140_positive_partial (Z E x θ : ℝ) (hZ0 : 3 ≤ Z) (hZ1 : Z ≤ 100) (hE : 0 < E) (hx0 : 0 < x) (hx1 : x < 1)
    (h : 2 * ME * E ≤ (x * E) * ((1 - x) * E)) (h0 : 0 < θ) (h1 : θ < π) : 0 < tsaiAngle Z E x θ := by
  have hM := me0
  rw [angle_eq (by linarith) hE hx0 hx1]
  have hy0 : 0 < x * (1 - x) := mul_pos hx0 (by linarith)
  have hy1 : x * (1 - x) ≤ 1 / 4 := by nlinarith [sq_nonneg (1 - 2 * x)]
  have hc : 4 ≤ 2 * E * x * (1 - x) / ME := by
    rw [le_div_iff₀ hM]
    have : E * (2 * ME) ≤ E * (x * (1 - x) * E) := by linarith
    have := le_of_mul_le_mul_left this hE
    linarith
  have hl := L_nonneg E x θ
  have := core_lower (by linarith) hZ1 hc hy0 hy1 hl
  have hG : 0 < (Z ^ 2 + Z) * (1 / 2 - 3 / 2 * (x * (1 - x))) := mul_pos (by nlinarith) (by linarith)
  exact mul_pos (div_pos (by linarith) (by positivity)) (sin_pos_of_pos_of_lt_pi h0 h1)

private lemma log_36 : log 3.61 < 4 / 3 := by
  rw [log_lt_iff_lt_exp (by norm_num)]
  have h1 := exp_one_gt_d9
  have h2 : (1 : ℝ) + 1 / 3 + 1 / 18 ≤ exp (1 / 3) := by
    have := Real.quadratic_le_exp_of_nonneg (show (0 : ℝ) ≤ 1 / 3 by norm_num)
    norm_num at this ⊢
    linarith
  have h : exp (4 / 3) = exp 1 * exp (1 / 3) := by rw [← exp_add]; norm_num
  rw [h]
  nlinarith

/-- C140 does not hold near the threshold: up to a photon energy of 3.8 electron masses (1.94 MeV) the "density" of the polar angle of a
symmetric pair is negative at the angle where the transverse momentum is the electron mass, for every element heavier than helium. -/
theorem C140_negative (Z E : ℝ) (hZ0 : 3 ≤ Z) (hZ1 : Z ≤ 100) (hE0 : 2 * ME ≤ E) (hE1 : E ≤ 3.8 * ME) :
    0 < 2 * ME / E ∧ 2 * ME / E < π ∧ tsaiAngle Z E (1 / 2) (2 * ME / E) < 0 := by
  have hM := me0
  have hE : 0 < E := by linarith
  have t0 : 0 < 2 * ME / E := by positivity
  have t1 : 2 * ME / E < π := by
    have : 2 * ME / E ≤ 1 := (div_le_one hE).2 hE0
    linarith [Real.pi_gt_three]
  refine ⟨t0, t1, ?_⟩
  have hL : tsaiL E (1 / 2) (2 * ME / E) = 1 := by
    unfold tsaiL
    field_simp
  have hs := sin_pos_of_pos_of_lt_pi t0 t1
  rw [angle_eq (by linarith) hE (by norm_num) (by norm_num), hL]
  obtain ⟨hr1, hr2⟩ := (radii (by linarith : (2.5 : ℝ) ≤ Z)).resolve_right (by norm_num; linarith)
  obtain ⟨hz, hz0⟩ := third (by linarith : (2.5 : ℝ) ≤ Z) hZ1
  obtain ⟨hf0, hf1⟩ := coulomb_nonneg (by linarith : 0 ≤ Z) hZ1
  have hcc : 2 * E * (1 / 2) * (1 - 1 / 2) / ME = E / (2 * ME) := by field_simp; norm_num
  rw [hcc]
  have hc0 : 0 < E / (2 * ME) := by positivity
  have hc1 : E / (2 * ME) ≤ 1.9 := by rw [div_le_iff₀ (by positivity)]; linarith
  unfold core
  simp only
  generalize Z ^ (-1 / 3 : ℝ) = z at *
  have W1 : 0 < (tsaiRadii Z).1 * z * (1 + 1) := by
    have : 0 < (tsaiRadii Z).1 := by linarith
    positivity
  have W2 : 0 < (tsaiRadii Z).2 * (z * z) * (1 + 1) := by
    have : 0 < (tsaiRadii Z).2 := by linarith
    positivity
  have hlog : log ((E / (2 * ME)) ^ 2) < 4 / 3 := by
    have : log ((E / (2 * ME)) ^ 2) ≤ log 3.61 := log_le_log (by positivity) (by nlinarith)
    linarith [log_36]
  have s1 := scr_le W1 hc0
  have s2 := scr_le W2 hc0
  generalize scr ((tsaiRadii Z).1 * z * (1 + 1)) (E / (2 * ME)) = S1 at *
  generalize scr ((tsaiRadii Z).2 * (z * z) * (1 + 1)) (E / (2 * ME)) = S2 at *
  have q1 : S1 < 1 / 3 := by linarith
  have q2 : S2 < 1 / 3 := by linarith
  have hX : S1 * Z ^ 2 + S2 * Z - 2 * Z ^ 2 * tsaiCoulomb Z < (Z ^ 2 + Z) / 3 := by
    have a1 : S1 * Z ^ 2 < 1 / 3 * Z ^ 2 := mul_lt_mul_of_pos_right q1 (by positivity)
    have a2 : S2 * Z < 1 / 3 * Z := mul_lt_mul_of_pos_right q2 (by linarith)
    have a3 : 0 ≤ Z ^ 2 * tsaiCoulomb Z := by positivity
    nlinarith
  have : (Z ^ 2 + Z) * (2 * (1 / 2 * (1 - 1 / 2)) * (1 - 6 * (1 / (1 + 1) ^ 2))) +
      (S1 * Z ^ 2 + S2 * Z - 2 * Z ^ 2 * tsaiCoulomb Z) *
        (1 - 2 * (1 / 2 * (1 - 1 / 2)) + 4 * (1 / 2 * (1 - 1 / 2)) * (1 / (1 + 1) ^ 2)) < 0 := by
    norm_num
    linarith
  exact mul_neg_of_neg_of_pos (div_neg_of_neg_of_pos this (by positivity)) hs

/-! ## The sampling -/

private lemma power_ge (E : ℝ) : 1 ≤ tsaiPower E := le_max_left _ _

private lemma core_continuous (Z c y : ℝ) (hZ : 2.5 < Z) (hc : 0 < c) : ContinuousOn (core Z c y) (Set.Ici 0) := by
  have hZ0 : 0 < Z := by linarith
  have hz : 0 < Z ^ (-1 / 3 : ℝ) := rpow_pos_of_pos hZ0 _
  obtain ⟨hr1, hr2⟩ := (radii hZ.le).resolve_right hZ.ne'
  have hr1' : 0 < (tsaiRadii Z).1 := by linarith
  have hr2' : 0 < (tsaiRadii Z).2 := by linarith
  have hs : ∀ a : ℝ, 0 < a → ContinuousOn (fun l : ℝ => scr (a * (1 + l)) c) (Set.Ici 0) := by
    intro a ha
    unfold scr
    refine ContinuousOn.sub (ContinuousOn.log ?_ ?_) continuousOn_const
    · refine ContinuousOn.div continuousOn_const (continuousOn_const.add (ContinuousOn.div continuousOn_const (by fun_prop) ?_)) ?_
      · intro l hl
        have : 0 ≤ l := hl
        positivity
      · intro l hl
        have : 0 ≤ l := hl
        positivity
    · intro l hl
      have : 0 ≤ l := hl
      positivity
  have hw : ContinuousOn (fun l : ℝ => l / (1 + l) ^ 2) (Set.Ici 0) := by
    refine ContinuousOn.div continuousOn_id (by fun_prop) ?_
    intro l hl
    have : 0 ≤ l := hl
    positivity
  unfold core
  simp only
  have h1 := hs _ (mul_pos hr1' hz)
  have h2 := hs _ (mul_pos hr2' (mul_pos hz hz))
  fun_prop

private lemma angle_continuous (Z E x : ℝ) (hZ : 2.5 < Z) (hE : 0 < E) (hx0 : 0 < x) (hx1 : x < 1) :
    Continuous (tsaiAngle Z E x) := by
  have hM := me0
  have h1 : 0 < 1 - x := by linarith
  have e : tsaiAngle Z E x = fun θ => core Z (2 * E * x * (1 - x) / ME) (x * (1 - x)) (tsaiL E x θ) / (1 + tsaiL E x θ) ^ 2 * sin θ :=
    funext fun θ => angle_eq hZ hE hx0 hx1
  rw [e]
  have hL : Continuous (tsaiL E x) := by unfold tsaiL; fun_prop
  have hc := (core_continuous Z (2 * E * x * (1 - x) / ME) (x * (1 - x)) hZ (by positivity)).comp_continuous hL
    (fun θ => L_nonneg E x θ)
  refine (hc.div (by fun_prop) ?_).mul continuous_sin
  intro θ
  have := L_nonneg E x θ
  positivity

/-- The substitution. -/
private lemma substituted (f : ℝ → ℝ) (hf : Continuous f) (p : ℝ) (hp : 1 ≤ p) (b : ℝ) :
    ∫ t in (0 : ℝ)..b, p * t ^ (p - 1) * f (t ^ p) = ∫ θ in (0 : ℝ)..(b ^ p), f θ := by
  have h := intervalIntegral.integral_comp_mul_deriv (a := 0) (b := b) (f := fun t : ℝ => t ^ p) (f' := fun t => p * t ^ (p - 1))
    (g := f) (fun t _ => hasDerivAt_rpow_const (Or.inr hp)) ?_ hf
  · rw [zero_rpow (by linarith)] at h
    rw [← h]
    congr 1
    funext t
    simp only [Function.comp]
    ring
  · exact (continuous_const.mul (continuous_id.rpow_const (fun _ => Or.inr (by linarith)))).continuousOn

/-- One call of the integration and of the upper limit without substitution in the integration itself. -/
private lemma upper_plain (Q : Quadrature) (refine : IState → Option ℝ) (hr : Spec.ExactRefine refine)
    (s : IState) (T : ℝ) (hT : 0 < T) (f : ℝ → ℝ) (r : ℝ) (h0 : 0 ≤ r) (h1 : r ≤ 1) :
    ∃ v s' x s'', integrateRandom Q s 0 T f 3 r 0 = some (v, s') ∧ getUpperLimit refine s' = .value x s'' ∧ 0 ≤ x ∧ x ≤ T ∧
      ∫ y in (0 : ℝ)..x, f y = r * ∫ y in (0 : ℝ)..T, f y := by
  classical
  have hn : narrow 0 T = false := by
    unfold narrow
    rw [decide_eq_false_iff_not, not_le, abs_zero, zero_mul, sub_zero]
    exact abs_pos.mpr hT.ne'
  have ho : orient 0 T = (0, T, 1) := by rw [(orient_lt hT).1]
  have hl : substitutedLimits 0 T 0 = some (0, T, 1, false) := by simp [substitutedLimits]
  have hd : decide ((0 : ℝ) > T) = false := by simp [hT.le]
  generalize hs1 : ({ s with
      lo := 0, hi := T, reverse := false, reverseX := s.reverseX, useLog := false, pos := 0,
      rnd := if r > 1 then 1 else r, f := f } : IState) = s1
  have hrr : s1.rnd = r := by subst hs1; exact if_neg (by linarith)
  have hratio : ∀ n, ratioOf s1.rnd n = r := by
    intro n
    rw [hrr]
    unfold ratioOf
    exact if_neg (by linarith)
  generalize hs2 : ({ s1 with
      rnd := ratioOf s1.rnd (-|Q.opened s1.function s1.lo s1.hi|), saved := Q.opened s1.function s1.lo s1.hi,
      done := true, x := firstX Q s1 } : IState) = s2
  have hint : integrateRandom Q s 0 T f 3 r 0 = some ((orient 0 T).2.2 * 1 * Q.opened s1.function s1.lo s1.hi, s2) := by
    unfold integrateRandom
    rw [if_neg (fun h => hT.ne' h.2), if_pos rfl]
    unfold integrateSubstitutionRandom
    rw [hn]
    simp only [Bool.false_eq_true, if_false, ho, hl, hd, Bool.xor_false]
    subst hs2 hs1
    rfl
  have hrnd2 : s2.rnd = r := by subst hs2; exact hratio _
  have hlo : s2.lo = 0 := by subst hs2 hs1; rfl
  have hhi : s2.hi = T := by subst hs2 hs1; rfl
  have hfn : s2.function = f := by
    subst hs2 hs1
    funext y
    simp [IState.function, weighted]
  obtain ⟨x, hx, x0, x1, hxi⟩ := hr s2 (by rw [hlo, hhi]; exact hT.le) (by rw [hrnd2]; exact h0) (by rw [hrnd2]; exact h1)
  obtain ⟨s'', hs''⟩ := getUpperLimit_eq refine s2 (by subst hs2; rfl) (by rw [hlo, hhi]; exact hn) x hx
  have hfin : finishUpper s2.pos s2.useLog (if s2.reverse then s2.reverseX - x else x) = x := by
    subst hs2 hs1
    simp [finishUpper, tOf]
  rw [hfin] at hs''
  rw [hlo, hhi, hfn, hrnd2] at hxi
  exact ⟨_, s2, x, s'', hint, hs'', hlo ▸ x0, hhi ▸ x1, hxi⟩

/-- C140: for elements heavier than helium the polar angle lies between 0 and π, and the part of the density below it is the random
number; the substitution, its power of the energy and the earlier use of the integration object do not matter. -/
theorem C140_polar (Q : Quadrature) (refine : IState → Option ℝ) (hr : Spec.ExactRefine refine)
    (s : IState) (Z E ρ rnd : ℝ) (hZ : 3 ≤ Z) (hE : 0 < E) (hρ0 : 0 < ρ) (hρ1 : ρ < 1) (h0 : 0 ≤ rnd) (h1 : rnd ≤ 1) :
    ∃ θ s', tsaiPolar Q refine s Z E ρ rnd = some (θ, s') ∧ 0 ≤ θ ∧ θ ≤ π ∧
      ∫ t in (0 : ℝ)..θ, tsaiAngle Z E ρ t = rnd * ∫ t in (0 : ℝ)..π, tsaiAngle Z E ρ t := by
  have hp := power_ge E
  have hp0 : 0 < tsaiPower E := by linarith
  have hT : 0 < π ^ (1 / tsaiPower E) := rpow_pos_of_pos pi_pos _
  obtain ⟨v, s', x, s'', e1, e2, x0, x1, e3⟩ := upper_plain Q refine hr s _ hT (tsaiIntegrand Z E ρ) rnd h0 h1
  have hc := angle_continuous Z E ρ (by linarith) hE hρ0 hρ1
  have hback : (π ^ (1 / tsaiPower E)) ^ tsaiPower E = π := by
    rw [← rpow_mul pi_pos.le, one_div_mul_cancel hp0.ne', rpow_one]
  refine ⟨x ^ tsaiPower E, s'', ?_, rpow_nonneg x0 _, ?_, ?_⟩
  · unfold tsaiPolar
    rw [e1]
    simp only [e2]
  · rw [← hback]
    exact rpow_le_rpow x0 x1 hp0.le
  · have i1 := substituted (tsaiAngle Z E ρ) hc (tsaiPower E) hp x
    have i2 := substituted (tsaiAngle Z E ρ) hc (tsaiPower E) hp (π ^ (1 / tsaiPower E))
    rw [hback] at i2
    rw [← i1, ← i2]
    exact e3

/-- C140: electron and positron leave at the polar angles drawn with the first and the second random number, on opposite sides of the
photon. Both angles follow the density of the electron's share: the positron's share is not used. -/
theorem C140_directions (Q : Quadrature) (refine : IState → Option ℝ) (hr : Spec.ExactRefine refine)
    (s : IState) (dir : Vec3) (Z E ρ r1 r2 r3 : ℝ) (hZ : 3 ≤ Z) (hE : 0 < E) (hρ0 : 0 < ρ) (hρ1 : ρ < 1)
    (h1 : 0 ≤ r1 ∧ r1 ≤ 1) (h2 : 0 ≤ r2 ∧ r2 ≤ 1) :
    ∃ θ0 θ1, 0 ≤ θ0 ∧ θ0 ≤ π ∧ 0 ≤ θ1 ∧ θ1 ≤ π ∧
      (∫ t in (0 : ℝ)..θ0, tsaiAngle Z E ρ t = r1 * ∫ t in (0 : ℝ)..π, tsaiAngle Z E ρ t) ∧
      (∫ t in (0 : ℝ)..θ1, tsaiAngle Z E ρ t = r2 * ∫ t in (0 : ℝ)..π, tsaiAngle Z E ρ t) ∧
      tsaiDirections Q refine s dir Z E ρ r1 r2 r3 = some (photoPairDirections dir (cos θ0) (cos θ1) r3) := by
  obtain ⟨θ0, s0, a1, a2, a3, a4⟩ := C140_polar Q refine hr s Z E ρ r1 hZ hE hρ0 hρ1 h1.1 h1.2
  obtain ⟨θ1, s1, b1, b2, b3, b4⟩ := C140_polar Q refine hr s0 Z E ρ r2 hZ hE hρ0 hρ1 h2.1 h2.2
  refine ⟨θ0, θ1, a2, a3, b2, b3, a4, b4, ?_⟩
  unfold tsaiDirections
  simp only [a1, b1]

private lemma core_upper {Z c y l : ℝ} (hZ : 2.5 < Z) (hZ1 : Z ≤ 100) (hc : 4 ≤ c) (hy0 : 0 < y) (hy1 : y ≤ 1 / 4) (hl : 0 ≤ l) :
    core Z c y l ≤ (Z ^ 2 + Z) * (1 / 2 + log (c ^ 2)) := by
  obtain ⟨hr1, hr2⟩ := (radii hZ.le).resolve_right hZ.ne'
  obtain ⟨hz, hz0⟩ := third hZ.le hZ1
  obtain ⟨hf0, hf1⟩ := coulomb_nonneg (by linarith : 0 ≤ Z) hZ1
  unfold core
  simp only
  generalize Z ^ (-1 / 3 : ℝ) = z at *
  obtain ⟨w0, w1⟩ := frac_le hl
  have W1 : 0 < (tsaiRadii Z).1 * z * (1 + l) := by
    have : 0 < (tsaiRadii Z).1 := by linarith
    positivity
  have W2 : 0 < (tsaiRadii Z).2 * (z * z) * (1 + l) := by
    have : 0 < (tsaiRadii Z).2 := by linarith
    positivity
  have hlog : 1 ≤ log (c ^ 2) := by
    rw [le_log_iff_exp_le (by positivity)]
    have := exp_one_lt_d9
    nlinarith
  have s1 := scr_le W1 (by linarith : 0 < c)
  have s2 := scr_le W2 (by linarith : 0 < c)
  generalize scr ((tsaiRadii Z).1 * z * (1 + l)) c = S1 at *
  generalize scr ((tsaiRadii Z).2 * (z * z) * (1 + l)) c = S2 at *
  generalize l / (1 + l) ^ 2 = w at *
  generalize log (c ^ 2) = L at *
  have hX : S1 * Z ^ 2 + S2 * Z - 2 * Z ^ 2 * tsaiCoulomb Z ≤ (Z ^ 2 + Z) * L := by
    have a1 : S1 * Z ^ 2 ≤ (L - 1) * Z ^ 2 := mul_le_mul_of_nonneg_right s1 (sq_nonneg _)
    have a2 : S2 * Z ≤ (L - 1) * Z := mul_le_mul_of_nonneg_right s2 (by linarith)
    have a3 : 0 ≤ Z ^ 2 * tsaiCoulomb Z := by positivity
    nlinarith
  have hyw : 0 ≤ y * w := mul_nonneg hy0.le w0
  have hyw1 : y * w ≤ y * (1 / 4) := mul_le_mul_of_nonneg_left w1 hy0.le
  have hk : 0 ≤ 1 - 2 * y + 4 * y * w := by nlinarith
  have hk1 : 1 - 2 * y + 4 * y * w ≤ 1 := by nlinarith
  have hG : 0 < Z ^ 2 + Z := by nlinarith
  have e1 := mul_le_mul_of_nonneg_right hX hk
  have e2 : (Z ^ 2 + Z) * L * (1 - 2 * y + 4 * y * w) ≤ (Z ^ 2 + Z) * L * 1 :=
    mul_le_mul_of_nonneg_left hk1 (by positivity)
  have e3 : (Z ^ 2 + Z) * (2 * y * (1 - 6 * w)) ≤ (Z ^ 2 + Z) * (1 / 2) := by
    apply mul_le_mul_of_nonneg_left _ hG.le
    nlinarith
  linarith

/-- C140 does not hold for the positron: in a pair at 100 electron masses of which the electron has a quarter, the density of the positron's
own share is not proportional to the density from which its angle is drawn. -/
theorem C140_positron_share (Z : ℝ) (hZ0 : 3 ≤ Z) (hZ1 : Z ≤ 100) :
    ¬ ∃ k, ∀ θ, 0 < θ → θ < π → tsaiAngle Z (100 * ME) (1 - 1 / 4) θ = k * tsaiAngle Z (100 * ME) (1 / 4) θ := by
  rintro ⟨k, hk⟩
  have hM := me0
  have hE : 0 < 100 * ME := by positivity
  have hZ : 2.5 < Z := by linarith
  have c1 : 2 * (100 * ME) * (1 / 4) * (1 - 1 / 4) / ME = 37.5 := by field_simp; norm_num
  have c2 : 2 * (100 * ME) * (1 - 1 / 4) * (1 - (1 - 1 / 4)) / ME = 37.5 := by field_simp; norm_num
  have l1 : ∀ θ, tsaiL (100 * ME) (1 / 4) θ = 625 * θ ^ 2 := by intro θ; unfold tsaiL; field_simp; ring
  have l2 : ∀ θ, tsaiL (100 * ME) (1 - 1 / 4) θ = 5625 * θ ^ 2 := by intro θ; unfold tsaiL; field_simp; ring
  have y2 : (1 - 1 / 4 : ℝ) * (1 - (1 - 1 / 4)) = 1 / 4 * (1 - 1 / 4) := by norm_num
  set g : ℝ → ℝ := fun l => core Z 37.5 (1 / 4 * (1 - 1 / 4)) l / (1 + l) ^ 2 with hg
  have f1 : ∀ θ, tsaiAngle Z (100 * ME) (1 / 4) θ = g (625 * θ ^ 2) * sin θ := by
    intro θ
    rw [angle_eq hZ hE (by norm_num) (by norm_num), c1, l1]
  have f2 : ∀ θ, tsaiAngle Z (100 * ME) (1 - 1 / 4) θ = g (5625 * θ ^ 2) * sin θ := by
    intro θ
    rw [angle_eq hZ hE (by norm_num) (by norm_num), c2, l2, y2]
  have hgc : ContinuousOn g (Set.Ici 0) := by
    refine (core_continuous Z 37.5 _ hZ (by norm_num)).div (by fun_prop) ?_
    intro l hl
    have : 0 ≤ l := hl
    positivity
  have hrel : ∀ θ, 0 < θ → θ < π → g (5625 * θ ^ 2) = k * g (625 * θ ^ 2) := by
    intro θ a b
    have := hk θ a b
    rw [f1, f2, ← mul_assoc] at this
    exact mul_right_cancel₀ (sin_pos_of_pos_of_lt_pi a b).ne' this
  have k1 : Continuous fun θ : ℝ => g (5625 * θ ^ 2) :=
    hgc.comp_continuous (by fun_prop) (fun θ => by show (0:ℝ) ≤ _; positivity)
  have k2 : Continuous fun θ : ℝ => k * g (625 * θ ^ 2) :=
    continuous_const.mul (hgc.comp_continuous (by fun_prop) (fun θ => by show (0:ℝ) ≤ _; positivity))
  have hzero : g 0 = k * g 0 := by
    have t1 : Filter.Tendsto (fun θ : ℝ => g (5625 * θ ^ 2)) (nhdsWithin 0 (Set.Ioi 0)) (nhds (g 0)) := by
      have := (k1.tendsto 0).mono_left (nhdsWithin_le_nhds (s := Set.Ioi (0 : ℝ)))
      simpa using this
    have t2 : Filter.Tendsto (fun θ : ℝ => k * g (625 * θ ^ 2)) (nhdsWithin 0 (Set.Ioi 0)) (nhds (k * g 0)) := by
      have := (k2.tendsto 0).mono_left (nhdsWithin_le_nhds (s := Set.Ioi (0 : ℝ)))
      simpa using this
    refine tendsto_nhds_unique (t1.congr' ?_) t2
    filter_upwards [Ioo_mem_nhdsGT pi_pos] with θ hθ
    exact hrel θ hθ.1 hθ.2
  have hG : 0 < Z ^ 2 + Z := by nlinarith
  have low : ∀ l, 0 ≤ l → (Z ^ 2 + Z) * (7 / 32) ≤ core Z 37.5 (1 / 4 * (1 - 1 / 4)) l := by
    intro l hl
    have := core_lower (y := 1 / 4 * (1 - 1 / 4)) hZ hZ1 (by norm_num : (4 : ℝ) ≤ 37.5) (by norm_num) (by norm_num) hl
    calc _ = (Z ^ 2 + Z) * (1 / 2 - 3 / 2 * (1 / 4 * (1 - 1 / 4))) := by norm_num
      _ ≤ _ := this
  have hg0 : g 0 ≠ 0 := by
    have := low 0 le_rfl
    have h3 : 0 < g 0 := by
      rw [hg]
      simp only
      exact div_pos (lt_of_lt_of_le (by positivity) this) (by norm_num)
    exact h3.ne'
  have hk1 : k = 1 := by
    have : 1 * g 0 = k * g 0 := by rw [one_mul]; exact hzero
    exact (mul_right_cancel₀ hg0 this).symm
  have h1 := hrel 1 (by norm_num) (by linarith [Real.pi_gt_three])
  rw [hk1, one_mul] at h1
  norm_num at h1
  have a := low 625 (by norm_num)
  have b := core_upper (y := 1 / 4 * (1 - 1 / 4)) (l := 5625) hZ hZ1 (by norm_num : (4 : ℝ) ≤ 37.5) (by norm_num) (by norm_num)
    (by norm_num)
  have hlog : log (37.5 ^ 2) ≤ 10 := by
    rw [log_le_iff_le_exp (by norm_num)]
    have h := exp_one_gt_d9
    have e : exp 10 = exp 1 ^ 10 := by rw [← exp_nat_mul]; norm_num
    rw [e]
    calc (37.5 ^ 2 : ℝ) ≤ 2.7 ^ 10 := by norm_num
      _ ≤ exp 1 ^ 10 := by gcongr; linarith
  have b' : core Z 37.5 (1 / 4 * (1 - 1 / 4)) 5625 ≤ (Z ^ 2 + Z) * 10.5 := b.trans (by gcongr; linarith)
  rw [hg] at h1
  norm_num at h1 a b'
  rw [div_eq_div_iff (by norm_num) (by norm_num)] at h1
  nlinarith

/-- A photon of 10 MeV in lead, its electron with a third of the energy. -/
example : (3 : ℝ) ≤ 82 ∧ (82 : ℝ) ≤ 100 ∧ (0 : ℝ) < 10 ∧ 2 * ME * 10 ≤ (1 / 3 * 10) * ((1 - 1 / 3) * 10) ∧ (0 : ℝ) < 1 ∧ 1 < π := by
  refine ⟨by norm_num, by norm_num, by norm_num, by norm_num [ME], by norm_num, by linarith [Real.pi_gt_three]⟩

/-- The directions of such a pair, with an exact search for the upper limit. -/
example : ∃ refine, Spec.ExactRefine refine ∧ ∃ θ0 θ1, tsaiDirections exactQ refine newIntegral ⟨0, 0, 1⟩ 82 10 (1 / 3) (1 / 2) (1 / 4) (1 / 8) =
    some (photoPairDirections ⟨0, 0, 1⟩ (cos θ0) (cos θ1) (1 / 8)) := by
  obtain ⟨refine, hr⟩ := exactRefine_exists
  obtain ⟨θ0, θ1, -, -, -, -, -, -, h⟩ := C140_directions exactQ refine hr newIntegral ⟨0, 0, 1⟩ 82 10 (1 / 3) (1 / 2) (1 / 4) (1 / 8)
    (by norm_num) (by norm_num) (by norm_num) (by norm_num) (by norm_num) (by norm_num)
  exact ⟨refine, hr, θ0, θ1, h⟩

end Proposal
