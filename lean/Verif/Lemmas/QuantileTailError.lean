import Verif.Lemmas.QuantileTail

/-! # The error of the normal quantile in the tails -/

namespace Proposal
open Spec IntPoly

lemma tail_P_list : qP tailN tailD = [-6656404165283734057884161874728000000, -19467875187929102797050532347736000000, -30314037306289782138145147960162200000, -22229302796891224044219200128431784000, -8820286008095952344659441378396448000, -1653818080483301245025042197121336000, -142378417826353538517128255639028000, -5020744838156536050580428471322800, -60603030936061714763841501808366, 0] := by decide +kernel

/-- The value at 3.3. -/
lemma tail_base : |tLog tailN tailD 3.3 - Real.log (Real.sqrt (2 * Real.pi))| ≤ 1e-7 := by
  have hs := sqrt_two_pi
  have hs0 : 0 < Real.sqrt (2 * Real.pi) := by
    refine lt_of_lt_of_le ?_ hs.1
    norm_num
  have eN : ev 3.3 tailN / ev 3.3 tailD = -(2.626149814807212 : ℝ) + (ev 3.3 tailN / ev 3.3 tailD + 2.626149814807212) := by ring
  have dN : |ev 3.3 tailN / ev 3.3 tailD + 2.626149814807212| ≤ 1e-14 := by
    simp only [tailN, tailD, ev]
    norm_num [abs_le]
  have dP : |ev 3.3 (qP tailN tailD) / ev 3.3 tailD ^ 2 + 1.1232119768389397| ≤ 1e-14 := by
    rw [tail_P_list]
    simp only [tailD, ev]
    norm_num [abs_le]
  set x := ev 3.3 tailN / ev 3.3 tailD with hx
  set s := ev 3.3 (qP tailN tailD) / ev 3.3 tailD ^ 2 with hs'
  rw [abs_le] at dN dP
  have hsneg : s < 0 := by
    norm_num at dP ⊢
    linarith
  have e1 : tLog tailN tailD 3.3 = Real.log (-s / 3.3) + (3.3 ^ 2 - x ^ 2) / 2 := by
    have e0 : Real.log (-s / 3.3) = Real.log s - Real.log 3.3 := by
      rw [Real.log_div (by linarith) (by norm_num), Real.log_neg_eq_log]
    unfold tLog qLog
    rw [e0]
    ring
  set E := (3.3 ^ 2 - x ^ 2) / 2 with hE
  have hE1 : |E - 1.996668575094| ≤ 1e-12 := by
    rw [hE, abs_le]
    norm_num at dN ⊢
    constructor <;> nlinarith
  rw [e1, show Real.log (-s / 3.3) + E = Real.log (-s / 3.3 * Real.exp E) by
    rw [Real.log_mul (by
      have : 0 < -s / 3.3 := div_pos (by linarith) (by norm_num)
      exact this.ne') (Real.exp_pos E).ne', Real.log_exp]]
  -- the exponential
  have hy : |E - 2| ≤ 1 := by
    rw [abs_le] at hE1 ⊢
    norm_num at hE1 ⊢
    constructor <;> linarith
  have hexp := Real.exp_bound hy (n := 4) (by norm_num)
  have he : Real.exp E = Real.exp 1 ^ 2 * Real.exp (E - 2) := by
    rw [← Real.exp_nat_mul, ← Real.exp_add]
    congr 1
    push_cast
    ring
  have e9 := Real.exp_one_gt_d9
  have e9' := Real.exp_one_lt_d9
  have hy1 : -0.003331424907 ≤ E - 2 ∧ E - 2 ≤ -0.003331424905 := by
    rw [abs_le] at hE1
    norm_num at hE1 ⊢
    constructor <;> linarith
  have hexp2 : 0.99667411 ≤ Real.exp (E - 2) ∧ Real.exp (E - 2) ≤ 0.99667413 := by
    generalize E - 2 = y at *
    rw [Finset.sum_range_succ, Finset.sum_range_succ, Finset.sum_range_succ, Finset.sum_range_succ, Finset.sum_range_zero] at hexp
    have hya : |y| ^ 4 ≤ 0.0034 ^ 4 := by
      refine pow_le_pow_left₀ (abs_nonneg y) ?_ 4
      rw [abs_le]
      norm_num at hy1 ⊢
      constructor <;> linarith
    rw [abs_le] at hexp
    norm_num [Nat.factorial] at hexp hya hy1 ⊢
    have q1 : y ^ 2 ≤ 0.003331424907 ^ 2 := by norm_num; nlinarith
    have q2 : 0.003331424905 ^ 2 ≤ y ^ 2 := by norm_num; nlinarith
    have q3 : -0.003331424907 * 0.003331424907 ^ 2 ≤ y ^ 3 ∧ y ^ 3 ≤ 0 := by
      norm_num at q1 q2 ⊢
      constructor <;> nlinarith
    norm_num at q1 q2 q3
    constructor <;> linarith
  have hee : 7.389056095 ≤ Real.exp 1 ^ 2 ∧ Real.exp 1 ^ 2 ≤ 7.389056101 := by
    constructor
    · refine le_trans ?_ (pow_le_pow_left₀ (by norm_num) e9.le 2)
      norm_num
    · refine (pow_le_pow_left₀ (Real.exp_pos 1).le e9'.le 2).trans ?_
      norm_num
  have hE2 : 7.3644809 ≤ Real.exp E ∧ Real.exp E ≤ 7.3644811 := by
    rw [he]
    constructor
    · refine le_trans ?_ (mul_le_mul hee.1 hexp2.1 (by norm_num) (by positivity))
      norm_num
    · refine (mul_le_mul hee.2 hexp2.2 (Real.exp_pos _).le (by norm_num)).trans ?_
      norm_num
  have hc : 0.34036726570 ≤ -s / 3.3 ∧ -s / 3.3 ≤ 0.34036726573 := by
    norm_num at dP ⊢
    constructor <;> linarith
  have hprod : 2.50662822 ≤ -s / 3.3 * Real.exp E ∧ -s / 3.3 * Real.exp E ≤ 2.50662830 := by
    constructor
    · refine le_trans ?_ (mul_le_mul hc.1 hE2.1 (by norm_num) (by linarith [hc.1]))
      norm_num
    · refine (mul_le_mul hc.2 hE2.2 (Real.exp_pos _).le (by norm_num)).trans ?_
      norm_num
  refine log_near (lt_of_lt_of_le (by norm_num) hprod.1) hs0 ?_ ?_
  · refine hprod.2.trans (le_trans ?_ (mul_le_mul_of_nonneg_right hs.1 (by norm_num)))
    norm_num
  · refine hs.2.trans (le_trans ?_ (mul_le_mul_of_nonneg_right hprod.1 (by norm_num)))
    norm_num
/-- The slope of the probability at the approximation, over that of the probability. -/
lemma tail_slope {q : ℝ} (h0 : 2.64 ≤ q) (h1 : q ≤ 40) :
    |density (ev q tailN / ev q tailD) * (-(ev q (qP tailN tailD) / ev q tailD ^ 2)) / (q * Real.exp (-(q ^ 2 / 2))) - 1| ≤ 4e-5 := by
  have q0 : 0 < q := by norm_num at h0; linarith
  have hs0 : 0 < Real.sqrt (2 * Real.pi) := Real.sqrt_pos.2 (by positivity)
  have hneg : ev q (qP tailN tailD) / ev q tailD ^ 2 < 0 := lt_of_le_of_lt (tail_bounds h0 h1).2.1 (by norm_num)
  have e3 : |tLog tailN tailD q - Real.log (Real.sqrt (2 * Real.pi))| ≤ 3.91e-5 := by
    rw [show tLog tailN tailD q - Real.log (Real.sqrt (2 * Real.pi)) = (tLog tailN tailD q - tLog tailN tailD 3.3) +
      (tLog tailN tailD 3.3 - Real.log (Real.sqrt (2 * Real.pi))) by ring]
    refine (abs_add_le _ _).trans ((add_le_add (tail_change h0 h1) tail_base).trans ?_)
    norm_num
  have e4 : density (ev q tailN / ev q tailD) * (-(ev q (qP tailN tailD) / ev q tailD ^ 2)) / (q * Real.exp (-(q ^ 2 / 2))) =
      Real.exp (tLog tailN tailD q - Real.log (Real.sqrt (2 * Real.pi))) := by
    unfold tLog qLog density
    generalize ev q (qP tailN tailD) / ev q tailD ^ 2 = s at *
    rw [← Real.log_neg_eq_log s, Real.exp_sub, Real.exp_sub, Real.exp_add, Real.exp_sub, Real.exp_log (by linarith), Real.exp_log hs0, Real.exp_log q0,
      Real.exp_neg, Real.exp_neg]
    have := Real.exp_pos (q ^ 2 / 2)
    field_simp
  rw [e4]
  refine (exp_near e3 (by norm_num)).trans ?_
  norm_num

lemma tail_deriv {q : ℝ} (h0 : 2.64 ≤ q) (k : ℝ) :
    HasDerivAt (fun y => Phi (ev y tailN / ev y tailD) - Real.exp (-(y ^ 2 / 2)) + k * Real.exp (-(y ^ 2 / 2)))
      (q * Real.exp (-(q ^ 2 / 2)) * (1 - density (ev q tailN / ev q tailD) * (-(ev q (qP tailN tailD) / ev q tailD ^ 2)) /
        (q * Real.exp (-(q ^ 2 / 2))) - k)) q := by
  have q0 : 0 < q := by norm_num at h0; linarith
  have a1 := (Phi_deriv _).comp q (quot_deriv tailN tailD (tail_D q0.le).ne')
  have a2 : HasDerivAt (fun y : ℝ => Real.exp (-(y ^ 2 / 2))) (-q * Real.exp (-(q ^ 2 / 2))) q := by
    have := (((hasDerivAt_id q).pow 2).div_const 2).neg.exp
    refine this.congr_deriv ?_
    simp only [Pi.neg_apply, Pi.pow_apply, id]
    push_cast
    ring
  refine ((a1.sub a2).add (a2.const_mul k)).congr_deriv ?_
  have := Real.exp_pos (-(q ^ 2 / 2))
  field_simp
  ring

/-- The error of the probability at the approximation. -/
lemma tail_error {q : ℝ} (h0 : 2.64 ≤ q) (h1 : q ≤ 37.68) :
    |Phi (ev q tailN / ev q tailD) - Real.exp (-(q ^ 2 / 2))| ≤ 4.01e-5 * Real.exp (-(q ^ 2 / 2)) := by
  have h40 : q ≤ 40 := by norm_num at h1; linarith
  have hmem : ∀ y ∈ Set.Icc q 40, 2.64 ≤ y ∧ y ≤ 40 := fun y hy => ⟨h0.trans hy.1, hy.2⟩
  have hpos : ∀ y ∈ Set.Icc q 40, 0 < y * Real.exp (-(y ^ 2 / 2)) := fun y hy => by
    have := (hmem y hy).1
    norm_num at this
    have : 0 < y := by linarith
    positivity
  have anti : AntitoneOn (fun y => Phi (ev y tailN / ev y tailD) - Real.exp (-(y ^ 2 / 2)) + 4e-5 * Real.exp (-(y ^ 2 / 2))) (Set.Icc q 40) := by
    refine antitoneOn_of_deriv_nonpos (convex_Icc _ _) (fun y hy => (tail_deriv (hmem y hy).1 _).continuousAt.continuousWithinAt)
      (fun y hy => ?_) (fun y hy => ?_)
    · exact (tail_deriv (hmem y (interior_subset hy)).1 _).differentiableAt.differentiableWithinAt
    · have hy' := hmem y (interior_subset hy)
      rw [(tail_deriv hy'.1 _).deriv]
      have := abs_le.1 (tail_slope hy'.1 hy'.2)
      exact mul_nonpos_of_nonneg_of_nonpos (hpos y (interior_subset hy)).le (by linarith [this.1])
  have mono : MonotoneOn (fun y => Phi (ev y tailN / ev y tailD) - Real.exp (-(y ^ 2 / 2)) + (-4e-5) * Real.exp (-(y ^ 2 / 2))) (Set.Icc q 40) := by
    refine monotoneOn_of_deriv_nonneg (convex_Icc _ _) (fun y hy => (tail_deriv (hmem y hy).1 _).continuousAt.continuousWithinAt)
      (fun y hy => ?_) (fun y hy => ?_)
    · exact (tail_deriv (hmem y (interior_subset hy)).1 _).differentiableAt.differentiableWithinAt
    · have hy' := hmem y (interior_subset hy)
      rw [(tail_deriv hy'.1 _).deriv]
      have := abs_le.1 (tail_slope hy'.1 hy'.2)
      exact mul_nonneg (hpos y (interior_subset hy)).le (by linarith [this.2])
  have m1 := anti (Set.left_mem_Icc.2 h40) (Set.right_mem_Icc.2 h40) h40
  have m2 := mono (Set.left_mem_Icc.2 h40) (Set.right_mem_Icc.2 h40) h40
  simp only at m1 m2
  -- the far end
  have b40 := tail_bounds (q := 40) (by norm_num) le_rfl
  have s40 := (abs_le.1 (tail_slope (q := 40) (by norm_num) le_rfl)).2
  have p40 : Phi (ev 40 tailN / ev 40 tailD) ≤ 41 * Real.exp (-(40 ^ 2 / 2)) := by
    refine (Phi_le_density b40.1).trans ?_
    have hd := density_pos (ev 40 tailN / ev 40 tailD)
    have he := Real.exp_pos (-((40 : ℝ) ^ 2 / 2))
    generalize density (ev 40 tailN / ev 40 tailD) = d at *
    generalize ev 40 (qP tailN tailD) / ev 40 tailD ^ 2 = s at *
    generalize Real.exp (-((40 : ℝ) ^ 2 / 2)) = w at *
    rw [sub_le_iff_le_add, div_le_iff₀ (by positivity)] at s40
    have := b40.2.1
    norm_num at s40
    nlinarith
  have n40 := Phi_nonneg (ev 40 tailN / ev 40 tailD)
  have hfar : Real.exp (-((40 : ℝ) ^ 2 / 2)) ≤ 1e-9 * Real.exp (-(q ^ 2 / 2)) := by
    have e1 : Real.exp (-((40 : ℝ) ^ 2 / 2)) = Real.exp (-((40 : ℝ) ^ 2 / 2) + q ^ 2 / 2) * Real.exp (-(q ^ 2 / 2)) := by
      rw [← Real.exp_add]
      congr 1
      ring
    rw [e1]
    refine mul_le_mul_of_nonneg_right ?_ (Real.exp_pos _).le
    have e2 : -((40 : ℝ) ^ 2 / 2) + q ^ 2 / 2 ≤ -30 := by
      have hq0 : 0 ≤ q := by norm_num at h0; linarith
      norm_num at h1 ⊢
      nlinarith
    refine (Real.exp_le_exp.2 e2).trans ?_
    have e3 : Real.exp (-30) = (Real.exp 1 ^ 30)⁻¹ := by
      rw [← Real.exp_nat_mul, ← Real.exp_neg]
      congr 1
      norm_num
    rw [e3, inv_le_comm₀ (by positivity) (by norm_num)]
    refine le_trans ?_ (pow_le_pow_left₀ (by norm_num : (0 : ℝ) ≤ 2.7) (by have := Real.exp_one_gt_d9; norm_num at this ⊢; linarith) 30)
    norm_num
  generalize Real.exp (-((40 : ℝ) ^ 2 / 2)) = w at *
  have hp := Real.exp_pos (-(q ^ 2 / 2))
  generalize Real.exp (-(q ^ 2 / 2)) = z at *
  rw [abs_le]
  norm_num at m1 m2 hfar ⊢
  constructor <;> linarith

/-- The quantile in the lower tail. -/
lemma tail_quantile {p : ℝ} (h0 : (10 : ℝ) ^ (-308 : ℤ) ≤ p) (h1 : p < 0.02425) : ∃ x, normalppf erfc p = some x ∧ |Phi x - p| ≤ 1e-12 * p := by
  have p0 : 0 < p := lt_of_lt_of_le (by positivity) h0
  have hlog1 : Real.log p ≤ -3.5 := by
    rw [Real.log_le_iff_le_exp p0]
    refine h1.le.trans ?_
    have e3 : Real.exp (-3.5) = (Real.exp 3.5)⁻¹ := by rw [← Real.exp_neg]
    have e4 : Real.exp 3.5 ≤ 41 := by
      refine le_of_sq_le_sq ?_ (by norm_num)
      rw [← Real.exp_nat_mul, show ((2 : ℕ) : ℝ) * 3.5 = ((7 : ℕ) : ℝ) * 1 by norm_num, Real.exp_nat_mul]
      refine (pow_le_pow_left₀ (Real.exp_pos 1).le Real.exp_one_lt_d9.le 7).trans ?_
      norm_num
    rw [e3, le_inv_comm₀ (by norm_num) (Real.exp_pos _)]
    refine e4.trans ?_
    norm_num
  have hlog2 : -709.8 ≤ Real.log p := by
    have a1 := Real.log_le_log (by positivity) h0
    have a2 : Real.log ((10 : ℝ) ^ (-308 : ℤ)) = -(308 * Real.log 10) := by
      rw [Real.log_zpow]
      push_cast
      ring
    have a3 : Real.log 10 ≤ 2.3045 := by
      rw [show (10 : ℝ) = 2 ^ 3 * 1.25 by norm_num, Real.log_mul (by norm_num) (by norm_num), Real.log_pow]
      have b1 := Real.log_two_lt_d9
      have b2 : Real.log 1.25 ≤ 0.225 := by
        rw [Real.log_le_iff_le_exp (by norm_num)]
        have := Real.quadratic_le_exp_of_nonneg (x := 0.225) (by norm_num)
        norm_num at this ⊢
        linarith
      norm_num at b1 b2 ⊢
      linarith
    rw [a2] at a1
    norm_num at a3 ⊢
    linarith
  set q := Real.sqrt (-2 * Real.log p) with hq
  have hq2 : q ^ 2 = -2 * Real.log p := Real.sq_sqrt (by norm_num at hlog1; linarith)
  have q1 : 2.64 ≤ q := by
    refine Real.le_sqrt_of_sq_le ?_
    norm_num at hlog1 ⊢
    linarith
  have q2 : q ≤ 37.68 := by
    refine Real.sqrt_le_iff.2 ⟨by norm_num, ?_⟩
    norm_num at hlog2 ⊢
    linarith
  have q40 : q ≤ 40 := by norm_num at q2; linarith
  have hp : Real.exp (-(q ^ 2 / 2)) = p := by
    rw [hq2, show -(-2 * Real.log p / 2) = Real.log p by ring, Real.exp_log p0]
  have hst : ppfStart p = ev q tailN / ev q tailD := by
    unfold ppfStart
    rw [if_pos h1, tail_eq]
  have hb := tail_bounds q1 q40
  have hsl := tail_slope q1 q40
  have her := tail_error q1 q2
  rw [hp] at hsl her
  unfold normalppf
  rw [if_pos ⟨p0, by norm_num at h1; linarith⟩]
  simp only [hst, Phi_erfc]
  generalize ev q tailN / ev q tailD = x at *
  generalize ev q (qP tailN tailD) / ev q tailD ^ 2 = s at *
  have hd := density_pos x
  have hu : (Phi x - p) * Real.sqrt (2 * Real.pi) * Real.exp (0.5 * x * x) = (Phi x - p) / density x := by
    unfold density
    rw [Real.exp_neg, show 0.5 * x * x = x ^ 2 / 2 by norm_num; ring]
    have := Real.exp_pos (x ^ 2 / 2)
    field_simp
  rw [hu]
  set u := (Phi x - p) / density x with hudef
  have hu1 : Phi x - p = density x * u := by rw [hudef]; field_simp
  have q0 : 0 < q := by norm_num at q1; linarith
  -- p / density
  have hs1 : 0.999 * (q * p) ≤ density x * -s := by
    have := (abs_le.1 hsl).1
    rw [le_sub_iff_add_le, le_div_iff₀ (by positivity)] at this
    have hqp : 0 < q * p := by positivity
    norm_num at this ⊢
    nlinarith
  have hu2 : |u| * (q * 0.999) ≤ 4.01e-5 * -s := by
    rw [hudef, abs_div, abs_of_pos hd, div_mul_eq_mul_div, div_le_iff₀ hd]
    have a1 := mul_le_mul_of_nonneg_right her (by positivity : 0 ≤ q * 0.999)
    have a2 := mul_le_mul_of_nonneg_left hs1 (by norm_num : (0 : ℝ) ≤ 4.01e-5)
    linarith
  have hs2 : -s ≤ 1.2 := by linarith [hb.2.2.1]
  have u1 : |u| ≤ 1.9e-5 := by
    have a1 : |u| * (2.64 * 0.999) ≤ |u| * (q * 0.999) := mul_le_mul_of_nonneg_left (mul_le_mul_of_nonneg_right q1 (by norm_num)) (abs_nonneg u)
    norm_num at a1 hu2 hs2 ⊢
    linarith
  have u2 : |x * u| ≤ 4.02e-5 := by
    rw [abs_mul, abs_of_nonpos (by linarith [hb.1])]
    have a1 := mul_le_mul_of_nonneg_left hu2 (by linarith [hb.1] : 0 ≤ -x)
    have a2 : -x * (4.01e-5 * -s) ≤ 4.01e-5 * q := by
      have := mul_le_mul_of_nonneg_left hb.2.2.2 (by norm_num : (0 : ℝ) ≤ 4.01e-5)
      linarith
    have a3 : (-x * |u|) * 0.999 * q ≤ 4.01e-5 * q := by linarith
    have a4 := le_of_mul_le_mul_right a3 q0
    norm_num at a4 ⊢
    linarith
  obtain ⟨a, b⟩ := halley hu1 (u1.trans (by norm_num)) (u2.trans (by norm_num))
  rw [if_neg a]
  refine ⟨_, rfl, b.trans ?_⟩
  have v1 : u ^ 2 ≤ (1.9e-5) ^ 2 := by
    rw [← sq_abs]
    exact pow_le_pow_left₀ (abs_nonneg u) u1 2
  have v2 : (x * u) ^ 2 ≤ (4.02e-5) ^ 2 := by
    rw [← sq_abs]
    exact pow_le_pow_left₀ (abs_nonneg _) u2 2
  have v3 : 3 * (x * u) ^ 2 + u ^ 2 ≤ 8e-9 := by
    norm_num at v1 v2 ⊢
    linarith
  refine (mul_le_mul her v3 (by positivity) (by positivity)).trans ?_
  norm_num
  linarith

end Proposal
