import Verif.Model.PairLpm
import Verif.Props.BremsComplete
import Verif.Props.BremsLimits

/-!
# C127: the effect of Landau, Pomeranchuk and Migdal
-/

open Set Filter Topology

namespace Proposal

lemma phi_exponent {s : ℝ} (h0 : 0 < s) (h1 : s < 1.54954) :
    -6 * s ≤ -6 * s * (1 + (3 - Real.pi) * s) + s * s * s / (0.623 + 0.796 * s + 0.658 * (s * s)) ∧
    -6 * s * (1 + (3 - Real.pi) * s) + s * s * s / (0.623 + 0.796 * s + 0.658 * (s * s)) < -3 * s := by
  have p1 := Real.pi_gt_d4
  have p2 := Real.pi_lt_d4
  have hd : 0 < 0.623 + 0.796 * s + 0.658 * (s * s) := by positivity
  have hq0 : 0 ≤ s * s * s / (0.623 + 0.796 * s + 0.658 * (s * s)) := by positivity
  have hq : s * s * s / (0.623 + 0.796 * s + 0.658 * (s * s)) ≤ 1.52 * s := by
    rw [div_le_iff₀ hd]
    nlinarith [mul_pos h0 h0, mul_pos (mul_pos h0 h0) h0]
  have hs2 : 0 < s * s := by positivity
  constructor
  · nlinarith
  · have : (Real.pi - 3) * (s * s) ≤ 0.1416 * (1.54954 * s) := by
      have a : s * s ≤ 1.54954 * s := by nlinarith
      have b : 0 ≤ Real.pi - 3 := by linarith
      nlinarith
    nlinarith

/-- The first function of Migdal lies between 0 and 1. -/
lemma phi_bounds {s : ℝ} (h0 : 0 < s) : 0 < migdalPhi s ∧ migdalPhi s < 1 ∧ migdalPhi s ≤ 6 * s := by
  unfold migdalPhi
  simp only
  by_cases h : s < 1.54954
  · rw [if_pos h]
    obtain ⟨e1, e2⟩ := phi_exponent h0 h
    set e := -6 * s * (1 + (3 - Real.pi) * s) + s * s * s / (0.623 + 0.796 * s + 0.658 * (s * s))
    have a := Real.exp_pos e
    have b : Real.exp e < 1 := by
      rw [Real.exp_lt_one_iff]
      linarith
    have c := Real.add_one_le_exp e
    refine ⟨?_, ?_, ?_⟩ <;> linarith
  · rw [if_neg h]
    push Not at h
    have h2 : 2.4 ≤ s * s := by nlinarith
    have h4 : 5.76 ≤ s * s * (s * s) := by nlinarith
    have a : 0 < 0.012 / (s * s * (s * s)) := by positivity
    have b : 0.012 / (s * s * (s * s)) < 1 := by
      rw [div_lt_one (by positivity)]
      linarith
    refine ⟨?_, ?_, ?_⟩ <;> linarith

lemma phi_exp {s : ℝ} (h0 : 0 < s) (h : s < 1.54954) : migdalPhi s ≤ 1 - Real.exp (-6 * s) := by
  unfold migdalPhi
  simp only
  rw [if_pos h]
  have := Real.exp_le_exp.mpr (phi_exponent h0 h).1
  linarith

lemma psi_exponent {s : ℝ} (h0 : 0 < s) (h1 : s < 0.710390) :
    0 < 1 + 3.936 * s + 4.97 * (s * s) - 0.05 * (s * s) * s + 7.50 * (s * s) * (s * s) ∧
    8 * (s * s) / (1 + 3.936 * s + 4.97 * (s * s) - 0.05 * (s * s) * s + 7.50 * (s * s) * (s * s)) ≤ s := by
  have hd : 8 * s ≤ 1 + 3.936 * s + 4.97 * (s * s) - 0.05 * (s * s) * s + 7.50 * (s * s) * (s * s) := by
    have a : (s * s) * s ≤ 0.72 * (s * s) := by nlinarith [mul_pos h0 h0]
    nlinarith [sq_nonneg (s - 0.41), mul_pos h0 h0, mul_pos (mul_pos h0 h0) (mul_pos h0 h0)]
  have hd0 : 0 < 1 + 3.936 * s + 4.97 * (s * s) - 0.05 * (s * s) * s + 7.50 * (s * s) * (s * s) := by linarith
  refine ⟨hd0, ?_⟩
  rw [div_le_iff₀ hd0]
  nlinarith

/-- So does the second one. -/
lemma G_bounds {s : ℝ} (h0 : 0 < s) : 0 < migdalG s ∧ migdalG s < 1 ∧ migdalG s ≤ 15 * s := by
  unfold migdalG
  simp only
  by_cases h : s < 0.710390
  · rw [if_pos h]
    obtain ⟨hd, hq⟩ := psi_exponent h0 h
    set q := 8 * (s * s) / (1 + 3.936 * s + 4.97 * (s * s) - 0.05 * (s * s) * s + 7.50 * (s * s) * (s * s)) with hqd
    have hq0 : 0 ≤ q := by positivity
    have hb := phi_exponent h0 (by linarith : s < 1.54954)
    have hphi := phi_exp h0 (by linarith : s < 1.54954)
    have hphi' : 1 - Real.exp (-5 * s) ≤ migdalPhi s := by
      unfold migdalPhi
      simp only
      rw [if_pos (by linarith)]
      have p2 := Real.pi_lt_d4
      have p1 := Real.pi_gt_d4
      have : -6 * s * (1 + (3 - Real.pi) * s) + s * s * s / (0.623 + 0.796 * s + 0.658 * (s * s)) ≤ -5 * s := by
        have hd' : 0 < 0.623 + 0.796 * s + 0.658 * (s * s) := by positivity
        have a : s * s * s / (0.623 + 0.796 * s + 0.658 * (s * s)) ≤ 0.34 * s := by
          rw [div_le_iff₀ hd']
          have : s * s ≤ 0.72 * s := by nlinarith
          have : s * s ≤ 0.505 := by nlinarith
          nlinarith [mul_pos h0 h0, mul_pos (mul_pos h0 h0) h0]
        have b : s * s ≤ 0.7104 * s := by nlinarith
        have c : (Real.pi - 3) * (s * s) ≤ 0.1416 * (0.7104 * s) := by
          have : 0 ≤ Real.pi - 3 := by linarith
          nlinarith [mul_pos h0 h0]
        nlinarith
      have := Real.exp_le_exp.mpr this
      linarith
    set t := Real.exp (-2 * s) with ht
    have ht0 : 0 < t := Real.exp_pos _
    have ht1 : t < 1 := by
      rw [ht, Real.exp_lt_one_iff]
      linarith
    have e4 : Real.exp (-4 * s) = t ^ 2 := by
      rw [ht, ← Real.exp_nat_mul]
      congr 1
      push_cast
      ring
    have e6 : Real.exp (-6 * s) = t ^ 3 := by
      rw [ht, ← Real.exp_nat_mul]
      congr 1
      push_cast
      ring
    have hu : Real.exp (-4 * s - q) ≤ t ^ 2 := by
      rw [← e4]
      apply Real.exp_le_exp.mpr
      linarith
    have hl : Real.exp (-5 * s) ≤ Real.exp (-4 * s - q) := by
      apply Real.exp_le_exp.mpr
      linarith
    have hpos := Real.exp_pos (-4 * s - q)
    have h1 := Real.add_one_le_exp (-4 * s - q)
    have hphi0 := (phi_bounds h0).1
    rw [e6] at hphi
    refine ⟨?_, ?_, ?_⟩
    · have : 0 < (1 - t) ^ 2 * (1 + 2 * t) := by
        have : 0 < 1 - t := by linarith
        positivity
      nlinarith
    · linarith
    · linarith
  · rw [if_neg h]
    push Not at h
    by_cases h2 : s < 0.904912
    · rw [if_pos h2]
      have hs : 0 < s * s := by positivity
      have a : 36 * (s * s) / (36 * (s * s) + 1) < 1 := by
        rw [div_lt_one (by positivity)]
        linarith
      refine ⟨by positivity, a, by linarith⟩
    · rw [if_neg h2]
      push Not at h2
      have h2' : 0.81 ≤ s * s := by nlinarith
      have h4 : 0.65 ≤ s * s * (s * s) := by nlinarith
      have a : 0 < 0.022 / (s * s * (s * s)) := by positivity
      have b : 0.022 / (s * s * (s * s)) < 1 := by
        rw [div_lt_one (by positivity)]
        linarith
      refine ⟨?_, ?_, ?_⟩ <;> linarith

lemma inv_fourth : Tendsto (fun s : ℝ => (1 : ℝ) / (s * s * (s * s))) atTop (𝓝 0) := by
  have h : Tendsto (fun s : ℝ => s ^ 4) atTop atTop := tendsto_pow_atTop (by norm_num)
  have := tendsto_inv_atTop_zero.comp h
  refine this.congr fun s => ?_
  simp only [Function.comp_apply, one_div]
  congr 1
  ring

lemma phi_limit : Tendsto migdalPhi atTop (𝓝 1) := by
  have h := (inv_fourth.const_mul 0.012).const_sub 1
  rw [mul_zero, sub_zero] at h
  refine h.congr' ?_
  filter_upwards [eventually_ge_atTop (1.54954 : ℝ)] with s hs
  unfold migdalPhi
  simp only
  rw [if_neg (by linarith)]
  ring

lemma G_limit : Tendsto migdalG atTop (𝓝 1) := by
  have h := (inv_fourth.const_mul 0.022).const_sub 1
  rw [mul_zero, sub_zero] at h
  refine h.congr' ?_
  filter_upwards [eventually_ge_atTop (1.54954 : ℝ)] with s hs
  unfold migdalG
  simp only
  rw [if_neg (by linarith), if_neg (by linarith)]
  ring

/-- `xi` lies between 1 and 2. -/
lemma xi_bounds {s1 sp : ℝ} (h1 : 0 < s1) (h2 : s1 ≤ 0.9) : 1 ≤ lpmXi s1 sp ∧ lpmXi s1 sp ≤ 2 := by
  have hl : Real.log s1 ≤ -0.1 := by
    have := Real.log_le_sub_one_of_pos h1
    linarith
  unfold lpmXi
  simp only
  by_cases h : sp < s1
  · rw [if_pos h]
    norm_num
  · rw [if_neg h]
    push Not at h
    by_cases h' : sp < 1
    · rw [if_pos h']
      have hsp : 0 < sp := by linarith
      set k := Real.log s1 with hk
      have a1 : Real.log sp < 0 := Real.log_neg hsp h'
      have a2 : k ≤ Real.log sp := Real.log_le_log h1 h
      set y := Real.log sp / k with hy
      have y0 : 0 ≤ y := div_nonneg_of_nonpos a1.le (by linarith)
      have y1 : y ≤ 1 := by
        rw [hy, div_le_one_of_neg (by linarith)]
        exact a2
      have hb : 0 ≤ 0.08 * (1 - y) * (1 - (1 - y) * (1 - y)) := by
        apply mul_nonneg
        · linarith
        · nlinarith
      have hb2 : 0.08 * (1 - y) * (1 - (1 - y) * (1 - y)) ≤ 0.08 * (1 - y) := by
        have : 0 ≤ 1 - y := by linarith
        nlinarith [mul_nonneg this (mul_self_nonneg (1 - y))]
      have hb3 : 0.08 * (1 - y) * (1 - (1 - y) * (1 - y)) / k ≤ 0 := div_nonpos_of_nonneg_of_nonpos hb (by linarith)
      have hb4 : -(1 - y) ≤ 0.08 * (1 - y) * (1 - (1 - y) * (1 - y)) / k := by
        rw [le_div_iff_of_neg (by linarith)]
        nlinarith
      constructor <;> linarith
    · rw [if_neg h']
      norm_num

lemma xi_one {s1 sp : ℝ} (h2 : s1 ≤ 0.9) (h : 1 ≤ sp) : lpmXi s1 sp = 1 := by
  unfold lpmXi
  simp only
  rw [if_neg (by linarith), if_neg (by linarith)]

/-- C127: the factor `xi` is continuous where its formulas meet. -/
theorem C127_xi_continuous (s1 : ℝ) (h1 : 0 < s1) (h2 : s1 ≤ 0.9) : ContinuousOn (lpmXi s1) (Ioi 0) := by
  have hl : Real.log s1 ≤ -0.1 := by
    have := Real.log_le_sub_one_of_pos h1
    linarith
  have hmid : ContinuousOn (fun sp => 1 + Real.log sp / Real.log s1 - 0.08 * (1 - Real.log sp / Real.log s1) *
      (1 - (1 - Real.log sp / Real.log s1) * (1 - Real.log sp / Real.log s1)) / Real.log s1) (Ioi 0) := by
    have : ContinuousOn Real.log (Ioi 0) := Real.continuousOn_log.mono fun x hx => (ne_of_gt hx)
    fun_prop
  have e : lpmXi s1 = fun sp => if sp ≤ s1 then 2 else if sp ≤ 1 then 1 + Real.log sp / Real.log s1 - 0.08 * (1 - Real.log sp / Real.log s1) *
      (1 - (1 - Real.log sp / Real.log s1) * (1 - Real.log sp / Real.log s1)) / Real.log s1 else 1 := by
    funext sp
    unfold lpmXi
    simp only
    rcases lt_trichotomy sp s1 with h | h | h
    · rw [if_pos h, if_pos h.le]
    · subst h
      rw [if_neg (lt_irrefl _), if_pos le_rfl, if_pos (by linarith), div_self (by linarith)]
      norm_num
    · rw [if_neg (show ¬ sp < s1 by linarith), if_neg (show ¬ sp ≤ s1 by linarith)]
      rcases lt_trichotomy sp 1 with h' | h' | h'
      · rw [if_pos h', if_pos h'.le]
      · subst h'
        rw [if_neg (lt_irrefl _), if_pos le_rfl, Real.log_one]
        norm_num
      · rw [if_neg (show ¬ sp < 1 by linarith), if_neg (show ¬ sp ≤ 1 by linarith)]
  rw [e]
  have e2 : Ioi (0 : ℝ) ∩ closure {x | x ≤ 1} ⊆ Ioi 0 := inter_subset_left
  apply ContinuousOn.if
  · intro a ha
    have hf : a = s1 := by
      have := ha.2
      rw [show {x : ℝ | x ≤ s1} = Iic s1 from rfl, frontier_Iic] at this
      exact this
    subst hf
    rw [if_pos (by linarith), div_self (by linarith)]
    norm_num
  · exact continuousOn_const
  · apply ContinuousOn.if
    · intro a ha
      have hf : a = 1 := by
        have := ha.2
        rw [show {x : ℝ | x ≤ 1} = Iic 1 from rfl, frontier_Iic] at this
        exact this
      subst hf
      rw [Real.log_one]
      norm_num
    · exact hmid.mono fun x hx => hx.1.1
    · exact continuousOn_const

/-- The combination of both functions in bremsstrahlung. -/
lemma lpm_combine {v ξ s Γ : ℝ} (h0 : 0 < v) (h1 : v < 1) (hξ : 1 ≤ ξ) (hs : 0 < s) (hΓ : 1 ≤ Γ) :
    0 < ((ξ / 3) * ((v * v) * migdalG s / (Γ * Γ) + 2 * (1 + (1 - v) * (1 - v)) * migdalPhi s / Γ)) / ((4 / 3) * (1 - v) + v * v) ∧
    ((ξ / 3) * ((v * v) * migdalG s / (Γ * Γ) + 2 * (1 + (1 - v) * (1 - v)) * migdalPhi s / Γ)) / ((4 / 3) * (1 - v) + v * v) < ξ / Γ ∧
    ((ξ / 3) * ((v * v) * migdalG s / (Γ * Γ) + 2 * (1 + (1 - v) * (1 - v)) * migdalPhi s / Γ)) / ((4 / 3) * (1 - v) + v * v) ≤ ξ * (15 * s) / Γ := by
  obtain ⟨p0, p1, p2⟩ := phi_bounds hs
  obtain ⟨g0, g1, g2⟩ := G_bounds hs
  have hsp : 0 < (4 / 3) * (1 - v) + v * v := spectrum_pos
  have hG : (v * v) * migdalG s / (Γ * Γ) ≤ v * v * migdalG s / Γ := by
    apply div_le_div_of_nonneg_left (by positivity) (by linarith)
    nlinarith
  have hΓ0 : 0 < Γ := by linarith
  have hc : 0 < 1 + (1 - v) * (1 - v) := by nlinarith [mul_self_nonneg (1 - v)]
  refine ⟨by positivity, ?_, ?_⟩
  · rw [div_lt_iff₀ hsp]
    have h3 : (v * v) * migdalG s / (Γ * Γ) + 2 * (1 + (1 - v) * (1 - v)) * migdalPhi s / Γ < 3 * ((4 / 3) * (1 - v) + v * v) / Γ := by
      refine (add_le_add_left hG _).trans_lt ?_
      rw [← add_div]
      apply div_lt_div_of_pos_right _ hΓ0
      nlinarith [mul_pos h0 h0]
    calc ξ / 3 * _ < ξ / 3 * (3 * ((4 / 3) * (1 - v) + v * v) / Γ) := by
          apply mul_lt_mul_of_pos_left h3
          linarith
      _ = _ := by ring
  · rw [div_le_iff₀ hsp]
    have h3 : (v * v) * migdalG s / (Γ * Γ) + 2 * (1 + (1 - v) * (1 - v)) * migdalPhi s / Γ ≤ 3 * ((4 / 3) * (1 - v) + v * v) * (15 * s) / Γ := by
      refine (add_le_add_left hG _).trans ?_
      rw [← add_div]
      apply div_le_div_of_nonneg_right _ hΓ0.le
      nlinarith [mul_pos h0 h0]
    calc ξ / 3 * _ ≤ ξ / 3 * (3 * ((4 / 3) * (1 - v) + v * v) * (15 * s) / Γ) := by
          apply mul_le_mul_of_nonneg_left h3
          linarith
      _ = _ := by ring

/-- The combination of both functions in pair production. -/
lemma lpm_combine_pair {x ξ s Γ : ℝ} (h0 : 0 < x) (h1 : x < 1) (hξ : 1 ≤ ξ) (hs : 0 < s) (hΓ : 1 ≤ Γ) :
    0 < ((ξ / 3) * (migdalG s / (Γ * Γ) + 2 * (x * x + (1 - x) * (1 - x)) * migdalPhi s / Γ)) / (1 - (4 / 3) * x * (1 - x)) ∧
    ((ξ / 3) * (migdalG s / (Γ * Γ) + 2 * (x * x + (1 - x) * (1 - x)) * migdalPhi s / Γ)) / (1 - (4 / 3) * x * (1 - x)) < ξ / Γ ∧
    ((ξ / 3) * (migdalG s / (Γ * Γ) + 2 * (x * x + (1 - x) * (1 - x)) * migdalPhi s / Γ)) / (1 - (4 / 3) * x * (1 - x)) ≤ ξ * (15 * s) / Γ := by
  obtain ⟨p0, p1, p2⟩ := phi_bounds hs
  obtain ⟨g0, g1, g2⟩ := G_bounds hs
  have hsp : 0 < 1 - (4 / 3) * x * (1 - x) := by nlinarith [sq_nonneg (x - 1 / 2)]
  have hG : migdalG s / (Γ * Γ) ≤ migdalG s / Γ := by
    apply div_le_div_of_nonneg_left (by positivity) (by linarith)
    nlinarith
  have hΓ0 : 0 < Γ := by linarith
  have hc : 0 < x * x + (1 - x) * (1 - x) := by nlinarith [mul_self_nonneg (1 - x)]
  refine ⟨by positivity, ?_, ?_⟩
  · rw [div_lt_iff₀ hsp]
    have h3 : migdalG s / (Γ * Γ) + 2 * (x * x + (1 - x) * (1 - x)) * migdalPhi s / Γ < 3 * (1 - (4 / 3) * x * (1 - x)) / Γ := by
      refine (add_le_add_left hG _).trans_lt ?_
      rw [← add_div]
      apply div_lt_div_of_pos_right _ hΓ0
      nlinarith
    calc ξ / 3 * _ < ξ / 3 * (3 * (1 - (4 / 3) * x * (1 - x)) / Γ) := by
          apply mul_lt_mul_of_pos_left h3
          linarith
      _ = _ := by ring
  · rw [div_le_iff₀ hsp]
    have h3 : migdalG s / (Γ * Γ) + 2 * (x * x + (1 - x) * (1 - x)) * migdalPhi s / Γ ≤ 3 * (1 - (4 / 3) * x * (1 - x)) * (15 * s) / Γ := by
      refine (add_le_add_left hG _).trans ?_
      rw [← add_div]
      apply div_le_div_of_nonneg_right _ hΓ0.le
      nlinarith
    calc ξ / 3 * _ ≤ ξ / 3 * (3 * (1 - (4 / 3) * x * (1 - x)) * (15 * s) / Γ) := by
          apply mul_le_mul_of_nonneg_left h3
          linarith
      _ = _ := by ring

end Proposal
