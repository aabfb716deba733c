import Verif.Model.MultipleScattering
import Mathlib.Analysis.Complex.ExponentialBounds
import Mathlib.Analysis.SpecialFunctions.Log.Deriv
import Mathlib.Topology.Order.IntermediateValue
import Mathlib.Analysis.Convex.SpecificFunctions.Basic

/-! Property C110: the parameter B of Molière's theory. -/

namespace Proposal

/-- The function whose zero is Molière's `B`, for `C = ln (χ_c² / χ_a²) + 1 - 2 γ`. -/
noncomputable def Spec.moliereG (C x : ℝ) : ℝ := x - Real.log x - C

open Spec

private theorem bStep_eq (C x : ℝ) (hx : 1 < x) :
    bStep (C - 1 + 2 * EULER_MASCHERONI) x = x * (1 - moliereG C x / (x - 1)) := by
  unfold bStep moliereG
  have h1 : (1 : ℝ) - x ≠ 0 := by linarith
  have h2 : x - 1 ≠ 0 := by linarith
  field_simp
  ring

/-- The residual after a step. -/
private theorem residual_step (C x d : ℝ) (hx : 1 < x) (hd : d < 1) (h : moliereG C x = d * (x - 1)) :
    moliereG C (x * (1 - d)) = -d - Real.log (1 - d) := by
  unfold moliereG at *
  rw [Real.log_mul (by linarith) (by linarith)]
  linear_combination h

private theorem log_bound {d : ℝ} (h1 : d < 1) : 0 ≤ -d - Real.log (1 - d) ∧ -d - Real.log (1 - d) ≤ d ^ 2 / (1 - d) := by
  have hp : 0 < 1 - d := by linarith
  constructor
  · have := Real.log_le_sub_one_of_pos hp
    linarith
  · have := Real.one_sub_inv_le_log_of_pos hp
    have e : d ^ 2 / (1 - d) = -d - (1 - (1 - d)⁻¹) := by
      field_simp
      ring
    linarith

/-- A step from the right of the zero: the residual is non-negative, the new value is larger than 1 and not larger than before. -/
private theorem step_right (C x d : ℝ) (hC : 1 ≤ C) (hx : 1 < x) (hd : moliereG C x = d * (x - 1)) (h0 : 0 ≤ d) :
    d < 1 ∧ 1 < x * (1 - d) ∧ x * (1 - d) ≤ x ∧ 0 ≤ moliereG C (x * (1 - d)) ∧ moliereG C (x * (1 - d)) ≤ d ^ 2 / (1 - d) := by
  have hxp : 0 < x := by linarith
  have hl : 1 - x⁻¹ < Real.log x := by
    have h := Real.add_one_lt_exp (x := Real.log x⁻¹) (by
      rw [Real.log_inv]
      have := Real.log_pos hx
      linarith)
    rw [Real.exp_log (by positivity), Real.log_inv] at h
    linarith
  have hlog : (x - 1) < x * Real.log x := by
    have := mul_lt_mul_of_pos_left hl hxp
    have e : x * (1 - x⁻¹) = x - 1 := by field_simp
    linarith
  have hpos := Real.log_pos hx
  have hd' : d * (x - 1) = x - Real.log x - C := hd.symm
  have h1 : 1 < x * (1 - d) := by
    have hx1 : 0 < x - 1 := by linarith
    have e : (x * (1 - d)) * (x - 1) = x * (Real.log x + C - 1) := by linear_combination (-x) * hd'
    have h2 : (x - 1) < (x * (1 - d)) * (x - 1) := by
      rw [e]
      nlinarith
    nlinarith
  have hd1 : d < 1 := by
    by_contra hcon
    push Not at hcon
    have : x * (1 - d) ≤ 0 := mul_nonpos_of_nonneg_of_nonpos hxp.le (by linarith)
    linarith
  refine ⟨hd1, h1, by nlinarith, ?_, ?_⟩
  · rw [residual_step C x d hx hd1 hd]; exact (log_bound hd1).1
  · rw [residual_step C x d hx hd1 hd]; exact (log_bound hd1).2

private theorem bLoop_step (C x : ℝ) (n : ℕ) (hx : 1 < x) :
    bLoop (C - 1 + 2 * EULER_MASCHERONI) (n + 1) x =
      bLoop (C - 1 + 2 * EULER_MASCHERONI) n (x * (1 - moliereG C x / (x - 1))) := by
  rw [bLoop, if_neg (by linarith), if_neg (by linarith), bStep_eq C x hx]

/-- The size of the residual after a step, as long as the values are above 4.5. -/
private theorem step_size (C x a b : ℝ) (hC : 1 ≤ C) (hx : 4.5 ≤ x) (h0 : 0 ≤ moliereG C x) (ha : moliereG C x ≤ a) (hb : a ≤ 1)
    (hab : a ^ 2 / 8 ≤ b) :
    moliereG C (x * (1 - moliereG C x / (x - 1))) ≤ b := by
  have hx1 : 3.5 ≤ x - 1 := by norm_num at hx ⊢; linarith
  have hx0 : 0 < x - 1 := by norm_num at hx1; linarith
  set d := moliereG C x / (x - 1) with hd
  have hd0 : 0 ≤ d := by positivity
  have hda : d ≤ a / 3.5 := by
    rw [hd]
    have ha0 : 0 ≤ a := h0.trans ha
    exact div_le_div₀ ha0 ha (by norm_num) hx1
  obtain ⟨_, _, _, _, h5⟩ := step_right C x d hC (by linarith) (by rw [hd]; field_simp) hd0
  refine h5.trans (le_trans ?_ hab)
  have ha0 : 0 ≤ a := h0.trans ha
  have hd1 : d ≤ 2 / 7 := hda.trans (by norm_num; linarith)
  rw [div_le_iff₀ (by linarith)]
  have : d ^ 2 ≤ (a / 3.5) ^ 2 := by gcongr
  norm_num at this
  nlinarith

private theorem log15 : 2.7 < Real.log 15 ∧ Real.log 15 < 2.711 := by
  have h16 : Real.log 16 = 4 * Real.log 2 := by
    rw [show (16 : ℝ) = 2 ^ 4 by norm_num, Real.log_pow]; norm_num
  have e : Real.log 15 = Real.log 16 + Real.log (15 / 16) := by
    rw [← Real.log_mul (by norm_num) (by norm_num)]; norm_num
  have l1 := Real.log_two_gt_d9
  have l2 := Real.log_two_lt_d9
  have u1 := Real.one_sub_inv_le_log_of_pos (x := 15 / 16) (by norm_num)
  have u2 := Real.log_le_sub_one_of_pos (x := 15 / 16) (by norm_num)
  norm_num at l1 l2 u1 u2 ⊢
  constructor <;> linarith

/-- The first two values, and a bound for the residual (if the second one is above 4.5). -/
private theorem two_steps (C : ℝ) (hC : 1 ≤ C) :
    ∃ y, 1 < y ∧ (4.5 ≤ y → moliereG C y ≤ 1 / 8) ∧ 0 ≤ moliereG C y ∧
      ∀ m, bLoop (C - 1 + 2 * EULER_MASCHERONI) (m + 2) 15 = bLoop (C - 1 + 2 * EULER_MASCHERONI) m y := by
  set d := moliereG C 15 / (15 - 1) with hd
  have e : moliereG C 15 = d * (15 - 1) := by rw [hd]; field_simp
  have hloop : ∀ m, bLoop (C - 1 + 2 * EULER_MASCHERONI) (m + 2) 15 = bLoop (C - 1 + 2 * EULER_MASCHERONI) (m + 1) (15 * (1 - d)) :=
    fun m => bLoop_step C 15 (m + 1) (by norm_num)
  rcases le_total 0 d with h0 | h0
  · obtain ⟨k1, k2, k3, k4, k5⟩ := step_right C 15 d hC (by norm_num) e h0
    set y := 15 * (1 - d) with hy
    have hy1 : 0 < y - 1 := by linarith
    obtain ⟨_, q1, q2, q3, _⟩ := step_right C y (moliereG C y / (y - 1)) hC k2 (by field_simp) (by positivity)
    refine ⟨_, q1, ?_, q3, fun m => by rw [hloop, bLoop_step C y m k2]⟩
    intro h45
    have hy45 : 4.5 ≤ y := h45.trans q2
    refine step_size C y 1 _ hC hy45 k4 ?_ le_rfl (by norm_num)
    by_cases hh : d ≤ 0.5
    · refine k5.trans ?_
      rw [div_le_one (by linarith)]
      norm_num at hh
      nlinarith
    · push Not at hh
      rw [residual_step C 15 d (by norm_num) k1 e]
      have hd3 : 1 / 4 ≤ 1 - d := by rw [hy] at hy45; norm_num at hy45 ⊢; linarith
      have hlog := Real.log_le_log (by norm_num) hd3
      have h4 : Real.log (1 / 4) = -(2 * Real.log 2) := by
        rw [one_div, Real.log_inv, show (4 : ℝ) = 2 ^ 2 by norm_num, Real.log_pow]; norm_num
      have l2 := Real.log_two_lt_d9
      rw [h4] at hlog
      norm_num at l2 hh
      linarith
  · have hd1 : d < 1 := by linarith
    have hg := residual_step C 15 d (by norm_num) hd1 e
    set y := 15 * (1 - d) with hy
    have hy15 : 15 ≤ y := by rw [hy]; linarith
    have hlog0 : Real.log (1 - d) ≤ -d := by
      have := Real.log_le_sub_one_of_pos (x := 1 - d) (by linarith)
      linarith
    have hlog1 : 0 ≤ Real.log (1 - d) := Real.log_nonneg (by linarith)
    have g0 : 0 ≤ moliereG C y := by rw [hg]; linarith
    have hy1 : 0 < y - 1 := by linarith
    set d' := moliereG C y / (y - 1) with hd'
    have hd'0 : 0 ≤ d' := by positivity
    have hd'1 : d' ≤ 1 / 15 := by
      rw [hd', div_le_iff₀ hy1, hg, hy]
      linarith
    obtain ⟨_, q1, q2, q3, q4⟩ := step_right C y d' hC (by linarith) (by rw [hd']; field_simp) hd'0
    refine ⟨_, q1, fun _ => q4.trans ?_, q3, fun m => by rw [hloop, bLoop_step C y m (by linarith)]⟩
    rw [div_le_iff₀ (by linarith)]
    nlinarith

private theorem last_steps (C : ℝ) (hC : 1 ≤ C) : ∃ y, 1 < y ∧ (4.5 ≤ y → moliereG C y ≤ 1e-27) ∧ 0 ≤ moliereG C y ∧
    bLoop (C - 1 + 2 * EULER_MASCHERONI) 6 15 = if y < 4.5 then .zero else .value y := by
  have one : ∀ (x a b : ℝ), 1 < x → (4.5 ≤ x → moliereG C x ≤ a) → 0 ≤ moliereG C x → a ≤ 1 → a ^ 2 / 8 ≤ b →
      ∃ y, 1 < y ∧ (4.5 ≤ y → moliereG C y ≤ b) ∧ 0 ≤ moliereG C y ∧
        ∀ m, bLoop (C - 1 + 2 * EULER_MASCHERONI) (m + 1) x = bLoop (C - 1 + 2 * EULER_MASCHERONI) m y := by
    intro x a b hx hxa h0 ha hb
    have hx1 : 0 < x - 1 := by linarith
    obtain ⟨_, q1, q2, q3, _⟩ := step_right C x (moliereG C x / (x - 1)) hC hx (by field_simp) (by positivity)
    refine ⟨_, q1, ?_, q3, fun m => bLoop_step C x m hx⟩
    intro h
    exact step_size C x a b hC (h.trans q2) h0 (hxa (h.trans q2)) ha hb
  obtain ⟨y2, a2, b2, c2, l2⟩ := two_steps C hC
  obtain ⟨y3, a3, b3, c3, l3⟩ := one y2 (1 / 8) (1 / 512) a2 b2 c2 (by norm_num) (by norm_num)
  obtain ⟨y4, a4, b4, c4, l4⟩ := one y3 (1 / 512) 4.8e-7 a3 b3 c3 (by norm_num) (by norm_num)
  obtain ⟨y5, a5, b5, c5, l5⟩ := one y4 4.8e-7 2.9e-14 a4 b4 c4 (by norm_num) (by norm_num)
  obtain ⟨y6, a6, b6, c6, l6⟩ := one y5 2.9e-14 1e-27 a5 b5 c5 (by norm_num) (by norm_num)
  refine ⟨y6, a6, b6, c6, ?_⟩
  exact (l2 4).trans ((l3 3).trans ((l4 2).trans ((l5 1).trans (l6 0))))

theorem last_steps' (l : ℝ) (hC : 1 ≤ l + 1 - 2 * EULER_MASCHERONI) :
    ∃ y, 1 < y ∧ (4.5 ≤ y → moliereG (l + 1 - 2 * EULER_MASCHERONI) y ≤ 1e-27) ∧ 0 ≤ moliereG (l + 1 - 2 * EULER_MASCHERONI) y ∧
    bLoop l 6 15 = if y < 4.5 then .zero else .value y := by
  have h := last_steps _ hC
  rwa [show l + 1 - 2 * EULER_MASCHERONI - 1 + 2 * EULER_MASCHERONI = l by ring] at h

/-- `x - ln x` grows above 1. -/
private theorem grow {x y : ℝ} (hx : 1 < x) (hxy : x < y) : 0 < (y - Real.log y) - (x - Real.log x) := by
  have h : Real.log (y / x) < y / x - 1 := by
    have hq : 0 < y / x := by apply div_pos <;> linarith
    have := Real.add_one_lt_exp (x := Real.log (y / x)) (by
      have : 1 < y / x := by rw [lt_div_iff₀ (by linarith)]; linarith
      exact (Real.log_pos this).ne')
    rw [Real.exp_log hq] at this
    linarith
  rw [Real.log_div (by linarith) (by linarith)] at h
  have e : y / x - 1 = (y - x) / x := by field_simp
  have h2 : (y - x) / x < y - x := div_lt_self (by linarith) hx
  linarith

/-- C110: whenever the equation `B - ln B = ln (χ_c² / χ_a²) + 1 - 2 γ` of Molière's theory has a solution of at least 4.5, the
iteration ends with a value at and at most 2e-27 above the solution. -/
theorem C110_solves (l B : ℝ) (hB : 4.5 ≤ B) (h : B - Real.log B = l + 1 - 2 * EULER_MASCHERONI) :
    ∃ b, bLoop l 6 15 = .value b ∧ B ≤ b ∧ b ≤ B + 2e-27 := by
  have hB1 : 1 < B := lt_of_lt_of_le (by norm_num) hB
  have hB0 : 0 < B := by linarith
  set C := l + 1 - 2 * EULER_MASCHERONI with hCd
  have hl : l = C - 1 + 2 * EULER_MASCHERONI := by rw [hCd]; ring
  have hC : 1 ≤ C := by
    rw [← h]
    have := Real.log_le_sub_one_of_pos hB0
    linarith
  obtain ⟨y, h1, h2, h3, h4⟩ := last_steps C hC
  rw [← hl] at h4
  have hBy : B ≤ y := by
    by_contra hcon
    push Not at hcon
    have := grow h1 hcon
    unfold moliereG at h3
    linarith
  have hy45 : 4.5 ≤ y := hB.trans hBy
  refine ⟨y, by rw [h4, if_neg (by linarith)], hBy, ?_⟩
  have h5 := h2 hy45
  unfold moliereG at h5
  have hq : 0 < y / B := by apply div_pos <;> linarith
  have h6 := Real.log_le_sub_one_of_pos hq
  rw [Real.log_div (by linarith) hB0.ne'] at h6
  have h7 : y / B - 1 = (y - B) / B := by field_simp
  have h8 : (y - B) / B ≤ (y - B) / 4.5 := by
    apply div_le_div_of_nonneg_left (by linarith) (by norm_num) hB
  norm_num at h5 h8 ⊢
  linarith

/-- C110: if there is a solution of at least 1, but (up to 1e-27) none of 4.5 or more, there is no scattering. -/
theorem C110_thin (l : ℝ) (h1 : 1 ≤ l + 1 - 2 * EULER_MASCHERONI) (h2 : l + 1 - 2 * EULER_MASCHERONI < 4.5 - Real.log 4.5 - 1e-27) :
    bLoop l 6 15 = .zero := by
  set C := l + 1 - 2 * EULER_MASCHERONI with hCd
  have hl : l = C - 1 + 2 * EULER_MASCHERONI := by rw [hCd]; ring
  obtain ⟨y, a1, a2, a3, a4⟩ := last_steps C h1
  rw [← hl] at a4
  rw [a4]
  split_ifs with hy
  · rfl
  · exfalso
    push Not at hy
    have h5 := a2 hy
    unfold moliereG at h5
    rcases hy.eq_or_lt with h | h
    · rw [← h] at h5; linarith
    · have := grow (by norm_num) h
      linarith

/-- C110: such a solution exists for all thicknesses of at least the one of 4.5. -/
example : ∃ l B : ℝ, 4.5 ≤ B ∧ B - Real.log B = l + 1 - 2 * EULER_MASCHERONI :=
  ⟨10 - Real.log 10 - 1 + 2 * EULER_MASCHERONI, 10, by norm_num, by ring⟩

/-! ## Thin layers -/

/-- The step for the parameter `c = 2 γ - ln (χ_c² / χ_a²)`. -/
noncomputable def Spec.thinStep (c x : ℝ) : ℝ := x * (c - Real.log x) / (1 - x)

private theorem bStep_thin (c x : ℝ) : bStep (2 * EULER_MASCHERONI - c) x = thinStep c x := by
  unfold bStep thinStep
  rw [mul_div_assoc]
  congr 2
  ring

private theorem thinStep_mono {c c' x y : ℝ} (hx : 0 < x) (hxy : x ≤ y) (hy : y < 1) (hc : 1 ≤ c) (hcc : c ≤ c') : thinStep c x ≤ thinStep c' y := by
  unfold thinStep
  have hy0 : 0 < y := by linarith
  have hlx : Real.log x ≤ 0 := Real.log_nonpos hx.le (by linarith)
  have hly : Real.log y ≤ 0 := Real.log_nonpos hy0.le hy.le
  have key : x * (c - Real.log x) ≤ y * (c' - Real.log y) := by
    have h1 : Real.log (y / x) ≤ y / x - 1 := Real.log_le_sub_one_of_pos (by positivity)
    rw [Real.log_div hy0.ne' hx.ne'] at h1
    have h2 : x * (Real.log y - Real.log x) ≤ y - x := by
      have := mul_le_mul_of_nonneg_left h1 hx.le
      have e : x * (y / x - 1) = y - x := by field_simp
      linarith
    nlinarith [mul_nonneg (sub_nonneg.2 hxy) (neg_nonneg.2 hly), mul_nonneg (sub_nonneg.2 hxy) (sub_nonneg.2 hc),
      mul_nonneg hy0.le (sub_nonneg.2 hcc)]
  apply div_le_div₀ _ key (by linarith) (by linarith)
  apply mul_nonneg hy0.le
  linarith

private theorem thinStep_pos {c x : ℝ} (hx : 0 < x) (hx1 : x < 1) (hc : 0 ≤ c) : 0 < thinStep c x := by
  unfold thinStep
  have := Real.log_neg hx hx1
  apply div_pos (mul_pos hx (by linarith)) (by linarith)

private theorem thinStep_exp (c : ℝ) (k : ℕ) : thinStep c (Real.exp (-k)) = Real.exp (-k) * (c + k) / (1 - Real.exp (-k)) := by
  unfold thinStep
  rw [Real.log_exp]
  ring

private theorem thinStep_le {c x b : ℝ} (k : ℕ) (hk : 1 ≤ k) (hx : 0 < x) (hxk : x ≤ Real.exp (-k)) (hc : 1 ≤ c)
    (h : Real.exp (-k) * (c + k) ≤ b * (1 - Real.exp (-k))) : thinStep c x ≤ b := by
  have hk1 : Real.exp (-k) < 1 := by
    rw [Real.exp_lt_one_iff]
    have : (1 : ℝ) ≤ k := by exact_mod_cast hk
    linarith
  refine (thinStep_mono hx hxk hk1 hc le_rfl).trans ?_
  rw [thinStep_exp, div_le_iff₀ (by linarith)]
  exact h

private theorem le_thinStep {c x b : ℝ} (k : ℕ) (hxk : Real.exp (-k) ≤ x) (hx : x < 1) (hc : 1 ≤ c)
    (h : b * (1 - Real.exp (-k)) ≤ Real.exp (-k) * (c + k)) : b ≤ thinStep c x := by
  have hk1 : Real.exp (-k) < 1 := by linarith
  refine le_trans ?_ (thinStep_mono (Real.exp_pos _) hxk hx hc le_rfl)
  rw [thinStep_exp, le_div_iff₀ (by linarith)]
  exact h

private theorem exp_int (k : ℕ) : (0.36787 : ℝ) ^ k ≤ Real.exp (-k) ∧ Real.exp (-k) ≤ (0.36788 : ℝ) ^ k := by
  have h1 := Real.exp_neg_one_gt_d9
  have h2 := Real.exp_neg_one_lt_d9
  have e : Real.exp (-(k : ℝ)) = Real.exp (-1) ^ k := by rw [← Real.exp_nat_mul]; congr 1; ring
  rw [e]
  constructor <;> apply pow_le_pow_left₀ <;> first | (norm_num at h1 h2 ⊢; linarith) | positivity

/-- The parameter for which the first step gives `s`. -/
noncomputable def Spec.thinC (s : ℝ) : ℝ := Real.log 15 - 14 / 15 * s

private theorem thinC_bounds {s : ℝ} (h0 : 0 < s) (h1 : s ≤ Real.exp (-7)) : 2.69 ≤ thinC s ∧ thinC s ≤ 2.711 := by
  obtain ⟨a, b⟩ := log15
  have h7 := (exp_int 7).2
  norm_num at h7
  unfold thinC
  norm_num at a b ⊢
  constructor <;> linarith

/-- The values after two, three and four steps are between 0 and 1. -/
private theorem thin_below {s : ℝ} (h0 : 0 < s) (h1 : s ≤ Real.exp (-7)) :
    let c := thinC s
    (0 < thinStep c s ∧ thinStep c s ≤ Real.exp (-4)) ∧
    (0 < thinStep c (thinStep c s) ∧ thinStep c (thinStep c s) ≤ Real.exp (-2)) ∧
    (0 < thinStep c (thinStep c (thinStep c s)) ∧ thinStep c (thinStep c (thinStep c s)) ≤ 0.8) := by
  intro c
  obtain ⟨c0, c1⟩ := thinC_bounds h0 h1
  have hc : 1 ≤ c := le_trans (by norm_num) c0
  have e7 := (exp_int 7).2
  have e4 := exp_int 4
  have e2 := exp_int 2
  have p7 := Real.exp_pos (-7)
  have p4 := Real.exp_pos (-4)
  have p2 := Real.exp_pos (-2)
  norm_num at e7 e4 e2
  have l4 : Real.exp (-4) < 1 := by rw [Real.exp_lt_one_iff]; norm_num
  have l2 : Real.exp (-2) < 1 := by rw [Real.exp_lt_one_iff]; norm_num
  have l7 : Real.exp (-7) < 1 := by rw [Real.exp_lt_one_iff]; norm_num
  have hc' : c ≤ 3 := le_trans c1 (by norm_num)
  have a1 : 0 < thinStep c s := thinStep_pos h0 (by linarith) (by linarith)
  have a2 : thinStep c s ≤ Real.exp (-4) := by
    refine thinStep_le 7 (by norm_num) h0 (by exact_mod_cast h1) hc ?_
    push_cast
    nlinarith
  have b1 : 0 < thinStep c (thinStep c s) := thinStep_pos a1 (by linarith) (by linarith)
  have b2 : thinStep c (thinStep c s) ≤ Real.exp (-2) := by
    refine thinStep_le 4 (by norm_num) a1 (by exact_mod_cast a2) hc ?_
    push_cast
    nlinarith
  have d1 : 0 < thinStep c (thinStep c (thinStep c s)) := thinStep_pos b1 (by linarith) (by linarith)
  have d2 : thinStep c (thinStep c (thinStep c s)) ≤ 0.8 := by
    refine thinStep_le 2 (by norm_num) b1 (by exact_mod_cast b2) hc ?_
    push_cast
    norm_num
    nlinarith
  exact ⟨⟨a1, a2⟩, ⟨b1, b2⟩, d1, d2⟩

/-- The value after five steps. -/
noncomputable def Spec.thinFive (s : ℝ) : ℝ :=
  thinStep (thinC s) (thinStep (thinC s) (thinStep (thinC s) (thinStep (thinC s) s)))

private theorem thinFive_low : thinFive (Real.exp (-10)) ≤ 0.75 := by
  have e10 := exp_int 10
  have e7 := exp_int 7
  have e4 := exp_int 4
  have e2 := exp_int 2
  norm_num at e10 e7 e4 e2
  have p10 := Real.exp_pos (-10)
  have h107 : Real.exp (-10) ≤ Real.exp (-7) := Real.exp_le_exp.2 (by norm_num)
  obtain ⟨c0, c1⟩ := thinC_bounds p10 h107
  obtain ⟨⟨a1, _⟩, ⟨b1, _⟩, d1, _⟩ := thin_below p10 h107
  unfold thinFive
  set c := thinC (Real.exp (-10))
  have hc : 1 ≤ c := le_trans (by norm_num) c0
  norm_num at c1
  have x2 : thinStep c (Real.exp (-10)) ≤ Real.exp (-7) := by
    refine thinStep_le 10 (by norm_num) p10 (by norm_num) hc ?_
    push_cast
    nlinarith
  have x3 : thinStep c (thinStep c (Real.exp (-10))) ≤ Real.exp (-4) := by
    refine thinStep_le 7 (by norm_num) a1 (by exact_mod_cast x2) hc ?_
    push_cast
    nlinarith
  have x4 : thinStep c (thinStep c (thinStep c (Real.exp (-10)))) ≤ Real.exp (-2) := by
    refine thinStep_le 4 (by norm_num) b1 (by exact_mod_cast x3) hc ?_
    push_cast
    nlinarith
  refine thinStep_le 2 (by norm_num) d1 (by exact_mod_cast x4) hc ?_
  push_cast
  norm_num
  nlinarith

private theorem thinFive_high : 1.2 ≤ thinFive (Real.exp (-7)) := by
  have e7 := exp_int 7
  have e5 := exp_int 5
  have e3 := exp_int 3
  have e4 := exp_int 4
  have e2 := exp_int 2
  norm_num at e7 e5 e3 e4 e2
  have p7 := Real.exp_pos (-7)
  obtain ⟨c0, c1⟩ := thinC_bounds p7 le_rfl
  obtain ⟨⟨a1, a2⟩, ⟨b1, b2⟩, d1, d2⟩ := thin_below p7 le_rfl
  unfold thinFive
  set c := thinC (Real.exp (-7))
  have hc : 1 ≤ c := le_trans (by norm_num) c0
  norm_num at c0 d2
  have x2 : Real.exp (-5) ≤ thinStep c (Real.exp (-7)) := by
    refine le_thinStep 7 (by norm_num) (by linarith) hc ?_
    push_cast
    nlinarith
  have x3 : Real.exp (-3) ≤ thinStep c (thinStep c (Real.exp (-7))) := by
    refine le_thinStep 5 (by exact_mod_cast x2) (by linarith) hc ?_
    push_cast
    nlinarith
  have x4 : 1 / 4 ≤ thinStep c (thinStep c (thinStep c (Real.exp (-7)))) := by
    refine le_thinStep 3 (by exact_mod_cast x3) (by linarith) hc ?_
    push_cast
    nlinarith
  refine le_trans ?_ (thinStep_mono (by norm_num) x4 (by linarith) hc le_rfl)
  have l4 : Real.log (1 / 4) = -(2 * Real.log 2) := by
    rw [one_div, Real.log_inv, show (4 : ℝ) = 2 ^ 2 by norm_num, Real.log_pow]; norm_num
  have l2 := Real.log_two_gt_d9
  unfold thinStep
  rw [l4]
  norm_num at l2 ⊢
  linarith

private theorem thinStep_continuousOn {S : Set ℝ} {f : ℝ → ℝ} (hf : ContinuousOn f S) (h : ∀ s ∈ S, 0 < f s ∧ f s < 1) :
    ContinuousOn (fun s => thinStep (thinC s) (f s)) S := by
  unfold thinStep thinC
  apply ContinuousOn.div
  · apply hf.mul
    apply ContinuousOn.sub (by fun_prop)
    exact hf.log fun s hs => (h s hs).1.ne'
  · exact continuousOn_const.sub hf
  · intro s hs
    have := (h s hs).2
    linarith

private theorem thinFive_value (v : ℝ) (h1 : 0.75 ≤ v) (h2 : v ≤ 1.2) : ∃ s, 0 < s ∧ s ≤ Real.exp (-7) ∧ thinFive s = v := by
  have h107 : Real.exp (-10) ≤ Real.exp (-7) := Real.exp_le_exp.2 (by norm_num)
  have l4 : Real.exp (-4) < 1 := by rw [Real.exp_lt_one_iff]; norm_num
  have l2 : Real.exp (-2) < 1 := by rw [Real.exp_lt_one_iff]; norm_num
  have l7 : Real.exp (-7) < 1 := by rw [Real.exp_lt_one_iff]; norm_num
  have pos : ∀ s ∈ Set.Icc (Real.exp (-10)) (Real.exp (-7)), 0 < s := fun s hs => (Real.exp_pos _).trans_le hs.1
  have k1 : ContinuousOn (fun s => thinStep (thinC s) s) (Set.Icc (Real.exp (-10)) (Real.exp (-7))) :=
    thinStep_continuousOn continuousOn_id fun s hs => ⟨pos s hs, by show s < 1; linarith [hs.2]⟩
  have k2 := thinStep_continuousOn k1 fun s hs => ⟨(thin_below (pos s hs) hs.2).1.1, by linarith [(thin_below (pos s hs) hs.2).1.2]⟩
  have k3 := thinStep_continuousOn k2 fun s hs => ⟨(thin_below (pos s hs) hs.2).2.1.1, by linarith [(thin_below (pos s hs) hs.2).2.1.2]⟩
  have k4 := thinStep_continuousOn k3 fun s hs => ⟨(thin_below (pos s hs) hs.2).2.2.1, by
    have := (thin_below (pos s hs) hs.2).2.2.2
    norm_num at this
    linarith⟩
  have := intermediate_value_Icc h107 k4
  obtain ⟨s, hs, e⟩ := this ⟨thinFive_low.trans h1, h2.trans thinFive_high⟩
  exact ⟨s, pos s hs, hs.2, e⟩

private theorem bLoop_thin (c x : ℝ) (n : ℕ) (h0 : 0 < x) (h1 : x ≠ 1) :
    bLoop (2 * EULER_MASCHERONI - c) (n + 1) x = bLoop (2 * EULER_MASCHERONI - c) n (thinStep c x) := by
  rw [bLoop, if_neg (by linarith), if_neg h1, bStep_thin]

private theorem bLoop_five {s : ℝ} (h0 : 0 < s) (h1 : s ≤ Real.exp (-7)) :
    bLoop (2 * EULER_MASCHERONI - thinC s) 6 15 = bLoop (2 * EULER_MASCHERONI - thinC s) 1 (thinFive s) := by
  have l4 : Real.exp (-4) < 1 := by rw [Real.exp_lt_one_iff]; norm_num
  have l2 : Real.exp (-2) < 1 := by rw [Real.exp_lt_one_iff]; norm_num
  have l7 : Real.exp (-7) < 1 := by rw [Real.exp_lt_one_iff]; norm_num
  obtain ⟨⟨a1, a2⟩, ⟨b1, b2⟩, d1, d2⟩ := thin_below h0 h1
  norm_num at d2
  have first : thinStep (thinC s) 15 = s := by
    unfold thinStep thinC
    field_simp
    ring
  refine (bLoop_thin _ 15 5 (by norm_num) (by norm_num)).trans ?_
  rw [first]
  refine (bLoop_thin _ s 4 h0 (by linarith)).trans ?_
  refine (bLoop_thin _ _ 3 a1 (by linarith)).trans ?_
  refine (bLoop_thin _ _ 2 b1 (by linarith)).trans ?_
  exact bLoop_thin _ _ 1 d1 (by linarith)

/-- C110 fails for thin layers: below `ln (χ_c² / χ_a²) = 2 γ` the equation has no solution, but the iteration can end with
arbitrarily large values, and with an infinity. -/
theorem C110_spurious (K : ℝ) : (∃ l b, -2 ≤ l ∧ l ≤ -1.5 ∧ bLoop l 6 15 = .value b ∧ K ≤ b) ∧ (∃ l, -2 ≤ l ∧ l ≤ -1.5 ∧ bLoop l 6 15 = .infinite) ∧
    ∀ l B, 0 < B → l < 2 * EULER_MASCHERONI → B - Real.log B ≠ l + 1 - 2 * EULER_MASCHERONI := by
  have hle : ∀ s, 0 < s → s ≤ Real.exp (-7) → -2 ≤ 2 * EULER_MASCHERONI - thinC s ∧ 2 * EULER_MASCHERONI - thinC s ≤ -1.5 := by
    intro s h0 h1
    obtain ⟨h, h'⟩ := thinC_bounds h0 h1
    norm_num [EULER_MASCHERONI] at h h' ⊢
    constructor <;> linarith
  refine ⟨?_, ?_, ?_⟩
  · set d := 1 / (|K| + 8) with hd
    have hK := abs_nonneg K
    have hd0 : 0 < d := by positivity
    have hd1 : d ≤ 1 / 8 := by
      rw [hd]
      apply div_le_div_of_nonneg_left <;> linarith
    obtain ⟨s, h0, h1, h2⟩ := thinFive_value (1 - d) (by norm_num; linarith) (by norm_num; linarith)
    have hc := (thinC_bounds h0 h1).1
    norm_num at hc
    have hb : |K| + 8 ≤ thinStep (thinC s) (1 - d) := by
      unfold thinStep
      have hlog : Real.log (1 - d) ≤ 0 := Real.log_nonpos (by linarith) (by linarith)
      rw [show (1 : ℝ) - (1 - d) = d by ring, le_div_iff₀ hd0]
      have : (|K| + 8) * d = 1 := by rw [hd]; field_simp
      rw [this]
      nlinarith
    refine ⟨2 * EULER_MASCHERONI - thinC s, thinStep (thinC s) (1 - d), (hle s h0 h1).1, (hle s h0 h1).2, ?_, by linarith [le_abs_self K]⟩
    rw [bLoop_five h0 h1, h2, bLoop_thin _ _ 0 (by linarith) (by linarith), bLoop, if_neg]
    norm_num
    linarith
  · obtain ⟨s, h0, h1, h2⟩ := thinFive_value 1 (by norm_num) (by norm_num)
    have hc := (thinC_bounds h0 h1).1
    norm_num at hc
    refine ⟨2 * EULER_MASCHERONI - thinC s, (hle s h0 h1).1, (hle s h0 h1).2, ?_⟩
    rw [bLoop_five h0 h1, h2, bLoop, if_neg (by norm_num), if_pos rfl, if_pos ⟨rfl, by linarith⟩]
  · intro l B hB hl h
    have := Real.log_le_sub_one_of_pos hB
    linarith

/-- C110 fails for thin layers: in every material of one kind of atoms and at every energy above the mass there is a thickness with
less than one collision on average (`χ_c² < χ_a²`), for which the typical angle is beyond any bound. -/
theorem C110_thin_layer (mass ei z zSqA wzz wsum K : ℝ) (hm : 0 ≤ mass) (hE : mass < ei) (hz : 0 < z) (hZ : 0 < zSqA) (chi0 : ℝ) (bs0 : List ℝ) :
    ∃ g pre, 0 < g ∧ chiCSqOf mass zSqA ei g < chiASq mass ei z ∧ K ≤ pre ∧
      ((⟨mass, zSqA, [z], [wzz], wsum, 0, chi0, bs0⟩ : Moliere).getPrefactor ei g).2 = some pre := by
  have hp2 : 0 < (ei - mass) * (ei + mass) := mul_pos (by linarith) (by linarith)
  have he : 0 < ei := by linarith
  have hME : 0 < ME := by norm_num [ME]
  have hAL : 0 < ALPHA := by norm_num [ALPHA]
  have hA : 0 < chiASq mass ei z := by
    unfold chiASq
    simp only
    have : 0 ≤ mass * mass / ((ei - mass) * (ei + mass)) := by positivity
    have h1 : (0 : ℝ) < z * 128 / (9 * Real.pi * Real.pi) := by positivity
    have h2 := Real.rpow_pos_of_pos h1 (1 / 3)
    positivity
  have hk : ∃ k : ℝ, 0 < k ∧ ∀ g, chiCSqOf mass zSqA ei g = k * g := by
    refine ⟨4 * Real.pi * NAvogadro * ALPHA * ALPHA * HBAR * HBAR * SPEED * SPEED /
      ((ei - mass) * (ei + mass) / ei * ((ei - mass) * (ei + mass) / ei)) * zSqA, ?_, fun g => ?_⟩
    · have h1 : 0 < NAvogadro := by norm_num [NAvogadro]
      have h2 : 0 < HBAR := by norm_num [HBAR]
      have h3 : 0 < SPEED := by norm_num [SPEED]
      positivity
    · unfold chiCSqOf
      simp only
      ring
  obtain ⟨k, hk0, hk⟩ := hk
  obtain ⟨⟨l, b, hl', hl, hb, hK⟩, _⟩ := C110_spurious (max (K ^ 2 / (chiASq mass ei z * Real.exp (-2))) 0)
  set chiA := chiASq mass ei z with hchiA
  have hg : chiCSqOf mass zSqA ei (chiA * Real.exp l / k) = chiA * Real.exp l := by
    rw [hk]; field_simp
  have hpos : 0 < chiA * Real.exp l := mul_pos hA (Real.exp_pos _)
  refine ⟨chiA * Real.exp l / k, Real.sqrt (chiA * Real.exp l * b), by positivity, ?_, ?_, ?_⟩
  · rw [hg]
    have : Real.exp l < 1 := by rw [Real.exp_lt_one_iff]; norm_num at hl; linarith
    nlinarith
  · apply Real.le_sqrt_of_sq_le
    have h1 := (le_max_left _ _).trans hK
    have h0 := (le_max_right _ _).trans hK
    rw [div_le_iff₀ (mul_pos hA (Real.exp_pos _))] at h1
    have h2 : Real.exp (-2) ≤ Real.exp l := Real.exp_le_exp.2 hl'
    have h3 : b * (chiA * Real.exp (-2)) ≤ b * (chiA * Real.exp l) := by gcongr
    linarith
  · unfold Moliere.getPrefactor
    simp only [hg]
    rw [if_neg (by linarith)]
    have hlog : Real.log (chiA * Real.exp l / chiASq mass ei z) = l := by
      rw [← hchiA, mul_div_cancel_left₀ _ hA.ne', Real.log_exp]
    simp [bLoops, hlog, hb]

end Proposal
