import Verif.Props.PhotoQ2Structure
import Verif.Props.PhotoproductionRate
import Mathlib.Analysis.Real.Pi.Bounds
import Mathlib.Analysis.SpecialFunctions.Log.Basic

/-!
# C130: photonuclear interaction, shadowing in nuclei
-/

namespace Proposal

/-! ## Dutta, Reno, Sarcevic and Seckel -/

theorem dutta_log {x y a b : ℝ} (hx : 0 < x) (h : x ≤ y) (hy : 69 * Real.log y ≤ (a - b) * Real.log 10) :
    0.069 * Real.log x / Real.log 10 + b / 1000 ≤ a / 1000 := by
  have hl : 0 < Real.log 10 := Real.log_pos (by norm_num)
  have h1 := Real.log_le_log hx h
  have : 0.069 * Real.log x / Real.log 10 ≤ (a - b) / 1000 := by
    rw [div_le_iff₀ hl]
    nlinarith
  linarith

theorem dutta_log' {x y a b : ℝ} (hx : 0 < x) (h : x ≤ y) (hy : (a - b) * Real.log 10 ≤ 69 * Real.log x) :
    a / 1000 ≤ 0.069 * Real.log y / Real.log 10 + b / 1000 := by
  have hl : 0 < Real.log 10 := Real.log_pos (by norm_num)
  have h1 := Real.log_le_log hx h
  have : (a - b) / 1000 ≤ 0.069 * Real.log y / Real.log 10 := by
    rw [le_div_iff₀ hl]
    nlinarith
  linarith

theorem dutta_num1 : 69 * Real.log 0.039 ≤ (0 - 97) * Real.log 10 := by
  have h : Real.log ((0.039 : ℝ) ^ 69 * 10 ^ 97) ≤ 0 := Real.log_nonpos (by positivity) (by norm_num)
  rw [Real.log_mul (by positivity) (by positivity), Real.log_pow, Real.log_pow] at h
  push_cast at h
  linarith

theorem dutta_num2 : (0 - 97) * Real.log 10 < 69 * Real.log 0.0394 := by
  have h : 0 < Real.log ((0.0394 : ℝ) ^ 69 * 10 ^ 97) := Real.log_pos (by norm_num)
  rw [Real.log_mul (by positivity) (by positivity), Real.log_pow, Real.log_pow] at h
  push_cast at h
  linarith

theorem dutta_num3 : (-100 - 97) * Real.log 10 ≤ 69 * Real.log 0.0014 := by
  have h : 0 ≤ Real.log ((0.0014 : ℝ) ^ 69 * 10 ^ 197) := Real.log_nonneg (by norm_num)
  rw [Real.log_mul (by positivity) (by positivity), Real.log_pow, Real.log_pow] at h
  push_cast at h
  linarith

theorem dutta_num4 : 69 * Real.log 0.04 ≤ (1 - 97) * Real.log 10 := by
  have h : Real.log ((0.04 : ℝ) ^ 69 * 10 ^ 96) ≤ 0 := Real.log_nonpos (by positivity) (by norm_num)
  rw [Real.log_mul (by positivity) (by positivity), Real.log_pow, Real.log_pow] at h
  push_cast at h
  linarith

/-- C130: the shadowing of Dutta et al. is between `A^(-1/10)`, reached for small `x`, and `A^(1/1000)`; up to `x = 0.039` it never
enhances the structure function, it increases with `x` below 0.04 and is absent from there on. -/
theorem C130_shadow_dutta (c : Component) (x nu : ℝ) (hx : 0 < x) (hA : 1 ≤ c.atomicNum) :
    (c.nucCharge = 1 → Shadow.factor .dutta c x nu = 1) ∧
    c.atomicNum ^ (-0.1 : ℝ) ≤ Shadow.factor .dutta c x nu ∧ Shadow.factor .dutta c x nu ≤ c.atomicNum ^ (0.001 : ℝ) ∧
    (x ≤ 0.039 → Shadow.factor .dutta c x nu ≤ 1) ∧ (0.04 ≤ x → Shadow.factor .dutta c x nu = 1) ∧
    (∀ y, x ≤ y → y < 0.04 → Shadow.factor .dutta c x nu ≤ Shadow.factor .dutta c y nu) := by
  have hA0 : 0 < c.atomicNum := by linarith
  have l1 : c.atomicNum ^ (-0.1 : ℝ) ≤ 1 := Real.rpow_le_one_of_one_le_of_nonpos hA (by norm_num)
  have l2 : 1 ≤ c.atomicNum ^ (0.001 : ℝ) := Real.one_le_rpow hA (by norm_num)
  have low : ∀ x : ℝ, 0.0014 ≤ x → c.atomicNum ^ (-0.1 : ℝ) ≤ c.atomicNum ^ (0.069 * Real.log x / Real.log 10 + 0.097) := by
    intro x hx
    apply Real.rpow_le_rpow_of_exponent_le hA
    have := dutta_log' (by norm_num) hx dutta_num3
    norm_num at this ⊢
    linarith
  simp only [Shadow.factor]
  unfold shadowDutta
  refine ⟨fun h => if_pos h, ?_, ?_, ?_, ?_, ?_⟩
  · split_ifs with h1 h2 h3
    · exact l1
    · exact le_rfl
    · exact low x (not_lt.mp h2)
    · exact l1
  · split_ifs with h1 h2 h3
    · exact l2
    · exact l1.trans l2
    · apply Real.rpow_le_rpow_of_exponent_le hA
      have := dutta_log hx h3.le dutta_num4
      norm_num at this ⊢
      linarith
    · exact l2
  · intro h
    split_ifs with h1 h2 h3
    · exact le_rfl
    · exact l1
    · apply Real.rpow_le_one_of_one_le_of_nonpos hA
      have := dutta_log hx h dutta_num1
      norm_num at this ⊢
      linarith
    · exact le_rfl
  · intro h
    rw [if_neg (show ¬ x < 0.0014 by norm_num at h ⊢; linarith), if_neg (not_lt.mpr h)]
    simp
  · intro y hy hy4
    by_cases h1 : c.nucCharge = 1
    · simp [h1]
    rw [if_neg h1, if_neg h1, if_pos (lt_of_le_of_lt hy hy4), if_pos hy4]
    by_cases h2 : x < 0.0014
    · rw [if_pos h2]
      split_ifs with h3
      · exact le_rfl
      · exact low y (not_lt.mp h3)
    · rw [if_neg h2, if_neg (show ¬ y < 0.0014 by linarith)]
      apply Real.rpow_le_rpow_of_exponent_le hA
      have hl : 0 < Real.log 10 := Real.log_pos (by norm_num)
      have := Real.log_le_log hx hy
      gcongr

/-- C130 fails near the end of the shadowing region: between 0.0394 and 0.04 the factor exceeds one, for every nucleus but hydrogen. -/
theorem C130_shadow_enhances (c : Component) (x nu : ℝ) (h0 : 0.0394 ≤ x) (h1 : x < 0.04) (hZ : c.nucCharge ≠ 1) (hA : 1 < c.atomicNum) :
    1 < Shadow.factor .dutta c x nu := by
  simp only [Shadow.factor]
  unfold shadowDutta
  rw [if_neg hZ, if_neg (show ¬ x < 0.0014 by norm_num at h0 ⊢; linarith), if_pos h1]
  apply Real.one_lt_rpow hA
  have hl : 0 < Real.log 10 := Real.log_pos (by norm_num)
  have h2 := Real.log_le_log (by norm_num) h0
  have h3 := dutta_num2
  have : -0.097 < 0.069 * Real.log x / Real.log 10 := by
    rw [lt_div_iff₀ hl]
    norm_num at *
    linarith
  linarith

/-! ## Butkevich and Mikheyev -/

/-- C130: the Wood-Saxon factor of a component other than hydrogen with a mass number from that of helium on is between zero and one. -/
theorem C130_wood_saxon (H : Hasher) (name : List Byte) (z a n : ℝ) (hz : z ≠ 1) (ha : 4 ≤ a) :
    0 < (mkComp H name z a n).woodSaxon ∧ (mkComp H name z a n).woodSaxon < 1 := by
  simp only [mkComp]
  rw [if_neg hz]
  unfold woodSaxonOf
  simp only
  set r := a ^ (1 / 3 : ℝ) with hr
  have hr3 : r ^ 3 = a := by
    rw [hr, ← Real.rpow_natCast, ← Real.rpow_mul (by linarith)]
    norm_num
  have hr0 : 0 ≤ r := Real.rpow_nonneg (by linarith) _
  have hr1 : 1.58 ≤ r := by
    by_contra h
    push Not at h
    have : r ^ 3 ≤ 1.58 ^ 3 := pow_le_pow_left₀ hr0 h.le 3
    norm_num at this
    linarith
  have hrp : 0 < r := by linarith
  obtain ⟨s, hs⟩ : ∃ s, s = 1 / r := ⟨_, rfl⟩
  have hrs : r * s = 1 := by rw [hs]; field_simp
  have hs0 : 0 < s := by rw [hs]; positivity
  have hs1 : s ≤ 0.633 := by
    rw [hs, div_le_iff₀ hrp]
    linarith
  have e : 0.86 / r = 0.86 * s := by rw [hs]; ring
  rw [e]
  set r0 := 1.12 * r - 0.86 * s with hr0'
  have hr0p : 0 < r0 := by rw [hr0']; nlinarith
  have hpi := Real.pi_gt_three
  have hpi' := Real.pi_lt_d2
  have hl0 := Real.log_pos (show (1 : ℝ) < 2 by norm_num)
  have hl1 := Real.log_two_lt_d9
  have hz : 0 < ZETA3 := by norm_num [ZETA3]
  have hpot : 0 < woodSaxonPotential r0 := by
    unfold woodSaxonPotential
    positivity
  have hub : woodSaxonPotential r0 ≤ 0.54 * (r0 * r0 * 0.6932 + 0.54 * r0 * 3.15 * 3.15 / 6 + 0.54 * 0.54 * 1.5 * 1.2021) := by
    unfold woodSaxonPotential
    have : ZETA3 ≤ 1.2021 := by norm_num [ZETA3]
    gcongr
    norm_num at hl1 ⊢
    linarith
  have hub' : 4 * Real.pi * 0.17 * woodSaxonPotential r0 ≤
      4 * 3.15 * 0.17 * (0.54 * (r0 * r0 * 0.6932 + 0.54 * r0 * 3.15 * 3.15 / 6 + 0.54 * 0.54 * 1.5 * 1.2021)) := by
    gcongr
  have hlt : 4 * 3.15 * 0.17 * (0.54 * (r0 * r0 * 0.6932 + 0.54 * r0 * 3.15 * 3.15 / 6 + 0.54 * 0.54 * 1.5 * 1.2021)) < r ^ 3 := by
    have e2 : r0 * r0 = 1.2544 * r ^ 2 - 1.9264 + 0.7396 * s ^ 2 := by
      rw [hr0']
      linear_combination (-1.9264) * hrs
    rw [e2, hr0']
    norm_num
    nlinarith [mul_nonneg hrp.le (sub_nonneg.mpr hr1), mul_nonneg (mul_nonneg hrp.le hrp.le) (sub_nonneg.mpr hr1),
      mul_nonneg (sub_nonneg.mpr hr1) (sub_nonneg.mpr hr1), mul_nonneg hs0.le (sub_nonneg.mpr hs1)]
  have ha0 : 0 < a := by linarith
  constructor
  · rw [sub_pos, div_lt_one ha0, ← hr3]
    linarith
  · have : 0 < 4 * Real.pi * 0.17 * woodSaxonPotential r0 / a := by positivity
    linarith

theorem shadow_low (c : Component) (nu : ℝ) (hA : 0 < c.atomicNum) (hn : 0 < nu) : 1 / 4 < shadowLow c nu ∧ shadowLow c nu < 1 := by
  unfold shadowLow
  simp only
  have a1 := Real.rpow_pos_of_pos (show 0 < nu * 1e-3 by positivity) 0.0988
  have a2 := Real.rpow_pos_of_pos (show 0 < nu * 1e-3 by positivity) (-0.5944)
  have a3 := Real.rpow_pos_of_pos hA (1 / 3)
  set τ := 0.00282 * c.atomicNum ^ (1 / 3 : ℝ) * (112.2 * (0.609 * (nu * 1e-3) ^ (0.0988 : ℝ) + 1.037 * (nu * 1e-3) ^ (-0.5944 : ℝ))) with hτ
  have ht : 0 < τ := by rw [hτ]; positivity
  obtain ⟨h1, h2, -, -⟩ := shadowNum_bounds ht
  have e : 3 / τ * (0.5 + ((1 + τ) * Real.exp (-τ) - 1) / (τ * τ)) = 3 * shadowNum τ / τ ^ 3 := by
    unfold shadowNum
    field_simp
    ring
  rw [e]
  have b1 : 0 < 3 * shadowNum τ / τ ^ 3 := by positivity
  have b2 : 3 * shadowNum τ / τ ^ 3 < 1 := by
    rw [div_lt_one (by positivity)]
    linarith
  constructor <;> linarith

theorem shadow_emc (c : Component) (x : ℝ) (hw0 : 0 < c.woodSaxon) (hw1 : c.woodSaxon < 1) (hM : 900 ≤ c.averageNucleonWeight)
    (hM' : c.averageNucleonWeight ≤ 1000) (h0 : 0.3 < x) (h1 : x < 1) : 0.7 < shadowEmc c x := by
  unfold shadowEmc
  simp only
  have hx : 0 < 1 - x := by linarith
  have hM0 : 0 < c.averageNucleonWeight := by linarith
  have k0 : 0.139 ≤ MPI / c.averageNucleonWeight := by
    rw [le_div_iff₀ hM0]
    norm_num [MPI]
    linarith
  have k1 : MPI / c.averageNucleonWeight ≤ 0.1552 := by
    rw [div_le_iff₀ hM0]
    norm_num [MPI]
    linarith
  set k := MPI / c.averageNucleonWeight
  set u := 1 / (1 - x) with hu
  have hac : (1 / (1 - 0.278) : ℝ) = 500 / 361 := by norm_num
  rw [hac]
  set w := c.woodSaxon
  have hb : u - 500 / 361 - k * (u * u - 500 / 361 * (500 / 361)) ≤ 0.681 := by
    have hu1 : 500 / 361 ≤ u := by
      rw [hu, le_div_iff₀ hx]
      norm_num at h0 ⊢
      linarith
    have hu2 : 0 ≤ u * u - 500 / 361 * (500 / 361) := by nlinarith
    have := mul_le_mul_of_nonneg_right k0 hu2
    nlinarith [sq_nonneg (u - 3.6)]
  set q := u - 500 / 361 - k * (u * u - 500 / 361 * (500 / 361))
  have hf0 : 0 < 1 - 0.5 * x := by norm_num; linarith
  have hf1 : 1 - 0.5 * x < 1 := by norm_num; linarith
  have hq : (1 - 0.5 * x) * q ≤ 0.681 := by
    rcases le_or_gt q 0 with h | h
    · nlinarith
    · nlinarith
  have : 0.437 * w * ((1 - 0.5 * x) * q) < 0.3 := by
    rcases le_or_gt ((1 - 0.5 * x) * q) 0 with h | h
    · have : 0.437 * w * ((1 - 0.5 * x) * q) ≤ 0 := mul_nonpos_of_nonneg_of_nonpos (by positivity) h
      linarith
    · have : w * ((1 - 0.5 * x) * q) ≤ 1 * 0.681 := mul_le_mul hw1.le hq h.le (by norm_num)
      norm_num at this ⊢
      linarith
  linarith

theorem shadow_x0 (c : Component) (nu : ℝ) (hA : 0 < c.atomicNum) (hn : 0 < nu) (hw0 : 0 < c.woodSaxon) :
    0 < shadowX0 c nu ∧ shadowX0 c nu < 1 ∧ shadowX0 c nu ^ (0.129 * c.woodSaxon) * (1 + 0.456 * c.woodSaxon) = shadowLow c nu := by
  obtain ⟨l0, l1⟩ := shadow_low c nu hA hn
  unfold shadowX0
  simp only
  have hd : 0 < 1 + 0.456 * c.woodSaxon := by positivity
  have hq : 0 < shadowLow c nu / (1 + 0.456 * c.woodSaxon) := div_pos (by linarith) hd
  have hq1 : shadowLow c nu / (1 + 0.456 * c.woodSaxon) < 1 := by
    rw [div_lt_one hd]
    have : 0 < 0.456 * c.woodSaxon := by positivity
    linarith
  refine ⟨Real.rpow_pos_of_pos hq _, Real.rpow_lt_one hq.le hq1 (by positivity), ?_⟩
  rw [← Real.rpow_mul hq.le]
  have : 1 / (0.129 * c.woodSaxon) * (0.129 * c.woodSaxon) = 1 := by field_simp
  rw [this, Real.rpow_one]
  field_simp

theorem shadow_x0_le (c : Component) (nu : ℝ) (hA : 0 < c.atomicNum) (hn : 0 < nu) (hw0 : 0 < c.woodSaxon) (hw1 : c.woodSaxon < 1) :
    shadowX0 c nu < 0.1 := by
  obtain ⟨l0, l1⟩ := shadow_low c nu hA hn
  obtain ⟨x0, -, -⟩ := shadow_x0 c nu hA hn hw0
  have hd : 0 < 1 + 0.456 * c.woodSaxon := by positivity
  have hl : 0 < shadowLow c nu := by linarith
  have hq : 0 < shadowLow c nu / (1 + 0.456 * c.woodSaxon) := div_pos hl hd
  have hlog : Real.log (shadowX0 c nu) < Real.log 0.1 := by
    unfold shadowX0
    simp only
    rw [Real.log_rpow hq, Real.log_div hl.ne' hd.ne']
    have a1 : Real.log (shadowLow c nu) < 0 := Real.log_neg hl l1
    have a2 : 1 - (1 + 0.456 * c.woodSaxon)⁻¹ ≤ Real.log (1 + 0.456 * c.woodSaxon) := Real.one_sub_inv_le_log_of_pos hd
    have a3 : 0.31 * c.woodSaxon ≤ 1 - (1 + 0.456 * c.woodSaxon)⁻¹ := by
      have : 1 - (1 + 0.456 * c.woodSaxon)⁻¹ = 0.456 * c.woodSaxon / (1 + 0.456 * c.woodSaxon) := by
        field_simp
        ring
      rw [this, le_div_iff₀ hd]
      nlinarith [mul_pos hw0 (sub_pos.mpr hw1)]
    have a4 : Real.log 0.1 = - Real.log 10 := by
      rw [show (0.1 : ℝ) = 10⁻¹ by norm_num, Real.log_inv]
    have a5 : Real.log 10 < 2.4 := by
      have h : Real.log ((10 : ℝ) ^ 5) < Real.log (Real.exp 1 ^ 12) := by
        apply Real.log_lt_log (by positivity)
        calc (10 : ℝ) ^ 5 < 2.7182818283 ^ 12 := by norm_num
          _ ≤ _ := by gcongr; exact Real.exp_one_gt_d9.le
      rw [Real.log_pow, Real.log_pow, Real.log_exp] at h
      push_cast at h
      linarith
    rw [a4, div_mul_eq_mul_div, one_mul, div_lt_iff₀ (by positivity)]
    nlinarith
  exact (Real.log_lt_log_iff x0 (by norm_num)).mp hlog

/-- C130: the shadowing of Butkevich and Mikheyev is positive for `0 < x < 1`: below `x₀` between 1/4 and 1 and independent of `x`,
from there to 0.3 between a fifth and one and a half, and above 0.7 for larger `x`. -/
theorem C130_shadow_butkevich (c : Component) (x nu : ℝ) (hx : 0 < x) (hx1 : x < 1) (hn : 0 < nu) (hA : 0 < c.atomicNum)
    (hw0 : 0 < c.woodSaxon) (hw1 : c.woodSaxon < 1) (hM : 900 ≤ c.averageNucleonWeight) (hM' : c.averageNucleonWeight ≤ 1000) :
    (c.nucCharge = 1 → Shadow.factor .butkevichMikheyev c x nu = 1) ∧
    (c.nucCharge ≠ 1 → x ≤ 0.3 → x < shadowX0 c nu →
      1 / 4 < Shadow.factor .butkevichMikheyev c x nu ∧ Shadow.factor .butkevichMikheyev c x nu < 1 ∧
      ∀ y, y < x → Shadow.factor .butkevichMikheyev c y nu = Shadow.factor .butkevichMikheyev c x nu) ∧
    (c.nucCharge ≠ 1 → x ≤ 0.3 → shadowX0 c nu ≤ x →
      1 / 5 < Shadow.factor .butkevichMikheyev c x nu ∧ Shadow.factor .butkevichMikheyev c x nu < 3 / 2) ∧
    (c.nucCharge ≠ 1 → 0.3 < x → 0.7 < Shadow.factor .butkevichMikheyev c x nu) := by
  obtain ⟨l0, l1⟩ := shadow_low c nu hA hn
  obtain ⟨x0, x1, x2⟩ := shadow_x0 c nu hA hn hw0
  simp only [Shadow.factor]
  unfold shadowBm
  refine ⟨fun h => if_pos h, ?_, ?_, ?_⟩
  · intro h1 h2 h3
    rw [if_neg h1, if_neg (not_lt.mpr h2), if_neg (not_le.mpr h3)]
    refine ⟨l0, l1, fun y hy => ?_⟩
    rw [if_neg h1, if_neg (not_lt.mpr (hy.le.trans h2)), if_neg (not_le.mpr (hy.trans h3))]
  · intro h1 h2 h3
    rw [if_neg h1, if_neg (not_lt.mpr h2), if_pos h3]
    unfold shadowMid
    simp only
    have a1 : shadowX0 c nu ^ (0.129 * c.woodSaxon) ≤ x ^ (0.129 * c.woodSaxon) := Real.rpow_le_rpow x0.le h3 (by positivity)
    have a2 : x ^ (0.129 * c.woodSaxon) ≤ 1 := Real.rpow_le_one hx.le hx1.le (by positivity)
    have hp : 0 < 0.456 * c.woodSaxon := by positivity
    have hp' : 0.456 * c.woodSaxon < 0.456 := by norm_num; linarith
    have b1 : shadowLow c nu ≤ x ^ (0.129 * c.woodSaxon) * (1 + 0.456 * c.woodSaxon) := by
      rw [← x2]
      exact mul_le_mul_of_nonneg_right a1 (by linarith)
    have b2 : x ^ (0.129 * c.woodSaxon) * (1 + 0.456 * c.woodSaxon) < 3 / 2 := by
      have : x ^ (0.129 * c.woodSaxon) * (1 + 0.456 * c.woodSaxon) ≤ 1 * (1 + 0.456 * c.woodSaxon) :=
        mul_le_mul_of_nonneg_right a2 (by linarith)
      norm_num at *
      linarith
    have d0 : 0 < 0.553 * c.woodSaxon * x := by positivity
    have d1 : 0.553 * c.woodSaxon * x < 0.2 := by
      have : c.woodSaxon * x ≤ 1 * 0.3 := mul_le_mul hw1.le h2 hx.le (by norm_num)
      norm_num at this ⊢
      linarith
    set f := x ^ (0.129 * c.woodSaxon) * (1 + 0.456 * c.woodSaxon)
    set g := 0.553 * c.woodSaxon * x
    constructor
    · nlinarith
    · nlinarith
  · intro h1 h2
    rw [if_neg h1, if_pos h2]
    exact shadow_emc c x hw0 hw1 hM hM' h2 hx1

/-- C130 fails for the continuity of this shadowing: `x₀` is chosen as if the last factor of the formula above it were absent, so that
there, below `x = 0.1`, the factor drops from its constant value by the fraction `0.553 w x₀`. -/
theorem C130_shadow_drop (c : Component) (nu : ℝ) (hn : 0 < nu) (hA : 0 < c.atomicNum) (hw0 : 0 < c.woodSaxon) (hw1 : c.woodSaxon < 1)
    (hZ : c.nucCharge ≠ 1) : 0 < shadowX0 c nu ∧ shadowX0 c nu < 0.1 ∧
    (∀ x, x < shadowX0 c nu → Shadow.factor .butkevichMikheyev c (shadowX0 c nu) nu =
      (1 - 0.553 * c.woodSaxon * shadowX0 c nu) * Shadow.factor .butkevichMikheyev c x nu) ∧
    ¬ ContinuousAt (fun x => Shadow.factor .butkevichMikheyev c x nu) (shadowX0 c nu) := by
  obtain ⟨l0, l1⟩ := shadow_low c nu hA hn
  obtain ⟨x0, x1, x2⟩ := shadow_x0 c nu hA hn hw0
  have h10 := shadow_x0_le c nu hA hn hw0 hw1
  have h3 : shadowX0 c nu ≤ 0.3 := h10.le.trans (by norm_num)
  have below : ∀ x, x < shadowX0 c nu → Shadow.factor .butkevichMikheyev c x nu = shadowLow c nu := by
    intro x hx
    simp only [Shadow.factor]
    unfold shadowBm
    rw [if_neg hZ, if_neg (not_lt.mpr (hx.le.trans h3)), if_neg (not_le.mpr hx)]
  have at0 : Shadow.factor .butkevichMikheyev c (shadowX0 c nu) nu = (1 - 0.553 * c.woodSaxon * shadowX0 c nu) * shadowLow c nu := by
    simp only [Shadow.factor]
    unfold shadowBm
    rw [if_neg hZ, if_neg (not_lt.mpr h3), if_pos le_rfl]
    unfold shadowMid
    simp only
    rw [x2]
    ring
  refine ⟨x0, h10, fun x hx => by rw [at0, below x hx], fun hc => ?_⟩
  have h1 : Filter.Tendsto (fun x => Shadow.factor .butkevichMikheyev c x nu) (nhdsWithin (shadowX0 c nu) (Set.Iio (shadowX0 c nu)))
      (nhds (Shadow.factor .butkevichMikheyev c (shadowX0 c nu) nu)) := hc.tendsto.mono_left nhdsWithin_le_nhds
  have h2 : Filter.Tendsto (fun x => Shadow.factor .butkevichMikheyev c x nu) (nhdsWithin (shadowX0 c nu) (Set.Iio (shadowX0 c nu)))
      (nhds (shadowLow c nu)) := by
    apply Filter.Tendsto.congr' _ tendsto_const_nhds
    filter_upwards [self_mem_nhdsWithin] with x hx
    exact (below x hx).symm
  have := tendsto_nhds_unique h1 h2
  rw [at0] at this
  have : 0 < 0.553 * c.woodSaxon * shadowX0 c nu * shadowLow c nu := by
    have : 0 < shadowLow c nu := by linarith
    positivity
  linarith

/-- An atom of oxygen with a Wood-Saxon factor in the range of `C130_wood_saxon`. -/
noncomputable def exOxWs : Component := { exOx with woodSaxon := 1 / 2 }

example : 0 < exOxWs.atomicNum ∧ 1 < exOxWs.atomicNum ∧ 0 < exOxWs.woodSaxon ∧ exOxWs.woodSaxon < 1 ∧
    900 ≤ exOxWs.averageNucleonWeight ∧ exOxWs.averageNucleonWeight ≤ 1000 ∧ exOxWs.nucCharge ≠ 1 := by
  norm_num [exOxWs, exOx]

/-- Both of the first cases of `C130_shadow_butkevich` occur. -/
example : ∃ x y : ℝ, 0 < x ∧ x < shadowX0 exOxWs 1000 ∧ shadowX0 exOxWs 1000 ≤ y ∧ y ≤ 0.3 := by
  have a : 0 < exOxWs.atomicNum := by norm_num [exOxWs, exOx]
  have b : 0 < exOxWs.woodSaxon := by norm_num [exOxWs, exOx]
  have d : exOxWs.woodSaxon < 1 := by norm_num [exOxWs, exOx]
  have h := shadow_x0 exOxWs 1000 a (by norm_num) b
  have h' := shadow_x0_le exOxWs 1000 a (by norm_num) b d
  exact ⟨shadowX0 exOxWs 1000 / 2, 0.3, by linarith [h.1], by linarith [h.1], by norm_num at h' ⊢; linarith, le_rfl⟩

end Proposal
