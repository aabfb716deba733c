import Verif.Model.NuclearCross
import Verif.Props.PhotoproductionRate
import Mathlib.MeasureTheory.Integral.IntegralEqImproper
import Mathlib.Analysis.SpecialFunctions.Log.Base

/-!
# C120: photonuclear interactions by real photons, C121: weak interactions
-/

open Filter Topology MeasureTheory

namespace Proposal

/-! ## Shadowing -/

/-- C120: the shadowing of the photonuclear interaction is the one of photo production. -/
theorem C120_shadowing (σ : ℝ) (c : Component) : realShadowing σ c = shadowing σ c := by
  unfold realShadowing shadowing
  by_cases hZ : c.nucCharge = 1
  · rw [if_pos hZ, if_pos hZ]
  · rw [if_neg hZ, if_neg hZ]
    simp only
    by_cases hx : 0.00282 * c.atomicNum ^ (1 / 3 : ℝ) * σ = 0
    · rw [if_pos hx, if_pos hx]
    · rw [if_neg hx, if_neg hx]
      set x := 0.00282 * c.atomicNum ^ (1 / 3 : ℝ) * σ
      congr 1
      field_simp
      ring

/-! ## The formula -/

/-- The squared mass of the particle and the smallest virtuality of the photon, in GeV². -/
noncomputable def Spec.mu2 (m : ℝ) : ℝ := (m / 1000) ^ 2
noncomputable def Spec.tMin (m v : ℝ) : ℝ := Spec.mu2 m * v ^ 2 / (1 - v)

/-- The flux of virtual photons of virtuality `x`, up to a factor. -/
noncomputable def Spec.flux (m v x : ℝ) : ℝ := (1 + 2 * (1 - v) / v ^ 2) / x - 2 * Spec.mu2 m / x ^ 2

lemma mu2_pos {m : ℝ} (hm : 0 < m) : 0 < Spec.mu2 m := by unfold Spec.mu2; positivity

lemma tMin_pos {m v : ℝ} (hm : 0 < m) (h0 : 0 < v) (h1 : v < 1) : 0 < Spec.tMin m v := by
  have := mu2_pos hm
  have : 0 < 1 - v := by linarith
  unfold Spec.tMin
  positivity

/-- Above the smallest virtuality the flux is positive. -/
lemma flux_pos {m v x : ℝ} (hm : 0 < m) (h0 : 0 < v) (h1 : v < 1) (hx : Spec.tMin m v ≤ x) : 0 < Spec.flux m v x := by
  have ht := tMin_pos hm h0 h1
  have hx0 : 0 < x := ht.trans_le hx
  have hv : 0 < 1 - v := by linarith
  have hmu := mu2_pos hm
  unfold Spec.tMin at hx
  rw [div_le_iff₀ hv] at hx
  have e : Spec.flux m v x = ((1 + 2 * (1 - v) / v ^ 2) * x - 2 * Spec.mu2 m) / x ^ 2 := by
    unfold Spec.flux
    field_simp
  rw [e]
  apply div_pos _ (by positivity)
  have : (1 + 2 * (1 - v) / v ^ 2) * x - 2 * Spec.mu2 m = (v ^ 2 * x + 2 * (x * (1 - v) - Spec.mu2 m * v ^ 2)) / v ^ 2 := by
    field_simp
    ring
  rw [this]
  apply div_pos _ (by positivity)
  have : 0 < v ^ 2 * x := by positivity
  linarith

lemma log_ratio_deriv {a x : ℝ} (ha : 0 < a) (hx : 0 < x) : HasDerivAt (fun x => Real.log (1 + a / x)) (-(a / (x * (a + x)))) x := by
  have h1 : HasDerivAt (fun x : ℝ => 1 + a / x) (-(a / x ^ 2)) x := by
    refine (((hasDerivAt_inv hx.ne').const_mul a).const_add 1).congr_deriv ?_
    field_simp
  have hp : 1 + a / x ≠ 0 := by positivity
  refine (h1.log hp).congr_deriv ?_
  field_simp
  ring

lemma log_ratio_tendsto (a : ℝ) : Tendsto (fun x : ℝ => Real.log (1 + a / x)) atTop (𝓝 0) := by
  have h1 : Tendsto (fun x : ℝ => 1 + a / x) atTop (𝓝 1) := by
    simpa using (tendsto_const_nhds (x := (1 : ℝ))).add ((tendsto_const_nhds (x := a)).div_atTop tendsto_id)
  simpa using h1.log one_ne_zero

/-- The continuum: one propagator. -/
lemma integral_single {κ μ a t : ℝ} (ha : 0 < a) (ht : 0 < t) (hp : ∀ x, t ≤ x → 0 ≤ κ / x - 2 * μ / x ^ 2) :
    ∫ x in Set.Ioi t, (κ / x - 2 * μ / x ^ 2) * (a / (a + x)) = (κ + 2 * μ / a) * Real.log (1 + a / t) - 2 * μ / t := by
  have hd : ∀ x ∈ Set.Ici t, HasDerivAt (fun x => -((κ + 2 * μ / a) * Real.log (1 + a / x) - 2 * μ * x⁻¹))
      ((κ / x - 2 * μ / x ^ 2) * (a / (a + x))) x := by
    intro x hx
    have hx0 : 0 < x := ht.trans_le hx
    refine (((log_ratio_deriv ha hx0).const_mul (κ + 2 * μ / a)).sub ((hasDerivAt_inv hx0.ne').const_mul (2 * μ))).neg.congr_deriv ?_
    have : a + x ≠ 0 := by positivity
    field_simp
    ring
  have hl : Tendsto (fun x : ℝ => -((κ + 2 * μ / a) * Real.log (1 + a / x) - 2 * μ * x⁻¹)) atTop (𝓝 0) := by
    simpa using (((log_ratio_tendsto a).const_mul (κ + 2 * μ / a)).sub (tendsto_inv_atTop_zero.const_mul (2 * μ))).neg
  rw [integral_Ioi_of_hasDerivAt_of_nonneg' hd (fun x hx => mul_nonneg (hp x (le_of_lt hx)) (by
    have : 0 < x := ht.trans hx
    positivity)) hl]
  ring

/-- The resonances: two propagators. -/
lemma integral_double {κ μ a t : ℝ} (ha : 0 < a) (ht : 0 < t) (hp : ∀ x, t ≤ x → 0 ≤ κ / x - 2 * μ / x ^ 2) :
    ∫ x in Set.Ioi t, (κ / x - 2 * μ / x ^ 2) * (a / (a + x)) ^ 2 =
      (κ + 4 * μ / a) * Real.log (1 + a / t) - κ * a / (a + t) - 2 * μ / t - 2 * μ / (a + t) := by
  have hd : ∀ x ∈ Set.Ici t, HasDerivAt
      (fun x => -((κ + 4 * μ / a) * Real.log (1 + a / x) - κ * a * (a + x)⁻¹ - 2 * μ * x⁻¹ - 2 * μ * (a + x)⁻¹))
      ((κ / x - 2 * μ / x ^ 2) * (a / (a + x)) ^ 2) x := by
    intro x hx
    have hx0 : 0 < x := ht.trans_le hx
    have hax : a + x ≠ 0 := by positivity
    have hi : HasDerivAt (fun x : ℝ => (a + x)⁻¹) (-(1 / (a + x) ^ 2)) x := by
      refine (((hasDerivAt_id x).const_add a).inv hax).congr_deriv ?_
      simp [div_eq_mul_inv]
    refine (((((log_ratio_deriv ha hx0).const_mul (κ + 4 * μ / a)).sub (hi.const_mul (κ * a))).sub
      ((hasDerivAt_inv hx0.ne').const_mul (2 * μ))).sub (hi.const_mul (2 * μ))).neg.congr_deriv ?_
    field_simp
    ring
  have hi : Tendsto (fun x : ℝ => (a + x)⁻¹) atTop (𝓝 0) := tendsto_inv_atTop_zero.comp (tendsto_atTop_add_const_left _ a tendsto_id)
  have hl : Tendsto (fun x : ℝ => -((κ + 4 * μ / a) * Real.log (1 + a / x) - κ * a * (a + x)⁻¹ - 2 * μ * x⁻¹ - 2 * μ * (a + x)⁻¹))
      atTop (𝓝 0) := by
    simpa using (((((log_ratio_tendsto a).const_mul (κ + 4 * μ / a)).sub (hi.const_mul (κ * a))).sub
      (tendsto_inv_atTop_zero.const_mul (2 * μ))).sub (hi.const_mul (2 * μ))).neg
  rw [integral_Ioi_of_hasDerivAt_of_nonneg' hd (fun x hx => mul_nonneg (hp x (le_of_lt hx)) (by positivity)) hl]
  ring

/-- C120: the formula is the flux of virtual photons integrated over all virtualities, with two propagators of squared mass 0.54 for
the shadowed part and one of 1.8 for the rest, plus terms proportional to the squared mass of the particle. -/
theorem C120_formula (m v G : ℝ) (hm : 0 < m) (h0 : 0 < v) (h1 : v < 1) :
    bugaevShlepin m v G =
      3 * G * ((∫ x in Set.Ioi (Spec.tMin m v), Spec.flux m v x * (0.54 / (0.54 + x)) ^ 2) +
        2 * Spec.mu2 m / Spec.tMin m v * ((0.54 - 3 * Spec.tMin m v) / (0.54 + Spec.tMin m v))) +
      ((∫ x in Set.Ioi (Spec.tMin m v), Spec.flux m v x * (1.8 / (1.8 + x))) +
        2 * Spec.mu2 m / Spec.tMin m v * (1.8 / Spec.tMin m v * Real.log (1 + Spec.tMin m v / 1.8))) := by
  have ht := tMin_pos hm h0 h1
  have hp : ∀ x, Spec.tMin m v ≤ x → 0 ≤ (1 + 2 * (1 - v) / v ^ 2) / x - 2 * Spec.mu2 m / x ^ 2 := fun x hx =>
    (flux_pos hm h0 h1 hx).le
  unfold Spec.flux
  rw [integral_single (by norm_num) ht hp, integral_double (by norm_num) ht hp]
  have e1 : v * m * 1e-3 * (v * m * 1e-3) / (1 - v) = Spec.tMin m v := by
    unfold Spec.tMin Spec.mu2
    norm_num
    ring
  have e2 : m * 1e-3 * (m * 1e-3) = Spec.mu2 m := by
    unfold Spec.mu2
    norm_num
    ring
  have e3 : 1 - 2 / v + 2 / (v * v) = 1 + 2 * (1 - v) / v ^ 2 := by
    field_simp
    ring
  unfold bugaevShlepin
  simp only
  rw [e1, e2, e3]
  set t := Spec.tMin m v
  set κ := 1 + 2 * (1 - v) / v ^ 2
  set μ := Spec.mu2 m
  have h8 : (1.80 : ℝ) = 1.8 := by norm_num
  rw [h8]
  have hq : (0.54 - 3 * t) / (0.54 + t) = (0.54 - 4 * t) / (0.54 + t) + t / (0.54 + t) := by
    rw [← add_div]
    congr 1
    ring
  have hs : 2 * μ / t * (t / (0.54 + t)) = 2 * μ / (0.54 + t) := by
    have : 0.54 + t ≠ 0 := by positivity
    field_simp
  rw [hq]
  linear_combination (-3 * G) * hs

/-! ## Sign -/

/-- The shadowed and the other part in terms of `q = μ² / t` and `y = 0.54 / t`. -/
lemma bugaev_parts (m v G : ℝ) (hm : 0 < m) (h0 : 0 < v) (h1 : v < 1) :
    ∃ q y, 0 < q ∧ 0 < y ∧ q = (1 - v) / v ^ 2 ∧ Spec.mu2 m * y = 0.54 * q ∧
      bugaevShlepin m v G = 3 * G * ((1 + 2 * q) * (Real.log (1 + y) - y / (1 + y)) + 4 * (q / y) * Real.log (1 + y) - 10 * q / (1 + y)) +
        ((1 + 2 * q) * Real.log (1 + 10 / 3 * y) +
          2 * q * (Real.log (1 + 10 / 3 * y) / (10 / 3 * y) - 1 + 10 / 3 * y * Real.log (1 + 1 / (10 / 3 * y)))) := by
  have ht := tMin_pos hm h0 h1
  have hmu := mu2_pos hm
  have hv : 0 < 1 - v := by linarith
  refine ⟨Spec.mu2 m / Spec.tMin m v, 0.54 / Spec.tMin m v, by positivity, by positivity, ?_, ?_, ?_⟩
  · unfold Spec.tMin
    field_simp
  · field_simp
  have hp : ∀ x, Spec.tMin m v ≤ x → 0 ≤ (1 + 2 * (1 - v) / v ^ 2) / x - 2 * Spec.mu2 m / x ^ 2 := fun x hx =>
    (flux_pos hm h0 h1 hx).le
  rw [C120_formula m v G hm h0 h1]
  unfold Spec.flux
  rw [integral_single (by norm_num) ht hp, integral_double (by norm_num) ht hp]
  have eκ : 1 + 2 * (1 - v) / v ^ 2 = 1 + 2 * (Spec.mu2 m / Spec.tMin m v) := by
    unfold Spec.tMin
    field_simp
  rw [eκ]
  set t := Spec.tMin m v
  set μ := Spec.mu2 m
  have e1 : 1 + 10 / 3 * (0.54 / t) = 1 + 1.8 / t := by norm_num; ring
  have e2 : 1 + 1 / (10 / 3 * (0.54 / t)) = 1 + t / 1.8 := by
    norm_num
    field_simp
    norm_num
  rw [e1, e2]
  set L := Real.log (1 + 0.54 / t)
  set L2 := Real.log (1 + 1.8 / t)
  set L3 := Real.log (1 + t / 1.8)
  have h54 : 0.54 + t ≠ 0 := by positivity
  have h54' : 1 + 0.54 / t ≠ 0 := by positivity
  norm_num at h54 h54' ⊢
  field_simp
  ring

/-- C120 holds up to particles of 173 MeV (electrons, muons and pions): the differential cross section is positive. -/
theorem C120_positive_partial (m v G : ℝ) (hm : 0 < m) (hm' : m ≤ 173) (h0 : 0 < v) (h1 : v < 1) (hG : 0 ≤ G) (hG' : G ≤ 1) :
    0 < bugaevShlepin m v G := by
  obtain ⟨q, y, hq, hy, _, hr, e⟩ := bugaev_parts m v G hm h0 h1
  have hmu : Spec.mu2 m ≤ 0.03 := by
    unfold Spec.mu2
    have : m / 1000 ≤ 0.173 := by norm_num; linarith
    have : 0 ≤ m / 1000 := by positivity
    norm_num at *
    nlinarith
  have hqy : 18 * q ≤ y := by
    norm_num at hr hmu
    nlinarith
  have hL : y / (1 + y) ≤ Real.log (1 + y) := by
    have := Real.one_sub_inv_le_log_of_pos (show 0 < 1 + y by positivity)
    have e : y / (1 + y) = 1 - (1 + y)⁻¹ := by field_simp; ring
    rw [e]; exact this
  have hL2 : y / (1 + y) < Real.log (1 + 10 / 3 * y) := by
    refine hL.trans_lt (Real.log_lt_log (by positivity) (by linarith))
  set z := 10 / 3 * y with hz
  have hz0 : 0 < z := by positivity
  have hL2' : z / (1 + z) ≤ Real.log (1 + z) := by
    have := Real.one_sub_inv_le_log_of_pos (show 0 < 1 + z by positivity)
    have e : z / (1 + z) = 1 - (1 + z)⁻¹ := by field_simp; ring
    rw [e]; exact this
  have hL3 : 1 / (1 + z) ≤ Real.log (1 + 1 / z) := by
    have := Real.one_sub_inv_le_log_of_pos (show 0 < 1 + 1 / z by positivity)
    have e : 1 / (1 + z) = 1 - (1 + 1 / z)⁻¹ := by field_simp; ring
    rw [e]; exact this
  have hbr : 0 ≤ Real.log (1 + z) / z - 1 + z * Real.log (1 + 1 / z) := by
    have a1 : 1 / (1 + z) ≤ Real.log (1 + z) / z := by
      rw [le_div_iff₀ hz0]
      calc 1 / (1 + z) * z = z / (1 + z) := by ring
        _ ≤ _ := hL2'
    have a2 : z / (1 + z) ≤ z * Real.log (1 + 1 / z) := by
      calc z / (1 + z) = z * (1 / (1 + z)) := by ring
        _ ≤ _ := by gcongr
    have a3 : 1 / (1 + z) + z / (1 + z) = 1 := by field_simp
    linarith
  have hB : y / (1 + y) < (1 + 2 * q) * Real.log (1 + z) + 2 * q * (Real.log (1 + z) / z - 1 + z * Real.log (1 + 1 / z)) := by
    have : 0 < Real.log (1 + z) := lt_trans (by positivity) hL2
    nlinarith [mul_nonneg (mul_nonneg zero_le_two hq.le) hbr, mul_pos hq this]
  have hA : -(y / (1 + y)) / 3 ≤ (1 + 2 * q) * (Real.log (1 + y) - y / (1 + y)) + 4 * (q / y) * Real.log (1 + y) - 10 * q / (1 + y) := by
    have a1 : 0 ≤ (1 + 2 * q) * (Real.log (1 + y) - y / (1 + y)) := mul_nonneg (by positivity) (by linarith)
    have a2 : 4 * (q / (1 + y)) ≤ 4 * (q / y) * Real.log (1 + y) := by
      calc 4 * (q / (1 + y)) = 4 * (q / y) * (y / (1 + y)) := by field_simp
        _ ≤ _ := by gcongr
    have a3 : 6 * (q / (1 + y)) ≤ y / (1 + y) / 3 := by
      have e1 : 6 * (q / (1 + y)) = (18 * q) / (1 + y) / 3 := by ring
      rw [e1]
      gcongr
    have e2 : 10 * q / (1 + y) = 10 * (q / (1 + y)) := by ring
    rw [e2]
    linarith
  rw [e]
  set A := (1 + 2 * q) * (Real.log (1 + y) - y / (1 + y)) + 4 * (q / y) * Real.log (1 + y) - 10 * q / (1 + y)
  have hyy : 0 < y / (1 + y) := by positivity
  nlinarith [mul_le_mul_of_nonneg_left hA (show 0 ≤ 3 * G by positivity)]

/-- C120 fails for tau leptons: on hydrogen the cross section is negative for all losses of half of the energy and more. -/
theorem C120_tau (v : ℝ) (h0 : 1 / 2 ≤ v) (h1 : v < 1) : bugaevShlepin MTAU v 1 < 0 := by
  obtain ⟨q, y, hq, hy, hqv, hr, e⟩ := bugaev_parts MTAU v 1 (by norm_num [MTAU]) (by linarith) h1
  have hq2 : q ≤ 2 := by
    rw [hqv, div_le_iff₀ (by positivity)]
    nlinarith
  have hyq : y ≤ 0.172 * q := by
    norm_num [Spec.mu2, MTAU] at hr ⊢
    linarith
  have hL : Real.log (1 + y) ≤ y := by
    have := Real.log_le_sub_one_of_pos (show 0 < 1 + y by positivity)
    linarith
  set z := 10 / 3 * y with hz
  have hz0 : 0 < z := by positivity
  have hL2 : Real.log (1 + z) ≤ z := by
    have := Real.log_le_sub_one_of_pos (show 0 < 1 + z by positivity)
    linarith
  have hL3 : z * Real.log (1 + 1 / z) ≤ 1 := by
    have := Real.log_le_sub_one_of_pos (show 0 < 1 + 1 / z by positivity)
    calc z * Real.log (1 + 1 / z) ≤ z * (1 / z) := by gcongr; linarith
      _ = 1 := by field_simp
  have hA : (1 + 2 * q) * (Real.log (1 + y) - y / (1 + y)) + 4 * (q / y) * Real.log (1 + y) - 10 * q / (1 + y) ≤
      ((1 + 2 * q) * y ^ 2 + 4 * q * (1 + y) - 10 * q) / (1 + y) := by
    have a1 : (1 + 2 * q) * (Real.log (1 + y) - y / (1 + y)) ≤ (1 + 2 * q) * (y - y / (1 + y)) := by gcongr
    have a2 : 4 * (q / y) * Real.log (1 + y) ≤ 4 * q := by
      calc 4 * (q / y) * Real.log (1 + y) ≤ 4 * (q / y) * y := by gcongr
        _ = 4 * q := by field_simp
    have a3 : ((1 + 2 * q) * y ^ 2 + 4 * q * (1 + y) - 10 * q) / (1 + y) = (1 + 2 * q) * (y - y / (1 + y)) + 4 * q - 10 * q / (1 + y) := by
      field_simp
      ring
    rw [a3]
    linarith
  have hB : (1 + 2 * q) * Real.log (1 + z) + 2 * q * (Real.log (1 + z) / z - 1 + z * Real.log (1 + 1 / z)) ≤ (1 + 2 * q) * z + 2 * q := by
    have a1 : (1 + 2 * q) * Real.log (1 + z) ≤ (1 + 2 * q) * z := by gcongr
    have a2 : Real.log (1 + z) / z ≤ 1 := by rw [div_le_one hz0]; exact hL2
    have a3 : 2 * q * (Real.log (1 + z) / z - 1 + z * Real.log (1 + 1 / z)) ≤ 2 * q * 1 := by
      apply mul_le_mul_of_nonneg_left _ (by positivity)
      linarith
    linarith
  rw [e]
  have hneg : 3 * (((1 + 2 * q) * y ^ 2 + 4 * q * (1 + y) - 10 * q) / (1 + y)) + ((1 + 2 * q) * z + 2 * q) < 0 := by
    have e3 : 3 * (((1 + 2 * q) * y ^ 2 + 4 * q * (1 + y) - 10 * q) / (1 + y)) + ((1 + 2 * q) * z + 2 * q) =
      (3 * ((1 + 2 * q) * y ^ 2 + 4 * q * (1 + y) - 10 * q) + ((1 + 2 * q) * z + 2 * q) * (1 + y)) / (1 + y) := by
      field_simp
    rw [e3]
    apply div_neg_of_neg_of_pos _ (by positivity)
    have hy1 : y ≤ 0.344 := by norm_num at hyq ⊢; linarith
    norm_num at hyq hy1
    have b1 : (1 + 2 * q) * y ≤ 5 * (43 / 250 * q) := by nlinarith
    have b2 : (1 + 2 * q) * y ^ 2 ≤ 5 * (43 / 250 * q) * (43 / 125) := by nlinarith [mul_nonneg (show 0 ≤ 1 + 2 * q by positivity) hy.le]
    rw [hz]
    nlinarith [mul_pos hq hy, mul_nonneg (show 0 ≤ 1 + 2 * q by positivity) hy.le]
  linarith

/-! ## The cross section -/

/-- C120: the lower kinematic limit is the threshold of photo production by a photon with the lost energy. -/
theorem C120_limit (m E v : ℝ) (c : Component) (hE : 0 < E) :
    (limPhotonuclear m c.averageNucleonWeight E).vMin ≤ v ↔ pionThreshold c ≤ v * E := by
  have e : (limPhotonuclear m c.averageNucleonWeight E).vMin = pionThreshold c / E := by
    unfold limPhotonuclear pionThreshold KinLim.raised
    simp only
    split_ifs <;> rfl
  rw [e, div_le_iff₀ hE]

/-- C120: for losses within the limits the cross section per mass is that of the nucleons of real photons of the lost energy times
the number of nucleons and the square of the charge; it is positive for particles of up to 173 MeV. -/
theorem C120_cross_partial (p : RealPhoton) (m z : ℝ) (c : Component) (E v : ℝ) (ha : Spec.IsAtom c) (hm : 0 < m) (h0 : 0 < v)
    (h1 : v < 1) (hσ : 0 < p.sigma (v * E) c) :
    ∃ G, 0 < G ∧ G ≤ 1 ∧ shadowing (p.sigma (v * E) c) c = some G ∧
      realPhotonCross p none m z c E v =
        some (NAvogadro * z ^ 2 * (p.sigma (v * E) c * 1e-30) * (ALPHA / (8 * Real.pi) * v * bugaevShlepin m v G)) ∧
      (z ≠ 0 → m ≤ 173 → ∃ s > 0, realPhotonCross p none m z c E v = some s) := by
  obtain ⟨k1, k2⟩ := C119_shadowing c (p.sigma (v * E) c) ha.2 hσ
  obtain ⟨G, hG0, hG1, hG⟩ : ∃ G, 0 < G ∧ G ≤ 1 ∧ shadowing (p.sigma (v * E) c) c = some G := by
    by_cases hZ : c.nucCharge = 1
    · exact ⟨1, one_pos, le_rfl, k1 hZ⟩
    · obtain ⟨g, e, g0, g1, _⟩ := k2 hZ
      exact ⟨g, g0, g1.le, e⟩
  have hA : c.atomicNum ≠ 0 := ha.2.ne'
  have e : realPhotonCross p none m z c E v =
        some (NAvogadro * z ^ 2 * (p.sigma (v * E) c * 1e-30) * (ALPHA / (8 * Real.pi) * v * bugaevShlepin m v G)) := by
    unfold realPhotonCross
    simp only
    rw [if_neg (by rintro (h | h | h) <;> linarith), C120_shadowing, hG, Option.map_some]
    congr 1
    set B := bugaevShlepin m v G
    field_simp
    ring
  refine ⟨G, hG0, hG1, hG, e, fun hz hm' => ⟨_, ?_, e⟩⟩
  have hB := C120_positive_partial m v G hm hm' h0 h1 hG0.le hG1
  have hn := na_pos'
  have hz2 : 0 < z ^ 2 := by positivity
  have hal : 0 < ALPHA := by norm_num [ALPHA]
  positivity

/-- C120 fails for tau leptons on hydrogen: negative cross sections within the kinematic limits. -/
theorem C120_tau_cross (p : RealPhoton) (z : ℝ) (c : Component) (E v : ℝ) (ha : Spec.IsAtom c) (hZ : c.nucCharge = 1) (h0 : 1 / 2 ≤ v)
    (h1 : v < 1) (hz : z ≠ 0) (hσ : 0 < p.sigma (v * E) c) : ∃ s < 0, realPhotonCross p none MTAU z c E v = some s := by
  obtain ⟨G, _, _, hG, e, _⟩ := C120_cross_partial p MTAU z c E v ha (by norm_num [MTAU]) (by linarith) h1 hσ
  rw [(C119_shadowing c _ ha.2 hσ).1 hZ, Option.some.injEq] at hG
  subst hG
  refine ⟨_, ?_, e⟩
  have hB := C120_tau v h0 h1
  have hn := na_pos'
  have hz2 : 0 < z ^ 2 := by positivity
  have hal : 0 < ALPHA := by norm_num [ALPHA]
  have hv : 0 < v := by linarith
  have h2 : ALPHA / (8 * Real.pi) * v * bugaevShlepin MTAU v 1 < 0 := mul_neg_of_pos_of_neg (by positivity) hB
  exact mul_neg_of_pos_of_neg (by positivity) h2

/-- The upper limit for tau leptons includes these losses at all energies from the lower limit on. -/
theorem C120_tau_limit (c : Component) (E : ℝ) (hE : 0 < E) (h : pionThreshold c ≤ E) :
    (limPhotonuclear MTAU c.averageNucleonWeight E).vMax = 1 := by
  have hnot : ¬ MTAU < MPI := by norm_num [MTAU, MPI]
  have h2 : pionThreshold c / E ≤ 1 := by rw [div_le_one hE]; exact h
  unfold pionThreshold at h2
  unfold limPhotonuclear KinLim.raised
  simp only [hnot, if_false]
  rw [if_neg (not_lt.2 h2)]

/-- C120 fails outside the limits: below the threshold the cross section is 0 for hydrogen, but not a number for all other atoms; at
`v = 1`, the upper limit for heavy particles, it is not a number. -/
theorem C120_outside (p : RealPhoton) (hard : Option (List (ℝ → ℝ))) (m z : ℝ) (c : Component) (E v : ℝ) :
    (v = 1 → realPhotonCross p hard m z c E v = none) ∧
    (c.nucCharge ≠ 1 → v * E < pionThreshold c → realPhotonCross p hard m z c E v = none) ∧
    (c.nucCharge = 1 → v * E < pionThreshold c → v ≠ 0 → v ≠ 1 → m ≠ 0 → realPhotonCross p none m z c E v = some 0) := by
  have hs : v * E < pionThreshold c → p.sigma (v * E) c = 0 := by
    intro h
    cases p <;> simp [RealPhoton.sigma, zeus, bezrukovBugaev, kokoulin, rhode, h]
  refine ⟨fun h => ?_, fun hZ h => ?_, fun hZ h n0 n1 nm => ?_⟩
  · unfold realPhotonCross
    simp only
    rw [if_pos (Or.inr (Or.inl h))]
  · unfold realPhotonCross
    simp only
    split_ifs
    · rfl
    · rw [hs h]
      simp [realShadowing, hZ]
  · unfold realPhotonCross
    simp only
    rw [if_neg (by simp [n0, n1, nm]), hs h]
    simp [realShadowing, hZ]

/-- C120: the cross sections the interaction is built from are positive from the threshold on. -/
theorem C120_sigma (p : RealPhoton) (c : Component) (E : ℝ) (hm : 0 < c.averageNucleonWeight) (hE : pionThreshold c ≤ E)
    (ht : ∀ table, p = .rhode table → ∀ x, pionThreshold c * 1e-3 ≤ x → x ≤ 200 → 0 < table x) : 0 < p.sigma E c := by
  obtain ⟨a1, a2, _, a4, a5⟩ := (C119_positive c E hm).2 hE
  cases p with
  | zeus => exact a1
  | bezrukovBugaev => exact a2
  | kokoulin => exact a4
  | rhode table => exact a5 table (ht table rfl)

/-! ## Hard component -/

lemma hardSum_eq (lov loe : ℝ) : ∀ (fs : List (ℝ → ℝ)) (aux : ℝ),
    hardSum lov loe aux fs = ∑ i : Fin fs.length, aux * lov ^ (i : ℕ) * fs[i] loe
  | [], aux => by simp [hardSum]
  | f :: fs, aux => by
    unfold hardSum
    rw [hardSum_eq lov loe fs (aux * lov)]
    simp only [List.length_cons]
    rw [Fin.sum_univ_succ]
    congr 1
    · simp only [Fin.val_zero, pow_zero, mul_one]
      rfl
    · apply Finset.sum_congr rfl
      intro i _
      show aux * lov * lov ^ (i : ℕ) * fs[i] loe = aux * lov ^ ((i : ℕ) + 1) * fs[i] loe
      ring

/-- C120: the hard component is a polynomial in `log₁₀ v` divided by `v`, with coefficients that depend on `log₁₀(E / GeV)`, for
energies from 100 GeV and losses from 1e-7 on; otherwise it is zero. -/
theorem C120_hard (tables : List (ℝ → ℝ)) (E v : ℝ) :
    (1e5 ≤ E → 1e-7 ≤ v → v * hardComponent tables E v = ∑ i : Fin tables.length, Real.logb 10 v ^ (i : ℕ) * tables[i] (Real.logb 10 (E / 1000))) ∧
    (E < 1e5 ∨ v < 1e-7 → hardComponent tables E v = 0) := by
  constructor
  · intro hE hv
    have hv0 : 0 < v := lt_of_lt_of_le (by norm_num) hv
    have hE0 : 0 < E := lt_of_lt_of_le (by norm_num) hE
    have e : Real.log E / Real.log 10 - 3 = Real.logb 10 (E / 1000) := by
      have h10 : Real.log 10 ≠ 0 := (Real.log_pos (by norm_num)).ne'
      rw [Real.logb, Real.log_div hE0.ne' (by norm_num), show (1000 : ℝ) = 10 ^ 3 by norm_num, Real.log_pow]
      field_simp
      norm_num
    unfold hardComponent
    rw [if_neg (not_or.2 ⟨not_lt.2 hE, not_lt.2 hv⟩), mul_div_cancel₀ _ hv0.ne', hardSum_eq, e]
    simp [Real.logb]
  · intro h
    unfold hardComponent
    rw [if_pos h]

/-- C120: the hard component is added with the number of nucleons. -/
theorem C120_hard_added (p : RealPhoton) (tables : List (ℝ → ℝ)) (m z : ℝ) (c : Component) (E v s : ℝ) (hA : c.atomicNum ≠ 0)
    (h : realPhotonCross p none m z c E v = some s) :
    realPhotonCross p (some tables) m z c E v = some (s + NAvogadro * z ^ 2 * (1e-30 * hardComponent tables E v)) := by
  unfold realPhotonCross at h ⊢
  simp only at h ⊢
  split_ifs at h with h1
  rw [if_neg h1]
  cases hG : realShadowing (p.sigma (v * E) c) c with
  | none => rw [hG] at h; simp at h
  | some G =>
    rw [hG, Option.map_some, Option.some.injEq] at h
    rw [Option.map_some, ← h]
    congr 1
    field_simp
    ring

/-! ## Weak interaction -/

/-- C121: the cross section is not negative; it depends on the sign of the charge only: negative particles take the tables of
antineutrinos, all others those of neutrinos. -/
theorem C121_sign (T : WeakTables) (z z' : ℝ) (c : Component) (E v : ℝ) (ha : Spec.IsAtom c) :
    0 ≤ weakCross T z c E v ∧ ((z < 0 ↔ z' < 0) → weakCross T z c E v = weakCross T z' c E v) ∧
    (z < 0 → weakCross T z c E v = weakCross ⟨T.nubarP, T.nubarN, T.nubarP, T.nubarN⟩ z c E v) ∧
    (0 ≤ z → weakCross T z c E v = weakCross ⟨T.nuP, T.nuN, T.nuP, T.nuN⟩ z c E v) := by
  have hn := na_pos'
  have hA := ha.2
  refine ⟨?_, fun h => ?_, fun h => ?_, fun h => ?_⟩
  · unfold weakCross
    simp only
    positivity
  · unfold weakCross
    by_cases hz : z < 0
    · simp [hz, h.1 hz]
    · have hz' : ¬ z' < 0 := fun h' => hz (h.2 h')
      simp [hz, hz']
  · unfold weakCross
    simp [h]
  · unfold weakCross
    simp [not_lt.2 h]

/-- C121 fails for atoms of several nucleons: per mass the cross section is the one per nucleon (mean of protons and neutrons) divided
by the number of nucleons, although a mass contains the same number of nucleons for all atoms. -/
theorem C121_nucleons_partial (T : WeakTables) (z : ℝ) (c : Component) (E v σp σn : ℝ) (ha : Spec.IsAtom c) (hZ : c.nucCharge ≤ c.atomicNum)
    (hp : (if z < 0 then T.nubarP else T.nuP) (Real.logb 10 E) v = σp) (hn : (if z < 0 then T.nubarN else T.nuN) (Real.logb 10 E) v = σn)
    (h0 : 0 ≤ σp) (h1 : 0 ≤ σn) :
    weakCross T z c E v = NAvogadro * (1e-36 * (c.nucCharge / c.atomicNum * σp + (1 - c.nucCharge / c.atomicNum) * σn)) / c.atomicNum := by
  have hA := ha.2
  have hZ0 : 0 ≤ c.nucCharge := ha.1.le
  have e : (c.nucCharge * σp + (c.atomicNum - c.nucCharge) * σn) / c.atomicNum =
      c.nucCharge / c.atomicNum * σp + (1 - c.nucCharge / c.atomicNum) * σn := by
    field_simp
  have hpos : 0 ≤ (c.nucCharge * σp + (c.atomicNum - c.nucCharge) * σn) / c.atomicNum := by
    have : 0 ≤ c.atomicNum - c.nucCharge := by linarith
    positivity
  unfold weakCross
  simp only [Real.logb] at hp hn ⊢
  by_cases hz : z < 0
  · simp only [hz, if_true] at hp hn ⊢
    rw [hp, hn, max_eq_left hpos, e]
    ring
  · simp only [hz, if_false] at hp hn ⊢
    rw [hp, hn, max_eq_left hpos, e]
    ring

/-- C121 fails for compounds: with the same cross section `σ` for all nucleons, a medium of `S` nucleons per molecule gets the rate
of as many nucleons as it has atoms. -/
theorem C121_medium (T : WeakTables) (z : ℝ) (M : Med) (E v σ : ℝ) (hs : 0 < M.sumNucleons) (h0 : 0 ≤ σ)
    (h : ∀ c ∈ M.components, Spec.IsAtom c ∧ 0 < c.atomInMolecule ∧ c.nucCharge ≤ c.atomicNum)
    (hT : (if z < 0 then T.nubarP else T.nuP) (Real.logb 10 E) v = σ ∧ (if z < 0 then T.nubarN else T.nuN) (Real.logb 10 E) v = σ) :
    (M.components.map fun c => weakCross T z c E v / weightOf M c).sum =
      NAvogadro * (1e-36 * σ) * ((M.components.map fun c => c.atomInMolecule).sum / M.sumNucleons) := by
  have e : (M.components.map fun c => weakCross T z c E v / weightOf M c) =
      M.components.map fun c => NAvogadro * (1e-36 * σ) / M.sumNucleons * c.atomInMolecule := by
    apply List.map_congr_left
    intro c hc
    obtain ⟨ha, hn, hZ⟩ := h c hc
    have hA := ha.2.ne'
    rw [C121_nucleons_partial T z c E v σ σ ha hZ hT.1 hT.2 h0 h0]
    unfold weightOf
    field_simp
    ring
  rw [e, List.sum_map_mul_left]
  ring

/-- A muon and a tau lepton of 1 TeV in hydrogen and oxygen. -/
example : ∃ s > 0, realPhotonCross .kokoulin none MMU 1 exO 1e6 0.9 = some s := by
  have hσ : 0 < RealPhoton.kokoulin.sigma (0.9 * 1e6) exO := C120_sigma _ exO _ (by norm_num [exO]) (by norm_num [pionThreshold, exO, MPI])
    (by simp)
  obtain ⟨_, _, _, _, _, h⟩ := C120_cross_partial .kokoulin MMU 1 exO 1e6 0.9 (by norm_num [Spec.IsAtom, exO]) (by norm_num [MMU])
    (by norm_num) (by norm_num) hσ
  exact h one_ne_zero (by norm_num [MMU])

example : ∃ s < 0, realPhotonCross .zeus none MTAU (-1) exH 1e6 0.5 = some s :=
  C120_tau_cross .zeus (-1) exH 1e6 0.5 (by norm_num [Spec.IsAtom, exH]) (by norm_num [exH]) (by norm_num) (by norm_num) (by norm_num)
    (C120_sigma _ exH _ (by norm_num [exH]) (by norm_num [pionThreshold, exH, MPI]) (by simp))

/-- Water: a sixth of the rate of its nucleons. -/
example (σ : ℝ) (h : 0 ≤ σ) : (exH2O.components.map fun c => weakCross ⟨fun _ _ => σ, fun _ _ => σ, fun _ _ => σ, fun _ _ => σ⟩ 1 c 1e6 0.5 /
    weightOf exH2O c).sum = NAvogadro * (1e-36 * σ) / 6 := by
  rw [C121_medium _ 1 exH2O 1e6 0.5 σ (by norm_num [exH2O]) h]
  · norm_num [exH2O, exH, exO]
    ring
  · intro c hc
    simp only [exH2O, List.mem_cons, List.not_mem_nil, or_false] at hc
    rcases hc with rfl | rfl <;> norm_num [exH, exO, Spec.IsAtom]
  · constructor <;> split_ifs <;> rfl

end Proposal
