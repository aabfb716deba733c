import Verif.Model.PairCross
import Verif.Props.PhotoEffectRate
import Mathlib.MeasureTheory.Integral.IntervalIntegral.Basic
import Mathlib.MeasureTheory.Integral.IntervalIntegral.FundThmCalculus
import Mathlib.Analysis.SpecialFunctions.Log.Deriv

/-!
# C122: muon pairs by charged particles
-/

open Filter Topology

namespace Proposal

lemma mmu_pos' : 0 < MMU := by norm_num [MMU]
lemma sqrte_pos' : 0 < SQRTE := by norm_num [SQRTE]

/-! ## The integrand -/

/-- Equation (18) of Kelner, Kokoulin and Petrukhin for `ρ = r²`. -/
noncomputable def Spec.muPhi (ξ β ρ : ℝ) : ℝ :=
  ((2 + ρ) * (1 + β) + ξ * (3 + ρ)) * Real.log (1 + 1 / ξ) +
    ((1 + ρ) * (1 + 3 / 2 * β) - (1 + 2 * β) * (1 - ρ) / ξ) * Real.log (1 + ξ) - 1 - 3 * ρ + β * (1 - 2 * ρ)

/-- C122: the function `Φ` is positive. -/
theorem C122_phi_pos (ξ β ρ : ℝ) (hξ : 0 < ξ) (hβ : 0 ≤ β) (h0 : 0 ≤ ρ) (h1 : ρ ≤ 1) : 0 < Spec.muPhi ξ β ρ := by
  unfold Spec.muPhi
  have hL1 : 2 / (2 * ξ + 1) ≤ Real.log (1 + 1 / ξ) := by
    have := Real.le_log_one_add_of_nonneg (x := 1 / ξ) (by positivity)
    have e : 2 * (1 / ξ) / (1 / ξ + 2) = 2 / (2 * ξ + 1) := by
      field_simp
      ring
    rwa [e] at this
  have hL2 : Real.log (1 + ξ) ≤ ξ := by
    have := Real.log_le_sub_one_of_pos (show 0 < 1 + ξ by positivity)
    linarith
  have hL2' : 0 < Real.log (1 + ξ) := Real.log_pos (by linarith)
  have hsum : 1 < Real.log (1 + 1 / ξ) + Real.log (1 + ξ) := by
    rw [← Real.log_mul (by positivity) (by positivity)]
    have h4 : (4 : ℝ) ≤ (1 + 1 / ξ) * (1 + ξ) := by
      have e : (1 + 1 / ξ) * (1 + ξ) = 4 + (ξ - 1) ^ 2 / ξ := by
        field_simp
        ring
      rw [e]
      have : 0 ≤ (ξ - 1) ^ 2 / ξ := by positivity
      linarith
    have h3 : (1 : ℝ) < Real.log 4 := by
      rw [show (4 : ℝ) = 2 ^ 2 by norm_num, Real.log_pow]
      have := Real.log_two_gt_d9
      norm_num at this ⊢
      linarith
    exact h3.trans_le (Real.log_le_log (by norm_num) h4)
  set a := Real.log (1 + 1 / ξ)
  set b := Real.log (1 + ξ)
  have hb1 : b / ξ ≤ 1 := by rw [div_le_one hξ]; exact hL2
  have ha : 0 < a := lt_of_lt_of_le (by positivity) hL1
  have hbase : 0 < ((2 + ρ) + ξ * (3 + ρ)) * a + (1 + ρ) * b - (1 - ρ) * (b / ξ) - 1 - 3 * ρ := by
    have k0 : 2 ≤ (2 + 3 * ξ) * a := by
      calc (2 : ℝ) ≤ (2 + 3 * ξ) * (2 / (2 * ξ + 1)) := by
            rw [mul_div_assoc', le_div_iff₀ (by positivity)]
            nlinarith
        _ ≤ _ := by gcongr
    have k1 : 4 ≤ (3 + 4 * ξ) * a := by
      calc (4 : ℝ) ≤ (3 + 4 * ξ) * (2 / (2 * ξ + 1)) := by
            rw [mul_div_assoc', le_div_iff₀ (by positivity)]
            nlinarith
        _ ≤ _ := by gcongr
    have e : ((2 + ρ) + ξ * (3 + ρ)) * a + (1 + ρ) * b - (1 - ρ) * (b / ξ) - 1 - 3 * ρ =
        (1 - ρ) * ((2 + 3 * ξ) * a + b - b / ξ - 1) + ρ * ((3 + 4 * ξ) * a + 2 * b - 4) := by ring
    rw [e]
    have m0 : 0 < (2 + 3 * ξ) * a + b - b / ξ - 1 := by linarith
    have m1 : 0 < (3 + 4 * ξ) * a + 2 * b - 4 := by linarith
    rcases eq_or_lt_of_le h0 with h | h
    · rw [← h]; linarith
    · have := mul_pos h m1
      have := mul_nonneg (sub_nonneg.2 h1) m0.le
      linarith
  have hbeta : 0 ≤ (2 + ρ) * a + 3 / 2 * (1 + ρ) * b - 2 * (1 - ρ) * (b / ξ) + 1 - 2 * ρ := by
    have e : (2 + ρ) * a + 3 / 2 * (1 + ρ) * b - 2 * (1 - ρ) * (b / ξ) + 1 - 2 * ρ =
      (1 - ρ) * (2 * a + 3 / 2 * b - 2 * (b / ξ) + 1) + ρ * (3 * a + 3 * b - 1) := by ring
    rw [e]
    have m0 : 0 < 2 * a + 3 / 2 * b - 2 * (b / ξ) + 1 := by linarith
    have m1 : 0 < 3 * a + 3 * b - 1 := by linarith
    have := mul_nonneg (sub_nonneg.2 h1) m0.le
    have := mul_nonneg h0 m1.le
    linarith
  have e : ((2 + ρ) * (1 + β) + ξ * (3 + ρ)) * a + ((1 + ρ) * (1 + 3 / 2 * β) - (1 + 2 * β) * (1 - ρ) / ξ) * b - 1 - 3 * ρ +
      β * (1 - 2 * ρ) = (((2 + ρ) + ξ * (3 + ρ)) * a + (1 + ρ) * b - (1 - ρ) * (b / ξ) - 1 - 3 * ρ) +
      β * ((2 + ρ) * a + 3 / 2 * (1 + ρ) * b - 2 * (1 - ρ) * (b / ξ) + 1 - 2 * ρ) := by
    field_simp
    ring
  rw [e]
  have := mul_nonneg hβ hbeta
  linarith

/-- Upper limit of the asymmetry, the parameter `ξ`, and the quantity the screening depends on. -/
noncomputable def Spec.muRMax (E v : ℝ) : ℝ := 1 - 2 * MMU / (v * E)
noncomputable def Spec.muXi (m v r : ℝ) : ℝ := (m / MMU) ^ 2 * (v ^ 2 / (4 * (1 - v))) * (1 - r ^ 2)
noncomputable def Spec.muS (m v r : ℝ) : ℝ := 1 / (1 - r ^ 2) + (m / MMU) ^ 2 * (v ^ 2 / (4 * (1 - v)))

/-- The logarithm of the screening (without its upper limit) for `n` in place of the mass number. -/
noncomputable def Spec.muU (Z n E v s : ℝ) : ℝ :=
  0.65 * n ^ (-0.27 : ℝ) * 183 * Z ^ (-1 / 3 : ℝ) * (MMU / ME) /
    (1 + 2 * SQRTE * MMU ^ 2 * 183 * Z ^ (-1 / 3 : ℝ) * (1 + 12 * Real.sqrt (MMU / E)) / (ME * E * v) * s)

noncomputable def Spec.muX (m : ℝ) (c : Component) (E v r : ℝ) : ℝ :=
  1 + Spec.muU c.nucCharge c.atomInMolecule E v (Spec.muS m v r) -
    Spec.muU c.nucCharge c.atomInMolecule E v (Spec.muS MMU v (Spec.muRMax E v))

noncomputable def Spec.muValue (m z : ℝ) (c : Component) (v r : ℝ) : ℝ :=
  4 / (3 * Real.pi) * (c.nucCharge * z * ALPHA * (RE * ME / MMU)) ^ 2 * ((1 - v) / v) *
    Spec.muPhi (Spec.muXi m v r) (v ^ 2 / (2 * (1 - v))) (r ^ 2)

/-- The integrand in terms of these. -/
lemma mupair_form (m z : ℝ) (c : Component) (E v r : ℝ) (hm : 0 < m) (hE : 0 < E) (h0 : 0 < v) (h1 : v < 1) (hr : r ^ 2 < 1)
    (hR : Spec.muRMax E v ^ 2 < 1) :
    mupairIntegrand m z c E v r =
      (let a := if Spec.muX m c E v r > 0 then Spec.muValue m z c v r * Real.log (Spec.muX m c E v r) else 0
       if a < 0 then 0 else a) := by
  have hM := mmu_pos'
  have hme := me_pos'
  have hv : 0 < 1 - v := by linarith
  have hr' : 0 < 1 - r ^ 2 := by linarith
  have hR' : 0 < 1 - Spec.muRMax E v ^ 2 := by linarith
  have eξ : m * v / (2 * MMU) * (m * v / (2 * MMU)) * (1 - r * r) / (1 - v) = Spec.muXi m v r := by
    unfold Spec.muXi
    field_simp
    ring
  have eξ' : v * v * (1 - Spec.muRMax E v * Spec.muRMax E v) / (4 * (1 - v)) = Spec.muXi MMU v (Spec.muRMax E v) := by
    unfold Spec.muXi
    field_simp
  have eβ : v * v / (2 * (1 - v)) = v ^ 2 / (2 * (1 - v)) := by ring
  have eS : ∀ m' r', 0 < 1 - r' ^ 2 → (1 + Spec.muXi m' v r') / (1 - r' ^ 2) = Spec.muS m' v r' := by
    intro m' r' h'
    unfold Spec.muXi Spec.muS
    field_simp
  have hY : 0 < 1 + 12 * Real.sqrt (MMU / E) := by positivity
  have eU : ∀ m' r', 0 < 1 - r' ^ 2 → 0.65 * c.atomInMolecule ^ (-0.27 : ℝ) * 183 * c.nucCharge ^ (-1 / 3 : ℝ) * MMU / ME /
      (1 + 2 * SQRTE * MMU ^ 2 * 183 * c.nucCharge ^ (-1 / 3 : ℝ) * (1 + Spec.muXi m' v r') * (1 + 12 * Real.sqrt (MMU / E)) /
        (ME * E * v * (1 - r' * r'))) = Spec.muU c.nucCharge c.atomInMolecule E v (Spec.muS m' v r') := by
    intro m' r' h'
    unfold Spec.muU
    rw [← eS m' r' h']
    congr 1
    · ring
    · congr 1
      have : 1 - r' * r' = 1 - r' ^ 2 := by ring
      rw [this]
      field_simp
  have eφ : ((2 + r * r) * (1 + v ^ 2 / (2 * (1 - v))) + Spec.muXi m v r * (3 + r * r)) * Real.log (1 + 1 / Spec.muXi m v r) +
      ((1 + r * r) * (1 + 1.5 * (v ^ 2 / (2 * (1 - v)))) - 1 / Spec.muXi m v r * (1 + 2 * (v ^ 2 / (2 * (1 - v)))) * (1 - r * r)) *
        Real.log (1 + Spec.muXi m v r) + (-1 - 3 * (r * r) + v ^ 2 / (2 * (1 - v)) * (1 - 2 * (r * r))) =
      Spec.muPhi (Spec.muXi m v r) (v ^ 2 / (2 * (1 - v))) (r ^ 2) := by
    unfold Spec.muPhi
    norm_num
    ring
  have eR : 1 - 2 * MMU / (v * E) = Spec.muRMax E v := rfl
  have eX : 1 + Spec.muU c.nucCharge c.atomInMolecule E v (Spec.muS m v r) -
    Spec.muU c.nucCharge c.atomInMolecule E v (Spec.muS MMU v (Spec.muRMax E v)) = Spec.muX m c E v r := rfl
  unfold mupairIntegrand
  simp only
  rw [eR, eξ, eξ', eβ, eφ, eU m r hr', eU MMU _ hR', eX]
  have eV : ALPHA * (RE * ME / MMU) * z * c.nucCharge * (2 * (ALPHA * (RE * ME / MMU) * z * c.nucCharge) *
      Spec.muPhi (Spec.muXi m v r) (v ^ 2 / (2 * (1 - v))) (r ^ 2) * (1 - v) / (1.5 * Real.pi * v)) = Spec.muValue m z c v r := by
    unfold Spec.muValue
    set P := Spec.muPhi (Spec.muXi m v r) (v ^ 2 / (2 * (1 - v))) (r ^ 2)
    have : Real.pi ≠ 0 := Real.pi_ne_zero
    norm_num
    field_simp
    ring
  rw [eV]

lemma muXi_pos {m v r : ℝ} (hm : 0 < m) (h0 : 0 < v) (h1 : v < 1) (hr : r ^ 2 < 1) : 0 < Spec.muXi m v r := by
  have hM := mmu_pos'
  have hv : 0 < 1 - v := by linarith
  have hr' : 0 < 1 - r ^ 2 := by linarith
  unfold Spec.muXi
  positivity

lemma muValue_pos {m z : ℝ} {c : Component} {v r : ℝ} (hm : 0 < m) (hz : z ≠ 0) (hZ : 0 < c.nucCharge) (h0 : 0 < v) (h1 : v < 1)
    (hr : r ^ 2 < 1) : 0 < Spec.muValue m z c v r := by
  have hM := mmu_pos'
  have hme := me_pos'
  have hre := re_pos'
  have hal := alpha_pos'
  have hv : 0 < 1 - v := by linarith
  have hφ := C122_phi_pos _ (v ^ 2 / (2 * (1 - v))) (r ^ 2) (muXi_pos (m := m) hm h0 h1 hr) (by positivity) (sq_nonneg r) hr.le
  unfold Spec.muValue
  have : 0 < (c.nucCharge * z * ALPHA * (RE * ME / MMU)) ^ 2 := by positivity
  have := Real.pi_pos
  positivity

lemma muU_lt {Z n E v s t : ℝ} (hZ : 0 < Z) (hn : 0 < n) (hE : 0 < E) (h0 : 0 < v) (hs : 0 < s) (ht : 0 < t) :
    Spec.muU Z n E v s < Spec.muU Z n E v t ↔ t < s := by
  have hM := mmu_pos'
  have hme := me_pos'
  have hse := sqrte_pos'
  have hZ3 := Real.rpow_pos_of_pos hZ (-1 / 3)
  have hn3 := Real.rpow_pos_of_pos hn (-0.27)
  unfold Spec.muU
  set K := 2 * SQRTE * MMU ^ 2 * 183 * Z ^ (-1 / 3 : ℝ) * (1 + 12 * Real.sqrt (MMU / E)) / (ME * E * v) with hK
  have hK0 : 0 < K := by positivity
  set a := 0.65 * n ^ (-0.27 : ℝ) * 183 * Z ^ (-1 / 3 : ℝ) * (MMU / ME) with ha
  have ha0 : 0 < a := by positivity
  rw [div_lt_div_iff_of_pos_left ha0 (by positivity) (by positivity)]
  constructor
  · intro h
    nlinarith
  · intro h
    nlinarith

lemma muS_pos {m v r : ℝ} (hm : 0 < m) (h1 : v < 1) (hr : r ^ 2 < 1) : 0 < Spec.muS m v r := by
  have hr' : 0 < 1 - r ^ 2 := by linarith
  have hv : 0 < 1 - v := by linarith
  have hM := mmu_pos'
  unfold Spec.muS
  positivity

/-- C122: the contribution of an asymmetry is the formula of Kelner, Kokoulin and Petrukhin where the screening of the asymmetry
exceeds that of the limit, and zero otherwise. -/
theorem C122_integrand (m z : ℝ) (c : Component) (E v r : ℝ) (hm : 0 < m) (hz : z ≠ 0) (hZ : 0 < c.nucCharge) (hn : 0 < c.atomInMolecule)
    (hE : 0 < E) (h0 : 0 < v) (h1 : v < 1) (hr : r ^ 2 < 1) (hR : Spec.muRMax E v ^ 2 < 1) :
    (Spec.muS m v r < Spec.muS MMU v (Spec.muRMax E v) →
      mupairIntegrand m z c E v r = Spec.muValue m z c v r * Real.log (Spec.muX m c E v r) ∧ 1 < Spec.muX m c E v r ∧
      0 < mupairIntegrand m z c E v r) ∧
    (Spec.muS MMU v (Spec.muRMax E v) ≤ Spec.muS m v r → mupairIntegrand m z c E v r = 0) := by
  have hV := muValue_pos hm hz hZ h0 h1 hr
  rw [mupair_form m z c E v r hm hE h0 h1 hr hR]
  simp only
  have hiff := muU_lt hZ hn hE h0 (muS_pos mmu_pos' h1 hR) (muS_pos hm h1 hr)
  constructor
  · intro h
    have hX : 1 < Spec.muX m c E v r := by
      have := hiff.2 h
      unfold Spec.muX
      linarith
    have hl := Real.log_pos hX
    have hp := mul_pos hV hl
    have hX0 : Spec.muX m c E v r > 0 := by linarith
    rw [if_pos hX0, if_neg (not_lt.2 hp.le)]
    exact ⟨rfl, hX, hp⟩
  · intro h
    have hX : Spec.muX m c E v r ≤ 1 := by
      have := mt hiff.1 (not_lt.2 h)
      unfold Spec.muX
      linarith
    by_cases hp : Spec.muX m c E v r > 0
    · rw [if_pos hp]
      have hl := Real.log_nonpos hp.le hX
      have hle := mul_nonpos_of_nonneg_of_nonpos hV.le hl
      rcases hle.eq_or_lt with he | hlt
      · rw [he]; simp
      · rw [if_pos hlt]
    · rw [if_neg hp]; simp

/-- C122: positive and negative asymmetries contribute equally; no contribution is negative. -/
theorem C122_even (m z : ℝ) (c : Component) (E v r : ℝ) :
    mupairIntegrand m z c E v (-r) = mupairIntegrand m z c E v r ∧ 0 ≤ mupairIntegrand m z c E v r ∧
    mupairIntegrand m (-z) c E v r = mupairIntegrand m z c E v r := by
  refine ⟨?_, ?_, ?_⟩
  · unfold mupairIntegrand
    simp only [neg_mul_neg]
  · unfold mupairIntegrand
    simp only
    split_ifs with h
    all_goals first | exact le_rfl | exact not_lt.1 (by assumption)
  · unfold mupairIntegrand
    simp only [mul_neg, neg_mul, neg_div, neg_neg]

lemma muRMax_lt {E v : ℝ} (hE : 0 < E) (h0 : 0 < v) (h : 2 * MMU ≤ v * E) : 0 ≤ Spec.muRMax E v ∧ Spec.muRMax E v < 1 ∧
    Spec.muRMax E v ^ 2 < 1 := by
  have hM := mmu_pos'
  have h1 : 2 * MMU / (v * E) ≤ 1 := by rw [div_le_one (by positivity)]; exact h
  have h2 : 0 < 2 * MMU / (v * E) := by positivity
  unfold Spec.muRMax
  refine ⟨by linarith, by linarith, ?_⟩
  nlinarith

/-- C122: for electrons and muons all asymmetries below the limit contribute; for muons the contribution vanishes at the limit. -/
theorem C122_positive_partial (m z : ℝ) (c : Component) (E v r : ℝ) (hm : 0 < m) (hm' : m ≤ MMU) (hz : z ≠ 0) (hZ : 0 < c.nucCharge)
    (hn : 0 < c.atomInMolecule) (hE : 0 < E) (h0 : 0 < v) (h1 : v < 1) (h : 2 * MMU ≤ v * E) :
    (|r| < Spec.muRMax E v → 0 < mupairIntegrand m z c E v r) ∧
    (m = MMU → mupairIntegrand m z c E v (Spec.muRMax E v) = 0) := by
  obtain ⟨hR0, hR1, hR⟩ := muRMax_lt hE h0 h
  have hv : 0 < 1 - v := by linarith
  constructor
  · intro hr
    have hr2 : r ^ 2 < Spec.muRMax E v ^ 2 := by
      rw [← sq_abs r]
      exact pow_lt_pow_left₀ hr (abs_nonneg r) two_ne_zero
    refine ((C122_integrand m z c E v r hm hz hZ hn hE h0 h1 (hr2.trans hR) hR).1 ?_).2.2
    unfold Spec.muS
    have a1 : 1 / (1 - r ^ 2) < 1 / (1 - Spec.muRMax E v ^ 2) := by
      apply one_div_lt_one_div_of_lt <;> linarith
    have a2 : (m / MMU) ^ 2 * (v ^ 2 / (4 * (1 - v))) ≤ (MMU / MMU) ^ 2 * (v ^ 2 / (4 * (1 - v))) := by
      have := mmu_pos'
      gcongr
    linarith
  · rintro rfl
    exact (C122_integrand MMU z c E v _ hm hz hZ hn hE h0 h1 hR hR).2 le_rfl

/-- C122 fails for heavier particles: close to the limit of the asymmetry nothing is contributed. -/
theorem C122_heavy (m z : ℝ) (c : Component) (E v : ℝ) (hm : MMU < m) (hz : z ≠ 0) (hZ : 0 < c.nucCharge)
    (hn : 0 < c.atomInMolecule) (hE : 0 < E) (h0 : 0 < v) (h1 : v < 1) (h : 2 * MMU ≤ v * E) :
    ∃ r₀ < Spec.muRMax E v, ∀ r, r₀ < r → r ≤ Spec.muRMax E v → mupairIntegrand m z c E v r = 0 := by
  obtain ⟨hR0, hR1, hR⟩ := muRMax_lt hE h0 h
  have hv : 0 < 1 - v := by linarith
  have hM := mmu_pos'
  set R := Spec.muRMax E v
  have hlt : Spec.muS MMU v R < Spec.muS m v R := by
    unfold Spec.muS
    have : (MMU / MMU) ^ 2 * (v ^ 2 / (4 * (1 - v))) < (m / MMU) ^ 2 * (v ^ 2 / (4 * (1 - v))) := by
      apply mul_lt_mul_of_pos_right _ (by positivity)
      apply pow_lt_pow_left₀ _ (by positivity) two_ne_zero
      exact div_lt_div_of_pos_right hm hM
    linarith
  have hc : ContinuousAt (fun r => Spec.muS m v r) R := by
    unfold Spec.muS
    have : 1 - R ^ 2 ≠ 0 := by linarith
    fun_prop (disch := assumption)
  have hc2 : ContinuousAt (fun r : ℝ => r ^ 2) R := by fun_prop
  have hev := (hc.eventually (lt_mem_nhds hlt)).and (hc2.eventually (gt_mem_nhds hR))
  obtain ⟨ε, hε, hball⟩ := Metric.eventually_nhds_iff.1 hev
  refine ⟨R - ε, by linarith, fun r h1' h2' => ?_⟩
  have hd : dist r R < ε := by
    rw [Real.dist_eq, abs_lt]
    constructor <;> linarith
  obtain ⟨k1, k2⟩ := hball hd
  exact (C122_integrand m z c E v r (hM.trans hm) hz hZ hn hE h0 h1 k2 hR).2 k1.le

/-- C122 fails for tau leptons: for large losses and not too large energies there is no muon pair production at all. -/
theorem C122_heavy_zero (m z : ℝ) (c : Component) (E v : ℝ) (hm : 0 < m) (hz : z ≠ 0) (hZ : 0 < c.nucCharge)
    (hn : 0 < c.atomInMolecule) (hE : 0 < E) (h0 : 0 < v) (h1 : v < 1) (h : 2 * MMU ≤ v * E)
    (hk : 1 / (1 - Spec.muRMax E v ^ 2) + v ^ 2 / (4 * (1 - v)) ≤ 1 + (m / MMU) ^ 2 * (v ^ 2 / (4 * (1 - v)))) :
    (∀ r, |r| ≤ Spec.muRMax E v → mupairIntegrand m z c E v r = 0) ∧
    mupairCross (fun f a b => ∫ x in a..b, f x) m z c E v = 0 := by
  obtain ⟨hR0, hR1, hR⟩ := muRMax_lt hE h0 h
  have hM := mmu_pos'
  have hzero : ∀ r, |r| ≤ Spec.muRMax E v → mupairIntegrand m z c E v r = 0 := by
    intro r hr
    have hr2 : r ^ 2 ≤ Spec.muRMax E v ^ 2 := by
      rw [← sq_abs r]
      exact pow_le_pow_left₀ (abs_nonneg r) hr 2
    refine (C122_integrand m z c E v r hm hz hZ hn hE h0 h1 (hr2.trans_lt hR) hR).2 ?_
    unfold Spec.muS
    rw [div_self hM.ne', one_pow, one_mul]
    have : 1 ≤ 1 / (1 - r ^ 2) := by
      rw [le_div_iff₀ (by linarith)]
      nlinarith [sq_nonneg r]
    linarith
  refine ⟨hzero, ?_⟩
  unfold mupairCross
  have eR : 1 - 2 * MMU / (v * E) = Spec.muRMax E v := rfl
  simp only
  rw [eR, if_neg (not_lt.2 hR0)]
  have : ∫ x in (0 : ℝ)..Spec.muRMax E v, mupairIntegrand m z c E v x = ∫ x in (0 : ℝ)..Spec.muRMax E v, (0 : ℝ) := by
    apply intervalIntegral.integral_congr
    intro x hx
    rw [Set.uIcc_of_le hR0] at hx
    exact hzero x (by rw [abs_of_nonneg hx.1]; exact hx.2)
  rw [this]
  simp

/-- C122 fails for the dependence on the atom: the number of atoms in the molecule is taken in place of the mass number. The more
atoms of a kind a molecule has, the smaller the cross section of each; the mass number does not matter. -/
theorem C122_molecule (m z : ℝ) (c : Component) (E v r n n' a : ℝ) (hm : 0 < m) (hz : z ≠ 0) (hZ : 0 < c.nucCharge)
    (hn : 0 < n) (hnn : n < n') (hE : 0 < E) (h0 : 0 < v) (h1 : v < 1) (hr : r ^ 2 < 1) (hR : Spec.muRMax E v ^ 2 < 1)
    (h : Spec.muS m v r < Spec.muS MMU v (Spec.muRMax E v)) :
    mupairIntegrand m z { c with atomInMolecule := n' } E v r < mupairIntegrand m z { c with atomInMolecule := n } E v r ∧
    mupairIntegrand m z { c with atomicNum := a } E v r = mupairIntegrand m z c E v r := by
  refine ⟨?_, rfl⟩
  obtain ⟨e1, x1, _⟩ := (C122_integrand m z { c with atomInMolecule := n } E v r hm hz hZ hn hE h0 h1 hr hR).1 h
  obtain ⟨e2, x2, _⟩ := (C122_integrand m z { c with atomInMolecule := n' } E v r hm hz hZ (hn.trans hnn) hE h0 h1 hr hR).1 h
  rw [e1, e2]
  have hV : 0 < Spec.muValue m z c v r := muValue_pos hm hz hZ h0 h1 hr
  apply mul_lt_mul_of_pos_left _ hV
  apply Real.log_lt_log (by linarith)
  have hU : ∀ n s, Spec.muU c.nucCharge n E v s = n ^ (-0.27 : ℝ) * Spec.muU c.nucCharge 1 E v s := by
    intro n s
    unfold Spec.muU
    rw [Real.one_rpow]
    ring
  have hlt := (muU_lt (E := E) (v := v) hZ one_pos hE h0 (muS_pos mmu_pos' h1 hR) (muS_pos hm h1 hr)).2 h
  have hp : n' ^ (-0.27 : ℝ) < n ^ (-0.27 : ℝ) := Real.rpow_lt_rpow_of_neg hn hnn (by norm_num)
  unfold Spec.muX
  simp only
  rw [hU n', hU n' (Spec.muS MMU v _), hU n, hU n (Spec.muS MMU v _)]
  nlinarith

/-! ## The integral over the asymmetry -/

lemma mupair_continuous {m z : ℝ} {c : Component} {E v r : ℝ} (hm : 0 < m) (hZ : 0 < c.nucCharge)
    (hE : 0 < E) (h0 : 0 < v) (h1 : v < 1) (hr : r ^ 2 < 1) (hX : Spec.muX m c E v r ≠ 0) :
    ContinuousAt (fun r => Spec.muValue m z c v r * Real.log (Spec.muX m c E v r)) r := by
  have hr' : 1 - r ^ 2 ≠ 0 := by linarith
  have hξ0 := muXi_pos (r := r) hm h0 h1 hr
  have hξc : ContinuousAt (fun r => Spec.muXi m v r) r := by unfold Spec.muXi; fun_prop
  have hSc : ContinuousAt (fun r => Spec.muS m v r) r := by unfold Spec.muS; fun_prop (disch := assumption)
  have hUc : ContinuousAt (fun r => Spec.muU c.nucCharge c.atomInMolecule E v (Spec.muS m v r)) r := by
    have hs := muS_pos (r := r) hm h1 hr
    have hM := mmu_pos'
    have hme := me_pos'
    have hse := sqrte_pos'
    have hZ3 := Real.rpow_pos_of_pos hZ (-1 / 3)
    unfold Spec.muU
    have : 1 + 2 * SQRTE * MMU ^ 2 * 183 * c.nucCharge ^ (-1 / 3 : ℝ) * (1 + 12 * Real.sqrt (MMU / E)) / (ME * E * v) *
      Spec.muS m v r ≠ 0 := by positivity
    fun_prop (disch := assumption)
  have hφ : ContinuousAt (fun r => Spec.muPhi (Spec.muXi m v r) (v ^ 2 / (2 * (1 - v))) (r ^ 2)) r := by
    unfold Spec.muPhi
    have a1 : Spec.muXi m v r ≠ 0 := hξ0.ne'
    have a2 : 1 + 1 / Spec.muXi m v r ≠ 0 := by positivity
    have a3 : 1 + Spec.muXi m v r ≠ 0 := by positivity
    fun_prop (disch := assumption)
  have hXc : ContinuousAt (fun r => Spec.muX m c E v r) r := by
    unfold Spec.muX
    fun_prop
  unfold Spec.muValue
  exact (continuousAt_const.mul hφ).mul (hXc.log hX)

/-- C122: for electrons and muons the cross section, the exact integral over the asymmetries, is positive for all losses above the
lower limit. -/
theorem C122_cross_partial (m z : ℝ) (c : Component) (E v : ℝ) (hm : 0 < m) (hm' : m ≤ MMU) (hz : z ≠ 0) (hZ : 0 < c.nucCharge)
    (hA : 0 < c.atomicNum) (hn : 0 < c.atomInMolecule) (hE : 0 < E) (h0 : 0 < v) (h1 : v < 1) (h : 2 * MMU < v * E) :
    0 < mupairCross (fun f a b => ∫ x in a..b, f x) m z c E v := by
  obtain ⟨hR0, hR1, hR⟩ := muRMax_lt hE h0 h.le
  have hM := mmu_pos'
  have hv : 0 < 1 - v := by linarith
  have hRpos : 0 < Spec.muRMax E v := by
    unfold Spec.muRMax
    rw [sub_pos, div_lt_one (by positivity)]
    exact h
  have hle : ∀ r ∈ Set.Icc 0 (Spec.muRMax E v), r ^ 2 < 1 ∧ Spec.muS m v r ≤ Spec.muS MMU v (Spec.muRMax E v) := by
    intro r hr
    have hr2 : r ^ 2 ≤ Spec.muRMax E v ^ 2 := pow_le_pow_left₀ hr.1 hr.2 2
    refine ⟨hr2.trans_lt hR, ?_⟩
    unfold Spec.muS
    have a1 : 1 / (1 - r ^ 2) ≤ 1 / (1 - Spec.muRMax E v ^ 2) := by
      apply one_div_le_one_div_of_le <;> linarith
    have a2 : (m / MMU) ^ 2 * (v ^ 2 / (4 * (1 - v))) ≤ (MMU / MMU) ^ 2 * (v ^ 2 / (4 * (1 - v))) := by gcongr
    linarith
  have hXge : ∀ r ∈ Set.Icc 0 (Spec.muRMax E v), 1 ≤ Spec.muX m c E v r := by
    intro r hr
    obtain ⟨k1, k2⟩ := hle r hr
    have := mt (muU_lt (E := E) hZ hn hE h0 (muS_pos hm h1 k1) (muS_pos mmu_pos' h1 hR)).1 (not_lt.2 k2)
    unfold Spec.muX
    linarith
  have heq : ∀ r ∈ Set.Icc 0 (Spec.muRMax E v),
      mupairIntegrand m z c E v r = Spec.muValue m z c v r * Real.log (Spec.muX m c E v r) := by
    intro r hr
    obtain ⟨k1, k2⟩ := hle r hr
    rcases k2.eq_or_lt with he | hlt
    · rw [(C122_integrand m z c E v r hm hz hZ hn hE h0 h1 k1 hR).2 he.ge]
      have : Spec.muX m c E v r = 1 := by
        unfold Spec.muX
        rw [he]
        ring
      rw [this]
      simp
    · exact ((C122_integrand m z c E v r hm hz hZ hn hE h0 h1 k1 hR).1 hlt).1
  have hint : IntervalIntegrable (mupairIntegrand m z c E v) MeasureTheory.volume 0 (Spec.muRMax E v) := by
    apply ContinuousOn.intervalIntegrable
    rw [Set.uIcc_of_le hR0]
    refine ContinuousOn.congr (f := fun r => Spec.muValue m z c v r * Real.log (Spec.muX m c E v r)) ?_ heq
    intro r hr
    have := hXge r hr
    exact (mupair_continuous hm hZ hE h0 h1 (hle r hr).1 (by linarith)).continuousWithinAt
  have hpos := intervalIntegral.intervalIntegral_pos_of_pos_on hint (fun r hr =>
    (C122_positive_partial m z c E v r hm hm' hz hZ hn hE h0 h1 h.le).1 (by rw [abs_of_nonneg hr.1.le]; exact hr.2)) hRpos
  have eR : 1 - 2 * MMU / (v * E) = Spec.muRMax E v := rfl
  have hN := na_pos'
  unfold mupairCross
  simp only
  rw [eR, if_neg (not_lt.2 hR0)]
  positivity

/-- C122: below the lower limit there is no production. -/
theorem C122_below (integral : (ℝ → ℝ) → ℝ → ℝ → ℝ) (m z : ℝ) (c : Component) (E v : ℝ) (hE : 0 < E) (h0 : 0 < v) (h : v * E < 2 * MMU) :
    mupairCross integral m z c E v = 0 := by
  unfold mupairCross
  simp only
  rw [if_pos]
  rw [sub_neg, lt_div_iff₀ (by positivity)]
  linarith

/-- Oxygen in water. -/
noncomputable def exOx : Component := ⟨[], 8, 16, 1, 173.4, 1429, 938.9, 3, 0⟩

/-- A muon of 100 GeV loses half of its energy; a tau lepton of 100 GeV cannot lose 90 %. -/
example : 0 < mupairCross (fun f a b => ∫ x in a..b, f x) MMU (-1) exOx 1e5 0.5 :=
  C122_cross_partial MMU (-1) exOx 1e5 0.5 mmu_pos' le_rfl (by norm_num) (by norm_num [exOx]) (by norm_num [exOx]) (by norm_num [exOx])
    (by norm_num) (by norm_num) (by norm_num) (by norm_num [MMU])

example : mupairCross (fun f a b => ∫ x in a..b, f x) MTAU (-1) exOx 1e5 0.9 = 0 :=
  (C122_heavy_zero MTAU (-1) exOx 1e5 0.9 (by norm_num [MTAU]) (by norm_num) (by norm_num [exOx]) (by norm_num [exOx]) (by norm_num)
    (by norm_num) (by norm_num) (by norm_num [MMU]) (by norm_num [Spec.muRMax, MMU, MTAU])).2

end Proposal
