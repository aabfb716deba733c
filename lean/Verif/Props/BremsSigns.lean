import Verif.Props.BremsForms

/-!
# C126: where bremsstrahlung is positive
-/

open MeasureTheory Set Filter Topology

namespace Proposal

/-- C126: the last two formulas are bounded by zero. -/
theorem C126_bounded (m : ℝ) (c : Component) (E v : ℝ) : 0 ≤ bremsAndreev m c E v ∧ 0 ≤ bremsSandrock m c E v := by
  refine ⟨?_, le_max_right _ _⟩
  unfold bremsAndreev
  simp only
  split_ifs with h1 h2 <;> first | exact le_rfl | linarith

lemma cbrt_inv {Z : ℝ} (hZ : 0 < Z) : Z ^ (-1 / 3 : ℝ) * Z ^ (1 / 3 : ℝ) = 1 := by
  rw [← Real.rpow_add hZ]
  norm_num

lemma cbrt_le_one {Z : ℝ} (hZ : 1 ≤ Z) : Z ^ (-1 / 3 : ℝ) ≤ 1 := Real.rpow_le_one_of_one_le_of_nonpos hZ (by norm_num)

/-- Within the kinematic limits the momentum transfer stays below the size of the nucleus. -/
lemma delta_in_limits {m Z E v : ℝ} (hm : 0 < m) (hZ : 0 < Z) (hE : 0 < E) (h0 : 0 < v) (h : v ≤ petrukhin m Z E) :
    v < 1 ∧ SQRTE * bremsDelta m E v ≤ 2 / 3 * m * Z ^ (-1 / 3 : ℝ) * v := by
  have hs := sqrte_pos
  have hc := cbrt_inv hZ
  have hZ3 : 0 < Z ^ (1 / 3 : ℝ) := by positivity
  have hZ3' : 0 < Z ^ (-1 / 3 : ℝ) := by positivity
  unfold petrukhin at h
  have hk : 0 < 0.75 * SQRTE * (m / E) * Z ^ (1 / 3 : ℝ) := by positivity
  have h1 : 0.75 * SQRTE * (m / E) * Z ^ (1 / 3 : ℝ) ≤ 1 - v := by linarith
  refine ⟨by linarith, ?_⟩
  unfold bremsDelta
  rw [mul_div_assoc', div_le_iff₀ (by
    have : 0 < 1 - v := by linarith
    positivity)]
  have h2 : 2 / 3 * m * Z ^ (-1 / 3 : ℝ) * v * (2 * E) * (0.75 * SQRTE * (m / E) * Z ^ (1 / 3 : ℝ)) ≤ 2 / 3 * m * Z ^ (-1 / 3 : ℝ) * v * (2 * E) * (1 - v) := by
    gcongr
  have e : 2 / 3 * m * Z ^ (-1 / 3 : ℝ) * v * (2 * E) * (0.75 * SQRTE * (m / E) * Z ^ (1 / 3 : ℝ)) = SQRTE * (m * m * v) * (Z ^ (-1 / 3 : ℝ) * Z ^ (1 / 3 : ℝ)) := by
    field_simp
    norm_num
  rw [e, hc] at h2
  linarith

/-- C126: the formula of Petrukhin and Shestakov for nuclei up to charge ten is positive within the kinematic limits. -/
theorem C126_petrukhin_light (m : ℝ) (c : Component) (E v : ℝ) (hm : ME ≤ m) (hZ : 1 ≤ c.nucCharge) (hZ' : c.nucCharge ≤ 10) (hE : 0 < E) (h0 : 0 < v)
    (h : v ≤ petrukhin m c.nucCharge E) : 0 < bremsPetrukhin m c E v := by
  have hme := me_pos'
  have hm0 : 0 < m := hme.trans_le hm
  have hs := sqrte_pos
  have hZ0 : 0 < c.nucCharge := by linarith
  obtain ⟨h1, h2⟩ := delta_in_limits hm0 hZ0 hE h0 h
  have hδ := brems_delta_pos hm0 hE h0 h1
  have hc := cbrt_le_one hZ
  have hlow := (cbrt_bounds (z := c.nucCharge) (lo := 0.4) (hi := 1) hZ0 (by norm_num) (by norm_num) (by linarith) (by linarith)).1
  unfold bremsPetrukhin
  simp only [if_neg (not_lt.mpr hZ')]
  apply mul_pos spectrum_pos
  apply Real.log_pos
  set Z3 := c.nucCharge ^ (-1 / 3 : ℝ)
  have hF : 0 < 189 * Z3 / ME := by positivity
  rw [one_lt_div (by positivity)]
  have h3 : SQRTE * bremsDelta m E v ≤ 2 / 3 * m := by
    refine h2.trans ?_
    have : Z3 * v ≤ 1 := by nlinarith
    nlinarith
  have h4 : 1 < 1 / 3 * m * (189 * Z3 / ME) := by
    have : 1 ≤ m / ME := by rwa [one_le_div hme]
    calc (1 : ℝ) < 1 / 3 * (189 * 0.4) * 1 := by norm_num
      _ ≤ 1 / 3 * (189 * Z3) * (m / ME) := by gcongr
      _ = _ := by ring
  have h5 : SQRTE * bremsDelta m E v * (189 * Z3 / ME) ≤ 2 / 3 * m * (189 * Z3 / ME) := by gcongr
  linarith

/-- The energy above which the formula of Petrukhin and Shestakov turns negative for nuclei above charge ten. -/
noncomputable def Spec.petrukhinTurn (m Z : ℝ) : ℝ := 94.5 * SQRTE * m ^ 2 * Z ^ (-1 / 3 : ℝ) / ME

/-- C126: for nuclei above charge ten it is positive within the kinematic limits up to an energy (1.15 TeV for muons in iron), and negative at the largest
fraction above it. -/
theorem C126_petrukhin_heavy_partial (m : ℝ) (c : Component) (E : ℝ) (hm : 0 < m) (hZ : 10 < c.nucCharge) (hE : 0 < E) :
    (E < Spec.petrukhinTurn m c.nucCharge → ∀ v, 0 < v → v ≤ petrukhin m c.nucCharge E → 0 < bremsPetrukhin m c E v) ∧
    (Spec.petrukhinTurn m c.nucCharge < E → 0 < petrukhin m c.nucCharge E → bremsPetrukhin m c E (petrukhin m c.nucCharge E) < 0) := by
  have hme := me_pos'
  have hs := sqrte_pos
  have hZ0 : 0 < c.nucCharge := by linarith
  have hcb := cbrt_inv hZ0
  set Z := c.nucCharge with hZd
  set Z3 := Z ^ (-1 / 3 : ℝ) with hZ3
  have hZ30 : 0 < Z3 := by positivity
  set F := 189 * Z3 / ME with hF
  have hF0 : 0 < F := by positivity
  have e : ∀ v, bremsPetrukhin m c E v = ((4 / 3) * (1 - v) + v * v) * Real.log (m * F / (1 + SQRTE * bremsDelta m E v * F) * ((2 / 3) * Z3)) := by
    intro v
    unfold bremsPetrukhin
    simp only [← hZd, ← hZ3, ← hF, if_pos hZ]
  have hv1 : 0 < 0.75 * SQRTE * (m / E) * Z ^ (1 / 3 : ℝ) := by positivity
  have hturn : ∀ x : ℝ, 2 / 3 * m * Z3 * F * (0.75 * SQRTE * (m / x) * Z ^ (1 / 3 : ℝ)) = Spec.petrukhinTurn m Z / x := by
    intro x
    rw [hF]
    unfold Spec.petrukhinTurn
    rw [← hZ3]
    linear_combination (94.5 * SQRTE * m ^ 2 * Z3 / ME / x) * hcb
  constructor
  · intro hturn' v h0 h
    obtain ⟨h1, h2⟩ := delta_in_limits hm hZ0 hE h0 h
    have hδ := brems_delta_pos hm hE h0 h1
    rw [e]
    apply mul_pos spectrum_pos
    apply Real.log_pos
    rw [div_mul_eq_mul_div, one_lt_div (by positivity)]
    have h3 : 1 < 2 / 3 * m * Z3 * F * (1 - v) := by
      have : 1 < Spec.petrukhinTurn m Z / E := by rwa [one_lt_div hE]
      rw [← hturn] at this
      refine this.trans_le ?_
      unfold petrukhin at h
      gcongr
      linarith
    have h4 : SQRTE * bremsDelta m E v * F ≤ 2 / 3 * m * Z3 * v * F := by gcongr
    linarith
  · intro hturn' h0
    set v := petrukhin m Z E with hv
    have h1 : v < 1 := by
      rw [hv]
      unfold petrukhin
      linarith
    have hδ := brems_delta_pos hm hE h0 h1
    have h1v : 1 - v = 0.75 * SQRTE * (m / E) * Z ^ (1 / 3 : ℝ) := by
      rw [hv]
      unfold petrukhin
      ring
    have h2 : SQRTE * bremsDelta m E v = 2 / 3 * m * Z3 * v := by
      unfold bremsDelta
      rw [h1v]
      have hZ3' : Z ^ (1 / 3 : ℝ) = Z3⁻¹ := by
        exact eq_inv_of_mul_eq_one_right hcb
      rw [hZ3']
      field_simp
      norm_num
    rw [e]
    apply mul_neg_of_pos_of_neg spectrum_pos
    apply Real.log_neg
    · positivity
    · rw [div_mul_eq_mul_div, div_lt_one (by positivity), h2]
      have h3 : 2 / 3 * m * Z3 * F * (1 - v) < 1 := by
        rw [h1v, hturn, div_lt_one hE]
        exact hturn'
      linarith

/-- A muon in iron. -/
example : 1.14e6 < Spec.petrukhinTurn MMU 26 ∧ Spec.petrukhinTurn MMU 26 < 1.16e6 := by
  have h := cbrt_bounds (z := 26) (lo := 0.3375) (hi := 0.3376) (by norm_num) (by norm_num) (by norm_num) (by norm_num) (by norm_num)
  unfold Spec.petrukhinTurn MMU ME SQRTE
  constructor
  · rw [lt_div_iff₀ (by norm_num)]
    nlinarith [h.1]
  · rw [div_lt_iff₀ (by norm_num)]
    nlinarith [h.2]

end Proposal
