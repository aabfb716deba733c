import Verif.Props.LpmMore

/-!
# C127: the factor exceeds one
-/

open Set Filter Topology

namespace Proposal

lemma log_three_fifths : -0.512 ≤ Real.log 0.6 ∧ Real.log 0.6 ≤ -0.5105 := by
  have h := log_by_power (x := 5 / 3) (lo := 0.5105) (hi := 0.512) 92 47 (by norm_num) (by norm_num) (by norm_num) (by norm_num)
  have : Real.log 0.6 = - Real.log (5 / 3) := by rw [← Real.log_inv]; norm_num
  rw [this]
  constructor <;> linarith [h.1, h.2]

lemma log_range {s : ℝ} (h1 : 1.25e-4 ≤ s) (h2 : s ≤ 2e-4) : -9 ≤ Real.log s ∧ Real.log s ≤ -8.5 := by
  have h0 : 0 < s := by linarith
  have e1 := Real.exp_one_gt_d9
  have e2 := Real.exp_one_lt_d9
  constructor
  · rw [Real.le_log_iff_exp_le h0, show (-9 : ℝ) = -(9 * 1) by norm_num, Real.exp_neg]
    refine le_trans ?_ h1
    rw [inv_le_comm₀ (Real.exp_pos _) (by norm_num), show (9 * 1 : ℝ) = ((9 : ℕ) : ℝ) * 1 by norm_num, Real.exp_nat_mul]
    refine le_trans ?_ (pow_le_pow_left₀ (by norm_num) e1.le 9)
    norm_num
  · have a : 2 * Real.log s ≤ -17 := by
      rw [show 2 * Real.log s = Real.log (s ^ 2) by rw [Real.log_pow]; norm_num, Real.log_le_iff_le_exp (by positivity),
        show (-17 : ℝ) = -(17 * 1) by norm_num, Real.exp_neg]
      have : s ^ 2 ≤ 4e-8 := by nlinarith
      refine this.trans ?_
      rw [le_inv_comm₀ (by norm_num) (Real.exp_pos _), show (17 * 1 : ℝ) = ((17 : ℕ) : ℝ) * 1 by norm_num, Real.exp_nat_mul]
      refine (pow_le_pow_left₀ (Real.exp_pos _).le e2.le 17).trans ?_
      norm_num
    linarith

lemma xi_at {s1 : ℝ} (h1 : 1.25e-4 ≤ s1) (h2 : s1 ≤ 2e-4) : 1.0567 ≤ lpmXi s1 0.6 ∧ lpmXi s1 0.6 ≤ 1.0632 := by
  obtain ⟨l1, l2⟩ := log_range h1 h2
  obtain ⟨m1, m2⟩ := log_three_fifths
  unfold lpmXi
  simp only
  rw [if_neg (by linarith : ¬ (0.6 : ℝ) < s1), if_pos (by norm_num)]
  set L := Real.log s1
  have a1 : 0.0567 ≤ Real.log 0.6 / L := by
    rw [le_div_iff_of_neg (by linarith)]
    linarith
  have a2 : Real.log 0.6 / L ≤ 0.0603 := by
    rw [div_le_iff_of_neg (by linarith)]
    linarith
  set h := Real.log 0.6 / L
  have b0 : 0 ≤ 0.08 * (1 - h) * (1 - (1 - h) * (1 - h)) := by
    have : 0 ≤ 1 - h := by linarith
    have : 0 ≤ 1 - (1 - h) * (1 - h) := by nlinarith
    positivity
  have b1 : 0.08 * (1 - h) * (1 - (1 - h) * (1 - h)) ≤ 0.01 := by
    have c1 : 1 - (1 - h) * (1 - h) ≤ 0.1206 := by nlinarith
    have c0 : 0 ≤ 1 - (1 - h) * (1 - h) := by nlinarith
    nlinarith
  have d1 : 0.08 * (1 - h) * (1 - (1 - h) * (1 - h)) / L ≤ 0 := div_nonpos_of_nonneg_of_nonpos b0 (by linarith)
  have d2 : -0.0029 ≤ 0.08 * (1 - h) * (1 - (1 - h) * (1 - h)) / L := by
    rw [le_div_iff_of_neg (by linarith)]
    linarith
  constructor <;> linarith

lemma phi_at {s : ℝ} (h1 : 0.5818 ≤ s) (h2 : s ≤ 0.6) : 0.951 ≤ migdalPhi s := by
  have p1 := Real.pi_gt_d4
  have p2 := Real.pi_lt_d4
  unfold migdalPhi
  simp only
  rw [if_pos (by linarith)]
  have h : s * s * s / (0.623 + 0.796 * s + 0.658 * (s * s)) ≤ 0.166 := by
    rw [div_le_iff₀ (by nlinarith)]
    have : s * s ≤ 0.36 := by nlinarith
    have : 0.3384 ≤ s * s := by nlinarith
    nlinarith
  have h3 : -6 * s * (1 + (3 - Real.pi) * s) ≤ -3.2 := by nlinarith
  have : Real.exp (-6 * s * (1 + (3 - Real.pi) * s) + s * s * s / (0.623 + 0.796 * s + 0.658 * (s * s))) ≤ Real.exp (-3.03) :=
    Real.exp_le_exp.mpr (by linarith)
  have e : Real.exp (-3.03) ≤ 0.0485 := by
    rw [show (-3.03 : ℝ) = -(((3 : ℕ) : ℝ) * 1 + 0.03) by norm_num, Real.exp_neg, Real.exp_add, Real.exp_nat_mul]
    have a := pow_le_pow_left₀ (by norm_num) Real.exp_one_gt_d9.le 3
    have b := Real.add_one_le_exp (0.03 : ℝ)
    rw [inv_le_comm₀ (by positivity) (by norm_num)]
    have : (20.08 : ℝ) ≤ 2.7182818283 ^ 3 := by norm_num
    have hh : (20.08 : ℝ) * 1.03 ≤ Real.exp 1 ^ 3 * Real.exp 0.03 := by
      apply mul_le_mul (by linarith) (by linarith) (by norm_num) (by positivity)
    refine le_trans ?_ hh
    norm_num
  linarith

/-- C127: the factor is not a suppression everywhere. Electrons in oxygen of any density up to 1e24 atomic electrons per cubic centimetre have, at some energy,
a cross section for losses of one percent that is enlarged by it. -/
theorem C127_above_one (D : LpmData) (ρ : ℝ) (hD : Spec.LpmMedium D) (hm : D.mass = ME) (hρ : 0 < ρ) (h : D.sumCharge * D.molDensity * ρ ≤ 1e24) :
    ∃ E, 0 < E ∧ 1.004 < bremsSuppression D E 0.01 exOx ρ := by
  have he := hD.energy
  have hme := me_pos'
  have hmm := mmu_pos'
  have hal := alpha_pos'
  have hre := re_pos'
  refine ⟨D.eLpm * 0.01 / (23.04 * ρ * (1 - 0.01)), by norm_num; positivity, ?_⟩
  have hsp : 0.125 * Real.sqrt (D.eLpm * 0.01 / (ρ * (D.eLpm * 0.01 / (23.04 * ρ * (1 - 0.01))) * (1 - 0.01))) = 0.6 := by
    have : D.eLpm * 0.01 / (ρ * (D.eLpm * 0.01 / (23.04 * ρ * (1 - 0.01))) * (1 - 0.01)) = 4.8 ^ 2 := by
      field_simp
      norm_num
    rw [this, Real.sqrt_sq (by norm_num)]
    norm_num
  have hZ : (exOx.nucCharge : ℝ) ^ (-1 / 3 : ℝ) = 1 / 2 := by
    have : exOx.nucCharge = 2 ^ (3 : ℝ) := by norm_num [exOx]
    rw [this, ← Real.rpow_mul (by norm_num), show (3 : ℝ) * (-1 / 3) = -1 by norm_num, Real.rpow_neg_one]
    norm_num
  have hs : 1.25e-4 ≤ lpmS1 D.mass exOx ∧ lpmS1 D.mass exOx ≤ 2e-4 := by
    unfold lpmS1
    simp only
    rw [hm, hZ]
    have hA2 : exOx.atomicNum ^ (0.27 : ℝ) ≤ 7 := by
      have a : exOx.atomicNum ^ (0.27 : ℝ) ≤ exOx.atomicNum ^ (1 : ℝ) := Real.rpow_le_rpow_of_exponent_le (by norm_num [exOx]) (by norm_num)
      have b : exOx.atomicNum ^ (0.27 : ℝ) ≤ (128 : ℝ) ^ (2 / 7 : ℝ) := by
        refine (Real.rpow_le_rpow (by norm_num [exOx]) (by norm_num [exOx] : exOx.atomicNum ≤ 128) (by norm_num)).trans ?_
        exact Real.rpow_le_rpow_of_exponent_le (by norm_num) (by norm_num)
      have d : (128 : ℝ) ^ (2 / 7 : ℝ) = 4 := by
        rw [show (128 : ℝ) = 2 ^ (7 : ℝ) by norm_num, ← Real.rpow_mul (by norm_num)]
        norm_num
      linarith
    have hA0 : 0 ≤ exOx.atomicNum ^ (0.27 : ℝ) := by
      apply Real.rpow_nonneg
      norm_num [exOx]
    set A := exOx.atomicNum ^ (0.27 : ℝ)
    have e : ME / (ME * (1 / 2) * exOx.logConstant) = 2 / 173.4 := by
      rw [show exOx.logConstant = 173.4 by norm_num [exOx]]
      field_simp
    rw [e]
    have h0 : 0 ≤ ME / MMU * (1.54 * A) := by positivity
    have h1 : ME / MMU * (1.54 * A) ≤ 0.0539 := by
      have : ME / MMU ≤ 0.005 := by norm_num [ME, MMU]
      have : 0 < ME / MMU := by positivity
      nlinarith
    have h2 : ME / MMU * (1.54 * A) * (ME / MMU * (1.54 * A)) ≤ 0.003 := by nlinarith
    have h3 : 0 ≤ ME / MMU * (1.54 * A) * (ME / MMU * (1.54 * A)) := by positivity
    set q := ME / MMU * (1.54 * A) * (ME / MMU * (1.54 * A))
    constructor
    · norm_num [SQRT2]
      linarith
    · norm_num [SQRT2]
      linarith
  have hΓ : 1 < 1 + 4 * Real.pi * D.sumCharge * RE * (RE * ME / (ALPHA * D.mass * 0.01)) * (RE * ME / (ALPHA * D.mass * 0.01)) * D.molDensity * ρ := by
    apply lpm_gamma _ _ hD hρ
    · rw [hm]
      positivity
    · positivity
  have hΓ2 : 1 + 4 * Real.pi * D.sumCharge * RE * (RE * ME / (ALPHA * D.mass * 0.01)) * (RE * ME / (ALPHA * D.mass * 0.01)) * D.molDensity * ρ ≤ 1.0001 := by
    have e : RE * ME / (ALPHA * D.mass * 0.01) = RE / (ALPHA * 0.01) := by
      rw [hm]
      field_simp
    rw [e]
    have a : RE / (ALPHA * 0.01) ≤ 4e-9 := by
      rw [div_le_iff₀ (by positivity)]
      norm_num [RE, ALPHA]
    have a0 : 0 ≤ RE / (ALPHA * 0.01) := by positivity
    have b : RE / (ALPHA * 0.01) * (RE / (ALPHA * 0.01)) ≤ 1.6e-17 := by nlinarith
    have c : RE ≤ 3e-13 := by norm_num [RE]
    have p := Real.pi_lt_d4
    have pp := Real.pi_pos
    set y := RE / (ALPHA * 0.01)
    have d : RE * (y * y) ≤ 3e-13 * 1.6e-17 := by
      apply mul_le_mul c b (by positivity) (by norm_num)
    have f : 4 * Real.pi * (D.sumCharge * D.molDensity * ρ) ≤ 4 * 3.1416 * 1e24 := by
      apply mul_le_mul (by linarith) h
      · have := hD.sum
        have := hD.density
        positivity
      · norm_num
    have g : 4 * Real.pi * (D.sumCharge * D.molDensity * ρ) * (RE * (y * y)) ≤ 4 * 3.1416 * 1e24 * (3e-13 * 1.6e-17) :=
      mul_le_mul f d (by positivity) (by norm_num)
    have k : 4 * Real.pi * D.sumCharge * RE * y * y * D.molDensity * ρ = 4 * Real.pi * (D.sumCharge * D.molDensity * ρ) * (RE * (y * y)) := by ring
    rw [k]
    norm_num at g ⊢
    linarith
  unfold bremsSuppression
  simp only
  rw [hsp]
  obtain ⟨x1, x2⟩ := xi_at hs.1 hs.2
  set ξ := lpmXi (lpmS1 D.mass exOx) 0.6
  set Γ := 1 + 4 * Real.pi * D.sumCharge * RE * (RE * ME / (ALPHA * D.mass * 0.01)) * (RE * ME / (ALPHA * D.mass * 0.01)) * D.molDensity * ρ
  clear_value ξ Γ
  clear hs hsp h hZ
  have r1 : 1.0279 ≤ Real.sqrt ξ := Real.le_sqrt_of_sq_le (by norm_num; linarith)
  have r2 : Real.sqrt ξ ≤ 1.0312 := by
    rw [Real.sqrt_le_left (by norm_num)]
    norm_num
    linarith
  have q1 : 0.5818 ≤ 0.6 / Real.sqrt ξ := by
    rw [le_div_iff₀ (by linarith)]
    linarith
  have q2 : 0.6 / Real.sqrt ξ ≤ 0.584 := by
    rw [div_le_iff₀ (by linarith)]
    linarith
  have hs1 : 0.5818 ≤ 0.6 / Real.sqrt ξ * Γ := by nlinarith
  have hs2 : 0.6 / Real.sqrt ξ * Γ ≤ 0.6 := by nlinarith
  have hphi := phi_at hs1 hs2
  have hG := (G_bounds (by linarith : 0 < 0.6 / Real.sqrt ξ * Γ)).1
  set s := 0.6 / Real.sqrt ξ * Γ
  clear_value s
  have t1 : 0.9509 ≤ migdalPhi s / Γ := by
    rw [le_div_iff₀ (by linarith)]
    nlinarith
  have t2 : 0 < (0.01 * 0.01) * migdalG s / (Γ * Γ) := by positivity
  have t3 : 2 * (1 + (1 - 0.01) * (1 - 0.01)) * migdalPhi s / Γ = 2 * (1 + (1 - 0.01) * (1 - 0.01)) * (migdalPhi s / Γ) := by ring
  rw [t3, lt_div_iff₀ (by norm_num)]
  nlinarith

/-- Water, with the density of electrons of the tables. -/
example : ∃ E, 0 < E ∧ 1.004 < bremsSuppression ⟨ME, 3.35e22, 10, 1e8⟩ E 0.01 exOx 1 :=
  C127_above_one _ 1 ⟨le_refl _, by norm_num, by norm_num, by norm_num⟩ rfl (by norm_num) (by norm_num)

/-- The hypotheses on atoms are those of oxygen. -/
example : Spec.LpmAtom exOx := ⟨by norm_num [exOx], by norm_num [exOx], by norm_num [exOx], by norm_num [exOx], by norm_num [exOx]⟩

end Proposal
