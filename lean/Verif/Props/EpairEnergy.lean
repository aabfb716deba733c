import Verif.Props.EpairKelner

/-!
# C128: electron pairs by Kelner, Kokoulin and Petrukhin, dependence on the energy
-/

open Set Filter Topology

namespace Proposal

open Classical in
/-- The factor of the logarithm of the electron diagram, as the code uses it. -/
noncomputable def Spec.pairCoef (ξ β r2 : ℝ) : ℝ :=
  if 1 / ξ < HALF_PRECISION then (1.5 - r2 / 2 + β * (1 + r2)) / ξ else epairPhiE ξ β r2

lemma kelner_coef (ξ β r2 L : ℝ) : kelnerPhiE ξ β r2 L = Spec.pairCoef ξ β r2 * max L 0 := by
  unfold kelnerPhiE Spec.pairCoef
  by_cases h : 1 / ξ < HALF_PRECISION
  · rw [if_pos h, if_pos h, ite_max]
  · rw [if_neg h, if_neg h, ite_max]

lemma coef_pos {ξ β r2 : ℝ} (hξ : 0 < ξ) (hβ : 0 ≤ β) (h0 : 0 ≤ r2) (h1 : r2 ≤ 1) : 0 < Spec.pairCoef ξ β r2 := by
  unfold Spec.pairCoef
  by_cases h : 1 / ξ < HALF_PRECISION
  · rw [if_pos h]
    have : 0 ≤ β * (1 + r2) := by positivity
    have : 0 < 1.5 - r2 / 2 + β * (1 + r2) := by linarith
    positivity
  · rw [if_neg h]
    have := C128_phiE ξ β r2 hξ hβ h0 h1
    have : 0 < 1 / (1 + ξ) := by positivity
    linarith

lemma pair_c0 {c : Component} (h : Spec.PairAtom c) : 0 < c.nucCharge ^ (-1 / 3 : ℝ) ∧ 0.2038 ≤ c.nucCharge ^ (-1 / 3 : ℝ) :=
  ⟨Real.rpow_pos_of_pos (by linarith [h.charge]) _, lpm_z3 ⟨h.charge, h.charge', h.number, h.number', h.log⟩⟩

lemma screening_mono {k E E' v r2 a : ℝ} (hk : 0 ≤ k) (ha : 0 ≤ a) (h0 : 0 < v) (hr : r2 < 1) (hE : 0 < E) (hEE : E ≤ E') :
    k / (E' * v * (1 - r2)) * a ≤ k / (E * v * (1 - r2)) * a := by
  have : 0 < 1 - r2 := by linarith
  gcongr

/-- C128: apart from the contribution of the atomic electrons the integrand rises with the energy. -/
theorem C128_energy (m z : ℝ) (c : Component) (E E' v ρ : ℝ) (hc : Spec.PairAtom c) (hm : 0 < m) (hE : 0 < E) (hEE : E ≤ E') (h0 : 0 < v) (h1 : v < 1) (hρ : ρ ^ 2 < 1) :
    epairKelner none m z c E v (1 - ρ) * (c.nucCharge + kelnerZeta m c E') ≤ epairKelner none m z c E' v (1 - ρ) * (c.nucCharge + kelnerZeta m c E) := by
  have hE' : 0 < E' := by linarith
  rw [C128_kelner_value m z c E v ρ hc.charge hm hE h0 h1 hρ, C128_kelner_value m z c E' v ρ hc.charge hm hE' h0 h1 hρ]
  have hz := (C128_electrons m c E hc.charge hm hE).1
  have hz' := (C128_electrons m c E' hc.charge hm hE').1
  have hξ := pair_xi hm h0 h1 hρ
  have hβ := pair_beta h1
  have hr := sq_nonneg ρ
  have hpi := Real.pi_pos
  have hv : 0 < 1 - v := by linarith
  have hZ : 0 < c.nucCharge := by linarith [hc.charge]
  obtain ⟨z0, z1⟩ := pair_c0 hc
  have hB := hc.log
  have hme := me_pos'
  have hse := sqrte_pos'
  have hcore : Spec.pairCore m z c E v (ρ ^ 2) ≤ Spec.pairCore m z c E' v (ρ ^ 2) := by
    unfold Spec.pairCore
    rw [kelner_coef, kelner_coef]
    set ξ := epairXi m v (ρ ^ 2)
    set β := epairBeta v
    obtain ⟨y0, -, y2, -⟩ := C128_screening ξ β (ρ ^ 2) hξ hβ hr hρ.le
    have hk : 0 ≤ 2 * ME * SQRTE * c.logConstant * c.nucCharge ^ (-1 / 3 : ℝ) := by positivity
    have hr' : 0 < 1 - ρ ^ 2 := by linarith
    have l1 : kelnerLe m c E v (ρ ^ 2) ξ (kelnerYe ξ β (ρ ^ 2)) ≤ kelnerLe m c E' v (ρ ^ 2) ξ (kelnerYe ξ β (ρ ^ 2)) := by
      unfold kelnerLe
      simp only
      have ha : 0 < (1 + ξ) * (1 + kelnerYe ξ β (ρ ^ 2)) := by positivity
      have := screening_mono hk ha.le h0 hρ hE hEE
      apply sub_le_sub_right
      apply Real.log_le_log
      · positivity
      · apply div_le_div_of_nonneg_left
        · positivity
        · positivity
        · linarith
    have l2 : kelnerLmu m c E v (ρ ^ 2) ξ (kelnerYmu ξ β (ρ ^ 2)) ≤ kelnerLmu m c E' v (ρ ^ 2) ξ (kelnerYmu ξ β (ρ ^ 2)) := by
      unfold kelnerLmu
      simp only
      have ha : 0 < (1 + ξ) * (1 + kelnerYmu ξ β (ρ ^ 2)) := by positivity
      have := screening_mono hk ha.le h0 hρ hE hEE
      apply Real.log_le_log
      · positivity
      · apply div_le_div_of_nonneg_left
        · positivity
        · positivity
        · rw [← mul_assoc, ← mul_assoc] at this
          linarith
    have c1 := coef_pos hξ hβ hr hρ.le
    have c2 := (C128_phiMu _ _ _ hξ hβ hr hρ.le).2
    apply add_le_add
    · exact mul_le_mul_of_nonneg_left (max_le_max_right 0 l1) c1.le
    · exact mul_le_mul_of_nonneg_left (mul_le_mul_of_nonneg_left (max_le_max_right 0 l2) c2.le) (mul_self_nonneg _)
  have : 0 ≤ 4 / (3 * Real.pi) * (ALPHA * RE * z) ^ 2 * c.nucCharge * (c.nucCharge + kelnerZeta m c E) * ((1 - v) / v) * (c.nucCharge + kelnerZeta m c E') := by positivity
  have := mul_le_mul_of_nonneg_left hcore this
  linarith

/-! ## High energies -/

/-- The contribution of the atomic electrons with complete screening. -/
noncomputable def Spec.pairZetaHigh (γ1 γ2 Z : ℝ) : ℝ :=
  (0.073 * Real.log (1 / (γ1 * Z ^ (2 / 3 : ℝ))) - 0.26) / (0.058 * Real.log (1 / (γ2 * Z ^ (1 / 3 : ℝ))) - 0.14)

/-- The logarithms with complete screening. -/
noncomputable def Spec.pairLeHigh (m Z B ξ Y : ℝ) : ℝ :=
  Real.log (B * Z ^ (-1 / 3 : ℝ) * Real.sqrt ((1 + ξ) * (1 + Y))) - 1 / 2 * Real.log (1 + (3 / 2 * (ME / m) * Z ^ (1 / 3 : ℝ)) ^ 2 * ((1 + ξ) * (1 + Y)))
noncomputable def Spec.pairLmuHigh (m Z B : ℝ) : ℝ := Real.log (2 / 3 * (m / ME) * B * Z ^ (-2 / 3 : ℝ))

lemma inv_energy {k v r2 : ℝ} (h0 : 0 < v) (hr : r2 < 1) : Tendsto (fun E : ℝ => k / (E * v * (1 - r2))) atTop (𝓝 0) := by
  have hr' : 0 < 1 - r2 := by linarith
  apply Tendsto.div_atTop tendsto_const_nhds
  have := (tendsto_id (α := ℝ) (x := atTop)).atTop_mul_const (mul_pos h0 hr')
  exact this.congr fun E => by simp only [id]; ring

lemma le_high (m : ℝ) (c : Component) (v r2 ξ Y : ℝ) (hc : Spec.PairAtom c) (hm : 0 < m) (h0 : 0 < v) (hr : r2 < 1) (hξ : 0 < ξ) (hY : 0 < Y) :
    Tendsto (fun E => kelnerLe m c E v r2 ξ Y) atTop (𝓝 (Spec.pairLeHigh m c.nucCharge c.logConstant ξ Y)) := by
  obtain ⟨z0, z1⟩ := pair_c0 hc
  obtain ⟨e1, e2, e3⟩ := cbrt_sq (by linarith [hc.charge] : 0 < c.nucCharge)
  have hB := hc.log
  unfold kelnerLe Spec.pairLeHigh
  simp only
  rw [← e2]
  have ha : 0 < (1 + ξ) * (1 + Y) := by positivity
  set Z3 := c.nucCharge ^ (-1 / 3 : ℝ)
  have h := (((inv_energy (k := 2 * ME * SQRTE * c.logConstant * Z3) h0 hr).mul_const ((1 + ξ) * (1 + Y))).const_add 1)
  rw [zero_mul, add_zero] at h
  have hq : Tendsto (fun E => (c.logConstant * Z3 * Real.sqrt ((1 + ξ) * (1 + Y))) / (1 + 2 * ME * SQRTE * c.logConstant * Z3 / (E * v * (1 - r2)) * ((1 + ξ) * (1 + Y)))) atTop
      (𝓝 (c.logConstant * Z3 * Real.sqrt ((1 + ξ) * (1 + Y)) / 1)) := tendsto_const_nhds.div h one_ne_zero
  rw [div_one] at hq
  have hl := hq.log (by positivity)
  have e : (1.5 * ME / (m * Z3)) * (1.5 * ME / (m * Z3)) * ((1 + ξ) * (1 + Y)) = (3 / 2 * (ME / m) * (1 / Z3)) ^ 2 * ((1 + ξ) * (1 + Y)) := by
    rw [show (1.5 : ℝ) = 3 / 2 by norm_num]
    field_simp
  rw [e, show (0.5 : ℝ) = 1 / 2 by norm_num]
  exact hl.sub_const _

lemma lmu_high (m : ℝ) (c : Component) (v r2 ξ Y : ℝ) (hc : Spec.PairAtom c) (hm : 0 < m) (h0 : 0 < v) (hr : r2 < 1) :
    Tendsto (fun E => kelnerLmu m c E v r2 ξ Y) atTop (𝓝 (Spec.pairLmuHigh m c.nucCharge c.logConstant)) := by
  obtain ⟨z0, z1⟩ := pair_c0 hc
  obtain ⟨e1, e2, e3⟩ := cbrt_sq (by linarith [hc.charge] : 0 < c.nucCharge)
  have hB := hc.log
  have hme := me_pos'
  unfold kelnerLmu Spec.pairLmuHigh
  simp only
  rw [← e3]
  set Z3 := c.nucCharge ^ (-1 / 3 : ℝ)
  have h := ((((inv_energy (k := 2 * ME * SQRTE * c.logConstant * Z3) h0 hr).mul_const (1 + ξ)).mul_const (1 + Y)).const_add 1)
  rw [zero_mul, zero_mul, add_zero] at h
  have hq : Tendsto (fun E => (c.logConstant / (1.5 * ME / (m * Z3)) * Z3) / (1 + 2 * ME * SQRTE * c.logConstant * Z3 / (E * v * (1 - r2)) * (1 + ξ) * (1 + Y))) atTop
      (𝓝 (c.logConstant / (1.5 * ME / (m * Z3)) * Z3 / 1)) := tendsto_const_nhds.div h one_ne_zero
  rw [div_one] at hq
  have e : c.logConstant / (1.5 * ME / (m * Z3)) * Z3 = 2 / 3 * (m / ME) * c.logConstant * (Z3 * Z3) := by
    rw [show (1.5 : ℝ) = 3 / 2 by norm_num]
    field_simp
  rw [e] at hq
  exact (hq.log (by positivity)).congr fun E => by rw [e]

lemma high_logs (m : ℝ) (c : Component) (ξ Y : ℝ) (hc : Spec.PairAtom c) (hm : ME ≤ m) (hξ : 0 < ξ) (hY : 0 < Y) :
    0 < Spec.pairLeHigh m c.nucCharge c.logConstant ξ Y ∧ 0 < Spec.pairLmuHigh m c.nucCharge c.logConstant := by
  obtain ⟨z0, z1⟩ := pair_c0 hc
  obtain ⟨e1, e2, e3⟩ := cbrt_sq (by linarith [hc.charge] : 0 < c.nucCharge)
  have hB := hc.log
  have hme := me_pos'
  unfold Spec.pairLeHigh Spec.pairLmuHigh
  rw [← e2, ← e3]
  set Z3 := c.nucCharge ^ (-1 / 3 : ℝ)
  have ha : 1 ≤ (1 + ξ) * (1 + Y) := by nlinarith [mul_pos hξ hY]
  set a := (1 + ξ) * (1 + Y)
  have hBZ : 20.38 ≤ c.logConstant * Z3 := by nlinarith
  have hm0 : 0 < m := by linarith
  have hr : ME / m ≤ 1 := by
    rw [div_le_one hm0]
    exact hm
  have hr0 : 0 < ME / m := by positivity
  constructor
  · have hq : 3 / 2 * (ME / m) * (1 / Z3) ≤ 7.5 := by
      have : 1 / Z3 ≤ 5 := by
        rw [div_le_iff₀ z0]
        linarith
      have h0 : 0 < 1 / Z3 := by positivity
      nlinarith
    have hq0 : 0 < 3 / 2 * (ME / m) * (1 / Z3) := by positivity
    set q := 3 / 2 * (ME / m) * (1 / Z3)
    clear_value q
    have hs : 0 < Real.sqrt a := Real.sqrt_pos.mpr (by linarith)
    have h1 : 1 + q ^ 2 * a < (c.logConstant * Z3 * Real.sqrt a) ^ 2 := by
      rw [mul_pow, Real.sq_sqrt (by linarith)]
      have : (415 : ℝ) ≤ (c.logConstant * Z3) ^ 2 := by nlinarith
      have : q ^ 2 ≤ 57 := by nlinarith
      nlinarith
    have h2 := Real.log_lt_log (by positivity) h1
    rw [Real.log_pow] at h2
    norm_num at h2
    linarith
  · apply Real.log_pos
    have h1 : 1 ≤ m / ME := by
      rw [le_div_iff₀ hme]
      linarith
    have h2 : 4 ≤ c.logConstant * (Z3 * Z3) := by nlinarith
    have : 4 ≤ (m / ME) * (c.logConstant * (Z3 * Z3)) := by nlinarith
    linarith

lemma z23_bound {Z : ℝ} (h : 1 ≤ Z) (h' : Z ≤ 118) : 1 ≤ Z ^ (1 / 3 : ℝ) ∧ Z ^ (1 / 3 : ℝ) ≤ 5 ∧ Z ^ (2 / 3 : ℝ) ≤ 25 := by
  obtain ⟨a, b⟩ := one_le_cbrt h
  have : Z ^ (1 / 3 : ℝ) ≤ 5 := by
    refine (Real.rpow_le_rpow (by linarith) (by linarith : Z ≤ 125) (by norm_num)).trans ?_
    rw [show (125 : ℝ) = 5 ^ (3 : ℝ) by norm_num, ← Real.rpow_mul (by norm_num)]
    norm_num
  refine ⟨a, this, ?_⟩
  rw [b]
  nlinarith

lemma gamma_high {g : ℝ} {m : ℝ} (hg : 0 < g) (hm : 0 < m) : Tendsto (fun E : ℝ => Real.log (E / m / (1 + g * (E / m)))) atTop (𝓝 (Real.log (1 / g))) := by
  have h : Tendsto (fun E : ℝ => m / E) atTop (𝓝 0) := tendsto_const_nhds.div_atTop tendsto_id
  have h2 := h.add_const g
  rw [zero_add] at h2
  have h3 : Tendsto (fun E : ℝ => (1 : ℝ) / (m / E + g)) atTop (𝓝 (1 / g)) := tendsto_const_nhds.div h2 hg.ne'
  refine (h3.log (by positivity)).congr' ?_
  filter_upwards [eventually_gt_atTop 0] with E hE
  congr 1
  field_simp

lemma log_ge_five {x : ℝ} (h : 200 ≤ x) : 5 ≤ Real.log x := by
  rw [Real.le_log_iff_exp_le (by linarith)]
  refine le_trans ?_ h
  rw [show (5 : ℝ) = ((5 : ℕ) : ℝ) * 1 by norm_num, Real.exp_nat_mul]
  refine (pow_le_pow_left₀ (Real.exp_pos _).le Real.exp_one_lt_d9.le 5).trans ?_
  norm_num

open Classical in
/-- The limit of the contribution of the electrons, and that it is positive. -/
theorem C128_electrons_high (m : ℝ) (c : Component) (hc : Spec.PairAtom c) (hm : 0 < m) :
    Tendsto (fun E => kelnerZeta m c E) atTop (𝓝 (Spec.pairZetaHigh (if c.nucCharge = 1 then 4.4e-5 else 1.95e-5)
      (if c.nucCharge = 1 then 4.8e-5 else 5.3e-5) c.nucCharge)) ∧
    0 < Spec.pairZetaHigh (if c.nucCharge = 1 then 4.4e-5 else 1.95e-5) (if c.nucCharge = 1 then 4.8e-5 else 5.3e-5) c.nucCharge := by
  obtain ⟨t1, t2, t3⟩ := z23_bound hc.charge hc.charge'
  have hZ : 0 < c.nucCharge := by linarith [hc.charge]
  have p23 : 0 < c.nucCharge ^ (2 / 3 : ℝ) := Real.rpow_pos_of_pos hZ _
  have p13 : 0 < c.nucCharge ^ (1 / 3 : ℝ) := Real.rpow_pos_of_pos hZ _
  have hgen : ∀ g1 g2 : ℝ, 0 < g1 → g1 ≤ 5e-5 → 0 < g2 → g2 ≤ 6e-5 →
      Tendsto (fun E => Spec.pairZeta g1 g2 m c.nucCharge E) atTop (𝓝 (Spec.pairZetaHigh g1 g2 c.nucCharge)) ∧ 0 < Spec.pairZetaHigh g1 g2 c.nucCharge := by
    intro g1 g2 a1 a2 b1 b2
    unfold Spec.pairZeta Spec.pairZetaHigh
    have q1 : 0 < g1 * c.nucCharge ^ (2 / 3 : ℝ) := by positivity
    have q2 : 0 < g2 * c.nucCharge ^ (1 / 3 : ℝ) := by positivity
    have l1 : 5 ≤ Real.log (1 / (g1 * c.nucCharge ^ (2 / 3 : ℝ))) := by
      apply log_ge_five
      rw [le_div_iff₀ q1]
      nlinarith
    have l2 : 5 ≤ Real.log (1 / (g2 * c.nucCharge ^ (1 / 3 : ℝ))) := by
      apply log_ge_five
      rw [le_div_iff₀ q2]
      nlinarith
    have m1 := ((gamma_high q1 hm).const_mul 0.073).sub_const 0.26
    have m2 := ((gamma_high q2 hm).const_mul 0.058).sub_const 0.14
    have n1 := (tendsto_const_nhds (x := (0 : ℝ))).max m1
    have n2 := (tendsto_const_nhds (x := (0 : ℝ))).max m2
    rw [max_eq_right (by linarith : 0 ≤ 0.073 * Real.log (1 / (g1 * c.nucCharge ^ (2 / 3 : ℝ))) - 0.26)] at n1
    rw [max_eq_right (by linarith : 0 ≤ 0.058 * Real.log (1 / (g2 * c.nucCharge ^ (1 / 3 : ℝ))) - 0.14)] at n2
    exact ⟨n1.div n2 (by linarith), div_pos (by linarith) (by linarith)⟩
  have key : ∀ E, kelnerZeta m c E = Spec.pairZeta (if c.nucCharge = 1 then 4.4e-5 else 1.95e-5) (if c.nucCharge = 1 then 4.8e-5 else 5.3e-5) m c.nucCharge E :=
    fun E => (C128_zeta m c E hZ).1
  by_cases h : c.nucCharge = 1
  · simp only [key, if_pos h]
    exact hgen _ _ (by norm_num) (by norm_num) (by norm_num) (by norm_num)
  · simp only [key, if_neg h]
    exact hgen _ _ (by norm_num) (by norm_num) (by norm_num) (by norm_num)

open Classical in
/-- C128: with rising energy the integrand tends to that with complete screening, which is positive. -/
theorem C128_high_energy (m z : ℝ) (c : Component) (v ρ : ℝ) (hc : Spec.PairAtom c) (hm : ME ≤ m) (hz : z ≠ 0) (h0 : 0 < v) (h1 : v < 1) (hρ : ρ ^ 2 < 1) :
    ∃ σ, 0 < σ ∧ Tendsto (fun E => epairKelner none m z c E v (1 - ρ)) atTop (𝓝 σ) ∧
      σ = 4 / (3 * Real.pi) * (ALPHA * RE * z) ^ 2 * c.nucCharge *
        (c.nucCharge + Spec.pairZetaHigh (if c.nucCharge = 1 then 4.4e-5 else 1.95e-5) (if c.nucCharge = 1 then 4.8e-5 else 5.3e-5) c.nucCharge) * ((1 - v) / v) *
        (Spec.pairCoef (epairXi m v (ρ ^ 2)) (epairBeta v) (ρ ^ 2) *
            Spec.pairLeHigh m c.nucCharge c.logConstant (epairXi m v (ρ ^ 2)) (kelnerYe (epairXi m v (ρ ^ 2)) (epairBeta v) (ρ ^ 2)) +
          (ME / m * z) ^ 2 * (epairPhiMu (epairXi m v (ρ ^ 2)) (epairBeta v) (ρ ^ 2) * Spec.pairLmuHigh m c.nucCharge c.logConstant)) := by
  have hme := me_pos'
  have hal := alpha_pos'
  have hre := re_pos'
  have hm0 : 0 < m := by linarith
  have hξ := pair_xi hm0 h0 h1 hρ
  have hβ := pair_beta h1
  have hr := sq_nonneg ρ
  have hpi := Real.pi_pos
  have hv : 0 < 1 - v := by linarith
  have hZ : 0 < c.nucCharge := by linarith [hc.charge]
  obtain ⟨y0, -, y2, -⟩ := C128_screening _ _ (ρ ^ 2) hξ hβ hr hρ.le
  obtain ⟨p1, p2⟩ := high_logs m c _ _ hc hm hξ y0
  obtain ⟨t1, t2⟩ := C128_electrons_high m c hc hm0
  have l1 := (le_high m c v (ρ ^ 2) _ _ hc hm0 h0 hρ hξ y0).max (tendsto_const_nhds (x := (0 : ℝ)))
  have l2 := (lmu_high m c v (ρ ^ 2) (epairXi m v (ρ ^ 2)) (kelnerYmu (epairXi m v (ρ ^ 2)) (epairBeta v) (ρ ^ 2)) hc hm0 h0 hρ).max (tendsto_const_nhds (x := (0 : ℝ)))
  rw [max_eq_left p1.le] at l1
  rw [max_eq_left p2.le] at l2
  have c1 := coef_pos hξ hβ hr hρ.le
  have c2 := (C128_phiMu _ _ _ hξ hβ hr hρ.le).2
  refine ⟨_, ?_, ?_, rfl⟩
  · positivity
  · have hlim := ((((t1.const_add c.nucCharge).const_mul (4 / (3 * Real.pi) * (ALPHA * RE * z) ^ 2 * c.nucCharge)).mul_const ((1 - v) / v))).mul
      ((l1.const_mul (Spec.pairCoef (epairXi m v (ρ ^ 2)) (epairBeta v) (ρ ^ 2))).add
        ((l2.const_mul (epairPhiMu (epairXi m v (ρ ^ 2)) (epairBeta v) (ρ ^ 2))).const_mul ((ME / m * z) ^ 2)))
    refine hlim.congr' ?_
    filter_upwards [eventually_gt_atTop 0] with E hE
    rw [C128_kelner_value m z c E v ρ hc.charge hm0 hE h0 h1 hρ]
    unfold Spec.pairCore
    rw [kelner_coef, sq (ME / m * z)]

end Proposal
