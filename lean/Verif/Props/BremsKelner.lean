import Verif.Props.BremsSigns

/-!
# C126: signs of bremsstrahlung after Kelner, Kokoulin and Petrukhin, jumps of the radiative corrections
-/

open Set Filter Topology

namespace Proposal

lemma exp_half : Real.exp (1 / 2) ≤ SQRTE + 1e-9 := by
  have h : Real.exp (1 / 2) ^ 2 = Real.exp 1 := by
    rw [← Real.exp_nat_mul]
    norm_num
  have h1 := Real.exp_one_lt_d9
  have h2 : (0 : ℝ) ≤ SQRTE + 1e-9 := by norm_num [SQRTE]
  apply le_of_sq_le_sq₀ _ h2
  rw [h]
  refine h1.le.trans ?_
  norm_num [SQRTE]
where
  le_of_sq_le_sq₀ {a b : ℝ} (h : a ^ 2 ≤ b ^ 2) (hb : 0 ≤ b) : a ≤ b := by
    exact le_of_sq_le_sq' h hb
  le_of_sq_le_sq' {a b : ℝ} (h : a ^ 2 ≤ b ^ 2) (hb : 0 ≤ b) : a ≤ b := by
    nlinarith [sq_nonneg (a - b), sq_nonneg (a + b)]

/-- The elastic part exceeds `l` if the momentum transfer is small enough. -/
lemma kelner_elastic {m δ D b l : ℝ} (hm : 0 < m) (hδ : 0 < δ) (hD : 2 ≤ D * SQRTE) (hb : 0 < b)
    (h : Real.exp (0.5 + l) * (δ + ME / (SQRTE * b)) * D < m - 2 * δ + δ * D * SQRTE) :
    l < Real.log (m / δ) - 0.5 - Real.log (1 + ME / (δ * SQRTE * b)) - Real.log (D / (1 + δ * (D * SQRTE - 2) / m)) := by
  have hs := sqrte_pos
  have hme := me_pos'
  have hD0 : 0 < D := by
    by_contra hc
    push Not at hc
    nlinarith
  have hden : 0 < 1 + δ * (D * SQRTE - 2) / m := by
    have : 0 ≤ δ * (D * SQRTE - 2) / m := by
      apply div_nonneg _ hm.le
      apply mul_nonneg hδ.le
      linarith
    linarith
  have e : 0.5 + l + Real.log (1 + ME / (δ * SQRTE * b)) + Real.log (D / (1 + δ * (D * SQRTE - 2) / m)) =
      Real.log (Real.exp (0.5 + l) * (1 + ME / (δ * SQRTE * b)) * (D / (1 + δ * (D * SQRTE - 2) / m))) := by
    rw [Real.log_mul (by positivity) (by positivity), Real.log_mul (by positivity) (by positivity), Real.log_exp]
  have hlt : Real.log (Real.exp (0.5 + l) * (1 + ME / (δ * SQRTE * b)) * (D / (1 + δ * (D * SQRTE - 2) / m))) < Real.log (m / δ) := by
    apply Real.log_lt_log (by positivity)
    rw [← mul_div_assoc, div_lt_div_iff₀ hden hδ]
    have e1 : Real.exp (0.5 + l) * (1 + ME / (δ * SQRTE * b)) * D * δ = Real.exp (0.5 + l) * (δ + ME / (SQRTE * b)) * D := by
      field_simp
    have e2 : m * (1 + δ * (D * SQRTE - 2) / m) = m - 2 * δ + δ * D * SQRTE := by
      field_simp
      ring
    rw [e1, e2]
    exact h
  linarith

/-- Below the largest fraction for scattering off atomic electrons the momentum transfer is less than the mass of the electron. -/
lemma inelastic_delta {m E v : ℝ} (hm : 0 < m) (hE : m < E) (h1 : v < 1) (h : v < bremsInelasticMax m E) : bremsDelta m E v < ME := by
  have hme := me_pos'
  have hE0 : 0 < E := by linarith
  unfold bremsInelasticMax at h
  simp only at h
  rw [max_eq_left (by nlinarith)] at h
  set p := Real.sqrt ((E - m) * (E + m)) with hp
  have hp2 : p ^ 2 = (E - m) * (E + m) := Real.sq_sqrt (by nlinarith)
  have hp0 : 0 ≤ p := Real.sqrt_nonneg _
  have hpE : p < E := by nlinarith
  have hden : 0 < E * (E - p + ME) := mul_pos hE0 (by linarith)
  rw [lt_div_iff₀ hden] at h
  unfold bremsDelta
  rw [div_lt_iff₀ (by have : 0 < 1 - v := by linarith
                      positivity)]
  -- `v E (g + ME) < ME (E - m)` with `g = E - p`
  set g := E - p with hg
  have hg0 : 0 < g := by linarith
  have hEg : 2 * E * g = m ^ 2 + g ^ 2 := by
    rw [hg]
    nlinarith
  have hv : v * (E * g + ME * m) < ME * (E - m) * (1 - v) := by nlinarith
  have hpos : 0 < E * g + ME * m := by positivity
  have hle : m * m * (E - m) ≤ 2 * E * (E * g + ME * m) := by
    have : 2 * E * (E * g) = E * (m ^ 2 + g ^ 2) := by rw [← hEg]; ring
    nlinarith [mul_pos hE0 (mul_pos hme hm), mul_pos hm hm, mul_pos (mul_pos hm hm) hm, mul_nonneg hE0.le (sq_nonneg g)]
  have h3 : m * m * v * (E * g + ME * m) < m * m * (ME * (E - m) * (1 - v)) := by
    have := mul_lt_mul_of_pos_left hv (mul_pos hm hm)
    linarith
  have h4 : m * m * (ME * (E - m) * (1 - v)) ≤ ME * (2 * E * (1 - v)) * (E * g + ME * m) := by
    have h5 : 0 ≤ ME * (1 - v) := mul_nonneg hme.le (by linarith)
    have := mul_le_mul_of_nonneg_left hle h5
    linarith
  exact lt_of_mul_lt_mul_right (h3.trans_le h4) hpos.le

/-- The inelastic part is hardly negative for momentum transfers up to the mass of the electron. -/
lemma kelner_inelastic {m δ b : ℝ} (hm : 100 * ME ≤ m) (hδ : 0 < δ) (hδ' : δ ≤ ME) (hb : 16 ≤ b) :
    -0.06 ≤ Real.log (m / (δ * (δ * m / (ME * ME) + SQRTE))) - Real.log (1 + ME / (δ * SQRTE * b)) := by
  have hs := sqrte_pos
  have hs2 : SQRTE ≤ 1.65 := by norm_num [SQRTE]
  have hs3 : 1.64 ≤ SQRTE := by norm_num [SQRTE]
  have hme := me_pos'
  have hm0 : 0 < m := by linarith
  have hb0 : 0 < b := by linarith
  have e : Real.log (m / (δ * (δ * m / (ME * ME) + SQRTE))) - Real.log (1 + ME / (δ * SQRTE * b)) =
      - Real.log ((δ / ME + SQRTE * ME / m) * (δ / ME + 1 / (SQRTE * b))) := by
    rw [← Real.log_div (by positivity) (by positivity), ← Real.log_inv]
    congr 1
    field_simp
  rw [e]
  have hle : (δ / ME + SQRTE * ME / m) * (δ / ME + 1 / (SQRTE * b)) ≤ (1 + 0.0165) * (1 + 0.0382) := by
    have a1 : δ / ME ≤ 1 := by rwa [div_le_one hme]
    have a2 : SQRTE * ME / m ≤ 0.0165 := by
      rw [div_le_iff₀ hm0]
      nlinarith
    have a3 : 1 / (SQRTE * b) ≤ 0.0382 := by
      rw [div_le_iff₀ (by positivity)]
      nlinarith
    gcongr
  have hpos : 0 < (δ / ME + SQRTE * ME / m) * (δ / ME + 1 / (SQRTE * b)) := by positivity
  have := Real.log_le_sub_one_of_pos hpos
  have : (1 + 0.0165 : ℝ) * (1 + 0.0382) ≤ 1.06 := by norm_num
  linarith

lemma kelner_small {m ε D b : ℝ} (hm : 100 * ME ≤ m) (hb : 20 ≤ b) (hD1 : 1.54 ≤ D) (hD2 : D ≤ 10.78) (hε : ε = ME / (SQRTE * b)) :
    0 < ε ∧ D * ε ≤ 0.0034 * m := by
  have hs3 : 1.64 ≤ SQRTE := by norm_num [SQRTE]
  have hme := me_pos'
  have hm0 : 0 < m := by linarith
  have hp : 0 < SQRTE * b := by nlinarith
  have h1 : ε ≤ 0.00031 * m := by
    rw [hε, div_le_iff₀ hp]
    have : 32.8 ≤ SQRTE * b := by nlinarith
    nlinarith
  have h2 : 0 < ε := by
    rw [hε]
    positivity
  exact ⟨h2, by nlinarith⟩

lemma kelner_elastic0 {m δ D b : ℝ} (hm : 100 * ME ≤ m) (hδ : 0 < δ) (hw : δ ≤ 0.407 * m) (hb : 20 ≤ b) (hD1 : 1.54 ≤ D) (hD2 : D ≤ 10.78) :
    0 < Real.log (m / δ) - 0.5 - Real.log (1 + ME / (δ * SQRTE * b)) - Real.log (D / (1 + δ * (D * SQRTE - 2) / m)) := by
  have hs := sqrte_pos
  have hs2 : SQRTE ≤ 1.65 := by norm_num [SQRTE]
  have hs3 : 1.64 ≤ SQRTE := by norm_num [SQRTE]
  have hme := me_pos'
  have hm0 : 0 < m := by linarith
  obtain ⟨e0, e1⟩ := kelner_small hm hb hD1 hD2 rfl
  apply kelner_elastic hm0 hδ (by nlinarith) (by linarith)
  set ε := ME / (SQRTE * b)
  have e : Real.exp (0.5 + 0) ≤ SQRTE + 1e-9 := by
    have : (0.5 + 0 : ℝ) = 1 / 2 := by norm_num
    rw [this]
    exact exp_half
  have hX : 0 ≤ (δ + ε) * D := by positivity
  have h3 : D * δ ≤ 10.78 * δ := by nlinarith
  calc Real.exp (0.5 + 0) * (δ + ε) * D = Real.exp (0.5 + 0) * ((δ + ε) * D) := by ring
    _ ≤ (SQRTE + 1e-9) * ((δ + ε) * D) := mul_le_mul_of_nonneg_right e hX
    _ = δ * D * SQRTE + SQRTE * (D * ε) + 1e-9 * (D * δ) + 1e-9 * (D * ε) := by ring
    _ < m - 2 * δ + δ * D * SQRTE := by
      have : SQRTE * (D * ε) ≤ 1.65 * (0.0034 * m) := by
        have : 0 ≤ D * ε := by positivity
        nlinarith
      linarith

lemma kelner_elastic1 {m δ D b : ℝ} (hm : 100 * ME ≤ m) (hδ : 0 < δ) (hw : δ ≤ ME) (hb : 20 ≤ b) (hD1 : 1.54 ≤ D) (hD2 : D ≤ 10.78) :
    0.06 < Real.log (m / δ) - 0.5 - Real.log (1 + ME / (δ * SQRTE * b)) - Real.log (D / (1 + δ * (D * SQRTE - 2) / m)) := by
  have hs := sqrte_pos
  have hs3 : 1.64 ≤ SQRTE := by norm_num [SQRTE]
  have hme := me_pos'
  have hm0 : 0 < m := by linarith
  obtain ⟨e0, e1⟩ := kelner_small hm hb hD1 hD2 rfl
  apply kelner_elastic hm0 hδ (by nlinarith) (by linarith)
  set ε := ME / (SQRTE * b)
  have e : Real.exp (0.5 + 0.06) ≤ 1.76 := by
    rw [Real.exp_add]
    have e2 : Real.exp 0.06 ≤ 1.064 := by
      have := Real.add_one_le_exp (-0.06)
      rw [Real.exp_neg] at this
      have hp := Real.exp_pos 0.06
      have h3 : (0.94 : ℝ) ≤ (Real.exp 0.06)⁻¹ := by linarith
      rw [le_inv_comm₀ (by norm_num) hp] at h3
      refine h3.trans ?_
      norm_num
    have e1 : Real.exp 0.5 ≤ 1.6488 := by
      have : (0.5 : ℝ) = 1 / 2 := by norm_num
      rw [this]
      refine exp_half.trans ?_
      norm_num [SQRTE]
    have := Real.exp_pos 0.06
    nlinarith [Real.exp_pos 0.5]
  have hX : 0 ≤ (δ + ε) * D := by positivity
  have h3 : D * δ ≤ 10.78 * δ := by nlinarith
  calc Real.exp (0.5 + 0.06) * (δ + ε) * D = Real.exp (0.5 + 0.06) * ((δ + ε) * D) := by ring
    _ ≤ 1.76 * ((δ + ε) * D) := mul_le_mul_of_nonneg_right e hX
    _ = 1.76 * (D * δ) + 1.76 * (D * ε) := by ring
    _ < m - 2 * δ + δ * D * SQRTE := by
      have : 1.64 * (D * δ) ≤ δ * D * SQRTE := by
        have : 0 ≤ D * δ := by positivity
        nlinarith
      linarith

lemma kelner_nuclear {m δ D : ℝ} (hm : 0 < m) (hδ : 0 < δ) (hw : δ ≤ 0.407 * m) (hD1 : 1.54 ≤ D) :
    0 ≤ Real.log (D / (1 + δ * (D * SQRTE - 2) / m)) := by
  have hs2 : SQRTE ≤ 1.65 := by norm_num [SQRTE]
  have hs3 : 1.64 ≤ SQRTE := by norm_num [SQRTE]
  apply Real.log_nonneg
  have h2 : 2 ≤ D * SQRTE := by nlinarith
  have hq : δ * (D * SQRTE - 2) / m ≤ 0.407 * (D * SQRTE - 2) := by
    rw [div_le_iff₀ hm]
    nlinarith
  have hq0 : 0 ≤ δ * (D * SQRTE - 2) / m := by
    apply div_nonneg _ hm.le
    apply mul_nonneg hδ.le
    linarith
  rw [one_le_div (by linarith)]
  nlinarith

/-- C126: bremsstrahlung after Kelner, Kokoulin and Petrukhin of muons and heavier particles is positive within the kinematic limits. -/
theorem C126_kelner_positive (m : ℝ) (c : Component) (E v : ℝ) (hm : 100 * ME ≤ m) (hZ : 1 ≤ c.nucCharge) (hZ' : c.nucCharge ≤ 118)
    (hA : 1 ≤ c.atomicNum) (hA' : c.atomicNum ≤ 300) (hB : 100 ≤ c.logConstant) (hB' : 400 ≤ c.bPrime) (hE : m < E) (h0 : 0 < v)
    (h : v ≤ petrukhin m c.nucCharge E) : 0 < bremsKelner m c E v := by
  have hs := sqrte_pos
  have hs2 : SQRTE ≤ 1.65 := by norm_num [SQRTE]
  have hs3 : 1.64 ≤ SQRTE := by norm_num [SQRTE]
  have hme := me_pos'
  have hm0 : 0 < m := by linarith
  have hE0 : 0 < E := by linarith
  have hZ0 : 0 < c.nucCharge := by linarith
  obtain ⟨h1, h2⟩ := delta_in_limits hm0 hZ0 hE0 h0 h
  have hδ := brems_delta_pos hm0 hE0 h0 h1
  have hz1 := cbrt_le_one hZ
  have hz2 : 0.2038 ≤ c.nucCharge ^ (-1 / 3 : ℝ) := by
    have b := (cbrt_bounds (z := 118) (lo := 0.2038) (hi := 0.2040) (by norm_num) (by norm_num) (by norm_num) (by norm_num) (by norm_num)).1
    refine b.trans ?_
    apply Real.rpow_le_rpow_of_nonpos hZ0 hZ'
    norm_num
  have hA1 : 1 ≤ c.atomicNum ^ (0.27 : ℝ) := Real.one_le_rpow hA (by norm_num)
  have hA2 : c.atomicNum ^ (0.27 : ℝ) ≤ 7 := by
    have a : c.atomicNum ^ (0.27 : ℝ) ≤ c.atomicNum ^ (1 / 3 : ℝ) := Real.rpow_le_rpow_of_exponent_le hA (by norm_num)
    have b : c.atomicNum ^ (1 / 3 : ℝ) ≤ (343 : ℝ) ^ (1 / 3 : ℝ) := by
      apply Real.rpow_le_rpow <;> linarith
    have d : (343 : ℝ) ^ (1 / 3 : ℝ) = 7 := by
      rw [show (343 : ℝ) = 7 ^ (3 : ℝ) by norm_num, ← Real.rpow_mul (by norm_num)]
      norm_num
    linarith
  unfold bremsKelner
  simp only
  set Z3 := c.nucCharge ^ (-1 / 3 : ℝ)
  set D := 1.54 * c.atomicNum ^ (0.27 : ℝ) with hDdef
  set δ := bremsDelta m E v
  have hD1 : 1.54 ≤ D := by linarith
  have hD2 : D ≤ 10.78 := by linarith
  have hDs : 2 ≤ D * SQRTE := by nlinarith
  have hz0 : 0 < Z3 := by linarith
  have hb : 20.38 ≤ c.logConstant * Z3 := by nlinarith
  have hb2 : 16 ≤ c.bPrime * Z3 * Z3 := by
    have : 0.0415 ≤ Z3 * Z3 := by nlinarith
    nlinarith
  have hw : δ ≤ 0.407 * m := by
    have : SQRTE * δ ≤ 2 / 3 * m := by
      refine h2.trans ?_
      have : Z3 * v ≤ 1 := by nlinarith
      nlinarith
    nlinarith
  have hfirst := kelner_elastic0 hm hδ hw (by linarith : 20 ≤ c.logConstant * Z3) hD1 hD2
  have hN := kelner_nuclear hm0 hδ hw hD1
  have er : δ * SQRTE * (c.logConstant * Z3) = δ * SQRTE * c.logConstant * Z3 := by ring
  rw [er] at hfirst
  set N := Real.log (D / (1 + δ * (D * SQRTE - 2) / m))
  have hZinv : 0 < 1 / c.nucCharge := by positivity
  have hnuc : 0 ≤ (if c.nucCharge ≠ 1 then N else 0) := by split_ifs <;> linarith
  apply mul_pos spectrum_pos
  by_cases hin : v < bremsInelasticMax m E
  · rw [if_pos hin]
    have hδ1 : δ < ME := inelastic_delta hm0 hE h1 hin
    have hi := kelner_inelastic hm hδ hδ1.le hb2
    have e : ME / (δ * SQRTE * (c.bPrime * Z3 * Z3)) = ME / (δ * SQRTE * c.bPrime * Z3 * Z3) := by
      congr 1
      ring
    rw [e] at hi
    have hfirst' := kelner_elastic1 hm hδ hδ1.le (by linarith : 20 ≤ c.logConstant * Z3) hD1 hD2
    rw [er] at hfirst'
    generalize Real.log (m / (δ * (δ * m / (ME * ME) + SQRTE))) - _ = I at hi ⊢
    have hx : -0.06 ≤ ((if c.nucCharge ≠ 1 then N else 0) + I) / c.nucCharge := by
      rw [le_div_iff₀ hZ0]
      nlinarith
    linarith
  · rw [if_neg hin, add_zero]
    have hx : 0 ≤ (if c.nucCharge ≠ 1 then N else 0) / c.nucCharge := div_nonneg hnuc hZ0.le
    linarith

/-- A muon of 1 TeV loses half its energy in oxygen. -/
example : 0 < bremsKelner MMU { exOx with logConstant := 176.5, bPrime := 1429 } 1e6 0.5 := by
  refine C126_kelner_positive _ _ _ _ (by norm_num [ME, MMU]) (by norm_num [exOx]) (by norm_num [exOx]) (by norm_num [exOx]) (by norm_num [exOx])
    (by norm_num) (by norm_num) (by norm_num [MMU]) (by norm_num) ?_
  have : (8 : ℝ) ^ (1 / 3 : ℝ) = 2 := by
    rw [show (8 : ℝ) = 2 ^ (3 : ℝ) by norm_num, ← Real.rpow_mul (by norm_num)]
    norm_num
  norm_num [petrukhin, exOx, this, SQRTE, MMU]

/-- C126: the radiative corrections of Sandrock, Soedingrekso and Rhode, fitted in four pieces, jump at each of the three joints, by between 0.01
and 0.06. -/
theorem C126_radiative_jumps : ∀ x ∈ [(0.02 : ℝ), 0.1, 0.9], ∃ l, Tendsto bremsRadiative (𝓝[<] x) (𝓝 l) ∧ 0.01 < |l - bremsRadiative x| ∧
    |l - bremsRadiative x| < 0.06 := by
  have hl9 : Real.log 0.9 = 2 * Real.log 3 - Real.log 10 := by
    rw [show (0.9 : ℝ) = 3 ^ 2 / 10 by norm_num, Real.log_div (by norm_num) (by norm_num), Real.log_pow]
    norm_num
  have hl1 : Real.log 0.1 = - Real.log 10 := by
    rw [← Real.log_inv]
    norm_num
  have h10 := log_by_power (x := 10) (lo := 2.3025849) (hi := 2.3025852) 76 175 (by norm_num) (by norm_num) (by norm_num) (by norm_num)
  have h3 := log_by_power (x := 3) (lo := 1.0986121) (hi := 1.0986125) 71 78 (by norm_num) (by norm_num) (by norm_num) (by norm_num)
  intro x hx
  simp only [List.mem_cons, List.not_mem_nil, or_false] at hx
  rcases hx with rfl | rfl | rfl
  · refine ⟨-0.00349 + 148.84 * 0.02 + -987.531 * 0.02 * 0.02, ?_, ?_⟩
    · have hc : Continuous fun v : ℝ => -0.00349 + 148.84 * v + -987.531 * v * v := by fun_prop
      refine ((hc.tendsto 0.02).mono_left nhdsWithin_le_nhds).congr' ?_
      filter_upwards [Ioo_mem_nhdsLT (show (0 : ℝ) < 0.02 by norm_num)] with v hv
      unfold bremsRadiative
      rw [if_neg (by rintro (h | h) <;> linarith [hv.1, hv.2]), if_pos hv.2]
    · norm_num [bremsRadiative]
  · refine ⟨0.1642 + 132.573 * 0.1 + -585.361 * 0.1 * 0.1 + 1407.77 * 0.1 * 0.1 * 0.1, ?_, ?_⟩
    · have hc : Continuous fun v : ℝ => 0.1642 + 132.573 * v + -585.361 * v * v + 1407.77 * v * v * v := by fun_prop
      refine ((hc.tendsto 0.1).mono_left nhdsWithin_le_nhds).congr' ?_
      filter_upwards [Ioo_mem_nhdsLT (show (0.02 : ℝ) < 0.1 by norm_num)] with v hv
      unfold bremsRadiative
      rw [if_neg (by rintro (h | h) <;> linarith [hv.1, hv.2]), if_neg (by linarith [hv.1]), if_pos ⟨hv.1.le, hv.2⟩]
    · have e : bremsRadiative 0.1 = -2.8922 + -19.0156 * 0.1 + 57.698 * 0.1 * 0.1 + (-63.418 * 0.1 * Real.log 0.1 + 14.1166 * Real.log 0.9 +
          1.84206 * Real.log 0.9 * Real.log 0.9) := by
        unfold bremsRadiative
        rw [if_neg (by norm_num), if_neg (by norm_num), if_neg (by norm_num), if_pos (by norm_num)]
        norm_num
      rw [e, hl1, hl9]
      have b1 : -0.10539 ≤ 2 * Real.log 3 - Real.log 10 := by linarith
      have b2 : 2 * Real.log 3 - Real.log 10 ≤ -0.10532 := by linarith
      generalize 2 * Real.log 3 - Real.log 10 = q at b1 b2
      have b3 : 0.01109 ≤ q * q := by nlinarith
      have b4 : q * q ≤ 0.01111 := by nlinarith
      rw [show 1.84206 * q * q = 1.84206 * (q * q) by ring]
      generalize q * q = r at b3 b4
      rw [abs_of_pos (by linarith)]
      constructor <;> linarith
  · refine ⟨-2.8922 + -19.0156 * 0.9 + 57.698 * 0.9 * 0.9 + (-63.418 * 0.9 * Real.log 0.9 + 14.1166 * Real.log (1 - 0.9) +
        1.84206 * Real.log (1 - 0.9) * Real.log (1 - 0.9)), ?_, ?_⟩
    · have hc : ContinuousAt (fun v : ℝ => -2.8922 + -19.0156 * v + 57.698 * v * v + (-63.418 * v * Real.log v + 14.1166 * Real.log (1 - v) +
          1.84206 * Real.log (1 - v) * Real.log (1 - v))) 0.9 := by
        have a : ContinuousAt (fun v : ℝ => Real.log (1 - v)) 0.9 := by
          apply ContinuousAt.log
          · fun_prop
          · norm_num
        have b : ContinuousAt (fun v : ℝ => Real.log v) 0.9 := Real.continuousAt_log (by norm_num)
        fun_prop
      refine (hc.tendsto.mono_left nhdsWithin_le_nhds).congr' ?_
      filter_upwards [Ioo_mem_nhdsLT (show (0.1 : ℝ) < 0.9 by norm_num)] with v hv
      unfold bremsRadiative
      rw [if_neg (by rintro (h | h) <;> linarith [hv.1, hv.2]), if_neg (by linarith [hv.1]), if_neg (by rintro ⟨h, h'⟩; linarith [hv.1]),
        if_pos ⟨by linarith [hv.1], hv.2⟩]
    · have e : bremsRadiative 0.9 = 2134.19 + 581.823 * 0.9 + -2708.85 * 0.9 * 0.9 + (4767.05 * 0.9 * Real.log 0.9 + 1.52918 * Real.log 0.1 +
          0.361933 * Real.log 0.1 * Real.log 0.1) := by
        unfold bremsRadiative
        rw [if_neg (by norm_num), if_neg (by norm_num), if_neg (by norm_num), if_neg (by norm_num)]
        norm_num
      have e0 : (1 : ℝ) - 0.9 = 0.1 := by norm_num
      rw [e, e0, hl1, hl9]
      have b1 : -0.105362 ≤ 2 * Real.log 3 - Real.log 10 := by linarith
      have b2 : 2 * Real.log 3 - Real.log 10 ≤ -0.105359 := by linarith
      generalize 2 * Real.log 3 - Real.log 10 = q at b1 b2
      obtain ⟨b5, b6⟩ := h10
      generalize Real.log 10 = t at b5 b6
      have b3 : 5.301 ≤ t * t := by nlinarith
      have b4 : t * t ≤ 5.302 := by nlinarith
      rw [show 1.84206 * -t * -t = 1.84206 * (t * t) by ring, show 0.361933 * -t * -t = 0.361933 * (t * t) by ring]
      generalize t * t = r at b3 b4
      rw [abs_of_neg (by linarith)]
      constructor <;> linarith

end Proposal
