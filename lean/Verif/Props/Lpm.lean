import Verif.Props.LpmFunctions

/-!
# C127: the suppression of bremsstrahlung and of electron pairs by photons
-/

open Set Filter Topology

namespace Proposal

/-- An atom of the periodic table, with a radiation logarithm in the range of the code. -/
structure Spec.LpmAtom (c : Component) : Prop where
  charge : 1 ≤ c.nucCharge
  charge' : c.nucCharge ≤ 118
  number : 1 ≤ c.atomicNum
  number' : c.atomicNum ≤ 300
  log : 100 ≤ c.logConstant

/-- A dense medium. -/
structure Spec.LpmMedium (D : LpmData) : Prop where
  mass : ME ≤ D.mass
  density : 0 < D.molDensity
  sum : 0 < D.sumCharge
  energy : 0 < D.eLpm

lemma sqrt2_pos : 0 < SQRT2 := by norm_num [SQRT2]

lemma lpm_z3 {c : Component} (h : Spec.LpmAtom c) : 0.2038 ≤ c.nucCharge ^ (-1 / 3 : ℝ) := by
  have b := (cbrt_bounds (z := 118) (lo := 0.2038) (hi := 0.2040) (by norm_num) (by norm_num) (by norm_num) (by norm_num) (by norm_num)).1
  refine b.trans ?_
  apply Real.rpow_le_rpow_of_nonpos (by linarith [h.charge]) h.charge'
  norm_num

lemma lpm_s1 {m : ℝ} {c : Component} (hm : ME ≤ m) (h : Spec.LpmAtom c) : 0 < lpmS1 m c ∧ lpmS1 m c ≤ 0.0036 := by
  have hme := me_pos'
  have hmm := mmu_pos'
  have hm0 : 0 < m := by linarith
  have hz := lpm_z3 h
  have hA2 : c.atomicNum ^ (0.27 : ℝ) ≤ 7 := by
    have a : c.atomicNum ^ (0.27 : ℝ) ≤ c.atomicNum ^ (1 / 3 : ℝ) := Real.rpow_le_rpow_of_exponent_le h.number (by norm_num)
    have b : c.atomicNum ^ (1 / 3 : ℝ) ≤ (343 : ℝ) ^ (1 / 3 : ℝ) := by
      apply Real.rpow_le_rpow
      · linarith [h.number]
      · linarith [h.number']
      · norm_num
    have d : (343 : ℝ) ^ (1 / 3 : ℝ) = 7 := by
      rw [show (343 : ℝ) = 7 ^ (3 : ℝ) by norm_num, ← Real.rpow_mul (by norm_num)]
      norm_num
    linarith
  have hA0 : 0 ≤ c.atomicNum ^ (0.27 : ℝ) := by
    have := h.number
    positivity
  unfold lpmS1
  simp only
  set Z3 := c.nucCharge ^ (-1 / 3 : ℝ)
  set A := c.atomicNum ^ (0.27 : ℝ)
  have hb : 20.38 ≤ Z3 * c.logConstant := by nlinarith [h.log]
  have hs := sqrt2_pos
  have hs2 : SQRT2 ≤ 1.4143 := by norm_num [SQRT2]
  have e : ME / (m * Z3 * c.logConstant) * (ME / (m * Z3 * c.logConstant)) * (1 + m / MMU * (1.54 * A) * (m / MMU * (1.54 * A))) * SQRT2 =
      ((ME / m) ^ 2 + (ME / MMU * (1.54 * A)) ^ 2) / (Z3 * c.logConstant) ^ 2 * SQRT2 := by
    have : c.logConstant ≠ 0 := by linarith [h.log]
    have : Z3 ≠ 0 := by linarith
    field_simp
  rw [e]
  have a1 : (ME / m) ^ 2 ≤ 1 := by
    apply pow_le_one₀ (by positivity)
    rw [div_le_one hm0]
    exact hm
  have a2 : (ME / MMU * (1.54 * A)) ^ 2 ≤ 0.003 := by
    have : ME / MMU ≤ 0.005 := by norm_num [ME, MMU]
    have h1 : ME / MMU * (1.54 * A) ≤ 0.0539 := by
      have : 0 < ME / MMU := by positivity
      nlinarith
    have h0 : 0 ≤ ME / MMU * (1.54 * A) := by positivity
    nlinarith
  have a3 : 415 ≤ (Z3 * c.logConstant) ^ 2 := by nlinarith
  have a4 : 0 < (ME / m) ^ 2 := by positivity
  constructor
  · have : 0 < (ME / m) ^ 2 + (ME / MMU * (1.54 * A)) ^ 2 := by positivity
    positivity
  · have : ((ME / m) ^ 2 + (ME / MMU * (1.54 * A)) ^ 2) / (Z3 * c.logConstant) ^ 2 ≤ 0.002418 := by
      rw [div_le_iff₀ (by linarith)]
      nlinarith
    nlinarith

/-- The arguments of the functions of Migdal. -/
lemma lpm_gamma {k ρ : ℝ} (x : ℝ) (D : LpmData) (hD : Spec.LpmMedium D) (hρ : 0 < ρ) (hx : x ≠ 0) (hk : k ≠ 0) :
    1 < 1 + 4 * Real.pi * D.sumCharge * RE * (k / x) * (k / x) * D.molDensity * ρ := by
  have h1 := hD.density
  have h2 := hD.sum
  have hr := re_pos'
  have : 0 < (k / x) * (k / x) := mul_self_pos.mpr (div_ne_zero hk hx)
  have : 0 < 4 * Real.pi * D.sumCharge * RE * ((k / x) * (k / x)) * D.molDensity * ρ := by
    have := Real.pi_pos
    positivity
  rw [← mul_assoc] at this
  linarith

lemma lpm_arg {ξ sp Γ : ℝ} (hξ : 1 ≤ ξ) (hsp : 0 < sp) (hΓ : 1 ≤ Γ) : 0 < sp / Real.sqrt ξ * Γ := by
  have : 0 < Real.sqrt ξ := Real.sqrt_pos.mpr (by linarith)
  positivity

lemma lpm_sp {a : ℝ} (ha : 0 < a) : 0 < 0.125 * Real.sqrt a := by
  have := Real.sqrt_pos.mpr ha
  positivity

lemma root_bound {ξ sp Γ : ℝ} (h1 : 1 ≤ ξ) (h2 : ξ ≤ 2) (hsp : 0 < sp) (hΓ : 0 < Γ) : ξ * (15 * (sp / Real.sqrt ξ * Γ)) / Γ ≤ 21.3 * sp := by
  have hs : 0 < Real.sqrt ξ := Real.sqrt_pos.mpr (by linarith)
  have h : Real.sqrt ξ * Real.sqrt ξ = ξ := Real.mul_self_sqrt (by linarith)
  have hle : Real.sqrt ξ ≤ 1.42 := by
    rw [Real.sqrt_le_left (by norm_num)]
    norm_num
    linarith
  have e : ξ * (15 * (sp / Real.sqrt ξ * Γ)) / Γ = 15 * Real.sqrt ξ * sp := by
    field_simp
    rw [sq, h]
  rw [e]
  nlinarith

/-- C127: the factor by which the surrounding medium changes bremsstrahlung is positive, less than 2, less than 1 at energies that are not larger than
`eLpm v / (64 (1 - v))`, and falls at least like the inverse root of the energy and of the density. -/
theorem C127_range (D : LpmData) (c : Component) (E v ρ : ℝ) (hD : Spec.LpmMedium D) (hc : Spec.LpmAtom c) (hE : 0 < E) (hρ : 0 < ρ) (h0 : 0 < v) (h1 : v < 1) :
    0 < bremsSuppression D E v c ρ ∧ bremsSuppression D E v c ρ < 2 ∧
    (64 * (ρ * E * (1 - v)) ≤ D.eLpm * v → bremsSuppression D E v c ρ < 1) ∧
    bremsSuppression D E v c ρ ≤ 2.67 * Real.sqrt (D.eLpm * v / (ρ * E * (1 - v))) := by
  obtain ⟨s0, s1⟩ := lpm_s1 hD.mass hc
  have hv : 0 < 1 - v := by linarith
  have he := hD.energy
  have ha : 0 < D.eLpm * v / (ρ * E * (1 - v)) := by positivity
  have hm := hD.mass
  have hme := me_pos'
  have hal := alpha_pos'
  have hr := re_pos'
  unfold bremsSuppression
  simp only
  set a := D.eLpm * v / (ρ * E * (1 - v)) with had
  have hsp := lpm_sp ha
  set sp := 0.125 * Real.sqrt a with hspd
  obtain ⟨x1, x2⟩ := xi_bounds (sp := sp) s0 (by linarith : lpmS1 D.mass c ≤ 0.9)
  have hΓ : 1 < 1 + 4 * Real.pi * D.sumCharge * RE * (RE * ME / (ALPHA * D.mass * v)) * (RE * ME / (ALPHA * D.mass * v)) * D.molDensity * ρ := by
    apply lpm_gamma _ _ hD hρ
    · have : 0 < D.mass := by linarith
      positivity
    · positivity
  set Γ := 1 + 4 * Real.pi * D.sumCharge * RE * (RE * ME / (ALPHA * D.mass * v)) * (RE * ME / (ALPHA * D.mass * v)) * D.molDensity * ρ
  obtain ⟨c1, c2, c3⟩ := lpm_combine h0 h1 x1 (lpm_arg x1 hsp hΓ.le) hΓ.le
  refine ⟨c1, c2.trans ?_, fun h => c2.trans ?_, c3.trans ?_⟩
  · rw [div_lt_iff₀ (by linarith)]
    linarith
  · have : 1 ≤ sp := by
      have h64 : 8 ≤ Real.sqrt a := by
        apply Real.le_sqrt_of_sq_le
        rw [had, le_div_iff₀ (by positivity)]
        linarith
      rw [hspd]
      linarith
    rw [xi_one (by linarith) this, div_lt_one (by linarith)]
    exact hΓ
  · refine (root_bound x1 x2 hsp (by linarith)).trans ?_
    rw [hspd]
    nlinarith [Real.sqrt_nonneg a]

/-- C127: the same for the electron pairs of photons. -/
theorem C127_pair_range (D : LpmData) (c : Component) (E x ρ : ℝ) (hD : Spec.LpmMedium D) (hc : Spec.LpmAtom c) (hE : 0 < E) (hρ : 0 < ρ) (h0 : 0 < x) (h1 : x < 1) :
    0 < photoPairSuppression D E x c ρ ∧ photoPairSuppression D E x c ρ < 2 ∧
    (64 * (ρ * E * x * (1 - x)) ≤ D.eLpm → photoPairSuppression D E x c ρ < 1) ∧
    photoPairSuppression D E x c ρ ≤ 2.67 * Real.sqrt (D.eLpm / (ρ * E * x * (1 - x))) := by
  have hz := lpm_z3 hc
  have hlog := hc.log
  have hx : 0 < 1 - x := by linarith
  have he := hD.energy
  have ha : 0 < D.eLpm / (ρ * E * x * (1 - x)) := by positivity
  have hme := me_pos'
  have hal := alpha_pos'
  have hr := re_pos'
  have hs2 := sqrt2_pos
  unfold photoPairSuppression
  simp only
  set Z3 := c.nucCharge ^ (-1 / 3 : ℝ)
  have hb : 20.38 ≤ Z3 * c.logConstant := by nlinarith
  have s0 : 0 < 1 / (Z3 * c.logConstant) * (1 / (Z3 * c.logConstant)) * SQRT2 := by
    have : 0 < Z3 * c.logConstant := by linarith
    positivity
  have s1 : 1 / (Z3 * c.logConstant) * (1 / (Z3 * c.logConstant)) * SQRT2 ≤ 0.9 := by
    have h : 1 / (Z3 * c.logConstant) ≤ 0.05 := by
      rw [div_le_iff₀ (by linarith)]
      linarith
    have h' : 0 < 1 / (Z3 * c.logConstant) := by
      have : 0 < Z3 * c.logConstant := by linarith
      positivity
    have : SQRT2 ≤ 1.4143 := by norm_num [SQRT2]
    nlinarith
  set t := 1 / (Z3 * c.logConstant) * (1 / (Z3 * c.logConstant)) * SQRT2
  set a := D.eLpm / (ρ * E * x * (1 - x)) with had
  have hsp := lpm_sp ha
  set sp := 0.125 * Real.sqrt a with hspd
  obtain ⟨x1, x2⟩ := xi_bounds (sp := sp) s0 s1
  have hΓ : 1 < 1 + 4 * Real.pi * D.sumCharge * RE * (RE * ME / (ALPHA * ME * x)) * (RE * ME / (ALPHA * ME * x)) * D.molDensity * ρ := by
    apply lpm_gamma _ _ hD hρ
    · positivity
    · positivity
  set Γ := 1 + 4 * Real.pi * D.sumCharge * RE * (RE * ME / (ALPHA * ME * x)) * (RE * ME / (ALPHA * ME * x)) * D.molDensity * ρ
  obtain ⟨c1, c2, c3⟩ := lpm_combine_pair h0 h1 x1 (lpm_arg x1 hsp hΓ.le) hΓ.le
  refine ⟨c1, c2.trans ?_, fun h => c2.trans ?_, c3.trans ?_⟩
  · rw [div_lt_iff₀ (by linarith)]
    linarith
  · have : 1 ≤ sp := by
      have h64 : 8 ≤ Real.sqrt a := by
        apply Real.le_sqrt_of_sq_le
        rw [had, le_div_iff₀ (by positivity)]
        linarith
      rw [hspd]
      linarith
    rw [xi_one s1 this, div_lt_one (by linarith)]
    exact hΓ
  · refine (root_bound x1 x2 hsp (by linarith)).trans ?_
    rw [hspd]
    nlinarith [Real.sqrt_nonneg a]

/-- C127: at high energies both processes are suppressed completely. -/
theorem C127_high_energy (D : LpmData) (c : Component) (v ρ : ℝ) (hD : Spec.LpmMedium D) (hc : Spec.LpmAtom c) (hρ : 0 < ρ) (h0 : 0 < v) (h1 : v < 1) :
    Tendsto (fun E => bremsSuppression D E v c ρ) atTop (𝓝 0) ∧ Tendsto (fun E => photoPairSuppression D E v c ρ) atTop (𝓝 0) := by
  have hv : 0 < 1 - v := by linarith
  have key : ∀ k a : ℝ, 0 < a → Tendsto (fun E : ℝ => 2.67 * Real.sqrt (k / (a * E))) atTop (𝓝 0) := by
    intro k a ha
    have h : Tendsto (fun E : ℝ => k / (a * E)) atTop (𝓝 0) := by
      apply Tendsto.div_atTop tendsto_const_nhds
      exact tendsto_id.const_mul_atTop ha
    have := (Real.continuous_sqrt.tendsto 0).comp h
    rw [Real.sqrt_zero] at this
    simpa using this.const_mul 2.67
  constructor
  · refine tendsto_of_tendsto_of_tendsto_of_le_of_le' tendsto_const_nhds (key (D.eLpm * v) (ρ * (1 - v)) (by positivity)) ?_ ?_
    · filter_upwards [eventually_gt_atTop (0 : ℝ)] with E hE using (C127_range D c E v ρ hD hc hE hρ h0 h1).1.le
    · filter_upwards [eventually_gt_atTop (0 : ℝ)] with E hE
      have := (C127_range D c E v ρ hD hc hE hρ h0 h1).2.2.2
      rwa [show ρ * E * (1 - v) = ρ * (1 - v) * E by ring] at this
  · refine tendsto_of_tendsto_of_tendsto_of_le_of_le' tendsto_const_nhds (key D.eLpm (ρ * v * (1 - v)) (by positivity)) ?_ ?_
    · filter_upwards [eventually_gt_atTop (0 : ℝ)] with E hE using (C127_pair_range D c E v ρ hD hc hE hρ h0 h1).1.le
    · filter_upwards [eventually_gt_atTop (0 : ℝ)] with E hE
      have := (C127_pair_range D c E v ρ hD hc hE hρ h0 h1).2.2.2
      rwa [show ρ * E * v * (1 - v) = ρ * v * (1 - v) * E by ring] at this

/-- For large arguments both functions of Migdal are 1. -/
lemma lpm_thin {a G ρ0 : ℝ} (ha : 0 < a) {s1 : ℝ} (hs1 : s1 ≤ 0.9) (hρ0 : ρ0 = 0) :
    Tendsto (fun ρ => lpmXi s1 (0.125 * Real.sqrt (a / ρ))) (𝓝[>] ρ0) (𝓝 1) ∧
    Tendsto (fun ρ => 1 + G * ρ) (𝓝[>] ρ0) (𝓝 1) ∧
    Tendsto (fun ρ => migdalPhi (0.125 * Real.sqrt (a / ρ) / Real.sqrt (lpmXi s1 (0.125 * Real.sqrt (a / ρ))) * (1 + G * ρ))) (𝓝[>] ρ0) (𝓝 1) ∧
    Tendsto (fun ρ => migdalG (0.125 * Real.sqrt (a / ρ) / Real.sqrt (lpmXi s1 (0.125 * Real.sqrt (a / ρ))) * (1 + G * ρ))) (𝓝[>] ρ0) (𝓝 1) := by
  subst hρ0
  have hsp : Tendsto (fun ρ : ℝ => 0.125 * Real.sqrt (a / ρ)) (𝓝[>] 0) atTop := by
    apply Tendsto.const_mul_atTop (by norm_num)
    apply Real.tendsto_sqrt_atTop.comp
    have := tendsto_inv_nhdsGT_zero (𝕜 := ℝ)
    exact (this.const_mul_atTop ha).congr fun ρ => by rw [div_eq_mul_inv]
  have hxi : ∀ᶠ ρ : ℝ in 𝓝[>] 0, lpmXi s1 (0.125 * Real.sqrt (a / ρ)) = 1 := by
    filter_upwards [hsp.eventually_ge_atTop 1] with ρ h
    exact xi_one hs1 h
  have hg : Tendsto (fun ρ : ℝ => 1 + G * ρ) (𝓝[>] 0) (𝓝 1) := by
    have hc : Continuous fun ρ : ℝ => 1 + G * ρ := by fun_prop
    have := (hc.tendsto 0).mono_left (nhdsWithin_le_nhds (s := Ioi (0 : ℝ)))
    simpa using this
  have harg : Tendsto (fun ρ => 0.125 * Real.sqrt (a / ρ) / Real.sqrt (lpmXi s1 (0.125 * Real.sqrt (a / ρ))) * (1 + G * ρ)) (𝓝[>] 0) atTop := by
    have := hsp.atTop_mul_pos one_pos hg
    refine this.congr' ?_
    filter_upwards [hxi] with ρ h
    rw [h, Real.sqrt_one, div_one]
  refine ⟨?_, hg, phi_limit.comp harg, G_limit.comp harg⟩
  exact tendsto_const_nhds.congr' (by filter_upwards [hxi] with ρ h using h.symm)

/-- C127: in a thin medium nothing is suppressed: the factors tend to 1 as the density tends to 0. -/
theorem C127_thin (D : LpmData) (c : Component) (E v : ℝ) (hD : Spec.LpmMedium D) (hc : Spec.LpmAtom c) (hE : 0 < E) (h0 : 0 < v) (h1 : v < 1) :
    Tendsto (fun ρ => bremsSuppression D E v c ρ) (𝓝[>] 0) (𝓝 1) ∧ Tendsto (fun ρ => photoPairSuppression D E v c ρ) (𝓝[>] 0) (𝓝 1) := by
  have hv : 0 < 1 - v := by linarith
  have he := hD.energy
  have hd := hD.density
  have hq := hD.sum
  have hm : 0 < D.mass := by linarith [hD.mass, me_pos']
  have hme := me_pos'
  have hal := alpha_pos'
  have hr := re_pos'
  have hpi := Real.pi_pos
  obtain ⟨s0, s1⟩ := lpm_s1 hD.mass hc
  constructor
  · set G := 4 * Real.pi * D.sumCharge * RE * (RE * ME / (ALPHA * D.mass * v)) * (RE * ME / (ALPHA * D.mass * v)) * D.molDensity with hG
    obtain ⟨t1, t2, t3, t4⟩ := lpm_thin (a := D.eLpm * v / (E * (1 - v))) (G := G) (ρ0 := 0) (by positivity) (by linarith : lpmS1 D.mass c ≤ 0.9) rfl
    have h := ((t1.div_const 3).mul (((t4.const_mul (v * v)).div (t2.mul t2) (by norm_num)).add ((t3.const_mul (2 * (1 + (1 - v) * (1 - v)))).div t2 (by norm_num)))).div_const
      ((4 / 3) * (1 - v) + v * v)
    refine (h.congr' ?_).trans (le_of_eq ?_)
    · filter_upwards with ρ
      unfold bremsSuppression
      simp only
      rw [show D.eLpm * v / (ρ * E * (1 - v)) = D.eLpm * v / (E * (1 - v)) / ρ by
        rw [div_div]
        ring_nf]
      rfl
    · congr 1
      have : (4 / 3) * (1 - v) + v * v ≠ 0 := spectrum_pos.ne'
      rw [div_eq_one_iff_eq this]
      ring
  · have hz := lpm_z3 hc
    have hlog := hc.log
    have hb : 20.38 ≤ c.nucCharge ^ (-1 / 3 : ℝ) * c.logConstant := by nlinarith
    have hs2 : SQRT2 ≤ 1.4143 := by norm_num [SQRT2]
    have s1' : 1 / (c.nucCharge ^ (-1 / 3 : ℝ) * c.logConstant) * (1 / (c.nucCharge ^ (-1 / 3 : ℝ) * c.logConstant)) * SQRT2 ≤ 0.9 := by
      have h : 1 / (c.nucCharge ^ (-1 / 3 : ℝ) * c.logConstant) ≤ 0.05 := by
        rw [div_le_iff₀ (by linarith)]
        linarith
      have h' : 0 < 1 / (c.nucCharge ^ (-1 / 3 : ℝ) * c.logConstant) := by
        have : 0 < c.nucCharge ^ (-1 / 3 : ℝ) * c.logConstant := by linarith
        positivity
      have := sqrt2_pos
      nlinarith
    set G := 4 * Real.pi * D.sumCharge * RE * (RE * ME / (ALPHA * ME * v)) * (RE * ME / (ALPHA * ME * v)) * D.molDensity with hG
    obtain ⟨t1, t2, t3, t4⟩ := lpm_thin (a := D.eLpm / (E * v * (1 - v))) (G := G) (ρ0 := 0) (by positivity) s1' rfl
    have h := ((t1.div_const 3).mul ((t4.div (t2.mul t2) (by norm_num)).add ((t3.const_mul (2 * (v * v + (1 - v) * (1 - v)))).div t2 (by norm_num)))).div_const
      (1 - (4 / 3) * v * (1 - v))
    refine (h.congr' ?_).trans (le_of_eq ?_)
    · filter_upwards with ρ
      unfold photoPairSuppression
      simp only
      rw [show D.eLpm / (ρ * E * v * (1 - v)) = D.eLpm / (E * v * (1 - v)) / ρ by
        rw [div_div]
        ring_nf]
      rfl
    · congr 1
      have : 1 - (4 / 3) * v * (1 - v) ≠ 0 := by nlinarith [sq_nonneg (v - 1 / 2)]
      rw [div_eq_one_iff_eq this]
      ring

end Proposal
