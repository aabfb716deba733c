import Verif.Props.Lpm

/-!
# C127: soft photons, density, energy scale and limits of the suppression
-/

open Set Filter Topology

namespace Proposal

lemma gamma_soft {D : LpmData} (hD : Spec.LpmMedium D) {ρ k : ℝ} (hρ : 0 < ρ) (hk : 0 < k) :
    Tendsto (fun v : ℝ => 2 / (1 + 4 * Real.pi * D.sumCharge * RE * (k / v) * (k / v) * D.molDensity * ρ)) (𝓝[>] 0) (𝓝 0) := by
  have h1 := hD.density
  have h2 := hD.sum
  have hr := re_pos'
  have hpi := Real.pi_pos
  have hinv : Tendsto (fun v : ℝ => k / v) (𝓝[>] 0) atTop := by
    have := (tendsto_inv_nhdsGT_zero (𝕜 := ℝ)).const_mul_atTop hk
    exact this.congr fun v => by rw [div_eq_mul_inv]
  have hsq := hinv.atTop_mul_atTop₀ hinv
  have hc : 0 < 4 * Real.pi * D.sumCharge * RE * D.molDensity * ρ := by positivity
  have := tendsto_atTop_add_const_left _ 1 (hsq.const_mul_atTop hc)
  refine (Tendsto.div_atTop (tendsto_const_nhds (x := (2 : ℝ))) this).congr fun v => ?_
  congr 2
  ring

lemma brems_gamma_bound (D : LpmData) (c : Component) (E v ρ : ℝ) (hD : Spec.LpmMedium D) (hc : Spec.LpmAtom c) (hE : 0 < E) (hρ : 0 < ρ) (h0 : 0 < v) (h1 : v < 1) :
    bremsSuppression D E v c ρ < 2 / (1 + 4 * Real.pi * D.sumCharge * RE * (RE * ME / (ALPHA * D.mass * v)) * (RE * ME / (ALPHA * D.mass * v)) * D.molDensity * ρ) := by
  obtain ⟨s0, s1⟩ := lpm_s1 hD.mass hc
  have hv : 0 < 1 - v := by linarith
  have he := hD.energy
  have ha : 0 < D.eLpm * v / (ρ * E * (1 - v)) := by positivity
  have hm := hD.mass
  have hme := me_pos'
  have hal := alpha_pos'
  have hr := re_pos'
  unfold bremsSuppression
  simp only
  have hsp := lpm_sp ha
  set sp := 0.125 * Real.sqrt (D.eLpm * v / (ρ * E * (1 - v)))
  obtain ⟨x1, x2⟩ := xi_bounds (sp := sp) s0 (by linarith : lpmS1 D.mass c ≤ 0.9)
  have hΓ : 1 < 1 + 4 * Real.pi * D.sumCharge * RE * (RE * ME / (ALPHA * D.mass * v)) * (RE * ME / (ALPHA * D.mass * v)) * D.molDensity * ρ := by
    apply lpm_gamma _ _ hD hρ
    · have : 0 < D.mass := by linarith
      positivity
    · positivity
  set Γ := 1 + 4 * Real.pi * D.sumCharge * RE * (RE * ME / (ALPHA * D.mass * v)) * (RE * ME / (ALPHA * D.mass * v)) * D.molDensity * ρ
  refine (lpm_combine h0 h1 x1 (lpm_arg x1 hsp hΓ.le) hΓ.le).2.1.trans_le ?_
  apply div_le_div_of_nonneg_right x2
  linarith

/-- C127: soft photons are suppressed completely, by the polarization of the medium. -/
theorem C127_soft (D : LpmData) (c : Component) (E ρ : ℝ) (hD : Spec.LpmMedium D) (hc : Spec.LpmAtom c) (hE : 0 < E) (hρ : 0 < ρ) :
    Tendsto (fun v => bremsSuppression D E v c ρ) (𝓝[>] 0) (𝓝 0) := by
  have hm : 0 < D.mass := by linarith [hD.mass, me_pos']
  have hme := me_pos'
  have hal := alpha_pos'
  have hr := re_pos'
  have h := gamma_soft hD hρ (by positivity : 0 < RE * ME / (ALPHA * D.mass))
  refine tendsto_of_tendsto_of_tendsto_of_le_of_le' tendsto_const_nhds h ?_ ?_
  · filter_upwards [Ioo_mem_nhdsGT (zero_lt_one (α := ℝ))] with v hv using (C127_range D c E v ρ hD hc hE hρ hv.1 hv.2).1.le
  · filter_upwards [Ioo_mem_nhdsGT (zero_lt_one (α := ℝ))] with v hv
    have := brems_gamma_bound D c E v ρ hD hc hE hρ hv.1 hv.2
    rw [← div_div] at this
    exact this.le

lemma pair_gamma_bound (D : LpmData) (c : Component) (E x ρ : ℝ) (hD : Spec.LpmMedium D) (hc : Spec.LpmAtom c) (hE : 0 < E) (hρ : 0 < ρ) (h0 : 0 < x) (h1 : x < 1) :
    photoPairSuppression D E x c ρ < 2 / (1 + 4 * Real.pi * D.sumCharge * RE * (RE * ME / (ALPHA * ME * x)) * (RE * ME / (ALPHA * ME * x)) * D.molDensity * ρ) := by
  have hz := lpm_z3 hc
  have hlog := hc.log
  have hx : 0 < 1 - x := by linarith
  have he := hD.energy
  have ha : 0 < D.eLpm / (ρ * E * x * (1 - x)) := by positivity
  have hme := me_pos'
  have hal := alpha_pos'
  have hr := re_pos'
  have hs2 := sqrt2_pos
  unfold photoPairSuppression
  simp only
  set Z3 := c.nucCharge ^ (-1 / 3 : ℝ)
  have hb : 20.38 ≤ Z3 * c.logConstant := by nlinarith
  have s0 : 0 < 1 / (Z3 * c.logConstant) * (1 / (Z3 * c.logConstant)) * SQRT2 := by
    have : 0 < Z3 * c.logConstant := by linarith
    positivity
  have s1 : 1 / (Z3 * c.logConstant) * (1 / (Z3 * c.logConstant)) * SQRT2 ≤ 0.9 := by
    have h : 1 / (Z3 * c.logConstant) ≤ 0.05 := by
      rw [div_le_iff₀ (by linarith)]
      linarith
    have h' : 0 < 1 / (Z3 * c.logConstant) := by
      have : 0 < Z3 * c.logConstant := by linarith
      positivity
    have : SQRT2 ≤ 1.4143 := by norm_num [SQRT2]
    nlinarith
  have hsp := lpm_sp ha
  set sp := 0.125 * Real.sqrt (D.eLpm / (ρ * E * x * (1 - x)))
  obtain ⟨x1, x2⟩ := xi_bounds (sp := sp) s0 s1
  have hΓ : 1 < 1 + 4 * Real.pi * D.sumCharge * RE * (RE * ME / (ALPHA * ME * x)) * (RE * ME / (ALPHA * ME * x)) * D.molDensity * ρ := by
    apply lpm_gamma _ _ hD hρ
    · positivity
    · positivity
  set Γ := 1 + 4 * Real.pi * D.sumCharge * RE * (RE * ME / (ALPHA * ME * x)) * (RE * ME / (ALPHA * ME * x)) * D.molDensity * ρ
  refine (lpm_combine_pair h0 h1 x1 (lpm_arg x1 hsp hΓ.le) hΓ.le).2.1.trans_le ?_
  apply div_le_div_of_nonneg_right x2
  linarith

/-- C127: for pairs the two particles are not treated alike. If the one whose fraction is the variable takes nothing, the factor tends to 0; if the other one
takes nothing, it tends to a positive number. -/
theorem C127_pair_asymmetric (D : LpmData) (c : Component) (E ρ : ℝ) (hD : Spec.LpmMedium D) (hc : Spec.LpmAtom c) (hE : 0 < E) (hρ : 0 < ρ) :
    Tendsto (fun x => photoPairSuppression D E x c ρ) (𝓝[>] 0) (𝓝 0) ∧
    ∃ l, 0 < l ∧ Tendsto (fun x => photoPairSuppression D E (1 - x) c ρ) (𝓝[>] 0) (𝓝 l) := by
  have hme := me_pos'
  have hal := alpha_pos'
  have hr := re_pos'
  have he := hD.energy
  constructor
  · have h := gamma_soft hD hρ (by positivity : 0 < RE * ME / (ALPHA * ME))
    refine tendsto_of_tendsto_of_tendsto_of_le_of_le' tendsto_const_nhds h ?_ ?_
    · filter_upwards [Ioo_mem_nhdsGT (zero_lt_one (α := ℝ))] with v hv using (C127_pair_range D c E v ρ hD hc hE hρ hv.1 hv.2).1.le
    · filter_upwards [Ioo_mem_nhdsGT (zero_lt_one (α := ℝ))] with v hv
      have := pair_gamma_bound D c E v ρ hD hc hE hρ hv.1 hv.2
      rw [← div_div] at this
      exact this.le
  · have hz := lpm_z3 hc
    have hlog := hc.log
    have hb : 20.38 ≤ c.nucCharge ^ (-1 / 3 : ℝ) * c.logConstant := by nlinarith
    have s1 : 1 / (c.nucCharge ^ (-1 / 3 : ℝ) * c.logConstant) * (1 / (c.nucCharge ^ (-1 / 3 : ℝ) * c.logConstant)) * SQRT2 ≤ 0.9 := by
      have h : 1 / (c.nucCharge ^ (-1 / 3 : ℝ) * c.logConstant) ≤ 0.05 := by
        rw [div_le_iff₀ (by linarith)]
        linarith
      have h' : 0 < 1 / (c.nucCharge ^ (-1 / 3 : ℝ) * c.logConstant) := by
        have : 0 < c.nucCharge ^ (-1 / 3 : ℝ) * c.logConstant := by linarith
        positivity
      have : SQRT2 ≤ 1.4143 := by norm_num [SQRT2]
      have := sqrt2_pos
      nlinarith
    set t := 1 / (c.nucCharge ^ (-1 / 3 : ℝ) * c.logConstant) * (1 / (c.nucCharge ^ (-1 / 3 : ℝ) * c.logConstant)) * SQRT2 with ht
    set g : ℝ → ℝ := fun x => 1 + 4 * Real.pi * D.sumCharge * RE * (RE * ME / (ALPHA * ME * (1 - x))) * (RE * ME / (ALPHA * ME * (1 - x))) * D.molDensity * ρ with hg
    have hg0 : 1 < g 0 := by
      apply lpm_gamma _ _ hD hρ
      · norm_num
        exact ⟨hal.ne', hme.ne'⟩
      · positivity
    have hgt : Tendsto g (𝓝[>] 0) (𝓝 (g 0)) := by
      have : ContinuousAt g 0 := by
        have h : ContinuousAt (fun x : ℝ => RE * ME / (ALPHA * ME * (1 - x))) 0 := by
          apply ContinuousAt.div
          · fun_prop
          · fun_prop
          · norm_num
            exact ⟨hal.ne', hme.ne'⟩
        fun_prop
      exact this.tendsto.mono_left nhdsWithin_le_nhds
    have hsp : Tendsto (fun x : ℝ => 0.125 * Real.sqrt (D.eLpm / (ρ * E * (1 - x) * (1 - (1 - x))))) (𝓝[>] 0) atTop := by
      apply Tendsto.const_mul_atTop (by norm_num)
      apply Real.tendsto_sqrt_atTop.comp
      have h1 : Tendsto (fun x : ℝ => D.eLpm / (ρ * E * (1 - x))) (𝓝[>] 0) (𝓝 (D.eLpm / (ρ * E))) := by
        have : ContinuousAt (fun x : ℝ => D.eLpm / (ρ * E * (1 - x))) 0 := by
          apply ContinuousAt.div
          · fun_prop
          · fun_prop
          · norm_num
            exact ⟨hρ.ne', hE.ne'⟩
        have := this.tendsto.mono_left (nhdsWithin_le_nhds (s := Ioi (0 : ℝ)))
        simpa using this
      have := h1.pos_mul_atTop (by positivity) (tendsto_inv_nhdsGT_zero (𝕜 := ℝ))
      refine this.congr fun x => ?_
      rw [← div_eq_mul_inv, div_div]
      congr 1
      ring
    have hxi : ∀ᶠ x : ℝ in 𝓝[>] 0, lpmXi t (0.125 * Real.sqrt (D.eLpm / (ρ * E * (1 - x) * (1 - (1 - x))))) = 1 := by
      filter_upwards [hsp.eventually_ge_atTop 1] with x h
      exact xi_one s1 h
    have harg := hsp.atTop_mul_pos (by linarith : 0 < g 0) hgt
    have hphi := phi_limit.comp harg
    have hG := G_limit.comp harg
    have hx : Tendsto (fun x : ℝ => x) (𝓝[>] 0) (𝓝 0) := tendsto_id.mono_left nhdsWithin_le_nhds
    have hpoly : Tendsto (fun x : ℝ => 2 * ((1 - x) * (1 - x) + (1 - (1 - x)) * (1 - (1 - x)))) (𝓝[>] 0) (𝓝 2) := by
      have hc : Continuous fun x : ℝ => 2 * ((1 - x) * (1 - x) + (1 - (1 - x)) * (1 - (1 - x))) := by fun_prop
      have := (hc.tendsto 0).mono_left (nhdsWithin_le_nhds (s := Ioi (0 : ℝ)))
      simpa using this
    have hden : Tendsto (fun x : ℝ => 1 - (4 / 3) * (1 - x) * (1 - (1 - x))) (𝓝[>] 0) (𝓝 1) := by
      have hc : Continuous fun x : ℝ => 1 - (4 / 3) * (1 - x) * (1 - (1 - x)) := by fun_prop
      have := (hc.tendsto 0).mono_left (nhdsWithin_le_nhds (s := Ioi (0 : ℝ)))
      simpa using this
    have hlim := (((hG.div (hgt.mul hgt) (by positivity)).add ((hpoly.mul hphi).div hgt (by positivity))).const_mul (1 / 3)).div hden (by norm_num)
    refine ⟨_, ?_, hlim.congr' ?_⟩
    · positivity
    · filter_upwards [hxi] with x h
      unfold photoPairSuppression
      simp only
      rw [← ht, h, Real.sqrt_one, div_one]
      rfl

/-- C127: a medium of another density is the same as the density correction. -/
theorem C127_density (loss : Component → ℝ) (m : ℝ) (M : Med) (k E v : ℝ) (c : Component) (ρ : ℝ) :
    bremsSuppression (bremsLpm loss m { M with massDensity := k * M.massDensity, molDensity := k * M.molDensity }) E v c ρ =
      bremsSuppression (bremsLpm loss m M) E v c (k * ρ) ∧
    photoPairSuppression (photoPairLpm loss { M with massDensity := k * M.massDensity, molDensity := k * M.molDensity }) E v c ρ =
      photoPairSuppression (photoPairLpm loss M) E v c (k * ρ) := by
  constructor
  · unfold bremsSuppression bremsLpm
    simp only
    have e1 : ∀ a b s : ℝ, a * (2 * a / (b * (s * (k * M.massDensity)))) * v / (ρ * E * (1 - v)) =
        a * (2 * a / (b * (s * M.massDensity))) * v / (k * ρ * E * (1 - v)) := by
      intro a b s
      simp only [div_eq_mul_inv, mul_inv]
      ring
    rw [e1]
    have e2 : ∀ a : ℝ, 1 + a * (k * M.molDensity) * ρ = 1 + a * M.molDensity * (k * ρ) := fun a => by ring
    rw [e2]
  · unfold photoPairSuppression photoPairLpm
    simp only
    have e1 : ∀ a b s : ℝ, a * (2 * a / (b * (s * (k * M.massDensity)))) / (ρ * E * v * (1 - v)) =
        a * (2 * a / (b * (s * M.massDensity))) / (k * ρ * E * v * (1 - v)) := by
      intro a b s
      simp only [div_eq_mul_inv, mul_inv]
      ring
    rw [e1]
    have e2 : ∀ a : ℝ, 1 + a * (k * M.molDensity) * ρ = 1 + a * M.molDensity * (k * ρ) := fun a => by ring
    rw [e2]

/-- C127: for electrons and positrons with complete screening the scale `eLpm` is eight times the energy of Landau, Pomeranchuk and Migdal
`α² m X0 / (4 π r_e)`, with the radiation length as a distance, up to two percent. -/
theorem C127_scale (x : MedArgs) (cs : List Component) (z E : ℝ) (hz : z ^ 2 = 1) (hcs : cs ≠ []) (hρ : 0 < (mkMed x cs).massDensity)
    (h : ∀ c ∈ cs, 0 < c.atomInMolecule ∧ 0 < c.atomicNum ∧ ∃ n : ℕ, 1 ≤ n ∧ n ≤ 118 ∧ c.nucCharge = n) (hX : 0 < (mkMed x cs).radiationLength) :
    ∃ r, 1 < r ∧ r < 1.02 ∧ r * (bremsLpm (fun c => ∫ v in (0 : ℝ)..1, v * brems none (bremsComplete c) ME z c E v) ME (mkMed x cs)).eLpm =
      8 * (ALPHA ^ 2 * ME * ((mkMed x cs).radiationLength / (mkMed x cs).massDensity) / (4 * Real.pi * RE)) := by
  obtain ⟨r1, r2⟩ := C126_radiation_length x cs z E hz hcs h
  set S := Spec.perMedium (mkMed x cs) (fun c => ∫ v in (0 : ℝ)..1, v * brems none (bremsComplete c) ME z c E v) with hS
  refine ⟨_, r1, r2, ?_⟩
  have hS0 : 0 < S := by
    by_contra hcon
    push Not at hcon
    nlinarith
  unfold bremsLpm
  simp only
  have e : sumOver (mkMed x cs).components (fun c => (∫ v in (0 : ℝ)..1, v * brems none (bremsComplete c) ME z c E v) /
      ((mkMed x cs).sumNucleons / (c.atomInMolecule * c.atomicNum))) = S := by
    rw [sumOver_eq, hS]
    unfold Spec.perMedium
    congr 1
    apply List.map_congr_left
    intro c _
    rw [div_div_eq_mul_div, mul_div_assoc]
  rw [e]
  have hme := me_pos'
  have hr := re_pos'
  have hpi := Real.pi_pos
  field_simp
  ring

end Proposal
