import Verif.Model.PhotonCross
import Verif.Props.KleinNishina
import Mathlib.Analysis.SpecialFunctions.Trigonometric.ArctanDeriv
import Mathlib.Analysis.Calculus.DSlope
import Mathlib.Analysis.Complex.ExponentialBounds

/-!
# C118: the photo effect
-/

open Filter Topology

namespace Proposal

lemma alpha_pos' : 0 < ALPHA := by unfold ALPHA; norm_num

/-- The bracket of Sauter's formula. -/
noncomputable def sauterBracket (γ b : ℝ) : ℝ := 4 / 3 + γ * (γ - 2) / (γ + 1) * (1 - 1 / (γ * b) * Real.log (γ + b))

lemma log_gb {γ b : ℝ} (hγ : 1 < γ) (hb : 0 < b) (h : b ^ 2 = γ * γ - 1) :
    1 - (γ - b) ≤ Real.log (γ + b) ∧ Real.log (γ + b) ≤ b ∧ 0 < Real.log (γ + b) := by
  have hi : (γ + b)⁻¹ = γ - b := by
    have : γ + b ≠ 0 := by linarith
    field_simp
    nlinarith
  refine ⟨?_, ?_, Real.log_pos (by linarith)⟩
  · have := Real.one_sub_inv_le_log_of_pos (show 0 < γ + b by linarith)
    rwa [hi] at this
  · rw [Real.log_le_iff_le_exp (by linarith)]
    have := Real.quadratic_le_exp_of_nonneg hb.le
    have : γ ≤ 1 + b ^ 2 / 2 := by nlinarith [sq_nonneg (γ - 1)]
    linarith

lemma sauter_ratio {γ b : ℝ} (hγ : 1 < γ) (hb : 0 < b) (h : b ^ 2 = γ * γ - 1) :
    (1 - b / (γ + 1)) / γ ≤ 1 / (γ * b) * Real.log (γ + b) ∧ 1 / (γ * b) * Real.log (γ + b) ≤ 1 / γ ∧
      0 < 1 / (γ * b) * Real.log (γ + b) := by
  obtain ⟨h1, h2, h3⟩ := log_gb hγ hb h
  have hg : 0 < γ := by linarith
  have e : 1 / (γ * b) * Real.log (γ + b) = Real.log (γ + b) / (γ * b) := by ring
  rw [e]
  refine ⟨?_, ?_, by positivity⟩
  · rw [div_le_div_iff₀ hg (by positivity)]
    have hk : b / (γ + 1) * b = γ - 1 := by
      have : γ + 1 ≠ 0 := by linarith
      field_simp
      nlinarith
    have : (1 - b / (γ + 1)) * (γ * b) = (b - (γ - 1)) * γ := by rw [← hk]; ring
    rw [this]
    exact mul_le_mul_of_nonneg_right (by linarith) hg.le
  · rw [div_le_div_iff₀ (by positivity) hg]
    nlinarith

lemma sauterBracket_pos {γ b : ℝ} (hγ : 1 < γ) (hb : 0 < b) (h : b ^ 2 = γ * γ - 1) : 0 < sauterBracket γ b := by
  obtain ⟨_, h2, h3⟩ := sauter_ratio hγ hb h
  have h4 : 1 / γ < 1 := by rw [div_lt_one (by linarith)]; exact hγ
  have h5 : -(1 / 2) ≤ γ * (γ - 2) / (γ + 1) := by
    rw [le_div_iff₀ (by linarith)]
    nlinarith
  unfold sauterBracket
  set q := 1 / (γ * b) * Real.log (γ + b)
  nlinarith

lemma nonRelativistic_pos {z : ℝ} (hz : 0 < z) : 0 < nonRelativistic z := by
  have hpi := Real.pi_pos
  unfold nonRelativistic
  simp only
  split_ifs
  · have : 0 < Real.sinh (Real.pi * z) := Real.sinh_pos_iff.2 (by positivity)
    positivity
  · positivity

lemma cutoff_iff {c : Component} {E : ℝ} : 1 + (E - (c.nucCharge * ALPHA) ^ 2 * ME / 2) / ME ≤ 1 ↔ E ≤ photoeffectCutOff c := by
  have hm := me_pos'
  unfold photoeffectCutOff
  constructor
  · intro h
    by_contra hc
    push Not at hc
    have := div_pos (sub_pos.2 hc) hm
    linarith
  · intro h
    have := div_nonpos_of_nonpos_of_nonneg (sub_nonpos.2 h) hm.le
    linarith

/-- The value above the threshold. -/
lemma sauter_eq {c : Component} {E : ℝ} (hZ : 0 < c.nucCharge) (h : photoeffectCutOff c < E) :
    let γ := 1 + (E - photoeffectCutOff c) / ME
    let b := Real.sqrt (γ * γ - 1)
    1 < γ ∧ 0 < b ∧ b ^ 2 = γ * γ - 1 ∧
    sauter E c = some (1.5 * ((8 * Real.pi * RE * RE) / 3) * c.nucCharge ^ 5 * ALPHA ^ 4 * (ME / E) ^ 5 * b ^ 3 *
      sauterBracket γ b * nonRelativistic (c.nucCharge * ALPHA * γ / b)) := by
  intro γ b
  have hm := me_pos'
  have hγ : 1 < γ := by
    have := div_pos (sub_pos.2 h) hm
    simp only [γ]
    linarith
  have hq : 0 < γ * γ - 1 := by nlinarith
  refine ⟨hγ, Real.sqrt_pos.2 hq, Real.sq_sqrt hq.le, ?_⟩
  unfold sauter
  simp only
  rw [if_neg (by rw [cutoff_iff]; push Not; exact ⟨h, hZ.ne'⟩)]
  rfl

/-- C118: above the binding energy of the innermost electron the cross section is a positive number, at and below it the formula
has none. -/
theorem C118_threshold (c : Component) (E : ℝ) (hZ : 0 < c.nucCharge) :
    (photoeffectCutOff c < E → ∃ s > 0, sauter E c = some s) ∧ (E ≤ photoeffectCutOff c → sauter E c = none) := by
  constructor
  · intro h
    obtain ⟨h1, h2, h3, h4⟩ := sauter_eq hZ h
    refine ⟨_, ?_, h4⟩
    have hα := alpha_pos'
    have hr := re_pos'
    have hm := me_pos'
    have hpi := Real.pi_pos
    have hE : 0 < E := by
      have : 0 ≤ photoeffectCutOff c := by unfold photoeffectCutOff; positivity
      linarith
    have hB := sauterBracket_pos h1 h2 h3
    have hN := nonRelativistic_pos (z := c.nucCharge * ALPHA * (1 + (E - photoeffectCutOff c) / ME) /
      Real.sqrt ((1 + (E - photoeffectCutOff c) / ME) * (1 + (E - photoeffectCutOff c) / ME) - 1)) (by positivity)
    positivity
  · intro h
    unfold sauter
    simp only
    rw [if_pos (Or.inl (cutoff_iff.2 h))]

/-- C118: the ratio of all electrons to the innermost shell is at least one. -/
theorem C118_ratio (c : Component) (hZ : 0 < c.nucCharge) (h : c.nucCharge ≤ 1e8) : 1 ≤ kshellRatio c := by
  have hl : Real.log c.nucCharge ≤ 18.7 := by
    have h1 : Real.log c.nucCharge ≤ Real.log 1e8 := Real.log_le_log hZ h
    have h2 : Real.log 1e8 ≤ 18.7 := by
      have h3 := Real.log_le_log (by norm_num) (by norm_num : (1e8 : ℝ) ^ 3 ≤ 2 ^ 80)
      rw [Real.log_pow, Real.log_pow] at h3
      have := Real.log_two_lt_d9
      norm_num at h3 ⊢
      linarith
    linarith
  unfold kshellRatio
  simp only
  nlinarith [mul_nonneg (mul_self_nonneg (Real.log c.nucCharge)) (sub_nonneg.2 hl), mul_self_nonneg (Real.log c.nucCharge)]

/-- C118: both branches of the correction are Stobbe's factor, up to a relative difference of `1e-8`. -/
theorem C118_stobbe (z : ℝ) (hz : 0 < z) :
    let exact := (1 + z ^ 2) * (2 * Real.pi * z / (1 - Real.exp (-2 * Real.pi * z))) * Real.exp (-4 * z * Real.arctan (1 / z))
    |nonRelativistic z - exact| ≤ 1e-8 * exact := by
  intro exact
  have hpi := Real.pi_pos
  have hx : 0 < Real.pi * z := by positivity
  have he : Real.exp (-2 * Real.pi * z) < 1 := by
    rw [← Real.exp_zero]
    exact Real.exp_lt_exp.2 (by nlinarith)
  have hex : 0 < exact := by
    have : 0 < 1 - Real.exp (-2 * Real.pi * z) := by linarith
    simp only [exact]
    positivity
  by_cases h : Real.pi * z < 10
  · have e : nonRelativistic z = exact := by
      unfold nonRelativistic
      simp only
      rw [if_pos h]
      simp only [exact]
      have h1 : Real.exp (z * (Real.pi - 4 * Real.arctan (1 / z))) =
          Real.exp (Real.pi * z) * Real.exp (-4 * z * Real.arctan (1 / z)) := by
        rw [← Real.exp_add]
        congr 1
        ring
      have h2 : Real.sinh (Real.pi * z) = Real.exp (Real.pi * z) * (1 - Real.exp (-2 * Real.pi * z)) / 2 := by
        rw [Real.sinh_eq, mul_sub, mul_one, ← Real.exp_add]
        congr 3
        ring
      rw [h1, h2]
      have : 1 - Real.exp (-2 * Real.pi * z) ≠ 0 := by linarith
      have := (Real.exp_pos (Real.pi * z)).ne'
      field_simp
    rw [e, sub_self, abs_zero]
    positivity
  · have e : nonRelativistic z = exact * (1 - Real.exp (-2 * Real.pi * z)) := by
      unfold nonRelativistic
      simp only
      rw [if_neg h]
      simp only [exact]
      have : 1 - Real.exp (-2 * Real.pi * z) ≠ 0 := by linarith
      have h1 : z * (-4 * Real.arctan (1 / z)) = -4 * z * Real.arctan (1 / z) := by ring
      rw [h1]
      set q := Real.exp (-2 * Real.pi * z)
      field_simp
    have hs : Real.exp (-2 * Real.pi * z) ≤ 1e-8 := by
      have h1 : Real.exp (-2 * Real.pi * z) ≤ Real.exp (-20) := Real.exp_le_exp.2 (by linarith)
      have h2 : Real.exp (-20) = (Real.exp 1)⁻¹ ^ 20 := by
        rw [← Real.exp_neg, ← Real.exp_nat_mul]
        norm_num
      have h3 : (Real.exp 1)⁻¹ ≤ 2.718⁻¹ := inv_anti₀ (by norm_num) (by linarith [Real.exp_one_gt_d9])
      have h4 : (Real.exp 1)⁻¹ ^ 20 ≤ (2.718⁻¹ : ℝ) ^ 20 := pow_le_pow_left₀ (by positivity) h3 _
      have h5 : (2.718⁻¹ : ℝ) ^ 20 ≤ 1e-8 := by norm_num
      linarith
    have : nonRelativistic z - exact = -(exact * Real.exp (-2 * Real.pi * z)) := by rw [e]; ring
    rw [this, abs_neg, abs_of_pos (mul_pos hex (Real.exp_pos _)), mul_comm]
    exact mul_le_mul_of_nonneg_right hs hex.le

lemma tendsto_ratio_edge {l : Filter ℝ} {γ b : ℝ → ℝ} (hγ : ∀ᶠ E in l, 1 < γ E) (hb : ∀ᶠ E in l, 0 < b E)
    (h : ∀ᶠ E in l, b E ^ 2 = γ E * γ E - 1) (h1 : Tendsto γ l (𝓝 1)) (h2 : Tendsto b l (𝓝 0)) :
    Tendsto (fun E => sauterBracket (γ E) (b E)) l (𝓝 (4 / 3)) := by
  have hlo : Tendsto (fun E => (1 - b E / (γ E + 1)) / γ E) l (𝓝 1) := by
    have := ((h2.div (h1.add_const 1) (by norm_num)).const_sub 1).div h1 one_ne_zero
    simpa [Pi.div_def] using this
  have hhi : Tendsto (fun E => 1 / γ E) l (𝓝 1) := by
    have := h1.inv₀ one_ne_zero
    simpa [one_div] using this
  have hr : Tendsto (fun E => 1 / (γ E * b E) * Real.log (γ E + b E)) l (𝓝 1) := by
    refine tendsto_of_tendsto_of_tendsto_of_le_of_le' hlo hhi ?_ ?_
    · filter_upwards [hγ, hb, h] with E a1 a2 a3 using (sauter_ratio a1 a2 a3).1
    · filter_upwards [hγ, hb, h] with E a1 a2 a3 using (sauter_ratio a1 a2 a3).2.1
  have := ((((h1.mul (h1.sub_const 2)).div (h1.add_const 1) (by norm_num)).mul (hr.const_sub 1))).const_add (4 / 3)
  unfold sauterBracket
  simpa using this

/-- C118: at the edge the cross section of the innermost shell is Stobbe's, `(1024 π² / 3) e⁻⁴ r² / (α³ Z²)`. -/
theorem C118_edge (c : Component) (hZ : 0 < c.nucCharge) :
    Tendsto (fun E => (sauter E c).getD 0) (𝓝[>] (photoeffectCutOff c))
      (𝓝 (1024 * Real.pi ^ 2 / 3 * Real.exp (-4) * RE ^ 2 / (ALPHA ^ 3 * c.nucCharge ^ 2))) := by
  have hα := alpha_pos'
  have hr := re_pos'
  have hm := me_pos'
  have hpi := Real.pi_pos
  set Z := c.nucCharge with hZd
  set I := photoeffectCutOff c with hI
  have hI' : I = (Z * ALPHA) ^ 2 * ME / 2 := rfl
  have hI0 : 0 < I := by rw [hI']; positivity
  set γ : ℝ → ℝ := fun E => 1 + (E - I) / ME with hγd
  set b : ℝ → ℝ := fun E => Real.sqrt (γ E * γ E - 1) with hbd
  set l := 𝓝[>] I
  have tE : Tendsto (fun E : ℝ => E) l (𝓝 I) := tendsto_id.mono_left nhdsWithin_le_nhds
  have tγ : Tendsto γ l (𝓝 1) := by
    have := ((tE.sub_const I).div_const ME).const_add 1
    simpa using this
  have tb : Tendsto b l (𝓝 0) := by
    have := (((tγ.mul tγ).sub_const 1)).sqrt
    simpa using this
  have ev : ∀ᶠ E in l, I < E := self_mem_nhdsWithin
  have e1 : ∀ᶠ E in l, 1 < γ E := by filter_upwards [ev] with E hE using (sauter_eq hZ hE).1
  have e2 : ∀ᶠ E in l, 0 < b E := by filter_upwards [ev] with E hE using (sauter_eq hZ hE).2.1
  have e3 : ∀ᶠ E in l, b E ^ 2 = γ E * γ E - 1 := by filter_upwards [ev] with E hE using (sauter_eq hZ hE).2.2.1
  have tB := tendsto_ratio_edge e1 e2 e3 tγ tb
  have tt : Tendsto (fun E => b E / (Z * ALPHA * γ E)) l (𝓝 0) := by
    have := tb.div (tγ.const_mul (Z * ALPHA)) (by positivity)
    simpa [Pi.div_def] using this
  have tz : ∀ᶠ E in l, b E / (Z * ALPHA * γ E) < Real.pi / 10 := tt.eventually (gt_mem_nhds (by positivity))
  have td : Tendsto (fun E => dslope Real.arctan 0 (b E / (Z * ALPHA * γ E))) l (𝓝 1) := by
    have hc : ContinuousAt (dslope Real.arctan 0) 0 := continuousAt_dslope_same.2 (Real.differentiableAt_arctan 0)
    have h1 : dslope Real.arctan 0 0 = 1 := by rw [dslope_same]; simp [Real.deriv_arctan]
    have := hc.tendsto.comp tt
    rwa [h1] at this
  have hlim : Tendsto (fun E => 1.5 * ((8 * Real.pi * RE * RE) / 3) * Z ^ 5 * ALPHA ^ 4 * (ME / E) ^ 5 *
      sauterBracket (γ E) (b E) * (2 * Real.pi * ((b E) ^ 2 + (Z * ALPHA * γ E) ^ 2) * (Z * ALPHA * γ E) *
        Real.exp (-4 * dslope Real.arctan 0 (b E / (Z * ALPHA * γ E))))) l
      (𝓝 (1.5 * ((8 * Real.pi * RE * RE) / 3) * Z ^ 5 * ALPHA ^ 4 * (ME / I) ^ 5 * (4 / 3) *
        (2 * Real.pi * (0 ^ 2 + (Z * ALPHA * 1) ^ 2) * (Z * ALPHA * 1) * Real.exp (-4 * 1)))) := by
    have tm : Tendsto (fun E => ME / E) l (𝓝 (ME / I)) := tendsto_const_nhds.div tE hI0.ne'
    have ta := tγ.const_mul (Z * ALPHA)
    have tx : Tendsto (fun E => Real.exp (-4 * dslope Real.arctan 0 (b E / (Z * ALPHA * γ E)))) l (𝓝 (Real.exp (-4 * 1))) :=
      (Real.continuous_exp.tendsto _).comp (td.const_mul (-4))
    exact (((tm.pow 5).const_mul _).mul tB).mul (((((tb.pow 2).add (ta.pow 2)).const_mul (2 * Real.pi)).mul ta).mul tx)
  have hval : 1.5 * ((8 * Real.pi * RE * RE) / 3) * Z ^ 5 * ALPHA ^ 4 * (ME / I) ^ 5 * (4 / 3) *
        (2 * Real.pi * (0 ^ 2 + (Z * ALPHA * 1) ^ 2) * (Z * ALPHA * 1) * Real.exp (-4 * 1)) =
      1024 * Real.pi ^ 2 / 3 * Real.exp (-4) * RE ^ 2 / (ALPHA ^ 3 * Z ^ 2) := by
    rw [hI', mul_one (-4 : ℝ)]
    set q := Real.exp (-4)
    field_simp
    norm_num
    ring
  rw [← hval]
  refine hlim.congr' ?_
  filter_upwards [ev, tz, e1, e2] with E hE hz h1 h2
  obtain ⟨_, _, _, h4⟩ := sauter_eq hZ hE
  rw [h4, Option.getD_some]
  show _ = 1.5 * ((8 * Real.pi * RE * RE) / 3) * Z ^ 5 * ALPHA ^ 4 * (ME / E) ^ 5 * b E ^ 3 *
      sauterBracket (γ E) (b E) * nonRelativistic (Z * ALPHA * γ E / b E)
  have hg : 0 < γ E := by linarith
  have hq : 0 < Z * ALPHA * γ E := by positivity
  unfold nonRelativistic
  simp only
  rw [if_neg (by
    rw [not_lt, ← mul_div_assoc, le_div_iff₀ h2]
    rw [div_lt_div_iff₀ hq (by norm_num)] at hz
    linarith)]
  have hs : dslope Real.arctan 0 (b E / (Z * ALPHA * γ E)) =
      Z * ALPHA * γ E / b E * Real.arctan (1 / (Z * ALPHA * γ E / b E)) := by
    rw [dslope_of_ne _ (by positivity), slope_def_field, Real.arctan_zero, sub_zero, sub_zero, one_div_div]
    field_simp
  rw [hs]
  have he : -4 * (Z * ALPHA * γ E / b E * Real.arctan (1 / (Z * ALPHA * γ E / b E))) =
    Z * ALPHA * γ E / b E * (-4 * Real.arctan (1 / (Z * ALPHA * γ E / b E))) := by ring
  rw [he]
  set q := Real.exp (Z * ALPHA * γ E / b E * (-4 * Real.arctan (1 / (Z * ALPHA * γ E / b E))))
  field_simp

/-- C118: at high energies the cross section falls with the inverse of the energy, with Sauter's coefficient. -/
theorem C118_high_energy (c : Component) (hZ : 0 < c.nucCharge) (hZ2 : c.nucCharge ≤ 300) :
    Tendsto (fun E => E * (sauter E c).getD 0) atTop (𝓝 (3 / 2 * (8 / 3 * Real.pi * RE ^ 2) * c.nucCharge ^ 5 * ALPHA ^ 4 * ME *
      nonRelativistic (c.nucCharge * ALPHA))) := by
  have hα := alpha_pos'
  have hr := re_pos'
  have hm := me_pos'
  have hpi := Real.pi_pos
  set Z := c.nucCharge with hZd
  set I := photoeffectCutOff c with hI
  set γ : ℝ → ℝ := fun E => 1 + (E - I) / ME with hγd
  set b : ℝ → ℝ := fun E => Real.sqrt (γ E * γ E - 1) with hbd
  have ev : ∀ᶠ E in atTop, I < E := eventually_gt_atTop I
  have ev0 : ∀ᶠ E : ℝ in atTop, 0 < E := eventually_gt_atTop 0
  have e1 : ∀ᶠ E in atTop, 1 < γ E := by filter_upwards [ev] with E hE using (sauter_eq hZ hE).1
  have e2 : ∀ᶠ E in atTop, 0 < b E := by filter_upwards [ev] with E hE using (sauter_eq hZ hE).2.1
  have e3 : ∀ᶠ E in atTop, b E ^ 2 = γ E * γ E - 1 := by filter_upwards [ev] with E hE using (sauter_eq hZ hE).2.2.1
  have tγ : Tendsto γ atTop atTop :=
    tendsto_atTop_add_const_left _ _ ((tendsto_atTop_add_const_right _ _ tendsto_id).atTop_div_const hm)
  have ti : Tendsto (fun E => 1 / γ E) atTop (𝓝 0) := by
    simpa [one_div, Function.comp_def] using tendsto_inv_atTop_zero.comp tγ
  -- `b / γ` tends to 1
  have tbg : Tendsto (fun E => b E / γ E) atTop (𝓝 1) := by
    have h1 : Tendsto (fun E => Real.sqrt (1 - 1 / γ E * (1 / γ E))) atTop (𝓝 1) := by
      have := ((ti.mul ti).const_sub 1).sqrt
      simpa using this
    refine h1.congr' ?_
    filter_upwards [e1] with E h
    have hg : 0 < γ E := by linarith
    rw [eq_div_iff hg.ne', ← Real.sqrt_sq hg.le, ← Real.sqrt_mul' _ (sq_nonneg _), hbd]
    congr 1
    rw [Real.sqrt_sq hg.le]
    field_simp
  have tgb : Tendsto (fun E => γ E / b E) atTop (𝓝 1) := by
    have := tbg.inv₀ one_ne_zero
    simpa using this
  have tme : Tendsto (fun E => ME / E * γ E) atTop (𝓝 1) := by
    have h1 : Tendsto (fun E : ℝ => 1 + (ME - I) * (1 / E)) atTop (𝓝 1) := by
      have : Tendsto (fun E : ℝ => 1 / E) atTop (𝓝 0) := by simpa [one_div] using tendsto_inv_atTop_zero (𝕜 := ℝ)
      simpa using (this.const_mul (ME - I)).const_add 1
    refine h1.congr' ?_
    filter_upwards [ev0] with E h
    simp only [hγd]
    field_simp
    ring
  have tq : Tendsto (fun E => 1 / (γ E * b E) * Real.log (γ E + b E)) atTop (𝓝 0) := by
    refine tendsto_of_tendsto_of_tendsto_of_le_of_le' tendsto_const_nhds ti ?_ ?_
    · filter_upwards [e1, e2, e3] with E a1 a2 a3 using (sauter_ratio a1 a2 a3).2.2.le
    · filter_upwards [e1, e2, e3] with E a1 a2 a3 using (sauter_ratio a1 a2 a3).2.1
  have tB : Tendsto (fun E => sauterBracket (γ E) (b E) / γ E) atTop (𝓝 1) := by
    have h1 : Tendsto (fun E => 4 / 3 * (1 / γ E) + (1 - 2 * (1 / γ E)) / (1 + 1 / γ E) *
        (1 - 1 / (γ E * b E) * Real.log (γ E + b E))) atTop (𝓝 1) := by
      have := (ti.const_mul (4 / 3)).add ((((ti.const_mul 2).const_sub 1).div (ti.const_add 1) (by norm_num)).mul (tq.const_sub 1))
      simpa using this
    refine h1.congr' ?_
    filter_upwards [e1] with E h
    have hg : 0 < γ E := by linarith
    unfold sauterBracket
    have : γ E + 1 ≠ 0 := by linarith
    have : 1 + 1 / γ E = (γ E + 1) / γ E := by field_simp
    rw [this]
    field_simp
  have hN : ContinuousAt nonRelativistic (Z * ALPHA) := by
    have hlt : Real.pi * (Z * ALPHA) < 10 := by
      have := Real.pi_le_four
      have h1 : Z * ALPHA ≤ 300 * ALPHA := mul_le_mul_of_nonneg_right hZ2 hα.le
      have h2 : 300 * ALPHA < 5 / 2 := by norm_num [ALPHA]
      have h3 : 0 < Z * ALPHA := by positivity
      nlinarith
    have hev : (fun z => (1 + z * z) * (Real.pi * z) / Real.sinh (Real.pi * z) *
        Real.exp (z * (Real.pi - 4 * Real.arctan (1 / z)))) =ᶠ[𝓝 (Z * ALPHA)] nonRelativistic := by
      have : ∀ᶠ z in 𝓝 (Z * ALPHA), Real.pi * z < 10 :=
        (continuous_const.mul continuous_id).continuousAt.eventually (gt_mem_nhds hlt)
      filter_upwards [this] with z hz
      unfold nonRelativistic
      simp only
      rw [if_pos hz]
    refine ContinuousAt.congr ?_ hev
    have d1 : Real.sinh (Real.pi * (Z * ALPHA)) ≠ 0 := (Real.sinh_pos_iff.2 (by positivity)).ne'
    have d2 : Z * ALPHA ≠ 0 := by positivity
    refine ContinuousAt.mul (ContinuousAt.div ?_ ?_ d1) ?_
    · fun_prop
    · exact Real.continuous_sinh.continuousAt.comp (by fun_prop)
    · refine Real.continuous_exp.continuousAt.comp ?_
      refine ContinuousAt.mul continuousAt_id (continuousAt_const.sub (continuousAt_const.mul ?_))
      exact Real.continuous_arctan.continuousAt.comp (continuousAt_const.div continuousAt_id d2)
  have tN : Tendsto (fun E => nonRelativistic (Z * ALPHA * γ E / b E)) atTop (𝓝 (nonRelativistic (Z * ALPHA))) := by
    have h1 : Tendsto (fun E => Z * ALPHA * γ E / b E) atTop (𝓝 (Z * ALPHA)) := by
      have := tgb.const_mul (Z * ALPHA)
      simpa [mul_div_assoc] using this
    exact hN.tendsto.comp h1
  have hlim : Tendsto (fun E => 1.5 * ((8 * Real.pi * RE * RE) / 3) * Z ^ 5 * ALPHA ^ 4 * ME * (ME / E * γ E) ^ 4 *
      (b E / γ E) ^ 3 * (sauterBracket (γ E) (b E) / γ E) * nonRelativistic (Z * ALPHA * γ E / b E)) atTop
      (𝓝 (1.5 * ((8 * Real.pi * RE * RE) / 3) * Z ^ 5 * ALPHA ^ 4 * ME * 1 ^ 4 * 1 ^ 3 * 1 * nonRelativistic (Z * ALPHA))) :=
    ((((tme.pow 4).const_mul _).mul (tbg.pow 3)).mul tB).mul tN
  have hval : 1.5 * ((8 * Real.pi * RE * RE) / 3) * Z ^ 5 * ALPHA ^ 4 * ME * 1 ^ 4 * 1 ^ 3 * 1 * nonRelativistic (Z * ALPHA) =
      3 / 2 * (8 / 3 * Real.pi * RE ^ 2) * Z ^ 5 * ALPHA ^ 4 * ME * nonRelativistic (Z * ALPHA) := by ring
  rw [← hval]
  refine hlim.congr' ?_
  filter_upwards [ev, ev0, e1] with E hE h0 h1
  obtain ⟨_, _, _, h4⟩ := sauter_eq hZ hE
  rw [h4, Option.getD_some]
  show _ = E * (1.5 * ((8 * Real.pi * RE * RE) / 3) * Z ^ 5 * ALPHA ^ 4 * (ME / E) ^ 5 * b E ^ 3 *
      sauterBracket (γ E) (b E) * nonRelativistic (Z * ALPHA * γ E / b E))
  have hg : 0 < γ E := by linarith
  field_simp

/-- Cross section of an atom: that of the innermost shell times the ratio, if the photon can ionize it. -/
noncomputable def Spec.photoAtom (E : ℝ) (c : Component) : ℝ :=
  if photoeffectCutOff c < E then (sauter E c).getD 0 * kshellRatio c else 0

/-- A medium of atoms. -/
def Spec.Atoms (M : Med) : Prop :=
  0 < M.sumNucleons ∧ ∀ c ∈ M.components, Spec.IsAtom c ∧ 0 < c.atomInMolecule ∧ c.nucCharge ≤ 1e8

lemma photoAtom_pos {E : ℝ} {c : Component} (hc : Spec.IsAtom c) (hZ : c.nucCharge ≤ 1e8) :
    (photoeffectCutOff c < E → 0 < Spec.photoAtom E c ∧ photoeffectAtom E c = some (Spec.photoAtom E c)) ∧
    (E ≤ photoeffectCutOff c → Spec.photoAtom E c = 0) := by
  constructor
  · intro h
    obtain ⟨s, hs, e⟩ := (C118_threshold c E hc.1).1 h
    have hk := C118_ratio c hc.1 hZ
    unfold Spec.photoAtom photoeffectAtom
    rw [if_pos h, e]
    simp only [Option.getD_some, Option.map_some]
    rw [if_neg hs.ne']
    exact ⟨mul_pos hs (by linarith), rfl⟩
  · intro h
    unfold Spec.photoAtom
    rw [if_neg (not_lt.2 h)]

lemma sumRates_some {α : Type} (f : α → Option ℝ) (g : α → ℝ) : ∀ l : List α, (∀ a ∈ l, f a = some (g a)) →
    sumRates (l.map f) = some (l.map g).sum
  | [], _ => by simp [sumRates]
  | a :: l, h => by
    have ih := sumRates_some f g l fun b hb => h b (List.mem_cons_of_mem _ hb)
    simp only [List.map_cons, sumRates, h a List.mem_cons_self, ih, Option.bind_some, Option.map_some, List.sum_cons]

lemma per_weight {M : Med} {c : Component} (hs : 0 < M.sumNucleons) (hA : 0 < c.atomicNum) (hn : 0 < c.atomInMolecule) (σ : ℝ) :
    NAvogadro / c.atomicNum * σ / weightOf M c = NAvogadro / M.sumNucleons * (c.atomInMolecule * σ) := by
  unfold weightOf
  field_simp

/-- C118: the rate of a molecule is the sum of the rates of its atoms. -/
theorem C118_total (M : Med) (E : ℝ) (h : Spec.Atoms M) :
    photoeffectNdx M E = some (NAvogadro / M.sumNucleons * (M.components.map fun c => c.atomInMolecule * Spec.photoAtom E c).sum) := by
  unfold photoeffectNdx photoeffectPerTarget
  rw [sumRates_some _ (fun c => NAvogadro / M.sumNucleons * (c.atomInMolecule * Spec.photoAtom E c)), List.sum_map_mul_left]
  intro c hc
  obtain ⟨ha, hn, hZ⟩ := h.2 c hc
  obtain ⟨p1, p2⟩ := photoAtom_pos (E := E) ha hZ
  by_cases hE : E > photoeffectCutOff c
  · rw [if_pos hE, (p1 hE).2, Option.map_some, per_weight h.1 ha.2 hn]
  · rw [if_neg hE, p2 (not_lt.1 hE)]
    simp

lemma lowestCutOff_spec (cut : Component → ℝ) : ∀ l : List Component, (l = [] → lowestCutOff cut l = none) ∧
    (l ≠ [] → ∃ c ∈ l, lowestCutOff cut l = some (cut c) ∧ ∀ d ∈ l, cut c ≤ cut d)
  | [] => by simp [lowestCutOff]
  | a :: l => by
    obtain ⟨h1, h2⟩ := lowestCutOff_spec cut l
    refine ⟨by simp, fun _ => ?_⟩
    by_cases hl : l = []
    · subst hl
      exact ⟨a, by simp, by simp [lowestCutOff], by simp⟩
    · obtain ⟨c, hc, e, hmin⟩ := h2 hl
      rcases le_total (cut a) (cut c) with hac | hac
      · refine ⟨a, by simp, by simp [lowestCutOff, e, hac], ?_⟩
        intro d hd
        rcases List.mem_cons.1 hd with rfl | hd
        · exact le_rfl
        · exact hac.trans (hmin d hd)
      · refine ⟨c, by simp [hc], by simp [lowestCutOff, e, hac], ?_⟩
        intro d hd
        rcases List.mem_cons.1 hd with rfl | hd
        · exact hac
        · exact hmin d hd

/-- C118: the lower limit of the energies is that of the photo effect itself: above it the rate is positive, at and below it the rate
is 0. A medium without components has no lower limit and no photo effect. -/
theorem C118_lower_limit (M : Med) (E : ℝ) (h : Spec.Atoms M) :
    match lowestCutOff photoeffectCutOff M.components with
    | none => photoeffectNdx M E = some 0
    | some L => (E ≤ L → photoeffectNdx M E = some 0) ∧ (L < E → ∃ r > 0, photoeffectNdx M E = some r) := by
  obtain ⟨h1, h2⟩ := lowestCutOff_spec photoeffectCutOff M.components
  by_cases hl : M.components = []
  · rw [h1 hl]
    simp [photoeffectNdx, photoeffectPerTarget, hl, sumRates]
  · obtain ⟨c, hc, e, hmin⟩ := h2 hl
    rw [e]
    simp only
    have hn := na_pos'
    constructor
    · intro hE
      rw [C118_total M E h]
      have : (M.components.map fun c => c.atomInMolecule * Spec.photoAtom E c) = M.components.map fun _ => (0 : ℝ) := by
        apply List.map_congr_left
        intro d hd
        obtain ⟨ha, _, hZ⟩ := h.2 d hd
        rw [(photoAtom_pos ha hZ).2 (hE.trans (hmin d hd)), mul_zero]
      rw [this]
      simp
    · intro hE
      refine ⟨_, ?_, C118_total M E h⟩
      have hnn : ∀ d ∈ M.components, 0 ≤ d.atomInMolecule * Spec.photoAtom E d := by
        intro d hd
        obtain ⟨ha, hn, hZ⟩ := h.2 d hd
        rcases le_or_gt E (photoeffectCutOff d) with hle | hlt
        · rw [(photoAtom_pos ha hZ).2 hle, mul_zero]
        · exact (mul_pos hn ((photoAtom_pos ha hZ).1 hlt).1).le
      have hs : 0 < (M.components.map fun c => c.atomInMolecule * Spec.photoAtom E c).sum := by
        obtain ⟨ha, hn, hZ⟩ := h.2 c hc
        have h1 : c.atomInMolecule * Spec.photoAtom E c ≤ (M.components.map fun c => c.atomInMolecule * Spec.photoAtom E c).sum := by
          apply List.single_le_sum
          · intro x hx
            obtain ⟨d, hd, rfl⟩ := List.mem_map.1 hx
            exact hnn d hd
          · exact List.mem_map.2 ⟨c, hc, rfl⟩
        exact (mul_pos hn ((photoAtom_pos ha hZ).1 hE).1).trans_le h1
      have := h.1
      positivity

/-- C118: above the binding energy of a target its rate is the one in the list of all targets. -/
theorem C118_target_partial (M : Med) (E : ℝ) (c : Component) (hc : Spec.IsAtom c) (hZ : c.nucCharge ≤ 1e8) (hn : 0 < c.atomInMolecule)
    (hs : 0 < M.sumNucleons) (hE : photoeffectCutOff c < E) :
    photoeffectNdxTarget M E c = some (NAvogadro / M.sumNucleons * (c.atomInMolecule * Spec.photoAtom E c)) := by
  unfold photoeffectNdxTarget
  rw [((photoAtom_pos hc hZ).1 hE).2, Option.map_some, per_weight hs hc.2 hn]

/-- C118 fails for the rate of a target below its binding energy: it is no number, although the rate in the list of all targets is
0 and their sum a number. -/
theorem C118_target_undefined (M : Med) (E : ℝ) (c : Component) (hM : Spec.Atoms M) (hc : c ∈ M.components) (hE : E ≤ photoeffectCutOff c) :
    photoeffectNdxTarget M E c = none ∧ some 0 ∈ photoeffectPerTarget M E ∧ ∃ r, photoeffectNdx M E = some r := by
  refine ⟨?_, ?_, _, C118_total M E hM⟩
  · unfold photoeffectNdxTarget photoeffectAtom
    rw [(C118_threshold c E (hM.2 c hc).1.1).2 hE]
    rfl
  · unfold photoeffectPerTarget
    exact List.mem_map.2 ⟨c, hc, by rw [if_neg (not_lt.2 hE)]⟩

/-- Water; between the binding energies of hydrogen and oxygen only hydrogen is ionized. -/
lemma exWater_atoms : Spec.Atoms exWater := by
  refine ⟨by norm_num [exWater], ?_⟩
  intro c hc
  simp only [exWater, List.mem_cons, List.not_mem_nil, or_false] at hc
  rcases hc with rfl | rfl <;> norm_num [Spec.IsAtom, exHydrogen, exOxygen]

example : ∃ E, photoeffectCutOff exHydrogen < E ∧ E ≤ photoeffectCutOff exOxygen ∧ photoeffectNdxTarget exWater E exOxygen = none ∧
    ∃ r > 0, photoeffectNdx exWater E = some r := by
  have hlow : lowestCutOff photoeffectCutOff exWater.components = some (photoeffectCutOff exHydrogen) := by
    have : photoeffectCutOff exHydrogen ≤ photoeffectCutOff exOxygen := by
      norm_num [photoeffectCutOff, exHydrogen, exOxygen, ALPHA, ME]
    simp [lowestCutOff, exWater, this]
  have h1 : photoeffectCutOff exHydrogen < 1e-4 := by norm_num [photoeffectCutOff, exHydrogen, ALPHA, ME]
  have h2 : 1e-4 ≤ photoeffectCutOff exOxygen := by norm_num [photoeffectCutOff, exOxygen, ALPHA, ME]
  have h := C118_lower_limit exWater 1e-4 exWater_atoms
  rw [hlow] at h
  exact ⟨1e-4, h1, h2, (C118_target_undefined exWater 1e-4 exOxygen exWater_atoms (by simp [exWater]) h2).1, h.2 h1⟩

example : 0 < exOxygen.nucCharge ∧ exOxygen.nucCharge ≤ 300 ∧ Spec.IsAtom exOxygen := by
  norm_num [exOxygen, Spec.IsAtom]

end Proposal
