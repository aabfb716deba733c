import Verif.Model.DiffCross
import Verif.Props.Medium
import Mathlib.Analysis.SpecialFunctions.Integrals.Basic
import Mathlib.Analysis.SpecialFunctions.Arsinh
import Mathlib.Analysis.SpecialFunctions.Trigonometric.DerivHyp

/-!
# C115, C116: Compton scattering and annihilation
-/

open MeasureTheory Set

namespace Proposal

/-- An atom: positive charge and mass. -/
def Spec.IsAtom (c : Component) : Prop := 0 < c.nucCharge ∧ 0 < c.atomicNum

/-- Electrons per gram of the component. -/
noncomputable def Spec.electrons (c : Component) : ℝ := NAvogadro * c.nucCharge / c.atomicNum

/-- What is left of the energy of a photon scattered by an electron at rest with the cosine `cosθ`, as fraction
(energy in units of the electron mass). -/
noncomputable def Spec.left (k cosθ : ℝ) : ℝ := 1 / (1 + k * (1 - cosθ))

/-- The formula of Klein and Nishina per solid angle. -/
noncomputable def Spec.perSolidAngle (k cosθ : ℝ) : ℝ :=
  RE ^ 2 / 2 * Spec.left k cosθ ^ 2 * (Spec.left k cosθ + 1 / Spec.left k cosθ - (1 - cosθ ^ 2))

lemma me_pos' : 0 < ME := by unfold ME; norm_num
lemma re_pos' : 0 < RE := by unfold RE; norm_num
lemma na_pos' : 0 < NAvogadro := by unfold NAvogadro; norm_num

lemma Spec.left_pos {k x : ℝ} (hk : 0 < k) (hx : x ≤ 1) : 0 < Spec.left k x ∧ Spec.left k x ≤ 1 := by
  have h : 0 ≤ k * (1 - x) := mul_nonneg hk.le (by linarith)
  unfold Spec.left
  exact ⟨by positivity, by rw [div_le_one (by positivity)]; linarith⟩

/-- The cross section in the form of the literature, with `x = 1 - cosθ`. -/
lemma kleinNishina_eq (c : Component) (E v : ℝ) (hE : 0 < E) (hv : v < 1) :
    kleinNishina c E v = Spec.electrons c * (Real.pi * RE ^ 2 * ME / E) *
      ((1 - v) + 1 / (1 - v) - 2 * (v / ((1 - v) * (E / ME))) + (v / ((1 - v) * (E / ME))) ^ 2) := by
  have hm := me_pos'
  have h1 : 1 - v ≠ 0 := by linarith
  have hp : (E / ME) ^ (-2 : ℝ) = 1 / (E / ME) ^ 2 := by
    rw [Real.rpow_neg (by positivity), one_div]
    norm_num
  unfold kleinNishina Spec.electrons
  simp only [hp]
  field_simp
  ring

/-- C115: at the loss that belongs to a scattering angle, the cross section over the loss times the change of the loss with
`1 - cosθ` is 2π times the formula of Klein and Nishina per solid angle and electron. -/
theorem C115_klein_nishina (c : Component) (E x : ℝ) (hE : 0 < E) (hx : x ≤ 1) :
    HasDerivAt (fun s => 1 - Spec.left (E / ME) (1 - s)) (E / ME * Spec.left (E / ME) x ^ 2) (1 - x) ∧
    kleinNishina c E (1 - Spec.left (E / ME) x) * (E / ME * Spec.left (E / ME) x ^ 2) =
      Spec.electrons c * (2 * Real.pi * Spec.perSolidAngle (E / ME) x) := by
  have hm := me_pos'
  have hk : 0 < E / ME := by positivity
  have h : 0 ≤ E / ME * (1 - x) := mul_nonneg hk.le (by linarith)
  have hne : 1 + E / ME * (1 - x) ≠ 0 := by positivity
  constructor
  · have e : (fun s => 1 - Spec.left (E / ME) (1 - s)) = fun s => 1 - (1 + E / ME * s)⁻¹ := by
      funext s
      simp only [Spec.left, sub_sub_cancel, one_div]
    rw [e]
    have h1 : HasDerivAt (fun s : ℝ => 1 + E / ME * s) (E / ME) (1 - x) := by
      simpa using ((hasDerivAt_id (1 - x)).const_mul (E / ME)).const_add 1
    refine ((h1.inv hne).const_sub 1).congr_deriv ?_
    unfold Spec.left
    field_simp
  · obtain ⟨p1, p2⟩ := Spec.left_pos hk hx
    have hs : Spec.left (E / ME) x * (1 + E / ME * (1 - x)) = 1 := by
      unfold Spec.left
      exact one_div_mul_cancel hne
    rw [kleinNishina_eq c E _ hE (by linarith), sub_sub_cancel]
    have e : (1 - Spec.left (E / ME) x) / (Spec.left (E / ME) x * (E / ME)) = 1 - x := by
      rw [div_eq_iff (by positivity)]
      linarith
    rw [e]
    unfold Spec.perSolidAngle
    field_simp
    ring

/-- C115: the losses between the kinematic limits are exactly those of the scattering angles. -/
theorem C115_range (E v : ℝ) (hE : 0 < E) :
    ((limCompton E).vMin ≤ v ∧ v ≤ (limCompton E).vMax) ↔ ∃ x, -1 ≤ x ∧ x ≤ 1 ∧ v = 1 - Spec.left (E / ME) x := by
  have hm := me_pos'
  have hk : 0 < E / ME := by positivity
  have e : 2 * E / ME = 2 * (E / ME) := by ring
  simp only [limCompton, e]
  set k := E / ME
  constructor
  · rintro ⟨h0, h1⟩
    have h2 : 1 / (1 + 2 * k) ≤ 1 - v := by linarith
    have h3 : 0 < 1 - v := lt_of_lt_of_le (by positivity) h2
    refine ⟨1 - v / ((1 - v) * k), ?_, ?_, ?_⟩
    · have : v / ((1 - v) * k) ≤ 2 := by
        rw [div_le_iff₀ (by positivity)]
        rw [div_le_iff₀ (by positivity)] at h2
        linarith
      linarith
    · have : 0 ≤ v / ((1 - v) * k) := by positivity
      linarith
    · unfold Spec.left
      field_simp
      ring
  · rintro ⟨x, h0, h1, rfl⟩
    obtain ⟨p1, p2⟩ := Spec.left_pos hk h1
    refine ⟨by linarith, ?_⟩
    have : 1 / (1 + 2 * k) ≤ Spec.left k x := by
      unfold Spec.left
      apply one_div_le_one_div_of_le
      · have : 0 ≤ k * (1 - x) := mul_nonneg hk.le (by linarith)
        linarith
      · nlinarith
    linarith

/-- C115: it is positive for every loss. -/
theorem C115_positive (c : Component) (hc : Spec.IsAtom c) (E v : ℝ) (hE : 0 < E) (h0 : 0 ≤ v)
    (h1 : v ≤ (limCompton E).vMax) : 0 < kleinNishina c E v := by
  obtain ⟨x, hx0, hx1, rfl⟩ := (C115_range E v hE).mp ⟨h0, h1⟩
  have hm := me_pos'
  have hr := re_pos'
  have hn := na_pos'
  have hk : 0 < E / ME := by positivity
  obtain ⟨p1, p2⟩ := Spec.left_pos hk hx1
  have h := (C115_klein_nishina c E x hE hx1).2
  have hpos : 0 < Spec.electrons c * (2 * Real.pi * Spec.perSolidAngle (E / ME) x) := by
    have h2 : 0 < Spec.left (E / ME) x + 1 / Spec.left (E / ME) x - (1 - x ^ 2) := by
      have : 1 ≤ 1 / Spec.left (E / ME) x := by rw [le_div_iff₀ p1]; linarith
      nlinarith [sq_nonneg x]
    have h3 : 0 < Spec.electrons c := by unfold Spec.electrons; have := hc.1; have := hc.2; positivity
    unfold Spec.perSolidAngle
    have := Real.pi_pos
    positivity
  rw [← h] at hpos
  exact pos_of_mul_pos_left hpos (by positivity)

/-- C115: between the formula of Thomson and its product with the square of what is left, which is at least `1 / (1 + 2k)`. For
small energies it is Thomson's. -/
theorem C115_thomson (c : Component) (hc : Spec.IsAtom c) (E x : ℝ) (hE : 0 < E) (h0 : -1 ≤ x) (h1 : x ≤ 1) :
    let thomson := Spec.electrons c * (2 * Real.pi * (RE ^ 2 / 2 * (1 + x ^ 2)))
    thomson * (1 / (1 + 2 * (E / ME))) ^ 2 ≤ kleinNishina c E (1 - Spec.left (E / ME) x) * (E / ME * Spec.left (E / ME) x ^ 2) ∧
    kleinNishina c E (1 - Spec.left (E / ME) x) * (E / ME * Spec.left (E / ME) x ^ 2) ≤ thomson := by
  intro thomson
  have hm := me_pos'
  have hr := re_pos'
  have hn := na_pos'
  have hpi := Real.pi_pos
  have hk : 0 < E / ME := by positivity
  obtain ⟨p1, p2⟩ := Spec.left_pos hk h1
  have h3 : 0 < Spec.electrons c := by unfold Spec.electrons; have := hc.1; have := hc.2; positivity
  rw [(C115_klein_nishina c E x hE h1).2]
  have hlow : 1 / (1 + 2 * (E / ME)) ≤ Spec.left (E / ME) x := by
    have := ((C115_range E (1 - Spec.left (E / ME) x) hE).mpr ⟨x, h0, h1, rfl⟩).2
    have e : 2 * E / ME = 2 * (E / ME) := by ring
    simp only [limCompton, e] at this
    linarith
  have hlow0 : 0 < 1 / (1 + 2 * (E / ME)) := by positivity
  set P := Spec.left (E / ME) x with hP
  have hx2 : x ^ 2 ≤ 1 := by nlinarith
  have e1 : Spec.perSolidAngle (E / ME) x = RE ^ 2 / 2 * (P ^ 3 + P - P ^ 2 * (1 - x ^ 2)) := by
    unfold Spec.perSolidAngle
    rw [← hP]
    field_simp
  rw [e1]
  constructor
  · have : (1 / (1 + 2 * (E / ME))) ^ 2 * (1 + x ^ 2) ≤ P ^ 3 + P - P ^ 2 * (1 - x ^ 2) := by
      have h4 : (1 / (1 + 2 * (E / ME))) ^ 2 ≤ P ^ 2 := pow_le_pow_left₀ hlow0.le hlow 2
      have h5 : (1 / (1 + 2 * (E / ME))) ^ 2 * (1 + x ^ 2) ≤ P ^ 2 * (1 + x ^ 2) :=
        mul_le_mul_of_nonneg_right h4 (by positivity)
      have h6 : 0 ≤ P * (1 - P) ^ 2 := by positivity
      nlinarith
    calc thomson * (1 / (1 + 2 * (E / ME))) ^ 2
        = Spec.electrons c * (2 * Real.pi * (RE ^ 2 / 2 * ((1 / (1 + 2 * (E / ME))) ^ 2 * (1 + x ^ 2)))) := by
          simp only [thomson]; ring
      _ ≤ _ := by gcongr
  · have : P ^ 3 + P - P ^ 2 * (1 - x ^ 2) ≤ 1 + x ^ 2 := by
      have h6 : 0 ≤ (1 - P) * (1 + P ^ 2) := mul_nonneg (by linarith) (by positivity)
      have h7 : 0 ≤ x ^ 2 * (1 - P ^ 2) := mul_nonneg (sq_nonneg _) (by nlinarith)
      nlinarith
    simp only [thomson]
    gcongr

/-- C115: the rate over all losses is the total cross section of Klein and Nishina times the number of electrons. -/
theorem C115_total (c : Component) (E : ℝ) (hE : 0 < E) :
    let k := E / ME
    ∫ v in (limCompton E).vMin..(limCompton E).vMax, kleinNishina c E v =
      Spec.electrons c * (2 * Real.pi * RE ^ 2 * ((1 + k) / k ^ 2 * (2 * (1 + k) / (1 + 2 * k) - Real.log (1 + 2 * k) / k) +
        Real.log (1 + 2 * k) / (2 * k) - (1 + 3 * k) / (1 + 2 * k) ^ 2)) := by
  intro k
  have hm := me_pos'
  have hk : 0 < k := by positivity
  have hEk : E = k * ME := by simp only [k]; field_simp
  have e : 2 * E / ME = 2 * k := by simp only [k]; ring
  simp only [limCompton, e]
  have hlast : 0 < 1 / (1 + 2 * k) := by positivity
  have hlast1 : 1 / (1 + 2 * k) ≤ 1 := by rw [div_le_one (by positivity)]; linarith
  set F : ℝ → ℝ := fun v => Spec.electrons c * (Real.pi * RE ^ 2 / k) *
    (1 / k ^ 2 * (1 - v)⁻¹ - (1 - 2 * (1 + k) / k ^ 2) * Real.log (1 - v) - (1 + 2 * k) / k ^ 2 * (1 - v) - (1 - v) ^ 2 / 2)
  have hd : ∀ v ∈ uIcc 0 (1 - 1 / (1 + 2 * k)), HasDerivAt F (kleinNishina c E v) v := by
    intro v hv
    rw [Set.uIcc_of_le (by linarith)] at hv
    have hv1 : 0 < 1 - v := by linarith [hv.2]
    have h1 : HasDerivAt (fun v : ℝ => 1 - v) (-1) v := by simpa using (hasDerivAt_id v).const_sub 1
    have h2 := (((h1.inv hv1.ne').const_mul (1 / k ^ 2)).sub ((h1.log hv1.ne').const_mul (1 - 2 * (1 + k) / k ^ 2))).sub
      (h1.const_mul ((1 + 2 * k) / k ^ 2))
    have h3 := (h2.sub ((h1.pow 2).div_const 2)).const_mul (Spec.electrons c * (Real.pi * RE ^ 2 / k))
    refine h3.congr_deriv ?_
    rw [kleinNishina_eq c E v hE (by linarith), hEk]
    field_simp
    ring
  have hcont : ContinuousOn (kleinNishina c E) (uIcc 0 (1 - 1 / (1 + 2 * k))) := by
    rw [Set.uIcc_of_le (by linarith)]
    have hne : ∀ v ∈ Icc 0 (1 - 1 / (1 + 2 * k)), 1 - v ≠ 0 := by
      intro v hv
      have := hv.2
      linarith
    unfold kleinNishina
    simp only
    fun_prop (disch := assumption)
  rw [intervalIntegral.integral_eq_sub_of_hasDerivAt hd hcont.intervalIntegrable]
  simp only [F, sub_sub_cancel, sub_zero, Real.log_one, one_div, inv_inv, Real.log_inv]
  field_simp
  ring

/-! ## Annihilation -/

/-- Heitler's density of the share `ρ` of one photon, in units of π r_e² / (γ - 1). -/
noncomputable def Spec.heitlerDensity (γ ρ : ℝ) : ℝ :=
  1 / ρ * (1 + 2 * γ / (γ + 1) ^ 2 - ρ - 1 / ((γ + 1) ^ 2 * ρ))

lemma heitler_limits {γ : ℝ} (hγ : 1 < γ) :
    0 < (heitlerLimits γ).1 ∧ (heitlerLimits γ).1 < (heitlerLimits γ).2 ∧ (heitlerLimits γ).2 < 1 ∧
    (heitlerLimits γ).1 + (heitlerLimits γ).2 = 1 ∧ (heitlerLimits γ).1 * (heitlerLimits γ).2 = 1 / (2 * (γ + 1)) ∧
    (heitlerLimits γ).2 - (heitlerLimits γ).1 = Real.sqrt ((γ - 1) / (γ + 1)) := by
  have h0 : 0 < (γ - 1) / (γ + 1) := div_pos (by linarith) (by linarith)
  have h1 : (γ - 1) / (γ + 1) < 1 := by rw [div_lt_one (by linarith)]; linarith
  have s0 := Real.sqrt_pos.mpr h0
  have s1 : Real.sqrt ((γ - 1) / (γ + 1)) < 1 := by rw [Real.sqrt_lt' one_pos]; simpa using h1
  have s2 := Real.sq_sqrt h0.le
  unfold heitlerLimits
  rw [if_neg (by linarith)]
  simp only
  refine ⟨by linarith, by linarith, by linarith, by ring, ?_, by ring⟩
  have : 0.5 * (1 - Real.sqrt ((γ - 1) / (γ + 1))) * (0.5 * (1 + Real.sqrt ((γ - 1) / (γ + 1)))) =
      (1 - Real.sqrt ((γ - 1) / (γ + 1)) ^ 2) / 4 := by ring
  rw [this, s2]
  field_simp
  ring

lemma heitler_integral (γ a b : ℝ) (ha : 0 < a) (hb : 0 < b) (hγ : 0 < γ + 1) :
    ∫ ρ in a..b, Spec.heitlerDensity γ ρ =
      heitlerTerm (1 + 2 * γ * (1 / (γ + 1) ^ 2)) (1 / (γ + 1) ^ 2) b - heitlerTerm (1 + 2 * γ * (1 / (γ + 1) ^ 2)) (1 / (γ + 1) ^ 2) a := by
  have hpos : ∀ ρ ∈ uIcc a b, 0 < ρ := fun ρ hρ => lt_of_lt_of_le (lt_min ha hb) hρ.1
  refine intervalIntegral.integral_eq_sub_of_hasDerivAt (fun ρ hρ => ?_) ?_
  · have h := hpos ρ hρ
    have h2 := (((Real.hasDerivAt_log h.ne').const_mul (1 + 2 * γ * (1 / (γ + 1) ^ 2))).add
      ((hasDerivAt_inv h.ne').const_mul (1 / (γ + 1) ^ 2))).sub (hasDerivAt_id ρ)
    refine (h2.congr_of_eventuallyEq (Filter.Eventually.of_forall fun s => ?_)).congr_deriv ?_
    · simp only [heitlerTerm, div_eq_mul_inv, Pi.add_apply, Pi.sub_apply, id]
    · unfold Spec.heitlerDensity
      field_simp
      ring
  · refine ContinuousOn.intervalIntegrable ?_
    have hne : ∀ ρ ∈ uIcc a b, ρ ≠ 0 := fun ρ hρ => (hpos ρ hρ).ne'
    have hne' : ∀ ρ ∈ uIcc a b, (γ + 1) ^ 2 * ρ ≠ 0 := fun ρ hρ => by have := hpos ρ hρ; positivity
    unfold Spec.heitlerDensity
    fun_prop (disch := assumption)

/-- The logarithm of the limits. -/
lemma heitler_log {γ : ℝ} (hγ : 1 < γ) :
    Real.log (heitlerLimits γ).2 - Real.log (heitlerLimits γ).1 = Real.log (γ + Real.sqrt (γ * γ - 1)) := by
  obtain ⟨h1, h2, h3, h4, h5, h6⟩ := heitler_limits hγ
  rw [← Real.log_div (h1.trans h2).ne' h1.ne']
  congr 1
  rw [div_eq_iff h1.ne']
  have hg : 0 < γ * γ - 1 := by nlinarith
  have hs := Real.sq_sqrt hg.le
  have hsp := Real.sqrt_pos.mpr hg
  set s := Real.sqrt (γ * γ - 1)
  set t := Real.sqrt ((γ - 1) / (γ + 1)) with ht
  have hts : s = t * (γ + 1) := by
    have : γ * γ - 1 = (γ - 1) / (γ + 1) * (γ + 1) ^ 2 := by
      field_simp
      ring
    rw [show s = Real.sqrt (γ * γ - 1) from rfl, this, Real.sqrt_mul (div_nonneg (by linarith) (by linarith)), Real.sqrt_sq (by linarith)]
  have ht2 : t ^ 2 * (γ + 1) = γ - 1 := by
    rw [Real.sq_sqrt (div_nonneg (by linarith) (by linarith))]
    field_simp
  have e1 : (heitlerLimits γ).1 = (1 - t) / 2 := by linarith
  have e2 : (heitlerLimits γ).2 = (1 + t) / 2 := by linarith
  rw [e1, e2, hts]
  nlinarith

/-- C116: the rate of annihilation is that of the density from which the energies of the photons are sampled, integrated over
its range; there is none at rest. -/
theorem C116_rate (m : ℝ) (M : Med) (c : Component) (E : ℝ) (hm : 0 < m) :
    (E ≤ m → heitlerRate m M c E = 0) ∧
    (m < E → heitlerRate m M c E = Spec.electrons c / weightOf M c * (Real.pi * RE ^ 2 / (E / m - 1)) *
      ∫ ρ in (heitlerLimits (E / m)).1..(heitlerLimits (E / m)).2, Spec.heitlerDensity (E / m) ρ) := by
  refine ⟨fun h => by unfold heitlerRate; rw [if_pos h], fun h => ?_⟩
  have hγ : 1 < E / m := by rw [one_lt_div hm]; exact h
  unfold heitlerRate
  rw [if_neg (not_le.mpr h)]
  simp only
  set γ := E / m
  obtain ⟨h1, h2, h3, h4, h5, h6⟩ := heitler_limits hγ
  rw [heitler_integral γ _ _ h1 (h1.trans h2) (by linarith)]
  have hl := heitler_log hγ
  rw [← hl]
  have hg : 0 < γ * γ - 1 := by nlinarith
  have hsp := Real.sqrt_pos.mpr hg
  set a := (heitlerLimits γ).1
  set b := (heitlerLimits γ).2
  have hb : 0 < b := h1.trans h2
  have hinv : 1 / b - 1 / a = -(2 * (γ + 1)) * Real.sqrt ((γ - 1) / (γ + 1)) := by
    have : 1 / b - 1 / a = -(b - a) / (a * b) := by field_simp; ring
    rw [this, h5, h6]
    field_simp
  have hts : Real.sqrt (γ * γ - 1) = Real.sqrt ((γ - 1) / (γ + 1)) * (γ + 1) := by
    have : γ * γ - 1 = (γ - 1) / (γ + 1) * (γ + 1) ^ 2 := by
      field_simp
      ring
    rw [this, Real.sqrt_mul (div_nonneg (by linarith) (by linarith)), Real.sqrt_sq (by linarith)]
  have ht2 : Real.sqrt ((γ - 1) / (γ + 1)) ^ 2 * (γ + 1) = γ - 1 := by
    rw [Real.sq_sqrt (div_nonneg (by linarith) (by linarith))]
    field_simp
  have htp : 0 < Real.sqrt ((γ - 1) / (γ + 1)) := Real.sqrt_pos.mpr (div_pos (by linarith) (by linarith))
  have hF : heitlerTerm (1 + 2 * γ * (1 / (γ + 1) ^ 2)) (1 / (γ + 1) ^ 2) b -
      heitlerTerm (1 + 2 * γ * (1 / (γ + 1) ^ 2)) (1 / (γ + 1) ^ 2) a =
      (1 + 2 * γ * (1 / (γ + 1) ^ 2)) * (Real.log b - Real.log a) + 1 / (γ + 1) ^ 2 * (1 / b - 1 / a) - (b - a) := by
    unfold heitlerTerm
    ring
  rw [hF, hinv, h6, hts]
  set t := Real.sqrt ((γ - 1) / (γ + 1))
  set L := Real.log b - Real.log a
  have hγ1 : γ - 1 ≠ 0 := by linarith
  have hγ2 : γ + 1 ≠ 0 := by linarith
  have hg2 : γ * γ - 1 = (γ - 1) * (γ + 1) := by ring
  unfold Spec.electrons
  have e3 : (γ + 3) / (t * (γ + 1)) = (γ + 3) * t / (γ - 1) := by
    rw [div_eq_div_iff (by positivity) hγ1, ← ht2]
    ring
  rw [e3, hg2]
  field_simp
  ring

/-- C116: the energies of the photons are sampled from this density: the equation solved for the share says that the integral up
to the share is the random number times the full one. -/
theorem C116_sampled (γ rnd ρ : ℝ) (hγ : 1 < γ) (hρ : 0 < ρ) :
    heitlerFunction γ rnd ρ = 0 ↔
      ∫ x in (heitlerLimits γ).1..ρ, Spec.heitlerDensity γ x =
        rnd * ∫ x in (heitlerLimits γ).1..(heitlerLimits γ).2, Spec.heitlerDensity γ x := by
  obtain ⟨h1, h2, -⟩ := heitler_limits hγ
  rw [heitler_integral γ _ _ h1 hρ (by linarith), heitler_integral γ _ _ h1 (h1.trans h2) (by linarith)]
  unfold heitlerFunction
  simp only
  exact sub_eq_zero

/-- C116: the density is positive between the limits. -/
theorem C116_density (γ ρ : ℝ) (hγ : 1 < γ) (h0 : (heitlerLimits γ).1 ≤ ρ) (h1 : ρ ≤ (heitlerLimits γ).2) :
    0 < Spec.heitlerDensity γ ρ := by
  obtain ⟨l1, l2, l3, l4, l5, l6⟩ := heitler_limits hγ
  have hρ : 0 < ρ := l1.trans_le h0
  have hp : 1 / (2 * (γ + 1)) ≤ ρ * (1 - ρ) := by
    rw [← l5]
    nlinarith
  have hg : 0 < γ + 1 := by linarith
  have hq : 1 ≤ 2 * (γ + 1) * (ρ * (1 - ρ)) := by
    rw [div_le_iff₀ (by positivity)] at hp
    linarith
  have e : Spec.heitlerDensity γ ρ = ((γ + 1) ^ 2 * (ρ * (1 - ρ)) + 2 * γ * ρ - 1) / ((γ + 1) ^ 2 * ρ ^ 2) := by
    unfold Spec.heitlerDensity
    field_simp
    ring
  rw [e]
  apply div_pos _ (by positivity)
  nlinarith [mul_le_mul_of_nonneg_left hq hg.le, mul_pos (by linarith : 0 < γ) hρ]

lemma log_gamma {γ : ℝ} (hγ : 1 < γ) : Real.sqrt (γ * γ - 1) / γ ≤ Real.log (γ + Real.sqrt (γ * γ - 1)) := by
  have hg : 0 < γ * γ - 1 := by nlinarith
  have hs := Real.sq_sqrt hg.le
  have hsp := Real.sqrt_pos.mpr hg
  set s := Real.sqrt (γ * γ - 1)
  have h1 : γ = Real.sqrt (1 + s ^ 2) := by
    rw [hs, show 1 + (γ * γ - 1) = γ ^ 2 by ring, Real.sqrt_sq (by linarith)]
  have h2 : Real.log (γ + s) = Real.arsinh s := by
    rw [Real.arsinh, ← h1, add_comm]
  rw [h2]
  set η := Real.arsinh s
  have e1 : Real.sinh η = s := Real.sinh_arsinh s
  have e2 : Real.cosh η = γ := by rw [Real.cosh_arsinh, ← h1]
  have hη : 0 ≤ η := Real.arsinh_nonneg_iff.mpr hsp.le
  rw [← e1, ← e2, div_le_iff₀ (Real.cosh_pos η)]
  have hmono : MonotoneOn (fun x => x * Real.cosh x - Real.sinh x) (Ici 0) := by
    refine monotoneOn_of_deriv_nonneg (convex_Ici 0) (by fun_prop) (by fun_prop) fun x hx => ?_
    rw [interior_Ici] at hx
    have hd : HasDerivAt (fun x => x * Real.cosh x - Real.sinh x) (1 * Real.cosh x + x * Real.sinh x - Real.cosh x) x :=
      ((hasDerivAt_id x).mul (Real.hasDerivAt_cosh x)).sub (Real.hasDerivAt_sinh x)
    rw [hd.deriv]
    have : 0 ≤ x * Real.sinh x := mul_nonneg (le_of_lt hx) (Real.sinh_nonneg_iff.mpr (le_of_lt hx))
    linarith
  have := hmono (mem_Ici.mpr le_rfl) (mem_Ici.mpr hη) hη
  simp only [zero_mul, Real.sinh_zero, sub_zero] at this
  linarith

/-- C116: above the rest energy every atom annihilates with a positive rate, and the rate of a medium is that of its electrons. -/
theorem C116_positive (m : ℝ) (M : Med) (E : ℝ) (hm : 0 < m) (hE : m < E) :
    (∀ c, Spec.IsAtom c → 0 < c.atomInMolecule → 0 < M.sumNucleons → 0 < heitlerRate m M c E) ∧
    ((∀ c ∈ M.components, Spec.IsAtom c ∧ 0 < c.atomInMolecule) → M.sumNucleons = sumOver M.components (fun c => c.atomInMolecule * c.atomicNum) →
      heitlerTotal m M E = NAvogadro * protonFraction M.components * (Real.pi * RE ^ 2 / (E / m - 1) *
        ∫ ρ in (heitlerLimits (E / m)).1..(heitlerLimits (E / m)).2, Spec.heitlerDensity (E / m) ρ)) := by
  have hγ : 1 < E / m := by rw [one_lt_div hm]; exact hE
  constructor
  · intro c hc hn hs
    unfold heitlerRate
    rw [if_neg (not_le.mpr hE)]
    simp only
    set γ := E / m
    have hg : 0 < γ * γ - 1 := by nlinarith
    have hsp := Real.sqrt_pos.mpr hg
    have hsq := Real.sq_sqrt hg.le
    have hl := log_gamma hγ
    have h1 : (γ + 3) / Real.sqrt (γ * γ - 1) < (γ * γ + 4 * γ + 1) / (γ * γ - 1) * Real.log (γ + Real.sqrt (γ * γ - 1)) := by
      refine lt_of_lt_of_le ?_ (mul_le_mul_of_nonneg_left hl (by positivity))
      have : (γ * γ + 4 * γ + 1) / (γ * γ - 1) * (Real.sqrt (γ * γ - 1) / γ) =
          (γ * γ + 4 * γ + 1) / (γ * Real.sqrt (γ * γ - 1)) := by
        rw [div_mul_div_comm, div_eq_div_iff (by positivity) (by positivity)]
        linear_combination (γ * γ + 4 * γ + 1) * γ * hsq
      rw [this, div_lt_div_iff₀ hsp (by positivity)]
      nlinarith
    have h2 : 0 < NAvogadro * c.nucCharge / c.atomicNum * Real.pi * RE * RE / (γ + 1) / weightOf M c := by
      have := na_pos'
      have := re_pos'
      have := Real.pi_pos
      have := hc.1
      have := hc.2
      unfold weightOf
      positivity
    exact mul_pos (by linarith) h2
  · intro hc hs
    unfold heitlerTotal protonFraction
    rw [sumOver_eq, sumOver_eq, sumOver_eq]
    rw [sumOver_eq] at hs
    set I := ∫ ρ in (heitlerLimits (E / m)).1..(heitlerLimits (E / m)).2, Spec.heitlerDensity (E / m) ρ
    rw [← hs]
    have h1 : ∀ c ∈ M.components, heitlerRate m M c E =
        NAvogadro / M.sumNucleons * (Real.pi * RE ^ 2 / (E / m - 1) * I) * (c.atomInMolecule * c.nucCharge) := by
      intro c hcm
      obtain ⟨⟨hz, ha⟩, hn⟩ := hc c hcm
      rw [(C116_rate m M c E hm).2 hE]
      unfold weightOf Spec.electrons
      by_cases h0 : M.sumNucleons = 0
      · simp [h0]
      · field_simp
        rfl
    rw [List.map_congr_left h1, List.sum_map_mul_left]
    ring

/-! ## Examples -/

/-- Hydrogen. -/
noncomputable def exHydrogen : Component := ⟨[], 1, 1, 2, 0, 0, 0, 0, 0⟩
/-- Oxygen. -/
noncomputable def exOxygen : Component := ⟨[], 8, 16, 1, 0, 0, 0, 0, 0⟩
/-- Water. -/
noncomputable def exWater : Med := ⟨[], 2, 10, 10 / 18, 75, -3.5, 0.1, 3.5, 0.24, 2.8, 0, 1, 1, 36, 1, 18, [exHydrogen, exOxygen]⟩

example : Spec.IsAtom exOxygen ∧ 0 < kleinNishina exOxygen ME (1 / 3) ∧
    ∃ x, -1 ≤ x ∧ x ≤ 1 ∧ (1 / 3 : ℝ) = 1 - Spec.left (ME / ME) x := by
  have hc : Spec.IsAtom exOxygen := by constructor <;> norm_num [exOxygen]
  have hm := me_pos'
  have hl : (1 / 3 : ℝ) ≤ (limCompton ME).vMax := by
    simp only [limCompton, mul_div_assoc, div_self hm.ne']
    norm_num
  exact ⟨hc, C115_positive exOxygen hc ME _ hm (by norm_num) hl,
    (C115_range ME (1 / 3) hm).mp ⟨by norm_num [limCompton], hl⟩⟩

example : 0 < heitlerRate ME exWater exOxygen (2 * ME) ∧ heitlerRate ME exWater exOxygen ME = 0 ∧
    heitlerTotal ME exWater (2 * ME) = heitlerRate ME exWater exHydrogen (2 * ME) + heitlerRate ME exWater exOxygen (2 * ME) := by
  have hm := me_pos'
  refine ⟨(C116_positive ME exWater (2 * ME) hm (by linarith)).1 exOxygen (by constructor <;> norm_num [exOxygen])
    (by norm_num [exOxygen]) (by norm_num [exWater]), (C116_rate ME exWater exOxygen ME hm).1 le_rfl, ?_⟩
  simp [heitlerTotal, sumOver, exWater]

example : heitlerTotal ME exWater (2 * ME) = NAvogadro * (10 / 18) * (Real.pi * RE ^ 2 *
    ∫ ρ in (heitlerLimits 2).1..(heitlerLimits 2).2, Spec.heitlerDensity 2 ρ) := by
  have hm := me_pos'
  have h := (C116_positive ME exWater (2 * ME) hm (by linarith)).2
    (by simp [exWater, exHydrogen, exOxygen, Spec.IsAtom]) (by norm_num [sumOver, exWater, exHydrogen, exOxygen])
  have e : 2 * ME / ME = 2 := by field_simp
  rw [h, e]
  norm_num [protonFraction, sumOver, exWater, exHydrogen, exOxygen]

end Proposal
