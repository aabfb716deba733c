import Verif.Lemmas.Azimuth
import Verif.Props.NormalQuantile

/-!
# Rotations of independent normal numbers
-/

namespace Proposal
open Spec MeasureTheory Set Real
open scoped ENNReal

namespace GaussTurn

/-- The mean over a normal number. -/
noncomputable def nrm (f : ℝ → ℝ≥0∞) : ℝ≥0∞ := ∫⁻ x, ENNReal.ofReal (density x) * f x

theorem phi_image : Phi '' univ = Ioo 0 1 := by
  ext p
  constructor
  · rintro ⟨x, -, rfl⟩; exact ⟨Phi_pos x, Phi_lt_one x⟩
  · rintro ⟨h0, h1⟩
    obtain ⟨z, hz⟩ := Phi_surj h0 h1
    exact ⟨z, mem_univ _, hz⟩

/-- Quantiles of uniform numbers are normal. -/
theorem mean_quantile (F : ℝ → ℝ≥0∞) (f : ℝ → ℝ≥0∞) (h : ∀ x, F (Phi x) = f x) : mean1 F = nrm f := by
  unfold mean1 nrm
  rw [Measure.restrict_congr_set Ioo_ae_eq_Ico.symm, ← phi_image,
    lintegral_image_eq_lintegral_abs_deriv_mul MeasurableSet.univ (f' := density)
      (fun x _ => (Phi_deriv x).hasDerivWithinAt) Phi_strictMono.injective.injOn, Measure.restrict_univ]
  apply lintegral_congr
  intro x
  rw [abs_of_pos (density_pos x), h]

theorem measurable_density : Measurable fun x => ENNReal.ofReal (density x) :=
  density_continuous.measurable.ennreal_ofReal

theorem nrm_congr {f g : ℝ → ℝ≥0∞} (h : ∀ x, f x = g x) : nrm f = nrm g := by
  unfold nrm
  exact lintegral_congr fun x => by rw [h]

theorem nrm_one : nrm (fun _ => 1) = 1 := by
  rw [← mean_quantile (fun _ => 1) (fun _ => 1) fun _ => rfl]
  unfold mean1
  simp

theorem measurable_nrm {α : Type} [MeasurableSpace α] {h : α → ℝ → ℝ≥0∞} (hh : Measurable (Function.uncurry h)) :
    Measurable fun a => nrm (h a) := by
  unfold nrm
  have : Measurable (Function.uncurry fun (a : α) (x : ℝ) => ENNReal.ofReal (density x) * h a x) :=
    (measurable_density.comp measurable_snd).mul hh
  exact this.lintegral_prod_right

theorem nrm_swap {h : ℝ → ℝ → ℝ≥0∞} (hh : Measurable (Function.uncurry h)) :
    nrm (fun x => nrm fun y => h x y) = nrm (fun y => nrm fun x => h x y) := by
  unfold nrm
  have e1 : ∀ x, ENNReal.ofReal (density x) * ∫⁻ y, ENNReal.ofReal (density y) * h x y
      = ∫⁻ y, ENNReal.ofReal (density x) * (ENNReal.ofReal (density y) * h x y) := fun x => by
    rw [lintegral_const_mul' _ _ ENNReal.ofReal_ne_top]
  have e2 : ∀ y, ENNReal.ofReal (density y) * ∫⁻ x, ENNReal.ofReal (density x) * h x y
      = ∫⁻ x, ENNReal.ofReal (density x) * (ENNReal.ofReal (density y) * h x y) := fun y => by
    rw [← lintegral_const_mul' _ _ ENNReal.ofReal_ne_top]
    exact lintegral_congr fun x => by ring
  simp only [e1, e2]
  apply lintegral_lintegral_swap
  exact ((measurable_density.comp measurable_fst).mul ((measurable_density.comp measurable_snd).mul hh)).aemeasurable

/-- The density of two normal numbers. -/
noncomputable def rho (p : ℝ × ℝ) : ℝ≥0∞ := ENNReal.ofReal (density p.1) * ENNReal.ofReal (density p.2)

theorem measurable_rho : Measurable rho :=
  (measurable_density.comp measurable_fst).mul (measurable_density.comp measurable_snd)

theorem rho_eq (p : ℝ × ℝ) : rho p = ENNReal.ofReal (exp (-((p.1 ^ 2 + p.2 ^ 2) / 2)) / (2 * π)) := by
  unfold rho density
  rw [← ENNReal.ofReal_mul (by positivity)]
  congr 1
  rw [div_mul_div_comm, ← exp_add, Real.mul_self_sqrt (by positivity)]
  congr 2
  ring

theorem nrm_two {h : ℝ × ℝ → ℝ≥0∞} (hh : Measurable h) :
    nrm (fun x => nrm fun y => h (x, y)) = ∫⁻ p, rho p * h p := by
  have m : Measurable fun q => rho q * h q := measurable_rho.mul hh
  rw [Measure.volume_eq_prod, lintegral_prod _ m.aemeasurable]
  unfold nrm
  apply lintegral_congr
  intro x
  rw [← lintegral_const_mul' _ _ ENNReal.ofReal_ne_top]
  apply lintegral_congr
  intro y
  unfold rho
  simp only [mul_assoc]

/-- A turn of the plane. -/
def plane (c s σ : ℝ) : (ℝ × ℝ) →ₗ[ℝ] (ℝ × ℝ) where
  toFun p := (p.1 * c - σ * p.2 * s, p.1 * s + σ * p.2 * c)
  map_add' a b := by ext <;> simp <;> ring
  map_smul' k a := by ext <;> simp <;> ring

theorem plane_sq {c s σ : ℝ} (h : c ^ 2 + s ^ 2 = 1) (hσ : σ ^ 2 = 1) (p : ℝ × ℝ) :
    (plane c s σ p).1 ^ 2 + (plane c s σ p).2 ^ 2 = p.1 ^ 2 + p.2 ^ 2 := by
  show (p.1 * c - σ * p.2 * s) ^ 2 + (p.1 * s + σ * p.2 * c) ^ 2 = _
  linear_combination (p.1 ^ 2 + σ ^ 2 * p.2 ^ 2) * h + p.2 ^ 2 * hσ

theorem plane_det {c s σ : ℝ} (h : c ^ 2 + s ^ 2 = 1) (hσ : σ ^ 2 = 1) : LinearMap.det (plane c s σ) ≠ 0 := by
  have inj : Function.Injective (plane c s σ) := by
    rw [injective_iff_map_eq_zero]
    intro p hp
    have k := plane_sq h hσ p
    rw [hp] at k
    simp only [Prod.fst_zero, Prod.snd_zero] at k
    have a : p.1 = 0 := by nlinarith [sq_nonneg p.1, sq_nonneg p.2]
    have b : p.2 = 0 := by nlinarith [sq_nonneg p.1, sq_nonneg p.2]
    exact Prod.ext a b
  have := (LinearEquiv.ofInjectiveEndo (plane c s σ) inj).isUnit_det'
  have e : ((LinearEquiv.ofInjectiveEndo (plane c s σ) inj : (ℝ × ℝ) ≃ₗ[ℝ] (ℝ × ℝ)) :
      (ℝ × ℝ) →ₗ[ℝ] (ℝ × ℝ)) = plane c s σ := by
    ext <;> simp
  rw [e] at this
  exact this.ne_zero

/-- Turning two independent normal numbers does not change their distribution. -/
theorem nrm_turn {c s σ : ℝ} (hcs : c ^ 2 + s ^ 2 = 1) (hσ : σ ^ 2 = 1) {h : ℝ × ℝ → ℝ≥0∞} (hh : Measurable h) :
    nrm (fun x => nrm fun y => h (plane c s σ (x, y))) = nrm (fun x => nrm fun y => h (x, y)) := by
  have i2 : (volume : Measure (ℝ × ℝ)).IsAddHaarMeasure := by
    rw [Measure.volume_eq_prod]; infer_instance
  have hL : Measurable (plane c s σ) := (LinearMap.continuous_of_finiteDimensional _).measurable
  have hmap := Measure.map_linearMap_addHaar_eq_smul_addHaar (μ := volume) (plane_det hcs hσ)
  have key : ∀ h : ℝ × ℝ → ℝ≥0∞, Measurable h → ∫⁻ p, rho p * h (plane c s σ p)
      = ENNReal.ofReal |(LinearMap.det (plane c s σ))⁻¹| * ∫⁻ p, rho p * h p := by
    intro h hh
    have : ∫⁻ p, rho p * h (plane c s σ p) = ∫⁻ p, (fun q => rho q * h q) (plane c s σ p) :=
      lintegral_congr fun p => by
        simp only
        rw [rho_eq, rho_eq, plane_sq hcs hσ]
    have m : Measurable fun q => rho q * h q := measurable_rho.mul hh
    rw [this, ← lintegral_map m hL, hmap, lintegral_smul_measure, smul_eq_mul]
  have one := key (fun _ => 1) measurable_const
  have total : ∫⁻ p, rho p * (1 : ℝ≥0∞) = 1 := by
    rw [← nrm_two (h := fun _ => 1) measurable_const, nrm_congr (g := fun _ => 1) fun _ => nrm_one, nrm_one]
  rw [total, mul_one] at one
  have hm : Measurable fun p => h (plane c s σ p) := hh.comp hL
  rw [nrm_two hh, nrm_two hm, key h hh, ← one, one_mul]

/-- The same for two pairs of numbers that are turned together. -/
theorem nrm_turn_four {c s σ : ℝ} (hcs : c ^ 2 + s ^ 2 = 1) (hσ : σ ^ 2 = 1) {G : ℝ × ℝ → ℝ × ℝ → ℝ≥0∞}
    (hG : Measurable (Function.uncurry G)) :
    nrm (fun a => nrm fun b => nrm fun x => nrm fun y => G (plane c s σ (a, x)) (plane c s σ (b, y)))
      = nrm (fun a => nrm fun b => nrm fun x => nrm fun y => G (a, x) (b, y)) := by
  have hL : Measurable (plane c s σ) := (LinearMap.continuous_of_finiteDimensional _).measurable
  have arrange : ∀ K : ℝ × ℝ → ℝ × ℝ → ℝ≥0∞, Measurable (Function.uncurry K) →
      nrm (fun a => nrm fun b => nrm fun x => nrm fun y => K (a, x) (b, y))
        = nrm (fun a => nrm fun x => nrm fun b => nrm fun y => K (a, x) (b, y)) := by
    intro K hK
    apply nrm_congr
    intro a
    apply nrm_swap (h := fun b x => nrm fun y => K (a, x) (b, y))
    have : Measurable (Function.uncurry fun (p : ℝ × ℝ) (y : ℝ) => K (a, p.2) (p.1, y)) := by
      have e : (Function.uncurry fun (p : ℝ × ℝ) (y : ℝ) => K (a, p.2) (p.1, y))
          = fun q : (ℝ × ℝ) × ℝ => Function.uncurry K ((a, q.1.2), (q.1.1, q.2)) := rfl
      rw [e]
      exact hK.comp (by fun_prop)
    exact measurable_nrm this
  have hT : Measurable (Function.uncurry fun p q => G (plane c s σ p) (plane c s σ q)) := by
    have e : (Function.uncurry fun p q => G (plane c s σ p) (plane c s σ q))
        = fun r : (ℝ × ℝ) × (ℝ × ℝ) => Function.uncurry G (plane c s σ r.1, plane c s σ r.2) := rfl
    rw [e]
    exact hG.comp ((hL.comp measurable_fst).prodMk (hL.comp measurable_snd))
  rw [arrange G hG, arrange (fun p q => G (plane c s σ p) (plane c s σ q)) hT]
  have inner : ∀ p : ℝ × ℝ, nrm (fun b => nrm fun y => G p (plane c s σ (b, y))) = nrm (fun b => nrm fun y => G p (b, y)) := by
    intro p
    have : Measurable (G p) := by
      have e : G p = fun q => Function.uncurry G (p, q) := rfl
      rw [e]; exact hG.comp (measurable_const.prodMk measurable_id)
    exact nrm_turn hcs hσ this
  simp only [inner]
  have hm : Measurable fun p : ℝ × ℝ => nrm fun b => nrm fun y => G p (b, y) := by
    have h2 : Measurable (Function.uncurry fun (r : (ℝ × ℝ) × ℝ) (y : ℝ) => G r.1 (r.2, y)) := by
      have e : (Function.uncurry fun (r : (ℝ × ℝ) × ℝ) (y : ℝ) => G r.1 (r.2, y))
          = fun q : ((ℝ × ℝ) × ℝ) × ℝ => Function.uncurry G (q.1.1, (q.1.2, q.2)) := rfl
      rw [e]
      exact hG.comp (by fun_prop)
    have h1 : Measurable (Function.uncurry fun (p : ℝ × ℝ) (b : ℝ) => nrm fun y => G p (b, y)) := measurable_nrm h2
    exact measurable_nrm h1
  exact nrm_turn hcs hσ hm

end GaussTurn
end Proposal
