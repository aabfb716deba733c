import Verif.Lemmas.GaussTurn
import Verif.Props.Azimuth
import Verif.Model.MultipleScattering

/-!
# C158: multiple scattering prefers no side

For the sampled angles of Highland with an exact quantile function of the normal distribution; the quantile function of the code
differs from it by at most 10^-11 (`C138_quantile`).
-/

namespace Proposal
namespace Spec

open MeasureTheory

/-- The mean over four random numbers. -/
noncomputable def mean4 (f : (Fin 4 → ℝ) → ENNReal) : ENNReal :=
  mean1 fun a => mean1 fun b => mean1 fun c => mean1 fun d => f ![a, b, c, d]

/-- Coordinates. -/
def coordinates (v : Vec3) : ℝ × ℝ × ℝ := (v.x, v.y, v.z)

/-- An exact quantile function of the normal distribution, without a value outside of (0, 1). -/
structure Quantile (ppf : ℝ → Option ℝ) : Prop where
  value : ∀ x, ppf (Phi x) = some x

end Spec

open Spec MeasureTheory Set Real GaussTurn Azimuth
open scoped ENNReal

namespace ScatterSymmetry

/-- The two directions after scattering for four normal numbers. -/
noncomputable def directions (dir : Vec3) (t : ℝ) (p q : ℝ × ℝ) : Vec3 × Vec3 :=
  scatterInitialDirection dir (offsetsOf (t * p.1) (t * q.1) (t * p.2) (t * q.2))

theorem mean4_nrm (f : (Fin 4 → ℝ) → ℝ≥0∞) (G : ℝ × ℝ → ℝ × ℝ → ℝ≥0∞)
    (h : ∀ a b x y, f ![Phi a, Phi b, Phi x, Phi y] = G (a, x) (b, y)) :
    mean4 f = nrm (fun a => nrm fun b => nrm fun x => nrm fun y => G (a, x) (b, y)) := by
  unfold mean4
  apply mean_quantile
  intro a
  apply mean_quantile
  intro b
  apply mean_quantile
  intro x
  apply mean_quantile
  intro y
  exact h a b x y

theorem turn_frame {dir : Vec3} {R : Vec3 → Vec3} {a σ : ℝ} (hσ : σ = 1 ∨ σ = -1)
    (h : ∀ c θ, R (dir.deflect c θ) = dir.deflect c (a + σ * θ)) :
    R dir.rotX = cos a • dir.rotX + sin a • dir.rotY ∧
    R dir.rotY = (-(σ * sin a)) • dir.rotX + (σ * cos a) • dir.rotY := by
  have e : ∀ θ, dir.deflect 0 θ = cos θ • dir.rotX + sin θ • dir.rotY := fun θ => by
    rw [Vec3.deflect_formula dir 0 θ (by norm_num) (by norm_num)]
    ext <;> simp
  have e0 : dir.rotX = dir.deflect 0 0 := by rw [e]; ext <;> simp
  have e1 : dir.rotY = dir.deflect 0 (π / 2) := by rw [e]; ext <;> simp
  constructor
  · have := h 0 0
    rw [← e0, mul_zero, add_zero, e] at this
    exact this
  · have := h 0 (π / 2)
    rw [← e1, e] at this
    rw [this]
    rcases hσ with rfl | rfl
    · rw [one_mul, cos_add_pi_div_two, sin_add_pi_div_two, one_mul, one_mul]
    · rw [neg_one_mul, ← sub_eq_add_neg, cos_sub_pi_div_two, sin_sub_pi_div_two]
      ext <;> simp

theorem turn_directions {dir : Vec3} {R : Vec3 → Vec3} (hR : About dir R) {a σ : ℝ} (hσ : σ = 1 ∨ σ = -1)
    (h : ∀ c θ, R (dir.deflect c θ) = dir.deflect c (a + σ * θ)) (t : ℝ) (p q : ℝ × ℝ) :
    (R (directions dir t p q).1, R (directions dir t p q).2)
      = directions dir t (plane (cos a) (sin a) σ p) (plane (cos a) (sin a) σ q) := by
  obtain ⟨f1, f2⟩ := turn_frame hσ h
  have hcs : cos a ^ 2 + sin a ^ 2 = 1 := by rw [add_comm]; exact sin_sq_add_cos_sq a
  have hσ2 : σ ^ 2 = 1 := by rcases hσ with rfl | rfl <;> norm_num
  have key : ∀ z x y : ℝ, R (z • dir + x • dir.rotX + y • dir.rotY)
      = z • dir + (x * cos a - σ * y * sin a) • dir.rotX + (x * sin a + σ * y * cos a) • dir.rotY := by
    intro z x y
    rw [hR.add, hR.add, hR.smul, hR.smul, hR.smul, hR.axis, f1, f2]
    ext <;> simp only [Vec3.add_x, Vec3.add_y, Vec3.add_z, Vec3.smul_x, Vec3.smul_y, Vec3.smul_z] <;> ring
  have sq : ∀ x y : ℝ, (x * cos a - σ * y * sin a) * (x * cos a - σ * y * sin a)
      + (x * sin a + σ * y * cos a) * (x * sin a + σ * y * cos a) = x * x + y * y := by
    intro x y
    linear_combination (x ^ 2 + σ ^ 2 * y ^ 2) * hcs + y ^ 2 * hσ2
  unfold directions scatterInitialDirection
  simp only
  rw [key, key]
  have lin : ∀ u v k : ℝ, ((k * (u * cos a - σ * v * sin a)) = (k * u) * cos a - σ * (k * v) * sin a) ∧
      ((k * (u * sin a + σ * v * cos a)) = (k * u) * sin a + σ * (k * v) * cos a) := fun u v k => ⟨by ring, by ring⟩
  have ex : ∀ p q : ℝ × ℝ, offsetsOf (t * (plane (cos a) (sin a) σ p).1) (t * (plane (cos a) (sin a) σ q).1)
      (t * (plane (cos a) (sin a) σ p).2) (t * (plane (cos a) (sin a) σ q).2)
      = ⟨(offsetsOf (t * p.1) (t * q.1) (t * p.2) (t * q.2)).sx * cos a
            - σ * (offsetsOf (t * p.1) (t * q.1) (t * p.2) (t * q.2)).sy * sin a,
          (offsetsOf (t * p.1) (t * q.1) (t * p.2) (t * q.2)).sx * sin a
            + σ * (offsetsOf (t * p.1) (t * q.1) (t * p.2) (t * q.2)).sy * cos a,
          (offsetsOf (t * p.1) (t * q.1) (t * p.2) (t * q.2)).tx * cos a
            - σ * (offsetsOf (t * p.1) (t * q.1) (t * p.2) (t * q.2)).ty * sin a,
          (offsetsOf (t * p.1) (t * q.1) (t * p.2) (t * q.2)).tx * sin a
            + σ * (offsetsOf (t * p.1) (t * q.1) (t * p.2) (t * q.2)).ty * cos a⟩ := by
    intro p q
    unfold offsetsOf
    simp only [plane, LinearMap.coe_mk, AddHom.coe_mk, ScatteringOffset.mk.injEq]
    exact ⟨by ring, by ring, by ring, by ring⟩
  rw [ex]
  simp only [sq]

theorem measurable_directions (dir : Vec3) (t : ℝ) :
    Measurable fun r : (ℝ × ℝ) × (ℝ × ℝ) =>
      (coordinates (directions dir t r.1 r.2).1, coordinates (directions dir t r.1 r.2).2) := by
  unfold directions scatterInitialDirection offsetsOf coordinates
  simp only [Vec3.add_x, Vec3.add_y, Vec3.add_z, Vec3.smul_x, Vec3.smul_y, Vec3.smul_z]
  fun_prop

end ScatterSymmetry

open ScatterSymmetry

/-- C158: the directions after multiple scattering (the mean one of the step and the final one, together) have the same distribution
after any rotation about the direction before and after any reflection at a plane through it. -/
theorem C158_multiple_partial (ppf : ℝ → Option ℝ) (hp : Quantile ppf) (dir : Vec3) (hd : UnitVec dir) (t : ℝ)
    (R : Vec3 → Vec3) (hR : About dir R) (g : (ℝ × ℝ × ℝ) × (ℝ × ℝ × ℝ) → ℝ≥0∞) (hg : Measurable g) :
    mean4 (fun r => (highlandOffsets ppf (some t) r).elim 0 fun o =>
        g (coordinates (R (scatterInitialDirection dir o).1), coordinates (R (scatterInitialDirection dir o).2)))
      = mean4 (fun r => (highlandOffsets ppf (some t) r).elim 0 fun o =>
        g (coordinates (scatterInitialDirection dir o).1, coordinates (scatterInitialDirection dir o).2)) := by
  obtain ⟨a, σ, hσ, h⟩ := turn_deflect hd hR
  have hcs : cos a ^ 2 + sin a ^ 2 = 1 := by rw [add_comm]; exact sin_sq_add_cos_sq a
  have hσ2 : σ ^ 2 = 1 := by rcases hσ with rfl | rfl <;> norm_num
  have hv : ∀ a b x y, highlandOffsets ppf (some t) ![Phi a, Phi b, Phi x, Phi y]
      = some (offsetsOf (t * a) (t * b) (t * x) (t * y)) := by
    intro a b x y
    unfold highlandOffsets
    simp [hp.value]
  have hm : Measurable (Function.uncurry fun p q : ℝ × ℝ =>
      g (coordinates (directions dir t p q).1, coordinates (directions dir t p q).2)) := hg.comp (measurable_directions dir t)
  have n := nrm_turn_four hcs hσ2 hm
  rw [mean4_nrm _ (fun p q => g (coordinates (directions dir t (plane (cos a) (sin a) σ p) (plane (cos a) (sin a) σ q)).1,
      coordinates (directions dir t (plane (cos a) (sin a) σ p) (plane (cos a) (sin a) σ q)).2)) fun a' b x y => ?_]
  · rw [n]
    refine (mean4_nrm _ (fun p q => g (coordinates (directions dir t p q).1, coordinates (directions dir t p q).2))
      fun a b x y => ?_).symm
    rw [hv]
    rfl
  · rw [hv]
    have k := turn_directions hR hσ h t (a', x) (b, y)
    rw [← k]
    rfl

/-- Such a quantile function exists. -/
example : Quantile (fun p => some (exactNormal.ppf p)) := by
  refine ⟨fun x => ?_⟩
  show some (Function.invFun Phi (Phi x)) = some x
  rw [Function.leftInverse_invFun Phi_strictMono.injective x]

end Proposal
