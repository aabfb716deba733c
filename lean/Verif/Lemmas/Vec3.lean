import Verif.Model.Vec3
import Verif.Spec.Vec3
import Mathlib.Tactic.Linarith
import Mathlib.Tactic.Ring
import Mathlib.Tactic.FieldSimp
import Mathlib.Tactic.LinearCombination
import Mathlib.Tactic.Positivity

namespace Proposal
namespace Vec3

@[simp] theorem add_x (a b : Vec3) : (a + b).x = a.x + b.x := rfl
@[simp] theorem add_y (a b : Vec3) : (a + b).y = a.y + b.y := rfl
@[simp] theorem add_z (a b : Vec3) : (a + b).z = a.z + b.z := rfl
@[simp] theorem sub_x (a b : Vec3) : (a - b).x = a.x - b.x := rfl
@[simp] theorem sub_y (a b : Vec3) : (a - b).y = a.y - b.y := rfl
@[simp] theorem sub_z (a b : Vec3) : (a - b).z = a.z - b.z := rfl
@[simp] theorem neg_x (a : Vec3) : (-a).x = -a.x := rfl
@[simp] theorem neg_y (a : Vec3) : (-a).y = -a.y := rfl
@[simp] theorem neg_z (a : Vec3) : (-a).z = -a.z := rfl
@[simp] theorem smul_x (k : ℝ) (a : Vec3) : (k • a).x = k * a.x := rfl
@[simp] theorem smul_y (k : ℝ) (a : Vec3) : (k • a).y = k * a.y := rfl
@[simp] theorem smul_z (k : ℝ) (a : Vec3) : (k • a).z = k * a.z := rfl
@[simp] theorem zero_x : (0 : Vec3).x = 0 := rfl
@[simp] theorem zero_y : (0 : Vec3).y = 0 := rfl
@[simp] theorem zero_z : (0 : Vec3).z = 0 := rfl

theorem mag_nonneg (a : Vec3) : 0 ≤ a.mag := Real.sqrt_nonneg _

theorem dot_self_nonneg (a : Vec3) : 0 ≤ a.dot a := by
  unfold dot; nlinarith [mul_self_nonneg a.x, mul_self_nonneg a.y, mul_self_nonneg a.z]

theorem mag_sq (a : Vec3) : a.mag ^ 2 = a.dot a := by
  unfold mag
  rw [Real.sq_sqrt]
  · rfl
  · exact dot_self_nonneg a

theorem mag_mul_self (a : Vec3) : a.mag * a.mag = a.dot a := by
  rw [← sq, mag_sq]

theorem mag_eq_sqrt_dot (a : Vec3) : a.mag = Real.sqrt (a.dot a) := rfl

theorem mag_eq_one_iff (a : Vec3) : a.mag = 1 ↔ a.dot a = 1 := by
  rw [mag_eq_sqrt_dot, Real.sqrt_eq_one]

theorem mag_eq_zero_iff (a : Vec3) : a.mag = 0 ↔ a = 0 := by
  rw [mag_eq_sqrt_dot, Real.sqrt_eq_zero (dot_self_nonneg a)]
  constructor
  · intro h
    unfold dot at h
    have hx := mul_self_nonneg a.x
    have hy := mul_self_nonneg a.y
    have hz := mul_self_nonneg a.z
    ext
    · exact mul_self_eq_zero.1 (by linarith)
    · exact mul_self_eq_zero.1 (by linarith)
    · exact mul_self_eq_zero.1 (by linarith)
  · rintro rfl; simp [dot]

theorem dot_comm (a b : Vec3) : a.dot b = b.dot a := by unfold dot; ring

/-- cosine and sine of the azimuth times the transverse length. -/
theorem azimuth_spec (a : Vec3) :
    Real.sqrt (a.x ^ 2 + a.y ^ 2) * Real.cos (Complex.arg ⟨a.x, a.y⟩) = a.x ∧
    Real.sqrt (a.x ^ 2 + a.y ^ 2) * Real.sin (Complex.arg ⟨a.x, a.y⟩) = a.y := by
  have hn : ‖(⟨a.x, a.y⟩ : ℂ)‖ = Real.sqrt (a.x ^ 2 + a.y ^ 2) := by
    rw [Complex.norm_def, Complex.normSq_apply]; congr 1; ring
  constructor
  · rw [← hn, Complex.norm_mul_cos_arg]
  · rw [← hn, Complex.norm_mul_sin_arg]

theorem zenith_spec (a : Vec3) (h : a.mag ≠ 0) :
    a.mag * Real.cos (Real.arccos (a.z / a.mag)) = a.z ∧
    a.mag * Real.sin (Real.arccos (a.z / a.mag)) = Real.sqrt (a.x ^ 2 + a.y ^ 2) := by
  have hp : 0 < a.mag := lt_of_le_of_ne (mag_nonneg a) (Ne.symm h)
  have hsq := mag_sq a
  unfold dot at hsq
  have habs : |a.z| ≤ a.mag := by
    apply abs_le_of_sq_le_sq _ hp.le
    nlinarith [mul_self_nonneg a.x, mul_self_nonneg a.y]
  have h1 : -1 ≤ a.z / a.mag := by
    rw [le_div_iff₀ hp]; linarith [(abs_le.1 habs).1]
  have h2 : a.z / a.mag ≤ 1 := by
    rw [div_le_iff₀ hp]; linarith [(abs_le.1 habs).2]
  constructor
  · rw [Real.cos_arccos h1 h2]; field_simp
  · rw [Real.sin_arccos]
    have : a.x ^ 2 + a.y ^ 2 = a.mag ^ 2 * (1 - (a.z / a.mag) ^ 2) := by
      field_simp; nlinarith
    rw [this, Real.sqrt_mul (sq_nonneg _), Real.sqrt_sq hp.le]

/-- A unit vector in terms of its own angles. -/
theorem unit_angles (a : Vec3) (h : a.mag = 1) :
    let s := a.toSpherical
    a.x = Real.sin s.2.2 * Real.cos s.2.1 ∧ a.y = Real.sin s.2.2 * Real.sin s.2.1 ∧
    a.z = Real.cos s.2.2 := by
  have h0 : a.mag ≠ 0 := by rw [h]; norm_num
  have hz := zenith_spec a h0
  have ha := azimuth_spec a
  rw [h] at hz
  simp only [one_mul] at hz
  simp only [toSpherical, h0, if_false]
  rw [h, hz.1, hz.2, ha.1, ha.2]
  exact ⟨rfl, rfl, rfl⟩

/-- The frame used by deflection and scattering is orthonormal and right handed. -/
theorem frame_orthonormal (a : Vec3) (h : a.mag = 1) :
    a.rotX.dot a.rotX = 1 ∧ a.rotY.dot a.rotY = 1 ∧ a.rotX.dot a.rotY = 0 ∧
    a.dot a.rotX = 0 ∧ a.dot a.rotY = 0 ∧ a.rotX.cross a.rotY = a := by
  obtain ⟨hx, hy, hz⟩ := unit_angles a h
  set s := a.toSpherical with hs
  have c1 := Real.sin_sq_add_cos_sq s.2.1
  have c2 := Real.sin_sq_add_cos_sq s.2.2
  have eX : a.rotX = ⟨Real.cos s.2.2 * Real.cos s.2.1, Real.cos s.2.2 * Real.sin s.2.1,
    -Real.sin s.2.2⟩ := rfl
  have eY : a.rotY = ⟨-Real.sin s.2.1, Real.cos s.2.1, 0⟩ := rfl
  rw [eX, eY]
  generalize Real.sin s.2.1 = sp at *
  generalize Real.cos s.2.1 = cp at *
  generalize Real.sin s.2.2 = st at *
  generalize Real.cos s.2.2 = ct at *
  simp only [dot, cross]
  rw [hx, hy, hz]
  refine ⟨?_, ?_, ?_, ?_, ?_, ?_⟩
  · linear_combination ct ^ 2 * c1 + c2
  · linear_combination c1
  · ring
  · linear_combination ct * st * c1
  · ring
  · ext
    · simp only [hx]; ring
    · simp only [hy]; ring
    · simp only [hz]; linear_combination ct * c1

/-- squared length of a combination of the frame vectors -/
theorem frame_combo_dot (a : Vec3) (h : a.mag = 1) (r s t : ℝ) :
    (r • a + s • a.rotX + t • a.rotY).dot (r • a + s • a.rotX + t • a.rotY)
      = r ^ 2 + s ^ 2 + t ^ 2 ∧
    a.dot (r • a + s • a.rotX + t • a.rotY) = r := by
  obtain ⟨h1, h2, h3, h4, h5, -⟩ := frame_orthonormal a h
  have h0 : a.dot a = 1 := (mag_eq_one_iff a).1 h
  simp only [dot, add_x, add_y, add_z, smul_x, smul_y, smul_z] at *
  constructor
  · linear_combination r ^ 2 * h0 + s ^ 2 * h1 + t ^ 2 * h2 + 2 * s * t * h3 + 2 * r * s * h4
      + 2 * r * t * h5
  · linear_combination r * h0 + s * h4 + t * h5

/-- The three branches of the deflection code collapse to one formula. -/
theorem deflect_formula (a : Vec3) (c θ : ℝ) (h1 : -1 ≤ c) (h2 : c ≤ 1) :
    a.deflect c θ = c • a + (Real.sqrt (1 - c ^ 2) * Real.cos θ) • a.rotX
      + (Real.sqrt (1 - c ^ 2) * Real.sin θ) • a.rotY := by
  unfold deflect
  by_cases hc : c ≠ 1 ∨ θ ≠ 0
  · rw [if_pos hc]
    have e1 : max 0 ((1 - c) * (1 + c)) = 1 - c ^ 2 := by
      rw [max_eq_right]; · ring
      · nlinarith
    simp only [e1]
    have hs : Real.sqrt (1 - c ^ 2) ^ 2 = 1 - c ^ 2 := Real.sq_sqrt (by nlinarith)
    have e2 : 1 - Real.sqrt (1 - c ^ 2) * Real.cos θ * (Real.sqrt (1 - c ^ 2) * Real.cos θ)
        - Real.sqrt (1 - c ^ 2) * Real.sin θ * (Real.sqrt (1 - c ^ 2) * Real.sin θ) = c ^ 2 := by
      have := Real.sin_sq_add_cos_sq θ
      linear_combination (-(Real.sqrt (1 - c ^ 2)) ^ 2) * this - hs
    rw [e2, max_eq_left (sq_nonneg c), Real.sqrt_sq_eq_abs]
    by_cases hneg : c < 0
    · rw [if_pos hneg, abs_of_neg hneg, neg_neg]
    · rw [if_neg hneg, abs_of_nonneg (not_lt.1 hneg)]
  · rw [if_neg hc]
    have hc1 : c = 1 := by by_contra h; exact hc (Or.inl h)
    have hc2 : θ = 0 := by by_contra h; exact hc (Or.inr h)
    subst hc1; subst hc2
    ext <;> simp

/-- Cosines beyond ±1 (rounding) keep or flip the direction. -/
theorem deflect_out_of_range (a : Vec3) (c θ : ℝ) (h : 1 < |c|) :
    a.deflect c θ = if c < 0 then -a else a := by
  unfold deflect
  have hcne : c ≠ 1 ∨ θ ≠ 0 := by
    left; rintro rfl; simp at h
  rw [if_pos hcne]
  have e1 : max 0 ((1 - c) * (1 + c)) = 0 := by
    rw [max_eq_left]
    have : 1 < c ^ 2 := (one_lt_sq_iff_one_lt_abs c).2 h
    nlinarith
  simp only [e1, Real.sqrt_zero, zero_mul, sub_zero]
  by_cases hneg : c < 0
  · simp only [if_pos hneg]; ext <;> simp
  · simp only [if_neg hneg]; ext <;> simp

end Vec3
open Spec in
theorem unitVec_iff (v : Vec3) : UnitVec v ↔ v.mag = 1 := by
  rw [Vec3.mag_eq_one_iff]; unfold UnitVec Vec3.dot
  constructor <;> intro h <;> nlinarith

end Proposal
