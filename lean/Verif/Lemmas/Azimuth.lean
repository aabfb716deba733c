import Verif.Props.Vec3
import Verif.Props.Isotropy
import Mathlib.MeasureTheory.Integral.IntervalIntegral.Periodic
import Mathlib.Analysis.SpecialFunctions.Complex.Arg

/-!
# Turns about a direction and the azimuth

A turn that leaves a direction in place shifts or reverses the azimuth of every deflection of it, and a uniform azimuth does not
change its distribution by a shift or a reversal.
-/

namespace Proposal
namespace Spec

open MeasureTheory Set

/-- A rotation about a direction, or a reflection that leaves it in place. -/
structure About (dir : Vec3) (R : Vec3 → Vec3) : Prop extends Turn R where
  axis : R dir = dir

/-- The mean over one random number. -/
noncomputable def mean1 (f : ℝ → ENNReal) : ENNReal := ∫⁻ u in Ico 0 1, f u

end Spec

open Spec MeasureTheory Set Real
open scoped ENNReal

namespace Azimuth

theorem mean1_Ioc (f : ℝ → ℝ≥0∞) : mean1 f = ∫⁻ u in Ioc 0 1, f u := by
  unfold mean1
  rw [Measure.restrict_congr_set Ico_ae_eq_Ioc]

theorem mean1_window (f : ℝ → ℝ≥0∞) (per : ∀ u, f (u + 1) = f u) (a : ℝ) :
    ∫⁻ u in Ioc a (a + 1), f u = mean1 f := by
  rw [mean1_Ioc]
  have hp : Function.Periodic f 1 := per
  have h1 := isAddFundamentalDomain_Ioc (T := 1) one_pos a
  have h0 := isAddFundamentalDomain_Ioc (T := 1) one_pos 0
  rw [zero_add] at h0
  exact h1.setLIntegral_eq h0 f hp.map_vadd_zmultiples

theorem mean1_shift (f : ℝ → ℝ≥0∞) (per : ∀ u, f (u + 1) = f u) (a : ℝ) :
    mean1 (fun u => f (a + u)) = mean1 f := by
  rw [← mean1_window f per a, mean1_Ioc]
  have := (measurePreserving_add_left volume a).setLIntegral_comp_preimage_emb
    (MeasurableEquiv.addLeft a).measurableEmbedding f (Ioc a (a + 1))
  rw [← this]
  congr 2
  ext u
  simp

theorem mean1_reverse (f : ℝ → ℝ≥0∞) (per : ∀ u, f (u + 1) = f u) (a : ℝ) :
    mean1 (fun u => f (a - u)) = mean1 f := by
  rw [← mean1_window f per (a - 1)]
  unfold mean1
  rw [sub_add_cancel]
  have := (MeasureTheory.Measure.measurePreserving_sub_left volume a).setLIntegral_comp_preimage_emb
    (MeasurableEquiv.subLeft a).measurableEmbedding f (Ioc (a - 1) a)
  rw [← this]
  congr 2
  ext u
  simp only [mem_Ico, mem_preimage, mem_Ioc]
  constructor
  · rintro ⟨h, k⟩; exact ⟨by linarith, by linarith⟩
  · rintro ⟨h, k⟩; exact ⟨by linarith, by linarith⟩

/-! ## Turns -/

theorem turn_dot {R : Vec3 → Vec3} (hR : Turn R) (a b : Vec3) : cosAngle (R a) (R b) = cosAngle a b := by
  have h := hR.length (a + b)
  have ha := hR.length a
  have hb := hR.length b
  rw [hR.add] at h
  simp only [Vec3.add_x, Vec3.add_y, Vec3.add_z] at h
  unfold cosAngle
  linarith

theorem turn_unit {R : Vec3 → Vec3} (hR : Turn R) {a : Vec3} (ha : UnitVec a) : UnitVec (R a) := by
  unfold UnitVec at *
  rw [hR.length, ha]

theorem turn_neg {R : Vec3 → Vec3} (hR : Turn R) (a : Vec3) : R (-a) = -R a := by
  have e : ∀ v : Vec3, -v = (-1 : ℝ) • v := fun v => by ext <;> simp
  rw [e a, hR.smul, ← e]

theorem turn_sub {R : Vec3 → Vec3} (hR : Turn R) (a b : Vec3) : R (a - b) = R a - R b := by
  have e : ∀ v w : Vec3, v - w = v + -w := fun v w => by ext <;> simp <;> ring
  rw [e a b, hR.add, turn_neg hR, ← e]

theorem turn_mag {R : Vec3 → Vec3} (hR : Turn R) (a : Vec3) : (R a).mag = a.mag := by
  unfold Vec3.mag
  have := hR.length a
  congr 1
  linarith

theorem turn_normalize {R : Vec3 → Vec3} (hR : Turn R) (a : Vec3) : (R a).normalize = a.normalize.map R := by
  unfold Vec3.normalize
  rw [turn_mag hR]
  split_ifs
  · rfl
  · have e : ∀ (v : Vec3) (k : ℝ), (⟨v.x / k, v.y / k, v.z / k⟩ : Vec3) = k⁻¹ • v := fun v k => by
      ext <;> simp <;> ring
    simp only [Option.map_some, e, hR.smul]

/-- A vector perpendicular to an axis lies in the plane of the frame. -/
theorem in_plane {e1 e2 a v : Vec3} (h : RightHandedFrame e1 e2 a) (hv : cosAngle a v = 0) :
    v = cosAngle e1 v • e1 + cosAngle e2 v • e2 := by
  obtain ⟨u1, u2, ua, h12, ha1, ha2, cx, cy, cz⟩ := h
  set w : Vec3 := v - (cosAngle e1 v • e1 + cosAngle e2 v • e2) with hw
  have w1 : cosAngle e1 w = 0 := by
    simp only [hw, cosAngle, Vec3.sub_x, Vec3.sub_y, Vec3.sub_z, Vec3.add_x, Vec3.add_y, Vec3.add_z, Vec3.smul_x,
      Vec3.smul_y, Vec3.smul_z]
    unfold cosAngle at h12
    unfold UnitVec at u1
    linear_combination -(e1.x * v.x + e1.y * v.y + e1.z * v.z) * u1 - (e2.x * v.x + e2.y * v.y + e2.z * v.z) * h12
  have w2 : cosAngle e2 w = 0 := by
    simp only [hw, cosAngle, Vec3.sub_x, Vec3.sub_y, Vec3.sub_z, Vec3.add_x, Vec3.add_y, Vec3.add_z, Vec3.smul_x,
      Vec3.smul_y, Vec3.smul_z]
    unfold cosAngle at h12
    unfold UnitVec at u2
    linear_combination -(e2.x * v.x + e2.y * v.y + e2.z * v.z) * u2 - (e1.x * v.x + e1.y * v.y + e1.z * v.z) * h12
  have wa : cosAngle a w = 0 := by
    simp only [hw, cosAngle, Vec3.sub_x, Vec3.sub_y, Vec3.sub_z, Vec3.add_x, Vec3.add_y, Vec3.add_z, Vec3.smul_x,
      Vec3.smul_y, Vec3.smul_z]
    unfold cosAngle at ha1 ha2 hv
    linear_combination hv - (e1.x * v.x + e1.y * v.y + e1.z * v.z) * ha1 - (e2.x * v.x + e2.y * v.y + e2.z * v.z) * ha2
  clear_value w
  unfold cosAngle at w1 w2 wa
  unfold UnitVec at ua
  have k1 : a.y * w.z - a.z * w.y = 0 := by rw [cy, cz]; linear_combination e2.x * w1 - e1.x * w2
  have k2 : a.z * w.x - a.x * w.z = 0 := by rw [cx, cz]; linear_combination e2.y * w1 - e1.y * w2
  have k3 : a.x * w.y - a.y * w.x = 0 := by rw [cx, cy]; linear_combination e2.z * w1 - e1.z * w2
  have z1 : w.x = 0 := by linear_combination -w.x * ua + a.x * wa + a.z * k2 - a.y * k3
  have z2 : w.y = 0 := by linear_combination -w.y * ua + a.y * wa + a.x * k3 - a.z * k1
  have z3 : w.z = 0 := by linear_combination -w.z * ua + a.z * wa + a.y * k1 - a.x * k2
  have := hw
  ext
  · have q := congrArg Vec3.x hw
    simp only [z1, Vec3.sub_x] at q; linarith
  · have q := congrArg Vec3.y hw
    simp only [z2, Vec3.sub_y] at q; linarith
  · have q := congrArg Vec3.z hw
    simp only [z3, Vec3.sub_z] at q; linarith

theorem angle_of (p q : ℝ) (h : p ^ 2 + q ^ 2 = 1) : ∃ a, cos a = p ∧ sin a = q := by
  have hn : ‖(⟨p, q⟩ : ℂ)‖ = 1 := by
    rw [Complex.norm_def, Complex.normSq_mk, Real.sqrt_eq_one]; linarith
  have h0 : (⟨p, q⟩ : ℂ) ≠ 0 := by
    intro e; rw [e, norm_zero] at hn; exact zero_ne_one hn
  refine ⟨Complex.arg ⟨p, q⟩, ?_, ?_⟩
  · rw [Complex.cos_arg h0, hn, div_one]
  · rw [Complex.sin_arg, hn, div_one]

/-- The deflected direction depends on the azimuth only through its sine and cosine. -/
theorem deflect_congr (dir : Vec3) (c θ θ' : ℝ) (hc : cos θ = cos θ') (hs : sin θ = sin θ') :
    dir.deflect c θ = dir.deflect c θ' := by
  by_cases h : |c| ≤ 1
  · obtain ⟨h1, h2⟩ := abs_le.1 h
    rw [Vec3.deflect_formula dir c θ h1 h2, Vec3.deflect_formula dir c θ' h1 h2, hc, hs]
  · rw [Vec3.deflect_out_of_range dir c θ (not_le.1 h), Vec3.deflect_out_of_range dir c θ' (not_le.1 h)]

/-- A turn about a direction shifts or reverses the azimuth of its deflections. -/
theorem turn_deflect {dir : Vec3} (hd : UnitVec dir) {R : Vec3 → Vec3} (hR : About dir R) :
    ∃ a σ : ℝ, (σ = 1 ∨ σ = -1) ∧ ∀ c θ, R (dir.deflect c θ) = dir.deflect c (a + σ * θ) := by
  obtain ⟨e1, e2, hf, hdef⟩ := C45_deflect_azimuth dir hd
  have T := hR.toTurn
  have ax := hR.axis
  obtain ⟨u1, u2, -, h12, ha1, ha2, -⟩ := id hf
  have p1 : cosAngle dir (R e1) = 0 := by rw [← ha1, ← turn_dot T dir e1, ax]
  have p2 : cosAngle dir (R e2) = 0 := by rw [← ha2, ← turn_dot T dir e2, ax]
  have r1 := in_plane hf p1
  have r2 := in_plane hf p2
  have q1 := turn_unit T u1
  have q2 := turn_unit T u2
  have q3 : cosAngle (R e1) (R e2) = 0 := by rw [turn_dot T, h12]
  generalize cosAngle e1 (R e1) = p at r1
  generalize cosAngle e2 (R e1) = q at r1
  generalize cosAngle e1 (R e2) = r at r2
  generalize cosAngle e2 (R e2) = s at r2
  rw [r1] at q1 q3
  rw [r2] at q2 q3
  simp only [UnitVec, cosAngle, Vec3.add_x, Vec3.add_y, Vec3.add_z, Vec3.smul_x, Vec3.smul_y, Vec3.smul_z] at q1 q2 q3 u1 u2 h12
  have pq : p ^ 2 + q ^ 2 = 1 := by linear_combination q1 - p ^ 2 * u1 - q ^ 2 * u2 - 2 * p * q * h12
  have rs : r ^ 2 + s ^ 2 = 1 := by linear_combination q2 - r ^ 2 * u1 - s ^ 2 * u2 - 2 * r * s * h12
  have pr : p * r + q * s = 0 := by linear_combination q3 - p * r * u1 - q * s * u2 - (p * s + q * r) * h12
  obtain ⟨a, ca, sa⟩ := angle_of p q pq
  have hσ : (p * s - q * r) ^ 2 = 1 := by linear_combination (r ^ 2 + s ^ 2) * pq + rs - (p * r + q * s) * pr
  have hr : r = -(p * s - q * r) * q := by linear_combination p * pr - r * pq
  have hs : s = (p * s - q * r) * p := by linear_combination q * pr - s * pq
  generalize p * s - q * r = σ at hσ hr hs
  have hσ' : σ = 1 ∨ σ = -1 := by
    rcases mul_eq_zero.mp (show (σ - 1) * (σ + 1) = 0 by linear_combination hσ) with k | k
    · left; linarith
    · right; linarith
  refine ⟨a, σ, hσ', fun c θ => ?_⟩
  by_cases h : |c| ≤ 1
  · obtain ⟨h1, h2⟩ := abs_le.1 h
    rw [hdef c θ h1 h2, hdef c _ h1 h2, T.add, T.add, T.smul, T.smul, T.smul, ax, r1, r2, hr, hs]
    have tc : cos (a + σ * θ) = p * cos θ - σ * q * sin θ := by
      rw [cos_add, ca, sa]
      rcases hσ' with rfl | rfl <;> simp
    have ts : sin (a + σ * θ) = q * cos θ + σ * p * sin θ := by
      rw [sin_add, ca, sa]
      rcases hσ' with rfl | rfl <;> simp
    rw [tc, ts]
    ext <;> simp only [Vec3.add_x, Vec3.add_y, Vec3.add_z, Vec3.smul_x, Vec3.smul_y, Vec3.smul_z] <;> ring
  · rw [Vec3.deflect_out_of_range dir c θ (not_le.1 h), Vec3.deflect_out_of_range dir c _ (not_le.1 h)]
    split_ifs
    · rw [turn_neg T, ax]
    · exact ax

/-- What follows from shifts and reversals of the azimuth. -/
theorem even {α : Type} (F G : ℝ → α) (per : ∀ θ, F (θ + 2 * π) = F θ) (a σ : ℝ) (hσ : σ = 1 ∨ σ = -1)
    (h : ∀ θ, G θ = F (a + σ * θ)) (g : α → ℝ≥0∞) :
    mean1 (fun u => g (G (2 * π * u))) = mean1 (fun u => g (F (2 * π * u))) := by
  have hp : ∀ u, g (F (2 * π * (u + 1))) = g (F (2 * π * u)) := fun u => by
    rw [show 2 * π * (u + 1) = 2 * π * u + 2 * π by ring, per]
  have key : ∀ u, g (G (2 * π * u)) = g (F (2 * π * (a / (2 * π) + σ * u))) := fun u => by
    rw [h]; congr 2; have := pi_pos; field_simp
  simp only [key]
  rcases hσ with rfl | rfl
  · simp only [one_mul]
    exact mean1_shift (fun u => g (F (2 * π * u))) hp _
  · have := mean1_reverse (fun u => g (F (2 * π * u))) hp (a / (2 * π))
    simp only [neg_mul, one_mul, ← sub_eq_add_neg]
    exact this

end Azimuth
end Proposal
