import Verif.Model.Density
import Verif.Lemmas.Vec3
import Verif.Props.Spline
import Verif.Props.RootFinding
import Mathlib.Analysis.SpecialFunctions.ExpDeriv
import Mathlib.Analysis.SpecialFunctions.Integrals.Basic

/-!
# Density distributions (C54, C55, C56, C77 to C80)
-/

namespace Proposal

open Spec

/-! ## C54: distance and grammage -/

/-- C54: for a homogeneous density, distance and grammage are inverse to each other, the grammage is
additive and increases with the distance. -/
theorem C54_homogeneous (ρ : ℝ) (h : 0 < ρ) :
    (∀ res, ∃ d, homogeneousCorrect ρ res = .dist d ∧ homogeneousCalculate ρ d = res) ∧
    (∀ l, homogeneousCorrect ρ (homogeneousCalculate ρ l) = .dist l) ∧
    (∀ a b, homogeneousCalculate ρ (a + b) = homogeneousCalculate ρ a + homogeneousCalculate ρ b) ∧
    StrictMono (homogeneousCalculate ρ) := by
  have e : ∀ l, homogeneousCalculate ρ l = ρ * l := by
    intro l; simp [homogeneousCalculate, homogeneousIntegrate]
  refine ⟨?_, ?_, ?_, ?_⟩
  · intro res
    exact ⟨_, rfl, by rw [e]; field_simp⟩
  · intro l
    rw [e]
    unfold homogeneousCorrect
    congr 1
    field_simp
  · intro a b
    rw [e, e, e]
    ring
  · intro a b hab
    rw [e, e]
    exact mul_lt_mul_of_pos_left hab h

namespace ExpDensity

private lemma calc_eq (D : ExpDensity) (x dir : Vec3) (l δ : ℝ) (he : D.effective x dir = some δ) (hδ : δ ≠ 0) :
    D.calculate x dir l = some (D.ρ * Real.exp (D.depth x) * (Real.exp (l * δ) - 1) / δ) := by
  simp only [calculate, integrate, he, hδ, if_false, Option.bind_eq_bind, Option.bind_some, Option.pure_def]
  congr 1
  rw [Real.exp_add, zero_mul, add_zero]
  ring

private lemma correct_eq (D : ExpDensity) (x dir : Vec3) (res δ : ℝ) (he : D.effective x dir = some δ) (hδ : δ ≠ 0) :
    D.correct x dir res =
      (if 1 + Real.exp (-D.depth x) * res * δ / D.ρ < 0 then .throws
      else if 1 + Real.exp (-D.depth x) * res * δ / D.ρ = 0 then .notFinite
      else .dist (1 / δ * Real.log (1 + Real.exp (-D.depth x) * res * δ / D.ρ))) := by
  simp only [correct, he, hδ, if_false]

end ExpDensity

open ExpDensity

/-- C54: for an exponential density and a direction that is not perpendicular to the axis: the grammage over
a corrected distance is the given one; correcting the grammage over a distance gives the distance; and the
correction fails exactly when no distance has this grammage. Missing are the perpendicular directions, see
`C54_perpendicular`. -/
theorem C54_exponential_partial (D : ExpDensity) (x dir : Vec3) (δ : ℝ) (hρ : 0 < D.ρ)
    (he : D.effective x dir = some δ) (hδ : δ ≠ 0) :
    (∀ res d, D.correct x dir res = .dist d → D.calculate x dir d = some res) ∧
    (∀ l g, D.calculate x dir l = some g → D.correct x dir g = .dist l) ∧
    (∀ res, (D.correct x dir res = .throws ∨ D.correct x dir res = .notFinite) ↔
      ∀ l, D.calculate x dir l ≠ some res) := by
  have key : Real.exp (D.depth x) * Real.exp (-D.depth x) = 1 := by rw [← Real.exp_add]; simp
  have h1 : ∀ res d, D.correct x dir res = .dist d → D.calculate x dir d = some res := by
    intro res d h
    rw [correct_eq D x dir res δ he hδ] at h
    split_ifs at h with h0 h1
    injection h with h
    have ha : 0 < 1 + Real.exp (-D.depth x) * res * δ / D.ρ :=
      lt_of_le_of_ne (not_lt.1 h0) (Ne.symm h1)
    rw [calc_eq D x dir d δ he hδ, ← h, show 1 / δ * Real.log (1 + Real.exp (-D.depth x) * res * δ / D.ρ) * δ =
      Real.log (1 + Real.exp (-D.depth x) * res * δ / D.ρ) by field_simp, Real.exp_log ha]
    congr 1
    field_simp
    linear_combination res * δ * key
  have h2 : ∀ l g, D.calculate x dir l = some g → D.correct x dir g = .dist l := by
    intro l g h
    rw [calc_eq D x dir l δ he hδ] at h
    injection h with h
    have e : 1 + Real.exp (-D.depth x) * g * δ / D.ρ = Real.exp (l * δ) := by
      rw [← h]
      field_simp
      linear_combination (Real.exp (l * δ) - 1) * key
    rw [correct_eq D x dir g δ he hδ, e, if_neg (not_lt.2 (Real.exp_pos _).le), if_neg (Real.exp_pos _).ne',
      Real.log_exp]
    congr 1
    field_simp
  refine ⟨h1, h2, ?_⟩
  intro res
  constructor
  · intro h l hl
    have := h2 l res hl
    rw [this] at h
    simp at h
  · intro h
    cases hc : D.correct x dir res with
    | throws => exact Or.inl rfl
    | notFinite => exact Or.inr rfl
    | dist d => exact absurd (h1 res d hc) (h d)

/-- C54: the grammage of an exponential density increases with the distance, and along a Cartesian axis it
is additive: the grammage over two consecutive distances is the sum of the grammages. -/
theorem C54_exponential_additive_partial (D : ExpDensity) (x dir : Vec3) (δ : ℝ) (hρ : 0 < D.ρ)
    (he : D.effective x dir = some δ) (hδ : δ ≠ 0) :
    (∀ a b ga gb, a < b → D.calculate x dir a = some ga → D.calculate x dir b = some gb → ga < gb) ∧
    ((∃ u p, D.axis = .cartesian u p) → ∀ a b, ∃ ga gb, D.calculate x dir a = some ga ∧
      D.calculate (x + a • dir) dir b = some gb ∧ D.calculate x dir (a + b) = some (ga + gb)) := by
  constructor
  · intro a b ga gb hab ha hb
    rw [calc_eq D x dir _ δ he hδ] at ha hb
    injection ha with ha
    injection hb with hb
    rw [← ha, ← hb]
    have hp : 0 < D.ρ * Real.exp (D.depth x) := mul_pos hρ (Real.exp_pos _)
    rcases lt_or_gt_of_ne hδ with hd | hd
    · rw [div_lt_div_right_of_neg hd]
      apply mul_lt_mul_of_pos_left _ hp
      have : Real.exp (b * δ) < Real.exp (a * δ) := Real.exp_lt_exp.2 (by nlinarith)
      linarith
    · rw [div_lt_div_iff_of_pos_right hd]
      apply mul_lt_mul_of_pos_left _ hp
      have : Real.exp (a * δ) < Real.exp (b * δ) := Real.exp_lt_exp.2 (by nlinarith)
      linarith
  · rintro ⟨u, p, hu⟩ a b
    have he' : D.effective (x + a • dir) dir = some δ := by
      rw [← he]
      simp only [effective, hu, Axis.effective]
    have hδe : δ = u.dot dir / D.sigma := by
      simp only [effective, hu, Axis.effective, Option.map_some, Option.some.injEq] at he
      exact he.symm
    have hdep : D.depth (x + a • dir) = D.depth x + a * δ := by
      rw [hδe]
      simp only [depth, hu, Axis.depth, Vec3.dot, Vec3.sub_x, Vec3.sub_y, Vec3.sub_z, Vec3.add_x, Vec3.add_y, Vec3.add_z,
        Vec3.smul_x, Vec3.smul_y, Vec3.smul_z]
      ring
    refine ⟨_, _, calc_eq D x dir a δ he hδ, calc_eq D _ dir b δ he' hδ, ?_⟩
    rw [calc_eq D x dir _ δ he hδ, hdep, Real.exp_add, add_mul, Real.exp_add]
    congr 1
    ring

/-- C54 fails perpendicular to the axis, where the density is constant along the flight: the grammage is
a NaN and the correction throws, whatever the grammage. -/
theorem C54_perpendicular (u p : Vec3) (sigma d0 ρ : ℝ) (x dir : Vec3) (h : u.dot dir = 0) :
    let D : ExpDensity := ⟨.cartesian u p, sigma, d0, ρ⟩
    (∀ t : ℝ, D.evaluate (x + t • dir) = D.evaluate x) ∧ (∀ l, D.calculate x dir l = none) ∧
    ∀ res, D.correct x dir res = .throws := by
  intro D
  have he : D.effective x dir = some 0 := by simp [D, effective, Axis.effective, h]
  refine ⟨?_, ?_, ?_⟩
  · intro t
    have : D.depth (x + t • dir) = D.depth x := by
      simp only [D, depth, Axis.depth]
      congr 2
      simp only [Vec3.dot, Vec3.sub_x, Vec3.sub_y, Vec3.sub_z, Vec3.add_x, Vec3.add_y, Vec3.add_z,
        Vec3.smul_x, Vec3.smul_y, Vec3.smul_z] at h ⊢
      linear_combination t * h
    simp only [evaluate, this]
  · intro l
    simp [calculate, integrate, he]
  · intro res
    simp [correct, he]

/-- An exponential density with a descending flight: the hypotheses of the theorems are met. -/
example : ∃ D : ExpDensity, ∃ x dir : Vec3, ∃ δ, 0 < D.ρ ∧ D.effective x dir = some δ ∧ δ ≠ 0 ∧ D.correct x dir 1 ≠ .throws := by
  refine ⟨⟨.cartesian ⟨0, 0, 1⟩ 0, 8, 0, 1⟩, ⟨0, 0, 5⟩, ⟨0, 0, 1⟩, 1 / 8, by norm_num, ?_, by norm_num, ?_⟩
  · simp [effective, Axis.effective, Vec3.dot]
  · rw [correct_eq _ _ _ _ (1 / 8) (by simp [effective, Axis.effective, Vec3.dot]) (by norm_num)]
    have : (0 : ℝ) < 1 + Real.exp (-ExpDensity.depth ⟨.cartesian ⟨0, 0, 1⟩ 0, 8, 0, 1⟩ ⟨0, 0, 5⟩) * 1 * (1 / 8) / 1 := by positivity
    rw [if_neg (not_lt.2 this.le), if_neg this.ne']
    simp

/-! ## C79: the exponential grammage -/

/-- C79: along a Cartesian axis the grammage of an exponential density is the integral of the density along
the flight. Missing are the radial axis, see `C79_radial_wrong`, and perpendicular flight. -/
theorem C79_exponential_partial (u p : Vec3) (sigma d0 ρ : ℝ) (hs : sigma ≠ 0) (x dir : Vec3) (h : u.dot dir ≠ 0) (l : ℝ) :
    let D : ExpDensity := ⟨.cartesian u p, sigma, d0, ρ⟩
    D.calculate x dir l = some (∫ t in (0 : ℝ)..l, D.evaluate (x + t • dir)) := by
  intro D
  have hδ : u.dot dir / sigma ≠ 0 := div_ne_zero h hs
  have he : D.effective x dir = some (u.dot dir / sigma) := by simp [D, effective, Axis.effective]
  rw [calc_eq D x dir l _ he hδ]
  have hev : ∀ t : ℝ, D.evaluate (x + t • dir) = D.ρ * Real.exp (D.depth x) * Real.exp (t * (u.dot dir / sigma)) := by
    intro t
    have : D.depth (x + t • dir) = D.depth x + t * (u.dot dir / sigma) := by
      simp only [D, depth, Axis.depth, Vec3.dot, Vec3.sub_x, Vec3.sub_y, Vec3.sub_z, Vec3.add_x, Vec3.add_y, Vec3.add_z,
        Vec3.smul_x, Vec3.smul_y, Vec3.smul_z]
      ring
    rw [evaluate, this, Real.exp_add, mul_assoc]
  simp only [hev]
  rw [intervalIntegral.integral_const_mul]
  congr 1
  rw [mul_div_assoc]
  congr 1
  generalize u.dot dir / sigma = δ at *
  have hd : ∀ t ∈ Set.uIcc 0 l, HasDerivAt (fun t => Real.exp (t * δ) / δ) (Real.exp (t * δ)) t := by
    intro t _
    have := ((hasDerivAt_mul_const δ (x := t)).exp).div_const δ
    rwa [mul_div_assoc, div_self hδ, mul_one] at this
  rw [intervalIntegral.integral_eq_sub_of_hasDerivAt hd (by
    apply Continuous.intervalIntegrable
    fun_prop)]
  simp
  ring

/-- C79 fails for a radial axis: the density e^r grows outwards, but the grammage of the first unit of
distance outwards from the point (1, 0, 0), and of the second one, is a decreasing sequence: it is
e - 1, less than the smallest density on this way. -/
theorem C79_radial_wrong :
    let D : ExpDensity := ⟨.radial 0, 1, 0, 1⟩
    (∀ t : ℝ, 0 ≤ t → D.evaluate (⟨1, 0, 0⟩ + t • (⟨1, 0, 0⟩ : Vec3)) = Real.exp (1 + t)) ∧
    D.calculate ⟨1, 0, 0⟩ ⟨1, 0, 0⟩ 1 = some (Real.exp 1 - 1) ∧
    Real.exp 1 - 1 < ∫ t in (0 : ℝ)..1, D.evaluate (⟨1, 0, 0⟩ + t • (⟨1, 0, 0⟩ : Vec3)) := by
  intro D
  have hmag : ∀ r : ℝ, 0 ≤ r → (⟨r, 0, 0⟩ - 0 : Vec3).mag = r := by
    intro r hr
    simp [Vec3.mag, Real.sqrt_mul_self hr]
  have hv : ∀ t : ℝ, (⟨1, 0, 0⟩ + t • (⟨1, 0, 0⟩ : Vec3)) = ⟨1 + t, 0, 0⟩ := by
    intro t
    ext <;> simp
  have ev : ∀ t : ℝ, 0 ≤ t → D.evaluate (⟨1, 0, 0⟩ + t • (⟨1, 0, 0⟩ : Vec3)) = Real.exp (1 + t) := by
    intro t ht
    rw [hv]
    simp only [evaluate, depth, D, Axis.depth]
    rw [hmag _ (by linarith)]
    simp
  have he : D.effective ⟨1, 0, 0⟩ ⟨1, 0, 0⟩ = some (-1) := by
    have m := hmag 1 zero_le_one
    simp only [effective, D, Axis.effective, Vec3.normalize, m, one_ne_zero, if_false, Option.map_some]
    simp [Vec3.dot]
  refine ⟨ev, ?_, ?_⟩
  · rw [calc_eq D _ _ 1 (-1) he (by norm_num)]
    have hd : D.depth ⟨1, 0, 0⟩ = 1 := by
      simp only [depth, D, Axis.depth]
      rw [hmag 1 zero_le_one]
      simp
    rw [hd]
    have : Real.exp 1 * Real.exp (1 * -1) = 1 := by rw [← Real.exp_add]; simp
    congr 1
    simp only [D]
    linear_combination -this
  · have e : (∫ t in (0 : ℝ)..1, D.evaluate (⟨1, 0, 0⟩ + t • (⟨1, 0, 0⟩ : Vec3))) = ∫ t in (0 : ℝ)..1, Real.exp (1 + t) := by
      apply intervalIntegral.integral_congr
      intro t ht
      rw [Set.uIcc_of_le zero_le_one] at ht
      exact ev t ht.1
    rw [e]
    have : (∫ _ in (0 : ℝ)..1, Real.exp 1) ≤ ∫ t in (0 : ℝ)..1, Real.exp (1 + t) := by
      apply intervalIntegral.integral_mono_on zero_le_one
      · simp
      · apply Continuous.intervalIntegrable; fun_prop
      · intro t ht
        exact Real.exp_le_exp.2 (by linarith [ht.1])
    rw [intervalIntegral.integral_const, sub_zero, one_smul] at this
    linarith

/-! ## C55: densities given by a function of the depth -/

/-- A function of the depth and its antiderivative: everything defined, and `P` grows by the integral. -/
def Spec.Antiderivative (p P : ℝ → Option ℝ) : Prop :=
  ∃ f F : ℝ → ℝ, (∀ t, p t = some (f t)) ∧ (∀ t, P t = some (F t)) ∧ ∀ a b, F b - F a = ∫ t in a..b, f t

private lemma polynomial_anti (q : Poly) (h : q ≠ []) : Antiderivative q.evaluate (q.antiderivative 0).evaluate := by
  refine ⟨polyVal q, polyVal (q.antiderivative 0), fun t => C49_evaluate q t h, fun t => (C49_antiderivative q 0 t).1, ?_⟩
  intro a b
  refine (intervalIntegral.integral_eq_sub_of_hasDerivAt (fun t _ => (C49_antiderivative q 0 t).2.2.1) ?_).symm
  apply Continuous.intervalIntegrable
  exact continuous_iff_continuousAt.2 fun x => (C49_derivative q x).continuousAt

private lemma depth_general (D : DepthDensity) (hP : Antiderivative D.p D.P) (u p : Vec3) (hu : D.axis = .cartesian u p)
    (x dir : Vec3) (hδ : u.dot dir ≠ 0) (l : ℝ) :
    D.calculate x dir l = some ((∫ t in (0 : ℝ)..l, (D.evaluate (x + t • dir)).getD 0) / u.dot dir) := by
  obtain ⟨f, F, h1, h2, h3⟩ := hP
  have hdep : ∀ t : ℝ, D.axis.depth (x + t • dir) = D.axis.depth x + t * u.dot dir := by
    intro t
    simp only [hu, Axis.depth, Vec3.dot, Vec3.sub_x, Vec3.sub_y, Vec3.sub_z, Vec3.add_x, Vec3.add_y, Vec3.add_z,
      Vec3.smul_x, Vec3.smul_y, Vec3.smul_z]
    ring
  have he : D.axis.effective x dir = some (u.dot dir) := by rw [hu]; rfl
  simp only [DepthDensity.calculate, DepthDensity.integrate, he, hδ, if_false, h2, Option.map_some, Option.bind_eq_bind,
    Option.bind_some, Option.pure_def]
  congr 1
  have hint : (∫ t in (0 : ℝ)..l, (D.evaluate (x + t • dir)).getD 0) =
      D.ρ * ((u.dot dir)⁻¹ * (F (D.axis.depth x + l * u.dot dir) - F (D.axis.depth x))) := by
    have : ∀ t : ℝ, (D.evaluate (x + t • dir)).getD 0 = D.ρ * f (u.dot dir * t + D.axis.depth x) := by
      intro t
      simp only [DepthDensity.evaluate, h1, Option.map_some, Option.getD_some, hdep]
      ring_nf
    simp only [this]
    rw [intervalIntegral.integral_const_mul, intervalIntegral.integral_comp_mul_add _ hδ, h3]
    simp [mul_comm l, add_comm]
  rw [hint, zero_mul, add_zero]
  field_simp

/-- C55: for a flight along the axis the grammage of a polynomial density is the integral of the density along
the flight. For other directions it is that integral divided by the cosine of the angle between
direction and axis (for a unit axis). Missing are all other directions and the radial axis, see `C55_radial`. -/
theorem C55_polynomial_partial (u p : Vec3) (q : Poly) (hq : q ≠ []) (ρ : ℝ) (x dir : Vec3) (h : u.dot dir ≠ 0) (l : ℝ) :
    let D := DepthDensity.polynomial (.cartesian u p) q ρ
    let grammage := ∫ t in (0 : ℝ)..l, (D.evaluate (x + t • dir)).getD 0
    D.calculate x dir l = some (grammage / u.dot dir) ∧
    (u.dot dir = 1 → D.calculate x dir l = some grammage) ∧
    (u.dot dir ≠ 1 → grammage ≠ 0 → D.calculate x dir l ≠ some grammage) := by
  intro D grammage
  have e : D.calculate x dir l = some (grammage / u.dot dir) :=
    depth_general D (polynomial_anti q hq) u p rfl x dir h l
  refine ⟨e, ?_, ?_⟩
  · intro h1
    rw [e, h1, div_one]
  · intro h1 h2 hc
    rw [e] at hc
    injection hc with hc
    rw [div_eq_iff h] at hc
    exact h1 (mul_left_cancel₀ h2 (by rw [mul_one]; exact hc.symm))

/-- C55: the same for a spline density. -/
theorem C55_spline_partial (u p : Vec3) (s : Spline) (hs : RegularSpline s) (ρ : ℝ) (x dir : Vec3) (h : u.dot dir ≠ 0) (l : ℝ) :
    ∃ D, DepthDensity.spline (.cartesian u p) s ρ = some D ∧
    let grammage := ∫ t in (0 : ℝ)..l, (D.evaluate (x + t • dir)).getD 0
    D.calculate x dir l = some (grammage / u.dot dir) ∧
    (u.dot dir = 1 → D.calculate x dir l = some grammage) ∧
    (u.dot dir ≠ 1 → grammage ≠ 0 → D.calculate x dir l ≠ some grammage) := by
  obtain ⟨s', h1, h2, h3, h4, h5⟩ := C74_antiderivative s hs 0
  have hint := C74_integrable s hs
  have hP : Antiderivative s.evaluate s'.evaluate := by
    refine ⟨fun t => (s.evaluate t).getD 0, fun t => 0 + ∫ u in s.knots.getD 0 0..t, (s.evaluate u).getD 0, ?_, h5, ?_⟩
    · intro t
      obtain ⟨v, hv⟩ := (hint 0 0).2 t
      simp only [hv, Option.getD_some]
    · intro a b
      simp only [zero_add]
      rw [intervalIntegral.integral_interval_sub_left (hint _ _).1 (hint _ _).1]
  refine ⟨⟨.cartesian u p, s.evaluate, s'.evaluate, ρ⟩, by simp [DepthDensity.spline, h1], ?_⟩
  intro grammage
  have e := depth_general ⟨.cartesian u p, s.evaluate, s'.evaluate, ρ⟩ hP u p rfl x dir h l
  refine ⟨e, ?_, ?_⟩
  · intro h1
    rw [e, h1, div_one]
  · intro h1 h2 hc
    rw [e] at hc
    injection hc with hc
    rw [div_eq_iff h] at hc
    exact h1 (mul_left_cancel₀ h2 (by rw [mul_one]; exact hc.symm))

/-- C55 fails: flying against the axis through a density of 1 everywhere, the grammage of a distance of 1 is
-1. -/
theorem C55_negative_grammage :
    let D := DepthDensity.polynomial (.cartesian ⟨1, 0, 0⟩ 0) [1] 1
    (∀ x, D.evaluate x = some 1) ∧ D.calculate 0 ⟨-1, 0, 0⟩ 1 = some (-1) := by
  intro D
  have ev : ∀ x, D.evaluate x = some 1 := by
    intro x
    simp [D, DepthDensity.evaluate, DepthDensity.polynomial, Poly.evaluate, horner]
  refine ⟨ev, ?_⟩
  have := (C55_polynomial_partial ⟨1, 0, 0⟩ 0 [1] (by simp) 1 0 ⟨-1, 0, 0⟩ (by simp [Vec3.dot]) 1).1
  rw [show D.calculate 0 ⟨-1, 0, 0⟩ 1 = _ from this]
  congr 1
  have : ∀ t : ℝ, (DepthDensity.polynomial (.cartesian ⟨1, 0, 0⟩ 0) [1] 1).evaluate (0 + t • (⟨-1, 0, 0⟩ : Vec3)) = some 1 :=
    fun t => ev _
  simp only [this]
  simp [Vec3.dot]

private lemma radial_mag (u : Vec3) (hu : UnitVec u) (p : Vec3) (r : ℝ) (hr : 0 ≤ r) : (p + r • u - p).mag = r := by
  unfold UnitVec at hu
  unfold Vec3.mag
  simp only [Vec3.sub_x, Vec3.sub_y, Vec3.sub_z, Vec3.add_x, Vec3.add_y, Vec3.add_z, Vec3.smul_x, Vec3.smul_y, Vec3.smul_z]
  rw [Real.sqrt_eq_iff_mul_self_eq (by nlinarith [mul_self_nonneg (r * u.x), mul_self_nonneg (r * u.y), mul_self_nonneg (r * u.z)]) hr]
  linear_combination (r ^ 2) * hu

/-- C55 fails for the radial axis: flying along the radius towards the reference point, the grammage is that of the
same distance flown outwards; flying outwards it is minus the grammage of the same distance flown inwards. -/
theorem C55_radial (p u : Vec3) (hu : UnitVec u) (q : Poly) (hq : q ≠ []) (ρ r l : ℝ) (hr : 0 < r) (h0 : 0 ≤ l) (h1 : l ≤ r) :
    let D := DepthDensity.polynomial (.radial p) q ρ
    let grammage := fun dir : Vec3 => ∫ t in (0 : ℝ)..l, (D.evaluate (p + r • u + t • dir)).getD 0
    D.calculate (p + r • u) (-u) l = some (grammage u) ∧ D.calculate (p + r • u) u l = some (-grammage (-u)) := by
  intro D grammage
  obtain ⟨f, F, a1, a2, a3⟩ := polynomial_anti q hq
  have hdep : D.axis.depth (p + r • u) = r := radial_mag u hu p r hr.le
  have hn : (p + r • u - p).normalize = some u := by
    unfold Vec3.normalize
    rw [radial_mag u hu p r hr.le, if_neg hr.ne']
    congr 1
    ext <;> simp only [Vec3.sub_x, Vec3.sub_y, Vec3.sub_z, Vec3.add_x, Vec3.add_y, Vec3.add_z, Vec3.smul_x, Vec3.smul_y, Vec3.smul_z] <;>
      field_simp <;> ring
  have hself : u.dot u = 1 := by unfold UnitVec at hu; unfold Vec3.dot; linarith
  have e1 : D.axis.effective (p + r • u) u = some (-1) := by
    simp only [D, DepthDensity.polynomial, Axis.effective, hn, Option.map_some]
    congr 1
    rw [← hself]; simp only [Vec3.dot, Vec3.neg_x, Vec3.neg_y, Vec3.neg_z]; ring
  have e2 : D.axis.effective (p + r • u) (-u) = some 1 := by
    simp only [D, DepthDensity.polynomial, Axis.effective, hn, Option.map_some]
    congr 1
    rw [← hself]; simp only [Vec3.dot, Vec3.neg_x, Vec3.neg_y, Vec3.neg_z]; ring
  have hP : ∀ t, D.P t = some (F t) := a2
  have out : ∀ t ∈ Set.uIcc (0 : ℝ) l, (D.evaluate (p + r • u + t • u)).getD 0 = ρ * f (t + r) := by
    intro t ht
    rw [Set.uIcc_of_le h0] at ht
    have : D.axis.depth (p + r • u + t • u) = t + r := by
      rw [show p + r • u + t • u = p + (t + r) • u by ext <;> simp <;> ring]
      exact radial_mag u hu p (t + r) (by linarith [ht.1])
    simp only [DepthDensity.evaluate, this]
    simp only [D, DepthDensity.polynomial, a1, Option.map_some, Option.getD_some]
  have inw : ∀ t ∈ Set.uIcc (0 : ℝ) l, (D.evaluate (p + r • u + t • (-u))).getD 0 = ρ * f (r - t) := by
    intro t ht
    rw [Set.uIcc_of_le h0] at ht
    have : D.axis.depth (p + r • u + t • (-u)) = r - t := by
      rw [show p + r • u + t • (-u) = p + (r - t) • u by ext <;> simp <;> ring]
      exact radial_mag u hu p (r - t) (by linarith [ht.2])
    simp only [DepthDensity.evaluate, this]
    simp only [D, DepthDensity.polynomial, a1, Option.map_some, Option.getD_some]
  constructor
  · simp only [DepthDensity.calculate, DepthDensity.integrate, e2, one_ne_zero, if_false, hP, Option.map_some, Option.bind_eq_bind,
      Option.bind_some, Option.pure_def, hdep]
    congr 1
    simp only [grammage]
    rw [intervalIntegral.integral_congr out, intervalIntegral.integral_const_mul, intervalIntegral.integral_comp_add_right f,
      ← a3]
    simp only [D, DepthDensity.polynomial, mul_one, add_zero, div_one, zero_add]
    rw [add_comm l r]; ring
  · simp only [DepthDensity.calculate, DepthDensity.integrate, e1, neg_eq_zero, one_ne_zero, if_false, hP, Option.map_some,
      Option.bind_eq_bind, Option.bind_some, Option.pure_def, hdep]
    congr 1
    simp only [grammage]
    rw [intervalIntegral.integral_congr inw, intervalIntegral.integral_const_mul, intervalIntegral.integral_comp_sub_left f,
      ← a3]
    simp only [D, DepthDensity.polynomial, sub_zero, mul_neg, mul_one, neg_neg, div_one, ← sub_eq_add_neg]
    ring

example : UnitVec ⟨1, 0, 0⟩ ∧ ([1, 2] : Poly) ≠ [] ∧ (0 : ℝ) < 3 ∧ (0 : ℝ) ≤ 2 ∧ (2 : ℝ) ≤ 3 := by
  refine ⟨by norm_num [UnitVec], by simp, by norm_num, by norm_num, by norm_num⟩

/-! ## C80: distances in polynomial densities -/

/-- C80: a distance returned for a polynomial or spline density is between 0 and the distance to the border;
an exception is thrown exactly if the grammage to the border and the requested grammage have opposite
differences at both ends, that is for a positive request above the grammage to the border. Missing: that a
distance is returned at all, see `C80_no_distance`, and that it is the right one. -/
theorem C80_correct_partial (D : DepthDensity) (x dir : Vec3) (res border i g : ℝ) (hb : 0 ≤ border) (hres : 0 < res)
    (hi : D.integrate x dir 0 = some i) (hg : D.calculate x dir border = some g) :
    (D.correct x dir res border = .throws ↔ g < res) ∧
    ∀ d, D.correct x dir res border = .dist d → 0 ≤ d ∧ d ≤ border := by
  have hF0 : D.helperF x dir res 0 = res := by simp [DepthDensity.helperF]
  have hFb : D.helperF x dir res border = res - g := by
    simp only [DepthDensity.calculate, hi, Option.bind_eq_bind, Option.pure_def] at hg
    cases hj : D.integrate x dir border with
    | none => rw [hj] at hg; simp at hg
    | some j =>
      rw [hj] at hg
      simp only [Option.bind_some, Option.some.injEq] at hg
      simp only [DepthDensity.helperF, hi, hj, Option.getD_some]
      linarith
  have ht := C51_newton_throws (D.helperF x dir res) (D.helperDF x dir) 0 border (border / 2) (1 / 10 ^ 6) 101
  rw [hF0, hFb] at ht
  simp only [DepthDensity.correct, hi]
  constructor
  · constructor
    · intro h
      have : newtonRaphson (D.helperF x dir res) (D.helperDF x dir) 0 border (border / 2) 101 (1 / 10 ^ 6) =
          .error .notBracketed := by
        cases hn : newtonRaphson (D.helperF x dir res) (D.helperDF x dir) 0 border (border / 2) 101 (1 / 10 ^ 6) with
        | error e => cases e; rfl
        | ok o => rw [hn] at h; cases o <;> simp at h
      have := ht.1 this
      have := (mul_pos_iff_of_pos_left hres).1 this
      linarith
    · intro h
      rw [ht.2 (mul_pos hres (by linarith))]
  · intro d h
    by_cases hs : D.helperF x dir res 0 * D.helperF x dir res border ≤ 0
    · obtain ⟨o, h1, h2, _⟩ := C51_newton_in_bracket_partial (D.helperF x dir res) (D.helperDF x dir) 0 border (border / 2)
        (1 / 10 ^ 6) 101 ⟨by rw [min_eq_left hb]; linarith, by rw [max_eq_right hb]; linarith⟩ hs
      rw [h1] at h
      cases o with
      | none => simp at h
      | some r =>
        simp only [Corrected.dist.injEq] at h
        obtain ⟨b1, b2⟩ := h2 r rfl
        rw [min_eq_left hb] at b1
        rw [max_eq_right hb] at b2
        exact ⟨h ▸ b1, h ▸ b2⟩
    · rw [not_le, hF0, hFb] at hs
      rw [ht.2 hs] at h
      simp at h

/-- C80 fails: in a polynomial density of 1 everywhere, along the axis, the distance for the grammage 1 with the
border at 2 is not 1 but a NaN, because the function given to the root finder as derivative is not the
derivative. -/
theorem C80_no_distance :
    let D := DepthDensity.polynomial (.cartesian ⟨1, 0, 0⟩ 0) [1] 1
    (∀ l, D.calculate 0 ⟨1, 0, 0⟩ l = some l) ∧ D.correct 0 ⟨1, 0, 0⟩ 1 2 = .notFinite := by
  intro D
  have hi : ∀ l, D.integrate 0 ⟨1, 0, 0⟩ l = some l := by
    intro l
    simp [D, DepthDensity.integrate, DepthDensity.polynomial, Poly.evaluate, Poly.antiderivative, horner, Axis.effective,
      Axis.depth, Vec3.dot, Poly.coef, List.range_succ]
  have hF : D.helperF 0 ⟨1, 0, 0⟩ 1 = fun l => 1 - l := by
    funext l
    simp only [DepthDensity.helperF, hi, Option.getD_some]
    ring
  have hdF : D.helperDF 0 ⟨1, 0, 0⟩ = fun _ => 0 := by
    funext l
    simp [D, DepthDensity.helperDF, DepthDensity.evaluate, DepthDensity.polynomial, Poly.evaluate, horner]
  have loop : ∀ n, newtonLoop (fun l : ℝ => 1 - l) (fun _ => 0) (1 / 10 ^ 6) (n + 1) 2 0 (2 / 2) 2 2 = none := by
    intro n
    simp only [newtonLoop]
    norm_num
  constructor
  · intro l
    simp [DepthDensity.calculate, hi]
  · simp only [DepthDensity.correct, hi, hF, hdF]
    have : newtonRaphson (fun l : ℝ => 1 - l) (fun _ => 0) 0 2 (2 / 2) 101 (1 / 10 ^ 6) = .ok none := by
      unfold newtonRaphson
      simp only
      rw [if_neg (by norm_num), if_neg (by norm_num), if_neg (by norm_num), if_neg (by norm_num),
        show |(2 : ℝ) - 0| = 2 by norm_num, loop 99]
    rw [this]

/-- The hypotheses of the theorem are met in the density of the counterexample. -/
example : ∃ D : DepthDensity, D.integrate 0 ⟨1, 0, 0⟩ 0 = some 0 ∧ D.calculate 0 ⟨1, 0, 0⟩ 2 = some 2 := by
  refine ⟨DepthDensity.polynomial (.cartesian ⟨1, 0, 0⟩ 0) [1] 1, ?_, C80_no_distance.1 2⟩
  simp [DepthDensity.integrate, DepthDensity.polynomial, Poly.evaluate, Poly.antiderivative, horner, Axis.effective,
    Axis.depth, Vec3.dot]

/-! ## C56: comparison -/

/-- C56: distributions that compare equal and have the same axis evaluate to the same density everywhere.
Missing: that equality implies the same axis, see `C56_axis_ignored`. -/
theorem C56_equal_partial (a b : Distr) (h : a.beq b) (haxis : a.axis = b.axis) (heap : ℕ → Option Spline) (x : Vec3) :
    a.evaluate heap x = b.evaluate heap x := by
  obtain ⟨_, hρ, hc⟩ := h
  cases a <;> cases b <;> simp only [Distr.compare, Distr.axis, Distr.ρ] at hc haxis hρ
  · simp only [Distr.evaluate, hρ]
  · simp only [Distr.evaluate, hρ, haxis, hc.1, hc.2]
  · rename_i _ p _ _ q _ _
    have : p = q := by
      simp only [Poly.beq, decide_eq_true_eq] at hc
      obtain ⟨hl, he⟩ := hc
      apply List.ext_getElem hl
      intro i h1 h2
      have := he i h1
      simpa [Poly.coef, List.getD_eq_getElem?_getD, h1, h2] using this
    simp only [Distr.evaluate, hρ, haxis, this]
  · simp only [Distr.evaluate, hρ, haxis, hc.1]

/-- C56: homogeneous distributions that compare equal evaluate to the same density everywhere. -/
theorem C56_homogeneous (a b : Distr) (h : a.beq b) (hh : ∃ u r, a = .homogeneous u r) (heap : ℕ → Option Spline) (x : Vec3) :
    a.evaluate heap x = b.evaluate heap x := by
  obtain ⟨u, r, rfl⟩ := hh
  obtain ⟨_, hρ, hc⟩ := h
  cases b <;> simp only [Distr.compare, Distr.ρ] at hc hρ
  simp only [Distr.evaluate, hρ]

/-- C56 fails: two exponential distributions along different axes compare equal, and so do one with a
Cartesian and one with a radial axis, but their densities differ. -/
theorem C56_axis_ignored :
    let alongX := Distr.exponential (.cartesian ⟨1, 0, 0⟩ 0) 1 0 1
    let alongY := Distr.exponential (.cartesian ⟨0, 1, 0⟩ 0) 1 0 1
    let radial := Distr.exponential (.radial 0) 1 0 1
    alongX.beq alongY ∧ alongX.beq radial ∧ ∀ heap,
      alongX.evaluate heap ⟨1, 0, 0⟩ ≠ alongY.evaluate heap ⟨1, 0, 0⟩ ∧
      alongX.evaluate heap ⟨-1, 0, 0⟩ ≠ radial.evaluate heap ⟨-1, 0, 0⟩ := by
  refine ⟨?_, ?_, ?_⟩
  · simp [Distr.beq, Distr.compare, Distr.axis, Distr.ρ, Axis.beq, Axis.fp0]
  · simp [Distr.beq, Distr.compare, Distr.axis, Distr.ρ, Axis.beq, Axis.fp0]
  · intro heap
    constructor
    · simp [Distr.evaluate, ExpDensity.evaluate, ExpDensity.depth, Axis.depth, Vec3.dot]
    · simp [Distr.evaluate, ExpDensity.evaluate, ExpDensity.depth, Axis.depth, Vec3.dot, Vec3.mag]
      norm_num

/-! ## C77: copies of spline densities -/

/-- C77 fails: destroying a spline density and its copy deletes the same splines twice, and after the
destruction of one of them the other one reads a deleted spline. -/
theorem C77_double_delete (live : LiveSplines) (p q : ℕ) (hp : p ∉ live) :
    let (live1, D) := SplineDensityObj.new live p q
    ∃ live2, SplineDensityObj.destroy live1 D = some live2 ∧
      SplineDensityObj.destroy live2 D.copy = none ∧ SplineDensityObj.evaluate live2 D.copy = none := by
  simp only [SplineDensityObj.new, SplineDensityObj.destroy, SplineDensityObj.copy, SplineDensityObj.evaluate, deleteSpline]
  refine ⟨live, ?_, ?_, ?_⟩
  · simp
  · simp [hp]
  · simp [hp]

/-- C77: a single spline density can be used and destroyed, leaving everything else as it was. -/
theorem C77_single_partial (live : LiveSplines) (p q : ℕ) :
    let (live1, D) := SplineDensityObj.new live p q
    SplineDensityObj.evaluate live1 D = some () ∧ SplineDensityObj.destroy live1 D = some live := by
  simp [SplineDensityObj.new, SplineDensityObj.destroy, SplineDensityObj.evaluate, deleteSpline]

/-! ## C78: densities from JSON -/

/-- C78 fails: there is no JSON value from which a polynomial density, or a polynomial, can be constructed. -/
theorem C78_no_polynomial (j : Json) :
    (∃ e, polynomOfJson j = .error e) ∧ (∃ e, polynomialDensityOfJson j = .error e) := by
  have h : ∃ e, polynomOfJson j = .error e := by
    cases j <;> exact ⟨_, rfl⟩
  refine ⟨h, ?_⟩
  obtain ⟨e, he⟩ := h
  simp only [polynomialDensityOfJson]
  cases hd : distrOfJson j with
  | error e' => exact ⟨e', rfl⟩
  | ok v => exact ⟨e, by simp [bind, Except.bind, he]⟩

/-- C78: an exponential density read from a JSON object has the stated axis, mass density, length scale and
offset, the scale being 1 and the offset 0 if not stated. -/
theorem C78_exponential_partial (f : String → Option Json) (ux uy uz px py pz ρ : ℝ)
    (h1 : f "axis_type" = some (.str "cartesian")) (h2 : f "fAxis" = some (.arr [.num ux, .num uy, .num uz]))
    (h3 : f "fp0" = some (.arr [.num px, .num py, .num pz])) (h4 : f "mass_density" = some (.num ρ))
    (s d : Option ℝ) (h5 : f "sigma" = s.map .num) (h6 : f "d0" = d.map .num) :
    exponentialDensityOfJson (.obj f) =
      .ok ⟨.cartesian ⟨ux, uy, uz⟩ ⟨px, py, pz⟩, s.getD 1, d.getD 0, ρ⟩ := by
  have hd : distrOfJson (.obj f) = .ok (.cartesian ⟨ux, uy, uz⟩ ⟨px, py, pz⟩, ρ) := by
    simp [distrOfJson, axisOfJson, Json.contains, Json.get, h1, h2, h3, h4, Json.toStr, Json.toDouble, vec3OfJson, bind,
      Except.bind, pure, Except.pure]
  simp only [exponentialDensityOfJson, hd, bind, Except.bind, Json.valueD, h5, h6]
  cases s <;> cases d <;> rfl

end Proposal
