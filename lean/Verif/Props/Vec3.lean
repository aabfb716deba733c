import Verif.Lemmas.Vec3
import Verif.Spec.Vec3
import Mathlib.Analysis.Real.Pi.Bounds
import Mathlib.Tactic.NormNum

/-! Properties C45 - C48: directions, coordinates and momenta. -/

namespace Proposal
open Spec

/-- **C45** For every unit direction, every cosine and every azimuth the deflected direction is a
unit vector. -/
theorem C45_deflect_unit (a : Vec3) (ha : UnitVec a) (c θ : ℝ) : UnitVec (a.deflect c θ) := by
  have hm := (unitVec_iff a).1 ha
  by_cases hc : |c| ≤ 1
  · obtain ⟨h1, h2⟩ := abs_le.1 hc
    rw [Vec3.deflect_formula a c θ h1 h2, unitVec_iff, Vec3.mag_eq_one_iff,
      (Vec3.frame_combo_dot a hm _ _ _).1]
    have hs : Real.sqrt (1 - c ^ 2) ^ 2 = 1 - c ^ 2 := Real.sq_sqrt (by nlinarith)
    have := Real.sin_sq_add_cos_sq θ
    linear_combination (1 - c ^ 2) * this + (Real.cos θ ^ 2 + Real.sin θ ^ 2) * hs
  · rw [Vec3.deflect_out_of_range a c θ (not_le.1 hc)]
    split_ifs
    · unfold UnitVec at *; simp only [Vec3.neg_x, Vec3.neg_y, Vec3.neg_z]; nlinarith
    · exact ha

/-- **C45** The cosine between old and new direction is exactly the requested one. -/
theorem C45_deflect_angle (a : Vec3) (ha : UnitVec a) (c θ : ℝ) (h1 : -1 ≤ c) (h2 : c ≤ 1) :
    cosAngle a (a.deflect c θ) = c := by
  have hm := (unitVec_iff a).1 ha
  rw [Vec3.deflect_formula a c θ h1 h2]
  exact (Vec3.frame_combo_dot a hm _ _ _).2

/-- **C45** The azimuth is the polar angle of the transverse component in one right handed frame
that depends only on the old direction. -/
theorem C45_deflect_azimuth (a : Vec3) (ha : UnitVec a) :
    ∃ e1 e2 : Vec3, RightHandedFrame e1 e2 a ∧ ∀ c θ : ℝ, -1 ≤ c → c ≤ 1 →
      a.deflect c θ = c • a + (Real.sqrt (1 - c ^ 2) * Real.cos θ) • e1
        + (Real.sqrt (1 - c ^ 2) * Real.sin θ) • e2 := by
  have hm := (unitVec_iff a).1 ha
  obtain ⟨h1, h2, h3, h4, h5, h6⟩ := Vec3.frame_orthonormal a hm
  refine ⟨a.rotX, a.rotY, ⟨?_, ?_, ha, h3, h4, h5, ?_, ?_, ?_⟩, fun c θ => Vec3.deflect_formula a c θ⟩
  · unfold Vec3.dot at h1; unfold UnitVec; linarith
  · unfold Vec3.dot at h2; unfold UnitVec; linarith
  · exact (congrArg Vec3.x h6).symm
  · exact (congrArg Vec3.y h6).symm
  · exact (congrArg Vec3.z h6).symm

/-- **C45** No deflection leaves the direction alone; a reversed deflection is a reflection;
cosines pushed beyond one by rounding behave like plus or minus one. -/
theorem C45_deflect_extreme (a : Vec3) (c θ : ℝ) :
    (1 ≤ c → a.deflect c θ = a) ∧ (c ≤ -1 → a.deflect c θ = -a) := by
  constructor
  · intro h
    rcases h.lt_or_eq with h | h
    · rw [Vec3.deflect_out_of_range a c θ (by rw [abs_of_pos] <;> linarith), if_neg (by linarith)]
    · subst h
      rw [Vec3.deflect_formula a 1 θ (by norm_num) le_rfl]
      ext <;> simp
  · intro h
    rcases h.lt_or_eq with h | h
    · rw [Vec3.deflect_out_of_range a c θ (by rw [abs_of_neg] <;> linarith), if_pos (by linarith)]
    · subst h
      rw [Vec3.deflect_formula a (-1) θ le_rfl (by norm_num)]
      ext <;> simp

example : UnitVec ⟨3 / 5, 0, 4 / 5⟩ ∧ (-1 : ℝ) ≤ 1 / 2 ∧ (1 / 2 : ℝ) ≤ 1 := by
  refine ⟨?_, ?_, ?_⟩ <;> norm_num [UnitVec]

/-- **C46** (violated) With large sampled offsets the scattered directions are not unit vectors. -/
theorem C46_scatter_not_unit :
    ∃ (d : Vec3) (o : ScatteringOffset), UnitVec d ∧
      ¬ UnitVec (scatterInitialDirection d o).1 ∧ ¬ UnitVec (scatterInitialDirection d o).2 := by
  have hu : UnitVec (⟨0, 0, 1⟩ : Vec3) := by norm_num [UnitVec]
  have hm := (unitVec_iff _).1 hu
  refine ⟨⟨0, 0, 1⟩, ⟨2, 0, 2, 0⟩, hu, ?_, ?_⟩
  · rw [unitVec_iff, Vec3.mag_eq_one_iff]
    unfold scatterInitialDirection
    simp only
    rw [(Vec3.frame_combo_dot _ hm _ _ _).1]
    norm_num
  · rw [unitVec_iff, Vec3.mag_eq_one_iff]
    unfold scatterInitialDirection
    simp only
    rw [(Vec3.frame_combo_dot _ hm _ _ _).1]
    norm_num

/-- **C46** Missing from the full claim: offsets longer than one.  Exactly for offsets of length
at most one the scattered directions are unit vectors, and then the cosine with the old direction
is the complementary leg; longer offsets give a vector as long as the offset. -/
theorem C46_scatter_unit_partial (d : Vec3) (hd : UnitVec d) (o : ScatteringOffset) :
    (UnitVec (scatterInitialDirection d o).1 ↔ o.sx ^ 2 + o.sy ^ 2 ≤ 1) ∧
    (UnitVec (scatterInitialDirection d o).2 ↔ o.tx ^ 2 + o.ty ^ 2 ≤ 1) ∧
    cosAngle d (scatterInitialDirection d o).1 = Real.sqrt (1 - (o.sx ^ 2 + o.sy ^ 2)) ∧
    cosAngle d (scatterInitialDirection d o).2 = Real.sqrt (1 - (o.tx ^ 2 + o.ty ^ 2)) := by
  have hm := (unitVec_iff d).1 hd
  have key : ∀ u v : ℝ,
      (UnitVec (Real.sqrt (max (1 - (u * u + v * v)) 0) • d + u • d.rotX + v • d.rotY)
        ↔ u ^ 2 + v ^ 2 ≤ 1) ∧
      cosAngle d (Real.sqrt (max (1 - (u * u + v * v)) 0) • d + u • d.rotX + v • d.rotY)
        = Real.sqrt (1 - (u ^ 2 + v ^ 2)) := by
    intro u v
    have hc := Vec3.frame_combo_dot d hm (Real.sqrt (max (1 - (u * u + v * v)) 0)) u v
    have huv : u * u + v * v = u ^ 2 + v ^ 2 := by ring
    constructor
    · rw [unitVec_iff, Vec3.mag_eq_one_iff, hc.1, Real.sq_sqrt (le_max_right _ _), huv]
      constructor
      · intro h
        have := le_max_right (1 - (u ^ 2 + v ^ 2)) 0
        linarith
      · intro h
        rw [max_eq_left (by linarith)]; ring
    · refine hc.2.trans ?_
      rw [huv]
      by_cases h : u ^ 2 + v ^ 2 ≤ 1
      · rw [max_eq_left (by linarith)]
      · rw [max_eq_right (by linarith), Real.sqrt_zero, Real.sqrt_eq_zero_of_nonpos (by linarith)]
  exact ⟨(key _ _).1, (key _ _).1, (key _ _).2, (key _ _).2⟩

example : UnitVec ⟨0, 1, 0⟩ := by norm_num [UnitVec]

/-- **C47** Cartesian to spherical and back is the identity, and the angles are in range. -/
theorem C47_cartesian_round_trip (a : Vec3) :
    Vec3.ofSpherical a.toSpherical = a ∧ 0 ≤ a.toSpherical.1 ∧
    -Real.pi < a.toSpherical.2.1 ∧ a.toSpherical.2.1 ≤ Real.pi ∧
    0 ≤ a.toSpherical.2.2 ∧ a.toSpherical.2.2 ≤ Real.pi := by
  unfold Vec3.toSpherical
  by_cases h : a.mag = 0
  · rw [if_pos h, (Vec3.mag_eq_zero_iff a).1 h]
    refine ⟨?_, le_rfl, ?_, Real.pi_pos.le, le_rfl, Real.pi_pos.le⟩
    · ext <;> simp [Vec3.ofSpherical]
    · simp [Real.pi_pos]
  · rw [if_neg h]
    refine ⟨?_, Vec3.mag_nonneg a, Complex.neg_pi_lt_arg _, Complex.arg_le_pi _,
      Real.arccos_nonneg _, Real.arccos_le_pi _⟩
    have hz := Vec3.zenith_spec a h
    have ha := Vec3.azimuth_spec a
    unfold Vec3.ofSpherical
    ext
    · simp only
      rw [mul_right_comm, hz.2, ha.1]
    · simp only
      rw [mul_right_comm, hz.2, ha.2]
    · exact hz.1

/-- **C47** Spherical to Cartesian and back is the identity away from the polar axis. -/
theorem C47_spherical_round_trip (r φ θ : ℝ) (hr : 0 < r) (hφ : -Real.pi < φ) (hφ' : φ ≤ Real.pi)
    (hθ : 0 < θ) (hθ' : θ < Real.pi) :
    (Vec3.ofSpherical (r, φ, θ)).toSpherical = (r, φ, θ) := by
  have hs := Real.sin_pos_of_pos_of_lt_pi hθ hθ'
  have c1 := Real.sin_sq_add_cos_sq φ
  have c2 := Real.sin_sq_add_cos_sq θ
  have hmag : (Vec3.ofSpherical (r, φ, θ)).mag = r := by
    rw [Vec3.mag_eq_sqrt_dot]
    have : (Vec3.ofSpherical (r, φ, θ)).dot (Vec3.ofSpherical (r, φ, θ)) = r ^ 2 := by
      unfold Vec3.ofSpherical Vec3.dot
      linear_combination r ^ 2 * Real.sin θ ^ 2 * c1 + r ^ 2 * c2
    rw [this, Real.sqrt_sq hr.le]
  unfold Vec3.toSpherical
  rw [hmag, if_neg hr.ne']
  congr 1
  congr 1
  · have : (⟨(Vec3.ofSpherical (r, φ, θ)).x, (Vec3.ofSpherical (r, φ, θ)).y⟩ : ℂ)
        = ((r * Real.sin θ : ℝ) : ℂ) * (Complex.cos φ + Complex.sin φ * Complex.I) := by
      apply Complex.ext
      · rw [Complex.re_ofReal_mul]
        simp [Vec3.ofSpherical, Complex.cos_ofReal_re]; ring
      · rw [Complex.im_ofReal_mul]
        simp [Vec3.ofSpherical, Complex.sin_ofReal_re]; ring
    rw [this]
    exact Complex.arg_mul_cos_add_sin_mul_I (mul_pos hr hs) ⟨hφ, hφ'⟩
  · have : (Vec3.ofSpherical (r, φ, θ)).z / r = Real.cos θ := by
      simp only [Vec3.ofSpherical]; field_simp
    rw [this, Real.arccos_cos hθ.le hθ'.le]

example : (0 : ℝ) < 2 ∧ -Real.pi < 1 ∧ (1 : ℝ) ≤ Real.pi ∧ (0 : ℝ) < 1 ∧ (1 : ℝ) < Real.pi := by
  have := Real.pi_gt_three
  refine ⟨?_, ?_, ?_, ?_, ?_⟩ <;> linarith

/-- **C48** Setting a momentum and reading it back gives its absolute value, and the energy is at
least the mass. -/
theorem C48_momentum_round_trip (m p : ℝ) :
    momentumOfEnergy m (energyOfMomentum m p) = some |p| ∧ m ≤ energyOfMomentum m p := by
  unfold momentumOfEnergy energyOfMomentum
  have hsq : Real.sqrt (p * p + m ^ 2) ^ 2 = p * p + m ^ 2 := Real.sq_sqrt (by nlinarith [mul_self_nonneg p, sq_nonneg m])
  have e : (Real.sqrt (p * p + m ^ 2) + m) * (Real.sqrt (p * p + m ^ 2) - m) = p ^ 2 := by
    linear_combination hsq
  rw [e, if_neg (by nlinarith [sq_nonneg p]), Real.sqrt_sq_eq_abs]
  refine ⟨rfl, ?_⟩
  apply Real.le_sqrt_of_sq_le
  nlinarith [mul_self_nonneg p]

/-- **C48** The momentum is a number exactly when the energy is at least the mass (for
non-negative energies); then setting it restores the energy. -/
theorem C48_energy_round_trip (m e : ℝ) (hm : 0 ≤ m) (he : 0 ≤ e) :
    (momentumOfEnergy m e = none ↔ e < m) ∧
    (∀ p, momentumOfEnergy m e = some p → 0 ≤ p ∧ energyOfMomentum m p = e) := by
  unfold momentumOfEnergy energyOfMomentum
  constructor
  · constructor
    · intro h
      by_contra hc
      rw [if_neg] at h
      · cases h
      · push Not at hc ⊢
        exact mul_nonneg (by linarith) (by linarith)
    · intro h
      rw [if_pos]
      exact mul_neg_of_pos_of_neg (by linarith) (by linarith)
  · intro p hp
    by_cases h : (e + m) * (e - m) < 0
    · rw [if_pos h] at hp; cases hp
    · rw [if_neg h] at hp
      injection hp with hp
      subst hp
      refine ⟨Real.sqrt_nonneg _, ?_⟩
      rw [Real.mul_self_sqrt (not_lt.1 h)]
      have : (e + m) * (e - m) + m ^ 2 = e ^ 2 := by ring
      rw [this, Real.sqrt_sq he]

example : (0 : ℝ) ≤ 105 ∧ (0 : ℝ) ≤ 1000 := by norm_num

end Proposal
