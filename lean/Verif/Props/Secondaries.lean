import Verif.Model.Secondaries
import Verif.Props.Vec3
import Verif.Props.RootFinding
import Verif.Props.Kinematics
import Verif.Spec.Decay
import Mathlib.Tactic.LinearCombination
import Mathlib.Analysis.Complex.ExponentialBounds

/-! C41-C44, C88: secondaries of stochastic losses. -/

namespace Proposal

open Spec

/-- States that start at the place and time of a loss, with energy and unit direction. -/
structure Spec.FromLoss (l : SLoss) (ps : List Part) : Prop where
  physical : ∀ p ∈ ps, PhysicalState p
  origin : ∀ p ∈ ps, p.pos = l.pos ∧ p.time = l.time

/-- Together the states carry the four-momentum of the incoming particle of mass `m` and of an electron at rest. -/
structure Spec.Scatters (m : ℝ) (l : SLoss) (ps : List Part) : Prop extends FromLoss l ps where
  energy : totalEnergy ps = l.parentEnergy + ME
  momentum : totalMomentum ps = Real.sqrt (l.parentEnergy ^ 2 - m ^ 2) • l.dir

theorem me_pos : 0 < ME := by norm_num [ME]

theorem fmod_trig (θ : ℝ) : Real.cos (fmod (θ + Real.pi) (2 * Real.pi)) = -Real.cos θ ∧
    Real.sin (fmod (θ + Real.pi) (2 * Real.pi)) = -Real.sin θ := by
  have : ∃ n : ℤ, fmod (θ + Real.pi) (2 * Real.pi) = θ + Real.pi - n * (2 * Real.pi) := by
    unfold fmod
    split_ifs
    · exact ⟨_, by ring⟩
    · exact ⟨_, by ring⟩
  obtain ⟨n, h⟩ := this
  rw [h, Real.cos_sub_int_mul_two_pi, Real.sin_sub_int_mul_two_pi, Real.cos_add_pi, Real.sin_add_pi]
  exact ⟨rfl, rfl⟩

theorem opposite_momentum (dir : Vec3) (c0 c1 θ p0 p1 P : ℝ) (h0 : 0 ≤ p0) (h1 : 0 ≤ p1) (hc0 : c0 ^ 2 ≤ 1) (hc1 : c1 ^ 2 ≤ 1)
    (hl : p0 * c0 + p1 * c1 = P) (ht : p0 ^ 2 * (1 - c0 ^ 2) = p1 ^ 2 * (1 - c1 ^ 2)) :
    p0 • (opposite dir c0 c1 θ).1 + p1 • (opposite dir c0 c1 θ).2 = P • dir := by
  have hs : p0 * Real.sqrt (1 - c0 ^ 2) = p1 * Real.sqrt (1 - c1 ^ 2) := by
    rw [← Real.sqrt_sq h0, ← Real.sqrt_sq h1, ← Real.sqrt_mul (sq_nonneg _), ← Real.sqrt_mul (sq_nonneg _), ht]
  obtain ⟨t1, t2⟩ := fmod_trig θ
  have a0 := abs_le.1 ((sq_le_one_iff_abs_le_one c0).1 hc0)
  have a1 := abs_le.1 ((sq_le_one_iff_abs_le_one c1).1 hc1)
  unfold opposite
  simp only
  rw [Vec3.deflect_formula dir c0 θ a0.1 a0.2, Vec3.deflect_formula dir c1 _ a1.1 a1.2, t1, t2]
  ext
  · simp only [Vec3.add_x, Vec3.smul_x]
    linear_combination dir.x * hl + (Real.cos θ * dir.rotX.x + Real.sin θ * dir.rotY.x) * hs
  · simp only [Vec3.add_y, Vec3.smul_y]
    linear_combination dir.y * hl + (Real.cos θ * dir.rotX.y + Real.sin θ * dir.rotY.y) * hs
  · simp only [Vec3.add_z, Vec3.smul_z]
    linear_combination dir.z * hl + (Real.cos θ * dir.rotX.z + Real.sin θ * dir.rotY.z) * hs

theorem opposite_unit (dir : Vec3) (c0 c1 θ : ℝ) (h : UnitVec dir) : UnitVec (opposite dir c0 c1 θ).1 ∧ UnitVec (opposite dir c0 c1 θ).2 :=
  ⟨C45_deflect_unit dir h _ _, C45_deflect_unit dir h _ _⟩

theorem total_two (p q : Part) : totalEnergy [p, q] = p.energy + q.energy ∧
    totalMomentum [p, q] = Spec.momentum p + Spec.momentum q := by
  constructor
  · simp [totalEnergy]
  · ext <;> simp [totalMomentum]

/-! ## Compton scattering -/

/-- C41: the photon and the electron of a Compton scattering within the kinematic limits carry the four-momentum of the
photon and of the electron at rest. -/
theorem C41_compton (l : SLoss) (rnd : ℝ) (hd : UnitVec l.dir) (hE : 0 < l.parentEnergy) (hv0 : 0 < l.energy)
    (hv1 : l.energy / l.parentEnergy ≤ (limCompton l.parentEnergy).vMax) :
    ∃ ps, comptonSecondaries l rnd = some ps ∧ ps.map Part.type = [22, 11] ∧ Scatters 0 l ps := by
  obtain ⟨k, pos, dir, time, dist, E⟩ := l
  simp only at hd hE hv0 hv1
  have hm := me_pos
  set v := k / E with hv
  have hvpos : 0 < v := by positivity
  have hlim : v * (2 * E + ME) ≤ 2 * E := by
    simp only [limCompton] at hv1
    have e : 1 - 1 / (1 + 2 * E / ME) = 2 * E / (2 * E + ME) := by field_simp; ring
    rw [e, le_div_iff₀ (by positivity)] at hv1
    exact hv1
  have hv1' : v < 1 := by nlinarith
  set p2 := 2 * v * E * ME + v * v * E * E with hp2
  have hp2pos : 0 < p2 := by positivity
  have hsq : Real.sqrt p2 ^ 2 = p2 := Real.sq_sqrt hp2pos.le
  have hspos : 0 < Real.sqrt p2 := Real.sqrt_pos.2 hp2pos
  have hE1 : 0 < E * (1 - v) := mul_pos hE (by linarith)
  set cg := 1 - (v * ME) / (E * (1 - v)) with hcg
  set ce := v * (E + ME) / Real.sqrt p2 with hce
  have eg : E * (1 - v) * cg = E * (1 - v) - v * ME := by
    rw [hcg, mul_sub, mul_div_cancel₀ _ hE1.ne', mul_one]
  have ee : Real.sqrt p2 * ce = v * (E + ME) := by rw [hce, mul_div_cancel₀ _ hspos.ne']
  have tg : (E * (1 - v)) ^ 2 * (1 - cg ^ 2) = v * ME * (2 * E * (1 - v) - v * ME) := by
    linear_combination (-(E * (1 - v) * cg) - (E * (1 - v) - v * ME)) * eg
  have te : Real.sqrt p2 ^ 2 * (1 - ce ^ 2) = v * ME * (2 * E * (1 - v) - v * ME) := by
    linear_combination (-(Real.sqrt p2 * ce) - v * (E + ME)) * ee + hsq + hp2
  have hq : 0 ≤ v * ME * (2 * E * (1 - v) - v * ME) := mul_nonneg (by positivity) (by linarith)
  have cg1 : cg ^ 2 ≤ 1 := by
    rw [← tg] at hq
    have := nonneg_of_mul_nonneg_right hq (by positivity)
    linarith
  have ce1 : ce ^ 2 ≤ 1 := by
    rw [← te] at hq
    have := nonneg_of_mul_nonneg_right hq (by positivity)
    linarith
  obtain ⟨u1, u2⟩ := opposite_unit dir cg ce (rnd * 2 * Real.pi) hd
  have mom := opposite_momentum dir cg ce (rnd * 2 * Real.pi) (E * (1 - v)) (Real.sqrt p2) E hE1.le hspos.le cg1 ce1
    (by rw [eg, ee]; ring) (by rw [tg, te])
  have hdir : comptonDirections dir E v rnd = some (opposite dir cg ce (rnd * 2 * Real.pi)) := by
    unfold comptonDirections
    rw [if_neg (by push Not; exact ⟨hE1.ne', hspos.ne'⟩)]
  have hsec : comptonSecondaries ⟨k, pos, dir, time, dist, E⟩ rnd =
      some [SLoss.state ⟨k, pos, dir, time, dist, E⟩ sGamma (opposite dir cg ce (rnd * 2 * Real.pi)).1 (E * (1 - v)) 0,
        SLoss.state ⟨k, pos, dir, time, dist, E⟩ sEMinus (opposite dir cg ce (rnd * 2 * Real.pi)).2 (ME + E * v) 0] := by
    simp only [comptonSecondaries, ← hv, hdir]
  refine ⟨_, hsec, rfl, ⟨?_, ?_⟩, ?_, ?_⟩
  · intro p hp
    simp only [List.mem_cons, List.not_mem_nil, or_false] at hp
    rcases hp with rfl | rfl
    · exact ⟨le_rfl, hE1.le, u1⟩
    · exact ⟨hm.le, by simp only [SLoss.state, sEMinus]; nlinarith, u2⟩
  · intro p hp
    simp only [List.mem_cons, List.not_mem_nil, or_false] at hp
    rcases hp with rfl | rfl <;> exact ⟨rfl, rfl⟩
  · rw [(total_two _ _).1]; simp only [SLoss.state]; ring
  · rw [(total_two _ _).2]
    simp only [Spec.momentum, SLoss.state, sGamma, sEMinus]
    have e1 : Real.sqrt ((E * (1 - v)) ^ 2 - 0 ^ 2) = E * (1 - v) := by
      rw [zero_pow two_ne_zero, sub_zero, Real.sqrt_sq hE1.le]
    have e2 : (ME + E * v) ^ 2 - ME ^ 2 = p2 := by rw [hp2]; ring
    have e3 : Real.sqrt (E ^ 2 - 0 ^ 2) = E := by rw [zero_pow two_ne_zero, sub_zero, Real.sqrt_sq hE.le]
    rw [e1, e2, e3, mom]

/-- A photon of 1 MeV that loses half its energy. -/
example : ∃ ps, comptonSecondaries ⟨0.5, ⟨0, 0, 0⟩, ⟨0, 0, 1⟩, 0, 0, 1⟩ 0.25 = some ps ∧ totalEnergy ps = 1 + ME := by
  obtain ⟨ps, h1, -, h2⟩ := C41_compton ⟨0.5, ⟨0, 0, 0⟩, ⟨0, 0, 1⟩, 0, 0, 1⟩ 0.25 (by norm_num [UnitVec]) (by norm_num) (by norm_num)
    (by norm_num [limCompton, ME])
  exact ⟨ps, h1, h2.energy⟩

/-! ## Ionization -/

/-- The kinematics of elastic scattering off an electron at rest, for a momentum of the electron that is allowed. -/
theorem ionization_core (primary : Daughter) (l : SLoss) (rnd : ℝ) (hd : UnitVec l.dir) (hm0 : 0 < primary.mass)
    (hE : primary.mass < l.parentEnergy) (hv0 : 0 < l.energy) (hv1 : primary.mass < l.parentEnergy - l.energy)
    (hT : l.energy * (primary.mass ^ 2 + ME ^ 2 + 2 * l.parentEnergy * ME) ≤ 2 * ME * (l.parentEnergy ^ 2 - primary.mass ^ 2)) :
    ∃ ps, ionizationSecondaries primary l rnd = some ps ∧ ps.map Part.type = [primary.type, 11] ∧ Scatters primary.mass l ps := by
  obtain ⟨T, pos, dir, time, dist, E⟩ := l
  obtain ⟨type, m⟩ := primary
  simp only at hd hE hv0 hv1 hT hm0
  have hme := me_pos
  have hE0 : 0 < E := hm0.trans hE
  set v := T / E with hv
  have hvE : E * v = T := by rw [hv]; field_simp
  set Ef := E * (1 - v) with hEf
  set Ee := E * v + ME with hEe
  have hEf' : Ef = E - T := by rw [hEf, mul_sub, hvE]; ring
  have hEe' : Ee = T + ME := by rw [hEe, hvE]
  set pi2 := (E + m) * (E - m) with hpi
  set pf2 := (Ef + m) * (Ef - m) with hpf
  set pe2 := (Ee + ME) * (Ee - ME) with hpe
  have pi_pos : 0 < pi2 := mul_pos (by linarith) (by linarith)
  have pf_pos : 0 < pf2 := mul_pos (by rw [hEf']; linarith) (by rw [hEf']; linarith)
  have pe_pos : 0 < pe2 := mul_pos (by rw [hEe']; linarith) (by rw [hEe']; linarith)
  have si : Real.sqrt pi2 ^ 2 = pi2 := Real.sq_sqrt pi_pos.le
  have sf : Real.sqrt pf2 ^ 2 = pf2 := Real.sq_sqrt pf_pos.le
  have se : Real.sqrt pe2 ^ 2 = pe2 := Real.sq_sqrt pe_pos.le
  have ti := Real.sqrt_pos.2 pi_pos
  have tf := Real.sqrt_pos.2 pf_pos
  have te := Real.sqrt_pos.2 pe_pos
  set A := (E + ME) * Ef - E * ME - m * m with hA
  set B := (E + ME) * Ee - E * ME - ME * ME with hB
  set c0 := A / (Real.sqrt pi2 * Real.sqrt pf2) with hc0
  set c1 := B / (Real.sqrt pi2 * Real.sqrt pe2) with hc1
  have e0 : Real.sqrt pi2 * (Real.sqrt pf2 * c0) = A := by rw [hc0]; field_simp
  have e1 : Real.sqrt pi2 * (Real.sqrt pe2 * c1) = B := by rw [hc1]; field_simp
  have hB' : B = T * (E + ME) := by rw [hB, hEe']; ring
  have hAB : A + B = pi2 := by rw [hA, hB', hpi, hEf']; ring
  have hQ : pi2 * pe2 - B ^ 2 = T * (2 * ME * (E ^ 2 - m ^ 2) - T * (m ^ 2 + ME ^ 2 + 2 * E * ME)) := by
    rw [hB', hpi, hpe, hEe']; ring
  have hQ' : pi2 * pf2 - A ^ 2 = pi2 * pe2 - B ^ 2 := by
    have : A = pi2 - B := by linarith
    rw [this, hB', hpi, hpf, hpe, hEf', hEe']; ring
  have hQ0 : 0 ≤ pi2 * pe2 - B ^ 2 := by
    rw [hQ]; exact mul_nonneg hv0.le (by linarith)
  have t0 : pi2 * (Real.sqrt pf2 ^ 2 * (1 - c0 ^ 2)) = pi2 * pe2 - B ^ 2 := by
    rw [← hQ']
    linear_combination (-(Real.sqrt pi2 * (Real.sqrt pf2 * c0)) - A) * e0 + (Real.sqrt pf2 ^ 2 * c0 ^ 2) * si + pi2 * sf
  have t1 : pi2 * (Real.sqrt pe2 ^ 2 * (1 - c1 ^ 2)) = pi2 * pe2 - B ^ 2 := by
    linear_combination (-(Real.sqrt pi2 * (Real.sqrt pe2 * c1)) - B) * e1 + (Real.sqrt pe2 ^ 2 * c1 ^ 2) * si + pi2 * se
  have b0 : c0 ^ 2 ≤ 1 := by
    rw [← t0] at hQ0
    have := nonneg_of_mul_nonneg_right (nonneg_of_mul_nonneg_right hQ0 pi_pos) (by positivity)
    linarith
  have hQ0' : 0 ≤ pi2 * pe2 - B ^ 2 := by
    rw [hQ]; exact mul_nonneg hv0.le (by linarith)
  have b1 : c1 ^ 2 ≤ 1 := by
    rw [← t1] at hQ0'
    have := nonneg_of_mul_nonneg_right (nonneg_of_mul_nonneg_right hQ0' pi_pos) (by positivity)
    linarith
  have hlong : Real.sqrt pf2 * c0 + Real.sqrt pe2 * c1 = Real.sqrt pi2 := by
    have : Real.sqrt pi2 * (Real.sqrt pf2 * c0 + Real.sqrt pe2 * c1) = Real.sqrt pi2 * Real.sqrt pi2 := by
      rw [mul_add, e0, e1, hAB, ← sq, si]
    exact mul_left_cancel₀ ti.ne' this
  obtain ⟨u1, u2⟩ := opposite_unit dir c0 c1 (rnd * 2 * Real.pi) hd
  have mom := opposite_momentum dir c0 c1 (rnd * 2 * Real.pi) (Real.sqrt pf2) (Real.sqrt pe2) (Real.sqrt pi2) tf.le te.le b0 b1 hlong
    (mul_left_cancel₀ pi_pos.ne' (t0.trans t1.symm))
  have hdir : ionizationDirections m dir E v rnd = some (opposite dir c0 c1 (rnd * 2 * Real.pi)) := by
    unfold ionizationDirections
    simp only
    rw [if_neg]
    push Not
    exact ⟨pi_pos, pf_pos, pe_pos⟩
  have hsec : ionizationSecondaries ⟨type, m⟩ ⟨T, pos, dir, time, dist, E⟩ rnd =
      some [SLoss.state ⟨T, pos, dir, time, dist, E⟩ ⟨type, m⟩ (opposite dir c0 c1 (rnd * 2 * Real.pi)).1 (E * (1 - v)) 0,
        SLoss.state ⟨T, pos, dir, time, dist, E⟩ sEMinus (opposite dir c0 c1 (rnd * 2 * Real.pi)).2 (E * v + ME) 0] := by
    simp only [ionizationSecondaries, ← hv, hdir]
  refine ⟨_, hsec, rfl, ⟨?_, ?_⟩, ?_, ?_⟩
  · intro p hp
    simp only [List.mem_cons, List.not_mem_nil, or_false] at hp
    rcases hp with rfl | rfl
    · exact ⟨hm0.le, by simp only [SLoss.state]; rw [← hEf, hEf']; linarith, u1⟩
    · exact ⟨hme.le, by simp only [SLoss.state, sEMinus]; rw [hvE]; linarith, u2⟩
  · intro p hp
    simp only [List.mem_cons, List.not_mem_nil, or_false] at hp
    rcases hp with rfl | rfl <;> exact ⟨rfl, rfl⟩
  · rw [(total_two _ _).1]; simp only [SLoss.state]; ring
  · rw [(total_two _ _).2]
    simp only [Spec.momentum, SLoss.state, sEMinus]
    rw [← hEf, ← hEe]
    have r1 : Ef ^ 2 - m ^ 2 = pf2 := by rw [hpf]; ring
    have r2 : Ee ^ 2 - ME ^ 2 = pe2 := by rw [hpe]; ring
    have r3 : E ^ 2 - m ^ 2 = pi2 := by rw [hpi]; ring
    rw [r1, r2, r3, mom]

/-- C42: the primary and the delta electron of an ionization carry the four-momentum of the primary and of the electron at
rest, for every loss up to the kinematic limit of heavy particles. -/
theorem C42_ionization (primary : Daughter) (I : ℝ) (l : SLoss) (rnd : ℝ) (hd : UnitVec l.dir) (hm0 : 0 < primary.mass)
    (hm : primary.mass ≠ ME) (hE : primary.mass < l.parentEnergy) (hv0 : 0 < l.energy)
    (hv : l.energy / l.parentEnergy ≤ (limBetheBloch primary.mass I l.parentEnergy).vMax)
    (hopen : (limBetheBloch primary.mass I l.parentEnergy).vMin < (limBetheBloch primary.mass I l.parentEnergy).vMax) :
    ∃ ps, ionizationSecondaries primary l rnd = some ps ∧ ps.map Part.type = [primary.type, 11] ∧ Scatters primary.mass l ps := by
  have hme := me_pos
  have hE0 : 0 < l.parentEnergy := hm0.trans hE
  set m := primary.mass with hmdef
  set E := l.parentEnergy with hEdef
  have hmin : l.energy / E ≤ min (2 * ME * (E / m * (E / m) - 1) / ((1 + 2 * (E / m) * (ME / m) + ME / m * (ME / m)) * E)) (1 - m / E) := by
    simp only [limBetheBloch, KinLim.raised] at hv hopen
    split_ifs at hv hopen with h
    · simp at hopen
    · exact hv
  have h1 := hmin.trans (min_le_left _ _)
  have h2 := hmin.trans (min_le_right _ _)
  have hT : l.energy * (m ^ 2 + ME ^ 2 + 2 * E * ME) ≤ 2 * ME * (E ^ 2 - m ^ 2) := by
    have e : 2 * ME * (E / m * (E / m) - 1) / ((1 + 2 * (E / m) * (ME / m) + ME / m * (ME / m)) * E) =
        2 * ME * (E ^ 2 - m ^ 2) / ((m ^ 2 + ME ^ 2 + 2 * E * ME) * E) := by
      rw [div_eq_div_iff (by positivity) (by positivity)]
      field_simp
      ring
    rw [e, div_le_div_iff₀ hE0 (by positivity)] at h1
    have : E * (l.energy * (m ^ 2 + ME ^ 2 + 2 * E * ME)) ≤ E * (2 * ME * (E ^ 2 - m ^ 2)) := by linarith
    exact le_of_mul_le_mul_left this hE0
  apply ionization_core primary l rnd hd hm0 hE hv0 ?_ hT
  by_contra hcon
  push Not at hcon
  have hle : m ≤ E - l.energy := by
    rw [div_le_iff₀ hE0, sub_mul, one_mul, div_mul_cancel₀ _ hE0.ne'] at h2
    linarith
  have heq : l.energy = E - m := by linarith
  rw [heq] at hT
  have hpos : 0 < (m - ME) ^ 2 := by
    have : m - ME ≠ 0 := sub_ne_zero.2 hm
    positivity
  have : 0 < (E - m) * (m - ME) ^ 2 := mul_pos (by linarith) hpos
  nlinarith

/-- C42: the same for electrons and positrons, for every loss below the kinematic limit of positrons. -/
theorem C42_electron_partial (type : ℤ) (l : SLoss) (rnd : ℝ) (hd : UnitVec l.dir) (hE : ME < l.parentEnergy) (hv0 : 0 < l.energy)
    (hv : l.energy / l.parentEnergy < (limBhabha ME l.parentEnergy).vMax) :
    ∃ ps, ionizationSecondaries ⟨type, ME⟩ l rnd = some ps ∧ ps.map Part.type = [type, 11] ∧ Scatters ME l ps := by
  have hme := me_pos
  have hE0 : 0 < l.parentEnergy := hme.trans hE
  have h2 : l.energy / l.parentEnergy < 1 - ME / l.parentEnergy := by
    simp only [limBhabha, KinLim.clamped] at hv
    split_ifs at hv with h
    · have : 0 < l.energy / l.parentEnergy := by positivity
      simp at hv
      linarith
    · exact hv
  rw [div_lt_iff₀ hE0, sub_mul, one_mul, div_mul_cancel₀ _ hE0.ne'] at h2
  apply ionization_core ⟨type, ME⟩ l rnd hd hme hE hv0
  · simp only; linarith
  · simp only
    have := mul_le_mul_of_nonneg_left h2.le (by positivity : 0 ≤ 2 * ME * (l.parentEnergy + ME))
    nlinarith

/-- C42 fails at the limit itself: a positron that gives all its kinetic energy to the electron gets a NaN direction. -/
theorem C42_at_limit (type : ℤ) (l : SLoss) (rnd : ℝ) (hE : ME < l.parentEnergy)
    (hv : l.energy / l.parentEnergy = (limBhabha ME l.parentEnergy).vMax) : ionizationSecondaries ⟨type, ME⟩ l rnd = none := by
  have hme := me_pos
  have hE0 : 0 < l.parentEnergy := hme.trans hE
  have h1 : ME / l.parentEnergy < 1 := (div_lt_one hE0).2 hE
  have hv' : l.energy / l.parentEnergy = 1 - ME / l.parentEnergy := by
    rw [hv]
    simp only [limBhabha, KinLim.clamped]
    rw [if_neg (by simp only [not_lt]; linarith)]
  have : ionizationDirections ME l.dir l.parentEnergy (l.energy / l.parentEnergy) rnd = none := by
    unfold ionizationDirections
    simp only
    rw [if_pos]
    right; left
    have : l.parentEnergy * (1 - l.energy / l.parentEnergy) = ME := by rw [hv']; field_simp; ring
    rw [this, sub_self, mul_zero]
  unfold ionizationSecondaries
  simp only [this]

/-- A muon of 1 GeV and a delta electron of 10 MeV. -/
example : ∃ ps, ionizationSecondaries sMuMinus ⟨10, ⟨0, 0, 0⟩, ⟨0, 0, 1⟩, 0, 0, 1000⟩ 0.25 = some ps ∧ totalEnergy ps = 1000 + ME := by
  obtain ⟨ps, h1, -, h2⟩ := ionization_core sMuMinus ⟨10, ⟨0, 0, 0⟩, ⟨0, 0, 1⟩, 0, 0, 1000⟩ 0.25 (by norm_num [UnitVec])
    (by norm_num [sMuMinus, MMU]) (by norm_num [sMuMinus, MMU]) (by norm_num) (by norm_num [sMuMinus, MMU])
    (by norm_num [sMuMinus, ME, MMU])
  exact ⟨ps, h1, h2.energy⟩

/-! ## Annihilation -/

theorem heitlerLimits_spec (γ : ℝ) (h : 1 < γ) :
    0 < (heitlerLimits γ).1 ∧ (heitlerLimits γ).1 < (heitlerLimits γ).2 ∧ (heitlerLimits γ).2 < 1 ∧
    ∀ ρ, (heitlerLimits γ).1 ≤ ρ → ρ ≤ (heitlerLimits γ).2 → 1 / (2 * (γ + 1)) ≤ ρ * (1 - ρ) := by
  unfold heitlerLimits
  rw [if_neg (not_le.2 h)]
  have h1 : 0 < (γ - 1) / (γ + 1) := div_pos (by linarith) (by linarith)
  have h2 : (γ - 1) / (γ + 1) < 1 := (div_lt_one (by linarith)).2 (by linarith)
  have hs := Real.sq_sqrt h1.le
  have hp := Real.sqrt_pos.2 h1
  set a := Real.sqrt ((γ - 1) / (γ + 1)) with ha
  have ha1 : a < 1 := by nlinarith
  refine ⟨by norm_num; linarith, by norm_num; linarith, by norm_num; linarith, ?_⟩
  intro ρ g1 g2
  simp only at g1 g2
  have e : 1 / (2 * (γ + 1)) = 0.25 * (1 - a ^ 2) := by
    rw [hs]; have : γ + 1 ≠ 0 := by linarith
    field_simp; ring
  rw [e]
  nlinarith

/-- C43: the share of the second photon always exists and lies between the kinematic limits. -/
theorem C43_share (m E rnd : ℝ) (hm : 0 < m) (hE : m < E) (h0 : 0 ≤ rnd) (h1 : rnd ≤ 1) :
    ∃ ρ, heitlerRho m E rnd = .ok ρ ∧ 0 < ρ ∧ ρ < 1 ∧ m / (2 * (E + m)) ≤ ρ * (1 - ρ) := by
  have hγ : 1 < E / m := (one_lt_div hm).2 hE
  obtain ⟨l1, l2, l3, l4⟩ := heitlerLimits_spec (E / m) hγ
  have hsign : heitlerFunction (E / m) rnd (heitlerLimits (E / m)).1 * heitlerFunction (E / m) rnd (heitlerLimits (E / m)).2 ≤ 0 := by
    unfold heitlerFunction
    simp only
    generalize heitlerTerm (1 + 2 * (E / m) * (1 / (E / m + 1) ^ 2)) (1 / (E / m + 1) ^ 2) (heitlerLimits (E / m)).1 = A
    generalize heitlerTerm (1 + 2 * (E / m) * (1 / (E / m + 1) ^ 2)) (1 / (E / m + 1) ^ 2) (heitlerLimits (E / m)).2 = B
    have : 0 ≤ rnd * (1 - rnd) * (B - A) ^ 2 := mul_nonneg (mul_nonneg h0 (by linarith)) (sq_nonneg _)
    nlinarith
  obtain ⟨a, b, e, b1, b2, b3, -, -⟩ := (C51_bisection (heitlerFunction (E / m) rnd) (heitlerLimits (E / m)).1 (heitlerLimits (E / m)).2
    ((heitlerLimits (E / m)).1 * E * 1e-5) 100).2 hsign
  rw [min_eq_left l2.le] at b1
  rw [max_eq_right l2.le] at b3
  refine ⟨a, ?_, by linarith, by linarith, ?_⟩
  · simp only [heitlerRho, e]
  · have := l4 a b1 (by linarith)
    have e2 : m / (2 * (E + m)) = 1 / (2 * (E / m + 1)) := by
      have : E + m ≠ 0 := by linarith
      field_simp
    rw [e2]; exact this

/-- C43: the two photons of the annihilation of a moving positron carry the four-momentum of the positron and of the
electron at rest. -/
theorem C43_annihilation (l : SLoss) (rnd0 rnd1 : ℝ) (hd : UnitVec l.dir) (hE : ME < l.parentEnergy) (h0 : 0 ≤ rnd0) (h1 : rnd0 ≤ 1) :
    ∃ ps, annihilationSecondaries ME l rnd0 rnd1 = .ok (some ps) ∧ ps.map Part.type = [22, 22] ∧ Scatters ME l ps := by
  obtain ⟨k, pos, dir, time, dist, E⟩ := l
  simp only at hd hE
  have hme := me_pos
  obtain ⟨ρ, e, r0, r1, r2⟩ := C43_share ME E rnd0 hme hE h0 h1
  have hs : 0 < E + ME := by linarith
  rw [div_le_iff₀ (by positivity)] at r2
  set p2 := (E + ME) * (E - ME) with hp2
  have hp : 0 < p2 := mul_pos hs (by linarith)
  have sq := Real.sq_sqrt hp.le
  have sp := Real.sqrt_pos.2 hp
  set c0 := ((E + ME) * (1 - ρ) - ME) / ((1 - ρ) * Real.sqrt p2) with hc0
  set c1 := ((E + ME) * ρ - ME) / (ρ * Real.sqrt p2) with hc1
  have hr1 : 0 < 1 - ρ := by linarith
  have e0 : (1 - ρ) * Real.sqrt p2 * c0 = (E + ME) * (1 - ρ) - ME := by rw [hc0]; field_simp
  have e1 : ρ * Real.sqrt p2 * c1 = (E + ME) * ρ - ME := by rw [hc1]; field_simp
  set Q := 2 * ME * (E + ME) * (1 - ρ) * ρ - ME ^ 2 with hQ
  have hQ0 : 0 ≤ Q := by rw [hQ]; nlinarith
  have t0 : p2 * ((1 - ρ) ^ 2 * (1 - c0 ^ 2)) = Q := by
    rw [hQ]
    linear_combination (-((1 - ρ) * Real.sqrt p2 * c0) - ((E + ME) * (1 - ρ) - ME)) * e0 + ((1 - ρ) ^ 2 * c0 ^ 2) * sq +
      (1 - ρ) ^ 2 * hp2
  have t1 : p2 * (ρ ^ 2 * (1 - c1 ^ 2)) = Q := by
    rw [hQ]
    linear_combination (-(ρ * Real.sqrt p2 * c1) - ((E + ME) * ρ - ME)) * e1 + (ρ ^ 2 * c1 ^ 2) * sq + ρ ^ 2 * hp2
  have b0 : c0 ^ 2 ≤ 1 := by
    have h : 0 ≤ p2 * ((1 - ρ) ^ 2 * (1 - c0 ^ 2)) := by rw [t0]; exact hQ0
    have := nonneg_of_mul_nonneg_right (nonneg_of_mul_nonneg_right h hp) (by positivity)
    linarith
  have b1 : c1 ^ 2 ≤ 1 := by
    have h : 0 ≤ p2 * (ρ ^ 2 * (1 - c1 ^ 2)) := by rw [t1]; exact hQ0
    have := nonneg_of_mul_nonneg_right (nonneg_of_mul_nonneg_right h hp) (by positivity)
    linarith
  have hlong : (E + ME) * (1 - ρ) * c0 + (E + ME) * ρ * c1 = Real.sqrt p2 := by
    have : Real.sqrt p2 * ((E + ME) * (1 - ρ) * c0 + (E + ME) * ρ * c1) = Real.sqrt p2 * Real.sqrt p2 := by
      linear_combination (E + ME) * e0 + (E + ME) * e1 - sq - hp2
    exact mul_left_cancel₀ sp.ne' this
  obtain ⟨u1, u2⟩ := opposite_unit dir c0 c1 (rnd1 * 2 * Real.pi) hd
  have mom := opposite_momentum dir c0 c1 (rnd1 * 2 * Real.pi) ((E + ME) * (1 - ρ)) ((E + ME) * ρ) (Real.sqrt p2) (by positivity)
    (by positivity) b0 b1 hlong (by
      apply mul_left_cancel₀ hp.ne'
      linear_combination (E + ME) ^ 2 * t0 - (E + ME) ^ 2 * t1)
  have hdir : annihilationDirections dir E ρ rnd1 = some (opposite dir c0 c1 (rnd1 * 2 * Real.pi)) := by
    unfold annihilationDirections
    simp only
    rw [if_neg]
    push Not
    exact ⟨hp, r0.ne', r1.ne⟩
  have hsec : annihilationSecondaries ME ⟨k, pos, dir, time, dist, E⟩ rnd0 rnd1 =
      .ok (some [SLoss.state ⟨k, pos, dir, time, dist, E⟩ sGamma (opposite dir c0 c1 (rnd1 * 2 * Real.pi)).1 ((E + ME) * (1 - ρ)) 0,
        SLoss.state ⟨k, pos, dir, time, dist, E⟩ sGamma (opposite dir c0 c1 (rnd1 * 2 * Real.pi)).2 ((E + ME) * ρ) 0]) := by
    simp only [annihilationSecondaries, e, hdir]
  refine ⟨_, hsec, rfl, ⟨?_, ?_⟩, ?_, ?_⟩
  · intro p hp
    simp only [List.mem_cons, List.not_mem_nil, or_false] at hp
    rcases hp with rfl | rfl
    · exact ⟨le_rfl, by simp only [SLoss.state, sGamma]; positivity, u1⟩
    · exact ⟨le_rfl, by simp only [SLoss.state, sGamma]; positivity, u2⟩
  · intro p hp
    simp only [List.mem_cons, List.not_mem_nil, or_false] at hp
    rcases hp with rfl | rfl <;> exact ⟨rfl, rfl⟩
  · rw [(total_two _ _).1]; simp only [SLoss.state]; ring
  · rw [(total_two _ _).2]
    simp only [Spec.momentum, SLoss.state, sGamma]
    have r1 : Real.sqrt (((E + ME) * (1 - ρ)) ^ 2 - 0 ^ 2) = (E + ME) * (1 - ρ) := by
      rw [zero_pow two_ne_zero, sub_zero, Real.sqrt_sq (by positivity)]
    have r2 : Real.sqrt (((E + ME) * ρ) ^ 2 - 0 ^ 2) = (E + ME) * ρ := by
      rw [zero_pow two_ne_zero, sub_zero, Real.sqrt_sq (by positivity)]
    have r3 : E ^ 2 - ME ^ 2 = p2 := by rw [hp2]; ring
    rw [r1, r2, r3, mom]

/-- A positron of 10 MeV. -/
example : ∃ ps, annihilationSecondaries ME ⟨10, ⟨0, 0, 0⟩, ⟨0, 0, 1⟩, 0, 0, 10⟩ 0.5 0.25 = .ok (some ps) ∧ totalEnergy ps = 10 + ME := by
  obtain ⟨ps, h1, -, h2⟩ := C43_annihilation ⟨10, ⟨0, 0, 0⟩, ⟨0, 0, 1⟩, 0, 0, 10⟩ 0.5 0.25 (by norm_num [UnitVec]) (by norm_num [ME])
    (by norm_num) (by norm_num)
  exact ⟨ps, h1, h2.energy⟩

/-! ## Other processes -/

/-- The states carry the energy `E`. -/
structure Spec.CarryEnergy (E : ℝ) (l : SLoss) (ps : List Part) : Prop extends FromLoss l ps where
  energy : totalEnergy ps = E

theorem mag_smul_sub (a b : Vec3) (p k : ℝ) (ha : UnitVec a) (hb : UnitVec b) (h0 : 0 ≤ k) (h : k < p) : (p • a - k • b).mag ≠ 0 := by
  unfold UnitVec at ha hb
  intro hz
  unfold Vec3.mag at hz
  have hn : 0 < (p • a - k • b).x * (p • a - k • b).x + (p • a - k • b).y * (p • a - k • b).y + (p • a - k • b).z * (p • a - k • b).z := by
    simp only [Vec3.sub_x, Vec3.sub_y, Vec3.sub_z, Vec3.smul_x, Vec3.smul_y, Vec3.smul_z]
    have hcs : a.x * b.x + a.y * b.y + a.z * b.z ≤ 1 := by nlinarith [sq_nonneg (a.x - b.x), sq_nonneg (a.y - b.y), sq_nonneg (a.z - b.z)]
    have e : (p * a.x - k * b.x) * (p * a.x - k * b.x) + (p * a.y - k * b.y) * (p * a.y - k * b.y) + (p * a.z - k * b.z) * (p * a.z - k * b.z) =
        p ^ 2 + k ^ 2 - 2 * (p * k) * (a.x * b.x + a.y * b.y + a.z * b.z) := by
      linear_combination p ^ 2 * ha + k ^ 2 * hb
    rw [e]
    have hpk : 0 ≤ p * k := mul_nonneg (by linarith) h0
    have := mul_le_mul_of_nonneg_left hcs hpk
    have : 0 < (p - k) ^ 2 := by have : 0 < p - k := by linarith
                                 positivity
    nlinarith
  exact (Real.sqrt_pos.2 hn).ne' hz

theorem normalize_unitVec (a b : Vec3) (h : a.normalize = some b) : UnitVec b := by
  unfold Vec3.normalize at h
  split_ifs at h with h0
  injection h with h
  subst h
  unfold UnitVec
  have hpos : 0 ≤ a.x * a.x + a.y * a.y + a.z * a.z := by nlinarith [sq_nonneg a.x, sq_nonneg a.y, sq_nonneg a.z]
  have hs : a.mag ^ 2 = a.x * a.x + a.y * a.y + a.z * a.z := Real.sq_sqrt hpos
  simp only
  field_simp
  rw [hs]; ring

/-- C44: bremsstrahlung, for every angular distribution and every loss up to the kinetic energy. -/
theorem C44_bremsstrahlung (a : BremsAngle) (primary : Daughter) (l : SLoss) (rnd : ℝ) (hd : UnitVec l.dir) (hm : 0 < primary.mass)
    (hE : primary.mass < l.parentEnergy) (h0 : 0 ≤ l.energy)
    (h1 : l.energy / l.parentEnergy ≤ (limBremsDefault primary.mass l.parentEnergy).vMax) :
    ∃ ps, bremsSecondaries a primary l rnd = some ps ∧ ps.map Part.type = [primary.type, 22] ∧ CarryEnergy l.parentEnergy l ps := by
  have hE0 : 0 < l.parentEnergy := hm.trans hE
  have hk : l.energy ≤ l.parentEnergy - primary.mass := by
    simp only [limBremsDefault] at h1
    rw [div_le_iff₀ hE0, sub_mul, one_mul, div_mul_cancel₀ _ hE0.ne'] at h1
    exact h1
  have hdirs : ∃ d, bremsDirections a primary.mass l.dir l.parentEnergy l.energy rnd = some d ∧ UnitVec d.1 ∧ UnitVec d.2 := by
    have hq : 0 < (l.parentEnergy + primary.mass) * (l.parentEnergy - primary.mass) := mul_pos (by linarith) (by linarith)
    have hlt : l.energy < Real.sqrt ((l.parentEnergy + primary.mass) * (l.parentEnergy - primary.mass)) := by
      rw [Real.lt_sqrt h0]
      nlinarith
    have key : ∀ phi, ∃ d, ((Real.sqrt ((l.parentEnergy + primary.mass) * (l.parentEnergy - primary.mass)) • l.dir -
        l.energy • l.dir.deflect (Real.cos phi) (rnd * 2 * Real.pi)).normalize).map
          (fun e => (e, l.dir.deflect (Real.cos phi) (rnd * 2 * Real.pi))) = some d ∧ UnitVec d.1 ∧ UnitVec d.2 := by
      intro phi
      have hu := C45_deflect_unit l.dir hd (Real.cos phi) (rnd * 2 * Real.pi)
      have hmag := mag_smul_sub l.dir _ _ _ hd hu h0 hlt
      cases hn : (Real.sqrt ((l.parentEnergy + primary.mass) * (l.parentEnergy - primary.mass)) • l.dir -
        l.energy • l.dir.deflect (Real.cos phi) (rnd * 2 * Real.pi)).normalize with
      | none => unfold Vec3.normalize at hn; rw [if_neg hmag] at hn; simp at hn
      | some e => exact ⟨_, rfl, normalize_unitVec _ _ hn, hu⟩
    cases a with
    | none => exact ⟨_, rfl, hd, hd⟩
    | egs4 =>
      unfold bremsDirections
      simp only
      rw [if_neg (not_lt.2 hq.le)]
      exact key _
    | kochMotz phi =>
      unfold bremsDirections
      simp only
      rw [if_neg (not_lt.2 hq.le)]
      exact key _
  obtain ⟨d, e, u1, u2⟩ := hdirs
  have hsec : bremsSecondaries a primary l rnd =
      some [l.state primary d.1 (l.parentEnergy - l.energy) 0, l.state sGamma d.2 l.energy 0] := by
    simp only [bremsSecondaries, e]
  refine ⟨_, hsec, rfl, ⟨?_, ?_⟩, ?_⟩
  · intro p hp
    simp only [List.mem_cons, List.not_mem_nil, or_false] at hp
    rcases hp with rfl | rfl
    · exact ⟨hm.le, by simp only [SLoss.state]; linarith, u1⟩
    · exact ⟨le_rfl, h0, u2⟩
  · intro p hp
    simp only [List.mem_cons, List.not_mem_nil, or_false] at hp
    rcases hp with rfl | rfl <;> exact ⟨rfl, rfl⟩
  · rw [(total_two _ _).1]; simp only [SLoss.state]; ring

theorem pairSecondaries_spec (primary : Daughter) (tm tp : ℤ) (m : ℝ) (l : SLoss) (ρ : ℝ) (hd : UnitVec l.dir) (hm : 0 ≤ primary.mass)
    (hm' : 0 ≤ m) (h1 : primary.mass ≤ l.parentEnergy - l.energy) (h2 : m ≤ 0.5 * l.energy * (1 + ρ)) (h3 : m ≤ 0.5 * l.energy * (1 - ρ)) :
    CarryEnergy l.parentEnergy l (pairSecondaries primary ⟨tm, m⟩ ⟨tp, m⟩ l ρ) := by
  refine ⟨⟨?_, ?_⟩, ?_⟩
  · intro p hp
    simp only [pairSecondaries, List.mem_cons, List.not_mem_nil, or_false] at hp
    rcases hp with rfl | rfl | rfl
    · exact ⟨hm, h1, hd⟩
    · exact ⟨hm', h2, hd⟩
    · exact ⟨hm', h3, hd⟩
  · intro p hp
    simp only [pairSecondaries, List.mem_cons, List.not_mem_nil, or_false] at hp
    rcases hp with rfl | rfl | rfl <;> exact ⟨rfl, rfl⟩
  · simp only [pairSecondaries, totalEnergy, SLoss.state, pairEnergies, List.map_cons, List.map_nil, List.sum_cons, List.sum_nil]
    norm_num; ring

/-- What is assumed of the integration routine that samples the share of a pair: the limit lies in the range. -/
def Spec.SamplesRange (upper : ℝ → ℝ → ℝ) : Prop := ∀ ρ r, 0 ≤ ρ → 0 ≤ upper ρ r ∧ upper ρ r ≤ ρ

/-- C44: electron pairs, for every loss between the kinematic limits. -/
theorem C44_epair (primary : Daughter) (Z : ℝ) (upper : ℝ → ℝ → ℝ) (hup : SamplesRange upper) (l : SLoss) (rnd1 rnd2 : ℝ)
    (hd : UnitVec l.dir) (hm : 0 < primary.mass) (hZ : 1 ≤ Z) (hE : 0 < l.parentEnergy)
    (hopen : (limEpair primary.mass Z l.parentEnergy).vMin < (limEpair primary.mass Z l.parentEnergy).vMax)
    (h0 : (limEpair primary.mass Z l.parentEnergy).vMin ≤ l.energy / l.parentEnergy)
    (h1 : l.energy / l.parentEnergy ≤ (limEpair primary.mass Z l.parentEnergy).vMax) :
    ∃ ps, epairSecondaries primary upper l rnd1 rnd2 = some ps ∧ ps.map Part.type = [primary.type, 11, -11] ∧ CarryEnergy l.parentEnergy l ps := by
  have hme := me_pos
  set m := primary.mass with hmdef
  set E := l.parentEnergy with hEdef
  have hv0 : 4 * ME / E ≤ l.energy / E := by
    simp only [limEpair, KinLim.raised] at h0 hopen
    split_ifs at h0 hopen with h
    · simp at hopen
    · exact h0
  have hv1 : l.energy / E ≤ min (petrukhin m Z E) (1 - 6 * (m / E) * (m / E)) := by
    simp only [limEpair, KinLim.raised] at h1 hopen
    split_ifs at h1 hopen with h
    · simp at hopen
    · exact h1
  have hk : 4 * ME ≤ l.energy := by
    rw [div_le_div_iff_of_pos_right hE] at hv0; exact hv0
  have hk0 : 0 < l.energy := by linarith
  have hZ3 : 1 ≤ Z ^ (1 / 3 : ℝ) := Real.one_le_rpow hZ (by norm_num)
  have hp : m ≤ E - l.energy := by
    have h := hv1.trans (min_le_left _ _)
    unfold petrukhin at h
    have hmE : 0 < m / E := by positivity
    have hc : 1 ≤ 0.75 * SQRTE * Z ^ (1 / 3 : ℝ) := by
      have : (1 : ℝ) ≤ 0.75 * SQRTE := by norm_num [SQRTE]
      nlinarith
    have h' : l.energy / E ≤ 1 - m / E := by nlinarith
    rw [div_le_iff₀ hE, sub_mul, one_mul, div_mul_cancel₀ _ hE.ne'] at h'
    linarith
  have hv6 := hv1.trans (min_le_right _ _)
  set v := l.energy / E with hv
  have hvE : E * v = l.energy := by rw [hv]; field_simp
  have hmv : 0 < m / E * (m / E) := by positivity
  have h1v : 0 < 1 - v := by nlinarith
  have haux2 : 0 ≤ 1 - (6 * m * m) / (E * E * (1 - v)) := by
    rw [sub_nonneg, div_le_one (by positivity)]
    have : 6 * (m / E) * (m / E) * (E * E) = 6 * m * m := by field_simp
    nlinarith [mul_pos hE hE]
  have haux2' : 1 - (6 * m * m) / (E * E * (1 - v)) ≤ 1 := by
    have : 0 ≤ (6 * m * m) / (E * E * (1 - v)) := by positivity
    linarith
  have haux : 0 ≤ 1 - (4 * ME) / (E * v) := by
    rw [sub_nonneg, hvE, div_le_one hk0]; exact hk
  set rhoMax := Real.sqrt (1 - (4 * ME) / (E * v)) * (1 - (6 * m * m) / (E * E * (1 - v))) with hrho
  have hr0 : 0 ≤ rhoMax := mul_nonneg (Real.sqrt_nonneg _) haux2
  have hr1 : rhoMax ≤ 1 - 2 * ME / l.energy := by
    have h2 : Real.sqrt (1 - (4 * ME) / (E * v)) ≤ 1 - 2 * ME / l.energy := by
      rw [hvE]
      apply Real.sqrt_le_iff.2
      constructor
      · rw [sub_nonneg, div_le_one hk0]; linarith
      · have : 4 * ME / l.energy = 2 * (2 * ME / l.energy) := by ring
        rw [this]
        nlinarith [sq_nonneg (2 * ME / l.energy)]
    calc rhoMax ≤ Real.sqrt (1 - (4 * ME) / (E * v)) * 1 := mul_le_mul_of_nonneg_left haux2' (Real.sqrt_nonneg _)
      _ ≤ _ := by rw [mul_one]; exact h2
  obtain ⟨g0, g1⟩ := hup rhoMax rnd1 hr0
  have hres : ∃ ρ, epairRho m upper E v rnd1 rnd2 = .rho ρ ∧ -rhoMax ≤ ρ ∧ ρ ≤ rhoMax := by
    unfold epairRho
    simp only
    rw [if_neg (not_lt.2 haux), ← hrho, if_neg (not_lt.2 hr0)]
    refine ⟨_, rfl, ?_, ?_⟩ <;> split_ifs <;> linarith
  obtain ⟨ρ, e, c1, c2⟩ := hres
  have hME : ME ≤ 0.5 * l.energy * (1 - rhoMax) := by
    have : 2 * ME / l.energy * l.energy = 2 * ME := by field_simp
    have h3 : 2 * ME / l.energy ≤ 1 - rhoMax := by linarith
    nlinarith
  refine ⟨_, by simp only [epairSecondaries, ← hmdef, ← hEdef, ← hv, e]; rfl, rfl, ?_⟩
  exact pairSecondaries_spec primary 11 (-11) ME l ρ hd hm.le hme.le hp (by nlinarith) (by nlinarith)

/-- C44: muon pairs, for every loss between the kinematic limits. -/
theorem C44_mupair (primary : Daughter) (upper : ℝ → ℝ → ℝ) (hup : SamplesRange upper) (l : SLoss) (rnd1 rnd2 : ℝ)
    (hd : UnitVec l.dir) (hm : 0 < primary.mass) (hE : 0 < l.parentEnergy)
    (hopen : (limMupair primary.mass l.parentEnergy).vMin < (limMupair primary.mass l.parentEnergy).vMax)
    (h0 : (limMupair primary.mass l.parentEnergy).vMin ≤ l.energy / l.parentEnergy)
    (h1 : l.energy / l.parentEnergy ≤ (limMupair primary.mass l.parentEnergy).vMax) :
    (mupairSecondaries primary upper l rnd1 rnd2).map Part.type = [primary.type, 13, -13] ∧
    CarryEnergy l.parentEnergy l (mupairSecondaries primary upper l rnd1 rnd2) := by
  have hmu : 0 < MMU := by norm_num [MMU]
  refine ⟨rfl, ?_⟩
  have hv0 : 2 * MMU / l.parentEnergy ≤ l.energy / l.parentEnergy := by
    simp only [limMupair, KinLim.raised] at h0 hopen
    split_ifs at h0 hopen with h
    · simp at hopen
    · exact h0
  have hv1 : l.energy / l.parentEnergy ≤ 1 - primary.mass / l.parentEnergy := by
    simp only [limMupair, KinLim.raised] at h1 hopen
    split_ifs at h1 hopen with h
    · simp at hopen
    · exact h1
  have hk : 2 * MMU ≤ l.energy := by rw [div_le_div_iff_of_pos_right hE] at hv0; exact hv0
  have hk0 : 0 < l.energy := by linarith
  rw [div_le_iff₀ hE, sub_mul, one_mul, div_mul_cancel₀ _ hE.ne'] at hv1
  have hvE : l.energy / l.parentEnergy * l.parentEnergy = l.energy := by field_simp
  have hr : 0 ≤ 1 - 2 * MMU / l.energy := by rw [sub_nonneg, div_le_one hk0]; exact hk
  have hres : -(1 - 2 * MMU / l.energy) ≤ mupairRho upper l.parentEnergy (l.energy / l.parentEnergy) rnd1 rnd2 ∧
      mupairRho upper l.parentEnergy (l.energy / l.parentEnergy) rnd1 rnd2 ≤ 1 - 2 * MMU / l.energy := by
    obtain ⟨g0, g1⟩ := hup (1 - 2 * MMU / l.energy) rnd1 hr
    unfold mupairRho
    simp only [hvE]
    rw [if_neg (not_lt.2 hr)]
    split_ifs <;> constructor <;> linarith
  have e : 2 * MMU / l.energy * l.energy = 2 * MMU := by field_simp
  exact pairSecondaries_spec primary 13 (-13) MMU l _ hd hm.le hmu.le (by linarith) (by nlinarith [hres.1]) (by nlinarith [hres.2])

/-- C44: photonuclear interactions of particles lighter than the pion, for every loss between the kinematic limits.
Missing: the energy of the primary for heavier ones, see `C44_tau`. -/
theorem C44_photonuclear_partial (primary : Daughter) (M : ℝ) (l : SLoss) (hd : UnitVec l.dir) (hm : 0 < primary.mass) (hpi : primary.mass < MPI)
    (hM : 0 < M) (hE : 0 < l.parentEnergy)
    (hopen : (limPhotonuclear primary.mass M l.parentEnergy).vMin < (limPhotonuclear primary.mass M l.parentEnergy).vMax)
    (h0 : (limPhotonuclear primary.mass M l.parentEnergy).vMin ≤ l.energy / l.parentEnergy)
    (h1 : l.energy / l.parentEnergy ≤ (limPhotonuclear primary.mass M l.parentEnergy).vMax) :
    (photonuclearSecondaries primary l).map Part.type = [primary.type, 81] ∧ CarryEnergy l.parentEnergy l (photonuclearSecondaries primary l) := by
  refine ⟨rfl, ?_⟩
  have hpos : 0 < MPI := by norm_num [MPI]
  have hv0 : (MPI + MPI * MPI / (2 * M)) / l.parentEnergy ≤ l.energy / l.parentEnergy := by
    simp only [limPhotonuclear, KinLim.raised] at h0 hopen
    simp only [hpi, if_true] at h0 hopen
    split_ifs at h0 hopen with h
    · simp at hopen
    · exact h0
  have hv1 : l.energy / l.parentEnergy ≤ 1 - M * (1 + primary.mass / M * (primary.mass / M)) / (2 * l.parentEnergy) := by
    simp only [limPhotonuclear, KinLim.raised] at h1 hopen
    simp only [hpi, if_true] at h1 hopen
    split_ifs at h1 hopen with h
    · simp at hopen
    · exact h1
  have hk : 0 ≤ l.energy := by
    rw [div_le_div_iff_of_pos_right hE] at hv0
    have : 0 < MPI + MPI * MPI / (2 * M) := by positivity
    linarith
  have hp : primary.mass ≤ l.parentEnergy - l.energy := by
    have e : M * (1 + primary.mass / M * (primary.mass / M)) / (2 * l.parentEnergy) =
        (M ^ 2 + primary.mass ^ 2) / (2 * M) / l.parentEnergy := by field_simp
    rw [e, div_le_iff₀ hE, sub_mul, one_mul, div_mul_cancel₀ _ hE.ne'] at hv1
    have : primary.mass ≤ (M ^ 2 + primary.mass ^ 2) / (2 * M) := by
      rw [le_div_iff₀ (by positivity)]; nlinarith [sq_nonneg (M - primary.mass)]
    linarith
  refine ⟨⟨?_, ?_⟩, ?_⟩
  · intro p hp'
    simp only [photonuclearSecondaries, List.mem_cons, List.not_mem_nil, or_false] at hp'
    rcases hp' with rfl | rfl
    · exact ⟨hm.le, hp, hd⟩
    · exact ⟨le_rfl, hk, hd⟩
  · intro p hp'
    simp only [photonuclearSecondaries, List.mem_cons, List.not_mem_nil, or_false] at hp'
    rcases hp' with rfl | rfl <;> exact ⟨rfl, rfl⟩
  · rw [photonuclearSecondaries, (total_two _ _).1]; simp only [SLoss.state]; ring

/-- C44 fails for taus: the kinematic limit of the photonuclear interaction allows losses after which the tau has less
energy than its mass. -/
theorem C44_tau (M : ℝ) (hM : MPI ≤ M) : ∃ l : SLoss, UnitVec l.dir ∧ MTAU < l.parentEnergy ∧
    (limPhotonuclear MTAU M l.parentEnergy).vMin < (limPhotonuclear MTAU M l.parentEnergy).vMax ∧
    (limPhotonuclear MTAU M l.parentEnergy).vMin ≤ l.energy / l.parentEnergy ∧
    l.energy / l.parentEnergy ≤ (limPhotonuclear MTAU M l.parentEnergy).vMax ∧
    ∃ p ∈ photonuclearSecondaries ⟨15, MTAU⟩ l, p.energy < p.mass := by
  have hpi : (0 : ℝ) < MPI := by norm_num [MPI]
  have hM0 : 0 < M := by linarith
  have hlow : (MPI + MPI * MPI / (2 * M)) / 2000 < 0.5 := by
    have : MPI * MPI / (2 * M) ≤ MPI := by
      rw [div_le_iff₀ (by positivity)]; nlinarith
    have : MPI < 140 := by norm_num [MPI]
    rw [div_lt_iff₀ (by norm_num)]; linarith
  have hlim : limPhotonuclear MTAU M 2000 = ⟨(MPI + MPI * MPI / (2 * M)) / 2000, 1⟩ := by
    unfold limPhotonuclear KinLim.raised
    have : ¬ MTAU < MPI := by norm_num [MTAU, MPI]
    simp only [this, if_false]
    rw [if_neg]
    simp only [not_lt]; linarith
  refine ⟨⟨1000, ⟨0, 0, 0⟩, ⟨0, 0, 1⟩, 0, 0, 2000⟩, by norm_num [UnitVec], by norm_num [MTAU], ?_, ?_, ?_, ?_⟩
  · simp only [hlim]; linarith
  · simp only [hlim]; linarith
  · simp only [hlim]; norm_num
  · refine ⟨_, by simp only [photonuclearSecondaries]; exact List.mem_cons_self, ?_⟩
    simp only [SLoss.state]; norm_num [MTAU]

/-- C44: photoproduction and weak interaction. -/
theorem C44_hadronic (partner : Daughter) (l : SLoss) (v : ℝ) (hd : UnitVec l.dir) (h0 : 0 ≤ l.energy) (hv0 : 0 ≤ v) (hv1 : v ≤ 1)
    (hp : partner.mass = 0) :
    CarryEnergy l.energy l (photoproductionSecondaries l) ∧ CarryEnergy l.energy l (weakSecondaries partner l v) := by
  constructor
  · refine ⟨⟨?_, ?_⟩, ?_⟩
    · intro p hp'
      simp only [photoproductionSecondaries, List.mem_cons, List.not_mem_nil, or_false] at hp'
      subst hp'
      exact ⟨le_rfl, h0, hd⟩
    · intro p hp'
      simp only [photoproductionSecondaries, List.mem_cons, List.not_mem_nil, or_false] at hp'
      subst hp'
      exact ⟨rfl, rfl⟩
    · simp [photoproductionSecondaries, totalEnergy, SLoss.state]
  · refine ⟨⟨?_, ?_⟩, ?_⟩
    · intro p hp'
      simp only [weakSecondaries, List.mem_cons, List.not_mem_nil, or_false] at hp'
      rcases hp' with rfl | rfl
      · exact ⟨by simp [SLoss.state, hp], by simp only [SLoss.state, hp]; exact mul_nonneg (by linarith) h0, hd⟩
      · exact ⟨le_rfl, mul_nonneg hv0 h0, hd⟩
    · intro p hp'
      simp only [weakSecondaries, List.mem_cons, List.not_mem_nil, or_false] at hp'
      rcases hp' with rfl | rfl <;> exact ⟨rfl, rfl⟩
    · rw [weakSecondaries, (total_two _ _).1]; simp only [SLoss.state]; ring

/-- C44: the photoelectron gets the energy of the photon up to the binding energy of the K shell. -/
theorem C44_photoeffect (Z : ℝ) (l : SLoss) (hd : UnitVec l.dir) (hI : (Z * ALPHA) ^ 2 * ME / 2 ≤ l.parentEnergy) :
    CarryEnergy (l.parentEnergy + ME - (Z * ALPHA) ^ 2 * ME / 2) l (photoeffectSecondaries Z l) := by
  refine ⟨⟨?_, ?_⟩, ?_⟩
  · intro p hp'
    simp only [photoeffectSecondaries, List.mem_cons, List.not_mem_nil, or_false] at hp'
    subst hp'
    exact ⟨me_pos.le, by simp only [SLoss.state, sEMinus]; linarith, hd⟩
  · intro p hp'
    simp only [photoeffectSecondaries, List.mem_cons, List.not_mem_nil, or_false] at hp'
    subst hp'
    exact ⟨rfl, rfl⟩
  · simp [photoeffectSecondaries, totalEnergy, SLoss.state]; ring

/-- C44: electron pairs from photons, for every share between the kinematic limits and whatever the angles. -/
theorem C44_photopair (l : SLoss) (ρ c0 c1 rnd : ℝ) (hd : UnitVec l.dir) (hE : lowerPhotoPair ≤ l.parentEnergy)
    (h0 : (limPhotoPair l.parentEnergy).vMin ≤ ρ) (h1 : ρ ≤ (limPhotoPair l.parentEnergy).vMax) :
    (photoPairSecondaries l ρ c0 c1 rnd).map Part.type = [11, -11] ∧ CarryEnergy l.parentEnergy l (photoPairSecondaries l ρ c0 c1 rnd) := by
  obtain ⟨g1, g2⟩ := C81_electron_pairs l.parentEnergy ρ hE h0 h1
  obtain ⟨u1, u2⟩ := opposite_unit l.dir (if c0 = -1 then 1 else c0) (if c1 = -1 then 1 else c1) (rnd * 2 * Real.pi) hd
  refine ⟨rfl, ⟨?_, ?_⟩, ?_⟩
  · intro p hp'
    simp only [photoPairSecondaries, photoPairDirections, List.mem_cons, List.not_mem_nil, or_false] at hp'
    rcases hp' with rfl | rfl
    · exact ⟨me_pos.le, g1, u1⟩
    · exact ⟨me_pos.le, g2, u2⟩
  · intro p hp'
    simp only [photoPairSecondaries, List.mem_cons, List.not_mem_nil, or_false] at hp'
    rcases hp' with rfl | rfl <;> exact ⟨rfl, rfl⟩
  · simp only [photoPairSecondaries]
    rw [(total_two _ _).1]; simp only [SLoss.state]; ring

/-- C44: muon pairs from photons, for shares that give both muons at least their rest energy. Missing: the kinematic
limits contain other shares (`C81_muon_pairs_light`). -/
theorem C44_photomupair_partial (l : SLoss) (x rnd : ℝ) (hd : UnitVec l.dir) (h0 : MMU ≤ l.parentEnergy * x) (h1 : MMU ≤ l.parentEnergy * (1 - x)) :
    (photoMuPairSecondaries l x rnd).map Part.type = [13, -13] ∧ CarryEnergy l.parentEnergy l (photoMuPairSecondaries l x rnd) := by
  have hmu : 0 ≤ MMU := by norm_num [MMU]
  refine ⟨rfl, ⟨?_, ?_⟩, ?_⟩
  · intro p hp'
    simp only [photoMuPairSecondaries, photoPairDirections, List.mem_cons, List.not_mem_nil, or_false] at hp'
    rcases hp' with rfl | rfl
    · exact ⟨hmu, by simp only [SLoss.state, sMuMinus]; linarith, C45_deflect_unit l.dir hd _ _⟩
    · exact ⟨hmu, by simp only [SLoss.state, sMuPlus]; linarith, C45_deflect_unit l.dir hd _ _⟩
  · intro p hp'
    simp only [photoMuPairSecondaries, List.mem_cons, List.not_mem_nil, or_false] at hp'
    rcases hp' with rfl | rfl <;> exact ⟨rfl, rfl⟩
  · simp only [photoMuPairSecondaries]
    rw [(total_two _ _).1]; simp only [SLoss.state]; ring

/-- C44 fails for the class `NaivEpairProduction`, which returns no particles. -/
theorem C44_naiv_epair (l : SLoss) (h : 0 < l.parentEnergy) : ¬ CarryEnergy l.parentEnergy l (naivEpairSecondaries l) := by
  intro hc
  have := hc.energy
  simp [naivEpairSecondaries, totalEnergy] at this
  linarith

/-- A muon of 1 TeV that loses 100 GeV by pair production. -/
example : ∃ ps, epairSecondaries sMuMinus (fun ρ r => ρ * max 0 (min r 1)) ⟨1e5, ⟨0, 0, 0⟩, ⟨0, 0, 1⟩, 0, 0, 1e6⟩ 0.5 0.5 = some ps ∧
    totalEnergy ps = 1e6 := by
  have e : limEpair MMU 1 1e6 = ⟨4 * ME / 1e6, min (petrukhin MMU 1 1e6) (1 - 6 * (MMU / 1e6) * (MMU / 1e6))⟩ := by
    unfold limEpair KinLim.raised
    rw [if_neg]
    simp only [petrukhin, Real.one_rpow, not_lt, le_min_iff]
    constructor <;> norm_num [ME, MMU, SQRTE]
  obtain ⟨ps, h1, -, h2⟩ := C44_epair sMuMinus 1 (fun ρ r => ρ * max 0 (min r 1))
    (fun ρ r h => ⟨mul_nonneg h (le_max_left _ _), by
      have : max 0 (min r 1) ≤ 1 := max_le zero_le_one (min_le_right _ _)
      nlinarith⟩)
    ⟨1e5, ⟨0, 0, 0⟩, ⟨0, 0, 1⟩, 0, 0, 1e6⟩ 0.5 0.5 (by norm_num [UnitVec]) (by norm_num [sMuMinus, MMU]) le_rfl (by norm_num)
    (by
      simp only [sMuMinus, e, petrukhin, Real.one_rpow, lt_min_iff]
      constructor <;> norm_num [ME, MMU, SQRTE])
    (by simp only [sMuMinus, e]; norm_num [ME])
    (by
      simp only [sMuMinus, e, petrukhin, Real.one_rpow, le_min_iff]
      constructor <;> norm_num [ME, MMU, SQRTE])
  exact ⟨ps, h1, h2.energy⟩

/-! ## Sampling of angles -/

/-- The cumulated Sauter distribution of the cosine, density proportional to 1/(E - p cos)². -/
noncomputable def Spec.sauterShare (E c : ℝ) : ℝ :=
  let p := Real.sqrt (E ^ 2 - ME ^ 2)
  (1 / (E - p * c) - 1 / (E + p)) / (1 / (E - p) - 1 / (E + p))

/-- C89: the cosine of the Sauter sampling is a cosine, and its share of the distribution is the random number. -/
theorem C89_sauter (E r : ℝ) (hE : ME < E) (h0 : 0 ≤ r) (h1 : r ≤ 1) :
    -1 ≤ sauterCos E r ∧ sauterCos E r ≤ 1 ∧ sauterShare E (sauterCos E r) = r := by
  have hme := me_pos
  unfold sauterCos sauterShare
  simp only
  have e : E * E - ME * ME = E ^ 2 - ME ^ 2 := by ring
  rw [e]
  have hq : 0 < E ^ 2 - ME ^ 2 := by nlinarith
  have hs := Real.sq_sqrt hq.le
  have hp := Real.sqrt_pos.2 hq
  set p := Real.sqrt (E ^ 2 - ME ^ 2) with hpdef
  have hpE : p < E := by nlinarith
  have hden : 0 < p * (2 * r - 1) + E := by nlinarith
  refine ⟨?_, ?_, ?_⟩
  · rw [le_div_iff₀ hden]; nlinarith
  · rw [div_le_one hden]; nlinarith
  · have k1 : E - p * ((E * (2 * r - 1) + p) / (p * (2 * r - 1) + E)) = ME ^ 2 / (p * (2 * r - 1) + E) := by
      rw [eq_div_iff hden.ne', sub_mul, mul_assoc, div_mul_cancel₀ _ hden.ne']
      linear_combination -hs
    have k2 : (E - p) * (E + p) = ME ^ 2 := by linear_combination -hs
    have k3 : E - p ≠ 0 := by linarith
    have k4 : E + p ≠ 0 := by linarith
    have k5 : 1 / (E - p) = (E + p) / ME ^ 2 := by rw [← k2]; field_simp
    have k6 : 1 / (E + p) = (E - p) / ME ^ 2 := by rw [← k2]; field_simp
    rw [k1, k5, k6, one_div_div, ← sub_div, ← sub_div, div_div_div_cancel_right₀ (by positivity), div_eq_iff (by linarith)]
    ring

/-- C89 fails for the random number 0: the code turns the backward direction into the forward direction. -/
theorem C89_backward (dir : Vec3) (E c1 rnd : ℝ) (hd : UnitVec dir) (hE : ME < E) :
    sauterCos E 0 = -1 ∧ cosAngle dir (photoPairDirections dir (sauterCos E 0) c1 rnd).1 = 1 := by
  have hme := me_pos
  have hq : 0 < E * E - ME * ME := by nlinarith
  have hs := Real.sq_sqrt hq.le
  have hp := Real.sqrt_pos.2 hq
  have hc : sauterCos E 0 = -1 := by
    unfold sauterCos
    simp only
    set p := Real.sqrt (E * E - ME * ME)
    have : p * (2 * 0 - 1) + E ≠ 0 := by
      have : p < E := by nlinarith
      intro h; linarith
    rw [div_eq_iff this]; ring
  refine ⟨hc, ?_⟩
  unfold photoPairDirections opposite
  simp only [hc, if_true]
  exact C45_deflect_angle dir hd 1 _ (by norm_num) le_rfl

/-- The cumulated distribution of the polar angle, density proportional to φ/(1 + (E0 φ)²)² between 0 and π. -/
noncomputable def Spec.angleShare (E0 φ : ℝ) : ℝ :=
  (1 - 1 / (1 + (E0 * φ) ^ 2)) / (1 - 1 / (1 + (E0 * Real.pi) ^ 2))

/-- C90: the candidates for the angle of a bremsstrahlung photon are between 0 and π, and their share of the distribution
is the random number. -/
theorem C90_candidate (E0 r : ℝ) (hE : 0 < E0) (h0 : 0 ≤ r) (h1 : r ≤ 1) :
    0 ≤ phiCandidate E0 r ∧ phiCandidate E0 r ≤ Real.pi ∧ angleShare E0 (phiCandidate E0 r) = r := by
  have hpi := Real.pi_pos
  set Y := (Real.pi * E0) ^ 2 with hY
  have hYpos : 0 < Y := by positivity
  have hden : 0 < 1 - r + 1 / Y := by
    have : 0 < 1 / Y := by positivity
    linarith
  have hq : 0 ≤ r / (1 - r + 1 / Y) := div_nonneg h0 hden.le
  have hphi : (E0 * phiCandidate E0 r) ^ 2 = r / (1 - r + 1 / Y) := by
    unfold phiCandidate
    rw [← mul_assoc, mul_one_div_cancel hE.ne', one_mul, Real.sq_sqrt hq]
  refine ⟨by unfold phiCandidate; positivity, ?_, ?_⟩
  · unfold phiCandidate
    rw [← hY]
    have hb : r / (1 - r + 1 / Y) ≤ Y := by
      rw [div_le_iff₀ hden]
      have : Y * (1 / Y) = 1 := by field_simp
      nlinarith
    have hb2 : Real.sqrt (r / (1 - r + 1 / Y)) ≤ Real.pi * E0 := by
      apply Real.sqrt_le_iff.2
      exact ⟨by positivity, hb⟩
    rw [one_div, inv_mul_le_iff₀ hE]
    linarith
  · unfold angleShare
    rw [hphi]
    have : (E0 * Real.pi) ^ 2 = Y := by rw [hY]; ring
    rw [this]
    have hd' : 1 - r + 1 / Y = ((1 - r) * Y + 1) / Y := by field_simp
    rw [hd', div_div_eq_mul_div]
    have hp1 : 0 < (1 - r) * Y + 1 := by nlinarith
    have e1 : 1 + r * Y / ((1 - r) * Y + 1) = (Y + 1) / ((1 - r) * Y + 1) := by
      rw [eq_div_iff hp1.ne', add_mul, div_mul_cancel₀ _ hp1.ne']; ring
    have hY1 : 0 < Y + 1 := by linarith
    have e2 : 1 - 1 / (1 + Y) = Y / (Y + 1) := by rw [add_comm 1 Y, eq_div_iff hY1.ne', sub_mul, div_mul_cancel₀ _ hY1.ne']; ring
    rw [e1, e2, one_div_div, div_eq_iff (by positivity), one_sub_div hY1.ne', ← mul_div_assoc]
    congr 1
    ring

/-- A random number 1/2 gives an angle inside. -/
example : angleShare 100 (phiCandidate 100 0.5) = 0.5 := (C90_candidate 100 0.5 (by norm_num) (by norm_num) (by norm_num)).2.2

/-! ## Sampling of annihilations -/

theorem heitler_lower (γ : ℝ) (h : 1 < γ) : 1 / (2 * (γ + 1)) ≤ (heitlerLimits γ).1 ∧ (heitlerLimits γ).1 ≤ 1 / (γ + 1) ∧
    (heitlerLimits γ).2 = 1 - (heitlerLimits γ).1 := by
  have h1 : 0 < (γ - 1) / (γ + 1) := div_pos (by linarith) (by linarith)
  have hs := Real.sq_sqrt h1.le
  have hp := Real.sqrt_pos.2 h1
  have e : 1 / (γ + 1) = 0.5 * (1 - Real.sqrt ((γ - 1) / (γ + 1)) ^ 2) := by
    rw [hs]; have : γ + 1 ≠ 0 := by linarith
    field_simp; ring
  have e2 : 1 / (2 * (γ + 1)) = 0.5 * (1 / (γ + 1)) := by
    have : γ + 1 ≠ 0 := by linarith
    field_simp; ring
  have ha1 : Real.sqrt ((γ - 1) / (γ + 1)) < 1 := by
    have h2 : (γ - 1) / (γ + 1) < 1 := (div_lt_one (by linarith)).2 (by linarith)
    nlinarith
  unfold heitlerLimits
  rw [if_neg (not_le.2 h)]
  simp only
  rw [e2, e]
  set a := Real.sqrt ((γ - 1) / (γ + 1))
  refine ⟨by nlinarith, by nlinarith, by norm_num; ring⟩

theorem heitlerFunction_continuousOn (γ u a b : ℝ) (ha : 0 < a) (hab : a ≤ b) : ContinuousOn (heitlerFunction γ u) (Set.uIcc a b) := by
  rw [Set.uIcc_of_le hab]
  unfold heitlerFunction heitlerTerm
  simp only
  apply ContinuousOn.sub _ continuousOn_const
  apply ContinuousOn.sub _ continuousOn_const
  apply ContinuousOn.sub _ continuousOn_id
  apply ContinuousOn.add
  · exact continuousOn_const.mul (Real.continuousOn_log.mono fun x hx => ne_of_gt (lt_of_lt_of_le ha hx.1))
  · exact continuousOn_const.div continuousOn_id fun x hx => ne_of_gt (lt_of_lt_of_le ha hx.1)

/-- C88: the returned share is at most `rho_min * energy * HALF_PRECISION` below a solution of the equation between the
random number and the integrated cross section. Missing: this precision is no bound relative to the share, see
`C88_high_energies`. -/
theorem C88_root_partial (E u : ℝ) (hE : ME < E) (h0 : 0 ≤ u) (h1 : u ≤ 1) :
    ∃ ρ r, heitlerRho ME E u = .ok ρ ∧ ρ ≤ r ∧ r < ρ + (heitlerLimits (E / ME)).1 * E * 1e-5 ∧ heitlerFunction (E / ME) u r = 0 := by
  have hme := me_pos
  have hγ : 1 < E / ME := (one_lt_div hme).2 hE
  obtain ⟨l1, l2, l3, -⟩ := heitlerLimits_spec (E / ME) hγ
  obtain ⟨k1, k2, k3⟩ := heitler_lower (E / ME) hγ
  have hsign : heitlerFunction (E / ME) u (heitlerLimits (E / ME)).1 * heitlerFunction (E / ME) u (heitlerLimits (E / ME)).2 ≤ 0 := by
    unfold heitlerFunction
    simp only
    generalize heitlerTerm (1 + 2 * (E / ME) * (1 / (E / ME + 1) ^ 2)) (1 / (E / ME + 1) ^ 2) (heitlerLimits (E / ME)).1 = A
    generalize heitlerTerm (1 + 2 * (E / ME) * (1 / (E / ME + 1) ^ 2)) (1 / (E / ME + 1) ^ 2) (heitlerLimits (E / ME)).2 = B
    have : 0 ≤ u * (1 - u) * (B - A) ^ 2 := mul_nonneg (mul_nonneg h0 (by linarith)) (sq_nonneg _)
    nlinarith
  have hE0 : 0 < E := hme.trans hE
  have hacc : 1e-6 ≤ (heitlerLimits (E / ME)).1 * E * 1e-5 := by
    have e : 1 / (2 * (E / ME + 1)) * E = ME * E / (2 * (E + ME)) := by field_simp
    have h2 : 0.1 ≤ ME * E / (2 * (E + ME)) := by
      rw [le_div_iff₀ (by positivity)]
      have : (0.5 : ℝ) < ME := by norm_num [ME]
      nlinarith
    have := mul_le_mul_of_nonneg_right k1 hE0.le
    rw [e] at this
    linarith
  obtain ⟨a, b, e, e1, r, e2, e3, e4⟩ := C51_bisection_root (heitlerFunction (E / ME) u) _ _ ((heitlerLimits (E / ME)).1 * E * 1e-5) 100
    (heitlerFunction_continuousOn (E / ME) u _ _ l1 l2.le) hsign (by
      rw [abs_of_pos (by linarith)]
      have : (heitlerLimits (E / ME)).2 - (heitlerLimits (E / ME)).1 < 1 := by linarith
      have h3 : (1e-6 : ℝ) * 2 ^ (100 + 1) ≤ (heitlerLimits (E / ME)).1 * E * 1e-5 * 2 ^ (100 + 1) :=
        mul_le_mul_of_nonneg_right hacc (by positivity)
      have h4 : (1 : ℝ) < 1e-6 * 2 ^ (100 + 1) := by norm_num
      linarith)
  refine ⟨a, r, by simp only [heitlerRho, e], e2, by linarith, e4⟩

theorem bisectionLoop_left (f : ℝ → ℝ) (xacc δ : ℝ) (hδ : 2 * δ ≤ xacc) (n : ℕ) : ∀ x1 x2, xacc ≤ x2 - x1 → f x1 ≤ 0 →
    (∀ c, x1 + δ ≤ c → c ≤ x2 → 0 < f c) → 0 < xacc → (bisectionLoop f xacc n x1 x2).1 = x1 := by
  induction n with
  | zero => intro x1 x2 _ _ _ _; rfl
  | succ n ih =>
    intro x1 x2 hw h1 h2 hx
    have hc := h2 ((x1 + x2) / 2) (by linarith) (by linarith)
    have hs : ¬ SignType.sign (f ((x1 + x2) / 2)) = SignType.sign (f x1) := by
      rw [sign_pos hc]
      intro h
      have := sign_eq_one_iff.1 h.symm
      linarith
    simp only [bisectionLoop, hs, if_false]
    split_ifs with h
    · rfl
    · rw [abs_of_pos (by linarith)] at h
      exact ih x1 ((x1 + x2) / 2) (not_lt.1 h) h1 (fun c c1 c2 => h2 c c1 (by linarith)) hx

/-- The share of the differential cross section below `ρ`. -/
noncomputable def Spec.heitlerShare (γ ρ : ℝ) : ℝ :=
  let T (x : ℝ) : ℝ := (1 + 2 * γ / (γ + 1) ^ 2) * Real.log x + 1 / ((γ + 1) ^ 2 * x) - x
  (T ρ - T (heitlerLimits γ).1) / (T (heitlerLimits γ).2 - T (heitlerLimits γ).1)

set_option maxHeartbeats 800000 in
/-- C88 fails at high energies: at least a quarter of all annihilations is sampled with exactly the same share, the
smallest one, below which there is nothing of the cross section. -/
theorem C88_high_energies (E u : ℝ) (hE : 2 ^ 40 * ME ≤ E) (h0 : 0 ≤ u) (h1 : u ≤ 1 / 4) :
    ∃ ρ, heitlerRho ME E u = .ok ρ ∧ ρ = (heitlerLimits (E / ME)).1 ∧ heitlerShare (E / ME) ρ = 0 := by
  have hme := me_pos
  have hγ40 : 2 ^ 40 ≤ E / ME := by rw [le_div_iff₀ hme]; exact hE
  set γ := E / ME with hγdef
  have hγ : 1 < γ := by linarith [show (1 : ℝ) < 2 ^ 40 by norm_num]
  obtain ⟨l1, l2, l3, -⟩ := heitlerLimits_spec γ hγ
  obtain ⟨k1, k2, k3⟩ := heitler_lower γ hγ
  have hE' : E = γ * ME := by rw [hγdef]; field_simp
  have hbig : (2 : ℝ) ^ 40 = 1099511627776 := by norm_num
  rw [hbig] at hγ40
  have hγ1 : 0 < γ + 1 := by linarith
  have hρle : (heitlerLimits γ).1 ≤ 1 / 2 ^ 40 := by
    apply k2.trans
    rw [hbig]
    exact one_div_le_one_div_of_le (by norm_num) (by linarith)
  -- the precision
  have hacc1 : 2 * (1 / 2 ^ 20) ≤ (heitlerLimits γ).1 * E * 1e-5 := by
    have e : 1 / (2 * (γ + 1)) * (γ * ME) = ME / 2 * (γ / (γ + 1)) := by field_simp
    have hq : 0.999 ≤ γ / (γ + 1) := by rw [le_div_iff₀ hγ1]; linarith
    have h2 : ME / 2 * 0.999 ≤ ME / 2 * (γ / (γ + 1)) := mul_le_mul_of_nonneg_left hq (by positivity)
    have h3 := mul_le_mul_of_nonneg_right k1 (by positivity : 0 ≤ γ * ME)
    rw [e] at h3
    rw [hE']
    have h4 : ME / 2 * 0.999 ≤ (heitlerLimits γ).1 * (γ * ME) := h2.trans h3
    have h5 : 2 * (1 / 2 ^ 20) ≤ ME / 2 * 0.999 * 1e-5 := by norm_num [ME]
    linarith
  have hacc2 : (heitlerLimits γ).1 * E * 1e-5 ≤ 1 / 2 := by
    have h3 := mul_le_mul_of_nonneg_right k2 (by positivity : 0 ≤ γ * ME)
    have e : 1 / (γ + 1) * (γ * ME) = ME * (γ / (γ + 1)) := by field_simp
    have hq : γ / (γ + 1) ≤ 1 := by rw [div_le_one hγ1]; linarith
    have hq0 : 0 ≤ γ / (γ + 1) := by positivity
    rw [e] at h3
    rw [hE']
    have : ME < 1 := by norm_num [ME]
    nlinarith
  have hρ2 : (1 : ℝ) / 2 ^ 40 < 1 / 100 := by norm_num
  -- the terms
  set a2 := 1 / (γ + 1) ^ 2 with ha2
  set a1 := 1 + 2 * γ * a2 with ha1
  set ρ := (heitlerLimits γ).1 with hρ
  have ha2p : 0 < a2 := by positivity
  have ha2ρ : a2 / ρ ≤ 1 / 100 := by
    rw [div_le_iff₀ l1]
    have : a2 = 1 / (γ + 1) * (1 / (γ + 1)) := by rw [ha2]; field_simp
    have e2 : 1 / (2 * (γ + 1)) = 1 / 2 * (1 / (γ + 1)) := by field_simp
    rw [e2] at k1
    have hs : 1 / (γ + 1) ≤ 1 / 1000 := one_div_le_one_div_of_le (by norm_num) (by linarith)
    have hp : 0 < 1 / (γ + 1) := by positivity
    rw [this]
    nlinarith
  have ha1u : a1 ≤ 1.01 := by
    have : γ * a2 ≤ 1 / 1000 := by
      have e : γ * a2 = γ / (γ + 1) * (1 / (γ + 1)) := by rw [ha2]; field_simp
      have hs : 1 / (γ + 1) ≤ 1 / 1000 := one_div_le_one_div_of_le (by norm_num) (by linarith)
      have hq : γ / (γ + 1) ≤ 1 := by rw [div_le_one hγ1]; linarith
      have hp : 0 < 1 / (γ + 1) := by positivity
      rw [e]; nlinarith
    rw [ha1]; linarith
  have ha1l : 1 ≤ a1 := by rw [ha1]; have : 0 ≤ 2 * γ * a2 := by positivity
                           linarith
  have hlogρ : Real.log ρ ≤ -40 * Real.log 2 := by
    have := Real.log_le_log l1 hρle
    rw [one_div, Real.log_inv, Real.log_pow] at this
    push_cast at this
    linarith
  have hl2 := Real.log_two_gt_d9
  have hl2' := Real.log_two_lt_d9
  set A := heitlerTerm a1 a2 ρ with hA
  set B := heitlerTerm a1 a2 (heitlerLimits γ).2 with hB
  have hBA : B - A ≤ a1 * -Real.log ρ + 1 := by
    rw [hB, hA]
    unfold heitlerTerm
    have h2 : Real.log (heitlerLimits γ).2 ≤ 0 := Real.log_nonpos (by linarith) l3.le
    have h3 : a2 / (heitlerLimits γ).2 ≤ a2 / ρ := div_le_div_of_nonneg_left ha2p.le l1 l2.le
    have h4 : 0 ≤ a2 / ρ := by positivity
    have h5 : a1 * Real.log (heitlerLimits γ).2 ≤ 0 := mul_nonpos_of_nonneg_of_nonpos (by linarith) h2
    linarith
  have hBA0 : 0 < B - A := by
    rw [hB, hA]
    unfold heitlerTerm
    have h2 : -1 ≤ Real.log (heitlerLimits γ).2 := by
      have : 1 - 1 / (heitlerLimits γ).2 ≤ Real.log (heitlerLimits γ).2 := by
        have := Real.one_sub_inv_le_log_of_pos (show 0 < (heitlerLimits γ).2 by linarith)
        rwa [← one_div] at this
      have h3 : 1 / (heitlerLimits γ).2 ≤ 2 := by
        rw [div_le_iff₀ (by linarith)]; linarith
      linarith
    have h3 : 0 < a2 / (heitlerLimits γ).2 := div_pos ha2p (by linarith)
    nlinarith
  have hfun : ∀ c, heitlerFunction γ u c = heitlerTerm a1 a2 c - A - u * (B - A) := fun c => rfl
  have hpos : ∀ c, ρ + 1 / 2 ^ 20 ≤ c → c ≤ (heitlerLimits γ).2 → 0 < heitlerFunction γ u c := by
    intro c c1 c2
    have hc0 : 0 < c := by linarith [show (0 : ℝ) < 1 / 2 ^ 20 by norm_num]
    have hlog : -20 * Real.log 2 ≤ Real.log c := by
      have := Real.log_le_log (by norm_num) (show 1 / 2 ^ 20 ≤ c by linarith)
      rw [one_div, Real.log_inv, Real.log_pow] at this
      push_cast at this
      linarith
    rw [hfun]
    have h2 : heitlerTerm a1 a2 c - A ≥ a1 * (Real.log c - Real.log ρ) - 1.1 := by
      rw [hA]; unfold heitlerTerm
      have : 0 < a2 / c := by positivity
      linarith
    have h3 : u * (B - A) ≤ 1 / 4 * (a1 * -Real.log ρ + 1) := by
      calc u * (B - A) ≤ 1 / 4 * (B - A) := mul_le_mul_of_nonneg_right h1 hBA0.le
        _ ≤ _ := by linarith
    have h4 : 0 < a1 * (Real.log c - Real.log ρ) - 1.1 - 1 / 4 * (a1 * -Real.log ρ + 1) := by
      have : a1 * (Real.log c - Real.log ρ) - 1.1 - 1 / 4 * (a1 * -Real.log ρ + 1) =
          a1 * (Real.log c - 3 / 4 * Real.log ρ) - 1.35 := by ring
      rw [this]
      have h5 : 6 ≤ Real.log c - 3 / 4 * Real.log ρ := by linarith
      nlinarith
    linarith
  have hroot : heitlerFunction γ u ρ ≤ 0 := by
    rw [hfun]
    have : 0 ≤ u * (B - A) := mul_nonneg h0 hBA0.le
    linarith
  have hsign : heitlerFunction γ u ρ * heitlerFunction γ u (heitlerLimits γ).2 ≤ 0 := by
    apply mul_nonpos_of_nonpos_of_nonneg hroot
    rw [hfun]
    nlinarith
  refine ⟨ρ, ?_, rfl, ?_⟩
  · have hloop := bisectionLoop_left (heitlerFunction γ u) (ρ * E * 1e-5) (1 / 2 ^ 20) hacc1 (100 + 1) ρ (heitlerLimits γ).2
      (by rw [k3]; linarith) hroot hpos (by linarith [show (0 : ℝ) < 1 / 2 ^ 20 by norm_num])
    unfold heitlerRho bisection
    simp only [← hγdef, ← hρ]
    rw [if_neg (not_lt.2 hsign), if_neg (not_lt.2 l2.le)]
    simp only [hloop]
  · unfold heitlerShare
    simp only [← hρ, sub_self, zero_div]

end Proposal
