import Verif.Model.Deflection
import Verif.Model.Secondaries
import Verif.Props.Vec3
import Verif.Props.Secondaries
import Mathlib.Analysis.SpecialFunctions.Integrals.Basic

/-! Properties C103 - C105: stochastic deflections of ionization, bremsstrahlung (Tsai) and photonuclear interactions. -/

namespace Proposal
open Spec

/-! ## Ionization -/

/-- The cosine of the deflection. -/
private theorem ioniz_cos {m ei ef r0 : ℝ} {a : ℝ × ℝ} (h : ionizNaive m ei ef r0 = some a) :
    0 < (ei + m) * (ei - m) ∧ 0 < (ef + m) * (ef - m) ∧ a.2 = 2 * Real.pi * r0 ∧ 0 ≤ a.1 ∧ a.1 ≤ Real.pi ∧
    Real.cos a.1 * (Real.sqrt ((ei + m) * (ei - m)) * Real.sqrt ((ef + m) * (ef - m))) =
      (ei + ME) * ef - ei * ME - m * m := by
  unfold ionizNaive at h
  simp only at h
  split_ifs at h with h1 h2
  push Not at h1 h2
  obtain ⟨hi, hf⟩ := h1
  have hpi := Real.sqrt_pos.2 hi
  have hpf := Real.sqrt_pos.2 hf
  simp only [Option.some.injEq] at h
  subst h
  refine ⟨hi, hf, rfl, Real.arccos_nonneg _, Real.arccos_le_pi _, ?_⟩
  rw [Real.cos_arccos h2.1 h2.2, div_mul_cancel₀ _ (mul_pos hpi hpf).ne']

/-- C103: the deflection by an ionization is the one of an elastic collision with an electron at rest. With the particle
deflected by these angles the missing momentum belongs to an electron with the missing energy. -/
theorem C103_elastic {m ei ef r0 : ℝ} {a : ℝ × ℝ} (h : ionizNaive m ei ef r0 = some a) (d : Vec3) (hd : UnitVec d) :
    let q := Real.sqrt (ei ^ 2 - m ^ 2) • d - Real.sqrt (ef ^ 2 - m ^ 2) • d.deflect (Real.cos a.1) a.2
    q.x ^ 2 + q.y ^ 2 + q.z ^ 2 + ME ^ 2 = (ei + ME - ef) ^ 2 := by
  obtain ⟨hi, hf, -, h0, hp, hc⟩ := ioniz_cos h
  have hu := C45_deflect_unit d hd (Real.cos a.1) a.2
  have ha := C45_deflect_angle d hd (Real.cos a.1) a.2 (Real.neg_one_le_cos _) (Real.cos_le_one _)
  have e1 : ei ^ 2 - m ^ 2 = (ei + m) * (ei - m) := by ring
  have e2 : ef ^ 2 - m ^ 2 = (ef + m) * (ef - m) := by ring
  rw [e1, e2]
  set n := d.deflect (Real.cos a.1) a.2 with hn
  set p := Real.sqrt ((ei + m) * (ei - m)) with hpdef
  set k := Real.sqrt ((ef + m) * (ef - m)) with hkdef
  have hp2 : p ^ 2 = (ei + m) * (ei - m) := Real.sq_sqrt hi.le
  have hk2 : k ^ 2 = (ef + m) * (ef - m) := Real.sq_sqrt hf.le
  unfold UnitVec at hd hu
  unfold cosAngle at ha
  intro q
  have hx : q.x = p * d.x - k * n.x := rfl
  have hy : q.y = p * d.y - k * n.y := rfl
  have hz : q.z = p * d.z - k * n.z := rfl
  rw [hx, hy, hz]
  have key : (p * d.x - k * n.x) ^ 2 + (p * d.y - k * n.y) ^ 2 + (p * d.z - k * n.z) ^ 2 =
      p ^ 2 + k ^ 2 - 2 * ((ei + ME) * ef - ei * ME - m * m) := by
    rw [← hc, ← ha]
    linear_combination p ^ 2 * hd + k ^ 2 * hu
  rw [key, hp2, hk2]
  ring

/-- C103: for final energies above the rest energy the deflection is defined exactly for the losses that an electron at
rest can take. -/
theorem C103_defined (m ei ef r0 : ℝ) (hm : 0 ≤ m) (hf : m < ef) (hfi : ef ≤ ei) :
    (ionizNaive m ei ef r0).isSome ↔ (ei - ef) * (m ^ 2 + ME ^ 2 + 2 * ei * ME) ≤ 2 * ME * (ei ^ 2 - m ^ 2) := by
  have hme := me_pos
  have hi0 : 0 < (ei + m) * (ei - m) := mul_pos (by linarith) (by linarith)
  have hf0 : 0 < (ef + m) * (ef - m) := mul_pos (by linarith) (by linarith)
  set p := Real.sqrt ((ei + m) * (ei - m)) with hpdef
  set k := Real.sqrt ((ef + m) * (ef - m)) with hkdef
  have hp : 0 < p := Real.sqrt_pos.2 hi0
  have hk : 0 < k := Real.sqrt_pos.2 hf0
  have hp2 : p ^ 2 = (ei + m) * (ei - m) := Real.sq_sqrt hi0.le
  have hk2 : k ^ 2 = (ef + m) * (ef - m) := Real.sq_sqrt hf0.le
  set N := (ei + ME) * ef - ei * ME - m * m with hN
  have key : N ^ 2 - (p * k) ^ 2 =
      (ei - ef) * ((ei - ef) * (m ^ 2 + ME ^ 2 + 2 * ei * ME) - 2 * ME * (ei ^ 2 - m ^ 2)) := by
    rw [mul_pow, hp2, hk2, hN]; ring
  have hpk := mul_pos hp hk
  have main : (ionizNaive m ei ef r0).isSome ↔ N ^ 2 ≤ (p * k) ^ 2 := by
    unfold ionizNaive
    simp only
    rw [if_neg (by push Not; exact ⟨hi0, hf0⟩), ← hpdef, ← hkdef, ← hN, sq_le_sq, abs_of_pos hpk, abs_le]
    have l1 : N / (p * k) < -1 ↔ N < -(p * k) := by rw [div_lt_iff₀ hpk, neg_one_mul]
    have l2 : 1 < N / (p * k) ↔ p * k < N := by rw [lt_div_iff₀ hpk, one_mul]
    by_cases hc : N / (p * k) < -1 ∨ 1 < N / (p * k)
    · rw [if_pos hc]
      rw [l1, l2] at hc
      simp only [Option.isSome_none, Bool.false_eq_true, false_iff, not_and, not_le]
      intro h1
      rcases hc with hc | hc
      · exact absurd h1 (not_le.2 hc)
      · exact hc
    · rw [if_neg hc]
      rw [l1, l2] at hc
      push Not at hc
      simp [hc.1, hc.2]
  rw [main, ← sub_nonpos, key]
  rcases hfi.eq_or_lt with h | h
  · subst h
    simp only [sub_self, zero_mul, zero_sub, le_refl, true_iff]
    have : 0 < ef ^ 2 - m ^ 2 := by nlinarith
    positivity
  · have h0 : 0 < ei - ef := sub_pos.2 h
    constructor
    · intro hh
      by_contra hc
      push Not at hc
      exact absurd hh (not_le.2 (mul_pos h0 (sub_pos.2 hc)))
    · intro hh
      exact mul_nonpos_of_nonneg_of_nonpos h0.le (sub_nonpos.2 hh)

/-- C103: every loss within the kinematic limits of heavy particles has a deflection. -/
theorem C103_within_limits (m I ei ef r0 : ℝ) (hm0 : 0 < m) (hm : m ≠ ME) (hE : m < ei) (hfi : ef ≤ ei)
    (hv : (ei - ef) / ei ≤ (limBetheBloch m I ei).vMax)
    (hopen : (limBetheBloch m I ei).vMin < (limBetheBloch m I ei).vMax) : (ionizNaive m ei ef r0).isSome := by
  have hme := me_pos
  have hE0 : 0 < ei := hm0.trans hE
  have hmin : (ei - ef) / ei ≤ min (2 * ME * (ei / m * (ei / m) - 1) / ((1 + 2 * (ei / m) * (ME / m) + ME / m * (ME / m)) * ei)) (1 - m / ei) := by
    simp only [limBetheBloch, KinLim.raised] at hv hopen
    split_ifs at hv hopen with h
    · simp at hopen
    · exact hv
  have h1 := hmin.trans (min_le_left _ _)
  have h2 := hmin.trans (min_le_right _ _)
  have hT : (ei - ef) * (m ^ 2 + ME ^ 2 + 2 * ei * ME) ≤ 2 * ME * (ei ^ 2 - m ^ 2) := by
    have e : 2 * ME * (ei / m * (ei / m) - 1) / ((1 + 2 * (ei / m) * (ME / m) + ME / m * (ME / m)) * ei) =
        2 * ME * (ei ^ 2 - m ^ 2) / ((m ^ 2 + ME ^ 2 + 2 * ei * ME) * ei) := by
      rw [div_eq_div_iff (by positivity) (by positivity)]
      field_simp
      ring
    rw [e, div_le_div_iff₀ hE0 (by positivity)] at h1
    have : ei * ((ei - ef) * (m ^ 2 + ME ^ 2 + 2 * ei * ME)) ≤ ei * (2 * ME * (ei ^ 2 - m ^ 2)) := by linarith
    exact le_of_mul_le_mul_left this hE0
  have hle : m ≤ ef := by
    rw [div_le_iff₀ hE0, sub_mul, one_mul, div_mul_cancel₀ _ hE0.ne'] at h2
    linarith
  have hlt : m < ef := by
    rcases hle.lt_or_eq with h | h
    · exact h
    · exfalso
      subst h
      have hpos : 0 < (m - ME) ^ 2 := by
        have : m - ME ≠ 0 := sub_ne_zero.2 hm
        positivity
      have : 0 < (ei - m) * (m - ME) ^ 2 := mul_pos (by linarith) hpos
      nlinarith
  exact (C103_defined m ei ef r0 hm0.le hlt hfi).2 hT

/-- C103: a loss that leaves a particle at rest has no deflection: the result is a NaN. This is the limit of positrons. -/
theorem C103_at_rest (m ei r0 : ℝ) : ionizNaive m ei m r0 = none := by
  unfold ionizNaive
  simp

/-- C103: the deflection of the track is the one of the primary among the secondaries, for the same random number. -/
theorem C103_secondaries {m E v rnd : ℝ} {dir : Vec3} {p : Vec3 × Vec3} {a : ℝ × ℝ}
    (hs : ionizationDirections m dir E v rnd = some p) (hd : ionizNaive m E (E * (1 - v)) rnd = some a) :
    p.1 = dir.deflect (Real.cos a.1) a.2 := by
  have hc := ioniz_cos hd
  unfold ionizationDirections at hs
  simp only at hs
  split_ifs at hs
  simp only [Option.some.injEq] at hs
  subst hs
  simp only [opposite]
  have h1 := Real.sqrt_pos.2 hc.1
  have h2 := Real.sqrt_pos.2 hc.2.1
  rw [hc.2.2.1, ← hc.2.2.2.2.2, mul_div_cancel_right₀ _ (mul_pos h1 h2).ne']
  congr 1
  ring

/-- A muon of 10 GeV that loses 100 MeV. -/
example : ∃ a, ionizNaive 105.6583745 10000 9900 0.25 = some a ∧ UnitVec ⟨0, 0, 1⟩ ∧
    (limBetheBloch 105.6583745 75 10000).vMin < (limBetheBloch 105.6583745 75 10000).vMax := by
  refine ⟨_, Option.some_get ((C103_defined 105.6583745 10000 9900 0.25 (by norm_num) (by norm_num) (by norm_num)).2
    (by norm_num [ME])) |>.symm, by norm_num [UnitVec], ?_⟩
  simp only [limBetheBloch, KinLim.raised]
  rw [if_neg] <;> norm_num [ME]

/-! ## Bremsstrahlung, approximation of Tsai -/

private theorem tsai_rmax_pos {m ei ef : ℝ} (hm : 0 < m) (hf : 0 < ef) (hfi : ef ≤ ei) : 0 < tsaiRMax m ei ef := by
  have hi := hf.trans_le hfi
  unfold tsaiRMax
  split_ifs with h
  · positivity
  · have h0 : 0 < ei - ef := lt_of_le_of_ne (sub_nonneg.2 hfi) (Ne.symm h)
    have : 0 < min 1 (ef / (ei - ef)) := lt_min one_pos (by positivity)
    positivity

/-- The fraction `a` for a random number of at most 1 and the quotient of it. -/
private theorem tsai_fraction {r u : ℝ} (hr : 0 < r) (h0 : 0 ≤ u) (h1 : u ≤ 1) :
    let a := u * (r * r) / (1 + r * r)
    0 ≤ a ∧ a < 1 ∧ a / (1 - a) ≤ r ^ 2 := by
  intro a
  have hpos : 0 < 1 + r * r := by positivity
  have ha0 : 0 ≤ a := by positivity
  have ha : a ≤ r * r / (1 + r * r) := by
    apply div_le_div_of_nonneg_right _ hpos.le
    nlinarith [mul_pos hr hr]
  have hlt : a < 1 := by
    refine lt_of_le_of_lt ha ?_
    rw [div_lt_one hpos]
    linarith
  refine ⟨ha0, hlt, ?_⟩
  rw [div_le_iff₀ (by linarith)]
  have : a * (1 + r * r) ≤ r * r := by
    rw [le_div_iff₀ hpos] at ha
    exact ha
  nlinarith

/-- C104: the angles of the photon and of the particle are at least 0 and at most 1, and the transverse momenta of both
(for small angles) are equal. -/
theorem C104_range (m ei ef r0 r1 : ℝ) (hm : 0 < m) (hf : 0 < ef) (hfi : ef ≤ ei) (h0 : 0 ≤ r0) (h1 : r0 ≤ 1) :
    0 ≤ tsaiPhoton m ei ef r0 ∧ tsaiPhoton m ei ef r0 ≤ 1 ∧
    0 ≤ (tsaiDeflection m ei ef r0 r1).1 ∧ (tsaiDeflection m ei ef r0 r1).1 ≤ 1 ∧
    ef * (tsaiDeflection m ei ef r0 r1).1 = (ei - ef) * tsaiPhoton m ei ef r0 := by
  have hi := hf.trans_le hfi
  have hr := tsai_rmax_pos hm hf hfi
  obtain ⟨ha0, ha1, haq⟩ := tsai_fraction hr h0 h1
  have hph0 : 0 ≤ tsaiPhoton m ei ef r0 := by
    unfold tsaiPhoton
    exact mul_nonneg (by positivity) (Real.sqrt_nonneg _)
  have hph : tsaiPhoton m ei ef r0 ≤ m / ei * tsaiRMax m ei ef := by
    unfold tsaiPhoton
    apply mul_le_mul_of_nonneg_left _ (by positivity)
    exact (Real.sqrt_le_left hr.le).2 haq
  have hlim : m / ei * tsaiRMax m ei ef = if ei - ef = 0 then 1 else min 1 (ef / (ei - ef)) := by
    unfold tsaiRMax
    field_simp
  rw [hlim] at hph
  have hd0 : 0 ≤ (ei - ef) / ef := div_nonneg (sub_nonneg.2 hfi) hf.le
  refine ⟨hph0, ?_, mul_nonneg hd0 hph0, ?_, ?_⟩
  · refine hph.trans ?_
    split_ifs
    · exact le_rfl
    · exact min_le_left _ _
  · unfold tsaiDeflection
    simp only
    rcases eq_or_ne (ei - ef) 0 with h | h
    · rw [h]; simp
    · rw [if_neg h] at hph
      have hpos : 0 < ei - ef := lt_of_le_of_ne (sub_nonneg.2 hfi) (Ne.symm h)
      calc (ei - ef) / ef * tsaiPhoton m ei ef r0 ≤ (ei - ef) / ef * (ef / (ei - ef)) :=
            mul_le_mul_of_nonneg_left (hph.trans (min_le_right _ _)) hd0
        _ = 1 := by field_simp
  · unfold tsaiDeflection
    field_simp

/-- The antiderivative of the distribution. -/
private theorem tsai_integral (x : ℝ) : ∫ s in (0 : ℝ)..x, s / (1 + s ^ 2) ^ 2 = x ^ 2 / (1 + x ^ 2) / 2 := by
  have hd : ∀ s ∈ Set.uIcc 0 x, HasDerivAt (fun t : ℝ => t ^ 2 / (1 + t ^ 2) / 2) (s / (1 + s ^ 2) ^ 2) s := by
    intro s _
    have hp : (1 + s ^ 2) ≠ 0 := by positivity
    have h1 : HasDerivAt (fun t : ℝ => t ^ 2) (2 * s) s := by simpa using hasDerivAt_pow 2 s
    have h2 : HasDerivAt (fun t : ℝ => t ^ 2 / (1 + t ^ 2) / 2)
        ((2 * s * (1 + s ^ 2) - s ^ 2 * (2 * s)) / (1 + s ^ 2) ^ 2 / 2) s := (h1.div (h1.const_add 1) hp).div_const 2
    convert h2 using 1
    field_simp
    ring
  have hc : ContinuousOn (fun s : ℝ => s / (1 + s ^ 2) ^ 2) (Set.uIcc 0 x) := by
    apply Continuous.continuousOn
    exact continuous_id.div (by fun_prop) (fun s => by positivity)
  rw [intervalIntegral.integral_eq_sub_of_hasDerivAt hd hc.intervalIntegrable]
  simp

/-- C104: the azimuth covers the circle evenly: random numbers below 1 give every direction exactly once, and equal differences
of random numbers give equal differences of the azimuth. -/
theorem C104_azimuth (m ei ef r0 : ℝ) :
    Set.BijOn (fun r1 => (tsaiDeflection m ei ef r0 r1).2) (Set.Ico 0 1) (Set.Ico 0 (2 * Real.pi)) ∧
    ∀ r d, (tsaiDeflection m ei ef r0 (r + d)).2 - (tsaiDeflection m ei ef r0 r).2 = 2 * Real.pi * d := by
  have hpi := Real.two_pi_pos
  refine ⟨⟨fun r h => ?_, fun r _ r' _ h => ?_, fun φ h => ⟨φ / (2 * Real.pi), ?_, ?_⟩⟩, fun r d => ?_⟩
  · simp only [tsaiDeflection]
    exact ⟨mul_nonneg hpi.le h.1, by nlinarith [h.2]⟩
  · simp only [tsaiDeflection] at h
    exact mul_left_cancel₀ hpi.ne' h
  · exact ⟨div_nonneg h.1 hpi.le, (div_lt_one hpi).mpr h.2⟩
  · simp only [tsaiDeflection]
    field_simp
  · simp only [tsaiDeflection]
    ring

/-- C104: the angle of the photon in units of `m / E` is sampled from the density proportional to `s / (1 + s²)²` up to the
largest angle: the integral up to the sampled value is the random number times the full one. -/
theorem C104_inverse (m ei ef r0 : ℝ) (hm : 0 < m) (hf : 0 < ef) (hfi : ef ≤ ei) (h0 : 0 ≤ r0) (h1 : r0 ≤ 1) :
    ∫ s in (0 : ℝ)..(tsaiPhoton m ei ef r0 * ei / m), s / (1 + s ^ 2) ^ 2 =
      r0 * ∫ s in (0 : ℝ)..((if ei - ef = 0 then 1 else min 1 (ef / (ei - ef))) * ei / m), s / (1 + s ^ 2) ^ 2 := by
  have hi := hf.trans_le hfi
  have hr := tsai_rmax_pos hm hf hfi
  obtain ⟨ha0, ha1, haq⟩ := tsai_fraction hr h0 h1
  have e1 : (if ei - ef = 0 then 1 else min 1 (ef / (ei - ef))) * ei / m = tsaiRMax m ei ef := by
    unfold tsaiRMax; ring
  rw [e1, tsai_integral, tsai_integral]
  unfold tsaiPhoton
  simp only
  set r := tsaiRMax m ei ef
  set a := r0 * (r * r) / (1 + r * r) with ha
  have e2 : (m / ei * Real.sqrt (a / (1 - a)) * ei / m) = Real.sqrt (a / (1 - a)) := by field_simp
  have hq : 0 ≤ a / (1 - a) := div_nonneg ha0 (by linarith)
  have hne : 1 - a ≠ 0 := by linarith
  have hs : (a / (1 - a)) / (1 + a / (1 - a)) = a := by
    have : 1 + a / (1 - a) = 1 / (1 - a) := by field_simp; ring
    rw [this]
    field_simp
  rw [e2, Real.sq_sqrt hq, hs, ha]
  have : 1 + r ^ 2 ≠ 0 := by positivity
  have : 1 + r * r ≠ 0 := by positivity
  field_simp

/-- C104: with the random number 1 the angle of the photon is the largest one, and the angle grows with the random
number. -/
theorem C104_monotone (m ei ef u v : ℝ) (hm : 0 < m) (hf : 0 < ef) (hfi : ef ≤ ei) (h0 : 0 ≤ u) (huv : u < v) (h1 : v ≤ 1) :
    tsaiPhoton m ei ef u < tsaiPhoton m ei ef v ∧
    tsaiPhoton m ei ef 1 = if ei - ef = 0 then 1 else min 1 (ef / (ei - ef)) := by
  have hi := hf.trans_le hfi
  have hr := tsai_rmax_pos hm hf hfi
  constructor
  · unfold tsaiPhoton
    simp only
    obtain ⟨hu0, hu1, -⟩ := tsai_fraction hr h0 (huv.le.trans h1)
    obtain ⟨hv0, hv1, -⟩ := tsai_fraction hr (h0.trans huv.le) h1
    apply mul_lt_mul_of_pos_left _ (by positivity)
    apply Real.sqrt_lt_sqrt (div_nonneg hu0 (by linarith))
    have hlt : u * (tsaiRMax m ei ef * tsaiRMax m ei ef) / (1 + tsaiRMax m ei ef * tsaiRMax m ei ef) <
        v * (tsaiRMax m ei ef * tsaiRMax m ei ef) / (1 + tsaiRMax m ei ef * tsaiRMax m ei ef) := by
      apply div_lt_div_of_pos_right _ (by positivity)
      exact mul_lt_mul_of_pos_right huv (by positivity)
    rw [div_lt_div_iff₀ (by linarith) (by linarith)]
    nlinarith
  · unfold tsaiPhoton
    simp only
    have hlim : m / ei * tsaiRMax m ei ef = if ei - ef = 0 then 1 else min 1 (ef / (ei - ef)) := by
      unfold tsaiRMax
      field_simp
    rw [← hlim]
    congr 1
    set r := tsaiRMax m ei ef
    have : 1 * (r * r) / (1 + r * r) / (1 - 1 * (r * r) / (1 + r * r)) = r ^ 2 := by
      have hp : 1 + r * r ≠ 0 := by positivity
      have : 1 - 1 * (r * r) / (1 + r * r) = 1 / (1 + r * r) := by field_simp; ring
      rw [this]
      field_simp
    rw [this, Real.sqrt_sq hr.le]

/-- A muon of 10 GeV that loses half of its energy. -/
example : tsaiPhoton 105 10000 5000 1 = 1 ∧ 0 < tsaiPhoton 105 10000 5000 0.5 := by
  have h := C104_monotone 105 10000 5000 0.5 1 (by norm_num) (by norm_num) (by norm_num) (by norm_num) (by norm_num) le_rfl
  have h' := C104_monotone 105 10000 5000 0 0.5 (by norm_num) (by norm_num) (by norm_num) (by norm_num) (by norm_num) (by norm_num)
  refine ⟨by rw [h.2]; norm_num, lt_of_le_of_lt ?_ h'.1⟩
  exact (C104_range 105 10000 5000 0 0 (by norm_num) (by norm_num) (by norm_num) le_rfl (by norm_num)).1

/-! ## Photonuclear interactions, Borog and Petrukhin -/

/-- The smallest squared momentum transfer, `m² ε² / (E E')`. -/
private theorem borogTMin_eq {m ei ef : ℝ} (hi : ei ≠ 0) (hf : ef ≠ 0) :
    borogTMin m ei ef = m ^ 2 * (ei - ef) ^ 2 / (ei * ef) := by
  unfold borogTMin
  have : 1 - (ei - ef) / ei = ef / ei := by field_simp; ring
  rw [this]
  field_simp

private theorem borogT1_eq (ei ef : ℝ) : borogT1 ei ef = min ((ei - ef) ^ 2) 400000 := by
  unfold borogT1
  have h : Real.sqrt 0.4 * 1e3 * (Real.sqrt 0.4 * 1e3) = 400000 := by
    have := Real.mul_self_sqrt (show (0 : ℝ) ≤ 0.4 by norm_num)
    have e : Real.sqrt 0.4 * 1e3 * (Real.sqrt 0.4 * 1e3) = Real.sqrt 0.4 * Real.sqrt 0.4 * 1e6 := by norm_num; ring
    rw [e, this]; norm_num
  rw [h, sq]

/-- The sampled momentum transfer as a quotient. -/
private theorem borogT_ratio {a b t u : ℝ} (ha : 0 < a) (hab : a ≤ b) (ht : 0 < t) (h0 : 0 ≤ u) (h1 : u ≤ 1) :
    a ≤ borogT a b t u ∧ borogT a b t u ≤ b ∧
      Real.log (borogT a b t u / (borogT a b t u + t)) =
        Real.log (b / (b + t)) - u * (Real.log (b / (b + t)) - Real.log (a / (a + t))) := by
  have hb : 0 < b := ha.trans_le hab
  set B := b * (a + t) / (a * (b + t)) with hB
  have hBpos : 0 < B := by positivity
  have hB1 : 1 ≤ B := by
    rw [hB, le_div_iff₀ (by positivity), one_mul]
    nlinarith
  have hBu1 : 1 ≤ B ^ u := Real.one_le_rpow hB1 h0
  have hBuB : B ^ u ≤ B := by
    calc B ^ u ≤ B ^ (1 : ℝ) := Real.rpow_le_rpow_of_exponent_le hB1 h1
      _ = B := Real.rpow_one B
  set P := B ^ u with hP
  have hden : 0 < (b + t) * P - b := by nlinarith
  have hT : borogT a b t u = b * t / ((b + t) * P - b) := rfl
  rw [hT]
  refine ⟨?_, ?_, ?_⟩
  · rw [le_div_iff₀ hden]
    have : P * (a * (b + t)) ≤ b * (a + t) := by
      rw [hB, le_div_iff₀ (by positivity)] at hBuB
      exact hBuB
    nlinarith
  · rw [div_le_iff₀ hden]
    have : (b + t) * 1 ≤ (b + t) * P := mul_le_mul_of_nonneg_left hBu1 (by positivity)
    nlinarith
  · have hPpos : 0 < P := by positivity
    have e : b * t / ((b + t) * P - b) / (b * t / ((b + t) * P - b) + t) = b / (b + t) / P := by
      have h2 : b * t / ((b + t) * P - b) + t = t * (b + t) * P / ((b + t) * P - b) := by
        field_simp
        ring
      rw [h2]
      field_simp
    have hlogB : Real.log B = Real.log (b / (b + t)) - Real.log (a / (a + t)) := by
      rw [← Real.log_div (by positivity) (by positivity)]
      congr 1
      rw [hB]
      field_simp
    rw [e, Real.log_div (by positivity) hPpos.ne', hP, Real.log_rpow hBpos, hlogB]

/-- The kinematics below the largest loss: the radicand lies in [0, 1]. -/
private theorem borog_kinematics {m ei ef : ℝ} (hf : (MP ^ 2 + m ^ 2) / (2 * MP) ≤ ef) (hfi : ef < ei) :
    m ^ 2 * (ei - ef) ^ 2 / (ei * ef) < 2 * MP * (ei - ef) ∧
    2 * MP * (ei - ef) + m ^ 2 * (ei - ef) ^ 2 / (ei * ef) ≤ 4 * (ei * ef - m * m) := by
  have hMP : 0 < MP := by norm_num [MP]
  have hE0 : 0 < (MP ^ 2 + m ^ 2) / (2 * MP) := by positivity
  have hf0 : 0 < ef := hE0.trans_le hf
  have hi0 : 0 < ei := hf0.trans hfi
  have hε : 0 < ei - ef := sub_pos.2 hfi
  rw [div_le_iff₀ (by positivity)] at hf
  have hprod : 0 < ei * ef := mul_pos hi0 hf0
  constructor
  · rw [div_lt_iff₀ hprod]
    have h1 : m ^ 2 * (ei - ef) < 2 * MP * (ei * ef) := by
      have : m ^ 2 < ef * (2 * MP) := by nlinarith [sq_nonneg MP, mul_pos hMP hMP]
      nlinarith [mul_pos hi0 hf0, sq_nonneg m, mul_nonneg (sq_nonneg m) hf0.le, mul_pos hi0 (sub_pos.2 this)]
    nlinarith [mul_pos hε (sub_pos.2 h1)]
  · rw [← le_sub_iff_add_le', div_le_iff₀ hprod]
    -- with `d = ef - E0`
    obtain ⟨d, hd⟩ : ∃ d, d = ef * (2 * MP) - (MP ^ 2 + m ^ 2) := ⟨_, rfl⟩
    have hd0 : 0 ≤ d := by rw [hd]; linarith
    set x := ei - ef with hx
    have hei : ei = ef + x := by rw [hx]; ring
    rw [hei]
    -- 4 (E E' - m²) - 2 MP ε in terms of E', ε
    have hq : 2 * MP * ef = MP ^ 2 + m ^ 2 + d := by rw [hd]; ring
    have key : 0 ≤ (4 * ((ef + x) * ef - m * m) - 2 * MP * x) * ((ef + x) * ef) - m ^ 2 * x ^ 2 := by
      have hsq : 4 * ef ^ 2 * MP ^ 2 = (MP ^ 2 + m ^ 2 + d) ^ 2 := by rw [← hq]; ring
      -- multiply by MP²
      have hgoal : 0 ≤ MP ^ 2 * ((4 * ((ef + x) * ef - m * m) - 2 * MP * x) * ((ef + x) * ef) - m ^ 2 * x ^ 2) := by
        have e1 : MP ^ 2 * ((4 * ((ef + x) * ef - m * m) - 2 * MP * x) * ((ef + x) * ef) - m ^ 2 * x ^ 2) =
            (MP ^ 2 * 4 * ef ^ 2 - 4 * m ^ 2 * MP ^ 2) * (ef ^ 2 + x * ef) +
              2 * MP ^ 2 * x * (2 * ef - MP) * (ef ^ 2 + x * ef) - MP ^ 2 * m ^ 2 * x ^ 2 := by ring
        rw [e1]
        have e2 : MP ^ 2 * 4 * ef ^ 2 - 4 * m ^ 2 * MP ^ 2 = (MP ^ 2 - m ^ 2) ^ 2 + d * (2 * (MP ^ 2 + m ^ 2) + d) := by
          rw [show MP ^ 2 * 4 * ef ^ 2 = 4 * ef ^ 2 * MP ^ 2 by ring, hsq]; ring
        have e3 : MP * (2 * ef - MP) = m ^ 2 + d := by nlinarith
        have e4 : 2 * MP ^ 2 * x * (2 * ef - MP) * (ef ^ 2 + x * ef) = (m ^ 2 + d) * (x * ef ^ 2 * 2 * MP) + (m ^ 2 + d) * x ^ 2 * (MP ^ 2 + m ^ 2 + d) := by
          calc 2 * MP ^ 2 * x * (2 * ef - MP) * (ef ^ 2 + x * ef)
              = (MP * (2 * ef - MP)) * (x * ef ^ 2 * 2 * MP) + (MP * (2 * ef - MP)) * x ^ 2 * (2 * MP * ef) := by ring
            _ = _ := by rw [e3, hq]
        rw [e2, e4]
        have p1 : 0 ≤ ((MP ^ 2 - m ^ 2) ^ 2 + d * (2 * (MP ^ 2 + m ^ 2) + d)) * (ef ^ 2 + x * ef) := by positivity
        have p2 : 0 ≤ (m ^ 2 + d) * (x * ef ^ 2 * 2 * MP) := by positivity
        have p3 : MP ^ 2 * m ^ 2 * x ^ 2 ≤ (m ^ 2 + d) * x ^ 2 * (MP ^ 2 + m ^ 2 + d) := by
          have : MP ^ 2 * m ^ 2 ≤ (m ^ 2 + d) * (MP ^ 2 + m ^ 2 + d) := by
            have a1 : 0 ≤ m ^ 2 * (m ^ 2 + d) := by positivity
            have a2 : 0 ≤ d * (MP ^ 2 + m ^ 2 + d) := by positivity
            linarith
          calc MP ^ 2 * m ^ 2 * x ^ 2 ≤ (m ^ 2 + d) * (MP ^ 2 + m ^ 2 + d) * x ^ 2 :=
                mul_le_mul_of_nonneg_right this (sq_nonneg _)
            _ = _ := by ring
        linarith
      exact nonneg_of_mul_nonneg_right hgoal (by positivity)
    linarith

/-- C105: for final energies of at least `(M² + m²) / (2 M)`, the kinematic limit for a proton, the deflection is defined; the
polar angle is between 0 and π. The momentum transfer of the angle is at least the smallest one, at most the largest one,
and its distribution function (density `1 / (s (1 + s / t₁))`) is given by the random number. -/
theorem C105_sampled (m ei ef r0 r1 : ℝ) (hm : 0 < m) (hf : (MP ^ 2 + m ^ 2) / (2 * MP) ≤ ef) (hfi : ef < ei)
    (h0 : 0 ≤ r0) (h1 : r0 ≤ 1) :
    ∃ θ, borogDeflection m ei ef r0 r1 = some (θ, 2 * Real.pi * r1) ∧ 0 ≤ θ ∧ θ ≤ Real.pi ∧
      let tmin := m ^ 2 * (ei - ef) ^ 2 / (ei * ef)
      let tmax := 2 * MP * (ei - ef)
      let t1 := min ((ei - ef) ^ 2) 400000
      let t := tmin + Real.sin (θ / 2) ^ 2 * (4 * (ei * ef - m ^ 2) - 2 * tmin)
      tmin ≤ t ∧ t ≤ tmax ∧
        ∫ s in t..tmax, 1 / (s * (1 + s / t1)) = r0 * ∫ s in tmin..tmax, 1 / (s * (1 + s / t1)) := by
  have hMP : 0 < MP := by norm_num [MP]
  have hE0 : 0 < (MP ^ 2 + m ^ 2) / (2 * MP) := by positivity
  have hf0 : 0 < ef := hE0.trans_le hf
  have hi0 : 0 < ei := hf0.trans hfi
  have hε : 0 < ei - ef := sub_pos.2 hfi
  obtain ⟨k1, k2⟩ := borog_kinematics (m := m) hf hfi
  set tmin := m ^ 2 * (ei - ef) ^ 2 / (ei * ef) with htmin
  have htmin0 : 0 < tmin := by positivity
  set tmax := 2 * MP * (ei - ef) with htmax
  set t1 := min ((ei - ef) ^ 2) 400000 with ht1
  have ht10 : 0 < t1 := lt_min (by positivity) (by norm_num)
  obtain ⟨b1, b2, b3⟩ := borogT_ratio htmin0 k1.le ht10 h0 h1
  set tp := borogT tmin tmax t1 r0 with htp
  set den := 4 * (ei * ef - m * m) - 2 * tmin with hden
  have hden0 : 0 < den := by rw [hden]; linarith
  have hs0 : 0 ≤ (tp - tmin) / den := div_nonneg (sub_nonneg.2 b1) hden0.le
  have hs1 : (tp - tmin) / den ≤ 1 := by
    rw [div_le_one hden0, hden]
    linarith
  have hres : borogDeflection m ei ef r0 r1 =
      some (2 * Real.arcsin (Real.sqrt ((tp - tmin) / den)), 2 * Real.pi * r1) := by
    have q1 : borogTMin m ei ef = tmin := borogTMin_eq hi0.ne' hf0.ne'
    have q2 : borogTMax ei ef = tmax := rfl
    have q3 : borogT1 ei ef = t1 := borogT1_eq ei ef
    have hcond : ¬ (den = 0 ∨ (tp - tmin) / den < 0 ∨ 1 < (tp - tmin) / den) := by
      push Not
      exact ⟨hden0.ne', hs0, hs1⟩
    simp only [borogDeflection, q1, q2, q3]
    rw [if_neg hε.ne', if_neg hcond]
  refine ⟨_, hres, ?_, ?_, ?_⟩
  · have := Real.arcsin_nonneg.2 (Real.sqrt_nonneg ((tp - tmin) / den))
    linarith
  · have := Real.arcsin_le_pi_div_two (Real.sqrt ((tp - tmin) / den))
    linarith
  · have hsin : Real.sin (2 * Real.arcsin (Real.sqrt ((tp - tmin) / den)) / 2) ^ 2 = (tp - tmin) / den := by
      rw [mul_div_cancel_left₀ _ (two_ne_zero), Real.sin_arcsin (by linarith [Real.sqrt_nonneg ((tp - tmin) / den)])
        (Real.sqrt_le_one.2 hs1), Real.sq_sqrt hs0]
    have ht : tmin + Real.sin (2 * Real.arcsin (Real.sqrt ((tp - tmin) / den)) / 2) ^ 2 * (4 * (ei * ef - m ^ 2) - 2 * tmin) = tp := by
      rw [hsin, sq m, ← hden, div_mul_cancel₀ _ hden0.ne']
      ring
    simp only
    rw [ht]
    refine ⟨b1, b2, ?_⟩
    have hint : ∀ a, 0 < a → a ≤ tmax → ∫ s in a..tmax, 1 / (s * (1 + s / t1)) =
        Real.log (tmax / (tmax + t1)) - Real.log (a / (a + t1)) := by
      intro a ha hab
      have hpos : ∀ s ∈ Set.uIcc a tmax, 0 < s := by
        intro s hs
        rw [Set.uIcc_of_le hab] at hs
        exact ha.trans_le hs.1
      have hd : ∀ s ∈ Set.uIcc a tmax, HasDerivAt (fun s : ℝ => Real.log (s / (s + t1))) (1 / (s * (1 + s / t1))) s := by
        intro s hs
        have hs0 := hpos s hs
        have hq : HasDerivAt (fun s : ℝ => s / (s + t1)) ((1 * (s + t1) - s * 1) / (s + t1) ^ 2) s :=
          (hasDerivAt_id s).div ((hasDerivAt_id s).add_const t1) (by positivity)
        have hl := hq.log (by positivity)
        convert hl using 1
        field_simp
        ring
      have hc : ContinuousOn (fun s : ℝ => 1 / (s * (1 + s / t1))) (Set.uIcc a tmax) := by
        apply ContinuousOn.div continuousOn_const
        · fun_prop
        · intro s hs
          have := hpos s hs
          positivity
      rw [intervalIntegral.integral_eq_sub_of_hasDerivAt hd hc.intervalIntegrable]
    rw [hint tp (htmin0.trans_le b1) b2, hint tmin htmin0 k1.le, b3]
    ring

/-- C105: for particles lighter than a pion every loss within the kinematic limits has a deflection; `M` is the average
weight of a nucleon, at least the mass of the proton. -/
theorem C105_within_limits (m M ei ef r0 r1 : ℝ) (hm : 0 < m) (hmpi : m < MPI) (hM : MP ≤ M) (hi : 0 < ei) (h0 : 0 ≤ r0) (h1 : r0 ≤ 1)
    (hv : (limPhotonuclear m M ei).vMin ≤ (ei - ef) / ei) (hv' : (ei - ef) / ei ≤ (limPhotonuclear m M ei).vMax)
    (hopen : (limPhotonuclear m M ei).vMin < (limPhotonuclear m M ei).vMax) :
    (borogDeflection m ei ef r0 r1).isSome := by
  have hMP : 0 < MP := by norm_num [MP]
  have hpi : 0 < MPI := by norm_num [MPI]
  have hpiMP : MPI < MP := by norm_num [MPI, MP]
  have hM0 : 0 < M := hMP.trans_le hM
  simp only [limPhotonuclear, KinLim.raised, if_pos hmpi] at hv hv' hopen
  split_ifs at hv hv' hopen with h
  · simp at hopen
  · have hmin : 0 < (MPI + MPI * MPI / (2 * M)) / ei := by positivity
    have hfi : ef < ei := by
      have : 0 < (ei - ef) / ei := hmin.trans_le hv
      have := (div_pos_iff_of_pos_right hi).1 this
      linarith
    have hlow : (MP ^ 2 + m ^ 2) / (2 * MP) ≤ ef := by
      rw [div_le_iff₀ hi, sub_mul, one_mul] at hv'
      have e : M * (1 + m / M * (m / M)) / (2 * ei) * ei = (M ^ 2 + m ^ 2) / (2 * M) := by field_simp
      rw [e] at hv'
      have : (MP ^ 2 + m ^ 2) / (2 * MP) ≤ (M ^ 2 + m ^ 2) / (2 * M) := by
        rw [div_le_div_iff₀ (by positivity) (by positivity)]
        have : 0 ≤ (M - MP) * (MP * M - m ^ 2) := by
          apply mul_nonneg (sub_nonneg.2 hM)
          nlinarith [mul_le_mul hM le_rfl hMP.le hM0.le]
        nlinarith
      linarith
    obtain ⟨θ, hθ, -⟩ := C105_sampled m ei ef r0 r1 hm hlow hfi h0 h1
    rw [hθ]
    rfl

/-- C105: for heavier particles the kinematic limits allow losses without a deflection: a tau of 10 GeV that loses 8.6 GeV,
with the random number 0, gives a NaN. -/
theorem C105_tau : ∃ ef, (limPhotonuclear MTAU MP 10000).vMin ≤ (10000 - ef) / 10000 ∧
    (10000 - ef) / 10000 ≤ (limPhotonuclear MTAU MP 10000).vMax ∧ borogDeflection MTAU 10000 ef 0 0 = none := by
  refine ⟨1400, ?_, ?_, ?_⟩
  · simp only [limPhotonuclear, KinLim.raised]
    rw [if_neg (by norm_num [MTAU, MPI] : ¬ MTAU < MPI), if_neg] <;> norm_num [MPI, MP]
  · simp only [limPhotonuclear, KinLim.raised]
    rw [if_neg (by norm_num [MTAU, MPI] : ¬ MTAU < MPI), if_neg] <;> norm_num [MPI, MP]
  · unfold borogDeflection
    simp only
    rw [if_neg (by norm_num), if_pos]
    right
    left
    have ht : borogT (borogTMin MTAU 10000 1400) (borogTMax 10000 1400) (borogT1 10000 1400) 0 = borogTMax 10000 1400 := by
      unfold borogT
      rw [Real.rpow_zero, mul_one, add_sub_cancel_left]
      apply mul_div_cancel_right₀
      rw [borogT1_eq]
      norm_num
    rw [ht]
    apply div_neg_of_neg_of_pos
    · norm_num [borogTMin, borogTMax, MTAU, MP]
    · norm_num [borogTMin, borogTMax, MTAU, MP]

/-- A muon of 10 GeV that loses 1 GeV. -/
example : (MP ^ 2 + MMU ^ 2) / (2 * MP) ≤ 9000 ∧ (limPhotonuclear MMU MP 10000).vMin ≤ (10000 - 9000) / 10000 ∧
    (10000 - 9000) / 10000 ≤ (limPhotonuclear MMU MP 10000).vMax ∧
    (limPhotonuclear MMU MP 10000).vMin < (limPhotonuclear MMU MP 10000).vMax := by
  refine ⟨by norm_num [MP, MMU], ?_⟩
  simp only [limPhotonuclear, KinLim.raised, if_pos (by norm_num [MMU, MPI] : MMU < MPI)]
  rw [if_neg] <;> norm_num [MPI, MP, MMU]

end Proposal
