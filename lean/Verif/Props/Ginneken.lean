import Verif.Model.Deflection
import Verif.Props.RootFinding
import Mathlib.Analysis.SpecialFunctions.Integrals.Basic
import Mathlib.Analysis.Complex.ExponentialBounds
import Mathlib.Analysis.SpecialFunctions.Pow.Continuity
import Mathlib.Analysis.Convex.SpecificFunctions.Basic

/-! Properties C106, C107: stochastic deflections in the parametrizations of van Ginneken. -/

namespace Proposal

/-! ## The sampled angle -/

/-- The square of the sampled angle. -/
private theorem rmsAngle_eq {rms u : ℝ} (h0 : 0 ≤ u) (h1 : u < 1) :
    ∃ t, rmsAngle rms u = some t ∧ 0 ≤ t ∧ t ^ 2 = -Real.log (1 - u) * rms ^ 2 := by
  unfold rmsAngle sampleFromExponential
  rw [if_pos h1]
  refine ⟨_, rfl, Real.sqrt_nonneg _, ?_⟩
  have hl : Real.log (1 + -u) ≤ 0 := Real.log_nonpos (by linarith) (by linarith)
  rw [Real.sq_sqrt]
  · rw [← sub_eq_add_neg]
    by_cases hr : rms = 0
    · subst hr; simp
    · field_simp
  · apply div_nonneg (by linarith)
    apply div_nonneg zero_le_one (mul_self_nonneg _)

/-- C106: for random numbers in [0, 1) the angle is non-negative; the random numbers with an angle up to `t` are those up to
`1 - exp (-t² / rms²)`. -/
theorem C106_angle (rms u : ℝ) (hr : 0 < rms) (h0 : 0 ≤ u) (h1 : u < 1) :
    ∃ t, rmsAngle rms u = some t ∧ 0 ≤ t ∧ ∀ s, 0 ≤ s → (t ≤ s ↔ u ≤ 1 - Real.exp (-(s / rms) ^ 2)) := by
  obtain ⟨t, ht, t0, t2⟩ := rmsAngle_eq (rms := rms) h0 h1
  refine ⟨t, ht, t0, fun s hs => ?_⟩
  rw [← sq_le_sq₀ t0 hs, t2, le_sub_comm, ← Real.le_log_iff_exp_le (by linarith), div_pow, neg_le, div_eq_mul_inv,
    ← div_eq_mul_inv, le_div_iff₀ (by positivity)]

/-- C106: the mean of the squared angle over the random numbers is the square of the parameter. -/
theorem C106_mean_square (rms : ℝ) : ∫ u in (0 : ℝ)..1, ((rmsAngle rms u).getD 0) ^ 2 = rms ^ 2 := by
  have h : ∫ u in (0 : ℝ)..1, ((rmsAngle rms u).getD 0) ^ 2 = ∫ u in (0 : ℝ)..1, -Real.log (1 - u) * rms ^ 2 := by
    apply intervalIntegral.integral_congr
    intro u hu
    rw [Set.uIcc_of_le zero_le_one] at hu
    simp only
    rcases hu.2.lt_or_eq with h1 | h1
    · obtain ⟨t, ht, -, t2⟩ := rmsAngle_eq (rms := rms) hu.1 h1
      rw [ht, Option.getD_some, t2]
    · rw [h1]; simp [rmsAngle]
  rw [h, intervalIntegral.integral_mul_const, intervalIntegral.integral_neg,
    intervalIntegral.integral_comp_sub_left (fun x => Real.log x) 1, integral_log]
  norm_num

/-- C106: nothing bounds the angle: for every positive `rms` there are random numbers below 1 with angles beyond π. -/
theorem C106_beyond_pi (rms : ℝ) (hr : 0 < rms) : ∃ u t, 0 ≤ u ∧ u < 1 ∧ rmsAngle rms u = some t ∧ Real.pi < t := by
  obtain ⟨s, hs⟩ : ∃ s, s = Real.pi + 1 := ⟨_, rfl⟩
  have hs0 : 0 < s := by rw [hs]; linarith [Real.pi_pos]
  have hx : Real.exp (-(s / rms) ^ 2) ≤ 1 := Real.exp_le_one_iff.2 (by linarith [sq_nonneg (s / rms)])
  have hx0 := Real.exp_pos (-(s / rms) ^ 2)
  obtain ⟨t, ht, t0, hc⟩ := C106_angle rms (1 - Real.exp (-(s / rms) ^ 2)) hr (by linarith) (by linarith)
  refine ⟨_, t, by linarith, by linarith, ht, ?_⟩
  by_contra hlt
  have h2 := (hc Real.pi Real.pi_pos.le).1 (not_lt.1 hlt)
  have h3 : Real.exp (-(Real.pi / rms) ^ 2) ≤ Real.exp (-(s / rms) ^ 2) := by linarith
  rw [Real.exp_le_exp] at h3
  have h4 : (Real.pi / rms) ^ 2 < (s / rms) ^ 2 := by
    apply pow_lt_pow_left₀ _ (by have := Real.pi_pos; positivity) two_ne_zero
    apply div_lt_div_of_pos_right _ hr
    rw [hs]; linarith
  linarith

/-- The angle grows with the parameter. -/
private theorem rmsAngle_mono {a b u : ℝ} (ha : 0 ≤ a) (hab : a ≤ b) (h0 : 0 ≤ u) (h1 : u < 1) :
    ∃ s t, rmsAngle a u = some s ∧ rmsAngle b u = some t ∧ 0 ≤ s ∧ s ≤ t := by
  obtain ⟨s, hs, s0, s2⟩ := rmsAngle_eq (rms := a) h0 h1
  obtain ⟨t, ht, t0, t2⟩ := rmsAngle_eq (rms := b) h0 h1
  refine ⟨s, t, hs, ht, s0, ?_⟩
  rw [← sq_le_sq₀ s0 t0, s2, t2]
  apply mul_le_mul_of_nonneg_left (pow_le_pow_left₀ ha hab 2)
  have : Real.log (1 - u) ≤ 0 := Real.log_nonpos (by linarith) (by linarith)
  linarith

/-! ## Pair production and photonuclear interactions -/

private theorem nu_scale (m ei ef : ℝ) : ginnekenNu (m / 1000) (ei / 1000) (ef / 1000) = (ei - ef) / (ei - m) := by
  unfold ginnekenNu
  rw [← sub_div, ← sub_div, div_div_div_cancel_right₀ (by norm_num)]

private theorem nu_range {m ei ef : ℝ} (hf : m < ef) (hfi : ef < ei) :
    0 < (ei - ef) / (ei - m) ∧ (ei - ef) / (ei - m) < 1 := by
  constructor
  · exact div_pos (by linarith) (by linarith)
  · rw [div_lt_one (by linarith)]; linarith

private theorem log_muon {e : ℝ} (h : MMU ≤ e) : 0 < 2.3 + Real.log (e / 1000) := by
  have h1 : Real.exp (-2.3) < e / 1000 := by
    have a1 := Real.exp_one_gt_d9
    have a2 := Real.add_one_le_exp (0.3 : ℝ)
    have a3 : Real.exp 2.3 = Real.exp 1 * Real.exp 1 * Real.exp 0.3 := by
      rw [← Real.exp_add, ← Real.exp_add]; norm_num
    have a4 : (9.5 : ℝ) ≤ Real.exp 2.3 := by
      rw [a3]
      have : (7.38 : ℝ) ≤ Real.exp 1 * Real.exp 1 := by nlinarith
      nlinarith
    rw [Real.exp_neg]
    have : (Real.exp 2.3)⁻¹ ≤ (9.5 : ℝ)⁻¹ := inv_anti₀ (by norm_num) a4
    refine this.trans_lt ?_
    have : (0.1056583745 : ℝ) ≤ e / 1000 := by
      rw [le_div_iff₀ (by norm_num)]
      refine le_trans ?_ h
      norm_num [MMU]
    refine lt_of_lt_of_le ?_ this
    norm_num
  have h2 : 0 < e / 1000 := (Real.exp_pos _).trans h1
  have := (Real.lt_log_iff_exp_lt h2).2 h1
  linarith

/-- The spread of the angle after a pair production, by the final energy; all energies in MeV. -/
noncomputable def epairSpread (m ei ef : ℝ) : ℝ :=
  (2.3 + Real.log (ei / 1000)) / (ei / 1000 * ((ef - m) / (ei - m))) * (1 - 2 * ME / ei * ((ei - m) / (ei - ef))) ^ 2 *
    min (0.00089 * ((ei - ef) / (ei - m)) ^ (1 / 4 : ℝ) * (1 + 0.000000015 * ei) + 0.032 * ((ei - ef) / (2 * ei - ef - m))) 0.1

private theorem epairRms_eq {m ei ef : ℝ} (hi : 0 < ei) (hf : m < ef) (hfi : ef < ei) :
    epairRms (m / 1000) (ei / 1000) (ef / 1000) = some (epairSpread m ei ef) := by
  unfold epairRms
  simp only
  rw [nu_scale]
  obtain ⟨n0, n1⟩ := nu_range hf hfi
  rw [if_neg]
  · congr 1
    unfold epairSpread
    have hx : (0 : ℝ) < ei - m := by linarith
    have hy : (0 : ℝ) < ei - ef := by linarith
    have e0 : 1 - (ei - ef) / (ei - m) = (ef - m) / (ei - m) := by field_simp; ring
    have e1 : (ei - ef) / (ei - m) / ((ei - ef) / (ei - m) + 1) = (ei - ef) / (2 * ei - ef - m) := by
      have : 2 * ei - ef - m ≠ 0 := by linarith
      have h3 : (ei - ef) / (ei - m) + 1 = (2 * ei - ef - m) / (ei - m) := by field_simp; ring
      rw [h3, div_div_div_cancel_right₀ hx.ne']
    have e2 : 8.9 / 10000 * ((ei - ef) / (ei - m)) ^ (0.25 : ℝ) * (1 + 1.5 / 100000 * (ei / 1000)) +
        0.032 * ((ei - ef) / (ei - m)) / ((ei - ef) / (ei - m) + 1) =
        0.00089 * ((ei - ef) / (ei - m)) ^ (1 / 4 : ℝ) * (1 + 0.000000015 * ei) + 0.032 * ((ei - ef) / (2 * ei - ef - m)) := by
      rw [mul_div_assoc, e1, show (0.25 : ℝ) = 1 / 4 by norm_num]
      congr 1
      have : (1 + 1.5 / 100000 * (ei / 1000)) = (1 + 0.000000015 * ei) := by ring_nf
      rw [this]
      norm_num
    rw [e2]
    congr 1
    rw [e0, Real.rpow_neg_one]
    have hz : (0 : ℝ) < ef - m := by linarith
    field_simp
  · push Not
    refine ⟨?_, n0.ne', by linarith⟩
    have : m / 1000 < ei / 1000 := by linarith
    linarith

/-- C106: the deflection of a muon after a pair production is defined for every final energy above the mass. The angle has the
distribution of C106 with the published spread, for random numbers in [0, 1). -/
theorem C106_epair (m ei ef u r1 : ℝ) (hm : MMU ≤ m) (hf : m < ef) (hfi : ef < ei) (hloss : 2 * ME < ei - ef) (h0 : 0 ≤ u) (h1 : u < 1) :
    0 < epairSpread m ei ef ∧ ∃ t, epairDeflection m ei ef u r1 = some (t, 2 * Real.pi * r1) ∧ 0 ≤ t ∧
      ∀ s, 0 ≤ s → (t ≤ s ↔ u ≤ 1 - Real.exp (-(s / epairSpread m ei ef) ^ 2)) := by
  have hmu : 0 < MMU := by norm_num [MMU]
  have hi : 0 < ei := by linarith
  have hME : 0 < ME := by norm_num [ME]
  have hpos : 0 < epairSpread m ei ef := by
    unfold epairSpread
    have hx : (0 : ℝ) < ei - m := by linarith
    have hy : (0 : ℝ) < ei - ef := by linarith
    have hz : (0 : ℝ) < ef - m := by linarith
    have hw : (0 : ℝ) < 2 * ei - ef - m := by linarith
    have hL := log_muon (show MMU ≤ ei by linarith)
    have hq : 0 < 1 - 2 * ME / ei * ((ei - m) / (ei - ef)) := by
      rw [div_mul_div_comm, sub_pos, div_lt_one (by positivity)]
      have : 2 * ME * (ei - m) < (ei - ef) * ei := by
        have b1 : 2 * ME * (ei - m) ≤ 2 * ME * ei := by apply mul_le_mul_of_nonneg_left <;> linarith
        have b2 : 2 * ME * ei < (ei - ef) * ei := mul_lt_mul_of_pos_right hloss hi
        linarith
      linarith [mul_comm ei (ei - ef)]
    have hmin : 0 < min (0.00089 * ((ei - ef) / (ei - m)) ^ (1 / 4 : ℝ) * (1 + 0.000000015 * ei) +
        0.032 * ((ei - ef) / (2 * ei - ef - m))) 0.1 := lt_min (by positivity) (by norm_num)
    positivity
  refine ⟨hpos, ?_⟩
  obtain ⟨t, ht, t0, hc⟩ := C106_angle (epairSpread m ei ef) u hpos h0 h1
  refine ⟨t, ?_, t0, hc⟩
  unfold epairDeflection
  rw [epairRms_eq hi hf hfi]
  simp [ht]

/-- The spread of the angle after a photonuclear interaction, by the final energy; all energies in MeV. -/
noncomputable def photoSpread (m ei ef : ℝ) : ℝ :=
  390 / (ei * ((ef - m) / (ei - m))) * (Real.sqrt (ei / 1000) * ((ei - ef) * (ef - m) / (ei - m) ^ 2)) ^ (0.17 : ℝ) *
    (1 - 135 / ei * ((ei - m) / (ei - ef)))

private theorem photoRms_eq {m ei ef : ℝ} (hi : 0 < ei) (hf : m < ef) (hfi : ef < ei) :
    photoRms (m / 1000) (ei / 1000) (ef / 1000) = some (photoSpread m ei ef) := by
  unfold photoRms
  simp only
  rw [nu_scale]
  obtain ⟨n0, n1⟩ := nu_range hf hfi
  rw [if_neg]
  · congr 1
    unfold photoSpread
    have hx : (0 : ℝ) < ei - m := by linarith
    have hy : (0 : ℝ) < ei - ef := by linarith
    have hz : (0 : ℝ) < ef - m := by linarith
    have e0 : 1 - (ei - ef) / (ei - m) = (ef - m) / (ei - m) := by field_simp; ring
    have e1 : Real.sqrt (ei / 1000) * ((ei - ef) / (ei - m)) * ((ef - m) / (ei - m)) =
        Real.sqrt (ei / 1000) * ((ei - ef) * (ef - m) / (ei - m) ^ 2) := by field_simp
    rw [e0, e1]
    congr 1
    · congr 1
      field_simp
      norm_num
    · field_simp
      norm_num
      ring
  · push Not
    refine ⟨?_, n0.ne', by linarith⟩
    have : m / 1000 < ei / 1000 := by linarith
    linarith

/-- C106: the same for photonuclear interactions with losses of more than 135 MeV. -/
theorem C106_photo (m ei ef u r1 : ℝ) (hm : 0 < m) (hf : m < ef) (hfi : ef < ei) (hloss : 135 ≤ ei - ef) (h0 : 0 ≤ u) (h1 : u < 1) :
    0 < photoSpread m ei ef ∧ ∃ t, photoDeflection m ei ef u r1 = some (t, 2 * Real.pi * r1) ∧ 0 ≤ t ∧
      ∀ s, 0 ≤ s → (t ≤ s ↔ u ≤ 1 - Real.exp (-(s / photoSpread m ei ef) ^ 2)) := by
  have hi : 0 < ei := by linarith
  have hpos : 0 < photoSpread m ei ef := by
    unfold photoSpread
    have hx : (0 : ℝ) < ei - m := by linarith
    have hy : (0 : ℝ) < ei - ef := by linarith
    have hz : (0 : ℝ) < ef - m := by linarith
    have hs : 0 < Real.sqrt (ei / 1000) := Real.sqrt_pos.2 (by positivity)
    have hq : 0 < 1 - 135 / ei * ((ei - m) / (ei - ef)) := by
      rw [div_mul_div_comm, sub_pos, div_lt_one (by positivity)]
      nlinarith
    positivity
  refine ⟨hpos, ?_⟩
  obtain ⟨t, ht, t0, hc⟩ := C106_angle (photoSpread m ei ef) u hpos h0 h1
  refine ⟨t, ?_, t0, hc⟩
  unfold photoDeflection
  rw [photoRms_eq hi hf hfi]
  simp [ht]

private theorem epairSpread_mono {m ei ef ef' : ℝ} (hm : MMU ≤ m) (hf : m < ef') (hff : ef' ≤ ef) (hloss : 2 * ME < ei - ef) :
    epairSpread m ei ef ≤ epairSpread m ei ef' := by
  have hmu : 0 < MMU := by norm_num [MMU]
  have hME : 0 < ME := by norm_num [ME]
  have hi : 0 < ei := by linarith
  have hx : (0 : ℝ) < ei - m := by linarith
  have hy : (0 : ℝ) < ei - ef := by linarith
  have hy' : (0 : ℝ) < ei - ef' := by linarith
  have hz : (0 : ℝ) < ef - m := by linarith
  have hz' : (0 : ℝ) < ef' - m := by linarith
  have hL := log_muon (show MMU ≤ ei by linarith)
  have hw : (0 : ℝ) < 2 * ei - ef - m := by linarith
  have hw' : (0 : ℝ) < 2 * ei - ef' - m := by linarith
  have hq : 0 ≤ 1 - 2 * ME / ei * ((ei - m) / (ei - ef)) := by
    rw [div_mul_div_comm, sub_nonneg, div_le_one (by positivity)]
    have b1 : 2 * ME * (ei - m) ≤ 2 * ME * ei := by apply mul_le_mul_of_nonneg_left <;> linarith
    have b2 : 2 * ME * ei < (ei - ef) * ei := mul_lt_mul_of_pos_right hloss hi
    linarith [mul_comm ei (ei - ef)]
  have g1 : (2.3 + Real.log (ei / 1000)) / (ei / 1000 * ((ef - m) / (ei - m))) ≤
      (2.3 + Real.log (ei / 1000)) / (ei / 1000 * ((ef' - m) / (ei - m))) := by
    gcongr
  have g2 : (1 - 2 * ME / ei * ((ei - m) / (ei - ef))) ^ 2 ≤ (1 - 2 * ME / ei * ((ei - m) / (ei - ef'))) ^ 2 := by
    apply pow_le_pow_left₀ hq
    gcongr
  have g3 : (ei - ef) / (2 * ei - ef - m) ≤ (ei - ef') / (2 * ei - ef' - m) := by
    rw [div_le_div_iff₀ hw hw']
    nlinarith
  have g4 : min (0.00089 * ((ei - ef) / (ei - m)) ^ (1 / 4 : ℝ) * (1 + 0.000000015 * ei) + 0.032 * ((ei - ef) / (2 * ei - ef - m))) 0.1 ≤
      min (0.00089 * ((ei - ef') / (ei - m)) ^ (1 / 4 : ℝ) * (1 + 0.000000015 * ei) + 0.032 * ((ei - ef') / (2 * ei - ef' - m))) (0.1 : ℝ) := by
    apply min_le_min_right
    gcongr
  unfold epairSpread
  have p4 : 0 ≤ min (0.00089 * ((ei - ef) / (ei - m)) ^ (1 / 4 : ℝ) * (1 + 0.000000015 * ei) +
      0.032 * ((ei - ef) / (2 * ei - ef - m))) 0.1 := le_min (by positivity) (by norm_num)
  apply mul_le_mul _ g4 p4
  · positivity
  · apply mul_le_mul g1 g2 (by positivity)
    positivity

private theorem photoSpread_mono {m ei ef ef' : ℝ} (hm : 0 < m) (hf : m < ef') (hff : ef' ≤ ef) (hloss : 135 ≤ ei - ef) :
    photoSpread m ei ef ≤ photoSpread m ei ef' := by
  have hi : 0 < ei := by linarith
  have hx : (0 : ℝ) < ei - m := by linarith
  have hy : (0 : ℝ) < ei - ef := by linarith
  have hy' : (0 : ℝ) < ei - ef' := by linarith
  have hz : (0 : ℝ) < ef - m := by linarith
  have hz' : (0 : ℝ) < ef' - m := by linarith
  have hs : 0 < Real.sqrt (ei / 1000) := Real.sqrt_pos.2 (by positivity)
  have hq : 0 ≤ 1 - 135 / ei * ((ei - m) / (ei - ef)) := by
    rw [div_mul_div_comm, sub_nonneg, div_le_one (by positivity)]
    nlinarith
  have g2 : 1 - 135 / ei * ((ei - m) / (ei - ef)) ≤ 1 - 135 / ei * ((ei - m) / (ei - ef')) := by
    gcongr
  -- the factor (1 - ν)^(-1) times ((1 - ν) ν)^0.17 is (1 - ν)^(-0.83) ν^0.17
  have split : ∀ x : ℝ, 0 < x - m → 0 < ei - x →
      390 / (ei * ((x - m) / (ei - m))) * (Real.sqrt (ei / 1000) * ((ei - x) * (x - m) / (ei - m) ^ 2)) ^ (0.17 : ℝ) =
        390 / ei * (Real.sqrt (ei / 1000)) ^ (0.17 : ℝ) * ((ei - x) / (ei - m)) ^ (0.17 : ℝ) *
          ((ei - m) / (x - m)) ^ (0.83 : ℝ) := by
    intro x h1 h2
    have e1 : Real.sqrt (ei / 1000) * ((ei - x) * (x - m) / (ei - m) ^ 2) =
        Real.sqrt (ei / 1000) * ((ei - x) / (ei - m)) * ((x - m) / (ei - m)) := by field_simp
    rw [e1, Real.mul_rpow (by positivity) (by positivity), Real.mul_rpow (by positivity) (by positivity)]
    have e2 : ((ei - m) / (x - m)) ^ (0.83 : ℝ) = ((x - m) / (ei - m)) ^ (0.17 : ℝ) / ((x - m) / (ei - m)) := by
      rw [← inv_div, Real.inv_rpow (by positivity), ← Real.rpow_neg (by positivity)]
      nth_rw 3 [← Real.rpow_one ((x - m) / (ei - m))]
      rw [← Real.rpow_sub (by positivity)]
      norm_num
    rw [e2]
    field_simp
  have g1 : 390 / (ei * ((ef - m) / (ei - m))) * (Real.sqrt (ei / 1000) * ((ei - ef) * (ef - m) / (ei - m) ^ 2)) ^ (0.17 : ℝ) ≤
      390 / (ei * ((ef' - m) / (ei - m))) * (Real.sqrt (ei / 1000) * ((ei - ef') * (ef' - m) / (ei - m) ^ 2)) ^ (0.17 : ℝ) := by
    rw [split ef hz hy, split ef' hz' hy']
    gcongr
  unfold photoSpread
  apply mul_le_mul g1 g2 hq
  positivity

/-- C106: with the same random numbers a muon that loses more in a pair production is not deflected less. -/
theorem C106_epair_monotone (m ei ef ef' u r1 : ℝ) (hm : MMU ≤ m) (hf : m < ef') (hff : ef' ≤ ef) (hloss : 2 * ME < ei - ef)
    (h0 : 0 ≤ u) (h1 : u < 1) :
    ∃ t t', epairDeflection m ei ef u r1 = some (t, 2 * Real.pi * r1) ∧ epairDeflection m ei ef' u r1 = some (t', 2 * Real.pi * r1) ∧
      0 ≤ t ∧ t ≤ t' := by
  have hmu : 0 < MMU := by norm_num [MMU]
  have hME : 0 < ME := by norm_num [ME]
  have hp := (C106_epair m ei ef u r1 hm (by linarith) (by linarith) hloss h0 h1).1
  obtain ⟨t, t', ht, ht', t0, htt⟩ := rmsAngle_mono hp.le (epairSpread_mono hm hf hff hloss) h0 h1
  refine ⟨t, t', ?_, ?_, t0, htt⟩
  · unfold epairDeflection
    rw [epairRms_eq (by linarith) (by linarith) (by linarith)]
    simp [ht]
  · unfold epairDeflection
    rw [epairRms_eq (by linarith) (by linarith) (by linarith)]
    simp [ht']

/-- C106: the same for photonuclear interactions. -/
theorem C106_photo_monotone (m ei ef ef' u r1 : ℝ) (hm : 0 < m) (hf : m < ef') (hff : ef' ≤ ef) (hloss : 135 ≤ ei - ef)
    (h0 : 0 ≤ u) (h1 : u < 1) :
    ∃ t t', photoDeflection m ei ef u r1 = some (t, 2 * Real.pi * r1) ∧ photoDeflection m ei ef' u r1 = some (t', 2 * Real.pi * r1) ∧
      0 ≤ t ∧ t ≤ t' := by
  have hp := (C106_photo m ei ef u r1 hm (by linarith) (by linarith) hloss h0 h1).1
  obtain ⟨t, t', ht, ht', t0, htt⟩ := rmsAngle_mono hp.le (photoSpread_mono hm hf hff hloss) h0 h1
  refine ⟨t, t', ?_, ?_, t0, htt⟩
  · unfold photoDeflection
    rw [photoRms_eq (by linarith) (by linarith) (by linarith)]
    simp [ht]
  · unfold photoDeflection
    rw [photoRms_eq (by linarith) (by linarith) (by linarith)]
    simp [ht']

/-- C106: a muon that lost all of its kinetic energy has no deflection (NaN). -/
theorem C106_at_rest (m ei u r1 : ℝ) (hi : m < ei) :
    epairDeflection m ei m u r1 = none ∧ photoDeflection m ei m u r1 = none := by
  have h : (ei - m) / (ei - m) = 1 := div_self (by linarith)
  constructor
  · unfold epairDeflection epairRms
    simp only
    rw [nu_scale, h, if_pos (by right; right; norm_num)]
    rfl
  · unfold photoDeflection photoRms
    simp only
    rw [nu_scale, h, if_pos (by right; right; norm_num)]
    rfl

/-- A muon of 10 GeV that loses 1 GeV, or 2 GeV. -/
example : MMU ≤ MMU ∧ MMU < 8000 ∧ (8000 : ℝ) ≤ 9000 ∧ 2 * ME < 10000 - 9000 ∧ (135 : ℝ) ≤ 10000 - 9000 := by
  norm_num [MMU, ME]

/-! ## Bremsstrahlung -/

private theorem gin_n {e : ℝ} (he : 0 < e) : 0 < ginnekenN e ∧ ginnekenN e < 0.81 := by
  unfold ginnekenN
  have : 0 < e ^ (0.5 : ℝ) := Real.rpow_pos_of_pos he _
  constructor
  · positivity
  · rw [div_lt_iff₀ (by positivity)]
    nlinarith

private theorem gin_k {e : ℝ} (he : 0 < e) : 0 < ginnekenK4 e := by
  unfold ginnekenK4
  have : 0 < e ^ (-0.91 : ℝ) := Real.rpow_pos_of_pos he _
  positivity

private theorem gin_hard_pos {e nu : ℝ} (he : 0 < e) (h0 : 0 < nu) (h1 : nu < 1) : 0 < ginnekenHard e nu := by
  unfold ginnekenHard
  have := gin_k he
  have := Real.rpow_pos_of_pos h0 (1 + ginnekenN e)
  have := Real.rpow_pos_of_pos (sub_pos.2 h1) (-ginnekenN e)
  positivity

private theorem gin_hard_mono {e a b : ℝ} (he : 0 < e) (h0 : 0 < a) (hab : a < b) (h1 : b < 1) :
    ginnekenHard e a < ginnekenHard e b := by
  unfold ginnekenHard
  obtain ⟨n0, -⟩ := gin_n he
  have k0 := gin_k he
  have a1 : a ^ (1 + ginnekenN e) < b ^ (1 + ginnekenN e) := Real.rpow_lt_rpow h0.le hab (by linarith)
  have a2 : (1 - a) ^ (-ginnekenN e) ≤ (1 - b) ^ (-ginnekenN e) :=
    Real.rpow_le_rpow_of_nonpos (by linarith) (by linarith) (by linarith)
  have a3 := Real.rpow_pos_of_pos (show 0 < 1 - a by linarith) (-ginnekenN e)
  have a4 := Real.rpow_pos_of_pos h0 (1 + ginnekenN e)
  rw [mul_assoc, mul_assoc]
  apply mul_lt_mul_of_pos_left _ k0
  exact mul_lt_mul a1 a2 a3 (by linarith)

/-- The function of the bisection has the sign of the difference to 0.2. -/
private theorem gin_f_sign {e nu : ℝ} (he : 0 < e) (h0 : 0 < nu) (h1 : nu < 1) :
    (fNuG (ginnekenN e) (ginnekenK4 e) nu < 0 ↔ ginnekenHard e nu < 0.2) ∧
    (fNuG (ginnekenN e) (ginnekenK4 e) nu = 0 ↔ ginnekenHard e nu = 0.2) := by
  obtain ⟨n0, -⟩ := gin_n he
  have k0 := gin_k he
  unfold fNuG ginnekenHard
  set n := ginnekenN e
  set k := ginnekenK4 e
  have hy : 0 < 1 - nu := by linarith
  have hA : 0 < nu ^ (1 + n) / (1 - nu) ^ n := by positivity
  have e1 : k * nu ^ (1 + n) * (1 - nu) ^ (-n) = k * (nu ^ (1 + n) / (1 - nu) ^ n) := by
    rw [Real.rpow_neg hy.le]; ring
  have e2 : nu ^ (1 / n + 1) = (nu ^ (1 + n) / (1 - nu) ^ n) ^ (1 / n) * (1 - nu) := by
    rw [Real.div_rpow (by positivity) (by positivity), ← Real.rpow_mul h0.le, ← Real.rpow_mul hy.le]
    have : (1 + n) * (1 / n) = 1 / n + 1 := by field_simp
    rw [this, mul_one_div_cancel n0.ne', Real.rpow_one]
    field_simp
  have e3 : nu ^ (1 / n + 1) + (0.2 / k) ^ (1 / n) * nu - (0.2 / k) ^ (1 / n) =
      (1 - nu) * ((nu ^ (1 + n) / (1 - nu) ^ n) ^ (1 / n) - (0.2 / k) ^ (1 / n)) := by
    rw [e2]; ring
  rw [e1, e3]
  have hB : 0 < 0.2 / k := by positivity
  have hn : 0 < 1 / n := by positivity
  constructor
  · rw [← mul_zero (1 - nu), mul_lt_mul_iff_right₀ hy, sub_neg, Real.rpow_lt_rpow_iff hA.le hB.le hn, lt_div_iff₀ k0, mul_comm]
  · rw [mul_eq_zero, or_iff_right hy.ne', sub_eq_zero, Real.rpow_left_inj hA.le hB.le hn.ne', eq_div_iff k0.ne', mul_comm]

private theorem gin_f_one {e : ℝ} : fNuG (ginnekenN e) (ginnekenK4 e) 1 = 1 := by
  unfold fNuG
  rw [Real.one_rpow]
  ring

/-- The boundary found by the bisection: within half of the tolerance of the root, or 0.5 if the root is not above. -/
private theorem gin_nug {e : ℝ} (he : 0 < e) :
    ∃ g, getNuG (ginnekenN e) (ginnekenK4 e) = .ok g ∧
      ((g = 0.5 ∧ 0.2 ≤ ginnekenHard e 0.5) ∨
        (0.5 ≤ g ∧ g < 1 ∧ ginnekenHard e 0.5 < 0.2 ∧ ∀ x, 0 < x → x < 1 →
          (x + 0.000005 ≤ g → ginnekenHard e x ≤ 0.2) ∧ (g + 0.000005 ≤ x → 0.2 ≤ ginnekenHard e x))) := by
  unfold getNuG
  rw [gin_f_one, mul_one]
  have hs := gin_f_sign he (show (0 : ℝ) < 0.5 by norm_num) (by norm_num)
  split_ifs with h
  · have hb : fNuG (ginnekenN e) (ginnekenK4 e) 0.5 * fNuG (ginnekenN e) (ginnekenK4 e) 1 ≤ 0 := by
      rw [gin_f_one, mul_one]; exact h.le
    obtain ⟨a, b, hab, h1, h2, h3, h4, h5⟩ := (C51_bisection (fNuG (ginnekenN e) (ginnekenK4 e)) 0.5 1 1e-5 100).2 hb
    rw [hab]
    simp only
    rw [min_eq_left (by norm_num)] at h1
    rw [max_eq_right (by norm_num)] at h3
    have hw : b - a < 1e-5 := by
      rcases h5 with h5 | h5
      · exact h5
      · rw [h5]
        norm_num
    -- the value at a is not positive or the value at b is not negative
    have mono : ∀ x y, 0 < x → x < y → y < 1 → ginnekenHard e x < ginnekenHard e y := fun x y p q r => gin_hard_mono he p q r
    have ha0 : 0 < a := by linarith
    have ha1 : a < 1 := by
      rcases h2.lt_or_eq with h6 | h6
      · linarith
      · rcases h3.lt_or_eq with h7 | h7
        · linarith
        · exfalso
          rw [h6, h7, gin_f_one] at h4
          norm_num at h4
    have hfa : ginnekenHard e a ≤ 0.2 := by
      by_contra hc
      push Not at hc
      have s1 := gin_f_sign he ha0 ha1
      have pa : 0 < fNuG (ginnekenN e) (ginnekenK4 e) a := by
        rcases lt_trichotomy (fNuG (ginnekenN e) (ginnekenK4 e) a) 0 with q | q | q
        · linarith [s1.1.1 q]
        · linarith [s1.2.1 q]
        · exact q
      have pb : fNuG (ginnekenN e) (ginnekenK4 e) b ≤ 0 := by
        by_contra hcc
        push Not at hcc
        linarith [mul_pos pa hcc]
      rcases h3.lt_or_eq with h7 | h7
      · have s2 := gin_f_sign he (ha0.trans_le h2) h7
        have : ginnekenHard e b ≤ 0.2 := by
          rcases pb.lt_or_eq with q | q
          · exact (s2.1.1 q).le
          · exact (s2.2.1 q).le
        rcases h2.lt_or_eq with h6 | h6
        · linarith [mono a b ha0 h6 h7]
        · rw [← h6] at this; linarith
      · rw [h7, gin_f_one] at pb
        linarith
    have hfb : b < 1 → 0.2 ≤ ginnekenHard e b := by
      intro h7
      by_contra hc
      push Not at hc
      have s2 := gin_f_sign he (ha0.trans_le h2) h7
      have nb := s2.1.2 hc
      have s1 := gin_f_sign he ha0 ha1
      have na : fNuG (ginnekenN e) (ginnekenK4 e) a < 0 := by
        apply s1.1.2
        rcases h2.lt_or_eq with h6 | h6
        · linarith [mono a b ha0 h6 h7]
        · rw [h6]; exact hc
      linarith [mul_pos_of_neg_of_neg na nb]
    refine ⟨_, rfl, Or.inr ⟨by linarith, by linarith, hs.1.1 h, fun x x0 x1 => ⟨fun hx => ?_, fun hx => ?_⟩⟩⟩
    · have : x ≤ a := by norm_num at hw hx ⊢; linarith
      rcases this.lt_or_eq with q | q
      · linarith [mono x a x0 q ha1]
      · rw [q]; exact hfa
    · have : b ≤ x := by norm_num at hw hx ⊢; linarith
      rcases this.lt_or_eq with q | q
      · linarith [mono b x (by linarith) q x1, hfb (by linarith)]
      · rw [← q]; exact hfb (by linarith)
  · exact ⟨_, rfl, Or.inl ⟨rfl, not_lt.1 (fun hc => h (hs.1.2 hc))⟩⟩

/-- The parametrization beyond the boundary. -/
private theorem gin_beyond {e g nu : ℝ} (hg : g < 1) (h1 : nu < 1) :
    ginnekenK4 e * g ^ (1 + ginnekenN e) * (1 - g) ^ (0.5 - ginnekenN e) * (1 - nu) ^ (-0.5 : ℝ) =
      ginnekenHard e g * Real.sqrt ((1 - g) / (1 - nu)) := by
  unfold ginnekenHard
  have hg' : 0 < 1 - g := by linarith
  have hn' : 0 < 1 - nu := by linarith
  rw [Real.sqrt_eq_rpow, Real.div_rpow hg'.le hn'.le, show (1 / 2 : ℝ) = 0.5 by norm_num, sub_eq_add_neg 0.5, Real.rpow_add hg',
    Real.rpow_neg hn'.le]
  ring

private theorem gin_ratio {e g : ℝ} (he : 0 < e) (hg : 0.5 ≤ g) (nu : ℝ) (h1 : nu < 1) (hgn : g + 0.000045 ≤ nu) :
    ginnekenHard e (g + 0.000005) ≤ ginnekenHard e g * Real.sqrt ((1 - g) / (1 - nu)) := by
  obtain ⟨n0, n1⟩ := gin_n he
  have k0 := gin_k he
  obtain ⟨w, hw⟩ : ∃ w : ℝ, w = 0.000005 := ⟨_, rfl⟩
  have hw0 : 0 < w := by rw [hw]; norm_num
  have hgn' : g + 9 * w ≤ nu := by rw [hw]; norm_num at hgn ⊢; linarith
  rw [← hw]
  have hg0 : 0 < g := by linarith
  have hx : 0 < 1 - g := by linarith
  have hy : 0 < 1 - (g + w) := by linarith
  have hz : 0 < 1 - nu := by linarith
  unfold ginnekenHard
  set n := ginnekenN e
  set k := ginnekenK4 e
  -- the two factors
  have r1 : (g + w) ^ (1 + n) * (g / (g + w)) ^ 2 ≤ g ^ (1 + n) := by
    have : (g / (g + w)) ^ 2 ≤ (g / (g + w)) ^ (1 + n) := by
      rw [← Real.rpow_natCast]
      apply Real.rpow_le_rpow_of_exponent_ge (by positivity)
      · rw [div_le_one (by positivity)]; linarith
      · push_cast; linarith
    calc (g + w) ^ (1 + n) * (g / (g + w)) ^ 2 ≤ (g + w) ^ (1 + n) * (g / (g + w)) ^ (1 + n) :=
          mul_le_mul_of_nonneg_left this (by positivity)
      _ = g ^ (1 + n) := by
          rw [← Real.mul_rpow (by positivity) (by positivity), mul_div_cancel₀ _ (by positivity)]
  have r2 : (1 - (g + w)) ^ (-n) * ((1 - (g + w)) / (1 - g)) ≤ (1 - g) ^ (-n) := by
    have : (1 - (g + w)) / (1 - g) ≤ ((1 - (g + w)) / (1 - g)) ^ n := by
      nth_rw 1 [← Real.rpow_one ((1 - (g + w)) / (1 - g))]
      apply Real.rpow_le_rpow_of_exponent_ge (by positivity)
      · rw [div_le_one (by positivity)]; linarith
      · linarith
    calc (1 - (g + w)) ^ (-n) * ((1 - (g + w)) / (1 - g)) ≤ (1 - (g + w)) ^ (-n) * ((1 - (g + w)) / (1 - g)) ^ n :=
          mul_le_mul_of_nonneg_left this (by positivity)
      _ = (1 - g) ^ (-n) := by
          rw [Real.div_rpow hy.le hx.le, Real.rpow_neg hy.le, Real.rpow_neg hx.le]
          have := Real.rpow_pos_of_pos hy n
          field_simp
  have r3 : 1 ≤ (g / (g + w)) ^ 2 * ((1 - (g + w)) / (1 - g)) * Real.sqrt ((1 - g) / (1 - nu)) := by
    set s := w / (1 - g) with hs
    have hs0 : 0 < s := by positivity
    have hs9 : s < 1 / 9 := by
      rw [hs, div_lt_iff₀ hx]; linarith
    have q1 : 1 - 4 * s ≤ (g / (g + w)) ^ 4 := by
      have b1 : 1 - s ≤ g / (g + w) := by
        rw [le_div_iff₀ (by positivity), hs, sub_mul, one_mul, div_mul_eq_mul_div, sub_le_iff_le_add]
        have : w ≤ w * (g + w) / (1 - g) := by
          rw [le_div_iff₀ hx]
          apply mul_le_mul_of_nonneg_left _ hw0.le
          linarith
        linarith
      calc 1 - 4 * s ≤ (1 - s) ^ 4 := by nlinarith [sq_nonneg s, sq_nonneg (1 - s), sq_nonneg ((1 - s) ^ 2 - 1)]
        _ ≤ _ := pow_le_pow_left₀ (by linarith) b1 4
    have q2 : (1 - (g + w)) / (1 - g) = 1 - s := by rw [hs]; field_simp; ring
    have q3 : (1 - nu) / (1 - g) ≤ 1 - 9 * s := by
      rw [hs, div_le_iff₀ hx, sub_mul, one_mul]
      have : 9 * (w / (1 - g)) * (1 - g) = 9 * w := by field_simp
      rw [this]; linarith
    have q4 : (1 - nu) / (1 - g) ≤ ((g / (g + w)) ^ 2 * (1 - s)) ^ 2 := by
      rw [mul_pow, ← pow_mul]
      have b2 : 1 - 2 * s ≤ (1 - s) ^ 2 := by nlinarith
      have b3 : (1 - 4 * s) * (1 - 2 * s) ≤ (g / (g + w)) ^ 4 * (1 - s) ^ 2 :=
        mul_le_mul q1 b2 (by linarith) (by positivity)
      have b4 : 1 - 9 * s ≤ (1 - 4 * s) * (1 - 2 * s) := by nlinarith
      linarith
    rw [q2]
    have hc : 0 < (1 - g) / (1 - nu) := by positivity
    have q5 : 1 ≤ ((g / (g + w)) ^ 2 * (1 - s) * Real.sqrt ((1 - g) / (1 - nu))) ^ 2 := by
      rw [mul_pow, Real.sq_sqrt hc.le]
      have : (1 - nu) / (1 - g) * ((1 - g) / (1 - nu)) = 1 := by field_simp
      have q7 := mul_le_mul_of_nonneg_right q4 hc.le
      rw [this] at q7
      exact q7
    have q6 : 0 ≤ (g / (g + w)) ^ 2 * (1 - s) * Real.sqrt ((1 - g) / (1 - nu)) := by
      have : 0 < 1 - s := by linarith
      positivity
    nlinarith
  have t1 : 0 < (g + w) ^ (1 + n) := by positivity
  have t2 : 0 < (1 - (g + w)) ^ (-n) := by positivity
  have t3 : 0 < Real.sqrt ((1 - g) / (1 - nu)) := Real.sqrt_pos.2 (by positivity)
  calc k * (g + w) ^ (1 + n) * (1 - (g + w)) ^ (-n)
      ≤ k * (g + w) ^ (1 + n) * (1 - (g + w)) ^ (-n) *
        ((g / (g + w)) ^ 2 * ((1 - (g + w)) / (1 - g)) * Real.sqrt ((1 - g) / (1 - nu))) :=
        le_mul_of_one_le_right (by positivity) r3
    _ = k * ((g + w) ^ (1 + n) * (g / (g + w)) ^ 2) * ((1 - (g + w)) ^ (-n) * ((1 - (g + w)) / (1 - g))) *
        Real.sqrt ((1 - g) / (1 - nu)) := by ring
    _ ≤ k * g ^ (1 + n) * (1 - g) ^ (-n) * Real.sqrt ((1 - g) / (1 - nu)) := by
        apply mul_le_mul_of_nonneg_right _ t3.le
        apply mul_le_mul (mul_le_mul_of_nonneg_left r1 k0.le) r2 (by positivity) (by positivity)

/-- The outcomes of the parametrization: a number, or the exception within 5e-5 above the boundary. -/
private theorem gin_outcome {e nu Z : ℝ} (he : 0 < e) (h1 : nu < 1) :
    (∃ x, bremsRmsNu e nu Z = .rms x) ∨
      (0.5 < nu ∧ bremsRmsNu e nu Z = .invalidArgument ∧ 0.2 ≤ ginnekenHard e nu ∧ ginnekenHard e (nu - 0.00005) ≤ 0.2) := by
  unfold bremsRmsNu
  split_ifs with c1 c2 c3
  · exact Or.inl ⟨_, rfl⟩
  · linarith
  · exact Or.inl ⟨_, rfl⟩
  · push Not at c1 c3
    obtain ⟨g, hg, hcase⟩ := gin_nug he
    rw [hg]
    simp only
    have hg1 : g < 1 := by
      rcases hcase with h | h
      · rw [h.1]; norm_num
      · exact h.2.1
    rw [gin_beyond hg1 h1]
    split_ifs with c4
    · right
      refine ⟨c1, rfl, c3, ?_⟩
      by_contra hc
      push Not at hc
      have hnu : 0 < 1 - nu := by linarith
      have big : g ≤ nu → 0.2 ≤ ginnekenHard e g → False := by
        intro hgn hh
        have : 1 ≤ Real.sqrt ((1 - g) / (1 - nu)) := by
          rw [Real.one_le_sqrt, one_le_div hnu]; linarith
        have := le_mul_of_one_le_right (show 0 ≤ ginnekenHard e g by linarith) this
        linarith
      rcases hcase with ⟨hg5, hh⟩ | ⟨hg5, -, -, hx⟩
      · apply big (by rw [hg5]; exact c1.le)
        rw [hg5]; exact hh
      · have h2 := (hx (nu - 0.00005) (by linarith) (by linarith)).1
        have h3 : g + 0.000045 ≤ nu := by
          by_contra hcc
          push Not at hcc
          have := h2 (by norm_num at hcc ⊢; linarith)
          linarith
        have h4 := (hx (g + 0.000005) (by linarith) (by norm_num at h3 ⊢; linarith)).2 le_rfl
        have h5 := gin_ratio he hg5 nu h1 h3
        linarith
    · exact Or.inl ⟨_, rfl⟩

/-- C107: the deflection after a bremsstrahlung never fails in the bisection. The exception `std::invalid_argument` is confined to
inelasticities at most 5e-5 above the boundary at which the parametrization for hard losses reaches 0.2; every other
loss that leaves kinetic energy has a finite, non-negative angle. -/
theorem C107_defined_partial (m ei ef Z u r1 : ℝ) (hm : 0 < m) (hf : m < ef) (hfi : ef ≤ ei) (h0 : 0 ≤ u) (h1 : u < 1) :
    (∃ t, bremsDeflection m ei ef Z u r1 = .angles t (2 * Real.pi * r1) ∧ 0 ≤ t) ∨
      (bremsDeflection m ei ef Z u r1 = .invalidArgument ∧ 0.5 < (ei - ef) / (ei - m) ∧
        0.2 ≤ ginnekenHard (ei / 1000) ((ei - ef) / (ei - m)) ∧
        ginnekenHard (ei / 1000) ((ei - ef) / (ei - m) - 0.00005) ≤ 0.2) := by
  have hi : 0 < ei := by linarith
  have hn : (ei - ef) / (ei - m) < 1 := by
    rw [div_lt_one (by linarith)]; linarith
  unfold bremsDeflection bremsRms
  rw [nu_scale]
  rcases gin_outcome (Z := Z) (show 0 < ei / 1000 by positivity) hn with ⟨x, hx⟩ | ⟨h5, hx, h2, h3⟩
  · left
    rw [hx]
    obtain ⟨t, ht, t0, -⟩ := rmsAngle_eq (rms := x) h0 h1
    exact ⟨t, by simp [ht], t0⟩
  · right
    rw [hx]
    exact ⟨rfl, h5, h2, h3⟩

private theorem gin_loop {f : ℝ → ℝ} (hf : ∀ x, 0.5 ≤ x → x < 0.75 → f x < 0) :
    ∀ (n : ℕ) (a : ℝ), 0.5 ≤ a → a < 0.75 → ∃ b, bisectionLoop f 1e-5 n a 0.75 = (b, 0.75) ∧ 0.5 ≤ b ∧ b < 0.75 := by
  intro n
  induction n with
  | zero => intro a h1 h2; exact ⟨a, rfl, h1, h2⟩
  | succ n ih =>
    intro a h1 h2
    have hc := hf ((a + 0.75) / 2) (by linarith) (by linarith)
    have ha := hf a h1 h2
    simp only [bisectionLoop]
    have hs : SignType.sign (f ((a + 0.75) / 2)) = SignType.sign (f a) := by rw [sign_neg hc, sign_neg ha]
    simp only [hs, if_true]
    split_ifs
    · exact ⟨_, rfl, by linarith, by linarith⟩
    · exact ih _ (by linarith) (by linarith)

private theorem gin_energy : ∃ e : ℝ, 1 ≤ e ∧ e ≤ 4 ∧ ginnekenHard e 0.75 = 0.2 := by
  have hc : ContinuousOn (fun e : ℝ => ginnekenHard e 0.75) (Set.Icc 1 4) := by
    unfold ginnekenHard ginnekenK4 ginnekenN
    have c1 : ∀ p : ℝ, ContinuousOn (fun e : ℝ => e ^ p) (Set.Icc 1 4) := by
      intro p
      apply ContinuousOn.rpow_const continuousOn_id
      intro x hx
      left
      have := hx.1
      simp only [id]
      linarith
    have c2 : ContinuousOn (fun e : ℝ => 0.81 * e ^ (0.5 : ℝ) / (e ^ (0.5 : ℝ) + 1.8)) (Set.Icc 1 4) := by
      apply ContinuousOn.div ((c1 _).const_mul _) ((c1 _).add continuousOn_const)
      intro x hx
      have := hx.1
      have : 0 < x ^ (0.5 : ℝ) := Real.rpow_pos_of_pos (by linarith) _
      show x ^ (0.5 : ℝ) + 1.8 ≠ 0
      linarith
    apply ContinuousOn.mul
    · apply ContinuousOn.mul ((c1 _).const_mul _)
      exact ContinuousOn.rpow continuousOn_const (continuousOn_const.add c2) (fun x _ => Or.inl (by norm_num))
    · exact ContinuousOn.rpow continuousOn_const c2.neg (fun x _ => Or.inl (by norm_num))
  have val : ∀ e : ℝ, ginnekenHard e 0.75 = 0.195 * e ^ (-0.91 : ℝ) * 3 ^ ginnekenN e := by
    intro e
    unfold ginnekenHard ginnekenK4
    have e1 : (0.75 : ℝ) ^ (1 + ginnekenN e) = 0.75 * 0.75 ^ ginnekenN e := by
      rw [Real.rpow_add (by norm_num), Real.rpow_one]
    have e2 : (1 - 0.75 : ℝ) ^ (-ginnekenN e) = 4 ^ ginnekenN e := by
      rw [Real.rpow_neg (by norm_num), ← Real.inv_rpow (by norm_num)]
      norm_num
    have e3 : (3 : ℝ) ^ ginnekenN e = 0.75 ^ ginnekenN e * 4 ^ ginnekenN e := by
      rw [← Real.mul_rpow (by norm_num) (by norm_num)]
      norm_num
    rw [e1, e2, e3]
    ring
  have h1 : 0.2 ≤ ginnekenHard 1 0.75 := by
    rw [val, Real.one_rpow, mul_one]
    have hn : (1 / 4 : ℝ) ≤ ginnekenN 1 := by
      unfold ginnekenN
      rw [Real.one_rpow]
      norm_num
    have h2 : (3 : ℝ) ^ (1 / 4 : ℝ) ≤ 3 ^ ginnekenN 1 := Real.rpow_le_rpow_of_exponent_le (by norm_num) hn
    have h3 : (1.3 : ℝ) ≤ (3 : ℝ) ^ (1 / 4 : ℝ) := by
      rw [one_div, Real.le_rpow_inv_iff_of_pos (by norm_num) (by norm_num) (by norm_num)]
      norm_num
    linarith
  have h4 : ginnekenHard 4 0.75 ≤ 0.2 := by
    rw [val]
    have e4 : (4 : ℝ) ^ (0.5 : ℝ) = 2 := by
      rw [show (0.5 : ℝ) = 1 / 2 by norm_num, ← Real.sqrt_eq_rpow, show (4 : ℝ) = 2 ^ 2 by norm_num]
      exact Real.sqrt_sq (by norm_num)
    have hn : ginnekenN 4 ≤ 1 / 2 := by
      unfold ginnekenN
      rw [e4]
      norm_num
    have a1 : (3 : ℝ) ^ ginnekenN 4 ≤ 1.74 := by
      calc (3 : ℝ) ^ ginnekenN 4 ≤ 3 ^ (1 / 2 : ℝ) := Real.rpow_le_rpow_of_exponent_le (by norm_num) hn
        _ ≤ 1.74 := by
          rw [← Real.sqrt_eq_rpow]
          exact Real.sqrt_le_iff.2 ⟨by norm_num, by norm_num⟩
    have a2 : (4 : ℝ) ^ (-0.91 : ℝ) ≤ 1 / 2 := by
      calc (4 : ℝ) ^ (-0.91 : ℝ) ≤ 4 ^ (-0.5 : ℝ) := Real.rpow_le_rpow_of_exponent_le (by norm_num) (by norm_num)
        _ = 1 / 2 := by rw [Real.rpow_neg (by norm_num), e4]; norm_num
    have a3 : 0 < (4 : ℝ) ^ (-0.91 : ℝ) := by positivity
    have a4 : 0 < (3 : ℝ) ^ ginnekenN 4 := by positivity
    nlinarith [mul_le_mul a2 a1 a4.le (by norm_num : (0 : ℝ) ≤ 1 / 2)]
  obtain ⟨e, he, hv⟩ := intermediate_value_Icc' (by norm_num) hc (show (0.2 : ℝ) ∈ Set.Icc _ _ from ⟨h4, h1⟩)
  exact ⟨e, he.1, he.2, hv⟩

private theorem gin_first {f : ℝ → ℝ} (n : ℕ) (hs : ¬ SignType.sign (f 0.75) = SignType.sign (f 0.5)) :
    bisectionLoop f 1e-5 (n + 1) 0.5 1 = bisectionLoop f 1e-5 n 0.5 0.75 := by
  simp only [bisectionLoop]
  have hc : ((0.5 : ℝ) + 1) / 2 = 0.75 := by norm_num
  simp only [hc, if_neg hs]
  rw [if_neg (by norm_num)]

/-- The boundary is missed by the bisection if the root is its first midpoint. -/
private theorem gin_missed {e : ℝ} (he : 0 < e) (h : ginnekenHard e 0.75 = 0.2) :
    ∃ g, getNuG (ginnekenN e) (ginnekenK4 e) = .ok g ∧ 0.5 ≤ g ∧ g < 0.75 := by
  set f := fNuG (ginnekenN e) (ginnekenK4 e) with hf
  have hneg : ∀ x, 0.5 ≤ x → x < 0.75 → f x < 0 := by
    intro x h1 h2
    apply (gin_f_sign he (by linarith) (by linarith)).1.2
    rw [← h]
    exact gin_hard_mono he (by linarith) h2 (by norm_num)
  have hz : f 0.75 = 0 := (gin_f_sign he (by norm_num) (by norm_num)).2.2 h
  have h5 : f 0.5 < 0 := hneg 0.5 le_rfl (by norm_num)
  have h1 : f 1 = 1 := gin_f_one
  obtain ⟨b, hb, b1, b2⟩ := gin_loop hneg 100 0.5 le_rfl (by norm_num)
  have hbis : bisection f 0.5 1 1e-5 100 = .ok (b, 0.75) := by
    unfold bisection
    rw [if_neg (by rw [h1, mul_one]; linarith), if_neg (by norm_num)]
    congr 1
    rw [gin_first 100 (by rw [hz, sign_zero, sign_neg h5]; decide)]
    exact hb
  refine ⟨(b + 0.75) / 2, ?_, by linarith, by linarith⟩
  unfold getNuG
  rw [← hf, if_pos (by rw [h1, mul_one]; exact h5), hbis]

/-- Below 0.75 the spread times the root of `1 - ν` is smaller than at 0.75. -/
private theorem gin_smaller {e g : ℝ} (he : 1 ≤ e) (h1 : 0.5 ≤ g) (h2 : g < 0.75) :
    ginnekenHard e g * Real.sqrt (1 - g) < ginnekenHard e 0.75 * Real.sqrt (1 - 0.75) := by
  obtain ⟨n0, n1⟩ := gin_n (show 0 < e by linarith)
  have hn : (1 / 8 : ℝ) < ginnekenN e := by
    unfold ginnekenN
    have : 1 ≤ e ^ (0.5 : ℝ) := Real.one_le_rpow he (by norm_num)
    rw [lt_div_iff₀ (by linarith)]
    linarith
  have k0 := gin_k (show 0 < e by linarith)
  have hx : 0 < 1 - g := by linarith
  have pos1 := gin_hard_pos (show 0 < e by linarith) (show 0 < g by linarith) (show g < 1 by linarith)
  have pos2 := gin_hard_pos (show 0 < e by linarith) (show (0 : ℝ) < 0.75 by norm_num) (by norm_num)
  have s1 : 0 < Real.sqrt (1 - g) := Real.sqrt_pos.2 hx
  have s2 : 0 < Real.sqrt (1 - 0.75 : ℝ) := Real.sqrt_pos.2 (by norm_num)
  rw [← Real.log_lt_log_iff (by positivity) (by positivity)]
  have lg : ∀ x : ℝ, 0 < x → x < 1 → Real.log (ginnekenHard e x * Real.sqrt (1 - x)) =
      Real.log (ginnekenK4 e) + (1 + ginnekenN e) * Real.log x + (1 / 2 - ginnekenN e) * Real.log (1 - x) := by
    intro x x0 x1
    have hy : 0 < 1 - x := by linarith
    unfold ginnekenHard
    have q1 := Real.rpow_pos_of_pos x0 (1 + ginnekenN e)
    have q2 := Real.rpow_pos_of_pos hy (-ginnekenN e)
    have q3 := Real.sqrt_pos.2 hy
    rw [Real.log_mul (by positivity) q3.ne', Real.log_mul (by positivity) q2.ne', Real.log_mul k0.ne' q1.ne',
      Real.log_rpow x0, Real.log_rpow hy, Real.log_sqrt hy.le]
    ring
  rw [lg g (by linarith) (by linarith), lg 0.75 (by norm_num) (by norm_num)]
  have l1 : Real.log g - Real.log 0.75 < (g - 0.75) * (4 / 3) := by
    rw [← Real.log_div (by linarith) (by norm_num)]
    have := Real.log_lt_sub_one_of_pos (show 0 < g / 0.75 by positivity) (by
      intro hc
      rw [div_eq_one_iff_eq (by norm_num)] at hc
      linarith)
    have e : g / 0.75 - 1 = (g - 0.75) * (4 / 3) := by norm_num; ring
    linarith
  have l2 : Real.log (1 - g) - Real.log (1 - 0.75) ≤ (0.75 - g) * 4 := by
    rw [← Real.log_div hx.ne' (by norm_num)]
    have := Real.log_le_sub_one_of_pos (show 0 < (1 - g) / (1 - 0.75) by apply div_pos hx; norm_num)
    have e : (1 - g) / (1 - 0.75) - 1 = (0.75 - g) * 4 := by norm_num; ring
    linarith
  have l3 : 0 ≤ Real.log (1 - g) - Real.log (1 - 0.75) := by
    rw [sub_nonneg]
    apply Real.log_le_log (by norm_num)
    linarith
  have l4 : (1 + ginnekenN e) * (Real.log g - Real.log 0.75) < (1 + ginnekenN e) * ((g - 0.75) * (4 / 3)) :=
    mul_lt_mul_of_pos_left l1 (by linarith)
  have l5 : (1 / 2 - ginnekenN e) * (Real.log (1 - g) - Real.log (1 - 0.75)) ≤ (3 / 8) * ((0.75 - g) * 4) := by
    calc (1 / 2 - ginnekenN e) * (Real.log (1 - g) - Real.log (1 - 0.75))
        ≤ (3 / 8) * (Real.log (1 - g) - Real.log (1 - 0.75)) := mul_le_mul_of_nonneg_right (by linarith) l3
      _ ≤ _ := mul_le_mul_of_nonneg_left l2 (by norm_num)
  have l6 : (1 + ginnekenN e) * ((g - 0.75) * (4 / 3)) ≤ (9 / 8) * ((g - 0.75) * (4 / 3)) :=
    mul_le_mul_of_nonpos_right (by linarith) (by linarith)
  linarith

/-- C107: the exception is reachable: there is an energy between 1 and 4 GeV at which a muon with an inelasticity in an interval
that begins with 3/4 has no deflection, for all random numbers and all media. -/
theorem C107_throws : ∃ ei δ : ℝ, 1000 ≤ ei ∧ ei ≤ 4000 ∧ 0 < δ ∧ ∀ ef Z u r1,
    3 / 4 ≤ (ei - ef) / (ei - MMU) → (ei - ef) / (ei - MMU) < 3 / 4 + δ →
    bremsDeflection MMU ei ef Z u r1 = .invalidArgument := by
  obtain ⟨e, e1, e4, h⟩ := gin_energy
  have he : 0 < e := by linarith
  obtain ⟨g, hg, g1, g2⟩ := gin_missed he h
  have hsm := gin_smaller e1 g1 g2
  have hs : Real.sqrt (1 - 0.75 : ℝ) = 0.5 := by
    rw [show (1 - 0.75 : ℝ) = 0.5 ^ 2 by norm_num]
    exact Real.sqrt_sq (by norm_num)
  rw [h, hs] at hsm
  set q := ginnekenHard e g * Real.sqrt (1 - g) with hq
  have hq0 : 0 < q := mul_pos (gin_hard_pos he (by linarith) (by linarith)) (Real.sqrt_pos.2 (by linarith))
  have hq25 : (q / 0.2) ^ 2 < 1 / 4 := by
    have : q / 0.2 < 1 / 2 := by rw [div_lt_iff₀ (by norm_num)]; norm_num at hsm ⊢; linarith
    have h0 : 0 < q / 0.2 := by positivity
    nlinarith
  refine ⟨1000 * e, 1 / 4 - (q / 0.2) ^ 2, by linarith, by linarith, by linarith, ?_⟩
  intro ef Z u r1 n1 n2
  have hnu1 : (1000 * e - ef) / (1000 * e - MMU) < 1 := by
    have : 0 < (q / 0.2) ^ 2 := by positivity
    linarith
  unfold bremsDeflection bremsRms
  rw [nu_scale, mul_div_cancel_left₀ _ (by norm_num)]
  set nu := (1000 * e - ef) / (1000 * e - MMU) with hnu
  have hr : bremsRmsNu e nu Z = .invalidArgument := by
    unfold bremsRmsNu
    rw [if_neg (by norm_num; linarith), if_neg hnu1.ne, if_neg, hg]
    · simp only
      rw [gin_beyond (by linarith) hnu1, if_pos]
      rw [Real.sqrt_div (by linarith), ← mul_div_assoc, ← hq, div_lt_iff₀ (Real.sqrt_pos.2 (by linarith)), ← div_lt_iff₀' (by norm_num)]
      apply Real.lt_sqrt_of_sq_lt
      linarith
    · rw [not_lt, ← h]
      rcases n1.lt_or_eq with c | c
      · exact (gin_hard_mono he (by norm_num) (by norm_num; linarith) hnu1).le
      · rw [← c]
        norm_num
  rw [hr]

/-- The spread after a soft bremsstrahlung. -/
private noncomputable def ginSoft (e nu Z : ℝ) : ℝ :=
  max (min (0.092 * e ^ (-1 / 3 : ℝ) * Real.sqrt nu) (0.052 / e * Z ^ (-0.25 : ℝ))) (0.22 * e ^ (-0.92 : ℝ) * nu)

private theorem ginSoft_mono {e a b Z : ℝ} (he : 0 < e) (hab : a ≤ b) : ginSoft e a Z ≤ ginSoft e b Z := by
  unfold ginSoft
  have h1 := Real.rpow_pos_of_pos he (-1 / 3 : ℝ)
  have h2 := Real.rpow_pos_of_pos he (-0.92 : ℝ)
  apply max_le_max
  · apply min_le_min_right
    apply mul_le_mul_of_nonneg_left (Real.sqrt_le_sqrt hab) (by positivity)
  · apply mul_le_mul_of_nonneg_left hab (by positivity)

private theorem ginSoft_nonneg {e a Z : ℝ} (he : 0 < e) (h0 : 0 ≤ a) : 0 ≤ ginSoft e a Z := by
  unfold ginSoft
  have h2 := Real.rpow_pos_of_pos he (-0.92 : ℝ)
  exact le_max_of_le_right (by positivity)

private theorem ginSoft_le_hard {e Z : ℝ} (he : 0.1 ≤ e) (hZ : 1 ≤ Z) : ginSoft e 0.5 Z ≤ ginnekenHard e 0.5 := by
  have he0 : 0 < e := by linarith
  have hh : ginnekenHard e 0.5 = 0.13 * e ^ (-0.91 : ℝ) := by
    unfold ginnekenHard ginnekenK4
    rw [Real.rpow_add (by norm_num), Real.rpow_one, show (1 - 0.5 : ℝ) = 0.5 by norm_num,
      Real.rpow_neg (show (0 : ℝ) ≤ 0.5 by norm_num)]
    have : 0 < (0.5 : ℝ) ^ ginnekenN e := by positivity
    field_simp
    norm_num
  rw [hh]
  have hinv : e⁻¹ ≤ 10 := by
    rw [inv_le_comm₀ he0 (by norm_num)]; norm_num at he ⊢; exact he
  have bern : ∀ p : ℝ, 0 ≤ p → p ≤ 1 → e ^ (-p) ≤ 1 + p * 9 := by
    intro p p0 p1
    rw [Real.rpow_neg he0.le, ← Real.inv_rpow he0.le]
    have h := rpow_one_add_le_one_add_mul_self (s := e⁻¹ - 1) (by have := inv_pos.2 he0; linarith) p0 p1
    rw [add_sub_cancel] at h
    have : p * (e⁻¹ - 1) ≤ p * 9 := mul_le_mul_of_nonneg_left (by linarith) p0
    linarith
  have hp := Real.rpow_pos_of_pos he0 (-0.91 : ℝ)
  unfold ginSoft
  apply max_le
  · apply (min_le_right _ _).trans
    have z1 : Z ^ (-0.25 : ℝ) ≤ 1 := Real.rpow_le_one_of_one_le_of_nonpos hZ (by norm_num)
    have z2 : 0.052 / e = 0.052 * (e ^ (-0.91 : ℝ) * e ^ (-0.09 : ℝ)) := by
      rw [← Real.rpow_add he0, show (-0.91 + -0.09 : ℝ) = -1 by norm_num, Real.rpow_neg_one, div_eq_mul_inv]
    have z3 : e ^ (-0.09 : ℝ) ≤ 2 := (bern 0.09 (by norm_num) (by norm_num)).trans (by norm_num)
    calc 0.052 / e * Z ^ (-0.25 : ℝ) ≤ 0.052 / e * 1 := mul_le_mul_of_nonneg_left z1 (by positivity)
      _ ≤ 0.13 * e ^ (-0.91 : ℝ) := by
        rw [mul_one, z2]
        nlinarith [mul_le_mul_of_nonneg_left z3 hp.le]
  · have z2 : e ^ (-0.92 : ℝ) = e ^ (-0.91 : ℝ) * e ^ (-0.01 : ℝ) := by
      rw [← Real.rpow_add he0]; norm_num
    have z3 : e ^ (-0.01 : ℝ) ≤ 1.09 := (bern 0.01 (by norm_num) (by norm_num)).trans (by norm_num)
    rw [z2]
    nlinarith [mul_le_mul_of_nonneg_left z3 hp.le]

/-- The three ranges of the parametrization, if it gives a number. -/
private theorem gin_cases {e nu Z x : ℝ} (he : 0 < e) (h1 : nu < 1) (h : bremsRmsNu e nu Z = .rms x) :
    (nu ≤ 0.5 ∧ x = ginSoft e nu Z) ∨ (0.5 < nu ∧ ginnekenHard e nu < 0.2 ∧ x = ginnekenHard e nu) ∨
      (0.5 < nu ∧ 0.2 ≤ ginnekenHard e nu ∧ 0.2 ≤ x ∧ ∃ g, getNuG (ginnekenN e) (ginnekenK4 e) = .ok g ∧
        x = ginnekenHard e g * Real.sqrt ((1 - g) / (1 - nu))) := by
  unfold bremsRmsNu at h
  split_ifs at h with c1 c2 c3
  · left
    simp only [RmsResult.rms.injEq] at h
    exact ⟨c1, h.symm⟩
  · right; left
    simp only [RmsResult.rms.injEq] at h
    exact ⟨not_le.1 c1, c3, h.symm⟩
  · right; right
    obtain ⟨g, hg, hcase⟩ := gin_nug he
    have hg1 : g < 1 := by
      rcases hcase with h | h
      · rw [h.1]; norm_num
      · exact h.2.1
    rw [hg] at h
    simp only at h
    rw [gin_beyond hg1 h1] at h
    split_ifs at h with c4
    simp only [RmsResult.rms.injEq] at h
    refine ⟨not_le.1 c1, not_lt.1 c3, ?_, g, hg, h.symm⟩
    rw [← h]
    exact not_lt.1 c4

private theorem gin_monotone {e a b Z x y : ℝ} (he : 0.1 ≤ e) (hZ : 1 ≤ Z) (h0 : 0 ≤ a) (hab : a ≤ b) (h1 : b < 1)
    (hx : bremsRmsNu e a Z = .rms x) (hy : bremsRmsNu e b Z = .rms y) : 0 ≤ x ∧ x ≤ y := by
  have he0 : 0 < e := by linarith
  have hmono : ∀ p q, 0 < p → p ≤ q → q < 1 → ginnekenHard e p ≤ ginnekenHard e q := by
    intro p q p0 pq q1
    rcases pq.lt_or_eq with c | c
    · exact (gin_hard_mono he0 p0 c q1).le
    · rw [c]
  have root : ∀ g, g ≤ b → 1 ≤ Real.sqrt ((1 - g) / (1 - b)) := by
    intro g hg
    rw [Real.one_le_sqrt, one_le_div (by linarith)]; linarith
  rcases gin_cases he0 (by linarith) hx with ⟨a5, rfl⟩ | ⟨a5, a2, rfl⟩ | ⟨a5, a2, ax, g, hg, rfl⟩
  · refine ⟨ginSoft_nonneg he0 h0, ?_⟩
    have hs := ginSoft_le_hard he hZ
    have hs' := ginSoft_mono (Z := Z) he0 a5
    rcases gin_cases he0 h1 hy with ⟨b5, rfl⟩ | ⟨b5, b2, rfl⟩ | ⟨b5, b2, bx, g, hg, rfl⟩
    · exact ginSoft_mono he0 hab
    · exact hs'.trans (hs.trans (hmono _ _ (by norm_num) b5.le h1))
    · obtain ⟨g', hg', hcase⟩ := gin_nug he0
      rw [hg, Except.ok.injEq] at hg'
      subst hg'
      rcases hcase with ⟨c1, c2⟩ | ⟨-, -, c2, -⟩
      · rw [c1]
        exact hs'.trans (hs.trans (le_mul_of_one_le_right (by linarith) (root 0.5 b5.le)))
      · linarith
  · refine ⟨(gin_hard_pos he0 (by linarith) (by linarith)).le, ?_⟩
    rcases gin_cases he0 h1 hy with ⟨b5, rfl⟩ | ⟨b5, b2, rfl⟩ | ⟨b5, b2, bx, g, hg, rfl⟩
    · linarith
    · exact hmono _ _ (by linarith) hab h1
    · linarith
  · refine ⟨by linarith, ?_⟩
    rcases gin_cases he0 h1 hy with ⟨b5, rfl⟩ | ⟨b5, b2, rfl⟩ | ⟨b5, b2, bx, g', hg', rfl⟩
    · linarith
    · linarith [hmono _ _ (by linarith) hab h1]
    · rw [hg, Except.ok.injEq] at hg'
      subst hg'
      obtain ⟨g'', hg'', hcase⟩ := gin_nug he0
      rw [hg, Except.ok.injEq] at hg''
      subst hg''
      have hgr : 0 < g ∧ g < 1 := by
        rcases hcase with h | h
        · rw [h.1]; norm_num
        · exact ⟨by linarith [h.1], h.2.1⟩
      apply mul_le_mul_of_nonneg_left _ (gin_hard_pos he0 hgr.1 hgr.2).le
      apply Real.sqrt_le_sqrt
      have : 0 < 1 - g := by linarith [hgr.2]
      have : 0 < 1 - b := by linarith
      gcongr

/-- C106: with the same random numbers a muon that loses more by bremsstrahlung is not deflected less, also across the
boundaries of the parametrization, where both losses have a deflection. -/
theorem C106_brems_monotone (m ei ef ef' Z u r1 : ℝ) (hm : MMU ≤ m) (hf : m < ef') (hff : ef' ≤ ef) (hfi : ef ≤ ei) (hZ : 1 ≤ Z)
    (h0 : 0 ≤ u) (h1 : u < 1) {t p t' p' : ℝ} (ht : bremsDeflection m ei ef Z u r1 = .angles t p)
    (ht' : bremsDeflection m ei ef' Z u r1 = .angles t' p') : 0 ≤ t ∧ t ≤ t' ∧ p = p' := by
  have hmu : (105 : ℝ) ≤ MMU := by norm_num [MMU]
  unfold bremsDeflection bremsRms at ht ht'
  rw [nu_scale] at ht ht'
  have hx : 0 < ei - m := by linarith
  cases hr : bremsRmsNu (ei / 1000) ((ei - ef) / (ei - m)) Z with
  | rms x =>
    cases hr' : bremsRmsNu (ei / 1000) ((ei - ef') / (ei - m)) Z with
    | rms y =>
      rw [hr] at ht
      rw [hr'] at ht'
      obtain ⟨x0, xy⟩ := gin_monotone (show 0.1 ≤ ei / 1000 by rw [le_div_iff₀ (by norm_num)]; norm_num; linarith) hZ
        (div_nonneg (by linarith) hx.le) (by gcongr) (by rw [div_lt_one hx]; linarith) hr hr'
      obtain ⟨s, s', hs, hs', s0, ss⟩ := rmsAngle_mono x0 xy h0 h1
      simp only [hs, DeflectResult.angles.injEq] at ht
      simp only [hs', DeflectResult.angles.injEq] at ht'
      obtain ⟨rfl, rfl⟩ := ht
      obtain ⟨rfl, rfl⟩ := ht'
      exact ⟨s0, ss, rfl⟩
    | infinite => rw [hr'] at ht'; simp at ht'
    | invalidArgument => rw [hr'] at ht'; simp at ht'
    | mathError => rw [hr'] at ht'; simp at ht'
  | infinite => rw [hr] at ht; simp at ht
  | invalidArgument => rw [hr] at ht; simp at ht
  | mathError => rw [hr] at ht; simp at ht

/-- C106: the distribution of the angle after a bremsstrahlung with a loss of at most half of the kinetic energy; the energies in
MeV. -/
theorem C106_brems_soft (m ei ef Z u r1 : ℝ) (hm : 0 < m) (hf : m < ef) (hfi : ef < ei) (hsoft : ei - ef ≤ (ei - m) / 2)
    (h0 : 0 ≤ u) (h1 : u < 1) :
    let nu := (ei - ef) / (ei - m)
    let rms := max (min (0.92 * ei ^ (-1 / 3 : ℝ) * Real.sqrt nu) (52 / ei * Z ^ (-1 / 4 : ℝ))) (0.22 * (ei / 1000) ^ (-0.92 : ℝ) * nu)
    ∃ t, bremsDeflection m ei ef Z u r1 = .angles t (2 * Real.pi * r1) ∧ 0 ≤ t ∧
      ∀ s, 0 ≤ s → (t ≤ s ↔ u ≤ 1 - Real.exp (-(s / rms) ^ 2)) := by
  intro nu rms
  have hi : 0 < ei := by linarith
  have hx : 0 < ei - m := by linarith
  have hnu : nu ≤ 0.5 := by
    show (ei - ef) / (ei - m) ≤ 0.5
    rw [div_le_iff₀ hx]; norm_num; linarith
  have hnu0 : 0 < nu := div_pos (by linarith) hx
  have hrms : 0 < rms := by
    apply lt_max_of_lt_right
    have := Real.rpow_pos_of_pos (show 0 < ei / 1000 by positivity) (-0.92 : ℝ)
    positivity
  have hr : bremsRmsNu (ei / 1000) nu Z = .rms rms := by
    unfold bremsRmsNu
    rw [if_pos hnu]
    congr 2
    congr 1
    · congr 1
      rw [Real.div_rpow hi.le (by norm_num)]
      have : (1000 : ℝ) ^ (-1 / 3 : ℝ) = 1 / 10 := by
        rw [show (1000 : ℝ) = 10 ^ (3 : ℝ) by norm_num, ← Real.rpow_mul (by norm_num), show (3 * (-1 / 3) : ℝ) = -1 by norm_num,
          Real.rpow_neg_one]
        norm_num
      rw [this]
      ring
    · rw [show (-0.25 : ℝ) = -1 / 4 by norm_num]
      field_simp
      norm_num
      ring
  obtain ⟨t, ht, t0, hc⟩ := C106_angle rms u hrms h0 h1
  refine ⟨t, ?_, t0, hc⟩
  unfold bremsDeflection bremsRms
  rw [nu_scale]
  show (match bremsRmsNu (ei / 1000) nu Z with
    | .invalidArgument => DeflectResult.invalidArgument
    | .mathError => .mathError
    | .infinite => .notFinite
    | .rms rms =>
      match rmsAngle rms u with
      | none => .notFinite
      | some t => .angles t (2 * Real.pi * r1)) = _
  rw [hr]
  simp [ht]

/-- A muon of 10 GeV that loses 1 GeV in water. -/
example : ∃ t, bremsDeflection MMU 10000 9000 8 0.5 0.5 = .angles t (2 * Real.pi * 0.5) ∧ 0 < t := by
  obtain ⟨t, ht, t0, hc⟩ := C106_brems_soft MMU 10000 9000 8 0.5 0.5 (by norm_num [MMU]) (by norm_num [MMU]) (by norm_num)
    (by norm_num [MMU]) (by norm_num) (by norm_num)
  refine ⟨t, ht, t0.lt_of_ne ?_⟩
  intro h
  have := (hc 0 le_rfl).1 (by rw [← h])
  norm_num at this

end Proposal
