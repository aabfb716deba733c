import Verif.Props.EpairCross

/-!
# C128: electron pairs by Sandrock, Soedingrekso and Rhode
-/

open Set Filter Topology MeasureTheory

namespace Proposal

/-! ## Bounds of the dilogarithm -/

lemma dilog_lower {y : ℝ} (h0 : 0 ≤ y) (h1 : y ≤ 1) : y + y ^ 2 / 4 ≤ Spec.dilog y := by
  have h := sum_le_hasSum (Finset.range 2) (fun i _ => by positivity) (dilog_series h0 h1)
  simp only [Finset.sum_range_succ, Finset.sum_range_zero] at h
  norm_num at h
  linarith

lemma dilog_upper {y : ℝ} (h0 : 0 ≤ y) (h1 : y < 1) : Spec.dilog y ≤ -Real.log (1 - y) ∧ 2 * Spec.dilog y ≤ 1.5 * -Real.log (1 - y) + 0.5 * y := by
  have hl := Real.hasSum_pow_div_log_of_abs_lt_one (x := y) (by rw [abs_of_nonneg h0]; exact h1)
  have hd := dilog_series h0 h1.le
  constructor
  · refine hasSum_le (fun n => ?_) hd hl
    apply div_le_div_of_nonneg_left (by positivity) (by positivity)
    have : (0 : ℝ) ≤ n := Nat.cast_nonneg n
    nlinarith
  · have hs := (hl.mul_left 1.5).add (hasSum_ite_eq 0 (0.5 * y))
    refine hasSum_le (fun n => ?_) (hd.mul_left 2) hs
    rcases Nat.eq_zero_or_pos n with h | h
    · subst h
      norm_num
      linarith
    · rw [if_neg h.ne']
      have hn : (1 : ℝ) ≤ n := by exact_mod_cast h
      have hp : 0 ≤ y ^ (n + 1) := by positivity
      rw [add_zero, mul_div_assoc', mul_div_assoc', div_le_div_iff₀ (by positivity) (by positivity)]
      have : 2 * ((n : ℝ) + 1) ≤ 1.5 * ((n : ℝ) + 1) ^ 2 := by nlinarith
      have := mul_le_mul_of_nonneg_left this hp
      linarith

/-! ## The signs that choose the branches of the code -/

/-- C128: the correction of the electron diagram is positive, up to `ξ` of five million. -/
theorem C128_delta_e (ξ β r2 : ℝ) (hξ : 0 < ξ) (hξ' : ξ ≤ 5e6) (hβ : 0 ≤ β) (h0 : 0 ≤ r2) (h1 : r2 ≤ 1) : 0 < sandrockDe ξ β r2 := by
  obtain ⟨_, _, a3⟩ := logInv hξ
  have hd := C124_dilog (1 / (1 + ξ))
  have hε0 : 0 < 1 / (1 + ξ) := by positivity
  have hε1 : 1 / (1 + ξ) ≤ 1 := by
    rw [div_le_one (by positivity)]
    linarith
  have hlow := dilog_lower hε0.le hε1
  have hxe : ξ * (1 / (1 + ξ)) = 1 - 1 / (1 + ξ) := by field_simp; ring
  have hhalf : 1 / (2 * (1 + ξ)) = 1 / (1 + ξ) / 2 := by field_simp
  rw [hhalf] at a3
  have hsmall : 1.9e-7 ≤ 1 / (1 + ξ) := by
    rw [le_div_iff₀ (by positivity)]
    linarith
  have hq : 1e-14 * ξ ≤ 0.5 * (1 / (1 + ξ)) := by
    rw [mul_one_div, le_div_iff₀ (by positivity)]
    nlinarith
  unfold sandrockDe
  have e : (ξ + r2 + β) / (1 + ξ) = (1 - 1 / (1 + ξ)) + (r2 + β) * (1 / (1 + ξ)) := by
    rw [← hxe]
    ring
  rw [e]
  set ε := 1 / (1 + ξ)
  set L := Real.log (1 + 1 / ξ)
  have hli : ε + ε ^ 2 / 4 - 3e-15 ≤ dilog ε := by
    have := (abs_le.mp hd).1
    linarith
  set D := dilog ε
  have c0 : 0 ≤ (2 + r2) * (1 + β) + ξ * (3 + r2) := by positivity
  have m1 := mul_le_mul_of_nonneg_left hli c0
  have m2 : (2 + r2) * (ξ * L) ≤ (2 + r2) * (1 - ε / 2) := by gcongr
  -- the polynomial part
  have p1 : ((2 + r2) * (1 + β) + ξ * (3 + r2)) * (ε + ε ^ 2 / 4 - 3e-15) =
      (2 + r2) * (1 + β) * (ε + ε ^ 2 / 4) + (3 + r2) * ((1 - ε) * (1 + ε / 4)) - 3e-15 * ((2 + r2) * (1 + β) + ξ * (3 + r2)) := by
    have : ξ * (ε + ε ^ 2 / 4) = (1 - ε) * (1 + ε / 4) := by rw [← hxe]; ring
    linear_combination (3 + r2) * this
  have p2 : (2 + r2) * (1 + β) * (ε + ε ^ 2 / 4) + (3 + r2) * ((1 - ε) * (1 + ε / 4)) - (2 + r2) * (1 - ε / 2) - ((1 - ε) + (r2 + β) * ε) =
      (1.75 * ε - 0.25 * ε ^ 2) * (1 - r2) + (1.5 * ε - 0.25 * ε ^ 2) * r2 + β * ((1 + r2) * ε + (2 + r2) * ε ^ 2 / 4) := by ring
  have p3 : 1.25 * ε ≤ (1.75 * ε - 0.25 * ε ^ 2) * (1 - r2) + (1.5 * ε - 0.25 * ε ^ 2) * r2 := by
    have : ε ^ 2 ≤ ε := by nlinarith
    nlinarith
  have p4 : β * ε ≤ β * ((1 + r2) * ε + (2 + r2) * ε ^ 2 / 4) := by
    apply mul_le_mul_of_nonneg_left _ hβ
    have : 0 ≤ r2 * ε := by positivity
    have : 0 ≤ (2 + r2) * ε ^ 2 / 4 := by positivity
    linarith
  have p5 : 3e-15 * ((2 + r2) * (1 + β) + ξ * (3 + r2)) ≤ 9e-15 * (1 + β) + 1.2e-14 * ξ := by
    have : (2 + r2) * (1 + β) ≤ 3 * (1 + β) := by gcongr; linarith
    have : ξ * (3 + r2) ≤ ξ * 4 := by gcongr; linarith
    linarith
  have p6 : 9e-15 * β ≤ β * ε := by
    rw [mul_comm]
    gcongr
    linarith
  linarith

/-- C128: so is that of the diagram of the particle, from `ξ` of 1e-6. -/
theorem C128_delta_mu (ξ β r2 : ℝ) (hξ : 1e-6 ≤ ξ) (hβ : 0 ≤ β) (h0 : 0 ≤ r2) (h1 : r2 ≤ 1) : 0 < sandrockDm ξ β r2 := by
  have hξ0 : 0 < ξ := by linarith
  have hd := C124_dilog (ξ / (1 + ξ))
  have hy0 : 0 < ξ / (1 + ξ) := by positivity
  have hy1 : ξ / (1 + ξ) < 1 := by
    rw [div_lt_one (by positivity)]
    linarith
  have hlow := dilog_lower hy0.le hy1.le
  obtain ⟨u1, u2⟩ := dilog_upper hy0.le hy1
  have hlog : -Real.log (1 - ξ / (1 + ξ)) = Real.log (1 + ξ) := by
    have : 1 - ξ / (1 + ξ) = (1 + ξ)⁻¹ := by field_simp; ring
    rw [this, Real.log_inv, neg_neg]
  rw [hlog] at u1 u2
  have hsmall : 9.9e-7 ≤ ξ / (1 + ξ) := by
    rw [le_div_iff₀ (by positivity)]
    linarith
  have hinv : 1 / ξ ≤ 1e6 := by
    rw [div_le_iff₀ hξ0]
    linarith
  have hinv0 : 0 < 1 / ξ := by positivity
  unfold sandrockDm
  have e : ((1 + r2) * (1 + (3 * β) / 2) - 1 / ξ * (1 + 2 * β) * (1 - r2)) * dilog (ξ / (1 + ξ)) +
      (1 + (3 * β) / 2) * (1 - r2) / ξ * Real.log (1 + ξ) +
      (1 - r2 - β / 2 * (1 + r2) + (1 - r2) / (2 * ξ) * β) * ξ / (1 + ξ) =
      ((1 + r2) * (1 + (3 * β) / 2) - 1 / ξ * (1 + 2 * β) * (1 - r2)) * (dilog (ξ / (1 + ξ)) - Spec.dilog (ξ / (1 + ξ))) +
      (((1 + r2) * Spec.dilog (ξ / (1 + ξ)) + (1 - r2) * (1 / ξ * (Real.log (1 + ξ) - Spec.dilog (ξ / (1 + ξ)))) + (1 - r2) * (ξ / (1 + ξ))) +
      β * ((1 + r2) * (1.5 * Spec.dilog (ξ / (1 + ξ)) - 0.5 * (ξ / (1 + ξ))) +
        (1 - r2) * (1 / ξ * (1.5 * Real.log (1 + ξ) + 0.5 * (ξ / (1 + ξ)) - 2 * Spec.dilog (ξ / (1 + ξ)))))) := by
    field_simp
    ring
  rw [e]
  set y := ξ / (1 + ξ)
  set S := Spec.dilog y
  set M := Real.log (1 + ξ)
  set i := 1 / ξ
  have hS : y ≤ S := by nlinarith [sq_nonneg y]
  have t0 : 2 * y ≤ (1 + r2) * S + (1 - r2) * (i * (M - S)) + (1 - r2) * y := by
    have : (1 + r2) * y ≤ (1 + r2) * S := by gcongr
    have : 0 ≤ (1 - r2) * (i * (M - S)) := mul_nonneg (by linarith) (mul_nonneg hinv0.le (by linarith))
    linarith
  have t1 : β * y ≤ β * ((1 + r2) * (1.5 * S - 0.5 * y) + (1 - r2) * (i * (1.5 * M + 0.5 * y - 2 * S))) := by
    apply mul_le_mul_of_nonneg_left _ hβ
    have a : (1 + r2) * y ≤ (1 + r2) * (1.5 * S - 0.5 * y) := by gcongr; linarith
    have : 0 ≤ (1 - r2) * (i * (1.5 * M + 0.5 * y - 2 * S)) := mul_nonneg (by linarith) (mul_nonneg hinv0.le (by linarith))
    have : 0 ≤ r2 * y := by positivity
    linarith
  have t2 : |((1 + r2) * (1 + (3 * β) / 2) - i * (1 + 2 * β) * (1 - r2))| ≤ (1 + 2 * β) * 1000002 := by
    rw [abs_le]
    have a1 : (1 + r2) * (1 + (3 * β) / 2) ≤ 2 * (1 + 2 * β) := by
      apply mul_le_mul _ _ (by positivity) (by norm_num)
      · linarith
      · linarith
    have a0 : 0 ≤ (1 + r2) * (1 + (3 * β) / 2) := by positivity
    have b1 : i * (1 + 2 * β) * (1 - r2) ≤ 1e6 * (1 + 2 * β) * 1 := by
      apply mul_le_mul _ (by linarith) (by linarith) (by positivity)
      gcongr
    have b0 : 0 ≤ i * (1 + 2 * β) * (1 - r2) := mul_nonneg (by positivity) (by linarith)
    constructor <;> linarith
  have t3 : |((1 + r2) * (1 + (3 * β) / 2) - i * (1 + 2 * β) * (1 - r2)) * (dilog y - S)| ≤ (1 + 2 * β) * 1000002 * 3e-15 := by
    rw [abs_mul]
    exact mul_le_mul t2 hd (abs_nonneg _) (by positivity)
  have t4 := (abs_le.mp t3).1
  have t5 : β * 9.9e-7 ≤ β * y := by gcongr
  linarith

/-! ## The size of the coefficients -/

/-- C128: the second coefficient of the electron diagram is smaller than the sum. -/
theorem C128_ce2 (ξ β r2 : ℝ) (hξ : 0 < ξ) (hβ : 0 ≤ β) (h0 : 0 ≤ r2) (h1 : r2 ≤ 1) : |sandrockCe2 ξ β r2| < epairPhiE ξ β r2 := by
  obtain ⟨a1, a2, _⟩ := logInv hξ
  have hε0 : 0 < 1 / (1 + ξ) := by positivity
  unfold sandrockCe2 epairPhiE
  set L := Real.log (1 + 1 / ξ)
  have hL : 0 < L := by linarith
  have k : 2 ≤ (2 * ξ + 1) * L := by
    have : (2 * ξ + 1) * (2 / (2 * ξ + 1)) ≤ (2 * ξ + 1) * L := by gcongr
    have e : (2 * ξ + 1) * (2 / (2 * ξ + 1)) = 2 := by field_simp
    linarith
  rw [show 2 * (1 - β - r2) / (1 + ξ) = 2 * (1 - β - r2) * (1 / (1 + ξ)) by ring, show (1 - r2 - β) / (1 + ξ) = (1 - r2 - β) * (1 / (1 + ξ)) by ring]
  set ε := 1 / (1 + ξ)
  rw [abs_lt]
  constructor
  · have e : ((2 + r2) * (1 + β) + ξ * (3 + r2)) * L + (1 - r2 - β) * ε - (3 + r2) + (((1 - r2) * (1 + β) + ξ * (3 - r2)) * L + 2 * (1 - β - r2) * ε - (3 - r2)) =
        3 * (((2 * ξ + 1) * L - 2) + β * (L - ε) + (1 - r2) * ε) := by ring
    have b1 : 0 ≤ β * (L - ε) := mul_nonneg hβ (by linarith)
    have b2 : 0 ≤ (1 - r2) * ε := mul_nonneg (by linarith) hε0.le
    have strict : 0 < ((2 * ξ + 1) * L - 2) + β * (L - ε) + (1 - r2) * ε ∨ (2 * ξ + 1) * L = 2 := by
      rcases eq_or_lt_of_le k with h | h
      · exact Or.inr h.symm
      · left
        linarith
    rcases strict with h | h
    · linarith
    · exfalso
      -- the bound of the logarithm is strict
      have hx : 0 < 1 / ξ := by positivity
      have h3 : 1 / ξ < 1 / ξ := by
        have hs : 2 * (1 / ξ) / (1 / ξ + 2) < Real.log (1 + 1 / ξ) := Real.lt_log_one_add_of_pos hx
        have e2 : 2 * (1 / ξ) / (1 / ξ + 2) = 2 / (2 * ξ + 1) := by field_simp; ring
        rw [e2, div_lt_iff₀ (by positivity)] at hs
        have : Real.log (1 + 1 / ξ) * (2 * ξ + 1) = 2 := by rw [mul_comm]; exact h
        linarith
      exact lt_irrefl _ h3
  · have e : ((2 + r2) * (1 + β) + ξ * (3 + r2)) * L + (1 - r2 - β) * ε - (3 + r2) - (((1 - r2) * (1 + β) + ξ * (3 - r2)) * L + 2 * (1 - β - r2) * ε - (3 - r2)) =
        (1 - r2) * (L - ε) + r2 * ((3 + 2 * ξ) * L - 2) + β * ((1 + 2 * r2) * L + ε) := by ring
    have b0 : 0 < (1 - r2) * (L - ε) + r2 * ((3 + 2 * ξ) * L - 2) := mix_pos (by linarith) (by linarith) h0 h1
    have b1 : 0 ≤ β * ((1 + 2 * r2) * L + ε) := by positivity
    linarith

/-- C128: and of the diagram of the particle. -/
theorem C128_cm2 (ξ β r2 : ℝ) (hξ : 0 < ξ) (hβ : 0 ≤ β) (h0 : 0 ≤ r2) (h1 : r2 ≤ 1) : |sandrockCm2 ξ β r2| ≤ epairPhiMu ξ β r2 := by
  obtain ⟨b0, b1, b2, b3⟩ := logOne hξ
  have hε0 : 0 < 1 / (1 + ξ) := by positivity
  have hy : ξ / (1 + ξ) = 1 - 1 / (1 + ξ) := by field_simp; ring
  have hc : (ξ + 2) / (2 * (1 + ξ)) = (1 + 1 / (1 + ξ)) / 2 := by field_simp; ring
  rw [hy] at b1
  rw [hc] at b3
  unfold sandrockCm2 epairPhiMu
  set M := Real.log (1 + ξ)
  have eC : ((1 - β) * (1 - r2) - ξ * (1 + r2)) * M / ξ - 2 * (1 - β - r2) / (1 + ξ) + 1 - β - (1 + β) * r2 =
      (1 - β) * (1 - r2) * (M / ξ) - (1 + r2) * M - 2 * (1 - β - r2) * (1 / (1 + ξ)) + 1 - β - (1 + β) * r2 := by
    field_simp
  have eB : ((1 + r2) * (1 + 1.5 * β) - (1 + 2 * β) * (1 - r2) / ξ) * M + ξ * (1 - r2 - β) / (1 + ξ) + (1 + 2 * β) * (1 - r2) =
      (1 + r2) * (1 + 1.5 * β) * M - (1 + 2 * β) * (1 - r2) * (M / ξ) + (1 - r2 - β) * (1 - 1 / (1 + ξ)) + (1 + 2 * β) * (1 - r2) := by
    rw [← hy]
    field_simp
  rw [eC, eB]
  set q := M / ξ with hq
  set ε := 1 / (1 + ξ) with hεd
  have hq0 : 0 < q := by positivity
  have hε1 : ε ≤ 1 := by
    rw [hεd, div_le_one (by positivity)]
    linarith
  -- the case of equal energies, with the square of the asymmetry 0
  have hz : 0 ≤ 1.5 * M - 3 * q + 3 * ε := by
    have hM : M = ξ * q := by rw [hq]; field_simp
    have hxe : (1 + ξ) * ε = 1 := by rw [hεd]; field_simp
    rw [hM]
    have hfac : 0 ≤ (ξ - 2) * q + 2 * ε := by
      rcases le_or_gt 2 ξ with h | h
      · have : 0 ≤ (ξ - 2) * q := mul_nonneg (by linarith) hq0.le
        linarith
      · have : (2 - ξ) * q ≤ (2 - ξ) * ((1 + ε) / 2) := by
          apply mul_le_mul_of_nonneg_left b3.le (by linarith)
        have e1 : ξ * ε = 1 - ε := by linarith
        have : (2 - ξ) * ((1 + ε) / 2) ≤ 2 * ε := by
          have : (2 - ξ) * (1 + ε) = 3 * ε + 1 - ξ := by linear_combination -e1
          have : 1 - ξ ≤ ε := by nlinarith
          linarith
        linarith
    linarith
  rw [abs_le]
  constructor
  · have e : (1 + r2) * (1 + 1.5 * β) * M - (1 + 2 * β) * (1 - r2) * q + (1 - r2 - β) * (1 - ε) + (1 + 2 * β) * (1 - r2) +
        ((1 - β) * (1 - r2) * q - (1 + r2) * M - 2 * (1 - β - r2) * ε + 1 - β - (1 + β) * r2) =
        3 * (1 - r2) * (1 - ε) + β * ((1 - r2) * (1.5 * M - 3 * q + 3 * ε) + r2 * (3 * (M - (1 - ε)))) := by ring
    have t0 : 0 ≤ 3 * (1 - r2) * (1 - ε) := mul_nonneg (by linarith) (by linarith)
    have t1 : 0 ≤ β * ((1 - r2) * (1.5 * M - 3 * q + 3 * ε) + r2 * (3 * (M - (1 - ε)))) := by
      apply mul_nonneg hβ
      apply add_nonneg
      · exact mul_nonneg (by linarith) hz
      · exact mul_nonneg h0 (by linarith)
    linarith
  · have e : (1 + r2) * (1 + 1.5 * β) * M - (1 + 2 * β) * (1 - r2) * q + (1 - r2 - β) * (1 - ε) + (1 + 2 * β) * (1 - r2) -
        ((1 - β) * (1 - r2) * q - (1 + r2) * M - 2 * (1 - β - r2) * ε + 1 - β - (1 + β) * r2) =
        (1 - r2) * (2 * M + (1 + ε - 2 * q)) + r2 * (4 * M) + β * ((1 - r2) * (1.5 * M + (1 - q) + (1 - ε)) + r2 * (3 * M + (1 - ε))) := by ring
    have t0 : 0 ≤ (1 - r2) * (2 * M + (1 + ε - 2 * q)) := mul_nonneg (by linarith) (by linarith)
    have t1 : 0 ≤ r2 * (4 * M) := by positivity
    have t2 : 0 ≤ β * ((1 - r2) * (1.5 * M + (1 - q) + (1 - ε)) + r2 * (3 * M + (1 - ε))) := by
      apply mul_nonneg hβ
      apply add_nonneg
      · exact mul_nonneg (by linarith) (by linarith)
      · exact mul_nonneg h0 (by linarith)
    linarith

end Proposal
