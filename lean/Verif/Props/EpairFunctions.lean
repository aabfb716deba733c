import Verif.Model.Epair
import Verif.Props.Dilog
import Verif.Props.MuonPairs
import Verif.Props.Lpm
import Mathlib.Analysis.SpecialFunctions.Trigonometric.DerivHyp

/-!
# C128: the functions of the production of electron pairs
-/

open Set Filter Topology

namespace Proposal

/-! ## Bounds of the logarithms -/

lemma log_sinh {x : ℝ} (h : 0 < x) : Real.log (1 + x) < x * (x + 2) / (2 * (1 + x)) := by
  have h1 : 0 < Real.log (1 + x) := Real.log_pos (by linarith)
  have h2 := Real.self_lt_sinh_iff.mpr h1
  rw [Real.sinh_log (by linarith)] at h2
  have e : ((1 + x) - (1 + x)⁻¹) / 2 = x * (x + 2) / (2 * (1 + x)) := by
    field_simp
    ring
  rwa [e] at h2

lemma log_lower {x : ℝ} (h : 0 < x) : x / (1 + x) < Real.log (1 + x) := by
  have h1 := Real.le_log_one_add_of_nonneg h.le
  refine lt_of_lt_of_le ?_ h1
  rw [div_lt_div_iff₀ (by positivity) (by positivity)]
  nlinarith

/-- `L = log (1 + 1/ξ)`: the bounds used below. -/
lemma logInv {ξ : ℝ} (h : 0 < ξ) : 2 / (2 * ξ + 1) ≤ Real.log (1 + 1 / ξ) ∧ 1 / (1 + ξ) < Real.log (1 + 1 / ξ) ∧
    ξ * Real.log (1 + 1 / ξ) < 1 - 1 / (2 * (1 + ξ)) := by
  refine ⟨?_, ?_, ?_⟩
  · have := Real.le_log_one_add_of_nonneg (x := 1 / ξ) (by positivity)
    have e : 2 * (1 / ξ) / (1 / ξ + 2) = 2 / (2 * ξ + 1) := by
      field_simp
      ring
    rwa [e] at this
  · have := log_lower (x := 1 / ξ) (by positivity)
    have e : 1 / ξ / (1 + 1 / ξ) = 1 / (1 + ξ) := by
      field_simp
      ring
    rwa [e] at this
  · have := mul_lt_mul_of_pos_left (log_sinh (x := 1 / ξ) (by positivity)) h
    have e : ξ * (1 / ξ * (1 / ξ + 2) / (2 * (1 + 1 / ξ))) = 1 - 1 / (2 * (1 + ξ)) := by
      field_simp
      ring
    rwa [e] at this

/-- `M = log (1 + ξ)`: the bounds used below. -/
lemma logOne {ξ : ℝ} (h : 0 < ξ) : 0 < Real.log (1 + ξ) ∧ ξ / (1 + ξ) < Real.log (1 + ξ) ∧ Real.log (1 + ξ) / ξ < 1 ∧
    Real.log (1 + ξ) / ξ < (ξ + 2) / (2 * (1 + ξ)) := by
  refine ⟨Real.log_pos (by linarith), log_lower h, ?_, ?_⟩
  · rw [div_lt_one h]
    have := Real.log_lt_sub_one_of_pos (show 0 < 1 + ξ by positivity) (by linarith)
    linarith
  · rw [div_lt_iff₀ h]
    refine (log_sinh h).trans_eq ?_
    ring

/-- A number between two positive ones. -/
lemma mix_pos {a b t : ℝ} (ha : 0 < a) (hb : 0 < b) (h0 : 0 ≤ t) (h1 : t ≤ 1) : 0 < (1 - t) * a + t * b := by
  rcases eq_or_lt_of_le h0 with h | h
  · rw [← h]
    linarith
  · have := mul_pos h hb
    have := mul_nonneg (sub_nonneg.2 h1) ha.le
    linarith

/-! ## The functions of the diagrams -/

/-- C128: the function of the diagram in which an electron couples to the nucleus is positive. -/
theorem C128_phiE (ξ β r2 : ℝ) (hξ : 0 < ξ) (hβ : 0 ≤ β) (h0 : 0 ≤ r2) (h1 : r2 ≤ 1) : 1 / (1 + ξ) < epairPhiE ξ β r2 := by
  obtain ⟨a1, a2, _⟩ := logInv hξ
  unfold epairPhiE
  set L := Real.log (1 + 1 / ξ)
  have P0 : 0 < (2 + 3 * ξ) * L - 3 := by
    have : (2 + 3 * ξ) * (2 / (2 * ξ + 1)) ≤ (2 + 3 * ξ) * L := by gcongr
    have e : (2 + 3 * ξ) * (2 / (2 * ξ + 1)) = 3 + 1 / (2 * ξ + 1) := by
      field_simp
      ring
    have : 0 < 1 / (2 * ξ + 1) := by positivity
    linarith
  have P1 : 0 < (3 + 4 * ξ) * L - 4 - 1 / (1 + ξ) := by
    have : (3 + 4 * ξ) * (2 / (2 * ξ + 1)) ≤ (3 + 4 * ξ) * L := by gcongr
    have e : (3 + 4 * ξ) * (2 / (2 * ξ + 1)) = 4 + 1 / (1 + ξ) + 1 / ((2 * ξ + 1) * (1 + ξ)) := by
      field_simp
      ring
    have : 0 < 1 / ((2 * ξ + 1) * (1 + ξ)) := by positivity
    linarith
  have hb : 0 ≤ β * ((2 + r2) * L - 1 / (1 + ξ)) := by
    apply mul_nonneg hβ
    have : 0 ≤ (1 + r2) * L := by
      have : 0 < 1 / (1 + ξ) := by positivity
      apply mul_nonneg <;> linarith
    linarith
  have e : ((2 + r2) * (1 + β) + ξ * (3 + r2)) * L + (1 - r2 - β) / (1 + ξ) - (3 + r2) - 1 / (1 + ξ) =
      β * ((2 + r2) * L - 1 / (1 + ξ)) + ((1 - r2) * ((2 + 3 * ξ) * L - 3) + r2 * ((3 + 4 * ξ) * L - 4 - 1 / (1 + ξ))) := by
    field_simp
    ring
  have := mix_pos P0 P1 h0 h1
  linarith

/-- C128: and so is that of the diagram in which the particle couples to it. -/
theorem C128_phiMu (ξ β r2 : ℝ) (hξ : 0 < ξ) (hβ : 0 ≤ β) (h0 : 0 ≤ r2) (h1 : r2 ≤ 1) :
    Real.log (1 + ξ) ≤ epairPhiMu ξ β r2 ∧ 0 < epairPhiMu ξ β r2 := by
  obtain ⟨b0, b1, b2, _⟩ := logOne hξ
  unfold epairPhiMu
  set M := Real.log (1 + ξ)
  have e : ((1 + r2) * (1 + 1.5 * β) - (1 + 2 * β) * (1 - r2) / ξ) * M + ξ * (1 - r2 - β) / (1 + ξ) + (1 + 2 * β) * (1 - r2) - M =
      (1 - r2) * (1 + 2 * β) * (1 - M / ξ) + r2 * M + (1 - r2) * (ξ / (1 + ξ)) + β * (1.5 * (1 + r2) * M - ξ / (1 + ξ)) := by
    field_simp
    ring
  have c1 : 0 ≤ (1 - r2) * (1 + 2 * β) * (1 - M / ξ) := by
    apply mul_nonneg (mul_nonneg _ _) <;> linarith
  have c2 : 0 ≤ (1 - r2) * (ξ / (1 + ξ)) := mul_nonneg (by linarith) (by positivity)
  have c3 : 0 ≤ r2 * M := by positivity
  have c4 : 0 ≤ β * (1.5 * (1 + r2) * M - ξ / (1 + ξ)) := by
    apply mul_nonneg hβ
    have : 0 ≤ r2 * M := by positivity
    nlinarith
  constructor
  · linarith
  · linarith

/-- C128: the short expression that the code uses for large `ξ` differs by less than five parts in 100000. -/
theorem C128_short (ξ β r2 : ℝ) (hξ : 0 < ξ) (h : 1 / ξ < HALF_PRECISION) (hβ : 0 ≤ β) (h0 : 0 ≤ r2) (h1 : r2 ≤ 1) :
    |(1.5 - r2 / 2 + β * (1 + r2)) / ξ - epairPhiE ξ β r2| ≤ 5e-5 * ((1.5 - r2 / 2 + β * (1 + r2)) / ξ) := by
  obtain ⟨a1, _, a3⟩ := logInv hξ
  have hbig : 1e5 < ξ := by
    unfold HALF_PRECISION at h
    rw [div_lt_iff₀ hξ] at h
    linarith
  unfold epairPhiE
  set L := Real.log (1 + 1 / ξ)
  have hε : ξ * (1 / (1 + ξ)) = 1 - 1 / (1 + ξ) := by field_simp; ring
  have hε0 : 0 < 1 / (1 + ξ) := by positivity
  have hε1 : 1 / (1 + ξ) < 1e-5 := by
    rw [div_lt_iff₀ (by linarith)]
    linarith
  have hhalf : 1 / (2 * (1 + ξ)) = 1 / (1 + ξ) / 2 := by field_simp
  rw [hhalf] at a3
  have l1 : -(1 / (1 + ξ)) ≤ ξ * L - 1 := by
    have : ξ * (2 / (2 * ξ + 1)) ≤ ξ * L := by gcongr
    have e : ξ * (2 / (2 * ξ + 1)) = 1 - 1 / (2 * ξ + 1) := by field_simp; ring
    have : 1 / (2 * ξ + 1) ≤ 1 / (1 + ξ) := by
      apply div_le_div_of_nonneg_left <;> linarith
    linarith
  have l2 : 0 ≤ ξ * (ξ * L) - ξ + 1 / 2 := by
    have : ξ * (ξ * (2 / (2 * ξ + 1))) ≤ ξ * (ξ * L) := by gcongr
    have e : ξ * (ξ * (2 / (2 * ξ + 1))) = ξ - 1 / 2 + 1 / (2 * (2 * ξ + 1)) := by field_simp; ring
    have : 0 < 1 / (2 * (2 * ξ + 1)) := by positivity
    linarith
  have l3 : ξ * (ξ * L) - ξ + 1 / 2 ≤ 1 / (1 + ξ) / 2 := by
    have : ξ * (ξ * L) ≤ ξ * (1 - 1 / (1 + ξ) / 2) := by gcongr
    have e : ξ * (1 - 1 / (1 + ξ) / 2) = ξ - ξ * (1 / (1 + ξ)) / 2 := by ring
    linarith
  have key : ξ * (((2 + r2) * (1 + β) + ξ * (3 + r2)) * L + (1 - r2 - β) / (1 + ξ) - (3 + r2)) - (1.5 - r2 / 2 + β * (1 + r2)) =
      (2 + r2) * (1 + β) * (ξ * L - 1) + (3 + r2) * (ξ * (ξ * L) - ξ + 1 / 2) - (1 - r2 - β) * (1 / (1 + ξ)) := by
    have : ξ * ((1 - r2 - β) / (1 + ξ)) = (1 - r2 - β) * (1 - 1 / (1 + ξ)) := by
      rw [← hε]
      ring
    linear_combination this
  set T := 1.5 - r2 / 2 + β * (1 + r2)
  have hT : 1 + β ≤ T := by
    have : 0 ≤ β * r2 := by positivity
    show 1 + β ≤ 1.5 - r2 / 2 + β * (1 + r2)
    nlinarith
  set P := ((2 + r2) * (1 + β) + ξ * (3 + r2)) * L + (1 - r2 - β) / (1 + ξ) - (3 + r2)
  set ε := 1 / (1 + ξ)
  have hx : ξ * L - 1 ≤ 0 := by linarith
  have up : ξ * P - T ≤ 5 * (1 + β) * ε := by
    rw [key]
    have t1 : (2 + r2) * (1 + β) * (ξ * L - 1) ≤ 0 := mul_nonpos_of_nonneg_of_nonpos (by positivity) hx
    have t2 : (3 + r2) * (ξ * (ξ * L) - ξ + 1 / 2) ≤ 4 * (ε / 2) := by
      apply mul_le_mul (by linarith) l3 l2 (by norm_num)
    have t3 : -(1 - r2 - β) * ε ≤ β * ε := by
      apply mul_le_mul_of_nonneg_right _ hε0.le
      linarith
    nlinarith [mul_nonneg hβ hε0.le]
  have lo : -(5 * (1 + β) * ε) ≤ ξ * P - T := by
    rw [key]
    have t1 : (2 + r2) * (1 + β) * (-ε) ≤ (2 + r2) * (1 + β) * (ξ * L - 1) := by gcongr
    have t2 : 0 ≤ (3 + r2) * (ξ * (ξ * L) - ξ + 1 / 2) := by positivity
    have t3 : (1 - r2 - β) * ε ≤ 1 * ε := by
      apply mul_le_mul_of_nonneg_right _ hε0.le
      linarith
    have t4 : (2 + r2) * (1 + β) * ε ≤ 3 * (1 + β) * ε := by
      apply mul_le_mul_of_nonneg_right _ hε0.le
      apply mul_le_mul_of_nonneg_right _ (by linarith)
      linarith
    nlinarith [mul_nonneg hβ hε0.le]
  have e : T / ξ - P = -(ξ * P - T) / ξ := by field_simp; ring
  rw [e, abs_div, abs_of_pos hξ, mul_div_assoc', div_le_div_iff_of_pos_right hξ, abs_neg, abs_le]
  have : 5 * (1 + β) * ε ≤ 5e-5 * T := by nlinarith
  constructor <;> linarith

/-- C128: the terms that include the screening exactly are positive and bounded. -/
theorem C128_screening (ξ β r2 : ℝ) (hξ : 0 < ξ) (hβ : 0 ≤ β) (h0 : 0 ≤ r2) (h1 : r2 ≤ 1) :
    0 < kelnerYe ξ β r2 ∧ kelnerYe ξ β r2 ≤ 4 ∧ 0 < kelnerYmu ξ β r2 ∧ kelnerYmu ξ β r2 ≤ 2 := by
  have l3 : 1 ≤ Real.log 3 := by
    rw [Real.le_log_iff_exp_le (by norm_num)]
    linarith [Real.exp_one_lt_d9]
  have m1 : 1 ≤ Real.log (3 + 1 / ξ) := l3.trans (Real.log_le_log (by norm_num) (by linarith [show 0 < 1 / ξ by positivity]))
  have m2 : 1 ≤ Real.log (3 + ξ) := l3.trans (Real.log_le_log (by norm_num) (by linarith))
  unfold kelnerYe kelnerYmu
  set a := Real.log (3 + 1 / ξ)
  set b := Real.log (3 + ξ)
  have hβr : 0 ≤ β * r2 := by positivity
  have d1 : 2 - r2 + 2 * β * (1 + r2) ≤ 2 * (1 + 3 * β) * a - r2 - 2 * β * (2 - r2) := by
    have : 2 * (1 + 3 * β) * 1 ≤ 2 * (1 + 3 * β) * a := by gcongr
    linarith
  have d2 : 2.5 + 2 * β * (1 + r2) ≤ (1 + r2) * (1.5 + 2 * β) * b + 1 - 1.5 * r2 := by
    have : (1 + r2) * (1.5 + 2 * β) * 1 ≤ (1 + r2) * (1.5 + 2 * β) * b := by gcongr
    linarith
  have p1 : 0 < 2 - r2 + 2 * β * (1 + r2) := by nlinarith
  have p2 : 0 < 2.5 + 2 * β * (1 + r2) := by nlinarith
  refine ⟨div_pos (by nlinarith) (by linarith), ?_, div_pos (by nlinarith) (by linarith), ?_⟩
  · rw [div_le_iff₀ (by linarith)]
    nlinarith
  · rw [div_le_iff₀ (by linarith)]
    nlinarith

/-- C128: the functions for electrons are the sum of the two diagrams. -/
theorem C128_phi_sum (ξ β r2 : ℝ) (hξ : 0 < ξ) : electronPhi ξ β r2 = epairPhiE ξ β r2 + epairPhiMu ξ β r2 := by
  unfold electronPhi epairPhiE epairPhiMu
  field_simp
  ring

end Proposal
