import Verif.Props.PhotoQ2Range

/-!
# C130: photonuclear interaction, dependence on the scattering of the particle
-/

namespace Proposal

/-- The smallest virtuality for energies `E` before and `E'` after the interaction. -/
noncomputable def Spec.reachMin (m E E' : ℝ) : ℝ := 2 * (E * E' - Real.sqrt (E ^ 2 - m ^ 2) * Real.sqrt (E' ^ 2 - m ^ 2) - m ^ 2)

/-- The largest virtuality for energies `E` before and `E'` after the interaction. -/
noncomputable def Spec.reachMax (m E E' : ℝ) : ℝ := 2 * (E * E' + Real.sqrt (E ^ 2 - m ^ 2) * Real.sqrt (E' ^ 2 - m ^ 2) - m ^ 2)

theorem scalar_simple (m M E v Q2 : ℝ) (hM : M ≠ 0) (hE : E ≠ 0) (hv : v ≠ 0) (hQ : Q2 ≠ 0) :
    scalarBracket 0 m M E v Q2 = 1 - v - Q2 / (4 * E ^ 2) - m ^ 2 * v ^ 2 / Q2 - m ^ 2 / E ^ 2 := by
  unfold scalarBracket
  field_simp
  norm_num
  ring

theorem scalar_factor (m M E v Q2 : ℝ) (hm : 0 < m) (hM : M ≠ 0) (hE : 0 < E) (hv : 0 < v) (h1 : m ≤ E * (1 - v)) (hQ : Q2 ≠ 0) :
    scalarBracket 0 m M E v Q2 =
      (Spec.reachMax m E (E * (1 - v)) - Q2) * (Q2 - Spec.reachMin m E (E * (1 - v))) / (4 * E ^ 2 * Q2) := by
  rw [scalar_simple m M E v Q2 hM hE.ne' hv.ne' hQ]
  have hE1 : m ≤ E := by nlinarith
  have s1 : Real.sqrt (E ^ 2 - m ^ 2) ^ 2 = E ^ 2 - m ^ 2 := Real.sq_sqrt (by nlinarith)
  have s2 : Real.sqrt ((E * (1 - v)) ^ 2 - m ^ 2) ^ 2 = (E * (1 - v)) ^ 2 - m ^ 2 := Real.sq_sqrt (by nlinarith)
  unfold Spec.reachMax Spec.reachMin
  generalize Real.sqrt (E ^ 2 - m ^ 2) = p at *
  generalize Real.sqrt ((E * (1 - v)) ^ 2 - m ^ 2) = p' at *
  field_simp
  linear_combination (-4 * p' ^ 2) * s1 + (-4 * (E ^ 2 - m ^ 2)) * s2

theorem fermion_split (R m M E v Q2 : ℝ) (hR : 0 ≤ R) (hM : M ≠ 0) (hE : E ≠ 0) (hv : v ≠ 0) (hQ : Q2 ≠ 0) :
    fermionBracket R m M E v Q2 = scalarBracket 0 m M E v Q2 +
      ((E * v) ^ 2 + Q2) / E ^ 2 * (R / (1 + R) * (m ^ 2 / Q2) + 1 / (2 * (1 + R))) := by
  rw [scalar_simple m M E v Q2 hM hE hv hQ]
  unfold fermionBracket
  have : 1 + R ≠ 0 := by positivity
  field_simp
  ring

/-- C130: for particles without spin the cross section is proportional to the distances of the virtuality from the largest and the
smallest virtuality the particle can transfer, so it vanishes at both. For spin 1/2 there is another term. -/
theorem C130_bracket (p : Q2Param) (m M E v Q2 : ℝ) (hm : 0 < m) (hM : 0 < M) (hE : 0 < E) (hv : 0 < v) (h1 : m ≤ E * (1 - v))
    (hQ : 0 < Q2) :
    p.bracket m M E v Q2 =
      (Spec.reachMax m E (E * (1 - v)) - Q2) * (Q2 - Spec.reachMin m E (E * (1 - v))) / (4 * E ^ 2 * Q2) +
      (match p with
        | .renoSarcevicSu => 0
        | .butkevichMikheyev => ((E * v) ^ 2 + Q2) / E ^ 2 * (1 / 5 * (m ^ 2 / Q2) + 2 / 5)
        | _ => ((E * v) ^ 2 + Q2) / (2 * E ^ 2)) := by
  rw [← scalar_factor m M E v Q2 hm hM.ne' hE hv h1 hQ.ne']
  cases p
  case renoSarcevicSu => simp [Q2Param.bracket, Q2Param.R]
  case butkevichMikheyev =>
    simp only [Q2Param.bracket, Q2Param.R]
    rw [fermion_split _ m M E v Q2 (by norm_num) hM.ne' hE.ne' hv.ne' hQ.ne']
    norm_num
  all_goals
    simp only [Q2Param.bracket, Q2Param.R]
    rw [fermion_split _ m M E v Q2 le_rfl hM.ne' hE.ne' hv.ne' hQ.ne']
    field_simp
    ring

/-- C130: for every virtuality the particle can transfer the integrand has the sign of the structure function. -/
theorem C130_positive (p : Q2Param) (m M E v Q2 : ℝ) (hm : 0 < m) (hM : 0 < M) (hE : 0 < E) (hv : 0 < v) (h1 : m ≤ E * (1 - v))
    (hr : Spec.Reachable m E (E * (1 - v)) Q2) :
    0 < Q2 ∧ 0 ≤ p.bracket m M E v Q2 ∧ (p ≠ .renoSarcevicSu → 0 < p.bracket m M E v Q2) := by
  have hb := reach_bounds _ _ _ _ hr
  have hmin := reach_min m E (E * (1 - v)) hm (by nlinarith) h1 (by nlinarith)
  have hQ : 0 < Q2 := by
    refine lt_of_le_of_lt ?_ (lt_of_lt_of_le hmin hb.1)
    have : 0 ≤ E * (E * (1 - v)) := mul_nonneg hE.le (by linarith)
    positivity
  have h0 : 0 ≤ (Spec.reachMax m E (E * (1 - v)) - Q2) * (Q2 - Spec.reachMin m E (E * (1 - v))) / (4 * E ^ 2 * Q2) := by
    refine div_nonneg (mul_nonneg ?_ ?_) (by positivity)
    · unfold Spec.reachMax; linarith [hb.2]
    · unfold Spec.reachMin; linarith [hb.1]
  refine ⟨hQ, ?_, ?_⟩
  · rw [C130_bracket p m M E v Q2 hm hM hE hv h1 hQ]
    refine add_nonneg h0 ?_
    cases p <;> simp only <;> positivity
  · intro hp
    rw [C130_bracket p m M E v Q2 hm hM hE hv h1 hQ]
    refine add_pos_of_nonneg_of_pos h0 ?_
    cases p
    case renoSarcevicSu => exact absurd rfl hp
    all_goals simp only; positivity

/-- C130 fails for particles without spin: at the lower end of the range the integrand has the opposite sign of the structure function. -/
theorem C130_scalar_negative (m M E v : ℝ) (hm : 0 < m) (hM : 0 < M) (hE : 0 < E) (h0 : (limPhotonuclear m M E).vMin ≤ v)
    (h1 : m ≤ E * (1 - v)) : Q2Param.renoSarcevicSu.bracket m M E v (q2Min m E v) < 0 := by
  have hpi : 0 < MPI := by norm_num [MPI]
  rw [photo_vmin, div_le_iff₀ hE] at h0
  have hp : MPI < E * v := by
    have : 0 < MPI * MPI / (2 * M) := by positivity
    linarith
  have hv : 0 < v := by
    by_contra hn
    nlinarith [not_lt.mp hn]
  have hv1 : v < 1 := by
    by_contra hn
    nlinarith [not_lt.mp hn]
  have hQ := q2min_pos m E v hm hE (Or.inl hp) hv hv1
  rw [C130_bracket _ m M E v _ hm hM hE hv h1 hQ]
  have hmin := reach_min m E (E * (1 - v)) hm (by nlinarith) h1 (by nlinarith)
  have e : m ^ 2 * (E - E * (1 - v)) ^ 2 / (E * (E * (1 - v))) = m ^ 2 * v ^ 2 / (1 - v) := by
    have : 0 < 1 - v := by linarith
    field_simp
    ring
  rw [e] at hmin
  have hlt : q2Min m E v < Spec.reachMin m E (E * (1 - v)) := by
    unfold Spec.reachMin
    linarith [q2min_le m E v hv1]
  have hlt2 : q2Min m E v < Spec.reachMax m E (E * (1 - v)) := by
    refine lt_of_lt_of_le hlt ?_
    unfold Spec.reachMin Spec.reachMax
    have := mul_nonneg (Real.sqrt_nonneg (E ^ 2 - m ^ 2)) (Real.sqrt_nonneg ((E * (1 - v)) ^ 2 - m ^ 2))
    linarith
  simp only [add_zero]
  apply div_neg_of_neg_of_pos _ (by positivity)
  apply mul_neg_of_pos_of_neg <;> linarith

/-- C130 fails for electrons and muons: for losses `v⁴ ≤ m² / (2 E²)` the integrand has the opposite sign of the structure function at the
lower end of the range. -/
theorem C130_light_negative (p : Q2Param) (hp : p ≠ .butkevichMikheyev) (m M E v : ℝ) (hm : 0 < m) (hl : m < MPI) (hM : 0 < M)
    (hE : 0 < E) (h0 : (limPhotonuclear m M E).vMin ≤ v) (h1 : m ≤ E * (1 - v)) (hv2 : v ≤ 1 / 2) (hs : 2 * E ^ 2 * v ^ 4 ≤ m ^ 2) :
    p.bracket m M E v (q2Min m E v) < 0 := by
  by_cases hr : p = .renoSarcevicSu
  · subst hr
    exact C130_scalar_negative m M E v hm hM hE h0 h1
  have hpi : 0 < MPI := by norm_num [MPI]
  rw [photo_vmin, div_le_iff₀ hE] at h0
  have hp' : MPI < E * v := by
    have : 0 < MPI * MPI / (2 * M) := by positivity
    linarith
  have hv : 0 < v := by
    by_contra hn
    nlinarith [not_lt.mp hn]
  have hv1 : 0 < 1 - v := by linarith
  have hQ := q2min_pos m E v hm hE (Or.inl hp') hv (by linarith)
  have hb : p.bracket m M E v (q2Min m E v) = fermionBracket 0 m M E v (q2Min m E v) := by
    cases p <;> simp_all [Q2Param.bracket, Q2Param.R]
  rw [hb, fermion_split 0 m M E v _ le_rfl hM.ne' hE.ne' hv.ne' hQ.ne', scalar_simple m M E v _ hM.ne' hE.ne' hv.ne' hQ.ne']
  have hq : q2Min m E v = m ^ 2 * (2 * (E * v) ^ 2 - m ^ 2) / (2 * E ^ 2 * (1 - v)) := by
    unfold q2Min
    simp only [hl, if_true]
    field_simp
  have hw : m ^ 2 < (E * v) ^ 2 := by
    have : m < E * v := by linarith
    nlinarith
  have hpos : 0 < 2 * (E * v) ^ 2 - m ^ 2 := by nlinarith
  have hle : q2Min m E v ≤ m ^ 2 * v ^ 2 / (1 - v) := q2min_le m E v (by linarith)
  have h3 : (1 - v) * (1 + m ^ 2 / (2 * (E * v) ^ 2)) ≤ m ^ 2 * v ^ 2 / q2Min m E v := by
    rw [le_div_iff₀ hQ]
    have e : (1 - v) * (1 + m ^ 2 / (2 * (E * v) ^ 2)) * q2Min m E v =
        m ^ 2 * (2 * (E * v) ^ 2 + m ^ 2) * (2 * (E * v) ^ 2 - m ^ 2) / (4 * E ^ 4 * v ^ 2) := by
      rw [hq]
      field_simp
      ring
    rw [e, div_le_iff₀ (by positivity)]
    nlinarith [sq_nonneg (m ^ 2), mul_nonneg (sq_nonneg m) (sq_nonneg (m ^ 2))]
  have h4 : q2Min m E v / (4 * E ^ 2) ≤ m ^ 2 / (8 * E ^ 2) := by
    rw [div_le_div_iff₀ (by positivity) (by positivity)]
    have : m ^ 2 * v ^ 2 / (1 - v) ≤ m ^ 2 / 2 := by
      rw [div_le_div_iff₀ hv1 (by norm_num)]
      have : v ^ 2 * 2 ≤ 1 - v := by nlinarith
      nlinarith [sq_nonneg m]
    nlinarith [sq_nonneg E]
  have h5 : v ^ 2 / 2 ≤ m ^ 2 / (4 * (E * v) ^ 2) := by
    rw [div_le_div_iff₀ (by norm_num) (by positivity)]
    nlinarith
  have h6 : m ^ 2 / (4 * (E * v) ^ 2) ≤ (1 - v) * (m ^ 2 / (2 * (E * v) ^ 2)) := by
    have e : m ^ 2 / (4 * (E * v) ^ 2) = 1 / 2 * (m ^ 2 / (2 * (E * v) ^ 2)) := by
      field_simp
      norm_num
    rw [e]
    exact mul_le_mul_of_nonneg_right (by linarith) (by positivity)
  have e1 : ((E * v) ^ 2 + q2Min m E v) / E ^ 2 * (0 / (1 + 0) * (m ^ 2 / q2Min m E v) + 1 / (2 * (1 + 0))) =
      v ^ 2 / 2 + 2 * (q2Min m E v / (4 * E ^ 2)) := by
    field_simp
    ring
  rw [e1]
  have h7 : m ^ 2 / E ^ 2 = 8 * (m ^ 2 / (8 * E ^ 2)) := by
    field_simp
  have h8 : 0 < m ^ 2 / (8 * E ^ 2) := by positivity
  rw [h7]
  have h9 : (1 - v) * (1 + m ^ 2 / (2 * (E * v) ^ 2)) = 1 - v + (1 - v) * (m ^ 2 / (2 * (E * v) ^ 2)) := by ring
  linarith

/-- C130 fails for tau leptons: near the lower kinematic limit the integrand has the opposite sign of the structure function at the lower
end of the range. -/
theorem C130_heavy_negative (p : Q2Param) (hp : p ≠ .butkevichMikheyev) (m M E v : ℝ) (hl : MPI ≤ m) (hM : 0 < M) (hE : 0 < E)
    (h0 : 0 < v) (hv2 : v ≤ 1 / 2) (hs : 2 * (E * v) ^ 2 ≤ m ^ 2) :
    p.bracket m M E v (q2Min m E v) < 0 := by
  have hpi : 0 < MPI := by norm_num [MPI]
  have hm : 0 < m := by linarith
  have hv1 : 0 < 1 - v := by linarith
  have hq : q2Min m E v = m ^ 2 * v ^ 2 / (1 - v) := by
    unfold q2Min
    rw [if_neg (not_lt.mpr hl)]
    ring
  have hQ : 0 < q2Min m E v := by rw [hq]; positivity
  by_cases hr : p = .renoSarcevicSu
  · subst hr
    have : Q2Param.renoSarcevicSu.bracket m M E v (q2Min m E v) = scalarBracket 0 m M E v (q2Min m E v) := rfl
    rw [this, scalar_simple m M E v _ hM.ne' hE.ne' h0.ne' hQ.ne']
    have e : m ^ 2 * v ^ 2 / q2Min m E v = 1 - v := by
      rw [hq]
      field_simp
    rw [e]
    have : 0 < q2Min m E v / (4 * E ^ 2) := by positivity
    have : 0 < m ^ 2 / E ^ 2 := by positivity
    linarith
  have hb : p.bracket m M E v (q2Min m E v) = fermionBracket 0 m M E v (q2Min m E v) := by
    cases p <;> simp_all [Q2Param.bracket, Q2Param.R]
  rw [hb, fermion_split 0 m M E v _ le_rfl hM.ne' hE.ne' h0.ne' hQ.ne', scalar_simple m M E v _ hM.ne' hE.ne' h0.ne' hQ.ne']
  have e : m ^ 2 * v ^ 2 / q2Min m E v = 1 - v := by
    rw [hq]
    field_simp
  rw [e]
  have e1 : ((E * v) ^ 2 + q2Min m E v) / E ^ 2 * (0 / (1 + 0) * (m ^ 2 / q2Min m E v) + 1 / (2 * (1 + 0))) =
      v ^ 2 / 2 + 2 * (q2Min m E v / (4 * E ^ 2)) := by
    field_simp
    ring
  rw [e1]
  have h4 : q2Min m E v / (4 * E ^ 2) ≤ m ^ 2 / (8 * E ^ 2) := by
    rw [div_le_div_iff₀ (by positivity) (by positivity), hq]
    have : m ^ 2 * v ^ 2 / (1 - v) ≤ m ^ 2 / 2 := by
      rw [div_le_div_iff₀ hv1 (by norm_num)]
      have : v ^ 2 * 2 ≤ 1 - v := by nlinarith
      nlinarith [sq_nonneg m]
    nlinarith [sq_nonneg E]
  have h5 : v ^ 2 / 2 ≤ 2 * (m ^ 2 / (8 * E ^ 2)) := by
    have e3 : 2 * (m ^ 2 / (8 * E ^ 2)) = m ^ 2 / (4 * E ^ 2) := by ring
    rw [e3, div_le_div_iff₀ (by norm_num) (by positivity)]
    nlinarith
  have h7 : m ^ 2 / E ^ 2 = 8 * (m ^ 2 / (8 * E ^ 2)) := by
    field_simp
  have h8 : 0 < m ^ 2 / (8 * E ^ 2) := by positivity
  rw [h7]
  linarith

/-- A muon of 1 TeV that loses a thousandth of its energy. -/
example : Q2Param.allm97.bracket MMU 938.9 1e6 1e-3 (q2Min MMU 1e6 1e-3) < 0 :=
  C130_light_negative _ (by simp) MMU 938.9 1e6 1e-3 (by norm_num [MMU]) (by norm_num [MMU, MPI]) (by norm_num) (by norm_num)
    (by rw [photo_vmin]; norm_num [MPI]) (by norm_num [MMU]) (by norm_num) (by norm_num [MMU])

/-- A tau lepton of 1 TeV that loses 1 GeV. -/
example : Q2Param.allm97.bracket MTAU 938.9 1e6 1e-3 (q2Min MTAU 1e6 1e-3) < 0 :=
  C130_heavy_negative _ (by simp) MTAU 938.9 1e6 1e-3 (by norm_num [MTAU, MPI]) (by norm_num) (by norm_num) (by norm_num) (by norm_num)
    (by norm_num [MTAU])

end Proposal
