import Verif.Model.Brems
import Verif.Props.PhotonPairRates
import Verif.Props.Medium
import Verif.Props.KleinNishina

/-!
# C126: bremsstrahlung with complete screening and the radiation length
-/

open MeasureTheory Set Filter Topology

namespace Proposal

lemma log184 : 5.2155 ≤ Real.log 184.15 ∧ Real.log 184.15 ≤ 5.216 := by
  have := log_by_power (x := 184.15) (lo := 5.2155) (hi := 5.216) 37 193 (by norm_num) (by norm_num) (by norm_num) (by norm_num)
  exact this

lemma log1194 : 7.08 ≤ Real.log 1194 ∧ Real.log 1194 ≤ 7.086 := by
  have := log_by_power (x := 1194) (lo := 7.08) (hi := 7.086) 12 85 (by norm_num) (by norm_num) (by norm_num) (by norm_num)
  exact this

lemma log118 : Real.log 118 ≤ 4.776 :=
  (log_by_power (x := 118) (lo := 4.75) (hi := 4.776) 13 62 (by norm_num) (by norm_num) (by norm_num) (by norm_num)).2

lemma log_cbrt {Z : ℝ} (hZ : 0 < Z) (k : ℝ) (hk : 0 < k) : Real.log (k * Z ^ (-1 / 3 : ℝ)) = Real.log k - Real.log Z / 3 := by
  rw [Real.log_mul hk.ne' (by positivity), Real.log_rpow hZ]
  ring

lemma log_cbrt2 {Z : ℝ} (hZ : 0 < Z) (k : ℝ) (hk : 0 < k) : Real.log (k * Z ^ (-1 / 3 : ℝ) * Z ^ (-1 / 3 : ℝ)) = Real.log k - 2 * Real.log Z / 3 := by
  rw [Real.log_mul (by positivity) (by positivity), log_cbrt hZ k hk, Real.log_rpow hZ]
  ring

lemma coulomb_bounds {Z : ℝ} (h0 : 0 ≤ Z) (h1 : Z ≤ 118) : 0 ≤ coulombCorrection Z ∧ coulombCorrection Z ≤ 0.58 := by
  unfold coulombCorrection
  simp only
  have ha : 0 ≤ ALPHA * Z * (ALPHA * Z) := mul_self_nonneg _
  have hb : ALPHA * Z * (ALPHA * Z) ≤ 0.7416 := by
    have : ALPHA * Z ≤ 0.8611 := by
      unfold ALPHA
      linarith
    have h0' : 0 ≤ ALPHA * Z := by
      have := alpha_pos'
      positivity
    nlinarith
  generalize ALPHA * Z * (ALPHA * Z) = a at ha hb
  have h2 : 1 / (1 + a) ≤ 1 := by
    rw [div_le_one (by linarith)]
    linarith
  have h3 : 0.57 ≤ 1 / (1 + a) := by
    rw [le_div_iff₀ (by linarith)]
    linarith
  have h4 : -0.0369 ≤ -0.0369 + a * (0.0083 - 0.002 * a) := by nlinarith
  have h5 : -0.0369 + a * (0.0083 - 0.002 * a) ≤ 0 := by nlinarith
  constructor
  · apply mul_nonneg ha
    nlinarith
  · have e : a * (1 / (1 + a)) ≤ 0.42583 := by
      rw [mul_one_div, div_le_iff₀ (by linarith)]
      nlinarith
    nlinarith [mul_nonneg ha ha]

/-- The radiation logarithms of the elements. -/
lemma radiationLogs_nat (n : ℕ) : radiationLogs n = if n = 1 then (5.31, 6.144) else if n = 2 then (4.79, 5.621) else if n = 3 then (4.74, 5.805)
    else if n = 4 then (4.71, 5.924) else (Real.log (184.15 * (n : ℝ) ^ (-1 / 3 : ℝ)), Real.log (1194 * (n : ℝ) ^ (-1 / 3 : ℝ) * (n : ℝ) ^ (-1 / 3 : ℝ))) := by
  have hf : ⌊(n : ℝ) + 0.5⌋ = n := by
    rw [Int.floor_eq_iff]
    push_cast
    constructor <;> norm_num
  unfold radiationLogs
  rw [hf]
  rcases n with _ | _ | _ | _ | _ | n
  · norm_num
  · norm_num
  · norm_num
  · norm_num
  · norm_num
  · have h1 : n + 1 + 1 + 1 + 1 + 1 ≠ 1 := by omega
    have h2 : n + 1 + 1 + 1 + 1 + 1 ≠ 2 := by omega
    have h3 : n + 1 + 1 + 1 + 1 + 1 ≠ 3 := by omega
    have h4 : n + 1 + 1 + 1 + 1 + 1 ≠ 4 := by omega
    rw [if_neg h1, if_neg h2, if_neg h3, if_neg h4]
    split
    all_goals first | rfl | (rename_i h; exfalso; push_cast at h; omega)

lemma radiation_bounds {n : ℕ} (h1 : 1 ≤ n) (h2 : n ≤ 118) :
    3.04 ≤ (radiationLogs n).1 - coulombCorrection n ∧ (radiationLogs n).1 - coulombCorrection n ≤ 5.31 ∧
    3.8 ≤ (radiationLogs n).2 ∧ (radiationLogs n).2 ≤ 6.2 := by
  have hn : (1 : ℝ) ≤ n := by exact_mod_cast h1
  have hn2 : (n : ℝ) ≤ 118 := by exact_mod_cast h2
  obtain ⟨c0, c1⟩ := coulomb_bounds (by linarith) hn2
  rw [radiationLogs_nat]
  split_ifs with e1 e2 e3 e4
  · simp only
    refine ⟨?_, ?_, ?_, ?_⟩ <;> linarith
  · simp only
    refine ⟨?_, ?_, ?_, ?_⟩ <;> linarith
  · simp only
    refine ⟨?_, ?_, ?_, ?_⟩ <;> linarith
  · simp only
    refine ⟨?_, ?_, ?_, ?_⟩ <;> linarith
  · have h5 : 5 ≤ n := by omega
    have hn5 : (5 : ℝ) ≤ n := by exact_mod_cast h5
    have hn0 : (0 : ℝ) < n := by linarith
    simp only
    rw [log_cbrt hn0 _ (by norm_num), log_cbrt2 hn0 _ (by norm_num)]
    have a1 := log184
    have a2 := log1194
    have a3 : Real.log n ≤ 4.776 := (Real.log_le_log hn0 hn2).trans log118
    have a4 : 1.6 ≤ Real.log n := (log_by_power (x := 5) (lo := 1.6) (hi := 2) 5 8 (by norm_num) (by norm_num) (by norm_num) (by norm_num)).1.trans
      (Real.log_le_log (by norm_num) hn5)
    refine ⟨?_, ?_, ?_, ?_⟩ <;> linarith

lemma spectrum_pos {v : ℝ} : 0 < 4 / 3 * (1 - v) + v * v := by nlinarith [sq_nonneg (v - 2 / 3)]

/-- C126: with complete screening every element up to charge 118 radiates: the cross section is positive for all fractions. -/
theorem C126_complete_positive (n : ℕ) (h1 : 1 ≤ n) (h2 : n ≤ 118) (c : Component) (hc : c.nucCharge = n) (hA : 0 < c.atomicNum) (m z E v : ℝ)
    (hm : 0 < m) (hz : z ≠ 0) (h0 : 0 < v) (hv : v ≤ 1) : 0 < brems none (bremsComplete c) m z c E v := by
  obtain ⟨r1, _, r3, _⟩ := radiation_bounds h1 h2
  have hn : (1 : ℝ) ≤ n := by exact_mod_cast h1
  have ha := alpha_pos'
  have hr := re_pos'
  have hna := na_pos'
  have hme := me_pos'
  unfold brems bremsComplete
  simp only [hc]
  have hp : 0 < ((4 / 3 * (1 - v) + v * v) * (n * ((radiationLogs n).1 - coulombCorrection n) + (radiationLogs n).2) + 1 / 9 * (1 - v) * (n + 1)) / (n : ℝ) := by
    have a1 : 0 < (4 / 3 * (1 - v) + v * v) * (n * ((radiationLogs n).1 - coulombCorrection n) + (radiationLogs n).2) := by
      apply mul_pos spectrum_pos
      have : 0 ≤ (n : ℝ) * ((radiationLogs n).1 - coulombCorrection n) := by
        apply mul_nonneg <;> linarith
      linarith
    have a2 : 0 ≤ 1 / 9 * (1 - v) * ((n : ℝ) + 1) := by
      apply mul_nonneg <;> linarith
    apply div_pos <;> linarith
  have hq : 2 * z * z * (ME / m) * RE * (n : ℝ) ≠ 0 := by positivity
  have : 0 < 2 * z * z * (ME / m) * RE * (n : ℝ) * (2 * z * z * (ME / m) * RE * (n : ℝ)) := mul_self_pos.mpr hq
  have e : ∀ A : ℝ, 2 * z * z * (ME / m) * RE * (n : ℝ) * (2 * z * z * (ME / m) * RE * (n : ℝ) * (ALPHA / v) * A) =
    2 * z * z * (ME / m) * RE * (n : ℝ) * (2 * z * z * (ME / m) * RE * (n : ℝ)) * (ALPHA / v) * A := fun A => by ring
  rw [e]
  positivity

/-- The sum over the atoms of a medium of the loss by a function of the component, per distance and density. -/
noncomputable def Spec.perMedium (M : Med) (f : Component → ℝ) : ℝ :=
  (M.components.map fun c => f c * (c.atomInMolecule * c.atomicNum / M.sumNucleons)).sum

lemma complete_integral (n : ℕ) (h1 : 1 ≤ n) (c : Component) (hc : c.nucCharge = n) (z E : ℝ) (hz : z ^ 2 = 1) :
    ∫ v in (0 : ℝ)..1, v * brems none (bremsComplete c) ME z c E v =
      4 * ALPHA * RE * RE * NAvogadro / c.atomicNum * (n * n * ((radiationLogs n).1 - coulombCorrection n) + n * (radiationLogs n).2 + n * (n + 1) / 18) := by
  have hn : (1 : ℝ) ≤ n := by exact_mod_cast h1
  have hme := me_pos'
  have e : ∀ v ∈ Ioc (0 : ℝ) 1, v * brems none (bremsComplete c) ME z c E v = 4 * ALPHA * RE * RE * NAvogadro / c.atomicNum *
      ((4 / 3 * (1 - v) + v * v) * (n * n * ((radiationLogs n).1 - coulombCorrection n) + n * (radiationLogs n).2) + 1 / 9 * (1 - v) * (n * (n + 1))) := by
    intro v hv
    have hv0 := hv.1
    unfold brems bremsComplete
    simp only [hc]
    rw [div_self hme.ne']
    have hz4 : z ^ 4 = 1 := by
      rw [show z ^ 4 = (z ^ 2) ^ 2 by ring, hz]
      norm_num
    field_simp
    rw [show z ^ 4 = 1 from hz4]
    ring
  rw [intervalIntegral.integral_congr_ae (ae_of_all _ fun v hv => e v (by rwa [uIoc_of_le (by norm_num)] at hv)), intervalIntegral.integral_const_mul]
  congr 1
  set K := (n : ℝ) * n * ((radiationLogs n).1 - coulombCorrection n) + n * (radiationLogs n).2
  have hd : ∀ v ∈ uIcc (0 : ℝ) 1, HasDerivAt (fun v : ℝ => (4 / 3 * (v - v ^ 2 / 2) + v ^ 3 / 3) * K + 1 / 9 * (v - v ^ 2 / 2) * (n * (n + 1)))
      ((4 / 3 * (1 - v) + v * v) * K + 1 / 9 * (1 - v) * (n * (n + 1))) v := by
    intro v _
    have h2 : HasDerivAt (fun v : ℝ => v - v ^ 2 / 2) (1 - v) v := by
      refine ((hasDerivAt_id v).sub ((hasDerivAt_pow 2 v).div_const 2)).congr_deriv ?_
      norm_num
    have h3 : HasDerivAt (fun v : ℝ => v ^ 3 / 3) (v * v) v := by
      refine ((hasDerivAt_pow 3 v).div_const 3).congr_deriv ?_
      norm_num
      ring
    exact (((h2.const_mul _).add h3).mul_const _).add ((h2.const_mul _).mul_const _)
  rw [intervalIntegral.integral_eq_sub_of_hasDerivAt hd (by
    apply Continuous.intervalIntegrable
    fun_prop)]
  ring

lemma X0inv_eq (n : ℕ) (h1 : 1 ≤ n) (A : ℝ) : X0inv n A =
    4 * ALPHA * RE * RE * NAvogadro / A * (n * n * ((radiationLogs n).1 - coulombCorrection n) + n * (radiationLogs n).2) := by
  have hn : (0 : ℝ) < n := by exact_mod_cast h1
  have e2 : (n : ℝ) ^ (-1 / 3 : ℝ) * (n : ℝ) ^ (-1 / 3 : ℝ) = (n : ℝ) ^ (-2 / 3 : ℝ) := by
    rw [← Real.rpow_add hn]
    norm_num
  rw [radiationLogs_nat]
  unfold X0inv coulombCorrection
  simp only
  split_ifs <;> first | omega | (congr 1; simp only [mul_assoc, e2]; ring)

/-- C126: the energy an electron or a positron loses by bremsstrahlung with complete screening, over all fractions, is its energy per
radiation length of the medium, up to the small term of the formula, which `Medium` leaves out and which is less than 2 %. -/
theorem C126_radiation_length (x : MedArgs) (cs : List Component) (z E : ℝ) (hz : z ^ 2 = 1) (hcs : cs ≠ [])
    (h : ∀ c ∈ cs, 0 < c.atomInMolecule ∧ 0 < c.atomicNum ∧ ∃ n : ℕ, 1 ≤ n ∧ n ≤ 118 ∧ c.nucCharge = n) :
    1 < Spec.perMedium (mkMed x cs) (fun c => ∫ v in (0 : ℝ)..1, v * brems none (bremsComplete c) ME z c E v) * (mkMed x cs).radiationLength ∧
    Spec.perMedium (mkMed x cs) (fun c => ∫ v in (0 : ℝ)..1, v * brems none (bremsComplete c) ME z c E v) * (mkMed x cs).radiationLength < 1.02 := by
  have ha := alpha_pos'
  have hr := re_pos'
  have hna := na_pos'
  have hS : 0 < (cs.map fun c => c.atomInMolecule * c.atomicNum).sum := by
    apply List.sum_pos
    · intro y hy
      obtain ⟨c, hc, rfl⟩ := List.mem_map.mp hy
      obtain ⟨a1, a2, _⟩ := h c hc
      positivity
    · simpa using hcs
  have key : ∀ c ∈ cs, 0 < X0inv ⌊c.nucCharge⌋₊ c.atomicNum * (c.atomInMolecule * c.atomicNum) ∧
      X0inv ⌊c.nucCharge⌋₊ c.atomicNum * (c.atomInMolecule * c.atomicNum) <
        (∫ v in (0 : ℝ)..1, v * brems none (bremsComplete c) ME z c E v) * (c.atomInMolecule * c.atomicNum) ∧
      (∫ v in (0 : ℝ)..1, v * brems none (bremsComplete c) ME z c E v) * (c.atomInMolecule * c.atomicNum) <
        1.02 * (X0inv ⌊c.nucCharge⌋₊ c.atomicNum * (c.atomInMolecule * c.atomicNum)) := by
    intro c hc
    obtain ⟨a1, a2, n, n1, n2, hn⟩ := h c hc
    obtain ⟨r1, r2, r3, r4⟩ := radiation_bounds n1 n2
    have hn1 : (1 : ℝ) ≤ n := by exact_mod_cast n1
    rw [complete_integral n n1 c hn z E hz, hn, Nat.floor_natCast, X0inv_eq n n1]
    set L := (radiationLogs n).1 - coulombCorrection n
    set L' := (radiationLogs n).2
    have hk : 0 < 4 * ALPHA * RE * RE * NAvogadro / c.atomicNum := by positivity
    have hw : 0 < c.atomInMolecule * c.atomicNum := by positivity
    have hX : 0 < (n : ℝ) * n * L + n * L' := by positivity
    refine ⟨by positivity, ?_, ?_⟩
    · have : 0 < (n : ℝ) * (n + 1) / 18 := by positivity
      have : (n : ℝ) * n * L + n * L' < n * n * L + n * L' + n * (n + 1) / 18 := by linarith
      exact mul_lt_mul_of_pos_right (mul_lt_mul_of_pos_left this hk) hw
    · have : (n : ℝ) * n * L + n * L' + n * (n + 1) / 18 < 1.02 * (n * n * L + n * L') := by
        have : ((n : ℝ) + 1) / 18 < 0.02 * (n * L + L') := by nlinarith
        have := mul_lt_mul_of_pos_left this (show (0 : ℝ) < n by linarith)
        linarith
      calc _ < 4 * ALPHA * RE * RE * NAvogadro / c.atomicNum * (1.02 * (n * n * L + n * L')) * (c.atomInMolecule * c.atomicNum) := by gcongr
        _ = _ := by ring
  have hI : 0 < (cs.map fun c => X0inv ⌊c.nucCharge⌋₊ c.atomicNum * (c.atomInMolecule * c.atomicNum)).sum := by
    apply List.sum_pos
    · intro y hy
      obtain ⟨c, hc, rfl⟩ := List.mem_map.mp hy
      exact (key c hc).1
    · simpa using hcs
  have e : Spec.perMedium (mkMed x cs) (fun c => ∫ v in (0 : ℝ)..1, v * brems none (bremsComplete c) ME z c E v) * (mkMed x cs).radiationLength =
      (cs.map fun c => (∫ v in (0 : ℝ)..1, v * brems none (bremsComplete c) ME z c E v) * (c.atomInMolecule * c.atomicNum)).sum /
        (cs.map fun c => X0inv ⌊c.nucCharge⌋₊ c.atomicNum * (c.atomInMolecule * c.atomicNum)).sum := by
    unfold Spec.perMedium mkMed
    simp only [sumOver_eq]
    set S := (cs.map fun c => c.atomInMolecule * c.atomicNum).sum
    have : (cs.map fun c => (∫ v in (0 : ℝ)..1, v * brems none (bremsComplete c) ME z c E v) * (c.atomInMolecule * c.atomicNum / S)).sum =
        (cs.map fun c => (∫ v in (0 : ℝ)..1, v * brems none (bremsComplete c) ME z c E v) * (c.atomInMolecule * c.atomicNum)).sum / S := by
      rw [div_eq_mul_inv, ← List.sum_map_mul_right]
      congr 1
      apply List.map_congr_left
      intro c _
      ring
    rw [this]
    field_simp
  rw [e]
  constructor
  · rw [one_lt_div hI]
    exact List.sum_lt_sum_of_ne_nil hcs _ _ fun c hc => (key c hc).2.1
  · rw [div_lt_iff₀ hI, ← List.sum_map_mul_left]
    exact List.sum_lt_sum_of_ne_nil hcs _ _ fun c hc => (key c hc).2.2

example : ∀ c ∈ exWater.components, 0 < c.atomInMolecule ∧ 0 < c.atomicNum ∧ ∃ n : ℕ, 1 ≤ n ∧ n ≤ 118 ∧ c.nucCharge = n := by
  intro c hc
  fin_cases hc
  · exact ⟨by norm_num [exHydrogen], by norm_num [exHydrogen], 1, by norm_num, by norm_num, by norm_num [exHydrogen]⟩
  · exact ⟨by norm_num [exOxygen], by norm_num [exOxygen], 8, by norm_num, by norm_num, by norm_num [exOxygen]⟩

/-- C126: whichever the parametrization, the cross section grows with the fourth power of the charge of the particle, a suppression
multiplies it, and for the one with complete screening it falls with the square of the mass. -/
theorem C126_scaling (s : ℝ → ℝ → ℝ) (param : ℝ → ℝ → ℝ) (table : ℝ → ℝ → ℝ) (m z : ℝ) (c : Component) (E v : ℝ) :
    brems none param m z c E v = z ^ 4 * brems none param m 1 c E v ∧
    brems (some s) param m z c E v = s E v * brems none param m z c E v ∧
    bremsElectronDiff none table m z c E v = z ^ 4 * bremsElectronDiff none table m 1 c E v ∧
    bremsElectronDiff (some s) table m z c E v = s E v * bremsElectronDiff none table m z c E v ∧
    brems none (bremsComplete c) m z c E v = (ME / m) ^ 2 * brems none (bremsComplete c) ME z c E v := by
  have hme := me_pos'
  refine ⟨?_, ?_, ?_, ?_, ?_⟩
  all_goals
    simp only [brems, bremsElectronDiff, div_self hme.ne']
    ring

end Proposal
