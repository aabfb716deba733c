import Verif.Model.Brems
import Verif.Props.BremsComplete

/-!
# C126: bremsstrahlung of fast particles and of soft photons
-/

open MeasureTheory Set Filter Topology

namespace Proposal

lemma brems_delta_pos {m E v : ℝ} (hm : 0 < m) (hE : 0 < E) (h0 : 0 < v) (h1 : v < 1) : 0 < bremsDelta m E v := by
  have : 0 < 1 - v := by linarith
  unfold bremsDelta
  positivity

lemma brems_delta_high {m v : ℝ} (hm : 0 < m) (h0 : 0 < v) (h1 : v < 1) : Tendsto (fun E => bremsDelta m E v) atTop (𝓝[>] 0) := by
  refine tendsto_nhdsWithin_iff.mpr ⟨?_, ?_⟩
  · have : Tendsto (fun E : ℝ => m * m * v / (2 * (1 - v)) / E) atTop (𝓝 0) := tendsto_const_nhds.div_atTop tendsto_id
    refine this.congr' ?_
    filter_upwards [eventually_gt_atTop 0] with E hE
    have : 0 < 1 - v := by linarith
    unfold bremsDelta
    field_simp
  · filter_upwards [eventually_gt_atTop 0] with E hE
    exact brems_delta_pos hm hE h0 h1

lemma brems_delta_soft {m E : ℝ} (hm : 0 < m) (hE : 0 < E) : Tendsto (fun v => bremsDelta m E v) (𝓝[>] 0) (𝓝[>] 0) := by
  refine tendsto_nhdsWithin_iff.mpr ⟨?_, ?_⟩
  · have : ContinuousAt (fun v => bremsDelta m E v) 0 := by
      unfold bremsDelta
      refine ContinuousAt.div (by fun_prop) (by fun_prop) (by norm_num [hE.ne'])
    have h := this.tendsto.mono_left (nhdsWithin_le_nhds (s := Ioi (0 : ℝ)))
    simpa [bremsDelta] using h
  · filter_upwards [Ioo_mem_nhdsGT (show (0 : ℝ) < 1 by norm_num)] with v hv
    exact brems_delta_pos hm hE hv.1 hv.2

/-- A function of the momentum transfer has the same limit for high energies and for soft photons. -/
lemma brems_both {f : ℝ → ℝ} {a : ℝ} (hf : Tendsto f (𝓝[>] 0) (𝓝 a)) {m : ℝ} (hm : 0 < m) :
    (∀ v, 0 < v → v < 1 → Tendsto (fun E => f (bremsDelta m E v)) atTop (𝓝 a)) ∧
    (∀ E, 0 < E → Tendsto (fun v => f (bremsDelta m E v)) (𝓝[>] 0) (𝓝 a)) :=
  ⟨fun _ h0 h1 => hf.comp (brems_delta_high hm h0 h1), fun _ hE => hf.comp (brems_delta_soft hm hE)⟩

lemma spectrum_soft : Tendsto (fun v : ℝ => (4 / 3) * (1 - v) + v * v) (𝓝[>] 0) (𝓝 (4 / 3)) := by
  have : ContinuousAt (fun v : ℝ => (4 / 3) * (1 - v) + v * v) 0 := by fun_prop
  have h := this.tendsto.mono_left (nhdsWithin_le_nhds (s := Ioi (0 : ℝ)))
  simpa using h

/-- The logarithm of the screened charge: 189 for the atom, the size of the nucleus above charge ten. -/
noncomputable def Spec.petrukhinLog (m Z : ℝ) : ℝ :=
  Real.log (189 * (m / ME)) - Real.log Z / 3 + (if 10 < Z then Real.log (2 / 3) - Real.log Z / 3 else 0)

/-- C126: for high energies the formula of Petrukhin and Shestakov tends to the spectrum `(4/3)(1 - v) + v²` with the logarithm of the
screened charge; for soft photons to the same logarithm. -/
theorem C126_petrukhin_limits (m : ℝ) (c : Component) (hm : 0 < m) (hZ : 0 < c.nucCharge) :
    (∀ v, 0 < v → v < 1 → Tendsto (fun E => bremsPetrukhin m c E v) atTop (𝓝 ((4 / 3 * (1 - v) + v ^ 2) * Spec.petrukhinLog m c.nucCharge))) ∧
    (∀ E, 0 < E → Tendsto (fun v => bremsPetrukhin m c E v) (𝓝[>] 0) (𝓝 (4 / 3 * Spec.petrukhinLog m c.nucCharge))) := by
  have hme := me_pos'
  set Z := c.nucCharge with hZd
  set F := 189 * Z ^ (-1 / 3 : ℝ) / ME with hF
  have hF0 : 0 < F := by positivity
  have hf : Tendsto (fun δ : ℝ => Real.log (if 10 < Z then m * F / (1 + SQRTE * δ * F) * ((2 / 3) * Z ^ (-1 / 3 : ℝ)) else m * F / (1 + SQRTE * δ * F)))
      (𝓝[>] 0) (𝓝 (Spec.petrukhinLog m Z)) := by
    have hc : ContinuousAt (fun δ : ℝ => Real.log (if 10 < Z then m * F / (1 + SQRTE * δ * F) * ((2 / 3) * Z ^ (-1 / 3 : ℝ)) else m * F / (1 + SQRTE * δ * F))) 0 := by
      split_ifs with h
      · refine ContinuousAt.log (ContinuousAt.mul (ContinuousAt.div (by fun_prop) (by fun_prop) (by norm_num)) (by fun_prop)) ?_
        rw [mul_zero, zero_mul, add_zero, div_one]
        positivity
      · refine ContinuousAt.log (ContinuousAt.div (by fun_prop) (by fun_prop) (by norm_num)) ?_
        rw [mul_zero, zero_mul, add_zero, div_one]
        positivity
    have h := hc.tendsto.mono_left (nhdsWithin_le_nhds (s := Ioi (0 : ℝ)))
    refine h.trans (le_of_eq ?_)
    congr 1
    simp only [mul_zero, zero_mul, add_zero, div_one]
    unfold Spec.petrukhinLog
    have e1 : m * F = 189 * (m / ME) * Z ^ (-1 / 3 : ℝ) := by
      rw [hF]
      ring
    split_ifs with h
    · rw [Real.log_mul (by positivity) (by positivity), e1, log_cbrt hZ _ (by positivity), log_cbrt hZ _ (by positivity)]
    · rw [e1, log_cbrt hZ _ (by positivity), add_zero]
  obtain ⟨b1, b2⟩ := brems_both hf hm
  have e : ∀ E v, bremsPetrukhin m c E v = ((4 / 3) * (1 - v) + v * v) * Real.log (if 10 < Z then m * F / (1 + SQRTE * (bremsDelta m E v) * F) * ((2 / 3) * Z ^ (-1 / 3 : ℝ)) else m * F / (1 + SQRTE * (bremsDelta m E v) * F)) := by
    intro E v
    unfold bremsPetrukhin
    simp only [← hZd, ← hF]
  constructor
  · intro v h0 h1
    have := (b1 v h0 h1).const_mul ((4 / 3) * (1 - v) + v * v)
    refine (this.congr fun E => (e E v).symm).trans (le_of_eq ?_)
    congr 1
    ring
  · intro E hE
    exact (spectrum_soft.mul (b2 E hE)).congr fun v => (e E v).symm

lemma momentum_gap {m E : ℝ} (hm : 0 < m) (hE : m < E) : 0 < E - Real.sqrt (max ((E - m) * (E + m)) 0) ∧
    m ^ 2 / (2 * E) ≤ E - Real.sqrt (max ((E - m) * (E + m)) 0) ∧ E - Real.sqrt (max ((E - m) * (E + m)) 0) ≤ m ^ 2 / E := by
  have hE0 : 0 < E := hm.trans hE
  have h0 : 0 ≤ (E - m) * (E + m) := by nlinarith
  rw [max_eq_left h0]
  set p := Real.sqrt ((E - m) * (E + m))
  have hp : p ^ 2 = (E - m) * (E + m) := Real.sq_sqrt h0
  have hp0 : 0 ≤ p := Real.sqrt_nonneg _
  have hlt : p < E := by nlinarith
  refine ⟨by linarith, ?_, ?_⟩
  · rw [div_le_iff₀ (by positivity)]
    nlinarith
  · rw [le_div_iff₀ hE0]
    nlinarith

lemma inelastic_max_pos {m E : ℝ} (hm : 0 < m) (hE : m < E) : 0 < bremsInelasticMax m E := by
  have hme := me_pos'
  obtain ⟨h1, _, _⟩ := momentum_gap hm hE
  have hE0 : 0 < E := hm.trans hE
  have : 0 < E - m := by linarith
  unfold bremsInelasticMax
  positivity

lemma inelastic_max_limit {m : ℝ} (hm : 0 < m) : Tendsto (bremsInelasticMax m) atTop (𝓝 1) := by
  have hme := me_pos'
  have hg : Tendsto (fun E : ℝ => E - Real.sqrt (max ((E - m) * (E + m)) 0)) atTop (𝓝 0) := by
    refine squeeze_zero' (g := fun E => m ^ 2 / E) ?_ ?_ (tendsto_const_nhds.div_atTop tendsto_id)
    · filter_upwards [eventually_gt_atTop m] with E hE
      exact (momentum_gap hm hE).1.le
    · filter_upwards [eventually_gt_atTop m] with E hE
      exact (momentum_gap hm hE).2.2
  have ha : Tendsto (fun E : ℝ => m / E) atTop (𝓝 0) := tendsto_const_nhds.div_atTop tendsto_id
  have := ((ha.const_sub 1).const_mul ME).div (hg.add_const ME) (by rw [zero_add]; exact hme.ne')
  rw [sub_zero, mul_one, zero_add, div_self hme.ne'] at this
  refine this.congr' ?_
  filter_upwards [eventually_gt_atTop m] with E hE
  have hE0 : 0 < E := hm.trans hE
  obtain ⟨h1, _, _⟩ := momentum_gap hm hE
  unfold bremsInelasticMax
  simp only [Pi.div_apply]
  field_simp

lemma inelastic_high {m v : ℝ} (hm : 0 < m) (h1 : v < 1) : ∀ᶠ E in atTop, v < bremsInelasticMax m E :=
  (inelastic_max_limit hm).eventually (lt_mem_nhds h1)

lemma inelastic_soft {m E : ℝ} (hm : 0 < m) (hE : m < E) : ∀ᶠ v in 𝓝[>] (0 : ℝ), v < bremsInelasticMax m E := by
  filter_upwards [Ioo_mem_nhdsGT (inelastic_max_pos hm hE)] with v hv
  exact hv.2

lemma sqrte_pos : 0 < SQRTE := by norm_num [SQRTE]

/-- The elastic screening, for vanishing momentum transfer. -/
lemma elastic_screening {m b : ℝ} (hm : 0 < m) (hb : 0 < b) : Tendsto (fun δ : ℝ => Real.log (m / δ) - Real.log (1 + ME / (δ * SQRTE * b))) (𝓝[>] 0)
    (𝓝 (Real.log (SQRTE * b * (m / ME)))) := by
  have hme := me_pos'
  have hs := sqrte_pos
  have hc : ContinuousAt (fun δ : ℝ => Real.log (m * SQRTE * b / (δ * SQRTE * b + ME))) 0 := by
    refine ContinuousAt.log (ContinuousAt.div (by fun_prop) (by fun_prop) (by norm_num [hme.ne'])) ?_
    rw [zero_mul, zero_mul, zero_add]
    positivity
  have h := hc.tendsto.mono_left (nhdsWithin_le_nhds (s := Ioi (0 : ℝ)))
  refine (h.congr' ?_).trans (le_of_eq ?_)
  · filter_upwards [self_mem_nhdsWithin] with δ hδ
    have hδ : 0 < δ := hδ
    rw [← Real.log_div (by positivity) (by positivity)]
    congr 1
    field_simp
  · congr 2
    rw [zero_mul, zero_mul, zero_add]
    ring

/-- The scattering off atomic electrons, for vanishing momentum transfer. -/
lemma inelastic_screening {m b : ℝ} (hm : 0 < m) (hb : 0 < b) : Tendsto (fun δ : ℝ => Real.log (m / (δ * (δ * m / (ME * ME) + SQRTE))) -
    Real.log (1 + ME / (δ * SQRTE * b))) (𝓝[>] 0) (𝓝 (Real.log (b * (m / ME)))) := by
  have hme := me_pos'
  have hs := sqrte_pos
  have hc : ContinuousAt (fun δ : ℝ => Real.log (m * SQRTE * b / ((δ * m / (ME * ME) + SQRTE) * (δ * SQRTE * b + ME)))) 0 := by
    refine ContinuousAt.log (ContinuousAt.div (by fun_prop) (by fun_prop) ?_) ?_
    · norm_num [hme.ne', hs.ne']
    · rw [zero_mul, zero_mul, zero_mul, zero_add, zero_div, zero_add]
      positivity
  have h := hc.tendsto.mono_left (nhdsWithin_le_nhds (s := Ioi (0 : ℝ)))
  refine (h.congr' ?_).trans (le_of_eq ?_)
  · filter_upwards [self_mem_nhdsWithin] with δ hδ
    have hδ : 0 < δ := hδ
    rw [← Real.log_div (by positivity) (by positivity)]
    congr 1
    field_simp
  · congr 2
    rw [zero_mul, zero_mul, zero_mul, zero_add, zero_div, zero_add]
    field_simp

/-- The radiation logarithm of Kelner, Kokoulin and Petrukhin: the nucleus with its electrons screening it, its size (which does not count
for the part of it scattering off its nucleons, except for hydrogen), and the atomic electrons as targets. -/
noncomputable def Spec.kelnerLog (m : ℝ) (c : Component) : ℝ :=
  (Real.log (SQRTE * c.logConstant * (m / ME)) - 1 / 2 - Real.log c.nucCharge / 3) -
    Real.log (1.54 * c.atomicNum ^ (0.27 : ℝ)) * (if c.nucCharge = 1 then 1 else 1 - 1 / c.nucCharge) +
    (Real.log (c.bPrime * (m / ME)) - 2 * Real.log c.nucCharge / 3) / c.nucCharge

/-- C126: the same for the formula of Kelner, Kokoulin and Petrukhin. -/
theorem C126_kelner_limits (m : ℝ) (c : Component) (hm : 0 < m) (hZ : 0 < c.nucCharge) (hA : 0 < c.atomicNum) (hB : 0 < c.logConstant)
    (hB' : 0 < c.bPrime) :
    (∀ v, 0 < v → v < 1 → Tendsto (fun E => bremsKelner m c E v) atTop (𝓝 ((4 / 3 * (1 - v) + v ^ 2) * Spec.kelnerLog m c))) ∧
    (∀ E, m < E → Tendsto (fun v => bremsKelner m c E v) (𝓝[>] 0) (𝓝 (4 / 3 * Spec.kelnerLog m c))) := by
  have hme := me_pos'
  have hs := sqrte_pos
  set Z := c.nucCharge with hZd
  set Z3 := Z ^ (-1 / 3 : ℝ) with hZ3
  have hZ30 : 0 < Z3 := by positivity
  set Dn := 1.54 * c.atomicNum ^ (0.27 : ℝ) with hDn
  have hD0 : 0 < Dn := by positivity
  have hN : Tendsto (fun δ : ℝ => Real.log (Dn / (1 + δ * (Dn * SQRTE - 2) / m))) (𝓝[>] 0) (𝓝 (Real.log Dn)) := by
    have hc : ContinuousAt (fun δ : ℝ => Real.log (Dn / (1 + δ * (Dn * SQRTE - 2) / m))) 0 := by
      refine ContinuousAt.log (ContinuousAt.div (by fun_prop) (by fun_prop) (by norm_num)) ?_
      rw [zero_mul, zero_div, add_zero, div_one]
      exact hD0.ne'
    have h := hc.tendsto.mono_left (nhdsWithin_le_nhds (s := Ioi (0 : ℝ)))
    refine h.trans (le_of_eq ?_)
    congr 2
    rw [zero_mul, zero_div, add_zero, div_one]
  have hf : Tendsto (fun δ : ℝ => Real.log (m / δ) - 0.5 - Real.log (1 + ME / (δ * SQRTE * c.logConstant * Z3)) - Real.log (Dn / (1 + δ * (Dn * SQRTE - 2) / m)) +
      ((if Z ≠ 1 then Real.log (Dn / (1 + δ * (Dn * SQRTE - 2) / m)) else 0) + (Real.log (m / (δ * (δ * m / (ME * ME) + SQRTE))) -
        Real.log (1 + ME / (δ * SQRTE * c.bPrime * Z3 * Z3)))) / Z) (𝓝[>] 0) (𝓝 (Spec.kelnerLog m c)) := by
    have a1 := elastic_screening hm (show 0 < c.logConstant * Z3 by positivity)
    have a2 := inelastic_screening hm (show 0 < c.bPrime * Z3 * Z3 by positivity)
    have a3 : Tendsto (fun δ : ℝ => if Z ≠ 1 then Real.log (Dn / (1 + δ * (Dn * SQRTE - 2) / m)) else 0) (𝓝[>] 0) (𝓝 (if Z ≠ 1 then Real.log Dn else 0)) := by
      split_ifs
      · exact hN
      · exact tendsto_const_nhds
    have := ((a1.sub_const 0.5).sub hN).add ((a3.add a2).div_const Z)
    refine (this.congr fun δ => ?_).trans (le_of_eq ?_)
    · simp only [mul_assoc]
      ring
    · congr 1
      unfold Spec.kelnerLog
      rw [show SQRTE * (c.logConstant * Z3) * (m / ME) = SQRTE * c.logConstant * (m / ME) * Z3 by ring, hZ3, log_cbrt hZ _ (by positivity), ← hZ3,
        show c.bPrime * Z3 * Z3 * (m / ME) = c.bPrime * (m / ME) * Z3 * Z3 by ring, hZ3, log_cbrt2 hZ _ (by positivity), ← hZd, ← hDn]
      by_cases h : Z = 1
      · rw [if_neg (by simpa using h), if_pos h, h]
        norm_num
      · rw [if_pos h, if_neg h]
        field_simp
        ring
  obtain ⟨b1, b2⟩ := brems_both hf hm
  constructor
  · intro v h0 h1
    have := (b1 v h0 h1).const_mul ((4 / 3) * (1 - v) + v * v)
    refine (this.congr' ?_).trans (le_of_eq ?_)
    · filter_upwards [inelastic_high hm h1] with E hE
      unfold bremsKelner
      simp only [if_pos hE, ← hZd, ← hZ3, ← hDn]
    · congr 1
      ring
  · intro E hE
    refine (spectrum_soft.mul (b2 E (hm.trans hE))).congr' ?_
    filter_upwards [inelastic_soft hm hE] with v hv
    unfold bremsKelner
    simp only [if_pos hv, ← hZd, ← hZ3, ← hDn]

end Proposal
