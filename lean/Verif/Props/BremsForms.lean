import Verif.Props.BremsLimits

/-!
# C126: bremsstrahlung of fast particles and of soft photons, further formulas
-/

open MeasureTheory Set Filter Topology

namespace Proposal

/-- The loss of the logarithm by the size of a nucleus, `r` being the mass of the particle over the cut-off in the momentum transfer. -/
noncomputable def Spec.size1 (r : ℝ) : ℝ :=
  let t := (Real.sqrt (1 + 4 * r ^ 2) - 1) / 2
  (1 + t) * Real.log (1 + t) - t * Real.log t

/-- The second such function: it differs from the first by a term of the order of `r²`. -/
noncomputable def Spec.size2 (r : ℝ) : ℝ :=
  let t := (Real.sqrt (1 + 4 * r ^ 2) - 1) / 2
  Spec.size1 r - 2 * r ^ 2 * ((1 / 2 + t) * Real.log (1 + 1 / t) - 1)

lemma size_param {r : ℝ} (hr : 0 < r) : ∃ t, 0 < t ∧ Real.sqrt (1 + 4 * r ^ 2) = 1 + 2 * t ∧ r ^ 2 = t * (1 + t) ∧
    (Real.sqrt (1 + 4 * r ^ 2) - 1) / 2 = t ∧ t < r ^ 2 := by
  set ζ := Real.sqrt (1 + 4 * r ^ 2)
  have h : ζ ^ 2 = 1 + 4 * r ^ 2 := Real.sq_sqrt (by positivity)
  have h1 : 1 < ζ := by
    rw [Real.lt_sqrt (by norm_num)]
    nlinarith
  refine ⟨(ζ - 1) / 2, by linarith, by ring, by linear_combination -h / 4, rfl, by nlinarith⟩

lemma log_one_add_inv_ge {t : ℝ} (ht : 0 < t) : 1 ≤ (1 / 2 + t) * Real.log (1 + 1 / t) := by
  have := Real.hasSum_log_one_add_inv ht
  have h0 := this.summable.sum_le_tsum {0} (fun k _ => by positivity)
  rw [this.tsum_eq] at h0
  simp only [Finset.sum_singleton] at h0
  norm_num at h0
  rw [one_div t]
  have e : (2 * (2 * t + 1)⁻¹) * (1 / 2 + t) = 1 := by
    field_simp
    ring
  have : (2 * (2 * t + 1)⁻¹) * (1 / 2 + t) ≤ Real.log (1 + t⁻¹) * (1 / 2 + t) := by
    gcongr
  linarith

lemma size_bounds {r : ℝ} (hr : 0 < r) : 0 < Spec.size1 r ∧ Spec.size2 r ≤ Spec.size1 r := by
  obtain ⟨t, ht, _, hr2, e, _⟩ := size_param hr
  unfold Spec.size2 Spec.size1
  simp only [e]
  constructor
  · have h1 : 0 < Real.log (1 + t) := Real.log_pos (by linarith)
    have h2 : Real.log t < Real.log (1 + t) := Real.log_lt_log ht (by linarith)
    nlinarith
  · have := log_one_add_inv_ge ht
    have : 0 ≤ 2 * r ^ 2 * ((1 / 2 + t) * Real.log (1 + 1 / t) - 1) := mul_nonneg (by positivity) (by linarith)
    linarith

/-- C126: the size of the nucleus lowers the radiation at every fraction, and does not matter for a particle light compared to the
cut-off. -/
theorem C126_nuclear_size : (∀ r v, 0 < r → v ≤ 1 → 0 < (2 - 2 * v + v ^ 2) * Spec.size1 r - 2 / 3 * (1 - v) * Spec.size2 r) ∧
    Tendsto Spec.size1 (𝓝[>] 0) (𝓝 0) ∧ Tendsto Spec.size2 (𝓝[>] 0) (𝓝 0) := by
  have ht : Tendsto (fun r : ℝ => (Real.sqrt (1 + 4 * r ^ 2) - 1) / 2) (𝓝[>] 0) (𝓝 0) := by
    have hc : ContinuousAt (fun r : ℝ => (Real.sqrt (1 + 4 * r ^ 2) - 1) / 2) 0 := by fun_prop
    have h := hc.tendsto.mono_left (nhdsWithin_le_nhds (s := Ioi (0 : ℝ)))
    simpa using h
  have h1 : Tendsto Spec.size1 (𝓝[>] 0) (𝓝 0) := by
    have hc : ContinuousAt (fun t : ℝ => (1 + t) * Real.log (1 + t) - t * Real.log t) 0 := by
      have := Real.continuous_mul_log
      refine ContinuousAt.sub ?_ this.continuousAt
      exact (this.comp (by fun_prop : Continuous fun t : ℝ => 1 + t)).continuousAt
    have h := hc.tendsto.comp ht
    rw [zero_mul, sub_zero, add_zero, Real.log_one, mul_zero] at h
    exact h
  refine ⟨?_, h1, ?_⟩
  · intro r v hr hv
    obtain ⟨a, b⟩ := size_bounds hr
    have h2 := mul_pos (spectrum_pos (v := v)) a
    have h3 : 2 / 3 * (1 - v) * Spec.size2 r ≤ 2 / 3 * (1 - v) * Spec.size1 r := by
      gcongr
    nlinarith
  · have hc : ContinuousAt (fun t : ℝ => (1 + t) * Real.log (1 + t) - t * Real.log t -
        2 * ((1 + t) * (1 / 2 + t) * (t * Real.log (1 + t) - t * Real.log t) - t * (1 + t))) 0 := by
      have c1 := Real.continuous_mul_log.continuousAt (x := 0)
      have c2 : ContinuousAt (fun t : ℝ => Real.log (1 + t)) 0 := ContinuousAt.log (by fun_prop) (by norm_num)
      fun_prop
    have h := hc.tendsto.comp ht
    norm_num only [zero_mul, sub_zero, add_zero, Real.log_one, mul_zero] at h
    refine h.congr' ?_
    filter_upwards [self_mem_nhdsWithin] with r hr
    obtain ⟨t, ht, _, hr2, e, _⟩ := size_param hr
    unfold Spec.size2 Spec.size1
    simp only [e, Function.comp_apply]
    rw [hr2, show 1 + 1 / t = (1 + t) / t by field_simp; ring, Real.log_div (by positivity) ht.ne']
    ring

/-- The way the code writes the two functions. -/
lemma size_code {r : ℝ} (hr : 0 < r) : Real.log r + 0.5 * Real.sqrt (1 + 4 * r ^ 2) * Real.log ((Real.sqrt (1 + 4 * r ^ 2) + 1) / (Real.sqrt (1 + 4 * r ^ 2) - 1)) = Spec.size1 r ∧
    Real.log r + 0.5 * ((3 - Real.sqrt (1 + 4 * r ^ 2) * Real.sqrt (1 + 4 * r ^ 2)) * (0.5 * Real.sqrt (1 + 4 * r ^ 2) * Real.log ((Real.sqrt (1 + 4 * r ^ 2) + 1) / (Real.sqrt (1 + 4 * r ^ 2) - 1))) + 4 * r ^ 2) = Spec.size2 r := by
  obtain ⟨t, ht, hζ, hr2, e, _⟩ := size_param hr
  have hl : Real.log r = (Real.log t + Real.log (1 + t)) / 2 := by
    have : Real.log (r ^ 2) = Real.log t + Real.log (1 + t) := by rw [hr2, Real.log_mul ht.ne' (by positivity)]
    rw [Real.log_pow] at this
    push_cast at this
    linarith
  have hq : (1 + 2 * t + 1) / (1 + 2 * t - 1) = (1 + t) / t := by
    field_simp
    ring
  have hq2 : 1 + 1 / t = (1 + t) / t := by
    field_simp
    ring
  unfold Spec.size2 Spec.size1
  simp only [e]
  rw [hζ, hq, hq2, Real.log_div (by positivity) ht.ne', hl]
  constructor
  · ring
  · rw [hr2]
    ring

/-! ## Andreev, Bezrukov and Bugaev -/

lemma andreev_psi {m a : ℝ} (hm : 0 < m) (ha : 0 < a) :
    Tendsto (fun δ : ℝ => Real.log (m * a * (m * a) / (1 + a * δ * (a * δ)))) (𝓝[>] 0) (𝓝 (2 * Real.log (m * a))) ∧
    Tendsto (fun δ : ℝ => a * δ * Real.arctan (1 / (a * δ))) (𝓝[>] 0) (𝓝 0) ∧
    Tendsto (fun δ : ℝ => 2 * (a * δ * (a * δ)) * (1 - a * δ * Real.arctan (1 / (a * δ)) + 0.75 * Real.log (a * δ * (a * δ) / (1 + a * δ * (a * δ)))))
      (𝓝[>] 0) (𝓝 0) := by
  have hs : Tendsto (fun δ : ℝ => a * δ) (𝓝[>] 0) (𝓝[>] 0) := by
    have := scale_zero ha
    simpa [mul_comm] using this
  refine ⟨?_, tendsto_cArctan_zero.comp hs, ?_⟩
  · have hc : ContinuousAt (fun δ : ℝ => Real.log (m * a * (m * a) / (1 + a * δ * (a * δ)))) 0 := by
      refine ContinuousAt.log (ContinuousAt.div (by fun_prop) (by fun_prop) (by norm_num)) ?_
      rw [mul_zero, mul_zero, add_zero, div_one]
      positivity
    have h := hc.tendsto.mono_left (nhdsWithin_le_nhds (s := Ioi (0 : ℝ)))
    refine h.trans (le_of_eq ?_)
    congr 1
    rw [mul_zero, mul_zero, add_zero, div_one, Real.log_mul (by positivity) (by positivity)]
    ring
  · have h1 := tendsto_c2Arctan_zero.comp hs
    have h2 := c2log_zero.comp hs
    have := (h1.const_mul 2).sub (h2.const_mul 1.5)
    rw [mul_zero, mul_zero, sub_zero] at this
    refine this.congr' ?_
    filter_upwards [self_mem_nhdsWithin] with δ hδ
    have hx : 0 < a * δ := mul_pos ha hδ
    simp only [Function.comp_apply]
    generalize a * δ = x at hx
    have e : 1 + (x ^ 2)⁻¹ = (x * x / (1 + x * x))⁻¹ := by
      rw [inv_div]
      field_simp
      ring
    rw [e, Real.log_inv]
    ring

/-- The limit of the formula of Andreev, Bezrukov and Bugaev at the fraction `v`, before it is bounded by zero. -/
noncomputable def Spec.andreev (m : ℝ) (c : Component) (v : ℝ) : ℝ :=
  let Z := c.nucCharge
  let L := Real.log (184.15 * (m / ME) / SQRTE) + 1 / 2 - Real.log Z / 3
  let L' := Real.log (1194 * (m / ME) / SQRTE) + 1 / 2 - 2 * Real.log Z / 3
  let r := m / (1.9 * MMU * Z ^ (-1 / 3 : ℝ))
  (4 / 3 * (1 - v) + v ^ 2) * (L + L' / Z) + (1 - v) * (1 + 1 / Z) / 9 -
    (if Z = 1 then 0 else (2 - 2 * v + v ^ 2) * Spec.size1 r - 2 / 3 * (1 - v) * Spec.size2 r)

/-- C126: the same for the formula of Andreev, Bezrukov and Bugaev: for high energies and soft photons it is the formula of complete
screening for the given mass, less the part of the size of the nucleus. -/
theorem C126_andreev_limits (m : ℝ) (c : Component) (hm : 0 < m) (hZ : 0 < c.nucCharge) :
    (∀ v, 0 < v → v < 1 → Tendsto (fun E => bremsAndreev m c E v) atTop (𝓝 (max (Spec.andreev m c v) 0))) ∧
    (∀ E, 0 < E → Tendsto (fun v => bremsAndreev m c E v) (𝓝[>] 0) (𝓝 (max (Spec.andreev m c 0) 0))) := by
  have hme := me_pos'
  have hmu := mmu_pos'
  have hs := sqrte_pos
  set Z := c.nucCharge with hZd
  set Z3 := Z ^ (-1 / 3 : ℝ) with hZ3
  have hZ30 : 0 < Z3 := by positivity
  set a1 := 184.15 * Z3 / (SQRTE * ME) with ha1
  set a2 := 1194 * Z3 * Z3 / (SQRTE * ME) with ha2
  have ha10 : 0 < a1 := by positivity
  have ha20 : 0 < a2 := by positivity
  set qc := 1.9 * MMU * Z3 with hqc
  have hqc0 : 0 < qc := by positivity
  have hr : 0 < m / qc := by positivity
  obtain ⟨p1, p2, p3⟩ := andreev_psi hm ha10
  obtain ⟨q1, q2, q3⟩ := andreev_psi hm ha20
  obtain ⟨s1, s2⟩ := size_code hr
  set D : ℝ × ℝ := if Z = 1 then (0, 0) else (Spec.size1 (m / qc), Spec.size2 (m / qc)) with hD
  have h1 := ((((p1.const_add 1).add ((q1.const_add 1).div_const Z)).const_mul 0.5).sub (p2.add (q2.div_const Z))).sub_const D.1
  have h2 := (((((p1.const_add (2 / 3)).add ((q1.const_add (2 / 3)).div_const Z)).const_mul 0.5).add p3).add (q3.div_const Z)).sub_const D.2
  obtain ⟨u1, v1⟩ := brems_both h1 hm
  obtain ⟨u2, v2⟩ := brems_both h2 hm
  have e : ∀ E v, bremsAndreev m c E v = max ((2 - 2 * v + v * v) *
      (0.5 * ((1 + Real.log (m * a1 * (m * a1) / (1 + a1 * bremsDelta m E v * (a1 * bremsDelta m E v)))) +
        (1 + Real.log (m * a2 * (m * a2) / (1 + a2 * bremsDelta m E v * (a2 * bremsDelta m E v)))) / Z) -
        (a1 * bremsDelta m E v * Real.arctan (1 / (a1 * bremsDelta m E v)) + a2 * bremsDelta m E v * Real.arctan (1 / (a2 * bremsDelta m E v)) / Z) - D.1) -
      (2 / 3) * (1 - v) *
      (0.5 * ((2 / 3 + Real.log (m * a1 * (m * a1) / (1 + a1 * bremsDelta m E v * (a1 * bremsDelta m E v)))) +
        (2 / 3 + Real.log (m * a2 * (m * a2) / (1 + a2 * bremsDelta m E v * (a2 * bremsDelta m E v)))) / Z) +
        2 * (a1 * bremsDelta m E v * (a1 * bremsDelta m E v)) * (1 - a1 * bremsDelta m E v * Real.arctan (1 / (a1 * bremsDelta m E v)) +
          0.75 * Real.log (a1 * bremsDelta m E v * (a1 * bremsDelta m E v) / (1 + a1 * bremsDelta m E v * (a1 * bremsDelta m E v)))) +
        2 * (a2 * bremsDelta m E v * (a2 * bremsDelta m E v)) * (1 - a2 * bremsDelta m E v * Real.arctan (1 / (a2 * bremsDelta m E v)) +
          0.75 * Real.log (a2 * bremsDelta m E v * (a2 * bremsDelta m E v) / (1 + a2 * bremsDelta m E v * (a2 * bremsDelta m E v)))) / Z - D.2)) 0 := by
    intro E v
    have eD : (if Z = 1 then ((0 : ℝ), (0 : ℝ)) else (Real.log (m / qc) + 0.5 * Real.sqrt (1 + 2 * m / qc * (2 * m / qc)) *
        Real.log ((Real.sqrt (1 + 2 * m / qc * (2 * m / qc)) + 1) / (Real.sqrt (1 + 2 * m / qc * (2 * m / qc)) - 1)),
        Real.log (m / qc) + 0.5 * ((3 - Real.sqrt (1 + 2 * m / qc * (2 * m / qc)) * Real.sqrt (1 + 2 * m / qc * (2 * m / qc))) *
        (0.5 * Real.sqrt (1 + 2 * m / qc * (2 * m / qc)) *
        Real.log ((Real.sqrt (1 + 2 * m / qc * (2 * m / qc)) + 1) / (Real.sqrt (1 + 2 * m / qc * (2 * m / qc)) - 1))) + 2 * m / qc * (2 * m / qc)))) = D := by
      rw [show 2 * m / qc * (2 * m / qc) = 4 * (m / qc) ^ 2 by ring, s1, s2]
    unfold bremsAndreev
    simp only [← hZd, ← hZ3, ← ha1, ← ha2, ← hqc, eD]
    rw [max_def_lt]
  have hl1 : Real.log (m * a1) = Real.log (184.15 * (m / ME) / SQRTE) - Real.log Z / 3 := by
    rw [← log_cbrt hZ _ (by positivity), ← hZ3, show m * a1 = 184.15 * (m / ME) / SQRTE * Z3 by rw [ha1]; field_simp]
  have hl2 : Real.log (m * a2) = Real.log (1194 * (m / ME) / SQRTE) - 2 * Real.log Z / 3 := by
    rw [← log_cbrt2 hZ _ (by positivity), ← hZ3, show m * a2 = 1194 * (m / ME) / SQRTE * Z3 * Z3 by rw [ha2]; field_simp]
  constructor
  · intro v h0 hv
    have := (((u1 v h0 hv).const_mul (2 - 2 * v + v * v)).sub ((u2 v h0 hv).const_mul ((2 / 3) * (1 - v)))).max (tendsto_const_nhds (x := (0 : ℝ)))
    refine (this.congr fun E => (e E v).symm).trans (le_of_eq ?_)
    congr 2
    unfold Spec.andreev
    simp only [← hZd, ← hZ3, ← hqc, hl1, hl2, hD]
    split_ifs
    · ring
    · ring
  · intro E hE
    have k1 : Tendsto (fun v : ℝ => 2 - 2 * v + v * v) (𝓝[>] 0) (𝓝 2) := by
      have hc : ContinuousAt (fun v : ℝ => 2 - 2 * v + v * v) 0 := by fun_prop
      simpa using hc.tendsto.mono_left (nhdsWithin_le_nhds (s := Ioi (0 : ℝ)))
    have k2 : Tendsto (fun v : ℝ => (2 / 3 : ℝ) * (1 - v)) (𝓝[>] 0) (𝓝 (2 / 3)) := by
      have hc : ContinuousAt (fun v : ℝ => (2 / 3 : ℝ) * (1 - v)) 0 := by fun_prop
      simpa using hc.tendsto.mono_left (nhdsWithin_le_nhds (s := Ioi (0 : ℝ)))
    have := ((k1.mul (v1 E hE)).sub (k2.mul (v2 E hE))).max (tendsto_const_nhds (x := (0 : ℝ)))
    refine (this.congr fun v => (e E v).symm).trans (le_of_eq ?_)
    congr 2
    unfold Spec.andreev
    simp only [← hZd, ← hZ3, ← hqc, hl1, hl2, hD]
    split_ifs
    · ring
    · ring

/-! ## Sandrock, Soedingrekso and Rhode -/

/-- The limit of the formula of Sandrock, Soedingrekso and Rhode at the fraction `v` with the radiative corrections `s`, before it is
bounded by zero. -/
noncomputable def Spec.sandrock (m : ℝ) (c : Component) (v s : ℝ) : ℝ :=
  let Z := c.nucCharge
  let r := m * (1.54 * c.atomicNum ^ (0.27 : ℝ)) / (MMU * Real.exp 1)
  let nucleus := if Z = 1 then 1 else 1 - 1 / Z
  let L := Real.log (c.logConstant * (m / ME)) - Real.log Z / 3
  let L' := Real.log (c.bPrime * (m / ME)) - 2 * Real.log Z / 3
  (4 / 3 * (1 - v) + v ^ 2) * (L + L' / Z) + (1 - v) / 9 - nucleus * ((2 - 2 * v + v ^ 2) * Spec.size1 r - 2 / 3 * (1 - v) * Spec.size2 r) +
    ALPHA / 4 * (L - nucleus * Spec.size1 r) * s

lemma sandrock_phi {m b : ℝ} (hm : 0 < m) (hb : 0 < b) (k l : ℝ) : Tendsto (fun δ : ℝ => Real.log (b * Real.exp k * (m / ME) / (1 + b * Real.exp l * δ / ME))) (𝓝[>] 0)
    (𝓝 (Real.log (b * (m / ME)) + k)) := by
  have hme := me_pos'
  have hc : ContinuousAt (fun δ : ℝ => Real.log (b * Real.exp k * (m / ME) / (1 + b * Real.exp l * δ / ME))) 0 := by
    refine ContinuousAt.log (ContinuousAt.div (by fun_prop) (by fun_prop) (by norm_num)) ?_
    rw [mul_zero, zero_div, add_zero, div_one]
    positivity
  have h := hc.tendsto.mono_left (nhdsWithin_le_nhds (s := Ioi (0 : ℝ)))
  refine h.trans (le_of_eq ?_)
  congr 1
  rw [mul_zero, zero_div, add_zero, div_one, show b * Real.exp k * (m / ME) = b * (m / ME) * Real.exp k by ring, Real.log_mul (by positivity) (by positivity),
    Real.log_exp]

/-- C126: the same for the formula of Sandrock, Soedingrekso and Rhode. -/
theorem C126_sandrock_limits (m : ℝ) (c : Component) (hm : 0 < m) (hZ : 0 < c.nucCharge) (hA : 0 < c.atomicNum) (hB : 0 < c.logConstant)
    (hB' : 0 < c.bPrime) :
    (∀ v, 0 < v → v < 1 → Tendsto (fun E => bremsSandrock m c E v) atTop (𝓝 (max (Spec.sandrock m c v (bremsRadiative v)) 0))) ∧
    (∀ E, m < E → Tendsto (fun v => bremsSandrock m c E v) (𝓝[>] 0) (𝓝 (max (Spec.sandrock m c 0 (-0.00349)) 0))) := by
  have hme := me_pos'
  have hmu := mmu_pos'
  have hs := sqrte_pos
  set Z := c.nucCharge with hZd
  set Z3 := Z ^ (-1 / 3 : ℝ) with hZ3
  have hZ30 : 0 < Z3 := by positivity
  set Dn := 1.54 * c.atomicNum ^ (0.27 : ℝ) with hDn
  have hD0 : 0 < Dn := by positivity
  set r := m * Dn / (MMU * Real.exp 1) with hr
  have hr0 : 0 < r := by positivity
  obtain ⟨s1, s2⟩ := size_code hr0
  have er : m / (MMU * Real.exp 1 / Dn) = r := by
    rw [hr]
    field_simp
  have eΔ1 : Real.log r + 0.5 * Real.sqrt (1 + 4 * r * r) * Real.log ((Real.sqrt (1 + 4 * r * r) + 1) / (Real.sqrt (1 + 4 * r * r) - 1)) = Spec.size1 r := by
    rw [← s1, show 4 * r * r = 4 * r ^ 2 by ring]
  have eΔ2 : Real.log r + 0.25 * (3 * Real.sqrt (1 + 4 * r * r) - Real.sqrt (1 + 4 * r * r) * Real.sqrt (1 + 4 * r * r) * Real.sqrt (1 + 4 * r * r)) *
      Real.log ((Real.sqrt (1 + 4 * r * r) + 1) / (Real.sqrt (1 + 4 * r * r) - 1)) + 2 * r * r = Spec.size2 r := by
    rw [← s2, show 4 * r * r = 4 * r ^ 2 by ring]
    ring
  set κ : ℝ := if Z = 1 then 1 else 1 - 1 / Z with hκ
  have p1 := sandrock_phi hm (show 0 < c.logConstant * Z3 by positivity) 0 0.5
  have p2 := sandrock_phi hm (show 0 < c.logConstant * Z3 by positivity) (-1 / 6) (1 / 3)
  have p3 := inelastic_screening hm (show 0 < c.bPrime * Z3 * Z3 by positivity)
  have hlog : Real.log (c.logConstant * Z3 * (m / ME)) = Real.log (c.logConstant * (m / ME)) - Real.log Z / 3 := by
    rw [← log_cbrt hZ _ (by positivity), ← hZ3]
    congr 1
    ring
  have hlog' : Real.log (c.bPrime * Z3 * Z3 * (m / ME)) = Real.log (c.bPrime * (m / ME)) - 2 * Real.log Z / 3 := by
    rw [← log_cbrt2 hZ _ (by positivity), ← hZ3]
    congr 1
    ring
  rw [hlog, add_zero] at p1
  rw [hlog] at p2
  rw [hlog'] at p3
  have e : ∀ E v, v < bremsInelasticMax m E → bremsSandrock m c E v = max (((2 - 2 * v + v * v) *
      (Real.log (c.logConstant * Z3 * Real.exp 0 * (m / ME) / (1 + c.logConstant * Z3 * Real.exp 0.5 * bremsDelta m E v / ME)) - κ * Spec.size1 r) -
      (2 / 3 * (1 - v)) * (Real.log (c.logConstant * Z3 * Real.exp (-1 / 6) * (m / ME) / (1 + c.logConstant * Z3 * Real.exp (1 / 3) * bremsDelta m E v / ME)) - κ * Spec.size2 r)) +
      1 / Z * ((4 / 3 * (1 - v) + v * v) * (Real.log (m / (bremsDelta m E v * (bremsDelta m E v * m / (ME * ME) + SQRTE))) -
        Real.log (1 + ME / (bremsDelta m E v * SQRTE * (c.bPrime * Z3 * Z3))))) +
      0.25 * ALPHA * (Real.log (c.logConstant * Z3 * Real.exp 0 * (m / ME) / (1 + c.logConstant * Z3 * Real.exp 0.5 * bremsDelta m E v / ME)) - κ * Spec.size1 r) * bremsRadiative v) 0 := by
    intro E v hv
    have eδ : ∀ δ : ℝ, m / δ / (m * δ / (ME * ME) + SQRTE) = m / (δ * (δ * m / (ME * ME) + SQRTE)) := by
      intro δ
      rw [div_div, mul_comm m δ]
    have eδ' : ∀ δ : ℝ, δ * c.bPrime * Z3 * Z3 * SQRTE = δ * SQRTE * (c.bPrime * Z3 * Z3) := fun δ => by ring
    unfold bremsSandrock
    simp only [← hZd, ← hZ3, ← hDn, er, eΔ1, eΔ2, if_pos hv, eδ, eδ', Real.exp_zero, mul_one]
    by_cases h : Z = 1
    · simp only [hκ, if_pos h, one_mul]
    · simp only [hκ, if_neg h, mul_comm (1 - 1 / Z)]
  constructor
  · intro v h0 hv
    have a1 := ((brems_both p1 hm).1 v h0 hv).sub_const (κ * Spec.size1 r)
    have a2 := ((brems_both p2 hm).1 v h0 hv).sub_const (κ * Spec.size2 r)
    have a3 := (brems_both p3 hm).1 v h0 hv
    have := ((((a1.const_mul (2 - 2 * v + v * v)).sub (a2.const_mul (2 / 3 * (1 - v)))).add ((a3.const_mul (4 / 3 * (1 - v) + v * v)).const_mul (1 / Z))).add
      ((a1.const_mul (0.25 * ALPHA)).mul_const (bremsRadiative v))).max (tendsto_const_nhds (x := (0 : ℝ)))
    refine (this.congr' ?_).trans (le_of_eq ?_)
    · filter_upwards [inelastic_high hm hv] with E hE
      exact (e E v hE).symm
    · congr 2
      unfold Spec.sandrock
      simp only [← hZd, ← hDn, ← hr, ← hκ]
      ring
  · intro E hE
    have a1 := ((brems_both p1 hm).2 E (hm.trans hE)).sub_const (κ * Spec.size1 r)
    have a2 := ((brems_both p2 hm).2 E (hm.trans hE)).sub_const (κ * Spec.size2 r)
    have a3 := (brems_both p3 hm).2 E (hm.trans hE)
    have k1 : Tendsto (fun v : ℝ => 2 - 2 * v + v * v) (𝓝[>] 0) (𝓝 2) := by
      have hc : ContinuousAt (fun v : ℝ => 2 - 2 * v + v * v) 0 := by fun_prop
      simpa using hc.tendsto.mono_left (nhdsWithin_le_nhds (s := Ioi (0 : ℝ)))
    have k2 : Tendsto (fun v : ℝ => (2 / 3 : ℝ) * (1 - v)) (𝓝[>] 0) (𝓝 (2 / 3)) := by
      have hc : ContinuousAt (fun v : ℝ => (2 / 3 : ℝ) * (1 - v)) 0 := by fun_prop
      simpa using hc.tendsto.mono_left (nhdsWithin_le_nhds (s := Ioi (0 : ℝ)))
    have k3 : Tendsto bremsRadiative (𝓝[>] 0) (𝓝 (-0.00349)) := by
      have hc : ContinuousAt (fun v : ℝ => -0.00349 + 148.84 * v + -987.531 * v * v) 0 := by fun_prop
      have := hc.tendsto.mono_left (nhdsWithin_le_nhds (s := Ioi (0 : ℝ)))
      simp only [mul_zero, add_zero] at this
      refine this.congr' ?_
      filter_upwards [Ioo_mem_nhdsGT (show (0 : ℝ) < 0.02 by norm_num)] with v hv
      unfold bremsRadiative
      have h2 := hv.2
      norm_num at h2
      rw [if_neg (by
        push Not
        exact ⟨hv.1.le, by linarith⟩), if_pos hv.2]
    have := ((((k1.mul a1).sub (k2.mul a2)).add ((spectrum_soft.mul a3).const_mul (1 / Z))).add
      ((a1.const_mul (0.25 * ALPHA)).mul k3)).max (tendsto_const_nhds (x := (0 : ℝ)))
    refine (this.congr' ?_).trans (le_of_eq ?_)
    · filter_upwards [inelastic_soft hm hE] with v hv
      exact (e E v hv).symm
    · congr 2
      unfold Spec.sandrock
      simp only [← hZd, ← hDn, ← hr, ← hκ]
      ring

end Proposal
