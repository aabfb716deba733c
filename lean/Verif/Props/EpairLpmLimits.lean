import Verif.Props.EpairLpm
import Verif.Props.Medium

/-!
# C129: limits of the suppression, the parametrizations with suppression, the energy scale
-/

open Set Filter Topology MeasureTheory

namespace Proposal

/-! ## High energies and thin media -/

lemma log_sqrt_bound {u : ℝ} (hu : 0 ≤ u) : Real.log (1 + u) ≤ 2 * Real.sqrt u := by
  have hs := Real.sqrt_nonneg u
  have h1 : 1 + u ≤ (1 + Real.sqrt u) ^ 2 := by nlinarith [Real.sq_sqrt hu]
  have h2 := Real.log_le_log (by linarith) h1
  rw [Real.log_pow] at h2
  have h3 := Real.log_le_sub_one_of_pos (by linarith : 0 < 1 + Real.sqrt u)
  push_cast at h2
  linarith

lemma dense_small {a b r2 x : ℝ} (ha : 0 < a) (hb : 0 ≤ b) (hr0 : 0 ≤ r2) (hr : r2 ≤ 1) (hx : 0 < x) :
    (∫ t in (0 : ℝ)..1, Spec.ternDense a b r2 x t) ≤ (1 + 2 * b) * a / (2 * x) + 2 * a + 4 * (1 + b) * Real.sqrt (a / x) := by
  have hk : 0 < 1 + 1 / a := by positivity
  have c1 := q_cont (a := a) hx (f := fun _ => x) continuous_const
  have c2 := l_cont hk hx (f := fun _ => 1 + 1 / a) continuous_const
  have hsum := int_sum ((1 + 2 * b) * a / (2 * x)) (1 - r2) (2 * (1 + b) / (1 + 1 / a)) (f := fun _ => (1 : ℝ)) continuousOn_const c1 c2
  have hle : (∫ t in (0 : ℝ)..1, Spec.ternDense a b r2 x t) ≤ ∫ t in (0 : ℝ)..1, ((1 + 2 * b) * a / (2 * x) * 1 + (1 - r2) * (x / Spec.ternQ a x t) +
      2 * (1 + b) / (1 + 1 / a) * ((1 + 1 / a) / (x + (1 + 1 / a) * t))) := by
    refine intervalIntegral.integral_mono_on zero_le_one ?_ ?_ ?_
    · apply ContinuousOn.intervalIntegrable
      rw [uIcc_of_le zero_le_one]
      exact dense_cont ha hx
    · apply ContinuousOn.intervalIntegrable
      exact ((continuousOn_const.mul continuousOn_const).add (continuousOn_const.mul c1)).add (continuousOn_const.mul c2)
    · intro t ht
      have h0 := ht.1
      have h1 := ht.2
      have hxt : 0 < x + t := by linarith
      have hQ := ternQ_pos (a := a) hx h0
      unfold Spec.ternDense
      have e1 : (x + t) ^ 2 + (t / a) ^ 2 = Spec.ternQ a x t := rfl
      rw [e1]
      have hQl : 2 * x * t / a ≤ Spec.ternQ a x t := by
        unfold Spec.ternQ
        have : 2 * x * t / a ≤ 2 * (x + t) * (t / a) := by
          rw [mul_div_assoc]
          have : 0 ≤ t / a := by positivity
          gcongr
          linarith
        nlinarith [sq_nonneg (x + t - t / a)]
      have p1 : ((1 + b) * (t * (1 - t)) + b * t ^ 2) / Spec.ternQ a x t ≤ (1 + 2 * b) * a / (2 * x) := by
        rw [div_le_div_iff₀ hQ (by positivity)]
        have n : (1 + b) * (t * (1 - t)) + b * t ^ 2 ≤ (1 + 2 * b) * t := by nlinarith
        have m := mul_le_mul_of_nonneg_left hQl (by positivity : 0 ≤ (1 + 2 * b) * a)
        have e : (1 + 2 * b) * a * (2 * x * t / a) = (1 + 2 * b) * t * (2 * x) := by field_simp
        have n' := mul_le_mul_of_nonneg_right n (by positivity : 0 ≤ 2 * x)
        linarith
      have p2 : Spec.ternN2 b r2 t / (x + t + t / a) ≤ 2 * (1 + b) / (1 + 1 / a) * ((1 + 1 / a) / (x + (1 + 1 / a) * t)) := by
        rw [show x + (1 + 1 / a) * t = x + t + t / a by ring]
        set k := 1 + 1 / a
        rw [show 2 * (1 + b) / k * (k / (x + t + t / a)) = 2 * (1 + b) / (x + t + t / a) * (k / k) by ring, div_self hk.ne', mul_one]
        have : 0 ≤ t / a := by positivity
        gcongr
        unfold Spec.ternN2
        have : (1 + b) * (1 - t) + b * t ≤ 1 + b := by nlinarith
        have h3 : 0 ≤ (1 + b) * (1 - t) + b * t := by
          have : 0 ≤ 1 - t := by linarith
          positivity
        nlinarith
      have e2 : Spec.ternN1 b r2 x t / Spec.ternQ a x t = ((1 + b) * (t * (1 - t)) + b * t ^ 2) / Spec.ternQ a x t + (1 - r2) * (x / Spec.ternQ a x t) := by
        unfold Spec.ternN1
        ring
      rw [e2]
      linarith
  refine hle.trans ?_
  rw [← hsum, tern_arctan ha hx, tern_lin hk hx, intervalIntegral.integral_const]
  simp only [sub_zero, smul_eq_mul, mul_one]
  have hat : (1 - r2) * (a * Real.arctan (1 / (a * (1 + x)))) ≤ 2 * a := by
    have h1 := Real.arctan_lt_pi_div_two (1 / (a * (1 + x)))
    have h2 : 0 ≤ Real.arctan (1 / (a * (1 + x))) := Real.arctan_nonneg.mpr (by positivity)
    have h3 : a * Real.arctan (1 / (a * (1 + x))) ≤ a * 2 := by
      gcongr
      linarith [Real.pi_le_four]
    have h4 : 0 ≤ a * Real.arctan (1 / (a * (1 + x))) := by positivity
    nlinarith
  have hlog : 2 * (1 + b) / (1 + 1 / a) * Real.log ((x + (1 + 1 / a)) / x) ≤ 4 * (1 + b) * Real.sqrt (a / x) := by
    have e : (x + (1 + 1 / a)) / x = 1 + (1 + 1 / a) / x := by field_simp
    rw [e]
    have h := log_sqrt_bound (u := (1 + 1 / a) / x) (by positivity)
    set k := 1 + 1 / a with hkd
    have hs : Real.sqrt (k / x) = k * Real.sqrt (1 / (k * x)) := by
      have : k / x = k ^ 2 * (1 / (k * x)) := by field_simp
      rw [this, Real.sqrt_mul (by positivity), Real.sqrt_sq hk.le]
    have hs2 : Real.sqrt (1 / (k * x)) ≤ Real.sqrt (a / x) := by
      apply Real.sqrt_le_sqrt
      rw [div_le_div_iff₀ (by positivity) hx]
      have : 1 ≤ a * k := by
        rw [hkd]
        have : a * (1 + 1 / a) = a + 1 := by field_simp
        linarith
      nlinarith
    calc 2 * (1 + b) / k * Real.log (1 + k / x) ≤ 2 * (1 + b) / k * (2 * Real.sqrt (k / x)) := by gcongr
      _ = 4 * (1 + b) * Real.sqrt (1 / (k * x)) := by
        rw [hs]
        field_simp
        ring
      _ ≤ _ := by gcongr
  linarith

/-- C129: the suppression is complete at high energies and in dense media. -/
theorem C129_high_energy (D : EpairLpmData) (v r2 b x : ℝ) (hD : 0 < D.eLpm) (h0 : 0 < v) (hr0 : 0 ≤ r2) (hr : r2 < 1) (hb : 0 ≤ b) (hx : 0 < x) :
    (∀ ρ, 0 < ρ → Tendsto (fun E => epairSuppression D E v r2 b x ρ) atTop (𝓝 0)) ∧
    (∀ E, 0 < E → Tendsto (fun ρ => epairSuppression D E v r2 b x ρ) atTop (𝓝 0)) := by
  have hr' : 0 < 1 - r2 := by linarith
  -- as a function of the product of energy and density
  have hprod : ∀ E ρ E' ρ' : ℝ, ρ * E = ρ' * E' → epairSuppression D E v r2 b x ρ = epairSuppression D E' v r2 b x ρ' := by
    intro E ρ E' ρ' h
    unfold epairSuppression
    rw [h]
  have main : Tendsto (fun y => epairSuppression D y v r2 b x 1) atTop (𝓝 0) := by
    have hcoh : Tendsto (fun y => Spec.pairCoherence D y v r2 1) atTop (𝓝 0) := by
      have h1 : Tendsto (fun y : ℝ => D.eLpm / (1 * y * v * (1 - r2))) atTop (𝓝 0) := by
        refine (inv_energy (k := D.eLpm) h0 hr).congr fun y => ?_
        rw [one_mul]
      have h2 := (h1.sqrt.const_mul (3 / 2))
      rw [Real.sqrt_zero, mul_zero] at h2
      exact h2
    have hup : Tendsto (fun y => ((1 + 2 * b) * Spec.pairCoherence D y v r2 1 / (2 * x) + 2 * Spec.pairCoherence D y v r2 1 + 4 * (1 + b) * Real.sqrt (Spec.pairCoherence D y v r2 1 / x)) /
        ∫ t in (0 : ℝ)..1, Spec.ternThin b r2 x t) atTop (𝓝 0) := by
      have := ((((hcoh.const_mul (1 + 2 * b)).div_const (2 * x)).add (hcoh.const_mul 2)).add (((hcoh.div_const x).sqrt).const_mul (4 * (1 + b)))).div_const (∫ t in (0 : ℝ)..1, Spec.ternThin b r2 x t)
      simpa using this
    refine tendsto_of_tendsto_of_tendsto_of_le_of_le' tendsto_const_nhds hup ?_ ?_
    · filter_upwards [eventually_gt_atTop 0] with y hy
      exact (C129_range D y v r2 b x 1 hD hy h0 hr0 hr hb hx one_pos).1.le
    · have hsmall := (hcoh.mul_const (x + 1)).eventually (Iic_mem_nhds (by rw [zero_mul]; norm_num : (0 : ℝ) * (x + 1) < 1e10))
      filter_upwards [eventually_gt_atTop 0, hsmall] with y hy hy'
      have ha := coherence_pos (D := D) (E := y) (v := v) (r2 := r2) (ρ := 1) hD hy h0 hr one_pos
      rw [(C129_formula D y v r2 b x 1 hD hy h0 hr hx one_pos).1 hy']
      exact div_le_div_of_nonneg_right (dense_small ha hb hr0 hr.le hx) (ratio_bounds ha hb hr0 hr.le hx).1.le
  constructor
  · intro ρ hρ
    refine (main.comp ((tendsto_id (α := ℝ) (x := atTop)).const_mul_atTop hρ)).congr fun E => ?_
    exact hprod _ _ _ _ (by simp)
  · intro E hE
    refine (main.comp ((tendsto_id (α := ℝ) (x := atTop)).atTop_mul_const hE)).congr fun ρ => ?_
    exact hprod _ _ _ _ (by simp)

/-- C129: there is none in thin media, and none for pairs of very small energy. -/
theorem C129_thin (D : EpairLpmData) (E r2 b x : ℝ) (hD : 0 < D.eLpm) (hE : 0 < E) (hr : r2 < 1) (hx : 0 < x) :
    (∀ v, 0 < v → ∃ δ, 0 < δ ∧ ∀ ρ, 0 < ρ → ρ < δ → epairSuppression D E v r2 b x ρ = 1) ∧
    (∀ ρ, 0 < ρ → ∃ δ, 0 < δ ∧ ∀ v, 0 < v → v < δ → epairSuppression D E v r2 b x ρ = 1) := by
  have hr' : 0 < 1 - r2 := by linarith
  have key : ∀ y v ρ : ℝ, 0 < v → 0 < ρ → ρ * v = y → y < D.eLpm / (1e20 * E * (1 - r2)) → epairSuppression D E v r2 b x ρ = 1 := by
    intro y v ρ h0 hρ hy hlt
    refine (C129_formula D E v r2 b x ρ hD hE h0 hr hx hρ).2 ?_
    have : 1e10 < Spec.pairCoherence D E v r2 ρ := by
      unfold Spec.pairCoherence
      have h1 : (1e10 : ℝ) ≤ Real.sqrt (D.eLpm / (ρ * E * v * (1 - r2))) := by
        apply Real.le_sqrt_of_sq_le
        rw [le_div_iff₀ (by positivity)]
        rw [lt_div_iff₀ (by positivity), ← hy] at hlt
        linarith
      linarith
    nlinarith
  constructor
  · intro v h0
    refine ⟨D.eLpm / (1e20 * E * (1 - r2)) / v, by positivity, fun ρ hρ h => key (ρ * v) v ρ h0 hρ rfl ?_⟩
    rwa [lt_div_iff₀ h0] at h
  · intro ρ hρ
    refine ⟨D.eLpm / (1e20 * E * (1 - r2)) / ρ, by positivity, fun v h0 h => key (ρ * v) v ρ h0 hρ rfl ?_⟩
    rwa [lt_div_iff₀ hρ, mul_comm] at h

/-! ## The parametrizations -/

lemma clamp_between {y S : ℝ} (h0 : 0 ≤ S) (h1 : S ≤ 1) :
    0 ≤ (if y * S < 0 then 0 else y * S) ∧ (if y * S < 0 then 0 else y * S) ≤ (if y < 0 then 0 else y) := by
  rcases lt_or_ge y 0 with h | h
  · rw [if_pos h]
    have : y * S ≤ 0 := mul_nonpos_of_nonpos_of_nonneg h.le h0
    split_ifs with h'
    · exact ⟨le_rfl, le_rfl⟩
    · exact ⟨not_lt.mp h', this⟩
  · have : 0 ≤ y * S := mul_nonneg h h0
    rw [if_neg (not_lt.mpr this), if_neg (not_lt.mpr h)]
    exact ⟨this, by nlinarith⟩

/-- C129: with the suppression none of the three parametrizations is negative or larger than without. -/
theorem C129_parametrizations (D : EpairLpmData) (m z : ℝ) (c : Component) (E v r ρ : ℝ) (hD : 0 < D.eLpm) (hm : 0 < m) (hE : 0 < E) (h0 : 0 < v) (h1 : v < 1)
    (hr0 : 0 < r) (hr : r < 1) (hρ : 0 < ρ) :
    (0 ≤ epairKelner (some (D, ρ)) m z c E v r ∧ epairKelner (some (D, ρ)) m z c E v r ≤ epairKelner none m z c E v r) ∧
    (0 ≤ epairSandrock (some (D, ρ)) m z c E v r ∧ epairSandrock (some (D, ρ)) m z c E v r ≤ epairSandrock none m z c E v r) ∧
    (0 ≤ epairElectron (some (D, ρ)) z c E v r ∧ epairElectron (some (D, ρ)) z c E v r ≤ epairElectron none z c E v r) := by
  have hβ := pair_beta h1
  have q0 : 0 ≤ (1 - r) * (1 - r) := mul_self_nonneg _
  have q1 : (1 - r) * (1 - r) < 1 := by nlinarith
  have hS : ∀ r2 x : ℝ, 0 ≤ r2 → r2 < 1 → 0 < x → 0 ≤ epairSuppression D E v r2 (epairBeta v) x ρ ∧ epairSuppression D E v r2 (epairBeta v) x ρ ≤ 1 := by
    intro r2 x a a' hx
    have := C129_range D E v r2 (epairBeta v) x ρ hD hE h0 a a' hβ hx hρ
    exact ⟨this.1.le, this.2.1⟩
  refine ⟨?_, ?_, ?_⟩
  · unfold epairKelner
    simp only [epairApply]
    obtain ⟨a, a'⟩ := hS _ _ q0 q1 (pair_xi hm h0 h1 q1)
    exact clamp_between a a'
  · unfold epairSandrock
    simp only [epairApply]
    obtain ⟨a, a'⟩ := hS _ _ q0 q1 (pair_xi hm h0 h1 q1)
    exact clamp_between a a'
  · unfold epairElectron
    simp only [epairApply]
    have r0 : 0 ≤ r * r := mul_self_nonneg r
    have r1 : r * r < 1 := by nlinarith
    have hξ : 0 < v / 2 * (v / 2) * (1 - r * r) / (1 - v) := by
      have : 0 < 1 - v := by linarith
      have : 0 < 1 - r * r := by linarith
      positivity
    obtain ⟨a, a'⟩ := hS _ _ r0 r1 hξ
    have clamp : ∀ y : ℝ, 0 ≤ (if y < 0 then 0 else y) := by
      intro y
      split_ifs with h
      · exact le_rfl
      · exact not_lt.mp h
    refine ⟨mul_nonneg (clamp _) a, ?_⟩
    exact mul_le_of_le_one_right (clamp _) a'

/-! ## The energy scale -/

/-- C129: the scale is positive and grows with the fourth power of the mass over the square of the charge. -/
theorem C129_scale (m z : ℝ) (M : Med) (hm : 0 < m) (hz : z ≠ 0) (hM : 0 < M.molDensity) (hc : M.components ≠ []) (hcs : ∀ c ∈ M.components, Spec.PairAtom c) :
    0 < (epairLpm m z M).eLpm ∧ (epairLpm m z M).eLpm = (m / ME) ^ 4 / z ^ 2 * (epairLpm ME 1 M).eLpm := by
  have hme := me_pos'
  have hre := re_pos'
  have hal := alpha_pos'
  have hpi := Real.pi_pos
  have hsum : 0 < sumOver M.components fun c => c.nucCharge * c.nucCharge * Real.log (3.25 * c.logConstant * c.nucCharge ^ (-1 / 3 : ℝ)) := by
    rw [sumOver_eq]
    apply List.sum_pos
    · intro y hy
      obtain ⟨c, hcm, rfl⟩ := List.mem_map.mp hy
      have h := hcs c hcm
      obtain ⟨z0, z1⟩ := pair_c0 h
      have : 0 < c.nucCharge := by linarith [h.charge]
      have hl : 0 < Real.log (3.25 * c.logConstant * c.nucCharge ^ (-1 / 3 : ℝ)) := by
        apply Real.log_pos
        have := h.log
        nlinarith
      positivity
    · simpa using hc
  unfold epairLpm
  simp only
  set S := sumOver M.components fun c => c.nucCharge * c.nucCharge * Real.log (3.25 * c.logConstant * c.nucCharge ^ (-1 / 3 : ℝ))
  constructor
  · have e : 2 * Real.pi * M.molDensity * z * z * S = 2 * Real.pi * M.molDensity * S * z ^ 2 := by ring
    rw [e]
    positivity
  · field_simp

/-- The same atoms in molecules that are `k` times as large. -/
noncomputable def Spec.inMolecules (k : ℝ) (cs : List Component) : List Component := cs.map fun c => { c with atomInMolecule := k * c.atomInMolecule }

lemma sumOver_molecules (k : ℝ) (cs : List Component) (f g : Component → ℝ) (h : ∀ c : Component, f { c with atomInMolecule := k * c.atomInMolecule } = k * g c) :
    sumOver (Spec.inMolecules k cs) f = k * sumOver cs g := by
  rw [sumOver_eq, sumOver_eq, Spec.inMolecules, List.map_map, ← List.sum_map_mul_left]
  congr 1
  apply List.map_congr_left
  intro c _
  exact h c

/-- C129: the wrong part. The same substance with the same mass density, once written with molecules `k` times as large: mass density, charge
per nucleon, radiation length and the density of each kind of atom are the same, but the energy scale is `k` times as large,
because the sum of the constructor does not weight the atoms with their number in the molecule. -/
theorem C129_molecules (m z k : ℝ) (x : MedArgs) (cs : List Component) (hk : k ≠ 0) (hn : (mkMed x cs).sumNucleons ≠ 0) :
    let M := mkMed x cs
    let M' := mkMed x (Spec.inMolecules k cs)
    M'.massDensity = M.massDensity ∧ M'.ZA = M.ZA ∧ M'.MM = M.MM ∧ M'.radiationLength = M.radiationLength ∧
    (∀ n, M'.molDensity * (k * n) = M.molDensity * n) ∧ (epairLpm m z M').eLpm = k * (epairLpm m z M).eLpm := by
  have e1 := sumOver_molecules k cs (fun c => c.atomInMolecule * c.nucCharge) (fun c => c.atomInMolecule * c.nucCharge) (fun c => by simp only; ring)
  have e2 := sumOver_molecules k cs (fun c => c.atomInMolecule * c.atomicNum) (fun c => c.atomInMolecule * c.atomicNum) (fun c => by simp only; ring)
  have e3 := sumOver_molecules k cs (fun c => c.atomInMolecule * c.atomicNum * c.averageNucleonWeight) (fun c => c.atomInMolecule * c.atomicNum * c.averageNucleonWeight)
    (fun c => by simp only; ring)
  have e4 := sumOver_molecules k cs (fun c => X0inv ⌊c.nucCharge⌋₊ c.atomicNum * (c.atomInMolecule * c.atomicNum)) (fun c => X0inv ⌊c.nucCharge⌋₊ c.atomicNum * (c.atomInMolecule * c.atomicNum))
    (fun c => by simp only; ring)
  have e5 : sumOver (Spec.inMolecules k cs) (fun c => c.nucCharge * c.nucCharge * Real.log (3.25 * c.logConstant * c.nucCharge ^ (-1 / 3 : ℝ))) =
      sumOver cs (fun c => c.nucCharge * c.nucCharge * Real.log (3.25 * c.logConstant * c.nucCharge ^ (-1 / 3 : ℝ))) := by
    rw [sumOver_eq, sumOver_eq, Spec.inMolecules, List.map_map]
    rfl
  have hn' : sumOver cs (fun c => c.atomInMolecule * c.atomicNum) ≠ 0 := hn
  simp only [mkMed, epairLpm, e1, e2, e3, e4, e5]
  set A := sumOver cs (fun c => c.atomInMolecule * c.atomicNum)
  refine ⟨trivial, ?_, ?_, ?_, ?_, ?_⟩
  · rw [mul_div_mul_left _ _ hk]
  · rw [mul_div_mul_left _ _ hk]
  · rw [mul_div_mul_left _ _ hk]
  · intro n
    field_simp
  · set S := sumOver cs (fun c => c.nucCharge * c.nucCharge * Real.log (3.25 * c.logConstant * c.nucCharge ^ (-1 / 3 : ℝ)))
    field_simp

/-! ## Examples -/

/-- Oxygen, written with single atoms. -/
noncomputable def exOxMed : Med := { exWater with components := [exOx] }

/-- A muon of 1 EeV in oxygen; the same substance written with molecules of two atoms has twice the scale. -/
example : 0 < (epairLpm MMU (-1) exOxMed).eLpm ∧
    epairSuppression (epairLpm MMU (-1) exOxMed) 1e12 0.1 0.25 0.01 100 1 ≤ 1 ∧
    epairSuppression (epairLpm MMU (-1) exOxMed) 2e12 0.1 0.25 0.01 100 1 ≤ epairSuppression (epairLpm MMU (-1) exOxMed) 1e12 0.1 0.25 0.01 100 1 := by
  have h := (C129_scale MMU (-1) exOxMed mmu_pos' (by norm_num) (by norm_num [exOxMed, exWater]) (by simp [exOxMed]) (by simpa [exOxMed] using exOx_pair)).1
  exact ⟨h, (C129_range _ _ _ _ _ _ _ h (by norm_num) (by norm_num) (by norm_num) (by norm_num) (by norm_num) (by norm_num) one_pos).2.1,
    C129_monotone _ _ _ _ _ _ _ _ _ h (by norm_num) (by norm_num) (by norm_num) (by norm_num) (by norm_num) (by norm_num) (by norm_num) one_pos le_rfl⟩

example : (mkMed ⟨[], 0, 0, 0, 0, 0, 0, 0, 1⟩ [exOx]).sumNucleons ≠ 0 := by
  simp [mkMed, sumOver, exOx]

end Proposal
