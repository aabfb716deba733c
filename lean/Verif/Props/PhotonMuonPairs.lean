import Verif.Props.MuonPairs
import Mathlib.Analysis.SpecialFunctions.Pow.Asymptotics

/-!
# C123: muon pairs by photons
-/

open Filter Topology

namespace Proposal

/-- The smallest momentum transfer. -/
noncomputable def Spec.delta (E x : ℝ) : ℝ := MMU ^ 2 / (2 * E * (x * (1 - x)))

/-- The form factors of the nucleus and of the electrons as functions of the momentum transfer. -/
noncomputable def Spec.nucleusLog (c : Component) (δ : ℝ) : ℝ :=
  Real.log (MMU / ME * c.logConstant * c.nucCharge ^ (-1 / 3 : ℝ) /
      (1 + c.logConstant * c.nucCharge ^ (-1 / 3 : ℝ) * SQRTE * δ / ME)) -
    (if c.nucCharge > 1 then 1 - 1 / c.nucCharge else 1) *
      Real.log (1.54 * c.atomicNum ^ (0.27 : ℝ) / (1 + δ * (1.54 * c.atomicNum ^ (0.27 : ℝ) * SQRTE - 2) / MMU))

noncomputable def Spec.electronLog (c : Component) (δ : ℝ) : ℝ :=
  Real.log (MMU / δ / (δ * MMU / (ME * ME) + SQRTE)) -
    Real.log (1 + 1 / (δ * SQRTE * c.bPrime * c.nucCharge ^ (-1 / 3 : ℝ) * c.nucCharge ^ (-1 / 3 : ℝ) / ME))

/-- C123: the cross section per mass is `4 α Z (Z + ...) r_μ²` with the spectrum `1 - 4/3 x (1 - x)`, never negative. -/
theorem C123_formula (c : Component) (E x : ℝ) (hZ : c.nucCharge ≠ 0) :
    photoMuPair c E x = max (NAvogadro / c.atomicNum * (4 * ALPHA * (RE * ME / MMU) ^ 2 *
      (c.nucCharge ^ 2 * Spec.nucleusLog c (Spec.delta E x) + c.nucCharge * Spec.electronLog c (Spec.delta E x)) *
      (1 - 4 / 3 * (x * (1 - x))))) 0 := by
  have eδ : MMU * MMU / (2 * E * x * (1 - x)) = Spec.delta E x := by
    unfold Spec.delta
    congr 1 <;> ring
  have eaux : x * x + (1 - x) ^ 2 + 2 / 3 * x * (1 - x) = 1 - 4 / 3 * (x * (1 - x)) := by ring
  have eif : ∀ a b : ℝ, (if c.nucCharge > 1 then a - (1 - 1 / c.nucCharge) * b else a - b) =
      a - (if c.nucCharge > 1 then 1 - 1 / c.nucCharge else 1) * b := by
    intro a b
    split_ifs <;> ring
  unfold photoMuPair
  simp only
  rw [eδ, eaux, eif]
  congr 1
  unfold Spec.nucleusLog Spec.electronLog
  generalize Real.log (MMU / ME * c.logConstant * c.nucCharge ^ (-1 / 3 : ℝ) /
      (1 + c.logConstant * c.nucCharge ^ (-1 / 3 : ℝ) * SQRTE * Spec.delta E x / ME)) = a
  generalize Real.log (1.54 * c.atomicNum ^ (0.27 : ℝ) / (1 + Spec.delta E x * (1.54 * c.atomicNum ^ (0.27 : ℝ) * SQRTE - 2) / MMU)) = b
  generalize (if c.nucCharge > 1 then 1 - 1 / c.nucCharge else 1) = k
  field_simp

/-- C123: both muons are treated equally. -/
theorem C123_symmetric (c : Component) (E x : ℝ) : photoMuPair c E (1 - x) = photoMuPair c E x := by
  have e1 : MMU * MMU / (2 * E * (1 - x) * (1 - (1 - x))) = MMU * MMU / (2 * E * x * (1 - x)) := by
    congr 1
    ring
  have e2 : (1 - x) * (1 - x) + (1 - (1 - x)) ^ 2 + 2 / 3 * (1 - x) * (1 - (1 - x)) = x * x + (1 - x) ^ 2 + 2 / 3 * x * (1 - x) := by ring
  unfold photoMuPair
  simp only
  rw [e1, e2]

/-- C123: the kinematic limits are those of the momentum transfer `δ ≤ m_μ / √e`. -/
theorem C123_limits (E x : ℝ) (hE : 2 * MMU * SQRTE < E) (h0 : 0 < x) (h1 : x < 1) :
    ((limPhotoMuPair E).vMin ≤ x ∧ x ≤ (limPhotoMuPair E).vMax) ↔ Spec.delta E x ≤ MMU / SQRTE := by
  have hM := mmu_pos'
  have hs := sqrte_pos'
  have hE0 : 0 < E := lt_trans (by positivity) hE
  have hx : 0 < x * (1 - x) := mul_pos h0 (by linarith)
  have hd : Spec.delta E x ≤ MMU / SQRTE ↔ MMU * SQRTE / (2 * E) ≤ x * (1 - x) := by
    unfold Spec.delta
    rw [div_le_div_iff₀ (by positivity) hs, div_le_iff₀ (by positivity)]
    constructor
    · intro h
      have : MMU * (MMU * SQRTE) ≤ MMU * (x * (1 - x) * (2 * E)) := by nlinarith
      exact le_of_mul_le_mul_left this hM
    · intro h
      nlinarith
  rw [hd]
  unfold limPhotoMuPair
  rw [if_neg (not_le.2 hE)]
  simp only
  set w := 1 - 2 * SQRTE * MMU / E with hw
  have hw0 : 0 ≤ w := by
    rw [hw, sub_nonneg, div_le_one hE0]
    linarith
  have hq : MMU * SQRTE / (2 * E) = (1 - w) / 4 := by
    rw [hw]
    field_simp
    ring
  rw [hq]
  have hsq := Real.sq_sqrt hw0
  have hnn := Real.sqrt_nonneg w
  have key : (1 - w) / 4 ≤ x * (1 - x) ↔ (2 * x - 1) ^ 2 ≤ w := by
    constructor <;> intro h <;> nlinarith
  rw [key]
  constructor
  · rintro ⟨a1, a2⟩
    norm_num at a1 a2
    rw [← hsq]
    apply sq_le_sq'
    · linarith
    · linarith
  · intro h
    have := Real.abs_le_sqrt h
    rw [abs_le] at this
    norm_num
    constructor <;> linarith [this.1, this.2]

lemma dSqrte {c : Component} (hA : 1 ≤ c.atomicNum) : 2 < 1.54 * c.atomicNum ^ (0.27 : ℝ) * SQRTE := by
  have h1 : 1 ≤ c.atomicNum ^ (0.27 : ℝ) := Real.one_le_rpow hA (by norm_num)
  have h2 : (2 : ℝ) < 1.54 * SQRTE := by norm_num [SQRTE]
  have hs := sqrte_pos'
  norm_num at h2 ⊢
  nlinarith

lemma weight_unit {Z : ℝ} (hZ : 0 < Z) : 0 ≤ (if Z > 1 then 1 - 1 / Z else 1) ∧ (if Z > 1 then 1 - 1 / Z else 1) ≤ 1 := by
  split_ifs with h
  · have : 1 / Z ≤ 1 := by rw [div_le_one hZ]; exact h.le
    have : 0 < 1 / Z := by positivity
    constructor <;> linarith
  · norm_num

/-- C123: at and outside of the kinematic limits the cross section is zero. -/
theorem C123_outside (c : Component) (E x : ℝ) (hZ : 0 < c.nucCharge) (hA : 1 ≤ c.atomicNum) (hB : 0 < c.logConstant)
    (hB' : 0 < c.bPrime) (h0 : 0 < x) (h1 : x < 1) (hδ : MMU / SQRTE ≤ Spec.delta E x) : photoMuPair c E x = 0 := by
  have hM := mmu_pos'
  have hs := sqrte_pos'
  have hme := me_pos'
  have hZ3 := Real.rpow_pos_of_pos hZ (-1 / 3)
  have hD := dSqrte hA
  set δ := Spec.delta E x
  have hδ0 : 0 < δ := lt_of_lt_of_le (by positivity) hδ
  have hu : 1 ≤ SQRTE * δ / MMU := by
    rw [le_div_iff₀ hM]
    rw [div_le_iff₀ hs] at hδ
    linarith
  have hN : Spec.nucleusLog c δ ≤ 0 := by
    unfold Spec.nucleusLog
    obtain ⟨k0, k1⟩ := weight_unit hZ
    set k := (if c.nucCharge > 1 then 1 - 1 / c.nucCharge else 1)
    set b := c.logConstant * c.nucCharge ^ (-1 / 3 : ℝ) with hb
    have hb0 : 0 < b := by positivity
    set D := 1.54 * c.atomicNum ^ (0.27 : ℝ) with hDd
    have hD0 : 0 < D := by
      have := Real.rpow_pos_of_pos (lt_of_lt_of_le one_pos hA) 0.27
      positivity
    set u := SQRTE * δ / MMU with hu'
    have l1 : Real.log (MMU / ME * c.logConstant * c.nucCharge ^ (-1 / 3 : ℝ) / (1 + b * SQRTE * δ / ME)) ≤ - Real.log u := by
      rw [← Real.log_inv]
      apply Real.log_le_log
      · have : 0 < 1 + b * SQRTE * δ / ME := by positivity
        positivity
      · have e : u⁻¹ = MMU / (SQRTE * δ) := by rw [hu', inv_div]
        rw [e, div_le_div_iff₀ (by positivity) (by positivity)]
        have : MMU / ME * c.logConstant * c.nucCharge ^ (-1 / 3 : ℝ) * (SQRTE * δ) = MMU * (b * SQRTE * δ / ME) := by
          rw [hb]
          field_simp
        rw [this]
        nlinarith
    have hden : 0 < 1 + δ * (D * SQRTE - 2) / MMU := by
      have : 0 < δ * (D * SQRTE - 2) / MMU := div_pos (mul_pos hδ0 (by linarith)) hM
      linarith
    have l2 : - Real.log (D / (1 + δ * (D * SQRTE - 2) / MMU)) ≤ Real.log u := by
      rw [← Real.log_inv, inv_div]
      apply Real.log_le_log (by positivity)
      rw [div_le_iff₀ hD0]
      have e : δ * (D * SQRTE - 2) / MMU = u * D - 2 * (u / SQRTE) := by
        rw [hu']
        field_simp
      have h2 : 1 ≤ 2 * (u / SQRTE) := by
        have h3 : u / SQRTE ≥ 1 / SQRTE := by gcongr
        have h4 : 1 / SQRTE ≥ 1 / 2 := by
          apply one_div_le_one_div_of_le hs
          norm_num [SQRTE]
        linarith
      rw [e]
      linarith
    have l3 : 0 ≤ Real.log u := Real.log_nonneg hu
    nlinarith
  have hEl : Spec.electronLog c δ ≤ 0 := by
    unfold Spec.electronLog
    have l1 : Real.log (MMU / δ / (δ * MMU / (ME * ME) + SQRTE)) ≤ 0 := by
      apply Real.log_nonpos (by positivity)
      rw [div_le_one (by positivity), div_le_iff₀ hδ0]
      have : 0 < δ * MMU / (ME * ME) * δ := by positivity
      rw [le_div_iff₀ hM, one_mul] at hu
      nlinarith
    have l2 : 0 ≤ Real.log (1 + 1 / (δ * SQRTE * c.bPrime * c.nucCharge ^ (-1 / 3 : ℝ) * c.nucCharge ^ (-1 / 3 : ℝ) / ME)) := by
      apply Real.log_nonneg
      have : 0 < 1 / (δ * SQRTE * c.bPrime * c.nucCharge ^ (-1 / 3 : ℝ) * c.nucCharge ^ (-1 / 3 : ℝ) / ME) := by positivity
      linarith
    linarith
  rw [C123_formula c E x hZ.ne']
  apply max_eq_right
  have hx : 0 ≤ 1 - 4 / 3 * (x * (1 - x)) := by nlinarith [sq_nonneg (x - 1 / 2)]
  have hsum : c.nucCharge ^ 2 * Spec.nucleusLog c δ + c.nucCharge * Spec.electronLog c δ ≤ 0 := by
    have a1 := mul_nonpos_of_nonneg_of_nonpos (sq_nonneg c.nucCharge) hN
    have a2 := mul_nonpos_of_nonneg_of_nonpos hZ.le hEl
    linarith
  have hal := alpha_pos'
  have hre := re_pos'
  have hN' := na_pos'
  have hA0 : 0 < c.atomicNum := lt_of_lt_of_le one_pos hA
  apply mul_nonpos_of_nonneg_of_nonpos (by positivity)
  apply mul_nonpos_of_nonpos_of_nonneg _ hx
  exact mul_nonpos_of_nonneg_of_nonpos (by positivity) hsum

lemma nucleusLog_split {c : Component} {δ : ℝ} (hZ : 0 < c.nucCharge) (hA : 1 ≤ c.atomicNum) (hB : 0 < c.logConstant) (hδ : 0 ≤ δ) :
    Spec.nucleusLog c δ = (Real.log (MMU / ME * c.logConstant * c.nucCharge ^ (-1 / 3 : ℝ)) -
        Real.log (1 + c.logConstant * c.nucCharge ^ (-1 / 3 : ℝ) * SQRTE / ME * δ)) -
      (if c.nucCharge > 1 then 1 - 1 / c.nucCharge else 1) *
        (Real.log (1.54 * c.atomicNum ^ (0.27 : ℝ)) - Real.log (1 + (1.54 * c.atomicNum ^ (0.27 : ℝ) * SQRTE - 2) / MMU * δ)) := by
  have hM := mmu_pos'
  have hs := sqrte_pos'
  have hme := me_pos'
  have hZ3 := Real.rpow_pos_of_pos hZ (-1 / 3)
  have hD := dSqrte hA
  have hD0 := Real.rpow_pos_of_pos (lt_of_lt_of_le one_pos hA) 0.27
  have h1 : 0 < 1 + c.logConstant * c.nucCharge ^ (-1 / 3 : ℝ) * SQRTE / ME * δ := by positivity
  have h2 : 0 < 1 + (1.54 * c.atomicNum ^ (0.27 : ℝ) * SQRTE - 2) / MMU * δ := by
    have : 0 ≤ (1.54 * c.atomicNum ^ (0.27 : ℝ) * SQRTE - 2) / MMU * δ := mul_nonneg (div_nonneg (by linarith) hM.le) hδ
    linarith
  have e1 : 1 + c.logConstant * c.nucCharge ^ (-1 / 3 : ℝ) * SQRTE * δ / ME =
      1 + c.logConstant * c.nucCharge ^ (-1 / 3 : ℝ) * SQRTE / ME * δ := by ring
  have e2 : 1 + δ * (1.54 * c.atomicNum ^ (0.27 : ℝ) * SQRTE - 2) / MMU = 1 + (1.54 * c.atomicNum ^ (0.27 : ℝ) * SQRTE - 2) / MMU * δ := by ring
  unfold Spec.nucleusLog
  rw [e1, e2, Real.log_div (by positivity) h1.ne', Real.log_div (by positivity) h2.ne']

lemma electronLog_split {c : Component} {δ : ℝ} (hZ : 0 < c.nucCharge) (hB' : 0 < c.bPrime) (hδ : 0 < δ) :
    Spec.electronLog c δ = Real.log MMU - Real.log ((δ * MMU / (ME * ME) + SQRTE) *
      (δ + ME / (SQRTE * c.bPrime * c.nucCharge ^ (-1 / 3 : ℝ) * c.nucCharge ^ (-1 / 3 : ℝ)))) := by
  have hM := mmu_pos'
  have hs := sqrte_pos'
  have hme := me_pos'
  have hZ3 := Real.rpow_pos_of_pos hZ (-1 / 3)
  unfold Spec.electronLog
  rw [← Real.log_div (by positivity) (by positivity), ← Real.log_div (by positivity) (by positivity)]
  congr 1
  field_simp

/-- C123: at a given sharing the cross section grows with the energy of the photon. -/
theorem C123_monotone (c : Component) (E E' x : ℝ) (hZ : 0 < c.nucCharge) (hA : 1 ≤ c.atomicNum) (hB : 0 < c.logConstant)
    (hB' : 0 < c.bPrime) (hcomp : (1.54 * c.atomicNum ^ (0.27 : ℝ) * SQRTE - 2) / MMU ≤ c.logConstant * c.nucCharge ^ (-1 / 3 : ℝ) * SQRTE / ME)
    (h0 : 0 < x) (h1 : x < 1) (hE : 0 < E) (hEE : E ≤ E') : photoMuPair c E x ≤ photoMuPair c E' x := by
  have hM := mmu_pos'
  have hs := sqrte_pos'
  have hme := me_pos'
  have hZ3 := Real.rpow_pos_of_pos hZ (-1 / 3)
  have hD := dSqrte hA
  have hx1 : 0 < x * (1 - x) := mul_pos h0 (by linarith)
  have hE' : 0 < E' := hE.trans_le hEE
  have hδ' : 0 < Spec.delta E' x := by unfold Spec.delta; positivity
  have hδ : 0 < Spec.delta E x := by unfold Spec.delta; positivity
  have hδδ : Spec.delta E' x ≤ Spec.delta E x := by
    unfold Spec.delta
    gcongr
  rw [C123_formula c E x hZ.ne', C123_formula c E' x hZ.ne']
  generalize Spec.delta E x = δ at *
  generalize Spec.delta E' x = δ' at *
  have hN : Spec.nucleusLog c δ ≤ Spec.nucleusLog c δ' := by
    rw [nucleusLog_split hZ hA hB hδ.le, nucleusLog_split hZ hA hB hδ'.le]
    obtain ⟨k0, k1⟩ := weight_unit hZ
    have c20 : 0 < (1.54 * c.atomicNum ^ (0.27 : ℝ) * SQRTE - 2) / MMU := div_pos (by linarith) hM
    generalize (if c.nucCharge > 1 then 1 - 1 / c.nucCharge else 1) = k at *
    generalize (1.54 * c.atomicNum ^ (0.27 : ℝ) * SQRTE - 2) / MMU = c2 at *
    generalize c.logConstant * c.nucCharge ^ (-1 / 3 : ℝ) * SQRTE / ME = c1 at *
    have c10 : 0 < c1 := c20.trans_le hcomp
    have l1 : Real.log (1 + c2 * δ') ≤ Real.log (1 + c2 * δ) := Real.log_le_log (by positivity) (by nlinarith)
    have l2 : Real.log (1 + c2 * δ) + Real.log (1 + c1 * δ') ≤ Real.log (1 + c1 * δ) + Real.log (1 + c2 * δ') := by
      rw [← Real.log_mul (by positivity) (by positivity), ← Real.log_mul (by positivity) (by positivity)]
      apply Real.log_le_log (by positivity)
      nlinarith [mul_nonneg (sub_nonneg.2 hcomp) (sub_nonneg.2 hδδ)]
    nlinarith [mul_nonneg (sub_nonneg.2 k1) (sub_nonneg.2 l1)]
  have hEl : Spec.electronLog c δ ≤ Spec.electronLog c δ' := by
    rw [electronLog_split hZ hB' hδ, electronLog_split hZ hB' hδ']
    apply sub_le_sub_left
    apply Real.log_le_log (by positivity)
    gcongr
  have hal := alpha_pos'
  have hre := re_pos'
  have hN' := na_pos'
  have hA0 : 0 < c.atomicNum := lt_of_lt_of_le one_pos hA
  have hx : 0 ≤ 1 - 4 / 3 * (x * (1 - x)) := by nlinarith [sq_nonneg (x - 1 / 2)]
  apply max_le_max _ le_rfl
  gcongr

/-- C123: at high energies the logarithms tend to those of the radiation logarithms, scaled by the mass of the muon
(full screening). -/
theorem C123_screened (c : Component) (x : ℝ) (hZ : 0 < c.nucCharge) (hA : 1 ≤ c.atomicNum) (hB : 0 < c.logConstant)
    (hB' : 0 < c.bPrime) (h0 : 0 < x) (h1 : x < 1) :
    Tendsto (fun E => photoMuPair c E x) atTop (𝓝 (max (NAvogadro / c.atomicNum * (4 * ALPHA * (RE * ME / MMU) ^ 2 *
      (c.nucCharge ^ 2 * (Real.log (MMU / ME * c.logConstant * c.nucCharge ^ (-1 / 3 : ℝ)) -
          (if c.nucCharge > 1 then 1 - 1 / c.nucCharge else 1) * Real.log (1.54 * c.atomicNum ^ (0.27 : ℝ))) +
        c.nucCharge * Real.log (MMU / ME * c.bPrime * c.nucCharge ^ (-2 / 3 : ℝ))) *
      (1 - 4 / 3 * (x * (1 - x))))) 0)) := by
  have hM := mmu_pos'
  have hs := sqrte_pos'
  have hme := me_pos'
  have hZ3 := Real.rpow_pos_of_pos hZ (-1 / 3)
  have hx1 : 0 < x * (1 - x) := mul_pos h0 (by linarith)
  have hδ : Tendsto (fun E => Spec.delta E x) atTop (𝓝 0) := by
    have : (fun E => Spec.delta E x) = fun E => MMU ^ 2 / (2 * (x * (1 - x))) / E := by
      funext E
      unfold Spec.delta
      rw [div_div]
      congr 1
      ring
    rw [this]
    exact tendsto_const_nhds.div_atTop tendsto_id
  have hpos : ∀ᶠ E in atTop, 0 < Spec.delta E x := by
    filter_upwards [eventually_gt_atTop 0] with E hE
    unfold Spec.delta
    positivity
  have e23 : c.nucCharge ^ (-2 / 3 : ℝ) = c.nucCharge ^ (-1 / 3 : ℝ) * c.nucCharge ^ (-1 / 3 : ℝ) := by
    rw [← Real.rpow_add hZ]
    norm_num
  have hlim : Tendsto (fun E => max (NAvogadro / c.atomicNum * (4 * ALPHA * (RE * ME / MMU) ^ 2 *
      (c.nucCharge ^ 2 * ((Real.log (MMU / ME * c.logConstant * c.nucCharge ^ (-1 / 3 : ℝ)) -
        Real.log (1 + c.logConstant * c.nucCharge ^ (-1 / 3 : ℝ) * SQRTE / ME * Spec.delta E x)) -
      (if c.nucCharge > 1 then 1 - 1 / c.nucCharge else 1) *
        (Real.log (1.54 * c.atomicNum ^ (0.27 : ℝ)) - Real.log (1 + (1.54 * c.atomicNum ^ (0.27 : ℝ) * SQRTE - 2) / MMU * Spec.delta E x))) +
      c.nucCharge * (Real.log MMU - Real.log ((Spec.delta E x * MMU / (ME * ME) + SQRTE) *
      (Spec.delta E x + ME / (SQRTE * c.bPrime * c.nucCharge ^ (-1 / 3 : ℝ) * c.nucCharge ^ (-1 / 3 : ℝ)))))) *
      (1 - 4 / 3 * (x * (1 - x))))) 0) atTop (𝓝 (max (NAvogadro / c.atomicNum * (4 * ALPHA * (RE * ME / MMU) ^ 2 *
      (c.nucCharge ^ 2 * ((Real.log (MMU / ME * c.logConstant * c.nucCharge ^ (-1 / 3 : ℝ)) -
        Real.log (1 + c.logConstant * c.nucCharge ^ (-1 / 3 : ℝ) * SQRTE / ME * 0)) -
      (if c.nucCharge > 1 then 1 - 1 / c.nucCharge else 1) *
        (Real.log (1.54 * c.atomicNum ^ (0.27 : ℝ)) - Real.log (1 + (1.54 * c.atomicNum ^ (0.27 : ℝ) * SQRTE - 2) / MMU * 0))) +
      c.nucCharge * (Real.log MMU - Real.log ((0 * MMU / (ME * ME) + SQRTE) *
      (0 + ME / (SQRTE * c.bPrime * c.nucCharge ^ (-1 / 3 : ℝ) * c.nucCharge ^ (-1 / 3 : ℝ)))))) *
      (1 - 4 / 3 * (x * (1 - x))))) 0)) := by
    have n1 : (1 + c.logConstant * c.nucCharge ^ (-1 / 3 : ℝ) * SQRTE / ME * 0) ≠ 0 := by norm_num
    have n2 : (1 + (1.54 * c.atomicNum ^ (0.27 : ℝ) * SQRTE - 2) / MMU * 0) ≠ 0 := by norm_num
    have n3 : (0 * MMU / (ME * ME) + SQRTE) *
      (0 + ME / (SQRTE * c.bPrime * c.nucCharge ^ (-1 / 3 : ℝ) * c.nucCharge ^ (-1 / 3 : ℝ))) ≠ 0 := by
      rw [zero_mul, zero_div, zero_add, zero_add]
      positivity
    have t1 := ((hδ.const_mul (c.logConstant * c.nucCharge ^ (-1 / 3 : ℝ) * SQRTE / ME)).const_add 1).log n1
    have t2 := ((hδ.const_mul ((1.54 * c.atomicNum ^ (0.27 : ℝ) * SQRTE - 2) / MMU)).const_add 1).log n2
    have t3 := ((((hδ.mul_const MMU).div_const (ME * ME)).add_const SQRTE).mul
      (hδ.add_const (ME / (SQRTE * c.bPrime * c.nucCharge ^ (-1 / 3 : ℝ) * c.nucCharge ^ (-1 / 3 : ℝ))))).log n3
    exact (((((((t1.const_sub _).sub ((t2.const_sub _).const_mul _)).const_mul _).add ((t3.const_sub _).const_mul _)).const_mul _).mul_const _).const_mul _).max tendsto_const_nhds
  have efin : Real.log MMU - Real.log ((0 * MMU / (ME * ME) + SQRTE) *
      (0 + ME / (SQRTE * c.bPrime * c.nucCharge ^ (-1 / 3 : ℝ) * c.nucCharge ^ (-1 / 3 : ℝ)))) =
      Real.log (MMU / ME * c.bPrime * c.nucCharge ^ (-2 / 3 : ℝ)) := by
    rw [zero_mul, zero_div, zero_add, zero_add, ← Real.log_div (by positivity) (by positivity), e23]
    congr 1
    field_simp
  rw [efin, mul_zero, mul_zero, add_zero, Real.log_one, sub_zero, sub_zero] at hlim
  apply hlim.congr'
  filter_upwards [hpos] with E hE
  rw [C123_formula c E x hZ.ne', nucleusLog_split hZ hA hB hE.le, electronLog_split hZ hB' hE]

/-- The condition of `C123_monotone` holds for all elements. -/
theorem C123_elements (c : Component) (hZ : 1 ≤ c.nucCharge) (hZ' : c.nucCharge ≤ 137) (hA : 0 ≤ c.atomicNum) (hA' : c.atomicNum ≤ 1000)
    (hB : 100 ≤ c.logConstant) :
    (1.54 * c.atomicNum ^ (0.27 : ℝ) * SQRTE - 2) / MMU ≤ c.logConstant * c.nucCharge ^ (-1 / 3 : ℝ) * SQRTE / ME := by
  have h1 : c.atomicNum ^ (0.27 : ℝ) ≤ 10 := by
    calc c.atomicNum ^ (0.27 : ℝ) ≤ 1000 ^ (0.27 : ℝ) := Real.rpow_le_rpow hA hA' (by norm_num)
      _ ≤ 1000 ^ (1 / 3 : ℝ) := Real.rpow_le_rpow_of_exponent_le (by norm_num) (by norm_num)
      _ = 10 := by
        rw [show (1000 : ℝ) = 10 ^ (3 : ℝ) by norm_num, ← Real.rpow_mul (by norm_num)]
        norm_num
  have h2 : (1 / 137 : ℝ) ≤ c.nucCharge ^ (-1 / 3 : ℝ) := by
    calc (1 / 137 : ℝ) ≤ 1 / c.nucCharge := one_div_le_one_div_of_le (by linarith) hZ'
      _ = c.nucCharge ^ (-1 : ℝ) := by rw [Real.rpow_neg_one, one_div]
      _ ≤ c.nucCharge ^ (-1 / 3 : ℝ) := Real.rpow_le_rpow_of_exponent_le hZ (by norm_num)
  have hs : (1 : ℝ) < SQRTE ∧ SQRTE < 2 := by norm_num [SQRTE]
  have hm : (100 : ℝ) < MMU := by norm_num [MMU]
  have he : 0 < ME ∧ ME < 0.6 := ⟨me_pos', by norm_num [ME]⟩
  have r1 : (1.54 * c.atomicNum ^ (0.27 : ℝ) * SQRTE - 2) / MMU ≤ 1 := by
    rw [div_le_one (by linarith)]
    norm_num at h1 ⊢
    nlinarith
  have r2 : 1 ≤ c.logConstant * c.nucCharge ^ (-1 / 3 : ℝ) * SQRTE / ME := by
    rw [le_div_iff₀ he.1]
    have : 100 * (1 / 137) ≤ c.logConstant * c.nucCharge ^ (-1 / 3 : ℝ) := by gcongr
    norm_num at he
    nlinarith
  linarith

/-- Oxygen: a photon of 10 GeV makes fewer muon pairs than one of 20 GeV, none with a muon of
0.1 % of its energy, and a muon of 30 % is within the limits. -/
example : photoMuPair exOx 1e4 0.3 ≤ photoMuPair exOx 2e4 0.3 :=
  C123_monotone exOx 1e4 2e4 0.3 (by norm_num [exOx]) (by norm_num [exOx]) (by norm_num [exOx]) (by norm_num [exOx])
    (C123_elements exOx (by norm_num [exOx]) (by norm_num [exOx]) (by norm_num [exOx]) (by norm_num [exOx]) (by norm_num [exOx]))
    (by norm_num) (by norm_num) (by norm_num) (by norm_num)

example : photoMuPair exOx 1e4 0.001 = 0 :=
  C123_outside exOx 1e4 0.001 (by norm_num [exOx]) (by norm_num [exOx]) (by norm_num [exOx]) (by norm_num [exOx]) (by norm_num) (by norm_num)
    (by norm_num [Spec.delta, MMU, SQRTE])

example : Spec.delta 1e4 0.3 ≤ MMU / SQRTE := by norm_num [Spec.delta, MMU, SQRTE]

end Proposal
