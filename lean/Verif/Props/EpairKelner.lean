import Verif.Props.EpairFunctions

/-!
# C128: electron pairs by Kelner, Kokoulin and Petrukhin
-/

open Set Filter Topology

namespace Proposal

/-- The contribution of atomic electrons (Kelner 1998). -/
noncomputable def Spec.pairZeta (γ1 γ2 m Z E : ℝ) : ℝ :=
  max 0 (0.073 * Real.log (E / m / (1 + γ1 * Z ^ (2 / 3 : ℝ) * (E / m))) - 0.26) /
    max 0 (0.058 * Real.log (E / m / (1 + γ2 * Z ^ (1 / 3 : ℝ) * (E / m))) - 0.14)

/-- The logarithm of the electron diagram. -/
noncomputable def Spec.pairLe (m Z B E v ρ ξ Y : ℝ) : ℝ :=
  Real.log (B * Z ^ (-1 / 3 : ℝ) * Real.sqrt ((1 + ξ) * (1 + Y)) /
      (1 + 2 * ME * SQRTE * B * Z ^ (-1 / 3 : ℝ) * (1 + ξ) * (1 + Y) / (E * v * (1 - ρ ^ 2)))) -
    1 / 2 * Real.log (1 + (3 / 2 * (ME / m) * Z ^ (1 / 3 : ℝ)) ^ 2 * (1 + ξ) * (1 + Y))

/-- The logarithm of the diagram of the particle. -/
noncomputable def Spec.pairLmu (m Z B E v ρ ξ Y : ℝ) : ℝ :=
  Real.log (2 / 3 * (m / ME) * B * Z ^ (-2 / 3 : ℝ) /
    (1 + 2 * ME * SQRTE * B * Z ^ (-1 / 3 : ℝ) * (1 + ξ) * (1 + Y) / (E * v * (1 - ρ ^ 2))))

/-- The cross section per fraction `v` of the energy and asymmetry `ρ` of the pair, for one atom. -/
noncomputable def Spec.pairDouble (ζ m z Z B E v ρ : ℝ) : ℝ :=
  let ξ := (m * v / (2 * ME)) ^ 2 * (1 - ρ ^ 2) / (1 - v)
  let β := v ^ 2 / (2 * (1 - v))
  let Ye := (5 - ρ ^ 2 + 4 * β * (1 + ρ ^ 2)) / (2 * (1 + 3 * β) * Real.log (3 + 1 / ξ) - ρ ^ 2 - 2 * β * (2 - ρ ^ 2))
  let Ymu := (4 + ρ ^ 2 + 3 * β * (1 + ρ ^ 2)) / ((1 + ρ ^ 2) * (3 / 2 + 2 * β) * Real.log (3 + ξ) + 1 - 3 / 2 * ρ ^ 2)
  let Φe := (((2 + ρ ^ 2) * (1 + β) + ξ * (3 + ρ ^ 2)) * Real.log (1 + 1 / ξ) + (1 - ρ ^ 2 - β) / (1 + ξ) - (3 + ρ ^ 2)) *
    max (Spec.pairLe m Z B E v ρ ξ Ye) 0
  let Φmu := (((1 + ρ ^ 2) * (1 + 3 / 2 * β) - 1 / ξ * (1 + 2 * β) * (1 - ρ ^ 2)) * Real.log (1 + ξ) +
    ξ * (1 - ρ ^ 2 - β) / (1 + ξ) + (1 + 2 * β) * (1 - ρ ^ 2)) * max (Spec.pairLmu m Z B E v ρ ξ Ymu) 0
  2 / (3 * Real.pi) * Z * (Z + ζ) * (ALPHA * RE * z) ^ 2 * ((1 - v) / v) * (Φe + (z * ME / m) ^ 2 * Φmu)

/-- An atom. -/
structure Spec.PairAtom (c : Component) : Prop where
  charge : 1 ≤ c.nucCharge
  charge' : c.nucCharge ≤ 118
  number : 1 ≤ c.atomicNum
  number' : c.atomicNum ≤ 300
  log : 100 ≤ c.logConstant

lemma cbrt_sq {Z : ℝ} (h : 0 < Z) : 1 / (Z ^ (-1 / 3 : ℝ) * Z ^ (-1 / 3 : ℝ)) = Z ^ (2 / 3 : ℝ) ∧ 1 / Z ^ (-1 / 3 : ℝ) = Z ^ (1 / 3 : ℝ) ∧
    Z ^ (-1 / 3 : ℝ) * Z ^ (-1 / 3 : ℝ) = Z ^ (-2 / 3 : ℝ) := by
  refine ⟨?_, ?_, ?_⟩
  · rw [← Real.rpow_add h, one_div, ← Real.rpow_neg h.le]
    norm_num
  · rw [one_div, ← Real.rpow_neg h.le]
    norm_num
  · rw [← Real.rpow_add h]
    norm_num

open Classical in
/-- C128: the two parametrizations use the same contribution of atomic electrons, that of the literature. -/
theorem C128_zeta (m : ℝ) (c : Component) (E : ℝ) (hc : 0 < c.nucCharge) :
    kelnerZeta m c E = Spec.pairZeta (if c.nucCharge = 1 then 4.4e-5 else 1.95e-5) (if c.nucCharge = 1 then 4.8e-5 else 5.3e-5) m c.nucCharge E ∧
    sandrockZeta m c E = kelnerZeta m c E := by
  obtain ⟨e1, e2, _⟩ := cbrt_sq hc
  have k : ∀ a b : ℝ, max 0 a / max 0 b = if a > 0 ∧ b > 0 then a / b else 0 := by
    intro a b
    by_cases ha : a > 0
    · by_cases hb : b > 0
      · rw [if_pos ⟨ha, hb⟩, max_eq_right ha.le, max_eq_right hb.le]
      · rw [if_neg (fun h => hb h.2), max_eq_left (not_lt.mp hb), div_zero]
    · rw [if_neg (fun h => ha h.1), max_eq_left (not_lt.mp ha), zero_div]
  constructor
  · unfold kelnerZeta Spec.pairZeta
    simp only
    rw [k]
    have a1 : ∀ g : ℝ, g * (E / m) / (c.nucCharge ^ (-1 / 3 : ℝ) * c.nucCharge ^ (-1 / 3 : ℝ)) = g * c.nucCharge ^ (2 / 3 : ℝ) * (E / m) := by
      intro g
      rw [← e1]
      ring
    have a2 : ∀ g : ℝ, g * (E / m) / c.nucCharge ^ (-1 / 3 : ℝ) = g * c.nucCharge ^ (1 / 3 : ℝ) * (E / m) := by
      intro g
      rw [← e2]
      ring
    rw [a1, a2]
  · unfold kelnerZeta sandrockZeta
    simp only
    have a1 : ∀ g : ℝ, g * (E / m) / (c.nucCharge ^ (-1 / 3 : ℝ) * c.nucCharge ^ (-1 / 3 : ℝ)) = g * c.nucCharge ^ (2 / 3 : ℝ) * E / m := by
      intro g
      rw [← e1]
      ring
    have a2 : ∀ g : ℝ, g * (E / m) / c.nucCharge ^ (-1 / 3 : ℝ) = g / c.nucCharge ^ (-1 / 3 : ℝ) * E / m := by
      intro g
      ring
    rw [a1, a2]

lemma one_le_cbrt {Z : ℝ} (h : 1 ≤ Z) : 1 ≤ Z ^ (1 / 3 : ℝ) ∧ Z ^ (2 / 3 : ℝ) = Z ^ (1 / 3 : ℝ) * Z ^ (1 / 3 : ℝ) := by
  constructor
  · exact Real.one_le_rpow h (by norm_num)
  · rw [← Real.rpow_add (by linarith)]
    norm_num

/-- C128: the atomic electrons contribute at most 73/58, and nothing below 35 masses. -/
theorem C128_electrons (m : ℝ) (c : Component) (E : ℝ) (hc : 1 ≤ c.nucCharge) (hm : 0 < m) (hE : 0 < E) :
    0 ≤ kelnerZeta m c E ∧ kelnerZeta m c E ≤ 73 / 58 ∧ (E ≤ 35 * m → kelnerZeta m c E = 0) := by
  obtain ⟨h1, h2⟩ := one_le_cbrt hc
  obtain ⟨e1, e2, _⟩ := cbrt_sq (by linarith : 0 < c.nucCharge)
  have hγ : 0 < E / m := by positivity
  unfold kelnerZeta
  simp only
  set g1 : ℝ := if c.nucCharge = 1 then 4.4e-5 else 1.95e-5 with hg1
  set g2 : ℝ := if c.nucCharge = 1 then 4.8e-5 else 5.3e-5 with hg2
  have g : 0 < g1 ∧ 0 < g2 ∧ g2 ≤ 2.72 * g1 := by
    rw [hg1, hg2]
    by_cases h : c.nucCharge = 1
    · rw [if_pos h, if_pos h]
      norm_num
    · rw [if_neg h, if_neg h]
      norm_num
  obtain ⟨p1, p2, p3⟩ := g
  have a1 : g1 * (E / m) / (c.nucCharge ^ (-1 / 3 : ℝ) * c.nucCharge ^ (-1 / 3 : ℝ)) = g1 * (E / m) * (c.nucCharge ^ (1 / 3 : ℝ) * c.nucCharge ^ (1 / 3 : ℝ)) := by
    rw [← h2, ← e1]
    ring
  have a2 : g2 * (E / m) / c.nucCharge ^ (-1 / 3 : ℝ) = g2 * (E / m) * c.nucCharge ^ (1 / 3 : ℝ) := by
    rw [← e2]
    ring
  rw [a1, a2]
  set γ := E / m
  set t := c.nucCharge ^ (1 / 3 : ℝ)
  have q1 : 0 < 1 + g1 * γ * (t * t) := by positivity
  have q2 : 0 < 1 + g2 * γ * t := by positivity
  have hab : Real.log (γ / (1 + g1 * γ * (t * t))) - 1.001 ≤ Real.log (γ / (1 + g2 * γ * t)) := by
    have le : 1 + g2 * γ * t ≤ 2.72 * (1 + g1 * γ * (t * t)) := by
      have : g2 * (γ * t) ≤ 2.72 * g1 * (γ * t) := by gcongr
      have : g1 * (γ * t) * 1 ≤ g1 * (γ * t) * t := by gcongr
      nlinarith
    have h3 : Real.log (2.72 : ℝ) ≤ 1.001 := by
      rw [Real.log_le_iff_le_exp (by norm_num), show (1.001 : ℝ) = 1 + 0.001 by norm_num, Real.exp_add]
      have a := Real.exp_one_gt_d9
      have b := Real.add_one_le_exp (0.001 : ℝ)
      nlinarith
    rw [Real.log_div hγ.ne' q1.ne', Real.log_div hγ.ne' q2.ne']
    have := Real.log_le_log q2 le
    rw [Real.log_mul (by norm_num) q1.ne'] at this
    linarith
  set a := Real.log (γ / (1 + g1 * γ * (t * t))) with ha
  set b := Real.log (γ / (1 + g2 * γ * t))
  refine ⟨?_, ?_, ?_⟩
  · by_cases h : 0.073 * a - 0.26 > 0 ∧ 0.058 * b - 0.14 > 0
    · rw [if_pos h]
      exact (div_pos h.1 h.2).le
    · rw [if_neg h]
  · by_cases h : 0.073 * a - 0.26 > 0 ∧ 0.058 * b - 0.14 > 0
    · rw [if_pos h, div_le_iff₀ h.2]
      linarith
    · rw [if_neg h]
      norm_num
  · intro hlow
    rw [if_neg]
    rintro ⟨h, -⟩
    have : a ≤ Real.log 35 := by
      apply Real.log_le_log (by positivity)
      rw [div_le_iff₀ q1]
      have : γ ≤ 35 := by
        rw [div_le_iff₀ hm]
        exact hlow
      have : 0 < g1 * γ * (t * t) := by positivity
      linarith
    have h35 : Real.log (35 : ℝ) ≤ 3.56 := by
      exact (log_by_power (x := 35) (lo := 3) (hi := 3.56) 9 32 (by norm_num) (by norm_num) (by norm_num) (by norm_num)).2
    linarith

/-! ## The integrand -/

lemma pair_beta {v : ℝ} (h1 : v < 1) : 0 ≤ epairBeta v := by
  unfold epairBeta
  have : 0 < 1 - v := by linarith
  have : 0 ≤ v * v := mul_self_nonneg v
  positivity

lemma pair_xi {m v r2 : ℝ} (hm : 0 < m) (h0 : 0 < v) (h1 : v < 1) (hr : r2 < 1) : 0 < epairXi m v r2 := by
  unfold epairXi
  have : 0 < 1 - v := by linarith
  have : 0 < 1 - r2 := by linarith
  have := me_pos'
  simp only
  positivity

lemma phiE_nonneg {ξ β r2 : ℝ} (L : ℝ) (hξ : 0 < ξ) (hβ : 0 ≤ β) (h0 : 0 ≤ r2) (h1 : r2 ≤ 1) : 0 ≤ kelnerPhiE ξ β r2 L := by
  unfold kelnerPhiE
  by_cases h : L > 0
  · rw [if_pos h]
    by_cases h' : 1 / ξ < HALF_PRECISION
    · rw [if_pos h']
      have : 0 ≤ 1.5 - r2 / 2 + β * (1 + r2) := by nlinarith
      positivity
    · rw [if_neg h']
      have := C128_phiE ξ β r2 hξ hβ h0 h1
      have : 0 < 1 / (1 + ξ) := by positivity
      have : 0 < epairPhiE ξ β r2 := by linarith
      positivity
  · rw [if_neg h]

open Classical in
lemma ite_max (L a : ℝ) : (if L > 0 then a * L else 0) = a * max L 0 := by
  by_cases h : L > 0
  · rw [if_pos h, max_eq_left h.le]
  · rw [if_neg h, max_eq_right (not_lt.mp h), mul_zero]

/-- The two diagrams as the code adds them. -/
noncomputable def Spec.pairCore (m z : ℝ) (c : Component) (E v r2 : ℝ) : ℝ :=
  kelnerPhiE (epairXi m v r2) (epairBeta v) r2 (kelnerLe m c E v r2 (epairXi m v r2) (kelnerYe (epairXi m v r2) (epairBeta v) r2)) +
    ME / m * z * (ME / m * z) * (epairPhiMu (epairXi m v r2) (epairBeta v) r2 *
      max (kelnerLmu m c E v r2 (epairXi m v r2) (kelnerYmu (epairXi m v r2) (epairBeta v) r2)) 0)

lemma core_nonneg (m z : ℝ) (c : Component) (E v r2 : ℝ) (hm : 0 < m) (h0 : 0 < v) (h1 : v < 1) (hr : 0 ≤ r2) (hr' : r2 < 1) : 0 ≤ Spec.pairCore m z c E v r2 := by
  have hξ := pair_xi hm h0 h1 hr'
  have hβ := pair_beta h1
  unfold Spec.pairCore
  have a := phiE_nonneg (kelnerLe m c E v r2 (epairXi m v r2) (kelnerYe (epairXi m v r2) (epairBeta v) r2)) hξ hβ hr hr'.le
  have b := (C128_phiMu _ _ _ hξ hβ hr hr'.le).2
  have d : 0 ≤ max (kelnerLmu m c E v r2 (epairXi m v r2) (kelnerYmu (epairXi m v r2) (epairBeta v) r2)) 0 := le_max_right _ _
  have := mul_nonneg (mul_self_nonneg (ME / m * z)) (mul_nonneg b.le d)
  linarith

/-- C128: without the suppression the last test of the code never acts. -/
theorem C128_kelner_value (m z : ℝ) (c : Component) (E v ρ : ℝ) (hc : 1 ≤ c.nucCharge) (hm : 0 < m) (hE : 0 < E) (h0 : 0 < v) (h1 : v < 1) (hρ : ρ ^ 2 < 1) :
    epairKelner none m z c E v (1 - ρ) = 4 / (3 * Real.pi) * (ALPHA * RE * z) ^ 2 * c.nucCharge * (c.nucCharge + kelnerZeta m c E) * ((1 - v) / v) *
      Spec.pairCore m z c E v (ρ ^ 2) := by
  have hz := (C128_electrons m c E hc hm hE).1
  have hcore := core_nonneg m z c E v (ρ ^ 2) hm h0 h1 (sq_nonneg ρ) hρ
  have hpi := Real.pi_pos
  have hv : 0 < 1 - v := by linarith
  have hnn : 0 ≤ 4 / (3 * Real.pi) * (ALPHA * RE * z) ^ 2 * c.nucCharge * (c.nucCharge + kelnerZeta m c E) * ((1 - v) / v) *
      Spec.pairCore m z c E v (ρ ^ 2) := by
    have : 0 < c.nucCharge := by linarith
    positivity
  have hr : (1 - (1 - ρ)) * (1 - (1 - ρ)) = ρ ^ 2 := by ring
  have hform : ALPHA * RE * z * (ALPHA * RE * z / (1.5 * Real.pi) * 2 * c.nucCharge * (c.nucCharge + kelnerZeta m c E)) * ((1 - v) / v * Spec.pairCore m z c E v (ρ ^ 2)) =
      4 / (3 * Real.pi) * (ALPHA * RE * z) ^ 2 * c.nucCharge * (c.nucCharge + kelnerZeta m c E) * ((1 - v) / v) *
      Spec.pairCore m z c E v (ρ ^ 2) := by
    rw [show (1.5 : ℝ) = 3 / 2 by norm_num]
    field_simp
    ring
  unfold epairKelner
  simp only [hr, epairApply]
  rw [ite_max]
  have : Spec.pairCore m z c E v (ρ ^ 2) = kelnerPhiE (epairXi m v (ρ ^ 2)) (epairBeta v) (ρ ^ 2) (kelnerLe m c E v (ρ ^ 2) (epairXi m v (ρ ^ 2)) (kelnerYe (epairXi m v (ρ ^ 2)) (epairBeta v) (ρ ^ 2))) +
    ME / m * z * (ME / m * z) * (epairPhiMu (epairXi m v (ρ ^ 2)) (epairBeta v) (ρ ^ 2) *
      max (kelnerLmu m c E v (ρ ^ 2) (epairXi m v (ρ ^ 2)) (kelnerYmu (epairXi m v (ρ ^ 2)) (epairBeta v) (ρ ^ 2))) 0) := rfl
  rw [← this, hform, if_neg (not_lt.mpr hnn)]

lemma pair_parts (m : ℝ) (c : Component) (E v ρ ξ Y : ℝ) (hc : 1 ≤ c.nucCharge) (hm : 0 < m) :
    kelnerLe m c E v (ρ ^ 2) ξ Y = Spec.pairLe m c.nucCharge c.logConstant E v ρ ξ Y ∧
    kelnerLmu m c E v (ρ ^ 2) ξ Y = Spec.pairLmu m c.nucCharge c.logConstant E v ρ ξ Y := by
  obtain ⟨e1, e2, e3⟩ := cbrt_sq (by linarith : 0 < c.nucCharge)
  have hz : c.nucCharge ^ (-1 / 3 : ℝ) ≠ 0 := (Real.rpow_pos_of_pos (by linarith) _).ne'
  have hme := me_pos'
  unfold kelnerLe kelnerLmu Spec.pairLe Spec.pairLmu
  simp only
  rw [← e2, ← e3]
  set Z3 := c.nucCharge ^ (-1 / 3 : ℝ)
  constructor
  · congr 2
    · congr 2
      ring
    · norm_num
    · congr 2
      field_simp
      norm_num
      try ring
  · congr 2
    · field_simp
      norm_num
      try ring
    · ring

/-- The double differential cross section with the functions of the code. -/
lemma pair_spec (m z : ℝ) (c : Component) (E v ρ : ℝ) (hc : 1 ≤ c.nucCharge) (hm : 0 < m) :
    2 * Spec.pairDouble (kelnerZeta m c E) m z c.nucCharge c.logConstant E v ρ =
      4 / (3 * Real.pi) * (ALPHA * RE * z) ^ 2 * c.nucCharge * (c.nucCharge + kelnerZeta m c E) * ((1 - v) / v) *
      (epairPhiE (epairXi m v (ρ ^ 2)) (epairBeta v) (ρ ^ 2) *
          max (kelnerLe m c E v (ρ ^ 2) (epairXi m v (ρ ^ 2)) (kelnerYe (epairXi m v (ρ ^ 2)) (epairBeta v) (ρ ^ 2))) 0 +
        ME / m * z * (ME / m * z) * (epairPhiMu (epairXi m v (ρ ^ 2)) (epairBeta v) (ρ ^ 2) *
          max (kelnerLmu m c E v (ρ ^ 2) (epairXi m v (ρ ^ 2)) (kelnerYmu (epairXi m v (ρ ^ 2)) (epairBeta v) (ρ ^ 2))) 0)) := by
  have eξ : (m * v / (2 * ME)) ^ 2 * (1 - ρ ^ 2) / (1 - v) = epairXi m v (ρ ^ 2) := by
    unfold epairXi
    ring
  have eβ : v ^ 2 / (2 * (1 - v)) = epairBeta v := by
    unfold epairBeta
    ring
  set ξ := epairXi m v (ρ ^ 2)
  set β := epairBeta v
  unfold Spec.pairDouble
  simp only
  rw [eξ, eβ, (pair_parts m c E v ρ ξ _ hc hm).1, (pair_parts m c E v ρ ξ _ hc hm).2]
  have y1 : (5 - ρ ^ 2 + 4 * β * (1 + ρ ^ 2)) / (2 * (1 + 3 * β) * Real.log (3 + 1 / ξ) - ρ ^ 2 - 2 * β * (2 - ρ ^ 2)) = kelnerYe ξ β (ρ ^ 2) := rfl
  have y2 : (4 + ρ ^ 2 + 3 * β * (1 + ρ ^ 2)) / ((1 + ρ ^ 2) * (3 / 2 + 2 * β) * Real.log (3 + ξ) + 1 - 3 / 2 * ρ ^ 2) = kelnerYmu ξ β (ρ ^ 2) := by
    unfold kelnerYmu
    norm_num
  have y3 : ((1 + ρ ^ 2) * (1 + 3 / 2 * β) - 1 / ξ * (1 + 2 * β) * (1 - ρ ^ 2)) * Real.log (1 + ξ) +
      ξ * (1 - ρ ^ 2 - β) / (1 + ξ) + (1 + 2 * β) * (1 - ρ ^ 2) = epairPhiMu ξ β (ρ ^ 2) := by
    unfold epairPhiMu
    rw [show (1.5 : ℝ) = 3 / 2 by norm_num]
    ring
  have y4 : ((2 + ρ ^ 2) * (1 + β) + ξ * (3 + ρ ^ 2)) * Real.log (1 + 1 / ξ) + (1 - ρ ^ 2 - β) / (1 + ξ) - (3 + ρ ^ 2) = epairPhiE ξ β (ρ ^ 2) := rfl
  rw [y1, y2, y3, y4]
  ring

/-- C128: the integrand is twice the double differential cross section of the literature, exactly if `ξ` is at most 100000 and up to
five parts in 100000 otherwise. -/
theorem C128_formula (m z : ℝ) (c : Component) (E v ρ : ℝ) (hc : 1 ≤ c.nucCharge) (hm : 0 < m) (hE : 0 < E) (h0 : 0 < v) (h1 : v < 1) (hρ : ρ ^ 2 < 1) :
    |epairKelner none m z c E v (1 - ρ) - 2 * Spec.pairDouble (kelnerZeta m c E) m z c.nucCharge c.logConstant E v ρ| ≤
      5e-5 * epairKelner none m z c E v (1 - ρ) ∧
    ((m * v / (2 * ME)) ^ 2 * (1 - ρ ^ 2) / (1 - v) ≤ 100000 →
      epairKelner none m z c E v (1 - ρ) = 2 * Spec.pairDouble (kelnerZeta m c E) m z c.nucCharge c.logConstant E v ρ) := by
  rw [C128_kelner_value m z c E v ρ hc hm hE h0 h1 hρ]
  have hξ := pair_xi hm h0 h1 hρ
  have hβ := pair_beta h1
  have hr := sq_nonneg ρ
  have eξ : (m * v / (2 * ME)) ^ 2 * (1 - ρ ^ 2) / (1 - v) = epairXi m v (ρ ^ 2) := by
    unfold epairXi
    ring
  have eβ : v ^ 2 / (2 * (1 - v)) = epairBeta v := by
    unfold epairBeta
    ring
  have hz := (C128_electrons m c E hc hm hE).1
  have hv : 0 < 1 - v := by linarith
  have hpi := Real.pi_pos
  set K := 4 / (3 * Real.pi) * (ALPHA * RE * z) ^ 2 * c.nucCharge * (c.nucCharge + kelnerZeta m c E) * ((1 - v) / v) with hK
  have hK0 : 0 ≤ K := by
    have : 0 < c.nucCharge := by linarith
    positivity
  set ξ := epairXi m v (ρ ^ 2)
  set β := epairBeta v
  have spec := pair_spec m z c E v ρ hc hm
  rw [← hK] at spec
  rw [spec]
  clear_value K
  unfold Spec.pairCore
  set Le := kelnerLe m c E v (ρ ^ 2) ξ (kelnerYe ξ β (ρ ^ 2))
  set Mu := ME / m * z * (ME / m * z) * (epairPhiMu ξ β (ρ ^ 2) * max (kelnerLmu m c E v (ρ ^ 2) ξ (kelnerYmu ξ β (ρ ^ 2))) 0) with hMu
  have hMu0 : 0 ≤ Mu := mul_nonneg (mul_self_nonneg _) (mul_nonneg (C128_phiMu _ _ _ hξ hβ hr hρ.le).2.le (le_max_right _ _))
  by_cases hs : 1 / ξ < HALF_PRECISION
  · refine ⟨?_, ?_⟩
    · have hshort := C128_short ξ β (ρ ^ 2) hξ hs hβ hr hρ.le
      have hphi : kelnerPhiE ξ β (ρ ^ 2) Le = (1.5 - ρ ^ 2 / 2 + β * (1 + ρ ^ 2)) / ξ * max Le 0 := by
        unfold kelnerPhiE
        rw [if_pos hs, ite_max]
      rw [hphi]
      set S := (1.5 - ρ ^ 2 / 2 + β * (1 + ρ ^ 2)) / ξ
      have hm0 : 0 ≤ max Le 0 := le_max_right _ _
      rw [← mul_sub, show S * max Le 0 + Mu - (epairPhiE ξ β (ρ ^ 2) * max Le 0 + Mu) = (S - epairPhiE ξ β (ρ ^ 2)) * max Le 0 by ring,
        abs_mul, abs_mul, abs_of_nonneg hK0, abs_of_nonneg hm0]
      have : |S - epairPhiE ξ β (ρ ^ 2)| * max Le 0 ≤ 5e-5 * S * max Le 0 := by gcongr
      have : K * (|S - epairPhiE ξ β (ρ ^ 2)| * max Le 0) ≤ K * (5e-5 * S * max Le 0) := by gcongr
      have := mul_nonneg hK0 hMu0
      linarith
    · intro h
      rw [eξ] at h
      exfalso
      unfold HALF_PRECISION at hs
      rw [div_lt_iff₀ hξ] at hs
      linarith
  · have hphi : kelnerPhiE ξ β (ρ ^ 2) Le = epairPhiE ξ β (ρ ^ 2) * max Le 0 := by
      unfold kelnerPhiE
      rw [if_neg hs, ite_max]
    rw [hphi]
    refine ⟨?_, fun _ => rfl⟩
    rw [sub_self, abs_zero]
    have : 0 ≤ epairPhiE ξ β (ρ ^ 2) * max Le 0 := by
      have := C128_phiE ξ β (ρ ^ 2) hξ hβ hr hρ.le
      have : 0 < 1 / (1 + ξ) := by positivity
      have : 0 ≤ epairPhiE ξ β (ρ ^ 2) := by linarith
      exact mul_nonneg this (le_max_right _ _)
    positivity

end Proposal
