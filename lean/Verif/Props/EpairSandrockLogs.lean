import Verif.Props.EpairSandrock

/-!
# C128: the logarithms of Sandrock, Soedingrekso and Rhode, and high energies
-/

open Set Filter Topology MeasureTheory

namespace Proposal

/-- The logarithm of the electron diagram for one of the two terms, before it was rewritten for the computer. `D` is the correction
`Δ/B`, `dn` the factor of the size of the nucleus. -/
noncomputable def Spec.ssrLe (k1 k2 k3 m Z A B E v ρ2 ξ D : ℝ) : ℝ :=
  Real.log (B * Z ^ (-1 / 3 : ℝ) * k1 * Real.sqrt (1 + ξ) /
      (Real.exp (-D) + 2 * ME * k2 * B * Z ^ (-1 / 3 : ℝ) * (1 + ξ) / (E * v * (1 - ρ2)))) -
    D - 1 / 2 * Real.log (Real.exp (-D) + (ME / m * (1.54 * A ^ (0.27 : ℝ))) ^ 2 * k3 * (1 + ξ))

/-- The same of the diagram of the particle. -/
noncomputable def Spec.ssrLm (k m Z A B E v ρ2 ξ D : ℝ) : ℝ :=
  Real.log (Real.exp (-D) * (m / ME) * B * Z ^ (-1 / 3 : ℝ) / (1.54 * A ^ (0.27 : ℝ)) /
    (Real.exp (-D) + 2 * ME * k * B * Z ^ (-1 / 3 : ℝ) * (1 + ξ) / (E * v * (1 - ρ2))))

lemma ssr_rewrite {N g d D : ℝ} (hN : 0 < N) (hg : 0 ≤ g) (hd : 0 ≤ d) :
    Real.log (N / (1 + Real.exp D * g)) - 0.5 * D - 0.5 * Real.log (1 + Real.exp D * d) =
      Real.log (N / (Real.exp (-D) + g)) - D - 1 / 2 * Real.log (Real.exp (-D) + d) - D := by
  have hX := Real.exp_pos (-D)
  have hX' := Real.exp_pos D
  have hp : Real.exp D * Real.exp (-D) = 1 := by rw [← Real.exp_add]; simp
  have e1 : 1 + Real.exp D * g = Real.exp D * (Real.exp (-D) + g) := by rw [mul_add, hp]
  have e2 : 1 + Real.exp D * d = Real.exp D * (Real.exp (-D) + d) := by rw [mul_add, hp]
  have p1 : 0 < Real.exp (-D) + g := by linarith
  have p2 : 0 < Real.exp (-D) + d := by linarith
  rw [e1, e2, Real.log_mul hX'.ne' p2.ne', Real.log_div hN.ne' (mul_pos hX' p1).ne', Real.log_div hN.ne' p1.ne',
    Real.log_mul hX'.ne' p1.ne', Real.log_exp]
  ring

/-- C128: the two branches of the logarithm of the particle are the same function; those of the electron differ by `D`: where the
correction is negative the code adds its size, because it subtracts `0.5 D` instead of adding it. -/
theorem C128_branches (k1 k2 k3 m : ℝ) (c : Component) (E v r2 ξ D : ℝ) (hc : Spec.PairAtom c) (hm : 0 < m) (hE : 0 < E) (h0 : 0 < v) (hr : r2 < 1) (hξ : 0 < ξ)
    (h1 : 0 < k1) (h2 : 0 < k2) (h3 : 0 < k3) :
    (0 < D → sandrockLe k1 k2 k3 m c E v r2 ξ D = Spec.ssrLe k1 k2 k3 m c.nucCharge c.atomicNum c.logConstant E v r2 ξ D) ∧
    (D ≤ 0 → sandrockLe k1 k2 k3 m c E v r2 ξ D = Spec.ssrLe k1 k2 k3 m c.nucCharge c.atomicNum c.logConstant E v r2 ξ D - D) ∧
    sandrockLm k2 m c E v r2 ξ D = Spec.ssrLm k2 m c.nucCharge c.atomicNum c.logConstant E v r2 ξ D := by
  have hme := me_pos'
  have hZ : 0 < c.nucCharge ^ (-1 / 3 : ℝ) := Real.rpow_pos_of_pos (by linarith [hc.charge]) _
  have hA : 0 < c.atomicNum ^ (0.27 : ℝ) := Real.rpow_pos_of_pos (by linarith [hc.number]) _
  have hB : 0 < c.logConstant := by linarith [hc.log]
  have hr' : 0 < 1 - r2 := by linarith
  unfold sandrockLe sandrockLm Spec.ssrLe Spec.ssrLm
  simp only
  set Z3 := c.nucCharge ^ (-1 / 3 : ℝ)
  set A3 := c.atomicNum ^ (0.27 : ℝ)
  set B := c.logConstant
  refine ⟨fun h => ?_, fun h => ?_, ?_⟩
  · rw [if_pos h]
    norm_num
  · rw [if_neg (not_lt.mpr h)]
    have hs : 0 < Real.sqrt (1 + ξ) := Real.sqrt_pos.mpr (by linarith)
    have := ssr_rewrite (N := B * Z3 * k1 * Real.sqrt (1 + ξ)) (g := 2 * ME * k2 * B * Z3 * (1 + ξ) / (E * v * (1 - r2)))
      (d := (ME / m * (1.54 * A3)) ^ 2 * k3 * (1 + ξ)) (D := D) (by positivity) (by positivity) (by positivity)
    rw [← this]
    congr 4
    · ring
    · ring
  · by_cases h : D > 0
    · rw [if_pos h]
      congr 2
      ring
    · rw [if_neg h]
      have hX := Real.exp_pos (-D)
      have hp : Real.exp D * Real.exp (-D) = 1 := by rw [← Real.exp_add]; simp
      have hg : 0 < 2 * ME * k2 * B * Z3 * (1 + ξ) / (E * v * (1 - r2)) := by positivity
      set g := 2 * ME * k2 * B * Z3 * (1 + ξ) / (E * v * (1 - r2))
      have e1 : Real.exp (-D) + g = Real.exp (-D) * (1 + g * Real.exp D) := by
        linear_combination -g * hp
      rw [e1]
      congr 1
      have hp1 : 0 < 1 + g * Real.exp D := by positivity
      field_simp

lemma log_shift {X a s : ℝ} (hX : 0 < X) (ha : 0 ≤ a) (hs : 0 ≤ s) :
    0 ≤ Real.log (X + a * Real.exp s) - Real.log (X + a) ∧ Real.log (X + a * Real.exp s) - Real.log (X + a) ≤ s := by
  have he := Real.one_le_exp hs
  have h1 : X + a ≤ X + a * Real.exp s := by nlinarith
  have h2 : X + a * Real.exp s ≤ (X + a) * Real.exp s := by nlinarith
  have p : 0 < X + a := by linarith
  constructor
  · linarith [Real.log_le_log p h1]
  · have := Real.log_le_log (by linarith) h2
    rw [Real.log_mul p.ne' (Real.exp_pos s).ne', Real.log_exp] at this
    linarith

/-- C128: the two logarithms of a diagram differ by at most 1/6. -/
theorem C128_two_logs (m : ℝ) (c : Component) (E v r2 ξ D : ℝ) (hc : Spec.PairAtom c) (hm : 0 < m) (hE : 0 < E) (h0 : 0 < v) (hr : r2 < 1) (hξ : 0 < ξ) :
    |sandrockLe (Real.exp (-1 / 6)) (Real.exp (1 / 3)) (Real.exp (-1 / 3)) m c E v r2 ξ D - sandrockLe 1 (Real.exp 0.5) 1 m c E v r2 ξ D| ≤ 1 / 6 ∧
    0 ≤ sandrockLm (Real.exp (1 / 3)) m c E v r2 ξ D - sandrockLm (Real.exp 0.5) m c E v r2 ξ D ∧
    sandrockLm (Real.exp (1 / 3)) m c E v r2 ξ D - sandrockLm (Real.exp 0.5) m c E v r2 ξ D ≤ 1 / 6 := by
  have hme := me_pos'
  have hZ : 0 < c.nucCharge ^ (-1 / 3 : ℝ) := Real.rpow_pos_of_pos (by linarith [hc.charge]) _
  have hA : 0 < c.atomicNum ^ (0.27 : ℝ) := Real.rpow_pos_of_pos (by linarith [hc.number]) _
  have hB : 0 < c.logConstant := by linarith [hc.log]
  have hr' : 0 < 1 - r2 := by linarith
  obtain ⟨p1, p2, p3⟩ := C128_branches (Real.exp (-1 / 6)) (Real.exp (1 / 3)) (Real.exp (-1 / 3)) m c E v r2 ξ D hc hm hE h0 hr hξ (Real.exp_pos _) (Real.exp_pos _) (Real.exp_pos _)
  obtain ⟨q1, q2, q3⟩ := C128_branches 1 (Real.exp 0.5) 1 m c E v r2 ξ D hc hm hE h0 hr hξ one_pos (Real.exp_pos _) one_pos
  have hX := Real.exp_pos (-D)
  have hs : 0 < Real.sqrt (1 + ξ) := Real.sqrt_pos.mpr (by linarith)
  have hsplit : Real.exp 0.5 = Real.exp (1 / 3) * Real.exp (1 / 6) := by
    rw [← Real.exp_add]
    norm_num
  have hsplit' : Real.exp (-1 / 3) * Real.exp (1 / 3) = 1 := by
    rw [← Real.exp_add]
    norm_num
  have hg : 0 < 2 * ME * Real.exp (1 / 3) * c.logConstant * c.nucCharge ^ (-1 / 3 : ℝ) * (1 + ξ) / (E * v * (1 - r2)) := by
    have := Real.exp_pos (1 / 3 : ℝ)
    positivity
  have hge : 2 * ME * Real.exp 0.5 * c.logConstant * c.nucCharge ^ (-1 / 3 : ℝ) * (1 + ξ) / (E * v * (1 - r2)) =
      2 * ME * Real.exp (1 / 3) * c.logConstant * c.nucCharge ^ (-1 / 3 : ℝ) * (1 + ξ) / (E * v * (1 - r2)) * Real.exp (1 / 6) := by
    rw [hsplit]
    ring
  have hd : 0 < (ME / m * (1.54 * c.atomicNum ^ (0.27 : ℝ))) ^ 2 * Real.exp (-1 / 3) * (1 + ξ) := by
    have := Real.exp_pos (-1 / 3 : ℝ)
    positivity
  have hde : (ME / m * (1.54 * c.atomicNum ^ (0.27 : ℝ))) ^ 2 * 1 * (1 + ξ) =
      (ME / m * (1.54 * c.atomicNum ^ (0.27 : ℝ))) ^ 2 * Real.exp (-1 / 3) * (1 + ξ) * Real.exp (1 / 3) := by
    linear_combination -(ME / m * (1.54 * c.atomicNum ^ (0.27 : ℝ))) ^ 2 * (1 + ξ) * hsplit'
  obtain ⟨s1, s2⟩ := log_shift hX hg.le (by norm_num : (0 : ℝ) ≤ 1 / 6)
  obtain ⟨t1, t2⟩ := log_shift hX hd.le (by norm_num : (0 : ℝ) ≤ 1 / 3)
  have hN : 0 < c.logConstant * c.nucCharge ^ (-1 / 3 : ℝ) * 1 * Real.sqrt (1 + ξ) := by positivity
  have hN' : c.logConstant * c.nucCharge ^ (-1 / 3 : ℝ) * Real.exp (-1 / 6) * Real.sqrt (1 + ξ) =
      c.logConstant * c.nucCharge ^ (-1 / 3 : ℝ) * 1 * Real.sqrt (1 + ξ) * Real.exp (-1 / 6) := by ring
  have hdiff : Spec.ssrLe (Real.exp (-1 / 6)) (Real.exp (1 / 3)) (Real.exp (-1 / 3)) m c.nucCharge c.atomicNum c.logConstant E v r2 ξ D -
      Spec.ssrLe 1 (Real.exp 0.5) 1 m c.nucCharge c.atomicNum c.logConstant E v r2 ξ D ∈ Icc (-(1 / 6) : ℝ) (1 / 6) := by
    unfold Spec.ssrLe
    rw [hge, hde, hN']
    set g := 2 * ME * Real.exp (1 / 3) * c.logConstant * c.nucCharge ^ (-1 / 3 : ℝ) * (1 + ξ) / (E * v * (1 - r2))
    set N := c.logConstant * c.nucCharge ^ (-1 / 3 : ℝ) * 1 * Real.sqrt (1 + ξ)
    set d := (ME / m * (1.54 * c.atomicNum ^ (0.27 : ℝ))) ^ 2 * Real.exp (-1 / 3) * (1 + ξ)
    have w1 : 0 < Real.exp (-D) + g := by positivity
    have w2 : 0 < Real.exp (-D) + g * Real.exp (1 / 6) := by positivity
    rw [Real.log_div (mul_pos hN (Real.exp_pos _)).ne' w1.ne', Real.log_div hN.ne' w2.ne', Real.log_mul hN.ne' (Real.exp_pos _).ne', Real.log_exp]
    constructor <;> linarith
  have hmu : Spec.ssrLm (Real.exp (1 / 3)) m c.nucCharge c.atomicNum c.logConstant E v r2 ξ D -
      Spec.ssrLm (Real.exp 0.5) m c.nucCharge c.atomicNum c.logConstant E v r2 ξ D ∈ Icc (0 : ℝ) (1 / 6) := by
    unfold Spec.ssrLm
    rw [hge]
    set g := 2 * ME * Real.exp (1 / 3) * c.logConstant * c.nucCharge ^ (-1 / 3 : ℝ) * (1 + ξ) / (E * v * (1 - r2))
    have hN : 0 < Real.exp (-D) * (m / ME) * c.logConstant * c.nucCharge ^ (-1 / 3 : ℝ) / (1.54 * c.atomicNum ^ (0.27 : ℝ)) := by positivity
    have w1 : 0 < Real.exp (-D) + g := by positivity
    have w2 : 0 < Real.exp (-D) + g * Real.exp (1 / 6) := by positivity
    rw [Real.log_div hN.ne' w1.ne', Real.log_div hN.ne' w2.ne']
    constructor <;> linarith
  refine ⟨?_, ?_⟩
  · rw [abs_le]
    rcases lt_or_ge 0 D with h | h
    · rw [p1 h, q1 h]
      exact ⟨hdiff.1, hdiff.2⟩
    · rw [p2 h, q2 h]
      have a := hdiff.1
      have b := hdiff.2
      constructor <;> linarith
  · rw [p3, q3]
    exact ⟨hmu.1, hmu.2⟩

lemma two_terms {B C L1 L2 : ℝ} (h : |C| ≤ B) (hl : |L2 - L1| ≤ 1 / 6) : |(B - C) * L1 + C * L2 - B * L1| ≤ B / 6 := by
  have e : (B - C) * L1 + C * L2 - B * L1 = C * (L2 - L1) := by ring
  rw [e, abs_mul]
  have := mul_le_mul h hl (abs_nonneg _) ((abs_nonneg _).trans h)
  linarith

/-- C128: so each diagram is its first logarithm times the coefficient of Kelner, Kokoulin and Petrukhin, up to a sixth of that
coefficient. -/
theorem C128_sandrock_near (m : ℝ) (c : Component) (E v r2 ξ β De Dm : ℝ) (hc : Spec.PairAtom c) (hm : 0 < m) (hE : 0 < E) (h0 : 0 < v) (hr0 : 0 ≤ r2) (hr : r2 < 1)
    (hξ : 0 < ξ) (hβ : 0 ≤ β) :
    |(epairPhiE ξ β r2 - sandrockCe2 ξ β r2) * sandrockLe 1 (Real.exp 0.5) 1 m c E v r2 ξ De +
        sandrockCe2 ξ β r2 * sandrockLe (Real.exp (-1 / 6)) (Real.exp (1 / 3)) (Real.exp (-1 / 3)) m c E v r2 ξ De -
        epairPhiE ξ β r2 * sandrockLe 1 (Real.exp 0.5) 1 m c E v r2 ξ De| ≤ epairPhiE ξ β r2 / 6 ∧
    |(epairPhiMu ξ β r2 - sandrockCm2 ξ β r2) * sandrockLm (Real.exp 0.5) m c E v r2 ξ Dm +
        sandrockCm2 ξ β r2 * sandrockLm (Real.exp (1 / 3)) m c E v r2 ξ Dm -
        epairPhiMu ξ β r2 * sandrockLm (Real.exp 0.5) m c E v r2 ξ Dm| ≤ epairPhiMu ξ β r2 / 6 := by
  have a := (C128_two_logs m c E v r2 ξ De hc hm hE h0 hr hξ).1
  obtain ⟨b0, b1⟩ := (C128_two_logs m c E v r2 ξ Dm hc hm hE h0 hr hξ).2
  refine ⟨two_terms (C128_ce2 ξ β r2 hξ hβ hr0 hr.le).le a, two_terms (C128_cm2 ξ β r2 hξ hβ hr0 hr.le) ?_⟩
  rw [abs_le]
  constructor <;> linarith

/-! ## High energies -/

/-- The limits of the logarithms. -/
noncomputable def Spec.ssrLeHigh (k1 k3 m Z A B ξ D : ℝ) : ℝ :=
  Real.log (B * Z ^ (-1 / 3 : ℝ) * k1 * Real.sqrt (1 + ξ)) -
    1 / 2 * Real.log (Real.exp (-D) + (ME / m * (1.54 * A ^ (0.27 : ℝ))) ^ 2 * k3 * (1 + ξ))

noncomputable def Spec.ssrLmHigh (m Z A B : ℝ) : ℝ :=
  Real.log (m / ME * B * Z ^ (-1 / 3 : ℝ) / (1.54 * A ^ (0.27 : ℝ)))

lemma ssr_limits (k1 k2 k3 m : ℝ) (c : Component) (v r2 ξ D : ℝ) (hc : Spec.PairAtom c) (hm : 0 < m) (h0 : 0 < v) (hr : r2 < 1) (hξ : 0 < ξ)
    (h1 : 0 < k1) (h2 : 0 < k2) (h3 : 0 < k3) (hD : 0 < D) :
    Tendsto (fun E => sandrockLe k1 k2 k3 m c E v r2 ξ D) atTop (𝓝 (Spec.ssrLeHigh k1 k3 m c.nucCharge c.atomicNum c.logConstant ξ D)) ∧
    Tendsto (fun E => sandrockLm k2 m c E v r2 ξ D) atTop (𝓝 (Spec.ssrLmHigh m c.nucCharge c.atomicNum c.logConstant)) := by
  have hme := me_pos'
  have hZ : 0 < c.nucCharge ^ (-1 / 3 : ℝ) := Real.rpow_pos_of_pos (by linarith [hc.charge]) _
  have hA : 0 < c.atomicNum ^ (0.27 : ℝ) := Real.rpow_pos_of_pos (by linarith [hc.number]) _
  have hB : 0 < c.logConstant := by linarith [hc.log]
  have hX := Real.exp_pos (-D)
  have hs : 0 < Real.sqrt (1 + ξ) := Real.sqrt_pos.mpr (by linarith)
  have hinv := inv_energy (k := 2 * ME * k2 * c.logConstant * c.nucCharge ^ (-1 / 3 : ℝ) * (1 + ξ)) h0 hr
  have hden := (tendsto_const_nhds (x := Real.exp (-D))).add hinv
  rw [add_zero] at hden
  have hlog : ∀ N : ℝ, 0 < N → Tendsto (fun E : ℝ => Real.log (N / (Real.exp (-D) + 2 * ME * k2 * c.logConstant * c.nucCharge ^ (-1 / 3 : ℝ) * (1 + ξ) / (E * v * (1 - r2)))))
      atTop (𝓝 (Real.log (N / Real.exp (-D)))) := fun N hN =>
    ((tendsto_const_nhds (x := N)).div hden hX.ne').log (div_pos hN hX).ne'
  constructor
  · have hN : 0 < c.logConstant * c.nucCharge ^ (-1 / 3 : ℝ) * k1 * Real.sqrt (1 + ξ) := by positivity
    have hl := ((hlog _ hN).sub_const D).sub_const (1 / 2 * Real.log (Real.exp (-D) + (ME / m * (1.54 * c.atomicNum ^ (0.27 : ℝ))) ^ 2 * k3 * (1 + ξ)))
    have e : Spec.ssrLeHigh k1 k3 m c.nucCharge c.atomicNum c.logConstant ξ D =
        Real.log (c.logConstant * c.nucCharge ^ (-1 / 3 : ℝ) * k1 * Real.sqrt (1 + ξ) / Real.exp (-D)) - D -
          1 / 2 * Real.log (Real.exp (-D) + (ME / m * (1.54 * c.atomicNum ^ (0.27 : ℝ))) ^ 2 * k3 * (1 + ξ)) := by
      unfold Spec.ssrLeHigh
      rw [Real.log_div hN.ne' hX.ne', Real.log_exp]
      ring
    rw [e]
    refine hl.congr' ?_
    filter_upwards [eventually_gt_atTop 0] with E hE
    exact ((C128_branches k1 k2 k3 m c E v r2 ξ D hc hm hE h0 hr hξ h1 h2 h3).1 hD).symm
  · have hN : 0 < Real.exp (-D) * (m / ME) * c.logConstant * c.nucCharge ^ (-1 / 3 : ℝ) / (1.54 * c.atomicNum ^ (0.27 : ℝ)) := by positivity
    have hl := hlog _ hN
    have e : Spec.ssrLmHigh m c.nucCharge c.atomicNum c.logConstant =
        Real.log (Real.exp (-D) * (m / ME) * c.logConstant * c.nucCharge ^ (-1 / 3 : ℝ) / (1.54 * c.atomicNum ^ (0.27 : ℝ)) / Real.exp (-D)) := by
      unfold Spec.ssrLmHigh
      congr 1
      field_simp
    rw [e]
    refine hl.congr' ?_
    filter_upwards [eventually_gt_atTop 0] with E hE
    exact ((C128_branches k1 k2 k3 m c E v r2 ξ D hc hm hE h0 hr hξ h1 h2 h3).2.2).symm

lemma exp_sixth : Real.exp (1 / 6) < 1.2 := by
  have h : Real.exp (1 / 6) ^ 6 = Real.exp 1 := by
    rw [← Real.exp_nat_mul]
    norm_num
  by_contra hc
  have : (1.2 : ℝ) ^ 6 ≤ Real.exp (1 / 6) ^ 6 := pow_le_pow_left₀ (by norm_num) (not_lt.mp hc) 6
  rw [h] at this
  have := Real.exp_one_lt_d9
  norm_num at *
  linarith

lemma ssr_high_pos (m : ℝ) (c : Component) (ξ D : ℝ) (hc : Spec.PairAtom c) (hm : ME ≤ m) (hξ : 0 < ξ) (hD : 0 < D) :
    1 / 6 < Spec.ssrLeHigh 1 1 m c.nucCharge c.atomicNum c.logConstant ξ D ∧ 1 / 6 < Spec.ssrLmHigh m c.nucCharge c.atomicNum c.logConstant := by
  have hme := me_pos'
  have hm0 : 0 < m := by linarith
  obtain ⟨z0, z1⟩ := pair_c0 hc
  have hB := hc.log
  have hA1 : 1 ≤ c.atomicNum ^ (0.27 : ℝ) := Real.one_le_rpow hc.number (by norm_num)
  have hA : c.atomicNum ^ (0.27 : ℝ) ≤ 7 := by
    refine (Real.rpow_le_rpow_of_exponent_le hc.number (by norm_num : (0.27 : ℝ) ≤ 1 / 3)).trans ?_
    refine (Real.rpow_le_rpow (by linarith [hc.number]) (by linarith [hc.number'] : c.atomicNum ≤ 343) (by norm_num)).trans ?_
    rw [show (343 : ℝ) = 7 ^ (3 : ℝ) by norm_num, ← Real.rpow_mul (by norm_num)]
    norm_num
  have hq : ME / m ≤ 1 := by
    rw [div_le_one hm0]
    exact hm
  have hq0 : 0 < ME / m := by positivity
  have hX : Real.exp (-D) < 1 := Real.exp_lt_one_iff.mpr (by linarith)
  have hX0 := Real.exp_pos (-D)
  have he := exp_sixth
  unfold Spec.ssrLeHigh Spec.ssrLmHigh
  set Z3 := c.nucCharge ^ (-1 / 3 : ℝ)
  set A := c.atomicNum ^ (0.27 : ℝ)
  have hBZ : 20.38 ≤ c.logConstant * Z3 := by nlinarith
  set N := c.logConstant * Z3
  have hl6 : (1 : ℝ) / 6 = Real.log (Real.exp (1 / 6)) := (Real.log_exp _).symm
  constructor
  · have hs : 0 < Real.sqrt (1 + ξ) := Real.sqrt_pos.mpr (by linarith)
    have hd : (ME / m * (1.54 * A)) ^ 2 ≤ 117 := by
      have : ME / m * (1.54 * A) ≤ 10.8 := by nlinarith
      have : 0 < ME / m * (1.54 * A) := by positivity
      nlinarith
    have hd0 : 0 ≤ (ME / m * (1.54 * A)) ^ 2 := sq_nonneg _
    set d := (ME / m * (1.54 * A)) ^ 2
    clear_value d
    have hbig : Real.exp (1 / 6) ^ 2 * (Real.exp (-D) + d * 1 * (1 + ξ)) < (N * 1 * Real.sqrt (1 + ξ)) ^ 2 := by
      have e1 : Real.exp (1 / 6) ^ 2 < 1.44 := by
        have := Real.exp_pos (1 / 6 : ℝ)
        nlinarith
      have e2 : Real.exp (-D) + d * 1 * (1 + ξ) ≤ 118 * (1 + ξ) := by nlinarith
      have e0 : 0 < Real.exp (-D) + d * 1 * (1 + ξ) := by positivity
      rw [mul_pow, Real.sq_sqrt (by linarith), mul_one]
      have e3 : (415 : ℝ) ≤ N ^ 2 := by nlinarith
      have e4 : Real.exp (1 / 6) ^ 2 * (Real.exp (-D) + d * 1 * (1 + ξ)) ≤ 1.44 * (118 * (1 + ξ)) :=
        mul_le_mul e1.le e2 e0.le (by norm_num)
      nlinarith
    have h2 := Real.log_lt_log (by positivity) hbig
    rw [Real.log_mul (by positivity) (by positivity), Real.log_pow, Real.log_pow, ← hl6] at h2
    push_cast at h2
    linarith
  · rw [hl6]
    apply Real.log_lt_log (Real.exp_pos _)
    rw [lt_div_iff₀ (by positivity)]
    have h1 : 1 ≤ m / ME := by
      rw [le_div_iff₀ hme]
      linarith
    have h2 : m / ME * c.logConstant * Z3 = m / ME * N := by
      simp only [N]
      ring
    rw [h2]
    have h3 : N ≤ m / ME * N := by nlinarith
    have h4 : Real.exp (1 / 6) * (1.54 * A) ≤ 1.2 * (1.54 * 7) := by
      apply mul_le_mul he.le _ (by positivity) (by norm_num)
      linarith
    linarith

/-- The value of the code without suppression. -/
lemma sandrock_value (m z : ℝ) (c : Component) (E v ρ : ℝ) (hc : 1 ≤ c.nucCharge) :
    epairSandrock none m z c E v (1 - ρ) =
      max 0 (4 / (3 * Real.pi) * c.nucCharge * (ALPHA * RE * z) ^ 2 * (c.nucCharge + kelnerZeta m c E) * (1 - v) / v *
        ((epairPhiE (epairXi m v (ρ ^ 2)) (epairBeta v) (ρ ^ 2) - sandrockCe2 (epairXi m v (ρ ^ 2)) (epairBeta v) (ρ ^ 2)) *
          sandrockLe 1 (Real.exp 0.5) 1 m c E v (ρ ^ 2) (epairXi m v (ρ ^ 2)) (sandrockDe (epairXi m v (ρ ^ 2)) (epairBeta v) (ρ ^ 2) / epairPhiE (epairXi m v (ρ ^ 2)) (epairBeta v) (ρ ^ 2)) +
        sandrockCe2 (epairXi m v (ρ ^ 2)) (epairBeta v) (ρ ^ 2) *
          sandrockLe (Real.exp (-1 / 6)) (Real.exp (1 / 3)) (Real.exp (-1 / 3)) m c E v (ρ ^ 2) (epairXi m v (ρ ^ 2)) (sandrockDe (epairXi m v (ρ ^ 2)) (epairBeta v) (ρ ^ 2) / epairPhiE (epairXi m v (ρ ^ 2)) (epairBeta v) (ρ ^ 2)))) +
      max 0 (4 / (3 * Real.pi) * c.nucCharge * (ALPHA * RE * z) ^ 2 * (c.nucCharge + kelnerZeta m c E) * (1 - v) / v * (ME / m * z) ^ 2 *
        ((epairPhiMu (epairXi m v (ρ ^ 2)) (epairBeta v) (ρ ^ 2) - sandrockCm2 (epairXi m v (ρ ^ 2)) (epairBeta v) (ρ ^ 2)) *
          sandrockLm (Real.exp 0.5) m c E v (ρ ^ 2) (epairXi m v (ρ ^ 2)) (sandrockDm (epairXi m v (ρ ^ 2)) (epairBeta v) (ρ ^ 2) / epairPhiMu (epairXi m v (ρ ^ 2)) (epairBeta v) (ρ ^ 2)) +
        sandrockCm2 (epairXi m v (ρ ^ 2)) (epairBeta v) (ρ ^ 2) *
          sandrockLm (Real.exp (1 / 3)) m c E v (ρ ^ 2) (epairXi m v (ρ ^ 2)) (sandrockDm (epairXi m v (ρ ^ 2)) (epairBeta v) (ρ ^ 2) / epairPhiMu (epairXi m v (ρ ^ 2)) (epairBeta v) (ρ ^ 2)))) := by
  have hr : (1 - (1 - ρ)) * (1 - (1 - ρ)) = ρ ^ 2 := by ring
  unfold epairSandrock
  simp only [hr, epairApply, (C128_zeta m c E (by linarith)).2]
  rw [if_neg]
  rw [not_lt]
  exact add_nonneg (le_max_left _ _) (le_max_left _ _)

/-- C128: the cross section of Sandrock, Soedingrekso and Rhode tends to a positive limit at high energies. -/
theorem C128_sandrock_high (m z : ℝ) (c : Component) (v ρ : ℝ) (hc : Spec.PairAtom c) (hm : ME ≤ m) (hz : z ≠ 0) (h0 : 0 < v) (h1 : v < 1) (hρ : ρ ^ 2 < 1)
    (hx : 1e-6 ≤ (m * v / (2 * ME)) ^ 2 * (1 - ρ ^ 2) / (1 - v)) (hx' : (m * v / (2 * ME)) ^ 2 * (1 - ρ ^ 2) / (1 - v) ≤ 5e6) :
    ∃ σ, 0 < σ ∧ Tendsto (fun E => epairSandrock none m z c E v (1 - ρ)) atTop (𝓝 σ) ∧
      let ξ := (m * v / (2 * ME)) ^ 2 * (1 - ρ ^ 2) / (1 - v)
      let β := v ^ 2 / (2 * (1 - v))
      let Be := epairPhiE ξ β (ρ ^ 2)
      let Bm := epairPhiMu ξ β (ρ ^ 2)
      let De := sandrockDe ξ β (ρ ^ 2) / Be
      σ = 4 / (3 * Real.pi) * c.nucCharge * (ALPHA * RE * z) ^ 2 *
        (c.nucCharge + Spec.pairZetaHigh (if c.nucCharge = 1 then 4.4e-5 else 1.95e-5) (if c.nucCharge = 1 then 4.8e-5 else 5.3e-5) c.nucCharge) * (1 - v) / v *
        ((Be - sandrockCe2 ξ β (ρ ^ 2)) * Spec.ssrLeHigh 1 1 m c.nucCharge c.atomicNum c.logConstant ξ De +
            sandrockCe2 ξ β (ρ ^ 2) * Spec.ssrLeHigh (Real.exp (-1 / 6)) (Real.exp (-1 / 3)) m c.nucCharge c.atomicNum c.logConstant ξ De +
          (ME / m * z) ^ 2 * (Bm * Spec.ssrLmHigh m c.nucCharge c.atomicNum c.logConstant)) := by
  have hxi : (m * v / (2 * ME)) ^ 2 * (1 - ρ ^ 2) / (1 - v) = epairXi m v (ρ ^ 2) := by
    unfold epairXi
    simp only
    ring
  have hbe : v ^ 2 / (2 * (1 - v)) = epairBeta v := by
    unfold epairBeta
    ring
  simp only [hxi, hbe] at hx hx' ⊢
  have hme := me_pos'
  have hal := alpha_pos'
  have hre := re_pos'
  have hpi := Real.pi_pos
  have hm0 : 0 < m := by linarith
  have hξ := pair_xi hm0 h0 h1 hρ
  have hβ := pair_beta h1
  have hr := sq_nonneg ρ
  have hv : 0 < 1 - v := by linarith
  have hZ : 0 < c.nucCharge := by linarith [hc.charge]
  set ξ := epairXi m v (ρ ^ 2) with hξd
  set β := epairBeta v with hβd
  obtain ⟨t1, t2⟩ := C128_electrons_high m c hc hm0
  have hBe : 0 < epairPhiE ξ β (ρ ^ 2) := lt_trans (by positivity) (C128_phiE ξ β (ρ ^ 2) hξ hβ hr hρ.le)
  have hBm := (C128_phiMu ξ β (ρ ^ 2) hξ hβ hr hρ.le).2
  have hDe : 0 < sandrockDe ξ β (ρ ^ 2) / epairPhiE ξ β (ρ ^ 2) := div_pos (C128_delta_e ξ β _ hξ hx' hβ hr hρ.le) hBe
  have hDm : 0 < sandrockDm ξ β (ρ ^ 2) / epairPhiMu ξ β (ρ ^ 2) := div_pos (C128_delta_mu ξ β _ hx hβ hr hρ.le) hBm
  obtain ⟨g1, -⟩ := ssr_limits 1 (Real.exp 0.5) 1 m c v (ρ ^ 2) ξ _ hc hm0 h0 hρ hξ one_pos (Real.exp_pos _) one_pos hDe
  obtain ⟨g2, -⟩ := ssr_limits (Real.exp (-1 / 6)) (Real.exp (1 / 3)) (Real.exp (-1 / 3)) m c v (ρ ^ 2) ξ _ hc hm0 h0 hρ hξ (Real.exp_pos _) (Real.exp_pos _) (Real.exp_pos _) hDe
  obtain ⟨-, g3⟩ := ssr_limits 1 (Real.exp 0.5) 1 m c v (ρ ^ 2) ξ _ hc hm0 h0 hρ hξ one_pos (Real.exp_pos _) one_pos hDm
  obtain ⟨-, g4⟩ := ssr_limits 1 (Real.exp (1 / 3)) 1 m c v (ρ ^ 2) ξ _ hc hm0 h0 hρ hξ one_pos (Real.exp_pos _) one_pos hDm
  obtain ⟨w1, w2⟩ := ssr_high_pos m c ξ _ hc hm hξ hDe
  have hnear : ∀ E : ℝ, 0 < E → _ := fun E hE => C128_two_logs m c E v (ρ ^ 2) ξ (sandrockDe ξ β (ρ ^ 2) / epairPhiE ξ β (ρ ^ 2)) hc hm0 hE h0 hρ hξ
  have hlim : |Spec.ssrLeHigh (Real.exp (-1 / 6)) (Real.exp (-1 / 3)) m c.nucCharge c.atomicNum c.logConstant ξ (sandrockDe ξ β (ρ ^ 2) / epairPhiE ξ β (ρ ^ 2)) -
      Spec.ssrLeHigh 1 1 m c.nucCharge c.atomicNum c.logConstant ξ (sandrockDe ξ β (ρ ^ 2) / epairPhiE ξ β (ρ ^ 2))| ≤ 1 / 6 := by
    refine le_of_tendsto (g2.sub g1).abs ?_
    filter_upwards [eventually_gt_atTop 0] with E hE using (hnear E hE).1
  have hsum := (abs_le.mp (two_terms (C128_ce2 ξ β (ρ ^ 2) hξ hβ hr hρ.le).le hlim)).1
  set H1 := Spec.ssrLeHigh 1 1 m c.nucCharge c.atomicNum c.logConstant ξ (sandrockDe ξ β (ρ ^ 2) / epairPhiE ξ β (ρ ^ 2))
  set H2 := Spec.ssrLeHigh (Real.exp (-1 / 6)) (Real.exp (-1 / 3)) m c.nucCharge c.atomicNum c.logConstant ξ (sandrockDe ξ β (ρ ^ 2) / epairPhiE ξ β (ρ ^ 2))
  set H3 := Spec.ssrLmHigh m c.nucCharge c.atomicNum c.logConstant
  set ζh := Spec.pairZetaHigh (if c.nucCharge = 1 then 4.4e-5 else 1.95e-5) (if c.nucCharge = 1 then 4.8e-5 else 5.3e-5) c.nucCharge
  have hpos : 0 < (epairPhiE ξ β (ρ ^ 2) - sandrockCe2 ξ β (ρ ^ 2)) * H1 + sandrockCe2 ξ β (ρ ^ 2) * H2 := by
    have : 0 < epairPhiE ξ β (ρ ^ 2) * (H1 - 1 / 6) := mul_pos hBe (by linarith)
    linarith
  have hH3 : 0 < H3 := by linarith
  have hK : 0 < 4 / (3 * Real.pi) * c.nucCharge * (ALPHA * RE * z) ^ 2 * (c.nucCharge + ζh) * (1 - v) / v := by positivity
  refine ⟨_, ?_, ?_, rfl⟩
  · have : 0 < (ME / m * z) ^ 2 * (epairPhiMu ξ β (ρ ^ 2) * H3) := by positivity
    exact mul_pos hK (by linarith)
  · have k := ((((t1.const_add c.nucCharge).const_mul (4 / (3 * Real.pi) * c.nucCharge * (ALPHA * RE * z) ^ 2)).mul_const (1 - v)).div_const v)
    have ke := (tendsto_const_nhds (x := (0 : ℝ))).max (k.mul ((g1.const_mul (epairPhiE ξ β (ρ ^ 2) - sandrockCe2 ξ β (ρ ^ 2))).add (g2.const_mul (sandrockCe2 ξ β (ρ ^ 2)))))
    have km := (tendsto_const_nhds (x := (0 : ℝ))).max ((k.mul_const ((ME / m * z) ^ 2)).mul ((g3.const_mul (epairPhiMu ξ β (ρ ^ 2) - sandrockCm2 ξ β (ρ ^ 2))).add (g4.const_mul (sandrockCm2 ξ β (ρ ^ 2)))))
    have all := ke.add km
    rw [max_eq_right (mul_pos hK hpos).le, max_eq_right] at all
    · have e : 4 / (3 * Real.pi) * c.nucCharge * (ALPHA * RE * z) ^ 2 * (c.nucCharge + ζh) * (1 - v) / v * ((epairPhiE ξ β (ρ ^ 2) - sandrockCe2 ξ β (ρ ^ 2)) * H1 + sandrockCe2 ξ β (ρ ^ 2) * H2) +
          4 / (3 * Real.pi) * c.nucCharge * (ALPHA * RE * z) ^ 2 * (c.nucCharge + ζh) * (1 - v) / v * (ME / m * z) ^ 2 * ((epairPhiMu ξ β (ρ ^ 2) - sandrockCm2 ξ β (ρ ^ 2)) * H3 + sandrockCm2 ξ β (ρ ^ 2) * H3) =
          4 / (3 * Real.pi) * c.nucCharge * (ALPHA * RE * z) ^ 2 * (c.nucCharge + ζh) * (1 - v) / v * ((epairPhiE ξ β (ρ ^ 2) - sandrockCe2 ξ β (ρ ^ 2)) * H1 + sandrockCe2 ξ β (ρ ^ 2) * H2 +
            (ME / m * z) ^ 2 * (epairPhiMu ξ β (ρ ^ 2) * H3)) := by ring
      rw [e] at all
      refine all.congr fun E => ?_
      rw [sandrock_value m z c E v ρ hc.charge]
    · have e : (epairPhiMu ξ β (ρ ^ 2) - sandrockCm2 ξ β (ρ ^ 2)) * H3 + sandrockCm2 ξ β (ρ ^ 2) * H3 = epairPhiMu ξ β (ρ ^ 2) * H3 := by ring
      rw [e]
      exact mul_nonneg (mul_nonneg hK.le (sq_nonneg _)) (mul_pos hBm hH3).le

end Proposal
