import Verif.Props.PhotoQ2Bracket
import Verif.Props.MuonPairs
import Mathlib.Analysis.Calculus.Deriv.MeanValue
import Mathlib.Analysis.Calculus.Deriv.Pow
import Mathlib.Analysis.Complex.ExponentialBounds

/-!
# C130: photonuclear interaction, structure functions
-/

namespace Proposal

/-! ## Protons and neutrons -/

/-- C130: the structure function of the neutron is between a quarter of that of the proton, its value for `x = 1`, and the full one, its
value for `x = 0`; it decreases with `x`. -/
theorem C130_neutron (x : ℝ) (h0 : 0 ≤ x) (h1 : x ≤ 1) :
    1 / 4 ≤ protonNeutron x ∧ protonNeutron x ≤ 1 ∧ (∀ y, x ≤ y → y ≤ 1 → protonNeutron y ≤ protonNeutron x) ∧
      protonNeutron 0 = 1 ∧ protonNeutron 1 = 1 / 4 := by
  have mono : ∀ x y : ℝ, 0 ≤ x → x ≤ y → y ≤ 1 → protonNeutron y ≤ protonNeutron x := by
    intro x y hx hxy hy
    have hd : ∀ x : ℝ, HasDerivAt protonNeutron (-(1 - x) * (1.85 - 3.05 * x + 4 * x ^ 2)) x := by
      intro x
      have e : protonNeutron = fun x : ℝ => 1 - 1.85 * x + 2.45 * x ^ 2 - 2.35 * x ^ 3 + x ^ 4 := by
        funext x
        unfold protonNeutron
        ring
      rw [e]
      have h := (((((hasDerivAt_id x).const_mul 1.85).const_sub 1).add ((hasDerivAt_pow 2 x).const_mul 2.45)).sub
        ((hasDerivAt_pow 3 x).const_mul 2.35)).add (hasDerivAt_pow 4 x)
      refine h.congr_deriv ?_
      norm_num
      ring
    have ha : AntitoneOn protonNeutron (Set.Icc 0 1) := by
      refine antitoneOn_of_deriv_nonpos (convex_Icc 0 1) (fun y _ => (hd y).continuousAt.continuousWithinAt)
        (fun y _ => (hd y).differentiableAt.differentiableWithinAt) ?_
      intro y hy
      rw [interior_Icc] at hy
      rw [(hd y).deriv]
      have a : 0 < 1.85 - 3.05 * y + 4 * y ^ 2 := by nlinarith [sq_nonneg (y - 0.38)]
      have b : 0 < 1 - y := by linarith [hy.2]
      nlinarith [mul_pos b a]
    exact ha ⟨hx, by linarith⟩ ⟨by linarith, hy⟩ hxy
  have p0 : protonNeutron 0 = 1 := by norm_num [protonNeutron]
  have p1 : protonNeutron 1 = 1 / 4 := by norm_num [protonNeutron]
  refine ⟨?_, ?_, fun y hy hy1 => mono x y h0 hy hy1, p0, p1⟩
  · rw [← p1]
    exact mono x 1 h0 h1 le_rfl
  · rw [← p0]
    exact mono 0 x le_rfl h0 h1

/-! ## Fits of Abramowicz, Levin, Levy and Maor -/

theorem allm_t_nonneg (P : Allm) (Q2 : ℝ) : 0 ≤ P.t Q2 := by
  unfold Allm.t
  simp only
  split_ifs with h
  · exact le_rfl
  · exact not_lt.mp h

theorem allm_t_eq (P : Allm) (Q2 : ℝ) (hQ : 0 ≤ Q2) (hl : 0 < P.lam) (hq : P.lam < P.q0) :
    P.t Q2 = Real.log (Real.log ((Q2 + P.q0) / P.lam) / Real.log (P.q0 / P.lam)) := by
  unfold Allm.t
  simp only
  rw [if_neg]
  rw [not_lt]
  have h1 : 0 < Real.log (P.q0 / P.lam) := Real.log_pos ((one_lt_div hl).mpr hq)
  have h2 : Real.log (P.q0 / P.lam) ≤ Real.log ((Q2 + P.q0) / P.lam) := by
    apply Real.log_le_log (div_pos (by linarith) hl)
    exact div_le_div_of_nonneg_right (by linarith) hl.le
  exact Real.log_nonneg ((one_le_div h1).mpr h2)

theorem allm_t_pos (P : Allm) (Q2 : ℝ) (hQ : 0 < Q2) (hl : 0 < P.lam) (hq : P.lam < P.q0) : 0 < P.t Q2 := by
  rw [allm_t_eq P Q2 hQ.le hl hq]
  have h1 : 0 < Real.log (P.q0 / P.lam) := Real.log_pos ((one_lt_div hl).mpr hq)
  have h2 : Real.log (P.q0 / P.lam) < Real.log ((Q2 + P.q0) / P.lam) := by
    apply Real.log_lt_log (div_pos (by linarith) hl)
    exact div_lt_div_of_pos_right (by linarith) hl
  exact Real.log_pos ((one_lt_div h1).mpr h2)

theorem allm_down_pos (f1 f2 f3 t : ℝ) (h2 : 0 < f2) (h1 : f2 ≤ f1) (ht : 0 ≤ t) : f2 < allmDown f1 f2 f3 t ∨ f1 = f2 ∧ 0 < allmDown f1 f2 f3 t := by
  unfold allmDown
  have hp : 0 ≤ t ^ f3 := Real.rpow_nonneg ht _
  have hi : 0 < 1 / (1 + t ^ f3) := by positivity
  rcases h1.lt_or_eq with h | h
  · left
    nlinarith [mul_pos (sub_pos.mpr h) hi]
  · right
    refine ⟨h.symm, ?_⟩
    rw [h]
    simp
    linarith

theorem allm_f2_pos (P : Allm) (aR cR M E v Q2 : ℝ) (h0 : 0 < P.m0) (hP : 0 < P.mP) (hR : 0 < P.mR) (hc : 0 < P.c2P) (hc' : P.c2P ≤ P.c1P)
    (hcR : 0 < cR) (hM : 0 < M) (hE : 0 < E) (hv : 0 < v) (hQ : 0 < Q2) (hx : Q2 / (2 * M * v * E) < 1) : 0 < allmF2 P aR cR M E v Q2 := by
  unfold allmF2
  simp only
  have d1 : 0 < (Q2 + P.mP) / (Q2 + P.mP + (M * M + 2 * M * E * v - Q2) - M * M) := by
    have : Q2 + P.mP + (M * M + 2 * M * E * v - Q2) - M * M = P.mP + 2 * M * E * v := by ring
    rw [this]
    positivity
  have d2 : 0 < (Q2 + P.mR) / (Q2 + P.mR + (M * M + 2 * M * E * v - Q2) - M * M) := by
    have : Q2 + P.mR + (M * M + 2 * M * E * v - Q2) - M * M = P.mR + 2 * M * E * v := by ring
    rw [this]
    positivity
  have hcP : 0 < allmDown P.c1P P.c2P P.c3P (P.t Q2) := by
    rcases allm_down_pos P.c1P P.c2P P.c3P (P.t Q2) hc hc' (allm_t_nonneg P Q2) with h | h
    · linarith
    · exact h.2
  have hx' : 0 < 1 - Q2 / (2 * M * v * E) := by linarith
  have q1 := Real.rpow_pos_of_pos d1 (allmDown P.a1P P.a2P P.a3P (P.t Q2))
  have q2 := Real.rpow_pos_of_pos d2 aR
  have q3 := Real.rpow_pos_of_pos hx' (allmUp P.b1P P.b2P P.b3P (P.t Q2))
  have q4 := Real.rpow_pos_of_pos hx' (allmUp P.b1R P.b2R P.b3R (P.t Q2))
  positivity

theorem allm_up_pos (f1 f2 f3 t : ℝ) (h1 : 0 < f1) (h2 : 0 ≤ f2) (ht : 0 ≤ t) : 0 < allmUp f1 f2 f3 t := by
  unfold allmUp
  have : 0 ≤ t ^ f3 := Real.rpow_nonneg ht _
  positivity

theorem abt_t_le (Q2 : ℝ) (hQ : 0 < Q2) (hu : Q2 ≤ 1e100) : allmAbt.t Q2 ≤ 4 := by
  rw [allm_t_eq allmAbt Q2 hQ.le (by norm_num [allmAbt]) (by norm_num [allmAbt])]
  have e1 := Real.exp_one_gt_d9
  have e2 := Real.exp_one_lt_d9
  have a : 8 ≤ Real.log (allmAbt.q0 / allmAbt.lam) := by
    rw [Real.le_log_iff_exp_le (by norm_num [allmAbt])]
    have : Real.exp 8 = Real.exp 1 ^ 8 := by rw [← Real.exp_nat_mul]; norm_num
    rw [this]
    calc Real.exp 1 ^ 8 ≤ 2.7182818286 ^ 8 := by gcongr
      _ ≤ _ := by norm_num [allmAbt]
  have b : Real.log ((Q2 + allmAbt.q0) / allmAbt.lam) ≤ 240 := by
    rw [Real.log_le_iff_le_exp (by norm_num [allmAbt]; positivity)]
    have : Real.exp 240 = Real.exp 1 ^ 240 := by rw [← Real.exp_nat_mul]; norm_num
    rw [this]
    calc (Q2 + allmAbt.q0) / allmAbt.lam ≤ (1e100 + 1.87e-5 * 1e6) / (4.4e-9 * 1e6) := by
          simp only [allmAbt]
          gcongr
      _ ≤ 2.7 ^ 240 := by norm_num
      _ ≤ Real.exp 1 ^ 240 := by gcongr; linarith
  have hpos : 0 < Real.log ((Q2 + allmAbt.q0) / allmAbt.lam) := by
    apply Real.log_pos
    rw [one_lt_div (by norm_num [allmAbt])]
    simp only [allmAbt]
    linarith
  rw [Real.log_le_iff_le_exp (div_pos hpos (by linarith))]
  have : Real.exp 4 = Real.exp 1 ^ 4 := by rw [← Real.exp_nat_mul]; norm_num
  rw [this]
  calc Real.log ((Q2 + allmAbt.q0) / allmAbt.lam) / Real.log (allmAbt.q0 / allmAbt.lam) ≤ 240 / 8 := by
        gcongr
    _ ≤ 2.7 ^ 4 := by norm_num
    _ ≤ Real.exp 1 ^ 4 := by gcongr; linarith

theorem abt_cR_pos (t : ℝ) (h0 : 0 < t) (h4 : t ≤ 4) : 0 < allmUp allmAbt.c1R allmAbt.c2R allmAbt.c3R t := by
  unfold allmUp
  simp only [allmAbt]
  have h : (1 / 4 : ℝ) ≤ t ^ (-0.660 : ℝ) := by
    have a : (4 : ℝ) ^ (-0.660 : ℝ) ≤ t ^ (-0.660 : ℝ) := Real.rpow_le_rpow_of_nonpos h0 h4 (by norm_num)
    have b : (4 : ℝ) ^ (-1 : ℝ) ≤ 4 ^ (-0.660 : ℝ) := Real.rpow_le_rpow_of_exponent_le (by norm_num) (by norm_num)
    rw [Real.rpow_neg_one] at b
    linarith
  linarith

/-! ## Fit of Block, Durand and Ha -/

theorem bdh_log (M E v Q2 : ℝ) (hM : 0 < M) (hE : 0 < E) (hv : 0 < v) (hQ : 0 < Q2) :
    Q2 / (Q2 / (2 * M * v * E)) / (Q2 + 2.82 * 1e6) = 2 * M * v * E / (Q2 + 2.82 * 1e6) := by
  have : 0 < 2 * M * v * E := by positivity
  congr 1
  field_simp

theorem bdh_quadratic (L u : ℝ) (h0 : 0 ≤ L) (h1 : L ≤ 12) :
    0 < (0.255 + 1.475e-1 * L) + (8.205e-4 + (-5.148e-2) * L + (-4.725e-3) * L * L) * u +
      (2.217e-3 + 1.244e-2 * L + 5.958e-4 * L * L) * u * u := by
  set B := 2.217e-3 + 1.244e-2 * L + 5.958e-4 * L * L with hB
  set A := 8.205e-4 + (-5.148e-2) * L + (-4.725e-3) * L * L with hA
  set C := 0.255 + 1.475e-1 * L with hC
  have hBp : 0 < B := by rw [hB]; positivity
  have hd : 0 < 4 * B * C - A ^ 2 := by
    have e : 4 * B * C - A ^ 2 = 4 * 2.217e-3 * 0.255 - 8.205e-4 ^ 2 +
        (4 * (2.217e-3 * 1.475e-1 + 1.244e-2 * 0.255) + 2 * 8.205e-4 * 5.148e-2) * L +
        (4 * (1.244e-2 * 1.475e-1 + 5.958e-4 * 0.255) - 5.148e-2 ^ 2 + 2 * 8.205e-4 * 4.725e-3) * L ^ 2 -
        (2 * 5.148e-2 * 4.725e-3 - 4 * 5.958e-4 * 1.475e-1) * L ^ 3 - 4.725e-3 ^ 2 * L ^ 4 := by
      rw [hB, hA, hC]
      ring
    rw [e]
    have h3 : L ^ 3 ≤ 12 * L ^ 2 := by nlinarith [sq_nonneg L]
    have h4 : L ^ 4 ≤ 144 * L ^ 2 := by nlinarith [sq_nonneg L, mul_nonneg h0 h0]
    norm_num
    nlinarith [sq_nonneg L]
  have e : 4 * B * (C + A * u + B * u * u) = (2 * B * u + A) ^ 2 + (4 * B * C - A ^ 2) := by ring
  have : 0 < 4 * B * (C + A * u + B * u * u) := by
    rw [e]
    have := sq_nonneg (2 * B * u + A)
    linarith
  exact (mul_pos_iff_of_pos_left (by positivity)).mp this

theorem bdh_pos (M E v Q2 : ℝ) (hQ : 0 < Q2) (hx : Q2 / (2 * M * v * E) < 1) (hu : Q2 ≤ 4e11) :
    0 < bdhProton M E v Q2 := by
  unfold bdhProton
  simp only
  have hx' : 0 < 1 - Q2 / (2 * M * v * E) := by linarith
  have q := Real.rpow_pos_of_pos hx' 11.49
  have hL0 : 0 ≤ Real.log (1 + Q2 / (2.82 * 1e6)) := Real.log_nonneg (by linarith [show 0 < Q2 / (2.82 * 1e6) by positivity])
  have hL1 : Real.log (1 + Q2 / (2.82 * 1e6)) ≤ 12 := by
    rw [Real.log_le_iff_le_exp (by positivity)]
    have : Real.exp 12 = Real.exp 1 ^ 12 := by rw [← Real.exp_nat_mul]; norm_num
    rw [this]
    have e1 := Real.exp_one_gt_d9
    calc 1 + Q2 / (2.82 * 1e6) ≤ 1 + 4e11 / (2.82 * 1e6) := by gcongr
      _ ≤ 2.7182818283 ^ 12 := by norm_num
      _ ≤ Real.exp 1 ^ 12 := by gcongr
  have h := bdh_quadratic (Real.log (1 + Q2 / (2.82 * 1e6))) (Real.log (Q2 / (Q2 / (2 * M * v * E)) / (Q2 + 2.82 * 1e6))) hL0 hL1
  have hD : 0 < Q2 * (Q2 + 2.430 * (0.753 * 1e6)) / (Q2 + 0.753 * 1e6) ^ 2 := by positivity
  exact mul_pos (mul_pos hD q) h

/-! ## Fit of Butkevich and Mikheyev -/

theorem bm_pos (M E v Q2 : ℝ) (hM : 0 < M) (hE : 0 < E) (hv : 0 < v) (hQ : 0 < Q2) (hx : Q2 / (2 * M * v * E) < 1) :
    0 < (bmNucleons M E v Q2).1 ∧ (bmNucleons M E v Q2).1 / 4 < (bmNucleons M E v Q2).2 := by
  unfold bmNucleons
  simp only
  have hx0 : 0 < Q2 / (2 * M * v * E) := by positivity
  have hx' : 0 < 1 - Q2 / (2 * M * v * E) := by linarith
  set x := Q2 / (2 * M * v * E)
  set n := 1.5 * (1 + Q2 / (Q2 + 3.0292e6))
  set dl := 0.0988 * (1 + 2 * Q2 / (Q2 + 1.4817e6))
  have a1 := Real.rpow_pos_of_pos hx0 (-dl)
  have a2 := Real.rpow_pos_of_pos (show 0 < Q2 / (Q2 + 0.2513e6) by positivity) (1 + dl)
  have a3 := Real.rpow_pos_of_pos hx' (n + 4)
  have a4 : (1 - x) ^ (n + 4) ≤ (1 - x) ^ (n + 1.8152) :=
    Real.rpow_le_rpow_of_exponent_ge hx' (by linarith) (by linarith)
  have a5 := Real.rpow_pos_of_pos hx0 (1 - 0.4056)
  have a6 := Real.rpow_pos_of_pos hx' n
  have a7 := Real.rpow_pos_of_pos (show 0 < Q2 / (Q2 + 0.6186e6) by positivity) 0.4056
  set s := 0.12 * x ^ (-dl) * (Q2 / (Q2 + 0.2513e6)) ^ (1 + dl) with hs
  have hs0 : 0 < s := by rw [hs]; positivity
  set w := x ^ (1 - 0.4056 : ℝ) * (1 - x) ^ n * (Q2 / (Q2 + 0.6186e6)) ^ (0.4056 : ℝ) with hw
  have hw0 : 0 < w := by rw [hw]; positivity
  have hwx : 0 < w * (1 - x) := mul_pos hw0 hx'
  have h1 : s * (1 - x) ^ (n + 4) ≤ s * (1 - x) ^ (n + 1.8152) := mul_le_mul_of_nonneg_left a4 hs0.le
  have h2 : 0 < s * (1 - x) ^ (n + 4) := mul_pos hs0 a3
  refine ⟨by positivity, ?_⟩
  nlinarith

/-! ## Nuclei -/

/-- The structure function of a proton. -/
noncomputable def Q2Param.proton (p : Q2Param) (M E v Q2 : ℝ) : ℝ :=
  match p with
  | .allm91 => allmProton Proposal.allm91 M E v Q2
  | .allm97 => allmProton Proposal.allm97 M E v Q2
  | .renoSarcevicSu => allmProton Proposal.allm97 M E v Q2
  | .abtFT => abtProton M E v Q2
  | .blockDurandHa => bdhProton M E v Q2
  | .butkevichMikheyev => (bmNucleons M E v Q2).1

/-- The virtualities for which the structure function of a proton is positive. -/
def Q2Param.upTo : Q2Param → ℝ → Prop
  | .abtFT, Q2 => Q2 ≤ 1e100
  | .blockDurandHa, Q2 => Q2 ≤ 4e11
  | _, _ => True

theorem proton_pos (p : Q2Param) (M E v Q2 : ℝ) (hM : 0 < M) (hE : 0 < E) (hv : 0 < v) (hQ : 0 < Q2) (hx : Q2 / (2 * M * v * E) < 1)
    (hu : p.upTo Q2) : 0 < p.proton M E v Q2 := by
  cases p
  case allm91 =>
    exact allm_f2_pos _ _ _ M E v Q2 (by norm_num [allm91]) (by norm_num [allm91]) (by norm_num [allm91]) (by norm_num [allm91])
      (by norm_num [allm91]) (allm_up_pos _ _ _ _ (by norm_num [allm91]) (by norm_num [allm91]) (allm_t_nonneg _ _)) hM hE hv hQ hx
  case allm97 =>
    exact allm_f2_pos _ _ _ M E v Q2 (by norm_num [allm97]) (by norm_num [allm97]) (by norm_num [allm97]) (by norm_num [allm97])
      (by norm_num [allm97]) (allm_up_pos _ _ _ _ (by norm_num [allm97]) (by norm_num [allm97]) (allm_t_nonneg _ _)) hM hE hv hQ hx
  case renoSarcevicSu =>
    exact allm_f2_pos _ _ _ M E v Q2 (by norm_num [allm97]) (by norm_num [allm97]) (by norm_num [allm97]) (by norm_num [allm97])
      (by norm_num [allm97]) (allm_up_pos _ _ _ _ (by norm_num [allm97]) (by norm_num [allm97]) (allm_t_nonneg _ _)) hM hE hv hQ hx
  case abtFT =>
    simp only [Q2Param.proton, abtProton]
    have ht := allm_t_pos allmAbt Q2 hQ (by norm_num [allmAbt]) (by norm_num [allmAbt])
    rw [if_pos ht]
    exact allm_f2_pos _ _ _ M E v Q2 (by norm_num [allmAbt]) (by norm_num [allmAbt]) (by norm_num [allmAbt]) (by norm_num [allmAbt])
      (by norm_num [allmAbt]) (abt_cR_pos _ ht (abt_t_le Q2 hQ hu)) hM hE hv hQ hx
  case blockDurandHa => exact bdh_pos M E v Q2 hQ hx hu
  case butkevichMikheyev => exact (bm_pos M E v Q2 hM hE hv hQ hx).1

/-- C130: the structure functions of protons are positive, up to a virtuality of `4 · 10⁵ GeV²` in the fit of Block, Durand and Ha and up to
the absurd `10⁹⁴ GeV²` in that of Abt et al. That of a nucleus is at least the one of its protons and a quarter of it for every neutron,
except in the fit of Butkevich and Mikheyev also at most the one of as many protons as there are nucleons. -/
theorem C130_structure_partial (p : Q2Param) (c : Component) (E v Q2 : ℝ) (hM : 0 < c.averageNucleonWeight)
    (hA : c.nucCharge ≤ c.atomicNum) (hE : 0 < E) (hv : 0 < v) (hQ : 0 < Q2) (hx : Q2 / (2 * c.averageNucleonWeight * v * E) < 1)
    (hu : p.upTo Q2) :
    0 < p.proton c.averageNucleonWeight E v Q2 ∧
    (c.nucCharge + (c.atomicNum - c.nucCharge) / 4) * p.proton c.averageNucleonWeight E v Q2 ≤ p.nucleus c E v Q2 ∧
    (p ≠ .butkevichMikheyev → p.nucleus c E v Q2 ≤ c.atomicNum * p.proton c.averageNucleonWeight E v Q2) := by
  have hp := proton_pos p c.averageNucleonWeight E v Q2 hM hE hv hQ hx hu
  have hn := C130_neutron (Q2 / (2 * c.averageNucleonWeight * v * E)) (by positivity) hx.le
  have hgen : ∀ F : ℝ, 0 < F →
      (c.nucCharge + (c.atomicNum - c.nucCharge) / 4) * F ≤ nucleusOf c (Q2 / (2 * c.averageNucleonWeight * v * E)) F ∧
        nucleusOf c (Q2 / (2 * c.averageNucleonWeight * v * E)) F ≤ c.atomicNum * F := by
    intro F hF
    unfold nucleusOf
    have hd : 0 ≤ c.atomicNum - c.nucCharge := by linarith
    have a := mul_le_mul_of_nonneg_left hn.1 hd
    have b := mul_le_mul_of_nonneg_left hn.2.1 hd
    constructor <;> nlinarith
  refine ⟨hp, ?_⟩
  cases p
  case butkevichMikheyev =>
    refine ⟨?_, fun h => absurd rfl h⟩
    have hb := bm_pos c.averageNucleonWeight E v Q2 hM hE hv hQ hx
    simp only [Q2Param.nucleus, Q2Param.proton]
    have hd : 0 ≤ c.atomicNum - c.nucCharge := by linarith
    nlinarith [mul_le_mul_of_nonneg_left hb.2.le hd]
  all_goals exact ⟨(hgen _ hp).1, fun _ => (hgen _ hp).2⟩

/-- C130 fails for the fit of Block, Durand and Ha: at virtualities above `10⁹ GeV²` it is negative, at an energy for which tables are made. -/
theorem C130_bdh_negative (M m : ℝ) (hM : 900 ≤ M) (hM' : M ≤ 1000) (hm0 : 0 < m) (hm : m ≤ 1e5) :
    ∃ E Q2 : ℝ, 0 < E ∧ E < 1e14 ∧ q2Min m E (1 / 2) ≤ Q2 ∧ Q2 ≤ q2Max m M E (1 / 2) ∧ bdhProton M E (1 / 2) Q2 < 0 := by
  have e1 := Real.exp_one_gt_d9
  have e2 := Real.exp_one_lt_d9
  have hM0 : 0 < M := by linarith
  have h20 : Real.exp 20 = Real.exp 1 ^ 20 := by rw [← Real.exp_nat_mul]; norm_num
  have h23 : Real.exp 23 = Real.exp 1 ^ 23 := by rw [← Real.exp_nat_mul]; norm_num
  have b20 : 4.8e8 ≤ Real.exp 20 := by
    rw [h20]
    calc (4.8e8 : ℝ) ≤ 2.7182818283 ^ 20 := by norm_num
      _ ≤ _ := by gcongr
  have b23 : Real.exp 23 ≤ 9.8e9 := by
    rw [h23]
    calc Real.exp 1 ^ 23 ≤ 2.7182818286 ^ 23 := by gcongr
      _ ≤ _ := by norm_num
  have b3 : Real.exp 23 = Real.exp 20 * Real.exp 3 := by rw [← Real.exp_add]; norm_num
  have b4 : 4 ≤ Real.exp 3 := by linarith [Real.add_one_le_exp (3 : ℝ)]
  have hE0 : 0 < 2.82e6 * Real.exp 23 / M := by positivity
  have hQ0 : 0 < 2.82e6 * (Real.exp 20 - 1) := by nlinarith
  refine ⟨2.82e6 * Real.exp 23 / M, 2.82e6 * (Real.exp 20 - 1), hE0, ?_, ?_, ?_, ?_⟩
  · rw [div_lt_iff₀ hM0]
    nlinarith
  · refine (q2min_le _ _ _ (by norm_num)).trans ?_
    norm_num
    nlinarith
  · rw [q2max_eq _ _ _ _ hM0 hE0]
    have : 2 * M * (2.82e6 * Real.exp 23 / M) * (1 / 2) = 2.82e6 * Real.exp 23 := by
      field_simp
    rw [this, b3]
    have hpi : MPI ≤ 140 := by norm_num [MPI]
    have hpi0 : 0 < MPI := by norm_num [MPI]
    nlinarith
  · unfold bdhProton
    simp only
    rw [bdh_log _ _ _ _ hM0 hE0 (by norm_num) hQ0]
    have x1 : 2 * M * (1 / 2) * (2.82e6 * Real.exp 23 / M) = 2.82e6 * Real.exp 23 := by
      field_simp
    have l1 : Real.log (1 + 2.82e6 * (Real.exp 20 - 1) / (2.82 * 1e6)) = 20 := by
      have : 1 + 2.82e6 * (Real.exp 20 - 1) / (2.82 * 1e6) = Real.exp 20 := by ring
      rw [this, Real.log_exp]
    have l2 : Real.log (2.82e6 * Real.exp 23 / (2.82e6 * (Real.exp 20 - 1) + 2.82 * 1e6)) = 3 := by
      have : 2.82e6 * Real.exp 23 / (2.82e6 * (Real.exp 20 - 1) + 2.82 * 1e6) = Real.exp 3 := by
        rw [b3]
        have : (2.82e6 * (Real.exp 20 - 1) + 2.82 * 1e6 : ℝ) = 2.82e6 * Real.exp 20 := by ring
        rw [this]
        field_simp
      rw [this, Real.log_exp]
    rw [x1, l1, l2]
    have hx : 0 < 1 - 2.82e6 * (Real.exp 20 - 1) / (2.82e6 * Real.exp 23) := by
      rw [sub_pos, div_lt_one (by positivity), b3]
      nlinarith
    have q := Real.rpow_pos_of_pos hx 11.49
    have hD : 0 < 2.82e6 * (Real.exp 20 - 1) * (2.82e6 * (Real.exp 20 - 1) + 2.430 * (0.753 * 1e6)) /
        (2.82e6 * (Real.exp 20 - 1) + 0.753 * 1e6) ^ 2 := by positivity
    apply mul_neg_of_pos_of_neg (mul_pos hD q)
    norm_num

example : ∃ E v Q2 : ℝ, ∀ p : Q2Param, 0 < exOx.averageNucleonWeight ∧ exOx.nucCharge ≤ exOx.atomicNum ∧ 0 < E ∧ 0 < v ∧ 0 < Q2 ∧
    Q2 / (2 * exOx.averageNucleonWeight * v * E) < 1 ∧ p.upTo Q2 := by
  refine ⟨1e6, 1 / 2, 1e6, fun p => ?_⟩
  refine ⟨by norm_num [exOx], by norm_num [exOx], by norm_num, by norm_num, by norm_num, by norm_num [exOx], ?_⟩
  cases p <;> norm_num [Q2Param.upTo]

end Proposal
