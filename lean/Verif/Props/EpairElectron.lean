import Verif.Props.EpairSandrockLogs
import Verif.Props.MuonPairs

/-!
# C128: pairs by electrons and positrons, the sign of the charge, examples
-/

open Set Filter Topology MeasureTheory

namespace Proposal

lemma electronU_less (c : Component) {E v r2 s2 : ℝ} (hc : 0 < c.nucCharge) (hB : 0 < c.logConstant) (hE : 0 < E) (h0 : 0 < v) (hrs : r2 < s2) (hs : s2 < 1)
    {ξ η : ℝ} (hξ : ξ = v * v * (1 - r2) / (4 * (1 - v))) (hη : η = v * v * (1 - s2) / (4 * (1 - v))) (h1 : v < 1) :
    electronU c E v s2 η < electronU c E v r2 ξ := by
  have hme := me_pos'
  have hse := sqrte_pos
  have hZ : 0 < c.nucCharge ^ (-1 / 3 : ℝ) := Real.rpow_pos_of_pos hc _
  have hY := Real.sqrt_nonneg (ME / E)
  have hr' : 0 < 1 - r2 := by linarith
  have hs' : 0 < 1 - s2 := by linarith
  have hv : 0 < 1 - v := by linarith
  unfold electronU
  simp only
  set Z3 := c.nucCharge ^ (-1 / 3 : ℝ)
  set B := c.logConstant
  set Y := Real.sqrt (ME / E)
  have form : ∀ q x : ℝ, 0 < 1 - q → x = v * v * (1 - q) / (4 * (1 - v)) →
      2 * SQRTE * ME ^ 2 * B * Z3 * (1 + x) * (1 + 12 * Y) / (ME * E * v * (1 - q)) =
        2 * SQRTE * ME * B * Z3 * (1 + 12 * Y) / (E * v) * (1 / (1 - q) + v * v / (4 * (1 - v))) := by
    intro q x hq hx
    rw [hx]
    field_simp
  rw [form r2 ξ hr' hξ, form s2 η hs' hη]
  have hK : 0 < 2 * SQRTE * ME * B * Z3 * (1 + 12 * Y) / (E * v) := by positivity
  set K := 2 * SQRTE * ME * B * Z3 * (1 + 12 * Y) / (E * v)
  have hk : 0 < v * v / (4 * (1 - v)) := by positivity
  have hinv : 1 / (1 - r2) < 1 / (1 - s2) := one_div_lt_one_div_of_lt hs' (by linarith)
  have hr0 : 0 < 1 / (1 - r2) := by positivity
  apply div_lt_div_of_pos_left (by positivity)
  · positivity
  · have := mul_lt_mul_of_pos_left hinv hK
    linarith

/-- The integrand of electrons: it vanishes for asymmetries above the kinematic limit and is positive below. -/
lemma electron_sign (z : ℝ) (c : Component) (E v ρ : ℝ) (hc : 0 < c.nucCharge) (hB : 0 < c.logConstant) (hz : z ≠ 0) (hE : 0 < E) (h0 : 0 < v) (h1 : v < 1)
    (hvE : 2 * ME < v * E) (hρ0 : 0 ≤ ρ) (hρ : ρ < 1) :
    (1 - 2 * ME / (v * E) ≤ ρ → epairElectron none z c E v ρ = 0) ∧ (ρ < 1 - 2 * ME / (v * E) → 0 < epairElectron none z c E v ρ) := by
  have hme := me_pos'
  have hal := alpha_pos'
  have hre := re_pos'
  have hpi := Real.pi_pos
  have hv : 0 < 1 - v := by linarith
  have hq0 : 0 < 2 * ME / (v * E) := by positivity
  have hq1 : 2 * ME / (v * E) < 1 := by
    rw [div_lt_one (by positivity)]
    exact hvE
  have hβ := pair_beta h1
  have hr2 : ρ * ρ < 1 := by nlinarith
  have hr0 : 0 ≤ ρ * ρ := mul_self_nonneg ρ
  have hξ : 0 < v / 2 * (v / 2) * (1 - ρ * ρ) / (1 - v) := by
    have : 0 < 1 - ρ * ρ := by linarith
    positivity
  have hφ : 0 < electronPhi (v / 2 * (v / 2) * (1 - ρ * ρ) / (1 - v)) (epairBeta v) (ρ * ρ) := by
    rw [C128_phi_sum _ _ _ hξ]
    have a := C128_phiE _ _ _ hξ hβ hr0 hr2.le
    have b := (C128_phiMu _ _ _ hξ hβ hr0 hr2.le).2
    have : 0 < 1 / (1 + v / 2 * (v / 2) * (1 - ρ * ρ) / (1 - v)) := by positivity
    linarith
  unfold epairElectron
  simp only [epairApply]
  have hxi : v / 2 * (v / 2) * (1 - ρ * ρ) / (1 - v) = v * v * (1 - ρ * ρ) / (4 * (1 - v)) := by
    field_simp
    ring
  set R := 1 - 2 * ME / (v * E) with hR
  have hR0 : 0 < R := by linarith
  have hR1 : R < 1 := by linarith
  set φ := electronPhi (v / 2 * (v / 2) * (1 - ρ * ρ) / (1 - v)) (epairBeta v) (ρ * ρ)
  have hpre : 0 < ALPHA * RE * z * c.nucCharge * (2 * (ALPHA * RE * z * c.nucCharge) * φ * (1 - v) / (1.5 * Real.pi * v)) := by
    have : 0 < z * z := mul_self_pos.mpr hz
    have e : ALPHA * RE * z * c.nucCharge * (2 * (ALPHA * RE * z * c.nucCharge) * φ * (1 - v) / (1.5 * Real.pi * v)) =
        (z * z) * (ALPHA * RE * c.nucCharge * (2 * (ALPHA * RE * c.nucCharge) * φ * (1 - v) / (1.5 * Real.pi * v))) := by ring
    rw [e]
    positivity
  set P := ALPHA * RE * z * c.nucCharge * (2 * (ALPHA * RE * z * c.nucCharge) * φ * (1 - v) / (1.5 * Real.pi * v))
  constructor
  · intro h
    have hU : electronU c E v (ρ * ρ) (v / 2 * (v / 2) * (1 - ρ * ρ) / (1 - v)) ≤ electronU c E v (R * R) (v * v * (1 - R * R) / (4 * (1 - v))) := by
      rcases eq_or_lt_of_le h with h' | h'
      · rw [← h'] at hxi ⊢
        rw [hxi]
      · exact (electronU_less c hc hB hE h0 (by nlinarith : R * R < ρ * ρ) hr2 rfl hxi h1).le
    by_cases hX : 1 + electronU c E v (ρ * ρ) (v / 2 * (v / 2) * (1 - ρ * ρ) / (1 - v)) - electronU c E v (R * R) (v * v * (1 - R * R) / (4 * (1 - v))) > 0
    · rw [if_pos hX]
      have hlog := Real.log_nonpos hX.le (by linarith)
      have : P * Real.log (1 + electronU c E v (ρ * ρ) (v / 2 * (v / 2) * (1 - ρ * ρ) / (1 - v)) - electronU c E v (R * R) (v * v * (1 - R * R) / (4 * (1 - v)))) ≤ 0 :=
        mul_nonpos_of_nonneg_of_nonpos hpre.le hlog
      rcases eq_or_lt_of_le this with h' | h'
      · rw [h']
        simp
      · rw [if_pos h']
    · rw [if_neg hX]
      simp
  · intro h
    have hU : electronU c E v (R * R) (v * v * (1 - R * R) / (4 * (1 - v))) < electronU c E v (ρ * ρ) (v / 2 * (v / 2) * (1 - ρ * ρ) / (1 - v)) :=
      electronU_less c hc hB hE h0 (by nlinarith : ρ * ρ < R * R) (by nlinarith) hxi rfl h1
    have hX : 1 + electronU c E v (ρ * ρ) (v / 2 * (v / 2) * (1 - ρ * ρ) / (1 - v)) - electronU c E v (R * R) (v * v * (1 - R * R) / (4 * (1 - v))) > 1 := by linarith
    have hP := mul_pos hpre (Real.log_pos hX)
    rw [if_pos (show _ > (0 : ℝ) from lt_trans one_pos hX), if_neg (not_lt.mpr hP.le)]
    exact hP

lemma electron_ranges {E v : ℝ} (hE : 0 < E) (h0 : 0 < v) (h1 : v < 1) (hvE : 4 * ME < E * v) :
    0 ≤ epairRMax ME E v ∧ epairRMax ME E v < 1 - 2 * ME / (v * E) ∧ (E * v ≤ 4.8 * ME → 1 - 2 * ME / (v * E) ≤ 1 - epairRMax ME E v) := by
  have hme := me_pos'
  obtain ⟨r0, _⟩ := rmax_bounds (m := ME) hE h0 h1
  have hv : 0 < 1 - v := by linarith
  have hw0 : 0 < 4 * ME / (E * v) := by positivity
  have hw1 : 4 * ME / (E * v) < 1 := by
    rw [div_lt_one (by positivity)]
    exact hvE
  have hhalf : 2 * ME / (v * E) = 4 * ME / (E * v) / 2 := by
    field_simp
    ring
  have hle : epairRMax ME E v ≤ Real.sqrt (1 - 4 * ME / (E * v)) := by
    unfold epairRMax
    simp only
    have s0 := Real.sqrt_nonneg (1 - 4 * ME / (E * v))
    split_ifs
    · have : 0 ≤ 6 * ME * ME / (E * E * (1 - v)) := by positivity
      nlinarith
    · exact s0
  rw [hhalf]
  have hlow : E * v ≤ 4.8 * ME → 0.83 ≤ 4 * ME / (E * v) := by
    intro h
    rw [le_div_iff₀ (by positivity)]
    linarith
  set w := 4 * ME / (E * v)
  refine ⟨r0, lt_of_le_of_lt hle ?_, fun h => ?_⟩
  · rw [Real.sqrt_lt' (by linarith)]
    nlinarith
  · have hw := hlow h
    have : Real.sqrt (1 - w) ≤ w / 2 := by
      rw [Real.sqrt_le_left (by linarith)]
      nlinarith
    linarith

/-- C128: an electron or positron that loses between 4 and 4.8 electron masses to a pair can do so with every asymmetry up to the
limit, and the cross section per asymmetry is positive there. -/
theorem C128_electron_allowed (z : ℝ) (c : Component) (E v ρ : ℝ) (hc : Spec.PairAtom c) (hz : z ≠ 0) (hE : 0 < E) (h0 : 0 < v) (h1 : v < 1)
    (hvE : 4 * ME < E * v) (hρ0 : 0 ≤ ρ) (hρ : ρ ≤ epairRMax ME E v) :
    0 < epairElectron none z c E v ρ := by
  have hme := me_pos'
  obtain ⟨r0, r1, _⟩ := electron_ranges hE h0 h1 hvE
  have hq0 : 0 < 2 * ME / (v * E) := by positivity
  exact (electron_sign z c E v ρ (by linarith [hc.charge]) (by linarith [hc.log]) hz hE h0 h1 (by linarith) hρ0 (by linarith)).2 (by linarith)

/-- C128: but the cross section that the code integrates is zero, with every method of integration that gives zero for a function
that is zero. The integrand of electrons takes the variable of integration, one minus the asymmetry, for the asymmetry. -/
theorem C128_electron_zero (integral : (ℝ → ℝ) → ℝ → ℝ → ℝ) (hint : ∀ f a b, a ≤ b → (∀ x ∈ Ioo a b, f x = 0) → integral f a b = 0)
    (z : ℝ) (c : Component) (E v : ℝ) (hc : Spec.PairAtom c) (hz : z ≠ 0) (hE : 0 < E) (h0 : 0 < v) (h1 : v < 1)
    (hvE : 4 * ME < E * v) (hvE' : E * v ≤ 4.8 * ME) :
    epairCross integral (epairElectron none z c E v) ME c E v = 0 := by
  have hme := me_pos'
  obtain ⟨r0, r1, r2⟩ := electron_ranges hE h0 h1 hvE
  have r2 := r2 hvE'
  have hq0 : 0 < 2 * ME / (v * E) := by positivity
  have hzero : ∀ x, 1 - epairRMax ME E v < x → x < 1 → epairElectron none z c E v x = 0 := by
    intro x hx hx'
    exact (electron_sign z c E v x (by linarith [hc.charge]) (by linarith [hc.log]) hz hE h0 h1 (by linarith) (by linarith) hx').1 (by linarith)
  unfold epairCross
  simp only
  have ha1 : 1 - epairRMax ME E v ≤ max (1 - epairRMax ME E v) computerPrecision := le_max_left _ _
  have ha2 : max (1 - epairRMax ME E v) computerPrecision ≤ 1 := max_le (by linarith) (by norm_num [computerPrecision])
  rw [hint _ _ _ ha1, hint _ _ _ ha2, add_zero, mul_zero]
  · intro x hx
    exact hzero x (lt_of_le_of_lt ha1 hx.1) hx.2
  · intro x hx
    exact hzero x hx.1 (lt_of_lt_of_le hx.2 ha2)

/-- The exact integral is such a method. -/
lemma exact_zero (f : ℝ → ℝ) (a b : ℝ) (h : a ≤ b) (hf : ∀ x ∈ Ioo a b, f x = 0) : ∫ x in a..b, f x = 0 := by
  rw [intervalIntegral.integral_of_le h, integral_Ioc_eq_integral_Ioo, setIntegral_congr_fun measurableSet_Ioo hf]
  simp

/-- C128: particles and antiparticles have the same cross section, in all three parametrizations, with and without suppression. -/
theorem C128_conjugation (lpm : Option (EpairLpmData × ℝ)) (m z : ℝ) (c : Component) (E v r : ℝ) :
    epairKelner lpm m (-z) c E v r = epairKelner lpm m z c E v r ∧ epairSandrock lpm m (-z) c E v r = epairSandrock lpm m z c E v r ∧
    epairElectron lpm (-z) c E v r = epairElectron lpm z c E v r := by
  refine ⟨?_, ?_, ?_⟩
  · have e : ∀ K : ℝ, ALPHA * RE * -z * (ALPHA * RE * -z / (1.5 * Real.pi) * 2 * c.nucCharge * K) = ALPHA * RE * z * (ALPHA * RE * z / (1.5 * Real.pi) * 2 * c.nucCharge * K) := fun K => by ring
    have e2 : ME / m * -z * (ME / m * -z) = ME / m * z * (ME / m * z) := by ring
    unfold epairKelner
    simp only [e, e2]
  · have e : (ALPHA * RE * -z) ^ 2 = (ALPHA * RE * z) ^ 2 := by ring
    have e2 : (ME / m * -z) ^ 2 = (ME / m * z) ^ 2 := by ring
    unfold epairSandrock
    simp only [e, e2]
  · have e : ∀ φ : ℝ, ALPHA * RE * -z * c.nucCharge * (2 * (ALPHA * RE * -z * c.nucCharge) * φ * (1 - v) / (1.5 * Real.pi * v)) =
        ALPHA * RE * z * c.nucCharge * (2 * (ALPHA * RE * z * c.nucCharge) * φ * (1 - v) / (1.5 * Real.pi * v)) := fun φ => by ring
    unfold epairElectron
    simp only [e]

/-! ## Examples -/

lemma exOx_pair : Spec.PairAtom exOx := by constructor <;> norm_num [exOx]

/-- An electron of 100 MeV loses 2.3 MeV. -/
example : epairCross (fun f a b => ∫ x in a..b, f x) (epairElectron none (-1) exOx 100 0.023) ME exOx 100 0.023 = 0 ∧
    0 < epairElectron none (-1) exOx 100 0.023 0 ∧ 0 < epairElectron none (-1) exOx 100 0.023 (epairRMax ME 100 0.023) := by
  have h0 := (electron_ranges (E := 100) (v := 0.023) (by norm_num) (by norm_num) (by norm_num) (by norm_num [ME])).1
  refine ⟨C128_electron_zero _ exact_zero (-1) exOx 100 0.023 exOx_pair (by norm_num) (by norm_num) (by norm_num) (by norm_num) (by norm_num [ME]) (by norm_num [ME]),
    C128_electron_allowed (-1) exOx 100 0.023 0 exOx_pair (by norm_num) (by norm_num) (by norm_num) (by norm_num) (by norm_num [ME]) le_rfl h0,
    C128_electron_allowed (-1) exOx 100 0.023 _ exOx_pair (by norm_num) (by norm_num) (by norm_num) (by norm_num) (by norm_num [ME]) h0 le_rfl⟩

/-- A muon of 100 GeV loses a tenth of its energy. -/
example : |epairCross (fun f a b => ∫ x in a..b, f x) (epairKelner none MMU (-1) exOx 1e5 0.1) MMU exOx 1e5 0.1 -
      NAvogadro / exOx.atomicNum * ∫ ρ in (-epairRMax MMU 1e5 0.1)..epairRMax MMU 1e5 0.1, Spec.pairDouble (kelnerZeta MMU exOx 1e5) MMU (-1) exOx.nucCharge exOx.logConstant 1e5 0.1 ρ| ≤
    5e-5 * epairCross (fun f a b => ∫ x in a..b, f x) (epairKelner none MMU (-1) exOx 1e5 0.1) MMU exOx 1e5 0.1 ∧
    0 < epairRMax MMU 1e5 0.1 := by
  refine ⟨C128_cross MMU (-1) exOx 1e5 0.1 exOx_pair mmu_pos' (by norm_num) (by norm_num) (by norm_num), ?_⟩
  have h8 : (8 : ℝ) ^ (1 / 3 : ℝ) = 2 := by
    rw [show (8 : ℝ) = 2 ^ (3 : ℝ) by norm_num, ← Real.rpow_mul (by norm_num)]
    norm_num
  have hp : 0.9 < min (petrukhin MMU 8 1e5) (1 - 6 * (MMU / 1e5) * (MMU / 1e5)) := by
    unfold petrukhin
    rw [h8, lt_min_iff]
    constructor <;> norm_num [SQRTE, MMU]
  refine (C128_range MMU 8 1e5 0.1 (by norm_num) ?_ ?_).1
  · unfold limEpair KinLim.raised
    simp only
    split_ifs <;> norm_num [ME]
  · unfold limEpair KinLim.raised
    simp only
    rw [if_neg]
    · linarith
    · have : 4 * ME / 1e5 < 0.9 := by norm_num [ME]
      rw [not_lt]
      linarith

example : ∃ σ, 0 < σ ∧ Tendsto (fun E => epairKelner none MMU (-1) exOx E 0.1 (1 - 0.5)) atTop (𝓝 σ) :=
  let ⟨σ, h, h', _⟩ := C128_high_energy MMU (-1) exOx 0.1 0.5 exOx_pair (by norm_num [ME, MMU]) (by norm_num) (by norm_num) (by norm_num) (by norm_num)
  ⟨σ, h, h'⟩

example : ∃ σ, 0 < σ ∧ Tendsto (fun E => epairSandrock none MMU (-1) exOx E 0.1 (1 - 0.5)) atTop (𝓝 σ) :=
  let ⟨σ, h, h', _⟩ := C128_sandrock_high MMU (-1) exOx 0.1 0.5 exOx_pair (by norm_num [ME, MMU]) (by norm_num) (by norm_num) (by norm_num) (by norm_num)
    (by norm_num [ME, MMU]) (by norm_num [ME, MMU])
  ⟨σ, h, h'⟩

/-- The correction of the electron diagram for a muon that loses a tenth of its energy. -/
example : 0 < sandrockDe 1 0.1 0.25 ∧ 0 < sandrockDm 1 0.1 0.25 ∧ |sandrockCe2 1 0.1 0.25| < epairPhiE 1 0.1 0.25 ∧ |sandrockCm2 1 0.1 0.25| ≤ epairPhiMu 1 0.1 0.25 :=
  ⟨C128_delta_e _ _ _ (by norm_num) (by norm_num) (by norm_num) (by norm_num) (by norm_num), C128_delta_mu _ _ _ (by norm_num) (by norm_num) (by norm_num) (by norm_num),
    C128_ce2 _ _ _ (by norm_num) (by norm_num) (by norm_num) (by norm_num), C128_cm2 _ _ _ (by norm_num) (by norm_num) (by norm_num) (by norm_num)⟩

end Proposal
