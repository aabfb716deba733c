import Verif.Props.PhotoEffectRate
import Mathlib.Analysis.SpecialFunctions.Pow.Deriv
import Mathlib.Analysis.Calculus.MeanValue
import Mathlib.Analysis.Complex.ExponentialBounds

/-!
# C119: photo production of hadrons
-/

open Filter Topology

namespace Proposal

lemma mpi_pos' : 0 < MPI := by unfold MPI; norm_num

/-! ## Threshold -/

/-- C119: the average nucleon of an atom has a mass between those of proton and neutron. -/
theorem C119_nucleon (H : Hasher) (name : List Byte) (z a n : ℝ) (h0 : 0 ≤ z) (h : z ≤ a) (ha : 0 < a) :
    938.2720813 ≤ (mkComp H name z a n).averageNucleonWeight ∧ (mkComp H name z a n).averageNucleonWeight ≤ 939.565413 := by
  unfold mkComp
  simp only
  constructor
  · rw [le_div_iff₀ ha]
    norm_num [MP, MN]
    nlinarith
  · rw [div_le_iff₀ ha]
    norm_num [MP, MN]
    nlinarith

/-- C119: the threshold is the energy at which the energy in the centre of mass suffices for a nucleon and a pion. -/
theorem C119_threshold (c : Component) (E : ℝ) (hm : 0 < c.averageNucleonWeight) :
    pionThreshold c ≤ E ↔ (c.averageNucleonWeight + MPI) ^ 2 ≤ c.averageNucleonWeight ^ 2 + 2 * c.averageNucleonWeight * E := by
  unfold pionThreshold
  set m := c.averageNucleonWeight
  have e : MPI + MPI * MPI / (2 * m) = ((m + MPI) ^ 2 - m ^ 2) / (2 * m) := by field_simp; ring
  rw [e, div_le_iff₀ (by positivity)]
  constructor <;> intro h <;> linarith

lemma pionThreshold_pos {c : Component} (hm : 0 < c.averageNucleonWeight) : MPI < pionThreshold c := by
  unfold pionThreshold
  have := mpi_pos'
  have : 0 < MPI * MPI / (2 * c.averageNucleonWeight) := by positivity
  linarith

lemma caldwell_pos {ν : ℝ} (hν : 0 < ν) : 0 < 49.2 + 11.1 * Real.log ν + 151.8 / Real.sqrt ν := by
  set t := Real.sqrt ν with ht
  have ht0 : 0 < t := Real.sqrt_pos.2 hν
  have e : ν = t ^ 2 := (Real.sq_sqrt hν.le).symm
  have h1 := Real.one_sub_inv_le_log_of_pos ht0
  have h2 : 0 < t⁻¹ := inv_pos.2 ht0
  rw [e, Real.log_pow, div_eq_mul_inv]
  norm_num at h1 ⊢
  linarith

/-- C119: below the threshold there is no production, from the threshold on the cross section of a nucleon is positive. -/
theorem C119_positive (c : Component) (E : ℝ) (hm : 0 < c.averageNucleonWeight) :
    (E < pionThreshold c → zeus E c = 0 ∧ bezrukovBugaev E c = 0 ∧ caldwell E c = 0 ∧ kokoulin E c = 0 ∧
      (∀ table, rhode table E c = 0) ∧ heck E c = some 0) ∧
    (pionThreshold c ≤ E → 0 < zeus E c ∧ 0 < bezrukovBugaev E c ∧ 0 < caldwell E c ∧ 0 < kokoulin E c ∧
      ∀ table : ℝ → ℝ, (∀ x, pionThreshold c * 1e-3 ≤ x → x ≤ 200 → 0 < table x) → 0 < rhode table E c) := by
  constructor
  · intro h
    simp [zeus, bezrukovBugaev, caldwell, kokoulin, rhode, heck, h]
  · intro h
    have hE : MPI < E := (pionThreshold_pos hm).trans_le h
    have hE0 : 0 < E := mpi_pos'.trans hE
    have hn : ¬ E < pionThreshold c := not_lt.2 h
    have hc : 0 < caldwell E c := by
      unfold caldwell
      rw [if_neg hn]
      exact caldwell_pos (by positivity)
    have hb : 0 < bezrukovBugaev E c := by
      unfold bezrukovBugaev
      rw [if_neg hn]
      simp only
      nlinarith [mul_self_nonneg (Real.log (0.0213 * (E * 1e-3)))]
    refine ⟨?_, hb, hc, ?_, ?_⟩
    · unfold zeus
      rw [if_neg hn]
      simp only
      have : 0 < 2e-3 * (E * 1e-3) * c.averageNucleonWeight := by positivity
      have h1 := Real.rpow_pos_of_pos this 0.097
      have h2 := Real.rpow_pos_of_pos this (-0.5)
      positivity
    · unfold kokoulin
      rw [if_neg hn]
      simp only
      split_ifs
      · have : 0 ≤ 82 / Real.sqrt (E * 1e-3) := by positivity
        exact add_pos_of_pos_of_nonneg (by norm_num) this
      · exact hb
      · exact hc
    · intro table ht
      have h01 : ¬ E * 1e-3 ≤ 0.1 := by
        norm_num [MPI] at hE ⊢
        linarith
      unfold rhode
      rw [if_neg hn]
      simp only
      rw [if_neg h01]
      split_ifs with h2
      · exact lt_max_of_lt_left (ht _ (mul_le_mul_of_nonneg_right h (by norm_num)) h2)
      · exact hc

/-- C119: the cross section of Heck is defined and positive for all nucleons of at least the mass of the proton. -/
theorem C119_heck_partial (c : Component) (E : ℝ) (hm : 938.2720813 ≤ c.averageNucleonWeight) (hE : pionThreshold c ≤ E) :
    ∃ s > 0, heck E c = some s := by
  have hm0 : 0 < c.averageNucleonWeight := lt_of_lt_of_le (by norm_num) hm
  have hE0 : 0 < E := (mpi_pos'.trans (pionThreshold_pos hm0)).trans_le hE
  have hs := (C119_threshold c E hm0).1 hE
  set m := c.averageNucleonWeight with hmd
  have hq : ∀ w, 0 < w → 0 ≤ heckQ (E * 1e-3) 0.152 w := by
    intro w hw
    unfold heckQ
    split_ifs with h1 h2
    · exact le_rfl
    · norm_num
    · push Not at h1
      exact div_nonneg (by linarith) hw.le
  have hS : (1.0761 : ℝ) ^ 2 < m * 1e-3 * (m * 1e-3) + 2 * (m * 1e-3) * (E * 1e-3) := by
    have h1 : (938.2720813 + MPI) ^ 2 ≤ (m + MPI) ^ 2 := by
      have := mpi_pos'
      gcongr
    norm_num [MPI] at h1 hs ⊢
    linarith
  have hbw : ∀ M Γ σ : ℝ, 0 < Γ → 0 ≤ σ → 0 ≤ breitWigner (m * 1e-3 * (m * 1e-3) + 2 * (m * 1e-3) * (E * 1e-3)) (E * 1e-3) M Γ σ := by
    intro M Γ σ hΓ hσ
    unfold breitWigner
    positivity
  unfold heck
  rw [if_neg (not_lt.2 hE)]
  simp only
  rw [← hmd]
  set S := m * 1e-3 * (m * 1e-3) + 2 * (m * 1e-3) * (E * 1e-3) with hSd
  have hS0 : 0 < S := lt_trans (by norm_num) hS
  have b1 := mul_nonneg (hbw 1.231 0.11 31.125 (by norm_num) (by norm_num)) (hq 0.17 (by norm_num))
  have b2 := mul_nonneg (hbw 1.515 0.11 25.567 (by norm_num) (by norm_num)) (hq 0.38 (by norm_num))
  have b3 := mul_nonneg (hbw 1.680 0.125 17.508 (by norm_num) (by norm_num)) (hq 0.38 (by norm_num))
  have hfrac : (1.0761 : ℝ) ^ 2 / S < 1 := by rw [div_lt_one hS0]; exact hS
  have r1 := Real.rpow_pos_of_pos hS0 0.073
  have r2 := Real.rpow_pos_of_pos hS0 (-0.602)
  have r3 := Real.rpow_pos_of_pos hS0 0.093
  have r4 := Real.rpow_pos_of_pos hS0 (-0.358)
  split_ifs with h1 h2
  · linarith
  · refine ⟨_, ?_, rfl⟩
    have hr : 0 < Real.sqrt (1 - (1.0761 : ℝ) ^ 2 / S) := Real.sqrt_pos.2 (by linarith)
    have : 0 < (73.7 * S ^ (0.073 : ℝ) + 191.7 * S ^ (-0.602 : ℝ)) * Real.sqrt (1 - (1.0761 : ℝ) ^ 2 / S) := by positivity
    linarith
  · refine ⟨_, ?_, rfl⟩
    have : 0 < 59.3 * S ^ (0.093 : ℝ) + 120.2 * S ^ (-0.358 : ℝ) := by positivity
    linarith

/-- C119: for lighter nucleons it is no number at the threshold. -/
theorem C119_heck_undefined (c : Component) (h0 : 0 < c.averageNucleonWeight) (h1 : c.averageNucleonWeight ≤ 936.5) :
    heck (pionThreshold c) c = none := by
  set m := c.averageNucleonWeight with hmd
  have hS : m * 1e-3 * (m * 1e-3) + 2 * (m * 1e-3) * (pionThreshold c * 1e-3) = ((m + MPI) * 1e-3) ^ 2 := by
    unfold pionThreshold
    rw [← hmd]
    field_simp
    ring
  have hp := mpi_pos'
  have hlt : (m + MPI) * 1e-3 < 1.0761 := by
    norm_num [MPI] at h1 ⊢
    linarith
  have hpos : 0 < (m + MPI) * 1e-3 := by positivity
  unfold heck
  rw [if_neg (lt_irrefl _)]
  simp only
  rw [← hmd, hS, Real.sqrt_sq hpos.le, if_pos (by norm_num at hlt ⊢; linarith), if_pos]
  rw [sub_neg, lt_div_iff₀ (by positivity), one_mul]
  exact pow_lt_pow_left₀ hlt hpos.le (by norm_num)

/-! ## Shape of the cross sections of a nucleon -/

/-- C119: the fit of Zeus in terms of the energy `W` in the centre of mass (in GeV, without the mass of the nucleon). -/
theorem C119_zeus (c : Component) (E W : ℝ) (hW : 0 < W) (hE : pionThreshold c ≤ E)
    (h : W ^ 2 = 2 * (c.averageNucleonWeight / 1000) * (E / 1000)) : zeus E c = 63.5 * W ^ (0.194 : ℝ) + 145 / W := by
  unfold zeus
  rw [if_neg (not_lt.2 hE)]
  simp only
  have e : 2e-3 * (E * 1e-3) * c.averageNucleonWeight = W ^ 2 := by rw [h]; ring
  rw [e, ← Real.rpow_natCast W 2, ← Real.rpow_mul hW.le, ← Real.rpow_mul hW.le]
  norm_num
  rw [Real.rpow_neg_one]
  ring

/-- C119: the formula of Bezrukov and Bugaev has its minimum of 114.3 microbarn at 1 / 0.0213 GeV and the same value at `k` times
and at a `k`th of that energy. -/
theorem C119_bezrukov (c : Component) (k : ℝ) (hE : pionThreshold c ≤ k * (1000 / 0.0213)) :
    bezrukovBugaev (k * (1000 / 0.0213)) c = 114.3 + 1.647 * Real.log k ^ 2 := by
  unfold bezrukovBugaev
  rw [if_neg (not_lt.2 hE)]
  simp only
  have e : 0.0213 * (k * (1000 / 0.0213) * 1e-3) = k := by norm_num; ring
  rw [e]
  ring

/-- C119: Caldwell's fit falls up to the energy with `√ν = 2 * 75.9 / (2 * 11.1)` (46.8 GeV) and rises from there on. -/
theorem C119_caldwell (c : Component) (E E' : ℝ) (h0 : 0 < E) (h : E < E') (hE : pionThreshold c ≤ E) :
    (E' ≤ 1000 * (75.9 / 11.1) ^ 2 → caldwell E' c < caldwell E c) ∧
    (1000 * (75.9 / 11.1) ^ 2 ≤ E → caldwell E c < caldwell E' c) := by
  have hcal : ∀ e, pionThreshold c ≤ e → 0 < e → caldwell e c =
      49.2 + 22.2 * Real.log (Real.sqrt (e * 1e-3)) + 151.8 / Real.sqrt (e * 1e-3) := by
    intro e he h0
    unfold caldwell
    rw [if_neg (not_lt.2 he)]
    simp only
    rw [Real.log_sqrt (by positivity)]
    ring
  rw [hcal E hE h0, hcal E' (hE.trans h.le) (h0.trans h)]
  set a := Real.sqrt (E * 1e-3) with ha
  set b := Real.sqrt (E' * 1e-3) with hb
  have ha0 : 0 < a := Real.sqrt_pos.2 (by positivity)
  have hab : a < b := Real.sqrt_lt_sqrt (by positivity) (by
    have : (0 : ℝ) < 1e-3 := by norm_num
    nlinarith)
  have hb0 : 0 < b := ha0.trans hab
  have key : 22.2 * Real.log b - 22.2 * Real.log a = 22.2 * Real.log (b / a) := by
    rw [Real.log_div hb0.ne' ha0.ne']
    ring
  have hne : b / a ≠ 1 := by
    rw [Ne, div_eq_one_iff_eq ha0.ne']
    exact hab.ne'
  have hne' : a / b ≠ 1 := by
    rw [Ne, div_eq_one_iff_eq hb0.ne']
    exact hab.ne
  constructor
  · intro hm
    have hb1 : b ≤ 75.9 / 11.1 := by
      rw [hb]
      apply Real.sqrt_le_iff.2
      constructor
      · norm_num
      · norm_num at hm ⊢
        linarith
    have h1 := Real.log_lt_sub_one_of_pos (div_pos hb0 ha0) hne
    have h2 : 22.2 * (b / a - 1) ≤ 151.8 / a - 151.8 / b := by
      have e1 : 22.2 * (b / a - 1) = (b - a) * (22.2 * b) / (a * b) := by field_simp
      have e2 : 151.8 / a - 151.8 / b = (b - a) * 151.8 / (a * b) := by field_simp
      rw [e1, e2]
      apply div_le_div_of_nonneg_right _ (by positivity)
      apply mul_le_mul_of_nonneg_left _ (by linarith)
      norm_num at hb1 ⊢
      linarith
    norm_num at h1 h2 key ⊢
    linarith
  · intro hm
    have ha1 : 75.9 / 11.1 ≤ a := by
      rw [ha]
      apply Real.le_sqrt_of_sq_le
      norm_num at hm ⊢
      linarith
    have h1 := Real.log_lt_sub_one_of_pos (div_pos ha0 hb0) hne'
    have h3 : Real.log (a / b) = - Real.log (b / a) := by rw [← Real.log_inv, inv_div]
    have h2 : 151.8 / a - 151.8 / b ≤ 22.2 * (1 - a / b) := by
      have e1 : 22.2 * (1 - a / b) = (b - a) * (22.2 * a) / (a * b) := by field_simp
      have e2 : 151.8 / a - 151.8 / b = (b - a) * 151.8 / (a * b) := by field_simp
      rw [e1, e2]
      apply div_le_div_of_nonneg_right _ (by positivity)
      apply mul_le_mul_of_nonneg_left _ (by linarith)
      norm_num at ha1 ⊢
      linarith
    rw [h3] at h1
    norm_num at h1 h2 key ⊢
    linarith

/-- C119: a resonance has its peak `σ₀ s / E²` at its mass and half of it where `s` is off by `Γ √s`. -/
theorem C119_resonance (s E M Γ σ : ℝ) (hs : 0 < s) (hE : 0 < E) (hΓ : 0 < Γ) (hσ : 0 < σ) :
    breitWigner s E M Γ σ ≤ s / E ^ 2 * σ ∧ (breitWigner s E M Γ σ = s / E ^ 2 * σ ↔ s = M ^ 2) ∧
    (breitWigner s E M Γ σ = s / E ^ 2 * σ / 2 ↔ (s - M ^ 2) ^ 2 = Γ ^ 2 * s) := by
  have e : breitWigner s E M Γ σ = s / E ^ 2 * σ * (Γ ^ 2 * s / ((s - M ^ 2) ^ 2 + Γ ^ 2 * s)) := by
    unfold breitWigner
    have : (s - M * M) ^ 2 + Γ * Γ * s ≠ 0 := by positivity
    have : (s - M ^ 2) ^ 2 + Γ ^ 2 * s ≠ 0 := by positivity
    field_simp
  have hp : 0 < s / E ^ 2 * σ := by positivity
  have hd : 0 < (s - M ^ 2) ^ 2 + Γ ^ 2 * s := by positivity
  rw [e]
  refine ⟨?_, ?_, ?_⟩
  · apply mul_le_of_le_one_right hp.le
    rw [div_le_one hd]
    nlinarith [sq_nonneg (s - M ^ 2)]
  · rw [mul_eq_left₀ hp.ne', div_eq_one_iff_eq hd.ne']
    constructor
    · intro h
      have : (s - M ^ 2) ^ 2 = 0 := by linarith
      have := pow_eq_zero_iff (two_ne_zero) |>.1 this
      linarith
    · intro h
      rw [h]
      ring
  · rw [div_eq_mul_one_div (s / E ^ 2 * σ) 2, mul_right_inj' hp.ne', div_eq_div_iff hd.ne' two_ne_zero]
    constructor <;> intro h <;> linarith

/-- C119: the resonances are switched on gradually above 152 MeV. -/
theorem C119_switch (Eth w : ℝ) (hw : 0 < w) :
    Continuous (fun E => heckQ E Eth w) ∧ Monotone (fun E => heckQ E Eth w) ∧ (∀ E, heckQ E Eth w = 0 ↔ E ≤ Eth) ∧
    (∀ E, heckQ E Eth w = 1 ↔ Eth + w ≤ E) := by
  have e : ∀ E, heckQ E Eth w = max 0 (min 1 ((E - Eth) / w)) := by
    intro E
    unfold heckQ
    split_ifs with h1 h2
    · rw [max_eq_left]
      exact (min_le_right _ _).trans (div_nonpos_of_nonpos_of_nonneg (by linarith) hw.le)
    · rw [min_eq_left, max_eq_right zero_le_one]
      rw [le_div_iff₀ hw]
      linarith
    · push Not at h1 h2
      rw [min_eq_right, max_eq_right]
      · exact div_nonneg (by linarith) hw.le
      · rw [div_le_one hw]
        linarith
  refine ⟨?_, ?_, ?_, ?_⟩
  · simp_rw [e]
    fun_prop
  · intro a b hab
    simp only [e]
    gcongr
  · intro E
    rw [e, max_eq_left_iff, min_le_iff, div_le_iff₀ hw]
    constructor
    · rintro (h | h)
      · norm_num at h
      · linarith
    · intro h
      right
      linarith
  · intro E
    rw [e]
    constructor
    · intro h
      by_contra hc
      have h1 : (E - Eth) / w < 1 := by rw [div_lt_one hw]; linarith
      have : max 0 (min 1 ((E - Eth) / w)) < 1 := max_lt one_pos ((min_le_right _ _).trans_lt h1)
      linarith
    · intro h
      rw [min_eq_left, max_eq_right zero_le_one]
      rw [le_div_iff₀ hw]
      linarith

/-- C119: at high energies the continuum of Heck has the total cross section `59.3 s^0.093 + 120.2 s^-0.358` with the full resonances
on top, below it is suppressed towards the threshold. -/
theorem C119_heck_high (c : Component) (E s : ℝ) (hE : pionThreshold c ≤ E) (h1 : 532 ≤ E)
    (hs : s = (c.averageNucleonWeight / 1000) ^ 2 + 2 * (c.averageNucleonWeight / 1000) * (E / 1000)) (h : 19.39 ^ 2 ≤ s) :
    heck E c = some (59.3 * s ^ (0.093 : ℝ) + 120.2 * s ^ (-0.358 : ℝ) + (breitWigner s (E / 1000) 1.231 0.11 31.125 +
      breitWigner s (E / 1000) 1.515 0.11 25.567 + breitWigner s (E / 1000) 1.680 0.125 17.508)) := by
  have e1 : E * 1e-3 = E / 1000 := by norm_num; ring
  have e2 : c.averageNucleonWeight * 1e-3 * (c.averageNucleonWeight * 1e-3) + 2 * (c.averageNucleonWeight * 1e-3) * (E / 1000) = s := by
    rw [hs]; norm_num; ring
  have hq : ∀ w : ℝ, 0 < w → w ≤ 0.38 → heckQ (E / 1000) 0.152 w = 1 := fun w hw hw' =>
    ((C119_switch 0.152 w hw).2.2.2 (E / 1000)).2 (by norm_num at hw' ⊢; linarith)
  unfold heck
  rw [if_neg (not_lt.2 hE)]
  simp only
  rw [e1, e2, hq 0.17 (by norm_num) (by norm_num), hq 0.38 (by norm_num) (by norm_num),
    if_neg (not_lt.2 (Real.le_sqrt_of_sq_le h))]
  simp only [mul_one]

/-- C119: close to the threshold, below 152 MeV, there is only the continuum, suppressed by the phase space `√(1 - s₀ / s)`. -/
theorem C119_heck_low (c : Component) (E s : ℝ) (hE : pionThreshold c ≤ E) (h1 : E ≤ 152)
    (hs : s = (c.averageNucleonWeight / 1000) ^ 2 + 2 * (c.averageNucleonWeight / 1000) * (E / 1000)) (h0 : 1.0761 ^ 2 ≤ s) (h : s < 19.39 ^ 2) :
    heck E c = some ((73.7 * s ^ (0.073 : ℝ) + 191.7 * s ^ (-0.602 : ℝ)) * Real.sqrt (1 - 1.0761 ^ 2 / s)) := by
  have e1 : E * 1e-3 = E / 1000 := by norm_num; ring
  have e2 : c.averageNucleonWeight * 1e-3 * (c.averageNucleonWeight * 1e-3) + 2 * (c.averageNucleonWeight * 1e-3) * (E / 1000) = s := by
    rw [hs]; norm_num; ring
  have hq : ∀ w : ℝ, 0 < w → heckQ (E / 1000) 0.152 w = 0 := fun w hw =>
    ((C119_switch 0.152 w hw).2.2.1 (E / 1000)).2 (by norm_num; linarith)
  have hs0 : 0 < s := lt_of_lt_of_le (by norm_num) h0
  unfold heck
  rw [if_neg (not_lt.2 hE)]
  simp only
  rw [e1, e2, hq 0.17 (by norm_num), hq 0.38 (by norm_num),
    if_pos ((Real.sqrt_lt' (by norm_num)).2 h), if_neg]
  · simp only [mul_zero, add_zero]
  · rw [not_lt, sub_nonneg, div_le_one hs0]
    exact h0

/-! ## Shadowing -/

/-- The numerator of the shadowing factor. -/
noncomputable def shadowNum (x : ℝ) : ℝ := x * x / 2 - 1 + Real.exp (-x) * (1 + x)

lemma shadowNum_deriv (x : ℝ) : HasDerivAt shadowNum (x * (1 - Real.exp (-x))) x := by
  have h1 : HasDerivAt (fun x : ℝ => Real.exp (-x)) (Real.exp (-x) * -1) x := (hasDerivAt_neg x).exp
  have h2 : HasDerivAt (fun x : ℝ => 1 + x) 1 x := (hasDerivAt_id x).const_add 1
  have h3 : HasDerivAt (fun x : ℝ => x * x / 2 - 1) x x := by
    refine ((((hasDerivAt_id x).mul (hasDerivAt_id x)).div_const 2).sub_const 1).congr_deriv ?_
    simp
  refine (h3.add (h1.mul h2)).congr_deriv ?_
  ring

/-- A function that starts at 0 and has a non-negative (positive) derivative for positive arguments. -/
lemma nonneg_of_deriv {f f' : ℝ → ℝ} (h : ∀ x, HasDerivAt f (f' x) x) (h0 : f 0 = 0) (hf : ∀ x > 0, 0 ≤ f' x) {x : ℝ} (hx : 0 ≤ x) : 0 ≤ f x := by
  have : MonotoneOn f (Set.Ici 0) := monotoneOn_of_deriv_nonneg (convex_Ici 0) (fun y _ => (h y).continuousAt.continuousWithinAt)
    (fun y _ => (h y).differentiableAt.differentiableWithinAt) (fun y hy => by
      rw [interior_Ici] at hy
      rw [(h y).deriv]
      exact hf y hy)
  have := this (Set.mem_Ici.2 le_rfl) (Set.mem_Ici.2 hx) hx
  rwa [h0] at this

lemma pos_of_deriv {f f' : ℝ → ℝ} (h : ∀ x, HasDerivAt f (f' x) x) (h0 : f 0 = 0) (hf : ∀ x > 0, 0 < f' x) {x : ℝ} (hx : 0 < x) : 0 < f x := by
  have : StrictMonoOn f (Set.Ici 0) := strictMonoOn_of_deriv_pos (convex_Ici 0) (fun y _ => (h y).continuousAt.continuousWithinAt)
    (fun y hy => by
      rw [interior_Ici] at hy
      rw [(h y).deriv]
      exact hf y hy)
  have := this (Set.mem_Ici.2 le_rfl) (Set.mem_Ici.2 hx.le) hx
  rwa [h0] at this

lemma exp_neg_bounds {x : ℝ} (hx : 0 < x) : 0 < 1 - Real.exp (-x) ∧ 1 - Real.exp (-x) < x ∧ x - x ^ 2 / 2 ≤ 1 - Real.exp (-x) := by
  refine ⟨?_, ?_, ?_⟩
  · have := Real.exp_lt_exp.2 (show -x < 0 by linarith)
    rw [Real.exp_zero] at this
    linarith
  · have := Real.add_one_lt_exp (x := -x) (by linarith)
    linarith
  · have hd : ∀ x : ℝ, HasDerivAt (fun x : ℝ => 1 - Real.exp (-x) - (x - x ^ 2 / 2)) (Real.exp (-x) - (1 - x)) x := by
      intro x
      have h1 : HasDerivAt (fun x : ℝ => Real.exp (-x)) (Real.exp (-x) * -1) x := (hasDerivAt_neg x).exp
      have h2 := (h1.const_sub 1).sub ((hasDerivAt_id x).sub ((hasDerivAt_pow 2 x).div_const 2))
      refine h2.congr_deriv ?_
      simp
    have := nonneg_of_deriv hd (by simp) (fun y _ => by
      have := Real.add_one_le_exp (-y)
      linarith) hx.le
    linarith

lemma shadowNum_bounds {x : ℝ} (hx : 0 < x) :
    0 < shadowNum x ∧ shadowNum x < x ^ 3 / 3 ∧ x ^ 3 / 3 - x ^ 4 / 8 ≤ shadowNum x ∧ shadowNum x < x ^ 2 / 2 := by
  have h0 : shadowNum 0 = 0 := by simp [shadowNum]
  have d3 : ∀ x : ℝ, HasDerivAt (fun x : ℝ => x ^ 3 / 3) (x ^ 2) x := by
    intro x
    refine ((hasDerivAt_pow 3 x).div_const 3).congr_deriv ?_
    norm_num
  have d4 : ∀ x : ℝ, HasDerivAt (fun x : ℝ => x ^ 4 / 8) (x ^ 3 / 2) x := by
    intro x
    refine ((hasDerivAt_pow 4 x).div_const 8).congr_deriv ?_
    norm_num
    ring
  refine ⟨pos_of_deriv shadowNum_deriv h0 (fun y hy => mul_pos hy (exp_neg_bounds hy).1) hx, ?_, ?_, ?_⟩
  · have := pos_of_deriv (fun y => (d3 y).sub (shadowNum_deriv y)) (by simp [h0]) (fun y hy => by
      have := (exp_neg_bounds hy).2.1
      nlinarith) hx
    simp only [Pi.sub_apply] at this
    linarith
  · have := nonneg_of_deriv (fun y => (shadowNum_deriv y).sub ((d3 y).sub (d4 y))) (by simp [h0]) (fun y hy => by
      have := (exp_neg_bounds hy).2.2
      nlinarith) hx.le
    simp only [Pi.sub_apply] at this
    linarith
  · unfold shadowNum
    have h1 : Real.exp (-x) * (1 + x) < 1 := by
      have h2 := Real.add_one_lt_exp hx.ne'
      have h3 := Real.exp_pos (-x)
      have h4 : Real.exp (-x) * Real.exp x = 1 := by rw [← Real.exp_add]; simp
      nlinarith
    nlinarith

/-- C119: shadowing only reduces the cross section: the factor is between 0 and 1, for small nuclei and cross sections close to 1 and
for large ones proportional to the surface instead of the volume; hydrogen is not shadowed. Here `x = 0.00282 A^(1/3) σ`. -/
theorem C119_shadowing (c : Component) (σ : ℝ) (hA : 0 < c.atomicNum) (hσ : 0 < σ) :
    (c.nucCharge = 1 → shadowing σ c = some 1) ∧
    (c.nucCharge ≠ 1 → ∃ g, shadowing σ c = some g ∧ 0 < g ∧ g < 1 ∧ 1 - 3 / 8 * (0.00282 * c.atomicNum ^ (1 / 3 : ℝ) * σ) ≤ g ∧
      g < 3 / (2 * (0.00282 * c.atomicNum ^ (1 / 3 : ℝ) * σ))) := by
  constructor
  · intro h
    unfold shadowing
    rw [if_pos h]
  · intro h
    have hx : 0 < 0.00282 * c.atomicNum ^ (1 / 3 : ℝ) * σ := by
      have := Real.rpow_pos_of_pos hA (1 / 3)
      positivity
    unfold shadowing
    rw [if_neg h]
    simp only
    set x := 0.00282 * c.atomicNum ^ (1 / 3 : ℝ) * σ
    rw [if_neg hx.ne']
    obtain ⟨h1, h2, h3, h4⟩ := shadowNum_bounds hx
    have e : 3 / (x * x * x) * (x * x / 2 - 1 + Real.exp (-x) * (1 + x)) = 3 * shadowNum x / x ^ 3 := by
      unfold shadowNum
      field_simp
    refine ⟨_, rfl, ?_, ?_, ?_, ?_⟩ <;> rw [e]
    · positivity
    · rw [div_lt_one (by positivity)]
      linarith
    · rw [le_div_iff₀ (by positivity)]
      nlinarith
    · rw [div_lt_div_iff₀ (by positivity) (by positivity)]
      nlinarith [mul_pos hx hx]

/-- C119: the cross section of an atom is a number between a quarter of that of all its nucleons and the full one; it vanishes with
that of a nucleon. -/
theorem C119_atom (c : Component) (σ : ℝ) (hA : 0 < c.atomicNum) :
    photoproductionAtom 0 c = some 0 ∧
    (0 < σ → ∃ s, photoproductionAtom σ c = some s ∧ c.atomicNum * σ / 4 < s ∧ s ≤ c.atomicNum * σ ∧
      (c.nucCharge = 1 → s = c.atomicNum * σ)) := by
  constructor
  · unfold photoproductionAtom
    rw [if_pos rfl]
  · intro hσ
    have hp : 0 < c.atomicNum * σ := mul_pos hA hσ
    obtain ⟨h1, h2⟩ := C119_shadowing c σ hA hσ
    unfold photoproductionAtom
    rw [if_neg hσ.ne']
    by_cases hZ : c.nucCharge = 1
    · rw [h1 hZ]
      refine ⟨_, rfl, ?_, ?_, fun _ => ?_⟩ <;> norm_num <;> linarith
    · obtain ⟨g, e, g0, g1, _⟩ := h2 hZ
      rw [e]
      refine ⟨_, rfl, ?_, ?_, fun h => absurd h hZ⟩ <;> (norm_num; nlinarith)

/-- C119: the simplified shadowing lies between that of the surface and none. -/
theorem C119_c7 (c : Component) (σ : ℝ) (hA : 1 ≤ c.atomicNum) (hσ : 0 < σ) :
    heckC7Atom 0 c = 0 ∧ c.atomicNum ^ (2 / 3 : ℝ) * σ ≤ heckC7Atom σ c ∧ heckC7Atom σ c ≤ c.atomicNum * σ := by
  unfold heckC7Atom
  rw [if_pos rfl, if_neg hσ.ne']
  refine ⟨rfl, ?_, ?_⟩
  · rw [mul_comm]
    exact mul_le_mul_of_nonneg_left (Real.rpow_le_rpow_of_exponent_le hA (by norm_num)) hσ.le
  · rw [mul_comm]
    refine mul_le_mul_of_nonneg_right ?_ hσ.le
    have := Real.rpow_le_rpow_of_exponent_le hA (show (0.91 : ℝ) ≤ 1 by norm_num)
    rwa [Real.rpow_one] at this

/-! ## The pieces of Kokoulin's parametrization -/

/-- C119: at 17 GeV the cross section of Kokoulin jumps by less than 0.02 microbarn. -/
theorem C119_kokoulin_17 (c : Component) (hE : pionThreshold c ≤ 17000) :
    ∃ L, Tendsto (fun E => kokoulin E c) (𝓝[>] 17000) (𝓝 L) ∧ |L - kokoulin 17000 c| < 0.02 := by
  refine ⟨114.3 + 1.647 * Real.log (0.0213 * (17000 * 1e-3)) * Real.log (0.0213 * (17000 * 1e-3)), ?_, ?_⟩
  · have hc : ContinuousAt (fun E : ℝ => 114.3 + 1.647 * Real.log (0.0213 * (E * 1e-3)) * Real.log (0.0213 * (E * 1e-3))) 17000 := by
      have : (0.0213 : ℝ) * (17000 * 1e-3) ≠ 0 := by norm_num
      fun_prop (disch := assumption)
    refine (hc.tendsto.mono_left nhdsWithin_le_nhds).congr' ?_
    filter_upwards [self_mem_nhdsWithin, nhdsWithin_le_nhds (gt_mem_nhds (show (17000 : ℝ) < 200000 by norm_num))] with E h1 h2
    have h1 : 17000 < E := h1
    have hn : ¬ E < pionThreshold c := not_lt.2 (hE.trans h1.le)
    unfold kokoulin bezrukovBugaev
    rw [if_neg hn, if_neg hn]
    simp only
    rw [if_pos (by norm_num; linarith), if_neg (by norm_num; linarith)]
  · have hv : kokoulin 17000 c = 96.1 + 82 / Real.sqrt 17 := by
      unfold kokoulin
      rw [if_neg (not_lt.2 hE)]
      norm_num
    rw [hv]
    have s1 : 4.1231 < Real.sqrt 17 := Real.lt_sqrt_of_sq_lt (by norm_num)
    have s2 : Real.sqrt 17 < 4.1232 := by rw [Real.sqrt_lt' (by norm_num)]; norm_num
    have q1 : 82 / Real.sqrt 17 < 19.888 := by rw [div_lt_iff₀ (by positivity)]; norm_num at s1 ⊢; linarith
    have q2 : 19.887 < 82 / Real.sqrt 17 := by rw [lt_div_iff₀ (by positivity)]; norm_num at s2 ⊢; linarith
    have e1 := Real.exp_one_gt_d9
    have e2 := Real.exp_one_lt_d9
    have hl : Real.log (0.0213 * (17000 * 1e-3)) = Real.log (0.3621 * Real.exp 1) - 1 := by
      rw [Real.log_mul (by norm_num) (Real.exp_pos 1).ne', Real.log_exp]
      norm_num
    have hp : 0 < 0.3621 * Real.exp 1 := by positivity
    have u1 := Real.log_le_sub_one_of_pos hp
    have u2 := Real.one_sub_inv_le_log_of_pos hp
    have u3 : (0.3621 * Real.exp 1)⁻¹ ≤ 1.016 := by
      rw [inv_le_comm₀ hp (by norm_num)]
      norm_num at e1 ⊢
      linarith
    rw [hl]
    set l := Real.log (0.3621 * Real.exp 1)
    norm_num at u1 u2 u3 e1 e2 q1 q2 ⊢
    have l1 : -(16 / 1000) ≤ l := by linarith
    have l2 : l ≤ -(15 / 1000) := by linarith
    rw [abs_lt]
    constructor <;> nlinarith

/-- C119 fails for continuity: at 200 GeV the cross section jumps by 1 microbarn. -/
theorem C119_kokoulin_200 (c : Component) (hE : pionThreshold c ≤ 200000) :
    ∃ L, Tendsto (fun E => kokoulin E c) (𝓝[>] 200000) (𝓝 L) ∧ 0.9 < L - kokoulin 200000 c ∧ L - kokoulin 200000 c < 1 := by
  refine ⟨49.2 + 11.1 * Real.log (200000 * 1e-3) + 151.8 / Real.sqrt (200000 * 1e-3), ?_, ?_⟩
  · have hc : ContinuousAt (fun E : ℝ => 49.2 + 11.1 * Real.log (E * 1e-3) + 151.8 / Real.sqrt (E * 1e-3)) 200000 := by
      have h1 : (200000 * 1e-3 : ℝ) ≠ 0 := by norm_num
      have h2 : Real.sqrt (200000 * 1e-3) ≠ 0 := (Real.sqrt_pos.2 (by norm_num)).ne'
      fun_prop (disch := assumption)
    refine (hc.tendsto.mono_left nhdsWithin_le_nhds).congr' ?_
    filter_upwards [self_mem_nhdsWithin] with E h1
    have h1 : 200000 < E := h1
    have hn : ¬ E < pionThreshold c := not_lt.2 (hE.trans h1.le)
    unfold kokoulin caldwell
    rw [if_neg hn, if_neg hn]
    simp only
    rw [if_neg (by norm_num; linarith)]
  · have hv : kokoulin 200000 c = 114.3 + 1.647 * Real.log 4.26 * Real.log 4.26 := by
      unfold kokoulin bezrukovBugaev
      rw [if_neg (not_lt.2 hE), if_neg (not_lt.2 hE)]
      norm_num
    have h200 : (200000 * 1e-3 : ℝ) = 200 := by norm_num
    rw [hv, h200]
    have s1 : 14.142 < Real.sqrt 200 := Real.lt_sqrt_of_sq_lt (by norm_num)
    have s2 : Real.sqrt 200 < 14.143 := by rw [Real.sqrt_lt' (by norm_num)]; norm_num
    have q1 : 151.8 / Real.sqrt 200 < 10.735 := by rw [div_lt_iff₀ (by positivity)]; norm_num at s1 ⊢; linarith
    have q2 : 10.733 < 151.8 / Real.sqrt 200 := by rw [lt_div_iff₀ (by positivity)]; norm_num at s2 ⊢; linarith
    have t1 := Real.log_two_gt_d9
    have t2 := Real.log_two_lt_d9
    have h426 : Real.log 4.26 = 2 * Real.log 2 + Real.log 1.065 := by
      rw [show (4.26 : ℝ) = 2 ^ 2 * 1.065 by norm_num, Real.log_mul (by norm_num) (by norm_num), Real.log_pow]
      norm_num
    have a1 := Real.log_le_sub_one_of_pos (show (0 : ℝ) < 1.065 by norm_num)
    have a2 := Real.one_sub_inv_le_log_of_pos (show (0 : ℝ) < 1.065 by norm_num)
    have h5 : 3 * Real.log 5 = 7 * Real.log 2 + Real.log (125 / 128) := by
      have e1 : 3 * Real.log 5 = Real.log 125 := by
        rw [show (125 : ℝ) = 5 ^ 3 by norm_num, Real.log_pow]; norm_num
      have e2 : 7 * Real.log 2 = Real.log 128 := by
        rw [show (128 : ℝ) = 2 ^ 7 by norm_num, Real.log_pow]; norm_num
      rw [e1, e2, Real.log_div (by norm_num) (by norm_num)]
      ring
    have b1 := Real.log_le_sub_one_of_pos (show (0 : ℝ) < 125 / 128 by norm_num)
    have b2 := Real.one_sub_inv_le_log_of_pos (show (0 : ℝ) < 125 / 128 by norm_num)
    have hl : Real.log 200 = 3 * Real.log 2 + 2 * Real.log 5 := by
      rw [show (200 : ℝ) = 2 ^ 3 * 5 ^ 2 by norm_num, Real.log_mul (by norm_num) (by norm_num), Real.log_pow, Real.log_pow]
      norm_num
    rw [hl, h426]
    set l := Real.log 2
    set k := Real.log 5
    set p := Real.log 1.065
    set q := Real.log (125 / 128)
    set w := 151.8 / Real.sqrt 200
    norm_num at q1 q2 t1 t2 a1 a2 h5 b1 b2 ⊢
    have m1 : 1.447 ≤ 2 * l + p := by norm_num; linarith
    have m2 : 2 * l + p ≤ 1.4514 := by norm_num; linarith
    norm_num at m1 m2
    constructor <;> nlinarith

/-! ## Rates -/

/-- C119: the rate of a molecule is the sum of the rates of its atoms (1 microbarn is 1e-30 cm²), and that of a target is its part. -/
theorem C119_total (M : Med) (σ : Component → ℝ) (hs : 0 < M.sumNucleons)
    (h : ∀ c ∈ M.components, Spec.IsAtom c ∧ 0 < c.atomInMolecule ∧ 0 ≤ σ c) :
    ∃ s : Component → ℝ, (∀ c ∈ M.components, photoproductionAtom (σ c) c = some (s c) ∧ (0 < σ c → 0 < s c) ∧ (σ c = 0 → s c = 0) ∧
      photoproductionNdxTarget (fun c => photoproductionAtom (σ c) c) M c =
        some (NAvogadro / M.sumNucleons * (c.atomInMolecule * (1e-30 * s c)))) ∧
    photoproductionNdx (fun c => photoproductionAtom (σ c) c) M =
      some (NAvogadro / M.sumNucleons * (M.components.map fun c => c.atomInMolecule * (1e-30 * s c)).sum) := by
  have hone : ∀ c ∈ M.components, photoproductionAtom (σ c) c = some ((photoproductionAtom (σ c) c).getD 0) ∧
      (0 < σ c → 0 < (photoproductionAtom (σ c) c).getD 0) ∧ (σ c = 0 → (photoproductionAtom (σ c) c).getD 0 = 0) := by
    intro c hc
    obtain ⟨ha, _, h0⟩ := h c hc
    rcases h0.eq_or_lt with h0 | h0
    · rw [← h0, (C119_atom c 0 ha.2).1]
      simp
    · obtain ⟨s, e, h1, _⟩ := (C119_atom c (σ c) ha.2).2 h0
      rw [e]
      have : 0 < c.atomicNum * σ c := mul_pos ha.2 h0
      exact ⟨rfl, fun _ => by simp only [Option.getD_some]; linarith, fun h => absurd h h0.ne'⟩
  have htarget : ∀ c ∈ M.components, photoproductionNdxTarget (fun c => photoproductionAtom (σ c) c) M c =
        some (NAvogadro / M.sumNucleons * (c.atomInMolecule * (1e-30 * (photoproductionAtom (σ c) c).getD 0))) := by
    intro c hc
    obtain ⟨ha, hn, _⟩ := h c hc
    obtain ⟨e, _⟩ := hone c hc
    unfold photoproductionNdxTarget
    simp only
    rw [e, Option.map_some, Option.getD_some, ← per_weight hs ha.2 hn]
    congr 2
    ring
  refine ⟨fun c => (photoproductionAtom (σ c) c).getD 0, fun c hc => ⟨(hone c hc).1, (hone c hc).2.1, (hone c hc).2.2, htarget c hc⟩, ?_⟩
  unfold photoproductionNdx
  rw [sumRates_some _ _ M.components htarget, List.sum_map_mul_left]

/-- C119: the lower limit of the energies is that of the production itself: there is production exactly from the limit on. -/
theorem C119_lower_limit (M : Med) (E L : ℝ) (σ : ℝ → Component → ℝ) (hs : 0 < M.sumNucleons)
    (h : ∀ c ∈ M.components, Spec.IsAtom c ∧ 0 < c.atomInMolecule)
    (h0 : ∀ c ∈ M.components, E < pionThreshold c → σ E c = 0) (h1 : ∀ c ∈ M.components, pionThreshold c ≤ E → 0 < σ E c)
    (hL : lowestCutOff pionThreshold M.components = some L) :
    ∃ r, photoproductionNdx (fun c => photoproductionAtom (σ E c) c) M = some r ∧ 0 ≤ r ∧ (r = 0 ↔ E < L) := by
  have hn := na_pos'
  obtain ⟨k1, k2⟩ := lowestCutOff_spec pionThreshold M.components
  have hne : M.components ≠ [] := by
    intro he
    rw [k1 he] at hL
    simp at hL
  obtain ⟨c, hc, e, hmin⟩ := k2 hne
  rw [hL, Option.some.injEq] at e
  have hnn : ∀ c ∈ M.components, 0 ≤ σ E c := by
    intro d hd
    rcases lt_or_ge E (pionThreshold d) with hlt | hge
    · rw [h0 d hd hlt]
    · exact (h1 d hd hge).le
  obtain ⟨s, p1, p2⟩ := C119_total M (σ E) hs fun c hc => ⟨(h c hc).1, (h c hc).2, hnn c hc⟩
  have hterm : ∀ d ∈ M.components, 0 ≤ d.atomInMolecule * (1e-30 * s d) := by
    intro d hd
    obtain ⟨_, q1, q2, _⟩ := p1 d hd
    have hsd : 0 ≤ s d := by
      rcases (hnn d hd).eq_or_lt with hz | hp
      · rw [q2 hz.symm]
      · exact (q1 hp).le
    have := (h d hd).2
    positivity
  have hsum : 0 ≤ (M.components.map fun c => c.atomInMolecule * (1e-30 * s c)).sum := by
    apply List.sum_nonneg
    intro x hx
    obtain ⟨d, hd, rfl⟩ := List.mem_map.1 hx
    exact hterm d hd
  refine ⟨_, p2, by positivity, ?_⟩
  constructor
  · intro hr
    by_contra hcon
    push Not at hcon
    have h3 : 0 < c.atomInMolecule * (1e-30 * s c) := by
      have h4 := (p1 c hc).2.1 (h1 c hc (by rw [← e]; exact hcon))
      have := (h c hc).2
      positivity
    have h5 : c.atomInMolecule * (1e-30 * s c) ≤ (M.components.map fun c => c.atomInMolecule * (1e-30 * s c)).sum := by
      apply List.single_le_sum
      · intro x hx
        obtain ⟨d, hd, rfl⟩ := List.mem_map.1 hx
        exact hterm d hd
      · exact List.mem_map.2 ⟨c, hc, rfl⟩
    have : 0 < NAvogadro / M.sumNucleons * (M.components.map fun c => c.atomInMolecule * (1e-30 * s c)).sum :=
      mul_pos (by positivity) (by linarith)
    linarith
  · intro hE
    have : (M.components.map fun c => c.atomInMolecule * (1e-30 * s c)) = M.components.map fun _ => (0 : ℝ) := by
      apply List.map_congr_left
      intro d hd
      have hlt : E < pionThreshold d := hE.trans_le (by rw [e]; exact hmin d hd)
      rw [(p1 d hd).2.2.1 (h0 d hd hlt)]
      simp
    rw [this]
    simp

/-- Hydrogen and oxygen with the weights of their nucleons. -/
noncomputable def exH : Component := ⟨[], 1, 1, 2, 0, 0, 938.2720813, 0, 0⟩
noncomputable def exO : Component := ⟨[], 8, 16, 1, 0, 0, 938.9187, 0, 0⟩
noncomputable def exH2O : Med := ⟨[], 2, 10, 10 / 18, 75, -3.5, 0.1, 3.5, 0.24, 2.8, 0, 1, 1, 36, 1, 18, [exH, exO]⟩

/-- Water: the limit is the threshold of oxygen. All parametrizations satisfy the hypotheses. -/
example (E : ℝ) : ∃ r, photoproductionNdx (fun c => photoproductionAtom (caldwell E c) c) exH2O = some r ∧ 0 ≤ r ∧
    (r = 0 ↔ E < pionThreshold exO) := by
  have hpos : ∀ c ∈ exH2O.components, 0 < c.averageNucleonWeight := by
    intro c hc
    simp only [exH2O, List.mem_cons, List.not_mem_nil, or_false] at hc
    rcases hc with rfl | rfl <;> norm_num [exH, exO]
  refine C119_lower_limit exH2O E _ caldwell (by norm_num [exH2O]) ?_ (fun c hc hE => ((C119_positive c E (hpos c hc)).1 hE).2.2.1)
    (fun c hc hE => ((C119_positive c E (hpos c hc)).2 hE).2.2.1) ?_
  · intro c hc
    simp only [exH2O, List.mem_cons, List.not_mem_nil, or_false] at hc
    rcases hc with rfl | rfl <;> norm_num [exH, exO, Spec.IsAtom]
  · have : pionThreshold exO ≤ pionThreshold exH := by norm_num [pionThreshold, exH, exO, MPI]
    simp [lowestCutOff, exH2O, this]

example : pionThreshold exO ≤ 17000 ∧ pionThreshold exO ≤ 200000 ∧ (938.2720813 : ℝ) ≤ exO.averageNucleonWeight := by
  norm_num [pionThreshold, exO, MPI]

end Proposal
