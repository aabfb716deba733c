import Verif.Props.IonizationCross
import Verif.Props.PhotoEffectRate
import Verif.Props.KleinNishina
import Verif.Props.PhotonPairs

/-!
# C117: the density effect and the plateau of the losses
-/

open MeasureTheory Set Filter Topology

namespace Proposal

/-- C117: the density correction depends on the momentum per mass only; at the lower end of the range it vanishes, there it never
exceeds `d0` and grows with the momentum, at the upper end it is `2 log(βγ) + C`, and it is continuous where that begins. -/
theorem C117_density (M : Med) (hd : 0 ≤ M.d0) :
    (∀ β γ, densityDelta M β γ = densityDelta M 1 (β * γ)) ∧
    Tendsto (fun p => densityDelta M 1 p) (𝓝[>] 0) (𝓝 0) ∧
    (∀ p q, 0 < p → p ≤ q → Real.log q < M.X0 * Real.log 10 → 0 ≤ densityDelta M 1 p ∧
      densityDelta M 1 p ≤ densityDelta M 1 q ∧ densityDelta M 1 q ≤ M.d0) ∧
    (∀ p, 0 < p → M.X0 * Real.log 10 ≤ Real.log p → M.X1 * Real.log 10 ≤ Real.log p → densityDelta M 1 p = 2 * Real.log p + M.C) ∧
    (M.X0 < M.X1 → 0 < M.m → ContinuousAt (fun p => densityDelta M 1 p) (Real.exp (M.X1 * Real.log 10))) := by
  have hl : 0 < Real.log 10 := Real.log_pos (by norm_num)
  refine ⟨fun β γ => by simp only [densityDelta, one_mul], ?_, ?_, ?_, ?_⟩
  · have h1 : Tendsto (fun p : ℝ => Real.log p / Real.log 10) (𝓝[>] 0) atBot :=
      Real.tendsto_log_nhdsGT_zero.atBot_div_const hl
    have h2 : Tendsto (fun p : ℝ => M.d0 * (10 : ℝ) ^ (2 * (Real.log p / Real.log 10 - M.X0))) (𝓝[>] 0) (𝓝 (M.d0 * 0)) := by
      apply Tendsto.const_mul
      have h3 : Tendsto (fun p : ℝ => Real.log 10 * (2 * (Real.log p / Real.log 10 - M.X0))) (𝓝[>] 0) atBot :=
        ((tendsto_atBot_add_const_right _ (-M.X0) h1).const_mul_atBot two_pos).const_mul_atBot hl
      refine (Real.tendsto_exp_atBot.comp h3).congr fun p => ?_
      rw [Real.rpow_def_of_pos (by norm_num)]
      rfl
    rw [mul_zero] at h2
    refine h2.congr' ?_
    filter_upwards [h1.eventually (eventually_lt_atBot M.X0)] with p hp
    simp only [densityDelta, one_mul, if_pos hp]
  · intro p q hp hpq hq
    have hlog : Real.log p ≤ Real.log q := Real.log_le_log hp hpq
    have e1 : Real.log q / Real.log 10 < M.X0 := by rwa [div_lt_iff₀ hl]
    have e2 : Real.log p / Real.log 10 < M.X0 := by
      rw [div_lt_iff₀ hl]
      linarith
    have e3 : Real.log p / Real.log 10 ≤ Real.log q / Real.log 10 := by gcongr
    simp only [densityDelta, one_mul, if_pos e1, if_pos e2]
    refine ⟨by positivity, ?_, ?_⟩
    · gcongr
      norm_num
    · have : (10 : ℝ) ^ (2 * (Real.log q / Real.log 10 - M.X0)) ≤ 1 := by
        apply Real.rpow_le_one_of_one_le_of_nonpos (by norm_num)
        linarith
      nlinarith
  · intro p hp h0 h1
    have e0 : ¬ Real.log p / Real.log 10 < M.X0 := by
      rw [div_lt_iff₀ hl]
      linarith
    have e1 : ¬ Real.log p / Real.log 10 < M.X1 := by
      rw [div_lt_iff₀ hl]
      linarith
    simp only [densityDelta, one_mul, if_neg e0, if_neg e1]
    field_simp
  · intro h01 hm
    set p₁ := Real.exp (M.X1 * Real.log 10) with hp
    have hp0 : 0 < p₁ := Real.exp_pos _
    have hX : Real.log p₁ / Real.log 10 = M.X1 := by
      rw [hp, Real.log_exp]
      field_simp
    have hc : ContinuousAt (fun p : ℝ => Real.log p / Real.log 10) p₁ := (Real.continuousAt_log hp0.ne').div_const _
    have g : ContinuousAt (fun p : ℝ => 2 * Real.log 10 * (Real.log p / Real.log 10) + M.C +
        M.a * (max (M.X1 - Real.log p / Real.log 10) 0) ^ M.m) p₁ := by
      refine ((hc.const_mul _).add_const _).add (ContinuousAt.const_mul ?_ _)
      refine ContinuousAt.rpow_const ((continuousAt_const.sub hc).max continuousAt_const) (Or.inr hm.le)
    refine g.congr ?_
    have : ∀ᶠ p in 𝓝 p₁, M.X0 < Real.log p / Real.log 10 := hc.eventually (lt_mem_nhds (by simp only [hX]; exact h01))
    filter_upwards [this] with p hp'
    simp only [densityDelta, one_mul, if_neg (not_lt.mpr hp'.le)]
    by_cases h : Real.log p / Real.log 10 < M.X1
    · rw [if_pos h, max_eq_left (by linarith)]
    · rw [if_neg h, max_eq_right (by linarith), Real.zero_rpow hm.ne']
      ring

/-- C117: electrons per nucleon: of an element it is `Z/A`, and of a mixture it lies between those of its elements. -/
theorem C117_fraction (cs : List Component) (hn : ∀ c ∈ cs, 0 < c.atomInMolecule ∧ 0 < c.atomicNum) (hne : cs ≠ [])
    (lo hi : ℝ) (h : ∀ c ∈ cs, lo ≤ c.nucCharge / c.atomicNum ∧ c.nucCharge / c.atomicNum ≤ hi) :
    lo ≤ protonFraction cs ∧ protonFraction cs ≤ hi := by
  have key : ∀ cs : List Component, ∀ a b : ℝ, (∀ c ∈ cs, 0 < c.atomInMolecule ∧ 0 < c.atomicNum) →
      (∀ c ∈ cs, lo ≤ c.nucCharge / c.atomicNum ∧ c.nucCharge / c.atomicNum ≤ hi) → 0 ≤ b → lo * b ≤ a → a ≤ hi * b →
      b ≤ cs.foldl (fun acc c => acc + c.atomInMolecule * c.atomicNum) b ∧
      (cs ≠ [] → b < cs.foldl (fun acc c => acc + c.atomInMolecule * c.atomicNum) b) ∧
      lo * cs.foldl (fun acc c => acc + c.atomInMolecule * c.atomicNum) b ≤ cs.foldl (fun acc c => acc + c.atomInMolecule * c.nucCharge) a ∧
      cs.foldl (fun acc c => acc + c.atomInMolecule * c.nucCharge) a ≤ hi * cs.foldl (fun acc c => acc + c.atomInMolecule * c.atomicNum) b := by
    intro cs
    induction cs with
    | nil =>
      intro a b _ _ _ h1 h2
      exact ⟨le_rfl, fun h => absurd rfl h, h1, h2⟩
    | cons c cs ih =>
      intro a b hn h hb h1 h2
      obtain ⟨n0, a0⟩ := hn c (by simp)
      obtain ⟨l, u⟩ := h c (by simp)
      rw [le_div_iff₀ a0] at l
      rw [div_le_iff₀ a0] at u
      have hp : 0 < c.atomInMolecule * c.atomicNum := by positivity
      have l' := mul_le_mul_of_nonneg_left l n0.le
      have u' := mul_le_mul_of_nonneg_left u n0.le
      obtain ⟨q1, _, q3, q4⟩ := ih (a + c.atomInMolecule * c.nucCharge) (b + c.atomInMolecule * c.atomicNum)
        (fun d hd => hn d (by simp [hd])) (fun d hd => h d (by simp [hd])) (by linarith) (by nlinarith) (by nlinarith)
      simp only [List.foldl_cons]
      exact ⟨by linarith, fun _ => by linarith, q3, q4⟩
  obtain ⟨_, q2, q3, q4⟩ := key cs 0 0 hn h le_rfl (by simp) (by simp)
  have := q2 hne
  unfold protonFraction sumOver
  rw [le_div_iff₀ this, div_le_iff₀ this]
  exact ⟨q3, q4⟩

/-- Water is between hydrogen and oxygen. -/
example : ∃ cs : List Component, cs.length = 2 ∧ ∀ c ∈ cs, 0 < c.atomInMolecule ∧ 0 < c.atomicNum ∧ 0.49 ≤ c.nucCharge / c.atomicNum ∧
    c.nucCharge / c.atomicNum ≤ 1 :=
  ⟨[⟨[], 1, 1.008, 2, 202.4, 446, 938.3, 1, 0⟩, ⟨[], 8, 15.999, 1, 173.4, 1429, 938.9, 3, 0⟩], rfl, by
    intro c hc
    fin_cases hc <;> norm_num⟩

/-! ## The Fermi plateau -/

/-- What the losses below a fixed energy `e` tend to, divided by twice `π N r² m Z/A`: the mass of the particle does not occur. -/
noncomputable def Spec.plateau (M : Med) (e : ℝ) : ℝ := Real.log (2 * ME * e / (1e-6 * M.I) ^ 2) - 1 - M.C

lemma delta_plateau (M : Med) {β γ : ℝ} (h0 : M.X0 * Real.log 10 ≤ Real.log (β * γ))
    (h1 : M.X1 * Real.log 10 ≤ Real.log (β * γ)) : densityDelta M β γ = 2 * Real.log (β * γ) + M.C := by
  have hl : 0 < Real.log 10 := Real.log_pos (by norm_num)
  have e0 : ¬ Real.log (β * γ) / Real.log 10 < M.X0 := by
    rw [div_lt_iff₀ hl]
    linarith
  have e1 : ¬ Real.log (β * γ) / Real.log 10 < M.X1 := by
    rw [div_lt_iff₀ hl]
    linarith
  simp only [densityDelta, if_neg e0, if_neg e1]
  field_simp

lemma div_atTop (k : ℝ) : Tendsto (fun E : ℝ => k / E) atTop (𝓝 0) := tendsto_const_nhds.div_atTop tendsto_id

lemma vmax_rossi_limit (m I : ℝ) (hm : 0 < m) : Tendsto (fun E => (limBetheBloch m I E).vMax) atTop (𝓝 1) ∧
    ∀ᶠ E in atTop, (limBetheBloch m I E).vMin = 1e-6 * I / E := by
  have hme := me_pos'
  have h1 : Tendsto (fun E : ℝ => 2 * ME * (E / m * (E / m) - 1) / ((1 + 2 * (E / m) * (ME / m) + ME / m * (ME / m)) * E)) atTop (𝓝 1) := by
    have a : Tendsto (fun E : ℝ => 2 * ME / m ^ 2 - 2 * ME * (1 / E) ^ 2) atTop (𝓝 (2 * ME / m ^ 2 - 2 * ME * 0 ^ 2)) :=
      (((div_atTop 1).pow 2).const_mul _).const_sub _
    have b : Tendsto (fun E : ℝ => 2 * ME / m ^ 2 + (1 + ME / m * (ME / m)) * (1 / E)) atTop (𝓝 (2 * ME / m ^ 2 + (1 + ME / m * (ME / m)) * 0)) :=
      ((div_atTop 1).const_mul _).const_add _
    have := a.div b (by positivity)
    rw [show (2 * ME / m ^ 2 - 2 * ME * 0 ^ 2) / (2 * ME / m ^ 2 + (1 + ME / m * (ME / m)) * 0) = 1 by field_simp; norm_num] at this
    refine this.congr' ?_
    filter_upwards [eventually_gt_atTop 0] with E hE
    simp only [Pi.div_apply]
    field_simp
    ring
  have h2 : Tendsto (fun E : ℝ => 1 - m / E) atTop (𝓝 1) := by
    have := (div_atTop m).const_sub 1
    rwa [sub_zero] at this
  have h3 := h1.min h2
  rw [min_self] at h3
  have h4 : ∀ᶠ E in atTop, limBetheBloch m I E = ⟨1e-6 * I / E, min (2 * ME * (E / m * (E / m) - 1) / ((1 + 2 * (E / m) * (ME / m) + ME / m * (ME / m)) * E)) (1 - m / E)⟩ := by
    filter_upwards [h3.eventually (lt_mem_nhds (show (1 / 2 : ℝ) < 1 by norm_num)), (div_atTop (1e-6 * I)).eventually (gt_mem_nhds (show (0 : ℝ) < 1 / 2 by norm_num))] with E hE hE'
    unfold limBetheBloch KinLim.raised
    rw [if_neg]
    exact not_lt.mpr (hE'.le.trans hE.le)
  refine ⟨h3.congr' ?_, ?_⟩
  · filter_upwards [h4] with E hE
    rw [hE]
  · filter_upwards [h4] with E hE
    rw [hE]

lemma gammaBeta {m E : ℝ} (hm : 0 < m) (hE : m < E) : 0 < ionizBeta m E * (E / m) ∧
    Real.log (ionizBeta m E * (E / m)) = Real.log (E ^ 2 / m ^ 2 - 1) / 2 := by
  obtain ⟨b0, b1, b2⟩ := ionizBeta_pos hm hE
  have hE0 : 0 < E := hm.trans hE
  have h : 0 < ionizBeta m E * (E / m) := by positivity
  refine ⟨h, ?_⟩
  have e : E ^ 2 / m ^ 2 - 1 = (ionizBeta m E * (E / m)) ^ 2 := by
    rw [mul_pow, pow_two (ionizBeta m E), b2]
    field_simp
  rw [e, Real.log_pow]
  norm_num

lemma log_gamma_atTop {m : ℝ} (hm : 0 < m) : Tendsto (fun E : ℝ => Real.log (E ^ 2 / m ^ 2 - 1) / 2) atTop atTop := by
  apply Tendsto.atTop_div_const two_pos
  apply Real.tendsto_log_atTop.comp
  apply tendsto_atTop_add_const_right _ (-1)
  exact (tendsto_pow_atTop two_ne_zero).atTop_div_const (by positivity)

/-- C117: below a fixed energy `e` the losses of a heavy particle tend to the plateau of Fermi. -/
theorem C117_plateau_heavy (m z : ℝ) (M : Med) (e : ℝ) (hm : 0 < m) (hI : 0 < M.I) (he : 1e-6 * M.I < e) :
    Tendsto (fun E => rossiLoss m z M (e / E) E) atTop (𝓝 (IONK / 2 * z ^ 2 * protonFraction M.components * max (Spec.plateau M e) 0)) := by
  have hme := me_pos'
  obtain ⟨hv, hvm⟩ := vmax_rossi_limit m M.I hm
  have hI6 : 0 < 1e-6 * M.I := by positivity
  have he0 : 0 < e := hI6.trans he
  have hβ : Tendsto (fun E : ℝ => 1 - m ^ 2 / E ^ 2) atTop (𝓝 1) := by
    have := ((div_atTop m).pow 2).const_sub 1
    norm_num [div_pow] at this
    exact this
  have hR : Tendsto (fun E : ℝ => Real.log (2 * ME * e) - 2 * Real.log (1e-6 * M.I) - M.C + (e / E / (2 * (1 + 1 / (E / m)))) ^ 2 -
      (1 - m ^ 2 / E ^ 2) * (1 + e / E / (limBetheBloch m M.I E).vMax)) atTop (𝓝 (Spec.plateau M e)) := by
    have a1 : Tendsto (fun E : ℝ => (e / E / (2 * (1 + 1 / (E / m)))) ^ 2) atTop (𝓝 0) := by
      have b1 : Tendsto (fun E : ℝ => 2 * (1 + 1 / (E / m))) atTop (𝓝 (2 * (1 + 0))) := by
        refine (Tendsto.const_add 1 ?_).const_mul 2
        simp only [one_div_div]
        exact div_atTop m
      have := ((div_atTop e).div b1 (by norm_num)).pow 2
      norm_num at this
      norm_num
      exact this
    have a2 : Tendsto (fun E : ℝ => (1 - m ^ 2 / E ^ 2) * (1 + e / E / (limBetheBloch m M.I E).vMax)) atTop (𝓝 1) := by
      have := hβ.mul (((div_atTop e).div hv one_ne_zero).const_add 1)
      norm_num at this
      exact this
    have := (a1.const_add (Real.log (2 * ME * e) - 2 * Real.log (1e-6 * M.I) - M.C)).sub a2
    refine this.trans (le_of_eq ?_)
    congr 1
    unfold Spec.plateau
    rw [Real.log_div (by positivity) (by positivity), Real.log_pow]
    push_cast
    ring
  have hk : Tendsto (fun E : ℝ => IONK * z * z * protonFraction M.components / (2 * (1 - m ^ 2 / E ^ 2))) atTop
      (𝓝 (IONK / 2 * z ^ 2 * protonFraction M.components)) := by
    have := (tendsto_const_nhds (x := IONK * z * z * protonFraction M.components)).div (hβ.const_mul 2) (by norm_num)
    refine this.trans (le_of_eq ?_)
    congr 1
    ring
  have := hk.mul (hR.max (tendsto_const_nhds (x := (0 : ℝ))))
  refine this.congr' ?_
  have hbig := log_gamma_atTop hm
  filter_upwards [eventually_gt_atTop m, eventually_gt_atTop 0, hvm, (hv.sub (div_atTop e)).eventually (lt_mem_nhds (show (0 : ℝ) < 1 - 0 by norm_num)),
    hbig.eventually_ge_atTop (M.X0 * Real.log 10), hbig.eventually_ge_atTop (M.X1 * Real.log 10)] with E h1 h2 h3 h4 h5 h6
  obtain ⟨g0, g1⟩ := gammaBeta hm h1
  rw [← g1] at h5 h6
  obtain ⟨b0, b1, b2⟩ := ionizBeta_pos hm h1
  unfold rossiLoss
  simp only [delta_plateau M h5 h6, min_eq_right (show e / E ≤ (limBetheBloch m M.I E).vMax by linarith), h3, b2]
  rw [if_neg (show ¬ e / E = 1e-6 * M.I / E by
    rw [div_left_inj' h2.ne']
    exact he.ne')]
  have eR : Real.log (e / E * (2 * ME * E)) + 2 * Real.log (ionizBeta m E * (E / m) / (1e-6 * M.I)) + e / E / (2 * (1 + 1 / (E / m))) * (e / E / (2 * (1 + 1 / (E / m)))) -
      ((1 - m ^ 2 / E ^ 2) * (1 + e / E / (limBetheBloch m M.I E).vMax) + (2 * Real.log (ionizBeta m E * (E / m)) + M.C)) =
      Real.log (2 * ME * e) - 2 * Real.log (1e-6 * M.I) - M.C + (e / E / (2 * (1 + 1 / (E / m)))) ^ 2 -
      (1 - m ^ 2 / E ^ 2) * (1 + e / E / (limBetheBloch m M.I E).vMax) := by
    rw [Real.log_div g0.ne' hI6.ne', show e / E * (2 * ME * E) = 2 * ME * e by field_simp]
    ring
  rw [eR]
  set R := Real.log (2 * ME * e) - 2 * Real.log (1e-6 * M.I) - M.C + (e / E / (2 * (1 + 1 / (E / m)))) ^ 2 -
      (1 - m ^ 2 / E ^ 2) * (1 + e / E / (limBetheBloch m M.I E).vMax)
  split_ifs with h
  · rw [max_eq_left h.le, mul_comm]
  · rw [max_eq_right (not_lt.mp h), mul_zero]

lemma betaGammaElectron {E : ℝ} (hE : ME < E) : 0 < 1 - 1 / (E / ME * (E / ME)) ∧
    Real.sqrt (1 - 1 / (E / ME * (E / ME))) * (E / ME) = ionizBeta ME E * (E / ME) := by
  have hme := me_pos'
  have hE0 : 0 < E := hme.trans hE
  obtain ⟨b0, b1, b2⟩ := ionizBeta_pos hme hE
  have e : 1 - 1 / (E / ME * (E / ME)) = ionizBeta ME E * ionizBeta ME E := by
    rw [b2]
    field_simp
  constructor
  · rw [e]
    positivity
  · rw [e, Real.sqrt_mul_self b0.le]

lemma log_ratio_limit (Δ : ℝ) : Tendsto (fun E : ℝ => Real.log ((E / ME - 1 + 2) * (E / ME - 1 - Δ) / (E ^ 2 / ME ^ 2 - 1))) atTop (𝓝 0) := by
  have hme := me_pos'
  have a : Tendsto (fun E : ℝ => (1 + ME / E) * (1 - (1 + Δ) * (ME / E)) / (1 - (ME / E) ^ 2)) atTop (𝓝 ((1 + 0) * (1 - (1 + Δ) * 0) / (1 - 0 ^ 2))) :=
    (((div_atTop ME).const_add 1).mul (((div_atTop ME).const_mul _).const_sub 1)).div (((div_atTop ME).pow 2).const_sub 1) (by norm_num)
  have b := a.log (by norm_num)
  norm_num at b
  refine b.congr' ?_
  filter_upwards [eventually_gt_atTop ME] with E hE
  have hE0 : 0 < E := hme.trans hE
  congr 1
  rw [div_eq_div_iff (by
    have : ME / E < 1 := by rwa [div_lt_one hE0]
    have : 0 < ME / E := by positivity
    nlinarith) (by
    have : 1 < E / ME := by rwa [one_lt_div hme]
    rw [← div_pow]
    nlinarith)]
  field_simp
  ring

/-- C117: the losses of an electron below a fixed energy have a plateau as well. It is the one of heavy particles (`IONK = 4π N r² m`),
raised by `log(1 MeV / m)`: the code divides the square of the ionization energy by the electron mass in place of its square. -/
theorem C117_plateau_electron (M : Med) (e : ℝ) (hI : 0 < M.I) (he : 0 < e) :
    Tendsto (fun E => electronDedx (mollerLoss ME M) (e / E) E) atTop
      (𝓝 (max (2 * Real.pi * NAvogadro * RE ^ 2 * ME * protonFraction M.components * (Spec.plateau M e + Real.log (1 / ME))) 0)) := by
  have hme := me_pos'
  have hI6 : 0 < 1e-6 * M.I := by positivity
  set Δ := e / ME with hΔ
  have hΔ0 : 0 < Δ := by positivity
  have hβ : Tendsto (fun E : ℝ => 1 - 1 / (E / ME * (E / ME))) atTop (𝓝 1) := by
    have := ((div_atTop ME).pow 2).const_sub 1
    norm_num at this
    refine this.congr fun E => ?_
    rw [one_div, mul_inv, inv_div]
    ring
  have hτ : Tendsto (fun E : ℝ => E / ME - 1) atTop atTop :=
    tendsto_atTop_add_const_right _ (-1) (tendsto_id.atTop_div_const hme)
  have hΔτ : Tendsto (fun E : ℝ => Δ / (E / ME - 1)) atTop (𝓝 0) := tendsto_const_nhds.div_atTop hτ
  have hlog : Tendsto (fun E : ℝ => Real.log (1 - Δ / (E / ME - 1))) atTop (𝓝 0) := by
    have := (hΔτ.const_sub 1).log (by norm_num)
    simpa using this
  have haux : Tendsto (fun E : ℝ => (Δ * Δ / 2 + (2 * (E / ME - 1) + 1) * Real.log (1 - Δ / (E / ME - 1))) / (E / ME * (E / ME))) atTop (𝓝 0) := by
    have a1 : Tendsto (fun E : ℝ => Δ * Δ / 2 * (ME / E) ^ 2 + (2 * (ME / E) - (ME / E) ^ 2) * Real.log (1 - Δ / (E / ME - 1))) atTop
        (𝓝 (Δ * Δ / 2 * 0 ^ 2 + (2 * 0 - 0 ^ 2) * 0)) :=
      (((div_atTop ME).pow 2).const_mul _).add ((((div_atTop ME).const_mul 2).sub ((div_atTop ME).pow 2)).mul hlog)
    norm_num at a1
    refine a1.congr' ?_
    filter_upwards [eventually_gt_atTop 0] with E hE
    field_simp
    ring
  have hq : Tendsto (fun E : ℝ => (E / ME - 1) / (E / ME - 1 - Δ)) atTop (𝓝 1) := by
    have := (hΔτ.const_sub 1).inv₀ (by norm_num)
    norm_num at this
    refine this.congr' ?_
    filter_upwards [hτ.eventually_gt_atTop 0] with E hE
    rw [show 1 - Δ / (E / ME - 1) = (E / ME - 1 - Δ) / (E / ME - 1) by rw [sub_div, div_self hE.ne'], inv_div]
  have hR : Tendsto (fun E : ℝ => Real.log (2 * ME * Δ / (1e-6 * M.I) ^ 2) + Real.log ((E / ME - 1 + 2) * (E / ME - 1 - Δ) / (E ^ 2 / ME ^ 2 - 1)) +
      ((Δ * Δ / 2 + (2 * (E / ME - 1) + 1) * Real.log (1 - Δ / (E / ME - 1))) / (E / ME * (E / ME)) - 1 - (1 - 1 / (E / ME * (E / ME))) +
      (E / ME - 1) / (E / ME - 1 - Δ)) - M.C) atTop (𝓝 (Spec.plateau M e + Real.log (1 / ME))) := by
    have := (((log_ratio_limit Δ).const_add (Real.log (2 * ME * Δ / (1e-6 * M.I) ^ 2))).add (((haux.sub_const 1).sub hβ).add hq)).sub_const M.C
    refine this.trans (le_of_eq ?_)
    congr 1
    unfold Spec.plateau
    have : 2 * ME * Δ / (1e-6 * M.I) ^ 2 = 2 * ME * e / (1e-6 * M.I) ^ 2 * (1 / ME) := by
      rw [hΔ]
      field_simp
    rw [this, Real.log_mul (by positivity) (by positivity)]
    ring
  have hk : Tendsto (fun E : ℝ => 2 * Real.pi * RE * RE * ME / (1 - 1 / (E / ME * (E / ME))) * (NAvogadro * protonFraction M.components)) atTop
      (𝓝 (2 * Real.pi * NAvogadro * RE ^ 2 * ME * protonFraction M.components)) := by
    have := ((tendsto_const_nhds (x := 2 * Real.pi * RE * RE * ME)).div hβ one_ne_zero).mul_const (NAvogadro * protonFraction M.components)
    refine this.trans (le_of_eq ?_)
    congr 1
    ring
  have := (hk.mul hR).max (tendsto_const_nhds (x := (0 : ℝ)))
  refine this.congr' ?_
  have hbig := log_gamma_atTop hme
  filter_upwards [eventually_gt_atTop ME, hτ.eventually_gt_atTop Δ, (div_atTop ME).eventually (gt_mem_nhds (show (0 : ℝ) < 1 / 2 by norm_num)),
    (div_atTop e).eventually (gt_mem_nhds (show (0 : ℝ) < 1 / 4 by norm_num)),
    hbig.eventually_ge_atTop (M.X0 * Real.log 10), hbig.eventually_ge_atTop (M.X1 * Real.log 10)] with E h1 h2 h3 h4 h5 h6
  have hE0 : 0 < E := hme.trans h1
  obtain ⟨g0, g1⟩ := gammaBeta hme h1
  obtain ⟨b0, b1⟩ := betaGammaElectron h1
  rw [← g1, ← b1] at h5 h6
  obtain ⟨_, l2, _⟩ := vmax_moller h1
  unfold electronDedx
  rw [div_mul_cancel₀ _ hE0.ne', mollerLoss_eq M E _ h1 (by rw [l2]; linarith)]
  congr 1
  unfold mollerRaw
  simp only [delta_plateau M h5 h6]
  rw [show e / E * E / ME = Δ by rw [hΔ]; field_simp]
  have hγ1 : 0 < E ^ 2 / ME ^ 2 - 1 := by
    have : 1 < E / ME := by rwa [one_lt_div hme]
    rw [← div_pow]
    nlinarith
  have e1 : Real.log (2 * (E / ME - 1 + 2) / ((1e-6 * M.I) ^ 2 / ME)) + Real.log ((E / ME - 1 - Δ) * Δ) -
      2 * Real.log (Real.sqrt (1 - 1 / (E / ME * (E / ME))) * (E / ME)) =
      Real.log (2 * ME * Δ / (1e-6 * M.I) ^ 2) + Real.log ((E / ME - 1 + 2) * (E / ME - 1 - Δ) / (E ^ 2 / ME ^ 2 - 1)) := by
    have ha : 0 < E / ME - 1 - Δ := by linarith
    have hb : 0 < E / ME - 1 + 2 := by linarith
    have h6' : 0 < (1e-6 * M.I) ^ 2 := by positivity
    rw [b1, g1, mul_div_cancel₀ _ two_ne_zero, Real.log_div (by positivity) (by positivity), Real.log_div h6'.ne' hme.ne',
      Real.log_mul two_ne_zero hb.ne', Real.log_mul ha.ne' hΔ0.ne', Real.log_div (by positivity) h6'.ne', Real.log_mul (by positivity) hΔ0.ne',
      Real.log_mul two_ne_zero hme.ne', Real.log_div (by positivity) hγ1.ne', Real.log_mul hb.ne' ha.ne']
    ring
  linear_combination -(2 * Real.pi * RE * RE * ME / (1 - 1 / (E / ME * (E / ME))) * (NAvogadro * protonFraction M.components)) * e1

/-- C117: a positron has the plateau of the electron. -/
theorem C117_plateau_positron (M : Med) (e : ℝ) (hI : 0 < M.I) (he : 0 < e) :
    Tendsto (fun E => electronDedx (bhabhaLoss ME M) (e / E) E) atTop
      (𝓝 (max (2 * Real.pi * NAvogadro * RE ^ 2 * ME * protonFraction M.components * (Spec.plateau M e + Real.log (1 / ME))) 0)) := by
  have hme := me_pos'
  have hI6 : 0 < 1e-6 * M.I := by positivity
  set Δ := e / ME with hΔ
  have hΔ0 : 0 < Δ := by positivity
  have hβ : Tendsto (fun E : ℝ => 1 - 1 / (E / ME * (E / ME))) atTop (𝓝 1) := by
    have := ((div_atTop ME).pow 2).const_sub 1
    norm_num at this
    refine this.congr fun E => ?_
    rw [one_div, mul_inv, inv_div]
    ring
  have hτ : Tendsto (fun E : ℝ => E / ME - 1) atTop atTop :=
    tendsto_atTop_add_const_right _ (-1) (tendsto_id.atTop_div_const hme)
  have hy : Tendsto (fun E : ℝ => 1 / (E / ME + 1)) atTop (𝓝 0) :=
    tendsto_const_nhds.div_atTop (tendsto_atTop_add_const_right _ 1 (tendsto_id.atTop_div_const hme))
  have hd : Tendsto (fun E : ℝ => 1 / (E / ME - 1)) atTop (𝓝 0) := tendsto_const_nhds.div_atTop hτ
  have haux : Tendsto (fun E : ℝ => (E / ME - 1 + 2 * Δ - (3 * Δ * Δ * (1 / (E / ME + 1)) / 2) - (Δ - Δ ^ 3 / 3) * (1 / (E / ME + 1)) * (1 / (E / ME + 1)) -
      (Δ * Δ / 2 - (E / ME - 1) * Δ ^ 3 / 3 + Δ ^ 4 / 4) * (1 / (E / ME + 1)) ^ 3) *
      ((1 - 1 / (E / ME * (E / ME))) / (E / ME - 1))) atTop (𝓝 1) := by
    have a1 := ((((((hd.const_mul (2 * Δ)).const_add 1).sub ((hy.mul hd).const_mul (3 * Δ * Δ / 2))).sub (((hy.mul hy).mul hd).const_mul (Δ - Δ ^ 3 / 3))).sub
      (((hy.pow 3).mul hd).const_mul (Δ * Δ / 2 + Δ ^ 4 / 4))).add ((hy.pow 3).const_mul (Δ ^ 3 / 3))).mul hβ
    norm_num only [mul_zero, zero_mul, sub_zero, add_zero, mul_one, zero_pow] at a1
    refine (a1.congr' ?_).trans (le_of_eq ?_)
    · filter_upwards [hτ.eventually_gt_atTop 0] with E hE
      generalize 1 - 1 / (E / ME * (E / ME)) = B
      generalize 1 / (E / ME + 1) = y
      generalize E / ME - 1 = τ at *
      field_simp
      ring
    · congr 1
  have hR : Tendsto (fun E : ℝ => Real.log (2 * ME * Δ / (1e-6 * M.I) ^ 2) - (E / ME - 1 + 2 * Δ - (3 * Δ * Δ * (1 / (E / ME + 1)) / 2) - (Δ - Δ ^ 3 / 3) * (1 / (E / ME + 1)) * (1 / (E / ME + 1)) -
      (Δ * Δ / 2 - (E / ME - 1) * Δ ^ 3 / 3 + Δ ^ 4 / 4) * (1 / (E / ME + 1)) ^ 3) *
      ((1 - 1 / (E / ME * (E / ME))) / (E / ME - 1)) - M.C) atTop (𝓝 (Spec.plateau M e + Real.log (1 / ME))) := by
    have := (haux.const_sub (Real.log (2 * ME * Δ / (1e-6 * M.I) ^ 2))).sub_const M.C
    refine this.trans (le_of_eq ?_)
    congr 1
    unfold Spec.plateau
    have : 2 * ME * Δ / (1e-6 * M.I) ^ 2 = 2 * ME * e / (1e-6 * M.I) ^ 2 * (1 / ME) := by
      rw [hΔ]
      field_simp
    rw [this, Real.log_mul (by positivity) (by positivity)]
    ring
  have hk : Tendsto (fun E : ℝ => 2 * Real.pi * RE * RE * ME / (1 - 1 / (E / ME * (E / ME))) * (NAvogadro * protonFraction M.components)) atTop
      (𝓝 (2 * Real.pi * NAvogadro * RE ^ 2 * ME * protonFraction M.components)) := by
    have := ((tendsto_const_nhds (x := 2 * Real.pi * RE * RE * ME)).div hβ one_ne_zero).mul_const (NAvogadro * protonFraction M.components)
    refine this.trans (le_of_eq ?_)
    congr 1
    ring
  have := (hk.mul hR).max (tendsto_const_nhds (x := (0 : ℝ)))
  refine this.congr' ?_
  have hbig := log_gamma_atTop hme
  filter_upwards [eventually_gt_atTop ME, (div_atTop ME).eventually (gt_mem_nhds (show (0 : ℝ) < 1 / 2 by norm_num)),
    (div_atTop e).eventually (gt_mem_nhds (show (0 : ℝ) < 1 / 4 by norm_num)),
    hbig.eventually_ge_atTop (M.X0 * Real.log 10), hbig.eventually_ge_atTop (M.X1 * Real.log 10)] with E h1 h3 h4 h5 h6
  have hE0 : 0 < E := hme.trans h1
  obtain ⟨g0, g1⟩ := gammaBeta hme h1
  obtain ⟨b0, b1⟩ := betaGammaElectron h1
  rw [← g1, ← b1] at h5 h6
  obtain ⟨_, l2, _⟩ := vmax_bhabha h1
  unfold electronDedx
  rw [div_mul_cancel₀ _ hE0.ne', bhabhaLoss_eq M E _ h1 (by rw [l2]; linarith)]
  congr 1
  unfold bhabhaRaw
  simp only [delta_plateau M h5 h6]
  rw [show e / E * E / ME = Δ by rw [hΔ]; field_simp]
  have e1 : Real.log (2 * (E / ME - 1 + 2) / ((1e-6 * M.I) ^ 2 / ME)) + Real.log ((E / ME - 1) * Δ) -
      2 * Real.log (Real.sqrt (1 - 1 / (E / ME * (E / ME))) * (E / ME)) = Real.log (2 * ME * Δ / (1e-6 * M.I) ^ 2) := by
    have ha : 0 < E / ME - 1 := by
      have : 1 < E / ME := by rwa [one_lt_div hme]
      linarith
    have hb : 0 < E / ME - 1 + 2 := by linarith
    have h6' : 0 < (1e-6 * M.I) ^ 2 := by positivity
    rw [b1, g1, mul_div_cancel₀ _ two_ne_zero, Real.log_div (by positivity) (by positivity), Real.log_div h6'.ne' hme.ne',
      Real.log_mul two_ne_zero hb.ne', Real.log_mul ha.ne' hΔ0.ne', Real.log_div (by positivity) h6'.ne', Real.log_mul (by positivity) hΔ0.ne',
      Real.log_mul two_ne_zero hme.ne', show E ^ 2 / ME ^ 2 - 1 = (E / ME - 1 + 2) * (E / ME - 1) by ring, Real.log_mul hb.ne' ha.ne']
    ring
  linear_combination -(2 * Real.pi * RE * RE * ME / (1 - 1 / (E / ME * (E / ME))) * (NAvogadro * protonFraction M.components)) * e1

lemma ionk_close : |2 * Real.pi * NAvogadro * RE ^ 2 * ME / (IONK / 2) - 1| < 1e-4 := by
  have h1 := Real.pi_gt_d20
  have h2 := Real.pi_lt_d20
  rw [abs_lt]
  unfold NAvogadro RE ME IONK
  constructor
  · rw [lt_sub_iff_add_lt, lt_div_iff₀ (by norm_num)]
    norm_num
    nlinarith
  · rw [sub_lt_iff_lt_add, div_lt_iff₀ (by norm_num)]
    norm_num
    nlinarith

/-- C117: the two constants in front agree to `1e-4`, so the raise of the plateau of electrons is a difference between particles: at
high energies an electron loses more than a heavy particle of the same charge, by the part `0.66 / plateau`, whichever the medium. -/
theorem C117_plateau_mismatch (m z : ℝ) (M : Med) (e : ℝ) (hm : 0 < m) (hz : z ^ 2 = 1) (hI : 0 < M.I) (he : 1e-6 * M.I < e)
    (hM : 0 < protonFraction M.components) (hP : 0 < Spec.plateau M e) (hP' : Spec.plateau M e < 50) :
    ∀ᶠ E in atTop, (1 + 0.66 / Spec.plateau M e) * rossiLoss m z M (e / E) E < electronDedx (mollerLoss ME M) (e / E) E ∧
      (1 + 0.66 / Spec.plateau M e) * rossiLoss m z M (e / E) E < electronDedx (bhabhaLoss ME M) (e / E) E := by
  have hI6 : 0 < 1e-6 * M.I := by positivity
  have h1 := (C117_plateau_heavy m z M e hm hI he).const_mul (1 + 0.66 / Spec.plateau M e)
  have h2 := C117_plateau_electron M e hI (hI6.trans he)
  have h3 := C117_plateau_positron M e hI (hI6.trans he)
  have hc := ionk_close
  have hI0 : 0 < IONK / 2 := by norm_num [IONK]
  have hl := (log_by_power (x := 1 / ME) (lo := 0.6693) (hi := 1) 3 2 (by norm_num [ME]) (by norm_num) (by norm_num [ME]) (by norm_num [ME])).1
  have key : (1 + 0.66 / Spec.plateau M e) * (IONK / 2 * z ^ 2 * protonFraction M.components * max (Spec.plateau M e) 0) <
      max (2 * Real.pi * NAvogadro * RE ^ 2 * ME * protonFraction M.components * (Spec.plateau M e + Real.log (1 / ME))) 0 := by
    apply lt_max_of_lt_left
    rw [max_eq_left hP.le, hz]
    set P := Spec.plateau M e
    set K := 2 * Real.pi * NAvogadro * RE ^ 2 * ME
    have hK : (1 - 1e-4) * (IONK / 2) < K := by
      have := (abs_lt.mp hc).1
      rw [lt_sub_iff_add_lt, lt_div_iff₀ hI0] at this
      linarith
    have e1 : (1 + 0.66 / P) * (IONK / 2 * 1 * protonFraction M.components * P) = (IONK / 2) * (P + 0.66) * protonFraction M.components := by
      field_simp
    rw [e1]
    have : (IONK / 2) * (P + 0.66) < K * (P + Real.log (1 / ME)) := by
      have a1 : (IONK / 2) * (P + 0.66) < (1 - 1e-4) * (IONK / 2) * (P + Real.log (1 / ME)) := by
        nlinarith
      have a2 : (1 - 1e-4) * (IONK / 2) * (P + Real.log (1 / ME)) ≤ K * (P + Real.log (1 / ME)) := by
        gcongr
      linarith
    calc _ < K * (P + Real.log (1 / ME)) * protonFraction M.components := by gcongr
      _ = _ := by ring
  exact (h1.eventually_lt h2 key).and (h1.eventually_lt h3 key)

/-- In water, below half an MeV, the plateau is about 21, so the difference is 3 %. -/
example : 0 < exWater.I ∧ 1e-6 * exWater.I < 0.5 ∧ 0 < protonFraction exWater.components ∧ 20 < Spec.plateau exWater 0.5 ∧ Spec.plateau exWater 0.5 < 22 := by
  have := log_by_power (x := 2 * ME * 0.5 / (1e-6 * 75) ^ 2) (lo := 18) (hi := 19) 2 36 (by norm_num [ME]) (by norm_num) (by norm_num [ME]) (by norm_num [ME])
  refine ⟨by norm_num [exWater], by norm_num [exWater], by norm_num [exWater, exHydrogen, exOxygen, protonFraction, sumOver], ?_, ?_⟩
  · unfold Spec.plateau
    simp only [exWater]
    linarith
  · unfold Spec.plateau
    simp only [exWater]
    linarith

/-- C118: the ratio of the K shell to all shells is one for hydrogen, grows with the charge and stays below 1.27 up to charge 118; for
uranium it exceeds 1.2. -/
theorem C118_ratio_range (c d : Component) (h1 : 1 ≤ c.nucCharge) (h : c.nucCharge < d.nucCharge) (h2 : d.nucCharge ≤ 118) :
    1 ≤ kshellRatio c ∧ (c.nucCharge = 1 → kshellRatio c = 1) ∧ kshellRatio c < kshellRatio d ∧ kshellRatio d < 1.27 ∧
    (92 ≤ d.nucCharge → 1.2 < kshellRatio d) := by
  have a0 : 0 ≤ Real.log c.nucCharge := Real.log_nonneg h1
  have a1 : Real.log c.nucCharge < Real.log d.nucCharge := Real.log_lt_log (by linarith) h
  have a2 : Real.log d.nucCharge ≤ 4.776 := (Real.log_le_log (by linarith) h2).trans
    (log_by_power (x := 118) (lo := 4.75) (hi := 4.776) 13 62 (by norm_num) (by norm_num) (by norm_num) (by norm_num)).2
  have a3 := (log_by_power (x := 92) (lo := 4.52) (hi := 4.525) 23 104 (by norm_num) (by norm_num) (by norm_num) (by norm_num)).1
  have a4 : 92 ≤ d.nucCharge → 4.52 ≤ Real.log d.nucCharge := fun h => a3.trans (Real.log_le_log (by norm_num) h)
  have a5 : c.nucCharge = 1 → Real.log c.nucCharge = 0 := fun h => by rw [h, Real.log_one]
  have hmono : ∀ a b : ℝ, 0 ≤ a → a < b → b ≤ 4.776 → 1 + 0.01481 * a * a - 0.000788 * a * a * a < 1 + 0.01481 * b * b - 0.000788 * b * b * b := by
    intro a b ha hab hb
    have e : 1 + 0.01481 * b * b - 0.000788 * b * b * b - (1 + 0.01481 * a * a - 0.000788 * a * a * a) =
        (b - a) * (0.01481 * (a + b) - 0.000788 * (a ^ 2 + a * b + b ^ 2)) := by ring
    have : 0 < 0.01481 * (a + b) - 0.000788 * (a ^ 2 + a * b + b ^ 2) := by nlinarith [mul_nonneg ha (ha.trans hab.le)]
    have := mul_pos (sub_pos.mpr hab) this
    linarith
  unfold kshellRatio
  simp only
  generalize Real.log c.nucCharge = a at *
  generalize Real.log d.nucCharge = b at *
  refine ⟨?_, fun h => by rw [a5 h]; norm_num, hmono a b a0 a1 a2, ?_, fun h => ?_⟩
  · rcases a0.eq_or_lt with h | h
    · rw [← h]
      norm_num
    · have := hmono 0 a le_rfl h (by linarith)
      linarith
  · rcases a2.eq_or_lt with h | h
    · rw [h]
      norm_num
    · have := hmono b 4.776 (by linarith) h le_rfl
      norm_num at this ⊢
      linarith
  · rcases (a4 h).eq_or_lt with h | h
    · rw [← h]
      norm_num
    · have := hmono 4.52 b (by norm_num) h a2
      norm_num at this ⊢
      linarith

example : exHydrogen.nucCharge = 1 ∧ exHydrogen.nucCharge < exOxygen.nucCharge ∧ exOxygen.nucCharge ≤ 118 := by
  norm_num [exHydrogen, exOxygen]

end Proposal
