import Verif.Props.KleinNishina
import Mathlib.Analysis.Real.Pi.Bounds

/-!
# C117: the total ionization loss does not depend on the cut
-/

open MeasureTheory Set Filter Topology

namespace Proposal

/-! ## Electrons -/

/-- The prefactor of both cross sections. -/
noncomputable def ionPref (M : Med) : ℝ := 2 * Real.pi * RE ^ 2 * NAvogadro * protonFraction M.components

lemma ionPref_pos {M : Med} (h : 0 < protonFraction M.components) : 0 < ionPref M := by
  have := re_pos'
  have := na_pos'
  have := Real.pi_pos
  unfold ionPref
  positivity

/-- Møller's formula in the share `ε` of the kinetic energy. -/
noncomputable def mollerShape (γ ε : ℝ) : ℝ :=
  (γ - 1) ^ 2 / (γ * γ) + 1 / ε * (1 / ε - (2 * γ - 1) / (γ * γ)) + 1 / (1 - ε) * (1 / (1 - ε) - (2 * γ - 1) / (γ * γ))

lemma mollerShape_pos {γ ε : ℝ} (hγ : 1 < γ) (h0 : 0 < ε) (h1 : ε < 1) : 0 < mollerShape γ ε := by
  have hq : (2 * γ - 1) / (γ * γ) ≤ 1 := by
    rw [div_le_one (by nlinarith)]
    nlinarith [sq_nonneg (γ - 1)]
  have h2 : 1 < 1 / ε := by rw [lt_div_iff₀ h0]; linarith
  have h3 : 1 < 1 / (1 - ε) := by rw [lt_div_iff₀ (by linarith)]; linarith
  have h4 : 0 < 1 / ε * (1 / ε - (2 * γ - 1) / (γ * γ)) := mul_pos (by linarith) (by linarith)
  have h5 : 0 < 1 / (1 - ε) * (1 / (1 - ε) - (2 * γ - 1) / (γ * γ)) := mul_pos (by linarith) (by linarith)
  have h6 : 0 ≤ (γ - 1) ^ 2 / (γ * γ) := by positivity
  unfold mollerShape
  linarith

lemma share_bounds {m E v : ℝ} (hm : 0 < m) (hE : m < E) (h0 : 0 < v) (h1 : v < 1 - m / E) :
    0 < v * E / (E - m) ∧ v * E / (E - m) < 1 := by
  have hE0 : 0 < E := hm.trans hE
  have h : 0 < E - m := by linarith
  refine ⟨by positivity, ?_⟩
  rw [div_lt_one h]
  have : (1 - m / E) * E = E - m := by field_simp
  nlinarith

lemma gamma_facts {m E : ℝ} (hm : 0 < m) (hE : m < E) :
    1 < E / m ∧ 0 < 1 - 1 / (E / m * (E / m)) ∧ 0 < 1 - 1 / (E / m) := by
  have hγ : 1 < E / m := by rw [one_lt_div hm]; exact hE
  refine ⟨hγ, ?_, ?_⟩
  · have : 1 / (E / m * (E / m)) < 1 := by rw [div_lt_one (by positivity)]; nlinarith
    linarith
  · have : 1 / (E / m) < 1 := by rw [div_lt_one (by positivity)]; exact hγ
    linarith

lemma moller_eq (m : ℝ) (M : Med) (E v : ℝ) (hm : 0 < m) (hE : m < E) (hM : 0 < protonFraction M.components)
    (h0 : 0 < v) (h1 : v < 1 - m / E) :
    moller m M E v = mollerShape (E / m) (v * E / (E - m)) / (1 - 1 / (E / m * (E / m))) * (1 / (E / m - 1)) *
      (1 / (1 - 1 / (E / m))) * ionPref M ∧ 0 < moller m M E v := by
  obtain ⟨g1, g2, g3⟩ := gamma_facts hm hE
  obtain ⟨s0, s1⟩ := share_bounds hm hE h0 h1
  have hp := mollerShape_pos g1 s0 s1
  have hi := ionPref_pos hM
  have g4 : 0 < E / m - 1 := by linarith
  have hpos : 0 < mollerShape (E / m) (v * E / (E - m)) / (1 - 1 / (E / m * (E / m))) * (1 / (E / m - 1)) *
      (1 / (1 - 1 / (E / m))) * ionPref M := by positivity
  have e : moller m M E v = max (mollerShape (E / m) (v * E / (E - m)) / (1 - 1 / (E / m * (E / m))) * (1 / (E / m - 1)) *
      (1 / (1 - 1 / (E / m))) * ionPref M) 0 := rfl
  rw [e, max_eq_left hpos.le]
  exact ⟨rfl, hpos⟩

/-- C117: Møller's cross section is positive for every loss, the bound at 0 never acts, and it is the same for both electrons of
the final state, whose losses add up to the kinetic energy. -/
theorem C117_moller (m : ℝ) (M : Med) (E v : ℝ) (hm : 0 < m) (hE : m < E) (hM : 0 < protonFraction M.components)
    (h0 : 0 < v) (h1 : v < 1 - m / E) :
    0 < moller m M E v ∧ moller m M E ((1 - m / E) - v) = moller m M E v := by
  have a := moller_eq m M E v hm hE hM h0 h1
  have b := moller_eq m M E ((1 - m / E) - v) hm hE hM (by linarith) (by linarith)
  refine ⟨a.2, ?_⟩
  rw [a.1, b.1]
  have hE0 : 0 < E := hm.trans hE
  have e : (1 - m / E - v) * E / (E - m) = 1 - v * E / (E - m) := by
    have : E - m ≠ 0 := by linarith
    field_simp
  rw [e]
  congr 4
  unfold mollerShape
  rw [sub_sub_cancel]
  ring

/-- What `FunctionToDEdxIntegral` gives before the bound at 0, as a function of the upper limit. -/
noncomputable def mollerRaw (M : Med) (E v : ℝ) : ℝ :=
  let γ := E / ME
  let τ := γ - 1
  let β2 := 1 - 1 / (γ * γ)
  let Δ := v * E / ME
  (Real.log (2 * (τ + 2) / ((1e-6 * M.I) ^ 2 / ME)) +
    ((Δ * Δ / 2 + (2 * τ + 1) * Real.log (1 - Δ / τ)) / (γ * γ) - 1 - β2 + Real.log ((τ - Δ) * Δ) + τ / (τ - Δ)) -
    densityDelta M (Real.sqrt β2) γ) * (2 * Real.pi * RE * RE * ME / β2) * (NAvogadro * protonFraction M.components)

lemma vmax_moller {E : ℝ} (hE : ME < E) : (limMoller ME E).vMin = 0 ∧ (limMoller ME E).vMax = 0.5 * (1 - ME / E) ∧
    0 < (limMoller ME E).vMax := by
  have hm := me_pos'
  have h : 0 < 1 - ME / E := by
    have : ME / E < 1 := by rw [div_lt_one (by linarith)]; exact hE
    linarith
  unfold limMoller KinLim.clamped
  rw [if_neg (by simp only; linarith)]
  exact ⟨rfl, rfl, by simp only; linarith⟩

lemma mollerLoss_eq (M : Med) (E v : ℝ) (hE : ME < E) (h1 : v ≤ (limMoller ME E).vMax) :
    mollerLoss ME M v E = max (mollerRaw M E v) 0 := by
  obtain ⟨l1, l2, l3⟩ := vmax_moller hE
  have hm := me_pos'
  have hE0 : 0 < E := hm.trans hE
  unfold mollerLoss mollerRaw
  simp only
  rw [if_neg (by rw [l1]; exact l3.ne'), min_eq_left h1]
  have : min ((limMoller ME E).vMax * E / ME) (v * E / ME) = v * E / ME := min_eq_right (by gcongr)
  rw [this]

lemma moller_algebra (τ x : ℝ) (h1 : τ ≠ 0) (h2 : x ≠ 0) (h3 : τ - x ≠ 0) (h4 : τ + 1 ≠ 0) (h5 : τ + 2 ≠ 0) :
    ((((τ + 1) * x + x * (τ + 1)) / 2 + (2 * τ + 1) * (-((τ + 1) / τ) / ((τ - x) / τ))) / ((τ + 1) * (τ + 1)) +
      (-(τ + 1) * x + (τ - x) * (τ + 1)) / ((τ - x) * x) + (0 * (τ - x) - τ * -(τ + 1)) / (τ - x) ^ 2) *
      (1 / (τ * (τ + 2) / ((τ + 1) * (τ + 1)))) =
    x * ((τ ^ 2 / ((τ + 1) * (τ + 1)) + 1 / (x / τ) * (1 / (x / τ) - (2 * (τ + 1) - 1) / ((τ + 1) * (τ + 1))) +
      1 / ((τ - x) / τ) * (1 / ((τ - x) / τ) - (2 * (τ + 1) - 1) / ((τ + 1) * (τ + 1)))) /
      (τ * (τ + 2) / ((τ + 1) * (τ + 1))) * (1 / τ) * (1 / (τ / (τ + 1)))) := by
  field_simp
  ring

lemma mollerRaw_deriv (M : Med) (E v : ℝ) (hE : ME < E) (hM : 0 < protonFraction M.components) (h0 : 0 < v)
    (h1 : v < 1 - ME / E) : HasDerivAt (mollerRaw M E) (E * (v * moller ME M E v)) v := by
  have hm := me_pos'
  have hE0 : 0 < E := hm.trans hE
  obtain ⟨g1, g2, g3⟩ := gamma_facts hm hE
  rw [(moller_eq ME M E v hm hE hM h0 h1).1]
  set γ := E / ME with hγ
  have hEγ : E = γ * ME := by rw [hγ]; field_simp
  have hΔd : HasDerivAt (fun v : ℝ => v * E / ME) γ v := by
    have := ((hasDerivAt_id v).mul_const E).div_const ME
    simpa [hγ] using this
  have hτ : 0 < γ - 1 := by linarith
  have hΔ : v * E / ME = v * γ := by rw [hγ]; ring
  have hlt : v * γ < γ - 1 := by
    have : (1 - ME / E) * γ = γ - 1 := by
      rw [hγ]
      field_simp
    nlinarith
  have hx : 0 < v * γ := by positivity
  have hd1 : 0 < 1 - v * E / ME / (γ - 1) := by
    rw [hΔ]
    have : v * γ / (γ - 1) < 1 := by rw [div_lt_one hτ]; exact hlt
    linarith
  have hd2 : 0 < (γ - 1 - v * E / ME) * (v * E / ME) := by rw [hΔ]; exact mul_pos (by linarith) hx
  have hd3 : γ - 1 - v * E / ME ≠ 0 := by rw [hΔ]; linarith
  have k1 := ((hΔd.mul hΔd).div_const 2).add ((((hΔd.div_const (γ - 1)).const_sub 1).log hd1.ne').const_mul (2 * (γ - 1) + 1))
  have k2 := (((k1.div_const (γ * γ)).sub_const 1).sub_const (1 - 1 / (γ * γ))).add
    (((hΔd.const_sub (γ - 1)).mul hΔd).log hd2.ne')
  have k3 := k2.add (((hasDerivAt_const v (γ - 1)).div (hΔd.const_sub (γ - 1)) hd3))
  have k4 := (((k3.const_add (Real.log (2 * (γ - 1 + 2) / ((1e-6 * M.I) ^ 2 / ME)))).sub_const
    (densityDelta M (Real.sqrt (1 - 1 / (γ * γ))) γ)).mul_const
    (2 * Real.pi * RE * RE * ME / (1 - 1 / (γ * γ)))).mul_const (NAvogadro * protonFraction M.components)
  refine k4.congr_deriv ?_
  simp only [hΔ, Pi.mul_apply] at *
  have hsh : v * E / (E - ME) = v * γ / (γ - 1) := by
    rw [hEγ]
    have : γ * ME - ME ≠ 0 := by nlinarith
    field_simp
  have e1 : 1 - v * γ / (γ - 1) = (γ - 1 - v * γ) / (γ - 1) := by field_simp
  have hw : γ - 1 - v * γ ≠ 0 := hd3
  unfold mollerShape ionPref
  rw [hsh, e1, hEγ]
  have e2 : 1 - 1 / γ = (γ - 1) / γ := by field_simp
  have e3 : 1 - 1 / (γ * γ) = (γ - 1) * (γ + 1) / (γ * γ) := by field_simp; ring
  rw [e2, e3]
  have hk := moller_algebra (γ - 1) (v * γ) hτ.ne' hx.ne' hw (by linarith) (by linarith)
  have e4 : γ - 1 + 1 = γ := by ring
  have e5 : γ - 1 + 2 = γ + 1 := by ring
  rw [e4, e5] at hk
  linear_combination (2 * Real.pi * RE * RE * ME * (NAvogadro * protonFraction M.components)) * hk

/-- An antiderivative on a closed interval on which the derivative is bounded by its sign. -/
lemma tile_of_deriv {f g : ℝ → ℝ} {a b : ℝ} (hab : a ≤ b) (hd : ∀ v ∈ Icc a b, HasDerivAt f (g v) v)
    (hp : ∀ v ∈ Icc a b, 0 ≤ g v) : f b - f a = ∫ v in a..b, g v ∧ f a ≤ f b := by
  have hi : IntervalIntegrable g volume a b := by
    refine intervalIntegral.intervalIntegrable_deriv_of_nonneg (g := f) ?_ ?_ ?_
    · rw [uIcc_of_le hab]
      exact fun v hv => (hd v hv).continuousAt.continuousWithinAt
    · intro v hv
      rw [min_eq_left hab, max_eq_right hab] at hv
      exact hd v ⟨hv.1.le, hv.2.le⟩
    · intro v hv
      rw [min_eq_left hab, max_eq_right hab] at hv
      exact hp v ⟨hv.1.le, hv.2.le⟩
  have e : ∫ v in a..b, g v = f b - f a :=
    intervalIntegral.integral_eq_sub_of_hasDerivAt (by rw [uIcc_of_le hab]; exact hd) hi
  refine ⟨e.symm, ?_⟩
  have := intervalIntegral.integral_nonneg (μ := volume) hab hp
  linarith

/-- C117: for electrons, raising the cut from `v₁` to `v₂` adds to the continuous loss exactly the energy carried by the losses
between the two cuts, once the continuous loss is positive. -/
theorem C117_moller_cut_partial (M : Med) (E v₁ v₂ : ℝ) (hE : ME < E) (hM : 0 < protonFraction M.components) (h0 : 0 < v₁)
    (h : v₁ ≤ v₂) (h2 : v₂ ≤ (limMoller ME E).vMax) (hpos : 0 < electronDedx (mollerLoss ME M) v₁ E) :
    electronDedx (mollerLoss ME M) v₂ E = electronDedx (mollerLoss ME M) v₁ E + E * ∫ v in v₁..v₂, v * moller ME M E v := by
  have hm := me_pos'
  have hE0 : 0 < E := hm.trans hE
  have hs : ∀ c, electronDedx (mollerLoss ME M) c E = mollerLoss ME M c E := fun c => by
    unfold electronDedx
    field_simp
  rw [hs] at hpos
  rw [hs, hs]
  obtain ⟨_, l2, l3⟩ := vmax_moller hE
  have hlt : ∀ v ∈ Icc v₁ v₂, 0 < v ∧ v < 1 - ME / E := fun v hv => ⟨h0.trans_le hv.1, by
    have := hv.2.trans h2
    rw [l2] at this l3
    linarith⟩
  obtain ⟨t1, t2⟩ := tile_of_deriv h (fun v hv => mollerRaw_deriv M E v hE hM (hlt v hv).1 (hlt v hv).2)
    (fun v hv => by
      have := (moller_eq ME M E v hm hE hM (hlt v hv).1 (hlt v hv).2).2
      have := (hlt v hv).1
      positivity)
  rw [mollerLoss_eq M E v₁ hE (h.trans h2)] at hpos ⊢
  rw [mollerLoss_eq M E v₂ hE h2]
  have hr : 0 < mollerRaw M E v₁ := by
    rcases max_cases (mollerRaw M E v₁) 0 with ⟨a, _⟩ | ⟨a, _⟩
    · rwa [a] at hpos
    · rw [a] at hpos; exact absurd hpos (lt_irrefl _)
  rw [max_eq_left hr.le, max_eq_left (hr.le.trans t2), ← intervalIntegral.integral_const_mul, ← t1]
  ring

/-- C117: below, where the bound at 0 acts, the continuous loss grows by no more than that. -/
theorem C117_moller_cut_bound (M : Med) (E v₁ v₂ : ℝ) (hE : ME < E) (hM : 0 < protonFraction M.components) (h0 : 0 < v₁)
    (h : v₁ ≤ v₂) (h2 : v₂ ≤ (limMoller ME E).vMax) :
    electronDedx (mollerLoss ME M) v₁ E ≤ electronDedx (mollerLoss ME M) v₂ E ∧
    electronDedx (mollerLoss ME M) v₂ E ≤ electronDedx (mollerLoss ME M) v₁ E + E * ∫ v in v₁..v₂, v * moller ME M E v := by
  have hm := me_pos'
  have hE0 : 0 < E := hm.trans hE
  have hs : ∀ c, electronDedx (mollerLoss ME M) c E = mollerLoss ME M c E := fun c => by
    unfold electronDedx
    field_simp
  rw [hs, hs]
  obtain ⟨_, l2, l3⟩ := vmax_moller hE
  have hlt : ∀ v ∈ Icc v₁ v₂, 0 < v ∧ v < 1 - ME / E := fun v hv => ⟨h0.trans_le hv.1, by
    have := hv.2.trans h2
    rw [l2] at this l3
    linarith⟩
  obtain ⟨t1, t2⟩ := tile_of_deriv h (fun v hv => mollerRaw_deriv M E v hE hM (hlt v hv).1 (hlt v hv).2)
    (fun v hv => by
      have := (moller_eq ME M E v hm hE hM (hlt v hv).1 (hlt v hv).2).2
      have := (hlt v hv).1
      positivity)
  rw [mollerLoss_eq M E v₁ hE (h.trans h2), mollerLoss_eq M E v₂ hE h2, ← intervalIntegral.integral_const_mul, ← t1]
  refine ⟨max_le_max_right _ t2, max_le ?_ ?_⟩
  · linarith [le_max_left (mollerRaw M E v₁) 0]
  · linarith [le_max_right (mollerRaw M E v₁) 0]

/-! ## Positrons -/

/-- Bhabha's formula in the share `ε` of the kinetic energy. -/
noncomputable def bhabhaShape (γ ε : ℝ) : ℝ :=
  let y := 1 / (γ + 1)
  1 / ((1 - 1 / (γ * γ)) * ε * ε) - (2 - y * y) / ε + (1 - 2 * y) * (3 + y * y) -
    ((1 - 2 * y) ^ 2 + (1 - 2 * y) ^ 3) * ε + (1 - 2 * y) ^ 3 * ε * ε

lemma bhabha_poly {w u : ℝ} (h0 : 0 ≤ u) (hu : u ≤ w) (hw : w ≤ 1) :
    0 < (1 + w) ^ 2 + (1 - w) ^ 2 * (u + u ^ 2) - 8 * u + 12 * u ^ 2 - 4 * u ^ 3 - 4 * w * u ^ 3 + 4 * u ^ 4 := by
  have hu1 : u ≤ 1 := hu.trans hw
  have hu3 : u ^ 3 ≤ 1 := pow_le_one₀ h0 hu1
  have hb : 0 ≤ 2 + w + u - (2 - w - u) * (u + u ^ 2) - 4 * u ^ 3 := by
    have : 0 ≤ (w - u) * (1 + u + u ^ 2) := mul_nonneg (by linarith) (by positivity)
    nlinarith
  have hq : 0 < 1 - 5 * u + 12 * u ^ 2 - 5 * u ^ 3 + u ^ 4 := by
    rcases h0.eq_or_lt with h | h
    · rw [← h]; norm_num
    · nlinarith [sq_nonneg (1 - 5 / 2 * u + u ^ 2), sq_pos_of_pos h]
  have := mul_nonneg (sub_nonneg.2 hu) hb
  nlinarith

lemma bhabhaShape_pos {γ ε : ℝ} (hγ : 1 < γ) (h0 : 0 < ε) (h1 : ε ≤ 1) : 0 < bhabhaShape γ ε := by
  set w := 1 - 2 * (1 / (γ + 1)) with hw
  have hw' : w = (γ - 1) / (γ + 1) := by rw [hw]; field_simp; ring
  have w0 : 0 < w := by rw [hw']; exact div_pos (by linarith) (by linarith)
  have w1 : w ≤ 1 := by rw [hw', div_le_one (by linarith)]; linarith
  have hp := bhabha_poly (w := w) (u := w * ε) (by positivity) (mul_le_of_le_one_right w0.le h1) w1
  have e : bhabhaShape γ ε = ((1 + w) ^ 2 + (1 - w) ^ 2 * (w * ε + (w * ε) ^ 2) - 8 * (w * ε) + 12 * (w * ε) ^ 2 -
      4 * (w * ε) ^ 3 - 4 * w * (w * ε) ^ 3 + 4 * (w * ε) ^ 4) / (4 * w * ε ^ 2) := by
    have h2 : 1 - 1 / (γ * γ) = (γ - 1) * (γ + 1) / (γ * γ) := by field_simp; ring
    have h3 : γ - 1 ≠ 0 := by linarith
    have h4 : γ + 1 ≠ 0 := by linarith
    unfold bhabhaShape
    simp only
    rw [h2, hw']
    field_simp
    ring
  rw [e]
  exact div_pos hp (by positivity)

lemma bhabha_eq (m : ℝ) (M : Med) (E v : ℝ) (hm : 0 < m) (hE : m < E) (hM : 0 < protonFraction M.components)
    (h0 : 0 < v) (h1 : v ≤ 1 - m / E) :
    bhabha m M E v = bhabhaShape (E / m) (v * E / (E - m)) * (1 / (E / m - 1)) *
      (1 / (1 - 1 / (E / m))) * ionPref M ∧ 0 < bhabha m M E v := by
  obtain ⟨g1, g2, g3⟩ := gamma_facts hm hE
  have hE0 : 0 < E := hm.trans hE
  have hEm : 0 < E - m := by linarith
  have s0 : 0 < v * E / (E - m) := by positivity
  have s1 : v * E / (E - m) ≤ 1 := by
    rw [div_le_one hEm]
    have : (1 - m / E) * E = E - m := by field_simp
    nlinarith
  have hp := bhabhaShape_pos g1 s0 s1
  have hi := ionPref_pos hM
  have g4 : 0 < E / m - 1 := by linarith
  have hpos : 0 < bhabhaShape (E / m) (v * E / (E - m)) * (1 / (E / m - 1)) *
      (1 / (1 - 1 / (E / m))) * ionPref M := by positivity
  have e : bhabha m M E v = max (bhabhaShape (E / m) (v * E / (E - m)) * (1 / (E / m - 1)) *
      (1 / (1 - 1 / (E / m))) * ionPref M) 0 := rfl
  rw [e, max_eq_left hpos.le]
  exact ⟨rfl, hpos⟩

/-- C117: Bhabha's cross section is positive for every loss up to the whole kinetic energy: the bound at 0 never acts. -/
theorem C117_bhabha (m : ℝ) (M : Med) (E v : ℝ) (hm : 0 < m) (hE : m < E) (hM : 0 < protonFraction M.components)
    (h0 : 0 < v) (h1 : v ≤ 1 - m / E) : 0 < bhabha m M E v := (bhabha_eq m M E v hm hE hM h0 h1).2

/-- What `FunctionToDEdxIntegral` gives before the bound at 0, as a function of the upper limit. -/
noncomputable def bhabhaRaw (M : Med) (E v : ℝ) : ℝ :=
  let γ := E / ME
  let τ := γ - 1
  let β2 := 1 - 1 / (γ * γ)
  let y := 1 / (γ + 1)
  let Δ := v * E / ME
  (Real.log (2 * (τ + 2) / ((1e-6 * M.I) ^ 2 / ME)) +
    (Real.log (τ * Δ) - (τ + 2 * Δ - (3 * Δ * Δ * y / 2) - (Δ - Δ ^ 3 / 3) * y * y -
      (Δ * Δ / 2 - τ * Δ ^ 3 / 3 + Δ ^ 4 / 4) * y ^ 3) * (β2 / τ)) -
    densityDelta M (Real.sqrt β2) γ) * (2 * Real.pi * RE * RE * ME / β2) * (NAvogadro * protonFraction M.components)

lemma vmax_bhabha {E : ℝ} (hE : ME < E) : (limBhabha ME E).vMin = 0 ∧ (limBhabha ME E).vMax = 1 - ME / E ∧
    0 < (limBhabha ME E).vMax := by
  have hm := me_pos'
  have h : 0 < 1 - ME / E := by
    have : ME / E < 1 := by rw [div_lt_one (by linarith)]; exact hE
    linarith
  unfold limBhabha KinLim.clamped
  rw [if_neg (by simp only; linarith)]
  exact ⟨rfl, rfl, by simp only; linarith⟩

lemma bhabhaLoss_eq (M : Med) (E v : ℝ) (hE : ME < E) (h1 : v ≤ (limBhabha ME E).vMax) :
    bhabhaLoss ME M v E = max (bhabhaRaw M E v) 0 := by
  obtain ⟨l1, l2, l3⟩ := vmax_bhabha hE
  have hm := me_pos'
  have hE0 : 0 < E := hm.trans hE
  unfold bhabhaLoss bhabhaRaw
  simp only
  rw [if_neg (by rw [l1]; exact l3.ne), min_eq_left h1]
  have : min ((limBhabha ME E).vMax * E / ME) (v * E / ME) = v * E / ME := min_eq_right (by gcongr)
  rw [this]

lemma bhabha_algebra (τ x : ℝ) (h1 : τ ≠ 0) (h2 : x ≠ 0) (h4 : τ + 1 ≠ 0) (h5 : τ + 2 ≠ 0) :
    (τ * (τ + 1) / (τ * x) - (2 * (τ + 1) - ((3 * (τ + 1) * x + 3 * x * (τ + 1)) * (1 / (τ + 2)) / 2) -
      ((τ + 1) - (3 * x ^ 2 * (τ + 1)) / 3) * (1 / (τ + 2)) * (1 / (τ + 2)) -
      (((τ + 1) * x + x * (τ + 1)) / 2 - τ * (3 * x ^ 2 * (τ + 1)) / 3 + (4 * x ^ 3 * (τ + 1)) / 4) * (1 / (τ + 2)) ^ 3) *
        ((τ * (τ + 2) / ((τ + 1) * (τ + 1))) / τ)) * (1 / (τ * (τ + 2) / ((τ + 1) * (τ + 1)))) =
    x * ((1 / ((τ * (τ + 2) / ((τ + 1) * (τ + 1))) * (x / τ) * (x / τ)) - (2 - 1 / (τ + 2) * (1 / (τ + 2))) / (x / τ) +
      (1 - 2 * (1 / (τ + 2))) * (3 + 1 / (τ + 2) * (1 / (τ + 2))) -
      ((1 - 2 * (1 / (τ + 2))) ^ 2 + (1 - 2 * (1 / (τ + 2))) ^ 3) * (x / τ) +
      (1 - 2 * (1 / (τ + 2))) ^ 3 * (x / τ) * (x / τ)) * (1 / τ) * (1 / (τ / (τ + 1)))) := by
  have e : 1 - 2 * (1 / (τ + 2)) = τ / (τ + 2) := by field_simp; ring
  rw [e]
  field_simp
  ring

lemma bhabhaRaw_deriv (M : Med) (E v : ℝ) (hE : ME < E) (hM : 0 < protonFraction M.components) (h0 : 0 < v)
    (h1 : v ≤ 1 - ME / E) : HasDerivAt (bhabhaRaw M E) (E * (v * bhabha ME M E v)) v := by
  have hm := me_pos'
  have hE0 : 0 < E := hm.trans hE
  obtain ⟨g1, g2, g3⟩ := gamma_facts hm hE
  rw [(bhabha_eq ME M E v hm hE hM h0 h1).1]
  set γ := E / ME with hγ
  have hEγ : E = γ * ME := by rw [hγ]; field_simp
  have hΔd : HasDerivAt (fun v : ℝ => v * E / ME) γ v := by
    have := ((hasDerivAt_id v).mul_const E).div_const ME
    simpa [hγ] using this
  have hτ : 0 < γ - 1 := by linarith
  have hΔ : v * E / ME = v * γ := by rw [hγ]; ring
  have hx : 0 < v * γ := by positivity
  have hd1 : (γ - 1) * (v * E / ME) ≠ 0 := by rw [hΔ]; positivity
  have k1 := (hΔd.const_mul (γ - 1)).log hd1
  have k2 := ((((hΔd.const_mul 2).const_add (γ - 1)).sub
    ((((hΔd.const_mul 3).mul hΔd).mul_const (1 / (γ + 1))).div_const 2)).sub
    (((hΔd.sub ((hΔd.pow 3).div_const 3)).mul_const (1 / (γ + 1))).mul_const (1 / (γ + 1)))).sub
    (((((hΔd.mul hΔd).div_const 2).sub (((hΔd.pow 3).const_mul (γ - 1)).div_const 3)).add
      ((hΔd.pow 4).div_const 4)).mul_const ((1 / (γ + 1)) ^ 3))
  have k3 := k1.sub (k2.mul_const ((1 - 1 / (γ * γ)) / (γ - 1)))
  have k4 := (((k3.const_add (Real.log (2 * (γ - 1 + 2) / ((1e-6 * M.I) ^ 2 / ME)))).sub_const
    (densityDelta M (Real.sqrt (1 - 1 / (γ * γ))) γ)).mul_const
    (2 * Real.pi * RE * RE * ME / (1 - 1 / (γ * γ)))).mul_const (NAvogadro * protonFraction M.components)
  refine k4.congr_deriv ?_
  simp only [hΔ, Pi.mul_apply] at *
  have hsh : v * E / (E - ME) = v * γ / (γ - 1) := by
    rw [hEγ]
    have : γ * ME - ME ≠ 0 := by nlinarith
    field_simp
  unfold bhabhaShape ionPref
  rw [hsh, hEγ]
  have e2 : 1 - 1 / γ = (γ - 1) / γ := by field_simp
  have e3 : 1 - 1 / (γ * γ) = (γ - 1) * (γ + 1) / (γ * γ) := by field_simp; ring
  rw [e2, e3]
  have hk := bhabha_algebra (γ - 1) (v * γ) hτ.ne' hx.ne' (by linarith) (by linarith)
  have e4 : γ - 1 + 1 = γ := by ring
  have e5 : γ - 1 + 2 = γ + 1 := by ring
  rw [e4, e5] at hk
  simp only [Nat.reduceSub, Nat.cast_ofNat]
  linear_combination (2 * Real.pi * RE * RE * ME * (NAvogadro * protonFraction M.components)) * hk

/-- C117: for positrons, raising the cut from `v₁` to `v₂` adds to the continuous loss exactly the energy carried by the losses
between the two cuts, once the continuous loss is positive. -/
theorem C117_bhabha_cut_partial (M : Med) (E v₁ v₂ : ℝ) (hE : ME < E) (hM : 0 < protonFraction M.components) (h0 : 0 < v₁)
    (h : v₁ ≤ v₂) (h2 : v₂ ≤ (limBhabha ME E).vMax) (hpos : 0 < electronDedx (bhabhaLoss ME M) v₁ E) :
    electronDedx (bhabhaLoss ME M) v₂ E = electronDedx (bhabhaLoss ME M) v₁ E + E * ∫ v in v₁..v₂, v * bhabha ME M E v := by
  have hm := me_pos'
  have hE0 : 0 < E := hm.trans hE
  have hs : ∀ c, electronDedx (bhabhaLoss ME M) c E = bhabhaLoss ME M c E := fun c => by
    unfold electronDedx
    field_simp
  rw [hs] at hpos
  rw [hs, hs]
  obtain ⟨_, l2, l3⟩ := vmax_bhabha hE
  have hlt : ∀ v ∈ Icc v₁ v₂, 0 < v ∧ v ≤ 1 - ME / E := fun v hv => ⟨h0.trans_le hv.1, by
    have := hv.2.trans h2
    rw [l2] at this l3
    linarith⟩
  obtain ⟨t1, t2⟩ := tile_of_deriv h (fun v hv => bhabhaRaw_deriv M E v hE hM (hlt v hv).1 (hlt v hv).2)
    (fun v hv => by
      have := (bhabha_eq ME M E v hm hE hM (hlt v hv).1 (hlt v hv).2).2
      have := (hlt v hv).1
      positivity)
  rw [bhabhaLoss_eq M E v₁ hE (h.trans h2)] at hpos ⊢
  rw [bhabhaLoss_eq M E v₂ hE h2]
  have hr : 0 < bhabhaRaw M E v₁ := by
    rcases max_cases (bhabhaRaw M E v₁) 0 with ⟨a, _⟩ | ⟨a, _⟩
    · rwa [a] at hpos
    · rw [a] at hpos; exact absurd hpos (lt_irrefl _)
  rw [max_eq_left hr.le, max_eq_left (hr.le.trans t2), ← intervalIntegral.integral_const_mul, ← t1]
  ring

/-- C117: below, where the bound at 0 acts, the continuous loss grows by no more than that. -/
theorem C117_bhabha_cut_bound (M : Med) (E v₁ v₂ : ℝ) (hE : ME < E) (hM : 0 < protonFraction M.components) (h0 : 0 < v₁)
    (h : v₁ ≤ v₂) (h2 : v₂ ≤ (limBhabha ME E).vMax) :
    electronDedx (bhabhaLoss ME M) v₁ E ≤ electronDedx (bhabhaLoss ME M) v₂ E ∧
    electronDedx (bhabhaLoss ME M) v₂ E ≤ electronDedx (bhabhaLoss ME M) v₁ E + E * ∫ v in v₁..v₂, v * bhabha ME M E v := by
  have hm := me_pos'
  have hE0 : 0 < E := hm.trans hE
  have hs : ∀ c, electronDedx (bhabhaLoss ME M) c E = bhabhaLoss ME M c E := fun c => by
    unfold electronDedx
    field_simp
  rw [hs, hs]
  obtain ⟨_, l2, l3⟩ := vmax_bhabha hE
  have hlt : ∀ v ∈ Icc v₁ v₂, 0 < v ∧ v ≤ 1 - ME / E := fun v hv => ⟨h0.trans_le hv.1, by
    have := hv.2.trans h2
    rw [l2] at this l3
    linarith⟩
  obtain ⟨t1, t2⟩ := tile_of_deriv h (fun v hv => bhabhaRaw_deriv M E v hE hM (hlt v hv).1 (hlt v hv).2)
    (fun v hv => by
      have := (bhabha_eq ME M E v hm hE hM (hlt v hv).1 (hlt v hv).2).2
      have := (hlt v hv).1
      positivity)
  rw [bhabhaLoss_eq M E v₁ hE (h.trans h2), bhabhaLoss_eq M E v₂ hE h2, ← intervalIntegral.integral_const_mul, ← t1]
  refine ⟨max_le_max_right _ t2, max_le ?_ ?_⟩
  · linarith [le_max_left (bhabhaRaw M E v₁) 0]
  · linarith [le_max_right (bhabhaRaw M E v₁) 0]

/-- The losses between two cuts carry energy. -/
lemma tile_pos {f g : ℝ → ℝ} {a b : ℝ} (hab : a < b) (hd : ∀ v ∈ Icc a b, HasDerivAt f (g v) v)
    (hp : ∀ v ∈ Icc a b, 0 < g v) : 0 < ∫ v in a..b, g v := by
  have hm : StrictMonoOn f (Icc a b) := by
    refine strictMonoOn_of_deriv_pos (convex_Icc a b) (fun v hv => (hd v hv).continuousAt.continuousWithinAt) ?_
    intro v hv
    rw [interior_Icc] at hv
    rw [(hd v ⟨hv.1.le, hv.2.le⟩).deriv]
    exact hp v ⟨hv.1.le, hv.2.le⟩
  rw [← (tile_of_deriv hab.le hd fun v hv => (hp v hv).le).1]
  linarith [hm (left_mem_Icc.2 hab.le) (right_mem_Icc.2 hab.le) hab]

/-- C117: with a cut `c` in the parametrization below the cut `v` of the cross section, the losses between the two cuts are in
neither part: electrons and positrons lose too little energy in all. -/
theorem C117_two_cuts (M : Med) (E c v : ℝ) (hE : ME < E) (hM : 0 < protonFraction M.components) (h0 : 0 < c) (h : c < v) :
    (v ≤ (limMoller ME E).vMax → 0 < electronDedx (mollerLoss ME M) c E →
      electronDedx (mollerLoss ME M) c E + E * ∫ x in v..(limMoller ME E).vMax, x * moller ME M E x <
        electronDedx (mollerLoss ME M) v E + E * ∫ x in v..(limMoller ME E).vMax, x * moller ME M E x) ∧
    (v ≤ (limBhabha ME E).vMax → 0 < electronDedx (bhabhaLoss ME M) c E →
      electronDedx (bhabhaLoss ME M) c E + E * ∫ x in v..(limBhabha ME E).vMax, x * bhabha ME M E x <
        electronDedx (bhabhaLoss ME M) v E + E * ∫ x in v..(limBhabha ME E).vMax, x * bhabha ME M E x) := by
  have hm := me_pos'
  constructor
  · intro hv hp
    have := C117_moller_cut_partial M E c v hE hM h0 h.le hv hp
    obtain ⟨_, l2, l3⟩ := vmax_moller hE
    have hlt : ∀ x ∈ Icc c v, 0 < x ∧ x < 1 - ME / E := fun x hx => ⟨h0.trans_le hx.1, by
      have := hx.2.trans hv
      rw [l2] at this l3
      linarith⟩
    have hq := tile_pos h (fun x hx => mollerRaw_deriv M E x hE hM (hlt x hx).1 (hlt x hx).2) fun x hx =>
      mul_pos (hm.trans hE) (mul_pos (hlt x hx).1 (moller_eq ME M E x hm hE hM (hlt x hx).1 (hlt x hx).2).2)
    rw [intervalIntegral.integral_const_mul] at hq
    linarith
  · intro hv hp
    have := C117_bhabha_cut_partial M E c v hE hM h0 h.le hv hp
    obtain ⟨_, l2, l3⟩ := vmax_bhabha hE
    have hlt : ∀ x ∈ Icc c v, 0 < x ∧ x ≤ 1 - ME / E := fun x hx => ⟨h0.trans_le hx.1, by
      have := hx.2.trans hv
      rwa [l2] at this⟩
    have hq := tile_pos h (fun x hx => bhabhaRaw_deriv M E x hE hM (hlt x hx).1 (hlt x hx).2) fun x hx =>
      mul_pos (hm.trans hE) (mul_pos (hlt x hx).1 (bhabha_eq ME M E x hm hE hM (hlt x hx).1 (hlt x hx).2).2)
    rw [intervalIntegral.integral_const_mul] at hq
    linarith

/-! ## Heavy particles -/

/-- C117: the constant in front of the Bethe–Bloch formula is the one of the formulas for electrons. -/
theorem C117_constant : |IONK - 4 * Real.pi * NAvogadro * RE ^ 2 * ME| < 1e-6 := by
  unfold IONK NAvogadro RE ME
  have h1 := Real.pi_gt_d6
  have h2 := Real.pi_lt_d6
  rw [abs_lt]
  constructor <;> norm_num at * <;> nlinarith

lemma ionizBeta_pos {m E : ℝ} (hm : 0 < m) (hE : m < E) : 0 < ionizBeta m E ∧ ionizBeta m E < 1 ∧
    ionizBeta m E * ionizBeta m E = 1 - m ^ 2 / E ^ 2 := by
  have hE0 : 0 < E := hm.trans hE
  have h : 0 < (E - m) * (E + m) := mul_pos (by linarith) (by linarith)
  have e : ionizBeta m E * ionizBeta m E = 1 - m ^ 2 / E ^ 2 := by
    unfold ionizBeta
    rw [max_eq_left h.le, div_mul_div_comm, Real.mul_self_sqrt h.le]
    field_simp
    ring
  have p : 0 < ionizBeta m E := by
    unfold ionizBeta
    rw [max_eq_left h.le]
    have := Real.sqrt_pos.2 h
    positivity
  refine ⟨p, ?_, e⟩
  have : 0 < m ^ 2 / E ^ 2 := by positivity
  nlinarith

/-- C117: Bethe–Bloch's cross section without radiative correction is positive up to the largest loss. -/
theorem C117_rossi_plain (m z : ℝ) (M : Med) (E v : ℝ) (hm : 0 < m) (hE : m < E) (hz : z ≠ 0)
    (hM : 0 < protonFraction M.components) (h0 : 0 < v) (h1 : v ≤ (limBetheBloch m M.I E).vMax) : 0 < rossiPlain m z M E v := by
  have hE0 : 0 < E := hm.trans hE
  obtain ⟨b0, b1, _⟩ := ionizBeta_pos hm hE
  have hk : 0 < IONK := by unfold IONK; norm_num
  have hz2 : 0 < z * z := mul_self_pos.2 hz
  have hvm : 0 < (limBetheBloch m M.I E).vMax := h0.trans_le h1
  have hr : v / (limBetheBloch m M.I E).vMax ≤ 1 := by rw [div_le_one hvm]; exact h1
  have hr0 : 0 < v / (limBetheBloch m M.I E).vMax := by positivity
  have hb : ionizBeta m E * ionizBeta m E < 1 := by nlinarith
  have hb0 : 0 < ionizBeta m E * ionizBeta m E := by positivity
  unfold rossiPlain
  simp only
  apply mul_pos
  · have : 0 ≤ v / (1 + 1 / (E / m)) * (0.5 * (v / (1 + 1 / (E / m)))) := by positivity
    nlinarith
  · have : IONK * z * z * protonFraction M.components = IONK * (z * z) * protonFraction M.components := by ring
    rw [this]
    positivity

lemma rossi_lim {m I E : ℝ} (hm : 0 < m) (hE : m < E) (hI : 0 < I)
    (hl : (limBetheBloch m I E).vMin < (limBetheBloch m I E).vMax) :
    0 < (limBetheBloch m I E).vMin ∧ (limBetheBloch m I E).vMax < 1 := by
  have hE0 : 0 < E := hm.trans hE
  unfold limBetheBloch KinLim.raised at hl ⊢
  simp only at hl ⊢
  split_ifs at hl ⊢ with h
  · exact absurd hl (lt_irrefl _)
  · refine ⟨by simp only; positivity, ?_⟩
    have : 0 < m / E := by positivity
    have := min_le_right (2 * ME * (E / m * (E / m) - 1) / ((1 + 2 * (E / m) * (ME / m) + ME / m * (ME / m)) * E)) (1 - m / E)
    simp only
    linarith

/-- The radiative correction where it is defined. -/
noncomputable def inelRaw (m : ℝ) (M : Med) (E v : ℝ) : ℝ :=
  ALPHA / (2 * Real.pi) * (Real.log (1 + 2 * v * E / ME) *
    (2 * Real.log ((1 - v / (limBetheBloch m M.I E).vMax) / (1 - v)) + Real.log ((2 * (E / m) * (1 - v) * ME) / (m * v))) -
    Real.log ((1 - v / (limBetheBloch m M.I E).vMax) / (1 - v)) * Real.log ((1 - v / (limBetheBloch m M.I E).vMax) / (1 - v)))

lemma inel_args {m E v V : ℝ} (hm : 0 < m) (hE : m < E) (h0 : 0 < v) (h1 : v < V) (hV : V < 1) :
    0 < 1 + 2 * v * E / ME ∧ 0 < (1 - v / V) / (1 - v) ∧ 0 < (2 * (E / m) * (1 - v) * ME) / (m * v) := by
  have hE0 : 0 < E := hm.trans hE
  have hme := me_pos'
  have hv : 0 < 1 - v := by linarith
  have hr : 0 < 1 - v / V := by
    have : v / V < 1 := by rw [div_lt_one (h0.trans h1)]; exact h1
    linarith
  exact ⟨by positivity, by positivity, by positivity⟩

lemma inel_some {m E v : ℝ} {M : Med} (hm : 0 < m) (hE : m < E) (h0 : 0 < v) (h1 : v < (limBetheBloch m M.I E).vMax)
    (hV : (limBetheBloch m M.I E).vMax < 1) : inelCorrection m M E v = some (inelRaw m M E v) := by
  obtain ⟨a, b, c⟩ := inel_args hm hE h0 h1 hV
  unfold inelCorrection
  simp only
  rw [if_neg (by push Not; exact ⟨a, b, c⟩)]
  rfl

/-- C117: between the two limits the cross section is defined. -/
theorem C117_rossi_defined (m z : ℝ) (M : Med) (E v : ℝ) (hm : 0 < m) (hE : m < E) (hI : 0 < M.I)
    (h0 : (limBetheBloch m M.I E).vMin ≤ v) (h1 : v < (limBetheBloch m M.I E).vMax) :
    (rossi m z M E v).isSome ∧ (rossiIntegrand m z M E v).isSome := by
  obtain ⟨l0, l1⟩ := rossi_lim hm hE hI (h0.trans_lt h1)
  unfold rossi rossiIntegrand
  rw [inel_some hm hE (l0.trans_le h0) h1 l1]
  exact ⟨rfl, rfl⟩

/-- C117: at the largest loss itself it is not: the logarithm of zero. -/
theorem C117_rossi_undefined (m z : ℝ) (M : Med) (E : ℝ) (hm : 0 < m) (hE : m < E) (hI : 0 < M.I) :
    rossi m z M E (limBetheBloch m M.I E).vMax = none := by
  have hE0 : 0 < E := hm.trans hE
  have hV : (limBetheBloch m M.I E).vMax ≠ 0 := by
    unfold limBetheBloch KinLim.raised
    simp only
    split_ifs with h
    · simp only; positivity
    · have : 0 < 1e-6 * M.I / E := by positivity
      simp only at h ⊢
      intro h2
      rw [h2] at h
      exact h this
  unfold rossi inelCorrection
  simp only
  rw [if_pos (by right; left; rw [div_self hV]; norm_num)]
  rfl

/-- What `IonizationLoss` gives before the bound at 0, as a function of the upper limit. -/
noncomputable def rossiRaw (m z : ℝ) (M : Med) (E v : ℝ) : ℝ :=
  (Real.log (v * (2 * ME * E)) + 2 * Real.log (ionizBeta m E * (E / m) / (1e-6 * M.I)) +
    v / (2 * (1 + 1 / (E / m))) * (v / (2 * (1 + 1 / (E / m)))) -
    (ionizBeta m E * ionizBeta m E * (1 + v / (limBetheBloch m M.I E).vMax) + densityDelta M (ionizBeta m E) (E / m))) *
    (IONK * z * z * protonFraction M.components / (2 * (ionizBeta m E * ionizBeta m E)))

lemma rossiRaw_deriv (m z : ℝ) (M : Med) (E v : ℝ) (hm : 0 < m) (hE : m < E) (h0 : 0 < v)
    (h1 : v ≤ (limBetheBloch m M.I E).vMax) : HasDerivAt (rossiRaw m z M E) (E * (v * rossiPlain m z M E v)) v := by
  have hE0 : 0 < E := hm.trans hE
  have hme := me_pos'
  obtain ⟨b0, b1, _⟩ := ionizBeta_pos hm hE
  have hvm : 0 < (limBetheBloch m M.I E).vMax := h0.trans_le h1
  have hd := hasDerivAt_id v
  have hs : 0 < 1 + 1 / (E / m) := by positivity
  have k1 := ((hd.mul_const (2 * ME * E)).log (by simp only [id]; positivity)).add_const
    (2 * Real.log (ionizBeta m E * (E / m) / (1e-6 * M.I)))
  have k2 := k1.add ((hd.div_const (2 * (1 + 1 / (E / m)))).mul (hd.div_const (2 * (1 + 1 / (E / m)))))
  have k3 := k2.sub ((((hd.div_const (limBetheBloch m M.I E).vMax).const_add 1).const_mul
    (ionizBeta m E * ionizBeta m E)).add_const (densityDelta M (ionizBeta m E) (E / m)))
  have k4 := k3.mul_const (IONK * z * z * protonFraction M.components / (2 * (ionizBeta m E * ionizBeta m E)))
  refine k4.congr_deriv ?_
  simp only [id]
  unfold rossiPlain
  simp only
  set V := (limBetheBloch m M.I E).vMax
  set β := ionizBeta m E
  set s := 1 + 1 / (E / m)
  norm_num
  field_simp
  ring

lemma rossiLoss_eq (m z : ℝ) (M : Med) (E v : ℝ) (hm : 0 < m) (hE : m < E) (hz : z ≠ 0)
    (hM : 0 < protonFraction M.components) (h0 : (limBetheBloch m M.I E).vMin < v)
    (h1 : v ≤ (limBetheBloch m M.I E).vMax) : rossiLoss m z M v E = max (rossiRaw m z M E v) 0 := by
  obtain ⟨b0, b1, _⟩ := ionizBeta_pos hm hE
  have hk : 0 < IONK := by unfold IONK; norm_num
  have hz2 : 0 < z * z := mul_self_pos.2 hz
  have hc : 0 < IONK * z * z * protonFraction M.components / (2 * (ionizBeta m E * ionizBeta m E)) := by
    have : IONK * z * z * protonFraction M.components = IONK * (z * z) * protonFraction M.components := by ring
    rw [this]
    positivity
  unfold rossiLoss
  simp only
  rw [min_eq_right h1, if_neg h0.ne']
  unfold rossiRaw
  split_ifs with h
  · rw [max_eq_left (mul_pos h hc).le]
  · rw [max_eq_right (mul_nonpos_of_nonpos_of_nonneg (not_lt.1 h) hc.le)]

lemma inelRaw_continuousOn {m E a b : ℝ} {M : Med} (hm : 0 < m) (hE : m < E) (h0 : 0 < a)
    (h1 : b < (limBetheBloch m M.I E).vMax) (hV : (limBetheBloch m M.I E).vMax < 1) :
    ContinuousOn (inelRaw m M E) (Icc a b) := by
  have hme := me_pos'
  intro v hv
  have hv0 : 0 < v := h0.trans_le hv.1
  have hv1 : v < (limBetheBloch m M.I E).vMax := hv.2.trans_lt h1
  obtain ⟨p, q, r⟩ := inel_args hm hE hv0 hv1 hV
  have p' := p.ne'
  have q' := q.ne'
  have r' := r.ne'
  have d1 : ME ≠ 0 := hme.ne'
  have d2 : (limBetheBloch m M.I E).vMax ≠ 0 := (hv0.trans hv1).ne'
  have d3 : 1 - v ≠ 0 := by linarith
  have d4 : m * v ≠ 0 := (mul_pos hm hv0).ne'
  apply ContinuousAt.continuousWithinAt
  unfold inelRaw
  fun_prop (disch := assumption)

lemma rossiPlain_continuousOn {m z E a b : ℝ} {M : Med} (hm : 0 < m) (hE : m < E) (h0 : 0 < a) :
    ContinuousOn (rossiPlain m z M E) (Icc a b) := by
  have hE0 : 0 < E := hm.trans hE
  obtain ⟨b0, b1, _⟩ := ionizBeta_pos hm hE
  intro v hv
  have hv0 : 0 < v := h0.trans_le hv.1
  have d1 : 2 * (ionizBeta m E * ionizBeta m E) * E * v * v ≠ 0 := by positivity
  apply ContinuousAt.continuousWithinAt
  unfold rossiPlain
  simp only [div_eq_mul_inv _ (limBetheBloch m M.I E).vMax, div_eq_mul_inv _ (1 + 1 / (E / m))]
  fun_prop (disch := assumption)

/-- C117: for heavy particles, raising both cuts from `v₁` to `v₂` adds to the continuous loss exactly the energy carried by the
losses between the cuts, radiative correction included, once the loss without correction is positive. -/
theorem C117_rossi_cut_partial (m z : ℝ) (M : Med) (E v₁ v₂ : ℝ) (hm : 0 < m) (hE : m < E) (hI : 0 < M.I) (hz : z ≠ 0)
    (hM : 0 < protonFraction M.components) (h0 : (limBetheBloch m M.I E).vMin < v₁) (h : v₁ ≤ v₂)
    (h2 : v₂ < (limBetheBloch m M.I E).vMax) (hpos : 0 < rossiLoss m z M v₁ E) :
    rossiDedx (fun f a b => ∫ x in a..b, f x) m z M v₂ v₂ E =
      rossiDedx (fun f a b => ∫ x in a..b, f x) m z M v₁ v₁ E + E * ∫ v in v₁..v₂, v * (rossi m z M E v).getD 0 := by
  have hE0 : 0 < E := hm.trans hE
  obtain ⟨l0, l1⟩ := rossi_lim hm hE hI (h0.trans_le h |>.trans h2)
  have hlt : ∀ v ∈ Icc v₁ v₂, 0 < v ∧ v < (limBetheBloch m M.I E).vMax := fun v hv =>
    ⟨(l0.trans h0).trans_le hv.1, hv.2.trans_lt h2⟩
  have hcont : ∀ a, 0 < a → ContinuousOn (fun v => v * rossiPlain m z M E v * inelRaw m M E v) (Icc a v₂) := fun a ha =>
    (continuousOn_id.mul (rossiPlain_continuousOn hm hE ha)).mul (inelRaw_continuousOn hm hE ha h2 l1)
  have hpl : ContinuousOn (fun v => v * rossiPlain m z M E v) (Icc v₁ v₂) :=
    continuousOn_id.mul (rossiPlain_continuousOn hm hE (l0.trans h0))
  have hint : ∀ a b, (limBetheBloch m M.I E).vMin ≤ a → a ≤ b → b ≤ v₂ →
      ∫ x in a..b, (rossiIntegrand m z M E x).getD 0 = ∫ x in a..b, x * rossiPlain m z M E x * inelRaw m M E x := by
    intro a b ha hab hb
    refine intervalIntegral.integral_congr fun x hx => ?_
    rw [uIcc_of_le hab] at hx
    unfold rossiIntegrand
    rw [inel_some hm hE (l0.trans_le (ha.trans hx.1)) ((hx.2.trans hb).trans_lt h2) l1]
    rfl
  have hd := tile_of_deriv h (fun v hv => rossiRaw_deriv m z M E v hm hE (hlt v hv).1 (hlt v hv).2.le) (fun v hv => by
    have := C117_rossi_plain m z M E v hm hE hz hM (hlt v hv).1 (hlt v hv).2.le
    have := (hlt v hv).1
    positivity)
  have hr : rossiLoss m z M v₂ E = rossiLoss m z M v₁ E + E * ∫ v in v₁..v₂, v * rossiPlain m z M E v := by
    rw [rossiLoss_eq m z M E v₁ hm hE hz hM h0 (h.trans h2.le)] at hpos ⊢
    rw [rossiLoss_eq m z M E v₂ hm hE hz hM (h0.trans_le h) h2.le]
    have hr : 0 < rossiRaw m z M E v₁ := by
      rcases max_cases (rossiRaw m z M E v₁) 0 with ⟨a, _⟩ | ⟨a, _⟩
      · rwa [a] at hpos
      · rw [a] at hpos; exact absurd hpos (lt_irrefl _)
    rw [max_eq_left hr.le, max_eq_left (hr.le.trans hd.2), ← intervalIntegral.integral_const_mul, ← hd.1]
    ring
  have hsum : ∫ v in v₁..v₂, v * (rossi m z M E v).getD 0 =
      (∫ v in v₁..v₂, v * rossiPlain m z M E v) + ∫ v in v₁..v₂, v * rossiPlain m z M E v * inelRaw m M E v := by
    rw [← intervalIntegral.integral_add]
    · refine intervalIntegral.integral_congr fun x hx => ?_
      rw [uIcc_of_le h] at hx
      unfold rossi
      rw [inel_some hm hE (hlt x hx).1 (hlt x hx).2 l1]
      simp only [Option.map_some, Option.getD_some]
      ring
    · exact (by rwa [uIcc_of_le h] : ContinuousOn _ (uIcc v₁ v₂)).intervalIntegrable
    · exact (by rw [uIcc_of_le h]; exact hcont v₁ (l0.trans h0) : ContinuousOn _ (uIcc v₁ v₂)).intervalIntegrable
  have hadd : ∫ v in (limBetheBloch m M.I E).vMin..v₂, v * rossiPlain m z M E v * inelRaw m M E v =
      (∫ v in (limBetheBloch m M.I E).vMin..v₁, v * rossiPlain m z M E v * inelRaw m M E v) +
      ∫ v in v₁..v₂, v * rossiPlain m z M E v * inelRaw m M E v := by
    rw [intervalIntegral.integral_add_adjacent_intervals]
    · refine ContinuousOn.intervalIntegrable ?_
      rw [uIcc_of_le h0.le]
      exact (hcont _ l0).mono (Icc_subset_Icc_right h)
    · exact (by rw [uIcc_of_le h]; exact hcont v₁ (l0.trans h0) : ContinuousOn _ (uIcc v₁ v₂)).intervalIntegrable
  unfold rossiDedx
  simp only
  rw [hint _ _ le_rfl (h0.le.trans h) le_rfl, hint _ _ le_rfl h0.le h, hr, hsum, hadd]
  field_simp
  ring

/-- C117: below the largest loss the radiative correction drives the cross section negative: there are losses that lie between
the limits and have a negative rate. -/
theorem C117_rossi_negative (m z : ℝ) (M : Med) (E : ℝ) (hm : 0 < m) (hE : m < E) (hI : 0 < M.I) (hz : z ≠ 0)
    (hM : 0 < protonFraction M.components) (hl : (limBetheBloch m M.I E).vMin < (limBetheBloch m M.I E).vMax) :
    ∃ v₀ < (limBetheBloch m M.I E).vMax, ∀ v, v₀ < v → v < (limBetheBloch m M.I E).vMax →
      (limBetheBloch m M.I E).vMin < v ∧ ∃ r < 0, rossi m z M E v = some r := by
  have hE0 : 0 < E := hm.trans hE
  have hme := me_pos'
  obtain ⟨l0, l1⟩ := rossi_lim hm hE hI hl
  set V := (limBetheBloch m M.I E).vMax with hV
  have hV0 : 0 < V := l0.trans hl
  have hα : 0 < ALPHA := by unfold ALPHA; norm_num
  have hpi := Real.pi_pos
  obtain ⟨pa, _, pc⟩ : 0 < 1 + 2 * V * E / ME ∧ True ∧ 0 < (2 * (E / m) * (1 - V) * ME) / (m * V) :=
    ⟨by positivity, trivial, by have : 0 < 1 - V := by linarith
                                positivity⟩
  have ta : ContinuousAt (fun v => Real.log (1 + 2 * v * E / ME) * Real.log ((2 * (E / m) * (1 - v) * ME) / (m * v))) V := by
    have p' := pa.ne'
    have r' := pc.ne'
    have d1 : ME ≠ 0 := hme.ne'
    have d4 : m * V ≠ 0 := (mul_pos hm hV0).ne'
    fun_prop (disch := assumption)
  set K := Real.log (1 + 2 * V * E / ME) * Real.log ((2 * (E / m) * (1 - V) * ME) / (m * V)) with hK
  have e1 : ∀ᶠ v in 𝓝[<] V, Real.log (1 + 2 * v * E / ME) * Real.log ((2 * (E / m) * (1 - v) * ME) / (m * v)) < K + 1 :=
    (ta.tendsto.mono_left nhdsWithin_le_nhds).eventually (gt_mem_nhds (by linarith : K < K + 1))
  have tb : Tendsto (fun v => (1 - v / V) / (1 - v)) (𝓝[<] V) (𝓝[>] 0) := by
    rw [tendsto_nhdsWithin_iff]
    constructor
    · have : ContinuousAt (fun v => (1 - v / V) / (1 - v)) V := by
        have d3 : 1 - V ≠ 0 := by linarith
        have d4 : V ≠ 0 := hV0.ne'
        fun_prop (disch := assumption)
      have h := this.tendsto.mono_left (nhdsWithin_le_nhds (s := Iio V))
      simpa [div_self hV0.ne'] using h
    · filter_upwards [self_mem_nhdsWithin] with v hv
      have hv' : v < V := hv
      have : v / V < 1 := by rw [div_lt_one hV0]; exact hv'
      show 0 < (1 - v / V) / (1 - v)
      exact div_pos (by linarith) (by linarith)
  have tl := Real.tendsto_log_nhdsGT_zero.comp tb
  set N := 1 + |K + 1| + 2 * Real.pi / ALPHA
  have e2 : ∀ᶠ v in 𝓝[<] V, Real.log ((1 - v / V) / (1 - v)) ≤ -N := tl.eventually (eventually_le_atBot (-N))
  have e3 : ∀ᶠ v in 𝓝[<] V, (limBetheBloch m M.I E).vMin < v :=
    nhdsWithin_le_nhds (lt_mem_nhds hl)
  obtain ⟨v₀, hv₀, hall⟩ := (mem_nhdsLT_iff_exists_Ioo_subset' hl).1 (e1.and (e2.and e3))
  refine ⟨v₀, hv₀, fun v h1 h2 => ?_⟩
  obtain ⟨q1, q2, q3⟩ := hall ⟨h1, h2⟩
  have hv0 : 0 < v := l0.trans q3
  refine ⟨q3, rossiPlain m z M E v * (1 + inelRaw m M E v), ?_, ?_⟩
  · refine mul_neg_of_pos_of_neg (C117_rossi_plain m z M E v hm hE hz hM hv0 h2.le) ?_
    have hA : 0 ≤ Real.log (1 + 2 * v * E / ME) := Real.log_nonneg (by
      have : 0 < 2 * v * E / ME := by positivity
      linarith)
    have hN1 : 1 ≤ N := by
      have : 0 < 2 * Real.pi / ALPHA := by positivity
      have := abs_nonneg (K + 1)
      simp only [N]
      linarith
    have hNb : K + 1 + 2 * Real.pi / ALPHA < N := by
      have := le_abs_self (K + 1)
      simp only [N]
      linarith
    have hlt : Real.log (1 + 2 * v * E / ME) *
        (2 * Real.log ((1 - v / V) / (1 - v)) + Real.log ((2 * (E / m) * (1 - v) * ME) / (m * v))) -
        Real.log ((1 - v / V) / (1 - v)) * Real.log ((1 - v / V) / (1 - v)) < -(2 * Real.pi / ALPHA) := by
      nlinarith
    have hc : 0 < ALPHA / (2 * Real.pi) := by positivity
    have := mul_lt_mul_of_pos_left hlt hc
    have e : ALPHA / (2 * Real.pi) * -(2 * Real.pi / ALPHA) = -1 := by field_simp
    rw [e] at this
    have : inelRaw m M E v < -1 := this
    linarith
  · unfold rossi
    rw [inel_some hm hE hv0 h2 l1]
    rfl

/-! ## Examples -/

lemma exWater_fraction : protonFraction exWater.components = 10 / 18 := by
  norm_num [protonFraction, sumOver, exWater, exHydrogen, exOxygen]

lemma ex_delta {β γ : ℝ} (h0 : 0 < β * γ) (h : β * γ < 1) : densityDelta exWater β γ = 0 := by
  have : Real.log (β * γ) / Real.log 10 < 0 := div_neg_of_neg_of_pos (Real.log_neg h0 h) (Real.log_pos (by norm_num))
  unfold densityDelta
  simp only
  rw [if_pos (by norm_num [exWater]; linarith)]
  norm_num [exWater]

lemma ex_gamma : 5 / 4 * ME / ME = 5 / 4 := by
  have := me_pos'
  field_simp

lemma ex_delta_electron : densityDelta exWater (Real.sqrt (1 - 1 / (5 / 4 * (5 / 4)))) (5 / 4) = 0 := by
  have e : Real.sqrt (1 - 1 / (5 / 4 * (5 / 4))) = 3 / 5 := by
    rw [show (1 - 1 / (5 / 4 * (5 / 4)) : ℝ) = (3 / 5) ^ 2 by norm_num]
    exact Real.sqrt_sq (by norm_num)
  rw [e]
  exact ex_delta (by norm_num) (by norm_num)

lemma ex_moller : 0 < electronDedx (mollerLoss ME exWater) 0.08 (5 / 4 * ME) := by
  have hm := me_pos'
  have hE : ME < 5 / 4 * ME := by linarith
  have hl : (0.08 : ℝ) ≤ (limMoller ME (5 / 4 * ME)).vMax := by
    rw [(vmax_moller hE).2.1]
    have : ME / (5 / 4 * ME) = 4 / 5 := by field_simp
    rw [this]
    norm_num
  unfold electronDedx
  rw [div_mul_cancel₀ _ (by positivity), mollerLoss_eq exWater _ _ hE hl]
  refine lt_max_of_lt_left ?_
  have hr := re_pos'
  have hn := na_pos'
  have hpi := Real.pi_pos
  unfold mollerRaw
  simp only
  rw [exWater_fraction, ex_gamma, ex_delta_electron]
  have e : (0.08 : ℝ) * (5 / 4 * ME) / ME = 1 / 10 := by field_simp; norm_num
  rw [e]
  refine mul_pos (mul_pos ?_ (by norm_num; positivity)) (by positivity)
  have h1 := Real.one_sub_inv_le_log_of_pos (show (0 : ℝ) < 1 - 1 / 10 / (5 / 4 - 1) by norm_num)
  have h2 : (1 : ℝ) ≤ Real.log (2 * (5 / 4 - 1 + 2) / ((1e-6 * exWater.I) ^ 2 / ME)) +
      Real.log ((5 / 4 - 1 - 1 / 10) * (1 / 10)) := by
    rw [← Real.log_mul (by simp only [exWater]; positivity) (by norm_num), Real.le_log_iff_exp_le (by
      simp only [exWater]; norm_num; positivity)]
    have := Real.exp_one_lt_d9
    simp only [exWater, ME]
    norm_num
    linarith
  norm_num at h1 h2 ⊢
  linarith

example : electronDedx (mollerLoss ME exWater) 0.09 (5 / 4 * ME) = electronDedx (mollerLoss ME exWater) 0.08 (5 / 4 * ME) +
    5 / 4 * ME * ∫ v in (0.08 : ℝ)..0.09, v * moller ME exWater (5 / 4 * ME) v := by
  have hm := me_pos'
  have hE : ME < 5 / 4 * ME := by linarith
  refine C117_moller_cut_partial exWater _ 0.08 0.09 hE (by rw [exWater_fraction]; norm_num) (by norm_num) (by norm_num) ?_
    ex_moller
  rw [(vmax_moller hE).2.1]
  have : ME / (5 / 4 * ME) = 4 / 5 := by field_simp
  rw [this]
  norm_num

lemma ex_bhabha : 0 < electronDedx (bhabhaLoss ME exWater) 0.1 (5 / 4 * ME) := by
  have hm := me_pos'
  have hE : ME < 5 / 4 * ME := by linarith
  have hl : (0.1 : ℝ) ≤ (limBhabha ME (5 / 4 * ME)).vMax := by
    rw [(vmax_bhabha hE).2.1]
    have : ME / (5 / 4 * ME) = 4 / 5 := by field_simp
    rw [this]
    norm_num
  unfold electronDedx
  rw [div_mul_cancel₀ _ (by positivity), bhabhaLoss_eq exWater _ _ hE hl]
  refine lt_max_of_lt_left ?_
  have hr := re_pos'
  have hn := na_pos'
  have hpi := Real.pi_pos
  unfold bhabhaRaw
  simp only
  rw [exWater_fraction, ex_gamma, ex_delta_electron]
  have e : (0.1 : ℝ) * (5 / 4 * ME) / ME = 1 / 8 := by field_simp; norm_num
  rw [e]
  refine mul_pos (mul_pos ?_ (by norm_num; positivity)) (by positivity)
  have h2 : (1 : ℝ) ≤ Real.log (2 * (5 / 4 - 1 + 2) / ((1e-6 * exWater.I) ^ 2 / ME)) +
      Real.log ((5 / 4 - 1) * (1 / 8)) := by
    rw [← Real.log_mul (by simp only [exWater]; positivity) (by norm_num), Real.le_log_iff_exp_le (by
      simp only [exWater]; norm_num; positivity)]
    have := Real.exp_one_lt_d9
    simp only [exWater, ME]
    norm_num
    linarith
  norm_num at h2 ⊢
  linarith

example : electronDedx (bhabhaLoss ME exWater) 0.2 (5 / 4 * ME) = electronDedx (bhabhaLoss ME exWater) 0.1 (5 / 4 * ME) +
    5 / 4 * ME * ∫ v in (0.1 : ℝ)..0.2, v * bhabha ME exWater (5 / 4 * ME) v := by
  have hm := me_pos'
  have hE : ME < 5 / 4 * ME := by linarith
  refine C117_bhabha_cut_partial exWater _ 0.1 0.2 hE (by rw [exWater_fraction]; norm_num) (by norm_num) (by norm_num) ?_
    ex_bhabha
  rw [(vmax_bhabha hE).2.1]
  have : ME / (5 / 4 * ME) = 4 / 5 := by field_simp
  rw [this]
  norm_num

lemma ex_lim : limBetheBloch MMU exWater.I (5 / 4 * MMU) = ⟨1e-6 * 75 / (5 / 4 * MMU), 2 * ME * (9 / 16) /
    ((1 + 5 / 2 * (ME / MMU) + ME / MMU * (ME / MMU)) * (5 / 4 * MMU))⟩ := by
  have e : 5 / 4 * MMU / MMU = 5 / 4 := by norm_num [MMU]
  unfold limBetheBloch KinLim.raised
  simp only [e]
  rw [min_eq_left (by norm_num [MMU, ME]), if_neg (by norm_num [exWater, MMU, ME])]
  norm_num [exWater]

example : rossiDedx (fun f a b => ∫ x in a..b, f x) MMU (-1) exWater 0.004 0.004 (5 / 4 * MMU) =
    rossiDedx (fun f a b => ∫ x in a..b, f x) MMU (-1) exWater 0.002 0.002 (5 / 4 * MMU) +
    5 / 4 * MMU * ∫ v in (0.002 : ℝ)..0.004, v * (rossi MMU (-1) exWater (5 / 4 * MMU) v).getD 0 := by
  have hm : 0 < MMU := by norm_num [MMU]
  have hE : MMU < 5 / 4 * MMU := by linarith
  have h0 : (limBetheBloch MMU exWater.I (5 / 4 * MMU)).vMin < 0.002 := by rw [ex_lim]; norm_num [MMU]
  have h2 : 0.004 < (limBetheBloch MMU exWater.I (5 / 4 * MMU)).vMax := by rw [ex_lim]; norm_num [MMU, ME]
  have hM : 0 < protonFraction exWater.components := by rw [exWater_fraction]; norm_num
  refine C117_rossi_cut_partial MMU (-1) exWater _ _ _ hm hE (by norm_num [exWater]) (by norm_num) hM h0 (by norm_num) h2 ?_
  rw [rossiLoss_eq MMU (-1) exWater _ _ hm hE (by norm_num) hM h0 (by linarith)]
  refine lt_max_of_lt_left ?_
  have hb : ionizBeta MMU (5 / 4 * MMU) = 3 / 5 := by
    obtain ⟨b0, _, b⟩ := ionizBeta_pos hm hE
    have : ionizBeta MMU (5 / 4 * MMU) ^ 2 = (3 / 5) ^ 2 := by rw [sq, b]; field_simp; norm_num
    exact (pow_left_inj₀ b0.le (by norm_num) (by norm_num)).1 this
  have e : 5 / 4 * MMU / MMU = 5 / 4 := by field_simp
  unfold rossiRaw
  rw [hb, e, ex_delta (by norm_num) (by norm_num), exWater_fraction]
  refine mul_pos ?_ (by norm_num [IONK])
  have hV : (0.002 : ℝ) / (limBetheBloch MMU exWater.I (5 / 4 * MMU)).vMax ≤ 1 := by
    rw [div_le_one (by linarith)]
    linarith
  have h3 : (1 : ℝ) ≤ Real.log (0.002 * (2 * ME * (5 / 4 * MMU))) + 2 * Real.log (3 / 5 * (5 / 4) / (1e-6 * exWater.I)) := by
    rw [← Real.log_rpow (by norm_num [exWater]), ← Real.log_mul (by norm_num [ME, MMU]) (by norm_num [exWater]),
      Real.le_log_iff_exp_le (by norm_num [exWater, ME, MMU])]
    have := Real.exp_one_lt_d9
    norm_num [exWater, ME, MMU]
    linarith
  norm_num at h3 ⊢
  linarith

example : ∃ v, (limBetheBloch MMU exWater.I (5 / 4 * MMU)).vMin < v ∧ ∃ r < 0, rossi MMU (-1) exWater (5 / 4 * MMU) v = some r := by
  have hm : 0 < MMU := by norm_num [MMU]
  obtain ⟨v₀, h, hv⟩ := C117_rossi_negative MMU (-1) exWater (5 / 4 * MMU) hm (by linarith) (by norm_num [exWater]) (by norm_num)
    (by rw [exWater_fraction]; norm_num) (by rw [ex_lim]; norm_num [MMU, ME])
  obtain ⟨v, a, b⟩ := exists_between h
  exact ⟨v, hv v a b⟩

end Proposal
