import Verif.Props.UpperLimit

/-!
# C96: the search for the upper limit
-/

open MeasureTheory Set

namespace Proposal

section Loop

variable {F : ℝ → ℝ} {romb : ℝ → ℝ → ℝ} {x0 fv prec lo hi xs m M σ : ℝ}

private lemma sign_sq (hσ : σ = 1 ∨ σ = -1) : σ * σ = 1 := by rcases hσ with h | h <;> rw [h] <;> norm_num

private lemma sign_abs (hσ : σ = 1 ∨ σ = -1) : |σ| = 1 := by rcases hσ with h | h <;> rw [h] <;> norm_num

/-- Between two ends with the root in between, in one of both orders. -/
private lemma mid_close {l u z : ℝ} (hσ : σ = 1 ∨ σ = -1) (h1 : σ * l ≤ σ * xs) (h2 : σ * xs ≤ σ * u)
    (hz : z = l + (u - l) / 2) : |z - xs| ≤ |(u - l) / 2| := by
  subst hz
  rcases hσ with rfl | rfl
  · simp only [one_mul] at h1 h2
    rw [abs_of_nonneg (by linarith : (0:ℝ) ≤ (u - l) / 2), abs_le]
    constructor <;> linarith
  · rw [abs_of_nonpos (by linarith : (u - l) / 2 ≤ (0:ℝ)), abs_le]
    constructor <;> linarith

/-- Between the ends in one of both orders. -/
private lemma between {l u z : ℝ} (hσ : σ = 1 ∨ σ = -1) (hlu : σ * l ≤ σ * u) (h : (z - u) * (z - l) ≤ 0) :
    σ * l ≤ σ * z ∧ σ * z ≤ σ * u := by
  rcases hσ with rfl | rfl
  · simp only [one_mul] at *
    rcases mul_nonpos_iff.1 h with ⟨a, b⟩ | ⟨a, b⟩ <;> constructor <;> linarith
  · rcases mul_nonpos_iff.1 h with ⟨a, b⟩ | ⟨a, b⟩ <;> constructor <;> linarith

private lemma width {l u z : ℝ} (hσ : σ = 1 ∨ σ = -1) (h1 : σ * l ≤ σ * z) (h2 : σ * z ≤ σ * u) (p : Prop) [Decidable p] :
    |(if p then u else z) - (if p then z else l)| ≤ |u - l| := by
  rcases hσ with rfl | rfl
  · simp only [one_mul] at h1 h2
    rw [abs_of_nonneg (by linarith : 0 ≤ u - l)]
    split_ifs <;> rw [abs_le] <;> constructor <;> linarith
  · rw [abs_of_nonpos (by linarith : u - l ≤ 0)]
    split_ifs <;> rw [abs_le] <;> constructor <;> linarith

/-- An exact last step of Newton: the distance from the root after a step of size `d`. -/
private lemma newton_close {x φ ψ d : ℝ} (hm : 0 < m) (hφ : m ≤ φ ∧ φ ≤ M) (hψ : m ≤ ψ ∧ ψ ≤ M) (hd : d * ψ = φ * (x - xs)) :
    |x - d - xs| ≤ |d| * (M / m) := by
  have hφ0 : 0 < φ := hm.trans_le hφ.1
  have e : x - d - xs = d * (ψ / φ - 1) := by
    field_simp
    linear_combination -hd
  rw [e, abs_mul]
  refine mul_le_mul_of_nonneg_left ?_ (abs_nonneg _)
  have h1 : ψ / φ ≤ M / m := div_le_div₀ (by linarith [hψ.1, hψ.2]) hψ.2 hm hφ.1
  have h2 : 0 ≤ ψ / φ := div_nonneg (by linarith [hψ.1]) hφ0.le
  have h3 : 1 ≤ M / m := by rw [le_div_iff₀ hm]; linarith [hφ.1, hφ.2]
  rw [abs_le]
  constructor <;> linarith

private lemma refineLoop_close (hσ : σ = 1 ∨ σ = -1) (hm : 0 < m) (hM : m ≤ M) (hp : 0 < prec) (hF : ∀ z, lo ≤ z → z ≤ hi → m ≤ σ * F z ∧ σ * F z ≤ M)
    (hG : ∀ z, lo ≤ z → z ≤ hi → ∃ φ, (m ≤ φ ∧ φ ≤ M) ∧
      fv + (orient x0 z).2.2 * romb (orient x0 z).1 (orient x0 z).2.1 = σ * φ * (z - xs))
    (k : ℕ) (hk : hi - lo < prec * 2 ^ k) :
    ∀ n e a c : ℕ, ∀ xlow xhi f dX dO x, lo ≤ xlow → xlow ≤ hi → lo ≤ xhi → xhi ≤ hi → lo ≤ x → x ≤ hi →
      σ * xlow ≤ σ * xs → σ * xs ≤ σ * xhi → (∃ φ, (m ≤ φ ∧ φ ≤ M) ∧ f = σ * φ * (x - xs)) →
      (∀ [Decidable (f < 0)], |(if f < 0 then xhi else x) - (if f < 0 then x else xlow)| < prec * 2 ^ e) →
      |dX| < prec * 2 ^ a → |dO| < prec * 2 ^ c → a ≤ k → c ≤ k → e * (2 * k + 1) + a + c < n →
      ∃ y, refineLoop F romb x0 fv prec n xlow xhi f (F x) dX dO x = some y ∧ |y - xs| ≤ prec * (M / m) := by
  classical
  have hMm : 1 ≤ M / m := by rw [le_div_iff₀ hm]; linarith
  have pow_half : ∀ {t : ℝ} {e : ℕ}, ¬ t < prec → t < prec * 2 ^ e / 2 → ∃ e', e = e' + 1 ∧ t < prec * 2 ^ e' := by
    intro t e h1 h2
    rcases e with _ | e'
    · rw [pow_zero] at h2; exact absurd (by linarith) h1
    · refine ⟨e', rfl, ?_⟩
      rw [pow_succ] at h2; linarith
  intro n
  induction n with
  | zero => intro e a c _ _ _ _ _ _ _ _ _ _ _ _ _ _ _ _ _ _ _ _ h; omega
  | succ n ih =>
    intro e a c xlow0 xhi0 f dX dO x h1 h2 h3 h4 h5 h6 h7 h8 h9 hw ha hc hak hck hn
    obtain ⟨φ, hφ, hf⟩ := h9
    have hφ0 : 0 < φ := hm.trans_le hφ.1
    unfold refineLoop
    dsimp only
    obtain ⟨l1, l2⟩ : lo ≤ (if f < 0 then x else xlow0) ∧ (if f < 0 then x else xlow0) ≤ hi := by
      split_ifs <;> exact ⟨by assumption, by assumption⟩
    obtain ⟨u1, u2⟩ : lo ≤ (if f < 0 then xhi0 else x) ∧ (if f < 0 then xhi0 else x) ≤ hi := by
      split_ifs <;> exact ⟨by assumption, by assumption⟩
    have hsgn : σ * x - σ * xs = f / φ := by
      rw [hf]; field_simp
    obtain ⟨b1, b2⟩ : σ * (if f < 0 then x else xlow0) ≤ σ * xs ∧ σ * xs ≤ σ * (if f < 0 then xhi0 else x) := by
      split_ifs with h
      · have := div_neg_of_neg_of_pos h hφ0
        exact ⟨by linarith, h8⟩
      · have := div_nonneg (not_lt.1 h) hφ0.le
        exact ⟨h7, by linarith⟩
    have hw1 : |(if f < 0 then xhi0 else x) - (if f < 0 then x else xlow0)| < prec * 2 ^ e := hw
    clear hw
    generalize (if f < 0 then x else xlow0) = xlow at *
    generalize (if f < 0 then xhi0 else x) = xhi at *
    have step : ∀ z d, σ * xlow ≤ σ * z → σ * z ≤ σ * xhi → ∀ e a c : ℕ,
        (∀ p : Prop, ∀ [Decidable p], |(if p then xhi else z) - (if p then z else xlow)| < prec * 2 ^ e) → |d| < prec * 2 ^ a →
        |dX| < prec * 2 ^ c → a ≤ k → c ≤ k → e * (2 * k + 1) + a + c < n →
        ∃ y, refineLoop F romb x0 fv prec n xlow xhi (fv + (orient x0 z).2.2 * romb (orient x0 z).1 (orient x0 z).2.1) (F z) d dX z =
          some y ∧ |y - xs| ≤ prec * (M / m) := by
      intro z d z1 z2 e a c hw ha hc hak hck hn
      have hz : lo ≤ z ∧ z ≤ hi := by
        rcases hσ with rfl | rfl
        · constructor <;> linarith
        · constructor <;> linarith
      exact ih e a c xlow xhi _ d dX z l1 l2 u1 u2 hz.1 hz.2 b1 b2 (hG z hz.1 hz.2) (hw _) ha hc hak hck hn
    by_cases hcond : ((x - xhi) * F x - f) * ((x - xlow) * F x - f) > 0 ∨ |2 * f| > |dO * F x|
    · rw [if_pos hcond]
      have hclose := mid_close hσ b1 b2 (rfl : xlow + (xhi - xlow) / 2 = _)
      have hle : σ * xlow ≤ σ * (xlow + (xhi - xlow) / 2) ∧ σ * (xlow + (xhi - xlow) / 2) ≤ σ * xhi := by
        constructor <;> nlinarith
      have hhalf : |(xhi - xlow) / 2| = |xhi - xlow| / 2 := by rw [abs_div, abs_two]
      by_cases he : xlow = xlow + (xhi - xlow) / 2
      · rw [if_pos he]
        refine ⟨_, rfl, hclose.trans ?_⟩
        have : (xhi - xlow) / 2 = 0 := by linarith
        rw [this, abs_zero]; positivity
      · rw [if_neg he]
        by_cases hd : |(xhi - xlow) / 2| < prec
        · rw [if_pos hd]
          exact ⟨_, rfl, hclose.trans (hd.le.trans (le_mul_of_one_le_right hp.le hMm))⟩
        · rw [if_neg hd]
          obtain ⟨e', rfl, he'⟩ := pow_half hd (by rw [hhalf]; linarith : |(xhi - xlow) / 2| < prec * 2 ^ e / 2)
          refine step _ _ hle.1 hle.2 e' k a (fun p _ => ?_) ?_ ha le_rfl hak ?_
          · have : ∀ p : Prop, ∀ [Decidable p], (if p then xhi else xlow + (xhi - xlow) / 2) - (if p then xlow + (xhi - xlow) / 2 else xlow) =
                (xhi - xlow) / 2 := by
              intro p _; split_ifs <;> ring
            rw [this]; exact he'
          · rw [hhalf]
            have : |xhi - xlow| ≤ hi - lo := by rw [abs_le]; constructor <;> linarith
            have := abs_nonneg (xhi - xlow)
            linarith
          · have : (e' + 1) * (2 * k + 1) = e' * (2 * k + 1) + (2 * k + 1) := by ring
            omega
    · rw [if_neg hcond]
      push Not at hcond
      obtain ⟨hψ1, hψ2⟩ := hF x h5 h6
      have hdf : F x ≠ 0 := by intro h; rw [h, mul_zero] at hψ1; linarith
      rw [if_neg hdf]
      have hle : σ * xlow ≤ σ * (x - f / F x) ∧ σ * (x - f / F x) ≤ σ * xhi := by
        refine between hσ (b1.trans b2) ?_
        have e1 : (x - xhi) * F x - f = F x * (x - f / F x - xhi) := by field_simp; ring
        have e2 : (x - xlow) * F x - f = F x * (x - f / F x - xlow) := by field_simp; ring
        have hp := hcond.1
        rw [e1, e2] at hp
        have hsq : 0 < F x ^ 2 := by positivity
        have : F x * (x - f / F x - xhi) * (F x * (x - f / F x - xlow)) =
          F x ^ 2 * ((x - f / F x - xhi) * (x - f / F x - xlow)) := by ring
        rw [this] at hp
        by_contra hcon
        push Not at hcon
        have := mul_pos hsq hcon
        linarith
      have hclose : |x - f / F x - xs| ≤ |f / F x| * (M / m) := by
        refine newton_close (φ := φ) (ψ := σ * F x) hm hφ ⟨hψ1, hψ2⟩ ?_
        have h1 := sign_sq hσ
        have : f / F x * (σ * F x) = σ * f := by field_simp
        rw [this, hf]
        linear_combination (φ * (x - xs)) * h1
      by_cases he : x = x - f / F x
      · rw [if_pos he]
        have : f / F x = 0 := by linarith
        refine ⟨_, rfl, hclose.trans ?_⟩
        rw [this, abs_zero, zero_mul]; positivity
      · rw [if_neg he]
        by_cases hd : |f / F x| < prec
        · rw [if_pos hd]
          exact ⟨_, rfl, hclose.trans (mul_le_mul_of_nonneg_right hd.le (by linarith))⟩
        · rw [if_neg hd]
          have hdd : |f / F x| ≤ |dO| / 2 := by
            have := hcond.2
            rw [abs_mul, abs_mul, abs_two] at this
            rw [abs_div, div_le_iff₀ (abs_pos.2 hdf)]
            linarith
          obtain ⟨c', rfl, hc'⟩ := pow_half hd (by linarith : |f / F x| < prec * 2 ^ c / 2)
          refine step _ _ hle.1 hle.2 e c' a (fun p _ => lt_of_le_of_lt (width hσ hle.1 hle.2 p) hw1) hc' ha (by omega) hak ?_
          omega

end Loop

/-- A function that keeps its sign between two limits, with a smallest and a largest size. -/
structure Spec.Bounded (F : ℝ → ℝ) (lo hi σ m M : ℝ) : Prop where
  sign : σ = 1 ∨ σ = -1
  pos : 0 < m
  integrable : IntervalIntegrable F volume lo hi
  bound : ∀ y, lo ≤ y → y ≤ hi → m ≤ σ * F y ∧ σ * F y ≤ M

private lemma sub_integrable {F : ℝ → ℝ} {lo hi σ m M : ℝ} (h : Spec.Bounded F lo hi σ m M) (hle : lo ≤ hi) {u v : ℝ} (hu : lo ≤ u ∧ u ≤ hi)
    (hv : lo ≤ v ∧ v ≤ hi) : IntervalIntegrable F volume u v :=
  h.integrable.mono_set (by rw [uIcc_of_le hle]; exact uIcc_subset_Icc ⟨hu.1, hu.2⟩ ⟨hv.1, hv.2⟩)

private lemma mean_le {F : ℝ → ℝ} {lo hi σ m M : ℝ} (h : Spec.Bounded F lo hi σ m M) (hle : lo ≤ hi) {u v : ℝ} (hu : lo ≤ u) (huv : u ≤ v)
    (hv : v ≤ hi) : m * (v - u) ≤ σ * ∫ y in u..v, F y ∧ σ * ∫ y in u..v, F y ≤ M * (v - u) := by
  have hi' := (sub_integrable h hle ⟨hu, huv.trans hv⟩ ⟨hu.trans huv, hv⟩).const_mul σ
  rw [← intervalIntegral.integral_const_mul]
  constructor
  · have := intervalIntegral.integral_mono_on huv (intervalIntegrable_const (c := m)) hi'
      (fun y hy => (h.bound y (hu.trans hy.1) (hy.2.trans hv)).1)
    rw [intervalIntegral.integral_const, smul_eq_mul] at this
    linarith
  · have := intervalIntegral.integral_mono_on huv hi' (intervalIntegrable_const (c := M))
      (fun y hy => (h.bound y (hu.trans hy.1) (hy.2.trans hv)).2)
    rw [intervalIntegral.integral_const, smul_eq_mul] at this
    linarith

/-- The mean value of the integrand between two points. -/
private lemma mean_value {F : ℝ → ℝ} {lo hi σ m M : ℝ} (h : Spec.Bounded F lo hi σ m M) (hlt : lo < hi) {u z : ℝ} (hu : lo ≤ u ∧ u ≤ hi)
    (hz : lo ≤ z ∧ z ≤ hi) : ∃ φ, (m ≤ φ ∧ φ ≤ M) ∧ ∫ y in u..z, F y = σ * φ * (z - u) := by
  have hs := sign_sq h.sign
  rcases lt_trichotomy u z with hlt' | rfl | hgt
  · obtain ⟨h1, h2⟩ := mean_le h hlt.le hu.1 hlt'.le hz.2
    have hp : 0 < z - u := by linarith
    refine ⟨σ * (∫ y in u..z, F y) / (z - u), ⟨by rwa [le_div_iff₀ hp], by rwa [div_le_iff₀ hp]⟩, ?_⟩
    field_simp
    linear_combination -(∫ y in u..z, F y) * hs
  · refine ⟨m, ⟨le_rfl, ?_⟩, by simp⟩
    have := h.bound u hu.1 hu.2
    linarith [this.1, this.2]
  · obtain ⟨h1, h2⟩ := mean_le h hlt.le hz.1 hgt.le hu.2
    have hp : 0 < u - z := by linarith
    refine ⟨σ * (∫ y in z..u, F y) / (u - z), ⟨by rwa [le_div_iff₀ hp], by rwa [div_le_iff₀ hp]⟩, ?_⟩
    rw [intervalIntegral.integral_symm]
    field_simp
    linear_combination (∫ y in z..u, F y) * (u - z) * hs

/-- C96, the search: for exact integrations of an integrand that keeps its sign, there is exactly one limit at which the integral has
reached a part of the whole strictly between 0 and 1, and the search finds it up to the precision times the ratio of the largest and
the smallest integrand, if it may take enough steps. -/
theorem C96_search_partial (Q : Quadrature) (hQ : Spec.ExactQuadrature Q) (steps : ℕ) (precision : ℝ) (hp : 0 < precision) (s : IState)
    (h : s.lo < s.hi) (hr : 0 < s.rnd ∧ s.rnd < 1) (σ m M : ℝ) (hb : Spec.Bounded s.function s.lo s.hi σ m M)
    (hs : s.saved = ∫ y in s.lo..s.hi, s.function y) :
    ∃ t, (∀ y, s.lo ≤ y → y ≤ s.hi → (∫ z in s.lo..y, s.function z = s.rnd * ∫ z in s.lo..s.hi, s.function z ↔ y = t)) ∧
      s.lo < t ∧ t < s.hi ∧
      ∀ k : ℕ, s.hi - s.lo < precision * 2 ^ k → 2 * k ^ 2 + 3 * k < steps →
        ∃ x, refineUpperLimit Q steps precision s = some x ∧ |x - t| ≤ precision * (M / m) := by
  classical
  set F := s.function with hF
  have hsq := sign_sq hb.sign
  have hM : m ≤ M := by have := hb.bound s.lo le_rfl h.le; linarith [this.1, this.2]
  have hsub : ∀ {u v}, s.lo ≤ u ∧ u ≤ s.hi → s.lo ≤ v ∧ v ≤ s.hi → IntervalIntegrable F volume u v :=
    fun hu hv => sub_integrable hb h.le hu hv
  have hlo : s.lo ≤ s.lo ∧ s.lo ≤ s.hi := ⟨le_rfl, h.le⟩
  have hhi : s.lo ≤ s.hi ∧ s.hi ≤ s.hi := ⟨h.le, le_rfl⟩
  -- the root
  have hIpos : 0 < σ * ∫ z in s.lo..s.hi, F z := by
    have := (mean_le hb h.le le_rfl h.le le_rfl).1
    have := mul_pos hb.pos (sub_pos.2 h)
    linarith
  have hcont : ContinuousOn (fun y => σ * ∫ z in s.lo..y, F z) (Icc s.lo s.hi) := by
    have := intervalIntegral.continuousOn_primitive_interval' (μ := volume) hb.integrable (a := s.lo) left_mem_uIcc
    rw [uIcc_of_le h.le] at this
    exact this.const_mul σ
  obtain ⟨t, ht, htv⟩ := intermediate_value_Icc h.le hcont (show σ * (s.rnd * ∫ z in s.lo..s.hi, F z) ∈ Icc _ _ by
    have e : σ * (s.rnd * ∫ z in s.lo..s.hi, F z) = s.rnd * (σ * ∫ z in s.lo..s.hi, F z) := by ring
    rw [e]
    simp only [intervalIntegral.integral_same, mul_zero]
    exact ⟨mul_nonneg hr.1.le hIpos.le, mul_le_of_le_one_left hIpos.le hr.2.le⟩)
  have hσ0 : σ ≠ 0 := by rintro rfl; norm_num at hsq
  have htv' : ∫ z in s.lo..t, F z = s.rnd * ∫ z in s.lo..s.hi, F z := mul_left_cancel₀ hσ0 htv
  have hG : ∀ y, s.lo ≤ y → y ≤ s.hi → ∃ φ, (m ≤ φ ∧ φ ≤ M) ∧
      (∫ z in s.lo..y, F z) - s.rnd * (∫ z in s.lo..s.hi, F z) = σ * φ * (y - t) := by
    intro y h1 h2
    obtain ⟨φ, hφ, he⟩ := mean_value hb h ht ⟨h1, h2⟩
    refine ⟨φ, hφ, ?_⟩
    rw [← he, ← htv', ← intervalIntegral.integral_add_adjacent_intervals (hsub hlo ht) (hsub ht ⟨h1, h2⟩)]
    ring
  have huniq : ∀ y, s.lo ≤ y → y ≤ s.hi → (∫ z in s.lo..y, F z = s.rnd * ∫ z in s.lo..s.hi, F z ↔ y = t) := by
    intro y h1 h2
    refine ⟨fun he => ?_, fun he => he ▸ htv'⟩
    obtain ⟨φ, hφ, hg⟩ := hG y h1 h2
    rw [he, sub_self] at hg
    have : σ * φ ≠ 0 := mul_ne_zero hσ0 (hb.pos.trans_le hφ.1).ne'
    rcases mul_eq_zero.1 hg.symm with h' | h'
    · exact absurd h' this
    · linarith
  have hI0 : (∫ z in s.lo..s.hi, F z) ≠ 0 := fun h0 => by rw [h0, mul_zero] at hIpos; exact lt_irrefl _ hIpos
  have hlt1 : s.lo < t := lt_of_le_of_ne ht.1 fun he => by
    rw [← he, intervalIntegral.integral_same] at htv'
    rcases mul_eq_zero.1 htv'.symm with h' | h'
    · exact hr.1.ne' h'
    · exact hI0 h'
  have hlt2 : t < s.hi := lt_of_le_of_ne ht.2 fun he => by
    rw [he] at htv'
    have : (1 - s.rnd) * (∫ z in s.lo..s.hi, F z) = 0 := by linarith
    rcases mul_eq_zero.1 this with h' | h'
    · linarith [hr.2]
    · exact hI0 h'
  refine ⟨t, huniq, hlt1, hlt2, fun k hk hn => ?_⟩
  unfold refineUpperLimit
  rw [if_neg (by rintro (h' | h') <;> linarith [hr.1, hr.2])]
  dsimp only
  have hbr : ¬ (-s.rnd * s.saved * ((1 - s.rnd) * s.saved) > 0) := by
    have h1 : 0 ≤ s.rnd * (1 - s.rnd) := mul_nonneg hr.1.le (by linarith [hr.2])
    have h2 : -s.rnd * s.saved * ((1 - s.rnd) * s.saved) = -(s.rnd * (1 - s.rnd) * s.saved ^ 2) := by ring
    rw [h2]
    have := mul_nonneg h1 (sq_nonneg s.saved)
    linarith
  rw [if_neg hbr]
  have hx0 : s.lo ≤ (if s.x < s.lo ∨ s.x > s.hi then (s.lo + s.hi) / 2 else s.x) ∧
      (if s.x < s.lo ∨ s.x > s.hi then (s.lo + s.hi) / 2 else s.x) ≤ s.hi := by
    by_cases hc : s.x < s.lo ∨ s.x > s.hi
    · rw [if_pos hc]; constructor <;> linarith
    · rw [if_neg hc]; push Not at hc; exact ⟨hc.1, hc.2⟩
  generalize (if s.x < s.lo ∨ s.x > s.hi then (s.lo + s.hi) / 2 else s.x) = x0 at hx0 ⊢
  have hfv : Q.openedBig s.saved F s.lo x0 - s.rnd * s.saved = (∫ z in s.lo..x0, F z) - s.rnd * (∫ z in s.lo..s.hi, F z) := by
    rw [hQ.openedBig _ _ _ _ hx0.1, hs]
  have hflow : -s.rnd * s.saved > 0 ↔ σ = -1 := by
    rw [hs]
    rcases hb.sign with e | e
    · rw [e, one_mul] at hIpos
      rw [e]
      refine ⟨fun h' => ?_, fun h' => by norm_num at h'⟩
      have := mul_pos hr.1 hIpos
      linarith
    · rw [e] at hIpos
      refine ⟨fun _ => e, fun _ => ?_⟩
      have := mul_pos hr.1 (by linarith : 0 < -∫ z in s.lo..s.hi, F z)
      show 0 < _
      linarith
  have hbrk : s.lo ≤ (if -s.rnd * s.saved > 0 then s.hi else s.lo) ∧ (if -s.rnd * s.saved > 0 then s.hi else s.lo) ≤ s.hi ∧
      s.lo ≤ (if -s.rnd * s.saved > 0 then s.lo else s.hi) ∧ (if -s.rnd * s.saved > 0 then s.lo else s.hi) ≤ s.hi ∧
      σ * (if -s.rnd * s.saved > 0 then s.hi else s.lo) ≤ σ * t ∧ σ * t ≤ σ * (if -s.rnd * s.saved > 0 then s.lo else s.hi) := by
    rcases hb.sign with e | e
    · have : ¬ (-s.rnd * s.saved > 0) := fun h' => by rw [hflow.1 h'] at e; norm_num at e
      simp only [if_neg this, e, one_mul]
      exact ⟨le_rfl, h.le, h.le, le_rfl, hlt1.le, hlt2.le⟩
    · have := hflow.2 e
      simp only [if_pos this, e]
      exact ⟨h.le, le_rfl, le_rfl, h.le, by linarith, by linarith⟩
  generalize (if -s.rnd * s.saved > 0 then s.hi else s.lo) = xl at hbrk ⊢
  generalize (if -s.rnd * s.saved > 0 then s.lo else s.hi) = xh at hbrk ⊢
  obtain ⟨g1, g2, g3, g4, g5, g6⟩ := hbrk
  rw [hfv]
  refine refineLoop_close (lo := s.lo) (hi := s.hi) (xs := t) hb.sign hb.pos hM hp hb.bound ?_ k hk steps k k k xl xh _ _ _ x0 g1 g2 g3 g4
    hx0.1 hx0.2 g5 g6 (hG x0 hx0.1 hx0.2) ?_ ?_ ?_ le_rfl le_rfl ?_
  · intro z z1 z2
    obtain ⟨φ, hφ, hg⟩ := hG z z1 z2
    refine ⟨φ, hφ, ?_⟩
    rw [← hg, ← intervalIntegral.integral_add_adjacent_intervals (hsub hlo hx0) (hsub hx0 ⟨z1, z2⟩)]
    unfold orient
    split_ifs with ho
    · rw [hQ.openedBig _ _ _ _ (le_of_lt ho), intervalIntegral.integral_symm z x0]; ring
    · rw [hQ.openedBig _ _ _ _ (not_lt.1 ho)]; ring
  · intro _
    refine lt_of_le_of_lt ?_ hk
    split_ifs <;> rw [abs_le] <;> constructor <;> linarith [hx0.1, hx0.2]
  · rw [abs_of_nonneg (by linarith)]; exact hk
  · rw [abs_of_nonneg (by linarith)]; exact hk
  · nlinarith

/-- C96: if the search finds the same limit with any larger number of steps, it is the right one up to the precision times the ratio of the
largest and the smallest integrand. -/
theorem C96_converged (Q : Quadrature) (hQ : Spec.ExactQuadrature Q) (steps : ℕ) (precision : ℝ) (hp : 0 < precision) (s : IState)
    (h : s.lo < s.hi) (hr : 0 < s.rnd ∧ s.rnd < 1) (σ m M : ℝ) (hb : Spec.Bounded s.function s.lo s.hi σ m M)
    (hs : s.saved = ∫ y in s.lo..s.hi, s.function y)
    (hc : ∀ n, steps ≤ n → refineUpperLimit Q n precision s = refineUpperLimit Q steps precision s) :
    ∃ x t, refineUpperLimit Q steps precision s = some x ∧ s.lo ≤ t ∧ t ≤ s.hi ∧
      ∫ z in s.lo..t, s.function z = s.rnd * ∫ z in s.lo..s.hi, s.function z ∧ |x - t| ≤ precision * (M / m) := by
  obtain ⟨k, hk⟩ : ∃ k : ℕ, s.hi - s.lo < precision * 2 ^ k := by
    obtain ⟨k, hk⟩ := pow_unbounded_of_one_lt ((s.hi - s.lo) / precision) (one_lt_two)
    exact ⟨k, by rw [div_lt_iff₀ hp] at hk; linarith⟩
  obtain ⟨t, h1, h2, h3, h4⟩ := C96_search_partial Q hQ (max steps (2 * k ^ 2 + 3 * k + 1)) precision hp s h hr σ m M hb hs
  obtain ⟨x, hx, hx'⟩ := h4 k hk (lt_of_lt_of_le (Nat.lt_succ_self _) (le_max_right _ _))
  rw [hc _ (le_max_left _ _)] at hx
  exact ⟨x, t, hx, h2.le, h3.le, (h1 t h2.le h3.le).2 rfl, hx'⟩

/-- Half of the integral of a constant: the search finds the middle up to the precision. -/
example : ∃ x, refineUpperLimit exactQ 20 (1 / 2) { newIntegral with lo := 0, hi := 1, rnd := 1 / 4, saved := 1, f := fun _ => 1 } = some x ∧
    |x - 1 / 4| ≤ 1 / 2 := by
  have hfun : IState.function { newIntegral with lo := 0, hi := 1, rnd := 1 / 4, saved := 1, f := fun _ => 1 } = fun _ => 1 := by
    funext x; simp [IState.function, weighted, newIntegral]
  obtain ⟨t, h1, _, _, h4⟩ := C96_search_partial exactQ exactQ_exact 20 (1 / 2) (by norm_num)
    { newIntegral with lo := 0, hi := 1, rnd := 1 / 4, saved := 1, f := fun _ => 1 } (by norm_num) (by norm_num) 1 1 1
    ⟨Or.inl rfl, one_pos, by rw [hfun]; exact intervalIntegrable_const, fun y _ _ => by rw [hfun]; norm_num⟩ (by rw [hfun]; simp)
  have ht := (h1 (1 / 4) (by norm_num) (by norm_num)).1 (by rw [hfun]; simp)
  obtain ⟨x, hx, hx'⟩ := h4 2 (by norm_num) (by norm_num)
  refine ⟨x, hx, ?_⟩
  rw [ht]
  linarith

end Proposal
