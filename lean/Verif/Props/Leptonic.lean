import Verif.Lemmas.Decay
import Verif.Props.RootFinding
import Mathlib.Analysis.Calculus.Deriv.MeanValue
import Mathlib.Analysis.SpecialFunctions.Sqrt
import Mathlib.Analysis.SpecialFunctions.Log.Deriv

/-!
# Leptonic decays (C82, C83)
-/

namespace Proposal
open Spec

/-! ## The energy fraction -/

/-- The solver does not exceed a bound on its start and its bracket. -/
theorem newtonLoop_le (f df : ℝ → ℝ) (xacc c : ℝ) :
    ∀ (n : ℕ) (xl xh rts dx dxold r : ℝ), xl ≤ c → xh ≤ c → rts ≤ c →
      newtonLoop f df xacc n xl xh rts dx dxold = some r → r ≤ c := by
  intro n
  induction n with
  | zero =>
    intro xl xh rts dx dxold r _ _ h h'
    simp only [newtonLoop, Option.some.injEq] at h'
    exact h' ▸ h
  | succ n ih =>
    intro xl xh rts dx dxold r hl hh hr h
    simp only [newtonLoop] at h
    have next : ∀ rts' dx', rts' ≤ c → (if |dx'| < xacc then some rts'
        else if f rts' < 0 then newtonLoop f df xacc n rts' xh rts' dx' dx
        else newtonLoop f df xacc n xl rts' rts' dx' dx) = some r → r ≤ c := by
      intro rts' dx' h1 h2
      split_ifs at h2
      · injection h2 with h2; exact h2 ▸ h1
      · exact ih _ _ _ _ _ _ h1 hh h1 h2
      · exact ih _ _ _ _ _ _ hl h1 h1 h2
    by_cases h0 : ((rts - xh) * df rts - f rts) * ((rts - xl) * df rts - f rts) > 0 ∨ |2 * f rts| > |dxold * df rts|
    · rw [if_pos h0] at h
      have hb : xl + 1 / 2 * (xh - xl) ≤ c := by linarith
      by_cases h1 : xl = xl + 1 / 2 * (xh - xl)
      · rw [if_pos h1] at h
        injection h with h
        exact h ▸ hb
      · rw [if_neg h1] at h
        exact next _ _ hb h
    · rw [if_neg h0] at h
      by_cases h1 : df rts = 0
      · rw [if_pos h1] at h; simp at h
      · rw [if_neg h1] at h
        push Not at h0
        have hb : rts - f rts / df rts ≤ c := by
          by_contra hc
          rw [not_le] at hc
          have e : ((rts - xh) * df rts - f rts) * ((rts - xl) * df rts - f rts) =
              df rts ^ 2 * ((rts - f rts / df rts - xh) * (rts - f rts / df rts - xl)) := by
            have e1 : f rts / df rts * df rts = f rts := div_mul_cancel₀ _ h1
            generalize f rts / df rts = q at *
            rw [← e1]; ring
          have hp : 0 < df rts ^ 2 * ((rts - f rts / df rts - xh) * (rts - f rts / df rts - xl)) := by
            apply mul_pos (by positivity)
            apply mul_pos <;> linarith
          rw [← e] at hp
          exact absurd h0.1 (not_le.2 hp)
        by_cases h2 : rts = rts - f rts / df rts
        · rw [if_pos h2] at h
          injection h with h
          exact h ▸ hb
        · rw [if_neg h2] at h
          exact next _ _ hb h

theorem newtonRaphson_le (f df : ℝ → ℝ) (x1 x2 xinit xacc c r : ℝ) (n : ℕ) (h1 : x1 ≤ c) (h2 : x2 ≤ c) (hi : xinit ≤ c)
    (h : newtonRaphson f df x1 x2 xinit n xacc = .ok (some r)) : r ≤ c := by
  unfold newtonRaphson at h
  simp only at h
  split_ifs at h
  · injection h with h; injection h with h; exact h ▸ h1
  · injection h with h; injection h with h; exact h ▸ h2
  · injection h with h; exact newtonLoop_le f df xacc c _ _ _ _ _ _ _ h1 h2 hi h
  · injection h with h; exact newtonLoop_le f df xacc c _ _ _ _ _ _ _ h2 h1 hi h

theorem emax_facts (M m : ℝ) (hm : 0 ≤ m) (h : m < M) :
    0 < leptonEmax M m ∧ m < leptonEmax M m ∧ 2 * M * leptonEmax M m = M ^ 2 + m ^ 2 := by
  have hM : 0 < M := by linarith
  unfold leptonEmax
  refine ⟨by positivity, ?_, by field_simp⟩
  rw [lt_div_iff₀ (by linarith)]
  nlinarith [mul_pos (sub_pos.2 h) (sub_pos.2 h)]

/-- C83: the density with which the fraction is improved is the derivative of the rate. -/
theorem C83_derivative (exact : Bool) (m M x : ℝ) (hm : 0 ≤ m) (hx : m < leptonEmax M m * x) :
    HasDerivAt (decayRate exact m M (leptonEmax M m)) (differentialDecayRate exact m M (leptonEmax M m) x) x := by
  cases exact with
  | false =>
    have : HasDerivAt (fun x : ℝ => x * x * x * (1 - 0.5 * x))
        (((1 * x + x * 1) * x + x * x * 1) * (1 - 0.5 * x) + x * x * x * (0 - 0.5 * 1)) x :=
      (((hasDerivAt_id x).mul (hasDerivAt_id x)).mul (hasDerivAt_id x)).mul
        ((hasDerivAt_const x 1).sub ((hasDerivAt_id x).const_mul 0.5))
    have e : decayRate false m M (leptonEmax M m) = fun x => x * x * x * (1 - 0.5 * x) := by
      funext x; simp [decayRate]
    rw [e]
    convert this using 1
    simp only [differentialDecayRate]
    norm_num
    ring
  | true =>
    set em := leptonEmax M m with hem
    have hE : 0 < em * x := by linarith
    have hr : 0 < em * x * (em * x) - m * m := by nlinarith
    have hs : 0 < Real.sqrt (em * x * (em * x) - m * m) := Real.sqrt_pos.2 hr
    have hss : Real.sqrt (em * x * (em * x) - m * m) ^ 2 = em * x * (em * x) - m * m := Real.sq_sqrt hr.le
    -- near `x` the maximum is the radicand
    have hnear : decayRate true m M em =ᶠ[nhds x] fun y =>
        1.5 * (m * m) * (m * m) * M * Real.log (Real.sqrt (em * y * (em * y) - m * m) + em * y) +
        Real.sqrt (em * y * (em * y) - m * m) *
          ((M * M + m * m - M * (em * y)) * (em * y * (em * y) - m * m) - 1.5 * M * (em * y) * (m * m)) := by
      have hc : Filter.Tendsto (fun y => em * y * (em * y) - m * m) (nhds x) (nhds (em * x * (em * x) - m * m)) :=
        Continuous.tendsto (by fun_prop) x
      filter_upwards [hc.eventually (lt_mem_nhds hr)] with y hy
      simp only [decayRate, if_true]
      rw [max_eq_right hy.le]
    apply HasDerivAt.congr_of_eventuallyEq _ hnear
    have d1 : HasDerivAt (fun y => em * y) em x := by simpa using (hasDerivAt_id x).const_mul em
    have d2 : HasDerivAt (fun y => em * y * (em * y) - m * m) (em * (em * x) + em * x * em) x := by
      simpa using (d1.mul d1).sub_const (m * m)
    have d3 : HasDerivAt (fun y => Real.sqrt (em * y * (em * y) - m * m))
        ((em * (em * x) + em * x * em) / (2 * Real.sqrt (em * x * (em * x) - m * m))) x := d2.sqrt hr.ne'
    have d4 : HasDerivAt (fun y => Real.log (Real.sqrt (em * y * (em * y) - m * m) + em * y))
        (((em * (em * x) + em * x * em) / (2 * Real.sqrt (em * x * (em * x) - m * m)) + em) /
          (Real.sqrt (em * x * (em * x) - m * m) + em * x)) x := (d3.add d1).log (add_pos hs hE).ne'
    have d5 := d4.const_mul (1.5 * (m * m) * (m * m) * M)
    have d6 : HasDerivAt (fun y => (M * M + m * m - M * (em * y)) * (em * y * (em * y) - m * m) - 1.5 * M * (em * y) * (m * m))
        ((0 - M * em) * (em * x * (em * x) - m * m) + (M * M + m * m - M * (em * x)) * (em * (em * x) + em * x * em) -
          1.5 * M * em * (m * m)) x :=
      ((((hasDerivAt_const x (M * M + m * m)).sub (d1.const_mul M)).mul d2)).sub ((d1.const_mul (1.5 * M)).mul_const (m * m))
    refine HasDerivAt.congr_deriv (d5.add (d3.mul d6)) ?_
    symm
    unfold differentialDecayRate
    rw [if_pos rfl]
    have hsE := (add_pos hs hE).ne'
    simp only
    generalize Real.sqrt (em * x * (em * x) - m * m) = s at *
    have hs0 := hs.ne'
    have hq : em / s * s = em := div_mul_cancel₀ _ hs0
    have g1 : ((em * (em * x) + em * x * em) / (2 * s) + em) / (s + em * x) = em / s := by
      field_simp
      ring
    have g2 : (em * (em * x) + em * x * em) / (2 * s) = em / s * (em * x) := by
      field_simp
      ring
    rw [g1, g2]
    generalize em / s = q at *
    generalize em * x = E at *
    linear_combination (-(s * (M * E * (3 * M - 4 * E) + m * m * (3 * E - 2 * M) - (-M * (E ^ 2 - m ^ 2) +
      (M ^ 2 + m ^ 2 - M * E) * 2 * E - 1.5 * M * m ^ 2)))) * hq + q * (M * E * (3 * M - 4 * E) + m * m * (3 * E - 2 * M) -
      (-M * (E ^ 2 - m ^ 2) + (M ^ 2 + m ^ 2 - M * E) * 2 * E - 1.5 * M * m ^ 2)) * hss

theorem differential_pos (exact : Bool) (m M x : ℝ) (hm : 0 ≤ m) (h : m < M) (hx : m < leptonEmax M m * x) (hx1 : x ≤ 1) :
    0 < differentialDecayRate exact m M (leptonEmax M m) x := by
  obtain ⟨e0, e1, e2⟩ := emax_facts M m hm h
  have hx0 : 0 < x := by
    by_contra hc
    have : leptonEmax M m * x ≤ 0 := mul_nonpos_of_nonneg_of_nonpos e0.le (not_lt.1 hc)
    linarith
  cases exact with
  | false =>
    simp only [differentialDecayRate, Bool.false_eq_true, if_false]
    have : 0 < 3 - 2 * x := by linarith
    positivity
  | true =>
    simp only [differentialDecayRate, if_true]
    have hle : leptonEmax M m * x ≤ leptonEmax M m := by nlinarith
    generalize leptonEmax M m * x = E at *
    generalize leptonEmax M m = em at *
    have hM : 0 < M := by linarith
    have hE : 0 < E := by linarith
    have hr : 0 < E * E - m * m := by nlinarith
    have hg : M * E * (3 * M - 4 * E) + m * m * (3 * E - 2 * M) = 2 * M * (3 * (E * (em - E)) + (E * E - m * m)) := by
      linear_combination (-3 * E) * e2
    have : 0 ≤ E * (em - E) := mul_nonneg hE.le (by linarith)
    rw [hg]
    have := Real.sqrt_pos.2 hr
    positivity

theorem decayRate_continuous (exact : Bool) (m M : ℝ) (hm : 0 ≤ m) (h : m < M) :
    ContinuousOn (decayRate exact m M (leptonEmax M m)) (Set.Icc (m / leptonEmax M m) 1) := by
  obtain ⟨e0, e1, e2⟩ := emax_facts M m hm h
  cases exact with
  | false =>
    have e : decayRate false m M (leptonEmax M m) = fun x => x * x * x * (1 - 0.5 * x) := by
      funext x; simp [decayRate]
    rw [e]
    fun_prop
  | true =>
    have e : decayRate true m M (leptonEmax M m) = fun x => 1.5 * (m * m) * (m * m) * M *
        Real.log (Real.sqrt (max 0 (leptonEmax M m * x * (leptonEmax M m * x) - m * m)) + leptonEmax M m * x) +
        Real.sqrt (max 0 (leptonEmax M m * x * (leptonEmax M m * x) - m * m)) * ((M * M + m * m - M * (leptonEmax M m * x)) *
        (leptonEmax M m * x * (leptonEmax M m * x) - m * m) - 1.5 * M * (leptonEmax M m * x) * (m * m)) := by
      funext x; simp [decayRate]
    rw [e]
    apply ContinuousOn.add
    · rcases hm.eq_or_lt with h0 | h0
      · subst h0
        simp only [mul_zero, zero_mul]
        exact continuousOn_const
      · apply ContinuousOn.mul continuousOn_const
        apply ContinuousOn.log
        · fun_prop
        · intro x hx
          have : m ≤ leptonEmax M m * x := by
            have := hx.1
            rw [div_le_iff₀ e0] at this
            linarith
          have := Real.sqrt_nonneg (max 0 (leptonEmax M m * x * (leptonEmax M m * x) - m * m))
          have : 0 < leptonEmax M m * x := by linarith
          positivity
    · fun_prop

/-- C83: the rate increases strictly over the allowed fractions, so that every random number corresponds to exactly one
fraction. -/
theorem C83_increasing (exact : Bool) (m M : ℝ) (hm : 0 ≤ m) (h : m < M) :
    StrictMonoOn (decayRate exact m M (leptonEmax M m)) (Set.Icc (m / leptonEmax M m) 1) ∧
    ∀ u, 0 ≤ u → u ≤ 1 → ∃! x, x ∈ Set.Icc (m / leptonEmax M m) 1 ∧
      decayRate exact m M (leptonEmax M m) x = decayRate exact m M (leptonEmax M m) (m / leptonEmax M m) +
        (decayRate exact m M (leptonEmax M m) 1 - decayRate exact m M (leptonEmax M m) (m / leptonEmax M m)) * u := by
  obtain ⟨e0, e1, e2⟩ := emax_facts M m hm h
  have hcont := decayRate_continuous exact m M hm h
  have hlt : m / leptonEmax M m < 1 := (div_lt_one e0).2 e1
  have hmono : StrictMonoOn (decayRate exact m M (leptonEmax M m)) (Set.Icc (m / leptonEmax M m) 1) := by
    apply strictMonoOn_of_deriv_pos (convex_Icc _ _) hcont
    intro x hx
    rw [interior_Icc] at hx
    have hx' : m < leptonEmax M m * x := by
      have := hx.1
      rw [div_lt_iff₀ e0] at this
      linarith
    rw [(C83_derivative exact m M x hm hx').deriv]
    exact differential_pos exact m M x hm h hx' hx.2.le
  refine ⟨hmono, ?_⟩
  intro u hu0 hu1
  have ha : m / leptonEmax M m ∈ Set.Icc (m / leptonEmax M m) 1 := ⟨le_rfl, hlt.le⟩
  have hb : (1 : ℝ) ∈ Set.Icc (m / leptonEmax M m) 1 := ⟨hlt.le, le_rfl⟩
  have hfab := hmono ha hb hlt
  obtain ⟨x, hx, hfx⟩ := intermediate_value_Icc hlt.le hcont (show
      decayRate exact m M (leptonEmax M m) (m / leptonEmax M m) +
        (decayRate exact m M (leptonEmax M m) 1 - decayRate exact m M (leptonEmax M m) (m / leptonEmax M m)) * u ∈
        Set.Icc (decayRate exact m M (leptonEmax M m) (m / leptonEmax M m)) (decayRate exact m M (leptonEmax M m) 1) by
    constructor <;> nlinarith)
  refine ⟨x, ⟨hx, hfx⟩, ?_⟩
  rintro y ⟨hy, hfy⟩
  exact hmono.injOn hy hx (hfy.trans hfx.symm)

/-- C83: for every random number the search succeeds with an allowed fraction, if the fixed start value 1/2 is an
allowed one. -/
theorem C83_fraction_partial (exact : Bool) (m M u : ℝ) (hm : 0 ≤ m) (h : m < M) (hs : 2 * m ≤ leptonEmax M m) (hu0 : 0 ≤ u)
    (hu1 : u ≤ 1) : ∃ x, leptonFraction exact M m u = .ok (some x) ∧ m ≤ leptonEmax M m * x ∧ x ≤ 1 := by
  obtain ⟨e0, e1, e2⟩ := emax_facts M m hm h
  have hlt : m / leptonEmax M m < 1 := (div_lt_one e0).2 e1
  have hle : m / leptonEmax M m ≤ 1 / 2 := by rw [div_le_iff₀ e0]; linarith
  have hmono := (C83_increasing exact m M hm h).1
  have ha : m / leptonEmax M m ∈ Set.Icc (m / leptonEmax M m) 1 := ⟨le_rfl, hlt.le⟩
  have hb : (1 : ℝ) ∈ Set.Icc (m / leptonEmax M m) 1 := ⟨hlt.le, le_rfl⟩
  have hfab := hmono ha hb hlt
  unfold leptonFraction
  simp only [sub_zero]
  have back : ∀ r, Between r (m / leptonEmax M m) 1 → m ≤ leptonEmax M m * r ∧ r ≤ 1 := by
    intro r hr
    unfold Between at hr
    rw [min_eq_left hlt.le, max_eq_right hlt.le, div_le_iff₀ e0] at hr
    exact ⟨by linarith [hr.1], hr.2⟩
  rcases hu0.eq_or_lt with rfl | hu
  · refine ⟨m / leptonEmax M m, ?_, by rw [mul_div_cancel₀ _ e0.ne'], hlt.le⟩
    unfold newtonRaphson
    simp
  · obtain ⟨res, hres, r1, r2⟩ := C51_newton_in_bracket_partial
      (fun x => decayRate exact m M (leptonEmax M m) x - (decayRate exact m M (leptonEmax M m) (m / leptonEmax M m) +
        (decayRate exact m M (leptonEmax M m) 1 - decayRate exact m M (leptonEmax M m) (m / leptonEmax M m)) * u))
      (differentialDecayRate exact m M (leptonEmax M m)) (m / leptonEmax M m) 1 0.5 1e-3 40
      (by unfold Between; rw [min_eq_left hlt.le, max_eq_right hlt.le]; constructor <;> linarith)
      (by
        have : 0 ≤ (decayRate exact m M (leptonEmax M m) 1 - decayRate exact m M (leptonEmax M m) (m / leptonEmax M m)) := by
          linarith
        nlinarith [mul_nonneg (mul_nonneg this this) (mul_nonneg hu.le (sub_nonneg.2 hu1))])
    obtain ⟨x, rfl⟩ := r2 (by
      intro y hy ⟨z1, z2⟩
      unfold Between at hy
      rw [min_eq_left hlt.le, max_eq_right hlt.le] at hy
      rcases hy.1.eq_or_lt with h0 | h0
      · rw [← h0] at z1
        nlinarith
      · have : m < leptonEmax M m * y := by
          rw [div_lt_iff₀ e0] at h0; linarith
        exact (differential_pos exact m M y hm h this hy.2).ne' z2)
    exact ⟨x, hres, back x (r1 x rfl)⟩

/-- The decays of muon and tau: the start value is an allowed one. -/
example : 2 * 0.5109989461 ≤ leptonEmax 105.6583745 0.5109989461 ∧ 2 * 105.6583745 ≤ leptonEmax 1776.86 105.6583745 := by
  unfold leptonEmax
  norm_num

/-! ## Conservation -/

theorem areDaughters_trans {ds : List Daughter} {parent : Part} {ps qs : List Part} (h : AreDaughters ds parent ps)
    (h' : List.Forall₂ SameOrigin ps qs) : AreDaughters ds parent qs := by
  unfold AreDaughters at *
  induction h generalizing qs with
  | nil => cases h'; exact .nil
  | cons h1 h2 ih =>
    cases h' with
    | cons k1 k2 =>
      obtain ⟨f1, f2, f3, f4, f5⟩ := h1
      obtain ⟨g1, g2, g3, g4, g5⟩ := k1
      exact .cons ⟨g1.trans f1, g2.trans f2, g3.trans f3, g4.trans f4, g5.trans f5⟩ (ih k2)

theorem leptonicRest_spec (M x : ℝ) (l n1 n2 : Daughter) (parent : Part) (ul un : ℝ × ℝ) (hm : 0 ≤ l.mass) (h : l.mass < M)
    (hn1 : n1.mass = 0) (hn2 : n2.mass = 0) (hl0 : 0 ≤ ul.2) (hl1 : ul.2 ≤ 1) (hu0 : 0 ≤ un.2) (hu1 : un.2 ≤ 1) (hx : x ≤ 1) :
    (∀ ps, leptonicRest M l n1 n2 parent x ul un = some ps →
      (∀ p ∈ ps, PhysicalState p) ∧ totalEnergy ps = M ∧ totalMomentum ps = 0 ∧ AreDaughters [l, n1, n2] parent ps ∧
      (∀ p ∈ ps, p.energy ≠ 0 ∨ p.mass = l.mass) ∧
      ∃ lep q1 q2 : Part, ps = [lep, q1, q2] ∧ lep.energy = max (x * leptonEmax M l.mass) l.mass ∧ lep.mass = l.mass ∧
        q1.mass = 0 ∧ q2.mass = 0 ∧ 0 < q1.energy ∧ 0 < q2.energy) ∧
    (x < 1 → ∃ ps, leptonicRest M l n1 n2 parent x ul un = some ps) := by
  obtain ⟨e0, e1, e2⟩ := emax_facts M l.mass hm h
  have hM : 0 < M := by linarith
  have hdl := randomDirection_unit ul hl0 hl1
  have hdn := randomDirection_unit un hu0 hu1
  unfold leptonicRest
  simp only
  set El := max (x * leptonEmax M l.mass) l.mass with hEl
  have hElm : l.mass ≤ El := le_max_right _ _
  have hElM : El ≤ leptonEmax M l.mass := by
    apply max_le _ e1.le
    nlinarith
  set pl := Real.sqrt ((El - l.mass) * (El + l.mass)) with hpl
  have hpl0 : 0 ≤ pl := Real.sqrt_nonneg _
  have hpl2 : pl ^ 2 = El ^ 2 - l.mass ^ 2 := by
    rw [hpl, Real.sq_sqrt (by nlinarith)]; ring
  have hvm2 : (M - El - pl) * (M - El + pl) = 2 * M * (leptonEmax M l.mass - El) := by
    linear_combination -e2 - hpl2
  have hEn : 0 < M - El := by nlinarith
  have hlep : PhysicalState (product l parent (randomDirection ul) El) := ⟨hm, hElm, hdl⟩
  have hlepmom : momentum (product l parent (randomDirection ul) El) = pl • randomDirection ul := by
    unfold momentum product
    simp only
    rw [hpl, show El ^ 2 - l.mass ^ 2 = (El - l.mass) * (El + l.mass) by ring]
  have core : ¬ (M - El - pl) * (M - El + pl) ≤ 0 → ∃ q1 q2 : Part,
      boost (product n1 parent (randomDirection un) (0.5 * Real.sqrt ((M - El - pl) * (M - El + pl))))
        (product l parent (randomDirection ul) El).dir ((M - El) / Real.sqrt ((M - El - pl) * (M - El + pl)))
        (pl / Real.sqrt ((M - El - pl) * (M - El + pl))) = some q1 ∧
      boost (product n2 parent (-randomDirection un) (0.5 * Real.sqrt ((M - El - pl) * (M - El + pl))))
        (product l parent (randomDirection ul) El).dir ((M - El) / Real.sqrt ((M - El - pl) * (M - El + pl)))
        (pl / Real.sqrt ((M - El - pl) * (M - El + pl))) = some q2 ∧
      PhysicalState q1 ∧ PhysicalState q2 ∧ q1.energy + q2.energy = M - El ∧
      momentum q1 + momentum q2 = (-pl) • randomDirection ul ∧ 0 < q1.energy ∧ 0 < q2.energy ∧
      SameOrigin (product n1 parent (randomDirection un) 0) q1 ∧ SameOrigin (product n2 parent (-randomDirection un) 0) q2 := by
    intro hpos
    rw [not_le] at hpos
    have hvs : Real.sqrt ((M - El - pl) * (M - El + pl)) ^ 2 = (M - El - pl) * (M - El + pl) := Real.sq_sqrt hpos.le
    have hv : 0 < Real.sqrt ((M - El - pl) * (M - El + pl)) := Real.sqrt_pos.2 hpos
    generalize Real.sqrt ((M - El - pl) * (M - El + pl)) = v at *
    have hγ : ((M - El) / v) ^ 2 - (pl / v) ^ 2 = 1 := by
      rw [div_pow, div_pow, ← sub_div, div_eq_one_iff_eq (by positivity)]
      linear_combination -hvs
    have hγ0 : 0 ≤ (M - El) / v := by positivity
    have p1 : PhysicalState (product n1 parent (randomDirection un) (0.5 * v)) := by
      refine ⟨hn1.ge, ?_, hdn⟩
      simp only [product]; rw [hn1]; positivity
    have p2 : PhysicalState (product n2 parent (-randomDirection un) (0.5 * v)) := by
      refine ⟨hn2.ge, ?_, neg_unit hdn⟩
      simp only [product]; rw [hn2]; positivity
    have hdir : (product l parent (randomDirection ul) El).dir = randomDirection ul := rfl
    rw [hdir]
    cases hb1 : boost (product n1 parent (randomDirection un) (0.5 * v)) (randomDirection ul) ((M - El) / v) (pl / v) with
    | none =>
      have := boost_none _ _ _ _ p1 hdl hγ0 hγ hb1
      simp only [product] at this
      rw [hn1] at this
      simp only [mul_zero] at this
      linarith
    | some q1 =>
      cases hb2 : boost (product n2 parent (-randomDirection un) (0.5 * v)) (randomDirection ul) ((M - El) / v) (pl / v) with
      | none =>
        have := boost_none _ _ _ _ p2 hdl hγ0 hγ hb2
        simp only [product] at this
        rw [hn2] at this
        simp only [mul_zero] at this
        linarith
      | some q2 =>
        obtain ⟨a1, a2, a3, a4⟩ := boost_spec _ q1 _ _ _ p1 hdl hγ0 hγ hb1
        obtain ⟨b1, b2, b3, b4⟩ := boost_spec _ q2 _ _ _ p2 hdl hγ0 hγ hb2
        have m1 : momentum (product n1 parent (randomDirection un) (0.5 * v)) = (0.5 * v) • randomDirection un := by
          unfold momentum product
          simp only
          rw [hn1, show (0.5 * v) ^ 2 - 0 ^ 2 = (0.5 * v) ^ 2 by ring, Real.sqrt_sq (by positivity)]
        have m2 : momentum (product n2 parent (-randomDirection un) (0.5 * v)) = (0.5 * v) • (-randomDirection un) := by
          unfold momentum product
          simp only
          rw [hn2, show (0.5 * v) ^ 2 - 0 ^ 2 = (0.5 * v) ^ 2 by ring, Real.sqrt_sq (by positivity)]
        have pos : ∀ p q : Part, PhysicalState p → p.energy = 0.5 * v → p.mass = 0 → PhysicalState q → q.mass = 0 →
            q.energy = (M - El) / v * p.energy - pl / v * (momentum p).dot (randomDirection ul) → 0 < q.energy := by
          intro p q hp he hm0 hq hqm hqe
          by_contra hcon
          have hz : q.energy = 0 := le_antisymm (not_lt.1 hcon) (by have := hq.energy_ge; rw [hqm] at this; exact this)
          have hc := cauchy (momentum p) (randomDirection ul) hdl
          rw [momentum_dot p hp, hm0, he] at hc
          rw [hqe, he] at hz
          generalize (momentum p).dot (randomDirection ul) = d at *
          have hz' : (M - El) * (0.5 * v) = pl * d := by
            have h1 := congrArg (· * v) hz
            simp only [sub_mul, zero_mul] at h1
            have h2 : (M - El) / v * (0.5 * v) * v = (M - El) * (0.5 * v) := by field_simp
            have h3 : pl / v * d * v = pl * d := by field_simp
            rw [h2, h3] at h1
            linarith
          have k1 : (pl * d) ^ 2 ≤ pl ^ 2 * (0.5 * v) ^ 2 := by
            rw [mul_pow]; apply mul_le_mul_of_nonneg_left _ (sq_nonneg _); linarith
          rw [← hz', mul_pow] at k1
          have k2 : (M - El) ^ 2 ≤ pl ^ 2 := le_of_mul_le_mul_right k1 (by positivity)
          nlinarith
        refine ⟨q1, q2, rfl, rfl, a1, b1, ?_, ?_, pos _ q1 p1 rfl hn1 a1 (a2.2.1.trans hn1) a3,
          pos _ q2 p2 rfl hn2 b1 (b2.2.1.trans hn2) b3, a2, b2⟩
        · rw [a3, b3, m1, m2]
          simp only [product, Vec3.dot, Vec3.smul_x, Vec3.smul_y, Vec3.smul_z, Vec3.neg_x, Vec3.neg_y, Vec3.neg_z]
          field_simp
          ring
        · rw [a4, b4, m1, m2]
          unfold boostedVec
          simp only [product]
          ext <;> simp only [Vec3.dot, Vec3.add_x, Vec3.add_y, Vec3.add_z, Vec3.smul_x, Vec3.smul_y, Vec3.smul_z, Vec3.neg_x, Vec3.neg_y, Vec3.neg_z] <;>
            field_simp <;> ring
  constructor
  · intro ps hps
    split_ifs at hps with h0
    obtain ⟨q1, q2, g1, g2, g3, g4, g5, g6, g7, g8, g9, g10⟩ := core h0
    rw [g1, g2] at hps
    simp only [Option.some.injEq] at hps
    subst hps
    refine ⟨?_, ?_, ?_, ?_, ?_, _, q1, q2, rfl, rfl, rfl, ?_, ?_, g7, g8⟩
    · intro p hp
      simp only [List.mem_cons, List.not_mem_nil, or_false] at hp
      rcases hp with rfl | rfl | rfl
      · exact hlep
      · exact g3
      · exact g4
    · simp only [totalEnergy_cons, totalEnergy_nil, add_zero, g5]
      simp only [product]; ring
    · simp only [totalMomentum_cons, totalMomentum_nil]
      have : momentum q1 + (momentum q2 + 0) = momentum q1 + momentum q2 := by ext <;> simp
      rw [this, g6, hlepmom]
      ext <;> simp
    · exact .cons ⟨rfl, rfl, rfl, rfl, rfl⟩ (.cons g9 (.cons g10 .nil))
    · intro p hp
      simp only [List.mem_cons, List.not_mem_nil, or_false] at hp
      rcases hp with rfl | rfl | rfl
      · exact .inr rfl
      · exact .inl g7.ne'
      · exact .inl g8.ne'
    · exact g9.2.1.trans hn1
    · exact g10.2.1.trans hn2
  · intro hx1
    have hlt : El < leptonEmax M l.mass := max_lt (by nlinarith) e1
    have h0 : ¬ (M - El - pl) * (M - El + pl) ≤ 0 := by
      rw [hvm2, not_le]
      have : 0 < leptonEmax M l.mass - El := by linarith
      positivity
    rw [if_neg h0]
    obtain ⟨q1, q2, g1, g2, -⟩ := core h0
    rw [g1, g2]
    exact ⟨_, rfl⟩

theorem leptonFraction_le (exact : Bool) (m M u : ℝ) (hm : 0 ≤ m) (h : m < M) (hu0 : 0 ≤ u) (hu1 : u ≤ 1) :
    ∃ res, leptonFraction exact M m u = .ok res ∧ ∀ x, res = some x → x ≤ 1 := by
  obtain ⟨e0, e1, e2⟩ := emax_facts M m hm h
  have hlt : m / leptonEmax M m < 1 := (div_lt_one e0).2 e1
  have key : ∃ res, leptonFraction exact M m u = .ok res := by
    unfold leptonFraction newtonRaphson
    simp only [sub_zero]
    rw [if_neg]
    · split_ifs <;> exact ⟨_, rfl⟩
    · rw [gt_iff_lt, not_lt]
      nlinarith [mul_nonneg (sq_nonneg (decayRate exact m M (leptonEmax M m) 1 - decayRate exact m M (leptonEmax M m)
        (m / leptonEmax M m))) (mul_nonneg hu0 (sub_nonneg.2 hu1))]
  obtain ⟨res, hres⟩ := key
  refine ⟨res, hres, ?_⟩
  rintro x rfl
  unfold leptonFraction at hres
  exact newtonRaphson_le _ _ _ _ 0.5 _ 1 x _ hlt.le le_rfl (by norm_num) hres

/-- C82: a leptonic decay never throws, and its products, if they are not NaN, are on their mass shells, start at the
decay point and have the four-momentum of the parent. Missing: NaN if the fraction is exactly 1 (the neutrinos then
have no invariant mass) and if the lepton is at rest in the laboratory frame. -/
theorem C82_leptonic_partial (exact : Bool) (M : ℝ) (l n1 n2 : Daughter) (parent : Part) (u : ℝ) (ul un : ℝ × ℝ)
    (hp : Parent M parent) (hm : 0 ≤ l.mass) (h : l.mass < M) (hn1 : n1.mass = 0)
    (hn2 : n2.mass = 0) (hu0 : 0 ≤ u) (hu1 : u ≤ 1) (hl0 : 0 ≤ ul.2) (hl1 : ul.2 ≤ 1) (hv0 : 0 ≤ un.2) (hv1 : un.2 ≤ 1) :
    ∃ res, leptonicDecay exact M l n1 n2 parent u ul un = .ok res ∧
      (∀ ps, res = some ps → Conserves M parent ps ∧ AreDaughters [l, n1, n2] parent ps) ∧
      ∀ x, leptonFraction exact M l.mass u = .ok (some x) → x < 1 →
        M * max (x * leptonEmax M l.mass) l.mass ≠ parent.energy * l.mass → ∃ ps, res = some ps := by
  obtain ⟨o, hx, hx2⟩ := leptonFraction_le exact l.mass M u hm h hu0 hu1
  have hM := hp.mass_pos
  unfold leptonicDecay
  rw [hx]
  cases o with
  | none =>
    refine ⟨none, rfl, by simp, ?_⟩
    intro y hy
    simp at hy
  | some x =>
    obtain ⟨r1, r2⟩ := leptonicRest_spec M x l n1 n2 parent ul un hm h hn1 hn2 hl0 hl1 hv0 hv1 (hx2 x rfl)
    simp only
    cases hr : leptonicRest M l n1 n2 parent x ul un with
    | none =>
      refine ⟨none, rfl, by simp, ?_⟩
      intro y hy hy1
      injection hy with hy; injection hy with hy; subst hy
      obtain ⟨ps, hps⟩ := r2 hy1
      rw [hr] at hps; simp at hps
    | some ps =>
      obtain ⟨a1, a2, a3, a4, -, lep, q1, q2, rfl, a6, a7, a8, a9, a10, a11⟩ := r1 ps hr
      refine ⟨_, rfl, ?_, ?_⟩
      · intro qs hqs
        obtain ⟨b1, b2, b3, b4⟩ := toLab_spec M parent _ qs hM hp.energy_ge hp.unit a1 a2 a3 hqs
        refine ⟨⟨b1, b3, b4⟩, areDaughters_trans a4 b2⟩
      · intro y hy hy1 hne
        injection hy with hy; injection hy with hy; subst hy
        apply toLab_some M parent _ hM hp.energy_ge hp.unit a1
        intro p hpm
        simp only [List.mem_cons, List.not_mem_nil, or_false] at hpm
        rcases hpm with rfl | rfl | rfl
        · rw [a6, a7]; exact hne
        · rw [a8, mul_zero]; positivity
        · rw [a9, mul_zero]; positivity

/-- A leptonic decay with a definite result: massless lepton, parent of mass 2, random number 3/16. -/
example : ∃ ps, leptonicDecay false 2 ⟨11, 0⟩ ⟨14, 0⟩ ⟨-12, 0⟩ ⟨13, 2, ⟨0, 0, 0⟩, ⟨0, 0, 1⟩, 5, 0, 0⟩ (3 / 16) (0, 0) (0, 1) =
    .ok (some ps) := by
  have hf : leptonFraction false 2 0 (3 / 16) = .ok (some 0.5) := by
    unfold leptonFraction newtonRaphson leptonEmax
    have e : ∀ e x, decayRate false 0 2 e x = x * x * x * (1 - 0.5 * x) := by intro e x; simp [decayRate]
    have e' : ∀ e x, differentialDecayRate false 0 2 e x = (3 - 2 * x) * x * x := by intro e x; simp [differentialDecayRate]
    simp only [e]
    rw [if_neg (by norm_num), if_neg (by norm_num), if_neg (by norm_num), if_pos (by norm_num)]
    change Except.ok (newtonLoop _ _ _ (38 + 1) _ _ _ _ _) = _
    rw [newtonLoop]
    simp only [e']
    rw [if_neg (by norm_num), if_neg (by norm_num), if_pos (by norm_num)]
    norm_num
  obtain ⟨res, h1, -, h3⟩ := C82_leptonic_partial false 2 ⟨11, 0⟩ ⟨14, 0⟩ ⟨-12, 0⟩ ⟨13, 2, ⟨0, 0, 0⟩, ⟨0, 0, 1⟩, 5, 0, 0⟩ (3 / 16)
    (0, 0) (0, 1) ⟨by norm_num, by norm_num, by unfold UnitVec; norm_num⟩ (by norm_num) (by norm_num)
    rfl rfl (by norm_num) (by norm_num) (by norm_num) (by norm_num) (by norm_num) (by norm_num)
  obtain ⟨ps, rfl⟩ := h3 0.5 hf (by norm_num) (by unfold leptonEmax; norm_num)
  exact ⟨ps, h1⟩

end Proposal
