import Verif.Model.RootFinding
import Mathlib.Topology.Order.IntermediateValue
import Mathlib.Topology.Instances.Real.Lemmas
import Mathlib.Tactic.Linarith
import Mathlib.Tactic.NormNum
import Mathlib.Tactic.FieldSimp

/-!
# Root finding and table ranges (C51, C71)
-/

namespace Proposal

private lemma sign_mul_nonpos {x y : ℝ} (h : SignType.sign x ≠ SignType.sign y ∨ x = 0) : x * y ≤ 0 := by
  rcases h with h | rfl
  · rcases lt_trichotomy x 0 with hx | hx | hx <;> rcases lt_trichotomy y 0 with hy | hy | hy
    · simp [hx, hy] at h
    · simp [hy]
    · nlinarith
    · simp [hx]
    · simp [hx]
    · simp [hx]
    · nlinarith
    · simp [hy]
    · simp [hx, hy] at h
  · simp

private lemma sign_of_mul_nonpos {x y : ℝ} (h : x * y ≤ 0) : SignType.sign x ≠ SignType.sign y ∨ x = 0 := by
  by_cases h0 : x = 0
  · exact Or.inr h0
  · left
    intro hs
    rcases lt_trichotomy x 0 with hx | hx | hx
    · rw [sign_neg hx] at hs
      have : y < 0 := by
        rcases lt_trichotomy y 0 with hy | hy | hy
        · exact hy
        · simp [hy] at hs
        · simp [hy] at hs
      nlinarith
    · exact h0 hx
    · rw [sign_pos hx] at hs
      have : 0 < y := by
        rcases lt_trichotomy y 0 with hy | hy | hy
        · simp [hy] at hs
        · simp [hy] at hs
        · exact hy
      nlinarith

private lemma bisection_loop (f : ℝ → ℝ) (xacc : ℝ) (n : ℕ) (x1 x2 : ℝ) (h : x1 ≤ x2) :
    let p := bisectionLoop f xacc n x1 x2
    x1 ≤ p.1 ∧ p.1 ≤ p.2 ∧ p.2 ≤ x2 ∧ SignType.sign (f p.1) = SignType.sign (f x1) ∧
    (SignType.sign (f x2) ≠ SignType.sign (f x1) → SignType.sign (f p.2) ≠ SignType.sign (f x1)) ∧
    (p.2 - p.1 < xacc ∨ p.2 - p.1 = (x2 - x1) / 2 ^ n) := by
  induction n generalizing x1 x2 with
  | zero => simp [bisectionLoop, h]
  | succ n ih =>
    simp only [bisectionLoop]
    by_cases hs : SignType.sign (f ((x1 + x2) / 2)) = SignType.sign (f x1)
    · simp only [if_pos hs]
      split_ifs with hacc
      · refine ⟨by simp only; linarith, by simp only; linarith, le_rfl, hs, fun h => h, Or.inl ?_⟩
        exact (le_abs_self _).trans_lt hacc
      · obtain ⟨a1, a2, a3, a4, a5, a6⟩ := ih ((x1 + x2) / 2) x2 (by linarith)
        rw [hs] at a4 a5
        refine ⟨by linarith, a2, a3, a4, a5, ?_⟩
        rcases a6 with a6 | a6
        · exact Or.inl a6
        · right; rw [a6, pow_succ]; field_simp; ring
    · simp only [if_neg hs]
      split_ifs with hacc
      · refine ⟨le_rfl, by simp only; linarith, by simp only; linarith, rfl, fun _ => hs, Or.inl ?_⟩
        exact (le_abs_self _).trans_lt hacc
      · obtain ⟨a1, a2, a3, a4, a5, a6⟩ := ih x1 ((x1 + x2) / 2) (by linarith)
        refine ⟨a1, a2, by linarith, a4, fun _ => a5 hs, ?_⟩
        rcases a6 with a6 | a6
        · exact Or.inl a6
        · right; rw [a6, pow_succ]; field_simp; ring

/-- C51: the bisection throws exactly for values of the same sign at the two ends. Otherwise it returns an
interval inside the given one, with values of opposite sign (or zero) at its ends, whose width is below
the tolerance or the width after the maximal number of halvings. -/
theorem C51_bisection (f : ℝ → ℝ) (x1 x2 xacc : ℝ) (n : ℕ) :
    (bisection f x1 x2 xacc n = .error .notBracketed ↔ 0 < f x1 * f x2) ∧
    (f x1 * f x2 ≤ 0 → ∃ a b, bisection f x1 x2 xacc n = .ok (a, b) ∧
      min x1 x2 ≤ a ∧ a ≤ b ∧ b ≤ max x1 x2 ∧ f a * f b ≤ 0 ∧
      (b - a < xacc ∨ b - a = |x2 - x1| / 2 ^ (n + 1))) := by
  unfold bisection
  constructor
  · split_ifs with h h2
    · simpa using h
    · simpa using h
    · simpa using h
  · intro h
    rw [if_neg (not_lt.2 h)]
    split_ifs with h2
    · have hs := sign_of_mul_nonpos (show f x2 * f x1 ≤ 0 by linarith [mul_comm (f x1) (f x2)])
      obtain ⟨a1, a2, a3, a4, a5, a6⟩ := bisection_loop f xacc (n + 1) x2 x1 h2.le
      generalize bisectionLoop f xacc (n + 1) x2 x1 = p at *
      obtain ⟨a, b⟩ := p
      simp only at *
      refine ⟨_, _, rfl, (min_le_right _ _).trans a1, a2, a3.trans (le_max_left _ _), ?_, ?_⟩
      · apply sign_mul_nonpos
        rcases hs with hs | hs
        · left; rw [a4]; exact (a5 hs.symm).symm
        · right; rw [hs, sign_zero] at a4; exact sign_eq_zero_iff.1 a4
      · rcases a6 with a6 | a6
        · exact Or.inl a6
        · right; rw [a6, abs_sub_comm, abs_of_nonneg (by linarith)]
    · push Not at h2
      have hs := sign_of_mul_nonpos h
      obtain ⟨a1, a2, a3, a4, a5, a6⟩ := bisection_loop f xacc (n + 1) x1 x2 h2
      generalize bisectionLoop f xacc (n + 1) x1 x2 = p at *
      obtain ⟨a, b⟩ := p
      simp only at *
      refine ⟨_, _, rfl, (min_le_left _ _).trans a1, a2, a3.trans (le_max_right _ _), ?_, ?_⟩
      · apply sign_mul_nonpos
        rcases hs with hs | hs
        · left; rw [a4]; exact (a5 hs.symm).symm
        · right; rw [hs, sign_zero] at a4; exact sign_eq_zero_iff.1 a4
      · rcases a6 with a6 | a6
        · exact Or.inl a6
        · right; rw [a6, abs_of_nonneg (by linarith)]

/-- C51: for a continuous function the returned interval contains a root, and it is narrower than the
tolerance if the given one was narrower than the tolerance times 2 to the number of rounds. -/
theorem C51_bisection_root (f : ℝ → ℝ) (x1 x2 xacc : ℝ) (n : ℕ) (hf : ContinuousOn f (Set.uIcc x1 x2))
    (h : f x1 * f x2 ≤ 0) (hw : |x2 - x1| < xacc * 2 ^ (n + 1)) :
    ∃ a b, bisection f x1 x2 xacc n = .ok (a, b) ∧ b - a < xacc ∧ ∃ r, a ≤ r ∧ r ≤ b ∧ f r = 0 := by
  obtain ⟨a, b, h1, h2, h3, h4, h5, h6⟩ := (C51_bisection f x1 x2 xacc n).2 h
  refine ⟨a, b, h1, ?_, ?_⟩
  · rcases h6 with h6 | h6
    · exact h6
    · rw [h6, div_lt_iff₀ (by positivity)]; exact hw
  · have hc : ContinuousOn f (Set.uIcc a b) := hf.mono (by
      rw [Set.uIcc_of_le h3]
      intro x hx
      exact ⟨h2.trans hx.1, hx.2.trans h4⟩)
    have h0 : (0 : ℝ) ∈ Set.uIcc (f a) (f b) := by
      rcases le_total (f a) 0 with ha | ha <;> rcases le_total (f b) 0 with hb | hb
      · rcases mul_eq_zero.1 (le_antisymm h5 (mul_nonneg_of_nonpos_of_nonpos ha hb)) with h | h
        · rw [h]; exact Set.left_mem_uIcc
        · rw [h]; exact Set.right_mem_uIcc
      · rw [Set.uIcc_of_le (ha.trans hb)]; exact ⟨ha, hb⟩
      · rw [Set.uIcc_of_ge (hb.trans ha)]; exact ⟨hb, ha⟩
      · rcases mul_eq_zero.1 (le_antisymm h5 (mul_nonneg ha hb)) with h | h
        · rw [h]; exact Set.left_mem_uIcc
        · rw [h]; exact Set.right_mem_uIcc
    obtain ⟨r, hr, hr0⟩ := intermediate_value_uIcc hc h0
    rw [Set.uIcc_of_le h3] at hr
    exact ⟨r, hr.1, hr.2, hr0⟩

example : let f : ℝ → ℝ := fun x => x ^ 3 - 4
    ContinuousOn f (Set.uIcc (-5) 15) ∧ f (-5) * f 15 ≤ 0 ∧ |(15 : ℝ) - (-5)| < 1 / 10 ^ 6 * 2 ^ (100 + 1) := by
  intro f
  refine ⟨?_, by norm_num [f], by rw [abs_of_nonneg] <;> norm_num⟩
  exact Continuous.continuousOn (by fun_prop)

/-! ## Newton-Raphson -/

/-- Between two points, in any order. -/
def Spec.Between (x a b : ℝ) : Prop := min a b ≤ x ∧ x ≤ max a b

open Spec

private lemma between_of_mul {x a b : ℝ} (h : (x - a) * (x - b) ≤ 0) : Between x a b := by
  unfold Between
  rcases le_total a b with hab | hab
  · rw [min_eq_left hab, max_eq_right hab]
    constructor <;> by_contra hc <;> push Not at hc <;> nlinarith
  · rw [min_eq_right hab, max_eq_left hab]
    constructor <;> by_contra hc <;> push Not at hc <;> nlinarith

private lemma between_trans {x a b c d : ℝ} (h : Between x a b) (ha : Between a c d) (hb : Between b c d) :
    Between x c d := by
  unfold Between at *
  refine ⟨?_, ?_⟩
  · exact (le_min ha.1 hb.1).trans h.1
  · exact h.2.trans (max_le ha.2 hb.2)

private lemma newton_loop (f df : ℝ → ℝ) (xacc u w : ℝ) (n : ℕ) (xl xh rts dx dxold : ℝ)
    (hl : Between xl u w) (hh : Between xh u w) (hr : Between rts u w) :
    (∀ r, newtonLoop f df xacc n xl xh rts dx dxold = some r → Between r u w) ∧
    (newtonLoop f df xacc n xl xh rts dx dxold = none → ∃ x, Between x u w ∧ f x = 0 ∧ df x = 0) := by
  induction n generalizing xl xh rts dx dxold with
  | zero =>
    refine ⟨?_, by simp [newtonLoop]⟩
    intro r h
    simp only [newtonLoop, Option.some.injEq] at h
    exact h ▸ hr
  | succ n ih =>
    have step : ∀ rts' dx' : ℝ, Between rts' u w →
        let res : Option ℝ := if |dx'| < xacc then some rts'
          else if f rts' < 0 then newtonLoop f df xacc n rts' xh rts' dx' dx
          else newtonLoop f df xacc n xl rts' rts' dx' dx
        (∀ r, res = some r → Between r u w) ∧ (res = none → ∃ x, Between x u w ∧ f x = 0 ∧ df x = 0) := by
      intro rts' dx' hb
      simp only
      split_ifs with h1 h2
      · refine ⟨?_, by simp⟩
        intro r h
        exact (Option.some.inj h) ▸ hb
      · exact ih _ _ _ _ _ hb hh hb
      · exact ih _ _ _ _ _ hl hb hb
    simp only [newtonLoop]
    by_cases h1 : ((rts - xh) * df rts - f rts) * ((rts - xl) * df rts - f rts) > 0 ∨
        |2 * f rts| > |dxold * df rts|
    · rw [if_pos h1]
      by_cases h2 : xl = xl + 1 / 2 * (xh - xl)
      · rw [if_pos h2]
        refine ⟨?_, by simp⟩
        intro r h
        rw [← Option.some.inj h, ← h2]
        exact hl
      · rw [if_neg h2]
        apply step
        have : Between (xl + 1 / 2 * (xh - xl)) xl xh := by
          apply between_of_mul
          nlinarith [sq_nonneg (xh - xl)]
        exact between_trans this hl hh
    · rw [if_neg h1]
      push Not at h1
      by_cases h3 : df rts = 0
      · rw [if_pos h3]
        refine ⟨by simp, fun _ => ⟨rts, hr, ?_, h3⟩⟩
        have h := h1.2
        rw [h3, mul_zero, abs_zero] at h
        have := abs_eq_zero.1 (le_antisymm h (abs_nonneg _))
        linarith
      · rw [if_neg h3]
        by_cases h4 : rts = rts - f rts / df rts
        · rw [if_pos h4]
          refine ⟨?_, by simp⟩
          intro r h
          rw [← Option.some.inj h, ← h4]
          exact hr
        · rw [if_neg h4]
          apply step
          have hp : 0 < df rts ^ 2 := by positivity
          have : Between (rts - f rts / df rts) xh xl := by
            apply between_of_mul
            have e : ((rts - xh) * df rts - f rts) * ((rts - xl) * df rts - f rts) =
                (rts - f rts / df rts - xh) * (rts - f rts / df rts - xl) * df rts ^ 2 := by
              have h5 : f rts / df rts * df rts = f rts := div_mul_cancel₀ _ h3
              have e1 : (rts - xh) * df rts - f rts = (rts - f rts / df rts - xh) * df rts := by
                rw [sub_right_comm, sub_mul _ (f rts / df rts), h5]
              have e2 : (rts - xl) * df rts - f rts = (rts - f rts / df rts - xl) * df rts := by
                rw [sub_right_comm, sub_mul _ (f rts / df rts), h5]
              rw [e1, e2]
              ring
            rw [e] at h1
            by_contra hc
            push Not at hc
            exact absurd h1.1 (not_le.2 (mul_pos hc hp))
          exact between_trans this hh hl

/-- C51: the solver throws exactly for values of the same sign at the two ends. -/
theorem C51_newton_throws (f df : ℝ → ℝ) (x1 x2 xinit xacc : ℝ) (n : ℕ) :
    newtonRaphson f df x1 x2 xinit n xacc = .error .notBracketed ↔ 0 < f x1 * f x2 := by
  unfold newtonRaphson
  simp only
  split_ifs with h1 h2 h3 h4 <;> simp_all

/-- C51: for any function and any claimed derivative, right or wrong, the solver that starts in its
bracket returns a point of the bracket, unless it meets a root with vanishing derivative; then it may
return a NaN. Missing is that case, see `C51_newton_nan`. -/
theorem C51_newton_in_bracket_partial (f df : ℝ → ℝ) (x1 x2 xinit xacc : ℝ) (n : ℕ)
    (hi : Between xinit x1 x2) (h : f x1 * f x2 ≤ 0) :
    ∃ res, newtonRaphson f df x1 x2 xinit n xacc = .ok res ∧
      (∀ r, res = some r → Between r x1 x2) ∧
      ((∀ x, Between x x1 x2 → ¬ (f x = 0 ∧ df x = 0)) → ∃ r, res = some r) := by
  have b1 : Between x1 x1 x2 := ⟨min_le_left _ _, le_max_left _ _⟩
  have b2 : Between x2 x1 x2 := ⟨min_le_right _ _, le_max_right _ _⟩
  have fin : ∀ o : Option ℝ, ((∀ r, o = some r → Between r x1 x2) ∧
      (o = none → ∃ x, Between x x1 x2 ∧ f x = 0 ∧ df x = 0)) →
      (∀ r, o = some r → Between r x1 x2) ∧
      ((∀ x, Between x x1 x2 → ¬ (f x = 0 ∧ df x = 0)) → ∃ r, o = some r) := by
    rintro o ⟨h1, h2⟩
    refine ⟨h1, fun h3 => ?_⟩
    cases o with
    | none => obtain ⟨x, hx, hx'⟩ := h2 rfl; exact absurd hx' (h3 x hx)
    | some r => exact ⟨r, rfl⟩
  unfold newtonRaphson
  simp only [if_neg (not_lt.2 h)]
  split_ifs with h2 h3 h4
  · exact ⟨_, rfl, fun r hr => (Option.some.inj hr) ▸ b1, fun _ => ⟨_, rfl⟩⟩
  · exact ⟨_, rfl, fun r hr => (Option.some.inj hr) ▸ b2, fun _ => ⟨_, rfl⟩⟩
  · exact ⟨_, rfl, fin _ (newton_loop f df xacc x1 x2 _ _ _ _ _ _ b1 b2 hi)⟩
  · exact ⟨_, rfl, fin _ (newton_loop f df xacc x1 x2 _ _ _ _ _ _ b2 b1 hi)⟩

/-- C51 fails: for x³ with its derivative on [-1, 1] and the start 0, which is the root, the solver
returns a NaN. -/
theorem C51_newton_nan :
    newtonRaphson (fun x => x ^ 3) (fun x => 3 * x ^ 2) (-1) 1 0 101 (1 / 10 ^ 6) = .ok none := by
  have loop : ∀ n, newtonLoop (fun x : ℝ => x ^ 3) (fun x => 3 * x ^ 2) (1 / 10 ^ 6) (n + 1) (-1) 1 0 2 2 = none := by
    intro n
    simp only [newtonLoop]
    norm_num
  unfold newtonRaphson
  simp only
  rw [if_neg (by norm_num), if_neg (by norm_num), if_neg (by norm_num), if_pos (by norm_num),
    show |(1 : ℝ) - -1| = 2 by norm_num [abs_of_nonneg], loop 99]

/-- The hypotheses hold for the function and the bracket of the unit test, with the exact derivative. -/
example : let f : ℝ → ℝ := fun x => x ^ 3 - 4
    let df : ℝ → ℝ := fun x => 3 * x ^ 2
    Between 5 (-5) 15 ∧ f (-5) * f 15 ≤ 0 ∧ ∀ x, Between x (-5) 15 → ¬ (f x = 0 ∧ df x = 0) := by
  intro f df
  refine ⟨by norm_num [Between], by norm_num [f], ?_⟩
  rintro x - ⟨h1, h2⟩
  have : x = 0 := by simpa [df] using h2
  rw [this] at h1
  norm_num [f] at h1

/-! ## C71: table ranges -/

/-- A non-negative function that stays positive once it is. -/
structure Spec.Threshold (g : ℝ → ℝ) : Prop where
  nonneg : ∀ x, 0 ≤ g x
  stays : ∀ x y, x ≤ y → 0 < g x → 0 < g y

private lemma first_go (g : ℝ → ℝ) (k i : ℕ) :
    let r := firstPositive.go g k i
    i ≤ r ∧ r ≤ i + k ∧ (∀ j : ℕ, i ≤ j → j < r → g j ≤ 0) ∧ (r < i + k → 0 < g r) := by
  induction k generalizing i with
  | zero =>
    simp only [firstPositive.go]
    exact ⟨le_rfl, le_rfl, fun j h1 h2 => by omega, fun h => by omega⟩
  | succ k ih =>
    simp only [firstPositive.go]
    split_ifs with h
    · exact ⟨le_rfl, by omega, fun j h1 h2 => by omega, fun _ => h⟩
    · obtain ⟨h1, h2, h3, h4⟩ := ih (i + 1)
      refine ⟨by omega, by omega, ?_, fun hr => h4 (by omega)⟩
      intro j hj1 hj2
      rcases hj1.eq_or_lt with rfl | hj1
      · exact not_lt.1 h
      · exact h3 j hj1 hj2

private lemma first_spec (g : ℝ → ℝ) (n : ℕ) :
    firstPositive g n ≤ n ∧ (∀ j : ℕ, j < firstPositive g n → g j ≤ 0) ∧
    (firstPositive g n < n → 0 < g (firstPositive g n)) := by
  obtain ⟨_, h2, h3, h4⟩ := first_go g n 0
  refine ⟨by simpa [firstPositive] using h2, fun j hj => h3 j (Nat.zero_le _) hj, fun h => h4 (by simpa [firstPositive] using h)⟩

private lemma refine_bisect (g : ℝ → ℝ) (hg : Threshold g) (acc : ℝ) (hacc : 1 < acc * 2 ^ 101) (i : ℝ) (h1 : g (i - 1) ≤ 0) (h2 : 0 < g i) :
    ∃ a b, bisection g (i - 1) i acc 100 = .ok (a, b) ∧ i - 1 ≤ a ∧ a ≤ i ∧ g a = 0 ∧ 0 < g (a + acc) := by
  have h0 : g (i - 1) = 0 := le_antisymm h1 (hg.nonneg _)
  have e : bisection g (i - 1) i acc 100 = .ok (bisectionLoop g acc 101 (i - 1) i) := by
    unfold bisection
    rw [h0, zero_mul, if_neg (lt_irrefl _), if_neg (by linarith)]
  obtain ⟨a1, a2, a3, a4, a5, a6⟩ := bisection_loop g acc 101 (i - 1) i (by linarith)
  generalize bisectionLoop g acc 101 (i - 1) i = p at *
  obtain ⟨a, b⟩ := p
  simp only at *
  rw [h0, sign_zero] at a4 a5
  have hb := a5 (by rw [sign_pos h2]; decide)
  refine ⟨_, _, e, a1, by linarith, sign_eq_zero_iff.1 a4, ?_⟩
  apply hg.stays _ _ _ (lt_of_le_of_ne (hg.nonneg _) (fun h => hb (by rw [← h, sign_zero])))
  rcases a6 with a6 | a6
  · linarith
  · have : (i - (i - 1)) / 2 ^ 101 < acc := by
      rw [div_lt_iff₀ (by positivity)]; linarith
    linarith

/-- C71: for a non-negative function with a threshold, the range of the tables for the rates and for the
mean losses begins at a positive value, at most a tenth of a step beyond the threshold; the builder
throws exactly if the function is zero on all nodes, and the bisection never throws. -/
theorem C71_table_begin_partial (g : ℝ → ℝ) (hg : Threshold g) (n : ℕ) :
    (refineRange g n = .outOfRange ↔ ∀ j : ℕ, j < n → g j = 0) ∧ refineRange g n ≠ .math ∧
    ∀ s, refineRange g n = .start s → 0 < g s ∧ 0 ≤ s ∧ s < n + 1 / 10 ∧ (s = 0 ∨ g (s - 1 / 10) = 0) := by
  obtain ⟨f1, f2, f3⟩ := first_spec g n
  unfold refineRange
  simp only
  by_cases hn : firstPositive g n = n
  · rw [if_pos hn]
    refine ⟨?_, by simp, by simp⟩
    rw [hn] at f2
    exact ⟨fun _ j hj => le_antisymm (f2 j hj) (hg.nonneg _), fun _ => rfl⟩
  · have hlt : firstPositive g n < n := lt_of_le_of_ne f1 hn
    have hpos := f3 hlt
    have hno : ¬ ∀ j : ℕ, j < n → g j = 0 := fun h => hpos.ne' (h _ hlt)
    rw [if_neg hn]
    have hln : ((firstPositive g n : ℕ) : ℝ) < n := by exact_mod_cast hlt
    split_ifs with h0
    · refine ⟨by simpa using hno, by simp, ?_⟩
      intro s hs
      obtain rfl := Refined.start.inj hs
      rw [h0] at hpos
      refine ⟨by simpa using hpos, le_rfl, by positivity, Or.inl rfl⟩
    · have hpred : g ((firstPositive g n : ℝ) - 1) ≤ 0 := by
        have := f2 (firstPositive g n - 1) (by omega)
        rwa [Nat.cast_sub (by omega), Nat.cast_one] at this
      obtain ⟨a, b, e, a1, a2, a3, a4⟩ := refine_bisect g hg (1 / 10) (by norm_num) _ hpred hpos
      rw [e]
      refine ⟨by simpa using hno, by simp, ?_⟩
      intro s hs
      obtain rfl := Refined.start.inj hs
      have h1 : (1 : ℝ) ≤ (firstPositive g n : ℕ) := by exact_mod_cast Nat.one_le_iff_ne_zero.2 h0
      refine ⟨a4, by linarith, by linarith, Or.inr ?_⟩
      rw [add_sub_cancel_right]; exact a3

/-- C71: the same for the tables of the energy variance, with half a step, if the function vanishes at
the first node. Missing is the case of a positive first value, see `C71_positive_everywhere`. -/
theorem C71_variance_table_begin_partial (g : ℝ → ℝ) (hg : Threshold g) (n : ℕ) (hz : g 0 = 0) :
    (refineRangeDE2DX g n = .outOfRange ↔ ∀ j : ℕ, j < n → g j = 0) ∧ refineRangeDE2DX g n ≠ .math ∧
    ∀ s, refineRangeDE2DX g n = .start s → 0 < g s ∧ 0 < s ∧ s < n + 1 / 2 ∧ g (s - 1 / 2) = 0 := by
  obtain ⟨f1, f2, f3⟩ := first_spec g n
  unfold refineRangeDE2DX
  simp only
  by_cases hn : firstPositive g n = n
  · rw [if_pos hn]
    refine ⟨?_, by simp, by simp⟩
    rw [hn] at f2
    exact ⟨fun _ j hj => le_antisymm (f2 j hj) (hg.nonneg _), fun _ => rfl⟩
  · have hlt : firstPositive g n < n := lt_of_le_of_ne f1 hn
    have hpos := f3 hlt
    have hno : ¬ ∀ j : ℕ, j < n → g j = 0 := fun h => hpos.ne' (h _ hlt)
    have h0 : firstPositive g n ≠ 0 := by
      intro h
      rw [h] at hpos
      simp [hz] at hpos
    rw [if_neg hn, if_neg h0]
    have hln : ((firstPositive g n : ℕ) : ℝ) < n := by exact_mod_cast hlt
    have hpred : g ((firstPositive g n : ℝ) - 1) ≤ 0 := by
      have := f2 (firstPositive g n - 1) (by omega)
      rwa [Nat.cast_sub (by omega), Nat.cast_one] at this
    obtain ⟨a, b, e, a1, a2, a3, a4⟩ := refine_bisect g hg (1 / 2) (by norm_num) _ hpred hpos
    rw [e]
    refine ⟨by simpa using hno, by simp, ?_⟩
    intro s hs
    obtain rfl := Refined.start.inj hs
    have h1 : (1 : ℝ) ≤ (firstPositive g n : ℕ) := by exact_mod_cast Nat.one_le_iff_ne_zero.2 h0
    refine ⟨a4, by linarith, by linarith, ?_⟩
    rw [add_sub_cancel_right]; exact a3

/-- C71 fails for the tables of the energy variance: if the function is positive from the first node on,
as for Compton scattering, the position before the first node wraps around and the search throws
although every node has a positive value. The other builders begin at the first node. -/
theorem C71_positive_everywhere (g : ℝ → ℝ) (hg : ∀ x, 0 < g x) (n : ℕ) (hn : 0 < n) :
    refineRangeDE2DX g n = .math ∧ refineRange g n = .start 0 := by
  have h0 : firstPositive g n = 0 := by
    unfold firstPositive
    obtain ⟨m, rfl⟩ := Nat.exists_eq_succ_of_ne_zero hn.ne'
    simp [firstPositive.go, hg]
  constructor
  · unfold refineRangeDE2DX
    simp only
    rw [if_neg (by omega), if_pos h0]
    unfold bisection
    rw [if_pos (mul_pos (hg _) (hg _))]
  · unfold refineRange
    simp only
    rw [if_neg (by omega), if_pos h0]

/-- A function with a threshold between the nodes 2 and 3. -/
example : ∃ g : ℝ → ℝ, Threshold g ∧ g 0 = 0 ∧ g 2 = 0 ∧ 0 < g 3 := by
  refine ⟨fun x => max 0 (x - 5 / 2), ⟨fun x => le_max_left _ _, ?_⟩, by norm_num, by norm_num, by norm_num⟩
  intro x y hxy h
  rw [lt_max_iff] at h ⊢
  right
  rcases h with h | h <;> linarith

end Proposal
