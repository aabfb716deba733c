import Verif.Model.Statistics
import Mathlib.Tactic.Linarith
import Mathlib.Tactic.FieldSimp
import Mathlib.Tactic.LinearCombination
import Mathlib.Tactic.Positivity
import Mathlib.Algebra.Order.BigOperators.Group.List

/-!
# Running mean and variance, sampling from distributions (C52, C53)
-/

namespace Proposal

/-- The arithmetic mean. -/
noncomputable def Spec.mean (l : List ℝ) : ℝ := l.sum / l.length

/-- The population variance: the mean squared deviation from the mean. -/
noncomputable def Spec.variance (l : List ℝ) : ℝ :=
  (l.map fun x => (x - Spec.mean l) ^ 2).sum / l.length

open Spec

private lemma sum_sq_dev (l : List ℝ) (m : ℝ) :
    (l.map fun x => (x - m) ^ 2).sum = (l.map fun x => x ^ 2).sum - 2 * m * l.sum + l.length * m ^ 2 := by
  induction l with
  | nil => simp
  | cons x l ih =>
    simp only [List.map_cons, List.sum_cons, List.length_cons, ih]
    push_cast
    ring

private lemma variance_eq (l : List ℝ) (h : l ≠ []) :
    variance l = (l.map fun x => x ^ 2).sum / l.length - mean l ^ 2 := by
  have : (l.length : ℝ) ≠ 0 := by simpa using h
  unfold variance
  rw [sum_sq_dev]
  unfold mean
  field_simp
  ring

private lemma run_eq (xs ys : List ℝ) (hy : ys ≠ []) :
    welfordRun xs ys.length (mean ys, variance ys) = (mean (ys ++ xs), variance (ys ++ xs)) := by
  induction xs generalizing ys with
  | nil => simp [welfordRun]
  | cons x xs ih =>
    have hl : (ys.length : ℝ) ≠ 0 := by simpa using hy
    have hl' : (ys.length : ℝ) + 1 ≠ 0 := by positivity
    have step : welford x (ys.length + 1) (mean ys) (variance ys) = (mean (ys ++ [x]), variance (ys ++ [x])) := by
      have hm : mean (ys ++ [x]) = mean ys + (x - mean ys) / (ys.length + 1 : ℕ) := by
        unfold mean
        simp only [List.sum_append, List.sum_singleton, List.length_append, List.length_singleton]
        push_cast
        field_simp
        ring
      unfold welford
      simp only
      rw [← hm, variance_eq _ hy, variance_eq _ (by simp : ys ++ [x] ≠ [])]
      congr 1
      simp only [List.map_append, List.sum_append, List.map_cons, List.map_nil, List.sum_singleton, List.length_append,
        List.length_singleton]
      rw [hm]
      push_cast
      unfold mean
      field_simp
      ring
    simp only [welfordRun, step]
    have := ih (ys ++ [x]) (by simp)
    rw [List.length_append, List.length_singleton] at this
    rw [this, List.append_assoc]
    rfl

/-- C52: after any non-empty sequence of samples the running values are the arithmetic mean and the
population variance. -/
theorem C52_running_moments (l : List ℝ) (h : l ≠ []) : welfordRun l 0 (0, 0) = (mean l, variance l) := by
  cases l with
  | nil => exact absurd rfl h
  | cons x l =>
    have h1 : welford x 1 0 0 = (mean [x], variance [x]) := by
      simp [welford, mean, variance]
    simp only [welfordRun]
    rw [h1]
    have := run_eq l [x] (by simp)
    simpa using this

/-- C52: the running variance is never negative. -/
theorem C52_variance_nonneg (l : List ℝ) : 0 ≤ (welfordRun l 0 (0, 0)).2 := by
  by_cases h : l = []
  · subst h; simp [welfordRun]
  · rw [C52_running_moments l h]
    apply div_nonneg _ (Nat.cast_nonneg _)
    apply List.sum_nonneg
    intro y hy
    obtain ⟨x, _, rfl⟩ := List.mem_map.1 hy
    positivity

example : welfordRun [1, 3] 0 (0, 0) = (2, 1) := by
  norm_num [welfordRun, welford]

/-! ## C53 -/

/-- A distribution function and its quantile function: the first increases strictly with values strictly
between 0 and 1, the second is its inverse. -/
structure Spec.Exact (N : Normal) : Prop where
  mono : StrictMono N.cdf
  pos : ∀ x, 0 < N.cdf x
  lt_one : ∀ x, N.cdf x < 1
  inverse : ∀ p, 0 < p → p < 1 → N.cdf (N.ppf p) = p

/-- The value is above a lower limit / below an upper one. -/
def Spec.Above (x : ℝ) : Limit → Prop
  | .inf => True
  | .at m => m ≤ x

def Spec.Below (x : ℝ) : Limit → Prop
  | .inf => True
  | .at m => x ≤ m

/-- The limits are in order. -/
def Spec.Ordered : Limit → Limit → Prop
  | .at a, .at b => a < b
  | _, _ => True

private lemma lower_lt_upper (N : Normal) (hN : Exact N) (mean sigma : ℝ) (hs : 0 < sigma) (a b : Limit)
    (h : Ordered a b) : 0 ≤ N.lower mean sigma a ∧ N.lower mean sigma a < N.upper mean sigma b ∧
      N.upper mean sigma b ≤ 1 := by
  cases a <;> cases b <;> simp only [Normal.lower, Normal.upper]
  · norm_num
  · exact ⟨le_rfl, hN.pos _, (hN.lt_one _).le⟩
  · exact ⟨(hN.pos _).le, hN.lt_one _, le_rfl⟩
  · refine ⟨(hN.pos _).le, hN.mono ?_, (hN.lt_one _).le⟩
    have : _ < _ := h
    gcongr

private lemma ppf_le (N : Normal) (hN : Exact N) (p x : ℝ) (h0 : 0 < p) (h1 : p < 1) :
    (N.ppf p ≤ x ↔ p ≤ N.cdf x) ∧ (x ≤ N.ppf p ↔ N.cdf x ≤ p) := by
  constructor
  · rw [← hN.mono.le_iff_le, hN.inverse p h0 h1]
  · rw [← hN.mono.le_iff_le, hN.inverse p h0 h1]

/-- C53: a sample of the truncated normal distribution lies within the limits, for a positive width and
a random number strictly between 0 and 1. Missing is the width zero, see `C53_zero_width`. -/
theorem C53_gaussian_in_range_partial (N : Normal) (hN : Exact N) (mean sigma rnd : ℝ) (hs : 0 < sigma) (lo hi : Limit)
    (h : Ordered lo hi) (h0 : 0 < rnd) (h1 : rnd < 1) :
    Above (sampleFromGaussian N mean sigma rnd lo hi) lo ∧ Below (sampleFromGaussian N mean sigma rnd lo hi) hi := by
  obtain ⟨g0, g1, g2⟩ := lower_lt_upper N hN mean sigma hs lo hi h
  have p0 : 0 < N.lower mean sigma lo + (N.upper mean sigma hi - N.lower mean sigma lo) * rnd := by nlinarith
  have p1 : N.lower mean sigma lo + (N.upper mean sigma hi - N.lower mean sigma lo) * rnd < 1 := by nlinarith
  have pl : N.lower mean sigma lo ≤ N.lower mean sigma lo + (N.upper mean sigma hi - N.lower mean sigma lo) * rnd := by
    nlinarith
  have pu : N.lower mean sigma lo + (N.upper mean sigma hi - N.lower mean sigma lo) * rnd ≤ N.upper mean sigma hi := by
    nlinarith
  unfold sampleFromGaussian
  simp only [if_neg hs.ne']
  generalize N.lower mean sigma lo + (N.upper mean sigma hi - N.lower mean sigma lo) * rnd = p at *
  constructor
  · cases lo with
    | inf => trivial
    | «at» a =>
      change a ≤ _
      have := (ppf_le N hN p ((a - mean) / sigma) p0 p1).2.2 pl
      rw [div_le_iff₀ hs] at this
      linarith
  · cases hi with
    | inf => trivial
    | «at» a =>
      change _ ≤ a
      have := (ppf_le N hN p ((a - mean) / sigma) p0 p1).1.2 pu
      rw [le_div_iff₀ hs] at this
      linarith

/-- C53: the sample increases strictly with the random number. -/
theorem C53_gaussian_monotone (N : Normal) (hN : Exact N) (mean sigma r r' : ℝ) (hs : 0 < sigma) (lo hi : Limit)
    (h : Ordered lo hi) (h0 : 0 < r) (h1 : r < r') (h2 : r' < 1) :
    sampleFromGaussian N mean sigma r lo hi < sampleFromGaussian N mean sigma r' lo hi := by
  obtain ⟨g0, g1, g2⟩ := lower_lt_upper N hN mean sigma hs lo hi h
  unfold sampleFromGaussian
  simp only [if_neg hs.ne']
  have a0 : 0 < N.lower mean sigma lo + (N.upper mean sigma hi - N.lower mean sigma lo) * r := by nlinarith
  have a1 : N.lower mean sigma lo + (N.upper mean sigma hi - N.lower mean sigma lo) * r <
      N.lower mean sigma lo + (N.upper mean sigma hi - N.lower mean sigma lo) * r' := by nlinarith
  have a2 : N.lower mean sigma lo + (N.upper mean sigma hi - N.lower mean sigma lo) * r' < 1 := by nlinarith
  generalize N.lower mean sigma lo + (N.upper mean sigma hi - N.lower mean sigma lo) * r = p at *
  generalize N.lower mean sigma lo + (N.upper mean sigma hi - N.lower mean sigma lo) * r' = p' at *
  have : N.ppf p < N.ppf p' := by
    rw [← hN.mono.lt_iff_lt, hN.inverse p a0 (by linarith), hN.inverse p' (by linarith) a2]
    exact a1
  nlinarith

/-- C53: the sampled value has the truncated normal distribution: it is at most `x` exactly if the random
number is at most the normalised probability between the lower limit and `x`. -/
theorem C53_gaussian_distribution (N : Normal) (hN : Exact N) (mean sigma rnd a b x : ℝ) (hs : 0 < sigma)
    (hab : a < b) (h0 : 0 < rnd) (h1 : rnd < 1) :
    sampleFromGaussian N mean sigma rnd (.at a) (.at b) ≤ x ↔
      rnd ≤ (N.cdf ((x - mean) / sigma) - N.cdf ((a - mean) / sigma)) /
        (N.cdf ((b - mean) / sigma) - N.cdf ((a - mean) / sigma)) := by
  obtain ⟨g0, g1, g2⟩ := lower_lt_upper N hN mean sigma hs (.at a) (.at b) hab
  simp only [Normal.lower, Normal.upper] at g0 g1 g2
  unfold sampleFromGaussian
  simp only [if_neg hs.ne', Normal.lower, Normal.upper]
  rw [le_div_iff₀ (by linarith)]
  have h := (ppf_le N hN (N.cdf ((a - mean) / sigma) + (N.cdf ((b - mean) / sigma) - N.cdf ((a - mean) / sigma)) * rnd)
    ((x - mean) / sigma) (by nlinarith) (by nlinarith)).1
  rw [le_div_iff₀ hs] at h
  constructor
  · intro h'
    have := h.1 (by linarith)
    linarith
  · intro h'
    have := h.2 (by linarith)
    linarith

/-- C53 fails for the width zero: the mean is returned, whatever the limits are. -/
theorem C53_zero_width (N : Normal) (rnd : ℝ) :
    sampleFromGaussian N 5 0 rnd (.at 0) (.at 1) = 5 ∧ ¬ Below (sampleFromGaussian N 5 0 rnd (.at 0) (.at 1)) (.at 1) := by
  have : sampleFromGaussian N 5 0 rnd (.at 0) (.at 1) = 5 := by simp [sampleFromGaussian]
  refine ⟨this, ?_⟩
  rw [this]
  simp only [Below]
  norm_num

/-- C53: exponential samples are non-negative, increase strictly with the random number and have the
exponential distribution function. -/
theorem C53_exponential (p q lambda : ℝ) (hl : 0 < lambda) (h0 : 0 ≤ p) (h1 : p < q) (h2 : q < 1) :
    0 ≤ sampleFromExponential p lambda ∧ sampleFromExponential p lambda < sampleFromExponential q lambda ∧
    1 - Real.exp (-lambda * sampleFromExponential p lambda) = p := by
  unfold sampleFromExponential
  refine ⟨?_, ?_, ?_⟩
  · apply div_nonneg _ hl.le
    rw [neg_nonneg]
    exact Real.log_nonpos (by linarith) (by linarith)
  · apply div_lt_div_of_pos_right _ hl
    rw [neg_lt_neg_iff]
    exact Real.log_lt_log (by linarith) (by linarith)
  · rw [show -lambda * (-Real.log (1 + -p) / lambda) = Real.log (1 + -p) by field_simp,
      Real.exp_log (by linarith)]
    ring

/-- The hypotheses can be met: a distribution function with its quantile function. -/
example : ∃ N : Normal, Exact N := by
  refine ⟨⟨fun x => (1 + Real.exp (-x))⁻¹, fun p => -Real.log (p⁻¹ - 1)⟩, ⟨?_, ?_, ?_, ?_⟩⟩
  · intro x y hxy
    simp only
    gcongr
  · intro x; positivity
  · intro x
    exact inv_lt_one_of_one_lt₀ (by linarith [Real.exp_pos (-x)])
  · intro p h0 h1
    have : 0 < p⁻¹ - 1 := by
      have := (one_lt_inv₀ h0).2 h1
      linarith
    simp only [neg_neg, Real.exp_log this]
    rw [add_sub_cancel, inv_inv]

end Proposal
