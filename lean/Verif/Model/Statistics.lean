import Mathlib.Analysis.SpecialFunctions.Log.Basic
import Mathlib.Algebra.BigOperators.Group.List.Basic

/-!
# Running mean and variance, sampling from distributions

`/repo/src/PROPOSAL/detail/PROPOSAL/math/MathMethods.cxx` 398-417.
-/

namespace Proposal

/-- `welfords_online_algorithm` (lines 398-403): new mean and covariance; `iter` is a positive counter. -/
noncomputable def welford (newValue : ℝ) (iter : ℕ) (mean cov : ℝ) : ℝ × ℝ :=
  let newMean := mean + (newValue - mean) / iter
  let newCov := cov + ((newValue - mean) * (newValue - newMean) - cov) / iter
  (newMean, newCov)

/-- The use of the function as in the code base: start with (0, 0), feed the samples with the counter
1, 2, … . -/
noncomputable def welfordRun : List ℝ → ℕ → ℝ × ℝ → ℝ × ℝ
  | [], _, p => p
  | x :: xs, n, p => welfordRun xs (n + 1) (welford x (n + 1) p.1 p.2)

/-- The standard normal distribution function `0.5 + erf(x/√2)/2` and the function `normalppf`
(lines 14-75) as parameters. -/
structure Normal where
  cdf : ℝ → ℝ
  ppf : ℝ → ℝ

/-- A limit of the sampling: a number or infinite. -/
inductive Limit
  | inf | at (x : ℝ)

/-- `0.5 + erf((min - mean)/(√2 σ))/2` for the lower limit, 0 for −∞. -/
noncomputable def Normal.lower (N : Normal) (mean sigma : ℝ) : Limit → ℝ
  | .inf => 0
  | .at x => N.cdf ((x - mean) / sigma)

/-- The same for the upper limit, 1 for ∞. -/
noncomputable def Normal.upper (N : Normal) (mean sigma : ℝ) : Limit → ℝ
  | .inf => 1
  | .at x => N.cdf ((x - mean) / sigma)

open Classical in
/-- `SampleFromGaussian` (lines 405-413). -/
noncomputable def sampleFromGaussian (N : Normal) (mean sigma rnd : ℝ) (min max : Limit) : ℝ :=
  if sigma = 0 then mean
  else
    let xlo := N.lower mean sigma min
    let xhi := N.upper mean sigma max
    sigma * N.ppf (xlo + (xhi - xlo) * rnd) + mean

/-- `SampleFromExponential` (lines 415-417). -/
noncomputable def sampleFromExponential (p lambda : ℝ) : ℝ := -Real.log (1 + -p) / lambda

end Proposal
