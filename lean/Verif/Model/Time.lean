import Mathlib.Data.Real.Basic

/-!
# Time calculators

Models `propagation_utility/TimeBuilder.cxx` 32-39 and 71-76.
-/

namespace Proposal

/-- `SPEED` (Constants.cxx), the speed of light in cm/s. -/
noncomputable def SPEED : ℝ := 299792458 * 100

/-- `ExactTimeBuilder::TimeElapsed` (TimeBuilder.cxx 32-39) over an arbitrary time integral: the
grammage is ignored. -/
noncomputable def exactTime (integral : ℝ → ℝ → ℝ) (initial final _grammage density : ℝ) : ℝ :=
  integral initial final / density

/-- `ApproximateTimeBuilder::TimeElapsed` (TimeBuilder.cxx 71-76). -/
noncomputable def approximateTime (_initial _final grammage density : ℝ) : ℝ :=
  grammage / (density * SPEED)

end Proposal
