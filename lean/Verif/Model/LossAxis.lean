import Mathlib.Analysis.SpecialFunctions.Pow.Real
import Mathlib.Analysis.SpecialFunctions.Log.Basic

/-!
# Coordinates of the fractional loss in the tables of dN/dx

`/repo/src/PROPOSAL/detail/PROPOSAL/crosssection/CrossSectionDNDX/CrossSectionDNDXInterpolant.cxx` 15-41
and the templates in `/repo/src/PROPOSAL/PROPOSAL/crosssection/CrossSectionDNDX/CrossSectionDNDXInterpolant.h`
29-64. The result `none` stands for a NaN (0/0 or 0 times infinity). Inputs are finite with
0 ≤ `vCut` ≤ `vMax` ≤ 1, as `GetIntegrationLimits` supplies them.
-/

namespace Proposal

open Real

/-- `transform_relative_loss` (lines 15-21). For `vCut = 0` the quotient is infinite and the product
0·∞ is a NaN. -/
noncomputable def transformRel (vCut vMax v c : ℝ) : Option ℝ :=
  if v < 0 ∨ vMax = 0 then some vCut
  else if v ≥ 1 then some vMax
  else if vCut = 0 then none
  else some (vCut * exp (v ^ c * log (vMax / vCut)))

/-- `retransform_relative_loss` (lines 23-29). For `vCut = 0` the logarithms are infinite and ∞/∞ is a
NaN. -/
noncomputable def retransformRel (vCut vMax v c : ℝ) : Option ℝ :=
  if v ≤ vCut then some 0
  else if v ≥ vMax then some 1
  else if vCut = 0 then none
  else some ((log (v / vCut) / log (vMax / vCut)) ^ (1 / c))

/-- `transform_loss_log` (lines 31-35). For `vMax = 1` the logarithm is infinite and the product
0·∞ is a NaN, except if the exponent is negative or (`vCut = 1`) the quotient itself is a NaN. -/
noncomputable def transformLog (vCut vMax v : ℝ) : Option ℝ :=
  if vMax = 1 then (if vCut < 1 ∧ 1 < v then some 1 else none)
  else some (1 - (1 - vMax) * exp ((1 - v) * log ((1 - vCut) / (1 - vMax))))

/-- `retransform_loss_log` (lines 37-41). For `vCut = vMax` the divisor is zero: 0/0 is a NaN at the
only point of the interval. For `vMax = 1` it is ∞/∞. Arguments `v ≥ 1` are not in the interval, they
are left out (`none`). -/
noncomputable def retransformLog (vCut vMax v : ℝ) : Option ℝ :=
  if vMax = 1 ∨ vCut = vMax ∨ 1 ≤ v then none
  else some (1 - log ((1 - v) / (1 - vMax)) / log ((1 - vCut) / (1 - vMax)))

/-- The choice of the transformation by process: `transform_loss<Param>` (header 29-64). -/
inductive LossAxis
  | general | ionization | compton
  deriving DecidableEq

noncomputable def LossAxis.transform : LossAxis → ℝ → ℝ → ℝ → Option ℝ
  | .general, a, b, v => transformRel a b v 1
  | .ionization, a, b, v => transformRel a b v (3 / 2)
  | .compton, a, b, v => transformLog a b v

noncomputable def LossAxis.retransform : LossAxis → ℝ → ℝ → ℝ → Option ℝ
  | .general, a, b, v => retransformRel a b v 1
  | .ionization, a, b, v => retransformRel a b v (3 / 2)
  | .compton, a, b, v => retransformLog a b v

end Proposal
