import Mathlib.Analysis.SpecialFunctions.Log.Basic

/-!
# The dilogarithm

`/repo/src/PROPOSAL/detail/PROPOSAL/math/MathMethods.cxx` 78-150. Decimal constants stand for themselves, also the local `PI`;
`log1p(-x)` is `log(1 - x)`.
-/

namespace Proposal

/-- The local constant `PI` (MathMethods.cxx 84). -/
noncomputable def dilogPI : ℝ := 3.1415926535897932

/-- The numerator (MathMethods.cxx 85-92, 142-145). -/
noncomputable def dilogP (y : ℝ) : ℝ :=
  let y2 := y * y
  let y4 := y2 * y2
  0.9999999999999999502e+0 + y * -2.6883926818565423430e+0 + y2 * (2.6477222699473109692e+0 + y * -1.1538559607887416355e+0) +
    y4 * (2.0886077795020607837e-1 + y * -1.0859777134152463084e-2)

/-- The denominator (MathMethods.cxx 93-101, 142-147). -/
noncomputable def dilogQ (y : ℝ) : ℝ :=
  let y2 := y * y
  let y4 := y2 * y2
  1 + y * -2.9383926818565635485e+0 + y2 * (3.2712093293018635389e+0 + y * -1.7076702173954289421e+0) +
    y4 * (4.1596017228400603836e-1 + y * -3.9801343754084482956e-2 + y2 * 8.2743668974466659035e-4)

/-- The transformation to `[0, 1/2]` (MathMethods.cxx 103-140): `y`, `r` and `s`; `none` for the three arguments with an immediate
return. -/
noncomputable def dilogArgs (x : ℝ) : Option (ℝ × ℝ × ℝ) :=
  if x < -1 then
    let l := Real.log (1 - x)
    some (1 / (1 - x), -dilogPI * dilogPI / 6 + l * (0.5 * l - Real.log (-x)), 1)
  else if x = -1 then none
  else if x < 0 then
    let l := Real.log (1 - x)
    some (x / (x - 1), -0.5 * l * l, -1)
  else if x = 0 then none
  else if x < 0.5 then some (x, 0, 1)
  else if x < 1 then some (1 - x, dilogPI * dilogPI / 6 - Real.log x * Real.log (1 - x), -1)
  else if x = 1 then none
  else if x < 2 then
    let l := Real.log x
    let y := 1 - 1 / x
    some (y, dilogPI * dilogPI / 6 - l * (Real.log y + 0.5 * l), 1)
  else
    let l := Real.log x
    some (1 / x, dilogPI * dilogPI / 3 - 0.5 * l * l, -1)

/-- `dilog` (MathMethods.cxx 82-150). -/
noncomputable def dilog (x : ℝ) : ℝ :=
  match dilogArgs x with
  | some (y, r, s) => r + s * y * dilogP y / dilogQ y
  | none => if x = -1 then -dilogPI * dilogPI / 12 else if x = 0 then x else dilogPI * dilogPI / 6

end Proposal
