import Mathlib.Data.Real.Basic
import Mathlib.Data.Sign.Basic

/-!
# Root finding

`/repo/src/PROPOSAL/detail/PROPOSAL/math/MathMethods.cxx` 152-262 and the three axis builders that use
the bisection. Functions are total real functions: a function that returns a NaN at a finite argument is
not modelled. The tolerance and the number of steps are arguments as in the code.
-/

namespace Proposal

/-- `MathException`. -/
inductive MathErr
  | notBracketed
  deriving DecidableEq

open Classical in
/-- The loop of `NewtonRaphson` (lines 193-231), `n` rounds left. The result `none` is a NaN: the Newton
step 0/0. From there on all comparisons are false and the loop ends with a NaN (`func` and `dfunc`
are assumed to return a NaN for a NaN). -/
noncomputable def newtonLoop (func dfunc : ℝ → ℝ) (xacc : ℝ) :
    (n : ℕ) → (xl xh rts dx dxold : ℝ) → Option ℝ
  | 0, _, _, rts, _, _ => some rts
  | n + 1, xl, xh, rts, dx, dxold =>
    let f := func rts
    let df := dfunc rts
    let next (rts' dx' : ℝ) : Option ℝ :=
      if |dx'| < xacc then some rts'
      else if func rts' < 0 then newtonLoop func dfunc xacc n rts' xh rts' dx' dx
      else newtonLoop func dfunc xacc n xl rts' rts' dx' dx
    if ((rts - xh) * df - f) * ((rts - xl) * df - f) > 0 ∨ |2 * f| > |dxold * df| then
      let dx' := 1 / 2 * (xh - xl)
      let rts' := xl + dx'
      if xl = rts' then some rts' else next rts' dx'
    else if df = 0 then none
    else
      let dx' := f / df
      let rts' := rts - dx'
      if rts = rts' then some rts' else next rts' dx'

open Classical in
/-- `NewtonRaphson` (lines 152-238); `steps` is `MAX_STEPS`, the loop runs for j = 1 … `steps` − 1. -/
noncomputable def newtonRaphson (func dfunc : ℝ → ℝ) (x1 x2 xinit : ℝ) (steps : ℕ) (xacc : ℝ) :
    Except MathErr (Option ℝ) :=
  let fl := func x1
  let fh := func x2
  if fl * fh > 0 then .error .notBracketed
  else if fl = 0 then .ok (some x1)
  else if fh = 0 then .ok (some x2)
  else
    let d := |x2 - x1|
    if fl < 0 then .ok (newtonLoop func dfunc xacc (steps - 1) x1 x2 xinit d d)
    else .ok (newtonLoop func dfunc xacc (steps - 1) x2 x1 xinit d d)

open Classical in
/-- The loop of `Bisection` (lines 251-259), `n` rounds left. -/
noncomputable def bisectionLoop (f : ℝ → ℝ) (xacc : ℝ) : (n : ℕ) → (x1 x2 : ℝ) → ℝ × ℝ
  | 0, x1, x2 => (x1, x2)
  | n + 1, x1, x2 =>
    let center := (x1 + x2) / 2
    let p := if SignType.sign (f center) = SignType.sign (f x1) then (center, x2) else (x1, center)
    if |p.2 - p.1| < xacc then p else bisectionLoop f xacc n p.1 p.2

open Classical in
/-- `Bisection` (lines 240-262); the loop runs for i = 0 … `maxIter`. -/
noncomputable def bisection (f : ℝ → ℝ) (x1 x2 xacc : ℝ) (maxIter : ℕ) : Except MathErr (ℝ × ℝ) :=
  if f x1 * f x2 > 0 then .error .notBracketed
  else if x1 > x2 then .ok (bisectionLoop f xacc (maxIter + 1) x2 x1)
  else .ok (bisectionLoop f xacc (maxIter + 1) x1 x2)

/-! ## Table ranges -/

/-- The outcome of the search for the begin of a table: an exception of the builder, an exception of the
bisection, or the axis position at which the table begins. -/
inductive Refined
  | outOfRange | math | start (i : ℝ)

open Classical in
/-- The search loop `while (!(func(ax.back_transform(i)) > 0) && i < n) ++i` starting at 0, common to the
three builders: the first node below `n` with a positive value, or `n`. `g` is the function of the axis
position, `func ∘ back_transform`. -/
noncomputable def firstPositive (g : ℝ → ℝ) (n : ℕ) : ℕ :=
  go n 0
where
  go : ℕ → ℕ → ℕ
  | 0, i => i
  | k + 1, i => if g i > 0 then i else go k (i + 1)

open Classical in
/-- `AxisBuilderDNDX::refine_definition_range` and `AxisBuilderDEDX::refine_definition_range`
(`/repo/src/PROPOSAL/detail/PROPOSAL/crosssection/CrossSectionDNDX/AxisBuilderDNDX.cxx` 7-26,
`CrossSectionDEDX/AxisBuilderDEDX.cxx` 13-29). -/
noncomputable def refineRange (g : ℝ → ℝ) (n : ℕ) : Refined :=
  let i := firstPositive g n
  if i = n then .outOfRange
  else if i = 0 then .start 0
  else match bisection g (i - 1) i (1 / 10) 100 with
    | .error _ => .math
    | .ok p => .start (p.1 + 1 / 10)

open Classical in
/-- `AxisBuilderDE2DX::refine_definition_range`
(`/repo/src/PROPOSAL/detail/PROPOSAL/crosssection/CrossSectionDE2DX/AxisBuilderDE2DX.cxx` 13-27). There is no
special case for `i = 0`: the subtraction `i - 1` of the `unsigned int` gives 2³² − 1. -/
noncomputable def refineRangeDE2DX (g : ℝ → ℝ) (n : ℕ) : Refined :=
  let i := firstPositive g n
  if i = n then .outOfRange
  else
    let before : ℝ := if i = 0 then 2 ^ 32 - 1 else i - 1
    match bisection g before i (1 / 2) 100 with
    | .error _ => .math
    | .ok p => .start (p.1 + 1 / 2)

end Proposal
