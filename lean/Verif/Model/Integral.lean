import Mathlib.Analysis.SpecialFunctions.Pow.Real
import Mathlib.Analysis.SpecialFunctions.Log.Basic

/-!
# Numerical integration

`/repo/src/PROPOSAL/detail/PROPOSAL/math/Integral.cxx` 34-303, 593-1465. Not modelled: the NaN branches of `Function`
and of `RombergIntegrateOpened` (functions are total real functions), the estimate of `randomX_` in `Trapezoid3S`
(a parameter; its return value is that of `Trapezoid3`), `qags` (a parameter), logging, copying and comparing of
`Integral` objects.
-/

namespace Proposal

/-- `COMPUTER_PRECISION` (Constants.cxx). -/
noncomputable def computerPrecision : ℝ := 1 / 10 ^ 10

/-- The members of `Integral` that the functions below set and read. -/
structure IState where
  lo : ℝ              -- min_
  hi : ℝ              -- max_
  reverse : Bool
  reverseX : ℝ
  useLog : Bool
  pos : ℝ             -- powerOfSubstitution_
  rnd : ℝ             -- randomNumber_
  x : ℝ               -- randomX_
  saved : ℝ           -- savedResult_
  done : Bool         -- randomDo_
  f : ℝ → ℝ           -- integrand_

open Classical in
/-- `Function` (lines 593-634) after the treatment of `reverse_`. -/
noncomputable def weighted (useLog : Bool) (pos : ℝ) (f : ℝ → ℝ) (x : ℝ) : ℝ :=
  let p : ℝ × ℝ :=
    if pos = 0 then (x, 1)
    else if pos > 0 then
      let t := x ^ (-pos)
      (t, pos * (t / x))
    else
      let t := -(-x) ^ pos
      (t, -pos * (t / x))
  if useLog then p.2 * Real.exp p.1 * f (Real.exp p.1) else p.2 * f p.1

/-- `Function` (lines 593-634). -/
noncomputable def IState.function (s : IState) (x : ℝ) : ℝ :=
  weighted s.useLog s.pos s.f (if s.reverse then s.reverseX - x else x)

/-- The Romberg integrations of `Function` between `min_` and `max_`, the integration relative to a given value, and the
estimate of `randomX_` made on the way for a random number. -/
structure Quadrature where
  closed : (ℝ → ℝ) → ℝ → ℝ → ℝ
  opened : (ℝ → ℝ) → ℝ → ℝ → ℝ
  openedBig : ℝ → (ℝ → ℝ) → ℝ → ℝ → ℝ
  estimate : ℝ → (ℝ → ℝ) → ℝ → ℝ → ℝ

open Classical in
/-- `std::abs(max_ - min_) <= std::abs(min_) * COMPUTER_PRECISION`. -/
noncomputable def narrow (lo hi : ℝ) : Bool := decide (|hi - lo| ≤ |lo| * computerPrecision)

open Classical in
/-- `if (min > max) { swap(min, max); aux = -1; } else aux = 1;`: the ordered limits and the sign. -/
noncomputable def orient (min max : ℝ) : ℝ × ℝ × ℝ := if min > max then (max, min, -1) else (min, max, 1)

/-- `InitIntegralOpenedAndClosed` (lines 1066-1089); the random number is not touched. -/
noncomputable def initPlain (s : IState) (min max : ℝ) (f : ℝ → ℝ) : ℝ × IState :=
  let o := orient min max
  (o.2.2, { s with lo := o.1, hi := o.2.1, reverse := false, useLog := false, pos := 0, done := false, f := f })

/-- `IntegrateClosed` (lines 1094-1104). -/
noncomputable def integrateClosed (Q : Quadrature) (s : IState) (min max : ℝ) (f : ℝ → ℝ) : ℝ × IState :=
  let r := initPlain s min max f
  if narrow r.2.lo r.2.hi then (0, r.2) else (r.1 * Q.closed r.2.function r.2.lo r.2.hi, r.2)

/-- `IntegrateOpened` (lines 1109-1120). -/
noncomputable def integrateOpened (Q : Quadrature) (s : IState) (min max : ℝ) (f : ℝ → ℝ) : ℝ × IState :=
  let r := initPlain s min max f
  if narrow r.2.lo r.2.hi then (0, r.2) else (r.1 * Q.opened r.2.function r.2.lo r.2.hi, r.2)

open Classical in
/-- The choice of the limits for a power of substitution (lines 1143-1176, 174-207): the transformed limits, the factor
of the sign, and whether both limits were transformed; `none` for `return 0`. -/
noncomputable def substitutedLimits (lo hi pos : ℝ) : Option (ℝ × ℝ × ℝ × Bool) :=
  if pos > 0 then
    if hi > 0 ∧ lo > 0 then some (hi ^ (-1 / pos), lo ^ (-1 / pos), 1, true)
    else if hi > 0 then some (0, hi ^ (-1 / pos), -1, false)
    else none
  else if pos < 0 then
    if hi < 0 ∧ lo < 0 then some (-(-hi) ^ (1 / pos), -(-lo) ^ (1 / pos), 1, true)
    else if lo < 0 then some (-(-lo) ^ (1 / pos), 0, -1, false)
    else none
  else some (lo, hi, 1, false)

/-- `InitIntegralWithSubstitution` (lines 1125-1186). The early `return 0` keeps limits, integrand and power. -/
noncomputable def initSubstitution (s : IState) (min max : ℝ) (f : ℝ → ℝ) (pos : ℝ) : ℝ × IState :=
  let o := orient min max
  match substitutedLimits o.1 o.2.1 pos with
  | none => (0, { s with reverse := false, useLog := false })
  | some l => (o.2.2 * l.2.2.1, { s with
      lo := l.1, hi := l.2.1, reverse := false, useLog := false, pos := pos, rnd := 0, done := false, f := f })

/-- `IntegrateWithSubstitution` without a random ratio (lines 1191-1206). -/
noncomputable def integrateSubstitution (Q : Quadrature) (s : IState) (min max : ℝ) (f : ℝ → ℝ) (pos : ℝ) : ℝ × IState :=
  let r := initSubstitution s min max f pos
  if narrow r.2.lo r.2.hi then (0, r.2) else (r.1 * Q.opened r.2.function r.2.lo r.2.hi, r.2)

/-- `InitIntegralWithLog` (lines 1332-1357). -/
noncomputable def initLog (s : IState) (min max : ℝ) (f : ℝ → ℝ) : ℝ × IState :=
  let o := orient min max
  (o.2.2, { s with lo := Real.log o.1, hi := Real.log o.2.1, reverse := false, useLog := true, pos := 0, rnd := 0,
                   done := false, f := f })

/-- `IntegrateWithLog` without a random ratio (lines 1362-1374). -/
noncomputable def integrateLog (Q : Quadrature) (s : IState) (min max : ℝ) (f : ℝ → ℝ) : ℝ × IState :=
  let r := initLog s min max f
  if narrow r.2.lo r.2.hi then (0, r.2) else (r.1 * Q.opened r.2.function r.2.lo r.2.hi, r.2)

open Classical in
/-- The choice of the limits for a power of substitution of the logarithm (lines 1402-1434). -/
noncomputable def substitutedLogLimits (lo hi pos : ℝ) : Option (ℝ × ℝ × ℝ) :=
  if pos > 0 then
    if hi > 1 ∧ lo > 1 then some (Real.log hi ^ (-1 / pos), Real.log lo ^ (-1 / pos), 1)
    else if hi > 1 then some (0, Real.log hi ^ (-1 / pos), -1)
    else none
  else if pos < 0 then
    if hi < 1 ∧ lo < 1 then some (-(-Real.log hi) ^ (1 / pos), -(-Real.log lo) ^ (1 / pos), 1)
    else if lo < 1 then some (-(-Real.log lo) ^ (1 / pos), 0, -1)
    else none
  else some (Real.log lo, Real.log hi, 1)

open Classical in
/-- `InitIntegralWithLogSubstitution` (lines 1379-1443). -/
noncomputable def initLogSubstitution (s : IState) (min max : ℝ) (f : ℝ → ℝ) (pos : ℝ) : ℝ × IState :=
  if min < 0 ∨ max < 0 then (0, { s with reverse := false, useLog := true })
  else
    let o := orient min max
    match substitutedLogLimits o.1 o.2.1 pos with
    | none => (0, { s with reverse := false, useLog := true })
    | some l => (o.2.2 * l.2.2, { s with
        lo := l.1, hi := l.2.1, reverse := false, useLog := true, pos := pos, rnd := 0, done := false, f := f })

/-- `IntegrateWithLogSubstitution` (lines 1448-1464). -/
noncomputable def integrateLogSubstitution (Q : Quadrature) (s : IState) (min max : ℝ) (f : ℝ → ℝ) (pos : ℝ) :
    ℝ × IState :=
  let r := initLogSubstitution s min max f pos
  if narrow r.2.lo r.2.hi then (0, r.2) else (r.1 * Q.opened r.2.function r.2.lo r.2.hi, r.2)

open Classical in
/-- `Integrate` (lines 34-69). -/
noncomputable def Integrate (Q : Quadrature) (s : IState) (min max : ℝ) (f : ℝ → ℝ) (method : ℤ) (pos : ℝ) : ℝ × IState :=
  if min = 0 ∧ max = 0 then (0, s)
  else if method = 1 then integrateClosed Q s min max f
  else if method = 2 then integrateOpened Q s min max f
  else if method = 3 then integrateSubstitution Q s min max f pos
  else if method = 4 then if min ≤ 0 ∨ max ≤ 0 then (0, s) else integrateLog Q s min max f
  else if method = 5 then if min ≤ 0 ∨ max ≤ 0 then (0, s) else integrateLogSubstitution Q s min max f pos
  else (0, s)

/-! ## Upper limits -/

open Classical in
/-- The treatment of the random ratio after the integration (lines 224-240, 283-296): a negative ratio is divided by
`norm` and limited to [0, 1]. -/
noncomputable def ratioOf (ratio norm : ℝ) : ℝ :=
  if ratio < 0 then
    let r1 := ratio / norm
    let r2 := if r1 > 1 then 1 else r1
    if r2 < 0 then 0 else r2
  else ratio

open Classical in
/-- The value of `randomX_` after `RombergIntegrateOpened` (lines 957-978). -/
noncomputable def firstX (Q : Quadrature) (s : IState) : ℝ :=
  if s.rnd = 0 then s.lo else if s.rnd = 1 then s.hi else Q.estimate s.rnd s.function s.lo s.hi

open Classical in
/-- `IntegrateWithSubstitution` with a random ratio (lines 146-246). -/
noncomputable def integrateSubstitutionRandom (Q : Quadrature) (s : IState) (min max : ℝ) (f : ℝ → ℝ) (pos ratio : ℝ) :
    ℝ × IState :=
  if narrow min max then (0, { s with lo := min, hi := max, reverse := false, useLog := false, done := true })
  else
    let o := orient min max
    match substitutedLimits o.1 o.2.1 pos with
    | none => (0, { s with reverse := decide (min > max), useLog := false })
    | some l =>
      let rev := xor (decide (min > max)) l.2.2.2
      let s1 : IState := { s with
        lo := l.1, hi := l.2.1, reverse := rev, reverseX := if rev then l.1 + l.2.1 else s.reverseX, useLog := false,
        pos := pos, rnd := if ratio > 1 then 1 else ratio, f := f }
      let result := Q.opened s1.function s1.lo s1.hi
      (o.2.2 * l.2.2.1 * result,
        { s1 with rnd := ratioOf s1.rnd (-|result|), saved := result, done := true, x := firstX Q s1 })

open Classical in
/-- `IntegrateWithLog` with a random ratio (lines 251-303). -/
noncomputable def integrateLogRandom (Q : Quadrature) (s : IState) (min max : ℝ) (f : ℝ → ℝ) (ratio : ℝ) : ℝ × IState :=
  if narrow min max then (0, { s with lo := min, hi := max, reverse := false, useLog := true, done := true })
  else
    let o := orient min max
    let rev := decide (min > max)
    let s1 : IState := { s with
      lo := Real.log o.1, hi := Real.log o.2.1, reverse := rev,
      reverseX := if rev then Real.log o.1 + Real.log o.2.1 else s.reverseX, useLog := true, pos := 0,
      rnd := if ratio > 1 then 1 else ratio, f := f }
    let result := Q.opened s1.function s1.lo s1.hi
    (o.2.2 * result,
      { s1 with rnd := ratioOf s1.rnd (-o.2.2 * result), saved := result, done := true, x := firstX Q s1 })

open Classical in
/-- `IntegrateWithRandomRatio` (lines 74-101); `none` stands for the exception. -/
noncomputable def integrateRandom (Q : Quadrature) (s : IState) (min max : ℝ) (f : ℝ → ℝ) (method : ℤ) (ratio pos : ℝ) :
    Option (ℝ × IState) :=
  if min = 0 ∧ max = 0 then some (0, s)
  else if method = 3 then some (integrateSubstitutionRandom Q s min max f pos ratio)
  else if method = 4 then
    if min ≤ 0 ∨ max ≤ 0 then none else some (integrateLogRandom Q s min max f ratio)
  else some (0, s)

open Classical in
/-- The loop of `RefineUpperLimit` (lines 1260-1320). `romb` is the Romberg integration between two limits, `x0` the
first approximation and `fv` the function value there. `none` stands for 0/0, which makes `randomX_` a NaN. -/
noncomputable def refineLoop (F : ℝ → ℝ) (romb : ℝ → ℝ → ℝ) (x0 fv precision : ℝ) :
    ℕ → (xlow xhi f df deltaX deltaOld x : ℝ) → Option ℝ
  | 0, _, _, _, _, _, _, x => some x
  | n + 1, xlow0, xhi0, f, df, deltaX, deltaOld, x =>
    let xlow := if f < 0 then x else xlow0
    let xhi := if f < 0 then xhi0 else x
    let next (d y : ℝ) : Option ℝ :=
      if |d| < precision then some y
      else
        let o := orient x0 y
        refineLoop F romb x0 fv precision n xlow xhi (fv + o.2.2 * romb o.1 o.2.1) (F y) d deltaX y
    if ((x - xhi) * df - f) * ((x - xlow) * df - f) > 0 ∨ |2 * f| > |deltaOld * df| then
      let d := (xhi - xlow) / 2
      if xlow = xlow + d then some (xlow + d) else next d (xlow + d)
    else if df = 0 then none
    else
      let d := f / df
      if x = x - d then some (x - d) else next d (x - d)

open Classical in
/-- `RefineUpperLimit` (lines 1211-1327): the value of `randomX_` afterwards. `steps` is `maxSteps_upper_limit_`. -/
noncomputable def refineUpperLimit (Q : Quadrature) (steps : ℕ) (precision : ℝ) (s : IState) : Option ℝ :=
  if s.rnd = 0 ∨ s.rnd = 1 then some s.x
  else
    let flow := -s.rnd * s.saved
    let fhi := (1 - s.rnd) * s.saved
    if flow * fhi > 0 then some s.x
    else
      let xlow := if flow > 0 then s.hi else s.lo
      let xhi := if flow > 0 then s.lo else s.hi
      let x0 := if s.x < s.lo ∨ s.x > s.hi then (s.lo + s.hi) / 2 else s.x
      let romb := Q.openedBig s.saved s.function
      let fv := romb s.lo x0 - s.rnd * s.saved
      refineLoop s.function romb x0 fv precision steps xlow xhi fv (s.function x0) (s.hi - s.lo) (s.hi - s.lo) x0

/-- What `GetUpperLimit` returns. -/
inductive Upper where
  | value (x : ℝ) (after : IState)
  | noIntegral   -- no integral with a random ratio before: an error is logged and 0 returned
  | nan

open Classical in
/-- `GetUpperLimit` (lines 105-141). `refine` stands for `RefineUpperLimit`. -/
noncomputable def getUpperLimit (refine : IState → Option ℝ) (s : IState) : Upper :=
  if s.done then
    if narrow s.lo s.hi then .value s.lo s
    else
      match refine s with
      | none => .nan
      | some x1 =>
        let x2 := if s.reverse then s.reverseX - x1 else x1
        let x3 := if s.pos > 0 then x2 ^ (-s.pos) else if s.pos < 0 then -(-x2) ^ s.pos else x2
        let x4 := if s.useLog then Real.exp x3 else x3
        .value x4 { s with x := x4 }
  else .noIntegral

/-! ## Romberg integration -/

/-- The body of the inner loop of `Interpolate` (lines 840-858). -/
noncomputable def nevilleBody (X : ℕ → ℝ) (x : ℝ) (k : ℕ) (cd : (ℕ → ℝ) × (ℕ → ℝ)) (i : ℕ) : (ℕ → ℝ) × (ℕ → ℝ) :=
  let dx1 := X i - x
  let dx2 := X (i + k) - x
  let aux := cd.1 (i + 1) - cd.2 i
  let aux2 := dx1 - dx2
  open Classical in
  if aux2 ≠ 0 then (Function.update cd.1 i (dx1 * (aux / aux2)), Function.update cd.2 i (dx2 * (aux / aux2)))
  else (Function.update cd.1 i 0, Function.update cd.2 i 0)

/-- The members of the outer loop of `Interpolate`. -/
structure Neville where
  c : ℕ → ℝ
  d : ℕ → ℝ
  num : ℕ
  dd : Bool
  result : ℝ
  error : ℝ

open Classical in
/-- One round of the outer loop of `Interpolate` (lines 836-877) for `romberg` nodes. -/
noncomputable def nevilleStage (X : ℕ → ℝ) (x : ℝ) (romberg : ℕ) (s : Neville) (k : ℕ) : Neville :=
  let cd := (List.range (romberg - k)).foldl (nevilleBody X x k) (s.c, s.d)
  let dd1 := if s.num = 0 then true else s.dd
  let dd2 := if s.num = romberg - k then false else dd1
  let num := if dd2 then s.num else s.num - 1
  let error := if dd2 then cd.1 num else cd.2 num
  ⟨cd.1, cd.2, num, !dd2, s.result + error, error⟩

open Classical in
/-- The search for the node next to `x` (lines 803-815). -/
noncomputable def nearestNode (X : ℕ → ℝ) (x : ℝ) (romberg : ℕ) : ℕ × ℝ :=
  (List.range romberg).foldl (fun p i => if |x - X i| < p.2 then (i, |x - X i|) else p) (0, |x - X 0|)

open Classical in
/-- `Interpolate` (lines 795-884): value and error. `X` and `Y` are the arrays from the index `start` on. -/
noncomputable def interpolateNodes (X Y : ℕ → ℝ) (romberg : ℕ) (x : ℝ) : ℝ × ℝ :=
  let num := (nearestNode X x romberg).1
  let dd := if num = 0 then true else if num = romberg - 1 then false
    else decide (|x - X (num - 1)| > |x - X (num + 1)|)
  let s := (List.range' 1 (romberg - 1)).foldl (nevilleStage X x romberg) ⟨Y, Y, num, dd, Y num, 0⟩
  (s.result, s.error)

open Classical in
/-- The loop `for (x = ...; x < max_; x += step) sum += F(x)` of `Trapezoid`. The code has no bound on the number of
rounds; the given number of rounds exceeds the number of cells. -/
noncomputable def midpointLoop (F : ℝ → ℝ) (step hi : ℝ) : ℕ → ℝ → ℝ → ℝ
  | 0, _, acc => acc
  | n + 1, x, acc => if x < hi then midpointLoop F step hi n (x + step) (acc + F x) else acc

/-- `Trapezoid` (lines 640-659). -/
noncomputable def trapezoid (F : ℝ → ℝ) (lo hi : ℝ) (n : ℕ) (old : ℝ) : ℝ :=
  if n = 1 then (F hi + F lo) * (hi - lo) / 2
  else
    let m := n / 2
    let step := (hi - lo) / m
    (old + midpointLoop F step hi (m + 1) (lo + step / 2) 0 * step) / 2

open Classical in
/-- The loop of `Trapezoid3`. -/
noncomputable def tripleLoop (F : ℝ → ℝ) (step hi : ℝ) : ℕ → ℝ → ℝ → ℝ
  | 0, _, acc => acc
  | n + 1, x, acc => if x < hi then tripleLoop F step hi n (x + 2 * step + step) (acc + F x + F (x + 2 * step)) else acc

/-- `Trapezoid3` (lines 664-684) and the sum of `Trapezoid3S` (lines 689-790). -/
noncomputable def trapezoid3 (F : ℝ → ℝ) (lo hi : ℝ) (n : ℕ) (old : ℝ) : ℝ :=
  if n = 1 then (hi - lo) * F ((hi + lo) / 2)
  else
    let step := (hi - lo) / n
    old / 3 + tripleLoop F step hi (n + 1) (lo + step / 2) 0 * step

open Classical in
/-- The test of the precision in the Romberg integrations for a value and its error. `big` is the argument `bigValue` if
there is one; otherwise the error is divided by the value. A division by `bigValue` = 0 gives no finite error, so that
the value is not accepted. -/
noncomputable def acceptRomberg (precision : ℝ) (big : Option ℝ) (r : ℝ × ℝ) : Bool :=
  match big with
  | some b => decide (b ≠ 0 ∧ |r.2 / b| < precision)
  | none => decide (|if r.1 ≠ 0 then r.2 / r.1 else r.2| < precision)

open Classical in
/-- The loop of `RombergIntegrateClosed` and `RombergIntegrateOpened` (lines 889-1061) with the rule `T`, whose number
of cells grows by the factor `q` (2 or 3). The arrays `iX_` and `iY_` have `size` elements; `none` stands for an access
beyond their end. -/
noncomputable def rombergLoop (T : ℕ → ℝ → ℝ) (q size romberg : ℕ) (precision : ℝ) (big : Option ℝ) (qags : ℝ) :
    ℕ → (i k : ℕ) → (n result : ℝ) → (X Y : ℕ → ℝ) → Option ℝ
  | 0, _, _, _, _, _, _ => some qags
  | fuel + 1, i, k, n, result, X, Y =>
    if size ≤ i then none
    else
      let result' := T k result
      let X' := Function.update X i n
      let Y' := Function.update Y i result'
      let next := rombergLoop T q size romberg precision big qags fuel (i + 1) (k * q) (n / (q * q)) result' X' Y'
      if romberg - 1 ≤ i then
        let start := i - (romberg - 1)
        let r := interpolateNodes (fun j => X' (start + j)) (fun j => Y' (start + j)) romberg 0
        if acceptRomberg precision big r then some r.1 else next
      else next

/-- `RombergIntegrateClosed` (lines 889-938); `maxSteps_romberg_` is 12. -/
noncomputable def rombergClosed (size romberg : ℕ) (precision qags : ℝ) (F : ℝ → ℝ) (lo hi : ℝ) : Option ℝ :=
  rombergLoop (trapezoid F lo hi) 2 size romberg precision none qags 12 0 1 1 0 (fun _ => 0) (fun _ => 0)

/-- `RombergIntegrateOpened` (lines 943-1012). -/
noncomputable def rombergOpened (size romberg : ℕ) (precision qags : ℝ) (F : ℝ → ℝ) (lo hi : ℝ) : Option ℝ :=
  rombergLoop (trapezoid3 F lo hi) 3 size romberg precision none qags 12 0 1 1 0 (fun _ => 0) (fun _ => 0)

end Proposal
