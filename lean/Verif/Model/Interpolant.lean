import Verif.Model.Integral
import Mathlib.Analysis.SpecialFunctions.Log.Basic

/-!
# Interpolation tables

`/repo/src/PROPOSAL/detail/PROPOSAL/math/Interpolant.cxx`.

Simplifications:
* `c_` and `d_` are local: every call fills the entries which it reads. A read of other entries counts as `outOfRange`.
* The estimates of the error (`precision_`, `worstX_`, `relative_`, ...) are left out; they do not act on values.
* The abscissae of tables of functions are written as products instead of sums of steps, which are equal for real numbers.
* Exceptions of the tabulated functions are left out.
* Of the setters only `SetFast` is modelled, as the field `fast`.
-/

namespace Proposal

/-- Outcomes that are no number: `std::out_of_range` of `std::vector::at`, undefined behaviour, and a NaN. -/
inductive ItpErr where
  | outOfRange
  | undefined
  | notNumber
  deriving DecidableEq

/-- `Interpolant` (Interpolant.h 49-94) without rows. `max_` is the length of the vectors. -/
structure Interp where
  romberg : ℕ
  rombergY : ℕ
  iX : List ℝ
  iY : List ℝ
  max : ℕ
  xmin : ℝ
  xmax : ℝ
  step : ℝ
  rational : Bool
  rationalY : Bool
  starti : ℤ
  reverse : Bool
  self : Bool
  flag : Bool
  isLog : Bool
  logSubst : Bool
  fast : Bool
  xSave : ℝ
  ySave : ℝ

/-- `vector::at`. -/
def vecAt (l : List ℝ) (i : ℤ) : Except ItpErr ℝ :=
  if 0 ≤ i then match l[i.toNat]? with
    | some a => .ok a
    | none => .error .outOfRange
  else .error .outOfRange

/-- The elements `start` to `start + n - 1` of a vector, read with `at`. -/
def vecWindow (l : List ℝ) (start : ℤ) (n : ℕ) : Except ItpErr (ℕ → ℝ) :=
  if 0 ≤ start ∧ start + n ≤ l.length then .ok fun j => l.getD (start.toNat + j) 0 else .error .outOfRange

/-- `log_cutoff_` (Interpolant.cxx 36). -/
def logCutoff : ℝ := -300

/-- `exp_cutoff_` (Interpolant.cxx 37). -/
def expCutoff : ℝ := -299

open Classical in
/-- `Interpolant::Exp` (Interpolant.cxx 1945-1954). -/
noncomputable def itpExp (x : ℝ) : ℝ := if x ≤ expCutoff then 0 else Real.exp x

open Classical in
/-- `Interpolant::Log` (Interpolant.cxx 1959-1968). -/
noncomputable def itpLog (x : ℝ) : ℝ := if x ≤ 0 then logCutoff else Real.log x

open Classical in
/-- `Interpolant::Slog` (Interpolant.cxx 1973-1985): the result and the members afterwards. -/
noncomputable def Interp.slog (I : Interp) (x : ℝ) : ℝ × Interp :=
  if x = I.xSave then (I.ySave, I) else (itpLog x, { I with xSave := x, ySave := itpLog x })

/-! ## The polynomial or rational function through the nodes -/

open Classical in
/-- The body of the inner loop for rational functions (Interpolant.cxx 1853-1867). A division by zero in line 1855 gives no number. -/
noncomputable def ratBody (X : ℕ → ℝ) (x : ℝ) (k : ℕ) (cd : (ℕ → ℝ) × (ℕ → ℝ)) (i : ℕ) :
    Except ItpErr ((ℕ → ℝ) × (ℕ → ℝ)) :=
  let aux := cd.1 (i + 1) - cd.2 i
  let dx2 := X (i + k) - x
  let dx1 := cd.2 i * (X i - x) / dx2
  let aux2 := dx1 - cd.1 (i + 1)
  if dx2 = 0 then .error .notNumber
  else if aux2 ≠ 0 then .ok (Function.update cd.1 i (dx1 * (aux / aux2)), Function.update cd.2 i (cd.1 (i + 1) * (aux / aux2)))
  else .ok (Function.update cd.1 i 0, Function.update cd.2 i 0)

/-- One round of the outer loop for rational functions (Interpolant.cxx 1847-1909). -/
noncomputable def ratStage (X : ℕ → ℝ) (x : ℝ) (romberg : ℕ) (s : Neville) (k : ℕ) : Except ItpErr Neville := do
  let cd ← (List.range (romberg - k)).foldlM (ratBody X x k) (s.c, s.d)
  let dd1 := if s.num = 0 then true else s.dd
  let dd2 := if s.num = romberg - k then false else dd1
  let num := if dd2 then s.num else s.num - 1
  let error := if dd2 then cd.1 num else cd.2 num
  return ⟨cd.1, cd.2, num, !dd2, s.result + error, error⟩

/-- The loops of `Interpolate` (Interpolant.cxx 1847-1909). For polynomials they have the text of the loops of
`Integral::Interpolate`. -/
noncomputable def itpLoops (rational : Bool) (X : ℕ → ℝ) (x : ℝ) (romberg : ℕ) (s : Neville) : Except ItpErr ℝ :=
  if rational then do
    let s ← (List.range' 1 (romberg - 1)).foldlM (ratStage X x romberg) s
    return s.result
  else .ok ((List.range' 1 (romberg - 1)).foldl (nevilleStage X x romberg) s).result

open Classical in
/-- The first direction `dd` (Interpolant.cxx 1807-1838). -/
noncomputable def Interp.direction (I : Interp) (x : ℝ) (start num : ℤ) : Except ItpErr Bool :=
  if num = 0 then .ok true
  else if num = I.romberg - 1 then .ok false
  else do
    let aux ← vecAt I.iX (start + num - 1)
    let aux2 ← vecAt I.iX (start + num + 1)
    return if I.fast then decide (x - aux > aux2 - x) == decide (aux2 > aux) else decide (|x - aux| > |x - aux2|)

open Classical in
/-- The value from the nodes when the point is none of them (Interpolant.cxx 1807-1937); `Y` are the first entries of `c_`. -/
noncomputable def Interp.between (I : Interp) (doLog : Bool) (x : ℝ) (start num : ℤ) (X Y : ℕ → ℝ) : Except ItpErr ℝ := do
  let dd ← I.direction x start num
  let y ← vecAt I.iY (start + num)
  let y := if doLog then itpExp y else y
  if I.romberg ≤ 1 then return y
  else if 0 ≤ num ∧ num < I.romberg then itpLoops I.rational X x I.romberg ⟨Y, Y, num.toNat, dd, y, 0⟩
  else throw .outOfRange

open Classical in
/-- `Interpolant::Interpolate(x, start)` (Interpolant.cxx 1727-1940). -/
noncomputable def Interp.evalAt (I : Interp) (x : ℝ) (start : ℤ) : Except ItpErr ℝ := do
  let X ← vecWindow I.iX start I.romberg
  let Y ← vecWindow I.iY start I.romberg
  let doLog := I.logSubst && I.reverse && (List.range I.romberg).any fun i => decide (Y i = logCutoff)
  let c := if doLog then fun i => itpExp (Y i) else Y
  if I.fast then
    let xs ← vecAt I.iX I.starti
    if x = xs then vecAt I.iY I.starti
    else
      let r ← I.between doLog x start (I.starti - start) X c
      return if doLog then itpLog r else r
  else
    match (List.range I.romberg).find? fun i => decide (|x - X i| = 0) with
    | some i => return Y i
    | none =>
      let r ← I.between doLog x start (nearestNode X x I.romberg).1 X c
      return if doLog then itpLog r else r

/-! ## Tables of arrays -/

open Classical in
/-- The search for the nodes around a value (Interpolant.cxx 173-184 and three times more); the first argument bounds the number of rounds. -/
noncomputable def bisectNodes (l : List ℝ) (dir : Bool) (x : ℝ) : ℕ → ℕ → ℕ → ℕ
  | 0, i, _ => i
  | n + 1, i, j =>
    if j - i > 1 then
      let m := (i + j) / 2
      if decide (x > l.getD m 0) == dir then bisectNodes l dir x n m j else bisectNodes l dir x n i m
    else i

open Classical in
/-- `starti_` and `start` for the vector of abscissae `l` (Interpolant.cxx 169-211, 317-374). The division rounds towards zero. -/
noncomputable def locateNodes (l : List ℝ) (max romberg : ℕ) (x : ℝ) : ℤ × ℤ :=
  let dir := decide (l.getD (max - 1) 0 > l.getD 0 0)
  let i := bisectNodes l dir x max 0 (max - 1)
  let auxdir : ℤ :=
    if i + 1 < max then
      if decide (x - l.getD i 0 < l.getD (i + 1) 0 - x) == dir then 0 else 1
    else 0
  let start : ℤ := i - ((romberg : ℤ) - 1 - auxdir).tdiv 2
  let start := if start < 0 then 0 else start
  let start := if start + romberg > max ∨ start > max then (max : ℤ) - romberg else start
  (i + auxdir, start)

/-- `Interpolant::InterpolateArray(x)` (Interpolant.cxx 163-214). -/
noncomputable def Interp.interpolateArray (I : Interp) (x : ℝ) : Except ItpErr (ℝ × Interp) := do
  let p := locateNodes I.iX I.max I.romberg x
  let J := { I with reverse := false, starti := p.1 }
  let r ← J.evalAt x p.2
  return (r, J)

/-! ## Tables of functions -/

/-- The conversion of a `double` to `int`: towards zero, and undefined when the result is no `int`. -/
noncomputable def cppInt (r : ℝ) : Except ItpErr ℤ :=
  open Classical in
  if -2147483649 < r ∧ r < 2147483648 then .ok (if 0 ≤ r then ⌊r⌋ else ⌈r⌉) else .error .undefined

open Classical in
/-- `starti_` and `start` for equidistant nodes (Interpolant.cxx 56-75 and 103-123). A division by a step of zero and an overflow of
`start + romberg_` are undefined. -/
noncomputable def Interp.locateGrid (I : Interp) (x : ℝ) : Except ItpErr (ℤ × ℤ) := do
  if I.step = 0 then throw .undefined
  let aux := (x - I.xmin) / I.step
  let starti ← cppInt aux
  let starti := if starti < 0 then 0 else if starti ≥ I.max then (I.max : ℤ) - 1 else starti
  let start ← cppInt (aux - 0.5 * ((I.romberg : ℝ) - 1))
  if start < 0 then return (starti, 0)
  else if start + I.romberg > 2147483647 then throw .undefined
  else return (starti, if start + I.romberg > I.max ∨ start > I.max then (I.max : ℤ) - I.romberg else start)

/-- `Interpolant::Interpolate(x)` (Interpolant.cxx 45-87). -/
noncomputable def Interp.interpolate (I : Interp) (x : ℝ) : Except ItpErr (ℝ × Interp) := do
  let xI := if I.isLog then I.slog x else (x, I)
  let p ← xI.2.locateGrid xI.1
  let J := { xI.2 with reverse := true, starti := p.1 }
  let r ← J.evalAt xI.1 p.2
  return (if J.logSubst && J.self then itpExp r else r, J)

/-! ## The inverse -/

/-- The members while `FindLimit` interpolates (Interpolant.cxx 334-345): only without `fast_` the member `rationalY_` is used. -/
def Interp.swapped (I : Interp) : Interp :=
  { I with
    iX := I.iY
    iY := I.iX
    romberg := I.rombergY
    rombergY := I.romberg
    rational := if I.fast then I.rational else I.rationalY }

open Classical in
/-- `Interpolant::FindLimit(y)` (Interpolant.cxx 303-406). -/
noncomputable def Interp.findLimit (I : Interp) (y : ℝ) : Except ItpErr (ℝ × Interp) := do
  let y := if I.logSubst then itpLog y else y
  let p := locateNodes I.iY I.max I.rombergY y
  let J := { I with reverse := false, starti := p.1 }
  let r ← J.swapped.evalAt y p.2
  let r := if r < I.xmin then I.xmin else if r > I.xmax then I.xmax else r
  return (if I.isLog then itpExp r else r, J)

/-! ## Constructors -/

open Classical in
/-- `InitInterpolant` (Interpolant.cxx 1597-1708) with the members that the constructors set before. -/
noncomputable def initInterp (max : ℤ) (xmin xmax : ℝ) (romberg : ℤ) (rational isLog : Bool) (rombergY : ℤ)
    (rationalY logSubst : Bool) : Interp :=
  let max := if max ≤ 0 then 1 else max
  let xmin := if isLog ∧ xmin ≤ 0 then 1 else xmin
  let xmax := if isLog ∧ xmax ≤ 0 then 1 else xmax
  let max := if xmin = xmax then 1 else max
  let lo := if xmin > xmax then xmax else xmin
  let hi := if xmin > xmax then xmin else xmax
  let romberg := if romberg ≤ 0 then 1 else romberg
  let romberg := if romberg > max then max else romberg
  let rombergY := if rombergY ≤ 0 then 1 else rombergY
  let rombergY := if rombergY > max then max else rombergY
  let lo := if isLog then Real.log lo else lo
  let hi := if isLog then Real.log hi else hi
  { romberg := romberg.toNat, rombergY := rombergY.toNat
    iX := List.replicate max.toNat 0, iY := List.replicate max.toNat 0, max := max.toNat
    xmin := lo, xmax := hi, step := (hi - lo) / max
    rational := rational, rationalY := rationalY
    starti := 0, reverse := false, self := true
    flag := decide (Real.log max / Real.log 2 + romberg < max)
    isLog := isLog, logSubst := logSubst, fast := true, xSave := 1, ySave := 0 }

/-- The assignments to the elements of a vector of the given length, one after the other. -/
def fillVec (n : ℕ) (l : List ℝ) : Except ItpErr (List ℝ) :=
  if l.length ≤ n then .ok (l ++ List.replicate (n - l.length) 0) else .error .outOfRange

/-- The constructor for vectors (Interpolant.cxx 1147-1208). -/
noncomputable def interpOfArrays (x y : List ℝ) (romberg : ℤ) (rational : Bool) : Except ItpErr Interp := do
  let x0 ← vecAt x 0
  let x1 ← vecAt x ((x.length : ℤ) - 1)
  let I := initInterp (min x.length y.length : ℕ) x0 x1 romberg rational false romberg rational false
  let iX ← fillVec I.max x
  let iY ← fillVec I.max y
  return { I with iX := iX, iY := iY }

/-- The constructor for functions (Interpolant.cxx 975-1051). -/
noncomputable def interpOfFunction (max : ℤ) (xmin xmax : ℝ) (f : ℝ → ℝ) (romberg : ℤ) (rational isLog : Bool) (rombergY : ℤ)
    (rationalY logSubst : Bool) : Interp :=
  let I := initInterp max xmin xmax romberg rational isLog rombergY rationalY logSubst
  let node (i : ℕ) := I.xmin + I.step / 2 + i * I.step
  let value (i : ℕ) := f (if isLog then Real.exp (node i) else node i)
  { I with
    iX := (List.range I.max).map node
    iY := (List.range I.max).map fun i => if logSubst then itpLog (value i) else value i }

/-! ## Functions of two variables -/

/-- `Interpolant` with the vector `Interpolant_`. -/
structure Interp2 where
  base : Interp
  rows : List Interp

/-- `Interpolant_.at(i)`. -/
def rowAt (rows : List Interp) (i : ℤ) : Except ItpErr Interp :=
  if 0 ≤ i then match rows[i.toNat]? with
    | some a => .ok a
    | none => .error .outOfRange
  else .error .outOfRange

/-- The loops `iY_.at(i) = Interpolant_.at(i)->...(x)` from `start` on for `n` rows. -/
noncomputable def evalRows (F : Interp → Except ItpErr (ℝ × Interp)) (start : ℤ) :
    ℕ → List ℝ × List Interp → Except ItpErr (List ℝ × List Interp)
  | 0, s => .ok s
  | n + 1, s => do
    let s ← evalRows F start n s
    let row ← rowAt s.2 (start + n)
    let r ← F row
    let _ ← vecAt s.1 (start + n)
    return (s.1.set (start + n).toNat r.1, s.2.set (start + n).toNat r.2)

/-- `Interpolant::InterpolateArray(x1, x2)` (Interpolant.cxx 219-298). -/
noncomputable def Interp2.interpolateArray (T : Interp2) (x1 x2 : ℝ) : Except ItpErr (ℝ × Interp2) := do
  let p := locateNodes T.base.iX T.base.max T.base.romberg x1
  let s ← evalRows (fun row => row.interpolateArray x2) p.2 T.base.romberg (T.base.iY, T.rows)
  let J := { T.base with reverse := false, starti := p.1, iY := s.1 }
  let r ← J.evalAt x1 p.2
  return (r, ⟨J, s.2⟩)

/-- `Interpolant::Interpolate(x1, x2)` (Interpolant.cxx 92-158). The logarithm of a number that is not positive is no number or infinite;
its conversion is undefined. -/
noncomputable def Interp2.interpolate (T : Interp2) (x1 x2 : ℝ) : Except ItpErr (ℝ × Interp2) := do
  let x2' ← (open Classical in if T.base.isLog then (if 0 < x2 then .ok (Real.log x2) else .error .undefined) else .ok x2 : Except ItpErr ℝ)
  let p ← T.base.locateGrid x2'
  let s ← evalRows (fun row => row.interpolate x1) p.2 T.base.romberg (T.base.iY, T.rows)
  let J := { T.base with reverse := true, starti := p.1, iY := s.1 }
  let r ← J.evalAt x2' p.2
  return (if J.logSubst then itpExp r else r, ⟨J, s.2⟩)

/-- The constructor for functions of two variables (Interpolant.cxx 1056-1142). -/
noncomputable def interp2OfFunction (max1 : ℤ) (x1min x1max : ℝ) (max2 : ℤ) (x2min x2max : ℝ) (f : ℝ → ℝ → ℝ)
    (romberg1 : ℤ) (rational1 isLog1 : Bool) (romberg2 : ℤ) (rational2 isLog2 : Bool) (rombergY : ℤ) (rationalY logSubst : Bool) :
    Interp2 :=
  let I := initInterp max2 x2min x2max romberg2 rational2 isLog2 rombergY rationalY logSubst
  let node (i : ℕ) := I.xmin + I.step / 2 + i * I.step
  { base := { I with iX := (List.range I.max).map node }
    rows := (List.range I.max).map fun i =>
      { interpOfFunction max1 x1min x1max (fun x => f x (if isLog2 then Real.exp (node i) else node i)) romberg1 rational1 isLog1
          rombergY rationalY logSubst with self := false } }

/-- The rows of the constructors for vectors. -/
noncomputable def rowsOfArrays (romberg2 : ℤ) (rational2 : Bool) : List (List ℝ × List ℝ) → Except ItpErr (List Interp)
  | [] => .ok []
  | (x, y) :: l => do
    let I ← interpOfArrays x y romberg2 rational2
    let rs ← rowsOfArrays romberg2 rational2 l
    return { I with self := false } :: rs

/-- The constructors for vectors and functions of two variables (Interpolant.cxx 1213-1312 and 1317-1422): `x2` are the abscissae of
every row, in the first constructor all the same. Vectors of other lengths are read out of range. -/
noncomputable def interp2OfArrays (x1 : List ℝ) (x2 y : List (List ℝ)) (romberg1 : ℤ) (rational1 : Bool) (romberg2 : ℤ)
    (rational2 : Bool) : Except ItpErr Interp2 := do
  let a ← vecAt x1 0
  let b ← vecAt x1 ((x1.length : ℤ) - 1)
  let I := initInterp (min x1.length y.length : ℕ) a b romberg1 rational1 false romberg1 rational1 false
  if y.length < x1.length ∨ x2.length < x1.length then throw .undefined
  let iX ← fillVec I.max x1
  let rows ← rowsOfArrays romberg2 rational2 ((x2.zip y).take x1.length)
  return ⟨{ I with iX := iX }, rows⟩

end Proposal
