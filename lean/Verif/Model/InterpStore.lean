import Verif.Model.Interpolant

/-!
# Storing, copying and comparing of interpolation tables

`/repo/src/PROPOSAL/detail/PROPOSAL/math/Interpolant.cxx` 573-970 and 1430-1590.

Simplifications:
* The content of a binary file is the list of the written values with their types. Files are written by `Save` or are beginnings of such files;
  a value of another type than the one to be read counts as a failed reading.
* The number of a text file is the rounded number; `Token.rounded` puts the rounding in.
* Opening of files, log messages and `std::bad_alloc` are left out.
* All rows of a table have the same `relative_`, `relativeY_` and kind of functions: this is so after constructors, copies and `Load`.
-/

namespace Proposal

/-- A value in a file: `bool`, `int` or `double`. -/
inductive Token where
  | flag (b : Bool)
  | int (i : ℤ)
  | num (r : ℝ)

/-- The value that is read from a text file if numbers are written with a limited number of digits. -/
def Token.rounded (w : ℝ → ℝ) : Token → Token
  | .num r => .num (w r)
  | t => t

/-- The members `relative_`, `relativeY_`, and whether `function2d_ != NULL`. -/
structure ItpFlags where
  relative : Bool
  relativeY : Bool
  two : Bool
  deriving DecidableEq

/-- An object of the class `Interpolant`: its table and the other members that `Save` uses, those of the rows separately. -/
structure ItpObj where
  table : Interp2
  flags : ItpFlags
  rowFlags : ItpFlags

/-- The default constructor (Interpolant.cxx 888-922). -/
noncomputable def emptyInterp : Interp where
  romberg := 1
  rombergY := 1
  iX := []
  iY := []
  max := 1
  xmin := 1
  xmax := 1
  step := 0
  rational := false
  rationalY := false
  starti := 0
  reverse := false
  self := true
  flag := false
  isLog := false
  logSubst := false
  fast := true
  xSave := 0
  ySave := 0

/-- The object of the default constructor. -/
noncomputable def emptyItp : ItpObj := ⟨⟨emptyInterp, []⟩, ⟨false, false, false⟩, ⟨false, false, false⟩⟩

/-! ## Save -/

/-- The beginning of the file of a table (Interpolant.cxx 619-650, 659-681): the limits of a table in logarithms are written as powers. -/
noncomputable def saveHeader (I : Interp) (fl : ItpFlags) : List Token :=
  [.flag fl.two, .int I.max, .num (if I.isLog then Real.exp I.xmin else I.xmin), .num (if I.isLog then Real.exp I.xmax else I.xmax),
    .int I.romberg, .flag I.rational, .flag fl.relative, .flag I.isLog,
    .int I.rombergY, .flag I.rationalY, .flag fl.relativeY, .flag I.logSubst]

/-- What is written after an abscissa: the row or the ordinate (Interpolant.cxx 655 and 686). -/
noncomputable def nodeRest (I : Interp) (two : Bool) (rows : List (Except ItpErr (List Token))) (i : ℕ) : Except ItpErr (List Token) :=
  if two then match rows[i]? with
    | some r => r
    | none => .error .outOfRange
  else match vecAt I.iY i with
    | .ok y => .ok [.num y]
    | .error e => .error e

/-- The loops over the nodes of `Save` (Interpolant.cxx 652-656 and 683-687): `rows` are what the rows write. -/
noncomputable def saveNodes (I : Interp) (two : Bool) (rows : List (Except ItpErr (List Token))) : ℕ → ℕ → Except ItpErr (List Token)
  | 0, _ => .ok []
  | n + 1, i => do
    let x ← vecAt I.iX i
    let r ← nodeRest I two rows i
    let l ← saveNodes I two rows n (i + 1)
    return .num x :: r ++ l

/-- `Save` of a table with given rows (Interpolant.cxx 612-730). -/
noncomputable def saveOne (I : Interp) (fl : ItpFlags) (rows : List (Except ItpErr (List Token))) : Except ItpErr (List Token) := do
  let l ← saveNodes I fl.two rows I.max 0
  return saveHeader I fl ++ l

/-- `Interpolant::Save` (Interpolant.cxx 612-730). The rows themselves have no rows. -/
noncomputable def ItpObj.save (o : ItpObj) : Except ItpErr (List Token) :=
  saveOne o.table.base o.flags (o.table.rows.map fun row => saveOne row o.rowFlags [])

/-! ## Load -/

/-- `vector::resize`. -/
def resizeVec (l : List ℝ) (n : ℕ) : List ℝ := l.take n ++ List.replicate (n - l.length) 0

/-- The reading of the header and `InitInterpolant` (Interpolant.cxx 778-791, 810-823): members that it does not set keep their values.
There is no check before `InitInterpolant`, so with an incomplete header variables without value are used. -/
noncomputable def loadHeader (I : Interp) : List Token → Except ItpErr (Interp × Bool × Bool × List Token)
  | .int max :: .num xmin :: .num xmax :: .int romberg :: .flag rational :: .flag relative :: .flag isLog ::
      .int rombergY :: .flag rationalY :: .flag relativeY :: .flag logSubst :: l =>
    let J := initInterp max xmin xmax romberg rational isLog rombergY rationalY logSubst
    .ok ({ J with starti := I.starti, reverse := I.reverse, iX := resizeVec I.iX J.max, iY := resizeVec I.iY J.max },
      relative, relativeY, l)
  | _ => .error .undefined

/-- The loop over the nodes for one variable (Interpolant.cxx 825-831). After a failure nothing more can be read. -/
noncomputable def loadNodes : ℕ → ℕ → Interp → List Token → Bool × Interp × List Token
  | 0, _, I, l => (true, I, l)
  | n + 1, i, I, .num x :: .num y :: l => loadNodes n (i + 1) { I with iX := I.iX.set i x, iY := I.iY.set i y } l
  | _ + 1, i, I, .num x :: _ => (false, { I with iX := I.iX.set i x }, [])
  | _ + 1, _, I, _ => (false, I, [])

/-- `Load` of a row into a new object, `self_ = false` (Interpolant.cxx 801-803): the returned value is not looked at. `Save` writes no
rows of rows. -/
noncomputable def loadRow : List Token → Except ItpErr (Interp × ItpFlags × List Token)
  | .flag false :: l => do
    let h ← loadHeader emptyInterp l
    let r := loadNodes h.1.max 0 h.1 h.2.2.2
    return ({ r.2.1 with self := false }, ⟨h.2.1, h.2.2.1, false⟩, r.2.2)
  | .flag true :: _ => .error .undefined
  | _ => .ok ({ emptyInterp with self := false }, ⟨false, false, false⟩, [])

/-- The loop over the rows (Interpolant.cxx 793-804). The pointers to rows that were not read are null; the list does not contain them. -/
noncomputable def loadRows : ℕ → ℕ → Interp → List Interp → ItpFlags → List Token →
    Except ItpErr (Bool × Interp × List Interp × ItpFlags × List Token)
  | 0, _, I, rows, fl, l => .ok (true, I, rows, fl, l)
  | n + 1, i, I, rows, _, .num x :: l => do
    let r ← loadRow l
    loadRows n (i + 1) { I with iX := I.iX.set i x } (rows ++ [r.1]) r.2.1 r.2.2
  | _ + 1, _, I, rows, fl, _ => .ok (false, I, rows, fl, [])

/-- `Interpolant::Load` (Interpolant.cxx 760-880): the returned value, the object afterwards and the rest of the file. The functions and, for
one variable, the rows stay. -/
noncomputable def ItpObj.load (o : ItpObj) : List Token → Except ItpErr (Bool × ItpObj × List Token)
  | .flag two :: l => do
    let h ← loadHeader o.table.base l
    let fl : ItpFlags := ⟨h.2.1, h.2.2.1, o.flags.two⟩
    if two then
      let r ← loadRows h.1.max 0 h.1 [] o.rowFlags h.2.2.2
      return (r.1, ⟨⟨r.2.1, r.2.2.1⟩, fl, r.2.2.2.1⟩, r.2.2.2.2)
    else
      let r := loadNodes h.1.max 0 h.1 h.2.2.2
      return (r.1, ⟨⟨r.2.1, o.table.rows⟩, fl, o.rowFlags⟩, r.2.2)
  | _ => .ok (false, o, [])

/-! ## Copies and comparison -/

/-- The copy constructor (Interpolant.cxx 928-970). `function2d_` becomes a reference to the function of the original and is never empty,
also in the rows. -/
def ItpObj.copy (o : ItpObj) : ItpObj := ⟨o.table, { o.flags with two := true }, { o.rowFlags with two := true }⟩

/-- `operator=` (Interpolant.cxx 1430-1438, `swap` 1550-1590): all members of a copy are taken, except for the functions. -/
def ItpObj.assign (o b : ItpObj) : ItpObj := ⟨b.copy.table, { b.copy.flags with two := o.flags.two }, b.copy.rowFlags⟩

/-- The members that `operator==` (Interpolant.cxx 1443-1537) compares, as far as they are modelled. It compares more: the vectors `c_` and `d_`,
`row_` and the estimates of errors. -/
def ItpObj.Equal (a b : ItpObj) : Prop :=
  a.table = b.table ∧ a.flags.relative = b.flags.relative ∧ a.flags.relativeY = b.flags.relativeY ∧
    (a.table.rows ≠ [] → a.rowFlags.relative = b.rowFlags.relative ∧ a.rowFlags.relativeY = b.rowFlags.relativeY)

/-! ## Constructors -/

/-- The constructor for a function of one variable (Interpolant.cxx 975-1051). -/
noncomputable def itpOfFunction (max : ℤ) (xmin xmax : ℝ) (f : ℝ → ℝ) (romberg : ℤ) (rational relative isLog : Bool) (rombergY : ℤ)
    (rationalY relativeY logSubst : Bool) : ItpObj :=
  ⟨⟨interpOfFunction max xmin xmax f romberg rational isLog rombergY rationalY logSubst, []⟩, ⟨relative, relativeY, false⟩,
    ⟨false, false, false⟩⟩

/-- The constructor for a function of two variables (Interpolant.cxx 1056-1142). -/
noncomputable def itpOfFunction2 (max1 : ℤ) (x1min x1max : ℝ) (max2 : ℤ) (x2min x2max : ℝ) (f : ℝ → ℝ → ℝ)
    (romberg1 : ℤ) (rational1 relative1 isLog1 : Bool) (romberg2 : ℤ) (rational2 relative2 isLog2 : Bool) (rombergY : ℤ)
    (rationalY relativeY logSubst : Bool) : ItpObj :=
  ⟨interp2OfFunction max1 x1min x1max max2 x2min x2max f romberg1 rational1 isLog1 romberg2 rational2 isLog2 rombergY rationalY logSubst,
    ⟨relative2, relativeY, true⟩, ⟨relative1, relativeY, false⟩⟩

/-- The constructor for vectors (Interpolant.cxx 1147-1208). -/
noncomputable def itpOfArrays (x y : List ℝ) (romberg : ℤ) (rational relative : Bool) : Except ItpErr ItpObj := do
  let I ← interpOfArrays x y romberg rational
  return ⟨⟨I, []⟩, ⟨relative, relative, false⟩, ⟨false, false, false⟩⟩

/-- The constructors for vectors and two variables (Interpolant.cxx 1213-1422). -/
noncomputable def itpOfArrays2 (x1 : List ℝ) (x2 y : List (List ℝ)) (romberg1 : ℤ) (rational1 relative1 : Bool) (romberg2 : ℤ)
    (rational2 relative2 : Bool) : Except ItpErr ItpObj := do
  let T ← interp2OfArrays x1 x2 y romberg1 rational1 romberg2 rational2
  return ⟨T, ⟨relative1, relative1, false⟩, ⟨relative2, relative2, false⟩⟩

end Proposal
