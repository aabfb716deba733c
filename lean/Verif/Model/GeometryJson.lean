import Verif.Model.Cylinder
import Verif.Model.Density
import Verif.Model.Json
import Mathlib.Algebra.Order.Floor.Ring
import Mathlib.Algebra.Order.Archimedean.Real.Basic

/-!
# Geometries from JSON, comparison of geometries

`/repo/src/PROPOSAL/detail/PROPOSAL/geometry/Geometry.cxx` 44-84, the constructors from JSON and `compare` of
`Sphere.cxx`, `Box.cxx` and `Cylinder.cxx`, and `GeometryFactory.cxx` 36-57. Not modelled: text output and logging.
-/

namespace Proposal

/-- What a constructor from JSON can do instead of giving an object: throw, abort in an `assert` (only if assertions
are compiled in), or behave in an undefined way. -/
inductive GeomErr where
  | thrown (e : JsonErr)
  | aborted
  | undefined
  deriving DecidableEq

/-- An exception of the library or of a nested constructor. -/
def thrown {α : Type} : Except JsonErr α → Except GeomErr α
  | .ok a => .ok a
  | .error e => .error (.thrown e)

open Classical in
/-- `static_cast<int>` of a number: the fraction is dropped; beyond the range of a 32 bit integer this is undefined
behaviour for floating point numbers (whole numbers wrap around, which the model treats alike). -/
noncomputable def toInt (x : ℝ) : Except GeomErr ℤ :=
  let n := if 0 ≤ x then ⌊x⌋ else ⌈x⌉
  if -2 ^ 31 ≤ n ∧ n < 2 ^ 31 then .ok n else .error .undefined

/-- `value(key, default)` for a default of type `int`: the result has the type of the default. -/
noncomputable def valueI (j : Json) (key : String) (default : ℤ) : Except GeomErr ℤ :=
  match j with
  | .obj f => match f key with
    | some (.num x) => toInt x
    | some (.bool b) => .ok (if b then 1 else 0)
    | some _ => .error (.thrown .typeError)
    | none => .ok default
  | _ => .error (.thrown .typeError)

/-- `value(key, default)` for a text. -/
def valueS (j : Json) (key default : String) : Except JsonErr String :=
  match j with
  | .obj f => match f key with
    | some v => v.toStr
    | none => .ok default
  | _ => .error .typeError

/-- What the shapes add to the base class. -/
inductive Shape where
  | sphere (radius inner : ℝ)
  | box (x y z : ℝ)
  | cylinder (z radius inner : ℝ)

/-- The members of a `Geometry` and of its derived class. -/
structure Geometry where
  name : String
  hierarchy : ℕ
  position : Vec3
  shape : Shape

/-- `Sphere(position, radius, inner_radius)` (Sphere.cxx 10-24) with the base class (Geometry.cxx 44-49). -/
noncomputable def newSphere (position : Vec3) (radius inner : ℝ) : Geometry :=
  let s := Sphere.mk' position radius inner
  ⟨"Sphere", 0, s.center, .sphere s.radius s.inner⟩

/-- `Box(position, x, y, z)` (Box.cxx 13-19). -/
def newBox (position : Vec3) (x y z : ℝ) : Geometry := ⟨"Box", 0, position, .box x y z⟩

/-- `Cylinder(position, z, radius, inner_radius)` (Cylinder.cxx 13-27). -/
noncomputable def newCylinder (position : Vec3) (z radius inner : ℝ) : Geometry :=
  let c := Cylinder.mk' position z radius inner
  ⟨"Cylinder", 0, c.center, .cylinder c.z c.radius c.inner⟩

/-- `SetHierarchy` (Geometry.h 108). -/
def Geometry.setHierarchy (g : Geometry) (n : ℕ) : Geometry := { g with hierarchy := n }

open Classical in
/-- `compare` (Sphere.cxx 43-55, Box.cxx 41-55, Cylinder.cxx 46-60). -/
noncomputable def Shape.compare : Shape → Shape → Bool
  | .sphere R r, .sphere R' r' => if r ≠ r' then false else if R ≠ R' then false else true
  | .box x y z, .box x' y' z' => if x ≠ x' then false else if y ≠ y' then false else if z ≠ z' then false else true
  | .cylinder z R r, .cylinder z' R' r' =>
    if r ≠ r' then false else if R ≠ R' then false else if z ≠ z' then false else true
  | _, _ => false

open Classical in
/-- `operator==` (Geometry.cxx 66-76). -/
noncomputable def Geometry.equal (g h : Geometry) : Bool :=
  if g.position ≠ h.position then false
  else if g.name ≠ h.name then false
  else if g.hierarchy ≠ h.hierarchy then false
  else g.shape.compare h.shape

/-- `DistanceToBorder` of the three shapes. -/
noncomputable def Geometry.dist (g : Geometry) : Vec3 → Vec3 → ℝ × ℝ :=
  match g.shape with
  | .sphere R r => Sphere.distanceToBorder ⟨g.position, R, r⟩
  | .box x y z => Box.distanceToBorder ⟨g.position, x, y, z⟩
  | .cylinder z R r => Cylinder.distanceToBorder ⟨g.position, R, r, z⟩

/-- The base class from JSON (Geometry.cxx 51-61): name, hierarchy and position. The conversion of the `int` to
`unsigned int` is modulo 2³². -/
noncomputable def baseOfJson (j : Json) : Except GeomErr (String × ℕ × Vec3) := do
  match j with
  | .obj _ => pure ()
  | _ => throw (.thrown .invalidArgument)
  let name ← thrown (valueS j "shape" "unknown")
  let h ← valueI j "hierarchy" 0
  if !j.contains "origin" then throw (.thrown .invalidArgument)
  let position ← thrown ((j.get "origin").bind vec3OfJson)
  return (name, (h % 2 ^ 32).toNat, position)

open Classical in
/-- `Sphere(const json&)` (Sphere.cxx 27-41). -/
noncomputable def sphereOfJson (j : Json) : Except GeomErr Geometry := do
  let b ← baseOfJson j
  let o ← thrown (j.get "outer_radius")
  if !o.isNumber then throw (.thrown .invalidArgument)
  let radius ← thrown o.toDouble
  let inner ← valueI j "inner_radius" 0
  if (inner : ℝ) < 0 then throw (.thrown .logicError)
  if radius < (inner : ℝ) then throw (.thrown .logicError)
  return ⟨b.1, b.2.1, b.2.2, .sphere radius inner⟩

open Classical in
/-- `Box(const json&)` (Box.cxx 21-39). -/
noncomputable def boxOfJson (j : Json) : Except GeomErr Geometry := do
  let b ← baseOfJson j
  let l ← thrown (j.get "length")
  if !l.isNumber then throw (.thrown .invalidArgument)
  let w ← thrown (j.get "width")
  if !w.isNumber then throw (.thrown .invalidArgument)
  let h ← thrown (j.get "height")
  if !h.isNumber then throw (.thrown .invalidArgument)
  let x ← thrown l.toDouble
  let y ← thrown w.toDouble
  let z ← thrown h.toDouble
  if x < 0 then throw (.thrown .logicError)
  if y < 0 then throw (.thrown .logicError)
  if z < 0 then throw (.thrown .logicError)
  return ⟨b.1, b.2.1, b.2.2, .box x y z⟩

/-- `config[key]` on a constant object: a missing key aborts in the assertion of the library or is undefined. -/
def getUnchecked (asserts : Bool) (j : Json) (key : String) : Except GeomErr Json :=
  match j with
  | .obj f => match f key with
    | some v => .ok v
    | none => .error (if asserts then .aborted else .undefined)
  | _ => .error (.thrown .typeError)

open Classical in
/-- `Cylinder(const json&)` (Cylinder.cxx 30-44) with or without assertions. -/
noncomputable def cylinderOfJson (asserts : Bool) (j : Json) : Except GeomErr Geometry := do
  let b ← baseOfJson j
  let o ← getUnchecked asserts j "outer_radius"
  if asserts && !o.isNumber then throw .aborted
  let h ← getUnchecked asserts j "height"
  if asserts && !h.isNumber then throw .aborted
  let radius ← thrown o.toDouble
  let inner ← valueI j "inner_radius" 0
  let z ← thrown h.toDouble
  if asserts ∧ ¬ (inner : ℝ) ≥ 0 then throw .aborted
  if asserts ∧ ¬ radius > (inner : ℝ) then throw .aborted
  if asserts ∧ ¬ z > 0 then throw .aborted
  return ⟨b.1, b.2.1, b.2.2, .cylinder z radius inner⟩

/-- `::tolower` over a text of ASCII characters; other characters are negative values of `char`, for which the function
is undefined. -/
def lowerText (s : String) : Except GeomErr String :=
  if s.toList.all fun c => c.toNat < 128 then .ok (String.ofList (s.toList.map Char.toLower)) else .error .undefined

/-- `CreateGeometry` (GeometryFactory.cxx 38-55). -/
noncomputable def createGeometry (asserts : Bool) (j : Json) : Except GeomErr Geometry := do
  if j.contains "shape" then
    let s ← thrown ((j.get "shape").bind Json.toStr)
    let shape ← lowerText s
    if shape = "sphere" then sphereOfJson j
    else if shape = "box" then boxOfJson j
    else if shape = "cylinder" then cylinderOfJson asserts j
    else throw (.thrown .invalidArgument)
  else throw (.thrown .invalidArgument)

end Proposal
