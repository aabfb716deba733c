import Verif.Model.Vec3

/-!
# Geometry base class and sphere

Models `geometry/Geometry.cxx` 88-166 and `geometry/Sphere.cxx` 10-24, 63-241.
-/

namespace Proposal

/-- `GEOMETRY_PRECISION` (Constants.cxx): 1e-9 cm. -/
noncomputable def GEOMETRY_PRECISION : ℝ := 1 / 10 ^ 9

/-- `PARTICLE_POSITION_RESOLUTION` (Constants.cxx): 1e-3 cm. -/
noncomputable def PARTICLE_POSITION_RESOLUTION : ℝ := 1 / 10 ^ 3

/-- The computer precision control used in every shape (e.g. geometry/Sphere.cxx 94-97):
`if (t > 0 && t < GEOMETRY_PRECISION) t = 0`. -/
noncomputable def snap (t : ℝ) : ℝ := if 0 < t ∧ t < GEOMETRY_PRECISION then 0 else t

/-- `std::swap(distance.first, distance.second)` under a condition. -/
noncomputable def swapIf (b : Prop) [Decidable b] (q : ℝ × ℝ) : ℝ × ℝ :=
  if b then (q.2, q.1) else q

/-- Final precision control of every shape (e.g. geometry/Sphere.cxx 233-238). -/
noncomputable def finalControl (q : ℝ × ℝ) : ℝ × ℝ :=
  let f := if q.1 < GEOMETRY_PRECISION then -1 else q.1
  let s := if q.2 < GEOMETRY_PRECISION then -1 else q.2
  swapIf (f < 0) (f, s)

/-- Members of `Sphere` (geometry/Sphere.h). -/
structure Sphere where
  center : Vec3
  radius : ℝ
  inner : ℝ

/-- Constructor `Sphere(position, radius, inner_radius)` (geometry/Sphere.cxx 10-24): radii are
swapped when given in the wrong order. Logging is not modelled. -/
noncomputable def Sphere.mk' (c : Vec3) (radius inner : ℝ) : Sphere :=
  if inner > radius then ⟨c, inner, radius⟩ else ⟨c, radius, inner⟩

/-- The outer part of `Sphere::DistanceToBorder` (geometry/Sphere.cxx 75-131), where
`l2 = |p - c|²` and `B = (p - c)·d`. -/
noncomputable def Sphere.outer (R l2 B : ℝ) : ℝ × ℝ :=
  let A := l2 - R * R
  let det := B * B - A
  if det > 0 then
    let t1 := snap (-1 * B + Real.sqrt det)
    let t2 := snap (-1 * B - Real.sqrt det)
    let f := if t1 ≤ 0 then -1 else t1
    let s := if t2 ≤ 0 then -1 else t2
    let q := swapIf (f < 0) (f, s)
    if q.1 > 0 ∧ q.2 > 0 then swapIf (q.2 < q.1) q else q
  else (-1, -1)

/-- The hollow part of `Sphere::DistanceToBorder` (geometry/Sphere.cxx 143-226). -/
noncomputable def Sphere.hollow (r l2 B : ℝ) (q : ℝ × ℝ) : ℝ × ℝ :=
  if r > 0 then
    let A := l2 - r * r
    let det := B * B - A
    if det > 0 then
      let t1 := snap (-1 * B + Real.sqrt det)
      let t2 := snap (-1 * B - Real.sqrt det)
      if q.1 > 0 ∧ q.2 > 0 then
        -- 167-178
        let s1 := if t1 > 0 then (if t1 < q.2 then t1 else q.2) else q.2
        let s2 := if t2 > 0 then (if t2 < s1 then t2 else s1) else s1
        (q.1, s2)
      else
        -- 183-189
        let q1 := if t1 > 0 ∧ t2 > 0 then ((if t1 < t2 then t1 else t2), q.2) else q
        -- 194-201
        let q2 := if (t1 > 0 ∧ t2 < 0) ∨ (t2 > 0 ∧ t1 < 0) then
            ((if t1 > 0 then t1 else t2), q1.1) else q1
        -- 204-213
        let q3 := if t1 = 0 then (if t2 > 0 then (t2, q2.1) else q2) else q2
        -- 214-223
        if t2 = 0 then (if t1 > 0 then (t1, q3.1) else q3) else q3
    else q
  else q

/-- `Sphere::DistanceToBorder` (geometry/Sphere.cxx 63-241). -/
noncomputable def Sphere.distanceToBorder (S : Sphere) (p d : Vec3) : ℝ × ℝ :=
  let l2 := (p - S.center).mag ^ 2
  let B := (p - S.center).dot d
  let q := Sphere.outer S.radius l2 B
  if q.1 < 0 ∧ q.2 < 0 then q
  else finalControl (Sphere.hollow S.inner l2 B q)

/-! ### Geometry base class, over an arbitrary `DistanceToBorder` -/

/-- A geometry as seen by its clients: `GetHierarchy`, its centre `position_` and
`DistanceToBorder(position, direction)`. A NaN direction (normalised zero vector) is `none`. -/
structure Geo where
  hierarchy : ℕ
  center : Vec3
  dist : Vec3 → Vec3 → ℝ × ℝ

/-- `IsInside` (geometry/Geometry.cxx 88-99). -/
def Geo.isInside (g : Geo) (p d : Vec3) : Prop := (g.dist p d).1 > 0 ∧ (g.dist p d).2 < 0

/-- `IsInfront` (geometry/Geometry.cxx 102-113). -/
def Geo.isInfront (g : Geo) (p d : Vec3) : Prop := (g.dist p d).1 > 0 ∧ (g.dist p d).2 > 0

/-- `IsBehind` (geometry/Geometry.cxx 116-127). -/
def Geo.isBehind (g : Geo) (p d : Vec3) : Prop := (g.dist p d).1 < 0 ∧ (g.dist p d).2 < 0

/-- `IsEntering` (geometry/Geometry.cxx 130-139). -/
def Geo.isEntering (g : Geo) (p d : Vec3) : Prop :=
  ((g.dist p d).1 ≥ 0 ∧ (g.dist p d).2 = -1) ∧
  ((g.dist p (-d)).1 = -1 ∧ (g.dist p (-d)).2 = -1)

/-- `IsLeaving` (geometry/Geometry.cxx 142-151). -/
def Geo.isLeaving (g : Geo) (p d : Vec3) : Prop :=
  ((g.dist p d).1 = -1 ∧ (g.dist p d).2 = -1) ∧
  ((g.dist p (-d)).1 ≥ 0 ∧ (g.dist p (-d)).2 = -1)

/-- `ParticleLocation::Enum` (geometry/Geometry.h). -/
inductive Location
  | infront
  | inside
  | behind
  deriving DecidableEq

open Classical in
/-- `GetLocation` (geometry/Geometry.cxx 153-160). -/
noncomputable def Geo.location (g : Geo) (p d : Vec3) : Location :=
  if g.isInfront p d then .infront
  else if g.isInside p d then .inside
  else .behind

/-- `DistanceToClosestApproach` (geometry/Geometry.cxx 163-166). -/
def Geo.closestApproach (g : Geo) (p d : Vec3) : ℝ := (g.center - p).dot d

/-- The sphere as a geometry. -/
noncomputable def Sphere.toGeo (S : Sphere) (hierarchy : ℕ) : Geo :=
  ⟨hierarchy, S.center, S.distanceToBorder⟩

end Proposal
