import Verif.Model.Box

/-!
# Cylinder

Models `geometry/Cylinder.cxx` 11-27 and 68-520.
-/

namespace Proposal

/-- Members of `Cylinder` (geometry/Cylinder.h): centre, radii and height `z_`. -/
structure Cylinder where
  center : Vec3
  radius : ℝ
  inner : ℝ
  z : ℝ

/-- Constructor `Cylinder(position, z, radius, inner_radius)` (geometry/Cylinder.cxx 11-27): radii are swapped when given
in the wrong order. Logging is not modelled. -/
noncomputable def Cylinder.mk' (c : Vec3) (z radius inner : ℝ) : Cylinder :=
  if inner > radius then ⟨c, inner, radius, z⟩ else ⟨c, radius, inner, z⟩

open Classical in
/-- The two intersections with the infinite barrel of radius `ρ` (geometry/Cylinder.cxx 106-133 and 246-275), `none` for a
ray parallel to the axis or without two intersections. -/
noncomputable def Cylinder.roots (c : Cylinder) (ρ : ℝ) (p d : Vec3) : Option (ℝ × ℝ) :=
  if ¬ (d.x = 0 ∧ d.y = 0) then
    let A := (p.x - c.center.x) ^ 2 + (p.y - c.center.y) ^ 2 - ρ * ρ
    let B := 2 * ((p.x - c.center.x) * d.x + (p.y - c.center.y) * d.y)
    let C := d.x * d.x + d.y * d.y
    let B' := B / C
    let A' := A / C
    let det := 0.25 * B' * B' - A'
    if det > 0 then some (snap (-1 * B' / 2 + Real.sqrt det), snap (-1 * B' / 2 - Real.sqrt det)) else none
  else none

/-- `intersection_z > z_calc_neg && intersection_z < z_calc_pos`. -/
def Cylinder.inHeight (c : Cylinder) (p d : Vec3) (t : ℝ) : Prop :=
  p.z + t * d.z > c.center.z - 0.5 * c.z ∧ p.z + t * d.z < c.center.z + 0.5 * c.z

/-- The distance of a point of the ray from the axis, `std::sqrt(std::pow(..., 2) + std::pow(..., 2))`. -/
noncomputable def Cylinder.axisDist (c : Cylinder) (p d : Vec3) (t : ℝ) : ℝ :=
  Real.sqrt ((p.x + t * d.x - c.center.x) ^ 2 + (p.y + t * d.y - c.center.y) ^ 2)

/-- The test for the caps (geometry/Cylinder.cxx 177-184, 203-210). -/
def Cylinder.onCap (c : Cylinder) (p d : Vec3) (t : ℝ) : Prop :=
  c.axisDist p d t ≤ c.radius ∧ c.axisDist p d t ≥ c.inner

open Classical in
/-- One barrel test (geometry/Cylinder.cxx 135-153). -/
noncomputable def Cylinder.barrelHit (c : Cylinder) (p d : Vec3) (t : ℝ) : List ℝ :=
  if t > 0 then (if c.inHeight p d t then [t] else []) else []

/-- Both barrel tests. -/
noncomputable def Cylinder.barrelHits (c : Cylinder) (p d : Vec3) : List ℝ :=
  match c.roots c.radius p d with
  | some t => c.barrelHit p d t.1 ++ c.barrelHit p d t.2
  | none => []

/-- The two cap tests (geometry/Cylinder.cxx 162-213). -/
noncomputable def Cylinder.capHits (c : Cylinder) (p d : Vec3) : List ℝ :=
  [faceHit (c.center.z + 0.5 * c.z) p.z d.z (c.onCap p d),
    faceHit (c.center.z - 0.5 * c.z) p.z d.z (c.onCap p d)].filterMap id

/-- The vector `dist` (geometry/Cylinder.cxx 99-214). -/
noncomputable def Cylinder.hits (c : Cylinder) (p d : Vec3) : List ℝ :=
  let b := c.barrelHits p d
  if b.length < 2 then b ++ c.capHits p d else b

open Classical in
/-- The evaluation of `dist` (geometry/Cylinder.cxx 215-239). More than two entries leave the zeros of the new pair. -/
noncomputable def Cylinder.select : List ℝ → ℝ × ℝ
  | [] => (-1, -1)
  | [a] => (a, -1)
  | [a, b] => swapIf (b < a) (a, b)
  | _ => (0, 0)

/-- The test whether the particle is in the material (geometry/Cylinder.cxx 360-366). -/
def Cylinder.holds (c : Cylinder) (p : Vec3) : Prop :=
  (p.z ≥ c.center.z - 0.5 * c.z ∧ p.z ≤ c.center.z + 0.5 * c.z) ∧
  Real.sqrt ((p.x - c.center.x) ^ 2 + (p.y - c.center.y) ^ 2) ≤ c.radius + GEOMETRY_PRECISION ∧
  Real.sqrt ((p.x - c.center.x) ^ 2 + (p.y - c.center.y) ^ 2) ≥ c.inner - GEOMETRY_PRECISION

open Classical in
/-- The update of the pair for intersections `t1`, `t2` with the inner barrel (geometry/Cylinder.cxx 282-500). `H` is the
test for the height of an intersection, `inside` the one for the material. -/
noncomputable def Cylinder.innerUpdate (H : ℝ → Prop) (inside : Prop) (t1 t2 : ℝ) (q : ℝ × ℝ) : ℝ × ℝ :=
  if q.1 > 0 ∧ q.2 > 0 then
    -- 282-305
    let s1 := if t1 > 0 ∧ H t1 ∧ t1 < q.2 then t1 else q.2
    let s2 := if t2 > 0 ∧ H t2 ∧ t2 < s1 then t2 else s1
    (q.1, s2)
  else if q.1 < 0 ∧ q.2 < 0 then
    -- 319-341
    let f1 := if t1 > 0 ∧ H t1 then t1 else q.1
    let f2 := if t2 > 0 ∧ H t2 then t2 else f1
    (f2, q.2)
  else
    let q1 : ℝ × ℝ :=
      if t1 > 0 ∧ t2 > 0 then
        if inside then
          -- 367-391
          let f1 := if t1 < q.1 ∧ H t1 then t1 else q.1
          let f2 := if t2 < f1 ∧ H t2 then t2 else f1
          (f2, q.2)
        else
          -- 406-428
          let s1 := if H t1 then t1 else q.2
          let s2 := if s1 < 0 ∧ H t2 then t2 else s1
          (q.1, s2)
      else q
    -- 447-468
    let q2 : ℝ × ℝ :=
      if (t1 > 0 ∧ t2 < 0) ∨ (t2 > 0 ∧ t1 < 0) then
        if t1 > 0 then (if H t1 then (t1, q1.1) else q1) else (if H t2 then (t2, q1.1) else q1)
      else q1
    -- 471-484
    let q3 : ℝ × ℝ := if t1 = 0 ∧ t2 > 0 ∧ H t2 then (t2, q2.1) else q2
    -- 486-499
    if t2 = 0 ∧ t1 > 0 ∧ H t1 then (t1, q3.1) else q3

open Classical in
/-- The hollow part (geometry/Cylinder.cxx 241-504). -/
noncomputable def Cylinder.hollow (c : Cylinder) (p d : Vec3) (q : ℝ × ℝ) : ℝ × ℝ :=
  if c.inner > 0 then
    match c.roots c.inner p d with
    | some t => Cylinder.innerUpdate (c.inHeight p d) (c.holds p) t.1 t.2 q
    | none => q
  else q

/-- `Cylinder::DistanceToBorder` (geometry/Cylinder.cxx 68-520). -/
noncomputable def Cylinder.distanceToBorder (c : Cylinder) (p d : Vec3) : ℝ × ℝ :=
  finalControl (c.hollow p d (Cylinder.select (c.hits p d)))

/-- The cylinder as a geometry. -/
noncomputable def Cylinder.toGeo (c : Cylinder) (hierarchy : ℕ) : Geo :=
  ⟨hierarchy, c.center, c.distanceToBorder⟩

end Proposal
