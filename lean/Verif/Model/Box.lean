import Verif.Model.Sphere

/-!
# Box

Models `geometry/Box.cxx` 13-19, 63-282.
-/

namespace Proposal

/-- Members of `Box` (geometry/Box.h): centre and the three side lengths. -/
structure Box where
  center : Vec3
  x : ℝ
  y : ℝ
  z : ℝ

open Classical in
/-- One face test (geometry/Box.cxx 98-117 for E1, and alike 120-227): `bound` is the plane,
`p`/`d` the position and direction component, `ok t` the two border tests on the other
components. `none` means nothing is pushed to `dist`. -/
noncomputable def faceHit (bound p d : ℝ) (ok : ℝ → Prop) : Option ℝ :=
  if d ≠ 0 then
    let t := snap ((bound - p) / d)
    if t > 0 then (if ok t then some t else none) else none
  else none

/-- `intersection >= calc_neg && intersection <= calc_pos` for one component. -/
def within (c len p d t : ℝ) : Prop := p + t * d ≥ c - 0.5 * len ∧ p + t * d ≤ c + 0.5 * len

/-- The vector `dist` after the six face tests (geometry/Box.cxx 97-227). -/
noncomputable def Box.hits (b : Box) (p d : Vec3) : List ℝ :=
  [ faceHit (b.center.x + 0.5 * b.x) p.x d.x
      (fun t => within b.center.y b.y p.y d.y t ∧ within b.center.z b.z p.z d.z t),
    faceHit (b.center.x - 0.5 * b.x) p.x d.x
      (fun t => within b.center.y b.y p.y d.y t ∧ within b.center.z b.z p.z d.z t),
    faceHit (b.center.y + 0.5 * b.y) p.y d.y
      (fun t => within b.center.x b.x p.x d.x t ∧ within b.center.z b.z p.z d.z t),
    faceHit (b.center.y - 0.5 * b.y) p.y d.y
      (fun t => within b.center.x b.x p.x d.x t ∧ within b.center.z b.z p.z d.z t),
    faceHit (b.center.z + 0.5 * b.z) p.z d.z
      (fun t => within b.center.x b.x p.x d.x t ∧ within b.center.y b.y p.y d.y t),
    faceHit (b.center.z - 0.5 * b.z) p.z d.z
      (fun t => within b.center.x b.x p.x d.x t ∧ within b.center.y b.y p.y d.y t) ].filterMap id

/-- Evaluation of `dist` (geometry/Box.cxx 229-267). The assignments in the size-two branch at
243-247 are overwritten unconditionally by 248-249. -/
noncomputable def Box.select : List ℝ → ℝ × ℝ
  | [] => (-1, -1)
  | [a] => (a, -1)
  | [a, b] =>
    -- 243-247
    let q0 := if a = b then (a, -1) else ((0 : ℝ), (0 : ℝ))
    -- 248-249 overwrite both fields
    let q := ({ q0 with fst := a, snd := b } : ℝ × ℝ)
    swapIf (q.2 < q.1) q
  | [a, b, c] => if a = b ∧ b = c then (a, -1) else (-1, -1)
  | _ => (-1, -1)

/-- `Box::DistanceToBorder` (geometry/Box.cxx 63-282). -/
noncomputable def Box.distanceToBorder (b : Box) (p d : Vec3) : ℝ × ℝ :=
  finalControl (Box.select (b.hits p d))

/-- The box as a geometry. -/
noncomputable def Box.toGeo (b : Box) (hierarchy : ℕ) : Geo :=
  ⟨hierarchy, b.center, b.distanceToBorder⟩

end Proposal
