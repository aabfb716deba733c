import Verif.Model.Sphere
import Mathlib.Data.List.Sort
import Mathlib.Topology.Order.LeftRight

/-!
# Ray specification

What `Geometry::DistanceToBorder` promises (geometry/Geometry.h): the parameters at which the ray
crosses the border, at least `GEOMETRY_PRECISION` ahead; an even number of crossings means the
particle is outside and the nearest two are reported, an odd number means it is inside and only
the nearest one is reported.
-/

namespace Proposal.Spec

/-- The pair documented for an ascending list of forward border crossings. -/
noncomputable def borderPair : List ℝ → ℝ × ℝ
  | [] => (-1, -1)
  | [a] => (a, -1)
  | a :: b :: l => if l.length % 2 = 0 then (a, b) else (a, -1)

/-- `q` reports the crossing set `T` of a ray. -/
def Reports (T : Set ℝ) (q : ℝ × ℝ) : Prop :=
  ∃ l : List ℝ, l.Pairwise (· < ·) ∧ (∀ t, t ∈ l ↔ t ∈ T) ∧ q = borderPair l

/-- squared distance of the ray point at parameter `t` from a centre. -/
def rayDistSq (c p d : Vec3) (t : ℝ) : ℝ :=
  (p.x + t * d.x - c.x) ^ 2 + (p.y + t * d.y - c.y) ^ 2 + (p.z + t * d.z - c.z) ^ 2

/-- The ray crosses the sphere of radius `ρ > 0` about `c` at parameter `t` and does not just
touch it. -/
def CrossesSphere (c p d : Vec3) (ρ t : ℝ) : Prop :=
  0 < ρ ∧ rayDistSq c p d t = ρ ^ 2 ∧ ∃ s, rayDistSq c p d s < ρ ^ 2

/-- Forward border crossings of a spherical shell (`inner ≤ 0` means solid). -/
def shellCrossings (S : Sphere) (p d : Vec3) : Set ℝ :=
  {t | GEOMETRY_PRECISION ≤ t ∧
    (CrossesSphere S.center p d S.radius t ∨ CrossesSphere S.center p d S.inner t)}

/-- The ray point at parameter `s` lies in the open material of the shell. -/
def InMaterial (S : Sphere) (p d : Vec3) (s : ℝ) : Prop :=
  rayDistSq S.center p d s < S.radius ^ 2 ∧
  (0 < S.inner → S.inner ^ 2 < rayDistSq S.center p d s)

/-- The documented shape of a distance pair (geometry/Geometry.h): both -1, or the first positive
and the second -1, or both positive. -/
def ValidPair (q : ℝ × ℝ) : Prop :=
  q = (-1, -1) ∨ (0 < q.1 ∧ q.2 = -1) ∨ (0 < q.1 ∧ 0 < q.2)

end Proposal.Spec
