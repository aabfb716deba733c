import Verif.Model.Cylinder
import Verif.Spec.Geometry

/-! Specification of a cylinder on a ray. -/

namespace Proposal.Spec

/-- Squared distance of the ray point at `t` from the axis. -/
def axisSq (c : Cylinder) (p d : Vec3) (t : ℝ) : ℝ :=
  (p.x + t * d.x - c.center.x) ^ 2 + (p.y + t * d.y - c.center.y) ^ 2

/-- Height of the ray point at `t` above the centre. -/
def height (c : Cylinder) (p d : Vec3) (t : ℝ) : ℝ := p.z + t * d.z - c.center.z

/-- The ray point at `t` lies in the open material. -/
def InCylinder (c : Cylinder) (p d : Vec3) (t : ℝ) : Prop :=
  axisSq c p d t < c.radius ^ 2 ∧ (0 < c.inner → c.inner ^ 2 < axisSq c p d t) ∧ |height c p d t| < c.z / 2

/-- The ray goes from inside to outside or from outside to inside of a set at `t`. -/
def Changes (M : ℝ → Prop) (t : ℝ) : Prop := ∃ ε > 0, ∀ s, 0 < s → s < ε → (M (t - s) ↔ ¬ M (t + s))

/-- Forward border crossings. -/
def cylinderCrossings (c : Cylinder) (p d : Vec3) : Set ℝ :=
  {t | GEOMETRY_PRECISION ≤ t ∧ Changes (InCylinder c p d) t}

/-- The line of the ray meets no rim of the cylinder. -/
def AvoidsRims (c : Cylinder) (p d : Vec3) : Prop :=
  ∀ t, |height c p d t| = c.z / 2 → axisSq c p d t ≠ c.radius ^ 2 ∧ (0 < c.inner → axisSq c p d t ≠ c.inner ^ 2)

/-- The start lies in the closed material, or its distance from the axis or its height differs from the material by more
than the precision. -/
def ClearStart (c : Cylinder) (p : Vec3) : Prop :=
  (c.radius < Real.sqrt (axisSq c p 0 0) → c.radius + GEOMETRY_PRECISION < Real.sqrt (axisSq c p 0 0)) ∧
  (Real.sqrt (axisSq c p 0 0) < c.inner → Real.sqrt (axisSq c p 0 0) < c.inner - GEOMETRY_PRECISION) ∧
  (c.z / 2 < |height c p 0 0| → c.z / 2 + GEOMETRY_PRECISION < |height c p 0 0|)

end Proposal.Spec
