import Verif.Model.Box
import Verif.Spec.Geometry

/-! Specification of a solid box on a ray. -/

namespace Proposal.Spec

/-- The ray point at `t` lies in the closed box. -/
def InClosedBox (b : Box) (p d : Vec3) (t : ℝ) : Prop :=
  |p.x + t * d.x - b.center.x| ≤ b.x / 2 ∧ |p.y + t * d.y - b.center.y| ≤ b.y / 2 ∧
  |p.z + t * d.z - b.center.z| ≤ b.z / 2

/-- The ray point at `t` lies in the open box. -/
def InOpenBox (b : Box) (p d : Vec3) (t : ℝ) : Prop :=
  |p.x + t * d.x - b.center.x| < b.x / 2 ∧ |p.y + t * d.y - b.center.y| < b.y / 2 ∧
  |p.z + t * d.z - b.center.z| < b.z / 2

/-- The ray crosses the surface of the box at `t` and does not merely touch the box. -/
def CrossesBox (b : Box) (p d : Vec3) (t : ℝ) : Prop :=
  InClosedBox b p d t ∧ ¬ InOpenBox b p d t ∧ ∃ s, InOpenBox b p d s

/-- Forward surface crossings. -/
def boxCrossings (b : Box) (p d : Vec3) : Set ℝ :=
  {t | GEOMETRY_PRECISION ≤ t ∧ CrossesBox b p d t}

/-- The forward ray meets no edge or corner of the box. -/
def AvoidsEdges (b : Box) (p d : Vec3) : Prop :=
  ∀ t, GEOMETRY_PRECISION ≤ t → InClosedBox b p d t →
    ¬ (|p.x + t * d.x - b.center.x| = b.x / 2 ∧ |p.y + t * d.y - b.center.y| = b.y / 2) ∧
    ¬ (|p.x + t * d.x - b.center.x| = b.x / 2 ∧ |p.z + t * d.z - b.center.z| = b.z / 2) ∧
    ¬ (|p.y + t * d.y - b.center.y| = b.y / 2 ∧ |p.z + t * d.z - b.center.z| = b.z / 2)

end Proposal.Spec
