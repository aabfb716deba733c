import Verif.Model.Vec3

/-! Specification vocabulary for directions, independent of the model's frame helpers. -/

namespace Proposal.Spec

/-- Euclidean unit length, written out in coordinates. -/
def UnitVec (v : Vec3) : Prop := v.x ^ 2 + v.y ^ 2 + v.z ^ 2 = 1

/-- cosine of the angle between two unit vectors, written out in coordinates. -/
def cosAngle (v w : Vec3) : ℝ := v.x * w.x + v.y * w.y + v.z * w.z

/-- `(e1, e2, a)` is a right handed orthonormal frame. -/
def RightHandedFrame (e1 e2 a : Vec3) : Prop :=
  UnitVec e1 ∧ UnitVec e2 ∧ UnitVec a ∧ cosAngle e1 e2 = 0 ∧ cosAngle a e1 = 0 ∧ cosAngle a e2 = 0 ∧
  a.x = e1.y * e2.z - e1.z * e2.y ∧ a.y = e1.z * e2.x - e1.x * e2.z ∧
  a.z = e1.x * e2.y - e1.y * e2.x

end Proposal.Spec
