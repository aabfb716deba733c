import Verif.Model.Decay
import Verif.Spec.Vec3

/-! Specification vocabulary for decays: four-momenta in terms of the observable energies and directions. -/

namespace Proposal

/-- The momentum of a particle: magnitude from energy and mass, along its direction. -/
noncomputable def Spec.momentum (p : Part) : Vec3 := Real.sqrt (p.energy ^ 2 - p.mass ^ 2) • p.dir

/-- A physical particle state: the energy is at least the mass, the direction is a unit vector. -/
structure Spec.PhysicalState (p : Part) : Prop where
  mass_nonneg : 0 ≤ p.mass
  energy_ge : p.mass ≤ p.energy
  unit : Spec.UnitVec p.dir

/-- The sum of the energies. -/
noncomputable def Spec.totalEnergy (l : List Part) : ℝ := (l.map fun p => p.energy).sum

/-- The sum of the momenta, by components. -/
noncomputable def Spec.totalMomentum (l : List Part) : Vec3 :=
  ⟨(l.map fun p => (Spec.momentum p).x).sum, (l.map fun p => (Spec.momentum p).y).sum,
    (l.map fun p => (Spec.momentum p).z).sum⟩

/-- Two states differ at most in energy and direction. -/
def Spec.SameOrigin (p q : Part) : Prop :=
  q.type = p.type ∧ q.mass = p.mass ∧ q.pos = p.pos ∧ q.time = p.time ∧ q.dist = p.dist

/-- The four-momenta of the products are physical and add up to that of the parent, a particle of mass `M`. -/
structure Spec.Conserves (M : ℝ) (parent : Part) (products : List Part) : Prop where
  physical : ∀ p ∈ products, Spec.PhysicalState p
  energy : Spec.totalEnergy products = parent.energy
  momentum : Spec.totalMomentum products = Real.sqrt (parent.energy ^ 2 - M ^ 2) • parent.dir

/-- The products are the daughters of the channel in this order, starting where and when the parent decays. -/
def Spec.AreDaughters (ds : List Daughter) (parent : Part) (products : List Part) : Prop :=
  List.Forall₂ (fun d p => p.type = d.type ∧ p.mass = d.mass ∧ p.pos = parent.pos ∧ p.time = parent.time ∧ p.dist = 0)
    ds products

/-- A parent that can decay: energy at least the mass, unit direction. -/
structure Spec.Parent (M : ℝ) (parent : Part) : Prop where
  mass_pos : 0 < M
  energy_ge : M ≤ parent.energy
  unit : Spec.UnitVec parent.dir

end Proposal
