import Mathlib.Analysis.SpecialFunctions.Complex.Arg
import Mathlib.Analysis.SpecialFunctions.Trigonometric.Inverse

/-!
# Vectors in three dimensions

Models `math/Cartesian3D.cxx`, `math/Spherical3D.cxx`, the momentum accessors of
`particle/Particle.cxx` and `ScatterInitialDirection` of
`scattering/multiple_scattering/Parametrization.cxx`.  `double` is `ℝ`.
-/

namespace Proposal

/-- `Cartesian3D` (math/Cartesian3D.cxx 8-150): three coordinates. -/
@[ext] structure Vec3 where
  x : ℝ
  y : ℝ
  z : ℝ

namespace Vec3

/-- `operator+` (math/Cartesian3D.cxx 44-50). -/
instance : Add Vec3 := ⟨fun a b => ⟨a.x + b.x, a.y + b.y, a.z + b.z⟩⟩
/-- `operator-` (math/Cartesian3D.cxx 52-58). -/
instance : Sub Vec3 := ⟨fun a b => ⟨a.x - b.x, a.y - b.y, a.z - b.z⟩⟩
/-- unary `operator-` (math/Cartesian3D.cxx 84-90). -/
instance : Neg Vec3 := ⟨fun a => ⟨-a.x, -a.y, -a.z⟩⟩
/-- `double * Cartesian3D` (math/Cartesian3D.cxx 68-82; both operand orders are the same
product). -/
instance : SMul ℝ Vec3 := ⟨fun k a => ⟨k * a.x, k * a.y, k * a.z⟩⟩
instance : Zero Vec3 := ⟨⟨0, 0, 0⟩⟩

/-- scalar product `operator*` (math/Cartesian3D.cxx 60-66). -/
def dot (a b : Vec3) : ℝ := a.x * b.x + a.y * b.y + a.z * b.z

/-- `vector_product` (math/Cartesian3D.cxx 99-105). -/
def cross (a b : Vec3) : Vec3 :=
  ⟨a.y * b.z - a.z * b.y, a.z * b.x - a.x * b.z, a.x * b.y - a.y * b.x⟩

/-- `magnitude` (math/Cartesian3D.cxx 27-33). -/
noncomputable def mag (a : Vec3) : ℝ := Real.sqrt (a.x * a.x + a.y * a.y + a.z * a.z)

/-- `normalize` (math/Cartesian3D.cxx 35-40).  For the zero vector the code divides `0/0` in
every component; that all-NaN vector is the outcome `none`. -/
noncomputable def normalize (a : Vec3) : Option Vec3 :=
  if a.mag = 0 then none else some ⟨a.x / a.mag, a.y / a.mag, a.z / a.mag⟩

/-- `GetSphericalCoordinates` (math/Cartesian3D.cxx 140-150), returned as (radius, azimuth,
zenith).  `atan2(y, x)` is `Complex.arg (x + i y)`; signed zeros are not modelled. -/
noncomputable def toSpherical (a : Vec3) : ℝ × ℝ × ℝ :=
  if a.mag = 0 then (0, 0, 0)
  else (a.mag, Complex.arg ⟨a.x, a.y⟩, Real.arccos (a.z / a.mag))

/-- `Spherical3D::GetCartesianCoordinates` (math/Spherical3D.cxx 38-50) of
(radius, azimuth, zenith). -/
noncomputable def ofSpherical (s : ℝ × ℝ × ℝ) : Vec3 :=
  ⟨s.1 * Real.cos s.2.1 * Real.sin s.2.2, s.1 * Real.sin s.2.1 * Real.sin s.2.2,
   s.1 * Real.cos s.2.2⟩

/-- `rotate_vector_x` (math/Cartesian3D.cxx 120-126 and
scattering/multiple_scattering/Parametrization.cxx 48-54). -/
noncomputable def rotX (a : Vec3) : Vec3 :=
  let s := a.toSpherical
  ⟨Real.cos s.2.2 * Real.cos s.2.1, Real.cos s.2.2 * Real.sin s.2.1, -Real.sin s.2.2⟩

/-- `rotate_vector_y` (math/Cartesian3D.cxx 127 and
scattering/multiple_scattering/Parametrization.cxx 55). -/
noncomputable def rotY (a : Vec3) : Vec3 :=
  let s := a.toSpherical
  ⟨-Real.sin s.2.1, Real.cos s.2.1, 0⟩

/-- `deflect(cosphi, theta)` (math/Cartesian3D.cxx 108-134), returning the new vector instead of
updating in place. -/
noncomputable def deflect (a : Vec3) (cosphi theta : ℝ) : Vec3 :=
  if cosphi ≠ 1 ∨ theta ≠ 0 then
    let sinphi := Real.sqrt (max 0 ((1 - cosphi) * (1 + cosphi)))
    let tx := sinphi * Real.cos theta
    let ty := sinphi * Real.sin theta
    let tz0 := Real.sqrt (max (1 - tx * tx - ty * ty) 0)
    let tz := if cosphi < 0 then -tz0 else tz0
    tz • a + tx • a.rotX + ty • a.rotY
  else a

end Vec3

/-- `ScatteringOffset` (scattering/multiple_scattering/Parametrization.h): the sampled offsets. -/
structure ScatteringOffset where
  sx : ℝ
  sy : ℝ
  tx : ℝ
  ty : ℝ

/-- `ScatterInitialDirection` (scattering/multiple_scattering/Parametrization.cxx 40-69):
(mean direction, final direction). -/
noncomputable def scatterInitialDirection (d : Vec3) (o : ScatteringOffset) : Vec3 × Vec3 :=
  let sz := Real.sqrt (max (1 - (o.sx * o.sx + o.sy * o.sy)) 0)
  let tz := Real.sqrt (max (1 - (o.tx * o.tx + o.ty * o.ty)) 0)
  (sz • d + o.sx • d.rotX + o.sy • d.rotY, tz • d + o.tx • d.rotX + o.ty • d.rotY)

/-- `ParticleState::SetMomentum` (particle/Particle.cxx 108-112): the new energy. -/
noncomputable def energyOfMomentum (mass p : ℝ) : ℝ := Real.sqrt (p * p + mass ^ 2)

/-- `ParticleState::GetMomentum` (particle/Particle.cxx 114-118).  A negative radicand gives NaN
in the code, which is the outcome `none`. -/
noncomputable def momentumOfEnergy (mass e : ℝ) : Option ℝ :=
  if (e + mass) * (e - mass) < 0 then none else some (Real.sqrt ((e + mass) * (e - mass)))

end Proposal
