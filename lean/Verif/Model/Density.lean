import Verif.Model.Vec3
import Verif.Model.Spline
import Verif.Model.RootFinding
import Verif.Model.Json
import Mathlib.Analysis.SpecialFunctions.Log.Basic

/-!
# Density distributions

`/repo/src/PROPOSAL/detail/PROPOSAL/density_distr/*.cxx`. Mass densities are different from 0, as is the length
scale of the exponential distribution. `none` stands for a NaN.
-/

namespace Proposal

/-- `CartesianAxis` and `RadialAxis` (density_distr.cxx 59-143). -/
inductive Axis where
  | cartesian (fAxis fp0 : Vec3)
  | radial (fp0 : Vec3)

/-- `GetDepth` (lines 93-95 and 134-136). -/
noncomputable def Axis.depth : Axis → Vec3 → ℝ
  | .cartesian fAxis fp0, x => fAxis.dot (x - fp0)
  | .radial fp0, x => (x - fp0).mag

/-- `GetEffectiveDistance` (lines 97-102 and 138-143). `none`: at the reference point of a radial axis the
normalised difference is a NaN. -/
noncomputable def Axis.effective : Axis → Vec3 → Vec3 → Option ℝ
  | .cartesian fAxis _, _, dir => some (fAxis.dot dir)
  | .radial fp0, x, dir => (x - fp0).normalize.map fun u => (-u).dot dir

/-- `fp0_`. -/
def Axis.fp0 : Axis → Vec3
  | .cartesian _ fp0 => fp0
  | .radial fp0 => fp0

/-- `Axis::operator==` (lines 73-77). It is not virtual: the comparison of two `Axis` references compares the
reference points only. -/
def Axis.beq (a b : Axis) : Prop := a.fp0 = b.fp0

/-- What `Correct` may do: throw a DensityException, return an infinity or a NaN, return a number. -/
inductive Corrected where
  | throws
  | notFinite
  | dist (d : ℝ)

/-! ## Homogeneous density (density_homogeneous.cxx) -/

/-- `Density_homogeneous::Correct` (lines 34-43). -/
noncomputable def homogeneousCorrect (ρ res : ℝ) : Corrected := .dist (res / ρ)

/-- `Density_homogeneous::Integrate` (lines 45-52). -/
def homogeneousIntegrate (ρ l : ℝ) : ℝ := ρ * l

/-- `Density_homogeneous::Calculate` (lines 54-58). -/
def homogeneousCalculate (ρ l : ℝ) : ℝ := homogeneousIntegrate ρ l - homogeneousIntegrate ρ 0

/-! ## Exponential density (density_exponential.cxx) -/

structure ExpDensity where
  axis : Axis
  sigma : ℝ
  d0 : ℝ
  ρ : ℝ

namespace ExpDensity

/-- `GetDepth` (lines 22-24). -/
noncomputable def depth (D : ExpDensity) (x : Vec3) : ℝ := (D.axis.depth x - D.d0) / D.sigma

/-- `GetEffectiveDistance` (lines 37-40). -/
noncomputable def effective (D : ExpDensity) (x dir : Vec3) : Option ℝ := (D.axis.effective x dir).map (· / D.sigma)

open Classical in
/-- `Correct` (lines 42-57). With δ = 0 the product of 1/δ = ∞ and log 1 = 0 is a NaN; the logarithm of a
negative number is a NaN, the one of 0 is infinite. -/
noncomputable def correct (D : ExpDensity) (x dir : Vec3) (res : ℝ) : Corrected :=
  match D.effective x dir with
  | none => .throws
  | some δ =>
    if δ = 0 then .throws
    else
      let a := 1 + Real.exp (-D.depth x) * res * δ / D.ρ
      if a < 0 then .throws
      else if a = 0 then .notFinite
      else .dist (1 / δ * Real.log a)

open Classical in
/-- `Integrate` (lines 59-65), `none` for a NaN and for the infinity that a division by δ = 0 gives. -/
noncomputable def integrate (D : ExpDensity) (x dir : Vec3) (l : ℝ) : Option ℝ :=
  match D.effective x dir with
  | none => none
  | some δ => if δ = 0 then none else some (D.ρ * Real.exp (D.depth x + l * δ) / δ)

/-- `Calculate` (lines 67-71). The difference of two equal infinities is a NaN. -/
noncomputable def calculate (D : ExpDensity) (x dir : Vec3) (l : ℝ) : Option ℝ := do
  let b ← D.integrate x dir l
  let a ← D.integrate x dir 0
  pure (b - a)

/-- `Evaluate` (lines 73-75). -/
noncomputable def evaluate (D : ExpDensity) (x : Vec3) : ℝ := D.ρ * Real.exp (D.depth x)

end ExpDensity

/-! ## Densities given by a function of the depth

density_polynomial.cxx and density_splines.cxx share their formulas: `p` evaluates the polynomial or the
spline, `P` its antiderivative; `none` in both: undefined behaviour. -/

structure DepthDensity where
  axis : Axis
  p : ℝ → Option ℝ
  P : ℝ → Option ℝ
  ρ : ℝ

namespace DepthDensity

/-- The constructor of `Density_polynomial` (density_polynomial.cxx 13-18). -/
noncomputable def polynomial (axis : Axis) (poly : Poly) (ρ : ℝ) : DepthDensity :=
  ⟨axis, poly.evaluate, (poly.antiderivative 0).evaluate, ρ⟩

/-- The constructor of `Density_splines` (density_splines.cxx 9-14), `none` if the antiderivative has
undefined behaviour. -/
noncomputable def spline (axis : Axis) (s : Spline) (ρ : ℝ) : Option DepthDensity :=
  (s.antiderivative 0).map fun S => ⟨axis, s.evaluate, S.evaluate, ρ⟩

open Classical in
/-- `Integrate` (density_polynomial.cxx 85-92, density_splines.cxx 86-93). -/
noncomputable def integrate (D : DepthDensity) (x dir : Vec3) (l : ℝ) : Option ℝ :=
  match D.axis.effective x dir with
  | none => none
  | some δ => if δ = 0 then none else (D.P (D.axis.depth x + l * δ)).map fun v => D.ρ * v / (δ * δ)

/-- `Calculate` (density_polynomial.cxx 94-98, density_splines.cxx 95-99). -/
noncomputable def calculate (D : DepthDensity) (x dir : Vec3) (l : ℝ) : Option ℝ := do
  let b ← D.integrate x dir l
  let a ← D.integrate x dir 0
  pure (b - a)

/-- `Evaluate` (density_polynomial.cxx 100-102, density_splines.cxx 101-103). -/
noncomputable def evaluate (D : DepthDensity) (x : Vec3) : Option ℝ := (D.p (D.axis.depth x)).map (D.ρ * ·)

/-- `Helper_function` (density_polynomial.cxx 49-54), for the case that `Integrate` returns numbers. -/
noncomputable def helperF (D : DepthDensity) (x dir : Vec3) (res l : ℝ) : ℝ :=
  (D.integrate x dir 0).getD 0 - (D.integrate x dir l).getD 0 + res

/-- `helper_function` (density_polynomial.cxx 56-63): passed to the root finder as the derivative. -/
noncomputable def helperDF (D : DepthDensity) (x dir : Vec3) (l : ℝ) : ℝ :=
  (D.evaluate x).getD 0 - (D.evaluate (x + l • dir)).getD 0

/-- `Correct` (density_polynomial.cxx 65-83, density_splines.cxx 65-84). Without a number from `Integrate`
(δ = 0) all comparisons in the root finder are false and it returns a NaN. -/
noncomputable def correct (D : DepthDensity) (x dir : Vec3) (res border : ℝ) : Corrected :=
  match D.integrate x dir 0 with
  | none => .notFinite
  | some _ =>
    match newtonRaphson (D.helperF x dir res) (D.helperDF x dir) 0 border (border / 2) 101 (1 / 10 ^ 6) with
    | .error _ => .throws
    | .ok none => .notFinite
    | .ok (some d) => .dist d

end DepthDensity

/-! ## Comparison -/

/-- A density distribution of one of the four kinds. The two splines of a spline density are behind pointers. -/
inductive Distr where
  | homogeneous (axis : Axis) (ρ : ℝ)
  | exponential (axis : Axis) (sigma d0 ρ : ℝ)
  | polynomial (axis : Axis) (poly : Poly) (ρ : ℝ)
  | splines (axis : Axis) (spline integrated : ℕ) (ρ : ℝ)

namespace Distr

def axis : Distr → Axis
  | homogeneous a _ => a
  | exponential a _ _ _ => a
  | polynomial a _ _ => a
  | splines a _ _ _ => a

def ρ : Distr → ℝ
  | homogeneous _ r => r
  | exponential _ _ _ r => r
  | polynomial _ _ r => r
  | splines _ _ _ r => r

/-- `compare` (density_homogeneous.cxx 27-32, density_exponential.cxx 26-35, density_polynomial.cxx 40-47,
density_splines.cxx 42-51: the pointers are compared). -/
def compare : Distr → Distr → Prop
  | homogeneous _ _, homogeneous _ _ => True
  | exponential _ s d _, exponential _ s' d' _ => s = s' ∧ d = d'
  | polynomial _ p _, polynomial _ q _ => p.beq q = true
  | splines _ s i _, splines _ s' i' _ => s = s' ∧ i = i'
  | _, _ => False

/-- `Density_distr::operator==` (density_distr.cxx 40-49). -/
def beq (a b : Distr) : Prop := a.axis.beq b.axis ∧ a.ρ = b.ρ ∧ a.compare b

/-- `Evaluate`; `heap` has the splines behind the pointers. -/
noncomputable def evaluate (heap : ℕ → Option Spline) : Distr → Vec3 → Option ℝ
  | homogeneous _ r, _ => some r
  | exponential a s d r, x => some (ExpDensity.evaluate ⟨a, s, d, r⟩ x)
  | polynomial a p r, x => (DepthDensity.polynomial a p r).evaluate x
  | splines a s _ r, x => ((heap s).bind (·.evaluate (a.depth x))).map (r * ·)

end Distr

/-! ## Life time of spline densities -/

/-- The addresses of the splines that exist. -/
abbrev LiveSplines := List ℕ

/-- A `Density_splines` object: its two pointers. -/
structure SplineDensityObj where
  spline : ℕ
  integrated : ℕ

/-- `Density_splines(axis, splines, massDensity)` (density_splines.cxx 9-14): two clones at new addresses. -/
def SplineDensityObj.new (live : LiveSplines) (p q : ℕ) : LiveSplines × SplineDensityObj := (p :: q :: live, ⟨p, q⟩)

/-- The copy constructor (lines 19-22), used by `clone`. -/
def SplineDensityObj.copy (D : SplineDensityObj) : SplineDensityObj := ⟨D.spline, D.integrated⟩

/-- `delete` of an address; `none`: undefined behaviour, nothing is there (any more). -/
def deleteSpline (live : LiveSplines) (p : ℕ) : Option LiveSplines :=
  if p ∈ live then some (live.erase p) else none

/-- The destructor (density_splines.h 47-50). -/
def SplineDensityObj.destroy (live : LiveSplines) (D : SplineDensityObj) : Option LiveSplines :=
  (deleteSpline live D.spline).bind (deleteSpline · D.integrated)

/-- `Evaluate` reads the spline behind the first pointer: `none` if it does not exist. -/
def SplineDensityObj.evaluate (live : LiveSplines) (D : SplineDensityObj) : Option Unit :=
  if D.spline ∈ live then some () else none

/-! ## Densities from JSON -/

/-- `Cartesian3D(const json&)` (math/Cartesian3D.cxx 8-19). -/
def vec3OfJson : Json → Except JsonErr Vec3
  | .arr [.num x, .num y, .num z] => .ok ⟨x, y, z⟩
  | _ => .error .invalidArgument

/-- The constructors of the axes (density_distr.cxx 65-68, 91, 124-127). -/
def axisOfJson (j : Json) : Except JsonErr Axis := do
  let t ← (← j.get "axis_type").toStr
  if t = "radial" then
    if !j.contains "fp0" then throw .invalidArgument
    let fp0 ← vec3OfJson (← j.get "fp0")
    return .radial fp0
  else if t = "cartesian" then
    if !j.contains "fp0" then throw .invalidArgument
    let fp0 ← vec3OfJson (← j.get "fp0")
    if !j.contains "fAxis" then throw .invalidArgument
    let fAxis ← vec3OfJson (← j.get "fAxis")
    return .cartesian fAxis fp0
  else throw .invalidArgument

/-- `Density_distr(const json&)` (density_distr.cxx 19-36): axis and mass density. -/
def distrOfJson (j : Json) : Except JsonErr (Axis × ℝ) := do
  if !j.contains "axis_type" then throw .invalidArgument
  let a ← axisOfJson j
  if !j.contains "mass_density" then throw .invalidArgument
  let r ← (← j.get "mass_density").toDouble
  return (a, r)

/-- `Polynom(const json&)` (math/Function.cxx 21-28): an array is demanded, then its key `coefficients` is
read. (The copy that follows takes begin and end from two temporaries.) -/
def polynomOfJson (j : Json) : Except JsonErr Poly := do
  if !j.isArray then throw .invalidArgument
  let l ← (← j.get "coefficients").toDoubles
  return l

/-- `Density_polynomial(const json&)` (density_polynomial.cxx 31-35). -/
def polynomialDensityOfJson (j : Json) : Except JsonErr (Axis × Poly × ℝ) := do
  let (a, r) ← distrOfJson j
  let p ← polynomOfJson j
  return (a, p, r)

/-- `Density_exponential(const json&)` (density_exponential.cxx 16-19). -/
noncomputable def exponentialDensityOfJson (j : Json) : Except JsonErr ExpDensity := do
  let (a, r) ← distrOfJson j
  let s ← j.valueD "sigma" 1
  let d ← j.valueD "d0" 0
  return ⟨a, s, d, r⟩

end Proposal
