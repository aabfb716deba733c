import Verif.Model.Kinematics
import Verif.Model.Time
import Verif.Model.Medium
import Verif.Model.Vec3
import Mathlib.Analysis.SpecialFunctions.Log.Basic
import Mathlib.Analysis.SpecialFunctions.Pow.Real
import Mathlib.Analysis.SpecialFunctions.Trigonometric.Basic

/-!
# Multiple scattering

`/repo/src/PROPOSAL/detail/PROPOSAL/scattering/multiple_scattering/Highland.cxx`, `HighlandIntegral.cxx`, `Moliere.cxx`,
`Parametrization.cxx` (`operator==`) and `normalppf` (`/repo/src/PROPOSAL/detail/PROPOSAL/math/MathMethods.cxx` 14-77).
`erf` and `erfc` are parameters, `SQRT2` and `SQRT3` are the roots. The values of the tables of coefficients of Molière's
functions (Coefficients.cxx) are parameters. A NaN or an infinity is `none` where nothing else is said. Log messages are
left out. For `HighlandIntegral` the value of the integral is a parameter.
-/

namespace Proposal

/-! ## The normal distribution -/

/-- The first approximation of `normalppf` (MathMethods.cxx 37-66) for `0 < p < 1`, lower region. -/
noncomputable def ppfTail (p : ℝ) : ℝ :=
  let q := Real.sqrt (-2 * Real.log p)
  (((((-7.784894002430293e-03 * q + -3.223964580411365e-01) * q + -2.400758277161838) * q + -2.549732539343734) * q +
      4.374664141464968) * q + 2.938163982698783) /
    ((((7.784695709041462e-03 * q + 3.224671290700398e-01) * q + 2.445134137142996) * q + 3.754408661907416) * q + 1)

/-- The central region. -/
noncomputable def ppfCentre (p : ℝ) : ℝ :=
  let q := p - 0.5
  let r := q * q
  (((((-3.969683028665376e+01 * r + 2.209460984245205e+02) * r + -2.759285104469687e+02) * r + 1.383577518672690e+02) * r +
      -3.066479806614716e+01) * r + 2.506628277459239) * q /
    (((((-5.447609879822406e+01 * r + 1.615858368580409e+02) * r + -1.556989798598866e+02) * r + 6.680131188771972e+01) * r +
      -1.328068155288572e+01) * r + 1)

open Classical in
/-- The first approximation. -/
noncomputable def ppfStart (p : ℝ) : ℝ :=
  if p < 0.02425 then ppfTail p else if p ≤ 1 - 0.02425 then ppfCentre p else -ppfTail (1 - p)

open Classical in
/-- `normalppf` (MathMethods.cxx 14-77): one iteration of Halley's method. Arguments outside of (0, 1) only cause a log message,
the result is a NaN. -/
noncomputable def normalppf (erfc : ℝ → ℝ) (p : ℝ) : Option ℝ :=
  if 0 < p ∧ p < 1 then
    let x := ppfStart p
    let e := 0.5 * erfc (-x / Real.sqrt 2) - p
    let u := e * Real.sqrt (2 * Real.pi) * Real.exp (0.5 * x * x)
    if 1 + x * u * 0.5 = 0 then none else some (x - u / (1 + x * u * 0.5))
  else none

/-- The offsets of both parametrizations of a plane angle (Highland.cxx 69-88, Moliere.cxx 70-94), of the four sampled angles. -/
noncomputable def offsetsOf (a1 a2 b1 b2 : ℝ) : ScatteringOffset :=
  ⟨0.5 * (a1 / Real.sqrt 3 + a2), 0.5 * (b1 / Real.sqrt 3 + b2), a2, b2⟩

/-! ## Highland -/

/-- `Highland` (Highland.cxx 25-30): mass, charge and radiation length. -/
structure Highland where
  mass : ℝ
  charge : ℝ
  radiationLength : ℝ

/-- `std::log10`. -/
noncomputable def log10 (x : ℝ) : ℝ := Real.log x / Real.log 10

open Classical in
/-- `Highland::CalculateTheta0` (Highland.cxx 53-65): `none` for the quotient by the momentum 0. For a grammage of 0 the
logarithm is -∞ and the maximum is 0. The grammage is not negative. -/
noncomputable def Highland.theta0 (h : Highland) (grammage ei : ℝ) : Option ℝ :=
  let y := grammage / h.radiationLength
  let betaP := (ei - h.mass) * (ei + h.mass) / ei
  if ei = 0 ∨ betaP = 0 then none
  else some (13.6 * |h.charge| / betaP * Real.sqrt y * (if y = 0 then 0 else max (1 + 0.088 * log10 y) 0))

open Classical in
/-- `HighlandIntegral::CalculateTheta0` (HighlandIntegral.cxx 9-18) for the value of the integral; `none` for an abort in the
assertion (if assertions are compiled in). -/
noncomputable def Highland.theta0Integral (h : Highland) (asserts : Bool) (integral grammage : ℝ) : Option ℝ :=
  if asserts ∧ ¬ integral ≥ 0 then none
  else
    let aux := 13.6 * Real.sqrt (max integral 0 / h.radiationLength) * |h.charge|
    let y := grammage / h.radiationLength
    some (min (aux * (if y = 0 then 0 else max (1 + 0.038 * Real.log y) 0)) 1)

/-- `HighlandIntegral::Integral` (HighlandIntegral.cxx 20-25) for the integrand of the displacement. -/
noncomputable def Highland.integrand (h : Highland) (disp : ℝ → ℝ) (E : ℝ) : ℝ :=
  let aux := E / ((E - h.mass) * (E + h.mass))
  disp E * aux * aux

/-- `Highland::CalculateRandomAngle` (Highland.cxx 69-88) for the value of `Theta0`. -/
noncomputable def highlandOffsets (ppf : ℝ → Option ℝ) (theta0 : Option ℝ) (r : Fin 4 → ℝ) : Option ScatteringOffset := do
  let t ← theta0
  let n0 ← ppf (r 0)
  let n1 ← ppf (r 1)
  let n2 ← ppf (r 2)
  let n3 ← ppf (r 3)
  pure (offsetsOf (t * n0) (t * n1) (t * n2) (t * n3))

/-- `Highland::CalculateScatteringAngle2D` (Highland.cxx 95-100). -/
noncomputable def highlandAngle2D (ppf : ℝ → Option ℝ) (theta0 : Option ℝ) (r1 r2 : ℝ) : Option ℝ := do
  let t ← theta0
  let n1 ← ppf r1
  let n2 ← ppf r2
  pure (Real.sqrt (t * n1 * (t * n1) + t * n2 * (t * n2)))

/-! ## Life time of `HighlandIntegral` -/

/-- A `HighlandIntegral` object: its address and the address in the function of its shared `UtilityIntegral`
(`[this, disp]`, HighlandIntegral.cxx 27-41). -/
structure HighlandIntegralObj where
  addr : ℕ
  captured : ℕ
  interpolated : Bool

/-- The constructors at a new address, among the addresses of the existing objects. -/
def HighlandIntegralObj.new (live : List ℕ) (p : ℕ) (interpolated : Bool) : List ℕ × HighlandIntegralObj :=
  (p :: live, ⟨p, p, interpolated⟩)

/-- `clone` (HighlandIntegral.h 53-56): the copy shares the `UtilityIntegral`. -/
def HighlandIntegralObj.clone (live : List ℕ) (o : HighlandIntegralObj) (p : ℕ) : List ℕ × HighlandIntegralObj :=
  (p :: live, ⟨p, o.captured, o.interpolated⟩)

/-- The destructor. -/
def HighlandIntegralObj.destroy (live : List ℕ) (o : HighlandIntegralObj) : List ℕ := live.erase o.addr

/-- `CalculateTheta0`: the integration calls the function, the table only for steps that are small compared to the energy
(PropagationUtilityInterpolant.cxx 66-68). `none`: undefined behaviour, the captured object does not exist (any more). -/
def HighlandIntegralObj.calculate (live : List ℕ) (o : HighlandIntegralObj) (smallStep : Bool) : Option Unit :=
  if o.addr ∈ live ∧ (o.captured ∈ live ∨ (o.interpolated ∧ ¬ smallStep)) then some () else none

/-! ## Molière -/

/-- `EULER_MASCHERONI` (Constants.cxx 14-15). -/
noncomputable def EULER_MASCHERONI : ℝ := 0.577215664901532860606512090082402431
/-- `HBAR` (Constants.cxx 54). -/
noncomputable def HBAR : ℝ := 6.58211928e-22

/-- The fields of a `Moliere` object (Moliere.h 22-37). -/
structure Moliere where
  mass : ℝ
  zSqA : ℝ
  zs : List ℝ
  weightZZ : List ℝ
  weightZZSum : ℝ
  maxIndex : ℕ
  chiCSq : ℝ
  bs : List ℝ

open Classical in
/-- The loop for `max_weight_index_` (Moliere.cxx 178-181) at index `i`, with the weights from there on. -/
noncomputable def maxIndexLoop (i best : ℕ) : List ℝ → ℕ
  | w0 :: w1 :: ws => maxIndexLoop (i + 1) (if w0 < w1 then i + 1 else best) (w1 :: ws)
  | _ => best

open Classical in
/-- The constructor (Moliere.cxx 127-182) for charges, atoms in the molecule and atomic numbers of the components. The sums are
not zero (positive numbers). -/
noncomputable def Moliere.new (mass : ℝ) (comps : List (ℝ × ℝ × ℝ)) : Moliere :=
  let aSum := (comps.map fun c => c.2.1 * c.2.2).sum
  let weight := comps.map fun c => c.2.1 * c.2.2 / aSum
  let aAverage := (comps.map fun c => c.2.1 * c.2.2 / aSum * c.2.2).sum
  let weightZZ := comps.map fun c => c.2.1 * c.2.2 / aSum * c.1 * c.1
  let zSq := if mass = ME then (comps.map fun c => c.2.1 * c.2.2 / aSum * c.1 * (c.1 + 1)).sum else weightZZ.sum
  ⟨mass, zSq / aAverage, comps.map (·.1), weightZZ, 1 / weightZZ.sum, maxIndexLoop 0 0 weight, 0, comps.map fun _ => 0⟩

/-- `chi_A_Sq[i]` (Moliere.cxx 28-34). -/
noncomputable def chiASq (mass ei z : ℝ) : ℝ :=
  let p2 := (ei - mass) * (ei + mass)
  let chi0 := ME * ALPHA * (z * 128 / (9 * Real.pi * Real.pi)) ^ (1 / 3 : ℝ)
  let betaSq := 1 / (1 + mass * mass / p2)
  chi0 * chi0 / p2 * (1.13 + 3.76 * ALPHA * ALPHA * z * z / betaSq)

/-- `chiCSq_` (Moliere.cxx 37-39). -/
noncomputable def chiCSqOf (mass zSqA ei grammage : ℝ) : ℝ :=
  let b := (ei - mass) * (ei + mass) / ei
  4 * Real.pi * NAvogadro * ALPHA * ALPHA * HBAR * HBAR * SPEED * SPEED * grammage / (b * b) * zSqA

/-- The outcome of the iteration for `B`: a value of at least 4.5, `return 0`, or an infinity. -/
inductive BOut where
  | value (b : ℝ)
  | zero
  | infinite

/-- One step for `ln(χ_c² / χ_a²) = l` (Moliere.cxx 51-54). -/
noncomputable def bStep (l x : ℝ) : ℝ := x * ((1 - Real.log x - l - 1 + 2 * EULER_MASCHERONI) / (1 - x))

open Classical in
/-- The iteration (Moliere.cxx 48-61), `n` steps left. At 0 the logarithm is -∞ and the product a NaN. At 1 the quotient is
infinite or a NaN; after another step this is a NaN. -/
noncomputable def bLoop (l : ℝ) : ℕ → ℝ → BOut
  | 0, x => if x < 4.5 then .zero else .value x
  | n + 1, x =>
    if x ≤ 0 then .zero
    else if x = 1 then (if n = 0 ∧ l < 2 * EULER_MASCHERONI then .infinite else .zero)
    else bLoop l n (bStep l x)

/-- The iterations for all components (Moliere.cxx 43-64): the values of the leading components, and whether all of them are there. -/
noncomputable def bLoops (l : ℝ → ℝ) : List ℝ → List ℝ × Option Bool
  | [] => ([], some true)
  | z :: zs =>
    match bLoop (l z) 6 15 with
    | .value b => ((b :: (bLoops l zs).1), (bLoops l zs).2)
    | .zero => ([], some false)
    | .infinite => ([], none)

open Classical in
/-- `Moliere::GetPrefactor` (Moliere.cxx 15-68) for energies above the mass: the object afterwards and the result, 0 for none. For a
grammage of 0 (or negative) the logarithm is -∞ (or a NaN) and the result is 0. `none`: not finite, or (no components) undefined
behaviour. -/
noncomputable def Moliere.getPrefactor (s : Moliere) (ei grammage : ℝ) : Moliere × Option ℝ :=
  let chi := chiCSqOf s.mass s.zSqA ei grammage
  if chi ≤ 0 then ({ s with chiCSq := chi }, some 0)
  else
    let r := bLoops (fun z => Real.log (chi / chiASq s.mass ei z)) s.zs
    let s' := { s with chiCSq := chi, bs := r.1 ++ s.bs.drop r.1.length }
    match r.2 with
    | none => (s', none)
    | some false => (s', some 0)
    | some true => (s', (s'.bs[s.maxIndex]?).map fun b => Real.sqrt (chi * b))

/-- The four functions that `MoliereInterpol` replaces, and the error function. -/
structure MoliereFns where
  f1 : ℝ → ℝ
  f2 : ℝ → ℝ
  g1 : ℝ → ℝ
  g2 : ℝ → ℝ
  erf : ℝ → ℝ

/-- The tables of Coefficients.cxx. -/
structure MoliereTables where
  c1 : ℕ → ℝ
  c2 : ℕ → ℝ
  c2large : ℕ → ℝ
  s2large : ℕ → ℝ
  C1large : ℕ → ℝ

/-- Horner's method with the coefficients `a n`, …, `a 0`. -/
noncomputable def hornerM (a : ℕ → ℝ) (x : ℝ) : ℕ → ℝ → ℝ
  | 0, sum => sum
  | p + 1, sum => hornerM a x p (sum * x + a p)

open Classical in
/-- `f1M` (Moliere.cxx 225-239). -/
noncomputable def f1M (T : MoliereTables) (x : ℝ) : ℝ :=
  if 12 < x then 0.5 * Real.sqrt Real.pi / (x ^ (1.5 : ℝ) * (1 - 4.5 / x) ^ (2 / 3 : ℝ)) else hornerM T.c1 x 69 (T.c1 69)

open Classical in
/-- `f2Mlarge` (Moliere.cxx 243-262). -/
noncomputable def f2Mlarge (T : MoliereTables) (x : ℝ) : ℝ :=
  if 4.25 * 4.25 ≤ x ∧ x ≤ 6.5 * 6.5 then
    0.00013567765224589459194769192063035 * x + -0.0022635502525409950842771866774683 * Real.sqrt x +
      0.0098037758070269476889935233998585
  else ((List.range 11).map fun i => T.c2large (i + 2) * (0.5 * Real.log x + T.s2large (i + 2)) * x ^ (-((i + 2 : ℕ) + 0.5 : ℝ))).sum

open Classical in
/-- `f2M` (Moliere.cxx 264-276). -/
noncomputable def f2M (T : MoliereTables) (x : ℝ) : ℝ :=
  if 4.25 * 4.25 < x then f2Mlarge T x else hornerM T.c2 x 69 (T.c2 69)

/-- `F1Mlarge` (Moliere.cxx 298-307). -/
noncomputable def F1Mlarge (T : MoliereTables) (x : ℝ) : ℝ :=
  (List.range 14).foldr (fun p sum => T.C1large p + sum / x) (T.C1large 14)

open Classical in
/-- `F1M` (Moliere.cxx 309-321). -/
noncomputable def F1M (T : MoliereTables) (x : ℝ) : ℝ :=
  if 12 < x then F1Mlarge T x
  else hornerM (fun p => T.c1 p / (2 * p + 1)) x 69 (T.c1 69 / (2 * 69 + 1)) * Real.sqrt (max x 0)

open Classical in
/-- `F2Mlarge` (Moliere.cxx 325-345). -/
noncomputable def F2Mlarge (T : MoliereTables) (x : ℝ) : ℝ :=
  if 4.25 * 4.25 ≤ x ∧ x ≤ 6.5 * 6.5 then
    -0.00026360133958801203364619158975302 * x + 0.0039965027465457608410459577896745 * Real.sqrt x +
      -0.016305842044996649714549974419242
  else ((List.range 11).map fun i => -0.5 * T.c2large (i + 2) / (i + 2 : ℕ) *
    (0.5 / (i + 2 : ℕ) + 0.5 * Real.log x + T.s2large (i + 2)) * x ^ (-((i + 2 : ℕ) : ℝ))).sum

open Classical in
/-- `F2M` (Moliere.cxx 347-358). -/
noncomputable def F2M (T : MoliereTables) (x : ℝ) : ℝ :=
  if 4.25 * 4.25 < x then F2Mlarge T x
  else hornerM (fun p => T.c2 p / (2 * p + 1)) x 69 (T.c2 69 / (2 * 69 + 1)) * Real.sqrt (max x 0)

/-- The functions of `Moliere`. -/
noncomputable def moliereFns (T : MoliereTables) (erf : ℝ → ℝ) : MoliereFns := ⟨f1M T, f2M T, F1M T, F2M T, erf⟩

open Classical in
/-- The functions of `MoliereInterpol` (Moliere.cxx 441-467) for the values of its tables: up to 20 the tables are used. -/
noncomputable def interpolFns (tab fns : MoliereFns) : MoliereFns :=
  let pick (a b : ℝ → ℝ) (x : ℝ) := if 20 < x then b x else a x
  ⟨pick tab.f1 fns.f1, pick tab.f2 fns.f2, pick tab.g1 fns.g1, pick tab.g2 fns.g2, fns.erf⟩

/-- `Moliere::f` (Moliere.cxx 280-292). -/
noncomputable def Moliere.dens (M : MoliereFns) (s : Moliere) (theta : ℝ) : ℝ :=
  ((s.weightZZ.zip s.bs).map fun wb =>
    let x := theta * theta / (s.chiCSq * wb.2)
    wb.1 / Real.sqrt (s.chiCSq * wb.2 * Real.pi) * (Real.exp (-x) + M.f1 x / wb.2 + M.f2 x / (wb.2 * wb.2))).sum * s.weightZZSum

open Classical in
/-- `Moliere::F` (Moliere.cxx 362-376). -/
noncomputable def Moliere.dist (M : MoliereFns) (s : Moliere) (theta : ℝ) : ℝ :=
  let y1 := ((s.weightZZ.zip s.bs).map fun wb =>
    let x := theta * theta / (s.chiCSq * wb.2)
    wb.1 * (0.5 * M.erf (Real.sqrt (max x 0)) + Real.sqrt (1 / Real.pi) * (M.g1 x / wb.2 + M.g2 x / (wb.2 * wb.2)))).sum
  if theta < 0 then -1 * y1 * s.weightZZSum else y1 * s.weightZZSum

open Classical in
/-- The loop of `GetRandom` (Moliere.cxx 400-413), `n` rounds left until the limit of 100; `none`: division by the density 0. With
both values 0 the quotient is a NaN and the loop ends, with only the new one 0 it is infinite. -/
noncomputable def Moliere.randomLoop (M : MoliereFns) (s : Moliere) (rnd : ℝ) : ℕ → ℝ → Option ℝ
  | 0, theta => some theta
  | n + 1, theta =>
    if s.dens M theta = 0 then none
    else
      let next := theta - (s.dist M theta - rnd) / s.dens M theta
      if n = 0 then some next
      else if next = 0 then (if theta = 0 then some 0 else s.randomLoop M rnd n next)
      else if |(theta - next) / next| > 1 / 10000 then s.randomLoop M rnd n next
      else some next

/-- `Moliere::GetRandom` (Moliere.cxx 382-414). -/
noncomputable def Moliere.getRandom (M : MoliereFns) (ppf : ℝ → Option ℝ) (s : Moliere) (pre rnd : ℝ) : Option ℝ :=
  (ppf rnd).bind fun n => s.randomLoop M (rnd - 0.5) 100 (pre * n / Real.sqrt 2)

open Classical in
/-- `Moliere::CalculateRandomAngle` (Moliere.cxx 70-94): the object afterwards and the offsets. -/
noncomputable def Moliere.randomAngle (M : MoliereFns) (ppf : ℝ → Option ℝ) (s : Moliere) (grammage ei : ℝ) (r : Fin 4 → ℝ) :
    Moliere × Option ScatteringOffset :=
  match s.getPrefactor ei grammage with
  | (s', none) => (s', none)
  | (s', some pre) =>
    if pre = 0 then (s', some ⟨0, 0, 0, 0⟩)
    else (s', do
      let a1 ← s'.getRandom M ppf pre (r 0)
      let a2 ← s'.getRandom M ppf pre (r 1)
      let b1 ← s'.getRandom M ppf pre (r 2)
      let b2 ← s'.getRandom M ppf pre (r 3)
      pure (offsetsOf a1 a2 b1 b2))

/-! ## Comparison -/

/-- A parametrization of multiple scattering; the flags for the derived classes. -/
inductive MsObj where
  | highland (integral : Bool) (h : Highland)
  | moliere (interpol : Bool) (s : Moliere)

/-- The mass. -/
def MsObj.mass : MsObj → ℝ
  | .highland _ h => h.mass
  | .moliere _ s => s.mass

open Classical in
/-- `operator==` (Parametrization.cxx 30-36) with `Highland::compare` (Highland.cxx 32-41) and `Moliere::compare` (Moliere.cxx
187-212). `none`: undefined behaviour, a null pointer is dereferenced. -/
noncomputable def MsObj.equal (a b : MsObj) : Option Bool :=
  if a.mass ≠ b.mass then some false
  else match a, b with
    | .highland _ h, .highland _ k => some (decide (h.radiationLength = k.radiationLength ∧ h.charge = k.charge))
    | .highland _ _, .moliere _ _ => none
    | .moliere _ _, .highland _ _ => some false
    | .moliere _ s, .moliere _ t => some (decide (s.zs.length = t.zs.length ∧ s.zSqA = t.zSqA ∧ s.zs = t.zs ∧
        s.weightZZ = t.weightZZ ∧ s.weightZZSum = t.weightZZSum ∧ s.maxIndex = t.maxIndex ∧ s.chiCSq = t.chiCSq ∧ s.bs = t.bs))

end Proposal
