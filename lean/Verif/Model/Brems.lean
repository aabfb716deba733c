import Verif.Model.PhotonPair
import Verif.Model.Kinematics

/-!
# Bremsstrahlung

`/repo/src/PROPOSAL/detail/PROPOSAL/crosssection/parametrization/Bremsstrahlung.cxx`, as formulas over the real numbers, for
`0 < v < 1`. The numerical integration, the interpolated correction table of `BremsElectronScreening` and the factor of the effect of
Landau, Pomeranchuk and Migdal are parameters.
-/

namespace Proposal

/-- The least momentum transfer `delta` (Bremsstrahlung.cxx 133, 166, 302, 371, 493). -/
noncomputable def bremsDelta (m E v : ℝ) : ℝ := m * m * v / (2 * E * (1 - v))

/-- `Bremsstrahlung::DifferentialCrossSection` (Bremsstrahlung.cxx 94-113) with the value of `CalculateParametrization`; `lpm` is the
suppression factor at an energy and a fraction, if there is one. -/
noncomputable def brems (lpm : Option (ℝ → ℝ → ℝ)) (param : ℝ → ℝ → ℝ) (m z : ℝ) (c : Component) (E v : ℝ) : ℝ :=
  let result := param E v
  let aux := 2 * z * z * (ME / m) * RE * c.nucCharge
  let aux := aux * (aux * (ALPHA / v) * result)
  let aux := match lpm with
    | some s => aux * s E v
    | none => aux
  NAvogadro / c.atomicNum * aux

open Classical in
/-- `BremsPetrukhinShestakov::CalculateParametrization` (Bremsstrahlung.cxx 126-150). -/
noncomputable def bremsPetrukhin (m : ℝ) (c : Component) (E v : ℝ) : ℝ :=
  let Z3 := c.nucCharge ^ (-1 / 3 : ℝ)
  let δ := bremsDelta m E v
  let Fd := 189 * Z3 / ME
  let Fd := m * Fd / (1 + SQRTE * δ * Fd)
  let Fd := if 10 < c.nucCharge then Fd * ((2 / 3) * Z3) else Fd
  ((4 / 3) * (1 - v) + v * v) * Real.log Fd

/-- `maxV`, below which scattering off atomic electrons counts (Bremsstrahlung.cxx 178-181, 387-390). -/
noncomputable def bremsInelasticMax (m E : ℝ) : ℝ :=
  let p := Real.sqrt (max ((E - m) * (E + m)) 0)
  ME * (E - m) / (E * (E - p + ME))

open Classical in
/-- `BremsKelnerKokoulinPetrukhin::CalculateParametrization` (Bremsstrahlung.cxx 157-208). -/
noncomputable def bremsKelner (m : ℝ) (c : Component) (E v : ℝ) : ℝ :=
  let δ := bremsDelta m E v
  let Z3 := c.nucCharge ^ (-1 / 3 : ℝ)
  let Dn := 1.54 * c.atomicNum ^ (0.27 : ℝ)
  let atomicElastic := Real.log (1 + ME / (δ * SQRTE * c.logConstant * Z3))
  let nuclearElastic := Real.log (Dn / (1 + δ * (Dn * SQRTE - 2) / m))
  let atomicInelastic := if v < bremsInelasticMax m E then
      Real.log (m / (δ * (δ * m / (ME * ME) + SQRTE))) - Real.log (1 + ME / (δ * SQRTE * c.bPrime * Z3 * Z3))
    else 0
  let nuclearInelastic := if c.nucCharge ≠ 1 then nuclearElastic else 0
  ((4 / 3) * (1 - v) + v * v) * (Real.log (m / δ) - 0.5 - atomicElastic - nuclearElastic +
    (nuclearInelastic + atomicInelastic) / c.nucCharge)

/-- `BremsCompleteScreening::CalculateParametrization` (Bremsstrahlung.cxx 216-273); neither the particle nor the energy occurs. -/
noncomputable def bremsComplete (c : Component) (_E v : ℝ) : ℝ :=
  let fZ := coulombCorrection c.nucCharge
  let L := radiationLogs c.nucCharge
  ((4 / 3 * (1 - v) + v * v) * (c.nucCharge * (L.1 - fZ) + L.2) + 1 / 9 * (1 - v) * (c.nucCharge + 1)) / c.nucCharge

open Classical in
/-- `BremsAndreevBezrukovBugaev::CalculateParametrization` (Bremsstrahlung.cxx 280-343). -/
noncomputable def bremsAndreev (m : ℝ) (c : Component) (E v : ℝ) : ℝ :=
  let Z := c.nucCharge
  let Z3 := Z ^ (-1 / 3 : ℝ)
  let a1 := 184.15 * Z3 / (SQRTE * ME)
  let a2 := 1194 * Z3 * Z3 / (SQRTE * ME)
  let qc := 1.9 * MMU * Z3
  let aux := 2 * m / qc
  let ζ := Real.sqrt (1 + aux * aux)
  let δ := bremsDelta m E v
  let x1 := a1 * δ
  let x2 := a2 * δ
  let d : ℝ × ℝ := if Z = 1 then (0, 0)
    else
      let aux1 := Real.log (m / qc)
      let aux2 := 0.5 * ζ * Real.log ((ζ + 1) / (ζ - 1))
      (aux1 + aux2, aux1 + 0.5 * ((3 - ζ * ζ) * aux2 + aux * aux))
  let aux1 := Real.log (m * a1 * (m * a1) / (1 + x1 * x1))
  let aux2 := Real.log (m * a2 * (m * a2) / (1 + x2 * x2))
  let ψ1 := 0.5 * ((1 + aux1) + (1 + aux2) / Z)
  let ψ2 := 0.5 * ((2 / 3 + aux1) + (2 / 3 + aux2) / Z)
  let aux1 := x1 * Real.arctan (1 / x1)
  let aux2 := x2 * Real.arctan (1 / x2)
  let ψ1 := ψ1 - (aux1 + aux2 / Z)
  let ψ2 := ψ2 + 2 * (x1 * x1) * (1 - aux1 + 0.75 * Real.log (x1 * x1 / (1 + x1 * x1)))
  let ψ2 := ψ2 + 2 * (x2 * x2) * (1 - aux2 + 0.75 * Real.log (x2 * x2 / (1 + x2 * x2))) / Z
  let ψ1 := ψ1 - d.1
  let ψ2 := ψ2 - d.2
  let result := (2 - 2 * v + v * v) * ψ1 - (2 / 3) * (1 - v) * ψ2
  if result < 0 then 0 else result

open Classical in
/-- `s_rad`, the radiative corrections fitted in four pieces (Bremsstrahlung.cxx 349-354, 402-421). The third condition of the code,
`v >= 0.01`, is met whenever it is reached. -/
noncomputable def bremsRadiative (v : ℝ) : ℝ :=
  if v < 0 ∨ 1 < v then 0
  else if v < 0.02 then -0.00349 + 148.84 * v + -987.531 * v * v
  else if 0.02 ≤ v ∧ v < 0.1 then 0.1642 + 132.573 * v + -585.361 * v * v + 1407.77 * v * v * v
  else if 0.01 ≤ v ∧ v < 0.9 then
    let s := -2.8922 + -19.0156 * v + 57.698 * v * v
    let tmp := Real.log (1 - v)
    s + (-63.418 * v * Real.log v + 14.1166 * tmp + 1.84206 * tmp * tmp)
  else
    let s := 2134.19 + 581.823 * v + -2708.85 * v * v
    let tmp := Real.log (1 - v)
    s + (4767.05 * v * Real.log v + 1.52918 * tmp + 0.361933 * tmp * tmp)

open Classical in
/-- `BremsSandrockSoedingreksoRhode::CalculateParametrization` (Bremsstrahlung.cxx 345-427). -/
noncomputable def bremsSandrock (m : ℝ) (c : Component) (E v : ℝ) : ℝ :=
  let Z := c.nucCharge
  let Z13 := Z ^ (-1 / 3 : ℝ)
  let Dn := 1.54 * c.atomicNum ^ (0.27 : ℝ)
  let μ := m / (MMU * Real.exp 1 / Dn)
  let ρ := Real.sqrt (1 + 4 * μ * μ)
  let logρ := Real.log ((ρ + 1) / (ρ - 1))
  let Δ1 := Real.log μ + 0.5 * ρ * logρ
  let Δ2 := Real.log μ + 0.25 * (3 * ρ - ρ * ρ * ρ) * logρ + 2 * μ * μ
  let δ := bremsDelta m E v
  let φ1 := Real.log (c.logConstant * Z13 * (m / ME) / (1 + c.logConstant * Z13 * Real.exp 0.5 * δ / ME))
  let φ2 := Real.log (c.logConstant * Z13 * Real.exp (-1 / 6) * (m / ME) / (1 + c.logConstant * Z13 * Real.exp (1 / 3) * δ / ME))
  let φ : ℝ × ℝ := if Z = 1 then (φ1 - Δ1, φ2 - Δ2) else (φ1 - Δ1 * (1 - 1 / Z), φ2 - Δ2 * (1 - 1 / Z))
  let atomic := if v < bremsInelasticMax m E then
      (4 / 3 * (1 - v) + v * v) * (Real.log (m / δ / (m * δ / (ME * ME) + SQRTE)) -
        Real.log (1 + ME / (δ * c.bPrime * Z13 * Z13 * SQRTE)))
    else 0
  max (((2 - 2 * v + v * v) * φ.1 - 2 / 3 * (1 - v) * φ.2) + 1 / Z * atomic + 0.25 * ALPHA * φ.1 * bremsRadiative v) 0

open Classical in
/-- `BremsElectronScreening::CalculateParametrization` (Bremsstrahlung.cxx 483-564); `table` is `InterpolateArray` at the logarithm
of the charge and the kinetic energy. -/
noncomputable def bremsElectron (table : ℝ → ℝ → ℝ) (m : ℝ) (c : Component) (E v : ℝ) : ℝ :=
  let Z3 := c.nucCharge ^ (-1 / 3 : ℝ)
  let logZ := Real.log c.nucCharge
  let δ := bremsDelta m E v
  let x := 136 * Z3 * 2 * δ / ME
  let φ := butcherMessel x
  let fc := coulombCorrection c.nucCharge
  let L := radiationLogs c.nucCharge
  let ξ := L.2 / (L.1 - fc)
  let A := if E < 50 then table logZ (E - m) else 1
  let fc := if E < 50 then 0 else fc
  let result := A * c.nucCharge * (c.nucCharge + ξ)
  result * ((2 - 2 * v + v * v) * (φ.1 - 4 / 3 * logZ - 4 * fc) - 2 / 3 * (1 - v) * (φ.2 - 4 / 3 * logZ - 4 * fc))

/-- `BremsElectronScreening::DifferentialCrossSection` (Bremsstrahlung.cxx 467-481): the prefactor lacks the charge of the nucleus, which
is part of the formula. -/
noncomputable def bremsElectronDiff (lpm : Option (ℝ → ℝ → ℝ)) (table : ℝ → ℝ → ℝ) (m z : ℝ) (c : Component) (E v : ℝ) : ℝ :=
  let result := bremsElectron table m c E v
  let aux := z * z * (ME / m) * RE
  let aux := aux * (aux * (ALPHA / v) * result)
  let aux := match lpm with
    | some s => aux * s E v
    | none => aux
  NAvogadro / c.atomicNum * aux

/-! ## The effect of Landau, Pomeranchuk and Migdal -/

/-- The arguments `BremsLPM` keeps (Bremsstrahlung.cxx 568-574, 597-598). -/
structure LpmData where
  mass : ℝ
  molDensity : ℝ
  sumCharge : ℝ
  eLpm : ℝ

/-- The constructor of `BremsLPM` (Bremsstrahlung.cxx 568-599): `loss` is the integral of `FunctionToDEdxIntegral` over the kinematic
limits of a component at 1e14 MeV. -/
noncomputable def bremsLpm (loss : Component → ℝ) (m : ℝ) (M : Med) : LpmData :=
  let sum := sumOver M.components fun c => loss c / (M.sumNucleons / (c.atomInMolecule * c.atomicNum))
  let sum := sum * M.massDensity
  let eLpm := ALPHA * m
  ⟨m, M.molDensity, M.sumCharge, eLpm * (2 * eLpm / (Real.pi * ME * RE * sum))⟩

open Classical in
/-- `fi` (Bremsstrahlung.cxx 637-645). -/
noncomputable def migdalPhi (s : ℝ) : ℝ :=
  let s2 := s * s
  if s < 1.54954 then
    1 - Real.exp (-6 * s * (1 + (3 - Real.pi) * s) + s2 * s / (0.623 + 0.796 * s + 0.658 * s2))
  else 1 - 0.012 / (s2 * s2)

open Classical in
/-- `G` (Bremsstrahlung.cxx 647-661). -/
noncomputable def migdalG (s : ℝ) : ℝ :=
  let s2 := s * s
  if s < 0.710390 then
    let ps := 1 - Real.exp (-4 * s - 8 * s2 / (1 + 3.936 * s + 4.97 * s2 - 0.05 * s2 * s + 7.50 * s2 * s2))
    3 * ps - 2 * migdalPhi s
  else if s < 0.904912 then 36 * s2 / (36 * s2 + 1)
  else 1 - 0.022 / (s2 * s2)

/-- `SQRT2` (Constants.cxx 10). -/
noncomputable def SQRT2 : ℝ := 1.414213562373095

/-- `s1` (Bremsstrahlung.cxx 610-615). -/
noncomputable def lpmS1 (m : ℝ) (c : Component) : ℝ :=
  let Z3 := c.nucCharge ^ (-1 / 3 : ℝ)
  let Dn := 1.54 * c.atomicNum ^ (0.27 : ℝ)
  let nuc := m / MMU * Dn
  let s1 := ME / (m * Z3 * c.logConstant)
  s1 * s1 * (1 + nuc * nuc) * SQRT2

open Classical in
/-- `xi` (Bremsstrahlung.cxx 621-629). -/
noncomputable def lpmXi (s1 sp : ℝ) : ℝ :=
  let h := Real.log sp / Real.log s1
  if sp < s1 then 2
  else if sp < 1 then 1 + h - 0.08 * (1 - h) * (1 - (1 - h) * (1 - h)) / Real.log s1
  else 1

/-- `BremsLPM::suppression_factor` (Bremsstrahlung.cxx 601-667); `ρ` is `density_correction`. -/
noncomputable def bremsSuppression (D : LpmData) (E v : ℝ) (c : Component) (ρ : ℝ) : ℝ :=
  let s1 := lpmS1 D.mass c
  let sp := 0.125 * Real.sqrt (D.eLpm * v / (ρ * E * (1 - v)))
  let ξ := lpmXi s1 sp
  let Γ := RE * ME / (ALPHA * D.mass * v)
  let Γ := 1 + 4 * Real.pi * D.sumCharge * RE * Γ * Γ * D.molDensity * ρ
  let s := sp / Real.sqrt ξ * Γ
  ((ξ / 3) * ((v * v) * migdalG s / (Γ * Γ) + 2 * (1 + (1 - v) * (1 - v)) * migdalPhi s / Γ)) / ((4 / 3) * (1 - v) + v * v)

end Proposal
