import Verif.Model.DiffCross
import Verif.Model.Dilog

/-!
# Production of electron pairs by photons

`/repo/src/PROPOSAL/detail/PROPOSAL/crosssection/parametrization/PhotoPairProduction.cxx`, as formulas over the real numbers. The
table of Storm and Israel and the numerical integration are parameters. `none` stands for a NaN or an infinity.
The functions shared with bremsstrahlung (`Bremsstrahlung.cxx`) are written once; both places are cited.
-/

namespace Proposal

/-- The structure functions of Butcher and Messel: `phi1` and `phi2` (PhotoPairProduction.cxx 142-151, Bremsstrahlung.cxx 496-505). -/
noncomputable def butcherMessel (x : ℝ) : ℝ × ℝ :=
  if x ≤ 1 then
    let aux := x * x
    (20.867 - 3.242 * x + 0.625 * aux, 20.029 - 1.930 * x - 0.086 * aux)
  else
    let phi1 := 21.12 - 4.184 * Real.log (x + 0.952)
    (phi1, phi1)

/-- The Coulomb correction (PhotoPairProduction.cxx 153-157, Bremsstrahlung.cxx 229-233, 507-511). -/
noncomputable def coulombCorrection (Z : ℝ) : ℝ :=
  let aux := ALPHA * Z
  let aux := aux * aux
  aux * (1 / (1 + aux) + 0.20206 + aux * (-0.0369 + aux * (0.0083 - 0.002 * aux)))

/-- The radiation logarithms `Lr` and `Lp` (PhotoPairProduction.cxx 159-190, Bremsstrahlung.cxx 236-265, 516-545). -/
noncomputable def radiationLogs (Z : ℝ) : ℝ × ℝ :=
  let Z3 := Z ^ (-1 / 3 : ℝ)
  match ⌊Z + 0.5⌋ with
  | 1 => (5.31, 6.144)
  | 2 => (4.79, 5.621)
  | 3 => (4.74, 5.805)
  | 4 => (4.71, 5.924)
  | _ => (Real.log (184.15 * Z3), Real.log (1194 * Z3 * Z3))

open Classical in
/-- `PhotoPairKochMotz::DifferentialCrossSectionWithoutA` (PhotoPairProduction.cxx 132-207); `lpm` is the suppression factor
at an energy and a fraction, if there is one. -/
noncomputable def kochMotzWithoutA (lpm : Option (ℝ → ℝ → ℝ)) (c : Component) (E v : ℝ) : ℝ :=
  let Z := c.nucCharge
  let Z3 := Z ^ (-1 / 3 : ℝ)
  let logZ := Real.log Z
  let δ := ME * ME / (2 * E * v * (1 - v))
  let x := 136 * Z3 * 2 * δ / ME
  let φ := butcherMessel x
  let fc := coulombCorrection Z
  let L := radiationLogs Z
  let ξ := L.2 / (L.1 - fc)
  let fc := if E < 50 then 0 else fc
  let result := Z * (Z + ξ)
  let result := result * (RE * RE * ALPHA * ((2 * v * v - 2 * v + 1) * (φ.1 - 4 / 3 * logZ - 4 * fc) +
    2 / 3 * v * (1 - v) * (φ.2 - 4 / 3 * logZ - 4 * fc)))
  let result := match lpm with
    | some s => result * s E v
    | none => result
  result * NAvogadro / c.atomicNum

open Classical in
/-- `PhotoPairKochMotz::DifferentialCrossSection` (PhotoPairProduction.cxx 114-130); `table` is the interpolated total cross section
in barn. -/
noncomputable def kochMotz (table : ℝ → ℝ → ℝ) (integral : (ℝ → ℝ) → ℝ → ℝ → ℝ) (lpm : Option (ℝ → ℝ → ℝ)) (c : Component)
    (E v : ℝ) : Option ℝ :=
  if E > 50 then some (kochMotzWithoutA lpm c E v)
  else
    let lim := limPhotoPair E
    let integrand := fun v => kochMotzWithoutA lpm c E v / NAvogadro * c.atomicNum / 1e-24
    let dNdx := integral integrand lim.vMin lim.vMax
    if dNdx = 0 then none
    else
      let A := table c.nucCharge E / dNdx
      some (A * kochMotzWithoutA lpm c E v)

/-- The structure functions of Tsai. -/
structure TsaiFunctions where
  phi1 : ℝ
  phi2 : ℝ
  psi1 : ℝ
  psi2 : ℝ

/-- The structure functions of hydrogen and helium (PhotoPairProduction.cxx 224-252), `C` as in line 231. -/
noncomputable def tsaiLight (Z η C : ℝ) : TsaiFunctions where
  phi1 := 4 / 3 * Real.log Z + 4 * Real.log (1 / (2 * η * ALPHA)) + 13 / 3 - 2 * Real.log (1 + C ^ 2) -
    (13 / 2) * C * Real.arctan (1 / C) + (1 / 6) / (1 + (C ^ 2)⁻¹)
  phi2 := 4 / 3 * Real.log Z + 4 * Real.log (1 / (2 * η * ALPHA)) + 11 / 3 - 2 * Real.log (1 + C ^ 2) +
    25 * C ^ 2 * (1 - C * Real.arctan (1 / C)) - 14 * C ^ 2 * Real.log (1 + (C ^ 2)⁻¹)
  psi1 := 8 / 3 * Real.log Z + 4 * Real.log (1 / (2 * η * ALPHA)) + 23 / 3 - 2 * Real.log (1 + C ^ 2) -
    17.5 * C * Real.arctan (1 / C) + 8 * C ^ 2 * Real.log (1 + (C ^ 2)⁻¹) - 1 / 6 / (1 + (C ^ 2)⁻¹)
  psi2 := 8 / 3 * Real.log Z + 4 * Real.log (1 / (2 * η * ALPHA)) + 21 / 3 - 2 * Real.log (1 + C ^ 2) -
    105 * C ^ 2 * (1 - C * Real.arctan (1 / C)) + 50 * C ^ 2 * Real.log (1 + (C ^ 2)⁻¹) -
    24 * C ^ 2 * (-Real.log (C ^ 2) * Real.log (1 + (C ^ 2)⁻¹) + dilog (1 + (C ^ 2)⁻¹) - dilog 1)

/-- The structure functions of lithium and beryllium (PhotoPairProduction.cxx 254-293) with the screening radii `a` and `ap`. -/
noncomputable def tsaiMiddle (Z a ap δ : ℝ) : TsaiFunctions :=
  let b := δ * a
  let bp := δ * ap
  { phi1 := 2 * (1 + Real.log (a ^ 2 * Z ^ (2 / 3 : ℝ) * ME ^ 2)) - 2 * Real.log (1 + b ^ 2) - 4 * b * Real.arctan (1 / b)
    phi2 := 2 * (2 / 3 + Real.log (a ^ 2 * Z ^ (2 / 3 : ℝ) * ME ^ 2)) - 2 * Real.log (1 + b ^ 2) +
      8 * b ^ 2 * (1 - b * Real.arctan (1 / b) - 0.75 * Real.log (1 + (b ^ 2)⁻¹))
    psi1 := 2 * (1 + Real.log (ap ^ 2 * Z ^ (4 / 3 : ℝ) * ME ^ 2)) - 2 * Real.log (1 + bp ^ 2) - 4 * bp * Real.arctan (1 / b)
    psi2 := 2 * (2 / 3 + Real.log (ap ^ 2 * Z ^ (4 / 3 : ℝ) * ME ^ 2)) - 2 * Real.log (1 + bp ^ 2) +
      8 * bp ^ 2 * (1 - b * Real.arctan (1 / bp) - 0.75 * Real.log (1 + (bp ^ 2)⁻¹)) }

/-- The structure functions of heavier elements (PhotoPairProduction.cxx 294-312). -/
noncomputable def tsaiHeavy (Z δ : ℝ) : TsaiFunctions :=
  let γ := 200 * δ / (ME * Z ^ (1 / 3 : ℝ))
  let ε := 200 * δ / (ME * Z ^ (2 / 3 : ℝ))
  let phi1 := 20.863 - 2 * Real.log (1 + (0.55846 * γ) ^ 2) - 4 * (1 - 0.6 * Real.exp (-0.9 * γ) - 0.4 * Real.exp (-1.5 * γ))
  let psi1 := 28.340 - 2 * Real.log (1 + (3.621 * ε) ^ 2) - 4 * (1 - 0.7 * Real.exp (-8 * ε) - 0.3 * Real.exp (-29.2 * ε))
  { phi1 := phi1
    phi2 := phi1 - 2 / 3 * 1 / (1 + 6.5 * γ + 6 * γ ^ 2)
    psi1 := psi1
    psi2 := psi1 - 2 / 3 * 1 / (1 + 40 * ε + 400 * ε ^ 2) }

/-- The structure functions at a momentum transfer (PhotoPairProduction.cxx 223-313). -/
noncomputable def tsaiFunctions (Z δ : ℝ) : TsaiFunctions :=
  if Z ≤ 2.5 then
    let η := if Z ≤ 1.5 then 1 else 1.6875
    tsaiLight Z η (δ / (2 * ALPHA * ME * η))
  else if Z ≤ 4.5 then
    if Z ≤ 3.5 then tsaiMiddle Z (100 * Z ^ (-1 / 3 : ℝ) / ME) (418.6 * Z ^ (-2 / 3 : ℝ) / ME) δ
    else tsaiMiddle Z (106 * Z ^ (-1 / 3 : ℝ) / ME) (571.4 * Z ^ (-2 / 3 : ℝ) / ME) δ
  else tsaiHeavy Z δ

/-- The Coulomb correction of Tsai (PhotoPairProduction.cxx 315-317). -/
noncomputable def tsaiCoulomb (Z : ℝ) : ℝ :=
  let z := (Z / 137) ^ 2
  1.202 * z - 1.0369 * z ^ 2 + 1.008 * z ^ 3 / (1 + z)

open Classical in
/-- `PhotoPairTsai::DifferentialCrossSection` (PhotoPairProduction.cxx 209-338). -/
noncomputable def photoPairTsai (lpm : Option (ℝ → ℝ → ℝ)) (c : Component) (E x : ℝ) : Option ℝ :=
  let Z := c.nucCharge
  let logZ := Real.log Z
  let k := E
  let δ := ME ^ 2 / (2 * k * x * (1 - x))
  let F := tsaiFunctions Z δ
  let f := tsaiCoulomb Z
  let aux := (4 / 3 * x ^ 2 - 4 / 3 * x + 1) * (Z ^ 2 * (F.phi1 - 4 / 3 * logZ - 4 * f) + Z * (F.psi1 - 8 / 3 * logZ)) -
    2 / 3 * x * (1 - x) * (Z ^ 2 * (F.phi1 - F.phi2) + Z * (F.psi1 - F.psi2))
  let aux := aux * (ALPHA * RE ^ 2 / k)
  let p := Real.sqrt ((x * k) ^ 2 - ME ^ 2)
  if (x * k) ^ 2 ≤ ME ^ 2 ∨ k * x * (1 - x) = 0 then none
  else
    let aux := aux * (x * k ^ 2 / p)
    let aux := match lpm with
      | some s => aux * s E x
      | none => aux
    some (max (NAvogadro / c.atomicNum * aux) 0)

end Proposal
