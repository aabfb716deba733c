import Verif.Model.Kinematics
import Verif.Model.Medium
import Verif.Model.Secondaries
import Verif.Model.RateIntegral

/-!
# Cross sections of electrons, photons and ionization

The functions `DifferentialCrossSection` and `CalculatedNdx` of
`/repo/src/PROPOSAL/detail/PROPOSAL/crosssection/parametrization/Compton.cxx`, `Annihilation.cxx` and `Ionization.cxx`. They are
formulas over the real numbers; a division by zero, a logarithm or a root outside its domain is not modelled here unless `none`
is returned. `PI` and `LOG10` of Constants.cxx stand for the exact numbers.
-/

namespace Proposal

/-- `IONK` (Constants.cxx 52-53). -/
noncomputable def IONK : ℝ := 0.307075

/-- `calculate_proton_massnumber_fraction` (Components.cxx 271-281). -/
noncomputable def protonFraction (cs : List Component) : ℝ :=
  (sumOver cs fun c => c.atomInMolecule * c.nucCharge) / (sumOver cs fun c => c.atomInMolecule * c.atomicNum)

/-! ## Compton scattering -/

/-- `ComptonKleinNishina::DifferentialCrossSection` (Compton.cxx 36-58). -/
noncomputable def kleinNishina (c : Component) (E v : ℝ) : ℝ :=
  let kp := E / ME
  let C1 := kp ^ (-2 : ℝ)
  let C2 := 1 - 2 * (1 + kp) * C1
  let C3 := (1 + 2 * kp) * C1
  let ε := 1 - v
  let aux := (C1 / ε + C2) / ε + C3 + ε
  let aux := aux / E
  let aux := aux * (Real.pi * RE ^ 2 * ME)
  NAvogadro / c.atomicNum * c.nucCharge * aux

/-! ## Annihilation -/

/-- `weight_component` (CrossSection.h 67-70) with `GetSumNucleons`. -/
noncomputable def weightOf (M : Med) (c : Component) : ℝ := M.sumNucleons / (c.atomInMolecule * c.atomicNum)

/-- `AnnihilationHeitler::CalculatedNdx` of a target (Annihilation.cxx 34-48), `m` is the mass of the particle. The target is
the component itself instead of its hash. -/
noncomputable def heitlerRate (m : ℝ) (M : Med) (c : Component) (E : ℝ) : ℝ :=
  if E ≤ m then 0
  else
    let γ := E / m
    let aux := (γ * γ + 4 * γ + 1) / (γ * γ - 1) * Real.log (γ + Real.sqrt (γ * γ - 1)) - (γ + 3) / Real.sqrt (γ * γ - 1)
    aux * (NAvogadro * c.nucCharge / c.atomicNum * Real.pi * RE * RE / (γ + 1) / weightOf M c)

/-- `AnnihilationHeitler::CalculatedNdx` (Annihilation.cxx 50-65). -/
noncomputable def heitlerTotal (m : ℝ) (M : Med) (E : ℝ) : ℝ := sumOver M.components fun c => heitlerRate m M c E

/-! ## Ionization by electrons and positrons -/

/-- `Ionization::Delta` (Ionization.cxx 25-38). -/
noncomputable def densityDelta (M : Med) (β γ : ℝ) : ℝ :=
  let X := Real.log (β * γ) / Real.log 10
  if X < M.X0 then M.d0 * (10 : ℝ) ^ (2 * (X - M.X0))
  else if X < M.X1 then 2 * Real.log 10 * X + M.C + M.a * (M.X1 - X) ^ M.m
  else 2 * Real.log 10 * X + M.C

/-- `IonizBergerSeltzerBhabha::DifferentialCrossSection` (Ionization.cxx 255-290). -/
noncomputable def bhabha (m : ℝ) (M : Med) (E v : ℝ) : ℝ :=
  let γ := E / m
  let ε := (v * E) / (E - m)
  let β2 := 1 - 1 / (γ * γ)
  let y := 1 / (γ + 1)
  let B1 := 2 - y * y
  let B2 := (1 - 2 * y) * (3 + y * y)
  let B4 := (1 - 2 * y) ^ 3
  let B3 := (1 - 2 * y) ^ 2 + B4
  let aux := 1 / (β2 * ε * ε) - B1 / ε + B2 - B3 * ε + B4 * ε * ε
  let aux := aux * (1 / (γ - 1))
  let aux := aux * (1 / (1 - 1 / γ))
  let aux := aux * (2 * Real.pi * RE ^ 2 * NAvogadro * protonFraction M.components)
  max aux 0

/-- `IonizBergerSeltzerMoller::DifferentialCrossSection` (Ionization.cxx 383-415). -/
noncomputable def moller (m : ℝ) (M : Med) (E v : ℝ) : ℝ :=
  let γ := E / m
  let ε := (v * E) / (E - m)
  let β2 := 1 - 1 / (γ * γ)
  let aux := (γ - 1) ^ 2 / (γ * γ) + 1 / ε * (1 / ε - (2 * γ - 1) / (γ * γ)) +
    1 / (1 - ε) * (1 / (1 - ε) - (2 * γ - 1) / (γ * γ))
  let aux := aux / β2
  let aux := aux * (1 / (γ - 1))
  let aux := aux * (1 / (1 - 1 / γ))
  let aux := aux * (2 * Real.pi * RE ^ 2 * NAvogadro * protonFraction M.components)
  max aux 0

/-- `IonizBergerSeltzerBhabha::FunctionToDEdxIntegral` (Ionization.cxx 293-345); `cut` is `cuts_.GetCut(energy)`. -/
noncomputable def bhabhaLoss (m : ℝ) (M : Med) (cut E : ℝ) : ℝ :=
  let lim := limBhabha m E
  if lim.vMin = lim.vMax then 0
  else
    let vUp := min cut lim.vMax
    let Δ := min (lim.vMax * E / ME) (vUp * E / ME)
    let γ := E / ME
    let β2 := 1 - 1 / (γ * γ)
    let τ := γ - 1
    let y := 1 / (γ + 1)
    let aux := τ + 2 * Δ - (3 * Δ * Δ * y / 2) - (Δ - Δ ^ 3 / 3) * y * y -
      (Δ * Δ / 2 - τ * Δ ^ 3 / 3 + Δ ^ 4 / 4) * y ^ 3
    let aux := aux * (β2 / τ)
    let fplus := Real.log (τ * Δ) - aux
    let result := Real.log (2 * (τ + 2) / ((1e-6 * M.I) ^ 2 / ME))
    let result := result + fplus
    let result := result - densityDelta M (Real.sqrt β2) γ
    let result := result * (2 * Real.pi * RE * RE * ME / β2)
    let result := result * (NAvogadro * protonFraction M.components)
    max result 0

/-- `IonizBergerSeltzerMoller::FunctionToDEdxIntegral` (Ionization.cxx 418-467). -/
noncomputable def mollerLoss (m : ℝ) (M : Med) (cut E : ℝ) : ℝ :=
  let lim := limMoller m E
  if lim.vMax = lim.vMin then 0
  else
    let vUp := min cut lim.vMax
    let Δ := min (lim.vMax * E / ME) (vUp * E / ME)
    let γ := E / ME
    let β2 := 1 - 1 / (γ * γ)
    let τ := γ - 1
    let aux := Δ * Δ / 2 + (2 * τ + 1) * Real.log (1 - Δ / τ)
    let aux := aux / (γ * γ)
    let fminus := aux - 1 - β2 + Real.log ((τ - Δ) * Δ) + τ / (τ - Δ)
    let result := Real.log (2 * (τ + 2) / ((1e-6 * M.I) ^ 2 / ME))
    let result := result + fminus
    let result := result - densityDelta M (Real.sqrt β2) γ
    let result := result * (2 * Real.pi * RE * RE * ME / β2)
    let result := result * (NAvogadro * protonFraction M.components)
    max result 0

/-- `CrossSectionDEDXIntegral::Calculate` of these two (CrossSectionDEDXIntegral.cxx 82-104, 180-183): the function is divided by
the energy and multiplied with it. -/
noncomputable def electronDedx (loss : ℝ → ℝ → ℝ) (cut E : ℝ) : ℝ := loss cut E / E * E

/-! ## Ionization by heavy particles -/

/-- `beta` (Ionization.cxx 85-89, 127-129, 196-200). -/
noncomputable def ionizBeta (m E : ℝ) : ℝ := Real.sqrt (max ((E - m) * (E + m)) 0) / E

/-- `IonizBetheBlochRossi::CrossSectionWithoutInelasticCorrection` (Ionization.cxx 189-217), which `DifferentialCrossSection`
(lines 80-107) repeats; `z` is the charge of the particle. -/
noncomputable def rossiPlain (m z : ℝ) (M : Med) (E v : ℝ) : ℝ :=
  let γ := E / m
  let β := ionizBeta m E * ionizBeta m E
  let spin := v / (1 + 1 / γ)
  let spin := spin * (0.5 * spin)
  let result := 1 - β * (v / (limBetheBloch m M.I E).vMax) + spin
  result * (IONK * z * z * protonFraction M.components / (2 * β * E * v * v))

open Classical in
/-- `IonizBetheBlochRossi::InelCorrection` (Ionization.cxx 170-182), `none` for a logarithm of zero or of a negative number. -/
noncomputable def inelCorrection (m : ℝ) (M : Med) (E v : ℝ) : Option ℝ :=
  let γ := E / m
  let argA := 1 + 2 * v * E / ME
  let argB := (1 - v / (limBetheBloch m M.I E).vMax) / (1 - v)
  let argC := (2 * γ * (1 - v) * ME) / (m * v)
  if argA ≤ 0 ∨ argB ≤ 0 ∨ argC ≤ 0 then none
  else
    let a := Real.log argA
    let b := Real.log argB
    let c := Real.log argC
    let result := a * (2 * b + c) - b * b
    some (ALPHA / (2 * Real.pi) * result)

/-- `IonizBetheBlochRossi::DifferentialCrossSection` (Ionization.cxx 80-107). -/
noncomputable def rossi (m z : ℝ) (M : Med) (E v : ℝ) : Option ℝ :=
  (inelCorrection m M E v).map fun r => rossiPlain m z M E v * (1 + r)

/-- `IonizBetheBlochRossi::FunctionToDEdxIntegral` (Ionization.cxx 110-117). -/
noncomputable def rossiIntegrand (m z : ℝ) (M : Med) (E v : ℝ) : Option ℝ :=
  (inelCorrection m M E v).map fun r => v * rossiPlain m z M E v * r

/-- `IonizBetheBlochRossi::IonizationLoss` (Ionization.cxx 119-155); `cut` is `cuts_.GetCut(energy)`. -/
noncomputable def rossiLoss (m z : ℝ) (M : Med) (cut E : ℝ) : ℝ :=
  let lim := limBetheBloch m M.I E
  let β := ionizBeta m E
  let γ := E / m
  let vUp := min lim.vMax cut
  let aux := β * γ / (1e-6 * M.I)
  let result := Real.log (vUp * (2 * ME * E)) + 2 * Real.log aux
  let aux := vUp / (2 * (1 + 1 / γ))
  let result := result + aux * aux
  let aux := β * β
  let result := result - (aux * (1 + vUp / lim.vMax) + densityDelta M β γ)
  let result := if result > 0 then result * (IONK * z * z * protonFraction M.components / (2 * aux)) else 0
  if vUp = lim.vMin then 0 else result

/-- `CrossSectionDEDXIntegral::Calculate` for it (CrossSectionDEDXIntegral.cxx 67-80, 180-183), with the integral as a parameter:
`vCut` is the cut `GetCut(lim, E)` of the cross section, `cut` the one of the parametrization. -/
noncomputable def rossiDedx (integral : (ℝ → ℝ) → ℝ → ℝ → ℝ) (m z : ℝ) (M : Med) (cut vCut E : ℝ) : ℝ :=
  (integral (fun v => (rossiIntegrand m z M E v).getD 0) (limBetheBloch m M.I E).vMin vCut + rossiLoss m z M cut E / E) * E

end Proposal
