import Verif.Model.DiffCross

/-!
# Production of muon pairs

`/repo/src/PROPOSAL/detail/PROPOSAL/crosssection/parametrization/MupairProduction.cxx` and `PhotoMuPairProduction.cxx`, as
formulas over the real numbers. The numerical integration is a parameter.
-/

namespace Proposal

/-- `MupairKelnerKokoulinPetrukhin::FunctionToIntegral` (MupairProduction.cxx 83-153) for a particle of mass `m` and charge `z`. -/
noncomputable def mupairIntegrand (m z : ℝ) (c : Component) (E v r : ℝ) : ℝ :=
  let Z := c.nucCharge
  let atomicWeight := c.atomInMolecule
  let B := 183
  let r2 := r * r
  let rMax := 1 - 2 * MMU / (v * E)
  let Z3 := Z ^ (-1 / 3 : ℝ)
  let aux := (m * v) / (2 * MMU)
  let ξ := aux * aux * (1 - r2) / (1 - v)
  let β := (v * v) / (2 * (1 - v))
  let Apow := atomicWeight ^ (-0.27 : ℝ)
  let rμ := RE * ME / MMU
  let aux := (2 + r2) * (1 + β) + ξ * (3 + r2)
  let aux := aux * Real.log (1 + 1 / ξ)
  let aux1 := (1 + r2) * (1 + 1.5 * β) - 1 / ξ * (1 + 2 * β) * (1 - r2)
  let aux1 := aux1 * Real.log (1 + ξ)
  let aux2 := -1 - 3 * r2 + β * (1 - 2 * r2)
  let φ := aux + aux1 + aux2
  let Y := 12 * Real.sqrt (MMU / E)
  let aux := 0.65 * Apow * B * Z3 * MMU / ME
  let aux1 := 2 * SQRTE * MMU ^ 2 * B * Z3 * (1 + ξ) * (1 + Y)
  let aux2 := ME * E * v * (1 - r2)
  let U := aux / (1 + aux1 / aux2)
  let ξ := v * v * (1 - rMax * rMax) / (4 * (1 - v))
  let aux1 := 2 * SQRTE * MMU ^ 2 * B * Z3 * (1 + ξ) * (1 + Y)
  let aux2 := ME * E * v * (1 - rMax * rMax)
  let Umax := aux / (1 + aux1 / aux2)
  let X := 1 + U - Umax
  let aux := ALPHA * rμ * z * Z
  let aux := aux * (2 * aux * φ * (1 - v) / (1.5 * Real.pi * v))
  let aux := if X > 0 then aux * Real.log X else 0
  if aux < 0 then 0 else aux

/-- `MupairProductionRhoIntegral::DifferentialCrossSection` (MupairProduction.cxx 61-79); `integral` is `Integral::Integrate` with
method 2. -/
noncomputable def mupairCross (integral : (ℝ → ℝ) → ℝ → ℝ → ℝ) (m z : ℝ) (c : Component) (E v : ℝ) : ℝ :=
  let aux := 1 - 2 * MMU / (v * E)
  if aux < 0 then 0 else NAvogadro / c.atomicNum * integral (mupairIntegrand m z c E v) 0 aux

/-- `PhotoMuPairBurkhardtKelnerKokoulin::DifferentialCrossSection` (PhotoMuPairProduction.cxx 41-73). -/
noncomputable def photoMuPair (c : Component) (E x : ℝ) : ℝ :=
  let δ := MMU * MMU / (2 * E * x * (1 - x))
  let B := c.logConstant
  let Bp := c.bPrime
  let Z := c.nucCharge
  let Z3 := Z ^ (-1 / 3 : ℝ)
  let D := 1.54 * c.atomicNum ^ (0.27 : ℝ)
  let aux1 := MMU / ME * B * Z3 / (1 + B * Z3 * SQRTE * δ / ME)
  let aux2 := D / (1 + δ * (D * SQRTE - 2) / MMU)
  let Φ := if Z > 1 then Real.log aux1 - (1 - 1 / Z) * Real.log aux2 else Real.log aux1 - Real.log aux2
  let aux1 := (MMU / δ) / (δ * MMU / (ME * ME) + SQRTE)
  let aux2 := 1 + 1 / (δ * SQRTE * Bp * Z3 * Z3 / ME)
  let electrons := 1 / Z * (Real.log aux1 - Real.log aux2)
  let aux := x * x + (1 - x) ^ 2 + 2 / 3 * x * (1 - x)
  let result := 4 * Z * Z * ALPHA * (RE * ME / MMU) ^ 2 * (Φ + electrons) * aux
  max (NAvogadro / c.atomicNum * result) 0

end Proposal
