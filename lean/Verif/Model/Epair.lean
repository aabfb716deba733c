import Verif.Model.Brems
import Verif.Model.Dilog
import Verif.Model.CrossSection
import Verif.Model.Integral

/-!
# Production of electron pairs by charged particles

`/repo/src/PROPOSAL/detail/PROPOSAL/crosssection/parametrization/EpairProduction.cxx`, as formulas over the real numbers, for
`0 < v < 1` and asymmetries `-1 < ρ < 1`. The numerical integration is a parameter.
-/

namespace Proposal

/-- The members of `EpairLPM` that `suppression_factor` reads. -/
structure EpairLpmData where
  eLpm : ℝ

/-- The constructor of `EpairLPM` (EpairProduction.cxx 553-573). -/
noncomputable def epairLpm (m z : ℝ) (M : Med) : EpairLpmData :=
  let sum := sumOver M.components fun c =>
    c.nucCharge * c.nucCharge * Real.log (3.25 * c.logConstant * c.nucCharge ^ (-1 / 3 : ℝ))
  let eLpm := m / (ME * RE)
  ⟨eLpm * ((eLpm * eLpm) * ALPHA * m / (2 * Real.pi * M.molDensity * z * z * sum))⟩

/-- The denominator of the factor is written with the same text as this factor of the integrand (lines 236-239 and 348-350, and 611-612). -/
noncomputable def epairPhiE (ξ β r2 : ℝ) : ℝ :=
  ((2 + r2) * (1 + β) + ξ * (3 + r2)) * Real.log (1 + 1 / ξ) + (1 - r2 - β) / (1 + ξ) - (3 + r2)

/-- `A` of `suppression_factor` (EpairProduction.cxx 602-603); `a` is `atan_`. -/
noncomputable def ternovskiiA (s x a log1 : ℝ) : ℝ :=
  let s36 := 36 * s * s
  let d2 := s36 / (s36 + 1)
  0.5 * d2 * (1 + 2 * d2 * x) * log1 - d2 + 6 * d2 * s * (1 + ((s36 - 1) / (s36 + 1)) * x) * a

/-- `B` (line 604). -/
noncomputable def ternovskiiB (s x log2 : ℝ) : ℝ :=
  let s6 := 6 * s
  let d1 := s6 / (s6 + 1)
  d1 * (1 + d1 * x) * log2 - d1

/-- `C` (line 605). -/
noncomputable def ternovskiiC (s x a log1 : ℝ) : ℝ :=
  let s36 := 36 * s * s
  let d2 := s36 / (s36 + 1)
  (-d2) * d2 * x * log1 + d2 - (d2 * d2 * (s36 - 1) / (6 * s)) * x * a

/-- `D` (line 606). -/
noncomputable def ternovskiiD (s x log2 : ℝ) : ℝ :=
  let s6 := 6 * s
  let d1 := s6 / (s6 + 1)
  d1 - d1 * d1 * x * log2

open Classical in
/-- `EpairLPM::suppression_factor` (EpairProduction.cxx 580-613); `ρ` is `density_correction`. -/
noncomputable def epairSuppression (D : EpairLpmData) (E v r2 b x ρ : ℝ) : ℝ :=
  let s := 0.25 * Real.sqrt (D.eLpm / (ρ * E * v * (1 - r2)))
  let s6 := 6 * s
  let a := s6 * (x + 1)
  if a > 1 / computerPrecision then 1
  else
    let s36 := 36 * s * s
    let a := Real.arctan a - Real.pi / 2
    let log1 := Real.log ((s36 * (1 + x) * (1 + x) + 1) / (s36 * x * x))
    let log2 := Real.log ((s6 * (1 + x) + 1) / (s6 * x))
    ((1 + b) * (ternovskiiA s x a log1 + (1 + r2) * ternovskiiB s x log2) +
      b * (ternovskiiC s x a log1 + (1 + r2) * ternovskiiD s x log2) + (1 - r2) * (-s6 * a)) / epairPhiE x b r2

/-- The factor that the parametrizations apply (lines 283-286, 463-466, 543-546). -/
noncomputable def epairApply (lpm : Option (EpairLpmData × ℝ)) (E v r2 β ξ aux : ℝ) : ℝ :=
  match lpm with
  | none => aux
  | some (D, ρ) => aux * epairSuppression D E v r2 β ξ ρ

/-- `xi` of a particle of mass `m` (EpairProduction.cxx 206-207 and 342). -/
noncomputable def epairXi (m v r2 : ℝ) : ℝ :=
  let aux := (m * v) / (2 * ME)
  aux * aux * (1 - r2) / (1 - v)

/-- `beta` (EpairProduction.cxx 208 and 341). -/
noncomputable def epairBeta (v : ℝ) : ℝ := (v * v) / (2 * (1 - v))

/-! ## Kelner, Kokoulin and Petrukhin -/

/-- `Y_e` (EpairProduction.cxx 211-213). -/
noncomputable def kelnerYe (ξ β r2 : ℝ) : ℝ :=
  (5 - r2 + 4 * β * (1 + r2)) / (2 * (1 + 3 * β) * Real.log (3 + 1 / ξ) - r2 - 2 * β * (2 - r2))

/-- `Y_mu` (EpairProduction.cxx 214-215). -/
noncomputable def kelnerYmu (ξ β r2 : ℝ) : ℝ :=
  (4 + r2 + 3 * β * (1 + r2)) / ((1 + r2) * (1.5 + 2 * β) * Real.log (3 + ξ) + 1 - 1.5 * r2)

/-- `L_e` (EpairProduction.cxx 218-224). -/
noncomputable def kelnerLe (m : ℝ) (c : Component) (E v r2 ξ Ye : ℝ) : ℝ :=
  let Z3 := c.nucCharge ^ (-1 / 3 : ℝ)
  let aux := (1.5 * ME) / (m * Z3)
  let aux1 := (1 + ξ) * (1 + Ye)
  let aux2 := (2 * ME * SQRTE * c.logConstant * Z3) / (E * v * (1 - r2))
  Real.log ((c.logConstant * Z3 * Real.sqrt aux1) / (1 + aux2 * aux1)) - 0.5 * Real.log (1 + aux * aux * aux1)

/-- `L_mu` (EpairProduction.cxx 218-226). -/
noncomputable def kelnerLmu (m : ℝ) (c : Component) (E v r2 ξ Ymu : ℝ) : ℝ :=
  let Z3 := c.nucCharge ^ (-1 / 3 : ℝ)
  let aux := (1.5 * ME) / (m * Z3)
  let aux2 := (2 * ME * SQRTE * c.logConstant * Z3) / (E * v * (1 - r2))
  Real.log ((c.logConstant / aux * Z3) / (1 + aux2 * (1 + ξ) * (1 + Ymu)))

open Classical in
/-- `Phi_e` (EpairProduction.cxx 231-243). -/
noncomputable def kelnerPhiE (ξ β r2 Le : ℝ) : ℝ :=
  if Le > 0 then
    if 1 / ξ < HALF_PRECISION then (1.5 - r2 / 2 + β * (1 + r2)) / ξ * Le
    else epairPhiE ξ β r2 * Le
  else 0

/-- The factor of the logarithm in `Phi_mu` (EpairProduction.cxx 247-249). -/
noncomputable def epairPhiMu (ξ β r2 : ℝ) : ℝ :=
  ((1 + r2) * (1 + 1.5 * β) - (1 + 2 * β) * (1 - r2) / ξ) * Real.log (1 + ξ) + ξ * (1 - r2 - β) / (1 + ξ) +
    (1 + 2 * β) * (1 - r2)

open Classical in
/-- The contribution of the atomic electrons (EpairProduction.cxx 255-273). -/
noncomputable def kelnerZeta (m : ℝ) (c : Component) (E : ℝ) : ℝ :=
  let Z3 := c.nucCharge ^ (-1 / 3 : ℝ)
  let g1 : ℝ := if c.nucCharge = 1 then 4.4e-5 else 1.95e-5
  let g2 : ℝ := if c.nucCharge = 1 then 4.8e-5 else 5.3e-5
  let aux := E / m
  let aux1 := 0.073 * Real.log (aux / (1 + g1 * aux / (Z3 * Z3))) - 0.26
  let aux2 := 0.058 * Real.log (aux / (1 + g2 * aux / Z3)) - 0.14
  if aux1 > 0 ∧ aux2 > 0 then aux1 / aux2 else 0

open Classical in
/-- `EpairKelnerKokoulinPetrukhin::FunctionToIntegral` (EpairProduction.cxx 181-293) for a particle of mass `m` and charge `z`. -/
noncomputable def epairKelner (lpm : Option (EpairLpmData × ℝ)) (m z : ℝ) (c : Component) (E v r : ℝ) : ℝ :=
  let r := 1 - r
  let r2 := r * r
  let ξ := epairXi m v r2
  let β := epairBeta v
  let Le := kelnerLe m c E v r2 ξ (kelnerYe ξ β r2)
  let Lmu := kelnerLmu m c E v r2 ξ (kelnerYmu ξ β r2)
  let e := kelnerPhiE ξ β r2 Le
  let mu := if Lmu > 0 then epairPhiMu ξ β r2 * Lmu else 0
  let aux := ALPHA * RE * z
  let aux := aux * (aux / (1.5 * Real.pi) * 2 * c.nucCharge * (c.nucCharge + kelnerZeta m c E))
  let aux1 := ME / m * z
  let aux := aux * ((1 - v) / v * (e + aux1 * aux1 * mu))
  let aux := epairApply lpm E v r2 β ξ aux
  if aux < 0 then 0 else aux

/-! ## Sandrock, Soedingrekso and Rhode -/

open Classical in
/-- `zeta` (EpairProduction.cxx 319-339). -/
noncomputable def sandrockZeta (m : ℝ) (c : Component) (E : ℝ) : ℝ :=
  let Z := c.nucCharge
  let Z13 := Z ^ (-1 / 3 : ℝ)
  let g1 : ℝ := if Z = 1 then 4.4e-5 else 1.95e-5
  let g2 : ℝ := if Z = 1 then 4.8e-5 else 5.3e-5
  let zeta1 := 0.073 * Real.log (E / m / (1 + g1 * Z ^ (2 / 3 : ℝ) * E / m)) - 0.26
  let zeta2 := 0.058 * Real.log (E / m / (1 + g2 / Z13 * E / m)) - 0.14
  if zeta1 > 0 ∧ zeta2 > 0 then zeta1 / zeta2 else 0

/-- `Ce2` (EpairProduction.cxx 352-354). -/
noncomputable def sandrockCe2 (ξ β r2 : ℝ) : ℝ :=
  ((1 - r2) * (1 + β) + ξ * (3 - r2)) * Real.log (1 + 1 / ξ) + 2 * (1 - β - r2) / (1 + ξ) - (3 - r2)

/-- `De` (EpairProduction.cxx 357-360). -/
noncomputable def sandrockDe (ξ β r2 : ℝ) : ℝ :=
  ((2 + r2) * (1 + β) + ξ * (3 + r2)) * dilog (1 / (1 + ξ)) - (2 + r2) * ξ * Real.log (1 + 1 / ξ) - (ξ + r2 + β) / (1 + ξ)

open Classical in
/-- `Le1` and `Le2` (EpairProduction.cxx 362-402). The first three numbers distinguish them: they are `1, exp(0.5), 1` and
`exp(-1/6), exp(1/3), exp(-1/3)`. -/
noncomputable def sandrockLe (k1 k2 k3 m : ℝ) (c : Component) (E v r2 ξ DB : ℝ) : ℝ :=
  let R := c.logConstant
  let Z13 := c.nucCharge ^ (-1 / 3 : ℝ)
  let dn := 1.54 * c.atomicNum ^ (0.27 : ℝ)
  if DB > 0 then
    let X := Real.exp (-DB)
    Real.log (R * Z13 * k1 * Real.sqrt (1 + ξ) / (X + 2 * ME * k2 * R * Z13 * (1 + ξ) / (E * v * (1 - r2)))) - DB -
      0.5 * Real.log (X + (ME / m * dn) ^ 2 * k3 * (1 + ξ))
  else
    let X := Real.exp DB
    Real.log (R * Z13 * k1 * Real.sqrt (1 + ξ) / (1 + X * 2 * ME * k2 * R * Z13 * (1 + ξ) / (E * v * (1 - r2)))) - 0.5 * DB -
      0.5 * Real.log (1 + X * (ME / m * dn) ^ 2 * k3 * (1 + ξ))

/-- `Cm2` (EpairProduction.cxx 418-421). -/
noncomputable def sandrockCm2 (ξ β r2 : ℝ) : ℝ :=
  ((1 - β) * (1 - r2) - ξ * (1 + r2)) * Real.log (1 + ξ) / ξ - 2 * (1 - β - r2) / (1 + ξ) + 1 - β - (1 + β) * r2

/-- `Dm` (EpairProduction.cxx 424-430). -/
noncomputable def sandrockDm (ξ β r2 : ℝ) : ℝ :=
  ((1 + r2) * (1 + (3 * β) / 2) - 1 / ξ * (1 + 2 * β) * (1 - r2)) * dilog (ξ / (1 + ξ)) +
    (1 + (3 * β) / 2) * (1 - r2) / ξ * Real.log (1 + ξ) +
    (1 - r2 - β / 2 * (1 + r2) + (1 - r2) / (2 * ξ) * β) * ξ / (1 + ξ)

open Classical in
/-- `Lm1` and `Lm2` (EpairProduction.cxx 432-454); `k` is `exp(0.5)` or `exp(1/3)`. -/
noncomputable def sandrockLm (k m : ℝ) (c : Component) (E v r2 ξ DB : ℝ) : ℝ :=
  let R := c.logConstant
  let Z13 := c.nucCharge ^ (-1 / 3 : ℝ)
  let dn := 1.54 * c.atomicNum ^ (0.27 : ℝ)
  if DB > 0 then
    let X := Real.exp (-DB)
    Real.log (X * m / ME * R * Z13 / dn / (X + 2 * ME * k * R * Z13 * (1 + ξ) / (E * v * (1 - r2))))
  else
    let X := Real.exp DB
    Real.log (m / ME * R * Z13 / dn / (1 + 2 * ME * k * R * Z13 * (1 + ξ) / (E * v * (1 - r2)) * X))

open Classical in
/-- `EpairSandrockSoedingreksoRhode::FunctionToIntegral` (EpairProduction.cxx 296-472). `Be` and `Bm` (348-350, 412-416) are the
functions `epairPhiE` and `epairPhiMu`. -/
noncomputable def epairSandrock (lpm : Option (EpairLpmData × ℝ)) (m z : ℝ) (c : Component) (E v r : ℝ) : ℝ :=
  let Z := c.nucCharge
  let pre := 4 / (3 * Real.pi) * Z * (ALPHA * RE * z) ^ 2
  let r := 1 - r
  let r2 := r * r
  let ζ := sandrockZeta m c E
  let β := epairBeta v
  let ξ := epairXi m v r2
  let Be := epairPhiE ξ β r2
  let Ce2 := sandrockCe2 ξ β r2
  let Ce1 := Be - Ce2
  let De := sandrockDe ξ β r2
  let Le1 := sandrockLe 1 (Real.exp 0.5) 1 m c E v r2 ξ (De / Be)
  let Le2 := sandrockLe (Real.exp (-1 / 6)) (Real.exp (1 / 3)) (Real.exp (-1 / 3)) m c E v r2 ξ (De / Be)
  let e := max 0 (pre * (Z + ζ) * (1 - v) / v * (Ce1 * Le1 + Ce2 * Le2))
  let Bm := epairPhiMu ξ β r2
  let Cm2 := sandrockCm2 ξ β r2
  let Cm1 := Bm - Cm2
  let Dm := sandrockDm ξ β r2
  let Lm1 := sandrockLm (Real.exp 0.5) m c E v r2 ξ (Dm / Bm)
  let Lm2 := sandrockLm (Real.exp (1 / 3)) m c E v r2 ξ (Dm / Bm)
  let mu := max 0 (pre * (Z + ζ) * (1 - v) / v * (ME / m * z) ^ 2 * (Cm1 * Lm1 + Cm2 * Lm2))
  let aux := epairApply lpm E v r2 β ξ (e + mu)
  if aux < 0 then 0 else aux

/-! ## Electrons and positrons -/

/-- `phi` (EpairProduction.cxx 500-508). -/
noncomputable def electronPhi (ξ β r2 : ℝ) : ℝ :=
  ((2 + r2) * (1 + β) + ξ * (3 + r2)) * Real.log (1 + 1 / ξ) +
    ((1 + r2) * (1 + 1.5 * β) - 1 / ξ * (1 + 2 * β) * (1 - r2)) * Real.log (1 + ξ) +
    (-1 - 3 * r2 + β * (1 - 2 * r2))

/-- `U` and `U_max` (EpairProduction.cxx 511-523). -/
noncomputable def electronU (c : Component) (E v r2 ξ : ℝ) : ℝ :=
  let Z3 := c.nucCharge ^ (-1 / 3 : ℝ)
  let Y := 12 * Real.sqrt (ME / E)
  let aux := c.logConstant * Z3
  let aux1 := 2 * SQRTE * ME ^ 2 * c.logConstant * Z3 * (1 + ξ) * (1 + Y)
  let aux2 := ME * E * v * (1 - r2)
  aux / (1 + aux1 / aux2)

open Classical in
/-- `EpairForElectronPositron::FunctionToIntegral` (EpairProduction.cxx 475-549). Unlike the others it does not replace `rho` by
`1 - rho`. -/
noncomputable def epairElectron (lpm : Option (EpairLpmData × ℝ)) (z : ℝ) (c : Component) (E v r : ℝ) : ℝ :=
  let r2 := r * r
  let rMax := 1 - 2 * ME / (v * E)
  let aux := v / 2
  let ξ := aux * aux * (1 - r2) / (1 - v)
  let β := epairBeta v
  let φ := electronPhi ξ β r2
  let U := electronU c E v r2 ξ
  let Umax := electronU c E v (rMax * rMax) (v * v * (1 - rMax * rMax) / (4 * (1 - v)))
  let X := 1 + U - Umax
  let aux := ALPHA * RE * z * c.nucCharge
  let aux := aux * (2 * aux * φ * (1 - v) / (1.5 * Real.pi * v))
  let aux := if X > 0 then aux * Real.log X else 0
  let aux := if aux < 0 then 0 else aux
  epairApply lpm E v r2 β ξ aux

/-! ## The integration over the asymmetry -/

open Classical in
/-- `rMax` (EpairProduction.cxx 146-154). -/
noncomputable def epairRMax (m E v : ℝ) : ℝ :=
  let aux := 1 - (4 * ME) / (E * v)
  let aux2 := 1 - (6 * m * m) / (E * E * (1 - v))
  if aux > 0 ∧ aux2 > 0 then Real.sqrt aux * aux2 else 0

/-- `EpairProductionRhoIntegral::DifferentialCrossSection` (EpairProduction.cxx 141-166); `integral` is `Integral::Integrate`, `F` the
method `FunctionToIntegral`. -/
noncomputable def epairCross (integral : (ℝ → ℝ) → ℝ → ℝ → ℝ) (F : ℝ → ℝ) (m : ℝ) (c : Component) (E v : ℝ) : ℝ :=
  let rMax := epairRMax m E v
  let aux := max (1 - rMax) computerPrecision
  NAvogadro / c.atomicNum * (integral F (1 - rMax) aux + integral F aux 1)

end Proposal
