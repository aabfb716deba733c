import Verif.Model.DiffCross

/-!
# Cross sections of photons

`/repo/src/PROPOSAL/detail/PROPOSAL/crosssection/parametrization/Photoeffect.cxx` and `Photoproduction.cxx`. `none` stands for a
NaN or an infinity. A component stands for its hash.
-/

namespace Proposal

/-! ## Photo effect -/

/-- `Photoeffect::GetCutOff` (Photoeffect.cxx 25-28). -/
noncomputable def photoeffectCutOff (c : Component) : ℝ := (c.nucCharge * ALPHA) ^ 2 * ME / 2

/-- `Kshell_Total_Ratio` (Photoeffect.cxx 30-36). -/
noncomputable def kshellRatio (c : Component) : ℝ :=
  let lnZ := Real.log c.nucCharge
  1 + 0.01481 * lnZ * lnZ - 0.000788 * lnZ * lnZ * lnZ

/-- The correction factor of `PhotoeffectKshellCrossSection` (Photoeffect.cxx 99-110) for `Z_alpha_beta`. -/
noncomputable def nonRelativistic (z : ℝ) : ℝ :=
  let x := Real.pi * z
  if x < 10 then (1 + z * z) * x / Real.sinh x * Real.exp (z * (Real.pi - 4 * Real.arctan (1 / z)))
  else (1 + z * z) * 2 * x * Real.exp (z * (-4 * Real.arctan (1 / z)))

open Classical in
/-- `PhotoeffectSauter::PhotoeffectKshellCrossSection` (Photoeffect.cxx 88-112). At and below the ionization energy `gamma` is at
most 1: a root of a negative number or a quotient 0 / 0. Without charge the quotient by the hyperbolic sine is 0 / 0. -/
noncomputable def sauter (E : ℝ) (c : Component) : Option ℝ :=
  let sigmaT := (8 * Real.pi * RE * RE) / 3
  let Z := c.nucCharge
  let I := (Z * ALPHA) ^ 2 * ME / 2
  let γ := 1 + (E - I) / ME
  if γ ≤ 1 ∨ Z = 0 then none
  else
    let γβ := Real.sqrt (γ * γ - 1)
    let σ := 1.5 * sigmaT * Z ^ 5 * ALPHA ^ 4 * (ME / E) ^ 5 * γβ ^ 3 *
      (4 / 3 + γ * (γ - 2) / (γ + 1) * (1 - 1 / (γ * γβ) * Real.log (γ + γβ)))
    some (σ * nonRelativistic (Z * ALPHA * γ / γβ))

open Classical in
/-- `Photoeffect::PhotonAtomCrossSection` (Photoeffect.cxx 38-43). -/
noncomputable def photoeffectAtom (E : ℝ) (c : Component) : Option ℝ :=
  (sauter E c).map fun s => if s = 0 then 0 else s * kshellRatio c

/-- `Photoeffect::CalculatedNdx` of a target (Photoeffect.cxx 45-50). -/
noncomputable def photoeffectNdxTarget (M : Med) (E : ℝ) (c : Component) : Option ℝ :=
  (photoeffectAtom E c).map fun s => NAvogadro / c.atomicNum * s / weightOf M c

/-- `Photoeffect::CalculatedNdx_PerTarget` (Photoeffect.cxx 59-71). -/
noncomputable def photoeffectPerTarget (M : Med) (E : ℝ) : List (Option ℝ) :=
  M.components.map fun c =>
    if E > photoeffectCutOff c then (photoeffectAtom E c).map fun s => NAvogadro / c.atomicNum * s / weightOf M c else some 0

/-- A sum in which a NaN stays a NaN. -/
noncomputable def sumRates : List (Option ℝ) → Option ℝ
  | [] => some 0
  | r :: rs => r.bind fun x => (sumRates rs).map fun y => x + y

/-- `Photoeffect::CalculatedNdx` (Photoeffect.cxx 52-57); the order of the sum does not matter for real numbers. -/
noncomputable def photoeffectNdx (M : Med) (E : ℝ) : Option ℝ := sumRates (photoeffectPerTarget M E)

/-- `GetLowerEnergyLim` (Photoeffect.cxx 18-23, Photoproduction.cxx 19-24): `none` is the infinity of a medium without
components. -/
noncomputable def lowestCutOff (cut : Component → ℝ) : List Component → Option ℝ
  | [] => none
  | c :: cs => some (match lowestCutOff cut cs with | none => cut c | some m => min (cut c) m)

/-! ## Photo production -/

/-- `Photoproduction::GetCutOff` (Photoproduction.cxx 26-30). -/
noncomputable def pionThreshold (c : Component) : ℝ := MPI + MPI * MPI / (2 * c.averageNucleonWeight)

/-- `PhotoproductionZeus::PhotonNucleonCrossSection` (Photoproduction.cxx 90-98), in microbarn like all the following. -/
noncomputable def zeus (E : ℝ) (c : Component) : ℝ :=
  if E < pionThreshold c then 0
  else
    let ν := E * 1e-3
    let aux := 2e-3 * ν * c.averageNucleonWeight
    63.5 * aux ^ (0.097 : ℝ) + 145 * aux ^ (-0.5 : ℝ)

/-- `PhotoproductionBezrukovBugaev::PhotonNucleonCrossSection` (Photoproduction.cxx 115-123). -/
noncomputable def bezrukovBugaev (E : ℝ) (c : Component) : ℝ :=
  if E < pionThreshold c then 0
  else
    let ν := E * 1e-3
    let aux := Real.log (0.0213 * ν)
    114.3 + 1.647 * aux * aux

/-- `PhotoproductionCaldwell::PhotonNucleonCrossSection` (Photoproduction.cxx 140-145). -/
noncomputable def caldwell (E : ℝ) (c : Component) : ℝ :=
  if E < pionThreshold c then 0
  else
    let ν := E * 1e-3
    49.2 + 11.1 * Real.log ν + 151.8 / Real.sqrt ν

/-- `PhotoproductionKokoulin::PhotonNucleonCrossSection` (Photoproduction.cxx 157-171). -/
noncomputable def kokoulin (E : ℝ) (c : Component) : ℝ :=
  if E < pionThreshold c then 0
  else
    let ν := E * 1e-3
    if ν ≤ 200 then (if ν ≤ 17 then 96.1 + 82 / Real.sqrt ν else bezrukovBugaev E c) else caldwell E c

/-- `PhotoproductionRhode::PhotonNucleonCrossSection` (Photoproduction.cxx 201-212); `table` is the interpolated table. -/
noncomputable def rhode (table : ℝ → ℝ) (E : ℝ) (c : Component) : ℝ :=
  if E < pionThreshold c then 0
  else
    let ν := E * 1e-3
    if ν ≤ 0.1 then 0 else if ν ≤ 200 then max (table ν) 0 else caldwell E c

/-- `PhotoproductionHeck::sigma_bw` (Photoproduction.cxx 258-260). -/
noncomputable def breitWigner (s E M Γ σ₀ : ℝ) : ℝ := s / (E * E) * σ₀ * Γ * Γ * s / ((s - M * M) ^ 2 + Γ * Γ * s)

/-- `PhotoproductionHeck::Q` (Photoproduction.cxx 262-268). -/
noncomputable def heckQ (E Eth w : ℝ) : ℝ := if E < Eth then 0 else if E ≥ w + Eth then 1 else (E - Eth) / w

/-- `PhotoproductionHeck::PhotonNucleonCrossSection` (Photoproduction.cxx 231-256, the resonances from lines 218-221); `none` for
the root of a negative number. -/
noncomputable def heck (E : ℝ) (c : Component) : Option ℝ :=
  if E < pionThreshold c then some 0
  else
    let E := E * 1e-3
    let mN := c.averageNucleonWeight * 1e-3
    let s := mN * mN + 2 * mN * E
    let s0 := (1.0761 : ℝ) ^ 2
    let bw := breitWigner s E 1.231 0.11 31.125 * heckQ E 0.152 0.17 + breitWigner s E 1.515 0.11 25.567 * heckQ E 0.152 0.38 +
      breitWigner s E 1.680 0.125 17.508 * heckQ E 0.152 0.38
    if Real.sqrt s < 19.39 then
      if 1 - s0 / s < 0 then none
      else some ((73.7 * s ^ (0.073 : ℝ) + 191.7 * s ^ (-0.602 : ℝ)) * Real.sqrt (1 - s0 / s) + bw)
    else some (59.3 * s ^ (0.093 : ℝ) + 120.2 * s ^ (-0.358 : ℝ) + bw)

open Classical in
/-- `Photoproduction::ShadowingFactor` (Photoproduction.cxx 39-46) for the cross section `σ` of a nucleon, `none` for 0 / 0. -/
noncomputable def shadowing (σ : ℝ) (c : Component) : Option ℝ :=
  if c.nucCharge = 1 then some 1
  else
    let x := 0.00282 * c.atomicNum ^ (1 / 3 : ℝ) * σ
    if x = 0 then none else some (3 / (x * x * x) * (x * x / 2 - 1 + Real.exp (-x) * (1 + x)))

open Classical in
/-- `Photoproduction::PhotonAtomCrossSection` (Photoproduction.cxx 32-37). -/
noncomputable def photoproductionAtom (σ : ℝ) (c : Component) : Option ℝ :=
  if σ = 0 then some 0 else (shadowing σ c).map fun g => c.atomicNum * σ * (0.75 * g + 0.25)

open Classical in
/-- `PhotoproductionHeckC7Shadowing::PhotonAtomCrossSection` (Photoproduction.cxx 285-290). -/
noncomputable def heckC7Atom (σ : ℝ) (c : Component) : ℝ := if σ = 0 then 0 else σ * c.atomicNum ^ (0.91 : ℝ)

/-- `Photoproduction::CalculatedNdx` of a target (Photoproduction.cxx 48-53) for the function of the cross section of an atom; the
list of all of them is `CalculatedNdx_PerTarget` (lines 62-72). -/
noncomputable def photoproductionNdxTarget (atom : Component → Option ℝ) (M : Med) (c : Component) : Option ℝ :=
  (atom c).map fun s => NAvogadro / c.atomicNum * 1e-30 * s / weightOf M c

/-- `Photoproduction::CalculatedNdx` (Photoproduction.cxx 55-60). -/
noncomputable def photoproductionNdx (atom : Component → Option ℝ) (M : Med) : Option ℝ :=
  sumRates (M.components.map (photoproductionNdxTarget atom M))

end Proposal
