import Verif.Model.Brems

/-!
# The effect of Landau, Pomeranchuk and Migdal on electron pairs by photons

`/repo/src/PROPOSAL/detail/PROPOSAL/crosssection/parametrization/PhotoPairProduction.cxx`, as formulas over the real numbers, for
`0 < x < 1`. The functions `xi`, `fi` and `G` are written there again with the same text as in `Bremsstrahlung.cxx`; the definitions made
from that are used.
-/

namespace Proposal

/-- The constructor of `PhotoPairLPM` (PhotoPairProduction.cxx 339-369): `rate` is the integral of the differential cross section over
the kinematic limits of a component at 1e14 MeV. -/
noncomputable def photoPairLpm (rate : Component → ℝ) (M : Med) : LpmData :=
  let sum := sumOver M.components fun c => rate c / (M.sumNucleons / (c.atomInMolecule * c.atomicNum))
  let sum := 9 / 7 * sum * M.massDensity
  let eLpm := ALPHA * ME
  ⟨ME, M.molDensity, M.sumCharge, eLpm * (2 * eLpm / (Real.pi * ME * RE * sum))⟩

/-- `PhotoPairLPM::suppression_factor` (PhotoPairProduction.cxx 371-438); `ρ` is `density_correction`. -/
noncomputable def photoPairSuppression (D : LpmData) (E x : ℝ) (c : Component) (ρ : ℝ) : ℝ :=
  let Z3 := c.nucCharge ^ (-1 / 3 : ℝ)
  let s1 := 1 / (Z3 * c.logConstant)
  let s1 := s1 * s1 * SQRT2
  let sp := 0.125 * Real.sqrt (D.eLpm / (ρ * E * x * (1 - x)))
  let ξ := lpmXi s1 sp
  let Γ := RE * ME / (ALPHA * ME * x)
  let Γ := 1 + 4 * Real.pi * D.sumCharge * RE * Γ * Γ * D.molDensity * ρ
  let s := sp / Real.sqrt ξ * Γ
  ((ξ / 3) * (migdalG s / (Γ * Γ) + 2 * (x * x + (1 - x) * (1 - x)) * migdalPhi s / Γ)) / (1 - (4 / 3) * x * (1 - x))

end Proposal
