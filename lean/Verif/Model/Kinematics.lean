import Verif.Model.EnergyCut
import Mathlib.Analysis.SpecialFunctions.Pow.Real

/-!
# Kinematic limits

The functions `GetKinematicLimits` and `GetLowerEnergyLim` of the parametrizations,
`/repo/src/PROPOSAL/detail/PROPOSAL/crosssection/parametrization/*.cxx`. The limits are relative energy losses, for the
two pair production processes of photons the share of one particle of the pair. Constants are those of
`/repo/src/PROPOSAL/detail/PROPOSAL/Constants.cxx`.
-/

namespace Proposal

/-- Electron mass (Constants.cxx 61). -/
noncomputable def ME : ℝ := 0.5109989461
/-- Muon mass (Constants.cxx 64). -/
noncomputable def MMU : ℝ := 105.6583745
/-- Charged pion mass (Constants.cxx 70). -/
noncomputable def MPI : ℝ := 139.57018
/-- Proton mass (Constants.cxx 58). -/
noncomputable def MP : ℝ := 938.2720813
/-- Neutron mass (Constants.cxx 59). -/
noncomputable def MN : ℝ := 939.565413
/-- Tau mass (Constants.cxx 67). -/
noncomputable def MTAU : ℝ := 1776.86
/-- Square root of e (Constants.cxx 12). -/
noncomputable def SQRTE : ℝ := 1.648721270700128
/-- Fine structure constant (Constants.cxx 48). -/
noncomputable def ALPHA : ℝ := 0.0072973525664

/-- The end of several of the functions: `if (v_max < v_min) v_max = v_min`. -/
noncomputable def KinLim.raised (l : KinLim) : KinLim := if l.vMax < l.vMin then ⟨l.vMin, l.vMin⟩ else l

/-- The clamp `if (v_max < 0) v_max = 0`. -/
noncomputable def KinLim.clamped (l : KinLim) : KinLim := if l.vMax < 0 then ⟨l.vMin, 0⟩ else l

/-- `1 - 0.75 * SQRTE * (mass / energy) * Z^(1/3)`. -/
noncomputable def petrukhin (m Z E : ℝ) : ℝ := 1 - 0.75 * SQRTE * (m / E) * Z ^ (1 / 3 : ℝ)

/-- Bremsstrahlung, the parametrizations defined by the macro (Bremsstrahlung.cxx 47-68); `lorenz` is the Lorenz
cut if it is switched on. -/
noncomputable def limBrems (lorenz : Option ℝ) (m Z E : ℝ) : KinLim :=
  if petrukhin m Z E < 0 then ⟨0, 0⟩
  else match lorenz with
    | none => ⟨0, petrukhin m Z E⟩
    | some cut => ⟨0, min (petrukhin m Z E) (cut / E)⟩

/-- Bremsstrahlung, default (Bremsstrahlung.cxx 84-92). -/
noncomputable def limBremsDefault (m E : ℝ) : KinLim := ⟨0, 1 - m / E⟩

/-- Compton.cxx 19-27. -/
noncomputable def limCompton (E : ℝ) : KinLim := ⟨0, 1 - 1 / (1 + 2 * E / ME)⟩

/-- EpairProduction.cxx 65-79. -/
noncomputable def limEpair (m Z E : ℝ) : KinLim :=
  KinLim.raised ⟨4 * ME / E, min (petrukhin m Z E) (1 - 6 * (m / E) * (m / E))⟩

/-- Ionization of heavy particles (Ionization.cxx 40-58); `I` is the ionization energy of the medium in eV. -/
noncomputable def limBetheBloch (m I E : ℝ) : KinLim :=
  let r := ME / m
  let γ := E / m
  KinLim.raised ⟨1e-6 * I / E, min (2 * ME * (γ * γ - 1) / ((1 + 2 * γ * r + r * r) * E)) (1 - m / E)⟩

/-- Ionization of positrons (Ionization.cxx 241-253). -/
noncomputable def limBhabha (m E : ℝ) : KinLim := KinLim.clamped ⟨0, 1 - m / E⟩

/-- Ionization of electrons (Ionization.cxx 369-381). -/
noncomputable def limMoller (m E : ℝ) : KinLim := KinLim.clamped ⟨0, 0.5 * (1 - m / E)⟩

/-- MupairProduction.cxx 42-54. -/
noncomputable def limMupair (m E : ℝ) : KinLim := KinLim.raised ⟨2 * MMU / E, 1 - m / E⟩

/-- PhotoMuPairProduction.cxx 17-30. -/
noncomputable def limPhotoMuPair (E : ℝ) : KinLim :=
  if E ≤ 2 * MMU * SQRTE then ⟨0.5, 0.5⟩
  else ⟨0.5 * (1 - Real.sqrt (1 - 2 * SQRTE * MMU / E)), 0.5 * (1 + Real.sqrt (1 - 2 * SQRTE * MMU / E))⟩

/-- PhotoPairProduction.cxx 30-44. -/
noncomputable def limPhotoPair (E : ℝ) : KinLim :=
  if E ≤ 2 * ME then ⟨0.5, 0.5⟩ else ⟨ME / E, 1 - ME / E⟩

/-- WeakInteraction.cxx 22-31. -/
noncomputable def limWeak (E : ℝ) : KinLim :=
  let M := (MP + MN) / 2
  ⟨1e6 / (2 * E * M + M ^ 2), 1⟩

/-- Photonuclear.cxx 72-91; `M` is the average nucleon mass of the component. -/
noncomputable def limPhotonuclear (m M E : ℝ) : KinLim :=
  KinLim.raised ⟨(MPI + MPI * MPI / (2 * M)) / E,
    if m < MPI then 1 - M * (1 + m / M * (m / M)) / (2 * E) else 1⟩

/-! ## Lower energy limits -/

/-- Bremsstrahlung.cxx 78-82, Ionization.cxx 19-23, Photonuclear.cxx 20-22, WeakInteraction.cxx 16-20. -/
def lowerMass (m : ℝ) : ℝ := m

/-- Compton.cxx 11-17. -/
noncomputable def lowerCompton : ℝ := ALPHA ^ 2 * ME / 2

/-- EpairProduction.cxx 60-64. -/
noncomputable def lowerEpair (m : ℝ) : ℝ := m + 2 * ME

/-- MupairProduction.cxx 36-40. -/
noncomputable def lowerMupair (m : ℝ) : ℝ := m + 2 * MMU

/-- PhotoMuPairProduction.cxx 12-15. -/
noncomputable def lowerPhotoMuPair : ℝ := 2 * MMU * SQRTE

/-- PhotoPairProduction.cxx 24-28. -/
noncomputable def lowerPhotoPair : ℝ := 2 * ME

end Proposal
