import Verif.Model.PhotonPair
import Verif.Model.Secondaries
import Verif.Model.Integral

/-!
# Angles of electron pairs after Tsai

`/repo/src/PROPOSAL/detail/PROPOSAL/secondaries/parametrization/photopairproduction/PhotoPairProductionTsai.cxx`, as formulas over the
real numbers. Used for photon energies above zero, shares between zero and one and charges above zero, so that nothing is divided by zero. The
numerical integration is that of `Model/Integral`.
-/

namespace Proposal

/-- `l` (line 14). -/
noncomputable def tsaiL (E x θ : ℝ) : ℝ := (E * x) * (E * x) * θ * θ / (ME * ME)

/-- `tminprimesqrt` (line 18). -/
noncomputable def tsaiT (E x l : ℝ) : ℝ := (ME * ME * (1 + l)) / (2 * E * x * (1 - x))

/-- `Xel + Xinel` for hydrogen and helium (lines 29-49, 83). -/
noncomputable def tsaiXLight (Z E x l : ℝ) : ℝ :=
  let η := if Z < 1.5 then 1 else 1.6875
  let δ := ME * ME / (2 * E * x * (1 - x))
  let B := 2 * ALPHA * ME * η / tsaiT E x l
  let el := 2 * Real.log (ME / δ) - Real.log (1 + B * B) + 1 / 6 - (4 / 3) / (1 + B * B) + (1 / 6) / (1 + B * B) ^ 2
  let inel := 2 * Real.log (ME / δ) - Real.log (1 + B * B) + 11 / 6 - 4 / (B * B) * Real.log (1 + B * B) +
    (4 / 3) / (1 + B * B) - (1 / 6) / (1 + B * B) ^ 2
  el * (Z * Z) + inel * Z

/-- The screening radii in units of the electron's Compton wave length, without the powers of the charge (lines 52-69). -/
noncomputable def tsaiRadii (Z : ℝ) : ℝ × ℝ :=
  if Z ≤ 1.5 then (122.8, 282.4) else if Z ≤ 2.5 then (90.8, 265.8) else if Z ≤ 3.5 then (100, 418.6)
  else if Z ≤ 4.5 then (106, 571.4) else (111.7, 724.2)

/-- One of the logarithms (lines 74-77, 78-81) for a screening radius. -/
noncomputable def tsaiScreened (a E x l : ℝ) : ℝ :=
  Real.log (a * a * ME * ME * (1 + l) ^ 2 / (a * a * tsaiT E x l * tsaiT E x l + 1)) - 1

/-- `Xel + Xinel` for the other elements (lines 50-83). -/
noncomputable def tsaiXHeavy (Z E x l : ℝ) : ℝ :=
  let Z3 := Z ^ (-1 / 3 : ℝ)
  tsaiScreened ((tsaiRadii Z).1 * (Z3 / ME)) E x l * (Z * Z) + tsaiScreened ((tsaiRadii Z).2 * (Z3 * Z3 / ME)) E x l * Z

/-- `PhotoPairProductionTsai::FunctionToIntegral` (lines 5-96). -/
noncomputable def tsaiAngle (Z E x θ : ℝ) : ℝ :=
  let l := tsaiL E x θ
  let G2 := Z * Z + Z
  let X := if Z < 2.5 then tsaiXLight Z E x l else tsaiXHeavy Z E x l
  (G2 * (2 * x * (1 - x) / (1 + l) ^ 2 - 12 * l * x * (1 - x) / (1 + l) ^ 4) +
    (X - 2 * Z * Z * tsaiCoulomb Z) * ((2 * x * x - 2 * x + 1) / (1 + l) ^ 2 + (4 * l * x * (1 - x)) / (1 + l) ^ 4)) * Real.sin θ

/-- `subst` (line 103). -/
noncomputable def tsaiPower (E : ℝ) : ℝ := max 1 (Real.log E / Real.log 10)

/-- The integrand after the substitution (lines 104-107). -/
noncomputable def tsaiIntegrand (Z E ρ t : ℝ) : ℝ :=
  tsaiPower E * t ^ (tsaiPower E - 1) * tsaiAngle Z E ρ (t ^ tsaiPower E)

/-- One polar angle (lines 108-111, 112-114): the angle and the integration object afterwards; `none` for an exception or a NaN. -/
noncomputable def tsaiPolar (Q : Quadrature) (refine : IState → Option ℝ) (s : IState) (Z E ρ rnd : ℝ) : Option (ℝ × IState) :=
  match integrateRandom Q s 0 (Real.pi ^ (1 / tsaiPower E)) (tsaiIntegrand Z E ρ) 3 rnd 0 with
  | none => none
  | some r =>
    match getUpperLimit refine r.2 with
    | .value x s' => some (x ^ tsaiPower E, s')
    | .noIntegral => some (0 ^ tsaiPower E, r.2)
    | .nan => none

/-- `PhotoPairProductionTsai::CalculateDirections` (lines 98-127): the directions of electron and positron. -/
noncomputable def tsaiDirections (Q : Quadrature) (refine : IState → Option ℝ) (s : IState) (dir : Vec3) (Z E ρ rnd1 rnd2 rnd3 : ℝ) :
    Option (Vec3 × Vec3) :=
  match tsaiPolar Q refine s Z E ρ rnd1 with
  | none => none
  | some p0 =>
    match tsaiPolar Q refine p0.2 Z E ρ rnd2 with
    | none => none
    | some p1 => some (photoPairDirections dir (Real.cos p0.1) (Real.cos p1.1) rnd3)

end Proposal
