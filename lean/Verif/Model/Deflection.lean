import Verif.Model.RootFinding
import Verif.Model.Vec3
import Verif.Model.Statistics
import Verif.Model.Kinematics
import Mathlib.Analysis.SpecialFunctions.Pow.Real
import Mathlib.Analysis.SpecialFunctions.Trigonometric.Inverse

/-!
# Stochastic deflection

`/repo/src/PROPOSAL/detail/PROPOSAL/scattering/stochastic_deflection`. `m` is the mass of the particle, energies
are in MeV. A deflection is a pair of polar angle and azimuth; `none` stands for a NaN or an infinity among them.
-/

namespace Proposal

open Classical in
/-- `IonizNaive::CalculateStochasticDeflection` (ionization/IonizNaive.cxx 6-15): a negative radicand, a division by 0 and an
argument of the arc cosine outside of [-1, 1] give a NaN. -/
noncomputable def ionizNaive (m ei ef r0 : ℝ) : Option (ℝ × ℝ) :=
  if (ei + m) * (ei - m) ≤ 0 ∨ (ef + m) * (ef - m) ≤ 0 then none
  else
    let pi := Real.sqrt ((ei + m) * (ei - m))
    let pf := Real.sqrt ((ef + m) * (ef - m))
    let c := ((ei + ME) * ef - ei * ME - m * m) / (pi * pf)
    if c < -1 ∨ 1 < c then none else some (Real.arccos c, 2 * Real.pi * r0)

/-- `r_max` (bremsstrahlung/BremsTsaiApproximation.cxx 10-12) with `theta_star` = 1. A loss of 0 gives an infinite quotient, of
which the minimum is 1. -/
noncomputable def tsaiRMax (m ei ef : ℝ) : ℝ := (if ei - ef = 0 then 1 else min 1 (ef / (ei - ef))) * ei * 1 / m

/-- `theta_photon` (bremsstrahlung/BremsTsaiApproximation.cxx 13-15). -/
noncomputable def tsaiPhoton (m ei ef r0 : ℝ) : ℝ :=
  let r := tsaiRMax m ei ef
  let a := r0 * (r * r) / (1 + r * r)
  m / ei * Real.sqrt (a / (1 - a))

/-- `BremsTsaiApproximation::CalculateStochasticDeflection` (bremsstrahlung/BremsTsaiApproximation.cxx 6-19), for positive mass and
energies and a random number of at most 1. -/
noncomputable def tsaiDeflection (m ei ef r0 r1 : ℝ) : ℝ × ℝ :=
  ((ei - ef) / ef * tsaiPhoton m ei ef r0, 2 * Real.pi * r1)

/-- `t_min`, `t_max` and `t_1` of `PhotoBorogPetrukhin` (photonuclear/PhotoBorogPetrukhin.cxx 11-16). -/
noncomputable def borogTMin (m ei ef : ℝ) : ℝ := m * m * ((ei - ef) / ei) * ((ei - ef) / ei) / (1 - (ei - ef) / ei)
noncomputable def borogTMax (ei ef : ℝ) : ℝ := 2 * MP * (ei - ef)
noncomputable def borogT1 (ei ef : ℝ) : ℝ :=
  min ((ei - ef) * (ei - ef)) ((Real.sqrt 0.4 * 1e3) * (Real.sqrt 0.4 * 1e3))

/-- `t_p` (photonuclear/PhotoBorogPetrukhin.cxx 17). -/
noncomputable def borogT (tmin tmax t1 r0 : ℝ) : ℝ :=
  (tmax * t1) / ((tmax + t1) * ((tmax * (tmin + t1)) / (tmin * (tmax + t1))) ^ r0 - tmax)

open Classical in
/-- `PhotoBorogPetrukhin::CalculateStochasticDeflection` (photonuclear/PhotoBorogPetrukhin.cxx 7-22) for positive energies. With a
loss of 0 the quotients are NaN. -/
noncomputable def borogDeflection (m ei ef r0 r1 : ℝ) : Option (ℝ × ℝ) :=
  if ei - ef = 0 then none
  else
    let tmin := borogTMin m ei ef
    let tp := borogT tmin (borogTMax ei ef) (borogT1 ei ef) r0
    let den := 4 * (ei * ef - m * m) - 2 * tmin
    let s := (tp - tmin) / den
    if den = 0 ∨ s < 0 ∨ 1 < s then none else some (2 * Real.arcsin (Real.sqrt s), 2 * Real.pi * r1)

/-! ## The parametrizations of van Ginneken -/

/-- `std::sqrt(SampleFromExponential(rnd, 1 / (rms_theta * rms_theta)))`, the end of the three functions; `none` for the random
number 1, for which the logarithm is infinite. -/
noncomputable def rmsAngle (rms r0 : ℝ) : Option ℝ :=
  if r0 < 1 then some (Real.sqrt (sampleFromExponential r0 (1 / (rms * rms)))) else none

/-- The inelasticity, energies in GeV. -/
noncomputable def ginnekenNu (m ei ef : ℝ) : ℝ := (ei - ef) / (ei - m)

open Classical in
/-- `rms_theta` of `EpairGinneken` (epairproduction/EpairGinneken.cxx 13-29), energies in GeV. -/
noncomputable def epairRms (m ei ef : ℝ) : Option ℝ :=
  let nu := ginnekenNu m ei ef
  let mn := min (8.9 / 10000 * nu ^ (0.25 : ℝ) * (1 + 1.5 / 100000 * ei) + 0.032 * nu / (nu + 1)) 0.1
  if ei - m = 0 ∨ nu = 0 ∨ 1 - nu = 0 then none
  else some ((2.3 + Real.log ei) * (1 - nu) ^ (-1 : ℝ) / ei * (nu - 2 * (ME / 1000) / ei) ^ 2 / (nu * nu) * mn)

open Classical in
/-- `rms_theta` of `PhotoGinneken` (photonuclear/PhotoGinneken.cxx 12-18), energies in GeV. -/
noncomputable def photoRms (m ei ef : ℝ) : Option ℝ :=
  let nu := ginnekenNu m ei ef
  if ei - m = 0 ∨ nu = 0 ∨ 1 - nu = 0 then none
  else some (0.39 / (ei * (1 - nu)) * (Real.sqrt ei * nu * (1 - nu)) ^ (0.17 : ℝ) * (1 - 0.135 / (ei * nu)))

/-- `EpairGinneken::CalculateStochasticDeflection` (epairproduction/EpairGinneken.cxx 9-36). -/
noncomputable def epairDeflection (m ei ef r0 r1 : ℝ) : Option (ℝ × ℝ) := do
  let rms ← epairRms (m / 1000) (ei / 1000) (ef / 1000)
  let t ← rmsAngle rms r0
  pure (t, 2 * Real.pi * r1)

/-- `PhotoGinneken::CalculateStochasticDeflection` (photonuclear/PhotoGinneken.cxx 8-25). -/
noncomputable def photoDeflection (m ei ef r0 r1 : ℝ) : Option (ℝ × ℝ) := do
  let rms ← photoRms (m / 1000) (ei / 1000) (ef / 1000)
  let t ← rmsAngle rms r0
  pure (t, 2 * Real.pi * r1)

/-- `k_4` and `n` (bremsstrahlung/BremsGinneken.cxx 39-42). -/
noncomputable def ginnekenK4 (ei : ℝ) : ℝ := 0.26 * ei ^ (-0.91 : ℝ)
noncomputable def ginnekenN (ei : ℝ) : ℝ := 0.81 * ei ^ (0.5 : ℝ) / (ei ^ (0.5 : ℝ) + 1.8)

/-- `f_nu_g` (bremsstrahlung/BremsGinneken.cxx 14-16). -/
noncomputable def fNuG (n k4 nu : ℝ) : ℝ :=
  nu ^ (1 / n + 1) + (0.2 / k4) ^ (1 / n) * nu - (0.2 / k4) ^ (1 / n)

open Classical in
/-- `get_nu_g` (bremsstrahlung/BremsGinneken.cxx 18-28). -/
noncomputable def getNuG (n k4 : ℝ) : Except MathErr ℝ :=
  if fNuG n k4 0.5 * fNuG n k4 1 < 0 then
    match bisection (fNuG n k4) 0.5 1 1e-5 100 with
    | .error e => .error e
    | .ok p => .ok ((p.1 + p.2) / 2)
  else .ok 0.5

/-- What `get_rms_theta` can do: return a number or an infinity, throw `std::invalid_argument`, pass on an exception of the
bisection. -/
inductive RmsResult where
  | rms (x : ℝ)
  | infinite
  | invalidArgument
  | mathError

/-- The parametrization for hard losses (bremsstrahlung/BremsGinneken.cxx 43). -/
noncomputable def ginnekenHard (ei nu : ℝ) : ℝ :=
  ginnekenK4 ei * nu ^ (1 + ginnekenN ei) * (1 - nu) ^ (-ginnekenN ei)

open Classical in
/-- `get_rms_theta` (bremsstrahlung/BremsGinneken.cxx 30-57), energies in GeV, as a function of the inelasticity. -/
noncomputable def bremsRmsNu (ei nu Z : ℝ) : RmsResult :=
  if nu ≤ 0.5 then
    .rms (max (min (0.092 * ei ^ (-1 / 3 : ℝ) * Real.sqrt nu) (0.052 / ei * Z ^ (-0.25 : ℝ))) (0.22 * ei ^ (-0.92 : ℝ) * nu))
  else if nu = 1 then .infinite
  else if ginnekenHard ei nu < 0.2 then .rms (ginnekenHard ei nu)
  else
    match getNuG (ginnekenN ei) (ginnekenK4 ei) with
    | .error _ => .mathError
    | .ok g =>
      let k5 := ginnekenK4 ei * g ^ (1 + ginnekenN ei) * (1 - g) ^ (0.5 - ginnekenN ei)
      let rms := k5 * (1 - nu) ^ (-0.5 : ℝ)
      if rms < 0.2 then .invalidArgument else .rms rms

/-- `get_rms_theta` of the energies. -/
noncomputable def bremsRms (m ei ef Z : ℝ) : RmsResult := bremsRmsNu ei (ginnekenNu m ei ef) Z

/-- What `BremsGinneken::CalculateStochasticDeflection` can do. -/
inductive DeflectResult where
  | angles (polar azimuth : ℝ)
  | notFinite
  | invalidArgument
  | mathError

/-- `BremsGinneken::CalculateStochasticDeflection` (bremsstrahlung/BremsGinneken.cxx 59-77) for a component of charge `Z`. -/
noncomputable def bremsDeflection (m ei ef Z r0 r1 : ℝ) : DeflectResult :=
  match bremsRms (m / 1000) (ei / 1000) (ef / 1000) Z with
  | .invalidArgument => .invalidArgument
  | .mathError => .mathError
  | .infinite => .notFinite
  | .rms rms =>
    match rmsAngle rms r0 with
    | none => .notFinite
    | some t => .angles t (2 * Real.pi * r1)

end Proposal
