import Verif.Model.PhotonCross

/-!
# Photonuclear and weak interactions

`/repo/src/PROPOSAL/detail/PROPOSAL/crosssection/parametrization/PhotoRealPhotonAssumption.cxx`, `Photonuclear.cxx` and
`WeakInteraction.cxx`. The interpolated tables are parameters. `none` stands for a NaN or an infinity: a division by zero or a
logarithm outside its domain.
-/

namespace Proposal

/-- The cross section of real photons the photonuclear interaction is built from (`PHOTO_PARAM_REAL_IMPL`,
PhotoRealPhotonAssumption.cxx 12-26, 103-106). -/
inductive RealPhoton where
  | zeus
  | bezrukovBugaev
  | kokoulin
  | rhode (table : ℝ → ℝ)

/-- `photon_param_->PhotonNucleonCrossSection` (PhotoRealPhotonAssumption.cxx 51, 98-101). -/
noncomputable def RealPhoton.sigma : RealPhoton → ℝ → Component → ℝ
  | .zeus => Proposal.zeus
  | .bezrukovBugaev => Proposal.bezrukovBugaev
  | .kokoulin => Proposal.kokoulin
  | .rhode table => Proposal.rhode table

/-- The terms in `HardComponent::CalculateHardComponent` (Photonuclear.cxx 52-63): the sum of `log₁₀(v)^i` times the value of the
`i`th interpolant. -/
noncomputable def hardSum (lov loe : ℝ) : ℝ → List (ℝ → ℝ) → ℝ
  | _, [] => 0
  | aux, f :: fs => aux * f loe + hardSum lov loe (aux * lov) fs

/-- `HardComponent::CalculateHardComponent` (Photonuclear.cxx 41-65); `tables` are the interpolants of the particle. -/
noncomputable def hardComponent (tables : List (ℝ → ℝ)) (E v : ℝ) : ℝ :=
  if E < 1e5 ∨ v < 1e-7 then 0
  else hardSum (Real.log v / Real.log 10) (Real.log E / Real.log 10 - 3) 1 tables / v

open Classical in
/-- The shadowing in `PhotoRealPhotonAssumption::DifferentialCrossSection` (PhotoRealPhotonAssumption.cxx 58-66). -/
noncomputable def realShadowing (σ : ℝ) (c : Component) : Option ℝ :=
  if c.nucCharge = 1 then some 1
  else
    let tmp := 0.00282 * c.atomicNum ^ (1 / 3 : ℝ) * σ
    if tmp = 0 then none else some ((3 / tmp) * (0.5 + ((1 + tmp) * Real.exp (-tmp) - 1) / (tmp * tmp)))

/-- The formula of Bugaev and Shlepin (PhotoRealPhotonAssumption.cxx 53-56, 68-81) for the mass of the particle in MeV and the shadowing
`G`, before the factor of line 83. -/
noncomputable def bugaevShlepin (m v G : ℝ) : ℝ :=
  let m1 := 0.54
  let m2 := 1.80
  let κ := 1 - 2 / v + 2 / (v * v)
  let G := G * 3
  let aux := v * m * 1e-3
  let t := aux * aux / (1 - v)
  let aum := m * 1e-3
  let aum := aum * aum
  let aux := 2 * aum / t
  G * ((κ + 4 * aum / m1) * Real.log (1 + m1 / t) - (κ * m1) / (m1 + t) - aux) +
    ((κ + 2 * aum / m2) * Real.log (1 + m2 / t) - aux) +
    aux * (G * (m1 - 4 * t) / (m1 + t) + (m2 / t) * Real.log (1 + t / m2))

open Classical in
/-- `PhotoRealPhotonAssumption::DifferentialCrossSection` (PhotoRealPhotonAssumption.cxx 45-96) for a particle of mass `m` and
charge `z`; `hard` are the tables of the hard component, `none` without it. -/
noncomputable def realPhotonCross (p : RealPhoton) (hard : Option (List (ℝ → ℝ))) (m z : ℝ) (c : Component) (E v : ℝ) : Option ℝ :=
  let sgn := p.sigma (v * E) c
  if v = 0 ∨ v = 1 ∨ m = 0 then none
  else
    (realShadowing sgn c).map fun G =>
      let aux := bugaevShlepin m v G
      let aux := aux * (ALPHA / (8 * Real.pi) * c.atomicNum * v * sgn * 1e-30)
      let aux := match hard with
        | some tables => aux + c.atomicNum * 1e-30 * hardComponent tables E v
        | none => aux + c.atomicNum * 1e-30 * 0
      NAvogadro / c.atomicNum * z * z * aux

/-- The tables of `WeakCooperSarkarMertsch` (WeakInteraction.cxx 40-56): functions of the logarithm of the energy and of `v`. -/
structure WeakTables where
  nubarP : ℝ → ℝ → ℝ
  nubarN : ℝ → ℝ → ℝ
  nuP : ℝ → ℝ → ℝ
  nuN : ℝ → ℝ → ℝ

/-- `WeakCooperSarkarMertsch::DifferentialCrossSection` (WeakInteraction.cxx 58-85) for a particle of charge `z`. -/
noncomputable def weakCross (T : WeakTables) (z : ℝ) (c : Component) (E v : ℝ) : ℝ :=
  let le := Real.log E / Real.log 10
  let proton := c.nucCharge
  let neutron := c.atomicNum - c.nucCharge
  let pn := if z < 0 then (proton * T.nubarP le v, neutron * T.nubarN le v) else (proton * T.nuP le v, neutron * T.nuN le v)
  let mean := (pn.1 + pn.2) / c.atomicNum
  NAvogadro / c.atomicNum * 1e-36 * max mean 0

end Proposal
