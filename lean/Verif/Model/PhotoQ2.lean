import Verif.Model.NuclearCross

/-!
# Photonuclear interaction with the integration over the virtuality

`/repo/src/PROPOSAL/detail/PROPOSAL/crosssection/parametrization/PhotoQ2Integration.cxx`, as formulas over the real numbers, for
`0 < v < 1`, energies and virtualities above zero and a Bjorken `x` below one. `Q2` is in MeV². The numerical integration is a
parameter.
-/

namespace Proposal

/-! ## Shadowing -/

/-- `ShadowDuttaRenoSarcevicSeckel::CalculateShadowEffect` (PhotoQ2Integration.cxx 843-859). -/
noncomputable def shadowDutta (c : Component) (x : ℝ) : ℝ :=
  open Classical in
  if c.nucCharge = 1 then 1
  else if x < 0.0014 then c.atomicNum ^ (-0.1 : ℝ)
  else if x < 0.04 then c.atomicNum ^ (0.069 * Real.log x / Real.log 10 + 0.097)
  else 1

/-- The branch `x > 0.3` of `ShadowButkevichMikheyev::CalculateShadowEffect` (PhotoQ2Integration.cxx 872-885). -/
noncomputable def shadowEmc (c : Component) (x : ℝ) : ℝ :=
  let Mb : ℝ := 0.437
  let la : ℝ := 0.5
  let x2 : ℝ := 0.278
  let au := 1 / (1 - x)
  let ac := 1 / (1 - x2)
  let Aosc := (1 - la * x) * (au - ac - MPI / c.averageNucleonWeight * (au * au - ac * ac))
  1 - Mb * c.woodSaxon * Aosc

/-- `G` for small `x` (lines 895-905). -/
noncomputable def shadowLow (c : Component) (nu : ℝ) : ℝ :=
  let nu := nu * 1e-3
  let sgn := 112.2 * (0.609 * nu ^ (0.0988 : ℝ) + 1.037 * nu ^ (-0.5944 : ℝ))
  let tmp := 0.00282 * c.atomicNum ^ (1 / 3 : ℝ) * sgn
  let G := (3 / tmp) * (0.5 + ((1 + tmp) * Real.exp (-tmp) - 1) / (tmp * tmp))
  0.75 * G + 0.25

/-- `x0` (line 906). -/
noncomputable def shadowX0 (c : Component) (nu : ℝ) : ℝ :=
  let m1 := 0.129 * c.woodSaxon
  let m2 := 0.456 * c.woodSaxon
  (shadowLow c nu / (1 + m2)) ^ (1 / m1)

/-- `G` for medium `x` (line 910). -/
noncomputable def shadowMid (c : Component) (x : ℝ) : ℝ :=
  let m1 := 0.129 * c.woodSaxon
  let m2 := 0.456 * c.woodSaxon
  let m3 := 0.553 * c.woodSaxon
  x ^ m1 * (1 + m2) * (1 - m3 * x)

/-- `ShadowButkevichMikheyev::CalculateShadowEffect` (PhotoQ2Integration.cxx 864-915). -/
noncomputable def shadowBm (c : Component) (x nu : ℝ) : ℝ :=
  open Classical in
  if c.nucCharge = 1 then 1
  else if x > 0.3 then shadowEmc c x
  else if x ≥ shadowX0 c nu then shadowMid c x
  else shadowLow c nu

/-- The two classes derived from `ShadowEffect` (PhotoQ2Integration.h 59-91). -/
inductive Shadow where
  | dutta
  | butkevichMikheyev

/-- `shadow_effect_->CalculateShadowEffect(comp, x, nu)`. -/
noncomputable def Shadow.factor : Shadow → Component → ℝ → ℝ → ℝ
  | .dutta, c, x, _ => shadowDutta c x
  | .butkevichMikheyev, c, x, nu => shadowBm c x nu

/-! ## Structure functions -/

/-- The constants of the fits of Abramowicz, Levin, Levy and Maor; masses and scales in MeV². -/
structure Allm where
  (a1P a2P a3P b1P b2P b3P c1P c2P c3P : ℝ)
  (a1R a2R a3R b1R b2R b3R c1R c2R c3R : ℝ)
  (m0 mP mR lam q0 : ℝ)

/-- PhotoQ2Integration.cxx 91-130; some are squared and the scale is added afterwards. -/
noncomputable def allm91 : Allm where
  a1P := -0.04503
  a2P := -0.36407
  a3P := 8.17091
  b1P := 0.49222 * 0.49222
  b2P := 0.52116 * 0.52116
  b3P := 3.55115
  c1P := 0.26550
  c2P := 0.04856
  c3P := 1.04682
  a1R := 0.60408
  a2R := 0.17353
  a3R := 1.61812
  b1R := 1.26066 * 1.26066
  b2R := 1.83624 * 1.83624
  b3R := 0.81141
  c1R := 0.67639
  c2R := 0.49027
  c3R := 2.66275
  m0 := 0.30508 * 1e6
  mP := 10.67564 * 1e6
  mR := 0.20623 * 1e6
  lam := 0.06527 * 1e6
  q0 := 0.27799 * 1e6 + 0.06527 * 1e6

/-- PhotoQ2Integration.cxx 247-276 and, the same, 494-523. -/
noncomputable def allm97 : Allm where
  a1P := -0.0808
  a2P := -0.44812
  a3P := 1.1709
  b1P := 0.36292
  b2P := 1.8917
  b3P := 1.8439
  c1P := 0.28067
  c2P := 0.22291
  c3P := 2.1979
  a1R := 0.58400
  a2R := 0.37888
  a3R := 2.6063
  b1R := 0.01147
  b2R := 3.7582
  b3R := 0.49338
  c1R := 0.80107
  c2R := 0.97307
  c3R := 3.4942
  m0 := 0.31985 * 1e6
  mP := 49.457 * 1e6
  mR := 0.15052 * 1e6
  lam := 0.06527 * 1e6
  q0 := 0.52544 * 1e6

/-- PhotoQ2Integration.cxx 637-666. -/
noncomputable def allmAbt : Allm where
  a1P := -0.075
  a2P := -0.470
  a3P := 9.2
  b1P := -0.477
  b2P := 54.0
  b3P := 0.073
  c1P := 0.356
  c2P := 0.171
  c3P := 18.6
  a1R := 0.882
  a2R := 0.082
  a3R := -8.5
  b1R := 0.339
  b2R := 3.38
  b3R := 1.07
  c1R := -0.636
  c2R := 3.37
  c3R := -0.660
  m0 := 0.388 * 1e6
  mP := 50.8 * 1e6
  mR := 0.838 * 1e6
  lam := 4.4e-9 * 1e6
  q0 := 1.87e-5 * 1e6

/-- `t` (PhotoQ2Integration.cxx 138-142, 284-288, 531-535, 674-677). -/
noncomputable def Allm.t (P : Allm) (Q2 : ℝ) : ℝ :=
  let t := Real.log (Real.log ((Q2 + P.q0) / P.lam) / Real.log (P.q0 / P.lam))
  if t < 0 then 0 else t

/-- A parameter that increases with `Q²`, line 147. -/
noncomputable def allmUp (f1 f2 f3 t : ℝ) : ℝ := f1 + f2 * t ^ f3

/-- A parameter that decreases with `Q²`, lines 154-155. -/
noncomputable def allmDown (f1 f2 f3 t : ℝ) : ℝ := f1 + (f1 - f2) * (1 / (1 + t ^ f3) - 1)

/-- The structure function of the proton for given `a_reggeon` and `c_reggeon` (PhotoQ2Integration.cxx 148-191, and the same in 294-337,
541-584 and 682-728). -/
noncomputable def allmF2 (P : Allm) (aR cR M E v Q2 : ℝ) : ℝ :=
  let x := Q2 / (2 * M * v * E)
  let t := P.t Q2
  let bR := allmUp P.b1R P.b2R P.b3R t
  let bP := allmUp P.b1P P.b2P P.b3P t
  let aP := allmDown P.a1P P.a2P P.a3P t
  let cP := allmDown P.c1P P.c2P P.c3P t
  let W2 := M * M + 2 * M * E * v - Q2
  let xP := (Q2 + P.mP) / (Q2 + P.mP + W2 - M * M)
  let xR := (Q2 + P.mR) / (Q2 + P.mR + W2 - M * M)
  let pomeron := cP * xP ^ aP * (1 - x) ^ bP
  let reggeon := cR * xR ^ aR * (1 - x) ^ bR
  Q2 / (Q2 + P.m0) * (pomeron + reggeon)

/-- The structure function of the fits of 1991 and 1997 (`a_reggeon` and `c_reggeon` of lines 147-149, 293-295, 540-542). -/
noncomputable def allmProton (P : Allm) (M E v Q2 : ℝ) : ℝ :=
  allmF2 P (allmUp P.a1R P.a2R P.a3R (P.t Q2)) (allmUp P.c1R P.c2R P.c3R (P.t Q2)) M E v Q2

/-- The structure function of `PhotoAbtFT` (`a_reggeon` and `c_reggeon` of lines 684-696). -/
noncomputable def abtProton (M E v Q2 : ℝ) : ℝ :=
  let P := allmAbt
  let t := P.t Q2
  if 0 < t then allmF2 P (allmUp P.a1R P.a2R P.a3R t) (allmUp P.c1R P.c2R P.c3R t) M E v Q2
  else allmF2 P P.a1R P.c1R M E v Q2

/-- The structure function of `PhotoBlockDurandHa` (PhotoQ2Integration.cxx 764-800). -/
noncomputable def bdhProton (M E v Q2 : ℝ) : ℝ :=
  let x := Q2 / (2 * M * v * E)
  let M2 : ℝ := 0.753 * 1e6
  let mu2 : ℝ := 2.82 * 1e6
  let aux := Real.log (1 + Q2 / mu2)
  let A := 8.205e-4 + (-5.148e-2) * aux + (-4.725e-3) * aux * aux
  let B := 2.217e-3 + 1.244e-2 * aux + 5.958e-4 * aux * aux
  let C := 0.255 + 1.475e-1 * aux
  let D := Q2 * (Q2 + 2.430 * M2) / (Q2 + M2) ^ 2
  let aux1 := Real.log (Q2 / x / (Q2 + mu2))
  D * (1 - x) ^ (11.49 : ℝ) * (C + A * aux1 + B * aux1 * aux1)

/-- `relation_proton_neutron` (PhotoQ2Integration.cxx 167-171 and four times more). -/
noncomputable def protonNeutron (x : ℝ) : ℝ :=
  let r := x * x
  1 - 1.85 * x + 2.45 * r - 2.35 * r * x + r * r

/-- The structure function of the nucleus without shadowing, for a structure function of the proton (PhotoQ2Integration.cxx 196-200 and
four times more). -/
noncomputable def nucleusOf (c : Component) (x F : ℝ) : ℝ :=
  F * (c.nucCharge + (c.atomicNum - c.nucCharge) * protonNeutron x)

/-- `structure_function_proton` and `structure_function_neutron` of `PhotoButkevichMikheyev` (PhotoQ2Integration.cxx 381-439). -/
noncomputable def bmNucleons (M E v Q2 : ℝ) : ℝ × ℝ :=
  let x := Q2 / (2 * M * v * E)
  let a : ℝ := 0.2513e6
  let b : ℝ := 0.6186e6
  let c : ℝ := 3.0292e6
  let d : ℝ := 1.4817e6
  let αR : ℝ := 0.4056
  let n := 1.5 * (1 + Q2 / (Q2 + c))
  let dl := 0.0988 * (1 + 2 * Q2 / (Q2 + d))
  let aux := 0.12 * x ^ (-dl) * (Q2 / (Q2 + a)) ^ (1 + dl)
  let pS := aux * (1 - x) ^ (n + 4)
  let nS := aux * (1 - x) ^ (n + 1.8152)
  let aux := x ^ (1 - αR) * (1 - x) ^ n * (Q2 / (Q2 + b)) ^ αR
  let up := 1.2437 * aux
  let down := 0.1853 * aux * (1 - x)
  (pS + (up + down), nS + (up / 4 + down * 4))

/-! ## The integrand -/

/-- The six parametrizations (PhotoQ2Integration.cxx 70-75). -/
inductive Q2Param where
  | allm91
  | allm97
  | butkevichMikheyev
  | renoSarcevicSu
  | abtFT
  | blockDurandHa

/-- The structure function of the nucleus without shadowing. -/
noncomputable def Q2Param.nucleus (p : Q2Param) (c : Component) (E v Q2 : ℝ) : ℝ :=
  let M := c.averageNucleonWeight
  let x := Q2 / (2 * M * v * E)
  match p with
  | .allm91 => nucleusOf c x (allmProton Proposal.allm91 M E v Q2)
  | .allm97 => nucleusOf c x (allmProton Proposal.allm97 M E v Q2)
  | .renoSarcevicSu => nucleusOf c x (allmProton Proposal.allm97 M E v Q2)
  | .abtFT => nucleusOf c x (abtProton M E v Q2)
  | .blockDurandHa => nucleusOf c x (bdhProton M E v Q2)
  | .butkevichMikheyev =>
    let F := bmNucleons M E v Q2
    c.nucCharge * F.1 + (c.atomicNum - c.nucCharge) * F.2

/-- The constant `R` (PhotoQ2Integration.cxx 134, 280, 396, 527, 670, 788). -/
noncomputable def Q2Param.R : Q2Param → ℝ
  | .butkevichMikheyev => 0.25
  | _ => 0

/-- The bracket for particles with spin 1/2 (PhotoQ2Integration.cxx 213-218 and four times more). -/
noncomputable def fermionBracket (R m M E v Q2 : ℝ) : ℝ :=
  let x := Q2 / (2 * M * v * E)
  1 - v - M * x * v / (2 * E) + (1 - 2 * m * m / Q2) * v * v * (1 + 4 * M * M * x * x / Q2) / (2 * (1 + R))

/-- The bracket of `PhotoRenoSarcevicSu` (PhotoQ2Integration.cxx 607-612). -/
noncomputable def scalarBracket (R m M E v Q2 : ℝ) : ℝ :=
  let x := Q2 / (2 * M * v * E)
  1 - v + 0.25 * v * v - (1 + 4 * m * m / Q2) * 0.25 * v * v * (1 + 4 * M * M * x * x / Q2) / (1 + R)

/-- The bracket of a parametrization. -/
noncomputable def Q2Param.bracket (p : Q2Param) (m M E v Q2 : ℝ) : ℝ :=
  match p with
  | .renoSarcevicSu => scalarBracket p.R m M E v Q2
  | _ => fermionBracket p.R m M E v Q2

/-- `FunctionToQ2Integral` (PhotoQ2Integration.cxx 81-221, 227-367, 373-466, 474-615, 622-751, 757-834). -/
noncomputable def Q2Param.integrand (p : Q2Param) (s : Shadow) (m : ℝ) (c : Component) (E v Q2 : ℝ) : ℝ :=
  let M := c.averageNucleonWeight
  let x := Q2 / (2 * M * v * E)
  let F := p.nucleus c E v Q2 * s.factor c x (v * E)
  let result := ME * RE / Q2
  result * (result * 4 * Real.pi * F / v * p.bracket m M E v Q2)

/-! ## The integral -/

/-- `q2_min` (PhotoQ2Integration.cxx 44-50). -/
noncomputable def q2Min (m E v : ℝ) : ℝ :=
  let q := m * v
  let q := q * (q / (1 - v))
  if m < MPI then
    let aux := m * m / E
    q - (aux * aux) / (2 * (1 - v))
  else q

/-- `q2_max` (line 52). -/
noncomputable def q2Max (m M E v : ℝ) : ℝ := 2 * M * E * (v - (limPhotonuclear m M E).vMin)

/-- `PhotoQ2Integral::DifferentialCrossSection` (PhotoQ2Integration.cxx 36-68); `integral` is `Integral::Integrate`. -/
noncomputable def photoQ2Cross (integral : (ℝ → ℝ) → ℝ → ℝ → ℝ) (p : Q2Param) (s : Shadow) (m z : ℝ) (c : Component) (E v : ℝ) : ℝ :=
  let M := c.averageNucleonWeight
  let q2min := q2Min m E v
  let q2max := q2Max m M E v
  if q2min > q2max then 0
  else
    let aux := integral (p.integrand s m c E v) q2min q2max
    let aux := aux * (NAvogadro / c.atomicNum * z * z)
    max aux 0

end Proposal
