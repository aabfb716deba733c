import Verif.Model.Names
import Verif.Model.Kinematics
import Mathlib.Analysis.SpecialFunctions.Pow.Real
import Mathlib.Analysis.SpecialFunctions.Trigonometric.Basic
import Mathlib.Data.BitVec
import Mathlib.Algebra.Order.Round

/-!
# Components and media

`/repo/src/PROPOSAL/detail/PROPOSAL/medium/Components.cxx` and `/repo/src/PROPOSAL/detail/PROPOSAL/medium/Medium.cxx`.
The functions `std::hash<...>` are parameters. Quotients with a zero divisor are 0 here
and NaN or infinite in the code; theorems that depend on them have positive numbers of atoms and atomic masses as
hypotheses. The default constructors, which leave fields undefined, are not modelled.
-/

namespace Proposal

/-- `NA`, Avogadro's number (Constants.cxx). -/
noncomputable def NAvogadro : ℝ := 6.022140857e23
/-- `ZETA3`. -/
noncomputable def ZETA3 : ℝ := 1.202056903159594
/-- `RE`. -/
noncomputable def RE : ℝ := 2.8179403227e-13

/-- `size_t`. -/
abbrev Hash := BitVec 64

/-- `std::hash<double>`, `std::hash<int>` and `std::hash<size_t>`. -/
structure Hasher where
  dbl : ℝ → Hash
  int : ℤ → Hash
  size : Hash → Hash

/-- One step of `hash_combine` (methods.h 77-83), given the hash of the value. -/
def hashStep (seed h : Hash) : Hash := seed ^^^ (h + 0x9e3779b9#64 + (seed <<< 6) + (seed >>> 2))

/-- `hash_combine` for a sequence of values. -/
def hashCombine (seed : Hash) (hs : List Hash) : Hash := hs.foldl hashStep seed

/-- `Component` (Components.h). -/
structure Component where
  name : List Byte
  nucCharge : ℝ
  atomicNum : ℝ
  atomInMolecule : ℝ
  logConstant : ℝ
  bPrime : ℝ
  averageNucleonWeight : ℝ
  woodSaxon : ℝ
  hash : Hash

/-- `SetLogConstant` (Components.cxx 129-231). -/
noncomputable def logConstantOf (z : ℤ) : ℝ :=
  match z with
  | 1 => 202.4 | 2 => 151.9 | 3 => 159.9 | 4 => 172.3 | 5 => 177.9 | 6 => 178.3 | 7 => 176.6 | 8 => 173.4
  | 9 => 170.0 | 10 => 165.8 | 11 => 165.8 | 12 => 167.1 | 13 => 169.1 | 14 => 170.8 | 15 => 172.2 | 16 => 173.4
  | 17 => 174.3 | 18 => 174.8 | 19 => 175.1 | 20 => 175.6 | 21 => 176.2 | 22 => 176.8 | 26 => 175.8 | 29 => 173.1
  | 32 => 173.0 | 35 => 173.5 | 42 => 175.9 | 50 => 177.4 | 53 => 178.6 | 74 => 177.6 | 82 => 178.0 | 92 => 179.8
  | _ => 182.7

/-- `SetBPrime` (Components.cxx 234-244). -/
noncomputable def bPrimeOf (z : ℤ) : ℝ := if z = 1 then 446 else 1429

/-- `WoodSaxonPotential` (Components.cxx 247-261). -/
noncomputable def woodSaxonPotential (r0 : ℝ) : ℝ :=
  0.54 * (r0 * r0 * Real.log 2 + 0.54 * r0 * Real.pi * Real.pi / 6 + 0.54 * 0.54 * 1.5 * ZETA3)

/-- The factor `wood_saxon_` (Components.cxx 47-54). -/
noncomputable def woodSaxonOf (a : ℝ) : ℝ :=
  let r := a ^ (1 / 3 : ℝ)
  let r0 := 1.12 * r - 0.86 / r
  1 - 4 * Real.pi * 0.17 * woodSaxonPotential r0 / a

open Classical in
/-- The constructor of `Component` without the registration (Components.cxx 33-58). -/
noncomputable def mkComp (H : Hasher) (name : List Byte) (z a n : ℝ) : Component :=
  let lc := logConstantOf (round z)
  let bp := bPrimeOf (round z)
  let w := (z * MP + (a - z) * MN) / a
  let ws := if z = 1 then 0 else woodSaxonOf a
  { name := name, nucCharge := z, atomicNum := a, atomInMolecule := n, logConstant := lc, bPrime := bp,
    averageNucleonWeight := w, woodSaxon := ws,
    hash := hashCombine 0 [H.dbl z, H.dbl a, H.dbl n, H.dbl lc, H.dbl bp, H.dbl w, H.dbl ws] }

open Classical in
/-- `operator==` of components (Components.cxx 69-90). -/
noncomputable def Component.equal (l r : Component) : Bool :=
  if l.name ≠ r.name then false
  else if l.nucCharge ≠ r.nucCharge then false
  else if l.atomicNum ≠ r.atomicNum then false
  else if l.atomInMolecule ≠ r.atomInMolecule then false
  else if l.logConstant ≠ r.logConstant then false
  else if l.bPrime ≠ r.bPrime then false
  else if l.averageNucleonWeight ≠ r.averageNucleonWeight then false
  else if l.woodSaxon ≠ r.woodSaxon then false
  else if l.hash ≠ r.hash then false
  else true

/-- `Medium` (Medium.h). -/
structure Med where
  name : List Byte
  numComponents : ℤ
  sumCharge : ℝ
  ZA : ℝ
  I : ℝ
  C : ℝ
  a : ℝ
  m : ℝ
  X0 : ℝ
  X1 : ℝ
  d0 : ℝ
  massDensity : ℝ
  molDensity : ℝ
  radiationLength : ℝ
  MM : ℝ
  sumNucleons : ℝ
  components : List Component

/-- The arguments of the constructor of `Medium` that are copied. -/
structure MedArgs where
  name : List Byte
  I : ℝ
  C : ℝ
  a : ℝ
  m : ℝ
  X0 : ℝ
  X1 : ℝ
  d0 : ℝ
  massDensity : ℝ

/-- `X0_inv` (Medium.cxx 519-557) for an unsigned `Z`. -/
noncomputable def X0inv (Z : ℕ) (M : ℝ) : ℝ :=
  let asq := ALPHA * ALPHA * Z * Z
  let fZ := asq * (1 / (1 + asq) + 0.20206 - 0.0369 * asq + 0.0083 * asq * asq - 0.002 * asq * asq * asq)
  let L : ℝ × ℝ :=
    if 4 < Z then (Real.log (184.15 * (Z : ℝ) ^ (-1 / 3 : ℝ)), Real.log (1194 * (Z : ℝ) ^ (-2 / 3 : ℝ)))
    else if Z = 1 then (5.31, 6.144)
    else if Z = 2 then (4.79, 5.621)
    else if Z = 3 then (4.74, 5.805)
    else if Z = 4 then (4.71, 5.924)
    else (0, 0)
  4 * ALPHA * RE * RE * NAvogadro / M * (Z * Z * (L.1 - fZ) + Z * L.2)

/-- A loop `aux += f(*iter)` over the components. -/
noncomputable def sumOver (cs : List Component) (f : Component → ℝ) : ℝ := cs.foldl (fun acc c => acc + f c) 0

/-- The constructor of `Medium` with `init`, without the registration (Medium.cxx 63-99, 156-194). The charge is
converted to an unsigned integer for `X0_inv`, which drops the fractional part; for charges of -1 and below this is
undefined behaviour and not modelled. -/
noncomputable def mkMed (x : MedArgs) (cs : List Component) : Med :=
  let charge := sumOver cs fun c => c.atomInMolecule * c.nucCharge
  let nucleons := sumOver cs fun c => c.atomInMolecule * c.atomicNum
  let weight := sumOver cs fun c => c.atomInMolecule * c.atomicNum * c.averageNucleonWeight
  let inv := sumOver cs fun c => X0inv ⌊c.nucCharge⌋₊ c.atomicNum * (c.atomInMolecule * c.atomicNum)
  { name := x.name, numComponents := cs.length, sumCharge := charge, ZA := charge / nucleons, I := x.I, C := x.C,
    a := x.a, m := x.m, X0 := x.X0, X1 := x.X1, d0 := x.d0, massDensity := x.massDensity,
    molDensity := x.massDensity * NAvogadro / nucleons, radiationLength := nucleons / inv,
    MM := weight / nucleons, sumNucleons := nucleons, components := cs }

/-- The loop of `operator==` over the components (Medium.cxx 137-141). `none` stands for reading past the end. -/
noncomputable def equalComponents (l r : List Component) : ℕ → Option Bool
  | 0 => some true
  | n + 1 =>
    match equalComponents l r n, l[n]?, r[n]? with
    | some b, some c, some d => some (if c.equal d then b else false)
    | _, _, _ => none

open Classical in
/-- `operator==` of media (Medium.cxx 102-145). -/
noncomputable def Med.equal (l r : Med) : Option Bool :=
  if l.name ≠ r.name then some false
  else if l.numComponents ≠ r.numComponents then some false
  else if l.sumCharge ≠ r.sumCharge then some false
  else if l.ZA ≠ r.ZA then some false
  else if l.I ≠ r.I then some false
  else if l.C ≠ r.C then some false
  else if l.a ≠ r.a then some false
  else if l.m ≠ r.m then some false
  else if l.X0 ≠ r.X0 then some false
  else if l.X1 ≠ r.X1 then some false
  else if l.d0 ≠ r.d0 then some false
  else if l.massDensity ≠ r.massDensity then some false
  else if l.molDensity ≠ r.molDensity then some false
  else if l.radiationLength ≠ r.radiationLength then some false
  else if l.MM ≠ r.MM then some false
  else if l.sumNucleons ≠ r.sumNucleons then some false
  else equalComponents l.components r.components l.components.length

/-- `Medium::GetHash` (Medium.cxx 201-210). -/
noncomputable def Med.hash (H : Hasher) (m : Med) : Hash :=
  hashCombine (hashCombine 0 [H.int m.numComponents, H.dbl m.sumCharge, H.dbl m.ZA, H.dbl m.I, H.dbl m.C, H.dbl m.a,
      H.dbl m.m, H.dbl m.X0, H.dbl m.X1, H.dbl m.d0, H.dbl m.massDensity, H.dbl m.molDensity, H.dbl m.radiationLength,
      H.dbl m.MM, H.dbl m.sumNucleons]) (m.components.map fun c => H.size c.hash)

end Proposal
