import Verif.Model.RandomEngine
import Verif.Model.Secondaries
import Mathlib.Analysis.SpecialFunctions.Pow.Real

/-!
# The angles of bremsstrahlung after Koch and Motz

`/repo/src/PROPOSAL/detail/PROPOSAL/secondaries/parametrization/bremsstrahlung/BremsKochMotz.cxx`: the rejection and its random numbers. The
object of type `RandomGenerator` is local, but its engine is the static member `rng_` of the class (RandomGenerator.cxx 13), the one of the
whole program.
-/

namespace Proposal

/-- `g` (bremsstrahlung/BremsKochMotz.cxx 15-23). -/
noncomputable def kochMotzG (x E E0 Z : ℝ) : ℝ :=
  let r := E / E0
  let m := ((1 - r) / (2 * E0 * r)) ^ 2 + (Z ^ (1 / 3 : ℝ) / (111 * (x + 1))) ^ 2
  3 * (1 + r * r) - 2 * r - (4 + Real.log m) * ((1 + r * r) - 4 * x * r / (x + 1) ^ 2)

/-- `N` (BremsKochMotz.cxx 25-30). -/
noncomputable def kochMotzN (E E0 Z : ℝ) : ℝ :=
  1 / max (max (kochMotzG 0 E E0 Z) (kochMotzG 1 E E0 Z)) (kochMotzG ((Real.pi * E0) ^ 2) E E0 Z)

open Classical in
/-- The loop (BremsKochMotz.cxx 47-51) with at most `fuel` passes: the angle and the engine afterwards. -/
noncomputable def kochMotzLoop (E E0 Z : ℝ) : ℕ → Mt → Option (ℝ × Mt)
  | 0, _ => none
  | fuel + 1, s =>
    let c := mtDouble s
    let phi := phiCandidate E0 c.1
    let u := mtDouble c.2
    if u.1 > kochMotzN E E0 Z * kochMotzG ((E0 * phi) ^ 2) E E0 Z then kochMotzLoop E E0 Z fuel u.2 else some (phi, u.2)

/-- The seed (BremsKochMotz.cxx 38-39): the largest `int` times the random number, truncated. -/
noncomputable def kochMotzSeed (rnd : ℝ) : ℤ := ⌊(2147483647 : ℝ) * rnd⌋

/-- `BremsKochMotz::CalculateSecondaries` (BremsKochMotz.cxx 32-64, Bremsstrahlung.cxx 6-28) with the generator of the program: the secondaries
and the generator afterwards. -/
noncomputable def kochMotzSecondaries (fuel : ℕ) (primary : Daughter) (l : SLoss) (Z rnd0 rnd1 : ℝ) (g : RandomGen) :
    Option (Option (List Part) × RandomGen) :=
  match kochMotzLoop ((l.parentEnergy - l.energy) / ME) (l.parentEnergy / ME) Z fuel (g.setSeed (kochMotzSeed rnd0)).engine with
  | none => none
  | some (phi, s) => some (bremsSecondaries (.kochMotz phi) primary l rnd1, { g with engine := s })

end Proposal
