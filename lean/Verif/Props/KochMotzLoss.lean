import Verif.Props.KochMotz
import Verif.Props.Vec3
import Verif.Props.Secondaries

/-!
# One bremsstrahlung after Koch and Motz, and the numbers of the engine (C141, C142)
-/

namespace Proposal

open Spec

/-- The numbers that a program draws after the given seed. -/
noncomputable def Spec.drawn (g : RandomGen) (seed : ℤ) (n i : ℕ) : ℝ := ((g.setSeed seed).numbers n).getD i 0

/-- C142: the photon of a bremsstrahlung makes an angle with the particle which is the first accepted candidate of the program's
generator after the seed `k`, the integer part of 2147483647 times the first random number. Candidates belong to the initial
energy, the acceptance to initial and final energy, in units of the electron mass. -/
theorem C142_loss (fuel : ℕ) (primary : Daughter) (l : SLoss) (Z rnd0 rnd1 : ℝ) (g h : RandomGen) (hg : g.custom = none)
    (hE : 0 < l.parentEnergy) (hu : UnitVec l.dir) (k : ℤ) (hk0 : (k : ℝ) ≤ 2147483647 * rnd0) (hk1 : 2147483647 * rnd0 < k + 1)
    (ps : List Part) (hr : kochMotzSecondaries fuel primary l Z rnd0 rnd1 g = some (some ps, h)) :
    ∃ phi e γ, ps = [e, γ] ∧ 0 ≤ phi ∧ phi ≤ Real.pi ∧ l.dir.dot γ.dir = Real.cos phi ∧ γ.energy = l.energy ∧
      e.energy = l.parentEnergy - l.energy ∧ ∃ j < fuel,
      phi = phiCandidate (l.parentEnergy / ME) (drawn g k (2 * fuel) (2 * j)) ∧
      drawn g k (2 * fuel) (2 * j + 1) ≤ kmAcceptance ((l.parentEnergy - l.energy) / ME) (l.parentEnergy / ME) Z phi ∧
      ∀ i < j, kmAcceptance ((l.parentEnergy - l.energy) / ME) (l.parentEnergy / ME) Z
        (phiCandidate (l.parentEnergy / ME) (drawn g k (2 * fuel) (2 * i))) < drawn g k (2 * fuel) (2 * i + 1) := by
  have hM : 0 < ME := by norm_num [ME]
  have hs : kochMotzSeed rnd0 = k := Int.floor_eq_iff.2 ⟨hk0, hk1⟩
  unfold kochMotzSecondaries at hr
  rw [hs] at hr
  split at hr
  · cases hr
  · next phi s hl =>
    have hg' : (g.setSeed k).custom = none := hg
    obtain ⟨p0, p1⟩ := C142_angle _ _ Z (div_pos hE hM) fuel (g.setSeed k) hg' phi s hl
    obtain ⟨j, hj, a1, a2, a3⟩ := (C142_first_accepted _ _ Z fuel (g.setSeed k) hg' phi).1 ⟨s, hl⟩
    rw [Option.some.injEq, Prod.mk.injEq] at hr
    have hb := hr.1
    unfold bremsSecondaries at hb
    split at hb
    · cases hb
    · next d hd =>
      injection hb with hb
      refine ⟨phi, _, _, hb.symm, p0, p1, ?_, rfl, rfl, j, hj, a1, a2, a3⟩
      unfold bremsDirections at hd
      simp only at hd
      split at hd
      · cases hd
      · obtain ⟨e, -, rfl⟩ := Option.map_eq_some_iff.1 hd
        exact C45_deflect_angle l.dir hu _ _ (Real.neg_one_le_cos _) (Real.cos_le_one _)

/-- C142: every seed below the largest `int` is used, by random numbers of one interval; different intervals give different
numbers. -/
theorem C142_seeds (g : RandomGen) (hg : g.custom = none) (r s : ℝ) (hr0 : 0 ≤ r) (hr1 : r < 1) (hs0 : 0 ≤ s) (hs1 : s < 1)
    (h : 1 / 2147483647 ≤ |r - s|) :
    (g.setSeed (kochMotzSeed r)).numbers 312 ≠ (g.setSeed (kochMotzSeed s)).numbers 312 := by
  have key : ∀ x : ℝ, 0 ≤ x → x < 1 → 0 ≤ kochMotzSeed x ∧ kochMotzSeed x ≤ 2147483647 := by
    intro x h0 h1
    unfold kochMotzSeed
    refine ⟨Int.floor_nonneg.2 (by positivity), ?_⟩
    have : (⌊(2147483647 : ℝ) * x⌋ : ℝ) ≤ (2147483647 : ℤ) := (Int.floor_le _).trans (by push_cast; linarith)
    exact_mod_cast this
  obtain ⟨a0, a1⟩ := key r hr0 hr1
  obtain ⟨b0, b1⟩ := key s hs0 hs1
  refine C141_seeds_differ g g hg hg _ _ ?_ (by linarith) a1 (by linarith) b1
  intro e
  have f1 := Int.floor_le ((2147483647 : ℝ) * r)
  have f2 := Int.lt_floor_add_one ((2147483647 : ℝ) * r)
  have f3 := Int.floor_le ((2147483647 : ℝ) * s)
  have f4 := Int.lt_floor_add_one ((2147483647 : ℝ) * s)
  change ⌊(2147483647 : ℝ) * r⌋ = ⌊(2147483647 : ℝ) * s⌋ at e
  rw [e] at f1 f2
  have : |r - s| < 1 / 2147483647 := by
    rw [abs_lt]
    constructor <;> linarith
  linarith

set_option maxRecDepth 100000 in
private lemma words5489 : (mtCall (mtSeed 5489)).1 = 3499211612 ∧ (mtCall (mtStep (mtSeed 5489))).1 = 581869302 ∧
    (mtCall (mtStep (mtStep (mtSeed 5489)))).1 = 3890346734 ∧ (mtCall (mtStep (mtStep (mtStep (mtSeed 5489))))).1 = 3586334585 := by
  decide +kernel

/-- C141: after the default seed 5489 of the C++ standard the generator returns the known first numbers of `mt19937`. -/
theorem C141_known_numbers (g : RandomGen) (hg : g.custom = none) :
    (g.setSeed 5489).numbers 2 = [(3499211612 + 581869302 * 2 ^ 32) / 2 ^ 64, (3890346734 + 3586334585 * 2 ^ 32) / 2 ^ 64] := by
  obtain ⟨w1, w2, w3, w4⟩ := words5489
  have h := numbers_state (g.setSeed 5489) hg 2 0
  simp only [Function.iterate_zero, id_eq] at h
  rw [h]
  have e0 : (mtDouble (mtSeed 5489)).1 = (((mtCall (mtSeed 5489)).1 : ℝ) + ((mtCall (mtStep (mtSeed 5489))).1 : ℝ) * 2 ^ 32) / 2 ^ 64 := rfl
  have e1 : (mtDouble (mtStep (mtStep (mtSeed 5489)))).1 = (((mtCall (mtStep (mtStep (mtSeed 5489)))).1 : ℝ) +
      ((mtCall (mtStep (mtStep (mtStep (mtSeed 5489))))).1 : ℝ) * 2 ^ 32) / 2 ^ 64 := rfl
  rw [w1, w2] at e0
  rw [w3, w4] at e1
  push_cast at e0 e1
  rw [← e0, ← e1]
  rfl

/-- An electron of 17 rest energies which loses 14 of them in oxygen: the call returns two particles. -/
example (g : RandomGen) (hg : g.custom = none) : ∃ ps h phi e γ,
    kochMotzSecondaries 1 sEMinus kmLossExample 8 (54 / 2147483647) (1 / 3) g = some (some ps, h) ∧ ps = [e, γ] ∧
      kmLossExample.dir.dot γ.dir = Real.cos phi ∧ phi = phiCandidate 17 (drawn g 54 2 0) := by
  have hM : (0 : ℝ) < ME := by norm_num [ME]
  obtain ⟨r, h, hr⟩ := kmExample_runs g
  have hu : UnitVec kmLossExample.dir := by norm_num [kmLossExample, UnitVec]
  have hs : ∃ ps, r = some ps := by
    unfold kochMotzSecondaries at hr
    split at hr
    · cases hr
    · next phi _ _ =>
      rw [Option.some.injEq, Prod.mk.injEq] at hr
      obtain ⟨ps, h1, -⟩ := C44_bremsstrahlung (.kochMotz phi) sEMinus kmLossExample (1 / 3) hu (by norm_num [sEMinus, ME])
        (by norm_num [sEMinus, kmLossExample, ME]) (by norm_num [kmLossExample, ME])
        (by norm_num [kmLossExample, limBremsDefault, sEMinus, ME])
      exact ⟨ps, hr.1 ▸ h1⟩
  obtain ⟨ps, rfl⟩ := hs
  obtain ⟨phi, e, γ, h1, -, -, h2, -, -, j, hj, h3, -⟩ := C142_loss 1 sEMinus kmLossExample 8 (54 / 2147483647) (1 / 3) g h hg
    (by norm_num [kmLossExample, ME]) hu 54 (by norm_num) (by norm_num) ps hr
  obtain rfl : j = 0 := by omega
  refine ⟨ps, h, phi, e, γ, hr, h1, h2, ?_⟩
  rw [h3]
  congr 1
  simp only [kmLossExample]
  field_simp

/-- The seeds 0 and 1073741823 of the random numbers 0 and 1/2. -/
example (g : RandomGen) (hg : g.custom = none) : (g.setSeed (kochMotzSeed 0)).numbers 312 ≠ (g.setSeed (kochMotzSeed (1 / 2))).numbers 312 :=
  C142_seeds g hg 0 (1 / 2) le_rfl (by norm_num) (by norm_num) (by norm_num) (by norm_num)

end Proposal
