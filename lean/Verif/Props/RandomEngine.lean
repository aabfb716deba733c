import Verif.Lemmas.RandomEngine

/-!
# Seeds and the state of the random generator (C141)
-/

namespace Proposal

/-- The generator after `n` numbers were taken. -/
noncomputable def Spec.afterNumbers : ℕ → RandomGen → RandomGen
  | 0, g => g
  | n + 1, g => Spec.afterNumbers n g.double.2

open Spec

/-- C141: without a function of the user all numbers are in [0, 1). -/
theorem C141_unit_interval (g : RandomGen) (hg : g.custom = none) (n : ℕ) : ∀ u ∈ g.numbers n, 0 ≤ u ∧ u < 1 := by
  have h := numbers_state g hg n 0
  simp only [Function.iterate_zero, id_eq] at h
  intro u hu
  rw [h, List.mem_map] at hu
  obtain ⟨j, _, rfl⟩ := hu
  rw [mtDouble_eq]
  simp only
  generalize mtTemper (mtWord g.engine (0 + 2 * j + 624)) = a
  generalize mtTemper (mtWord g.engine (0 + 2 * j + 1 + 624)) = b
  refine ⟨by positivity, ?_⟩
  rw [div_lt_one (by positivity)]
  have ha := a.isLt
  have hb := b.isLt
  have : a.toNat + b.toNat * 2 ^ 32 < 2 ^ 64 := by omega
  exact_mod_cast this

/-- C141: after `SetSeed` the numbers depend on the seed alone, not on what was done with the generator before. -/
theorem C141_seed_determines (g h : RandomGen) (hg : g.custom = none) (hh : h.custom = none) (seed : ℤ) (n : ℕ) :
    (g.setSeed seed).numbers n = (h.setSeed seed).numbers n := by
  have h1 := numbers_state (g.setSeed seed) hg n 0
  have h2 := numbers_state (h.setSeed seed) hh n 0
  exact h1.trans h2.symm

/-- C141: two different seeds of type `int` give different numbers; among the first 312 there is a difference. -/
theorem C141_seeds_differ (g h : RandomGen) (hg : g.custom = none) (hh : h.custom = none) (a b : ℤ) (hab : a ≠ b)
    (ha0 : -2147483648 ≤ a) (ha1 : a ≤ 2147483647) (hb0 : -2147483648 ≤ b) (hb1 : b ≤ 2147483647) :
    (g.setSeed a).numbers 312 ≠ (h.setSeed b).numbers 312 := by
  intro heq
  have h1 := numbers_state (g.setSeed a) hg 312 0
  have h2 := numbers_state (h.setSeed b) hh 312 0
  have h3 := h1.symm.trans (heq.trans h2)
  rw [List.map_inj_left] at h3
  have hw : ∀ k < 624, mtWord (mtSeed a) (k + 624) = mtWord (mtSeed b) (k + 624) := by
    intro k hk
    have h4 := h3 (k / 2) (List.mem_range.2 (by omega))
    simp only [RandomGen.setSeed, mtDouble_eq] at h4
    have h5 := two_words _ _ _ _ h4
    rcases Nat.mod_two_eq_zero_or_one k with h6 | h6
    · have := mtTemper_inj _ _ h5.1
      rwa [show 0 + 2 * (k / 2) = k by omega] at this
    · have := mtTemper_inj _ _ h5.2
      rwa [show 0 + 2 * (k / 2) + 1 = k by omega] at this
  have h7 := words_of_outputs _ _ hw 1 (by norm_num) (by norm_num)
  have h8 := mtWord_zero (mtSeed a) ⟨1, by norm_num⟩
  have h9 := mtWord_zero (mtSeed b) ⟨1, by norm_num⟩
  simp only at h8 h9
  rw [h8, h9] at h7
  have h10 := seedStep_inj _ _ _ h7
  have h11 : a % 4294967296 = b % 4294967296 := by
    have := congrArg BitVec.toNat h10
    simp only [mtSeedWord, BitVec.toNat_ofInt] at this
    omega
  omega

private lemma ofFn_get (n : ℕ) (f : Fin n → Word) (h : (List.ofFn f).length = n) (i : Fin n) : (List.ofFn f).get (i.cast h.symm) = f i := by
  simp

/-- C141: what `Serialize` wrote brings any generator to the numbers that followed, also the same generator after it was used or seeded. -/
theorem C141_restore (g h : RandomGen) (hg : g.custom = none) (hh : h.custom = none) (n : ℕ) :
    (h.deserialize g.serialize).numbers n = g.numbers n := by
  have e : h.deserialize g.serialize = { h with engine := g.engine } := by
    unfold RandomGen.deserialize RandomGen.serialize
    rw [dif_pos List.length_ofFn]
    refine congrArg (fun e => ({ h with engine := e } : RandomGen)) ?_
    funext i
    exact ofFn_get 624 g.engine List.length_ofFn i
  have h1 := numbers_state { h with engine := g.engine } hh n 0
  have h2 := numbers_state g hg n 0
  rw [e]
  exact h1.trans h2.symm

/-- C141: a function of the user gives its own numbers in their order; neither a seed nor a saved state changes them, and the engine stays
where it was, so that after `SetDefaultRandomNumberGenerator` the numbers go on as if the function had never been set. -/
theorem C141_custom (g : RandomGen) (f : ℕ → ℝ) (seed : ℤ) (text : List Word) (k n : ℕ) :
    (g.setCustom f).numbers n = (List.range n).map f ∧
      ((afterNumbers k (g.setCustom f)).setSeed seed).numbers n = (List.range n).map (fun j => f (k + j)) ∧
      ((afterNumbers k (g.setCustom f)).deserialize text).numbers n = (List.range n).map (fun j => f (k + j)) ∧
      (g.custom = none → (afterNumbers k (g.setCustom f)).setDefault.numbers n = g.numbers n) := by
  have key : ∀ n (h : RandomGen), h.custom = some f → h.numbers n = (List.range n).map (fun j => f (h.used + j)) := by
    intro n
    induction n with
    | zero => intro h _; rfl
    | succ n ih =>
      intro h hc
      rw [RandomGen.numbers, List.range_succ_eq_map, List.map_cons, List.map_map]
      have e : h.double = (f h.used, { h with used := h.used + 1 }) := by simp [RandomGen.double, hc]
      rw [e, ih { h with used := h.used + 1 } hc]
      congr 1
      refine List.map_congr_left fun j _ => ?_
      simp only [Function.comp]
      congr 1
      omega
  have aft : ∀ k (h : RandomGen), h.custom = some f → afterNumbers k h = { h with used := h.used + k } := by
    intro k
    induction k with
    | zero => intro h _; rfl
    | succ k ih =>
      intro h hc
      have e : h.double.2 = { h with used := h.used + 1 } := by simp [RandomGen.double, hc]
      rw [Spec.afterNumbers, e, ih { h with used := h.used + 1 } hc]
      simp only
      congr 1
      omega
  have ha := aft k (g.setCustom f) rfl
  refine ⟨?_, ?_, ?_, ?_⟩
  · rw [key n (g.setCustom f) rfl]
    simp [RandomGen.setCustom]
  · rw [ha, key n _ rfl]
    simp [RandomGen.setCustom, RandomGen.setSeed]
  · rw [ha]
    have hu : ∀ w : RandomGen, (w.deserialize text).used = w.used ∧ (w.deserialize text).custom = w.custom := by
      intro w
      unfold RandomGen.deserialize
      split <;> exact ⟨rfl, rfl⟩
    rw [key n _ ((hu _).2.trans rfl), (hu _).1]
    simp [RandomGen.setCustom]
  · intro hg
    rw [ha]
    have h1 := numbers_state ({ g.setCustom f with used := (g.setCustom f).used + k } : RandomGen).setDefault rfl n 0
    have h2 := numbers_state g hg n 0
    exact h1.trans h2.symm

/-- The generator of a program that has just started, seeded with 5489, and one after a seed of its own. -/
noncomputable def Spec.fresh : RandomGen := ⟨mtSeed 5489, none, 0⟩

set_option maxRecDepth 100000 in
/-- The first word of the engine, as listed for `std::mt19937`. -/
example : (mtCall Spec.fresh.engine).1 = 3499211612 := by decide +kernel

/-- The seeds 1 and 2. -/
example : (fresh.setSeed 1).numbers 312 ≠ (fresh.setSeed 2).numbers 312 :=
  C141_seeds_differ fresh fresh rfl rfl 1 2 (by norm_num) (by norm_num) (by norm_num) (by norm_num) (by norm_num)

/-- A negative seed differs from a positive one. -/
example : (fresh.setSeed (-1)).numbers 312 ≠ (fresh.setSeed 1).numbers 312 :=
  C141_seeds_differ fresh fresh rfl rfl (-1) 1 (by norm_num) (by norm_num) (by norm_num) (by norm_num) (by norm_num)

/-- A saved state is taken up after five numbers and a new seed. -/
example : (((afterNumbers 5 (fresh.setSeed 3)).setSeed 4).deserialize fresh.serialize).numbers 7 = fresh.numbers 7 :=
  C141_restore _ _ rfl (by simp [afterNumbers, RandomGen.double, RandomGen.setSeed, fresh]) 7

end Proposal
