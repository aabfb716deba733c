import Verif.Model.RandomEngine
import Mathlib.Tactic.Linarith
import Mathlib.Tactic.Ring
import Mathlib.Tactic.NormNum
import Mathlib.Tactic.Positivity
import Mathlib.Tactic.FieldSimp
import Mathlib.Logic.Function.Iterate

/-!
# Lemmas on the engine of the random numbers

The tempering and the multiplication with the twist matrix can be inverted, and 624 outputs determine the state up to 31 bits of its oldest word.
-/

namespace Proposal

theorem shr_inj (k : ℕ) (hk : 0 < k) (x y : Word) (h : x ^^^ (x >>> k) = y ^^^ (y >>> k)) : x = y := by
  have key : ∀ n i, 32 - i = n → x.getLsbD i = y.getLsbD i := by
    intro n
    induction n using Nat.strong_induction_on with
    | _ n ih =>
      intro i hi
      by_cases h32 : 32 ≤ i
      · rw [BitVec.getLsbD_of_ge _ _ h32, BitVec.getLsbD_of_ge _ _ h32]
      · have h1 := ih (32 - (k + i)) (by omega) (k + i) rfl
        have h2 := congrArg (fun w => w.getLsbD i) h
        simp only [BitVec.getLsbD_xor, BitVec.getLsbD_ushiftRight] at h2
        rw [h1] at h2
        simpa using h2
  exact BitVec.eq_of_getLsbD_eq (fun i _ => key _ i rfl)

theorem shl_inj (k : ℕ) (hk : 0 < k) (m x y : Word) (h : x ^^^ ((x <<< k) &&& m) = y ^^^ ((y <<< k) &&& m)) : x = y := by
  have key : ∀ i, i < 32 → x.getLsbD i = y.getLsbD i := by
    intro i
    induction i using Nat.strong_induction_on with
    | _ i ih =>
      intro hi
      have h2 := congrArg (fun w => w.getLsbD i) h
      simp only [BitVec.getLsbD_xor, BitVec.getLsbD_and, BitVec.getLsbD_shiftLeft] at h2
      by_cases hik : i < k
      · simpa [hik] using h2
      · rw [ih (i - k) (by omega) (by omega)] at h2
        simpa using h2
  exact BitVec.eq_of_getLsbD_eq (fun i hi => key i hi)

theorem mtTemper_inj (x y : Word) (h : mtTemper x = mtTemper y) : x = y := by
  unfold mtTemper at h
  exact shr_inj 11 (by norm_num) _ _ (shl_inj 7 (by norm_num) _ _ _ (shl_inj 15 (by norm_num) _ _ _
    (shr_inj 18 (by norm_num) _ _ h)))

theorem mtTwist_inj (x y : Word) (h : mtTwist x = mtTwist y) : x = y := by
  unfold mtTwist at h
  have h31 := congrArg (fun w => w.getLsbD 31) h
  have e : ∀ z : Word, ((z >>> 1) ^^^ (if z.getLsbD 0 then 0x9908b0df#32 else 0#32)).getLsbD 31 = z.getLsbD 0 := by
    intro z
    rw [BitVec.getLsbD_xor, BitVec.getLsbD_ushiftRight, BitVec.getLsbD_of_ge z _ (by norm_num)]
    cases hz : z.getLsbD 0 <;> simp
  simp only [e] at h31
  rw [h31] at h
  have h' : x >>> 1 = y >>> 1 := by
    have := congrArg (fun w => w ^^^ (if y.getLsbD 0 then 0x9908b0df#32 else 0#32)) h
    simpa [BitVec.xor_assoc] using this
  refine BitVec.eq_of_getLsbD_eq (fun i hi => ?_)
  rcases Nat.eq_zero_or_pos i with rfl | hp
  · exact h31
  · have := congrArg (fun w => w.getLsbD (i - 1)) h'
    simp only [BitVec.getLsbD_ushiftRight] at this
    rwa [show 1 + (i - 1) = i by omega] at this

theorem mtJoin_bit (a b : Word) (i : ℕ) (hi : i < 32) : (mtJoin a b).getLsbD i = if i = 31 then a.getLsbD i else b.getLsbD i := by
  have h1 : ∀ j < 32, (0x80000000#32).getLsbD j = decide (j = 31) := by decide
  have h2 : ∀ j < 32, (0x7fffffff#32).getLsbD j = !decide (j = 31) := by decide
  unfold mtJoin
  rw [BitVec.getLsbD_or, BitVec.getLsbD_and, BitVec.getLsbD_and, h1 i hi, h2 i hi]
  by_cases h : i = 31 <;> simp [h]

theorem seedStep_inj (c x y : Word) (h : 1812433253#32 * (x ^^^ (x >>> 30)) + c = 1812433253#32 * (y ^^^ (y >>> 30)) + c) : x = y := by
  refine shr_inj 30 (by norm_num) _ _ ?_
  have h1 : 1812433253#32 * (x ^^^ (x >>> 30)) = 1812433253#32 * (y ^^^ (y >>> 30)) := by
    have := congrArg (fun w => w - c) h
    simpa [BitVec.add_sub_cancel] using this
  have h2 := congrArg (fun w => 2520285293#32 * w) h1
  have hu : 2520285293#32 * 1812433253#32 = 1#32 := by decide
  simp only [← BitVec.mul_assoc, hu, BitVec.one_mul] at h2
  exact h2

/-- The sequence of words: word k is the oldest word after k steps. -/
def mtWord (s : Mt) (k : ℕ) : Word := (mtStep^[k] s) 0

theorem mtWord_state (s : Mt) (k : ℕ) (i : Fin 624) : (mtStep^[k] s) i = mtWord s (k + i.val) := by
  obtain ⟨i, hi⟩ := i
  induction i generalizing k with
  | zero => rfl
  | succ i ih =>
    have := ih (k + 1) (by omega)
    rw [Function.iterate_succ_apply'] at this
    have e : mtStep (mtStep^[k] s) ⟨i, by omega⟩ = (mtStep^[k] s) ⟨i + 1, hi⟩ := by
      unfold mtStep
      simp only
      rw [dif_pos hi]
    rw [e] at this
    rw [this]
    congr 1
    simp only
    omega

theorem mtWord_zero (s : Mt) (i : Fin 624) : mtWord s i.val = s i := by
  have := mtWord_state s 0 i
  rw [Nat.zero_add] at this
  exact this.symm

theorem mtNew_word (s : Mt) (k : ℕ) : mtNew (mtStep^[k] s) = mtWord s (k + 624) := by
  have h := mtWord_state s (k + 1) ⟨623, by norm_num⟩
  rw [Function.iterate_succ_apply'] at h
  rw [show k + 624 = k + 1 + 623 by omega, ← h]
  unfold mtStep
  simp

theorem mtWord_rec (s : Mt) (k : ℕ) : mtWord s (k + 624) = mtWord s (k + 397) ^^^ mtTwist (mtJoin (mtWord s k) (mtWord s (k + 1))) := by
  rw [← mtNew_word, mtNew, mtWord_state, mtWord_state, mtWord_state]
  rfl

theorem join_of_words (s t : Mt) (k : ℕ) (h1 : mtWord s (k + 624) = mtWord t (k + 624)) (h2 : mtWord s (k + 397) = mtWord t (k + 397)) :
    mtJoin (mtWord s k) (mtWord s (k + 1)) = mtJoin (mtWord t k) (mtWord t (k + 1)) := by
  rw [mtWord_rec s, mtWord_rec t, h2] at h1
  apply mtTwist_inj
  have := congrArg (fun w => mtWord t (k + 397) ^^^ w) h1
  simpa [← BitVec.xor_assoc] using this

theorem word_of_joins (s t : Mt) (k : ℕ)
    (h1 : mtJoin (mtWord s k) (mtWord s (k + 1)) = mtJoin (mtWord t k) (mtWord t (k + 1)))
    (h2 : mtJoin (mtWord s (k + 1)) (mtWord s (k + 1 + 1)) = mtJoin (mtWord t (k + 1)) (mtWord t (k + 1 + 1))) :
    mtWord s (k + 1) = mtWord t (k + 1) := by
  refine BitVec.eq_of_getLsbD_eq (fun i hi => ?_)
  by_cases h : i = 31
  · have := congrArg (fun w => w.getLsbD i) h2
    simp only [mtJoin_bit _ _ _ hi] at this
    simpa only [h, if_true, if_false] using this
  · have := congrArg (fun w => w.getLsbD i) h1
    simp only [mtJoin_bit _ _ _ hi] at this
    simpa only [h, if_true, if_false] using this

/-- 624 outputs determine the words 1 to 623. -/
theorem words_of_outputs (s t : Mt) (h : ∀ k < 624, mtWord s (k + 624) = mtWord t (k + 624)) :
    ∀ k, 0 < k → k < 624 → mtWord s k = mtWord t k := by
  have hA : ∀ k, 227 ≤ k → k < 624 → mtJoin (mtWord s k) (mtWord s (k + 1)) = mtJoin (mtWord t k) (mtWord t (k + 1)) := by
    intro k h1 h2
    refine join_of_words s t k (h k h2) ?_
    have := h (k - 227) (by omega)
    rwa [show k - 227 + 624 = k + 397 by omega] at this
  have hB : ∀ k, 228 ≤ k → k < 624 → mtWord s k = mtWord t k := by
    intro k h1 h2
    have := word_of_joins s t (k - 1) (hA (k - 1) (by omega) (by omega))
    rw [show k - 1 + 1 = k by omega] at this
    exact this (hA k (by omega) h2)
  have hC : ∀ k, k < 624 → mtJoin (mtWord s k) (mtWord s (k + 1)) = mtJoin (mtWord t k) (mtWord t (k + 1)) := by
    intro k h2
    by_cases h1 : 227 ≤ k
    · exact hA k h1 h2
    · exact join_of_words s t k (h k h2) (hB (k + 397) (by omega) (by omega))
  intro k h1 h2
  have := word_of_joins s t (k - 1) (hC (k - 1) (by omega))
  rw [show k - 1 + 1 = k by omega] at this
  exact this (hC k h2)

theorem mtDouble_eq (s : Mt) (k : ℕ) : mtDouble (mtStep^[k] s) =
    ((((mtTemper (mtWord s (k + 624))).toNat : ℝ) + ((mtTemper (mtWord s (k + 1 + 624))).toNat : ℝ) * 2 ^ 32) / 2 ^ 64, mtStep^[k + 2] s) := by
  unfold mtDouble mtCall
  simp only
  rw [mtNew_word, ← Function.iterate_succ_apply' mtStep k s, mtNew_word, ← Function.iterate_succ_apply' mtStep (k + 1) s]

theorem two_words (a b c d : Word) (h : (((a.toNat : ℝ) + (b.toNat : ℝ) * 2 ^ 32) / 2 ^ 64) = (((c.toNat : ℝ) + (d.toNat : ℝ) * 2 ^ 32) / 2 ^ 64)) :
    a = c ∧ b = d := by
  have h1 : a.toNat + b.toNat * 2 ^ 32 = c.toNat + d.toNat * 2 ^ 32 := by
    have h2 : (a.toNat : ℝ) + (b.toNat : ℝ) * 2 ^ 32 = (c.toNat : ℝ) + (d.toNat : ℝ) * 2 ^ 32 := by
      have := congrArg (fun z : ℝ => z * 2 ^ 64) h
      simpa using this
    exact_mod_cast h2
  have ha := a.isLt
  have hc := c.isLt
  constructor <;> apply BitVec.eq_of_toNat_eq <;> omega

theorem numbers_state (g : RandomGen) (hg : g.custom = none) (n k : ℕ) :
    RandomGen.numbers n { g with engine := mtStep^[k] g.engine } =
      (List.range n).map fun j => (mtDouble (mtStep^[k + 2 * j] g.engine)).1 := by
  induction n generalizing k with
  | zero => rfl
  | succ n ih =>
    rw [RandomGen.numbers, List.range_succ_eq_map, List.map_cons, List.map_map]
    congr 1
    · simp [RandomGen.double, hg]
    · have : (RandomGen.double { g with engine := mtStep^[k] g.engine }).2 = { g with engine := mtStep^[k + 2] g.engine } := by
        simp [RandomGen.double, hg, mtDouble_eq]
      rw [this, ih (k + 2)]
      refine List.map_congr_left fun j _ => ?_
      simp only [Function.comp]
      rw [show k + 2 + 2 * j = k + 2 * (j + 1) by ring]

end Proposal
