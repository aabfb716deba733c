import Verif.Props.Romberg

/-!
# C97: when the Romberg integration is content
-/

open Polynomial

namespace Proposal

/-- The extrapolation to zero of values `S j` at `1 / w ^ j`, for the `n` values from the index `j₀` on. -/
def Spec.Extrapolation (S : ℕ → ℝ) (w : ℝ) (j₀ n : ℕ) (y : ℝ) : Prop :=
  ∃ P : ℝ[X], P.natDegree < n ∧ (∀ j, j₀ ≤ j → j < j₀ + n → P.eval (1 / w ^ j) = S j) ∧ P.eval 0 = y

/-- The value and the error of the scheme: the extrapolation from all nodes, and its difference from one with a node less. -/
private lemma interpolate_error {X Y : ℕ → ℝ} {n : ℕ} (hn : 2 ≤ n) (hX : DistinctNodes X n) (x : ℝ) :
    (interpolateNodes X Y n x).1 = nv X Y x (n - 1) 0 ∧
    ∃ j ≤ 1, (interpolateNodes X Y n x).2 = nv X Y x (n - 1) 0 - nv X Y x (n - 2) j := by
  unfold interpolateNodes
  dsimp only
  generalize hdd : (if (nearestNode X x n).1 = 0 then true
      else if (nearestNode X x n).1 = n - 1 then false
        else _ : Bool) = dd
  have h0 : Scheme X Y x n 0 ⟨Y, Y, (nearestNode X x n).1, dd, Y (nearestNode X x n).1, 0⟩ := by
    refine ⟨by simpa using nearestNode_lt X x n (by omega), by simp [nv, nev], ?_⟩
    intro i _
    simp [nv, nev]
  obtain ⟨m, rfl⟩ : ∃ m, n = m + 2 := ⟨n - 2, by omega⟩
  rw [show m + 2 - 1 = m + 1 from rfl, Nat.add_sub_cancel, List.range'_concat, List.foldl_append]
  simp only [List.foldl_cons, List.foldl_nil, one_mul]
  have h1 := loop_scheme hX x _ h0 m (by omega)
  rw [Nat.add_comm 1 m]
  have h2 := stage_scheme hX x m (by omega) _ h1
  have hz : ∀ i, i + (m + 1) < m + 2 → i = 0 := fun i h => by omega
  refine ⟨by rw [h2.result, hz _ h2.num], ?_⟩
  obtain ⟨i, j, hi, hj, he⟩ := stage_error hX x m (by omega) _ h1
  exact ⟨j, by omega, by rw [he, hz _ hi]⟩

private lemma nodes_distinct (q : ℕ) (hq : 2 ≤ q) (s n : ℕ) : DistinctNodes (fun j => 1 / ((q : ℝ) * q) ^ (s + j)) n := by
  have hq0 : (1 : ℝ) < (q : ℝ) * q := by
    have : (2 : ℝ) ≤ q := by exact_mod_cast hq
    nlinarith
  intro a _ b _ h
  beta_reduce at h
  have h' : ((q : ℝ) * q) ^ (s + a) = (q * q) ^ (s + b) := by
    have h1 : (0 : ℝ) < (q * q) ^ (s + a) := by positivity
    have h2 : (0 : ℝ) < (q * q) ^ (s + b) := by positivity
    rw [div_eq_div_iff h1.ne' h2.ne'] at h
    linarith
  have := pow_right_injective₀ (by linarith) hq0.ne' h'
  omega

private lemma nev_congr {X Y X' Y' : ℕ → ℝ} {n : ℕ} (hx : ∀ j < n, X j = X' j) (hy : ∀ j < n, Y j = Y' j) :
    ∀ k i, i + k < n → nev X Y k i = nev X' Y' k i := by
  intro k
  induction k with
  | zero => intro i h; simp only [nev, hy i (by omega)]
  | succ k ih =>
    intro i h
    simp only [nev, ih i (by omega), ih (i + 1) (by omega), hx i (by omega), hx (i + (k + 1)) h]

private lemma extrapolation (S : ℕ → ℝ) (q : ℕ) (hq : 2 ≤ q) (s n k i : ℕ) (h : i + k < n) :
    Spec.Extrapolation S ((q : ℝ) * q) (s + i) (k + 1)
      (nv (fun j => 1 / ((q : ℝ) * q) ^ (s + j)) (fun j => S (s + j)) 0 k i) := by
  refine ⟨nev (fun j => 1 / ((q : ℝ) * q) ^ (s + j)) (fun j => S (s + j)) k i, Nat.lt_succ_of_le (nev_degree _ _ _ _), ?_, rfl⟩
  intro j h1 h2
  obtain ⟨j, rfl⟩ : ∃ m, j = s + m := ⟨j - s, by omega⟩
  exact nev_through (nodes_distinct q hq s n) k i j h (by omega) (by omega)

/-- The values that the loop accepts. -/
def Spec.Accepted (S : ℕ → ℝ) (w : ℝ) (romberg : ℕ) (precision v : ℝ) (big : Option ℝ) (i : ℕ) : Prop :=
  ∃ j ≤ 1, ∃ v', Spec.Extrapolation S w (i - (romberg - 1)) romberg v ∧
    Spec.Extrapolation S w (i - (romberg - 1) + j) (romberg - 1) v' ∧
    |v - v'| < precision * (match big with | some b => |b| | none => if v = 0 then 1 else |v|)

private lemma rombergLoop_value (T : ℕ → ℝ → ℝ) (q size romberg : ℕ) (precision : ℝ) (big : Option ℝ) (qags : ℝ) (hq : 2 ≤ q)
    (hr : 2 ≤ romberg) (S : ℕ → ℝ) (hS0 : T 1 0 = S 0) (hS : ∀ i, T (q ^ (i + 1)) (S i) = S (i + 1)) (v : ℝ) :
    ∀ fuel i X Y, (∀ j < i, X j = 1 / ((q : ℝ) * q) ^ j ∧ Y j = S j) →
      rombergLoop T q size romberg precision big qags fuel i (q ^ i) (1 / ((q : ℝ) * q) ^ i)
        (if i = 0 then 0 else S (i - 1)) X Y = some v →
      v = qags ∨ ∃ i', i ≤ i' ∧ i' < i + fuel ∧ romberg - 1 ≤ i' ∧ Spec.Accepted S ((q : ℝ) * q) romberg precision v big i' := by
  classical
  have hTi : ∀ i, T (q ^ i) (if i = 0 then 0 else S (i - 1)) = S i := by
    intro i
    rcases Nat.eq_zero_or_pos i with h | h
    · subst h; simpa using hS0
    · obtain ⟨i, rfl⟩ : ∃ k, i = k + 1 := ⟨i - 1, by omega⟩
      rw [if_neg (by omega), Nat.add_sub_cancel, hS]
  intro fuel
  induction fuel with
  | zero =>
    intro i X Y _ h
    simp only [rombergLoop, Option.some.injEq] at h
    exact Or.inl h.symm
  | succ fuel ih =>
    intro i X Y hXY h
    unfold rombergLoop at h
    by_cases hsz : size ≤ i
    · rw [if_pos hsz] at h; cases h
    rw [if_neg hsz] at h
    dsimp only at h
    rw [hTi i] at h
    have hXY' : ∀ j < i + 1, Function.update X i (1 / ((q : ℝ) * q) ^ i) j = 1 / ((q : ℝ) * q) ^ j ∧
        Function.update Y i (S i) j = S j := by
      intro j hj
      rcases Nat.lt_or_ge j i with h | h
      · rw [Function.update_of_ne (by omega), Function.update_of_ne (by omega)]
        exact hXY j h
      · have : j = i := by omega
        subst this
        rw [Function.update_self, Function.update_self]
        exact ⟨rfl, rfl⟩
    generalize Function.update X i (1 / ((q : ℝ) * q) ^ i) = X' at h hXY'
    generalize Function.update Y i (S i) = Y' at h hXY'
    have hnext : rombergLoop T q size romberg precision big qags fuel (i + 1) (q ^ i * q) (1 / ((q : ℝ) * q) ^ i / (q * q)) (S i) X' Y' = some v →
        v = qags ∨ ∃ i', i ≤ i' ∧ i' < i + (fuel + 1) ∧ romberg - 1 ≤ i' ∧ Spec.Accepted S ((q : ℝ) * q) romberg precision v big i' := by
      intro hn
      have he : 1 / ((q : ℝ) * q) ^ i / (q * q) = 1 / ((q : ℝ) * q) ^ (i + 1) := by rw [div_div, ← pow_succ]
      rw [he, ← pow_succ] at hn
      rcases ih (i + 1) X' Y' hXY' (by rw [if_neg (by omega), Nat.add_sub_cancel]; exact hn) with h' | ⟨i', a, b, c, d⟩
      · exact Or.inl h'
      · exact Or.inr ⟨i', by omega, by omega, c, d⟩
    by_cases hi : romberg - 1 ≤ i
    · rw [if_pos hi] at h
      generalize hs : i - (romberg - 1) = s at h
      have hx : ∀ j < romberg, (fun j => X' (s + j)) j = 1 / ((q : ℝ) * q) ^ (s + j) := fun j hj => (hXY' (s + j) (by omega)).1
      have hy : ∀ j < romberg, (fun j => Y' (s + j)) j = S (s + j) := fun j hj => (hXY' (s + j) (by omega)).2
      have hd : DistinctNodes (fun j => X' (s + j)) romberg := by
        intro a ha b hb hab
        rw [hx a ha, hx b hb] at hab
        exact nodes_distinct q hq s romberg a ha b hb hab
      obtain ⟨e1, j, hj, e2⟩ := interpolate_error (Y := fun j => Y' (s + j)) hr hd 0
      have c1 : nv (fun j => X' (s + j)) (fun j => Y' (s + j)) 0 (romberg - 1) 0 =
          nv (fun j => 1 / ((q : ℝ) * q) ^ (s + j)) (fun j => S (s + j)) 0 (romberg - 1) 0 := by
        unfold nv; rw [nev_congr hx hy _ _ (by omega)]
      have c2 : nv (fun j => X' (s + j)) (fun j => Y' (s + j)) 0 (romberg - 2) j =
          nv (fun j => 1 / ((q : ℝ) * q) ^ (s + j)) (fun j => S (s + j)) 0 (romberg - 2) j := by
        unfold nv; rw [nev_congr hx hy _ _ (by omega)]
      rw [c1] at e1
      rw [c1, c2] at e2
      have x1 := extrapolation S q hq s romberg (romberg - 1) 0 (by omega)
      have x2 := extrapolation S q hq s romberg (romberg - 2) j (by omega)
      rw [Nat.sub_add_cancel (by omega), add_zero] at x1
      rw [show romberg - 2 + 1 = romberg - 1 by omega] at x2
      generalize nv (fun j => 1 / ((q : ℝ) * q) ^ (s + j)) (fun j => S (s + j)) 0 (romberg - 1) 0 = A at e1 e2 x1
      generalize nv (fun j => 1 / ((q : ℝ) * q) ^ (s + j)) (fun j => S (s + j)) 0 (romberg - 2) j = B at e2 x2
      by_cases hacc : acceptRomberg precision big (interpolateNodes (fun j => X' (s + j)) (fun j => Y' (s + j)) romberg 0) = true
      · rw [if_pos hacc] at h
        have hv : v = A := by rw [← e1]; exact (Option.some.inj h).symm
        subst hv
        refine Or.inr ⟨i, le_rfl, by omega, hi, j, hj, B, by rw [hs]; exact x1, by rw [hs]; exact x2, ?_⟩
        unfold acceptRomberg at hacc
        rw [e1, e2] at hacc
        rcases big with _ | b
        · simp only [decide_eq_true_eq] at hacc
          by_cases hv : v = 0
          · simp only [hv, ne_eq, not_true_eq_false, if_false] at hacc ⊢
            simpa [hv] using hacc
          · simp only [ne_eq, hv, not_false_eq_true, if_true, if_false] at hacc ⊢
            rwa [abs_div, div_lt_iff₀ (abs_pos.2 hv)] at hacc
        · simp only [decide_eq_true_eq] at hacc ⊢
          have := hacc.2
          rwa [abs_div, div_lt_iff₀ (abs_pos.2 hacc.1)] at this
      · rw [if_neg hacc] at h
        exact hnext h
    · rw [if_neg hi] at h
      exact hnext h

/-- C97: what a Romberg integration returns is the value of the fallback, or it is the extrapolation to cells of no width from `romberg`
successive sums of the trapezoidal rule (midpoint rule, if the limits are left out), and one node less, the first or the last, changes it
by less than the precision relative to the value. -/
theorem C97_precision (size romberg : ℕ) (precision qags : ℝ) (hr : 2 ≤ romberg) (F : ℝ → ℝ) (lo hi : ℝ) (h : lo < hi) (v : ℝ) :
    (rombergClosed size romberg precision qags F lo hi = some v → v = qags ∨ ∃ i, romberg - 1 ≤ i ∧ i < 12 ∧
      Spec.Accepted (fun j => trapRule F lo ((hi - lo) / ((2 ^ j : ℕ) : ℝ)) (2 ^ j)) 4 romberg precision v none i) ∧
    (rombergOpened size romberg precision qags F lo hi = some v → v = qags ∨ ∃ i, romberg - 1 ≤ i ∧ i < 12 ∧
      Spec.Accepted (fun j => midRule F lo ((hi - lo) / ((3 ^ j : ℕ) : ℝ)) (3 ^ j)) 9 romberg precision v none i) := by
  constructor
  · intro hv
    have := rombergLoop_value (trapezoid F lo hi) 2 size romberg precision none qags le_rfl hr
      (fun j => trapRule F lo ((hi - lo) / ((2 ^ j : ℕ) : ℝ)) (2 ^ j)) (by simp [trapezoid, trapRule]; ring)
      (fun i => by have := trapezoid_double F lo hi h (2 ^ i) (by positivity); rw [pow_succ]; exact this) v 12 0 (fun _ => 0) (fun _ => 0)
      (by simp) (by simpa [rombergClosed] using hv)
    rcases this with h' | ⟨i, _, a, b, c⟩
    · exact Or.inl h'
    · refine Or.inr ⟨i, b, by omega, ?_⟩
      norm_num at c ⊢
      exact c
  · intro hv
    have := rombergLoop_value (trapezoid3 F lo hi) 3 size romberg precision none qags (by norm_num) hr
      (fun j => midRule F lo ((hi - lo) / ((3 ^ j : ℕ) : ℝ)) (3 ^ j)) (by
        simp only [trapezoid3, midRule]
        simp
        left
        congr 1
        ring)
      (fun i => by have := trapezoid3_triple F lo hi h (3 ^ i) (by positivity); rw [pow_succ]; exact this) v 12 0 (fun _ => 0) (fun _ => 0)
      (by simp) (by simpa [rombergOpened] using hv)
    rcases this with h' | ⟨i, _, a, b, c⟩
    · exact Or.inl h'
    · refine Or.inr ⟨i, b, by omega, ?_⟩
      norm_num at c ⊢
      exact c

/-- The integral of `x ^ 7` is accepted after five sums. -/
example : ∃ i, 4 ≤ i ∧ i < 12 ∧
    Spec.Accepted (fun j => midRule (fun x => x ^ 7) 0 ((1 - 0) / ((3 ^ j : ℕ) : ℝ)) (3 ^ j)) 9 5 (1 / 10 ^ 6) (1 / 8) none i := by
  have h := (C97_romberg_polynomials 20 5 (1 / 10 ^ 6) 0 (by norm_num) (by norm_num) (by norm_num) (by norm_num)
    (X ^ 7) (by simp) 0 1 (by norm_num)).2
  simp only [eval_pow, eval_X] at h
  rw [show (∫ x in (0:ℝ)..1, x ^ 7) = 1 / 8 by norm_num [integral_pow]] at h
  rcases (C97_precision 20 5 (1 / 10 ^ 6) 0 (by norm_num) (fun x => x ^ 7) 0 1 (by norm_num) (1 / 8)).2 h with h' | h'
  · norm_num at h'
  · exact h'

end Proposal
