import Verif.Model.Integral
import Mathlib.LinearAlgebra.Lagrange
import Mathlib.Tactic.LinearCombination

/-!
# C64: the polynomial extrapolation of the Romberg integration
-/

open Polynomial

namespace Proposal

/-- The interpolation polynomials of Neville's scheme: `nev X Y k i` goes through the nodes `i` to `i + k`. -/
noncomputable def nev (X Y : ℕ → ℝ) : ℕ → ℕ → ℝ[X]
  | 0, i => C (Y i)
  | k + 1, i => C (1 / (X i - X (i + (k + 1)))) *
      ((Polynomial.X - C (X (i + (k + 1)))) * nev X Y k i + (C (X i) - Polynomial.X) * nev X Y k (i + 1))

/-- The nodes up to `n` are different. -/
def DistinctNodes (X : ℕ → ℝ) (n : ℕ) : Prop := ∀ i < n, ∀ j < n, X i = X j → i = j

lemma nev_through {X Y : ℕ → ℝ} {n : ℕ} (hX : DistinctNodes X n) : ∀ k i j, i + k < n → i ≤ j → j ≤ i + k →
    (nev X Y k i).eval (X j) = Y j := by
  intro k
  induction k with
  | zero =>
    intro i j _ h1 h2
    have : j = i := by omega
    subst this
    simp [nev]
  | succ k ih =>
    intro i j hk h1 h2
    have hne : X i - X (i + (k + 1)) ≠ 0 := by
      intro h
      have := hX i (by omega) (i + (k + 1)) hk (by linarith)
      omega
    simp only [nev, eval_mul, eval_C, eval_add, eval_sub, eval_X]
    rw [div_mul_eq_mul_div, div_eq_iff hne, one_mul]
    rcases Nat.lt_or_ge j (i + (k + 1)) with hj | hj
    · rw [ih i j (by omega) h1 (by omega)]
      rcases Nat.lt_or_ge i j with hi | hi
      · rw [ih (i + 1) j (by omega) (by omega) (by omega)]; ring
      · have : j = i := by omega
        subst this; ring
    · have : j = i + (k + 1) := by omega
      subst this
      rw [ih (i + 1) (i + (k + 1)) (by omega) (by omega) (by omega)]; ring

lemma nev_degree (X Y : ℕ → ℝ) : ∀ k i, (nev X Y k i).natDegree ≤ k := by
  intro k
  induction k with
  | zero => intro i; simp [nev]
  | succ k ih =>
    intro i
    simp only [nev]
    refine natDegree_C_mul_le _ _ |>.trans ?_
    refine natDegree_add_le_of_degree_le ?_ ?_
    · refine natDegree_mul_le.trans ?_
      have h1 : (Polynomial.X - C (X (i + (k + 1))) : ℝ[X]).natDegree ≤ 1 := natDegree_X_sub_C_le _
      have := ih i
      omega
    · refine natDegree_mul_le.trans ?_
      have h1 : (C (X i) - Polynomial.X : ℝ[X]).natDegree ≤ 1 := by
        rw [← neg_sub, natDegree_neg]; exact natDegree_X_sub_C_le _
      have := ih (i + 1)
      omega

/-- The last polynomial of the scheme is the only one of its degree through all nodes. -/
lemma nev_unique {X Y : ℕ → ℝ} {n : ℕ} (hX : DistinctNodes X (n + 1)) (p : ℝ[X]) (hdeg : p.natDegree ≤ n)
    (hp : ∀ i ≤ n, p.eval (X i) = Y i) : nev X Y n 0 = p := by
  have hinj : Set.InjOn X (Finset.range (n + 1) : Set ℕ) := by
    intro i hi j hj h
    simp only [Finset.coe_range, Set.mem_Iio] at hi hj
    exact hX i hi j hj h
  have hd : ∀ q : ℝ[X], q.natDegree ≤ n → q.degree < (Finset.range (n + 1)).card := by
    intro q hq
    rw [Finset.card_range]
    refine (degree_le_natDegree).trans_lt ?_
    exact_mod_cast Nat.lt_succ_of_le hq
  refine Polynomial.eq_of_degrees_lt_of_eval_index_eq (Finset.range (n + 1)) hinj (hd _ (nev_degree X Y n 0)) (hd _ hdeg) ?_
  intro i hi
  have hi' : i < n + 1 := Finset.mem_range.mp hi
  rw [nev_through hX n 0 i (by omega) (by omega) (by omega), hp i (by omega)]

/-! ## The loops of the code -/

/-- The values of the scheme at the point. -/
noncomputable def nv (X Y : ℕ → ℝ) (x : ℝ) (k i : ℕ) : ℝ := (nev X Y k i).eval x

lemma nv_succ {X Y : ℕ → ℝ} {n : ℕ} (hX : DistinctNodes X n) (x : ℝ) (k i : ℕ) (h : i + (k + 1) < n) :
    nv X Y x (k + 1) i - nv X Y x k i =
        (X i - x) * ((nv X Y x k (i + 1) - nv X Y x k i) / ((X i - x) - (X (i + (k + 1)) - x))) ∧
    nv X Y x (k + 1) i - nv X Y x k (i + 1) =
        (X (i + (k + 1)) - x) * ((nv X Y x k (i + 1) - nv X Y x k i) / ((X i - x) - (X (i + (k + 1)) - x))) ∧
    (X i - x) - (X (i + (k + 1)) - x) ≠ 0 := by
  have hne : (X i - x) - (X (i + (k + 1)) - x) ≠ 0 := by
    intro h0
    have := hX i (by omega) (i + (k + 1)) h (by linarith)
    omega
  have hne' : X i - X (i + (k + 1)) ≠ 0 := by
    intro h0; apply hne; linarith
  have he : nv X Y x (k + 1) i = (1 / (X i - X (i + (k + 1)))) *
      ((x - X (i + (k + 1))) * nv X Y x k i + (X i - x) * nv X Y x k (i + 1)) := by
    simp only [nv, nev, eval_mul, eval_C, eval_add, eval_sub, eval_X]
  refine ⟨?_, ?_, hne⟩
  · rw [he]
    have : (X i - x) - (X (i + (k + 1)) - x) = X i - X (i + (k + 1)) := by ring
    rw [this]
    field_simp
    ring
  · rw [he]
    have : (X i - x) - (X (i + (k + 1)) - x) = X i - X (i + (k + 1)) := by ring
    rw [this]
    field_simp
    ring

/-- The inner loop replaces the first `m` entries by those of the next round. -/
lemma inner_loop (X : ℕ → ℝ) (x : ℝ) (k : ℕ) (c d : ℕ → ℝ) : ∀ m,
    let r := (List.range m).foldl (nevilleBody X x k) (c, d)
    (∀ i < m, r.1 i = (if (X i - x) - (X (i + k) - x) ≠ 0 then
        (X i - x) * ((c (i + 1) - d i) / ((X i - x) - (X (i + k) - x))) else 0) ∧
      r.2 i = (if (X i - x) - (X (i + k) - x) ≠ 0 then
        (X (i + k) - x) * ((c (i + 1) - d i) / ((X i - x) - (X (i + k) - x))) else 0)) ∧
    (∀ i, m ≤ i → r.1 i = c i ∧ r.2 i = d i) := by
  classical
  intro m
  induction m with
  | zero => simp
  | succ m ih =>
    rw [List.range_succ, List.foldl_append]
    obtain ⟨ih1, ih2⟩ := ih
    generalize List.foldl (nevilleBody X x k) (c, d) (List.range m) = r at ih1 ih2
    simp only [List.foldl_cons, List.foldl_nil]
    have hc := (ih2 (m + 1) (by omega)).1
    have hd := (ih2 m le_rfl).2
    unfold nevilleBody
    dsimp only
    rw [hc, hd]
    by_cases hne : (X m - x) - (X (m + k) - x) ≠ 0
    · rw [if_pos hne]
      constructor
      · intro i hi
        rcases Nat.lt_or_ge i m with h | h
        · simp only [Function.update_of_ne (Nat.ne_of_lt h)]
          exact ih1 i h
        · have : i = m := by omega
          subst this
          simp only [Function.update_self, if_pos hne, and_self]
      · intro i hi
        have : i ≠ m := by omega
        simp only [Function.update_of_ne this]
        exact ih2 i (by omega)
    · rw [if_neg hne]
      constructor
      · intro i hi
        rcases Nat.lt_or_ge i m with h | h
        · simp only [Function.update_of_ne (Nat.ne_of_lt h)]
          exact ih1 i h
        · have : i = m := by omega
          subst this
          simp only [Function.update_self, if_neg hne, and_self]
      · intro i hi
        have : i ≠ m := by omega
        simp only [Function.update_of_ne this]
        exact ih2 i (by omega)

/-- The invariant of the outer loop before round `k + 1` with `n` nodes. -/
structure Scheme (X Y : ℕ → ℝ) (x : ℝ) (n k : ℕ) (s : Neville) : Prop where
  num : s.num + k < n
  result : s.result = nv X Y x k s.num
  cd : ∀ i, i + 1 + k < n → s.c (i + 1) - s.d i = nv X Y x k (i + 1) - nv X Y x k i

lemma stage_scheme {X Y : ℕ → ℝ} {n : ℕ} (hX : DistinctNodes X n) (x : ℝ) (k : ℕ) (hk : k + 1 < n) (s : Neville)
    (h : Scheme X Y x n k s) : Scheme X Y x n (k + 1) (nevilleStage X x n s (k + 1)) := by
  obtain ⟨hnum, hres, hcd⟩ := h
  obtain ⟨hin, -⟩ := inner_loop X x (k + 1) s.c s.d (n - (k + 1))
  unfold nevilleStage
  dsimp only
  generalize List.foldl (nevilleBody X x (k + 1)) (s.c, s.d) (List.range (n - (k + 1))) = r at hin
  have hr : ∀ i, i + (k + 1) < n → r.1 i = nv X Y x (k + 1) i - nv X Y x k i ∧
      r.2 i = nv X Y x (k + 1) i - nv X Y x k (i + 1) := by
    intro i hi
    obtain ⟨e1, e2, hne⟩ := nv_succ (Y := Y) hX x k i hi
    obtain ⟨f1, f2⟩ := hin i (by omega)
    rw [if_pos hne, hcd i (by omega)] at f1 f2
    exact ⟨by rw [f1, e1], by rw [f2, e2]⟩
  have hdd : ∀ dd : Bool, (dd = true → s.num + (k + 1) < n) → (dd = false → 0 < s.num) →
      Scheme X Y x n (k + 1) ⟨r.1, r.2, if dd then s.num else s.num - 1, !dd,
        s.result + (if dd then r.1 (if dd then s.num else s.num - 1) else r.2 (if dd then s.num else s.num - 1)),
        (if dd then r.1 (if dd then s.num else s.num - 1) else r.2 (if dd then s.num else s.num - 1))⟩ := by
    intro dd h1 h2
    have hcd' : ∀ i, i + 1 + (k + 1) < n → r.1 (i + 1) - r.2 i = nv X Y x (k + 1) (i + 1) - nv X Y x (k + 1) i := by
      intro i hi
      rw [(hr (i + 1) (by omega)).1, (hr i (by omega)).2]
      ring
    cases dd
    · have h3 := h2 rfl
      have h4 : s.num - 1 + 1 = s.num := by omega
      refine ⟨?_, ?_, hcd'⟩
      · simp only [Bool.false_eq_true, if_false]; omega
      · simp only [Bool.false_eq_true, if_false]
        rw [(hr (s.num - 1) (by omega)).2, h4, hres]; ring
    · have h3 := h1 rfl
      refine ⟨?_, ?_, hcd'⟩
      · simp only [if_true]; omega
      · simp only [if_true]
        rw [(hr s.num (by omega)).1, hres]; ring
  have := hdd (if s.num = n - (k + 1) then false else if s.num = 0 then true else s.dd) ?_ ?_
  · exact this
  · intro h1
    by_cases hn : s.num = n - (k + 1)
    · simp [hn] at h1
    · omega
  · intro h1
    by_cases hn : s.num = n - (k + 1)
    · omega
    · rw [if_neg hn] at h1
      by_cases h0 : s.num = 0
      · simp [h0] at h1
      · omega

lemma nearestNode_lt (X : ℕ → ℝ) (x : ℝ) (n : ℕ) (hn : 0 < n) : (nearestNode X x n).1 < n := by
  have h : ∀ m, m ≤ n → ∀ p : ℕ × ℝ, p.1 < n →
      ((List.range m).foldl (fun (p : ℕ × ℝ) i => open Classical in if |x - X i| < p.2 then (i, |x - X i|) else p) p).1 < n := by
    intro m
    induction m with
    | zero => intro _ p hp; simpa using hp
    | succ m ih =>
      intro hm p hp
      rw [List.range_succ, List.foldl_append]
      simp only [List.foldl_cons, List.foldl_nil]
      split_ifs
      · exact hm
      · exact ih (by omega) p hp
  exact h n le_rfl (0, |x - X 0|) hn

lemma loop_scheme {X Y : ℕ → ℝ} {n : ℕ} (hX : DistinctNodes X n) (x : ℝ) (s : Neville) (h : Scheme X Y x n 0 s) :
    ∀ k, k < n → Scheme X Y x n k ((List.range' 1 k).foldl (nevilleStage X x n) s) := by
  intro k
  induction k with
  | zero => intro _; simpa using h
  | succ k ih =>
    intro hk
    rw [List.range'_concat, List.foldl_append]
    have := stage_scheme hX x k hk _ (ih (by omega))
    simpa [Nat.add_comm] using this

lemma interpolateNodes_eq {X Y : ℕ → ℝ} {n : ℕ} (hn : 0 < n) (hX : DistinctNodes X n) (x : ℝ) :
    (interpolateNodes X Y n x).1 = nv X Y x (n - 1) 0 := by
  unfold interpolateNodes
  dsimp only
  generalize hdd : (if (nearestNode X x n).1 = 0 then true
      else if (nearestNode X x n).1 = n - 1 then false
        else _ : Bool) = dd
  have h0 : Scheme X Y x n 0 ⟨Y, Y, (nearestNode X x n).1, dd, Y (nearestNode X x n).1, 0⟩ := by
    refine ⟨by simpa using nearestNode_lt X x n hn, by simp [nv, nev], ?_⟩
    intro i _
    simp [nv, nev]
  have h1 := loop_scheme hX x _ h0 (n - 1) (by omega)
  have h2 := h1.num
  have h3 := h1.result
  rw [h3]
  congr 1
  omega

/-- C64: `Interpolate` gives the value at the requested point of the polynomial through the nodes: for every polynomial
`p` of a degree below the number of nodes and with the given ordinates, the result is `p (x)`. The route through the
scheme, which depends on the node next to the point, has no influence. -/
theorem C64_neville (X Y : ℕ → ℝ) (romberg : ℕ) (x : ℝ) (hX : ∀ i < romberg, ∀ j < romberg, X i = X j → i = j)
    (p : ℝ[X]) (hdeg : p.natDegree < romberg) (hp : ∀ i < romberg, p.eval (X i) = Y i) :
    (interpolateNodes X Y romberg x).1 = p.eval x := by
  have hn : 0 < romberg := by omega
  obtain ⟨n, rfl⟩ : ∃ n, romberg = n + 1 := ⟨romberg - 1, by omega⟩
  rw [interpolateNodes_eq hn hX, nv]
  have := nev_unique (Y := Y) hX p (by omega) (fun i hi => hp i (by omega))
  simp only [Nat.add_sub_cancel]
  rw [this]

/-- C64: such a polynomial always exists, so that the result depends only on the nodes and the point. -/
theorem C64_polynomial_exists (X Y : ℕ → ℝ) (romberg : ℕ) (hr : 0 < romberg)
    (hX : ∀ i < romberg, ∀ j < romberg, X i = X j → i = j) :
    ∃! p : ℝ[X], p.natDegree < romberg ∧ ∀ i < romberg, p.eval (X i) = Y i := by
  obtain ⟨n, rfl⟩ : ∃ n, romberg = n + 1 := ⟨romberg - 1, by omega⟩
  refine ⟨nev X Y n 0, ⟨by have := nev_degree X Y n 0; omega, fun i hi =>
    nev_through hX n 0 i (by omega) (by omega) (by omega)⟩, ?_⟩
  rintro q ⟨h1, h2⟩
  exact (nev_unique hX q (by omega) (fun i hi => h2 i (by omega))).symm

example : (interpolateNodes (fun i => 1 / 9 ^ i) (fun i => 2 + 3 * (1 / 9 ^ i)) 5 0).1 = 2 := by
  have h := C64_neville (fun i => 1 / 9 ^ i) (fun i => 2 + 3 * (1 / 9 ^ i)) 5 0 ?_ (C 2 + C 3 * X) ?_ ?_
  · simpa using h
  · intro i hi j hj h
    have h' : ((9 : ℝ) ^ i) = 9 ^ j := by
      have h1 : (0 : ℝ) < 9 ^ i := by positivity
      have h2 : (0 : ℝ) < 9 ^ j := by positivity
      rw [div_eq_div_iff h1.ne' h2.ne'] at h
      linarith
    exact pow_right_injective₀ (by norm_num : (0 : ℝ) < 9) (by norm_num) h'
  · have : (C 2 + C 3 * X : ℝ[X]).natDegree ≤ 1 := by compute_degree
    omega
  · intro i _
    simp

end Proposal
