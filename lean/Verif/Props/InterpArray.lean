import Verif.Model.Interpolant
import Verif.Props.Neville

/-!
# C134: interpolation in tables of arrays
-/

open Polynomial

namespace Proposal

/-! ## Reading vectors -/

lemma vecAt_ok {l : List ℝ} {i : ℤ} (h0 : 0 ≤ i) (h : i < l.length) : vecAt l i = .ok (l.getD i.toNat 0) := by
  unfold vecAt
  have hi : i.toNat < l.length := by omega
  rw [if_pos h0, List.getElem?_eq_getElem hi]
  simp [List.getD_eq_getElem?_getD, List.getElem?_eq_getElem hi]

lemma vecAt_err {l : List ℝ} {i : ℤ} (h : (l.length : ℤ) ≤ i) : vecAt l i = .error .outOfRange := by
  unfold vecAt
  split_ifs with h0
  · rw [List.getElem?_eq_none (by omega)]
  · rfl

lemma vecWindow_ok {l : List ℝ} {s : ℤ} {n : ℕ} (h0 : 0 ≤ s) (h : s + n ≤ l.length) :
    vecWindow l s n = .ok fun j => l.getD (s.toNat + j) 0 := by
  unfold vecWindow
  rw [if_pos ⟨h0, h⟩]

/-! ## The polynomial through the nodes -/

lemma itpLoops_poly {X Y : ℕ → ℝ} {r : ℕ} (hX : DistinctNodes X r) (x : ℝ) (num : ℕ) (dd : Bool) (hnum : num < r) :
    itpLoops false X x r ⟨Y, Y, num, dd, Y num, 0⟩ = .ok (nv X Y x (r - 1) 0) := by
  unfold itpLoops
  simp only [Bool.false_eq_true, if_false, Except.ok.injEq]
  have h0 : Scheme X Y x r 0 ⟨Y, Y, num, dd, Y num, 0⟩ := by
    refine ⟨by simpa using hnum, by simp [nv, nev], ?_⟩
    intro i _
    simp [nv, nev]
  have h1 := loop_scheme hX x _ h0 (r - 1) (by omega)
  have h2 := h1.num
  have h3 := h1.result
  rw [h3]
  congr 1
  omega

lemma direction_ok (I : Interp) (x : ℝ) {start num : ℤ} (h0 : 0 ≤ start) (h1 : start + I.romberg ≤ I.iX.length) (h2 : 0 ≤ num)
    (h3 : num < I.romberg) : ∃ dd, I.direction x start num = .ok dd := by
  unfold Interp.direction
  split_ifs with h4 h5
  · exact ⟨_, rfl⟩
  · exact ⟨_, rfl⟩
  all_goals
    rw [vecAt_ok (by omega) (by omega), vecAt_ok (by omega) (by omega)]
    exact ⟨_, rfl⟩

/-- The value between the nodes of a window. -/
lemma between_poly (I : Interp) (hrat : I.rational = false) (doLog : Bool) (x : ℝ) {start num : ℤ} {X Y : ℕ → ℝ}
    (h0 : 0 ≤ start) (h1 : start + I.romberg ≤ I.iX.length) (h1' : start + I.romberg ≤ I.iY.length) (h2 : 0 ≤ num)
    (h3 : num < I.romberg) (hX : DistinctNodes X I.romberg)
    (hY : Y num.toNat = if doLog then itpExp (I.iY.getD (start + num).toNat 0) else I.iY.getD (start + num).toNat 0) :
    I.between doLog x start num X Y = .ok (nv X Y x (I.romberg - 1) 0) := by
  obtain ⟨dd, hdd⟩ := direction_ok I x h0 h1 h2 h3
  unfold Interp.between
  rw [hdd, vecAt_ok (by omega) (by omega)]
  simp only [bind, Except.bind]
  rw [← hY]
  split_ifs with h4 h5
  · have hr : I.romberg - 1 = 0 := by omega
    have hn : num.toNat = 0 := by omega
    rw [hr, hn]
    simp [nv, nev, pure, Except.pure]
  · rw [hrat]
    exact itpLoops_poly hX x num.toNat dd (by omega)
  · exact absurd ⟨h2, h3⟩ h5

/-- The window of a vector. -/
def win (l : List ℝ) (s : ℤ) : ℕ → ℝ := fun j => l.getD (s.toNat + j) 0

/-- `Interpolate(x, start)` without logarithms is the polynomial through the nodes of the window. -/
lemma evalAt_poly (I : Interp) (hrat : I.rational = false) (hlog : (I.logSubst && I.reverse) = false) (x : ℝ) {start : ℤ}
    (h0 : 0 ≤ start) (h1 : start + I.romberg ≤ I.iX.length) (h1' : start + I.romberg ≤ I.iY.length) (hr : 1 ≤ I.romberg)
    (h2 : start ≤ I.starti) (h3 : I.starti < start + I.romberg) (hX : DistinctNodes (win I.iX start) I.romberg) :
    I.evalAt x start = .ok (nv (win I.iX start) (win I.iY start) x (I.romberg - 1) 0) := by
  classical
  have hthrough : ∀ j < I.romberg, nv (win I.iX start) (win I.iY start) (win I.iX start j) (I.romberg - 1) 0 = win I.iY start j := by
    intro j hj
    exact nev_through hX _ 0 j (by omega) (by omega) (by omega)
  unfold Interp.evalAt
  rw [vecWindow_ok h0 h1, vecWindow_ok h0 h1']
  simp only [bind, Except.bind, hlog, Bool.false_and, Bool.false_eq_true, if_false]
  change (if I.fast = true then _ else _) = _
  split_ifs with hf
  · rw [vecAt_ok (by omega) (by omega)]
    dsimp only
    split_ifs with hx
    · rw [vecAt_ok (by omega) (by omega)]
      have e : I.starti.toNat = start.toNat + (I.starti - start).toNat := by omega
      have := hthrough (I.starti - start).toNat (by omega)
      unfold win at this
      rw [← e, ← hx] at this
      rw [← this]
      rfl
    · have : I.between false x start (I.starti - start) (fun j => I.iX.getD (start.toNat + j) 0) (fun j => I.iY.getD (start.toNat + j) 0) =
          _ := between_poly I hrat false x (Y := win I.iY start) h0 h1 h1' (by omega : 0 ≤ I.starti - start) (by omega) hX (by
        simp only [Bool.false_eq_true, if_false, win]
        congr 1
        omega)
      rw [this]
      rfl
  · generalize hfind : List.find? _ (List.range I.romberg) = o
    cases o with
    | some i =>
      have h4 := List.find?_some hfind
      have h5 := List.mem_of_find?_eq_some hfind
      simp only [decide_eq_true_eq, abs_eq_zero, sub_eq_zero] at h4
      rw [List.mem_range] at h5
      have := hthrough i h5
      simp only [pure, Except.pure, Except.ok.injEq]
      have h6 : x = win I.iX start i := h4
      rw [h6, this]
      rfl
    | none =>
      have hlt := nearestNode_lt (win I.iX start) x I.romberg (by omega)
      have : I.between false x start (nearestNode (fun j => I.iX.getD (start.toNat + j) 0) x I.romberg).1
          (fun j => I.iX.getD (start.toNat + j) 0) (fun j => I.iY.getD (start.toNat + j) 0) = _ :=
        between_poly I hrat false x (Y := win I.iY start) h0 h1 h1' (num := ((nearestNode (win I.iX start) x I.romberg).1 : ℕ))
        (by omega) (by omega) hX (by
        simp only [Bool.false_eq_true, if_false, win]
        congr 1
        omega)
      dsimp only
      rw [this]
      rfl

/-! ## The search for the nodes -/

open Classical in
lemma bisectNodes_spec (l : List ℝ) (dir : Bool) (x : ℝ) : ∀ n i j, i < j → j - i ≤ n →
    i ≤ bisectNodes l dir x n i j ∧ bisectNodes l dir x n i j + 1 ≤ j ∧
    (bisectNodes l dir x n i j = i ∨ (decide (x > l.getD (bisectNodes l dir x n i j) 0) == dir) = true) ∧
    (bisectNodes l dir x n i j + 1 = j ∨ (decide (x > l.getD (bisectNodes l dir x n i j + 1) 0) == dir) = false) := by
  intro n
  induction n with
  | zero => intro i j h1 h2; omega
  | succ n ih =>
    intro i j h1 h2
    unfold bisectNodes
    dsimp only
    split_ifs with h3 h4
    · obtain ⟨a, b, c, d⟩ := ih ((i + j) / 2) j (by omega) (by omega)
      refine ⟨by omega, b, ?_, d⟩
      right
      rcases c with c | c
      · rw [c]; exact h4
      · exact c
    · obtain ⟨a, b, c, d⟩ := ih i ((i + j) / 2) (by omega) (by omega)
      refine ⟨a, by omega, c, ?_⟩
      right
      rcases d with d | d
      · rw [d]; simpa using h4
      · exact d
    · exact ⟨le_rfl, by omega, Or.inl rfl, Or.inl (by omega)⟩

/-- The nodes are in ascending or in descending order. -/
def Spec.Monotone (l : List ℝ) : Prop := l.Pairwise (· < ·) ∨ l.Pairwise (· > ·)

/-- The point lies between the nodes `i` and `i + 1`, or beyond the end of the table next to them. -/
def Spec.Around (l : List ℝ) (t : ℝ) (i : ℕ) : Prop :=
  i + 1 < l.length ∧ (i = 0 ∨ l.getD i 0 ∈ Set.uIcc (l.getD 0 0) t) ∧
    (i + 2 = l.length ∨ l.getD (i + 1) 0 ∈ Set.uIcc t (l.getD (l.length - 1) 0))

/-- The `r` nodes from `s` on are those next to the point: they contain both neighbours `i` and `i + 1`, and there are as many to the left
of these as to the right of them, or one more on the side of the nearer neighbour, if the table does not end before. -/
def Spec.Nearest (l : List ℝ) (t : ℝ) (r s i : ℕ) : Prop :=
  s ≤ i ∧ i + 1 < s + r ∧ s + r ≤ l.length ∧
    (i - s = s + r - 2 - i ∨
      (i - s = s + r - 2 - i + 1 ∧ |t - l.getD i 0| ≤ |t - l.getD (i + 1) 0|) ∨
      (i - s + 1 = s + r - 2 - i ∧ |t - l.getD (i + 1) 0| ≤ |t - l.getD i 0|) ∨
      (s = 0 ∧ i - s ≤ s + r - 2 - i) ∨ (s + r = l.length ∧ s + r - 2 - i ≤ i - s))

lemma getD_at (l : List ℝ) {i : ℕ} (h : i < l.length) : l.getD i 0 = l[i] := by
  simp [List.getD_eq_getElem?_getD, List.getElem?_eq_getElem h]

lemma asc_lt {l : List ℝ} (h : l.Pairwise (· < ·)) {i j : ℕ} (hij : i < j) (hj : j < l.length) : l.getD i 0 < l.getD j 0 := by
  rw [getD_at l (by omega), getD_at l hj]
  exact List.pairwise_iff_getElem.mp h i j _ hj hij

lemma desc_lt {l : List ℝ} (h : l.Pairwise (· > ·)) {i j : ℕ} (hij : i < j) (hj : j < l.length) : l.getD j 0 < l.getD i 0 := by
  rw [getD_at l hj, getD_at l (by omega : i < l.length)]
  exact List.pairwise_iff_getElem.mp h i j _ hj hij

lemma mono_ne {l : List ℝ} (h : Spec.Monotone l) {i j : ℕ} (hi : i < l.length) (hj : j < l.length) (he : l.getD i 0 = l.getD j 0) :
    i = j := by
  rcases h with h | h
  · rcases Nat.lt_trichotomy i j with h1 | h1 | h1
    · have := asc_lt h h1 hj; linarith
    · exact h1
    · have := asc_lt h h1 hi; linarith
  · rcases Nat.lt_trichotomy i j with h1 | h1 | h1
    · have := desc_lt h h1 hj; linarith
    · exact h1
    · have := desc_lt h h1 hi; linarith

lemma mono_window {l : List ℝ} (h : Spec.Monotone l) {s : ℤ} {r : ℕ} (h0 : 0 ≤ s) (h1 : s + r ≤ l.length) :
    DistinctNodes (win l s) r := by
  intro i hi j hj he
  have := mono_ne h (by omega : s.toNat + i < l.length) (by omega : s.toNat + j < l.length) he
  omega

lemma abs_near {a b t : ℝ} (h : a < b) : t - a < b - t ↔ |t - a| < |t - b| := by
  rw [← sq_lt_sq]
  constructor
  · intro h1; nlinarith
  · intro h1; nlinarith

/-- The two neighbours and the nearer of them. -/
lemma locate_neighbours {l : List ℝ} (h : Spec.Monotone l) (hl : 2 ≤ l.length) (r : ℕ) (t : ℝ) :
    ∃ i : ℕ, ∃ a : ℤ, Spec.Around l t i ∧
      ((a = 0 ∧ |t - l.getD i 0| ≤ |t - l.getD (i + 1) 0|) ∨ (a = 1 ∧ |t - l.getD (i + 1) 0| ≤ |t - l.getD i 0|)) ∧
      (locateNodes l l.length r t).1 = i + a ∧
      (locateNodes l l.length r t).2 =
        (let start : ℤ := i - ((r : ℤ) - 1 - a).tdiv 2
         let start := if start < 0 then 0 else start
         if start + r > l.length ∨ start > l.length then (l.length : ℤ) - r else start) := by
  classical
  have hdir : decide (l.getD (l.length - 1) 0 > l.getD 0 0) = decide (l.Pairwise (· < ·)) := by
    rcases h with h | h
    · rw [decide_eq_true h, decide_eq_true_iff]
      exact asc_lt h (by omega) (by omega)
    · rw [decide_eq_false, decide_eq_false]
      · intro h'
        have h1 := asc_lt h' (by omega : 0 < 1) (by omega)
        have h2 := desc_lt h (by omega : 0 < 1) (by omega)
        linarith
      · have := desc_lt h (by omega : 0 < l.length - 1) (by omega)
        intro h'; linarith
  set dir := decide (l.Pairwise (· < ·)) with hd
  obtain ⟨h1, h2, h3, h4⟩ := bisectNodes_spec l dir t l.length 0 (l.length - 1) (by omega) (by omega)
  set i := bisectNodes l dir t l.length 0 (l.length - 1) with hi
  refine ⟨i, if i + 1 < l.length then
      if decide (t - l.getD i 0 < l.getD (i + 1) 0 - t) == dir then 0 else 1
    else 0, ?_, ?_, ?_, ?_⟩
  · refine ⟨by omega, ?_, ?_⟩
    · rcases h3 with h3 | h3
      · exact Or.inl h3
      · by_cases hi0 : i = 0
        · exact Or.inl hi0
        right
        rcases h with h | h
        · have hdt : dir = true := by rw [hd]; exact decide_eq_true h
          rw [hdt] at h3
          simp only [beq_true, decide_eq_true_eq] at h3
          have := asc_lt h (by omega : 0 < i) (by omega)
          rw [Set.mem_uIcc]
          left; constructor <;> linarith
        · have hdt : dir = false := by
            rw [hd]; apply decide_eq_false
            intro h'
            have h1 := asc_lt h' (by omega : 0 < 1) (by omega)
            have h2 := desc_lt h (by omega : 0 < 1) (by omega)
            linarith
          rw [hdt] at h3
          simp only [beq_false, Bool.not_eq_true', decide_eq_false_iff_not, not_lt] at h3
          have := desc_lt h (by omega : 0 < i) (by omega)
          rw [Set.mem_uIcc]
          right; constructor <;> linarith
    · rcases h4 with h4 | h4
      · left; omega
      · by_cases hi0 : i + 2 = l.length
        · exact Or.inl hi0
        right
        rcases h with h | h
        · have hdt : dir = true := by rw [hd]; exact decide_eq_true h
          rw [hdt] at h4
          simp only [beq_true, decide_eq_false_iff_not, not_lt] at h4
          have := asc_lt h (by omega : i + 1 < l.length - 1) (by omega)
          rw [Set.mem_uIcc]
          left; constructor <;> linarith
        · have hdt : dir = false := by
            rw [hd]; apply decide_eq_false
            intro h'
            have h1 := asc_lt h' (by omega : 0 < 1) (by omega)
            have h2 := desc_lt h (by omega : 0 < 1) (by omega)
            linarith
          rw [hdt] at h4
          simp only [beq_false, Bool.not_eq_false', decide_eq_true_eq] at h4
          have := desc_lt h (by omega : i + 1 < l.length - 1) (by omega)
          rw [Set.mem_uIcc]
          right; constructor <;> linarith
  · rw [if_pos (by omega : i + 1 < l.length)]
    rcases h with h | h
    · have hdt : dir = true := by rw [hd]; exact decide_eq_true h
      rw [hdt]
      have hlt := asc_lt h (by omega : i < i + 1) (by omega)
      simp only [beq_true]
      by_cases hc : t - l.getD i 0 < l.getD (i + 1) 0 - t
      · left
        rw [if_pos (decide_eq_true hc)]
        exact ⟨rfl, ((abs_near hlt).mp hc).le⟩
      · right
        rw [if_neg (by simpa using hc)]
        refine ⟨rfl, ?_⟩
        rw [abs_near hlt, not_lt] at hc
        exact hc
    · have hdt : dir = false := by
        rw [hd]; apply decide_eq_false
        intro h'
        have h1 := asc_lt h' (by omega : 0 < 1) (by omega)
        have h2 := desc_lt h (by omega : 0 < 1) (by omega)
        linarith
      rw [hdt]
      have hlt := desc_lt h (by omega : i < i + 1) (by omega)
      simp only [beq_false, Bool.not_eq_true', decide_eq_false_iff_not, not_lt]
      by_cases hc : l.getD (i + 1) 0 - t ≤ t - l.getD i 0
      · left
        rw [if_pos hc]
        refine ⟨rfl, ?_⟩
        rw [← not_lt, ← abs_near hlt, not_lt]
        linarith
      · right
        rw [if_neg hc]
        refine ⟨rfl, ?_⟩
        apply le_of_lt
        rw [← abs_near hlt]
        push Not at hc
        linarith
  · unfold locateNodes
    simp only [hdir]
    rfl
  · unfold locateNodes
    simp only [hdir]
    rfl

/-- The window: it contains the node from which the scheme starts. -/
lemma locate_window {l : List ℝ} (h : Spec.Monotone l) (hl : 2 ≤ l.length) {r : ℕ} (hr : 2 ≤ r) (hrl : r ≤ l.length) (t : ℝ) :
    ∃ i s : ℕ, Spec.Around l t i ∧ Spec.Nearest l t r s i ∧ (locateNodes l l.length r t).2 = s ∧
      (s : ℤ) ≤ (locateNodes l l.length r t).1 ∧ (locateNodes l l.length r t).1 < s + r := by
  obtain ⟨i, a, hA, ha, e1, e2⟩ := locate_neighbours h hl r t
  have hi := hA.1
  have ht : ((r : ℤ) - 1 - a).tdiv 2 = ((r : ℤ) - 1 - a) / 2 := Int.tdiv_eq_ediv_of_nonneg (by omega)
  rw [ht] at e2
  dsimp only at e2
  refine ⟨i, (locateNodes l l.length r t).2.toNat, hA, ?_, ?_, ?_, ?_⟩
  · refine ⟨?_, ?_, ?_, ?_⟩
    · rw [e2]; omega
    · rw [e2]; omega
    · rw [e2]; omega
    · rw [e2]
      generalize hs : Int.toNat _ = s
      rcases ha with ⟨rfl, hle⟩ | ⟨rfl, hle⟩
      · have : i - s = s + r - 2 - i ∨ i - s = s + r - 2 - i + 1 ∨ (s = 0 ∧ i - s ≤ s + r - 2 - i) ∨
            (s + r = l.length ∧ s + r - 2 - i ≤ i - s) := by
          split_ifs at hs <;> omega
        rcases this with h | h | h | h
        · exact Or.inl h
        · exact Or.inr (Or.inl ⟨h, hle⟩)
        · exact Or.inr (Or.inr (Or.inr (Or.inl h)))
        · exact Or.inr (Or.inr (Or.inr (Or.inr h)))
      · have : i - s = s + r - 2 - i ∨ i - s + 1 = s + r - 2 - i ∨ (s = 0 ∧ i - s ≤ s + r - 2 - i) ∨
            (s + r = l.length ∧ s + r - 2 - i ≤ i - s) := by
          split_ifs at hs <;> omega
        rcases this with h | h | h | h
        · exact Or.inl h
        · exact Or.inr (Or.inr (Or.inl ⟨h, hle⟩))
        · exact Or.inr (Or.inr (Or.inr (Or.inl h)))
        · exact Or.inr (Or.inr (Or.inr (Or.inr h)))
  · rw [e2]; omega
  · rw [e1, e2]; omega
  · rw [e1, e2]; omega

end Proposal
