import Verif.Props.InterpTable

/-!
# C134: tables with rational functions
-/

namespace Proposal

/-! ## Nodes -/

/-- At the node next to the point the value is the tabulated one, with polynomials and with rational functions. -/
lemma evalAt_node (I : Interp) (hlog : (I.logSubst && I.reverse) = false) (x : ℝ) {start : ℤ}
    (h0 : 0 ≤ start) (h1 : start + I.romberg ≤ I.iX.length) (h1' : start + I.romberg ≤ I.iY.length)
    (h2 : start ≤ I.starti) (h3 : I.starti < start + I.romberg) (hX : DistinctNodes (win I.iX start) I.romberg)
    (hx : x = I.iX.getD I.starti.toNat 0) : I.evalAt x start = .ok (I.iY.getD I.starti.toNat 0) := by
  classical
  unfold Interp.evalAt
  rw [vecWindow_ok h0 h1, vecWindow_ok h0 h1']
  simp only [bind, Except.bind, hlog, Bool.false_and, Bool.false_eq_true, if_false]
  have e : I.starti.toNat = start.toNat + (I.starti - start).toNat := by omega
  split_ifs with hf
  · rw [vecAt_ok (by omega) (by omega)]
    dsimp only
    rw [if_pos hx, vecAt_ok (by omega) (by omega)]
  · generalize hfind : List.find? _ (List.range I.romberg) = o
    cases o with
    | some i =>
      have h4 := List.find?_some hfind
      have h5 := List.mem_of_find?_eq_some hfind
      simp only [decide_eq_true_eq, abs_eq_zero, sub_eq_zero] at h4
      rw [List.mem_range] at h5
      have h6 : win I.iX start i = win I.iX start (I.starti - start).toNat := by
        unfold win
        rw [← e, ← hx, ← h4]
      have h7 := hX i h5 _ (by omega) h6
      simp only [pure, Except.pure, Except.ok.injEq]
      rw [e, h7]
    | none =>
      rw [List.find?_eq_none] at hfind
      have := hfind (I.starti - start).toNat (by rw [List.mem_range]; omega)
      simp only [decide_eq_true_eq, abs_eq_zero, sub_eq_zero] at this
      rw [← e] at this
      exact absurd hx this

/-- C134: at a node of the table the value is the tabulated one, also with rational functions. -/
theorem C134_rational_nodes {x y : List ℝ} {r : ℤ} (hlen : x.length = y.length) (h2 : 2 ≤ x.length) (hm : Spec.Monotone x) (hr : 2 ≤ r) :
    ∃ I, interpOfArrays x y r true = .ok I ∧ ∀ J, Spec.Calls I J → ∀ j < x.length,
      ∃ K, J.interpolateArray (x.getD j 0) = .ok (y.getD j 0, K) := by
  obtain ⟨I, e, hI, -⟩ := ofArrays_ok r true hlen h2 hm
  refine ⟨I, e, fun J hJ j hj => ?_⟩
  have hR : Spec.order r x.length = min r.toNat x.length := by unfold Spec.order; omega
  rw [hR] at hI
  have hJ' := array_later hI hJ
  set R := min r.toNat x.length with hRdef
  obtain ⟨i, a, hA, ha, e1, -⟩ := locate_neighbours hm h2 R (x.getD j 0)
  obtain ⟨i', s, hA', hN, e3, e4, e5⟩ := locate_window hm h2 (r := R) (by omega) (by omega) (x.getD j 0)
  have hs := hN.2.2.1
  have hst : (locateNodes x x.length R (x.getD j 0)).1 = j := by
    rw [e1]
    rcases around_node hm hj hA with h | h <;> rcases ha with ⟨a1, a2⟩ | ⟨a1, a2⟩
    · omega
    · exfalso
      rw [h, sub_self, abs_zero] at a2
      have := mono_ne hm (by have := hA.1; omega) (by have := hA.1; omega) (sub_eq_zero.1 (abs_nonpos_iff.1 a2))
      omega
    · exfalso
      rw [h, sub_self, abs_zero] at a2
      have := mono_ne hm (by have := hA.1; omega) (by have := hA.1; omega) (sub_eq_zero.1 (abs_nonpos_iff.1 a2))
      omega
    · omega
  obtain ⟨j1, j2, j3, j4, j5, j6, j7, j8, j9, j10, j11, j12⟩ := hJ'
  have key := evalAt_node { J with reverse := false, starti := (locateNodes J.iX J.max J.romberg (x.getD j 0)).1 } (by simp) (x.getD j 0) (start := s)
    (by omega) (by simp only [j1, j4]; omega) (by simp only [j2, j4]; omega)
    (by simp only [j1, j3, j4]; exact e4) (by simp only [j1, j3, j4]; exact e5)
    (by simp only [j1, j4]; exact mono_window hm (by omega) (by omega)) (by simp only [j1, j3, j4, hst]; rfl)
  unfold Interp.interpolateArray
  have e6 : (locateNodes J.iX J.max J.romberg (x.getD j 0)).2 = s := by rw [j1, j3, j4]; exact e3
  simp only [e6]
  rw [key]
  simp only [j1, j2, j3, j4, hst]
  exact ⟨_, rfl⟩

/-! ## The scheme of Stoer and Bulirsch -/

namespace Spec

/-- The scheme of Stoer and Bulirsch for rational functions at the point `t`: the entries of column `k` and of the column before. -/
noncomputable def rationalPair (X Y : ℕ → ℝ) (t : ℝ) : ℕ → (ℕ → ℝ) × (ℕ → ℝ)
  | 0 => (Y, fun _ => 0)
  | k + 1 =>
    let T := (rationalPair X Y t k).1
    let T' := (rationalPair X Y t k).2
    (fun i => T (i + 1) + (T (i + 1) - T' (i + 1)) * (T (i + 1) - T i) /
      ((X i - t) / (X (i + k + 1) - t) * (T i - T' (i + 1)) - (T (i + 1) - T' (i + 1))), T)

/-- The entry of the scheme for the nodes `i` to `i + k`. -/
noncomputable def rational (X Y : ℕ → ℝ) (t : ℝ) (k i : ℕ) : ℝ := (rationalPair X Y t k).1 i

/-- The entry of the column before. -/
noncomputable def before (X Y : ℕ → ℝ) (t : ℝ) (k i : ℕ) : ℝ := (rationalPair X Y t k).2 i

/-- The divisor of the entry for the nodes `i` to `i + k + 1`. -/
noncomputable def divisor (X Y : ℕ → ℝ) (t : ℝ) (k i : ℕ) : ℝ :=
  (X i - t) / (X (i + k + 1) - t) * (rational X Y t k i - before X Y t k (i + 1)) - (rational X Y t k (i + 1) - before X Y t k (i + 1))

end Spec

/-- The inner loop with rational functions. -/
lemma rat_inner (X : ℕ → ℝ) (x : ℝ) (k : ℕ) (c d : ℕ → ℝ) : ∀ m, (∀ i < m, X (i + k) - x ≠ 0) →
    (∀ i < m, d i * (X i - x) / (X (i + k) - x) - c (i + 1) ≠ 0) →
    ∃ r, (List.range m).foldlM (ratBody X x k) (c, d) = .ok r ∧
    (∀ i < m, r.1 i = d i * (X i - x) / (X (i + k) - x) * ((c (i + 1) - d i) / (d i * (X i - x) / (X (i + k) - x) - c (i + 1))) ∧
      r.2 i = c (i + 1) * ((c (i + 1) - d i) / (d i * (X i - x) / (X (i + k) - x) - c (i + 1)))) ∧
    (∀ i, m ≤ i → r.1 i = c i ∧ r.2 i = d i) := by
  intro m
  induction m with
  | zero => intro _ _; exact ⟨(c, d), rfl, by simp, by simp⟩
  | succ m ih =>
    intro h1 h2
    obtain ⟨r, e, ih1, ih2⟩ := ih (fun i hi => h1 i (by omega)) (fun i hi => h2 i (by omega))
    rw [List.range_succ, List.foldlM_append, e]
    simp only [List.foldlM_cons, List.foldlM_nil, bind, Except.bind]
    have hc := (ih2 (m + 1) (by omega)).1
    have hd := (ih2 m le_rfl).2
    unfold ratBody
    dsimp only
    rw [hc, hd, if_neg (h1 m (by omega)), if_pos (h2 m (by omega))]
    refine ⟨_, rfl, ?_, ?_⟩
    · intro i hi
      rcases Nat.lt_or_ge i m with h | h
      · simp only [Function.update_of_ne (Nat.ne_of_lt h)]
        exact ih1 i h
      · have : i = m := by omega
        subst this
        simp only [Function.update_self, and_self]
    · intro i hi
      have : i ≠ m := by omega
      simp only [Function.update_of_ne this]
      exact ih2 i (by omega)

/-- The invariant of the outer loop before round `k + 1` with `n` nodes. -/
structure RatScheme (X Y : ℕ → ℝ) (x : ℝ) (n k : ℕ) (s : Neville) : Prop where
  num : s.num + k < n
  result : s.result = Spec.rational X Y x k s.num
  c : ∀ i, i + 1 + k < n → s.c (i + 1) = Spec.rational X Y x k (i + 1) - Spec.before X Y x k (i + 1)
  d : ∀ i, i + 1 + k < n → s.d i = Spec.rational X Y x k i - Spec.before X Y x k (i + 1)

lemma rat_stage {X Y : ℕ → ℝ} {n : ℕ} {x : ℝ} (hx : ∀ i < n, x ≠ X i) (k : ℕ) (hk : k + 1 < n)
    (hreg : ∀ i, i + k + 1 < n → Spec.divisor X Y x k i ≠ 0) (s : Neville)
    (h : RatScheme X Y x n k s) : ∃ s', ratStage X x n s (k + 1) = .ok s' ∧ RatScheme X Y x n (k + 1) s' := by
  obtain ⟨hnum, hres, hc, hd⟩ := h
  have h1 : ∀ i < n - (k + 1), X (i + (k + 1)) - x ≠ 0 := fun i hi => sub_ne_zero.2 (hx _ (by omega)).symm
  have hdiv : ∀ i < n - (k + 1), s.d i * (X i - x) / (X (i + (k + 1)) - x) - s.c (i + 1) = Spec.divisor X Y x k i := by
    intro i hi
    rw [hc i (by omega), hd i (by omega), Spec.divisor, ← add_assoc]
    ring
  obtain ⟨r, e, hin, -⟩ := rat_inner X x (k + 1) s.c s.d (n - (k + 1)) h1
    (fun i hi => by rw [hdiv i hi]; exact hreg i (by omega))
  unfold ratStage
  rw [e]
  simp only [bind, Except.bind, pure, Except.pure]
  have hr : ∀ i, i + (k + 1) < n → r.1 i = Spec.rational X Y x (k + 1) i - Spec.rational X Y x k i ∧
      r.2 i = Spec.rational X Y x (k + 1) i - Spec.rational X Y x k (i + 1) := by
    intro i hi
    obtain ⟨f1, f2⟩ := hin i (by omega)
    have hne := hreg i (by omega)
    rw [hdiv i (by omega), hc i (by omega), hd i (by omega)] at f1 f2
    have e1 : Spec.rational X Y x (k + 1) i = Spec.rational X Y x k (i + 1) +
        (Spec.rational X Y x k (i + 1) - Spec.before X Y x k (i + 1)) * (Spec.rational X Y x k (i + 1) - Spec.rational X Y x k i) /
          Spec.divisor X Y x k i := rfl
    have f2' : r.2 i = Spec.rational X Y x (k + 1) i - Spec.rational X Y x k (i + 1) := by
      rw [f2, e1]
      ring
    refine ⟨?_, f2'⟩
    have : r.1 i - r.2 i = Spec.rational X Y x k (i + 1) - Spec.rational X Y x k i := by
      rw [f1, f2, ← sub_mul]
      have e2 : (Spec.rational X Y x k i - Spec.before X Y x k (i + 1)) * (X i - x) / (X (i + (k + 1)) - x) -
          (Spec.rational X Y x k (i + 1) - Spec.before X Y x k (i + 1)) = Spec.divisor X Y x k i := by
        rw [Spec.divisor, ← add_assoc]; ring
      rw [e2, mul_div_cancel₀ _ hne]
      ring
    linarith
  have hcol : ∀ i, Spec.before X Y x (k + 1) i = Spec.rational X Y x k i := fun _ => rfl
  have hdd : ∀ dd : Bool, (dd = true → s.num + (k + 1) < n) → (dd = false → 0 < s.num) →
      RatScheme X Y x n (k + 1) ⟨r.1, r.2, if dd then s.num else s.num - 1, !dd,
        s.result + (if dd then r.1 (if dd then s.num else s.num - 1) else r.2 (if dd then s.num else s.num - 1)),
        (if dd then r.1 (if dd then s.num else s.num - 1) else r.2 (if dd then s.num else s.num - 1))⟩ := by
    intro dd h1 h2
    have hc' : ∀ i, i + 1 + (k + 1) < n → r.1 (i + 1) = Spec.rational X Y x (k + 1) (i + 1) - Spec.before X Y x (k + 1) (i + 1) :=
      fun i hi => (hr (i + 1) (by omega)).1
    have hd' : ∀ i, i + 1 + (k + 1) < n → r.2 i = Spec.rational X Y x (k + 1) i - Spec.before X Y x (k + 1) (i + 1) :=
      fun i hi => (hr i (by omega)).2
    cases dd
    · have h3 := h2 rfl
      have h4 : s.num - 1 + 1 = s.num := by omega
      refine ⟨?_, ?_, hc', hd'⟩
      · simp only [Bool.false_eq_true, if_false]; omega
      · simp only [Bool.false_eq_true, if_false]
        rw [(hr (s.num - 1) (by omega)).2, h4, hres]; ring
    · have h3 := h1 rfl
      refine ⟨?_, ?_, hc', hd'⟩
      · simp only [if_true]; omega
      · simp only [if_true]
        rw [(hr s.num (by omega)).1, hres]; ring
  have := hdd (if s.num = n - (k + 1) then false else if s.num = 0 then true else s.dd) ?_ ?_
  · exact ⟨_, rfl, this⟩
  · intro h1
    by_cases hn : s.num = n - (k + 1)
    · simp [hn] at h1
    · omega
  · intro h1
    by_cases hn : s.num = n - (k + 1)
    · omega
    · rw [if_neg hn] at h1
      by_cases h0 : s.num = 0
      · simp [h0] at h1
      · omega

lemma rat_loop {X Y : ℕ → ℝ} {n : ℕ} {x : ℝ} (hx : ∀ i < n, x ≠ X i)
    (hreg : ∀ k i, i + k + 1 < n → Spec.divisor X Y x k i ≠ 0) {s : Neville} (h0 : RatScheme X Y x n 0 s) : ∀ m, m + 1 ≤ n →
    ∃ s', (List.range' 1 m).foldlM (ratStage X x n) s = .ok s' ∧ RatScheme X Y x n m s' := by
  intro m
  induction m with
  | zero => intro _; exact ⟨s, rfl, h0⟩
  | succ m ih =>
    intro hm
    obtain ⟨s', e, hs⟩ := ih (by omega)
    obtain ⟨s'', e', hs'⟩ := rat_stage hx m (by omega) (fun i hi => hreg m i hi) s' hs
    refine ⟨s'', ?_, hs'⟩
    rw [List.range'_concat, List.foldlM_append, e]
    simp only [List.foldlM_cons, List.foldlM_nil, bind, Except.bind, one_mul]
    rw [add_comm 1 m, e']
    rfl

lemma itpLoops_rational {X Y : ℕ → ℝ} {n : ℕ} {x : ℝ} (hx : ∀ i < n, x ≠ X i)
    (hreg : ∀ k i, i + k + 1 < n → Spec.divisor X Y x k i ≠ 0) (num : ℕ) (dd : Bool) (hnum : num < n) :
    itpLoops true X x n ⟨Y, Y, num, dd, Y num, 0⟩ = .ok (Spec.rational X Y x (n - 1) 0) := by
  have h0 : RatScheme X Y x n 0 ⟨Y, Y, num, dd, Y num, 0⟩ :=
    ⟨hnum, rfl, fun i _ => (sub_zero _).symm, fun i _ => (sub_zero _).symm⟩
  obtain ⟨s', e, hs⟩ := rat_loop hx hreg h0 (n - 1) (by omega)
  unfold itpLoops
  simp only [if_true, e, bind, Except.bind, pure, Except.pure]
  have := hs.num
  rw [hs.result, show s'.num = 0 by omega]

/-- Away from the nodes the value is the end of the loops from one of the nodes. -/
lemma evalAt_between (I : Interp) (hlog : (I.logSubst && I.reverse) = false) (x : ℝ) {start : ℤ}
    (h0 : 0 ≤ start) (h1 : start + I.romberg ≤ I.iX.length) (h1' : start + I.romberg ≤ I.iY.length) (hr : 2 ≤ I.romberg)
    (h2 : start ≤ I.starti) (h3 : I.starti < start + I.romberg) (hx : ∀ i < I.romberg, x ≠ win I.iX start i) :
    ∃ num dd, num < I.romberg ∧ I.evalAt x start =
      itpLoops I.rational (win I.iX start) x I.romberg ⟨win I.iY start, win I.iY start, num, dd, win I.iY start num, 0⟩ := by
  classical
  have hb : ∀ num : ℤ, 0 ≤ num → num < I.romberg → ∃ dd, I.between false x start num (win I.iX start) (win I.iY start) =
      itpLoops I.rational (win I.iX start) x I.romberg ⟨win I.iY start, win I.iY start, num.toNat, dd, win I.iY start num.toNat, 0⟩ := by
    intro num n0 n1
    obtain ⟨dd, hdd⟩ := direction_ok I x h0 h1 n0 n1
    refine ⟨dd, ?_⟩
    unfold Interp.between
    rw [hdd, vecAt_ok (by omega) (by omega)]
    simp only [bind, Except.bind, Bool.false_eq_true, if_false]
    rw [if_neg (by omega), if_pos ⟨n0, n1⟩, show (start + num).toNat = start.toNat + num.toNat by omega]
    rfl
  have hret : ∀ e : Except ItpErr ℝ, (e.bind fun r => Except.ok r) = e := by
    intro e; cases e <;> rfl
  unfold Interp.evalAt
  rw [vecWindow_ok h0 h1, vecWindow_ok h0 h1']
  simp only [bind, Except.bind, hlog, Bool.false_and, Bool.false_eq_true, if_false]
  split_ifs with hf
  · rw [vecAt_ok (by omega) (by omega)]
    dsimp only
    have e : I.starti.toNat = start.toNat + (I.starti - start).toNat := by omega
    rw [if_neg (by rw [e]; exact hx _ (by omega))]
    obtain ⟨dd, hdd⟩ := hb (I.starti - start) (by omega) (by omega)
    refine ⟨(I.starti - start).toNat, dd, by omega, ?_⟩
    exact (hret _).trans hdd
  · generalize hfind : List.find? _ (List.range I.romberg) = o
    cases o with
    | some i =>
      have h4 := List.find?_some hfind
      have h5 := List.mem_of_find?_eq_some hfind
      simp only [decide_eq_true_eq, abs_eq_zero, sub_eq_zero] at h4
      rw [List.mem_range] at h5
      exact absurd h4 (hx i h5)
    | none =>
      have hlt := nearestNode_lt (win I.iX start) x I.romberg (by omega)
      obtain ⟨dd, hdd⟩ := hb ((nearestNode (win I.iX start) x I.romberg).1 : ℕ) (by omega) (by omega)
      refine ⟨(nearestNode (win I.iX start) x I.romberg).1, dd, hlt, ?_⟩
      exact (hret _).trans hdd

/-- The value of a table with rational functions away from the nodes. -/
lemma rational_value {x y : List ℝ} {R : ℕ} {J : Interp} (hJ : ArrayTable x y R true J) (hlen : x.length = y.length) (h2 : 2 ≤ x.length)
    (hm : Spec.Monotone x) (hR : 2 ≤ R) (hRn : R ≤ x.length) (t : ℝ) (ht : ∀ j < x.length, t ≠ x.getD j 0) :
    ∃ i s : ℕ, Spec.Around x t i ∧ Spec.Nearest x t R s i ∧
      ((∀ k i, i + k + 1 < R → Spec.divisor (win x s) (win y s) t k i ≠ 0) →
        ∃ K, J.interpolateArray t = .ok (Spec.rational (win x s) (win y s) t (R - 1) 0, K)) := by
  obtain ⟨i, s, hA, hN, e1, e2, e3⟩ := locate_window hm h2 hR hRn t
  refine ⟨i, s, hA, hN, fun hreg => ?_⟩
  have hs := hN.2.2.1
  obtain ⟨j1, j2, j3, j4, j5, j6, j7, j8, j9, j10, j11, j12⟩ := hJ
  obtain ⟨num, dd, hnum, key⟩ := evalAt_between { J with reverse := false, starti := (locateNodes J.iX J.max J.romberg t).1 } (by simp) t (start := s)
    (by omega) (by simp only [j1, j4]; omega) (by simp only [j2, j4]; omega) (by simp only [j4]; omega)
    (by simp only [j1, j3, j4]; exact e2) (by simp only [j1, j3, j4]; exact e3)
    (by simp only [j1, j4]; intro k hk; exact ht _ (by simp only [Int.toNat_natCast]; omega))
  simp only [j1, j2, j3, j4, j6] at key hnum
  unfold Interp.interpolateArray
  have e4 : (locateNodes J.iX J.max J.romberg t).2 = s := by rw [j1, j3, j4]; exact e1
  simp only [e4]
  rw [itpLoops_rational (X := win x s) (Y := win y s) (fun k hk => ht _ (by simp only [Int.toNat_natCast]; omega)) hreg num dd hnum] at key
  simp only [j1, j2, j3, j4, j6]
  rw [key]
  exact ⟨_, rfl⟩

/-- C134: with rational functions the value away from the nodes is the last entry of the scheme of Stoer and Bulirsch through the nodes next
to the point, if no divisor of the scheme vanishes; where the loops start and which way they take through the scheme has no influence. What
is missing are points at which a divisor vanishes, see `C134_zero_node`. -/
theorem C134_rational_partial {x y : List ℝ} {r : ℤ} (hlen : x.length = y.length) (h2 : 2 ≤ x.length) (hm : Spec.Monotone x) (hr : 2 ≤ r) :
    ∃ I, interpOfArrays x y r true = .ok I ∧ ∀ J, Spec.Calls I J → ∀ t, (∀ j < x.length, t ≠ x.getD j 0) →
      ∃ i s : ℕ, Spec.Around x t i ∧ Spec.Nearest x t (min r.toNat x.length) s i ∧
        let X : ℕ → ℝ := fun j => x.getD (s + j) 0
        let Y : ℕ → ℝ := fun j => y.getD (s + j) 0
        (∀ k i, i + k + 1 < min r.toNat x.length → Spec.divisor X Y t k i ≠ 0) →
          ∃ K, J.interpolateArray t = .ok (Spec.rational X Y t (min r.toNat x.length - 1) 0, K) := by
  obtain ⟨I, e, hI, -⟩ := ofArrays_ok r true hlen h2 hm
  refine ⟨I, e, fun J hJ t ht => ?_⟩
  have hR : Spec.order r x.length = min r.toNat x.length := by unfold Spec.order; omega
  rw [hR] at hI
  exact rational_value (array_later hI hJ) hlen h2 hm (by omega) (by omega) t ht

/-! ## Functions which are reproduced -/

lemma recip_divisor {X0 X1 t p q : ℝ} (n1 : X1 - t ≠ 0) (q0 : p + q * X0 ≠ 0) (q1 : p + q * X1 ≠ 0) :
    (X0 - t) / (X1 - t) * (1 / (p + q * X0)) - 1 / (p + q * X1) =
      (X0 - X1) * (p + q * t) / ((X1 - t) * (p + q * X0) * (p + q * X1)) := by
  obtain ⟨A, hA⟩ : ∃ A, A = p + q * X0 := ⟨_, rfl⟩
  obtain ⟨B, hB⟩ : ∃ B, B = p + q * X1 := ⟨_, rfl⟩
  rw [← hA] at q0 ⊢
  rw [← hB] at q1 ⊢
  field_simp
  rw [hA, hB]
  ring

lemma recip_value {X0 X1 t p q : ℝ} (q0 : p + q * X0 ≠ 0) (q1 : p + q * X1 ≠ 0) (hne : X0 - X1 ≠ 0) (ht : p + q * t ≠ 0) :
    1 / (p + q * X1) + 1 / (p + q * X1) * (1 / (p + q * X1) - 1 / (p + q * X0)) /
      ((X0 - X1) * (p + q * t) / ((X1 - t) * (p + q * X0) * (p + q * X1))) = 1 / (p + q * t) := by
  obtain ⟨A, hA⟩ : ∃ A, A = p + q * X0 := ⟨_, rfl⟩
  obtain ⟨B, hB⟩ : ∃ B, B = p + q * X1 := ⟨_, rfl⟩
  obtain ⟨C, hC⟩ : ∃ C, C = p + q * t := ⟨_, rfl⟩
  rw [← hA] at q0 ⊢
  rw [← hB] at q1 ⊢
  rw [← hC] at ht ⊢
  field_simp
  rw [hA, hB, hC]
  ring

/-- C134: with rational functions through two nodes the reciprocals of linear functions are reproduced everywhere, except at the pole. -/
theorem C134_reciprocals {x y : List ℝ} (hlen : x.length = y.length) (h2 : 2 ≤ x.length) (hm : Spec.Monotone x) (p q : ℝ)
    (hp : ∀ j < x.length, p + q * x.getD j 0 ≠ 0) (hy : ∀ j < x.length, y.getD j 0 = 1 / (p + q * x.getD j 0)) :
    ∃ I, interpOfArrays x y 2 true = .ok I ∧ ∀ J, Spec.Calls I J → ∀ t, p + q * t ≠ 0 →
      ∃ K, J.interpolateArray t = .ok (1 / (p + q * t), K) := by
  obtain ⟨I, e, h⟩ := C134_rational_partial (r := 2) hlen h2 hm le_rfl
  refine ⟨I, e, fun J hJ t ht => ?_⟩
  by_cases hn : ∃ j < x.length, t = x.getD j 0
  · obtain ⟨j, hj, rfl⟩ := hn
    obtain ⟨I', e', h'⟩ := C134_rational_nodes (r := 2) hlen h2 hm le_rfl
    rw [e] at e'
    obtain rfl : I = I' := by simpa using e'
    rw [← hy j hj]
    exact h' J hJ j hj
  · push Not at hn
    obtain ⟨i, s, -, hN, hv⟩ := h J hJ t hn
    have hR : min (2 : ℤ).toNat x.length = 2 := by simpa using h2
    rw [hR] at hN hv
    have hs := hN.2.2.1
    have y0 := hy s (by omega)
    have y1 := hy (s + 1) (by omega)
    have n0 := sub_ne_zero.2 (hn s (by omega)).symm
    have n1 := sub_ne_zero.2 (hn (s + 1) (by omega)).symm
    have q0 := hp s (by omega)
    have q1 := hp (s + 1) (by omega)
    have hne : x.getD s 0 - x.getD (s + 1) 0 ≠ 0 := by
      intro h0
      have := mono_ne hm (by omega) (by omega) (sub_eq_zero.1 h0)
      omega
    have hd : Spec.divisor (fun j => x.getD (s + j) 0) (fun j => y.getD (s + j) 0) t 0 0 =
        (x.getD s 0 - x.getD (s + 1) 0) * (p + q * t) / ((x.getD (s + 1) 0 - t) * (p + q * x.getD s 0) * (p + q * x.getD (s + 1) 0)) := by
      simp only [Spec.divisor, Spec.rational, Spec.before, Spec.rationalPair, add_zero, zero_add, sub_zero]
      rw [y0, y1]
      exact recip_divisor n1 q0 q1
    have hd0 : Spec.divisor (fun j => x.getD (s + j) 0) (fun j => y.getD (s + j) 0) t 0 0 ≠ 0 := by
      rw [hd]
      positivity
    obtain ⟨K, hK⟩ := hv (fun k i hki => by
      obtain ⟨rfl, rfl⟩ : k = 0 ∧ i = 0 := by omega
      exact hd0)
    refine ⟨K, ?_⟩
    rw [hK]
    have hval : Spec.rational (fun j => x.getD (s + j) 0) (fun j => y.getD (s + j) 0) t (2 - 1) 0 =
        y.getD (s + 1) 0 + y.getD (s + 1) 0 * (y.getD (s + 1) 0 - y.getD s 0) /
          Spec.divisor (fun j => x.getD (s + j) 0) (fun j => y.getD (s + j) 0) t 0 0 := by
      simp only [Spec.divisor, Spec.rational, Spec.before, Spec.rationalPair, add_zero, zero_add, sub_zero]
    rw [hval, hd, y0, y1]
    rw [recip_value q0 q1 hne ht]

/-- The hypotheses of `C134_reciprocals` for the function `1 / (1 + x)` and three nodes. -/
example : Spec.Monotone [0, 1, 3] ∧ (∀ j < 3, (1 : ℝ) + 1 * [(0 : ℝ), 1, 3].getD j 0 ≠ 0) ∧
    ∀ j < 3, [(1 : ℝ), 1 / 2, 1 / 4].getD j 0 = 1 / (1 + 1 * [(0 : ℝ), 1, 3].getD j 0) := by
  refine ⟨Or.inl (by norm_num), ?_, ?_⟩
  · intro j hj
    rcases (by omega : j = 0 ∨ j = 1 ∨ j = 2) with rfl | rfl | rfl <;> norm_num
  · intro j hj
    rcases (by omega : j = 0 ∨ j = 1 ∨ j = 2) with rfl | rfl | rfl <;> norm_num

/-! ## A value zero in the table -/

/-- C134: a table with rational functions through three nodes whose middle value is zero gives zero at every point which is none of the outer
nodes: the line through (0, -1), (1, 0) and (2, 1) is not reproduced. -/
theorem C134_zero_node {x0 x1 x2 y0 y2 : ℝ} (h01 : x0 < x1) (h12 : x1 < x2) (hy0 : y0 ≠ 0) (hy2 : y2 ≠ 0) :
    ∃ I, interpOfArrays [x0, x1, x2] [y0, 0, y2] 3 true = .ok I ∧ ∀ J, Spec.Calls I J → ∀ t, t ≠ x0 → t ≠ x2 →
      ∃ K, J.interpolateArray t = .ok (0, K) := by
  have hm : Spec.Monotone [x0, x1, x2] := Or.inl (by simp; exact ⟨⟨h01, h01.trans h12⟩, h12⟩)
  obtain ⟨I, e, hI, -⟩ := ofArrays_ok (x := [x0, x1, x2]) (y := [y0, 0, y2]) 3 true rfl (by simp) hm
  refine ⟨I, e, fun J hJ t t0 t2 => ?_⟩
  by_cases t1 : t = x1
  · obtain ⟨I', e', h'⟩ := C134_rational_nodes (x := [x0, x1, x2]) (y := [y0, 0, y2]) (r := 3) rfl (by simp) hm (by norm_num)
    rw [e] at e'
    obtain rfl : I = I' := by simpa using e'
    rw [t1]
    exact h' J hJ 1 (by simp)
  have hJ' := array_later hI hJ
  have hR : Spec.order 3 [x0, x1, x2].length = 3 := rfl
  rw [hR] at hJ'
  obtain ⟨i, s, hA, hN, e1, e2, e3⟩ := locate_window hm (by simp) (r := 3) (by norm_num) (by simp) t
  have hs : s = 0 := by
    have := hN.2.2.1
    simp only [List.length_cons, List.length_nil] at this
    omega
  subst hs
  have hx : ∀ i < 3, t ≠ win [x0, x1, x2] ((0 : ℕ) : ℤ) i := by
    intro i hi
    rcases (by omega : i = 0 ∨ i = 1 ∨ i = 2) with rfl | rfl | rfl
    · simpa [win] using t0
    · simpa [win] using t1
    · simpa [win] using t2
  obtain ⟨j1, j2, j3, j4, j5, j6, j7, j8, j9, j10, j11, j12⟩ := hJ'
  obtain ⟨num, dd, hnum, key⟩ := evalAt_between { J with reverse := false, starti := (locateNodes J.iX J.max J.romberg t).1 } (by simp) t
    (start := (0 : ℕ)) (by omega) (by simp only [j1, j4]; simp) (by simp only [j2, j4]; simp) (by simp only [j4]; omega)
    (by simp only [j1, j3, j4]; exact e2) (by simp only [j1, j3, j4]; exact e3) (by simp only [j1, j4]; exact hx)
  simp only [j1, j2, j3, j4, j6] at key hnum
  set X := win [x0, x1, x2] ((0 : ℕ) : ℤ) with hX
  set Y := win [y0, 0, y2] ((0 : ℕ) : ℤ) with hY
  have hX0 : X 0 = x0 := rfl
  have hX1 : X 1 = x1 := rfl
  have hX2 : X 2 = x2 := rfl
  have hY0 : Y 0 = y0 := rfl
  have hY1 : Y 1 = 0 := rfl
  have hY2 : Y 2 = y2 := rfl
  have n0 := sub_ne_zero.2 (Ne.symm t0)
  have n1 := sub_ne_zero.2 (Ne.symm t1)
  have n2 := sub_ne_zero.2 (Ne.symm t2)
  have d00 : Spec.divisor X Y t 0 0 = (x0 - t) / (x1 - t) * y0 := by
    simp [Spec.divisor, Spec.rational, Spec.before, Spec.rationalPair, hX0, hX1, hY0, hY1]
  have d01 : Spec.divisor X Y t 0 1 = - y2 := by
    simp [Spec.divisor, Spec.rational, Spec.before, Spec.rationalPair, hY2, hY1]
  have hreg : ∀ i, i + 0 + 1 < 3 → Spec.divisor X Y t 0 i ≠ 0 := by
    intro i hi
    rcases (by omega : i = 0 ∨ i = 1) with rfl | rfl
    · rw [d00]
      exact mul_ne_zero (div_ne_zero n0 n1) hy0
    · rw [d01]
      exact neg_ne_zero.2 hy2
  have h0 : RatScheme X Y t 3 0 ⟨Y, Y, num, dd, Y num, 0⟩ :=
    ⟨hnum, rfl, fun i _ => (sub_zero _).symm, fun i _ => (sub_zero _).symm⟩
  obtain ⟨s', es, hs'⟩ := rat_stage hx 0 (by norm_num) hreg _ h0
  have r0 : Spec.rational X Y t 1 0 = 0 := by
    simp [Spec.rational, Spec.rationalPair, hY1]
  have r1 : Spec.rational X Y t 1 1 = 0 := by
    simp only [Spec.rational, Spec.rationalPair, hY1, hY2, sub_zero, mul_zero, zero_sub, Nat.reduceAdd]
    rw [div_neg, mul_div_assoc, div_self hy2]
    ring
  have b1 : Spec.before X Y t 1 1 = 0 := by
    simp [Spec.before, Spec.rationalPair, hY1]
  have hres : s'.result = 0 := by
    rw [hs'.result]
    rcases (by have := hs'.num; omega : s'.num = 0 ∨ s'.num = 1) with h | h <;> rw [h]
    · exact r0
    · exact r1
  have hc : s'.c 1 = 0 := by rw [hs'.c 0 (by norm_num)]; simp [r1, b1]
  have hd : s'.d 0 = 0 := by rw [hs'.d 0 (by norm_num)]; simp [r0, b1]
  have e2 : ∃ s'', ratStage X t 3 s' 2 = .ok s'' ∧ s''.result = 0 := by
    have hb : ratBody X t 2 (s'.c, s'.d) 0 = .ok (Function.update s'.c 0 0, Function.update s'.d 0 0) := by
      unfold ratBody
      simp [hc, hd, hX2, n2]
    unfold ratStage
    simp only [show List.range (3 - 2) = [0] from rfl, List.foldlM_cons, List.foldlM_nil, hb, bind, Except.bind, pure, Except.pure]
    refine ⟨_, rfl, ?_⟩
    rw [hres]
    rcases (by have := hs'.num; omega : s'.num = 0 ∨ s'.num = 1) with h | h <;> simp [h]
  obtain ⟨s'', es', hs''⟩ := e2
  have hv : itpLoops true X t 3 ⟨Y, Y, num, dd, Y num, 0⟩ = .ok 0 := by
    unfold itpLoops
    simp only [if_true, show List.range' 1 (3 - 1) = [1, 2] from rfl, List.foldlM_cons, List.foldlM_nil, bind, Except.bind, pure, Except.pure]
    rw [es]
    simp only [es', hs'']
  rw [hv] at key
  unfold Interp.interpolateArray
  have e4 : (locateNodes J.iX J.max J.romberg t).2 = ((0 : ℕ) : ℤ) := by rw [j1, j3, j4]; exact e1
  simp only [e4]
  simp only [j1, j2, j3, j4, j6]
  rw [key]
  exact ⟨_, rfl⟩

end Proposal
