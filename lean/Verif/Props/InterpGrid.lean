import Verif.Props.InterpTable

/-!
# C135: interpolation in tables of functions
-/

open Polynomial

namespace Proposal

/-! ## The nodes -/

/-- The abscissa of a point: the point itself or its logarithm. -/
noncomputable def Spec.scale (isLog : Bool) (x : ℝ) : ℝ := if isLog then Real.log x else x

/-- The node `j` of `n` between two ends: the middle of the cell. -/
noncomputable def Spec.node (a b : ℝ) (n j : ℕ) : ℝ := a + (j + 1 / 2) * ((b - a) / n)

/-- The `R` nodes from `s` on are the nearest ones of `n`. -/
def Spec.NearestNodes (a b : ℝ) (n R s : ℕ) (u : ℝ) : Prop :=
  s + R ≤ n ∧ ∀ j, s ≤ j → j < s + R → ∀ k, k < n → (k < s ∨ s + R ≤ k) → |u - Spec.node a b n j| ≤ |u - Spec.node a b n k|

/-- The objects that the constructor for functions makes. -/
structure GridTable (a b : ℝ) (n R : ℕ) (isLog lsub : Bool) (Y : List ℝ) (I : Interp) : Prop where
  max : I.max = n
  romberg : I.romberg = R
  xmin : I.xmin = a
  step : I.step = (b - a) / n
  iX : I.iX = (List.range n).map (Spec.node a b n)
  iY : I.iY = Y
  rational : I.rational = false
  isLog : I.isLog = isLog
  logSubst : I.logSubst = lsub
  self : lsub = true → I.self = true
  save : I.ySave = itpLog I.xSave

lemma ofFunction_ok {n : ℕ} {xmin xmax : ℝ} (f : ℝ → ℝ) (r : ℤ) (isLog : Bool) (rY : ℤ) (rationalY logSubst : Bool) (hn : 1 ≤ n)
    (hlt : xmin < xmax) (hlog : isLog = true → 0 < xmin) :
    GridTable (Spec.scale isLog xmin) (Spec.scale isLog xmax) n (Spec.order r n) isLog logSubst
      ((List.range n).map fun j =>
        let v := f (if isLog then Real.exp (Spec.node (Spec.scale isLog xmin) (Spec.scale isLog xmax) n j)
          else Spec.node (Spec.scale isLog xmin) (Spec.scale isLog xmax) n j)
        if logSubst then itpLog v else v)
      (interpOfFunction n xmin xmax f r false isLog rY rationalY logSubst) := by
  obtain ⟨i1, i2, i3, i4, i5, i6, i7, i8, i9, i10, i11, i12, i13, i14, i15, i16⟩ := init_order (max := (n : ℤ)) (xmin := xmin) (xmax := xmax) r false isLog rY rationalY
    logSubst (by omega) (fun h => ⟨hlog h, (hlog h).trans hlt⟩) hlt.ne
  rw [min_eq_left hlt.le] at i4
  rw [max_eq_right hlt.le] at i5
  rw [show ((n : ℤ)).toNat = n by omega] at i1 i3
  have e1 : ∀ j : ℕ, Spec.scale isLog xmin + (Spec.scale isLog xmax - Spec.scale isLog xmin) / n / 2 + j * ((Spec.scale isLog xmax - Spec.scale isLog xmin) / n) =
      Spec.node (Spec.scale isLog xmin) (Spec.scale isLog xmax) n j := by
    intro j
    unfold Spec.node
    ring
  have i4' : (initInterp (n : ℤ) xmin xmax r false isLog rY rationalY logSubst).xmin = Spec.scale isLog xmin := i4
  have i5' : (initInterp (n : ℤ) xmin xmax r false isLog rY rationalY logSubst).xmax = Spec.scale isLog xmax := i5
  have i6' : (initInterp (n : ℤ) xmin xmax r false isLog rY rationalY logSubst).step = (Spec.scale isLog xmax - Spec.scale isLog xmin) / n := by
    rw [i6, i4', i5']
    push_cast
    rfl
  refine ⟨i3, i1, i4', i6', ?_, ?_, i7, i10, i11, fun _ => i9, i13⟩
  · unfold interpOfFunction
    simp only [i3, i4', i6']
    refine List.map_congr_left fun j _ => e1 j
  · unfold interpOfFunction
    simp only [i3, i4', i6', e1]

lemma grid_later {a b : ℝ} {n R : ℕ} {isLog logSubst : Bool} {Y : List ℝ} {I J : Interp} (hI : GridTable a b n R isLog logSubst Y I) (h : Spec.Calls I J) :
    GridTable a b n R isLog logSubst Y J := by
  obtain ⟨h1, h2, h3, h4, h5, h6, h7, h8, h9, h10, h11, h12, h13, h14⟩ := later_same hI.save h
  obtain ⟨i1, i2, i3, i4, i5, i6, i7, i8, i9, i10, i11⟩ := hI
  exact ⟨h5.trans i1, h1.trans i2, h6.trans i3, h8.trans i4, h3.trans i5, h4.trans i6, h9.trans i7, h12.trans i8, h13.trans i9, fun h => h11.trans (i10 h), h14⟩

lemma cppInt_ok {r : ℝ} (h1 : -2147483649 < r) (h2 : r < 2147483648) :
    ∃ k : ℤ, cppInt r = .ok k ∧ (0 ≤ r → (k : ℝ) ≤ r ∧ r < k + 1) ∧ (r < 0 → k ≤ 0) := by
  unfold cppInt
  rw [if_pos ⟨h1, h2⟩]
  split_ifs with h
  · exact ⟨_, rfl, fun _ => ⟨Int.floor_le r, Int.lt_floor_add_one r⟩, fun h' => by linarith⟩
  · refine ⟨_, rfl, fun h' => absurd h' h, fun h' => ?_⟩
    rw [Int.ceil_le]
    push_cast
    linarith

lemma node_diff {a b : ℝ} {n : ℕ} (hd : 0 < (b - a) / n) (u : ℝ) (j : ℕ) :
    u - Spec.node a b n j = ((u - a) / ((b - a) / n) - (j + 1 / 2)) * ((b - a) / n) := by
  unfold Spec.node
  rw [sub_mul, div_mul_cancel₀ _ hd.ne']
  ring

/-- The window of the nearest nodes. -/
lemma locateGrid_ok {J : Interp} {a b : ℝ} {n R : ℕ} {isLog logSubst : Bool} {Y : List ℝ} (hJ : GridTable a b n R isLog logSubst Y J) (hlt : a < b) (hR : 1 ≤ R) (hRn : R ≤ n)
    (hn : n ≤ 1000000000) {u : ℝ} (h1 : -1000000000 ≤ (u - a) / ((b - a) / n)) (h2 : (u - a) / ((b - a) / n) ≤ 1000000000) :
    ∃ (i : ℤ) (s : ℕ), J.locateGrid u = .ok (i, (s : ℤ)) ∧ (s : ℤ) ≤ i ∧ i < s + R ∧ Spec.NearestNodes a b n R s u := by
  have hn0 : (0 : ℝ) < n := by exact_mod_cast (by omega : 0 < n)
  have hd : 0 < (b - a) / n := by apply div_pos _ hn0; linarith
  obtain ⟨j1, j2, j3, j4, j5, j6, j7, j8, j9, j10, j11⟩ := hJ
  have hRr : (1 : ℝ) ≤ R := by exact_mod_cast hR
  have hRr' : (R : ℝ) ≤ 1000000000 := by exact_mod_cast (by omega : R ≤ 1000000000)
  set aux := (u - a) / ((b - a) / n) with haux
  obtain ⟨k, hk, hk1, hk2⟩ := cppInt_ok (r := aux) (by linarith) (by linarith)
  obtain ⟨st, hst, hst1, hst2⟩ := cppInt_ok (r := aux - 0.5 * ((R : ℝ) - 1)) (by norm_num; linarith) (by norm_num; linarith)
  have hst3 : st + R ≤ 2147483647 := by
    by_cases h : 0 ≤ aux - 0.5 * ((R : ℝ) - 1)
    · have := (hst1 h).1
      have : (st : ℝ) ≤ (1000000000 : ℤ) := by push_cast; linarith
      have : st ≤ 1000000000 := by exact_mod_cast this
      omega
    · have := hst2 (by linarith)
      omega
  -- the window in terms of the number of steps
  have hnear : ∀ s : ℕ, s + R ≤ n → (s = 0 ∨ (s : ℝ) ≤ aux - 0.5 * ((R : ℝ) - 1)) → (s + R = n ∨ aux - 0.5 * ((R : ℝ) - 1) < s + 1) → Spec.NearestNodes a b n R s u := by
    intro s h3 h4 h5
    refine ⟨h3, fun j hj1 hj2 k hk1 hk2 => ?_⟩
    rw [node_diff hd, node_diff hd, abs_mul, abs_mul, ← haux]
    apply mul_le_mul_of_nonneg_right _ (abs_nonneg _)
    rw [← sq_le_sq]
    have hj1' : (s : ℝ) ≤ j := by exact_mod_cast hj1
    have hj2' : (j : ℝ) + 1 ≤ s + R := by exact_mod_cast hj2
    rcases hk2 with hk2 | hk2
    · have hk2' : (k : ℝ) + 1 ≤ s := by exact_mod_cast hk2
      have h6 : (s : ℝ) ≤ aux - 0.5 * ((R : ℝ) - 1) := by
        rcases h4 with h4 | h4
        · omega
        · exact h4
      have h7 : 0 ≤ (j : ℝ) - k := by linarith
      have h8 : 0 ≤ 2 * aux - j - k - 1 := by norm_num at h6; linarith
      nlinarith [mul_nonneg h7 h8]
    · have hk2' : (s : ℝ) + R ≤ k := by exact_mod_cast hk2
      have h6 : aux - 0.5 * ((R : ℝ) - 1) < s + 1 := by
        rcases h5 with h5 | h5
        · omega
        · exact h5
      have h7 : 0 ≤ (k : ℝ) - j := by linarith
      have h8 : 0 ≤ j + k + 1 - 2 * aux := by norm_num at h6; linarith
      nlinarith [mul_nonneg h7 h8]
  have hkb : ∀ s : ℕ, s + R ≤ n → (s = 0 ∨ (s : ℝ) ≤ aux - 0.5 * ((R : ℝ) - 1)) → (s + R = n ∨ aux - 0.5 * ((R : ℝ) - 1) < s + 1) →
      (s : ℤ) ≤ (if k < 0 then 0 else if k ≥ n then (n : ℤ) - 1 else k) ∧ (if k < 0 then 0 else if k ≥ n then (n : ℤ) - 1 else k) < s + R := by
    intro s h3 h4 h5
    by_cases hneg : aux < 0
    · have h6 := hk2 hneg
      have h7 : s = 0 := by
        rcases h4 with h4 | h4
        · exact h4
        · have : (0 : ℝ) ≤ s := by positivity
          norm_num at h4
          linarith
      split_ifs <;> omega
    · obtain ⟨h6, h7⟩ := hk1 (not_lt.mp hneg)
      have h8 : 0 ≤ k := by
        have : (-1 : ℝ) < k := by linarith
        have : (-1 : ℤ) < k := by exact_mod_cast this
        omega
      have h9 : (s : ℤ) ≤ k := by
        rcases h4 with h4 | h4
        · omega
        · have : (s : ℝ) < k + 1 := by norm_num at h4; linarith
          have : (s : ℤ) < k + 1 := by exact_mod_cast this
          omega
      have h10 : s + R = n ∨ k < s + R := by
        rcases h5 with h5 | h5
        · exact Or.inl h5
        · right
          have : (k : ℝ) < s + R := by norm_num at h5; linarith
          exact_mod_cast this
      split_ifs <;> omega
  -- the cases of the code
  unfold Interp.locateGrid
  simp only [j1, j2, j3, j4, if_neg hd.ne', ← haux]
  simp only [hk, hst, bind, Except.bind, pure, Except.pure]
  by_cases hs0 : st < 0
  · rw [if_pos hs0]
    have hc : (0 : ℕ) + R = n ∨ aux - 0.5 * ((R : ℝ) - 1) < ((0 : ℕ) : ℝ) + 1 := by
      right
      by_contra hc
      push Not at hc
      have := (hst1 (by norm_num at hc ⊢; linarith)).2
      have h6 : (st : ℝ) < 0 := by exact_mod_cast hs0
      norm_num at hc this
      have h7 : st ≤ -1 := by omega
      have h8 : (st : ℝ) ≤ -1 := by exact_mod_cast h7
      linarith
    obtain ⟨c1, c2⟩ := hkb 0 (by omega) (Or.inl rfl) hc
    exact ⟨_, 0, rfl, c1, c2, hnear 0 (by omega) (Or.inl rfl) hc⟩
  · rw [if_neg hs0, if_neg (by omega)]
    have hlo : st = 0 ∨ (st : ℝ) ≤ aux - 0.5 * ((R : ℝ) - 1) := by
      by_cases h : 0 ≤ aux - 0.5 * ((R : ℝ) - 1)
      · exact Or.inr (hst1 h).1
      · have := hst2 (by linarith)
        left; omega
    have hhi : aux - 0.5 * ((R : ℝ) - 1) < st + 1 := by
      by_cases h : 0 ≤ aux - 0.5 * ((R : ℝ) - 1)
      · exact (hst1 h).2
      · have h6 : (0 : ℝ) ≤ st := by exact_mod_cast (not_lt.mp hs0)
        linarith
    by_cases hc : st + R > n ∨ st > n
    · rw [if_pos hc]
      have hc' : (n : ℤ) - R ≤ st := by omega
      have h3 : n - R + R = n := by omega
      have h4 : n - R = 0 ∨ ((n - R : ℕ) : ℝ) ≤ aux - 0.5 * ((R : ℝ) - 1) := by
        rcases hlo with h | h
        · left; omega
        · right
          refine le_trans ?_ h
          have : ((n - R : ℕ) : ℤ) ≤ st := by omega
          exact_mod_cast this
      obtain ⟨c1, c2⟩ := hkb (n - R) (by omega) h4 (Or.inl h3)
      refine ⟨_, n - R, ?_, c1, c2, hnear _ (by omega) h4 (Or.inl h3)⟩
      congr 2
      omega
    · rw [if_neg hc]
      have e1 : ((st.toNat : ℕ) : ℤ) = st := by omega
      have e2 : ((st.toNat : ℕ) : ℝ) = (st : ℝ) := by exact_mod_cast e1
      have h4 : st.toNat = 0 ∨ ((st.toNat : ℕ) : ℝ) ≤ aux - 0.5 * ((R : ℝ) - 1) := by
        rw [e2]
        rcases hlo with h | h
        · left; omega
        · exact Or.inr h
      have h5 : st.toNat + R = n ∨ aux - 0.5 * ((R : ℝ) - 1) < ((st.toNat : ℕ) : ℝ) + 1 := by
        rw [e2]; exact Or.inr hhi
      obtain ⟨c1, c2⟩ := hkb st.toNat (by omega) h4 h5
      refine ⟨_, st.toNat, ?_, c1, c2, hnear _ (by omega) h4 h5⟩
      rw [e1]

lemma getD_map {f : ℕ → ℝ} {n j : ℕ} (h : j < n) : ((List.range n).map f).getD j 0 = f j := by
  simp [List.getD_eq_getElem?_getD, h]

lemma node_inj {a b : ℝ} {n i j : ℕ} (hlt : a < b) (hn : 1 ≤ n) (h : Spec.node a b n i = Spec.node a b n j) : i = j := by
  have hn0 : (0 : ℝ) < n := by exact_mod_cast (by omega : 0 < n)
  have hd : 0 < (b - a) / n := by apply div_pos _ hn0; linarith
  unfold Spec.node at h
  have h1 := mul_right_cancel₀ hd.ne' (add_left_cancel h)
  have h2 : (i : ℝ) = j := by linarith
  exact_mod_cast h2

lemma grid_window {a b : ℝ} {n R s : ℕ} (hlt : a < b) (hn : 1 ≤ n) (hs : s + R ≤ n) :
    DistinctNodes (win ((List.range n).map (Spec.node a b n)) s) R := by
  intro i hi j hj h
  unfold win at h
  rw [getD_map (by omega), getD_map (by omega)] at h
  have := node_inj hlt hn h
  omega

/-- The place in a table depends on its nodes only. -/
lemma locateGrid_same {J J' : Interp} {a b : ℝ} {n R : ℕ} {isLog isLog' l l' : Bool} {Y Y' : List ℝ} (hJ : GridTable a b n R isLog l Y J)
    (hJ' : GridTable a b n R isLog' l' Y' J') (u : ℝ) : J.locateGrid u = J'.locateGrid u := by
  unfold Interp.locateGrid
  simp only [hJ.max, hJ.romberg, hJ.xmin, hJ.step, hJ'.max, hJ'.romberg, hJ'.xmin, hJ'.step]

/-- The value of a table without logarithms of the function, with its place in the table. -/
lemma grid_value_at {J : Interp} {a b : ℝ} {n R : ℕ} {isLog : Bool} {Y : List ℝ} (hJ : GridTable a b n R isLog false Y J) (hY : Y.length = n) (hlt : a < b) (hR : 1 ≤ R)
    (hRn : R ≤ n) (hn : n ≤ 1000000000) {x u : ℝ} (hu : u = if isLog then itpLog x else x) (h1 : -1000000000 ≤ (u - a) / ((b - a) / n))
    (h2 : (u - a) / ((b - a) / n) ≤ 1000000000) :
    ∃ (i : ℤ) (s : ℕ), J.locateGrid u = .ok (i, (s : ℤ)) ∧ (s : ℤ) ≤ i ∧ i < s + R ∧ Spec.NearestNodes a b n R s u ∧
      ∃ K, J.interpolate x = .ok (nv (win ((List.range n).map (Spec.node a b n)) s) (win Y s) u (R - 1) 0, K) := by
  have hslog : ∃ J', (if J.isLog then J.slog x else (x, J)) = (u, J') ∧ GridTable a b n R isLog false Y J' := by
    rw [hJ.isLog, hu]
    cases isLog with
    | false => exact ⟨J, rfl, hJ⟩
    | true =>
      obtain ⟨e1, e2⟩ := sameTable_slog (x := x) (SameTable.refl hJ.save)
      refine ⟨(J.slog x).2, ?_, ?_⟩
      · simp only [if_true]
        rw [← e2]
      · obtain ⟨k1, k2, k3, k4, k5, k6, k7, k8, k9, k10, k11, k12, k13, k14⟩ := e1
        obtain ⟨i1, i2, i3, i4, i5, i6, i7, i8, i9, i10, i11⟩ := hJ
        exact ⟨k5.trans i1, k1.trans i2, k6.trans i3, k8.trans i4, k3.trans i5, k4.trans i6, k9.trans i7, k12.trans i8, k13.trans i9,
          fun h => k11.trans (i10 h), k14⟩
  obtain ⟨J', eJ, hJ'⟩ := hslog
  obtain ⟨i, s, e1, e2, e3, hN⟩ := locateGrid_ok hJ' hlt hR hRn hn h1 h2
  refine ⟨i, s, (locateGrid_same hJ hJ' u).trans e1, e2, e3, hN, ?_⟩
  have hs := hN.1
  obtain ⟨j1, j2, j3, j4, j5, j6, j7, j8, j9, j10, j11⟩ := hJ'
  have key := evalAt_poly { J' with reverse := true, starti := i } j7 (by simp [j9]) u (start := s) (by omega)
    (by simp only [j2, j5, List.length_map, List.length_range]; omega) (by simp only [j2, j6, hY]; omega) (by simp only [j2]; omega) e2 (by simp only [j2]; exact e3)
    (by simp only [j2, j5]; exact grid_window hlt (by omega) hs)
  unfold Interp.interpolate
  simp only [eJ, bind, Except.bind]
  rw [e1]
  dsimp only
  rw [key]
  simp only [j2, j5, j6, j9, Bool.false_and, Bool.false_eq_true, if_false]
  exact ⟨_, rfl⟩

/-- The value of a table without logarithms of the function. -/
lemma grid_value {J : Interp} {a b : ℝ} {n R : ℕ} {isLog : Bool} {Y : List ℝ} (hJ : GridTable a b n R isLog false Y J) (hY : Y.length = n) (hlt : a < b) (hR : 1 ≤ R)
    (hRn : R ≤ n) (hn : n ≤ 1000000000) {x u : ℝ} (hu : u = if isLog then itpLog x else x) (h1 : -1000000000 ≤ (u - a) / ((b - a) / n))
    (h2 : (u - a) / ((b - a) / n) ≤ 1000000000) :
    ∃ s : ℕ, Spec.NearestNodes a b n R s u ∧
      ∃ K, J.interpolate x = .ok (nv (win ((List.range n).map (Spec.node a b n)) s) (win Y s) u (R - 1) 0, K) := by
  obtain ⟨_, s, _, _, _, h, h'⟩ := grid_value_at hJ hY hlt hR hRn hn hu h1 h2
  exact ⟨s, h, h'⟩

lemma scale_lt {isLog : Bool} {x y : ℝ} (h : x < y) (hlog : isLog = true → 0 < x) : Spec.scale isLog x < Spec.scale isLog y := by
  unfold Spec.scale
  cases isLog with
  | false => exact h
  | true => exact Real.log_lt_log (hlog rfl) h

/-- C135: `Interpolate` in a table of a function of one variable, with polynomials: for every point, also beyond the table, as long as the
conversions to `int` are defined, the result is the polynomial in the point, or in its logarithm, through the nodes nearest to it. The nodes
are the middles of equal cells. Earlier calls and `SetFast` have no influence. -/
theorem C135_table {n : ℕ} {xmin xmax : ℝ} (f : ℝ → ℝ) (r : ℤ) (isLog : Bool) (rY : ℤ) (rationalY : Bool) (hn : 1 ≤ n) (hn' : n ≤ 1000000000)
    (hlt : xmin < xmax) (hlog : isLog = true → 0 < xmin) {J : Interp}
    (hJ : Spec.Calls (interpOfFunction n xmin xmax f r false isLog rY rationalY false) J) {x : ℝ} (hx : isLog = true → 0 < x)
    (h1 : -1000000000 ≤ (Spec.scale isLog x - Spec.scale isLog xmin) / ((Spec.scale isLog xmax - Spec.scale isLog xmin) / n))
    (h2 : (Spec.scale isLog x - Spec.scale isLog xmin) / ((Spec.scale isLog xmax - Spec.scale isLog xmin) / n) ≤ 1000000000) :
    ∃ s : ℕ, Spec.NearestNodes (Spec.scale isLog xmin) (Spec.scale isLog xmax) n (min (max r 1).toNat n) s (Spec.scale isLog x) ∧
      ∃ p : ℝ[X], p.natDegree < min (max r 1).toNat n ∧
        (∀ j, s ≤ j → j < s + min (max r 1).toNat n → ∀ z, (isLog = true → 0 < z) →
          Spec.scale isLog z = Spec.node (Spec.scale isLog xmin) (Spec.scale isLog xmax) n j → p.eval (Spec.scale isLog z) = f z) ∧
        ∃ K, J.interpolate x = .ok (p.eval (Spec.scale isLog x), K) := by
  have hJ' := grid_later (ofFunction_ok f r isLog rY rationalY false hn hlt hlog) hJ
  have hab := scale_lt hlt hlog
  have hR : 1 ≤ Spec.order r n := by unfold Spec.order; omega
  have hRn : Spec.order r n ≤ n := by unfold Spec.order; omega
  have hu : Spec.scale isLog x = if isLog then itpLog x else x := by
    unfold Spec.scale
    cases isLog with
    | false => rfl
    | true =>
      simp only [if_true]
      unfold itpLog
      rw [if_neg (not_le.mpr (hx rfl))]
  obtain ⟨s, hN, K, hK⟩ := grid_value hJ' (by simp) hab hR hRn hn' hu h1 h2
  have hs := hN.1
  obtain ⟨p, p1, p2, p3⟩ := poly_of_nv (X := win ((List.range n).map (Spec.node (Spec.scale isLog xmin) (Spec.scale isLog xmax) n)) s)
    (Y := win _ s) hR (grid_window hab hn hs) (Spec.scale isLog x)
  refine ⟨s, hN, p, p1, ?_, K, by rw [hK, p3]⟩
  intro j hj1 hj2 z hz hzj
  have hj3 : j < s + Spec.order r n := hj2
  have := p2 (j - s) (by omega)
  unfold win at this
  have e5 : ((s : ℤ)).toNat + (j - s) = j := by omega
  rw [e5, getD_map (by omega), getD_map (by omega)] at this
  simp only [Bool.false_eq_true, if_false] at this
  rw [hzj, this]
  congr 1
  cases isLog with
  | false => simpa [Spec.scale] using hzj.symm
  | true =>
    simp only [if_true]
    rw [← hzj]
    exact Real.exp_log (hz rfl)

/-- C135: functions that are polynomials in the point, or in its logarithm, of a degree below the order are reproduced. -/
theorem C135_polynomials {n : ℕ} {xmin xmax : ℝ} (f : ℝ → ℝ) (r : ℤ) (isLog : Bool) (rY : ℤ) (rationalY : Bool) (hn : 1 ≤ n) (hn' : n ≤ 1000000000)
    (hlt : xmin < xmax) (hlog : isLog = true → 0 < xmin) {J : Interp}
    (hJ : Spec.Calls (interpOfFunction n xmin xmax f r false isLog rY rationalY false) J) {x : ℝ} (hx : isLog = true → 0 < x)
    (h1 : -1000000000 ≤ (Spec.scale isLog x - Spec.scale isLog xmin) / ((Spec.scale isLog xmax - Spec.scale isLog xmin) / n))
    (h2 : (Spec.scale isLog x - Spec.scale isLog xmin) / ((Spec.scale isLog xmax - Spec.scale isLog xmin) / n) ≤ 1000000000)
    (q : ℝ[X]) (hq : q.natDegree < min (max r 1).toNat n) (hf : ∀ z, (isLog = true → 0 < z) → f z = q.eval (Spec.scale isLog z)) :
    ∃ K, J.interpolate x = .ok (f x, K) := by
  obtain ⟨s, hN, p, p1, p2, K, hK⟩ := C135_table f r isLog rY rationalY hn hn' hlt hlog hJ hx h1 h2
  refine ⟨K, ?_⟩
  rw [hK, hf x hx]
  have hab := scale_lt hlt hlog
  have : p - q = 0 := by
    refine Polynomial.eq_zero_of_natDegree_lt_card_of_eval_eq_zero _
      (f := fun j : Fin (min (max r 1).toNat n) => Spec.node (Spec.scale isLog xmin) (Spec.scale isLog xmax) n (s + j)) ?_ ?_ ?_
    · intro a b hab'
      have := node_inj hab hn hab'
      exact Fin.ext (by omega)
    · intro j
      have hz : ∃ z, (isLog = true → 0 < z) ∧ Spec.scale isLog z = Spec.node (Spec.scale isLog xmin) (Spec.scale isLog xmax) n (s + j) := by
        cases isLog with
        | false => exact ⟨_, fun h => by simp at h, rfl⟩
        | true => exact ⟨Real.exp (Spec.node (Spec.scale true xmin) (Spec.scale true xmax) n (s + j)), fun _ => Real.exp_pos _, by simp [Spec.scale]⟩
      obtain ⟨z, hz1, hz2⟩ := hz
      have := p2 (s + j) (by omega) (by have := j.2; omega) z hz1 hz2
      rw [eval_sub, ← hz2, this, hf z hz1, sub_self]
    · refine lt_of_le_of_lt (natDegree_sub_le _ _) ?_
      rw [Fintype.card_fin]
      exact max_lt p1 hq
  rw [sub_eq_zero.mp this]

/-- C135: in a table whose ends are equal, and too far from a table, `Interpolate` is undefined: it converts numbers to `int` that do not
fit. -/
theorem C135_undefined {n : ℕ} {xmin xmax : ℝ} (f : ℝ → ℝ) (r : ℤ) (rational : Bool) (rY : ℤ) (rationalY logSubst : Bool) (hn : 1 ≤ n) (x : ℝ) :
    (xmin = xmax → (interpOfFunction n xmin xmax f r rational false rY rationalY logSubst).interpolate x = .error .undefined) ∧
    (xmin < xmax → 2147483648 ≤ (x - xmin) / ((xmax - xmin) / n) →
      (interpOfFunction n xmin xmax f r rational false rY rationalY logSubst).interpolate x = .error .undefined) := by
  constructor
  · rintro rfl
    unfold Interp.interpolate interpOfFunction
    have : (initInterp (n : ℤ) xmin xmin r rational false rY rationalY logSubst).step = 0 := by
      unfold initInterp
      simp
    have h2 : (initInterp (n : ℤ) xmin xmin r rational false rY rationalY logSubst).isLog = false := rfl
    unfold Interp.locateGrid
    simp only [h2, Bool.false_eq_true, if_false, this, if_true]
    rfl
  · intro hlt hfar
    obtain ⟨i1, i2, i3, i4, i5, i6, i7, i8, i9, i10, i11, i12, i13, i14, i15, i16⟩ := init_order (max := (n : ℤ)) (xmin := xmin) (xmax := xmax) r rational false rY rationalY
      logSubst (by omega) (fun h => by simp at h) hlt.ne
    rw [min_eq_left hlt.le] at i4
    rw [max_eq_right hlt.le] at i5
    simp only [Bool.false_eq_true, if_false] at i4 i5
    have hn0 : (0 : ℝ) < n := by exact_mod_cast (by omega : 0 < n)
    have hd : 0 < (xmax - xmin) / n := by apply div_pos _ hn0; linarith
    have i6' : (initInterp (n : ℤ) xmin xmax r rational false rY rationalY logSubst).step = (xmax - xmin) / n := by
      rw [i6, i4, i5]
      push_cast
      rfl
    have ht : cppInt ((x - xmin) / ((xmax - xmin) / n)) = .error .undefined := by
      unfold cppInt
      rw [if_neg]
      rintro ⟨-, h⟩
      linarith
    unfold Interp.interpolate interpOfFunction Interp.locateGrid
    simp only [i10, Bool.false_eq_true, if_false, i4, i6', if_neg hd.ne', ht]
    rfl

/-! ## Tables of logarithms -/

open Classical in
/-- Numbers up to `exp(-299)` are taken as zero. -/
noncomputable def Spec.cut (r : ℝ) : ℝ := if r ≤ Real.exp (-299) then 0 else r

lemma itpExp_itpLog (r : ℝ) : itpExp (itpLog r) = Spec.cut r := by
  unfold itpExp itpLog Spec.cut logCutoff expCutoff
  by_cases h : r ≤ 0
  · rw [if_pos h, if_pos (by norm_num), if_pos (h.trans (Real.exp_pos _).le)]
  · rw [if_neg h]
    push Not at h
    by_cases h1 : r ≤ Real.exp (-299)
    · rw [if_pos h1, if_pos]
      rw [← Real.exp_le_exp, Real.exp_log h]
      exact h1
    · rw [if_neg h1, if_neg]
      · exact Real.exp_log h
      · rw [← Real.exp_le_exp, Real.exp_log h]
        exact h1

lemma cut_itpExp (r : ℝ) : Spec.cut (itpExp r) = itpExp r := by
  unfold itpExp Spec.cut expCutoff
  by_cases h : r ≤ -299
  · rw [if_pos h, if_pos (Real.exp_pos _).le]
  · rw [if_neg h, if_neg]
    rwa [Real.exp_le_exp]

lemma cut_nonneg (r : ℝ) : 0 ≤ Spec.cut r := by
  unfold Spec.cut
  split_ifs with h
  · exact le_rfl
  · push Not at h
    exact ((Real.exp_pos _).trans h).le

lemma itpExp_nonneg (r : ℝ) : 0 ≤ itpExp r := by
  unfold itpExp
  split_ifs
  · exact le_rfl
  · exact (Real.exp_pos _).le

open Classical in
/-- The value between logarithms. -/
lemma evalAt_log (I : Interp) (hrat : I.rational = false) (hlog : (I.logSubst && I.reverse) = true) (x : ℝ) {start : ℤ}
    (h0 : 0 ≤ start) (h1 : start + I.romberg ≤ I.iX.length) (h1' : start + I.romberg ≤ I.iY.length) (hr : 1 ≤ I.romberg)
    (h2 : start ≤ I.starti) (h3 : I.starti < start + I.romberg) (hX : DistinctNodes (win I.iX start) I.romberg) :
    ∃ v, I.evalAt x start = .ok v ∧ itpExp v = if ∃ j < I.romberg, win I.iY start j = logCutoff then
      Spec.cut (nv (win I.iX start) (fun j => itpExp (win I.iY start j)) x (I.romberg - 1) 0)
      else itpExp (nv (win I.iX start) (win I.iY start) x (I.romberg - 1) 0) := by
  have hthrough : ∀ Y : ℕ → ℝ, ∀ j < I.romberg, nv (win I.iX start) Y (win I.iX start j) (I.romberg - 1) 0 = Y j := by
    intro Y j hj
    exact nev_through hX _ 0 j (by omega) (by omega) (by omega)
  have hnode : ∀ j < I.romberg, itpExp (win I.iY start j) = if ∃ j < I.romberg, win I.iY start j = logCutoff then
      Spec.cut (nv (win I.iX start) (fun j => itpExp (win I.iY start j)) (win I.iX start j) (I.romberg - 1) 0)
      else itpExp (nv (win I.iX start) (win I.iY start) (win I.iX start j) (I.romberg - 1) 0) := by
    intro j hj
    rw [hthrough _ j hj, hthrough _ j hj, cut_itpExp]
    split_ifs <;> rfl
  have hany : (List.range I.romberg).any (fun i => decide (I.iY.getD (start.toNat + i) 0 = logCutoff)) =
      decide (∃ j < I.romberg, win I.iY start j = logCutoff) := by
    rw [Bool.eq_iff_iff, List.any_eq_true, decide_eq_true_iff]
    simp only [List.mem_range, decide_eq_true_eq]
    rfl
  have hbetw : ∀ num : ℤ, 0 ≤ num → num < I.romberg → I.between (decide (∃ j < I.romberg, win I.iY start j = logCutoff)) x start num
      (fun j => I.iX.getD (start.toNat + j) 0)
      (if decide (∃ j < I.romberg, win I.iY start j = logCutoff) = true then fun i => itpExp (I.iY.getD (start.toNat + i) 0)
        else fun j => I.iY.getD (start.toNat + j) 0) = .ok (nv (win I.iX start)
      (if decide (∃ j < I.romberg, win I.iY start j = logCutoff) = true then fun i => itpExp (win I.iY start i) else win I.iY start) x (I.romberg - 1) 0) := by
    intro num hn0 hn1
    refine between_poly I hrat _ x h0 h1 h1' hn0 hn1 hX ?_
    have e : start.toNat + num.toNat = (start + num).toNat := by omega
    split_ifs
    · show itpExp (I.iY.getD (start.toNat + num.toNat) 0) = _
      rw [e]
    · show I.iY.getD (start.toNat + num.toNat) 0 = _
      rw [e]
  have hfin : itpExp (if decide (∃ j < I.romberg, win I.iY start j = logCutoff) = true then
      itpLog (nv (win I.iX start)
      (if decide (∃ j < I.romberg, win I.iY start j = logCutoff) = true then fun i => itpExp (win I.iY start i) else win I.iY start) x (I.romberg - 1) 0)
      else nv (win I.iX start)
      (if decide (∃ j < I.romberg, win I.iY start j = logCutoff) = true then fun i => itpExp (win I.iY start i) else win I.iY start) x (I.romberg - 1) 0) =
      if ∃ j < I.romberg, win I.iY start j = logCutoff then
      Spec.cut (nv (win I.iX start) (fun j => itpExp (win I.iY start j)) x (I.romberg - 1) 0)
      else itpExp (nv (win I.iX start) (win I.iY start) x (I.romberg - 1) 0) := by
    by_cases h : ∃ j < I.romberg, win I.iY start j = logCutoff
    · simp only [h, decide_true, if_true]
      exact itpExp_itpLog _
    · simp only [h, decide_false, Bool.false_eq_true, if_false]
  unfold Interp.evalAt
  rw [vecWindow_ok h0 h1, vecWindow_ok h0 h1']
  simp only [bind, Except.bind, hlog, Bool.true_and, hany]
  by_cases hf : I.fast = true
  · rw [if_pos hf, vecAt_ok (by omega) (by omega)]
    dsimp only
    by_cases hx : x = I.iX.getD I.starti.toNat 0
    · rw [if_pos hx, vecAt_ok (by omega) (by omega)]
      refine ⟨_, rfl, ?_⟩
      have e : I.starti.toNat = start.toNat + (I.starti - start).toNat := by omega
      rw [hx, e]
      exact hnode _ (by omega)
    · rw [if_neg hx, hbetw _ (by omega) (by omega)]
      exact ⟨_, rfl, hfin⟩
  · rw [if_neg hf]
    generalize hfind : List.find? _ (List.range I.romberg) = o
    cases o with
    | some i =>
      have h4 := List.find?_some hfind
      have h5 := List.mem_of_find?_eq_some hfind
      simp only [decide_eq_true_eq, abs_eq_zero, sub_eq_zero] at h4
      rw [List.mem_range] at h5
      refine ⟨_, rfl, ?_⟩
      rw [h4]
      exact hnode i h5
    | none =>
      have hlt := nearestNode_lt (win I.iX start) x I.romberg (by omega)
      dsimp only
      have hnn : (nearestNode (fun j => I.iX.getD (start.toNat + j) 0) x I.romberg).1 < I.romberg := hlt
      rw [hbetw ((nearestNode (fun j => I.iX.getD (start.toNat + j) 0) x I.romberg).1 : ℕ) (by omega) (by omega)]
      exact ⟨_, rfl, hfin⟩

open Classical in
/-- The value of a table of logarithms of the function. -/
lemma grid_value_log {J : Interp} {a b : ℝ} {n R : ℕ} {isLog : Bool} {Y : List ℝ} (hJ : GridTable a b n R isLog true Y J) (hY : Y.length = n) (hlt : a < b) (hR : 1 ≤ R)
    (hRn : R ≤ n) (hn : n ≤ 1000000000) {x u : ℝ} (hu : u = if isLog then itpLog x else x) (h1 : -1000000000 ≤ (u - a) / ((b - a) / n))
    (h2 : (u - a) / ((b - a) / n) ≤ 1000000000) :
    ∃ s : ℕ, Spec.NearestNodes a b n R s u ∧
      ∃ K, J.interpolate x = .ok (if ∃ j < R, win Y s j = logCutoff then
        Spec.cut (nv (win ((List.range n).map (Spec.node a b n)) s) (fun j => itpExp (win Y s j)) u (R - 1) 0)
        else itpExp (nv (win ((List.range n).map (Spec.node a b n)) s) (win Y s) u (R - 1) 0), K) := by
  have hslog : ∃ J', (if J.isLog then J.slog x else (x, J)) = (u, J') ∧ GridTable a b n R isLog true Y J' := by
    rw [hJ.isLog, hu]
    cases isLog with
    | false => exact ⟨J, rfl, hJ⟩
    | true =>
      obtain ⟨e1, e2⟩ := sameTable_slog (x := x) (SameTable.refl hJ.save)
      refine ⟨(J.slog x).2, ?_, ?_⟩
      · simp only [if_true]
        rw [← e2]
      · obtain ⟨k1, k2, k3, k4, k5, k6, k7, k8, k9, k10, k11, k12, k13, k14⟩ := e1
        obtain ⟨i1, i2, i3, i4, i5, i6, i7, i8, i9, i10, i11⟩ := hJ
        exact ⟨k5.trans i1, k1.trans i2, k6.trans i3, k8.trans i4, k3.trans i5, k4.trans i6, k9.trans i7, k12.trans i8, k13.trans i9,
          fun h => k11.trans (i10 h), k14⟩
  obtain ⟨J', eJ, hJ'⟩ := hslog
  obtain ⟨i, s, e1, e2, e3, hN⟩ := locateGrid_ok hJ' hlt hR hRn hn h1 h2
  refine ⟨s, hN, ?_⟩
  have hs := hN.1
  obtain ⟨j1, j2, j3, j4, j5, j6, j7, j8, j9, j10, j11⟩ := hJ'
  obtain ⟨v, key1, key2⟩ := evalAt_log { J' with reverse := true, starti := i } j7 (by simp [j9]) u (start := s) (by omega)
    (by simp only [j2, j5, List.length_map, List.length_range]; omega) (by simp only [j2, j6, hY]; omega) (by simp only [j2]; omega) e2 (by simp only [j2]; exact e3)
    (by simp only [j2, j5]; exact grid_window hlt (by omega) hs)
  simp only [j2, j5, j6] at key2
  unfold Interp.interpolate
  simp only [eJ, bind, Except.bind]
  rw [e1]
  dsimp only
  rw [key1, ← key2]
  simp only [j9, j10 rfl, Bool.true_and, if_true]
  exact ⟨_, rfl⟩

/-- C135: a table of the logarithms of a function. The results are never negative. If the function is positive at the nodes nearest to the
point, the logarithm of the result is the polynomial through its logarithms there, and the result is zero only if that is not above -299.
If the function is not positive at one of these nodes, the result is the polynomial through its values there, where those below `exp(-299)`
and results below this count as zero. -/
theorem C135_logarithms {n : ℕ} {xmin xmax : ℝ} (f : ℝ → ℝ) (r : ℤ) (isLog : Bool) (rY : ℤ) (rationalY : Bool) (hn : 1 ≤ n) (hn' : n ≤ 1000000000)
    (hlt : xmin < xmax) (hlog : isLog = true → 0 < xmin) {J : Interp}
    (hJ : Spec.Calls (interpOfFunction n xmin xmax f r false isLog rY rationalY true) J) {x : ℝ} (hx : isLog = true → 0 < x)
    (h1 : -1000000000 ≤ (Spec.scale isLog x - Spec.scale isLog xmin) / ((Spec.scale isLog xmax - Spec.scale isLog xmin) / n))
    (h2 : (Spec.scale isLog x - Spec.scale isLog xmin) / ((Spec.scale isLog xmax - Spec.scale isLog xmin) / n) ≤ 1000000000) :
    ∃ v K, J.interpolate x = .ok (v, K) ∧ 0 ≤ v ∧
      ∃ s : ℕ, Spec.NearestNodes (Spec.scale isLog xmin) (Spec.scale isLog xmax) n (min (max r 1).toNat n) s (Spec.scale isLog x) ∧
      ∃ z : ℕ → ℝ, (∀ j, (isLog = true → 0 < z j) ∧ Spec.scale isLog (z j) = Spec.node (Spec.scale isLog xmin) (Spec.scale isLog xmax) n j) ∧
      ((∀ j, s ≤ j → j < s + min (max r 1).toNat n → 0 < f (z j) ∧ f (z j) ≠ Real.exp (-300)) →
        ∃ p : ℝ[X], p.natDegree < min (max r 1).toNat n ∧
          (∀ j, s ≤ j → j < s + min (max r 1).toNat n → p.eval (Spec.scale isLog (z j)) = Real.log (f (z j))) ∧
          v = if p.eval (Spec.scale isLog x) ≤ -299 then 0 else Real.exp (p.eval (Spec.scale isLog x))) ∧
      ((∃ j, s ≤ j ∧ j < s + min (max r 1).toNat n ∧ f (z j) ≤ 0) →
        ∃ p : ℝ[X], p.natDegree < min (max r 1).toNat n ∧
          (∀ j, s ≤ j → j < s + min (max r 1).toNat n → p.eval (Spec.scale isLog (z j)) = if f (z j) ≤ Real.exp (-299) then 0 else f (z j)) ∧
          v = if p.eval (Spec.scale isLog x) ≤ Real.exp (-299) then 0 else p.eval (Spec.scale isLog x)) := by
  classical
  have hJ' := grid_later (ofFunction_ok f r isLog rY rationalY true hn hlt hlog) hJ
  have hab := scale_lt hlt hlog
  have hR : 1 ≤ Spec.order r n := by unfold Spec.order; omega
  have hRn : Spec.order r n ≤ n := by unfold Spec.order; omega
  have hu : Spec.scale isLog x = if isLog then itpLog x else x := by
    unfold Spec.scale
    cases isLog with
    | false => rfl
    | true =>
      simp only [if_true]
      unfold itpLog
      rw [if_neg (not_le.mpr (hx rfl))]
  obtain ⟨s, hN, K, hK⟩ := grid_value_log hJ' (by simp) hab hR hRn hn' hu h1 h2
  have hs := hN.1
  set z : ℕ → ℝ := fun j => if isLog then Real.exp (Spec.node (Spec.scale isLog xmin) (Spec.scale isLog xmax) n j)
          else Spec.node (Spec.scale isLog xmin) (Spec.scale isLog xmax) n j with hz
  have hzs : ∀ j, Spec.scale isLog (z j) = Spec.node (Spec.scale isLog xmin) (Spec.scale isLog xmax) n j := by
    intro j
    rw [hz]
    cases isLog with
    | false => rfl
    | true => simp [Spec.scale]
  have hwin : ∀ j < Spec.order r n, win ((List.range n).map fun j => if true = true then itpLog (f (z j)) else f (z j)) s j = itpLog (f (z (s + j))) := by
    intro j hj
    unfold win
    rw [getD_map (by omega)]
    simp
  have hX := grid_window hab hn hs
  have hval : ∀ Y : ℕ → ℝ, ∃ p : ℝ[X], p.natDegree < Spec.order r n ∧ (∀ j, s ≤ j → j < s + Spec.order r n → p.eval (Spec.scale isLog (z j)) = Y (j - s)) ∧
      nv (win ((List.range n).map (Spec.node (Spec.scale isLog xmin) (Spec.scale isLog xmax) n)) s) Y (Spec.scale isLog x) (Spec.order r n - 1) 0 =
        p.eval (Spec.scale isLog x) := by
    intro Y
    obtain ⟨p, p1, p2, p3⟩ := poly_of_nv (Y := Y) hR hX (Spec.scale isLog x)
    refine ⟨p, p1, ?_, p3⟩
    intro j hj1 hj2
    have := p2 (j - s) (by omega)
    unfold win at this
    have e5 : ((s : ℤ)).toNat + (j - s) = j := by omega
    rw [e5, getD_map (by omega)] at this
    rw [hzs, this]
  refine ⟨_, K, hK, ?_, s, hN, z, fun j => ⟨fun h => by rw [hz]; simp only [h, if_true]; exact Real.exp_pos _, hzs j⟩, ?_, ?_⟩
  · have : ∀ (c : Prop) [Decidable c] (a b : ℝ), 0 ≤ a → 0 ≤ b → 0 ≤ if c then a else b := by
      intro c _ a b ha hb
      split_ifs <;> assumption
    exact this _ _ _ (cut_nonneg _) (itpExp_nonneg _)
  · intro hpos
    obtain ⟨p, p1, p2, p3⟩ := hval (win ((List.range n).map fun j => if true = true then itpLog (f (z j)) else f (z j)) s)
    refine ⟨p, p1, ?_, ?_⟩
    · intro j hj1 hj2
      have hj3 : j < s + Spec.order r n := hj2
      rw [p2 j hj1 hj2, hwin _ (by omega), show s + (j - s) = j by omega]
      unfold itpLog
      rw [if_neg (not_le.mpr (hpos j hj1 hj2).1)]
    · refine (if_neg ?_).trans ?_
      swap
      · exact congrArg itpExp p3
      · rintro ⟨j, hj, hj'⟩
        replace hj' := (hwin j hj).symm.trans hj'
        obtain ⟨q1, q2⟩ := hpos (s + j) (by omega) (by change s + j < s + Spec.order r n; omega)
        unfold itpLog logCutoff at hj'
        rw [if_neg (not_le.mpr q1)] at hj'
        apply q2
        rw [← hj', Real.exp_log q1]
  · rintro ⟨j0, hj1, hj2, hj3⟩
    have hj2' : j0 < s + Spec.order r n := hj2
    obtain ⟨p, p1, p2, p3⟩ := hval fun j => itpExp (win ((List.range n).map fun j => if true = true then itpLog (f (z j)) else f (z j)) s j)
    refine ⟨p, p1, ?_, ?_⟩
    · intro j hj1 hj2
      have hj3 : j < s + Spec.order r n := hj2
      rw [p2 j hj1 hj2, hwin _ (by omega), show s + (j - s) = j by omega, itpExp_itpLog]
      rfl
    · refine (if_pos ?_).trans ?_
      swap
      · exact congrArg Spec.cut p3
      · refine ⟨j0 - s, by omega, (hwin _ (by omega)).trans ?_⟩
        rw [show s + (j0 - s) = j0 by omega]
        unfold itpLog
        rw [if_pos hj3]

/-- The hypotheses of `C135_polynomials` are met by the identity in a table of ten nodes, also beyond the table. -/
example : ∃ K, (interpOfFunction (10 : ℕ) 0 5 (fun x => x) 3 false false 3 false false).interpolate 7 = .ok (7, K) :=
  C135_polynomials (n := 10) (xmin := 0) (xmax := 5) (fun x => x) 3 false 3 false (by norm_num) (by norm_num) (by norm_num) (fun h => by simp at h) .refl
    (fun h => by simp at h) (by norm_num [Spec.scale]) (by norm_num [Spec.scale]) X (by rw [natDegree_X]; decide) (fun z _ => by simp [Spec.scale])

/-- The hypotheses of `C135_logarithms` are met by a function with zeros in a table of logarithmic scale. -/
example : ∃ v K, (interpOfFunction (10 : ℕ) 1 100 (fun x => max 0 (x - 2)) 3 false true 3 false true).interpolate 2 = .ok (v, K) ∧ 0 ≤ v := by
  have h1 : 0 < Real.log 2 := Real.log_pos (by norm_num)
  have h2 : Real.log 2 < Real.log 100 := Real.log_lt_log (by norm_num) (by norm_num)
  obtain ⟨v, K, e, hv, -⟩ := C135_logarithms (n := 10) (xmin := 1) (xmax := 100) (x := 2) (fun x => max 0 (x - 2)) 3 true 3 false (by norm_num) (by norm_num)
    (by norm_num) (fun _ => by norm_num) .refl (fun _ => by norm_num) (by
      simp only [Spec.scale, if_true, Real.log_one, sub_zero]
      have : 0 ≤ Real.log 2 / (Real.log 100 / ((10 : ℕ) : ℝ)) := by positivity
      linarith) (by
      simp only [Spec.scale, if_true, Real.log_one, sub_zero]
      rw [div_le_iff₀ (by positivity)]
      push_cast
      linarith)
  exact ⟨v, K, e, hv⟩

end Proposal
