import Verif.Props.InterpGridTwo

/-!
# C135: tables of the logarithms of functions of two variables
-/

open Polynomial

namespace Proposal

/-- Without zeros among the values, logarithms are interpolated like other values. -/
lemma evalAt_plain (I : Interp) (x : ℝ) {start : ℤ} (h0 : 0 ≤ start) (h1 : start + I.romberg ≤ I.iX.length) (h1' : start + I.romberg ≤ I.iY.length)
    (hno : ∀ j < I.romberg, win I.iY start j ≠ logCutoff) : I.evalAt x start = { I with logSubst := false }.evalAt x start := by
  classical
  have hany : (List.range I.romberg).any (fun i => decide (I.iY.getD (start.toNat + i) 0 = logCutoff)) = false := by
    rw [List.any_eq_false]
    intro j hj
    rw [List.mem_range] at hj
    rw [decide_eq_true_eq]
    exact hno j hj
  unfold Interp.evalAt
  simp only [vecWindow_ok h0 h1, vecWindow_ok h0 h1', bind, Except.bind, hany, Bool.and_false, Bool.false_and]
  rfl

/-- The value of a row: the logarithm stays, because a row does not undo it. -/
lemma row_value {I : Interp} {a b : ℝ} {n R : ℕ} {isLog : Bool} {Y : List ℝ} (hI : GridTable a b n R isLog false Y { I with logSubst := false })
    (hself : I.self = false) (hY : Y.length = n) (hlt : a < b) (hR : 1 ≤ R)
    (hRn : R ≤ n) (hn : n ≤ 1000000000) {x u : ℝ} (hu : u = if isLog then itpLog x else x) (h1 : -1000000000 ≤ (u - a) / ((b - a) / n))
    (h2 : (u - a) / ((b - a) / n) ≤ 1000000000) (hno : ∀ j < n, Y.getD j 0 ≠ logCutoff) :
    ∃ (i : ℤ) (s : ℕ), I.locateGrid u = .ok (i, (s : ℤ)) ∧
      ∃ K, I.interpolate x = .ok (nv (win ((List.range n).map (Spec.node a b n)) s) (win Y s) u (R - 1) 0, K) := by
  have hslog : ∃ J', (if I.isLog then I.slog x else (x, I)) = (u, J') ∧ GridTable a b n R isLog false Y { J' with logSubst := false } ∧ J'.self = false := by
    have hlog : I.isLog = isLog := hI.isLog
    rw [hlog, hu]
    cases isLog with
    | false => exact ⟨I, rfl, hI, hself⟩
    | true =>
      obtain ⟨e1, e2⟩ := sameTable_slog (x := x) (SameTable.refl (I := I) hI.save)
      refine ⟨(I.slog x).2, ?_, ?_, ?_⟩
      · simp only [if_true]
        rw [← e2]
      · obtain ⟨k1, k2, k3, k4, k5, k6, k7, k8, k9, k10, k11, k12, k13, k14⟩ := e1
        obtain ⟨i1, i2, i3, i4, i5, i6, i7, i8, i9, i10, i11⟩ := hI
        exact ⟨k5.trans i1, k1.trans i2, k6.trans i3, k8.trans i4, k3.trans i5, k4.trans i6, k9.trans i7, k12.trans i8, rfl,
          fun h => by simp at h, k14⟩
      · exact e1.self.trans hself
  obtain ⟨J', eJ, hJ', hs'⟩ := hslog
  obtain ⟨i, s, e1, e2, e3, hN⟩ := locateGrid_ok hJ' hlt hR hRn hn h1 h2
  refine ⟨i, s, (locateGrid_same hI hJ' u).trans e1, ?_⟩
  have hs := hN.1
  obtain ⟨j1, j2, j3, j4, j5, j6, j7, j8, j9, j10, j11⟩ := hJ'
  dsimp only at j1 j2 j3 j4 j5 j6 j7 j8
  have key := evalAt_poly { J' with reverse := true, starti := i, logSubst := false } j7 (by simp) u (start := s) (by omega)
    (by simp only [j2, j5, List.length_map, List.length_range]; omega) (by simp only [j2, j6, hY]; omega) (by simp only [j2]; omega) e2 (by simp only [j2]; exact e3)
    (by simp only [j2, j5]; exact grid_window hlt (by omega) hs)
  have key2 := evalAt_plain { J' with reverse := true, starti := i } u (start := s) (by omega)
    (by simp only [j2, j5, List.length_map, List.length_range]; omega) (by simp only [j2, j6, hY]; omega) (by
      intro j hj
      simp only [j2] at hj
      simp only [j6]
      unfold win
      exact hno _ (by omega))
  have e1' : J'.locateGrid u = .ok (i, (s : ℤ)) := e1
  unfold Interp.interpolate
  simp only [eJ, bind, Except.bind]
  rw [e1']
  dsimp only
  rw [key2]
  dsimp only
  rw [key]
  simp only [j2, j5, j6, hs', Bool.and_false, Bool.false_eq_true, if_false]
  exact ⟨_, rfl⟩

open Classical in
/-- C135: a table of the logarithms of a positive function of two variables. The logarithm of the result is the interpolation of the logarithms,
in one variable twice; a result is zero only if it is not above -299. -/
theorem C135_two_logarithms {n1 n2 : ℕ} {x1min x1max x2min x2max : ℝ} (f : ℝ → ℝ → ℝ) (r1 r2 : ℤ) (isLog1 isLog2 : Bool) (rY : ℤ) (rationalY : Bool)
    (hn1 : 1 ≤ n1) (hn1' : n1 ≤ 1000000000) (hn2 : 1 ≤ n2) (hn2' : n2 ≤ 1000000000) (hlt1 : x1min < x1max) (hlt2 : x2min < x2max)
    (hlog1 : isLog1 = true → 0 < x1min) (hlog2 : isLog2 = true → 0 < x2min) {U : Interp2}
    (hU : Spec.Calls2 (interp2OfFunction n1 x1min x1max n2 x2min x2max f r1 false isLog1 r2 false isLog2 rY rationalY true) U) {x1 x2 : ℝ}
    (hx1 : isLog1 = true → 0 < x1) (hx2 : isLog2 = true → 0 < x2)
    (a1 : -1000000000 ≤ (Spec.scale isLog1 x1 - Spec.scale isLog1 x1min) / ((Spec.scale isLog1 x1max - Spec.scale isLog1 x1min) / n1))
    (a2 : (Spec.scale isLog1 x1 - Spec.scale isLog1 x1min) / ((Spec.scale isLog1 x1max - Spec.scale isLog1 x1min) / n1) ≤ 1000000000)
    (b1 : -1000000000 ≤ (Spec.scale isLog2 x2 - Spec.scale isLog2 x2min) / ((Spec.scale isLog2 x2max - Spec.scale isLog2 x2min) / n2))
    (b2 : (Spec.scale isLog2 x2 - Spec.scale isLog2 x2min) / ((Spec.scale isLog2 x2max - Spec.scale isLog2 x2min) / n2) ≤ 1000000000)
    (hpos : ∀ k < n2, ∀ j < n1, ∀ z y, (isLog2 = true → 0 < z) → (isLog1 = true → 0 < y) →
      Spec.scale isLog2 z = Spec.node (Spec.scale isLog2 x2min) (Spec.scale isLog2 x2max) n2 k →
      Spec.scale isLog1 y = Spec.node (Spec.scale isLog1 x1min) (Spec.scale isLog1 x1max) n1 j → 0 < f y z ∧ f y z ≠ Real.exp (-300))
    (g : ℝ → ℝ)
    (hg : ∀ k < n2, ∀ z, (isLog2 = true → 0 < z) → Spec.scale isLog2 z = Spec.node (Spec.scale isLog2 x2min) (Spec.scale isLog2 x2max) n2 k →
      ∃ K, (interpOfFunction n1 x1min x1max (fun x => Real.log (f x z)) r1 false isLog1 rY rationalY false).interpolate x1 = .ok (g z, K))
    (hg' : ∀ k < n2, ∀ z, (isLog2 = true → 0 < z) → Spec.scale isLog2 z = Spec.node (Spec.scale isLog2 x2min) (Spec.scale isLog2 x2max) n2 k → g z ≠ -300) :
    ∃ w K V, (interpOfFunction n2 x2min x2max g r2 false isLog2 rY rationalY false).interpolate x2 = .ok (w, K) ∧ U.interpolate x1 x2 = .ok (if w ≤ -299 then 0 else Real.exp w, V) := by
  have hab1 := scale_lt hlt1 hlog1
  have hab2 := scale_lt hlt2 hlog2
  have hR1 : 1 ≤ Spec.order r1 n1 := by unfold Spec.order; omega
  have hRn1 : Spec.order r1 n1 ≤ n1 := by unfold Spec.order; omega
  have hR2 : 1 ≤ Spec.order r2 n2 := by unfold Spec.order; omega
  have hRn2 : Spec.order r2 n2 ≤ n2 := by unfold Spec.order; omega
  have hG := ofFunction_ok g r2 isLog2 rY rationalY false hn2 hlt2 hlog2
  obtain ⟨i, s, e1, e2, e3, hN, K, hK⟩ := grid_value_at hG (by simp) hab2 hR2 hRn2 hn2' (scale_itpLog hx2) b1 b2
  have hs := hN.1
  obtain ⟨i1, i2, i3, i4, i5, i6, i7, i8, i9, i10, i11, i12, i13, i14, i15, i16⟩ := init_order (max := (n2 : ℤ)) (xmin := x2min) (xmax := x2max) r2 false isLog2 rY rationalY
    false (by omega) (fun h => ⟨hlog2 h, (hlog2 h).trans hlt2⟩) hlt2.ne
  set T := interp2OfFunction n1 x1min x1max n2 x2min x2max f r1 false isLog1 r2 false isLog2 rY rationalY true with hTdef
  have t1 : T.base.romberg = (interpOfFunction n2 x2min x2max g r2 false isLog2 rY rationalY false).romberg := rfl
  have t2 : T.base.iX = (interpOfFunction n2 x2min x2max g r2 false isLog2 rY rationalY false).iX := rfl
  have t3 : T.base.max = (interpOfFunction n2 x2min x2max g r2 false isLog2 rY rationalY false).max := rfl
  have t4 : T.base.rational = (interpOfFunction n2 x2min x2max g r2 false isLog2 rY rationalY false).rational := rfl
  have t5 : T.base.logSubst = true := rfl
  have t6 : T.base.isLog = (interpOfFunction n2 x2min x2max g r2 false isLog2 rY rationalY false).isLog := rfl
  have t7 : T.base.xmin = (interpOfFunction n2 x2min x2max g r2 false isLog2 rY rationalY false).xmin := rfl
  have t8 : T.base.step = (interpOfFunction n2 x2min x2max g r2 false isLog2 rY rationalY false).step := rfl
  have t9 : T.base.iY.length = n2 := by
    rw [show T.base.iY = (initInterp (n2 : ℤ) x2min x2max r2 false isLog2 rY rationalY false).iY from rfl, i15]
    simp
  obtain ⟨g1, g2, g3, g4, g5, g6, g7, g8, g9, g10, g11⟩ := hG
  have hnode : ∀ k < n2, (initInterp (n2 : ℤ) x2min x2max r2 false isLog2 rY rationalY true).xmin +
      (initInterp (n2 : ℤ) x2min x2max r2 false isLog2 rY rationalY true).step / 2 + k * (initInterp (n2 : ℤ) x2min x2max r2 false isLog2 rY rationalY true).step =
      Spec.node (Spec.scale isLog2 x2min) (Spec.scale isLog2 x2max) n2 k := by
    intro k _
    have h3 : (initInterp (n2 : ℤ) x2min x2max r2 false isLog2 rY rationalY true).xmin = Spec.scale isLog2 x2min := g3
    have h4 : (initInterp (n2 : ℤ) x2min x2max r2 false isLog2 rY rationalY true).step = (Spec.scale isLog2 x2max - Spec.scale isLog2 x2min) / n2 := g4
    rw [h3, h4]
    unfold Spec.node
    ring
  have hmax : (initInterp (n2 : ℤ) x2min x2max r2 false isLog2 rY rationalY true).max = n2 := g1
  have t10 : T.rows.length = n2 := by
    rw [hTdef]
    unfold interp2OfFunction
    simp only [List.length_map, List.length_range, hmax]
  -- the place of a node
  let z (k : ℕ) : ℝ := if isLog2 then Real.exp (Spec.node (Spec.scale isLog2 x2min) (Spec.scale isLog2 x2max) n2 k)
    else Spec.node (Spec.scale isLog2 x2min) (Spec.scale isLog2 x2max) n2 k
  have t11 : ∀ k < n2, T.rows[k]? = some { interpOfFunction n1 x1min x1max (fun x => f x (z k)) r1 false isLog1 rY rationalY true with self := false } := by
    intro k hk
    rw [hTdef]
    unfold interp2OfFunction
    simp only [hmax, List.getElem?_map, List.getElem?_range hk, Option.map_some, hnode k hk]
    rfl
  obtain ⟨c1, c2, c3, c4, c5, c6, c7, c8, c9, c10, c11⟩ := later2_same hU
  rw [t1, g2] at c1
  rw [t2, g5] at c2
  rw [t9] at c3
  rw [t3, g1] at c4
  rw [t4, g7] at c5
  rw [t5] at c6
  rw [t6, g8] at c7
  rw [t7, g3] at c8
  rw [t8, g4] at c9
  rw [t10] at c10
  have hF : ∀ (k : ℕ) (row : Interp), (U.base.iY, U.rows).2[k]? = some row → ∃ row', row.interpolate x1 = .ok (g (z k), row') := by
    intro k row hk
    have hlt : k < n2 := by
      have : k < U.rows.length := (List.getElem?_eq_some_iff.mp hk).1
      omega
    obtain ⟨row', h1, h2⟩ := c11 k _ (t11 k hlt)
    dsimp only at hk
    rw [hk, Option.some.injEq] at h1
    subst h1
    have hI := ofFunction_ok (fun x => f x (z k)) r1 isLog1 rY rationalY true hn1 hlt1 hlog1
    have hL := ofFunction_ok (fun x => Real.log (f x (z k))) r1 isLog1 rY rationalY false hn1 hlt1 hlog1
    obtain ⟨z1, z2⟩ := scale_of_node (isLog := isLog2) (Spec.node (Spec.scale isLog2 x2min) (Spec.scale isLog2 x2max) n2 k)
    obtain ⟨K', hK'⟩ := hg k hlt (z k) z1 z2
    have hval : ∀ j < n1, 0 < f (if isLog1 then Real.exp (Spec.node (Spec.scale isLog1 x1min) (Spec.scale isLog1 x1max) n1 j)
        else Spec.node (Spec.scale isLog1 x1min) (Spec.scale isLog1 x1max) n1 j) (z k) ∧
        f (if isLog1 then Real.exp (Spec.node (Spec.scale isLog1 x1min) (Spec.scale isLog1 x1max) n1 j)
        else Spec.node (Spec.scale isLog1 x1min) (Spec.scale isLog1 x1max) n1 j) (z k) ≠ Real.exp (-300) := by
      intro j hj
      obtain ⟨w1, w2⟩ := scale_of_node (isLog := isLog1) (Spec.node (Spec.scale isLog1 x1min) (Spec.scale isLog1 x1max) n1 j)
      exact hpos k hlt j hj _ _ z1 w1 z2 w2
    have hYs : ((List.range n1).map fun j =>
        let v := f (if isLog1 then Real.exp (Spec.node (Spec.scale isLog1 x1min) (Spec.scale isLog1 x1max) n1 j)
          else Spec.node (Spec.scale isLog1 x1min) (Spec.scale isLog1 x1max) n1 j) (z k)
        if true = true then itpLog v else v) = (List.range n1).map fun j =>
        let v := Real.log (f (if isLog1 then Real.exp (Spec.node (Spec.scale isLog1 x1min) (Spec.scale isLog1 x1max) n1 j)
          else Spec.node (Spec.scale isLog1 x1min) (Spec.scale isLog1 x1max) n1 j) (z k))
        if false = true then itpLog v else v := by
      refine List.map_congr_left fun j hj => ?_
      rw [List.mem_range] at hj
      simp only [if_true, Bool.false_eq_true, if_false]
      unfold itpLog
      rw [if_neg (not_le.mpr (hval j hj).1)]
    have hsame := later_same (I := { interpOfFunction n1 x1min x1max (fun x => f x (z k)) r1 false isLog1 rY rationalY true with self := false }) hI.save h2
    obtain ⟨k1, k2, k3, k4, k5, k6, k7, k8, k9, k10, k11, k12, k13, k14⟩ := hsame
    dsimp only at k11
    obtain ⟨m1, m2, m3, m4, m5, m6, m7, m8, m9, m10, m11⟩ := hI
    rw [hYs] at m6
    have hrow := GridTable.mk (I := { row with logSubst := false }) (k5.trans m1) (k1.trans m2) (k6.trans m3) (k8.trans m4) (k3.trans m5) (k4.trans m6)
      (k9.trans m7) (k12.trans m8) rfl (fun h => by simp at h) k14
    obtain ⟨i', s', e5, K5, hK5⟩ := row_value hrow k11 (by simp) hab1 hR1 hRn1 hn1' (scale_itpLog hx1) a1 a2 (by
      intro j hj
      rw [getD_map hj]
      simp only [Bool.false_eq_true, if_false]
      unfold logCutoff
      intro h
      obtain ⟨v1, v2⟩ := hval j hj
      apply v2
      rw [← h, Real.exp_log v1])
    obtain ⟨i'', s'', e6, -, -, -, K6, hK6⟩ := grid_value_at hL (by simp) hab1 hR1 hRn1 hn1' (scale_itpLog hx1) a1 a2
    have e7 : row.locateGrid (Spec.scale isLog1 x1) = _ := locateGrid_same hrow hL (Spec.scale isLog1 x1)
    rw [e7, e6, Except.ok.injEq, Prod.mk.injEq] at e5
    have hss : s'' = s' := by exact_mod_cast e5.2
    subst hss
    rw [hK6, Except.ok.injEq, Prod.mk.injEq] at hK'
    exact ⟨K5, by rw [hK5, hK'.1]⟩
  have eloc : U.base.locateGrid (Spec.scale isLog2 x2) = .ok (i, (s : ℤ)) := by
    rw [← e1]
    unfold Interp.locateGrid
    simp only [c4, c1, c8, c9, g1, g2, g3, g4]
  obtain ⟨q, hq, hqv⟩ := evalRows_values (F := fun row => row.interpolate x1) (start := (s : ℤ)) (by omega) (g := fun k => g (z k)) (n := Spec.order r2 n2)
    (s := (U.base.iY, U.rows)) (by simp only [c3]; omega) (by simp only [c3, c10]) hF
  have hql := (evalRows_rows hq).1
  have key := evalAt_poly { U.base with reverse := true, starti := i, iY := q.1, logSubst := false } c5 (by simp) (Spec.scale isLog2 x2)
    (start := s) (by omega) (by simp only [c1, c2, List.length_map, List.length_range]; omega) (by simp only [c1]; rw [hql]; simp only [c3]; omega)
    (by simp only [c1]; omega) e2 (by simp only [c1]; exact e3) (by simp only [c1, c2]; exact grid_window hab2 hn2 hs)
  have key2 := evalAt_plain { U.base with reverse := true, starti := i, iY := q.1 } (Spec.scale isLog2 x2)
    (start := s) (by omega) (by simp only [c1, c2, List.length_map, List.length_range]; omega) (by simp only [c1]; rw [hql]; simp only [c3]; omega) (by
      intro j hj
      simp only [c1] at hj
      unfold win
      rw [hqv _ (by omega) (by omega)]
      obtain ⟨z1, z2⟩ := scale_of_node (isLog := isLog2) (Spec.node (Spec.scale isLog2 x2min) (Spec.scale isLog2 x2max) n2 ((s : ℤ).toNat + j))
      exact hg' _ (by omega) _ z1 z2)
  refine ⟨_, K, ⟨{ U.base with reverse := true, starti := i, iY := q.1 }, q.2⟩, hK, ?_⟩
  have hx2' : (open Classical in if U.base.isLog then (if 0 < x2 then .ok (Real.log x2) else .error .undefined) else .ok x2 : Except ItpErr ℝ) =
      .ok (Spec.scale isLog2 x2) := by
    rw [c7]
    unfold Spec.scale
    cases isLog2 with
    | false => rfl
    | true =>
      simp only [if_true]
      rw [if_pos (hx2 rfl)]
  unfold Interp2.interpolate
  rw [hx2']
  simp only [bind, Except.bind]
  rw [eloc]
  dsimp only
  have hq' : evalRows (fun row => row.interpolate x1) (s : ℤ) U.base.romberg (U.base.iY, U.rows) = .ok q := by rw [c1]; exact hq
  rw [hq']
  dsimp only
  rw [key2]
  dsimp only
  rw [key]
  simp only [pure, Except.pure, c6, if_true, c1, c2]
  rw [show ∀ r : ℝ, (if r ≤ -299 then 0 else Real.exp r) = itpExp r from fun r => rfl]
  congr 3
  refine nv_congr hR2 (grid_window hab2 hn2 hs) ?_ _
  intro j hj
  unfold win
  rw [hqv _ (by omega) (by omega), getD_map (by omega)]
  rfl


/-- C135: positive functions whose logarithms are polynomials in both variables, or in their logarithms, of degrees below the orders are reproduced
by tables of logarithms of two variables. With logarithmic variables and orders of at least 2 these are the powers. -/
theorem C135_two_powers {n1 n2 : ℕ} {x1min x1max x2min x2max : ℝ} (f : ℝ → ℝ → ℝ) (r1 r2 : ℤ) (isLog1 isLog2 : Bool) (rY : ℤ) (rationalY : Bool)
    (hn1 : 1 ≤ n1) (hn1' : n1 ≤ 1000000000) (hn2 : 1 ≤ n2) (hn2' : n2 ≤ 1000000000) (hlt1 : x1min < x1max) (hlt2 : x2min < x2max)
    (hlog1 : isLog1 = true → 0 < x1min) (hlog2 : isLog2 = true → 0 < x2min) {U : Interp2}
    (hU : Spec.Calls2 (interp2OfFunction n1 x1min x1max n2 x2min x2max f r1 false isLog1 r2 false isLog2 rY rationalY true) U) {x1 x2 : ℝ}
    (hx1 : isLog1 = true → 0 < x1) (hx2 : isLog2 = true → 0 < x2)
    (a1 : -1000000000 ≤ (Spec.scale isLog1 x1 - Spec.scale isLog1 x1min) / ((Spec.scale isLog1 x1max - Spec.scale isLog1 x1min) / n1))
    (a2 : (Spec.scale isLog1 x1 - Spec.scale isLog1 x1min) / ((Spec.scale isLog1 x1max - Spec.scale isLog1 x1min) / n1) ≤ 1000000000)
    (b1 : -1000000000 ≤ (Spec.scale isLog2 x2 - Spec.scale isLog2 x2min) / ((Spec.scale isLog2 x2max - Spec.scale isLog2 x2min) / n2))
    (b2 : (Spec.scale isLog2 x2 - Spec.scale isLog2 x2min) / ((Spec.scale isLog2 x2max - Spec.scale isLog2 x2min) / n2) ≤ 1000000000)
    (hpos : ∀ k < n2, ∀ j < n1, ∀ z y, (isLog2 = true → 0 < z) → (isLog1 = true → 0 < y) →
      Spec.scale isLog2 z = Spec.node (Spec.scale isLog2 x2min) (Spec.scale isLog2 x2max) n2 k →
      Spec.scale isLog1 y = Spec.node (Spec.scale isLog1 x1min) (Spec.scale isLog1 x1max) n1 j → 0 < f y z ∧ f y z ≠ Real.exp (-300))
    (p : ℝ → ℝ[X]) (hp : ∀ z, (isLog2 = true → 0 < z) → (p z).natDegree < min (max r1 1).toNat n1 ∧
      ∀ y, (isLog1 = true → 0 < y) → Real.log (f y z) = (p z).eval (Spec.scale isLog1 y))
    (q : ℝ[X]) (hq : q.natDegree < min (max r2 1).toNat n2) (hf : ∀ z, (isLog2 = true → 0 < z) → Real.log (f x1 z) = q.eval (Spec.scale isLog2 z))
    (hg : ∀ k < n2, ∀ z, (isLog2 = true → 0 < z) → Spec.scale isLog2 z = Spec.node (Spec.scale isLog2 x2min) (Spec.scale isLog2 x2max) n2 k →
      Real.log (f x1 z) ≠ -300)
    (hx : Real.exp (-299) < f x1 x2) :
    ∃ V, U.interpolate x1 x2 = .ok (f x1 x2, V) := by
  obtain ⟨w, K, V, h1, h2⟩ := C135_two_logarithms f r1 r2 isLog1 isLog2 rY rationalY hn1 hn1' hn2 hn2' hlt1 hlt2 hlog1 hlog2 hU hx1 hx2 a1 a2 b1 b2
    hpos (fun z => Real.log (f x1 z)) (fun k _ z hz _ => C135_polynomials (fun x => Real.log (f x z)) r1 isLog1 rY rationalY hn1 hn1' hlt1 hlog1 .refl
      hx1 a1 a2 (p z) (hp z hz).1 (hp z hz).2) hg
  obtain ⟨K', h3⟩ := C135_polynomials (fun z => Real.log (f x1 z)) r2 isLog2 rY rationalY hn2 hn2' hlt2 hlog2 .refl hx2 b1 b2 q hq hf
  rw [h3, Except.ok.injEq, Prod.mk.injEq] at h1
  refine ⟨V, ?_⟩
  have h0 : 0 < f x1 x2 := (Real.exp_pos _).trans hx
  rw [h2, ← h1.1, if_neg, Real.exp_log h0]
  rw [not_le, ← Real.exp_lt_exp, Real.exp_log h0]
  exact hx

/-- C135: a table of logarithms of two variables never gives a negative number. -/
theorem C135_two_not_negative {n1 n2 : ℤ} {x1min x1max x2min x2max : ℝ} (f : ℝ → ℝ → ℝ) (r1 r2 : ℤ) (rational1 isLog1 rational2 isLog2 : Bool) (rY : ℤ)
    (rationalY : Bool) {U V : Interp2}
    (hU : Spec.Calls2 (interp2OfFunction n1 x1min x1max n2 x2min x2max f r1 rational1 isLog1 r2 rational2 isLog2 rY rationalY true) U) {x1 x2 v : ℝ}
    (h : U.interpolate x1 x2 = .ok (v, V)) : 0 ≤ v := by
  have hs : U.base.logSubst = true := (later2_same hU).logSubst
  unfold Interp2.interpolate at h
  obtain ⟨x2', -, h⟩ := exc_bind h
  obtain ⟨p, -, h⟩ := exc_bind h
  obtain ⟨s, -, h⟩ := exc_bind h
  obtain ⟨r, -, h⟩ := exc_bind h
  simp only [hs, if_true, pure, Except.pure, Except.ok.injEq, Prod.mk.injEq] at h
  rw [← h.1]
  exact itpExp_nonneg r

lemma node_positive {a b : ℝ} (h0 : 0 ≤ a) (hab : a < b) {n j : ℕ} (hn : 1 ≤ n) : 0 < Spec.node a b n j := by
  unfold Spec.node
  have : (0 : ℝ) < n := by exact_mod_cast hn
  have : 0 < (b - a) / n := div_pos (by linarith) this
  positivity

/-- The power `x * y ^ 2` in logarithmic variables, after any calls. -/
example : ∀ U, Spec.Calls2 (interp2OfFunction (20 : ℕ) 1 1000 (30 : ℕ) 1 1000 (fun x y => x * y ^ 2) 4 false true 3 false true 2 false true) U →
    ∃ V, U.interpolate 500 500 = .ok (500 * 500 ^ 2, V) := by
  intro U hU
  have l1 : 0 < Real.log 500 := Real.log_pos (by norm_num)
  have l2 : Real.log 500 ≤ Real.log 1000 := Real.log_le_log (by norm_num) (by norm_num)
  have h3 : ∀ n : ℝ, 0 < n → Real.log 500 / (Real.log 1000 / n) ≤ n := by
    intro n hn
    rw [div_div_eq_mul_div, div_le_iff₀ (by linarith)]
    nlinarith
  have h4 : ∀ n : ℝ, 0 < n → 0 ≤ Real.log 500 / (Real.log 1000 / n) := fun n hn => by positivity
  have a1 := h3 20 (by norm_num)
  have a2 := h4 20 (by norm_num)
  have a3 := h3 30 (by norm_num)
  have a4 := h4 30 (by norm_num)
  have lz : ∀ {n k : ℕ}, 1 ≤ n → ∀ z, (true = true → 0 < z) → Spec.scale true z = Spec.node (Spec.scale true 1) (Spec.scale true 1000) n k →
      0 < z ∧ 0 < Real.log z := by
    intro n k hn z hz h
    have := node_positive (a := Spec.scale true 1) (b := Spec.scale true 1000) (by simp [Spec.scale])
      (by simp only [Spec.scale, if_true, Real.log_one]; linarith) (j := k) hn
    rw [← h] at this
    exact ⟨hz rfl, this⟩
  have lf : ∀ y z : ℝ, 0 < y → 0 < z → Real.log (y * z ^ 2) = Real.log y + 2 * Real.log z := by
    intro y z hy hz
    rw [Real.log_mul hy.ne' (by positivity), Real.log_pow]
    norm_num
  refine C135_two_powers _ 4 3 true true 2 false (by norm_num) (by norm_num) (by norm_num) (by norm_num) (by norm_num) (by norm_num) (by simp) (by simp) hU
    (by simp) (by simp) ?_ ?_ ?_ ?_ ?_ (fun z => X + C (2 * Real.log z)) ?_ (C 2 * X + C (Real.log 500)) ?_ ?_ ?_ ?_
  · simp only [Spec.scale, if_true, Real.log_one, sub_zero]; push_cast; linarith
  · simp only [Spec.scale, if_true, Real.log_one, sub_zero]; push_cast; linarith
  · simp only [Spec.scale, if_true, Real.log_one, sub_zero]; push_cast; linarith
  · simp only [Spec.scale, if_true, Real.log_one, sub_zero]; push_cast; linarith
  · intro k _ j _ z y hz hy h1 h2
    obtain ⟨z1, z2⟩ := lz (by norm_num) z hz h1
    obtain ⟨y1, y2⟩ := lz (by norm_num) y hy h2
    refine ⟨by positivity, fun h => ?_⟩
    have := congrArg Real.log h
    rw [lf y z y1 z1, Real.log_exp] at this
    linarith
  · intro z hz
    refine ⟨lt_of_le_of_lt (natDegree_X_add_C _).le (by decide), fun y hy => ?_⟩
    rw [lf y z (hy rfl) (hz rfl)]
    simp [Spec.scale]
  · exact lt_of_le_of_lt (natDegree_linear_le) (by decide)
  · intro z hz
    rw [lf 500 z (by norm_num) (hz rfl)]
    simp only [Spec.scale, if_true, eval_add, eval_mul, eval_C, eval_X]
    ring
  · intro k _ z hz h
    obtain ⟨z1, z2⟩ := lz (by norm_num) z hz h
    rw [lf 500 z (by norm_num) z1]
    linarith
  · have : Real.exp (-299) < 1 := by rw [Real.exp_lt_one_iff]; norm_num
    norm_num
    linarith

end Proposal
