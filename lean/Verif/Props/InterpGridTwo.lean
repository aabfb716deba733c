import Verif.Props.InterpTwo
import Verif.Props.InterpGrid

/-!
# C135: tables of functions of two variables
-/

open Polynomial

namespace Proposal

lemma gridTable_self {a b : ℝ} {n R : ℕ} {isLog : Bool} {Y : List ℝ} {I : Interp} (c : Bool) (h : GridTable a b n R isLog false Y I) :
    GridTable a b n R isLog false Y { I with self := c } := by
  obtain ⟨i1, i2, i3, i4, i5, i6, i7, i8, i9, i10, i11⟩ := h
  exact ⟨i1, i2, i3, i4, i5, i6, i7, i8, i9, by simp, i11⟩

/-- Two tables with the same nodes and ordinates give the same. -/
lemma grid_same {I J : Interp} {a b : ℝ} {n R : ℕ} {isLog : Bool} {Y : List ℝ} (hI : GridTable a b n R isLog false Y I) (hJ : GridTable a b n R isLog false Y J)
    (hY : Y.length = n) (hlt : a < b) (hR : 1 ≤ R) (hRn : R ≤ n) (hn : n ≤ 1000000000) {x u : ℝ} (hu : u = if isLog then itpLog x else x)
    (h1 : -1000000000 ≤ (u - a) / ((b - a) / n)) (h2 : (u - a) / ((b - a) / n) ≤ 1000000000) {v : ℝ} {K : Interp} (h : I.interpolate x = .ok (v, K)) :
    ∃ K', J.interpolate x = .ok (v, K') := by
  obtain ⟨i, s, e1, -, -, -, K1, k1⟩ := grid_value_at hI hY hlt hR hRn hn hu h1 h2
  obtain ⟨i', s', e1', -, -, -, K2, k2⟩ := grid_value_at hJ hY hlt hR hRn hn hu h1 h2
  rw [locateGrid_same hI hJ, e1', Except.ok.injEq, Prod.mk.injEq] at e1
  have hs : s' = s := by exact_mod_cast e1.2
  subst hs
  rw [k1, Except.ok.injEq, Prod.mk.injEq] at h
  exact ⟨K2, by rw [k2, h.1]⟩

lemma scale_itpLog {isLog : Bool} {x : ℝ} (hx : isLog = true → 0 < x) : Spec.scale isLog x = if isLog then itpLog x else x := by
  unfold Spec.scale
  cases isLog with
  | false => rfl
  | true =>
    simp only [if_true]
    unfold itpLog
    rw [if_neg (not_le.mpr (hx rfl))]

lemma scale_of_node {isLog : Bool} (y : ℝ) : (isLog = true → 0 < (if isLog then Real.exp y else y)) ∧ Spec.scale isLog (if isLog then Real.exp y else y) = y := by
  cases isLog with
  | false => exact ⟨fun h => by simp at h, rfl⟩
  | true => exact ⟨fun _ => by simpa using Real.exp_pos y, by simp [Spec.scale]⟩

/-- C135: `Interpolate` in a table of a function of two variables is the one in one variable twice, with polynomials: in tables of the function
of the first variable, at the nodes of the second, and in a table of their results. This holds for every point where the conversions to `int`
are defined. Earlier calls have no influence. -/
theorem C135_two_variables {n1 n2 : ℕ} {x1min x1max x2min x2max : ℝ} (f : ℝ → ℝ → ℝ) (r1 r2 : ℤ) (isLog1 isLog2 : Bool) (rY : ℤ) (rationalY : Bool)
    (hn1 : 1 ≤ n1) (hn1' : n1 ≤ 1000000000) (hn2 : 1 ≤ n2) (hn2' : n2 ≤ 1000000000) (hlt1 : x1min < x1max) (hlt2 : x2min < x2max)
    (hlog1 : isLog1 = true → 0 < x1min) (hlog2 : isLog2 = true → 0 < x2min) {U : Interp2}
    (hU : Spec.Calls2 (interp2OfFunction n1 x1min x1max n2 x2min x2max f r1 false isLog1 r2 false isLog2 rY rationalY false) U) {x1 x2 : ℝ}
    (hx1 : isLog1 = true → 0 < x1) (hx2 : isLog2 = true → 0 < x2)
    (a1 : -1000000000 ≤ (Spec.scale isLog1 x1 - Spec.scale isLog1 x1min) / ((Spec.scale isLog1 x1max - Spec.scale isLog1 x1min) / n1))
    (a2 : (Spec.scale isLog1 x1 - Spec.scale isLog1 x1min) / ((Spec.scale isLog1 x1max - Spec.scale isLog1 x1min) / n1) ≤ 1000000000)
    (b1 : -1000000000 ≤ (Spec.scale isLog2 x2 - Spec.scale isLog2 x2min) / ((Spec.scale isLog2 x2max - Spec.scale isLog2 x2min) / n2))
    (b2 : (Spec.scale isLog2 x2 - Spec.scale isLog2 x2min) / ((Spec.scale isLog2 x2max - Spec.scale isLog2 x2min) / n2) ≤ 1000000000)
    (g : ℝ → ℝ)
    (hg : ∀ k < n2, ∀ z, (isLog2 = true → 0 < z) → Spec.scale isLog2 z = Spec.node (Spec.scale isLog2 x2min) (Spec.scale isLog2 x2max) n2 k →
      ∃ K, (interpOfFunction n1 x1min x1max (fun x => f x z) r1 false isLog1 rY rationalY false).interpolate x1 = .ok (g z, K)) :
    ∃ w K V, (interpOfFunction n2 x2min x2max g r2 false isLog2 rY rationalY false).interpolate x2 = .ok (w, K) ∧ U.interpolate x1 x2 = .ok (w, V) := by
  have hab1 := scale_lt hlt1 hlog1
  have hab2 := scale_lt hlt2 hlog2
  have hR1 : 1 ≤ Spec.order r1 n1 := by unfold Spec.order; omega
  have hRn1 : Spec.order r1 n1 ≤ n1 := by unfold Spec.order; omega
  have hR2 : 1 ≤ Spec.order r2 n2 := by unfold Spec.order; omega
  have hRn2 : Spec.order r2 n2 ≤ n2 := by unfold Spec.order; omega
  have hG := ofFunction_ok g r2 isLog2 rY rationalY false hn2 hlt2 hlog2
  obtain ⟨i, s, e1, e2, e3, hN, K, hK⟩ := grid_value_at hG (by simp) hab2 hR2 hRn2 hn2' (scale_itpLog hx2) b1 b2
  have hs := hN.1
  obtain ⟨i1, i2, i3, i4, i5, i6, i7, i8, i9, i10, i11, i12, i13, i14, i15, i16⟩ := init_order (max := (n2 : ℤ)) (xmin := x2min) (xmax := x2max) r2 false isLog2 rY rationalY
    false (by omega) (fun h => ⟨hlog2 h, (hlog2 h).trans hlt2⟩) hlt2.ne
  set T := interp2OfFunction n1 x1min x1max n2 x2min x2max f r1 false isLog1 r2 false isLog2 rY rationalY false with hTdef
  have t1 : T.base.romberg = (interpOfFunction n2 x2min x2max g r2 false isLog2 rY rationalY false).romberg := rfl
  have t2 : T.base.iX = (interpOfFunction n2 x2min x2max g r2 false isLog2 rY rationalY false).iX := rfl
  have t3 : T.base.max = (interpOfFunction n2 x2min x2max g r2 false isLog2 rY rationalY false).max := rfl
  have t4 : T.base.rational = (interpOfFunction n2 x2min x2max g r2 false isLog2 rY rationalY false).rational := rfl
  have t5 : T.base.logSubst = (interpOfFunction n2 x2min x2max g r2 false isLog2 rY rationalY false).logSubst := rfl
  have t6 : T.base.isLog = (interpOfFunction n2 x2min x2max g r2 false isLog2 rY rationalY false).isLog := rfl
  have t7 : T.base.xmin = (interpOfFunction n2 x2min x2max g r2 false isLog2 rY rationalY false).xmin := rfl
  have t8 : T.base.step = (interpOfFunction n2 x2min x2max g r2 false isLog2 rY rationalY false).step := rfl
  have t9 : T.base.iY.length = n2 := by
    rw [show T.base.iY = (initInterp (n2 : ℤ) x2min x2max r2 false isLog2 rY rationalY false).iY from rfl, i15]
    simp
  obtain ⟨g1, g2, g3, g4, g5, g6, g7, g8, g9, g10, g11⟩ := hG
  have hnode : ∀ k < n2, (initInterp (n2 : ℤ) x2min x2max r2 false isLog2 rY rationalY false).xmin +
      (initInterp (n2 : ℤ) x2min x2max r2 false isLog2 rY rationalY false).step / 2 + k * (initInterp (n2 : ℤ) x2min x2max r2 false isLog2 rY rationalY false).step =
      Spec.node (Spec.scale isLog2 x2min) (Spec.scale isLog2 x2max) n2 k := by
    intro k _
    have h3 : (initInterp (n2 : ℤ) x2min x2max r2 false isLog2 rY rationalY false).xmin = Spec.scale isLog2 x2min := g3
    have h4 : (initInterp (n2 : ℤ) x2min x2max r2 false isLog2 rY rationalY false).step = (Spec.scale isLog2 x2max - Spec.scale isLog2 x2min) / n2 := g4
    rw [h3, h4]
    unfold Spec.node
    ring
  have hmax : (initInterp (n2 : ℤ) x2min x2max r2 false isLog2 rY rationalY false).max = n2 := g1
  have t10 : T.rows.length = n2 := by
    rw [hTdef]
    unfold interp2OfFunction
    simp only [List.length_map, List.length_range, hmax]
  -- the place of a node
  let z (k : ℕ) : ℝ := if isLog2 then Real.exp (Spec.node (Spec.scale isLog2 x2min) (Spec.scale isLog2 x2max) n2 k)
    else Spec.node (Spec.scale isLog2 x2min) (Spec.scale isLog2 x2max) n2 k
  have t11 : ∀ k < n2, T.rows[k]? = some { interpOfFunction n1 x1min x1max (fun x => f x (z k)) r1 false isLog1 rY rationalY false with self := false } := by
    intro k hk
    rw [hTdef]
    unfold interp2OfFunction
    simp only [hmax, List.getElem?_map, List.getElem?_range hk, Option.map_some, hnode k hk]
    rfl
  obtain ⟨c1, c2, c3, c4, c5, c6, c7, c8, c9, c10, c11⟩ := later2_same hU
  rw [t1, g2] at c1
  rw [t2, g5] at c2
  rw [t9] at c3
  rw [t3, g1] at c4
  rw [t4, g7] at c5
  rw [t5, g9] at c6
  rw [t6, g8] at c7
  rw [t7, g3] at c8
  rw [t8, g4] at c9
  rw [t10] at c10
  have hF : ∀ (k : ℕ) (row : Interp), (U.base.iY, U.rows).2[k]? = some row → ∃ row', row.interpolate x1 = .ok (g (z k), row') := by
    intro k row hk
    have hlt : k < n2 := by
      have : k < U.rows.length := (List.getElem?_eq_some_iff.mp hk).1
      omega
    obtain ⟨row', h1, h2⟩ := c11 k _ (t11 k hlt)
    dsimp only at hk
    rw [hk, Option.some.injEq] at h1
    subst h1
    have hI := ofFunction_ok (fun x => f x (z k)) r1 isLog1 rY rationalY false hn1 hlt1 hlog1
    obtain ⟨z1, z2⟩ := scale_of_node (isLog := isLog2) (Spec.node (Spec.scale isLog2 x2min) (Spec.scale isLog2 x2max) n2 k)
    obtain ⟨K', hK'⟩ := hg k hlt (z k) z1 z2
    exact grid_same hI (grid_later (gridTable_self false hI) h2) (by simp) hab1 hR1 hRn1 hn1' (scale_itpLog hx1) a1 a2 hK'
  have eloc : U.base.locateGrid (Spec.scale isLog2 x2) = .ok (i, (s : ℤ)) := by
    rw [← e1]
    unfold Interp.locateGrid
    simp only [c4, c1, c8, c9, g1, g2, g3, g4]
  obtain ⟨q, hq, hqv⟩ := evalRows_values (F := fun row => row.interpolate x1) (start := (s : ℤ)) (by omega) (g := fun k => g (z k)) (n := Spec.order r2 n2)
    (s := (U.base.iY, U.rows)) (by simp only [c3]; omega) (by simp only [c3, c10]) hF
  have hql := (evalRows_rows hq).1
  have key := evalAt_poly { U.base with reverse := true, starti := i, iY := q.1 } c5 (by simp [c6]) (Spec.scale isLog2 x2)
    (start := s) (by omega) (by simp only [c1, c2, List.length_map, List.length_range]; omega) (by simp only [c1]; rw [hql]; simp only [c3]; omega)
    (by simp only [c1]; omega) e2 (by simp only [c1]; exact e3) (by simp only [c1, c2]; exact grid_window hab2 hn2 hs)
  refine ⟨_, K, ⟨{ U.base with reverse := true, starti := i, iY := q.1 }, q.2⟩, hK, ?_⟩
  have hx2' : (open Classical in if U.base.isLog then (if 0 < x2 then .ok (Real.log x2) else .error .undefined) else .ok x2 : Except ItpErr ℝ) =
      .ok (Spec.scale isLog2 x2) := by
    rw [c7]
    unfold Spec.scale
    cases isLog2 with
    | false => rfl
    | true =>
      simp only [if_true]
      rw [if_pos (hx2 rfl)]
  unfold Interp2.interpolate
  rw [hx2']
  simp only [bind, Except.bind]
  rw [eloc]
  dsimp only
  have hq' : evalRows (fun row => row.interpolate x1) (s : ℤ) U.base.romberg (U.base.iY, U.rows) = .ok q := by rw [c1]; exact hq
  rw [hq']
  dsimp only
  rw [key]
  simp only [pure, Except.pure, c6, Bool.false_eq_true, if_false, c1, c2]
  congr 2
  refine nv_congr hR2 (grid_window hab2 hn2 hs) ?_ _
  intro j hj
  unfold win
  rw [hqv _ (by omega) (by omega), getD_map (by omega)]

/-- C135: functions that are polynomials in both variables, or in their logarithms, of degrees below the orders are reproduced by tables of two
variables. -/
theorem C135_two_polynomials {n1 n2 : ℕ} {x1min x1max x2min x2max : ℝ} (f : ℝ → ℝ → ℝ) (r1 r2 : ℤ) (isLog1 isLog2 : Bool) (rY : ℤ) (rationalY : Bool)
    (hn1 : 1 ≤ n1) (hn1' : n1 ≤ 1000000000) (hn2 : 1 ≤ n2) (hn2' : n2 ≤ 1000000000) (hlt1 : x1min < x1max) (hlt2 : x2min < x2max)
    (hlog1 : isLog1 = true → 0 < x1min) (hlog2 : isLog2 = true → 0 < x2min) {U : Interp2}
    (hU : Spec.Calls2 (interp2OfFunction n1 x1min x1max n2 x2min x2max f r1 false isLog1 r2 false isLog2 rY rationalY false) U) {x1 x2 : ℝ}
    (hx1 : isLog1 = true → 0 < x1) (hx2 : isLog2 = true → 0 < x2)
    (a1 : -1000000000 ≤ (Spec.scale isLog1 x1 - Spec.scale isLog1 x1min) / ((Spec.scale isLog1 x1max - Spec.scale isLog1 x1min) / n1))
    (a2 : (Spec.scale isLog1 x1 - Spec.scale isLog1 x1min) / ((Spec.scale isLog1 x1max - Spec.scale isLog1 x1min) / n1) ≤ 1000000000)
    (b1 : -1000000000 ≤ (Spec.scale isLog2 x2 - Spec.scale isLog2 x2min) / ((Spec.scale isLog2 x2max - Spec.scale isLog2 x2min) / n2))
    (b2 : (Spec.scale isLog2 x2 - Spec.scale isLog2 x2min) / ((Spec.scale isLog2 x2max - Spec.scale isLog2 x2min) / n2) ≤ 1000000000)
    (p : ℝ → ℝ[X]) (hp : ∀ z, (isLog2 = true → 0 < z) → (p z).natDegree < min (max r1 1).toNat n1 ∧
      ∀ y, (isLog1 = true → 0 < y) → f y z = (p z).eval (Spec.scale isLog1 y))
    (q : ℝ[X]) (hq : q.natDegree < min (max r2 1).toNat n2) (hf : ∀ z, (isLog2 = true → 0 < z) → f x1 z = q.eval (Spec.scale isLog2 z)) :
    ∃ V, U.interpolate x1 x2 = .ok (f x1 x2, V) := by
  obtain ⟨w, K, V, h1, h2⟩ := C135_two_variables f r1 r2 isLog1 isLog2 rY rationalY hn1 hn1' hn2 hn2' hlt1 hlt2 hlog1 hlog2 hU hx1 hx2 a1 a2 b1 b2
    (f x1) (fun k _ z hz _ => C135_polynomials (fun x => f x z) r1 isLog1 rY rationalY hn1 hn1' hlt1 hlog1 .refl hx1 a1 a2 (p z) (hp z hz).1 (hp z hz).2)
  obtain ⟨K', h3⟩ := C135_polynomials (f x1) r2 isLog2 rY rationalY hn2 hn2' hlt2 hlog2 .refl hx2 b1 b2 q hq hf
  rw [h3, Except.ok.injEq, Prod.mk.injEq] at h1
  exact ⟨V, by rw [h2, h1.1]⟩

/-- A product of a number and a logarithm, at a point outside the table, after a call. -/
example : ∀ U, Spec.Calls2 (interp2OfFunction (20 : ℕ) 0 1 (30 : ℕ) 1 1000 (fun x y => x * Real.log y) 4 false false 3 false true 2 false false) U →
    ∃ V, U.interpolate 2 500 = .ok (2 * Real.log 500, V) := by
  intro U hU
  have l1 : 0 < Real.log 500 := Real.log_pos (by norm_num)
  have l2 : Real.log 500 ≤ Real.log 1000 := Real.log_le_log (by norm_num) (by norm_num)
  have h3 : Real.log 500 / (Real.log 1000 / 30) ≤ 30 := by
    rw [div_div_eq_mul_div, div_le_iff₀ (by linarith)]
    nlinarith
  have h4 : 0 ≤ Real.log 500 / (Real.log 1000 / 30) := by positivity
  refine C135_two_polynomials _ 4 3 false true 2 false (by norm_num) (by norm_num) (by norm_num) (by norm_num) (by norm_num) (by norm_num) (by simp) (by simp) hU
    (by simp) (by simp) (by norm_num [Spec.scale]) (by norm_num [Spec.scale]) ?_ ?_ (fun z => C (Real.log z) * X) ?_ (C 2 * X) ?_ ?_
  · simp only [Spec.scale, if_true, Real.log_one, sub_zero]; push_cast; linarith
  · simp only [Spec.scale, if_true, Real.log_one, sub_zero]; push_cast; linarith
  · intro z _
    refine ⟨lt_of_le_of_lt (natDegree_C_mul_le _ _) (by rw [natDegree_X]; decide), fun y _ => ?_⟩
    rw [eval_mul, eval_C, eval_X, mul_comm]
    rfl
  · exact lt_of_le_of_lt (natDegree_C_mul_le _ _) (by rw [natDegree_X]; decide)
  · intro z _
    simp [Spec.scale]

end Proposal
