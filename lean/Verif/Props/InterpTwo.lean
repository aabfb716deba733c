import Verif.Props.InterpTable

/-!
# C134: interpolation in tables of two variables
-/

open Polynomial

namespace Proposal

/-- The object `T'` is `T` after any calls of its methods. -/
inductive Spec.Calls2 (T : Interp2) : Interp2 → Prop
  | refl : Spec.Calls2 T T
  | array {U V : Interp2} {t u v : ℝ} : Spec.Calls2 T U → U.interpolateArray t u = .ok (v, V) → Spec.Calls2 T V
  | grid {U V : Interp2} {t u v : ℝ} : Spec.Calls2 T U → U.interpolate t u = .ok (v, V) → Spec.Calls2 T V
  | fast {U : Interp2} (b : Bool) : Spec.Calls2 T U → Spec.Calls2 T ⟨{ U.base with fast := b }, U.rows⟩

lemma rowAt_ok {rows : List Interp} {i : ℤ} {row : Interp} (h : rowAt rows i = .ok row) : 0 ≤ i ∧ rows[i.toNat]? = some row := by
  unfold rowAt at h
  split_ifs at h with h0
  · generalize ho : rows[i.toNat]? = o at h
    cases o with
    | none => simp at h
    | some a =>
      simp only [Except.ok.injEq] at h
      exact ⟨h0, by rw [h]⟩

lemma rowAt_of {rows : List Interp} {i : ℤ} {row : Interp} (h0 : 0 ≤ i) (h : rows[i.toNat]? = some row) : rowAt rows i = .ok row := by
  unfold rowAt
  rw [if_pos h0, h]

/-- What the loop over the rows does to them. -/
lemma evalRows_rows {F : Interp → Except ItpErr (ℝ × Interp)} {start : ℤ} : ∀ {n : ℕ} {s s' : List ℝ × List Interp},
    evalRows F start n s = .ok s' → s'.1.length = s.1.length ∧ s'.2.length = s.2.length ∧
      ∀ (k : ℕ) (row : Interp), s.2[k]? = some row → s'.2[k]? = some row ∨ (k : ℤ) < start + n ∧ ∃ v row', F row = .ok (v, row') ∧ s'.2[k]? = some row' := by
  intro n
  induction n with
  | zero =>
    intro s s' h
    simp only [evalRows, Except.ok.injEq] at h
    subst h
    exact ⟨rfl, rfl, fun k row h => Or.inl h⟩
  | succ n ih =>
    intro s s' h
    unfold evalRows at h
    obtain ⟨q, hq, h⟩ := exc_bind h
    obtain ⟨row, hrow, h⟩ := exc_bind h
    obtain ⟨r, hr, h⟩ := exc_bind h
    obtain ⟨w, hw, h⟩ := exc_bind h
    simp only [pure, Except.pure, Except.ok.injEq] at h
    obtain ⟨i1, i2, i3⟩ := ih hq
    obtain ⟨g0, g1⟩ := rowAt_ok hrow
    subst h
    refine ⟨by simp [i1], by simp [i2], ?_⟩
    intro k row0 hk
    simp only [List.getElem?_set]
    have hlt : (start + n).toNat < q.2.length := (List.getElem?_eq_some_iff.mp g1).1
    by_cases hkk : (start + n).toNat = k
    · subst hkk
      rw [if_pos rfl, if_pos hlt]
      rcases i3 _ _ hk with h | ⟨h, -⟩
      · rw [g1, Option.some.injEq] at h
        subst h
        exact Or.inr ⟨by push_cast; omega, r.1, r.2, hr, rfl⟩
      · omega
    · rw [if_neg hkk]
      rcases i3 _ _ hk with h | ⟨h, h'⟩
      · exact Or.inl h
      · exact Or.inr ⟨by push_cast; omega, h'⟩

/-- The ordinates that the loop over the rows fills in. -/
lemma evalRows_values {F : Interp → Except ItpErr (ℝ × Interp)} {start : ℤ} (h0 : 0 ≤ start) {g : ℕ → ℝ} : ∀ {n : ℕ}
    {s : List ℝ × List Interp}, start + n ≤ s.1.length → s.1.length = s.2.length →
    (∀ (k : ℕ) (row : Interp), s.2[k]? = some row → ∃ row', F row = .ok (g k, row')) →
    ∃ s', evalRows F start n s = .ok s' ∧ ∀ k : ℕ, start ≤ k → (k : ℤ) < start + n → s'.1.getD k 0 = g k := by
  intro n
  induction n with
  | zero =>
    intro s _ _ _
    exact ⟨s, rfl, fun k h1 h2 => by simp at h2; omega⟩
  | succ n ih =>
    intro s h1 h2 h3
    obtain ⟨q, hq, hv⟩ := ih (s := s) (by push_cast at h1; omega) h2 h3
    obtain ⟨i1, i2, i3⟩ := evalRows_rows hq
    have hlt : (start + n).toNat < s.2.length := by push_cast at h1; omega
    obtain ⟨row, hrow⟩ : ∃ row, s.2[(start + n).toNat]? = some row := ⟨_, List.getElem?_eq_getElem hlt⟩
    have hrow' : q.2[(start + n).toNat]? = some row := by
      rcases i3 _ _ hrow with h | ⟨h, -⟩
      · exact h
      · omega
    obtain ⟨row', hF⟩ := h3 _ _ hrow
    refine ⟨(q.1.set (start + n).toNat (g (start + n).toNat), q.2.set (start + n).toNat row'), ?_, ?_⟩
    · unfold evalRows
      rw [hq]
      simp only [bind, Except.bind]
      rw [rowAt_of (by omega) hrow']
      dsimp only
      rw [hF]
      dsimp only
      rw [vecAt_ok (by omega) (by push_cast at h1; omega)]
      rfl
    · intro k hk1 hk2
      simp only [List.getD_eq_getElem?_getD, List.getElem?_set]
      by_cases hkk : (start + n).toNat = k
      · subst hkk
        rw [if_pos rfl, if_pos (by push_cast at h1; omega)]
        rfl
      · rw [if_neg hkk, ← List.getD_eq_getElem?_getD]
        exact hv k hk1 (by push_cast at hk2; omega)

/-- What calls leave alone. -/
structure SameTable2 (T U : Interp2) : Prop where
  romberg : U.base.romberg = T.base.romberg
  iX : U.base.iX = T.base.iX
  iY : U.base.iY.length = T.base.iY.length
  max : U.base.max = T.base.max
  rational : U.base.rational = T.base.rational
  logSubst : U.base.logSubst = T.base.logSubst
  isLog : U.base.isLog = T.base.isLog
  xmin : U.base.xmin = T.base.xmin
  step : U.base.step = T.base.step
  length : U.rows.length = T.rows.length
  rows : ∀ (k : ℕ) (row : Interp), T.rows[k]? = some row → ∃ row', U.rows[k]? = some row' ∧ Spec.Calls row row'

lemma later2_same {T U : Interp2} (h : Spec.Calls2 T U) : SameTable2 T U := by
  induction h with
  | refl => exact ⟨rfl, rfl, rfl, rfl, rfl, rfl, rfl, rfl, rfl, rfl, fun k row h => ⟨row, h, .refl⟩⟩
  | @array U V t u v _ e ih =>
    unfold Interp2.interpolateArray at e
    obtain ⟨s, hs, e⟩ := exc_bind e
    obtain ⟨r, -, e⟩ := exc_bind e
    simp only [pure, Except.pure, Except.ok.injEq, Prod.mk.injEq] at e
    obtain ⟨-, rfl⟩ := e
    obtain ⟨i1, i2, i3⟩ := evalRows_rows hs
    obtain ⟨a1, a2, a3, a4, a5, a6, a7, a8, a9, a10, a11⟩ := ih
    refine ⟨a1, a2, i1.trans a3, a4, a5, a6, a7, a8, a9, i2.trans a10, ?_⟩
    intro k row hk
    obtain ⟨row', h1, h2⟩ := a11 k row hk
    rcases i3 k row' h1 with h | ⟨-, w, row'', h3, h4⟩
    · exact ⟨row', h, h2⟩
    · exact ⟨row'', h4, .array h2 h3⟩
  | @grid U V t u v _ e ih =>
    unfold Interp2.interpolate at e
    obtain ⟨x2, -, e⟩ := exc_bind e
    obtain ⟨p, -, e⟩ := exc_bind e
    obtain ⟨s, hs, e⟩ := exc_bind e
    obtain ⟨r, -, e⟩ := exc_bind e
    simp only [pure, Except.pure, Except.ok.injEq, Prod.mk.injEq] at e
    obtain ⟨-, rfl⟩ := e
    obtain ⟨i1, i2, i3⟩ := evalRows_rows hs
    obtain ⟨a1, a2, a3, a4, a5, a6, a7, a8, a9, a10, a11⟩ := ih
    refine ⟨a1, a2, i1.trans a3, a4, a5, a6, a7, a8, a9, i2.trans a10, ?_⟩
    intro k row hk
    obtain ⟨row', h1, h2⟩ := a11 k row hk
    rcases i3 k row' h1 with h | ⟨-, w, row'', h3, h4⟩
    · exact ⟨row', h, h2⟩
    · exact ⟨row'', h4, .grid h2 h3⟩
  | fast b _ ih =>
    obtain ⟨a1, a2, a3, a4, a5, a6, a7, a8, a9, a10, a11⟩ := ih
    exact ⟨a1, a2, a3, a4, a5, a6, a7, a8, a9, a10, a11⟩

lemma arrayTable_self {x y : List ℝ} {R : ℕ} {rat : Bool} {I : Interp} (b : Bool) (h : ArrayTable x y R rat I) :
    ArrayTable x y R rat { I with self := b } := by
  obtain ⟨i1, i2, i3, i4, i5, i6, i7, i8, i9, i10, i11, i12⟩ := h
  exact ⟨i1, i2, i3, i4, i5, i6, i7, i8, i9, i10, i11, i12⟩

/-- A row of a table of two variables. -/
structure Spec.Row (r : List ℝ × List ℝ) : Prop where
  length : r.1.length = r.2.length
  two : 2 ≤ r.1.length
  mono : Spec.Monotone r.1

lemma rowsOfArrays_ok (r2 : ℤ) (rat : Bool) : ∀ {l : List (List ℝ × List ℝ)}, (∀ r ∈ l, Spec.Row r) →
    ∃ rows, rowsOfArrays r2 rat l = .ok rows ∧ rows.length = l.length ∧ ∀ (k : ℕ) (row : Interp) (r : List ℝ × List ℝ), rows[k]? = some row → l[k]? = some r →
      ArrayTable r.1 r.2 (Spec.order r2 r.1.length) rat row := by
  intro l
  induction l with
  | nil => intro _; exact ⟨[], rfl, rfl, by simp⟩
  | cons a l ih =>
    intro h
    obtain ⟨rows, e, h1, h2⟩ := ih fun r hr => h r (List.mem_cons_of_mem _ hr)
    have ha := h a List.mem_cons_self
    obtain ⟨I, eI, hI, -⟩ := ofArrays_ok r2 rat ha.length ha.two ha.mono
    refine ⟨{ I with self := false } :: rows, ?_, by simp [h1], ?_⟩
    · obtain ⟨x, y⟩ := a
      unfold rowsOfArrays
      rw [eI, e]
      rfl
    · intro k row r hk hr
      cases k with
      | zero =>
        simp only [List.getElem?_cons_zero, Option.some.injEq] at hk hr
        subst hk hr
        exact arrayTable_self _ hI
      | succ k =>
        simp only [List.getElem?_cons_succ] at hk hr
        exact h2 k row r hk hr

/-- The objects that the constructor for vectors and two variables makes. -/
structure ArrayTable2 (x1 : List ℝ) (rows : List (List ℝ × List ℝ)) (R1 : ℕ) (r2 : ℤ) (T : Interp2) : Prop where
  romberg : T.base.romberg = R1
  iX : T.base.iX = x1
  iY : T.base.iY.length = x1.length
  max : T.base.max = x1.length
  rational : T.base.rational = false
  logSubst : T.base.logSubst = false
  length : T.rows.length = x1.length
  rows : ∀ (k : ℕ) (row : Interp) (r : List ℝ × List ℝ), T.rows[k]? = some row → rows[k]? = some r → ArrayTable r.1 r.2 (Spec.order r2 r.1.length) false row

lemma ofArrays2_ok {x1 : List ℝ} {x2 y : List (List ℝ)} (r1 r2 : ℤ) (hx : x2.length = x1.length) (hy : y.length = x1.length)
    (h2 : 2 ≤ x1.length) (hm : Spec.Monotone x1) (hrows : ∀ r ∈ x2.zip y, Spec.Row r) :
    ∃ T, interp2OfArrays x1 x2 y r1 false r2 false = .ok T ∧ ArrayTable2 x1 (x2.zip y) (Spec.order r1 x1.length) r2 T := by
  have hne : x1.getD 0 0 ≠ x1.getD (x1.length - 1) 0 := by
    intro h
    have := mono_ne hm (by omega) (by omega) h
    omega
  unfold interp2OfArrays
  have hmin : ((min x1.length y.length : ℕ) : ℤ) = (x1.length : ℤ) := by rw [hy, min_self]
  rw [vecAt_ok (by omega) (by omega), vecAt_ok (by omega) (by omega), hmin]
  have e1 : (0 : ℤ).toNat = 0 := rfl
  have e2 : ((x1.length : ℤ) - 1).toNat = x1.length - 1 := by omega
  simp only [e1, e2, bind, Except.bind]
  obtain ⟨i1, i2, i3, i4, i5, i6, i7, i8, i9, i10, i11, i12, i13, i14, i15, i16⟩ := init_order (max := (x1.length : ℤ)) r1 false false r1 false false (by omega)
    (fun h => by simp at h) hne
  have e3 : ((x1.length : ℤ)).toNat = x1.length := by omega
  rw [e3] at i1 i3
  rw [if_neg (by omega), i3, fillVec_same]
  have hz : (x2.zip y).length = x1.length := by simp [hx, hy]
  have ht : (x2.zip y).take x1.length = x2.zip y := List.take_of_length_le (by omega)
  obtain ⟨rows, er, hl, hr⟩ := rowsOfArrays_ok r2 false hrows
  rw [ht, er]
  refine ⟨_, rfl, i1, rfl, ?_, rfl, i7, i11, hl.trans hz, hr⟩
  rw [i15]
  simp

lemma array2_later {x1 : List ℝ} {rows : List (List ℝ × List ℝ)} {R1 : ℕ} {r2 : ℤ} {T U : Interp2} (hT : ArrayTable2 x1 rows R1 r2 T)
    (h : Spec.Calls2 T U) : ArrayTable2 x1 rows R1 r2 U := by
  obtain ⟨a1, a2, a3, a4, a5, a6, a7, a8, a9, a10, a11⟩ := later2_same h
  obtain ⟨b1, b2, b3, b4, b5, b6, b7, b8⟩ := hT
  refine ⟨a1.trans b1, a2.trans b2, a3.trans b3, a4.trans b4, a5.trans b5, a6.trans b6, a10.trans b7, ?_⟩
  intro k row r hk hr
  have hlt : k < T.rows.length := by
    have := (List.getElem?_eq_some_iff.mp hk).1
    omega
  obtain ⟨row', h1, h2⟩ := a11 k _ (List.getElem?_eq_getElem hlt)
  rw [hk, Option.some.injEq] at h1
  subst h1
  exact array_later (b8 k _ r (List.getElem?_eq_getElem hlt) hr) h2

lemma nv_congr {X Y Y' : ℕ → ℝ} {R : ℕ} (hR : 1 ≤ R) (hX : DistinctNodes X R) (h : ∀ j < R, Y j = Y' j) (t : ℝ) :
    nv X Y t (R - 1) 0 = nv X Y' t (R - 1) 0 := by
  have hX' : DistinctNodes X (R - 1 + 1) := by rwa [Nat.sub_add_cancel hR]
  unfold nv
  rw [nev_unique (Y := Y) hX' (nev X Y' (R - 1) 0) (nev_degree _ _ _ _) (fun j hj => by
    rw [nev_through hX _ 0 j (by omega) (by omega) (by omega), h j (by omega)])]

/-- C134: the interpolation in two variables is the one in one variable twice: in the rows in the second argument, and between the rows, with
the results as ordinates, in the first. -/
theorem C134_two_variables {x1 : List ℝ} {x2 y : List (List ℝ)} {r1 r2 : ℤ} (hx : x2.length = x1.length) (hy : y.length = x1.length)
    (h2 : 2 ≤ x1.length) (hm : Spec.Monotone x1)
    (hrows : ∀ k, k < x1.length → (x2.getD k []).length = (y.getD k []).length ∧ 2 ≤ (x2.getD k []).length ∧ Spec.Monotone (x2.getD k []))
    (hr1 : 2 ≤ r1) (hr2 : 2 ≤ r2) :
    ∃ T, interp2OfArrays x1 x2 y r1 false r2 false = .ok T ∧ ∀ U, Spec.Calls2 T U → ∀ t u, ∀ v : List ℝ, v.length = x1.length →
      (∀ k < x1.length, ∃ I K, interpOfArrays (x2.getD k []) (y.getD k []) r2 false = .ok I ∧ I.interpolateArray u = .ok (v.getD k 0, K)) →
      ∃ I K V w, interpOfArrays x1 v r1 false = .ok I ∧ I.interpolateArray t = .ok (w, K) ∧ U.interpolateArray t u = .ok (w, V) := by
  have hz : (x2.zip y).length = x1.length := by simp [hx, hy]
  have hrow : ∀ r ∈ x2.zip y, Spec.Row r := by
    intro r hr
    obtain ⟨k, hk, rfl⟩ := List.mem_iff_getElem.mp hr
    obtain ⟨c1, c2, c3⟩ := hrows k (by omega)
    have d1 : x2.getD k [] = x2[k]'(by omega) := by simp [List.getD_eq_getElem?_getD, List.getElem?_eq_getElem (by omega : k < x2.length)]
    have d2 : y.getD k [] = y[k]'(by omega) := by simp [List.getD_eq_getElem?_getD, List.getElem?_eq_getElem (by omega : k < y.length)]
    rw [d1, d2] at c1
    rw [d1] at c2 c3
    exact ⟨by simpa using c1, by simpa using c2, by simpa using c3⟩
  obtain ⟨T, eT, hT⟩ := ofArrays2_ok r1 r2 hx hy h2 hm hrow
  refine ⟨T, eT, fun U hU t u v hv hvk => ?_⟩
  obtain ⟨I, eI, hI, -⟩ := ofArrays_ok r1 false hv.symm h2 hm
  have hR : Spec.order r1 x1.length = min r1.toNat x1.length := by unfold Spec.order; omega
  rw [hR] at hI hT
  have hU' := array2_later hT hU
  obtain ⟨i, s, hA, hN, hs, K, hK⟩ := array_value hI hv.symm h2 hm (by omega) (by omega) t
  obtain ⟨i', s', -, -, f1, f2, f3⟩ := locate_window hm h2 (r := min r1.toNat x1.length) (by omega) (by omega) t
  have hss : s' = s := by
    have : (s' : ℤ) = s := by rw [← f1, hs]
    omega
  subst hss
  have hsl := hN.2.2.1
  set R := min r1.toNat x1.length with hRdef
  obtain ⟨b1, b2, b3, b4, b5, b6, b7, b8⟩ := hU'
  have hF : ∀ (k : ℕ) (row : Interp), (U.base.iY, U.rows).2[k]? = some row → ∃ row', row.interpolateArray u = .ok (v.getD k 0, row') := by
    intro k row hk
    have hlt : k < x1.length := by
      have : k < U.rows.length := (List.getElem?_eq_some_iff.mp hk).1
      omega
    have hr : (x2.zip y)[k]? = some (x2.getD k [], y.getD k []) := by
      simp [List.getElem?_zip_eq_some, List.getD_eq_getElem?_getD, List.getElem?_eq_getElem (by omega : k < x2.length),
        List.getElem?_eq_getElem (by omega : k < y.length)]
    have hrowk := b8 k row _ hk hr
    obtain ⟨I', K', e1, e2⟩ := hvk k hlt
    obtain ⟨c1, c2, c3⟩ := hrows k hlt
    obtain ⟨I'', e3, hI'', -⟩ := ofArrays_ok r2 false c1 c2 c3
    rw [e1, Except.ok.injEq] at e3
    subst e3
    have hR2 : Spec.order r2 (x2.getD k []).length = min r2.toNat (x2.getD k []).length := by unfold Spec.order; omega
    rw [hR2] at hI''
    dsimp only at hrowk
    rw [hR2] at hrowk
    obtain ⟨_, s1, -, -, g1, K1, g2⟩ := array_value hI'' c1 c2 c3 (by omega) (by omega) u
    obtain ⟨_, s2, -, -, g3, K2, g4⟩ := array_value hrowk c1 c2 c3 (by omega) (by omega) u
    have : (s1 : ℤ) = s2 := by rw [← g1, g3]
    rw [this] at g2
    rw [e2, Except.ok.injEq, Prod.mk.injEq] at g2
    exact ⟨K2, by rw [g4, g2.1]⟩
  obtain ⟨q, hq, hqv⟩ := evalRows_values (F := fun row => row.interpolateArray u) (start := (s' : ℤ)) (by omega) (g := fun k => v.getD k 0) (n := R)
    (s := (U.base.iY, U.rows)) (by simp only [b3]; omega) (by simp only [b3, b7]) hF
  have hql := (evalRows_rows hq).1
  have key := evalAt_poly { U.base with reverse := false, starti := (locateNodes U.base.iX U.base.max U.base.romberg t).1, iY := q.1 } b5 (by simp) t
    (start := s') (by omega) (by simp only [b1, b2]; omega) (by simp only [b1]; rw [hql]; simp only [b3]; omega) (by simp only [b1]; omega)
    (by simp only [b1, b2, b4]; exact f2) (by simp only [b1, b2, b4]; exact f3)
    (by simp only [b1, b2]; exact mono_window hm (by omega) (by omega))
  have hw : nv (win x1 s') (win q.1 s') t (R - 1) 0 = nv (win x1 s') (win v s') t (R - 1) 0 := by
    refine nv_congr (by omega) (mono_window hm (by omega) (by omega)) ?_ t
    intro j hj
    unfold win
    exact hqv _ (by omega) (by omega)
  refine ⟨I, K, ?_⟩
  simp only [eI, hK, true_and]
  have e4 : (locateNodes U.base.iX U.base.max U.base.romberg t).2 = s' := by rw [b1, b2, b4]; exact f1
  refine ⟨⟨{ U.base with reverse := false, starti := (locateNodes U.base.iX U.base.max U.base.romberg t).1, iY := q.1 }, q.2⟩, _, rfl, ?_⟩
  unfold Interp2.interpolateArray
  have hq' : evalRows (fun row => row.interpolateArray u) (locateNodes U.base.iX U.base.max U.base.romberg t).2 U.base.romberg
      (U.base.iY, U.rows) = .ok q := by rw [e4, b1]; exact hq
  simp only [bind, Except.bind]
  rw [hq']
  dsimp only
  rw [e4, key]
  simp only [b1, b2]
  rw [hw]
  rfl

/-- C134: functions that are polynomials of a degree below the orders in each of the two variables are reproduced everywhere. -/
theorem C134_two_polynomials {x1 : List ℝ} {x2 y : List (List ℝ)} {r1 r2 : ℤ} (hx : x2.length = x1.length) (hy : y.length = x1.length)
    (h2 : 2 ≤ x1.length) (hm : Spec.Monotone x1)
    (hrows : ∀ k, k < x1.length → (x2.getD k []).length = (y.getD k []).length ∧ 2 ≤ (x2.getD k []).length ∧ Spec.Monotone (x2.getD k []))
    (hr1 : 2 ≤ r1) (hr2 : 2 ≤ r2) (f : ℝ → ℝ → ℝ)
    (hf2 : ∀ k < x1.length, ∃ q : ℝ[X], q.natDegree < min r2.toNat (x2.getD k []).length ∧ ∀ u, f (x1.getD k 0) u = q.eval u)
    (hf1 : ∀ u, ∃ p : ℝ[X], p.natDegree < min r1.toNat x1.length ∧ ∀ t, f t u = p.eval t)
    (hf : ∀ k < x1.length, ∀ j < (x2.getD k []).length, (y.getD k []).getD j 0 = f (x1.getD k 0) ((x2.getD k []).getD j 0)) :
    ∃ T, interp2OfArrays x1 x2 y r1 false r2 false = .ok T ∧ ∀ U, Spec.Calls2 T U → ∀ t u,
      ∃ V, U.interpolateArray t u = .ok (f t u, V) := by
  obtain ⟨T, eT, h⟩ := C134_two_variables hx hy h2 hm hrows hr1 hr2
  refine ⟨T, eT, fun U hU t u => ?_⟩
  have hv : ∀ k, k < x1.length → (((List.range x1.length).map fun k => f (x1.getD k 0) u) : List ℝ).getD k 0 = f (x1.getD k 0) u := by
    intro k hk
    simp [List.getD_eq_getElem?_getD, hk]
  obtain ⟨I, K, V, w, e1, e2, e3⟩ := h U hU t u ((List.range x1.length).map fun k => f (x1.getD k 0) u) (by simp) (by
    intro k hk
    obtain ⟨c1, c2, c3⟩ := hrows k hk
    obtain ⟨q, q1, q2⟩ := hf2 k hk
    obtain ⟨I, eI, hI⟩ := C134_polynomials c1 c2 c3 hr2 q q1 (fun j hj => by rw [hf k hk j hj, q2])
    obtain ⟨K, hK⟩ := hI I .refl u
    exact ⟨I, K, eI, by rw [hK, hv k hk, q2]⟩)
  obtain ⟨p, p1, p2⟩ := hf1 u
  obtain ⟨I', e1', h'⟩ := C134_polynomials (x := x1) (y := (List.range x1.length).map fun k => f (x1.getD k 0) u) (by simp) h2 hm hr1 p p1
    (fun k hk => by rw [hv k hk, p2])
  rw [e1, Except.ok.injEq] at e1'
  subst e1'
  obtain ⟨K', hK'⟩ := h' I .refl t
  rw [e2, Except.ok.injEq, Prod.mk.injEq] at hK'
  exact ⟨V, by rw [e3, hK'.1, p2]⟩

/-- The hypotheses of `C134_two_polynomials` are met by the products of two numbers in a table of two rows with different abscissae. -/
example : ∃ T, interp2OfArrays [1, 2] [[0, 1], [5, 3]] [[0, 1], [10, 6]] 2 false 2 false = .ok T ∧ ∀ U, Spec.Calls2 T U → ∀ t u,
    ∃ V, U.interpolateArray t u = .ok (t * u, V) := by
  have hk : ∀ k, k < [(1 : ℝ), 2].length → k = 0 ∨ k = 1 := by
    intro k hk
    simp only [List.length_cons, List.length_nil] at hk
    omega
  refine C134_two_polynomials (f := fun t u => t * u) rfl rfl (by norm_num) (by left; norm_num) ?_ le_rfl le_rfl ?_ ?_ ?_
  · intro k h
    rcases hk k h with rfl | rfl
    · exact ⟨rfl, by norm_num, by left; norm_num⟩
    · exact ⟨rfl, by norm_num, by right; norm_num⟩
  · intro k h
    refine ⟨C ([(1 : ℝ), 2].getD k 0) * X, ?_, fun u => by simp⟩
    have : (C ([(1 : ℝ), 2].getD k 0) * X).natDegree ≤ 1 := by compute_degree
    rcases hk k h with rfl | rfl
    · exact lt_of_le_of_lt this (by decide)
    · exact lt_of_le_of_lt this (by decide)
  · intro u
    refine ⟨C u * X, ?_, fun t => by rw [eval_mul, eval_C, eval_X, mul_comm]⟩
    have : (C u * X).natDegree ≤ 1 := by compute_degree
    exact lt_of_le_of_lt this (by decide)
  · intro k h j hj
    rcases hk k h with rfl | rfl
    · have : j = 0 ∨ j = 1 := by simp at hj; omega
      rcases this with rfl | rfl <;> norm_num
    · have : j = 0 ∨ j = 1 := by simp at hj; omega
      rcases this with rfl | rfl <;> norm_num

end Proposal
