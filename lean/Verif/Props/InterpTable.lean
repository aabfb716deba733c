import Verif.Props.InterpArray
import Mathlib.Topology.LocallyFinite
import Mathlib.Topology.Algebra.Polynomial
import Mathlib.Topology.Order.Lattice

/-!
# C134: interpolation in tables of arrays, continued
-/

open Polynomial

namespace Proposal

/-! ## Objects after any number of calls -/

/-- The object `J` is `I` after any calls of its methods. -/
inductive Spec.Calls (I : Interp) : Interp → Prop
  | refl : Spec.Calls I I
  | array {J K : Interp} {t v : ℝ} : Spec.Calls I J → J.interpolateArray t = .ok (v, K) → Spec.Calls I K
  | grid {J K : Interp} {t v : ℝ} : Spec.Calls I J → J.interpolate t = .ok (v, K) → Spec.Calls I K
  | limit {J K : Interp} {t v : ℝ} : Spec.Calls I J → J.findLimit t = .ok (v, K) → Spec.Calls I K
  | fast {J : Interp} (b : Bool) : Spec.Calls I J → Spec.Calls I { J with fast := b }

/-- The members that calls leave alone; the last logarithm is remembered with its argument. -/
structure SameTable (I J : Interp) : Prop where
  romberg : J.romberg = I.romberg
  rombergY : J.rombergY = I.rombergY
  iX : J.iX = I.iX
  iY : J.iY = I.iY
  max : J.max = I.max
  xmin : J.xmin = I.xmin
  xmax : J.xmax = I.xmax
  step : J.step = I.step
  rational : J.rational = I.rational
  rationalY : J.rationalY = I.rationalY
  self : J.self = I.self
  isLog : J.isLog = I.isLog
  logSubst : J.logSubst = I.logSubst
  save : J.ySave = itpLog J.xSave

lemma SameTable.refl {I : Interp} (h : I.ySave = itpLog I.xSave) : SameTable I I :=
  ⟨rfl, rfl, rfl, rfl, rfl, rfl, rfl, rfl, rfl, rfl, rfl, rfl, rfl, h⟩

lemma exc_bind {ε α β : Type} {a : Except ε α} {f : α → Except ε β} {b : β} (h : a >>= f = .ok b) : ∃ x, a = .ok x ∧ f x = .ok b := by
  cases a with
  | error e => simp [bind, Except.bind] at h
  | ok x => exact ⟨x, rfl, h⟩

lemma sameTable_array {I J K : Interp} {t v : ℝ} (h : SameTable I J) (e : J.interpolateArray t = .ok (v, K)) : SameTable I K := by
  unfold Interp.interpolateArray at e
  obtain ⟨r, -, e⟩ := exc_bind e
  simp only [pure, Except.pure, Except.ok.injEq, Prod.mk.injEq] at e
  obtain ⟨-, rfl⟩ := e
  obtain ⟨h1, h2, h3, h4, h5, h6, h7, h8, h9, h10, h11, h12, h13, h14⟩ := h
  exact ⟨h1, h2, h3, h4, h5, h6, h7, h8, h9, h10, h11, h12, h13, h14⟩

lemma sameTable_slog {I J : Interp} {x : ℝ} (h : SameTable I J) : SameTable I (J.slog x).2 ∧ (J.slog x).1 = itpLog x := by
  unfold Interp.slog
  have hs := h.save
  split_ifs with hx
  · exact ⟨h, by rw [hx]; exact hs⟩
  · obtain ⟨h1, h2, h3, h4, h5, h6, h7, h8, h9, h10, h11, h12, h13, h14⟩ := h
    exact ⟨⟨h1, h2, h3, h4, h5, h6, h7, h8, h9, h10, h11, h12, h13, rfl⟩, rfl⟩

lemma sameTable_grid {I J K : Interp} {t v : ℝ} (h : SameTable I J) (e : J.interpolate t = .ok (v, K)) : SameTable I K := by
  unfold Interp.interpolate at e
  obtain ⟨p, -, e⟩ := exc_bind e
  obtain ⟨r, -, e⟩ := exc_bind e
  simp only [pure, Except.pure, Except.ok.injEq, Prod.mk.injEq] at e
  obtain ⟨-, rfl⟩ := e
  have h' : SameTable I (if J.isLog then J.slog t else (t, J)).2 := by
    split_ifs
    · exact (sameTable_slog h).1
    · exact h
  obtain ⟨h1, h2, h3, h4, h5, h6, h7, h8, h9, h10, h11, h12, h13, h14⟩ := h'
  exact ⟨h1, h2, h3, h4, h5, h6, h7, h8, h9, h10, h11, h12, h13, h14⟩

lemma sameTable_limit {I J K : Interp} {t v : ℝ} (h : SameTable I J) (e : J.findLimit t = .ok (v, K)) : SameTable I K := by
  unfold Interp.findLimit at e
  obtain ⟨r, -, e⟩ := exc_bind e
  simp only [pure, Except.pure, Except.ok.injEq, Prod.mk.injEq] at e
  obtain ⟨-, rfl⟩ := e
  obtain ⟨h1, h2, h3, h4, h5, h6, h7, h8, h9, h10, h11, h12, h13, h14⟩ := h
  exact ⟨h1, h2, h3, h4, h5, h6, h7, h8, h9, h10, h11, h12, h13, h14⟩

lemma later_same {I J : Interp} (hI : I.ySave = itpLog I.xSave) (h : Spec.Calls I J) : SameTable I J := by
  induction h with
  | refl => exact .refl hI
  | array _ e ih => exact sameTable_array ih e
  | grid _ e ih => exact sameTable_grid ih e
  | limit _ e ih => exact sameTable_limit ih e
  | fast b _ ih =>
    obtain ⟨h1, h2, h3, h4, h5, h6, h7, h8, h9, h10, h11, h12, h13, h14⟩ := ih
    exact ⟨h1, h2, h3, h4, h5, h6, h7, h8, h9, h10, h11, h12, h13, h14⟩

/-! ## The constructor -/

lemma itpLog_one : itpLog 1 = 0 := by
  unfold itpLog
  rw [if_neg (by norm_num)]
  exact Real.log_one

lemma fillVec_same (l : List ℝ) : fillVec l.length l = .ok l := by
  simp [fillVec]

/-- The order that is used: at least one and at most the number of nodes. -/
def Spec.order (romberg : ℤ) (n : ℕ) : ℕ := min (max romberg 1).toNat n

lemma init_order {max : ℤ} {xmin xmax : ℝ} (r : ℤ) (rational isLog : Bool) (rY : ℤ) (rationalY logSubst : Bool) (hm : 1 ≤ max)
    (hlog : isLog = true → 0 < xmin ∧ 0 < xmax) (hne : xmin ≠ xmax) :
    let I := initInterp max xmin xmax r rational isLog rY rationalY logSubst
    I.romberg = Spec.order r max.toNat ∧ I.rombergY = Spec.order rY max.toNat ∧ I.max = max.toNat ∧
    I.xmin = (if isLog then Real.log (min xmin xmax) else min xmin xmax) ∧
    I.xmax = (if isLog then Real.log (Max.max xmin xmax) else Max.max xmin xmax) ∧ I.step = (I.xmax - I.xmin) / max ∧
    I.rational = rational ∧ I.rationalY = rationalY ∧ I.self = true ∧ I.isLog = isLog ∧ I.logSubst = logSubst ∧ I.fast = true ∧
    I.ySave = itpLog I.xSave ∧ I.iX = List.replicate max.toNat 0 ∧ I.iY = List.replicate max.toNat 0 ∧ I.xSave = 1 := by
  have e1 : (if isLog = true ∧ xmin ≤ 0 then (1 : ℝ) else xmin) = xmin := by
    rw [if_neg]; rintro ⟨h, h'⟩; have := (hlog h).1; linarith
  have e2 : (if isLog = true ∧ xmax ≤ 0 then (1 : ℝ) else xmax) = xmax := by
    rw [if_neg]; rintro ⟨h, h'⟩; have := (hlog h).2; linarith
  have e3 : (if max ≤ 0 then (1 : ℤ) else max) = max := by rw [if_neg (by omega)]
  have e4 : (if xmin > xmax then xmax else xmin) = min xmin xmax := by
    split_ifs with h
    · rw [min_eq_right h.le]
    · rw [min_eq_left (not_lt.mp h)]
  have e5 : (if xmin > xmax then xmin else xmax) = Max.max xmin xmax := by
    split_ifs with h
    · rw [max_eq_left h.le]
    · rw [max_eq_right (not_lt.mp h)]
  have e6 : ∀ q : ℤ, (if (if q ≤ 0 then 1 else q) > max then max else (if q ≤ 0 then 1 else q)).toNat = Spec.order q max.toNat := by
    intro q
    unfold Spec.order
    split_ifs <;> omega
  unfold initInterp
  simp only [e1, e2, e3, e4, e5, if_neg hne]
  exact ⟨e6 r, e6 rY, by simp only [itpLog_one]; trivial⟩

/-- The objects that the constructor for vectors makes. -/
structure ArrayTable (x y : List ℝ) (R : ℕ) (rat : Bool) (I : Interp) : Prop where
  iX : I.iX = x
  iY : I.iY = y
  max : I.max = x.length
  romberg : I.romberg = R
  rombergY : I.rombergY = R
  rational : I.rational = rat
  rationalY : I.rationalY = rat
  isLog : I.isLog = false
  logSubst : I.logSubst = false
  xmin : I.xmin = min (x.getD 0 0) (x.getD (x.length - 1) 0)
  xmax : I.xmax = Max.max (x.getD 0 0) (x.getD (x.length - 1) 0)
  save : I.ySave = itpLog I.xSave

lemma ofArrays_ok {x y : List ℝ} (r : ℤ) (rational : Bool) (hlen : x.length = y.length) (h2 : 2 ≤ x.length) (hm : Spec.Monotone x) :
    ∃ I, interpOfArrays x y r rational = .ok I ∧ ArrayTable x y (Spec.order r x.length) rational I ∧ I.self = true := by
  have hne : x.getD 0 0 ≠ x.getD (x.length - 1) 0 := by
    intro h
    have := mono_ne hm (by omega) (by omega) h
    omega
  unfold interpOfArrays
  have hmin : ((min x.length y.length : ℕ) : ℤ) = (x.length : ℤ) := by rw [← hlen, min_self]
  rw [vecAt_ok (by omega) (by omega), vecAt_ok (by omega) (by omega), hmin]
  have e1 : (0 : ℤ).toNat = 0 := rfl
  have e2 : ((x.length : ℤ) - 1).toNat = x.length - 1 := by omega
  simp only [e1, e2, bind, Except.bind]
  obtain ⟨i1, i2, i3, i4, i5, i6, i7, i8, i9, i10, i11, i12, i13, i14, i15, i16⟩ := init_order (max := (x.length : ℤ)) r rational false r rational false (by omega)
    (fun h => by simp at h) hne
  have e3 : ((x.length : ℤ)).toNat = x.length := by omega
  rw [e3] at i1 i2 i3
  have e4 : fillVec x.length y = .ok y := by rw [hlen]; exact fillVec_same y
  rw [i3, fillVec_same, e4]
  refine ⟨_, rfl, ⟨rfl, rfl, rfl, i1, i2, i7, i8, i10, i11, ?_, ?_, i13⟩, i9⟩
  · simpa using i4
  · simpa using i5

lemma array_later {x y : List ℝ} {R : ℕ} {rational : Bool} {I J : Interp} (hI : ArrayTable x y R rational I) (h : Spec.Calls I J) :
    ArrayTable x y R rational J := by
  obtain ⟨h1, h2, h3, h4, h5, h6, h7, h8, h9, h10, h11, h12, h13, h14⟩ := later_same hI.save h
  obtain ⟨i1, i2, i3, i4, i5, i6, i7, i8, i9, i10, i11, i12⟩ := hI
  exact ⟨h3.trans i1, h4.trans i2, h5.trans i3, h1.trans i4, h2.trans i5, h9.trans i6, h10.trans i7, h12.trans i8, h13.trans i9,
    h6.trans i10, h7.trans i11, h14⟩

/-! ## Values -/

/-- The value in terms of the window. -/
lemma array_value {x y : List ℝ} {R : ℕ} {J : Interp} (hJ : ArrayTable x y R false J) (hlen : x.length = y.length) (h2 : 2 ≤ x.length)
    (hm : Spec.Monotone x) (hR : 2 ≤ R) (hRn : R ≤ x.length) (t : ℝ) :
    ∃ i s : ℕ, Spec.Around x t i ∧ Spec.Nearest x t R s i ∧ (locateNodes x x.length R t).2 = s ∧
      ∃ K, J.interpolateArray t = .ok (nv (win x s) (win y s) t (R - 1) 0, K) := by
  obtain ⟨i, s, hA, hN, e1, e2, e3⟩ := locate_window hm h2 hR hRn t
  refine ⟨i, s, hA, hN, e1, ?_⟩
  have hs := hN.2.2.1
  obtain ⟨j1, j2, j3, j4, j5, j6, j7, j8, j9, j10, j11, j12⟩ := hJ
  have key := evalAt_poly { J with reverse := false, starti := (locateNodes J.iX J.max J.romberg t).1 } j6 (by simp) t (start := s)
    (by omega) (by simp only [j1, j4]; omega) (by simp only [j2, j4]; omega) (by simp only [j4]; omega)
    (by simp only [j1, j3, j4]; exact e2) (by simp only [j1, j3, j4]; exact e3)
    (by simp only [j1, j4]; exact mono_window hm (by omega) (by omega))
  unfold Interp.interpolateArray
  have e4 : (locateNodes J.iX J.max J.romberg t).2 = s := by rw [j1, j3, j4]; exact e1
  simp only [e4]
  rw [key]
  simp only [j1, j2, j4]
  exact ⟨_, rfl⟩

lemma poly_of_nv {X Y : ℕ → ℝ} {R : ℕ} (hR : 1 ≤ R) (hX : DistinctNodes X R) (t : ℝ) :
    ∃ p : ℝ[X], p.natDegree < R ∧ (∀ j < R, p.eval (X j) = Y j) ∧ nv X Y t (R - 1) 0 = p.eval t :=
  ⟨nev X Y (R - 1) 0, by have := nev_degree X Y (R - 1) 0; omega,
    fun j hj => nev_through hX _ 0 j (by omega) (by omega) (by omega), rfl⟩

/-- C134: `InterpolateArray` in a table of at least two nodes in ascending or descending order, with polynomials of at least two nodes, gives
for every point, also beyond the ends of the table, the value of the polynomial through as many nodes as the order says, and these are the
nodes next to the point. Nothing is read out of range, and neither earlier calls nor `SetFast` have an influence. What is missing is the
order 1, see `C134_order_one`. -/
theorem C134_array_partial {x y : List ℝ} {r : ℤ} (hlen : x.length = y.length) (h2 : 2 ≤ x.length) (hm : Spec.Monotone x) (hr : 2 ≤ r) :
    ∃ I, interpOfArrays x y r false = .ok I ∧ ∀ J, Spec.Calls I J → ∀ t,
      ∃ i s : ℕ, Spec.Around x t i ∧ Spec.Nearest x t (min r.toNat x.length) s i ∧
        ∃ p : ℝ[X], p.natDegree < min r.toNat x.length ∧
          (∀ j, s ≤ j → j < s + min r.toNat x.length → p.eval (x.getD j 0) = y.getD j 0) ∧
          ∃ K, J.interpolateArray t = .ok (p.eval t, K) := by
  obtain ⟨I, e, hI, -⟩ := ofArrays_ok r false hlen h2 hm
  refine ⟨I, e, fun J hJ t => ?_⟩
  have hR : Spec.order r x.length = min r.toNat x.length := by unfold Spec.order; omega
  rw [hR] at hI
  obtain ⟨i, s, hA, hN, -, K, hK⟩ := array_value (array_later hI hJ) hlen h2 hm (by omega) (by omega) t
  obtain ⟨p, p1, p2, p3⟩ := poly_of_nv (X := win x s) (Y := win y s) (by omega : 1 ≤ min r.toNat x.length)
    (mono_window hm (by omega) (by have := hN.2.2.1; omega)) t
  refine ⟨i, s, hA, hN, p, p1, ?_, K, by rw [hK, p3]⟩
  intro j h3 h4
  have := p2 (j - s) (by omega)
  unfold win at this
  have e5 : ((s : ℤ)).toNat + (j - s) = j := by omega
  rwa [e5] at this

/-- C134: polynomials of a degree below the order are reproduced everywhere. -/
theorem C134_polynomials {x y : List ℝ} {r : ℤ} (hlen : x.length = y.length) (h2 : 2 ≤ x.length) (hm : Spec.Monotone x) (hr : 2 ≤ r)
    (q : ℝ[X]) (hq : q.natDegree < min r.toNat x.length) (hy : ∀ j < x.length, y.getD j 0 = q.eval (x.getD j 0)) :
    ∃ I, interpOfArrays x y r false = .ok I ∧ ∀ J, Spec.Calls I J → ∀ t, ∃ K, J.interpolateArray t = .ok (q.eval t, K) := by
  obtain ⟨I, e, hI, -⟩ := ofArrays_ok r false hlen h2 hm
  refine ⟨I, e, fun J hJ t => ?_⟩
  have hR : Spec.order r x.length = min r.toNat x.length := by unfold Spec.order; omega
  rw [hR] at hI
  obtain ⟨i, s, hA, hN, -, K, hK⟩ := array_value (array_later hI hJ) hlen h2 hm (by omega) (by omega) t
  have hs := hN.2.2.1
  refine ⟨K, ?_⟩
  rw [hK, nv]
  have hd : DistinctNodes (win x s) (min r.toNat x.length - 1 + 1) := by
    have e6 : min r.toNat x.length - 1 + 1 = min r.toNat x.length := by omega
    rw [e6]
    exact mono_window hm (by omega) (by omega)
  rw [nev_unique (Y := win y s) hd q (by omega) (fun j hj => (hy _ (by omega)).symm)]

/-- A node between its neighbours. -/
lemma around_node {x : List ℝ} (hm : Spec.Monotone x) {i j : ℕ} (hj : j < x.length) (hA : Spec.Around x (x.getD j 0) i) :
    j = i ∨ j = i + 1 := by
  obtain ⟨h1, h3, h4⟩ := hA
  have a1 : i ≤ j := by
    by_contra hc
    push Not at hc
    rcases h3 with h3 | h3
    · omega
    · rw [Set.mem_uIcc] at h3
      rcases hm with h | h
      · have := asc_lt h hc (by omega)
        rcases Nat.eq_zero_or_pos j with rfl | hj0
        · rcases h3 with h3 | h3 <;> linarith
        · have := asc_lt h hj0 hj
          rcases h3 with h3 | h3 <;> linarith
      · have := desc_lt h hc (by omega)
        rcases Nat.eq_zero_or_pos j with rfl | hj0
        · rcases h3 with h3 | h3 <;> linarith
        · have := desc_lt h hj0 hj
          rcases h3 with h3 | h3 <;> linarith
  have a2 : j ≤ i + 1 := by
    by_contra hc
    push Not at hc
    rcases h4 with h4 | h4
    · omega
    · rw [Set.mem_uIcc] at h4
      rcases hm with h | h
      · have := asc_lt h hc hj
        rcases Nat.lt_or_ge j (x.length - 1) with hj0 | hj0
        · have := asc_lt h hj0 (by omega)
          rcases h4 with h4 | h4 <;> linarith
        · have : j = x.length - 1 := by omega
          subst this
          rcases h4 with h4 | h4 <;> linarith
      · have := desc_lt h hc hj
        rcases Nat.lt_or_ge j (x.length - 1) with hj0 | hj0
        · have := desc_lt h hj0 (by omega)
          rcases h4 with h4 | h4 <;> linarith
        · have : j = x.length - 1 := by omega
          subst this
          rcases h4 with h4 | h4 <;> linarith
  omega

/-- C134: at a node of the table the value is the tabulated one. -/
theorem C134_nodes {x y : List ℝ} {r : ℤ} (hlen : x.length = y.length) (h2 : 2 ≤ x.length) (hm : Spec.Monotone x) (hr : 2 ≤ r) :
    ∃ I, interpOfArrays x y r false = .ok I ∧ ∀ J, Spec.Calls I J → ∀ j < x.length,
      ∃ K, J.interpolateArray (x.getD j 0) = .ok (y.getD j 0, K) := by
  obtain ⟨I, e, h⟩ := C134_array_partial hlen h2 hm hr
  refine ⟨I, e, fun J hJ j hj => ?_⟩
  obtain ⟨i, s, hA, hN, p, -, p2, K, hK⟩ := h J hJ (x.getD j 0)
  obtain ⟨n1, n2, n3, -⟩ := hN
  have := around_node hm hj hA
  exact ⟨K, by rw [hK, p2 j (by omega) (by omega)]⟩

/-! ## Continuity -/

lemma around_closed (x : List ℝ) (i : ℕ) : IsClosed {t : ℝ | Spec.Around x t i} := by
  have h : {t : ℝ | Spec.Around x t i} = {t | i + 1 < x.length} ∩ ({t | i = 0} ∪ ({t | x.getD 0 0 ≤ x.getD i 0 ∧ x.getD i 0 ≤ t} ∪
      {t | t ≤ x.getD i 0 ∧ x.getD i 0 ≤ x.getD 0 0})) ∩ ({t | i + 2 = x.length} ∪
      ({t | t ≤ x.getD (i + 1) 0 ∧ x.getD (i + 1) 0 ≤ x.getD (x.length - 1) 0} ∪
      {t | x.getD (x.length - 1) 0 ≤ x.getD (i + 1) 0 ∧ x.getD (i + 1) 0 ≤ t})) := by
    ext t
    simp only [Spec.Around, Set.mem_uIcc, Set.mem_ofPred_eq, Set.mem_inter_iff, Set.mem_union]
    tauto
  have c1 : ∀ {p : Prop} {a : ℝ}, IsClosed {t : ℝ | p ∧ a ≤ t} := by
    intro p a
    exact isClosed_const.inter (isClosed_le continuous_const continuous_id)
  have c2 : ∀ {p : Prop} {a : ℝ}, IsClosed {t : ℝ | t ≤ a ∧ p} := by
    intro p a
    exact (isClosed_le continuous_id continuous_const).inter isClosed_const
  rw [h]
  exact (isClosed_const.inter (isClosed_const.union (c1.union c2))).inter (isClosed_const.union (c2.union c1))

/-- Two pairs of neighbours of one point have it in common. -/
lemma around_twice {x : List ℝ} (hm : Spec.Monotone x) {t : ℝ} {i k : ℕ} (hi : Spec.Around x t i) (hk : Spec.Around x t k) (hik : i < k) :
    k = i + 1 ∧ t = x.getD k 0 := by
  obtain ⟨-, -, h4⟩ := hi
  obtain ⟨h1, h3, -⟩ := hk
  rcases h3 with h3 | h3
  · omega
  rcases h4 with h4 | h4
  · omega
  rw [Set.mem_uIcc] at h3 h4
  have hki : k = i + 1 ∨ i + 1 < k := by omega
  rcases hm with h | h
  · have a1 := asc_lt h (by omega : 0 < k) (by omega)
    have a2 := asc_lt h (by omega : i + 1 < x.length - 1) (by omega)
    rcases hki with rfl | hki
    · exact ⟨rfl, by rcases h3 with h3 | h3 <;> rcases h4 with h4 | h4 <;> linarith⟩
    · have a3 := asc_lt h hki (by omega)
      exfalso
      rcases h3 with h3 | h3 <;> rcases h4 with h4 | h4 <;> linarith
  · have a1 := desc_lt h (by omega : 0 < k) (by omega)
    have a2 := desc_lt h (by omega : i + 1 < x.length - 1) (by omega)
    rcases hki with rfl | hki
    · exact ⟨rfl, by rcases h3 with h3 | h3 <;> rcases h4 with h4 | h4 <;> linarith⟩
    · have a3 := desc_lt h hki (by omega)
      exfalso
      rcases h3 with h3 | h3 <;> rcases h4 with h4 | h4 <;> linarith

lemma nearest_even {x : List ℝ} {t u : ℝ} {R i s s' : ℕ} (hR : Even R) (h : Spec.Nearest x t R s i) (h' : Spec.Nearest x u R s' i) : s = s' := by
  obtain ⟨k, hk⟩ := hR
  obtain ⟨a1, a2, a3, a4⟩ := h
  obtain ⟨b1, b2, b3, b4⟩ := h'
  have a5 : i - s = s + R - 2 - i ∨ (s = 0 ∧ i - s ≤ s + R - 2 - i) ∨ (s + R = x.length ∧ s + R - 2 - i ≤ i - s) := by
    rcases a4 with h | ⟨h, -⟩ | ⟨h, -⟩ | h | h
    · exact Or.inl h
    · omega
    · omega
    · exact Or.inr (Or.inl h)
    · exact Or.inr (Or.inr h)
  have b5 : i - s' = s' + R - 2 - i ∨ (s' = 0 ∧ i - s' ≤ s' + R - 2 - i) ∨ (s' + R = x.length ∧ s' + R - 2 - i ≤ i - s') := by
    rcases b4 with h | ⟨h, -⟩ | ⟨h, -⟩ | h | h
    · exact Or.inl h
    · omega
    · omega
    · exact Or.inr (Or.inl h)
    · exact Or.inr (Or.inr h)
  omega

/-- C134: the interpolating function is continuous when the order, which is at most the number of nodes, is even; with a function of the
point alone this says once more that earlier calls have no influence. -/
theorem C134_continuous {x y : List ℝ} {r : ℤ} (hlen : x.length = y.length) (h2 : 2 ≤ x.length) (hm : Spec.Monotone x) (hr : 2 ≤ r)
    (heven : Even (min r.toNat x.length)) :
    ∃ I, interpOfArrays x y r false = .ok I ∧ ∃ g : ℝ → ℝ, Continuous g ∧
      ∀ J, Spec.Calls I J → ∀ t, ∃ K, J.interpolateArray t = .ok (g t, K) := by
  obtain ⟨I, e, hI, -⟩ := ofArrays_ok r false hlen h2 hm
  refine ⟨I, e, ?_⟩
  have hR : Spec.order r x.length = min r.toNat x.length := by unfold Spec.order; omega
  rw [hR] at hI
  set R := min r.toNat x.length with hRdef
  have hR2 : 2 ≤ R := by omega
  have hRn : R ≤ x.length := by omega
  have hwin := locate_window hm h2 hR2 hRn
  choose! i s hA hN hv _ _ using hwin
  have hval : ∀ J, Spec.Calls I J → ∀ t, ∃ K, J.interpolateArray t = .ok (nv (win x (s t)) (win y (s t)) t (R - 1) 0, K) := by
    intro J hJ t
    obtain ⟨i', s', -, -, e1, K, hK⟩ := array_value (array_later hI hJ) hlen h2 hm hR2 hRn t
    have hss : (s t : ℤ) = s' := by rw [← hv t, e1]
    exact ⟨K, by rw [hK, hss]⟩
  refine ⟨_, ?_, hval⟩
  have hthrough : ∀ t u : ℝ, ∀ j < x.length, t = x.getD j 0 → (s u ≤ j ∧ j < s u + R) →
      nv (win x (s u)) (win y (s u)) t (R - 1) 0 = y.getD j 0 := by
    intro t u j hj ht hju
    have hd : DistinctNodes (win x (s u)) R := mono_window hm (by omega) (by have := (hN u).2.2.1; omega)
    have := nev_through (Y := win y (s u)) hd (R - 1) 0 (j - s u) (by omega) (by omega) (by omega)
    have e5 : ((s u : ℤ)).toNat + (j - s u) = j := by omega
    have e6 : win x (s u) (j - s u) = t := by rw [ht]; unfold win; rw [e5]
    have e7 : win y (s u) (j - s u) = y.getD j 0 := by unfold win; rw [e5]
    rw [e6, e7] at this
    exact this
  refine LocallyFinite.continuous (f := fun k : {k : Fin x.length // ∃ u, i u = k} => {t : ℝ | Spec.Around x t k.1}) (locallyFinite_of_finite _) ?_
    (fun k => around_closed x k.1) ?_
  · ext t
    simp only [Set.mem_iUnion, Set.mem_ofPred_eq, Set.mem_univ, iff_true]
    exact ⟨⟨⟨i t, by have := (hA t).1; omega⟩, t, rfl⟩, hA t⟩
  · rintro ⟨k, u, hu⟩
    · have : ContinuousOn (fun t => nv (win x (s u)) (win y (s u)) t (R - 1) 0) {t : ℝ | Spec.Around x t k} :=
        (Polynomial.continuous _).continuousOn
      refine this.congr ?_
      intro t ht
      have hNu := hN u
      have hNt := hN t
      have hAt := hA t
      rw [hu] at hNu
      show nv _ _ t (R - 1) 0 = nv _ _ t (R - 1) 0
      rcases Nat.lt_trichotomy (i t) k with hlt | heq | hgt
      · obtain ⟨e1, e2⟩ := around_twice hm hAt ht hlt
        have hk1 := ht.1
        rw [hthrough t t k (by omega) e2 ⟨by have := hNt.1; omega, by have := hNt.2.1; omega⟩,
          hthrough t u k (by omega) e2 ⟨hNu.1, by have := hNu.2.1; omega⟩]
      · rw [heq] at hNt
        rw [nearest_even heven hNt hNu]
      · obtain ⟨e1, e2⟩ := around_twice hm ht hAt hgt
        have hk1 := hAt.1
        rw [hthrough t t (i t) (by omega) e2 ⟨hNt.1, by have := hNt.2.1; omega⟩,
          hthrough t u (i t) (by omega) e2 ⟨by have := hNu.1; omega, by have := hNu.2.1; omega⟩]

/-- The line of `C134_jump`: nodes 0, 1, 2, 3 with the values 0, 0, 0, 1. -/
lemma jump_mono : Spec.Monotone [0, 1, 2, 3] := by
  left
  simp only [List.pairwise_cons, List.mem_cons, List.not_mem_nil, or_false, forall_eq_or_imp, forall_eq, List.Pairwise.nil, and_true]
  norm_num

/-- C134: with an odd order the function jumps in the middle between two nodes: through four nodes with the values 0, 0, 0 and 1 the
parabolas give zero before 3/2 and less than -1/10 behind it. -/
theorem C134_jump : ∃ I, interpOfArrays [0, 1, 2, 3] [0, 0, 0, 1] 3 false = .ok I ∧
    (∀ t : ℝ, 1 < t → t < 3 / 2 → ∃ K, I.interpolateArray t = .ok (0, K)) ∧
    (∀ t : ℝ, 3 / 2 < t → t < 8 / 5 → ∃ v K, I.interpolateArray t = .ok (v, K) ∧ v < -(1 / 10)) := by
  obtain ⟨I, e, h⟩ := C134_array_partial (x := [0, 1, 2, 3]) (y := [0, 0, 0, 1]) (r := 3) rfl (by norm_num) jump_mono (by norm_num)
  refine ⟨I, e, ?_, ?_⟩
  · intro t h1 h2
    obtain ⟨i, s, ⟨a1, a2, a3⟩, ⟨n1, n2, n3, n4⟩, p, p1, p2, K, hK⟩ := h I .refl t
    have e3 : min (3 : ℤ).toNat [(0 : ℝ), 1, 2, 3].length = 3 := rfl
    rw [e3] at n2 n3 n4 p1 p2
    simp only [List.length_cons, List.length_nil] at a1 a2 a3 n3 n4
    have hi : i = 1 := by
      rcases (by omega : i = 0 ∨ i = 1 ∨ i = 2) with rfl | rfl | rfl
      · exfalso
        norm_num [Set.mem_uIcc] at a3
        linarith
      · rfl
      · exfalso
        norm_num [Set.mem_uIcc] at a2
        linarith
    subst hi
    have hs : s = 0 := by
      rcases (by omega : s = 0 ∨ s = 1) with rfl | rfl
      · rfl
      · exfalso
        norm_num at n4
        rw [abs_of_neg (by linarith : t - 2 < 0), abs_of_pos (by linarith : 0 < t - 1)] at n4
        linarith
    subst hs
    have hp : p = 0 := by
      refine Polynomial.eq_zero_of_natDegree_lt_card_of_eval_eq_zero p (f := fun j : Fin 3 => ((j : ℕ) : ℝ)) ?_ ?_ (by simpa using p1)
      · intro a b hab
        have : ((a : ℕ) : ℝ) = (b : ℕ) := hab
        exact Fin.ext (by exact_mod_cast this)
      · intro j
        have := p2 j (by omega) (by omega)
        fin_cases j <;> simpa using this
    refine ⟨K, ?_⟩
    rw [hK, hp]
    simp
  · intro t h1 h2
    obtain ⟨i, s, ⟨a1, a2, a3⟩, ⟨n1, n2, n3, n4⟩, p, p1, p2, K, hK⟩ := h I .refl t
    have e3 : min (3 : ℤ).toNat [(0 : ℝ), 1, 2, 3].length = 3 := rfl
    rw [e3] at n2 n3 n4 p1 p2
    simp only [List.length_cons, List.length_nil] at a1 a2 a3 n3 n4
    have hi : i = 1 := by
      rcases (by omega : i = 0 ∨ i = 1 ∨ i = 2) with rfl | rfl | rfl
      · exfalso
        norm_num [Set.mem_uIcc] at a3
        linarith
      · rfl
      · exfalso
        norm_num [Set.mem_uIcc] at a2
        linarith
    subst hi
    have hs : s = 1 := by
      rcases (by omega : s = 0 ∨ s = 1) with rfl | rfl
      · exfalso
        norm_num at n4
        rw [abs_of_neg (by linarith : t - 2 < 0), abs_of_pos (by linarith : 0 < t - 1)] at n4
        linarith
      · rfl
    subst hs
    have hp : p - C (1 / 2) * (X - 1) * (X - 2) = 0 := by
      refine Polynomial.eq_zero_of_natDegree_lt_card_of_eval_eq_zero _ (f := fun j : Fin 3 => ((j : ℕ) : ℝ) + 1) ?_ ?_ ?_
      · intro a b hab
        have : ((a : ℕ) : ℝ) = (b : ℕ) := by simpa using hab
        exact Fin.ext (by exact_mod_cast this)
      · intro j
        have := p2 (j + 1) (by omega) (by omega)
        fin_cases j
        · norm_num at this ⊢
          rw [this]
        · norm_num at this ⊢
          rw [this]
        · norm_num at this ⊢
          rw [this]
          norm_num
      · refine lt_of_le_of_lt (natDegree_sub_le _ _) (max_lt (by simpa using p1) ?_)
        have : (C (1 / 2) * (X - 1) * (X - 2) : ℝ[X]).natDegree ≤ 2 := by compute_degree
        simp only [Fintype.card_fin]
        omega
    refine ⟨_, K, hK, ?_⟩
    rw [sub_eq_zero.mp hp]
    simp only [eval_mul, eval_C, eval_sub, eval_X, eval_one, eval_ofNat]
    nlinarith

/-! ## Tables of order one, and of one node -/

lemma around_nearest {x : List ℝ} (hm : Spec.Monotone x) {t : ℝ} {i k : ℕ} (hA : Spec.Around x t i) (hk : k < x.length) :
    (k ≤ i → |t - x.getD i 0| ≤ |t - x.getD k 0|) ∧ (i < k → |t - x.getD (i + 1) 0| ≤ |t - x.getD k 0|) := by
  obtain ⟨h1, h2, h3⟩ := hA
  rw [Set.mem_uIcc] at h2 h3
  constructor
  · intro hki
    rcases Nat.eq_or_lt_of_le hki with rfl | hlt
    · exact le_rfl
    · rcases hm with h | h
      · have a1 := asc_lt h hlt (by omega)
        have a2 := asc_lt h (by omega : 0 < i) (by omega)
        have a3 : x.getD i 0 ≤ t := by rcases h2 with h2 | h2 | h2 <;> first | omega | linarith
        rw [abs_of_nonneg (by linarith), abs_of_nonneg (by linarith)]
        linarith
      · have a1 := desc_lt h hlt (by omega)
        have a2 := desc_lt h (by omega : 0 < i) (by omega)
        have a3 : t ≤ x.getD i 0 := by rcases h2 with h2 | h2 | h2 <;> first | omega | linarith
        rw [abs_of_nonpos (by linarith), abs_of_nonpos (by linarith)]
        linarith
  · intro hki
    rcases Nat.eq_or_lt_of_le (by omega : i + 1 ≤ k) with rfl | hlt
    · exact le_rfl
    · rcases hm with h | h
      · have a1 := asc_lt h hlt (by omega)
        have a2 := asc_lt h (by omega : i + 1 < x.length - 1) (by omega)
        have a3 : t ≤ x.getD (i + 1) 0 := by rcases h3 with h3 | h3 | h3 <;> first | omega | linarith
        rw [abs_of_nonpos (by linarith), abs_of_nonpos (by linarith)]
        linarith
      · have a1 := desc_lt h hlt (by omega)
        have a2 := desc_lt h (by omega : i + 1 < x.length - 1) (by omega)
        have a3 : x.getD (i + 1) 0 ≤ t := by rcases h3 with h3 | h3 | h3 <;> first | omega | linarith
        rw [abs_of_nonneg (by linarith), abs_of_nonneg (by linarith)]
        linarith

lemma around_far {x : List ℝ} (hm : Spec.Monotone x) {t : ℝ} {i : ℕ} (hA : Spec.Around x t i) (hi : i + 2 ≠ x.length) :
    |t - x.getD (x.length - 2) 0| ≤ |t - x.getD (x.length - 1) 0| := by
  obtain ⟨h1, h2, h3⟩ := hA
  rw [Set.mem_uIcc] at h3
  rcases hm with h | h
  · have a1 := asc_lt h (by omega : i + 1 < x.length - 1) (by omega)
    have a2 := asc_lt h (by omega : x.length - 2 < x.length - 1) (by omega)
    have a3 : t ≤ x.getD (i + 1) 0 := by rcases h3 with h3 | h3 | h3 <;> first | omega | linarith
    have a4 : x.getD (i + 1) 0 ≤ x.getD (x.length - 2) 0 := by
      rcases Nat.eq_or_lt_of_le (by omega : i + 1 ≤ x.length - 2) with h4 | h4
      · rw [h4]
      · exact (asc_lt h h4 (by omega)).le
    rw [abs_of_nonpos (by linarith), abs_of_nonpos (by linarith)]
    linarith
  · have a1 := desc_lt h (by omega : i + 1 < x.length - 1) (by omega)
    have a2 := desc_lt h (by omega : x.length - 2 < x.length - 1) (by omega)
    have a3 : x.getD (i + 1) 0 ≤ t := by rcases h3 with h3 | h3 | h3 <;> first | omega | linarith
    have a4 : x.getD (x.length - 2) 0 ≤ x.getD (i + 1) 0 := by
      rcases Nat.eq_or_lt_of_le (by omega : i + 1 ≤ x.length - 2) with h4 | h4
      · rw [h4]
      · exact (desc_lt h h4 (by omega)).le
    rw [abs_of_nonneg (by linarith), abs_of_nonneg (by linarith)]
    linarith

lemma order_one_eval {x y : List ℝ} {rat : Bool} {J : Interp} (hJ : ArrayTable x y 1 rat J) (hlen : x.length = y.length) (hf : J.fast = true) {t : ℝ} {i : ℕ} {a : ℤ}
    (hi : i + 1 < x.length) (ha : a = 0 ∨ a = 1) :
    ({ J with reverse := false, starti := (i : ℤ) + a } : Interp).evalAt t i =
      if a = 1 ∧ i + 2 = x.length ∧ t ≠ x.getD (i + 1) 0 then .error .outOfRange else .ok (y.getD (i + a.toNat) 0) := by
  classical
  obtain ⟨j1, j2, j3, j4, j5, j6, j7, j8, j9, j10, j11, j12⟩ := hJ
  unfold Interp.evalAt
  simp only [j1, j2, j4, j9, hf, Bool.false_and, Bool.and_false, Bool.false_eq_true, if_false, if_true]
  rw [vecWindow_ok (by omega) (by push_cast; omega), vecWindow_ok (by omega) (by push_cast; omega)]
  simp only [bind, Except.bind]
  rcases ha with rfl | rfl
  · rw [if_neg (by omega : ¬ ((0 : ℤ) = 1 ∧ _)), vecAt_ok (by omega) (by omega), vecAt_ok (by omega) (by omega)]
    simp only [add_zero]
    split_ifs with ht
    · simp
    · unfold Interp.between Interp.direction
      simp only [sub_self, if_true, bind, Except.bind, add_zero]
      rw [vecAt_ok (by omega) (by omega)]
      simp [pure, Except.pure]
  · rw [vecAt_ok (by omega) (by omega), vecAt_ok (by omega) (by omega)]
    have e1 : ((i : ℤ) + 1).toNat = i + 1 := by omega
    have e2 : (1 : ℤ).toNat = 1 := rfl
    simp only [e1, e2, true_and]
    by_cases ht : t = x.getD (i + 1) 0
    · rw [if_pos ht, if_neg (by tauto)]
    · rw [if_neg ht]
      unfold Interp.between Interp.direction
      have e3 : (i : ℤ) + 1 - i = 1 := by ring
      simp only [e3]
      rw [if_neg (by norm_num : ¬ (1 : ℤ) = 0), if_neg (by norm_num : ¬ (1 : ℤ) = ((1 : ℕ) : ℤ) - 1), vecAt_ok (by omega) (by omega)]
      by_cases hn : i + 2 = x.length
      · rw [if_pos ⟨hn, ht⟩, vecAt_err (by omega)]
        rfl
      · rw [if_neg (by tauto), vecAt_ok (by omega) (by omega), vecAt_ok (by omega) (by omega)]
        simp only [bind, Except.bind, pure, Except.pure, e1]
        rfl

/-- C134: a table of order 1, which the constructor makes of every order up to 1, gives the value at the nearest node; but where this is the
last node and the point is none of the nodes, the call throws `std::out_of_range`. -/
theorem C134_order_one {x y : List ℝ} {r : ℤ} {rational : Bool} (hlen : x.length = y.length) (h2 : 2 ≤ x.length) (hm : Spec.Monotone x) (hr : r ≤ 1) :
    ∃ I, interpOfArrays x y r rational = .ok I ∧ ∀ J, Spec.Calls I J → J.fast = true → ∀ t,
      (|t - x.getD (x.length - 1) 0| < |t - x.getD (x.length - 2) 0| → t ≠ x.getD (x.length - 1) 0 →
        J.interpolateArray t = .error .outOfRange) ∧
      (t = x.getD (x.length - 1) 0 ∨ |t - x.getD (x.length - 2) 0| < |t - x.getD (x.length - 1) 0| →
        ∃ j < x.length, (∀ k < x.length, |t - x.getD j 0| ≤ |t - x.getD k 0|) ∧ ∃ K, J.interpolateArray t = .ok (y.getD j 0, K)) := by
  obtain ⟨I, e, hI, -⟩ := ofArrays_ok r rational hlen h2 hm
  refine ⟨I, e, fun J hJ hf t => ?_⟩
  have hR : Spec.order r x.length = 1 := by unfold Spec.order; omega
  rw [hR] at hI
  have hJ' := array_later hI hJ
  obtain ⟨i, a, hA, ha, e1, e2⟩ := locate_neighbours hm h2 1 t
  have hi := hA.1
  have ha' : a = 0 ∨ a = 1 := by tauto
  have e3 : (locateNodes x x.length 1 t).2 = i := by
    rw [e2]
    have : (((1 : ℕ) : ℤ) - 1 - a).tdiv 2 = 0 := by rcases ha' with rfl | rfl <;> rfl
    simp only [this]
    split_ifs <;> omega
  have key := order_one_eval hJ' hlen hf (t := t) hi ha'
  have hval : J.interpolateArray t = (do
      let r ← (if a = 1 ∧ i + 2 = x.length ∧ t ≠ x.getD (i + 1) 0 then .error .outOfRange else .ok (y.getD (i + a.toNat) 0) : Except ItpErr ℝ)
      return (r, ({ J with reverse := false, starti := (i : ℤ) + a } : Interp))) := by
    rw [← key]
    unfold Interp.interpolateArray
    obtain ⟨j1, j2, j3, j4, j5, j6, j7, j8, j9, j10, j11, j12⟩ := hJ'
    simp only [j1, j3, j4, e1, e3]
  have hne : x.getD (x.length - 2) 0 ≠ x.getD (x.length - 1) 0 := fun h => by
    have := mono_ne hm (by omega) (by omega) h
    omega
  constructor
  · intro h3 h4
    have hi2 : i + 2 = x.length := by
      by_contra hc
      have := around_far hm hA hc
      linarith
    have e5 : x.length - 1 = i + 1 := by omega
    have e6 : x.length - 2 = i := by omega
    rw [e5, e6] at h3
    rw [e5] at h4
    have ha1 : a = 1 := by
      rcases ha with ⟨-, h⟩ | ⟨h, -⟩
      · linarith
      · exact h
    rw [hval, if_pos ⟨ha1, hi2, h4⟩]
    rfl
  · intro h3
    have hno : ¬ (a = 1 ∧ i + 2 = x.length ∧ t ≠ x.getD (i + 1) 0) := by
      rintro ⟨ha1, hi2, hne'⟩
      have e5 : x.length - 1 = i + 1 := by omega
      have e6 : x.length - 2 = i := by omega
      rw [e5, e6] at h3
      rcases h3 with h3 | h3
      · exact hne' h3
      · rcases ha with ⟨h, -⟩ | ⟨-, h⟩
        · omega
        · linarith
    refine ⟨i + a.toNat, by omega, ?_, ?_⟩
    · intro k hk
      obtain ⟨b1, b2⟩ := around_nearest hm hA hk
      rcases ha with ⟨rfl, h⟩ | ⟨rfl, h⟩
      · show |t - x.getD i 0| ≤ _
        rcases Nat.lt_or_ge i k with h5 | h5
        · exact h.trans (b2 h5)
        · exact b1 h5
      · show |t - x.getD (i + 1) 0| ≤ _
        rcases Nat.lt_or_ge i k with h5 | h5
        · exact b2 h5
        · exact h.trans (b1 h5)
    · rw [hval, if_neg hno]
      exact ⟨_, rfl⟩

lemma single_eval {a b : ℝ} (K : Interp) (t : ℝ) (h1 : K.romberg = 1) (h2 : K.iX = [a]) (h3 : K.iY = [b]) (h4 : K.logSubst = false)
    (h5 : K.starti = 0) : K.evalAt t 0 = .ok b := by
  classical
  have hb : ∀ num : ℤ, num = 0 → ∀ X Y : ℕ → ℝ, K.between false t 0 num X Y = .ok b := by
    rintro _ rfl X Y
    unfold Interp.between Interp.direction
    simp only [if_true, h1, h3]
    rw [vecAt_ok (by omega) (by simp)]
    simp [bind, Except.bind, pure, Except.pure]
  unfold Interp.evalAt
  simp only [h1, h2, h3, h4, h5, Bool.false_and, Bool.false_eq_true, if_false]
  rw [vecWindow_ok (by omega) (by simp), vecWindow_ok (by omega) (by simp), vecAt_ok (by omega) (by simp), vecAt_ok (by omega) (by simp)]
  simp only [bind, Except.bind]
  split_ifs with hf ht
  · rfl
  · rw [hb _ (by omega)]
    rfl
  · have hn := nearestNode_lt (fun j => [a].getD ((0 : ℤ).toNat + j) 0) t 1 (by omega)
    generalize hfind : List.find? _ (List.range 1) = o
    cases o with
    | some j =>
      have h5 := List.mem_of_find?_eq_some hfind
      rw [List.mem_range] at h5
      have : j = 0 := by omega
      subst this
      rfl
    | none =>
      dsimp only
      rw [hb _ (by omega)]
      rfl

/-- C134: a table of one node is constant. -/
theorem C134_single (a b : ℝ) (r : ℤ) (rational : Bool) :
    ∃ I, interpOfArrays [a] [b] r rational = .ok I ∧ ∀ J, Spec.Calls I J → ∀ t, ∃ K, J.interpolateArray t = .ok (b, K) := by
  classical
  have hor : ∀ q : ℤ, (if (if q ≤ 0 then 1 else q) > 1 then 1 else (if q ≤ 0 then 1 else q)).toNat = 1 := by
    intro q
    split_ifs <;> omega
  obtain ⟨I, e, h1, h2, h3, h4, h5, h6, h7⟩ : ∃ I, interpOfArrays [a] [b] r rational = .ok I ∧ I.iX = [a] ∧ I.iY = [b] ∧ I.max = 1 ∧
      I.romberg = 1 ∧ I.logSubst = false ∧ I.ySave = itpLog I.xSave ∧ I.rational = rational := by
    unfold interpOfArrays
    rw [vecAt_ok (by norm_num) (by norm_num), vecAt_ok (by norm_num) (by norm_num)]
    simp only [initInterp, bind, Except.bind, pure, Except.pure, fillVec]
    norm_num
    exact ⟨hor r, itpLog_one.symm⟩
  refine ⟨I, e, fun J hJ t => ?_⟩
  obtain ⟨s1, s2, s3, s4, s5, s6, s7, s8, s9, s10, s11, s12, s13, s14⟩ := later_same h6 hJ
  rw [h4] at s1
  rw [h1] at s3
  rw [h2] at s4
  rw [h3] at s5
  rw [h5] at s13
  have hl : locateNodes [a] 1 1 t = (0, 0) := by
    unfold locateNodes bisectNodes
    simp
  have e2 : locateNodes J.iX J.max J.romberg t = (0, 0) := by rw [s1, s3, s5, hl]
  unfold Interp.interpolateArray
  simp only [e2]
  have key := single_eval { J with reverse := false, starti := 0 } t s1 s3 s4 s13 rfl
  rw [key]
  exact ⟨_, rfl⟩

/-- C134: vectors of different lengths, and two or more nodes of which the first and the last are equal, are rejected; but one abscissa
without an ordinate is accepted. -/
theorem C134_rejected {x y : List ℝ} (r : ℤ) (rational : Bool)
    (h : x.length ≠ y.length ∧ 0 < y.length ∨ 2 ≤ x.length ∧ x.getD 0 0 = x.getD (x.length - 1) 0) :
    interpOfArrays x y r rational = .error .outOfRange ∧ ∃ I, interpOfArrays [1] [] r rational = .ok I := by
  constructor
  swap
  · unfold interpOfArrays
    rw [vecAt_ok (by norm_num) (by norm_num), vecAt_ok (by norm_num) (by norm_num)]
    simp [initInterp, bind, Except.bind, pure, Except.pure, fillVec]
  unfold interpOfArrays
  rcases Nat.eq_zero_or_pos x.length with h0 | h0
  · rw [vecAt_err (by omega)]
    rfl
  · rw [vecAt_ok (by omega) (by omega), vecAt_ok (by omega) (by omega)]
    have e1 : (0 : ℤ).toNat = 0 := rfl
    have e2 : ((x.length : ℤ) - 1).toNat = x.length - 1 := by omega
    simp only [e1, e2, bind, Except.bind]
    have hmax : ∀ u v : ℝ, (initInterp ((min x.length y.length : ℕ) : ℤ) u v r rational false r rational false).max =
        if u = v then 1 else max 1 (min x.length y.length) := by
      intro u v
      unfold initInterp
      simp only [Bool.false_eq_true, false_and, if_false]
      split_ifs <;> first | rfl | omega
    rw [hmax]
    unfold fillVec
    by_cases hx : x.length ≤ (if x.getD 0 0 = x.getD (x.length - 1) 0 then 1 else max 1 (min x.length y.length))
    · rw [if_pos hx]
      dsimp only
      rw [if_neg]
      rcases h with ⟨h, h'⟩ | ⟨h, h'⟩
      · split_ifs at hx ⊢
        · omega
        · omega
      · rw [if_pos h'] at hx
        omega
    · rw [if_neg hx]

/-- The hypotheses of `C134_polynomials` are met by a table of squares, read at every point. -/
example : ∃ I, interpOfArrays [0, 1, 2, 3] [0, 1, 4, 9] 3 false = .ok I ∧
    ∀ J, Spec.Calls I J → ∀ t, ∃ K, J.interpolateArray t = .ok (t ^ 2, K) := by
  obtain ⟨I, e, h⟩ := C134_polynomials (x := [0, 1, 2, 3]) (y := [0, 1, 4, 9]) (r := 3) rfl (by norm_num) jump_mono (by norm_num)
    (X ^ 2) (by simp) (by
      intro j hj
      simp only [List.length_cons, List.length_nil] at hj
      have : j = 0 ∨ j = 1 ∨ j = 2 ∨ j = 3 := by omega
      rcases this with rfl | rfl | rfl | rfl <;> norm_num)
  refine ⟨I, e, fun J hJ t => ?_⟩
  simpa using h J hJ t

/-- The hypotheses of `C134_array_partial` and of `C134_continuous` are met by a table in descending order. -/
example : ∃ I, interpOfArrays [3, 2, 1] [5, 5, 7] 2 false = .ok I ∧ ∃ g : ℝ → ℝ, Continuous g ∧
    ∀ J, Spec.Calls I J → ∀ t, ∃ K, J.interpolateArray t = .ok (g t, K) :=
  C134_continuous rfl (by norm_num) (by right; norm_num) (by norm_num) (by decide)

/-- The exception of `C134_order_one` in a table of two nodes. -/
example : ∃ I, interpOfArrays [0, 1] [5, 7] 1 false = .ok I ∧ I.interpolateArray (3 / 4) = .error .outOfRange := by
  obtain ⟨I, e, h⟩ := C134_order_one (x := [0, 1]) (y := [5, 7]) (r := 1) (rational := false) rfl (by norm_num) (by left; norm_num) le_rfl
  refine ⟨I, e, (h I .refl ?_ _).1 ?_ ?_⟩
  · unfold interpOfArrays at e
    obtain ⟨_, -, e⟩ := exc_bind e
    obtain ⟨_, -, e⟩ := exc_bind e
    obtain ⟨_, -, e⟩ := exc_bind e
    obtain ⟨_, -, e⟩ := exc_bind e
    simp only [pure, Except.pure, Except.ok.injEq] at e
    rw [← e]
    rfl
  · norm_num [abs_of_neg, abs_of_pos]
  · norm_num

end Proposal
