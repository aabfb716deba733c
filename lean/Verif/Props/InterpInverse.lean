import Verif.Props.InterpGrid

/-!
# C136: the inverse of tables of one variable
-/

open Polynomial

namespace Proposal

open Classical in
/-- The nearest number in an interval. -/
noncomputable def Spec.clip (a b r : ℝ) : ℝ := if r < a then a else if r > b then b else r

lemma clip_mem {a b r : ℝ} (h : a ≤ b) : a ≤ Spec.clip a b r ∧ Spec.clip a b r ≤ b := by
  unfold Spec.clip
  split_ifs with h1 h2
  · exact ⟨le_rfl, h⟩
  · exact ⟨h, le_rfl⟩
  · exact ⟨not_lt.mp h1, not_lt.mp h2⟩

lemma clip_self {a b r : ℝ} (h1 : a ≤ r) (h2 : r ≤ b) : Spec.clip a b r = r := by
  unfold Spec.clip
  rw [if_neg (not_lt.mpr h1), if_neg (not_lt.mpr h2)]

/-- The value of `FindLimit`. -/
lemma findLimit_value {J : Interp} {R : ℕ} (hrat : J.rational = false) (hratY : J.rationalY = false ∨ J.fast = true) (hR : J.rombergY = R)
    (hX : J.iX.length = J.max) (hY : J.iY.length = J.max) (h2 : 2 ≤ J.max) (hm : Spec.Monotone J.iY) (hR2 : 2 ≤ R) (hRn : R ≤ J.max) (y : ℝ) :
    ∃ i s : ℕ, Spec.Around J.iY (if J.logSubst then itpLog y else y) i ∧ Spec.Nearest J.iY (if J.logSubst then itpLog y else y) R s i ∧
      ∃ K, J.findLimit y = .ok (let r := Spec.clip J.xmin J.xmax (nv (win J.iY s) (win J.iX s) (if J.logSubst then itpLog y else y) (R - 1) 0)
        if J.isLog then itpExp r else r, K) := by
  set u := if J.logSubst then itpLog y else y with hu
  obtain ⟨i, s, hA, hN, e1, e2, e3⟩ := locate_window hm (by omega) hR2 (by omega) u
  refine ⟨i, s, hA, hN, ?_⟩
  have hs := hN.2.2.1
  rw [hY] at e1 e2 e3
  have hsr : ({ J with reverse := false, starti := (locateNodes J.iY J.max J.rombergY u).1 } : Interp).swapped.rational = false := by
    unfold Interp.swapped
    dsimp only
    rcases hratY with h | h
    · split_ifs
      · exact hrat
      · exact h
    · rw [if_pos h]
      exact hrat
  have key := evalAt_poly ({ J with reverse := false, starti := (locateNodes J.iY J.max J.rombergY u).1 } : Interp).swapped hsr
    (by simp [Interp.swapped]) u (start := s) (by omega) (by simp only [Interp.swapped, hR]; omega) (by simp only [Interp.swapped, hR]; omega)
    (by simp only [Interp.swapped, hR]; omega) (by simp only [Interp.swapped, hR]; exact e2) (by simp only [Interp.swapped, hR]; exact e3)
    (by simp only [Interp.swapped, hR]; exact mono_window hm (by omega) (by omega))
  unfold Interp.findLimit
  simp only [bind, Except.bind, ← hu]
  have e4 : (locateNodes J.iY J.max J.rombergY u).2 = s := by rw [hR]; exact e1
  rw [e4, key]
  simp only [Interp.swapped, hR]
  exact ⟨_, rfl⟩

/-- C136: `FindLimit` in a table of vectors gives the polynomial through the nodes, with abscissae and ordinates exchanged, next to the
argument; results outside of the table are moved to its end. -/
theorem C136_arrays {x y : List ℝ} {r : ℤ} (hlen : x.length = y.length) (h2 : 2 ≤ x.length) (hmx : Spec.Monotone x) (hmy : Spec.Monotone y) (hr : 2 ≤ r) :
    ∃ I, interpOfArrays x y r false = .ok I ∧ ∀ J, Spec.Calls I J → ∀ u,
      ∃ i s : ℕ, Spec.Around y u i ∧ Spec.Nearest y u (min r.toNat x.length) s i ∧
        ∃ p : ℝ[X], p.natDegree < min r.toNat x.length ∧
          (∀ j, s ≤ j → j < s + min r.toNat x.length → p.eval (y.getD j 0) = x.getD j 0) ∧
          ∃ K, J.findLimit u = .ok (Spec.clip (min (x.getD 0 0) (x.getD (x.length - 1) 0)) (max (x.getD 0 0) (x.getD (x.length - 1) 0)) (p.eval u), K) := by
  obtain ⟨I, e, hI, -⟩ := ofArrays_ok r false hlen h2 hmx
  refine ⟨I, e, fun J hJ u => ?_⟩
  have hR : Spec.order r x.length = min r.toNat x.length := by unfold Spec.order; omega
  rw [hR] at hI
  obtain ⟨j1, j2, j3, j4, j5, j6, j7, j8, j9, j10, j11, j12⟩ := array_later hI hJ
  obtain ⟨i, s, hA, hN, K, hK⟩ := findLimit_value j6 (Or.inl j7) j5 (by rw [j1, j3]) (by rw [j2, j3, hlen]) (by omega) (by rw [j2]; exact hmy) (by omega) (by omega) u
  rw [j2, j9] at hA hN
  rw [j1, j2, j8, j9, j10, j11] at hK
  obtain ⟨p, p1, p2, p3⟩ := poly_of_nv (X := win y s) (Y := win x s) (by omega : 1 ≤ min r.toNat x.length)
    (mono_window hmy (by omega) (by have := hN.2.2.1; omega)) u
  refine ⟨i, s, hA, hN, p, p1, ?_, K, ?_⟩
  · intro j h3 h4
    have := p2 (j - s) (by omega)
    unfold win at this
    have e5 : ((s : ℤ)).toNat + (j - s) = j := by omega
    rwa [e5] at this
  · rw [hK, ← p3]
    rfl

lemma mono_range {x : List ℝ} (hm : Spec.Monotone x) {j : ℕ} (hj : j < x.length) :
    min (x.getD 0 0) (x.getD (x.length - 1) 0) ≤ x.getD j 0 ∧ x.getD j 0 ≤ max (x.getD 0 0) (x.getD (x.length - 1) 0) := by
  rcases hm with h | h
  · have a1 : x.getD 0 0 ≤ x.getD j 0 := by
      rcases Nat.eq_zero_or_pos j with rfl | h0
      · exact le_rfl
      · exact (asc_lt h h0 hj).le
    have a2 : x.getD j 0 ≤ x.getD (x.length - 1) 0 := by
      rcases Nat.eq_or_lt_of_le (by omega : j ≤ x.length - 1) with h0 | h0
      · rw [h0]
      · exact (asc_lt h h0 (by omega)).le
    exact ⟨min_le_of_left_le a1, le_max_of_le_right a2⟩
  · have a1 : x.getD j 0 ≤ x.getD 0 0 := by
      rcases Nat.eq_zero_or_pos j with rfl | h0
      · exact le_rfl
      · exact (desc_lt h h0 hj).le
    have a2 : x.getD (x.length - 1) 0 ≤ x.getD j 0 := by
      rcases Nat.eq_or_lt_of_le (by omega : j ≤ x.length - 1) with h0 | h0
      · rw [h0]
      · exact (desc_lt h h0 (by omega)).le
    exact ⟨min_le_of_right_le a2, le_max_of_le_left a1⟩

/-- C136: at a tabulated ordinate `FindLimit` gives its abscissa. -/
theorem C136_nodes {x y : List ℝ} {r : ℤ} (hlen : x.length = y.length) (h2 : 2 ≤ x.length) (hmx : Spec.Monotone x) (hmy : Spec.Monotone y) (hr : 2 ≤ r) :
    ∃ I, interpOfArrays x y r false = .ok I ∧ ∀ J, Spec.Calls I J → ∀ j < x.length, ∃ K, J.findLimit (y.getD j 0) = .ok (x.getD j 0, K) := by
  obtain ⟨I, e, h⟩ := C136_arrays hlen h2 hmx hmy hr
  refine ⟨I, e, fun J hJ j hj => ?_⟩
  obtain ⟨i, s, hA, hN, p, -, p2, K, hK⟩ := h J hJ (y.getD j 0)
  obtain ⟨n1, n2, n3, -⟩ := hN
  have := around_node hmy (by omega) hA
  obtain ⟨c1, c2⟩ := mono_range hmx hj
  exact ⟨K, by rw [hK, p2 j (by omega) (by omega), clip_self c1 c2]⟩

lemma mono_linear {x y : List ℝ} {a b : ℝ} (hlen : x.length = y.length) (hm : Spec.Monotone x) (ha : a ≠ 0)
    (hy : ∀ j < x.length, y.getD j 0 = a * x.getD j 0 + b) : Spec.Monotone y := by
  have hget : ∀ i j : ℕ, i < y.length → j < y.length → y.getD i 0 - y.getD j 0 = a * (x.getD i 0 - x.getD j 0) := by
    intro i j hi hj
    rw [hy i (by omega), hy j (by omega)]
    ring
  have key : ∀ i j : ℕ, i < j → j < y.length → (0 < a * (x.getD j 0 - x.getD i 0) → y.getD i 0 < y.getD j 0) ∧
      (a * (x.getD j 0 - x.getD i 0) < 0 → y.getD j 0 < y.getD i 0) := by
    intro i j hij hj
    have := hget j i hj (by omega)
    exact ⟨fun h => by linarith, fun h => by linarith⟩
  rcases hm with h | h <;> rcases lt_or_gt_of_ne ha with h0 | h0
  · right
    rw [List.pairwise_iff_getElem]
    intro i j hi hj hij
    have := (key i j hij hj).2 (mul_neg_of_neg_of_pos h0 (by have := asc_lt h hij (by omega); linarith))
    rwa [getD_at y hj, getD_at y hi] at this
  · left
    rw [List.pairwise_iff_getElem]
    intro i j hi hj hij
    have := (key i j hij hj).1 (mul_pos h0 (by have := asc_lt h hij (by omega); linarith))
    rwa [getD_at y hj, getD_at y hi] at this
  · left
    rw [List.pairwise_iff_getElem]
    intro i j hi hj hij
    have := (key i j hij hj).1 (mul_pos_of_neg_of_neg h0 (by have := desc_lt h hij (by omega); linarith))
    rwa [getD_at y hj, getD_at y hi] at this
  · right
    rw [List.pairwise_iff_getElem]
    intro i j hi hj hij
    have := (key i j hij hj).2 (mul_neg_of_pos_of_neg h0 (by have := desc_lt h hij (by omega); linarith))
    rwa [getD_at y hj, getD_at y hi] at this

/-- C136: in a table of a linear function `FindLimit` is the inverse of `InterpolateArray` between the ends of the table, and gives the
nearer end beyond them. -/
theorem C136_linear {x y : List ℝ} {r : ℤ} {a b : ℝ} (hlen : x.length = y.length) (h2 : 2 ≤ x.length) (hmx : Spec.Monotone x) (hr : 2 ≤ r)
    (ha : a ≠ 0) (hy : ∀ j < x.length, y.getD j 0 = a * x.getD j 0 + b) :
    ∃ I, interpOfArrays x y r false = .ok I ∧ ∀ J, Spec.Calls I J → ∀ t, ∃ v K L, J.interpolateArray t = .ok (v, K) ∧
      K.findLimit v = .ok (max (min (x.getD 0 0) (x.getD (x.length - 1) 0)) (min (max (x.getD 0 0) (x.getD (x.length - 1) 0)) t), L) := by
  obtain ⟨I, e, h⟩ := C136_arrays hlen h2 hmx (mono_linear hlen hmx ha hy) hr
  obtain ⟨I', e', h'⟩ := C134_polynomials hlen h2 hmx hr (C a * X + C b) (by
    have : (C a * X + C b : ℝ[X]).natDegree ≤ 1 := by compute_degree
    omega) (fun j hj => by rw [hy j hj]; simp)
  rw [e, Except.ok.injEq] at e'
  subst e'
  refine ⟨I, e, fun J hJ t => ?_⟩
  obtain ⟨K, hK⟩ := h' J hJ t
  obtain ⟨i, s, hA, hN, p, p1, p2, L, hL⟩ := h K (.array hJ hK) ((C a * X + C b : ℝ[X]).eval t)
  refine ⟨_, K, L, hK, ?_⟩
  have hs := hN.2.2.1
  have hq : (C (1 / a) * X - C (b / a) : ℝ[X]).natDegree ≤ 1 := by compute_degree
  have hp : p - (C (1 / a) * X - C (b / a)) = 0 := by
    refine Polynomial.eq_zero_of_natDegree_lt_card_of_eval_eq_zero _ (f := fun j : Fin (min r.toNat x.length) => y.getD (s + j) 0) ?_ ?_ ?_
    · intro j k hjk
      have hj := j.2
      have hk := k.2
      have := mono_ne (mono_linear hlen hmx ha hy) (by omega) (by omega) hjk
      exact Fin.ext (by omega)
    · intro j
      have hj := j.2
      rw [eval_sub, p2 (s + j) (by omega) (by omega), hy _ (by omega)]
      simp only [eval_sub, eval_mul, eval_C, eval_X]
      field_simp
      ring
    · rw [Fintype.card_fin]
      refine lt_of_le_of_lt (natDegree_sub_le _ _) (max_lt p1 (by omega))
  rw [hL, sub_eq_zero.mp hp]
  have hev : (C (1 / a) * X - C (b / a) : ℝ[X]).eval ((C a * X + C b : ℝ[X]).eval t) = t := by
    simp only [eval_sub, eval_add, eval_mul, eval_C, eval_X]
    field_simp
    ring
  rw [hev]
  congr 2
  unfold Spec.clip
  have hmm : min (x.getD 0 0) (x.getD (x.length - 1) 0) ≤ max (x.getD 0 0) (x.getD (x.length - 1) 0) := min_le_max
  generalize min (x.getD 0 0) (x.getD (x.length - 1) 0) = lo at *
  generalize max (x.getD 0 0) (x.getD (x.length - 1) 0) = hi at *
  split_ifs with h3 h4
  · rw [min_eq_right (by linarith), max_eq_left h3.le]
  · rw [min_eq_left h4.le, max_eq_right hmm]
  · rw [min_eq_right (by linarith), max_eq_right (by linarith)]

/-! ## Tables of functions -/

lemma ofFunction_more {n : ℕ} {xmin xmax : ℝ} (f : ℝ → ℝ) (r : ℤ) (rational isLog : Bool) (rY : ℤ) (rationalY logSubst : Bool) (hn : 1 ≤ n)
    (hlt : xmin < xmax) (hlog : isLog = true → 0 < xmin) :
    (interpOfFunction n xmin xmax f r rational isLog rY rationalY logSubst).rombergY = Spec.order rY n ∧
    (interpOfFunction n xmin xmax f r rational isLog rY rationalY logSubst).rationalY = rationalY ∧
    (interpOfFunction n xmin xmax f r rational isLog rY rationalY logSubst).xmin = Spec.scale isLog xmin ∧
    (interpOfFunction n xmin xmax f r rational isLog rY rationalY logSubst).xmax = Spec.scale isLog xmax ∧
    (interpOfFunction n xmin xmax f r rational isLog rY rationalY logSubst).isLog = isLog ∧
    (interpOfFunction n xmin xmax f r rational isLog rY rationalY logSubst).ySave =
      itpLog (interpOfFunction n xmin xmax f r rational isLog rY rationalY logSubst).xSave := by
  obtain ⟨i1, i2, i3, i4, i5, i6, i7, i8, i9, i10, i11, i12, i13, i14, i15, i16⟩ := init_order (max := (n : ℤ)) (xmin := xmin) (xmax := xmax) r rational isLog rY rationalY
    logSubst (by omega) (fun h => ⟨hlog h, (hlog h).trans hlt⟩) hlt.ne
  rw [min_eq_left hlt.le] at i4
  rw [max_eq_right hlt.le] at i5
  rw [show ((n : ℤ)).toNat = n by omega] at i2
  exact ⟨i2, i8, i4, i5, i10, i13⟩

lemma findLimit_clip {J K : Interp} {y v : ℝ} (h : J.findLimit y = .ok (v, K)) :
    ∃ r, v = if J.isLog then itpExp (Spec.clip J.xmin J.xmax r) else Spec.clip J.xmin J.xmax r := by
  unfold Interp.findLimit at h
  obtain ⟨r, -, h⟩ := exc_bind h
  simp only [pure, Except.pure, Except.ok.injEq, Prod.mk.injEq] at h
  exact ⟨r, h.1.symm⟩

/-- C136: whatever the function, the flags and the argument are, `FindLimit` gives a number between the ends of the table or an exception.
The ends of a table in logarithms are assumed to be above `exp(-299)`. -/
theorem C136_range {n : ℕ} {xmin xmax : ℝ} (f : ℝ → ℝ) (r : ℤ) (rational isLog : Bool) (rY : ℤ) (rationalY logSubst : Bool) (hn : 1 ≤ n)
    (hlt : xmin < xmax) (hlog : isLog = true → Real.exp (-299) < xmin) {J K : Interp}
    (hJ : Spec.Calls (interpOfFunction n xmin xmax f r rational isLog rY rationalY logSubst) J) {y v : ℝ} (h : J.findLimit y = .ok (v, K)) :
    xmin ≤ v ∧ v ≤ xmax := by
  have hlog' : isLog = true → 0 < xmin := fun h => (Real.exp_pos _).trans (hlog h)
  obtain ⟨-, -, i1, i2, i3, i4⟩ := ofFunction_more f r rational isLog rY rationalY logSubst hn hlt hlog'
  obtain ⟨s1, s2, s3, s4, s5, s6, s7, s8, s9, s10, s11, s12, s13, s14⟩ := later_same i4 hJ
  obtain ⟨w, hw⟩ := findLimit_clip h
  rw [s12, i3, s6, i1, s7, i2] at hw
  have hab := scale_lt hlt hlog'
  obtain ⟨c1, c2⟩ := clip_mem (r := w) hab.le
  subst hw
  cases isLog with
  | false =>
    simp only [Bool.false_eq_true, if_false]
    exact ⟨c1, c2⟩
  | true =>
    have h0 := hlog' rfl
    simp only [Spec.scale, if_true] at c1 c2 ⊢
    unfold itpExp expCutoff
    rw [if_neg]
    · constructor
      · calc xmin = Real.exp (Real.log xmin) := (Real.exp_log h0).symm
          _ ≤ _ := Real.exp_le_exp.mpr c1
      · calc _ ≤ Real.exp (Real.log xmax) := Real.exp_le_exp.mpr c2
          _ = xmax := Real.exp_log (h0.trans hlt)
    · push Not
      refine lt_of_lt_of_le ?_ c1
      rw [Real.lt_log_iff_exp_lt h0]
      exact hlog rfl

lemma node_mem {a b : ℝ} {n j : ℕ} (hlt : a < b) (hj : j < n) : a ≤ Spec.node a b n j ∧ Spec.node a b n j ≤ b := by
  have hn0 : (0 : ℝ) < n := by exact_mod_cast (by omega : 0 < n)
  have hd : 0 < (b - a) / n := by apply div_pos _ hn0; linarith
  have hj' : (j : ℝ) + 1 ≤ n := by exact_mod_cast hj
  unfold Spec.node
  constructor
  · have : 0 ≤ ((j : ℝ) + 1 / 2) * ((b - a) / n) := by positivity
    linarith
  · have h1 : ((j : ℝ) + 1 / 2) * ((b - a) / n) ≤ n * ((b - a) / n) := mul_le_mul_of_nonneg_right (by linarith) hd.le
    rw [mul_div_cancel₀ _ hn0.ne'] at h1
    linarith

/-- C136: in a table of a function whose values at the nodes, or the logarithms of these, ascend or descend, `FindLimit` gives the node for
the value at a node. -/
theorem C136_function_nodes {n : ℕ} {xmin xmax : ℝ} (f : ℝ → ℝ) (r : ℤ) (isLog : Bool) (rY : ℤ) (logSubst : Bool) (hn : 2 ≤ n)
    (hlt : xmin < xmax) (hlog : isLog = true → Real.exp (-299) < xmin) (hrY : 2 ≤ rY) (z : ℕ → ℝ)
    (hz : ∀ j, (isLog = true → 0 < z j) ∧ Spec.scale isLog (z j) = Spec.node (Spec.scale isLog xmin) (Spec.scale isLog xmax) n j)
    (hpos : logSubst = true → ∀ j < n, 0 < f (z j)) (hmono : (∀ i j, i < j → j < n → f (z i) < f (z j)) ∨ (∀ i j, i < j → j < n → f (z j) < f (z i)))
    {J : Interp} (hJ : Spec.Calls (interpOfFunction n xmin xmax f r false isLog rY false logSubst) J) {j : ℕ} (hj : j < n) :
    ∃ K, J.findLimit (f (z j)) = .ok (z j, K) := by
  have hlog' : isLog = true → 0 < xmin := fun h => (Real.exp_pos _).trans (hlog h)
  have hI := ofFunction_ok (n := n) f r isLog rY false logSubst (by omega) hlt hlog'
  obtain ⟨m1, m2, m3, m4, m5, m6⟩ := ofFunction_more f r false isLog rY false logSubst (by omega : 1 ≤ n) hlt hlog'
  obtain ⟨s1, s2, s3, s4, s5, s6, s7, s8, s9, s10, s11, s12, s13, s14⟩ := later_same hI.save hJ
  obtain ⟨j1, j2, j3, j4, j5, j6, j7, j8, j9, j10, j11⟩ := grid_later hI hJ
  have hab := scale_lt hlt hlog'
  have hzz : ∀ j, (if isLog then Real.exp (Spec.node (Spec.scale isLog xmin) (Spec.scale isLog xmax) n j)
          else Spec.node (Spec.scale isLog xmin) (Spec.scale isLog xmax) n j) = z j := by
    intro j
    rw [← (hz j).2]
    have := (hz j).1
    cases isLog with
    | false => rfl
    | true => exact Real.exp_log (this rfl)
  simp only [hzz] at j6
  have hY : ∀ k < n, J.iY.getD k 0 = if logSubst then Real.log (f (z k)) else f (z k) := by
    intro k hk
    rw [j6, getD_map hk]
    cases logSubst with
    | false => rfl
    | true =>
      simp only [if_true]
      unfold itpLog
      rw [if_neg (not_le.mpr (hpos rfl k hk))]
  have hYl : J.iY.length = n := by rw [j6]; simp
  have hm : Spec.Monotone J.iY := by
    have hlt' : ∀ u v : ℕ, u < n → f (z u) < f (z v) → (if logSubst then Real.log (f (z u)) else f (z u)) < (if logSubst then Real.log (f (z v)) else f (z v)) := by
      intro u v hu h
      cases logSubst with
      | false => exact h
      | true => exact Real.log_lt_log (hpos rfl u hu) h
    rcases hmono with h | h
    · left
      rw [List.pairwise_iff_getElem]
      intro i k hi hk hik
      rw [← getD_at J.iY hi, ← getD_at J.iY hk, hY i (by omega), hY k (by omega)]
      exact hlt' i k (by omega) (h i k hik (by omega))
    · right
      rw [List.pairwise_iff_getElem]
      intro i k hi hk hik
      rw [← getD_at J.iY hi, ← getD_at J.iY hk, hY i (by omega), hY k (by omega)]
      exact hlt' k i (by omega) (h i k hik (by omega))
  have hu : (if J.logSubst then itpLog (f (z j)) else f (z j)) = J.iY.getD j 0 := by
    rw [hY j hj, j9]
    cases logSubst with
    | false => rfl
    | true =>
      simp only [if_true]
      unfold itpLog
      rw [if_neg (not_le.mpr (hpos rfl j hj))]
  have hR : Spec.order rY n = min rY.toNat n := by unfold Spec.order; omega
  obtain ⟨i, s, hA, hN, K, hK⟩ := findLimit_value (R := Spec.order rY n) j7 (Or.inl (s10.trans m2)) (s2.trans m1) (by rw [j5, j1]; simp) (by rw [hYl, j1]) (by omega) hm
    (by omega) (by omega) (f (z j))
  refine ⟨K, ?_⟩
  rw [hu] at hA hN hK
  have hij := around_node hm (by omega) hA
  obtain ⟨n1, n2, n3, -⟩ := hN
  have hd : DistinctNodes (win J.iY s) (Spec.order rY n) := mono_window hm (by omega) (by omega)
  have hthrough := nev_through (Y := win J.iX s) hd (Spec.order rY n - 1) 0 (j - s) (by omega) (by omega) (by omega)
  have e5 : ((s : ℤ)).toNat + (j - s) = j := by omega
  have e6 : win J.iY s (j - s) = J.iY.getD j 0 := by unfold win; rw [e5]
  have e7 : win J.iX s (j - s) = Spec.node (Spec.scale isLog xmin) (Spec.scale isLog xmax) n j := by
    unfold win
    rw [e5, j5, getD_map hj]
  rw [e6, e7] at hthrough
  have hthrough' : nv (win J.iY s) (win J.iX s) (J.iY.getD j 0) (Spec.order rY n - 1) 0 = Spec.node (Spec.scale isLog xmin) (Spec.scale isLog xmax) n j := hthrough
  obtain ⟨c1, c2⟩ := node_mem hab hj
  rw [hK, hthrough', s6, m3, s7, m4, clip_self c1 c2, j8]
  dsimp only
  congr 2
  have hzj := hzz j
  cases isLog with
  | false => exact hzj
  | true =>
    simp only [if_true] at hzj ⊢
    unfold itpExp expCutoff
    rw [if_neg, hzj]
    push Not
    refine lt_of_lt_of_le ?_ c1
    simp only [Spec.scale, if_true]
    rw [Real.lt_log_iff_exp_lt (hlog' rfl)]
    exact hlog rfl

/-- The hypotheses of `C136_function_nodes` are met by the squares in a table of logarithms in both variables. -/
example (j : ℕ) (hj : j < 10) : ∃ K, (interpOfFunction (10 : ℕ) 1 100 (fun x => x ^ 2) 3 false true 3 false true).findLimit
    ((fun x : ℝ => x ^ 2) (Real.exp (Spec.node (Spec.scale true 1) (Spec.scale true 100) 10 j))) =
    .ok (Real.exp (Spec.node (Spec.scale true 1) (Spec.scale true 100) 10 j), K) := by
  have hab := scale_lt (isLog := true) (by norm_num : (1 : ℝ) < 100) (fun _ => by norm_num)
  refine C136_function_nodes (n := 10) (xmin := 1) (xmax := 100) (fun x => x ^ 2) 3 true 3 true (by norm_num) (by norm_num) (fun _ => ?_) (by norm_num)
    (fun j => Real.exp (Spec.node (Spec.scale true 1) (Spec.scale true 100) 10 j)) (fun j => ⟨fun _ => Real.exp_pos _, by simp [Spec.scale]⟩)
    (fun _ j _ => by positivity) (Or.inl ?_) .refl hj
  · rw [Real.exp_lt_one_iff]
    norm_num
  · intro i j hij _
    refine pow_lt_pow_left₀ (Real.exp_lt_exp.mpr ?_) (Real.exp_pos _).le (by norm_num)
    unfold Spec.node
    have h1 : 0 < (Spec.scale true 100 - Spec.scale true 1) / ((10 : ℕ) : ℝ) := by
      apply div_pos
      · linarith
      · norm_num
    have h2 : (i : ℝ) < j := by exact_mod_cast hij
    have := mul_lt_mul_of_pos_right (by linarith : (i : ℝ) + 1 / 2 < j + 1 / 2) h1
    linarith

/-! ## The flag for rational functions -/

/-- C136, negative: the flag of the constructor which asks for rational functions in the inverse has no effect until `SetFast(false)` is
called: for two nodes of the identity the result between them is linear before, and one over a linear function afterwards. -/
theorem C136_rational_ignored :
    let I := interpOfFunction 2 0 2 (fun x => x) 2 false false 2 true false
    (∃ K, I.findLimit 1 = .ok (1, K)) ∧ (∃ K, ({ I with fast := false } : Interp).findLimit 1 = .ok (3 / 4, K)) := by
  classical
  have hI : interpOfFunction 2 0 2 (fun x => x) 2 false false 2 true false =
      { initInterp 2 0 2 2 false false 2 true false with iX := [1 / 2, 3 / 2], iY := [1 / 2, 3 / 2] } := by
    unfold interpOfFunction
    have h1 : (initInterp 2 0 2 2 false false 2 true false).max = 2 := by simp [initInterp]
    have h2 : (initInterp 2 0 2 2 false false 2 true false).xmin = 0 := by simp [initInterp]
    have h3 : (initInterp 2 0 2 2 false false 2 true false).step = 1 := by norm_num [initInterp]
    simp only [h1, h2, h3, Bool.false_eq_true, if_false]
    norm_num [List.range, List.range.loop]
  have hloc : locateNodes [1 / 2, 3 / 2] 2 2 1 = (1, 0) := by
    unfold locateNodes bisectNodes
    norm_num
  simp only [hI]
  have f1 : (initInterp 2 0 2 2 false false 2 true false).max = 2 := by simp [initInterp]
  have f2 : (initInterp 2 0 2 2 false false 2 true false).xmin = 0 := by simp [initInterp]
  have f3 : (initInterp 2 0 2 2 false false 2 true false).xmax = 2 := by simp [initInterp]
  have f4 : (initInterp 2 0 2 2 false false 2 true false).rombergY = 2 := by simp [initInterp]
  have f5 : (initInterp 2 0 2 2 false false 2 true false).logSubst = false := rfl
  have f6 : (initInterp 2 0 2 2 false false 2 true false).isLog = false := rfl
  have f7 : (initInterp 2 0 2 2 false false 2 true false).rationalY = true := rfl
  have f8 : (initInterp 2 0 2 2 false false 2 true false).fast = true := rfl
  have f9 : (initInterp 2 0 2 2 false false 2 true false).rational = false := rfl
  constructor
  · obtain ⟨i, s, hA, hN, K, hK⟩ := findLimit_value (J := { initInterp 2 0 2 2 false false 2 true false with iX := [1 / 2, 3 / 2], iY := [1 / 2, 3 / 2] })
      (R := 2) f9 (Or.inr f8) f4 (by simp [f1]) (by simp [f1]) (by simp [f1]) (by left; norm_num) le_rfl (by simp [f1]) 1
    have hs : s = 0 := by
      have := hN.2.2.1
      simp at this
      omega
    refine ⟨K, ?_⟩
    rw [hK, hs]
    simp only [f2, f3, f5, f6, Bool.false_eq_true, if_false]
    have : nv (win [1 / 2, 3 / 2] ((0 : ℕ) : ℤ)) (win [1 / 2, 3 / 2] ((0 : ℕ) : ℤ)) 1 (2 - 1) 0 = 1 := by
      norm_num [nv, nev, win]
    rw [this, clip_self (by norm_num) (by norm_num)]
  · unfold Interp.findLimit
    simp only [f1, f2, f3, f4, f5, f6, hloc, Bool.false_eq_true, if_false]
    unfold Interp.swapped Interp.evalAt
    simp only [f7, Bool.false_eq_true, if_false, Bool.false_and]
    rw [vecWindow_ok (by norm_num) (by norm_num)]
    simp only [bind, Except.bind]
    have hfind : List.find? (fun i => decide (|(1 : ℝ) - [1 / 2, 3 / 2].getD ((0 : ℤ).toNat + i) 0| = 0)) (List.range 2) = none := by
      norm_num [List.range, List.range.loop]
    rw [hfind]
    dsimp only
    have hnear : (nearestNode (fun j => [(1 : ℝ) / 2, 3 / 2].getD ((0 : ℤ).toNat + j) 0) 1 2).1 = 0 := by
      norm_num [nearestNode, List.range, List.range.loop, abs_of_pos, abs_of_neg]
    rw [hnear]
    unfold Interp.between Interp.direction
    simp only [vecAt]
    norm_num [bind, Except.bind, pure, Except.pure, itpLoops, ratStage, ratBody, List.range, List.range.loop, List.range']

end Proposal
