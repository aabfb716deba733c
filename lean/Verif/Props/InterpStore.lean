import Verif.Model.InterpStore
import Verif.Props.InterpTwo
import Verif.Props.InterpGrid
import Mathlib.Tactic.IntervalCases

/-!
# C139: stored tables, copies and comparison
-/

namespace Proposal

/-! ## The members after the constructors -/

/-- The object of `InitInterpolant` for arguments that it does not change. -/
noncomputable def normInterp (n : ℕ) (lo hi : ℝ) (r rY : ℕ) (rational isLog rationalY logSubst : Bool) : Interp :=
  { romberg := r, rombergY := rY, iX := List.replicate n 0, iY := List.replicate n 0, max := n
    xmin := if isLog then Real.log lo else lo, xmax := if isLog then Real.log hi else hi
    step := ((if isLog then Real.log hi else hi) - (if isLog then Real.log lo else lo)) / ((n : ℤ) : ℝ)
    rational := rational, rationalY := rationalY, starti := 0, reverse := false, self := true
    flag := open Classical in decide (Real.log ((n : ℤ) : ℝ) / Real.log 2 + ((r : ℤ) : ℝ) < ((n : ℤ) : ℝ))
    isLog := isLog, logSubst := logSubst, fast := true, xSave := 1, ySave := 0 }

/-- Arguments that `InitInterpolant` does not change. -/
structure NormArgs (n : ℕ) (lo hi : ℝ) (r rY : ℕ) (isLog : Bool) : Prop where
  pos : 1 ≤ n
  log : isLog = true → 0 < lo ∧ 0 < hi
  le : lo ≤ hi
  eq : lo = hi → n = 1
  r1 : 1 ≤ r
  r2 : r ≤ n
  y1 : 1 ≤ rY
  y2 : rY ≤ n

lemma init_norm {n : ℕ} {lo hi : ℝ} {r rY : ℕ} {isLog : Bool} (h : NormArgs n lo hi r rY isLog) (rational rationalY logSubst : Bool) :
    initInterp n lo hi r rational isLog rY rationalY logSubst = normInterp n lo hi r rY rational isLog rationalY logSubst := by
  obtain ⟨h1, h2, h3, h4, h5, h6, h7, h8⟩ := h
  have e1 : (if isLog = true ∧ lo ≤ 0 then (1 : ℝ) else lo) = lo := by
    rw [if_neg]; rintro ⟨h, h'⟩; have := (h2 h).1; linarith
  have e2 : (if isLog = true ∧ hi ≤ 0 then (1 : ℝ) else hi) = hi := by
    rw [if_neg]; rintro ⟨h, h'⟩; have := (h2 h).2; linarith
  have e3 : (if (n : ℤ) ≤ 0 then (1 : ℤ) else n) = n := by rw [if_neg (by omega)]
  have e4 : (if lo = hi then (1 : ℤ) else n) = n := by
    split_ifs with h
    · have := h4 h; omega
    · rfl
  have e5 : ∀ q : ℕ, 1 ≤ q → q ≤ n → (if (if (q : ℤ) ≤ 0 then 1 else (q : ℤ)) > n then (n : ℤ) else (if (q : ℤ) ≤ 0 then 1 else (q : ℤ))) = q := by
    intro q a b
    rw [if_neg (by omega : ¬ (q : ℤ) ≤ 0), if_neg (by omega)]
  unfold initInterp normInterp
  simp only [e1, e2, e3, e4, e5 r h5 h6, e5 rY h7 h8, if_neg (not_lt.2 h3), gt_iff_lt, Int.toNat_natCast]

lemma init_exists (max : ℤ) (xmin xmax : ℝ) (romberg : ℤ) (rational isLog : Bool) (rombergY : ℤ) (rationalY logSubst : Bool) :
    ∃ (n : ℕ) (lo hi : ℝ) (r rY : ℕ), NormArgs n lo hi r rY isLog ∧
      initInterp max xmin xmax romberg rational isLog rombergY rationalY logSubst =
        normInterp n lo hi r rY rational isLog rationalY logSubst := by
  set m := if max ≤ 0 then 1 else max with hm
  set a := if isLog = true ∧ xmin ≤ 0 then (1 : ℝ) else xmin with ha
  set b := if isLog = true ∧ xmax ≤ 0 then (1 : ℝ) else xmax with hb
  set k := if a = b then 1 else m with hk
  set q := if romberg ≤ 0 then 1 else romberg with hq
  set qY := if rombergY ≤ 0 then 1 else rombergY with hqY
  set q' := if q > k then k else q with hq'
  set qY' := if qY > k then k else qY with hqY'
  have m1 : 1 ≤ m := by rw [hm]; split_ifs <;> omega
  have k1 : 1 ≤ k := by rw [hk]; split_ifs <;> omega
  have q1 : 1 ≤ q := by rw [hq]; split_ifs <;> omega
  have qY1 : 1 ≤ qY := by rw [hqY]; split_ifs <;> omega
  have q2 : 1 ≤ q' ∧ q' ≤ k := by rw [hq']; split_ifs <;> omega
  have qY2 : 1 ≤ qY' ∧ qY' ≤ k := by rw [hqY']; split_ifs <;> omega
  have a0 : isLog = true → 0 < a := by
    intro h
    rw [ha]
    split_ifs with h'
    · norm_num
    · exact not_le.1 fun h2 => h' ⟨h, h2⟩
  have b0 : isLog = true → 0 < b := by
    intro h
    rw [hb]
    split_ifs with h'
    · norm_num
    · exact not_le.1 fun h2 => h' ⟨h, h2⟩
  refine ⟨k.toNat, if a > b then b else a, if a > b then a else b, q'.toNat, qY'.toNat, ⟨by omega, ?_, ?_, ?_, by omega, by omega, by omega, by omega⟩, ?_⟩
  · intro h
    split_ifs
    · exact ⟨b0 h, a0 h⟩
    · exact ⟨a0 h, b0 h⟩
  · split_ifs with h
    · exact h.le
    · exact not_lt.1 h
  · intro h
    have : a = b := by
      split_ifs at h
      · exact h.symm
      · exact h
    rw [hk, if_pos this]
    rfl
  · have c1 : ((k.toNat : ℕ) : ℤ) = k := by omega
    have c2 : ((q'.toNat : ℕ) : ℤ) = q' := by omega
    unfold initInterp normInterp
    simp only [← hm, ← ha, ← hb, ← hk, ← hq, ← hqY, ← hq', ← hqY', c1, c2]

/-! ## Nodes -/

lemma vecAt_nat {l : List ℝ} {i : ℕ} (h : i < l.length) : vecAt l i = .ok (l.getD i 0) := by
  rw [vecAt_ok (by omega) (by omega), Int.toNat_natCast]

/-- What is written for the nodes of a table of one variable. -/
def nodeTokens : List ℝ → List ℝ → List Token
  | x :: xs, y :: ys => .num x :: .num y :: nodeTokens xs ys
  | _, _ => []

lemma saveNodes_one (I : Interp) (rows : List (Except ItpErr (List Token))) : ∀ (xs ys a b : List ℝ), I.iX = a ++ xs → I.iY = b ++ ys →
    a.length = b.length → xs.length = ys.length → saveNodes I false rows xs.length a.length = .ok (nodeTokens xs ys) := by
  intro xs
  induction xs with
  | nil => intros; rfl
  | cons x xs ih =>
    intro ys a b hx hy hab hl
    cases ys with
    | nil => simp at hl
    | cons y ys =>
      have e1 : vecAt I.iX (a.length : ℕ) = .ok x := by
        rw [vecAt_nat (by rw [hx]; simp), hx]
        simp
      have e2 : vecAt I.iY (a.length : ℕ) = .ok y := by
        rw [hab, vecAt_nat (by rw [hy]; simp), hy]
        simp
      have e3 := ih ys (a ++ [x]) (b ++ [y]) (by rw [hx]; simp) (by rw [hy]; simp) (by simp [hab]) (by simpa using hl)
      rw [List.length_append, List.length_singleton] at e3
      rw [List.length_cons]
      unfold saveNodes
      rw [e1]
      simp only [bind, Except.bind, nodeRest, Bool.false_eq_true, if_false, e2, e3, pure, Except.pure]
      rfl

lemma loadNodes_all (rest : List Token) : ∀ (xs ys : List ℝ) (I : Interp) (i : ℕ), xs.length = ys.length → I.iX.length = i + xs.length →
    I.iY.length = i + ys.length →
    loadNodes xs.length i I (nodeTokens xs ys ++ rest) = (true, { I with iX := I.iX.take i ++ xs, iY := I.iY.take i ++ ys }, rest) := by
  intro xs
  induction xs with
  | nil =>
    intro ys I i hl h1 h2
    cases ys with
    | nil =>
      simp only [List.length_nil, Nat.add_zero] at h1 h2
      have t1 : I.iX.take i = I.iX := List.take_of_length_le (by omega)
      have t2 : I.iY.take i = I.iY := List.take_of_length_le (by omega)
      simp [loadNodes, nodeTokens, t1, t2]
    | cons y ys => simp at hl
  | cons x xs ih =>
    intro ys I i hl h1 h2
    cases ys with
    | nil => simp at hl
    | cons y ys =>
      simp only [nodeTokens, List.cons_append, List.length_cons]
      unfold loadNodes
      rw [ih ys _ (i + 1) (by simpa using hl) (by simp at h1 ⊢; omega) (by simp at h2 ⊢; omega)]
      have t : ∀ (l : List ℝ) (v : ℝ) (w : List ℝ), i < l.length → (l.set i v).take (i + 1) ++ w = l.take i ++ v :: w := by
        intro l v w h
        rw [List.take_succ_eq_append_getElem (by simpa using h), List.take_set, List.set_eq_of_length_le (by simp)]
        simp
      rw [t _ _ _ (by simp at h1; omega), t _ _ _ (by simp at h2; omega)]

/-! ## One variable -/

lemma header_load {n : ℕ} {lo hi : ℝ} {r rY : ℕ} {isLog : Bool} (h : NormArgs n lo hi r rY isLog) {rational rationalY logSubst : Bool}
    {I J : Interp} {xs ys : List ℝ} {s : Bool}
    (hI : I = { normInterp n lo hi r rY rational isLog rationalY logSubst with iX := xs, iY := ys, self := s }) (hJ : SameTable I J)
    (fl : ItpFlags) (K : Interp) (l : List Token) :
    ∃ l', saveHeader J fl ++ l = .flag fl.two :: l' ∧
      loadHeader K l' = .ok ({ normInterp n lo hi r rY rational isLog rationalY logSubst with
        starti := K.starti, reverse := K.reverse, iX := resizeVec K.iX n, iY := resizeVec K.iY n }, fl.relative, fl.relativeY, l) := by
  obtain ⟨h1, h2, h3, h4, h5, h6, h7, h8, h9, h10, h11, h12, h13, h14⟩ := hJ
  refine ⟨.int J.max :: .num (if J.isLog then Real.exp J.xmin else J.xmin) :: .num (if J.isLog then Real.exp J.xmax else J.xmax) ::
    .int J.romberg :: .flag J.rational :: .flag fl.relative :: .flag J.isLog :: .int J.rombergY :: .flag J.rationalY ::
    .flag fl.relativeY :: .flag J.logSubst :: l, rfl, ?_⟩
  subst hI
  simp only [normInterp] at h1 h2 h5 h6 h7 h9 h10 h12 h13
  have e1 : (if J.isLog then Real.exp J.xmin else J.xmin) = lo := by
    rw [h12, h6]
    split_ifs with hl
    · exact Real.exp_log (h.log hl).1
    · rfl
  have e2 : (if J.isLog then Real.exp J.xmax else J.xmax) = hi := by
    rw [h12, h7]
    split_ifs with hl
    · exact Real.exp_log (h.log hl).2
    · rfl
  rw [e1, e2, h1, h2, h5, h9, h10, h12, h13]
  simp only [loadHeader, init_norm h]
  rfl

/-- Saving and loading of a table of one variable: the table that was constructed. -/
lemma one_load {n : ℕ} {lo hi : ℝ} {r rY : ℕ} {isLog : Bool} (h : NormArgs n lo hi r rY isLog) {rational rationalY logSubst : Bool}
    {I J : Interp} {xs ys : List ℝ} {s : Bool}
    (hI : I = { normInterp n lo hi r rY rational isLog rationalY logSubst with iX := xs, iY := ys, self := s }) (hJ : SameTable I J)
    (hx : xs.length = n) (hy : ys.length = n) (fl : ItpFlags) (hfl : fl.two = false) (rows : List (Except ItpErr (List Token))) (K : Interp)
    (rest : List Token) :
    ∃ l, saveOne J fl rows = .ok l ∧ ∃ l' h', l ++ rest = .flag false :: l' ∧ loadHeader K l' = .ok h' ∧ h'.2.1 = fl.relative ∧
      h'.2.2.1 = fl.relativeY ∧
      loadNodes h'.1.max 0 h'.1 h'.2.2.2 = (true, { I with starti := K.starti, reverse := K.reverse, self := true }, rest) := by
  subst hx
  have hs : saveNodes J false rows J.max 0 = .ok (nodeTokens xs ys) := by
    have hX : J.iX = xs := by rw [hJ.iX, hI]
    have hY : J.iY = ys := by rw [hJ.iY, hI]
    have hm : J.max = xs.length := by rw [hJ.max, hI]; rfl
    have := saveNodes_one J rows xs ys [] [] (by simpa using hX) (by simpa using hY) rfl hy.symm
    rw [hm]
    exact this
  obtain ⟨l', e1, e2⟩ := header_load h hI hJ fl K (nodeTokens xs ys ++ rest)
  refine ⟨saveHeader J fl ++ nodeTokens xs ys, ?_, l', _, ?_, e2, rfl, rfl, ?_⟩
  · unfold saveOne
    rw [hfl, hs]
    rfl
  · rw [List.append_assoc, e1, hfl]
  · have hr : ∀ l : List ℝ, (resizeVec l xs.length).length = xs.length := by
      intro l
      simp only [resizeVec, List.length_append, List.length_take, List.length_replicate]
      omega
    have := loadNodes_all rest xs ys { normInterp xs.length lo hi r rY rational isLog rationalY logSubst with
      starti := K.starti, reverse := K.reverse, iX := resizeVec K.iX xs.length, iY := resizeVec K.iY xs.length } 0 hy.symm
      (by simp [hr]) (by simp [hr, hy])
    simp only [List.take_zero, List.nil_append] at this
    rw [hI]
    exact this

lemma function_norm (max : ℤ) (xmin xmax : ℝ) (f : ℝ → ℝ) (romberg : ℤ) (rational isLog : Bool) (rombergY : ℤ) (rationalY logSubst : Bool) :
    ∃ (n : ℕ) (lo hi : ℝ) (r rY : ℕ) (xs ys : List ℝ), NormArgs n lo hi r rY isLog ∧ xs.length = n ∧ ys.length = n ∧
      interpOfFunction max xmin xmax f romberg rational isLog rombergY rationalY logSubst =
        { normInterp n lo hi r rY rational isLog rationalY logSubst with iX := xs, iY := ys, self := true } := by
  obtain ⟨n, lo, hi, r, rY, h, e⟩ := init_exists max xmin xmax romberg rational isLog rombergY rationalY logSubst
  refine ⟨n, lo, hi, r, rY, (interpOfFunction max xmin xmax f romberg rational isLog rombergY rationalY logSubst).iX,
    (interpOfFunction max xmin xmax f romberg rational isLog rombergY rationalY logSubst).iY, h, ?_, ?_, ?_⟩
  · simp [interpOfFunction, e, normInterp]
  · simp [interpOfFunction, e, normInterp]
  · simp only [interpOfFunction, e]
    rfl

lemma arrays_norm {x y : List ℝ} {romberg : ℤ} {rational : Bool} {I : Interp} (hI : interpOfArrays x y romberg rational = .ok I) :
    ∃ (n : ℕ) (lo hi : ℝ) (r rY : ℕ) (xs ys : List ℝ), NormArgs n lo hi r rY false ∧ xs.length = n ∧ ys.length = n ∧
      I = { normInterp n lo hi r rY rational false rational false with iX := xs, iY := ys, self := true } := by
  unfold interpOfArrays at hI
  obtain ⟨x0, -, hI⟩ := exc_bind hI
  obtain ⟨x1, -, hI⟩ := exc_bind hI
  obtain ⟨n, lo, hi, r, rY, h, e⟩ := init_exists ((min x.length y.length : ℕ) : ℤ) x0 x1 romberg rational false romberg rational false
  rw [e] at hI
  obtain ⟨xs, h1, hI⟩ := exc_bind hI
  obtain ⟨ys, h2, hI⟩ := exc_bind hI
  simp only [pure, Except.pure, Except.ok.injEq] at hI
  have hl : ∀ {l l' : List ℝ}, fillVec n l = .ok l' → l'.length = n := by
    intro l l' h
    unfold fillVec at h
    split_ifs at h with hh
    simp only [Except.ok.injEq] at h
    rw [← h]
    simp
    omega
  exact ⟨n, lo, hi, r, rY, xs, ys, h, hl h1, hl h2, hI.symm⟩

lemma load_one {n : ℕ} {lo hi : ℝ} {r rY : ℕ} {isLog : Bool} (h : NormArgs n lo hi r rY isLog) {rational rationalY logSubst : Bool}
    {I J : Interp} {xs ys : List ℝ}
    (hI : I = { normInterp n lo hi r rY rational isLog rationalY logSubst with iX := xs, iY := ys, self := true }) (hJ : Spec.Calls I J)
    (hx : xs.length = n) (hy : ys.length = n) (fl : ItpFlags) (hfl : fl.two = false) (rows : List Interp) (rf : ItpFlags) :
    ∃ l, (⟨⟨J, rows⟩, fl, rf⟩ : ItpObj).save = .ok l ∧
      emptyItp.load l = .ok (true, ⟨⟨I, []⟩, fl, ⟨false, false, false⟩⟩, []) := by
  have hs : SameTable I J := later_same (by rw [hI]; exact itpLog_one.symm) hJ
  obtain ⟨l, e1, l', h', e2, e3, e4, e5, e6⟩ := one_load h hI hs hx hy fl hfl
    (rows.map fun row => saveOne row rf []) emptyInterp []
  refine ⟨l, e1, ?_⟩
  rw [List.append_nil] at e2
  rw [e2]
  unfold ItpObj.load
  have e3' : loadHeader emptyItp.table.base l' = .ok h' := e3
  simp only [e3', bind, Except.bind, Bool.false_eq_true, if_false, e6, e4, e5, pure, Except.pure]
  rw [hI]
  congr 4
  cases fl
  simp only at hfl
  subst hfl
  rfl

/-- C139: a table of a function of one variable that is saved after any calls and loaded by a new object is the table which the constructor
would make: in all members, for all arguments of the constructor. -/
theorem C139_function (max : ℤ) (xmin xmax : ℝ) (f : ℝ → ℝ) (romberg : ℤ) (rational relative isLog : Bool) (rombergY : ℤ)
    (rationalY relativeY logSubst : Bool) (J : Interp)
    (hJ : Spec.Calls (interpOfFunction max xmin xmax f romberg rational isLog rombergY rationalY logSubst) J) :
    let o := itpOfFunction max xmin xmax f romberg rational relative isLog rombergY rationalY relativeY logSubst
    ∃ l, ({ o with table := ⟨J, []⟩ } : ItpObj).save = .ok l ∧ emptyItp.load l = .ok (true, o, []) := by
  obtain ⟨n, lo, hi, r, rY, xs, ys, h, hx, hy, e⟩ := function_norm max xmin xmax f romberg rational isLog rombergY rationalY logSubst
  exact load_one h e hJ hx hy _ rfl _ _

/-- C139: the same for tables of vectors. -/
theorem C139_arrays {x y : List ℝ} {romberg : ℤ} {rational relative : Bool} {o : ItpObj} (ho : itpOfArrays x y romberg rational relative = .ok o)
    (J : Interp) (hJ : Spec.Calls o.table.base J) :
    ∃ l, ({ o with table := ⟨J, []⟩ } : ItpObj).save = .ok l ∧ emptyItp.load l = .ok (true, o, []) := by
  unfold itpOfArrays at ho
  obtain ⟨I, hI, ho⟩ := exc_bind ho
  simp only [pure, Except.pure, Except.ok.injEq] at ho
  obtain ⟨n, lo, hi, r, rY, xs, ys, h, hx, hy, e⟩ := arrays_norm hI
  subst ho
  exact load_one h e hJ hx hy _ rfl _ _

/-! ## Two variables -/

lemma calls2_base {T U : Interp2} (hT : T.base.ySave = itpLog T.base.xSave) (h : Spec.Calls2 T U) :
    SameTable { T.base with iY := U.base.iY } U.base := by
  induction h with
  | refl => exact .refl hT
  | @array U V t u v _ e ih =>
    unfold Interp2.interpolateArray at e
    obtain ⟨s, hs, e⟩ := exc_bind e
    obtain ⟨r, -, e⟩ := exc_bind e
    simp only [pure, Except.pure, Except.ok.injEq, Prod.mk.injEq] at e
    obtain ⟨-, rfl⟩ := e
    obtain ⟨h1, h2, h3, h4, h5, h6, h7, h8, h9, h10, h11, h12, h13, h14⟩ := ih
    exact ⟨h1, h2, h3, rfl, h5, h6, h7, h8, h9, h10, h11, h12, h13, h14⟩
  | @grid U V t u v _ e ih =>
    unfold Interp2.interpolate at e
    obtain ⟨x2, -, e⟩ := exc_bind e
    obtain ⟨p, -, e⟩ := exc_bind e
    obtain ⟨s, hs, e⟩ := exc_bind e
    obtain ⟨r, -, e⟩ := exc_bind e
    simp only [pure, Except.pure, Except.ok.injEq, Prod.mk.injEq] at e
    obtain ⟨-, rfl⟩ := e
    obtain ⟨h1, h2, h3, h4, h5, h6, h7, h8, h9, h10, h11, h12, h13, h14⟩ := ih
    exact ⟨h1, h2, h3, rfl, h5, h6, h7, h8, h9, h10, h11, h12, h13, h14⟩
  | fast b _ ih =>
    obtain ⟨h1, h2, h3, h4, h5, h6, h7, h8, h9, h10, h11, h12, h13, h14⟩ := ih
    exact ⟨h1, h2, h3, h4, h5, h6, h7, h8, h9, h10, h11, h12, h13, h14⟩

/-- What is written for the nodes of a table of two variables. -/
def rowTokens : List ℝ → List (List Token) → List Token
  | x :: xs, r :: rs => .num x :: r ++ rowTokens xs rs
  | _, _ => []

lemma saveNodes_two (I : Interp) : ∀ (xs a : List ℝ) (rs : List (List Token)) (b : List (Except ItpErr (List Token))), I.iX = a ++ xs →
    a.length = b.length → xs.length = rs.length →
    saveNodes I true (b ++ rs.map .ok) xs.length a.length = .ok (rowTokens xs rs) := by
  intro xs
  induction xs with
  | nil => intros; rfl
  | cons x xs ih =>
    intro a rs b hx hab hl
    cases rs with
    | nil => simp at hl
    | cons r rs =>
      have e1 : vecAt I.iX (a.length : ℕ) = .ok x := by
        rw [vecAt_nat (by rw [hx]; simp), hx]
        simp
      have e2 : nodeRest I true (b ++ (r :: rs).map .ok) a.length = .ok r := by
        unfold nodeRest
        rw [if_pos rfl, hab]
        simp
      have e3 := ih (a ++ [x]) rs (b ++ [.ok r]) (by rw [hx]; simp) (by simp [hab]) (by simpa using hl)
      rw [List.length_append, List.length_singleton, List.append_assoc] at e3
      rw [List.length_cons]
      unfold saveNodes
      have e3' : saveNodes I true (b ++ (r :: rs).map .ok) xs.length (a.length + 1) = .ok (rowTokens xs rs) := e3
      rw [e1, e3', e2]
      rfl

/-- A row of a new table. -/
def NewRow (I : Interp) : Prop :=
  ∃ (n : ℕ) (lo hi : ℝ) (r rY : ℕ) (isLog rational rationalY logSubst : Bool) (xs ys : List ℝ), NormArgs n lo hi r rY isLog ∧ xs.length = n ∧
    ys.length = n ∧ I = { normInterp n lo hi r rY rational isLog rationalY logSubst with iX := xs, iY := ys, self := false }

lemma row_load {I J : Interp} (h : NewRow I) (hJ : Spec.Calls I J) (fl : ItpFlags) (hfl : fl.two = false) :
    ∃ l, saveOne J fl [] = .ok l ∧ ∀ rest, loadRow (l ++ rest) = .ok (I, fl, rest) := by
  obtain ⟨n, lo, hi, r, rY, isLog, rational, rationalY, logSubst, xs, ys, h, hx, hy, e⟩ := h
  have hs : SameTable I J := later_same (by rw [e]; exact itpLog_one.symm) hJ
  obtain ⟨l, e1, -⟩ := one_load h e hs hx hy fl hfl [] emptyInterp []
  refine ⟨l, e1, fun rest => ?_⟩
  obtain ⟨l2, e1', l', h', e2, e3, e4, e5, e6⟩ := one_load h e hs hx hy fl hfl [] emptyInterp rest
  rw [e1, Except.ok.injEq] at e1'
  subst e1'
  rw [e2]
  simp only [loadRow, e3, bind, Except.bind, e6, e4, e5, pure, Except.pure]
  rw [e]
  congr 3
  cases fl
  simp only at hfl
  subst hfl
  rfl

lemma loadRows_step (n i : ℕ) (I : Interp) (acc : List Interp) (f0 : ItpFlags) (x : ℝ) (l : List Token) {row : Interp} {fl : ItpFlags}
    {rest : List Token} (h : loadRow l = .ok (row, fl, rest)) :
    loadRows (n + 1) i I acc f0 (.num x :: l) = loadRows n (i + 1) { I with iX := I.iX.set i x } (acc ++ [row]) fl rest := by
  rw [loadRows, h]
  rfl

/-- The rows of a table that was written, with what follows. -/
lemma rows_load (fl : ItpFlags) (hfl : fl.two = false) : ∀ (R R' : List Interp), R'.length = R.length → (∀ row ∈ R, NewRow row) →
    (∀ (k : ℕ) (row : Interp), R[k]? = some row → ∃ row', R'[k]? = some row' ∧ Spec.Calls row row') →
    ∃ rs : List (List Token), R'.map (fun row => saveOne row fl []) = rs.map .ok ∧ rs.length = R.length ∧
      ∀ (m : ℕ) (xs : List ℝ) (I : Interp) (i : ℕ) (acc : List Interp) (f0 : ItpFlags) (rest : List Token), xs.length = R.length →
        i + xs.length ≤ I.iX.length →
        loadRows (R.length + m) i I acc f0 (rowTokens xs rs ++ rest) =
          loadRows m (i + R.length) { I with iX := I.iX.take i ++ xs ++ I.iX.drop (i + xs.length) } (acc ++ R) (if R = [] then f0 else fl) rest := by
  intro R
  induction R with
  | nil =>
    intro R' hl _ _
    have : R' = [] := List.length_eq_zero_iff.1 (by simpa using hl)
    subst this
    refine ⟨[], rfl, rfl, ?_⟩
    intro m xs I i acc f0 rest hx _
    have : xs = [] := List.length_eq_zero_iff.1 (by simpa using hx)
    subst this
    simp [rowTokens]
  | cons row R ih =>
    intro R' hl hn hc
    cases R' with
    | nil => simp at hl
    | cons row' R' =>
      obtain ⟨w, hw, hcalls⟩ := hc 0 row rfl
      simp only [List.getElem?_cons_zero, Option.some.injEq] at hw
      subst hw
      obtain ⟨l, e1, e2⟩ := row_load (hn row (by simp)) hcalls fl hfl
      obtain ⟨rs, i1, i2, i3⟩ := ih R' (by simpa using hl) (fun q hq => hn q (by simp [hq])) (fun k q hk => hc (k + 1) q (by simpa using hk))
      refine ⟨l :: rs, by simp [e1, i1], by simp [i2], ?_⟩
      intro m xs I i acc f0 rest hx hI
      cases xs with
      | nil => simp at hx
      | cons x xs =>
        simp only [rowTokens, List.cons_append, List.append_assoc, List.length_cons]
        rw [show R.length + 1 + m = (R.length + m) + 1 by omega]
        rw [loadRows_step _ _ _ _ _ _ _ (e2 _)]
        simp only [List.length_cons] at hx hI
        rw [i3 m xs _ (i + 1) _ _ rest (by omega) (by simp; omega)]
        have t1 : (I.iX.set i x).take (i + 1) = I.iX.take i ++ [x] := by
          rw [List.take_succ_eq_append_getElem (by simp; omega), List.take_set, List.set_eq_of_length_le (by simp)]
          simp
        have t2 : (I.iX.set i x).drop (i + 1 + xs.length) = I.iX.drop (i + (xs.length + 1)) := by
          rw [List.drop_set_of_lt (by omega)]
          congr 1
          omega
        simp only [t1, t2, List.append_assoc, List.cons_append, List.nil_append]
        rw [show i + 1 + R.length = i + (R.length + 1) by omega, ite_self, if_neg (List.cons_ne_nil _ _)]

/-- The table that is written, its rows, and loading it. -/
lemma two_load {n : ℕ} {lo hi : ℝ} {r rY : ℕ} {isLog : Bool} (h : NormArgs n lo hi r rY isLog) {rational rationalY logSubst : Bool}
    {T U : Interp2} {xs ys : List ℝ}
    (hT : T.base = { normInterp n lo hi r rY rational isLog rationalY logSubst with iX := xs, iY := ys, self := true })
    (hx : xs.length = n) (hr : T.rows.length = n) (hrows : ∀ row ∈ T.rows, NewRow row) (hU : Spec.Calls2 T U)
    (fl rf : ItpFlags) (h2 : fl.two = true) (hrf : rf.two = false) :
    ∃ (l' : List Token) (rs : List (List Token)),
      (⟨U, fl, rf⟩ : ItpObj).save = .ok (.flag true :: l' ++ rowTokens xs rs) ∧ rs.length = n ∧
      (∀ l, loadHeader emptyInterp (l' ++ l) =
        .ok (normInterp n lo hi r rY rational isLog rationalY logSubst, fl.relative, fl.relativeY, l)) ∧
      ∀ (m : ℕ) (xs : List ℝ) (I : Interp) (i : ℕ) (acc : List Interp) (f0 : ItpFlags) (rest : List Token), xs.length = T.rows.length →
        i + xs.length ≤ I.iX.length →
        loadRows (T.rows.length + m) i I acc f0 (rowTokens xs rs ++ rest) =
          loadRows m (i + T.rows.length) { I with iX := I.iX.take i ++ xs ++ I.iX.drop (i + xs.length) } (acc ++ T.rows)
            (if T.rows = [] then f0 else rf) rest := by
  have hs := calls2_base (by rw [hT]; exact itpLog_one.symm) hU
  have hsame := later2_same hU
  obtain ⟨rs, i1, i2, i3⟩ := rows_load rf hrf T.rows U.rows hsame.length hrows hsame.rows
  have hhead : ∀ l, ∃ l', saveHeader U.base fl ++ l = .flag true :: l' ∧ loadHeader emptyInterp l' = _ := fun l => by
    have := header_load h (by rw [hT]) hs fl emptyInterp l
    rwa [h2] at this
  refine ⟨(saveHeader U.base fl).tail, rs, ?_, i2.trans hr, ?_, i3⟩
  · have hX : U.base.iX = [] ++ xs := by rw [hs.iX, hT]; rfl
    have hm : U.base.max = xs.length := by rw [hs.max, hT, hx]; rfl
    have := saveNodes_two U.base xs [] rs [] hX rfl (by rw [hx, i2, hr])
    unfold ItpObj.save
    dsimp only
    rw [i1]
    unfold saveOne
    rw [h2, hm]
    rw [List.nil_append] at this
    have e0 : ([] : List ℝ).length = 0 := rfl
    rw [e0] at this
    rw [this]
    simp only [bind, Except.bind, pure, Except.pure, saveHeader, h2, List.tail_cons]
  · intro l
    obtain ⟨l', e1, e2⟩ := hhead l
    have : (saveHeader U.base fl).tail ++ l = l' := by
      have := congrArg List.tail e1
      simpa [saveHeader] using this
    rw [this, e2]
    simp only [resizeVec, emptyInterp, List.take_nil, List.nil_append, List.length_nil, Nat.sub_zero]
    rfl

lemma function2_norm (max1 : ℤ) (x1min x1max : ℝ) (max2 : ℤ) (x2min x2max : ℝ) (f : ℝ → ℝ → ℝ)
    (romberg1 : ℤ) (rational1 isLog1 : Bool) (romberg2 : ℤ) (rational2 isLog2 : Bool) (rombergY : ℤ) (rationalY logSubst : Bool) :
    let T := interp2OfFunction max1 x1min x1max max2 x2min x2max f romberg1 rational1 isLog1 romberg2 rational2 isLog2 rombergY rationalY
      logSubst
    ∃ (n : ℕ) (lo hi : ℝ) (r rY : ℕ) (xs : List ℝ), NormArgs n lo hi r rY isLog2 ∧ xs.length = n ∧
      T.base = { normInterp n lo hi r rY rational2 isLog2 rationalY logSubst with iX := xs, iY := List.replicate n 0, self := true } ∧
      T.rows.length = n ∧ ∀ row ∈ T.rows, NewRow row := by
  intro T
  obtain ⟨n, lo, hi, r, rY, h, e⟩ := init_exists max2 x2min x2max romberg2 rational2 isLog2 rombergY rationalY logSubst
  refine ⟨n, lo, hi, r, rY, T.base.iX, h, ?_, ?_, ?_, ?_⟩
  · simp [T, interp2OfFunction, e, normInterp]
  · simp only [T, interp2OfFunction, e]
    rfl
  · simp [T, interp2OfFunction, e, normInterp]
  · intro row hrow
    simp only [T, interp2OfFunction, List.mem_map] at hrow
    obtain ⟨i, -, rfl⟩ := hrow
    obtain ⟨n', lo', hi', r', rY', xs, ys, h', hx, hy, e'⟩ := function_norm max1 x1min x1max (fun x => f x _) romberg1 rational1 isLog1 rombergY
      rationalY logSubst
    refine ⟨n', lo', hi', r', rY', isLog1, rational1, rationalY, logSubst, xs, ys, h', hx, hy, ?_⟩
    rw [e']

/-- C139: a table of a function of two variables that is saved after any calls and loaded by a new object is the table which the constructor
would make, in all members that are used for the interpolation. Only the function itself is not there. -/
theorem C139_two (max1 : ℤ) (x1min x1max : ℝ) (max2 : ℤ) (x2min x2max : ℝ) (f : ℝ → ℝ → ℝ)
    (romberg1 : ℤ) (rational1 relative1 isLog1 : Bool) (romberg2 : ℤ) (rational2 relative2 isLog2 : Bool) (rombergY : ℤ)
    (rationalY relativeY logSubst : Bool) (U : Interp2) :
    let o := itpOfFunction2 max1 x1min x1max max2 x2min x2max f romberg1 rational1 relative1 isLog1 romberg2 rational2 relative2 isLog2
      rombergY rationalY relativeY logSubst
    Spec.Calls2 o.table U →
    ∃ l, ({ o with table := U } : ItpObj).save = .ok l ∧
      emptyItp.load l = .ok (true, { o with flags := { o.flags with two := false } }, []) := by
  intro o hU
  obtain ⟨n, lo, hi, r, rY, xs, h, hx, hT, hr, hrows⟩ := function2_norm max1 x1min x1max max2 x2min x2max f romberg1 rational1 isLog1 romberg2
    rational2 isLog2 rombergY rationalY logSubst
  obtain ⟨l', rs, e1, e2, e3, e4⟩ := two_load h hT hx hr hrows hU o.flags o.rowFlags rfl rfl
  refine ⟨_, e1, ?_⟩
  have e3' : loadHeader emptyItp.table.base (l' ++ rowTokens xs rs) = _ := e3 (rowTokens xs rs)
  have e5 := e4 0 xs (normInterp n lo hi r rY rational2 isLog2 rationalY logSubst) 0 [] emptyItp.rowFlags [] (by rw [hx, hr])
    (by simp [hx, normInterp])
  rw [List.append_nil, Nat.add_zero, hr, loadRows, if_neg (by intro h0; rw [h0] at hr; simp at hr; have := h.pos; omega)] at e5
  rw [List.cons_append]
  simp only [ItpObj.load, e3', bind, Except.bind, if_true]
  have hm : (normInterp n lo hi r rY rational2 isLog2 rationalY logSubst).max = n := rfl
  rw [hm, e5]
  have hd : (normInterp n lo hi r rY rational2 isLog2 rationalY logSubst).iX.drop (0 + xs.length) = [] := by
    rw [hx, Nat.zero_add]
    exact List.drop_of_length_le (by simp [normInterp])
  simp only [pure, Except.pure, List.take_zero, List.nil_append, hd, List.append_nil]
  congr 4
  · rw [show o.table = ⟨o.table.base, o.table.rows⟩ from rfl]
    congr 1
    exact hT.symm

lemma nodeTokens_length : ∀ (xs ys : List ℝ), xs.length = ys.length → (nodeTokens xs ys).length = 2 * xs.length := by
  intro xs
  induction xs with
  | nil => intros; rfl
  | cons x xs ih =>
    intro ys h
    cases ys with
    | nil => simp at h
    | cons y ys =>
      simp only [nodeTokens, List.length_cons, ih ys (by simpa using h)]
      omega

/-- Too few numbers for the nodes are noticed. -/
lemma loadNodes_short : ∀ (xs ys : List ℝ) (k i : ℕ) (I : Interp), xs.length = ys.length → k < 2 * xs.length →
    ∃ J, loadNodes xs.length i I ((nodeTokens xs ys).take k) = (false, J, []) := by
  intro xs
  induction xs with
  | nil =>
    intro ys k i I _ hk
    simp at hk
  | cons x xs ih =>
    intro ys k i I h hk
    cases ys with
    | nil => simp at h
    | cons y ys =>
      match k, hk with
      | 0, _ => exact ⟨I, by simp only [List.length_cons, List.take_zero, loadNodes]⟩
      | 1, _ => exact ⟨{ I with iX := I.iX.set i x }, by simp only [List.length_cons, nodeTokens, List.take_succ_cons, List.take_zero, loadNodes]⟩
      | k + 2, hk =>
        simp only [List.length_cons, nodeTokens, List.take_succ_cons, loadNodes]
        exact ih ys k (i + 1) _ (by simpa using h) (by simp at hk; omega)

/-- A row of which the last number is missing is loaded without a complaint. -/
lemma row_cut {I : Interp} (h : NewRow I) (fl : ItpFlags) (hfl : fl.two = false) :
    ∃ l, saveOne I fl [] = .ok l ∧ l ≠ [] ∧ ∃ row, loadRow l.dropLast = .ok (row, fl, []) := by
  obtain ⟨n, lo, hi, r, rY, isLog, rational, rationalY, logSubst, xs, ys, h, hx, hy, e⟩ := h
  have hs : SameTable I I := .refl (by rw [e]; exact itpLog_one.symm)
  have hlen : (nodeTokens xs ys).length = 2 * xs.length := nodeTokens_length xs ys (by rw [hx, hy])
  have hpos := h.pos
  have hne : nodeTokens xs ys ≠ [] := by
    intro h0
    rw [h0] at hlen
    simp at hlen
    rw [hlen] at hx
    simp at hx
    omega
  obtain ⟨l', e1, e2⟩ := header_load h e hs fl emptyInterp (nodeTokens xs ys).dropLast
  refine ⟨saveHeader I fl ++ nodeTokens xs ys, ?_, by simp [hne], ?_⟩
  · have hX : I.iX = xs := by rw [e]
    have hY : I.iY = ys := by rw [e]
    have hm : I.max = xs.length := by rw [e, hx]; rfl
    have := saveNodes_one I [] xs ys [] [] (by simpa using hX) (by simpa using hY) rfl (by rw [hx, hy])
    unfold saveOne
    rw [hfl, hm]
    have e0 : ([] : List ℝ).length = 0 := rfl
    rw [e0] at this
    rw [this]
    rfl
  · rw [List.dropLast_append_of_ne_nil hne, e1, hfl]
    have hJ : ∀ I, (loadNodes n 0 I (nodeTokens xs ys).dropLast).2.2 = [] := by
      intro I
      obtain ⟨J, hJ⟩ := loadNodes_short xs ys ((nodeTokens xs ys).length - 1) 0 I (by rw [hx, hy]) (by omega)
      rw [hx] at hJ
      rw [List.dropLast_eq_take, hJ]
    have hm : (normInterp n lo hi r rY rational isLog rationalY logSubst).max = n := rfl
    simp only [loadRow, e2, bind, Except.bind, pure, Except.pure, hm, hJ]
    cases fl
    simp only at hfl
    subst hfl
    exact ⟨_, rfl⟩

lemma rowTokens_append : ∀ (xs xs' : List ℝ) (rs rs' : List (List Token)), xs.length = rs.length →
    rowTokens (xs ++ xs') (rs ++ rs') = rowTokens xs rs ++ rowTokens xs' rs' := by
  intro xs
  induction xs with
  | nil =>
    intro xs' rs rs' h
    cases rs with
    | nil => simp [rowTokens]
    | cons r rs => simp at h
  | cons x xs ih =>
    intro xs' rs rs' h
    cases rs with
    | nil => simp at h
    | cons r rs => simp [rowTokens, ih xs' rs rs' (by simpa using h)]

/-- C139: the end of the file of a table of two variables may be missing without being noticed: if the last number is cut off,
`Load` still returns `true`, because the success of the rows is not looked at. -/
theorem C139_truncated (max1 : ℤ) (x1min x1max : ℝ) (max2 : ℤ) (x2min x2max : ℝ) (f : ℝ → ℝ → ℝ)
    (romberg1 : ℤ) (rational1 relative1 isLog1 : Bool) (romberg2 : ℤ) (rational2 relative2 isLog2 : Bool) (rombergY : ℤ)
    (rationalY relativeY logSubst : Bool) :
    let o := itpOfFunction2 max1 x1min x1max max2 x2min x2max f romberg1 rational1 relative1 isLog1 romberg2 rational2 relative2 isLog2
      rombergY rationalY relativeY logSubst
    ∃ l o', o.save = .ok l ∧ emptyItp.load l.dropLast = .ok (true, o', []) := by
  intro o
  obtain ⟨n, lo, hi, r, rY, xs, h, hx, hT, hr, hrows⟩ := function2_norm max1 x1min x1max max2 x2min x2max f romberg1 rational1 isLog1 romberg2
    rational2 isLog2 rombergY rationalY logSubst
  change (o.table.base = _) at hT
  change (o.table.rows.length = n) at hr
  change (∀ row ∈ o.table.rows, NewRow row) at hrows
  have hpos := h.pos
  obtain ⟨R, row, hR⟩ : ∃ R row, o.table.rows = R ++ [row] :=
    ⟨o.table.rows.dropLast, o.table.rows.getLast (by intro h0; rw [h0] at hr; simp at hr; omega), (List.dropLast_append_getLast _).symm⟩
  obtain ⟨xs', x, hxs⟩ : ∃ xs' x, xs = xs' ++ [x] :=
    ⟨xs.dropLast, xs.getLast (by intro h0; rw [h0] at hx; simp at hx; omega), (List.dropLast_append_getLast _).symm⟩
  have hl1 : R.length + 1 = n := by rw [← hr, hR]; simp
  have hl2 : xs'.length + 1 = n := by rw [← hx, hxs]; simp
  obtain ⟨rs, i1, i2, i3⟩ := rows_load o.rowFlags rfl R R rfl (fun q hq => hrows q (by rw [hR]; simp [hq])) (fun k q hk => ⟨q, hk, .refl⟩)
  obtain ⟨q, q1, q2, row', q3⟩ := row_cut (hrows row (by rw [hR]; simp)) o.rowFlags rfl
  have hsave : o.table.rows.map (fun row => saveOne row o.rowFlags []) = (rs ++ [q]).map .ok := by
    rw [hR, List.map_append, i1]
    simp [q1]
  have hs : SameTable o.table.base o.table.base := .refl (by rw [hT]; exact itpLog_one.symm)
  obtain ⟨l', e1, e2⟩ := header_load h hT hs o.flags emptyInterp (rowTokens xs (rs ++ [q])).dropLast
  have htok : rowTokens xs (rs ++ [q]) = rowTokens xs' rs ++ .num x :: q := by
    rw [hxs, rowTokens_append _ _ _ _ (by omega)]
    simp [rowTokens]
  have hdrop : (rowTokens xs (rs ++ [q])).dropLast = rowTokens xs' rs ++ .num x :: q.dropLast := by
    rw [htok, List.dropLast_append_of_ne_nil (by simp)]
    congr 1
    cases q with
    | nil => exact absurd rfl q2
    | cons a q => rfl
  suffices hh : ∃ o', emptyItp.load (saveHeader o.table.base o.flags ++ rowTokens xs (rs ++ [q])).dropLast = .ok (true, o', []) by
    obtain ⟨o', ho'⟩ := hh
    refine ⟨_, o', ?_, ho'⟩
    have hX : o.table.base.iX = [] ++ xs := by rw [hT]; rfl
    have hm : o.table.base.max = xs.length := by rw [hT, hx]; rfl
    have := saveNodes_two o.table.base xs [] (rs ++ [q]) [] hX rfl (by rw [hx]; simp; omega)
    unfold ItpObj.save
    rw [hsave]
    unfold saveOne
    rw [show o.flags.two = true from rfl, hm]
    rw [List.nil_append] at this
    have e0 : ([] : List ℝ).length = 0 := rfl
    rw [e0] at this
    rw [this]
    rfl
  rw [List.dropLast_append_of_ne_nil (by rw [htok]; simp), e1]
  rw [hdrop] at e2
  have hm : (normInterp n lo hi r rY rational2 isLog2 rationalY logSubst).max = R.length + 1 := hl1.symm
  simp only [ItpObj.load, show o.flags.two = true from rfl, if_true, show emptyItp.table.base = emptyInterp from rfl, e2, bind, Except.bind]
  rw [hm, i3 1 xs' _ 0 [] _ _ (by omega) (by simp [resizeVec, emptyInterp]; omega), loadRows_step _ _ _ _ _ _ _ q3]
  exact ⟨_, rfl⟩

/-- C139: a file of a table of one variable that ends early is noticed if its first twelve values are complete: `Load` returns `false`. With
fewer values, variables without value are used, except for an empty file. -/
theorem C139_truncated_one (max : ℤ) (xmin xmax : ℝ) (f : ℝ → ℝ) (romberg : ℤ) (rational relative isLog : Bool) (rombergY : ℤ)
    (rationalY relativeY logSubst : Bool) :
    ∃ l, (itpOfFunction max xmin xmax f romberg rational relative isLog rombergY rationalY relativeY logSubst).save = .ok l ∧
      14 ≤ l.length ∧
      ∀ k, k < l.length →
        (k = 0 ∨ 12 ≤ k → ∃ o', emptyItp.load (l.take k) = .ok (false, o', [])) ∧
        (0 < k ∧ k < 12 → emptyItp.load (l.take k) = .error .undefined) := by
  obtain ⟨n, lo, hi, r, rY, xs, ys, h, hx, hy, e⟩ := function_norm max xmin xmax f romberg rational isLog rombergY rationalY logSubst
  set o := itpOfFunction max xmin xmax f romberg rational relative isLog rombergY rationalY relativeY logSubst with ho
  have hI : o.table.base = _ := e
  have hs : SameTable o.table.base o.table.base := .refl (by rw [hI]; exact itpLog_one.symm)
  have hlen : (nodeTokens xs ys).length = 2 * xs.length := nodeTokens_length xs ys (by rw [hx, hy])
  have hpos := h.pos
  have hh : (saveHeader o.table.base o.flags).length = 12 := rfl
  refine ⟨saveHeader o.table.base o.flags ++ nodeTokens xs ys, ?_, by rw [List.length_append, hh, hlen]; omega, ?_⟩
  · have hX : o.table.base.iX = xs := by rw [hI]
    have hY : o.table.base.iY = ys := by rw [hI]
    have hm : o.table.base.max = xs.length := by rw [hI, hx]; rfl
    have := saveNodes_one o.table.base [] xs ys [] [] (by simpa using hX) (by simpa using hY) rfl (by rw [hx, hy])
    unfold ItpObj.save saveOne
    rw [show o.flags.two = false from rfl, hm]
    have e0 : ([] : List ℝ).length = 0 := rfl
    rw [e0] at this
    rw [show o.table.rows = [] from rfl, List.map_nil, this]
    rfl
  · intro k hk
    rw [List.length_append, hh, hlen] at hk
    constructor
    · rintro (rfl | h12)
      · exact ⟨emptyItp, rfl⟩
      · rw [List.take_append, hh, List.take_of_length_le (by rw [hh]; exact h12)]
        obtain ⟨l', e1, e2⟩ := header_load h hI hs o.flags emptyInterp ((nodeTokens xs ys).take (k - 12))
        have hJ : ∀ I, (loadNodes n 0 I ((nodeTokens xs ys).take (k - 12))).1 = false ∧
            (loadNodes n 0 I ((nodeTokens xs ys).take (k - 12))).2.2 = [] := by
          intro I
          obtain ⟨J, hJ⟩ := loadNodes_short xs ys (k - 12) 0 I (by rw [hx, hy]) (by omega)
          rw [hx] at hJ
          rw [hJ]
          exact ⟨rfl, rfl⟩
        have hm : (normInterp n lo hi r rY rational isLog rationalY logSubst).max = n := rfl
        rw [e1]
        simp only [ItpObj.load, show o.flags.two = false from rfl, Bool.false_eq_true, if_false,
          show emptyItp.table.base = emptyInterp from rfl, e2, bind, Except.bind, hm, (hJ _).1, (hJ _).2]
        exact ⟨_, rfl⟩
    · rintro ⟨h0, h12⟩
      rw [List.take_append_of_le_length (by rw [hh]; omega)]
      interval_cases k <;> rfl

lemma example_call : ∃ K, (interpOfFunction (10 : ℕ) 0 5 (fun x => x) 3 false false 3 false false).interpolate 7 = .ok (7, K) :=
  C135_polynomials (n := 10) (xmin := 0) (xmax := 5) (fun x => x) 3 false 3 false (by norm_num) (by norm_num) (by norm_num) (fun h => by simp at h)
    .refl (fun h => by simp at h) (by norm_num [Spec.scale]) (by norm_num [Spec.scale]) Polynomial.X
    (by rw [Polynomial.natDegree_X]; decide) (fun z _ => by simp [Spec.scale])

/-- The hypothesis of `C139_function` is met after an interpolation. -/
example : ∃ J l, Spec.Calls (interpOfFunction (10 : ℕ) 0 5 (fun x => x) 3 false false 3 false false) J ∧
    (⟨⟨J, []⟩, ⟨true, false, false⟩, ⟨false, false, false⟩⟩ : ItpObj).save = .ok l ∧
    emptyItp.load l = .ok (true, itpOfFunction (10 : ℕ) 0 5 (fun x => x) 3 false true false 3 false false false, []) := by
  obtain ⟨J, hJ⟩ := example_call
  have := Spec.Calls.grid .refl hJ
  obtain ⟨l, h1, h2⟩ := C139_function (10 : ℕ) 0 5 (fun x => x) 3 false true false 3 false false false J this
  exact ⟨J, l, this, h1, h2⟩

/-- The hypothesis of `C139_arrays` is met by every table of vectors of the same length with distinct ascending nodes. -/
example : ∃ o l, itpOfArrays [0, 1, 3] [5, 6, 2] 2 true true = .ok o ∧ o.save = .ok l ∧ emptyItp.load l = .ok (true, o, []) := by
  obtain ⟨I, hI, -⟩ := ofArrays_ok (x := [0, 1, 3]) (y := [5, 6, 2]) 2 true rfl (by norm_num) (by left; norm_num)
  have ho : itpOfArrays [0, 1, 3] [5, 6, 2] 2 true true = .ok ⟨⟨I, []⟩, ⟨true, true, false⟩, ⟨false, false, false⟩⟩ := by
    unfold itpOfArrays
    rw [hI]
    rfl
  obtain ⟨l, h1, h2⟩ := C139_arrays ho _ .refl
  exact ⟨_, l, ho, h1, h2⟩

/-! ## Text files -/

lemma save_tokens {n : ℕ} {lo hi : ℝ} {r rY : ℕ} {isLog rational rationalY logSubst : Bool} {o : ItpObj} {xs ys : List ℝ} {s : Bool}
    (hI : o.table.base = { normInterp n lo hi r rY rational isLog rationalY logSubst with iX := xs, iY := ys, self := s })
    (hx : xs.length = n) (hy : ys.length = n) (hfl : o.flags.two = false) :
    o.save = .ok (saveHeader o.table.base o.flags ++ nodeTokens xs ys) := by
  have hX : o.table.base.iX = xs := by rw [hI]
  have hY : o.table.base.iY = ys := by rw [hI]
  have hm : o.table.base.max = xs.length := by rw [hI, hx]; rfl
  have := saveNodes_one o.table.base (o.table.rows.map fun row => saveOne row o.rowFlags []) xs ys [] [] (by simpa using hX)
    (by simpa using hY) rfl (by rw [hx, hy])
  unfold ItpObj.save
  generalize (o.table.rows.map fun row => saveOne row o.rowFlags []) = R at this ⊢
  unfold saveOne
  rw [hfl, hm]
  have e0 : ([] : List ℝ).length = 0 := rfl
  rw [e0] at this
  rw [this]
  rfl

lemma nodeTokens_rounded (w : ℝ → ℝ) : ∀ xs ys : List ℝ, (nodeTokens xs ys).map (Token.rounded w) = nodeTokens (xs.map w) (ys.map w) := by
  intro xs
  induction xs with
  | nil => intros; rfl
  | cons x xs ih =>
    intro ys
    cases ys with
    | nil => rfl
    | cons y ys => simp [nodeTokens, Token.rounded, ih]

/-- C139: in a text file the numbers have 16 digits. If the limits of the range have not more digits, the table that is loaded has the rounded
nodes and values, and else all members are the same. -/
theorem C139_text (w : ℝ → ℝ) (max : ℤ) (xmin xmax : ℝ) (f : ℝ → ℝ) (romberg : ℤ) (rational relative isLog : Bool) (rombergY : ℤ)
    (rationalY relativeY logSubst : Bool) :
    let o := itpOfFunction max xmin xmax f romberg rational relative isLog rombergY rationalY relativeY logSubst
    ∃ l, o.save = .ok l ∧
      ((l.take 12).map (Token.rounded w) = l.take 12 →
        emptyItp.load (l.map (Token.rounded w)) =
          .ok (true, { o with table := ⟨{ o.table.base with iX := o.table.base.iX.map w, iY := o.table.base.iY.map w }, []⟩ }, [])) := by
  intro o
  obtain ⟨n, lo, hi, r, rY, xs, ys, h, hx, hy, e⟩ := function_norm max xmin xmax f romberg rational isLog rombergY rationalY logSubst
  change o.table.base = _ at e
  refine ⟨_, save_tokens e hx hy rfl, fun hw => ?_⟩
  have hh : (saveHeader o.table.base o.flags).length = 12 := rfl
  rw [List.take_append_of_le_length (by rw [hh]), List.take_of_length_le (by rw [hh])] at hw
  set I : Interp := { o.table.base with iX := o.table.base.iX.map w, iY := o.table.base.iY.map w } with hI
  have e' : I = { normInterp n lo hi r rY rational isLog rationalY logSubst with iX := xs.map w, iY := ys.map w, self := true } := by
    rw [hI, e]
  obtain ⟨l, e1, e2⟩ := load_one h e' .refl (by simp [hx]) (by simp [hy]) o.flags rfl [] o.rowFlags
  have e3 : (⟨⟨I, []⟩, o.flags, o.rowFlags⟩ : ItpObj).save = .ok (saveHeader I o.flags ++ nodeTokens (xs.map w) (ys.map w)) :=
    save_tokens e' (by simp [hx]) (by simp [hy]) rfl
  rw [e1, Except.ok.injEq] at e3
  rw [List.map_append, hw, nodeTokens_rounded]
  have e4 : saveHeader I o.flags = saveHeader o.table.base o.flags := rfl
  rw [e4] at e3
  rw [← e3, e2]
  rfl

/-- The hypothesis of `C139_text` is met by limits that are rounded to themselves, here for the rounding to integers. -/
example : ∃ l, (itpOfFunction 10 0 5 (fun x => x / 3) 3 false true false 3 false false false).save = .ok l ∧
    (l.take 12).map (Token.rounded fun r => (⌊r⌋ : ℝ)) = l.take 12 := by
  obtain ⟨l, h, -⟩ := C139_text (fun r => (⌊r⌋ : ℝ)) 10 0 5 (fun x => x / 3) 3 false true false 3 false false false
  refine ⟨l, h, ?_⟩
  obtain ⟨n, lo, hi, r, rY, xs, ys, h', hx, hy, e⟩ := function_norm 10 0 5 (fun x => x / 3) 3 false false 3 false false
  have h2 := save_tokens (o := itpOfFunction 10 0 5 (fun x => x / 3) 3 false true false 3 false false false) e hx hy rfl
  rw [h, Except.ok.injEq] at h2
  have hx0 : (itpOfFunction 10 0 5 (fun x => x / 3) 3 false true false 3 false false false).table.base.xmin = 0 := by
    simp [itpOfFunction, interpOfFunction, initInterp]
  have hx1 : (itpOfFunction 10 0 5 (fun x => x / 3) 3 false true false 3 false false false).table.base.xmax = 5 := by
    simp [itpOfFunction, interpOfFunction, initInterp]
  have hl : (itpOfFunction 10 0 5 (fun x => x / 3) 3 false true false 3 false false false).table.base.isLog = false := rfl
  have hh : ∀ (I : Interp) fl, (saveHeader I fl).length = 12 := fun _ _ => rfl
  rw [h2, List.take_append_of_le_length (by rw [hh]), List.take_of_length_le (by rw [hh])]
  simp [saveHeader, hx0, hx1, hl, Token.rounded]

/-! ## Tables that are lost -/

lemma evalRows_none (F : Interp → Except ItpErr (ℝ × Interp)) (start : ℤ) (ys : List ℝ) :
    ∀ n : ℕ, evalRows F start (n + 1) (ys, []) = .error .outOfRange := by
  intro n
  induction n with
  | zero =>
    have : rowAt [] (start + (0 : ℕ)) = .error .outOfRange := by
      unfold rowAt
      split_ifs <;> simp
    simp only [evalRows, bind, Except.bind, this]
  | succ n ih =>
    rw [evalRows, ih]
    rfl

lemma lost_array {T : Interp2} (hr : T.rows = []) (h1 : 1 ≤ T.base.romberg) (x1 x2 : ℝ) : T.interpolateArray x1 x2 = .error .outOfRange := by
  obtain ⟨m, hm⟩ : ∃ m, T.base.romberg = m + 1 := ⟨T.base.romberg - 1, by omega⟩
  unfold Interp2.interpolateArray
  simp only [hr, hm, evalRows_none]
  rfl

lemma lost_grid {T : Interp2} (hr : T.rows = []) (h1 : 1 ≤ T.base.romberg) (x1 x2 : ℝ) : ∃ e, T.interpolate x1 x2 = .error e := by
  cases h : T.interpolate x1 x2 with
  | error e => exact ⟨e, rfl⟩
  | ok p =>
    exfalso
    obtain ⟨m, hm⟩ : ∃ m, T.base.romberg = m + 1 := ⟨T.base.romberg - 1, by omega⟩
    unfold Interp2.interpolate at h
    obtain ⟨x2', -, h⟩ := exc_bind h
    obtain ⟨q, -, h⟩ := exc_bind h
    obtain ⟨s, hs, -⟩ := exc_bind h
    rw [hr, hm, evalRows_none] at hs
    cases hs

/-- C139: a table of two variables of a function that was loaded does not survive another round: it has no function and is saved as a table of
one variable. Loading it succeeds, but no interpolation with two arguments does. -/
theorem C139_resaved (max1 : ℤ) (x1min x1max : ℝ) (max2 : ℤ) (x2min x2max : ℝ) (f : ℝ → ℝ → ℝ)
    (romberg1 : ℤ) (rational1 relative1 isLog1 : Bool) (romberg2 : ℤ) (rational2 relative2 isLog2 : Bool) (rombergY : ℤ)
    (rationalY relativeY logSubst : Bool) :
    let o := itpOfFunction2 max1 x1min x1max max2 x2min x2max f romberg1 rational1 relative1 isLog1 romberg2 rational2 relative2 isLog2
      rombergY rationalY relativeY logSubst
    ∃ l o1 l1 o2, o.save = .ok l ∧ emptyItp.load l = .ok (true, o1, []) ∧ o1.table = o.table ∧ o1.save = .ok l1 ∧
      emptyItp.load l1 = .ok (true, o2, []) ∧ ∀ x1 x2, ∃ e, o2.table.interpolate x1 x2 = .error e := by
  intro o
  obtain ⟨l, e1, e2⟩ := C139_two max1 x1min x1max max2 x2min x2max f romberg1 rational1 relative1 isLog1 romberg2 rational2 relative2 isLog2
    rombergY rationalY relativeY logSubst _ .refl
  obtain ⟨n, lo, hi, r, rY, xs, h, hx, hT, hr, hrows⟩ := function2_norm max1 x1min x1max max2 x2min x2max f romberg1 rational1 isLog1 romberg2
    rational2 isLog2 rombergY rationalY logSubst
  obtain ⟨l1, e3, e4⟩ := load_one h hT .refl hx (by simp) { o.flags with two := false } rfl o.table.rows o.rowFlags
  refine ⟨l, _, l1, _, e1, e2, rfl, e3, e4, fun x1 x2 => lost_grid rfl ?_ x1 x2⟩
  rw [hT]
  exact h.r1

lemma arrays2_norm {x1 : List ℝ} {x2 y : List (List ℝ)} {romberg1 : ℤ} {rational1 : Bool} {romberg2 : ℤ} {rational2 : Bool} {T : Interp2}
    (hT : interp2OfArrays x1 x2 y romberg1 rational1 romberg2 rational2 = .ok T) :
    ∃ (n : ℕ) (lo hi : ℝ) (r rY : ℕ) (xs : List ℝ), NormArgs n lo hi r rY false ∧ xs.length = n ∧
      T.base = { normInterp n lo hi r rY rational1 false rational1 false with iX := xs, iY := List.replicate n 0, self := true } := by
  unfold interp2OfArrays at hT
  obtain ⟨a, -, hT⟩ := exc_bind hT
  obtain ⟨b, -, hT⟩ := exc_bind hT
  obtain ⟨n, lo, hi, r, rY, h, e⟩ := init_exists ((min x1.length y.length : ℕ) : ℤ) a b romberg1 rational1 false romberg1 rational1 false
  rw [e] at hT
  simp only at hT
  split_ifs at hT with hc
  · cases hT
  obtain ⟨xs, h1, hT⟩ := exc_bind hT
  obtain ⟨rows, -, hT⟩ := exc_bind hT
  simp only [pure, Except.pure, Except.ok.injEq] at hT
  refine ⟨n, lo, hi, r, rY, xs, h, ?_, by rw [← hT]; rfl⟩
  unfold fillVec at h1
  have hn : (normInterp n lo hi r rY rational1 false rational1 false).max = n := rfl
  rw [hn] at h1
  split_ifs at h1 with hh
  simp only [Except.ok.injEq] at h1
  rw [← h1]
  simp
  omega

/-- C139: a table of two variables of vectors is not stored at all: it has no function and is saved as a table of one variable. Loading it
succeeds, but every interpolation with two arguments throws. -/
theorem C139_arrays_two {x1 : List ℝ} {x2 y : List (List ℝ)} {romberg1 : ℤ} {rational1 relative1 : Bool} {romberg2 : ℤ}
    {rational2 relative2 : Bool} {o : ItpObj} (ho : itpOfArrays2 x1 x2 y romberg1 rational1 relative1 romberg2 rational2 relative2 = .ok o) :
    ∃ l o1, o.save = .ok l ∧ emptyItp.load l = .ok (true, o1, []) ∧ ∀ t u, o1.table.interpolateArray t u = .error .outOfRange := by
  unfold itpOfArrays2 at ho
  obtain ⟨T, hT, ho⟩ := exc_bind ho
  simp only [pure, Except.pure, Except.ok.injEq] at ho
  obtain ⟨n, lo, hi, r, rY, xs, h, hx, e⟩ := arrays2_norm hT
  subst ho
  obtain ⟨l, e1, e2⟩ := load_one h e .refl hx (by simp) ⟨relative1, relative1, false⟩ rfl T.rows ⟨relative2, relative2, false⟩
  refine ⟨l, _, e1, e2, fun t u => lost_array rfl ?_ t u⟩
  rw [e]
  exact h.r1

/-- The hypothesis of `C139_arrays_two` is met by a table of two rows. -/
example : ∃ o, itpOfArrays2 [1, 2] [[0, 1], [5, 3]] [[0, 1], [10, 6]] 2 false false 2 false true = .ok o := by
  obtain ⟨T, hT, -⟩ := ofArrays2_ok (x1 := [1, 2]) (x2 := [[0, 1], [5, 3]]) (y := [[0, 1], [10, 6]]) 2 2 rfl rfl (by norm_num) (by left; norm_num) (by
    intro r hr
    simp only [List.zip_cons_cons, List.zip_nil_right, List.mem_cons, List.not_mem_nil, or_false] at hr
    rcases hr with rfl | rfl
    · exact ⟨rfl, by norm_num, by left; norm_num⟩
    · exact ⟨rfl, by norm_num, by right; norm_num⟩)
  unfold itpOfArrays2
  rw [hT]
  exact ⟨_, rfl⟩

/-! ## Copies -/

lemma saveOne_none {I : Interp} {fl : ItpFlags} {rows : List (Except ItpErr (List Token))} (hfl : fl.two = true) (h1 : 1 ≤ I.max)
    (h2 : 1 ≤ I.iX.length) (hr : ∀ r ∈ rows, r = .error .outOfRange) : saveOne I fl rows = .error .outOfRange := by
  obtain ⟨m, hm⟩ : ∃ m, I.max = m + 1 := ⟨I.max - 1, by omega⟩
  have e1 : vecAt I.iX (0 : ℕ) = .ok (I.iX.getD 0 0) := vecAt_nat h2
  have e2 : nodeRest I true rows 0 = .error .outOfRange := by
    unfold nodeRest
    rw [if_pos rfl]
    cases rows with
    | nil => rfl
    | cons r rows => exact hr r (by simp)
  unfold saveOne
  rw [hfl, hm]
  unfold saveNodes
  rw [e1, e2]
  rfl

/-- C139: a copy interpolates as the original does, since it has the same table. But it cannot be saved, nor can a copy of a row: its
function is a reference to the empty function of the original and counts as a function of two variables. -/
theorem C139_copy (max : ℤ) (xmin xmax : ℝ) (f : ℝ → ℝ) (romberg : ℤ) (rational relative isLog : Bool) (rombergY : ℤ)
    (rationalY relativeY logSubst : Bool) (J : Interp)
    (hJ : Spec.Calls (interpOfFunction max xmin xmax f romberg rational isLog rombergY rationalY logSubst) J) :
    let o : ItpObj := { itpOfFunction max xmin xmax f romberg rational relative isLog rombergY rationalY relativeY logSubst with table := ⟨J, []⟩ }
    o.copy.table = o.table ∧ o.copy.save = .error .outOfRange := by
  intro o
  refine ⟨rfl, ?_⟩
  obtain ⟨n, lo, hi, r, rY, xs, ys, h, hx, hy, e⟩ := function_norm max xmin xmax f romberg rational isLog rombergY rationalY logSubst
  have hs := later_same (by rw [e]; exact itpLog_one.symm) hJ
  refine saveOne_none rfl ?_ ?_ ?_
  · change 1 ≤ J.max
    rw [hs.max, e]
    exact h.pos
  · change 1 ≤ J.iX.length
    rw [hs.iX, e]
    change 1 ≤ xs.length
    rw [hx]
    exact h.pos
  · intro r hr
    simp [o, ItpObj.copy] at hr

/-- C139: the same for tables of two variables. -/
theorem C139_copy_two (max1 : ℤ) (x1min x1max : ℝ) (max2 : ℤ) (x2min x2max : ℝ) (f : ℝ → ℝ → ℝ)
    (romberg1 : ℤ) (rational1 relative1 isLog1 : Bool) (romberg2 : ℤ) (rational2 relative2 isLog2 : Bool) (rombergY : ℤ)
    (rationalY relativeY logSubst : Bool) :
    let o := itpOfFunction2 max1 x1min x1max max2 x2min x2max f romberg1 rational1 relative1 isLog1 romberg2 rational2 relative2 isLog2
      rombergY rationalY relativeY logSubst
    o.copy.table = o.table ∧ o.copy.save = .error .outOfRange ∧ (o.assign o).save = .error .outOfRange := by
  intro o
  obtain ⟨n, lo, hi, r, rY, xs, h, hx, hT, hr, hrows⟩ := function2_norm max1 x1min x1max max2 x2min x2max f romberg1 rational1 isLog1 romberg2
    rational2 isLog2 rombergY rationalY logSubst
  change (o.table.base = _) at hT
  have key : ∀ fl rf : ItpFlags, fl.two = true → rf.two = true → (⟨o.table, fl, rf⟩ : ItpObj).save = .error .outOfRange := by
    intro fl rf hfl hrf
    refine saveOne_none hfl ?_ ?_ ?_
    · rw [hT]
      exact h.pos
    · rw [hT]
      change 1 ≤ xs.length
      rw [hx]
      exact h.pos
    · intro q hq
      simp only [List.mem_map] at hq
      obtain ⟨row, hrow, rfl⟩ := hq
      obtain ⟨n', lo', hi', r', rY', _, _, _, _, xs', ys', h', hx', hy', e'⟩ := hrows row hrow
      refine saveOne_none hrf ?_ ?_ (by simp)
      · rw [e']
        exact h'.pos
      · rw [e']
        change 1 ≤ xs'.length
        rw [hx']
        exact h'.pos
  exact ⟨rfl, key _ _ rfl rfl, key _ _ rfl rfl⟩

/-- C139: an assignment keeps the functions of the left side. A table of one variable that is assigned to an object without a function of two
variables can be saved. A table of two variables that is assigned to such an object is saved as a table of one variable, and is lost. -/
theorem C139_assign (a : ItpObj) (ha : a.flags.two = false) :
    (∀ (max : ℤ) (xmin xmax : ℝ) (f : ℝ → ℝ) (romberg : ℤ) (rational relative isLog : Bool) (rombergY : ℤ)
      (rationalY relativeY logSubst : Bool),
      let b := itpOfFunction max xmin xmax f romberg rational relative isLog rombergY rationalY relativeY logSubst
      ∃ l, (a.assign b).save = .ok l ∧ b.save = .ok l ∧ emptyItp.load l = .ok (true, b, [])) ∧
    ∀ (max1 : ℤ) (x1min x1max : ℝ) (max2 : ℤ) (x2min x2max : ℝ) (f : ℝ → ℝ → ℝ)
      (romberg1 : ℤ) (rational1 relative1 isLog1 : Bool) (romberg2 : ℤ) (rational2 relative2 isLog2 : Bool) (rombergY : ℤ)
      (rationalY relativeY logSubst : Bool),
      let b := itpOfFunction2 max1 x1min x1max max2 x2min x2max f romberg1 rational1 relative1 isLog1 romberg2 rational2 relative2 isLog2
        rombergY rationalY relativeY logSubst
      ∃ l o, (a.assign b).save = .ok l ∧ emptyItp.load l = .ok (true, o, []) ∧ ∀ x1 x2, ∃ e, o.table.interpolate x1 x2 = .error e := by
  constructor
  · intro max xmin xmax f romberg rational relative isLog rombergY rationalY relativeY logSubst b
    obtain ⟨n, lo, hi, r, rY, xs, ys, h, hx, hy, e⟩ := function_norm max xmin xmax f romberg rational isLog rombergY rationalY logSubst
    obtain ⟨l, e1, e2⟩ := load_one h e .refl hx hy b.flags rfl [] b.rowFlags
    refine ⟨l, ?_, e1, e2⟩
    have : (a.assign b).flags = b.flags := by
      simp only [ItpObj.assign, ItpObj.copy, ha]
      rfl
    have h1 : (a.assign b).save = saveOne b.table.base (a.assign b).flags [] := rfl
    rw [h1, this]
    exact e1
  · intro max1 x1min x1max max2 x2min x2max f romberg1 rational1 relative1 isLog1 romberg2 rational2 relative2 isLog2 rombergY rationalY
      relativeY logSubst b
    obtain ⟨n, lo, hi, r, rY, xs, h, hx, hT, hr, hrows⟩ := function2_norm max1 x1min x1max max2 x2min x2max f romberg1 rational1 isLog1
      romberg2 rational2 isLog2 rombergY rationalY logSubst
    obtain ⟨l, e1, e2⟩ := load_one h hT .refl hx (by simp) (a.assign b).flags ha b.table.rows (a.assign b).rowFlags
    refine ⟨l, _, e1, e2, fun x1 x2 => lost_grid rfl ?_ x1 x2⟩
    rw [hT]
    exact h.r1

/-! ## Comparison -/

/-- C139: `operator==` compares also what the last call left behind: after an interpolation a table is not equal to a new one with the same
arguments, though all later results are the same (C135). -/
theorem C139_not_equal (max : ℤ) (xmin xmax : ℝ) (f : ℝ → ℝ) (romberg : ℤ) (rational relative isLog : Bool) (rombergY : ℤ)
    (rationalY relativeY logSubst : Bool) (x v : ℝ) (J : Interp)
    (hv : (interpOfFunction max xmin xmax f romberg rational isLog rombergY rationalY logSubst).interpolate x = .ok (v, J)) :
    let o := itpOfFunction max xmin xmax f romberg rational relative isLog rombergY rationalY relativeY logSubst
    ¬ ({ o with table := ⟨J, []⟩ } : ItpObj).Equal o := by
  intro o h
  obtain ⟨h1, -⟩ := h
  unfold Interp.interpolate at hv
  obtain ⟨p, -, hv⟩ := exc_bind hv
  obtain ⟨q, -, hv⟩ := exc_bind hv
  simp only [pure, Except.pure, Except.ok.injEq, Prod.mk.injEq] at hv
  have h2 : J.reverse = true := by rw [← hv.2]
  have h3 : o.table.base.reverse = false := rfl
  rw [← h1] at h3
  simp only at h3
  rw [h2] at h3
  cases h3

/-- The hypothesis of `C139_not_equal` is met by a table of ten nodes. -/
example : ∃ J, ¬ (⟨⟨J, []⟩, ⟨true, false, false⟩, ⟨false, false, false⟩⟩ : ItpObj).Equal
    (itpOfFunction (10 : ℕ) 0 5 (fun x => x) 3 false true false 3 false false false) := by
  obtain ⟨J, hJ⟩ := example_call
  exact ⟨J, C139_not_equal (10 : ℕ) 0 5 (fun x => x) 3 false true false 3 false false false 7 7 J hJ⟩

/-- C139: tables that are equal give the same results. -/
theorem C139_equal {a b : ItpObj} (h : a.Equal b) : (∀ x, a.table.base.interpolate x = b.table.base.interpolate x) ∧
    (∀ x, a.table.base.interpolateArray x = b.table.base.interpolateArray x) ∧ (∀ y, a.table.base.findLimit y = b.table.base.findLimit y) ∧
    (∀ x1 x2, a.table.interpolate x1 x2 = b.table.interpolate x1 x2) ∧
    (∀ x1 x2, a.table.interpolateArray x1 x2 = b.table.interpolateArray x1 x2) := by
  obtain ⟨h, -⟩ := h
  rw [h]
  exact ⟨fun _ => rfl, fun _ => rfl, fun _ => rfl, fun _ _ => rfl, fun _ _ => rfl⟩

end Proposal
