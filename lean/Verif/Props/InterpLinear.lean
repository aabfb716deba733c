import Verif.Props.InterpTwo

/-!
# C134: tables of order two
-/

open Polynomial

namespace Proposal

/-- The line through the points `i` and `i + 1` of a table. -/
noncomputable def Spec.line (x y : List ℝ) (i : ℕ) (t : ℝ) : ℝ :=
  y.getD i 0 + (y.getD (i + 1) 0 - y.getD i 0) * ((t - x.getD i 0) / (x.getD (i + 1) 0 - x.getD i 0))

lemma nv_line {x y : List ℝ} (hm : Spec.Monotone x) {i : ℕ} (hi : i + 1 < x.length) (t : ℝ) :
    nv (win x i) (win y i) t (2 - 1) 0 = Spec.line x y i t := by
  have hne : x.getD i 0 - x.getD (i + 1) 0 ≠ 0 := by
    intro h
    have := mono_ne hm (by omega : i < x.length) hi (by linarith)
    omega
  have hne' : x.getD (i + 1) 0 - x.getD i 0 ≠ 0 := by
    intro h
    exact hne (by linarith)
  have e0 : win x i 0 = x.getD i 0 := by simp [win]
  have e1 : win x i 1 = x.getD (i + 1) 0 := by simp [win]
  have e2 : win y i 0 = y.getD i 0 := by simp [win]
  have e3 : win y i 1 = y.getD (i + 1) 0 := by simp [win]
  unfold nv Spec.line
  simp only [nev, Nat.add_one_sub_one, zero_add, e0, e1, e2, e3, eval_mul, eval_add, eval_sub, eval_C, eval_X]
  field_simp
  ring

/-- The cell of a point depends on the abscissae only. -/
lemma linear_value {x : List ℝ} (h2 : 2 ≤ x.length) (hm : Spec.Monotone x) (t : ℝ) :
    ∃ i, Spec.Around x t i ∧ ∀ y : List ℝ, x.length = y.length → ∃ I, interpOfArrays x y 2 false = .ok I ∧ ∀ J, Spec.Calls I J →
      ∃ K, J.interpolateArray t = .ok (Spec.line x y i t, K) := by
  obtain ⟨i, s, hA, hN, e1, -⟩ := locate_window hm h2 (r := 2) le_rfl h2 t
  have hs : s = i := by
    have := hN.1
    have := hN.2.1
    omega
  subst hs
  refine ⟨s, hA, fun y hlen => ?_⟩
  obtain ⟨I, e, hI, -⟩ := ofArrays_ok 2 false hlen h2 hm
  have hR : Spec.order 2 x.length = 2 := by unfold Spec.order; omega
  rw [hR] at hI
  refine ⟨I, e, fun J hJ => ?_⟩
  obtain ⟨i', s', -, -, e2, K, hK⟩ := array_value (array_later hI hJ) hlen h2 hm le_rfl h2 t
  have : (s' : ℤ) = s := by rw [← e2, e1]
  obtain rfl : s' = s := by omega
  exact ⟨K, by rw [hK, nv_line hm hA.1]⟩

/-- C134: with order 2 the interpolation is linear between neighbours, and beyond the ends on the line through the two outermost nodes. -/
theorem C134_linear {x y : List ℝ} (hlen : x.length = y.length) (h2 : 2 ≤ x.length) (hm : Spec.Monotone x) :
    ∃ I, interpOfArrays x y 2 false = .ok I ∧ ∀ t, ∃ i, Spec.Around x t i ∧ ∀ J, Spec.Calls I J →
      ∃ K, J.interpolateArray t = .ok (Spec.line x y i t, K) := by
  obtain ⟨I, e, hI, -⟩ := ofArrays_ok 2 false hlen h2 hm
  refine ⟨I, e, fun t => ?_⟩
  obtain ⟨i, hA, h⟩ := linear_value h2 hm t
  obtain ⟨I', e', h'⟩ := h y hlen
  rw [e] at e'
  obtain rfl : I = I' := by simpa using e'
  exact ⟨i, hA, h'⟩

/-- C134: a table of order 2 in two variables, with the same nodes in every row: linear in the rows, and linear between the results of two
rows. -/
theorem C134_bilinear {x1 x2 : List ℝ} {y : List (List ℝ)} (hy : y.length = x1.length) (h2 : 2 ≤ x1.length) (hm : Spec.Monotone x1)
    (h2' : 2 ≤ x2.length) (hm' : Spec.Monotone x2) (hrows : ∀ r ∈ y, r.length = x2.length) :
    ∃ T, interp2OfArrays x1 (List.replicate x1.length x2) y 2 false 2 false = .ok T ∧ ∀ t u,
      ∃ i j, Spec.Around x1 t i ∧ Spec.Around x2 u j ∧ ∀ U, Spec.Calls2 T U →
        ∃ V, U.interpolateArray t u = .ok (Spec.line x1 (y.map fun r => Spec.line x2 r j u) i t, V) := by
  have hk : ∀ k, k < x1.length → (List.replicate x1.length x2).getD k [] = x2 := by
    intro k hk
    simp [List.getD_eq_getElem?_getD, hk]
  have hyk : ∀ k, k < x1.length → y.getD k [] ∈ y := by
    intro k hk
    rw [show y.getD k [] = y[k]'(by omega) by simp [List.getD_eq_getElem?_getD, List.getElem?_eq_getElem (by omega : k < y.length)]]
    exact List.getElem_mem _
  obtain ⟨T, e, hT⟩ := C134_two_variables (x1 := x1) (x2 := List.replicate x1.length x2) (y := y) (r1 := 2) (r2 := 2) (by simp) hy h2 hm
    (fun k h => by rw [hk k h]; exact ⟨(hrows _ (hyk k h)).symm, h2', hm'⟩) le_rfl le_rfl
  refine ⟨T, e, fun t u => ?_⟩
  obtain ⟨i, hA, hi⟩ := linear_value h2 hm t
  obtain ⟨j, hB, hj⟩ := linear_value h2' hm' u
  set v := y.map fun r => Spec.line x2 r j u with hv
  have hvl : v.length = x1.length := by simp [hv, hy]
  refine ⟨i, j, hA, hB, fun U hU => ?_⟩
  obtain ⟨I, K, V, w, a1, a2, a3⟩ := hT U hU t u v hvl (by
    intro k h
    obtain ⟨I, e, hI⟩ := hj (y.getD k []) (hrows _ (hyk k h)).symm
    obtain ⟨K, hK⟩ := hI I .refl
    refine ⟨I, K, by rw [hk k h]; exact e, ?_⟩
    rw [hK]
    congr 2
    simp [hv, List.getD_eq_getElem?_getD, List.getElem?_eq_getElem (by omega : k < y.length)])
  obtain ⟨I', e', hI'⟩ := hi v hvl.symm
  obtain ⟨K', hK'⟩ := hI' I' .refl
  rw [a1] at e'
  obtain rfl : I = I' := by simpa using e'
  rw [a2] at hK'
  simp only [Except.ok.injEq, Prod.mk.injEq] at hK'
  exact ⟨V, by rw [a3, hK'.1]⟩

/-! ## Ascending tables -/

lemma around_asc {x : List ℝ} (hx : x.Pairwise (· < ·)) {t : ℝ} {i : ℕ} (h : Spec.Around x t i) :
    (i = 0 ∨ x.getD i 0 ≤ t) ∧ (i + 2 = x.length ∨ t ≤ x.getD (i + 1) 0) := by
  obtain ⟨h1, h2, h3⟩ := h
  constructor
  · rcases h2 with h2 | h2
    · exact Or.inl h2
    · rcases Nat.eq_zero_or_pos i with h0 | h0
      · exact Or.inl h0
      · have := asc_lt hx h0 (by omega)
        rw [Set.mem_uIcc] at h2
        right
        rcases h2 with h2 | h2 <;> linarith [h2.1, h2.2]
  · rcases h3 with h3 | h3
    · exact Or.inl h3
    · by_cases h0 : i + 2 = x.length
      · exact Or.inl h0
      · have := asc_lt hx (i := i + 1) (j := x.length - 1) (by omega) (by omega)
        rw [Set.mem_uIcc] at h3
        right
        rcases h3 with h3 | h3 <;> linarith [h3.1, h3.2]

/-- Inside of its cell the line is between the ordinates. -/
lemma line_between {x y : List ℝ} (hx : x.Pairwise (· < ·)) {t a b : ℝ} {i : ℕ} (hi : i + 1 < x.length) (h0 : x.getD i 0 ≤ t)
    (h1 : t ≤ x.getD (i + 1) 0) (ha : a ≤ y.getD i 0 ∧ a ≤ y.getD (i + 1) 0) (hb : y.getD i 0 ≤ b ∧ y.getD (i + 1) 0 ≤ b) :
    a ≤ Spec.line x y i t ∧ Spec.line x y i t ≤ b := by
  have hd := asc_lt hx (i := i) (j := i + 1) (by omega) hi
  unfold Spec.line
  set l := (t - x.getD i 0) / (x.getD (i + 1) 0 - x.getD i 0) with hl
  have l0 : 0 ≤ l := div_nonneg (by linarith) (by linarith)
  have l1 : l ≤ 1 := (div_le_one (by linarith)).2 (by linarith)
  constructor
  · nlinarith
  · nlinarith

lemma line_left (x y : List ℝ) (i : ℕ) : Spec.line x y i (x.getD i 0) = y.getD i 0 := by
  simp [Spec.line]

lemma line_right {x : List ℝ} (hx : x.Pairwise (· < ·)) (y : List ℝ) {i : ℕ} (hi : i + 1 < x.length) :
    Spec.line x y i (x.getD (i + 1) 0) = y.getD (i + 1) 0 := by
  have hd := asc_lt hx (i := i) (j := i + 1) (by omega) hi
  unfold Spec.line
  rw [div_self (by linarith)]
  ring

lemma line_slope {x y : List ℝ} (hx : x.Pairwise (· < ·)) {t t' : ℝ} {i : ℕ} (hi : i + 1 < x.length)
    (hy : y.getD i 0 ≤ y.getD (i + 1) 0) (h : t ≤ t') : Spec.line x y i t ≤ Spec.line x y i t' := by
  have hd := asc_lt hx (i := i) (j := i + 1) (by omega) hi
  unfold Spec.line
  have : (t - x.getD i 0) / (x.getD (i + 1) 0 - x.getD i 0) ≤ (t' - x.getD i 0) / (x.getD (i + 1) 0 - x.getD i 0) :=
    div_le_div_of_nonneg_right (by linarith) (by linarith)
  nlinarith

lemma line_same {x : List ℝ} (hx : x.Pairwise (· < ·)) (y : List ℝ) {t : ℝ} {i i' : ℕ} (h : Spec.Around x t i) (h' : Spec.Around x t i')
    (hlt : i < i') : Spec.line x y i t = Spec.line x y i' t := by
  obtain ⟨-, b⟩ := around_asc hx h
  obtain ⟨a, -⟩ := around_asc hx h'
  have h1 := h.1
  have h2 := h'.1
  have c1 : x.getD i' 0 ≤ t := by
    rcases a with a | a
    · omega
    · exact a
  have c2 : t ≤ x.getD (i + 1) 0 := by
    rcases b with b | b
    · omega
    · exact b
  rcases Nat.lt_or_ge (i + 1) i' with h3 | h3
  · have := asc_lt hx h3 (by omega)
    linarith
  · obtain rfl : i' = i + 1 := by omega
    obtain rfl : t = x.getD (i + 1) 0 := le_antisymm c2 c1
    rw [line_right hx y h1, line_left]

/-- The lines through ascending points, each in its cell, increase. -/
lemma line_mono {x y : List ℝ} (hx : x.Pairwise (· < ·)) (hlen : x.length = y.length) (hy : y.Pairwise (· ≤ ·)) {t t' : ℝ} {i i' : ℕ}
    (h : Spec.Around x t i) (h' : Spec.Around x t' i') (ht : t ≤ t') : Spec.line x y i t ≤ Spec.line x y i' t' := by
  have hyy : ∀ a b, a ≤ b → b < y.length → y.getD a 0 ≤ y.getD b 0 := by
    intro a b hab hb
    rcases Nat.eq_or_lt_of_le hab with h | h
    · rw [h]
    · rw [getD_at y (by omega), getD_at y hb]
      exact List.pairwise_iff_getElem.mp hy a b _ hb h
  have h1 := h.1
  have h2 := h'.1
  rcases Nat.lt_trichotomy i i' with hi | hi | hi
  · obtain ⟨-, b⟩ := around_asc hx h
    obtain ⟨a, -⟩ := around_asc hx h'
    have c1 : x.getD i' 0 ≤ t' := by
      rcases a with a | a
      · omega
      · exact a
    have c2 : t ≤ x.getD (i + 1) 0 := by
      rcases b with b | b
      · omega
      · exact b
    calc Spec.line x y i t ≤ Spec.line x y i (x.getD (i + 1) 0) := line_slope hx h1 (hyy _ _ (by omega) (by omega)) c2
      _ = y.getD (i + 1) 0 := line_right hx y h1
      _ ≤ y.getD i' 0 := hyy _ _ (by omega) (by omega)
      _ = Spec.line x y i' (x.getD i' 0) := (line_left x y i').symm
      _ ≤ Spec.line x y i' t' := line_slope hx h2 (hyy _ _ (by omega) (by omega)) c1
  · subst hi
    exact line_slope hx h1 (hyy _ _ (by omega) (by omega)) ht
  · have e : t = t' := by
      obtain ⟨a, -⟩ := around_asc hx h
      obtain ⟨-, b⟩ := around_asc hx h'
      have c1 : x.getD i 0 ≤ t := by
        rcases a with a | a
        · omega
        · exact a
      have c2 : t' ≤ x.getD (i' + 1) 0 := by
        rcases b with b | b
        · omega
        · exact b
      have : x.getD (i' + 1) 0 ≤ x.getD i 0 := by
        rcases Nat.eq_or_lt_of_le (by omega : i' + 1 ≤ i) with h | h
        · rw [h]
        · exact (asc_lt hx h (by omega)).le
      linarith
    subst e
    exact (line_same hx y h' h hi).ge

/-- C134: with order 2, ascending nodes and ascending ordinates give an increasing function. -/
theorem C134_increasing {x y : List ℝ} (hlen : x.length = y.length) (h2 : 2 ≤ x.length) (hx : x.Pairwise (· < ·)) (hy : y.Pairwise (· ≤ ·)) :
    ∃ I, interpOfArrays x y 2 false = .ok I ∧ ∃ g : ℝ → ℝ, Monotone g ∧ ∀ J, Spec.Calls I J → ∀ t, ∃ K, J.interpolateArray t = .ok (g t, K) := by
  obtain ⟨I, e, h⟩ := C134_linear hlen h2 (Or.inl hx)
  choose i hA hv using h
  exact ⟨I, e, fun t => Spec.line x y (i t) t, fun t t' htt => line_mono hx hlen hy (hA t) (hA t') htt, fun J hJ t => hv t J hJ⟩

/-- The hypotheses of `C134_increasing` for three nodes. -/
example : [(0 : ℝ), 1, 3].Pairwise (· < ·) ∧ [(2 : ℝ), 2, 5].Pairwise (· ≤ ·) := by
  norm_num

/-- The hypotheses of `C134_bilinear` for a table of two rows with three nodes. -/
example : Spec.Monotone [1, 2] ∧ Spec.Monotone [0, 1, 3] ∧ ∀ r ∈ [[1, 4, 2], [0, 3, (5 : ℝ)]], r.length = 3 := by
  refine ⟨Or.inl (by norm_num), Or.inl (by norm_num), by simp⟩

end Proposal
