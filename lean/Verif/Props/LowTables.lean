import Verif.Props.LowTableData
import Verif.Props.InterpLinear
import Verif.Props.BremsElectron
import Verif.Props.PhotonPairRates

/-!
# C137: the tables of corrections at low energies
-/

namespace Proposal

lemma line_le_line {x y y' : List ℝ} (hx : x.Pairwise (· < ·)) {t : ℝ} {i : ℕ} (hi : i + 1 < x.length) (h0 : x.getD i 0 ≤ t)
    (h1 : t ≤ x.getD (i + 1) 0) (ha : y.getD i 0 ≤ y'.getD i 0) (hb : y.getD (i + 1) 0 ≤ y'.getD (i + 1) 0) :
    Spec.line x y i t ≤ Spec.line x y' i t := by
  have hd := asc_lt hx (i := i) (j := i + 1) (by omega) hi
  unfold Spec.line
  set l := (t - x.getD i 0) / (x.getD (i + 1) 0 - x.getD i 0) with hl
  have l0 : 0 ≤ l := div_nonneg (by linarith) (by linarith)
  have l1 : l ≤ 1 := (div_le_one (by linarith)).2 (by linarith)
  nlinarith

/-- A point of the table lies in its cell. -/
lemma around_inside {x : List ℝ} (hx : x.Pairwise (· < ·)) {t : ℝ} {i : ℕ} (h : Spec.Around x t i) (h0 : x.getD 0 0 ≤ t)
    (h1 : t ≤ x.getD (x.length - 1) 0) : x.getD i 0 ≤ t ∧ t ≤ x.getD (i + 1) 0 := by
  obtain ⟨a, b⟩ := around_asc hx h
  constructor
  · rcases a with rfl | a
    · exact h0
    · exact a
  · rcases b with b | b
    · rw [show i + 1 = x.length - 1 by omega]
      exact h1
    · exact b

lemma forall₂_getD {a b : List ℝ} (h : List.Forall₂ (· ≤ ·) a b) (i : ℕ) : a.getD i 0 ≤ b.getD i 0 := by
  induction h generalizing i with
  | nil => simp
  | cons h1 _ ih =>
    cases i with
    | zero => simpa using h1
    | succ i => simpa using ih i

lemma map_getD {y : List (List ℝ)} (F : List ℝ → ℝ) {k : ℕ} (hk : k < y.length) : (y.map F).getD k 0 = F (y.getD k []) := by
  simp [List.getD_eq_getElem?_getD, List.getElem?_eq_getElem hk]

lemma getD_row {y : List (List ℝ)} {k : ℕ} (hk : k < y.length) : y.getD k [] ∈ y := by
  rw [show y.getD k [] = y[k]'(by omega) by simp [List.getD_eq_getElem?_getD, List.getElem?_eq_getElem hk]]
  exact List.getElem_mem _

lemma getD_entry {r : List ℝ} {k : ℕ} (hk : k < r.length) : r.getD k 0 ∈ r := by
  rw [getD_at r hk]
  exact List.getElem_mem _

/-- At a node the line has its ordinate. -/
lemma line_node {x : List ℝ} (hx : x.Pairwise (· < ·)) (y : List ℝ) {i j : ℕ} (hj : j < x.length) (hA : Spec.Around x (x.getD j 0) i) :
    Spec.line x y i (x.getD j 0) = y.getD j 0 := by
  rcases around_node (Or.inl hx) hj hA with rfl | rfl
  · exact line_left x y j
  · exact line_right hx y hA.1

/-! ## Pairs by photons -/

lemma kmEnergies_first : kmEnergies.getD 0 0 = 2 * ME := by
  show (1.0219978922 : ℝ) = 2 * ME
  norm_num [ME]

lemma kmEnergies_last : kmEnergies.getD (kmEnergies.length - 1) 0 = 99.9999814 := rfl

/-- The rows at an energy of the table ascend with the charge. -/
lemma km_rows_asc {E : ℝ} {j : ℕ} (hA : Spec.Around kmEnergies E j) (h0 : 2 * ME ≤ E) (h1 : E ≤ 99) :
    (kmCross.map fun r => Spec.line kmEnergies r j E).Pairwise (· ≤ ·) := by
  rw [List.pairwise_map]
  obtain ⟨a, b⟩ := around_inside kmEnergies_mono hA (by rw [kmEnergies_first]; exact h0) (by rw [kmEnergies_last]; norm_num; linarith)
  refine kmCross_columns.imp fun {r r'} h => ?_
  exact line_le_line kmEnergies_mono hA.1 a b (forall₂_getD h _) (forall₂_getD h _)

/-- C137: the table of total cross sections for pairs by photons at low energies. The interpolation does not depend on earlier calls, gives
the tabulated numbers at the nodes, is positive from the threshold on, and increases with charge and energy. -/
theorem C137_pair_table : ∃ T, kmInterp = .ok T ∧ ∃ σ : ℝ → ℝ → ℝ,
    (∀ U, Spec.Calls2 T U → ∀ Z E, ∃ V, U.interpolateArray Z E = .ok (σ Z E, V)) ∧
    (∀ k < 100, ∀ j < 17, σ (k + 1 : ℕ) (kmEnergies.getD j 0) = (kmCross.getD k []).getD j 0) ∧
    (∀ Z E, 1 ≤ Z → 2 * ME ≤ E → E ≤ 99 → Z ≤ 100 → 0 < σ Z E) ∧
    (∀ Z Z' E E', 1 ≤ Z → Z ≤ 100 → Z ≤ Z' → 2 * ME ≤ E → E ≤ E' → E' ≤ 99 → σ Z E ≤ σ Z' E') := by
  obtain ⟨T, e, h⟩ := C134_bilinear (x1 := kmZ) (x2 := kmEnergies) (y := kmCross) rfl (by show 2 ≤ 100; omega) (Or.inl kmZ_mono)
    (by show 2 ≤ 17; omega) (Or.inl kmEnergies_mono) kmCross_rows
  choose i j hi hj hv using h
  have hlen : kmZ.length = 100 := rfl
  have hlen' : kmCross.length = 100 := rfl
  have hZ0 : kmZ.getD 0 0 = 1 := rfl
  have hZ1 : kmZ.getD (kmZ.length - 1) 0 = 100 := rfl
  have hnode : ∀ k < 100, kmZ.getD k 0 = (k + 1 : ℕ) := by
    have : ∀ k : Fin 100, kmZ.getD k 0 = ((k : ℕ) + 1 : ℕ) := by
      intro k
      fin_cases k <;> simp [kmZ]
    intro k hk
    exact this ⟨k, hk⟩
  have hnodes : ∀ k < 100, ∀ jj < 17, Spec.line kmZ (kmCross.map fun r => Spec.line kmEnergies r (j (k + 1 : ℕ) (kmEnergies.getD jj 0)) (kmEnergies.getD jj 0))
      (i (k + 1 : ℕ) (kmEnergies.getD jj 0)) (k + 1 : ℕ) = (kmCross.getD k []).getD jj 0 := by
    intro k hk jj hjj
    rw [← hnode k hk, line_node kmZ_mono _ (by omega) (hi _ _), map_getD _ (by omega), line_node kmEnergies_mono _ (by show jj < 17; exact hjj) (hj _ _)]
  have hmono : ∀ Z Z' E E', 1 ≤ Z → Z ≤ 100 → Z ≤ Z' → 2 * ME ≤ E → E ≤ E' → E' ≤ 99 →
      Spec.line kmZ (kmCross.map fun r => Spec.line kmEnergies r (j Z E) E) (i Z E) Z ≤
        Spec.line kmZ (kmCross.map fun r => Spec.line kmEnergies r (j Z' E') E') (i Z' E') Z' := by
    intro Z Z' E E' h1 h2 h3 h4 h5 h6
    obtain ⟨a, b⟩ := around_inside kmZ_mono (hi Z E) (by rw [hZ0]; exact h1) (by rw [hZ1]; exact h2)
    have hcell := (hi Z E).1
    have hrow : ∀ k < 100, (kmCross.map fun r => Spec.line kmEnergies r (j Z E) E).getD k 0 ≤
        (kmCross.map fun r => Spec.line kmEnergies r (j Z' E') E').getD k 0 := by
      intro k hk
      rw [map_getD _ (by omega), map_getD _ (by omega)]
      exact line_mono kmEnergies_mono (kmCross_rows _ (getD_row (by omega))).symm (kmCross_asc _ (getD_row (by omega))) (hj Z E) (hj Z' E') h5
    refine (line_le_line kmZ_mono hcell a b (hrow _ (by omega)) (hrow _ (by omega))).trans ?_
    exact line_mono kmZ_mono (by simp [hlen, hlen']) (km_rows_asc (hj Z' E') (by linarith) h6) (hi Z E) (hi Z' E') h3
  refine ⟨T, e, fun Z E => Spec.line kmZ (kmCross.map fun r => Spec.line kmEnergies r (j Z E) E) (i Z E) Z, fun U hU Z E => hv Z E U hU, hnodes, ?_, hmono⟩
  intro Z E h1 h2 h3 h4
  refine lt_of_lt_of_le ?_ (hmono 1 Z (kmEnergies.getD 0 0) E le_rfl (by norm_num) h1 (by rw [kmEnergies_first]) (by rw [kmEnergies_first]; exact h2) h3)
  have := hnodes 0 (by norm_num) 0 (by norm_num)
  norm_num at this ⊢
  rw [this]
  show (0 : ℝ) < 2.80260456e-45
  norm_num

/-- C137: up to 50 MeV the total cross section that belongs to Koch and Motz is the tabulated one: positive for the charges of the table,
and not falling with energy. -/
theorem C137_pair_total : ∃ T, kmInterp = .ok T ∧ ∃ σ : ℝ → ℝ → ℝ,
    (∀ U, Spec.Calls2 T U → ∀ Z E, ∃ V, U.interpolateArray Z E = .ok (σ Z E, V)) ∧
    ∀ c : Component, 0 < c.atomicNum → 1 ≤ c.nucCharge → c.nucCharge ≤ 100 → ∀ lpm, ∃ total : ℝ → ℝ,
      (∀ E, 2 * ME ≤ E → E ≤ 50 → 0 < total E ∧
        ((∫ v in (limPhotoPair E).vMin..(limPhotoPair E).vMax, kochMotzWithoutA lpm c E v) ≠ 0 →
          ∃ f : ℝ → ℝ, (∀ v, kochMotz σ (fun f a b => ∫ x in a..b, f x) lpm c E v = some (f v)) ∧
            (∫ v in (limPhotoPair E).vMin..(limPhotoPair E).vMax, f v) = total E)) ∧
      ∀ E E', 2 * ME ≤ E → E ≤ E' → E' ≤ 50 → total E ≤ total E' := by
  obtain ⟨T, e, σ, h1, -, h3, h4⟩ := C137_pair_table
  refine ⟨T, e, σ, h1, fun c hA hZ hZ' lpm => ⟨fun E => σ c.nucCharge E * 1e-24 * (NAvogadro / c.atomicNum), ?_, ?_⟩⟩
  · intro E hE hE'
    have hna := na_pos'
    have := h3 c.nucCharge E hZ hE (by linarith) hZ'
    refine ⟨by positivity, fun hne => ?_⟩
    exact C125_koch_motz_normalized σ lpm c hA E hE' hne
  · intro E E' hE hEE hE'
    have hna := na_pos'
    have := h4 c.nucCharge c.nucCharge E E' hZ hZ' le_rfl hE hEE (by linarith)
    have h5 : 0 < 1e-24 * (NAvogadro / c.atomicNum) := by positivity
    show σ c.nucCharge E * 1e-24 * (NAvogadro / c.atomicNum) ≤ σ c.nucCharge E' * 1e-24 * (NAvogadro / c.atomicNum)
    rw [mul_assoc, mul_assoc]
    exact mul_le_mul_of_nonneg_right this h5.le

/-! ## Bremsstrahlung of electrons -/

lemma log_hundred : Real.log 100 ≤ 4.60517019 := by
  have h := Real.abs_log_sub_add_sum_range_le (x := 1 / 5) (by norm_num [abs_of_pos]) 15
  have e : Real.log 100 = 6 * Real.log 2 - 2 * Real.log (1 - 1 / 5) := by
    rw [show (100 : ℝ) = 2 ^ 6 / (1 - 1 / 5) ^ 2 by norm_num, Real.log_div (by norm_num) (by norm_num), Real.log_pow, Real.log_pow]
    push_cast
    ring
  have t2 := Real.log_two_lt_d9
  rw [e]
  rw [abs_le] at h
  have h1 := h.1
  norm_num [Finset.sum_range_succ, abs_of_pos] at h1 t2 ⊢
  linarith

lemma log_118 {Z : ℝ} (h0 : 0 < Z) (h : Z ≤ 118) : Real.log Z ≤ 4.60517019 + 0.18 := by
  have h1 : Real.log Z ≤ Real.log 118 := Real.log_le_log h0 h
  have e : Real.log 118 = Real.log 100 + Real.log 1.18 := by
    rw [← Real.log_mul (by norm_num) (by norm_num)]
    norm_num
  have h2 := Real.log_le_sub_one_of_pos (show (0 : ℝ) < 1.18 by norm_num)
  have h3 := log_hundred
  linarith

/-- A row of the table at an energy up to 12.5 GeV. -/
lemma a_row {r : List ℝ} (hr : r ∈ aCorrection) {t : ℝ} {j : ℕ} (hA : Spec.Around aEnergies t j) (h0 : 0 ≤ t) (h1 : t ≤ 12500) :
    0.7 ≤ Spec.line aEnergies r j t ∧ Spec.line aEnergies r j t ≤ 131 := by
  have hl : aEnergies.length = 115 := rfl
  have hlr := aCorrection_rows r hr
  have hb := aCorrection_bounds r hr
  have hj := hA.1
  have e0 : aEnergies.getD 0 0 = 1.0000e-3 := rfl
  have e1 : aEnergies.getD (aEnergies.length - 1) 0 = 1.25e4 := rfl
  have b1 := hb _ (getD_entry (r := r) (k := j) (by omega))
  have b2 := hb _ (getD_entry (r := r) (k := j + 1) (by omega))
  rcases le_or_gt 1.0000e-3 t with ht | ht
  · obtain ⟨a, b⟩ := around_inside aEnergies_mono hA (by rw [e0]; exact ht) (by rw [e1]; norm_num; linarith)
    have := line_between (y := r) (a := 0.7) (b := 81) aEnergies_mono hA.1 a b ⟨b1.1.le, b2.1.le⟩ ⟨b1.2, b2.2⟩
    exact ⟨this.1, this.2.trans (by norm_num)⟩
  · obtain ⟨a, -⟩ := around_asc aEnergies_mono hA
    have hj0 : j = 0 := by
      rcases a with a | a
      · exact a
      · by_contra hc
        have := asc_lt aEnergies_mono (i := 0) (j := j) (by omega) (by omega)
        rw [e0] at this
        linarith
    subst hj0
    obtain ⟨s1, s2⟩ := aCorrection_start r hr
    have e2 : aEnergies.getD (0 + 1) 0 = 1.2500e-3 := rfl
    unfold Spec.line
    rw [e0, e2]
    simp only [zero_add] at b1 b2 ⊢
    generalize r.getD 0 0 = p at *
    generalize r.getD 1 0 = q at *
    have e3 : (t - 1.0000e-3) / (1.2500e-3 - 1.0000e-3) = 4000 * t - 4 := by
      norm_num
      ring
    rw [e3]
    have c1 : 4000 * t - 4 ≤ 0 := by
      norm_num at ht
      linarith
    constructor
    · nlinarith [b1.1]
    · nlinarith

lemma forall_zip {a b : List ℝ} {k : ℕ} (ha : k < a.length) (hb : k < b.length) {P : ℝ × ℝ → Prop} (h : (List.zip a b).Forall P) :
    P (a.getD k 0, b.getD k 0) := by
  rw [List.forall_iff_forall_mem] at h
  refine h _ ?_
  rw [getD_at a ha, getD_at b hb]
  rw [List.mem_iff_getElem]
  exact ⟨k, by simp; omega, by simp⟩

/-- The last two rows at an energy. -/
lemma a_last {t : ℝ} {j : ℕ} (hA : Spec.Around aEnergies t j) (h0 : 0 ≤ t) (h1 : t ≤ 12500) :
    2.2 * Spec.line aEnergies (aCorrection.getD 12 []) j t < 3.2 * Spec.line aEnergies (aCorrection.getD 13 []) j t := by
  have hl : aEnergies.length = 115 := rfl
  have hl1 : (aCorrection.getD 12 []).length = 115 := rfl
  have hl2 : (aCorrection.getD 13 []).length = 115 := rfl
  have hj := hA.1
  have e0 : aEnergies.getD 0 0 = 1.0000e-3 := rfl
  have e1 : aEnergies.getD (aEnergies.length - 1) 0 = 1.25e4 := rfl
  have b1 := forall_zip (k := j) (by omega) (by omega) aCorrection_last
  have b2 := forall_zip (k := j + 1) (by omega) (by omega) aCorrection_last
  simp only at b1 b2
  rcases le_or_gt 1.0000e-3 t with ht | ht
  · obtain ⟨a, b⟩ := around_inside aEnergies_mono hA (by rw [e0]; exact ht) (by rw [e1]; norm_num; linarith)
    have hd := asc_lt aEnergies_mono (i := j) (j := j + 1) (by omega) hj
    unfold Spec.line
    set l := (t - aEnergies.getD j 0) / (aEnergies.getD (j + 1) 0 - aEnergies.getD j 0) with hl
    have l0 : 0 ≤ l := div_nonneg (by linarith) (by linarith)
    have l1 : l ≤ 1 := (div_le_one (by linarith)).2 (by linarith)
    rcases l0.lt_or_eq with l2 | l2
    · nlinarith
    · rw [← l2]
      linarith
  · obtain ⟨a, -⟩ := around_asc aEnergies_mono hA
    have hj0 : j = 0 := by
      rcases a with a | a
      · exact a
      · by_contra hc
        have := asc_lt aEnergies_mono (i := 0) (j := j) (by omega) (by omega)
        rw [e0] at this
        linarith
    subst hj0
    have e2 : aEnergies.getD (0 + 1) 0 = 1.2500e-3 := rfl
    have d1 : (aCorrection.getD 12 []).getD 0 0 = 1.6304e1 := rfl
    have d2 : (aCorrection.getD 12 []).getD (0 + 1) 0 = 1.5422e1 := rfl
    have d3 : (aCorrection.getD 13 []).getD 0 0 = 1.4735e1 := rfl
    have d4 : (aCorrection.getD 13 []).getD (0 + 1) 0 = 1.4059e1 := rfl
    unfold Spec.line
    rw [e0, e2, d1, d2, d3, d4]
    have e3 : (t - 1.0000e-3) / (1.2500e-3 - 1.0000e-3) = 4000 * t - 4 := by
      norm_num
      ring
    rw [e3]
    norm_num at ht ⊢
    linarith

/-- C137: the table of the correction factors for bremsstrahlung of electrons, called with the logarithm of the charge and the kinetic energy.
The interpolation does not depend on earlier calls, gives the tabulated numbers at the nodes, and lies between 0.7 and 131 for charges up to
100 and all kinetic energies up to 12.5 GeV, also below the first node at 1 keV. It stays positive when it is continued to the charge 118. -/
theorem C137_brems_factor : ∃ T, aInterp = .ok T ∧ ∃ A : ℝ → ℝ → ℝ,
    (∀ U, Spec.Calls2 T U → ∀ l t, ∃ V, U.interpolateArray l t = .ok (A l t, V)) ∧
    (∀ k < 14, ∀ j < 115, A (aLogZ.getD k 0) (aEnergies.getD j 0) = (aCorrection.getD k []).getD j 0) ∧
    (∀ Z t, 1 ≤ Z → Z ≤ 100 → 0 ≤ t → t ≤ 12500 → 0.7 ≤ A (Real.log Z) t ∧ A (Real.log Z) t ≤ 131) ∧
    (∀ Z t, 1 ≤ Z → Z ≤ 118 → 0 ≤ t → t ≤ 12500 → 0 < A (Real.log Z) t) := by
  obtain ⟨T, e, h⟩ := C134_bilinear (x1 := aLogZ) (x2 := aEnergies) (y := aCorrection) rfl (by show 2 ≤ 14; omega) (Or.inl aLogZ_mono)
    (by show 2 ≤ 115; omega) (Or.inl aEnergies_mono) aCorrection_rows
  choose i j hi hj hv using h
  have hlen : aLogZ.length = 14 := rfl
  have hlen' : aCorrection.length = 14 := rfl
  have hZ0 : aLogZ.getD 0 0 = 0 := rfl
  have hZ1 : aLogZ.getD (aLogZ.length - 1) 0 = 4.60517019 := rfl
  have hrow : ∀ l t, 0 ≤ t → t ≤ 12500 → ∀ k < 14, 0.7 ≤ (aCorrection.map fun r => Spec.line aEnergies r (j l t) t).getD k 0 ∧
      (aCorrection.map fun r => Spec.line aEnergies r (j l t) t).getD k 0 ≤ 131 := by
    intro l t h0 h1 k hk
    rw [map_getD _ (by omega)]
    exact a_row (getD_row (by omega)) (hj l t) h0 h1
  have hin : ∀ l t, 0 ≤ l → l ≤ 4.60517019 → 0 ≤ t → t ≤ 12500 →
      0.7 ≤ Spec.line aLogZ (aCorrection.map fun r => Spec.line aEnergies r (j l t) t) (i l t) l ∧
        Spec.line aLogZ (aCorrection.map fun r => Spec.line aEnergies r (j l t) t) (i l t) l ≤ 131 := by
    intro l t h0 h1 h2 h3
    have hcell := (hi l t).1
    obtain ⟨a, b⟩ := around_inside aLogZ_mono (hi l t) (by rw [hZ0]; exact h0) (by rw [hZ1]; exact h1)
    have r1 := hrow l t h2 h3 (i l t) (by omega)
    have r2 := hrow l t h2 h3 (i l t + 1) (by omega)
    exact line_between aLogZ_mono hcell a b ⟨r1.1, r2.1⟩ ⟨r1.2, r2.2⟩
  refine ⟨T, e, fun l t => Spec.line aLogZ (aCorrection.map fun r => Spec.line aEnergies r (j l t) t) (i l t) l, fun U hU l t => hv l t U hU, ?_, ?_, ?_⟩
  · intro k hk jj hjj
    show Spec.line aLogZ _ _ _ = _
    rw [line_node aLogZ_mono _ (by omega) (hi _ _), map_getD _ (by omega), line_node aEnergies_mono _ (by show jj < 115; exact hjj) (hj _ _)]
  · intro Z t h0 h1 h2 h3
    exact hin _ t (Real.log_nonneg h0) ((Real.log_le_log (by linarith) h1).trans log_hundred) h2 h3
  · intro Z t h0 h1 h2 h3
    have hl0 := Real.log_nonneg h0
    have hl1 := log_118 (by linarith) h1
    show 0 < Spec.line aLogZ (aCorrection.map fun r => Spec.line aEnergies r (j (Real.log Z) t) t) (i (Real.log Z) t) (Real.log Z)
    generalize Real.log Z = l at *
    rcases le_or_gt l 4.60517019 with hle | hgt
    · exact lt_of_lt_of_le (by norm_num) (hin l t hl0 hle h2 h3).1
    · have hcell := (hi l t).1
      have hi12 : i l t = 12 := by
        obtain ⟨-, b⟩ := around_asc aLogZ_mono (hi l t)
        rcases b with b | b
        · omega
        · by_contra hc
          have := asc_lt aLogZ_mono (i := i l t + 1) (j := 13) (by omega) (by omega)
          rw [show aLogZ.getD 13 0 = 4.60517019 from rfl] at this
          linarith
      have r1 := hrow l t h2 h3 13 (by norm_num)
      have r2 := a_last (hj l t) h2 h3
      rw [hi12]
      unfold Spec.line at r2 ⊢
      rw [map_getD _ (by omega)] at r1
      rw [map_getD _ (by omega), map_getD _ (by omega), show aLogZ.getD 12 0 = 4.52178858 from rfl, show aLogZ.getD (12 + 1) 0 = 4.60517019 from rfl]
      unfold Spec.line at r1
      generalize (aCorrection.getD 12 []).getD (j l t) 0 + _ = p at *
      generalize (aCorrection.getD 13 []).getD (j l t) 0 + _ = q at *
      have e3 : (l - 4.52178858) / (4.60517019 - 4.52178858) = 1 + (l - 4.60517019) / (4.60517019 - 4.52178858) := by
        norm_num
        ring
      rw [e3]
      set w := (l - 4.60517019) / (4.60517019 - 4.52178858) with hw
      have w0 : 0 ≤ w := div_nonneg (by linarith) (by norm_num)
      have w1 : w ≤ 2.2 := by
        rw [hw, div_le_iff₀ (by norm_num)]
        norm_num at hl1 ⊢
        linarith
      have r3 := r1.1
      norm_num at w1 r2 r3
      rcases le_or_gt p q with hpq | hpq
      · nlinarith
      · nlinarith

/-- C137: the default parametrization of bremsstrahlung for electrons and positrons with its table is positive below 50 MeV for every
element and every loss within the limits; the assumption of `C126_electron_positive_partial` holds. -/
theorem C137_brems_positive : ∃ T, aInterp = .ok T ∧ ∃ A : ℝ → ℝ → ℝ,
    (∀ U, Spec.Calls2 T U → ∀ l t, ∃ V, U.interpolateArray l t = .ok (A l t, V)) ∧
    ∀ n : ℕ, 1 ≤ n → n ≤ 118 → ∀ c : Component, c.nucCharge = n → 0 < c.atomicNum → ∀ z E v : ℝ, z ≠ 0 → ME < E → 0 < v →
      v ≤ (limBremsDefault ME E).vMax → E < 50 ∨ n ≤ 45 ∨ 2 * ME ≤ E * (1 - v) → 0 < bremsElectronDiff none A ME z c E v := by
  obtain ⟨T, e, A, h1, -, -, h4⟩ := C137_brems_factor
  refine ⟨T, e, A, h1, fun n n1 n2 c hc hA z E v hz hE h0 hv hcase => ?_⟩
  have hme := me_pos'
  exact C126_electron_positive_partial A n n1 n2 c hc hA z E v hz hE h0 hv
    (fun h => h4 n (E - ME) (by exact_mod_cast n1) (by exact_mod_cast n2) (by linarith) (by linarith)) hcase

/-- The hypotheses of `C137_brems_positive` for oxygen and an electron of 10 MeV that loses half of its energy. -/
example : ME < (10 : ℝ) ∧ (1 / 2 : ℝ) ≤ (limBremsDefault ME 10).vMax ∧ exO.nucCharge = (8 : ℕ) ∧ 0 < exO.atomicNum := by
  norm_num [ME, limBremsDefault, exO]

end Proposal
