import Verif.Lemmas.QuantileError

/-! # The approximation of the normal quantile in the tails -/

namespace Proposal
open Spec IntPoly

/-- Numerator and denominator of the approximation in the tails, times 10^18. -/
def tailN : List ℤ := [2938163982698783000, 4374664141464968000, -2549732539343734000, -2400758277161838000, -322396458041136500, -7784894002430293]
def tailD : List ℤ := [1000000000000000000, 3754408661907416000, 2445134137142996000, 322467129070039800, 7784695709041462]

lemma tail_eq (p : ℝ) : ppfTail p = ev (Real.sqrt (-2 * Real.log p)) tailN / ev (Real.sqrt (-2 * Real.log p)) tailD := by
  unfold ppfTail
  simp only
  generalize Real.sqrt (-2 * Real.log p) = q
  rw [← mul_div_mul_left _ _ (by norm_num : (10 ^ 18 : ℝ) ≠ 0)]
  congr 1
  · simp only [tailN, ev]
    push_cast
    ring
  · simp only [tailD, ev]
    push_cast
    ring

lemma tail_range {q : ℝ} (h0 : 2.64 ≤ q) (h1 : q ≤ 40) : ((264 : ℤ) : ℝ) / (100 : ℤ) ≤ q ∧ q ≤ ((4000 : ℤ) : ℝ) / (100 : ℤ) := by
  norm_num at h0 h1 ⊢
  exact ⟨h0, h1⟩

lemma tail_D {q : ℝ} (h0 : 0 ≤ q) : 0 < ev q tailD := by
  simp only [tailD, ev]
  push_cast
  positivity

/-- The approximation and its slope. -/
lemma tail_bounds {q : ℝ} (h0 : 2.64 ≤ q) (h1 : q ≤ 40) :
    ev q tailN / ev q tailD ≤ -1 ∧ ev q (qP tailN tailD) / ev q tailD ^ 2 ≤ -1 ∧ -1.2 ≤ ev q (qP tailN tailD) / ev q tailD ^ 2 ∧
      (ev q tailN / ev q tailD) * (ev q (qP tailN tailD) / ev q tailD ^ 2) ≤ q := by
  have r := tail_range h0 h1
  have hD : 0 < ev q tailD := tail_D (by norm_num at h0; linarith)
  have c1 := certified (l := sub (smul (-1) tailN) tailD) (a := 264) (b := 4000) (d := 100) (by decide +kernel) (by norm_num) (by norm_num) r.1 r.2
  have c2 := certified (l := sub (smul (-1) (qP tailN tailD)) (mul tailD tailD)) (a := 264) (b := 4000) (d := 100) (by decide +kernel) (by norm_num)
    (by norm_num) r.1 r.2
  have c3 := certified (l := add (smul 10 (qP tailN tailD)) (smul 12 (mul tailD tailD))) (a := 264) (b := 4000) (d := 100) (by decide +kernel)
    (by norm_num) (by norm_num) r.1 r.2
  have c4 := certified (l := sub (mul [0, 1] (mul tailD (mul tailD tailD))) (mul tailN (qP tailN tailD))) (a := 264) (b := 4000) (d := 100)
    (by decide +kernel) (by norm_num) (by norm_num) r.1 r.2
  simp only [ev_sub, ev_add, ev_smul, ev_mul] at c1 c2 c3 c4
  simp only [ev] at c4
  rw [show ((0 : ℤ) : ℝ) + q * (((1 : ℤ) : ℝ) + q * 0) = q by push_cast; ring] at c4
  push_cast at c1 c2 c3
  have h2 : 0 < ev q tailD ^ 2 := by positivity
  refine ⟨?_, ?_, ?_, ?_⟩
  · rw [div_le_iff₀ hD]
    linarith
  · rw [div_le_iff₀ h2]
    nlinarith
  · rw [le_div_iff₀ h2]
    norm_num
    nlinarith
  · rw [div_mul_div_comm, div_le_iff₀ (by positivity)]
    linarith

lemma tail_P {q : ℝ} (h0 : 2.64 ≤ q) (h1 : q ≤ 40) : ev q (qP tailN tailD) < 0 := by
  have h := (tail_bounds h0 h1).2.1
  have hD : 0 < ev q tailD := tail_D (by norm_num at h0; linarith)
  rw [div_le_iff₀ (by positivity)] at h
  have : 0 < ev q tailD ^ 2 := by positivity
  linarith

lemma tail_step {k m a b d : ℤ} (h : within k m (tNum tailN tailD) (tDen tailN tailD) a b d = true) (hd : 0 < d) (ha : 0 < a)
    (ha' : 2.64 ≤ (a : ℝ) / d) (hab : a < b)
    (hb : (b : ℝ) / d ≤ 40) (hm : 0 < m) {q r : ℝ} (hq1 : (a : ℝ) / d ≤ q) (hq2 : q ≤ b / d) (hr1 : (a : ℝ) / d ≤ r) (hr2 : r ≤ b / d) :
    |tLog tailN tailD r - tLog tailN tailD q| ≤ k / m * |r - q| :=
  tLog_step h hd ha hab hm (fun x h1 _ => tail_D (by norm_num at ha'; linarith)) (fun x h1 h2 => tail_P (ha'.trans h1) (h2.trans hb)) hq1 hq2 hr1 hr2

lemma tail_step1 {q r : ℝ} (hq1 : 66/25 ≤ q) (hq2 : q ≤ 3) (hr1 : 66/25 ≤ r) (hr2 : r ≤ 3) :
    |tLog tailN tailD r - tLog tailN tailD q| ≤ 5 / 1000000 * |r - q| := by
  have := tail_step (k := 5) (m := 1000000) (a := 264) (b := 300) (d := 100) (by decide +kernel) (by norm_num) (by norm_num)
    (by norm_num) (by norm_num) (by norm_num) (by norm_num) (q := q) (r := r) (by norm_num; linarith) (by norm_num; linarith) (by norm_num; linarith) (by norm_num; linarith)
  push_cast at this
  exact this

lemma tail_step2 {q r : ℝ} (hq1 : 3 ≤ q) (hq2 : q ≤ 6) (hr1 : 3 ≤ r) (hr2 : r ≤ 6) :
    |tLog tailN tailD r - tLog tailN tailD q| ≤ 3 / 10000000 * |r - q| := by
  have := tail_step (k := 3) (m := 10000000) (a := 3) (b := 6) (d := 1) (by decide +kernel) (by norm_num) (by norm_num)
    (by norm_num) (by norm_num) (by norm_num) (by norm_num) (q := q) (r := r) (by norm_num; linarith) (by norm_num; linarith) (by norm_num; linarith) (by norm_num; linarith)
  push_cast at this
  exact this

lemma tail_step3 {q r : ℝ} (hq1 : 6 ≤ q) (hq2 : q ≤ 30) (hr1 : 6 ≤ r) (hr2 : r ≤ 30) :
    |tLog tailN tailD r - tLog tailN tailD q| ≤ 5 / 10000000 * |r - q| := by
  have := tail_step (k := 5) (m := 10000000) (a := 6) (b := 30) (d := 1) (by decide +kernel) (by norm_num) (by norm_num)
    (by norm_num) (by norm_num) (by norm_num) (by norm_num) (q := q) (r := r) (by norm_num; linarith) (by norm_num; linarith) (by norm_num; linarith) (by norm_num; linarith)
  push_cast at this
  exact this

lemma tail_step4 {q r : ℝ} (hq1 : 30 ≤ q) (hq2 : q ≤ 36) (hr1 : 30 ≤ r) (hr2 : r ≤ 36) :
    |tLog tailN tailD r - tLog tailN tailD q| ≤ 1 / 1000000 * |r - q| := by
  have := tail_step (k := 1) (m := 1000000) (a := 30) (b := 36) (d := 1) (by decide +kernel) (by norm_num) (by norm_num)
    (by norm_num) (by norm_num) (by norm_num) (by norm_num) (q := q) (r := r) (by norm_num; linarith) (by norm_num; linarith) (by norm_num; linarith) (by norm_num; linarith)
  push_cast at this
  exact this

lemma tail_step5 {q r : ℝ} (hq1 : 36 ≤ q) (hq2 : q ≤ 40) (hr1 : 36 ≤ r) (hr2 : r ≤ 40) :
    |tLog tailN tailD r - tLog tailN tailD q| ≤ 5 / 1000000 * |r - q| := by
  have := tail_step (k := 5) (m := 1000000) (a := 36) (b := 40) (d := 1) (by decide +kernel) (by norm_num) (by norm_num)
    (by norm_num) (by norm_num) (by norm_num) (by norm_num) (q := q) (r := r) (by norm_num; linarith) (by norm_num; linarith) (by norm_num; linarith) (by norm_num; linarith)
  push_cast at this
  exact this

/-- The change of `tLog` from 3.3 on. -/
lemma tail_change {q : ℝ} (h0 : 2.64 ≤ q) (h1 : q ≤ 40) : |tLog tailN tailD q - tLog tailN tailD 3.3| ≤ 3.9e-5 := by
  have s1 := @tail_step1
  have s2 := @tail_step2
  have s3 := @tail_step3
  have s4 := @tail_step4
  have s5 := @tail_step5
  generalize tLog tailN tailD = f at *
  norm_num at h0 h1 ⊢
  have t2 := s2 (q := 3.3) (r := 6) (by norm_num) (by norm_num) (by norm_num) (by norm_num)
  have t2' := s2 (q := 3.3) (r := 3) (by norm_num) (by norm_num) (by norm_num) (by norm_num)
  have t3 := s3 (q := 6) (r := 30) (by norm_num) (by norm_num) (by norm_num) (by norm_num)
  have t4 := s4 (q := 30) (r := 36) (by norm_num) (by norm_num) (by norm_num) (by norm_num)
  norm_num [abs_le] at t2 t2' t3 t4
  rw [abs_le]
  rcases le_total q 3 with a | a
  · have t := s1 (q := 3) (r := q) (by norm_num) le_rfl (by linarith) a
    rw [abs_sub_comm q, abs_of_nonneg (sub_nonneg.2 a), abs_le] at t
    constructor <;> linarith
  rcases le_total q 6 with b | b
  · have t := s2 (q := 3.3) (r := q) (by norm_num) (by norm_num) a b
    have : |q - 3.3| ≤ 2.7 := by rw [abs_le]; norm_num; constructor <;> linarith
    norm_num at this t
    rw [abs_le] at t
    constructor <;> linarith
  rcases le_total q 30 with c | c
  · have t := s3 (q := 6) (r := q) le_rfl (by norm_num) b c
    rw [abs_of_nonneg (sub_nonneg.2 b), abs_le] at t
    constructor <;> linarith
  rcases le_total q 36 with d | d
  · have t := s4 (q := 30) (r := q) le_rfl (by norm_num) c d
    rw [abs_of_nonneg (sub_nonneg.2 c), abs_le] at t
    constructor <;> linarith
  · have t := s5 (q := 36) (r := q) le_rfl (by norm_num) d h1
    rw [abs_of_nonneg (sub_nonneg.2 d), abs_le] at t
    constructor <;> linarith

end Proposal
