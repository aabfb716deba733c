import Verif.Lemmas.Halley
import Verif.Model.MultipleScattering

/-! # The approximation of the normal quantile in the centre -/

namespace Proposal
open Spec IntPoly


/-- Numerator and denominator of the approximation in the centre, times 10^15. -/
def ctrN : List ℤ := [0, 2506628277459239, 0, -30664798066147160, 0, 138357751867269000, 0, -275928510446968700, 0, 220946098424520500, 0, -39696830286653760]
def ctrD : List ℤ := [1000000000000000, 0, -13280681552885720, 0, 66801311887719720, 0, -155698979859886600, 0, 161585836858040900, 0, -54476098798224060]

lemma ctr_eq (q : ℝ) : ppfCentre (0.5 + q) = ev q ctrN / ev q ctrD := by
  unfold ppfCentre
  simp only [add_sub_cancel_left]
  rw [← mul_div_mul_left _ _ (by norm_num : (10 ^ 15 : ℝ) ≠ 0)]
  congr 1
  · simp only [ctrN, ev]
    push_cast
    ring
  · simp only [ctrD, ev]
    push_cast
    ring

lemma ctr_range {q : ℝ} (h0 : 0 ≤ q) (h1 : q ≤ 0.47575) : ((0 : ℤ) : ℝ) / (100000 : ℤ) ≤ q ∧ q ≤ ((47575 : ℤ) : ℝ) / (100000 : ℤ) := by
  norm_num at h1 ⊢
  exact ⟨h0, h1⟩

lemma ctr_D {q : ℝ} (h0 : 0 ≤ q) (h1 : q ≤ 0.47575) : 0 < ev q ctrD := by
  have := certified (l := sub ctrD [1]) (a := 0) (b := 47575) (d := 100000) (by decide +kernel) (by norm_num) (by norm_num) (ctr_range h0 h1).1 (ctr_range h0 h1).2
  rw [ev_sub] at this
  simp only [ev] at this
  norm_num at this
  linarith

lemma ctr_P {q : ℝ} (h0 : 0 ≤ q) (h1 : q ≤ 0.47575) : 0 < ev q (qP ctrN ctrD) := by
  have := certified (l := sub (qP ctrN ctrD) [1]) (a := 0) (b := 47575) (d := 100000) (by decide +kernel) (by norm_num) (by norm_num)
    (ctr_range h0 h1).1 (ctr_range h0 h1).2
  rw [ev_sub] at this
  simp only [ev] at this
  norm_num at this
  linarith

/-- The approximation and its slope. -/
lemma ctr_bounds {q : ℝ} (h0 : 0 ≤ q) (h1 : q ≤ 0.47575) :
    0 ≤ ev q ctrN / ev q ctrD ∧ ev q ctrN / ev q ctrD ≤ 1.98 ∧ ev q (qP ctrN ctrD) / ev q ctrD ^ 2 ≤ 17.6 := by
  have r := ctr_range h0 h1
  have hD := ctr_D h0 h1
  have c1 := certified (l := ctrN) (a := 0) (b := 47575) (d := 100000) (by decide +kernel) (by norm_num) (by norm_num) r.1 r.2
  have c2 := certified (l := sub (smul 198 ctrD) (smul 100 ctrN)) (a := 0) (b := 47575) (d := 100000) (by decide +kernel) (by norm_num) (by norm_num) r.1 r.2
  have c3 := certified (l := sub (smul 176 (mul ctrD ctrD)) (smul 10 (qP ctrN ctrD))) (a := 0) (b := 47575) (d := 100000) (by decide +kernel)
    (by norm_num) (by norm_num) r.1 r.2
  rw [ev_sub, ev_smul, ev_smul] at c2 c3
  rw [ev_mul] at c3
  push_cast at c2 c3
  refine ⟨div_nonneg c1 hD.le, ?_, ?_⟩
  · rw [div_le_iff₀ hD]
    norm_num
    linarith
  · rw [div_le_iff₀ (by positivity)]
    norm_num
    nlinarith

lemma ctr_step {k m a b d : ℤ} (h : within k m (qNum ctrN ctrD) (qDen ctrN ctrD) a b d = true) (hd : 0 < d) (ha : 0 ≤ a) (hab : a < b)
    (hb : (b : ℝ) / d ≤ 0.47575) (hm : 0 < m) {q r : ℝ} (hq1 : (a : ℝ) / d ≤ q) (hq2 : q ≤ b / d) (hr1 : (a : ℝ) / d ≤ r) (hr2 : r ≤ b / d) :
    |qLog ctrN ctrD r - qLog ctrN ctrD q| ≤ k / m * |r - q| := by
  have h0 : (0 : ℝ) ≤ (a : ℝ) / d := div_nonneg (by exact_mod_cast ha) (by exact_mod_cast hd.le)
  exact qLog_step h hd hab hm (fun x h1 h2 => ctr_D (h0.trans h1) (h2.trans hb)) (fun x h1 h2 => ctr_P (h0.trans h1) (h2.trans hb)) hq1 hq2 hr1 hr2

lemma ctr_step1 {q r : ℝ} (hq1 : 0 ≤ q) (hq2 : q ≤ 2/5) (hr1 : 0 ≤ r) (hr2 : r ≤ 2/5) :
    |qLog ctrN ctrD r - qLog ctrN ctrD q| ≤ 2 / 1000000 * |r - q| := by
  have := ctr_step (k := 2) (m := 1000000) (a := 0) (b := 4000) (d := 10000) (by decide +kernel) (by norm_num) (by norm_num)
    (by norm_num) (by norm_num) (by norm_num) (q := q) (r := r) (by norm_num; linarith) (by norm_num; linarith) (by norm_num; linarith) (by norm_num; linarith)
  push_cast at this
  exact this

lemma ctr_step2 {q r : ℝ} (hq1 : 2/5 ≤ q) (hq2 : q ≤ 9/20) (hr1 : 2/5 ≤ r) (hr2 : r ≤ 9/20) :
    |qLog ctrN ctrD r - qLog ctrN ctrD q| ≤ 75 / 10000000 * |r - q| := by
  have := ctr_step (k := 75) (m := 10000000) (a := 4000) (b := 4500) (d := 10000) (by decide +kernel) (by norm_num) (by norm_num)
    (by norm_num) (by norm_num) (by norm_num) (q := q) (r := r) (by norm_num; linarith) (by norm_num; linarith) (by norm_num; linarith) (by norm_num; linarith)
  push_cast at this
  exact this

lemma ctr_step3 {q r : ℝ} (hq1 : 9/20 ≤ q) (hq2 : q ≤ 233/500) (hr1 : 9/20 ≤ r) (hr2 : r ≤ 233/500) :
    |qLog ctrN ctrD r - qLog ctrN ctrD q| ≤ 18 / 1000000 * |r - q| := by
  have := ctr_step (k := 18) (m := 1000000) (a := 4500) (b := 4660) (d := 10000) (by decide +kernel) (by norm_num) (by norm_num)
    (by norm_num) (by norm_num) (by norm_num) (q := q) (r := r) (by norm_num; linarith) (by norm_num; linarith) (by norm_num; linarith) (by norm_num; linarith)
  push_cast at this
  exact this

lemma ctr_step4 {q r : ℝ} (hq1 : 233/500 ≤ q) (hq2 : q ≤ 473/1000) (hr1 : 233/500 ≤ r) (hr2 : r ≤ 473/1000) :
    |qLog ctrN ctrD r - qLog ctrN ctrD q| ≤ 5 / 100000 * |r - q| := by
  have := ctr_step (k := 5) (m := 100000) (a := 4660) (b := 4730) (d := 10000) (by decide +kernel) (by norm_num) (by norm_num)
    (by norm_num) (by norm_num) (by norm_num) (q := q) (r := r) (by norm_num; linarith) (by norm_num; linarith) (by norm_num; linarith) (by norm_num; linarith)
  push_cast at this
  exact this

lemma ctr_step5 {q r : ℝ} (hq1 : 473/1000 ≤ q) (hq2 : q ≤ 949/2000) (hr1 : 473/1000 ≤ r) (hr2 : r ≤ 949/2000) :
    |qLog ctrN ctrD r - qLog ctrN ctrD q| ≤ 21 / 100000 * |r - q| := by
  have := ctr_step (k := 21) (m := 100000) (a := 4730) (b := 4745) (d := 10000) (by decide +kernel) (by norm_num) (by norm_num)
    (by norm_num) (by norm_num) (by norm_num) (q := q) (r := r) (by norm_num; linarith) (by norm_num; linarith) (by norm_num; linarith) (by norm_num; linarith)
  push_cast at this
  exact this

lemma ctr_step6 {q r : ℝ} (hq1 : 949/2000 ≤ q) (hq2 : q ≤ 19030/40000) (hr1 : 949/2000 ≤ r) (hr2 : r ≤ 19030/40000) :
    |qLog ctrN ctrD r - qLog ctrN ctrD q| ≤ 6 / 10000 * |r - q| := by
  have := ctr_step (k := 6) (m := 10000) (a := 47450) (b := 47575) (d := 100000) (by decide +kernel) (by norm_num) (by norm_num)
    (by norm_num) (by norm_num) (by norm_num) (q := q) (r := r) (by norm_num; linarith) (by norm_num; linarith) (by norm_num; linarith) (by norm_num; linarith)
  push_cast at this
  exact this

/-- The change of `qLog` from the middle on. -/
lemma ctr_change {q : ℝ} (h0 : 0 ≤ q) (h1 : q ≤ 0.47575) : |qLog ctrN ctrD q - qLog ctrN ctrD 0| ≤ 2.94e-6 := by
  have s1 := @ctr_step1
  have s2 := @ctr_step2
  have s3 := @ctr_step3
  have s4 := @ctr_step4
  have s5 := @ctr_step5
  have s6 := @ctr_step6
  generalize qLog ctrN ctrD = f at *
  norm_num at h1 ⊢
  have t1 := s1 (q := 0) (r := (2 / 5)) (by norm_num) (by norm_num) (by norm_num) (by norm_num)
  have t2 := s2 (q := (2 / 5)) (r := (9 / 20)) (by norm_num) (by norm_num) (by norm_num) (by norm_num)
  have t3 := s3 (q := (9 / 20)) (r := (233 / 500)) (by norm_num) (by norm_num) (by norm_num) (by norm_num)
  have t4 := s4 (q := (233 / 500)) (r := (473 / 1000)) (by norm_num) (by norm_num) (by norm_num) (by norm_num)
  have t5 := s5 (q := (473 / 1000)) (r := (949 / 2000)) (by norm_num) (by norm_num) (by norm_num) (by norm_num)
  norm_num [abs_le] at t1 t2 t3 t4 t5
  rw [abs_le]
  rcases le_total q (2 / 5) with a | a
  · have t := s1 (q := 0) (r := q) le_rfl (by norm_num) h0 (by linarith)
    rw [sub_zero, abs_of_nonneg h0, abs_le] at t
    constructor <;> linarith
  rcases le_total q (9 / 20) with b | b
  · have t := s2 (q := (2 / 5)) (r := q) le_rfl (by norm_num) a (by linarith)
    rw [abs_of_nonneg (sub_nonneg.2 a), abs_le] at t
    constructor <;> linarith
  rcases le_total q (233 / 500) with c | c
  · have t := s3 (q := (9 / 20)) (r := q) le_rfl (by norm_num) b (by linarith)
    rw [abs_of_nonneg (sub_nonneg.2 b), abs_le] at t
    constructor <;> linarith
  rcases le_total q (473 / 1000) with d | d
  · have t := s4 (q := (233 / 500)) (r := q) le_rfl (by norm_num) c (by linarith)
    rw [abs_of_nonneg (sub_nonneg.2 c), abs_le] at t
    constructor <;> linarith
  rcases le_total q (949 / 2000) with e | e
  · have t := s5 (q := (473 / 1000)) (r := q) le_rfl (by norm_num) d (by linarith)
    rw [abs_of_nonneg (sub_nonneg.2 d), abs_le] at t
    constructor <;> linarith
  · have t := s6 (q := (949 / 2000)) (r := q) le_rfl (by norm_num) e (by linarith)
    rw [abs_of_nonneg (sub_nonneg.2 e), abs_le] at t
    constructor <;> linarith

end Proposal
