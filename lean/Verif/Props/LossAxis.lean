import Verif.Model.LossAxis
import Mathlib.Tactic.Linarith
import Mathlib.Tactic.FieldSimp
import Mathlib.Tactic.Positivity

/-!
# Loss axis transformations (C35)
-/

namespace Proposal

open Real

/-- A pair of coordinate changes between [0, 1] and [a, b]: both are defined on their interval, stay in
the other one, map the ends to the ends, increase strictly and undo each other. -/
structure Spec.InverseCoordinates (there back' : ℝ → Option ℝ) (a b : ℝ) : Prop where
  range : ∀ x, 0 ≤ x → x ≤ 1 → ∃ v, there x = some v ∧ a ≤ v ∧ v ≤ b ∧ back' v = some x
  back : ∀ v, a ≤ v → v ≤ b → ∃ x, back' v = some x ∧ 0 ≤ x ∧ x ≤ 1 ∧ there x = some v
  low : there 0 = some a
  high : there 1 = some b
  mono : ∀ x y v w, 0 ≤ x → x < y → y ≤ 1 → there x = some v → there y = some w → v < w

open Spec

private lemma rel_inner (a b c x : ℝ) (ha : 0 < a) (hab : a < b) (h0 : 0 ≤ x) (h1 : x < 1) :
    transformRel a b x c = some (a * exp (x ^ c * log (b / a))) := by
  unfold transformRel
  rw [if_neg (by push Not; exact ⟨h0, by linarith⟩), if_neg (by linarith), if_neg ha.ne']

private lemma rel_one (a b c : ℝ) (ha : 0 < a) (hab : a < b) : transformRel a b 1 c = some b := by
  unfold transformRel
  rw [if_neg (by push Not; exact ⟨by norm_num, by linarith⟩), if_pos (by norm_num)]

private lemma relative (a b c : ℝ) (ha : 0 < a) (hab : a < b) (hc : 0 < c) :
    InverseCoordinates (fun x => transformRel a b x c) (fun v => retransformRel a b v c) a b := by
  have hL : 0 < log (b / a) := log_pos (by rw [lt_div_iff₀ ha]; linarith)
  have hpow1 : ∀ x : ℝ, 0 ≤ x → x < 1 → x ^ c < 1 := fun x h0 h1 => rpow_lt_one h0 h1 hc
  have hb : a * exp (log (b / a)) = b := by
    rw [exp_log (div_pos (by linarith) ha)]; field_simp
  have hlt : ∀ x : ℝ, 0 ≤ x → x < 1 → a * exp (x ^ c * log (b / a)) < b := by
    intro x h0 h1
    rw [← hb]
    have := hpow1 x h0 h1
    apply mul_lt_mul_of_pos_left _ ha
    rw [hb]
    apply exp_lt_exp.2
    nlinarith
  have hge : ∀ x : ℝ, 0 ≤ x → a ≤ a * exp (x ^ c * log (b / a)) := by
    intro x h0
    have : 1 ≤ exp (x ^ c * log (b / a)) := one_le_exp (mul_nonneg (rpow_nonneg h0 c) hL.le)
    nlinarith
  have hret : ∀ x : ℝ, 0 ≤ x → x < 1 → retransformRel a b (a * exp (x ^ c * log (b / a))) c = some x := by
    intro x h0 h1
    unfold retransformRel
    rcases h0.eq_or_lt with rfl | h0
    · rw [zero_rpow hc.ne', zero_mul, exp_zero, mul_one, if_pos le_rfl]
    · have hg : a < a * exp (x ^ c * log (b / a)) := by
        have : 1 < exp (x ^ c * log (b / a)) := one_lt_exp_iff.2 (mul_pos (rpow_pos_of_pos h0 c) hL)
        nlinarith
      rw [if_neg (not_le.2 hg), if_neg (not_le.2 (hlt x h0.le h1)), if_neg ha.ne',
        mul_div_cancel_left₀ _ ha.ne', log_exp, mul_div_cancel_right₀ _ hL.ne', one_div,
        rpow_rpow_inv h0.le hc.ne']
  refine ⟨?_, ?_, ?_, rel_one a b c ha hab, ?_⟩
  · intro x h0 h1
    rcases h1.eq_or_lt with rfl | h1
    · refine ⟨b, rel_one a b c ha hab, hab.le, le_rfl, ?_⟩
      simp only [retransformRel]
      rw [if_neg (not_le.2 hab), if_pos le_rfl]
    · exact ⟨_, rel_inner a b c x ha hab h0 h1, hge x h0, (hlt x h0 h1).le, hret x h0 h1⟩
  · intro v h0 h1
    rcases h0.eq_or_lt with rfl | h0
    · refine ⟨0, ?_, le_rfl, zero_le_one, ?_⟩
      · simp only [retransformRel]; rw [if_pos le_rfl]
      · rw [rel_inner a b c 0 ha hab le_rfl one_pos, zero_rpow hc.ne']
        simp
    · rcases h1.eq_or_lt with rfl | h1
      · refine ⟨1, ?_, zero_le_one, le_rfl, rel_one a v c ha hab⟩
        simp only [retransformRel]
        rw [if_neg (not_le.2 hab), if_pos le_rfl]
      · have hv : 0 < log (v / a) := log_pos (by rw [lt_div_iff₀ ha]; linarith)
        have hvb : log (v / a) < log (b / a) :=
          log_lt_log (div_pos (by linarith) ha) (by gcongr)
        have hq0 : 0 < log (v / a) / log (b / a) := div_pos hv hL
        have hq1 : log (v / a) / log (b / a) < 1 := by rw [div_lt_one hL]; exact hvb
        have hx1 : (log (v / a) / log (b / a)) ^ (1 / c) < 1 :=
          rpow_lt_one hq0.le hq1 (by positivity)
        refine ⟨(log (v / a) / log (b / a)) ^ (1 / c), ?_, rpow_nonneg hq0.le _, hx1.le, ?_⟩
        · simp only [retransformRel]
          rw [if_neg (not_le.2 h0), if_neg (not_le.2 h1), if_neg ha.ne']
        · rw [rel_inner a b c _ ha hab (rpow_nonneg hq0.le _) hx1, one_div,
            rpow_inv_rpow hq0.le hc.ne', div_mul_cancel₀ _ hL.ne', exp_log (div_pos (by linarith) ha)]
          congr 1
          field_simp
  · rw [rel_inner a b c 0 ha hab le_rfl one_pos, zero_rpow hc.ne']
    simp
  · intro x y v w h0 hxy h1 hx hy
    rw [rel_inner a b c x ha hab h0 (by linarith)] at hx
    obtain rfl := Option.some.inj hx
    rcases h1.eq_or_lt with rfl | h1
    · rw [rel_one a b c ha hab] at hy
      obtain rfl := Option.some.inj hy
      exact hlt x h0 hxy
    · rw [rel_inner a b c y ha hab (by linarith) h1] at hy
      obtain rfl := Option.some.inj hy
      apply mul_lt_mul_of_pos_left _ ha
      apply exp_lt_exp.2
      exact mul_lt_mul_of_pos_right (rpow_lt_rpow h0 hxy hc) hL

private lemma logarithmic (a b : ℝ) (hab : a < b) (hb : b < 1) :
    InverseCoordinates (transformLog a b) (retransformLog a b) a b := by
  have hb' : 0 < 1 - b := by linarith
  have ha' : 0 < 1 - a := by linarith
  have hL : 0 < log ((1 - a) / (1 - b)) := log_pos (by rw [lt_div_iff₀ hb']; linarith)
  have hto : ∀ x, transformLog a b x = some (1 - (1 - b) * exp ((1 - x) * log ((1 - a) / (1 - b)))) := by
    intro x; unfold transformLog; rw [if_neg hb.ne]
  have hfrom : ∀ v, v < 1 → retransformLog a b v =
      some (1 - log ((1 - v) / (1 - b)) / log ((1 - a) / (1 - b))) := by
    intro v hv
    unfold retransformLog
    rw [if_neg (by push Not; exact ⟨hb.ne, hab.ne, hv⟩)]
  have hea : (1 - b) * exp (log ((1 - a) / (1 - b))) = 1 - a := by
    rw [exp_log (div_pos ha' hb')]; field_simp
  have mono : ∀ x y, x < y → (1 - b) * exp ((1 - y) * log ((1 - a) / (1 - b))) <
      (1 - b) * exp ((1 - x) * log ((1 - a) / (1 - b))) := by
    intro x y hxy
    apply mul_lt_mul_of_pos_left _ hb'
    apply exp_lt_exp.2
    exact mul_lt_mul_of_pos_right (by linarith) hL
  have low : transformLog a b 0 = some a := by
    rw [hto, sub_zero, one_mul, hea]; congr 1; ring
  have high : transformLog a b 1 = some b := by
    rw [hto, sub_self, zero_mul, exp_zero]; congr 1; ring
  have wlow : (1 - b) * exp ((1 - 0) * log ((1 - a) / (1 - b))) = 1 - a := by
    rw [sub_zero, one_mul, hea]
  have whigh : (1 - b) * exp ((1 - 1) * log ((1 - a) / (1 - b))) = 1 - b := by simp
  refine ⟨?_, ?_, low, high, ?_⟩
  · intro x h0 h1
    have e0 : (1 - b) * exp ((1 - x) * log ((1 - a) / (1 - b))) ≤ 1 - a := by
      rcases h0.eq_or_lt with rfl | h0
      · exact wlow.le
      · have := (mono 0 x h0).le
        rwa [wlow] at this
    have e1 : 1 - b ≤ (1 - b) * exp ((1 - x) * log ((1 - a) / (1 - b))) := by
      rcases h1.eq_or_lt with rfl | h1
      · exact whigh.ge
      · have := (mono x 1 h1).le
        rwa [whigh] at this
    refine ⟨_, hto x, by linarith, by linarith, ?_⟩
    rw [hfrom _ (by linarith), sub_sub_cancel, mul_div_cancel_left₀ _ hb'.ne', log_exp,
      mul_div_cancel_right₀ _ hL.ne']
    congr 1; ring
  · intro v h0 h1
    have hv : 0 < 1 - v := by linarith
    have l0 : 0 ≤ log ((1 - v) / (1 - b)) := log_nonneg (by rw [le_div_iff₀ hb']; linarith)
    have l1 : log ((1 - v) / (1 - b)) ≤ log ((1 - a) / (1 - b)) :=
      log_le_log (div_pos hv hb') (by gcongr)
    refine ⟨_, hfrom v (by linarith), ?_, ?_, ?_⟩
    · rw [sub_nonneg, div_le_one hL]; exact l1
    · have := div_nonneg l0 hL.le
      linarith
    · rw [hto, sub_sub_cancel, div_mul_cancel₀ _ hL.ne', exp_log (div_pos hv hb')]
      congr 1
      field_simp
      ring
  · intro x y v w _ hxy _ hx hy
    rw [hto] at hx hy
    obtain rfl := Option.some.inj hx
    obtain rfl := Option.some.inj hy
    linarith [mono x y hxy]

/-- C35: for every process, the loss coordinate and its inverse are strictly increasing inverse
bijections between [0, 1] and the interval of stochastic losses. -/
theorem C35_inverse_bijections (p : LossAxis) (vCut vMax : ℝ) (h0 : 0 < vCut) (h1 : vCut < vMax) (h2 : vMax < 1) :
    InverseCoordinates (p.transform vCut vMax) (p.retransform vCut vMax) vCut vMax := by
  cases p with
  | general => exact relative vCut vMax 1 h0 h1 one_pos
  | ionization => exact relative vCut vMax (3 / 2) h0 h1 (by norm_num)
  | compton => exact logarithmic vCut vMax h1 h2

/-- C35: the relative coordinates are inverse also for `vMax = 1` and every positive exponent, the
logarithmic ones also for `vCut = 0`, where Compton scattering without cut works. -/
theorem C35_edges (vCut vMax c : ℝ) (h1 : vCut < vMax) (hc : 0 < c) :
    (0 < vCut → InverseCoordinates (fun x => transformRel vCut vMax x c) (fun v => retransformRel vCut vMax v c)
      vCut vMax) ∧
    (vMax < 1 → InverseCoordinates (transformLog vCut vMax) (retransformLog vCut vMax) vCut vMax) :=
  ⟨fun h => relative vCut vMax c h h1 hc, fun h => logarithmic vCut vMax h1 h⟩

/-- C35: coordinates outside [0, 1] are clamped by the relative transformation, losses outside the
interval by its inverse. -/
theorem C35_clamped (vCut vMax c x v : ℝ) (h0 : 0 < vCut) (h1 : vCut < vMax) :
    (x < 0 → transformRel vCut vMax x c = some vCut) ∧ (1 ≤ x → transformRel vCut vMax x c = some vMax) ∧
    (v ≤ vCut → retransformRel vCut vMax v c = some 0) ∧ (vMax ≤ v → retransformRel vCut vMax v c = some 1) := by
  refine ⟨?_, ?_, ?_, ?_⟩
  · intro h; unfold transformRel; rw [if_pos (Or.inl h)]
  · intro h; unfold transformRel
    rw [if_neg (by push Not; exact ⟨by linarith, by linarith⟩), if_pos h]
  · intro h; unfold retransformRel; rw [if_pos h]
  · intro h; unfold retransformRel; rw [if_neg (by linarith), if_pos h]

/-- C35, the boundary of the claim: without a gap between cut and maximum the logarithmic coordinate of
the only loss is a NaN, whereas the relative coordinate is zero. And with a vanishing cut the relative
transformation gives a NaN for every inner coordinate. -/
theorem C35_degenerate (a x : ℝ) (hx0 : 0 ≤ x) (hx1 : x < 1) (ha : 0 < a) :
    LossAxis.compton.retransform a a a = none ∧ LossAxis.general.retransform a a a = some 0 ∧
    LossAxis.general.transform 0 a x = none := by
  refine ⟨?_, ?_, ?_⟩
  · simp [LossAxis.retransform, retransformLog]
  · simp [LossAxis.retransform, retransformRel]
  · simp only [LossAxis.transform, transformRel]
    rw [if_neg (by push Not; exact ⟨hx0, ha.ne'⟩), if_neg (by linarith), if_pos trivial]

example : ∃ a b : ℝ, 0 < a ∧ a < b ∧ b < 1 := ⟨1 / 100, 9 / 10, by norm_num, by norm_num, by norm_num⟩

/-- A value inside the interval, computed: half way between 1/100 and 1/4 on the relative axis is the
geometric mean 1/20. -/
example : LossAxis.general.transform (1 / 100) (1 / 4) (1 / 2) = some (1 / 20) := by
  simp only [LossAxis.transform]
  rw [rel_inner _ _ _ _ (by norm_num) (by norm_num) (by norm_num) (by norm_num), rpow_one]
  congr 1
  rw [show (1 / 4 / (1 / 100) : ℝ) = 5 ^ 2 by norm_num, log_pow,
    show (1 / 2 : ℝ) * ((2 : ℕ) * log 5) = log 5 by push_cast; ring, exp_log (by norm_num)]
  norm_num

end Proposal
