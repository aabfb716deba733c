import Verif.Props.Integral
import Mathlib.MeasureTheory.Function.JacobianOneDim
import Mathlib.MeasureTheory.Integral.IntervalIntegral.Basic
import Mathlib.Analysis.SpecialFunctions.Pow.Deriv

/-!
# C95: the methods of `Integrate` give the integral
-/

open MeasureTheory Set

namespace Proposal

/-- The Romberg integrations give the integral of the function they are given. -/
structure Spec.ExactQuadrature (Q : Quadrature) : Prop where
  closed : ∀ F a b, a ≤ b → Q.closed F a b = ∫ x in a..b, F x
  opened : ∀ F a b, a ≤ b → Q.opened F a b = ∫ x in a..b, F x
  openedBig : ∀ v F a b, a ≤ b → Q.openedBig v F a b = ∫ x in a..b, F x

/-- The variable a method integrates over. -/
noncomputable def Spec.coordinate (method : ℤ) (pos x : ℝ) : ℝ :=
  let y := if method = 4 ∨ method = 5 then Real.log x else x
  if method = 3 ∨ method = 5 then
    if pos > 0 then (1 / y) ^ (1 / pos) else if pos < 0 then -(1 / (-y)) ^ (1 / -pos) else y
  else y

/-- Limits for which a method is meant: positive ones for a logarithm, and limits (or logarithms) of the sign of the
power for a substitution. -/
def Spec.Suitable (method : ℤ) (pos x : ℝ) : Prop :=
  (method = 4 ∨ method = 5 → 0 < x) ∧
  (method = 3 → (pos > 0 → 0 < x) ∧ (pos < 0 → x < 0)) ∧
  (method = 5 → (pos > 0 → 1 < x) ∧ (pos < 0 → x < 1))

/-- The limits differ by more than the precision in the variable of the method. -/
def Spec.Apart (method : ℤ) (pos a b : ℝ) : Prop :=
  max |Spec.coordinate method pos a| |Spec.coordinate method pos b| * (1 / 10 ^ 10) <
    |Spec.coordinate method pos a - Spec.coordinate method pos b|

/-! ## The change of variables -/

/-- The variable substituted by `Function`. -/
noncomputable def tOf (pos x : ℝ) : ℝ := if pos = 0 then x else if pos > 0 then x ^ (-pos) else -(-x) ^ pos

/-- `tOf` maps `s` to `t` one to one, with the weight of `Function` as the absolute derivative. -/
structure Maps (pos : ℝ) (s t : Set ℝ) : Prop where
  meas : MeasurableSet s
  img : tOf pos '' s = t
  inj : InjOn (tOf pos) s
  der : ∀ x ∈ s, ∃ d, HasDerivWithinAt (tOf pos) d s x ∧ ∀ f, weighted false pos f x = |d| * f (tOf pos x)

lemma Maps.integral {pos : ℝ} {s t : Set ℝ} (h : Maps pos s t) (f : ℝ → ℝ) :
    ∫ x in t, f x = ∫ x in s, weighted false pos f x := by
  classical
  choose! d hd using h.der
  have h1 := integral_image_eq_integral_abs_deriv_smul h.meas (fun x hx => (hd x hx).1) h.inj f
  rw [h.img] at h1
  rw [h1]
  refine setIntegral_congr_fun h.meas (fun x hx => ?_)
  rw [(hd x hx).2 f]
  rfl

lemma weighted_log (pos : ℝ) (f : ℝ → ℝ) (x : ℝ) :
    weighted true pos f x = weighted false pos (fun u => Real.exp u * f (Real.exp u)) x := by
  simp only [weighted, if_true, Bool.false_eq_true, if_false, mul_assoc]

lemma integral_exp_image {t : Set ℝ} (ht : MeasurableSet t) (f : ℝ → ℝ) :
    ∫ x in Real.exp '' t, f x = ∫ u in t, Real.exp u * f (Real.exp u) := by
  have h1 := integral_image_eq_integral_abs_deriv_smul ht
    (fun x _ => (Real.hasDerivAt_exp x).hasDerivWithinAt) Real.exp_injective.injOn f
  rw [h1]
  refine setIntegral_congr_fun ht (fun x _ => ?_)
  simp [abs_of_pos (Real.exp_pos x)]

lemma Maps.integral_log {pos : ℝ} {s t : Set ℝ} (h : Maps pos s t) (ht : MeasurableSet t) (f : ℝ → ℝ) :
    ∫ x in Real.exp '' t, f x = ∫ x in s, weighted true pos f x := by
  rw [integral_exp_image ht, h.integral]
  simp only [weighted_log]

lemma maps_zero {s : Set ℝ} (hs : MeasurableSet s) : Maps 0 s s where
  meas := hs
  img := by
    have : tOf 0 = id := by funext x; simp [tOf]
    rw [this, image_id]
  inj := by intro x _ y _ h; simpa [tOf] using h
  der := by
    intro x _
    refine ⟨1, ?_, ?_⟩
    · have : tOf 0 = id := by funext x; simp [tOf]
      rw [this]
      exact (hasDerivAt_id x).hasDerivWithinAt
    · intro f; simp [weighted, tOf]

lemma rpow_back {p y : ℝ} (hp : p ≠ 0) (hy : 0 < y) : (y ^ (-1 / p)) ^ (-p) = y := by
  rw [← Real.rpow_mul hy.le, div_mul_eq_mul_div, neg_mul_neg, one_mul, div_self hp, Real.rpow_one]

lemma maps_pos {p : ℝ} (hp : 0 < p) {s t : Set ℝ} (hs : MeasurableSet s) (hpos : ∀ x ∈ s, 0 < x)
    (himg : (fun x : ℝ => x ^ (-p)) '' s = t) : Maps p s t where
  meas := hs
  img := by
    rw [← himg]
    refine image_congr (fun x _ => ?_)
    simp [tOf, hp.ne', hp]
  inj := by
    intro x hx y hy h
    simp only [tOf, hp.ne', hp, if_false, if_true] at h
    have h1 : (x ^ (-p)) ^ (-1 / p) = (y ^ (-p)) ^ (-1 / p) := by rw [h]
    rwa [← Real.rpow_mul (hpos x hx).le, ← Real.rpow_mul (hpos y hy).le, mul_div_assoc', neg_mul_neg, mul_one,
      div_self hp.ne', Real.rpow_one, Real.rpow_one] at h1
  der := by
    intro x hx
    have hx0 := hpos x hx
    refine ⟨-p * x ^ (-p - 1), ?_, ?_⟩
    · have h1 := (Real.hasDerivAt_rpow_const (p := -p) (Or.inl hx0.ne')).hasDerivWithinAt (s := s)
      refine h1.congr (fun y _ => ?_) ?_ <;> simp [tOf, hp.ne', hp]
    · intro f
      have h2 : |-p * x ^ (-p - 1)| = p * (x ^ (-p) / x) := by
        rw [abs_mul, abs_neg, abs_of_pos hp, abs_of_pos (Real.rpow_pos_of_pos hx0 _), Real.rpow_sub_one hx0.ne']
      rw [h2]
      simp [weighted, tOf, hp.ne', hp]

lemma image_Ioo {p a b : ℝ} (hp : 0 < p) (ha : 0 < a) (hb : 0 < b) :
    (fun x : ℝ => x ^ (-p)) '' Ioo (b ^ (-1 / p)) (a ^ (-1 / p)) = Ioo a b := by
  have hn : -1 / p < 0 := div_neg_of_neg_of_pos (by norm_num) hp
  ext y
  constructor
  · rintro ⟨x, ⟨h1, h2⟩, rfl⟩
    have hb' := Real.rpow_pos_of_pos hb (-1 / p)
    have hx : 0 < x := hb'.trans h1
    constructor
    · have := Real.rpow_lt_rpow_of_neg hx h2 (neg_lt_zero.mpr hp)
      rwa [rpow_back hp.ne' ha] at this
    · have := Real.rpow_lt_rpow_of_neg hb' h1 (neg_lt_zero.mpr hp)
      rwa [rpow_back hp.ne' hb] at this
  · rintro ⟨h1, h2⟩
    have hy := ha.trans h1
    exact ⟨y ^ (-1 / p), ⟨Real.rpow_lt_rpow_of_neg hy h2 hn, Real.rpow_lt_rpow_of_neg ha h1 hn⟩, rpow_back hp.ne' hy⟩

lemma image_Ioi {p b : ℝ} (hp : 0 < p) (hb : 0 < b) :
    (fun x : ℝ => x ^ (-p)) '' Ioo 0 (b ^ (-1 / p)) = Ioi b := by
  have hn : -1 / p < 0 := div_neg_of_neg_of_pos (by norm_num) hp
  ext y
  constructor
  · rintro ⟨x, ⟨h1, h2⟩, rfl⟩
    have := Real.rpow_lt_rpow_of_neg h1 h2 (neg_lt_zero.mpr hp)
    rwa [rpow_back hp.ne' hb] at this
  · intro h1
    have hy := hb.trans h1
    exact ⟨y ^ (-1 / p), ⟨Real.rpow_pos_of_pos hy _, Real.rpow_lt_rpow_of_neg hb h1 hn⟩, rpow_back hp.ne' hy⟩

/-- A negative power is the positive power seen from the other side of zero. -/
lemma tOf_neg {q x : ℝ} (hq : 0 < q) : tOf (-q) x = -tOf q (-x) := by
  have h1 : ¬ (-q > 0) := by linarith
  have h2 : ¬ (0 < -q) := by linarith
  simp [tOf, hq.ne', hq, h2]

lemma maps_neg {q : ℝ} (hq : 0 < q) {s t : Set ℝ} (h : Maps q s t) (hpos : ∀ x ∈ s, 0 < x) :
    Maps (-q) (Neg.neg '' s) (Neg.neg '' t) where
  meas := by
    have : (Neg.neg '' s : Set ℝ) = Neg.neg ⁻¹' s := by
      ext y; constructor
      · rintro ⟨x, hx, rfl⟩; simpa using hx
      · intro hy; exact ⟨-y, hy, by simp⟩
    rw [this]
    exact measurable_neg h.meas
  img := by
    ext y
    constructor
    · rintro ⟨_, ⟨x, hx, rfl⟩, rfl⟩
      rw [tOf_neg hq, neg_neg]
      exact ⟨tOf q x, h.img ▸ ⟨x, hx, rfl⟩, rfl⟩
    · rintro ⟨y, hy, rfl⟩
      rw [← h.img] at hy
      obtain ⟨x, hx, rfl⟩ := hy
      exact ⟨-x, ⟨x, hx, rfl⟩, by rw [tOf_neg hq, neg_neg]⟩
  inj := by
    rintro _ ⟨x, hx, rfl⟩ _ ⟨y, hy, rfl⟩ hxy
    rw [tOf_neg hq, tOf_neg hq, neg_neg, neg_neg] at hxy
    rw [h.inj hx hy (neg_injective hxy)]
  der := by
    rintro _ ⟨x, hx, rfl⟩
    obtain ⟨d, hd, hw⟩ := h.der x hx
    refine ⟨d, ?_, ?_⟩
    · have h1 : HasDerivWithinAt (fun y => tOf q (-y)) (d * (-1)) (Neg.neg '' s) (-x) := by
        have hd' : HasDerivWithinAt (tOf q) d s (- -x) := by rwa [neg_neg]
        refine hd'.comp (-x) ((hasDerivAt_neg (-x)).hasDerivWithinAt) ?_
        rintro _ ⟨z, hz, rfl⟩
        simpa using hz
      have h2 := h1.neg
      have h3 : -(d * (-1)) = d := by ring
      rw [h3] at h2
      refine h2.congr (fun y _ => tOf_neg hq) (tOf_neg hq)
    · intro f
      have h1 := hw (fun _ => 1)
      have h2 : ¬ (-q > 0) := by linarith
      have h3 : ¬ (0 < -q) := by linarith
      have hx0 := (hpos x hx).ne'
      simp only [weighted, hq.ne', hq, if_false, if_true, Bool.false_eq_true, mul_one] at h1
      rw [← h1]
      simp only [weighted, tOf, neg_eq_zero, hq.ne', h3, if_false, Bool.false_eq_true, neg_neg]
      congr 1
      field_simp

/-- Ordered limits above zero (positive power) or below zero (negative power). -/
lemma maps_limits {pos a b : ℝ} {l : ℝ × ℝ × ℝ × Bool} (h : substitutedLimits a b pos = some l)
    (hab : a < b) (h1 : pos > 0 → 0 < a) (h2 : pos < 0 → b < 0) :
    l.2.2.1 = 1 ∧ l.1 ≤ l.2.1 ∧ Maps pos (Ioo l.1 l.2.1) (Ioo a b) := by
  unfold substitutedLimits at h
  rcases lt_trichotomy pos 0 with hp | hp | hp
  · have hb := h2 hp
    have ha : a < 0 := hab.trans hb
    rw [if_neg (by linarith), if_pos hp, if_pos ⟨hb, ha⟩] at h
    obtain rfl := Option.some.inj h
    have hq : 0 < -pos := by linarith
    have he : 1 / pos = -1 / -pos := by rw [neg_div_neg_eq]
    have hA : 0 < -b := by linarith
    have hB : 0 < -a := by linarith
    dsimp only
    refine ⟨rfl, ?_, ?_⟩
    · rw [he]
      have hz : -1 / -pos ≤ 0 := (div_neg_of_neg_of_pos (by norm_num) hq).le
      have := Real.rpow_le_rpow_of_nonpos hA (by linarith : -b ≤ -a) hz
      linarith
    · have hm := maps_neg hq (maps_pos hq measurableSet_Ioo
        (fun x hx => (Real.rpow_pos_of_pos hB (-1 / -pos)).trans hx.1) (image_Ioo hq hA hB))
        (fun x hx => (Real.rpow_pos_of_pos hB (-1 / -pos)).trans hx.1)
      rw [image_neg_Ioo, image_neg_Ioo, neg_neg, neg_neg, neg_neg] at hm
      rw [he]
      exact hm
  · subst hp
    rw [if_neg (by simp), if_neg (by simp)] at h
    obtain rfl := Option.some.inj h
    exact ⟨rfl, hab.le, maps_zero measurableSet_Ioo⟩
  · have ha := h1 hp
    have hb : 0 < b := ha.trans hab
    rw [if_pos hp, if_pos ⟨hb, ha⟩] at h
    obtain rfl := Option.some.inj h
    refine ⟨rfl, ?_, ?_⟩
    · exact Real.rpow_le_rpow_of_nonpos ha hab.le (div_neg_of_neg_of_pos (by norm_num) hp).le
    · exact maps_pos hp measurableSet_Ioo (fun x hx => (Real.rpow_pos_of_pos hb (-1 / pos)).trans hx.1)
        (image_Ioo hp ha hb)

lemma narrow_of_apart {lo hi : ℝ} (h : max |lo| |hi| * (1 / 10 ^ 10) < |lo - hi|) : narrow lo hi = false := by
  unfold narrow computerPrecision
  rw [decide_eq_false_iff_not, not_le]
  have h1 : |lo| * (1 / 10 ^ 10) ≤ max |lo| |hi| * (1 / 10 ^ 10) :=
    mul_le_mul_of_nonneg_right (le_max_left _ _) (by norm_num)
  rw [abs_sub_comm]
  linarith

lemma exact_Ioo {R : (ℝ → ℝ) → ℝ → ℝ → ℝ} (h : ∀ F a b, a ≤ b → R F a b = ∫ x in a..b, F x) (F : ℝ → ℝ) {a b : ℝ}
    (hab : a ≤ b) : R F a b = ∫ x in Ioo a b, F x := by
  rw [h F a b hab, intervalIntegral.integral_of_le hab, integral_Ioc_eq_integral_Ioo]

lemma substitutedLimits_coordinate {pos a b : ℝ} (h1 : pos > 0 → 0 < a ∧ 0 < b) (h2 : pos < 0 → a < 0 ∧ b < 0) :
    ∃ l, substitutedLimits a b pos = some l ∧
      ((l.1 = Spec.coordinate 3 pos a ∧ l.2.1 = Spec.coordinate 3 pos b) ∨
        (l.1 = Spec.coordinate 3 pos b ∧ l.2.1 = Spec.coordinate 3 pos a)) := by
  unfold substitutedLimits Spec.coordinate
  rcases lt_trichotomy pos 0 with hp | hp | hp
  · obtain ⟨ha, hb⟩ := h2 hp
    have hn : ¬ pos > 0 := by linarith
    have key : ∀ x : ℝ, x < 0 → -(-x) ^ (1 / pos) = -(1 / -x) ^ (1 / -pos) := by
      intro x hx
      have hx' : 0 ≤ -x := by linarith
      rw [one_div (-x), Real.inv_rpow hx', ← Real.rpow_neg hx', div_neg, neg_neg]
    refine ⟨_, by rw [if_neg hn, if_pos hp, if_pos ⟨hb, ha⟩], Or.inr ?_⟩
    simp only [hn, hp, if_false, if_true]
    exact ⟨by simpa using key b hb, by simpa using key a ha⟩
  · subst hp
    exact ⟨_, by rw [if_neg (by simp), if_neg (by simp)], Or.inl (by simp)⟩
  · obtain ⟨ha, hb⟩ := h1 hp
    have key : ∀ x : ℝ, 0 < x → x ^ (-1 / pos) = (1 / x) ^ (1 / pos) := by
      intro x hx
      rw [one_div x, Real.inv_rpow hx.le, ← Real.rpow_neg hx.le, neg_div]
    refine ⟨_, by rw [if_pos hp, if_pos ⟨hb, ha⟩], Or.inr ?_⟩
    simp only [hp, if_true]
    exact ⟨by simpa using key b hb, by simpa using key a ha⟩

lemma log_limits {pos a b : ℝ} (h1 : pos > 0 → 1 < a) (h2 : pos < 0 → b < 1) (hab : a < b) (ha0 : 0 < a) :
    substitutedLogLimits a b pos =
      (substitutedLimits (Real.log a) (Real.log b) pos).map (fun l => (l.1, l.2.1, l.2.2.1)) := by
  unfold substitutedLogLimits substitutedLimits
  rcases lt_trichotomy pos 0 with hp | hp | hp
  · have hn : ¬ pos > 0 := by linarith
    have hb := h2 hp
    have ha := hab.trans hb
    have hla := Real.log_neg ha0 ha
    have hlb := Real.log_neg (ha0.trans hab) hb
    rw [if_neg hn, if_pos hp, if_pos ⟨hb, ha⟩, if_neg hn, if_pos hp, if_pos ⟨hlb, hla⟩]
    rfl
  · subst hp
    simp
  · have ha := h1 hp
    have hb := ha.trans hab
    rw [if_pos hp, if_pos ⟨hb, ha⟩, if_pos hp, if_pos ⟨Real.log_pos hb, Real.log_pos ha⟩]
    rfl

lemma exp_image_Ioo {a b : ℝ} (ha : 0 < a) (hb : 0 < b) :
    Real.exp '' Ioo (Real.log a) (Real.log b) = Ioo a b := by
  ext y
  constructor
  · rintro ⟨x, ⟨h1, h2⟩, rfl⟩
    exact ⟨(Real.log_lt_iff_lt_exp ha).mp h1, (Real.lt_log_iff_exp_lt hb).mp h2⟩
  · rintro ⟨h1, h2⟩
    have hy := ha.trans h1
    exact ⟨Real.log y, ⟨Real.log_lt_log ha h1, Real.log_lt_log hy h2⟩, Real.exp_log hy⟩

lemma overLimits_wide {R : (ℝ → ℝ) → ℝ → ℝ → ℝ} {F : ℝ → ℝ} {a b c : ℝ} (h : narrow a b = false) :
    overLimits R F (a, b, c) = c * R F a b := by
  simp [overLimits, h]

lemma integral_ordered (Q : Quadrature) (hQ : Spec.ExactQuadrature Q) (s : IState) (a b : ℝ) (f : ℝ → ℝ)
    (method : ℤ) (pos : ℝ) (hm : 1 ≤ method ∧ method ≤ 5) (ha : Spec.Suitable method pos a)
    (hb : Spec.Suitable method pos b) (hap : Spec.Apart method pos a b) (hab : a < b) :
    (Integrate Q s a b f method pos).1 = ∫ x in a..b, f x := by
  have h0 : ¬ (a = 0 ∧ b = 0) := by rintro ⟨rfl, rfl⟩; exact lt_irrefl _ hab
  have hgoal : ∫ x in a..b, f x = ∫ x in Ioo a b, f x := by
    rw [intervalIntegral.integral_of_le hab.le, integral_Ioc_eq_integral_Ioo]
  unfold Integrate
  rw [if_neg h0, hgoal]
  have hcases : method = 1 ∨ method = 2 ∨ method = 3 ∨ method = 4 ∨ method = 5 := by omega
  have h00 : weighted false 0 f = f := by funext x; simp [weighted]
  rcases hcases with rfl | rfl | rfl | rfl | rfl
  · have hn : narrow a b = false := narrow_of_apart (by simpa [Spec.Apart, Spec.coordinate] using hap)
    rw [if_pos rfl, closed_value, (orient_lt hab).1, overLimits_wide hn, one_mul, exact_Ioo hQ.closed _ hab.le, h00]
  · have hn : narrow a b = false := narrow_of_apart (by simpa [Spec.Apart, Spec.coordinate] using hap)
    rw [if_neg (by norm_num), if_pos rfl, opened_value, (orient_lt hab).1, overLimits_wide hn, one_mul,
      exact_Ioo hQ.opened _ hab.le, h00]
  · rw [if_neg (by norm_num), if_neg (by norm_num), if_pos rfl, substitution_value, (orient_lt hab).1]
    have hsa := ha.2.1 rfl
    have hsb := hb.2.1 rfl
    obtain ⟨l, hl, hlc⟩ := substitutedLimits_coordinate (a := a) (b := b) (pos := pos)
      (fun h => ⟨hsa.1 h, hsb.1 h⟩) (fun h => ⟨hsa.2 h, hsb.2 h⟩)
    obtain ⟨h1, h2, h3⟩ := maps_limits hl hab hsa.1 hsb.2
    have hn : narrow l.1 l.2.1 = false := by
      refine narrow_of_apart ?_
      rcases hlc with ⟨e1, e2⟩ | ⟨e1, e2⟩
      · rw [e1, e2]; exact hap
      · rw [e1, e2, max_comm, abs_sub_comm]; exact hap
    simp only [hl]
    rw [overLimits_wide hn, h1, one_mul, one_mul, exact_Ioo hQ.opened _ h2, h3.integral]
  · have ha0 := ha.1 (Or.inl rfl)
    have hb0 := hb.1 (Or.inl rfl)
    have hn : narrow (Real.log a) (Real.log b) = false :=
      narrow_of_apart (by simpa [Spec.Apart, Spec.coordinate] using hap)
    have hpn : ¬ (a ≤ 0 ∨ b ≤ 0) := by rintro (h | h) <;> linarith
    rw [if_neg (by norm_num), if_neg (by norm_num), if_neg (by norm_num), if_pos rfl, if_neg hpn, log_value,
      (orient_lt hab).1, overLimits_wide hn, one_mul, exact_Ioo hQ.opened _ (Real.log_le_log ha0 hab.le),
      ← (maps_zero measurableSet_Ioo).integral_log measurableSet_Ioo, exp_image_Ioo ha0 hb0]
  · have ha0 := ha.1 (Or.inr rfl)
    have hb0 := hb.1 (Or.inr rfl)
    have hpn : ¬ (a ≤ 0 ∨ b ≤ 0) := by rintro (h | h) <;> linarith
    have hsa := ha.2.2 rfl
    have hsb := hb.2.2 rfl
    have hlog : Real.log a < Real.log b := Real.log_lt_log ha0 hab
    rw [if_neg (by norm_num), if_neg (by norm_num), if_neg (by norm_num), if_neg (by norm_num), if_pos rfl,
      if_neg hpn, logSubstitution_value _ _ _ _ _ _ ha0 hb0, (orient_lt hab).1,
      log_limits hsa.1 hsb.2 hab ha0]
    obtain ⟨l, hl, hlc⟩ := substitutedLimits_coordinate (a := Real.log a) (b := Real.log b) (pos := pos)
      (fun h => ⟨Real.log_pos (hsa.1 h), Real.log_pos (hsb.1 h)⟩)
      (fun h => ⟨Real.log_neg ha0 (hsa.2 h), Real.log_neg hb0 (hsb.2 h)⟩)
    obtain ⟨h1, h2, h3⟩ := maps_limits hl hlog (fun h => Real.log_pos (hsa.1 h)) (fun h => Real.log_neg hb0 (hsb.2 h))
    have hco : ∀ x, Spec.coordinate 3 pos (Real.log x) = Spec.coordinate 5 pos x := by
      intro x; simp [Spec.coordinate]
    have hn : narrow l.1 l.2.1 = false := by
      refine narrow_of_apart ?_
      rw [hco, hco] at hlc
      rcases hlc with ⟨e1, e2⟩ | ⟨e1, e2⟩
      · rw [e1, e2]; exact hap
      · rw [e1, e2, max_comm, abs_sub_comm]; exact hap
    simp only [hl, Option.map_some]
    rw [overLimits_wide hn, h1, one_mul, one_mul, exact_Ioo hQ.opened _ h2, ← h3.integral_log measurableSet_Ioo,
      exp_image_Ioo ha0 hb0]

/-- C95: if the Romberg integrations are exact, every method gives the integral between the limits, in either order, for
limits it is meant for which differ by more than the precision in the variable of the method. There is no condition on
the integrand and on earlier uses of the object. -/
theorem C95_integral_partial (Q : Quadrature) (hQ : Spec.ExactQuadrature Q) (s : IState) (a b : ℝ) (f : ℝ → ℝ)
    (method : ℤ) (pos : ℝ) (hm : 1 ≤ method ∧ method ≤ 5) (ha : Spec.Suitable method pos a)
    (hb : Spec.Suitable method pos b) (hap : Spec.Apart method pos a b) :
    (Integrate Q s a b f method pos).1 = ∫ x in a..b, f x := by
  rcases lt_trichotomy a b with hab | hab | hab
  · exact integral_ordered Q hQ s a b f method pos hm ha hb hap hab
  · exfalso
    subst hab
    unfold Spec.Apart at hap
    rw [sub_self, abs_zero] at hap
    have : 0 ≤ max |Spec.coordinate method pos a| |Spec.coordinate method pos a| * (1 / 10 ^ 10) := by positivity
    linarith
  · have hap' : Spec.Apart method pos b a := by
      unfold Spec.Apart at hap ⊢
      rwa [max_comm, abs_sub_comm]
    rw [C63_orientation Q s s b a f method pos, integral_ordered Q hQ s b a f method pos hm hb ha hap' hab,
      ← intervalIntegral.integral_symm]

/-- Romberg integrations that are exact. -/
noncomputable def exactQ : Quadrature where
  closed := fun F a b => ∫ x in a..b, F x
  opened := fun F a b => ∫ x in a..b, F x
  openedBig := fun _ F a b => ∫ x in a..b, F x
  estimate := fun _ _ a b => (a + b) / 2

lemma exactQ_exact : Spec.ExactQuadrature exactQ := ⟨fun _ _ _ _ => rfl, fun _ _ _ _ => rfl, fun _ _ _ _ _ => rfl⟩

/-- The state of a new object. -/
noncomputable def newIntegral : IState := ⟨0, 1, false, 0, false, 0, 0, 0, 0, false, fun _ => 0⟩

example : (Integrate exactQ newIntegral 4 1 (fun x => x) 3 2).1 = ∫ x in (4 : ℝ)..1, x := by
  refine C95_integral_partial exactQ exactQ_exact _ 4 1 _ 3 2 (by norm_num) ?_ ?_ ?_
  · exact ⟨by norm_num, by norm_num, by norm_num⟩
  · exact ⟨by norm_num, by norm_num, by norm_num⟩
  · have h1 : Spec.coordinate 3 2 4 = 1 / 2 := by
      simp only [Spec.coordinate]
      norm_num
    have h2 : Spec.coordinate 3 2 1 = 1 := by
      simp [Spec.coordinate]
    unfold Spec.Apart
    rw [h1, h2]
    norm_num [abs_of_pos, abs_of_neg]

-- C63: the value that changes its sign is not zero
example : (Integrate exactQ newIntegral 1 0 (fun _ => 1) 2 0).1 = -(Integrate exactQ newIntegral 0 1 (fun _ => 1) 2 0).1 ∧
    (Integrate exactQ newIntegral 0 1 (fun _ => 1) 2 0).1 = 1 := by
  refine ⟨C63_orientation _ _ _ _ _ _ _ _, ?_⟩
  rw [C95_integral_partial exactQ exactQ_exact _ 0 1 _ 2 0 (by norm_num) (by simp [Spec.Suitable])
    (by simp [Spec.Suitable]) (by simp [Spec.Apart, Spec.coordinate]; norm_num)]
  simp

/-- C95, where the code differs: limits that are closer than a ten-billionth of their size give zero even though the
integral between them is not. -/
theorem C95_narrow : (Integrate exactQ newIntegral 1 (1 + 1 / 10 ^ 11) (fun _ => 1) 2 0).1 = 0 ∧
    ∫ _ in (1 : ℝ)..(1 + 1 / 10 ^ 11), (1 : ℝ) = 1 / 10 ^ 11 := by
  constructor
  · have hlt : (1 : ℝ) < 1 + 1 / 10 ^ 11 := by norm_num
    have hn : narrow 1 (1 + 1 / 10 ^ 11) = true := by
      unfold narrow computerPrecision
      rw [decide_eq_true_eq]
      norm_num [abs_of_pos]
    unfold Integrate
    rw [if_neg (by norm_num), if_neg (by norm_num), if_pos rfl, opened_value, (orient_lt hlt).1]
    simp only [overLimits, hn, if_true]
  · simp

/-- C95, where the code differs: a logarithmic method with a limit that is not positive gives zero, without an
exception. -/
theorem C95_log_nonpositive (Q : Quadrature) (s : IState) (a b : ℝ) (f : ℝ → ℝ) (pos : ℝ) (h : a ≤ 0 ∨ b ≤ 0) :
    (Integrate Q s a b f 4 pos).1 = 0 ∧ (Integrate Q s a b f 5 pos).1 = 0 := by
  unfold Integrate
  constructor <;> simp only [h, if_true] <;> split_ifs <;> simp_all

/-- C95: with a positive power of substitution, a limit that is not positive stands for plus infinity. -/
theorem C95_infinite_limit (Q : Quadrature) (hQ : Spec.ExactQuadrature Q) (s : IState) (a b : ℝ) (f : ℝ → ℝ) (pos : ℝ)
    (hp : 0 < pos) (ha : a ≤ 0) (hb : 0 < b) :
    (Integrate Q s b a f 3 pos).1 = ∫ x in Ioi b, f x := by
  have hab : a < b := by linarith
  have hbp := Real.rpow_pos_of_pos hb (-1 / pos)
  have hl : substitutedLimits a b pos = some (0, b ^ (-1 / pos), -1, false) := by
    unfold substitutedLimits
    rw [if_pos hp, if_neg (by rintro ⟨_, h⟩; linarith), if_pos hb]
  have hn : narrow 0 (b ^ (-1 / pos)) = false := by
    unfold narrow
    rw [decide_eq_false_iff_not, not_le]
    simpa using hbp.ne'
  unfold Integrate
  rw [if_neg (by rintro ⟨h, _⟩; linarith), if_neg (by norm_num), if_neg (by norm_num), if_pos rfl, substitution_value,
    (orient_lt hab).2]
  simp only [hl]
  rw [overLimits_wide hn, exact_Ioo hQ.opened _ hbp.le,
    ← (maps_pos hp measurableSet_Ioo (fun x hx => hx.1) (image_Ioi hp hb)).integral]
  ring

end Proposal
