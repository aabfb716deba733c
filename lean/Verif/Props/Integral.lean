import Verif.Model.Integral
import Mathlib.MeasureTheory.Function.JacobianOneDim
import Mathlib.MeasureTheory.Integral.IntervalIntegral.Basic
import Mathlib.Analysis.SpecialFunctions.Pow.Deriv
import Mathlib.LinearAlgebra.Lagrange
import Mathlib.Tactic.LinearCombination

/-!
# C63, C64, C95: integration
-/

open MeasureTheory

namespace Proposal

/-! ## C63: orientation -/

lemma orient_lt {a b : ℝ} (h : a < b) : orient a b = (a, b, 1) ∧ orient b a = (a, b, -1) := by
  unfold orient
  constructor
  · rw [if_neg (not_lt.mpr h.le)]
  · rw [if_pos h]

lemma orient_self (a : ℝ) : orient a a = (a, a, 1) := by
  unfold orient
  rw [if_neg (lt_irrefl a)]

lemma narrow_self (a : ℝ) : narrow a a = true := by
  unfold narrow
  simp only [sub_self, abs_zero, decide_eq_true_eq]
  unfold computerPrecision
  positivity

lemma function_forward (s : IState) (h : s.reverse = false) : s.function = weighted s.useLog s.pos s.f := by
  funext x
  simp [IState.function, h]

/-- The integration over ordered limits which every method ends with. -/
noncomputable def overLimits (R : (ℝ → ℝ) → ℝ → ℝ → ℝ) (F : ℝ → ℝ) (l : ℝ × ℝ × ℝ) : ℝ :=
  if narrow l.1 l.2.1 then 0 else l.2.2 * R F l.1 l.2.1

lemma closed_value (Q : Quadrature) (s : IState) (a b : ℝ) (f : ℝ → ℝ) :
    (integrateClosed Q s a b f).1 = overLimits Q.closed (weighted false 0 f) (orient a b) := by
  simp only [integrateClosed, initPlain, overLimits]
  by_cases h : narrow (orient a b).1 (orient a b).2.1
  · simp only [h, if_true]
  · simp only [h, if_false, Bool.false_eq_true]
    rw [function_forward _ rfl]

lemma opened_value (Q : Quadrature) (s : IState) (a b : ℝ) (f : ℝ → ℝ) :
    (integrateOpened Q s a b f).1 = overLimits Q.opened (weighted false 0 f) (orient a b) := by
  simp only [integrateOpened, initPlain, overLimits]
  by_cases h : narrow (orient a b).1 (orient a b).2.1
  · simp only [h, if_true]
  · simp only [h, if_false, Bool.false_eq_true]
    rw [function_forward _ rfl]

lemma log_value (Q : Quadrature) (s : IState) (a b : ℝ) (f : ℝ → ℝ) :
    (integrateLog Q s a b f).1 = overLimits Q.opened (weighted true 0 f)
      (Real.log (orient a b).1, Real.log (orient a b).2.1, (orient a b).2.2) := by
  simp only [integrateLog, initLog, overLimits]
  by_cases h : narrow (Real.log (orient a b).1) (Real.log (orient a b).2.1)
  · simp only [h, if_true]
  · simp only [h, if_false, Bool.false_eq_true]
    rw [function_forward _ rfl]

lemma substitution_value (Q : Quadrature) (s : IState) (a b : ℝ) (f : ℝ → ℝ) (pos : ℝ) :
    (integrateSubstitution Q s a b f pos).1 = match substitutedLimits (orient a b).1 (orient a b).2.1 pos with
      | none => 0
      | some l => overLimits Q.opened (weighted false pos f) (l.1, l.2.1, (orient a b).2.2 * l.2.2.1) := by
  unfold integrateSubstitution initSubstitution
  dsimp only
  generalize substitutedLimits (orient a b).1 (orient a b).2.1 pos = L
  rcases L with _ | l
  · simp only [zero_mul]
    split_ifs <;> rfl
  · simp only [overLimits]
    by_cases h : narrow l.1 l.2.1
    · simp only [h, if_true]
    · simp only [h, if_false, Bool.false_eq_true]
      rw [function_forward _ rfl]

lemma logSubstitution_value (Q : Quadrature) (s : IState) (a b : ℝ) (f : ℝ → ℝ) (pos : ℝ) (ha : 0 < a) (hb : 0 < b) :
    (integrateLogSubstitution Q s a b f pos).1 = match substitutedLogLimits (orient a b).1 (orient a b).2.1 pos with
      | none => 0
      | some l => overLimits Q.opened (weighted true pos f) (l.1, l.2.1, (orient a b).2.2 * l.2.2) := by
  unfold integrateLogSubstitution initLogSubstitution
  dsimp only
  have hn : ¬ (a < 0 ∨ b < 0) := by rintro (h | h) <;> linarith
  rw [if_neg hn]
  generalize substitutedLogLimits (orient a b).1 (orient a b).2.1 pos = L
  rcases L with _ | l
  · simp only [zero_mul]
    split_ifs <;> rfl
  · simp only [overLimits]
    by_cases h : narrow l.1 l.2.1
    · simp only [h, if_true]
    · simp only [h, if_false, Bool.false_eq_true]
      rw [function_forward _ rfl]

lemma overLimits_neg (R : (ℝ → ℝ) → ℝ → ℝ → ℝ) (F : ℝ → ℝ) (a b c : ℝ) :
    overLimits R F (a, b, -c) = -overLimits R F (a, b, c) := by
  unfold overLimits
  split_ifs <;> simp

lemma overLimits_self (R : (ℝ → ℝ) → ℝ → ℝ → ℝ) (F : ℝ → ℝ) (a c : ℝ) : overLimits R F (a, a, c) = 0 := by
  unfold overLimits
  simp [narrow_self]

lemma substitutedLimits_self {a pos : ℝ} {l : ℝ × ℝ × ℝ × Bool} (h : substitutedLimits a a pos = some l) :
    l.1 = l.2.1 := by
  unfold substitutedLimits at h
  split_ifs at h with h1 h2 h3 h4 h5 h6
  · obtain rfl := Option.some.inj h; rfl
  · exact absurd ⟨h3, h3⟩ h2
  · obtain rfl := Option.some.inj h; rfl
  · exact absurd ⟨h6, h6⟩ h5
  · obtain rfl := Option.some.inj h; rfl

lemma substitutedLogLimits_self {a pos : ℝ} {l : ℝ × ℝ × ℝ} (h : substitutedLogLimits a a pos = some l) :
    l.1 = l.2.1 := by
  unfold substitutedLogLimits at h
  split_ifs at h with h1 h2 h3 h4 h5 h6
  · obtain rfl := Option.some.inj h; rfl
  · exact absurd ⟨h3, h3⟩ h2
  · obtain rfl := Option.some.inj h; rfl
  · exact absurd ⟨h6, h6⟩ h5
  · obtain rfl := Option.some.inj h; rfl

/-- Swapping the limits of one method. -/
lemma flip_of_value {g : ℝ → ℝ → ℝ} (v : ℝ × ℝ × ℝ → ℝ) (h : ∀ a b, g a b = v (orient a b))
    (hn : ∀ a b c, v (a, b, -c) = -v (a, b, c)) (hs : ∀ a, v (a, a, 1) = 0) (a b : ℝ) : g b a = -g a b := by
  rcases lt_trichotomy a b with hab | hab | hab
  · rw [h a b, h b a, (orient_lt hab).1, (orient_lt hab).2, hn]
  · subst hab
    rw [h, orient_self, hs, neg_zero]
  · rw [h a b, h b a, (orient_lt hab).1, (orient_lt hab).2, hn, neg_neg]

/-- C63: in every method swapping the limits changes the sign of the result, whatever the state of the object before the
two calls, whatever the integrand, and whatever numbers the Romberg integrations give. -/
theorem C63_orientation (Q : Quadrature) (s s' : IState) (a b : ℝ) (f : ℝ → ℝ) (method : ℤ) (pos : ℝ) :
    (Integrate Q s b a f method pos).1 = -(Integrate Q s' a b f method pos).1 := by
  unfold Integrate
  by_cases h0 : a = 0 ∧ b = 0
  · rw [if_pos h0, if_pos h0.symm]; simp
  rw [if_neg h0, if_neg (fun h => h0 h.symm)]
  by_cases h1 : method = 1
  · rw [if_pos h1, if_pos h1, closed_value, closed_value]
    exact flip_of_value (g := fun a b => _) _ (fun _ _ => rfl) (fun _ _ _ => overLimits_neg _ _ _ _ _)
      (fun _ => overLimits_self _ _ _ _) a b
  rw [if_neg h1, if_neg h1]
  by_cases h2 : method = 2
  · rw [if_pos h2, if_pos h2, opened_value, opened_value]
    exact flip_of_value (g := fun a b => _) _ (fun _ _ => rfl) (fun _ _ _ => overLimits_neg _ _ _ _ _)
      (fun _ => overLimits_self _ _ _ _) a b
  rw [if_neg h2, if_neg h2]
  by_cases h3 : method = 3
  · rw [if_pos h3, if_pos h3, substitution_value, substitution_value]
    refine flip_of_value (g := fun a b => match substitutedLimits (orient a b).1 (orient a b).2.1 pos with
      | none => 0
      | some l => overLimits Q.opened (weighted false pos f) (l.1, l.2.1, (orient a b).2.2 * l.2.2.1))
      (fun o => match substitutedLimits o.1 o.2.1 pos with
      | none => 0
      | some l => overLimits Q.opened (weighted false pos f) (l.1, l.2.1, o.2.2 * l.2.2.1)) (fun _ _ => rfl) ?_ ?_ a b
    · intro a b c
      dsimp only
      generalize substitutedLimits a b pos = L
      rcases L with _ | l
      · simp
      · simp only [neg_mul]; exact overLimits_neg _ _ _ _ _
    · intro a
      dsimp only
      generalize hL : substitutedLimits a a pos = L
      rcases L with _ | l
      · rfl
      · simp only [substitutedLimits_self hL]; exact overLimits_self _ _ _ _
  rw [if_neg h3, if_neg h3]
  by_cases h4 : method = 4
  · rw [if_pos h4, if_pos h4]
    by_cases hp : a ≤ 0 ∨ b ≤ 0
    · rw [if_pos hp, if_pos hp.symm]; simp
    rw [if_neg hp, if_neg (fun h => hp h.symm), log_value, log_value]
    exact flip_of_value (g := fun a b => _)
      (fun o => overLimits Q.opened (weighted true 0 f) (Real.log o.1, Real.log o.2.1, o.2.2)) (fun _ _ => rfl)
      (fun _ _ _ => overLimits_neg _ _ _ _ _) (fun _ => overLimits_self _ _ _ _) a b
  rw [if_neg h4, if_neg h4]
  by_cases h5 : method = 5
  · rw [if_pos h5, if_pos h5]
    by_cases hp : a ≤ 0 ∨ b ≤ 0
    · rw [if_pos hp, if_pos hp.symm]; simp
    rw [if_neg hp, if_neg (fun h => hp h.symm)]
    push Not at hp
    rw [logSubstitution_value _ _ _ _ _ _ hp.1 hp.2, logSubstitution_value _ _ _ _ _ _ hp.2 hp.1]
    refine flip_of_value (g := fun a b => match substitutedLogLimits (orient a b).1 (orient a b).2.1 pos with
      | none => 0
      | some l => overLimits Q.opened (weighted true pos f) (l.1, l.2.1, (orient a b).2.2 * l.2.2))
      (fun o => match substitutedLogLimits o.1 o.2.1 pos with
      | none => 0
      | some l => overLimits Q.opened (weighted true pos f) (l.1, l.2.1, o.2.2 * l.2.2)) (fun _ _ => rfl) ?_ ?_ a b
    · intro a b c
      dsimp only
      generalize substitutedLogLimits a b pos = L
      rcases L with _ | l
      · simp
      · simp only [neg_mul]; exact overLimits_neg _ _ _ _ _
    · intro a
      dsimp only
      generalize hL : substitutedLogLimits a a pos = L
      rcases L with _ | l
      · rfl
      · simp only [substitutedLogLimits_self hL]; exact overLimits_self _ _ _ _
  rw [if_neg h5, if_neg h5]; simp

/-- C63: equal limits give zero in every method. -/
theorem C63_equal_limits (Q : Quadrature) (s : IState) (a : ℝ) (f : ℝ → ℝ) (method : ℤ) (pos : ℝ) :
    (Integrate Q s a a f method pos).1 = 0 := by
  have := C63_orientation Q s s a a f method pos
  linarith

/-- C63: an earlier use of the object has no influence on the result. -/
theorem C63_no_memory (Q : Quadrature) (s s' : IState) (a b : ℝ) (f : ℝ → ℝ) (method : ℤ) (pos : ℝ) :
    (Integrate Q s a b f method pos).1 = (Integrate Q s' a b f method pos).1 := by
  have h1 := C63_orientation Q s s' a b f method pos
  have h2 := C63_orientation Q s s a b f method pos
  linarith

end Proposal
