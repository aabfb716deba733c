import Mathlib.Analysis.Calculus.Deriv.Mul
import Mathlib.Analysis.Calculus.Deriv.Add
import Mathlib.Tactic.LinearCombination
import Mathlib.Tactic.FieldSimp
import Mathlib.Tactic.Positivity
import Mathlib.Tactic.NormNum
import Mathlib.Topology.Order.DenselyOrdered

/-!
# Polynomials with integer coefficients, evaluated by the kernel

Lists of coefficients, the constant first. `certify` shows by its coefficients that a polynomial is not negative between two rational
numbers.
-/

namespace Proposal.IntPoly

/-- The value of a polynomial. -/
noncomputable def ev (x : ℝ) : List ℤ → ℝ
  | [] => 0
  | c :: l => c + x * ev x l

def add : List ℤ → List ℤ → List ℤ
  | [], l => l
  | a :: l, [] => a :: l
  | a :: l, b :: m => (a + b) :: add l m

def smul (k : ℤ) (l : List ℤ) : List ℤ := l.map (k * ·)

def mul : List ℤ → List ℤ → List ℤ
  | [], _ => []
  | a :: l, m => add (smul a m) (0 :: mul l m)

def sub (l m : List ℤ) : List ℤ := add l (smul (-1) m)

def der : List ℤ → List ℤ
  | [] => []
  | _ :: l => add l (0 :: der l)

/-- `(d + d t) ^ n`. -/
def base (d : ℤ) : ℕ → List ℤ
  | 0 => [1]
  | n + 1 => mul [d, d] (base d n)

/-- The polynomial in `t` at `(a + b t) / (d + d t)`, times a power of `d + d t`. -/
def hom (a b d : ℤ) : List ℤ → List ℤ
  | [] => []
  | c :: l => add (smul c (base d l.length)) (mul [a, b] (hom a b d l))

/-- All coefficients are not negative. -/
def nonneg (l : List ℤ) : Bool := l.all (0 ≤ ·)

/-- The certificate for `[a / d, b / d]`. -/
def certify (a b d : ℤ) (l : List ℤ) : Bool := nonneg (hom a b d l)

lemma ev_add (x : ℝ) : ∀ l m, ev x (add l m) = ev x l + ev x m
  | [], l => by simp [add, ev]
  | a :: l, [] => by simp [add, ev]
  | a :: l, b :: m => by
    simp only [add, ev, ev_add x l m]
    push_cast
    ring

lemma ev_smul (x : ℝ) (k : ℤ) : ∀ l, ev x (smul k l) = k * ev x l
  | [] => by simp [smul, ev]
  | a :: l => by
    have := ev_smul x k l
    unfold smul at this ⊢
    simp only [List.map_cons, ev, this]
    push_cast
    ring

lemma ev_mul (x : ℝ) : ∀ l m, ev x (mul l m) = ev x l * ev x m
  | [], m => by simp [mul, ev]
  | a :: l, m => by
    simp only [mul, ev_add, ev_smul, ev, ev_mul x l m]
    push_cast
    ring

lemma ev_sub (x : ℝ) (l m : List ℤ) : ev x (sub l m) = ev x l - ev x m := by
  simp only [sub, ev_add, ev_smul]
  push_cast
  ring

lemma ev_der (x : ℝ) : ∀ l, HasDerivAt (fun y => ev y l) (ev x (der l)) x
  | [] => by simpa [ev, der] using hasDerivAt_const x (0 : ℝ)
  | c :: l => by
    have h := ((hasDerivAt_id x).mul (ev_der x l)).const_add (c : ℝ)
    simp only [ev, der, ev_add]
    refine h.congr_deriv ?_
    simp only [id]
    push_cast
    ring

lemma ev_base (x : ℝ) (d : ℤ) : ∀ n, ev x (base d n) = (d * (1 + x)) ^ n
  | 0 => by simp [base, ev]
  | n + 1 => by
    simp only [base, ev_mul, ev_base x d n, ev]
    ring

lemma ev_hom (t x : ℝ) (a b d : ℤ) (hx : x * (d * (1 + t)) = a + b * t) :
    ∀ l, (d * (1 + t)) * ev t (hom a b d l) = (d * (1 + t)) ^ l.length * ev x l
  | [] => by simp [hom, ev]
  | c :: l => by
    have ih := ev_hom t x a b d hx l
    simp only [hom, ev_add, ev_smul, ev_base, ev_mul, ev, List.length_cons]
    linear_combination (a + b * t) * ih - (d * (1 + t)) ^ l.length * ev x l * hx

lemma nonneg_ev {l : List ℤ} (h : nonneg l = true) {t : ℝ} (ht : 0 ≤ t) : 0 ≤ ev t l := by
  induction l with
  | nil => simp [ev]
  | cons c l ih =>
    simp only [nonneg, List.all_cons, Bool.and_eq_true, decide_eq_true_eq] at h
    have h1 := ih h.2
    have h2 : (0 : ℝ) ≤ c := by exact_mod_cast h.1
    simp only [ev]
    positivity

lemma certify_lt {a b d : ℤ} {l : List ℤ} (h : certify a b d l = true) (hd : 0 < d) {x : ℝ} (h1 : (a : ℝ) ≤ x * d) (h2 : x * d < b) :
    0 ≤ ev x l := by
  have hd' : (0 : ℝ) < d := by exact_mod_cast hd
  set t := (x * d - a) / (b - x * d) with ht
  have hb : 0 < b - x * d := by linarith
  have t0 : 0 ≤ t := div_nonneg (by linarith) hb.le
  have hx : x * (d * (1 + t)) = a + b * t := by
    rw [ht]
    field_simp
    ring
  have e := ev_hom t x a b d hx l
  have hw : 0 < (d : ℝ) * (1 + t) := by positivity
  have h0 := nonneg_ev h t0
  by_contra hc
  push Not at hc
  have := mul_neg_of_pos_of_neg (pow_pos hw l.length) hc
  have := mul_nonneg hw.le h0
  linarith

/-- A certified polynomial is not negative. -/
lemma certified {a b d : ℤ} {l : List ℤ} (h : certify a b d l = true) (hd : 0 < d) (hab : a < b) {x : ℝ} (h1 : (a : ℝ) / d ≤ x)
    (h2 : x ≤ (b : ℝ) / d) : 0 ≤ ev x l := by
  have hd' : (0 : ℝ) < d := by exact_mod_cast hd
  have hab' : (a : ℝ) < b := by exact_mod_cast hab
  have hc : Continuous fun y => ev y l := continuous_iff_continuousAt.2 fun y => (ev_der y l).continuousAt
  have hclosed : IsClosed {y : ℝ | 0 ≤ ev y l} := isClosed_le continuous_const hc
  have hsub : Set.Ico ((a : ℝ) / d) (b / d) ⊆ {y : ℝ | 0 ≤ ev y l} := fun y hy =>
    certify_lt h hd ((div_le_iff₀ hd').1 hy.1) ((lt_div_iff₀ hd').1 hy.2)
  have := hclosed.closure_subset_iff.2 hsub
  rw [closure_Ico (by rw [Ne, div_left_inj' hd'.ne']; exact hab'.ne)] at this
  exact this ⟨h1, h2⟩

end Proposal.IntPoly
