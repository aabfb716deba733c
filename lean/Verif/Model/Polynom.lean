import Mathlib.Data.Real.Basic
import Mathlib.Data.List.Range

/-!
# Polynomials

`/repo/src/PROPOSAL/detail/PROPOSAL/math/Function.cxx`. A polynomial is the list of its coefficients, lowest
degree first; the shared buffers of the C++ class are modelled below.
-/

namespace Proposal

/-- The coefficients `coeff_[0] … coeff_[N_ - 1]`. -/
abbrev Poly := List ℝ

/-- The coefficient `coeff_[k]`, 0 beyond the last one (the code never reads there). -/
def Poly.coef (l : Poly) (k : ℕ) : ℝ := l.getD k 0

/-- The loop of `evaluate`: the value of `aux` when the coefficients from this one on are used up. -/
noncomputable def horner (x : ℝ) : ℝ → List ℝ → ℝ
  | a, [] => a
  | a, b :: l => horner x b l * x + a

/-- `Polynom::evaluate` (lines 46-53). `none`: for an empty polynomial the element before the array is
read. -/
noncomputable def Poly.evaluate (p : Poly) (x : ℝ) : Option ℝ :=
  match p with
  | [] => none
  | a :: l => some (horner x a l)

/-- The table `t[i][j]` of `shift` (lines 60-74) for the degree `n`: column 0 and the elements `t[i][i+1]`
are initialised, the others are the sum of the elements above and above left. Each element is
written once before it is read. -/
noncomputable def shiftTable (a : ℕ → ℝ) (x : ℝ) (n : ℕ) : ℕ → ℕ → ℝ
  | 0, 0 => a (n - 0 - 1) * x ^ (n - 0 - 1)
  | i + 1, 0 => a (n - (i + 1) - 1) * x ^ (n - (i + 1) - 1)
  | 0, _ + 1 => a n * x ^ n
  | i + 1, j + 1 =>
    if i + 1 ≤ j then a n * x ^ n else shiftTable a x n i j + shiftTable a x n i (j + 1)

/-- `GEOMETRY_PRECISION`. -/
noncomputable def shiftPrecision : ℝ := 1 / 10 ^ 9

open Classical in
/-- `Polynom::shift` (lines 55-80); the highest coefficient stays. -/
noncomputable def Poly.shift (p : Poly) (x : ℝ) : Poly :=
  if |x| > shiftPrecision then
    (List.range p.length).map fun i =>
      if i = p.length - 1 then p.coef i
      else shiftTable p.coef x (p.length - 1) (p.length - 1) (i + 1) / x ^ i
  else p

/-- `Polynom::GetDerivative` (lines 82-89). -/
noncomputable def Poly.derivative (p : Poly) : Poly :=
  (List.range (p.length - 1)).map fun i => p.coef (i + 1) * (i + 1 : ℕ)

/-- `Polynom::GetAntiderivative` (lines 91-98). -/
noncomputable def Poly.antiderivative (p : Poly) (c : ℝ) : Poly :=
  c :: (List.range p.length).map fun i => p.coef i / (i + 1 : ℕ)

open Classical in
/-- `Polynom::operator==` (lines 32-40). -/
noncomputable def Poly.beq (p q : Poly) : Bool :=
  decide (p.length = q.length ∧ ∀ i < p.length, p.coef i = q.coef i)

/-! ## Objects with buffers

A `Polynom` object is a size and a pointer to a buffer that is never freed. The vector constructor
(lines 15-19) allocates a buffer; the copy constructor (line 30) and the defaulted assignment copy the
pointer; `shift` writes to the buffer. -/

/-- The memory: the buffers allocated so far. -/
abbrev Buffers := List Poly

/-- An object: the number of its buffer. The size of a buffer never changes. -/
structure PolyObj where
  buffer : ℕ
  deriving DecidableEq

/-- `Polynom(std::vector<double>)`. -/
def PolyObj.new (m : Buffers) (coefficients : Poly) : Buffers × PolyObj := (m ++ [coefficients], ⟨m.length⟩)

/-- `Polynom(const Polynom&)`, also `clone` and `operator=`. -/
def PolyObj.copy (m : Buffers) (p : PolyObj) : Buffers × PolyObj := (m, p)

/-- The coefficients an object sees. -/
def PolyObj.get (m : Buffers) (p : PolyObj) : Poly := m.getD p.buffer []

/-- `shift` on an object. -/
noncomputable def PolyObj.shift (m : Buffers) (p : PolyObj) (x : ℝ) : Buffers :=
  m.set p.buffer ((p.get m).shift x)

end Proposal
