import Verif.Model.Polynom

/-!
# Splines

`/repo/src/PROPOSAL/detail/PROPOSAL/math/Spline.cxx`. Objects are values here: the pieces are lists of
coefficients (the sharing of buffers between copies is the topic of `Model/Polynom.lean`). The abscissae
are different, so that the divisions are defined. Reading and writing files is in `Model/SplineStore.lean`.
-/

namespace Proposal

/-- `Spline`: `splines_`, `subintervall_`, `n_subintervalls_`. -/
structure Spline where
  pieces : List Poly
  knots : List ℝ
  n : ℕ

open Classical in
/-- The loop and the end of `Spline::evaluate` (lines 67-78), `k` rounds left at the index `i`. `none`: an
element outside of a vector is read. -/
noncomputable def Spline.evaluateGo (s : Spline) (x : ℝ) : (k i : ℕ) → Option ℝ
  | 0, _ =>
    match s.knots.getLast? with
    | none => none
    | some b =>
      if x > b then (if s.n = 0 then none else s.pieces[s.n - 1]?.bind (·.evaluate x))
      else s.pieces[0]?.bind (·.evaluate x)
  | k + 1, i =>
    match s.knots[i]? with
    | none => none
    | some a =>
      if a ≤ x then
        match s.knots[i + 1]? with
        | none => none
        | some b => if x ≤ b then s.pieces[i]?.bind (·.evaluate x) else s.evaluateGo x k (i + 1)
      else s.evaluateGo x k (i + 1)

/-- `Spline::evaluate` (lines 67-78). -/
noncomputable def Spline.evaluate (s : Spline) (x : ℝ) : Option ℝ := s.evaluateGo x s.n 0

/-- `Spline::Derivative` (lines 80-83): `for (auto spline : splines_) spline = spline.GetDerivative();`, an
assignment to a copy of each element. -/
noncomputable def Spline.derivative (s : Spline) : Spline :=
  { s with pieces := s.pieces.map fun p => let _assigned := p.derivative; p }

/-- One round of `Spline::Antiderivative` (lines 85-94): the new piece and the new `aux1`. -/
noncomputable def antiPiece (p : Poly) (a b aux1 : ℝ) : Option (Poly × ℝ) := do
  let aux2 ← (p.antiderivative 0).evaluate a
  let q := p.antiderivative (aux1 - aux2)
  let vb ← q.evaluate b
  let va ← q.evaluate a
  pure (q, aux1 + (vb - va))

/-- The loop of `Antiderivative` over the indices from `i` on, `k` rounds left. -/
noncomputable def Spline.antiGo (s : Spline) : (k i : ℕ) → ℝ → Option (List Poly)
  | 0, _, _ => some []
  | k + 1, i, aux1 => do
    let p ← s.pieces[i]?
    let a ← s.knots[i]?
    let b ← s.knots[i + 1]?
    let (q, aux1') ← antiPiece p a b aux1
    let qs ← s.antiGo k (i + 1) aux1'
    pure (q :: qs)

/-- `Spline::Antiderivative` (lines 85-94). `none`: an element outside of a vector is used. Pieces beyond
`n_subintervalls_` stay. -/
noncomputable def Spline.antiderivative (s : Spline) (c : ℝ) : Option Spline :=
  (s.antiGo s.n 0 c).map fun qs => { s with pieces := qs ++ s.pieces.drop s.n }

/-- `Spline(std::vector<Polynom>, std::vector<double>)` (lines 24-27): the number of intervals is the
number of knots. -/
def Spline.ofPolynoms (pieces : List Poly) (knots : List ℝ) : Spline := ⟨pieces, knots, knots.length⟩

/-- `Linear_Spline::calculate_splines` (lines 195-211), for at least one abscissa and as many ordinates. -/
noncomputable def Spline.linear (x y : List ℝ) : Spline :=
  let n := x.length - 1
  ⟨(List.range n).map fun i =>
      let a1 := (y.getD (i + 1) 0 - y.getD i 0) / (x.getD (i + 1) 0 - x.getD i 0)
      let a0 := y.getD i 0 - a1 * x.getD i 0
      [a0, a1],
    x, n⟩

/-! ## Cubic splines

`Cubic_Spline::calculate_splines` (lines 236-295) as functions of the index; the same algorithm is
`CalculateSpline` (MathMethods.cxx 264-324). -/

/-- Step 3. -/
def cubicH (x : ℕ → ℝ) (i : ℕ) : ℝ := x (i + 1) - x i

/-- Step 4. -/
noncomputable def cubicAlpha (x a : ℕ → ℝ) (i : ℕ) : ℝ :=
  3 / cubicH x i * (a (i + 1) - a i) - 3 / cubicH x (i - 1) * (a i - a (i - 1))

/-- Steps 6 and 7: `(l, mu, z)` at the index. -/
noncomputable def cubicForward (x a : ℕ → ℝ) : ℕ → ℝ × ℝ × ℝ
  | 0 => (1, 0, 0)
  | i + 1 =>
    let (_, mu, z) := cubicForward x a i
    let l := 2 * (x (i + 1 + 1) - x i) - cubicH x i * mu
    (l, cubicH x (i + 1) / l, (cubicAlpha x a (i + 1) - cubicH x i * z) / l)

/-- Steps 8 and 9: `c[n - k]`. -/
noncomputable def cubicBack (x a : ℕ → ℝ) (n : ℕ) : ℕ → ℝ
  | 0 => 0
  | k + 1 => (cubicForward x a (n - (k + 1))).2.2 - (cubicForward x a (n - (k + 1))).2.1 * cubicBack x a n k

/-- `c[j]`. -/
noncomputable def cubicC (x a : ℕ → ℝ) (n j : ℕ) : ℝ := cubicBack x a n (n - j)

/-- `b[j]`. -/
noncomputable def cubicB (x a : ℕ → ℝ) (n j : ℕ) : ℝ :=
  (a (j + 1) - a j) / cubicH x j - cubicH x j * (cubicC x a n (j + 1) + 2 * cubicC x a n j) / 3

/-- `d[j]`. -/
noncomputable def cubicD (x a : ℕ → ℝ) (n j : ℕ) : ℝ :=
  (cubicC x a n (j + 1) - cubicC x a n j) / (3 * cubicH x j)

/-- The piece `i` before the shift. -/
noncomputable def cubicPiece (x a : ℕ → ℝ) (n i : ℕ) : Poly :=
  [a i, cubicB x a n i, cubicC x a n i, cubicD x a n i]

/-- `Cubic_Spline::calculate_splines` for at least one abscissa and as many ordinates. -/
noncomputable def Spline.cubic (x y : List ℝ) : Spline :=
  let n := x.length - 1
  ⟨(List.range n).map fun i => (cubicPiece (x.getD · 0) (y.getD · 0) n i).shift (-x.getD i 0), x, n⟩

end Proposal
