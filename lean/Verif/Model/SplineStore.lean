import Verif.Model.Spline

/-!
# Storing splines

`Spline::save`, the constructor from a file and the stream operators
(`/repo/src/PROPOSAL/detail/PROPOSAL/math/Spline.cxx` 34-39, 102-169), `Table_write` and `Table_read`
(`/repo/src/PROPOSAL/PROPOSAL/math/TableWriter.h` 38-95).

* A text file is a list of lines, a line a comment or a list of words. A number is printed with the
  default precision of a stream; `w` is what reading the printed number gives.
* Numbers of pieces and of coefficients are read into `unsigned int`; a larger number sets the fail bit and
  leaves the largest `unsigned int`.
* A read on a stream that has failed or ended leaves its target as it is. Where the target has no value yet
  the outcome is `none` (undefined behaviour). A file that ends within a piece is `none` as well, no file
  written by `save` does so.
* A file can be opened for writing always, for reading when it exists.
-/

namespace Proposal

/-- A word of a stored spline. -/
inductive SplineWord where
  | num (v : ℝ)
  | int (k : ℕ)

/-- A line of a stored spline. -/
inductive SplineLine where
  | comment
  | words (l : List SplineWord)

/-- What a file holds. `image`: the bytes of a `std::string` object. -/
inductive SplineFile where
  | text (lines : List SplineLine)
  | image

/-- The files by their names. -/
abbrev SplineFiles := String → Option SplineFile

/-- `GetSplineContainer` (Spline.cxx 102-114): each piece with the knots at its index and the next one. `none`:
an element outside of `subintervall_` is read. -/
def splineContainers : List Poly → List ℝ → Option (List (Poly × ℝ × ℝ))
  | [], _ => some []
  | p :: ps, a :: b :: knots => (splineContainers ps (b :: knots)).map ((p, a, b) :: ·)
  | _ :: _, _ => none

/-- `operator<<` of a container (lines 152-158). `coeff.size() - 1` is computed with 64 bits. -/
def containerLine (w : ℝ → ℝ) (c : Poly × ℝ × ℝ) : SplineLine :=
  .words (.num (w c.2.1) :: .num (w c.2.2) :: .int (if c.1.length = 0 then 2 ^ 64 - 1 else c.1.length - 1) ::
    c.1.map fun a => .num (w a))

/-- `operator<<` of a spline (lines 129-136). -/
def Spline.print (w : ℝ → ℝ) (s : Spline) : Option (List SplineLine) :=
  (splineContainers s.pieces s.knots).map fun cs =>
    [.comment, .comment, .words [.int s.n]] ++ cs.map (containerLine w)

/-- The name of the file: `path_.append(".bin")` or `path_.append(".txt")` (TableWriter.h 41-44, 66-69). -/
def tableName (path : String) (binary : Bool) : String := path ++ if binary then ".bin" else ".txt"

/-- `Spline::save` (Spline.cxx 116-126) with `Table_write` (TableWriter.h 38-61): the binary mode writes the
bytes of the `std::string` object, the text mode its text and one more line end. -/
def Spline.save (w : ℝ → ℝ) (s : Spline) (path : String) (binary : Bool) (files : SplineFiles) : Option SplineFiles :=
  (s.print w).map fun lines =>
    Function.update files (tableName path binary) (some (if binary then .image else .text (lines ++ [.words []])))

/-- The words of the lines, as `>>` sees them. The words of comments are not separated: none of the files
here has a comment after the first two lines. -/
def lineWords : List SplineLine → List SplineWord
  | [] => []
  | .comment :: l => lineWords l
  | .words ws :: l => ws ++ lineWords l

/-- A stream: the words ahead and whether it is good. -/
structure SplineStream where
  words : List SplineWord
  good : Bool

/-- The loop over the coefficients (lines 164-167). -/
def readCoeffs : ℕ → List SplineWord → Option (List ℝ × List SplineWord)
  | 0, ws => some ([], ws)
  | k + 1, .num v :: ws => (readCoeffs k ws).map fun r => (v :: r.1, r.2)
  | _ + 1, _ => none

/-- `operator>>` of a container (lines 160-169): the domain, the coefficients and the stream. `degree` has no
value if the stream is not good. `degree + 1` is computed with 32 bits. -/
def readContainer (st : SplineStream) : Option ((ℝ × ℝ) × Poly × SplineStream) :=
  if st.good then
    match st.words with
    | .num a :: .num b :: .int k :: ws =>
      if k < 2 ^ 32 then
        (readCoeffs ((k + 1) % 2 ^ 32) ws).map fun r => ((a, b), r.1, ⟨r.2, true⟩)
      else some ((a, b), [], ⟨ws, false⟩)
    | _ => none
  else none

/-- The loop of `operator>>` of a spline (lines 142-147), `k` rounds left; `dom` is the domain of the container.
The pieces, the knots and the domain at the end. -/
def readPieces : ℕ → (ℝ × ℝ) → SplineStream → Option (List Poly × List ℝ × (ℝ × ℝ))
  | 0, dom, _ => some ([], [], dom)
  | k + 1, _, st =>
    match readContainer st with
    | none => none
    | some (dom, p, st') => (readPieces k dom st').map fun r => (p :: r.1, dom.1 :: r.2.1, r.2.2)

/-- `operator>>` of a spline (lines 138-150) into an object without pieces. The domain of a new container is
(0, 0). -/
def readSpline : List SplineWord → Option Spline
  | .int n :: ws =>
    if n < 2 ^ 32 then
      (readPieces n (0, 0) ⟨ws, true⟩).map fun r => ⟨r.1, r.2.1 ++ [r.2.2.2], n⟩
    else none
  | _ => none

/-- `Spline(std::string path, bool binary)` (lines 34-39): `jump(2)` leaves two lines out. The binary mode
reads bytes over the object, which holds vectors: undefined. A file that does not exist is not noticed,
`n_subintervalls_` has no value then. -/
def Spline.load (path : String) (binary : Bool) (files : SplineFiles) : Option Spline :=
  if binary then none
  else
    match files (tableName path binary) with
    | some (.text lines) => readSpline (lineWords (lines.drop 2))
    | _ => none

end Proposal
