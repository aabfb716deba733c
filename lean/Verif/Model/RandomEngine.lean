import Mathlib.Data.Real.Basic
import Mathlib.Algebra.Order.Archimedean.Real.Basic
import Mathlib.Algebra.Order.Floor.Ring

/-!
# The random number generator

`/repo/src/PROPOSAL/detail/PROPOSAL/math/RandomGenerator.cxx` and `math/RandomGenerator.h`, without the parts for IceCube. The engine
`std::mt19937` and `std::uniform_real_distribution` belong to the standard library; they are modelled as the C++ standard defines them
([rand.eng.mers], [rand.util.canonical]), with exact instead of rounded division.
-/

namespace Proposal

/-- The words of `std::mt19937`. -/
abbrev Word := BitVec 32

/-- The state of `std::mt19937`: the last 624 words, the oldest first. -/
abbrev Mt := Fin 624 → Word

/-- The upper bit of one word and the lower bits of the next ([rand.eng.mers]). -/
def mtJoin (a b : Word) : Word := (a &&& 0x80000000#32) ||| (b &&& 0x7fffffff#32)

/-- The multiplication with the twist matrix. -/
def mtTwist (y : Word) : Word := (y >>> 1) ^^^ (if y.getLsbD 0 then 0x9908b0df#32 else 0#32)

/-- The next word. -/
def mtNew (s : Mt) : Word := s 397 ^^^ mtTwist (mtJoin (s 0) (s 1))

/-- The transition: the oldest word is dropped, the new word is appended. -/
def mtStep (s : Mt) : Mt := fun i => if h : i.val + 1 < 624 then s ⟨i.val + 1, h⟩ else mtNew s

/-- The tempering of a word. -/
def mtTemper (x : Word) : Word :=
  let y1 := x ^^^ (x >>> 11)
  let y2 := y1 ^^^ ((y1 <<< 7) &&& 0x9d2c5680#32)
  let y3 := y2 ^^^ ((y2 <<< 15) &&& 0xefc60000#32)
  y3 ^^^ (y3 >>> 18)

/-- The words after seeding: each from the previous one. -/
def mtSeedWord (seed : Word) : ℕ → Word
  | 0 => seed
  | i + 1 => 1812433253#32 * (mtSeedWord seed i ^^^ (mtSeedWord seed i >>> 30)) + BitVec.ofNat 32 (i + 1)

/-- `seed(value)`; an `int` is reduced modulo 2^32. -/
def mtSeed (seed : ℤ) : Mt := fun i => mtSeedWord (BitVec.ofInt 32 seed) i.val

/-- One call of the engine: the tempered new word and the state afterwards. -/
def mtCall (s : Mt) : ℕ × Mt := ((mtTemper (mtNew s)).toNat, mtStep s)

/-- `uniform_real_distribution<double>(0, 1)`: two calls of the engine for the 53 bits of a `double`. -/
noncomputable def mtDouble (s : Mt) : ℝ × Mt :=
  let a := mtCall s
  let b := mtCall a.2
  (((a.1 : ℝ) + (b.1 : ℝ) * 2 ^ 32) / 2 ^ 64, b.2)

/-- `RandomGenerator` (RandomGenerator.h 103-107) for the program as a whole: the engine is a static member, i.e. one for all objects; the
function belongs to the object. A function given by the user is a stream of which `used` numbers have been taken. -/
structure RandomGen where
  engine : Mt
  custom : Option (ℕ → ℝ)
  used : ℕ

/-- `RandomDouble` (RandomGenerator.cxx 35-50, 88-92). -/
noncomputable def RandomGen.double (g : RandomGen) : ℝ × RandomGen :=
  match g.custom with
  | some f => (f g.used, { g with used := g.used + 1 })
  | none => ((mtDouble g.engine).1, { g with engine := (mtDouble g.engine).2 })

/-- The next `n` numbers. -/
noncomputable def RandomGen.numbers : ℕ → RandomGen → List ℝ
  | 0, _ => []
  | n + 1, g => g.double.1 :: RandomGen.numbers n g.double.2

/-- `SetSeed` (RandomGenerator.cxx 53-56). -/
def RandomGen.setSeed (seed : ℤ) (g : RandomGen) : RandomGen := { g with engine := mtSeed seed }

/-- `Serialize` (RandomGenerator.cxx 59-62): the words of the engine. -/
def RandomGen.serialize (g : RandomGen) : List Word := List.ofFn g.engine

/-- `Deserialize` (RandomGenerator.cxx 65-68); with other than 624 words the stream fails and the engine stays as it is. -/
def RandomGen.deserialize (text : List Word) (g : RandomGen) : RandomGen :=
  if h : text.length = 624 then { g with engine := fun i => text.get (i.cast h.symm) } else g

/-- `SetRandomNumberGenerator` (RandomGenerator.cxx 71-74). -/
def RandomGen.setCustom (f : ℕ → ℝ) (g : RandomGen) : RandomGen := { g with custom := some f, used := 0 }

/-- `SetDefaultRandomNumberGenerator` (RandomGenerator.cxx 83-86). -/
def RandomGen.setDefault (g : RandomGen) : RandomGen := { g with custom := none }

end Proposal
