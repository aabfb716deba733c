import Mathlib.Data.Real.Basic

/-!
# JSON values

The part of the interface of `nlohmann::json` that the constructors from JSON use.
-/

namespace Proposal

/-- A JSON value. Whole numbers and floating point numbers are both numbers. An object is given by the value
of every key. -/
inductive Json where
  | null
  | bool (b : Bool)
  | num (x : ℝ)
  | str (s : String)
  | arr (l : List Json)
  | obj (fields : String → Option Json)

/-- The exceptions of the constructors from JSON: `std::invalid_argument`, `std::logic_error`, and the type and
range errors of the library. -/
inductive JsonErr where
  | invalidArgument
  | logicError
  | typeError
  deriving DecidableEq

/-- `contains(key)`: false for everything that is not an object. -/
def Json.contains (j : Json) (key : String) : Bool :=
  match j with
  | .obj f => (f key).isSome
  | _ => false

/-- `operator[](key)` on a constant value: a type error for everything that is not an object. A missing key
is undefined behaviour in the library; the model raises the same exception as `at(key)`, the constructors
ask `contains` before. -/
def Json.get (j : Json) (key : String) : Except JsonErr Json :=
  match j with
  | .obj f => match f key with
    | some v => .ok v
    | none => .error .typeError
  | _ => .error .typeError

/-- `is_array()`. -/
def Json.isArray : Json → Bool
  | .arr _ => true
  | _ => false

/-- `is_number()`. -/
def Json.isNumber : Json → Bool
  | .num _ => true
  | _ => false

/-- `get<double>()`; a boolean converts, too. -/
def Json.toDouble : Json → Except JsonErr ℝ
  | .num x => .ok x
  | .bool b => .ok (if b then 1 else 0)
  | _ => .error .typeError

/-- `get<std::string>()`. -/
def Json.toStr : Json → Except JsonErr String
  | .str s => .ok s
  | _ => .error .typeError

/-- `get<std::vector<double>>()`. -/
def Json.toDoubles : Json → Except JsonErr (List ℝ)
  | .arr l => l.mapM Json.toDouble
  | _ => .error .typeError

/-- `value(key, default)` for a floating point default. -/
def Json.valueD (j : Json) (key : String) (default : ℝ) : Except JsonErr ℝ :=
  match j with
  | .obj f => match f key with
    | some v => v.toDouble
    | none => .ok default
  | _ => .error .typeError

end Proposal
