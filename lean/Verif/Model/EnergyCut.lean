import Mathlib.Data.Real.Basic

/-!
# Energy cuts

Model of `EnergyCutSettings` (EnergyCutSettings.cxx 17-104). The cuts may be infinite or NaN, so
they get a type of their own; energies and kinematic limits are real numbers.
-/

namespace Proposal

/-- A `double` with its special values; rounding is not modelled. -/
inductive Dbl where
  | fin (x : ℝ)
  | pinf
  | ninf
  | nan

namespace Dbl

/-- C++ `a <= b`: false as soon as a NaN is involved. -/
def le : Dbl → Dbl → Prop
  | nan, _ => False
  | _, nan => False
  | ninf, _ => True
  | _, pinf => True
  | fin x, fin y => x ≤ y
  | _, _ => False

/-- C++ `a < b`. -/
def lt : Dbl → Dbl → Prop
  | nan, _ => False
  | _, nan => False
  | ninf, ninf => False
  | ninf, _ => True
  | pinf, _ => False
  | fin _, pinf => True
  | fin x, fin y => x < y
  | fin _, ninf => False

/-- C++ `a == b`. -/
def eq : Dbl → Dbl → Prop
  | fin x, fin y => x = y
  | pinf, pinf => True
  | ninf, ninf => True
  | _, _ => False

open Classical in
/-- `std::min(a, b)`: `b < a ? b : a`. -/
noncomputable def min (a b : Dbl) : Dbl := if lt b a then b else a

open Classical in
/-- `std::max(a, b)`: `a < b ? b : a`. -/
noncomputable def max (a b : Dbl) : Dbl := if lt a b then b else a

/-- `a / E` for a positive number `E`. -/
noncomputable def divPos : Dbl → ℝ → Dbl
  | fin x, E => fin (x / E)
  | pinf, _ => pinf
  | ninf, _ => ninf
  | nan, _ => nan

end Dbl

/-- `EnergyCutSettings` (EnergyCutSettings.h 49-52). -/
structure Cut where
  ecut : Dbl
  vcut : Dbl
  contRand : Bool

/-- The exceptions of the constructors. -/
inductive CutErr where
  | invalidArgument
  /-- thrown by the JSON library when a value has the wrong type -/
  | typeError
deriving DecidableEq

open Classical in
/-- Constructor from numbers (EnergyCutSettings.cxx 17-38). -/
noncomputable def Cut.make (ecut vcut : Dbl) (contRand : Bool) : Except CutErr Cut :=
  if Dbl.le ecut (.fin 0) then .error .invalidArgument
  else if Dbl.le vcut (.fin 0) ∨ Dbl.lt (.fin 1) vcut then .error .invalidArgument
  else .ok ⟨ecut, vcut, contRand⟩

/-- A JSON value, as far as the constructor distinguishes them. -/
inductive JVal where
  | num (x : ℝ)
  | str (s : String)
  | bool (b : Bool)
  | other

/-- A JSON object: the value of every key. -/
abbrev JObj := String → Option JVal

/-- `json::get_to(double&)`. -/
def JVal.toNum : JVal → Except CutErr ℝ
  | .num x => .ok x
  | _ => .error .typeError

/-- `json::get_to(bool&)`. -/
def JVal.toBool : JVal → Except CutErr Bool
  | .bool b => .ok b
  | _ => .error .typeError

/-- The value of `e_cut` (EnergyCutSettings.cxx 53-64): a number or one of two words, case ignored. -/
def JVal.toEcut : JVal → Except CutErr Dbl
  | .str s =>
    if s.toList.map Char.toLower = "inf".toList ∨ s.toList.map Char.toLower = "infinity".toList then .ok .pinf else .error .invalidArgument
  | v => (v.toNum).map Dbl.fin

/-- Constructor from JSON (EnergyCutSettings.cxx 40-70). -/
noncomputable def Cut.ofJson (config : JObj) : Except CutErr Cut :=
  match config "e_cut", config "v_cut", config "cont_rand" with
  | none, _, _ => .error .invalidArgument
  | some _, none, _ => .error .invalidArgument
  | some _, some _, none => .error .invalidArgument
  | some e, some v, some c =>
    match e.toEcut with
    | .error err => .error err
    | .ok ecut =>
      match v.toNum with
      | .error err => .error err
      | .ok vcut =>
        match c.toBool with
        | .error err => .error err
        | .ok b => Cut.make ecut (.fin vcut) b

/-- `operator==` (EnergyCutSettings.cxx 75-85). -/
def Cut.beq (a b : Cut) : Prop :=
  Dbl.eq a.ecut b.ecut ∧ Dbl.eq a.vcut b.vcut ∧ a.contRand = b.contRand

/-- `GetHash` (EnergyCutSettings.cxx 99-104); `h` is the combination of the hashes of two doubles. -/
def Cut.hash {H : Type} (h : Dbl → Dbl → H) (c : Cut) : H := h c.ecut c.vcut

/-- `GetCut(energy)` (EnergyCutSettings.cxx 87-91), for the positive energies the assertion asks for. -/
noncomputable def Cut.cut (c : Cut) (E : ℝ) : Dbl := Dbl.min (c.ecut.divPos E) c.vcut

lemma Dbl.min_fin (a b : ℝ) : Dbl.min (.fin a) (.fin b) = .fin (Min.min a b) := by
  unfold Dbl.min
  split_ifs with h <;> simp only [Dbl.lt] at h
  · rw [min_eq_right h.le]
  · rw [min_eq_left (not_lt.1 h)]

lemma Dbl.max_fin (a b : ℝ) : Dbl.max (.fin a) (.fin b) = .fin (Max.max a b) := by
  unfold Dbl.max
  split_ifs with h <;> simp only [Dbl.lt] at h
  · rw [max_eq_right h.le]
  · rw [max_eq_left (not_lt.1 h)]

/-- `KinematicLimits` (Parametrization.h). -/
structure KinLim where
  vMin : ℝ
  vMax : ℝ

/-- `GetCut(lim, energy)` (EnergyCutSettings.cxx 93-97). -/
noncomputable def Cut.cutIn (c : Cut) (lim : KinLim) (E : ℝ) : Dbl :=
  Dbl.min (Dbl.max (.fin lim.vMin) (c.cut E)) (.fin lim.vMax)

end Proposal
