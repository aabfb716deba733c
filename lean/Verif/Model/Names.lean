import Mathlib.Data.List.Basic
import Mathlib.Data.Fin.Basic
import Mathlib.Tactic.Ring

/-!
# Names

`/repo/src/PROPOSAL/detail/PROPOSAL/methods.cxx` 42-64 and `/repo/src/PROPOSAL/detail/PROPOSAL/medium/MediumFactory.cxx`.
A `std::string` is a list of bytes; the locale is the C locale.
-/

namespace Proposal

/-- A byte of a string. -/
abbrev Byte := Fin 256

/-- `std::tolower` in the C locale for values of `unsigned char`. -/
def lowerByte (c : Byte) : Byte := if 65 ≤ c.val ∧ c.val ≤ 90 then ⟨(c.val + 32) % 256, Nat.mod_lt _ (by norm_num)⟩ else c

/-- `::tolower(c)` for a `char c` that is signed: negative values other than `EOF` (-1) are undefined behaviour, `none`. -/
def lowerSigned (c : Byte) : Option Byte := if 128 ≤ c.val ∧ c.val ≠ 255 then none else some (lowerByte c)

/-- `operator<` of strings: `char_traits<char>` compares bytes as `unsigned char`. -/
def stringLess : List Byte → List Byte → Bool
  | _, [] => false
  | [], _ :: _ => true
  | a :: s, b :: t => if a < b then true else if b < a then false else stringLess s t

/-- `Helper::case_insensitive_comp` (methods.cxx 55-64). -/
def nameLess (l r : List Byte) : Option Bool :=
  match l.mapM lowerSigned, r.mapM lowerSigned with
  | some l', some r' => some (stringLess l' r')
  | _, _ => none

/-- `Helper::Centered` (methods.cxx 42-53); `width` is an `int`. -/
def centered (width : ℤ) (s : List Byte) (fill : Byte) : List Byte :=
  if width < s.length then s
  else List.replicate ((width - s.length) / 2).toNat fill ++ s ++
    List.replicate (width - s.length - (width - s.length) / 2).toNat fill

/-- The bytes of an ASCII string. -/
def bytes (s : String) : List Byte := s.toList.map fun c => ⟨c.toNat % 256, Nat.mod_lt _ (by norm_num)⟩

/-- A lookup in a `std::map` with the comparator `case_insensitive_comp` (the factories of the cross sections):
the entry whose key is equivalent to the name. `none` for undefined behaviour, `some none` for `end()`. -/
def findName {α : Type} (name : List Byte) : List (List Byte × α) → Option (Option α)
  | [] => some none
  | (k, a) :: t =>
    match nameLess k name, nameLess name k with
    | some false, some false => some (some a)
    | some _, some _ => findName name t
    | _, _ => none

/-- `Medium_Type` (Medium.h). -/
inductive MediumType
  | water | waterpdg2001 | waterpdg2020 | ice | icepdg2001 | icepdg2020 | salt | standardrock | frejusrock | iron
  | hydrogen | lead | copper | uranium | air | paraffin | antareswater | cascadiabasinwater | liquidargon
  deriving DecidableEq, Repr

/-- The enumerators in their order, `static_cast<Medium_Type>(id)`. -/
def mediumTypes : List MediumType :=
  [.water, .waterpdg2001, .waterpdg2020, .ice, .icepdg2001, .icepdg2020, .salt, .standardrock, .frejusrock, .iron,
   .hydrogen, .lead, .copper, .uranium, .air, .paraffin, .antareswater, .cascadiabasinwater, .liquidargon]

/-- `Medium_Name` (Medium.h). -/
def mediumNames : List String :=
  ["water", "waterpdg2001", "waterpdg2020", "ice", "icepdg2001", "icepdg2020", "salt", "standardrock", "frejusrock",
   "iron", "hydrogen", "lead", "copper", "uranium", "air", "paraffin", "antareswater", "cascadiabasinwater",
   "liquidargon"]

/-- The classes of media of Medium.h. -/
inductive MediumClass
  | waterPDG2001 | waterPDG2020 | icePDG2001 | icePDG2020 | salt | calciumCarbonate | standardRock | frejusRock | iron
  | hydrogen | lead | copper | uranium | air | paraffin | antaresWater | cascadiaBasinWater | liquidArgon
  deriving DecidableEq, Repr

/-- `Medium_Map` (MediumFactory.h). `Water` and `Ice` are those of the namespace `PDG2020`. -/
def mediumMap : MediumType → MediumClass
  | .water => .waterPDG2020
  | .waterpdg2001 => .waterPDG2001
  | .waterpdg2020 => .waterPDG2020
  | .ice => .icePDG2020
  | .icepdg2001 => .icePDG2001
  | .icepdg2020 => .icePDG2020
  | .salt => .salt
  | .standardrock => .standardRock
  | .frejusrock => .frejusRock
  | .iron => .iron
  | .hydrogen => .hydrogen
  | .lead => .lead
  | .copper => .copper
  | .uranium => .uranium
  | .air => .air
  | .paraffin => .paraffin
  | .antareswater => .antaresWater
  | .cascadiabasinwater => .cascadiaBasinWater
  | .liquidargon => .liquidArgon

/-- The loop of `CreateMedium(std::string)` (MediumFactory.cxx 30-35). `none` stands for `invalid_argument`. -/
def createMediumLoop (name : List Byte) : List String → List MediumType → Option MediumClass
  | n :: ns, t :: ts => if name = bytes n then some (mediumMap t) else createMediumLoop name ns ts
  | _, _ => none

/-- `CreateMedium(std::string)` (MediumFactory.cxx 25-36). -/
def createMedium (name : List Byte) : Option MediumClass :=
  createMediumLoop (name.map lowerByte) mediumNames mediumTypes

end Proposal
