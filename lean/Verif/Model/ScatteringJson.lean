import Verif.Model.GeometryJson
import Verif.Model.Registration
import Verif.Model.Track

/-!
# Scattering from JSON

`/repo/src/PROPOSAL/PROPOSAL/scattering/ScatteringFactory.h` and the factories of
`/repo/src/PROPOSAL/PROPOSAL/scattering/multiple_scattering/ScatteringFactory.h` and
`/repo/src/PROPOSAL/PROPOSAL/scattering/stochastic_deflection/ScatteringFactory.h`. The configuration is already parsed: values with
the wrong JSON type are not modelled. The objects are represented by their class.
-/

namespace Proposal

/-- Classes of multiple scattering. -/
inductive MsClass where
  | moliere
  | highland
  | highlandIntegral
  | moliereInterpol
  deriving DecidableEq

/-- Classes of stochastic deflections. -/
inductive SdClass where
  | bremsTsai
  | ionizNaive
  | photoBorog
  | epairGinneken
  | bremsGinneken
  | photoGinneken
  deriving DecidableEq

/-- `GetInteractionType`. -/
def SdClass.type : SdClass → IType
  | .bremsTsai => .brems
  | .ionizNaive => .ioniz
  | .photoBorog => .photonuclear
  | .epairGinneken => .epair
  | .bremsGinneken => .brems
  | .photoGinneken => .photonuclear

/-- Outcomes that are no scattering object. -/
inductive ScatErr where
  | outOfRange
  | logicError
  | undefined
  deriving DecidableEq

/-- `::tolower` over a text. -/
def lowerName (s : String) : Except ScatErr String :=
  match lowerText s with
  | .ok t => .ok t
  | .error _ => .error .undefined

/-- `MultipleScatteringTable` with the switch (multiple_scattering/ScatteringFactory.h 58-93); a null pointer for `noscattering`. -/
def msOfName (s : String) : Except ScatErr (Option MsClass) := do
  let n ← lowerName s
  if n = "moliere" then return some .moliere
  if n = "highland" then return some .highland
  if n = "highlandintegral" then return some .highlandIntegral
  if n = "noscattering" then return none
  if n = "moliereinterpol" then return some .moliereInterpol
  throw .outOfRange

/-- `DeflectionTable` (stochastic_deflection/ScatteringFactory.h 96-109). -/
def deflectionTable : List (String × SdClass) :=
  [("bremstsaiapproximation", .bremsTsai), ("ioniznaive", .ionizNaive), ("photoborogpetrukhin", .photoBorog),
   ("epairginneken", .epairGinneken), ("bremsginneken", .bremsGinneken), ("photoginneken", .photoGinneken)]

/-- The classes derived from `DefaultDeflection`; other types throw `std::logic_error` (DefaultFactory.h 39-54). -/
def defaultDeflection : IType → Except ScatErr SdClass
  | .brems => .ok .bremsTsai
  | .ioniz => .ok .ionizNaive
  | .epair => .ok .epairGinneken
  | .photonuclear => .ok .photoBorog
  | _ => .error .logicError

/-- The type with a name in lower case (ScatteringFactory.h 38-43 and 65-69). -/
def typeOfLower (n : String) : Option IType :=
  IType.all.find? fun t => t.name.any fun m => String.ofList (m.toList.map Char.toLower) = n

/-- One entry of `stochastic_deflection` (ScatteringFactory.h 27-57). -/
def sdOfName (s : String) : Except ScatErr SdClass := do
  let n ← lowerName s
  match deflectionTable.lookup n with
  | some d => return d
  | none =>
    if "default".toList.isPrefixOf n.toList then
      match typeOfLower (String.ofList (n.toList.drop 7)) with
      | none => throw .outOfRange
      | some t => defaultDeflection t
    else throw .outOfRange

/-- The configuration. The multipliers are in the order of the keys. -/
structure ScatConfig where
  multiple : Option String
  multipleFactor : Option ℝ
  deflections : Option (List String)
  factors : Option (List (String × ℝ))

/-- The object: the class of multiple scattering, the class for every interaction type, and, for a `ScatteringMultiplier`, the
factors. -/
structure ScatObject where
  multiple : Option MsClass
  deflection : IType → Option SdClass
  multiplier : Option (ℝ × List (IType × ℝ))

/-- A loop over the entries. -/
def scatAll {α β : Type} (f : α → Except ScatErr β) : List α → Except ScatErr (List β)
  | [] => .ok []
  | a :: l =>
    match f a with
    | .error e => .error e
    | .ok b =>
      match scatAll f l with
      | .error e => .error e
      | .ok bs => .ok (b :: bs)

/-- One entry of `stochastic_deflection_multiplier` (ScatteringFactory.h 63-76). -/
def factorOf (e : String × ℝ) : Except ScatErr (IType × ℝ) :=
  match lowerName e.1 with
  | .error x => .error x
  | .ok n =>
    match typeOfLower n with
    | none => .error .outOfRange
    | some t => .ok (t, e.2)

/-- The entry `multiple_scattering`, if there is one (ScatteringFactory.h 20-25). -/
def msOfConfig : Option String → Except ScatErr (Option MsClass)
  | none => .ok none
  | some s => msOfName s

/-- The map of a `Scattering`: `m[type] = d` for every deflection in turn (Scattering.h 31-37). -/
def deflectionMap (l : List SdClass) : IType → Option SdClass :=
  l.foldl (fun m d => Function.update m d.type (some d)) fun _ => none

open Classical in
/-- `make_scattering` (ScatteringFactory.h 15-84) with the constructors of Scattering.h 31-37. -/
noncomputable def makeScattering (c : ScatConfig) : Except ScatErr ScatObject :=
  match msOfConfig c.multiple with
  | .error e => .error e
  | .ok ms =>
    match scatAll sdOfName (c.deflections.getD []) with
    | .error e => .error e
    | .ok sd =>
      match scatAll factorOf (c.factors.getD []) with
      | .error e => .error e
      | .ok ks =>
        let k := c.multipleFactor.getD 1
        .ok ⟨ms, deflectionMap sd,
          if k = 1 ∧ ks = [] then none else some (k, ks)⟩

/-- The factor for the deflection of a type: the first one in the list (ScatteringMultiplier.h 11-21), 1 for `Scattering`. -/
noncomputable def ScatObject.factor (o : ScatObject) (t : IType) : ℝ :=
  match o.multiplier with
  | none => 1
  | some (_, ks) => ((ks.find? fun m => m.1 = t).map Prod.snd).getD 1

/-- The factor for multiple scattering. -/
noncomputable def ScatObject.msFactor (o : ScatObject) : ℝ :=
  match o.multiplier with
  | none => 1
  | some (k, _) => k

end Proposal
