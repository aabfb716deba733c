import Verif.Model.Medium
import Verif.Model.DecayTable

/-!
# The registries of components, media and particles

The static maps `Component::component_map` (Components.cxx 60-64, 263-268), `Medium::medium_map` (Medium.cxx 86-92,
212-217) and `ParticleDef::Type_Particle_Map` (ParticleDef.cxx 74-88, 165-183). A map is a list of pairs with distinct
keys; a null pointer is `none`.
-/

namespace Proposal

/-- A static `unique_ptr` to a map. -/
abbrev Registry (K V : Type) := Option (List (K × V))

/-- `map.find(key)`. -/
def findKey {K V : Type} [DecidableEq K] (k : K) : List (K × V) → Option V
  | [] => none
  | (k', v) :: t => if k' = k then some v else findKey k t

/-- The end of the constructors of `Component` and `Medium`: create the map if it does not exist, insert the object if
there is none with its hash. -/
def registerHash {K V : Type} [DecidableEq K] (r : Registry K V) (k : K) (v : V) : Registry K V :=
  let m := r.getD []
  match findKey k m with
  | none => some (m ++ [(k, v)])
  | some _ => some m

/-- What a lookup gives. -/
inductive Found (V : Type) where
  | value (v : V)
  /-- `std::invalid_argument` -/
  | invalidArgument
  /-- the null pointer is dereferenced -/
  | undefined

/-- `GetComponentForHash`, `GetMediumForHash`. -/
def lookupHash {K V : Type} [DecidableEq K] (r : Registry K V) (k : K) : Found V :=
  match r with
  | none => .undefined
  | some m =>
    match findKey k m with
    | some v => .value v
    | none => .invalidArgument

/-- A sequence of constructions of media. -/
noncomputable def registerMedia (H : Hasher) (r : Registry Hash Med) (ms : List Med) : Registry Hash Med :=
  ms.foldl (fun r m => registerHash r (m.hash H) m) r

/-- A sequence of constructions of components. -/
def registerComps (r : Registry Hash Component) (cs : List Component) : Registry Hash Component :=
  cs.foldl (fun r c => registerHash r c.hash c) r

/-- `ParticleDef` (ParticleDef.h). The lifetime is `none` for stable particles (infinite). -/
structure PDef where
  name : List Byte
  mass : ℝ
  low : ℝ
  lifetime : Option ℝ
  charge : ℝ
  hard : List (List ℝ)
  decay : List (ℝ × Channel)
  type : ℤ
  weakPartner : ℤ

open Classical in
/-- `operator==` of particle definitions (ParticleDef.cxx 218-241), with the comparison of decay tables as a
parameter. -/
noncomputable def PDef.equal (eqTable : List (ℝ × Channel) → List (ℝ × Channel) → Bool) (l r : PDef) : Bool :=
  if l.name ≠ r.name then false
  else if l.mass ≠ r.mass then false
  else if l.low ≠ r.low then false
  else if l.lifetime ≠ r.lifetime then false
  else if l.charge ≠ r.charge then false
  else if l.hard ≠ r.hard then false
  else if !eqTable l.decay r.decay then false
  else if l.type ≠ r.type then false
  else if l.weakPartner ≠ r.weakPartner then false
  else true

/-- The registration of a definition in an existing map (ParticleDef.cxx 171-183). `none` stands for
`std::invalid_argument`. -/
noncomputable def registerType (eqTable : List (ℝ × Channel) → List (ℝ × Channel) → Bool) (m : List (ℤ × PDef)) (d : PDef) :
    Option (List (ℤ × PDef)) :=
  match findKey d.type m with
  | none => some (m ++ [(d.type, d)])
  | some d' => if d.equal eqTable d' then some m else none

/-- The map after `create_particle_map` (ParticleDef.cxx 255-280): the pointer is set to an empty map first, then each
built-in definition registers itself. -/
noncomputable def builtinMap (eqTable : List (ℝ × Channel) → List (ℝ × Channel) → Bool) (builtin : List PDef) :
    Option (List (ℤ × PDef)) :=
  builtin.foldl (fun r d => r.bind fun m => registerType eqTable m d) (some [])

/-- The map that a constructor or a lookup finds (ParticleDef.cxx 75-79, 165-169). -/
noncomputable def ensureMap (eqTable : List (ℝ × Channel) → List (ℝ × Channel) → Bool) (builtin : List PDef)
    (r : Registry ℤ PDef) : Option (List (ℤ × PDef)) :=
  match r with
  | some m => some m
  | none => builtinMap eqTable builtin

/-- The constructor of `ParticleDef`: the map afterwards, `none` if it throws. -/
noncomputable def constructDef (eqTable : List (ℝ × Channel) → List (ℝ × Channel) → Bool) (builtin : List PDef)
    (r : Registry ℤ PDef) (d : PDef) : Option (List (ℤ × PDef)) :=
  (ensureMap eqTable builtin r).bind fun m => registerType eqTable m d

/-- The registry after a construction: an exception leaves the map as it was found. -/
noncomputable def afterConstruct (eqTable : List (ℝ × Channel) → List (ℝ × Channel) → Bool) (builtin : List PDef)
    (r : Registry ℤ PDef) (d : PDef) : Registry ℤ PDef :=
  match constructDef eqTable builtin r d with
  | some m => some m
  | none => ensureMap eqTable builtin r

/-- `GetParticleDefForType` (ParticleDef.cxx 74-88). -/
noncomputable def lookupType (eqTable : List (ℝ × Channel) → List (ℝ × Channel) → Bool) (builtin : List PDef)
    (r : Registry ℤ PDef) (type : ℤ) : Found PDef :=
  match ensureMap eqTable builtin r with
  | none => .invalidArgument
  | some m =>
    match findKey type m with
    | some d => .value d
    | none => .invalidArgument

/-- The types of `create_particle_map` (ParticleDef.cxx 255-280). -/
def builtinTypes : List ℤ :=
  [11, -11, 12, -12, 13, 14, -14, -13, 15, -15, 16, -16, 22, 111, 211, -211, 311, 321, -321, 41, 9500, -9500]

/-- The enumerators of `ParticleType` (ParticleDef.h 79-107). -/
def particleTypes : List ℤ :=
  [0, 11, -11, 12, -12, 13, -13, 14, -14, 15, -15, 16, -16, 22, 111, 211, -211, 311, 321, -321, 1000015, -1000015, 41,
   9500, -9500, 81]

end Proposal
