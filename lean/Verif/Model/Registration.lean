import Verif.Model.Utility
import Verif.Model.Track

/-!
# Registration of secondary and deflection calculators

`/repo/src/PROPOSAL/PROPOSAL/secondaries/SecondariesCalculator.h` 17-81,
`/repo/src/PROPOSAL/detail/PROPOSAL/secondaries/SecondariesCalculator.cxx`, `/repo/src/PROPOSAL/PROPOSAL/DefaultFactory.h`,
the constructor of `Scattering` (`scattering/Scattering.h` 20-106) and `ScatteringMultiplier.h`. The hash maps are
functions from keys to optional values. Not modelled: the text of the exceptions, cloning of the parametrizations.
-/

namespace Proposal

/-- Ends other than a result. -/
inductive RegErr where
  | logicError
  | undefined   -- the end iterator of a map is dereferenced
  | aborted     -- a failed `assert`
  deriving DecidableEq

/-- `secondaries::Parametrization`: its interaction type, the number of random numbers it needs and its function from
the input (loss, component, random numbers) to the secondaries. -/
structure SecParam (α β : Type) where
  type : IType
  nRnd : ℕ
  calculate : α → β

/-- The map `secondary_generator`. -/
abbrev SecMap (α β : Type) := IType → Option (SecParam α β)

/-- `addInteraction` (SecondariesCalculator.h 51-54): `map[type] = p`. -/
def addInteraction {α β : Type} (m : SecMap α β) (p : SecParam α β) : SecMap α β := Function.update m p.type (some p)

/-- A `SecondariesCalculator` after the given calls of `addInteraction`. -/
def secondariesOf {α β : Type} (ps : List (SecParam α β)) : SecMap α β := ps.foldl addInteraction fun _ => none

/-- `RequiredRandomNumbers` (SecondariesCalculator.h 59-62). -/
def requiredRandomNumbers {α β : Type} (m : SecMap α β) (t : IType) : Except RegErr ℕ :=
  match m t with
  | some p => .ok p.nRnd
  | none => .error .undefined

/-- `CalculateSecondaries` (SecondariesCalculator.cxx 5-16): the message of the exception looks up the name of the type
without a test. -/
def calculateSecondaries {α β : Type} (m : SecMap α β) (t : IType) (input : α) : Except RegErr β :=
  match m t with
  | some p => .ok (p.calculate input)
  | none => match t.name with
    | some _ => .error .logicError
    | none => .error .undefined

/-- The static map of `DefaultFactory` (DefaultFactory.h 17-22): `none` before the first registration. -/
abbrev FactoryMap (γ : Type) := Option (IType → Option γ)

/-- `Register` (DefaultFactory.h 27-40): the map afterwards and the returned value. -/
def factoryRegister {γ : Type} (m : FactoryMap γ) (t : IType) (b : γ) : FactoryMap γ × Bool :=
  let m' := m.getD fun _ => none
  match m' t with
  | some _ => (some m', false)
  | none => (some (Function.update m' t (some b)), true)

/-- `Create` (DefaultFactory.h 42-56): the builder that is called. -/
def factoryCreate {γ : Type} (m : FactoryMap γ) (t : IType) : Except RegErr γ :=
  match m with
  | none => .error .logicError
  | some m => match m t with
    | some b => .ok b
    | none => match t.name with
      | some _ => .error .logicError
      | none => .error .undefined

/-- The constructor of `SecondariesCalculator` from interaction types (SecondariesCalculator.h 38-45). -/
def secondariesFor {α β : Type} (factory : FactoryMap (SecParam α β)) (ts : List IType) : Except RegErr (SecMap α β) :=
  ts.foldlM (fun m t => (factoryCreate factory t).map (addInteraction m)) fun _ => none

/-- `stochastic_deflection::Parametrization`. -/
structure DeflectParam where
  type : IType
  nRnd : ℕ
  angles : ℝ → ℝ → List ℝ → ℕ → ℝ × ℝ

/-- The constructor of `Scattering` (Scattering.h 31-37 and 101-106): `m[type] = d` for every calculator. -/
def newScattering (multiple : Option (ℝ → ℝ → ℝ → (Fin 4 → ℝ) → ScatteringOffset)) (ds : List DeflectParam) :
    ScatterCalc :=
  ⟨multiple, ds.foldl (fun m d => Function.update m d.type (some (d.nRnd, d.angles))) fun _ => none⟩

/-- `ScatteringMultiplier::_scale_scatter` (ScatteringMultiplier.h 23-31). -/
def scaleScatter (k : ℝ) (o : ScatteringOffset) : ScatteringOffset := ⟨o.sx * k, o.sy * k, o.tx * k, o.ty * k⟩

open Classical in
/-- `ScatteringMultiplier::_scale_deflect` (ScatteringMultiplier.h 11-21) with or without assertions. -/
noncomputable def scaleDeflect (asserts : Bool) (ks : List (IType × ℝ)) (a : ℝ × ℝ) (t : IType) : Except RegErr (ℝ × ℝ) :=
  match ks.find? (fun m => m.1 = t) with
  | some m => if asserts ∧ ¬ a.1 * m.2 ≤ Real.pi then .error .aborted else .ok (a.1 * m.2, a.2)
  | none => .ok a

/-- A `ScatteringMultiplier` (without assertions) as the calculator that the propagation sees. -/
noncomputable def newMultiplied (multiple : Option (ℝ → ℝ → ℝ → (Fin 4 → ℝ) → ScatteringOffset)) (ds : List DeflectParam)
    (k : ℝ) (ks : List (IType × ℝ)) : ScatterCalc :=
  let s := newScattering multiple ds
  ⟨s.multiple.map fun f g i e r => scaleScatter k (f g i e r),
    fun t => (s.deflection t).map fun nf => (nf.1, fun i e r c =>
      match scaleDeflect false ks (nf.2 i e r c) t with
      | .ok a => a
      | .error _ => nf.2 i e r c)⟩

end Proposal
