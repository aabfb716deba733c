import Verif.Model.Registration
import Verif.Props.Vec3
import Mathlib.Tactic.Linarith

/-!
# C65: secondary calculators and deflection registries
-/

namespace Proposal

private lemma foldl_other {α β : Type} (ps : List (SecParam α β)) (m : SecMap α β) (t : IType)
    (h : ∀ p ∈ ps, p.type ≠ t) : ps.foldl addInteraction m t = m t := by
  induction ps generalizing m with
  | nil => rfl
  | cons p ps ih =>
    rw [List.foldl_cons, ih _ fun q hq => h q (List.mem_cons_of_mem _ hq)]
    exact Function.update_of_ne (h p List.mem_cons_self).symm _ _

private lemma secondaries_last {α β : Type} (l1 l2 : List (SecParam α β)) (p : SecParam α β)
    (h : ∀ q ∈ l2, q.type ≠ p.type) : secondariesOf (l1 ++ p :: l2) p.type = some p := by
  rw [secondariesOf, List.foldl_append, List.foldl_cons, foldl_other l2 _ _ h]
  exact Function.update_self _ _ _

/-- C65: after any history of registrations the last calculator registered for a type is asked for its number of random
numbers and calculates the secondaries. -/
theorem C65_last_registered {α β : Type} (l1 l2 : List (SecParam α β)) (p : SecParam α β)
    (h : ∀ q ∈ l2, q.type ≠ p.type) (input : α) :
    calculateSecondaries (secondariesOf (l1 ++ p :: l2)) p.type input = .ok (p.calculate input) ∧
    requiredRandomNumbers (secondariesOf (l1 ++ p :: l2)) p.type = .ok p.nRnd := by
  simp only [calculateSecondaries, requiredRandomNumbers, secondaries_last l1 l2 p h, and_self]

/-- C65: for a type without calculator an exception is raised. Missing: the type `Undefined`, and the number of random
numbers, see the theorems below. -/
theorem C65_unknown_partial {α β : Type} (ps : List (SecParam α β)) (t : IType) (h : ∀ p ∈ ps, p.type ≠ t)
    (ht : t ≠ .undefined) (input : α) :
    calculateSecondaries (secondariesOf ps) t input = .error .logicError := by
  have e : secondariesOf ps t = none := foldl_other ps _ t h
  cases t <;> simp_all [calculateSecondaries, IType.name]

/-- C65: for a loss of the type `Undefined`, which is what the sampling of losses gives if all rates vanish, building
the message of the exception dereferences an end iterator (disagreement). -/
theorem C65_undefined_type {α β : Type} (ps : List (SecParam α β)) (h : ∀ p ∈ ps, p.type ≠ .undefined) (input : α) :
    calculateSecondaries (secondariesOf ps) .undefined input = .error .undefined := by
  have e : secondariesOf ps .undefined = none := foldl_other ps _ _ h
  simp [calculateSecondaries, e, IType.name]

/-- C65: asking for the number of random numbers of a type without calculator is undefined behaviour for every type
(disagreement). -/
theorem C65_required_unknown {α β : Type} (ps : List (SecParam α β)) (t : IType) (h : ∀ p ∈ ps, p.type ≠ t) :
    requiredRandomNumbers (secondariesOf ps) t = .error .undefined := by
  have e : secondariesOf ps t = none := foldl_other ps _ t h
  simp only [requiredRandomNumbers, e]

/-- C65: in contrast, of the defaults registered for a type the first one stays. The second registration reports that it
was not made. -/
theorem C65_factory_first {γ : Type} (m : FactoryMap γ) (t : IType) (b b' : γ)
    (h : ∀ f, m = some f → f t = none) :
    (factoryRegister m t b).2 = true ∧ factoryCreate (factoryRegister m t b).1 t = .ok b ∧
    (factoryRegister (factoryRegister m t b).1 t b').2 = false ∧
    factoryCreate (factoryRegister (factoryRegister m t b).1 t b').1 t = .ok b := by
  have e : (m.getD fun _ => none) t = none := by
    cases m with
    | none => rfl
    | some f => exact h f rfl
  simp [factoryRegister, e, factoryCreate]

/-- C65: registrations for other types do not matter. -/
theorem C65_factory_other {γ : Type} (m : FactoryMap γ) (t t' : IType) (b b' : γ) (h : t' ≠ t)
    (hc : factoryCreate m t = .ok b) : factoryCreate (factoryRegister m t' b').1 t = .ok b := by
  cases m with
  | none => simp [factoryCreate] at hc
  | some f =>
    cases hf : f t with
    | none =>
      simp only [factoryCreate, hf] at hc
      cases hn : t.name <;> simp [hn] at hc
    | some c =>
      simp only [factoryCreate, hf] at hc
      obtain rfl := Except.ok.inj hc
      cases hf' : f t' with
      | none => simp [factoryRegister, hf', factoryCreate, Function.update_of_ne h.symm, hf]
      | some _ => simp [factoryRegister, hf', factoryCreate, hf]

private lemma foldlM_all {α β : Type} (f : IType → Option (SecParam α β)) (ts : List IType) (m : SecMap α β)
    (hk : ∀ t ∈ ts, ∃ p, f t = some p ∧ p.type = t) :
    ∃ m', ts.foldlM (fun m t => (factoryCreate (some f) t).map (addInteraction m)) m = .ok m' ∧
      ∀ t, m' t = if t ∈ ts then f t else m t := by
  induction ts generalizing m with
  | nil => exact ⟨m, rfl, fun t => by simp⟩
  | cons a ts ih =>
    obtain ⟨p, hp, ht⟩ := hk a List.mem_cons_self
    obtain ⟨m', h1, h2⟩ := ih (addInteraction m p) fun t ht => hk t (List.mem_cons_of_mem _ ht)
    refine ⟨m', ?_, ?_⟩
    · rw [List.foldlM_cons]
      simp only [factoryCreate, hp, Except.map, bind, Except.bind]
      exact h1
    · intro t
      rw [h2]
      by_cases e : t = a
      · subst e
        simp [addInteraction, ht, hp]
      · simp [e, addInteraction, ht]

/-- C65: a calculator made for a list of types has the default of each of these types and nothing else, in whatever order
and however often they are listed. -/
theorem C65_from_types {α β : Type} (f : IType → Option (SecParam α β)) (ts : List IType)
    (hk : ∀ t ∈ ts, ∃ p, f t = some p ∧ p.type = t) :
    ∃ m, secondariesFor (some f) ts = .ok m ∧ ∀ t, m t = if t ∈ ts then f t else none :=
  foldlM_all f ts _ hk

private lemma deflect_other (ds : List DeflectParam) (m : IType → Option (ℕ × (ℝ → ℝ → List ℝ → ℕ → ℝ × ℝ))) (t : IType)
    (h : ∀ d ∈ ds, d.type ≠ t) :
    ds.foldl (fun (m : IType → Option (ℕ × (ℝ → ℝ → List ℝ → ℕ → ℝ × ℝ))) d =>
      Function.update m d.type (some (d.nRnd, d.angles))) m t = m t := by
  induction ds generalizing m with
  | nil => rfl
  | cons d ds ih =>
    rw [List.foldl_cons, ih _ fun q hq => h q (List.mem_cons_of_mem _ hq)]
    exact Function.update_of_ne (h d List.mem_cons_self).symm _ _

/-- C65: without scattering, and for a type without deflection calculator, no random number is drawn and the direction
does not change; without multiple scattering the mean and the final direction of a step are its direction, and again no
random number is drawn. -/
theorem C65_no_deflection (u : Utility) (ω : ℕ → ℝ) (pos : ℕ) (t : IType) (ei ef : ℝ) (dir : Vec3) (comp : ℕ) (mem : Memo)
    (g : ℝ) :
    (u.scattering = none → u.directionDeflect ω pos t ei ef dir comp = (dir, pos) ∧
      u.directionsScatter ω mem g ei ef dir = (dir, dir, mem)) ∧
    (∀ multiple ds, u.scattering = some (newScattering multiple ds) → (∀ d ∈ ds, d.type ≠ t) →
      u.directionDeflect ω pos t ei ef dir comp = (dir, pos)) ∧
    (∀ ds, u.scattering = some (newScattering none ds) → u.directionsScatter ω mem g ei ef dir = (dir, dir, mem)) := by
  refine ⟨?_, ?_, ?_⟩
  · intro h
    simp only [Utility.directionDeflect, Utility.directionsScatter, h, and_self]
  · intro multiple ds h hd
    have e : (newScattering multiple ds).deflection t = none := deflect_other ds _ t hd
    simp only [Utility.directionDeflect, h, e, Real.cos_zero]
    rw [Vec3.deflect, if_neg (by simp)]
  · intro ds h
    have e : (newScattering none ds).multiple = none := rfl
    have es : scatterInitialDirection dir ⟨0, 0, 0, 0⟩ = (dir, dir) := by
      unfold scatterInitialDirection
      simp only [mul_zero, add_zero, sub_zero, max_eq_left zero_le_one, Real.sqrt_one]
      have : (1 : ℝ) • dir + (0 : ℝ) • dir.rotX + (0 : ℝ) • dir.rotY = dir := by
        ext <;> simp
      rw [this]
    simp only [Utility.directionsScatter, h, e, es]

/-- C65: of several deflection calculators for a type the last one is used. -/
theorem C65_deflection_last (multiple : Option (ℝ → ℝ → ℝ → (Fin 4 → ℝ) → ScatteringOffset)) (l1 l2 : List DeflectParam)
    (d : DeflectParam) (h : ∀ q ∈ l2, q.type ≠ d.type) :
    (newScattering multiple (l1 ++ d :: l2)).deflection d.type = some (d.nRnd, d.angles) := by
  simp only [newScattering, List.foldl_append, List.foldl_cons]
  rw [deflect_other l2 _ _ h]
  exact Function.update_self _ _ _

/-- C65: with multipliers the polar angle of a deflection is multiplied by the first factor given for its type, azimuth,
number of random numbers and all other types stay as they are, and the four offsets of multiple scattering are
multiplied by their factor. -/
theorem C65_multiplier (multiple : Option (ℝ → ℝ → ℝ → (Fin 4 → ℝ) → ScatteringOffset)) (ds : List DeflectParam) (k : ℝ)
    (l1 l2 : List (IType × ℝ)) (t : IType) (x : ℝ) (h : ∀ m ∈ l1, m.1 ≠ t) (n : ℕ)
    (f : ℝ → ℝ → List ℝ → ℕ → ℝ × ℝ) (hf : (newScattering multiple ds).deflection t = some (n, f)) :
    (∃ f', (newMultiplied multiple ds k (l1 ++ (t, x) :: l2)).deflection t = some (n, f') ∧
      ∀ ei ef r c, f' ei ef r c = ((f ei ef r c).1 * x, (f ei ef r c).2)) ∧
    (newMultiplied multiple ds k l1).deflection t = some (n, f) ∧
    (∀ g, multiple = some g → ∃ g', (newMultiplied multiple ds k l1).multiple = some g' ∧
      ∀ a b c r, g' a b c r = ⟨(g a b c r).sx * k, (g a b c r).sy * k, (g a b c r).tx * k, (g a b c r).ty * k⟩) := by
  have h1 : ∀ l, (l1 ++ l).find? (fun m => m.1 = t) = l.find? (fun m => m.1 = t) := by
    intro l
    rw [List.find?_append]
    have : l1.find? (fun m => decide (m.1 = t)) = none := by
      rw [List.find?_eq_none]
      simpa using h
    rw [this]
    rfl
  refine ⟨?_, ?_, ?_⟩
  · refine ⟨fun ei ef r c => ((f ei ef r c).1 * x, (f ei ef r c).2), ?_, fun _ _ _ _ => rfl⟩
    simp only [newMultiplied, hf, Option.map_some, scaleDeflect, h1, List.find?_cons, decide_true]
    simp
  · simp only [newMultiplied, hf, Option.map_some]
    have e := h1 []
    rw [List.append_nil] at e
    simp only [scaleDeflect, e, List.find?_nil]
  · rintro g rfl
    exact ⟨_, rfl, fun _ _ _ _ => rfl⟩

/-- C65: an angle that is multiplied beyond π ends a program with assertions. -/
theorem C65_multiplier_assertion (ks : List (IType × ℝ)) (a : ℝ × ℝ) (t : IType) (x : ℝ) (h : Real.pi < a.1 * x) :
    scaleDeflect true ((t, x) :: ks) a t = .error .aborted ∧
    scaleDeflect false ((t, x) :: ks) a t = .ok (a.1 * x, a.2) := by
  simp [scaleDeflect, h]

/-- Two calculators for bremsstrahlung and one for ionization in between: the second one for bremsstrahlung is used,
and annihilation has none. -/
example : calculateSecondaries (secondariesOf
      [⟨.brems, 1, fun x : ℕ => x⟩, ⟨.ioniz, 2, fun x => x + 1⟩, ⟨.brems, 3, fun x => x + 2⟩]) .brems 5 = .ok 7 ∧
    calculateSecondaries (secondariesOf
      [⟨.brems, 1, fun x : ℕ => x⟩, ⟨.ioniz, 2, fun x => x + 1⟩]) .annihilation 5 = .error .logicError := by
  constructor
  · exact (C65_last_registered [⟨.brems, 1, fun x : ℕ => x⟩, ⟨.ioniz, 2, fun x => x + 1⟩] [] ⟨.brems, 3, fun x => x + 2⟩
      (by simp) 5).1
  · exact C65_unknown_partial _ _ (by simp) (by simp) _

/-- A deflection of 1 with the factor 2 for its type. -/
example : (∃ f', (newMultiplied none [⟨.brems, 2, fun _ _ _ _ => (1, 3)⟩] 1 [(.ioniz, 5), (.brems, 2)]).deflection .brems =
    some (2, f') ∧ ∀ ei ef r c, f' ei ef r c = (1 * 2, 3)) :=
  (C65_multiplier none [⟨.brems, 2, fun _ _ _ _ => (1, 3)⟩] 1 [(.ioniz, 5)] [] .brems 2 (by simp) 2 _
    (C65_deflection_last none [] [] ⟨.brems, 2, fun _ _ _ _ => (1, 3)⟩ (by simp))).1

end Proposal
