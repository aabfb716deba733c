import Verif.Model.Registry
import Verif.Props.Medium

/-!
# Registries of components, media and particles (C57, C58, C94)
-/

namespace Proposal

lemma findKey_append {K V : Type} [DecidableEq K] (k : K) (m m' : List (K × V)) :
    findKey k (m ++ m') = (findKey k m).or (findKey k m') := by
  induction m with
  | nil => simp [findKey]
  | cons e m ih =>
    obtain ⟨k', v⟩ := e
    rw [List.cons_append, findKey, findKey]
    by_cases h : k' = k
    · rw [if_pos h, if_pos h]; rfl
    · rw [if_neg h, if_neg h, ih]

lemma findKey_mem {K V : Type} [DecidableEq K] {k : K} {v : V} {m : List (K × V)} (h : findKey k m = some v) : (k, v) ∈ m := by
  induction m with
  | nil => simp [findKey] at h
  | cons e m ih =>
    obtain ⟨k', v'⟩ := e
    rw [findKey] at h
    by_cases hk : k' = k
    · rw [if_pos hk] at h
      simp only [Option.some.injEq] at h
      subst hk; subst h; simp
    · rw [if_neg hk] at h
      simp [ih h]

/-- The content of a registry. -/
def content {K V : Type} (r : Registry K V) : List (K × V) := r.getD []

lemma content_register {K V : Type} [DecidableEq K] (r : Registry K V) (k : K) (v : V) (q : K) :
    findKey q (content (registerHash r k v)) =
      (findKey q (content r)).or (if k = q then some v else none) ∧ (registerHash r k v).isSome := by
  unfold registerHash content
  simp only
  cases hf : findKey k (r.getD []) with
  | none =>
    refine ⟨?_, rfl⟩
    simp only [Option.getD_some]
    rw [findKey_append]
    rfl
  | some w =>
    refine ⟨?_, rfl⟩
    simp only [Option.getD_some]
    by_cases hk : k = q
    · subst hk; rw [hf]; rfl
    · rw [if_neg hk, Option.or_none]

/-- Registering a sequence: the objects found afterwards. -/
lemma content_foldl {K V : Type} [DecidableEq K] (key : V → K) (vs : List V) (r : Registry K V) (q : K) :
    findKey q (content (vs.foldl (fun r v => registerHash r (key v) v) r)) =
      (findKey q (content r)).or (vs.find? fun v => decide (key v = q)) ∧
    ((r.isSome ∨ vs ≠ []) → (vs.foldl (fun r v => registerHash r (key v) v) r).isSome) := by
  induction vs generalizing r with
  | nil => simp
  | cons v vs ih =>
    rw [List.foldl_cons]
    obtain ⟨h1, h2⟩ := ih (registerHash r (key v) v)
    obtain ⟨h3, h4⟩ := content_register r (key v) v q
    refine ⟨?_, fun _ => h2 (Or.inl h4)⟩
    rw [h1, h3, Option.or_assoc]
    congr 1
    by_cases hk : key v = q
    · rw [if_pos hk, List.find?_cons_of_pos (by simpa using hk)]; rfl
    · rw [if_neg hk, List.find?_cons_of_neg (by simpa using hk)]; rfl

lemma lookupHash_some {K V : Type} [DecidableEq K] {r : Registry K V} (hr : r.isSome) (k : K) :
    lookupHash r k = match findKey k (content r) with
      | some v => .value v
      | none => .invalidArgument := by
  cases r with
  | none => simp at hr
  | some m => rfl

lemma lookupHash_value {K V : Type} [DecidableEq K] {r : Registry K V} {k : K} {v : V} (h : lookupHash r k = .value v) :
    r.isSome ∧ findKey k (content r) = some v := by
  cases r with
  | none => simp [lookupHash] at h
  | some m =>
    refine ⟨rfl, ?_⟩
    rw [lookupHash_some rfl] at h
    cases hf : findKey k (content (some m)) with
    | none => rw [hf] at h; simp at h
    | some w => rw [hf] at h; simp at h; rw [h]

/-- The first object with a key is found, later ones do not replace it. -/
lemma lookup_sequence {K V : Type} [DecidableEq K] (key : V → K) (before after : List V) (v : V) :
    ∃ w, lookupHash ((before ++ v :: after).foldl (fun r v => registerHash r (key v) v) none) (key v) = .value w ∧
      key w = key v ∧ w ∈ before ++ [v] ∧ (w = v ∨ w ∈ before) := by
  obtain ⟨h1, h2⟩ := content_foldl key (before ++ v :: after) none (key v)
  rw [lookupHash_some (h2 (Or.inr (by simp))), h1]
  have e : content (none : Registry K V) = [] := rfl
  rw [e, findKey, Option.none_or, List.find?_append]
  cases hb : before.find? fun w => decide (key w = key v) with
  | some w =>
    refine ⟨w, rfl, ?_, ?_, ?_⟩
    · have := List.find?_some hb; simpa using this
    · simp [List.mem_of_find?_eq_some hb]
    · exact Or.inr (List.mem_of_find?_eq_some hb)
  | none =>
    rw [Option.none_or, List.find?_cons_of_pos (by simp)]
    exact ⟨v, rfl, rfl, by simp, Or.inl rfl⟩

/-- C57: after the construction of a medium, whatever has been constructed before and is constructed after it, the
lookup by its hash gives a medium with this hash, constructed not later than it. -/
theorem C57_media_found (H : Hasher) (before after : List Med) (m : Med) :
    ∃ m', lookupHash (registerMedia H none (before ++ m :: after)) (m.hash H) = .value m' ∧ m'.hash H = m.hash H ∧
      m' ∈ before ++ [m] := by
  obtain ⟨w, h1, h2, h3, -⟩ := lookup_sequence (Med.hash H) before after m
  exact ⟨w, h1, h2, h3⟩

/-- C57: a registered medium is never replaced. -/
theorem C57_media_kept (H : Hasher) (r : Registry Hash Med) (k : Hash) (m : Med) (later : List Med)
    (h : lookupHash r k = .value m) : lookupHash (registerMedia H r later) k = .value m := by
  obtain ⟨hr, hf⟩ := lookupHash_value h
  obtain ⟨h1, h2⟩ := content_foldl (Med.hash H) later r k
  unfold registerMedia
  rw [lookupHash_some (h2 (Or.inl hr)), h1, hf]
  rfl

/-- C57: the lookup of a hash that no constructed medium has raises an exception, once there is any medium. -/
theorem C57_media_unknown (H : Hasher) (ms : List Med) (k : Hash) (hne : ms ≠ []) (h : ∀ m ∈ ms, m.hash H ≠ k) :
    lookupHash (registerMedia H none ms) k = .invalidArgument := by
  obtain ⟨h1, h2⟩ := content_foldl (Med.hash H) ms none k
  unfold registerMedia
  rw [lookupHash_some (h2 (Or.inr hne)), h1]
  have e : content (none : Registry Hash Med) = [] := rfl
  have hn : (ms.find? fun m => decide (m.hash H = k)) = none := by
    rw [List.find?_eq_none]
    intro m hm; simpa using h m hm
  rw [e, hn]
  rfl

/-- C57: before any medium has been constructed a lookup dereferences a null pointer. -/
theorem C57_media_none (k : Hash) : lookupHash (none : Registry Hash Med) k = .undefined := rfl

/-- C57: the same for components. -/
theorem C57_components (before after : List Component) (c : Component) (r : Registry Hash Component) (later : List Component) (k : Hash)
    (c0 : Component) :
    (∃ c', lookupHash (registerComps none (before ++ c :: after)) c.hash = .value c' ∧ c'.hash = c.hash ∧
      c' ∈ before ++ [c]) ∧
    (lookupHash r k = .value c0 → lookupHash (registerComps r later) k = .value c0) ∧
    ((∀ d ∈ before ++ c :: after, d.hash ≠ k) →
      lookupHash (registerComps none (before ++ c :: after)) k = .invalidArgument) := by
  refine ⟨?_, fun h => ?_, fun h => ?_⟩
  · obtain ⟨w, h1, h2, h3, -⟩ := lookup_sequence Component.hash before after c
    exact ⟨w, h1, h2, h3⟩
  · obtain ⟨hr, hf⟩ := lookupHash_value h
    obtain ⟨h1, h2⟩ := content_foldl Component.hash later r k
    unfold registerComps
    rw [lookupHash_some (h2 (Or.inl hr)), h1, hf]
    rfl
  · obtain ⟨h1, h2⟩ := content_foldl Component.hash (before ++ c :: after) none k
    unfold registerComps
    rw [lookupHash_some (h2 (Or.inr (by simp))), h1]
    have e : content (none : Registry Hash Component) = [] := rfl
    have hn : ((before ++ c :: after).find? fun m => decide (m.hash = k)) = none := by
      rw [List.find?_eq_none]
      intro m hm; simpa using h m hm
    rw [e, hn]
    rfl

/-- Two components with the same numbers. -/
structure Spec.SameAtom (c d : Component) : Prop where
  nucCharge : c.nucCharge = d.nucCharge
  atomicNum : c.atomicNum = d.atomicNum
  atomInMolecule : c.atomInMolecule = d.atomInMolecule
  logConstant : c.logConstant = d.logConstant
  bPrime : c.bPrime = d.bPrime
  averageNucleonWeight : c.averageNucleonWeight = d.averageNucleonWeight
  woodSaxon : c.woodSaxon = d.woodSaxon

/-- Two media with the same numbers. -/
structure Spec.SameMatter (u v : Med) : Prop where
  sumCharge : u.sumCharge = v.sumCharge
  ZA : u.ZA = v.ZA
  I : u.I = v.I
  C : u.C = v.C
  a : u.a = v.a
  m : u.m = v.m
  X0 : u.X0 = v.X0
  X1 : u.X1 = v.X1
  d0 : u.d0 = v.d0
  massDensity : u.massDensity = v.massDensity
  molDensity : u.molDensity = v.molDensity
  radiationLength : u.radiationLength = v.radiationLength
  MM : u.MM = v.MM
  sumNucleons : u.sumNucleons = v.sumNucleons
  components : List.Forall₂ Spec.SameAtom u.components v.components

/-- Two media with the same names, also of their components. -/
def Spec.SameNames (m m' : Med) : Prop := m.name = m'.name ∧ m.components.map Component.name = m'.components.map Component.name

/-- A medium as the constructors make it. -/
def Spec.Constructed (H : Hasher) (m : Med) : Prop :=
  ∃ (x : MedArgs) (l : List Spec.Atom), l ≠ [] ∧ (∀ q ∈ l, Spec.PhysicalAtom q) ∧ m = mkMed x (Spec.atoms H l)

/-- The hash function tells the constructed media apart that differ in a number. -/
def Spec.NoCollision (H : Hasher) (ms : List Med) : Prop :=
  ∀ m ∈ ms, ∀ m' ∈ ms, m.hash H = m'.hash H → Spec.SameMatter m m'

/-- C58, what holds: if the hash function has no collision among the constructed media, the lookup by the hash of a
medium gives a medium with the same numbers. -/
theorem C58_same_numbers_partial (H : Hasher) (before after : List Med) (m : Med)
    (hc : Spec.NoCollision H (before ++ m :: after)) :
    ∃ m', lookupHash (registerMedia H none (before ++ m :: after)) (m.hash H) = .value m' ∧ Spec.SameMatter m' m := by
  obtain ⟨m', h1, h2, h3⟩ := C57_media_found H before after m
  refine ⟨m', h1, hc m' ?_ m (by simp) h2⟩
  rcases List.mem_append.mp h3 with h | h
  · simp [h]
  · simp only [List.mem_singleton] at h; simp [h]

lemma Component.equal_iff (c d : Component) : c.equal d = true ↔ c = d := by
  constructor
  · intro h
    unfold Component.equal at h
    cases c; cases d
    simp only at h
    split_ifs at h
    simp_all
  · rintro rfl
    simp [Component.equal]

lemma equalComponents_self (l : List Component) : ∀ n ≤ l.length, equalComponents l l n = some true
  | 0, _ => rfl
  | n + 1, h => by
    have hn : l[n]? = some l[n] := List.getElem?_eq_getElem (by omega)
    simp only [equalComponents, equalComponents_self l n (by omega), hn]
    simp [(Component.equal_iff _ _).mpr rfl]

lemma Med.equal_self (m : Med) : m.equal m = some true := by
  unfold Med.equal
  simp only [ne_eq, not_true_eq_false, if_false]
  exact equalComponents_self _ _ le_rfl

lemma comps_ext {H : Hasher} {l l' : List Spec.Atom}
    (h : List.Forall₂ Spec.SameAtom (Spec.atoms H l) (Spec.atoms H l'))
    (hn : (Spec.atoms H l).map Component.name = (Spec.atoms H l').map Component.name) : l = l' := by
  induction l generalizing l' with
  | nil => cases l' with
    | nil => rfl
    | cons q l' => simp [Spec.atoms] at h
  | cons q l ih => cases l' with
    | nil => simp [Spec.atoms] at h
    | cons q' l' =>
      simp only [Spec.atoms, List.map_cons, List.forall₂_cons] at h hn
      obtain ⟨h1, h2⟩ := h
      simp only [List.cons.injEq] at hn
      have e : q = q' := by
        cases q; cases q'
        have := h1.nucCharge
        have := h1.atomicNum
        have := h1.atomInMolecule
        have := hn.1
        simp_all [mkComp]
      rw [e, ih h2 hn.2]

/-- C58, what holds: if also no two media with the same numbers have different names, the lookup compares equal to the
medium. -/
theorem C58_equal_partial (H : Hasher) (before after : List Med) (m : Med)
    (hcon : ∀ m' ∈ before ++ m :: after, Spec.Constructed H m')
    (hc : Spec.NoCollision H (before ++ m :: after))
    (hname : ∀ m' ∈ before ++ m :: after, Spec.SameMatter m' m → Spec.SameNames m' m) :
    ∃ m', lookupHash (registerMedia H none (before ++ m :: after)) (m.hash H) = .value m' ∧ m'.equal m = some true := by
  obtain ⟨m', h1, h2, h3⟩ := C57_media_found H before after m
  have hm' : m' ∈ before ++ m :: after := by
    rcases List.mem_append.mp h3 with h | h
    · simp [h]
    · simp only [List.mem_singleton] at h; simp [h]
  have hs := hc m' hm' m (by simp) h2
  have hn := hname m' hm' hs
  refine ⟨m', h1, ?_⟩
  obtain ⟨x, l, -, -, rfl⟩ := hcon m' hm'
  obtain ⟨x', l', -, -, rfl⟩ := hcon m (by simp)
  have hl : l = l' := comps_ext hs.components hn.2
  have hx : x = x' := by
    cases x; cases x'
    have := hs.I
    have := hs.C
    have := hs.a
    have := hs.m
    have := hs.X0
    have := hs.X1
    have := hs.d0
    have := hs.massDensity
    have := hn.1
    simp_all [mkMed]
  rw [hl, hx]
  exact Med.equal_self _

/-- The hypotheses of the partial theorems hold for a medium constructed several times. -/
example (H : Hasher) : ∃ (before after : List Med) (m : Med), before ≠ [] ∧ after ≠ [] ∧
    (∀ m' ∈ before ++ m :: after, Spec.Constructed H m') ∧ Spec.NoCollision H (before ++ m :: after) ∧
    (∀ m' ∈ before ++ m :: after, Spec.SameMatter m' m → Spec.SameNames m' m) := by
  let x : MedArgs := ⟨bytes "water", 79.7, -3.5017, 0.09116, 3.4773, 0.24, 2.8004, 0, 1⟩
  let l : List Spec.Atom := [⟨bytes "H", 1, 1.00794, 2⟩, ⟨bytes "O", 8, 15.9994, 1⟩]
  have hall : ∀ m' ∈ [mkMed x (Spec.atoms H l)] ++ mkMed x (Spec.atoms H l) :: [mkMed x (Spec.atoms H l)],
      m' = mkMed x (Spec.atoms H l) := by
    intro m' hm'
    simpa using hm'
  refine ⟨[mkMed x (Spec.atoms H l)], [mkMed x (Spec.atoms H l)], mkMed x (Spec.atoms H l), by simp, by simp, ?_, ?_, ?_⟩
  · intro m' hm'
    refine ⟨x, l, by simp [l], ?_, hall m' hm'⟩
    intro q hq
    simp only [l, List.mem_cons, List.not_mem_nil, or_false] at hq
    rcases hq with rfl | rfl <;> constructor <;> norm_num
  · intro m1 h1 m2 h2 _
    rw [hall m1 h1, hall m2 h2]
    refine ⟨rfl, rfl, rfl, rfl, rfl, rfl, rfl, rfl, rfl, rfl, rfl, rfl, rfl, rfl, ?_⟩
    exact List.forall₂_same.mpr fun c _ => ⟨rfl, rfl, rfl, rfl, rfl, rfl, rfl⟩
  · intro m1 h1 _
    rw [hall m1 h1]
    exact ⟨rfl, rfl⟩

lemma equalComponents_spec (l r : List Component) : ∀ n, n ≤ l.length → n ≤ r.length →
    ∃ b, equalComponents l r n = some b ∧ (b = true ↔ ∀ i < n, l[i]? = r[i]?)
  | 0, _, _ => ⟨true, rfl, by simp⟩
  | n + 1, hl, hr => by
    obtain ⟨b, h1, h2⟩ := equalComponents_spec l r n (by omega) (by omega)
    have e1 : l[n]? = some l[n] := List.getElem?_eq_getElem (by omega)
    have e2 : r[n]? = some r[n] := List.getElem?_eq_getElem (by omega)
    refine ⟨if l[n].equal r[n] then b else false, by simp only [equalComponents, h1, e1, e2], ?_⟩
    constructor
    · intro h i hi
      split_ifs at h with hc
      rcases Nat.lt_succ_iff_lt_or_eq.mp hi with h3 | rfl
      · exact h2.1 h i h3
      · rw [e1, e2, (Component.equal_iff _ _).1 hc]
    · intro h
      have h3 := h n (by omega)
      rw [e1, e2, Option.some.injEq] at h3
      rw [if_pos ((Component.equal_iff _ _).2 h3), h2]
      exact fun i hi => h i (by omega)

lemma Med.equal_spec (l r : Med) (b : Bool)
    (h : l.numComponents = r.numComponents → equalComponents l.components r.components l.components.length = some b) :
    ∃ b', l.equal r = some b' ∧ (b' = true → l.name = r.name ∧ l.numComponents = r.numComponents ∧ l.I = r.I ∧ l.C = r.C ∧
      l.a = r.a ∧ l.m = r.m ∧ l.X0 = r.X0 ∧ l.X1 = r.X1 ∧ l.d0 = r.d0 ∧ l.massDensity = r.massDensity ∧ b = true) := by
  unfold Med.equal
  by_cases q1 : l.name = r.name
  swap
  · rw [if_pos q1]; exact ⟨false, rfl, by simp⟩
  rw [if_neg (not_not_intro q1)]
  by_cases q2 : l.numComponents = r.numComponents
  swap
  · rw [if_pos q2]; exact ⟨false, rfl, by simp⟩
  rw [if_neg (not_not_intro q2)]
  by_cases q3 : l.sumCharge = r.sumCharge
  swap
  · rw [if_pos q3]; exact ⟨false, rfl, by simp⟩
  rw [if_neg (not_not_intro q3)]
  by_cases q4 : l.ZA = r.ZA
  swap
  · rw [if_pos q4]; exact ⟨false, rfl, by simp⟩
  rw [if_neg (not_not_intro q4)]
  by_cases q5 : l.I = r.I
  swap
  · rw [if_pos q5]; exact ⟨false, rfl, by simp⟩
  rw [if_neg (not_not_intro q5)]
  by_cases q6 : l.C = r.C
  swap
  · rw [if_pos q6]; exact ⟨false, rfl, by simp⟩
  rw [if_neg (not_not_intro q6)]
  by_cases q7 : l.a = r.a
  swap
  · rw [if_pos q7]; exact ⟨false, rfl, by simp⟩
  rw [if_neg (not_not_intro q7)]
  by_cases q8 : l.m = r.m
  swap
  · rw [if_pos q8]; exact ⟨false, rfl, by simp⟩
  rw [if_neg (not_not_intro q8)]
  by_cases q9 : l.X0 = r.X0
  swap
  · rw [if_pos q9]; exact ⟨false, rfl, by simp⟩
  rw [if_neg (not_not_intro q9)]
  by_cases q10 : l.X1 = r.X1
  swap
  · rw [if_pos q10]; exact ⟨false, rfl, by simp⟩
  rw [if_neg (not_not_intro q10)]
  by_cases q11 : l.d0 = r.d0
  swap
  · rw [if_pos q11]; exact ⟨false, rfl, by simp⟩
  rw [if_neg (not_not_intro q11)]
  by_cases q12 : l.massDensity = r.massDensity
  swap
  · rw [if_pos q12]; exact ⟨false, rfl, by simp⟩
  rw [if_neg (not_not_intro q12)]
  by_cases q13 : l.molDensity = r.molDensity
  swap
  · rw [if_pos q13]; exact ⟨false, rfl, by simp⟩
  rw [if_neg (not_not_intro q13)]
  by_cases q14 : l.radiationLength = r.radiationLength
  swap
  · rw [if_pos q14]; exact ⟨false, rfl, by simp⟩
  rw [if_neg (not_not_intro q14)]
  by_cases q15 : l.MM = r.MM
  swap
  · rw [if_pos q15]; exact ⟨false, rfl, by simp⟩
  rw [if_neg (not_not_intro q15)]
  by_cases q16 : l.sumNucleons = r.sumNucleons
  swap
  · rw [if_pos q16]; exact ⟨false, rfl, by simp⟩
  rw [if_neg (not_not_intro q16)]
  exact ⟨b, h q2, fun hb => ⟨q1, q2, q5, q6, q7, q8, q9, q10, q11, q12, hb⟩⟩

/-- C58: constructed media compare equal exactly if they agree in the name, every number and every component; the comparison is
always defined. -/
theorem C58_comparison (x y : MedArgs) (cs ds : List Component) :
    ∃ b, (mkMed x cs).equal (mkMed y ds) = some b ∧ (b = true ↔ x = y ∧ cs = ds) := by
  have hnum : (mkMed x cs).numComponents = (mkMed y ds).numComponents → cs.length = ds.length := by
    intro h
    have h' : (cs.length : ℤ) = ds.length := h
    exact_mod_cast h'
  have hb : ∃ b, ((mkMed x cs).numComponents = (mkMed y ds).numComponents →
      equalComponents cs ds cs.length = some b) ∧ (cs.length = ds.length → b = true → cs = ds) := by
    by_cases hn : cs.length = ds.length
    · obtain ⟨b, h1, h2⟩ := equalComponents_spec cs ds cs.length le_rfl hn.le
      refine ⟨b, fun _ => h1, fun _ hb => ?_⟩
      apply List.ext_getElem?
      intro i
      by_cases hi : i < cs.length
      · exact h2.1 hb i hi
      · rw [List.getElem?_eq_none (by omega), List.getElem?_eq_none (by omega)]
    · exact ⟨false, fun h => absurd (hnum h) hn, fun _ h => by simp at h⟩
  obtain ⟨b, h1, h2⟩ := hb
  obtain ⟨b', h3, h4⟩ := Med.equal_spec (mkMed x cs) (mkMed y ds) b h1
  refine ⟨b', h3, ?_, ?_⟩
  · intro hb'
    obtain ⟨k1, k2, k3, k4, k5, k6, k7, k8, k9, k10, k11⟩ := h4 hb'
    refine ⟨?_, h2 (hnum k2) k11⟩
    cases x; cases y
    rw [MedArgs.mk.injEq]
    exact ⟨k1, k3, k4, k5, k6, k7, k8, k9, k10⟩
  · rintro ⟨rfl, rfl⟩
    rw [Med.equal_self] at h3
    exact (Option.some.inj h3).symm

/-- C58: the hash of a medium depends on the hashes of its components: exchanging the last one by another one changes the
hash, if `std::hash<size_t>` tells the two apart. -/
theorem C58_components_hashed (H : Hasher) (m : Med) (cs : List Component) (c d : Component) :
    ({ m with components := cs ++ [c] }).hash H = ({ m with components := cs ++ [d] }).hash H ↔ H.size c.hash = H.size d.hash := by
  unfold Med.hash
  simp only [List.map_append, List.map_cons, List.map_nil, hashCombine, List.foldl_append, List.foldl_cons, List.foldl_nil, hashStep]
  generalize List.foldl _ _ (cs.map fun c => H.size c.hash) = seed
  constructor
  · intro h
    have h1 := (BitVec.xor_right_inj seed).1 h
    have h2 : ∀ a b k : BitVec 64, a + k = b + k → a = b := fun a b k => (BitVec.add_left_inj k).1
    exact h2 _ _ _ (h2 _ _ _ (h2 _ _ _ h1))
  · intro h; rw [h]

/-- C58, violated: the name is not part of the hash. If a medium with the same numbers and another name was constructed
before, the lookup gives that one, which does not compare equal. -/
theorem C58_other_name (H : Hasher) (x : MedArgs) (l : List Spec.Atom) (name : List Byte) (hn : name ≠ x.name) :
    ∃ m', lookupHash (registerMedia H none [mkMed { x with name := name } (Spec.atoms H l), mkMed x (Spec.atoms H l)])
        ((mkMed x (Spec.atoms H l)).hash H) = .value m' ∧ m'.name = name ∧
      m'.equal (mkMed x (Spec.atoms H l)) = some false := by
  have hh : (mkMed { x with name := name } (Spec.atoms H l)).hash H = (mkMed x (Spec.atoms H l)).hash H := rfl
  refine ⟨mkMed { x with name := name } (Spec.atoms H l), ?_, rfl, ?_⟩
  · obtain ⟨h1, h2⟩ := content_foldl (Med.hash H)
      [mkMed { x with name := name } (Spec.atoms H l), mkMed x (Spec.atoms H l)] none ((mkMed x (Spec.atoms H l)).hash H)
    unfold registerMedia
    rw [lookupHash_some (h2 (Or.inr (by simp))), h1]
    have e : content (none : Registry Hash Med) = [] := rfl
    rw [e, findKey, Option.none_or, List.find?_cons_of_pos (by simp [hh])]
  · unfold Med.equal
    rw [if_pos]
    exact hn

/-- The comparison of decay tables that a registry relies on: a table equals itself. -/
def Spec.ReflexiveTables (eqTable : List (ℝ × Channel) → List (ℝ × Channel) → Bool) : Prop := ∀ t, eqTable t t = true

lemma registerType_spec {eqT : List (ℝ × Channel) → List (ℝ × Channel) → Bool} {m m' : List (ℤ × PDef)} {d : PDef}
    (h : registerType eqT m d = some m') (q : ℤ) :
    findKey q m' = (findKey q m).or (if d.type = q then some d else none) := by
  unfold registerType at h
  cases hf : findKey d.type m with
  | none =>
    rw [hf] at h
    simp only [Option.some.injEq] at h
    rw [← h, findKey_append]
    rfl
  | some d' =>
    rw [hf] at h
    simp only at h
    by_cases he : d.equal eqT d' = true
    · rw [if_pos he] at h
      simp only [Option.some.injEq] at h
      subst h
      by_cases hq : d.type = q
      · subst hq; rw [hf]; rfl
      · rw [if_neg hq, Option.or_none]
    · rw [if_neg he] at h; simp at h

lemma lookupType_value {eqT : List (ℝ × Channel) → List (ℝ × Channel) → Bool} {b : List PDef} {r : Registry ℤ PDef}
    {t : ℤ} {d : PDef} (h : lookupType eqT b r t = .value d) :
    ∃ m, ensureMap eqT b r = some m ∧ findKey t m = some d := by
  unfold lookupType at h
  cases he : ensureMap eqT b r with
  | none => rw [he] at h; simp at h
  | some m =>
    rw [he] at h
    simp only at h
    cases hf : findKey t m with
    | none => rw [hf] at h; simp at h
    | some d' => rw [hf] at h; simp at h; exact ⟨m, rfl, by rw [hf, h]⟩

/-- C57: a particle definition that was constructed without an exception is found by its type: the lookup gives it or
an earlier one that compares equal. -/
theorem C57_particle_found (eqT : List (ℝ × Channel) → List (ℝ × Channel) → Bool) (builtin : List PDef)
    (r : Registry ℤ PDef) (d : PDef) (m : List (ℤ × PDef)) (h : constructDef eqT builtin r d = some m) :
    ∃ d', lookupType eqT builtin (afterConstruct eqT builtin r d) d.type = .value d' ∧
      (d' = d ∨ d.equal eqT d' = true) := by
  have hafter : afterConstruct eqT builtin r d = some m := by unfold afterConstruct; rw [h]
  unfold constructDef at h
  cases he : ensureMap eqT builtin r with
  | none => rw [he] at h; simp at h
  | some m0 =>
    rw [he, Option.bind_some] at h
    have hs := registerType_spec h d.type
    rw [if_pos rfl] at hs
    rw [hafter]
    cases hf : findKey d.type m0 with
    | none =>
      rw [hf, Option.none_or] at hs
      refine ⟨d, ?_, Or.inl rfl⟩
      simp only [lookupType, ensureMap, hs]
    | some d' =>
      rw [hf, Option.some_or] at hs
      refine ⟨d', ?_, Or.inr ?_⟩
      · simp only [lookupType, ensureMap, hs]
      · unfold registerType at h
        rw [hf] at h
        simp only at h
        by_contra hne
        rw [if_neg hne] at h
        simp at h

/-- C57: a definition that differs from the registered one of its type is refused, and the registry is unchanged. -/
theorem C57_particle_conflict (eqT : List (ℝ × Channel) → List (ℝ × Channel) → Bool) (builtin : List PDef)
    (r : Registry ℤ PDef) (d d' : PDef) (h : lookupType eqT builtin r d.type = .value d')
    (hne : d.equal eqT d' = false) :
    constructDef eqT builtin r d = none ∧
    ∀ t, lookupType eqT builtin (afterConstruct eqT builtin r d) t = lookupType eqT builtin r t := by
  obtain ⟨m, he, hf⟩ := lookupType_value h
  have hc : constructDef eqT builtin r d = none := by
    unfold constructDef registerType
    rw [he, Option.bind_some, hf]
    simp [hne]
  refine ⟨hc, fun t => ?_⟩
  unfold afterConstruct
  rw [hc]
  simp only [he, lookupType]
  rfl

/-- C57: a registered particle definition is never replaced. -/
theorem C57_particle_kept (eqT : List (ℝ × Channel) → List (ℝ × Channel) → Bool) (builtin : List PDef)
    (r : Registry ℤ PDef) (ds : List PDef) (t : ℤ) (d : PDef) (h : lookupType eqT builtin r t = .value d) :
    lookupType eqT builtin (ds.foldl (afterConstruct eqT builtin) r) t = .value d := by
  induction ds generalizing r with
  | nil => exact h
  | cons e ds ih =>
    rw [List.foldl_cons]
    refine ih _ ?_
    obtain ⟨m, he, hf⟩ := lookupType_value h
    unfold afterConstruct
    cases hc : constructDef eqT builtin r e with
    | none =>
      rw [he]
      simp only [lookupType, ensureMap, hf]
    | some m' =>
      unfold constructDef at hc
      rw [he, Option.bind_some] at hc
      have hs := registerType_spec hc t
      rw [hf, Option.some_or] at hs
      simp only [lookupType, ensureMap, hs]

/-- C57: a type that neither a built-in nor a constructed particle has raises an exception. -/
theorem C57_particle_unknown (eqT : List (ℝ × Channel) → List (ℝ × Channel) → Bool) (builtin : List PDef)
    (ds : List PDef) (t : ℤ) (hb : ∀ d ∈ builtin, d.type ≠ t) (hd : ∀ d ∈ ds, d.type ≠ t) :
    lookupType eqT builtin (ds.foldl (afterConstruct eqT builtin) none) t = .invalidArgument := by
  have hbuilt : ∀ (l : List PDef) (acc : Option (List (ℤ × PDef))), (∀ d ∈ l, d.type ≠ t) →
      (∀ m, acc = some m → findKey t m = none) →
      ∀ m, l.foldl (fun r d => r.bind fun m => registerType eqT m d) acc = some m → findKey t m = none := by
    intro l
    induction l with
    | nil => intro acc _ ha m hm; exact ha m hm
    | cons d l ih =>
      intro acc hl ha m hm
      rw [List.foldl_cons] at hm
      refine ih _ (fun e he => hl e (by simp [he])) ?_ m hm
      intro m1 hm1
      cases acc with
      | none => simp at hm1
      | some m0 =>
        rw [Option.bind_some] at hm1
        rw [registerType_spec hm1 t, ha m0 rfl, if_neg (hl d (by simp))]
        rfl
  have hens : ∀ r : Registry ℤ PDef, (∀ m, r = some m → findKey t m = none) →
      ∀ m, ensureMap eqT builtin r = some m → findKey t m = none := by
    intro r hr m hm
    cases r with
    | none =>
      refine hbuilt builtin (some []) hb ?_ m hm
      intro m0 hm0
      simp only [Option.some.injEq] at hm0
      subst hm0; rfl
    | some m0 => exact hr m hm
  have hmain : ∀ (l : List PDef) (r : Registry ℤ PDef), (∀ d ∈ l, d.type ≠ t) →
      (∀ m, r = some m → findKey t m = none) →
      ∀ m, l.foldl (afterConstruct eqT builtin) r = some m → findKey t m = none := by
    intro l
    induction l with
    | nil => intro r _ hr m hm; exact hr m hm
    | cons d l ih =>
      intro r hl hr m hm
      rw [List.foldl_cons] at hm
      refine ih _ (fun e he => hl e (by simp [he])) ?_ m hm
      intro m1 hm1
      unfold afterConstruct at hm1
      cases hc : constructDef eqT builtin r d with
      | none => rw [hc] at hm1; exact hens r hr m1 hm1
      | some m2 =>
        rw [hc] at hm1
        simp only [Option.some.injEq] at hm1
        subst hm1
        unfold constructDef at hc
        cases he : ensureMap eqT builtin r with
        | none => rw [he] at hc; simp at hc
        | some m0 =>
          rw [he, Option.bind_some] at hc
          rw [registerType_spec hc t, hens r hr m0 he, if_neg (hl d (by simp))]
          rfl
  unfold lookupType
  cases he : ensureMap eqT builtin (ds.foldl (afterConstruct eqT builtin) none) with
  | none => rfl
  | some m =>
    have := hens _ (hmain ds none hd (by simp)) m he
    simp only [this]

lemma builtin_fold {eqT : List (ℝ × Channel) → List (ℝ × Channel) → Bool} (l : List PDef) (m : List (ℤ × PDef))
    (hnd : (l.map PDef.type).Nodup) (hdis : ∀ d ∈ l, findKey d.type m = none) :
    ∃ m', l.foldl (fun r d => r.bind fun m => registerType eqT m d) (some m) = some m' ∧
      (∀ d ∈ l, findKey d.type m' = some d) ∧
      (∀ t, (∀ d ∈ l, d.type ≠ t) → findKey t m' = findKey t m) := by
  induction l generalizing m with
  | nil => exact ⟨m, rfl, by simp, fun _ _ => rfl⟩
  | cons d l ih =>
    have hreg : registerType eqT m d = some (m ++ [(d.type, d)]) := by
      unfold registerType; rw [hdis d (by simp)]
    rw [List.map_cons, List.nodup_cons] at hnd
    have hne : ∀ e ∈ l, d.type ≠ e.type := by
      intro e he hte
      exact hnd.1 (by rw [hte]; exact List.mem_map_of_mem he)
    obtain ⟨m', h1, h2, h3⟩ := ih (m ++ [(d.type, d)]) hnd.2 (by
      intro e he
      rw [findKey_append, hdis e (by simp [he]), findKey, if_neg (hne e he)]; rfl)
    refine ⟨m', ?_, ?_, ?_⟩
    · rw [List.foldl_cons, Option.bind_some, hreg]; exact h1
    · intro e he
      rcases List.mem_cons.mp he with rfl | he
      · rw [h3 e.type fun e' he' => (hne e' he').symm, findKey_append, hdis e (by simp), findKey, if_pos rfl]; rfl
      · exact h2 e he
    · intro t ht
      rw [h3 t fun e he => ht e (by simp [he]), findKey_append, findKey, if_neg (ht d (by simp)), findKey, Option.or_none]

/-- C94: every built-in particle is found by its type, before and after any constructions. -/
theorem C94_builtin_particles (eqT : List (ℝ × Channel) → List (ℝ × Channel) → Bool) (builtin : List PDef)
    (hb : builtin.map PDef.type = builtinTypes) (ds : List PDef) (d : PDef) (hd : d ∈ builtin) :
    lookupType eqT builtin (ds.foldl (afterConstruct eqT builtin) none) d.type = .value d := by
  refine C57_particle_kept eqT builtin none ds d.type d ?_
  obtain ⟨m', h1, h2, -⟩ := builtin_fold (eqT := eqT) builtin [] (by rw [hb]; decide) (fun _ _ => rfl)
  have he : ensureMap eqT builtin none = some m' := h1
  unfold lookupType
  rw [he]
  simp only [h2 d hd]

/-- C94, violated: the types of the stau particles, of hadrons and of no particle have no definition. -/
theorem C94_undefined_types (eqT : List (ℝ × Channel) → List (ℝ × Channel) → Bool) (builtin : List PDef)
    (hb : builtin.map PDef.type = builtinTypes) (t : ℤ) (ht : t ∈ particleTypes) :
    lookupType eqT builtin none t = .invalidArgument ↔ t ∈ [0, 1000015, -1000015, 81] := by
  constructor
  · intro h
    by_contra hn
    have hmem : t ∈ builtinTypes := by
      clear h
      revert t
      decide
    rw [← hb] at hmem
    obtain ⟨d, hd, rfl⟩ := List.mem_map.mp hmem
    have := C94_builtin_particles eqT builtin hb [] d hd
    rw [List.foldl_nil, h] at this
    simp at this
  · intro h
    have hn : t ∉ builtinTypes := by
      clear ht
      revert t
      decide
    refine C57_particle_unknown eqT builtin [] t (fun d hd ht => hn ?_) (by simp)
    rw [← hb, ← ht]
    exact List.mem_map_of_mem hd

example : ∃ builtin : List PDef, builtin.map PDef.type = builtinTypes :=
  ⟨builtinTypes.map fun t => ⟨[], 1, 1, none, 0, [], [], t, 0⟩, by simp [builtinTypes]⟩

end Proposal
