import Verif.Model.ScatteringJson

/-! Property C113: scattering from a configuration. -/

namespace Proposal

/-- The documented names of multiple scattering. -/
def Spec.msNames : List (String × Option MsClass) :=
  [("Moliere", some .moliere), ("Highland", some .highland), ("HighlandIntegral", some .highlandIntegral), ("NoScattering", none),
   ("MoliereInterpol", some .moliereInterpol)]

/-- The documented names of stochastic deflections. -/
def Spec.sdNames : List (String × SdClass) :=
  [("BremsTsaiApproximation", .bremsTsai), ("IonizNaive", .ionizNaive), ("PhotoBorogPetrukhin", .photoBorog),
   ("EpairGinneken", .epairGinneken), ("BremsGinneken", .bremsGinneken), ("PhotoGinneken", .photoGinneken)]

/-- Texts that agree up to the case of ASCII letters. -/
def Spec.SameLetters (s t : String) : Prop :=
  (∀ c ∈ s.toList, c.toNat < 128) ∧ s.toList.map Char.toLower = t.toList.map Char.toLower

open Spec

theorem lowerName_of {s t : String} (h : SameLetters s t) : lowerName s = .ok (String.ofList (t.toList.map Char.toLower)) := by
  unfold lowerName lowerText
  have : (s.toList.all fun c => decide (c.toNat < 128)) = true := by
    rw [List.all_eq_true]
    intro c hc
    simpa using h.1 c hc
  rw [if_pos this, h.2]

theorem lowerName_ok {s n : String} (h : lowerName s = .ok n) : (∀ c ∈ s.toList, c.toNat < 128) ∧ n = String.ofList (s.toList.map Char.toLower) := by
  unfold lowerName lowerText at h
  by_cases ha : (s.toList.all fun c => decide (c.toNat < 128)) = true
  · rw [if_pos ha] at h
    simp only [Except.ok.injEq] at h
    refine ⟨?_, h.symm⟩
    intro c hc
    simpa using (List.all_eq_true.1 ha) c hc
  · rw [if_neg ha] at h
    simp at h

/-- C113: a class of multiple scattering is made exactly by its name, in any case of letters. -/
theorem C113_multiple (s : String) (m : Option MsClass) :
    msOfName s = .ok m ↔ ∃ n, (n, m) ∈ msNames ∧ SameLetters s n := by
  constructor
  · intro h
    unfold msOfName at h
    simp only [bind, Except.bind, pure, Except.pure, throw, throwThe, MonadExceptOf.throw] at h
    cases hl : lowerName s with
    | error e => rw [hl] at h; simp at h
    | ok n =>
      obtain ⟨h1, h2⟩ := lowerName_ok hl
      rw [hl] at h
      simp only at h
      have fin : ∀ t : String, n = String.ofList (t.toList.map Char.toLower) → SameLetters s t := by
        intro t ht
        refine ⟨h1, ?_⟩
        have := congrArg String.toList (h2.symm.trans ht)
        simpa using this
      split_ifs at h with k1 k2 k3 k4 k5
      · exact ⟨"Moliere", by simp only [Except.ok.injEq] at h; subst h; simp [msNames], fin _ (by rw [k1]; decide)⟩
      · exact ⟨"Highland", by simp only [Except.ok.injEq] at h; subst h; simp [msNames], fin _ (by rw [k2]; decide)⟩
      · exact ⟨"HighlandIntegral", by simp only [Except.ok.injEq] at h; subst h; simp [msNames], fin _ (by rw [k3]; decide)⟩
      · exact ⟨"NoScattering", by simp only [Except.ok.injEq] at h; subst h; simp [msNames], fin _ (by rw [k4]; decide)⟩
      · exact ⟨"MoliereInterpol", by simp only [Except.ok.injEq] at h; subst h; simp [msNames], fin _ (by rw [k5]; decide)⟩
  · rintro ⟨n, hn, hs⟩
    have hl := lowerName_of hs
    unfold msOfName
    simp only [bind, Except.bind, pure, Except.pure, hl]
    simp only [msNames, List.mem_cons, Prod.mk.injEq, List.not_mem_nil, or_false] at hn
    rcases hn with ⟨rfl, rfl⟩ | ⟨rfl, rfl⟩ | ⟨rfl, rfl⟩ | ⟨rfl, rfl⟩ | ⟨rfl, rfl⟩ <;> rfl

theorem toLower_ofList (s : String) : (String.ofList (s.toList.map Char.toLower)).toList = s.toList.map Char.toLower := by simp

theorem typeOfLower_some {n : String} {t : IType} (h : typeOfLower n = some t) :
    ∃ m, t.name = some m ∧ m.toList.map Char.toLower = n.toList := by
  have := List.find?_some h
  cases hm : t.name with
  | none => rw [hm] at this; simp at this
  | some m =>
    rw [hm] at this
    refine ⟨m, rfl, ?_⟩
    have e : String.ofList (m.toList.map Char.toLower) = n := by simpa using this
    rw [← e, toLower_ofList]

theorem typeOfLower_name (t : IType) (m : String) (h : t.name = some m) :
    typeOfLower (String.ofList (m.toList.map Char.toLower)) = some t := by
  cases t <;> simp only [IType.name, Option.some.injEq, reduceCtorEq] at h <;> subst h <;> decide

/-- The classes that are the default for a type. -/
def Spec.sdDefaults : List (IType × SdClass) :=
  [(.ioniz, .ionizNaive), (.epair, .epairGinneken), (.photonuclear, .photoBorog), (.brems, .bremsTsai)]

theorem defaultDeflection_ok (t : IType) (d : SdClass) : defaultDeflection t = .ok d ↔ (t, d) ∈ sdDefaults := by
  cases t <;> cases d <;> simp [defaultDeflection, sdDefaults]

theorem defaultDeflection_error (t : IType) (e : ScatErr) :
    defaultDeflection t = .error e ↔ e = .logicError ∧ ∀ d, (t, d) ∉ sdDefaults := by
  cases t <;> cases e <;> simp [defaultDeflection, sdDefaults]

theorem lookup_deflectionTable {n : String} {d : SdClass} (h : deflectionTable.lookup n = some d) :
    ∃ k, (k, d) ∈ sdNames ∧ k.toList.map Char.toLower = n.toList := by
  have hm : (n, d) ∈ deflectionTable := by
    rw [List.lookup_eq_some_iff] at h
    obtain ⟨l1, l2, e, _⟩ := h
    rw [e]; simp
  simp only [deflectionTable, List.mem_cons, Prod.mk.injEq, List.not_mem_nil, or_false] at hm
  rcases hm with ⟨rfl, rfl⟩ | ⟨rfl, rfl⟩ | ⟨rfl, rfl⟩ | ⟨rfl, rfl⟩ | ⟨rfl, rfl⟩ | ⟨rfl, rfl⟩
  · exact ⟨"BremsTsaiApproximation", by simp [sdNames], by decide⟩
  · exact ⟨"IonizNaive", by simp [sdNames], by decide⟩
  · exact ⟨"PhotoBorogPetrukhin", by simp [sdNames], by decide⟩
  · exact ⟨"EpairGinneken", by simp [sdNames], by decide⟩
  · exact ⟨"BremsGinneken", by simp [sdNames], by decide⟩
  · exact ⟨"PhotoGinneken", by simp [sdNames], by decide⟩

theorem lookup_default (r : List Char) : deflectionTable.lookup (String.ofList ("default".toList ++ r)) = none := by
  rw [List.lookup_eq_none_iff]
  intro p hp
  rw [bne_iff_ne]
  intro he
  have := congrArg (fun s : String => s.toList.head?) he
  simp only [deflectionTable, List.mem_cons, List.not_mem_nil, or_false] at hp
  rcases hp with rfl | rfl | rfl | rfl | rfl | rfl <;> simp at this

/-- The result for a name that is "Default" followed by the name of a type. -/
theorem sdOfName_default {s m : String} {t : IType} (hm : t.name = some m) (h : SameLetters s ("Default" ++ m)) :
    sdOfName s = defaultDeflection t := by
  have hl := lowerName_of h
  have e : (("Default" ++ m).toList.map Char.toLower) = "default".toList ++ m.toList.map Char.toLower := by
    rw [String.toList_append, List.map_append]
    congr 1
  rw [e] at hl
  unfold sdOfName
  simp only [bind, Except.bind, hl, lookup_default]
  have hp : List.isPrefixOf "default".toList (String.ofList ("default".toList ++ m.toList.map Char.toLower)).toList = true := by
    rw [List.isPrefixOf_iff_prefix]
    exact ⟨m.toList.map Char.toLower, by simp only [String.toList_ofList]⟩
  rw [if_pos hp]
  have hd : (String.ofList ("default".toList ++ m.toList.map Char.toLower)).toList.drop 7 = m.toList.map Char.toLower := by
    rw [String.toList_ofList]
    rfl
  rw [hd, typeOfLower_name t m hm]

/-- Where the result for a name comes from. -/
theorem sdOfName_cases {s : String} {r : Except ScatErr SdClass} (h : sdOfName s = r) :
    r = .error .undefined ∨ r = .error .outOfRange ∨ (∃ n d, (n, d) ∈ sdNames ∧ SameLetters s n ∧ r = .ok d) ∨
      ∃ t m, t.name = some m ∧ SameLetters s ("Default" ++ m) ∧ r = defaultDeflection t := by
  unfold sdOfName at h
  simp only [bind, Except.bind, pure, Except.pure, throw, throwThe, MonadExceptOf.throw] at h
  cases hl : lowerName s with
  | error e =>
    rw [hl] at h
    left
    rw [← h]
    unfold lowerName at hl
    cases hh : lowerText s <;> rw [hh] at hl <;> simp_all
  | ok n =>
    obtain ⟨h1, h2⟩ := lowerName_ok hl
    rw [hl] at h
    simp only at h
    cases ht : deflectionTable.lookup n with
    | some d =>
      rw [ht] at h
      obtain ⟨k, hk, he⟩ := lookup_deflectionTable ht
      right; right; left
      exact ⟨k, d, hk, ⟨h1, by rw [he, h2, toLower_ofList]⟩, h.symm⟩
    | none =>
      rw [ht] at h
      simp only at h
      by_cases hp : List.isPrefixOf "default".toList n.toList = true
      · rw [if_pos hp] at h
        cases htt : typeOfLower (String.ofList (n.toList.drop 7)) with
        | none => rw [htt] at h; right; left; exact h.symm
        | some t =>
          rw [htt] at h
          obtain ⟨m, hm, he⟩ := typeOfLower_some htt
          right; right; right
          refine ⟨t, m, hm, ⟨h1, ?_⟩, h.symm⟩
          rw [List.isPrefixOf_iff_prefix] at hp
          obtain ⟨q, hq⟩ := hp
          rw [String.toList_append, List.map_append, he, String.toList_ofList, ← toLower_ofList s, ← h2, ← hq]
          simp only [String.toList_ofList]
          rfl
      · rw [if_neg hp] at h
        right; left; exact h.symm

/-- C113: a deflection class is made exactly by its own name or, for the four default classes, by "Default" followed by the name of
the interaction type, in any case of letters. -/
theorem C113_deflection (s : String) (d : SdClass) :
    sdOfName s = .ok d ↔ (∃ n, (n, d) ∈ sdNames ∧ SameLetters s n) ∨
      ∃ t m, t.name = some m ∧ (t, d) ∈ sdDefaults ∧ SameLetters s ("Default" ++ m) := by
  constructor
  · intro h
    rcases sdOfName_cases h with h | h | ⟨n, d', hn, hs, h⟩ | ⟨t, m, hm, hs, h⟩
    · simp at h
    · simp at h
    · simp only [Except.ok.injEq] at h
      subst h
      exact .inl ⟨n, hn, hs⟩
    · exact .inr ⟨t, m, hm, (defaultDeflection_ok t d).1 h.symm, hs⟩
  · rintro (⟨n, hn, hs⟩ | ⟨t, m, hm, hd, hs⟩)
    · have hl := lowerName_of hs
      unfold sdOfName
      simp only [bind, Except.bind, pure, Except.pure, hl]
      simp only [sdNames, List.mem_cons, Prod.mk.injEq, List.not_mem_nil, or_false] at hn
      rcases hn with ⟨rfl, rfl⟩ | ⟨rfl, rfl⟩ | ⟨rfl, rfl⟩ | ⟨rfl, rfl⟩ | ⟨rfl, rfl⟩ | ⟨rfl, rfl⟩ <;> rfl
    · rw [sdOfName_default hm hs, defaultDeflection_ok]
      exact hd

/-- C113: a class deflects at the losses that its name begins with, and a default class at the type it is the default of. -/
theorem C113_type (s : String) (d : SdClass) (h : sdOfName s = .ok d) :
    (∃ n k t, (n, d) ∈ sdNames ∧ SameLetters s n ∧ n.toList.take k.length = k ∧
      (k, t) ∈ [("Brems".toList, IType.brems), ("Ioniz".toList, .ioniz), ("Photo".toList, .photonuclear), ("Epair".toList, .epair)] ∧
      d.type = t) ∨
    ∃ m, d.type.name = some m ∧ SameLetters s ("Default" ++ m) := by
  rcases (C113_deflection s d).1 h with ⟨n, hn, hs⟩ | ⟨t, m, hm, ht, hs⟩
  · left
    simp only [sdNames, List.mem_cons, Prod.mk.injEq, List.not_mem_nil, or_false] at hn
    rcases hn with ⟨rfl, rfl⟩ | ⟨rfl, rfl⟩ | ⟨rfl, rfl⟩ | ⟨rfl, rfl⟩ | ⟨rfl, rfl⟩ | ⟨rfl, rfl⟩
    · exact ⟨_, "Brems".toList, .brems, by simp [sdNames], hs, by decide, by simp, rfl⟩
    · exact ⟨_, "Ioniz".toList, .ioniz, by simp [sdNames], hs, by decide, by simp, rfl⟩
    · exact ⟨_, "Photo".toList, .photonuclear, by simp [sdNames], hs, by decide, by simp, rfl⟩
    · exact ⟨_, "Epair".toList, .epair, by simp [sdNames], hs, by decide, by simp, rfl⟩
    · exact ⟨_, "Brems".toList, .brems, by simp [sdNames], hs, by decide, by simp, rfl⟩
    · exact ⟨_, "Photo".toList, .photonuclear, by simp [sdNames], hs, by decide, by simp, rfl⟩
  · right
    simp only [sdDefaults, List.mem_cons, Prod.mk.injEq, List.not_mem_nil, or_false] at ht
    rcases ht with ⟨rfl, rfl⟩ | ⟨rfl, rfl⟩ | ⟨rfl, rfl⟩ | ⟨rfl, rfl⟩ <;> exact ⟨m, hm, hs⟩

/-- C113: `std::logic_error` leaves the function exactly for "Default" followed by a type without default class, e.g.
"DefaultCompton", although unknown names are announced by `std::out_of_range`. -/
theorem C113_no_default (s : String) :
    sdOfName s = .error .logicError ↔
      ∃ t m, t.name = some m ∧ (∀ d, (t, d) ∉ sdDefaults) ∧ SameLetters s ("Default" ++ m) := by
  constructor
  · intro h
    rcases sdOfName_cases h with h | h | ⟨n, d', hn, hs, h⟩ | ⟨t, m, hm, hs, h⟩
    · simp at h
    · simp at h
    · simp at h
    · exact ⟨t, m, hm, ((defaultDeflection_error t _).1 h.symm).2, hs⟩
  · rintro ⟨t, m, hm, hd, hs⟩
    rw [sdOfName_default hm hs, defaultDeflection_error]
    exact ⟨rfl, hd⟩

/-- C113: all other names of ASCII characters give `std::out_of_range`. -/
theorem C113_unknown (s : String) (ha : ∀ c ∈ s.toList, c.toNat < 128) :
    ((¬ ∃ n m, (n, m) ∈ msNames ∧ SameLetters s n) → msOfName s = .error .outOfRange) ∧
    ((¬ ∃ n d, (n, d) ∈ sdNames ∧ SameLetters s n) →
      (¬ ∃ t m, IType.name t = some m ∧ SameLetters s ("Default" ++ m)) → sdOfName s = .error .outOfRange) := by
  have hl : lowerName s = .ok (String.ofList (s.toList.map Char.toLower)) := lowerName_of ⟨ha, rfl⟩
  constructor
  · intro h
    cases hm : msOfName s with
    | ok m =>
      obtain ⟨n, hn⟩ := (C113_multiple s m).1 hm
      exact absurd ⟨n, m, hn⟩ h
    | error e =>
      unfold msOfName at hm
      simp only [bind, Except.bind, pure, Except.pure, throw, throwThe, MonadExceptOf.throw, hl] at hm
      split_ifs at hm
      exact hm.symm
  · intro h1 h2
    rcases sdOfName_cases (rfl : sdOfName s = sdOfName s) with h | h | ⟨n, d, hn, hs, _⟩ | ⟨t, m, hm, hs, _⟩
    · exfalso
      unfold sdOfName at h
      simp only [bind, Except.bind, pure, Except.pure, throw, throwThe, MonadExceptOf.throw, hl] at h
      split at h
      · simp at h
      · split_ifs at h
        · split at h
          · simp at h
          have := (defaultDeflection_error _ _).1 h
          simp at this
        · simp at h
    · exact h
    · exact absurd ⟨n, d, hn, hs⟩ h1
    · exact absurd ⟨t, m, hm, hs⟩ h2

example : SameLetters "defaultBREMS" ("Default" ++ "Brems") ∧ SameLetters "DEFAULTcompton" ("Default" ++ "Compton") := by
  constructor <;> exact ⟨by decide, by decide⟩

theorem scatAll_ok {α β : Type} (f : α → Except ScatErr β) (l : List α) (bs : List β) :
    scatAll f l = .ok bs ↔ List.Forall₂ (fun a b => f a = .ok b) l bs := by
  induction l generalizing bs with
  | nil => simp [scatAll, eq_comm]
  | cons a l ih =>
    unfold scatAll
    cases ha : f a with
    | error e => simp [List.forall₂_cons_left_iff, ha]
    | ok b =>
      cases hs : scatAll f l with
      | error e =>
        simp only [reduceCtorEq, List.forall₂_cons_left_iff, false_iff]
        rintro ⟨b', u, _, h2, _⟩
        rw [(ih u).2 h2] at hs
        simp at hs
      | ok cs =>
        simp only [Except.ok.injEq, List.forall₂_cons_left_iff]
        constructor
        · rintro rfl
          exact ⟨b, cs, ha, (ih cs).1 hs, rfl⟩
        · rintro ⟨b', u, h1, h2, rfl⟩
          rw [(ih u).2 h2] at hs
          simp only [Except.ok.injEq] at h1 hs
          rw [ha] at h1
          simp only [Except.ok.injEq] at h1
          rw [h1, hs]

theorem deflectionMap_append (l : List SdClass) (d : SdClass) :
    deflectionMap (l ++ [d]) = Function.update (deflectionMap l) d.type (some d) := by
  simp [deflectionMap]

theorem deflectionMap_spec (l : List SdClass) (t : IType) :
    deflectionMap l t = (l.filter fun d => d.type = t).getLast? := by
  induction l using List.reverseRecOn with
  | nil => simp [deflectionMap]
  | append_singleton l d ih =>
    rw [deflectionMap_append, List.filter_append]
    by_cases h : d.type = t
    · subst h
      simp
    · rw [Function.update_of_ne (Ne.symm h), ih]
      simp [h]

/-- A configuration without mistakes: the classes and factors that its entries stand for. -/
structure Spec.Means (c : ScatConfig) (ms : Option MsClass) (sd : List SdClass) (ks : List (IType × ℝ)) : Prop where
  multiple : (c.multiple = none ∧ ms = none) ∨ ∃ s n, c.multiple = some s ∧ (n, ms) ∈ msNames ∧ SameLetters s n
  deflections : List.Forall₂ (fun s d => sdOfName s = .ok d) (c.deflections.getD []) sd
  factors : List.Forall₂ (fun e k => ∃ n, k.1.name = some n ∧ SameLetters e.1 n ∧ k.2 = e.2) (c.factors.getD []) ks

theorem factorOf_ok (e : String × ℝ) (k : IType × ℝ) :
    factorOf e = .ok k ↔ ∃ n, k.1.name = some n ∧ SameLetters e.1 n ∧ k.2 = e.2 := by
  unfold factorOf
  constructor
  · intro h
    cases hl : lowerName e.1 with
    | error x => rw [hl] at h; simp at h
    | ok n =>
      obtain ⟨h1, h2⟩ := lowerName_ok hl
      rw [hl] at h
      simp only at h
      cases ht : typeOfLower n with
      | none => rw [ht] at h; simp at h
      | some t =>
        rw [ht] at h
        simp only [Except.ok.injEq] at h
        subst h
        obtain ⟨m, hm, he⟩ := typeOfLower_some ht
        exact ⟨m, hm, ⟨h1, by rw [he, h2, toLower_ofList]⟩, rfl⟩
  · rintro ⟨n, hn, hs, hk⟩
    rw [lowerName_of hs]
    simp only [typeOfLower_name _ _ hn, ← hk]

theorem msOfConfig_ok (c : ScatConfig) (ms : Option MsClass) :
    msOfConfig c.multiple = .ok ms ↔
      (c.multiple = none ∧ ms = none) ∨ ∃ s n, c.multiple = some s ∧ (n, ms) ∈ msNames ∧ SameLetters s n := by
  cases h : c.multiple with
  | none => simp [msOfConfig, eq_comm]
  | some s =>
    simp only [msOfConfig, C113_multiple, reduceCtorEq, false_and, false_or, Option.some.injEq]
    constructor
    · rintro ⟨n, h⟩
      exact ⟨s, n, rfl, h⟩
    · rintro ⟨_, n, rfl, h⟩
      exact ⟨n, h⟩

/-- C113: an object comes back exactly for the configurations without mistakes. Multiple scattering has the class of its name,
and for every interaction type the last deflection of that type in the list is used. -/
theorem C113_object (c : ScatConfig) :
    (∀ o, makeScattering c = .ok o → ∃ ms sd ks, Means c ms sd ks ∧ o.multiple = ms ∧
      ∀ t, o.deflection t = (sd.filter fun d => d.type = t).getLast?) ∧
    ∀ ms sd ks, Means c ms sd ks → ∃ o, makeScattering c = .ok o := by
  constructor
  · intro o h
    unfold makeScattering at h
    cases h1 : msOfConfig c.multiple with
    | error e => rw [h1] at h; simp at h
    | ok ms =>
      cases h2 : scatAll sdOfName (c.deflections.getD []) with
      | error e => rw [h1, h2] at h; simp at h
      | ok sd =>
        cases h3 : scatAll factorOf (c.factors.getD []) with
        | error e => rw [h1, h2, h3] at h; simp at h
        | ok ks =>
          rw [h1, h2, h3] at h
          simp only [Except.ok.injEq] at h
          subst h
          refine ⟨ms, sd, ks, ⟨(msOfConfig_ok c ms).1 h1, (scatAll_ok _ _ _).1 h2, ?_⟩, rfl, fun t => deflectionMap_spec sd t⟩
          exact List.Forall₂.imp (fun e k => (factorOf_ok e k).1) ((scatAll_ok _ _ _).1 h3)
  · rintro ms sd ks ⟨h1, h2, h3⟩
    unfold makeScattering
    rw [(msOfConfig_ok c ms).2 h1, (scatAll_ok _ _ _).2 h2,
      (scatAll_ok factorOf _ ks).2 (List.Forall₂.imp (fun e k => (factorOf_ok e k).2) h3)]
    exact ⟨_, rfl⟩

theorem makeScattering_of {c : ScatConfig} {ms : Option MsClass} {sd : List SdClass} {ks : List (IType × ℝ)} {o : ScatObject}
    (h : Means c ms sd ks) (ho : makeScattering c = .ok o) :
    o.multiplier = none ∧ c.multipleFactor.getD 1 = 1 ∧ ks = [] ∨
      o.multiplier = some (c.multipleFactor.getD 1, ks) := by
  obtain ⟨h1, h2, h3⟩ := h
  unfold makeScattering at ho
  rw [(msOfConfig_ok c ms).2 h1, (scatAll_ok _ _ _).2 h2,
    (scatAll_ok factorOf _ ks).2 (List.Forall₂.imp (fun e k => (factorOf_ok e k).2) h3)] at ho
  simp only [Except.ok.injEq] at ho
  subst ho
  by_cases hk : c.multipleFactor.getD 1 = 1 ∧ ks = []
  · left
    exact ⟨by simp only [if_pos hk], hk.1, hk.2⟩
  · right
    simp only [if_neg hk]

/-- C113: the factors of the configuration act, whichever of the two classes is made: multiple scattering has its factor, 1 if it
is missing; a deflection of type `t` has the factor of the only key with that name, 1 if there is none. Keys that differ in the
case of letters only are excluded. -/
theorem C113_factors_partial (c : ScatConfig) (ms : Option MsClass) (sd : List SdClass) (ks : List (IType × ℝ)) (o : ScatObject)
    (h : Means c ms sd ks) (ho : makeScattering c = .ok o) :
    o.msFactor = c.multipleFactor.getD 1 ∧
    (∀ t, (∀ k ∈ ks, k.1 ≠ t) → o.factor t = 1) ∧
    ∀ t x, (t, x) ∈ ks → (∀ k ∈ ks, k.1 = t → k.2 = x) → o.factor t = x := by
  rcases makeScattering_of h ho with ⟨h1, h2, h3⟩ | h1
  · subst h3
    refine ⟨by simp only [ScatObject.msFactor, h1, h2], ?_, ?_⟩
    · intro t _
      simp only [ScatObject.factor, h1]
    · intro t x hx
      simp at hx
  · refine ⟨by simp only [ScatObject.msFactor, h1], ?_, ?_⟩
    · intro t ht
      have : ks.find? (fun m => m.1 = t) = none := by
        rw [List.find?_eq_none]
        intro k hk
        simpa using ht k hk
      simp only [ScatObject.factor, h1, this, Option.map_none, Option.getD_none]
    · intro t x hx hu
      cases hf : ks.find? (fun m => m.1 = t) with
      | none =>
        rw [List.find?_eq_none] at hf
        exact absurd (hf _ hx) (by simp)
      | some k =>
        have hk1 : k.1 = t := by simpa using List.find?_some hf
        have hk2 := hu k (List.mem_of_find?_eq_some hf) hk1
        simp only [ScatObject.factor, h1, hf, Option.map_some, Option.getD_some, hk2]

/-- A configuration with all entries. -/
noncomputable def scatSample : ScatConfig :=
  ⟨some "HIGHLAND", some 2, some ["DefaultBrems", "bremsginneken", "IonizNaive"], some [("Brems", 3), ("ioniz", 4)]⟩

theorem scatSample_means :
    Means scatSample (some .highland) [.bremsTsai, .bremsGinneken, .ionizNaive] [(.brems, 3), (.ioniz, 4)] := by
  refine ⟨.inr ⟨_, "Highland", rfl, by simp [msNames], by decide, by decide⟩, ?_, ?_⟩
  · refine .cons ?_ (.cons ?_ (.cons ?_ .nil))
    · exact (C113_deflection _ _).2 (.inr ⟨.brems, "Brems", rfl, by simp [sdDefaults], by decide, by decide⟩)
    · exact (C113_deflection _ _).2 (.inl ⟨"BremsGinneken", by simp [sdNames], by decide, by decide⟩)
    · exact (C113_deflection _ _).2 (.inl ⟨"IonizNaive", by simp [sdNames], by decide, by decide⟩)
  · exact .cons ⟨"Brems", rfl, ⟨by decide, by decide⟩, rfl⟩ (.cons ⟨"Ioniz", rfl, ⟨by decide, by decide⟩, rfl⟩ .nil)

/-- The sample gives an object whose deflection by bremsstrahlung is the second one of the list, with the factor 3. -/
example : ∃ o, makeScattering scatSample = .ok o ∧ o.msFactor = 2 ∧ o.factor .brems = 3 ∧ o.factor .epair = 1 := by
  obtain ⟨o, ho⟩ := (C113_object scatSample).2 _ _ _ scatSample_means
  obtain ⟨h1, h2, h3⟩ := C113_factors_partial _ _ _ _ o scatSample_means ho
  refine ⟨o, ho, ?_, h3 _ _ (by simp) (by simp), h2 _ (by simp)⟩
  simpa [scatSample] using h1

/-- C113 fails for keys that differ in case: both are accepted, and only the first one has an effect. -/
theorem C113_case_of_keys (x y : ℝ) :
    ∃ o, makeScattering ⟨none, none, none, some [("Brems", x), ("brems", y)]⟩ = .ok o ∧ o.factor .brems = x := by
  have hm : Means ⟨none, none, none, some [("Brems", x), ("brems", y)]⟩ none [] [(.brems, x), (.brems, y)] :=
    ⟨.inl ⟨rfl, rfl⟩, .nil,
      .cons ⟨"Brems", rfl, (by exact ⟨by decide, by decide⟩ : SameLetters "Brems" "Brems"), rfl⟩
        (.cons ⟨"Brems", rfl, (by exact ⟨by decide, by decide⟩ : SameLetters "brems" "Brems"), rfl⟩ .nil)⟩
  obtain ⟨o, ho⟩ := (C113_object _).2 _ _ _ hm
  refine ⟨o, ho, ?_⟩
  rcases makeScattering_of hm ho with ⟨_, _, h⟩ | h
  · simp at h
  · simp [ScatObject.factor, h]

end Proposal
