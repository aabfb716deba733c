import Verif.Model.Names
import Mathlib.Data.List.Lex
import Mathlib.Order.Fin.Basic
import Mathlib.Data.List.Forall2
import Mathlib.Tactic.IntervalCases

/-!
# Names

The case-insensitive ordering of names (C59), media by name (C91) and centred text (C92).
-/

namespace Proposal

/-- Two strings that differ at most in the case of ASCII letters. -/
def Spec.SameUpToCase (s t : List Byte) : Prop :=
  List.Forall₂ (fun x y : Byte => x = y ∨ (65 ≤ x.val ∧ x.val ≤ 90 ∧ y.val = x.val + 32) ∨
    (65 ≤ y.val ∧ y.val ≤ 90 ∧ x.val = y.val + 32)) s t

/-- A string of ASCII characters. -/
def Spec.Ascii (s : List Byte) : Prop := ∀ c ∈ s, c.val < 128

/-- A string without ASCII capital letters. -/
def Spec.LowerCase (s : List Byte) : Prop := ∀ c ∈ s, ¬ (65 ≤ c.val ∧ c.val ≤ 90)

lemma stringLess_iff (s t : List Byte) : stringLess s t = true ↔ s < t := by
  induction s generalizing t with
  | nil => cases t with
    | nil => simp [stringLess]
    | cons b t => simp [stringLess]
  | cons a s ih => cases t with
    | nil => simp [stringLess]
    | cons b t =>
      rw [List.cons_lt_cons_iff]
      simp only [stringLess]
      by_cases h1 : a < b
      · simp [h1]
      · by_cases h2 : b < a
        · have h3 : a ≠ b := ne_of_gt h2
          simp [h1, h2, h3]
        · have h3 : a = b := le_antisymm (not_lt.mp h2) (not_lt.mp h1)
          subst h3
          simp [ih]

lemma mapM_lowerSigned {s : List Byte} (h : Spec.Ascii s) : s.mapM lowerSigned = some (s.map lowerByte) := by
  induction s with
  | nil => rfl
  | cons c s ih =>
    have hc : c.val < 128 := h c (by simp)
    have h1 : lowerSigned c = some (lowerByte c) := by
      unfold lowerSigned; rw [if_neg]; omega
    have h2 := ih fun d hd => h d (by simp [hd])
    rw [List.mapM_cons, h1, h2]
    rfl

lemma nameLess_ascii {s t : List Byte} (hs : Spec.Ascii s) (ht : Spec.Ascii t) :
    nameLess s t = some (stringLess (s.map lowerByte) (t.map lowerByte)) := by
  unfold nameLess
  rw [mapM_lowerSigned hs, mapM_lowerSigned ht]

lemma lowerByte_val (c : Byte) : (lowerByte c).val = if 65 ≤ c.val ∧ c.val ≤ 90 then c.val + 32 else c.val := by
  unfold lowerByte
  split_ifs with h
  · simp only
    omega
  · rfl

lemma lowerByte_eq_iff (x y : Byte) : lowerByte x = lowerByte y ↔
    x = y ∨ (65 ≤ x.val ∧ x.val ≤ 90 ∧ y.val = x.val + 32) ∨ (65 ≤ y.val ∧ y.val ≤ 90 ∧ x.val = y.val + 32) := by
  rw [Fin.ext_iff, Fin.ext_iff, lowerByte_val, lowerByte_val]
  split_ifs <;> omega

lemma sameUpToCase_iff (s t : List Byte) : Spec.SameUpToCase s t ↔ s.map lowerByte = t.map lowerByte := by
  unfold Spec.SameUpToCase
  induction s generalizing t with
  | nil => cases t <;> simp
  | cons a s ih => cases t with
    | nil => simp
    | cons b t => rw [List.forall₂_cons, List.map_cons, List.map_cons, List.cons.injEq, ih, lowerByte_eq_iff]

/-- C59: on ASCII names the comparator is defined and a strict weak ordering, and two names are equivalent exactly if
they agree up to case. -/
theorem C59_strict_weak_order (s t u : List Byte) (hs : Spec.Ascii s) (ht : Spec.Ascii t) (hu : Spec.Ascii u) :
    (∃ b, nameLess s t = some b) ∧
    nameLess s s = some false ∧
    (nameLess s t = some true → nameLess t s = some false) ∧
    (nameLess s t = some true → nameLess t u = some true → nameLess s u = some true) ∧
    (nameLess s t = some false ∧ nameLess t s = some false ↔ Spec.SameUpToCase s t) := by
  have hl : ∀ {x y : List Byte}, stringLess x y = false ↔ ¬ x < y := by
    intro x y; rw [← stringLess_iff]; simp
  rw [nameLess_ascii hs ht, nameLess_ascii hs hs, nameLess_ascii ht hs, nameLess_ascii ht hu, nameLess_ascii hs hu,
    sameUpToCase_iff]
  simp only [Option.some.injEq, stringLess_iff, hl]
  refine ⟨⟨_, rfl⟩, lt_irrefl _, fun h => lt_asymm h, fun h1 h2 => lt_trans h1 h2, ?_⟩
  constructor
  · rintro ⟨h1, h2⟩
    exact le_antisymm (not_lt.mp h2) (not_lt.mp h1)
  · intro h
    rw [h]
    exact ⟨lt_irrefl _, lt_irrefl _⟩

example : ∃ s t u : List Byte, Spec.Ascii s ∧ Spec.Ascii t ∧ Spec.Ascii u ∧
    nameLess s t = some true ∧ nameLess t u = some true ∧ s ≠ t :=
  ⟨bytes "BremsK", bytes "bremsl", bytes "BremsM", by unfold Spec.Ascii; set_option maxRecDepth 4000 in decide, by unfold Spec.Ascii; set_option maxRecDepth 4000 in decide,
    by unfold Spec.Ascii; set_option maxRecDepth 4000 in decide, by decide, by decide, by decide⟩

/-- C59: incomparability is transitive, as `std::map` requires. -/
theorem C59_equivalence (s t u : List Byte) (hs : Spec.Ascii s) (ht : Spec.Ascii t) (hu : Spec.Ascii u)
    (h1 : nameLess s t = some false ∧ nameLess t s = some false)
    (h2 : nameLess t u = some false ∧ nameLess u t = some false) :
    nameLess s u = some false ∧ nameLess u s = some false := by
  have a1 := (C59_strict_weak_order s t u hs ht hu).2.2.2.2.mp h1
  have a2 := (C59_strict_weak_order t u s ht hu hs).2.2.2.2.mp h2
  refine (C59_strict_weak_order s u t hs hu ht).2.2.2.2.mpr ?_
  rw [sameUpToCase_iff] at *
  rw [a1, a2]

/-- C59: a lookup in a map of names gives the entry whose key agrees with the name up to case, and none otherwise. -/
theorem C59_map_lookup {α : Type} (name : List Byte) (m : List (List Byte × α)) (hn : Spec.Ascii name)
    (hm : ∀ e ∈ m, Spec.Ascii e.1) :
    (∀ a, findName name m = some (some a) → ∃ e ∈ m, Spec.SameUpToCase e.1 name ∧ e.2 = a) ∧
    (findName name m = some none ↔ ∀ e ∈ m, ¬ Spec.SameUpToCase e.1 name) ∧ findName name m ≠ none := by
  induction m with
  | nil => simp [findName]
  | cons e m ih =>
    obtain ⟨k, a⟩ := e
    have hk : Spec.Ascii k := hm (k, a) (by simp)
    have ih := ih fun e he => hm e (by simp [he])
    obtain ⟨-, -, -, -, heq⟩ := C59_strict_weak_order k name name hk hn hn
    obtain ⟨⟨b1, hb1⟩, -⟩ := C59_strict_weak_order k name name hk hn hn
    obtain ⟨⟨b2, hb2⟩, -⟩ := C59_strict_weak_order name k name hn hk hn
    rw [hb1, hb2] at heq
    by_cases hsame : Spec.SameUpToCase k name
    · obtain ⟨h1, h2⟩ := heq.mpr hsame
      simp only [Option.some.injEq] at h1 h2
      subst h1; subst h2
      have hfind : findName name ((k, a) :: m) = some (some a) := by
        simp only [findName]
        rw [hb1, hb2]
      rw [hfind]
      refine ⟨fun a' ha => ⟨(k, a), by simp, hsame, by simpa using ha⟩, ?_, by simp⟩
      constructor
      · intro h; simp at h
      · intro h; exact absurd hsame (h (k, a) (by simp))
    · have hne : ¬ (b1 = false ∧ b2 = false) := fun h => hsame (heq.mp (by rw [h.1, h.2]; exact ⟨rfl, rfl⟩))
      have hfind : findName name ((k, a) :: m) = findName name m := by
        simp only [findName]
        rw [hb1, hb2]
        cases b1 <;> cases b2 <;> first | rfl | exact absurd ⟨rfl, rfl⟩ hne
      rw [hfind]
      refine ⟨fun a' ha => ?_, ?_, ih.2.2⟩
      · obtain ⟨e, he, h1, h2⟩ := ih.1 a' ha
        exact ⟨e, by simp [he], h1, h2⟩
      · rw [ih.2.1]
        constructor
        · intro h e he
          rcases List.mem_cons.mp he with rfl | he
          · exact hsame
          · exact h e he
        · intro h e he
          exact h e (by simp [he])

example : ∃ name : List Byte, Spec.Ascii name ∧
    findName name [(bytes "bremskelnerkokoulinpetrukhin", 1), (bytes "bremsandreevbezrukovbugaev", 2)] = some (some 2) :=
  ⟨bytes "BremsAndreevBezrukovBugaev", by unfold Spec.Ascii; set_option maxRecDepth 4000 in decide, by decide⟩

/-- C59, violated outside of ASCII: a name with a byte such as 0xC3 passes a negative number to `tolower`. -/
theorem C59_non_ascii (s : List Byte) : nameLess (⟨0xC3, by norm_num⟩ :: s) s = none := by
  unfold nameLess
  rw [List.mapM_cons]
  rfl

lemma map_lowerByte_lower {s : List Byte} (h : Spec.LowerCase s) : s.map lowerByte = s := by
  induction s with
  | nil => rfl
  | cons c s ih =>
    rw [List.map_cons, ih fun d hd => h d (by simp [hd])]
    congr 1
    unfold lowerByte
    rw [if_neg (h c (by simp))]

lemma mediumNames_lower : ∀ n ∈ mediumNames, Spec.LowerCase (bytes n) := by
  unfold Spec.LowerCase
  set_option maxRecDepth 4000 in decide

/-- The media that a user expects under the names, written out. -/
def Spec.mediumOfName : List (String × MediumClass) :=
  [("water", .waterPDG2020), ("waterpdg2001", .waterPDG2001), ("waterpdg2020", .waterPDG2020), ("ice", .icePDG2020),
   ("icepdg2001", .icePDG2001), ("icepdg2020", .icePDG2020), ("salt", .salt), ("standardrock", .standardRock),
   ("frejusrock", .frejusRock), ("iron", .iron), ("hydrogen", .hydrogen), ("lead", .lead), ("copper", .copper),
   ("uranium", .uranium), ("air", .air), ("paraffin", .paraffin), ("antareswater", .antaresWater),
   ("cascadiabasinwater", .cascadiaBasinWater), ("liquidargon", .liquidArgon)]

lemma createMedium_congr {s t : List Byte} (h : Spec.SameUpToCase s t) : createMedium s = createMedium t := by
  unfold createMedium
  rw [(sameUpToCase_iff s t).mp h]

/-- C91: `CreateMedium` gives the medium of the name in any spelling of the case. -/
theorem C91_media_by_name (name : List Byte) (e : String × MediumClass) (he : e ∈ Spec.mediumOfName)
    (h : Spec.SameUpToCase name (bytes e.1)) : createMedium name = some e.2 := by
  rw [createMedium_congr h]
  clear h
  revert e
  set_option maxRecDepth 4000 in decide

example : createMedium (bytes "StandardRock") = some .standardRock := by decide

lemma createMediumLoop_none {name : List Byte} {ns : List String} (h : ∀ n ∈ ns, name ≠ bytes n) :
    ∀ ts, createMediumLoop name ns ts = none := by
  induction ns with
  | nil => intro ts; rfl
  | cons n ns ih =>
    intro ts
    cases ts with
    | nil => rfl
    | cons t ts =>
      rw [createMediumLoop, if_neg (h n (by simp))]
      exact ih (fun m hm => h m (by simp [hm])) ts

/-- C91: every other name raises an exception. -/
theorem C91_unknown_name (name : List Byte)
    (h : ∀ e ∈ Spec.mediumOfName, ¬ Spec.SameUpToCase name (bytes e.1)) : createMedium name = none := by
  refine createMediumLoop_none (fun n hn hname => ?_) _
  have hm : n ∈ Spec.mediumOfName.map Prod.fst := by
    have : Spec.mediumOfName.map Prod.fst = mediumNames := rfl
    rw [this]; exact hn
  obtain ⟨e, he, rfl⟩ := List.mem_map.mp hm
  refine h e he ((sameUpToCase_iff _ _).mpr ?_)
  rw [hname, map_lowerByte_lower (mediumNames_lower _ hn)]

lemma createMediumLoop_some {name : List Byte} {c : MediumClass} : ∀ {ns : List String} {ts : List MediumType},
    createMediumLoop name ns ts = some c → ∃ t, mediumMap t = c := by
  intro ns
  induction ns with
  | nil => intro ts h; simp [createMediumLoop] at h
  | cons n ns ih =>
    intro ts h
    cases ts with
    | nil => simp [createMediumLoop] at h
    | cons t ts =>
      rw [createMediumLoop] at h
      by_cases hn : name = bytes n
      · rw [if_pos hn] at h
        exact ⟨t, by simpa using h⟩
      · rw [if_neg hn] at h
        exact ih h

/-- C91, violated: no name gives the medium `CalciumCarbonate`. -/
theorem C91_calcium_carbonate (name : List Byte) : createMedium name ≠ some .calciumCarbonate := by
  intro h
  obtain ⟨t, ht⟩ := createMediumLoop_some h
  cases t <;> simp [mediumMap] at ht

/-- C92: `Centered` gives a text of at least the width, with the string in the middle: the padding on the right exceeds
the one on the left by at most one, and strings that are too long are returned unchanged. -/
theorem C92_centered (width : ℤ) (s : List Byte) (fill : Byte) :
    ((centered width s fill).length : ℤ) = max width s.length ∧
    ∃ p q : ℕ, centered width s fill = List.replicate p fill ++ s ++ List.replicate q fill ∧ (p = q ∨ q = p + 1) := by
  unfold centered
  by_cases h : width < s.length
  · rw [if_pos h]
    refine ⟨by omega, 0, 0, by simp, Or.inl rfl⟩
  · rw [if_neg h]
    refine ⟨?_, _, _, rfl, ?_⟩
    · simp only [List.length_append, List.length_replicate]
      push_cast
      omega
    · omega

example : centered 9 (bytes "PROP") (bytes "=").head! = bytes "==PROP===" := by decide

end Proposal
