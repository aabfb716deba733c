import Verif.Model.Config
import Verif.Props.Names

/-!
# C132: cross sections from a configuration
-/

namespace Proposal

/-- The name of a class of cross sections. -/
def Spec.crossName : CrossClass → String
  | .par c => c.name
  | .annihilationHeitler => "Heitler"
  | .photoeffectSauter => "Sauter"
  | .photoproduction n => n

/-- The key in the configuration: it is that of the interaction. -/
def Spec.crossKey : CrossClass → String
  | .annihilationHeitler => "annihilation"
  | .photoeffectSauter => "photoeffect"
  | .photoproduction _ => "photoproduction"
  | .par c => match c.id with
    | 1000000002 => "brems"
    | 1000000003 => "ioniz"
    | 1000000004 => "epair"
    | 1000000005 => "photo"
    | 1000000006 => "mupair"
    | 1000000009 => "weak"
    | 1000000010 => "compton"
    | 1000000013 => "photopair"
    | _ => "photomupair"

/-- The keys that are read. -/
def Spec.crossKeys : List String :=
  ["annihilation", "brems", "compton", "epair", "ioniz", "mupair", "photo", "photoeffect", "photomupair", "photoproduction", "photopair",
   "weak"]

/-- The classes that can be configured. -/
def Spec.configurable (c : CrossClass) : Prop := match c with
  | .photoproduction n => n ∈ ["Zeus", "BezrukovBugaev", "Caldwell", "Kokoulin", "Rhode", "Heck", "HeckC7Shadowing"]
  | _ => True

/-- A boolean option with default. -/
def Spec.boolOption (f : String → Option Json) (key : String) (default b : Bool) : Prop :=
  f key = some (.bool b) ∨ (f key = none ∧ b = default)

/-- What an entry of the configuration says about the cross section. `cut` are the cuts and `d` is the density relative to that of the
medium. -/
structure Spec.EntryOf (cut : Option ℝ × ℝ) (interpol : Bool) (d : ℝ) (e : Json) (c : CrossSpec) : Prop where
  fields : ∃ f, e = .obj f ∧
    (∃ s, f "parametrization" = some (.str s) ∧ (Spec.Ascii (bytes s) → Spec.SameUpToCase (bytes (Spec.crossName c.cls)) (bytes s))) ∧
    ((∃ v, f "multiplier" = some v ∧ v.toDouble = .ok c.multiplier) ∨ (f "multiplier" = none ∧ c.multiplier = 1)) ∧
    (Spec.crossKey c.cls = "brems" → ∃ lpm, Spec.boolOption f "lpm" true lpm ∧ c.opt = if lpm then .bremsLpm d else .plain) ∧
    (Spec.crossKey c.cls = "epair" → ∃ lpm, Spec.boolOption f "lpm" true lpm ∧ c.opt = .epair (if lpm then some d else none)) ∧
    (Spec.crossKey c.cls = "photopair" → ∃ lpm, Spec.boolOption f "lpm" true lpm ∧ c.opt = if lpm then .pairLpm d else .plain) ∧
    (Spec.crossKey c.cls = "ioniz" → c.opt = .cuts cut) ∧
    (Spec.crossKey c.cls = "photo" → (∃ hard, Spec.boolOption f "hard_component" true hard ∧ c.opt = .hard hard) ∨
      ∃ s n, (f "shadow" = some (.str s) ∨ (f "shadow" = none ∧ s = "ButkevichMikheyev")) ∧ c.opt = .shadow n ∧
        (n = "butkevichmikheyev" ∨ n = "duttarenosarcevicseckel") ∧ (Spec.Ascii (bytes s) → Spec.SameUpToCase (bytes n) (bytes s)))
  cuts : c.cuts = true ↔ Spec.crossKey c.cls ∈ ["brems", "compton", "epair", "ioniz", "mupair", "photo"]
  interpol : c.interpol = (interpol && decide (Spec.crossKey c.cls ∉ ["photoeffect", "photoproduction"]))
  configurable : Spec.configurable c.cls

theorem bind_ok {ε α β : Type} {x : Except ε α} {f : α → Except ε β} {b : β} : (x >>= f) = .ok b ↔ ∃ a, x = .ok a ∧ f a = .ok b := by
  cases x with
  | error e =>
    constructor
    · intro h; exact absurd h (by simp [bind, Except.bind])
    · rintro ⟨a, h, _⟩; simp at h
  | ok a =>
    constructor
    · intro h; exact ⟨a, rfl, h⟩
    · rintro ⟨a', h, h'⟩
      have := Except.ok.inj h
      subst this
      exact h'

theorem cfgThrown_ok {α : Type} {x : Except JsonErr α} {a : α} : cfgThrown x = .ok a ↔ x = .ok a := by
  cases x <;> simp [cfgThrown]

theorem paramName_ok {e : Json} {n : String} (h : paramName e = .ok n) : ∃ f, e = .obj f ∧ f "parametrization" = some (.str n) := by
  cases e with
  | obj f =>
    refine ⟨f, rfl, ?_⟩
    cases hf : f "parametrization" with
    | none =>
      exfalso
      simp [paramName, Json.contains, hf, bind, Except.bind, throw, throwThe, MonadExceptOf.throw] at h
    | some v =>
      cases v <;> simp [paramName, Json.contains, Json.get, hf, bind, Except.bind, cfgThrown, Json.toStr] at h
      rw [h]
  | _ => exfalso; simp [paramName, Json.contains, bind, Except.bind, throw, throwThe, MonadExceptOf.throw] at h

theorem valueB_ok {f : String → Option Json} {k : String} {d b : Bool} (h : valueB (.obj f) k d = .ok b) : Spec.boolOption f k d b := by
  unfold Spec.boolOption
  cases hf : f k with
  | none =>
    simp only [valueB, hf, Except.ok.injEq] at h
    exact Or.inr ⟨rfl, h.symm⟩
  | some v =>
    cases v <;> simp [valueB, hf] at h
    left; rw [h]

theorem valueD_ok {f : String → Option Json} {k : String} {d x : ℝ} (h : cfgThrown ((Json.obj f).valueD k d) = .ok x) :
    (∃ v, f k = some v ∧ v.toDouble = .ok x) ∨ (f k = none ∧ x = d) := by
  rw [cfgThrown_ok] at h
  cases hf : f k with
  | none =>
    simp only [Json.valueD, hf, Except.ok.injEq] at h
    exact Or.inr ⟨rfl, h.symm⟩
  | some v =>
    simp only [Json.valueD, hf] at h
    exact Or.inl ⟨v, rfl, h⟩

theorem withMultiplier_ok {f : String → Option Json} {c : ℝ → CrossSpec} {r : CrossSpec} (h : withMultiplier (.obj f) c = .ok r) :
    ∃ m, ((∃ v, f "multiplier" = some v ∧ v.toDouble = .ok m) ∨ (f "multiplier" = none ∧ m = 1)) ∧ r = c m := by
  unfold withMultiplier at h
  rw [bind_ok] at h
  obtain ⟨m, h1, h2⟩ := h
  exact ⟨m, valueD_ok h1, (Except.ok.inj h2).symm⟩

theorem lookupParam_ok {α : Type} {err : JsonErr} {n : String} {m : List (String × α)} {a : α} (h : lookupParam err n m = .ok a)
    (hm : ∀ e ∈ m, Spec.Ascii (bytes e.1)) :
    ∃ e ∈ m, e.2 = a ∧ (Spec.Ascii (bytes n) → Spec.SameUpToCase (bytes e.1) (bytes n)) := by
  unfold lookupParam at h
  have hmem : ∀ (m : List (List Byte × α)) (name : List Byte), findName name m = some (some a) →
      ∃ e ∈ m, e.2 = a ∧ nameLess e.1 name = some false ∧ nameLess name e.1 = some false := by
    intro m name
    induction m with
    | nil => intro h; simp [findName] at h
    | cons e m ih =>
      obtain ⟨k, x⟩ := e
      intro h
      simp only [findName] at h
      split at h
      · rename_i h1 h2
        simp only [Option.some.injEq] at h
        exact ⟨(k, x), by simp, h, h1, h2⟩
      · obtain ⟨e, he, h'⟩ := ih h
        exact ⟨e, by simp [he], h'⟩
      · simp at h
  cases hf : findName (bytes n) (m.map fun e => (bytes e.1, e.2)) with
  | none => rw [hf] at h; simp at h
  | some r =>
    cases r with
    | none => rw [hf] at h; simp at h
    | some x =>
      rw [hf] at h
      simp only [Except.ok.injEq] at h
      rw [h] at hf
      obtain ⟨e, he, h1, h2, h3⟩ := hmem _ _ hf
      rw [List.mem_map] at he
      obtain ⟨e', he', rfl⟩ := he
      refine ⟨e', he', h1, fun hn => ?_⟩
      exact (C59_strict_weak_order (bytes e'.1) (bytes n) (bytes n) (hm e' he') hn hn).2.2.2.2.mp ⟨h2, h3⟩

theorem class_names_ascii : ∀ c : ParClass, Spec.Ascii (bytes c.name) := by
  intro c
  cases c <;> (unfold Spec.Ascii; decide +kernel)

theorem classMap_ok {err : JsonErr} {n : String} {cs : List ParClass} {c : ParClass} (h : lookupParam err n (classMap cs) = .ok c) :
    c ∈ cs ∧ (Spec.Ascii (bytes n) → Spec.SameUpToCase (bytes c.name) (bytes n)) := by
  obtain ⟨e, he, h1, h2⟩ := lookupParam_ok h (by
    intro e he
    simp only [classMap, List.mem_map] at he
    obtain ⟨c, _, rfl⟩ := he
    exact class_names_ascii c)
  simp only [classMap, List.mem_map] at he
  obtain ⟨c', hc', rfl⟩ := he
  simp only at h1 h2
  subst h1
  exact ⟨hc', h2⟩


section factories
variable {cut : Option ℝ × ℝ} {interpol : Bool} {d : ℝ} {e : Json} {c : CrossSpec}

theorem makeBrems_ok (h : makeBrems interpol d e = .ok c) : Spec.EntryOf cut interpol d e c ∧ Spec.crossKey c.cls = "brems" := by
  unfold makeBrems at h
  simp only [bind_ok] at h
  obtain ⟨n, hn, lpm, hl, cl, hc, hm⟩ := h
  obtain ⟨f, rfl, hf⟩ := paramName_ok hn
  obtain ⟨m, hmul, rfl⟩ := withMultiplier_ok hm
  obtain ⟨hmem, hname⟩ := classMap_ok hc
  have hk : Spec.crossKey (.par cl) = "brems" := by
    simp only [bremsClasses, List.mem_cons, List.not_mem_nil, or_false] at hmem
    rcases hmem with rfl | rfl | rfl | rfl | rfl | rfl <;> rfl
  refine ⟨⟨⟨f, rfl, ⟨n, hf, hname⟩, hmul, fun _ => ⟨lpm, valueB_ok hl, rfl⟩, ?_, ?_, ?_, ?_⟩, ?_, ?_, trivial⟩, hk⟩ <;>
    simp only [hk] <;> simp

theorem makeEpair_ok (h : makeEpair interpol d e = .ok c) : Spec.EntryOf cut interpol d e c ∧ Spec.crossKey c.cls = "epair" := by
  unfold makeEpair at h
  simp only [bind_ok] at h
  obtain ⟨n, hn, lpm, hl, cl, hc, hm⟩ := h
  obtain ⟨f, rfl, hf⟩ := paramName_ok hn
  obtain ⟨m, hmul, rfl⟩ := withMultiplier_ok hm
  obtain ⟨hmem, hname⟩ := classMap_ok hc
  have hk : Spec.crossKey (.par cl) = "epair" := by
    simp only [epairClasses, List.mem_cons, List.not_mem_nil, or_false] at hmem
    rcases hmem with rfl | rfl | rfl <;> rfl
  refine ⟨⟨⟨f, rfl, ⟨n, hf, hname⟩, hmul, ?_, fun _ => ⟨lpm, valueB_ok hl, rfl⟩, ?_, ?_, ?_⟩, ?_, ?_, trivial⟩, hk⟩ <;>
    simp only [hk] <;> simp

theorem makePhotoPair_ok (h : makePhotoPair interpol d e = .ok c) : Spec.EntryOf cut interpol d e c ∧ Spec.crossKey c.cls = "photopair" := by
  unfold makePhotoPair at h
  simp only [bind_ok] at h
  obtain ⟨n, hn, lpm, hl, cl, hc, hm⟩ := h
  obtain ⟨f, rfl, hf⟩ := paramName_ok hn
  obtain ⟨m, hmul, rfl⟩ := withMultiplier_ok hm
  obtain ⟨hmem, hname⟩ := classMap_ok hc
  have hk : Spec.crossKey (.par cl) = "photopair" := by
    simp only [photoPairClasses, List.mem_cons, List.not_mem_nil, or_false] at hmem
    rcases hmem with rfl | rfl <;> rfl
  refine ⟨⟨⟨f, rfl, ⟨n, hf, hname⟩, hmul, ?_, ?_, fun _ => ⟨lpm, valueB_ok hl, rfl⟩, ?_, ?_⟩, ?_, ?_, trivial⟩, hk⟩ <;>
    simp only [hk] <;> simp

theorem makeIoniz_ok (h : makeIoniz interpol cut e = .ok c) : Spec.EntryOf cut interpol d e c ∧ Spec.crossKey c.cls = "ioniz" := by
  unfold makeIoniz at h
  simp only [bind_ok] at h
  obtain ⟨n, hn, cl, hc, hm⟩ := h
  obtain ⟨f, rfl, hf⟩ := paramName_ok hn
  obtain ⟨m, hmul, rfl⟩ := withMultiplier_ok hm
  obtain ⟨hmem, hname⟩ := classMap_ok hc
  have hk : Spec.crossKey (.par cl) = "ioniz" := by
    simp only [ionizClasses, List.mem_cons, List.not_mem_nil, or_false] at hmem
    rcases hmem with rfl | rfl | rfl <;> rfl
  refine ⟨⟨⟨f, rfl, ⟨n, hf, hname⟩, hmul, ?_, ?_, ?_, fun _ => rfl, ?_⟩, ?_, ?_, trivial⟩, hk⟩ <;>
    simp only [hk] <;> simp

theorem makePhotoReal_ok (h : makePhotoReal interpol e = .ok c) : Spec.EntryOf cut interpol d e c ∧ Spec.crossKey c.cls = "photo" := by
  unfold makePhotoReal at h
  simp only [bind_ok] at h
  obtain ⟨n, hn, hard, hl, cl, hc, hm⟩ := h
  obtain ⟨f, rfl, hf⟩ := paramName_ok hn
  obtain ⟨m, hmul, rfl⟩ := withMultiplier_ok hm
  obtain ⟨hmem, hname⟩ := classMap_ok hc
  have hk : Spec.crossKey (.par cl) = "photo" := by
    simp only [photoRealClasses, List.mem_cons, List.not_mem_nil, or_false] at hmem
    rcases hmem with rfl | rfl | rfl | rfl <;> rfl
  refine ⟨⟨⟨f, rfl, ⟨n, hf, hname⟩, hmul, ?_, ?_, ?_, ?_, fun _ => Or.inl ⟨hard, valueB_ok hl, rfl⟩⟩, ?_, ?_, trivial⟩, hk⟩ <;>
    simp only [hk] <;> simp

theorem makePhotoQ2_ok (h : makePhotoQ2 interpol e = .ok c) : Spec.EntryOf cut interpol d e c ∧ Spec.crossKey c.cls = "photo" := by
  unfold makePhotoQ2 at h
  simp only [bind_ok] at h
  obtain ⟨n, hn, s, hs, cl, hc, sh, hsh, hm⟩ := h
  obtain ⟨f, rfl, hf⟩ := paramName_ok hn
  obtain ⟨m, hmul, rfl⟩ := withMultiplier_ok hm
  obtain ⟨hmem, hname⟩ := classMap_ok hc
  have hk : Spec.crossKey (.par cl) = "photo" := by
    simp only [photoQ2Classes, List.mem_cons, List.not_mem_nil, or_false] at hmem
    rcases hmem with rfl | rfl | rfl | rfl | rfl | rfl <;> rfl
  have hs' : f "shadow" = some (.str s) ∨ (f "shadow" = none ∧ s = "ButkevichMikheyev") := by
    rw [cfgThrown_ok] at hs
    cases hf : f "shadow" with
    | none => simp only [valueS, hf, Except.ok.injEq] at hs; exact Or.inr ⟨rfl, hs.symm⟩
    | some v =>
      cases v <;> simp [valueS, hf, Json.toStr] at hs
      left; rw [hs]
  obtain ⟨e, he, rfl, hse⟩ := lookupParam_ok hsh (by unfold Spec.Ascii; decide +kernel)
  have hshadow : (e.2 = "butkevichmikheyev" ∨ e.2 = "duttarenosarcevicseckel") ∧ e.1 = e.2 := by
    simp only [shadowMap, List.mem_cons, List.not_mem_nil, or_false] at he
    rcases he with rfl | rfl <;> simp
  rw [hshadow.2] at hse
  refine ⟨⟨⟨f, rfl, ⟨n, hf, hname⟩, hmul, ?_, ?_, ?_, ?_, fun _ => Or.inr ⟨s, e.2, hs', rfl, hshadow.1, hse⟩⟩, ?_, ?_, trivial⟩, hk⟩ <;>
    simp only [hk] <;> simp

theorem makePhoto_ok (h : makePhoto interpol e = .ok c) : Spec.EntryOf cut interpol d e c ∧ Spec.crossKey c.cls = "photo" := by
  unfold makePhoto at h
  split at h
  · exact makePhotoQ2_ok h
  · exact makePhotoReal_ok h

/-- The factories without options. -/
theorem makePlain_ok {m : List (String × CrossClass)} {cuts i : Bool} {key : String} (h : makePlain m cuts i e = .ok c)
    (hascii : ∀ x ∈ m, Spec.Ascii (bytes x.1)) (hm : ∀ x ∈ m, Spec.crossName x.2 = x.1 ∧ Spec.crossKey x.2 = key ∧ Spec.configurable x.2)
    (hkey : key ∉ ["brems", "epair", "photopair", "ioniz", "photo"]) (hcuts : cuts = true ↔ key ∈ ["compton", "mupair"])
    (hi : i = (interpol && decide (key ∉ ["photoeffect", "photoproduction"]))) :
    Spec.EntryOf cut interpol d e c ∧ Spec.crossKey c.cls = key := by
  unfold makePlain at h
  simp only [bind_ok] at h
  obtain ⟨n, hn, cl, hc, hmul⟩ := h
  obtain ⟨f, rfl, hf⟩ := paramName_ok hn
  obtain ⟨k, hk, rfl⟩ := withMultiplier_ok hmul
  obtain ⟨x, hx, rfl, hname⟩ := lookupParam_ok hc hascii
  obtain ⟨h1, h2, h3⟩ := hm x hx
  simp only [List.mem_cons, List.not_mem_nil, or_false, not_or] at hkey
  obtain ⟨k1, k2, k3, k4, k5⟩ := hkey
  refine ⟨⟨⟨f, rfl, ⟨n, hf, ?_⟩, hk, ?_, ?_, ?_, ?_, ?_⟩, ?_, ?_, h3⟩, h2⟩
  · simp only [h1]; exact hname
  · simp only [h2]; exact fun h => absurd h k1
  · simp only [h2]; exact fun h => absurd h k2
  · simp only [h2]; exact fun h => absurd h k3
  · simp only [h2]; exact fun h => absurd h k4
  · simp only [h2]; exact fun h => absurd h k5
  · simp only [h2]
    rw [hcuts]
    simp only [List.mem_cons, List.not_mem_nil, or_false, k1, k2, k4, k5, false_or]
  · simp only [h2]; exact hi

end factories

theorem addCross_ok {config : Json} {key : String} {make : Json → Except CfgErr CrossSpec} {l l' : List CrossSpec}
    (h : addCross config key make l = .ok l') :
    (config.contains key = false ∧ l' = l) ∨
      ∃ f e c, config = .obj f ∧ f key = some e ∧ config.contains key = true ∧ make e = .ok c ∧ l' = l ++ [c] := by
  unfold addCross at h
  cases hc : config.contains key with
  | false =>
    rw [hc] at h
    exact Or.inl ⟨rfl, (Except.ok.inj h).symm⟩
  | true =>
    right
    rw [hc] at h
    simp only [if_true, bind_ok] at h
    obtain ⟨e, he, c, hm, hl⟩ := h
    rw [cfgThrown_ok] at he
    cases config with
    | obj f =>
      refine ⟨f, e, c, rfl, ?_, rfl, hm, (Except.ok.inj hl).symm⟩
      cases hf : f key with
      | none => simp [Json.get, hf] at he
      | some v => simp only [Json.get, hf, Except.ok.injEq] at he; rw [he]
    | _ => simp [Json.contains] at hc

/-- What has been read so far. -/
def Spec.ReadKeys (cut : Option ℝ × ℝ) (interpol : Bool) (d : ℝ) (config : Json) (keys : List String) (l : List CrossSpec) : Prop :=
  (l.map fun c => Spec.crossKey c.cls) = keys.filter (fun k => config.contains k) ∧
    ∀ c ∈ l, ∃ f e, config = .obj f ∧ f (Spec.crossKey c.cls) = some e ∧ Spec.EntryOf cut interpol d e c

theorem readKeys_step {cut : Option ℝ × ℝ} {interpol : Bool} {d : ℝ} {config : Json} {keys : List String} {l l' : List CrossSpec}
    {key : String} {make : Json → Except CfgErr CrossSpec} (hl : Spec.ReadKeys cut interpol d config keys l)
    (h : addCross config key make l = .ok l')
    (hmake : ∀ e c, make e = .ok c → Spec.EntryOf cut interpol d e c ∧ Spec.crossKey c.cls = key) :
    Spec.ReadKeys cut interpol d config (keys ++ [key]) l' := by
  rcases addCross_ok h with ⟨hc, rfl⟩ | ⟨f, e, c, rfl, hf, hcon, hm, rfl⟩
  · refine ⟨?_, hl.2⟩
    rw [List.filter_append, hl.1]
    simp [hc]
  · obtain ⟨h1, h2⟩ := hmake e c hm
    refine ⟨?_, ?_⟩
    · rw [List.map_append, List.filter_append, hl.1]
      simp [hcon, h2]
    · intro c' hc'
      rcases List.mem_append.mp hc' with hc' | hc'
      · exact hl.2 c' hc'
      · simp only [List.mem_singleton] at hc'
        subst hc'
        exact ⟨f, e, rfl, by rw [h2]; exact hf, h1⟩

/-- The list of cross sections of a configuration has exactly one entry for each of the twelve keys that occurs, in a fixed order, and the
entry is what the configuration says: the parametrization with the name that is given, in any case of letters, the multiplier, the LPM
effect for the density, the hard component, the shadowing, the cuts. -/
theorem C132_cross_list (cut : Option ℝ × ℝ) (interpol : Bool) (d : ℝ) (config : Json) (l : List CrossSpec)
    (h : createCrossSectionList cut interpol d config = .ok l) :
    (l.map fun c => Spec.crossKey c.cls) = Spec.crossKeys.filter (fun k => config.contains k) ∧
      ∀ c ∈ l, ∃ f e, config = .obj f ∧ f (Spec.crossKey c.cls) = some e ∧ Spec.EntryOf cut interpol d e c := by
  unfold createCrossSectionList at h
  simp only [bind_ok] at h
  obtain ⟨l1, h1, l2, h2, l3, h3, l4, h4, l5, h5, l6, h6, l7, h7, l8, h8, l9, h9, l10, h10, l11, h11, h12⟩ := h
  have r0 : Spec.ReadKeys cut interpol d config [] [] := ⟨rfl, by simp⟩
  have r1 := readKeys_step r0 h1 fun e c he => makePlain_ok he (by unfold Spec.Ascii; decide +kernel)
    (by simp [Spec.crossName, Spec.crossKey, Spec.configurable]) (by decide) (by decide) (by simp)
  have r2 := readKeys_step r1 h2 fun e c he => makeBrems_ok he
  have r3 := readKeys_step r2 h3 fun e c he => makePlain_ok he (by unfold Spec.Ascii; decide +kernel)
    (by simp [Spec.crossName, Spec.crossKey, Spec.configurable, ParClass.name, ParClass.id]) (by decide) (by decide) (by simp)
  have r4 := readKeys_step r3 h4 fun e c he => makeEpair_ok he
  have r5 := readKeys_step r4 h5 fun e c he => makeIoniz_ok he
  have r6 := readKeys_step r5 h6 fun e c he => makePlain_ok he (by unfold Spec.Ascii; decide +kernel)
    (by simp [Spec.crossName, Spec.crossKey, Spec.configurable, ParClass.name, ParClass.id]) (by decide) (by decide) (by simp)
  have r7 := readKeys_step r6 h7 fun e c he => makePhoto_ok he
  have r8 := readKeys_step r7 h8 fun e c he => makePlain_ok he (by unfold Spec.Ascii; decide +kernel)
    (by simp [Spec.crossName, Spec.crossKey, Spec.configurable]) (by decide) (by decide) (by simp)
  have r9 := readKeys_step r8 h9 fun e c he => makePlain_ok he (by unfold Spec.Ascii; decide +kernel)
    (by simp [Spec.crossName, Spec.crossKey, Spec.configurable, ParClass.name, ParClass.id]) (by decide) (by decide) (by simp)
  have r10 := readKeys_step r9 h10 fun e c he => makePlain_ok he (by unfold Spec.Ascii photoproductionNames; decide +kernel)
    (by simp [photoproductionNames, Spec.crossName, Spec.crossKey, Spec.configurable]) (by decide) (by decide) (by simp)
  have r11 := readKeys_step r10 h11 fun e c he => makePhotoPair_ok he
  have r12 := readKeys_step r11 h12 fun e c he => makePlain_ok he (by unfold Spec.Ascii; decide +kernel)
    (by simp [Spec.crossName, Spec.crossKey, Spec.configurable, ParClass.name, ParClass.id]) (by decide) (by decide) (by simp)
  exact r12

/-- Keys that are not among the twelve have no effect; a misspelt key is silently ignored. -/
theorem C132_unknown_keys (cut : Option ℝ × ℝ) (interpol : Bool) (d : ℝ) (f f' : String → Option Json)
    (h : ∀ k ∈ Spec.crossKeys, f k = f' k) :
    createCrossSectionList cut interpol d (.obj f) = createCrossSectionList cut interpol d (.obj f') := by
  have step : ∀ k ∈ Spec.crossKeys, ∀ make, addCross (.obj f) k make = addCross (.obj f') k make := by
    intro k hk make
    funext l
    unfold addCross Json.contains Json.get
    simp only [h k hk]
  unfold createCrossSectionList
  rw [step "annihilation" (by decide), step "brems" (by decide), step "compton" (by decide), step "epair" (by decide),
    step "ioniz" (by decide), step "mupair" (by decide), step "photo" (by decide), step "photoeffect" (by decide),
    step "photomupair" (by decide), step "photoproduction" (by decide), step "photopair" (by decide), step "weak" (by decide)]

end Proposal
