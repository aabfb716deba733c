import Verif.Props.ConfigCross

/-!
# C132: every parametrization can be configured
-/

namespace Proposal

/-- The configuration with one interaction and nothing but the name of the parametrization. -/
def Spec.oneCross (key name : String) : Json :=
  .obj fun k => if k = key then some (.obj fun k => if k = "parametrization" then some (.str name) else none) else none

/-- The options when nothing is said. -/
def Spec.defaultOption (cut : Option ℝ × ℝ) (d : ℝ) : CrossClass → ParOption
  | .par c =>
    if Spec.crossKey (.par c) = "brems" then .bremsLpm d
    else if Spec.crossKey (.par c) = "epair" then .epair (some d)
    else if Spec.crossKey (.par c) = "photopair" then .pairLpm d
    else if Spec.crossKey (.par c) = "ioniz" then .cuts cut
    else if c = .photoZeus ∨ c = .photoBezrukovBugaev ∨ c = .photoKokoulin ∨ c = .photoRhode then .hard true
    else if Spec.crossKey (.par c) = "photo" then .shadow "butkevichmikheyev"
    else .plain
  | _ => .plain

theorem lookup_same {α : Type} {err : JsonErr} {s : String} {m : List (String × α)} {e : String × α} (he : e ∈ m)
    (hs : Spec.Ascii (bytes s)) (hsame : Spec.SameUpToCase (bytes e.1) (bytes s)) (hm : ∀ x ∈ m, Spec.Ascii (bytes x.1))
    (hdist : ∀ x ∈ m, ∀ y ∈ m, (bytes x.1).map lowerByte = (bytes y.1).map lowerByte → x.2 = y.2) :
    lookupParam err s m = .ok e.2 := by
  have hm' : ∀ x ∈ m.map fun x => (bytes x.1, x.2), Spec.Ascii x.1 := by
    intro x hx
    rw [List.mem_map] at hx
    obtain ⟨y, hy, rfl⟩ := hx
    exact hm y hy
  obtain ⟨h1, h2, h3⟩ := C59_map_lookup (bytes s) (m.map fun x => (bytes x.1, x.2)) hs hm'
  unfold lookupParam
  cases hf : findName (bytes s) (m.map fun x => (bytes x.1, x.2)) with
  | none => exact absurd hf h3
  | some r =>
    cases r with
    | none => exact absurd hsame (h2.mp hf (bytes e.1, e.2) (List.mem_map.mpr ⟨e, he, rfl⟩))
    | some a =>
      obtain ⟨x, hx, hxs, rfl⟩ := h1 a hf
      rw [List.mem_map] at hx
      obtain ⟨y, hy, rfl⟩ := hx
      simp only
      rw [sameUpToCase_iff] at hxs hsame
      rw [hdist y hy e he (hxs.trans hsame.symm)]

theorem lookup_other {α : Type} {err : JsonErr} {s : String} {m : List (String × α)} (hs : Spec.Ascii (bytes s))
    (hm : ∀ x ∈ m, Spec.Ascii (bytes x.1)) (hdist : ∀ x ∈ m, (bytes x.1).map lowerByte ≠ (bytes s).map lowerByte) :
    lookupParam err s m = .error (.thrown err) := by
  have hm' : ∀ x ∈ m.map fun x => (bytes x.1, x.2), Spec.Ascii x.1 := by
    intro x hx
    rw [List.mem_map] at hx
    obtain ⟨y, hy, rfl⟩ := hx
    exact hm y hy
  obtain ⟨-, h2, -⟩ := C59_map_lookup (bytes s) (m.map fun x => (bytes x.1, x.2)) hs hm'
  unfold lookupParam
  rw [h2.mpr ?_]
  intro x hx
  rw [List.mem_map] at hx
  obtain ⟨y, hy, rfl⟩ := hx
  rw [sameUpToCase_iff]
  exact hdist y hy

/-- The names of a list of classes are different when the case of letters is ignored. -/
def distinctNames (cs : List ParClass) : Bool :=
  cs.all fun x => cs.all fun y => ((bytes x.name).map lowerByte != (bytes y.name).map lowerByte) || decide (x = y)

theorem lookup_class {err : JsonErr} {s : String} {cs : List ParClass} {c : ParClass} (hc : c ∈ cs) (hd : distinctNames cs = true)
    (hs : Spec.Ascii (bytes s)) (hsame : Spec.SameUpToCase (bytes c.name) (bytes s)) :
    lookupParam err s (classMap cs) = .ok c := by
  refine lookup_same (e := (c.name, c)) ?_ hs hsame ?_ ?_
  · exact List.mem_map.mpr ⟨c, hc, rfl⟩
  · intro x hx
    obtain ⟨y, _, rfl⟩ := List.mem_map.mp hx
    exact class_names_ascii y
  · intro x hx y hy h
    obtain ⟨x, hx', rfl⟩ := List.mem_map.mp hx
    obtain ⟨y, hy', rfl⟩ := List.mem_map.mp hy
    simp only at h ⊢
    have := (List.all_eq_true.mp (List.all_eq_true.mp hd x hx')) y hy'
    simpa [h] using this

theorem addCross_none {f : String → Option Json} {k : String} {make : Json → Except CfgErr CrossSpec} {l : List CrossSpec} (h : f k = none) :
    addCross (.obj f) k make l = .ok l := by
  unfold addCross
  simp [Json.contains, h]
  rfl

theorem addCross_some {f : String → Option Json} {k : String} {make : Json → Except CfgErr CrossSpec} {l : List CrossSpec} {e : Json}
    {c : CrossSpec} (h : f k = some e) (hm : make e = .ok c) : addCross (.obj f) k make l = .ok (l ++ [c]) := by
  unfold addCross
  simp [Json.contains, Json.get, h, cfgThrown, hm, bind, Except.bind]
  rfl

/-- An entry with nothing but a name. -/
def nameEntry (s : String) : Json := .obj fun k => if k = "parametrization" then some (.str s) else none

theorem paramName_entry (s : String) : paramName (nameEntry s) = .ok s := by
  simp [paramName, nameEntry, Json.contains, Json.get, Json.toStr, cfgThrown, bind, Except.bind]

theorem valueB_entry (s k : String) (b : Bool) (h : k ≠ "parametrization") : valueB (nameEntry s) k b = .ok b := by
  simp [valueB, nameEntry, h]

theorem withMultiplier_entry (s : String) (c : ℝ → CrossSpec) : withMultiplier (nameEntry s) c = .ok (c 1) := by
  simp [withMultiplier, nameEntry, Json.valueD, cfgThrown, bind, Except.bind, pure, Except.pure]

theorem ok_bind {ε α β : Type} (a : α) (f : α → Except ε β) : ((Except.ok a : Except ε α) >>= f) = f a := rfl

theorem makeBrems_name {i : Bool} {d : ℝ} {s : String} {c : ParClass} (hc : c ∈ bremsClasses) (hs : Spec.Ascii (bytes s))
    (h : Spec.SameUpToCase (bytes c.name) (bytes s)) : makeBrems i d (nameEntry s) = .ok ⟨.par c, .bremsLpm d, true, i, 1⟩ := by
  unfold makeBrems
  rw [paramName_entry, ok_bind, valueB_entry _ _ _ (by decide), ok_bind, lookup_class hc (by decide +kernel) hs h, ok_bind,
    withMultiplier_entry, if_pos rfl]

theorem makeEpair_name {i : Bool} {d : ℝ} {s : String} {c : ParClass} (hc : c ∈ epairClasses) (hs : Spec.Ascii (bytes s))
    (h : Spec.SameUpToCase (bytes c.name) (bytes s)) : makeEpair i d (nameEntry s) = .ok ⟨.par c, .epair (some d), true, i, 1⟩ := by
  unfold makeEpair
  rw [paramName_entry, ok_bind, valueB_entry _ _ _ (by decide), ok_bind, lookup_class hc (by decide +kernel) hs h, ok_bind,
    withMultiplier_entry, if_pos rfl]

theorem makePhotoPair_name {i : Bool} {d : ℝ} {s : String} {c : ParClass} (hc : c ∈ photoPairClasses) (hs : Spec.Ascii (bytes s))
    (h : Spec.SameUpToCase (bytes c.name) (bytes s)) : makePhotoPair i d (nameEntry s) = .ok ⟨.par c, .pairLpm d, false, i, 1⟩ := by
  unfold makePhotoPair
  rw [paramName_entry, ok_bind, valueB_entry _ _ _ (by decide), ok_bind, lookup_class hc (by decide +kernel) hs h, ok_bind,
    withMultiplier_entry, if_pos rfl]

theorem makeIoniz_name {i : Bool} {cut : Option ℝ × ℝ} {s : String} {c : ParClass} (hc : c ∈ ionizClasses) (hs : Spec.Ascii (bytes s))
    (h : Spec.SameUpToCase (bytes c.name) (bytes s)) : makeIoniz i cut (nameEntry s) = .ok ⟨.par c, .cuts cut, true, i, 1⟩ := by
  unfold makeIoniz
  rw [paramName_entry, ok_bind, lookup_class hc (by decide +kernel) hs h, ok_bind, withMultiplier_entry]

theorem makePhoto_name_real {i : Bool} {s : String} {c : ParClass} (hc : c ∈ photoRealClasses) (hs : Spec.Ascii (bytes s))
    (h : Spec.SameUpToCase (bytes c.name) (bytes s)) : makePhoto i (nameEntry s) = .ok ⟨.par c, .hard true, true, i, 1⟩ := by
  unfold makePhoto makePhotoReal
  rw [paramName_entry, ok_bind, valueB_entry _ _ _ (by decide), ok_bind, lookup_class hc (by decide +kernel) hs h, ok_bind,
    withMultiplier_entry]

theorem makePhoto_name_q2 {i : Bool} {s : String} {c : ParClass} (hc : c ∈ photoQ2Classes) (hs : Spec.Ascii (bytes s))
    (h : Spec.SameUpToCase (bytes c.name) (bytes s)) :
    makePhoto i (nameEntry s) = .ok ⟨.par c, .shadow "butkevichmikheyev", true, i, 1⟩ := by
  have hreal : makePhotoReal i (nameEntry s) = .error (.thrown .invalidArgument) := by
    unfold makePhotoReal
    rw [paramName_entry, ok_bind, valueB_entry _ _ _ (by decide), ok_bind, lookup_other hs]
    · rfl
    · intro x hx
      obtain ⟨y, _, rfl⟩ := List.mem_map.mp hx
      exact class_names_ascii y
    · intro x hx
      obtain ⟨y, hy, rfl⟩ := List.mem_map.mp hx
      rw [sameUpToCase_iff] at h
      rw [← h]
      have := List.all_eq_true.mp (List.all_eq_true.mp (show (photoRealClasses.all fun y => photoQ2Classes.all fun c =>
        (bytes y.name).map lowerByte != (bytes c.name).map lowerByte) = true by decide +kernel) y hy) c hc
      simpa using this
  unfold makePhoto
  rw [hreal]
  simp only
  unfold makePhotoQ2
  have hshadow : lookupParam .logicError "ButkevichMikheyev" shadowMap = .ok "butkevichmikheyev" := by
    refine lookup_same (e := ("butkevichmikheyev", "butkevichmikheyev")) (by simp [shadowMap]) (by unfold Spec.Ascii; decide +kernel) ?_
      (by unfold Spec.Ascii; decide +kernel) (by decide +kernel)
    rw [sameUpToCase_iff]; decide +kernel
  have hv : valueS (nameEntry s) "shadow" "ButkevichMikheyev" = .ok "ButkevichMikheyev" := by simp [valueS, nameEntry]
  rw [paramName_entry, ok_bind, hv, cfgThrown, ok_bind, lookup_class hc (by decide +kernel) hs h, ok_bind, hshadow, ok_bind,
    withMultiplier_entry]

theorem makePlain_name {m : List (String × CrossClass)} {cuts i : Bool} {s : String} {e : String × CrossClass} (he : e ∈ m)
    (hs : Spec.Ascii (bytes s)) (hsame : Spec.SameUpToCase (bytes e.1) (bytes s)) (hm : ∀ x ∈ m, Spec.Ascii (bytes x.1))
    (hdist : ∀ x ∈ m, ∀ y ∈ m, (bytes x.1).map lowerByte = (bytes y.1).map lowerByte → x.2 = y.2) :
    makePlain m cuts i (nameEntry s) = .ok ⟨e.2, .plain, cuts, i, 1⟩ := by
  unfold makePlain
  rw [paramName_entry, ok_bind, lookup_same he hs hsame hm hdist, ok_bind, withMultiplier_entry]

/-- Reading a configuration with one key. -/
theorem oneCross_read (cut : Option ℝ × ℝ) (interpol : Bool) (d : ℝ) (key s : String) (c : CrossSpec)
    (h : (key = "annihilation" ∧ makePlain [("Heitler", .annihilationHeitler)] false interpol (nameEntry s) = .ok c) ∨
      (key = "brems" ∧ makeBrems interpol d (nameEntry s) = .ok c) ∨
      (key = "compton" ∧ makePlain [("KleinNishina", .par .comptonKleinNishina)] true interpol (nameEntry s) = .ok c) ∨
      (key = "epair" ∧ makeEpair interpol d (nameEntry s) = .ok c) ∨
      (key = "ioniz" ∧ makeIoniz interpol cut (nameEntry s) = .ok c) ∨
      (key = "mupair" ∧ makePlain [("KelnerKokoulinPetrukhin", .par .mupairKelnerKokoulinPetrukhin)] true interpol (nameEntry s) = .ok c) ∨
      (key = "photo" ∧ makePhoto interpol (nameEntry s) = .ok c) ∨
      (key = "photoeffect" ∧ makePlain [("Sauter", .photoeffectSauter)] false false (nameEntry s) = .ok c) ∨
      (key = "photomupair" ∧
        makePlain [("BurkhardtKelnerKokoulin", .par .photoMuPairBurkhardtKelnerKokoulin)] false interpol (nameEntry s) = .ok c) ∨
      (key = "photoproduction" ∧ makePlain (photoproductionNames.map fun n => (n, .photoproduction n)) false false (nameEntry s) = .ok c) ∨
      (key = "photopair" ∧ makePhotoPair interpol d (nameEntry s) = .ok c) ∨
      (key = "weak" ∧ makePlain [("CooperSarkarMertsch", .par .weakCooperSarkarMertsch)] false interpol (nameEntry s) = .ok c)) :
    createCrossSectionList cut interpol d (Spec.oneCross key s) = .ok [c] := by
  have hf : ∀ k, k = key → (fun k => if k = key then some (nameEntry s) else none) k = some (nameEntry s) := by
    intro k hk; simp [hk]
  have hn : ∀ k, k ≠ key → (fun k => if k = key then some (nameEntry s) else none) k = none := by
    intro k hk; simp [hk]
  change createCrossSectionList cut interpol d (.obj fun k => if k = key then some (nameEntry s) else none) = .ok [c]
  unfold createCrossSectionList
  have h1 : ∀ k make l, k ≠ key → addCross (.obj fun k => if k = key then some (nameEntry s) else none) k make l = .ok l :=
    fun k make l hk => addCross_none (hn k hk)
  have h2 : ∀ make l, make (nameEntry s) = .ok c →
      addCross (.obj fun k => if k = key then some (nameEntry s) else none) key make l = .ok (l ++ [c]) :=
    fun make l hm => addCross_some (hf key rfl) hm
  generalize (Json.obj fun k => if k = key then some (nameEntry s) else none) = j at h1 h2 ⊢
  rcases h with ⟨rfl, h⟩ | ⟨rfl, h⟩ | ⟨rfl, h⟩ | ⟨rfl, h⟩ | ⟨rfl, h⟩ | ⟨rfl, h⟩ | ⟨rfl, h⟩ | ⟨rfl, h⟩ | ⟨rfl, h⟩ | ⟨rfl, h⟩ | ⟨rfl, h⟩ | ⟨rfl, h⟩ <;>
  · have h2 := fun l => h2 _ l h
    simp only [h2, h1, ok_bind, ne_eq, String.reduceEq, not_false_eq_true, List.nil_append]

/-- Each parametrization can be reached by its name, in any case of letters, under the key of its interaction. The LPM effect is on, there is
a hard component and Butkevich-Mikheyev shadowing; the multiplier is one. -/
theorem C132_reachable (cut : Option ℝ × ℝ) (interpol : Bool) (d : ℝ) (c : CrossClass) (hc : Spec.configurable c) (s : String)
    (hs : Spec.Ascii (bytes s)) (hsame : Spec.SameUpToCase (bytes (Spec.crossName c)) (bytes s)) :
    createCrossSectionList cut interpol d (Spec.oneCross (Spec.crossKey c) s) =
      .ok [⟨c, Spec.defaultOption cut d c, decide (Spec.crossKey c ∈ ["brems", "compton", "epair", "ioniz", "mupair", "photo"]),
        interpol && decide (Spec.crossKey c ∉ ["photoeffect", "photoproduction"]), 1⟩] := by
  cases c with
  | annihilationHeitler =>
    refine oneCross_read _ _ _ _ _ _ (Or.inl ⟨rfl, ?_⟩)
    exact (makePlain_name (e := ("Heitler", .annihilationHeitler)) (by simp) hs hsame (by unfold Spec.Ascii; decide +kernel)
      (by decide +kernel)).trans (by simp [Spec.crossKey, Spec.defaultOption])
  | photoeffectSauter =>
    refine oneCross_read _ _ _ _ _ _ (Or.inr (Or.inr (Or.inr (Or.inr (Or.inr (Or.inr (Or.inr (Or.inl ⟨rfl, ?_⟩))))))))
    exact (makePlain_name (e := ("Sauter", .photoeffectSauter)) (by simp) hs hsame (by unfold Spec.Ascii; decide +kernel)
      (by decide +kernel)).trans (by simp [Spec.crossKey, Spec.defaultOption])
  | photoproduction n =>
    refine oneCross_read _ _ _ _ _ _ (Or.inr (Or.inr (Or.inr (Or.inr (Or.inr (Or.inr (Or.inr (Or.inr (Or.inr (Or.inl ⟨rfl, ?_⟩))))))))))
    exact (makePlain_name (e := (n, .photoproduction n)) (List.mem_map.mpr ⟨n, hc, rfl⟩) hs hsame
      (by unfold Spec.Ascii; decide +kernel) (by decide +kernel)).trans (by simp [Spec.crossKey, Spec.defaultOption])
  | par c =>
    have brems : c ∈ bremsClasses → createCrossSectionList cut interpol d (Spec.oneCross (Spec.crossKey (.par c)) s) =
        .ok [⟨.par c, Spec.defaultOption cut d (.par c),
          decide (Spec.crossKey (.par c) ∈ ["brems", "compton", "epair", "ioniz", "mupair", "photo"]),
          interpol && decide (Spec.crossKey (.par c) ∉ ["photoeffect", "photoproduction"]), 1⟩] := by
      intro h1
      have hk : Spec.crossKey (.par c) = "brems" ∧ Spec.defaultOption cut d (.par c) = .bremsLpm d := by
        simp only [bremsClasses, List.mem_cons, List.not_mem_nil, or_false] at h1
        rcases h1 with rfl | rfl | rfl | rfl | rfl | rfl <;> exact ⟨rfl, rfl⟩
      rw [hk.1, hk.2]
      have e : (⟨.par c, .bremsLpm d, decide ("brems" ∈ ["brems", "compton", "epair", "ioniz", "mupair", "photo"]),
          interpol && decide ("brems" ∉ ["photoeffect", "photoproduction"]), 1⟩ : CrossSpec) = ⟨.par c, .bremsLpm d, true, interpol, 1⟩ := by simp
      rw [e]
      exact oneCross_read _ _ _ _ _ _ (Or.inr (Or.inl ⟨rfl, makeBrems_name h1 hs hsame⟩))
    have epair : c ∈ epairClasses → createCrossSectionList cut interpol d (Spec.oneCross (Spec.crossKey (.par c)) s) =
        .ok [⟨.par c, Spec.defaultOption cut d (.par c),
          decide (Spec.crossKey (.par c) ∈ ["brems", "compton", "epair", "ioniz", "mupair", "photo"]),
          interpol && decide (Spec.crossKey (.par c) ∉ ["photoeffect", "photoproduction"]), 1⟩] := by
      intro h1
      have hk : Spec.crossKey (.par c) = "epair" ∧ Spec.defaultOption cut d (.par c) = .epair (some d) := by
        simp only [epairClasses, List.mem_cons, List.not_mem_nil, or_false] at h1
        rcases h1 with rfl | rfl | rfl <;> exact ⟨rfl, rfl⟩
      rw [hk.1, hk.2]
      have e : (⟨.par c, .epair (some d), decide ("epair" ∈ ["brems", "compton", "epair", "ioniz", "mupair", "photo"]),
          interpol && decide ("epair" ∉ ["photoeffect", "photoproduction"]), 1⟩ : CrossSpec) = ⟨.par c, .epair (some d), true, interpol, 1⟩ := by simp
      rw [e]
      exact oneCross_read _ _ _ _ _ _ (Or.inr (Or.inr (Or.inr (Or.inl ⟨rfl, makeEpair_name h1 hs hsame⟩))))
    have ioniz : c ∈ ionizClasses → createCrossSectionList cut interpol d (Spec.oneCross (Spec.crossKey (.par c)) s) =
        .ok [⟨.par c, Spec.defaultOption cut d (.par c),
          decide (Spec.crossKey (.par c) ∈ ["brems", "compton", "epair", "ioniz", "mupair", "photo"]),
          interpol && decide (Spec.crossKey (.par c) ∉ ["photoeffect", "photoproduction"]), 1⟩] := by
      intro h1
      have hk : Spec.crossKey (.par c) = "ioniz" ∧ Spec.defaultOption cut d (.par c) = .cuts cut := by
        simp only [ionizClasses, List.mem_cons, List.not_mem_nil, or_false] at h1
        rcases h1 with rfl | rfl | rfl <;> exact ⟨rfl, rfl⟩
      rw [hk.1, hk.2]
      have e : (⟨.par c, .cuts cut, decide ("ioniz" ∈ ["brems", "compton", "epair", "ioniz", "mupair", "photo"]),
          interpol && decide ("ioniz" ∉ ["photoeffect", "photoproduction"]), 1⟩ : CrossSpec) = ⟨.par c, .cuts cut, true, interpol, 1⟩ := by simp
      rw [e]
      exact oneCross_read _ _ _ _ _ _ (Or.inr (Or.inr (Or.inr (Or.inr (Or.inl ⟨rfl, makeIoniz_name h1 hs hsame⟩)))))
    have real : c ∈ photoRealClasses → createCrossSectionList cut interpol d (Spec.oneCross (Spec.crossKey (.par c)) s) =
        .ok [⟨.par c, Spec.defaultOption cut d (.par c),
          decide (Spec.crossKey (.par c) ∈ ["brems", "compton", "epair", "ioniz", "mupair", "photo"]),
          interpol && decide (Spec.crossKey (.par c) ∉ ["photoeffect", "photoproduction"]), 1⟩] := by
      intro h1
      have hk : Spec.crossKey (.par c) = "photo" ∧ Spec.defaultOption cut d (.par c) = .hard true := by
        simp only [photoRealClasses, List.mem_cons, List.not_mem_nil, or_false] at h1
        rcases h1 with rfl | rfl | rfl | rfl <;> exact ⟨rfl, rfl⟩
      rw [hk.1, hk.2]
      have e : (⟨.par c, .hard true, decide ("photo" ∈ ["brems", "compton", "epair", "ioniz", "mupair", "photo"]),
          interpol && decide ("photo" ∉ ["photoeffect", "photoproduction"]), 1⟩ : CrossSpec) = ⟨.par c, .hard true, true, interpol, 1⟩ := by simp
      rw [e]
      exact oneCross_read _ _ _ _ _ _ (Or.inr (Or.inr (Or.inr (Or.inr (Or.inr (Or.inr (Or.inl ⟨rfl, makePhoto_name_real h1 hs hsame⟩)))))))
    have q2 : c ∈ photoQ2Classes → createCrossSectionList cut interpol d (Spec.oneCross (Spec.crossKey (.par c)) s) =
        .ok [⟨.par c, Spec.defaultOption cut d (.par c),
          decide (Spec.crossKey (.par c) ∈ ["brems", "compton", "epair", "ioniz", "mupair", "photo"]),
          interpol && decide (Spec.crossKey (.par c) ∉ ["photoeffect", "photoproduction"]), 1⟩] := by
      intro h1
      have hk : Spec.crossKey (.par c) = "photo" ∧ Spec.defaultOption cut d (.par c) = .shadow "butkevichmikheyev" := by
        simp only [photoQ2Classes, List.mem_cons, List.not_mem_nil, or_false] at h1
        rcases h1 with rfl | rfl | rfl | rfl | rfl | rfl <;> exact ⟨rfl, rfl⟩
      rw [hk.1, hk.2]
      have e : (⟨.par c, .shadow "butkevichmikheyev", decide ("photo" ∈ ["brems", "compton", "epair", "ioniz", "mupair", "photo"]),
          interpol && decide ("photo" ∉ ["photoeffect", "photoproduction"]), 1⟩ : CrossSpec) = ⟨.par c, .shadow "butkevichmikheyev", true, interpol, 1⟩ := by simp
      rw [e]
      exact oneCross_read _ _ _ _ _ _ (Or.inr (Or.inr (Or.inr (Or.inr (Or.inr (Or.inr (Or.inl ⟨rfl, makePhoto_name_q2 h1 hs hsame⟩)))))))
    have pair : c ∈ photoPairClasses → createCrossSectionList cut interpol d (Spec.oneCross (Spec.crossKey (.par c)) s) =
        .ok [⟨.par c, Spec.defaultOption cut d (.par c),
          decide (Spec.crossKey (.par c) ∈ ["brems", "compton", "epair", "ioniz", "mupair", "photo"]),
          interpol && decide (Spec.crossKey (.par c) ∉ ["photoeffect", "photoproduction"]), 1⟩] := by
      intro h1
      have hk : Spec.crossKey (.par c) = "photopair" ∧ Spec.defaultOption cut d (.par c) = .pairLpm d := by
        simp only [photoPairClasses, List.mem_cons, List.not_mem_nil, or_false] at h1
        rcases h1 with rfl | rfl <;> exact ⟨rfl, rfl⟩
      rw [hk.1, hk.2]
      have e : (⟨.par c, .pairLpm d, decide ("photopair" ∈ ["brems", "compton", "epair", "ioniz", "mupair", "photo"]),
          interpol && decide ("photopair" ∉ ["photoeffect", "photoproduction"]), 1⟩ : CrossSpec) = ⟨.par c, .pairLpm d, false, interpol, 1⟩ := by simp
      rw [e]
      exact oneCross_read _ _ _ _ _ _ (Or.inr (Or.inr (Or.inr (Or.inr (Or.inr (Or.inr (Or.inr (Or.inr (Or.inr (Or.inr (Or.inl ⟨rfl, makePhotoPair_name h1 hs hsame⟩)))))))))))
    have hall : c ∈ bremsClasses ∨ c ∈ epairClasses ∨ c ∈ ionizClasses ∨ c ∈ photoRealClasses ∨ c ∈ photoQ2Classes ∨ c ∈ photoPairClasses ∨
        c = .comptonKleinNishina ∨ c = .mupairKelnerKokoulinPetrukhin ∨ c = .photoMuPairBurkhardtKelnerKokoulin ∨
        c = .weakCooperSarkarMertsch := by
      cases c <;> decide
    rcases hall with h | h | h | h | h | h | rfl | rfl | rfl | rfl
    · exact brems h
    · exact epair h
    · exact ioniz h
    · exact real h
    · exact q2 h
    · exact pair h
    · refine oneCross_read _ _ _ _ _ _ (Or.inr (Or.inr (Or.inl ⟨rfl, ?_⟩)))
      exact (makePlain_name (e := ("KleinNishina", .par .comptonKleinNishina)) (by simp) hs hsame (by unfold Spec.Ascii; decide +kernel)
        (by decide +kernel)).trans (by simp [Spec.crossKey, Spec.defaultOption, ParClass.id])
    · refine oneCross_read _ _ _ _ _ _ (Or.inr (Or.inr (Or.inr (Or.inr (Or.inr (Or.inl ⟨rfl, ?_⟩))))))
      exact (makePlain_name (e := ("KelnerKokoulinPetrukhin", .par .mupairKelnerKokoulinPetrukhin)) (by simp) hs hsame
        (by unfold Spec.Ascii; decide +kernel) (by decide +kernel)).trans (by simp [Spec.crossKey, Spec.defaultOption, ParClass.id])
    · refine oneCross_read _ _ _ _ _ _ (Or.inr (Or.inr (Or.inr (Or.inr (Or.inr (Or.inr (Or.inr (Or.inr (Or.inl ⟨rfl, ?_⟩)))))))))
      exact (makePlain_name (e := ("BurkhardtKelnerKokoulin", .par .photoMuPairBurkhardtKelnerKokoulin)) (by simp) hs hsame
        (by unfold Spec.Ascii; decide +kernel) (by decide +kernel)).trans (by simp [Spec.crossKey, Spec.defaultOption, ParClass.id])
    · refine oneCross_read _ _ _ _ _ _ (Or.inr (Or.inr (Or.inr (Or.inr (Or.inr (Or.inr (Or.inr (Or.inr (Or.inr (Or.inr (Or.inr
        ⟨rfl, ?_⟩)))))))))))
      exact (makePlain_name (e := ("CooperSarkarMertsch", .par .weakCooperSarkarMertsch)) (by simp) hs hsame
        (by unfold Spec.Ascii; decide +kernel) (by decide +kernel)).trans (by simp [Spec.crossKey, Spec.defaultOption, ParClass.id])

/-- A name that belongs to no parametrization of the interaction is refused. -/
theorem C132_unknown_name (cut : Option ℝ × ℝ) (interpol : Bool) (d : ℝ) (key s : String) (l : List CrossSpec) (hs : Spec.Ascii (bytes s))
    (hkey : key ∈ Spec.crossKeys)
    (h : ∀ c, Spec.configurable c → Spec.crossKey c = key → ¬ Spec.SameUpToCase (bytes (Spec.crossName c)) (bytes s)) :
    createCrossSectionList cut interpol d (Spec.oneCross key s) ≠ .ok l := by
  intro hl
  obtain ⟨h1, h2⟩ := C132_cross_list cut interpol d _ l hl
  have hfil : key ∈ l.map fun c => Spec.crossKey c.cls := by
    rw [h1, List.mem_filter]
    exact ⟨hkey, by simp [Spec.oneCross, Json.contains]⟩
  obtain ⟨c, hc, hck⟩ := List.mem_map.mp hfil
  obtain ⟨f, e, hf, he, hE⟩ := h2 c hc
  have hfe : e = nameEntry s := by
    simp only [Spec.oneCross, Json.obj.injEq] at hf
    rw [← hf, hck] at he
    simp only [if_true, Option.some.injEq] at he
    exact he.symm
  obtain ⟨g, hg, ⟨n, hn, hname⟩, -⟩ := hE.fields
  have hgn : n = s := by
    rw [hfe] at hg
    simp only [nameEntry, Json.obj.injEq] at hg
    rw [← hg] at hn
    simp only [if_true, Option.some.injEq, Json.str.injEq] at hn
    exact hn.symm
  rw [hgn] at hname
  exact h c.cls hE.configurable hck (hname hs)

/-- A misspelt key: bremsstrahlung is missing in the list. -/
example (cut : Option ℝ × ℝ) (d : ℝ) :
    createCrossSectionList cut true d (Spec.oneCross "bremsstrahlung" "ElectronScreening") = .ok [] := by
  rw [show Spec.oneCross "bremsstrahlung" "ElectronScreening" = .obj _ from rfl,
    C132_unknown_keys cut true d _ (fun _ => none) (by decide)]
  unfold createCrossSectionList
  simp only [addCross_none, ok_bind]

/-- A name in other letters. -/
example (cut : Option ℝ × ℝ) (d : ℝ) : createCrossSectionList cut true d (Spec.oneCross "photo" "ABTFT") =
    .ok [⟨.par .photoAbtFT, .shadow "butkevichmikheyev", true, true, 1⟩] := by
  have := C132_reachable cut true d (.par .photoAbtFT) trivial "ABTFT" (by unfold Spec.Ascii; decide +kernel)
    (by rw [sameUpToCase_iff]; decide +kernel)
  simpa [Spec.crossKey, Spec.defaultOption, ParClass.id] using this

end Proposal
