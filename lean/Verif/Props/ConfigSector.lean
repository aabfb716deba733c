import Verif.Props.ConfigReach

/-!
# C132: sectors from a configuration
-/

namespace Proposal

section
variable {Geo Dens : Type} (P : ConfigParts Geo Dens)

/-- The cuts as they enter the choice of the cross sections: the energy, or `none` where it is infinite, and the relative cut. -/
noncomputable def Spec.cutNumbers (c : Cut) : Option ℝ × ℝ :=
  (match c.ecut with | .fin x => some x | _ => none,
    match c.vcut with | .fin x => x | _ => 0)

/-- The settings that hold for a sector: what is said in the sector comes first, then what is said for all sectors. `u` is the propagation
utility and `dens` the configuration of the density. -/
structure Spec.SectorSettings (type : ℤ) (lifetime : Option ℝ) (f : String → Option Json) (g : GlobalSettings) (u : UtilitySpec) (dens : Json) :
    Prop where
  interpolation : Spec.boolOption f "do_interpolation" g.interpolation u.interpolation
  exactTime : Spec.boolOption f "exact_time" g.exactTime u.exactTime
  medium : (∃ n, f "medium" = some (.str n) ∧ createMedium (bytes n) = some u.medium) ∨ (f "medium" = none ∧ g.medium = some u.medium)
  cuts : (∃ c, f "cuts" = some c ∧ P.cut c = .ok u.cuts) ∨ (f "cuts" = none ∧ g.cuts = some u.cuts)
  density : f "density_distribution" = some dens ∨ (f "density_distribution" = none ∧ ∃ h, dens = .obj h ∧
    h "type" = some (.str "homogeneous") ∧ h "mass_density" = some (.num (P.massDensity u.medium)) ∧
    ∀ k, k ≠ "type" → k ≠ "mass_density" → h k = none)
  scattering : ∃ s, (f "scattering" = some s ∨ (f "scattering" = none ∧ s = g.scattering)) ∧
    ((s.isEmpty = true ∧ u.scattering = none) ∨ (s.isEmpty = false ∧ u.scattering = some s ∧ P.scattering s = .ok ()))
  cross : ∃ cc, (f "CrossSections" = some cc ∨ (f "CrossSections" = none ∧ cc = g.cross)) ∧
    ((cc.isEmpty = true ∧ stdCrossSections type (Spec.cutNumbers u.cuts) u.interpolation = some u.crosss) ∨
      (cc.isEmpty = false ∧ ∃ h ρ, dens = .obj h ∧
        ((∃ v, h "mass_density" = some v ∧ v.toDouble = .ok ρ) ∨ (h "mass_density" = none ∧ ρ = P.massDensity u.medium)) ∧
        createCrossSectionList (Spec.cutNumbers u.cuts) u.interpolation (ρ / P.massDensity u.medium) cc = .ok u.crosss))
  some_cross : u.crosss ≠ []
  decay : u.decay = true ↔ lifetime ≠ none
  contRand : u.contRand = u.cuts.contRand
  contRand_cuts : u.contRand = true → ∃ c ∈ u.crosss, c.cuts = true

/-- The sectors of an entry: one for each geometry, in the order of the geometries; they share the utility. -/
def Spec.SectorsOf (type : ℤ) (lifetime : Option ℝ) (g : GlobalSettings) (j : Json) (ss : List (CfgSector Geo Dens)) : Prop :=
  ∃ f gs u dens, j = .obj f ∧ f "geometries" = some (.arr gs) ∧ Spec.SectorSettings P type lifetime f g u dens ∧
    List.Forall₂ (fun gj s => P.geometry gj = .ok s.geometry ∧ P.density dens = .ok s.density ∧ s.utility = u) gs ss

theorem mapM_ok {ε α β : Type} {f : α → Except ε β} {l : List α} {r : List β} :
    l.mapM f = .ok r ↔ List.Forall₂ (fun a b => f a = .ok b) l r := by
  induction l generalizing r with
  | nil =>
    rw [List.mapM_nil, List.forall₂_nil_left_iff]
    constructor
    · intro h; exact (Except.ok.inj h).symm
    · intro h; rw [h]; rfl
  | cons a l ih =>
    rw [List.mapM_cons, bind_ok, List.forall₂_cons_left_iff]
    constructor
    · rintro ⟨b, hb, h⟩
      rw [bind_ok] at h
      obtain ⟨r', hr', h⟩ := h
      exact ⟨b, r', hb, ih.mp hr', (Except.ok.inj h).symm⟩
    · rintro ⟨b, r', hb, hr', rfl⟩
      refine ⟨b, hb, ?_⟩
      rw [bind_ok]
      exact ⟨r', ih.mpr hr', rfl⟩

theorem valueJ_ok {j : Json} {k : String} {d r : Json} :
    valueJ j k d = .ok r ↔ ∃ f, j = .obj f ∧ (f k = some r ∨ (f k = none ∧ r = d)) := by
  cases j with
  | obj f =>
    simp only [valueJ, Except.ok.injEq, Json.obj.injEq]
    constructor
    · intro h
      refine ⟨f, rfl, ?_⟩
      cases hf : f k with
      | none => rw [hf] at h; exact Or.inr ⟨rfl, h.symm⟩
      | some v => rw [hf] at h; left; simpa using h
    · rintro ⟨_, rfl, h | ⟨h, rfl⟩⟩
      · rw [h]; rfl
      · rw [h]; rfl
  | _ => simp [valueJ]

theorem valueB_iff {f : String → Option Json} {k : String} {d b : Bool} : valueB (.obj f) k d = .ok b ↔ Spec.boolOption f k d b := by
  refine ⟨valueB_ok, ?_⟩
  rintro (h | ⟨h, rfl⟩) <;> simp [valueB, h]

theorem get_ok {f : String → Option Json} {k : String} {r : Json} : cfgThrown ((Json.obj f).get k) = .ok r ↔ f k = some r := by
  rw [cfgThrown_ok]
  cases h : f k <;> simp [Json.get, h]

theorem throw_ne {α : Type} {e : CfgErr} {a : α} : (throw e : Except CfgErr α) = .ok a ↔ False := by
  simp [throw, throwThe, MonadExceptOf.throw]

theorem pure_ok {α : Type} {a b : α} : (pure a : Except CfgErr α) = .ok b ↔ b = a := by
  constructor
  · intro h; exact (Except.ok.inj h).symm
  · intro h; rw [h]; rfl

theorem cfgMedium_ok {j : Json} {m : MediumClass} : cfgMedium j = .ok m ↔ ∃ n, j = .str n ∧ createMedium (bytes n) = some m := by
  unfold cfgMedium
  rw [bind_ok]
  constructor
  · rintro ⟨n, h1, h2⟩
    rw [cfgThrown_ok] at h1
    refine ⟨n, ?_, ?_⟩
    · cases j <;> simp [Json.toStr] at h1
      rw [h1]
    · cases hm : createMedium (bytes n) with
      | none => rw [hm] at h2; exact absurd h2 (by simp [throw_ne])
      | some m' => rw [hm] at h2; rw [pure_ok.mp h2]
  · rintro ⟨n, rfl, h⟩
    refine ⟨n, by simp [Json.toStr, cfgThrown], ?_⟩
    rw [h]; rfl

theorem boolOption_none {f : String → Option Json} {k : String} : f k = none ↔ (Json.obj f).contains k = false := by
  simp [Json.contains]

theorem guard_ok {ε β : Type} {c : Prop} [Decidable c] {x : Except ε Unit} {k : Unit → Except ε β} {b : β} :
    (if c then x >>= k else k ()) = .ok b ↔ (c → x = .ok ()) ∧ k () = .ok b := by
  by_cases hc : c
  · rw [if_pos hc, bind_ok]
    constructor
    · rintro ⟨⟨⟩, h1, h2⟩; exact ⟨fun _ => h1, h2⟩
    · rintro ⟨h1, h2⟩; exact ⟨(), h1 hc, h2⟩
  · rw [if_neg hc]
    exact ⟨fun h => ⟨fun h' => absurd h' hc, h⟩, fun h => h.2⟩

theorem createUtility_ok {lifetime : Option ℝ} {crosss : List CrossSpec} {medium : MediumClass} {cuts : Cut} {i t : Bool} {s : Json}
    {u : UtilitySpec} : createUtility P lifetime crosss medium cuts i t s = .ok u ↔
      crosss ≠ [] ∧ (s.isEmpty = false → P.scattering s = .ok ()) ∧ (cuts.contRand = true → ∃ c ∈ crosss, c.cuts = true) ∧
      u = ⟨crosss, medium, cuts, i, t, if s.isEmpty then none else some s, lifetime.isSome, cuts.contRand⟩ := by
  unfold createUtility
  simp only [guard_ok, throw_ne, pure_ok, imp_false]
  simp only [List.isEmpty_iff, Bool.not_eq_true', Bool.and_eq_true, List.any_eq_false, not_and, not_forall, Bool.not_eq_true,
    Bool.not_eq_false, exists_prop, ne_eq]

theorem sectorDensity_ok {ρ : ℝ} {f : String → Option Json} {dens : Json} :
    sectorDensity ρ (.obj f) = .ok dens ↔ f "density_distribution" = some dens ∨ (f "density_distribution" = none ∧ dens =
      .obj fun k => if k = "type" then some (.str "homogeneous") else if k = "mass_density" then some (.num ρ) else none) := by
  unfold sectorDensity
  cases h : f "density_distribution" with
  | none => simp [Json.contains, h, eq_comm]
  | some d => simp [Json.contains, h, Json.get, cfgThrown]

theorem sectorMedium_ok {g : Option MediumClass} {f : String → Option Json} {m : MediumClass} :
    sectorMedium g (.obj f) = .ok m ↔ (∃ n, f "medium" = some (.str n) ∧ createMedium (bytes n) = some m) ∨ (f "medium" = none ∧ g = some m) := by
  unfold sectorMedium
  cases h : f "medium" with
  | none =>
    rw [if_neg (by simp [Json.contains, h])]
    cases g with
    | none => simp [throw_ne]
    | some m' => simp only [pure_ok]; simp [eq_comm]
  | some v =>
    rw [if_pos (by simp [Json.contains, h]), bind_ok]
    simp only [get_ok, h, Option.some.injEq, cfgMedium_ok, reduceCtorEq, false_and, or_false]
    constructor
    · rintro ⟨_, rfl, h⟩; exact h
    · intro h; exact ⟨v, rfl, h⟩

theorem sectorCuts_ok {g : Option Cut} {f : String → Option Json} {c : Cut} :
    sectorCuts P g (.obj f) = .ok c ↔ (∃ v, f "cuts" = some v ∧ P.cut v = .ok c) ∨ (f "cuts" = none ∧ g = some c) := by
  unfold sectorCuts
  cases h : f "cuts" with
  | none =>
    rw [if_neg (by simp [Json.contains, h])]
    cases g with
    | none => simp [throw_ne]
    | some m' => simp only [pure_ok]; simp [eq_comm]
  | some v =>
    rw [if_pos (by simp [Json.contains, h]), bind_ok]
    simp only [get_ok, h, reduceCtorEq, false_and, or_false]

theorem toDouble_obj {h : Json} {k : String} {d r : ℝ} :
    cfgThrown (h.valueD k d) = .ok r ↔ ∃ f, h = .obj f ∧ ((∃ v, f k = some v ∧ v.toDouble = .ok r) ∨ (f k = none ∧ r = d)) := by
  rw [cfgThrown_ok]
  cases h with
  | obj f =>
    simp only [Json.obj.injEq, exists_eq_left']
    cases hf : f k with
    | none => simp [Json.valueD, hf, eq_comm]
    | some v => simp [Json.valueD, hf]
  | _ => simp [Json.valueD]

theorem cutPair_numbers (c : Cut) : cutPair c = Spec.cutNumbers c := by
  unfold cutPair Spec.cutNumbers
  cases c.ecut <;> cases c.vcut <;> rfl

theorem sectorCross_ok {type : ℤ} {cuts : Cut} {i : Bool} {ρ₀ : ℝ} {dens cc : Json} {l : List CrossSpec} :
    sectorCross type cuts i ρ₀ dens cc = .ok l ↔
      (cc.isEmpty = true ∧ stdCrossSections type (Spec.cutNumbers cuts) i = some l) ∨
      (cc.isEmpty = false ∧ ∃ h ρ, dens = .obj h ∧ ((∃ v, h "mass_density" = some v ∧ v.toDouble = .ok ρ) ∨ (h "mass_density" = none ∧ ρ = ρ₀)) ∧
        createCrossSectionList (Spec.cutNumbers cuts) i (ρ / ρ₀) cc = .ok l) := by
  rw [← cutPair_numbers]
  unfold sectorCross
  cases h : cc.isEmpty with
  | true =>
    rw [if_neg (by simp)]
    cases stdCrossSections type (cutPair cuts) i with
    | none => simp [throw_ne]
    | some m' => simp only [pure_ok]; simp [eq_comm]
  | false =>
    rw [if_pos (by simp), bind_ok]
    simp only [toDouble_obj, Bool.false_eq_true, false_and, false_or, true_and]
    constructor
    · rintro ⟨ρ, ⟨h, h1, h2⟩, h3⟩; exact ⟨h, ρ, h1, h2, h3⟩
    · rintro ⟨h, ρ, h1, h2, h3⟩; exact ⟨ρ, ⟨h, h1, h2⟩, h3⟩

theorem elements_ok {j : Json} {l : List Json} : j.elements = .ok l ↔ j = .arr l := by
  cases j <;> simp [Json.elements]

theorem sectorGeometries_ok {u : UtilitySpec} {dens : Json} {f : String → Option Json} {ss : List (CfgSector Geo Dens)} :
    sectorGeometries P u dens (.obj f) = .ok ss ↔ ∃ gs, f "geometries" = some (.arr gs) ∧
      List.Forall₂ (fun gj s => P.geometry gj = .ok s.geometry ∧ P.density dens = .ok s.density ∧ s.utility = u) gs ss := by
  unfold sectorGeometries
  cases h : f "geometries" with
  | none =>
    rw [if_neg (by simp [Json.contains, h])]
    simp [throw_ne]
  | some v =>
    rw [if_pos (by simp [Json.contains, h]), bind_ok]
    simp only [bind_ok, get_ok, h, Option.some.injEq, elements_ok, mapM_ok, pure_ok]
    constructor
    · rintro ⟨_, rfl, gs, rfl, hf⟩
      refine ⟨gs, rfl, hf.imp ?_⟩
      rintro a s ⟨geo, h1, d, h2, rfl⟩
      exact ⟨h1, h2, rfl⟩
    · rintro ⟨gs, rfl, hf⟩
      refine ⟨_, rfl, gs, rfl, hf.imp ?_⟩
      rintro a s ⟨h1, h2, h3⟩
      exact ⟨s.geometry, h1, s.density, h2, by rw [← h3]⟩

/-- An entry of the configuration gives exactly the sectors that it describes: one for each geometry, in the order of the geometries, all
with the utility and the density of the settings of the sector, or with those for all sectors where the sector says nothing. All other
entries are refused. -/
theorem C132_sector (type : ℤ) (lifetime : Option ℝ) (j : Json) (g : GlobalSettings) (ss : List (CfgSector Geo Dens)) :
    sectorsOfJson P type lifetime j g = .ok ss ↔ Spec.SectorsOf P type lifetime g j ss := by
  have hj : sectorsOfJson P type lifetime j g = .ok ss → ∃ f, j = .obj f := by
    intro h
    unfold sectorsOfJson at h
    rw [bind_ok] at h
    obtain ⟨_, h, _⟩ := h
    cases j with
    | obj f => exact ⟨f, rfl⟩
    | _ => simp [valueB] at h
  constructor
  · intro h
    obtain ⟨f, rfl⟩ := hj h
    unfold sectorsOfJson at h
    simp only [bind_ok, valueB_iff, valueJ_ok, sectorMedium_ok, sectorCuts_ok, sectorDensity_ok, sectorCross_ok, createUtility_ok,
      sectorGeometries_ok] at h
    obtain ⟨i, hi, t, ht, sc, ⟨f', hf', hsc⟩, m, hm, c, hc, d, hd, cc, ⟨f'', hf'', hcc⟩, l, hl, u, ⟨hu1, hu2, hu3, rfl⟩, gs, hgs, hss⟩ := h
    rw [Json.obj.injEq] at hf' hf''
    subst hf' hf''
    refine ⟨f, gs, _, d, rfl, hgs, ⟨hi, ht, hm, hc, ?_, ⟨sc, hsc, ?_⟩, ⟨cc, hcc, hl⟩, hu1, ?_, rfl, hu3⟩, hss⟩
    · rcases hd with hd | ⟨hd, rfl⟩
      · exact Or.inl hd
      · refine Or.inr ⟨hd, _, rfl, by simp, by simp, fun k h1 h2 => by simp [h1, h2]⟩
    · cases he : sc.isEmpty with
      | true => simp
      | false => simp only [Bool.false_eq_true, false_and, if_false, true_and, false_or]; exact hu2 he
    · simp [Option.isSome_iff_ne_none]
  · rintro ⟨f, gs, u, d, rfl, hgs, h, hss⟩
    unfold sectorsOfJson
    simp only [bind_ok, valueB_iff, valueJ_ok, sectorMedium_ok, sectorCuts_ok, sectorDensity_ok, sectorCross_ok, createUtility_ok,
      sectorGeometries_ok]
    obtain ⟨sc, hsc, hsc'⟩ := h.scattering
    obtain ⟨cc, hcc, hcc'⟩ := h.cross
    refine ⟨u.interpolation, h.interpolation, u.exactTime, h.exactTime, sc, ⟨f, rfl, hsc⟩, u.medium, h.medium, u.cuts, h.cuts, d, ?_, cc,
      ⟨f, rfl, hcc⟩, u.crosss, hcc', u, ⟨h.some_cross, ?_, ?_, ?_⟩, gs, hgs, hss⟩
    · rcases h.density with hd | ⟨hd, h', rfl, h1, h2, h3⟩
      · exact Or.inl hd
      · refine Or.inr ⟨hd, ?_⟩
        rw [Json.obj.injEq]
        funext k
        by_cases hk : k = "type"
        · rw [if_pos hk, hk, h1]
        · by_cases hk' : k = "mass_density"
          · rw [if_neg hk, if_pos hk', hk', h2]
          · rw [if_neg hk, if_neg hk', h3 k hk hk']
    · intro he
      rcases hsc' with ⟨h1, -⟩ | ⟨-, -, h1⟩
      · rw [he] at h1; simp at h1
      · exact h1
    · rw [← h.contRand]; exact h.contRand_cuts
    · have h1 : u.scattering = if sc.isEmpty = true then none else some sc := by
        rcases hsc' with ⟨h1, h2⟩ | ⟨h1, h2, -⟩ <;> simp [h1, h2]
      have h2 : u.decay = lifetime.isSome := by
        rw [Bool.eq_iff_iff, h.decay, Option.isSome_iff_ne_none]
      rw [← h1, ← h2, ← h.contRand]

/-- The settings for all sectors. -/
structure Spec.GlobalOf (f : String → Option Json) (g : GlobalSettings) : Prop where
  medium : (∃ n m, f "medium" = some (.str n) ∧ createMedium (bytes n) = some m ∧ g.medium = some m) ∨ (f "medium" = none ∧ g.medium = none)
  cuts : (∃ j c, f "cuts" = some j ∧ P.cut j = .ok c ∧ g.cuts = some c) ∨ (f "cuts" = none ∧ g.cuts = none)
  cross : f "CrossSections" = some g.cross ∨ (f "CrossSections" = none ∧ g.cross = .null)
  scattering : f "scattering" = some g.scattering ∨ (f "scattering" = none ∧ g.scattering = .null)
  exactTime : Spec.boolOption f "exact_time" true g.exactTime
  interpolation : Spec.boolOption f "do_interpolation" true g.interpolation

/-- The sectors of a configuration: those of the entries, one after the other. -/
def Spec.PropagatorOf (type : ℤ) (lifetime : Option ℝ) (config : Json) (ss : List (CfgSector Geo Dens)) : Prop :=
  ∃ f g js parts, config = .obj f ∧ ((∃ h, f "global" = some (.obj h) ∧ Spec.GlobalOf P h g) ∨ (f "global" = none ∧ Spec.GlobalOf P (fun _ => none) g)) ∧
    f "sectors" = some (.arr js) ∧ List.Forall₂ (Spec.SectorsOf P type lifetime g) js parts ∧ ss = parts.flatten

theorem readIf_ok {α : Type} {f : String → Option Json} {k : String} {make : Json → Except CfgErr α} {d a : α} :
    readIf (.obj f) k make d = .ok a ↔ (∃ v, f k = some v ∧ make v = .ok a) ∨ (f k = none ∧ a = d) := by
  unfold readIf
  cases h : f k with
  | none =>
    rw [if_neg (by simp [Json.contains, h]), pure_ok]
    simp
  | some v =>
    rw [if_pos (by simp [Json.contains, h]), bind_ok]
    simp only [get_ok, h, reduceCtorEq, false_and, or_false]

theorem map_some_ok {α : Type} {x : Except CfgErr α} {o : Option α} : x.map some = .ok o ↔ ∃ a, x = .ok a ∧ o = some a := by
  cases x <;> simp [Except.map, eq_comm]

theorem globalOfJson_ok {f : String → Option Json} {g : GlobalSettings} : globalOfJson P (.obj f) = .ok g ↔ Spec.GlobalOf P f g := by
  unfold globalOfJson
  simp only [bind_ok, readIf_ok, valueB_iff, map_some_ok, cfgMedium_ok, pure_ok]
  constructor
  · rintro ⟨m, hm, cc, hcc, c, hc, s, hs, t, ht, i, hi, rfl⟩
    refine ⟨?_, ?_, ?_, ?_, ht, hi⟩
    · rcases hm with ⟨v, hv, a, ⟨n, rfl, hn⟩, rfl⟩ | h
      · exact Or.inl ⟨n, a, hv, hn, rfl⟩
      · exact Or.inr h
    · rcases hc with ⟨v, hv, a, hn, rfl⟩ | h
      · exact Or.inl ⟨v, a, hv, hn, rfl⟩
      · exact Or.inr h
    · rcases hcc with ⟨v, hv, rfl⟩ | h
      · exact Or.inl hv
      · exact Or.inr h
    · rcases hs with ⟨v, hv, rfl⟩ | h
      · exact Or.inl hv
      · exact Or.inr h
  · intro h
    refine ⟨g.medium, ?_, g.cross, ?_, g.cuts, ?_, g.scattering, ?_, g.exactTime, h.exactTime, g.interpolation, h.interpolation, rfl⟩
    · rcases h.medium with ⟨n, m, h1, h2, h3⟩ | h
      · exact Or.inl ⟨_, h1, m, ⟨n, rfl, h2⟩, h3⟩
      · exact Or.inr h
    · rcases h.cross with h | h
      · exact Or.inl ⟨_, h, rfl⟩
      · exact Or.inr h
    · rcases h.cuts with ⟨j, c, h1, h2, h3⟩ | h
      · exact Or.inl ⟨_, h1, c, h2, h3⟩
      · exact Or.inr h
    · rcases h.scattering with h | h
      · exact Or.inl ⟨_, h, rfl⟩
      · exact Or.inr h

theorem sectorLoop_ok {type : ℤ} {lifetime : Option ℝ} {g : GlobalSettings} {js : List Json} {ss : List (CfgSector Geo Dens)} :
    sectorLoop P type lifetime g js = .ok ss ↔ ∃ parts, List.Forall₂ (Spec.SectorsOf P type lifetime g) js parts ∧ ss = parts.flatten := by
  induction js generalizing ss with
  | nil =>
    simp only [sectorLoop, pure_ok, List.forall₂_nil_left_iff, exists_eq_left, List.flatten_nil]
  | cons j js ih =>
    simp only [sectorLoop, bind_ok, pure_ok, C132_sector, ih, List.forall₂_cons_left_iff]
    constructor
    · rintro ⟨s, hs, _, ⟨parts, hp, rfl⟩, rfl⟩
      exact ⟨s :: parts, ⟨s, parts, hs, hp, rfl⟩, rfl⟩
    · rintro ⟨_, ⟨s, parts, hs, hp, rfl⟩, rfl⟩
      exact ⟨s, hs, _, ⟨parts, hp, rfl⟩, rfl⟩

theorem globalOfJson_obj {j : Json} {g : GlobalSettings} (h : globalOfJson P j = .ok g) : ∃ f, j = .obj f := by
  cases j with
  | obj f => exact ⟨f, rfl⟩
  | _ =>
    exfalso
    unfold globalOfJson at h
    simp only [bind_ok] at h
    obtain ⟨_, _, _, _, _, _, _, _, _, h, _⟩ := h
    simp [valueB] at h

/-- A configuration gives exactly the sectors that it describes, in the order of the entries, and is refused otherwise. -/
theorem C132_propagator (type : ℤ) (lifetime : Option ℝ) (config : Json) (ss : List (CfgSector Geo Dens)) :
    propagatorOfJson P type lifetime config = .ok ss ↔ Spec.PropagatorOf P type lifetime config ss := by
  have hdef : ∀ g, g = globalDefault ↔ Spec.GlobalOf P (fun _ => none) g := by
    intro g
    constructor
    · rintro rfl
      exact ⟨Or.inr ⟨rfl, rfl⟩, Or.inr ⟨rfl, rfl⟩, Or.inr ⟨rfl, rfl⟩, Or.inr ⟨rfl, rfl⟩, Or.inr ⟨rfl, rfl⟩, Or.inr ⟨rfl, rfl⟩⟩
    · intro h
      have h1 := h.medium
      have h2 := h.cuts
      have h3 := h.cross
      have h4 := h.scattering
      have h5 := h.exactTime
      have h6 := h.interpolation
      unfold Spec.boolOption at h5 h6
      simp only [reduceCtorEq, false_and, exists_false, false_or, true_and] at h1 h2 h3 h4 h5 h6
      cases g
      simp only at h1 h2 h3 h4 h5 h6
      subst h1 h2 h3 h4 h5 h6
      rfl
  cases config with
  | obj f =>
    unfold propagatorOfJson Spec.PropagatorOf
    simp only [bind_ok, readIf_ok, Json.obj.injEq]
    cases hs : f "sectors" with
    | none =>
      have hc : (Json.obj f).contains "sectors" = false := by simp [Json.contains, hs]
      simp only [hc, Bool.false_eq_true, if_false, throw_ne, and_false, exists_false, false_iff]
      rintro ⟨_, _, _, _, rfl, -, h, -⟩
      rw [hs] at h; simp at h
    | some v =>
      have hc : (Json.obj f).contains "sectors" = true := by simp [Json.contains, hs]
      simp only [hc, if_true, bind_ok, get_ok, hs, Option.some.injEq, elements_ok, sectorLoop_ok]
      constructor
      · rintro ⟨g, hg, _, rfl, js, rfl, parts, hp, rfl⟩
        refine ⟨f, g, js, parts, rfl, ?_, hs, hp, rfl⟩
        rcases hg with ⟨v, hv, hg⟩ | ⟨hv, hg⟩
        · obtain ⟨h, rfl⟩ := globalOfJson_obj P hg
          exact Or.inl ⟨h, hv, (globalOfJson_ok P).mp hg⟩
        · exact Or.inr ⟨hv, (hdef g).mp hg⟩
      · rintro ⟨_, g, js, parts, rfl, hg, hs', hp, rfl⟩
        rw [hs, Option.some.injEq] at hs'
        refine ⟨g, ?_, v, rfl, js, hs', parts, hp, rfl⟩
        rcases hg with ⟨h, hv, hg⟩ | ⟨hv, hg⟩
        · exact Or.inl ⟨_, hv, (globalOfJson_ok P).mpr hg⟩
        · exact Or.inr ⟨hv, (hdef g).mpr hg⟩
  | _ =>
    unfold propagatorOfJson Spec.PropagatorOf
    simp only [bind_ok]
    constructor
    · rintro ⟨_, _, h⟩
      simp [Json.contains, throw_ne] at h
    · rintro ⟨_, _, _, _, h, -⟩
      simp at h

end

end Proposal
