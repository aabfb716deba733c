import Verif.Props.ConfigSector

/-!
# C132: what is missing in a configuration, and defaults
-/

namespace Proposal

section
variable {Geo Dens : Type} (P : ConfigParts Geo Dens)

/-- A sector without medium, cuts or geometries, where there are none for all sectors either, is refused. -/
theorem C132_missing_partial (type : ℤ) (lifetime : Option ℝ) (f : String → Option Json) (g : GlobalSettings) (ss : List (CfgSector Geo Dens))
    (h : (f "medium" = none ∧ g.medium = none) ∨ (f "cuts" = none ∧ g.cuts = none) ∨ f "geometries" = none) :
    sectorsOfJson P type lifetime (.obj f) g ≠ .ok ss := by
  intro hs
  obtain ⟨f', gs, u, dens, hf, hgs, hset, -⟩ := (C132_sector P type lifetime (.obj f) g ss).mp hs
  rw [Json.obj.injEq] at hf
  subst hf
  rcases h with ⟨h1, h2⟩ | ⟨h1, h2⟩ | h1
  · rcases hset.medium with ⟨n, hn, -⟩ | ⟨-, hn⟩
    · rw [h1] at hn; simp at hn
    · rw [h2] at hn; simp at hn
  · rcases hset.cuts with ⟨n, hn, -⟩ | ⟨-, hn⟩
    · rw [h1] at hn; simp at hn
    · rw [h2] at hn; simp at hn
  · rw [h1] at hgs; simp at hgs

/-- A configuration without `sectors` is refused. -/
theorem C132_no_sectors (type : ℤ) (lifetime : Option ℝ) (f : String → Option Json) (ss : List (CfgSector Geo Dens)) (h : f "sectors" = none) :
    propagatorOfJson P type lifetime (.obj f) ≠ .ok ss := by
  intro hs
  obtain ⟨f', g, js, parts, hf, -, hjs, -⟩ := (C132_propagator P type lifetime (.obj f) ss).mp hs
  rw [Json.obj.injEq] at hf
  subst hf
  rw [h] at hjs; simp at hjs

/-- Each sector has at least one cross section. With continuous randomization at least one of them has cuts. There is a decay exactly for
unstable particles. -/
theorem C132_utility (type : ℤ) (lifetime : Option ℝ) (config : Json) (ss : List (CfgSector Geo Dens)) (s : CfgSector Geo Dens)
    (h : propagatorOfJson P type lifetime config = .ok ss) (hs : s ∈ ss) :
    s.utility.crosss ≠ [] ∧ (s.utility.contRand = true → ∃ c ∈ s.utility.crosss, c.cuts = true) ∧
      (s.utility.decay = true ↔ lifetime ≠ none) ∧ s.utility.contRand = s.utility.cuts.contRand := by
  obtain ⟨f, g, js, parts, -, -, -, hp, rfl⟩ := (C132_propagator P type lifetime config ss).mp h
  rw [List.mem_flatten] at hs
  obtain ⟨part, hpart, hs⟩ := hs
  obtain ⟨j, -, hj⟩ : ∃ j ∈ js, Spec.SectorsOf P type lifetime g j part := by
    clear h hs
    induction hp with
    | nil => simp at hpart
    | cons h1 _ ih =>
      rcases List.mem_cons.mp hpart with rfl | hpart
      · exact ⟨_, by simp, h1⟩
      · obtain ⟨j, hj, hj'⟩ := ih hpart
        exact ⟨j, by simp [hj], hj'⟩
  obtain ⟨f', gs, u, dens, -, -, hset, hgs⟩ := hj
  have hu : s.utility = u := by
    clear hpart hp h
    induction hgs with
    | nil => simp at hs
    | cons h1 _ ih =>
      rcases List.mem_cons.mp hs with rfl | hs
      · exact h1.2.2
      · exact ih hs
  rw [hu]
  exact ⟨hset.some_cross, hset.contRand_cuts, hset.decay, hset.contRand⟩

/-- One geometry, one sector. -/
theorem C132_count (type : ℤ) (lifetime : Option ℝ) (f : String → Option Json) (g : GlobalSettings) (gs : List Json)
    (ss : List (CfgSector Geo Dens)) (hf : f "geometries" = some (.arr gs)) (h : sectorsOfJson P type lifetime (.obj f) g = .ok ss) :
    ss.length = gs.length := by
  obtain ⟨f', gs', u, dens, hf', hgs, -, hss⟩ := (C132_sector P type lifetime (.obj f) g ss).mp h
  rw [Json.obj.injEq] at hf'
  subst hf'
  rw [hf, Option.some.injEq, Json.arr.injEq] at hgs
  subst hgs
  exact hss.length_eq.symm

/-- An empty list of geometries is accepted although at least one geometry is demanded: the sector disappears. Whenever the sector is
accepted with some geometries, it is accepted without any. -/
theorem C132_empty_geometries (type : ℤ) (lifetime : Option ℝ) (f : String → Option Json) (g : GlobalSettings)
    (ss : List (CfgSector Geo Dens)) (h : sectorsOfJson P type lifetime (.obj f) g = .ok ss) :
    sectorsOfJson P type lifetime (.obj fun k => if k = "geometries" then some (.arr []) else f k) g = .ok [] := by
  rw [C132_sector] at h ⊢
  obtain ⟨f', gs, u, dens, hf, hgs, hset, -⟩ := h
  rw [Json.obj.injEq] at hf
  subst hf
  refine ⟨_, [], u, dens, rfl, by simp, ?_, List.Forall₂.nil⟩
  exact ⟨hset.interpolation, hset.exactTime, hset.medium, hset.cuts, hset.density, hset.scattering, hset.cross, hset.some_cross, hset.decay,
    hset.contRand, hset.contRand_cuts⟩

end

/-- The default cross sections by key and name. -/
def Spec.defaultNames (type : ℤ) : Option (List (String × String)) :=
  if type = 11 then some [("brems", "ElectronScreening"), ("epair", "ForElectronPositron"), ("ioniz", "BergerSeltzerMoller"),
    ("photo", "AbramowiczLevinLevyMaor97")]
  else if type = -11 then some [("brems", "ElectronScreening"), ("epair", "ForElectronPositron"), ("ioniz", "BergerSeltzerBhabha"),
    ("photo", "AbramowiczLevinLevyMaor97"), ("annihilation", "Heitler")]
  else if type = 13 ∨ type = -13 ∨ type = 15 ∨ type = -15 then some [("brems", "KelnerKokoulinPetrukhin"), ("epair", "KelnerKokoulinPetrukhin"),
    ("ioniz", "BetheBlochRossi"), ("photo", "AbramowiczLevinLevyMaor97")]
  else if type = 22 then some [("photopair", "kochmotz"), ("compton", "KleinNishina"), ("photoproduction", "Rhode"), ("photoeffect", "Sauter")]
  else none

/-- The default cross sections exist for electrons, positrons, muons, taus and photons. They have no LPM effect and the multiplier one. -/
theorem C132_defaults (type : ℤ) (cut : Option ℝ × ℝ) (interpol : Bool) :
    (stdCrossSections type cut interpol).map (List.map fun c => (Spec.crossKey c.cls, Spec.crossName c.cls)) = Spec.defaultNames type ∧
      ∀ l, stdCrossSections type cut interpol = some l → ∀ c ∈ l, c.multiplier = 1 ∧ c.interpol = interpol ∧
        (c.cuts = true ↔ Spec.crossKey c.cls ∈ ["brems", "compton", "epair", "ioniz", "mupair", "photo"]) ∧
        (c.opt = .plain ∨ (Spec.crossKey c.cls = "ioniz" ∧ c.opt = .cuts cut) ∨
          (Spec.crossKey c.cls = "photo" ∧ c.opt = .shadow "butkevichmikheyev")) := by
  unfold stdCrossSections Spec.defaultNames
  by_cases h1 : type = 11
  · subst h1
    simp [Spec.crossKey, Spec.crossName, ParClass.id, ParClass.name]
  rw [if_neg h1, if_neg h1]
  by_cases h2 : type = -11
  · subst h2
    simp [Spec.crossKey, Spec.crossName, ParClass.id, ParClass.name]
  rw [if_neg h2, if_neg h2]
  by_cases h3 : type = 13 ∨ type = -13 ∨ type = 15 ∨ type = -15
  · rw [if_pos h3, if_pos h3]
    simp [Spec.crossKey, Spec.crossName, ParClass.id, ParClass.name]
  rw [if_neg h3, if_neg h3]
  by_cases h4 : type = 22
  · subst h4
    simp [Spec.crossKey, Spec.crossName, ParClass.id, ParClass.name]
  rw [if_neg h4, if_neg h4]
  simp

/-- The default cross sections of a configuration by names have the LPM effect, those without any configuration do not: for a muon the two
differ. -/
theorem C132_lpm_default (cut : Option ℝ × ℝ) (d : ℝ) :
    ∃ l l', createCrossSectionList cut true d (Spec.oneCross "brems" "KelnerKokoulinPetrukhin") = .ok [l] ∧
      stdCrossSections 13 cut true = some l' ∧ l'.head? = some { l with opt := .plain } ∧ l.opt = .bremsLpm d := by
  have h := C132_reachable cut true d (.par .bremsKelnerKokoulinPetrukhin) trivial "KelnerKokoulinPetrukhin"
    (by unfold Spec.Ascii; decide +kernel) (by rw [sameUpToCase_iff]; decide +kernel)
  refine ⟨_, _, h, rfl, ?_, rfl⟩
  simp [Spec.crossKey, ParClass.id]

/-- Constructors for the examples: a geometry is a number, the density is the mass density. -/
noncomputable def exParts : ConfigParts ℝ ℝ where
  cut _ := .ok ⟨.fin 500, .fin 1, false⟩
  geometry j := cfgThrown j.toDouble
  density j := cfgThrown (j.valueD "mass_density" 0)
  scattering _ := .ok ()
  massDensity _ := 2

/-- A sector in ice with two geometries. -/
noncomputable def exSector : String → Option Json := fun k =>
  if k = "medium" then some (.str "Ice") else if k = "cuts" then some .null
  else if k = "geometries" then some (.arr [.num 1, .num 5]) else none

theorem exSector_ok : ∃ s t, sectorsOfJson exParts 13 (some 2) (.obj exSector) globalDefault = .ok [s, t] ∧ s.geometry = 1 ∧ t.geometry = 5 ∧
    s.utility = t.utility ∧ s.density = 2 ∧ s.utility.medium = .icePDG2020 ∧ s.utility.decay = true ∧ s.utility.crosss.length = 4 := by
  obtain ⟨l, hl⟩ : ∃ l, stdCrossSections 13 (cutPair ⟨.fin 500, .fin 1, false⟩) true = some l ∧ l.length = 4 := ⟨_, rfl, rfl⟩
  refine ⟨⟨1, ⟨l, .icePDG2020, ⟨.fin 500, .fin 1, false⟩, true, true, none, true, false⟩, 2⟩,
    ⟨5, ⟨l, .icePDG2020, ⟨.fin 500, .fin 1, false⟩, true, true, none, true, false⟩, 2⟩, ?_, rfl, rfl, rfl, rfl, rfl, rfl, hl.2⟩
  rw [C132_sector]
  refine ⟨exSector, [.num 1, .num 5], ⟨l, .icePDG2020, ⟨.fin 500, .fin 1, false⟩, true, true, none, true, false⟩, .obj fun k => if k = "type" then some (.str "homogeneous") else if k = "mass_density" then
    some (.num 2) else none, rfl, by simp [exSector], ⟨?_, ?_, ?_, ?_, ?_, ?_, ?_, ?_, ?_, ?_, ?_⟩, ?_⟩
  · exact Or.inr ⟨by simp [exSector], rfl⟩
  · exact Or.inr ⟨by simp [exSector], rfl⟩
  · exact Or.inl ⟨"Ice", by simp [exSector], show createMedium (bytes "Ice") = some .icePDG2020 by decide +kernel⟩
  · exact Or.inl ⟨.null, by simp [exSector], rfl⟩
  · exact Or.inr ⟨by simp [exSector], _, rfl, by simp, by simp [exParts], fun k h1 h2 => by simp [h1, h2]⟩
  · exact ⟨.null, Or.inr ⟨by simp [exSector], rfl⟩, Or.inl ⟨rfl, rfl⟩⟩
  · exact ⟨.null, Or.inr ⟨by simp [exSector], rfl⟩, Or.inl ⟨rfl, hl.1⟩⟩
  · intro h
    simp only at h
    rw [h] at hl
    simp at hl
  · simp
  · rfl
  · simp
  · refine List.Forall₂.cons ⟨?_, ?_, rfl⟩ (List.Forall₂.cons ⟨?_, ?_, rfl⟩ List.Forall₂.nil) <;>
      simp [exParts, Json.toDouble, Json.valueD, cfgThrown]

/-- The sector with its geometries removed is accepted, and there is no sector. -/
example : ∃ f, f "geometries" = some (.arr []) ∧ sectorsOfJson exParts 13 (some 2) (.obj f) globalDefault = .ok [] := by
  obtain ⟨s, t, h, -⟩ := exSector_ok
  exact ⟨_, by simp, C132_empty_geometries exParts 13 (some 2) exSector globalDefault _ h⟩

/-- A propagator with two entries has the sectors of both. -/
example : ∃ ss, propagatorOfJson exParts 13 (some 2) (.obj fun k => if k = "sectors" then some (.arr [.obj exSector, .obj exSector]) else none) =
    .ok ss ∧ ss.length = 4 := by
  obtain ⟨s, t, h, -⟩ := exSector_ok
  refine ⟨[s, t] ++ ([s, t] ++ []), ?_, rfl⟩
  rw [C132_propagator]
  refine ⟨_, globalDefault, [.obj exSector, .obj exSector], [[s, t], [s, t]], rfl, Or.inr ⟨by simp, ?_⟩, by simp, ?_, rfl⟩
  · exact ⟨Or.inr ⟨rfl, rfl⟩, Or.inr ⟨rfl, rfl⟩, Or.inr ⟨rfl, rfl⟩, Or.inr ⟨rfl, rfl⟩, Or.inr ⟨rfl, rfl⟩, Or.inr ⟨rfl, rfl⟩⟩
  · exact List.Forall₂.cons ((C132_sector _ _ _ _ _ _).mp h) (List.Forall₂.cons ((C132_sector _ _ _ _ _ _).mp h) List.Forall₂.nil)

end Proposal
