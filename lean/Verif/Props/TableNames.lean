import Verif.Model.Tables
import Mathlib.Data.List.Forall2

/-!
# C131: the names of the interpolation tables
-/

namespace Proposal

/-- The numbers of a component. -/
def Spec.compNums (c : Component) : List ℝ :=
  [c.nucCharge, c.atomicNum, c.atomInMolecule, c.logConstant, c.bPrime, c.averageNucleonWeight, c.woodSaxon]

/-- The numbers of a medium. -/
def Spec.medNums (m : Med) : ℤ × List ℝ × List (List ℝ) :=
  (m.numComponents, [m.sumCharge, m.ZA, m.I, m.C, m.a, m.m, m.X0, m.X1, m.d0, m.massDensity, m.molDensity, m.radiationLength, m.MM,
    m.sumNucleons], m.components.map Spec.compNums)

/-- The numbers of a particle that the cross sections use, without the tables of the hard component. -/
def Spec.partNums (p : PDef) : ℝ × ℝ × Option ℝ × ℝ × ℤ := (p.mass, p.low, p.lifetime, p.charge, p.weakPartner)

/-- The settings that a table of a cross section depends on. -/
def Spec.crossSettings (s : TableSettings) : CrossTable → List ℤ × ℝ
  | .dndx => ([s.nodesDndxE, s.nodesDndxV], s.upper)
  | .dedx => ([s.nodesDedx], s.upper)
  | .de2dx => ([s.nodesDe2dx], s.upper)

/-- The data of a cross section. -/
structure Spec.CrossData where
  cls : ParClass
  opt : ParOption
  part : ℝ × ℝ × Option ℝ × ℝ × ℤ
  med : ℤ × List ℝ × List (List ℝ)
  cut : Option (Option ℝ × ℝ)
  target : Option (List ℝ)

/-- The data of the cross section for which a table is requested. -/
def Spec.dataOf (r : TableReq) : Spec.CrossData :=
  ⟨r.cls, r.opt, Spec.partNums r.particle, Spec.medNums r.medium, r.cut, r.target.map Spec.compNums⟩

/-- The settings that a table of a utility depends on. -/
def Spec.utilSettings (s : TableSettings) : UtilTable → List ℤ × ℝ
  | .rates => ([s.nodesRate], s.upper)
  | .highland _ => ([], s.upper)
  | _ => ([s.nodesUtility], s.upper)

set_option maxHeartbeats 1000000 in
/-- Name and number together identify the parametrization. -/
theorem C131_classes (a b : ParClass) (hn : a.name = b.name) (hi : a.id = b.id) : a = b := by
  cases a <;> cases b <;>
    first
    | rfl
    | (exfalso; revert hi; simp only [ParClass.id]; norm_num; done)
    | (exfalso; revert hn; simp [ParClass.name])

example : ParClass.bremsKelnerKokoulinPetrukhin.name = ParClass.epairKelnerKokoulinPetrukhin.name ∧
    ParClass.bremsKelnerKokoulinPetrukhin.id ≠ ParClass.epairKelnerKokoulinPetrukhin.id := by
  constructor
  · rfl
  · simp [ParClass.id]

theorem foldl_size_inj : ∀ (l₁ l₂ : List HTerm) (b₁ b₂ : HTerm), (∀ x y, b₁ ≠ .size x y) → (∀ x y, b₂ ≠ .size x y) →
    l₁.foldl HTerm.size b₁ = l₂.foldl HTerm.size b₂ → b₁ = b₂ ∧ l₁ = l₂ := by
  intro l₁
  induction l₁ using List.reverseRecOn with
  | nil =>
    intro l₂ b₁ b₂ h1 _ h
    rcases List.eq_nil_or_concat l₂ with rfl | ⟨l, x, rfl⟩
    · exact ⟨h, rfl⟩
    · simp only [List.concat_eq_append, List.foldl_append, List.foldl_cons, List.foldl_nil] at h
      exact absurd h (h1 _ _)
  | append_singleton l a ih =>
    intro l₂ b₁ b₂ h1 h2 h
    rcases List.eq_nil_or_concat l₂ with rfl | ⟨l', x, rfl⟩
    · simp only [List.foldl_append, List.foldl_cons, List.foldl_nil] at h
      exact absurd h.symm (h2 _ _)
    · simp only [List.concat_eq_append, List.foldl_append, List.foldl_cons, List.foldl_nil, HTerm.size.injEq] at h ⊢
      obtain ⟨e1, e2⟩ := ih l' b₁ b₂ h1 h2 h.1
      exact ⟨e1, by rw [e2, h.2]⟩

theorem combineKeys_inj {l₁ l₂ : List HTerm} (h : combineKeys HTerm.free l₁ = combineKeys HTerm.free l₂) : l₁ = l₂ :=
  (foldl_size_inj l₁ l₂ .zero .zero (by simp) (by simp) h).2

theorem compKey_inj {c c' : Component} (h : compKey HTerm.free c = compKey HTerm.free c') : Spec.compNums c = Spec.compNums c' := by
  simp only [compKey, HTerm.free, List.foldl_cons, List.foldl_nil, HTerm.dbl.injEq, Option.some.injEq] at h
  simp only [Spec.compNums, List.cons.injEq]
  tauto

theorem map_compKey_inj : ∀ (l l' : List Component), l.map (compKey HTerm.free) = l'.map (compKey HTerm.free) →
    l.map Spec.compNums = l'.map Spec.compNums
  | [], [], _ => rfl
  | [], _ :: _, h => by simp at h
  | _ :: _, [], h => by simp at h
  | a :: l, b :: l', h => by
    simp only [List.map_cons, List.cons.injEq] at h ⊢
    exact ⟨compKey_inj h.1, map_compKey_inj l l' h.2⟩

theorem medKey_inj {m m' : Med} (h : medKey HTerm.free m = medKey HTerm.free m') : Spec.medNums m = Spec.medNums m' := by
  unfold medKey at h
  rw [← List.foldl_map (f := compKey HTerm.free) (g := HTerm.free.size), ← List.foldl_map (f := compKey HTerm.free) (g := HTerm.free.size)]
    at h
  obtain ⟨e1, e2⟩ := foldl_size_inj _ _ _ _ (by simp [HTerm.free]) (by simp [HTerm.free]) h
  have e3 := map_compKey_inj _ _ e2
  simp only [HTerm.free, List.foldl_cons, List.foldl_nil, HTerm.dbl.injEq, HTerm.int.injEq, Option.some.injEq] at e1
  simp only [Spec.medNums, Prod.mk.injEq, List.cons.injEq]
  tauto

theorem partKey_inj {p p' : PDef} (h : partKey HTerm.free p = partKey HTerm.free p') : Spec.partNums p = Spec.partNums p' := by
  simp only [partKey, HTerm.free, HTerm.dbl.injEq, HTerm.int.injEq, Option.some.injEq] at h
  simp only [Spec.partNums, Prod.mk.injEq]
  tauto

theorem cutKey_inj {c c' : Option ℝ × ℝ} (h : cutKey HTerm.free c = cutKey HTerm.free c') : c = c' := by
  simp only [cutKey, HTerm.free, HTerm.dbl.injEq, Option.some.injEq] at h
  exact Prod.ext h.1.2 h.2

set_option maxHeartbeats 1000000 in
theorem optKey_inj {p p' : PDef} {m m' : Med} {o o' : ParOption} (h : optKey HTerm.free p m o = optKey HTerm.free p' m' o') : o = o' := by
  have fp : ∀ p : PDef, ∃ x y, partKey HTerm.free p = .int x y := fun p => ⟨_, _, rfl⟩
  rcases o with _ | d | d | (_ | d) | s | b | c <;> rcases o' with _ | d' | d' | (_ | d') | s' | b' | c' <;>
    first
    | rfl
    | (simp [optKey, HTerm.free, bremsLpmKey, pairLpmKey, partKey, cutKey, epairLpmKey] at h; done)
    | (simp only [optKey, HTerm.free, bremsLpmKey, pairLpmKey, epairLpmKey, HTerm.size.injEq, HTerm.dbl.injEq, HTerm.bool.injEq,
        HTerm.str.injEq, Option.some.injEq, true_and] at h
       first
       | rw [h]
       | rw [h.1]
       | rw [h.1.1.1])
    | (have e := cutKey_inj (HTerm.size.inj h).2; rw [e])
  
theorem parKey_inj {r r' : TableReq} (hc : r.cls = r'.cls) (h : parKey HTerm.free r = parKey HTerm.free r') : r.opt = r'.opt := by
  unfold parKey at h
  rw [← hc] at h
  cases ht : r.cls.tag with
  | none => rw [ht] at h; exact optKey_inj h
  | some t =>
    rw [ht] at h
    exact optKey_inj (HTerm.str.inj h).1

theorem crossKey_size (r : TableReq) : ∃ x y, crossKey HTerm.free r = .size x y := by
  unfold crossKey
  cases r.cut <;> exact ⟨_, _, rfl⟩

theorem crossKey_inj {r r' : TableReq} (h : crossKey HTerm.free r = crossKey HTerm.free r') :
    r.cls = r'.cls ∧ r.opt = r'.opt ∧ Spec.partNums r.particle = Spec.partNums r'.particle ∧
      Spec.medNums r.medium = Spec.medNums r'.medium ∧ r.cut = r'.cut := by
  unfold crossKey at h
  have main : HTerm.free.size (HTerm.free.size (HTerm.free.size (HTerm.free.int (HTerm.free.str HTerm.free.zero r.cls.name) r.cls.id)
      (parKey HTerm.free r)) (partKey HTerm.free r.particle)) (medKey HTerm.free r.medium) =
      HTerm.free.size (HTerm.free.size (HTerm.free.size (HTerm.free.int (HTerm.free.str HTerm.free.zero r'.cls.name) r'.cls.id)
      (parKey HTerm.free r')) (partKey HTerm.free r'.particle)) (medKey HTerm.free r'.medium) → r.cut = r'.cut →
      r.cls = r'.cls ∧ r.opt = r'.opt ∧ Spec.partNums r.particle = Spec.partNums r'.particle ∧
      Spec.medNums r.medium = Spec.medNums r'.medium ∧ r.cut = r'.cut := by
    intro e hcut
    simp only [HTerm.free, HTerm.size.injEq, HTerm.int.injEq, HTerm.str.injEq, true_and] at e
    obtain ⟨⟨⟨⟨e1, e2⟩, e3⟩, e4⟩, e5⟩ := e
    have hc := C131_classes _ _ e1 e2
    exact ⟨hc, parKey_inj hc e3, partKey_inj e4, medKey_inj e5, hcut⟩
  rcases hr : r.cut with _ | c <;> rcases hr' : r'.cut with _ | c' <;> rw [hr, hr'] at h main <;> simp only at h
  · exact main h rfl
  · exfalso
    simp [HTerm.free] at h
  · exfalso
    simp [HTerm.free] at h
  · have e := HTerm.size.inj h
    exact main e.1 (by rw [cutKey_inj e.2])

set_option maxHeartbeats 1000000 in
theorem key_inj {k k' : CrossTable} {r r' : TableReq} (h : k.key HTerm.free r = k'.key HTerm.free r') :
    Spec.dataOf r = Spec.dataOf r' ∧ (k = k' → Spec.crossSettings r.set k = Spec.crossSettings r'.set k) := by
  have main : crossKey HTerm.free r = crossKey HTerm.free r' → r.target.map Spec.compNums = r'.target.map Spec.compNums →
      Spec.dataOf r = Spec.dataOf r' := by
    intro e et
    obtain ⟨h1, h2, h3, h4, h5⟩ := crossKey_inj e
    simp only [Spec.dataOf, Spec.CrossData.mk.injEq]
    exact ⟨h1, h2, h3, h4, h5, et⟩
  obtain ⟨x, y, hs⟩ := crossKey_size r
  obtain ⟨x', y', hs'⟩ := crossKey_size r'
  cases ht : r.target <;> cases ht' : r'.target <;> cases k <;> cases k' <;>
    simp only [CrossTable.key, dndxKey, dedxKey, de2dxKey, targetKey, HTerm.free, ht, ht', HTerm.dbl.injEq, HTerm.int.injEq,
      HTerm.size.injEq, Option.some.injEq] at h <;>
    first
    | (exfalso; exact HTerm.noConfusion h)
    | (exfalso; have e : crossKey HTerm.free r = _ := h.1.1; rw [hs] at e; exact HTerm.noConfusion e)
    | (exfalso; have e : _ = crossKey HTerm.free r' := h.1.1; rw [hs'] at e; exact HTerm.noConfusion e)
    | (exfalso; have e : crossKey HTerm.free r = _ := h.1.1.1; rw [hs] at e; exact HTerm.noConfusion e)
    | (exfalso; have e : _ = crossKey HTerm.free r' := h.1.1.1; rw [hs'] at e; exact HTerm.noConfusion e)
    | (refine ⟨main h.1.1.1.1 ?_, fun _ => ?_⟩
       · rw [ht, ht', Option.map_some, Option.map_some]; exact congrArg some (compKey_inj h.2)
       · simp [Spec.crossSettings, h.1.1.1.2, h.1.1.2, h.1.2])
    | (refine ⟨main h.1.1.1 ?_, fun hk => ?_⟩
       · rw [ht, ht', Option.map_some, Option.map_some]; exact congrArg some (compKey_inj h.2)
       · first
         | exact absurd hk (by decide)
         | simp [Spec.crossSettings, h.1.1.2, h.1.2])
    | (refine ⟨main h.1.1.1 ?_, fun _ => ?_⟩
       · rw [ht, ht']
       · simp [Spec.crossSettings, h.1.1.2, h.1.2, h.2])
    | (refine ⟨main h.1.1 ?_, fun hk => ?_⟩
       · rw [ht, ht']
       · first
         | exact absurd hk (by decide)
         | simp [Spec.crossSettings, h.1.2, h.2])

/-- Unless hashes collide, the name of a table of a cross section determines everything the table is made of: the kind of table, the
parametrization with its options, the numbers of the particle (except the tables of its hard component), of the medium and of the target,
the cuts, and the settings of the interpolation. -/
theorem C131_cross_partial (k k' : CrossTable) (r r' : TableReq) (h : k.fileName HTerm.free r = k'.fileName HTerm.free r') :
    k = k' ∧ Spec.dataOf r = Spec.dataOf r' ∧ Spec.crossSettings r.set k = Spec.crossSettings r'.set k' := by
  simp only [CrossTable.fileName, Prod.mk.injEq] at h
  have hk : k = k' := by
    have := h.1
    cases k <;> cases k' <;> first | rfl | (exfalso; revert this; simp [CrossTable.pre])
  subst hk
  obtain ⟨h1, h2⟩ := key_inj h.2
  exact ⟨rfl, h1, h2 rfl⟩

end Proposal
