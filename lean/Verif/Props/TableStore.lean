import Verif.Props.TableNames
import Mathlib.Analysis.SpecialFunctions.Pow.Real

/-!
# C131: stored tables
-/

namespace Proposal

section evaluation
variable {α : Type} (A : HashAlg α)

theorem eval_foldl_dbl : ∀ (l : List ℝ) (s : HTerm), (l.foldl (fun s x => HTerm.free.dbl s (some x)) s).eval A =
    l.foldl (fun s x => A.dbl s (some x)) (s.eval A)
  | [], _ => rfl
  | _ :: l, _ => eval_foldl_dbl l _

theorem eval_compKey (c : Component) : (compKey HTerm.free c).eval A = compKey A c := eval_foldl_dbl A _ _

theorem eval_foldl_comps : ∀ (l : List Component) (s : HTerm),
    (l.foldl (fun s c => HTerm.free.size s (compKey HTerm.free c)) s).eval A = l.foldl (fun s c => A.size s (compKey A c)) (s.eval A)
  | [], _ => rfl
  | c :: l, s => by
    rw [List.foldl_cons, eval_foldl_comps l]
    show List.foldl _ (A.size (s.eval A) ((compKey HTerm.free c).eval A)) l = _
    rw [eval_compKey]
    rfl

theorem eval_medKey (m : Med) : (medKey HTerm.free m).eval A = medKey A m := by
  unfold medKey
  rw [eval_foldl_comps, eval_foldl_dbl]
  rfl

theorem eval_parKey (r : TableReq) : (parKey HTerm.free r).eval A = parKey A r := by
  have ho : ∀ o, (optKey HTerm.free r.particle r.medium o).eval A = optKey A r.particle r.medium o := by
    intro o
    rcases o with _ | d | d | (_ | d) | s | b | c
    · rfl
    · rfl
    · rfl
    · show A.size _ ((medKey HTerm.free r.medium).eval A) = _
      rw [eval_medKey]; rfl
    · show A.size _ ((medKey HTerm.free r.medium).eval A) = _
      rw [eval_medKey]; rfl
    · rfl
    · rfl
    · rfl
  unfold parKey
  cases r.cls.tag with
  | none => exact ho _
  | some t =>
    show A.str ((optKey HTerm.free r.particle r.medium r.opt).eval A) t = _
    rw [ho]

theorem eval_crossKey (r : TableReq) : (crossKey HTerm.free r).eval A = crossKey A r := by
  have e := eval_parKey A r
  have em := eval_medKey A r.medium
  unfold crossKey
  cases r.cut with
  | none =>
    show A.size (A.size (A.size _ ((parKey HTerm.free r).eval A)) _) ((medKey HTerm.free r.medium).eval A) = _
    rw [e, em]; rfl
  | some c =>
    show A.size (A.size (A.size (A.size _ ((parKey HTerm.free r).eval A)) _) ((medKey HTerm.free r.medium).eval A)) _ = _
    rw [e, em]; rfl

theorem eval_targetKey (h : HTerm) (t : Option Component) : (targetKey HTerm.free h t).eval A = targetKey A (h.eval A) t := by
  cases t with
  | none => rfl
  | some c =>
    show A.size (h.eval A) ((compKey HTerm.free c).eval A) = _
    rw [eval_compKey]; rfl

end evaluation

/-- Whatever the hash function, the name of a table is the value of the name without collisions: equal data give equal names. In
particular this holds for the hash function of the code, so that the same request finds the table again in another run. -/
theorem C131_reproducible {α : Type} (A : HashAlg α) (k : CrossTable) (r : TableReq) :
    k.fileName A r = (k.pre, (k.key HTerm.free r).eval A) := by
  have e := eval_crossKey A r
  cases k <;> simp only [CrossTable.fileName, CrossTable.key, dndxKey, dedxKey, de2dxKey, eval_targetKey, Prod.mk.injEq, true_and] <;>
    (rw [← e]; rfl)

/-- The hashes of the model of media and components are those of the instance for the code. -/
theorem C131_code (H : Hasher) (hstr : String → Hash) (hinf : Hash) (hbool : Bool → Hash) (hptr : ℕ → Hash) :
    (∀ name z a n, compKey (stdAlg H hstr hinf hbool hptr) (mkComp H name z a n) = (mkComp H name z a n).hash) ∧
    ∀ m : Med, (∀ c ∈ m.components, c.hash = compKey (stdAlg H hstr hinf hbool hptr) c) →
      medKey (stdAlg H hstr hinf hbool hptr) m = m.hash H := by
  have hd : ∀ (l : List ℝ) (s : Hash), l.foldl (fun s x => (stdAlg H hstr hinf hbool hptr).dbl s (some x)) s =
      hashCombine s (l.map H.dbl) := by
    intro l
    induction l with
    | nil => intro s; rfl
    | cons x l ih =>
      intro s
      rw [List.foldl_cons, ih]
      rfl
  constructor
  · intro name z a n
    unfold compKey
    rw [hd]
    rfl
  intro m hm
  have : ∀ (l : List Component) (s : Hash), (∀ c ∈ l, c.hash = compKey (stdAlg H hstr hinf hbool hptr) c) →
      l.foldl (fun s c => (stdAlg H hstr hinf hbool hptr).size s (compKey (stdAlg H hstr hinf hbool hptr) c)) s =
        hashCombine s (l.map fun c => H.size c.hash) := by
    intro l
    induction l with
    | nil => intro s _; rfl
    | cons c l ih =>
      intro s hl
      rw [List.foldl_cons, ih _ (fun c' h' => hl c' (List.mem_cons_of_mem _ h'))]
      rw [List.map_cons, hl c List.mem_cons_self]
      rfl
  unfold medKey Med.hash
  rw [this _ _ hm, hd]
  have e : ∀ l : List Hash, hashCombine ((stdAlg H hstr hinf hbool hptr).int (stdAlg H hstr hinf hbool hptr).zero m.numComponents) l =
      hashCombine 0 (H.int m.numComponents :: l) := fun l => by
    rw [hashCombine, hashCombine, List.foldl_cons]; rfl
  rw [e]
  simp only [List.map_cons, List.map_nil]

/-- Opening tables one after the other: if different contents never have the same name, and the files that exist at the beginning are
right, then everybody gets the table that they asked for, whichever tables were built before, and the files stay right. -/
theorem C131_store {N T R : Type} (name : R → N) (content : R → T) (rs : List R)
    (hinj : ∀ r ∈ rs, ∀ r' ∈ rs, name r = name r' → content r = content r') (files : N → Option T)
    (hfiles : ∀ r ∈ rs, ∀ t, files (name r) = some t → t = content r) :
    (openTables files (rs.map fun r => (name r, content r))).1 = rs.map content ∧
      ∀ r ∈ rs, (openTables files (rs.map fun r => (name r, content r))).2 (name r) = some (content r) := by
  classical
  -- more general: the requests are part of a larger set on which the names are right
  have main : ∀ (S : R → Prop), (∀ r r', S r → S r' → name r = name r' → content r = content r') → ∀ (rs : List R), (∀ r ∈ rs, S r) →
      ∀ files : N → Option T, (∀ r, S r → ∀ t, files (name r) = some t → t = content r) →
      (openTables files (rs.map fun r => (name r, content r))).1 = rs.map content ∧
      (∀ r ∈ rs, (openTables files (rs.map fun r => (name r, content r))).2 (name r) = some (content r)) ∧
      ∀ n t, files n = some t → (openTables files (rs.map fun r => (name r, content r))).2 n = some t := by
    intro S hS rs
    induction rs with
    | nil => intro _ files _; exact ⟨rfl, by simp, fun _ _ h => h⟩
    | cons a l ih =>
      intro hl files hf
      have ha := hl a List.mem_cons_self
      have hopen : (openTable files (name a) (content a)).1 = content a := by
        unfold openTable
        cases h : files (name a) with
        | none => rfl
        | some t => exact hf a ha t h
      have hkeep : ∀ n t, files n = some t → (openTable files (name a) (content a)).2 n = some t := by
        intro n t h
        unfold openTable
        cases h' : files (name a) with
        | none =>
          have : n ≠ name a := by rintro rfl; rw [h'] at h; simp at h
          simp only
          rw [if_neg this]; exact h
        | some t' => exact h
      have hhas : (openTable files (name a) (content a)).2 (name a) = some (content a) := by
        unfold openTable
        cases h' : files (name a) with
        | none => simp
        | some t' => simp only; rw [h', hf a ha t' h']
      have hf' : ∀ r, S r → ∀ t, (openTable files (name a) (content a)).2 (name r) = some t → t = content r := by
        intro r hr t h
        by_cases e : name r = name a
        · rw [e, hhas] at h
          have := Option.some.inj h
          rw [← this]; exact hS a r ha hr e.symm
        · refine hf r hr t ?_
          unfold openTable at h
          cases h' : files (name a) with
          | none => rw [h'] at h; simp only at h; rwa [if_neg e] at h
          | some t' => rw [h'] at h; exact h
      obtain ⟨i1, i2, i3⟩ := ih (fun r hr => hl r (List.mem_cons_of_mem _ hr)) _ hf'
      refine ⟨?_, ?_, ?_⟩
      · exact congrArg₂ List.cons hopen i1
      · intro r hr
        rcases List.mem_cons.mp hr with rfl | hr
        · exact i3 _ _ hhas
        · exact i2 r hr
      · intro n t h
        exact i3 n t (hkeep n t h)
  obtain ⟨h1, h2, _⟩ := main (· ∈ rs) (fun r r' h h' => hinj r h r' h') rs (fun _ h => h) files (fun r hr => hfiles r hr)
  exact ⟨h1, h2⟩

/-- Tables of cross sections with a path for tables: if the hash function does not collide on the requests, every cross section gets
tables that are made from its own data, whatever was built before by this or other runs of the program. `build` makes a table from the
data on which it depends. -/
theorem C131_tables_partial {α T : Type} (A : HashAlg α) (build : CrossTable → Spec.CrossData → List ℤ × ℝ → T)
    (rs : List (CrossTable × TableReq))
    (hA : ∀ r ∈ rs, ∀ r' ∈ rs, r.1.key A r.2 = r'.1.key A r'.2 → r.1.key HTerm.free r.2 = r'.1.key HTerm.free r'.2) :
    (openTables (fun _ => none) (rs.map fun r => (r.1.fileName A r.2, build r.1 (Spec.dataOf r.2) (Spec.crossSettings r.2.set r.1)))).1 =
      rs.map fun r => build r.1 (Spec.dataOf r.2) (Spec.crossSettings r.2.set r.1) := by
  refine (C131_store (fun r : CrossTable × TableReq => r.1.fileName A r.2)
    (fun r => build r.1 (Spec.dataOf r.2) (Spec.crossSettings r.2.set r.1)) rs ?_ (fun _ => none) (by simp)).1
  intro r hr r' hr' e
  have e' : r.1.fileName HTerm.free r.2 = r'.1.fileName HTerm.free r'.2 := by
    simp only [CrossTable.fileName, Prod.mk.injEq] at e ⊢
    exact ⟨e.1, hA r hr r' hr' e.2⟩
  obtain ⟨h1, h2, h3⟩ := C131_cross_partial _ _ _ _ e'
  simp only [h1, h2] at h3 ⊢
  rw [h3]

/-- Unless hashes collide, the name of a table of a utility determines the utility, the life time and the mass in the decay, the list of
the hashes of the cross sections in their order, and the settings. -/
theorem C131_utility (u u' : UtilTable) (s s' : TableSettings) (ks ks' : List HTerm)
    (h : u.fileName HTerm.free s ks = u'.fileName HTerm.free s' ks') :
    u.pre = u'.pre ∧ (∀ l m, u = .decay l m → u' = .decay l m) ∧ ks = ks' ∧ Spec.utilSettings s u = Spec.utilSettings s' u' := by
  simp only [UtilTable.fileName, Prod.mk.injEq] at h
  obtain ⟨h1, h2⟩ := h
  cases u <;> cases u' <;>
    first
    | (exfalso; revert h1; simp [UtilTable.pre]; done)
    | (simp only [UtilTable.key, utilKey, HTerm.free, HTerm.dbl.injEq, HTerm.int.injEq, HTerm.bool.injEq, HTerm.size.injEq,
        Option.some.injEq, and_true, true_and] at h2
       first
       | (obtain ⟨⟨⟨⟨e, el⟩, em⟩, en⟩, eu⟩ := h2
          refine ⟨h1, fun l m hlm => by rw [← el, ← em]; exact hlm, combineKeys_inj e, ?_⟩
          simp [Spec.utilSettings, en, eu])
       | (obtain ⟨⟨e, en⟩, eu⟩ := h2
          refine ⟨h1, fun l m hlm => UtilTable.noConfusion hlm, combineKeys_inj e, ?_⟩
          simp [Spec.utilSettings, en, eu])
       | (obtain ⟨e, eu⟩ := h2
          refine ⟨h1, fun l m hlm => UtilTable.noConfusion hlm, combineKeys_inj e, ?_⟩
          simp [Spec.utilSettings, eu]))

/-- The hash of a cross section made of the tables `ts`, in the order in which they are combined, with the multiplier if there is one. -/
noncomputable def crossHash {α : Type} (A : HashAlg α) (c : List (CrossTable × TableReq) × Option ℝ) : α :=
  let h := combineKeys A (c.1.map fun t => t.1.key A t.2)
  match c.2 with
  | none => h
  | some k => multiplierKey A h k

/-- So a table of a utility belongs to one list of cross sections: same number, same multipliers, and tables with the same data. -/
theorem C131_cross_lists (u u' : UtilTable) (s s' : TableSettings) (cs cs' : List (List (CrossTable × TableReq) × Option ℝ))
    (h : u.fileName HTerm.free s (cs.map (crossHash HTerm.free)) = u'.fileName HTerm.free s' (cs'.map (crossHash HTerm.free))) :
    List.Forall₂ (fun c c' => c.2 = c'.2 ∧ c.1.map (fun t => Spec.dataOf t.2) = c'.1.map fun t => Spec.dataOf t.2) cs cs' := by
  have hk := (C131_utility u u' s s' _ _ h).2.2.1
  have hcomb : ∀ l : List HTerm, (combineKeys HTerm.free l = .zero ∨ ∃ x y, combineKeys HTerm.free l = .size x y) := by
    intro l
    rcases List.eq_nil_or_concat l with rfl | ⟨l', x, rfl⟩
    · exact Or.inl rfl
    · right
      refine ⟨combineKeys HTerm.free l', x, ?_⟩
      simp [combineKeys, HTerm.free]
  have hdata : ∀ l l' : List (CrossTable × TableReq), (l.map fun t => t.1.key HTerm.free t.2) = (l'.map fun t => t.1.key HTerm.free t.2) →
      l.map (fun t => Spec.dataOf t.2) = l'.map fun t => Spec.dataOf t.2 := by
    intro l
    induction l with
    | nil => intro l' e; cases l' <;> simp_all
    | cons a l ih =>
      intro l' e
      cases l' with
      | nil => simp at e
      | cons b l' =>
        simp only [List.map_cons, List.cons.injEq] at e ⊢
        exact ⟨(key_inj e.1).1, ih l' e.2⟩
  have hone : ∀ c c' : List (CrossTable × TableReq) × Option ℝ, crossHash HTerm.free c = crossHash HTerm.free c' →
      c.2 = c'.2 ∧ c.1.map (fun t => Spec.dataOf t.2) = c'.1.map fun t => Spec.dataOf t.2 := by
    rintro ⟨l, k⟩ ⟨l', k'⟩ e
    unfold crossHash at e
    rcases k with _ | k <;> rcases k' with _ | k' <;> simp only at e
    · exact ⟨rfl, hdata l l' (combineKeys_inj e)⟩
    · exfalso
      rcases hcomb (l.map fun t => t.1.key HTerm.free t.2) with h0 | ⟨x, y, h0⟩ <;> rw [h0] at e <;> exact HTerm.noConfusion e
    · exfalso
      rcases hcomb (l'.map fun t => t.1.key HTerm.free t.2) with h0 | ⟨x, y, h0⟩ <;> rw [h0] at e <;> exact HTerm.noConfusion e
    · have e' := HTerm.dbl.inj e
      exact ⟨e'.2, hdata l l' (combineKeys_inj e'.1)⟩
  revert hk
  generalize cs' = ds
  clear h
  induction cs generalizing ds with
  | nil => intro e; cases ds <;> simp_all
  | cons a l ih =>
    intro e
    cases ds with
    | nil => simp at e
    | cons b l' =>
      simp only [List.map_cons, List.cons.injEq] at e
      exact List.Forall₂.cons (hone a b e.1) (ih l' e.2)

/-- The mass is missing in the name of the tables of the exact time and of multiple scattering, but if the mass is the one of the particle
for which the cross sections are made, and there is a cross section with a table, the name determines it all the same. -/
theorem C131_mass (u u' : ℝ → UtilTable) (s s' : TableSettings) (cs cs' : List (List (CrossTable × TableReq) × Option ℝ)) (p p' : PDef)
    (hcs : ∀ c ∈ cs, ∀ t ∈ c.1, t.2.particle = p) (hcs' : ∀ c ∈ cs', ∀ t ∈ c.1, t.2.particle = p')
    (hne : ∃ c ∈ cs, c.1 ≠ [])
    (h : (u p.mass).fileName HTerm.free s (cs.map (crossHash HTerm.free)) = (u' p'.mass).fileName HTerm.free s' (cs'.map (crossHash HTerm.free))) :
    Spec.partNums p = Spec.partNums p' := by
  have hl := C131_cross_lists _ _ _ _ _ _ h
  obtain ⟨c, hc, hc0⟩ := hne
  have : ∀ (l l' : List (List (CrossTable × TableReq) × Option ℝ)),
      List.Forall₂ (fun c c' => c.2 = c'.2 ∧ c.1.map (fun t => Spec.dataOf t.2) = c'.1.map fun t => Spec.dataOf t.2) l l' →
      ∀ c ∈ l, ∃ c' ∈ l', c.1.map (fun t => Spec.dataOf t.2) = c'.1.map fun t => Spec.dataOf t.2 := by
    intro l l' hll
    induction hll with
    | nil => simp
    | cons h1 _ ih =>
      intro c hc
      rcases List.mem_cons.mp hc with rfl | hc
      · exact ⟨_, List.mem_cons_self, h1.2⟩
      · obtain ⟨c', hc', e⟩ := ih c hc
        exact ⟨c', List.mem_cons_of_mem _ hc', e⟩
  obtain ⟨c', hc', e⟩ := this _ _ hl c hc
  obtain ⟨t, l, htl⟩ := List.exists_cons_of_ne_nil hc0
  cases hc'1 : c'.1 with
  | nil => rw [htl, hc'1] at e; simp at e
  | cons t' l' =>
    rw [htl, hc'1] at e
    simp only [List.map_cons, List.cons.injEq] at e
    have e1 := congrArg Spec.CrossData.part e.1
    simp only [Spec.dataOf] at e1
    rwa [hcs c hc t (by rw [htl]; exact List.mem_cons_self), hcs' c' hc' t' (by rw [hc'1]; exact List.mem_cons_self)] at e1

end Proposal
