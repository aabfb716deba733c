import Verif.Model.Propagator
import Verif.Lemmas.Sphere
import Mathlib.Order.Bounds.Basic

/-! # C08, C09, C10 -/

namespace Proposal

open Spec

/-- The fold of `std::max_element` returns the first element of maximal hierarchy. -/
private lemma maxHierarchy_spec (l : List Sector) (s : Sector) (h : maxHierarchy l = some s) :
    ∃ l1 l2, l = l1 ++ s :: l2 ∧ (∀ t ∈ l1, t.geo.hierarchy < s.geo.hierarchy) ∧
      (∀ t ∈ l2, t.geo.hierarchy ≤ s.geo.hierarchy) := by
  have key : ∀ (l : List Sector) (a : Sector), ∃ l1 l2,
      a :: l = l1 ++ (l.foldl (fun best t => if best.geo.hierarchy < t.geo.hierarchy then t else best) a) :: l2 ∧
      (∀ t ∈ l1, t.geo.hierarchy <
        (l.foldl (fun best t => if best.geo.hierarchy < t.geo.hierarchy then t else best) a).geo.hierarchy) ∧
      (∀ t ∈ l2, t.geo.hierarchy ≤
        (l.foldl (fun best t => if best.geo.hierarchy < t.geo.hierarchy then t else best) a).geo.hierarchy) := by
    intro l
    induction l with
    | nil => intro a; exact ⟨[], [], by simp⟩
    | cons b l ih =>
      intro a
      simp only [List.foldl_cons]
      by_cases hab : a.geo.hierarchy < b.geo.hierarchy
      · rw [if_pos hab]
        obtain ⟨l1, l2, h1, h2, h3⟩ := ih b
        refine ⟨a :: l1, l2, by simp [h1], ?_, h3⟩
        intro t ht
        rcases List.mem_cons.1 ht with rfl | ht
        · cases l1 with
          | nil =>
            have := (List.cons_eq_cons.1 (by simpa using h1)).1
            rw [← this]; exact hab
          | cons c l1 =>
            have := (List.cons_eq_cons.1 (by simpa using h1)).1
            subst this
            exact lt_trans hab (h2 _ (by simp))
        · exact h2 t ht
      · rw [if_neg hab]
        obtain ⟨l1, l2, h1, h2, h3⟩ := ih a
        generalize l.foldl (fun best t => if best.geo.hierarchy < t.geo.hierarchy then t else best) a = r at *
        cases l1 with
        | nil =>
          have h := List.cons_eq_cons.1 (by simpa using h1)
          refine ⟨[], b :: l, by simp [h.1], by simp, ?_⟩
          intro t ht
          rcases List.mem_cons.1 ht with rfl | ht
          · rw [← h.1]; omega
          · exact h3 t (h.2 ▸ ht)
        | cons c l1 =>
          have h := List.cons_eq_cons.1 (by simpa using h1)
          refine ⟨c :: b :: l1, l2, by simp [h.1, h.2], ?_, h3⟩
          have hc := h2 c (by simp)
          intro t ht
          simp only [List.mem_cons] at ht
          rcases ht with rfl | rfl | ht
          · exact hc
          · have : a.geo.hierarchy = c.geo.hierarchy := by rw [h.1]
            omega
          · exact h2 t (by simp [ht])
  cases l with
  | nil => simp [maxHierarchy] at h
  | cons a l =>
    simp only [maxHierarchy, Option.some.injEq] at h
    subst h
    exact key l a

/-- **C08**. The selected sector is listed, contains the point in the given direction, has maximal
hierarchy among the containing sectors, and is the first such one; selection fails exactly when
no sector contains the point. -/
theorem C08_current_sector (sectors : List Sector) (p d : Vec3) :
    (∀ s, currentSector sectors p d = some s →
      s.geo.isInside p d ∧
      ∃ l1 l2, sectors = l1 ++ s :: l2 ∧
        (∀ t ∈ l1, t.geo.isInside p d → t.geo.hierarchy < s.geo.hierarchy) ∧
        (∀ t ∈ l2, t.geo.isInside p d → t.geo.hierarchy ≤ s.geo.hierarchy)) ∧
    (currentSector sectors p d = none ↔ ∀ s ∈ sectors, ¬ s.geo.isInside p d) := by
  classical
  constructor
  · intro s h
    unfold currentSector at h
    obtain ⟨l1, l2, h1, h2, h3⟩ := maxHierarchy_spec _ _ h
    obtain ⟨a, b, hab, ha, hb⟩ := List.filter_eq_append_iff.1 h1
    obtain ⟨c, e, hce, hc, hs, he⟩ := List.filter_eq_cons_iff.1 hb
    refine ⟨by simpa using hs, a ++ c, e, by simp [hab, hce], ?_, ?_⟩
    · intro t ht hin
      rcases List.mem_append.1 ht with ht | ht
      · exact h2 t (by rw [← ha]; exact List.mem_filter.2 ⟨ht, by simpa using hin⟩)
      · exact absurd (by simpa using hin) (hc t ht)
    · intro t ht hin
      exact h3 t (by rw [← he]; exact List.mem_filter.2 ⟨ht, by simpa using hin⟩)
  · unfold currentSector
    cases hf : sectors.filter (fun s => decide (s.geo.isInside p d)) with
    | nil =>
      simp only [maxHierarchy, true_iff]
      intro s hs hin
      have : s ∈ sectors.filter (fun s => decide (s.geo.isInside p d)) :=
        List.mem_filter.2 ⟨hs, by simpa using hin⟩
      rw [hf] at this; simp at this
    | cons a l =>
      simp only [maxHierarchy]
      constructor
      · intro h; cases h
      · intro h
        have : a ∈ sectors.filter (fun s => decide (s.geo.isInside p d)) := by rw [hf]; simp
        have := List.mem_filter.1 this
        exact absurd (by simpa using this.2) (h a this.1)

/-- Two nested sectors: the inner one (listed last, hierarchy 1) is selected. -/
example (u : Utility) (ρ : Density) :
    let g : ℕ → Geo := fun n => ⟨n, 0, fun _ _ => (1, -1)⟩
    currentSector [⟨g 0, u, ρ⟩, ⟨g 1, u, ρ⟩] 0 0 = some ⟨g 1, u, ρ⟩ := by
  simp [currentSector, maxHierarchy, Geo.isInside]

/-- **C09**. The border distance of a step is the least of the current geometry's border distance
and of the border distances of all geometries of higher hierarchy that lie ahead. -/
theorem C09_border_distance (sectors : List Sector) (p d : Vec3) (g : Geo) :
    IsLeast ({(g.dist p d).1} ∪
      {x | ∃ s ∈ sectors, g.hierarchy < s.geo.hierarchy ∧ 0 ≤ (s.geo.dist p d).1 ∧
        x = (s.geo.dist p d).1}) (distanceToBorder sectors p d g) := by
  have key : ∀ (l : List Sector) (a : ℝ), IsLeast ({a} ∪
      {x | ∃ s ∈ l, g.hierarchy < s.geo.hierarchy ∧ 0 ≤ (s.geo.dist p d).1 ∧
        x = (s.geo.dist p d).1}) (l.foldl (fun acc s =>
    if s.geo.hierarchy > g.hierarchy then
      (if (s.geo.dist p d).1 ≥ 0 then min acc (s.geo.dist p d).1 else acc)
    else acc) a) := by
    intro l
    induction l with
    | nil => intro a; simp
    | cons s l ih =>
      intro a
      simp only [List.foldl_cons]
      have skip : ¬ (g.hierarchy < s.geo.hierarchy ∧ 0 ≤ (s.geo.dist p d).1) →
          ({x | ∃ t ∈ s :: l, g.hierarchy < t.geo.hierarchy ∧ 0 ≤ (t.geo.dist p d).1 ∧
            x = (t.geo.dist p d).1} : Set ℝ) =
          {x | ∃ t ∈ l, g.hierarchy < t.geo.hierarchy ∧ 0 ≤ (t.geo.dist p d).1 ∧
            x = (t.geo.dist p d).1} := by
        intro hn
        ext x
        simp only [List.mem_cons, Set.mem_ofPred_eq]
        constructor
        · rintro ⟨t, rfl | ht, h1, h2, h3⟩
          · exact absurd ⟨h1, h2⟩ hn
          · exact ⟨t, ht, h1, h2, h3⟩
        · rintro ⟨t, ht, h1, h2, h3⟩; exact ⟨t, Or.inr ht, h1, h2, h3⟩
      by_cases h1 : s.geo.hierarchy > g.hierarchy
      · by_cases h2 : (s.geo.dist p d).1 ≥ 0
        · rw [if_pos h1, if_pos h2]
          obtain ⟨hm, hl⟩ := ih (min a (s.geo.dist p d).1)
          constructor
          · rcases hm with hm | ⟨t, ht, h⟩
            · rw [Set.mem_singleton_iff] at hm
              rw [hm]
              rcases min_choice a (s.geo.dist p d).1 with h | h <;> rw [h]
              · left; rfl
              · right; exact ⟨s, by simp, h1, h2, rfl⟩
            · right; exact ⟨t, by simp [ht], h⟩
          · rintro x (hx | ⟨t, ht, h⟩)
            · rw [Set.mem_singleton_iff] at hx
              have := hl (Or.inl rfl)
              exact le_trans this (by rw [hx]; exact min_le_left _ _)
            · rcases List.mem_cons.1 ht with rfl | ht
              · have := hl (Or.inl rfl)
                exact le_trans this (by rw [h.2.2]; exact min_le_right _ _)
              · exact hl (Or.inr ⟨t, ht, h⟩)
        · rw [if_pos h1, if_neg h2, skip (fun h => h2 h.2)]
          exact ih a
      · rw [if_neg h1, skip (fun h => h1 h.1)]
        exact ih a
  exact key sectors _

/-- A step in an outer geometry (border at 10) is limited by an inner one of higher hierarchy
(border at 3), not by one of equal hierarchy (border at 1). -/
example (u : Utility) (ρ : Density) :
    distanceToBorder [⟨⟨1, 0, fun _ _ => (3, 4)⟩, u, ρ⟩, ⟨⟨0, 0, fun _ _ => (1, 2)⟩, u, ρ⟩] 0 0
      ⟨0, 0, fun _ _ => (10, -1)⟩ = 3 := by
  norm_num [distanceToBorder]

/-- the scheduled energy of a type -/
def Spec.energyOf (eDecay eMin eStoch : ℝ) : NextType → ℝ
  | .decay => eDecay
  | .minimalE => eMin
  | .stochastic => eStoch

/-- priority of a type on ties -/
def Spec.rank : NextType → ℕ
  | .decay => 0
  | .minimalE => 1
  | .stochastic => 2

/-- **C10**. The scheduled type has the largest energy, and among equal energies the smallest
rank (decay, minimal energy, stochastic); this determines it uniquely. -/
theorem C10_next_interaction (eDecay eMin eStoch : ℝ) (n : NextType) :
    maximize eDecay eMin eStoch = n ↔
      ∀ m, energyOf eDecay eMin eStoch m < energyOf eDecay eMin eStoch n ∨
        (energyOf eDecay eMin eStoch m = energyOf eDecay eMin eStoch n ∧ rank n ≤ rank m) := by
  have hall : ∀ P : NextType → Prop, (∀ m, P m) ↔ (P .decay ∧ P .minimalE ∧ P .stochastic) := by
    intro P; constructor
    · intro h; exact ⟨h _, h _, h _⟩
    · rintro ⟨h1, h2, h3⟩ m; cases m <;> assumption
  rw [hall]
  unfold maximize
  cases n <;> simp only [energyOf, rank] <;> grind

example : maximize 0 3 5 = .stochastic ∧ maximize 5 5 5 = .decay ∧ maximize 0 5 5 = .minimalE := by
  refine ⟨?_, ?_, ?_⟩ <;> norm_num [maximize]

end Proposal
