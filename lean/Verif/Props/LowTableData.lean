import Verif.Model.LowTables
import Mathlib.Tactic.NormNum

/-!
# C137: the numbers of the tables of corrections at low energies
-/

namespace Proposal

lemma aLogZ_mono : aLogZ.Pairwise (· < ·) := by
  rw [← List.isChain_iff_pairwise]
  unfold aLogZ
  simp only [List.isChain_cons_cons, List.isChain_singleton, and_true]
  norm_num

lemma aEnergies_mono : aEnergies.Pairwise (· < ·) := by
  rw [← List.isChain_iff_pairwise]
  unfold aEnergies
  simp only [List.isChain_cons_cons, List.isChain_singleton, and_true]
  norm_num

lemma aCorrection_rows : ∀ r ∈ aCorrection, r.length = aEnergies.length := by
  unfold aCorrection
  simp only [List.forall_mem_cons]
  refine ⟨rfl, rfl, rfl, rfl, rfl, rfl, rfl, rfl, rfl, rfl, rfl, rfl, rfl, rfl, ?_⟩
  simp

set_option maxRecDepth 4000 in
lemma aCorrection_bounds : ∀ r ∈ aCorrection, ∀ a ∈ r, 0.7 < a ∧ a ≤ 81 := by
  unfold aCorrection
  simp only [List.forall_mem_cons]
  norm_num

/-- At the lower end the factor falls, and continued to zero energy it stays below 131. -/
lemma aCorrection_start : ∀ r ∈ aCorrection, r.getD 1 0 ≤ r.getD 0 0 ∧ 5 * r.getD 0 0 - 4 * r.getD 1 0 ≤ 131 := by
  unfold aCorrection
  simp only [List.forall_mem_cons, List.getD_cons_zero, List.getD_cons_succ]
  norm_num

/-- The last two rows, from which the factor is continued to charges above 100. -/
lemma aCorrection_last : (List.zip (aCorrection.getD 12 []) (aCorrection.getD 13 [])).Forall fun p => 2.2 * p.1 < 3.2 * p.2 := by
  unfold aCorrection
  simp only [List.getD_cons_zero, List.getD_cons_succ, List.zip_cons_cons, List.zip_nil_right, List.forall_cons]
  norm_num

lemma kmZ_mono : kmZ.Pairwise (· < ·) := by
  rw [← List.isChain_iff_pairwise]
  unfold kmZ
  simp only [List.isChain_cons_cons, List.isChain_singleton, and_true]
  norm_num

lemma kmEnergies_mono : kmEnergies.Pairwise (· < ·) := by
  rw [← List.isChain_iff_pairwise]
  unfold kmEnergies
  simp only [List.isChain_cons_cons, List.isChain_singleton, and_true]
  norm_num

lemma kmCross_rows : ∀ r ∈ kmCross, r.length = kmEnergies.length := by
  have h : kmCross.map List.length = List.replicate 100 kmEnergies.length := rfl
  intro r hr
  have := List.mem_map_of_mem (f := List.length) hr
  rw [h] at this
  exact List.eq_of_mem_replicate this

set_option maxRecDepth 4000 in
lemma kmCross_asc : ∀ r ∈ kmCross, r.Pairwise (· ≤ ·) := by
  have : ∀ r ∈ kmCross, r.IsChain (· ≤ ·) := by
    unfold kmCross
    simp only [List.forall_mem_cons, List.isChain_cons_cons, List.isChain_singleton, and_true]
    norm_num
  intro r hr
  rw [← List.isChain_iff_pairwise]
  exact this r hr

lemma forall₂_le_trans : ∀ {a b c : List ℝ}, List.Forall₂ (· ≤ ·) a b → List.Forall₂ (· ≤ ·) b c → List.Forall₂ (· ≤ ·) a c := by
  intro a b c h
  induction h generalizing c with
  | nil => exact id
  | cons h1 _ ih =>
    intro h'
    cases h' with
    | cons h2 h3 => exact .cons (h1.trans h2) (ih h3)

set_option maxRecDepth 4000 in
lemma kmCross_columns : kmCross.Pairwise (List.Forall₂ (· ≤ ·)) := by
  have : IsTrans (List ℝ) (List.Forall₂ (· ≤ ·)) := ⟨fun _ _ _ => forall₂_le_trans⟩
  rw [← List.isChain_iff_pairwise]
  unfold kmCross
  simp only [List.isChain_cons_cons, List.isChain_singleton, and_true, List.forall₂_cons, List.forall₂_nil_left_iff]
  norm_num

end Proposal
