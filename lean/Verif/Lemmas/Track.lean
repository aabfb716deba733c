import Verif.Model.Track
import Verif.Lemmas.Vec3

/-! Helper lemmas for track lookups. -/

namespace Proposal

lemma mag_sub_eq (p q : Vec3) : (q - p).mag =
    Real.sqrt ((q.x - p.x) ^ 2 + (q.y - p.y) ^ 2 + (q.z - p.z) ^ 2) := by
  unfold Vec3.mag
  simp only [Vec3.sub_x, Vec3.sub_y, Vec3.sub_z]
  congr 1
  ring

lemma normalize_of_pos {a : Vec3} (h : 0 < a.mag) : a.normalize = some ((1 / a.mag) • a) := by
  unfold Vec3.normalize
  rw [if_neg h.ne']
  congr 1
  ext <;> simp <;> ring

lemma normalize_of_zero {a : Vec3} (h : a.mag = 0) : a.normalize = none := by
  unfold Vec3.normalize
  rw [if_pos h]

lemma normalize_mag {a u : Vec3} (h : a.normalize = some u) : 0 < a.mag ∧ u.mag = 1 ∧ a = a.mag • u := by
  rcases (Vec3.mag_nonneg a).eq_or_lt with h0 | h0
  · rw [normalize_of_zero h0.symm] at h; cases h
  · rw [normalize_of_pos h0] at h
    obtain rfl := Option.some.inj h
    refine ⟨h0, ?_, ?_⟩
    · rw [Vec3.mag_eq_one_iff]
      have := Vec3.mag_mul_self a
      unfold Vec3.dot at this ⊢
      simp only [Vec3.smul_x, Vec3.smul_y, Vec3.smul_z]
      have h1 : a.mag ≠ 0 := h0.ne'
      field_simp
      nlinarith
    · ext <;> simp <;> field_simp

lemma lookupSector_ok {sectors : List Sector} {p d : Vec3} {s : Sector}
    (h : currentSector sectors p d = some s) : lookupSector sectors p d = .ok s := by
  unfold lookupSector; rw [h]

lemma stateForEnergy_skip (S : List Sector) (E : ℝ) (l1 : List Entry) (p x : Entry) (rest : List Entry)
    (h1 : ∀ z ∈ l1, E ≤ z.state.energy) (h2 : E ≤ x.state.energy) :
    stateForEnergyFrom S E p (l1 ++ x :: rest) = stateForEnergyFrom S E x rest := by
  induction l1 generalizing p with
  | nil => rw [List.nil_append, stateForEnergyFrom, if_neg (not_lt.2 h2)]
  | cons z l1 ih =>
    rw [List.cons_append, stateForEnergyFrom, if_neg (not_lt.2 (h1 z (by simp)))]
    exact ih z (fun w hw => h1 w (by simp [hw]))

lemma stateForDistance_skip (S : List Sector) (D : ℝ) (l1 : List Entry) (p x : Entry) (rest : List Entry)
    (h1 : ∀ z ∈ l1, z.state.distance ≤ D) (h2 : x.state.distance ≤ D) :
    stateForDistanceFrom S D p (l1 ++ x :: rest) = stateForDistanceFrom S D x rest := by
  induction l1 generalizing p with
  | nil => rw [List.nil_append, stateForDistanceFrom, if_neg (not_lt.2 h2)]
  | cons z l1 ih =>
    rw [List.cons_append, stateForDistanceFrom, if_neg (not_lt.2 (h1 z (by simp)))]
    exact ih z (fun w hw => h1 w (by simp [hw]))

/-- Position in a chain: everything before an element is related to it. -/
lemma chain_before {R : Entry → Entry → Prop} (hR : ∀ a b c, R a b → R b c → R a c)
    {l1 l2 : List Entry} {x : Entry} (h : List.IsChain R (l1 ++ x :: l2)) : ∀ z ∈ l1, R z x := by
  have ht : IsTrans Entry R := ⟨hR⟩
  rw [List.isChain_iff_pairwise] at h
  intro z hz
  exact (List.pairwise_append.1 h).2.2 z hz x (by simp)

end Proposal
