import Verif.Lemmas.CylinderForm
import Verif.Spec.Vec3
import Mathlib.Tactic.NormNum

/-! # C04, C05 (cylinder), C06 (cylinder) -/

namespace Proposal

open Spec

/-- **C04**, the part that holds. Take a cylinder with positive height and `inner < radius` and a ray whose line meets no
rim; for a hollow cylinder let the start not be closer than the precision to the material from outside. Then
`DistanceToBorder` reports exactly the forward border crossings, or exactly the two forward crossings in the wrong order; the
second happens only when the ray passes, ahead, an opening of the hole. Missing: the order, which is wrong in
`C04_order_counterexample`; starts within the precision of a hollow cylinder, see `C04_near_cap_counterexample`; lines
through a rim, see `C04_rim_counterexample`. -/
theorem C04_crossings_partial {c : Cylinder} (hR : 0 < c.radius) (hi : c.inner < c.radius) (hz : 0 < c.z) {p d : Vec3}
    (hd : UnitVec d) (ha : AvoidsRims c p d) (hs : 0 < c.inner → ClearStart c p) :
    Reports (cylinderCrossings c p d) (c.distanceToBorder p d) ∨
    (Reports (cylinderCrossings c p d) (c.distanceToBorder p d).swap ∧
      (c.distanceToBorder p d).2 < (c.distanceToBorder p d).1 ∧
      ∃ t, GEOMETRY_PRECISION ≤ t ∧ t < (c.distanceToBorder p d).2 ∧ |height c p d t| = c.z / 2 ∧
        0 < c.inner ∧ axisSq c p d t < c.inner ^ 2) := by
  have hp := prec_pos
  obtain ⟨f, hf, hcase⟩ := cylinder_form hR hi hz hd ha hs
  have hmem : ∀ t, t ∈ ahead f ↔ t ∈ cylinderCrossings c p d := by
    intro t; rw [mem_ahead, ← hf.changes]; rfl
  have hsort := ahead_sorted hf.sorted
  have hge : ∀ t ∈ ahead f, GEOMETRY_PRECISION ≤ t := fun t ht => (mem_ahead.1 ht).1
  rcases hcase with h | ⟨a, b, t, rfl, hab, ht, hta, hh, hhole, h⟩
  · left
    exact ⟨ahead f, hsort, hmem, by unfold Cylinder.distanceToBorder; rw [h, finalControl_border hge]⟩
  · right
    have hq : c.distanceToBorder p d = (b, a) := by
      unfold Cylinder.distanceToBorder
      rw [h, finalControl_two (by linarith) (by linarith)]
    rw [hq]
    refine ⟨⟨ahead [a, b], hsort, hmem, ?_⟩, hab, t, ht, hta, hh, hhole⟩
    rw [ahead_cons_pos (by linarith), ahead_cons_pos (by linarith), ahead_nil]
    rfl

/-- **C04** for solid cylinders, and for hollow ones when the ray passes no opening of the hole ahead: the forward border
crossings are reported exactly. -/
theorem C04_exact_partial {c : Cylinder} (hR : 0 < c.radius) (hi : c.inner < c.radius) (hz : 0 < c.z) {p d : Vec3}
    (hd : UnitVec d) (ha : AvoidsRims c p d) (hs : 0 < c.inner → ClearStart c p)
    (ho : 0 < c.inner → ∀ t, GEOMETRY_PRECISION ≤ t → |height c p d t| = c.z / 2 → c.inner ^ 2 < axisSq c p d t) :
    Reports (cylinderCrossings c p d) (c.distanceToBorder p d) := by
  rcases C04_crossings_partial hR hi hz hd ha hs with h | ⟨-, -, t, h1, -, h2, h3, h4⟩
  · exact h
  · exact absurd (ho h3 t h1 h2) (by linarith)

/-- **C04** in the words of the property: with a crossing ahead the first distance is the nearest one, the second one is
`-1` or farther away; without one both are `-1`. -/
theorem C04_nearest_partial {c : Cylinder} (hR : 0 < c.radius) (hi : c.inner < c.radius) (hz : 0 < c.z) {p d : Vec3}
    (hd : UnitVec d) (ha : AvoidsRims c p d) (hs : 0 < c.inner → ClearStart c p)
    (ho : 0 < c.inner → ∀ t, GEOMETRY_PRECISION ≤ t → |height c p d t| = c.z / 2 → c.inner ^ 2 < axisSq c p d t) :
    ((∀ t, GEOMETRY_PRECISION ≤ t → ¬ Changes (InCylinder c p d) t) → c.distanceToBorder p d = (-1, -1)) ∧
    (∀ t, GEOMETRY_PRECISION ≤ t → Changes (InCylinder c p d) t →
      Changes (InCylinder c p d) (c.distanceToBorder p d).1 ∧ GEOMETRY_PRECISION ≤ (c.distanceToBorder p d).1 ∧
      (c.distanceToBorder p d).1 ≤ t) ∧
    ((c.distanceToBorder p d).2 ≠ -1 → (c.distanceToBorder p d).1 < (c.distanceToBorder p d).2 ∧
      Changes (InCylinder c p d) (c.distanceToBorder p d).2 ∧
      ∀ t, (c.distanceToBorder p d).1 < t → t < (c.distanceToBorder p d).2 → ¬ Changes (InCylinder c p d) t) := by
  obtain ⟨l, hl, hm, hq⟩ := C04_exact_partial hR hi hz hd ha hs ho
  rw [hq]
  match l, hl, hm with
  | [], _, hm =>
    refine ⟨fun _ => rfl, fun t h1 h2 => ?_, fun h => absurd rfl h⟩
    have := (hm t).2 ⟨h1, h2⟩
    simp at this
  | [a], _, hm =>
    have ha := (hm a).1 (by simp)
    refine ⟨fun h => absurd ha.2 (h a ha.1), fun t h1 h2 => ⟨ha.2, ha.1, ?_⟩, fun h => absurd rfl h⟩
    have := (hm t).2 ⟨h1, h2⟩
    simp only [List.mem_singleton] at this
    exact this.ge
  | a :: b :: l, hl, hm =>
    have ha := (hm a).1 (by simp)
    have hb := (hm b).1 (by simp)
    simp only [List.pairwise_cons] at hl
    have hfst : (borderPair (a :: b :: l)).1 = a := by simp only [borderPair]; split_ifs <;> rfl
    rw [hfst]
    refine ⟨fun h => absurd ha.2 (h a ha.1), fun t h1 h2 => ⟨ha.2, ha.1, ?_⟩, fun h => ?_⟩
    · have := (hm t).2 ⟨h1, h2⟩
      rw [List.mem_cons] at this
      rcases this with h | h
      · exact h.ge
      · exact (hl.1 t h).le
    · have hsnd : (borderPair (a :: b :: l)).2 = b := by
        simp only [borderPair] at h ⊢
        split_ifs at h ⊢
        · rfl
        · exact absurd rfl h
      rw [hsnd]
      refine ⟨hl.1 b (by simp), hb.2, fun t h1 h2 hc => ?_⟩
      have := (hm t).2 ⟨by linarith [ha.1], hc⟩
      rw [List.mem_cons, List.mem_cons] at this
      rcases this with h | h | h
      · linarith
      · linarith
      · linarith [hl.2.1 t h]

/-! ## Hypotheses are met -/

/-- A slanted ray through wall, hole and wall of a hollow cylinder: no rim, a clear start, no opening ahead. -/
example : AvoidsRims ⟨0, 10, 1, 40⟩ ⟨-12, 0, 0⟩ ⟨3 / 5, 0, 4 / 5⟩ ∧ ClearStart ⟨0, 10, 1, 40⟩ ⟨-12, 0, 0⟩ ∧
    (∀ t, GEOMETRY_PRECISION ≤ t → |height ⟨0, 10, 1, 40⟩ ⟨-12, 0, 0⟩ ⟨3 / 5, 0, 4 / 5⟩ t| = 40 / 2 →
      1 ^ 2 < axisSq ⟨0, 10, 1, 40⟩ ⟨-12, 0, 0⟩ ⟨3 / 5, 0, 4 / 5⟩ t) ∧ UnitVec ⟨3 / 5, 0, 4 / 5⟩ := by
  have hp := prec_pos
  have key : ∀ t : ℝ, |height ⟨0, 10, 1, 40⟩ ⟨-12, 0, 0⟩ ⟨3 / 5, 0, 4 / 5⟩ t| = 40 / 2 → t = 25 ∨ t = -25 := by
    intro t ht
    simp only [height, Vec3.zero_z] at ht
    rcases abs_choice (0 + t * (4 / 5) - 0 : ℝ) with h | h <;> rw [h] at ht
    · left; linarith
    · right; linarith
  have h12 : Real.sqrt (axisSq ⟨0, 10, 1, 40⟩ ⟨-12, 0, 0⟩ 0 0) = 12 := by
    have : axisSq ⟨0, 10, 1, 40⟩ ⟨-12, 0, 0⟩ 0 0 = 12 ^ 2 := by simp [axisSq]
    rw [this]; exact Real.sqrt_sq (by norm_num)
  refine ⟨?_, ⟨?_, ?_, ?_⟩, ?_, by norm_num [UnitVec]⟩
  · intro t ht
    rcases key t ht with rfl | rfl <;> norm_num [axisSq]
  · intro _; rw [h12]; norm_num [GEOMETRY_PRECISION]
  · intro h; rw [h12] at h; norm_num at h
  · intro h; norm_num [height] at h
  · intro t ht hh
    rcases key t hh with rfl | rfl
    · norm_num [axisSq]
    · linarith

/-! ## Where the statement fails -/

lemma roots_of {c : Cylinder} {ρ : ℝ} {p d : Vec3} {m s : ℝ} (hC : 0 < d.x * d.x + d.y * d.y)
    (h1 : (p.x - c.center.x) * d.x + (p.y - c.center.y) * d.y = -m * (d.x * d.x + d.y * d.y))
    (h2 : (p.x - c.center.x) ^ 2 + (p.y - c.center.y) ^ 2 - ρ * ρ = (m ^ 2 - s ^ 2) * (d.x * d.x + d.y * d.y)) (hs : 0 < s) :
    c.roots ρ p d = some (snap (m + s), snap (m - s)) := by
  unfold Cylinder.roots
  rw [if_pos (fun h => by rw [h.1, h.2] at hC; norm_num at hC)]
  simp only []
  rw [h1, h2]
  generalize d.x * d.x + d.y * d.y = C at *
  have e1 : 2 * (-m * C) / C = -2 * m := by field_simp
  have e2 : (m ^ 2 - s ^ 2) * C / C = m ^ 2 - s ^ 2 := by field_simp
  rw [e1, e2]
  have e3 : 0.25 * (-2 * m) * (-2 * m) - (m ^ 2 - s ^ 2) = s ^ 2 := by ring
  rw [e3, if_pos (by positivity), Real.sqrt_sq hs.le]
  have e4 : -1 * (-2 * m) / 2 = m := by ring
  rw [e4]

/-- **C04** is false: a ray comes down into the hole of a hollow cylinder through its opening, enters the material at
`20/3` and leaves it at `15/2`. All hypotheses of `C04_crossings_partial` hold, and the reported pair is `(15/2, 20/3)`: the
first distance is the larger one, and is not the nearest crossing. -/
theorem C04_order_counterexample :
    let c : Cylinder := ⟨0, 10, 1, 2⟩
    let p : Vec3 := ⟨-3, 0, 5⟩
    let d : Vec3 := ⟨3 / 5, 0, -4 / 5⟩
    UnitVec d ∧ AvoidsRims c p d ∧ ClearStart c p ∧ c.distanceToBorder p d = (15 / 2, 20 / 3) ∧
      Changes (InCylinder c p d) (20 / 3) := by
  intro c p d
  have hp := prec_pos
  have hP : GEOMETRY_PRECISION ≤ 1 := by unfold GEOMETRY_PRECISION; norm_num
  have hR : c.roots c.radius p d = some (snap (65 / 3), snap (-(35 / 3))) := by
    have := roots_of (c := c) (ρ := c.radius) (p := p) (d := d) (m := 5) (s := 50 / 3) (by norm_num [d])
      (by norm_num [c, p, d]) (by norm_num [c, p, d]) (by norm_num)
    rw [this]; norm_num
  have hI : c.roots c.inner p d = some (snap (20 / 3), snap (10 / 3)) := by
    have := roots_of (c := c) (ρ := c.inner) (p := p) (d := d) (m := 5) (s := 5 / 3) (by norm_num [d])
      (by norm_num [c, p, d]) (by norm_num [c, p, d]) (by norm_num)
    rw [this]; norm_num
  have hbar : c.barrelHits p d = [] := by
    unfold Cylinder.barrelHits
    rw [hR]
    simp only [barrelHit_eq]
    rw [hitIf_neg, hitIf_neg]
    · rfl
    · rintro ⟨h, _⟩; linarith
    · rintro ⟨_, h⟩; norm_num [height, c, p, d, abs_of_neg] at h
  have ncap : ¬ c.onCap p d 5 := by
    rw [onCap_iff (by norm_num [c])]
    rintro ⟨_, h⟩
    exact h ⟨by norm_num [c], by norm_num [axisSq, c, p, d]⟩
  have ocap : c.onCap p d (15 / 2) := by
    rw [onCap_iff (by norm_num [c])]
    refine ⟨by norm_num [axisSq, c, p, d], ?_⟩
    rintro ⟨_, h⟩
    norm_num [axisSq, c, p, d] at h
  have hcap : c.capHits p d = [15 / 2] := by
    unfold Cylinder.capHits
    have hdz : d.z ≠ 0 := by norm_num [d]
    rw [faceHit_list _ _ _ hdz, faceHit_list _ _ _ hdz]
    have e1 : (c.center.z + 0.5 * c.z - p.z) / d.z = 5 := by norm_num [c, p, d]
    have e2 : (c.center.z - 0.5 * c.z - p.z) / d.z = 15 / 2 := by norm_num [c, p, d]
    rw [e1, e2, hitIf_neg (fun h => ncap h.2), hitIf_pos ⟨by linarith, ocap⟩]
    rfl
  have hnot : ¬ c.holds p := by
    rw [holds_iff c p d]
    rintro ⟨h, _⟩
    norm_num [height, c, p] at h
  have hq : c.distanceToBorder p d = (15 / 2, 20 / 3) := by
    unfold Cylinder.distanceToBorder
    have hsel : Cylinder.select (c.hits p d) = (15 / 2, -1) := by
      rw [hits_dist, hbar, hcap]; simp [distOf, Cylinder.select]
    rw [hsel]
    unfold Cylinder.hollow
    rw [if_pos (by norm_num [c]), hI]
    simp only []
    rw [snap_of_ge (by linarith), snap_of_ge (by linarith),
      innerUpdate_opening (by norm_num) (by norm_num) (by norm_num) (by rw [inHeight_iff, abs_lt]; norm_num [height, c, p, d]) hnot]
    exact finalControl_two (by linarith) (by linarith)
  have havoid : AvoidsRims c p d := by
    intro t ht
    have : t = 5 ∨ t = 15 / 2 := by
      simp only [height, c, p, d, Vec3.zero_z] at ht
      rcases abs_choice (5 + t * (-4 / 5) - 0 : ℝ) with h | h <;> rw [h] at ht
      · left; linarith
      · right; linarith
    rcases this with rfl | rfl <;> norm_num [axisSq, c, p, d]
  have h3 : Real.sqrt (axisSq c p 0 0) = 3 := by
    have : axisSq c p 0 0 = 3 ^ 2 := by norm_num [axisSq, c, p]
    rw [this]; exact Real.sqrt_sq (by norm_num)
  have hclear : ClearStart c p := by
    refine ⟨?_, ?_, ?_⟩
    · intro h; rw [h3] at h; norm_num [c] at h
    · intro h; rw [h3] at h; norm_num [c] at h
    · intro _; norm_num [height, c, p]; linarith
  have hunit : UnitVec d := by norm_num [UnitVec, d]
  refine ⟨hunit, havoid, hclear, hq, ?_⟩
  rcases C04_crossings_partial (c := c) (p := p) (d := d) (by norm_num [c]) (by norm_num [c]) (by norm_num [c]) hunit havoid
    (fun _ => hclear) with ⟨l, hl, hm, h⟩ | ⟨⟨l, hl, hm, h⟩, -⟩
  · exfalso
    rw [hq] at h
    match l, hl, h with
    | [], _, h => norm_num [borderPair] at h
    | [a], _, h => norm_num [borderPair] at h
    | a :: b :: l, hl, h =>
      simp only [List.pairwise_cons] at hl
      have hab := hl.1 b (by simp)
      simp only [borderPair] at h
      split_ifs at h
      · rw [Prod.mk.injEq] at h; linarith [h.1, h.2]
      · rw [Prod.mk.injEq] at h; linarith [h.1, h.2]
  · rw [hq] at h
    match l, hm, h with
    | [], _, h => norm_num [borderPair] at h
    | [a], _, h => norm_num [borderPair] at h
    | a :: b :: l, hm, h =>
      have ha := ((hm a).1 (by simp)).2
      simp only [borderPair, Prod.swap] at h
      split_ifs at h
      · rw [Prod.mk.injEq] at h; rw [h.1]; exact ha
      · rw [Prod.mk.injEq] at h; linarith [h.2]

/-- **C04** is false near a cap: a particle `10⁻¹⁰` above the cap of a hollow cylinder moves into it; the cap counts as
passed, and the crossings ahead are at `1/2`, `23/6` and `113/6`. Reported is `(113/6, 23/6)`: the nearest crossing is
missing, and the particle counts as in front of the cylinder. -/
theorem C04_near_cap_counterexample :
    let c : Cylinder := ⟨0, 10, 1, 20⟩
    let p : Vec3 := ⟨-13 / 10, 0, 10 + 1 / 10 ^ 10⟩
    let d : Vec3 := ⟨3 / 5, 0, -4 / 5⟩
    UnitVec d ∧ AvoidsRims c p d ∧ c.distanceToBorder p d = (113 / 6, 23 / 6) ∧
      (∀ t, 1 / 10 ^ 9 ≤ t → t < 1 / 2 → InCylinder c p d t) ∧ (∀ t, 1 / 2 < t → t < 23 / 6 → ¬ InCylinder c p d t) := by
  intro c p d
  have hp := prec_pos
  have hP : GEOMETRY_PRECISION ≤ 1 / 2 := by unfold GEOMETRY_PRECISION; norm_num
  have hR : c.roots c.radius p d = some (snap (113 / 6), snap (-(29 / 2))) := by
    have := roots_of (c := c) (ρ := c.radius) (p := p) (d := d) (m := 13 / 6) (s := 50 / 3) (by norm_num [d])
      (by norm_num [c, p, d]) (by norm_num [c, p, d]) (by norm_num)
    rw [this]; norm_num
  have hI : c.roots c.inner p d = some (snap (23 / 6), snap (1 / 2)) := by
    have := roots_of (c := c) (ρ := c.inner) (p := p) (d := d) (m := 13 / 6) (s := 5 / 3) (by norm_num [d])
      (by norm_num [c, p, d]) (by norm_num [c, p, d]) (by norm_num)
    rw [this]; norm_num
  have hbar : c.barrelHits p d = [113 / 6] := by
    unfold Cylinder.barrelHits
    rw [hR]
    simp only [barrelHit_eq]
    rw [hitIf_pos, hitIf_neg]
    · rfl
    · rintro ⟨h, _⟩; linarith
    · refine ⟨by linarith, ?_⟩
      rw [abs_lt]; norm_num [height, c, p, d]
  have ncap : ¬ c.onCap p d (25 + 1 / (8 * 10 ^ 9)) := by
    rw [onCap_iff (by norm_num [c])]
    rintro ⟨h, _⟩
    norm_num [axisSq, c, p, d] at h
  have hcap : c.capHits p d = [] := by
    unfold Cylinder.capHits
    have hdz : d.z ≠ 0 := by norm_num [d]
    rw [faceHit_list _ _ _ hdz, faceHit_list _ _ _ hdz]
    have e1 : (c.center.z + 0.5 * c.z - p.z) / d.z = 1 / (8 * 10 ^ 9) := by norm_num [c, p, d]
    have e2 : (c.center.z - 0.5 * c.z - p.z) / d.z = 25 + 1 / (8 * 10 ^ 9) := by norm_num [c, p, d]
    rw [e1, e2, hitIf_neg, hitIf_neg (fun h => ncap h.2)]
    · rfl
    · rintro ⟨h, _⟩; norm_num [GEOMETRY_PRECISION] at h
  have hnot : ¬ c.holds p := by
    rw [holds_iff c p d]
    rintro ⟨h, _⟩
    norm_num [height, c, p, abs_of_pos] at h
  refine ⟨by norm_num [UnitVec, d], ?_, ?_, ?_, ?_⟩
  · intro t ht
    have : t = 1 / (8 * 10 ^ 9) ∨ t = 25 + 1 / (8 * 10 ^ 9) := by
      simp only [height, c, p, d, Vec3.zero_z] at ht
      rcases abs_choice (10 + 1 / 10 ^ 10 + t * (-4 / 5) - 0 : ℝ) with h | h <;> rw [h] at ht
      · left; linarith
      · right; linarith
    rcases this with rfl | rfl <;> norm_num [axisSq, c, p, d]
  · unfold Cylinder.distanceToBorder
    have hsel : Cylinder.select (c.hits p d) = (113 / 6, -1) := by
      rw [hits_dist, hbar, hcap]; simp [distOf, Cylinder.select]
    rw [hsel]
    unfold Cylinder.hollow
    rw [if_pos (by norm_num [c]), hI]
    simp only []
    rw [snap_of_ge (by linarith), snap_of_ge hP,
      innerUpdate_opening (by norm_num) (by norm_num) (by norm_num) (by rw [inHeight_iff, abs_lt]; norm_num [height, c, p, d]) hnot]
    exact finalControl_two (by linarith) (by linarith)
  · intro t h1 h2
    have h0 : (0 : ℝ) < 1 / 10 ^ 9 := by norm_num
    refine ⟨?_, fun _ => ?_, ?_⟩
    · simp only [axisSq, c, p, d, Vec3.zero_x, Vec3.zero_y]; nlinarith
    · simp only [axisSq, c, p, d, Vec3.zero_x, Vec3.zero_y]; nlinarith
    · simp only [height, c, p, d, Vec3.zero_z, abs_lt]; constructor
      · norm_num; linarith
      · norm_num at h1 ⊢; linarith
  · intro t h1 h2 h
    have := h.2.1 (by norm_num [c])
    simp only [axisSq, c, p, d, Vec3.zero_x, Vec3.zero_y] at this
    nlinarith

/-- **C04** is false for a ray that only touches a rim of a solid cylinder: one border is reported, so the particle counts
as inside although it and its whole way are outside. -/
theorem C04_rim_counterexample :
    let c : Cylinder := ⟨0, 10, 0, 2⟩
    let p : Vec3 := ⟨7, 0, 5⟩
    let d : Vec3 := ⟨3 / 5, 0, -4 / 5⟩
    UnitVec d ∧ (∀ t, ¬ InCylinder c p d t) ∧ c.distanceToBorder p d = (5, -1) ∧ (c.toGeo 0).isInside p d := by
  intro c p d
  have hp := prec_pos
  have hP : GEOMETRY_PRECISION ≤ 1 / 2 := by unfold GEOMETRY_PRECISION; norm_num
  have hR : c.roots c.radius p d = some (snap 5, snap (-(85 / 3))) := by
    have := roots_of (c := c) (ρ := c.radius) (p := p) (d := d) (m := -(35 / 3)) (s := 50 / 3) (by norm_num [d])
      (by norm_num [c, p, d]) (by norm_num [c, p, d]) (by norm_num)
    rw [this]; norm_num
  have hbar : c.barrelHits p d = [] := by
    unfold Cylinder.barrelHits
    rw [hR]
    simp only [barrelHit_eq]
    rw [hitIf_neg, hitIf_neg]
    · rfl
    · rintro ⟨h, _⟩; linarith
    · rintro ⟨_, h⟩; norm_num [height, c, p, d] at h
  have ocap : c.onCap p d 5 := by
    rw [onCap_iff (by norm_num [c])]
    refine ⟨by norm_num [axisSq, c, p, d], ?_⟩
    rintro ⟨h, _⟩
    norm_num [c] at h
  have ncap : ¬ c.onCap p d (15 / 2) := by
    rw [onCap_iff (by norm_num [c])]
    rintro ⟨h, _⟩
    norm_num [axisSq, c, p, d] at h
  have hcap : c.capHits p d = [5] := by
    unfold Cylinder.capHits
    have hdz : d.z ≠ 0 := by norm_num [d]
    rw [faceHit_list _ _ _ hdz, faceHit_list _ _ _ hdz]
    have e1 : (c.center.z + 0.5 * c.z - p.z) / d.z = 5 := by norm_num [c, p, d]
    have e2 : (c.center.z - 0.5 * c.z - p.z) / d.z = 15 / 2 := by norm_num [c, p, d]
    rw [e1, e2, hitIf_pos ⟨by linarith, ocap⟩, hitIf_neg (fun h => ncap h.2)]
    rfl
  have hq : c.distanceToBorder p d = (5, -1) := by
    unfold Cylinder.distanceToBorder
    have hsel : Cylinder.select (c.hits p d) = (5, -1) := by
      rw [hits_dist, hbar, hcap]; simp [distOf, Cylinder.select]
    rw [hsel]
    unfold Cylinder.hollow
    rw [if_neg (by norm_num [c])]
    exact finalControl_one (by linarith)
  refine ⟨by norm_num [UnitVec, d], ?_, hq, ?_⟩
  · rintro t ⟨h1, -, h2⟩
    simp only [axisSq, c, p, d, Vec3.zero_x, Vec3.zero_y] at h1
    simp only [height, c, p, d, Vec3.zero_z, abs_lt] at h2
    have : 5 < t := by linarith [h2.2]
    nlinarith
  · unfold Geo.isInside Cylinder.toGeo
    simp only [hq]
    norm_num

/-! ## Location -/

/-- **C05** for cylinders: the pair has the documented shape for every ray. -/
theorem C05_cylinder_valid (c : Cylinder) (n : ℕ) (p d : Vec3) : ValidPair ((c.toGeo n).dist p d) := finalControl_valid _

lemma left_ge {a P : ℝ} (h : P ≤ a) : ∀ᶠ s in nhdsWithin P (Set.Iio P), s < a := by
  filter_upwards [eventually_mem_nhdsWithin] with s hs
  exact lt_of_lt_of_le hs h

/-- A stretch holds just before `P` when it begins before and does not end before. -/
lemma left_between {a b P : ℝ} :
    (a < P ∧ P ≤ b → ∀ᶠ s in nhdsWithin P (Set.Iio P), a < s ∧ s < b) ∧
    (¬ (a < P ∧ P ≤ b) → ∀ᶠ s in nhdsWithin P (Set.Iio P), ¬ (a < s ∧ s < b)) := by
  constructor
  · rintro ⟨h1, h2⟩
    exact (lt_left_iff.2 h1).and (left_ge h2)
  · intro h
    by_cases h1 : a < P
    · have h2 : b < P := not_le.1 fun h2 => h ⟨h1, h2⟩
      filter_upwards [lt_left_iff.2 h2] with s hs hc
      linarith [hc.2]
    · filter_upwards [left_ge (not_lt.1 h1)] with s hs hc
      linarith [hc.1]

/-- The reported pair says inside exactly when the set holds just before the precision. -/
lemma Form.inside {M : ℝ → Prop} {f : List ℝ} (h : Form M f) :
    ((borderPair (ahead f)).1 > 0 ∧ (borderPair (ahead f)).2 < 0) ↔
      ∀ᶠ s in nhdsWithin GEOMETRY_PRECISION (Set.Iio GEOMETRY_PRECISION), M s := by
  have hp := prec_pos
  have yes : ∀ {x : ℝ}, 0 < x → ((x, (-1 : ℝ)).1 > 0 ∧ (x, (-1 : ℝ)).2 < 0) := fun h => ⟨h, by norm_num⟩
  have no : ∀ {x y : ℝ}, 0 < y → ¬ ((x, y).1 > 0 ∧ (x, y).2 < 0) := fun h h' => by linarith [h'.2]
  have no' : ¬ (((-1 : ℝ), (-1 : ℝ)).1 > 0 ∧ ((-1 : ℝ), (-1 : ℝ)).2 < 0) := fun h' => by linarith [h'.1]
  rcases h with ⟨rfl, hM⟩ | ⟨a, b, x, rfl, hab, hM⟩ | ⟨a, b, c, e, rfl, hab, hbc, hce, hM⟩
  · refine iff_of_false no' fun h => ?_
    obtain ⟨s, hs⟩ := h.exists
    exact hM s hs
  · have hx : ∀ᶠ s in nhdsWithin GEOMETRY_PRECISION (Set.Iio GEOMETRY_PRECISION), s ≠ x := by
      by_cases h : x < GEOMETRY_PRECISION
      · filter_upwards [lt_left_iff.2 h] with s hs; exact hs.ne'
      · filter_upwards [left_ge (not_lt.1 h)] with s hs; exact hs.ne
    have key : (∀ᶠ s in nhdsWithin GEOMETRY_PRECISION (Set.Iio GEOMETRY_PRECISION), M s) ↔
        a < GEOMETRY_PRECISION ∧ GEOMETRY_PRECISION ≤ b := by
      constructor
      · intro h
        by_contra hn
        obtain ⟨s, ⟨h1, h2⟩, h3⟩ := ((h.and hx).and (left_between.2 hn)).exists
        exact h3 ((hM s h2).1 h1)
      · intro h
        filter_upwards [left_between.1 h, hx] with s h1 h2
        exact (hM s h2).2 h1
    rw [key]
    by_cases h1 : GEOMETRY_PRECISION ≤ a
    · rw [ahead_cons_pos h1, ahead_cons_pos (by linarith), ahead_nil]
      exact iff_of_false (no (by linarith)) (fun h => by linarith [h.1])
    · rw [ahead_cons_neg (not_le.1 h1)]
      by_cases h2 : GEOMETRY_PRECISION ≤ b
      · rw [ahead_cons_pos h2, ahead_nil]
        exact iff_of_true (yes (by linarith)) ⟨not_le.1 h1, h2⟩
      · rw [ahead_cons_neg (not_le.1 h2), ahead_nil]
        exact iff_of_false no' (fun h => h2 h.2)
  · have key : (∀ᶠ s in nhdsWithin GEOMETRY_PRECISION (Set.Iio GEOMETRY_PRECISION), M s) ↔
        (a < GEOMETRY_PRECISION ∧ GEOMETRY_PRECISION ≤ b) ∨ (c < GEOMETRY_PRECISION ∧ GEOMETRY_PRECISION ≤ e) := by
      constructor
      · intro h
        by_contra hn
        rw [not_or] at hn
        obtain ⟨s, ⟨h1, h2⟩, h3⟩ := ((h.and (left_between.2 hn.1)).and (left_between.2 hn.2)).exists
        rcases (hM s).1 h1 with h | h
        · exact h2 h
        · exact h3 h
      · rintro (h | h)
        · filter_upwards [left_between.1 h] with s h1
          exact (hM s).2 (Or.inl h1)
        · filter_upwards [left_between.1 h] with s h1
          exact (hM s).2 (Or.inr h1)
    rw [key]
    by_cases h1 : GEOMETRY_PRECISION ≤ a
    · rw [ahead_cons_pos h1, ahead_cons_pos (by linarith), ahead_cons_pos (by linarith), ahead_cons_pos (by linarith), ahead_nil]
      have : borderPair [a, b, c, e] = (a, b) := by simp [borderPair]
      rw [this]
      exact iff_of_false (no (by linarith)) (by rintro (h | h) <;> linarith [h.1])
    rw [ahead_cons_neg (not_le.1 h1)]
    by_cases h2 : GEOMETRY_PRECISION ≤ b
    · rw [ahead_cons_pos h2, ahead_cons_pos (by linarith), ahead_cons_pos (by linarith), ahead_nil]
      have : borderPair [b, c, e] = (b, -1) := by simp [borderPair]
      rw [this]
      exact iff_of_true (yes (by linarith)) (Or.inl ⟨not_le.1 h1, h2⟩)
    rw [ahead_cons_neg (not_le.1 h2)]
    by_cases h3 : GEOMETRY_PRECISION ≤ c
    · rw [ahead_cons_pos h3, ahead_cons_pos (by linarith), ahead_nil]
      exact iff_of_false (no (by linarith)) (by rintro (h | h) <;> linarith [h.1, h.2])
    rw [ahead_cons_neg (not_le.1 h3)]
    by_cases h4 : GEOMETRY_PRECISION ≤ e
    · rw [ahead_cons_pos h4, ahead_nil]
      exact iff_of_true (yes (by linarith)) (Or.inr ⟨not_le.1 h3, h4⟩)
    · rw [ahead_cons_neg (not_le.1 h4), ahead_nil]
      exact iff_of_false no' (by rintro (h | h) <;> linarith [h.1, h.2])

/-- **C06** (cylinder), for lines that meet no rim and, with a hole, starts that are not within the precision outside of the
material: inside means exactly that the ray point just short of `GEOMETRY_PRECISION` ahead is in the open material. This
includes the rays for which the two distances come in the wrong order. Missing: lines through a rim and starts within the
precision, where it is false by `C04_rim_counterexample` and `C04_near_cap_counterexample`. -/
theorem C06_cylinder_inside_partial {c : Cylinder} (hR : 0 < c.radius) (hi : c.inner < c.radius) (hz : 0 < c.z) (n : ℕ)
    {p d : Vec3} (hd : UnitVec d) (ha : AvoidsRims c p d) (hs : 0 < c.inner → ClearStart c p) :
    (c.toGeo n).isInside p d ↔
      ∀ᶠ s in nhdsWithin GEOMETRY_PRECISION (Set.Iio GEOMETRY_PRECISION), InCylinder c p d s := by
  have hp := prec_pos
  obtain ⟨f, hf, hcase⟩ := cylinder_form hR hi hz hd ha hs
  have hge : ∀ t ∈ ahead f, GEOMETRY_PRECISION ≤ t := fun t ht => (mem_ahead.1 ht).1
  rw [← hf.inside]
  unfold Geo.isInside Cylinder.toGeo Cylinder.distanceToBorder
  simp only []
  rcases hcase with h | ⟨a, b, t, rfl, hab, ht, hta, hh, hhole, h⟩
  · rw [h, finalControl_border hge]
  · rw [h, finalControl_two (by linarith) (by linarith), ahead_cons_pos (by linarith), ahead_cons_pos (by linarith), ahead_nil]
    refine iff_of_false (fun h' => ?_) (fun h' => ?_)
    · have := h'.2; simp only [] at this; linarith
    · have : (borderPair [a, b]).2 < 0 := h'.2
      simp [borderPair] at this
      linarith

end Proposal
