import Verif.Spec.Geometry
import Verif.Lemmas.Vec3
import Mathlib.Tactic.Linarith
import Mathlib.Tactic.Ring
import Mathlib.Tactic.FieldSimp

/-! Helper lemmas for the sphere. -/

namespace Proposal

lemma prec_pos : 0 < GEOMETRY_PRECISION := by unfold GEOMETRY_PRECISION; positivity

lemma snap_of_neg {t : ℝ} (h : t ≤ 0) : snap t = t := by
  unfold snap; rw [if_neg]; intro h'; linarith [h'.1]

lemma snap_of_ge {t : ℝ} (h : GEOMETRY_PRECISION ≤ t) : snap t = t := by
  unfold snap; rw [if_neg]; intro h'; linarith [h'.2]

lemma snap_of_small {t : ℝ} (h0 : 0 < t) (h : t < GEOMETRY_PRECISION) : snap t = 0 := by
  unfold snap; rw [if_pos ⟨h0, h⟩]

lemma snap_pos_iff {t : ℝ} : 0 < snap t ↔ GEOMETRY_PRECISION ≤ t := by
  have hp := prec_pos
  unfold snap
  split_ifs with h
  · constructor
    · intro h'; linarith
    · intro h'; linarith [h.2]
  · constructor
    · intro h'; by_contra hc; exact h ⟨h', lt_of_not_ge hc⟩
    · intro h'; linarith

/-- `|p + t d - c|²` for a unit direction. -/
lemma rayDistSq_eq (c p d : Vec3) (hd : d.mag = 1) (t : ℝ) :
    Spec.rayDistSq c p d t = t ^ 2 + 2 * t * (p - c).dot d + (p - c).mag ^ 2 := by
  have h1 := (Vec3.mag_eq_one_iff d).1 hd
  have h2 := Vec3.mag_sq (p - c)
  rw [h2]
  unfold Spec.rayDistSq
  simp only [Vec3.dot, Vec3.sub_x, Vec3.sub_y, Vec3.sub_z] at *
  linear_combination t ^ 2 * h1

lemma crossesSphere_iff (c p d : Vec3) (hd : d.mag = 1) (ρ t : ℝ) :
    Spec.CrossesSphere c p d ρ t ↔
      0 < ρ ∧ 0 < ((p - c).dot d) * ((p - c).dot d) - ((p - c).mag ^ 2 - ρ * ρ) ∧
      (t = -1 * (p - c).dot d + Real.sqrt (((p - c).dot d) * ((p - c).dot d) - ((p - c).mag ^ 2 - ρ * ρ)) ∨
       t = -1 * (p - c).dot d - Real.sqrt (((p - c).dot d) * ((p - c).dot d) - ((p - c).mag ^ 2 - ρ * ρ))) := by
  unfold Spec.CrossesSphere
  simp only [rayDistSq_eq c p d hd]
  generalize (p - c).dot d = B
  generalize (p - c).mag ^ 2 = l2
  set D := B * B - (l2 - ρ * ρ) with hD
  constructor
  · rintro ⟨hρ, h1, s, hs⟩
    have hpos : 0 < D := by rw [hD]; nlinarith [sq_nonneg (s + B)]
    refine ⟨hρ, hpos, ?_⟩
    have h2 : (t + B) ^ 2 = D := by rw [hD]; linear_combination h1
    have h3 : (t + B - Real.sqrt D) * (t + B + Real.sqrt D) = 0 := by
      have := Real.mul_self_sqrt hpos.le
      linear_combination h2 - this
    rcases mul_eq_zero.1 h3 with h | h
    · left; linarith
    · right; linarith
  · rintro ⟨hρ, hpos, h⟩
    have hs := Real.mul_self_sqrt hpos.le
    refine ⟨hρ, ?_, -B, ?_⟩
    · rcases h with h | h <;> rw [h] <;> linear_combination hs + hD
    · rw [hD] at hpos; nlinarith


lemma snap_nonpos_iff {t : ℝ} : snap t ≤ 0 ↔ t < GEOMETRY_PRECISION := by
  rw [← not_lt, snap_pos_iff, not_le]

lemma outer_val {R l2 B : ℝ} (hdet : 0 < B * B - (l2 - R * R)) :
    Sphere.outer R l2 B =
      (if GEOMETRY_PRECISION ≤ -1 * B - Real.sqrt (B * B - (l2 - R * R)) then
        (-1 * B - Real.sqrt (B * B - (l2 - R * R)), -1 * B + Real.sqrt (B * B - (l2 - R * R)))
      else if GEOMETRY_PRECISION ≤ -1 * B + Real.sqrt (B * B - (l2 - R * R)) then
        (-1 * B + Real.sqrt (B * B - (l2 - R * R)), -1)
      else (-1, -1)) := by
  have hp := prec_pos
  have hs : 0 < Real.sqrt (B * B - (l2 - R * R)) := Real.sqrt_pos.2 hdet
  unfold Sphere.outer
  simp only []
  rw [if_pos hdet]
  generalize Real.sqrt (B * B - (l2 - R * R)) = s at *
  have e1 : -1 * B + s = (-1 * B - s) + 2 * s := by ring
  generalize -1 * B - s = a at *
  rw [e1]
  have hm : (-1 : ℝ) < 0 := by norm_num
  have hm' : ¬ (0 : ℝ) < -1 := by norm_num
  by_cases h2 : GEOMETRY_PRECISION ≤ a
  · have h1 : GEOMETRY_PRECISION ≤ a + 2 * s := by linarith
    have f1 : ¬ a + 2 * s ≤ 0 := by linarith
    have f2 : ¬ a ≤ 0 := by linarith
    have f3 : ¬ a + 2 * s < 0 := by linarith
    have f4 : a < a + 2 * s := by linarith
    have f5 : a + 2 * s > 0 ∧ a > 0 := ⟨by linarith, by linarith⟩
    simp only [h2, snap_of_ge h1, snap_of_ge h2, f1, f2, f3, f4, f5, swapIf, if_true, if_false,
      and_self]
  · rw [if_neg h2]
    rw [not_le] at h2
    have n2 := snap_nonpos_iff.2 h2
    by_cases h1 : GEOMETRY_PRECISION ≤ a + 2 * s
    · have f1 : ¬ a + 2 * s ≤ 0 := by linarith
      have f3 : ¬ a + 2 * s < 0 := by linarith
      simp only [h1, snap_of_ge h1, n2, f1, f3, hm', swapIf, if_true, if_false, gt_iff_lt,
        and_false]
    · have n1 := snap_nonpos_iff.2 (lt_of_not_ge h1)
      simp only [h1, n1, n2, hm, hm', swapIf, if_true, if_false, and_false]

lemma outer_none {R l2 B : ℝ} (hdet : ¬ 0 < B * B - (l2 - R * R)) :
    Sphere.outer R l2 B = (-1, -1) := by
  unfold Sphere.outer
  simp only []
  rw [if_neg hdet]

/-- The hollow part in terms of the crossings `b < a` of the inner sphere. -/
lemma hollow_val {r l2 B : ℝ} (hr : 0 < r) (hdet : 0 < B * B - (l2 - r * r)) (q : ℝ × ℝ)
    (i1 i2 : ℝ) (h1 : i1 = -1 * B + Real.sqrt (B * B - (l2 - r * r)))
    (h2 : i2 = -1 * B - Real.sqrt (B * B - (l2 - r * r))) :
    (∀ o1 o2, q = (o2, o1) → GEOMETRY_PRECISION ≤ o2 → o2 < i2 → i1 < o1 →
      Sphere.hollow r l2 B q = (o2, i2)) ∧
    (∀ o1, q = (o1, -1) → GEOMETRY_PRECISION ≤ o1 →
      Sphere.hollow r l2 B q =
        if GEOMETRY_PRECISION ≤ i2 then (i2, -1)
        else if GEOMETRY_PRECISION ≤ i1 then (i1, o1)
        else (o1, -1)) := by
  have hp := prec_pos
  have hs : 0 < Real.sqrt (B * B - (l2 - r * r)) := Real.sqrt_pos.2 hdet
  have hi : i2 < i1 := by rw [h1, h2]; linarith
  unfold Sphere.hollow
  simp only []
  rw [if_pos hr, if_pos hdet, ← h1, ← h2]
  clear h1 h2 hs hdet
  constructor
  · rintro o1 o2 rfl hP ho hi1
    have e1 : snap i1 = i1 := snap_of_ge (by linarith)
    have e2 : snap i2 = i2 := snap_of_ge (by linarith)
    rw [e1, e2]
    simp only []
    rw [if_pos ⟨by linarith, by linarith⟩]
    have a1 : i1 > 0 := by linarith
    have a2 : i2 > 0 := by linarith
    simp only [a1, a2, hi1, hi, if_true]
  · rintro o1 rfl hP
    simp only []
    rw [if_neg (by intro h; linarith [h.2])]
    by_cases c2 : GEOMETRY_PRECISION ≤ i2
    · have e1 : snap i1 = i1 := snap_of_ge (by linarith)
      have e2 : snap i2 = i2 := snap_of_ge (by linarith)
      rw [e1, e2, if_pos c2, if_neg (show ¬ i2 = 0 by intro h; linarith),
        if_neg (show ¬ i1 = 0 by intro h; linarith),
        if_neg (show ¬((i1 > 0 ∧ i2 < 0) ∨ (i2 > 0 ∧ i1 < 0)) by
          rintro (h | h) <;> linarith [h.1, h.2]),
        if_pos (show i1 > 0 ∧ i2 > 0 from ⟨by linarith, by linarith⟩), if_neg (by linarith)]
    · rw [if_neg c2]
      rw [not_le] at c2
      have n2 := snap_nonpos_iff.2 c2
      by_cases c1 : GEOMETRY_PRECISION ≤ i1
      · have e1 : snap i1 = i1 := snap_of_ge c1
        rw [e1, if_pos c1, if_neg (show ¬ i1 = 0 by intro h; linarith),
          if_neg (show ¬(i1 > 0 ∧ snap i2 > 0) by intro h; linarith [h.2])]
        by_cases z : snap i2 = 0
        · rw [if_pos z, if_pos (by linarith), if_neg (by
            rintro (h | h)
            · linarith [h.2]
            · linarith [h.1])]
        · rw [if_neg z]
          have : snap i2 < 0 := lt_of_le_of_ne n2 z
          rw [if_pos (Or.inl ⟨by linarith, this⟩), if_pos (by linarith)]
      · rw [if_neg c1]
        rw [not_le] at c1
        have n1 := snap_nonpos_iff.2 c1
        rw [if_neg (show ¬(snap i1 > 0 ∧ snap i2 > 0) by intro h; linarith [h.2]),
          if_neg (show ¬((snap i1 > 0 ∧ snap i2 < 0) ∨ (snap i2 > 0 ∧ snap i1 < 0)) by
            rintro (h | h) <;> linarith [h.1, h.2])]
        rw [if_neg (show ¬ snap i2 > 0 by linarith), if_neg (show ¬ snap i1 > 0 by linarith)]
        simp

lemma hollow_id {r l2 B : ℝ} (h : ¬ (0 < r ∧ 0 < B * B - (l2 - r * r))) (q : ℝ × ℝ) :
    Sphere.hollow r l2 B q = q := by
  unfold Sphere.hollow
  simp only []
  by_cases hr : r > 0
  · rw [if_pos hr, if_neg (fun h' => h ⟨hr, h'⟩)]
  · rw [if_neg hr]

lemma finalControl_two {a b : ℝ} (ha : GEOMETRY_PRECISION ≤ a) (hb : GEOMETRY_PRECISION ≤ b) :
    finalControl (a, b) = (a, b) := by
  have hp := prec_pos
  unfold finalControl swapIf
  simp only []
  rw [if_neg (not_lt.2 ha), if_neg (not_lt.2 hb), if_neg (by linarith)]

lemma finalControl_one {a : ℝ} (ha : GEOMETRY_PRECISION ≤ a) :
    finalControl (a, -1) = (a, -1) := by
  have hp := prec_pos
  unfold finalControl swapIf
  simp only []
  have h1 : (-1 : ℝ) < GEOMETRY_PRECISION := by linarith
  have h2 : ¬ a < 0 := by linarith
  simp only [not_lt.2 ha, h1, h2, if_true, if_false]

lemma finalControl_none : finalControl (-1, -1) = (-1, -1) := by
  have hp := prec_pos
  unfold finalControl swapIf
  simp only []
  have h1 : (-1 : ℝ) < GEOMETRY_PRECISION := by linarith
  simp [h1]


lemma finalControl_valid (q : ℝ × ℝ) : Spec.ValidPair (finalControl q) := by
  have hp := prec_pos
  unfold finalControl swapIf Spec.ValidPair
  by_cases h1 : q.1 < GEOMETRY_PRECISION
  · by_cases h2 : q.2 < GEOMETRY_PRECISION
    · left; simp [h1, h2]
    · right; left
      have : 0 < q.2 := by linarith
      simp [h1, h2, this]
  · have h1' : 0 < q.1 := by linarith
    have h1'' : ¬ q.1 < 0 := by linarith
    by_cases h2 : q.2 < GEOMETRY_PRECISION
    · right; left
      simp [h1, h2, h1', h1'']
    · right; right
      have : 0 < q.2 := by linarith
      simp [h1, h2, h1', h1'', this]

lemma sphere_valid (S : Sphere) (p d : Vec3) : Spec.ValidPair (S.distanceToBorder p d) := by
  unfold Sphere.distanceToBorder
  simp only []
  by_cases hdet : 0 < ((p - S.center).dot d) * ((p - S.center).dot d)
      - ((p - S.center).mag ^ 2 - S.radius * S.radius)
  · rw [outer_val hdet]
    split_ifs with h1 h2 h3 h4 <;> first | exact finalControl_valid _ | skip
    · exfalso; linarith [h2.1, prec_pos]
    · exfalso; simp only [] at h4; linarith [h4.1, prec_pos]
    · left; rfl
  · rw [outer_none hdet]
    norm_num
    left; rfl

lemma lt_left_iff {o P : ℝ} : (∀ᶠ s in nhdsWithin P (Set.Iio P), o < s) ↔ o < P := by
  constructor
  · intro h
    have h2 : ∀ᶠ s in nhdsWithin P (Set.Iio P), s < P := eventually_mem_nhdsWithin
    obtain ⟨s, h3, h4⟩ := (h.and h2).exists
    linarith
  · intro h
    exact nhdsWithin_le_nhds (lt_mem_nhds h)

lemma prod_left (a b P : ℝ) (hab : b < a) :
    ((∀ᶠ s in nhdsWithin P (Set.Iio P), (s - a) * (s - b) < 0) ↔ (b < P ∧ P ≤ a)) ∧
    ((∀ᶠ s in nhdsWithin P (Set.Iio P), 0 < (s - a) * (s - b)) ↔ ¬ (b < P ∧ P ≤ a)) := by
  have h2 : ∀ᶠ s in nhdsWithin P (Set.Iio P), s < P := eventually_mem_nhdsWithin
  have neg : (b < P ∧ P ≤ a) → ∀ᶠ s in nhdsWithin P (Set.Iio P), (s - a) * (s - b) < 0 := by
    rintro ⟨h, h'⟩
    filter_upwards [h2, lt_left_iff.2 h] with s hs hs'
    nlinarith
  have pos : ¬(b < P ∧ P ≤ a) → ∀ᶠ s in nhdsWithin P (Set.Iio P), 0 < (s - a) * (s - b) := by
    intro h
    by_cases hb : b < P
    · have ha : a < P := by by_contra hc; exact h ⟨hb, not_lt.1 hc⟩
      filter_upwards [lt_left_iff.2 ha] with s hs
      nlinarith
    · filter_upwards [h2] with s hs
      nlinarith
  have excl : ¬ ((∀ᶠ s in nhdsWithin P (Set.Iio P), (s - a) * (s - b) < 0) ∧
      (∀ᶠ s in nhdsWithin P (Set.Iio P), 0 < (s - a) * (s - b))) := by
    rintro ⟨h, h'⟩
    obtain ⟨s, h3, h4⟩ := (h.and h').exists
    linarith
  constructor
  · refine ⟨fun h => ?_, neg⟩
    by_contra hc
    exact excl ⟨h, pos hc⟩
  · refine ⟨fun h hc => excl ⟨neg hc, h⟩, pos⟩

/-- classification in terms of the roots. -/
lemma sphere_inside_roots (S : Sphere) (hr : S.inner < S.radius) (hR : 0 < S.radius)
    (l2 B : ℝ) :
    (let q := Sphere.outer S.radius l2 B
     let res := if q.1 < 0 ∧ q.2 < 0 then q else finalControl (Sphere.hollow S.inner l2 B q)
     res.1 > 0 ∧ res.2 < 0) ↔
    ((0 < B * B - (l2 - S.radius * S.radius) ∧
      -1 * B - Real.sqrt (B * B - (l2 - S.radius * S.radius)) < GEOMETRY_PRECISION ∧
      GEOMETRY_PRECISION ≤ -1 * B + Real.sqrt (B * B - (l2 - S.radius * S.radius))) ∧
     ¬ ((0 < S.inner ∧ 0 < B * B - (l2 - S.inner * S.inner)) ∧
      -1 * B - Real.sqrt (B * B - (l2 - S.inner * S.inner)) < GEOMETRY_PRECISION ∧
      GEOMETRY_PRECISION ≤ -1 * B + Real.sqrt (B * B - (l2 - S.inner * S.inner)))) := by
  have hp := prec_pos
  generalize S.radius = R at *
  generalize S.inner = r at *
  simp only []
  by_cases hdet : 0 < B * B - (l2 - R * R)
  · rw [outer_val hdet]
    have hs : 0 < Real.sqrt (B * B - (l2 - R * R)) := Real.sqrt_pos.2 hdet
    by_cases hin : 0 < r ∧ 0 < B * B - (l2 - r * r)
    · obtain ⟨hr0, hdet'⟩ := hin
      have hs' : 0 < Real.sqrt (B * B - (l2 - r * r)) := Real.sqrt_pos.2 hdet'
      have hss : Real.sqrt (B * B - (l2 - r * r)) < Real.sqrt (B * B - (l2 - R * R)) := by
        apply Real.sqrt_lt_sqrt hdet'.le
        nlinarith
      have H := fun q => hollow_val hr0 hdet' q _ _ rfl rfl
      simp only [hdet, hdet', hr0, true_and]
      generalize Real.sqrt (B * B - (l2 - R * R)) = s at *
      generalize Real.sqrt (B * B - (l2 - r * r)) = s' at *
      by_cases c1 : GEOMETRY_PRECISION ≤ -1 * B - s
      · rw [if_pos c1]
        simp only []
        rw [if_neg (by intro h; linarith [h.1]), (H _).1 _ _ rfl c1 (by linarith) (by linarith),
            finalControl_two c1 (by linarith)]
        constructor
        · rintro ⟨h1, h2⟩; simp only [] at h2; linarith
        · rintro ⟨h1, h2⟩; linarith [h1.1]
      · rw [if_neg c1]
        by_cases c2 : GEOMETRY_PRECISION ≤ -1 * B + s
        · rw [if_pos c2]
          simp only []
          rw [if_neg (by intro h; linarith [h.1]), (H _).2 _ rfl c2]
          by_cases c3 : GEOMETRY_PRECISION ≤ -1 * B - s'
          · rw [if_pos c3, finalControl_one c3]
            refine ⟨fun _ => ⟨⟨by linarith, c2⟩, fun h => by linarith [h.1]⟩, fun _ => ⟨by linarith, by norm_num⟩⟩
          · rw [if_neg c3]
            by_cases c4 : GEOMETRY_PRECISION ≤ -1 * B + s'
            · rw [if_pos c4, finalControl_two c4 c2]
              refine ⟨fun h => by simp only [] at h; linarith [h.2], fun h => absurd ⟨by linarith, c4⟩ h.2⟩
            · rw [if_neg c4, finalControl_one c2]
              refine ⟨fun _ => ⟨⟨by linarith, c2⟩, fun h => by linarith [h.2]⟩, fun _ => ⟨by linarith, by norm_num⟩⟩
        · rw [if_neg c2]
          norm_num
          intro _ h; exfalso; apply c2; linarith
    · simp only [hin, hdet, true_and, false_and, not_false_eq_true, and_true, hollow_id hin]
      generalize Real.sqrt (B * B - (l2 - R * R)) = s at *
      by_cases c1 : GEOMETRY_PRECISION ≤ -1 * B - s
      · rw [if_pos c1]
        simp only []
        rw [if_neg (by intro h; linarith [h.1]), finalControl_two c1 (by linarith)]
        refine ⟨fun h => by simp only [] at h; linarith [h.2], fun h => by linarith [h.1]⟩
      · rw [if_neg c1]
        by_cases c2 : GEOMETRY_PRECISION ≤ -1 * B + s
        · rw [if_pos c2]
          simp only []
          rw [if_neg (by intro h; linarith [h.1]), finalControl_one c2]
          refine ⟨fun _ => ⟨by linarith, c2⟩, fun _ => ⟨by linarith, by norm_num⟩⟩
        · rw [if_neg c2]
          norm_num
          intro _; linarith
  · rw [outer_none hdet]
    norm_num
    intro h; exact absurd (by linarith) hdet

end Proposal
