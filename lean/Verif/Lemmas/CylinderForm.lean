import Verif.Lemmas.Cylinder

/-! The cylinder on a ray: from coordinates to intervals. -/

namespace Proposal

open Spec

/-- The ray point at `t` lies in the open cylinder without its hole. -/
def InFull (c : Cylinder) (p d : Vec3) (t : ℝ) : Prop := axisSq c p d t < c.radius ^ 2 ∧ |height c p d t| < c.z / 2

/-- The ray point at `t` lies in the open infinite hole. -/
def InHole (c : Cylinder) (p d : Vec3) (t : ℝ) : Prop := 0 < c.inner ∧ axisSq c p d t < c.inner ^ 2

lemma axisSq_nonneg (c : Cylinder) (p d : Vec3) (t : ℝ) : 0 ≤ axisSq c p d t := by unfold axisSq; positivity

lemma inHeight_iff (c : Cylinder) (p d : Vec3) (t : ℝ) : c.inHeight p d t ↔ |height c p d t| < c.z / 2 := by
  unfold Cylinder.inHeight height
  rw [abs_lt]
  constructor
  · rintro ⟨h1, h2⟩; constructor <;> linarith
  · rintro ⟨h1, h2⟩; constructor <;> linarith

lemma axisDist_eq (c : Cylinder) (p d : Vec3) (t : ℝ) : c.axisDist p d t = Real.sqrt (axisSq c p d t) := rfl

lemma onCap_iff {c : Cylinder} (hR : 0 ≤ c.radius) (p d : Vec3) (t : ℝ) :
    c.onCap p d t ↔ axisSq c p d t ≤ c.radius ^ 2 ∧ ¬ InHole c p d t := by
  unfold Cylinder.onCap InHole
  rw [axisDist_eq, Real.sqrt_le_left hR]
  refine and_congr_right fun _ => ?_
  constructor
  · rintro h ⟨h1, h2⟩
    have := (Real.le_sqrt h1.le (axisSq_nonneg c p d t)).1 h
    linarith
  · intro h
    by_cases h1 : 0 < c.inner
    · exact (Real.le_sqrt h1.le (axisSq_nonneg c p d t)).2 (not_lt.1 fun h2 => h ⟨h1, h2⟩)
    · exact (not_lt.1 h1).trans (Real.sqrt_nonneg _)

lemma roots_parallel (c : Cylinder) (ρ : ℝ) {p d : Vec3} (h : d.x = 0 ∧ d.y = 0) : c.roots ρ p d = none := by
  unfold Cylinder.roots
  rw [if_neg (not_not.2 h)]

/-- The intersections with a barrel. -/
lemma roots_cases (c : Cylinder) (ρ : ℝ) (p d : Vec3) (h : ¬ (d.x = 0 ∧ d.y = 0)) :
    (∃ t1 t2 C : ℝ, t2 < t1 ∧ 0 < C ∧ c.roots ρ p d = some (snap t1, snap t2) ∧
      ∀ t, axisSq c p d t - ρ ^ 2 = C * ((t - t1) * (t - t2))) ∨
    (c.roots ρ p d = none ∧ ∃ m C e : ℝ, 0 < C ∧ 0 ≤ e ∧ ∀ t, axisSq c p d t - ρ ^ 2 = C * ((t - m) ^ 2 + e)) := by
  have hC : 0 < d.x * d.x + d.y * d.y := by
    by_contra hn
    have h1 : d.x * d.x = 0 := by nlinarith [mul_self_nonneg d.x, mul_self_nonneg d.y]
    have h2 : d.y * d.y = 0 := by nlinarith [mul_self_nonneg d.x, mul_self_nonneg d.y]
    exact h ⟨mul_self_eq_zero.1 h1, mul_self_eq_zero.1 h2⟩
  unfold Cylinder.roots
  rw [if_pos h]
  simp only []
  set C := d.x * d.x + d.y * d.y with hCdef
  set A := (p.x - c.center.x) ^ 2 + (p.y - c.center.y) ^ 2 - ρ * ρ with hA
  set B := 2 * ((p.x - c.center.x) * d.x + (p.y - c.center.y) * d.y) with hB
  have hpoly : ∀ t, axisSq c p d t - ρ ^ 2 = C * (t ^ 2 + B / C * t + A / C) := by
    intro t
    have : C * (t ^ 2 + B / C * t + A / C) = C * t ^ 2 + B * t + A := by field_simp
    rw [this, hCdef, hA, hB]
    unfold axisSq
    ring
  by_cases hdet : 0.25 * (B / C) * (B / C) - A / C > 0
  · left
    rw [if_pos hdet]
    have hs := Real.sqrt_pos.2 hdet
    have hss := Real.mul_self_sqrt hdet.le
    refine ⟨_, _, C, ?_, hC, rfl, ?_⟩
    · linarith
    · intro t
      rw [hpoly]
      congr 1
      generalize Real.sqrt (0.25 * (B / C) * (B / C) - A / C) = s at *
      generalize B / C = b at *
      generalize A / C = a at *
      linear_combination hss
  · right
    rw [if_neg hdet]
    refine ⟨rfl, -(B / C) / 2, C, -(0.25 * (B / C) * (B / C) - A / C), hC, by linarith, ?_⟩
    intro t
    rw [hpoly]
    ring

lemma faceHit_list (b : ℝ) (p d : ℝ) (hd : d ≠ 0) (ok : ℝ → Prop) (l : List (Option ℝ)) :
    (faceHit b p d ok :: l).filterMap id = hitIf (GEOMETRY_PRECISION ≤ (b - p) / d ∧ ok ((b - p) / d)) ((b - p) / d) ++
      l.filterMap id := by
  unfold faceHit
  rw [if_pos hd]
  simp only []
  by_cases h : GEOMETRY_PRECISION ≤ (b - p) / d
  · have hs := snap_of_ge h
    have h0 : (b - p) / d > 0 := by linarith [prec_pos]
    rw [hs]
    by_cases ho : ok ((b - p) / d)
    · rw [if_pos h0, if_pos ho, hitIf_pos ⟨h, ho⟩]; rfl
    · rw [if_pos h0, if_neg ho, hitIf_neg (fun h => ho h.2)]; rfl
  · have : ¬ snap ((b - p) / d) > 0 := fun hs => h (snap_pos_iff.1 hs)
    rw [if_neg this, hitIf_neg (fun h' => h h'.1)]; rfl

/-- The times at which a ray that is not horizontal reaches the planes of the caps. -/
lemma cap_times (c : Cylinder) (hz : 0 < c.z) (p d : Vec3) (hd : d.z ≠ 0) :
    ∃ ca cb : ℝ, ca < cb ∧ (∀ t, |height c p d t| < c.z / 2 ↔ ca < t ∧ t < cb) ∧ |height c p d ca| = c.z / 2 ∧
      |height c p d cb| = c.z / 2 ∧ (∀ t, |height c p d t| ≤ c.z / 2 ↔ ca ≤ t ∧ t ≤ cb) ∧
      (c.capHits p d = hitIf (GEOMETRY_PRECISION ≤ ca ∧ c.onCap p d ca) ca ++
          hitIf (GEOMETRY_PRECISION ≤ cb ∧ c.onCap p d cb) cb ∨
        c.capHits p d = hitIf (GEOMETRY_PRECISION ≤ cb ∧ c.onCap p d cb) cb ++
          hitIf (GEOMETRY_PRECISION ≤ ca ∧ c.onCap p d ca) ca) := by
  have hhit : c.capHits p d =
      hitIf (GEOMETRY_PRECISION ≤ (c.center.z + 0.5 * c.z - p.z) / d.z ∧ c.onCap p d ((c.center.z + 0.5 * c.z - p.z) / d.z))
        ((c.center.z + 0.5 * c.z - p.z) / d.z) ++
      hitIf (GEOMETRY_PRECISION ≤ (c.center.z - 0.5 * c.z - p.z) / d.z ∧ c.onCap p d ((c.center.z - 0.5 * c.z - p.z) / d.z))
        ((c.center.z - 0.5 * c.z - p.z) / d.z) := by
    unfold Cylinder.capHits
    rw [faceHit_list _ _ _ hd, faceHit_list _ _ _ hd]
    simp
  have h1 : height c p d ((c.center.z + 0.5 * c.z - p.z) / d.z) = c.z / 2 := by
    unfold height; field_simp; ring
  have h2 : height c p d ((c.center.z - 0.5 * c.z - p.z) / d.z) = -(c.z / 2) := by
    unfold height; field_simp; ring
  have hlin : ∀ s t, height c p d t - height c p d s = (t - s) * d.z := by
    intro s t; unfold height; ring
  set t1 := (c.center.z + 0.5 * c.z - p.z) / d.z
  set t2 := (c.center.z - 0.5 * c.z - p.z) / d.z
  have l1 := fun t => hlin t1 t
  have l2 := fun t => hlin t2 t
  rw [h1] at l1
  rw [h2] at l2
  have a1 : |height c p d t1| = c.z / 2 := by rw [h1, abs_of_pos (by linarith)]
  have a2 : |height c p d t2| = c.z / 2 := by rw [h2, abs_neg, abs_of_pos (by linarith)]
  have h12 := l2 t1
  rw [h1] at h12
  rcases lt_or_gt_of_ne hd with hn | hpz
  · refine ⟨t1, t2, by nlinarith, ?_, a1, a2, ?_, Or.inl hhit⟩
    · intro t
      rw [abs_lt]
      have := l1 t; have := l2 t
      constructor
      · rintro ⟨x, y⟩; constructor <;> nlinarith
      · rintro ⟨x, y⟩; constructor <;> nlinarith
    · intro t
      rw [abs_le]
      have := l1 t; have := l2 t
      constructor
      · rintro ⟨x, y⟩; constructor <;> nlinarith
      · rintro ⟨x, y⟩; constructor <;> nlinarith
  · have hpz' : 0 < d.z := hpz
    refine ⟨t2, t1, by nlinarith, ?_, a2, a1, ?_, Or.inr hhit⟩
    · intro t
      rw [abs_lt]
      have := l1 t; have := l2 t
      constructor
      · rintro ⟨x, y⟩; constructor <;> nlinarith
      · rintro ⟨x, y⟩; constructor <;> nlinarith
    · intro t
      rw [abs_le]
      have := l1 t; have := l2 t
      constructor
      · rintro ⟨x, y⟩; constructor <;> nlinarith
      · rintro ⟨x, y⟩; constructor <;> nlinarith

lemma capHits_horizontal (c : Cylinder) {p d : Vec3} (hd : d.z = 0) : c.capHits p d = [] := by
  simp [Cylinder.capHits, faceHit, hd]

lemma barrelHit_eq (c : Cylinder) (p d : Vec3) (t : ℝ) :
    c.barrelHit p d (snap t) = hitIf (GEOMETRY_PRECISION ≤ t ∧ |height c p d t| < c.z / 2) t := by
  unfold Cylinder.barrelHit
  by_cases h : GEOMETRY_PRECISION ≤ t
  · have h0 : t > 0 := by linarith [prec_pos]
    rw [snap_of_ge h, if_pos h0, inHeight_iff]
    by_cases hz : |height c p d t| < c.z / 2
    · rw [if_pos hz, hitIf_pos ⟨h, hz⟩]
    · rw [if_neg hz, hitIf_neg (fun h => hz h.2)]
  · rw [if_neg (fun hs => h (snap_pos_iff.1 hs)), hitIf_neg (fun h' => h h'.1)]

lemma hits_dist (c : Cylinder) (p d : Vec3) : c.hits p d = distOf (c.barrelHits p d) (c.capHits p d) := rfl

lemma quad_lt {x y C t t1 t2 : ℝ} (hC : 0 < C) (h12 : t2 < t1) (h : x - y = C * ((t - t1) * (t - t2))) :
    x < y ↔ t2 < t ∧ t < t1 := by
  constructor
  · intro hxy
    have hneg : (t - t1) * (t - t2) < 0 := by
      by_contra hn
      have := mul_nonneg hC.le (not_lt.1 hn)
      linarith
    constructor
    · by_contra hn
      have := mul_nonneg_of_nonpos_of_nonpos (show t - t1 ≤ 0 by linarith) (show t - t2 ≤ 0 by linarith)
      linarith
    · by_contra hn
      have := mul_nonneg (show 0 ≤ t - t1 by linarith) (show 0 ≤ t - t2 by linarith)
      linarith
  · rintro ⟨h1, h2⟩
    have := mul_neg_of_pos_of_neg hC (mul_neg_of_neg_of_pos (show t - t1 < 0 by linarith) (show 0 < t - t2 by linarith))
    linarith

lemma quad_le {x y C t t1 t2 : ℝ} (hC : 0 < C) (h12 : t2 < t1) (h : x - y = C * ((t - t1) * (t - t2))) :
    x ≤ y ↔ t2 ≤ t ∧ t ≤ t1 := by
  constructor
  · intro hxy
    have hneg : (t - t1) * (t - t2) ≤ 0 := by
      by_contra hn
      have := mul_pos hC (not_le.1 hn)
      linarith
    constructor
    · by_contra hn
      have := mul_pos_of_neg_of_neg (show t - t1 < 0 by linarith) (show t - t2 < 0 by linarith)
      linarith
    · by_contra hn
      have := mul_pos (show 0 < t - t1 by linarith) (show 0 < t - t2 by linarith)
      linarith
  · rintro ⟨h1, h2⟩
    have := mul_nonpos_of_nonneg_of_nonpos hC.le
      (mul_nonpos_of_nonpos_of_nonneg (show t - t1 ≤ 0 by linarith) (show 0 ≤ t - t2 by linarith))
    linarith

/-- A line that misses the barrel. -/
lemma outer_miss {c : Cylinder} (hR : 0 < c.radius) (hz : 0 < c.z) {p d : Vec3} (ha : AvoidsRims c p d)
    (hroots : c.roots c.radius p d = none) (hge : ∀ t, c.radius ^ 2 ≤ axisSq c p d t) :
    (∀ t, ¬ InFull c p d t) ∧ Cylinder.select (c.hits p d) = (-1, -1) := by
  have hbar : c.barrelHits p d = [] := by unfold Cylinder.barrelHits; rw [hroots]
  have hcap : c.capHits p d = [] := by
    by_cases hdz : d.z = 0
    · exact capHits_horizontal c hdz
    · obtain ⟨ca, cb, hc, hopen, ra, rb, -, hcap⟩ := cap_times c hz p d hdz
      have key : ∀ t, |height c p d t| = c.z / 2 → ¬ (GEOMETRY_PRECISION ≤ t ∧ c.onCap p d t) := by
        rintro t ht ⟨_, h⟩
        have h1 := ((onCap_iff hR.le p d t).1 h).1
        exact (ha t ht).1 (le_antisymm h1 (hge t))
      rw [hitIf_neg (key _ ra), hitIf_neg (key _ rb)] at hcap
      rcases hcap with h | h <;> exact h
  refine ⟨fun t h => by linarith [h.1, hge t], ?_⟩
  rw [hits_dist, hbar, hcap]
  simp [distOf, Cylinder.select]

/-- What the outer phase computes: the ends of the stretch in the full cylinder that are ahead and not in the hole. -/
lemma outer_form {c : Cylinder} (hR : 0 < c.radius) (hi : c.inner < c.radius) (hz : 0 < c.z) {p d : Vec3}
    (hd : 0 < d.x ^ 2 + d.y ^ 2 + d.z ^ 2) (ha : AvoidsRims c p d) :
    ((∀ t, ¬ InFull c p d t) ∧ Cylinder.select (c.hits p d) = (-1, -1)) ∨
    ∃ L U : ℝ, L < U ∧ (∀ t, InFull c p d t ↔ L < t ∧ t < U) ∧
      (axisSq c p d L = c.radius ^ 2 ∨ |height c p d L| = c.z / 2) ∧
      (axisSq c p d U = c.radius ^ 2 ∨ |height c p d U| = c.z / 2) ∧
      Cylinder.select (c.hits p d) = pairOf (¬ InHole c p d L ∧ GEOMETRY_PRECISION ≤ L) L
        (¬ InHole c p d U ∧ GEOMETRY_PRECISION ≤ U) U := by
  have hri : 0 < c.inner → c.inner ^ 2 < c.radius ^ 2 := fun h => by nlinarith
  have nohole : ∀ t, axisSq c p d t = c.radius ^ 2 → ¬ InHole c p d t := by
    rintro t ht ⟨h1, h2⟩
    have := hri h1
    linarith
  have hsel0 : Cylinder.select (distOf [] []) = (-1, -1) := by simp [distOf, Cylinder.select]
  by_cases hpar : d.x = 0 ∧ d.y = 0
  · -- parallel to the axis
    have hdz : d.z ≠ 0 := by
      intro h; rw [hpar.1, hpar.2, h] at hd; norm_num at hd
    obtain ⟨ca, cb, hc, hopen, ra, rb, -, hcap⟩ := cap_times c hz p d hdz
    have hconst : ∀ s t, axisSq c p d s = axisSq c p d t := by
      intro s t; unfold axisSq; rw [hpar.1, hpar.2]; ring
    have hbar : c.barrelHits p d = [] := by unfold Cylinder.barrelHits; rw [roots_parallel c _ hpar]
    rw [hits_dist, hbar]
    have hdist : ∀ k, distOf [] k = k := by intro k; simp [distOf]
    rw [hdist]
    by_cases hr : axisSq c p d ca < c.radius ^ 2
    · right
      refine ⟨ca, cb, hc, ?_, Or.inr ra, Or.inr rb, ?_⟩
      · intro t
        unfold InFull
        rw [hopen, hconst t ca]
        simp only [hr, true_and]
      · have h1 : (GEOMETRY_PRECISION ≤ ca ∧ c.onCap p d ca) ↔ (¬ InHole c p d ca ∧ GEOMETRY_PRECISION ≤ ca) := by
          rw [onCap_iff hR.le]; simp only [hr.le, true_and, and_comm]
        have h2 : (GEOMETRY_PRECISION ≤ cb ∧ c.onCap p d cb) ↔ (¬ InHole c p d cb ∧ GEOMETRY_PRECISION ≤ cb) := by
          rw [onCap_iff hR.le, hconst cb ca]; simp only [hr.le, true_and, and_comm]
        rw [h1, h2] at hcap
        exact select_caps hc _ _ _ hcap
    · left
      have hne := (ha ca ra).1
      have hgt : c.radius ^ 2 < axisSq c p d ca := lt_of_le_of_ne (not_lt.1 hr) (Ne.symm hne)
      refine ⟨fun t h => ?_, ?_⟩
      · have := h.1
        rw [hconst t ca] at this
        linarith
      · have h1 : ¬ (GEOMETRY_PRECISION ≤ ca ∧ c.onCap p d ca) := by
          rw [onCap_iff hR.le]; rintro ⟨_, h, _⟩; linarith
        have h2 : ¬ (GEOMETRY_PRECISION ≤ cb ∧ c.onCap p d cb) := by
          rw [onCap_iff hR.le, hconst cb ca]; rintro ⟨_, h, _⟩; linarith
        rw [hitIf_neg h1, hitIf_neg h2] at hcap
        rcases hcap with h | h <;> rw [h] <;> rfl
  · rcases roots_cases c c.radius p d hpar with ⟨R1, R2, C, hlt, hC, hroots, hpoly⟩ | ⟨hroots, m, C, e, hC, he, hpoly⟩
    · have hbar : c.barrelHits p d = hitIf (GEOMETRY_PRECISION ≤ R1 ∧ |height c p d R1| < c.z / 2) R1 ++
          hitIf (GEOMETRY_PRECISION ≤ R2 ∧ |height c p d R2| < c.z / 2) R2 := by
        unfold Cylinder.barrelHits
        rw [hroots]
        simp only [barrelHit_eq]
      have q1 : axisSq c p d R1 = c.radius ^ 2 := by have := hpoly R1; simp at this; linarith
      have q2 : axisSq c p d R2 = c.radius ^ 2 := by have := hpoly R2; simp at this; linarith
      have hin : ∀ t, axisSq c p d t < c.radius ^ 2 ↔ R2 < t ∧ t < R1 := fun t => quad_lt hC hlt (hpoly t)
      have hinle : ∀ t, axisSq c p d t ≤ c.radius ^ 2 ↔ R2 ≤ t ∧ t ≤ R1 := fun t => quad_le hC hlt (hpoly t)
      rw [hits_dist, hbar]
      by_cases hdz : d.z = 0
      · rw [capHits_horizontal c hdz]
        have hconst : ∀ s t, height c p d s = height c p d t := by
          intro s t; unfold height; rw [hdz]; ring
        by_cases hh : |height c p d R1| < c.z / 2
        · right
          refine ⟨R2, R1, hlt, ?_, Or.inl q2, Or.inl q1, ?_⟩
          · intro t
            unfold InFull
            rw [hconst t R1, hin]
            simp only [hh, and_true]
          · rw [hconst R2 R1]
            have e5 : ∀ a b : List ℝ, distOf (a ++ b) [] = a ++ b := by
              intro a b; unfold distOf; split_ifs <;> simp
            rw [e5, select_caps hlt _ _ _ (Or.inr rfl)]
            simp only [hh, and_true, nohole R1 q1, nohole R2 q2, not_false_eq_true, true_and]
        · left
          refine ⟨fun t h => ?_, ?_⟩
          · have := h.2
            rw [hconst t R1] at this
            exact hh this
          · rw [hconst R2 R1, hitIf_neg (fun h => hh h.2), hitIf_neg (fun h => hh h.2)]
            exact hsel0
      · obtain ⟨ca, cb, hc, hopen, ra, rb, -, hcap⟩ := cap_times c hz p d hdz
        have ha1 := (ha ca ra).1
        have ha2 := (ha cb rb).1
        have o := outer_select (P := GEOMETRY_PRECISION) (hida := InHole c p d ca) (hidb := InHole c p d cb) hlt hc
          (fun h => ha1 (by rw [h]; exact q1)) (fun h => ha1 (by rw [h]; exact q2))
          (fun h => ha2 (by rw [h]; exact q1)) (fun h => ha2 (by rw [h]; exact q2)) (c.capHits p d)
          (by rw [onCap_iff hR.le, onCap_iff hR.le, hinle, hinle] at hcap; exact hcap)
        rw [hopen, hopen]
        by_cases hLU : max R2 ca < min R1 cb
        · right
          have mL : (ca < R2 ∧ max R2 ca = R2) ∨ (R2 < ca ∧ max R2 ca = ca) := by
            rcases lt_or_gt_of_ne (show ca ≠ R2 from fun h => ha1 (by rw [h]; exact q2)) with h | h
            · exact Or.inl ⟨h, max_eq_left h.le⟩
            · exact Or.inr ⟨h, max_eq_right (le_of_lt h)⟩
          have mU : (R1 < cb ∧ min R1 cb = R1) ∨ (cb < R1 ∧ min R1 cb = cb) := by
            rcases lt_or_gt_of_ne (show cb ≠ R1 from fun h => ha2 (by rw [h]; exact q1)) with h | h
            · exact Or.inr ⟨h, min_eq_right h.le⟩
            · exact Or.inl ⟨h, min_eq_left (le_of_lt h)⟩
          refine ⟨max R2 ca, min R1 cb, hLU, ?_, ?_, ?_, ?_⟩
          · intro t
            unfold InFull
            rw [hin, hopen, max_lt_iff, lt_min_iff]
            exact ⟨fun h => ⟨⟨h.1.1, h.2.1⟩, h.1.2, h.2.2⟩, fun h => ⟨⟨h.1.1, h.2.1⟩, h.1.2, h.2.2⟩⟩
          · rcases mL with ⟨_, h⟩ | ⟨_, h⟩ <;> rw [h]
            · exact Or.inl q2
            · exact Or.inr ra
          · rcases mU with ⟨_, h⟩ | ⟨_, h⟩ <;> rw [h]
            · exact Or.inl q1
            · exact Or.inr rb
          · rw [o.1 hLU]
            have eL : (ca < R2 ∨ ¬ InHole c p d ca) ↔ ¬ InHole c p d (max R2 ca) := by
              rcases mL with ⟨h1, h⟩ | ⟨h1, h⟩ <;> rw [h]
              · simp only [h1, true_or, nohole R2 q2, not_false_eq_true]
              · simp only [not_lt.2 h1.le, false_or]
            have eU : (R1 < cb ∨ ¬ InHole c p d cb) ↔ ¬ InHole c p d (min R1 cb) := by
              rcases mU with ⟨h1, h⟩ | ⟨h1, h⟩ <;> rw [h]
              · simp only [h1, true_or, nohole R1 q1, not_false_eq_true]
              · simp only [not_lt.2 h1.le, false_or]
            rw [eL, eU]
        · left
          refine ⟨?_, o.2 hLU⟩
          rintro t ⟨h1, h2⟩
          rw [hin] at h1
          rw [hopen] at h2
          exact hLU (lt_trans (max_lt h1.1 h2.1) (lt_min h1.2 h2.2))
    · -- the line misses the barrel
      left
      refine outer_miss hR hz ha hroots fun t => ?_
      have h1 := hpoly t
      have h2 := mul_nonneg hC.le (add_nonneg (sq_nonneg (t - m)) he)
      linarith

/-- A start in the closed full cylinder is not before the stretch in it. -/
lemma full_start {c : Cylinder} {p d : Vec3} {L U : ℝ} (hLU : L < U) (hM : ∀ t, InFull c p d t ↔ L < t ∧ t < U)
    (h1 : axisSq c p d 0 ≤ c.radius ^ 2) (h2 : |height c p d 0| ≤ c.z / 2) : L ≤ 0 := by
  by_contra hL
  rw [not_le] at hL
  obtain ⟨m1, m2⟩ := (hM ((L + U) / 2)).2 ⟨by linarith, by linarith⟩
  have hm : 0 < (L + U) / 2 := by linarith
  generalize (L + U) / 2 = m at *
  have hlt : L < m := ((hM m).1 ⟨m1, m2⟩).1
  -- the point at `L` is a mixture of the start and of the point at `m`
  have hlam : L = (L / m) * m := by field_simp
  have l0 : 0 < L / m := div_pos hL hm
  have l1 : L / m < 1 := (div_lt_one hm).2 hlt
  generalize L / m = k at *
  have hL' : InFull c p d L := by
    refine ⟨?_, ?_⟩
    · have hconv : axisSq c p d L ≤ (1 - k) * axisSq c p d 0 + k * axisSq c p d m := by
        have e : (1 - k) * axisSq c p d 0 + k * axisSq c p d m - axisSq c p d L =
            k * (1 - k) * ((m * d.x) ^ 2 + (m * d.y) ^ 2) := by
          rw [hlam]; unfold axisSq; ring
        have : 0 ≤ k * (1 - k) * ((m * d.x) ^ 2 + (m * d.y) ^ 2) := by
          have : 0 < 1 - k := by linarith
          positivity
        linarith
      nlinarith
    · have e : height c p d L = (1 - k) * height c p d 0 + k * height c p d m := by
        rw [hlam]; unfold height; ring
      rw [abs_lt] at m2 ⊢
      rw [abs_le] at h2
      rw [e]
      constructor <;> nlinarith [h2.1, h2.2, m2.1, m2.2]
  have := ((hM L).1 hL').1
  exact lt_irrefl _ this

lemma zero_axisSq (c : Cylinder) (p d : Vec3) : axisSq c p 0 0 = axisSq c p d 0 := by unfold axisSq; simp
lemma zero_height (c : Cylinder) (p d : Vec3) : height c p 0 0 = height c p d 0 := by unfold height; simp

lemma holds_iff (c : Cylinder) (p d : Vec3) : c.holds p ↔ |height c p d 0| ≤ c.z / 2 ∧
    Real.sqrt (axisSq c p d 0) ≤ c.radius + GEOMETRY_PRECISION ∧
    c.inner - GEOMETRY_PRECISION ≤ Real.sqrt (axisSq c p d 0) := by
  have e : axisSq c p d 0 = (p.x - c.center.x) ^ 2 + (p.y - c.center.y) ^ 2 := by unfold axisSq; ring
  have e2 : height c p d 0 = p.z - c.center.z := by unfold height; ring
  unfold Cylinder.holds
  rw [e, e2, abs_le]
  constructor
  · rintro ⟨⟨h1, h2⟩, h3, h4⟩; exact ⟨⟨by linarith, by linarith⟩, h3, h4⟩
  · rintro ⟨⟨h1, h2⟩, h3, h4⟩; exact ⟨⟨by linarith, by linarith⟩, h3, h4⟩

/-- The distance from the axis changes by at most the way. -/
lemma axis_lipschitz (c : Cylinder) {p d : Vec3} (hd : d.x ^ 2 + d.y ^ 2 + d.z ^ 2 = 1) {t : ℝ} (ht : 0 ≤ t) :
    Real.sqrt (axisSq c p d 0) ≤ Real.sqrt (axisSq c p d t) + t := by
  have h0 := Real.sqrt_nonneg (axisSq c p d t)
  have hs := Real.mul_self_sqrt (axisSq_nonneg c p d t)
  refine Real.sqrt_le_iff.2 ⟨by linarith, ?_⟩
  set r := Real.sqrt (axisSq c p d t)
  -- Cauchy-Schwarz
  have hcs : -((p.x + t * d.x - c.center.x) * d.x + (p.y + t * d.y - c.center.y) * d.y) ≤ r := by
    refine le_trans (neg_le_abs _) (abs_le_of_sq_le_sq ?_ h0)
    have e : axisSq c p d t * (d.x ^ 2 + d.y ^ 2) -
        ((p.x + t * d.x - c.center.x) * d.x + (p.y + t * d.y - c.center.y) * d.y) ^ 2 =
        ((p.x + t * d.x - c.center.x) * d.y - (p.y + t * d.y - c.center.y) * d.x) ^ 2 := by
      unfold axisSq; ring
    have h1 := sq_nonneg ((p.x + t * d.x - c.center.x) * d.y - (p.y + t * d.y - c.center.y) * d.x)
    have h2 : axisSq c p d t * (d.x ^ 2 + d.y ^ 2) ≤ axisSq c p d t * 1 :=
      mul_le_mul_of_nonneg_left (by nlinarith [sq_nonneg d.z]) (axisSq_nonneg c p d t)
    nlinarith
  have e : axisSq c p d 0 = axisSq c p d t -
      2 * t * ((p.x + t * d.x - c.center.x) * d.x + (p.y + t * d.y - c.center.y) * d.y) + t ^ 2 * (d.x ^ 2 + d.y ^ 2) := by
    unfold axisSq; ring
  have h3 : t ^ 2 * (d.x ^ 2 + d.y ^ 2) ≤ t ^ 2 * 1 :=
    mul_le_mul_of_nonneg_left (by nlinarith [sq_nonneg d.z]) (sq_nonneg t)
  have h4 := mul_le_mul_of_nonneg_left hcs ht
  nlinarith

lemma height_lipschitz (c : Cylinder) {p d : Vec3} (hd : d.x ^ 2 + d.y ^ 2 + d.z ^ 2 = 1) {t : ℝ} (ht : 0 ≤ t) :
    |height c p d 0| ≤ |height c p d t| + t := by
  have h1 : |d.z| ≤ 1 := abs_le_of_sq_le_sq (by nlinarith [sq_nonneg d.x, sq_nonneg d.y]) zero_le_one
  have e : height c p d 0 = height c p d t - t * d.z := by unfold height; ring
  rw [e]
  refine (abs_sub _ _).trans ?_
  rw [abs_mul, abs_of_nonneg ht]
  have := mul_le_mul_of_nonneg_left h1 ht
  linarith

/-- The flag of the material test. -/
lemma holds_start {c : Cylinder} (hR : 0 < c.radius) {p d : Vec3} {L U : ℝ} (hLU : L < U)
    (hM : ∀ t, InFull c p d t ↔ L < t ∧ t < U) (hs : ClearStart c p) (h : c.holds p) : L ≤ 0 := by
  obtain ⟨h1, h2, -⟩ := (holds_iff c p d).1 h
  obtain ⟨s1, -, -⟩ := hs
  rw [zero_axisSq c p d] at s1
  refine full_start hLU hM ?_ h1
  have h3 : Real.sqrt (axisSq c p d 0) ≤ c.radius := by
    by_contra hn
    have := s1 (not_le.1 hn)
    linarith
  exact (Real.sqrt_le_left hR.le).1 h3

lemma not_holds_start {c : Cylinder} (hR : 0 < c.radius) (hi : 0 < c.inner) {p d : Vec3}
    (hd : d.x ^ 2 + d.y ^ 2 + d.z ^ 2 = 1) {L U I1 I2 : ℝ}
    (hM : ∀ t, InFull c p d t ↔ L < t ∧ t < U) (hH : ∀ t, axisSq c p d t < c.inner ^ 2 ↔ I2 < t ∧ t < I1)
    (hs : ClearStart c p) (h : ¬ c.holds p) (hI : GEOMETRY_PRECISION ≤ I2) :
    GEOMETRY_PRECISION ≤ L ∨ U < GEOMETRY_PRECISION := by
  have hp := prec_pos
  by_contra hn
  push Not at hn
  obtain ⟨hL, hU⟩ := hn
  -- a point of the stretch within the precision of the start
  have ht : InFull c p d ((max L 0 + GEOMETRY_PRECISION) / 2) := by
    have h1 : max L 0 < GEOMETRY_PRECISION := max_lt hL hp
    refine (hM _).2 ⟨?_, by linarith⟩
    linarith [le_max_left L 0]
  have ht0 : 0 ≤ (max L 0 + GEOMETRY_PRECISION) / 2 := by linarith [le_max_right L 0]
  have ht1 : (max L 0 + GEOMETRY_PRECISION) / 2 < GEOMETRY_PRECISION := by
    have h1 : max L 0 < GEOMETRY_PRECISION := max_lt hL hp
    linarith
  generalize (max L 0 + GEOMETRY_PRECISION) / 2 = t at *
  obtain ⟨t1, t2⟩ := ht
  have hr : Real.sqrt (axisSq c p d t) ≤ c.radius := (Real.sqrt_le_left hR.le).2 t1.le
  have l1 := axis_lipschitz c (p := p) hd ht0
  have l2 := height_lipschitz c (p := p) hd ht0
  obtain ⟨s1, s2, s3⟩ := hs
  rw [zero_axisSq c p d] at s1 s2
  rw [zero_height c p d] at s3
  apply h
  rw [holds_iff c p d]
  refine ⟨?_, by linarith, ?_⟩
  · by_contra hc
    have := s3 (not_le.1 hc)
    linarith
  · by_contra hc
    have h4 : Real.sqrt (axisSq c p d 0) < c.inner := by linarith
    have h5 := (hH 0).1 ((Real.sqrt_lt' hi).1 h4)
    linarith [h5.1]

/-- The whole computation before the final control. -/
lemma cylinder_form {c : Cylinder} (hR : 0 < c.radius) (hi : c.inner < c.radius) (hz : 0 < c.z) {p d : Vec3}
    (hd : d.x ^ 2 + d.y ^ 2 + d.z ^ 2 = 1) (ha : AvoidsRims c p d) (hs : 0 < c.inner → ClearStart c p) :
    ∃ f : List ℝ, Form (InCylinder c p d) f ∧
      (c.hollow p d (Cylinder.select (c.hits p d)) = borderPair (ahead f) ∨
      ∃ a b t : ℝ, f = [a, b] ∧ a < b ∧ GEOMETRY_PRECISION ≤ t ∧ t < a ∧ |height c p d t| = c.z / 2 ∧ InHole c p d t ∧
        c.hollow p d (Cylinder.select (c.hits p d)) = (b, a)) := by
  have hp := prec_pos
  have hri : 0 < c.inner → c.inner ^ 2 < c.radius ^ 2 := fun h => by nlinarith
  have hM0 : ∀ t, InCylinder c p d t ↔ InFull c p d t ∧ (0 < c.inner → c.inner ^ 2 < axisSq c p d t) := by
    intro t; unfold InCylinder InFull; tauto
  rcases outer_form hR hi hz (by rw [hd]; norm_num) ha with ⟨hno, hsel⟩ | ⟨L, U, hLU, hM, bL, bU, hsel⟩
  · refine ⟨[], Or.inl ⟨rfl, fun t h => hno t ((hM0 t).1 h).1⟩, Or.inl ?_⟩
    rw [hsel]
    unfold Cylinder.hollow
    by_cases hin : c.inner > 0
    · rw [if_pos hin]
      by_cases hpar : d.x = 0 ∧ d.y = 0
      · rw [roots_parallel c _ hpar]; rfl
      rcases roots_cases c c.inner p d hpar with ⟨I1, I2, C, hlt, hC, hroots, hpoly⟩ | ⟨hroots, -⟩
      · rw [hroots]
        simp only []
        have q1 : axisSq c p d I1 = c.inner ^ 2 := by have := hpoly I1; simp at this; linarith
        have q2 : axisSq c p d I2 = c.inner ^ 2 := by have := hpoly I2; simp at this; linarith
        have hr := hri hin
        refine innerUpdate_id ?_ ?_ _
        · intro h; rw [snap_of_ge (snap_pos_iff.1 h), inHeight_iff]
          exact fun hh => hno I1 ⟨by linarith, hh⟩
        · intro h; rw [snap_of_ge (snap_pos_iff.1 h), inHeight_iff]
          exact fun hh => hno I2 ⟨by linarith, hh⟩
      · rw [hroots]; rfl
    · rw [if_neg hin]; rfl
  · have rimL : 0 < c.inner → axisSq c p d L ≠ c.inner ^ 2 := by
      intro h
      rcases bL with h1 | h1
      · have := hri h; rw [h1]; exact this.ne'
      · exact (ha L h1).2 h
    have rimU : 0 < c.inner → axisSq c p d U ≠ c.inner ^ 2 := by
      intro h
      rcases bU with h1 | h1
      · have := hri h; rw [h1]; exact this.ne'
      · exact (ha U h1).2 h
    rw [hsel]
    unfold Cylinder.hollow
    by_cases hin : c.inner > 0
    swap
    · rw [if_neg hin]
      refine ⟨[L, U], Or.inr (Or.inl ⟨L, U, 0, rfl, hLU, fun t _ => ?_⟩), Or.inl ?_⟩
      · rw [hM0, hM]; exact ⟨fun h => h.1, fun h => ⟨h, fun h' => absurd h' hin⟩⟩
      · have n : ∀ t, ¬ InHole c p d t := fun t h => hin h.1
        simp only [n, not_false_eq_true, true_and]
        exact pairOf_ahead hLU
    rw [if_pos hin]
    by_cases hpar : d.x = 0 ∧ d.y = 0
    · have hconst : ∀ s t, axisSq c p d s = axisSq c p d t := by
        intro s t; unfold axisSq; rw [hpar.1, hpar.2]; ring
      rw [roots_parallel c _ hpar]
      simp only []
      by_cases hr : axisSq c p d L < c.inner ^ 2
      · refine ⟨[], Or.inl ⟨rfl, fun t h => ?_⟩, Or.inl ?_⟩
        · have := ((hM0 t).1 h).2 hin
          rw [hconst t L] at this
          linarith
        · have n1 : InHole c p d L := ⟨hin, hr⟩
          have n2 : InHole c p d U := ⟨hin, by rw [hconst U L]; exact hr⟩
          simp only [n1, n2, not_true_eq_false, false_and]
          rw [pairOf_nn not_false not_false]; rfl
      · have hgt : c.inner ^ 2 < axisSq c p d L := lt_of_le_of_ne (not_lt.1 hr) (Ne.symm (rimL hin))
        refine ⟨[L, U], Or.inr (Or.inl ⟨L, U, 0, rfl, hLU, fun t _ => ?_⟩), Or.inl ?_⟩
        · rw [hM0, hM, hconst t L]; exact ⟨fun h => h.1, fun h => ⟨h, fun _ => hgt⟩⟩
        · have n : ∀ t, ¬ InHole c p d t := fun t h => by
            have := h.2
            rw [hconst t L] at this
            linarith
          simp only [n, not_false_eq_true, true_and]
          exact pairOf_ahead hLU
    rcases roots_cases c c.inner p d hpar with ⟨I1, I2, C, hlt, hC, hroots, hpoly⟩ | ⟨hroots, m, C, e, hC, he, hpoly⟩
    · rw [hroots]
      simp only []
      have q1 : axisSq c p d I1 = c.inner ^ 2 := by have := hpoly I1; simp at this; linarith
      have q2 : axisSq c p d I2 = c.inner ^ 2 := by have := hpoly I2; simp at this; linarith
      have hlt' : ∀ t, axisSq c p d t < c.inner ^ 2 ↔ I2 < t ∧ t < I1 := fun t => quad_lt hC hlt (hpoly t)
      have hle' : ∀ t, axisSq c p d t ≤ c.inner ^ 2 ↔ I2 ≤ t ∧ t ≤ I1 := fun t => quad_le hC hlt (hpoly t)
      have hgt' : ∀ t, c.inner ^ 2 < axisSq c p d t ↔ t < I2 ∨ I1 < t := by
        intro t
        rw [← not_le, hle', not_and_or, not_le, not_le]
      have hole : ∀ t, InHole c p d t ↔ I2 < t ∧ t < I1 := by
        intro t; unfold InHole; rw [hlt']; exact ⟨fun h => h.2, fun h => ⟨hin, h⟩⟩
      have hHI : ∀ t, axisSq c p d t = c.inner ^ 2 → (c.inHeight p d t ↔ L < t ∧ t < U) := by
        intro t ht
        rw [inHeight_iff, ← hM]
        unfold InFull
        rw [ht]
        exact ⟨fun h => ⟨hri hin, h⟩, fun h => h.2⟩
      obtain ⟨f, hf, hcase⟩ := inner_core (H := c.inHeight p d) (inside := c.holds p) hLU hlt
        (fun h => rimL hin (by rw [h]; exact q1)) (fun h => rimL hin (by rw [h]; exact q2))
        (fun h => rimU hin (by rw [h]; exact q1)) (fun h => rimU hin (by rw [h]; exact q2))
        (hHI I1 q1) (hHI I2 q2) (holds_start hR hLU hM (hs hin))
        (not_holds_start hR hin hd hM hlt' (hs hin))
      have hMM : InCylinder c p d = fun t => (L < t ∧ t < U) ∧ (t < I2 ∨ I1 < t) := by
        funext t
        rw [hM0, hM, hgt']
        exact propext ⟨fun h => ⟨h.1, h.2 hin⟩, fun h => ⟨h.1, fun _ => h.2⟩⟩
      rw [hole, hole, hMM]
      refine ⟨f, hf, ?_⟩
      rcases hcase with h | ⟨⟨g1, g2, g3, g4⟩, rfl, h⟩
      · exact Or.inl h
      · refine Or.inr ⟨I1, U, L, rfl, g4, by linarith, g3, ?_, ⟨hin, (hlt' L).2 ⟨g2, g3⟩⟩, h⟩
        rcases bL with h1 | h1
        · have h2 := (hlt' L).2 ⟨g2, g3⟩
          have h3 := hri hin
          linarith
        · exact h1
    · rw [hroots]
      simp only []
      have hge : ∀ t, c.inner ^ 2 ≤ axisSq c p d t := by
        intro t
        have h1 := hpoly t
        have h2 := mul_nonneg hC.le (add_nonneg (sq_nonneg (t - m)) he)
        linarith
      have n : ∀ t, ¬ InHole c p d t := fun t h => by linarith [h.2, hge t]
      refine ⟨[L, U], Or.inr (Or.inl ⟨L, U, m, rfl, hLU, fun t ht => ?_⟩), Or.inl ?_⟩
      · rw [hM0, hM]
        refine ⟨fun h => h.1, fun h => ⟨h, fun _ => ?_⟩⟩
        have h1 := hpoly t
        have h3 : 0 < (t - m) ^ 2 := by
          have := sub_ne_zero.2 ht
          positivity
        have h2 := mul_pos hC (add_pos_of_pos_of_nonneg h3 he)
        linarith
      · simp only [n, not_false_eq_true, true_and]
        exact pairOf_ahead hLU

end Proposal
