import Verif.Spec.Box
import Verif.Lemmas.Sphere
import Mathlib.Topology.Algebra.Ring.Real
import Mathlib.Topology.Order.IntermediateValue
import Mathlib.Topology.Order.Lattice
import Mathlib.Tactic.FunProp

/-! Helper lemmas for the box. -/

namespace Proposal

open Spec Filter Topology

lemma faceHit_eq_some (bound p d : ℝ) (ok : ℝ → Prop) (t : ℝ) :
    faceHit bound p d ok = some t ↔
      d ≠ 0 ∧ GEOMETRY_PRECISION ≤ t ∧ p + t * d = bound ∧ ok t := by
  unfold faceHit
  by_cases hd : d = 0
  · simp [hd]
  · rw [if_pos hd]
    simp only []
    by_cases h : GEOMETRY_PRECISION ≤ (bound - p) / d
    · rw [if_pos (snap_pos_iff.2 h), snap_of_ge h]
      constructor
      · intro h'
        split_ifs at h' with h2
        have : (bound - p) / d = t := by simpa using h'
        subst this
        refine ⟨hd, h, ?_, h2⟩
        field_simp; ring
      · rintro ⟨_, _, h2, h3⟩
        have : (bound - p) / d = t := by rw [← h2]; field_simp; ring
        rw [this, if_pos h3]
    · rw [if_neg (by rw [gt_iff_lt, snap_pos_iff]; exact h)]
      constructor
      · intro h'; cases h'
      · rintro ⟨_, h1, h2, h3⟩
        exfalso; apply h
        have : (bound - p) / d = t := by rw [← h2]; field_simp; ring
        rw [this]; exact h1

lemma within_iff (c len p d t : ℝ) : within c len p d t ↔ |p + t * d - c| ≤ len / 2 := by
  unfold within
  rw [abs_le]
  constructor <;> rintro ⟨h1, h2⟩ <;> constructor <;> linarith

/-- A face point whose other coordinates are strictly inside is adjacent to the interior. -/
lemma near_interior {ux dx uy dy uz dz hx hy hz : ℝ} (hd : dx ≠ 0) (hpos : 0 < hx)
    (h1 : |ux| = hx) (h2 : |uy| < hy) (h3 : |uz| < hz) :
    ∃ e, |ux + e * dx| < hx ∧ |uy + e * dy| < hy ∧ |uz + e * dz| < hz := by
  have key : ∀ σ : ℝ, σ * ux = hx → σ * σ = 1 →
      ∃ e, |ux + e * dx| < hx ∧ |uy + e * dy| < hy ∧ |uz + e * dz| < hz := by
    intro σ hσ hσ2
    have hux : ux = σ * hx := by rw [← hσ]; linear_combination (-ux) * hσ2
    have A : ∀ᶠ e in 𝓝[>] (0 : ℝ), |uy + (-(σ * e * dx)) * dy| < hy := by
      apply nhdsWithin_le_nhds
      have : Tendsto (fun e : ℝ => |uy + (-(σ * e * dx)) * dy|) (𝓝 0)
          (𝓝 (|uy + (-(σ * 0 * dx)) * dy|)) := Continuous.tendsto (by fun_prop) 0
      exact this.eventually (gt_mem_nhds (by simpa using h2))
    have B : ∀ᶠ e in 𝓝[>] (0 : ℝ), |uz + (-(σ * e * dx)) * dz| < hz := by
      apply nhdsWithin_le_nhds
      have : Tendsto (fun e : ℝ => |uz + (-(σ * e * dx)) * dz|) (𝓝 0)
          (𝓝 (|uz + (-(σ * 0 * dx)) * dz|)) := Continuous.tendsto (by fun_prop) 0
      exact this.eventually (gt_mem_nhds (by simpa using h3))
    have C : ∀ᶠ e in 𝓝[>] (0 : ℝ), e * (dx * dx) < hx := by
      apply nhdsWithin_le_nhds
      have : Tendsto (fun e : ℝ => e * (dx * dx)) (𝓝 0)
          (𝓝 (0 * (dx * dx))) := Continuous.tendsto (by fun_prop) 0
      exact this.eventually (gt_mem_nhds (by simpa using hpos))
    have D : ∀ᶠ e in 𝓝[>] (0 : ℝ), 0 < e := eventually_mem_nhdsWithin
    obtain ⟨e, ⟨hA, hB⟩, hC, hD⟩ := ((A.and B).and (C.and D)).exists
    refine ⟨-(σ * e * dx), ?_, hA, hB⟩
    have hsq : 0 < e * (dx * dx) := mul_pos hD (mul_self_pos.2 hd)
    have : ux + -(σ * e * dx) * dx = σ * (hx - e * (dx * dx)) := by rw [hux]; ring
    rw [this, abs_mul]
    have hs1 : |σ| = 1 := by
      have : |σ| * |σ| = 1 := by rw [← abs_mul, hσ2]; simp
      nlinarith [abs_nonneg σ]
    rw [hs1, one_mul, abs_lt]
    constructor <;> linarith
  rcases abs_cases ux with ⟨h, _⟩ | ⟨h, _⟩
  · exact key 1 (by rw [← h1, h]; ring) (by norm_num)
  · exact key (-1) (by rw [← h1, h]; ring) (by norm_num)

lemma crosses_of_hit {b : Box} {p d : Vec3} {t : ℝ} (hb : 0 < b.x ∧ 0 < b.y ∧ 0 < b.z)
    (he : AvoidsEdges b p d) (ht : GEOMETRY_PRECISION ≤ t) (hc : InClosedBox b p d t)
    (h : (d.x ≠ 0 ∧ |p.x + t * d.x - b.center.x| = b.x / 2) ∨
         (d.y ≠ 0 ∧ |p.y + t * d.y - b.center.y| = b.y / 2) ∨
         (d.z ≠ 0 ∧ |p.z + t * d.z - b.center.z| = b.z / 2)) : CrossesBox b p d t := by
  obtain ⟨e1, e2, e3⟩ := he t ht hc
  obtain ⟨cx, cy, cz⟩ := hc
  have sh : ∀ (u v w e : ℝ), u + (t + e) * v - w = u + t * v - w + e * v := by intros; ring
  refine ⟨⟨cx, cy, cz⟩, ?_, ?_⟩
  · rintro ⟨ox, oy, oz⟩
    rcases h with ⟨_, h⟩ | ⟨_, h⟩ | ⟨_, h⟩ <;> linarith
  · rcases h with ⟨hd, h⟩ | ⟨hd, h⟩ | ⟨hd, h⟩
    · have oy := lt_of_le_of_ne cy (fun h' => e1 ⟨h, h'⟩)
      have oz := lt_of_le_of_ne cz (fun h' => e2 ⟨h, h'⟩)
      obtain ⟨e, hx, hy, hz⟩ := near_interior (dy := d.y) (dz := d.z) hd (by linarith) h oy oz
      exact ⟨t + e, by rw [sh]; exact hx, by rw [sh]; exact hy, by rw [sh]; exact hz⟩
    · have ox := lt_of_le_of_ne cx (fun h' => e1 ⟨h', h⟩)
      have oz := lt_of_le_of_ne cz (fun h' => e3 ⟨h, h'⟩)
      obtain ⟨e, hy, hx, hz⟩ := near_interior (dy := d.x) (dz := d.z) hd (by linarith) h ox oz
      exact ⟨t + e, by rw [sh]; exact hx, by rw [sh]; exact hy, by rw [sh]; exact hz⟩
    · have ox := lt_of_le_of_ne cx (fun h' => e2 ⟨h', h⟩)
      have oy := lt_of_le_of_ne cy (fun h' => e3 ⟨h', h⟩)
      obtain ⟨e, hz, hx, hy⟩ := near_interior (dy := d.x) (dz := d.y) hd (by linarith) h ox oy
      exact ⟨t + e, by rw [sh]; exact hx, by rw [sh]; exact hy, by rw [sh]; exact hz⟩

lemma hit_of_crosses {b : Box} {p d : Vec3} {t : ℝ} (h : CrossesBox b p d t) :
    (d.x ≠ 0 ∧ |p.x + t * d.x - b.center.x| = b.x / 2) ∨
    (d.y ≠ 0 ∧ |p.y + t * d.y - b.center.y| = b.y / 2) ∨
    (d.z ≠ 0 ∧ |p.z + t * d.z - b.center.z| = b.z / 2) := by
  obtain ⟨⟨cx, cy, cz⟩, ho, s, sx, sy, sz⟩ := h
  by_contra hc
  apply ho
  refine ⟨lt_of_le_of_ne cx ?_, lt_of_le_of_ne cy ?_, lt_of_le_of_ne cz ?_⟩ <;> intro h
  · by_cases hd : d.x = 0
    · rw [hd] at h sx; simp at h sx; linarith
    · exact hc (Or.inl ⟨hd, h⟩)
  · by_cases hd : d.y = 0
    · rw [hd] at h sy; simp at h sy; linarith
    · exact hc (Or.inr (Or.inl ⟨hd, h⟩))
  · by_cases hd : d.z = 0
    · rw [hd] at h sz; simp at h sz; linarith
    · exact hc (Or.inr (Or.inr ⟨hd, h⟩))

lemma mem_hits (b : Box) (hb : 0 < b.x ∧ 0 < b.y ∧ 0 < b.z) (p d : Vec3) (t : ℝ) :
    t ∈ b.hits p d ↔ GEOMETRY_PRECISION ≤ t ∧ InClosedBox b p d t ∧
      ((d.x ≠ 0 ∧ |p.x + t * d.x - b.center.x| = b.x / 2) ∨
       (d.y ≠ 0 ∧ |p.y + t * d.y - b.center.y| = b.y / 2) ∨
       (d.z ≠ 0 ∧ |p.z + t * d.z - b.center.z| = b.z / 2)) := by
  unfold Box.hits InClosedBox
  simp only [List.mem_filterMap, List.mem_cons, List.not_mem_nil, or_false, id, exists_eq_right,
    eq_comm (a := some t), faceHit_eq_some, within_iff]
  have ab : ∀ (u c len : ℝ), 0 < len → (|u - c| = len / 2 ↔ (u = c + 0.5 * len ∨ u = c - 0.5 * len)) := by
    intro u c len hl
    rw [abs_eq (by linarith)]
    constructor <;> rintro (h | h) <;> first | (left; linarith) | (right; linarith)
  have le_of : ∀ (u c len : ℝ), |u - c| = len / 2 → |u - c| ≤ len / 2 := fun _ _ _ h => h.le
  constructor
  · rintro (h | h | h | h | h | h)
    · have := (ab _ _ _ hb.1).2 (Or.inl h.2.2.1)
      exact ⟨h.2.1, ⟨this.le, h.2.2.2.1, h.2.2.2.2⟩, Or.inl ⟨h.1, this⟩⟩
    · have := (ab _ _ _ hb.1).2 (Or.inr h.2.2.1)
      exact ⟨h.2.1, ⟨this.le, h.2.2.2.1, h.2.2.2.2⟩, Or.inl ⟨h.1, this⟩⟩
    · have := (ab _ _ _ hb.2.1).2 (Or.inl h.2.2.1)
      exact ⟨h.2.1, ⟨h.2.2.2.1, this.le, h.2.2.2.2⟩, Or.inr (Or.inl ⟨h.1, this⟩)⟩
    · have := (ab _ _ _ hb.2.1).2 (Or.inr h.2.2.1)
      exact ⟨h.2.1, ⟨h.2.2.2.1, this.le, h.2.2.2.2⟩, Or.inr (Or.inl ⟨h.1, this⟩)⟩
    · have := (ab _ _ _ hb.2.2).2 (Or.inl h.2.2.1)
      exact ⟨h.2.1, ⟨h.2.2.2.1, h.2.2.2.2, this.le⟩, Or.inr (Or.inr ⟨h.1, this⟩)⟩
    · have := (ab _ _ _ hb.2.2).2 (Or.inr h.2.2.1)
      exact ⟨h.2.1, ⟨h.2.2.2.1, h.2.2.2.2, this.le⟩, Or.inr (Or.inr ⟨h.1, this⟩)⟩
  · rintro ⟨hP, ⟨cx, cy, cz⟩, ⟨hd, h⟩ | ⟨hd, h⟩ | ⟨hd, h⟩⟩
    · rcases (ab _ _ _ hb.1).1 h with h | h
      · left; exact ⟨hd, hP, h, cy, cz⟩
      · right; left; exact ⟨hd, hP, h, cy, cz⟩
    · rcases (ab _ _ _ hb.2.1).1 h with h | h
      · right; right; left; exact ⟨hd, hP, h, cx, cz⟩
      · right; right; right; left; exact ⟨hd, hP, h, cx, cz⟩
    · rcases (ab _ _ _ hb.2.2).1 h with h | h
      · right; right; right; right; left; exact ⟨hd, hP, h, cx, cy⟩
      · right; right; right; right; right; exact ⟨hd, hP, h, cx, cy⟩

lemma hits_nodup (b : Box) (hb : 0 < b.x ∧ 0 < b.y ∧ 0 < b.z) (p d : Vec3)
    (he : AvoidsEdges b p d) : (b.hits p d).Nodup := by
  have ab1 : ∀ (u c len : ℝ), 0 < len → u = c + 0.5 * len → |u - c| = len / 2 := by
    intro u c len hl h
    rw [abs_eq (by linarith)]; left; linarith
  have ab2 : ∀ (u c len : ℝ), 0 < len → u = c - 0.5 * len → |u - c| = len / 2 := by
    intro u c len hl h
    rw [abs_eq (by linarith)]; right; linarith
  unfold Box.hits List.Nodup
  rw [List.pairwise_filterMap]
  obtain ⟨bx, by', bz⟩ := hb
  have E : ∀ t, GEOMETRY_PRECISION ≤ t → InClosedBox b p d t → _ := he
  simp only [List.pairwise_cons, List.mem_cons, List.not_mem_nil, or_false, id,
    forall_eq_or_imp, forall_eq, faceHit_eq_some, within_iff, IsEmpty.forall_iff,
    implies_true, List.Pairwise.nil, and_true]
  refine ⟨⟨?_, ?_, ?_, ?_, ?_⟩, ⟨?_, ?_, ?_, ?_⟩, ⟨?_, ?_, ?_⟩, ⟨?_, ?_⟩, ?_⟩ <;>
    rintro t ⟨-, hP, h, h1, h2⟩ t' ⟨-, -, h', h1', h2'⟩ rfl
  · linarith
  · have a := ab1 _ _ _ bx h; have a' := ab1 _ _ _ by' h'
    exact (E t hP ⟨a.le, a'.le, h2⟩).1 ⟨a, a'⟩
  · have a := ab1 _ _ _ bx h; have a' := ab2 _ _ _ by' h'
    exact (E t hP ⟨a.le, a'.le, h2⟩).1 ⟨a, a'⟩
  · have a := ab1 _ _ _ bx h; have a' := ab1 _ _ _ bz h'
    exact (E t hP ⟨a.le, h1, a'.le⟩).2.1 ⟨a, a'⟩
  · have a := ab1 _ _ _ bx h; have a' := ab2 _ _ _ bz h'
    exact (E t hP ⟨a.le, h1, a'.le⟩).2.1 ⟨a, a'⟩
  · have a := ab2 _ _ _ bx h; have a' := ab1 _ _ _ by' h'
    exact (E t hP ⟨a.le, a'.le, h2⟩).1 ⟨a, a'⟩
  · have a := ab2 _ _ _ bx h; have a' := ab2 _ _ _ by' h'
    exact (E t hP ⟨a.le, a'.le, h2⟩).1 ⟨a, a'⟩
  · have a := ab2 _ _ _ bx h; have a' := ab1 _ _ _ bz h'
    exact (E t hP ⟨a.le, h1, a'.le⟩).2.1 ⟨a, a'⟩
  · have a := ab2 _ _ _ bx h; have a' := ab2 _ _ _ bz h'
    exact (E t hP ⟨a.le, h1, a'.le⟩).2.1 ⟨a, a'⟩
  · linarith
  · have a := ab1 _ _ _ by' h; have a' := ab1 _ _ _ bz h'
    exact (E t hP ⟨h1, a.le, a'.le⟩).2.2 ⟨a, a'⟩
  · have a := ab1 _ _ _ by' h; have a' := ab2 _ _ _ bz h'
    exact (E t hP ⟨h1, a.le, a'.le⟩).2.2 ⟨a, a'⟩
  · have a := ab2 _ _ _ by' h; have a' := ab1 _ _ _ bz h'
    exact (E t hP ⟨h1, a.le, a'.le⟩).2.2 ⟨a, a'⟩
  · have a := ab2 _ _ _ by' h; have a' := ab2 _ _ _ bz h'
    exact (E t hP ⟨h1, a.le, a'.le⟩).2.2 ⟨a, a'⟩
  · linarith

/-- strictly between an interior point and a point of the closed slab -/
lemma slab_between {u v h s a m : ℝ} (hs : |u + s * v| < h) (ha : |u + a * v| ≤ h)
    (hm : (s ≤ m ∧ m < a) ∨ (a < m ∧ m ≤ s)) : |u + m * v| < h := by
  rw [abs_lt] at *
  rw [abs_le] at ha
  rcases hm with ⟨h1, h2⟩ | ⟨h1, h2⟩
  · constructor <;> by_contra hc <;> push Not at hc
    · nlinarith [mul_pos (show 0 < a - m by linarith) (show 0 < (h + (u + s * v)) by linarith),
        mul_nonneg (show 0 ≤ m - s by linarith) (show 0 ≤ h + (u + a * v) by linarith)]
    · nlinarith [mul_pos (show 0 < a - m by linarith) (show 0 < (h - (u + s * v)) by linarith),
        mul_nonneg (show 0 ≤ m - s by linarith) (show 0 ≤ h - (u + a * v) by linarith)]
  · constructor <;> by_contra hc <;> push Not at hc
    · nlinarith [mul_pos (show 0 < m - a by linarith) (show 0 < (h + (u + s * v)) by linarith),
        mul_nonneg (show 0 ≤ s - m by linarith) (show 0 ≤ h + (u + a * v) by linarith)]
    · nlinarith [mul_pos (show 0 < m - a by linarith) (show 0 < (h - (u + s * v)) by linarith),
        mul_nonneg (show 0 ≤ s - m by linarith) (show 0 ≤ h - (u + a * v) by linarith)]

lemma box_between {b : Box} {p d : Vec3} {s a m : ℝ} (hs : InOpenBox b p d s)
    (ha : InClosedBox b p d a) (hm : (s ≤ m ∧ m < a) ∨ (a < m ∧ m ≤ s)) : InOpenBox b p d m := by
  have e : ∀ (u t v c : ℝ), u + t * v - c = (u - c) + t * v := by intros; ring
  unfold InOpenBox InClosedBox at *
  simp only [e] at *
  exact ⟨slab_between hs.1 ha.1 hm, slab_between hs.2.1 ha.2.1 hm, slab_between hs.2.2 ha.2.2 hm⟩

lemma crosses_three {b : Box} {p d : Vec3} {x y z : ℝ} (hx : CrossesBox b p d x)
    (hy : CrossesBox b p d y) (hz : CrossesBox b p d z) (hxy : x < y) (hyz : y < z) : False := by
  obtain ⟨s, hs⟩ := hx.2.2
  rcases le_total s y with h | h
  · exact hy.2.1 (box_between hs hz.1 (Or.inl ⟨h, hyz⟩))
  · exact hy.2.1 (box_between hs hx.1 (Or.inr ⟨hxy, h⟩))

lemma slab_escape {u v h s : ℝ} (hv : v ≠ 0) : ∃ t, s < t ∧ h < |u + t * v| := by
  refine ⟨max (s + 1) ((|u| + |h| + 1) / |v|), ?_, ?_⟩
  · have := le_max_left (s + 1) ((|u| + |h| + 1) / |v|); linarith
  · have h1 := le_max_right (s + 1) ((|u| + |h| + 1) / |v|)
    set t := max (s + 1) ((|u| + |h| + 1) / |v|)
    have hv' : 0 < |v| := abs_pos.2 hv
    have h2 : |u| + |h| + 1 ≤ t * |v| := (div_le_iff₀ hv').1 h1
    have h0 : 0 ≤ t := le_trans (by positivity) h1
    have h3 : |t * v| = t * |v| := by rw [abs_mul, abs_of_nonneg h0]
    have h4 : |t * v| ≤ |u + t * v| + |u| := by
      have := abs_sub (u + t * v) u
      simpa using this
    linarith [le_abs_self h]

lemma exists_exit {b : Box} {p d : Vec3} {s : ℝ} (hd : d ≠ 0) (hs : InOpenBox b p d s) :
    ∃ t, s < t ∧ CrossesBox b p d t := by
  let f : ℝ → ℝ := fun t => max (|p.x + t * d.x - b.center.x| - b.x / 2)
    (max (|p.y + t * d.y - b.center.y| - b.y / 2) (|p.z + t * d.z - b.center.z| - b.z / 2))
  have hf : Continuous f := by fun_prop
  have fs : f s < 0 := by
    obtain ⟨h1, h2, h3⟩ := hs
    simp only [f, max_lt_iff]
    refine ⟨by linarith, by linarith, by linarith⟩
  have e : ∀ (u t v c : ℝ), u + t * v - c = (u - c) + t * v := by intros; ring
  have ⟨t, hst, ft⟩ : ∃ t, s < t ∧ 0 < f t := by
    have : d.x ≠ 0 ∨ d.y ≠ 0 ∨ d.z ≠ 0 := by
      by_contra hc
      push Not at hc
      exact hd (by ext <;> simp [hc.1, hc.2.1, hc.2.2])
    rcases this with h | h | h
    · obtain ⟨t, h1, h2⟩ := slab_escape (u := p.x - b.center.x) (h := b.x / 2) (s := s) h
      refine ⟨t, h1, ?_⟩
      simp only [f, lt_max_iff, e]; left; linarith
    · obtain ⟨t, h1, h2⟩ := slab_escape (u := p.y - b.center.y) (h := b.y / 2) (s := s) h
      refine ⟨t, h1, ?_⟩
      simp only [f, lt_max_iff, e]; right; left; linarith
    · obtain ⟨t, h1, h2⟩ := slab_escape (u := p.z - b.center.z) (h := b.z / 2) (s := s) h
      refine ⟨t, h1, ?_⟩
      simp only [f, lt_max_iff, e]; right; right; linarith
  obtain ⟨r, ⟨hr1, hr2⟩, hr⟩ := intermediate_value_Icc hst.le hf.continuousOn
    (show (0 : ℝ) ∈ Set.Icc (f s) (f t) from ⟨fs.le, ft.le⟩)
  have hrs : s < r := lt_of_le_of_ne hr1 (by rintro rfl; linarith)
  refine ⟨r, hrs, ?_, ?_, s, hs⟩
  · have h1 := le_max_left (|p.x + r * d.x - b.center.x| - b.x / 2)
      (max (|p.y + r * d.y - b.center.y| - b.y / 2) (|p.z + r * d.z - b.center.z| - b.z / 2))
    have h2 := le_max_right (|p.x + r * d.x - b.center.x| - b.x / 2)
      (max (|p.y + r * d.y - b.center.y| - b.y / 2) (|p.z + r * d.z - b.center.z| - b.z / 2))
    have h3 := le_max_left (|p.y + r * d.y - b.center.y| - b.y / 2) (|p.z + r * d.z - b.center.z| - b.z / 2)
    have h4 := le_max_right (|p.y + r * d.y - b.center.y| - b.y / 2) (|p.z + r * d.z - b.center.z| - b.z / 2)
    simp only [f] at hr
    refine ⟨by linarith, by linarith, by linarith⟩
  · rintro ⟨h1, h2, h3⟩
    have : f r < 0 := by
      simp only [f, max_lt_iff]
      refine ⟨by linarith, by linarith, by linarith⟩
    linarith

lemma exists_entry {b : Box} {p d : Vec3} {s : ℝ} (hd : d ≠ 0) (hs : InOpenBox b p d s) :
    ∃ t, t < s ∧ CrossesBox b p d t := by
  have hd' : (-d) ≠ 0 := by
    intro h; apply hd
    have hx : (-d).x = 0 := by rw [h]; rfl
    have hy : (-d).y = 0 := by rw [h]; rfl
    have hz : (-d).z = 0 := by rw [h]; rfl
    simp only [Vec3.neg_x, Vec3.neg_y, Vec3.neg_z, neg_eq_zero] at hx hy hz
    ext <;> simp [hx, hy, hz]
  have e : ∀ t, InOpenBox b p (-d) t ↔ InOpenBox b p d (-t) := by
    intro t; unfold InOpenBox; simp
  have e' : ∀ t, InClosedBox b p (-d) t ↔ InClosedBox b p d (-t) := by
    intro t; unfold InClosedBox; simp
  obtain ⟨t, h1, h2, h3, _⟩ := exists_exit (s := -s) hd' ((e (-s)).2 (by simpa using hs))
  exact ⟨-t, by linarith, (e' t).1 h2, fun h => h3 ((e t).2 h), s, hs⟩

end Proposal
