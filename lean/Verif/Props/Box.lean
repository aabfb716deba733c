import Verif.Lemmas.Box
import Mathlib.Tactic.NormNum

/-! # C03, C05 (box), C06 (box) -/

namespace Proposal

open Spec

/-- **C03**, the part that holds: for every box with positive sides and every ray that meets no
edge or corner ahead (any direction, unit or not), `DistanceToBorder` reports exactly the forward
surface crossings. Missing: rays through edges, for which the statement is false, see
`C03_box_edge_counterexample` and `C03_box_through_edges_missed`. -/
theorem C03_box_distances_partial (b : Box) (hb : 0 < b.x ∧ 0 < b.y ∧ 0 < b.z) (p d : Vec3)
    (he : AvoidsEdges b p d) : Reports (boxCrossings b p d) (b.distanceToBorder p d) := by
  have hp := prec_pos
  have hmem : ∀ t, t ∈ b.hits p d ↔ t ∈ boxCrossings b p d := by
    intro t
    rw [mem_hits b hb p d t]
    unfold boxCrossings
    constructor
    · rintro ⟨h1, h2, h3⟩; exact ⟨h1, crosses_of_hit hb he h1 h2 h3⟩
    · rintro ⟨h1, h2⟩; exact ⟨h1, h2.1, hit_of_crosses h2⟩
  have hnd := hits_nodup b hb p d he
  unfold Box.distanceToBorder
  generalize b.hits p d = l at *
  match l, hmem, hnd with
  | [], hmem, _ => exact ⟨[], by simp, hmem, by simpa [Box.select, borderPair] using finalControl_none⟩
  | [a], hmem, _ =>
    have ha := (hmem a).1 (by simp)
    exact ⟨[a], by simp, hmem, by simpa [Box.select, borderPair] using finalControl_one ha.1⟩
  | [a, c], hmem, hnd =>
    have ha := (hmem a).1 (by simp)
    have hc := (hmem c).1 (by simp)
    have hne : a ≠ c := by simpa using hnd
    rcases lt_or_gt_of_ne hne with h | h
    · refine ⟨[a, c], by simpa using h, hmem, ?_⟩
      have h' : ¬ c < a := by linarith
      simp only [Box.select, swapIf, h', if_false, borderPair]
      simpa using finalControl_two ha.1 hc.1
    · refine ⟨[c, a], by simpa using h, ?_, ?_⟩
      · intro t; rw [← hmem]; simp [or_comm]
      · have h' : c < a := h
        simp only [Box.select, swapIf, h', if_true, borderPair]
        simpa using finalControl_two hc.1 ha.1
  | a :: c :: e :: l, hmem, hnd =>
    exfalso
    have ha := ((hmem a).1 (by simp)).2
    have hc := ((hmem c).1 (by simp)).2
    have he := ((hmem e).1 (by simp)).2
    simp only [List.nodup_cons, List.mem_cons, not_or] at hnd
    obtain ⟨⟨h1, h2, -⟩, ⟨h3, -⟩, -⟩ := hnd
    rcases lt_or_gt_of_ne h1 with h1 | h1 <;> rcases lt_or_gt_of_ne h2 with h2 | h2 <;>
      rcases lt_or_gt_of_ne h3 with h3 | h3
    · exact crosses_three ha hc he h1 h3
    · exact crosses_three ha he hc h2 h3
    · linarith
    · exact crosses_three he ha hc h2 h1
    · exact crosses_three hc ha he h1 h2
    · linarith
    · exact crosses_three hc he ha h3 h2
    · exact crosses_three he hc ha h3 h1

/-- Looking at a cube of side 2 from outside along x: the ray meets no edge. -/
example : AvoidsEdges ⟨0, 2, 2, 2⟩ ⟨-5, 0, 0⟩ ⟨1, 0, 0⟩ := by
  intro t _ _
  simp

/-- **C03** fails for rays leaving through an edge: from the centre of a cube of side 2 along
`(1,1,0)/√2` the (single) forward crossing is reported twice, so the centre of the box is
classified as lying in front of the box instead of inside. -/
theorem C03_box_edge_counterexample :
    let b : Box := ⟨0, 2, 2, 2⟩
    let d : Vec3 := ⟨1 / Real.sqrt 2, 1 / Real.sqrt 2, 0⟩
    InOpenBox b 0 d 0 ∧ UnitVec d ∧ b.distanceToBorder 0 d = (Real.sqrt 2, Real.sqrt 2) ∧
    ¬ Reports (boxCrossings b 0 d) (b.distanceToBorder 0 d) ∧
    (b.toGeo 0).location 0 d = .infront := by
  intro b d
  have hp := prec_pos
  have h2 : Real.sqrt 2 * Real.sqrt 2 = 2 := Real.mul_self_sqrt (by norm_num)
  have h20 : 0 < Real.sqrt 2 := Real.sqrt_pos.2 (by norm_num)
  have hP : GEOMETRY_PRECISION ≤ Real.sqrt 2 := by
    have : (1 : ℝ) ≤ Real.sqrt 2 := Real.one_le_sqrt.2 (by norm_num)
    have : GEOMETRY_PRECISION ≤ 1 := by unfold GEOMETRY_PRECISION; norm_num
    linarith
  have hf : ∀ ok : ℝ → Prop, ok (Real.sqrt 2) →
      faceHit (0 + 0.5 * 2) 0 (1 / Real.sqrt 2) ok = some (Real.sqrt 2) := by
    intro ok h
    rw [faceHit_eq_some]
    refine ⟨by positivity, hP, ?_, h⟩
    field_simp; norm_num
  have hn : ∀ ok : ℝ → Prop, faceHit (0 - 0.5 * 2) 0 (1 / Real.sqrt 2) ok = none := by
    intro ok
    by_contra h
    obtain ⟨t, ht⟩ := Option.ne_none_iff_exists'.1 h
    rw [faceHit_eq_some] at ht
    have h1 : 0 < t * (1 / Real.sqrt 2) := by
      have : 0 < t := by linarith [ht.2.1]
      positivity
    linarith [ht.2.2.1]
  have hz : ∀ (bd : ℝ) (ok : ℝ → Prop), faceHit bd 0 0 ok = none := by
    intro bd ok; simp [faceHit]
  have hh : b.hits 0 d = [Real.sqrt 2, Real.sqrt 2] := by
    unfold Box.hits
    simp only [b, d, Vec3.zero_x, Vec3.zero_y, Vec3.zero_z, hn, hz]
    rw [hf]
    · simp
    · simp only [within]; constructor <;> constructor <;> field_simp <;> norm_num
  have hdist : b.distanceToBorder 0 d = (Real.sqrt 2, Real.sqrt 2) := by
    unfold Box.distanceToBorder
    rw [hh]
    simp only [Box.select, swapIf, lt_irrefl, if_false]
    exact finalControl_two hP hP
  have hin : InOpenBox b 0 d 0 := by simp [InOpenBox, b]
  refine ⟨hin, ?_, hdist, ?_, ?_⟩
  · simp only [UnitVec, d]; field_simp; nlinarith
  · rintro ⟨l, hl, -, hq⟩
    rw [hdist] at hq
    match l, hl, hq with
    | [], _, hq => simp [borderPair] at hq; linarith [hq]
    | [a], _, hq => simp [borderPair] at hq; linarith [hq.2]
    | a :: c :: l, hl, hq =>
      simp only [borderPair] at hq
      have hac : a < c := by simp only [List.pairwise_cons] at hl; exact hl.1 c (by simp)
      split_ifs at hq
      · simp only [Prod.mk.injEq] at hq; linarith [hq.1, hq.2]
      · simp only [Prod.mk.injEq] at hq; linarith [hq.1, hq.2]
  · unfold Geo.location Geo.isInfront Box.toGeo
    simp only [hdist]
    rw [if_pos ⟨h20, h20⟩]

/-- **C03** fails for rays through two edges: the diagonal plane of a cube entered and left
through edges is reported as "no crossing", the box is missed entirely. -/
theorem C03_box_through_edges_missed :
    let b : Box := ⟨0, 2, 2, 2⟩
    let p : Vec3 := ⟨-2, -2, 0⟩
    let d : Vec3 := ⟨1 / Real.sqrt 2, 1 / Real.sqrt 2, 0⟩
    UnitVec d ∧ InOpenBox b p d (2 * Real.sqrt 2) ∧ b.distanceToBorder p d = (-1, -1) := by
  intro b p d
  have hp := prec_pos
  have h2 : Real.sqrt 2 * Real.sqrt 2 = 2 := Real.mul_self_sqrt (by norm_num)
  have h20 : 0 < Real.sqrt 2 := Real.sqrt_pos.2 (by norm_num)
  have hP : GEOMETRY_PRECISION ≤ Real.sqrt 2 := by
    have : (1 : ℝ) ≤ Real.sqrt 2 := Real.one_le_sqrt.2 (by norm_num)
    have : GEOMETRY_PRECISION ≤ 1 := by unfold GEOMETRY_PRECISION; norm_num
    linarith
  have hf : ∀ ok : ℝ → Prop, ok (3 * Real.sqrt 2) →
      faceHit (0 + 0.5 * 2) (-2) (1 / Real.sqrt 2) ok = some (3 * Real.sqrt 2) := by
    intro ok h
    rw [faceHit_eq_some]
    refine ⟨by positivity, by linarith, ?_, h⟩
    field_simp; norm_num
  have hn : ∀ ok : ℝ → Prop, ok (Real.sqrt 2) →
      faceHit (0 - 0.5 * 2) (-2) (1 / Real.sqrt 2) ok = some (Real.sqrt 2) := by
    intro ok h
    rw [faceHit_eq_some]
    refine ⟨by positivity, hP, ?_, h⟩
    field_simp; norm_num
  have hz : ∀ (bd : ℝ) (ok : ℝ → Prop), faceHit bd 0 0 ok = none := by
    intro bd ok; simp [faceHit]
  have w1 : within 0 2 (-2) (1 / Real.sqrt 2) (Real.sqrt 2) := by
    unfold within; constructor <;> field_simp <;> norm_num
  have w3 : within 0 2 (-2) (1 / Real.sqrt 2) (3 * Real.sqrt 2) := by
    unfold within; constructor <;> field_simp <;> norm_num
  have w0 : ∀ t, within 0 2 0 0 t := by
    intro t; unfold within; norm_num
  have hh : b.hits p d = [3 * Real.sqrt 2, Real.sqrt 2, 3 * Real.sqrt 2, Real.sqrt 2] := by
    unfold Box.hits
    simp only [b, d, p, Vec3.zero_x, Vec3.zero_y, Vec3.zero_z, hz]
    rw [hf _ ⟨w3, w0 _⟩, hn _ ⟨w1, w0 _⟩]
    simp
  refine ⟨?_, ?_, ?_⟩
  · simp only [UnitVec, d]; field_simp; nlinarith
  · simp [InOpenBox, b, p, d]
  · unfold Box.distanceToBorder
    rw [hh]
    simp only [Box.select]
    exact finalControl_none

/-- **C05** for boxes: every box has the documented pair shape, for every ray. -/
theorem C05_box_valid (b : Box) (n : ℕ) (p d : Vec3) :
    ValidPair ((b.toGeo n).dist p d) := finalControl_valid _

/-- **C06** (box), for rays that meet no edge ahead: inside means exactly that the ray point just
short of `GEOMETRY_PRECISION` ahead is in the open box. Missing: rays through edges, where it is
false by `C03_box_edge_counterexample`. -/
theorem C06_box_inside_partial (b : Box) (hb : 0 < b.x ∧ 0 < b.y ∧ 0 < b.z) (n : ℕ) (p d : Vec3)
    (hd : UnitVec d) (he : AvoidsEdges b p d) :
    (b.toGeo n).isInside p d ↔
      ∀ᶠ s in nhdsWithin GEOMETRY_PRECISION (Set.Iio GEOMETRY_PRECISION), InOpenBox b p d s := by
  have hp := prec_pos
  have hd0 : d ≠ 0 := by
    rintro rfl; simp [UnitVec] at hd
  obtain ⟨l, hl, hm, hq⟩ := C03_box_distances_partial b hb p d he
  have h2 : ∀ᶠ s in nhdsWithin GEOMETRY_PRECISION (Set.Iio GEOMETRY_PRECISION),
              s < GEOMETRY_PRECISION := eventually_mem_nhdsWithin
  unfold Geo.isInside Box.toGeo
  simp only [hq]
  constructor
  · rintro ⟨h1, h1'⟩
    match l, hl, hm, h1, h1' with
    | [], _, _, h1, _ => simp [borderPair] at h1; linarith
    | [a], _, hm, _, _ =>
      have ha := (hm a).1 (by simp)
      obtain ⟨s, hs⟩ := ha.2.2.2
      have uniq : ∀ t, GEOMETRY_PRECISION ≤ t → CrossesBox b p d t → t = a := by
        intro t h h'; simpa using (hm t).2 ⟨h, h'⟩
      have hsa : s < a := by
        rcases lt_trichotomy s a with h | h | h
        · exact h
        · subst h; exact absurd hs ha.2.2.1
        · obtain ⟨t, h3, h4⟩ := exists_exit hd0 hs
          have := uniq t (by linarith [ha.1]) h4
          linarith
      obtain ⟨e, h3, h4⟩ := exists_entry hd0 hs
      have heP : e < GEOMETRY_PRECISION := by
        by_contra hc
        have := uniq e (not_lt.1 hc) h4
        linarith
      filter_upwards [h2, lt_left_iff.2 heP] with m hm1 hm2
      rcases le_total s m with h | h
      · exact box_between hs ha.2.1 (Or.inl ⟨h, by linarith [ha.1]⟩)
      · exact box_between hs h4.1 (Or.inr ⟨hm2, h⟩)
    | a :: c :: l, hl, hm, _, h1' =>
      exfalso
      have hc := ((hm c).1 (by simp)).1
      simp only [borderPair] at h1'
      match l, hl, hm, h1' with
      | [], _, _, h1' => simp at h1'; linarith
      | e :: l, hl, hm, _ =>
        simp only [List.pairwise_cons] at hl
        have k1 := hl.1 c (by simp)
        have k2 := hl.2.1 e (by simp)
        exact crosses_three ((hm a).1 (by simp)).2 ((hm c).1 (by simp)).2 ((hm e).1 (by simp)).2
          k1 k2
  · intro h
    obtain ⟨δ, hδ, hall⟩ := mem_nhdsLT_iff_exists_Ioo_subset.1 h
    set s := (δ + GEOMETRY_PRECISION) / 2 with hs
    have hδ' : δ < GEOMETRY_PRECISION := hδ
    have hs1 : δ < s := by rw [hs]; linarith
    have hs2 : s < GEOMETRY_PRECISION := by rw [hs]; linarith
    have hsO : InOpenBox b p d s := hall ⟨hs1, hs2⟩
    obtain ⟨t, h3, h4⟩ := exists_exit hd0 hsO
    have htP : GEOMETRY_PRECISION ≤ t := by
      by_contra hc
      exact h4.2.1 (hall ⟨by linarith, not_le.1 hc⟩)
    have uniq : ∀ t', t' ∈ l → t' = t := by
      intro t' ht'
      have hc := (hm t').1 ht'
      rcases lt_trichotomy t' t with h5 | h5 | h5
      · exact absurd (box_between hsO h4.1 (Or.inl ⟨by linarith [hc.1], h5⟩)) hc.2.2.1
      · exact h5
      · exact absurd (box_between hsO hc.2.1 (Or.inl ⟨by linarith [hc.1], h5⟩)) h4.2.1
    have htl : t ∈ l := (hm t).2 ⟨htP, h4⟩
    match l, hl, htl, uniq with
    | [], _, htl, _ => simp at htl
    | [a], _, _, uniq =>
      have := uniq a (by simp)
      simp only [borderPair]
      exact ⟨by linarith, by norm_num⟩
    | a :: c :: l, hl, _, uniq =>
      exfalso
      have ha := uniq a (by simp)
      have hc := uniq c (by simp)
      simp only [List.pairwise_cons] at hl
      have := hl.1 c (by simp)
      linarith

end Proposal
