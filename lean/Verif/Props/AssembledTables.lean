import Verif.Props.Assembled
import Verif.Model.AssembledTables

/-!
# C155: the propagation with tables
-/

open MeasureTheory Set

namespace Proposal

open Spec

/-- What is assumed of the tables: the search stays in its bracket and, in the table of lengths, finds the value where the bracket has
it; the tables of lengths and times do not decrease, and a length between energies that differ by less than a millionth is in the table not
shorter than the one computed from the energy loss at the upper energy. -/
structure Spec.GoodTables (c : UtilitySettings) (T : TableMaker) (lower : ℝ) : Prop where
  bracket : ∀ g t lo hi start x, lo ≤ hi → T.find g t lo hi start = some x → lo ≤ x ∧ x ≤ hi
  finds : ∀ t lo hi start, lower ≤ lo → lo ≤ hi →
    ((c.displacementTable T lower).table lo - t) * ((c.displacementTable T lower).table hi - t) ≤ 0 →
    ∃ x, (c.displacementTable T lower).find t lo hi start = some x ∧ (c.displacementTable T lower).table x = t
  lengths : ∀ e E, lower ≤ e → e ≤ E → (c.displacementTable T lower).table e ≤ (c.displacementTable T lower).table E
  close : ∀ e E, lower ≤ e → e ≤ E → E - e < E * IPREC →
    displacementIntegrand c.dedx E * (e - E) ≤ (c.displacementTable T lower).table E - (c.displacementTable T lower).table e
  times : ∀ e E, lower ≤ e → e ≤ E → (c.timeTable T lower).table e ≤ (c.timeTable T lower).table E

/-- A found energy lies between the lower limit and the energy before. -/
lemma table_range (U : TableUtil) (hf : ∀ t lo hi start x, lo ≤ hi → U.find t lo hi start = some x → lo ≤ x ∧ x ≤ hi) (E v x : ℝ)
    (hE : U.lower ≤ E) (h : U.upperLimit E v = .value x) : U.lower ≤ x ∧ x ≤ E := by
  unfold TableUtil.upperLimit at h
  dsimp only at h
  generalize U.table E - (if U.reverse then -v else v) = t at h
  split_ifs at h
  · obtain rfl := UOut.value.inj h
    exact ⟨le_rfl, hE⟩
  · unfold TableUtil.search at h
    dsimp only at h
    by_cases hb : (U.table U.lower - t) * (U.table E - t) ≤ 0
    · obtain ⟨a, b, e1, e2, e3, e4, _⟩ := (C51_bisection (fun x => U.table x - t) U.lower E ((E - U.lower) * (1 / 10 ^ 2)) 100).2 hb
      obtain ⟨a', b', e1', e2', e3', e4', _⟩ := (C51_bisection (fun x => U.table x - t) U.lower E (1 / 10 ^ 6) 100).2 hb
      rw [min_eq_left hE] at e2 e2'
      rw [max_eq_right hE] at e4 e4'
      rw [e1] at h
      dsimp only at h
      cases hx : U.find t a b (if b = E then E else (a + b) / 2) with
      | some y =>
        rw [hx] at h
        obtain rfl := UOut.value.inj h
        obtain ⟨b1, b2⟩ := hf _ _ _ _ _ e3 hx
        exact ⟨e2.trans b1, b2.trans e4⟩
      | none =>
        rw [hx] at h
        dsimp only at h
        rw [e1'] at h
        obtain rfl := UOut.value.inj h
        exact ⟨e2', e3'.trans e4'⟩
    · have e := (C51_bisection (fun x => U.table x - t) U.lower E ((E - U.lower) * (1 / 10 ^ 2)) 100).1.2 (not_le.mp hb)
      rw [e] at h
      cases h

/-- The found energy has the wanted value in a table that counts from the lower limit. -/
lemma table_value (U : TableUtil) (hr : U.reverse = false) (E v x : ℝ) (hf : ∀ t lo hi start, U.lower ≤ lo → lo ≤ hi → hi ≤ E →
      (U.table lo - t) * (U.table hi - t) ≤ 0 → ∃ x, U.find t lo hi start = some x ∧ U.table x = t)
    (hE : U.lower ≤ E) (h : U.upperLimit E v = .value x) : (x = U.lower ∧ v = U.calculate E U.lower) ∨ U.table x = U.table E - v := by
  unfold TableUtil.upperLimit at h
  dsimp only at h
  split_ifs at h with h1 h2 h3
  · left
    exact ⟨(UOut.value.inj h).symm, h2⟩
  · rw [hr] at h3; cases h3
  · right
    generalize U.table E - v = t at h
    unfold TableUtil.search at h
    dsimp only at h
    by_cases hb : (U.table U.lower - t) * (U.table E - t) ≤ 0
    · obtain ⟨a, b, e1, e2, e3, e4, e5, _⟩ :=
        (C51_bisection (fun x => U.table x - t) U.lower E ((E - U.lower) * (1 / 10 ^ 2)) 100).2 hb
      rw [min_eq_left hE] at e2
      rw [max_eq_right hE] at e4
      rw [e1] at h
      dsimp only at h
      obtain ⟨y, hy, hy'⟩ := hf t a b (if b = E then E else (a + b) / 2) e2 e3 e4 e5
      rw [hy] at h
      obtain rfl := UOut.value.inj h
      exact hy'
    · have e := (C51_bisection (fun x => U.table x - t) U.lower E ((E - U.lower) * (1 / 10 ^ 2)) 100).1.2 (not_le.mp hb)
      rw [e] at h
      cases h

/-- With a table that does not decrease and an integrand that is not positive, integrals are not negative. -/
lemma table_nonneg (U : TableUtil) (hr : U.reverse = false) (E e : ℝ) (he : e ≤ E) (hm : U.table e ≤ U.table E) (hf : U.f E ≤ 0) :
    0 ≤ U.calculate E e := by
  unfold TableUtil.calculate
  rw [hr, show (E + E) / 2 = E by ring]
  split_ifs with h h'
  · exact mul_nonneg_of_nonpos_of_nonpos hf (by linarith)
  · cases h'
  · linarith

lemma table_same (U : TableUtil) (E : ℝ) (hE : 0 < E) : U.calculate E E = 0 := by
  unfold TableUtil.calculate
  rw [if_pos (by unfold IPREC; rw [sub_self]; positivity), sub_self, mul_zero]

lemma table_utility_some {c : UtilitySettings} {T : TableMaker} {u : Utility} (h : c.tableUtility T = some u) :
    ∃ lower, lowerLimOf c.cross = some lower ∧ (c.contRand = true → some true ∈ c.cuts) ∧ (c.tableCollection T lower).make = some u := by
  unfold UtilitySettings.tableUtility at h
  cases hl : lowerLimOf c.cross with
  | none => rw [hl] at h; cases h
  | some l =>
    rw [hl] at h
    simp only [Option.bind_eq_bind, Option.bind_some] at h
    split_ifs at h with hc
    refine ⟨l, rfl, fun hr => ?_, h⟩
    rw [← C61_allowed]
    simpa [hr] using hc

/-- C155: a table of lengths contains the length that `Calculate` gives, or more. -/
lemma length_in_table (c : UtilitySettings) (T : TableMaker) (lower : ℝ) (hT : GoodTables c T lower) (E e : ℝ) (he : lower ≤ e)
    (hE : e ≤ E) : (c.displacementTable T lower).calculate E e ≤
      (c.displacementTable T lower).table E - (c.displacementTable T lower).table e := by
  unfold TableUtil.calculate
  rw [show (E + E) / 2 = E by ring]
  split_ifs with h h'
  · exact hT.close e E he hE h
  · cases h'
  · exact le_rfl

/-- C155: the utility with tables keeps to the ranges that the properties of a track need. -/
theorem C155_good_utility_partial (c : UtilitySettings) (T : TableMaker) (u : Utility) (hu : c.tableUtility T = some u) (lower : ℝ)
    (hlower : lowerLimOf c.cross = some lower) (hc : GoodSettings c lower) (hT : GoodTables c T lower) :
    u.lowerLim = lower ∧ GoodUtility u := by
  obtain ⟨l, hl, _, hm⟩ := table_utility_some hu
  obtain rfl : lower = l := Option.some.inj (hlower.symm.trans hl)
  obtain rfl := Option.some.inj hm
  have hl0 := hc.lower_pos
  refine ⟨rfl, ?_, ?_, ?_, ?_, ?_, ?_, ?_⟩
  · intro f hf E r d (hE : lower ≤ E) h0 h1 hd
    change c.lifetime.map _ = some f at hf
    cases ht : c.lifetime with
    | none => rw [ht] at hf; cases hf
    | some t =>
      rw [ht] at hf
      obtain rfl := Option.some.inj hf
      refine (orElse_range _ lower E hE fun x h => ?_).2
      unfold TableUtil.energyDecay at h
      dsimp only at h
      split_ifs at h with hh
      · obtain rfl := UOut.value.inj h
        exact ⟨le_rfl, hE⟩
      · exact table_range (c.decayTable T lower) (hT.bracket _) E _ x hE h
  · intro E r (hE : lower ≤ E) h0 h1
    refine (orElse_range _ lower E hE fun x h => ?_).2
    unfold TableUtil.energyInteraction at h
    split_ifs at h with hh
    · obtain rfl := UOut.value.inj h
      exact ⟨le_rfl, hE⟩
    · exact table_range (c.interactionTable T lower) (hT.bracket _) E _ x hE h
  · intro E r (hE : lower ≤ E) h0 _
    exact sample_range c lower hc E r hE h0
  · intro f hf E e r m (hm : lower ≤ m) he hE h0 h1
    change (if c.contRand then _ else none) = some f at hf
    split_ifs at hf
    obtain rfl := Option.some.inj hf
    by_cases hv : 0 < (c.randomisationTable T lower).calculate E e
    · have hlt : m < E := by
        rcases (he.trans hE).eq_or_lt with rfl | h
        · obtain rfl : e = m := le_antisymm hE he
          exact absurd (table_same _ e (hl0.trans_le hm)) hv.ne'
        · exact h
      have := C61_randomised_in_range_partial c.N hc.normal (fun E e => (c.randomisationTable T lower).calculate E e) lower E e
        r m hv (max_lt (hm.trans_lt hlt) hlt) h0 h1.le
      exact ⟨this.2.1, this.2.2⟩
    · rw [C61_no_variance _ _ _ _ _ _ _ (not_lt.mp hv)]
      exact ⟨he, hE⟩
  · intro E e (he : lower ≤ e) hE
    exact table_nonneg (c.displacementTable T lower) rfl E e hE (hT.lengths e E he hE) (displacement_nonpos _ E)
  · intro E e g (he : lower ≤ e) hE h0 (hg : g < (c.displacementTable T lower).calculate E e)
    refine orElse_range _ e E hE fun x hx => ?_
    obtain ⟨r1, r2⟩ := table_range (c.displacementTable T lower) (hT.bracket _) E g x (he.trans hE) hx
    have r1 : lower ≤ x := r1
    refine ⟨?_, r2⟩
    by_contra hlt
    have hlt := not_le.mp hlt
    have hle := length_in_table c T lower hT E e he hE
    rcases table_value (c.displacementTable T lower) rfl E g x (fun t lo hi start h1 h2 _ => hT.finds t lo hi start h1 h2) (he.trans hE) hx with ⟨_, hv⟩ | hv
    · have hv : g = (c.displacementTable T lower).calculate E lower := hv
      by_cases hn : E - lower < E * IPREC
      · -- both lengths come from the energy loss at the energy `E`
        have e1 : (c.displacementTable T lower).calculate E lower = displacementIntegrand c.dedx E * (lower - E) := by
          unfold TableUtil.calculate
          rw [if_pos hn, show (E + E) / 2 = E by ring]
          rfl
        have e2 : (c.displacementTable T lower).calculate E e = displacementIntegrand c.dedx E * (e - E) := by
          unfold TableUtil.calculate
          rw [if_pos (by linarith), show (E + E) / 2 = E by ring]
          rfl
        rw [hv, e1, e2] at hg
        nlinarith [displacement_nonpos c.dedx E]
      · have e1 : (c.displacementTable T lower).calculate E lower =
            (c.displacementTable T lower).table E - (c.displacementTable T lower).table lower := by
          unfold TableUtil.calculate
          rw [if_neg hn]
          rfl
        have := hT.lengths lower e le_rfl he
        rw [hv, e1] at hg
        linarith
    · have := hT.lengths x e r1 hlt.le
      linarith
  · intro E e g ρ (he : lower ≤ e) hE hg hρ
    change 0 ≤ (if c.timeExact then exactTime (fun E e => (c.timeTable T lower).calculate E e) else approximateTime) E e g ρ
    split_ifs
    · exact div_nonneg (table_nonneg (c.timeTable T lower) rfl E e hE (hT.times e E he hE)
        (time_nonpos _ _ E ((hl0.trans_le (he.trans hE)).le))) hρ
    · have hS : 0 < SPEED := by unfold SPEED; norm_num
      unfold approximateTime
      positivity

/-! ## Exact tables -/

/-- The tables of lengths and times hold the integrals from the lower limit. -/
def Spec.ExactLengths (c : UtilitySettings) (T : TableMaker) (lower : ℝ) : Prop :=
  ∀ E, lower ≤ E → (c.displacementTable T lower).table E = ∫ y in E..lower, displacementIntegrand c.dedx y

def Spec.ExactTimes (c : UtilitySettings) (T : TableMaker) (lower : ℝ) : Prop :=
  ∀ E, lower ≤ E → (c.timeTable T lower).table E = ∫ y in E..lower, timeIntegrand c.dedx c.mass y

lemma integral_grows (f : ℝ → ℝ) (lower e E : ℝ) (he : lower ≤ e) (hE : e ≤ E) (hi : IntervalIntegrable f volume lower E)
    (h : ∀ y, lower ≤ y → y ≤ E → f y ≤ 0) : ∫ y in e..lower, f y ≤ ∫ y in E..lower, f y := by
  have i1 : IntervalIntegrable f volume lower e := hi.mono_set (by
    rw [uIcc_of_le he, uIcc_of_le (he.trans hE)]; exact Icc_subset_Icc le_rfl hE)
  have i2 : IntervalIntegrable f volume e E := hi.mono_set (by
    rw [uIcc_of_le hE, uIcc_of_le (he.trans hE)]; exact Icc_subset_Icc he le_rfl)
  rw [← intervalIntegral.integral_add_adjacent_intervals i2.symm i1.symm]
  have : 0 ≤ ∫ y in E..e, f y := by
    rw [integral_flip f (fun y => -f y) hE (fun y _ => (neg_neg _).symm)]
    exact intervalIntegral.integral_nonneg hE (fun y hy => by linarith [h y (he.trans hy.1) hy.2])
  linarith

/-- C155: exact tables are good tables where the energy loss does not decrease with the energy. -/
theorem C155_exact_tables_partial (c : UtilitySettings) (T : TableMaker) (lower : ℝ) (hl : 0 ≤ lower)
    (bracket : ∀ g t lo hi start x, lo ≤ hi → T.find g t lo hi start = some x → lo ≤ x ∧ x ≤ hi)
    (finds : ∀ t lo hi start, lower ≤ lo → lo ≤ hi →
      ((c.displacementTable T lower).table lo - t) * ((c.displacementTable T lower).table hi - t) ≤ 0 →
      ∃ x, (c.displacementTable T lower).find t lo hi start = some x ∧ (c.displacementTable T lower).table x = t)
    (lengths : ExactLengths c T lower) (times : ExactTimes c T lower)
    (h1 : ∀ E, lower ≤ E → IntervalIntegrable (displacementIntegrand c.dedx) volume lower E)
    (h2 : ∀ E, lower ≤ E → IntervalIntegrable (timeIntegrand c.dedx c.mass) volume lower E)
    (hpos : ∀ E, lower ≤ E → 0 < c.dedx E) (hmono : ∀ e E, lower ≤ e → e ≤ E → c.dedx e ≤ c.dedx E) : GoodTables c T lower where
  bracket := bracket
  finds := finds
  lengths := fun e E he hE => by
    rw [lengths e he, lengths E (he.trans hE)]
    exact integral_grows _ lower e E he hE (h1 E (he.trans hE)) fun y _ _ => displacement_nonpos _ y
  close := fun e E he hE _ => by
    rw [lengths e he, lengths E (he.trans hE)]
    have hi := h1 E (he.trans hE)
    have i1 : IntervalIntegrable (displacementIntegrand c.dedx) volume lower e := hi.mono_set (by
      rw [uIcc_of_le he, uIcc_of_le (he.trans hE)]; exact Icc_subset_Icc le_rfl hE)
    have i2 : IntervalIntegrable (displacementIntegrand c.dedx) volume e E := hi.mono_set (by
      rw [uIcc_of_le hE, uIcc_of_le (he.trans hE)]; exact Icc_subset_Icc he le_rfl)
    rw [← intervalIntegral.integral_add_adjacent_intervals i2.symm i1.symm, add_sub_cancel_right,
      intervalIntegral.integral_symm]
    have := intervalIntegral.integral_mono_on hE i2 (intervalIntegrable_const (c := displacementIntegrand c.dedx E)) (fun y hy => by
      rw [displacementIntegrand_neg (hpos y (he.trans hy.1)), displacementIntegrand_neg (hpos E (he.trans hE))]
      exact neg_le_neg (one_div_le_one_div_of_le (hpos y (he.trans hy.1)) (hmono y E (he.trans hy.1) hy.2)))
    rw [intervalIntegral.integral_const, smul_eq_mul] at this
    linarith
  times := fun e E he hE => by
    rw [times e he, times E (he.trans hE)]
    exact integral_grows _ lower e E he hE (h2 E (he.trans hE)) fun y hy _ => time_nonpos _ _ y (hl.trans hy)

/-! ## The track -/

/-- A sector whose utility is made of cross sections with tables and whose density is homogeneous. -/
def Spec.Tabulated (s : Sector) (c : UtilitySettings) (T : TableMaker) (lower ρ : ℝ) : Prop :=
  c.tableUtility T = some s.util ∧ lowerLimOf c.cross = some lower ∧ GoodSettings c lower ∧ GoodTables c T lower ∧
  s.dens = homogeneousDensity ρ ∧ 0 < ρ

lemma tabulated_good {s : Sector} {c : UtilitySettings} {T : TableMaker} {lower ρ : ℝ} (h : Tabulated s c T lower ρ) :
    s.util.lowerLim = lower ∧ GoodUtility s.util ∧ GoodDensity s.dens := by
  obtain ⟨h1, h2, h3, h4, h5, h6⟩ := h
  obtain ⟨h7, h8⟩ := C155_good_utility_partial c T s.util h1 lower h2 h3 h4
  exact ⟨h7, h8, by rw [h5]; exact C146_homogeneous ρ h6⟩

/-- C155: with tables, along the track of a regular run distance and time do not decrease and the energy does not increase. Missing: runs
that are not regular, and energy losses that decrease with the energy, see `C155_below`. -/
theorem C155_track_partial (a : PropArgs) (init : PState) (pos : ℕ) (q : Prop') (hω : UnitRandoms a.ω)
    (hs : ∀ s ∈ a.sectors, ∃ c T lower ρ, Tabulated s c T lower ρ ∧ lower ≤ a.minEnergy) (hmin : 0 ≤ a.minEnergy)
    (hinit : a.minEnergy ≤ init.energy) (hreg : Regular a init pos) (h : Reachable a init pos q) :
    List.IsChain Later q.track ∧ q.track.Pairwise (fun x y => y.state.energy ≤ x.state.energy) := by
  have hu : ∀ s ∈ a.sectors, GoodUtility s.util := fun s hm => by
    obtain ⟨c, T, l, ρ, h, _⟩ := hs s hm
    exact (tabulated_good h).2.1
  have hρ : ∀ s ∈ a.sectors, GoodDensity s.dens := fun s hm => by
    obtain ⟨c, T, l, ρ, h, _⟩ := hs s hm
    exact (tabulated_good h).2.2
  have hlow : ∀ s ∈ a.sectors, s.util.lowerLim ≤ a.minEnergy := fun s hm => by
    obtain ⟨c, T, l, ρ, h, h'⟩ := hs s hm
    rw [(tabulated_good h).1]; exact h'
  exact ⟨C13_distance_time_energy_partial a init pos q hω hu hρ hlow hmin hinit hreg h,
    C14_energy_never_increases_partial a init pos q hω hu hρ hlow hmin hinit hreg h⟩

/-- C155: for a contained particle every run with tables is regular and the particle flies straight on. -/
theorem C155_contained_partial (a : PropArgs) (init : PState) (pos : ℕ) (s : Sector) (c : UtilitySettings) (T : TableMaker)
    (lower ρ border : ℝ) (hC : Contained a init s ρ border) (hA : Tabulated s c T lower ρ) (hω : UnitRandoms a.ω)
    (hlow : lower ≤ a.minEnergy) (hinit : a.minEnergy ≤ init.energy) (hdist : init.distance ≤ a.maxDistance) (q : Prop')
    (h : Reachable a init pos q) :
    List.IsChain Later q.track ∧ q.track.Pairwise (fun x y => y.state.energy ≤ x.state.energy) ∧
    q.state.distance ≤ a.maxDistance ∧
    q.state.position = init.position + (q.state.distance - init.distance) • init.direction ∧ q.state.direction = init.direction := by
  obtain ⟨g1, g2, g3⟩ := tabulated_good hA
  have hmin : 0 ≤ a.minEnergy := hA.2.2.1.lower_pos.le.trans hlow
  have hlow' : s.util.lowerLim ≤ a.minEnergy := by rw [g1]; exact hlow
  have hreg := C146_regular hC hω g2 hlow' hmin hinit hdist pos
  obtain ⟨t1, t2⟩ := C155_track_partial a init pos q hω (fun t ht => by
    obtain rfl : t = s := by simpa [hC.sectors] using ht
    exact ⟨c, T, lower, ρ, hA, hlow⟩) hmin hinit hreg h
  obtain ⟨_, _, i3, _, i5, i6, _⟩ := contained_inv hC hω g2 hlow' hmin hinit hdist q h
  exact ⟨t1, t2, i3, i5, i6⟩

/-! ## With and without tables -/

/-- A table that holds the integrals of a negative integrand up to the energy `E`, with a search that finds what its bracket has. -/
structure Spec.Faithful (U : TableUtil) (top E : ℝ) : Prop where
  exact : ExactTable U top E
  finds : ∀ t lo hi start, U.lower ≤ lo → lo ≤ hi → hi ≤ E → (U.table lo - t) * (U.table hi - t) ≤ 0 →
    ∃ x, U.find t lo hi start = some x ∧ lo ≤ x ∧ x ≤ hi ∧ U.table x = t
  integrable : IntervalIntegrable U.f volume U.lower top
  negative : ∀ y, U.lower ≤ y → y ≤ E → U.f y < 0

section same

variable {U : TableUtil} {V : IntegralUtil} {top E : ℝ}

lemma faithful_diff (hF : Faithful U top E) (htop : E ≤ top) {x y : ℝ} (hx : U.lower ≤ x) (hxy : x ≤ y) (hy : y ≤ E) :
    (if U.reverse then U.table x - U.table y else U.table y - U.table x) = ∫ z in y..x, U.f z := by
  have hsub : ∀ y z, y ∈ Icc U.lower top → z ∈ Icc U.lower top → IntervalIntegrable U.f volume y z := by
    intro y' z hy' hz
    refine hF.integrable.mono_set ?_
    rw [uIcc_of_le (hx.trans (hxy.trans (hy.trans htop)))]
    exact uIcc_subset_Icc hy' hz
  have mx : x ∈ Icc U.lower top := ⟨hx, hxy.trans (hy.trans htop)⟩
  have my : y ∈ Icc U.lower top := ⟨hx.trans hxy, hy.trans htop⟩
  have mt : top ∈ Icc U.lower top := ⟨mx.1.trans mx.2, le_rfl⟩
  have ml : U.lower ∈ Icc U.lower top := ⟨le_rfl, mt.1⟩
  have e1 := hF.exact x ⟨hx, hxy.trans hy⟩
  have e2 := hF.exact y ⟨hx.trans hxy, hy⟩
  cases hr : U.reverse <;> simp only [hr, if_true, if_false, Bool.false_eq_true] at * <;> rw [e1, e2]
  · have := intervalIntegral.integral_add_adjacent_intervals (hsub y x my mx) (hsub x U.lower mx ml)
    linarith
  · have := intervalIntegral.integral_add_adjacent_intervals (hsub top y mt my) (hsub y x my mx)
    linarith

/-- The energy with a given integral is unique. -/
lemma faithful_unique (hF : Faithful U top E) (htop : E ≤ top) {x y : ℝ} (hx : U.lower ≤ x) (hxE : x ≤ E) (hy : U.lower ≤ y) (hyE : y ≤ E)
    (h : ∫ z in E..x, U.f z = ∫ z in E..y, U.f z) : x = y := by
  have key : ∀ x y, U.lower ≤ x → y ≤ E → x < y → ∫ z in E..y, U.f z < ∫ z in E..x, U.f z := by
    intro x y hx hy hlt
    have hsub : ∀ a b, U.lower ≤ a → a ≤ b → b ≤ E → IntervalIntegrable U.f volume a b := fun a b h1 h2 h3 =>
      hF.integrable.mono_set (by
        rw [uIcc_of_le (h1.trans (h2.trans (h3.trans htop))), uIcc_of_le h2]; exact Icc_subset_Icc h1 (h3.trans htop))
    rw [← intervalIntegral.integral_add_adjacent_intervals (hsub y E (hx.trans hlt.le) hy le_rfl).symm (hsub x y hx hlt.le hy).symm]
    have : 0 < ∫ z in y..x, U.f z := by
      rw [integral_flip U.f (fun y => -U.f y) hlt.le (fun y _ => (neg_neg _).symm)]
      exact intervalIntegral.intervalIntegral_pos_of_pos_on (hsub x y hx hlt.le hy).neg
        (fun z hz => by linarith [hF.negative z (hx.trans hz.1.le) (hz.2.le.trans hy)]) hlt
    linarith
  rcases lt_trichotomy x y with h' | h' | h'
  · have := key x y hx hyE h'; linarith
  · exact h'
  · have := key y x hy hxE h'; linarith

lemma above_wide {lower : ℝ} (h : TableAbove E lower) (hl : 0 < lower) : narrow E lower = false := by
  unfold narrow computerPrecision
  rw [decide_eq_false_iff_not, not_le, abs_of_pos (hl.trans h.1), abs_of_neg (by linarith [h.1])]
  have := h.2
  have := hl.trans h.1
  norm_num at *
  linarith

lemma same_calculate (hf : U.f = V.f) (hl : U.lower = V.lower) (hQ : ExactQuadrature V.Q) (s : IState) (hF : Faithful U top E)
    (htop : E ≤ top) {e : ℝ} (hpos : 0 < V.lower) (he : U.lower ≤ e) (hE : E * (1 / 10 ^ 6) ≤ E - e)
    (hn : narrow (Real.log e) (Real.log E) = false) : (V.calculate s E e).1 = U.calculate E e := by
  have h0 : 0 < e := by rw [hl] at he; linarith
  have hle : e ≤ E := by norm_num at hE; linarith
  rcases calculate_cases V hQ s E e (by rw [hl] at he; linarith) hle with ⟨h, _⟩ | ⟨_, h⟩
  · rw [hn] at h; cases h
  · rw [h, ← hf, ← faithful_diff hF htop he hle le_rfl]
    unfold TableUtil.calculate
    rw [if_neg (c := E - e < E * IPREC) (by unfold IPREC; exact not_lt.mpr hE)]

lemma same_upper (hf : U.f = V.f) (hl : U.lower = V.lower) (hQ : ExactQuadrature V.Q) (hr : ExactRefine V.search) (s : IState)
    (hF : Faithful U top E) (htop : E ≤ top) (hpos : 0 < V.lower) (h : TableAbove E U.lower)
    (hn : narrow (Real.log V.lower) (Real.log E) = false) (v : ℝ) (h0 : 0 ≤ v) (h1 : v < U.calculate E U.lower) :
    V.upperLimit s E v = U.upperLimit E v := by
  have hE : V.lower < E := by rw [← hl]; exact h.1
  have hcalc : U.calculate E U.lower = ∫ y in E..U.lower, U.f y := by
    rw [table_calculate U E h, faithful_diff hF htop le_rfl h.1.le le_rfl]
  obtain ⟨x, e1, e2, e3, e4⟩ := upperLimit_inverse V hQ hr s E v hpos hE (above_wide (by rw [← hl]; exact h) hpos) hn h0 (by
    rw [hcalc, hf, hl] at h1; exact h1)
  rw [e1]
  have hb := table_bracket U E v h h0 h1.le
  unfold TableUtil.upperLimit
  dsimp only
  rw [if_neg (not_lt.mpr h1.le), if_neg h1.ne]
  obtain ⟨a, b, c1, c2, c3, c4, c5, _⟩ := (C51_bisection (fun x => U.table x - (U.table E - if U.reverse then -v else v)) U.lower E
    ((E - U.lower) * (1 / 10 ^ 2)) 100).2 hb
  rw [min_eq_left h.1.le] at c2
  rw [max_eq_right h.1.le] at c4
  obtain ⟨y, d1, d2, d3, d4⟩ := hF.finds (U.table E - if U.reverse then -v else v) a b (if b = E then E else (a + b) / 2) c2 c3 c4 c5
  unfold TableUtil.search
  dsimp only
  rw [c1]
  dsimp only
  rw [d1]
  congr 1
  refine faithful_unique hF htop (by rw [hl]; exact e2) e3 (c2.trans d2) (d3.trans c4) ?_
  rw [hf, e4, ← hf, ← faithful_diff hF htop (c2.trans d2) (d3.trans c4) le_rfl, d4]
  cases U.reverse <;> simp

/-- C155: with exact tables and exact integrals the calculators with and without tables give the same energy of the next interaction, energy
of the decay, length between two energies and energy after a length, where the energies differ by a millionth or more. -/
theorem C155_same (hf : U.f = V.f) (hl : U.lower = V.lower) (hQ : ExactQuadrature V.Q) (hr : ExactRefine V.search) (s : IState)
    (hF : Faithful U top E) (htop : E ≤ top) (hpos : 0 < V.lower) (h : TableAbove E U.lower)
    (hn : narrow (Real.log V.lower) (Real.log E) = false) :
    (∀ r, 0 ≤ r → r ≤ 1 → V.energyInteraction s E r = U.energyInteraction E r) ∧
    (∀ t r d, 0 < t → 0 ≤ d → 0 ≤ r → r ≤ 1 → V.energyDecay t s E r d = U.energyDecay t E r d) ∧
    (∀ e, U.lower ≤ e → E * (1 / 10 ^ 6) ≤ E - e → narrow (Real.log e) (Real.log E) = false →
      (V.calculate s E e).1 = U.calculate E e) ∧
    (∀ g, 0 ≤ g → g < U.calculate E U.lower → V.upperLimit s E g = U.upperLimit E g) := by
  have hcalc : (V.calculate s E V.lower).1 = U.calculate E U.lower := by
    have := same_calculate hf hl hQ s hF htop (e := V.lower) hpos hl.le (by rw [← hl]; exact h.2) hn
    rw [this, hl]
  refine ⟨fun r h0 h1 => ?_, fun t r d ht hd h0 h1 => ?_, fun e he hE hn' => same_calculate hf hl hQ s hF htop hpos he hE hn',
    fun g h0 h1 => same_upper hf hl hQ hr s hF htop hpos h hn g h0 h1⟩
  · have hlog : 0 ≤ -Real.log r := neg_nonneg.mpr (Real.log_nonpos h0 h1)
    unfold IntegralUtil.energyInteraction TableUtil.energyInteraction
    dsimp only
    rw [hcalc]
    split_ifs with hh
    · rw [hl]
    · push Not at hh
      exact same_upper hf hl hQ hr _ hF htop hpos h hn _ hlog hh.2
  · have hlog : 0 ≤ -Real.log r := neg_nonneg.mpr (Real.log_nonpos h0 h1)
    unfold IntegralUtil.energyDecay TableUtil.energyDecay
    dsimp only
    rw [hcalc]
    split_ifs with hh
    · rw [hl]
    · push Not at hh
      exact same_upper hf hl hQ hr _ hF htop hpos h hn _ (by positivity) ((lt_div_iff₀ ht).mp hh.2)

end same

/-- C155: the propagation utilities with and without tables for the same cross sections: the same energies of interactions and decays, losses,
lengths, times and randomised energies, where the energies differ by a millionth or more and the tables are exact. -/
theorem C155_same_utility (c : UtilitySettings) (T : TableMaker) (u v : Utility) (hu : c.utility = some u) (hv : c.tableUtility T = some v)
    (lower E top : ℝ) (hlower : lowerLimOf c.cross = some lower) (hQ : ExactQuadrature c.Q) (hr : ExactRefine c.search) (hpos : 0 < lower)
    (h : TableAbove E lower) (hn : narrow (Real.log lower) (Real.log E) = false) (htop : E ≤ top)
    (h1 : Faithful (c.interactionTable T lower) top E) (h2 : Faithful (c.displacementTable T lower) top E)
    (h3 : Faithful (c.decayTable T lower) top E) (h4 : Faithful (c.randomisationTable T lower) top E)
    (h5 : Faithful (c.timeTable T lower) top E) :
    u.lowerLim = v.lowerLim ∧ u.sampleLoss = v.sampleLoss ∧ u.scattering = v.scattering ∧
    (∀ r, 0 ≤ r → r ≤ 1 → u.interaction E r = v.interaction E r) ∧
    (∀ g, 0 ≤ g → g < u.lengthContinuous E lower → u.energyDistance E g = v.energyDistance E g) ∧
    (u.decay.isSome = v.decay.isSome ∧ ∀ f f', u.decay = some f → v.decay = some f' → (∀ l, c.lifetime = some l → 0 < l) →
      ∀ r d, 0 ≤ r → r ≤ 1 → 0 ≤ d → f E r d = f' E r d) ∧
    ∀ e, lower ≤ e → E * (1 / 10 ^ 6) ≤ E - e → narrow (Real.log e) (Real.log E) = false →
      u.lengthContinuous E e = v.lengthContinuous E e ∧
      (u.contRand.isSome = v.contRand.isSome ∧ ∀ f f', u.contRand = some f → v.contRand = some f' → ∀ r m, f E e r m = f' E e r m) ∧
      ∀ g ρ, u.timeElapsed E e g ρ = v.timeElapsed E e g ρ := by
  obtain ⟨l, hl, _, hm⟩ := utility_some hu
  obtain rfl : lower = l := Option.some.inj (hlower.symm.trans hl)
  obtain rfl := Option.some.inj hm
  obtain ⟨l', hl', _, hm'⟩ := table_utility_some hv
  obtain rfl : lower = l' := Option.some.inj (hlower.symm.trans hl')
  obtain rfl := Option.some.inj hm'
  obtain ⟨i1, _, _, _⟩ := C155_same (U := c.interactionTable T lower) (V := c.interaction lower) rfl rfl hQ hr c.junk h1 htop hpos h hn
  obtain ⟨_, _, d3, d4⟩ := C155_same (U := c.displacementTable T lower) (V := c.displacement lower) rfl rfl hQ hr c.junk h2 htop hpos h hn
  obtain ⟨_, y2, _, _⟩ := C155_same (U := c.decayTable T lower) (V := c.decay lower) rfl rfl hQ hr c.junk h3 htop hpos h hn
  obtain ⟨_, _, z3, _⟩ := C155_same (U := c.randomisationTable T lower) (V := c.randomisation lower) rfl rfl hQ hr c.junk h4 htop hpos h hn
  obtain ⟨_, _, t3, _⟩ := C155_same (U := c.timeTable T lower) (V := c.time lower) rfl rfl hQ hr c.junk h5 htop hpos h hn
  refine ⟨rfl, rfl, rfl, fun r h0 h1 => ?_, fun g h0 h1 => ?_, ⟨?_, fun f f' hf hf' hl r d h0 h1 hd => ?_⟩, fun e he hE hn' =>
    ⟨d3 e he hE hn', ⟨?_, fun f f' hf hf' r m => ?_⟩, fun g ρ => ?_⟩⟩
  · change ((c.interaction lower).energyInteraction c.junk E r).orElse E = ((c.interactionTable T lower).energyInteraction E r).orElse E
    rw [i1 r h0 h1]
  · change ((c.displacement lower).upperLimit c.junk E g).orElse E = ((c.displacementTable T lower).upperLimit E g).orElse E
    rw [d4 g h0 (by
      have : g < ((c.displacement lower).calculate c.junk E lower).1 := h1
      rw [d3 lower le_rfl h.2 hn] at this
      exact this)]
  · change (c.lifetime.map _).isSome = (c.lifetime.map _).isSome
    rw [Option.isSome_map, Option.isSome_map]
  · change c.lifetime.map _ = some f at hf
    change c.lifetime.map _ = some f' at hf'
    cases ht : c.lifetime with
    | none => rw [ht] at hf; cases hf
    | some t =>
      rw [ht] at hf hf'
      obtain rfl := Option.some.inj hf
      obtain rfl := Option.some.inj hf'
      change ((c.decay lower).energyDecay t c.junk E r d).orElse E = ((c.decayTable T lower).energyDecay t E r d).orElse E
      rw [y2 t r d (hl t ht) hd h0 h1]
  · change (if c.contRand then _ else none : Option _).isSome = (if c.contRand then _ else none : Option _).isSome
    split_ifs <;> rfl
  · change (if c.contRand then _ else none) = some f at hf
    change (if c.contRand then _ else none) = some f' at hf'
    split_ifs at hf hf'
    obtain rfl := Option.some.inj hf
    obtain rfl := Option.some.inj hf'
    unfold energyRandomizeOf
    dsimp only
    rw [z3 e he hE hn']
  · change (if c.timeExact then exactTime (fun E e => ((c.time lower).calculate c.junk E e).1) else approximateTime) E e g ρ =
      (if c.timeExact then exactTime (fun E e => (c.timeTable T lower).calculate E e) else approximateTime) E e g ρ
    split_ifs
    · unfold exactTime
      dsimp only
      rw [t3 e he hE hn']
    · rfl

/-- C155: the values which `BuildTables` puts into a table: with exact integrals the ones to the lower limit, or from the upper end of the
table. -/
theorem C155_tables (T : TableMaker) (U : IntegralUtil) (hQ : ExactQuadrature U.Q) (junk : IState) (reverse : Bool) (hpos : 0 < U.lower)
    (hT : ∀ g x, U.lower ≤ x → x ≤ T.top → T.spline g x = g x) (y : ℝ) (h1 : U.lower ≤ y) (h2 : y ≤ T.top)
    (n1 : reverse = false → narrow (Real.log U.lower) (Real.log y) = false)
    (n2 : reverse = true → narrow (Real.log y) (Real.log T.top) = false) :
    (T.build U junk reverse).table y = (if reverse then ∫ z in T.top..y, U.f z else ∫ z in y..U.lower, U.f z) ∧
    (T.build U junk reverse).f = U.f ∧ (T.build U junk reverse).reverse = reverse ∧ (T.build U junk reverse).lower = U.lower := by
  refine ⟨?_, rfl, rfl, rfl⟩
  unfold TableMaker.build
  dsimp only
  rw [hT _ y h1 h2]
  cases reverse with
  | false =>
    rcases calculate_cases U hQ junk y U.lower hpos h1 with ⟨h, _⟩ | ⟨_, h⟩
    · rw [n1 rfl] at h; cases h
    · simpa using h
  | true =>
    rcases calculate_cases U hQ junk T.top y (hpos.trans_le h1) h2 with ⟨h, _⟩ | ⟨_, h⟩
    · rw [n2 rfl] at h; cases h
    · simpa using h

/-! ## Energies below the wanted one -/

/-- A table without error, and a search that finds the energy. -/
noncomputable def Deep.maker (top : ℝ) : TableMaker where
  spline := fun g => g
  find := fun g t lo hi _ => by
    classical
    exact if h : ∃ x, lo ≤ x ∧ x ≤ hi ∧ g x = t then some h.choose else none
  top := top

lemma Deep.maker_find (top : ℝ) (g : ℝ → ℝ) (t lo hi start x : ℝ) (h : (Deep.maker top).find g t lo hi start = some x) :
    lo ≤ x ∧ x ≤ hi ∧ g x = t := by
  unfold Deep.maker at h
  dsimp only at h
  split_ifs at h with hx
  obtain rfl := Option.some.inj h
  exact hx.choose_spec

lemma Deep.maker_finds (top : ℝ) (g h : ℝ → ℝ) (hg : ∀ x, 1 ≤ x → g x = h x) (hc : ContinuousOn h (Ici 1)) (t lo hi start : ℝ) (hlo : 1 ≤ lo)
    (hle : lo ≤ hi) (hs : (g lo - t) * (g hi - t) ≤ 0) : ∃ x, (Deep.maker top).find g t lo hi start = some x ∧ lo ≤ x ∧ x ≤ hi ∧ g x = t := by
  have hx : ∃ x, lo ≤ x ∧ x ≤ hi ∧ g x = t := by
    have hc' : ContinuousOn (fun x => h x - t) (uIcc lo hi) := (hc.sub continuousOn_const).mono (by
      rw [uIcc_of_le hle]
      exact fun x hx => hlo.trans hx.1)
    rw [hg lo hlo, hg hi (hlo.trans hle)] at hs
    have h0 : (0 : ℝ) ∈ uIcc (h lo - t) (h hi - t) := by
      rw [mem_uIcc]
      by_contra hcon
      push Not at hcon
      rcases lt_trichotomy (h lo - t) 0 with c | c | c
      · have := hcon.1 c.le
        nlinarith
      · rcases le_total 0 (h hi - t) with d | d
        · have := hcon.1 c.le; linarith
        · have := hcon.2 d; linarith
      · have : 0 < h hi - t := by
          by_contra d
          exact absurd (hcon.2 (not_lt.mp d)) (by linarith)
        nlinarith
    obtain ⟨x, hx, hx0⟩ := intermediate_value_uIcc hc' h0
    rw [uIcc_of_le hle] at hx
    refine ⟨x, hx.1, hx.2, ?_⟩
    rw [hg x (hlo.trans hx.1)]
    simpa [sub_eq_zero] using hx0
  refine ⟨hx.choose, ?_, hx.choose_spec⟩
  unfold Deep.maker
  dsimp only
  rw [dif_pos hx]

/-- From the energy 1 the integrals are exact. -/
lemma calculate_one (U : IntegralUtil) (hQ : ExactQuadrature U.Q) (s : IState) (E : ℝ) (hE : 1 ≤ E) :
    (U.calculate s E 1).1 = ∫ y in E..1, U.f y := by
  rcases calculate_cases U hQ s E 1 one_pos hE with ⟨h, e⟩ | ⟨_, e⟩
  · unfold narrow at h
    rw [decide_eq_true_eq, Real.log_one, abs_zero, zero_mul, sub_zero] at h
    have h' := abs_nonpos_iff.mp h
    have : E = 1 := by
      rcases Real.log_eq_zero.mp h' with h | h | h <;> linarith
    rw [e, this, intervalIntegral.integral_same]
  · exact e

/-- An energy loss that is the inverse of the energy. -/
noncomputable def Deep.falling (search : IState → Option ℝ) : UtilitySettings :=
  ⟨exactQ, search, newIntegral, exactNormal, [{ Deep.process with edx := fun E => 1 / E }], [some true], 1 / 2, some 1, true, true, none⟩

lemma Deep.falling_dedx (search : IState → Option ℝ) (E : ℝ) : (Deep.falling search).dedx E = 1 / E := by
  simp [UtilitySettings.dedx, Deep.falling]

lemma Deep.falling_integrand (search : IState → Option ℝ) (E : ℝ) (hE : 0 < E) : displacementIntegrand (Deep.falling search).dedx E = -E := by
  rw [displacementIntegrand_neg (by rw [Deep.falling_dedx]; positivity), Deep.falling_dedx]
  simp

lemma Deep.falling_integral (search : IState → Option ℝ) (E : ℝ) (hE : 1 ≤ E) :
    ∫ y in E..1, displacementIntegrand (Deep.falling search).dedx y = (E ^ 2 - 1) / 2 := by
  have : ∫ y in E..1, displacementIntegrand (Deep.falling search).dedx y = ∫ y in E..1, -y := by
    refine intervalIntegral.integral_congr ?_
    intro y hy
    rw [uIcc_of_ge hE] at hy
    exact Deep.falling_integrand search y (by linarith [hy.1])
  rw [this, intervalIntegral.integral_neg, integral_id]
  ring

/-- C155: the energy after a length shorter than the one to the energy `e` can be below `e`, even with exact tables: lengths between energies
that differ by less than a millionth are computed from the energy loss at the upper energy. -/
theorem C155_below : ∃ (c : UtilitySettings) (T : TableMaker) (u : Utility), c.tableUtility T = some u ∧ GoodSettings c 1 ∧
    ExactLengths c T 1 ∧ (∀ E, 1 ≤ E → Faithful (c.displacementTable T 1) E E) ∧ u.lowerLim = 1 ∧
    ∃ E e g, u.lowerLim ≤ e ∧ e ≤ E ∧ 0 ≤ g ∧ g < u.lengthContinuous E e ∧ u.energyDistance E g < e := by
  obtain ⟨search, hs⟩ := exactRefine_exists
  have hcont : ContinuousOn (fun E : ℝ => (E ^ 2 - 1) / 2) (Ici 1) := by fun_prop
  have htab : ∀ E, 1 ≤ E → ((Deep.falling search).displacementTable (Deep.maker 10) 1).table E =
      ∫ y in E..1, displacementIntegrand (Deep.falling search).dedx y := fun E hE =>
    calculate_one ((Deep.falling search).displacement 1) exactQ_exact newIntegral E hE
  have htab' : ∀ E, 1 ≤ E → ((Deep.falling search).displacementTable (Deep.maker 10) 1).table E = (E ^ 2 - 1) / 2 := fun E hE => by
    rw [htab E hE, Deep.falling_integral search E hE]
  have hint : ∀ E, 1 ≤ E → IntervalIntegrable (displacementIntegrand (Deep.falling search).dedx) volume 1 E := fun E hE => by
    have : IntervalIntegrable (fun y : ℝ => -y) volume 1 E := (continuous_neg).intervalIntegrable _ _
    refine this.congr ?_
    intro y hy
    rw [uIoc_of_le hE] at hy
    exact (Deep.falling_integrand search y (by linarith [hy.1])).symm
  have hF : ∀ E, 1 ≤ E → Faithful ((Deep.falling search).displacementTable (Deep.maker 10) 1) E E := fun E hE =>
    { exact := fun y hy => by
        rw [htab y hy.1]
        rfl
      finds := fun t lo hi start h1 h2 _ h4 => Deep.maker_finds 10 _ _ htab' hcont t lo hi start h1 h2 h4
      integrable := hint E hE
      negative := fun y h1 _ => by
        have h1 : (1 : ℝ) ≤ y := h1
        have := Deep.falling_integrand search y (by linarith)
        change displacementIntegrand (Deep.falling search).dedx y < 0
        rw [this]
        linarith }
  refine ⟨Deep.falling search, Deep.maker 10, _, rfl, ?_, htab, hF, rfl, 2, 2 - 1 / 10 ^ 6, 2 / 10 ^ 6 - 1 / (4 * 10 ^ 12), ?_, ?_, ?_, ?_, ?_⟩
  · exact
      { quadrature := exactQ_exact
        search := hs
        normal := C138_exact
        lower_pos := one_pos
        integrable := hint
        rates := fun E _ r hr => by
          have : r.rate = 1 := by
            have : r = ⟨{ Deep.process with edx := fun E => 1 / E }, 7, 1⟩ := by simpa [ratesOf, Deep.falling, Deep.process] using hr
            rw [this]
          rw [this]
          norm_num
        losses := fun E _ r hr left v _ _ hv => by
          have : r = ⟨{ Deep.process with edx := fun E => 1 / E }, 7, 1⟩ := by simpa [ratesOf, Deep.falling, Deep.process] using hr
          rw [this] at hv
          obtain rfl : (1 / 2 : ℝ) = v := Except.ok.inj hv
          norm_num
        lifetime := fun l hl => by
          obtain rfl := Option.some.inj hl
          norm_num }
  · change (1 : ℝ) ≤ _
    norm_num
  · norm_num
  · norm_num
  · change _ < ((Deep.falling search).displacementTable (Deep.maker 10) 1).calculate 2 (2 - 1 / 10 ^ 6)
    unfold TableUtil.calculate
    rw [if_pos (by unfold IPREC; norm_num)]
    change _ < displacementIntegrand (Deep.falling search).dedx ((2 + 2) / 2) * _
    rw [Deep.falling_integrand search _ (by norm_num)]
    norm_num
  · change (((Deep.falling search).displacementTable (Deep.maker 10) 1).upperLimit 2 (2 / 10 ^ 6 - 1 / (4 * 10 ^ 12))).orElse 2 < _
    have hA : TableAbove 2 ((Deep.falling search).displacementTable (Deep.maker 10) 1).lower := by
      change TableAbove 2 1
      constructor <;> norm_num
    have hmax : ((Deep.falling search).displacementTable (Deep.maker 10) 1).calculate 2 1 = 3 / 2 := by
      have := table_calculate ((Deep.falling search).displacementTable (Deep.maker 10) 1) 2 hA
      change _ = ((Deep.falling search).displacementTable (Deep.maker 10) 1).table 2 -
        ((Deep.falling search).displacementTable (Deep.maker 10) 1).table 1 at this
      rw [htab' 2 (by norm_num), htab' 1 le_rfl] at this
      refine Eq.trans this ?_
      norm_num
    obtain ⟨x, hx, x1, x2⟩ := table_upper ((Deep.falling search).displacementTable (Deep.maker 10) 1)
      (fun t lo hi start x _ h => ⟨(Deep.maker_find 10 _ t lo hi start x h).1, (Deep.maker_find 10 _ t lo hi start x h).2.1⟩)
      2 (2 / 10 ^ 6 - 1 / (4 * 10 ^ 12)) hA (by norm_num) (by
        change _ ≤ ((Deep.falling search).displacementTable (Deep.maker 10) 1).calculate 2 1
        rw [hmax]; norm_num)
    rw [hx]
    change x < _
    have x1 : (1 : ℝ) ≤ x := x1
    rcases table_value ((Deep.falling search).displacementTable (Deep.maker 10) 1) rfl 2 _ x (fun t lo hi start h1 h2 _ h3 => by
        obtain ⟨y, y1, _, _, y4⟩ := Deep.maker_finds 10 _ _ htab' hcont t lo hi start h1 h2 h3
        exact ⟨y, y1, y4⟩) (by change (1 : ℝ) ≤ 2; norm_num) hx with ⟨_, h⟩ | h
    · change _ = ((Deep.falling search).displacementTable (Deep.maker 10) 1).calculate 2 1 at h
      rw [hmax] at h
      norm_num at h
    · rw [htab' x x1, htab' 2 (by norm_num)] at h
      norm_num at h ⊢
      nlinarith

/-- C155: by how much at most: if the energy loss is nowhere above `M` times the one at the energy `E`, the energy after a length shorter
than the one to an energy `e` within a millionth of `E` is not below `E - M * (E - e)`. -/
theorem C155_slack (U : TableUtil) (dedx : ℝ → ℝ) (hf : U.f = displacementIntegrand dedx) (hr : U.reverse = false) (top E e g M x : ℝ)
    (hF : Faithful U top E) (htop : E ≤ top) (he : U.lower ≤ e) (hE : e ≤ E) (hc : E - e < E * IPREC)
    (bracket : ∀ t lo hi start x, lo ≤ hi → U.find t lo hi start = some x → lo ≤ x ∧ x ≤ hi)
    (hM : ∀ y, U.lower ≤ y → y ≤ E → dedx y ≤ M * dedx E) (hpos : ∀ y, U.lower ≤ y → y ≤ E → 0 < dedx y)
    (hg : g < U.calculate E e) (h : U.upperLimit E g = .value x) : E - M * (E - e) ≤ x ∧ x ≤ E := by
  have hlE := he.trans hE
  obtain ⟨x1, x2⟩ := table_range U bracket E g x hlE h
  refine ⟨?_, x2⟩
  have hp := hpos E hlE le_rfl
  have hM0 : 1 ≤ M := by
    have := hM E hlE le_rfl
    by_contra hlt
    nlinarith [not_le.mp hlt]
  have hfE : U.f E = -(1 / dedx E) := by rw [hf, displacementIntegrand_neg hp]
  have hlen : U.calculate E e = 1 / dedx E * (E - e) := by
    unfold TableUtil.calculate
    rw [if_pos hc, show (E + E) / 2 = E by ring, hfE]
    ring
  -- the bound for a value of the table
  have hbound : ∀ y, U.lower ≤ y → y ≤ E → 1 / (M * dedx E) * (E - y) ≤ U.table E - U.table y := by
    intro y h1 h2
    have e1 := faithful_diff hF htop h1 h2 le_rfl
    rw [hr] at e1
    simp only [Bool.false_eq_true, if_false] at e1
    rw [e1, integral_flip U.f (fun z => 1 / dedx z) h2 (fun z hz => by
      rw [hf, displacementIntegrand_neg (hpos z (h1.trans hz.1) hz.2)])]
    have i2 : IntervalIntegrable U.f volume y E := hF.integrable.mono_set (by
      rw [uIcc_of_le h2, uIcc_of_le (hlE.trans htop)]; exact Icc_subset_Icc h1 htop)
    have i3 : IntervalIntegrable (fun z => 1 / dedx z) volume y E := i2.neg.congr (by
      intro z hz
      rw [uIoc_of_le h2] at hz
      simp only [Pi.neg_apply, hf, displacementIntegrand_neg (hpos z (h1.trans hz.1.le) hz.2), neg_neg])
    have := intervalIntegral.integral_mono_on h2 (intervalIntegrable_const (c := 1 / (M * dedx E))) i3 (fun z hz =>
      one_div_le_one_div_of_le (hpos z (h1.trans hz.1) hz.2) (hM z (h1.trans hz.1) hz.2))
    rw [intervalIntegral.integral_const, smul_eq_mul] at this
    linarith
  have hkey : ∀ y, 1 / (M * dedx E) * (E - y) ≤ g → E - M * (E - e) ≤ y := by
    intro y hy
    rw [hlen] at hg
    have h1 : 1 / (M * dedx E) * (E - y) < 1 / dedx E * (E - e) := hy.trans_lt hg
    have h2 : (E - y) / M < E - e := by
      have e1 : 1 / (M * dedx E) * (E - y) = (E - y) / M / dedx E := by field_simp
      have e2 : 1 / dedx E * (E - e) = (E - e) / dedx E := by ring
      rw [e1, e2] at h1
      exact (div_lt_div_iff_of_pos_right hp).mp h1
    rw [div_lt_iff₀ (by linarith)] at h2
    linarith
  rcases table_value U hr E g x (fun t lo hi start h1 h2 h3 h4 => by
      obtain ⟨y, y1, _, _, y4⟩ := hF.finds t lo hi start h1 h2 h3 h4
      exact ⟨y, y1, y4⟩) hlE h with ⟨e1, e2⟩ | e1
  · refine hkey x ?_
    rw [e2, e1]
    by_cases hn : E - U.lower < E * IPREC
    · unfold TableUtil.calculate
      rw [if_pos hn, show (E + E) / 2 = E by ring, hfE]
      have : 1 / (M * dedx E) ≤ 1 / dedx E := one_div_le_one_div_of_le hp (by nlinarith)
      nlinarith
    · unfold TableUtil.calculate
      rw [if_neg hn, hr]
      exact hbound _ le_rfl hlE
  · refine hkey x ?_
    have := hbound x x1 x2
    linarith

/-! ## Example -/

namespace Deep

lemma flat (search : IState → Option ℝ) : displacementIntegrand (settings search).dedx = fun _ => -1 := by
  funext y
  simp [displacementIntegrand, UtilitySettings.dedx, settings, process]

lemma flat_table (search : IState → Option ℝ) (E : ℝ) (hE : 1 ≤ E) : ((settings search).displacementTable (maker 1000) 1).table E = E - 1 := by
  refine (calculate_one ((settings search).displacement 1) exactQ_exact newIntegral E hE).trans ?_
  change ∫ y in E..1, displacementIntegrand (settings search).dedx y = _
  rw [flat, intervalIntegral.integral_const]
  simp

lemma flat_time (search : IState → Option ℝ) (E : ℝ) (hE : 1 ≤ E) :
    IntervalIntegrable (timeIntegrand (settings search).dedx (settings search).mass) volume 1 E := by
  refine ContinuousOn.intervalIntegrable ?_
  rw [uIcc_of_le hE]
  have hS : 0 < SPEED := by unfold SPEED; norm_num
  have hpos : ∀ y ∈ Icc 1 E, 0 < Real.sqrt ((y - 1 / 2) * (y + 1 / 2)) * SPEED := fun y hy => by
    have : 0 < (y - 1 / 2) * (y + 1 / 2) := mul_pos (by linarith [hy.1]) (by linarith [hy.1])
    positivity
  have hc : ContinuousOn (fun y : ℝ => -1 * y / (Real.sqrt ((y - 1 / 2) * (y + 1 / 2)) * SPEED)) (Icc 1 E) :=
    ContinuousOn.div (by fun_prop) (by fun_prop) fun y hy => (hpos y hy).ne'
  refine hc.congr fun y hy => ?_
  have h0 : 0 ≤ (y - 1 / 2) * (y + 1 / 2) := mul_nonneg (by linarith [hy.1]) (by linarith [hy.1])
  unfold timeIntegrand
  rw [flat]
  rw [if_neg (by norm_num)]
  simp only [settings]
  rw [max_eq_left h0]

lemma tables (search : IState → Option ℝ) (h : ExactRefine search) : GoodTables (settings search) (maker 1000) 1 :=
  C155_exact_tables_partial _ _ 1 zero_le_one
    (fun g t lo hi start x _ h => ⟨(maker_find 1000 g t lo hi start x h).1, (maker_find 1000 g t lo hi start x h).2.1⟩)
    (fun t lo hi start h1 h2 h3 => by
      obtain ⟨y, y1, _, _, y4⟩ := maker_finds 1000 _ _ (flat_table search) (by fun_prop) t lo hi start h1 h2 h3
      exact ⟨y, y1, y4⟩)
    (fun E hE => calculate_one ((settings search).displacement 1) exactQ_exact newIntegral E hE)
    (fun E hE => calculate_one ((settings search).time 1) exactQ_exact newIntegral E hE)
    (good search h).integrable (flat_time search)
    (fun E _ => by simp [UtilitySettings.dedx, settings, process])
    (fun e E _ _ => by simp [UtilitySettings.dedx, settings, process])

noncomputable def tableUtil (search : IState → Option ℝ) : Utility :=
  match (settings search).tableUtility (maker 1000) with
  | some u => u
  | none => Toy.util

lemma tableUtil_eq (search : IState → Option ℝ) : (settings search).tableUtility (maker 1000) = some (tableUtil search) := rfl

noncomputable def tableSector (search : IState → Option ℝ) : Sector :=
  ⟨(⟨0, 1000, 0⟩ : Sphere).toGeo 1, tableUtil search, homogeneousDensity 1⟩

noncomputable def tableArgs (search : IState → Option ℝ) : PropArgs := ⟨[tableSector search], fun _ => 1 / 2, 20, 1, 0⟩

lemma tableContained (search : IState → Option ℝ) : Contained (tableArgs search) init (tableSector search) 1 980 where
  sectors := rfl
  straight := rfl
  density := rfl
  density_pos := one_pos
  inside := (contained search).inside
  far := (contained search).far
  distance := (contained search).distance
  steps := fun E e h1 h2 h3 => by
    have h1 : (1 : ℝ) ≤ e := h1
    have h3 : E ≤ 100 := h3
    have : (tableSector search).util.lengthContinuous E e = E - e := by
      change ((settings search).displacementTable (maker 1000) 1).calculate E e = E - e
      unfold TableUtil.calculate
      split_ifs with c d
      · change displacementIntegrand (settings search).dedx _ * _ = _
        rw [flat]
        ring
      · cases d
      · rw [flat_table search E (h1.trans h2), flat_table search e h1]
        ring
    unfold PARTICLE_POSITION_RESOLUTION
    rw [this, div_one]
    norm_num
    linarith

end Deep

private lemma reach_after {a : PropArgs} {init : PState} {pos n : ℕ} {q : Prop'} (h : After a init pos n q) : Reachable a init pos q := by
  induction h with
  | start q hq => exact .start q hq
  | step n q q' _ hr hs ih => exact .step q q' ih hr hs

/-- The hypotheses hold for a particle of the energy 100 in the centre of a sphere, with tables. -/
example : ∃ search, ExactRefine search ∧ GoodTables (Deep.settings search) (Deep.maker 1000) 1 ∧
    Contained (Deep.tableArgs search) Deep.init (Deep.tableSector search) 1 980 ∧
    Tabulated (Deep.tableSector search) (Deep.settings search) (Deep.maker 1000) 1 1 ∧ UnitRandoms (Deep.tableArgs search).ω ∧
    (∃ n q, After (Deep.tableArgs search) Deep.init 0 n q ∧ q.running = false ∧ List.IsChain Later q.track) := by
  obtain ⟨search, h⟩ := exactRefine_exists
  have hA : Tabulated (Deep.tableSector search) (Deep.settings search) (Deep.maker 1000) 1 1 :=
    ⟨Deep.tableUtil_eq search, rfl, Deep.good search h, Deep.tables search h, rfl, one_pos⟩
  obtain ⟨g1, g2, _⟩ := tabulated_good hA
  have hC := Deep.tableContained search
  refine ⟨search, h, Deep.tables search h, hC, hA, Toy.half, ?_⟩
  obtain ⟨n, q, h1, h2, _⟩ := C146_ends hC Toy.half g2 (by rw [g1]; exact le_rfl) zero_le_one (by norm_num [Deep.tableArgs, Deep.init])
    (by norm_num [Deep.tableArgs, Deep.init]) 0 (ε := 1 / 2) (by norm_num) (fun E k hE => by
      have hE : (1 : ℝ) ≤ E := hE
      have : ((Deep.tableSector search).util.sampleLoss E ((Deep.tableArgs search).ω k)).v = 1 / 2 := by
        change ((Deep.settings search).sample E (1 / 2)).v = 1 / 2
        norm_num [UtilitySettings.sample, sampleLoss, ratesOf, Deep.settings, Deep.process, sampleGo, Except.map]
      rw [this]
      linarith)
  refine ⟨n, q, h1, h2, (C155_contained_partial _ _ 0 _ _ _ 1 1 980 hC hA Toy.half le_rfl (by norm_num [Deep.tableArgs, Deep.init])
    (by norm_num [Deep.tableArgs, Deep.init]) q (reach_after h1)).1⟩

namespace Deep

/-- Tables of continuous negative integrands from 1 to 1000, either direction. -/
lemma faithful (U : IntegralUtil) (hQ : ExactQuadrature U.Q) (hl : U.lower = 1) (junk : IState) (reverse : Bool)
    (hc : ContinuousOn U.f (Icc 1 1000)) (hneg : ∀ y, 1 ≤ y → y ≤ 1000 → U.f y < 0) :
    Faithful ((maker 1000).build U junk reverse) 1000 100 := by
  have hint : ∀ a b, a ∈ Icc (1 : ℝ) 1000 → b ∈ Icc (1 : ℝ) 1000 → IntervalIntegrable U.f volume a b := fun a b ha hb =>
    (hc.mono (by
      rw [← uIcc_of_le (by norm_num : (1 : ℝ) ≤ 1000)] at ha hb ⊢
      exact uIcc_subset_uIcc ha hb)).intervalIntegrable
  have htab : ∀ y ∈ Icc (1 : ℝ) 100, ((maker 1000).build U junk reverse).table y =
      if reverse then ∫ z in 1000..y, U.f z else ∫ z in y..1, U.f z := by
    intro y hy
    cases reverse with
    | false =>
      change (U.calculate junk y U.lower).1 = _
      rw [hl, calculate_one U hQ junk y hy.1]
      simp
    | true =>
      have h2 : y ≤ 1000 := hy.2.trans (by norm_num)
      have := (C155_tables (maker 1000) U hQ junk true (by rw [hl]; exact one_pos) (fun g x _ _ => rfl) y (by rw [hl]; exact hy.1) h2
        (fun h => by cases h) (fun _ => by
          change narrow (Real.log y) (Real.log 1000) = false
          unfold narrow computerPrecision
          rw [decide_eq_false_iff_not, not_le]
          have l1 : Real.log y ≤ Real.log 100 := Real.log_le_log (by linarith [hy.1]) hy.2
          have l0 : 0 ≤ Real.log y := Real.log_nonneg hy.1
          have l2 : Real.log 1000 = Real.log 100 + Real.log 10 := by
            rw [← Real.log_mul (by norm_num) (by norm_num)]; norm_num
          have l3 : Real.log 100 = 2 * Real.log 10 := by
            rw [show (100 : ℝ) = 10 ^ 2 by norm_num, Real.log_pow]; norm_num
          have l4 : 0 < Real.log 10 := Real.log_pos (by norm_num)
          rw [abs_of_nonneg l0, abs_of_nonneg (by linarith)]
          norm_num
          linarith)).1
      simpa [maker] using this
  have hcont : ContinuousOn (((maker 1000).build U junk reverse).table) (Icc 1 100) := by
    have h1 : ContinuousOn (fun y => ∫ z in 1000..y, U.f z) (Icc 1 100) := by
      have := intervalIntegral.continuousOn_primitive_interval' (μ := volume) (f := U.f) (a := 1000) (b₁ := 1) (b₂ := 1000)
        (hint 1 1000 ⟨le_rfl, by norm_num⟩ ⟨by norm_num, le_rfl⟩) (by rw [uIcc_of_le (by norm_num)]; exact ⟨by norm_num, le_rfl⟩)
      refine this.mono ?_
      rw [uIcc_of_le (by norm_num)]
      exact Icc_subset_Icc le_rfl (by norm_num)
    have h2 : ContinuousOn (fun y => ∫ z in y..1, U.f z) (Icc 1 100) := by
      have := intervalIntegral.continuousOn_primitive_interval' (μ := volume) (f := U.f) (a := 1) (b₁ := 1) (b₂ := 1000)
        (hint 1 1000 ⟨le_rfl, by norm_num⟩ ⟨by norm_num, le_rfl⟩) (by rw [uIcc_of_le (by norm_num)]; exact ⟨le_rfl, by norm_num⟩)
      have hsub : Icc (1 : ℝ) 100 ⊆ uIcc 1 1000 := by
        rw [uIcc_of_le (by norm_num)]
        exact Icc_subset_Icc le_rfl (by norm_num)
      have h3 := (this.mono hsub).neg
      refine h3.congr fun y _ => ?_
      exact intervalIntegral.integral_symm _ _
    cases reverse with
    | false => exact h2.congr fun y hy => by rw [htab y hy]; simp
    | true => exact h1.congr fun y hy => by rw [htab y hy]; simp
  refine ⟨fun y hy => ?_, fun t lo hi start h1 h2 h3 h4 => ?_, ?_, fun y h1 h2 => hneg y ?_ ?_⟩
  · have hy1 : 1 ≤ y := by have := hy.1; change U.lower ≤ y at this; rwa [hl] at this
    rw [htab y ⟨hy1, hy.2⟩]
    change _ = if reverse then ∫ z in 1000..y, U.f z else ∫ z in y..U.lower, U.f z
    rw [hl]
  · change U.lower ≤ lo at h1
    rw [hl] at h1
    have hx : ∃ x, lo ≤ x ∧ x ≤ hi ∧ ((maker 1000).build U junk reverse).table x = t := by
      have hc' : ContinuousOn (fun x => ((maker 1000).build U junk reverse).table x - t) (uIcc lo hi) := (hcont.sub continuousOn_const).mono (by
        rw [uIcc_of_le h2]
        exact Icc_subset_Icc h1 h3)
      have h0 : (0 : ℝ) ∈ uIcc (((maker 1000).build U junk reverse).table lo - t) (((maker 1000).build U junk reverse).table hi - t) := by
        rw [mem_uIcc]
        rcases mul_nonpos_iff.mp h4 with ⟨c, d⟩ | ⟨c, d⟩
        · exact Or.inr ⟨d, c⟩
        · exact Or.inl ⟨c, d⟩
      obtain ⟨x, hx, hx0⟩ := intermediate_value_uIcc hc' h0
      rw [uIcc_of_le h2] at hx
      exact ⟨x, hx.1, hx.2, by simpa [sub_eq_zero] using hx0⟩
    refine ⟨hx.choose, ?_, hx.choose_spec⟩
    change (maker 1000).find ((maker 1000).build U junk reverse).table t lo hi start = _
    generalize ((maker 1000).build U junk reverse).table = g at hx
    unfold maker
    dsimp only
    rw [dif_pos hx]
  · change IntervalIntegrable U.f volume U.lower 1000
    rw [hl]
    exact hint 1 1000 ⟨le_rfl, by norm_num⟩ ⟨by norm_num, le_rfl⟩
  · change U.lower ≤ y at h1
    rwa [hl] at h1
  · linarith

lemma root_continuous : ContinuousOn (fun y : ℝ => Real.sqrt ((y - 1 / 2) * (y + 1 / 2))) (Icc 1 1000) := by fun_prop

lemma root_pos (y : ℝ) (h : 1 ≤ y) : 0 < Real.sqrt ((y - 1 / 2) * (y + 1 / 2)) :=
  Real.sqrt_pos.mpr (mul_pos (by linarith) (by linarith))

end Deep

/-- The hypotheses of `C155_same_utility` hold at the energy 100. -/
example : ∃ search, ExactRefine search ∧ TableAbove 100 1 ∧ narrow (Real.log 1) (Real.log 100) = false ∧
    Faithful ((Deep.settings search).interactionTable (Deep.maker 1000) 1) 1000 100 ∧
    Faithful ((Deep.settings search).displacementTable (Deep.maker 1000) 1) 1000 100 ∧
    Faithful ((Deep.settings search).decayTable (Deep.maker 1000) 1) 1000 100 ∧
    Faithful ((Deep.settings search).randomisationTable (Deep.maker 1000) 1) 1000 100 ∧
    Faithful ((Deep.settings search).timeTable (Deep.maker 1000) 1) 1000 100 := by
  obtain ⟨search, h⟩ := exactRefine_exists
  have hS : 0 < SPEED := by unfold SPEED; norm_num
  have hn : narrow (Real.log 1) (Real.log 100) = false := by
    unfold narrow
    rw [decide_eq_false_iff_not, not_le, Real.log_one, abs_zero, zero_mul, sub_zero]
    exact abs_pos.mpr (Real.log_pos (by norm_num)).ne'
  have e1 : ((Deep.settings search).interaction 1).f = fun _ => -1 := by
    funext y
    change interactionIntegrand (Deep.settings search).dedx (totalRate (Deep.settings search).cross) y = -1
    unfold interactionIntegrand
    rw [Deep.flat]
    simp [totalRate, Deep.settings, Deep.process]
  have e2 : ((Deep.settings search).displacement 1).f = fun _ => -1 := Deep.flat search
  have e3 : ∀ y, 1 ≤ y → ((Deep.settings search).decay 1).f y = -1 / (SPEED * Real.sqrt ((y - 1 / 2) * (y + 1 / 2)) / (1 / 2)) := by
    intro y _
    change decayIntegrand (Deep.settings search).dedx (Deep.settings search).mass y = _
    unfold decayIntegrand
    rw [Deep.flat]
    rfl
  have e4 : ((Deep.settings search).randomisation 1).f = fun _ => -1 := by
    funext y
    change contRandIntegrand (Deep.settings search).dedx (Deep.settings search).de2dx y = -1
    unfold contRandIntegrand
    rw [Deep.flat]
    simp [UtilitySettings.de2dx, Deep.settings, Deep.process]
  have e5 : ∀ y, 1 ≤ y → ((Deep.settings search).time 1).f y = -1 * y / (Real.sqrt ((y - 1 / 2) * (y + 1 / 2)) * SPEED) := by
    intro y hy
    change timeIntegrand (Deep.settings search).dedx (Deep.settings search).mass y = _
    have h0 : 0 ≤ (y - 1 / 2) * (y + 1 / 2) := mul_nonneg (by linarith) (by linarith)
    unfold timeIntegrand
    rw [Deep.flat, if_neg (by norm_num)]
    simp only [Deep.settings]
    rw [max_eq_left h0]
  refine ⟨search, h, by constructor <;> norm_num, hn, ?_, ?_, ?_, ?_, ?_⟩
  · exact Deep.faithful _ exactQ_exact rfl _ _ (by rw [e1]; exact continuousOn_const) (fun y _ _ => by rw [e1]; norm_num)
  · exact Deep.faithful _ exactQ_exact rfl _ _ (by rw [e2]; exact continuousOn_const) (fun y _ _ => by rw [e2]; norm_num)
  · refine Deep.faithful _ exactQ_exact rfl _ _ ?_ (fun y hy _ => ?_)
    · refine ContinuousOn.congr ?_ (fun y hy => e3 y hy.1)
      refine ContinuousOn.div continuousOn_const ((continuousOn_const.mul Deep.root_continuous).div_const _) fun y hy => ?_
      have := Deep.root_pos y hy.1
      positivity
    · rw [e3 y hy]
      have := Deep.root_pos y hy
      exact div_neg_of_neg_of_pos (by norm_num) (by positivity)
  · exact Deep.faithful _ exactQ_exact rfl _ _ (by rw [e4]; exact continuousOn_const) (fun y _ _ => by rw [e4]; norm_num)
  · refine Deep.faithful _ exactQ_exact rfl _ _ ?_ (fun y hy _ => ?_)
    · refine ContinuousOn.congr ?_ (fun y hy => e5 y hy.1)
      refine ContinuousOn.div (by fun_prop) (Deep.root_continuous.mul continuousOn_const) fun y hy => ?_
      have := Deep.root_pos y hy.1
      positivity
    · rw [e5 y hy]
      have := Deep.root_pos y hy
      exact div_neg_of_neg_of_pos (by linarith) (by positivity)

end Proposal
