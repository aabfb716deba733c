import Verif.Props.CrossBuilder
import Verif.Props.RateIntegral
import Verif.Props.Rates
import Mathlib.MeasureTheory.Constructions.BorelSpace.Order
import Mathlib.MeasureTheory.Measure.Lebesgue.EqHaar

/-!
# C159: the sampled loss follows the differential cross sections
-/

open MeasureTheory Set

namespace Proposal

/-- One target of a process: the rate of losses in a set of relative losses. -/
structure Spec.LossSource where
  type : IType
  target : ℕ
  law : Measure ℝ

/-- The rates of losses for the differential cross section `σ` between the losses `a` and `b`. -/
noncomputable def Spec.lossRate (σ : ℝ → ℝ) (a b : ℝ) : Measure ℝ :=
  (volume.restrict (Ioc a b)).withDensity fun v => ENNReal.ofReal (σ v)

/-- A cross section whose rates are those of the sources, and whose losses follow their laws if the part of the rate is uniform. -/
structure Spec.SampledBy (x : XSec) (E : ℝ) (S : List Spec.LossSource) : Prop where
  types : ∀ s ∈ S, s.type = x.type
  finite : ∀ s ∈ S, s.law univ ≠ ⊤
  rates : x.perTarget E = S.map fun s => (s.target, (s.law univ).toReal)
  losses : ∀ s ∈ S, ∀ B, MeasurableSet B →
    volume {left | 0 < left ∧ left ≤ (s.law univ).toReal ∧ ∃ v, x.stochasticLoss s.target E left = .ok v ∧ v ∈ B} = s.law B

/-- A calculator for the differential cross section `σ` between the losses `a` and `b`: the rate is the integral, and the loss for a part
of the rate is one up to which the integral is this part. -/
structure Spec.CalcFollows (c : DndxCalc) (E : ℝ) (σ : ℝ → ℝ) (a b : ℝ) : Prop where
  le : a ≤ b
  integrable : IntervalIntegrable σ volume a b
  nonneg : ∀ v ∈ Ioc a b, 0 ≤ σ v
  rate : c.rate E = ∫ v in a..b, σ v
  inverse : ∀ r, 0 < r → r ≤ ∫ v in a..b, σ v →
    a ≤ c.upperLimit E r ∧ c.upperLimit E r ≤ b ∧ ∫ v in a..c.upperLimit E r, σ v = r

open Spec

namespace LossLaw

lemma reflect (i : ℝ) (A : Set ℝ) : volume {s | i - s ∈ A} = volume A :=
  MeasurePreserving.measure_preimage_equiv (f := MeasurableEquiv.subLeft i) (Measure.measurePreserving_sub_left volume i) A

lemma shift (i : ℝ) (A : Set ℝ) : volume {s | s - i ∈ A} = volume A := by
  simp only [sub_eq_add_neg]
  exact measure_preimage_add_right (volume : Measure ℝ) (-i) A

lemma scale {k : ℝ} (hk : 0 < k) (A : Set ℝ) : volume {s | s * k ∈ A} = ENNReal.ofReal k⁻¹ * volume A := by
  have := Real.volume_preimage_mul_right hk.ne' A
  rwa [abs_of_pos (inv_pos.mpr hk)] at this

/-- The rates selected by a uniform number up to the sum of the rates. -/
lemma go_volume (rs : List Rate) (hn : ∀ r ∈ rs, 0 ≤ r.rate) (P : Rate → ℝ → Prop) :
    volume {s | 0 ≤ s ∧ ∃ r left, sampleGo rs s = some (r, left) ∧ P r left}
      = (rs.map fun r => volume {left | 0 < left ∧ left ≤ r.rate ∧ P r left}).sum := by
  induction rs with
  | nil => simp [sampleGo]
  | cons r rs ih =>
    have h0 := hn r (by simp)
    rw [List.map_cons, List.sum_cons, ← ih fun x hx => hn x (by simp [hx]),
      ← measure_inter_add_sdiff _ (measurableSet_Iio (a := r.rate)), ← reflect r.rate, ← shift r.rate {s | 0 ≤ s ∧ _}]
    congr 2
    · ext s
      simp only [mem_inter_iff, mem_ofPred_eq, mem_Iio, sampleGo]
      constructor
      · rintro ⟨⟨h1, r', left, h2, h3⟩, h4⟩
        rw [if_pos (by linarith)] at h2
        obtain ⟨rfl, rfl⟩ := Prod.mk.inj (Option.some.inj h2)
        exact ⟨by linarith, by linarith, by rwa [neg_sub, sub_sub_cancel] at h3⟩
      · rintro ⟨h1, h2, h3⟩
        exact ⟨⟨by linarith, r, _, if_pos (by linarith), by rwa [neg_sub, sub_sub_cancel]⟩, by linarith⟩
    · ext s
      simp only [mem_sdiff, mem_ofPred_eq, mem_Iio, not_lt, sampleGo]
      constructor
      · rintro ⟨⟨h1, r', left, h2, h3⟩, h4⟩
        rw [if_neg (by linarith)] at h2
        exact ⟨by linarith, r', left, h2, h3⟩
      · rintro ⟨h1, r', left, h2, h3⟩
        exact ⟨⟨by linarith, r', left, by rw [if_neg (by linarith)]; exact h2, h3⟩, by linarith⟩

/-- The total rate of the losses. -/
lemma lossRate_univ {σ : ℝ → ℝ} {a b : ℝ} (hab : a ≤ b) (hi : IntervalIntegrable σ volume a b) (hp : ∀ v ∈ Ioc a b, 0 ≤ σ v) :
    ∫⁻ v in Ioc a b, ENNReal.ofReal (σ v) = ENNReal.ofReal (∫ v in a..b, σ v) := by
  rw [intervalIntegral.integral_of_le hab, ofReal_integral_eq_lintegral_ofReal]
  · exact (intervalIntegrable_iff_integrableOn_Ioc_of_le hab).mp hi
  · filter_upwards [ae_restrict_mem measurableSet_Ioc] with v hv using hp v hv

/-- The loss for a uniform part of the rate follows the differential cross section. -/
lemma follows {c : DndxCalc} {E : ℝ} {σ : ℝ → ℝ} {a b : ℝ} (h : CalcFollows c E σ a b) {B : Set ℝ} (hB : MeasurableSet B) :
    volume {left | 0 < left ∧ left ≤ c.rate E ∧ c.upperLimit E left ∈ B} = lossRate σ a b B := by
  set I := ∫ v in a..b, σ v with hI
  have hint : ∀ x y, a ≤ x → x ≤ y → y ≤ b → IntervalIntegrable σ volume x y := fun x y h1 h2 h3 =>
    h.integrable.mono_set (by rw [uIcc_of_le h2, uIcc_of_le h.le]; exact Icc_subset_Icc h1 h3)
  have mono : ∀ x y, a ≤ x → x ≤ y → y ≤ b → ∫ v in a..x, σ v ≤ ∫ v in a..y, σ v := fun x y h1 h2 h3 => by
    rw [← intervalIntegral.integral_add_adjacent_intervals (hint a x le_rfl h1 (h2.trans h3)) (hint x y h1 h2 h3)]
    have : 0 ≤ ∫ v in x..y, σ v := by
      rw [intervalIntegral.integral_of_le h2]
      exact setIntegral_nonneg measurableSet_Ioc fun v hv => h.nonneg v ⟨h1.trans_lt hv.1, hv.2.trans h3⟩
    linarith
  have hmono : MonotoneOn (c.upperLimit E) (Ioc 0 I) := by
    intro r1 k1 r2 k2 k
    by_contra hc
    push Not at hc
    obtain ⟨u1, u2, u3⟩ := h.inverse r1 k1.1 k1.2
    obtain ⟨w1, w2, w3⟩ := h.inverse r2 k2.1 k2.2
    have := mono _ _ w1 hc.le u2
    rw [u3, w3] at this
    have : r1 = r2 := le_antisymm k this
    subst this
    exact lt_irrefl _ hc
  have hae : AEMeasurable (c.upperLimit E) (volume.restrict (Ioc 0 I)) := aemeasurable_restrict_of_monotoneOn measurableSet_Ioc hmono
  have fin1 : IsFiniteMeasure (Measure.map (c.upperLimit E) (volume.restrict (Ioc 0 I))) := by
    refine ⟨?_⟩
    rw [Measure.map_apply_of_aemeasurable hae MeasurableSet.univ]
    simp
  have key : Measure.map (c.upperLimit E) (volume.restrict (Ioc 0 I)) = lossRate σ a b := by
    refine Measure.ext_of_Iic _ _ fun z => ?_
    set w := max a (min z b) with hw
    have hw1 : a ≤ w := le_max_left _ _
    have hw2 : w ≤ b := max_le h.le (min_le_right _ _)
    have e1 : lossRate σ a b (Iic z) = ENNReal.ofReal (∫ v in a..w, σ v) := by
      unfold lossRate
      rw [withDensity_apply _ measurableSet_Iic, Measure.restrict_restrict measurableSet_Iic,
        ← lossRate_univ hw1 (hint a w le_rfl hw1 hw2) fun v hv => h.nonneg v ⟨hv.1, hv.2.trans hw2⟩]
      congr 2
      ext v
      simp only [mem_inter_iff, mem_Iic, mem_Ioc, hw, le_max_iff, le_min_iff]
      constructor
      · rintro ⟨k1, k2, k3⟩
        exact ⟨k2, Or.inr ⟨k1, k3⟩⟩
      · rintro ⟨k1, k2 | k2⟩
        · exact absurd k2 (not_le.mpr k1)
        · exact ⟨k2.1, k1, k2.2⟩
    rw [e1, Measure.map_apply_of_aemeasurable hae measurableSet_Iic, Measure.restrict_apply' measurableSet_Ioc]
    have hF : ∫ v in a..w, σ v ≤ I := mono w b hw1 hw2 le_rfl
    apply le_antisymm
    · calc volume (c.upperLimit E ⁻¹' Iic z ∩ Ioc 0 I) ≤ volume (Ioc 0 (∫ v in a..w, σ v)) := by
            refine measure_mono fun r hr => ⟨hr.2.1, ?_⟩
            obtain ⟨u1, u2, u3⟩ := h.inverse r hr.2.1 hr.2.2
            rw [← u3]
            exact mono _ _ u1 (le_max_of_le_right (le_min hr.1 u2)) hw2
        _ = _ := by simp
    · calc ENNReal.ofReal (∫ v in a..w, σ v) = volume (Ioo 0 (∫ v in a..w, σ v)) := by simp
        _ ≤ volume (c.upperLimit E ⁻¹' Iic z ∩ Ioc 0 I) := by
            refine measure_mono fun r hr => ⟨?_, hr.1, hr.2.le.trans hF⟩
            obtain ⟨u1, u2, u3⟩ := h.inverse r hr.1 (hr.2.le.trans hF)
            have : c.upperLimit E r < w := by
              by_contra hc
              push Not at hc
              have := mono _ _ hw1 hc u2
              rw [u3] at this
              exact absurd hr.2 (not_lt.mpr this)
            rcases lt_max_iff.mp this with k | k
            · exact absurd k (not_lt.mpr u1)
            · exact (k.trans_le (min_le_left _ _)).le
  rw [← key, Measure.map_apply_of_aemeasurable hae hB, Measure.restrict_apply' measurableSet_Ioc, h.rate]
  congr 1
  ext r
  simp only [mem_ofPred_eq, mem_inter_iff, mem_preimage, mem_Ioc]
  tauto

lemma lossRate_all {c : DndxCalc} {E : ℝ} {σ : ℝ → ℝ} {a b : ℝ} (h : CalcFollows c E σ a b) :
    lossRate σ a b univ = ENNReal.ofReal (c.rate E) ∧ 0 ≤ c.rate E := by
  refine ⟨?_, ?_⟩
  · unfold lossRate
    rw [withDensity_apply _ MeasurableSet.univ, Measure.restrict_univ, lossRate_univ h.le h.integrable h.nonneg, h.rate]
  · rw [h.rate, intervalIntegral.integral_of_le h.le]
    exact setIntegral_nonneg measurableSet_Ioc h.nonneg

/-- The rates of a list of cross sections with their sources. -/
lemma rates_of (E : ℝ) (L : List (XSec × List LossSource)) (hL : ∀ p ∈ L, SampledBy p.1 E p.2) (f : Rate → ENNReal)
    (g : LossSource → ENNReal) (hfg : ∀ p ∈ L, ∀ s ∈ p.2, f ⟨p.1, s.target, (s.law univ).toReal⟩ = g s) :
    ((ratesOf (L.map Prod.fst) E).map f).sum = ((L.flatMap Prod.snd).map g).sum := by
  induction L with
  | nil => rfl
  | cons p L ih =>
    have := ih (fun q hq => hL q (by simp [hq])) fun q hq => hfg q (by simp [hq])
    unfold ratesOf at this ⊢
    simp only [List.map_cons, List.flatMap_cons, List.map_append, List.sum_append, this]
    congr 2
    rw [(hL p (by simp)).rates]
    simp only [List.map_map]
    exact List.map_congr_left fun s hs => hfg p (by simp) s hs

lemma rates_nonneg (E : ℝ) (L : List (XSec × List LossSource)) (hL : ∀ p ∈ L, SampledBy p.1 E p.2) :
    ∀ r ∈ ratesOf (L.map Prod.fst) E, 0 ≤ r.rate := by
  intro r hr
  unfold ratesOf at hr
  simp only [List.mem_flatMap, List.mem_map, Prod.exists, exists_and_right, exists_eq_right] at hr
  obtain ⟨x, ⟨S, hp⟩, t, rr, h1, rfl⟩ := hr
  rw [(hL _ hp).rates] at h1
  obtain ⟨s, -, hs⟩ := List.mem_map.mp h1
  obtain ⟨-, rfl⟩ := Prod.mk.inj hs
  exact ENNReal.toReal_nonneg

lemma ofReal_sum (l : List Rate) (hn : ∀ r ∈ l, 0 ≤ r.rate) :
    ENNReal.ofReal (l.map Rate.rate).sum = (l.map fun r => ENNReal.ofReal r.rate).sum := by
  induction l with
  | nil => simp
  | cons r l ih =>
    simp only [List.map_cons, List.sum_cons]
    rw [ENNReal.ofReal_add (hn r (by simp)), ih fun x hx => hn x (by simp [hx])]
    apply List.sum_nonneg
    intro z hz
    obtain ⟨y, hy, rfl⟩ := List.mem_map.1 hz
    exact hn y (by simp [hy])

end LossLaw

open LossLaw

open Classical in
/-- C159: the probability that the interaction is of a type, on a target, with a relative loss in a set, is the rate of such losses
divided by the rate of all losses, for any list of cross sections. -/
theorem C159_law (E : ℝ) (L : List (XSec × List LossSource)) (hL : ∀ p ∈ L, SampledBy p.1 E p.2)
    (hpos : ∃ p ∈ L, ∃ s ∈ p.2, s.law univ ≠ 0) (t : IType) (h : ℕ) (B : Set ℝ) (hB : MeasurableSet B) :
    volume {u : ℝ | 0 ≤ u ∧ u < 1 ∧ ∃ l, sampleLoss E (ratesOf (L.map Prod.fst) E) u = .ok l ∧ l.type = t ∧ l.comp = h ∧ l.v ∈ B}
      = ((L.flatMap Prod.snd).map fun s => if s.type = t ∧ s.target = h then s.law B else 0).sum /
        ((L.flatMap Prod.snd).map fun s => s.law univ).sum := by
  set rs := ratesOf (L.map Prod.fst) E with hrs
  have hn := rates_nonneg E L hL
  have hT : ENNReal.ofReal (rs.map Rate.rate).sum = ((L.flatMap Prod.snd).map fun s => s.law univ).sum := by
    rw [ofReal_sum _ hn]
    exact rates_of E L hL _ _ fun p hp s hs => ENNReal.ofReal_toReal ((hL p hp).finite s hs)
  have hT0 : 0 < (rs.map Rate.rate).sum := by
    rw [← ENNReal.ofReal_pos, hT]
    obtain ⟨p, hp, s, hs, h0⟩ := hpos
    refine lt_of_lt_of_le (pos_iff_ne_zero.mpr h0) (List.single_le_sum (by simp) _ ?_)
    exact List.mem_map.mpr ⟨s, List.mem_flatMap.mpr ⟨p, hp, hs⟩, rfl⟩
  set T := (rs.map Rate.rate).sum with hTdef
  let P : Rate → ℝ → Prop := fun r left => ∃ v, r.cross.stochasticLoss r.hash E left = .ok v ∧ r.cross.type = t ∧ r.hash = h ∧ v ∈ B
  have e1 : {u : ℝ | 0 ≤ u ∧ u < 1 ∧ ∃ l, sampleLoss E rs u = .ok l ∧ l.type = t ∧ l.comp = h ∧ l.v ∈ B}
      = {u | u * T ∈ {s | 0 ≤ s ∧ ∃ r left, sampleGo rs s = some (r, left) ∧ P r left}} := by
    ext u
    simp only [mem_ofPred_eq]
    constructor
    · rintro ⟨h0, -, l, hl, k1, k2, k3⟩
      refine ⟨mul_nonneg h0 hT0.le, ?_⟩
      unfold sampleLoss at hl
      simp only [← hTdef] at hl
      split at hl
      · rename_i r left hgo
        refine ⟨r, left, hgo, ?_⟩
        cases hv : r.cross.stochasticLoss r.hash E left with
        | error e => rw [hv] at hl; simp [Except.map] at hl
        | ok v =>
          rw [hv] at hl
          obtain rfl := Except.ok.inj hl
          exact ⟨v, hv, k1, k2, k3⟩
      · rw [if_neg hT0.ne'] at hl
        simp at hl
    · rintro ⟨h0, r, left, hgo, v, hv, k1, k2, k3⟩
      have hs : sampleLoss E rs u = .ok ⟨r.cross.type, r.hash, v⟩ := by
        unfold sampleLoss
        simp only [← hTdef, hgo, hv]
        rfl
      refine ⟨nonneg_of_mul_nonneg_left h0 hT0, ?_, _, hs, k1, k2, k3⟩
      by_contra hc
      push Not at hc
      rw [(C34_no_interaction E rs hn u).2 hT0 hc] at hs
      simp at hs
  rw [e1, scale hT0, go_volume rs hn, ENNReal.ofReal_inv_of_pos hT0, hT, mul_comm, ENNReal.div_eq_inv_mul, mul_comm]
  congr 1
  refine rates_of E L hL _ _ fun p hp s hs => ?_
  have hx := hL p hp
  split_ifs with hc
  · rw [← hx.losses s hs B hB]
    congr 1
    ext left
    simp only [mem_ofPred_eq, P]
    constructor
    · rintro ⟨g1, g2, v, g3, -, -, g4⟩
      exact ⟨g1, g2, v, g3, g4⟩
    · rintro ⟨g1, g2, v, g3, g4⟩
      exact ⟨g1, g2, v, g3, (hx.types s hs).symm.trans hc.1, hc.2, g4⟩
  · convert measure_empty (μ := (volume : Measure ℝ))
    refine eq_empty_of_forall_notMem ?_
    rintro left ⟨-, -, v, -, g1, g2, -⟩
    exact hc ⟨(hx.types s hs).trans g1, g2⟩

namespace LossLaw

lemma key_found (m : DndxMap) (h : (m.map (·.1)).Nodup) (e : ℕ × ℝ × DndxCalc) (he : e ∈ m) : lookup m e.1 = .ok e.2 := by
  unfold lookup
  induction m with
  | nil => simp at he
  | cons x m ih =>
    rw [List.map_cons, List.nodup_cons] at h
    rcases List.mem_cons.1 he with rfl | he
    · simp
    · have hne : ¬ x.1 = e.1 := fun hx => h.1 (hx ▸ List.mem_map_of_mem he)
      rw [List.find?_cons_of_neg (by simpa using hne)]
      exact ih h.2 he

lemma built_list (key : Comp → ℕ) (w : Comp → ℝ) (mk : Comp → DndxCalc) (l : List Comp) (m : DndxMap)
    (h : (m.map (·.1) ++ l.map key).Nodup) :
    l.foldl (fun m c => emplace m (key c) (w c) (mk c)) m = m ++ l.map fun c => (key c, w c, mk c) := by
  induction l generalizing m with
  | nil => simp
  | cons c l ih =>
    have hk : key c ∉ m.map (·.1) := fun hk => (List.nodup_append.1 h).2.2 _ hk (key c) (by simp) rfl
    simp only [List.foldl_cons]
    rw [show emplace m (key c) (w c) (mk c) = m ++ [(key c, w c, mk c)] by unfold emplace; rw [if_neg hk]]
    rw [ih]
    · simp
    · simpa using h

/-- A cross section with calculators: the rate of a target is divided by its weight. -/
lemma sampled_map (type : IType) (only : Bool) (lim : ℝ) (d d2 : Option (List (ℝ × (ℝ → ℝ)))) (E : ℝ) {ι : Type} (l : List ι) (key : ι → ℕ)
    (w : ι → ℝ) (calc' : ι → DndxCalc) (law : ι → Measure ℝ) (hk : (l.map key).Nodup) (hw : ∀ i ∈ l, 0 < w i)
    (hr : ∀ i ∈ l, law i univ = ENNReal.ofReal ((calc' i).rate E) ∧ 0 ≤ (calc' i).rate E)
    (hl : ∀ i ∈ l, ∀ B, MeasurableSet B → volume {left | 0 < left ∧ left ≤ (calc' i).rate E ∧
      (if only then 1 else (calc' i).upperLimit E left) ∈ B} = law i B) :
    SampledBy (mkXSec type only lim (some (l.map fun i => (key i, w i, calc' i))) d d2) E
      (l.map fun i => ⟨type, key i, ENNReal.ofReal (w i)⁻¹ • law i⟩) := by
  have hkeys : ((l.map fun i => (key i, w i, calc' i)).map (·.1)).Nodup := by
    rw [List.map_map]
    exact hk
  have hfound : ∀ i ∈ l, lookup (l.map fun i => (key i, w i, calc' i)) (key i) = .ok (w i, calc' i) := fun i hi =>
    key_found _ hkeys (key i, w i, calc' i) (List.mem_map.mpr ⟨i, hi, rfl⟩)
  have htot : ∀ i ∈ l, ((ENNReal.ofReal (w i)⁻¹ • law i) univ) = ENNReal.ofReal ((calc' i).rate E / w i) := fun i hi => by
    rw [Measure.smul_apply, (hr i hi).1, smul_eq_mul, ← ENNReal.ofReal_mul (inv_nonneg.mpr (hw i hi).le), div_eq_inv_mul]
  have hnn : ∀ i ∈ l, 0 ≤ (calc' i).rate E / w i := fun i hi => div_nonneg (hr i hi).2 (hw i hi).le
  constructor
  · intro s hs
    obtain ⟨i, -, rfl⟩ := List.mem_map.mp hs
    rfl
  · intro s hs
    obtain ⟨i, hi, rfl⟩ := List.mem_map.mp hs
    simp only [htot i hi]
    exact ENNReal.ofReal_ne_top
  · simp only [mkXSec, perTargetOf, List.map_map]
    refine List.map_congr_left fun i hi => ?_
    simp only [Function.comp_apply, ndxTargetOf, hfound i hi, htot i hi, ENNReal.toReal_ofReal (hnn i hi), Except.map]
  · intro s hs B hB
    obtain ⟨i, hi, rfl⟩ := List.mem_map.mp hs
    simp only [htot i hi, ENNReal.toReal_ofReal (hnn i hi), Measure.smul_apply, smul_eq_mul, ← hl i hi B hB]
    rw [← scale (hw i hi)]
    congr 1
    ext left
    simp only [mem_ofPred_eq, mkXSec, stochasticLossOf, hfound i hi, le_div_iff₀ (hw i hi), mul_pos_iff_of_pos_right (hw i hi)]
    refine and_congr_right fun _ => and_congr_right fun _ => ?_
    cases only
    · simp [Except.map]
    · simp

end LossLaw

/-- C159: a cross section of the components of a medium: the differential cross section of each component counts with its share of the
mass. -/
theorem C159_components (P : CrossParts) (type : IType) (interpol : Bool) (cut : Option Cut) (hcut : ¬ onlyContinuous cut) (E : ℝ)
    (hk : (P.comps.map (Comp.hash P.h)).Nodup) (hm : ∀ c ∈ P.comps, 0 < c.atoms * c.atomicNum) (σ : Comp → ℝ → ℝ) (a b : Comp → ℝ)
    (hc : ∀ c ∈ P.comps, CalcFollows (P.rate interpol c) E (σ c) (a c) (b c)) :
    SampledBy (crossSectionOf P type true false interpol cut) E (P.comps.map fun c => ⟨type, c.hash P.h,
      ENNReal.ofReal (c.atoms * c.atomicNum / (P.comps.map fun d => d.atoms * d.atomicNum).sum) • lossRate (σ c) (a c) (b c)⟩) := by
  have hsum : ∀ c ∈ P.comps, 0 < (P.comps.map fun d => d.atoms * d.atomicNum).sum := fun c hcm =>
    lt_of_lt_of_le (hm c hcm) (List.single_le_sum (by
      intro z hz
      obtain ⟨d, hd, rfl⟩ := List.mem_map.mp hz
      exact (hm d hd).le) _ (List.mem_map.mpr ⟨c, hcm, rfl⟩))
  have hw : ∀ c, (weightComponent P.comps c)⁻¹ = c.atoms * c.atomicNum / (P.comps.map fun d => d.atoms * d.atomicNum).sum := fun c => by
    unfold weightComponent sumNucleons
    rw [inv_div]
  have := sampled_map type false P.lower (buildDedx P.comps (P.loss interpol) cut)
    (buildDedx P.comps (P.loss2 interpol) (onlyRandomised cut)) E P.comps (Comp.hash P.h) (weightComponent P.comps) (P.rate interpol)
    (fun c => lossRate (σ c) (a c) (b c)) hk (fun c hcm => div_pos (hsum c hcm) (hm c hcm)) (fun c hcm => lossRate_all (hc c hcm))
    (fun c hcm B hB => by simpa using follows (hc c hcm) hB)
  simp only [hw] at this
  unfold crossSectionOf buildDndx
  rw [if_pos rfl, if_neg hcut, built_list (Comp.hash P.h) _ _ P.comps [] (by simpa using hk)]
  exact this

/-- C159: a cross section of a whole medium. -/
theorem C159_medium (P : CrossParts) (type : IType) (interpol : Bool) (cut : Option Cut) (hcut : ¬ onlyContinuous cut) (E : ℝ)
    (σ : ℝ → ℝ) (a b : ℝ) (hc : CalcFollows (P.rateMedium interpol) E σ a b) :
    SampledBy (crossSectionOf P type false false interpol cut) E [⟨type, P.mediumHash, lossRate σ a b⟩] := by
  have := sampled_map type false P.lower (buildDedxMedium (P.lossMedium interpol) cut)
    (buildDedxMedium (P.loss2Medium interpol) (onlyRandomised cut)) E [()] (fun _ => P.mediumHash) (fun _ => 1)
    (fun _ => P.rateMedium interpol) (fun _ => lossRate σ a b) (by simp) (by simp) (fun _ _ => lossRate_all hc)
    (fun _ _ B hB => by simpa using follows hc hB)
  unfold crossSectionOf buildDndxMedium
  rw [if_neg (by simp), if_neg hcut]
  simpa using this

lemma LossLaw.dirac_part (I : ℝ) (B : Set ℝ) (hB : MeasurableSet B) :
    volume {left : ℝ | 0 < left ∧ left ≤ I ∧ (1 : ℝ) ∈ B} = (ENNReal.ofReal I • Measure.dirac (1 : ℝ)) B := by
  rw [Measure.smul_apply, Measure.dirac_apply' _ hB, smul_eq_mul]
  by_cases h : (1 : ℝ) ∈ B
  · have : {left : ℝ | 0 < left ∧ left ≤ I ∧ (1 : ℝ) ∈ B} = Ioc 0 I := by
      ext x
      simp [h]
    rw [this, indicator_of_mem h]
    simp
  · have : {left : ℝ | 0 < left ∧ left ≤ I ∧ (1 : ℝ) ∈ B} = ∅ := by
      ext x
      simp [h]
    rw [this, indicator_of_notMem h]
    simp

/-- C159: a cross section of the components which takes all energy. -/
theorem C159_all_energy (P : CrossParts) (type : IType) (interpol : Bool) (cut : Option Cut) (hcut : ¬ onlyContinuous cut) (E : ℝ)
    (hk : (P.comps.map (Comp.hash P.h)).Nodup) (hm : ∀ c ∈ P.comps, 0 < c.atoms * c.atomicNum)
    (hr : ∀ c ∈ P.comps, 0 ≤ (P.rate interpol c).rate E) :
    SampledBy (crossSectionOf P type true true interpol cut) E (P.comps.map fun c => ⟨type, c.hash P.h,
      ENNReal.ofReal (c.atoms * c.atomicNum / (P.comps.map fun d => d.atoms * d.atomicNum).sum) •
        ENNReal.ofReal ((P.rate interpol c).rate E) • Measure.dirac 1⟩) := by
  have hsum : ∀ c ∈ P.comps, 0 < (P.comps.map fun d => d.atoms * d.atomicNum).sum := fun c hcm =>
    lt_of_lt_of_le (hm c hcm) (List.single_le_sum (by
      intro z hz
      obtain ⟨d, hd, rfl⟩ := List.mem_map.mp hz
      exact (hm d hd).le) _ (List.mem_map.mpr ⟨c, hcm, rfl⟩))
  have hw : ∀ c, (weightComponent P.comps c)⁻¹ = c.atoms * c.atomicNum / (P.comps.map fun d => d.atoms * d.atomicNum).sum := fun c => by
    unfold weightComponent sumNucleons
    rw [inv_div]
  have := sampled_map type true P.lower (buildDedx P.comps (P.loss interpol) cut)
    (buildDedx P.comps (P.loss2 interpol) (onlyRandomised cut)) E P.comps (Comp.hash P.h) (weightComponent P.comps) (P.rate interpol)
    (fun c => ENNReal.ofReal ((P.rate interpol c).rate E) • Measure.dirac 1) hk (fun c hcm => div_pos (hsum c hcm) (hm c hcm))
    (fun c hcm => ⟨by simp, hr c hcm⟩) (fun c hcm B hB => by simpa using dirac_part ((P.rate interpol c).rate E) B hB)
  simp only [hw] at this
  unfold crossSectionOf buildDndx
  rw [if_pos rfl, if_neg hcut, built_list (Comp.hash P.h) _ _ P.comps [] (by simpa using hk)]
  exact this

/-- C159: annihilation, photo effect and photoproduction with their rates per target. -/
theorem C159_direct (type : IType) (R : DirectRates) (E : ℝ) (hr : ∀ p ∈ R.perTarget E, 0 ≤ p.2) :
    SampledBy (directXSec type R) E ((R.perTarget E).map fun p => ⟨type, p.1, ENNReal.ofReal p.2 • Measure.dirac 1⟩) := by
  constructor
  · intro s hs
    obtain ⟨i, -, rfl⟩ := List.mem_map.mp hs
    rfl
  · intro s hs
    obtain ⟨i, -, rfl⟩ := List.mem_map.mp hs
    simp
  · rw [List.map_map]
    symm
    show List.map _ (R.perTarget E) = R.perTarget E
    conv_rhs => rw [← List.map_id (R.perTarget E)]
    refine List.map_congr_left fun p hp => ?_
    simp [ENNReal.toReal_ofReal (hr p hp)]
  · intro s hs B hB
    obtain ⟨p, hp, rfl⟩ := List.mem_map.mp hs
    rw [← dirac_part _ B hB]
    simp [directXSec, ENNReal.toReal_ofReal (hr p hp)]

/-- C159: a multiplier multiplies the rates of all losses. -/
theorem C159_multiplied (x : XSec) (E k : ℝ) (hk : 0 < k) (S : List LossSource) (h : SampledBy x E S) :
    SampledBy (x.mul k) E (S.map fun s => ⟨s.type, s.target, ENNReal.ofReal k • s.law⟩) := by
  have htot : ∀ s : LossSource, ((ENNReal.ofReal k • s.law) univ).toReal = (s.law univ).toReal * k := fun s => by
    rw [Measure.smul_apply, smul_eq_mul, ENNReal.toReal_mul, ENNReal.toReal_ofReal hk.le, mul_comm]
  constructor
  · intro s hs
    obtain ⟨i, hi, rfl⟩ := List.mem_map.mp hs
    exact h.types i hi
  · intro s hs
    obtain ⟨i, hi, rfl⟩ := List.mem_map.mp hs
    exact ENNReal.mul_ne_top ENNReal.ofReal_ne_top (h.finite i hi)
  · simp only [XSec.mul, h.rates, List.map_map]
    exact List.map_congr_left fun s _ => by simp only [Function.comp_apply, htot]
  · intro s hs B hB
    obtain ⟨i, hi, rfl⟩ := List.mem_map.mp hs
    simp only [htot]
    rw [Measure.smul_apply, smul_eq_mul, ← h.losses i hi B hB]
    rw [← inv_inv k, ← scale (inv_pos.mpr hk), inv_inv]
    congr 1
    ext left
    simp only [mem_ofPred_eq, XSec.mul, ← div_eq_mul_inv, div_le_iff₀ hk, div_pos_iff_of_pos_right hk]

/-- C159: the rates and losses by integration, with exact integrations and searches. Missing: the errors of the numerics. -/
theorem C159_calculator_partial (R : RateCalc) (Q : Quadrature) (hQ : ExactQuadrature Q) (search : IState → Option ℝ)
    (hr : ExactRefine search) (junk : IState) (E a b : ℝ) (hl : LossRange R E a b) (hs : SeparatedLosses R.kind a b) (hab : a ≤ b)
    (hi : IntervalIntegrable (R.diff E) volume a b) (hp : ∀ v ∈ Ioc a b, 0 ≤ R.diff E v) (c : DndxCalc)
    (h1 : R.calculate Q junk E = some (c.rate E)) (h2 : ∀ r v, R.upperLimit Q search junk E r = .loss v → c.upperLimit E r = v) :
    CalcFollows c E (R.diff E) a b := by
  obtain ⟨k1, k2⟩ := C114_integral_partial R Q hQ search hr junk E a b hl hs
  refine ⟨hab, hi, hp, Option.some.inj (h1.symm.trans k1), fun r r0 r1 => ?_⟩
  obtain ⟨v, e1, e2, e3, e4, -⟩ := k2 r r0 r1
  rw [h2 r v e1]
  exact ⟨e2, e3, e4⟩

/-- C159: the same from a table that is exact and whose search succeeds. -/
theorem C159_table_partial (T : RateTable) (R : RateCalc) (Q : Quadrature) (hQ : ExactQuadrature Q) (junk : IState) (E a b : ℝ)
    (ht : TableExact T R E a b) (hf : FindExact T E) (hl : LossRange R E a b) (h0 : 0 < a) (hab : a < b) (hb : b < 1)
    (hcont : ContinuousOn (T.table E) (Icc 0 1)) (hfound : ∀ r, 0 < r → r ≤ ∫ v in a..b, R.diff E v → T.find E r ≠ none)
    (hi : IntervalIntegrable (R.diff E) volume a b) (hp : ∀ v ∈ Ioc a b, 0 ≤ R.diff E v) (c : DndxCalc)
    (h1 : c.rate E = T.calculate E) (h2 : ∀ r v, T.upperLimit E r = .loss v → c.upperLimit E r = v) :
    CalcFollows c E (R.diff E) a b := by
  obtain ⟨k1, -⟩ := C114_table_rates_partial T R Q hQ junk E a b ht hl h0 hab hb fun v h3 h4 => hp v ⟨h3, h4.le⟩
  refine ⟨hab.le, hi, hp, h1.trans k1, fun r r0 r1 => ?_⟩
  obtain ⟨v, e1, e2, e3, e4, -⟩ := C114_table_loss_partial T R E a b r ht hf hl h0 hab hb hcont r0.le r1
  rw [h2 r v e1]
  exact ⟨e2, e3, e4 (hfound r r0 r1)⟩

open Classical in
/-- C159: a stochastic interaction of a propagation, with the random number the propagator takes for it: the probability of a type, a
target and an energy after the interaction. -/
theorem C159_propagation (c : UtilitySettings) (u : Utility) (hu : c.utility = some u) (L : List (XSec × List LossSource))
    (hc : c.cross = L.map Prod.fst) (s : PState) (hL : ∀ p ∈ L, SampledBy p.1 s.energy p.2)
    (hpos : ∃ p ∈ L, ∃ z ∈ p.2, z.law univ ≠ 0) (ω : ℕ → ℝ) (pos : ℕ) (t : IType) (ht : t ≠ .undefined) (h : ℕ) (B : Set ℝ)
    (hB : MeasurableSet B) :
    volume {r : ℝ | 0 ≤ r ∧ r < 1 ∧ (doStochastic (Function.update ω pos r) u s pos).1.type = t ∧
        (doStochastic (Function.update ω pos r) u s pos).1.comp = h ∧
        (doStochastic (Function.update ω pos r) u s pos).2.1.energy ∈ B}
      = ((L.flatMap Prod.snd).map fun z => if z.type = t ∧ z.target = h then z.law {v | s.energy * (1 - v) ∈ B} else 0).sum /
        ((L.flatMap Prod.snd).map fun z => z.law univ).sum := by
  have hB' : MeasurableSet {v : ℝ | s.energy * (1 - v) ∈ B} := by
    have : Measurable fun v : ℝ => s.energy * (1 - v) := by fun_prop
    exact this hB
  rw [← C159_law s.energy L hL hpos t h _ hB', ← hc]
  have hs : u.sampleLoss = c.sample := by
    obtain ⟨l, -, -, hm⟩ := utility_some hu
    obtain rfl := Option.some.inj hm
    rfl
  have e : ∀ r, (doStochastic (Function.update ω pos r) u s pos).1 = c.sample s.energy r := fun r => by
    simp only [doStochastic, Utility.stochasticLoss, hs, Function.update_self]
  have e2 : ∀ r, (doStochastic (Function.update ω pos r) u s pos).2.1.energy = s.energy * (1 - (c.sample s.energy r).v) := fun r => by
    rw [← e r]
    rfl
  congr 1
  ext r
  simp only [mem_ofPred_eq, e, e2, UtilitySettings.sample]
  refine and_congr_right fun _ => and_congr_right fun _ => ?_
  cases hx : sampleLoss s.energy (ratesOf c.cross s.energy) r with
  | error e => simp [Ne.symm ht]
  | ok l => simp

namespace LossLaw

/-- A calculator for the constant differential cross section 2 between the losses 1/4 and 3/4. -/
noncomputable def flat : DndxCalc := ⟨fun _ => 1, fun _ v => 2 * (v - 1 / 4), fun _ r => 1 / 4 + r / 2⟩

lemma flat_follows (E : ℝ) : CalcFollows flat E (fun _ => 2) (1 / 4) (3 / 4) where
  le := by norm_num
  integrable := by simp
  nonneg := fun _ _ => by norm_num
  rate := by simp [flat]; norm_num
  inverse := fun r h0 h1 => by
    simp only [intervalIntegral.integral_const, smul_eq_mul, flat] at h1 ⊢
    refine ⟨by linarith, by linarith, by ring⟩

/-- Hydrogen with this calculator. -/
noncomputable def flatParts : CrossParts where
  h := fun _ _ _ => 7
  comps := [⟨"H", 1, 1, 2⟩]
  mediumHash := 3
  rate := fun _ _ => flat
  rateMedium := fun _ => flat
  loss := fun _ _ _ => 0
  lossMedium := fun _ _ => 0
  loss2 := fun _ _ _ => 0
  loss2Medium := fun _ _ => 0
  lower := 1

end LossLaw

/-- Bremsstrahlung with the rate 1 beside annihilation with the rate 3: a quarter of the interactions is bremsstrahlung, and half of it has
a loss up to 1/2. -/
example : volume {u : ℝ | 0 ≤ u ∧ u < 1 ∧ ∃ l, sampleLoss 10 (ratesOf [crossSectionOf flatParts .brems true false false none,
      directXSec .annihilation ⟨fun _ _ => .ok 3, fun _ => [(7, 3)], 1⟩] 10) u = .ok l ∧ l.type = .brems ∧ l.comp = 7 ∧ l.v ∈ Iic (1 / 2)}
    = 1 / 8 := by
  have h1 := C159_components flatParts .brems false none onlyContinuous_none 10 (by simp [flatParts]) (by simp [flatParts])
    (fun _ _ => 2) (fun _ => 1 / 4) (fun _ => 3 / 4) (fun _ _ => flat_follows 10)
  have h2 := C159_direct .annihilation ⟨fun _ _ => .ok 3, fun _ => [(7, 3)], 1⟩ 10 (by simp)
  have hu : lossRate (fun _ => 2) (1 / 4) (3 / 4) univ = 1 := by
    rw [(lossRate_all (flat_follows 10)).1]
    simp [flat]
  have hv : lossRate (fun _ => 2) (1 / 4) (3 / 4) (Iic (1 / 2)) = 1 / 2 := by
    have e : Iic (1 / 2 : ℝ) ∩ Ioc (1 / 4) (3 / 4) = Ioc (1 / 4) (1 / 2) := by
      ext x
      simp only [mem_inter_iff, mem_Iic, mem_Ioc]
      constructor
      · rintro ⟨a, b, c⟩; exact ⟨b, a⟩
      · rintro ⟨a, b⟩; exact ⟨b, a, by linarith⟩
    unfold lossRate
    rw [withDensity_apply _ measurableSet_Iic, Measure.restrict_restrict measurableSet_Iic, e, lintegral_const, Measure.restrict_apply_univ,
      Real.volume_Ioc, ← ENNReal.ofReal_mul (by norm_num), show (2 : ℝ) * (1 / 2 - 1 / 4) = 1 / 2 by norm_num,
      ENNReal.ofReal_div_of_pos (by norm_num)]
    simp
  have h1' : SampledBy (crossSectionOf flatParts .brems true false false none) 10 [⟨.brems, 7, lossRate (fun _ => 2) (1 / 4) (3 / 4)⟩] := by
    convert h1
    simp [flatParts, Comp.hash]
  have h2' : SampledBy (directXSec .annihilation ⟨fun _ _ => .ok 3, fun _ => [(7, 3)], 1⟩) 10
      [⟨.annihilation, 7, ENNReal.ofReal 3 • Measure.dirac 1⟩] := h2
  have key := C159_law 10 [(_, _), (_, _)] (by
    intro p hp
    simp only [List.mem_cons, List.not_mem_nil, or_false] at hp
    rcases hp with rfl | rfl
    · exact h1'
    · exact h2') ⟨_, List.mem_cons_self, _, List.mem_cons_self, by rw [hu]; exact one_ne_zero⟩ .brems 7 (Iic (1 / 2)) measurableSet_Iic
  refine key.trans ?_
  simp only [List.flatMap_cons, List.flatMap_nil, List.append_nil, List.cons_append, List.nil_append, List.map_cons, List.map_nil,
    List.sum_cons, List.sum_nil, and_self, if_true, reduceCtorEq, false_and, if_false, hu, hv, Measure.smul_apply, smul_eq_mul,
    measure_univ, mul_one, add_zero]
  rw [show (1 : ENNReal) + ENNReal.ofReal 3 = ENNReal.ofReal 4 by
      rw [← ENNReal.ofReal_one, ← ENNReal.ofReal_add (by norm_num) (by norm_num)]; norm_num,
    show (1 / 2 : ENNReal) = ENNReal.ofReal (1 / 2) by rw [ENNReal.ofReal_div_of_pos (by norm_num)]; simp,
    ← ENNReal.ofReal_div_of_pos (by norm_num), show (1 / 8 : ENNReal) = ENNReal.ofReal (1 / 8) by
      rw [ENNReal.ofReal_div_of_pos (by norm_num)]; simp]
  norm_num

end Proposal
