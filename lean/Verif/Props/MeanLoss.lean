import Verif.Props.LossLaw
import Verif.Props.CallEdges
import Verif.Props.Tiling

/-!
# C161: the mean energy loss does not depend on the cut
-/

open MeasureTheory Set

namespace Proposal

open Spec LossLaw

/-- The mean of the `n`-th power of the energy lost in one interaction, for a uniform random number; failures count as 0. -/
noncomputable def Spec.meanLoss (n : ℕ) (xs : List XSec) (E : ℝ) : ENNReal :=
  ∫⁻ u in Ico (0 : ℝ) 1, match sampleLoss E (ratesOf xs E) u with
    | .ok l => ENNReal.ofReal ((E * l.v) ^ n)
    | .error _ => 0

/-- A cross section whose continuous part `soft` and whose interactions together give `E ^ n * total` per grammage for the mean of the `n`-th
power of the losses: the mean loss for 1, the fluctuations for 2. -/
structure Spec.Balanced (n : ℕ) (x : XSec) (soft : ℝ) (E : ℝ) (S : List LossSource) (total : ℝ) : Prop where
  sampled : SampledBy x E S
  answers : ∀ s ∈ S, ∀ left, 0 < left → left ≤ (s.law univ).toReal → ∃ v, x.stochasticLoss s.target E left = .ok v
  rate : x.ndx E = ((x.perTarget E).map Prod.snd).sum
  soft_nonneg : 0 ≤ soft
  total_nonneg : 0 ≤ total
  balance : ENNReal.ofReal soft + ENNReal.ofReal (E ^ n) * (S.map fun s => ∫⁻ v, ENNReal.ofReal (v ^ n) ∂s.law).sum
    = ENNReal.ofReal (E ^ n * total)

namespace MeanLoss

/-- A function whose preimages have the measures of another measure. -/
lemma law_of {α : Type} [MeasurableSpace α] {ν : Measure α} [IsFiniteMeasure ν] {μ : Measure ℝ} {V : α → ℝ}
    (h : ∀ B, MeasurableSet B → ν (V ⁻¹' B) = μ B) : AEMeasurable V ν ∧ ν.map V = μ := by
  have hn : NullMeasurable V ν := by
    intro B hB
    set H := toMeasurable ν (V ⁻¹' B)
    set H' := toMeasurable ν (V ⁻¹' Bᶜ)
    have hH : MeasurableSet H := measurableSet_toMeasurable _ _
    have hH' : MeasurableSet H' := measurableSet_toMeasurable _ _
    have s1 : V ⁻¹' B ⊆ H := subset_toMeasurable _ _
    have s2 : V ⁻¹' Bᶜ ⊆ H' := subset_toMeasurable _ _
    have e0 : H ∪ H' = univ := by
      refine eq_univ_of_forall fun x => ?_
      by_cases hx : V x ∈ B
      · exact Or.inl (s1 hx)
      · exact Or.inr (s2 hx)
    have e1 : ν H + ν H' = ν univ := by
      rw [measure_toMeasurable, measure_toMeasurable, h B hB, h _ hB.compl, measure_add_measure_compl hB, ← h univ MeasurableSet.univ,
        preimage_univ]
    have e2 := measure_union_add_inter (μ := ν) H hH'
    rw [e0, e1] at e2
    have e3 : ν (H ∩ H') = 0 := by
      have := ENNReal.eq_sub_of_add_eq' (measure_ne_top ν univ) ((add_comm _ _).trans e2)
      rwa [tsub_self] at this
    have e4 : V ⁻¹' B =ᵐ[ν] H := by
      refine ae_eq_set.mpr ⟨by rw [sdiff_eq_empty.mpr s1, measure_empty], measure_mono_null ?_ e3⟩
      intro x hx
      exact ⟨hx.1, s2 hx.2⟩
    exact hH.nullMeasurableSet.congr e4.symm
  have ha := hn.aemeasurable
  refine ⟨ha, Measure.ext fun B hB => ?_⟩
  rw [Measure.map_apply_of_aemeasurable ha hB, h B hB]

lemma sum_apply (l : List LossSource) (B : Set ℝ) :
    (l.map LossSource.law).sum B = (l.map fun s => s.law B).sum := by
  induction l with
  | nil => simp
  | cons s l ih => simp [ih]

lemma sum_lintegral (l : List LossSource) (g : ℝ → ENNReal) :
    ∫⁻ v, g v ∂(l.map LossSource.law).sum = (l.map fun s => ∫⁻ v, g v ∂s.law).sum := by
  induction l with
  | nil => simp
  | cons s l ih => simp [lintegral_add_measure, ih]

/-- A number below the sum of the rates selects one. -/
lemma go_some (rs : List Rate) (s : ℝ) (h0 : 0 ≤ s) (h : s < (rs.map Rate.rate).sum) :
    ∃ r ∈ rs, ∃ left, 0 < left ∧ left ≤ r.rate ∧ sampleGo rs s = some (r, left) := by
  induction rs generalizing s with
  | nil => simp at h; linarith
  | cons r rs ih =>
    unfold sampleGo
    by_cases hc : s - r.rate < 0
    · exact ⟨r, by simp, -(s - r.rate), by linarith, by linarith, if_pos hc⟩
    · rw [if_neg hc]
      simp only [List.map_cons, List.sum_cons] at h
      obtain ⟨r', hr', left, g1, g2, g3⟩ := ih (s - r.rate) (by linarith) (by linarith)
      exact ⟨r', by simp [hr'], left, g1, g2, g3⟩

lemma mem_rates {E : ℝ} {L : List (XSec × List LossSource)} (hL : ∀ p ∈ L, SampledBy p.1 E p.2) {r : Rate}
    (hr : r ∈ ratesOf (L.map Prod.fst) E) : ∃ p ∈ L, ∃ s ∈ p.2, r = ⟨p.1, s.target, (s.law univ).toReal⟩ := by
  unfold ratesOf at hr
  obtain ⟨x, hx, hr⟩ := List.mem_flatMap.mp hr
  obtain ⟨p, hp, rfl⟩ := List.mem_map.mp hx
  obtain ⟨q, hq, rfl⟩ := List.mem_map.mp hr
  rw [(hL p hp).rates] at hq
  obtain ⟨s, hs, rfl⟩ := List.mem_map.mp hq
  exact ⟨p, hp, s, hs, rfl⟩

end MeanLoss

open MeanLoss

/-- The sampled loss answers, and its law is that of all sources together. -/
lemma LossLaw.any_law (E : ℝ) (L : List (XSec × List LossSource)) (hL : ∀ p ∈ L, SampledBy p.1 E p.2)
    (ha : ∀ p ∈ L, ∀ s ∈ p.2, ∀ left, 0 < left → left ≤ (s.law univ).toReal → ∃ v, p.1.stochasticLoss s.target E left = .ok v)
    (hT0 : 0 < ((ratesOf (L.map Prod.fst) E).map Rate.rate).sum) :
    (∀ u, 0 ≤ u → u < 1 → ∃ l, sampleLoss E (ratesOf (L.map Prod.fst) E) u = .ok l) ∧
    ∀ B, MeasurableSet B →
      volume {u : ℝ | 0 ≤ u ∧ u < 1 ∧ ∃ l, sampleLoss E (ratesOf (L.map Prod.fst) E) u = .ok l ∧ l.v ∈ B}
        = (ENNReal.ofReal ((ratesOf (L.map Prod.fst) E).map Rate.rate).sum)⁻¹ * ((L.flatMap Prod.snd).map fun s => s.law B).sum := by
  set rs := ratesOf (L.map Prod.fst) E with hrs
  have hn := rates_nonneg E L hL
  set T := (rs.map Rate.rate).sum with hTdef
  have hok : ∀ u, 0 ≤ u → u < 1 → ∃ r left v, sampleGo rs (u * T) = some (r, left) ∧ r.cross.stochasticLoss r.hash E left = .ok v ∧
      sampleLoss E rs u = .ok ⟨r.cross.type, r.hash, v⟩ := fun u h0 h1 => by
    obtain ⟨r, hr, left, g1, g2, g3⟩ := go_some rs (u * T) (mul_nonneg h0 hT0.le) (by nlinarith)
    obtain ⟨p, hp, s, hs, rfl⟩ := mem_rates hL hr
    obtain ⟨v, hv⟩ := ha p hp s hs left g1 g2
    refine ⟨_, left, v, g3, hv, ?_⟩
    unfold sampleLoss
    simp only [← hTdef, g3, hv]
    rfl
  refine ⟨fun u h0 h1 => ?_, fun B hB => ?_⟩
  · obtain ⟨r, left, v, -, -, h⟩ := hok u h0 h1
    exact ⟨_, h⟩
  let P : Rate → ℝ → Prop := fun r left => ∃ v, r.cross.stochasticLoss r.hash E left = .ok v ∧ v ∈ B
  have e1 : {u : ℝ | 0 ≤ u ∧ u < 1 ∧ ∃ l, sampleLoss E rs u = .ok l ∧ l.v ∈ B}
      = {u | u * T ∈ {s | 0 ≤ s ∧ ∃ r left, sampleGo rs s = some (r, left) ∧ P r left}} := by
    ext u
    simp only [mem_ofPred_eq]
    constructor
    · rintro ⟨h0, h1, l, hl, k⟩
      obtain ⟨r, left, v, g1, g2, g3⟩ := hok u h0 h1
      rw [g3] at hl
      obtain rfl := Except.ok.inj hl
      exact ⟨mul_nonneg h0 hT0.le, r, left, g1, v, g2, k⟩
    · rintro ⟨h0, r, left, hgo, v, hv, k⟩
      have hs : sampleLoss E rs u = .ok ⟨r.cross.type, r.hash, v⟩ := by
        unfold sampleLoss
        simp only [← hTdef, hgo, hv]
        rfl
      refine ⟨nonneg_of_mul_nonneg_left h0 hT0, ?_, _, hs, k⟩
      by_contra hc
      push Not at hc
      rw [(C34_no_interaction E rs hn u).2 hT0 hc] at hs
      simp at hs
  rw [e1, scale hT0, go_volume rs hn, ENNReal.ofReal_inv_of_pos hT0]
  congr 1
  exact rates_of E L hL _ _ fun p hp s hs => (hL p hp).losses s hs B hB

/-- C161: the mean of the energies lost in the interactions of a list of cross sections, or of their powers: rate times mean is the sum over
the targets of all processes. -/
theorem C161_mean (n : ℕ) (E : ℝ) (hE : 0 ≤ E) (L : List (XSec × List LossSource)) (hL : ∀ p ∈ L, SampledBy p.1 E p.2)
    (ha : ∀ p ∈ L, ∀ s ∈ p.2, ∀ left, 0 < left → left ≤ (s.law univ).toReal → ∃ v, p.1.stochasticLoss s.target E left = .ok v)
    (hr : ∀ p ∈ L, p.1.ndx E = ((p.1.perTarget E).map Prod.snd).sum) :
    ENNReal.ofReal (totalRate (L.map Prod.fst) E) * meanLoss n (L.map Prod.fst) E
      = ENNReal.ofReal (E ^ n) * ((L.flatMap Prod.snd).map fun s => ∫⁻ v, ENNReal.ofReal (v ^ n) ∂s.law).sum := by
  have hn := rates_nonneg E L hL
  have htot : totalRate (L.map Prod.fst) E = ((ratesOf (L.map Prod.fst) E).map Rate.rate).sum := by
    clear hn ha hL
    induction L with
    | nil => rfl
    | cons p L ih =>
      have := ih fun q hq => hr q (by simp [hq])
      unfold totalRate ratesOf at this ⊢
      simp only [List.map_cons, List.sum_cons, List.flatMap_cons, List.map_append, List.sum_append, this, hr p (by simp)]
      rw [List.map_map]
      rfl
  have hT : ENNReal.ofReal ((ratesOf (L.map Prod.fst) E).map Rate.rate).sum = ((L.flatMap Prod.snd).map fun s => s.law univ).sum := by
    rw [ofReal_sum _ hn]
    exact rates_of E L hL _ _ fun p hp s hs => ENNReal.ofReal_toReal ((hL p hp).finite s hs)
  rw [htot]
  rcases (List.sum_nonneg (l := (ratesOf (L.map Prod.fst) E).map Rate.rate) (by
    intro z hz
    obtain ⟨y, hy, rfl⟩ := List.mem_map.1 hz
    exact hn y hy)).eq_or_lt with h0 | hT0
  · rw [← h0] at hT ⊢
    rw [ENNReal.ofReal_zero] at hT ⊢
    have : ∀ s ∈ L.flatMap Prod.snd, s.law = 0 := fun s hs => by
      refine Measure.measure_univ_eq_zero.mp ?_
      refine le_antisymm ?_ zero_le
      rw [hT]
      exact List.single_le_sum (by simp) _ (List.mem_map.mpr ⟨s, hs, rfl⟩)
    rw [zero_mul, eq_comm, mul_eq_zero]
    right
    apply List.sum_eq_zero
    intro x hx
    obtain ⟨s, hs, rfl⟩ := List.mem_map.mp hx
    rw [this s hs, lintegral_zero_measure]
  obtain ⟨hok, hlaw⟩ := any_law E L hL ha hT0
  set rs := ratesOf (L.map Prod.fst) E with hrs
  set T := (rs.map Rate.rate).sum
  let V : ℝ → ℝ := fun u => match sampleLoss E rs u with
    | .ok l => l.v
    | .error _ => 0
  have hV : ∀ u l, sampleLoss E rs u = .ok l → V u = l.v := fun u l h => by simp only [V, h]
  obtain ⟨hm, hmap⟩ := law_of (ν := volume.restrict (Ico (0 : ℝ) 1)) (V := V)
    (μ := (ENNReal.ofReal T)⁻¹ • ((L.flatMap Prod.snd).map LossSource.law).sum) fun B hB => by
      rw [Measure.smul_apply, smul_eq_mul, MeanLoss.sum_apply, ← hlaw B hB, Measure.restrict_apply' measurableSet_Ico]
      congr 1
      ext u
      simp only [mem_inter_iff, mem_preimage, mem_Ico, mem_ofPred_eq]
      constructor
      · rintro ⟨h1, h2, h3⟩
        obtain ⟨l, hl⟩ := hok u h2 h3
        exact ⟨h2, h3, l, hl, hV u l hl ▸ h1⟩
      · rintro ⟨h1, h2, l, h3, h4⟩
        exact ⟨(hV u l h3).symm ▸ h4, h1, h2⟩
  have hmean : meanLoss n (L.map Prod.fst) E = ∫⁻ u in Ico (0 : ℝ) 1, ENNReal.ofReal (E ^ n) * ENNReal.ofReal (V u ^ n) := by
    refine setLIntegral_congr_fun measurableSet_Ico fun u hu => ?_
    obtain ⟨l, hl⟩ := hok u hu.1 hu.2
    simp only [← hrs, hl, hV u l hl, mul_pow, ENNReal.ofReal_mul (pow_nonneg hE n)]
  have hg : Measurable fun v : ℝ => ENNReal.ofReal (E ^ n) * ENNReal.ofReal (v ^ n) := by fun_prop
  rw [hmean, ← lintegral_map' (g := V) (f := fun v : ℝ => ENNReal.ofReal (E ^ n) * ENNReal.ofReal (v ^ n)) hg.aemeasurable hm, hmap,
    lintegral_smul_measure, smul_eq_mul, ← mul_assoc,
    ENNReal.mul_inv_cancel (by rw [Ne, ENNReal.ofReal_eq_zero]; exact not_le.mpr hT0) ENNReal.ofReal_ne_top, one_mul,
    lintegral_const_mul _ (show Measurable fun v : ℝ => ENNReal.ofReal (v ^ n) by fun_prop), sum_lintegral]

/-- C161: the continuous losses and the losses in interactions together. -/
theorem C161_total (n : ℕ) (soft : XSec → ℝ) (E : ℝ) (hE : 0 ≤ E) (L : List (XSec × List LossSource × ℝ))
    (hL : ∀ p ∈ L, Balanced n p.1 (soft p.1) E p.2.1 p.2.2) :
    ENNReal.ofReal ((L.map fun p => soft p.1).sum) + ENNReal.ofReal (totalRate (L.map Prod.fst) E) * meanLoss n (L.map Prod.fst) E
      = ENNReal.ofReal (E ^ n * (L.map fun p => p.2.2).sum) := by
  have h := C161_mean n E hE (L.map fun p => (p.1, p.2.1)) (by
      intro p hp
      obtain ⟨q, hq, rfl⟩ := List.mem_map.mp hp
      exact (hL q hq).sampled) (by
      intro p hp
      obtain ⟨q, hq, rfl⟩ := List.mem_map.mp hp
      exact (hL q hq).answers) (by
      intro p hp
      obtain ⟨q, hq, rfl⟩ := List.mem_map.mp hp
      exact (hL q hq).rate)
  have e : (L.map fun p => (p.1, p.2.1)).map Prod.fst = L.map Prod.fst := by
    rw [List.map_map]
    rfl
  rw [e] at h
  rw [h]
  clear h e
  induction L with
  | nil => simp
  | cons p L ih =>
    have h0 := hL p (by simp)
    have ih := ih fun q hq => hL q (by simp [hq])
    have n1 : 0 ≤ (L.map fun p => soft p.1).sum := List.sum_nonneg (by
      intro z hz
      obtain ⟨q, hq, rfl⟩ := List.mem_map.mp hz
      exact (hL q (by simp [hq])).soft_nonneg)
    have n2 : 0 ≤ (L.map fun p => p.2.2).sum := List.sum_nonneg (by
      intro z hz
      obtain ⟨q, hq, rfl⟩ := List.mem_map.mp hz
      exact (hL q (by simp [hq])).total_nonneg)
    simp only [List.map_cons, List.sum_cons, List.flatMap_cons, List.map_append, List.sum_append]
    rw [mul_add, mul_add (E ^ n), ENNReal.ofReal_add h0.soft_nonneg n1, ENNReal.ofReal_add (mul_nonneg (pow_nonneg hE n) h0.total_nonneg) (mul_nonneg (pow_nonneg hE n) n2),
      ← ih, ← h0.balance]
    abel

namespace MeanLoss

/-- The mean loss above the cut. -/
lemma mean_rate (n : ℕ) {σ : ℝ → ℝ} {a b : ℝ} (h0 : 0 ≤ a) (hab : a ≤ b) (hs : IntervalIntegrable σ volume a b)
    (hi : IntervalIntegrable (fun v => v ^ n * σ v) volume a b) (hp : ∀ v ∈ Ioc a b, 0 ≤ σ v) :
    ∫⁻ v, ENNReal.ofReal (v ^ n) ∂lossRate σ a b = ENNReal.ofReal (∫ v in a..b, v ^ n * σ v) := by
  have hm : AEMeasurable (fun v => ENNReal.ofReal (σ v)) (volume.restrict (Ioc a b)) :=
    ((intervalIntegrable_iff_integrableOn_Ioc_of_le hab).mp hs).aestronglyMeasurable.aemeasurable.ennreal_ofReal
  unfold lossRate
  rw [lintegral_withDensity_eq_lintegral_mul₀ hm (show Measurable fun v : ℝ => ENNReal.ofReal (v ^ n) by fun_prop).aemeasurable,
    ← lossRate_univ hab hi fun v hv => mul_nonneg (pow_nonneg (h0.trans hv.1.le) n) (hp v hv)]
  refine setLIntegral_congr_fun measurableSet_Ioc fun v hv => ?_
  simp only [Pi.mul_apply]
  rw [← ENNReal.ofReal_mul (hp v hv), mul_comm]

lemma tile (n : ℕ) {σ : ℝ → ℝ} {a m b : ℝ} (h0 : 0 ≤ a) (h1 : a ≤ m) (h2 : m ≤ b) (hi : IntervalIntegrable (fun v => v ^ n * σ v) volume a b)
    (hp : ∀ v ∈ Ioc a b, 0 ≤ σ v) :
    0 ≤ ∫ v in a..m, v ^ n * σ v ∧ 0 ≤ ∫ v in m..b, v ^ n * σ v ∧
    (∫ v in a..m, v ^ n * σ v) + ∫ v in m..b, v ^ n * σ v = ∫ v in a..b, v ^ n * σ v := by
  have i1 : IntervalIntegrable (fun v => v ^ n * σ v) volume a m :=
    hi.mono_set (by rw [uIcc_of_le h1, uIcc_of_le (h1.trans h2)]; exact Icc_subset_Icc le_rfl h2)
  have i2 : IntervalIntegrable (fun v => v ^ n * σ v) volume m b :=
    hi.mono_set (by rw [uIcc_of_le h2, uIcc_of_le (h1.trans h2)]; exact Icc_subset_Icc h1 le_rfl)
  refine ⟨?_, ?_, intervalIntegral.integral_add_adjacent_intervals i1 i2⟩
  · rw [intervalIntegral.integral_of_le h1]
    exact setIntegral_nonneg measurableSet_Ioc fun v hv => mul_nonneg (pow_nonneg (h0.trans hv.1.le) n) (hp v ⟨hv.1, hv.2.trans h2⟩)
  · rw [intervalIntegral.integral_of_le h2]
    exact setIntegral_nonneg measurableSet_Ioc fun v hv =>
      mul_nonneg (pow_nonneg (h0.trans (h1.trans hv.1.le)) n) (hp v ⟨h1.trans_lt hv.1, hv.2⟩)

end MeanLoss

lemma MeanLoss.components (n : ℕ) (f : Comp → ℝ → ℝ) (P : CrossParts) (type : IType) (interpol : Bool) (cut : Cut) (hcut : ¬ onlyContinuous (some cut)) (E : ℝ)
    (hE : 0 ≤ E) (hk : (P.comps.map (Comp.hash P.h)).Nodup) (hm : ∀ c ∈ P.comps, 0 < c.atoms * c.atomicNum) (σ : Comp → ℝ → ℝ)
    (vMin vCut vMax : Comp → ℝ) (h0 : ∀ c ∈ P.comps, 0 ≤ vMin c ∧ vMin c ≤ vCut c)
    (hi : ∀ c ∈ P.comps, IntervalIntegrable (fun v => v ^ n * σ c v) volume (vMin c) (vMax c))
    (hp : ∀ c ∈ P.comps, ∀ v ∈ Ioc (vMin c) (vMax c), 0 ≤ σ c v)
    (hc : ∀ c ∈ P.comps, CalcFollows (P.rate interpol c) E (σ c) (vCut c) (vMax c))
    (hl : ∀ c ∈ P.comps, f c E = (∫ v in vMin c..vCut c, v ^ n * σ c v) * E ^ n) :
    Balanced n (crossSectionOf P type true false interpol (some cut)) (edxOf (buildDedx P.comps f (some cut)) E) E (P.comps.map fun c => ⟨type, c.hash P.h,
        ENNReal.ofReal (c.atoms * c.atomicNum / (P.comps.map fun d => d.atoms * d.atomicNum).sum) • lossRate (σ c) (vCut c) (vMax c)⟩)
      (P.comps.map fun c => c.atoms * c.atomicNum / (P.comps.map fun d => d.atoms * d.atomicNum).sum *
        ∫ v in vMin c..vMax c, v ^ n * σ c v).sum := by
  set M := (P.comps.map fun d => d.atoms * d.atomicNum).sum with hM
  have hM0 : 0 ≤ M := List.sum_nonneg (by
    intro z hz
    obtain ⟨d, hd, rfl⟩ := List.mem_map.mp hz
    exact (hm d hd).le)
  have hshare : ∀ c ∈ P.comps, 0 ≤ c.atoms * c.atomicNum / M := fun c hcm => div_nonneg (hm c hcm).le hM0
  have ht : ∀ c ∈ P.comps, _ := fun c hcm => tile n (h0 c hcm).1 (h0 c hcm).2 (hc c hcm).le (hi c hcm) (hp c hcm)
  have hedx : edxOf (buildDedx P.comps f (some cut)) E
      = (P.comps.map fun c => c.atoms * c.atomicNum / M * ((∫ v in vMin c..vCut c, v ^ n * σ c v) * E ^ n)).sum := by
    rw [C31_mean_loss]
    congr 1
    refine List.map_congr_left fun c hcm => ?_
    rw [hl c hcm]
    rfl
  refine ⟨C159_components P type interpol (some cut) hcut E hk hm σ vCut vMax hc, ?_, ?_, ?_, ?_, ?_⟩
  · intro s hs left g1 g2
    obtain ⟨c, hcm, rfl⟩ := List.mem_map.mp hs
    have hx := key_found (P.comps.map fun c => (c.hash P.h, weightComponent P.comps c, P.rate interpol c)) (by
      rw [List.map_map]; exact hk) (c.hash P.h, weightComponent P.comps c, P.rate interpol c) (List.mem_map.mpr ⟨c, hcm, rfl⟩)
    refine ⟨(P.rate interpol c).upperLimit E (left * weightComponent P.comps c), ?_⟩
    unfold crossSectionOf buildDndx
    rw [if_pos rfl, if_neg hcut, built_list (Comp.hash P.h) _ _ P.comps [] (by simpa using hk)]
    simp only [mkXSec, stochasticLossOf, List.nil_append]
    rw [hx]
    rfl
  · have := (C32_total_rate _ (C32_keyed P.h P.comps (P.rate interpol) (some cut) 0 (P.rateMedium interpol)).1 E).2
    unfold crossSectionOf
    rw [if_pos rfl]
    exact this
  · rw [hedx]
    refine List.sum_nonneg ?_
    intro z hz
    obtain ⟨c, hcm, rfl⟩ := List.mem_map.mp hz
    exact mul_nonneg (hshare c hcm) (mul_nonneg (ht c hcm).1 (pow_nonneg hE n))
  · refine List.sum_nonneg ?_
    intro z hz
    obtain ⟨c, hcm, rfl⟩ := List.mem_map.mp hz
    refine mul_nonneg (hshare c hcm) ?_
    rw [← (ht c hcm).2.2]
    exact add_nonneg (ht c hcm).1 (ht c hcm).2.1
  · rw [hedx, List.map_map]
    have key : ∀ l : List Comp, (∀ c ∈ l, c ∈ P.comps) →
        ENNReal.ofReal ((l.map fun c => c.atoms * c.atomicNum / M * ((∫ v in vMin c..vCut c, v ^ n * σ c v) * E ^ n)).sum) +
          ENNReal.ofReal (E ^ n) * (l.map fun c => ∫⁻ v, ENNReal.ofReal (v ^ n) ∂(ENNReal.ofReal (c.atoms * c.atomicNum / M) •
            lossRate (σ c) (vCut c) (vMax c))).sum
        = ENNReal.ofReal (E ^ n * (l.map fun c => c.atoms * c.atomicNum / M * ∫ v in vMin c..vMax c, v ^ n * σ c v).sum) ∧
        0 ≤ (l.map fun c => c.atoms * c.atomicNum / M * ((∫ v in vMin c..vCut c, v ^ n * σ c v) * E ^ n)).sum ∧
        0 ≤ (l.map fun c => c.atoms * c.atomicNum / M * ∫ v in vMin c..vMax c, v ^ n * σ c v).sum := by
      intro l
      induction l with
      | nil => simp
      | cons c l ih =>
        intro hlm
        obtain ⟨i1, i2, i3⟩ := ih fun d hd => hlm d (by simp [hd])
        have hcm := hlm c (by simp)
        obtain ⟨t1, t2, t3⟩ := ht c hcm
        have hsh := hshare c hcm
        have n1 : 0 ≤ c.atoms * c.atomicNum / M * ((∫ v in vMin c..vCut c, v ^ n * σ c v) * E ^ n) := mul_nonneg hsh (mul_nonneg t1 (pow_nonneg hE n))
        have n2 : 0 ≤ c.atoms * c.atomicNum / M * ∫ v in vMin c..vMax c, v ^ n * σ c v := mul_nonneg hsh (by rw [← t3]; exact add_nonneg t1 t2)
        simp only [List.map_cons, List.sum_cons]
        refine ⟨?_, add_nonneg n1 i2, add_nonneg n2 i3⟩
        rw [mul_add, mul_add (E ^ n), ENNReal.ofReal_add n1 i2, ENNReal.ofReal_add (mul_nonneg (pow_nonneg hE n) n2) (mul_nonneg (pow_nonneg hE n) i3), ← i1,
          lintegral_smul_measure, smul_eq_mul, mean_rate n ((h0 c hcm).1.trans (h0 c hcm).2) (hc c hcm).le (hc c hcm).integrable
            ((hi c hcm).mono_set (by
              rw [uIcc_of_le (hc c hcm).le, uIcc_of_le ((h0 c hcm).2.trans (hc c hcm).le)]
              exact Icc_subset_Icc (h0 c hcm).2 le_rfl)) (hc c hcm).nonneg,
          ← ENNReal.ofReal_mul hsh, ← ENNReal.ofReal_mul (pow_nonneg hE n), ← t3]
        rw [show E ^ n * (c.atoms * c.atomicNum / M * ((∫ v in vMin c..vCut c, v ^ n * σ c v) + ∫ v in vCut c..vMax c, v ^ n * σ c v))
            = c.atoms * c.atomicNum / M * ((∫ v in vMin c..vCut c, v ^ n * σ c v) * E ^ n)
              + E ^ n * (c.atoms * c.atomicNum / M * ∫ v in vCut c..vMax c, v ^ n * σ c v) by ring,
          ENNReal.ofReal_add n1 (mul_nonneg (pow_nonneg hE n) (mul_nonneg hsh t2))]
        abel
    exact (key P.comps fun _ h => h).1

/-- C161: a cross section of the components of a medium with a cut between the kinematic limits: the mean loss is the integral over all losses,
which the cut does not enter. Missing: the calculators are exact. -/
theorem C161_components_partial (P : CrossParts) (type : IType) (interpol : Bool) (cut : Cut) (hcut : ¬ onlyContinuous (some cut)) (E : ℝ)
    (hE : 0 ≤ E) (hk : (P.comps.map (Comp.hash P.h)).Nodup) (hm : ∀ c ∈ P.comps, 0 < c.atoms * c.atomicNum) (σ : Comp → ℝ → ℝ)
    (vMin vCut vMax : Comp → ℝ) (h0 : ∀ c ∈ P.comps, 0 ≤ vMin c ∧ vMin c ≤ vCut c)
    (hi : ∀ c ∈ P.comps, IntervalIntegrable (fun v => v * σ c v) volume (vMin c) (vMax c))
    (hp : ∀ c ∈ P.comps, ∀ v ∈ Ioc (vMin c) (vMax c), 0 ≤ σ c v)
    (hc : ∀ c ∈ P.comps, CalcFollows (P.rate interpol c) E (σ c) (vCut c) (vMax c))
    (hl : ∀ c ∈ P.comps, P.loss interpol c E = (∫ v in vMin c..vCut c, v * σ c v) * E) :
    Balanced 1 (crossSectionOf P type true false interpol (some cut)) ((crossSectionOf P type true false interpol (some cut)).edx E) E
      (P.comps.map fun c => ⟨type, c.hash P.h,
        ENNReal.ofReal (c.atoms * c.atomicNum / (P.comps.map fun d => d.atoms * d.atomicNum).sum) • lossRate (σ c) (vCut c) (vMax c)⟩)
      (P.comps.map fun c => c.atoms * c.atomicNum / (P.comps.map fun d => d.atoms * d.atomicNum).sum *
        ∫ v in vMin c..vMax c, v * σ c v).sum := by
  have e : (crossSectionOf P type true false interpol (some cut)).edx E = edxOf (buildDedx P.comps (P.loss interpol) (some cut)) E := by
    unfold crossSectionOf
    rw [if_pos rfl]
    rfl
  have := MeanLoss.components 1 (P.loss interpol) P type interpol cut hcut E hE hk hm σ vMin vCut vMax h0 (by simpa only [pow_one] using hi)
    hp hc (by simpa only [pow_one] using hl)
  rw [e]
  simpa only [pow_one] using this

/-- C161: with continuous randomization the mean of the squared losses does not depend on the cut either: the fluctuations below the cut are
those of the randomization. Missing: the calculators are exact. -/
theorem C161_fluctuations_partial (P : CrossParts) (type : IType) (interpol : Bool) (cut : Cut) (hcut : ¬ onlyContinuous (some cut))
    (hrand : cut.contRand = true) (E : ℝ)
    (hE : 0 ≤ E) (hk : (P.comps.map (Comp.hash P.h)).Nodup) (hm : ∀ c ∈ P.comps, 0 < c.atoms * c.atomicNum) (σ : Comp → ℝ → ℝ)
    (vMin vCut vMax : Comp → ℝ) (h0 : ∀ c ∈ P.comps, 0 ≤ vMin c ∧ vMin c ≤ vCut c)
    (hi : ∀ c ∈ P.comps, IntervalIntegrable (fun v => v ^ 2 * σ c v) volume (vMin c) (vMax c))
    (hp : ∀ c ∈ P.comps, ∀ v ∈ Ioc (vMin c) (vMax c), 0 ≤ σ c v)
    (hc : ∀ c ∈ P.comps, CalcFollows (P.rate interpol c) E (σ c) (vCut c) (vMax c))
    (hl : ∀ c ∈ P.comps, P.loss2 interpol c E = (∫ v in vMin c..vCut c, v ^ 2 * σ c v) * E * E) :
    Balanced 2 (crossSectionOf P type true false interpol (some cut)) ((crossSectionOf P type true false interpol (some cut)).e2dx E) E
      (P.comps.map fun c => ⟨type, c.hash P.h,
        ENNReal.ofReal (c.atoms * c.atomicNum / (P.comps.map fun d => d.atoms * d.atomicNum).sum) • lossRate (σ c) (vCut c) (vMax c)⟩)
      (P.comps.map fun c => c.atoms * c.atomicNum / (P.comps.map fun d => d.atoms * d.atomicNum).sum *
        ∫ v in vMin c..vMax c, v ^ 2 * σ c v).sum := by
  have e : (crossSectionOf P type true false interpol (some cut)).e2dx E = edxOf (buildDedx P.comps (P.loss2 interpol) (some cut)) E := by
    unfold crossSectionOf
    rw [if_pos rfl]
    show edxOf (buildDedx P.comps (P.loss2 interpol) (onlyRandomised (some cut))) E = _
    simp only [onlyRandomised, hrand, if_true]
  rw [e]
  exact MeanLoss.components 2 (P.loss2 interpol) P type interpol cut hcut E hE hk hm σ vMin vCut vMax h0 hi hp hc
    fun c hcm => by rw [hl c hcm]; ring

/-- C161: the same for ionization, which has one differential cross section for the whole medium. Missing: the calculators are exact. -/
theorem C161_medium_partial (P : CrossParts) (type : IType) (interpol : Bool) (cut : Cut) (hcut : ¬ onlyContinuous (some cut)) (E : ℝ)
    (hE : 0 ≤ E) (σ : ℝ → ℝ) (vMin vCut vMax : ℝ) (h0 : 0 ≤ vMin) (h1 : vMin ≤ vCut)
    (hi : IntervalIntegrable (fun v => v * σ v) volume vMin vMax) (hp : ∀ v ∈ Ioc vMin vMax, 0 ≤ σ v)
    (hc : CalcFollows (P.rateMedium interpol) E σ vCut vMax) (hl : P.lossMedium interpol E = (∫ v in vMin..vCut, v * σ v) * E) :
    Balanced 1 (crossSectionOf P type false false interpol (some cut))
      ((crossSectionOf P type false false interpol (some cut)).edx E) E [⟨type, P.mediumHash, lossRate σ vCut vMax⟩]
      (∫ v in vMin..vMax, v * σ v) := by
  obtain ⟨t1, t2, t3⟩ := tile 1 h0 h1 hc.le (by simpa only [pow_one] using hi) hp
  simp only [pow_one] at t1 t2 t3
  have hedx : (crossSectionOf P type false false interpol (some cut)).edx E = (∫ v in vMin..vCut, v * σ v) * E := by
    unfold crossSectionOf
    rw [if_neg (by simp)]
    simp [mkXSec, buildDedxMedium, edxOf, hl]
  refine ⟨C159_medium P type interpol (some cut) hcut E σ vCut vMax hc, ?_, ?_, ?_, ?_, ?_⟩
  · intro s hs left g1 g2
    obtain rfl := List.mem_singleton.mp hs
    refine ⟨(P.rateMedium interpol).upperLimit E left, ?_⟩
    have := (C32_medium P.mediumHash (P.rateMedium interpol) (some cut) hcut E left).2.2.1
    unfold crossSectionOf
    rw [if_neg (by simp)]
    exact this
  · obtain ⟨k1, k2, -⟩ := C32_medium P.mediumHash (P.rateMedium interpol) (some cut) hcut E 0
    unfold crossSectionOf
    rw [if_neg (by simp)]
    simp only [mkXSec, k1, k2]
    simp
  · rw [hedx]; exact mul_nonneg t1 hE
  · rw [← t3]; exact add_nonneg t1 t2
  · rw [hedx]
    simp only [List.map_cons, List.map_nil, List.sum_cons, List.sum_nil, add_zero]
    have hmr := mean_rate 1 (h0.trans h1) hc.le hc.integrable (by
      simpa only [pow_one] using hi.mono_set (by
        rw [uIcc_of_le hc.le, uIcc_of_le (h1.trans hc.le)]
        exact Icc_subset_Icc h1 le_rfl)) hc.nonneg
    simp only [pow_one] at hmr ⊢
    rw [hmr, ← ENNReal.ofReal_mul hE, ← ENNReal.ofReal_add (mul_nonneg t1 hE) (mul_nonneg hE t2), ← t3]
    congr 1
    ring

/-- C161: a process without continuous losses which converts the particle takes the whole energy with its rate. -/
theorem C161_direct (n : ℕ) (type : IType) (R : DirectRates) (E : ℝ) (hE : 0 ≤ E) (hr : ∀ p ∈ R.perTarget E, 0 ≤ p.2) :
    Balanced n (directXSec type R) 0 E ((R.perTarget E).map fun p => ⟨type, p.1, ENNReal.ofReal p.2 • Measure.dirac 1⟩)
      ((R.perTarget E).map Prod.snd).sum := by
  have hn : ∀ l : List (ℕ × ℝ), (∀ p ∈ l, 0 ≤ p.2) → 0 ≤ (l.map Prod.snd).sum := fun l h => List.sum_nonneg (by
    intro z hz
    obtain ⟨q, hq, rfl⟩ := List.mem_map.mp hz
    exact h q hq)
  refine ⟨C159_direct type R E hr, fun _ _ _ _ _ => ⟨1, rfl⟩, rfl, le_rfl, hn _ hr, ?_⟩
  show ENNReal.ofReal 0 + _ = _
  rw [ENNReal.ofReal_zero, zero_add, ENNReal.ofReal_mul (pow_nonneg hE n), List.map_map]
  congr 1
  generalize R.perTarget E = l at hr
  induction l with
  | nil => simp
  | cons p l ih =>
    simp only [List.map_cons, List.sum_cons, Function.comp_apply]
    rw [ih fun q hq => hr q (by simp [hq]), ENNReal.ofReal_add (hr p (by simp)) (hn l fun q hq => hr q (by simp [hq])),
      lintegral_smul_measure, lintegral_dirac]
    simp

/-- C161: a cross section made of the integrating calculators for a valid cut, with exact integrations and searches: whatever the cut, the mean
loss is the integral between the kinematic limits. Missing: the numerical errors. -/
theorem C161_calculators_partial (Q : Quadrature) (hQ : ExactQuadrature Q) (search : IState → Option ℝ) (hs : ExactRefine search)
    (junk : IState) (P : CrossParts) (type : IType) (interpol : Bool) (cut : Cut) (hv : ValidCut cut) (hcut : ¬ onlyContinuous (some cut))
    (E : ℝ) (hE : 0 < E) (hk : (P.comps.map (Comp.hash P.h)).Nodup) (hm : ∀ c ∈ P.comps, 0 < c.atoms * c.atomicNum) (R : Comp → RateCalc)
    (hR : ∀ c ∈ P.comps, (R c).cut = some cut) (hlim : ∀ c ∈ P.comps, 0 ≤ ((R c).lim E).vMin ∧ ((R c).lim E).vMin ≤ ((R c).lim E).vMax)
    (hsep : ∀ c ∈ P.comps, ∀ a, cut.cutIn ((R c).lim E) E = .fin a →
      SeparatedLosses (R c).kind a ((R c).lim E).vMax ∧ IntervalIntegrable ((R c).diff E) volume a ((R c).lim E).vMax)
    (hi : ∀ c ∈ P.comps, IntervalIntegrable (fun v => v * (R c).diff E v) volume ((R c).lim E).vMin ((R c).lim E).vMax)
    (hp : ∀ c ∈ P.comps, ∀ v ∈ Ioc ((R c).lim E).vMin ((R c).lim E).vMax, 0 ≤ (R c).diff E v)
    (h1 : ∀ c ∈ P.comps, (R c).calculate Q junk E = some ((P.rate interpol c).rate E))
    (h2 : ∀ c ∈ P.comps, ∀ r v, (R c).upperLimit Q search junk E r = .loss v → (P.rate interpol c).upperLimit E r = v)
    (hl : ∀ c ∈ P.comps, dedx ((R c).diff E) cut ((R c).lim E) E = some (P.loss interpol c E)) :
    ∃ S, Balanced 1 (crossSectionOf P type true false interpol (some cut))
      ((crossSectionOf P type true false interpol (some cut)).edx E) E S
      (P.comps.map fun c => c.atoms * c.atomicNum / (P.comps.map fun d => d.atoms * d.atomicNum).sum *
        ∫ v in ((R c).lim E).vMin..((R c).lim E).vMax, v * (R c).diff E v).sum := by
  have hx : ∀ c, ∃ a, c ∈ P.comps → cut.cutIn ((R c).lim E) E = .fin a ∧ ((R c).lim E).vMin ≤ a ∧ a ≤ ((R c).lim E).vMax := fun c => by
    by_cases hcm : c ∈ P.comps
    · obtain ⟨x, y, g1, -, g2, g3, -⟩ := C27_cut_in_limits cut hv ((R c).lim E) (hlim c hcm).2 E hE
      exact ⟨x, fun _ => ⟨g1, g2, g3⟩⟩
    · exact ⟨0, fun h => absurd h hcm⟩
  choose vCut hx using hx
  refine ⟨_, C161_components_partial P type interpol cut hcut E hE.le hk hm (fun c => (R c).diff E) (fun c => ((R c).lim E).vMin) vCut
    (fun c => ((R c).lim E).vMax) (fun c hcm => ⟨(hlim c hcm).1, (hx c hcm).2.1⟩) hi hp (fun c hcm => ?_) fun c hcm => ?_⟩
  · obtain ⟨g1, g2, g3⟩ := hx c hcm
    obtain ⟨k1, k2⟩ := hsep c hcm _ g1
    refine C159_calculator_partial (R c) Q hQ search hs junk E _ _ ⟨?_, rfl⟩ k1 g3 k2
      (fun v hv => hp c hcm v ⟨g2.trans_lt hv.1, hv.2⟩) _ (h1 c hcm) (h2 c hcm)
    rw [hR c hcm]
    simp only [integrationLimits, g1, Dbl.max_fin, max_eq_left g2]
  · have := hl c hcm
    unfold dedx at this
    rw [(hx c hcm).1] at this
    exact (Option.some.inj this).symm

/-- C161: two lists of cross sections with the same differential cross sections and different cuts lose the same energy per grammage in the
mean, continuous losses and interactions taken together. -/
theorem C161_cut (E : ℝ) (hE : 0 ≤ E) (L L' : List (XSec × List LossSource × ℝ))
    (hL : ∀ p ∈ L, Balanced 1 p.1 (p.1.edx E) E p.2.1 p.2.2) (hL' : ∀ p ∈ L', Balanced 1 p.1 (p.1.edx E) E p.2.1 p.2.2)
    (hsame : L.map (fun p => p.2.2) = L'.map fun p => p.2.2) :
    ENNReal.ofReal ((L.map fun p => p.1.edx E).sum) + ENNReal.ofReal (totalRate (L.map Prod.fst) E) * meanLoss 1 (L.map Prod.fst) E
      = ENNReal.ofReal ((L'.map fun p => p.1.edx E).sum) + ENNReal.ofReal (totalRate (L'.map Prod.fst) E) * meanLoss 1 (L'.map Prod.fst) E := by
  rw [C161_total 1 (fun x => x.edx E) E hE L hL, C161_total 1 (fun x => x.edx E) E hE L' hL', hsame]

/-- C161: the mean energy which a particle loses in an interaction of a propagation is that mean. -/
theorem C161_propagation (c : UtilitySettings) (u : Utility) (hu : c.utility = some u) (s : PState) (ω : ℕ → ℝ) (pos : ℕ) :
    ∫⁻ r in Ico (0 : ℝ) 1, ENNReal.ofReal (s.energy - (doStochastic (Function.update ω pos r) u s pos).2.1.energy)
      = meanLoss 1 c.cross s.energy := by
  have hs : u.sampleLoss = c.sample := by
    obtain ⟨l, -, -, hm⟩ := utility_some hu
    obtain rfl := Option.some.inj hm
    rfl
  refine setLIntegral_congr_fun measurableSet_Ico fun r _ => ?_
  have e : (doStochastic (Function.update ω pos r) u s pos).2.1.energy = s.energy * (1 - (c.sample s.energy r).v) := by
    simp only [doStochastic, Utility.stochasticLoss, hs, Function.update_self]
  simp only [e, UtilitySettings.sample]
  rw [show ∀ x : ℝ, s.energy - s.energy * (1 - x) = s.energy * x from fun x => by ring]
  cases hx : sampleLoss s.energy (ratesOf c.cross s.energy) r with
  | error e => simp
  | ok l => simp

/-- Hydrogen with the differential cross section 2 up to the loss 3/4 and a cut at 1/4: a particle of the energy 16 loses 9 per grammage,
1 of it continuously. -/
example : let P : CrossParts := { flatParts with loss := fun _ _ E => E / 16 }
    let x := crossSectionOf P .brems true false false (some ⟨.fin 500, .fin 0.25, false⟩)
    x.edx 16 = 1 ∧ ENNReal.ofReal (x.edx 16) + ENNReal.ofReal (totalRate [x] 16) * meanLoss 1 [x] 16 = 9 := by
  have hint : ∀ a b : ℝ, ∫ v in a..b, v * (2 : ℝ) = b ^ 2 - a ^ 2 := fun a b => by
    rw [intervalIntegral.integral_mul_const, integral_id]
    ring
  have hcut : ¬ onlyContinuous (some ⟨.fin 500, .fin 0.25, false⟩) := by simp [onlyContinuous, Dbl.eq]
  have hB := C161_components_partial { flatParts with loss := fun _ _ E => E / 16 } .brems false ⟨.fin 500, .fin 0.25, false⟩
    hcut 16 (by norm_num) (by simp [flatParts]) (by simp [flatParts]) (fun _ _ => 2) (fun _ => 0) (fun _ => 1 / 4) (fun _ => 3 / 4)
    (fun _ _ => by norm_num) (fun _ _ => (continuous_id.mul continuous_const).intervalIntegrable _ _) (fun _ _ _ _ => by norm_num)
    (fun _ _ => flat_follows 16) (fun _ _ => by rw [hint]; norm_num)
  refine ⟨?_, ?_⟩
  · simp [crossSectionOf, mkXSec, edxOf, buildDedx, flatParts, weightComponent, sumNucleons]
  · have := C161_total 1 (fun x => x.edx 16) 16 (by norm_num) [(_, _, _)] (by
      intro p hp
      obtain rfl := List.mem_singleton.mp hp
      exact hB)
    simp only [List.map_cons, List.map_nil, List.sum_cons, List.sum_nil, add_zero] at this
    refine this.trans ?_
    simp only [flatParts, List.map_cons, List.map_nil, List.sum_cons, List.sum_nil, add_zero, hint]
    norm_num

/-- The squared losses of the same process: 1/96 of the squared energy below the cut, 27/96 in all. -/
example : Balanced 2 (crossSectionOf { flatParts with loss2 := fun _ _ E => E * E / 96 } .brems true false false
      (some ⟨.fin 500, .fin 0.25, true⟩)) ((crossSectionOf { flatParts with loss2 := fun _ _ E => E * E / 96 } .brems true false false
      (some ⟨.fin 500, .fin 0.25, true⟩)).e2dx 16) 16 [⟨.brems, 7, lossRate (fun _ => 2) (1 / 4) (3 / 4)⟩] (27 / 96) := by
  have hint : ∀ a b : ℝ, ∫ v in a..b, v ^ 2 * (2 : ℝ) = 2 / 3 * (b ^ 3 - a ^ 3) := fun a b => by
    rw [intervalIntegral.integral_mul_const, integral_pow]
    norm_num
    ring
  have hcut : ¬ onlyContinuous (some ⟨.fin 500, .fin 0.25, true⟩) := by simp [onlyContinuous, Dbl.eq]
  have hB := C161_fluctuations_partial { flatParts with loss2 := fun _ _ E => E * E / 96 } .brems false ⟨.fin 500, .fin 0.25, true⟩
    hcut rfl 16 (by norm_num) (by simp [flatParts]) (by simp [flatParts]) (fun _ _ => 2) (fun _ => 0) (fun _ => 1 / 4) (fun _ => 3 / 4)
    (fun _ _ => by norm_num) (fun _ _ => ((continuous_id.pow 2).mul continuous_const).intervalIntegrable _ _)
    (fun _ _ _ _ => by norm_num) (fun _ _ => flat_follows 16) (fun _ _ => by rw [hint]; norm_num)
  simp only [hint] at hB
  convert hB using 1
  · simp [flatParts, Comp.hash]
  · simp [flatParts]
    norm_num

/-- The same constant cross section with the cut of a quarter of the energy and the modelled integrating calculator: the mean is that of all losses
between 0 and 3/4. -/
example : ∃ search, ExactRefine search ∧
    let cut : Cut := ⟨.fin 500, .fin 0.25, false⟩
    let R : RateCalc := ⟨.general, fun _ => ⟨0, 3 / 4⟩, some cut, fun _ _ => 2⟩
    let P : CrossParts := { flatParts with
      rate := fun _ _ => ⟨fun E => (R.calculate exactQ newIntegral E).getD 0, fun _ v => v,
        fun E r => match R.upperLimit exactQ search newIntegral E r with
          | .loss v => v
          | _ => 0⟩
      loss := fun _ _ E => (dedx (R.diff E) cut (R.lim E) E).getD 0 }
    let x := crossSectionOf P .brems true false false (some cut)
    ∃ S, Balanced 1 x (x.edx 16) 16 S (9 / 16) := by
  obtain ⟨search, hr⟩ := exactRefine_exists
  refine ⟨search, hr, ?_⟩
  intro cut R P x
  have hin : cut.cutIn (R.lim 16) 16 = .fin (1 / 4) := by
    simp only [cut, R, Cut.cutIn, Cut.cut, Dbl.divPos, Dbl.min_fin, Dbl.max_fin]
    norm_num
  have hsep : SeparatedLosses R.kind (1 / 4) (3 / 4) := by
    unfold SeparatedLosses Separated
    split_ifs <;> norm_num
  have hrange : LossRange R 16 (1 / 4) (3 / 4) := by
    refine ⟨?_, rfl⟩
    simp only [R] at hin ⊢
    simp only [integrationLimits, hin, Dbl.max_fin]
    norm_num
  have hcalc := (C114_integral_partial R exactQ exactQ_exact search hr newIntegral 16 _ _ hrange hsep).1
  have hint : ∫ v in (0 : ℝ)..(3 / 4), v * (2 : ℝ) = 9 / 16 := by
    rw [intervalIntegral.integral_mul_const, integral_id]
    norm_num
  obtain ⟨S, hS⟩ := C161_calculators_partial exactQ exactQ_exact search hr newIntegral P .brems false cut
    ⟨Or.inr ⟨500, by norm_num, rfl⟩, 0.25, by norm_num, by norm_num, rfl⟩ (by simp [cut, onlyContinuous, Dbl.eq]) 16 (by norm_num)
    (by simp [P, flatParts]) (by simp [P, flatParts]) (fun _ => R) (fun _ _ => rfl) (fun _ _ => by norm_num [R])
    (fun _ _ a ha => by
      rw [hin] at ha
      cases ha
      exact ⟨hsep, continuous_const.intervalIntegrable _ _⟩)
    (fun _ _ => (continuous_id.mul continuous_const).intervalIntegrable _ _) (fun _ _ _ _ => by norm_num [R])
    (fun _ _ => by simp only [P, hcalc, Option.getD_some]) (fun _ _ r v h => by simp only [P, h])
    (fun _ _ => by simp only [P, dedx, hin, Option.getD_some])
  refine ⟨S, ?_⟩
  convert hS using 1
  simp only [P, R, flatParts, hint]
  norm_num

end Proposal
