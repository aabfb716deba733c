import Verif.Model.CrossSection
import Mathlib.MeasureTheory.Measure.Lebesgue.Basic
import Mathlib.Algebra.BigOperators.Group.List.Basic
import Mathlib.Tactic.Linarith
import Mathlib.Tactic.FieldSimp

/-!
# Rates, sampling of losses, multipliers (C31 to C34, C70)
-/

namespace Proposal

/-! ## C31: component weights -/

/-- The share of a component in the mass of the medium. -/
noncomputable def Spec.massShare (cs : List Comp) (c : Comp) : ℝ :=
  c.atoms * c.atomicNum / (cs.map fun c => c.atoms * c.atomicNum).sum

open Spec

private lemma sum_pos (cs : List Comp) (h0 : cs ≠ []) (hpos : ∀ c ∈ cs, 0 < c.atoms * c.atomicNum) :
    0 < (cs.map fun c => c.atoms * c.atomicNum).sum := by
  apply List.sum_pos
  · intro x hx
    obtain ⟨c, hc, rfl⟩ := List.mem_map.1 hx
    exact hpos c hc
  · simpa using h0

private lemma sum_div' {α : Type} (l : List α) (f : α → ℝ) (x : ℝ) :
    (l.map fun a => f a / x).sum = (l.map f).sum / x := by
  induction l with
  | nil => simp
  | cons a l ih => simp [ih, add_div]

/-- C31: the reciprocal weights are the mass shares of the components, and they sum to one. -/
theorem C31_weights (cs : List Comp) (h0 : cs ≠ []) (hpos : ∀ c ∈ cs, 0 < c.atoms * c.atomicNum) :
    (∀ c ∈ cs, 1 / weightComponent cs c = massShare cs c ∧ 0 < massShare cs c) ∧
    (cs.map fun c => 1 / weightComponent cs c).sum = 1 := by
  have hs := sum_pos cs h0 hpos
  have h1 : ∀ c, 1 / weightComponent cs c = massShare cs c := by
    intro c; unfold weightComponent massShare sumNucleons; rw [one_div_div]
  refine ⟨fun c hc => ⟨h1 c, div_pos (hpos c hc) hs⟩, ?_⟩
  simp only [h1, massShare]
  rw [sum_div', div_self hs.ne']

private lemma emplace_nodup (m : DndxMap) (k : ℕ) (w : ℝ) (c : DndxCalc) (h : (m.map (·.1)).Nodup) :
    ((emplace m k w c).map (·.1)).Nodup := by
  unfold emplace
  split_ifs with hk
  · exact h
  · rw [List.map_append]
    simp only [List.map_cons, List.map_nil]
    rw [List.nodup_append]
    refine ⟨h, by simp, ?_⟩
    rintro a ha b hb rfl
    rw [List.mem_singleton] at hb
    exact hk (hb ▸ ha)

private lemma built_nodup (key : Comp → ℕ) (w : Comp → ℝ) (mk : Comp → DndxCalc) (l : List Comp) (m : DndxMap)
    (h : (m.map (·.1)).Nodup) :
    ((l.foldl (fun m c => emplace m (key c) (w c) (mk c)) m).map (·.1)).Nodup := by
  induction l generalizing m with
  | nil => exact h
  | cons c l ih => exact ih _ (emplace_nodup _ _ _ _ h)

private lemma built_distinct (key : Comp → ℕ) (w : Comp → ℝ) (mk : Comp → DndxCalc) (l : List Comp) (m : DndxMap)
    (h : (m.map (·.1) ++ l.map key).Nodup) :
    l.foldl (fun m c => emplace m (key c) (w c) (mk c)) m = m ++ l.map fun c => (key c, w c, mk c) := by
  induction l generalizing m with
  | nil => simp
  | cons c l ih =>
    have hk : key c ∉ m.map (·.1) := by
      intro hk
      have := (List.nodup_append.1 h).2.2 _ hk (key c) (by simp)
      exact this rfl
    simp only [List.foldl_cons]
    rw [show emplace m (key c) (w c) (mk c) = m ++ [(key c, w c, mk c)] by unfold emplace; rw [if_neg hk]]
    rw [ih]
    · simp
    · simpa using h

/-- C31: for components with different hashes, the rate of the medium is the mean of the component
rates weighted with the mass shares. Missing are repeated components, see `C31_repeated_component`. -/
theorem C31_mean_rate_partial (h : ℝ → ℝ → ℝ → ℕ) (cs : List Comp) (mk : Comp → DndxCalc) (cut : Option Cut)
    (hcut : ¬ onlyContinuous cut) (hd : (cs.map (Comp.hash h)).Nodup) (E : ℝ) :
    ndxOf (buildDndx h cs mk cut) E = (cs.map fun c => massShare cs c * (mk c).rate E).sum := by
  unfold buildDndx
  rw [if_neg hcut, built_distinct (Comp.hash h) (weightComponent cs) mk cs [] (by simpa using hd)]
  simp only [ndxOf, List.nil_append, List.map_map]
  congr 1
  apply List.map_congr_left
  intro c _
  simp only [Function.comp_apply]
  unfold weightComponent massShare sumNucleons
  rw [div_div_eq_mul_div]
  ring

/-- C31: the continuous loss of the medium is the mean of the component losses weighted with the mass
shares, for every list of components. -/
theorem C31_mean_loss (cs : List Comp) (mk : Comp → ℝ → ℝ) (cut : Cut) (E : ℝ) :
    edxOf (buildDedx cs mk (some cut)) E = (cs.map fun c => massShare cs c * mk c E).sum := by
  simp only [buildDedx, edxOf, List.map_map]
  congr 1
  apply List.map_congr_left
  intro c _
  simp only [Function.comp_apply]
  unfold weightComponent massShare sumNucleons
  rw [div_div_eq_mul_div]
  ring

/-- Water meets the hypotheses, for hashes that tell the components apart. -/
example : let cs : List Comp := [⟨"H", 1, 1, 2⟩, ⟨"O", 8, 16, 1⟩]
    cs ≠ [] ∧ (∀ c ∈ cs, 0 < c.atoms * c.atomicNum) ∧ ¬ onlyContinuous none ∧
    ∃ h : ℝ → ℝ → ℝ → ℕ, (cs.map (Comp.hash h)).Nodup := by
  intro cs
  refine ⟨by simp [cs], ?_, by simp [onlyContinuous], ?_⟩
  · intro c hc
    simp only [cs, List.mem_cons, List.not_mem_nil, or_false] at hc
    rcases hc with rfl | rfl <;> norm_num
  · classical
    refine ⟨fun z _ _ => if z = 1 then 1 else 2, ?_⟩
    simp [cs, Comp.hash]

/-- C31 fails for a medium in which the same component is given twice: the map of rate calculators
keeps only one of the two, so the stochastic rate is halved, while the continuous loss is not. This
does not depend on the names of the components. -/
theorem C31_repeated_component (h : ℝ → ℝ → ℝ → ℕ) (z a n : ℝ) (hpos : 0 < n * a) (name name' : String)
    (calc' : DndxCalc) (loss : ℝ → ℝ) (cut : Cut) (hcut : ¬ onlyContinuous (some cut)) (E : ℝ) :
    let cs : List Comp := [⟨name, z, a, n⟩, ⟨name', z, a, n⟩]
    ndxOf (buildDndx h cs (fun _ => calc') (some cut)) E = calc'.rate E / 2 ∧
    edxOf (buildDedx cs (fun _ => loss) (some cut)) E = loss E := by
  intro cs
  constructor
  · unfold buildDndx
    rw [if_neg hcut]
    have : cs.foldl (fun m c => emplace m (c.hash h) (weightComponent cs c) calc') [] =
        [(h z a n, weightComponent cs ⟨name, z, a, n⟩, calc')] := by
      simp [cs, emplace, Comp.hash]
    rw [this]
    simp only [ndxOf, List.map_cons, List.map_nil, List.sum_cons, List.sum_nil, add_zero]
    have : weightComponent cs ⟨name, z, a, n⟩ = 2 := by
      simp only [weightComponent, sumNucleons, cs, List.map_cons, List.map_nil, List.sum_cons, List.sum_nil]
      rw [div_eq_iff hpos.ne']
      ring
    rw [this]
  · rw [C31_mean_loss]
    simp only [massShare, cs, List.map_cons, List.map_nil, List.sum_cons, List.sum_nil]
    have := hpos.ne'
    field_simp
    ring

/-! ## C32: totals and targets -/

private lemma find_key (m : DndxMap) (h : (m.map (·.1)).Nodup) (e : ℕ × ℝ × DndxCalc) (he : e ∈ m) :
    m.find? (fun x => x.1 = e.1) = some e := by
  induction m with
  | nil => simp at he
  | cons x m ih =>
    rw [List.map_cons, List.nodup_cons] at h
    rcases List.mem_cons.1 he with rfl | he
    · simp
    · have : x.1 ≠ e.1 := fun heq => h.1 (heq ▸ List.mem_map_of_mem he)
      rw [List.find?_cons_of_neg (by simpa using this)]
      exact ih h.2 he

/-- The keys of a map of rate calculators are different, as in any C++ map. -/
def Spec.Keyed : Option DndxMap → Prop
  | none => True
  | some m => (m.map (·.1)).Nodup

/-- C32: the maps the code builds have different keys. -/
theorem C32_keyed (h : ℝ → ℝ → ℝ → ℕ) (cs : List Comp) (mk : Comp → DndxCalc) (cut : Option Cut) (n : ℕ)
    (c : DndxCalc) : Keyed (buildDndx h cs mk cut) ∧ Keyed (buildDndxMedium n c cut) := by
  constructor
  · unfold buildDndx
    split_ifs
    · trivial
    · exact built_nodup _ _ _ _ _ (by simp)
  · unfold buildDndxMedium
    split_ifs
    · trivial
    · simp [Keyed]

/-- C32: every rate per target is the rate asked for that target, and the total rate is the sum of the
rates per target. -/
theorem C32_total_rate (m : Option DndxMap) (hm : Keyed m) (E : ℝ) :
    (∀ r ∈ perTargetOf m E, ndxTargetOf m E r.1 = .ok r.2) ∧
    ndxOf m E = ((perTargetOf m E).map (·.2)).sum := by
  cases m with
  | none => simp [perTargetOf, ndxOf]
  | some m =>
    have key : ∀ e ∈ m, ndxTargetOf (some m) E e.1 = .ok (e.2.2.rate E / e.2.1) := by
      intro e he
      simp only [ndxTargetOf, lookup, find_key m hm e he]
      rfl
    constructor
    · intro r hr
      obtain ⟨e, he, rfl⟩ := List.mem_map.1 hr
      simp only [key e he]
    · simp only [perTargetOf, ndxOf, List.map_map]
      congr 1
      apply List.map_congr_left
      intro e he
      simp only [Function.comp_apply, key e he]

/-- C32: the loss sampled from a fraction of the rate of a target is the loss of its calculator at the
same fraction of its own rate: the weight drops out. -/
theorem C32_sampling_unweighted (m : DndxMap) (hm : Keyed (some m)) (hash : ℕ) (w : ℝ) (c : DndxCalc)
    (he : (hash, w, c) ∈ m) (hw : w ≠ 0) (E f rate : ℝ) (hr : ndxTargetOf (some m) E hash = .ok rate) :
    stochasticLossOf false (some m) hash E (f * rate) = .ok (c.upperLimit E (f * c.rate E)) := by
  have hf := find_key m hm _ he
  simp only at hf
  simp only [ndxTargetOf, lookup, hf, Except.map] at hr
  obtain rfl := Except.ok.inj hr
  simp only [stochasticLossOf, lookup, hf, Except.map]
  rw [show f * (c.rate E / w) * w = f * c.rate E by field_simp]
  rfl

/-- C32: the cumulative rate of a target reaches the rate of this target at the largest loss, and at a sampled loss it
is the rate from which the loss was sampled, provided that its calculator does so for its own rates. -/
theorem C32_cumulative (m : DndxMap) (hm : Keyed (some m)) (hash : ℕ) (w : ℝ) (c : DndxCalc)
    (he : (hash, w, c) ∈ m) (hw : 0 < w) (E vMax : ℝ) (hmax : c.cumulative E vMax = c.rate E)
    (hinv : ∀ r, 0 ≤ r → r ≤ c.rate E → c.cumulative E (c.upperLimit E r) = r) :
    cumulativeOf (some m) E hash vMax = ndxTargetOf (some m) E hash ∧
    ∀ total rate loss, ndxTargetOf (some m) E hash = .ok total → 0 ≤ rate → rate ≤ total →
      stochasticLossOf false (some m) hash E rate = .ok loss → cumulativeOf (some m) E hash loss = .ok rate := by
  have hf := find_key m hm _ he
  simp only at hf
  refine ⟨?_, ?_⟩
  · simp only [cumulativeOf, ndxTargetOf, lookup, hf, Except.map, hmax]
  · intro total rate loss ht h0 h1 hl
    simp only [ndxTargetOf, lookup, hf, Except.map] at ht
    obtain rfl := Except.ok.inj ht
    simp only [stochasticLossOf, lookup, hf, Except.map] at hl
    obtain rfl := Except.ok.inj hl
    simp only [cumulativeOf, lookup, hf, Except.map]
    rw [le_div_iff₀ hw] at h1
    rw [hinv _ (mul_nonneg h0 hw.le) h1]
    congr 1
    field_simp

/-- A map with weight 9 whose calculator meets the hypotheses of `C32_cumulative`: a loss sampled from a rate below that
of the target. -/
example : ∃ (m : DndxMap) (c : DndxCalc), Keyed (some m) ∧ (1, 9, c) ∈ m ∧ c.cumulative 5 1 = c.rate 5 ∧
    (∀ r, 0 ≤ r → r ≤ c.rate 5 → c.cumulative 5 (c.upperLimit 5 r) = r) ∧
    ndxTargetOf (some m) 5 1 = .ok 3 ∧ stochasticLossOf false (some m) 1 5 2 = .ok (2 / 3) := by
  refine ⟨[(1, 9, ⟨fun _ => 27, fun _ v => 27 * v, fun _ r => r / 27⟩)], _, ?_, List.mem_singleton.2 rfl, ?_, ?_, ?_, ?_⟩
  · simp [Keyed]
  · norm_num
  · intro r _ _
    ring
  · simp only [ndxTargetOf, lookup, List.find?_cons, Except.map]
    norm_num
  · simp only [stochasticLossOf, lookup, List.find?_cons, Except.map]
    norm_num

/-- C32: the total rate of an interaction is the sum of the rates it samples from. -/
theorem C32_interaction_total (xs : List XSec) (E : ℝ)
    (hx : ∀ x ∈ xs, ∃ (t : IType) (b : Bool) (lim : ℝ) (m : Option DndxMap) (d d2 : Option (List (ℝ × (ℝ → ℝ)))),
      Keyed m ∧ x = mkXSec t b lim m d d2) :
    totalRate xs E = ((ratesOf xs E).map Rate.rate).sum := by
  induction xs with
  | nil => simp [totalRate, ratesOf]
  | cons x xs ih =>
    obtain ⟨t, b, lim, m, d, d2, hm, rfl⟩ := hx x (by simp)
    have ih := ih (fun y hy => hx y (List.mem_cons_of_mem _ hy))
    have h1 := (C32_total_rate m hm E).2
    unfold totalRate ratesOf at *
    simp only [List.map_cons, List.sum_cons, List.flatMap_cons, List.map_append, List.sum_append]
    rw [ih]
    congr 1
    change ndxOf m E = _
    rw [h1, List.map_map]
    rfl

/-- A map with two targets, for which the hypotheses of C32 hold. -/
example : ∃ m : DndxMap, Keyed (some m) ∧ m.length = 2 ∧ ∀ e ∈ m, e.2.1 ≠ 0 := by
  refine ⟨[(1, 9, ⟨fun E => E, fun _ v => v, fun _ r => r⟩), (2, 9 / 8, ⟨fun E => 2 * E, fun _ v => v, fun _ r => r⟩)],
    ?_, rfl, ?_⟩
  · simp [Keyed]
  · intro e he
    simp only [List.mem_cons, List.not_mem_nil, or_false] at he
    rcases he with rfl | rfl <;> norm_num

/-! ## C34: sampling a loss -/

private lemma go_select (l1 : List Rate) (r : Rate) (l2 : List Rate) (hn : ∀ x ∈ l1 ++ r :: l2, 0 ≤ x.rate) (s : ℝ)
    (h1 : (l1.map Rate.rate).sum ≤ s) (h2 : s < (l1.map Rate.rate).sum + r.rate) :
    sampleGo (l1 ++ r :: l2) s = some (r, (l1.map Rate.rate).sum + r.rate - s) := by
  induction l1 generalizing s with
  | nil =>
    simp only [List.map_nil, List.sum_nil, zero_add, List.nil_append] at *
    rw [sampleGo, if_pos (by linarith)]
    congr 2; ring
  | cons x l1 ih =>
    simp only [List.map_cons, List.sum_cons, List.cons_append] at *
    have hn' : ∀ y ∈ l1, 0 ≤ y.rate := fun y hy => hn y (by simp [hy])
    have hs : 0 ≤ (l1.map Rate.rate).sum := by
      apply List.sum_nonneg
      intro z hz
      obtain ⟨y, hy, rfl⟩ := List.mem_map.1 hz
      exact hn' y hy
    rw [sampleGo, if_neg (by linarith), ih (fun y hy => hn y (by simp only [List.mem_cons]; right; exact hy))
      _ (by linarith) (by linarith)]
    congr 2; ring

/-- C34: an entry of the rate list is selected if the random number times the total rate falls into its
interval of the cumulated rates; its process then samples the loss from what is left of the interval,
which is positive and at most the rate of the entry. -/
theorem C34_selects_interval (E : ℝ) (l1 : List Rate) (r : Rate) (l2 : List Rate)
    (hn : ∀ x ∈ l1 ++ r :: l2, 0 ≤ x.rate) (rnd : ℝ)
    (h1 : (l1.map Rate.rate).sum ≤ rnd * ((l1 ++ r :: l2).map Rate.rate).sum)
    (h2 : rnd * ((l1 ++ r :: l2).map Rate.rate).sum < (l1.map Rate.rate).sum + r.rate) :
    ∃ left, 0 < left ∧ left ≤ r.rate ∧
      left = (l1.map Rate.rate).sum + r.rate - rnd * ((l1 ++ r :: l2).map Rate.rate).sum ∧
      sampleLoss E (l1 ++ r :: l2) rnd =
        (r.cross.stochasticLoss r.hash E left).map fun v => ⟨r.cross.type, r.hash, v⟩ := by
  refine ⟨_, ?_, ?_, rfl, ?_⟩
  · linarith
  · linarith
  · unfold sampleLoss
    simp only
    rw [go_select l1 r l2 hn _ h1 h2]

/-- C34: for non-negative rates with a positive sum and a random number in [0, 1) there is exactly one
interval that contains the random number times the total rate. -/
theorem C34_exactly_one (rates : List Rate) (hn : ∀ x ∈ rates, 0 ≤ x.rate)
    (hs : 0 < (rates.map Rate.rate).sum) (rnd : ℝ) (h0 : 0 ≤ rnd) (h1 : rnd < 1) :
    ∃! i : Fin rates.length,
      ((rates.take i).map Rate.rate).sum ≤ rnd * (rates.map Rate.rate).sum ∧
      rnd * (rates.map Rate.rate).sum < ((rates.take i).map Rate.rate).sum + rates[i].rate := by
  have key : ∀ s, 0 ≤ s → s < (rates.map Rate.rate).sum → ∃! i : Fin rates.length,
      ((rates.take i).map Rate.rate).sum ≤ s ∧ s < ((rates.take i).map Rate.rate).sum + rates[i].rate := by
    clear h0 h1 hs
    induction rates with
    | nil => intro s h0 h1; simp at h1; linarith
    | cons x l ih =>
      intro s h0 h1
      have hx := hn x (by simp)
      have hl : ∀ y ∈ l, 0 ≤ y.rate := fun y hy => hn y (List.mem_cons_of_mem _ hy)
      have nonneg : ∀ i, 0 ≤ ((l.take i).map Rate.rate).sum := by
        intro i
        apply List.sum_nonneg
        intro z hz
        obtain ⟨y, hy, rfl⟩ := List.mem_map.1 hz
        exact hl y (List.mem_of_mem_take hy)
      by_cases hsx : s < x.rate
      · refine ⟨⟨0, by simp⟩, ⟨by simpa using h0, by simpa using hsx⟩, ?_⟩
        rintro ⟨i, hi⟩ ⟨g1, g2⟩
        cases i with
        | zero => rfl
        | succ i =>
          simp only [List.take_succ_cons, List.map_cons, List.sum_cons] at g1
          linarith [nonneg i]
      · push Not at hsx
        obtain ⟨i, ⟨g1, g2⟩, hu⟩ := ih hl (s - x.rate) (by linarith) (by
          simp only [List.map_cons, List.sum_cons] at h1; linarith)
        refine ⟨⟨i + 1, by simp⟩, ⟨?_, ?_⟩, ?_⟩
        · simp only [List.take_succ_cons, List.map_cons, List.sum_cons]; linarith
        · simp only [List.take_succ_cons, List.map_cons, List.sum_cons]
          change s < x.rate + _ + l[i].rate
          linarith
        · rintro ⟨j, hj⟩ ⟨k1, k2⟩
          cases j with
          | zero => simp at k2; linarith
          | succ j =>
            have hj' : j < l.length := by simpa using hj
            simp only [List.take_succ_cons, List.map_cons, List.sum_cons] at k1 k2
            change s < x.rate + _ + l[j].rate at k2
            have := hu ⟨j, hj'⟩ ⟨by simp only; linarith, by
              change s - x.rate < ((l.take j).map Rate.rate).sum + l[j].rate; linarith⟩
            rw [Fin.ext_iff] at this ⊢
            simp only at this ⊢
            omega
  refine key _ (mul_nonneg h0 hs.le) ?_
  nlinarith

/-- C34: the random numbers that select an entry make up its share of the total rate. -/
theorem C34_probability (l1 : List Rate) (r : Rate) (l2 : List Rate)
    (hn : ∀ x ∈ l1 ++ r :: l2, 0 ≤ x.rate) (hs : 0 < ((l1 ++ r :: l2).map Rate.rate).sum) :
    MeasureTheory.volume {rnd : ℝ | 0 ≤ rnd ∧ rnd < 1 ∧
      (l1.map Rate.rate).sum ≤ rnd * ((l1 ++ r :: l2).map Rate.rate).sum ∧
      rnd * ((l1 ++ r :: l2).map Rate.rate).sum < (l1.map Rate.rate).sum + r.rate} =
    ENNReal.ofReal (r.rate / ((l1 ++ r :: l2).map Rate.rate).sum) := by
  have ht : ((l1 ++ r :: l2).map Rate.rate).sum = (l1.map Rate.rate).sum + r.rate + (l2.map Rate.rate).sum := by
    simp; ring
  have n1 : 0 ≤ (l1.map Rate.rate).sum := by
    apply List.sum_nonneg
    intro z hz
    obtain ⟨y, hy, rfl⟩ := List.mem_map.1 hz
    exact hn y (by simp [hy])
  have n2 : 0 ≤ (l2.map Rate.rate).sum := by
    apply List.sum_nonneg
    intro z hz
    obtain ⟨y, hy, rfl⟩ := List.mem_map.1 hz
    exact hn y (by simp [hy])
  generalize hT : ((l1 ++ r :: l2).map Rate.rate).sum = T at *
  generalize (l1.map Rate.rate).sum = A at *
  generalize (l2.map Rate.rate).sum = B at *
  have : {rnd : ℝ | 0 ≤ rnd ∧ rnd < 1 ∧ A ≤ rnd * T ∧ rnd * T < A + r.rate} =
      Set.Ico (A / T) ((A + r.rate) / T) := by
    ext u
    simp only [Set.mem_ofPred_eq, Set.mem_Ico, div_le_iff₀ hs, lt_div_iff₀ hs]
    constructor
    · rintro ⟨_, _, h1, h2⟩; exact ⟨h1, h2⟩
    · rintro ⟨h1, h2⟩
      refine ⟨?_, ?_, h1, h2⟩
      · by_contra hc; push Not at hc; nlinarith
      · by_contra hc; push Not at hc; nlinarith
  rw [this, Real.volume_Ico]
  congr 1
  rw [← sub_div]
  congr 1
  ring

private lemma go_none (l : List Rate) (s : ℝ) (hn : ∀ x ∈ l, 0 ≤ x.rate) (h : (l.map Rate.rate).sum ≤ s) :
    sampleGo l s = none := by
  induction l generalizing s with
  | nil => rfl
  | cons x l ih =>
    have hl : ∀ y ∈ l, 0 ≤ y.rate := fun y hy => hn y (List.mem_cons_of_mem _ hy)
    simp only [List.map_cons, List.sum_cons] at h
    have : 0 ≤ (l.map Rate.rate).sum := by
      apply List.sum_nonneg
      intro z hz
      obtain ⟨y, hy, rfl⟩ := List.mem_map.1 hz
      exact hl y hy
    rw [sampleGo, if_neg (by linarith)]
    exact ih _ hl (by linarith)

/-- C34: if all rates vanish, the result is an undefined interaction without loss, and a random number
of one or more makes the sampling fail if the total rate is positive. -/
theorem C34_no_interaction (E : ℝ) (rates : List Rate) (hn : ∀ x ∈ rates, 0 ≤ x.rate) (rnd : ℝ) :
    ((rates.map Rate.rate).sum = 0 → sampleLoss E rates rnd = .ok ⟨.undefined, 0, 0⟩) ∧
    (0 < (rates.map Rate.rate).sum → 1 ≤ rnd → sampleLoss E rates rnd = .error .logicError) := by
  constructor
  · intro h
    unfold sampleLoss
    simp only
    rw [go_none rates _ hn (by rw [h]; simp), h, if_pos rfl]
  · intro h h1
    unfold sampleLoss
    simp only
    rw [go_none rates _ hn (by nlinarith)]
    simp only
    rw [if_neg h.ne']

/-- A rate list with two processes; the random number 1/2 selects the second one. -/
example : ∃ (x y : Rate), x.rate = 1 ∧ y.rate = 3 ∧ (∀ z ∈ [x] ++ y :: [], 0 ≤ z.rate) ∧
    (([x]).map Rate.rate).sum ≤ 1 / 2 * (([x] ++ y :: []).map Rate.rate).sum ∧
    1 / 2 * (([x] ++ y :: []).map Rate.rate).sum < ([x].map Rate.rate).sum + y.rate := by
  refine ⟨⟨mkXSec .brems false 0 none none none, 1, 1⟩, ⟨mkXSec .epair false 0 none none none, 1, 3⟩, rfl, rfl, ?_, ?_, ?_⟩
  · intro z hz
    simp only [List.cons_append, List.nil_append, List.mem_cons, List.not_mem_nil, or_false] at hz
    rcases hz with rfl | rfl <;> norm_num
  · norm_num
  · norm_num

/-! ## C33: multipliers -/

/-- C33: all rates and losses scale with the multiplier, targets and limits stay. -/
theorem C33_rates_scale (k : ℝ) (x : XSec) (E : ℝ) :
    (x.mul k).edx E = k * x.edx E ∧ (x.mul k).e2dx E = k * x.e2dx E ∧ (x.mul k).ndx E = k * x.ndx E ∧
    (x.mul k).perTarget E = (x.perTarget E).map (fun r => (r.1, k * r.2)) ∧
    (∀ h r, x.ndxTarget E h = .ok r → (x.mul k).ndxTarget E h = .ok (k * r)) ∧
    (x.mul k).type = x.type ∧ (x.mul k).lowerLim = x.lowerLim := by
  refine ⟨rfl, rfl, rfl, ?_, ?_, rfl, rfl⟩
  · simp only [XSec.mul]
    apply List.map_congr_left
    intro r _
    rw [mul_comm]
  · intro h r hr
    simp only [XSec.mul, hr]
    rfl

private lemma mul_total (k : ℝ) (xs : List XSec) (E : ℝ) :
    (((ratesOf (xs.map (XSec.mul k)) E)).map Rate.rate).sum = k * ((ratesOf xs E).map Rate.rate).sum := by
  induction xs with
  | nil => simp [ratesOf]
  | cons x xs ih =>
    unfold ratesOf at *
    simp only [List.map_cons, List.flatMap_cons, List.map_append, List.sum_append] at *
    rw [ih, mul_add]
    congr 1
    simp only [XSec.mul, List.map_map]
    rw [← List.sum_map_mul_left]
    congr 1
    apply List.map_congr_left
    intro r _
    simp [mul_comm]

private lemma mul_go (k : ℝ) (hk : 0 < k) (l : List Rate) (s : ℝ) :
    sampleGo (l.map fun r => ⟨r.cross.mul k, r.hash, r.rate * k⟩) (k * s) =
      (sampleGo l s).map fun p => (⟨p.1.cross.mul k, p.1.hash, p.1.rate * k⟩, k * p.2) := by
  induction l generalizing s with
  | nil => rfl
  | cons r l ih =>
    simp only [List.map_cons, sampleGo]
    have e : k * s - r.rate * k = k * (s - r.rate) := by ring
    rw [e]
    by_cases h : s - r.rate < 0
    · rw [if_pos h, if_pos (mul_neg_of_pos_of_neg hk h)]
      simp only [Option.map_some]
      congr 2; ring
    · rw [if_neg h, if_neg (not_lt.2 (mul_nonneg hk.le (not_lt.1 h))), ih]

/-- C33: a common positive multiplier on all cross sections does not change what is sampled, for any
random number. -/
theorem C33_common_multiplier (k : ℝ) (hk : 0 < k) (xs : List XSec) (E rnd : ℝ) :
    sampleLoss E (ratesOf (xs.map (XSec.mul k)) E) rnd = sampleLoss E (ratesOf xs E) rnd := by
  have hr : ratesOf (xs.map (XSec.mul k)) E = (ratesOf xs E).map fun r => ⟨r.cross.mul k, r.hash, r.rate * k⟩ := by
    unfold ratesOf
    rw [List.flatMap_map, List.map_flatMap]
    congr 1
    ext1 x
    simp only [XSec.mul, List.map_map]
    rfl
  unfold sampleLoss
  simp only [mul_total]
  rw [hr, show rnd * (k * ((ratesOf xs E).map Rate.rate).sum) = k * (rnd * ((ratesOf xs E).map Rate.rate).sum) by ring,
    mul_go k hk]
  cases hg : sampleGo (ratesOf xs E) (rnd * ((ratesOf xs E).map Rate.rate).sum) with
  | none => simp [hk.ne']
  | some p =>
    simp only [Option.map_some]
    simp only [XSec.mul]
    rw [mul_div_cancel_left₀ _ hk.ne']

/-- C33: the loss sampled at a fraction of the rate of a target does not depend on the multiplier. -/
theorem C33_loss_distribution (k : ℝ) (hk : k ≠ 0) (x : XSec) (h : ℕ) (E f r r' : ℝ)
    (hr : x.ndxTarget E h = .ok r) (hr' : (x.mul k).ndxTarget E h = .ok r') :
    (x.mul k).stochasticLoss h E (f * r') = x.stochasticLoss h E (f * r) := by
  rw [(C33_rates_scale k x E).2.2.2.2.1 h r hr] at hr'
  obtain rfl := Except.ok.inj hr'
  simp only [XSec.mul]
  congr 1
  field_simp

private lemma go_zero (l1 l0 l2 : List Rate) (h0 : ∀ r ∈ l0, r.rate = 0) (s : ℝ) (hs : 0 ≤ s) :
    sampleGo (l1 ++ l0 ++ l2) s = sampleGo (l1 ++ l2) s := by
  induction l1 generalizing s with
  | nil =>
    induction l0 with
    | nil => rfl
    | cons r l ih =>
      simp only [List.nil_append, List.cons_append] at *
      have hr := h0 r (by simp)
      rw [sampleGo, hr, sub_zero, if_neg (not_lt.2 hs)]
      exact ih (fun r hr => h0 r (List.mem_cons_of_mem _ hr))
  | cons r l ih =>
    simp only [List.cons_append, sampleGo]
    split_ifs with h
    · rfl
    · exact ih _ (not_lt.1 h)

/-- C33: a process with multiplier zero is never sampled: it can be left out. -/
theorem C33_zero_multiplier (xs ys : List XSec) (x : XSec) (E rnd : ℝ) (h0 : 0 ≤ rnd)
    (hn : ∀ r ∈ ratesOf (xs ++ ys) E, 0 ≤ r.rate) :
    sampleLoss E (ratesOf (xs ++ x.mul 0 :: ys) E) rnd = sampleLoss E (ratesOf (xs ++ ys) E) rnd := by
  have e : ratesOf (xs ++ x.mul 0 :: ys) E = ratesOf xs E ++ ratesOf [x.mul 0] E ++ ratesOf ys E := by
    simp [ratesOf]
  have e' : ratesOf (xs ++ ys) E = ratesOf xs E ++ ratesOf ys E := by simp [ratesOf]
  have hz : ∀ r ∈ ratesOf [x.mul 0] E, r.rate = 0 := by
    intro r hr
    simp only [ratesOf, List.flatMap_cons, List.flatMap_nil, List.append_nil, XSec.mul, List.map_map] at hr
    obtain ⟨a, _, rfl⟩ := List.mem_map.1 hr
    simp
  have hs : ((ratesOf [x.mul 0] E).map Rate.rate).sum = 0 := by
    rw [List.map_congr_left hz]
    simp
  have ht : ((ratesOf (xs ++ x.mul 0 :: ys) E).map Rate.rate).sum = ((ratesOf (xs ++ ys) E).map Rate.rate).sum := by
    rw [e, e', List.map_append, List.map_append, List.sum_append, List.sum_append, hs, List.map_append, List.sum_append]
    ring
  have hp : 0 ≤ ((ratesOf (xs ++ ys) E).map Rate.rate).sum := by
    apply List.sum_nonneg
    intro z hz
    obtain ⟨y, hy, rfl⟩ := List.mem_map.1 hz
    exact hn y hy
  unfold sampleLoss
  simp only [ht]
  rw [e, go_zero _ _ _ hz _ (mul_nonneg h0 hp), ← e']

/-- A cross section with a target and a positive rate, for the hypotheses of C33. -/
example : ∃ x : XSec, x.ndxTarget 1 7 = .ok 2 ∧ (x.mul 3).ndxTarget 1 7 = .ok 6 ∧
    ∀ r ∈ ratesOf ([x] ++ []) 1, 0 ≤ r.rate := by
  refine ⟨mkXSec .brems false 0 (some [(7, 1, ⟨fun _ => 2, fun _ v => v, fun _ r => r⟩)]) none none, ?_, ?_, ?_⟩
  · simp [mkXSec, ndxTargetOf, lookup, Except.map]
  · simp [mkXSec, XSec.mul, ndxTargetOf, lookup, Except.map]
    norm_num
  · intro r hr
    simp [ratesOf, mkXSec, perTargetOf, ndxTargetOf, lookup, Except.map] at hr
    rw [hr]
    norm_num

/-! ## C70: the lower energy limit -/

private lemma fold_min (xs : List XSec) (x : XSec) :
    let b := xs.foldl (fun best y => if best.lowerLim > y.lowerLim then y else best) x
    b ∈ x :: xs ∧ ∀ y ∈ x :: xs, b.lowerLim ≤ y.lowerLim := by
  induction xs generalizing x with
  | nil => simp
  | cons y xs ih =>
    simp only [List.foldl_cons]
    by_cases h : x.lowerLim > y.lowerLim
    · simp only [h, if_true]
      obtain ⟨h1, h2⟩ := ih y
      refine ⟨List.mem_cons_of_mem _ h1, ?_⟩
      intro z hz
      rcases List.mem_cons.1 hz with rfl | hz
      · exact (h2 y (by simp)).trans h.le
      · exact h2 z hz
    · simp only [h, if_false]
      obtain ⟨h1, h2⟩ := ih x
      refine ⟨?_, ?_⟩
      · rcases List.mem_cons.1 h1 with h1 | h1
        · exact List.mem_cons.2 (Or.inl h1)
        · exact List.mem_cons_of_mem _ (List.mem_cons_of_mem _ h1)
      · intro z hz
        rcases List.mem_cons.1 hz with rfl | hz
        · exact h2 z (by simp)
        · rcases List.mem_cons.1 hz with rfl | hz
          · exact (h2 x (by simp)).trans (not_lt.1 h)
          · exact h2 z (List.mem_cons_of_mem _ hz)

/-- C70: the lower limit of a list of cross sections is the limit of one of them and at most the limit of
each; it exists exactly for non-empty lists. Hence below the limit no process is defined, and a process
may be asked below its own limit. -/
theorem C70_lower_limit (xs : List XSec) :
    (lowerLimOf xs = none ↔ xs = []) ∧
    ∀ l, lowerLimOf xs = some l → (∃ x ∈ xs, x.lowerLim = l) ∧ ∀ x ∈ xs, l ≤ x.lowerLim := by
  cases xs with
  | nil => simp [lowerLimOf]
  | cons x xs =>
    refine ⟨by simp [lowerLimOf], ?_⟩
    intro l hl
    simp only [lowerLimOf, Option.some.injEq] at hl
    obtain ⟨h1, h2⟩ := fold_min xs x
    exact ⟨⟨_, h1, hl⟩, fun y hy => hl ▸ h2 y hy⟩

example : lowerLimOf [mkXSec .brems false 5 none none none, mkXSec .epair false 3 none none none] = some 3 := by
  norm_num [lowerLimOf, mkXSec]

end Proposal
