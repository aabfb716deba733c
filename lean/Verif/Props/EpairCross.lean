import Verif.Props.EpairEnergy

/-!
# C128: electron pairs, integration over the asymmetry
-/

open Set Filter Topology MeasureTheory

namespace Proposal

/-- C128: inside of the kinematic limits the range of the asymmetry is not empty. -/
theorem C128_range (m Z E v : ℝ) (hE : 0 < E) (h0 : (limEpair m Z E).vMin < v) (h1 : v < (limEpair m Z E).vMax) :
    0 < epairRMax m E v ∧ epairRMax m E v < 1 := by
  have hme := me_pos'
  have a0 : 4 * ME / E < v := by
    unfold limEpair KinLim.raised at h0
    split_ifs at h0 <;> exact h0
  have a1 : v < 1 - 6 * (m / E) * (m / E) := by
    unfold limEpair KinLim.raised at h1
    split_ifs at h1 with h
    · exact absurd h1 (not_lt.mpr a0.le)
    · exact (lt_min_iff.mp h1).2
  have hv0 : 0 < v := lt_trans (by positivity) a0
  have hlow : 0 < 4 * ME / (E * v) ∧ 4 * ME / (E * v) < 1 := by
    refine ⟨by positivity, ?_⟩
    rw [div_lt_one (by positivity)]
    rw [div_lt_iff₀ hE] at a0
    linarith
  have hsq : 0 ≤ m / E * (m / E) := mul_self_nonneg _
  have hv1 : 0 < 1 - v := by nlinarith
  have hup : 0 ≤ 6 * m * m / (E * E * (1 - v)) ∧ 6 * m * m / (E * E * (1 - v)) < 1 := by
    have e : 6 * m * m / (E * E * (1 - v)) = 6 * (m / E * (m / E)) / (1 - v) := by
      field_simp
    rw [e]
    refine ⟨by positivity, ?_⟩
    rw [div_lt_one hv1]
    linarith
  unfold epairRMax
  simp only
  rw [if_pos ⟨by linarith [hlow.2], by linarith [hup.2]⟩]
  have s0 : 0 < Real.sqrt (1 - 4 * ME / (E * v)) := Real.sqrt_pos.mpr (by linarith [hlow.2])
  have s1 : Real.sqrt (1 - 4 * ME / (E * v)) < 1 := by
    rw [Real.sqrt_lt' one_pos]
    linarith [hlow.1]
  constructor
  · apply mul_pos s0
    linarith [hup.2]
  · nlinarith [hup.1, hup.2]

lemma rmax_bounds {m E v : ℝ} (hE : 0 < E) (h0 : 0 < v) (h1 : v < 1) : 0 ≤ epairRMax m E v ∧ epairRMax m E v < 1 := by
  have hme := me_pos'
  unfold epairRMax
  simp only
  split_ifs with h
  · have s0 := Real.sqrt_nonneg (1 - 4 * ME / (E * v))
    have s1 : Real.sqrt (1 - 4 * ME / (E * v)) < 1 := by
      rw [Real.sqrt_lt' one_pos]
      have : 0 < 4 * ME / (E * v) := by positivity
      linarith
    have hv : 0 < 1 - v := by linarith
    have : 0 ≤ 6 * m * m / (E * E * (1 - v)) := by
      rw [mul_assoc]
      have := mul_self_nonneg m
      positivity
    constructor
    · exact mul_nonneg s0 h.2.le
    · nlinarith [h.2]
  · norm_num

/-- Integration over the reversed variable. -/
lemma reversed_integral (F : ℝ → ℝ) (m : ℝ) (c : Component) (E v : ℝ) (hE : 0 < E) (h0 : 0 < v) (h1 : v < 1)
    (hF : IntervalIntegrable (fun ρ => F (1 - ρ)) volume 0 (epairRMax m E v)) :
    epairCross (fun f a b => ∫ x in a..b, f x) F m c E v = NAvogadro / c.atomicNum * ∫ ρ in (0 : ℝ)..epairRMax m E v, F (1 - ρ) := by
  obtain ⟨r0, r1⟩ := rmax_bounds (m := m) hE h0 h1
  unfold epairCross
  simp only
  set R := epairRMax m E v
  have hint : IntervalIntegrable F volume (1 - R) 1 := by
    have := hF.comp_sub_left 1
    simp only [sub_sub_cancel, sub_zero] at this
    exact this.symm
  have ha1 : 1 - R ≤ max (1 - R) computerPrecision := le_max_left _ _
  have ha2 : max (1 - R) computerPrecision ≤ 1 := max_le (by linarith) (by norm_num [computerPrecision])
  rw [intervalIntegral.integral_add_adjacent_intervals, intervalIntegral.integral_comp_sub_left, sub_zero]
  · exact hint.mono_set (by rw [uIcc_of_le ha1, uIcc_of_le (by linarith)]; exact Icc_subset_Icc_right ha2)
  · exact hint.mono_set (by rw [uIcc_of_le ha2, uIcc_of_le (by linarith)]; exact Icc_subset_Icc_left ha1)

/-! ## The integrand is integrable -/

section
variable {m v r : ℝ}

lemma xi_cont : Continuous fun ρ : ℝ => epairXi m v (ρ ^ 2) := by
  unfold epairXi
  fun_prop

lemma sq_lt {ρ : ℝ} (hr : r < 1) (h : ρ ∈ Icc 0 r) : ρ ^ 2 < 1 := by
  obtain ⟨a, b⟩ := h
  nlinarith

lemma loginv_cont (hm : 0 < m) (h0 : 0 < v) (h1 : v < 1) (hr : r < 1) (k : ℝ) (hk : 0 ≤ k) :
    ContinuousOn (fun ρ : ℝ => Real.log (k + 1 / epairXi m v (ρ ^ 2))) (Icc 0 r) := by
  have hξ : ∀ ρ ∈ Icc 0 r, 0 < epairXi m v (ρ ^ 2) := fun ρ h => pair_xi hm h0 h1 (sq_lt hr h)
  apply ContinuousOn.log
  · apply continuousOn_const.add
    exact continuousOn_const.div xi_cont.continuousOn fun ρ h => (hξ ρ h).ne'
  · intro ρ h
    have := hξ ρ h
    positivity

lemma logone_cont (hm : 0 < m) (h0 : 0 < v) (h1 : v < 1) (hr : r < 1) (k : ℝ) (hk : 0 ≤ k) :
    ContinuousOn (fun ρ : ℝ => Real.log (k + epairXi m v (ρ ^ 2))) (Icc 0 r) := by
  apply ContinuousOn.log
  · exact (continuous_const.add xi_cont).continuousOn
  · intro ρ h
    have := pair_xi hm h0 h1 (sq_lt hr h)
    positivity

lemma phiE_cont (hm : 0 < m) (h0 : 0 < v) (h1 : v < 1) (hr : r < 1) :
    ContinuousOn (fun ρ : ℝ => epairPhiE (epairXi m v (ρ ^ 2)) (epairBeta v) (ρ ^ 2)) (Icc 0 r) := by
  have hl := loginv_cont hm h0 h1 hr 1 zero_le_one
  have hx := (xi_cont (m := m) (v := v)).continuousOn (s := Icc 0 r)
  unfold epairPhiE
  apply ContinuousOn.sub _ (by fun_prop)
  apply ContinuousOn.add
  · apply ContinuousOn.mul _ hl
    fun_prop
  · apply ContinuousOn.div (by fun_prop) (by fun_prop)
    intro ρ h
    have := pair_xi hm h0 h1 (sq_lt hr h)
    positivity

lemma phiMu_cont (hm : 0 < m) (h0 : 0 < v) (h1 : v < 1) (hr : r < 1) :
    ContinuousOn (fun ρ : ℝ => epairPhiMu (epairXi m v (ρ ^ 2)) (epairBeta v) (ρ ^ 2)) (Icc 0 r) := by
  have hl := logone_cont hm h0 h1 hr 1 zero_le_one
  have hx := (xi_cont (m := m) (v := v)).continuousOn (s := Icc 0 r)
  have hq : ContinuousOn (fun ρ : ℝ => (1 + 2 * epairBeta v) * (1 - ρ ^ 2) / epairXi m v (ρ ^ 2)) (Icc 0 r) :=
    ContinuousOn.div (by fun_prop) hx fun ρ h => (pair_xi hm h0 h1 (sq_lt hr h)).ne'
  unfold epairPhiMu
  apply ContinuousOn.add _ (by fun_prop)
  apply ContinuousOn.add
  · apply ContinuousOn.mul _ hl
    exact ContinuousOn.sub (by fun_prop) hq
  · apply ContinuousOn.div (by fun_prop) (by fun_prop)
    intro ρ h
    have := pair_xi hm h0 h1 (sq_lt hr h)
    positivity

lemma screening_dens (hm : 0 < m) (h0 : 0 < v) (h1 : v < 1) (hr : r < 1) {ρ : ℝ} (h : ρ ∈ Icc 0 r) :
    0 < 2 * (1 + 3 * epairBeta v) * Real.log (3 + 1 / epairXi m v (ρ ^ 2)) - ρ ^ 2 - 2 * epairBeta v * (2 - ρ ^ 2) ∧
    0 < (1 + ρ ^ 2) * (1.5 + 2 * epairBeta v) * Real.log (3 + epairXi m v (ρ ^ 2)) + 1 - 1.5 * ρ ^ 2 := by
  have hξ := pair_xi hm h0 h1 (sq_lt hr h)
  have hβ := pair_beta h1
  obtain ⟨a, -, b, -⟩ := C128_screening _ _ (ρ ^ 2) hξ hβ (sq_nonneg ρ) (sq_lt hr h).le
  unfold kelnerYe at a
  unfold kelnerYmu at b
  have hs := sq_lt hr h
  have p : 0 ≤ epairBeta v * ρ ^ 2 := by positivity
  constructor
  · rcases div_pos_iff.mp a with x | x
    · exact x.2
    · linarith [x.1]
  · rcases div_pos_iff.mp b with x | x
    · exact x.2
    · linarith [x.1, sq_nonneg ρ]

lemma ye_cont (hm : 0 < m) (h0 : 0 < v) (h1 : v < 1) (hr : r < 1) :
    ContinuousOn (fun ρ : ℝ => kelnerYe (epairXi m v (ρ ^ 2)) (epairBeta v) (ρ ^ 2)) (Icc 0 r) := by
  have hl := loginv_cont hm h0 h1 hr 3 (by norm_num)
  unfold kelnerYe
  apply ContinuousOn.div (by fun_prop)
  · apply ContinuousOn.sub (ContinuousOn.sub (continuousOn_const.mul hl) (by fun_prop)) (by fun_prop)
  · intro ρ h
    exact (screening_dens hm h0 h1 hr h).1.ne'

lemma ymu_cont (hm : 0 < m) (h0 : 0 < v) (h1 : v < 1) (hr : r < 1) :
    ContinuousOn (fun ρ : ℝ => kelnerYmu (epairXi m v (ρ ^ 2)) (epairBeta v) (ρ ^ 2)) (Icc 0 r) := by
  have hl := logone_cont hm h0 h1 hr 3 (by norm_num)
  unfold kelnerYmu
  apply ContinuousOn.div (by fun_prop)
  · apply ContinuousOn.sub (ContinuousOn.add (ContinuousOn.mul (by fun_prop) hl) (by fun_prop)) (by fun_prop)
  · intro ρ h
    exact (screening_dens hm h0 h1 hr h).2.ne'

lemma dens_cont {E k : ℝ} (hE : 0 < E) (h0 : 0 < v) (hr : r < 1) : ContinuousOn (fun ρ : ℝ => k / (E * v * (1 - ρ ^ 2))) (Icc 0 r) := by
  apply ContinuousOn.div (by fun_prop) (by fun_prop)
  intro ρ h
  have := sq_lt hr h
  have : 0 < 1 - ρ ^ 2 := by linarith
  positivity

lemma le_cont (c : Component) {E : ℝ} (hc : Spec.PairAtom c) (hE : 0 < E) (hm : 0 < m) (h0 : 0 < v) (h1 : v < 1) (hr : r < 1) :
    ContinuousOn (fun ρ : ℝ => kelnerLe m c E v (ρ ^ 2) (epairXi m v (ρ ^ 2)) (kelnerYe (epairXi m v (ρ ^ 2)) (epairBeta v) (ρ ^ 2))) (Icc 0 r) := by
  obtain ⟨z0, -⟩ := pair_c0 hc
  have hB := hc.log
  have hme := me_pos'
  have hse := sqrte_pos'
  have hy := ye_cont hm h0 h1 hr
  have hx := (xi_cont (m := m) (v := v)).continuousOn (s := Icc 0 r)
  have ha : ContinuousOn (fun ρ : ℝ => (1 + epairXi m v (ρ ^ 2)) * (1 + kelnerYe (epairXi m v (ρ ^ 2)) (epairBeta v) (ρ ^ 2))) (Icc 0 r) :=
    (continuousOn_const.add hx).mul (continuousOn_const.add hy)
  have hpos : ∀ ρ ∈ Icc 0 r, 0 < (1 + epairXi m v (ρ ^ 2)) * (1 + kelnerYe (epairXi m v (ρ ^ 2)) (epairBeta v) (ρ ^ 2)) := by
    intro ρ h
    have hξ := pair_xi hm h0 h1 (sq_lt hr h)
    have := (C128_screening _ _ (ρ ^ 2) hξ (pair_beta h1) (sq_nonneg ρ) (sq_lt hr h).le).1
    positivity
  have hd := dens_cont (k := 2 * ME * SQRTE * c.logConstant * c.nucCharge ^ (-1 / 3 : ℝ)) hE h0 hr
  unfold kelnerLe
  simp only
  apply ContinuousOn.sub
  · apply ContinuousOn.log
    · apply ContinuousOn.div
      · exact continuousOn_const.mul ha.sqrt
      · exact continuousOn_const.add (hd.mul ha)
      · intro ρ h
        have := hpos ρ h
        have : 0 < 1 - ρ ^ 2 := by linarith [sq_lt hr h]
        positivity
    · intro ρ h
      have := hpos ρ h
      have : 0 < 1 - ρ ^ 2 := by linarith [sq_lt hr h]
      positivity
  · apply continuousOn_const.mul
    apply ContinuousOn.log
    · exact continuousOn_const.add (continuousOn_const.mul ha)
    · intro ρ h
      have := mul_nonneg (mul_self_nonneg (1.5 * ME / (m * c.nucCharge ^ (-1 / 3 : ℝ)))) (hpos ρ h).le
      positivity

lemma lmu_cont (c : Component) {E : ℝ} (hc : Spec.PairAtom c) (hE : 0 < E) (hm : 0 < m) (h0 : 0 < v) (h1 : v < 1) (hr : r < 1) :
    ContinuousOn (fun ρ : ℝ => kelnerLmu m c E v (ρ ^ 2) (epairXi m v (ρ ^ 2)) (kelnerYmu (epairXi m v (ρ ^ 2)) (epairBeta v) (ρ ^ 2))) (Icc 0 r) := by
  obtain ⟨z0, -⟩ := pair_c0 hc
  have hB := hc.log
  have hme := me_pos'
  have hse := sqrte_pos'
  have hy := ymu_cont hm h0 h1 hr
  have hx := (xi_cont (m := m) (v := v)).continuousOn (s := Icc 0 r)
  have hd := dens_cont (k := 2 * ME * SQRTE * c.logConstant * c.nucCharge ^ (-1 / 3 : ℝ)) hE h0 hr
  have hpos : ∀ ρ ∈ Icc 0 r, 0 < 1 + 2 * ME * SQRTE * c.logConstant * c.nucCharge ^ (-1 / 3 : ℝ) / (E * v * (1 - ρ ^ 2)) *
      (1 + epairXi m v (ρ ^ 2)) * (1 + kelnerYmu (epairXi m v (ρ ^ 2)) (epairBeta v) (ρ ^ 2)) := by
    intro ρ h
    have hξ := pair_xi hm h0 h1 (sq_lt hr h)
    have := (C128_screening _ _ (ρ ^ 2) hξ (pair_beta h1) (sq_nonneg ρ) (sq_lt hr h).le).2.2.1
    have : 0 < 1 - ρ ^ 2 := by linarith [sq_lt hr h]
    positivity
  unfold kelnerLmu
  simp only
  apply ContinuousOn.log
  · apply ContinuousOn.div continuousOn_const
    · exact continuousOn_const.add ((hd.mul (continuousOn_const.add hx)).mul (continuousOn_const.add hy))
    · exact fun ρ h => (hpos ρ h).ne'
  · intro ρ h
    have := hpos ρ h
    positivity

/-- The short expression for large `ξ`. -/
lemma short_cont (hm : 0 < m) (h0 : 0 < v) (h1 : v < 1) (hr : r < 1) :
    ContinuousOn (fun ρ : ℝ => (1.5 - ρ ^ 2 / 2 + epairBeta v * (1 + ρ ^ 2)) / epairXi m v (ρ ^ 2)) (Icc 0 r) :=
  ContinuousOn.div (by fun_prop) xi_cont.continuousOn fun ρ h => (pair_xi hm h0 h1 (sq_lt hr h)).ne'

lemma max_cont {f : ℝ → ℝ} {s : Set ℝ} (h : ContinuousOn f s) : ContinuousOn (fun x => max (f x) 0) s :=
  ContinuousOn.sup h continuousOn_const

lemma interval_of_cont {f : ℝ → ℝ} (h0 : 0 ≤ r) (h : ContinuousOn f (Icc 0 r)) : IntervalIntegrable f volume 0 r :=
  ContinuousOn.intervalIntegrable (by rwa [uIcc_of_le h0])

open Classical in
lemma interval_of_ite {f g : ℝ → ℝ} {s : Set ℝ} (hs : MeasurableSet s) (hf : IntervalIntegrable f volume 0 r) (hg : IntervalIntegrable g volume 0 r) :
    IntervalIntegrable (fun x => if x ∈ s then f x else g x) volume 0 r := by
  rw [intervalIntegrable_iff] at hf hg ⊢
  exact Integrable.piecewise hs hf.integrableOn hg.integrableOn

lemma core_integrable (z : ℝ) (c : Component) {E : ℝ} (hc : Spec.PairAtom c) (hE : 0 < E) (hm : 0 < m) (h0 : 0 < v) (h1 : v < 1) (hr0 : 0 ≤ r) (hr : r < 1) :
    IntervalIntegrable (fun ρ => Spec.pairCore m z c E v (ρ ^ 2)) volume 0 r := by
  have l1 := max_cont (le_cont c hc hE hm h0 h1 hr)
  have l2 := max_cont (lmu_cont c hc hE hm h0 h1 hr)
  have hS : MeasurableSet {ρ : ℝ | 1 / epairXi m v (ρ ^ 2) < HALF_PRECISION} := by
    apply measurableSet_lt _ measurable_const
    exact measurable_const.div xi_cont.measurable
  have a := interval_of_ite hS (interval_of_cont hr0 ((short_cont hm h0 h1 hr).mul l1)) (interval_of_cont hr0 ((phiE_cont hm h0 h1 hr).mul l1))
  have b := interval_of_cont hr0 ((continuousOn_const (c := ME / m * z * (ME / m * z))).mul ((phiMu_cont hm h0 h1 hr).mul l2))
  refine (a.add b).congr ?_
  intro ρ _
  simp only [Pi.mul_apply]
  unfold Spec.pairCore
  simp only [kelner_coef]
  unfold Spec.pairCoef
  by_cases h : 1 / epairXi m v (ρ ^ 2) < HALF_PRECISION
  · rw [if_pos h, if_pos (show ρ ∈ {ρ : ℝ | 1 / epairXi m v (ρ ^ 2) < HALF_PRECISION} from h)]
  · rw [if_neg h, if_neg (show ¬ ρ ∈ {ρ : ℝ | 1 / epairXi m v (ρ ^ 2) < HALF_PRECISION} from h)]

lemma spec_integrable (z : ℝ) (c : Component) {E : ℝ} (hc : Spec.PairAtom c) (hE : 0 < E) (hm : 0 < m) (h0 : 0 < v) (h1 : v < 1) (hr0 : 0 ≤ r) (hr : r < 1) :
    IntervalIntegrable (fun ρ => Spec.pairDouble (kelnerZeta m c E) m z c.nucCharge c.logConstant E v ρ) volume 0 r := by
  have l1 := max_cont (le_cont c hc hE hm h0 h1 hr)
  have l2 := max_cont (lmu_cont c hc hE hm h0 h1 hr)
  have a := (phiE_cont hm h0 h1 hr).mul l1
  have b := (continuousOn_const (c := ME / m * z * (ME / m * z))).mul ((phiMu_cont hm h0 h1 hr).mul l2)
  apply interval_of_cont hr0
  refine ((continuousOn_const (c := 1 / 2 * (4 / (3 * Real.pi) * (ALPHA * RE * z) ^ 2 * c.nucCharge * (c.nucCharge + kelnerZeta m c E) * ((1 - v) / v)))).mul (a.add b)).congr ?_
  intro ρ _
  have := pair_spec m z c E v ρ hc.charge hm
  simp only [Pi.mul_apply, Pi.add_apply]
  linarith
end

/-- C128: the cross section per energy of the pair is the integral of the double differential cross section over all asymmetries. -/
theorem C128_cross (m z : ℝ) (c : Component) (E v : ℝ) (hc : Spec.PairAtom c) (hm : 0 < m) (hE : 0 < E) (h0 : 0 < v) (h1 : v < 1) :
    |epairCross (fun f a b => ∫ x in a..b, f x) (epairKelner none m z c E v) m c E v -
      NAvogadro / c.atomicNum * ∫ ρ in (-epairRMax m E v)..epairRMax m E v, Spec.pairDouble (kelnerZeta m c E) m z c.nucCharge c.logConstant E v ρ| ≤
    5e-5 * epairCross (fun f a b => ∫ x in a..b, f x) (epairKelner none m z c E v) m c E v := by
  obtain ⟨r0, r1⟩ := rmax_bounds (m := m) hE h0 h1
  have hK : IntervalIntegrable (fun ρ => epairKelner none m z c E v (1 - ρ)) volume 0 (epairRMax m E v) := by
    have := (core_integrable z c hc hE hm h0 h1 r0 r1).const_mul (4 / (3 * Real.pi) * (ALPHA * RE * z) ^ 2 * c.nucCharge * (c.nucCharge + kelnerZeta m c E) * ((1 - v) / v))
    refine this.congr ?_
    intro ρ hρ
    rw [uIoc_of_le r0] at hρ
    have := C128_kelner_value m z c E v ρ hc.charge hm hE h0 h1 (sq_lt r1 ⟨hρ.1.le, hρ.2⟩)
    exact this.symm
  rw [reversed_integral _ m c E v hE h0 h1 hK]
  set R := epairRMax m E v
  have hS := spec_integrable (r := R) z c hc hE hm h0 h1 r0 r1
  set S := Spec.pairDouble (kelnerZeta m c E) m z c.nucCharge c.logConstant E v
  have heven : ∀ ρ, S (-ρ) = S ρ := by
    intro ρ
    show Spec.pairDouble _ _ _ _ _ _ _ (-ρ) = Spec.pairDouble _ _ _ _ _ _ _ ρ
    unfold Spec.pairDouble Spec.pairLe Spec.pairLmu
    simp only [neg_sq]
  have hneg : ∫ ρ in (-R)..0, S ρ = ∫ ρ in (0 : ℝ)..R, S ρ := by
    have := intervalIntegral.integral_comp_neg (a := 0) (b := R) S
    rw [neg_zero] at this
    rw [← this]
    simp only [heven]
  have hSneg : IntervalIntegrable S volume (-R) 0 := by
    have := (IntervalIntegrable.iff_comp_neg (f := S) (a := 0) (b := R)).mp hS
    simp only [heven, neg_zero] at this
    exact this.symm
  have htot : ∫ ρ in (-R)..R, S ρ = ∫ ρ in (0 : ℝ)..R, 2 * S ρ := by
    rw [← intervalIntegral.integral_add_adjacent_intervals hSneg hS, hneg, intervalIntegral.integral_const_mul]
    ring
  rw [htot, ← mul_sub, ← intervalIntegral.integral_sub hK (hS.const_mul 2)]
  have hA : 0 < NAvogadro / c.atomicNum := by
    have := hc.number
    have := na_pos'
    positivity
  rw [abs_mul, abs_of_pos hA]
  have key : |∫ ρ in (0 : ℝ)..R, (epairKelner none m z c E v (1 - ρ) - 2 * S ρ)| ≤ ∫ ρ in (0 : ℝ)..R, 5e-5 * epairKelner none m z c E v (1 - ρ) := by
    refine (intervalIntegral.abs_integral_le_integral_abs r0).trans ?_
    apply intervalIntegral.integral_mono_on r0 (hK.sub (hS.const_mul 2)).abs (hK.const_mul _)
    intro ρ hρ
    exact (C128_formula m z c E v ρ hc.charge hm hE h0 h1 (sq_lt r1 hρ)).1
  rw [intervalIntegral.integral_const_mul] at key
  have := mul_le_mul_of_nonneg_left key hA.le
  linarith

end Proposal
