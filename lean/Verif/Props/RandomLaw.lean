import Verif.Props.AssembledLaws
import Verif.Props.CalculatorsTrack
import Mathlib.MeasureTheory.Function.JacobianOneDim

/-!
# C163: the distribution of the energy with continuous randomization
-/

open MeasureTheory Set

namespace Proposal

open Spec

/-- The bell curve with centre `m` and variance `v`, not normalised. -/
noncomputable def Spec.bell (m v x : ℝ) : ℝ := Real.exp (-(x - m) ^ 2 / (2 * v))

namespace RandomLaw

lemma bell_pos (m v x : ℝ) : 0 < bell m v x := Real.exp_pos _

lemma bell_cont (m v : ℝ) : Continuous (bell m v) := by
  unfold bell
  fun_prop

lemma bell_density (m σ x : ℝ) (hs : 0 < σ) : density ((x - m) / σ) = bell m (σ ^ 2) x / Real.sqrt (2 * Real.pi) := by
  unfold density bell
  congr 2
  field_simp

lemma bell_integral_pos (m v a b : ℝ) (hab : a < b) : 0 < ∫ x in a..b, bell m v x :=
  intervalIntegral.intervalIntegral_pos_of_pos ((bell_cont m v).intervalIntegrable _ _) (bell_pos m v) hab

lemma bell_deriv (m v x : ℝ) (hv : v ≠ 0) : HasDerivAt (bell m v) (-(x - m) / v * bell m v x) x := by
  have h : HasDerivAt (fun x => -(x - m) ^ 2 / (2 * v)) (-(x - m) / v) x := by
    have := ((((hasDerivAt_id x).sub_const m).pow 2).neg).div_const (2 * v)
    refine this.congr_deriv ?_
    simp only [id]
    field_simp
    norm_num
    ring
  refine h.exp.congr_deriv ?_
  unfold bell
  ring

lemma bell_first (m v a b : ℝ) (hv : v ≠ 0) : ∫ x in a..b, (x - m) * bell m v x = v * (bell m v a - bell m v b) := by
  have h := intervalIntegral.integral_eq_sub_of_hasDerivAt (a := a) (b := b) (f := fun x => -v * bell m v x)
    (f' := fun x => (x - m) * bell m v x) (fun x _ => by
      refine ((bell_deriv m v x hv).const_mul (-v)).congr_deriv ?_
      field_simp) (((by fun_prop : Continuous fun x : ℝ => x - m).mul (bell_cont m v)).intervalIntegrable _ _)
  rw [h]
  ring

lemma bell_second (m v a b : ℝ) (hv : v ≠ 0) :
    ∫ x in a..b, (x - m) ^ 2 * bell m v x = v * (∫ x in a..b, bell m v x) + v * ((a - m) * bell m v a - (b - m) * bell m v b) := by
  have h := intervalIntegral.integral_eq_sub_of_hasDerivAt (a := a) (b := b) (f := fun x => -v * ((x - m) * bell m v x))
    (f' := fun x => (x - m) ^ 2 * bell m v x - v * bell m v x) (fun x _ => by
      refine ((((hasDerivAt_id x).sub_const m).mul (bell_deriv m v x hv)).const_mul (-v)).congr_deriv ?_
      simp only [id]
      field_simp
      ring) ((((by fun_prop : Continuous fun x : ℝ => (x - m) ^ 2).mul (bell_cont m v)).sub
        (continuous_const.mul (bell_cont m v))).intervalIntegrable _ _)
  have i1 : IntervalIntegrable (fun x => (x - m) ^ 2 * bell m v x) volume a b :=
    ((by fun_prop : Continuous fun x : ℝ => (x - m) ^ 2).mul (bell_cont m v)).intervalIntegrable _ _
  have i2 : IntervalIntegrable (fun x => v * bell m v x) volume a b := (continuous_const.mul (bell_cont m v)).intervalIntegrable _ _
  rw [intervalIntegral.integral_sub i1 i2, intervalIntegral.integral_const_mul] at h
  linarith

end RandomLaw

open RandomLaw

/-- C163: the samples of `SampleFromGaussian` follow the normal distribution restricted to the interval, for a uniform random number: the mean
of any function of the sample is the mean over the bell curve between the limits. -/
theorem C163_sample (m σ a b : ℝ) (hs : 0 < σ) (hab : a < b) (F : ℝ → ℝ) :
    ∫ r in Ico (0 : ℝ) 1, F (sampleFromGaussian exactNormal m σ r (.at a) (.at b))
      = (∫ x in a..b, F x * bell m (σ ^ 2) x) / ∫ x in a..b, bell m (σ ^ 2) x := by
  set A := Phi ((a - m) / σ)
  set Z := Phi ((b - m) / σ) - A
  have hZ : 0 < Z := sub_pos.mpr (Phi_strictMono (by gcongr))
  set f : ℝ → ℝ := fun x => (Phi ((x - m) / σ) - A) / Z
  have hd : ∀ x, HasDerivAt f (bell m (σ ^ 2) x / (Real.sqrt (2 * Real.pi) * σ * Z)) x := fun x => by
    have h1 : HasDerivAt (fun x => (x - m) / σ) (1 / σ) x := ((hasDerivAt_id x).sub_const m).div_const σ
    have h2 := ((Phi_deriv ((x - m) / σ)).comp x h1).sub_const A |>.div_const Z
    refine h2.congr_deriv ?_
    rw [bell_density m σ x hs]
    field_simp
  have hK : 0 < Real.sqrt (2 * Real.pi) * σ * Z := by positivity
  have hmono : StrictMono f := fun x y hxy => by
    have : Phi ((x - m) / σ) < Phi ((y - m) / σ) := Phi_strictMono (by gcongr)
    exact div_lt_div_of_pos_right (by linarith) hZ
  have fa : f a = 0 := by simp [f, A]
  have fb : f b = 1 := div_self hZ.ne'
  have himg : f '' Icc a b = Icc 0 1 := by
    refine Subset.antisymm ?_ ?_
    · rintro _ ⟨x, hx, rfl⟩
      exact ⟨fa ▸ hmono.monotone hx.1, fb ▸ hmono.monotone hx.2⟩
    · have := intermediate_value_Icc hab.le (f := f) (fun x _ => (hd x).continuousAt.continuousWithinAt)
      rwa [fa, fb] at this
  have hinv : ∀ x, sampleFromGaussian exactNormal m σ (f x) (.at a) (.at b) = x := fun x => by
    unfold sampleFromGaussian
    rw [if_neg hs.ne']
    change σ * Function.invFun Phi (A + Z * ((Phi ((x - m) / σ) - A) / Z)) + m = x
    rw [mul_div_cancel₀ _ hZ.ne', add_sub_cancel, Function.leftInverse_invFun Phi_strictMono.injective]
    field_simp
    ring
  set K := Real.sqrt (2 * Real.pi) * σ * Z
  have hbell : ∫ x in a..b, bell m (σ ^ 2) x = K := by
    have := intervalIntegral.integral_eq_sub_of_hasDerivAt (a := a) (b := b) (fun x _ => hd x)
      (((bell_cont m (σ ^ 2)).div_const K).intervalIntegrable _ _)
    rw [fa, fb, intervalIntegral.integral_div, div_eq_iff hK.ne'] at this
    linarith
  have hcv := integral_image_eq_integral_abs_deriv_smul (s := Icc a b) measurableSet_Icc (fun x _ => (hd x).hasDerivWithinAt)
    hmono.injective.injOn fun r => F (sampleFromGaussian exactNormal m σ r (.at a) (.at b))
  rw [himg] at hcv
  rw [← integral_Icc_eq_integral_Ico, hcv, hbell, intervalIntegral.integral_of_le hab.le, ← integral_Icc_eq_integral_Ioc, ← integral_div]
  refine integral_congr_ae (Filter.Eventually.of_forall fun x => ?_)
  change |bell m (σ ^ 2) x / K| • F (sampleFromGaussian exactNormal m σ (f x) (.at a) (.at b)) = F x * bell m (σ ^ 2) x / K
  rw [hinv, abs_of_pos (div_pos (bell_pos _ _ _) hK), smul_eq_mul]
  ring

/-- C163: the energy after a continuous loss from `E` to the mean energy `e` follows the normal distribution around `e` with the variance of the
losses below the cut, restricted to the energies between the minimal energy and `E`. The mean of any function of it, for a uniform random
number, which has not been used for the scattering of the step. Missing are calculators that are not exact. -/
theorem C163_energy_partial (c : UtilitySettings) (u : Utility) (hu : c.utility = some u) (hc : GoodSettings c u.lowerLim)
    (hN : c.N = exactNormal) (hr : c.contRand = true) (E e minE : ℝ) (he : 0 < e) (hE : WellAbove E e) (hmin : max u.lowerLim minE < E)
    (hpos : ∀ y ∈ Icc e E, 0 < lossOf c.cross y) (v : ℝ) (hv : v = ∫ y in e..E, spreadOf c.cross y / lossOf c.cross y) (hv0 : 0 < v)
    (F : ℝ → ℝ) (ω : ℕ → ℝ) (q : Memo) (hq : q.slots q.idx = -1) :
    ∫ r in Ico (0 : ℝ) 1, F (u.energyRandomize (Function.update ω q.pos r) q E e minE).1
      = (∫ x in max u.lowerLim minE..E, F x * bell e v x) / ∫ x in max u.lowerLim minE..E, bell e v x := by
  have hf : ∀ r, (u.energyRandomize (Function.update ω q.pos r) q E e minE).1
      = sampleFromGaussian exactNormal e (Real.sqrt v) r (.at (max u.lowerLim minE)) (.at E) := fun r => by
    obtain ⟨f, h1, h2⟩ := C146_randomised_partial c u hu hc hr E e r minE he hE hpos (hv ▸ hv0.le)
    rw [← hv, hN] at h2
    rw [← h2]
    unfold Utility.energyRandomize
    rw [h1]
    simp [Memo.next, hq]
  simp only [hf]
  rw [C163_sample e _ _ _ (Real.sqrt_pos.mpr hv0) hmin F, Real.sq_sqrt hv0.le]

/-- C163: the mean of that energy. Missing are calculators that are not exact. -/
theorem C163_mean_partial (c : UtilitySettings) (u : Utility) (hu : c.utility = some u) (hc : GoodSettings c u.lowerLim)
    (hN : c.N = exactNormal) (hr : c.contRand = true) (E e minE : ℝ) (he : 0 < e) (hE : WellAbove E e) (hmin : max u.lowerLim minE < E)
    (hpos : ∀ y ∈ Icc e E, 0 < lossOf c.cross y) (v : ℝ) (hv : v = ∫ y in e..E, spreadOf c.cross y / lossOf c.cross y) (hv0 : 0 < v)
    (ω : ℕ → ℝ) (q : Memo) (hq : q.slots q.idx = -1) :
    ∫ r in Ico (0 : ℝ) 1, (u.energyRandomize (Function.update ω q.pos r) q E e minE).1
      = e + v * (bell e v (max u.lowerLim minE) - bell e v E) / ∫ x in max u.lowerLim minE..E, bell e v x := by
  rw [C163_energy_partial c u hu hc hN hr E e minE he hE hmin hpos v hv hv0 (fun x => x) ω q hq, ← bell_first e v _ _ hv0.ne']
  have hb := bell_integral_pos e v _ _ hmin
  have i1 : IntervalIntegrable (fun x => (x - e) * bell e v x) volume (max u.lowerLim minE) E :=
    ((by fun_prop : Continuous fun x : ℝ => x - e).mul (bell_cont e v)).intervalIntegrable _ _
  have i2 : IntervalIntegrable (fun x => e * bell e v x) volume (max u.lowerLim minE) E :=
    (continuous_const.mul (bell_cont e v)).intervalIntegrable _ _
  have : ∫ x in max u.lowerLim minE..E, x * bell e v x
      = (∫ x in max u.lowerLim minE..E, (x - e) * bell e v x) + e * ∫ x in max u.lowerLim minE..E, bell e v x := by
    rw [← intervalIntegral.integral_const_mul, ← intervalIntegral.integral_add i1 i2]
    congr 1
    funext x
    ring
  rw [this, add_div, mul_div_cancel_right₀ _ hb.ne']
  ring

/-- C163: the mean is the intended energy only if the interval is symmetric around it. If the initial energy is closer to it than the minimal
energy, then the particle loses more energy in the mean than without randomization, otherwise less. Missing are calculators that are not
exact. -/
theorem C163_shift_partial (c : UtilitySettings) (u : Utility) (hu : c.utility = some u) (hc : GoodSettings c u.lowerLim)
    (hN : c.N = exactNormal) (hr : c.contRand = true) (E e minE : ℝ) (he : 0 < e) (hE : WellAbove E e) (hmin : max u.lowerLim minE ≤ e)
    (hpos : ∀ y ∈ Icc e E, 0 < lossOf c.cross y) (hv0 : 0 < ∫ y in e..E, spreadOf c.cross y / lossOf c.cross y)
    (ω : ℕ → ℝ) (q : Memo) (hq : q.slots q.idx = -1) :
    (∫ r in Ico (0 : ℝ) 1, (u.energyRandomize (Function.update ω q.pos r) q E e minE).1 < e ↔ E - e < e - max u.lowerLim minE) ∧
    (∫ r in Ico (0 : ℝ) 1, (u.energyRandomize (Function.update ω q.pos r) q E e minE).1 = e ↔ E - e = e - max u.lowerLim minE) := by
  have hlt : max u.lowerLim minE < E := lt_of_le_of_lt hmin hE.1
  rw [C163_mean_partial c u hu hc hN hr E e minE he hE hlt hpos _ rfl hv0 ω q hq]
  generalize (∫ y in e..E, spreadOf c.cross y / lossOf c.cross y) = v at hv0
  generalize max u.lowerLim minE = a at hmin hlt
  have hb := bell_integral_pos e v a E hlt
  have hE' : 0 ≤ E - e := by linarith [hE.1]
  have ha' : 0 ≤ e - a := by linarith
  have key : bell e v a < bell e v E ↔ E - e < e - a := by
    unfold bell
    rw [Real.exp_lt_exp, div_lt_div_iff_of_pos_right (by positivity), neg_lt_neg_iff, ← sq_lt_sq₀ hE' ha',
      show (a - e) ^ 2 = (e - a) ^ 2 by ring]
  have key' : bell e v a = bell e v E ↔ E - e = e - a := by
    unfold bell
    rw [Real.exp_eq_exp, div_left_inj' (by positivity), neg_inj, show (a - e) ^ 2 = (e - a) ^ 2 by ring,
      sq_eq_sq₀ ha' hE', eq_comm]
  constructor
  · rw [← key, add_lt_iff_neg_left, div_neg_iff]
    constructor
    · rintro (⟨-, h⟩ | ⟨h, -⟩)
      · linarith
      · by_contra hn
        push Not at hn
        nlinarith
    · intro h
      exact Or.inr ⟨by nlinarith, hb⟩
  · rw [← key', add_eq_left, div_eq_zero_iff]
    constructor
    · rintro (h | h)
      · rcases mul_eq_zero.mp h with h | h <;> linarith
      · linarith
    · intro h
      exact Or.inl (by rw [h, sub_self, mul_zero])

/-- C163: the fluctuations around the intended energy are smaller than the variance of the losses below the cut. Missing are calculators that
are not exact. -/
theorem C163_spread_partial (c : UtilitySettings) (u : Utility) (hu : c.utility = some u) (hc : GoodSettings c u.lowerLim)
    (hN : c.N = exactNormal) (hr : c.contRand = true) (E e minE : ℝ) (he : 0 < e) (hE : WellAbove E e) (hmin : max u.lowerLim minE ≤ e)
    (hpos : ∀ y ∈ Icc e E, 0 < lossOf c.cross y) (v : ℝ) (hv : v = ∫ y in e..E, spreadOf c.cross y / lossOf c.cross y) (hv0 : 0 < v)
    (ω : ℕ → ℝ) (q : Memo) (hq : q.slots q.idx = -1) :
    ∫ r in Ico (0 : ℝ) 1, ((u.energyRandomize (Function.update ω q.pos r) q E e minE).1 - e) ^ 2
      = v - v * ((e - max u.lowerLim minE) * bell e v (max u.lowerLim minE) + (E - e) * bell e v E)
        / ∫ x in max u.lowerLim minE..E, bell e v x ∧
    ∫ r in Ico (0 : ℝ) 1, ((u.energyRandomize (Function.update ω q.pos r) q E e minE).1 - e) ^ 2 < v := by
  have hlt : max u.lowerLim minE < E := lt_of_le_of_lt hmin hE.1
  have hb := bell_integral_pos e v _ _ hlt
  have h : ∫ r in Ico (0 : ℝ) 1, ((u.energyRandomize (Function.update ω q.pos r) q E e minE).1 - e) ^ 2
      = v - v * ((e - max u.lowerLim minE) * bell e v (max u.lowerLim minE) + (E - e) * bell e v E)
        / ∫ x in max u.lowerLim minE..E, bell e v x := by
    rw [C163_energy_partial c u hu hc hN hr E e minE he hE hlt hpos v hv hv0 (fun x => (x - e) ^ 2) ω q hq, bell_second e v _ _ hv0.ne',
      add_div, mul_div_cancel_right₀ _ hb.ne']
    ring
  refine ⟨h, ?_⟩
  rw [h]
  have h1 := bell_pos e v (max u.lowerLim minE)
  have h2 := mul_pos (sub_pos.mpr hE.1) (bell_pos e v E)
  have : 0 < v * ((e - max u.lowerLim minE) * bell e v (max u.lowerLim minE) + (E - e) * bell e v E)
      / ∫ x in max u.lowerLim minE..E, bell e v x :=
    div_pos (mul_pos hv0 (by nlinarith)) hb
  linarith

/-- C163: the energy at the end of a step of a propagation has this distribution, unless the step ends at the minimal energy. Missing are
calculators that are not exact. -/
theorem C163_step_partial (c : UtilitySettings) (f : Finished) (hu : c.utility = some f.sector.util) (hc : GoodSettings c f.sector.util.lowerLim)
    (hN : c.N = exactNormal) (hr : c.contRand = true) (s : StepEnv) (minStep : Bool) (hstep : ¬(minStep = true ∧ f.type = .interaction))
    (minE : ℝ) (he : 0 < f.energy) (hE : WellAbove s.state.energy f.energy) (hmin : max f.sector.util.lowerLim minE < s.state.energy)
    (hpos : ∀ y ∈ Icc f.energy s.state.energy, 0 < lossOf c.cross y) (v : ℝ)
    (hv : v = ∫ y in f.energy..s.state.energy, spreadOf c.cross y / lossOf c.cross y) (hv0 : 0 < v)
    (hq : f.memo.slots f.memo.idx = -1) (F : ℝ → ℝ) :
    ∫ r in Ico (0 : ℝ) 1, F (finish { s with ω := Function.update s.ω f.memo.pos r } minStep minE f).state.energy
      = (∫ x in max f.sector.util.lowerLim minE..s.state.energy, F x * bell f.energy v x) /
        ∫ x in max f.sector.util.lowerLim minE..s.state.energy, bell f.energy v x := by
  rw [← C163_energy_partial c f.sector.util hu hc hN hr s.state.energy f.energy minE he hE hmin hpos v hv hv0 F s.ω f.memo hq]
  simp only [finish, if_neg hstep]

lemma RandomLaw.deep_spread (search : IState → Option ℝ) :
    ∫ y in (3 : ℝ)..4, spreadOf (Deep.settings search).cross y / lossOf (Deep.settings search).cross y = 1 := by
  have : ∀ y, spreadOf (Deep.settings search).cross y / lossOf (Deep.settings search).cross y = 1 := fun y => by
    rw [Deep.loss]
    simp [spreadOf, Deep.settings, Deep.process]
  simp only [this]
  norm_num

/-- C163 fails for the mean: a particle which loses 1 of the energy 4, with the minimal energy 1, loses more than 1 in the mean. -/
theorem C163_mean_changed : ∃ (c : UtilitySettings) (u : Utility), c.utility = some u ∧ GoodSettings c u.lowerLim ∧ c.contRand = true ∧
    u.lengthContinuous 4 3 = 1 ∧ ∀ ω k, ∫ r in Ico (0 : ℝ) 1, (u.energyRandomize (Function.update ω k r) (Memo.init k) 4 3 1).1 < 3 := by
  obtain ⟨search, h⟩ := exactRefine_exists
  have hw : WellAbove 4 3 := wellAbove_example (by norm_num) (by norm_num) le_rfl
  have l1 : (Deep.util search).lowerLim = 1 := rfl
  have hp : ∀ y ∈ Icc (3 : ℝ) 4, 0 < lossOf (Deep.settings search).cross y := fun y _ => by
    rw [Deep.loss]; exact one_pos
  refine ⟨Deep.settings search, Deep.util search, Deep.util_eq search, Deep.good search h, rfl, ?_, fun ω k => ?_⟩
  · rw [(C146_grammage_partial _ _ (Deep.util_eq search) (Deep.good search h) 4 3 (by norm_num) hw hp).1]
    simp only [Deep.loss]
    norm_num
  · refine (C163_shift_partial _ _ (Deep.util_eq search) (Deep.good search h) rfl rfl 4 3 1 (by norm_num) hw
      (by rw [l1]; norm_num) hp (by rw [deep_spread]; exact one_pos) ω (Memo.init k) rfl).1.mpr ?_
    rw [l1]
    norm_num

/-- The same particle: the mean energy is below 3, the mean squared distance from 3 below the variance 1. -/
example : ∃ search, ∀ ω k,
    ∫ r in Ico (0 : ℝ) 1, (((Deep.util search).energyRandomize (Function.update ω k r) (Memo.init k) 4 3 1).1 - 3) ^ 2 < 1 := by
  obtain ⟨search, h⟩ := exactRefine_exists
  have hw : WellAbove 4 3 := wellAbove_example (by norm_num) (by norm_num) le_rfl
  have l1 : (Deep.util search).lowerLim = 1 := rfl
  exact ⟨search, fun ω k => (C163_spread_partial _ _ (Deep.util_eq search) (Deep.good search h) rfl rfl 4 3 1 (by norm_num) hw
    (by rw [l1]; norm_num) (fun y _ => by rw [Deep.loss]; exact one_pos) 1 (deep_spread search).symm one_pos ω (Memo.init k) rfl).2⟩

/-- A step which ends at the maximal distance with the energy 3. -/
example : ∃ search, ∃ (f : Finished) (s : StepEnv), f.sector.util = Deep.util search ∧ ∀ F : ℝ → ℝ,
    ∫ r in Ico (0 : ℝ) 1, F (finish { s with ω := Function.update s.ω 0 r } false 1 f).state.energy
      = (∫ x in (1 : ℝ)..4, F x * bell 3 1 x) / ∫ x in (1 : ℝ)..4, bell 3 1 x := by
  obtain ⟨search, h⟩ := exactRefine_exists
  have hw : WellAbove 4 3 := wellAbove_example (by norm_num) (by norm_num) le_rfl
  refine ⟨search, ⟨.maxDistance, 3, 1, 1, ⟨0, 0, 1⟩, ⟨0, 0, 1⟩, Deep.sector search, Memo.init 0, 1⟩,
    ⟨[], fun _ => 0, ⟨4, 0, 0, ⟨0, 0, 1⟩, 0⟩, 3, 1⟩, rfl, fun F => ?_⟩
  have l1 : (Deep.util search).lowerLim = 1 := rfl
  have := C163_step_partial (Deep.settings search)
    ⟨.maxDistance, 3, 1, 1, ⟨0, 0, 1⟩, ⟨0, 0, 1⟩, Deep.sector search, Memo.init 0, 1⟩ (Deep.util_eq search) (Deep.good search h) rfl rfl
    ⟨[], fun _ => 0, ⟨4, 0, 0, ⟨0, 0, 1⟩, 0⟩, 3, 1⟩ false (by simp) 1 (by norm_num) hw
    (by change max (Deep.util search).lowerLim 1 < 4; rw [l1]; norm_num) (fun y _ => by rw [Deep.loss]; exact one_pos) 1
    (deep_spread search).symm one_pos rfl F
  change _ = (∫ x in max (Deep.util search).lowerLim 1..4, F x * bell 3 1 x) / ∫ x in max (Deep.util search).lowerLim 1..4, bell 3 1 x at this
  rw [l1, max_self] at this
  exact this

end Proposal
