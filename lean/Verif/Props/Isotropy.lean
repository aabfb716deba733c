import Verif.Lemmas.BallIntegral
import Verif.Lemmas.Decay
import Verif.Props.Decay

/-!
# C156: directions of decay products favour no direction

The two random numbers of `GenerateRandomDirection` are uniform in `[0, 1)` and independent; probabilities are areas in
the unit square.
-/

namespace Proposal
namespace Spec

open MeasureTheory Set

/-- The pairs of random numbers. -/
def Draws : Set (ℝ × ℝ) := Ico 0 1 ×ˢ Ico 0 1

/-- The probability that two random numbers belong to a set. -/
noncomputable def chance (A : Set (ℝ × ℝ)) : ENNReal := volume (A ∩ Draws)

/-- The mean of a quantity over two random numbers. -/
noncomputable def average (f : ℝ × ℝ → ENNReal) : ENNReal := ∫⁻ u in Draws, f u

/-- A rotation, or a rotation with a reflection: linear and without change of lengths. -/
structure Turn (R : Vec3 → Vec3) : Prop where
  add : ∀ a b, R (a + b) = R a + R b
  smul : ∀ (k : ℝ) a, R (k • a) = k • R a
  length : ∀ a, (R a).x ^ 2 + (R a).y ^ 2 + (R a).z ^ 2 = a.x ^ 2 + a.y ^ 2 + a.z ^ 2

end Spec

open Spec MeasureTheory Set Real
open scoped ENNReal

namespace Isotropy

open BallIntegral

/-- The coordinates in the order of `BallIntegral`. -/
def zxy (v : Vec3) : ℝ × ℝ × ℝ := (v.z, v.x, v.y)
/-- The vector with given coordinates. -/
def vec (p : ℝ × ℝ × ℝ) : Vec3 := ⟨p.2.1, p.2.2, p.1⟩

/-- A rotation as a linear map. -/
def lin (R : Vec3 → Vec3) (hR : Turn R) : (ℝ × ℝ × ℝ) →ₗ[ℝ] (ℝ × ℝ × ℝ) where
  toFun p := zxy (R (vec p))
  map_add' a b := by
    rw [show vec (a + b) = vec a + vec b from rfl, hR.add]; rfl
  map_smul' k a := by
    rw [show vec (k • a) = k • vec a from rfl, hR.smul]; rfl

theorem sq3_lin (R : Vec3 → Vec3) (hR : Turn R) (p : ℝ × ℝ × ℝ) : sq3 (lin R hR p) = sq3 p := by
  have := hR.length (vec p)
  show (R (vec p)).z ^ 2 + (R (vec p)).x ^ 2 + (R (vec p)).y ^ 2 = _
  unfold sq3
  simp only [vec] at this ⊢
  linarith

theorem det_ne (R : Vec3 → Vec3) (hR : Turn R) : LinearMap.det (lin R hR) ≠ 0 := by
  have inj : Function.Injective (lin R hR) := by
    rw [injective_iff_map_eq_zero]
    intro p hp
    have h := sq3_lin R hR p
    rw [hp] at h
    unfold sq3 at h
    simp only [Prod.fst_zero, Prod.snd_zero] at h
    have a : p.1 = 0 := by nlinarith [sq_nonneg p.1, sq_nonneg p.2.1, sq_nonneg p.2.2]
    have b : p.2.1 = 0 := by nlinarith [sq_nonneg p.1, sq_nonneg p.2.1, sq_nonneg p.2.2]
    have c : p.2.2 = 0 := by nlinarith [sq_nonneg p.1, sq_nonneg p.2.1, sq_nonneg p.2.2]
    exact Prod.ext a (Prod.ext b c)
  have := (LinearEquiv.ofInjectiveEndo (lin R hR) inj).isUnit_det'
  have e : ((LinearEquiv.ofInjectiveEndo (lin R hR) inj : (ℝ × ℝ × ℝ) ≃ₗ[ℝ] (ℝ × ℝ × ℝ)) :
      (ℝ × ℝ × ℝ) →ₗ[ℝ] (ℝ × ℝ × ℝ)) = lin R hR := by
    ext <;> simp
  rw [e] at this
  exact this.ne_zero

theorem cut_lin (R : Vec3 → Vec3) (hR : Turn R) (h : ℝ × ℝ × ℝ → ℝ≥0∞) (p : ℝ × ℝ × ℝ) :
    cut h (lin R hR p) = cut (fun q => h (lin R hR q)) p := by
  have hu : unit3 (lin R hR p) = lin R hR (unit3 p) := by
    unfold unit3
    rw [sq3_lin, map_smul]
  unfold cut
  by_cases c : sq3 p ≤ 1
  · rw [indicator_of_mem (show lin R hR p ∈ {q | sq3 q ≤ 1} from by
      rw [mem_ofPred_eq, sq3_lin]; exact c), indicator_of_mem (show p ∈ {q | sq3 q ≤ 1} from c), hu]
  · rw [indicator_of_notMem (show lin R hR p ∉ {q | sq3 q ≤ 1} from by
      rw [mem_ofPred_eq, sq3_lin]; exact c), indicator_of_notMem (show p ∉ {q | sq3 q ≤ 1} from c)]

theorem measurable_lin (R : Vec3 → Vec3) (hR : Turn R) : Measurable (lin R hR) :=
  (LinearMap.continuous_of_finiteDimensional _).measurable

theorem ball_turn (R : Vec3 → Vec3) (hR : Turn R) (h : ℝ × ℝ × ℝ → ℝ≥0∞) (hh : Measurable h) :
    ∫⁻ p, cut (fun q => h (lin R hR q)) p = ∫⁻ p, cut h p := by
  have i2 : (volume : Measure (ℝ × ℝ)).IsAddHaarMeasure := by
    rw [Measure.volume_eq_prod]; infer_instance
  have i3 : (volume : Measure (ℝ × ℝ × ℝ)).IsAddHaarMeasure := by
    rw [Measure.volume_eq_prod]; infer_instance
  have hmap := Measure.map_linearMap_addHaar_eq_smul_addHaar (μ := volume) (det_ne R hR)
  have key : ∀ h : ℝ × ℝ × ℝ → ℝ≥0∞, Measurable h → ∫⁻ p, cut (fun q => h (lin R hR q)) p
      = ENNReal.ofReal |(LinearMap.det (lin R hR))⁻¹| * ∫⁻ p, cut h p := by
    intro h hh
    have : ∫⁻ p, cut (fun q => h (lin R hR q)) p = ∫⁻ p, cut h (lin R hR p) :=
      lintegral_congr fun p => (cut_lin R hR h p).symm
    rw [this, ← lintegral_map (measurable_cut hh) (measurable_lin R hR), hmap, lintegral_smul_measure,
      smul_eq_mul]
  have one := key (fun _ => 1) measurable_const
  rw [ball_integral _ measurable_const] at one
  have val : (∫⁻ _ in Ioo (-π) π, ∫⁻ _ in Ioo (-1 : ℝ) 1, (1 : ℝ≥0∞)) = ENNReal.ofReal (4 * π) := by
    rw [setLIntegral_const, setLIntegral_const, Real.volume_Ioo, Real.volume_Ioo, one_mul,
      ← ENNReal.ofReal_mul (by norm_num)]
    congr 1; ring
  rw [val] at one
  have fac : ENNReal.ofReal |(LinearMap.det (lin R hR))⁻¹| = 1 := by
    have n0 : radial * ENNReal.ofReal (4 * π) ≠ 0 :=
      mul_ne_zero radial_ne_zero (by rw [Ne, ENNReal.ofReal_eq_zero]; push Not; positivity)
    have nt : radial * ENNReal.ofReal (4 * π) ≠ ∞ :=
      ENNReal.mul_ne_top radial_ne_top ENNReal.ofReal_ne_top
    have : 1 * (radial * ENNReal.ofReal (4 * π))
        = ENNReal.ofReal |(LinearMap.det (lin R hR))⁻¹| * (radial * ENNReal.ofReal (4 * π)) := by
      rw [one_mul]; exact one
    exact ((ENNReal.mul_left_inj n0 nt).mp this).symm
  rw [key h hh, fac, one_mul]

/-- The integral over the sphere. -/
noncomputable def sphere (h : ℝ × ℝ × ℝ → ℝ≥0∞) : ℝ≥0∞ :=
  ∫⁻ φ in Ioo (-π) π, ∫⁻ s in Ioo (-1 : ℝ) 1, h (point φ s)

theorem sphere_turn (R : Vec3 → Vec3) (hR : Turn R) (h : ℝ × ℝ × ℝ → ℝ≥0∞) (hh : Measurable h) :
    sphere (fun q => h (lin R hR q)) = sphere h := by
  have := ball_turn R hR h hh
  have hm : Measurable (fun q => h (lin R hR q)) := hh.comp (measurable_lin R hR)
  rw [ball_integral _ hm, ball_integral _ hh] at this
  exact (ENNReal.mul_right_inj radial_ne_zero radial_ne_top).mp this

theorem measurable_zxy : Measurable (fun u : ℝ × ℝ => zxy (randomDirection u)) := by
  unfold zxy randomDirection
  simp only
  fun_prop

/-- Half a turn about the z axis. -/
def flip (v : Vec3) : Vec3 := ⟨-v.x, -v.y, v.z⟩

theorem turn_flip : Turn flip := by
  refine ⟨fun a b => ?_, fun k a => ?_, fun a => ?_⟩
  · ext <;> simp [flip] <;> ring
  · ext <;> simp [flip]
  · simp [flip]

theorem draws_restrict : (volume : Measure (ℝ × ℝ)).restrict Draws
    = (volume.restrict (Ioo (0:ℝ) 1)).prod (volume.restrict (Ioo (0:ℝ) 1)) := by
  unfold Draws
  rw [Measure.restrict_congr_set Ioo_ae_eq_Ico, Measure.prod_restrict]
  rfl

theorem sphere_draws (h : ℝ × ℝ × ℝ → ℝ≥0∞) (hh : Measurable h) :
    sphere (fun q => h (lin flip turn_flip q))
      = ENNReal.ofReal (2 * π) * (ENNReal.ofReal 2 * Spec.average (fun u => h (zxy (randomDirection u)))) := by
  unfold Spec.average
  have hm : Measurable (fun u => h (zxy (randomDirection u))) := hh.comp measurable_zxy
  rw [draws_restrict, lintegral_prod _ hm.aemeasurable]
  unfold sphere
  have i1 : (fun u : ℝ => 2 * π * u - π) '' Ioo 0 1 = Ioo (-π) π := by
    ext y
    constructor
    · rintro ⟨u, ⟨h0, h1⟩, rfl⟩
      constructor <;> simp only <;> nlinarith [pi_pos]
    · rintro ⟨h0, h1⟩
      refine ⟨(y + π) / (2 * π), ⟨?_, ?_⟩, ?_⟩
      · have := pi_pos; apply div_pos <;> linarith
      · have := pi_pos; rw [div_lt_one (by positivity)]; linarith
      · simp only; have := pi_pos; field_simp; ring
  have i2 : (fun u : ℝ => 2 * u - 1) '' Ioo 0 1 = Ioo (-1) 1 := by
    ext y
    constructor
    · rintro ⟨u, ⟨h0, h1⟩, rfl⟩
      constructor <;> simp only <;> linarith
    · rintro ⟨h0, h1⟩
      exact ⟨(y + 1) / 2, ⟨by linarith, by linarith⟩, by simp only; ring⟩
  rw [← i1, lintegral_image_eq_lintegral_abs_deriv_mul measurableSet_Ioo
    (f' := fun _ => 2 * π) (fun u _ => by
      have := ((hasDerivAt_id u).const_mul (2 * π)).sub_const π
      simpa using this.hasDerivWithinAt)
    (fun a _ b _ e => by
      have e' : 2 * π * a - π = 2 * π * b - π := e
      have := pi_pos; exact mul_left_cancel₀ (by positivity : (2 * π) ≠ 0) (by linarith)),
    ← lintegral_const_mul' _ _ ENNReal.ofReal_ne_top, ← lintegral_const_mul' _ _ ENNReal.ofReal_ne_top]
  apply lintegral_congr
  intro u
  rw [abs_of_pos (by positivity)]
  congr 1
  rw [← i2, lintegral_image_eq_lintegral_abs_deriv_mul measurableSet_Ioo
    (f' := fun _ => 2) (fun u _ => by
      have := ((hasDerivAt_id u).const_mul 2).sub_const 1
      simpa using this.hasDerivWithinAt)
    (fun a _ b _ e => by
      have e' : 2 * a - 1 = 2 * b - 1 := e
      linarith),
    ← lintegral_const_mul' _ _ ENNReal.ofReal_ne_top]
  apply lintegral_congr
  intro v
  rw [abs_of_pos (by norm_num : (0:ℝ) < 2)]
  congr 1
  show h (zxy (flip (vec (point (2 * π * u - π) (2 * v - 1))))) = h (zxy (randomDirection (u, v)))
  congr 1
  show zxy (flip (vec (point (2 * π * u - π) (2 * v - 1)))) = zxy (randomDirection (u, v))
  unfold zxy flip vec point randomDirection
  simp only [cos_sub_pi, sin_sub_pi]
  rw [show (1 - (2 * v - 1)) * (1 + (2 * v - 1)) = 1 - (2 * v - 1) ^ 2 by ring]
  simp

theorem draws_turn (R : Vec3 → Vec3) (hR : Turn R) (h : ℝ × ℝ × ℝ → ℝ≥0∞) (hh : Measurable h) :
    Spec.average (fun u => h (zxy (R (randomDirection u)))) = Spec.average (fun u => h (zxy (randomDirection u))) := by
  have hm : Measurable (fun q => h (lin R hR q)) := hh.comp (measurable_lin R hR)
  have e1 := sphere_draws (fun q => h (lin R hR q)) hm
  have e2 := sphere_draws h hh
  rw [sphere_turn flip turn_flip _ hm, sphere_turn R hR h hh] at e1
  rw [sphere_turn flip turn_flip _ hh, e1] at e2
  have p2 : ENNReal.ofReal (2 * π) ≠ 0 := by rw [Ne, ENNReal.ofReal_eq_zero]; push Not; positivity
  have t2 : ENNReal.ofReal 2 ≠ 0 := by rw [Ne, ENNReal.ofReal_eq_zero]; norm_num
  exact (ENNReal.mul_right_inj t2 ENNReal.ofReal_ne_top).mp
    ((ENNReal.mul_right_inj p2 ENNReal.ofReal_ne_top).mp e2)

/-- The reflection that exchanges `n` and the z axis. -/
noncomputable def mirror (n v : Vec3) : Vec3 :=
  v - ((v.dot (n - ⟨0, 0, 1⟩)) / (1 - n.z)) • (n - ⟨0, 0, 1⟩)

theorem turn_mirror (n : Vec3) (hn : UnitVec n) (hz : n.z ≠ 1) : Turn (mirror n) := by
  have h1 : 1 - n.z ≠ 0 := fun h => hz (by linarith)
  unfold UnitVec at hn
  refine ⟨fun a b => ?_, fun k a => ?_, fun a => ?_⟩
  · ext <;> simp [mirror, Vec3.dot] <;> field_simp <;> ring
  · ext <;> simp [mirror, Vec3.dot] <;> field_simp
  · simp only [mirror, Vec3.dot, Vec3.sub_x, Vec3.sub_y, Vec3.sub_z, Vec3.smul_x, Vec3.smul_y, Vec3.smul_z,
      sub_zero]
    generalize hw : a.x * n.x + a.y * n.y + a.z * (n.z - 1) = w
    have hq : (w / (1 - n.z)) * (1 - n.z) = w := div_mul_cancel₀ _ h1
    generalize w / (1 - n.z) = q at hq
    linear_combination q ^ 2 * hn - 2 * q * hw + 2 * q * hq

theorem mirror_z (n : Vec3) (hz : n.z ≠ 1) (v : Vec3) : (mirror n v).z = cosAngle v n := by
  have h1 : 1 - n.z ≠ 0 := fun h => hz (by linarith)
  simp only [mirror, Vec3.dot, Vec3.sub_x, Vec3.sub_y, Vec3.sub_z, Vec3.smul_z, sub_zero, cosAngle]
  field_simp
  ring

theorem chance_average (A : Set (ℝ × ℝ)) (hA : MeasurableSet A) :
    chance A = Spec.average (A.indicator fun _ => (1 : ℝ≥0∞)) := by
  unfold chance Spec.average
  rw [lintegral_indicator hA, setLIntegral_one, Measure.restrict_apply hA]

theorem chance_z (c : ℝ) (h0 : -1 ≤ c) (h1 : c ≤ 1) :
    chance {u | (randomDirection u).z ≤ c} = ENNReal.ofReal ((1 + c) / 2) := by
  have hset : {u : ℝ × ℝ | (randomDirection u).z ≤ c} ∩ Draws = Ico 0 1 ×ˢ (Ico 0 1 ∩ Iic ((1 + c) / 2)) := by
    ext ⟨u, v⟩
    unfold Draws randomDirection
    simp only [mem_inter_iff, mem_ofPred_eq, mem_prod, mem_Ico, mem_Iic]
    constructor
    · rintro ⟨h, hu, hv⟩
      exact ⟨hu, hv, by linarith⟩
    · rintro ⟨hu, hv, h⟩
      exact ⟨by linarith, hu, hv⟩
  unfold chance
  rw [hset, Measure.volume_eq_prod, Measure.prod_prod, Real.volume_Ico, sub_zero, ENNReal.ofReal_one, one_mul]
  rcases eq_or_lt_of_le h1 with rfl | h
  · rw [show Ico (0 : ℝ) 1 ∩ Iic ((1 + 1) / 2) = Ico 0 1 by
      apply inter_eq_left.mpr
      intro x hx
      rw [mem_Iic]; linarith [hx.2], Real.volume_Ico]
    norm_num
  · rw [show Ico (0 : ℝ) 1 ∩ Iic ((1 + c) / 2) = Icc 0 ((1 + c) / 2) by
      ext x
      simp only [mem_inter_iff, mem_Ico, mem_Iic, mem_Icc]
      constructor
      · rintro ⟨⟨a, _⟩, b⟩; exact ⟨a, b⟩
      · rintro ⟨a, b⟩; exact ⟨⟨a, by linarith⟩, b⟩, Real.volume_Icc, sub_zero]

theorem chance_congr (A B : Set (ℝ × ℝ)) (h : ∀ u ∈ Draws, u ∈ A ↔ u ∈ B) : chance A = chance B := by
  unfold chance
  congr 1
  ext u
  exact ⟨fun k => ⟨(h u k.2).mp k.1, k.2⟩, fun k => ⟨(h u k.2).mpr k.1, k.2⟩⟩

end Isotropy

open Isotropy

/-- C156: turning the directions does not change their distribution. -/
theorem C156_isotropic (R : Vec3 → Vec3) (hR : Turn R) (g : ℝ × ℝ × ℝ → ℝ≥0∞) (hg : Measurable g) :
    Spec.average (fun u => g ((R (randomDirection u)).x, (R (randomDirection u)).y, (R (randomDirection u)).z))
      = Spec.average (fun u => g ((randomDirection u).x, (randomDirection u).y, (randomDirection u).z)) := by
  have hm : Measurable (fun q : ℝ × ℝ × ℝ => g (q.2.1, q.2.2, q.1)) := hg.comp (by fun_prop)
  exact draws_turn R hR _ hm

/-- C156: the cosine of the angle with any direction is uniform. -/
theorem C156_cosine (n : Vec3) (hn : UnitVec n) (c : ℝ) (h0 : -1 ≤ c) (h1 : c ≤ 1) :
    chance {u | cosAngle (randomDirection u) n ≤ c} = ENNReal.ofReal ((1 + c) / 2) := by
  by_cases hz : n.z = 1
  · have hx : n.x = 0 := by unfold UnitVec at hn; nlinarith [sq_nonneg n.x, sq_nonneg n.y]
    have hy : n.y = 0 := by unfold UnitVec at hn; nlinarith [sq_nonneg n.x, sq_nonneg n.y]
    rw [← chance_z c h0 h1]
    unfold cosAngle
    rw [hx, hy, hz]
    simp
  · have hmz : Measurable (fun u : ℝ × ℝ => (randomDirection u).z) := measurable_fst.comp measurable_zxy
    have hmx : Measurable (fun u : ℝ × ℝ => (randomDirection u).x) :=
      measurable_fst.comp (measurable_snd.comp measurable_zxy)
    have hmy : Measurable (fun u : ℝ × ℝ => (randomDirection u).y) :=
      measurable_snd.comp (measurable_snd.comp measurable_zxy)
    have hmc : Measurable (fun u : ℝ × ℝ => cosAngle (randomDirection u) n) := by
      unfold cosAngle
      exact ((hmx.mul_const _).add (hmy.mul_const _)).add (hmz.mul_const _)
    have m1 : MeasurableSet {u : ℝ × ℝ | (randomDirection u).z ≤ c} := measurableSet_le hmz measurable_const
    have m2 : MeasurableSet {u : ℝ × ℝ | cosAngle (randomDirection u) n ≤ c} := measurableSet_le hmc measurable_const
    have m3 : MeasurableSet {q : ℝ × ℝ × ℝ | q.1 ≤ c} := measurableSet_le measurable_fst measurable_const
    have m4 : Measurable ({q : ℝ × ℝ × ℝ | q.1 ≤ c}.indicator fun _ => (1 : ℝ≥0∞)) := measurable_const.indicator m3
    rw [← chance_z c h0 h1, chance_average _ m1, chance_average _ m2]
    have := draws_turn (mirror n) (turn_mirror n hn hz) _ m4
    have e1 : ({u : ℝ × ℝ | cosAngle (randomDirection u) n ≤ c}.indicator fun _ => (1 : ℝ≥0∞))
        = fun u => ({q : ℝ × ℝ × ℝ | q.1 ≤ c}.indicator fun _ => (1 : ℝ≥0∞)) (zxy (mirror n (randomDirection u))) := by
      funext u
      simp only [indicator, mem_ofPred_eq, zxy, mirror_z n hz]
    have e2 : ({u : ℝ × ℝ | (randomDirection u).z ≤ c}.indicator fun _ => (1 : ℝ≥0∞))
        = fun u => ({q : ℝ × ℝ × ℝ | q.1 ≤ c}.indicator fun _ => (1 : ℝ≥0∞)) (zxy (randomDirection u)) := by
      funext u
      rfl
    rw [e1, e2]
    exact this

/-- C156: every direction occurs. -/
theorem C156_every (n : Vec3) (hn : UnitVec n) :
    ∃ u : ℝ × ℝ, u.1 ∈ Ico 0 1 ∧ u.2 ∈ Icc 0 1 ∧ randomDirection u = n := by
  unfold UnitVec at hn
  have hz0 : -1 ≤ n.z := by nlinarith [sq_nonneg n.x, sq_nonneg n.y]
  have hz1 : n.z ≤ 1 := by nlinarith [sq_nonneg n.x, sq_nonneg n.y]
  have hpi := pi_pos
  obtain ⟨φ, f0, f1, hx, hy⟩ : ∃ φ : ℝ, 0 ≤ φ ∧ φ < 2 * π ∧ Real.sqrt (1 - n.z ^ 2) * cos φ = n.x ∧
      Real.sqrt (1 - n.z ^ 2) * sin φ = n.y := by
    rcases eq_or_lt_of_le (show 0 ≤ 1 - n.z ^ 2 by nlinarith) with e | e
    · refine ⟨0, le_refl _, by linarith, ?_, ?_⟩
      · rw [← e, Real.sqrt_zero, zero_mul]; nlinarith [sq_nonneg n.x, sq_nonneg n.y]
      · rw [← e, Real.sqrt_zero, zero_mul]; nlinarith [sq_nonneg n.x, sq_nonneg n.y]
    · have hs := Real.sqrt_pos.mpr e
      have hq := Real.sq_sqrt e.le
      set s := Real.sqrt (1 - n.z ^ 2)
      clear_value s
      have hr : (n.x / s) ^ 2 + (n.y / s) ^ 2 = 1 := by
        rw [div_pow, div_pow, ← add_div, hq, div_eq_one_iff_eq e.ne']; linarith
      have b0 : -1 ≤ n.x / s := by nlinarith [sq_nonneg (n.y / s)]
      have b1 : n.x / s ≤ 1 := by nlinarith [sq_nonneg (n.y / s)]
      have hsin : sin (arccos (n.x / s)) = |n.y / s| := by
        rw [sin_arccos, ← Real.sqrt_sq_eq_abs]; congr 1; linarith
      by_cases c : 0 ≤ n.y
      · refine ⟨arccos (n.x / s), arccos_nonneg _, by linarith [arccos_le_pi (n.x / s)], ?_, ?_⟩
        · rw [cos_arccos b0 b1]; field_simp
        · rw [hsin, abs_of_nonneg (by positivity)]; field_simp
      · push Not at c
        have ny : n.y / s < 0 := div_neg_of_neg_of_pos c hs
        have lt1 : n.x / s < 1 := by nlinarith
        refine ⟨2 * π - arccos (n.x / s), by linarith [arccos_le_pi (n.x / s)],
          by linarith [arccos_pos.mpr lt1], ?_, ?_⟩
        · rw [cos_two_pi_sub, cos_arccos b0 b1]; field_simp
        · rw [sin_two_pi_sub, hsin, abs_of_neg ny]; field_simp
  refine ⟨(φ / (2 * π), (1 + n.z) / 2), ⟨by positivity, by rw [div_lt_one (by positivity)]; exact f1⟩,
    ⟨by simp only; linarith, by simp only; linarith⟩, ?_⟩
  unfold randomDirection
  simp only
  rw [show 2 * π * (φ / (2 * π)) = φ by field_simp, show 2 * ((1 + n.z) / 2) - 1 = n.z by ring,
    show (1 - n.z) * (1 + n.z) = 1 - n.z ^ 2 by ring, hx, hy]

example : UnitVec ⟨3 / 5, -4 / 5, 0⟩ := by unfold UnitVec; norm_num

/-- C156: the energies of the two products of a decay in flight, for the two random numbers of the direction. -/
theorem C156_energies (M : ℝ) (d1 d2 : Daughter) (parent : Part) (hp : Parent M parent) (h1 : 0 ≤ d1.mass)
    (h2 : 0 ≤ d2.mass) (h : d1.mass + d2.mass ≤ M)
    (r1 : M ^ 2 + d1.mass ^ 2 - d2.mass ^ 2 ≠ 2 * parent.energy * d1.mass)
    (r2 : M ^ 2 + d2.mass ^ 2 - d1.mass ^ 2 ≠ 2 * parent.energy * d2.mass) (u : ℝ × ℝ) (hu : u ∈ Draws) :
    ∃ a b, twoBodyDecay M d1 d2 parent u = some [a, b] ∧
      a.energy = (parent.energy * ((M ^ 2 + d1.mass ^ 2 - d2.mass ^ 2) / (2 * M))
        + Real.sqrt (parent.energy ^ 2 - M ^ 2) * Real.sqrt (((M ^ 2 + d1.mass ^ 2 - d2.mass ^ 2) / (2 * M)) ^ 2 - d1.mass ^ 2)
          * cosAngle (randomDirection u) parent.dir) / M ∧
      b.energy = parent.energy - a.energy := by
  have hu0 : 0 ≤ u.2 := hu.2.1
  have hu1 : u.2 ≤ 1 := hu.2.2.le
  have hM := hp.mass_pos
  have hE := hp.energy_ge
  obtain ⟨c1, c2⟩ := C36_two_body_partial M d1 d2 parent u hp h1 h2 h hu0 hu1
  obtain ⟨ps, hps⟩ := c2 r1 r2
  obtain ⟨cons, -⟩ := c1 ps hps
  have hn := randomDirection_unit u hu0 hu1
  obtain ⟨k0, k1, k2, -⟩ := decayMomentum_spec M d1.mass d2.mass hM h1 h2 h
  obtain ⟨a1, a2, -, -⟩ := setMomentum_spec (product d1 parent (randomDirection u) parent.energy) h1 _ _ _ k0 hn rfl
  have a1' : PhysicalState ((product d1 parent (randomDirection u) parent.energy).setMomentum
      (decayMomentum M d1.mass d2.mass)) := a1
  have hps' := hps
  unfold twoBodyDecay toLab twoBodyRest at hps
  simp only [boostAll] at hps
  have hmax : max ((parent.energy + M) * (parent.energy - M)) 0 = parent.energy ^ 2 - M ^ 2 := by
    rw [max_eq_left (by nlinarith)]; ring
  rw [hmax] at hps
  have hs : Real.sqrt (parent.energy ^ 2 - M ^ 2) ^ 2 = parent.energy ^ 2 - M ^ 2 := Real.sq_sqrt (by nlinarith)
  have hγ : (parent.energy / M) ^ 2 - (Real.sqrt (parent.energy ^ 2 - M ^ 2) / M) ^ 2 = 1 := by
    rw [div_pow, div_pow, hs]; field_simp; ring
  split at hps
  · rename_i a rest ha hrest
    split at hrest
    · rename_i b rest' hb hrest'
      injection hrest' with hrest'
      injection hrest with hrest
      injection hps with hps
      subst hrest' hrest hps
      refine ⟨a, b, hps', ?_, ?_⟩
      · obtain ⟨-, -, b3, -⟩ := boost_spec _ a _ _ _ a1' (neg_unit hp.unit) (div_nonneg (by linarith) hM.le) hγ ha
        have hmom : momentum ((product d1 parent (randomDirection u) parent.energy).setMomentum
            (decayMomentum M d1.mass d2.mass)) = decayMomentum M d1.mass d2.mass • randomDirection u := a2
        rw [b3, hmom]
        have hen : ((product d1 parent (randomDirection u) parent.energy).setMomentum
            (decayMomentum M d1.mass d2.mass)).energy = (M ^ 2 + d1.mass ^ 2 - d2.mass ^ 2) / (2 * M) := k2
        have hk : Real.sqrt (((M ^ 2 + d1.mass ^ 2 - d2.mass ^ 2) / (2 * M)) ^ 2 - d1.mass ^ 2)
            = decayMomentum M d1.mass d2.mass := by
          rw [← k2]
          unfold energyOfMomentum
          rw [Real.sq_sqrt (by positivity), ← sq, add_sub_cancel_right, Real.sqrt_sq k0]
        rw [hen, hk]
        unfold Vec3.dot cosAngle
        simp only [Vec3.smul_x, Vec3.smul_y, Vec3.smul_z, Vec3.neg_x, Vec3.neg_y, Vec3.neg_z]
        field_simp
        ring
      · have := cons.energy
        simp only [totalEnergy_cons, totalEnergy_nil, add_zero] at this
        linarith
    · cases hrest
  · cases hps


/-- A probability of a cosine. -/
theorem Isotropy.chance_affine (n : Vec3) (hn : UnitVec n) (lo hi e : ℝ) (h : lo < hi) (h0 : lo ≤ e) (h1 : e ≤ hi) :
    chance {u | (lo + hi) / 2 + (hi - lo) / 2 * cosAngle (randomDirection u) n ≤ e}
      = ENNReal.ofReal ((e - lo) / (hi - lo)) := by
  have hd : 0 < hi - lo := by linarith
  have c0 : -1 ≤ (2 * e - lo - hi) / (hi - lo) := by rw [le_div_iff₀ hd]; linarith
  have c1 : (2 * e - lo - hi) / (hi - lo) ≤ 1 := by rw [div_le_one hd]; linarith
  have := C156_cosine n hn _ c0 c1
  rw [show (1 + (2 * e - lo - hi) / (hi - lo)) / 2 = (e - lo) / (hi - lo) by field_simp; ring] at this
  rw [← this]
  congr 1
  ext u
  simp only [mem_ofPred_eq]
  rw [le_div_iff₀ hd]
  constructor <;> intro k <;> linarith

/-- The lowest (sign -1) and the highest (sign 1) laboratory energy of a daughter of mass `m` in the decay of a particle of
mass `M` and energy `E` into it and a daughter of mass `m'`. -/
noncomputable def Spec.labEnergy (sign M E m m' : ℝ) : ℝ :=
  (E * ((M ^ 2 + m ^ 2 - m' ^ 2) / (2 * M))
    + sign * (Real.sqrt (E ^ 2 - M ^ 2) * Real.sqrt (((M ^ 2 + m ^ 2 - m' ^ 2) / (2 * M)) ^ 2 - m ^ 2))) / M

theorem Isotropy.lab_lt (M E m m' : ℝ) (hM : 0 < M) (hE : M < E) (h1 : 0 ≤ m) (h2 : 0 ≤ m') (h : m + m' < M) :
    labEnergy (-1) M E m m' < labEnergy 1 M E m m' := by
  have p1 : 0 < Real.sqrt (E ^ 2 - M ^ 2) := Real.sqrt_pos.mpr (by nlinarith)
  have p2 : 0 < Real.sqrt (((M ^ 2 + m ^ 2 - m' ^ 2) / (2 * M)) ^ 2 - m ^ 2) := by
    apply Real.sqrt_pos.mpr
    rw [show ((M ^ 2 + m ^ 2 - m' ^ 2) / (2 * M)) ^ 2 - m ^ 2
      = ((M - m - m') * (M + m + m') * ((M - m + m') * (M + m - m'))) / (4 * M ^ 2) by field_simp; ring]
    apply div_pos _ (by positivity)
    apply mul_pos (mul_pos _ _) (mul_pos _ _) <;> linarith
  have := mul_pos p1 p2
  unfold labEnergy
  apply div_lt_div_of_pos_right _ hM
  linarith

/-- C156: in the decay of a moving particle into two the energy of the first product is uniform between its limits. -/
theorem C156_spectrum (M : ℝ) (d1 d2 : Daughter) (parent : Part) (hp : Parent M parent) (hE : M < parent.energy)
    (h1 : 0 ≤ d1.mass) (h2 : 0 ≤ d2.mass) (h : d1.mass + d2.mass < M)
    (r1 : M ^ 2 + d1.mass ^ 2 - d2.mass ^ 2 ≠ 2 * parent.energy * d1.mass)
    (r2 : M ^ 2 + d2.mass ^ 2 - d1.mass ^ 2 ≠ 2 * parent.energy * d2.mass) (e : ℝ)
    (lo : labEnergy (-1) M parent.energy d1.mass d2.mass ≤ e) (hi : e ≤ labEnergy 1 M parent.energy d1.mass d2.mass) :
    chance {u | ∃ a b, twoBodyDecay M d1 d2 parent u = some [a, b] ∧ a.energy ≤ e}
      = ENNReal.ofReal ((e - labEnergy (-1) M parent.energy d1.mass d2.mass)
        / (labEnergy 1 M parent.energy d1.mass d2.mass - labEnergy (-1) M parent.energy d1.mass d2.mass)) := by
  have hlt := Isotropy.lab_lt M parent.energy d1.mass d2.mass hp.mass_pos hE h1 h2 h
  rw [← Isotropy.chance_affine parent.dir hp.unit _ _ e hlt lo hi]
  apply chance_congr
  intro u hu
  obtain ⟨a, b, hab, ha, -⟩ := C156_energies M d1 d2 parent hp h1 h2 h.le r1 r2 u hu
  have ha' : a.energy = (labEnergy (-1) M parent.energy d1.mass d2.mass + labEnergy 1 M parent.energy d1.mass d2.mass) / 2
      + (labEnergy 1 M parent.energy d1.mass d2.mass - labEnergy (-1) M parent.energy d1.mass d2.mass) / 2
        * cosAngle (randomDirection u) parent.dir := by
    rw [ha]; unfold labEnergy; ring
  simp only [mem_ofPred_eq, hab, ← ha']
  constructor
  · rintro ⟨a', b', k, l⟩
    simp only [Option.some.injEq, List.cons.injEq, and_true] at k
    rw [k.1]; exact l
  · intro l
    exact ⟨a, b, rfl, l⟩

/-- C156: and so is the energy of the second product. -/
theorem C156_spectrum_second (M : ℝ) (d1 d2 : Daughter) (parent : Part) (hp : Parent M parent) (hE : M < parent.energy)
    (h1 : 0 ≤ d1.mass) (h2 : 0 ≤ d2.mass) (h : d1.mass + d2.mass < M)
    (r1 : M ^ 2 + d1.mass ^ 2 - d2.mass ^ 2 ≠ 2 * parent.energy * d1.mass)
    (r2 : M ^ 2 + d2.mass ^ 2 - d1.mass ^ 2 ≠ 2 * parent.energy * d2.mass) (e : ℝ)
    (lo : labEnergy (-1) M parent.energy d2.mass d1.mass ≤ e) (hi : e ≤ labEnergy 1 M parent.energy d2.mass d1.mass) :
    chance {u | ∃ a b, twoBodyDecay M d1 d2 parent u = some [a, b] ∧ b.energy ≤ e}
      = ENNReal.ofReal ((e - labEnergy (-1) M parent.energy d2.mass d1.mass)
        / (labEnergy 1 M parent.energy d2.mass d1.mass - labEnergy (-1) M parent.energy d2.mass d1.mass)) := by
  have hM := hp.mass_pos
  have hlt := Isotropy.lab_lt M parent.energy d2.mass d1.mass hp.mass_pos hE h2 h1 (by linarith)
  rw [← Isotropy.chance_affine (-parent.dir) (neg_unit hp.unit) _ _ e hlt lo hi]
  apply chance_congr
  intro u hu
  obtain ⟨a, b, hab, ha, hb⟩ := C156_energies M d1 d2 parent hp h1 h2 h.le r1 r2 u hu
  have hk : ((M ^ 2 + d1.mass ^ 2 - d2.mass ^ 2) / (2 * M)) ^ 2 - d1.mass ^ 2
      = ((M ^ 2 + d2.mass ^ 2 - d1.mass ^ 2) / (2 * M)) ^ 2 - d2.mass ^ 2 := by field_simp; ring
  have hb' : b.energy = (labEnergy (-1) M parent.energy d2.mass d1.mass + labEnergy 1 M parent.energy d2.mass d1.mass) / 2
      + (labEnergy 1 M parent.energy d2.mass d1.mass - labEnergy (-1) M parent.energy d2.mass d1.mass) / 2
        * cosAngle (randomDirection u) (-parent.dir) := by
    rw [hb, ha, hk]
    unfold labEnergy cosAngle
    simp only [Vec3.neg_x, Vec3.neg_y, Vec3.neg_z]
    field_simp
    ring
  simp only [mem_ofPred_eq, hab, ← hb']
  constructor
  · rintro ⟨a', b', k, l⟩
    simp only [Option.some.injEq, List.cons.injEq, and_true] at k
    rw [k.2]; exact l
  · intro l
    exact ⟨a, b, rfl, l⟩

/-- A pion of 1 GeV: the neutrino, as a massless daughter, has an energy below a given limit in this fraction of the
decays. -/
example (parent : Part) (hp : Parent 139.57018 parent) (hE : parent.energy = 1000) (e : ℝ)
    (lo : labEnergy (-1) 139.57018 1000 0 105.6583745 ≤ e) (hi : e ≤ labEnergy 1 139.57018 1000 0 105.6583745) :
    chance {u | ∃ a b, twoBodyDecay 139.57018 ⟨13, 105.6583745⟩ ⟨14, 0⟩ parent u = some [a, b] ∧ b.energy ≤ e}
      = ENNReal.ofReal ((e - labEnergy (-1) 139.57018 1000 0 105.6583745)
        / (labEnergy 1 139.57018 1000 0 105.6583745 - labEnergy (-1) 139.57018 1000 0 105.6583745)) := by
  have := C156_spectrum_second 139.57018 ⟨13, 105.6583745⟩ ⟨14, 0⟩ parent hp (by rw [hE]; norm_num)
    (by norm_num) (by norm_num) (by norm_num) (by rw [hE]; norm_num) (by norm_num) e (by rw [hE]; exact lo)
    (by rw [hE]; exact hi)
  rw [hE] at this
  exact this

/-- There are proper rotations: a quarter of a turn about the x axis, which takes the poles to the equator. -/
example : Turn (fun v => ⟨v.x, -v.z, v.y⟩) := by
  refine ⟨fun a b => ?_, fun k a => ?_, fun a => ?_⟩
  · ext <;> simp; ring
  · ext <;> simp
  · simp only; ring

end Proposal
