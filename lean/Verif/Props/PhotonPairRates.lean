import Verif.Props.PhotonPairs
import Verif.Props.MuonPairs

/-!
# C125: electron pairs by photons: lithium and beryllium, cross sections of Tsai and of Koch and Motz
-/

open MeasureTheory Filter Topology Set

namespace Proposal

/-! ## Lithium and beryllium -/

lemma middle_psi (Z a ap : ℝ) (hZ : 0 < Z) (ha : 0 < a) (hap : 0 < ap) (hlt : a < ap) :
    Tendsto (fun δ => (tsaiMiddle Z a ap δ).psi1 - 8 / 3 * Real.log Z - 4 * Real.log (ME / δ)) atTop (𝓝 (2 - 4 * (ap / a))) ∧
    Tendsto (fun δ => (tsaiMiddle Z a ap δ).psi2 - 8 / 3 * Real.log Z - 4 * Real.log (ME / δ)) atTop atTop := by
  have hme := me_pos'
  obtain ⟨t3, t4⟩ := middle_unscreened _ _ hap rfl
  have l2 : Real.log (ap ^ 2 * Z ^ (4 / 3 : ℝ) * ME ^ 2) = 2 * Real.log ap + 4 / 3 * Real.log Z + 2 * Real.log ME := by
    rw [Real.log_mul (by positivity) (by positivity), Real.log_mul (by positivity) (by positivity), Real.log_pow, Real.log_pow, Real.log_rpow hZ]
    norm_num
  simp only [tsaiMiddle, l2]
  constructor
  · have h1 := (tendsto_cArctan.comp (scale_atTop hap)).const_mul 4
    have h2 := (tendsto_cArctan.comp (scale_atTop ha)).const_mul (4 * (ap / a))
    have := (t3.add h1).sub h2
    rw [show (-2 : ℝ) + 4 * 1 - 4 * (ap / a) * 1 = 2 - 4 * (ap / a) by ring] at this
    refine this.congr' ?_
    filter_upwards [eventually_gt_atTop 0] with δ hδ
    simp only [Function.comp]
    rw [Real.log_div hme.ne' hδ.ne', show 4 * (ap / a) * (δ * a * Real.arctan (1 / (δ * a))) = 4 * (δ * ap) * Real.arctan (1 / (δ * a)) by
      field_simp]
    ring
  · have hk : 0 < 8 * (1 - a / ap) := by
      have : a / ap < 1 := (div_lt_one hap).mpr hlt
      linarith
    have h1 : Tendsto (fun δ : ℝ => (δ * ap) ^ 2 * (δ * ap * Real.arctan (1 / (δ * ap)))) atTop atTop :=
      ((tendsto_pow_atTop two_ne_zero).comp (scale_atTop hap)).atTop_mul_pos one_pos (tendsto_cArctan.comp (scale_atTop hap))
    have := (h1.const_mul_atTop hk).atTop_add t4
    refine this.congr' ?_
    filter_upwards [eventually_gt_atTop 0] with δ hδ
    rw [Real.log_div hme.ne' hδ.ne', show 8 * (1 - a / ap) * ((δ * ap) ^ 2 * (δ * ap * Real.arctan (1 / (δ * ap)))) =
      8 * (δ * ap) ^ 2 * ((δ * ap - δ * a) * Real.arctan (1 / (δ * ap))) by
        field_simp]
    norm_num
    ring

/-- Bounds of the inverse cube roots. -/
lemma cbrt_bounds {z lo hi : ℝ} (hz : 0 < z) (_ : 0 ≤ lo) (hhi : 0 ≤ hi) (h1 : lo ^ 3 * z ≤ 1) (h2 : 1 ≤ hi ^ 3 * z) :
    lo ≤ z ^ (-1 / 3 : ℝ) ∧ z ^ (-1 / 3 : ℝ) ≤ hi := by
  have hp := Real.rpow_pos_of_pos hz (-1 / 3)
  have e : (z ^ (-1 / 3 : ℝ)) ^ 3 * z = 1 := by
    rw [← Real.rpow_natCast, ← Real.rpow_mul hz.le]
    norm_num
    rw [Real.rpow_neg_one]
    field_simp
  constructor
  · by_contra h
    push Not at h
    have : (z ^ (-1 / 3 : ℝ)) ^ 3 < lo ^ 3 := by gcongr
    nlinarith
  · by_contra h
    push Not at h
    have : hi ^ 3 < (z ^ (-1 / 3 : ℝ)) ^ 3 := by gcongr
    nlinarith

lemma two_thirds {z : ℝ} (hz : 0 < z) : z ^ (-2 / 3 : ℝ) = (z ^ (-1 / 3 : ℝ)) ^ 2 := by
  rw [← Real.rpow_natCast, ← Real.rpow_mul hz.le]
  norm_num

/-- C125: the functions of the electrons of lithium and beryllium do not become those of Bethe and Heitler (`-2` in place of `c` and
of the divergence). -/
theorem C125_unscreened_middle (n : ℕ) (hn : n = 3 ∨ n = 4) : ∃ c, c < -9 ∧
    Tendsto (fun δ => (tsaiFunctions n δ).psi1 - 8 / 3 * Real.log n - 4 * Real.log (ME / δ)) atTop (𝓝 c) ∧
    Tendsto (fun δ => (tsaiFunctions n δ).psi2 - 8 / 3 * Real.log n - 4 * Real.log (ME / δ)) atTop atTop := by
  have hme := me_pos'
  rcases hn with rfl | rfl
  · have h3 := cbrt_bounds (z := ((3 : ℕ) : ℝ)) (lo := 0.693) (hi := 0.694) (by norm_num) (by norm_num) (by norm_num) (by norm_num) (by norm_num)
    have hz := Real.rpow_pos_of_pos (show (0 : ℝ) < ((3 : ℕ) : ℝ) by norm_num) (-1 / 3)
    have e := two_thirds (show (0 : ℝ) < ((3 : ℕ) : ℝ) by norm_num)
    have hf : ∀ δ, tsaiFunctions (3 : ℕ) δ = tsaiMiddle (3 : ℕ) (100 * ((3 : ℕ) : ℝ) ^ (-1 / 3 : ℝ) / ME) (418.6 * ((3 : ℕ) : ℝ) ^ (-2 / 3 : ℝ) / ME) δ := by
      intro δ
      unfold tsaiFunctions
      norm_num
    simp only [hf, e]
    set t := ((3 : ℕ) : ℝ) ^ (-1 / 3 : ℝ) with ht
    obtain ⟨p1, p2⟩ := middle_psi (3 : ℕ) (100 * t / ME) (418.6 * t ^ 2 / ME) (by norm_num) (by positivity) (by positivity) (by
      apply div_lt_div_of_pos_right _ hme
      nlinarith [h3.1])
    refine ⟨_, ?_, p1, p2⟩
    have : 418.6 * t ^ 2 / ME / (100 * t / ME) = 4.186 * t := by
      field_simp
      norm_num
    rw [this]
    linarith [h3.1]
  · have h3 := cbrt_bounds (z := ((4 : ℕ) : ℝ)) (lo := 0.629) (hi := 0.63) (by norm_num) (by norm_num) (by norm_num) (by norm_num) (by norm_num)
    have hz := Real.rpow_pos_of_pos (show (0 : ℝ) < ((4 : ℕ) : ℝ) by norm_num) (-1 / 3)
    have e := two_thirds (show (0 : ℝ) < ((4 : ℕ) : ℝ) by norm_num)
    have hf : ∀ δ, tsaiFunctions (4 : ℕ) δ = tsaiMiddle (4 : ℕ) (106 * ((4 : ℕ) : ℝ) ^ (-1 / 3 : ℝ) / ME) (571.4 * ((4 : ℕ) : ℝ) ^ (-2 / 3 : ℝ) / ME) δ := by
      intro δ
      unfold tsaiFunctions
      norm_num
    simp only [hf, e]
    set t := ((4 : ℕ) : ℝ) ^ (-1 / 3 : ℝ) with ht
    obtain ⟨p1, p2⟩ := middle_psi (4 : ℕ) (106 * t / ME) (571.4 * t ^ 2 / ME) (by norm_num) (by positivity) (by positivity) (by
      apply div_lt_div_of_pos_right _ hme
      nlinarith [h3.1])
    refine ⟨_, ?_, p1, p2⟩
    have : 571.4 * t ^ 2 / ME / (106 * t / ME) = 571.4 / 106 * t := by
      field_simp
    rw [this]
    linarith [h3.1]

/-! ## The cross section of Tsai -/

/-- The cross section per gram of an electron taking the fraction `x` of the energy `E`, for structure functions `F` and a Coulomb
correction `f`, before negative values are cut off. -/
noncomputable def Spec.pairRate (F : TsaiFunctions) (f Z A E x : ℝ) : ℝ :=
  NAvogadro / A * (ALPHA * RE ^ 2 * (x * E / Real.sqrt ((x * E) ^ 2 - ME ^ 2)) *
    ((1 - 4 / 3 * x * (1 - x)) * (Z ^ 2 * (F.phi1 - 4 / 3 * Real.log Z - 4 * f) + Z * (F.psi1 - 8 / 3 * Real.log Z)) -
      2 / 3 * x * (1 - x) * (Z ^ 2 * (F.phi1 - F.phi2) + Z * (F.psi1 - F.psi2))))

lemma tsai_some (lpm : Option (ℝ → ℝ → ℝ)) (c : Component) (E x : ℝ) (hE : 0 < E) (hx : ME < x * E) (h1 : x < 1) :
    photoPairTsai lpm c E x = some (max (Spec.pairRate (tsaiFunctions c.nucCharge (ME ^ 2 / (2 * E * x * (1 - x)))) (tsaiCoulomb c.nucCharge)
      c.nucCharge c.atomicNum E x * (match lpm with
        | some s => s E x
        | none => 1)) 0) := by
  have hme := me_pos'
  have hx0 : 0 < x := by
    by_contra h
    push Not at h
    nlinarith
  unfold photoPairTsai Spec.pairRate
  rw [if_neg (by
    push Not
    constructor
    · gcongr
    · exact (mul_pos (mul_pos hE hx0) (by linarith)).ne')]
  have hp : 0 < Real.sqrt ((x * E) ^ 2 - ME ^ 2) := by
    apply Real.sqrt_pos.mpr
    nlinarith
  cases lpm <;> simp only <;> field_simp <;> ring_nf

/-- C125: at the lower kinematic limit, with the electron at rest, there is no value. -/
theorem C125_tsai_edge (lpm : Option (ℝ → ℝ → ℝ)) (c : Component) (E : ℝ) (hE : 2 * ME < E) :
    photoPairTsai lpm c E (limPhotoPair E).vMin = none ∧ ∀ x, (limPhotoPair E).vMin < x → x ≤ (limPhotoPair E).vMax →
      ∃ s, photoPairTsai lpm c E x = some s ∧ 0 ≤ s := by
  have hme := me_pos'
  have hE0 : 0 < E := by linarith
  have hl : limPhotoPair E = ⟨ME / E, 1 - ME / E⟩ := by
    unfold limPhotoPair
    rw [if_neg (by linarith)]
  rw [hl]
  constructor
  · unfold photoPairTsai
    simp only
    rw [if_pos]
    left
    rw [div_mul_cancel₀ _ hE0.ne']
  · intro x h1 h2
    simp only at h1 h2
    have hx : ME < x * E := by rwa [div_lt_iff₀ hE0] at h1
    have : 0 < ME / E := by positivity
    exact ⟨_, tsai_some lpm c E x hE0 hx (by linarith), le_max_right _ _⟩

example : (2 * ME : ℝ) < 10 := by norm_num [ME]

lemma slow_preferred {a b m : ℝ} (hm : 0 < m) (ha : m < a) (hab : a < b) :
    b / Real.sqrt (b ^ 2 - m ^ 2) < a / Real.sqrt (a ^ 2 - m ^ 2) := by
  have h1 : 0 < a ^ 2 - m ^ 2 := by nlinarith
  have h2 : 0 < b ^ 2 - m ^ 2 := by nlinarith
  have hp := Real.sqrt_pos.mpr h1
  have hp' := Real.sqrt_pos.mpr h2
  have ha0 : 0 < a := hm.trans ha
  rw [div_lt_div_iff₀ hp' hp]
  apply lt_of_pow_lt_pow_left₀ 2 (by positivity)
  rw [mul_pow, mul_pow, Real.sq_sqrt h1.le, Real.sq_sqrt h2.le]
  have : a ^ 2 < b ^ 2 := by gcongr
  have := mul_lt_mul_of_pos_left this (show 0 < m ^ 2 by positivity)
  linarith

/-- C125: the electron and the positron do not share alike: of two complementary fractions the smaller one is more likely. -/
theorem C125_asymmetric (c : Component) (E x s : ℝ) (hE : 0 < E) (hx : ME < x * E) (h : x < 1 / 2) (hs : photoPairTsai none c E x = some s) (hs0 : 0 < s) :
    ∃ s', photoPairTsai none c E (1 - x) = some s' ∧ s' < s := by
  have hme := me_pos'
  have hx0 : 0 < x := by
    by_contra h'
    push Not at h'
    nlinarith
  have hx' : ME < (1 - x) * E := by nlinarith
  rw [tsai_some none c E x hE hx (by linarith), Option.some_inj, mul_one] at hs
  have hpos : 0 < Spec.pairRate (tsaiFunctions c.nucCharge (ME ^ 2 / (2 * E * x * (1 - x)))) (tsaiCoulomb c.nucCharge)
      c.nucCharge c.atomicNum E x := by
    rw [← hs] at hs0
    rcases lt_max_iff.mp hs0 with h' | h'
    · exact h'
    · exact absurd h' (lt_irrefl _)
  rw [max_eq_left hpos.le] at hs
  refine ⟨_, tsai_some none c E (1 - x) hE hx' (by linarith), ?_⟩
  rw [mul_one, show 2 * E * (1 - x) * (1 - (1 - x)) = 2 * E * x * (1 - x) by ring]
  refine max_lt ?_ hs0
  rw [← hs]
  set F := tsaiFunctions c.nucCharge (ME ^ 2 / (2 * E * x * (1 - x)))
  set B := NAvogadro / c.atomicNum * (ALPHA * RE ^ 2 * 
    ((1 - 4 / 3 * x * (1 - x)) * (c.nucCharge ^ 2 * (F.phi1 - 4 / 3 * Real.log c.nucCharge - 4 * tsaiCoulomb c.nucCharge) + c.nucCharge * (F.psi1 - 8 / 3 * Real.log c.nucCharge)) -
      2 / 3 * x * (1 - x) * (c.nucCharge ^ 2 * (F.phi1 - F.phi2) + c.nucCharge * (F.psi1 - F.psi2)))) with hB
  have e1 : Spec.pairRate F (tsaiCoulomb c.nucCharge) c.nucCharge c.atomicNum E x = B * (x * E / Real.sqrt ((x * E) ^ 2 - ME ^ 2)) := by
    rw [hB, Spec.pairRate]
    ring
  have e2 : Spec.pairRate F (tsaiCoulomb c.nucCharge) c.nucCharge c.atomicNum E (1 - x) = B * ((1 - x) * E / Real.sqrt (((1 - x) * E) ^ 2 - ME ^ 2)) := by
    rw [hB, Spec.pairRate]
    ring
  have hr : 0 < x * E / Real.sqrt ((x * E) ^ 2 - ME ^ 2) := by
    apply div_pos (by positivity)
    apply Real.sqrt_pos.mpr
    nlinarith
  have hBpos : 0 < B := by
    rw [e1] at hpos
    exact pos_of_mul_pos_left hpos hr.le
  rw [e1, e2]
  apply mul_lt_mul_of_pos_left _ hBpos
  apply slow_preferred hme hx
  nlinarith

/-- C125: at high energies, without suppression in the medium, the cross section tends to the one of complete screening,
`4 α rₑ² [(1 - 4/3 x(1-x)) (Z² (L - f) + Z L') - x(1-x) (Z² + Z)/9]`, for every element and every share, with the radiation logarithms
within 0.01. -/
theorem C125_high_energy (n : ℕ) (hn : 1 ≤ n) (c : Component) (hc : c.nucCharge = n) : ∃ L L' : ℝ,
    |L - (radiationLogs n).1| ≤ 0.01 ∧ |L' - (radiationLogs n).2| ≤ 0.01 ∧ ∀ x, 0 < x → x < 1 → ∃ σ : ℝ → ℝ,
      (∀ᶠ E in atTop, photoPairTsai none c E x = some (σ E)) ∧
      Tendsto σ atTop (𝓝 (max (NAvogadro / c.atomicNum * (4 * ALPHA * RE ^ 2 *
        ((1 - 4 / 3 * x * (1 - x)) * (n ^ 2 * (L - tsaiCoulomb n) + n * L') - x * (1 - x) * (n ^ 2 + n) / 9))) 0)) := by
  have hme := me_pos'
  obtain ⟨L, L', h1, h2, t1, t2, t3, t4⟩ := C125_screened n hn
  refine ⟨L, L', h1, h2, fun x hx0 hx1 => ⟨fun E => max (Spec.pairRate (tsaiFunctions n (ME ^ 2 / (2 * E * x * (1 - x)))) (tsaiCoulomb n)
      n c.atomicNum E x) 0, ?_, ?_⟩⟩
  · filter_upwards [eventually_gt_atTop 0, eventually_gt_atTop (ME / x)] with E hE hE'
    have hx : ME < x * E := by rwa [div_lt_iff₀ hx0, mul_comm] at hE'
    rw [tsai_some none c E x hE hx hx1, hc, mul_one]
  · refine Tendsto.max ?_ tendsto_const_nhds
    have hk : 0 < ME ^ 2 / (2 * x * (1 - x)) := div_pos (by positivity) (mul_pos (by positivity) (by linarith))
    have hδ : Tendsto (fun E : ℝ => ME ^ 2 / (2 * E * x * (1 - x))) atTop (𝓝[>] 0) := by
      apply tendsto_nhdsWithin_of_tendsto_nhds_of_eventually_within
      · have := (tendsto_inv_atTop_zero (𝕜 := ℝ)).const_mul (ME ^ 2 / (2 * x * (1 - x)))
        rw [mul_zero] at this
        refine this.congr fun E => ?_
        rw [← div_eq_mul_inv, div_div]
        congr 1
        ring
      · filter_upwards [eventually_gt_atTop 0] with E hE
        show (0 : ℝ) < _
        exact div_pos (by positivity) (mul_pos (by positivity) (by linarith))
    have u1 := t1.comp hδ
    have u2 := t2.comp hδ
    have u3 := t3.comp hδ
    have u4 := t4.comp hδ
    have hp : Tendsto (fun E : ℝ => x * E / Real.sqrt ((x * E) ^ 2 - ME ^ 2)) atTop (𝓝 1) := by
      have a1 : Tendsto (fun E : ℝ => (ME / x) * E⁻¹) atTop (𝓝 0) := by
        have := (tendsto_inv_atTop_zero (𝕜 := ℝ)).const_mul (ME / x)
        simpa using this
      have a2 := (((a1.pow 2).const_sub 1).sqrt).inv₀ (by norm_num)
      norm_num at a2
      refine a2.congr' ?_
      filter_upwards [eventually_gt_atTop 0, eventually_gt_atTop (ME / x)] with E hE hE'
      have e : (x * E) ^ 2 - ME ^ 2 = (x * E) ^ 2 * (1 - (ME / x * E⁻¹) ^ 2) := by
        field_simp
      rw [e, Real.sqrt_mul (by positivity), Real.sqrt_sq (by positivity), ← div_div, div_self (by positivity), one_div]
    have := (hp.const_mul (ALPHA * RE ^ 2)).mul
      ((((u1.sub_const (4 * tsaiCoulomb n)).const_mul ((n : ℝ) ^ 2)).add (u3.const_mul (n : ℝ))).const_mul (1 - 4 / 3 * x * (1 - x)) |>.sub
        ((((u1.sub u2).const_mul ((n : ℝ) ^ 2)).add ((u3.sub u4).const_mul (n : ℝ))).const_mul (2 / 3 * x * (1 - x))))
    have := this.const_mul (NAvogadro / c.atomicNum)
    refine (this.congr fun E => ?_).trans (le_of_eq ?_)
    · simp only [Function.comp, Spec.pairRate]
      ring
    · congr 1
      ring

/-- Oxygen is covered, and photons of some energy show the asymmetry. -/
example : ∃ E s : ℝ, 0 < E ∧ ME < 1 / 4 * E ∧ photoPairTsai none exOx E (1 / 4) = some s ∧ 0 < s := by
  obtain ⟨L, L', h1, h2, h⟩ := C125_high_energy 8 (by norm_num) exOx (by norm_num [exOx])
  obtain ⟨σ, hσ, ht⟩ := h (1 / 4) (by norm_num) (by norm_num)
  have hfl : ⌊((8 : ℕ) : ℝ) + 0.5⌋ = 8 := by
    rw [Int.floor_eq_iff]
    norm_num
  have e8 : ((8 : ℕ) : ℝ) ^ (-1 / 3 : ℝ) = 1 / 2 := by
    rw [show ((8 : ℕ) : ℝ) = (2 : ℝ) ^ (3 : ℝ) by norm_num, ← Real.rpow_mul (by norm_num)]
    norm_num
  have hr : radiationLogs (8 : ℕ) = (Real.log (184.15 * (1 / 2)), Real.log (1194 * (1 / 2) * (1 / 2))) := by
    rw [radiationLogs, hfl]
    simp only [e8]
  rw [hr] at h1 h2
  have b1 : 4 < Real.log (184.15 * (1 / 2)) := by
    rw [Real.lt_log_iff_exp_lt (by norm_num), show (4 : ℝ) = (4 : ℕ) * 1 by norm_num, Real.exp_nat_mul]
    have := Real.exp_one_lt_d9
    calc Real.exp 1 ^ 4 < 2.7182818286 ^ 4 := by gcongr
      _ < _ := by norm_num
  have b2 : 5 < Real.log (1194 * (1 / 2) * (1 / 2)) := by
    rw [Real.lt_log_iff_exp_lt (by norm_num), show (5 : ℝ) = (5 : ℕ) * 1 by norm_num, Real.exp_nat_mul]
    have := Real.exp_one_lt_d9
    calc Real.exp 1 ^ 5 < 2.7182818286 ^ 5 := by gcongr
      _ < _ := by norm_num
  rw [abs_le] at h1 h2
  have hf : tsaiCoulomb (8 : ℕ) < 1 := by norm_num [tsaiCoulomb]
  have hpos : 0 < max (NAvogadro / exOx.atomicNum * (4 * ALPHA * RE ^ 2 * ((1 - 4 / 3 * (1 / 4) * (1 - 1 / 4)) *
      (((8 : ℕ) : ℝ) ^ 2 * (L - tsaiCoulomb (8 : ℕ)) + (8 : ℕ) * L') - 1 / 4 * (1 - 1 / 4) * (((8 : ℕ) : ℝ) ^ 2 + (8 : ℕ)) / 9))) 0 := by
    apply lt_max_of_lt_left
    have := na_pos'
    have := alpha_pos'
    have := re_pos'
    have hA : (0 : ℝ) < exOx.atomicNum := by norm_num [exOx]
    apply mul_pos (by positivity)
    apply mul_pos (by positivity)
    have g1 : 3.9 < L := by linarith [h1.1]
    have g2 : 4.9 < L' := by linarith [h2.1]
    set f := tsaiCoulomb ((8 : ℕ) : ℝ)
    norm_num at g1 g2 ⊢
    linarith
  have h3 := ht.eventually (lt_mem_nhds hpos)
  obtain ⟨E, hE, hE', hE1, hE2⟩ := (h3.and (hσ.and ((eventually_gt_atTop (0 : ℝ)).and (eventually_gt_atTop (4 * ME))))).exists
  exact ⟨E, σ E, hE1, by linarith, hE', hE⟩

lemma lithium_logs {b bp : ℝ} (hb1 : 34.65 ≤ b) (hb2 : b ≤ 34.67) (hp1 : 100.5 ≤ bp) (hp2 : bp ≤ 100.7) :
    7 ≤ Real.log (1 + b ^ 2) ∧ Real.log (1 + b ^ 2) ≤ 7.15 ∧ 9.1 ≤ Real.log (1 + bp ^ 2) ∧ Real.log (1 + bp ^ 2) ≤ 9.3 := by
  have q1 := log_by_power (x := 1200) (lo := 7) (hi := 7.15) 1 7 (by norm_num) (by norm_num) (by norm_num) (by norm_num)
  have q2 := log_by_power (x := 1210) (lo := 7) (hi := 7.15) 1 7 (by norm_num) (by norm_num) (by norm_num) (by norm_num)
  have q3 := log_by_power (x := 10000) (lo := 9.1) (hi := 9.3) 1 9 (by norm_num) (by norm_num) (by norm_num) (by norm_num)
  have q4 := log_by_power (x := 10200) (lo := 9) (hi := 9.3) 1 9 (by norm_num) (by norm_num) (by norm_num) (by norm_num)
  refine ⟨q1.1.trans (Real.log_le_log (by norm_num) (by nlinarith)), le_trans (Real.log_le_log (by positivity) (by nlinarith)) q2.2,
    q3.1.trans (Real.log_le_log (by norm_num) (by nlinarith)), le_trans (Real.log_le_log (by positivity) (by nlinarith)) q4.2⟩

lemma inv_one_add_ge {u : ℝ} (h0 : 0 ≤ u) (h : u ≤ 0.01) : 0.99 ≤ 1 / (1 + u) := by
  rw [le_div_iff₀ (by linarith)]
  nlinarith

lemma inv_sq_small {u : ℝ} (h : 10 ≤ u) : 1 / u ^ 2 ≤ 0.01 := by
  rw [div_le_iff₀ (by positivity)]
  nlinarith

lemma lithium_numbers {b bp : ℝ} (hb1 : 34.65 ≤ b) (hb2 : b ≤ 34.67) (hp1 : 100.5 ≤ bp) (hp2 : bp ≤ 100.7) (φ1 φ2 ψ1 ψ2 χ1 χ2 S C f : ℝ)
    (h1 : φ1 = 2 * (1 + 2 * Real.log 100) - 2 * Real.log (1 + b ^ 2) - 4 * (b * Real.arctan (1 / b)))
    (h2 : φ2 = 2 * (2 / 3 + 2 * Real.log 100) - 2 * Real.log (1 + b ^ 2) + 8 * (b ^ 2 * (1 - b * Real.arctan (1 / b))) - 6 * (b ^ 2 * Real.log (1 + (b ^ 2)⁻¹)))
    (h3 : ψ1 = 2 * (1 + 2 * Real.log 418.6) - 2 * Real.log (1 + bp ^ 2) - 4 * (bp * Real.arctan (1 / bp)))
    (h4 : ψ2 = 2 * (2 / 3 + 2 * Real.log 418.6) - 2 * Real.log (1 + bp ^ 2) + 8 * (bp ^ 2 * (1 - bp * Real.arctan (1 / bp))) - 6 * (bp ^ 2 * Real.log (1 + (bp ^ 2)⁻¹)))
    (h5 : χ1 = ψ1 + 4 * (bp * Real.arctan (1 / bp)) - 4 * bp * Real.arctan (1 / b))
    (h6 : χ2 = ψ2 + 8 * bp * (bp - b) * (bp * Real.arctan (1 / bp)))
    (hS : S = 4.5 * φ1 + 1.5 * φ2 + 1.5 * ψ1 + 0.5 * ψ2 - 40 / 3 * Real.log 3 - 24 * f)
    (hC : C = 4.5 * φ1 + 1.5 * φ2 + 1.5 * χ1 + 0.5 * χ2 - 40 / 3 * Real.log 3 - 24 * f) (hf0 : 0 ≤ f) (hf1 : f ≤ 0.01) :
    |S| ≤ 25 ∧ 25500 ≤ C := by
  have hb0 : 0 < b := by linarith
  have hp0 : 0 < bp := by linarith
  have l100 := log_by_power (x := 100) (lo := 4.605) (hi := 4.606) 5 23 (by norm_num) (by norm_num) (by norm_num) (by norm_num)
  have l418 := log_by_power (x := 418.6) (lo := 6.036) (hi := 6.038) 1 6 (by norm_num) (by norm_num) (by norm_num) (by norm_num)
  have l3 := log_by_power (x := 3) (lo := 1.0985) (hi := 1.0987) 10 11 (by norm_num) (by norm_num) (by norm_num) (by norm_num)
  obtain ⟨lb1, lb2, lp1, lp2⟩ := lithium_logs hb1 hb2 hp1 hp2
  have c1 := cArctan_bounds hb0
  have c2 := cArctan_bounds hp0
  have d1 := c2Arctan_bounds hb0
  have d2 := c2Arctan_bounds hp0
  have f1 := c2log_bounds hb0
  have f2 := c2log_bounds hp0
  have i1 : 1 / b ^ 2 ≤ 0.01 := inv_sq_small (by linarith)
  have i2 : 1 / bp ^ 2 ≤ 0.01 := inv_sq_small (by linarith)
  have j1 := (inv_one_add_ge (by positivity) i1).trans f1.1
  have j2 := (inv_one_add_ge (by positivity) i2).trans f2.1
  have k1 : bp * Real.arctan (1 / b) ≤ 3 := by
    have h := arctan_le_self (x := 1 / b) (by positivity)
    calc bp * Real.arctan (1 / b) ≤ 100.7 * (1 / 34.65) := by gcongr; exact h.trans (by gcongr)
      _ ≤ 3 := by norm_num
  have hSb : |S| ≤ 25 := by
    have g1 : 2 ≤ φ1 ∧ φ1 ≤ 3 := by
      clear * - h1 l100 lb1 lb2 c1 i1
      obtain ⟨q1, q2⟩ := l100
      obtain ⟨q3, q4⟩ := c1
      constructor <;> linarith
    have g2 : 2 ≤ φ2 ∧ φ2 ≤ 3 := by
      clear * - h2 l100 lb1 lb2 d1 j1 f1 i1
      obtain ⟨q1, q2⟩ := l100
      obtain ⟨q3, q4⟩ := d1
      have q5 := f1.2
      clear f1
      constructor <;> linarith
    have g3 : 3 ≤ ψ1 ∧ ψ1 ≤ 5 := by
      clear * - h3 l418 lp1 lp2 c2 i2
      obtain ⟨q1, q2⟩ := l418
      obtain ⟨q3, q4⟩ := c2
      constructor <;> linarith
    have g4 : 3 ≤ ψ2 ∧ ψ2 ≤ 5 := by
      clear * - h4 l418 lp1 lp2 d2 j2 f2 i2
      obtain ⟨q1, q2⟩ := l418
      obtain ⟨q3, q4⟩ := d2
      have q5 := f2.2
      clear f2
      constructor <;> linarith
    clear * - g1 g2 g3 g4 hS l3 hf0 hf1
    rw [abs_le]
    obtain ⟨q1, q2⟩ := l3
    constructor <;> linarith [g1.1, g1.2, g2.1, g2.2, g3.1, g3.2, g4.1, g4.2]
  refine ⟨hSb, ?_⟩
  rw [abs_le] at hSb
  have hq : 6500 ≤ bp * (bp - b) := by
    clear * - hb1 hb2 hp1 hp2
    nlinarith
  have hx : 0.99 ≤ bp * Real.arctan (1 / bp) := by linarith [c2.1]
  have hm : 6500 * 0.99 ≤ bp * (bp - b) * (bp * Real.arctan (1 / bp)) := by gcongr
  have e : C = S + 6 * (bp * Real.arctan (1 / bp)) - 6 * (bp * Real.arctan (1 / b)) + 4 * (bp * (bp - b) * (bp * Real.arctan (1 / bp))) := by
    rw [hC, hS, h5, h6]
    ring
  have hS1 := hSb.1
  clear * - e hS1 hm hx k1
  linarith

/-- C125: in lithium, at four electron masses and with equal shares, the cross section is more than a thousand times the one of the
formula. -/
theorem C125_lithium (c : Component) (hZ : c.nucCharge = 3) (hA : 0 < c.atomicNum) : ∃ s, photoPairTsai none c (4 * ME) (1 / 2) = some s ∧
    1000 * |Spec.pairRate (Spec.tsai 3 (ME ^ 2 / (2 * (4 * ME) * (1 / 2) * (1 - 1 / 2)))) (tsaiCoulomb 3) 3 c.atomicNum (4 * ME) (1 / 2)| < s := by
  have hme := me_pos'
  have hna := na_pos'
  have hal := alpha_pos'
  have hre := re_pos'
  refine ⟨_, tsai_some none c (4 * ME) (1 / 2) (by positivity) (by linarith) (by norm_num), ?_⟩
  rw [hZ, mul_one]
  have hδ : ME ^ 2 / (2 * (4 * ME) * (1 / 2) * (1 - 1 / 2)) = ME / 2 := by
    field_simp
    norm_num
  rw [hδ]
  have h3 := cbrt_bounds (z := (3 : ℝ)) (lo := 0.693) (hi := 0.6934) (by norm_num) (by norm_num) (by norm_num) (by norm_num) (by norm_num)
  have e23 := two_thirds (show (0 : ℝ) < 3 by norm_num)
  set t := (3 : ℝ) ^ (-1 / 3 : ℝ) with ht
  have ht0 : 0 < t := by linarith [h3.1]
  have ht3 : t ^ 3 = 1 / 3 := by
    rw [ht, ← Real.rpow_natCast, ← Real.rpow_mul (by norm_num)]
    norm_num
  have z1 : (3 : ℝ) ^ (2 / 3 : ℝ) = 3 * t := by
    rw [ht, show (2 / 3 : ℝ) = 1 + (-1 / 3) by norm_num, Real.rpow_add (by norm_num), Real.rpow_one]
  have z2 : (3 : ℝ) ^ (4 / 3 : ℝ) = 9 * t ^ 2 := by
    rw [← e23, show (4 / 3 : ℝ) = 2 + (-2 / 3) by norm_num, Real.rpow_add (by norm_num)]
    norm_num
  set b := 50 * t with hb
  set bp := 209.3 * t ^ 2 with hbp
  have hF : tsaiFunctions 3 (ME / 2) = tsaiMiddle 3 (100 * t / ME) (418.6 * t ^ 2 / ME) (ME / 2) := by
    unfold tsaiFunctions
    rw [if_neg (by norm_num), if_pos (by norm_num), if_pos (by norm_num), e23]
  have eb : ME / 2 * (100 * t / ME) = b := by
    rw [hb]
    field_simp
    norm_num
  have ebp : ME / 2 * (418.6 * t ^ 2 / ME) = bp := by
    rw [hbp]
    field_simp
    norm_num
  have lg1 : (100 * t / ME) ^ 2 * (3 : ℝ) ^ (2 / 3 : ℝ) * ME ^ 2 = 100 ^ 2 := by
    rw [z1]
    have : (100 * t / ME) ^ 2 * (3 * t) * ME ^ 2 = 30000 * t ^ 3 := by
      field_simp
      ring
    rw [this, ht3]
    norm_num
  have lg2 : (418.6 * t ^ 2 / ME) ^ 2 * (3 : ℝ) ^ (4 / 3 : ℝ) * ME ^ 2 = 418.6 ^ 2 := by
    rw [z2]
    have : (418.6 * t ^ 2 / ME) ^ 2 * (9 * t ^ 2) * ME ^ 2 = 418.6 ^ 2 * 9 * (t ^ 3) ^ 2 := by
      field_simp
    rw [this, ht3]
    norm_num
  have hb1 : 34.65 ≤ b := by rw [hb]; linarith [h3.1]
  have hb2 : b ≤ 34.67 := by rw [hb]; linarith [h3.2]
  have hp1 : 100.5 ≤ bp := by rw [hbp]; nlinarith [h3.1]
  have hp2 : bp ≤ 100.7 := by rw [hbp]; nlinarith [h3.2, h3.1]
  have hb0 : 0 < b := by linarith
  have hp0 : 0 < bp := by linarith
  have hf0 : 0 ≤ tsaiCoulomb 3 := by norm_num [tsaiCoulomb]
  have hf1 : tsaiCoulomb 3 ≤ 0.01 := by norm_num [tsaiCoulomb]
  have hT : tsaiMiddle 3 (100 * t / ME) (418.6 * t ^ 2 / ME) (ME / 2) =
      { phi1 := 2 * (1 + 2 * Real.log 100) - 2 * Real.log (1 + b ^ 2) - 4 * (b * Real.arctan (1 / b))
        phi2 := 2 * (2 / 3 + 2 * Real.log 100) - 2 * Real.log (1 + b ^ 2) + 8 * (b ^ 2 * (1 - b * Real.arctan (1 / b))) - 6 * (b ^ 2 * Real.log (1 + (b ^ 2)⁻¹))
        psi1 := 2 * (1 + 2 * Real.log 418.6) - 2 * Real.log (1 + bp ^ 2) - 4 * (bp * Real.arctan (1 / b))
        psi2 := 2 * (2 / 3 + 2 * Real.log 418.6) - 2 * Real.log (1 + bp ^ 2) + 8 * (bp ^ 2 * (1 - b * Real.arctan (1 / bp))) - 6 * (bp ^ 2 * Real.log (1 + (bp ^ 2)⁻¹)) } := by
    unfold tsaiMiddle
    simp only [eb, ebp, lg1, lg2, Real.log_pow]
    congr 1 <;> push_cast <;> ring
  have hU : Spec.tsai 3 (ME / 2) =
      { phi1 := 2 * (1 + 2 * Real.log 100) - 2 * Real.log (1 + b ^ 2) - 4 * (b * Real.arctan (1 / b))
        phi2 := 2 * (2 / 3 + 2 * Real.log 100) - 2 * Real.log (1 + b ^ 2) + 8 * (b ^ 2 * (1 - b * Real.arctan (1 / b))) - 6 * (b ^ 2 * Real.log (1 + (b ^ 2)⁻¹))
        psi1 := 2 * (1 + 2 * Real.log 418.6) - 2 * Real.log (1 + bp ^ 2) - 4 * (bp * Real.arctan (1 / bp))
        psi2 := 2 * (2 / 3 + 2 * Real.log 418.6) - 2 * Real.log (1 + bp ^ 2) + 8 * (bp ^ 2 * (1 - bp * Real.arctan (1 / bp))) - 6 * (bp ^ 2 * Real.log (1 + (bp ^ 2)⁻¹)) } := by
    unfold Spec.tsai
    rw [hF, hT]
    simp only [if_neg (show ¬ (3 : ℝ) ≤ 2.5 by norm_num), if_pos (show (3 : ℝ) ≤ 4.5 by norm_num), if_pos (show (3 : ℝ) ≤ 3.5 by norm_num), e23,
      ebp, lg2, Real.log_pow]
    congr 1 <;> push_cast <;> ring
  rw [hF, hT, hU]
  have hp : 0 < Real.sqrt ((1 / 2 * (4 * ME)) ^ 2 - ME ^ 2) := by
    apply Real.sqrt_pos.mpr
    nlinarith
  set P := NAvogadro / c.atomicNum * (ALPHA * RE ^ 2 * (1 / 2 * (4 * ME) / Real.sqrt ((1 / 2 * (4 * ME)) ^ 2 - ME ^ 2))) with hP
  have hP0 : 0 < P := by positivity
  obtain ⟨g1, g2⟩ := lithium_numbers hb1 hb2 hp1 hp2 _ _ _ _ _ _ _ _ _ rfl rfl rfl rfl rfl rfl rfl rfl hf0 hf1
  unfold Spec.pairRate
  simp only
  refine lt_max_of_lt_left ?_
  refine lt_of_le_of_lt (b := P * (1000 * 25)) ?_ (lt_of_lt_of_le (b := P * 25500) (mul_lt_mul_of_pos_left (by norm_num) hP0) ?_)
  · rw [show ∀ u : ℝ, P * (1000 * u) = 1000 * (P * u) from fun u => by ring]
    apply mul_le_mul_of_nonneg_left _ (by norm_num)
    refine le_trans (le_of_eq ?_) (mul_le_mul_of_nonneg_left g1 hP0.le)
    rw [show ∀ y, P * |y| = |P * y| from fun y => by rw [abs_mul, abs_of_pos hP0]]
    congr 1
    rw [hP]
    ring
  · refine le_trans (mul_le_mul_of_nonneg_left g2 hP0.le) (le_of_eq ?_)
    rw [hP]
    ring

example : Spec.IsAtom ⟨[], 3, 6.94, 1, 0, 0, 938.9, 3, 0⟩ := by
  constructor <;> norm_num

/-! ## Koch and Motz -/

/-- C125: with the functions of Butcher and Messel the electron and the positron share alike (without suppression in the medium). -/
theorem C125_koch_motz_symmetric (table : ℝ → ℝ → ℝ) (integral : (ℝ → ℝ) → ℝ → ℝ → ℝ) (c : Component) (E v : ℝ) :
    kochMotz table integral none c E (1 - v) = kochMotz table integral none c E v := by
  have h : kochMotzWithoutA none c E (1 - v) = kochMotzWithoutA none c E v := by
    unfold kochMotzWithoutA
    rw [show 2 * E * (1 - v) * (1 - (1 - v)) = 2 * E * v * (1 - v) by ring, show 2 * (1 - v) * (1 - v) - 2 * (1 - v) + 1 = 2 * v * v - 2 * v + 1 by ring,
      show 2 / 3 * (1 - v) * (1 - (1 - v)) = 2 / 3 * v * (1 - v) by ring]
  unfold kochMotz
  simp only [h]

/-- C125: up to 50 MeV the integral over the shares is the total cross section of the table, given in barn. -/
theorem C125_koch_motz_normalized (table : ℝ → ℝ → ℝ) (lpm : Option (ℝ → ℝ → ℝ)) (c : Component) (hA : 0 < c.atomicNum) (E : ℝ) (hE : E ≤ 50)
    (h : (∫ v in (limPhotoPair E).vMin..(limPhotoPair E).vMax, kochMotzWithoutA lpm c E v) ≠ 0) :
    ∃ σ : ℝ → ℝ, (∀ v, kochMotz table (fun f a b => ∫ x in a..b, f x) lpm c E v = some (σ v)) ∧
      (∫ v in (limPhotoPair E).vMin..(limPhotoPair E).vMax, σ v) = table c.nucCharge E * 1e-24 * (NAvogadro / c.atomicNum) := by
  have hna := na_pos'
  have e : (∫ v in (limPhotoPair E).vMin..(limPhotoPair E).vMax, kochMotzWithoutA lpm c E v / NAvogadro * c.atomicNum / 1e-24) =
      (∫ v in (limPhotoPair E).vMin..(limPhotoPair E).vMax, kochMotzWithoutA lpm c E v) * (c.atomicNum / NAvogadro / 1e-24) := by
    rw [← intervalIntegral.integral_mul_const]
    congr 1
    funext v
    ring
  refine ⟨_, fun v => by
    unfold kochMotz
    rw [if_neg (by linarith), if_neg (by
      show ¬ (∫ v in (limPhotoPair E).vMin..(limPhotoPair E).vMax, kochMotzWithoutA lpm c E v / NAvogadro * c.atomicNum / 1e-24) = 0
      rw [e]
      exact mul_ne_zero h (by positivity))], ?_⟩
  simp only
  rw [intervalIntegral.integral_const_mul, e]
  field_simp

/-- The inner logarithm of the functions at large arguments. -/
lemma butcher_large {x : ℝ} (hx : 1 < x) : butcherMessel x = (21.12 - 4.184 * Real.log (x + 0.952), 21.12 - 4.184 * Real.log (x + 0.952)) := by
  unfold butcherMessel
  rw [if_neg (by linarith)]

/-- The sign of the uncorrected cross section of hydrogen at few electron masses. -/
lemma hydrogen_sign (c : Component) (hZ : c.nucCharge = 1) (E v : ℝ) (hE : E < 50) (h : 1 < 272 * (ME / (2 * E * v * (1 - v)))) :
    kochMotzWithoutA none c E v = NAvogadro / c.atomicNum * ((1 + 6.144 / (5.31 - coulombCorrection 1)) * (RE * RE * ALPHA *
      ((2 * v * v - 2 * v + 1 + 2 / 3 * v * (1 - v)) * (21.12 - 4.184 * Real.log (272 * (ME / (2 * E * v * (1 - v))) + 0.952))))) := by
  have hme := me_pos'
  have hfl : ⌊(1 : ℝ) + 0.5⌋ = 1 := by
    rw [Int.floor_eq_iff]
    norm_num
  have hr : radiationLogs 1 = (5.31, 6.144) := by
    rw [radiationLogs, hfl]
    rfl
  unfold kochMotzWithoutA
  simp only [hZ, hr, Real.log_one, if_pos hE, Real.one_rpow]
  have e : 136 * 1 * 2 * (ME * ME / (2 * E * v * (1 - v))) / ME = 272 * (ME / (2 * E * v * (1 - v))) := by
    field_simp
    norm_num
  rw [e, butcher_large h]
  simp only
  ring

/-- C125: up to 50 MeV negative values are not cut off: on hydrogen, at five electron masses, the cross section is negative somewhere
within the limits, whatever the positive total cross section of the table and the value of the integral. -/
theorem C125_koch_motz_negative (table : ℝ → ℝ → ℝ) (integral : (ℝ → ℝ) → ℝ → ℝ → ℝ) (c : Component) (hZ : c.nucCharge = 1) (hA : 0 < c.atomicNum)
    (ht : 0 < table 1 (5 * ME)) (hd : kochMotz table integral none c (5 * ME) (1 / 2) ≠ none) :
    ∃ v s, (limPhotoPair (5 * ME)).vMin ≤ v ∧ v ≤ (limPhotoPair (5 * ME)).vMax ∧ kochMotz table integral none c (5 * ME) v = some s ∧ s < 0 := by
  have hme := me_pos'
  have hna := na_pos'
  have hal := alpha_pos'
  have hre := re_pos'
  have hE : 5 * ME < 50 := by norm_num [ME]
  have hl : limPhotoPair (5 * ME) = ⟨1 / 5, 4 / 5⟩ := by
    unfold limPhotoPair
    rw [if_neg (by linarith)]
    congr 1
    · field_simp
    · field_simp
      norm_num
  have a1 : ME / (2 * (5 * ME) * (1 / 5) * (1 - 1 / 5)) = 5 / 8 := by
    field_simp
    norm_num
  have a2 : ME / (2 * (5 * ME) * (1 / 2) * (1 - 1 / 2)) = 2 / 5 := by
    field_simp
    norm_num
  have b1 := log_by_power (x := 272 * (5 / 8) + 0.952) (lo := 5.1) (hi := 5.2) 1 5 (by norm_num) (by norm_num) (by norm_num) (by norm_num)
  have b2 := log_by_power (x := 272 * (2 / 5) + 0.952) (lo := 4.6) (hi := 4.8) 1 5 (by norm_num) (by norm_num) (by norm_num) (by norm_num)
  have s1 : kochMotzWithoutA none c (5 * ME) (1 / 5) < 0 := by
    rw [hydrogen_sign c hZ (5 * ME) (1 / 5) hE (by rw [a1]; norm_num), a1]
    have hcc : 0 < 1 + 6.144 / (5.31 - coulombCorrection 1) := by
      norm_num [coulombCorrection, ALPHA]
    refine mul_neg_of_pos_of_neg (by positivity) (mul_neg_of_pos_of_neg hcc (mul_neg_of_pos_of_neg (by positivity) (mul_neg_of_pos_of_neg (by norm_num) ?_)))
    linarith [b1.1]
  have s2 : 0 < kochMotzWithoutA none c (5 * ME) (1 / 2) := by
    rw [hydrogen_sign c hZ (5 * ME) (1 / 2) hE (by rw [a2]; norm_num), a2]
    have hcc : 0 < 1 + 6.144 / (5.31 - coulombCorrection 1) := by
      norm_num [coulombCorrection, ALPHA]
    refine mul_pos (by positivity) (mul_pos hcc (mul_pos (by positivity) (mul_pos (by norm_num) ?_)))
    linarith [b2.2]
  unfold kochMotz at hd ⊢
  simp only [if_neg (show ¬ (5 * ME > 50) by linarith), hl, hZ] at hd ⊢
  set d := integral (fun v => kochMotzWithoutA none c (5 * ME) v / NAvogadro * c.atomicNum / 1e-24) (1 / 5) (4 / 5)
  by_cases h0 : d = 0
  · rw [if_pos h0] at hd
    exact absurd rfl hd
  · simp only [if_neg h0]
    rcases lt_or_gt_of_ne h0 with h | h
    · exact ⟨1 / 2, _, by norm_num, by norm_num, rfl, mul_neg_of_neg_of_pos (div_neg_of_pos_of_neg ht h) s2⟩
    · exact ⟨1 / 5, _, le_rfl, by norm_num, rfl, mul_neg_of_pos_of_neg (div_pos ht h) s1⟩

/-- The hypotheses are met, for instance with an integral of one. -/
example : kochMotz (fun _ _ => 1) (fun _ _ _ => 1) none ⟨[], 1, 1, 1, 0, 0, 938.3, 3, 0⟩ (5 * ME) (1 / 2) ≠ none := by
  have hE : ¬ (5 * ME > 50) := by norm_num [ME]
  unfold kochMotz
  rw [if_neg hE]
  simp

/-- C125: the functions of Butcher and Messel with complete screening: `Φ₁ - Φ₂` exceeds the `2/3` of complete screening by more than a
quarter of it (`20.029` in place of `20.209`), and neither function is continuous where the two approximations meet. -/
theorem C125_butcher_messel : (butcherMessel 0).1 - (butcherMessel 0).2 > 5 / 4 * (2 / 3) ∧
    ∃ l, 18.32 < l ∧ Tendsto (fun x => (butcherMessel x).1) (𝓝[>] 1) (𝓝 l) ∧ Tendsto (fun x => (butcherMessel x).2) (𝓝[>] 1) (𝓝 l) ∧
      (butcherMessel 1).1 < 18.26 ∧ (butcherMessel 1).2 < 18.02 := by
  refine ⟨by norm_num [butcherMessel], 21.12 - 4.184 * Real.log (1 + 0.952), ?_, ?_, ?_, by norm_num [butcherMessel], by norm_num [butcherMessel]⟩
  · have b := log_by_power (x := 1 + 0.952) (lo := 0.66) (hi := 0.669) 3 2 (by norm_num) (by norm_num) (by norm_num) (by norm_num)
    linarith [b.2]
  all_goals
    have h : ContinuousAt (fun x : ℝ => 21.12 - 4.184 * Real.log (x + 0.952)) 1 := by
      have : (1 + 0.952 : ℝ) ≠ 0 := by norm_num
      fun_prop (disch := assumption)
    refine (h.tendsto.mono_left nhdsWithin_le_nhds).congr' ?_
    filter_upwards [self_mem_nhdsWithin] with x hx
    rw [butcher_large hx]

/-- C125: above 50 MeV, without suppression, the cross section of Koch and Motz tends to the value with complete screening and
Coulomb correction. -/
theorem C125_koch_motz_high_energy (table : ℝ → ℝ → ℝ) (integral : (ℝ → ℝ) → ℝ → ℝ → ℝ) (c : Component) (v : ℝ) (_ : 0 < v) (_ : v < 1) :
    ∃ σ : ℝ → ℝ, (∀ᶠ E in atTop, kochMotz table integral none c E v = some (σ E)) ∧
      Tendsto σ atTop (𝓝 (NAvogadro / c.atomicNum * (ALPHA * RE ^ 2 * (c.nucCharge * (c.nucCharge + (radiationLogs c.nucCharge).2 /
        ((radiationLogs c.nucCharge).1 - coulombCorrection c.nucCharge))) *
        ((1 - 4 / 3 * v * (1 - v)) * (20.867 - 4 / 3 * Real.log c.nucCharge - 4 * coulombCorrection c.nucCharge) - 2 / 3 * v * (1 - v) * 0.838)))) := by
  have hme := me_pos'
  refine ⟨fun E => kochMotzWithoutA none c E v, ?_, ?_⟩
  · filter_upwards [eventually_gt_atTop 50] with E hE
    unfold kochMotz
    rw [if_pos hE]
  · set x : ℝ → ℝ := fun E => 136 * c.nucCharge ^ (-1 / 3 : ℝ) * 2 * (ME * ME / (2 * E * v * (1 - v))) / ME with hx
    have hxt : Tendsto x atTop (𝓝 0) := by
      have := (tendsto_inv_atTop_zero (𝕜 := ℝ)).const_mul (136 * c.nucCharge ^ (-1 / 3 : ℝ) * 2 * (ME * ME / (2 * v * (1 - v))) / ME)
      rw [mul_zero] at this
      refine this.congr fun E => ?_
      simp only [hx]
      rw [show ME * ME / (2 * E * v * (1 - v)) = ME * ME / (2 * v * (1 - v)) * E⁻¹ by
        rw [← div_eq_mul_inv, div_div]
        congr 1
        ring]
      ring
    have hφ : Tendsto (fun E => (20.867 - 3.242 * x E + 0.625 * (x E * x E), 20.029 - 1.930 * x E - 0.086 * (x E * x E))) atTop
        (𝓝 ((20.867, 20.029) : ℝ × ℝ)) := by
      have c0 : Continuous fun y : ℝ => (20.867 - 3.242 * y + 0.625 * (y * y), 20.029 - 1.930 * y - 0.086 * (y * y)) := by fun_prop
      have := (c0.tendsto 0).comp hxt
      norm_num at this
      norm_num
      exact this
    have p1 := (continuous_fst.tendsto _).comp hφ
    have p2 := (continuous_snd.tendsto _).comp hφ
    simp only at p1 p2
    have := ((((p1.sub_const (4 / 3 * Real.log c.nucCharge)).sub_const (4 * coulombCorrection c.nucCharge)).const_mul (2 * v * v - 2 * v + 1)).add
      (((p2.sub_const (4 / 3 * Real.log c.nucCharge)).sub_const (4 * coulombCorrection c.nucCharge)).const_mul (2 / 3 * v * (1 - v)))).const_mul
      (NAvogadro / c.atomicNum * (ALPHA * RE ^ 2 * (c.nucCharge * (c.nucCharge + (radiationLogs c.nucCharge).2 /
        ((radiationLogs c.nucCharge).1 - coulombCorrection c.nucCharge)))))
    refine (this.congr' ?_).trans (le_of_eq ?_)
    · filter_upwards [eventually_gt_atTop 50, hxt.eventually (gt_mem_nhds one_pos)] with E hE hE'
      unfold kochMotzWithoutA
      have hb : butcherMessel (136 * c.nucCharge ^ (-1 / 3 : ℝ) * 2 * (ME * ME / (2 * E * v * (1 - v))) / ME) =
          (20.867 - 3.242 * x E + 0.625 * (x E * x E), 20.029 - 1.930 * x E - 0.086 * (x E * x E)) := by
        unfold butcherMessel
        rw [if_pos hE'.le]
      simp only [hb, if_neg (show ¬ E < 50 by linarith), Function.comp]
      ring
    · congr 1
      ring

end Proposal
