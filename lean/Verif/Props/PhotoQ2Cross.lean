import Verif.Props.PhotoQ2Shadow
import Mathlib.Analysis.SpecialFunctions.Pow.Continuity

/-!
# C130: photonuclear interaction, real photons and the cross section
-/

namespace Proposal

open Filter Topology

/-! ## Real photons -/

theorem allm_t_cont (P : Allm) (hl : 0 < P.lam) (hq : P.lam < P.q0) : ContinuousAt P.t 0 ∧ P.t 0 = 0 := by
  have h1 : 0 < Real.log (P.q0 / P.lam) := Real.log_pos ((one_lt_div hl).mpr hq)
  have hq0 : 0 < P.q0 := by linarith
  have e : P.t = fun Q2 => max (Real.log (Real.log ((Q2 + P.q0) / P.lam) / Real.log (P.q0 / P.lam))) 0 := by
    funext Q2
    unfold Allm.t
    simp only
    split_ifs with h
    · rw [max_eq_right h.le]
    · rw [max_eq_left (not_lt.mp h)]
  constructor
  · rw [e]
    refine Filter.Tendsto.max ?_ tendsto_const_nhds
    refine ContinuousAt.log ?_ ?_
    · refine ContinuousAt.div_const ?_ _
      refine ContinuousAt.log (by fun_prop) ?_
      rw [zero_add]
      positivity
    · rw [zero_add, div_self h1.ne']
      exact one_ne_zero
  · rw [e]
    simp [div_self h1.ne']

theorem allm_up_cont (P : Allm) (hl : 0 < P.lam) (hq : P.lam < P.q0) (f1 f2 f3 : ℝ) (h3 : 0 < f3) :
    ContinuousAt (fun Q2 => allmUp f1 f2 f3 (P.t Q2)) 0 := by
  unfold allmUp
  have := (allm_t_cont P hl hq).1.rpow_const (p := f3) (Or.inr h3.le)
  fun_prop

theorem allm_down_cont (P : Allm) (hl : 0 < P.lam) (hq : P.lam < P.q0) (f1 f2 f3 : ℝ) (h3 : 0 < f3) :
    ContinuousAt (fun Q2 => allmDown f1 f2 f3 (P.t Q2)) 0 := by
  unfold allmDown
  have := (allm_t_cont P hl hq).1.rpow_const (p := f3) (Or.inr h3.le)
  refine ContinuousAt.add continuousAt_const (ContinuousAt.mul continuousAt_const (ContinuousAt.sub ?_ continuousAt_const))
  refine ContinuousAt.div continuousAt_const (by fun_prop) ?_
  have : 0 ≤ P.t 0 ^ f3 := Real.rpow_nonneg (allm_t_nonneg P 0) _
  positivity

theorem allm_real (P : Allm) (M E v : ℝ) (hl : 0 < P.lam) (hq : P.lam < P.q0) (h0 : 0 < P.m0) (hP : 0 < P.mP) (hR : 0 < P.mR)
    (hc : 0 < P.c2P) (hc' : P.c2P ≤ P.c1P) (hc1 : 0 < P.c1R) (hc2 : 0 ≤ P.c2R) (ha3 : 0 < P.a3P) (hb3 : 0 < P.b3P) (hc3 : 0 < P.c3P)
    (ra3 : 0 < P.a3R) (rb3 : 0 < P.b3R) (rc3 : 0 < P.c3R) (hM : 0 < M) (hE : 0 < E) (hv : 0 < v) :
    ∃ L, 0 < L ∧ Tendsto (fun Q2 => allmProton P M E v Q2 / Q2) (𝓝[>] 0) (𝓝 L) := by
  set g : ℝ → ℝ := fun Q2 => 1 / (Q2 + P.m0) *
    (allmDown P.c1P P.c2P P.c3P (P.t Q2) * ((Q2 + P.mP) / (P.mP + 2 * M * E * v)) ^ allmDown P.a1P P.a2P P.a3P (P.t Q2) *
        (1 - Q2 / (2 * M * v * E)) ^ allmUp P.b1P P.b2P P.b3P (P.t Q2) +
      allmUp P.c1R P.c2R P.c3R (P.t Q2) * ((Q2 + P.mR) / (P.mR + 2 * M * E * v)) ^ allmUp P.a1R P.a2R P.a3R (P.t Q2) *
        (1 - Q2 / (2 * M * v * E)) ^ allmUp P.b1R P.b2R P.b3R (P.t Q2)) with hg
  have hgc : ContinuousAt g 0 := by
    have c1 := allm_down_cont P hl hq P.c1P P.c2P P.c3P hc3
    have c2 := allm_down_cont P hl hq P.a1P P.a2P P.a3P ha3
    have c3 := allm_up_cont P hl hq P.b1P P.b2P P.b3P hb3
    have c4 := allm_up_cont P hl hq P.c1R P.c2R P.c3R rc3
    have c5 := allm_up_cont P hl hq P.a1R P.a2R P.a3R ra3
    have c6 := allm_up_cont P hl hq P.b1R P.b2R P.b3R rb3
    have d1 : ContinuousAt (fun Q2 => ((Q2 + P.mP) / (P.mP + 2 * M * E * v)) ^ allmDown P.a1P P.a2P P.a3P (P.t Q2)) 0 :=
      ContinuousAt.rpow (by fun_prop) c2 (Or.inl (by positivity))
    have d2 : ContinuousAt (fun Q2 => ((Q2 + P.mR) / (P.mR + 2 * M * E * v)) ^ allmUp P.a1R P.a2R P.a3R (P.t Q2)) 0 :=
      ContinuousAt.rpow (by fun_prop) c5 (Or.inl (by positivity))
    have d3 : ContinuousAt (fun Q2 => (1 - Q2 / (2 * M * v * E)) ^ allmUp P.b1P P.b2P P.b3P (P.t Q2)) 0 :=
      ContinuousAt.rpow (by fun_prop) c3 (Or.inl (by norm_num))
    have d4 : ContinuousAt (fun Q2 => (1 - Q2 / (2 * M * v * E)) ^ allmUp P.b1R P.b2R P.b3R (P.t Q2)) 0 :=
      ContinuousAt.rpow (by fun_prop) c6 (Or.inl (by norm_num))
    have d5 : ContinuousAt (fun Q2 => 1 / (Q2 + P.m0)) 0 := ContinuousAt.div continuousAt_const (by fun_prop) (by positivity)
    exact d5.mul (((c1.mul d1).mul d3).add ((c4.mul d2).mul d4))
  refine ⟨g 0, ?_, ?_⟩
  · have hcP : 0 < allmDown P.c1P P.c2P P.c3P (P.t 0) := by
      rcases allm_down_pos P.c1P P.c2P P.c3P (P.t 0) hc hc' (allm_t_nonneg P 0) with h | h
      · linarith
      · exact h.2
    have hcR := allm_up_pos P.c1R P.c2R P.c3R (P.t 0) hc1 hc2 (allm_t_nonneg P 0)
    rw [hg]
    simp only [zero_add, zero_div, sub_zero, Real.one_rpow, mul_one]
    have q1 := Real.rpow_pos_of_pos (show 0 < P.mP / (P.mP + 2 * M * E * v) by positivity) (allmDown P.a1P P.a2P P.a3P (P.t 0))
    have q2 := Real.rpow_pos_of_pos (show 0 < P.mR / (P.mR + 2 * M * E * v) by positivity) (allmUp P.a1R P.a2R P.a3R (P.t 0))
    positivity
  · refine (hgc.tendsto.mono_left nhdsWithin_le_nhds).congr' ?_
    filter_upwards [self_mem_nhdsWithin] with Q2 hQ
    have hQ : 0 < Q2 := hQ
    rw [hg]
    simp only
    unfold allmProton allmF2
    simp only
    have e1 : Q2 + P.mP + (M * M + 2 * M * E * v - Q2) - M * M = P.mP + 2 * M * E * v := by ring
    have e2 : Q2 + P.mR + (M * M + 2 * M * E * v - Q2) - M * M = P.mR + 2 * M * E * v := by ring
    rw [e1, e2]
    field_simp

theorem bdh_real (M E v : ℝ) (hM : 0 < M) (hE : 0 < E) (hv : 0 < v) :
    ∃ L, 0 < L ∧ Tendsto (fun Q2 => bdhProton M E v Q2 / Q2) (𝓝[>] 0) (𝓝 L) := by
  set g : ℝ → ℝ := fun Q2 => (Q2 + 2.430 * (0.753 * 1e6)) / (Q2 + 0.753 * 1e6) ^ 2 * (1 - Q2 / (2 * M * v * E)) ^ (11.49 : ℝ) *
    ((0.255 + 1.475e-1 * Real.log (1 + Q2 / (2.82 * 1e6))) +
      (8.205e-4 + (-5.148e-2) * Real.log (1 + Q2 / (2.82 * 1e6)) +
        (-4.725e-3) * Real.log (1 + Q2 / (2.82 * 1e6)) * Real.log (1 + Q2 / (2.82 * 1e6))) * Real.log (2 * M * v * E / (Q2 + 2.82 * 1e6)) +
      (2.217e-3 + 1.244e-2 * Real.log (1 + Q2 / (2.82 * 1e6)) +
        5.958e-4 * Real.log (1 + Q2 / (2.82 * 1e6)) * Real.log (1 + Q2 / (2.82 * 1e6))) * Real.log (2 * M * v * E / (Q2 + 2.82 * 1e6)) *
          Real.log (2 * M * v * E / (Q2 + 2.82 * 1e6))) with hg
  have hgc : ContinuousAt g 0 := by
    have c1 : ContinuousAt (fun Q2 : ℝ => Real.log (1 + Q2 / (2.82 * 1e6))) 0 := ContinuousAt.log (by fun_prop) (by norm_num)
    have c2 : ContinuousAt (fun Q2 : ℝ => Real.log (2 * M * v * E / (Q2 + 2.82 * 1e6))) 0 := by
      refine ContinuousAt.log (ContinuousAt.div continuousAt_const (by fun_prop) (by norm_num)) ?_
      rw [zero_add]
      positivity
    have c3 : ContinuousAt (fun Q2 : ℝ => (1 - Q2 / (2 * M * v * E)) ^ (11.49 : ℝ)) 0 :=
      ContinuousAt.rpow_const (by fun_prop) (Or.inr (by norm_num))
    have c4 : ContinuousAt (fun Q2 : ℝ => (Q2 + 2.430 * (0.753 * 1e6)) / (Q2 + 0.753 * 1e6) ^ 2) 0 :=
      ContinuousAt.div (by fun_prop) (by fun_prop) (by norm_num)
    rw [hg]
    fun_prop
  refine ⟨g 0, ?_, ?_⟩
  · have h := bdh_quadratic (Real.log (1 + 0 / (2.82 * 1e6))) (Real.log (2 * M * v * E / (0 + 2.82 * 1e6))) (by norm_num) (by norm_num)
    rw [hg]
    simp only
    refine mul_pos (mul_pos (by norm_num) ?_) h
    simp
  · refine (hgc.tendsto.mono_left nhdsWithin_le_nhds).congr' ?_
    filter_upwards [self_mem_nhdsWithin] with Q2 hQ
    have hQ : 0 < Q2 := hQ
    rw [hg]
    simp only
    unfold bdhProton
    simp only
    rw [bdh_log M E v Q2 hM hE hv hQ]
    field_simp

theorem bm_real (M E v : ℝ) (hM : 0 < M) (hE : 0 < E) (hv : 0 < v) :
    ∃ L, 0 < L ∧ Tendsto (fun Q2 => (bmNucleons M E v Q2).1 / Q2) (𝓝[>] 0) (𝓝 L) := by
  have hK : 0 < 2 * M * v * E := by positivity
  set K := 2 * M * v * E with hKd
  set g : ℝ → ℝ := fun Q2 => 0.12 * (K ^ (0.0988 * (1 + 2 * Q2 / (Q2 + 1.4817e6)) : ℝ) /
      (Q2 + 0.2513e6) ^ (1 + 0.0988 * (1 + 2 * Q2 / (Q2 + 1.4817e6)) : ℝ)) * (1 - Q2 / K) ^ (1.5 * (1 + Q2 / (Q2 + 3.0292e6)) + 4 : ℝ) +
    (1.2437 + 0.1853 * (1 - Q2 / K)) * (K ^ (0.4056 - 1 : ℝ) / (Q2 + 0.6186e6) ^ (0.4056 : ℝ)) *
      (1 - Q2 / K) ^ (1.5 * (1 + Q2 / (Q2 + 3.0292e6)) : ℝ) with hg
  have hgc : ContinuousAt g 0 := by
    have c1 : ContinuousAt (fun Q2 : ℝ => 0.0988 * (1 + 2 * Q2 / (Q2 + 1.4817e6))) 0 := by
      have : ContinuousAt (fun Q2 : ℝ => 2 * Q2 / (Q2 + 1.4817e6)) 0 := ContinuousAt.div (by fun_prop) (by fun_prop) (by norm_num)
      fun_prop
    have c2 : ContinuousAt (fun Q2 : ℝ => 1.5 * (1 + Q2 / (Q2 + 3.0292e6))) 0 := by
      have : ContinuousAt (fun Q2 : ℝ => Q2 / (Q2 + 3.0292e6)) 0 := ContinuousAt.div (by fun_prop) (by fun_prop) (by norm_num)
      fun_prop
    have d1 : ContinuousAt (fun Q2 : ℝ => K ^ (0.0988 * (1 + 2 * Q2 / (Q2 + 1.4817e6)) : ℝ)) 0 :=
      ContinuousAt.rpow continuousAt_const c1 (Or.inl hK.ne')
    have d2 : ContinuousAt (fun Q2 : ℝ => (Q2 + 0.2513e6) ^ (1 + 0.0988 * (1 + 2 * Q2 / (Q2 + 1.4817e6)) : ℝ)) 0 :=
      ContinuousAt.rpow (by fun_prop) (by fun_prop) (Or.inl (by norm_num))
    have d3 : ContinuousAt (fun Q2 : ℝ => (1 - Q2 / K) ^ (1.5 * (1 + Q2 / (Q2 + 3.0292e6)) + 4 : ℝ)) 0 :=
      ContinuousAt.rpow (by fun_prop) (by fun_prop) (Or.inl (by norm_num))
    have d4 : ContinuousAt (fun Q2 : ℝ => (1 - Q2 / K) ^ (1.5 * (1 + Q2 / (Q2 + 3.0292e6)) : ℝ)) 0 :=
      ContinuousAt.rpow (by fun_prop) c2 (Or.inl (by norm_num))
    have d5 : ContinuousAt (fun Q2 : ℝ => (Q2 + 0.6186e6) ^ (0.4056 : ℝ)) 0 :=
      ContinuousAt.rpow_const (by fun_prop) (Or.inr (by norm_num))
    have d6 := d1.div d2 (Real.rpow_pos_of_pos (by norm_num) _).ne'
    have d7 : ContinuousAt (fun Q2 : ℝ => K ^ (0.4056 - 1 : ℝ) / (Q2 + 0.6186e6) ^ (0.4056 : ℝ)) 0 :=
      continuousAt_const.div d5 (Real.rpow_pos_of_pos (by norm_num) _).ne'
    exact ((continuousAt_const.mul d6).mul d3).add
      (((show ContinuousAt (fun Q2 : ℝ => 1.2437 + 0.1853 * (1 - Q2 / K)) 0 by fun_prop).mul d7).mul d4)
  refine ⟨g 0, ?_, ?_⟩
  · rw [hg]
    simp only [zero_add, zero_div, sub_zero, Real.one_rpow, mul_one, mul_zero, add_zero]
    have q1 := Real.rpow_pos_of_pos hK 0.0988
    have q2 := Real.rpow_pos_of_pos (show (0 : ℝ) < 0.2513e6 by norm_num) (1 + 0.0988)
    have q3 := Real.rpow_pos_of_pos hK (0.4056 - 1)
    have q4 := Real.rpow_pos_of_pos (show (0 : ℝ) < 0.6186e6 by norm_num) 0.4056
    positivity
  · refine (hgc.tendsto.mono_left nhdsWithin_le_nhds).congr' ?_
    filter_upwards [self_mem_nhdsWithin] with Q2 hQ
    have hQ : 0 < Q2 := hQ
    rw [hg]
    simp only
    unfold bmNucleons
    simp only
    rw [← hKd]
    generalize 0.0988 * (1 + 2 * Q2 / (Q2 + 1.4817e6)) = dl
    generalize 1.5 * (1 + Q2 / (Q2 + 3.0292e6)) = n
    have ha : 0 < Q2 + 0.2513e6 := by positivity
    have hb : 0 < Q2 + 0.6186e6 := by positivity
    rw [Real.div_rpow hQ.le hK.le, Real.div_rpow hQ.le hK.le, Real.div_rpow hQ.le ha.le, Real.div_rpow hQ.le hb.le]
    have e1 : Q2 ^ (1 + dl) = Q2 * Q2 ^ dl := by rw [Real.rpow_add hQ, Real.rpow_one]
    have e2 : Q2 ^ (-dl) = (Q2 ^ dl)⁻¹ := Real.rpow_neg hQ.le _
    have e3 : K ^ (-dl) = (K ^ dl)⁻¹ := Real.rpow_neg hK.le _
    have e4 : Q2 ^ (1 - 0.4056 : ℝ) = Q2 / Q2 ^ (0.4056 : ℝ) := by rw [Real.rpow_sub hQ, Real.rpow_one]
    have e5 : K ^ (1 - 0.4056 : ℝ) = K / K ^ (0.4056 : ℝ) := by rw [Real.rpow_sub hK, Real.rpow_one]
    have e6 : K ^ (0.4056 - 1 : ℝ) = K ^ (0.4056 : ℝ) / K := by rw [Real.rpow_sub hK, Real.rpow_one]
    rw [e1, e2, e3, e4, e5, e6]
    have p1 := Real.rpow_pos_of_pos hQ dl
    have p2 := Real.rpow_pos_of_pos hK dl
    have p3 := Real.rpow_pos_of_pos hQ 0.4056
    have p4 := Real.rpow_pos_of_pos hK 0.4056
    have p5 := Real.rpow_pos_of_pos ha (1 + dl)
    have p6 := Real.rpow_pos_of_pos hb 0.4056
    generalize Q2 ^ dl = a1 at *
    generalize K ^ dl = a2 at *
    generalize Q2 ^ (0.4056 : ℝ) = a3 at *
    generalize K ^ (0.4056 : ℝ) = a4 at *
    generalize (Q2 + 0.2513e6) ^ (1 + dl) = a5 at *
    generalize (Q2 + 0.6186e6) ^ (0.4056 : ℝ) = a6 at *
    generalize (1 - Q2 / K) ^ (n + 4) = b1
    generalize (1 - Q2 / K) ^ n = b2
    field_simp

theorem abt_real (M E v : ℝ) (hM : 0 < M) (hE : 0 < E) (hv : 0 < v) :
    ∃ L, 0 < L ∧ Tendsto (fun Q2 => abtProton M E v Q2 / Q2) (𝓝[>] 0) (𝓝 L) := by
  have hl : 0 < allmAbt.lam := by norm_num [allmAbt]
  have hq : allmAbt.lam < allmAbt.q0 := by norm_num [allmAbt]
  have h0 : 0 < allmAbt.m0 := by norm_num [allmAbt]
  have hP : 0 < allmAbt.mP := by norm_num [allmAbt]
  have hR : 0 < allmAbt.mR := by norm_num [allmAbt]
  have hK : 0 < 2 * M * v * E := by positivity
  have hK' : 0 < 2 * M * E * v := by positivity
  have ht0 : Tendsto allmAbt.t (𝓝[>] 0) (𝓝[>] 0) := by
    rw [tendsto_nhdsWithin_iff]
    constructor
    · have := (allm_t_cont allmAbt hl hq).1.tendsto.mono_left (nhdsWithin_le_nhds (s := Set.Ioi (0 : ℝ)))
      rwa [(allm_t_cont allmAbt hl hq).2] at this
    · filter_upwards [self_mem_nhdsWithin] with Q2 hQ
      exact allm_t_pos allmAbt Q2 hQ hl hq
  -- the first term
  set g : ℝ → ℝ := fun Q2 => 1 / (Q2 + allmAbt.m0) *
    (allmDown allmAbt.c1P allmAbt.c2P allmAbt.c3P (allmAbt.t Q2) *
      ((Q2 + allmAbt.mP) / (allmAbt.mP + 2 * M * E * v)) ^ allmDown allmAbt.a1P allmAbt.a2P allmAbt.a3P (allmAbt.t Q2) *
        (1 - Q2 / (2 * M * v * E)) ^ allmUp allmAbt.b1P allmAbt.b2P allmAbt.b3P (allmAbt.t Q2)) with hg
  have hgc : ContinuousAt g 0 := by
    have c1 := allm_down_cont allmAbt hl hq allmAbt.c1P allmAbt.c2P allmAbt.c3P (by norm_num [allmAbt])
    have c2 := allm_down_cont allmAbt hl hq allmAbt.a1P allmAbt.a2P allmAbt.a3P (by norm_num [allmAbt])
    have c3 := allm_up_cont allmAbt hl hq allmAbt.b1P allmAbt.b2P allmAbt.b3P (by norm_num [allmAbt])
    have d1 : ContinuousAt (fun Q2 => ((Q2 + allmAbt.mP) / (allmAbt.mP + 2 * M * E * v)) ^
        allmDown allmAbt.a1P allmAbt.a2P allmAbt.a3P (allmAbt.t Q2)) 0 :=
      ContinuousAt.rpow (by fun_prop) c2 (Or.inl (by positivity))
    have d3 : ContinuousAt (fun Q2 => (1 - Q2 / (2 * M * v * E)) ^ allmUp allmAbt.b1P allmAbt.b2P allmAbt.b3P (allmAbt.t Q2)) 0 :=
      ContinuousAt.rpow (by fun_prop) c3 (Or.inl (by norm_num))
    have d5 : ContinuousAt (fun Q2 => 1 / (Q2 + allmAbt.m0)) 0 := ContinuousAt.div continuousAt_const (by fun_prop) (by positivity)
    exact d5.mul ((c1.mul d1).mul d3)
  -- the second term
  set r : ℝ → ℝ := fun Q2 => 1 / (Q2 + allmAbt.m0) *
    (allmUp allmAbt.c1R allmAbt.c2R allmAbt.c3R (allmAbt.t Q2) *
      ((Q2 + allmAbt.mR) / (allmAbt.mR + 2 * M * E * v)) ^ allmUp allmAbt.a1R allmAbt.a2R allmAbt.a3R (allmAbt.t Q2) *
        (1 - Q2 / (2 * M * v * E)) ^ allmUp allmAbt.b1R allmAbt.b2R allmAbt.b3R (allmAbt.t Q2)) with hr
  set ρ := (M * E * v + allmAbt.mR) / (allmAbt.mR + 2 * M * E * v) with hρ
  have hρ0 : 0 < ρ := by positivity
  have hρ1 : ρ < 1 := by
    rw [hρ, div_lt_one (by positivity)]
    have : 0 < M * E * v := by positivity
    linarith
  set k := -(0.082 * Real.log ρ) with hk
  have hk0 : 0 < k := by
    have := Real.log_neg hρ0 hρ1
    rw [hk]
    linarith
  have hrl : Tendsto r (𝓝[>] 0) (𝓝 0) := by
    have hb : Tendsto (fun Q2 => 1 / allmAbt.m0 * (3.37 * ((allmAbt.t Q2)⁻¹ ^ (1 : ℝ) * Real.exp (-k * (allmAbt.t Q2)⁻¹)))) (𝓝[>] 0) (𝓝 0) := by
      have h1 : Tendsto (fun Q2 => (allmAbt.t Q2)⁻¹) (𝓝[>] 0) atTop := tendsto_inv_nhdsGT_zero.comp ht0
      have h2 := (tendsto_rpow_mul_exp_neg_mul_atTop_nhds_zero 1 k hk0).comp h1
      have h3 := (h2.const_mul 3.37).const_mul (1 / allmAbt.m0)
      simpa using h3
    refine squeeze_zero' ?_ ?_ hb
    · filter_upwards [self_mem_nhdsWithin, nhdsWithin_le_nhds (Iio_mem_nhds (show (0 : ℝ) < M * E * v by positivity)),
        ht0.eventually (nhdsWithin_le_nhds (Iio_mem_nhds (show (0 : ℝ) < 1 by norm_num)))] with Q2 hQ hQ1 ht1
      have hQ : 0 < Q2 := hQ
      have hQ1 : Q2 < M * E * v := hQ1
      have ht1 : allmAbt.t Q2 < 1 := ht1
      have ht := allm_t_pos allmAbt Q2 hQ hl hq
      have hc := abt_cR_pos _ ht (by linarith)
      have hx : 0 < 1 - Q2 / (2 * M * v * E) := by
        rw [sub_pos, div_lt_one hK]
        nlinarith
      rw [hr]
      simp only
      have q1 := Real.rpow_pos_of_pos hx (allmUp allmAbt.b1R allmAbt.b2R allmAbt.b3R (allmAbt.t Q2))
      positivity
    · filter_upwards [self_mem_nhdsWithin, nhdsWithin_le_nhds (Iio_mem_nhds (show (0 : ℝ) < M * E * v by positivity)),
        ht0.eventually (nhdsWithin_le_nhds (Iio_mem_nhds (show (0 : ℝ) < 1 by norm_num)))] with Q2 hQ hQ1 ht1
      have hQ : 0 < Q2 := hQ
      have hQ1 : Q2 < M * E * v := hQ1
      have ht1 : allmAbt.t Q2 < 1 := ht1
      have ht := allm_t_pos allmAbt Q2 hQ hl hq
      have hc := abt_cR_pos _ ht (by linarith)
      have hx : 0 < 1 - Q2 / (2 * M * v * E) := by
        rw [sub_pos, div_lt_one hK]
        nlinarith
      have hx1 : 1 - Q2 / (2 * M * v * E) ≤ 1 := by linarith [show 0 < Q2 / (2 * M * v * E) by positivity]
      rw [hr]
      simp only
      have q1 := Real.rpow_pos_of_pos hx (allmUp allmAbt.b1R allmAbt.b2R allmAbt.b3R (allmAbt.t Q2))
      have q1' : (1 - Q2 / (2 * M * v * E)) ^ (allmUp allmAbt.b1R allmAbt.b2R allmAbt.b3R (allmAbt.t Q2)) ≤ 1 :=
        Real.rpow_le_one hx.le hx1 (allm_up_pos _ _ _ _ (by norm_num [allmAbt]) (by norm_num [allmAbt]) ht.le).le
      have hXρ : (Q2 + allmAbt.mR) / (allmAbt.mR + 2 * M * E * v) ≤ ρ := by
        rw [hρ]
        gcongr
      have hi1 : 1 ≤ (allmAbt.t Q2)⁻¹ := (one_le_inv₀ ht).mpr ht1.le
      have hup : 0.082 * (allmAbt.t Q2)⁻¹ ≤ allmUp allmAbt.a1R allmAbt.a2R allmAbt.a3R (allmAbt.t Q2) := by
        unfold allmUp
        simp only [allmAbt]
        have : (allmAbt.t Q2)⁻¹ ≤ (allmAbt.t Q2) ^ (-8.5 : ℝ) := by
          rw [Real.rpow_neg ht.le, ← Real.inv_rpow ht.le]
          calc (allmAbt.t Q2)⁻¹ = (allmAbt.t Q2)⁻¹ ^ (1 : ℝ) := (Real.rpow_one _).symm
            _ ≤ _ := Real.rpow_le_rpow_of_exponent_le hi1 (by norm_num)
        simp only [allmAbt] at this
        linarith
      have hcu : allmUp allmAbt.c1R allmAbt.c2R allmAbt.c3R (allmAbt.t Q2) ≤ 3.37 * (allmAbt.t Q2)⁻¹ ^ (1 : ℝ) := by
        unfold allmUp
        simp only [allmAbt]
        have : (allmAbt.t Q2) ^ (-0.660 : ℝ) ≤ (allmAbt.t Q2)⁻¹ ^ (1 : ℝ) := by
          rw [Real.rpow_neg ht.le, ← Real.inv_rpow ht.le]
          exact Real.rpow_le_rpow_of_exponent_le hi1 (by norm_num)
        simp only [allmAbt] at this
        linarith
      have hup0 : 0 ≤ allmUp allmAbt.a1R allmAbt.a2R allmAbt.a3R (allmAbt.t Q2) := le_trans (by positivity) hup
      have hpw : ((Q2 + allmAbt.mR) / (allmAbt.mR + 2 * M * E * v)) ^ allmUp allmAbt.a1R allmAbt.a2R allmAbt.a3R (allmAbt.t Q2) ≤
          Real.exp (-k * (allmAbt.t Q2)⁻¹) := by
        calc ((Q2 + allmAbt.mR) / (allmAbt.mR + 2 * M * E * v)) ^ allmUp allmAbt.a1R allmAbt.a2R allmAbt.a3R (allmAbt.t Q2)
            ≤ ρ ^ allmUp allmAbt.a1R allmAbt.a2R allmAbt.a3R (allmAbt.t Q2) := Real.rpow_le_rpow (by positivity) hXρ hup0
          _ ≤ ρ ^ (0.082 * (allmAbt.t Q2)⁻¹) := Real.rpow_le_rpow_of_exponent_ge hρ0 hρ1.le hup
          _ = Real.exp (-k * (allmAbt.t Q2)⁻¹) := by
            rw [Real.rpow_def_of_pos hρ0, hk]
            congr 1
            ring
      have hpw0 : 0 ≤ ((Q2 + allmAbt.mR) / (allmAbt.mR + 2 * M * E * v)) ^ allmUp allmAbt.a1R allmAbt.a2R allmAbt.a3R (allmAbt.t Q2) :=
        Real.rpow_nonneg (by positivity) _
      have hm : 1 / (Q2 + allmAbt.m0) ≤ 1 / allmAbt.m0 := by
        apply one_div_le_one_div_of_le h0
        linarith
      refine mul_le_mul hm ?_ (by positivity) (by positivity)
      calc _ ≤ allmUp allmAbt.c1R allmAbt.c2R allmAbt.c3R (allmAbt.t Q2) *
            ((Q2 + allmAbt.mR) / (allmAbt.mR + 2 * M * E * v)) ^ allmUp allmAbt.a1R allmAbt.a2R allmAbt.a3R (allmAbt.t Q2) * 1 := by
            apply mul_le_mul_of_nonneg_left q1' (by positivity)
        _ ≤ (3.37 * (allmAbt.t Q2)⁻¹ ^ (1 : ℝ)) * Real.exp (-k * (allmAbt.t Q2)⁻¹) := by
            rw [mul_one]
            exact mul_le_mul hcu hpw hpw0 (hc.le.trans hcu)
        _ = _ := by ring
  refine ⟨g 0, ?_, ?_⟩
  · have hcP : 0 < allmDown allmAbt.c1P allmAbt.c2P allmAbt.c3P (allmAbt.t 0) := by
      rcases allm_down_pos allmAbt.c1P allmAbt.c2P allmAbt.c3P (allmAbt.t 0) (by norm_num [allmAbt]) (by norm_num [allmAbt])
        (allm_t_nonneg allmAbt 0) with h | h
      · have : 0 < allmAbt.c2P := by norm_num [allmAbt]
        linarith
      · exact h.2
    rw [hg]
    simp only [zero_add, zero_div, sub_zero, Real.one_rpow, mul_one]
    positivity
  · have hsum := (hgc.tendsto.mono_left (nhdsWithin_le_nhds (s := Set.Ioi (0 : ℝ)))).add hrl
    rw [add_zero] at hsum
    refine hsum.congr' ?_
    filter_upwards [self_mem_nhdsWithin] with Q2 hQ
    have hQ : 0 < Q2 := hQ
    have ht := allm_t_pos allmAbt Q2 hQ hl hq
    rw [hg, hr]
    simp only
    unfold abtProton
    simp only
    rw [if_pos ht]
    unfold allmF2
    simp only
    have e1 : Q2 + allmAbt.mP + (M * M + 2 * M * E * v - Q2) - M * M = allmAbt.mP + 2 * M * E * v := by ring
    have e2 : Q2 + allmAbt.mR + (M * M + 2 * M * E * v - Q2) - M * M = allmAbt.mR + 2 * M * E * v := by ring
    rw [e1, e2]
    field_simp

/-- C130: when the virtuality goes to zero the structure function of a proton divided by it has a positive limit, as the cross section of
real photons, to which it is proportional, requires. -/
theorem C130_real_photon (p : Q2Param) (M E v : ℝ) (hM : 0 < M) (hE : 0 < E) (hv : 0 < v) :
    ∃ L, 0 < L ∧ Tendsto (fun Q2 => p.proton M E v Q2 / Q2) (𝓝[>] 0) (𝓝 L) := by
  cases p
  case abtFT => exact abt_real M E v hM hE hv
  case blockDurandHa => exact bdh_real M E v hM hE hv
  case butkevichMikheyev => exact bm_real M E v hM hE hv
  case allm91 =>
    refine allm_real allm91 M E v ?_ ?_ ?_ ?_ ?_ ?_ ?_ ?_ ?_ ?_ ?_ ?_ ?_ ?_ ?_ hM hE hv <;> norm_num [allm91]
  case allm97 =>
    refine allm_real allm97 M E v ?_ ?_ ?_ ?_ ?_ ?_ ?_ ?_ ?_ ?_ ?_ ?_ ?_ ?_ ?_ hM hE hv <;> norm_num [allm97]
  case renoSarcevicSu =>
    refine allm_real allm97 M E v ?_ ?_ ?_ ?_ ?_ ?_ ?_ ?_ ?_ ?_ ?_ ?_ ?_ ?_ ?_ hM hE hv <;> norm_num [allm97]

/-! ## Integrand and cross section -/

/-- C130: for every virtuality the particle can transfer the integrand is not negative, and positive for particles with spin. -/
theorem C130_integrand (p : Q2Param) (s : Shadow) (m : ℝ) (c : Component) (E v Q2 : ℝ) (hm : 0 < m) (hE : 0 < E) (hv : 0 < v)
    (h1 : m ≤ E * (1 - v)) (hr : Spec.Reachable m E (E * (1 - v)) Q2) (hx : Q2 / (2 * c.averageNucleonWeight * v * E) < 1)
    (hu : p.upTo Q2) (hZ : 0 < c.nucCharge) (hA : c.nucCharge ≤ c.atomicNum) (hA1 : 1 ≤ c.atomicNum) (hw0 : 0 < c.woodSaxon)
    (hw1 : c.woodSaxon < 1) (hM : 900 ≤ c.averageNucleonWeight) (hM' : c.averageNucleonWeight ≤ 1000) :
    0 ≤ p.integrand s m c E v Q2 ∧ (p ≠ .renoSarcevicSu → 0 < p.integrand s m c E v Q2) := by
  have hM0 : 0 < c.averageNucleonWeight := by linarith
  have hA0 : 0 < c.atomicNum := by linarith
  obtain ⟨hQ, hb, hb'⟩ := C130_positive p m c.averageNucleonWeight E v Q2 hm hM0 hE hv h1 hr
  obtain ⟨hF, hF', -⟩ := C130_structure_partial p c E v Q2 hM0 hA hE hv hQ hx hu
  have hx0 : 0 < Q2 / (2 * c.averageNucleonWeight * v * E) := by positivity
  have hnuc : 0 < p.nucleus c E v Q2 := by
    refine lt_of_lt_of_le (mul_pos ?_ hF) hF'
    linarith
  have hs : 0 < s.factor c (Q2 / (2 * c.averageNucleonWeight * v * E)) (v * E) := by
    cases s
    case dutta =>
      exact lt_of_lt_of_le (Real.rpow_pos_of_pos hA0 _) (C130_shadow_dutta c _ (v * E) hx0 hA1).2.1
    case butkevichMikheyev =>
      obtain ⟨a1, a2, a3, a4⟩ := C130_shadow_butkevich c _ (v * E) hx0 hx (by positivity) hA0 hw0 hw1 hM hM'
      by_cases hz : c.nucCharge = 1
      · rw [a1 hz]; norm_num
      by_cases h3 : Q2 / (2 * c.averageNucleonWeight * v * E) ≤ 0.3
      · by_cases h4 : Q2 / (2 * c.averageNucleonWeight * v * E) < shadowX0 c (v * E)
        · linarith [(a2 hz h3 h4).1]
        · linarith [(a3 hz h3 (not_lt.mp h4)).1]
      · linarith [a4 hz (not_le.mp h3)]
  unfold Q2Param.integrand
  simp only
  have hme : 0 < ME * RE / Q2 := div_pos (mul_pos me_pos' re_pos') hQ
  have hpi := Real.pi_pos
  refine ⟨by positivity, fun h => ?_⟩
  have := hb' h
  positivity

/-- C130: the cross section is never negative, whatever the numerical integration returns, it grows with the square of the charge, and it
is inversely proportional to the number of nucleons for a given integral. -/
theorem C130_cross (integral : (ℝ → ℝ) → ℝ → ℝ → ℝ) (p : Q2Param) (s : Shadow) (m z : ℝ) (c : Component) (E v : ℝ) :
    0 ≤ photoQ2Cross integral p s m z c E v ∧
    photoQ2Cross integral p s m z c E v = z ^ 2 * photoQ2Cross integral p s m 1 c E v ∧
    (0 < c.atomicNum → q2Min m E v ≤ q2Max m c.averageNucleonWeight E v →
      0 ≤ integral (p.integrand s m c E v) (q2Min m E v) (q2Max m c.averageNucleonWeight E v) →
      photoQ2Cross integral p s m z c E v =
        z ^ 2 * NAvogadro / c.atomicNum * integral (p.integrand s m c E v) (q2Min m E v) (q2Max m c.averageNucleonWeight E v)) := by
  have hna := na_pos'
  unfold photoQ2Cross
  simp only
  refine ⟨?_, ?_, ?_⟩
  · split_ifs
    · exact le_rfl
    · exact le_max_right _ _
  · split_ifs
    · simp
    · rw [mul_max_of_nonneg _ _ (sq_nonneg z)]
      congr 1 <;> ring
  · intro hA h hi
    rw [if_neg (not_lt.mpr h), max_eq_left]
    · ring
    · have : 0 ≤ NAvogadro / c.atomicNum * z * z := by
        have := mul_self_nonneg z
        rw [mul_assoc]
        positivity
      positivity

/-- The hypotheses of `C130_integrand` for a muon of 10 GeV, which stays in its direction and loses half of its energy. -/
example : ∃ Q2, Spec.Reachable MMU 10000 (10000 * (1 - 1 / 2)) Q2 ∧ Q2 / (2 * exOxWs.averageNucleonWeight * (1 / 2) * 10000) < 1 ∧
    Q2Param.allm97.upTo Q2 ∧ MMU ≤ 10000 * (1 - 1 / 2) := by
  refine ⟨_, ⟨1, by norm_num, le_rfl, rfl⟩, ?_, trivial, by norm_num [MMU]⟩
  have h1 : 5000 * 2 ≤ Real.sqrt (10000 ^ 2 - MMU ^ 2) + 5000 := by
    have : 5000 ≤ Real.sqrt (10000 ^ 2 - MMU ^ 2) := Real.le_sqrt_of_sq_le (by norm_num [MMU])
    linarith
  have h2 : 4990 ≤ Real.sqrt ((10000 * (1 - 1 / 2)) ^ 2 - MMU ^ 2) := Real.le_sqrt_of_sq_le (by norm_num [MMU])
  have h3 : 9990 ≤ Real.sqrt (10000 ^ 2 - MMU ^ 2) := Real.le_sqrt_of_sq_le (by norm_num [MMU])
  have h4 := mul_le_mul h3 h2 (by norm_num) (Real.sqrt_nonneg _)
  rw [div_lt_one (by norm_num [exOxWs, exOx])]
  have : 0 ≤ MMU ^ 2 := sq_nonneg _
  norm_num [exOxWs, exOx] at *
  linarith

end Proposal
