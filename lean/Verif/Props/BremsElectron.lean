import Verif.Props.BremsComplete
import Verif.Props.BremsLimits
import Verif.Props.BremsSigns

/-!
# C126: bremsstrahlung of electrons and the radiative corrections
-/

open Set Filter Topology

namespace Proposal

lemma coulomb_bounds45 {Z : ℝ} (h0 : 0 ≤ Z) (h1 : Z ≤ 45) : coulombCorrection Z ≤ 0.131 := by
  unfold coulombCorrection
  simp only
  have ha : 0 ≤ ALPHA * Z * (ALPHA * Z) := mul_self_nonneg _
  have hb : ALPHA * Z * (ALPHA * Z) ≤ 0.1079 := by
    have : ALPHA * Z ≤ 0.3284 := by
      unfold ALPHA
      linarith
    have h0' : 0 ≤ ALPHA * Z := by
      have := alpha_pos'
      positivity
    nlinarith
  generalize ALPHA * Z * (ALPHA * Z) = a at ha hb
  have h2 : 1 / (1 + a) ≤ 1 := by
    rw [div_le_one (by linarith)]
    linarith
  have h5 : a * (-0.0369 + a * (0.0083 - 0.002 * a)) ≤ 0 := by nlinarith [mul_nonneg ha ha]
  nlinarith

lemma coulomb_lead : 0.33 ≤ coulombCorrection 82 := by
  norm_num [coulombCorrection, ALPHA]

/-- The argument of the structure functions of Butcher and Messel for an electron. -/
lemma butcher_arg {Z3 E v : ℝ} (hE : 0 < E) (h1 : v < 1) : 136 * Z3 * 2 * bremsDelta ME E v / ME = 136 * Z3 * (ME * v / (E * (1 - v))) := by
  have := me_pos'
  have : 1 - v ≠ 0 := by linarith
  unfold bremsDelta
  field_simp

lemma log136 : 4.912 ≤ Real.log 136 ∧ Real.log 136 ≤ 4.913 :=
  log_by_power (x := 136) (lo := 4.912) (hi := 4.913) 23 113 (by norm_num) (by norm_num) (by norm_num) (by norm_num)

/-- The first structure function above one, for fractions up to the one with `E (1 - v) = k * ME`. -/
lemma butcher_lower {n : ℕ} (hn1 : 1 ≤ n) (hn2 : n ≤ 118) {x t : ℝ} (hx : 0 ≤ x) (ht : 0 < t) (h : x ≤ 136 * (n : ℝ) ^ (-1 / 3 : ℝ) * t) :
    21.12 - 4.184 * (Real.log t + 0.0345 / t + 4.913) + 0.06 * Real.log n ≤
      (21.12 - 4.184 * Real.log (x + 0.952)) - 4 / 3 * Real.log n := by
  have hn : (1 : ℝ) ≤ n := by exact_mod_cast hn1
  have hn' : (n : ℝ) ≤ 118 := by exact_mod_cast hn2
  have hn0 : (0 : ℝ) < n := by linarith
  have hz : 0 < (n : ℝ) ^ (-1 / 3 : ℝ) := by positivity
  have hz2 : 0.2038 ≤ (n : ℝ) ^ (-1 / 3 : ℝ) := by
    have b := (cbrt_bounds (z := 118) (lo := 0.2038) (hi := 0.2040) (by norm_num) (by norm_num) (by norm_num) (by norm_num) (by norm_num)).1
    refine b.trans ?_
    apply Real.rpow_le_rpow_of_nonpos hn0 hn'
    norm_num
  set Z3 := (n : ℝ) ^ (-1 / 3 : ℝ) with hZ3
  have e1 : Real.log (x + 0.952) ≤ Real.log (136 * Z3 * t * (1 + 0.0345 / t)) := by
    apply Real.log_le_log (by linarith)
    have : 136 * Z3 * t * (1 + 0.0345 / t) = 136 * Z3 * t + 136 * Z3 * 0.0345 := by
      field_simp
    rw [this]
    nlinarith
  have e2 : Real.log (136 * Z3 * t * (1 + 0.0345 / t)) = Real.log 136 - Real.log n / 3 + Real.log t + Real.log (1 + 0.0345 / t) := by
    rw [Real.log_mul (by positivity) (by positivity), Real.log_mul (by positivity) ht.ne', hZ3, log_cbrt hn0 _ (by norm_num)]
  have e3 : Real.log (1 + 0.0345 / t) ≤ 0.0345 / t := by
    have : 0 < 1 + 0.0345 / t := by positivity
    linarith [Real.log_le_sub_one_of_pos this]
  have e4 : 0 ≤ Real.log n := Real.log_nonneg hn
  have := log136
  linarith

/-- What is left of the structure functions is positive. -/
lemma butcher_bracket {v x k : ℝ} (hv : v ≤ 1) (hk : k < 18.2) (h : 1 < x → 0 < (21.12 - 4.184 * Real.log (x + 0.952)) - k) :
    0 < (2 - 2 * v + v * v) * ((butcherMessel x).1 - k) - 2 / 3 * (1 - v) * ((butcherMessel x).2 - k) := by
  have hs : 0 < 4 / 3 * (1 - v) + v * v := spectrum_pos
  rcases le_or_gt x 1 with h1 | h1
  · unfold butcherMessel
    rw [if_pos h1]
    simp only
    have a1 : 18.25 ≤ 20.867 - 3.242 * x + 0.625 * (x * x) := by nlinarith
    have a2 : 20.029 - 1.930 * x - 0.086 * (x * x) ≤ 20.867 - 3.242 * x + 0.625 * (x * x) := by nlinarith [sq_nonneg (x - 0.92)]
    generalize 20.867 - 3.242 * x + 0.625 * (x * x) = a at a1 a2
    generalize 20.029 - 1.930 * x - 0.086 * (x * x) = b at a2
    have e : (2 - 2 * v + v * v) * (a - k) - 2 / 3 * (1 - v) * (b - k) = (4 / 3 * (1 - v) + v * v) * (a - k) + 2 / 3 * (1 - v) * (a - b) := by ring
    rw [e]
    have : 0 < (4 / 3 * (1 - v) + v * v) * (a - k) := mul_pos hs (by linarith)
    have : 0 ≤ 2 / 3 * (1 - v) * (a - b) := by
      apply mul_nonneg <;> linarith
    linarith
  · rw [butcher_large h1]
    have := mul_pos hs (h h1)
    simp only
    linarith

lemma electron_bracket_eq (table : ℝ → ℝ → ℝ) (c : Component) (E v : ℝ) (h1 : v < 1) (hE : 0 < E) : bremsElectron table ME c E v =
    (if E < 50 then table (Real.log c.nucCharge) (E - ME) else 1) * c.nucCharge *
      (c.nucCharge + (radiationLogs c.nucCharge).2 / ((radiationLogs c.nucCharge).1 - coulombCorrection c.nucCharge)) *
    ((2 - 2 * v + v * v) * ((butcherMessel (136 * c.nucCharge ^ (-1 / 3 : ℝ) * (ME * v / (E * (1 - v))))).1 -
        (4 / 3 * Real.log c.nucCharge + 4 * (if E < 50 then 0 else coulombCorrection c.nucCharge))) -
      2 / 3 * (1 - v) * ((butcherMessel (136 * c.nucCharge ^ (-1 / 3 : ℝ) * (ME * v / (E * (1 - v))))).2 -
        (4 / 3 * Real.log c.nucCharge + 4 * (if E < 50 then 0 else coulombCorrection c.nucCharge)))) := by
  unfold bremsElectron
  simp only [butcher_arg hE h1]
  ring

/-- C126: the parametrization for electrons, with the limits `0` and `1 - ME / E`, is positive below 50 MeV for every element if the
correction table is positive; from 50 MeV on it is positive for elements up to charge 45, and for every element as long as the electron
keeps a total energy of at least twice its mass. -/
theorem C126_electron_positive_partial (table : ℝ → ℝ → ℝ) (n : ℕ) (hn1 : 1 ≤ n) (hn2 : n ≤ 118) (c : Component) (hc : c.nucCharge = n) (hA : 0 < c.atomicNum)
    (z E v : ℝ) (hz : z ≠ 0) (hE : ME < E) (h0 : 0 < v) (h1 : v ≤ (limBremsDefault ME E).vMax)
    (htable : E < 50 → 0 < table (Real.log n) (E - ME)) (hcase : E < 50 ∨ n ≤ 45 ∨ 2 * ME ≤ E * (1 - v)) :
    0 < bremsElectronDiff none table ME z c E v := by
  have hme := me_pos'
  have hE0 : 0 < E := by linarith
  have hn : (1 : ℝ) ≤ n := by exact_mod_cast hn1
  have hn' : (n : ℝ) ≤ 118 := by exact_mod_cast hn2
  have hn0 : (0 : ℝ) < n := by linarith
  have hrem : ME ≤ E * (1 - v) := by
    have : v ≤ 1 - ME / E := h1
    have h2 : ME / E ≤ 1 - v := by linarith
    rwa [div_le_iff₀ hE0, mul_comm] at h2
  have hv1 : v < 1 := by
    by_contra hcon
    push Not at hcon
    nlinarith
  obtain ⟨r1, r2, r3, r4⟩ := radiation_bounds hn1 hn2
  obtain ⟨f0, f1⟩ := coulomb_bounds hn0.le hn'
  have hlog0 : 0 ≤ Real.log n := Real.log_nonneg hn
  have hlog1 : Real.log n ≤ 4.776 := (Real.log_le_log hn0 hn').trans log118
  have hpos : 0 < E * (1 - v) := by linarith
  have hx0 : 0 ≤ 136 * (n : ℝ) ^ (-1 / 3 : ℝ) * (ME * v / (E * (1 - v))) := by positivity
  have hone : 136 * (n : ℝ) ^ (-1 / 3 : ℝ) * (ME * v / (E * (1 - v))) ≤ 136 * (n : ℝ) ^ (-1 / 3 : ℝ) * 1 := by
    apply mul_le_mul_of_nonneg_left _ (by positivity)
    rw [div_le_one hpos]
    nlinarith
  have hb : 0 < (2 - 2 * v + v * v) * ((butcherMessel (136 * (n : ℝ) ^ (-1 / 3 : ℝ) * (ME * v / (E * (1 - v))))).1 -
        (4 / 3 * Real.log n + 4 * (if E < 50 then 0 else coulombCorrection n))) -
      2 / 3 * (1 - v) * ((butcherMessel (136 * (n : ℝ) ^ (-1 / 3 : ℝ) * (ME * v / (E * (1 - v))))).2 -
        (4 / 3 * Real.log n + 4 * (if E < 50 then 0 else coulombCorrection n))) := by
    apply butcher_bracket hv1.le
    · split_ifs <;> linarith
    · intro _
      have b1 := butcher_lower hn1 hn2 hx0 one_pos hone
      rw [Real.log_one] at b1
      by_cases h50 : E < 50
      · rw [if_pos h50]
        norm_num at b1 ⊢
        linarith
      · rw [if_neg h50]
        rcases hcase with h | h | h
        · exact absurd h h50
        · have h45 : (n : ℝ) ≤ 45 := by exact_mod_cast h
          have f45 := coulomb_bounds45 hn0.le h45
          by_cases hn7 : n ≤ 20
          · have h20 : (n : ℝ) ≤ 20 := by exact_mod_cast hn7
            have f20 : coulombCorrection n ≤ 0.03 := by
              unfold coulombCorrection
              simp only
              have ha : 0 ≤ ALPHA * (n : ℝ) * (ALPHA * n) := mul_self_nonneg _
              have hb : ALPHA * (n : ℝ) * (ALPHA * n) ≤ 0.0214 := by
                have : ALPHA * (n : ℝ) ≤ 0.146 := by
                  unfold ALPHA
                  linarith
                have h0' : 0 ≤ ALPHA * (n : ℝ) := by
                  have := alpha_pos'
                  positivity
                nlinarith
              generalize ALPHA * (n : ℝ) * (ALPHA * n) = a at ha hb
              have h2 : 1 / (1 + a) ≤ 1 := by
                rw [div_le_one (by linarith)]
                linarith
              have h5 : a * (-0.0369 + a * (0.0083 - 0.002 * a)) ≤ 0 := by nlinarith [mul_nonneg ha ha]
              nlinarith
            linarith
          · have h20 : (20 : ℝ) ≤ n := by
              have : 20 ≤ n := by omega
              exact_mod_cast this
            have : 2.9 ≤ Real.log n := (log_by_power (x := 20) (lo := 2.9) (hi := 3) 10 30 (by norm_num) (by norm_num) (by norm_num) (by norm_num)).1.trans
              (Real.log_le_log (by norm_num) h20)
            linarith
        · have htwo : 136 * (n : ℝ) ^ (-1 / 3 : ℝ) * (ME * v / (E * (1 - v))) ≤ 136 * (n : ℝ) ^ (-1 / 3 : ℝ) * (1 / 2) := by
            apply mul_le_mul_of_nonneg_left _ (by positivity)
            rw [div_le_div_iff₀ hpos two_pos]
            nlinarith
          have b2 := butcher_lower hn1 hn2 hx0 (by norm_num : (0 : ℝ) < 1 / 2) htwo
          have : Real.log (1 / 2) ≤ -0.693 := by
            rw [Real.log_div one_ne_zero two_ne_zero, Real.log_one]
            linarith [Real.log_two_gt_d9]
          norm_num at b2
          have e : Real.log (1 / 2) = - Real.log 2 := by rw [one_div, Real.log_inv]
          have := Real.log_two_gt_d9
          linarith
  have ha := alpha_pos'
  have hr := re_pos'
  have hna := na_pos'
  unfold bremsElectronDiff
  simp only
  rw [electron_bracket_eq table c E v hv1 hE0, hc]
  have hA' : 0 < (if E < 50 then table (Real.log n) (E - ME) else 1) := by
    split_ifs with h
    · exact htable h
    · exact one_pos
  have hxi : 0 < (n : ℝ) + (radiationLogs n).2 / ((radiationLogs n).1 - coulombCorrection n) := by
    have : 0 < (radiationLogs n).2 / ((radiationLogs n).1 - coulombCorrection n) := by
      apply div_pos <;> linarith
    linarith
  have hq : z * z * (ME / ME) * RE ≠ 0 := by positivity
  have hq2 := mul_self_pos.mpr hq
  generalize (2 - 2 * v + v * v) * _ - _ = b at hb ⊢
  generalize z * z * (ME / ME) * RE = q at hq2
  generalize (if E < 50 then table (Real.log n) (E - ME) else 1) = t at hA' ⊢
  have : q * (q * (ALPHA / v) * (t * n * (n + (radiationLogs n).2 / ((radiationLogs n).1 - coulombCorrection n)) * b)) =
    q * q * ((ALPHA / v) * (t * n * (n + (radiationLogs n).2 / ((radiationLogs n).1 - coulombCorrection n)) * b)) := by ring
  rw [this]
  positivity

/-- C126: the last hypothesis is needed. In lead the parametrization for electrons is negative at the upper kinematic limit, at every energy from
50 MeV on. -/
theorem C126_electron_lead_negative (table : ℝ → ℝ → ℝ) (c : Component) (hc : c.nucCharge = 82) (hA : 0 < c.atomicNum) (z E : ℝ) (hz : z ≠ 0) (hE : 50 ≤ E) :
    bremsElectronDiff none table ME z c E (limBremsDefault ME E).vMax < 0 := by
  have hme := me_pos'
  have hE0 : 0 < E := by linarith
  have hq : ME / E ≤ 0.0103 := by
    rw [div_le_iff₀ hE0]
    have : ME ≤ 0.511 := by norm_num [ME]
    linarith
  have hq0 : 0 < ME / E := by positivity
  have hrem : E * (1 - (limBremsDefault ME E).vMax) = ME := by
    unfold limBremsDefault
    simp only
    field_simp
    ring
  have hv0 : 0.9897 ≤ (limBremsDefault ME E).vMax := by
    unfold limBremsDefault
    simp only
    linarith
  have hv1 : (limBremsDefault ME E).vMax < 1 := by
    unfold limBremsDefault
    simp only
    linarith
  set v := (limBremsDefault ME E).vMax with hv
  have hnat : c.nucCharge = ((82 : ℕ) : ℝ) := by rw [hc]; norm_num
  obtain ⟨r1, r2, r3, r4⟩ := radiation_bounds (n := 82) (by norm_num) (by norm_num)
  have hz3 := cbrt_bounds (z := 82) (lo := 0.2301) (hi := 0.2303) (by norm_num) (by norm_num) (by norm_num) (by norm_num) (by norm_num)
  have hl82 := log_by_power (x := 82) (lo := 4.4) (hi := 4.45) 5 22 (by norm_num) (by norm_num) (by norm_num) (by norm_num)
  have hl31 := log_by_power (x := 31.9) (lo := 3.45) (hi := 3.5) 20 69 (by norm_num) (by norm_num) (by norm_num) (by norm_num)
  have hf := coulomb_lead
  have ha := alpha_pos'
  have hr := re_pos'
  have hna := na_pos'
  unfold bremsElectronDiff
  simp only
  rw [electron_bracket_eq table c E v hv1 hE0, hrem, if_neg (by linarith), if_neg (by linarith), hc]
  have harg : 136 * (82 : ℝ) ^ (-1 / 3 : ℝ) * (ME * v / ME) = 136 * (82 : ℝ) ^ (-1 / 3 : ℝ) * v := by
    field_simp
  have hlow : 30.95 ≤ 136 * (82 : ℝ) ^ (-1 / 3 : ℝ) * v := by nlinarith [hz3.1]
  rw [harg, butcher_large (by linarith)]
  simp only
  have hlog : 3.45 ≤ Real.log (136 * (82 : ℝ) ^ (-1 / 3 : ℝ) * v + 0.952) :=
    hl31.1.trans (Real.log_le_log (by norm_num) (by linarith))
  generalize Real.log (136 * (82 : ℝ) ^ (-1 / 3 : ℝ) * v + 0.952) = l at hlog
  have hb : 21.12 - 4.184 * l - (4 / 3 * Real.log 82 + 4 * coulombCorrection 82) < 0 := by linarith [hl82.1]
  generalize 21.12 - 4.184 * l - (4 / 3 * Real.log 82 + 4 * coulombCorrection 82) = b at hb
  have e : (2 - 2 * v + v * v) * b - 2 / 3 * (1 - v) * b = (4 / 3 * (1 - v) + v * v) * b := by ring
  rw [e]
  have hneg : (4 / 3 * (1 - v) + v * v) * b < 0 := mul_neg_of_pos_of_neg spectrum_pos hb
  have hxi : 0 < (82 : ℝ) + (radiationLogs 82).2 / ((radiationLogs 82).1 - coulombCorrection 82) := by
    norm_num at r1 r3
    have : 0 < (radiationLogs 82).2 / ((radiationLogs 82).1 - coulombCorrection 82) := by
      apply div_pos <;> linarith
    linarith
  have hq : z * z * (ME / ME) * RE ≠ 0 := by positivity
  have hq2 := mul_self_pos.mpr hq
  generalize z * z * (ME / ME) * RE = q at hq2
  generalize (82 : ℝ) + (radiationLogs 82).2 / ((radiationLogs 82).1 - coulombCorrection 82) = w at hxi
  have e2 : NAvogadro / c.atomicNum * (q * (q * (ALPHA / v) * (1 * 82 * w * ((4 / 3 * (1 - v) + v * v) * b)))) =
      (NAvogadro / c.atomicNum * (q * q) * (ALPHA / v) * 82 * w) * ((4 / 3 * (1 - v) + v * v) * b) := by ring
  rw [e2]
  apply mul_neg_of_pos_of_neg _ hneg
  have : 0 < v := by linarith
  positivity

lemma electron_gap {n ξ L g v : ℝ} (hn : 5 ≤ n) (hx1 : 0.71 ≤ ξ) (hx2 : ξ ≤ 2.04) (r1 : 3.04 ≤ L) (hg0 : 0 < g) (hg1 : g ≤ 0.005) (h0 : 0 < v) (h1 : v < 1) :
    (n + ξ) * ((4 / 3 * (1 - v) + v * v) * g + (1 - v) * (2 / 3 * 0.838)) - 4 / 9 * (1 - v) * (n + 1) <
      0.02 * ((n + ξ) * ((4 / 3 * (1 - v) + v * v) * (4 * L)) + 4 / 9 * (1 - v) * (n + 1)) := by
  have hs : 0 < 4 / 3 * (1 - v) + v * v := spectrum_pos
  have hnx : 0 < n + ξ := by linarith
  have hv : 0 ≤ 1 - v := by linarith
  have c1 : (n + ξ) * ((4 / 3 * (1 - v) + v * v) * g) ≤ (n + ξ) * ((4 / 3 * (1 - v) + v * v) * 0.005) := by gcongr
  have c2 : (1 - v) * ((n + ξ) * (2 / 3 * 0.838) - 4 / 9 * (n + 1)) ≤ (1 - v) * ((n + ξ) * 0.181) := by
    apply mul_le_mul_of_nonneg_left _ hv
    linarith
  have c3 : (n + ξ) * ((4 / 3 * (1 - v) + v * v) * (4 * 3.04)) ≤ (n + ξ) * ((4 / 3 * (1 - v) + v * v) * (4 * L)) := by gcongr
  have c4 : (n + ξ) * ((1 - v) * 0.181) ≤ (n + ξ) * ((4 / 3 * (1 - v) + v * v) * 0.136) := by
    apply mul_le_mul_of_nonneg_left _ hnx.le
    nlinarith [mul_self_nonneg v]
  have c5 : 0 < (n + ξ) * (4 / 3 * (1 - v) + v * v) := by positivity
  have c6 : 0 ≤ 4 / 9 * (1 - v) * (n + 1) := by
    have : 0 ≤ n + 1 := by linarith
    positivity
  generalize 4 / 3 * (1 - v) + v * v = s at *
  linarith

/-- C126: at high energies the parametrization for electrons is, for elements from boron on, larger than that of complete screening for the same particle, by less
than two percent. -/
theorem C126_electron_limit (table : ℝ → ℝ → ℝ) (n : ℕ) (hn1 : 5 ≤ n) (hn2 : n ≤ 118) (c : Component) (hc : c.nucCharge = n) (hA : 0 < c.atomicNum)
    (m z v : ℝ) (hm : 0 < m) (hz : z ≠ 0) (h0 : 0 < v) (h1 : v < 1) : ∃ r, 1 < r ∧ r < 1.02 ∧
      Tendsto (fun E => bremsElectronDiff none table m z c E v / brems none (bremsComplete c) m z c E v) atTop (𝓝 r) := by
  have hme := me_pos'
  have hn : (5 : ℝ) ≤ n := by exact_mod_cast hn1
  have hn' : (n : ℝ) ≤ 118 := by exact_mod_cast hn2
  have hn0 : (0 : ℝ) < n := by linarith
  obtain ⟨r1, r2, r3, r4⟩ := radiation_bounds (by omega : 1 ≤ n) hn2
  have hLr : (radiationLogs n).1 = Real.log 184.15 - Real.log n / 3 := by
    rw [radiationLogs_nat, if_neg (by omega), if_neg (by omega), if_neg (by omega), if_neg (by omega)]
    exact log_cbrt hn0 _ (by norm_num)
  have hl := log184
  set L := (radiationLogs n).1 - coulombCorrection n with hL
  set P := (radiationLogs n).2 with hP
  set k := 4 / 3 * Real.log n + 4 * coulombCorrection n with hk
  have hk' : k = 4 * Real.log 184.15 - 4 * L := by
    rw [hk, hL, hLr]
    ring
  have hL0 : 0 < L := by linarith
  have hs : 0 < 4 / 3 * (1 - v) + v * v := spectrum_pos
  set ξ := P / L with hξ
  have hx1 : 0.71 ≤ ξ := by
    rw [hξ, le_div_iff₀ hL0]
    nlinarith
  have hx2 : ξ ≤ 2.04 := by
    rw [hξ, div_le_iff₀ hL0]
    nlinarith
  set N := (n : ℝ) * (n + ξ) * ((2 - 2 * v + v * v) * (20.867 - k) - 2 / 3 * (1 - v) * (20.029 - k)) with hN
  set D := 4 * n ^ 2 * (((4 / 3 * (1 - v) + v * v) * (n * L + P) + 1 / 9 * (1 - v) * (n + 1)) / n) with hD
  have hD' : D = n * (n + ξ) * ((4 / 3 * (1 - v) + v * v) * (4 * L)) + 4 / 9 * n * (1 - v) * (n + 1) := by
    have e1 : n * L + P = (n + ξ) * L := by
      rw [hξ]
      field_simp
    rw [hD, e1]
    field_simp
  have hDpos : 0 < D := by
    rw [hD']
    have a1 : 0 < (n : ℝ) * (n + ξ) * ((4 / 3 * (1 - v) + v * v) * (4 * L)) := by
      have : 0 < (n : ℝ) + ξ := by linarith
      positivity
    have a2 : 0 ≤ 4 / 9 * (n : ℝ) * (1 - v) * (n + 1) := by
      have : 0 ≤ 1 - v := by linarith
      positivity
    linarith
  have hdiff : N - D = n * ((n + ξ) * ((4 / 3 * (1 - v) + v * v) * (20.867 - 4 * Real.log 184.15) + (1 - v) * (2 / 3 * 0.838)) - 4 / 9 * (1 - v) * (n + 1)) := by
    rw [hN, hD', hk']
    ring
  have hgap0 : 0 < 20.867 - 4 * Real.log 184.15 := by linarith [hl.2]
  have hgap1 : 20.867 - 4 * Real.log 184.15 ≤ 0.005 := by linarith [hl.1]
  set g := 20.867 - 4 * Real.log 184.15 with hg
  refine ⟨N / D, ?_, ?_, ?_⟩
  · rw [one_lt_div hDpos]
    have : 0 < N - D := by
      rw [hdiff]
      apply mul_pos hn0
      have b1 : 0 < (n + ξ) * ((4 / 3 * (1 - v) + v * v) * g) := by
        have : 0 < (n : ℝ) + ξ := by linarith
        positivity
      have b2 : 0 ≤ (1 - v) * ((n + ξ) * (2 / 3 * 0.838) - 4 / 9 * (n + 1)) := by
        apply mul_nonneg (by linarith)
        linarith
      linarith
    linarith
  · rw [div_lt_iff₀ hDpos]
    have b3 : N - D < 0.02 * D := by
      rw [hdiff, hD']
      have := electron_gap hn hx1 hx2 r1 hgap0 hgap1 h0 h1
      clear * - this hn0
      nlinarith
    linarith
  · have hx : Tendsto (fun E => 136 * (n : ℝ) ^ (-1 / 3 : ℝ) * 2 * bremsDelta m E v / ME) atTop (𝓝 0) := by
      have := ((brems_delta_high hm h0 h1).mono_right nhdsWithin_le_nhds).const_mul (136 * (n : ℝ) ^ (-1 / 3 : ℝ) * 2 / ME)
      rw [mul_zero] at this
      refine this.congr fun E => ?_
      ring
    have hsmall : ∀ᶠ E in atTop, 136 * (n : ℝ) ^ (-1 / 3 : ℝ) * 2 * bremsDelta m E v / ME ≤ 1 := by
      filter_upwards [hx.eventually (gt_mem_nhds one_pos)] with E hE using le_of_lt hE
    have hlim : Tendsto (fun E => (n : ℝ) * (n + ξ) * ((2 - 2 * v + v * v) * (20.867 - 3.242 * (136 * (n : ℝ) ^ (-1 / 3 : ℝ) * 2 * bremsDelta m E v / ME) +
          0.625 * ((136 * (n : ℝ) ^ (-1 / 3 : ℝ) * 2 * bremsDelta m E v / ME) * (136 * (n : ℝ) ^ (-1 / 3 : ℝ) * 2 * bremsDelta m E v / ME)) - k) -
        2 / 3 * (1 - v) * (20.029 - 1.930 * (136 * (n : ℝ) ^ (-1 / 3 : ℝ) * 2 * bremsDelta m E v / ME) -
          0.086 * ((136 * (n : ℝ) ^ (-1 / 3 : ℝ) * 2 * bremsDelta m E v / ME) * (136 * (n : ℝ) ^ (-1 / 3 : ℝ) * 2 * bremsDelta m E v / ME)) - k)) / D) atTop
        (𝓝 (N / D)) := by
      have hc0 : Continuous fun x : ℝ => (n : ℝ) * (n + ξ) * ((2 - 2 * v + v * v) * (20.867 - 3.242 * x + 0.625 * (x * x) - k) -
        2 / 3 * (1 - v) * (20.029 - 1.930 * x - 0.086 * (x * x) - k)) / D := by fun_prop
      have h := (hc0.tendsto 0).comp hx
      refine h.trans (le_of_eq ?_)
      congr 1
      rw [hN]
      ring
    refine hlim.congr' ?_
    filter_upwards [hsmall, eventually_ge_atTop (50 : ℝ)] with E hE h50
    have ha := alpha_pos'
    have hr := re_pos'
    have hna := na_pos'
    unfold bremsElectronDiff brems bremsElectron bremsComplete butcherMessel
    simp only [hc]
    rw [if_pos hE, if_neg (by linarith), if_neg (by linarith)]
    simp only
    rw [← hL, ← hP, ← hξ]
    set x := 136 * (n : ℝ) ^ (-1 / 3 : ℝ) * 2 * bremsDelta m E v / ME
    have e1 : ∀ w, w - 4 / 3 * Real.log n - 4 * coulombCorrection n = w - k := fun w => by
      rw [hk]
      ring
    rw [e1, e1, hD]
    have hq : 0 < (z * z * (ME / m) * RE) ^ 2 := by positivity
    have hDD : ((4 / 3 * (1 - v) + v * v) * (n * L + P) + 1 / 9 * (1 - v) * (n + 1)) / (n : ℝ) ≠ 0 := by
      intro h
      rw [hD, h, mul_zero] at hDpos
      exact lt_irrefl _ hDpos
    generalize ((4 / 3 * (1 - v) + v * v) * (n * L + P) + 1 / 9 * (1 - v) * (n + 1)) / (n : ℝ) = d at hDD
    generalize (2 - 2 * v + v * v) * (20.867 - 3.242 * x + 0.625 * (x * x) - k) - 2 / 3 * (1 - v) * (20.029 - 1.930 * x - 0.086 * (x * x) - k) = b
    field_simp
    ring

/-- An electron in lead. -/
example : ∃ r, 1 < r ∧ r < 1.02 ∧ Tendsto (fun E => bremsElectronDiff none (fun _ _ => 1) ME (-1) { exOx with nucCharge := (82 : ℕ) } E 0.5 /
    brems none (bremsComplete { exOx with nucCharge := (82 : ℕ) }) ME (-1) { exOx with nucCharge := (82 : ℕ) } E 0.5) atTop (𝓝 r) :=
  C126_electron_limit _ 82 (by norm_num) (by norm_num) _ rfl (by norm_num [exOx]) _ _ _ me_pos' (by norm_num) (by norm_num) (by norm_num)

end Proposal
