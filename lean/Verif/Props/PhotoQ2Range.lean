import Verif.Model.PhotoQ2
import Mathlib.Tactic

/-!
# C130: photonuclear interaction, range of the virtuality
-/

namespace Proposal

/-- The virtualities `Q² = -(k - k')²` a particle of mass `m` can transfer when it goes from the energy `E` to `E'`: `c` is the cosine of
the scattering angle. -/
def Spec.Reachable (m E E' Q2 : ℝ) : Prop :=
  ∃ c : ℝ, -1 ≤ c ∧ c ≤ 1 ∧ Q2 = 2 * (E * E' - Real.sqrt (E ^ 2 - m ^ 2) * Real.sqrt (E' ^ 2 - m ^ 2) * c - m ^ 2)

theorem photo_vmin (m M E : ℝ) : (limPhotonuclear m M E).vMin = (MPI + MPI * MPI / (2 * M)) / E := by
  unfold limPhotonuclear KinLim.raised
  split_ifs <;> rfl

theorem q2max_eq (m M E v : ℝ) (hM : 0 < M) (hE : 0 < E) : q2Max m M E v = 2 * M * E * v - 2 * M * MPI - MPI ^ 2 := by
  unfold q2Max
  rw [photo_vmin]
  field_simp
  ring

/-- C130: the upper limit of the virtuality is where the nucleon and a pion can just be produced. -/
theorem C130_threshold (m M E v Q2 : ℝ) (hM : 0 < M) (hE : 0 < E) :
    Q2 ≤ q2Max m M E v ↔ (M + MPI) ^ 2 ≤ M ^ 2 + 2 * M * (E * v) - Q2 := by
  rw [q2max_eq m M E v hM hE]
  constructor <;> intro h <;> nlinarith

theorem q2min_le (m E v : ℝ) (hv : v < 1) : q2Min m E v ≤ m ^ 2 * v ^ 2 / (1 - v) := by
  have h1 : 0 < 1 - v := by linarith
  unfold q2Min
  have e : m * v * (m * v / (1 - v)) = m ^ 2 * v ^ 2 / (1 - v) := by ring
  simp only [e]
  split_ifs
  · have : 0 ≤ m * m / E * (m * m / E) / (2 * (1 - v)) := div_nonneg (mul_self_nonneg _) (by linarith)
    linarith
  · exact le_rfl

theorem q2min_pos (m E v : ℝ) (hm : 0 < m) (hE : 0 < E) (h : MPI < E * v ∨ MPI ≤ m) (h0 : 0 < v) (h1 : v < 1) : 0 < q2Min m E v := by
  have h1' : 0 < 1 - v := by linarith
  unfold q2Min
  have e : m * v * (m * v / (1 - v)) = m ^ 2 * v ^ 2 / (1 - v) := by ring
  simp only [e]
  split_ifs with hl
  · have hp : MPI < E * v := by
      rcases h with h | h
      · exact h
      · exact absurd hl (not_lt.mpr h)
    have e2 : m ^ 2 * v ^ 2 / (1 - v) - m * m / E * (m * m / E) / (2 * (1 - v)) =
        m ^ 2 * (2 * (E * v) ^ 2 - m ^ 2) / (2 * E ^ 2 * (1 - v)) := by
      field_simp
    rw [e2]
    have : m ^ 2 < (E * v) ^ 2 := by
      have : m < E * v := by linarith
      nlinarith
    have : 0 < 2 * (E * v) ^ 2 - m ^ 2 := by nlinarith [sq_nonneg (E * v)]
    positivity
  · positivity

/-- C130: in the range of the integration the virtuality is positive, the momentum fraction is between 0 and 1 and the final state heavy
enough for a nucleon and a pion. -/
theorem C130_range (m M E v Q2 : ℝ) (hm : 0 < m) (hM : 0 < M) (hE : 0 < E) (h0 : (limPhotonuclear m M E).vMin ≤ v) (h1 : v < 1)
    (hl : q2Min m E v ≤ Q2) (hu : Q2 ≤ q2Max m M E v) :
    0 < Q2 ∧ 0 < Q2 / (2 * M * v * E) ∧ Q2 / (2 * M * v * E) < 1 ∧ (M + MPI) ^ 2 ≤ M ^ 2 + 2 * M * (E * v) - Q2 := by
  have hpi : 0 < MPI := by norm_num [MPI]
  rw [photo_vmin, div_le_iff₀ hE] at h0
  have hp : MPI < E * v := by
    have : 0 < MPI * MPI / (2 * M) := by positivity
    linarith
  have hv : 0 < v := by
    by_contra hn
    nlinarith [not_lt.mp hn]
  have hQ : 0 < Q2 := lt_of_lt_of_le (q2min_pos m E v hm hE (Or.inl hp) hv h1) hl
  refine ⟨hQ, by positivity, ?_, (C130_threshold m M E v Q2 hM hE).mp hu⟩
  rw [div_lt_one (by positivity)]
  rw [q2max_eq m M E v hM hE] at hu
  have : 0 < 2 * M * MPI + MPI ^ 2 := by positivity
  nlinarith

/-- The smallest virtuality a particle can transfer is above `m² v² / (1 - v)`. -/
theorem reach_min (m E E' : ℝ) (hm : 0 < m) (hE : m ≤ E) (hE' : m ≤ E') (hne : E' < E) :
    m ^ 2 * (E - E') ^ 2 / (E * E') < 2 * (E * E' - Real.sqrt (E ^ 2 - m ^ 2) * Real.sqrt (E' ^ 2 - m ^ 2) - m ^ 2) := by
  have e0 : 0 < E := by linarith
  have e1 : 0 < E' := by linarith
  rw [← Real.sqrt_mul (by nlinarith)]
  have hX : 0 ≤ E * E' - m ^ 2 * (E ^ 2 + E' ^ 2) / (2 * (E * E')) := by
    rw [sub_nonneg, div_le_iff₀ (by positivity)]
    have : m ^ 2 * (E ^ 2 + E' ^ 2) ≤ E' ^ 2 * (E ^ 2) + E ^ 2 * (E' ^ 2) := by
      have a : m ^ 2 ≤ E' ^ 2 := by nlinarith
      have b : m ^ 2 ≤ E ^ 2 := by nlinarith
      nlinarith [mul_le_mul_of_nonneg_right a (sq_nonneg E), mul_le_mul_of_nonneg_right b (sq_nonneg E')]
    nlinarith
  have hs : Real.sqrt ((E ^ 2 - m ^ 2) * (E' ^ 2 - m ^ 2)) < E * E' - m ^ 2 * (E ^ 2 + E' ^ 2) / (2 * (E * E')) := by
    rw [Real.sqrt_lt' ?_]
    · have e : (E * E' - m ^ 2 * (E ^ 2 + E' ^ 2) / (2 * (E * E'))) ^ 2 - (E ^ 2 - m ^ 2) * (E' ^ 2 - m ^ 2) =
          m ^ 4 * (E ^ 2 - E' ^ 2) ^ 2 / (4 * (E * E') ^ 2) := by
        field_simp
        ring
      have hp : 0 < m ^ 4 * (E ^ 2 - E' ^ 2) ^ 2 / (4 * (E * E') ^ 2) := by
        have : 0 < (E ^ 2 - E' ^ 2) ^ 2 := by
          have : 0 < E ^ 2 - E' ^ 2 := by nlinarith
          positivity
        positivity
      linarith
    · rcases hX.lt_or_eq with h | h
      · exact h
      · exfalso
        have h' : m ^ 2 * (E ^ 2 + E' ^ 2) / (2 * (E * E')) = E * E' := by linarith
        rw [div_eq_iff (by positivity)] at h'
        have a : m ^ 2 ≤ E' ^ 2 := by nlinarith
        have b : m ^ 2 < E ^ 2 := by nlinarith
        nlinarith [mul_le_mul_of_nonneg_right a (sq_nonneg E), mul_lt_mul_of_pos_right b (by positivity : (0:ℝ) < E' ^ 2)]
  have e2 : m ^ 2 * (E - E') ^ 2 / (E * E') = 2 * (m ^ 2 * (E ^ 2 + E' ^ 2) / (2 * (E * E'))) - 2 * m ^ 2 := by
    field_simp
    ring
  rw [e2]
  linarith

theorem reach_bounds (m E E' Q2 : ℝ) (h : Spec.Reachable m E E' Q2) :
    2 * (E * E' - Real.sqrt (E ^ 2 - m ^ 2) * Real.sqrt (E' ^ 2 - m ^ 2) - m ^ 2) ≤ Q2 ∧
      Q2 ≤ 2 * (E * E' + Real.sqrt (E ^ 2 - m ^ 2) * Real.sqrt (E' ^ 2 - m ^ 2) - m ^ 2) := by
  obtain ⟨c, c0, c1, rfl⟩ := h
  have := mul_nonneg (Real.sqrt_nonneg (E ^ 2 - m ^ 2)) (Real.sqrt_nonneg (E' ^ 2 - m ^ 2))
  constructor <;> nlinarith

/-- C130: the range of the integration contains all virtualities that can be reached and leave enough energy for a pion. -/
theorem C130_complete (m M E v Q2 : ℝ) (hm : 0 < m) (hM : 0 < M) (hE : 0 < E) (h0 : 0 < v) (hv : m ≤ E * (1 - v))
    (h : Spec.Reachable m E (E * (1 - v)) Q2) (hW : (M + MPI) ^ 2 ≤ M ^ 2 + 2 * M * (E * v) - Q2) :
    q2Min m E v ≤ Q2 ∧ Q2 ≤ q2Max m M E v := by
  have h1 : v < 1 := by
    by_contra hn
    nlinarith [not_lt.mp hn]
  refine ⟨?_, (C130_threshold m M E v Q2 hM hE).mpr hW⟩
  have hr := (reach_bounds m E _ Q2 h).1
  have hs := reach_min m E (E * (1 - v)) hm (by nlinarith) hv (by nlinarith)
  have e : m ^ 2 * (E - E * (1 - v)) ^ 2 / (E * (E * (1 - v))) = m ^ 2 * v ^ 2 / (1 - v) := by
    have : 0 < 1 - v := by linarith
    field_simp
    ring
  rw [e] at hs
  linarith [q2min_le m E v h1]

/-- C130 fails at the lower end: the smallest virtuality of the range cannot be reached, for any particle, energy and loss. -/
theorem C130_unreachable (m E v : ℝ) (hm : 0 < m) (hE : 0 < E) (h0 : 0 < v) (hv : m ≤ E * (1 - v)) :
    ¬ Spec.Reachable m E (E * (1 - v)) (q2Min m E v) ∧ ¬ Spec.Reachable m E (E * (1 - v)) (m ^ 2 * v ^ 2 / (1 - v)) := by
  have h1 : v < 1 := by
    by_contra hn
    nlinarith [not_lt.mp hn]
  have hs := reach_min m E (E * (1 - v)) hm (by nlinarith) hv (by nlinarith)
  have e : m ^ 2 * (E - E * (1 - v)) ^ 2 / (E * (E * (1 - v))) = m ^ 2 * v ^ 2 / (1 - v) := by
    have : 0 < 1 - v := by linarith
    field_simp
    ring
  rw [e] at hs
  have hq := q2min_le m E v h1
  constructor <;> intro h
  · have := (reach_bounds _ _ _ _ h).1
    linarith
  · have := (reach_bounds _ _ _ _ h).1
    linarith

/-- C130 fails at the lower end: for electrons and muons the correction to the lower limit has the wrong sign. The limit without it is
closer to the smallest virtuality that can be reached. -/
theorem C130_correction (m E v Q2 : ℝ) (hm : 0 < m) (hl : m < MPI) (hE : 0 < E) (h0 : 0 < v) (hv : m ≤ E * (1 - v))
    (h : Spec.Reachable m E (E * (1 - v)) Q2) :
    q2Min m E v + m ^ 4 / (2 * E ^ 2 * (1 - v)) = m ^ 2 * v ^ 2 / (1 - v) ∧ q2Min m E v + m ^ 4 / (2 * E ^ 2 * (1 - v)) < Q2 := by
  have h1 : v < 1 := by
    by_contra hn
    nlinarith [not_lt.mp hn]
  have h1' : 0 < 1 - v := by linarith
  have e1 : q2Min m E v + m ^ 4 / (2 * E ^ 2 * (1 - v)) = m ^ 2 * v ^ 2 / (1 - v) := by
    unfold q2Min
    simp only [hl, if_true]
    field_simp
    ring
  refine ⟨e1, ?_⟩
  rw [e1]
  have hs := reach_min m E (E * (1 - v)) hm (by nlinarith) hv (by nlinarith)
  have e : m ^ 2 * (E - E * (1 - v)) ^ 2 / (E * (E * (1 - v))) = m ^ 2 * v ^ 2 / (1 - v) := by
    field_simp
    ring
  rw [e] at hs
  linarith [(reach_bounds _ _ _ _ h).1]

/-- C130: for electrons and muons the upper limit can be reached whatever the loss inside of the kinematic limits. -/
theorem C130_maximum (m M E v Q2 : ℝ) (hm : 0 < m) (hl : m < MPI) (hM : MPI ≤ M) (hE : 0 < E)
    (h0 : (limPhotonuclear m M E).vMin < (limPhotonuclear m M E).vMax) (hv : (limPhotonuclear m M E).vMin ≤ v)
    (h1 : v ≤ (limPhotonuclear m M E).vMax) (hQ : Q2 ≤ q2Max m M E v) :
    m ≤ E * (1 - v) ∧
      Q2 < 2 * (E * (E * (1 - v)) + Real.sqrt (E ^ 2 - m ^ 2) * Real.sqrt ((E * (1 - v)) ^ 2 - m ^ 2) - m ^ 2) := by
  have hpi : 0 < MPI := by norm_num [MPI]
  have hM0 : 0 < M := lt_of_lt_of_le hpi hM
  have hvm : (limPhotonuclear m M E).vMax = 1 - M * (1 + m / M * (m / M)) / (2 * E) := by
    unfold limPhotonuclear KinLim.raised at h0 ⊢
    split_ifs at h0 ⊢ with h
    · exact absurd h0 (lt_irrefl _)
    · rfl
  rw [hvm] at h1
  rw [photo_vmin, div_le_iff₀ hE] at hv
  have hpM : 0 < MPI * MPI / (2 * M) := by positivity
  have hp : MPI < E * v := by linarith
  have h0v : 0 < v := by
    by_contra hn
    nlinarith [not_lt.mp hn]
  have he0 : (M ^ 2 + m ^ 2) / (2 * M) ≤ E * (1 - v) := by
    have e : M * (1 + m / M * (m / M)) / (2 * E) = (M ^ 2 + m ^ 2) / (2 * M) / E := by
      field_simp
    rw [e] at h1
    have : (M ^ 2 + m ^ 2) / (2 * M) / E ≤ 1 - v := by linarith
    rw [div_le_iff₀ hE] at this
    linarith
  set E' := E * (1 - v) with hE'
  have hmM : m < M := by linarith
  have hm0 : m ≤ (M ^ 2 + m ^ 2) / (2 * M) := by
    rw [le_div_iff₀ (by positivity)]
    nlinarith [sq_nonneg (M - m)]
  refine ⟨by linarith, ?_⟩
  have hp' : (M ^ 2 - m ^ 2) / (2 * M) ≤ Real.sqrt (E' ^ 2 - m ^ 2) := by
    apply Real.le_sqrt_of_sq_le
    have e : ((M ^ 2 - m ^ 2) / (2 * M)) ^ 2 = ((M ^ 2 + m ^ 2) / (2 * M)) ^ 2 - m ^ 2 := by
      field_simp
      ring
    rw [e]
    have : 0 ≤ (M ^ 2 + m ^ 2) / (2 * M) := by positivity
    nlinarith
  have hEE : E' ≤ E := by rw [hE']; nlinarith
  have hpE : E - M ≤ Real.sqrt (E ^ 2 - m ^ 2) := by
    apply Real.le_sqrt_of_sq_le
    have : (M ^ 2 + m ^ 2) ≤ 2 * M * E := by
      have h3 : (M ^ 2 + m ^ 2) / (2 * M) ≤ E := by linarith
      rw [div_le_iff₀ (by positivity)] at h3
      linarith
    nlinarith
  have hpp : (E - M) * ((M ^ 2 - m ^ 2) / (2 * M)) ≤ Real.sqrt (E ^ 2 - m ^ 2) * Real.sqrt (E' ^ 2 - m ^ 2) := by
    have hd : 0 ≤ (M ^ 2 - m ^ 2) / (2 * M) := div_nonneg (by nlinarith) (by positivity)
    calc (E - M) * ((M ^ 2 - m ^ 2) / (2 * M)) ≤ Real.sqrt (E ^ 2 - m ^ 2) * ((M ^ 2 - m ^ 2) / (2 * M)) :=
          mul_le_mul_of_nonneg_right hpE hd
      _ ≤ _ := mul_le_mul_of_nonneg_left hp' (Real.sqrt_nonneg _)
  have hsum : (M ^ 2 + m ^ 2) / (2 * M) * (E + M) + (E - M) * ((M ^ 2 - m ^ 2) / (2 * M)) = M * E + m ^ 2 := by
    field_simp
    ring
  have hle : (M ^ 2 + m ^ 2) / (2 * M) * (E + M) ≤ E' * (E + M) := mul_le_mul_of_nonneg_right he0 (by linarith)
  rw [q2max_eq m M E v hM0 hE] at hQ
  have hv' : E * v = E - E' := by rw [hE']; ring
  have : 0 < 2 * M * MPI + MPI ^ 2 := by positivity
  have hMv : 2 * M * E * v = 2 * M * (E - E') := by rw [← hv']; ring
  nlinarith

/-- C130 fails for tau leptons: the range is not empty although the tau lepton would keep less energy than its mass. -/
theorem C130_tau (M E : ℝ) (hM : 938 ≤ M) (hE : 1e4 ≤ E) :
    ∃ v, (limPhotonuclear MTAU M E).vMin < v ∧ v < (limPhotonuclear MTAU M E).vMax ∧ E * (1 - v) < MTAU ∧
      q2Min MTAU E v < q2Max MTAU M E v := by
  have hE0 : (0:ℝ) < E := by linarith
  have hM0 : (0:ℝ) < M := by linarith
  refine ⟨1 - 1750 / E, ?_, ?_, ?_, ?_⟩
  · rw [photo_vmin, div_lt_iff₀ hE0]
    have e : (1 - 1750 / E) * E = E - 1750 := by field_simp
    rw [e]
    have : MPI * MPI / (2 * M) ≤ 12 := by
      rw [div_le_iff₀ (by positivity)]
      norm_num [MPI]
      linarith
    have : MPI ≤ 140 := by norm_num [MPI]
    linarith
  · have h1 : (limPhotonuclear MTAU M E).vMax = 1 := by
      unfold limPhotonuclear KinLim.raised
      have hn : ¬ MTAU < MPI := by norm_num [MTAU, MPI]
      simp only [hn, if_false]
      rw [if_neg]
      rw [not_lt, div_le_iff₀ hE0]
      have : MPI * MPI / (2 * M) ≤ 12 := by
        rw [div_le_iff₀ (by positivity)]
        norm_num [MPI]
        linarith
      have : MPI ≤ 140 := by norm_num [MPI]
      linarith
    rw [h1]
    have : 0 < 1750 / E := by positivity
    linarith
  · have e : E * (1 - (1 - 1750 / E)) = 1750 := by field_simp; ring
    rw [e]
    norm_num [MTAU]
  · rw [q2max_eq _ _ _ _ hM0 hE0]
    refine lt_of_le_of_lt (q2min_le _ _ _ (by have : 0 < 1750 / E := by positivity
                                              linarith)) ?_
    have e : MTAU ^ 2 * (1 - 1750 / E) ^ 2 / (1 - (1 - 1750 / E)) = MTAU ^ 2 / 1750 * (E - 1750) * ((E - 1750) / E) := by
      field_simp
      ring
    have e2 : 2 * M * E * (1 - 1750 / E) = 2 * M * (E - 1750) := by field_simp
    rw [e, e2]
    have h1 : (E - 1750) / E ≤ 1 := by
      rw [div_le_one hE0]
      linarith
    have h2 : MTAU ^ 2 / 1750 ≤ 1805 := by norm_num [MTAU]
    have h3 : 0 ≤ MTAU ^ 2 / 1750 := by positivity
    have h4 : MTAU ^ 2 / 1750 * (E - 1750) * ((E - 1750) / E) ≤ 1805 * (E - 1750) := by
      calc MTAU ^ 2 / 1750 * (E - 1750) * ((E - 1750) / E) ≤ MTAU ^ 2 / 1750 * (E - 1750) * 1 :=
            mul_le_mul_of_nonneg_left h1 (mul_nonneg h3 (by linarith))
        _ ≤ 1805 * (E - 1750) := by nlinarith
    have h5 : MPI ≤ 140 := by norm_num [MPI]
    have h6 : 0 < MPI := by norm_num [MPI]
    nlinarith

/-- C130: losses below the lower kinematic limit have an empty range. -/
theorem C130_outside (m M E v : ℝ) (hm : 0 < m) (hM : 900 ≤ M) (hE : m ≤ E) (h0 : 0 < v) (h1 : v < 1)
    (hv : v ≤ (limPhotonuclear m M E).vMin) : q2Max m M E v < q2Min m E v := by
  have hE0 : 0 < E := by linarith
  have hM0 : 0 < M := by linarith
  have h1' : 0 < 1 - v := by linarith
  have hpi : 0 < MPI := by norm_num [MPI]
  have hpi' : MPI < 140 := by norm_num [MPI]
  have hmax : q2Max m M E v ≤ 0 := by
    unfold q2Max
    have : v - (limPhotonuclear m M E).vMin ≤ 0 := by linarith
    have : 0 < 2 * M * E := by positivity
    nlinarith
  by_cases hl : m < MPI
  · by_cases hw : m ^ 2 < 2 * (E * v) ^ 2
    · refine lt_of_le_of_lt hmax ?_
      unfold q2Min
      simp only [hl, if_true]
      have e2 : m * v * (m * v / (1 - v)) - m * m / E * (m * m / E) / (2 * (1 - v)) =
          m ^ 2 * (2 * (E * v) ^ 2 - m ^ 2) / (2 * E ^ 2 * (1 - v)) := by
        field_simp
      rw [e2]
      have : 0 < 2 * (E * v) ^ 2 - m ^ 2 := by linarith
      positivity
    · have hw' : 2 * (E * v) ^ 2 ≤ m ^ 2 := not_lt.mp hw
      have hEv : 0 < E * v := by positivity
      have h7 : E * v ≤ 0.71 * m := by
        by_contra hn
        have := not_le.mp hn
        nlinarith
      have h8 : 0.29 ≤ 1 - v := by
        have : E * v ≤ 0.71 * E := by linarith
        have : v ≤ 0.71 := le_of_mul_le_mul_left (by linarith) hE0
        linarith
      rw [q2max_eq _ _ _ _ hM0 hE0]
      have hq : -(2 * m ^ 2) ≤ q2Min m E v := by
        unfold q2Min
        simp only [hl, if_true]
        have a : 0 ≤ m * v * (m * v / (1 - v)) := by positivity
        have b : m * m / E * (m * m / E) / (2 * (1 - v)) ≤ 2 * m ^ 2 := by
          rw [div_le_iff₀ (by positivity)]
          have c1 : m * m / E ≤ m := by
            rw [div_le_iff₀ hE0]
            nlinarith
          have c2 : 0 ≤ m * m / E := by positivity
          have c3 : m * m / E * (m * m / E) ≤ m * m := mul_le_mul c1 c1 c2 hm.le
          nlinarith
        linarith
      have : 2 * M * E * v - 2 * M * MPI - MPI ^ 2 < -(2 * m ^ 2) := by
        have c1 : M * (E * v) ≤ M * (0.71 * m) := mul_le_mul_of_nonneg_left h7 hM0.le
        have c2 : M * (0.71 * m) ≤ M * (0.71 * MPI) := mul_le_mul_of_nonneg_left (by linarith) hM0.le
        have c3 : m ^ 2 ≤ 140 * MPI := by nlinarith
        have c4 : 900 * MPI ≤ M * MPI := mul_le_mul_of_nonneg_right hM hpi.le
        nlinarith
      linarith
  · exact lt_of_le_of_lt hmax (q2min_pos m E v hm hE0 (Or.inr (not_lt.mp hl)) h0 h1)

/-- A muon of 100 GeV that loses a tenth of its energy, and a virtuality it can transfer. -/
example : ∃ Q2, q2Min MMU 1e5 0.1 ≤ Q2 ∧ Q2 ≤ q2Max MMU 938.9 1e5 0.1 ∧ 0 < Q2 ∧ Spec.Reachable MMU 1e5 (1e5 * (1 - 0.1)) Q2 := by
  have hr : Spec.Reachable MMU 1e5 (1e5 * (1 - 0.1))
      (2 * (1e5 * (1e5 * (1 - 0.1)) - Real.sqrt (1e5 ^ 2 - MMU ^ 2) * Real.sqrt ((1e5 * (1 - 0.1)) ^ 2 - MMU ^ 2) * 1 - MMU ^ 2)) :=
    ⟨1, by norm_num, le_rfl, rfl⟩
  have hs : (1e5 - 1) * (1e5 * (1 - 0.1) - 1) ≤ Real.sqrt (1e5 ^ 2 - MMU ^ 2) * Real.sqrt ((1e5 * (1 - 0.1)) ^ 2 - MMU ^ 2) := by
    refine mul_le_mul ?_ ?_ (by norm_num) (Real.sqrt_nonneg _)
    · exact Real.le_sqrt_of_sq_le (by norm_num [MMU])
    · exact Real.le_sqrt_of_sq_le (by norm_num [MMU])
  have hm : 0 < MMU := by norm_num [MMU]
  have hW : (938.9 + MPI) ^ 2 ≤ 938.9 ^ 2 + 2 * 938.9 * (1e5 * 0.1) -
      (2 * (1e5 * (1e5 * (1 - 0.1)) - Real.sqrt (1e5 ^ 2 - MMU ^ 2) * Real.sqrt ((1e5 * (1 - 0.1)) ^ 2 - MMU ^ 2) * 1 - MMU ^ 2)) := by
    norm_num [MPI, MMU] at hs ⊢
    linarith
  obtain ⟨a, b⟩ := C130_complete MMU 938.9 1e5 0.1 _ hm (by norm_num) (by norm_num) (by norm_num) (by norm_num [MMU]) hr hW
  refine ⟨_, a, b, (C130_range MMU 938.9 1e5 0.1 _ hm (by norm_num) (by norm_num) ?_ (by norm_num) a b).1, hr⟩
  rw [photo_vmin]
  norm_num [MPI]

end Proposal
