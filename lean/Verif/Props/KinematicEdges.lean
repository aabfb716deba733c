import Verif.Model.Kinematics
import Mathlib.Analysis.SpecialFunctions.Sqrt
import Mathlib.Analysis.Complex.ExponentialBounds
import Mathlib.Tactic.LinearCombination

/-!
# Kinematic limits: the limits are those of the reactions (C30)
-/

namespace Proposal

/-- C30: the number `SQRTE` is the root of Euler's number, to eight digits. -/
theorem C30_root_of_e : |SQRTE ^ 2 - Real.exp 1| < 1 / 10 ^ 8 := by
  have h1 := Real.exp_one_gt_d9
  have h2 := Real.exp_one_lt_d9
  unfold SQRTE
  rw [abs_lt]
  constructor <;> norm_num at * <;> linarith

/-- C30: after the largest loss by bremsstrahlung (without the cut of Lorenz) a charged particle has 3/4 of the root of e of
its rest energy times the cubic root of the charge of the nucleus, unless its energy is smaller. -/
theorem C30_brems_remainder (m Z E : ℝ) (hE : 0 < E) :
    E * (1 - (limBrems none m Z E).vMax) = min E (3 / 4 * SQRTE * m * Z ^ (1 / 3 : ℝ)) := by
  have key : E * (1 - petrukhin m Z E) = 3 / 4 * SQRTE * m * Z ^ (1 / 3 : ℝ) := by
    unfold petrukhin
    field_simp
    norm_num
    ring
  unfold limBrems
  split_ifs with h
  · simp only [sub_zero, mul_one]
    rw [min_eq_left]
    rw [← key]; nlinarith
  · simp only [key]
    rw [min_eq_right]
    rw [← key]; push Not at h; nlinarith

/-- C30: the cut of Lorenz is the largest energy of a photon. -/
theorem C30_lorenz (m Z E cut : ℝ) (hE : 0 < E) (h : cut ≤ E * (limBrems none m Z E).vMax) (hc : 0 < cut) :
    E * (limBrems (some cut) m Z E).vMax = cut := by
  unfold limBrems at *
  split_ifs at * with h0
  · simp only [mul_zero] at h; linarith
  · simp only at *
    rw [min_eq_right, mul_div_cancel₀ _ hE.ne']
    rw [div_le_iff₀ hE]; linarith

/-- C30: the pair of a charged particle has at least four electron masses, the particle keeps at least what it keeps for
bremsstrahlung and 6 m^2 / E; both limits are reached. -/
theorem C30_epair_edges (m Z E : ℝ) (hE : 0 < E) (hne : (limEpair m Z E).vMin < (limEpair m Z E).vMax) :
    E * (limEpair m Z E).vMin = 4 * ME ∧
    E * (1 - (limEpair m Z E).vMax) = max (3 / 4 * SQRTE * m * Z ^ (1 / 3 : ℝ)) (6 * m ^ 2 / E) := by
  have key : E * (1 - petrukhin m Z E) = 3 / 4 * SQRTE * m * Z ^ (1 / 3 : ℝ) := by
    unfold petrukhin
    field_simp
    norm_num
    ring
  have k2 : E * (1 - (1 - 6 * (m / E) * (m / E))) = 6 * m ^ 2 / E := by field_simp; ring
  unfold limEpair KinLim.raised at *
  simp only at *
  split_ifs at * with h
  · exact absurd hne (lt_irrefl _)
  refine ⟨by rw [mul_div_cancel₀ _ hE.ne'], ?_⟩
  rw [← key, ← k2]
  simp only
  rcases le_total (petrukhin m Z E) (1 - 6 * (m / E) * (m / E)) with hl | hl
  · rw [min_eq_left hl, max_eq_left]
    nlinarith
  · rw [min_eq_right hl, max_eq_right]
    nlinarith

/-- C30: for the largest loss of Compton scattering the photon goes backwards: Compton's relation with cosine -1. -/
theorem C30_compton_backwards (E : ℝ) (hE : 0 < E) :
    1 / (E * (1 - (limCompton E).vMax)) - 1 / E = (1 - (-1)) / ME := by
  have hM : 0 < ME := by unfold ME; norm_num
  unfold limCompton
  simp only
  have h1 : (1 + 2 * E / ME) ≠ 0 := by positivity
  have h2 : E * (1 - (1 - 1 / (1 + 2 * E / ME))) = E / (1 + 2 * E / ME) := by ring
  rw [h2, one_div_div]
  field_simp
  ring

/-- C30: the largest loss by ionization is the head-on collision with an electron at rest: the electron takes the energy
`T` and moves forward, the particle goes on (or back) along the line, and energy and momentum are conserved. `pe` is the
momentum of the electron, `E ^ 2 - m ^ 2` the square of the momentum before. -/
theorem C30_ionization_head_on (m I E : ℝ) (hm : 0 < m) (hE : m < E)
    (hne : (limBetheBloch m I E).vMin < (limBetheBloch m I E).vMax)
    (hlt : (limBetheBloch m I E).vMax < 1 - m / E) :
    ∃ T pe, T = E * (limBetheBloch m I E).vMax ∧ 0 < pe ∧ (T + ME) ^ 2 = pe ^ 2 + ME ^ 2 ∧
      (E - T) ^ 2 = (Real.sqrt (E ^ 2 - m ^ 2) - pe) ^ 2 + m ^ 2 := by
  have hM : 0 < ME := by unfold ME; norm_num
  have hE0 : 0 < E := hm.trans hE
  have hp : 0 < E ^ 2 - m ^ 2 := by nlinarith
  unfold limBetheBloch KinLim.raised at *
  simp only at *
  split_ifs at * with h
  · exact absurd hne (lt_irrefl _)
  simp only at *
  have hmin : min (2 * ME * (E / m * (E / m) - 1) / ((1 + 2 * (E / m) * (ME / m) + ME / m * (ME / m)) * E)) (1 - m / E) =
      2 * ME * (E / m * (E / m) - 1) / ((1 + 2 * (E / m) * (ME / m) + ME / m * (ME / m)) * E) := by
    rcases min_choice (2 * ME * (E / m * (E / m) - 1) / ((1 + 2 * (E / m) * (ME / m) + ME / m * (ME / m)) * E)) (1 - m / E)
      with h' | h'
    · exact h'
    · rw [h'] at hlt; exact absurd hlt (lt_irrefl _)
  rw [hmin]
  set p := Real.sqrt (E ^ 2 - m ^ 2) with hpdef
  have hpp : p ^ 2 = E ^ 2 - m ^ 2 := Real.sq_sqrt hp.le
  have hp0 : 0 < p := Real.sqrt_pos.mpr hp
  clear_value p
  set D := m ^ 2 + ME ^ 2 + 2 * ME * E with hD
  have hD0 : 0 < D := by positivity
  have hT : E * (2 * ME * (E / m * (E / m) - 1) / ((1 + 2 * (E / m) * (ME / m) + ME / m * (ME / m)) * E)) =
      2 * ME * (E ^ 2 - m ^ 2) / D := by
    rw [hD]
    field_simp
    ring
  have hDp : p ^ 2 + D = (E + ME) ^ 2 := by rw [hpp, hD]; ring
  have hq : D * (1 / D) = 1 := mul_one_div_cancel hD0.ne'
  have hq0 : 0 < 1 / D := one_div_pos.mpr hD0
  rw [hT, div_eq_mul_one_div, ← hpp]
  generalize 1 / D = q at *
  have first : (2 * ME * p ^ 2 * q + ME) ^ 2 = (2 * ME * p * (E + ME) * q) ^ 2 + ME ^ 2 := by
    linear_combination (4 * ME ^ 2 * p ^ 2 * q ^ 2) * hDp - (4 * ME ^ 2 * p ^ 2 * q) * hq
  refine ⟨_, 2 * ME * p * (E + ME) * q, rfl, by positivity, first, ?_⟩
  linear_combination first - hpp

/-- C30: the smallest loss by ionization is the ionization energy of the medium, given in eV. -/
theorem C30_ionization_smallest (m I E : ℝ) (hE : 0 < E) : E * (limBetheBloch m I E).vMin = I / 10 ^ 6 := by
  have : (limBetheBloch m I E).vMin = 1e-6 * I / E := by
    unfold limBetheBloch KinLim.raised; simp only; split_ifs <;> rfl
  rw [this, mul_div_cancel₀ _ hE.ne']; norm_num; ring

/-- C30: positrons may lose all their kinetic energy to an electron, electrons half of it, since the electrons are alike. -/
theorem C30_electrons_edges (m E : ℝ) (hE : 0 < E) (h : m ≤ E) :
    E * (limBhabha m E).vMax = E - m ∧ E * (limMoller m E).vMax = (E - m) / 2 := by
  have hq : m / E ≤ 1 := (div_le_one hE).2 h
  have hmE : E * (m / E) = m := mul_div_cancel₀ _ hE.ne'
  have e1 : limBhabha m E = ⟨0, 1 - m / E⟩ := by
    unfold limBhabha KinLim.clamped
    rw [if_neg]; simp only [not_lt]; linarith
  have e2 : limMoller m E = ⟨0, 0.5 * (1 - m / E)⟩ := by
    unfold limMoller KinLim.clamped
    rw [if_neg]; simp only [not_lt]; linarith
  rw [e1, e2]
  simp only
  constructor
  · linear_combination -hmE
  · linear_combination (-1 / 2) * hmE

/-- C30: a muon pair has at least two muon masses, and the particle keeps at least its rest energy. -/
theorem C30_mupair_edges (m E : ℝ) (hE : 0 < E) (h : m + 2 * MMU ≤ E) :
    E * (limMupair m E).vMin = 2 * MMU ∧ E * (1 - (limMupair m E).vMax) = m := by
  have e : limMupair m E = ⟨2 * MMU / E, 1 - m / E⟩ := by
    unfold limMupair KinLim.raised
    rw [if_neg]
    simp only [not_lt]
    rw [div_le_iff₀ hE, sub_mul, div_mul_cancel₀ _ hE.ne']; linarith
  rw [e]
  simp only
  constructor
  · rw [mul_div_cancel₀ _ hE.ne']
  · rw [sub_sub_cancel, mul_div_cancel₀ _ hE.ne']

/-- C30: at the limits of the pair production by photons one particle of the pair is at rest; for muons the product of both
shares is half of the root of e times the muon mass over the energy. -/
theorem C30_photo_pair_edges (E : ℝ) :
    (2 * ME < E → E * (limPhotoPair E).vMin = ME ∧ E * (1 - (limPhotoPair E).vMax) = ME) ∧
    (2 * MMU * SQRTE < E →
      E * ((limPhotoMuPair E).vMin * (1 - (limPhotoMuPair E).vMin)) = SQRTE * MMU / 2 ∧
      E * ((limPhotoMuPair E).vMax * (1 - (limPhotoMuPair E).vMax)) = SQRTE * MMU / 2 ∧
      (limPhotoMuPair E).vMin + (limPhotoMuPair E).vMax = 1) := by
  have hM : 0 < ME := by unfold ME; norm_num
  have hS : 0 < MMU * SQRTE := by unfold MMU SQRTE; norm_num
  constructor
  · intro h
    have hE : 0 < E := by linarith
    unfold limPhotoPair
    rw [if_neg (by linarith)]
    simp only
    constructor
    · rw [mul_div_cancel₀ _ hE.ne']
    · rw [sub_sub_cancel, mul_div_cancel₀ _ hE.ne']
  · intro h
    have hE : 0 < E := by linarith
    have hr : 0 ≤ 1 - 2 * SQRTE * MMU / E := by
      rw [sub_nonneg, div_le_one hE]; linarith
    have hq := Real.sq_sqrt hr
    have hx : E * (2 * SQRTE * MMU / E) = 2 * SQRTE * MMU := mul_div_cancel₀ _ hE.ne'
    unfold limPhotoMuPair
    rw [if_neg (by linarith)]
    simp only
    refine ⟨?_, ?_, by ring⟩
    · linear_combination (-E / 4) * hq + (1 / 4) * hx
    · linear_combination (-E / 4) * hq + (1 / 4) * hx

/-- C30: the smallest energy of a photonuclear interaction is that of a photon which makes a pion at rest with the nucleon:
the square of the invariant mass is that of a nucleon and a pion. -/
theorem C30_photonuclear_pion (m M E : ℝ) (hM : 0 < M) (hE : 0 < E) :
    M ^ 2 + 2 * M * (E * (limPhotonuclear m M E).vMin) = (M + MPI) ^ 2 := by
  have : (limPhotonuclear m M E).vMin = (MPI + MPI * MPI / (2 * M)) / E := by
    unfold limPhotonuclear KinLim.raised; simp only; split_ifs <;> rfl
  rw [this, mul_div_cancel₀ _ hE.ne']
  field_simp
  ring

/-- C30: a light particle keeps (M^2 + m^2) / (2 M). -/
theorem C30_photonuclear_remainder (m M E : ℝ) (hM : 0 < M) (hE : 0 < E) (hm : m < MPI)
    (hne : (limPhotonuclear m M E).vMin < (limPhotonuclear m M E).vMax) :
    E * (1 - (limPhotonuclear m M E).vMax) = (M ^ 2 + m ^ 2) / (2 * M) := by
  unfold limPhotonuclear KinLim.raised at *
  simp only [if_pos hm] at *
  split_ifs at * with h
  · exact absurd hne (lt_irrefl _)
  simp only
  field_simp
  ring

/-- C30: the smallest Bjorken x of a weak interaction belongs to a momentum transfer of 1 GeV (all energies in MeV) for the largest
square of the invariant mass, `2 E M + M ^ 2` for a nucleon of mass `M`. -/
theorem C30_weak_smallest (E : ℝ) (hE : 0 < E) :
    (limWeak E).vMin * (2 * E * ((MP + MN) / 2) + ((MP + MN) / 2) ^ 2) = 1000 ^ 2 ∧ (limWeak E).vMax = 1 := by
  have hM : 0 < (MP + MN) / 2 := by unfold MP MN; norm_num
  unfold limWeak
  simp only
  refine ⟨?_, trivial⟩
  rw [div_mul_cancel₀ _ (by positivity)]
  norm_num

/-- C30: the lowest energies: the energy of Rydberg (13.6057 eV) for Compton scattering, the rest energies of the particles which are
there afterwards for the pairs. -/
theorem C30_lowest_energies (m : ℝ) :
    13.6056e-6 < lowerCompton ∧ lowerCompton < 13.6058e-6 ∧ lowerEpair m = m + (ME + ME) ∧ lowerMupair m = m + (MMU + MMU) ∧
    lowerPhotoPair = ME + ME ∧ lowerPhotoMuPair = SQRTE * (MMU + MMU) ∧ lowerMass m = m := by
  unfold lowerCompton lowerEpair lowerMupair lowerPhotoPair lowerPhotoMuPair lowerMass ALPHA
  refine ⟨by unfold ME; norm_num, by unfold ME; norm_num, by ring, by ring, by ring, by ring, rfl⟩

/-- The hypotheses of the theorems above are met by a muon of 1 GeV in water-like conditions. -/
example : (limBetheBloch 100 75 1000).vMin < (limBetheBloch 100 75 1000).vMax ∧
    (limBetheBloch 100 75 1000).vMax < 1 - 100 / (1000 : ℝ) := by
  unfold limBetheBloch KinLim.raised
  simp only
  have hM : ME = 0.5109989461 := by unfold ME; norm_num
  rw [hM, if_neg] <;> norm_num

end Proposal
