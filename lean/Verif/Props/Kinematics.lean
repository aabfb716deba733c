import Verif.Model.Kinematics
import Mathlib.Analysis.SpecialFunctions.Sqrt
import Mathlib.Tactic.LinearCombination

/-!
# Kinematic limits (C30, C81)
-/

namespace Proposal

/-- The limits are ordered relative losses, and after the largest loss a particle of mass `m` has at least its
rest energy. -/
structure Spec.Physical (m E : ℝ) (l : KinLim) : Prop where
  nonneg : 0 ≤ l.vMin
  ordered : l.vMin ≤ l.vMax
  le_one : l.vMax ≤ 1
  rest : m ≤ E * (1 - l.vMax)

/-- There is something between the limits. -/
def Spec.NonEmpty (l : KinLim) : Prop := l.vMin < l.vMax

open Spec

private lemma frac {m E : ℝ} (hm : 0 ≤ m) (hE : 0 < E) (h : m ≤ E) : 0 ≤ m / E ∧ m / E ≤ 1 ∧ E * (m / E) = m :=
  ⟨div_nonneg hm hE.le, (div_le_one hE).2 h, mul_div_cancel₀ _ hE.ne'⟩

private lemma petrukhin_le {m Z E : ℝ} (hm : 0 ≤ m) (hE : 0 < E) (hZ : 1 ≤ Z) : petrukhin m Z E ≤ 1 - m / E := by
  have h1 : 1 ≤ Z ^ (1 / 3 : ℝ) := Real.one_le_rpow hZ (by norm_num)
  have h2 : 0 ≤ m / E := div_nonneg hm hE.le
  unfold petrukhin SQRTE
  have h3 : m / E ≤ m / E * Z ^ (1 / 3 : ℝ) := le_mul_of_one_le_right h2 h1
  nlinarith

private lemma rest_of_le {m E v : ℝ} (hE : 0 < E) (h : v ≤ 1 - m / E) : m ≤ E * (1 - v) := by
  have : m / E ≤ 1 - v := by linarith
  rw [div_le_iff₀ hE] at this
  linarith

/-- C30, bremsstrahlung: for every particle, element and energy above the rest mass, with and without Lorenz
cut. -/
theorem C30_bremsstrahlung (m Z E : ℝ) (hm : 0 ≤ m) (hZ : 1 ≤ Z) (hE : 0 < E) (h : lowerMass m ≤ E) (lorenz : Option ℝ)
    (hl : ∀ c ∈ lorenz, 0 < c) :
    Physical m E (limBrems lorenz m Z E) ∧ Physical m E (limBremsDefault m E) := by
  obtain ⟨f0, f1, f2⟩ := frac hm hE h
  have hp := petrukhin_le hm hE hZ
  constructor
  · unfold limBrems
    split_ifs with h0
    · exact ⟨le_rfl, le_rfl, zero_le_one, by simpa [lowerMass] using h⟩
    · rw [not_lt] at h0
      cases lorenz with
      | none => exact ⟨le_rfl, h0, by linarith, rest_of_le hE hp⟩
      | some c =>
        have hc := hl c rfl
        refine ⟨le_rfl, le_min h0 (div_pos hc hE).le, (min_le_left _ _).trans (by linarith), ?_⟩
        exact rest_of_le hE ((min_le_left _ _).trans hp)
  · exact ⟨le_rfl, by simp only [limBremsDefault]; linarith, by simp only [limBremsDefault]; linarith,
      rest_of_le hE le_rfl⟩

/-- C30, Compton scattering. -/
theorem C30_compton (E : ℝ) (h : lowerCompton ≤ E) : Physical 0 E (limCompton E) := by
  have h0 : 0 < lowerCompton := by unfold lowerCompton ALPHA ME; norm_num
  have hE : 0 < E := lt_of_lt_of_le h0 h
  have hM : 0 < ME := by unfold ME; norm_num
  have h1 : 0 < 1 + 2 * E / ME := by positivity
  have h2 : 1 / (1 + 2 * E / ME) ≤ 1 := by
    rw [div_le_one h1]
    have : 0 ≤ 2 * E / ME := by positivity
    linarith
  have h3 : 0 < 1 / (1 + 2 * E / ME) := by positivity
  refine ⟨le_rfl, ?_, ?_, ?_⟩
  · simp only [limCompton]; linarith
  · simp only [limCompton]; linarith
  · simp only [limCompton, sub_sub_cancel]; positivity

/-- C30, ionization of electrons and positrons. -/
theorem C30_bhabha_moller (m E : ℝ) (hm : 0 ≤ m) (hE : 0 < E) (h : lowerMass m ≤ E) :
    Physical m E (limBhabha m E) ∧ Physical m E (limMoller m E) := by
  obtain ⟨f0, f1, f2⟩ := frac hm hE h
  have e1 : limBhabha m E = ⟨0, 1 - m / E⟩ := by
    unfold limBhabha KinLim.clamped
    rw [if_neg]; simp only [not_lt]; linarith
  have e2 : limMoller m E = ⟨0, 0.5 * (1 - m / E)⟩ := by
    unfold limMoller KinLim.clamped
    rw [if_neg]; simp only [not_lt]; linarith
  rw [e1, e2]
  refine ⟨⟨le_rfl, ?_, ?_, rest_of_le hE le_rfl⟩, ⟨le_rfl, ?_, ?_, rest_of_le hE ?_⟩⟩ <;> simp only <;> linarith

/-- C30, muon pair production. -/
theorem C30_mupair (m E : ℝ) (hm : 0 ≤ m) (h : lowerMupair m ≤ E) : Physical m E (limMupair m E) := by
  have hM : 0 < MMU := by unfold MMU; norm_num
  unfold lowerMupair at h
  have hE : 0 < E := by linarith
  obtain ⟨f0, f1, f2⟩ := frac hm hE (by linarith)
  have g : 2 * MMU / E ≤ 1 - m / E := by
    rw [div_le_iff₀ hE, sub_mul, div_mul_cancel₀ _ hE.ne']
    linarith
  have e : limMupair m E = ⟨2 * MMU / E, 1 - m / E⟩ := by
    unfold limMupair KinLim.raised
    rw [if_neg (not_lt.2 g)]
  rw [e]
  exact ⟨by positivity, g, by simp only; linarith, rest_of_le hE le_rfl⟩

/-- C30, electron and muon pair production by photons: the share of a particle of the pair. -/
theorem C30_photo_pairs (E : ℝ) :
    (lowerPhotoPair ≤ E → Physical 0 E (limPhotoPair E)) ∧
    (lowerPhotoMuPair ≤ E → Physical 0 E (limPhotoMuPair E)) := by
  have hM : 0 < ME := by unfold ME; norm_num
  have hM' : 0 < MMU := by unfold MMU; norm_num
  have hS : 0 < SQRTE := by unfold SQRTE; norm_num
  constructor
  · intro h
    unfold lowerPhotoPair at h
    have hE : 0 < E := by linarith
    unfold limPhotoPair
    split_ifs with h0
    · refine ⟨by norm_num, le_rfl, by norm_num, ?_⟩
      simp only
      nlinarith
    · rw [not_le] at h0
      have a : ME / E < 1 / 2 := by rw [div_lt_iff₀ hE]; linarith
      have b : 0 < ME / E := by positivity
      refine ⟨b.le, ?_, ?_, ?_⟩
      · simp only; linarith
      · simp only; linarith
      · simp only [sub_sub_cancel]; positivity
  · intro h
    unfold lowerPhotoMuPair at h
    have hE : 0 < E := lt_of_lt_of_le (by positivity) h
    unfold limPhotoMuPair
    split_ifs with h0
    · refine ⟨by norm_num, le_rfl, by norm_num, ?_⟩
      simp only
      nlinarith
    · have a0 : 0 ≤ 1 - 2 * SQRTE * MMU / E := by
        rw [sub_nonneg, div_le_one hE]; linarith
      have a1 : 1 - 2 * SQRTE * MMU / E ≤ 1 := by
        have : 0 ≤ 2 * SQRTE * MMU / E := by positivity
        linarith
      have s0 := Real.sqrt_nonneg (1 - 2 * SQRTE * MMU / E)
      have s1 : Real.sqrt (1 - 2 * SQRTE * MMU / E) ≤ 1 := by
        exact (Real.sqrt_le_sqrt a1).trans_eq Real.sqrt_one
      refine ⟨?_, ?_, ?_, ?_⟩
      · simp only; linarith
      · simp only; linarith
      · simp only; linarith
      · simp only
        apply mul_nonneg hE.le
        linarith

/-- C30, electron pair production: above the rest mass plus four electron masses, and below whenever there is
anything between the limits. Missing: energies between the lower energy limit and that, see
`C30_epair_threshold`. -/
theorem C30_epair_partial (m Z E : ℝ) (hm : 0 ≤ m) (hZ : 1 ≤ Z) (h : lowerEpair m ≤ E)
    (hor : m + 4 * ME ≤ E ∨ NonEmpty (limEpair m Z E)) : Physical m E (limEpair m Z E) := by
  have hM : 0 < ME := by unfold ME; norm_num
  unfold lowerEpair at h
  have hE : 0 < E := by linarith
  obtain ⟨f0, f1, f2⟩ := frac hm hE (by linarith)
  have hp := petrukhin_le hm hE hZ
  have hv : 0 ≤ 4 * ME / E := by positivity
  unfold NonEmpty at hor
  unfold limEpair KinLim.raised at *
  simp only at *
  split_ifs at * with h0
  · rcases hor with hor | hor
    · refine ⟨hv, le_rfl, ?_, ?_⟩
      · simp only
        rw [div_le_one hE]; linarith
      · simp only
        rw [mul_sub, mul_div_cancel₀ _ hE.ne']
        linarith
    · exact absurd hor (lt_irrefl _)
  · rw [not_lt] at h0
    refine ⟨hv, h0, ?_, rest_of_le hE ((min_le_left _ _).trans hp)⟩
    exact (min_le_left _ _).trans (by linarith)

/-- C30 fails for electron pair production at the lower energy limit: the limits leave less than the rest
energy, whatever the particle and the element; for electrons they exceed 1. -/
theorem C30_epair_threshold :
    (∀ m Z, 0 ≤ m → 1 ≤ Z → ¬ Physical m (lowerEpair m) (limEpair m Z (lowerEpair m))) ∧
    ∀ Z, 1 < (limEpair ME Z (lowerEpair ME)).vMin := by
  have hM : 0 < ME := by unfold ME; norm_num
  have hv : ∀ m Z E, (limEpair m Z E).vMin = 4 * ME / E := by
    intro m Z E
    unfold limEpair KinLim.raised
    simp only
    split_ifs <;> rfl
  constructor
  · intro m Z hm hZ hp
    have hE : 0 < lowerEpair m := by unfold lowerEpair; linarith
    have h1 := hp.rest
    have h2 := hp.ordered
    rw [hv, div_le_iff₀ hE] at h2
    unfold lowerEpair at *
    nlinarith
  · intro Z
    rw [hv]
    unfold lowerEpair
    rw [lt_div_iff₀ (by linarith)]
    linarith

/-- C30, ionization of heavy particles: whenever there is anything between the limits. Missing are energies at
which the largest possible loss is below the ionization energy, see `C30_ionization_threshold`. -/
theorem C30_ionization_partial (m I E : ℝ) (hm : 0 < m) (hI : 0 ≤ I) (h : lowerMass m ≤ E)
    (hne : NonEmpty (limBetheBloch m I E)) : Physical m E (limBetheBloch m I E) := by
  unfold lowerMass at h
  have hE : 0 < E := by linarith
  obtain ⟨f0, f1, f2⟩ := frac hm.le hE h
  have hv : 0 ≤ 1e-6 * I / E := by positivity
  unfold NonEmpty at hne
  unfold limBetheBloch KinLim.raised at *
  simp only at *
  split_ifs at * with h0
  · exact absurd hne (lt_irrefl _)
  · rw [not_lt] at h0
    refine ⟨hv, h0, ?_, rest_of_le hE (min_le_right _ _)⟩
    exact (min_le_right _ _).trans (by linarith)

/-- C30 fails for ionization at the lower energy limit: a particle at rest would lose the ionization energy. -/
theorem C30_ionization_threshold (m I : ℝ) (hm : 0 < m) (hI : 0 < I) :
    ¬ Physical m (lowerMass m) (limBetheBloch m I (lowerMass m)) := by
  intro hp
  have h1 := hp.rest
  have h2 := hp.ordered
  have hv : (limBetheBloch m I (lowerMass m)).vMin = 1e-6 * I / lowerMass m := by
    unfold limBetheBloch KinLim.raised
    simp only
    split_ifs <;> rfl
  have : 0 < 1e-6 * I / lowerMass m := by unfold lowerMass; positivity
  rw [hv] at h2
  unfold lowerMass at *
  nlinarith

/-- C30, photonuclear interaction of particles lighter than the pion, whenever there is anything between the
limits. Missing: heavier particles, see `C30_photonuclear_heavy`, and energies with an empty range, see
`C30_photonuclear_threshold`. -/
theorem C30_photonuclear_partial (m M E : ℝ) (hm : 0 < m) (hM : 0 < M) (h : lowerMass m ≤ E) (hlight : m < MPI)
    (hne : NonEmpty (limPhotonuclear m M E)) : Physical m E (limPhotonuclear m M E) := by
  unfold lowerMass at h
  have hP : 0 < MPI := by unfold MPI; norm_num
  have hE : 0 < E := by linarith
  have hv : 0 ≤ (MPI + MPI * MPI / (2 * M)) / E := by positivity
  unfold NonEmpty at hne
  unfold limPhotonuclear KinLim.raised at *
  simp only [if_pos hlight] at *
  split_ifs at * with h0
  · exact absurd hne (lt_irrefl _)
  · rw [not_lt] at h0
    have hpos : 0 < M * (1 + m / M * (m / M)) / (2 * E) := by positivity
    refine ⟨hv, h0, by simp only; linarith, ?_⟩
    simp only [sub_sub_cancel]
    have : E * (M * (1 + m / M * (m / M)) / (2 * E)) = (M * M + m * m) / (2 * M) := by
      field_simp
    rw [this, le_div_iff₀ (by positivity)]
    nlinarith [sq_nonneg (M - m)]

/-- C30 fails for the photonuclear interaction of particles that are not lighter than the pion, like the tau:
at every energy they may lose everything, including their rest energy. -/
theorem C30_photonuclear_heavy (m M E : ℝ) (hm : MPI ≤ m) (h : lowerMass m ≤ E)
    (hsmall : MPI + MPI * MPI / (2 * M) < E) :
    NonEmpty (limPhotonuclear m M E) ∧ (limPhotonuclear m M E).vMax = 1 ∧ ¬ Physical m E (limPhotonuclear m M E) := by
  have hP : 0 < MPI := by unfold MPI; norm_num
  unfold lowerMass at h
  have hE : 0 < E := by linarith
  have hv : (MPI + MPI * MPI / (2 * M)) / E < 1 := by rw [div_lt_one hE]; exact hsmall
  have e : limPhotonuclear m M E = ⟨(MPI + MPI * MPI / (2 * M)) / E, 1⟩ := by
    unfold limPhotonuclear KinLim.raised
    simp only [if_neg (not_lt.2 hm), if_neg (not_lt.2 hv.le)]
  rw [e]
  refine ⟨hv, rfl, ?_⟩
  intro hp
  have := hp.rest
  simp at this
  linarith

/-- The tau with an energy of 1 TeV on a nucleon is a case of the theorem. -/
example : MPI ≤ MTAU ∧ lowerMass MTAU ≤ 1e6 ∧ MPI + MPI * MPI / (2 * MP) < 1e6 := by
  unfold MPI MTAU MP lowerMass
  norm_num

/-- C30 fails for the photonuclear interaction of a muon at rest: the limits exceed 1. -/
theorem C30_photonuclear_threshold (M : ℝ) (hM : 0 < M) : 1 < (limPhotonuclear MMU M (lowerMass MMU)).vMin := by
  have hv : (limPhotonuclear MMU M (lowerMass MMU)).vMin = (MPI + MPI * MPI / (2 * M)) / lowerMass MMU := by
    unfold limPhotonuclear KinLim.raised
    simp only
    split_ifs <;> rfl
  have hP : 0 < MPI * MPI / (2 * M) := by unfold MPI; positivity
  rw [hv]
  unfold lowerMass
  rw [lt_div_iff₀ (by unfold MMU; norm_num)]
  have : MMU < MPI := by unfold MMU MPI; norm_num
  linarith

/-- C30, weak interaction: from 64 MeV on the limits are ordered. The particle is converted, so that it need
not keep its rest energy. Missing: smaller energies, see `C30_weak_small_energy`. -/
theorem C30_weak_partial (E : ℝ) (h : 64 ≤ E) : Physical 0 E (limWeak E) := by
  have hM : (938.9 : ℝ) < (MP + MN) / 2 := by unfold MP MN; norm_num
  have hd : 0 < 2 * E * ((MP + MN) / 2) + ((MP + MN) / 2) ^ 2 := by positivity
  refine ⟨?_, ?_, le_rfl, ?_⟩
  · simp only [limWeak]; positivity
  · simp only [limWeak]
    rw [div_le_one hd]
    generalize (MP + MN) / 2 = M at *
    norm_num at *
    nlinarith
  · simp [limWeak]

/-- C30 fails for the weak interaction of electrons below 63 MeV: the lower limit is above the upper one. -/
theorem C30_weak_small_energy (E : ℝ) (h0 : lowerMass ME ≤ E) (h : E ≤ 62) : (limWeak E).vMax < (limWeak E).vMin := by
  have hE : 0 < ME := by unfold ME; norm_num
  unfold lowerMass at h0
  have hM : (938 : ℝ) < (MP + MN) / 2 := by unfold MP MN; norm_num
  have hM' : (MP + MN) / 2 < (939 : ℝ) := by unfold MP MN; norm_num
  have hd : 0 < 2 * E * ((MP + MN) / 2) + ((MP + MN) / 2) ^ 2 := by
    have : 0 < E := by linarith
    positivity
  simp only [limWeak]
  rw [lt_div_iff₀ hd]
  generalize (MP + MN) / 2 = M at *
  norm_num
  nlinarith

/-- The partial theorems apply: a muon of 1 GeV in water (ionization energy about 80 eV) and in oxygen has
non-empty ranges. -/
example : NonEmpty (limBetheBloch MMU 80 1000) ∧ NonEmpty (limPhotonuclear MMU 938 1000) := by
  unfold NonEmpty
  constructor
  · unfold limBetheBloch KinLim.raised
    simp only
    have : (1e-6 * 80 / 1000 : ℝ) < min (2 * ME * (1000 / MMU * (1000 / MMU) - 1) /
        ((1 + 2 * (1000 / MMU) * (ME / MMU) + ME / MMU * (ME / MMU)) * 1000)) (1 - MMU / 1000) := by
      unfold ME MMU
      norm_num
    rw [if_neg (not_lt.2 this.le)]
    exact this
  · unfold limPhotonuclear KinLim.raised
    simp only
    have : MMU < MPI := by unfold MMU MPI; norm_num
    have h : ((MPI + MPI * MPI / (2 * 938)) / 1000 : ℝ) < 1 - 938 * (1 + MMU / 938 * (MMU / 938)) / (2 * 1000) := by
      unfold MPI MMU
      norm_num
    simp only [if_pos this, if_neg (not_lt.2 h.le)]
    exact h

/-! ## C81: pair particles have at least their rest energy -/

/-- C81, electron pairs: every share between the limits gives both particles at least the electron mass. -/
theorem C81_electron_pairs (E x : ℝ) (hE : lowerPhotoPair ≤ E) (h1 : (limPhotoPair E).vMin ≤ x)
    (h2 : x ≤ (limPhotoPair E).vMax) : ME ≤ E * x ∧ ME ≤ E * (1 - x) := by
  have hM : 0 < ME := by unfold ME; norm_num
  unfold lowerPhotoPair at hE
  have hE0 : 0 < E := by linarith
  unfold limPhotoPair at *
  split_ifs at * with h0
  · simp only at h1 h2
    have : x = 0.5 := le_antisymm h2 h1
    subst this
    constructor <;> linarith
  · simp only at h1 h2
    rw [div_le_iff₀ hE0] at h1
    have h3 : ME / E ≤ 1 - x := by linarith
    rw [div_le_iff₀ hE0] at h3
    constructor <;> linarith

/-- C81 fails for muon pairs: at every energy above six muon masses the limits allow a share that gives a muon
less than its rest energy. -/
theorem C81_muon_pairs_light (E : ℝ) (h : 6 * MMU ≤ E) :
    ∃ x, (limPhotoMuPair E).vMin ≤ x ∧ x < (limPhotoMuPair E).vMax ∧ E * x < MMU := by
  have hM : 0 < MMU := by unfold MMU; norm_num
  have hE0 : 0 < E := by linarith
  have hne : ¬ E ≤ 2 * MMU * SQRTE := by
    unfold SQRTE; intro h'; nlinarith
  have e : limPhotoMuPair E = ⟨0.5 * (1 - Real.sqrt (1 - 2 * SQRTE * MMU / E)), 0.5 * (1 + Real.sqrt (1 - 2 * SQRTE * MMU / E))⟩ := by
    unfold limPhotoMuPair
    rw [if_neg hne]
  have hS : SQRTE < 1.65 := by unfold SQRTE; norm_num
  -- the root is above 1 - 2 MMU / E
  have hr : 1 - 2 * MMU / E < Real.sqrt (1 - 2 * SQRTE * MMU / E) := by
    apply Real.lt_sqrt_of_sq_lt
    have k : MMU / E ≤ 1 / 6 := by rw [div_le_iff₀ hE0]; linarith
    have k0 : 0 < MMU / E := by positivity
    rw [show 2 * MMU / E = 2 * (MMU / E) by ring, show 2 * SQRTE * MMU / E = 2 * SQRTE * (MMU / E) by ring]
    nlinarith
  refine ⟨(limPhotoMuPair E).vMin, le_rfl, ?_, ?_⟩
  · rw [e]
    simp only
    have k : MMU / E ≤ 1 / 6 := by rw [div_le_iff₀ hE0]; linarith
    have : 0 < Real.sqrt (1 - 2 * SQRTE * MMU / E) := by
      have : 2 * MMU / E = 2 * (MMU / E) := by ring
      linarith
    linarith
  · rw [e]
    simp only
    have : 0.5 * (1 - Real.sqrt (1 - 2 * SQRTE * MMU / E)) < MMU / E := by
      have : 2 * MMU / E = 2 * (MMU / E) := by ring
      linarith
    rw [lt_div_iff₀ hE0] at this
    linarith

/-- C81, muon pairs: up to 5.6 muon masses both muons have at least their rest energy. Missing are larger
energies, see `C81_muon_pairs_light`. -/
theorem C81_muon_pairs_partial (E x : ℝ) (hE : lowerPhotoMuPair ≤ E) (hs : E ≤ 5.6 * MMU)
    (h1 : (limPhotoMuPair E).vMin ≤ x) (h2 : x ≤ (limPhotoMuPair E).vMax) : MMU ≤ E * x ∧ MMU ≤ E * (1 - x) := by
  have hM : 0 < MMU := by unfold MMU; norm_num
  have hS : (1.648 : ℝ) < SQRTE := by unfold SQRTE; norm_num
  unfold lowerPhotoMuPair at hE
  have hE0 : 0 < E := lt_of_lt_of_le (by positivity) hE
  have hE3 : 3 * MMU < E := by nlinarith
  unfold limPhotoMuPair at *
  split_ifs at * with h0
  · simp only at h1 h2
    have : x = 0.5 := le_antisymm h2 h1
    subst this
    constructor <;> linarith
  · simp only at h1 h2
    have k1 : MMU / E < 1 / 3 := by rw [div_lt_iff₀ hE0]; linarith
    have k0 : 1 / 5.6 ≤ MMU / E := by
      rw [le_div_iff₀ hE0]
      norm_num at hs ⊢
      linarith
    have hr : Real.sqrt (1 - 2 * SQRTE * MMU / E) ≤ 1 - 2 * (MMU / E) := by
      rw [Real.sqrt_le_left (by linarith), show 2 * SQRTE * MMU / E = 2 * SQRTE * (MMU / E) by ring]
      norm_num at k0
      nlinarith
    have a : MMU / E ≤ x := by linarith
    have b : MMU / E ≤ 1 - x := by linarith
    rw [div_le_iff₀ hE0] at a b
    constructor <;> linarith

example : lowerPhotoMuPair ≤ 5 * MMU ∧ 5 * MMU ≤ 5.6 * MMU := by
  unfold lowerPhotoMuPair SQRTE MMU
  norm_num

end Proposal
