import Verif.Spec.Decay
import Verif.Lemmas.Vec3

/-! Four-momenta of decay products. -/

namespace Proposal

open Spec

theorem normalize_unit (n : Vec3) (hn : UnitVec n) : n.normalize = some n := by
  have : n.mag = 1 := by
    rw [Vec3.mag_eq_one_iff]; unfold Vec3.dot; unfold UnitVec at hn; linarith
  unfold Vec3.normalize
  rw [if_neg (by rw [this]; norm_num), this]
  simp

theorem normalize_spec {a d : Vec3} (h : a.normalize = some d) : UnitVec d ∧ a.mag • d = a := by
  unfold Vec3.normalize at h
  split_ifs at h with h0
  injection h with h
  subst h
  have hs := a.mag_sq
  unfold Vec3.dot at hs
  constructor
  · unfold UnitVec
    simp only
    field_simp
    linarith
  · ext <;> simp <;> field_simp

theorem neg_unit {n : Vec3} (hn : UnitVec n) : UnitVec (-n) := by
  unfold UnitVec at *; simpa using hn

theorem momentum_dot (p : Part) (hp : PhysicalState p) :
    (momentum p).dot (momentum p) = p.energy ^ 2 - p.mass ^ 2 := by
  have h1 := hp.mass_nonneg
  have h2 := hp.energy_ge
  have hu := hp.unit
  have hs : Real.sqrt (p.energy ^ 2 - p.mass ^ 2) ^ 2 = p.energy ^ 2 - p.mass ^ 2 := Real.sq_sqrt (by nlinarith)
  unfold momentum Vec3.dot
  unfold UnitVec at hu
  simp only [Vec3.smul_x, Vec3.smul_y, Vec3.smul_z]
  linear_combination (p.dir.x ^ 2 + p.dir.y ^ 2 + p.dir.z ^ 2) * hs + (p.energy ^ 2 - p.mass ^ 2) * hu

theorem momentumOfEnergy_phys (p : Part) (hp : PhysicalState p) :
    momentumOfEnergy p.mass p.energy = some (Real.sqrt (p.energy ^ 2 - p.mass ^ 2)) := by
  have h1 := hp.mass_nonneg
  have h2 := hp.energy_ge
  unfold momentumOfEnergy
  rw [if_neg (by nlinarith)]
  congr 2; ring

/-- The state with momentum `v`. -/
theorem setMomentum_spec (p : Part) (hm : 0 ≤ p.mass) (v d : Vec3) (k : ℝ) (hk : 0 ≤ k) (hd : UnitVec d) (hv : k • d = v) :
    PhysicalState { p.setMomentum k with dir := d } ∧
    momentum { p.setMomentum k with dir := d } = v ∧
    ({ p.setMomentum k with dir := d } : Part).energy ^ 2 = p.mass ^ 2 + v.dot v ∧
    SameOrigin p { p.setMomentum k with dir := d } := by
  have hs : Real.sqrt (k * k + p.mass ^ 2) ^ 2 = k * k + p.mass ^ 2 := Real.sq_sqrt (by positivity)
  have hvv : v.dot v = k ^ 2 := by
    subst hv
    unfold UnitVec at hd
    unfold Vec3.dot
    simp only [Vec3.smul_x, Vec3.smul_y, Vec3.smul_z]
    linear_combination k ^ 2 * hd
  refine ⟨⟨hm, ?_, hd⟩, ?_, ?_, rfl, rfl, rfl, rfl, rfl⟩
  · simp only [Part.setMomentum, energyOfMomentum]
    apply Real.le_sqrt_of_sq_le
    nlinarith
  · unfold momentum
    simp only [Part.setMomentum, energyOfMomentum]
    rw [hs, show k * k + p.mass ^ 2 - p.mass ^ 2 = k ^ 2 by ring, Real.sqrt_sq hk, hv]
  · simp only [Part.setMomentum, energyOfMomentum]
    rw [hs, hvv]; ring

/-- The boosted momentum vector. -/
noncomputable def boostedVec (v n : Vec3) (e γ b : ℝ) : Vec3 := v + ((γ - 1) * v.dot n - b * e) • n

theorem boostedVec_norm (v n : Vec3) (e γ b : ℝ) (hn : UnitVec n) (hγ : γ ^ 2 - b ^ 2 = 1) :
    (boostedVec v n e γ b).dot (boostedVec v n e γ b) = (γ * e - b * v.dot n) ^ 2 - e ^ 2 + v.dot v := by
  unfold UnitVec at hn
  unfold boostedVec
  have : (v + ((γ - 1) * v.dot n - b * e) • n).dot (v + ((γ - 1) * v.dot n - b * e) • n) =
      v.dot v + 2 * ((γ - 1) * v.dot n - b * e) * v.dot n + ((γ - 1) * v.dot n - b * e) ^ 2 * (n.x ^ 2 + n.y ^ 2 + n.z ^ 2) := by
    unfold Vec3.dot
    simp only [Vec3.add_x, Vec3.add_y, Vec3.add_z, Vec3.smul_x, Vec3.smul_y, Vec3.smul_z]
    ring
  rw [this, hn]
  linear_combination (v.dot n ^ 2 - e ^ 2) * hγ

theorem cauchy (v n : Vec3) (hn : UnitVec n) : (v.dot n) ^ 2 ≤ v.dot v := by
  unfold UnitVec at hn
  have : v.dot v * (n.x ^ 2 + n.y ^ 2 + n.z ^ 2) - (v.dot n) ^ 2 =
      (v.x * n.y - v.y * n.x) ^ 2 + (v.x * n.z - v.z * n.x) ^ 2 + (v.y * n.z - v.z * n.y) ^ 2 := by
    unfold Vec3.dot; ring
  rw [hn] at this
  nlinarith [sq_nonneg (v.x * n.y - v.y * n.x), sq_nonneg (v.x * n.z - v.z * n.x), sq_nonneg (v.y * n.z - v.z * n.y)]

theorem boosted_energy_nonneg (e γ b d : ℝ) (he : 0 ≤ e) (hd : d ^ 2 ≤ e ^ 2) (hγ0 : 0 ≤ γ) (hγ : γ ^ 2 - b ^ 2 = 1) :
    0 ≤ γ * e - b * d := by
  have h1 : |b * d| ≤ γ * e := by
    apply abs_le_of_sq_le_sq _ (mul_nonneg hγ0 he)
    have : b ^ 2 ≤ γ ^ 2 := by linarith
    calc (b * d) ^ 2 = b ^ 2 * d ^ 2 := by ring
      _ ≤ γ ^ 2 * e ^ 2 := mul_le_mul this hd (sq_nonneg _) (sq_nonneg _)
      _ = (γ * e) ^ 2 := by ring
  have := le_abs_self (b * d)
  linarith

/-- `boost` acts on the four-momentum as a Lorentz transformation. -/
theorem boost_spec (p q : Part) (n : Vec3) (γ b : ℝ) (hp : PhysicalState p) (hn : UnitVec n) (hγ0 : 0 ≤ γ)
    (hγ : γ ^ 2 - b ^ 2 = 1) (h : boost p n γ b = some q) :
    PhysicalState q ∧ SameOrigin p q ∧ q.energy = γ * p.energy - b * (momentum p).dot n ∧
    momentum q = boostedVec (momentum p) n p.energy γ b := by
  have h1 := hp.mass_nonneg
  have h2 := hp.energy_ge
  unfold boost at h
  simp only [normalize_unit n hn, momentumOfEnergy_phys p hp] at h
  have hmom : Real.sqrt (p.energy ^ 2 - p.mass ^ 2) • p.dir = momentum p := rfl
  simp only [hmom] at h
  have hv : momentum p + ((γ - 1) * (momentum p).dot n - b * p.energy) • n = boostedVec (momentum p) n p.energy γ b := rfl
  rw [hv] at h
  cases hd : (boostedVec (momentum p) n p.energy γ b).normalize with
  | none => rw [hd] at h; simp at h
  | some d =>
    rw [hd] at h
    injection h with h
    obtain ⟨hu, hm⟩ := normalize_spec hd
    obtain ⟨g1, g2, g3, g4⟩ := setMomentum_spec p hp.mass_nonneg _ d _ (Vec3.mag_nonneg _) hu hm
    rw [h] at g1 g2 g3 g4
    refine ⟨g1, g4, ?_, g2⟩
    have hc := cauchy (momentum p) n hn
    have hmd := momentum_dot p hp
    have hpos := boosted_energy_nonneg p.energy γ b ((momentum p).dot n) (by linarith) (by nlinarith) hγ0 hγ
    rw [boostedVec_norm _ _ _ _ _ hn hγ, hmd] at g3
    have hq : 0 ≤ q.energy := by have := g1.energy_ge; have := g1.mass_nonneg; linarith
    have : q.energy ^ 2 = (γ * p.energy - b * (momentum p).dot n) ^ 2 := by rw [g3]; ring
    exact (sq_eq_sq₀ hq hpos).1 this

/-- A boost yields NaN only for a particle that is at rest afterwards. -/
theorem boost_none (p : Part) (n : Vec3) (γ b : ℝ) (hp : PhysicalState p) (hn : UnitVec n) (hγ0 : 0 ≤ γ)
    (hγ : γ ^ 2 - b ^ 2 = 1) (h : boost p n γ b = none) : p.energy = γ * p.mass := by
  have h1 := hp.mass_nonneg
  have h2 := hp.energy_ge
  unfold boost at h
  simp only [normalize_unit n hn, momentumOfEnergy_phys p hp] at h
  have hmom : Real.sqrt (p.energy ^ 2 - p.mass ^ 2) • p.dir = momentum p := rfl
  simp only [hmom] at h
  have hv : momentum p + ((γ - 1) * (momentum p).dot n - b * p.energy) • n = boostedVec (momentum p) n p.energy γ b := rfl
  rw [hv] at h
  have hz : boostedVec (momentum p) n p.energy γ b = 0 := by
    rw [← Vec3.mag_eq_zero_iff]
    by_contra hne
    unfold Vec3.normalize at h
    rw [if_neg hne] at h
    simp at h
  have hnorm := boostedVec_norm (momentum p) n p.energy γ b hn hγ
  rw [hz, momentum_dot p hp] at hnorm
  have e0 : (0 : Vec3).dot 0 = 0 := by simp [Vec3.dot]
  rw [e0] at hnorm
  have hpar : γ * (momentum p).dot n = b * p.energy := by
    have : (boostedVec (momentum p) n p.energy γ b).dot n = γ * (momentum p).dot n - b * p.energy := by
      unfold UnitVec at hn
      unfold boostedVec
      have : (momentum p + ((γ - 1) * (momentum p).dot n - b * p.energy) • n).dot n = (momentum p).dot n +
          ((γ - 1) * (momentum p).dot n - b * p.energy) * (n.x ^ 2 + n.y ^ 2 + n.z ^ 2) := by
        generalize (γ - 1) * (momentum p).dot n - b * p.energy = t
        unfold Vec3.dot
        simp only [Vec3.add_x, Vec3.add_y, Vec3.add_z, Vec3.smul_x, Vec3.smul_y, Vec3.smul_z]
        ring
      rw [this, hn]; ring
    rw [hz] at this
    have e1 : (0 : Vec3).dot n = 0 := by simp [Vec3.dot]
    rw [e1] at this
    linarith
  have hc := cauchy (momentum p) n hn
  rw [momentum_dot p hp] at hc
  have hpos := boosted_energy_nonneg p.energy γ b ((momentum p).dot n) (by linarith) (by nlinarith) hγ0 hγ
  have he : γ * p.energy - b * (momentum p).dot n = p.mass := by
    have : (γ * p.energy - b * (momentum p).dot n) ^ 2 = p.mass ^ 2 := by linarith
    exact (sq_eq_sq₀ hpos h1).1 this
  calc p.energy = (γ ^ 2 - b ^ 2) * p.energy := by rw [hγ, one_mul]
    _ = γ * p.mass := by rw [← he]; linear_combination b * hpar

@[simp] theorem totalEnergy_nil : totalEnergy [] = 0 := rfl
@[simp] theorem totalEnergy_cons (p : Part) (l : List Part) : totalEnergy (p :: l) = p.energy + totalEnergy l := by
  simp [totalEnergy]
@[simp] theorem totalMomentum_nil : totalMomentum [] = 0 := rfl
@[simp] theorem totalMomentum_cons (p : Part) (l : List Part) :
    totalMomentum (p :: l) = momentum p + totalMomentum l := by
  ext <;> simp [totalMomentum]

theorem totalEnergy_append (l l' : List Part) : totalEnergy (l ++ l') = totalEnergy l + totalEnergy l' := by
  simp [totalEnergy]
theorem totalMomentum_append (l l' : List Part) : totalMomentum (l ++ l') = totalMomentum l + totalMomentum l' := by
  ext <;> simp [totalMomentum]

/-- Boosting a list acts on the total four-momentum. -/
theorem boostAll_spec (n : Vec3) (γ b : ℝ) (hn : UnitVec n) (hγ0 : 0 ≤ γ) (hγ : γ ^ 2 - b ^ 2 = 1) :
    ∀ (l l' : List Part), (∀ p ∈ l, PhysicalState p) → boostAll n γ b l = some l' →
      (∀ p ∈ l', PhysicalState p) ∧ List.Forall₂ SameOrigin l l' ∧
      totalEnergy l' = γ * totalEnergy l - b * (totalMomentum l).dot n ∧
      totalMomentum l' = boostedVec (totalMomentum l) n (totalEnergy l) γ b := by
  intro l
  induction l with
  | nil =>
    intro l' _ h
    simp only [boostAll, Option.some.injEq] at h
    subst h
    refine ⟨by simp, List.Forall₂.nil, by simp [Vec3.dot], ?_⟩
    ext <;> simp [boostedVec, Vec3.dot]
  | cons p l ih =>
    intro l' hl h
    simp only [boostAll] at h
    cases hq : boost p n γ b with
    | none => rw [hq] at h; simp at h
    | some q =>
      cases hqs : boostAll n γ b l with
      | none => rw [hq, hqs] at h; simp at h
      | some qs =>
        rw [hq, hqs] at h
        simp only [Option.some.injEq] at h
        subst h
        obtain ⟨a1, a2, a3, a4⟩ := boost_spec p q n γ b (hl p List.mem_cons_self) hn hγ0 hγ hq
        obtain ⟨b1, b2, b3, b4⟩ := ih qs (fun p hp => hl p (List.mem_cons_of_mem _ hp)) hqs
        refine ⟨?_, List.Forall₂.cons a2 b2, ?_, ?_⟩
        · intro r hr
          rcases List.mem_cons.1 hr with rfl | hr
          · exact a1
          · exact b1 r hr
        · rw [totalEnergy_cons, a3, b3, totalEnergy_cons, totalMomentum_cons]
          unfold Vec3.dot
          simp only [Vec3.add_x, Vec3.add_y, Vec3.add_z]
          ring
        · rw [totalMomentum_cons, a4, b4, totalEnergy_cons, totalMomentum_cons]
          unfold boostedVec Vec3.dot
          ext <;> simp only [Vec3.add_x, Vec3.add_y, Vec3.add_z, Vec3.smul_x, Vec3.smul_y, Vec3.smul_z] <;> ring

theorem boostAll_some (n : Vec3) (γ b : ℝ) (hn : UnitVec n) (hγ0 : 0 ≤ γ) (hγ : γ ^ 2 - b ^ 2 = 1) :
    ∀ (l : List Part), (∀ p ∈ l, PhysicalState p ∧ p.energy ≠ γ * p.mass) → ∃ l', boostAll n γ b l = some l' := by
  intro l
  induction l with
  | nil => intro _; exact ⟨[], rfl⟩
  | cons p l ih =>
    intro hl
    obtain ⟨qs, hqs⟩ := ih fun p hp => hl p (List.mem_cons_of_mem _ hp)
    obtain ⟨hp, hne⟩ := hl p List.mem_cons_self
    cases hq : boost p n γ b with
    | none => exact absurd (boost_none p n γ b hp hn hγ0 hγ hq) hne
    | some q => exact ⟨q :: qs, by simp only [boostAll, hq, hqs]⟩

theorem randomDirection_unit (u : ℝ × ℝ) (h0 : 0 ≤ u.2) (h1 : u.2 ≤ 1) : UnitVec (randomDirection u) := by
  unfold UnitVec randomDirection
  simp only
  have hs : Real.sqrt ((1 - (2 * u.2 - 1)) * (1 + (2 * u.2 - 1))) ^ 2 = (1 - (2 * u.2 - 1)) * (1 + (2 * u.2 - 1)) :=
    Real.sq_sqrt (by nlinarith)
  have hc := Real.sin_sq_add_cos_sq (2 * Real.pi * u.1)
  rw [mul_pow, mul_pow, hs]
  linear_combination ((1 - (2 * u.2 - 1)) * (1 + (2 * u.2 - 1))) * hc

/-- The final boost takes a system at rest with invariant mass `M` to the four-momentum of the parent. -/
theorem toLab_spec (M : ℝ) (parent : Part) (ps qs : List Part) (hM : 0 < M) (hE : M ≤ parent.energy)
    (hd : UnitVec parent.dir) (hps : ∀ p ∈ ps, PhysicalState p) (he : totalEnergy ps = M) (hz : totalMomentum ps = 0)
    (h : toLab M parent ps = some qs) :
    (∀ q ∈ qs, PhysicalState q) ∧ List.Forall₂ SameOrigin ps qs ∧ totalEnergy qs = parent.energy ∧
    totalMomentum qs = Real.sqrt (parent.energy ^ 2 - M ^ 2) • parent.dir := by
  unfold toLab at h
  simp only at h
  have hmax : max ((parent.energy + M) * (parent.energy - M)) 0 = parent.energy ^ 2 - M ^ 2 := by
    rw [max_eq_left (by nlinarith)]; ring
  rw [hmax] at h
  have hs : Real.sqrt (parent.energy ^ 2 - M ^ 2) ^ 2 = parent.energy ^ 2 - M ^ 2 := Real.sq_sqrt (by nlinarith)
  have hγ : (parent.energy / M) ^ 2 - (Real.sqrt (parent.energy ^ 2 - M ^ 2) / M) ^ 2 = 1 := by
    rw [div_pow, div_pow, hs]; field_simp; ring
  obtain ⟨a1, a2, a3, a4⟩ := boostAll_spec _ _ _ (neg_unit hd) (div_nonneg (by linarith) hM.le) hγ ps qs hps h
  refine ⟨a1, a2, ?_, ?_⟩
  · rw [a3, he, hz]
    simp [Vec3.dot]
    field_simp
  · rw [a4, he, hz]
    unfold boostedVec Vec3.dot
    ext <;> simp <;> field_simp <;> simp

/-- The final boost succeeds unless a product is at rest in the laboratory frame. -/
theorem toLab_some (M : ℝ) (parent : Part) (ps : List Part) (hM : 0 < M) (hE : M ≤ parent.energy)
    (hd : UnitVec parent.dir) (hps : ∀ p ∈ ps, PhysicalState p) (hne : ∀ p ∈ ps, M * p.energy ≠ parent.energy * p.mass) :
    ∃ qs, toLab M parent ps = some qs := by
  unfold toLab
  simp only
  have hmax : max ((parent.energy + M) * (parent.energy - M)) 0 = parent.energy ^ 2 - M ^ 2 := by
    rw [max_eq_left (by nlinarith)]; ring
  rw [hmax]
  have hs : Real.sqrt (parent.energy ^ 2 - M ^ 2) ^ 2 = parent.energy ^ 2 - M ^ 2 := Real.sq_sqrt (by nlinarith)
  have hγ : (parent.energy / M) ^ 2 - (Real.sqrt (parent.energy ^ 2 - M ^ 2) / M) ^ 2 = 1 := by
    rw [div_pow, div_pow, hs]; field_simp; ring
  apply boostAll_some _ _ _ (neg_unit hd) (div_nonneg (by linarith) hM.le) hγ
  intro p hp
  refine ⟨hps p hp, fun h => hne p hp ?_⟩
  rw [h]; field_simp

/-- Momentum in a two-body decay. -/
theorem decayMomentum_spec (M m1 m2 : ℝ) (hM : 0 < M) (h1 : 0 ≤ m1) (h2 : 0 ≤ m2) (h : m1 + m2 ≤ M) :
    0 ≤ decayMomentum M m1 m2 ∧
    energyOfMomentum m1 (decayMomentum M m1 m2) + energyOfMomentum m2 (decayMomentum M m1 m2) = M ∧
    energyOfMomentum m1 (decayMomentum M m1 m2) = (M ^ 2 + m1 ^ 2 - m2 ^ 2) / (2 * M) ∧
    decayMomentum M m1 m2 ^ 2 = kaellen M m1 m2 / (4 * M ^ 2) := by
  have hk : 0 ≤ kaellen M m1 m2 := by
    unfold kaellen
    apply mul_nonneg (mul_nonneg (mul_nonneg _ _) _) _ <;> linarith
  have hk2 : decayMomentum M m1 m2 ^ 2 = kaellen M m1 m2 / (4 * M ^ 2) := by
    unfold decayMomentum
    split_ifs with h0
    · rw [div_pow, Real.sq_sqrt hk]; ring
    · have : kaellen M m1 m2 = 0 := le_antisymm (not_lt.1 h0) hk
      rw [this]; simp
  have hk0 : 0 ≤ decayMomentum M m1 m2 := by
    unfold decayMomentum
    split_ifs with h0
    · positivity
    · exact le_rfl
  have e1 : energyOfMomentum m1 (decayMomentum M m1 m2) = (M ^ 2 + m1 ^ 2 - m2 ^ 2) / (2 * M) := by
    unfold energyOfMomentum
    rw [← sq, hk2, show kaellen M m1 m2 / (4 * M ^ 2) + m1 ^ 2 = ((M ^ 2 + m1 ^ 2 - m2 ^ 2) / (2 * M)) ^ 2 by
      unfold kaellen; field_simp; ring]
    apply Real.sqrt_sq
    apply div_nonneg _ (by linarith)
    nlinarith
  have e2 : energyOfMomentum m2 (decayMomentum M m1 m2) = (M ^ 2 + m2 ^ 2 - m1 ^ 2) / (2 * M) := by
    unfold energyOfMomentum
    rw [← sq, hk2, show kaellen M m1 m2 / (4 * M ^ 2) + m2 ^ 2 = ((M ^ 2 + m2 ^ 2 - m1 ^ 2) / (2 * M)) ^ 2 by
      unfold kaellen; field_simp; ring]
    apply Real.sqrt_sq
    apply div_nonneg _ (by linarith)
    nlinarith
  refine ⟨hk0, ?_, e1, hk2⟩
  rw [e1, e2]
  field_simp
  ring

end Proposal
