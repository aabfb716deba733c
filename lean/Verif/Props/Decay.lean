import Verif.Lemmas.Decay

/-!
# Boosts and two-body decays (C36, C37, C38)
-/

namespace Proposal
open Spec

private lemma boost_normalize (p : Part) (n n' : Vec3) (γ b : ℝ) (h : n.normalize = some n') :
    boost p n γ b = boost p n' γ b := by
  have := normalize_unit n' (normalize_spec h).1
  unfold boost
  simp only [h, this]

/-- C38: a boost along any direction, unit or not, is the standard Lorentz transformation of energy and momentum;
it keeps the mass shell and everything but energy and direction. -/
theorem C38_boost (p q : Part) (n : Vec3) (γ b : ℝ) (hp : PhysicalState p) (hγ0 : 0 ≤ γ) (hγ : γ ^ 2 - b ^ 2 = 1)
    (h : boost p n γ b = some q) :
    ∃ n' : Vec3, UnitVec n' ∧ n.mag • n' = n ∧ PhysicalState q ∧ SameOrigin p q ∧
      q.energy = γ * p.energy - b * cosAngle (momentum p) n' ∧
      momentum q = momentum p + ((γ - 1) * cosAngle (momentum p) n' - b * p.energy) • n' ∧
      q.energy ^ 2 - cosAngle (momentum q) (momentum q) = p.mass ^ 2 := by
  cases hn : n.normalize with
  | none => unfold boost at h; simp [hn] at h
  | some n' =>
    obtain ⟨hu, hm⟩ := normalize_spec hn
    rw [boost_normalize p n n' γ b hn] at h
    obtain ⟨a1, a2, a3, a4⟩ := boost_spec p q n' γ b hp hu hγ0 hγ h
    refine ⟨n', hu, hm, a1, a2, a3, a4, ?_⟩
    have := momentum_dot q a1
    have e : cosAngle (momentum q) (momentum q) = (momentum q).dot (momentum q) := rfl
    rw [e, this, a2.2.1]; ring

/-- C38: the boost gives a number unless the particle is at rest afterwards. -/
theorem C38_boost_defined (p : Part) (n : Vec3) (γ b : ℝ) (hp : PhysicalState p) (hn : n ≠ 0) (hγ0 : 0 ≤ γ)
    (hγ : γ ^ 2 - b ^ 2 = 1) (hne : p.energy ≠ γ * p.mass) : ∃ q, boost p n γ b = some q := by
  have hz : n.mag ≠ 0 := fun h => hn ((Vec3.mag_eq_zero_iff n).1 h)
  obtain ⟨n', h'⟩ : ∃ n', n.normalize = some n' := by
    unfold Vec3.normalize; rw [if_neg hz]; exact ⟨_, rfl⟩
  rw [boost_normalize p n n' γ b h']
  cases hb : boost p n' γ b with
  | none => exact absurd (boost_none p n' γ b hp (normalize_spec h').1 hγ0 hγ hb) hne
  | some q => exact ⟨q, rfl⟩

/-- C38: boosting back gives the original four-momentum. -/
theorem C38_boost_inverse (p q r : Part) (n : Vec3) (γ b : ℝ) (hp : PhysicalState p) (hγ0 : 0 ≤ γ)
    (hγ : γ ^ 2 - b ^ 2 = 1) (h1 : boost p n γ b = some q) (h2 : boost q n γ (-b) = some r) :
    r.energy = p.energy ∧ momentum r = momentum p := by
  cases hn : n.normalize with
  | none => unfold boost at h1; simp [hn] at h1
  | some n' =>
    obtain ⟨hu, -⟩ := normalize_spec hn
    rw [boost_normalize _ n n' _ _ hn] at h1 h2
    obtain ⟨a1, a2, a3, a4⟩ := boost_spec p q n' γ b hp hu hγ0 hγ h1
    obtain ⟨b1, b2, b3, b4⟩ := boost_spec q r n' γ (-b) a1 hu hγ0 (by rw [neg_sq]; exact hγ) h2
    have hd : (momentum q).dot n' = γ * (momentum p).dot n' - b * p.energy := by
      rw [a4]
      unfold boostedVec
      unfold UnitVec at hu
      have : (momentum p + ((γ - 1) * (momentum p).dot n' - b * p.energy) • n').dot n' = (momentum p).dot n' +
          ((γ - 1) * (momentum p).dot n' - b * p.energy) * (n'.x ^ 2 + n'.y ^ 2 + n'.z ^ 2) := by
        generalize (γ - 1) * (momentum p).dot n' - b * p.energy = t
        unfold Vec3.dot
        simp only [Vec3.add_x, Vec3.add_y, Vec3.add_z, Vec3.smul_x, Vec3.smul_y, Vec3.smul_z]
        ring
      rw [this, hu]; ring
    constructor
    · rw [b3, hd, a3]
      linear_combination p.energy * hγ
    · rw [b4]
      unfold boostedVec
      rw [hd, a3, a4]
      unfold boostedVec
      generalize (momentum p).dot n' = d
      ext <;> simp only [Vec3.add_x, Vec3.add_y, Vec3.add_z, Vec3.smul_x, Vec3.smul_y, Vec3.smul_z]
      · linear_combination n'.x * d * hγ
      · linear_combination n'.y * d * hγ
      · linear_combination n'.z * d * hγ

/-- A photon boosted with `γ = 5/4`: the hypotheses are met. -/
example : ∃ p q : Part, PhysicalState p ∧ boost p ⟨0, 0, 2⟩ (5 / 4) (3 / 4) = some q ∧ p.energy = 1 := by
  refine ⟨⟨22, 0, ⟨0, 0, 0⟩, ⟨0, 0, 1⟩, 1, 0, 0⟩, ?_⟩
  have hp : PhysicalState ⟨22, 0, ⟨0, 0, 0⟩, ⟨0, 0, 1⟩, 1, 0, 0⟩ :=
    ⟨le_rfl, zero_le_one, by unfold UnitVec; norm_num⟩
  obtain ⟨q, hq⟩ := C38_boost_defined _ ⟨0, 0, 2⟩ (5 / 4) (3 / 4) hp
    (by intro h; have := congrArg Vec3.z h; norm_num at this) (by norm_num) (by norm_num) (by norm_num)
  exact ⟨q, hp, hq, rfl⟩

/-! ## Two-body decays -/

theorem twoBodyRest_spec (M : ℝ) (d1 d2 : Daughter) (parent : Part) (u : ℝ × ℝ) (hM : 0 < M) (h1 : 0 ≤ d1.mass)
    (h2 : 0 ≤ d2.mass) (h : d1.mass + d2.mass ≤ M) (hu0 : 0 ≤ u.2) (hu1 : u.2 ≤ 1) :
    (∀ p ∈ twoBodyRest M d1 d2 parent u, PhysicalState p) ∧ totalEnergy (twoBodyRest M d1 d2 parent u) = M ∧
    totalMomentum (twoBodyRest M d1 d2 parent u) = 0 := by
  have hn := randomDirection_unit u hu0 hu1
  obtain ⟨k0, k1, -, -⟩ := decayMomentum_spec M d1.mass d2.mass hM h1 h2 h
  obtain ⟨a1, a2, -, -⟩ := setMomentum_spec (product d1 parent (randomDirection u) parent.energy) h1 _ _ _ k0 hn rfl
  obtain ⟨b1, b2, -, -⟩ := setMomentum_spec (product d2 parent (-randomDirection u) parent.energy) h2 _ _ _ k0 (neg_unit hn) rfl
  refine ⟨?_, ?_, ?_⟩
  · intro p hp
    simp only [twoBodyRest, List.mem_cons, List.not_mem_nil, or_false] at hp
    rcases hp with rfl | rfl
    · exact a1
    · exact b1
  · simp only [twoBodyRest, totalEnergy_cons, totalEnergy_nil, add_zero]
    exact k1
  · simp only [twoBodyRest, totalMomentum_cons, totalMomentum_nil]
    change momentum { (product d1 parent (randomDirection u) parent.energy).setMomentum (decayMomentum M d1.mass d2.mass) with
      dir := randomDirection u } + (momentum { (product d2 parent (-randomDirection u) parent.energy).setMomentum
      (decayMomentum M d1.mass d2.mass) with dir := -randomDirection u } + 0) = 0
    rw [a2, b2]
    ext <;> simp

/-- C36: in a two-body decay with enough mass the daughters are on their mass shells, start at the decay point, and
their four-momenta add up to that of the parent. Missing: a daughter at rest gets a NaN direction, see
`C36_at_rest`. -/
theorem C36_two_body_partial (M : ℝ) (d1 d2 : Daughter) (parent : Part) (u : ℝ × ℝ) (hp : Parent M parent)
    (h1 : 0 ≤ d1.mass) (h2 : 0 ≤ d2.mass) (h : d1.mass + d2.mass ≤ M) (hu0 : 0 ≤ u.2) (hu1 : u.2 ≤ 1) :
    (∀ ps, twoBodyDecay M d1 d2 parent u = some ps → Conserves M parent ps ∧ AreDaughters [d1, d2] parent ps) ∧
    (M ^ 2 + d1.mass ^ 2 - d2.mass ^ 2 ≠ 2 * parent.energy * d1.mass →
      M ^ 2 + d2.mass ^ 2 - d1.mass ^ 2 ≠ 2 * parent.energy * d2.mass → ∃ ps, twoBodyDecay M d1 d2 parent u = some ps) := by
  obtain ⟨r1, r2, r3⟩ := twoBodyRest_spec M d1 d2 parent u hp.mass_pos h1 h2 h hu0 hu1
  have hM := hp.mass_pos
  constructor
  · intro ps hps
    obtain ⟨a1, a2, a3, a4⟩ := toLab_spec M parent _ ps hp.mass_pos hp.energy_ge hp.unit r1 r2 r3 hps
    refine ⟨⟨a1, a3, a4⟩, ?_⟩
    simp only [twoBodyRest] at a2
    cases a2 with
    | cons c1 a2 =>
      cases a2 with
      | cons c2 a2 =>
        cases a2
        obtain ⟨x1, x2, x3, x4, x5⟩ := c1
        obtain ⟨y1, y2, y3, y4, y5⟩ := c2
        exact .cons ⟨x1, x2, x3, x4, x5⟩ (.cons ⟨y1, y2, y3, y4, y5⟩ .nil)
  · intro n1 n2
    apply toLab_some M parent _ hp.mass_pos hp.energy_ge hp.unit r1
    intro p hpm
    obtain ⟨-, k1, k2, -⟩ := decayMomentum_spec M d1.mass d2.mass hM h1 h2 h
    simp only [twoBodyRest, List.mem_cons, List.not_mem_nil, or_false] at hpm
    rcases hpm with rfl | rfl
    · simp only [Part.setMomentum, product]
      rw [k2]
      intro hc
      apply n1
      field_simp at hc
      linarith
    · simp only [Part.setMomentum, product]
      rw [show energyOfMomentum d2.mass (decayMomentum M d1.mass d2.mass) = (M ^ 2 + d2.mass ^ 2 - d1.mass ^ 2) / (2 * M) by
        have : energyOfMomentum d2.mass (decayMomentum M d1.mass d2.mass) = M - (M ^ 2 + d1.mass ^ 2 - d2.mass ^ 2) / (2 * M) := by
          linarith
        rw [this]; field_simp; ring]
      intro hc
      apply n2
      field_simp at hc
      linarith

/-- The decay of a pion into muon and neutrino is a case, whatever the energy. -/
example (parent : Part) (hp : Parent 139.57018 parent) (u : ℝ × ℝ) (h0 : 0 ≤ u.2) (h1 : u.2 ≤ 1)
    (hE : parent.energy = 139.57018) :
    ∃ ps, twoBodyDecay 139.57018 ⟨13, 105.6583745⟩ ⟨14, 0⟩ parent u = some ps := by
  apply (C36_two_body_partial _ ⟨13, 105.6583745⟩ ⟨14, 0⟩ parent u hp (by norm_num) (by norm_num) (by norm_num) h0 h1).2
  · rw [hE]; norm_num
  · norm_num

/-- C36 fails for a parent at rest that decays into daughters without kinetic energy: their directions are
NaN. -/
theorem C36_at_rest (d1 d2 : Daughter) (parent : Part) (u : ℝ × ℝ) (h1 : 0 < d1.mass) (h2 : 0 ≤ d2.mass)
    (hE : parent.energy = d1.mass + d2.mass) (hd : UnitVec parent.dir) :
    twoBodyDecay (d1.mass + d2.mass) d1 d2 parent u = none := by
  have hk : decayMomentum (d1.mass + d2.mass) d1.mass d2.mass = 0 := by
    unfold decayMomentum kaellen
    rw [if_neg (by simp)]
  have hn := neg_unit hd
  have hb : boost ((product d1 parent (randomDirection u) parent.energy).setMomentum 0) (-parent.dir) 1 0 = none := by
    unfold boost
    have e : momentumOfEnergy ((product d1 parent (randomDirection u) parent.energy).setMomentum 0).mass
        ((product d1 parent (randomDirection u) parent.energy).setMomentum 0).energy = some 0 := by
      simp only [Part.setMomentum, product, energyOfMomentum, momentumOfEnergy]
      simp [Real.sqrt_sq h1.le]
    simp only [normalize_unit _ hn, e]
    have : Vec3.normalize ((0 : ℝ) • ((product d1 parent (randomDirection u) parent.energy).setMomentum 0).dir +
        ((1 - 1) * ((0 : ℝ) • ((product d1 parent (randomDirection u) parent.energy).setMomentum 0).dir).dot (-parent.dir) -
          0 * ((product d1 parent (randomDirection u) parent.energy).setMomentum 0).energy) • (-parent.dir)) = none := by
      unfold Vec3.normalize
      rw [if_pos]
      rw [Vec3.mag_eq_zero_iff]
      ext <;> simp
    rw [this]
  unfold twoBodyDecay toLab twoBodyRest
  simp only [hk]
  rw [hE, div_self (by positivity), sub_self, mul_zero, max_self, Real.sqrt_zero, zero_div]
  simp only [boostAll]
  rw [hE] at hb
  rw [hb]

example : ∃ (d1 d2 : Daughter) (parent : Part), 0 < d1.mass ∧ 0 ≤ d2.mass ∧ parent.energy = d1.mass + d2.mass ∧
    UnitVec parent.dir :=
  ⟨⟨1, 1⟩, ⟨2, 1⟩, ⟨3, 2, ⟨0, 0, 0⟩, ⟨0, 0, 1⟩, 2, 0, 0⟩, by norm_num, by norm_num, by norm_num, by unfold UnitVec; norm_num⟩

/-! ## Forbidden decays -/

/-- C37: no momentum if the parent is lighter than the daughters, but not lighter than their mass difference. -/
theorem C37_momentum_partial (m1 m2 m3 : ℝ) (hm : 0 ≤ m1) (h : m1 ≤ m2 + m3) (hd : |m2 - m3| ≤ m1) :
    decayMomentum m1 m2 m3 = 0 := by
  obtain ⟨a, b⟩ := abs_le.1 hd
  unfold decayMomentum kaellen
  rw [if_neg]
  rw [not_lt]
  have : 0 ≤ (m2 + m3 - m1) * (m1 + m2 + m3) * (m1 - m2 + m3) * (m1 + m2 - m3) := by
    apply mul_nonneg (mul_nonneg (mul_nonneg _ _) _) _ <;> linarith
  linarith

example : (0 : ℝ) ≤ 3 ∧ (3 : ℝ) ≤ 2 + 2 ∧ |(2 : ℝ) - 2| ≤ 3 := by norm_num

/-- C37 fails: for every parent lighter than the difference of the daughter masses the momentum is positive, and the
daughters of the decay, which is performed, have more energy than the parent. -/
theorem C37_forbidden (M : ℝ) (d1 d2 : Daughter) (hM : 0 < M) (h2 : 0 ≤ d2.mass) (h : M + d2.mass < d1.mass)
    (parent : Part) (u : ℝ × ℝ) :
    0 < decayMomentum M d1.mass d2.mass ∧ M < totalEnergy (twoBodyRest M d1 d2 parent u) := by
  have hk : 0 < kaellen M d1.mass d2.mass := by
    unfold kaellen
    have a : M - d1.mass - d2.mass < 0 := by linarith
    have b : 0 < M + d1.mass + d2.mass := by linarith
    have c : M - d1.mass + d2.mass < 0 := by linarith
    have d : 0 < M + d1.mass - d2.mass := by linarith
    have := mul_pos (mul_pos_of_neg_of_neg (mul_neg_of_neg_of_pos a b) c) d
    exact this
  constructor
  · unfold decayMomentum
    rw [if_pos hk]
    have := Real.sqrt_pos.2 hk
    positivity
  · simp only [twoBodyRest, totalEnergy_cons, totalEnergy_nil, add_zero, Part.setMomentum, product]
    have e1 : d1.mass ≤ energyOfMomentum d1.mass (decayMomentum M d1.mass d2.mass) := by
      unfold energyOfMomentum
      apply Real.le_sqrt_of_sq_le
      nlinarith [mul_self_nonneg (decayMomentum M d1.mass d2.mass)]
    have e2 : 0 ≤ energyOfMomentum d2.mass (decayMomentum M d1.mass d2.mass) := Real.sqrt_nonneg _
    linarith

/-- The decay of C37 is performed: a parent of mass 1 at rest, daughters of masses 5 and 1. -/
theorem C37_performed : ∃ (parent : Part) (ps : List Part), Parent 1 parent ∧ parent.energy = 1 ∧
    twoBodyDecay 1 ⟨1, 5⟩ ⟨2, 1⟩ parent (0, 1 / 2) = some ps ∧ 5 < totalEnergy ps := by
  have hn : UnitVec (randomDirection (0, 1 / 2)) := randomDirection_unit _ (by norm_num) (by norm_num)
  let parent : Part := ⟨3, 1, ⟨0, 0, 0⟩, ⟨0, 0, 1⟩, 1, 0, 0⟩
  have hpar : Parent 1 parent := ⟨one_pos, le_rfl, by simp only [UnitVec, parent]; norm_num⟩
  have hk : 0 < decayMomentum 1 5 1 := (C37_forbidden 1 ⟨1, 5⟩ ⟨2, 1⟩ one_pos (by norm_num) (by norm_num) parent (0, 1 / 2)).1
  set k := decayMomentum 1 5 1 with hkdef
  obtain ⟨a1, -, -, -⟩ := setMomentum_spec (product ⟨1, 5⟩ parent (randomDirection (0, 1 / 2)) parent.energy) (by simp [product])
    _ _ k hk.le hn rfl
  obtain ⟨b1, -, -, -⟩ := setMomentum_spec (product ⟨2, 1⟩ parent (-randomDirection (0, 1 / 2)) parent.energy) (by simp [product])
    _ _ k hk.le (neg_unit hn) rfl
  have hrest : ∀ p ∈ twoBodyRest 1 ⟨1, 5⟩ ⟨2, 1⟩ parent (0, 1 / 2), PhysicalState p := by
    intro p hp
    simp only [twoBodyRest, List.mem_cons, List.not_mem_nil, or_false] at hp
    rcases hp with rfl | rfl
    · exact a1
    · exact b1
  have hgt : ∀ m : ℝ, 0 ≤ m → m < energyOfMomentum m k := by
    intro m hm
    unfold energyOfMomentum
    rw [Real.lt_sqrt hm]
    nlinarith
  have hlab : toLab 1 parent (twoBodyRest 1 ⟨1, 5⟩ ⟨2, 1⟩ parent (0, 1 / 2)) =
      boostAll (-parent.dir) 1 0 (twoBodyRest 1 ⟨1, 5⟩ ⟨2, 1⟩ parent (0, 1 / 2)) := by
    unfold toLab
    simp [parent]
  have hne : ∀ p ∈ twoBodyRest 1 ⟨1, 5⟩ ⟨2, 1⟩ parent (0, 1 / 2), PhysicalState p ∧ p.energy ≠ 1 * p.mass := by
    intro p hp
    refine ⟨hrest p hp, ?_⟩
    simp only [twoBodyRest, List.mem_cons, List.not_mem_nil, or_false] at hp
    rcases hp with rfl | rfl
    · simp only [Part.setMomentum, product, one_mul]
      exact (hgt 5 (by norm_num)).ne'
    · simp only [Part.setMomentum, product, one_mul]
      exact (hgt 1 (by norm_num)).ne'
  obtain ⟨ps, hps⟩ := boostAll_some _ 1 0 (neg_unit hpar.unit) zero_le_one (by norm_num) _ hne
  obtain ⟨-, -, s3, -⟩ := boostAll_spec _ 1 0 (neg_unit hpar.unit) zero_le_one (by norm_num) _ ps hrest hps
  refine ⟨parent, ps, hpar, rfl, ?_, ?_⟩
  · unfold twoBodyDecay
    rw [hlab, hps]
  · rw [s3]
    simp only [twoBodyRest, totalEnergy_cons, totalEnergy_nil, add_zero, Part.setMomentum, product, zero_mul, sub_zero, one_mul]
    have := hgt 5 (by norm_num)
    have := hgt 1 (by norm_num)
    linarith

end Proposal
