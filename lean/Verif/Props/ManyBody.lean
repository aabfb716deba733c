import Verif.Lemmas.ManyBody

/-! C84, C85: many body decays. -/

namespace Proposal

open Spec

/-- The random numbers of a round: one per daughter but two for the virtual masses, all between 0 and 1. -/
structure Spec.GoodRound (n : ℕ) (r : Round) : Prop where
  length : r.us.length + 2 = n
  us : ∀ u ∈ r.us, 0 ≤ u ∧ u ≤ 1
  dirs : ∀ u ∈ r.dirs, 0 ≤ u.2 ∧ u.2 ≤ 1

/-- The kinematics of a round in terms of the sorted random numbers. -/
theorem kinematics_eq (norm M m0 m1 : ℝ) (ms us : List ℝ) (hl : us.length = ms.length) (hu : ∀ u ∈ us, 0 ≤ u ∧ u ≤ 1) :
    ∃ r1 rs, (0 :: r1 :: rs).Pairwise (· ≤ ·) ∧ (∀ r ∈ r1 :: rs, 0 ≤ r ∧ r ≤ 1) ∧ (r1 :: rs).getLast? = some 1 ∧
      rs.length = ms.length ∧ (0 :: r1 :: rs).Perm (0 :: us ++ [1]) ∧
      kinematics norm M (m0 :: m1 :: ms) us =
        ⟨m0 :: virtualMasses (M - (m0 :: m1 :: ms).sum) m0 (m1 :: ms) (r1 :: rs),
          virtualMomenta (m0 :: virtualMasses (M - (m0 :: m1 :: ms).sum) m0 (m1 :: ms) (r1 :: rs)) (m0 :: m1 :: ms),
          norm * (virtualMomenta (m0 :: virtualMasses (M - (m0 :: m1 :: ms).sum) m0 (m1 :: ms) (r1 :: rs)) (m0 :: m1 :: ms)).prod⟩ := by
  obtain ⟨rs, h1, h2, h3, h4, h5, h6⟩ := sorted_randoms us hu
  cases rs with
  | nil => simp at h2
  | cons r1 rs =>
    refine ⟨r1, rs, h3, h4, h5, by simpa [hl] using h2, h6, ?_⟩
    unfold kinematics
    simp only [h1, virtualMasses, zero_add, zero_mul, add_zero]

/-- One event: products at rest with the mass of the parent. -/
theorem event_spec (norm M : ℝ) (products : List Part) (r : Round) (ev : List Part) (hr : GoodRound products.length r)
    (hm : ∀ p ∈ products, 0 ≤ p.mass) (hs : (products.map Part.mass).sum ≤ M)
    (h : generateEvent products (kinematics norm M (products.map Part.mass) r.us) r.dirs = some ev) :
    (∀ p ∈ ev, PhysicalState p) ∧ totalEnergy ev = M ∧ totalMomentum ev = 0 ∧ List.Forall₂ SameOrigin products ev := by
  have hl := hr.length
  match products, hl with
  | p0 :: p1 :: ps, hl =>
    simp only [List.map_cons] at h hs
    obtain ⟨r1, rs, k1, k2, k3, k4, k5, k6⟩ := kinematics_eq norm M p0.mass p1.mass (ps.map Part.mass) r.us
      (by simpa using hl) hr.us
    rw [k6] at h
    have hQ : 0 ≤ M - (p0.mass :: p1.mass :: ps.map Part.mass).sum := by linarith
    have hlast := virtualMasses_last (M - (p0.mass :: p1.mass :: ps.map Part.mass).sum) (p1.mass :: ps.map Part.mass) (r1 :: rs)
      p0.mass (by simpa using k4) k3
    have hchain := virtualMasses_chain (M - (p0.mass :: p1.mass :: ps.map Part.mass).sum) hQ (p1.mass :: ps.map Part.mass)
      (r1 :: rs) 0 p0.mass 0 (by simpa using k4) k1
    have hQM : p0.mass + (p1.mass :: ps.map Part.mass).sum + (M - (p0.mass :: p1.mass :: ps.map Part.mass).sum) = M := by
      simp only [List.sum_cons]; ring
    rw [hQM] at hlast
    generalize M - (p0.mass :: p1.mass :: ps.map Part.mass).sum = Q at *
    simp only [zero_add, zero_mul, add_zero, virtualMasses] at hchain
    simp only [virtualMasses] at h hlast
    obtain ⟨a1, a2, a3, a4⟩ := generateEvent_spec p0 p1 ps _ _ _ r.dirs ev (hm p0 (by simp)) (hm p1 (by simp))
      (fun p hp => hm p (by simp [hp])) hchain hr.dirs h
    refine ⟨a1, ?_, a3, a4⟩
    rw [List.getLast?_eq_some_getLast (by simp), Option.some.injEq] at hlast
    rw [a2, hlast]

theorem rejectionLoop_spec (norm M : ℝ) (products : List Part) (w : Weights) (rounds : List Round) (ev : List Part) (h : rejectionLoop norm M products w rounds = some ev) :
    ∃ r ∈ rounds, generateEvent products (kinematics norm M (products.map Part.mass) r.us) r.dirs = some ev := by
  induction rounds with
  | nil => simp [rejectionLoop] at h
  | cons r rs ih =>
    simp only [rejectionLoop] at h
    cases hg : generateEvent products (kinematics norm M (products.map Part.mass) r.us) r.dirs with
    | none => rw [hg] at h; simp at h
    | some e =>
      rw [hg] at h
      simp only at h
      split_ifs at h
      · obtain ⟨r', h1, h2⟩ := ih h
        exact ⟨r', List.mem_cons_of_mem _ h1, h2⟩
      · injection h with h
        exact ⟨r, List.mem_cons_self, by rw [hg, h]⟩

/-- C84: in a many body decay with enough mass, uniform in phase space or not and with any matrix element, the products
are on their mass shells, start at the decay point, and have together the four-momentum of the parent. Missing: NaN
if a product is at rest in one of the frames in which it is boosted. -/
theorem C84_many_body_partial (M : ℝ) (ds : List Daughter) (uniform : Bool) (w : Weights) (parent : Part) (rounds : List Round)
    (ps : List Part) (hp : Parent M parent) (hr : ∀ r ∈ rounds, GoodRound ds.length r) (hm : ∀ d ∈ ds, 0 ≤ d.mass)
    (hs : (ds.map Daughter.mass).sum ≤ M) (h : manyBodyDecay M ds uniform w parent rounds = some ps) :
    Conserves M parent ps ∧ AreDaughters ds parent ps := by
  unfold manyBodyDecay at h
  simp only at h
  set products := ds.map fun d => product d parent parent.dir parent.energy with hprod
  have hmap : products.map Part.mass = ds.map Daughter.mass := by
    rw [hprod, List.map_map]; rfl
  have hm' : ∀ p ∈ products, 0 ≤ p.mass := by
    intro p hpm
    rw [hprod, List.mem_map] at hpm
    obtain ⟨d, hd, rfl⟩ := hpm
    exact hm d hd
  have hr' : ∀ r ∈ rounds, GoodRound products.length r := by
    rw [hprod, List.length_map]; exact hr
  have key : ∃ ev, (∃ r ∈ rounds, generateEvent products (kinematics (normalization M (ds.map Daughter.mass)) M
      (products.map Part.mass) r.us) r.dirs = some ev) ∧ toLab M parent ev = some ps := by
    cases uniform with
    | true =>
      simp only [if_true] at h
      cases hl : rejectionLoop (normalization M (ds.map Daughter.mass)) M products w rounds with
      | none => rw [hl] at h; simp at h
      | some ev =>
        rw [hl] at h
        exact ⟨ev, rejectionLoop_spec _ M products w rounds ev hl, h⟩
    | false =>
      simp only [Bool.false_eq_true, if_false] at h
      cases rounds with
      | nil => simp at h
      | cons r rs =>
        simp only at h
        cases hl : generateEvent products (kinematics (normalization M (ds.map Daughter.mass)) M (products.map Part.mass) r.us)
          r.dirs with
        | none => rw [hl] at h; simp at h
        | some ev =>
          rw [hl] at h
          exact ⟨ev, ⟨r, List.mem_cons_self, hl⟩, h⟩
  obtain ⟨ev, ⟨r, hrm, hev⟩, hlab⟩ := key
  obtain ⟨a1, a2, a3, a4⟩ := event_spec _ M products r ev (hr' r hrm) hm' (hmap ▸ hs) hev
  obtain ⟨b1, b2, b3, b4⟩ := toLab_spec M parent ev ps hp.mass_pos hp.energy_ge hp.unit a1 a2 a3 hlab
  refine ⟨⟨b1, b3, b4⟩, ?_⟩
  have := forall_sameOrigin_trans a4 b2
  rw [hprod] at this
  unfold AreDaughters
  rw [List.forall₂_map_left_iff] at this
  exact this.imp fun d q hq => hq

/-! ## Massless daughters -/

theorem boosted_massless (e γ b d : ℝ) (he : 0 < e) (hd : d ^ 2 ≤ e ^ 2) (hγ0 : 0 ≤ γ) (hγ : γ ^ 2 - b ^ 2 = 1) :
    0 < γ * e - b * d := by
  have h := boosted_energy_nonneg e γ b d he.le hd hγ0 hγ
  apply lt_of_le_of_ne h
  intro h0
  have h1 : γ * e = b * d := by linarith
  have h2 : γ ^ 2 * e ^ 2 = b ^ 2 * d ^ 2 := by
    calc γ ^ 2 * e ^ 2 = (γ * e) ^ 2 := by ring
      _ = _ := by rw [h1]; ring
  have h3 : b ^ 2 * d ^ 2 ≤ b ^ 2 * e ^ 2 := mul_le_mul_of_nonneg_left hd (sq_nonneg _)
  nlinarith [sq_pos_of_pos he]

theorem boostAll_massless (n : Vec3) (γ b : ℝ) (hn : UnitVec n) (hγ0 : 0 ≤ γ) (hγ : γ ^ 2 - b ^ 2 = 1) (l : List Part)
    (hl : ∀ p ∈ l, PhysicalState p ∧ p.mass = 0 ∧ 0 < p.energy) :
    ∃ l', boostAll n γ b l = some l' ∧ ∀ p ∈ l', PhysicalState p ∧ p.mass = 0 ∧ 0 < p.energy := by
  induction l with
  | nil => exact ⟨[], rfl, by simp⟩
  | cons p l ih =>
    obtain ⟨l', h1, h2⟩ := ih fun q hq => hl q (List.mem_cons_of_mem _ hq)
    obtain ⟨a1, a2, a3⟩ := hl p List.mem_cons_self
    cases hq : boost p n γ b with
    | none =>
      have := boost_none p n γ b a1 hn hγ0 hγ hq
      rw [a2, mul_zero] at this
      linarith
    | some q =>
      obtain ⟨b1, b2, b3, -⟩ := boost_spec p q n γ b a1 hn hγ0 hγ hq
      refine ⟨q :: l', by simp only [boostAll, hq, h1], ?_⟩
      intro r hr
      rcases List.mem_cons.1 hr with rfl | hr
      · refine ⟨b1, b2.2.1.trans a2, ?_⟩
        rw [b3]
        have := cauchy (momentum p) n hn
        rw [momentum_dot p a1, a2] at this
        exact boosted_massless _ _ _ _ a3 (by linarith) hγ0 hγ
      · exact h2 r hr

theorem decayMomentum_massless (v v' : ℝ) (h : 0 ≤ v) (h' : v < v') : 0 < decayMomentum v' v 0 := by
  have hk : 0 < kaellen v' v 0 := by
    unfold kaellen
    have h1 : 0 < v' - v := by linarith
    have h2 : 0 < v' + v := by linarith
    simp only [sub_zero, add_zero]
    positivity
  unfold decayMomentum
  rw [if_pos hk]
  have : 0 < v' := by linarith
  have := Real.sqrt_pos.2 hk
  positivity

theorem massless_state (p : Part) (k : ℝ) (d : Vec3) (hp : p.mass = 0) (hk : 0 < k) (hd : UnitVec d) :
    PhysicalState { p.setMomentum k with dir := d } ∧ ({ p.setMomentum k with dir := d } : Part).mass = 0 ∧
    0 < ({ p.setMomentum k with dir := d } : Part).energy := by
  obtain ⟨a1, -, -, -⟩ := setMomentum_spec p hp.ge _ d k hk.le hd rfl
  refine ⟨a1, hp, ?_⟩
  simp only [Part.setMomentum, energyOfMomentum]
  rw [hp]
  apply Real.sqrt_pos.2
  positivity

theorem growEvent_massless (todo : List Part) : ∀ (done : List Part) (v m0 : ℝ) (vs : List ℝ) (us : List (ℝ × ℝ)),
    (∀ p ∈ done, PhysicalState p ∧ p.mass = 0 ∧ 0 < p.energy) → 0 < v → (∀ p ∈ todo, p.mass = 0) →
    (v :: vs).Pairwise (· < ·) → vs.length = todo.length → us.length = todo.length → (∀ u ∈ us, 0 ≤ u.2 ∧ u.2 ≤ 1) →
    ∃ res, growEvent done todo (virtualMomenta (v :: vs) (m0 :: todo.map Part.mass)) (v :: vs) us = some res ∧
      ∀ p ∈ res, PhysicalState p ∧ p.mass = 0 ∧ 0 < p.energy := by
  induction todo with
  | nil =>
    intro done v m0 vs us hd _ _ _ _ _ _
    exact ⟨done, by simp only [growEvent], hd⟩
  | cons p ps ih =>
    intro done v m0 vs us hd hv hm hs hl1 hl2 hu
    match vs, us with
    | v' :: vs, u :: us =>
      rw [List.pairwise_cons] at hs
      have hvv := hs.1 v' List.mem_cons_self
      have hpm := hm p List.mem_cons_self
      have hk := decayMomentum_massless v v' hv.le hvv
      obtain ⟨hu0, hu1⟩ := hu u List.mem_cons_self
      have hn := randomDirection_unit u hu0 hu1
      simp only [List.map_cons, virtualMomenta, growEvent, hpm]
      rw [if_neg hv.ne']
      generalize decayMomentum v' v 0 = k at *
      have hsq : Real.sqrt (k * k + v * v) ^ 2 = k * k + v * v := Real.sq_sqrt (by positivity)
      have hγ : (Real.sqrt (k * k + v * v) / v) ^ 2 - (k / v) ^ 2 = 1 := by
        rw [div_pow, div_pow, hsq]; field_simp; ring
      obtain ⟨done', g1, g2⟩ := boostAll_massless (randomDirection u) _ _ hn (by positivity) hγ done hd
      rw [g1]
      simp only
      have := ih (done' ++ [{ p.setMomentum k with dir := randomDirection u }]) v' 0 vs us ?_ (by linarith)
        (fun q hq => hm q (List.mem_cons_of_mem _ hq)) hs.2 (by simpa using hl1) (by simpa using hl2)
        (fun q hq => hu q (List.mem_cons_of_mem _ hq))
      · exact this
      · intro q hq
        rcases List.mem_append.1 hq with hq | hq
        · exact g2 q hq
        · rw [List.mem_singleton] at hq
          rw [hq]
          exact massless_state p k _ hpm hk hn
    | [], _ => simp at hl1
    | _ :: _, [] => simp at hl2

theorem virtualMasses_massless (Q : ℝ) : ∀ (ms rs : List ℝ), (∀ m ∈ ms, m = 0) → rs.length = ms.length →
    virtualMasses Q 0 ms rs = rs.map fun r => r * Q := by
  intro ms
  induction ms with
  | nil => intro rs _ hl; cases rs with
    | nil => rfl
    | cons r rs => simp at hl
  | cons m ms ih =>
    intro rs hm hl
    cases rs with
    | nil => simp at hl
    | cons r rs =>
      have h0 := hm m List.mem_cons_self
      subst h0
      simp only [virtualMasses, List.map_cons, add_zero, zero_add]
      rw [ih rs (fun m hm' => hm m (List.mem_cons_of_mem _ hm')) (by simpa using hl)]

/-- C84: a decay into two or more massless particles has a definite result for all random numbers that differ from each
other and from 0 and 1. -/
theorem C84_massless (M : ℝ) (ds : List Daughter) (w : Weights) (parent : Part) (r : Round) (rounds : List Round)
    (hp : Parent M parent) (hm : ∀ d ∈ ds, d.mass = 0) (hr : GoodRound ds.length r) (hnd : r.us.Nodup)
    (hne : ∀ u ∈ r.us, u ≠ 0 ∧ u ≠ 1) (hd : r.dirs.length + 1 = ds.length) :
    ∃ ps, manyBodyDecay M ds false w parent (r :: rounds) = some ps := by
  have hl := hr.length
  match ds, hl with
  | d0 :: d1 :: ds, hl =>
    have hm0 := hm d0 (by simp)
    have hm1 := hm d1 (by simp)
    have hms : ∀ m ∈ ds.map Daughter.mass, m = 0 := by
      intro m hmm
      rw [List.mem_map] at hmm
      obtain ⟨d, hd, rfl⟩ := hmm
      exact hm d (by simp [hd])
    unfold manyBodyDecay
    simp only [Bool.false_eq_true, if_false]
    have hmap : ((d0 :: d1 :: ds).map fun d => product d parent parent.dir parent.energy).map Part.mass =
        0 :: 0 :: ds.map Daughter.mass := by
      rw [List.map_map]
      simp only [List.map_cons, Function.comp, product, hm0, hm1]
      rfl
    rw [hmap]
    obtain ⟨r1, rs, k1, k2, k3, k4, k5, k6⟩ := kinematics_eq (normalization M ((d0 :: d1 :: ds).map Daughter.mass)) M 0 0
      (ds.map Daughter.mass) r.us (by simpa using hl) hr.us
    rw [k6]
    have hsum : (ds.map Daughter.mass).sum = 0 := List.sum_eq_zero hms
    have hQ : M - (0 :: 0 :: ds.map Daughter.mass).sum = M := by simp [hsum]
    rw [hQ, virtualMasses_massless M (0 :: ds.map Daughter.mass) (r1 :: rs)
      (by intro m hmm; rcases List.mem_cons.1 hmm with h | h; exact h; exact hms m h) (by simpa using k4)]
    have hstrict : (0 :: r1 :: rs).Pairwise (· < ·) := by
      have hn : (0 :: r1 :: rs).Nodup := by
        rw [k5.nodup_iff]
        rw [List.cons_append, List.nodup_cons, List.nodup_append]
        refine ⟨?_, hnd, by simp, ?_⟩
        · intro h
          rcases List.mem_append.1 h with h | h
          · exact (hne 0 h).1 rfl
          · norm_num at h
        · intro a ha b hb hab
          rw [List.mem_singleton] at hb
          exact (hne a ha).2 (hab.trans hb)
      exact List.Pairwise.imp₂ (fun a b h1 h2 => lt_of_le_of_ne h1 h2) k1 hn
    have hM := hp.mass_pos
    have hstrict' : ((r1 :: rs).map fun r => r * M).Pairwise (· < ·) := by
      rw [List.pairwise_map]
      exact (List.pairwise_cons.1 hstrict).2.imp fun h => mul_lt_mul_of_pos_right h hM
    have hr1 : 0 < r1 := (List.pairwise_cons.1 hstrict).1 r1 List.mem_cons_self
    cases hdirs : r.dirs with
    | nil => rw [hdirs] at hd; simp at hd
    | cons u us =>
      obtain ⟨hu0, hu1⟩ := hr.dirs u (by rw [hdirs]; simp)
      have hn := randomDirection_unit u hu0 hu1
      simp only [List.map_cons, generateEvent, virtualMomenta]
      have hk := decayMomentum_massless 0 (r1 * M) le_rfl (by positivity)
      obtain ⟨ev, e1, e2⟩ := growEvent_massless (ds.map fun d => product d parent parent.dir parent.energy)
        [{ (product d0 parent parent.dir parent.energy).setMomentum (decayMomentum (r1 * M) 0 0) with dir := -randomDirection u },
          { (product d1 parent parent.dir parent.energy).setMomentum (decayMomentum (r1 * M) 0 0) with dir := randomDirection u }]
        (r1 * M) 0 (rs.map fun r => r * M) us
        (by
          intro q hq
          simp only [List.mem_cons, List.not_mem_nil, or_false] at hq
          rcases hq with rfl | rfl
          · exact massless_state _ _ _ hm0 hk (neg_unit hn)
          · exact massless_state _ _ _ hm1 hk hn)
        (by positivity)
        (by
          intro q hq
          rw [List.mem_map] at hq
          obtain ⟨d, hd', rfl⟩ := hq
          exact hm d (by simp [hd']))
        (by simpa using hstrict') (by simpa using k4) (by rw [hdirs] at hd; simpa using hd)
        (fun q hq => hr.dirs q (by rw [hdirs]; exact List.mem_cons_of_mem _ hq))
      have hmm : (ds.map fun d => product d parent parent.dir parent.energy).map Part.mass = ds.map Daughter.mass := by
        rw [List.map_map]; rfl
      rw [hmm] at e1
      rw [e1]
      simp only
      apply toLab_some M parent ev hM hp.energy_ge hp.unit (fun p hpm => (e2 p hpm).1)
      intro p hpm
      obtain ⟨-, c2, c3⟩ := e2 p hpm
      rw [c2, mul_zero]
      positivity

/-- Three massless daughters. -/
example : ∃ ps, manyBodyDecay 3 [⟨1, 0⟩, ⟨2, 0⟩, ⟨3, 0⟩] false ⟨0, 1, fun _ => 1⟩ ⟨4, 3, ⟨0, 0, 0⟩, ⟨0, 0, 1⟩, 5, 0, 0⟩
    [⟨[0.5], [(0.25, 0.5), (0.5, 0.75)], 0⟩] = some ps := by
  apply C84_massless
  · exact ⟨by norm_num, by norm_num, by unfold UnitVec; norm_num⟩
  · simp
  · refine ⟨rfl, ?_, ?_⟩
    · intro u hu; simp only [List.mem_singleton] at hu; rw [hu]; norm_num
    · intro u hu
      simp only [List.mem_cons, List.not_mem_nil, or_false] at hu
      rcases hu with rfl | rfl <;> norm_num
  · simp
  · intro u hu; simp only [List.mem_singleton] at hu; rw [hu]; norm_num
  · rfl

/-! ## Weights -/

/-- C85: the weight of an event is never negative and never above the estimated largest one. -/
theorem C85_weight (M : ℝ) (masses us : List ℝ) (hM : 0 < M) (hm : ∀ m ∈ masses, 0 ≤ m) (hs : masses.sum ≤ M)
    (hl : us.length + 2 = masses.length) (hu : ∀ u ∈ us, 0 ≤ u ∧ u ≤ 1) :
    0 ≤ (kinematics (normalization M masses) M masses us).weight ∧
    (kinematics (normalization M masses) M masses us).weight ≤ maxWeight (normalization M masses) M masses := by
  have hn := normalization_nonneg M masses hM hs (by omega)
  generalize normalization M masses = N at *
  match masses, hl with
  | m0 :: m1 :: ms, hl =>
    obtain ⟨r1, rs, k1, k2, k3, k4, k5, k6⟩ := kinematics_eq N M m0 m1 ms us (by simpa using hl) hu
    obtain ⟨w1, w2⟩ := weights_le (M - (m0 :: m1 :: ms).sum) (by linarith) (m1 :: ms) (r1 :: rs) 0 m0 0 (by simpa using k4) le_rfl
      (hm m0 (by simp)) (fun m h => hm m (List.mem_cons_of_mem _ h)) k1 le_rfl (fun r hr => (k2 r hr).2)
    rw [k6]
    simp only [zero_add, zero_mul, add_zero] at w1 w2
    refine ⟨mul_nonneg hn w1, ?_⟩
    unfold maxWeight
    apply mul_le_mul_of_nonneg_left _ hn
    rw [add_comm _ m0]
    exact w2

/-- The numbers `a` for which a round with a given event is accepted. -/
def Spec.acceptance (norm M : ℝ) (products : List Part) (w : Weights) (us : List ℝ) (dirs : List (ℝ × ℝ)) : Set ℝ :=
  {a | 0 ≤ a ∧ a ≤ 1 ∧ rejectionLoop norm M products w [⟨us, dirs, a⟩] ≠ none}

theorem acceptance_eq (norm M : ℝ) (products : List Part) (w : Weights) (us : List ℝ) (dirs : List (ℝ × ℝ)) (ev : List Part)
    (hw : w.wMin < w.wMax)
    (hev : generateEvent products (kinematics norm M (products.map Part.mass) us) dirs = some ev)
    (h1 : (kinematics norm M (products.map Part.mass) us).weight * w.element ev ≤ w.wMax) :
    acceptance norm M products w us dirs =
      Set.Icc 0 (((kinematics norm M (products.map Part.mass) us).weight * w.element ev - w.wMin) / (w.wMax - w.wMin)) := by
  ext a
  unfold acceptance
  rw [Set.mem_ofPred_eq, Set.mem_Icc, le_div_iff₀ (by linarith)]
  simp only [rejectionLoop, hev]
  constructor
  · rintro ⟨h2, h3, h4⟩
    refine ⟨h2, ?_⟩
    by_contra h5
    rw [if_pos (by linarith)] at h4
    exact h4 rfl
  · rintro ⟨h2, h3⟩
    refine ⟨h2, ?_, ?_⟩
    · by_contra h4
      rw [not_le] at h4
      nlinarith
    · rw [if_neg (by linarith)]
      simp

/-- C85: with the default matrix element an event of weight `w` is accepted with probability `w` over the largest
weight: uniform sampling of the phase space. -/
theorem C85_uniform (M : ℝ) (products : List Part) (us : List ℝ) (dirs : List (ℝ × ℝ)) (ev : List Part) (hM : 0 < M)
    (hm : ∀ p ∈ products, 0 ≤ p.mass) (hs : (products.map Part.mass).sum ≤ M) (hl : us.length + 2 = products.length)
    (hu : ∀ u ∈ us, 0 ≤ u ∧ u ≤ 1)
    (hpos : 0 < maxWeight (normalization M (products.map Part.mass)) M (products.map Part.mass))
    (hev : generateEvent products (kinematics (normalization M (products.map Part.mass)) M (products.map Part.mass) us) dirs =
      some ev) :
    acceptance (normalization M (products.map Part.mass)) M products
        ⟨0, maxWeight (normalization M (products.map Part.mass)) M (products.map Part.mass), fun _ => 1⟩ us dirs =
      Set.Icc 0 ((kinematics (normalization M (products.map Part.mass)) M (products.map Part.mass) us).weight /
        maxWeight (normalization M (products.map Part.mass)) M (products.map Part.mass)) ∧
    (kinematics (normalization M (products.map Part.mass)) M (products.map Part.mass) us).weight /
        maxWeight (normalization M (products.map Part.mass)) M (products.map Part.mass) ∈ Set.Icc (0 : ℝ) 1 := by
  obtain ⟨w0, w1⟩ := C85_weight M (products.map Part.mass) us hM
    (by intro m hmm; rw [List.mem_map] at hmm; obtain ⟨p, hp, rfl⟩ := hmm; exact hm p hp) hs (by simpa using hl) hu
  constructor
  · generalize maxWeight (normalization M (products.map Part.mass)) M (products.map Part.mass) = W at *
    rw [acceptance_eq _ M products ⟨0, W, fun _ => 1⟩ us dirs ev hpos hev (by simpa using w1)]
    simp
  · exact ⟨div_nonneg w0 hpos.le, (div_le_one hpos).2 w1⟩

/-- C85: the weights with a matrix element of the user are the smallest and the largest one of all sampled events. -/
theorem C85_extremes (w : ℝ) (ws : List ℝ) :
    ((sampleWeights w ws).1 ∈ w :: ws ∧ ∀ v ∈ w :: ws, (sampleWeights w ws).1 ≤ v) ∧
    ((sampleWeights w ws).2 ∈ w :: ws ∧ ∀ v ∈ w :: ws, v ≤ (sampleWeights w ws).2) := by
  have key : ∀ (ws : List ℝ) (a b : ℝ),
      let f := ws.foldl (fun (acc : ℝ × ℝ) r => (if r < acc.1 then r else acc.1, if r > acc.2 then r else acc.2)) (a, b)
      (f.1 ∈ a :: ws ∧ ∀ v ∈ a :: ws, f.1 ≤ v) ∧ (f.2 ∈ b :: ws ∧ ∀ v ∈ b :: ws, v ≤ f.2) := by
    intro ws
    induction ws with
    | nil => intro a b; simp
    | cons r t ih =>
      intro a b
      obtain ⟨⟨h1, h2⟩, h3, h4⟩ := ih (if r < a then r else a) (if r > b then r else b)
      simp only [List.foldl_cons]
      generalize List.foldl _ _ t = f at *
      simp only [List.mem_cons, forall_eq_or_imp] at *
      split_ifs at * with c1 c2 c2 <;> refine ⟨⟨?_, ?_⟩, ?_, ?_⟩ <;>
        first | tauto | (refine ⟨?_, ?_, ?_⟩ <;> first | tauto | linarith)
  exact key ws w w

theorem decayMomentum_scale (c a b d : ℝ) (hc : 0 < c) : decayMomentum (c * a) (c * b) (c * d) = c * decayMomentum a b d := by
  have hk : kaellen (c * a) (c * b) (c * d) = (c ^ 2) ^ 2 * kaellen a b d := by unfold kaellen; ring
  have h4 : 0 < (c ^ 2) ^ 2 := by positivity
  unfold decayMomentum
  rw [hk]
  by_cases h : kaellen a b d > 0
  · rw [if_pos h, if_pos (mul_pos h4 h), Real.sqrt_mul h4.le, Real.sqrt_sq (by positivity)]
    by_cases ha : a = 0
    · simp [ha]
    · field_simp
  · rw [if_neg h, if_neg (by intro h'; exact h (pos_of_mul_pos_right h' h4.le)), mul_zero]

theorem virtualMasses_scale (c Q : ℝ) : ∀ (ms rs : List ℝ) (acc : ℝ),
    virtualMasses (c * Q) (c * acc) (ms.map (c * ·)) rs = (virtualMasses Q acc ms rs).map (c * ·)
  | [], _, _ => by simp [virtualMasses]
  | _ :: _, [], _ => by simp [virtualMasses]
  | m :: ms, r :: rs, acc => by
    have := virtualMasses_scale c Q ms rs (acc + m)
    simp only [virtualMasses, List.map_cons, ← this]
    congr 1
    · ring
    · congr 1; ring

theorem virtualMomenta_scale (c : ℝ) (hc : 0 < c) : ∀ (vs ms : List ℝ),
    virtualMomenta (vs.map (c * ·)) (ms.map (c * ·)) = (virtualMomenta vs ms).map (c * ·)
  | [], _ => by simp [virtualMomenta]
  | [_], _ => by simp [virtualMomenta]
  | _ :: _ :: _, [] => by simp [virtualMomenta]
  | _ :: _ :: _, [_] => by simp [virtualMomenta]
  | v0 :: v1 :: vs, m0 :: m1 :: ms => by
    have := virtualMomenta_scale c hc (v1 :: vs) (m1 :: ms)
    simp only [List.map_cons] at this
    simp only [virtualMomenta, List.map_cons, decayMomentum_scale c v1 v0 m1 hc, this]

theorem virtualMomenta_length : ∀ (vs ms : List ℝ), vs.length = ms.length → (virtualMomenta vs ms).length = ms.length - 1
  | [], [], _ => rfl
  | [_], [_], _ => rfl
  | v0 :: v1 :: vs, m0 :: m1 :: ms, h => by
    have := virtualMomenta_length (v1 :: vs) (m1 :: ms) (by simpa using h)
    simp only [virtualMomenta, List.length_cons, this]
    simp

theorem virtualMasses_length (Q : ℝ) : ∀ (ms rs : List ℝ) (acc : ℝ), rs.length = ms.length → (virtualMasses Q acc ms rs).length = ms.length
  | [], [], _, _ => rfl
  | m :: ms, r :: rs, acc, h => by
    simp only [virtualMasses, List.length_cons, virtualMasses_length Q ms rs (acc + m) (by simpa using h)]

/-- C85: the weight has the dimension of an n-body phase space volume, the power `2 n - 4` of an energy, and the virtual masses
and momenta scale with the masses. -/
theorem C85_dimension (c M : ℝ) (masses us : List ℝ) (hc : 0 < c) (hM : 0 < M) (hl : us.length + 2 = masses.length) :
    let k := kinematics (normalization M masses) M masses us
    let k' := kinematics (normalization (c * M) (masses.map (c * ·))) (c * M) (masses.map (c * ·)) us
    k'.vms = k.vms.map (c * ·) ∧ k'.momenta = k.momenta.map (c * ·) ∧ k'.weight = c ^ (2 * masses.length - 4) * k.weight := by
  intro k k'
  have hsum : ∀ l : List ℝ, (l.map (c * ·)).sum = c * l.sum := by
    intro l
    induction l with
    | nil => simp
    | cons a l ih => simp only [List.map_cons, List.sum_cons, ih]; ring
  have hprod : ∀ l : List ℝ, (l.map (c * ·)).prod = c ^ l.length * l.prod := by
    intro l
    induction l with
    | nil => simp
    | cons a l ih => simp only [List.map_cons, List.prod_cons, List.length_cons, ih]; ring
  have hq : c * M - (masses.map (c * ·)).sum = c * (M - masses.sum) := by rw [hsum]; ring
  have h1 : k'.vms = k.vms.map (c * ·) := by
    show virtualMasses (c * M - (masses.map (c * ·)).sum) 0 (masses.map (c * ·)) _ = _
    rw [hq]
    have := virtualMasses_scale c (M - masses.sum) masses (List.insertionSort (· ≤ ·) (0 :: us ++ [1])) 0
    rw [mul_zero] at this
    exact this
  have h2 : k'.momenta = k.momenta.map (c * ·) := by
    show virtualMomenta k'.vms (masses.map (c * ·)) = _
    rw [h1]
    exact virtualMomenta_scale c hc _ _
  refine ⟨h1, h2, ?_⟩
  have hlen : k.momenta.length = masses.length - 1 :=
    virtualMomenta_length _ _ (virtualMasses_length _ _ _ _ (by rw [List.length_insertionSort]; simp; omega))
  show normalization (c * M) (masses.map (c * ·)) * k'.momenta.prod = c ^ (2 * masses.length - 4) * (normalization M masses * k.momenta.prod)
  rw [h2, hprod, hlen]
  obtain ⟨n, hn⟩ : ∃ n, masses.length = n + 2 := ⟨us.length, hl.symm⟩
  have e1 : (((n + 2 : ℕ) : ℤ) - 2) = (n : ℤ) := by push_cast; ring
  unfold normalization
  rw [hq, List.length_map, hn, e1, mul_zpow, zpow_natCast, zpow_natCast, show n + 2 - 1 = n + 1 by omega,
    show 2 * (n + 2) - 4 = n + n by omega, pow_add, pow_succ]
  generalize Real.Gamma _ = G
  generalize (2 * Real.pi) ^ _ = P
  field_simp
  ring

/-- C85 fails with a matrix element of the user: there the acceptance probability is not proportional to the weight,
and an event whose weight is below the smallest one among the sampled events is never accepted. -/
theorem C85_custom_element (norm M : ℝ) (products : List Part) (element : List Part → ℝ) (w0 : ℝ) (ws us : List ℝ)
    (dirs : List (ℝ × ℝ)) (ev : List Part)
    (hev : generateEvent products (kinematics norm M (products.map Part.mass) us) dirs = some ev)
    (hmin : (kinematics norm M (products.map Part.mass) us).weight * element ev < (sampleWeights w0 ws).1)
    (hlt : (sampleWeights w0 ws).1 < (sampleWeights w0 ws).2) :
    acceptance norm M products ⟨(sampleWeights w0 ws).1, (sampleWeights w0 ws).2, element⟩ us dirs = ∅ := by
  rw [acceptance_eq _ M products ⟨_, _, element⟩ us dirs ev hlt hev (by simp only; linarith)]
  apply Set.Icc_eq_empty
  rw [not_le]
  apply div_neg_of_neg_of_pos <;> simp only <;> linarith

/-- Two massless daughters and a matrix element that prefers a direction: sampled events with the values 2.5 and 2.9,
an event with the value 1.5. -/
example : ∃ (products ev : List Part) (dirs : List (ℝ × ℝ)) (element : List Part → ℝ) (w0 : ℝ) (ws : List ℝ),
    generateEvent products (kinematics 1 2 (products.map Part.mass) []) dirs = some ev ∧
    0 < (kinematics 1 2 (products.map Part.mass) []).weight * element ev ∧
    (kinematics 1 2 (products.map Part.mass) []).weight * element ev < (sampleWeights w0 ws).1 ∧
    (sampleWeights w0 ws).1 < (sampleWeights w0 ws).2 := by
  have hk : kinematics 1 2 [0, 0] [] = ⟨[0, 2], [1], 1⟩ := by
    have : Real.sqrt (2 * 2 * 2 * 2) = 4 := by
      rw [show (2 * 2 * 2 * 2 : ℝ) = 4 ^ 2 by norm_num]; exact Real.sqrt_sq (by norm_num)
    have hs : List.insertionSort (fun x1 x2 : ℝ => x1 ≤ x2) (0 :: [] ++ [1]) = [0, 1] := by
      simp [List.insertionSort]
    have hd : decayMomentum 2 0 0 = 1 := by
      norm_num [decayMomentum, kaellen]
      norm_num at this
      rw [this]; norm_num
    unfold kinematics
    simp only [hs, virtualMasses, virtualMomenta]
    norm_num [hd]
  let p : Part := ⟨1, 0, ⟨0, 0, 0⟩, ⟨0, 0, 1⟩, 2, 0, 0⟩
  have hm : [p, p].map Part.mass = [0, 0] := rfl
  refine ⟨[p, p], [{ p.setMomentum 1 with dir := -randomDirection (0, 0.75) }, { p.setMomentum 1 with dir := randomDirection (0, 0.75) }],
    [(0, 0.75)], fun ev => match ev with | q :: _ => 2 + q.dir.z | [] => 0, 2.5, [2.9], ?_, ?_, ?_, ?_⟩ <;>
    simp only [hm, hk, generateEvent, growEvent, randomDirection, Vec3.neg_z, sampleWeights, List.foldl] <;> norm_num

end Proposal
