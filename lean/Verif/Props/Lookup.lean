import Verif.Lemmas.Track
import Verif.Model.Time
import Verif.Props.Run

/-!
# Looking up states on a track (C21 to C23)
-/

namespace Proposal

open Spec

/-- The direction from `p` to `q`. -/
noncomputable def Spec.towards (p q : Vec3) : Vec3 :=
  ⟨(q.x - p.x) / euclid p q, (q.y - p.y) / euclid p q, (q.z - p.z) / euclid p q⟩

/-- `r` is the point at fraction `τ` of the straight step from `x` to `y`. -/
def Spec.AtFraction (τ : ℝ) (x y r : PState) : Prop :=
  r.position.x = x.position.x + τ * (y.position.x - x.position.x) ∧
  r.position.y = x.position.y + τ * (y.position.y - x.position.y) ∧
  r.position.z = x.position.z + τ * (y.position.z - x.position.z) ∧
  r.distance = x.distance + τ * (y.distance - x.distance)

/-- The step from `x` to `y` has positive length, is straight, and in sector `s` losing less energy
than in the step never takes a longer way than the step. -/
structure Spec.LawfulStep (s : Sector) (x y : PState) : Prop where
  pos : x.distance < y.distance
  straight : euclid x.position y.position = y.distance - x.distance
  shorter : ∀ E m, y.energy ≤ E → E ≤ x.energy → ∃ d,
    s.dens.correct x.position x.direction (s.util.lengthContinuous x.energy E) m = some d ∧
    0 ≤ d ∧ d ≤ y.distance - x.distance

private lemma euclid_eq (p q : Vec3) : euclid p q = (q - p).mag := (mag_sub_eq p q).symm

private lemma norm_eq {p q : Vec3} (h : 0 < euclid p q) : (q - p).normalize = some (towards p q) := by
  rw [euclid_eq] at h
  rw [normalize_of_pos h]
  congr 1
  unfold Spec.towards
  rw [euclid_eq]
  ext <;> simp <;> ring

private lemma atFraction {x y : PState} {d L : ℝ} (hL : 0 < L)
    (hl : euclid x.position y.position = L) (hd : y.distance - x.distance = L) (E t : ℝ) (u : Vec3) :
    AtFraction (d / L) x y ⟨E, t, x.position + d • towards x.position y.position, u, x.distance + d⟩ := by
  unfold Spec.AtFraction Spec.towards
  rw [hl, hd]
  simp only [Vec3.add_x, Vec3.add_y, Vec3.add_z, Vec3.smul_x, Vec3.smul_y, Vec3.smul_z]
  have := hL.ne'
  refine ⟨?_, ?_, ?_, ?_⟩ <;> field_simp

/-- C21: on a track with non-increasing energies, `GetStateForEnergy` returns the initial state for
energies not below the initial one, the final state for energies not above the final one, the state
before the loss for energies inside a stochastic loss, and for energies inside a continuous loss a
state with exactly the requested energy on the straight line between the two neighbouring entries.
These cases cover every energy. -/
theorem C21_state_for_energy (sectors : List Sector) (l : List Entry) (E : ℝ) (x0 xn : Entry)
    (hmono : List.IsChain (fun a b : Entry => b.state.energy ≤ a.state.energy) l)
    (h0 : l.head? = some x0) (hn : l.getLast? = some xn) :
    (x0.state.energy ≤ E → stateForEnergy sectors l E = .ok x0.state) ∧
    (E < x0.state.energy → E ≤ xn.state.energy → stateForEnergy sectors l E = .ok xn.state) ∧
    (E < x0.state.energy → ∀ l1 x y l2, l = l1 ++ x :: y :: l2 →
      y.state.energy < E → E ≤ x.state.energy →
      (y.type ≠ .continuousEnergyLoss → stateForEnergy sectors l E = .ok x.state) ∧
      (y.type = .continuousEnergyLoss → ∀ s,
        currentSector sectors x.state.position (towards x.state.position y.state.position) = some s →
        LawfulStep s x.state y.state →
        ∃ r τ, stateForEnergy sectors l E = .ok r ∧ r.energy = E ∧ 0 ≤ τ ∧ τ ≤ 1 ∧
          AtFraction τ x.state y.state r)) ∧
    (E < x0.state.energy → xn.state.energy < E →
      ∃ l1 x y l2, l = l1 ++ x :: y :: l2 ∧ y.state.energy < E ∧ E ≤ x.state.energy) := by
  cases l with
  | nil => cases h0
  | cons a l =>
  obtain rfl : a = x0 := by simpa using h0
  have trans : ∀ a b c : Entry, b.state.energy ≤ a.state.energy → c.state.energy ≤ b.state.energy →
      c.state.energy ≤ a.state.energy := fun _ _ _ h1 h2 => h2.trans h1
  have skip : E < a.state.energy → ∀ l1 x l2, a :: l = l1 ++ x :: l2 → E ≤ x.state.energy →
      stateForEnergy sectors (a :: l) E = stateForEnergyFrom sectors E x l2 := by
    intro hE l1 x l2 hl hx
    simp only [stateForEnergy]
    rw [if_neg (not_le.2 hE)]
    cases l1 with
    | nil =>
      obtain ⟨rfl, rfl⟩ : a = x ∧ l = l2 := by simpa using hl
      rfl
    | cons z l1 =>
      obtain ⟨rfl, rfl⟩ : a = z ∧ l = l1 ++ x :: l2 := by simpa using hl
      refine stateForEnergy_skip _ _ _ _ _ _ ?_ hx
      intro w hw
      exact hx.trans (chain_before trans (l1 := a :: l1) hmono w (by simp [hw]))
  refine ⟨?_, ?_, ?_, ?_⟩
  · intro h
    simp only [stateForEnergy]
    rw [if_pos h]
  · intro h1 h2
    obtain ⟨l1, hl⟩ := List.getLast?_eq_some_iff.1 hn
    rw [skip h1 l1 xn [] hl h2]
    rfl
  · intro h1 l1 x y l2 hl hy hx
    rw [skip h1 l1 x (y :: l2) hl hx, stateForEnergyFrom, if_pos hy]
    refine ⟨fun ht => by rw [if_neg ht], ?_⟩
    intro ht s hs hlaw
    rw [if_pos ht]
    have hpos : 0 < euclid x.state.position y.state.position := by rw [hlaw.straight]; linarith [hlaw.pos]
    rw [norm_eq hpos]
    simp only []
    unfold rePropagateEnergy
    rw [lookupSector_ok hs]
    simp only [sub_sub_cancel]
    obtain ⟨d, hd, hd0, hd1⟩ := hlaw.shorter E (x.state.distance - y.state.distance) hy.le hx
    rw [hd]
    have hL : 0 < y.state.distance - x.state.distance := by linarith [hlaw.pos]
    exact ⟨_, d / (y.state.distance - x.state.distance), rfl, rfl, div_nonneg hd0 hL.le,
      (div_le_one hL).2 hd1, atFraction hL hlaw.straight rfl _ _ _⟩
  · intro h1 h2
    clear skip h0 hmono
    induction l generalizing a with
    | nil =>
      simp at hn
      rw [hn] at h1
      linarith
    | cons b l ih =>
      by_cases hb : b.state.energy < E
      · exact ⟨[], a, b, l, rfl, hb, h1.le⟩
      · rcases (not_lt.1 hb).eq_or_lt with hb | hb
        · cases l with
          | nil => simp at hn; rw [hn] at hb; linarith
          | cons c l =>
            by_cases hc : c.state.energy < E
            · exact ⟨[a], b, c, l, rfl, hc, hb.le⟩
            · -- walk on until the energy drops
              have hn' : (c :: l).getLast? = some xn := by simpa using hn
              have : ∀ (c : Entry) (l : List Entry), (c :: l).getLast? = some xn → E ≤ c.state.energy →
                  ∃ l1 x y l2, c :: l = l1 ++ x :: y :: l2 ∧ y.state.energy < E ∧ E ≤ x.state.energy := by
                intro c l hl hc
                induction l generalizing c with
                | nil => simp at hl; rw [hl] at hc; linarith
                | cons d l ih' =>
                  by_cases hd : d.state.energy < E
                  · exact ⟨[], c, d, l, rfl, hd, hc⟩
                  · obtain ⟨l1, x, y, l2, h, h'⟩ := ih' d (by simpa using hl) (not_lt.1 hd)
                    exact ⟨c :: l1, x, y, l2, by rw [h]; rfl, h'⟩
              obtain ⟨l1, x, y, l2, h, h'⟩ := this c l hn' (not_lt.1 hc)
              exact ⟨a :: b :: l1, x, y, l2, by rw [h]; rfl, h'⟩
        · obtain ⟨l1, x, y, l2, h, h'⟩ := ih b (by simpa using hn) hb
          exact ⟨a :: l1, x, y, l2, by rw [h]; rfl, h'⟩

/-- C22: on a track with non-decreasing distances, `GetStateForDistance` returns the initial state for
distances not beyond the initial one, the final state for distances not below the final one, and in
between the state at exactly the requested distance on the straight line between the two neighbouring
entries, with the energy left after the material in between. These cases cover every distance. -/
theorem C22_state_for_distance (sectors : List Sector) (l : List Entry) (D : ℝ) (x0 xn : Entry)
    (hmono : List.IsChain (fun a b : Entry => a.state.distance ≤ b.state.distance) l)
    (h0 : l.head? = some x0) (hn : l.getLast? = some xn) :
    (D ≤ x0.state.distance → stateForDistance sectors l D = .ok x0.state) ∧
    (x0.state.distance < D → xn.state.distance ≤ D → stateForDistance sectors l D = .ok xn.state) ∧
    (x0.state.distance < D → ∀ l1 x y l2 s, l = l1 ++ x :: y :: l2 →
      x.state.distance ≤ D → D < y.state.distance →
      euclid x.state.position y.state.position = y.state.distance - x.state.distance →
      currentSector sectors x.state.position (towards x.state.position y.state.position) = some s →
      ∃ r, stateForDistance sectors l D = .ok r ∧ r.distance = D ∧
        AtFraction ((D - x.state.distance) / (y.state.distance - x.state.distance)) x.state y.state r ∧
        r.energy = s.util.energyDistance x.state.energy
          (s.dens.calculate x.state.position x.state.direction (D - x.state.distance))) ∧
    (x0.state.distance < D → D < xn.state.distance →
      ∃ l1 x y l2, l = l1 ++ x :: y :: l2 ∧ x.state.distance ≤ D ∧ D < y.state.distance) := by
  cases l with
  | nil => cases h0
  | cons a l =>
  obtain rfl : a = x0 := by simpa using h0
  have trans : ∀ a b c : Entry, a.state.distance ≤ b.state.distance → b.state.distance ≤ c.state.distance →
      a.state.distance ≤ c.state.distance := fun _ _ _ h1 h2 => h1.trans h2
  have skip : a.state.distance < D → ∀ l1 x l2, a :: l = l1 ++ x :: l2 → x.state.distance ≤ D →
      stateForDistance sectors (a :: l) D = stateForDistanceFrom sectors D x l2 := by
    intro hD l1 x l2 hl hx
    simp only [stateForDistance]
    rw [if_neg (not_le.2 hD)]
    cases l1 with
    | nil =>
      obtain ⟨rfl, rfl⟩ : a = x ∧ l = l2 := by simpa using hl
      rfl
    | cons z l1 =>
      obtain ⟨rfl, rfl⟩ : a = z ∧ l = l1 ++ x :: l2 := by simpa using hl
      refine stateForDistance_skip _ _ _ _ _ _ ?_ hx
      intro w hw
      exact (chain_before trans (l1 := a :: l1) hmono w (by simp [hw])).trans hx
  refine ⟨?_, ?_, ?_, ?_⟩
  · intro h
    simp only [stateForDistance]
    rw [if_pos h]
  · intro h1 h2
    obtain ⟨l1, hl⟩ := List.getLast?_eq_some_iff.1 hn
    rw [skip h1 l1 xn [] hl h2]
    rfl
  · intro h1 l1 x y l2 s hl hx hy hstr hs
    rw [skip h1 l1 x (y :: l2) hl hx, stateForDistanceFrom, if_pos hy]
    have hL : 0 < y.state.distance - x.state.distance := by linarith
    rw [norm_eq (by rw [hstr]; exact hL)]
    simp only []
    unfold rePropagateDistance
    rw [lookupSector_ok hs]
    exact ⟨_, rfl, by simp, atFraction hL hstr rfl _ _ _, rfl⟩
  · intro h1 h2
    clear skip h0 hmono
    replace h1 := h1.le
    induction l generalizing a with
    | nil => simp at hn; rw [hn] at h1; linarith
    | cons b l ih =>
      by_cases hb : D < b.state.distance
      · exact ⟨[], a, b, l, rfl, h1, hb⟩
      · obtain ⟨l1, x, y, l2, h, h'⟩ := ih b (by simpa using hn) (not_lt.1 hb)
        exact ⟨a :: l1, x, y, l2, by rw [h]; rfl, h'⟩

/-- A track of one continuous step through the toy world and a stochastic loss. -/
noncomputable def Toy.track : List Entry :=
  [⟨⟨10, 0, ⟨0, 0, 0⟩, ⟨0, 0, 1⟩, 0⟩, .continuousEnergyLoss, 0⟩,
   ⟨⟨6, 4, ⟨0, 0, 4⟩, ⟨0, 0, 1⟩, 4⟩, .continuousEnergyLoss, 0⟩,
   ⟨⟨3, 4, ⟨0, 0, 4⟩, ⟨0, 0, 1⟩, 4⟩, .brems, 0⟩]

lemma Toy.current (L : ℝ) (hL : 0 < L) (p d : Vec3) :
    currentSector [Toy.sector L] p d = some (Toy.sector L) := by
  unfold currentSector
  rw [List.filter_cons_of_pos]
  · rfl
  · exact @decide_eq_true _ (Classical.propDecidable _) (Toy.inside hL _ _)

/-- All hypotheses of C21 and C22 hold for that track: energy 8 lies inside the continuous loss,
energy 5 inside the stochastic one. -/
example : List.IsChain (fun a b : Entry => b.state.energy ≤ a.state.energy) Toy.track ∧
    List.IsChain (fun a b : Entry => a.state.distance ≤ b.state.distance) Toy.track ∧
    (∃ x y l2, Toy.track = [] ++ x :: y :: l2 ∧ y.state.energy < 8 ∧ (8 : ℝ) ≤ x.state.energy ∧
      y.type = .continuousEnergyLoss ∧ LawfulStep (Toy.sector 100) x.state y.state ∧
      currentSector [Toy.sector 100] x.state.position (towards x.state.position y.state.position) =
        some (Toy.sector 100)) ∧
    (∃ l1 x y, Toy.track = l1 ++ x :: y :: [] ∧ y.state.energy < 5 ∧ (5 : ℝ) ≤ x.state.energy ∧
      y.type ≠ .continuousEnergyLoss) := by
  refine ⟨?_, ?_, ⟨_, _, _, rfl, by norm_num, by norm_num, rfl, ⟨by norm_num, ?_, ?_⟩,
    Toy.current _ (by norm_num) _ _⟩, ⟨[_], _, _, rfl, by norm_num, by norm_num, by simp⟩⟩
  · simp [Toy.track]; norm_num
  · simp [Toy.track]
  · unfold Spec.euclid
    rw [show ((0 : ℝ) - 0) ^ 2 + (0 - 0) ^ 2 + (4 - 0) ^ 2 = 4 ^ 2 by norm_num, Real.sqrt_sq (by norm_num)]
    norm_num
  · intro E m h1 h2
    refine ⟨10 - E, rfl, ?_, ?_⟩ <;> simp only at h1 h2 ⊢ <;> linarith

/-! ## C23: the time of a looked up state -/

/-- `r` is an entry of the track, or lies after an entry `x` in a sector `s` and has the time at which
a propagation step of that length from `x` in `s` ends. -/
def Spec.ProperTime (sectors : List Sector) (l : List Entry) (r : PState) : Prop :=
  (∃ x ∈ l, r = x.state) ∨
  ∃ x ∈ l, ∃ s ∈ sectors, r.time = x.state.time + s.util.timeElapsed x.state.energy r.energy
    (s.dens.calculate x.state.position x.state.direction (r.distance - x.state.distance))
    (s.dens.evaluate x.state.position)

/-- C23: a state looked up by distance or by energy has the time with which a propagation step would
have reached it, if the time calculators ignore the grammage as the exact one does. Missing for the
full property: the approximate time calculator, for which it fails, see `C23_faster_than_light`. -/
theorem C23_exact_time_partial (sectors : List Sector) (l : List Entry)
    (hI : ∀ s ∈ sectors, ∃ I, s.util.timeElapsed = exactTime I) (r : PState) :
    (∀ D, stateForDistance sectors l D = .ok r → ProperTime sectors l r) ∧
    (∀ E, stateForEnergy sectors l E = .ok r → ProperTime sectors l r) := by
  have lookup : ∀ p d s, lookupSector sectors p d = .ok s → s ∈ sectors := by
    intro p d s h
    unfold lookupSector at h
    cases hc : currentSector sectors p d with
    | none => rw [hc] at h; cases h
    | some s' =>
      rw [hc] at h
      obtain rfl := Except.ok.inj h
      exact currentSector_mem hc
  have keyD : ∀ (x : Entry) u d, rePropagateDistance sectors x.state u d = .ok r →
      ProperTime sectors [x] r := by
    intro x u d h
    unfold rePropagateDistance at h
    cases hs : lookupSector sectors x.state.position u with
    | error e => rw [hs] at h; cases h
    | ok s =>
      have hm := lookup _ _ _ hs
      obtain ⟨I, hI⟩ := hI s hm
      rw [hs] at h
      obtain rfl := Except.ok.inj h
      exact Or.inr ⟨x, by simp, s, hm, by simp only [hI, exactTime]⟩
  have keyE : ∀ (x : Entry) u lost m, rePropagateEnergy sectors x.state u lost m = .ok r →
      ProperTime sectors [x] r := by
    intro x u lost m h
    unfold rePropagateEnergy at h
    cases hs : lookupSector sectors x.state.position u with
    | error e => rw [hs] at h; cases h
    | ok s =>
      have hm := lookup _ _ _ hs
      obtain ⟨I, hI⟩ := hI s hm
      rw [hs] at h
      simp only [] at h
      cases hc : s.dens.correct x.state.position x.state.direction
          (s.util.lengthContinuous x.state.energy (x.state.energy - lost)) m with
      | none => rw [hc] at h; cases h
      | some d =>
        rw [hc] at h
        obtain rfl := Except.ok.inj h
        exact Or.inr ⟨x, by simp, s, hm, by simp only [hI, exactTime]⟩
  have mono : ∀ l l' : List Entry, (∀ x ∈ l, x ∈ l') → ProperTime sectors l r → ProperTime sectors l' r := by
    rintro l l' h (⟨x, hx, h'⟩ | ⟨x, hx, h'⟩)
    · exact Or.inl ⟨x, h x hx, h'⟩
    · exact Or.inr ⟨x, h x hx, h'⟩
  cases l with
  | nil => exact ⟨fun _ h => (by cases h), fun _ h => (by cases h)⟩
  | cons x l =>
    constructor
    · intro D h
      simp only [stateForDistance] at h
      split_ifs at h
      · exact Or.inl ⟨x, by simp, (Except.ok.inj h).symm⟩
      · rename_i h0
        clear h0
        induction l generalizing x with
        | nil => exact Or.inl ⟨x, by simp, (Except.ok.inj h).symm⟩
        | cons y l ih =>
          rw [stateForDistanceFrom] at h
          split_ifs at h with h1
          · cases hn : (y.state.position - x.state.position).normalize with
            | none => rw [hn] at h; cases h
            | some u =>
              rw [hn] at h
              exact mono [x] _ (by simp) (keyD _ _ _ h)
          · exact mono (y :: l) _ (by simp +contextual) (ih y h)
    · intro E h
      simp only [stateForEnergy] at h
      split_ifs at h
      · exact Or.inl ⟨x, by simp, (Except.ok.inj h).symm⟩
      · rename_i h0
        clear h0
        induction l generalizing x with
        | nil => exact Or.inl ⟨x, by simp, (Except.ok.inj h).symm⟩
        | cons y l ih =>
          rw [stateForEnergyFrom] at h
          split_ifs at h with h1 h2
          · cases hn : (y.state.position - x.state.position).normalize with
            | none => rw [hn] at h; cases h
            | some u =>
              rw [hn] at h
              exact mono [x] _ (by simp) (keyE _ _ _ _ h)
          · exact Or.inl ⟨x, by simp, (Except.ok.inj h).symm⟩
          · exact mono (y :: l) _ (by simp +contextual) (ih y h)

/-- The hypothesis holds in a toy world with exact time, and the lookup succeeds. -/
example : ∃ s : Sector, (∃ I, s.util.timeElapsed = exactTime I) ∧
    ∃ r, stateForDistance [s] Toy.track 9 = .ok r := by
  refine ⟨{ Toy.sector 100 with util := { Toy.util with timeElapsed := exactTime (fun a b => a - b) } },
    ⟨_, rfl⟩, ⟨3, 4, ⟨0, 0, 4⟩, ⟨0, 0, 1⟩, 4⟩, ?_⟩
  · simp only [stateForDistance, Toy.track]
    rw [if_neg (by norm_num), stateForDistanceFrom, if_neg (by norm_num), stateForDistanceFrom,
      if_neg (by norm_num)]
    rfl

/-- A sector of density 2 in which the time is calculated approximately. -/
noncomputable def Toy.dense : Sector :=
  ⟨Toy.geo 100, { Toy.util with timeElapsed := approximateTime },
    ⟨fun _ _ g _ => some (g / 2), fun _ _ l => 2 * l, fun _ => 2⟩⟩

/-- C23 fails for the approximate time: in a medium of density 2 the state looked up after 1 cm has
elapsed time 1 cm / (2 c), although the particle needs 1 cm / c, which is also what the propagator
uses for such a step. The lookup passes the distance where the calculator expects the grammage. -/
theorem C23_faster_than_light : ∃ (l : List Entry) (x y : Entry) (r : PState),
    l = [x, y] ∧ y.state.distance - x.state.distance = 4 ∧
    y.state.time = x.state.time + Toy.dense.util.timeElapsed x.state.energy y.state.energy
      (Toy.dense.dens.calculate x.state.position x.state.direction 4) (Toy.dense.dens.evaluate x.state.position) ∧
    y.state.time - x.state.time = 4 / SPEED ∧
    stateForDistance [Toy.dense] l 1 = .ok r ∧ r.distance - x.state.distance = 1 ∧
    r.time - x.state.time = 1 / SPEED / 2 := by
  have hc : currentSector [Toy.dense] ⟨0, 0, 0⟩ ⟨0, 0, 1⟩ = some Toy.dense := by
    unfold currentSector
    rw [List.filter_cons_of_pos]
    · rfl
    · exact @decide_eq_true _ (Classical.propDecidable _) (Toy.inside (by norm_num) _ _)
  have hS : SPEED ≠ 0 := by norm_num [SPEED]
  refine ⟨_, ⟨⟨10, 0, ⟨0, 0, 0⟩, ⟨0, 0, 1⟩, 0⟩, .continuousEnergyLoss, 0⟩,
    ⟨⟨2, 4 / SPEED, ⟨0, 0, 4⟩, ⟨0, 0, 1⟩, 4⟩, .continuousEnergyLoss, 0⟩,
    ⟨8, 0 + 1 / (2 * SPEED), ⟨0, 0, 0⟩ + (1 : ℝ) • ⟨0, 0, 1⟩, ⟨0, 0, 1⟩, 0 + 1⟩,
    rfl, by norm_num, ?_, by simp, ?_, by norm_num, ?_⟩
  · simp only [Toy.dense, approximateTime]
    field_simp
    norm_num
  · have hnorm : ((⟨0, 0, 4⟩ : Vec3) - ⟨0, 0, 0⟩).normalize = some ⟨0, 0, 1⟩ := by
      have hm : ((⟨0, 0, 4⟩ : Vec3) - ⟨0, 0, 0⟩).mag = 4 := by
        rw [mag_sub_eq, show ((0 : ℝ) - 0) ^ 2 + (0 - 0) ^ 2 + (4 - 0) ^ 2 = 4 ^ 2 by norm_num,
          Real.sqrt_sq (by norm_num)]
      unfold Vec3.normalize
      rw [hm]
      norm_num
    simp only [stateForDistance]
    rw [if_neg (by norm_num), stateForDistanceFrom, if_pos (by norm_num)]
    simp only [hnorm]
    unfold rePropagateDistance
    rw [lookupSector_ok hc]
    simp only [Toy.dense, Toy.util, approximateTime]
    norm_num
  · simp only []
    field_simp
    ring

end Proposal
