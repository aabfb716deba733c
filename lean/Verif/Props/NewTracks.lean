import Verif.Props.Secondaries
import Verif.Model.DecayTable
import Verif.Props.Vec3

/-!
# Where secondaries begin

The distance, place and time with which the returned particles start, and the angles of muon pairs.
-/

namespace Proposal

open Spec

/-- The states start at a place and time and have not been propagated yet. -/
def Spec.Begin (pos : Vec3) (time : ℝ) (ps : List Part) : Prop := ∀ p ∈ ps, p.pos = pos ∧ p.time = time ∧ p.dist = 0

private theorem begin_append {pos : Vec3} {time : ℝ} {a b : List Part} (ha : Begin pos time a) (hb : Begin pos time b) :
    Begin pos time (a ++ b) := fun p hp => (List.mem_append.1 hp).elim (ha p) (hb p)

private theorem begin_cons {pos : Vec3} {time : ℝ} {p : Part} {b : List Part} (ha : p.pos = pos ∧ p.time = time ∧ p.dist = 0)
    (hb : Begin pos time b) : Begin pos time (p :: b) := by
  intro q hq
  rcases List.mem_cons.1 hq with rfl | h
  · exact ha
  · exact hb q h

private theorem begin_nil {pos : Vec3} {time : ℝ} : Begin pos time [] := fun _ h => absurd h (by simp)

/-! ## Interactions -/

/-- **C144** The particles after Compton scattering, ionization, annihilation, bremsstrahlung, photonuclear interaction, photoproduction,
photo effect, weak interaction, and of the pairs of photons start at the place and time of the loss with a distance of zero. Missing: the
primary after pair production, see `C144_pairs`. -/
theorem C144_interactions_partial (l : SLoss) :
    (∀ rnd ps, comptonSecondaries l rnd = some ps → Begin l.pos l.time ps) ∧
    (∀ primary rnd ps, ionizationSecondaries primary l rnd = some ps → Begin l.pos l.time ps) ∧
    (∀ m rnd0 rnd1 ps, annihilationSecondaries m l rnd0 rnd1 = .ok (some ps) → Begin l.pos l.time ps) ∧
    (∀ a primary rnd ps, bremsSecondaries a primary l rnd = some ps → Begin l.pos l.time ps) ∧
    (∀ primary, Begin l.pos l.time (photonuclearSecondaries primary l)) ∧
    Begin l.pos l.time (photoproductionSecondaries l) ∧
    (∀ Z, Begin l.pos l.time (photoeffectSecondaries Z l)) ∧
    (∀ partner v, Begin l.pos l.time (weakSecondaries partner l v)) ∧
    (∀ ρ c0 c1 rnd, Begin l.pos l.time (photoPairSecondaries l ρ c0 c1 rnd)) ∧
    (∀ x rnd, Begin l.pos l.time (photoMuPairSecondaries l x rnd)) := by
  have two : ∀ (d1 d2 : Daughter) (n1 n2 : Vec3) (e1 e2 : ℝ), Begin l.pos l.time [l.state d1 n1 e1 0, l.state d2 n2 e2 0] :=
    fun d1 d2 n1 n2 e1 e2 => begin_cons ⟨rfl, rfl, rfl⟩ (begin_cons ⟨rfl, rfl, rfl⟩ begin_nil)
  have one : ∀ (d1 : Daughter) (n1 : Vec3) (e1 : ℝ), Begin l.pos l.time [l.state d1 n1 e1 0] :=
    fun d1 n1 e1 => begin_cons ⟨rfl, rfl, rfl⟩ begin_nil
  refine ⟨?_, ?_, ?_, ?_, fun _ => two _ _ _ _ _ _, one _ _ _, fun _ => one _ _ _, fun _ _ => two _ _ _ _ _ _,
    fun _ _ _ _ => two _ _ _ _ _ _, fun _ _ => two _ _ _ _ _ _⟩
  · intro rnd ps h
    simp only [comptonSecondaries] at h
    split at h
    · cases h
    · cases h; exact two _ _ _ _ _ _
  · intro primary rnd ps h
    simp only [ionizationSecondaries] at h
    split at h
    · cases h
    · cases h; exact two _ _ _ _ _ _
  · intro m rnd0 rnd1 ps h
    simp only [annihilationSecondaries] at h
    split at h
    · cases h
    · split at h
      · cases h
      · cases h; exact two _ _ _ _ _ _
  · intro a primary rnd ps h
    simp only [bremsSecondaries] at h
    split at h
    · cases h
    · cases h; exact two _ _ _ _ _ _

/-- **C144** After the production of an electron or muon pair by a charged particle all three particles start at the place and time of the loss,
the pair with a distance of zero. The primary keeps the distance that it had at the loss. -/
theorem C144_pairs (primary : Daughter) (upper : ℝ → ℝ → ℝ) (l : SLoss) (rnd1 rnd2 : ℝ) :
    (∀ ps, epairSecondaries primary upper l rnd1 rnd2 = some ps →
      ∃ p pair, ps = p :: pair ∧ p.type = primary.type ∧ p.pos = l.pos ∧ p.time = l.time ∧ p.dist = l.dist ∧ pair.length = 2 ∧
        Begin l.pos l.time pair) ∧
    ∃ p pair, mupairSecondaries primary upper l rnd1 rnd2 = p :: pair ∧ p.type = primary.type ∧ p.pos = l.pos ∧ p.time = l.time ∧
      p.dist = l.dist ∧ pair.length = 2 ∧ Begin l.pos l.time pair := by
  constructor
  · intro ps h
    simp only [epairSecondaries] at h
    split at h
    · cases h
      exact ⟨_, _, rfl, rfl, rfl, rfl, rfl, rfl, begin_cons ⟨rfl, rfl, rfl⟩ (begin_cons ⟨rfl, rfl, rfl⟩ begin_nil)⟩
    · cases h
  · exact ⟨_, _, rfl, rfl, rfl, rfl, rfl, rfl, begin_cons ⟨rfl, rfl, rfl⟩ (begin_cons ⟨rfl, rfl, rfl⟩ begin_nil)⟩

/-- **C144** So the same particle with the same loss starts differently after a bremsstrahlung or a photonuclear interaction and after a pair
production: if its distance was not zero the particles after a pair production do not all start with zero. -/
theorem C144_primary_differs (primary : Daughter) (upper : ℝ → ℝ → ℝ) (l : SLoss) (rnd1 rnd2 rnd : ℝ) (hd : l.dist ≠ 0) :
    ¬ Begin l.pos l.time (mupairSecondaries primary upper l rnd1 rnd2) ∧ Begin l.pos l.time (photonuclearSecondaries primary l) ∧
      ∃ ps, bremsSecondaries .none primary l rnd = some ps ∧ Begin l.pos l.time ps := by
  refine ⟨fun h => hd ?_, (C144_interactions_partial l).2.2.2.2.1 primary, _, rfl, (C144_interactions_partial l).2.2.2.1 .none primary rnd _ rfl⟩
  exact (h _ List.mem_cons_self).2.2

/-! ## Decays -/

private theorem boost_begin {p q : Part} {n : Vec3} {γ b : ℝ} (h : boost p n γ b = some q) : q.pos = p.pos ∧ q.time = p.time ∧ q.dist = p.dist := by
  simp only [boost] at h
  split at h
  · split at h
    · cases h; exact ⟨rfl, rfl, rfl⟩
    · cases h
  · cases h

private theorem boostAll_begin {pos : Vec3} {time : ℝ} {n : Vec3} {γ b : ℝ} : ∀ (l : List Part) {l' : List Part}, boostAll n γ b l = some l' →
    Begin pos time l → Begin pos time l'
  | [], _, h, _ => by cases h; exact begin_nil
  | p :: ps, l', h, hl => by
    simp only [boostAll] at h
    split at h
    · next q qs h1 h2 =>
      cases h
      obtain ⟨e1, e2, e3⟩ := boost_begin h1
      obtain ⟨f1, f2, f3⟩ := hl p List.mem_cons_self
      exact begin_cons ⟨e1.trans f1, e2.trans f2, e3.trans f3⟩ (boostAll_begin ps h2 fun x hx => hl x (List.mem_cons_of_mem _ hx))
    · cases h

private theorem growEvent_begin {pos : Vec3} {time : ℝ} : ∀ (todo done : List Part) (ks vms : List ℝ) (us : List (ℝ × ℝ)) {r : List Part},
    growEvent done todo ks vms us = some r → Begin pos time done → Begin pos time todo → Begin pos time r
  | [], done, ks, vms, us, r, h, hd, _ => by
    rw [growEvent] at h; cases h; exact hd
  | p :: ps, done, k :: ks, v :: vs, u :: us, r, h, hd, ht => by
    rw [growEvent] at h
    simp only at h
    split at h
    · cases h
    · split at h
      · cases h
      · next done' hb =>
        refine growEvent_begin ps _ ks vs us h (begin_append (boostAll_begin _ hb hd) (begin_cons ?_ begin_nil))
          fun x hx => ht x (List.mem_cons_of_mem _ hx)
        exact ht p List.mem_cons_self
  | _ :: _, _, [], _, _, _, h, _, _ => by simp [growEvent] at h
  | _ :: _, _, _ :: _, [], _, _, h, _, _ => by simp [growEvent] at h
  | _ :: _, _, _ :: _, _ :: _, [], _, h, _, _ => by simp [growEvent] at h

private theorem generateEvent_begin {pos : Vec3} {time : ℝ} {products : List Part} {kin : PhaseSpace} {dirs : List (ℝ × ℝ)} {r : List Part}
    (h : generateEvent products kin dirs = some r) (hp : Begin pos time products) : Begin pos time r := by
  unfold generateEvent at h
  split at h
  · have a0 := hp _ List.mem_cons_self
    have a1 := hp _ (List.mem_cons_of_mem _ List.mem_cons_self)
    refine growEvent_begin _ _ _ _ _ h (begin_cons ?_ (begin_cons ?_ begin_nil))
      fun x hx => hp x (List.mem_cons_of_mem _ (List.mem_cons_of_mem _ hx))
    · exact a0
    · exact a1
  · cases h

private theorem rejection_begin {pos : Vec3} {time norm M : ℝ} {products : List Part} {w : Weights} (hp : Begin pos time products) :
    ∀ (rs : List Round) {r : List Part}, rejectionLoop norm M products w rs = some r → Begin pos time r
  | [], _, h => by simp [rejectionLoop] at h
  | x :: rs, r, h => by
    rw [rejectionLoop] at h
    split at h
    · cases h
    · next ev he =>
      split at h
      · exact rejection_begin hp rs h
      · cases h; exact generateEvent_begin he hp

/-- **C144** The products of every decay channel start at the place and time of the decay with a distance of zero. -/
theorem C144_decays (M : ℝ) (parent : Part) (r : DecayRandoms) (c : Channel) {ps : List Part} (h : c.decay M parent r = .ok (some ps)) :
    Begin parent.pos parent.time ps := by
  cases c with
  | stable => simp only [Channel.decay] at h; cases h; exact begin_nil
  | twoBody d1 d2 =>
    simp only [Channel.decay, twoBodyDecay, toLab] at h
    injection h with h
    exact boostAll_begin _ h (begin_cons ⟨rfl, rfl, rfl⟩ (begin_cons ⟨rfl, rfl, rfl⟩ begin_nil))
  | leptonic e l n1 n2 =>
    simp only [Channel.decay, leptonicDecay] at h
    split at h
    · cases h
    · cases h
    · split at h
      · cases h
      · next ps' hr =>
        injection h with h
        refine boostAll_begin _ h ?_
        simp only [leptonicRest] at hr
        split at hr
        · cases hr
        · split at hr
          · next q1 q2 h1 h2 =>
            cases hr
            exact begin_cons ⟨rfl, rfl, rfl⟩ (begin_cons (boost_begin h1) (begin_cons (boost_begin h2) begin_nil))
          · cases hr
  | manyBody ds uniform a b w =>
    simp only [Channel.decay, manyBodyDecay] at h
    injection h with h
    have hp : Begin parent.pos parent.time (ds.map fun d => product d parent parent.dir parent.energy) := by
      intro p hp
      obtain ⟨d, -, rfl⟩ := List.mem_map.1 hp
      exact ⟨rfl, rfl, rfl⟩
    split at h
    · cases h
    · next ev hev =>
      refine boostAll_begin _ h ?_
      split at hev
      · exact rejection_begin hp _ hev
      · split at hev
        · cases hev
        · exact generateEvent_begin hev hp

/-! ## Muon pairs of photons -/

/-- **C44** Both muons of a photon make the angle mass over photon energy with the photon, on opposite sides: their directions add up to a multiple
of the direction of the photon. -/
theorem C44_photomupair_angle (l : SLoss) (x rnd : ℝ) (hd : UnitVec l.dir) (hE : MMU / Real.pi < l.parentEnergy) :
    ∃ minus plus, photoMuPairSecondaries l x rnd = [minus, plus] ∧
      cosAngle l.dir minus.dir = Real.cos (MMU / l.parentEnergy) ∧ cosAngle l.dir plus.dir = Real.cos (MMU / l.parentEnergy) ∧
      minus.dir + plus.dir = (2 * Real.cos (MMU / l.parentEnergy)) • l.dir := by
  have hM : 0 < MMU := by norm_num [MMU]
  have hE0 : 0 < l.parentEnergy := (div_pos hM Real.pi_pos).trans hE
  have e : 1 / (l.parentEnergy / MMU) = MMU / l.parentEnergy := one_div_div _ _
  have hlt : MMU / l.parentEnergy < Real.pi := by
    rw [div_lt_iff₀ hE0, mul_comm]
    rwa [div_lt_iff₀ Real.pi_pos] at hE
  have hne : Real.cos (MMU / l.parentEnergy) ≠ -1 := by
    intro h
    have h2 : Real.cos (MMU / l.parentEnergy) = Real.cos Real.pi := by rw [h, Real.cos_pi]
    exact hlt.ne (Real.injOn_cos ⟨(div_pos hM hE0).le, hlt.le⟩ ⟨Real.pi_pos.le, le_rfl⟩ h2)
  have b1 := Real.neg_one_le_cos (MMU / l.parentEnergy)
  have b2 := Real.cos_le_one (MMU / l.parentEnergy)
  refine ⟨_, _, rfl, ?_, ?_, ?_⟩
  all_goals simp only [SLoss.state, e, photoPairDirections, if_neg hne, opposite]
  · exact C45_deflect_angle l.dir hd _ _ b1 b2
  · exact C45_deflect_angle l.dir hd _ _ b1 b2
  · rw [Vec3.deflect_formula _ _ _ b1 b2, Vec3.deflect_formula _ _ _ b1 b2]
    have hf : ∃ k : ℤ, fmod (rnd * 2 * Real.pi + Real.pi) (2 * Real.pi) = rnd * 2 * Real.pi + Real.pi - k * (2 * Real.pi) := by
      unfold fmod
      split_ifs
      · exact ⟨_, by ring⟩
      · exact ⟨_, by ring⟩
    obtain ⟨k, hk⟩ := hf
    rw [hk, Real.cos_sub_int_mul_two_pi, Real.sin_sub_int_mul_two_pi, Real.cos_add_pi, Real.sin_add_pi]
    ext <;> simp <;> ring

/-- A photon of 1 GeV that flies upwards. -/
example : UnitVec (⟨0, 0, 1⟩ : Vec3) ∧ MMU / Real.pi < 1000 := by
  refine ⟨by norm_num [UnitVec], ?_⟩
  rw [div_lt_iff₀ Real.pi_pos]
  have := Real.pi_gt_three
  norm_num [MMU]
  linarith

/-- A muon that has travelled 5 cm. -/
example : ∃ l : SLoss, l.dist ≠ 0 ∧ UnitVec l.dir := ⟨⟨1, ⟨0, 0, 5⟩, ⟨0, 0, 1⟩, 0, 5, 1000⟩, by norm_num, by norm_num [UnitVec]⟩

end Proposal
