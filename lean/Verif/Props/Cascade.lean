import Verif.Model.Cascade
import Verif.Props.Losses
import Verif.Props.Secondaries
import Verif.Props.DecayTable
import Verif.Props.StepEvents

/-!
# The energy of a cascade (C147)
-/

namespace Proposal

open Spec

/-- The interactions which leave the particle in existence. -/
def Spec.survived : List IType := [.brems, .ioniz, .epair, .muPair, .photonuclear, .compton]

/-- The interactions which convert the whole particle. -/
def Spec.absorbed : List IType := [.annihilation, .photopair, .photoMuPair, .photoproduction, .photoeffect, .weakInt]

/-- The energy which an atom at rest adds to the final state: the rest energy of an electron, for the photoelectric effect
reduced by its binding. -/
noncomputable def Spec.atomEnergy (t : IType) (Z : ℝ) : ℝ :=
  if t = .ioniz ∨ t = .compton ∨ t = .annihilation then ME
  else if t = .photoeffect then ME - (Z * ALPHA) ^ 2 * ME / 2
  else 0

/-- The secondaries without the particle itself. -/
def Spec.newParticles (t : IType) (ps : List Part) : List Part := if t ∈ survived then ps.tail else ps

/-! ## The registered calculators -/

theorem register_values {γ : Type} (P : IType → γ → Prop) (m : FactoryMap γ) (t : IType) (b : γ) (hb : P t b)
    (hm : ∀ f, m = some f → ∀ s c, f s = some c → P s c) :
    ∀ f, (factoryRegister m t b).1 = some f → ∀ s c, f s = some c → P s c := by
  have h0 : ∀ s c, (m.getD fun _ => none) s = some c → P s c := by
    cases m with
    | none => simp
    | some g => exact hm g rfl
  intro f hf s c hs
  unfold factoryRegister at hf
  simp only at hf
  split at hf
  · injection hf with hf; subst hf; exact h0 s c hs
  · injection hf with hf; subst hf
    by_cases e : s = t
    · subst e
      rw [Function.update_self] at hs
      injection hs with hs; subst hs; exact hb
    · rw [Function.update_of_ne e] at hs
      exact h0 s c hs

theorem registered_values {α β : Type} (L : List (SecParam α β)) (m : FactoryMap (SecParam α β)) (Q : SecParam α β → Prop)
    (hL : ∀ p ∈ L, Q p) (hm : ∀ f, m = some f → ∀ s c, f s = some c → Q c ∧ c.type = s) :
    ∀ f, L.foldl (fun m p => (factoryRegister m p.type p).1) m = some f → ∀ s c, f s = some c → Q c ∧ c.type = s := by
  induction L generalizing m with
  | nil => exact hm
  | cons p L ih =>
    rw [List.foldl_cons]
    exact ih _ (fun q hq => hL q (List.mem_cons_of_mem _ hq))
      (register_values (fun s c => Q c ∧ c.type = s) m p.type p ⟨hL p List.mem_cons_self, rfl⟩ hm)

theorem created {o : SecSampling} {primary partner : Daughter} {t : IType} {c}
    (h : factoryCreate (defaultFactory o primary partner) t = .ok c) : c ∈ defaultCalculators o primary partner ∧ c.type = t := by
  have := registered_values (defaultCalculators o primary partner) none (· ∈ defaultCalculators o primary partner)
    (fun _ h => h) (by simp)
  unfold factoryCreate at h
  split at h
  · cases h
  · next f hf =>
    split at h
    · next b hb => injection h with h; subst h; exact this f hf t b hb
    · split at h <;> cases h

theorem secondariesFor_values {α β : Type} (f : FactoryMap (SecParam α β)) (Q : IType → SecParam α β → Prop)
    (hf : ∀ t c, factoryCreate f t = .ok c → Q t c ∧ c.type = t) (ts : List IType) (m0 m : SecMap α β)
    (h0 : ∀ t c, m0 t = some c → Q t c)
    (h : ts.foldlM (fun m t => (factoryCreate f t).map (addInteraction m)) m0 = .ok m) : ∀ t c, m t = some c → Q t c := by
  induction ts generalizing m0 with
  | nil => simp only [List.foldlM_nil] at h; injection h with h; subst h; exact h0
  | cons t ts ih =>
    rw [List.foldlM_cons] at h
    cases hc : factoryCreate f t with
    | error e => rw [hc] at h; cases h
    | ok c =>
      rw [hc] at h
      refine ih _ ?_ h
      obtain ⟨q1, q2⟩ := hf t c hc
      intro s d hs
      unfold addInteraction at hs
      by_cases e : s = c.type
      · rw [e, Function.update_self] at hs
        injection hs with hs; subst hs
        rw [e, q2]; exact q1
      · rw [Function.update_of_ne e] at hs
        exact h0 s d hs

/-- The secondaries of a loss come from the default calculator of its type. -/
theorem loss_calculator {o : SecSampling} {primary partner : Daughter} {ts : List IType} {l : StochLoss} {Z : ℝ} {rnd : ℕ → ℝ} {r}
    (h : lossSecondaries o primary partner ts l Z rnd = .ok r) :
    ∃ c ∈ defaultCalculators o primary partner, c.type = l.type ∧ r = c.calculate ⟨l.toS, Z, rnd⟩ := by
  unfold lossSecondaries at h
  cases hm : secondariesFor (defaultFactory o primary partner) ts with
  | error e => rw [hm] at h; cases h
  | ok m =>
    rw [hm] at h
    have key := secondariesFor_values (defaultFactory o primary partner)
      (fun t c => c ∈ defaultCalculators o primary partner ∧ c.type = t) (fun t c hc => ⟨created hc, (created hc).2⟩) ts
      (fun _ => none) m (by simp) hm
    change calculateSecondaries m l.type _ = _ at h
    unfold calculateSecondaries at h
    split at h
    · next p hp =>
      injection h with h
      exact ⟨p, (key _ _ hp).1, (key _ _ hp).2, h.symm⟩
    · split at h <;> cases h

/-- C147: for interaction types which have a default calculator the construction succeeds, and every loss of such a type
finds its calculator. -/
theorem C147_calculators (o : SecSampling) (primary partner : Daughter) (ts : List IType)
    (hts : ∀ t ∈ ts, t ∈ survived ∨ t ∈ absorbed) (l : StochLoss) (hl : l.type ∈ ts) (Z : ℝ) (rnd : ℕ → ℝ) :
    ∃ r, lossSecondaries o primary partner ts l Z rnd = .ok r := by
  have hc : ∀ t, t ∈ survived ∨ t ∈ absorbed → ∃ c, factoryCreate (defaultFactory o primary partner) t = .ok c ∧ c.type = t := by
    intro t ht
    have : ∃ c, factoryCreate (defaultFactory o primary partner) t = .ok c := by
      simp only [survived, absorbed, List.mem_cons, List.not_mem_nil, or_false] at ht
      rcases ht with (rfl | rfl | rfl | rfl | rfl | rfl) | (rfl | rfl | rfl | rfl | rfl | rfl) <;>
        exact ⟨_, rfl⟩
    obtain ⟨c, h⟩ := this
    exact ⟨c, h, (created h).2⟩
  have key : ∀ m0 : SecMap SecInput (Option (List Part)), ∃ m, ts.foldlM (fun m t =>
      (factoryCreate (defaultFactory o primary partner) t).map (addInteraction m)) m0 = .ok m ∧
      ∀ t, (t ∈ ts ∨ (m0 t).isSome) → (m t).isSome := by
    clear hl
    induction ts with
    | nil => intro m0; exact ⟨m0, rfl, by simp⟩
    | cons t ts ih =>
      intro m0
      obtain ⟨c, h1, h2⟩ := hc t (hts t List.mem_cons_self)
      obtain ⟨m, e1, e2⟩ := ih (fun s hs => hts s (List.mem_cons_of_mem _ hs)) (addInteraction m0 c)
      refine ⟨m, ?_, ?_⟩
      · rw [List.foldlM_cons, h1]; exact e1
      · intro s hs
        refine e2 s ?_
        unfold addInteraction
        by_cases e : s = c.type
        · right; rw [e, Function.update_self]; rfl
        · rw [Function.update_of_ne e]
          rcases hs with hs | hs
          · rcases List.mem_cons.1 hs with hs | hs
            · exact absurd (hs.trans h2.symm) e
            · exact Or.inl hs
          · exact Or.inr hs
  obtain ⟨m, e1, e2⟩ := key fun _ => none
  have hs := e2 l.type (Or.inl hl)
  obtain ⟨p, hp⟩ := Option.isSome_iff_exists.1 hs
  refine ⟨p.calculate ⟨l.toS, Z, rnd⟩, ?_⟩
  unfold lossSecondaries secondariesFor
  rw [e1]
  change calculateSecondaries m l.type _ = _
  unfold calculateSecondaries
  rw [hp]

/-- C147: for every other interaction type there is no default calculator: the construction ends with an exception. -/
theorem C147_no_calculator (o : SecSampling) (primary partner : Daughter) (t : IType) (h1 : t ∉ survived) (h2 : t ∉ absorbed)
    (h3 : t ≠ .undefined) (l : StochLoss) (Z : ℝ) (rnd : ℕ → ℝ) :
    lossSecondaries o primary partner [t] l Z rnd = .error .logicError := by
  have : factoryCreate (defaultFactory o primary partner) t = .error .logicError := by
    cases t <;> simp only [survived, absorbed, List.mem_cons, List.not_mem_nil, or_false, reduceCtorEq, or_true,
      not_true_eq_false, not_false_eq_true, ne_eq, or_self] at h1 h2 h3 <;> rfl
  unfold lossSecondaries secondariesFor
  rw [List.foldlM_cons, this]
  rfl

/-! ## One loss -/

/-- C147: a particle which survives an interaction is the first of the secondaries, with the energy that the loss leaves to
it, at the place and time of the loss. A photon is the only particle with Compton scattering. -/
theorem C147_first (o : SecSampling) (primary partner : Daughter) (ts : List IType) (l : StochLoss) (Z : ℝ) (rnd : ℕ → ℝ)
    (ps : List Part) (hg : l.type = .compton → primary = sGamma) (ht : l.type ∈ survived)
    (h : lossSecondaries o primary partner ts l Z rnd = .ok (some ps)) :
    ∃ p, ps.head? = some p ∧ p.type = primary.type ∧ p.mass = primary.mass ∧ p.energy = l.parentEnergy - l.energy ∧
      p.pos = l.position ∧ p.time = l.time := by
  obtain ⟨c, hc, h1, h2⟩ := loss_calculator h
  simp only [defaultCalculators, List.mem_cons, List.not_mem_nil, or_false] at hc
  rcases hc with rfl | rfl | rfl | rfl | rfl | rfl | rfl | rfl | rfl | rfl | rfl | rfl <;> simp only at h1 h2 <;>
    first
    | (exfalso; rw [← h1] at ht; revert ht; decide)
    | skip
  · unfold bremsSecondaries at h2
    split at h2
    · cases h2
    · injection h2 with h2; subst h2; exact ⟨_, rfl, rfl, rfl, rfl, rfl, rfl⟩
  · unfold ionizationSecondaries at h2
    simp only at h2
    split at h2
    · cases h2
    · next hd =>
      injection h2 with h2; subst h2
      refine ⟨_, rfl, rfl, rfl, ?_, rfl, rfl⟩
      have hE : l.parentEnergy ≠ 0 := by
        intro e
        unfold ionizationDirections at hd
        simp only [StochLoss.toS, e] at hd
        rw [if_pos (Or.inl (by nlinarith [sq_nonneg primary.mass]))] at hd
        cases hd
      simp only [SLoss.state, StochLoss.toS]
      field_simp
  · unfold epairSecondaries at h2
    split at h2
    · injection h2 with h2; subst h2; exact ⟨_, rfl, rfl, rfl, rfl, rfl, rfl⟩
    · cases h2
  · injection h2 with h2; subst h2; exact ⟨_, rfl, rfl, rfl, rfl, rfl, rfl⟩
  · injection h2 with h2; subst h2; exact ⟨_, rfl, rfl, rfl, rfl, rfl, rfl⟩
  · unfold comptonSecondaries at h2
    simp only at h2
    split at h2
    · cases h2
    · next hd =>
      injection h2 with h2; subst h2
      rw [hg h1.symm]
      refine ⟨_, rfl, rfl, rfl, ?_, rfl, rfl⟩
      have hE : l.parentEnergy ≠ 0 := by
        intro e
        unfold comptonDirections at hd
        simp only [StochLoss.toS, e] at hd
        rw [if_pos (Or.inl (by ring))] at hd
        cases hd
      simp only [SLoss.state, StochLoss.toS]
      field_simp

/-- C147: the new particles of a loss carry the lost energy and the energy which the atom adds. Interactions which convert
the particle must have taken all of its energy. -/
theorem C147_loss (o : SecSampling) (primary partner : Daughter) (ts : List IType) (l : StochLoss) (Z : ℝ) (rnd : ℕ → ℝ)
    (ps : List Part) (ha : l.type ∈ absorbed → l.energy = l.parentEnergy)
    (h : lossSecondaries o primary partner ts l Z rnd = .ok (some ps)) :
    totalEnergy (newParticles l.type ps) = l.energy + atomEnergy l.type Z := by
  obtain ⟨c, hc, h1, h2⟩ := loss_calculator h
  simp only [defaultCalculators, List.mem_cons, List.not_mem_nil, or_false] at hc
  rcases hc with rfl | rfl | rfl | rfl | rfl | rfl | rfl | rfl | rfl | rfl | rfl | rfl <;> simp only at h1 h2 <;>
    rw [← h1] at ha ⊢ <;>
    simp only [newParticles, survived, absorbed, atomEnergy, List.mem_cons, List.not_mem_nil, or_false, reduceCtorEq,
      or_true, or_self, if_true, if_false, forall_const, IsEmpty.forall_iff] at ha ⊢
  · unfold bremsSecondaries at h2
    split at h2
    · cases h2
    · injection h2 with h2; subst h2; simp [totalEnergy, SLoss.state, StochLoss.toS]
  · unfold ionizationSecondaries at h2
    simp only at h2
    split at h2
    · cases h2
    · next hd =>
      injection h2 with h2; subst h2
      have hE : l.parentEnergy ≠ 0 := by
        intro e
        unfold ionizationDirections at hd
        simp only [StochLoss.toS, e] at hd
        rw [if_pos (Or.inl (by nlinarith [sq_nonneg primary.mass]))] at hd
        cases hd
      simp only [totalEnergy, SLoss.state, StochLoss.toS, List.tail_cons, List.map_cons, List.map_nil, List.sum_cons, List.sum_nil]
      field_simp
      ring
  · unfold epairSecondaries at h2
    split at h2
    · injection h2 with h2; subst h2
      simp only [totalEnergy, pairSecondaries, pairEnergies, SLoss.state, StochLoss.toS, List.tail_cons, List.map_cons,
        List.map_nil, List.sum_cons, List.sum_nil]
      ring
    · cases h2
  · injection h2 with h2; subst h2
    simp only [totalEnergy, mupairSecondaries, pairSecondaries, pairEnergies, SLoss.state, StochLoss.toS, List.tail_cons,
      List.map_cons, List.map_nil, List.sum_cons, List.sum_nil]
    ring
  · injection h2 with h2; subst h2
    simp [totalEnergy, photonuclearSecondaries, SLoss.state, StochLoss.toS]
  · unfold comptonSecondaries at h2
    simp only at h2
    split at h2
    · cases h2
    · next hd =>
      injection h2 with h2; subst h2
      have hE : l.parentEnergy ≠ 0 := by
        intro e
        unfold comptonDirections at hd
        simp only [StochLoss.toS, e] at hd
        rw [if_pos (Or.inl (by ring))] at hd
        cases hd
      simp only [totalEnergy, SLoss.state, StochLoss.toS, List.tail_cons, List.map_cons, List.map_nil, List.sum_cons, List.sum_nil]
      field_simp
      ring
  · unfold annihilationSecondaries at h2
    split at h2
    · next r hr =>
      split at hr
      · cases hr
      · split at hr
        · injection hr with hr; rw [← hr] at h2; cases h2
        · injection hr with hr
          rw [← hr] at h2
          injection h2 with h2; subst h2
          rw [ha]
          simp only [totalEnergy, SLoss.state, StochLoss.toS, List.map_cons, List.map_nil, List.sum_cons, List.sum_nil]
          ring
    · cases h2
  · injection h2 with h2; subst h2
    rw [ha]
    simp only [totalEnergy, sauterPair, photoPairSecondaries, SLoss.state, StochLoss.toS, List.map_cons, List.map_nil,
      List.sum_cons, List.sum_nil]
    ring
  · injection h2 with h2; subst h2
    rw [ha]
    simp only [totalEnergy, photoMuPairSecondaries, SLoss.state, StochLoss.toS, List.map_cons, List.map_nil,
      List.sum_cons, List.sum_nil]
    ring
  · injection h2 with h2; subst h2
    simp [totalEnergy, photoproductionSecondaries, SLoss.state, StochLoss.toS]
  · injection h2 with h2; subst h2
    rw [ha]
    simp only [totalEnergy, photoeffectSecondaries, SLoss.state, StochLoss.toS, List.map_cons, List.map_nil,
      List.sum_cons, List.sum_nil]
    ring
  · injection h2 with h2; subst h2
    simp only [totalEnergy, weakSecondaries, SLoss.state, StochLoss.toS, List.map_cons, List.map_nil,
      List.sum_cons, List.sum_nil]
    ring

/-! ## One track -/

/-- A reported loss with its component, random numbers and secondaries. -/
structure Spec.Interaction where
  loss : StochLoss
  Z : ℝ
  rnd : ℕ → ℝ
  secondaries : List Part

/-- The particles which the interactions of a track add. -/
def Spec.added (is : List Spec.Interaction) : List Part := is.flatMap fun i => newParticles i.loss.type i.secondaries

/-- The energy which the atoms add. -/
noncomputable def Spec.atomsEnergy (is : List Spec.Interaction) : ℝ := (is.map fun i => atomEnergy i.loss.type i.Z).sum

/-- The energy of the continuous losses of a track. -/
noncomputable def Spec.deposited (track : List Entry) : ℝ := ((continuousLosses track).map ContLoss.energy).sum

/-- Interactions which convert the particle take all of its energy, if they are sampled so. -/
theorem C147_absorbed (a : PropArgs) (init : PState) (pos : ℕ) (q : Prop') (h : Reachable a init pos q)
    (hv : ∀ s ∈ a.sectors, ∀ E rnd, (s.util.sampleLoss E rnd).type ∈ absorbed → (s.util.sampleLoss E rnd).v = 1)
    (l : StochLoss) (hl : l ∈ stochasticLosses q.track) (ht : l.type ∈ absorbed) : l.energy = l.parentEnergy := by
  obtain ⟨i, x, y, h1, h2, h3, h4, rfl⟩ := (C20_stochastic_content q.track l).1 hl
  have hc := C14_reported_fraction a init pos q h
  rw [List.isChain_iff_getElem] at hc
  obtain ⟨i1, e1⟩ := List.getElem?_eq_some_iff.1 h1
  obtain ⟨i2, e2⟩ := List.getElem?_eq_some_iff.1 h2
  have := hc i i2
  rw [e1, e2] at this
  rcases this h3 with h5 | ⟨s, hs, rnd, h5, _, h6⟩
  · exact absurd h5.1 h4
  · rw [hv s hs _ _ (by rw [← h5]; exact ht)] at h6
    simp only [h6]
    ring

theorem added_energy (o : SecSampling) (primary partner : Daughter) (ts : List IType) (is : List Spec.Interaction)
    (h1 : ∀ i ∈ is, i.loss.type ∈ absorbed → i.loss.energy = i.loss.parentEnergy)
    (h2 : ∀ i ∈ is, lossSecondaries o primary partner ts i.loss i.Z i.rnd = .ok (some i.secondaries)) :
    totalEnergy (added is) = ((is.map Spec.Interaction.loss).map StochLoss.energy).sum + atomsEnergy is := by
  unfold Spec.added Spec.atomsEnergy
  induction is with
  | nil => simp [totalEnergy]
  | cons i is ih =>
    have := ih (fun j hj => h1 j (List.mem_cons_of_mem _ hj)) (fun j hj => h2 j (List.mem_cons_of_mem _ hj))
    have e := C147_loss o primary partner ts i.loss i.Z i.rnd i.secondaries (h1 i List.mem_cons_self) (h2 i List.mem_cons_self)
    rw [List.flatMap_cons, totalEnergy_append, e, this]
    simp only [List.map_cons, List.sum_cons]
    ring

/-- C147: the continuous losses, the particles which the interactions of a track add and the last state of the particle have
together the initial energy and the energy added by the atoms. -/
theorem C147_track (a : PropArgs) (init : PState) (pos : ℕ) (q : Prop') (y : Entry)
    (hloss : ∀ s ∈ a.sectors, ∀ E rnd, (s.util.sampleLoss E rnd).type ≠ .decay)
    (hv : ∀ s ∈ a.sectors, ∀ E rnd, (s.util.sampleLoss E rnd).type ∈ absorbed → (s.util.sampleLoss E rnd).v = 1)
    (h : Reachable a init pos q) (hy : q.track.getLast? = some y)
    (o : SecSampling) (primary partner : Daughter) (ts : List IType) (is : List Spec.Interaction)
    (h1 : is.map Spec.Interaction.loss = stochasticLosses q.track)
    (h2 : ∀ i ∈ is, lossSecondaries o primary partner ts i.loss i.Z i.rnd = .ok (some i.secondaries)) :
    deposited q.track + totalEnergy (added is) + y.state.energy = init.energy + atomsEnergy is := by
  have e1 := C19_energy_balance_of_propagation a init pos q y hloss h hy
  have e2 := added_energy o primary partner ts is (fun i hi => C147_absorbed a init pos q h hv i.loss (by
    rw [← h1]; exact List.mem_map_of_mem hi)) h2
  rw [h1] at e2
  unfold Spec.deposited
  linarith

/-- C147: the particle in front of the secondaries of a reported loss has the energy of the entry after this loss. -/
theorem C147_entry (l : List Entry) (s : StochLoss) (hs : s ∈ stochasticLosses l) (o : SecSampling) (primary partner : Daughter)
    (ts : List IType) (Z : ℝ) (rnd : ℕ → ℝ) (ps : List Part) (hg : s.type = .compton → primary = sGamma) (ht : s.type ∈ survived)
    (h : lossSecondaries o primary partner ts s Z rnd = .ok (some ps)) :
    ∃ p, ps.head? = some p ∧ ∃ i x y, l[i]? = some x ∧ l[i + 1]? = some y ∧ y.type = s.type ∧ p.energy = y.state.energy ∧
      p.pos = y.state.position ∧ p.time = y.state.time := by
  obtain ⟨p, h1, -, -, h2, h3, h4⟩ := C147_first o primary partner ts s Z rnd ps hg ht h
  obtain ⟨i, x, y, e1, e2, e3, e4, rfl⟩ := (C20_stochastic_content l s).1 hs
  refine ⟨p, h1, i, x, y, e1, e2, rfl, ?_, h3, h4⟩
  rw [h2]
  ring

theorem before_last (l : List Entry) (y : Entry) (h : List.IsChain MayFollow (l ++ [y])) : ∀ x ∈ l, x.type ≠ .decay := by
  induction l with
  | nil => simp
  | cons b l ih =>
    cases l with
    | nil =>
      intro x hx
      rw [List.mem_singleton.1 hx]
      exact ((List.isChain_cons_cons.1 h).1).1
    | cons c l =>
      have h' := List.isChain_cons_cons.1 h
      intro x hx
      rcases List.mem_cons.1 hx with rfl | hx
      · exact h'.1.1
      · exact ih h'.2 x hx

/-- C147: if the track of a muon or tau ends with its decay, then the decay products take the place of the last state.
Missing: the decays whose products contain NaN. -/
theorem C147_decay_partial (a : PropArgs) (init : PState) (pos : ℕ) (q : Prop') (y : Entry)
    (hloss : ∀ s ∈ a.sectors, ∀ E rnd, (s.util.sampleLoss E rnd).type ≠ .decay)
    (hv : ∀ s ∈ a.sectors, ∀ E rnd, (s.util.sampleLoss E rnd).type ∈ absorbed → (s.util.sampleLoss E rnd).v = 1)
    (h : Reachable a init pos q) (hy : q.track.getLast? = some y) (hd : y.type = .decay)
    (o : SecSampling) (primary partner : Daughter) (ts : List IType) (is : List Spec.Interaction)
    (h1 : is.map Spec.Interaction.loss = stochasticLosses q.track)
    (h2 : ∀ i ∈ is, lossSecondaries o primary partner ts i.loss i.Z i.rnd = .ok (some i.secondaries))
    (t : List (ℝ × Channel)) (ht : Decaying primary.type primary.mass t)
    (hm : primary.mass ≤ y.state.energy) (hu : UnitVec y.state.direction)
    (u : ℝ) (r : DecayRandoms) (hr : ∀ c, GoodRandoms c { r with rounds := [] })
    (hr' : ∀ c, selectChannel t u = some c → ∀ x ∈ r.rounds, GoodRound c.daughters.length x) :
    ∃ res, getDecayProducts primary.mass t (decayView primary q.track) [(u, r)] = .ok res ∧
      ∀ ps, res = some ps → deposited q.track + totalEnergy (added is) + totalEnergy ps = init.energy + atomsEnergy is := by
  have key := C147_track a init pos q y hloss hv h hy o primary partner ts is h1 h2
  have hshape := C15_track_shape a init pos q hloss h
  obtain ⟨l, hl⟩ := List.getLast?_eq_some_iff.1 hy
  rw [hl] at hshape
  have hb := before_last l y hshape
  have hM : 0 < primary.mass := by
    generalize primary.type = k at ht
    generalize primary.mass = M at ht
    cases ht <;> norm_num [MMU, MTAU]
  obtain ⟨res, e1, e2⟩ := C87_products_partial primary.type primary.mass t ht (decayView primary l) (by
    intro s hs
    unfold decayView at hs
    obtain ⟨e, he, rfl⟩ := List.mem_map.1 hs
    simpa using hb e he) ⟨primary.type, primary.mass, y.state.position, y.state.direction, y.state.energy, y.state.time,
      y.state.distance⟩ ⟨hM, hm, hu⟩ u r hr hr'
  refine ⟨res, ?_, ?_⟩
  · rw [hl, ← e1]
    congr 1
    unfold decayView
    rw [List.map_append]
    simp [hd]
  · intro ps hps
    rw [(e2 ps hps).1.energy]
    exact key

/-! ## A cascade -/

/-- The state of a particle without its type. -/
def Spec.stateOf (p : Part) : PState := ⟨p.energy, p.time, p.pos, p.dir, p.dist⟩

/-- The last state of a track as a particle. -/
def Spec.lastOf (p : Part) (y : Entry) : Part :=
  ⟨p.type, p.mass, y.state.position, y.state.direction, y.state.energy, y.state.time, y.state.distance⟩

/-- A finished propagation of a particle, with the interactions which its calculator has evaluated. -/
structure Spec.Propagated (p : Part) (q : Prop') (y : Entry) (is : List Spec.Interaction) : Prop where
  run : ∃ (a : PropArgs) (pos : ℕ), Reachable a (stateOf p) pos q ∧
    (∀ s ∈ a.sectors, ∀ E rnd, (s.util.sampleLoss E rnd).type ≠ .decay) ∧
    ∀ s ∈ a.sectors, ∀ E rnd, (s.util.sampleLoss E rnd).type ∈ absorbed → (s.util.sampleLoss E rnd).v = 1
  finished : q.running = false
  last : q.track.getLast? = some y
  losses : is.map Spec.Interaction.loss = stochasticLosses q.track
  calculated : ∃ (o : SecSampling) (partner : Daughter) (ts : List IType),
    ∀ i ∈ is, lossSecondaries o ⟨p.type, p.mass⟩ partner ts i.loss i.Z i.rnd = .ok (some i.secondaries)

/-- A cascade: a list of particles is worked off. A particle is kept as it is, or it is propagated; then its secondaries
and its decay products join the list, or its last state is kept. The numbers are the deposited energy and the energy added
by atoms, the last list contains the kept particles. -/
inductive Spec.Cascade : List Part → ℝ → ℝ → List Part → Prop
  | done : Spec.Cascade [] 0 0 []
  | keep (p : Part) (ps fs : List Part) (d t : ℝ) : Spec.Cascade ps d t fs → Spec.Cascade (p :: ps) d t (p :: fs)
  | run (p : Part) (ps fs : List Part) (d t : ℝ) (q : Prop') (y : Entry) (is : List Spec.Interaction) :
      Propagated p q y is → y.type ≠ .decay → Spec.Cascade (added is ++ ps) d t fs →
      Spec.Cascade (p :: ps) (deposited q.track + d) (atomsEnergy is + t) (lastOf p y :: fs)
  | decay (p : Part) (ps fs : List Part) (d t : ℝ) (q : Prop') (y : Entry) (is : List Spec.Interaction)
      (table : List (ℝ × Channel)) (u : ℝ) (r : DecayRandoms) (products : List Part) :
      Propagated p q y is → y.type = .decay → Decaying p.type p.mass table → Parent p.mass (lastOf p y) →
      (∀ c, GoodRandoms c { r with rounds := [] }) →
      (∀ c, selectChannel table u = some c → ∀ x ∈ r.rounds, GoodRound c.daughters.length x) →
      getDecayProducts p.mass table (decayView ⟨p.type, p.mass⟩ q.track) [(u, r)] = .ok (some products) →
      Spec.Cascade (added is ++ products ++ ps) d t fs →
      Spec.Cascade (p :: ps) (deposited q.track + d) (atomsEnergy is + t) fs

/-- C147: a cascade of any size conserves energy: the deposited energy and the kept particles have together the energy of
the first particles and the energy added by atoms. -/
theorem C147_cascade (ps fs : List Part) (d t : ℝ) (h : Cascade ps d t fs) : totalEnergy ps + t = d + totalEnergy fs := by
  induction h with
  | done => simp [totalEnergy]
  | keep p ps fs d t _ ih =>
    rw [totalEnergy_cons, totalEnergy_cons]
    linarith
  | run p ps fs d t q y is hp hy _ ih =>
    obtain ⟨a, pos, r1, r2, r3⟩ := hp.run
    obtain ⟨o, partner, ts, hc⟩ := hp.calculated
    have key := C147_track a _ pos q y r2 r3 r1 hp.last o _ partner ts is hp.losses hc
    rw [totalEnergy_append] at ih
    rw [totalEnergy_cons, totalEnergy_cons]
    simp only [Spec.stateOf] at key
    simp only [Spec.lastOf]
    linarith
  | decay p ps fs d t q y is table u r products hp hy hd hpar g1 g2 hprod _ ih =>
    obtain ⟨a, pos, r1, r2, r3⟩ := hp.run
    obtain ⟨o, partner, ts, hc⟩ := hp.calculated
    obtain ⟨res, e1, e2⟩ := C147_decay_partial a _ pos q y r2 r3 r1 hp.last hy o ⟨p.type, p.mass⟩ partner ts is hp.losses hc table hd
      hpar.energy_ge hpar.unit u r g1 g2
    rw [hprod] at e1
    injection e1 with e1
    have key := e2 products e1.symm
    rw [totalEnergy_append, totalEnergy_append] at ih
    rw [totalEnergy_cons]
    simp only [Spec.stateOf] at key
    linarith

/-! ## Example -/

namespace CascadeExample

/-- A large region in which a particle meets a nucleus at half of its energy and loses a half of the rest. -/
noncomputable def sector : Sector :=
  ⟨Toy.geo 10000, { Toy.util with decay := some fun _ _ _ => 0, sampleLoss := fun _ _ => ⟨.photonuclear, 0, 1 / 2⟩ }, Toy.dens⟩

noncomputable def args : PropArgs := ⟨[sector], fun _ => 1 / 2, 5000, 600, 0⟩

/-- A muon of 2000 MeV. -/
noncomputable def muon : Part := ⟨13, MMU, ⟨0, 0, 0⟩, ⟨0, 0, 1⟩, 2000, 0, 0⟩

noncomputable def before : Prop' := ⟨stateOf muon, sector, [⟨stateOf muon, .continuousEnergyLoss, 0⟩], 0, true⟩

/-- The state after the continuous loss. -/
noncomputable def middle : PState := afterStep before 1000 1000 1000 ⟨0, 0, 1⟩ ⟨0, 0, 1⟩

noncomputable def last : PState := { middle with energy := 500 }

noncomputable def after : Prop' :=
  ⟨last, sector, before.track ++ [⟨middle, .continuousEnergyLoss, 0⟩, ⟨last, .photonuclear, 0⟩], 3, false⟩

theorem reach : Reachable args (stateOf muon) 0 after := by
  have hin : ∀ p d, (Toy.geo 10000).isInside p d := fun p d => Toy.inside (by norm_num) p d
  have hb : ∀ p d, distanceToBorder args.sectors p d sector.geo = 10000 := by
    intro p d
    unfold distanceToBorder
    simp [args, sector, Toy.geo]
  refine .step before after (.start _ ?_) rfl ?_
  · have : currentSector args.sectors (stateOf muon).position (stateOf muon).direction = some sector := by
      unfold currentSector
      have := hin (stateOf muon).position (stateOf muon).direction
      simp [args, sector, this, maxHierarchy]
    unfold propInit
    rw [this]
    rfl
  · have h := C10_interaction_reached args before (fun _ _ _ => 0) rfl 0 1000 600 rfl
      (by norm_num [before, sector, Toy.util, stateOf, muon])
      (by norm_num [before, sector, Toy.util, args]) (by norm_num) (by norm_num) 1000 ⟨0, 0, 1⟩ ⟨0, 0, 1⟩ (Memo.init 2)
      ⟨by norm_num, by norm_num [before, sector, Toy.util, Toy.dens, stateOf, muon], rfl, hin _ _, by
        exact le_of_le_of_eq (by norm_num) (hb before.state.position ⟨0, 0, 1⟩).symm, by norm_num [args, before, stateOf, muon]⟩
      1000 2 rfl rfl ⟨.photonuclear, 0, 1 / 2⟩ rfl (by decide) ⟨0, 0, 1⟩ 3 rfl
    rw [h]
    have e : (1000 : ℝ) * (1 - 1 / 2) = 500 := by norm_num
    simp only [e]
    have d : decide ((600 : ℝ) < 500) = false := by norm_num
    rw [d]
    rfl

/-- The interaction with its hadrons. -/
noncomputable def hit (m : PState) : Interaction :=
  ⟨⟨.photonuclear, 1000 - 500, m.position, m.direction, m.time, m.distance, 1000, 0⟩, 8, fun _ => 1 / 2,
    photonuclearSecondaries ⟨13, MMU⟩ ⟨1000 - 500, m.position, m.direction, m.time, m.distance, 1000⟩⟩

theorem propagated : Propagated muon after ⟨last, .photonuclear, 0⟩ [hit last] where
  run := ⟨args, 0, reach, by
    intro s hs E rnd
    simp only [args, List.mem_singleton] at hs
    subst hs; simp [sector], by
    intro s hs E rnd h
    simp only [args, List.mem_singleton] at hs
    subst hs
    simp [sector, absorbed] at h⟩
  finished := rfl
  last := by simp [after]
  losses := by
    have : stochasticLosses after.track = [mkStoch (⟨middle, .continuousEnergyLoss, 0⟩, ⟨last, .photonuclear, 0⟩)] := rfl
    rw [this]
    simp [hit, mkStoch, last, middle, afterStep]
  calculated := ⟨⟨fun _ _ _ => 0, fun _ _ _ => 0, fun _ _ => 0, fun _ _ => 0, fun _ _ => 0⟩, ⟨14, 0⟩, [.photonuclear], by
    intro i hi
    rw [List.mem_singleton.1 hi]
    rfl⟩

/-- The cascade of the muon: 1000 MeV are deposited, a hadron of 500 MeV and the muon with 500 MeV are kept. -/
example : ∃ d fs, Cascade [muon] d 0 fs ∧ fs.length = 2 ∧ 2000 = d + totalEnergy fs := by
  have h := Cascade.run muon [] (added [hit last]) 0 0 after ⟨last, .photonuclear, 0⟩ [hit last] propagated (by decide)
    (.keep _ [] [] 0 0 .done)
  have a0 : atomsEnergy [hit last] + 0 = 0 := by simp [atomsEnergy, hit, atomEnergy]
  rw [a0] at h
  refine ⟨_, _, h, rfl, ?_⟩
  have := C147_cascade _ _ _ _ h
  simpa [totalEnergy, muon] using this

end CascadeExample

end Proposal
