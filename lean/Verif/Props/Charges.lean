import Verif.Props.Cascade
import Verif.Props.Particles

/-!
# Charge and lepton numbers in a cascade (C150)
-/

namespace Proposal

open Spec

/-- The particles which take part: photons for the interactions of photons, positrons for annihilation, and for a weak interaction a
lepton with the weak partner of its definition. -/
def Spec.Fits (t : IType) (type partner : ℤ) : Prop :=
  (t ∈ [IType.compton, .photopair, .photoMuPair, .photoproduction, .photoeffect] → type = 22) ∧
  (t = .annihilation → type = -11) ∧
  (t = .weakInt → type ∈ leptons ∧ ∃ d ∈ builtinDefs, d.type = type ∧ d.weakPartner = partner)

/-- The types of the new particles of an interaction. -/
def Spec.newTypes (t : IType) (partner : ℤ) : List ℤ :=
  match t with
  | .brems => [22]
  | .ioniz => [11]
  | .epair => [11, -11]
  | .muPair => [13, -13]
  | .photonuclear => [81]
  | .compton => [11]
  | .annihilation => [22, 22]
  | .photopair => [11, -11]
  | .photoMuPair => [13, -13]
  | .photoproduction => [81]
  | .photoeffect => [11]
  | .weakInt => [partner, 81]
  | _ => []

/-- The electrons which an interaction takes from the atom. -/
def Spec.electronsTaken (t : IType) : ℤ := if t ∈ [IType.ioniz, .compton, .annihilation, .photoeffect] then 1 else 0

/-- The charge which the boson of a weak interaction gives to the hadrons. -/
def Spec.weakCharge (t : IType) (type partner : ℤ) : ℤ := if t = .weakInt then Spec.charge type - Spec.charge partner else 0

/-- The sum of a number over the types of particles. -/
def Spec.sumOf {A : Type} [AddCommGroup A] (N : ℤ → A) (ps : List Part) : A := (ps.map fun p => N p.type).sum

theorem sumOf_append {A : Type} [AddCommGroup A] (N : ℤ → A) (ps qs : List Part) : sumOf N (ps ++ qs) = sumOf N ps + sumOf N qs := by
  simp [sumOf]

theorem sumOf_cons {A : Type} [AddCommGroup A] (N : ℤ → A) (p : Part) (ps : List Part) : sumOf N (p :: ps) = N p.type + sumOf N ps := by
  simp [sumOf]

/-! ## One loss -/

/-- C150: the new particles of a loss are exactly those of its interaction. -/
theorem C150_types (o : SecSampling) (primary partner : Daughter) (ts : List IType) (l : StochLoss) (Z : ℝ) (rnd : ℕ → ℝ)
    (ps : List Part) (h : lossSecondaries o primary partner ts l Z rnd = .ok (some ps)) :
    (newParticles l.type ps).map Part.type = newTypes l.type partner.type := by
  obtain ⟨c, hc, h1, h2⟩ := loss_calculator h
  simp only [defaultCalculators, List.mem_cons, List.not_mem_nil, or_false] at hc
  rcases hc with rfl | rfl | rfl | rfl | rfl | rfl | rfl | rfl | rfl | rfl | rfl | rfl <;> simp only at h1 h2 <;> rw [← h1] <;>
    simp only [newParticles, survived, newTypes, List.mem_cons, List.not_mem_nil, or_false, reduceCtorEq, or_true, or_self,
      if_true, if_false]
  · unfold bremsSecondaries at h2
    split at h2
    · cases h2
    · injection h2 with h2; subst h2; rfl
  · unfold ionizationSecondaries at h2
    simp only at h2
    split at h2
    · cases h2
    · injection h2 with h2; subst h2; rfl
  · unfold epairSecondaries at h2
    split at h2
    · injection h2 with h2; subst h2; rfl
    · cases h2
  · injection h2 with h2; subst h2; rfl
  · injection h2 with h2; subst h2; rfl
  · unfold comptonSecondaries at h2
    simp only at h2
    split at h2
    · cases h2
    · injection h2 with h2; subst h2; rfl
  · unfold annihilationSecondaries at h2
    split at h2
    · next r hr =>
      split at hr
      · cases hr
      · split at hr
        · injection hr with hr; rw [← hr] at h2; cases h2
        · injection hr with hr
          rw [← hr] at h2
          injection h2 with h2; subst h2; rfl
    · cases h2
  all_goals (injection h2 with h2; subst h2; rfl)

theorem sumOf_new {A : Type} [AddCommGroup A] (N : ℤ → A) {ps : List Part} {L : List ℤ} (h : ps.map Part.type = L) :
    sumOf N ps = (L.map N).sum := by
  rw [← h, List.map_map]
  rfl

/-- The calculators exist only for the twelve interactions. -/
theorem loss_type {o : SecSampling} {primary partner : Daughter} {ts : List IType} {l : StochLoss} {Z : ℝ} {rnd : ℕ → ℝ} {r}
    (h : lossSecondaries o primary partner ts l Z rnd = .ok r) : l.type ∈ survived ∨ l.type ∈ absorbed := by
  obtain ⟨c, hc, h1, -⟩ := loss_calculator h
  simp only [defaultCalculators, List.mem_cons, List.not_mem_nil, or_false] at hc
  rcases hc with rfl | rfl | rfl | rfl | rfl | rfl | rfl | rfl | rfl | rfl | rfl | rfl <;> simp only at h1 <;> rw [← h1] <;> decide

/-- C150: every interaction conserves the electron, muon and tau number: the new particles carry the numbers of a converted particle
and of the electron of the atom. -/
theorem C150_leptons (o : SecSampling) (primary partner : Daughter) (ts : List IType) (l : StochLoss) (Z : ℝ) (rnd : ℕ → ℝ)
    (ps : List Part) (hf : Fits l.type primary.type partner.type)
    (h : lossSecondaries o primary partner ts l Z rnd = .ok (some ps)) :
    sumOf Spec.leptonNumbers (newParticles l.type ps) =
      (if l.type ∈ absorbed then Spec.leptonNumbers primary.type else 0) + electronsTaken l.type • Spec.leptonNumbers 11 := by
  rw [sumOf_new _ (C150_types o primary partner ts l Z rnd ps h)]
  have ht := loss_type h
  generalize l.type = t at hf ht
  obtain ⟨f1, f2, f3⟩ := hf
  simp only [survived, absorbed, List.mem_cons, List.not_mem_nil, or_false] at ht
  rcases ht with (rfl | rfl | rfl | rfl | rfl | rfl) | (rfl | rfl | rfl | rfl | rfl | rfl)
  · rfl
  · rfl
  · rfl
  · rfl
  · rfl
  · rfl
  · rw [f2 rfl]; rfl
  · rw [f1 (by decide)]; rfl
  · rw [f1 (by decide)]; rfl
  · rw [f1 (by decide)]; rfl
  · rw [f1 (by decide)]; rfl
  · obtain ⟨hl, d, hd, e1, e2⟩ := f3 rfl
    obtain ⟨d', _, e3, _, e4, _⟩ := (C149_weak_partner d hd).1 (by rw [e1]; exact hl)
    have e5 : Spec.leptonNumbers partner.type = Spec.leptonNumbers primary.type := by rw [← e2, ← e3, e4, e1]
    have e6 : Spec.leptonNumbers 81 = 0 := rfl
    have e7 : electronsTaken .weakInt = 0 := rfl
    rw [if_pos (by decide), e7]
    simp [newTypes, e5, e6]

/-- C150: every interaction conserves the electric charge, if the hadrons of a weak interaction take the charge of its boson. -/
theorem C150_charge (o : SecSampling) (primary partner : Daughter) (ts : List IType) (l : StochLoss) (Z : ℝ) (rnd : ℕ → ℝ)
    (ps : List Part) (hf : Fits l.type primary.type partner.type)
    (h : lossSecondaries o primary partner ts l Z rnd = .ok (some ps)) :
    sumOf Spec.charge (newParticles l.type ps) + weakCharge l.type primary.type partner.type =
      (if l.type ∈ absorbed then Spec.charge primary.type else 0) - electronsTaken l.type := by
  rw [sumOf_new _ (C150_types o primary partner ts l Z rnd ps h)]
  have ht := loss_type h
  generalize l.type = t at hf ht
  obtain ⟨f1, f2, f3⟩ := hf
  simp only [survived, absorbed, List.mem_cons, List.not_mem_nil, or_false] at ht
  rcases ht with (rfl | rfl | rfl | rfl | rfl | rfl) | (rfl | rfl | rfl | rfl | rfl | rfl)
  · rfl
  · rfl
  · rfl
  · rfl
  · rfl
  · rfl
  · rw [f2 rfl]; rfl
  · rw [f1 (by decide)]; rfl
  · rw [f1 (by decide)]; rfl
  · rw [f1 (by decide)]; rfl
  · rw [f1 (by decide)]; rfl
  · have e6 : Spec.charge 81 = 0 := rfl
    have e7 : electronsTaken .weakInt = 0 := rfl
    rw [if_pos (by decide), e7]
    simp [newTypes, weakCharge, e6]

/-- C150: the boson of a weak interaction has one unit of charge. -/
theorem C150_boson (type partner : ℤ) (h : Fits .weakInt type partner) : |weakCharge .weakInt type partner| = 1 := by
  obtain ⟨-, -, f3⟩ := h
  obtain ⟨hl, d, hd, rfl, rfl⟩ := f3 rfl
  have : ∀ t ∈ leptons, |t| < 1000 ∧ t ≠ 41 := by decide
  obtain ⟨d', hd', e1, e2, e3, e4⟩ := (C149_weak_partner d hd).1 hl
  have hl' : d'.type ∈ leptons := by
    by_contra hc
    have := (C149_weak_partner d' hd').2 hc
    rw [this] at e2
    rw [← e2] at hl
    revert hl; decide
  rw [C149_charge d hd (this _ hl).1 (this _ hl).2, C149_charge d' hd' (this _ hl').1 (this _ hl').2] at e4
  unfold weakCharge
  rw [if_pos rfl, ← e1, abs_sub_comm]
  exact_mod_cast e4

/-- C150: no calculator changes the identity of a particle that survives: the first of the secondaries has its type. -/
theorem C150_survivor (o : SecSampling) (primary partner : Daughter) (ts : List IType) (l : StochLoss) (Z : ℝ) (rnd : ℕ → ℝ)
    (ps : List Part) (hf : Fits l.type primary.type partner.type) (ht : l.type ∈ survived)
    (h : lossSecondaries o primary partner ts l Z rnd = .ok (some ps)) : ps.map Part.type = primary.type :: newTypes l.type partner.type := by
  have e := C150_types o primary partner ts l Z rnd ps h
  have hh : ∃ p, ps.head? = some p ∧ p.type = primary.type := by
    obtain ⟨c, hc, h1, h2⟩ := loss_calculator h
    simp only [defaultCalculators, List.mem_cons, List.not_mem_nil, or_false] at hc
    rcases hc with rfl | rfl | rfl | rfl | rfl | rfl | rfl | rfl | rfl | rfl | rfl | rfl <;> simp only at h1 h2 <;>
      first
      | (exfalso; rw [← h1] at ht; revert ht; decide)
      | skip
    · unfold bremsSecondaries at h2
      split at h2
      · cases h2
      · injection h2 with h2; subst h2; exact ⟨_, rfl, rfl⟩
    · unfold ionizationSecondaries at h2
      simp only at h2
      split at h2
      · cases h2
      · injection h2 with h2; subst h2; exact ⟨_, rfl, rfl⟩
    · unfold epairSecondaries at h2
      split at h2
      · injection h2 with h2; subst h2; exact ⟨_, rfl, rfl⟩
      · cases h2
    · injection h2 with h2; subst h2; exact ⟨_, rfl, rfl⟩
    · injection h2 with h2; subst h2; exact ⟨_, rfl, rfl⟩
    · unfold comptonSecondaries at h2
      simp only at h2
      split at h2
      · cases h2
      · injection h2 with h2; subst h2
        exact ⟨_, rfl, (hf.1 (by rw [← h1]; decide)).symm⟩
  obtain ⟨p, h1, h2⟩ := hh
  unfold Spec.newParticles at e
  rw [if_pos ht] at e
  cases ps with
  | nil => cases h1
  | cons x ps =>
    injection h1 with h1
    subst h1
    rw [List.map_cons, h2]
    rw [List.tail_cons] at e
    rw [e]

/-! ## One track -/

/-- C150: an interaction which converts the particle is the last entry of its track. -/
theorem C150_last (a : PropArgs) (init : PState) (pos : ℕ) (q : Prop') (hmin : 0 ≤ a.minEnergy)
    (hv : ∀ s ∈ a.sectors, ∀ E rnd, (s.util.sampleLoss E rnd).type ∈ absorbed → (s.util.sampleLoss E rnd).v = 1)
    (h : Reachable a init pos q) : List.IsChain (fun x _ : Entry => x.type ∉ absorbed) q.track ∧
      (∀ y, q.track.getLast? = some y → y.type ∈ absorbed → q.running = false ∧ y.state.energy = 0) := by
  have key := chain_induction (a := a) (init := init) (pos := pos) (fun x _ : Entry => x.type ∉ absorbed)
    (fun q x => x.type ∈ absorbed → q.running = false ∧ x.state.energy = 0) ?_ ?_ h
  · refine ⟨key.1, ?_⟩
    intro y hy
    obtain ⟨l, x, e, hx⟩ := key.2
    rw [e, List.getLast?_append] at hy
    injection hy with hy
    subst hy
    exact hx
  · intro q _ hc; exact absurd hc (by simp [absorbed])
  · intro q q' l x r hreach hrun hx hI hs hr
    refine ⟨fun hc => ?_, fun _ hc => ?_, ?_⟩
    · have := (hI hc).1
      rw [hrun] at this; cases this
    · exact absurd hc (by simp [absorbed])
    · intro y hy
      refine ⟨by simp [absorbed], fun hc => ?_⟩
      have hm := r_sector_mem (reachable_basic hreach).mem hr
      obtain ⟨r', hr', hq⟩ := propStep_ok hs
      rw [hr] at hr'
      obtain rfl : r = r' := by simpa using hr'
      rcases react_ok hq with ⟨_, _, _, k1, k2, k | k⟩ | ⟨_, _, _, _, _, k⟩ | ⟨_, _, _, _, _, k⟩ | ⟨_, _, _, _, k⟩ | ⟨_, _, _, _, k⟩
      · have hxy : (⟨q'.state, (doStochastic a.ω r.sector.util r.state r.pos).1.type,
          (doStochastic a.ω r.sector.util r.state r.pos).1.comp⟩ : Entry) = y := by
          rw [k.2] at hy; simpa using hy
        subst hxy
        have hvv : (r.sector.util.sampleLoss r.state.energy (a.ω r.pos)).v = 1 := hv _ hm _ _ hc
        have he : q'.state.energy = 0 := by
          rw [k1]
          have : (doStochastic a.ω r.sector.util r.state r.pos).2.1.energy =
            r.state.energy * (1 - (r.sector.util.sampleLoss r.state.energy (a.ω r.pos)).v) := rfl
          rw [this, hvv]; ring
        refine ⟨?_, he⟩
        by_contra hne
        have := k2.1 (by simpa using hne)
        rw [he] at this
        have hm0 : 0 ≤ eMinOf a q := hmin.trans (le_max_left _ _)
        linarith
      · rw [k.2] at hy; simp at hy
      · have hxy : (⟨r.state, .decay, 0⟩ : Entry) = y := by
          rw [k] at hy; simpa using hy
        subst hxy
        exact absurd hc (by simp [absorbed])
      · rw [k] at hy; simp at hy
      · rw [k] at hy; simp at hy
      · rw [k] at hy; simp at hy

theorem absorbed_once {A : Type} [AddCommGroup A] (n : A) (x : Entry) (l : List Entry) (y : Entry)
    (h : List.IsChain (fun x _ : Entry => x.type ∉ absorbed) (x :: l)) (hy : (x :: l).getLast? = some y) (hx : x.type ∉ absorbed) :
    ((stochasticLosses (x :: l)).map fun s => if s.type ∈ absorbed then n else 0).sum = if y.type ∈ absorbed then n else 0 := by
  induction l generalizing x with
  | nil =>
    obtain rfl : x = y := by simpa using hy
    rw [if_neg hx]
    rfl
  | cons z l ih =>
    have h' := List.isChain_cons_cons.1 h
    have hy' : (z :: l).getLast? = some y := by simpa using hy
    have e : stochasticLosses (x :: z :: l) =
        (if z.type ≠ .continuousEnergyLoss ∧ z.type ≠ .decay then [mkStoch (x, z)] else []) ++ stochasticLosses (z :: l) := by
      unfold stochasticLosses steps
      rw [List.tail_cons, List.zip_cons_cons, List.filter_cons]
      split_ifs with g1 g2 g2
      · rfl
      · simp only [decide_eq_true_eq] at g1; exact absurd g1 g2
      · simp only [decide_eq_true_eq] at g1; exact absurd g2 g1
      · rfl
    rw [e, List.map_append, List.sum_append]
    by_cases hz : z.type ∈ absorbed
    · have hl : l = [] := by
        cases l with
        | nil => rfl
        | cons w l => exact absurd hz (List.isChain_cons_cons.1 h'.2).1
      subst hl
      obtain rfl : z = y := by simpa using hy'
      have hd : z.type ≠ .continuousEnergyLoss ∧ z.type ≠ .decay := by
        constructor <;> (intro hc; rw [hc] at hz; revert hz; decide)
      rw [if_pos hd, if_pos hz]
      have : (mkStoch (x, z)).type = z.type := rfl
      simp [this, hz, stochasticLosses, steps]
    · rw [ih z h'.2 hy' hz]
      split_ifs <;> simp [mkStoch, hz]

/-- The electrons which the interactions of a track take from atoms. -/
def Spec.electronsOf (is : List Spec.Interaction) : ℤ := (is.map fun i => electronsTaken i.loss.type).sum

/-- The charge which the bosons of weak interactions give to hadrons. -/
def Spec.bosons (type partner : ℤ) (is : List Spec.Interaction) : ℤ := (is.map fun i => weakCharge i.loss.type type partner).sum

/-- A track with its interactions. -/
structure Spec.Track (p : Part) (partner : Daughter) (q : Prop') (y : Entry) (is : List Spec.Interaction) : Prop where
  run : ∃ (a : PropArgs) (pos : ℕ), Reachable a (stateOf p) pos q ∧ 0 ≤ a.minEnergy ∧
    (∀ s ∈ a.sectors, ∀ E rnd, (s.util.sampleLoss E rnd).type ≠ .decay) ∧
    ∀ s ∈ a.sectors, ∀ E rnd, (s.util.sampleLoss E rnd).type ∈ absorbed → (s.util.sampleLoss E rnd).v = 1
  last : q.track.getLast? = some y
  losses : is.map Spec.Interaction.loss = stochasticLosses q.track
  calculated : ∃ (o : SecSampling) (ts : List IType),
    ∀ i ∈ is, lossSecondaries o ⟨p.type, p.mass⟩ partner ts i.loss i.Z i.rnd = .ok (some i.secondaries)
  fits : ∀ i ∈ is, Fits i.loss.type p.type partner.type

theorem track_sum {A : Type} [AddCommGroup A] (N : ℤ → A) (n : A) (e : Spec.Interaction → A) {p : Part} {partner : Daughter} {q : Prop'}
    {y : Entry} {is : List Spec.Interaction} (h : Track p partner q y is)
    (hN : ∀ i ∈ is, sumOf N (newParticles i.loss.type i.secondaries) = (if i.loss.type ∈ absorbed then n else 0) + e i) :
    sumOf N (added is) = (if y.type ∈ absorbed then n else 0) + (is.map e).sum := by
  obtain ⟨a, pos, r1, r2, r3, r4⟩ := h.run
  obtain ⟨c1, c2⟩ := C150_last a _ pos q r2 r4 r1
  obtain ⟨l, hl⟩ := C15_track_head a _ pos q r1
  have hlast := h.last
  rw [hl] at c1 hlast
  have key := absorbed_once n _ l y c1 hlast (by simp [absorbed])
  rw [← hl, ← h.losses, List.map_map] at key
  rw [← key]
  clear key
  unfold Spec.added
  have : ∀ js : List Spec.Interaction, (∀ i ∈ js, i ∈ is) → sumOf N (js.flatMap fun i => newParticles i.loss.type i.secondaries) =
      (js.map ((fun s : StochLoss => if s.type ∈ absorbed then n else 0) ∘ Spec.Interaction.loss)).sum + (js.map e).sum := by
    intro js
    induction js with
    | nil => intro _; simp [sumOf]
    | cons i js ih =>
      intro hj
      rw [List.flatMap_cons, sumOf_append, ih fun k hk => hj k (List.mem_cons_of_mem _ hk), hN i (hj i List.mem_cons_self)]
      simp only [List.map_cons, List.sum_cons, Function.comp]
      abel
  exact this is fun _ h => h

/-- The particle after its track: nothing if it was converted. -/
def Spec.remainder (p : Part) (y : Entry) : List Part := if y.type ∈ absorbed then [] else [lastOf p y]

/-- C150: a track conserves the electron, muon and tau number and the charge. -/
theorem C150_track (p : Part) (partner : Daughter) (q : Prop') (y : Entry) (is : List Spec.Interaction) (h : Track p partner q y is) :
    sumOf Spec.leptonNumbers (remainder p y ++ added is) = Spec.leptonNumbers p.type + electronsOf is • Spec.leptonNumbers 11 ∧
    sumOf Spec.charge (remainder p y ++ added is) + bosons p.type partner.type is = Spec.charge p.type - electronsOf is := by
  obtain ⟨o, ts, hc⟩ := h.calculated
  constructor
  · have := track_sum Spec.leptonNumbers (Spec.leptonNumbers p.type) (fun i => electronsTaken i.loss.type • Spec.leptonNumbers 11) h
      fun i hi => C150_leptons o ⟨p.type, p.mass⟩ partner ts i.loss i.Z i.rnd i.secondaries (h.fits i hi) (hc i hi)
    rw [sumOf_append, this]
    have e : (is.map fun i => electronsTaken i.loss.type • Spec.leptonNumbers 11).sum = electronsOf is • Spec.leptonNumbers 11 := by
      unfold Spec.electronsOf
      clear hc this h
      induction is with
      | nil => simp
      | cons i is ih => simp only [List.map_cons, List.sum_cons, ih, add_smul]
    rw [e]
    unfold Spec.remainder
    split_ifs
    · simp [sumOf]
    · simp [sumOf, lastOf]
  · have := track_sum Spec.charge (Spec.charge p.type) (fun i => -electronsTaken i.loss.type - weakCharge i.loss.type p.type partner.type) h
      fun i hi => by
        have := C150_charge o ⟨p.type, p.mass⟩ partner ts i.loss i.Z i.rnd i.secondaries (h.fits i hi) (hc i hi)
        simp only at this
        linarith
    rw [sumOf_append, this]
    have e : (is.map fun i => -electronsTaken i.loss.type - weakCharge i.loss.type p.type partner.type).sum =
        -electronsOf is - bosons p.type partner.type is := by
      unfold Spec.electronsOf Spec.bosons
      clear hc this h
      induction is with
      | nil => simp
      | cons i is ih => simp only [List.map_cons, List.sum_cons, ih]; ring
    rw [e]
    unfold Spec.remainder
    split_ifs
    · simp [sumOf]; ring
    · simp [sumOf, lastOf]; ring

/-! ## A cascade -/

/-- A cascade with the number of electrons taken from atoms and the charge given to hadrons by bosons; compare `Spec.Cascade`. -/
inductive Spec.Shower : List Part → ℤ → ℤ → List Part → Prop
  | done : Spec.Shower [] 0 0 []
  | keep (p : Part) (ps fs : List Part) (n w : ℤ) : Spec.Shower ps n w fs → Spec.Shower (p :: ps) n w (p :: fs)
  | run (p : Part) (partner : Daughter) (ps fs : List Part) (n w : ℤ) (q : Prop') (y : Entry) (is : List Spec.Interaction) :
      Track p partner q y is → y.type ≠ .decay → Spec.Shower (added is ++ ps) n w fs →
      Spec.Shower (p :: ps) (electronsOf is + n) (bosons p.type partner.type is + w) (remainder p y ++ fs)
  | decay (p : Part) (partner : Daughter) (ps fs : List Part) (n w : ℤ) (q : Prop') (y : Entry) (is : List Spec.Interaction)
      (table : List (ℝ × Channel)) (u : ℝ) (r : DecayRandoms) (products : List Part) :
      Track p partner q y is → y.type = .decay → Decaying p.type p.mass table → Parent p.mass (lastOf p y) →
      (∀ c, GoodRandoms c { r with rounds := [] }) →
      (∀ c, selectChannel table u = some c → ∀ x ∈ r.rounds, GoodRound c.daughters.length x) →
      getDecayProducts p.mass table (decayView ⟨p.type, p.mass⟩ q.track) [(u, r)] = .ok (some products) →
      Spec.Shower (added is ++ products ++ ps) n w fs →
      Spec.Shower (p :: ps) (electronsOf is + n) (bosons p.type partner.type is + w) fs

theorem decay_numbers {p : Part} {partner : Daughter} {q : Prop'} {y : Entry} {is : List Spec.Interaction}
    {table : List (ℝ × Channel)} {u : ℝ} {r : DecayRandoms} {products : List Part}
    (h : Track p partner q y is) (hd : y.type = .decay) (ht : Decaying p.type p.mass table) (hp : Parent p.mass (lastOf p y))
    (hr : ∀ c, GoodRandoms c { r with rounds := [] })
    (hr' : ∀ c, selectChannel table u = some c → ∀ x ∈ r.rounds, GoodRound c.daughters.length x)
    (hprod : getDecayProducts p.mass table (decayView ⟨p.type, p.mass⟩ q.track) [(u, r)] = .ok (some products)) :
    sumOf Spec.charge products = Spec.charge p.type ∧ sumOf Spec.leptonNumbers products = Spec.leptonNumbers p.type := by
  obtain ⟨a, pos, r1, r2, r3, r4⟩ := h.run
  have hshape := C15_track_shape a _ pos q r3 r1
  obtain ⟨l, hl⟩ := List.getLast?_eq_some_iff.1 h.last
  rw [hl] at hshape
  have hb := before_last l y hshape
  obtain ⟨res, e1, e2⟩ := C87_products_partial p.type p.mass table ht (decayView ⟨p.type, p.mass⟩ l) (by
    intro s hs
    unfold decayView at hs
    obtain ⟨e, he, rfl⟩ := List.mem_map.1 hs
    simpa using hb e he) (lastOf p y) hp u r hr hr'
  have : decayView ⟨p.type, p.mass⟩ q.track = decayView ⟨p.type, p.mass⟩ l ++ [(lastOf p y, true)] := by
    rw [hl]
    unfold decayView
    rw [List.map_append]
    simp [hd, lastOf]
  rw [this, e1] at hprod
  injection hprod with hprod
  exact (e2 products hprod).2

/-- C150: a cascade of any size conserves the electron, muon and tau number: the kept particles have the numbers of the first
particles and of the electrons taken from atoms. -/
theorem C150_shower_leptons (ps fs : List Part) (n w : ℤ) (h : Shower ps n w fs) :
    sumOf Spec.leptonNumbers fs = sumOf Spec.leptonNumbers ps + n • Spec.leptonNumbers 11 := by
  induction h with
  | done => simp [sumOf]
  | keep p ps fs n w _ ih => rw [sumOf_cons, sumOf_cons, ih]; abel
  | run p partner ps fs n w q y is ht hy _ ih =>
    have := (C150_track p partner q y is ht).1
    rw [sumOf_append] at this ih ⊢
    rw [ih, sumOf_cons, add_smul]
    have e : sumOf Spec.leptonNumbers (remainder p y) = Spec.leptonNumbers p.type + electronsOf is • Spec.leptonNumbers 11 -
        sumOf Spec.leptonNumbers (added is) := by rw [← this]; abel
    rw [e]
    abel
  | decay p partner ps fs n w q y is table u r products ht hy hd hp g1 g2 hprod _ ih =>
    have h1 := (C150_track p partner q y is ht).1
    have h2 := (decay_numbers ht hy hd hp g1 g2 hprod).2
    rw [sumOf_append] at h1
    have hrem : remainder p y = [lastOf p y] := by
      unfold Spec.remainder
      rw [if_neg]
      rw [hy]; decide
    rw [ih, sumOf_append, sumOf_append, h2, sumOf_cons, add_smul]
    rw [hrem] at h1
    have e : sumOf Spec.leptonNumbers (added is) = electronsOf is • Spec.leptonNumbers 11 := by
      have : sumOf Spec.leptonNumbers [lastOf p y] = Spec.leptonNumbers p.type := by simp [sumOf, lastOf]
      rw [this] at h1
      exact add_left_cancel h1
    rw [e]
    abel

/-- C150: a cascade of any size conserves the electric charge: the atoms give the electrons, and the hadrons of weak interactions take
the charge of the bosons. -/
theorem C150_shower_charge (ps fs : List Part) (n w : ℤ) (h : Shower ps n w fs) :
    sumOf Spec.charge fs + w = sumOf Spec.charge ps - n := by
  induction h with
  | done => simp [sumOf]
  | keep p ps fs n w _ ih => rw [sumOf_cons, sumOf_cons]; linarith
  | run p partner ps fs n w q y is ht hy _ ih =>
    have := (C150_track p partner q y is ht).2
    rw [sumOf_append] at this ih ⊢
    rw [sumOf_cons]
    linarith
  | decay p partner ps fs n w q y is table u r products ht hy hd hp g1 g2 hprod _ ih =>
    have h1 := (C150_track p partner q y is ht).2
    have h2 := (decay_numbers ht hy hd hp g1 g2 hprod).1
    have hrem : remainder p y = [lastOf p y] := by
      unfold Spec.remainder
      rw [if_neg]
      rw [hy]; decide
    have e : sumOf Spec.charge [lastOf p y] = Spec.charge p.type := by simp [sumOf, lastOf]
    rw [sumOf_append, hrem, e] at h1
    rw [sumOf_append, sumOf_append] at ih
    rw [sumOf_cons]
    linarith

/-! ## Examples -/

namespace ChargeExample

/-- The muon of `CascadeExample` with its hadrons: muon number and charge stay with the muon. -/
theorem track : Track CascadeExample.muon ⟨14, 0⟩ CascadeExample.after ⟨CascadeExample.last, .photonuclear, 0⟩ [CascadeExample.hit CascadeExample.last] where
  run := ⟨CascadeExample.args, 0, CascadeExample.reach, by norm_num [CascadeExample.args], by
    intro s hs E rnd
    simp only [CascadeExample.args, List.mem_singleton] at hs
    subst hs; simp [CascadeExample.sector], by
    intro s hs E rnd h
    simp only [CascadeExample.args, List.mem_singleton] at hs
    subst hs
    simp [CascadeExample.sector, absorbed] at h⟩
  last := CascadeExample.propagated.last
  losses := CascadeExample.propagated.losses
  calculated := ⟨⟨fun _ _ _ => 0, fun _ _ _ => 0, fun _ _ => 0, fun _ _ => 0, fun _ _ => 0⟩, [.photonuclear], by
    intro i hi
    rw [List.mem_singleton.1 hi]
    rfl⟩
  fits := by
    intro i hi
    rw [List.mem_singleton.1 hi]
    refine ⟨fun h => ?_, fun h => ?_, fun h => ?_⟩
    · revert h; simp [CascadeExample.hit]
    · simp [CascadeExample.hit] at h
    · simp [CascadeExample.hit] at h

example : ∃ fs, Shower [CascadeExample.muon] 0 0 fs ∧ fs.length = 2 ∧ sumOf Spec.charge fs = -1 ∧
    sumOf Spec.leptonNumbers fs = (0, 1, 0) := by
  have h := Shower.run CascadeExample.muon ⟨14, 0⟩ [] (added [CascadeExample.hit CascadeExample.last]) 0 0 _ _ _ track (by decide)
    (.keep _ [] [] 0 0 .done)
  have e1 : electronsOf [CascadeExample.hit CascadeExample.last] + 0 = 0 := rfl
  have e2 : bosons CascadeExample.muon.type 14 [CascadeExample.hit CascadeExample.last] + 0 = 0 := rfl
  rw [e1, e2] at h
  refine ⟨_, h, rfl, ?_, ?_⟩
  · have := C150_shower_charge _ _ _ _ h
    simpa [sumOf, CascadeExample.muon, Spec.charge] using this
  · have := C150_shower_leptons _ _ _ _ h
    simpa [sumOf, CascadeExample.muon, Spec.leptonNumbers] using this

/-- The weak partner of the muon is the muon neutrino; the hadrons get a negative boson. -/
example : Fits .weakInt 13 14 ∧ weakCharge .weakInt 13 14 = -1 :=
  ⟨⟨by decide, by decide, fun _ => ⟨by decide, defMuMinus, by simp [builtinDefs], rfl, rfl⟩⟩, rfl⟩

/-- A photon makes a pair of electrons. -/
example (o : SecSampling) (l : StochLoss) (Z : ℝ) (rnd : ℕ → ℝ) (hl : l.type = .photopair) : ∃ ps,
    lossSecondaries o sGamma sGamma [.photopair] l Z rnd = .ok (some ps) ∧ ps.map Part.type = [11, -11] := by
  obtain ⟨r, hr⟩ := C147_calculators o sGamma sGamma [.photopair] (by simp [absorbed]) l (by rw [hl]; simp) Z rnd
  cases r with
  | none =>
    exfalso
    obtain ⟨c, hc, h1, h2⟩ := loss_calculator hr
    simp only [defaultCalculators, List.mem_cons, List.not_mem_nil, or_false] at hc
    rw [hl] at h1
    rcases hc with rfl | rfl | rfl | rfl | rfl | rfl | rfl | rfl | rfl | rfl | rfl | rfl <;> simp at h1 h2
  | some ps =>
    refine ⟨ps, hr, ?_⟩
    have := C150_types o sGamma sGamma _ l Z rnd ps hr
    rw [hl] at this
    exact this

end ChargeExample

end Proposal
