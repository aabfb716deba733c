import Verif.Model.DecayTable
import Verif.Props.Decay
import Verif.Props.Leptonic
import Verif.Props.ManyBody

/-! C39, C40, C86, C87: decay tables, comparison of channels, built-in particles. -/

namespace Proposal

open Spec

/-! ## Selection -/

/-- The sum of the branching ratios. -/
noncomputable def Spec.ratioSum {α : Type} (t : List (ℝ × α)) : ℝ := (t.map Prod.fst).sum

theorem selectLoop_spec {α : Type} (rnd br : ℝ) (c : α) (post : List (ℝ × α)) : ∀ (pre : List (ℝ × α)) (acc : ℝ),
    (∀ p ∈ pre, 0 ≤ p.1) → acc + ratioSum pre ≤ rnd → rnd < acc + ratioSum pre + br →
    selectLoop rnd acc (pre ++ (br, c) :: post) = some c := by
  intro pre
  induction pre with
  | nil =>
    intro acc _ _ h
    simp only [ratioSum, List.map_nil, List.sum_nil, add_zero] at h
    simp only [List.nil_append, selectLoop]
    rw [if_pos h]
  | cons p pre ih =>
    intro acc hp h1 h2
    obtain ⟨b, d⟩ := p
    simp only [ratioSum, List.map_cons, List.sum_cons] at h1 h2
    have hs : 0 ≤ (pre.map Prod.fst).sum := by
      apply List.sum_nonneg
      intro x hx
      rw [List.mem_map] at hx
      obtain ⟨q, hq, rfl⟩ := hx
      exact hp q (List.mem_cons_of_mem _ hq)
    simp only [List.cons_append, selectLoop]
    rw [if_neg (by linarith)]
    apply ih (acc + b) (fun q hq => hp q (List.mem_cons_of_mem _ hq))
    · unfold ratioSum; linarith
    · unfold ratioSum; linarith

/-- C39: the channel whose interval of cumulated branching ratios contains the random number (times the sum of all
ratios) is selected. -/
theorem C39_select {α : Type} (pre post : List (ℝ × α)) (br u : ℝ) (c : α) (hp : ∀ p ∈ pre, 0 ≤ p.1)
    (h1 : ratioSum pre ≤ ratioSum (pre ++ (br, c) :: post) * u)
    (h2 : ratioSum (pre ++ (br, c) :: post) * u < ratioSum pre + br) :
    selectChannel (pre ++ (br, c) :: post) u = some c := by
  unfold selectChannel
  have := selectLoop_spec (ratioSum (pre ++ (br, c) :: post) * u) br c post pre 0 hp (by linarith) (by linarith)
  unfold ratioSum at this
  rw [this]

theorem split_at {α : Type} (x : ℝ) : ∀ (t : List (ℝ × α)) (acc : ℝ), acc ≤ x → x < acc + ratioSum t →
    ∃ pre br c post, t = pre ++ (br, c) :: post ∧ acc + ratioSum pre ≤ x ∧ x < acc + ratioSum pre + br := by
  intro t
  induction t with
  | nil => intro acc h1 h2; simp only [ratioSum, List.map_nil, List.sum_nil] at h2; linarith
  | cons p t ih =>
    intro acc h1 h2
    obtain ⟨b, c⟩ := p
    simp only [ratioSum, List.map_cons, List.sum_cons] at h2
    by_cases h : x < acc + b
    · exact ⟨[], b, c, t, rfl, by simpa [ratioSum] using h1, by simpa [ratioSum] using h⟩
    · obtain ⟨pre, br, d, post, g1, g2, g3⟩ := ih (acc + b) (by linarith) (by unfold ratioSum; linarith)
      refine ⟨(b, c) :: pre, br, d, post, by rw [g1]; rfl, ?_, ?_⟩
      · simp only [ratioSum, List.map_cons, List.sum_cons] at g2 ⊢; linarith
      · simp only [ratioSum, List.map_cons, List.sum_cons] at g3 ⊢; linarith

/-- C39: for every random number in [0,1) the interval exists, so that `C39_select` determines the channel, and its ratio
is positive. -/
theorem C39_complete {α : Type} (t : List (ℝ × α)) (u : ℝ) (hp : ∀ p ∈ t, 0 ≤ p.1) (hs : 0 < ratioSum t) (h0 : 0 ≤ u) (h1 : u < 1) :
    ∃ pre br c post, t = pre ++ (br, c) :: post ∧ ratioSum pre ≤ ratioSum t * u ∧ ratioSum t * u < ratioSum pre + br ∧
      0 < br ∧ selectChannel t u = some c := by
  obtain ⟨pre, br, c, post, g1, g2, g3⟩ := split_at (ratioSum t * u) t 0 (by positivity) (by nlinarith)
  refine ⟨pre, br, c, post, g1, by linarith, by linarith, by linarith, ?_⟩
  have hpre : ∀ p ∈ pre, 0 ≤ p.1 := fun p hp' => hp p (by rw [g1]; simp [hp'])
  have := C39_select pre post br u c hpre (by rw [← g1]; linarith) (by rw [← g1]; linarith)
  rwa [← g1] at this

/-- C39: every channel is selected for a share of the random numbers that is its ratio over the sum of all. -/
theorem C39_reachable {α : Type} (pre post : List (ℝ × α)) (br : ℝ) (c : α)
    (hp : ∀ p ∈ pre ++ (br, c) :: post, 0 ≤ p.1) (hs : 0 < ratioSum (pre ++ (br, c) :: post)) :
    ∃ a b, 0 ≤ a ∧ b ≤ 1 ∧ b - a = br / ratioSum (pre ++ (br, c) :: post) ∧
      ∀ u, a ≤ u → u < b → selectChannel (pre ++ (br, c) :: post) u = some c := by
  have hpre : 0 ≤ ratioSum pre := by
    apply List.sum_nonneg
    intro x hx
    rw [List.mem_map] at hx
    obtain ⟨q, hq, rfl⟩ := hx
    exact hp q (by simp [hq])
  have hpost : 0 ≤ ratioSum post := by
    apply List.sum_nonneg
    intro x hx
    rw [List.mem_map] at hx
    obtain ⟨q, hq, rfl⟩ := hx
    exact hp q (by simp [hq])
  have hsum : ratioSum (pre ++ (br, c) :: post) = ratioSum pre + br + ratioSum post := by
    simp only [ratioSum, List.map_append, List.sum_append, List.map_cons, List.sum_cons]; ring
  refine ⟨ratioSum pre / ratioSum (pre ++ (br, c) :: post), (ratioSum pre + br) / ratioSum (pre ++ (br, c) :: post),
    by positivity, ?_, by rw [← sub_div]; congr 1; ring, ?_⟩
  · rw [div_le_one hs]; linarith
  · intro u h1 h2
    rw [div_le_iff₀ hs] at h1
    rw [lt_div_iff₀ hs] at h2
    exact C39_select pre post br u c (fun p hp' => hp p (by simp [hp'])) (by linarith) (by linarith)

/-- Two channels. -/
example : selectChannel [(0.25, "a"), (0.5, "b")] 0.4 = some "b" ∧ selectChannel [(0.25, "a"), (0.5, "b")] 0.3 = some "a" := by
  constructor
  · apply C39_select [(0.25, "a")] [] <;> norm_num [ratioSum]
  · apply C39_select [] [(0.5, "b")] <;> norm_num [ratioSum]

/-! ## Insertion -/

theorem addChannel_mem {α : Type} (br : ℝ) (c : α) (t : List (ℝ × α)) (x : ℝ × α) (h : x ∈ addChannel br c t) :
    x = (br, c) ∨ x ∈ t := by
  induction t with
  | nil => simp only [addChannel, List.mem_singleton] at h; exact .inl h
  | cons p t ih =>
    obtain ⟨b, d⟩ := p
    simp only [addChannel] at h
    split_ifs at h with h1 h2
    · rcases List.mem_cons.1 h with h | h
      · exact .inl h
      · exact .inr h
    · rcases List.mem_cons.1 h with h | h
      · left; rw [h, h2]
      · exact .inr (List.mem_cons_of_mem _ h)
    · rcases List.mem_cons.1 h with h | h
      · right; rw [h]; exact List.mem_cons_self
      · rcases ih h with h | h
        · exact .inl h
        · exact .inr (List.mem_cons_of_mem _ h)

/-- The invariant of the map: keys in strictly increasing order. -/
def Spec.SortedTable {α : Type} (t : List (ℝ × α)) : Prop := t.Pairwise fun p q => p.1 < q.1

theorem addChannel_sorted {α : Type} (br : ℝ) (c : α) (t : List (ℝ × α)) (h : SortedTable t) : SortedTable (addChannel br c t) := by
  unfold SortedTable at *
  induction t with
  | nil => simp [addChannel]
  | cons p t ih =>
    obtain ⟨b, d⟩ := p
    rw [List.pairwise_cons] at h
    simp only [addChannel]
    split_ifs with h1 h2
    · rw [List.pairwise_cons, List.pairwise_cons]
      refine ⟨?_, h⟩
      intro q hq
      rcases List.mem_cons.1 hq with rfl | hq
      · exact h1
      · exact h1.trans (h.1 q hq)
    · rw [List.pairwise_cons]
      exact h
    · rw [List.pairwise_cons]
      refine ⟨?_, ih h.2⟩
      intro q hq
      rcases addChannel_mem br c t q hq with rfl | hq
      · exact lt_of_le_of_ne (not_lt.1 h1) (Ne.symm h2)
      · exact h.1 q hq

/-- C39: however the channels are added, they are tried in the order of increasing branching ratio. -/
theorem C39_order {α : Type} (cs : List (ℝ × α)) : SortedTable (addAll cs ([] : List (ℝ × α))) := by
  have : ∀ (cs t : List (ℝ × α)), SortedTable t → SortedTable (addAll cs t) := by
    intro cs
    induction cs with
    | nil => intro t h; exact h
    | cons p cs ih => intro t h; exact ih _ (addChannel_sorted p.1 p.2 t h)
  exact this cs [] List.Pairwise.nil

/-- C40: a new channel is in the table, and the others with a different branching ratio still are. Missing: a channel
with the same branching ratio, see `C40_replaced`. -/
theorem C40_add_partial {α : Type} (br : ℝ) (c : α) (t : List (ℝ × α)) :
    (br, c) ∈ addChannel br c t ∧ ∀ p ∈ t, p.1 ≠ br → p ∈ addChannel br c t := by
  induction t with
  | nil => simp [addChannel]
  | cons p t ih =>
    obtain ⟨b, d⟩ := p
    simp only [addChannel]
    split_ifs with h1 h2
    · exact ⟨List.mem_cons_self, fun q hq _ => List.mem_cons_of_mem _ hq⟩
    · subst h2
      refine ⟨List.mem_cons_self, ?_⟩
      intro q hq hne
      rcases List.mem_cons.1 hq with rfl | hq
      · exact absurd rfl hne
      · exact List.mem_cons_of_mem _ hq
    · refine ⟨List.mem_cons_of_mem _ ih.1, ?_⟩
      intro q hq hne
      rcases List.mem_cons.1 hq with rfl | hq
      · exact List.mem_cons_self
      · exact List.mem_cons_of_mem _ (ih.2 q hq hne)

theorem addAll_keep {α : Type} (cs : List (ℝ × α)) : ∀ t : List (ℝ × α), (cs.map Prod.fst).Nodup →
    (∀ p ∈ cs, p ∈ addAll cs t) ∧ ∀ p ∈ t, p.1 ∉ cs.map Prod.fst → p ∈ addAll cs t := by
  induction cs with
  | nil => intro t _; exact ⟨by simp, fun p hp _ => hp⟩
  | cons c cs ih =>
    intro t hn
    rw [List.map_cons, List.nodup_cons] at hn
    obtain ⟨i1, i2⟩ := ih (addChannel c.1 c.2 t) hn.2
    obtain ⟨j1, j2⟩ := C40_add_partial c.1 c.2 t
    refine ⟨?_, ?_⟩
    · intro p hp
      rcases List.mem_cons.1 hp with rfl | hp
      · exact i2 p j1 hn.1
      · exact i1 p hp
    · intro p hp hne
      rw [List.map_cons, List.mem_cons, not_or] at hne
      exact i2 p (j2 p hp hne.1) hne.2

/-- C40: channels with pairwise different branching ratios are all in the table. -/
theorem C40_all_partial {α : Type} (cs : List (ℝ × α)) (h : (cs.map Prod.fst).Nodup) : ∀ p ∈ cs, p ∈ addAll cs [] :=
  (addAll_keep cs [] h).1

/-- C40 fails: of two channels with the same branching ratio only the later one is in the table, and it is always
selected. -/
theorem C40_replaced {α : Type} (br u : ℝ) (c d : α) (hb : 0 < br) (h0 : 0 ≤ u) (h1 : u < 1) :
    addAll [(br, c), (br, d)] [] = [(br, d)] ∧ selectChannel (addAll [(br, c), (br, d)] []) u = some d := by
  have e : addAll [(br, c), (br, d)] [] = [(br, d)] := by
    simp [addAll, addChannel]
  refine ⟨e, ?_⟩
  rw [e]
  apply C39_select [] [] br u d (by simp)
  · simp [ratioSum]; positivity
  · simp [ratioSum]; nlinarith

/-- C39: after `SetStable` the stable channel is always selected. Missing: a channel added afterwards, see
`C39_stable_lost`. -/
theorem C39_stable_partial {α : Type} (stable : α) (u : ℝ) (h0 : 0 ≤ u) (h1 : u < 1) : selectChannel (setStable stable) u = some stable := by
  unfold setStable addChannel
  apply C39_select [] [] 1.1 u stable (by simp)
  · simp [ratioSum]; positivity
  · simp [ratioSum]; nlinarith

/-- C39 fails: the stable channel is not always selected any more if another channel is added to the table of a
stable particle, although its documentation says so. -/
theorem C39_stable_lost {α : Type} (stable c : α) : selectChannel (addChannel 1 c (setStable stable)) 0 = some c := by
  have e : addChannel 1 c (setStable stable) = [(1, c), (1.1, stable)] := by
    unfold setStable; simp only [addChannel]; rw [if_pos (by norm_num)]
  rw [e]
  apply C39_select [] [(1.1, stable)] 1 0 c (by simp)
  · simp [ratioSum]
  · simp [ratioSum]

/-- C39 fails: an empty table, as `ParticleDef::Builder` makes it by default, has nothing to select. -/
theorem C39_empty {α : Type} (u : ℝ) : selectChannel ([] : List (ℝ × α)) u = none := by
  simp [selectChannel, selectLoop]

theorem selectChannel_mem {α : Type} (t : List (ℝ × α)) (u : ℝ) (c : α) (h : selectChannel t u = some c) : ∃ br, (br, c) ∈ t := by
  have loop : ∀ (t : List (ℝ × α)) (x acc : ℝ), selectLoop x acc t = some c → ∃ br, (br, c) ∈ t := by
    intro t
    induction t with
    | nil => intro x acc h; simp [selectLoop] at h
    | cons p t ih =>
      intro x acc h
      obtain ⟨b, d⟩ := p
      simp only [selectLoop] at h
      split_ifs at h
      · injection h with h; subst h; exact ⟨b, List.mem_cons_self⟩
      · obtain ⟨br, hb⟩ := ih _ _ h
        exact ⟨br, List.mem_cons_of_mem _ hb⟩
  unfold selectChannel at h
  cases hs : selectLoop ((t.map Prod.fst).sum * u) 0 t with
  | some d => rw [hs] at h; injection h with h; subst h; exact loop t _ _ hs
  | none =>
    rw [hs] at h
    cases t with
    | nil => simp at h
    | cons p t =>
      simp only [List.head?_cons, Option.map_some, Option.some.injEq] at h
      exact ⟨p.1, by rw [← h]; exact List.mem_cons_self⟩

/-! ## Comparison of channels -/

/-- C86: equal two-body channels decay equally, and a channel equals itself. Missing: leptonic and many body channels. -/
theorem C86_equal_partial (d1 d2 e1 e2 : Daughter) (c : Channel) (h : (Channel.twoBody d1 d2).equal (.twoBody e1 e2) = true) :
    (∀ M parent r, (Channel.twoBody d1 d2).decay M parent r = (Channel.twoBody e1 e2).decay M parent r) ∧ c.equal c = true := by
  constructor
  · simp only [Channel.equal, Bool.and_eq_true, decide_eq_true_eq] at h
    rw [h.1, h.2]
    exact fun _ _ _ => rfl
  · cases c <;> simp [Channel.equal]

/-- C86: equal leptonic channels of the same class decay equally, stable channels too, and channels of different kinds are never
equal. Missing: the two leptonic classes compare equal, and many body channels. -/
theorem C86_kinds_partial (e : Bool) (l n1 n2 l' n1' n2' : Daughter)
    (h : (Channel.leptonic e l n1 n2).equal (.leptonic e l' n1' n2') = true) (c c' : Channel) (hc : c.equal c' = true) :
    (∀ M parent r, (Channel.leptonic e l n1 n2).decay M parent r = (Channel.leptonic e l' n1' n2').decay M parent r) ∧
    (c.daughters.map Daughter.mass = c'.daughters.map Daughter.mass) ∧ c'.equal c = true := by
  refine ⟨?_, ?_, ?_⟩
  · simp only [Channel.equal, Bool.and_eq_true, decide_eq_true_eq] at h
    obtain ⟨⟨rfl, rfl⟩, rfl⟩ := h
    exact fun _ _ _ => rfl
  · cases c <;> cases c' <;> simp_all [Channel.equal, Channel.daughters]
  · cases c <;> cases c' <;> simp_all [Channel.equal]

/-- C86 fails: a leptonic channel with the exact spectrum and one with the approximation are equal, although at the
smallest energy of the lepton the first density vanishes and the second does not. -/
theorem C86_leptonic (l n1 n2 : Daughter) (M : ℝ) (hl : 0 < l.mass) (hM : l.mass < M) :
    (Channel.leptonic true l n1 n2).equal (.leptonic false l n1 n2) = true ∧
    differentialDecayRate true l.mass M (leptonEmax M l.mass) (l.mass / leptonEmax M l.mass) = 0 ∧
    differentialDecayRate false l.mass M (leptonEmax M l.mass) (l.mass / leptonEmax M l.mass) ≠ 0 := by
  obtain ⟨e0, e1, e2⟩ := emax_facts M l.mass hl.le hM
  refine ⟨by simp [Channel.equal], ?_, ?_⟩
  · unfold differentialDecayRate
    rw [if_pos rfl]
    simp only [mul_div_cancel₀ _ e0.ne', sub_self, Real.sqrt_zero, mul_zero, zero_mul]
  · have h1 : 0 < l.mass / leptonEmax M l.mass := by positivity
    have h2 : l.mass / leptonEmax M l.mass < 1 := (div_lt_one e0).2 e1
    unfold differentialDecayRate
    simp only [Bool.false_eq_true, if_false]
    have : 0 < 3 - 2 * (l.mass / leptonEmax M l.mass) := by linarith
    positivity

/-- C86 fails: the channels of the negative and of the positive tau into two pions are equal, although they never have
the same products. -/
theorem C86_many_body :
    (builtChannel MTAU [dPiMinus, dPi0, dNuTau]).equal (builtChannel MTAU [dPiPlus, dPi0, dNuTauBar]) = true ∧
    ∀ (parent : Part) (r r' : DecayRandoms) (ps ps' : List Part), Parent MTAU parent → (∀ x ∈ r.rounds, GoodRound 3 x) →
      (∀ x ∈ r'.rounds, GoodRound 3 x) →
      (builtChannel MTAU [dPiMinus, dPi0, dNuTau]).decay MTAU parent r = .ok (some ps) →
      (builtChannel MTAU [dPiPlus, dPi0, dNuTauBar]).decay MTAU parent r' = .ok (some ps') → ps ≠ ps' := by
  constructor
  · simp [builtChannel, Channel.equal, dPiMinus, dPiPlus, dPi0, dNuTau, dNuTauBar]
  · intro parent r r' ps ps' hp hr hr' h h' heq
    simp only [builtChannel, Channel.decay, Except.ok.injEq] at h h'
    have a := (C84_many_body_partial MTAU _ _ _ parent _ ps hp hr
      (by
        intro d hd
        simp only [List.mem_cons, List.not_mem_nil, or_false] at hd
        rcases hd with rfl | rfl | rfl <;> norm_num [dPiMinus, dPi0, dNuTau, MPI, MPI0])
      (by norm_num [dPiMinus, dPi0, dNuTau, MPI, MPI0, MTAU]) h).2
    have b := (C84_many_body_partial MTAU _ _ _ parent _ ps' hp hr'
      (by
        intro d hd
        simp only [List.mem_cons, List.not_mem_nil, or_false] at hd
        rcases hd with rfl | rfl | rfl <;> norm_num [dPiPlus, dPi0, dNuTauBar, MPI, MPI0])
      (by norm_num [dPiPlus, dPi0, dNuTauBar, MPI, MPI0, MTAU]) h').2
    subst heq
    unfold AreDaughters at a b
    cases a with
    | cons a1 a2 => cases b with
      | cons b1 b2 =>
        have := a1.1.symm.trans b1.1
        norm_num [dPiMinus, dPiPlus] at this

/-! ## Built-in particles -/

/-- Electric charge for particle codes of the Particle Data Group. -/
def Spec.charge : ℤ → ℤ
  | 11 | 13 | 15 | -211 | -321 => -1
  | -11 | -13 | -15 | 211 | 321 => 1
  | _ => 0

/-- Electron, muon and tau number. -/
def Spec.leptonNumbers : ℤ → ℤ × ℤ × ℤ
  | 11 | 12 => (1, 0, 0)
  | -11 | -12 => (-1, 0, 0)
  | 13 | 14 => (0, 1, 0)
  | -13 | -14 => (0, -1, 0)
  | 15 | 16 => (0, 0, 1)
  | -15 | -16 => (0, 0, -1)
  | _ => (0, 0, 0)

/-- A channel that conserves the charges and has enough energy. -/
structure Spec.Allowed (M : ℝ) (type : ℤ) (ds : List Daughter) : Prop where
  charge : (ds.map fun d => Spec.charge d.type).sum = Spec.charge type
  leptons : (ds.map fun d => Spec.leptonNumbers d.type).sum = Spec.leptonNumbers type
  mass : (ds.map Daughter.mass).sum < M
  nonneg : ∀ d ∈ ds, 0 ≤ d.mass

/-- The built-in particles whose tables contain decays: type, mass and table. -/
inductive Spec.Decaying : ℤ → ℝ → List (ℝ × Channel) → Prop
  | muMinus : Spec.Decaying 13 MMU tableMuMinus
  | muPlus : Spec.Decaying (-13) MMU tableMuPlus
  | tauMinus : Spec.Decaying 15 MTAU tableTauMinus
  | tauPlus : Spec.Decaying (-15) MTAU tableTauPlus

theorem addAll_mem {α : Type} (cs : List (ℝ × α)) : ∀ (t : List (ℝ × α)) (x : ℝ × α), x ∈ addAll cs t → x ∈ cs ∨ x ∈ t := by
  induction cs with
  | nil => intro t x h; exact .inr h
  | cons c cs ih =>
    intro t x h
    rcases ih (addChannel c.1 c.2 t) x h with h | h
    · exact .inl (List.mem_cons_of_mem _ h)
    · rcases addChannel_mem c.1 c.2 t x h with h | h
      · left; rw [h]; exact List.mem_cons_self
      · exact .inr h

theorem builtin_channel (type : ℤ) (M : ℝ) (t : List (ℝ × Channel)) (h : Decaying type M t) (br : ℝ) (c : Channel) (hc : (br, c) ∈ t) :
    Allowed M type c.daughters ∧ 0 < br ∧
    ((∃ d1 d2, c = .twoBody d1 d2) ∨ (∃ e l n1 n2, c = .leptonic e l n1 n2 ∧ l.mass < M ∧ 2 * l.mass ≤ leptonEmax M l.mass ∧
      n1.mass = 0 ∧ n2.mass = 0) ∨ ∃ ds w, c = .manyBody ds true 1000 false w ∧ 3 ≤ ds.length) := by
  have hc' : (type = 13 ∧ M = MMU ∧ (br, c) = (1, Channel.leptonic false dEMinus dNuMu dNuEBar)) ∨
      (type = -13 ∧ M = MMU ∧ (br, c) = (1, Channel.leptonic false dEPlus dNuMuBar dNuE)) ∨
      (type = 15 ∧ M = MTAU ∧ (br, c) ∈ channelsTauMinus) ∨ (type = -15 ∧ M = MTAU ∧ (br, c) ∈ channelsTauPlus) := by
    cases h with
    | muMinus => left; simpa [tableMuMinus, addChannel] using hc
    | muPlus => right; left; simpa [tableMuPlus, addChannel] using hc
    | tauMinus =>
      right; right; left
      rcases addAll_mem _ _ _ hc with h | h
      · exact ⟨rfl, rfl, h⟩
      · simp at h
    | tauPlus =>
      right; right; right
      rcases addAll_mem _ _ _ hc with h | h
      · exact ⟨rfl, rfl, h⟩
      · simp at h
  clear h hc
  rcases hc' with ⟨rfl, rfl, h⟩ | ⟨rfl, rfl, h⟩ | ⟨rfl, rfl, h⟩ | ⟨rfl, rfl, h⟩
  · obtain ⟨rfl, rfl⟩ := Prod.mk.inj h
    refine ⟨⟨?_, ?_, ?_, ?_⟩, by norm_num, ?_⟩
    · simp [Channel.daughters, dEMinus, dNuMu, dNuEBar, Spec.charge]
    · simp [Channel.daughters, dEMinus, dNuMu, dNuEBar, Spec.leptonNumbers]
    · norm_num [Channel.daughters, dEMinus, dNuMu, dNuEBar, ME, MMU]
    · norm_num [Channel.daughters, dEMinus, dNuMu, dNuEBar, ME]
    · right; left
      exact ⟨_, _, _, _, rfl, by norm_num [dEMinus, ME, MMU], by norm_num [dEMinus, leptonEmax, ME, MMU], rfl, rfl⟩
  · obtain ⟨rfl, rfl⟩ := Prod.mk.inj h
    refine ⟨⟨?_, ?_, ?_, ?_⟩, by norm_num, ?_⟩
    · simp [Channel.daughters, dEPlus, dNuMuBar, dNuE, Spec.charge]
    · simp [Channel.daughters, dEPlus, dNuMuBar, dNuE, Spec.leptonNumbers]
    · norm_num [Channel.daughters, dEPlus, dNuMuBar, dNuE, ME, MMU]
    · norm_num [Channel.daughters, dEPlus, dNuMuBar, dNuE, ME]
    · right; left
      exact ⟨_, _, _, _, rfl, by norm_num [dEPlus, ME, MMU], by norm_num [dEPlus, leptonEmax, ME, MMU], rfl, rfl⟩
  · simp only [channelsTauMinus, List.mem_cons, List.not_mem_nil, or_false, Prod.mk.injEq] at h
    rcases h with ⟨rfl, rfl⟩ | ⟨rfl, rfl⟩ | ⟨rfl, rfl⟩ | ⟨rfl, rfl⟩ | ⟨rfl, rfl⟩ | ⟨rfl, rfl⟩ | ⟨rfl, rfl⟩ | ⟨rfl, rfl⟩ |
      ⟨rfl, rfl⟩ | ⟨rfl, rfl⟩
    all_goals
      refine ⟨⟨?_, ?_, ?_, ?_⟩, by norm_num, ?_⟩
      · simp [Channel.daughters, builtChannel, dEMinus, dMuMinus, dNuTau, dNuEBar, dNuMuBar, dPiMinus, dPiPlus, dPi0, dK0, dKMinus, Spec.charge]
      · simp [Channel.daughters, builtChannel, dEMinus, dMuMinus, dNuTau, dNuEBar, dNuMuBar, dPiMinus, dPiPlus, dPi0, dK0, dKMinus, Spec.leptonNumbers]
      · norm_num [Channel.daughters, builtChannel, dEMinus, dMuMinus, dNuTau, dNuEBar, dNuMuBar, dPiMinus, dPiPlus, dPi0, dK0, dKMinus, MTAU, ME, MMU, MPI, MPI0, MKAON]
      · norm_num [Channel.daughters, builtChannel, dEMinus, dMuMinus, dNuTau, dNuEBar, dNuMuBar, dPiMinus, dPiPlus, dPi0, dK0, dKMinus, ME, MMU, MPI, MPI0, MKAON]
      · first
          | exact .inl ⟨_, _, rfl⟩
          | exact .inr (.inl ⟨_, _, _, _, rfl, by norm_num [dEMinus, dMuMinus, ME, MMU, MTAU],
              by norm_num [dEMinus, dMuMinus, leptonEmax, ME, MMU, MTAU], rfl, rfl⟩)
          | exact .inr (.inr ⟨_, _, rfl, by simp⟩)
  · simp only [channelsTauPlus, List.mem_cons, List.not_mem_nil, or_false, Prod.mk.injEq] at h
    rcases h with ⟨rfl, rfl⟩ | ⟨rfl, rfl⟩ | ⟨rfl, rfl⟩ | ⟨rfl, rfl⟩ | ⟨rfl, rfl⟩ | ⟨rfl, rfl⟩ | ⟨rfl, rfl⟩ | ⟨rfl, rfl⟩ |
      ⟨rfl, rfl⟩ | ⟨rfl, rfl⟩
    all_goals
      refine ⟨⟨?_, ?_, ?_, ?_⟩, by norm_num, ?_⟩
      · simp [Channel.daughters, builtChannel, dEPlus, dMuPlus, dNuTauBar, dNuE, dNuMu, dPiMinus, dPiPlus, dPi0, dK0, dKPlus, Spec.charge]
      · simp [Channel.daughters, builtChannel, dEPlus, dMuPlus, dNuTauBar, dNuE, dNuMu, dPiMinus, dPiPlus, dPi0, dK0, dKPlus, Spec.leptonNumbers]
      · norm_num [Channel.daughters, builtChannel, dEPlus, dMuPlus, dNuTauBar, dNuE, dNuMu, dPiMinus, dPiPlus, dPi0, dK0, dKPlus, MTAU, ME, MMU, MPI, MPI0, MKAON]
      · norm_num [Channel.daughters, builtChannel, dEPlus, dMuPlus, dNuTauBar, dNuE, dNuMu, dPiMinus, dPiPlus, dPi0, dK0, dKPlus, ME, MMU, MPI, MPI0, MKAON]
      · first
          | exact .inl ⟨_, _, rfl⟩
          | exact .inr (.inl ⟨_, _, _, _, rfl, by norm_num [dEPlus, dMuPlus, ME, MMU, MTAU],
              by norm_num [dEPlus, dMuPlus, leptonEmax, ME, MMU, MTAU], rfl, rfl⟩)
          | exact .inr (.inr ⟨_, _, rfl, by simp⟩)

/-- C87: all channels of the muons and taus conserve charge and lepton numbers and are open, with positive ratios. -/
theorem C87_allowed (type : ℤ) (M : ℝ) (t : List (ℝ × Channel)) (h : Decaying type M t) (br : ℝ) (c : Channel) (hc : (br, c) ∈ t) :
    Allowed M type c.daughters ∧ 0 < br :=
  ⟨(builtin_channel type M t h br c hc).1, (builtin_channel type M t h br c hc).2.1⟩

/-- C87: none of the channels of the muons and taus is lost by an equal branching ratio. -/
theorem C87_no_channel_lost : tableMuMinus.length = 1 ∧ tableMuPlus.length = 1 ∧ (∀ p ∈ channelsTauMinus, p ∈ tableTauMinus) ∧
    ∀ p ∈ channelsTauPlus, p ∈ tableTauPlus := by
  refine ⟨rfl, rfl, C40_all_partial _ ?_, C40_all_partial _ ?_⟩
  · norm_num [channelsTauMinus]
  · norm_num [channelsTauPlus]

/-- The random numbers of a decay are in range. -/
structure Spec.GoodRandoms (c : Channel) (r : DecayRandoms) : Prop where
  two : 0 ≤ r.two.2 ∧ r.two.2 ≤ 1
  u : 0 ≤ r.u ∧ r.u ≤ 1
  ul : 0 ≤ r.ul.2 ∧ r.ul.2 ≤ 1
  un : 0 ≤ r.un.2 ∧ r.un.2 ≤ 1
  rounds : ∀ x ∈ r.rounds, GoodRound c.daughters.length x

theorem builtin_decay (type : ℤ) (M : ℝ) (t : List (ℝ × Channel)) (h : Decaying type M t) (br : ℝ) (c : Channel) (hc : (br, c) ∈ t)
    (parent : Part) (hp : Parent M parent) (r : DecayRandoms) (hr : GoodRandoms c r) :
    ∃ res, c.decay M parent r = .ok res ∧ ∀ ps, res = some ps → Conserves M parent ps ∧ AreDaughters c.daughters parent ps := by
  obtain ⟨a, -, b⟩ := builtin_channel type M t h br c hc
  rcases b with ⟨d1, d2, rfl⟩ | ⟨e, l, n1, n2, rfl, b1, b2, b3, b4⟩ | ⟨ds, w, rfl, b⟩
  · refine ⟨_, rfl, ?_⟩
    have hm := a.mass
    simp only [Channel.daughters, List.map_cons, List.map_nil, List.sum_cons, List.sum_nil] at hm
    exact (C36_two_body_partial M d1 d2 parent r.two hp (a.nonneg d1 (by simp [Channel.daughters]))
      (a.nonneg d2 (by simp [Channel.daughters])) (by linarith) hr.two.1 hr.two.2).1
  · obtain ⟨res, e1, e2, -⟩ := C82_leptonic_partial e M l n1 n2 parent r.u r.ul r.un hp (a.nonneg l (by simp [Channel.daughters])) b1
      b3 b4 hr.u.1 hr.u.2 hr.ul.1 hr.ul.2 hr.un.1 hr.un.2
    exact ⟨res, e1, e2⟩
  · refine ⟨_, rfl, ?_⟩
    intro ps hps
    exact C84_many_body_partial M ds true w parent r.rounds ps hp hr.rounds a.nonneg a.mass.le hps

theorem areDaughters_sum {β : Type} [AddCommMonoid β] (f : ℤ → β) (ds : List Daughter) (parent : Part) (ps : List Part)
    (h : AreDaughters ds parent ps) : (ps.map fun p => f p.type).sum = (ds.map fun d => f d.type).sum := by
  unfold AreDaughters at h
  induction h with
  | nil => rfl
  | cons h1 _ ih => simp only [List.map_cons, List.sum_cons, ih, h1.1]

theorem getDecayProducts_skip (M : ℝ) (table : List (ℝ × Channel)) (states t : List (Part × Bool)) (rs : List (ℝ × DecayRandoms))
    (h : ∀ s ∈ states, s.2 = false) : getDecayProducts M table (states ++ t) rs = getDecayProducts M table t rs := by
  induction states with
  | nil => rfl
  | cons s states ih =>
    obtain ⟨p, b⟩ := s
    have : b = false := h _ List.mem_cons_self
    subst this
    rw [List.cons_append, getDecayProducts]
    exact ih fun s hs => h s (List.mem_cons_of_mem _ hs)

/-- C87: without a decay in the track there are no products, and no random numbers are needed. -/
theorem C87_no_decay (M : ℝ) (table : List (ℝ × Channel)) (track : List (Part × Bool)) (h : ∀ s ∈ track, s.2 = false) :
    getDecayProducts M table track [] = .ok (some []) := by
  have := getDecayProducts_skip M table track [] [] h
  rw [List.append_nil] at this
  rw [this, getDecayProducts]

/-- C87: the products of the decay of a muon or tau at the end of a track carry its energy, momentum, charge and lepton
numbers; no exception is thrown. Missing: the cases in which the products contain NaN. -/
theorem C87_products_partial (type : ℤ) (M : ℝ) (t : List (ℝ × Channel)) (h : Decaying type M t) (states : List (Part × Bool))
    (hstates : ∀ s ∈ states, s.2 = false) (p : Part) (hp : Parent M p) (u : ℝ) (r : DecayRandoms) (hr : ∀ c, GoodRandoms c { r with rounds := [] })
    (hr' : ∀ c, selectChannel t u = some c → ∀ x ∈ r.rounds, GoodRound c.daughters.length x) :
    ∃ res, getDecayProducts M t (states ++ [(p, true)]) [(u, r)] = .ok res ∧ ∀ ps, res = some ps → Conserves M p ps ∧
      (ps.map fun q => Spec.charge q.type).sum = Spec.charge type ∧
      (ps.map fun q => Spec.leptonNumbers q.type).sum = Spec.leptonNumbers type := by
  rw [getDecayProducts_skip _ _ _ _ _ hstates, getDecayProducts]
  cases hs : selectChannel t u with
  | none => exact ⟨none, rfl, by simp⟩
  | some c =>
    obtain ⟨br, hc⟩ := selectChannel_mem t u c hs
    have hg := hr c
    obtain ⟨res, e1, e2⟩ := builtin_decay type M t h br c hc p hp r ⟨hg.two, hg.u, hg.ul, hg.un, hr' c hs⟩
    simp only [e1, getDecayProducts]
    cases res with
    | none => exact ⟨none, rfl, by simp⟩
    | some ps =>
      refine ⟨_, rfl, ?_⟩
      intro qs hqs
      injection hqs with hqs
      rw [List.append_nil] at hqs
      subst hqs
      obtain ⟨f1, f2⟩ := e2 ps rfl
      obtain ⟨a, -⟩ := builtin_channel type M t h br c hc
      exact ⟨f1, by rw [areDaughters_sum Spec.charge _ _ _ f2, a.charge], by rw [areDaughters_sum Spec.leptonNumbers _ _ _ f2, a.leptons]⟩

/-- C87 fails for pions and kaons: they have a finite lifetime and decay in a track, but without products, so that their
energy is lost. -/
theorem C87_mesons (M : ℝ) (p : Part) (u : ℝ) (r : DecayRandoms) (h0 : 0 ≤ u) (h1 : u < 1) (hp : Parent M p) :
    getDecayProducts M tableMeson [(p, true)] [(u, r)] = .ok (some []) ∧ ¬ Conserves M p [] := by
  constructor
  · have : selectChannel tableMeson u = some .stable := C39_stable_partial Channel.stable u h0 h1
    simp only [getDecayProducts, this, Channel.decay, List.append_nil]
  · intro h
    have h2 := h.energy
    have := hp.mass_pos
    have := hp.energy_ge
    simp at h2
    linarith

/-- A muon at rest. -/
example : ∃ res, getDecayProducts MMU tableMuMinus
    [(⟨13, MMU, ⟨0, 0, 0⟩, ⟨0, 0, 1⟩, MMU, 0, 0⟩, true)] [(0.5, ⟨(0, 0), 0.5, (0.1, 0.2), (0.3, 0.4), []⟩)] = .ok res := by
  obtain ⟨res, h, -⟩ := C87_products_partial 13 MMU tableMuMinus .muMinus [] (by simp) ⟨13, MMU, ⟨0, 0, 0⟩, ⟨0, 0, 1⟩, MMU, 0, 0⟩
    ⟨by norm_num [MMU], le_rfl, by simp [UnitVec]⟩ 0.5 ⟨(0, 0), 0.5, (0.1, 0.2), (0.3, 0.4), []⟩
    (fun c => ⟨by norm_num, by norm_num, by norm_num, by norm_num, by simp⟩) (by simp)
  exact ⟨res, h⟩

end Proposal
