import Verif.Model.Decay
import Verif.Model.Kinematics

/-!
# Decay tables, channels and the built-in particles

`/repo/src/PROPOSAL/detail/PROPOSAL/decay/DecayTable.cxx`, the functions `compare` and `Decay` of the channels,
`/repo/src/PROPOSAL/detail/PROPOSAL/particle/ParticleDef.cxx` (tables of the built-in particles) and
`Secondaries::GetDecayProducts` (Secondaries.cxx 52-71). The `std::map<double, DecayChannel*>` is a list of pairs sorted by
the key. Clones of channels are equal to the original (the value of a channel never changes, except for the flag
`uniform_`). Log messages are left out.
-/

namespace Proposal

open Classical in
/-- `channels_[Br] = channel` for a `std::map` (DecayTable.cxx 143-147): the channel of an equal key is replaced. -/
noncomputable def addChannel {α : Type} (br : ℝ) (c : α) : List (ℝ × α) → List (ℝ × α)
  | [] => [(br, c)]
  | (b, d) :: t => if br < b then (br, c) :: (b, d) :: t else if br = b then (b, c) :: t else (b, d) :: addChannel br c t

/-- `SetStable` (DecayTable.cxx 133-140). -/
noncomputable def setStable {α : Type} (stable : α) : List (ℝ × α) := addChannel 1.1 stable []

open Classical in
/-- The second loop of `SelectChannel` (DecayTable.cxx 118-126). -/
noncomputable def selectLoop {α : Type} (rnd : ℝ) : (acc : ℝ) → List (ℝ × α) → Option α
  | _, [] => none
  | acc, (b, c) :: t => if rnd < acc + b then some c else selectLoop rnd (acc + b) t

/-- `SelectChannel` (DecayTable.cxx 108-130). `none` stands for dereferencing `begin()` of an empty map. -/
noncomputable def selectChannel {α : Type} (t : List (ℝ × α)) (rnd : ℝ) : Option α :=
  match selectLoop ((t.map Prod.fst).sum * rnd) 0 t with
  | some c => some c
  | none => t.head?.map Prod.snd

/-- The decay channels. The matrix element of a many body channel is given by the weights; `element` tells whether it
is one of the user. -/
inductive Channel where
  | stable
  | twoBody (d1 d2 : Daughter)
  | leptonic (exact : Bool) (l n1 n2 : Daughter)
  | manyBody (ds : List Daughter) (uniform : Bool) (statistic : ℕ) (element : Bool) (w : Weights)

/-- The daughters of a channel. -/
def Channel.daughters : Channel → List Daughter
  | .stable => []
  | .twoBody d1 d2 => [d1, d2]
  | .leptonic _ l n1 n2 => [l, n1, n2]
  | .manyBody ds _ _ _ _ => ds

open Classical in
/-- `compare`: StableChannel.cxx 21-29, TwoBodyPhaseSpace.cxx 26-38, LeptonicDecayChannel.cxx 51-65 and ManyBodyPhaseSpace.cxx
74-103. `LeptonicDecayChannel` is derived from `LeptonicDecayChannelApprox` and does not override `compare`, whose
`dynamic_cast` accepts both. -/
noncomputable def Channel.equal : Channel → Channel → Bool
  | .stable, .stable => true
  | .twoBody d1 d2, .twoBody e1 e2 => decide (d1 = e1) && decide (d2 = e2)
  | .leptonic _ l n1 n2, .leptonic _ l' n1' n2' => decide (l = l') && decide (n1 = n1') && decide (n2 = n2')
  | .manyBody ds u s m _, .manyBody ds' u' s' m' _ =>
    decide (ds.length = ds'.length) && decide (ds.map Daughter.mass = ds'.map Daughter.mass) && decide (u = u') &&
      decide (s = s') && decide (m = m')
  | _, _ => false

/-- The random numbers that a channel may use. -/
structure DecayRandoms where
  two : ℝ × ℝ
  u : ℝ
  ul : ℝ × ℝ
  un : ℝ × ℝ
  rounds : List Round

/-- The `Decay` of the channels; StableChannel.cxx 31-36 for stable particles. -/
noncomputable def Channel.decay (M : ℝ) (parent : Part) (r : DecayRandoms) : Channel → Except MathErr (Option (List Part))
  | .stable => .ok (some [])
  | .twoBody d1 d2 => .ok (twoBodyDecay M d1 d2 parent r.two)
  | .leptonic e l n1 n2 => leptonicDecay e M l n1 n2 parent r.u r.ul r.un
  | .manyBody ds uniform _ _ w => .ok (manyBodyDecay M ds uniform w parent r.rounds)

/-! ## Built-in particles -/

/-- Pion 0 mass (Constants.cxx 73). -/
noncomputable def MPI0 : ℝ := 134.9766
/-- Charged kaon mass (Constants.cxx 77). -/
noncomputable def MKAON : ℝ := 493.677

noncomputable def dEMinus : Daughter := ⟨11, ME⟩
noncomputable def dEPlus : Daughter := ⟨-11, ME⟩
noncomputable def dNuE : Daughter := ⟨12, 0⟩
noncomputable def dNuEBar : Daughter := ⟨-12, 0⟩
noncomputable def dMuMinus : Daughter := ⟨13, MMU⟩
noncomputable def dMuPlus : Daughter := ⟨-13, MMU⟩
noncomputable def dNuMu : Daughter := ⟨14, 0⟩
noncomputable def dNuMuBar : Daughter := ⟨-14, 0⟩
noncomputable def dNuTau : Daughter := ⟨16, 0⟩
noncomputable def dNuTauBar : Daughter := ⟨-16, 0⟩
noncomputable def dPi0 : Daughter := ⟨111, MPI0⟩
noncomputable def dPiPlus : Daughter := ⟨211, MPI⟩
noncomputable def dPiMinus : Daughter := ⟨-211, MPI⟩
/-- ParticleDef.cxx 573 uses the mass of the charged kaon. -/
noncomputable def dK0 : Daughter := ⟨311, MKAON⟩
noncomputable def dKPlus : Daughter := ⟨321, MKAON⟩
noncomputable def dKMinus : Daughter := ⟨-321, MKAON⟩

/-- A channel made by `ManyBodyPhaseSpace::Builder` without a matrix element (ManyBodyPhaseSpace.cxx 16-47, 234-249); `M` is
the mass of the parent for which the weights are estimated. -/
noncomputable def builtChannel (M : ℝ) (ds : List Daughter) : Channel :=
  .manyBody ds true 1000 false
    ⟨0, maxWeight (normalization M (ds.map Daughter.mass)) M (ds.map Daughter.mass), fun _ => 1⟩

/-- MuMinusDef (ParticleDef.cxx 324-333). -/
noncomputable def tableMuMinus : List (ℝ × Channel) := addChannel 1 (.leptonic false dEMinus dNuMu dNuEBar) []
/-- MuPlusDef (ParticleDef.cxx 336-345). -/
noncomputable def tableMuPlus : List (ℝ × Channel) := addChannel 1 (.leptonic false dEPlus dNuMuBar dNuE) []

/-- The calls of `addChannel` of TauMinusDef (ParticleDef.cxx 347-411). -/
noncomputable def channelsTauMinus : List (ℝ × Channel) :=
  [(0.1737, .leptonic true dMuMinus dNuTau dNuMuBar),
   (0.1783, .leptonic false dEMinus dNuTau dNuEBar),
   (0.1153, .twoBody dPiMinus dNuTau),
   (0.2595, builtChannel MTAU [dPiMinus, dPi0, dNuTau]),
   (0.0952, builtChannel MTAU [dPiMinus, dPi0, dPi0, dNuTau]),
   (0.098, builtChannel MTAU [dPiMinus, dPiMinus, dPiPlus, dNuTau]),
   (0.0457, builtChannel MTAU [dPiMinus, dPiMinus, dPiPlus, dPi0, dNuTau]),
   (0.0119, builtChannel MTAU [dPiMinus, dPi0, dPi0, dPi0, dNuTau]),
   (0.01, builtChannel MTAU [dPiMinus, dK0, dNuTau]),
   (0.00349, builtChannel MTAU [dKMinus, dPiPlus, dPiMinus, dNuTau])]

/-- The calls of `addChannel` of TauPlusDef (ParticleDef.cxx 414-478). -/
noncomputable def channelsTauPlus : List (ℝ × Channel) :=
  [(0.1737, .leptonic true dMuPlus dNuTauBar dNuMu),
   (0.1783, .leptonic false dEPlus dNuTauBar dNuE),
   (0.1153, .twoBody dPiPlus dNuTauBar),
   (0.2595, builtChannel MTAU [dPiPlus, dPi0, dNuTauBar]),
   (0.0952, builtChannel MTAU [dPiPlus, dPi0, dPi0, dNuTauBar]),
   (0.098, builtChannel MTAU [dPiPlus, dPiPlus, dPiMinus, dNuTauBar]),
   (0.0457, builtChannel MTAU [dPiPlus, dPiPlus, dPiMinus, dPi0, dNuTauBar]),
   (0.0119, builtChannel MTAU [dPiPlus, dPi0, dPi0, dPi0, dNuTauBar]),
   (0.01, builtChannel MTAU [dPiPlus, dK0, dNuTauBar]),
   (0.00349, builtChannel MTAU [dKPlus, dPiPlus, dPiMinus, dNuTauBar])]

/-- A sequence of calls of `addChannel`. -/
noncomputable def addAll {α : Type} (cs t : List (ℝ × α)) : List (ℝ × α) := cs.foldl (fun t p => addChannel p.1 p.2 t) t

noncomputable def tableTauMinus : List (ℝ × Channel) := addAll channelsTauMinus []
noncomputable def tableTauPlus : List (ℝ × Channel) := addAll channelsTauPlus []

/-- The decay table of pions and kaons, particles with a finite lifetime (ParticleDef.cxx 25-33, 569-575). -/
noncomputable def tableMeson : List (ℝ × Channel) := addChannel 1.1 .stable []

/-! ## Decay products of a track -/

/-- `GetDecayProducts` (Secondaries.cxx 52-71): the states of the track with the information whether they are decays; for
every decay the number for the channel and those for the decay itself. `none` stands for a NaN or an empty table. -/
noncomputable def getDecayProducts (M : ℝ) (table : List (ℝ × Channel)) :
    (track : List (Part × Bool)) → List (ℝ × DecayRandoms) → Except MathErr (Option (List Part))
  | [], _ => .ok (some [])
  | (_, false) :: t, rs => getDecayProducts M table t rs
  | (_, true) :: _, [] => .ok none
  | (p, true) :: t, (u, r) :: rs =>
    match selectChannel table u with
    | none => .ok none
    | some c =>
      match c.decay M p r, getDecayProducts M table t rs with
      | .error e, _ => .error e
      | .ok none, _ => .ok none
      | .ok (some _), .error e => .error e
      | .ok (some _), .ok none => .ok none
      | .ok (some ps), .ok (some qs) => .ok (some (ps ++ qs))

end Proposal
