import Verif.Model.Particles
import Verif.Props.Registry
import Verif.Props.DecayTable
import Verif.Props.TableNames
import Verif.Props.Calculators

/-!
# C149: the built-in particles
-/

namespace Proposal

open Spec

/-- The leptons. -/
def Spec.leptons : List ℤ := [11, -11, 12, -12, 13, -13, 14, -14, 15, -15, 16, -16]

/-- The type of the antiparticle; photons, neutral pions, neutral kaons and the monopole are not distinguished from theirs. -/
def Spec.antiType (t : ℤ) : ℤ := if t ∈ [22, 111, 311, 41] then t else -t

/-- A particle of a decay as its antiparticle. -/
noncomputable def Spec.antiDaughter (d : Daughter) : Daughter := ⟨antiType d.type, d.mass⟩

/-- Channels of the same kind whose daughters are antiparticles of each other, in any order. -/
def Spec.AntiChannel (c c' : Channel) : Prop :=
  (c'.daughters).Perm (c.daughters.map antiDaughter) ∧
  match c, c' with
  | .stable, .stable => True
  | .twoBody _ _, .twoBody _ _ => True
  | .leptonic e _ _ _, .leptonic e' _ _ _ => e = e'
  | .manyBody _ _ _ _ _, .manyBody _ _ _ _ _ => True
  | _, _ => False

/-- C149: the map of types is filled with the built-in particles; construction never fails. -/
theorem C149_map (eqT : List (ℝ × Channel) → List (ℝ × Channel) → Bool) :
    ∃ m, builtinMap eqT builtinDefs = some m ∧ ∀ d ∈ builtinDefs, findKey d.type m = some d := by
  obtain ⟨m, h1, h2, -⟩ := builtin_fold (eqT := eqT) builtinDefs [] (by
    have : builtinDefs.map PDef.type = builtinTypes := rfl
    rw [this]; decide) (fun _ _ => rfl)
  exact ⟨m, h1, h2⟩

theorem channel_refl (c : Channel) : c.equal c = true := by cases c <;> simp [Channel.equal]

theorem tableEqual_refl (t : List (ℝ × Channel)) : tableEqual t t = true := by
  simp only [tableEqual, decide_true, Bool.true_and]
  induction t with
  | nil => rfl
  | cons p t ih => rw [List.zip_cons_cons, List.all_cons, ih]; simp [channel_refl]

theorem pdef_refl (d : PDef) : d.equal tableEqual d = true := by
  unfold PDef.equal
  simp [tableEqual_refl]

/-- C149: after any constructions, a built-in particle can be constructed again, this changes nothing, and its type is still
found with exactly these data. -/
theorem C149_again (ds : List PDef) (d : PDef) (hd : d ∈ builtinDefs) :
    ∃ m, ensureMap tableEqual builtinDefs (ds.foldl (afterConstruct tableEqual builtinDefs) none) = some m ∧
      constructDef tableEqual builtinDefs (ds.foldl (afterConstruct tableEqual builtinDefs) none) d = some m ∧
      lookupType tableEqual builtinDefs (ds.foldl (afterConstruct tableEqual builtinDefs) none) d.type = .value d := by
  have h := C94_builtin_particles tableEqual builtinDefs rfl ds d hd
  refine (?_ : ∃ m, _ ∧ _).imp fun m hm => ⟨hm.1, hm.2, h⟩
  unfold lookupType at h
  split at h
  · cases h
  · next m hm =>
    refine ⟨m, hm, ?_⟩
    unfold constructDef
    rw [hm, Option.bind_some]
    unfold registerType
    split at h
    · next d' hd' =>
      injection h with h; subst h
      rw [hd']
      simp [pdef_refl]
    · cases h

/-- C149: a definition of the user with the type of a built-in particle is refused unless it is equal. -/
theorem C149_taken (ds : List PDef) (d d' : PDef) (hd : d ∈ builtinDefs) (ht : d'.type = d.type)
    (hn : d'.name ≠ d.name ∨ d'.mass ≠ d.mass ∨ d'.low ≠ d.low ∨ d'.lifetime ≠ d.lifetime ∨ d'.charge ≠ d.charge ∨ d'.hard ≠ d.hard ∨
      d'.weakPartner ≠ d.weakPartner ∨ d'.decay.map Prod.fst ≠ d.decay.map Prod.fst) :
    constructDef tableEqual builtinDefs (ds.foldl (afterConstruct tableEqual builtinDefs) none) d' = none := by
  have h := C94_builtin_particles tableEqual builtinDefs rfl ds d hd
  unfold lookupType at h
  split at h
  · cases h
  · next m hm =>
    unfold constructDef
    rw [hm, Option.bind_some]
    unfold registerType
    rw [ht]
    split at h
    · next d'' hd' =>
      injection h with h; subst h
      rw [hd']
      have : d'.equal tableEqual d'' = false := by
        unfold PDef.equal
        split_ifs with a1 a2 a3 a4 a5 a6 a7 a8 a9 <;> first | rfl | skip
        exfalso
        simp only [ne_eq, not_not] at a1 a2 a3 a4 a5 a6 a8 a9
        have e7 : tableEqual d'.decay d''.decay = true := by simpa using a7
        simp only [tableEqual, Bool.and_eq_true, decide_eq_true_eq, List.all_eq_true] at e7
        obtain ⟨l1, l2⟩ := e7
        have e10 : d'.decay.map Prod.fst = d''.decay.map Prod.fst := by
          refine List.ext_getElem (by simpa using l1) ?_
          intro i h1 h2
          simp only [List.length_map] at h1 h2
          have := l2 (d'.decay[i], d''.decay[i]) (by
            rw [List.mem_iff_getElem]
            exact ⟨i, by simp [h1, h2], by simp⟩)
          simpa using this.1
        simp [a1, a2, a3, a4, a5, a6, a9, e10] at hn
      simp [this]
    · cases h

/-- C149: the charge of every built-in particle of the Standard Model is its physical charge. -/
theorem C149_charge (d : PDef) (hd : d ∈ builtinDefs) (ht : |d.type| < 1000) (hm : d.type ≠ 41) :
    d.charge = (Spec.charge d.type : ℤ) := by
  simp only [builtinDefs, List.mem_cons, List.not_mem_nil, or_false] at hd
  rcases hd with rfl | rfl | rfl | rfl | rfl | rfl | rfl | rfl | rfl | rfl | rfl | rfl | rfl | rfl | rfl | rfl | rfl | rfl | rfl | rfl | rfl | rfl <;>
    first
    | (exfalso; exact hm rfl)
    | (exfalso; revert ht; simp [defSMPPlus, defSMPMinus, particleImp]; done)
    | (simp [defEMinus, defEPlus, defNuE, defNuEBar, defMuMinus, defNuMu, defNuMuBar, defMuPlus, defTauMinus, defTauPlus, defNuTau,
        defNuTauBar, defGamma, defPi0, defPiPlus, defPiMinus, defK0, defKPlus, defKMinus, particleImp, Spec.charge])

/-- C149: particle and antiparticle are both defined, with the same mass, limit, lifetime and table, with opposite charge and
opposite weak partners. The monopole has no antiparticle. -/
theorem C149_antiparticle (d : PDef) (hd : d ∈ builtinDefs) (hm : d.type ≠ 41) :
    ∃ d' ∈ builtinDefs, d'.type = antiType d.type ∧ d'.mass = d.mass ∧ d'.low = d.low ∧ d'.lifetime = d.lifetime ∧ d'.hard = d.hard ∧
      d'.charge = -d.charge ∧ d'.weakPartner = -d.weakPartner := by
  have key : ∀ x ∈ builtinDefs, ∀ y ∈ builtinDefs, (y.type = antiType x.type ∧ y.mass = x.mass ∧ y.low = x.low ∧ y.lifetime = x.lifetime ∧
      y.hard = x.hard ∧ y.charge = -x.charge ∧ y.weakPartner = -x.weakPartner) → ∃ d' ∈ builtinDefs, d'.type = antiType x.type ∧ d'.mass = x.mass ∧
      d'.low = x.low ∧ d'.lifetime = x.lifetime ∧ d'.hard = x.hard ∧ d'.charge = -x.charge ∧ d'.weakPartner = -x.weakPartner :=
    fun x _ y hy h => ⟨y, hy, h⟩
  have hd0 := hd
  simp only [builtinDefs, List.mem_cons, List.not_mem_nil, or_false] at hd
  rcases hd with rfl | rfl | rfl | rfl | rfl | rfl | rfl | rfl | rfl | rfl | rfl | rfl | rfl | rfl | rfl | rfl | rfl | rfl | rfl | rfl | rfl | rfl
  · exact key _ hd0 defEPlus (by simp [builtinDefs]) (by simp [defEPlus, defEMinus, antiType])
  · exact key _ hd0 defEMinus (by simp [builtinDefs]) (by simp [defEPlus, defEMinus, antiType])
  · exact key _ hd0 defNuEBar (by simp [builtinDefs]) (by simp [defNuE, defNuEBar, antiType])
  · exact key _ hd0 defNuE (by simp [builtinDefs]) (by simp [defNuE, defNuEBar, antiType])
  · exact key _ hd0 defMuPlus (by simp [builtinDefs]) (by simp [defMuPlus, defMuMinus, antiType])
  · exact key _ hd0 defNuMuBar (by simp [builtinDefs]) (by simp [defNuMu, defNuMuBar, antiType])
  · exact key _ hd0 defNuMu (by simp [builtinDefs]) (by simp [defNuMu, defNuMuBar, antiType])
  · exact key _ hd0 defMuMinus (by simp [builtinDefs]) (by simp [defMuPlus, defMuMinus, antiType])
  · exact key _ hd0 defTauPlus (by simp [builtinDefs]) (by simp [defTauPlus, defTauMinus, antiType])
  · exact key _ hd0 defTauMinus (by simp [builtinDefs]) (by simp [defTauPlus, defTauMinus, antiType])
  · exact key _ hd0 defNuTauBar (by simp [builtinDefs]) (by simp [defNuTau, defNuTauBar, antiType])
  · exact key _ hd0 defNuTau (by simp [builtinDefs]) (by simp [defNuTau, defNuTauBar, antiType])
  · exact key _ hd0 defGamma (by simp [builtinDefs]) (by simp [defGamma, antiType])
  · exact key _ hd0 defPi0 (by simp [builtinDefs]) (by simp [defPi0, particleImp, antiType])
  · exact key _ hd0 defPiMinus (by simp [builtinDefs]) (by simp [defPiPlus, defPiMinus, particleImp, antiType])
  · exact key _ hd0 defPiPlus (by simp [builtinDefs]) (by simp [defPiPlus, defPiMinus, particleImp, antiType])
  · exact key _ hd0 defK0 (by simp [builtinDefs]) (by simp [defK0, particleImp, antiType])
  · exact key _ hd0 defKMinus (by simp [builtinDefs]) (by simp [defKPlus, defKMinus, particleImp, antiType])
  · exact key _ hd0 defKPlus (by simp [builtinDefs]) (by simp [defKPlus, defKMinus, particleImp, antiType])
  · exact absurd rfl hm
  · exact key _ hd0 defSMPMinus (by simp [builtinDefs]) (by simp [defSMPPlus, defSMPMinus, particleImp, antiType])
  · exact key _ hd0 defSMPPlus (by simp [builtinDefs]) (by simp [defSMPPlus, defSMPMinus, particleImp, antiType])

/-- C149: the weak partner of a lepton is a built-in particle with the same lepton numbers whose charge differs by one unit, and
whose partner is the lepton. All other particles have none. -/
theorem C149_weak_partner (d : PDef) (hd : d ∈ builtinDefs) :
    (d.type ∈ leptons → ∃ d' ∈ builtinDefs, d'.type = d.weakPartner ∧ d'.weakPartner = d.type ∧
      Spec.leptonNumbers d'.type = Spec.leptonNumbers d.type ∧ |d'.charge - d.charge| = 1) ∧
    (d.type ∉ leptons → d.weakPartner = 0) := by
  have key : ∀ x y : PDef, y ∈ builtinDefs → (y.type = x.weakPartner ∧ y.weakPartner = x.type ∧
      Spec.leptonNumbers y.type = Spec.leptonNumbers x.type ∧ |y.charge - x.charge| = 1) → x.type ∈ leptons → (x.type ∈ leptons → ∃ d' ∈ builtinDefs, d'.type = x.weakPartner ∧
      d'.weakPartner = x.type ∧ Spec.leptonNumbers d'.type = Spec.leptonNumbers x.type ∧ |d'.charge - x.charge| = 1) ∧
      (x.type ∉ leptons → x.weakPartner = 0) := fun x y hy h hl => ⟨fun _ => ⟨y, hy, h⟩, fun hn => absurd hl hn⟩
  have none : ∀ x : PDef, x.type ∉ leptons → x.weakPartner = 0 → (x.type ∈ leptons → ∃ d' ∈ builtinDefs, d'.type = x.weakPartner ∧
      d'.weakPartner = x.type ∧ Spec.leptonNumbers d'.type = Spec.leptonNumbers x.type ∧ |d'.charge - x.charge| = 1) ∧
      (x.type ∉ leptons → x.weakPartner = 0) := fun x h h' => ⟨fun hl => absurd hl h, fun _ => h'⟩
  simp only [builtinDefs, List.mem_cons, List.not_mem_nil, or_false] at hd
  rcases hd with rfl | rfl | rfl | rfl | rfl | rfl | rfl | rfl | rfl | rfl | rfl | rfl | rfl | rfl | rfl | rfl | rfl | rfl | rfl | rfl | rfl | rfl
  · exact key _ defNuE (by simp [builtinDefs]) (by simp [defNuE, defEMinus, Spec.leptonNumbers]) (by simp [defEMinus, leptons])
  · exact key _ defNuEBar (by simp [builtinDefs]) (by simp [defNuEBar, defEPlus, Spec.leptonNumbers]) (by simp [defEPlus, leptons])
  · exact key _ defEMinus (by simp [builtinDefs]) (by simp [defNuE, defEMinus, Spec.leptonNumbers]) (by simp [defNuE, leptons])
  · exact key _ defEPlus (by simp [builtinDefs]) (by simp [defNuEBar, defEPlus, Spec.leptonNumbers]) (by simp [defNuEBar, leptons])
  · exact key _ defNuMu (by simp [builtinDefs]) (by simp [defNuMu, defMuMinus, Spec.leptonNumbers]) (by simp [defMuMinus, leptons])
  · exact key _ defMuMinus (by simp [builtinDefs]) (by simp [defNuMu, defMuMinus, Spec.leptonNumbers]) (by simp [defNuMu, leptons])
  · exact key _ defMuPlus (by simp [builtinDefs]) (by simp [defNuMuBar, defMuPlus, Spec.leptonNumbers]) (by simp [defNuMuBar, leptons])
  · exact key _ defNuMuBar (by simp [builtinDefs]) (by simp [defNuMuBar, defMuPlus, Spec.leptonNumbers]) (by simp [defMuPlus, leptons])
  · exact key _ defNuTau (by simp [builtinDefs]) (by simp [defNuTau, defTauMinus, Spec.leptonNumbers]) (by simp [defTauMinus, leptons])
  · exact key _ defNuTauBar (by simp [builtinDefs]) (by simp [defNuTauBar, defTauPlus, Spec.leptonNumbers]) (by simp [defTauPlus, leptons])
  · exact key _ defTauMinus (by simp [builtinDefs]) (by simp [defNuTau, defTauMinus, Spec.leptonNumbers]) (by simp [defNuTau, leptons])
  · exact key _ defTauPlus (by simp [builtinDefs]) (by simp [defNuTauBar, defTauPlus, Spec.leptonNumbers]) (by simp [defNuTauBar, leptons])
  all_goals exact none _ (by simp [defGamma, defPi0, defPiPlus, defPiMinus, defK0, defKPlus, defKMinus, defMonopole, defSMPPlus, defSMPMinus,
    particleImp, leptons]) rfl

/-- C149: masses are not negative, the limit below which a particle is lost is not below its mass, and a photon is lost if it cannot
make a pair of electrons. -/
theorem C149_limits (d : PDef) (hd : d ∈ builtinDefs) : 0 ≤ d.mass ∧ d.mass ≤ d.low ∧ (d.type = 22 → d.low = 2 * ME) ∧
    (d.type ≠ 22 → d.low = d.mass) := by
  simp only [builtinDefs, List.mem_cons, List.not_mem_nil, or_false] at hd
  rcases hd with rfl | rfl | rfl | rfl | rfl | rfl | rfl | rfl | rfl | rfl | rfl | rfl | rfl | rfl | rfl | rfl | rfl | rfl | rfl | rfl | rfl | rfl <;>
    (simp [defEMinus, defEPlus, defNuE, defNuEBar, defMuMinus, defNuMu, defNuMuBar, defMuPlus, defTauMinus, defTauPlus, defNuTau,
        defNuTauBar, defGamma, defPi0, defPiPlus, defPiMinus, defK0, defKPlus, defKMinus, defMonopole, defSMPPlus, defSMPMinus, particleImp]) <;>
    norm_num [ME, MMU, MTAU, MPI, MPI0, MKAON, MMON, MSMP]

/-- C149: the particles with a channel of decay are those with a positive finite lifetime, the muons and taus; pions and
charged kaons have a lifetime without a channel. Missing: the neutral kaon, see `C149_k0`. -/
theorem C149_lifetime_partial (d : PDef) (hd : d ∈ builtinDefs) (hk : d.type ≠ 311) :
    (∀ l, d.lifetime = some l → 0 < l) ∧ (d.lifetime ≠ none ↔ d.type ∈ [13, -13, 15, -15, 111, 211, -211, 321, -321]) ∧
    (d.type ∈ [13, -13, 15, -15] → Decaying d.type d.mass d.decay) ∧ (d.type ∉ [13, -13, 15, -15] → d.decay.map Prod.snd = [.stable]) := by
  simp only [builtinDefs, List.mem_cons, List.not_mem_nil, or_false] at hd
  rcases hd with rfl | rfl | rfl | rfl | rfl | rfl | rfl | rfl | rfl | rfl | rfl | rfl | rfl | rfl | rfl | rfl | rfl | rfl | rfl | rfl | rfl | rfl <;>
    first
    | exact absurd rfl hk
    | (refine ⟨?_, by simp [defEMinus, defEPlus, defNuE, defNuEBar, defMuMinus, defNuMu, defNuMuBar, defMuPlus, defTauMinus, defTauPlus, defNuTau,
        defNuTauBar, defGamma, defPi0, defPiPlus, defPiMinus, defKPlus, defKMinus, defMonopole, defSMPPlus, defSMPMinus, particleImp], ?_, ?_⟩
       · intro l hl
         injection hl with hl
         rw [← hl]
         norm_num [LMU, LTAU, LPI, LPI0, LKAON]
       · first
         | (intro _; exact .muMinus) | (intro _; exact .muPlus) | (intro _; exact .tauMinus) | (intro _; exact .tauPlus)
         | (intro h; exfalso; revert h; simp [defPi0, defPiPlus, defPiMinus, defKPlus, defKMinus, particleImp])
       · first
         | (intro _; rfl)
         | (intro h; exfalso; revert h; simp [defMuMinus, defMuPlus, defTauMinus, defTauPlus]))
    | (refine ⟨fun l hl => (by cases hl), by simp [defEMinus, defEPlus, defNuE, defNuEBar, defNuMu, defNuMuBar, defNuTau,
        defNuTauBar, defGamma, defMonopole, defSMPPlus, defSMPMinus, particleImp], ?_, fun _ => rfl⟩
       intro h; exfalso; revert h
       simp [defEMinus, defEPlus, defNuE, defNuEBar, defNuMu, defNuMuBar, defNuTau,
        defNuTauBar, defGamma, defMonopole, defSMPPlus, defSMPMinus, particleImp])

/-- C149, violated for the neutral kaon: it is documented as stable, but its lifetime is finite and negative, so a calculator of
decays is made. -/
theorem C149_k0 : defK0 ∈ builtinDefs ∧ defK0.lifetime = some (-1) := ⟨by simp [builtinDefs], rfl⟩

/-- C149: a neutral kaon does not decay before it reaches the lower limit, whatever the random number is; there it is
reported as decayed. -/
theorem C149_k0_decay (U : IntegralUtil) (hQ : Spec.ExactQuadrature U.Q) (dedx : ℝ → ℝ) (mass density : ℝ)
    (hf : U.f = decayIntegrand dedx mass) (s : IState) (E rnd l : ℝ) (hl : 0 < U.lower) (hE : Spec.WellAbove E U.lower)
    (hm : 0 ≤ mass) (hpos : ∀ y ∈ Set.Icc U.lower E, 0 < dedx y) (h0 : 0 ≤ rnd) (h1 : rnd ≤ 1) (hd : 0 ≤ density)
    (h : defK0.lifetime = some l) : U.energyDecay l s E rnd density = .value U.lower := by
  injection h with h
  subst h
  have hflip : ∫ y in E..U.lower, U.f y = ∫ y in U.lower..E, mass / (SPEED * Real.sqrt (y ^ 2 - mass ^ 2) * dedx y) := by
    refine integral_flip _ _ hE.1.le ?_
    intro y hy
    rw [hf, decayIntegrand_neg (hpos y ⟨hy.1, hy.2⟩)]
  unfold IntegralUtil.energyDecay
  dsimp only
  rw [calculate_exact U hQ s E hl hE, hflip]
  have hI : 0 ≤ ∫ y in U.lower..E, mass / (SPEED * Real.sqrt (y ^ 2 - mass ^ 2) * dedx y) := by
    refine intervalIntegral.integral_nonneg hE.1.le fun y hy => ?_
    have := hpos y hy
    have hS : 0 < SPEED := by norm_num [SPEED]
    positivity
  refine if_pos (Or.inr ?_)
  have hlog : 0 ≤ -Real.log rnd := neg_nonneg.mpr (Real.log_nonpos h0 h1)
  have := mul_nonneg hlog hd
  rw [div_neg, div_one]
  linarith

theorem anti_found {cs cs' : List (ℝ × Channel)} (h : List.Forall₂ (fun p q => p.1 = q.1 ∧ AntiChannel p.2 q.2) cs cs') (br : ℝ)
    (c : Channel) (hc : (br, c) ∈ cs) : ∃ q ∈ cs', br = q.1 ∧ AntiChannel c q.2 := by
  induction h with
  | nil => cases hc
  | @cons p q l l' h1 h2 ih =>
    rcases List.mem_cons.1 hc with e | hc
    · subst e; exact ⟨q, List.mem_cons_self, h1⟩
    · obtain ⟨q', m1, m2⟩ := ih hc
      exact ⟨q', List.mem_cons_of_mem _ m1, m2⟩

theorem anti_mem {cs cs' : List (ℝ × Channel)} (hnd : (cs'.map Prod.fst).Nodup)
    (h : List.Forall₂ (fun p q => p.1 = q.1 ∧ AntiChannel p.2 q.2) cs cs') (br : ℝ) (c : Channel) (hc : (br, c) ∈ addAll cs []) :
    ∃ c', (br, c') ∈ addAll cs' [] ∧ AntiChannel c c' := by
  rcases addAll_mem cs [] _ hc with hc | hc
  · obtain ⟨q, m1, m2, m3⟩ := anti_found h br c hc
    refine ⟨q.2, ?_, m3⟩
    rw [m2]
    exact C40_all_partial cs' hnd q m1
  · cases hc

/-- C149: an antiparticle decays like the particle: with the same branching ratio into the antiparticles of its products. -/
theorem C149_anti_decay (d d' : PDef) (hd : d ∈ builtinDefs) (hd' : d' ∈ builtinDefs) (ht : d.type ∈ [13, -13, 15, -15])
    (ha : d'.type = antiType d.type) (br : ℝ) (c : Channel) (hc : (br, c) ∈ d.decay) :
    ∃ c', (br, c') ∈ d'.decay ∧ AntiChannel c c' := by
  have hun : ∀ x ∈ builtinDefs, ∀ y ∈ builtinDefs, x.type = y.type → x = y := by
    intro x hx y hy h
    have e1 := C94_builtin_particles tableEqual builtinDefs rfl [] x hx
    have e2 := C94_builtin_particles tableEqual builtinDefs rfl [] y hy
    rw [h, e2] at e1
    injection e1 with e1
    exact e1.symm
  have p1 : (channelsTauPlus.map Prod.fst).Nodup := by norm_num [channelsTauPlus]
  have p2 : (channelsTauMinus.map Prod.fst).Nodup := by norm_num [channelsTauMinus]
  simp only [List.mem_cons, List.not_mem_nil, or_false] at ht
  rcases ht with ht | ht | ht | ht
  · obtain rfl := hun d hd defMuMinus (by simp [builtinDefs]) ht
    obtain rfl := hun d' hd' defMuPlus (by simp [builtinDefs]) (ha.trans (by simp [antiType, defMuMinus, defMuPlus]))
    refine anti_mem (cs := [(1, .leptonic false dEMinus dNuMu dNuEBar)]) (cs' := [(1, .leptonic false dEPlus dNuMuBar dNuE)]) (by simp) ?_ br c hc
    simp [AntiChannel, Channel.daughters, antiDaughter, antiType, dEMinus, dEPlus, dNuMu, dNuMuBar, dNuE, dNuEBar]
  · obtain rfl := hun d hd defMuPlus (by simp [builtinDefs]) ht
    obtain rfl := hun d' hd' defMuMinus (by simp [builtinDefs]) (ha.trans (by simp [antiType, defMuMinus, defMuPlus]))
    refine anti_mem (cs := [(1, .leptonic false dEPlus dNuMuBar dNuE)]) (cs' := [(1, .leptonic false dEMinus dNuMu dNuEBar)]) (by simp) ?_ br c hc
    simp [AntiChannel, Channel.daughters, antiDaughter, antiType, dEMinus, dEPlus, dNuMu, dNuMuBar, dNuE, dNuEBar]
  · obtain rfl := hun d hd defTauMinus (by simp [builtinDefs]) ht
    obtain rfl := hun d' hd' defTauPlus (by simp [builtinDefs]) (ha.trans (by simp [antiType, defTauMinus, defTauPlus]))
    refine anti_mem p1 ?_ br c hc
    simp [channelsTauMinus, channelsTauPlus, builtChannel, AntiChannel, Channel.daughters, antiDaughter, antiType, dEMinus, dEPlus, dNuMu,
      dNuMuBar, dNuE, dNuEBar, dMuMinus, dMuPlus, dNuTau, dNuTauBar, dPi0, dPiMinus, dPiPlus, dK0, dKPlus, dKMinus]
    exact List.Perm.swap _ _ _
  · obtain rfl := hun d hd defTauPlus (by simp [builtinDefs]) ht
    obtain rfl := hun d' hd' defTauMinus (by simp [builtinDefs]) (ha.trans (by simp [antiType, defTauMinus, defTauPlus]))
    refine anti_mem p2 ?_ br c hc
    simp [channelsTauMinus, channelsTauPlus, builtChannel, AntiChannel, Channel.daughters, antiDaughter, antiType, dEMinus, dEPlus, dNuMu,
      dNuMuBar, dNuE, dNuEBar, dMuMinus, dMuPlus, dNuTau, dNuTauBar, dPi0, dPiMinus, dPiPlus, dK0, dKPlus, dKMinus]
    exact List.Perm.swap _ _ _

/-- C149: the numbers that enter the hash distinguish all built-in particles. -/
theorem C149_numbers (d d' : PDef) (hd : d ∈ builtinDefs) (hd' : d' ∈ builtinDefs) (h : partNums d = partNums d') : d = d' := by
  have key : builtinDefs.Pairwise fun x y => partNums x ≠ partNums y := by
    simp only [builtinDefs, List.pairwise_cons, List.mem_cons, List.not_mem_nil, or_false, forall_eq_or_imp, forall_eq,
      List.Pairwise.nil, and_true, IsEmpty.forall_iff, implies_true]
    norm_num [partNums, defEMinus, defEPlus, defNuE, defNuEBar, defMuMinus, defNuMu, defNuMuBar, defMuPlus, defTauMinus, defTauPlus, defNuTau,
        defNuTauBar, defGamma, defPi0, defPiPlus, defPiMinus, defK0, defKPlus, defKMinus, defMonopole, defSMPPlus, defSMPMinus, particleImp,
        ME, MMU, MTAU, MPI, MPI0, MKAON, MMON, MSMP, CMON, LMU, LTAU, LPI, LPI0, LKAON]
  exact List.inj_on_of_nodup_map (List.pairwise_map.2 key) hd hd' h

/-- C149, violated for the staus: their type has no definition before one of them is constructed, and their numbers are those of the
stable massive particles. -/
theorem C149_stau : lookupType tableEqual builtinDefs none 1000015 = .invalidArgument ∧
    lookupType tableEqual builtinDefs (afterConstruct tableEqual builtinDefs none defStauMinus) 1000015 = .value defStauMinus ∧
    partNums defStauMinus = partNums defSMPMinus ∧ partNums defStauPlus = partNums defSMPPlus := by
  have h0 : ∀ t ∈ [(1000015 : ℤ), -1000015], lookupType tableEqual builtinDefs none t = .invalidArgument := by
    intro t ht
    simp only [List.mem_cons, List.not_mem_nil, or_false] at ht
    rcases ht with rfl | rfl <;> exact (C94_undefined_types tableEqual builtinDefs rfl _ (by decide)).2 (by decide)
  refine ⟨h0 _ (by simp), ?_, by simp [partNums, defStauMinus, defSMPMinus, particleImp, MSTAU, MSMP],
    by simp [partNums, defStauPlus, defSMPPlus, particleImp, MSTAU, MSMP]⟩
  obtain ⟨m, h1, h2⟩ := C149_map tableEqual
  have hm : findKey 1000015 m = none := by
    have := h0 1000015 (by simp)
    unfold lookupType ensureMap at this
    simp only [h1] at this
    split at this
    · cases this
    · assumption
  have hc : constructDef tableEqual builtinDefs none defStauMinus = some (m ++ [(1000015, defStauMinus)]) := by
    unfold constructDef ensureMap
    simp only [h1, Option.bind_some]
    unfold registerType
    have : defStauMinus.type = 1000015 := rfl
    rw [this, hm]
  unfold afterConstruct
  rw [hc]
  unfold lookupType ensureMap
  simp only
  rw [findKey_append, hm]
  simp [findKey]

/-- C149: a built definition has no limit below its mass; all other fields are those that were set. A builder that is given a
definition of a particle returns this definition if its limit is not below its mass. -/
theorem C149_builder (b : PDef) : (builderBuild b).mass ≤ (builderBuild b).low ∧ b.low ≤ (builderBuild b).low ∧
    (builderBuild b).name = b.name ∧ (builderBuild b).mass = b.mass ∧ (builderBuild b).lifetime = b.lifetime ∧ (builderBuild b).charge = b.charge ∧
    (builderBuild b).hard = b.hard ∧ (builderBuild b).decay = b.decay ∧ (builderBuild b).type = b.type ∧
    (builderBuild b).weakPartner = b.weakPartner ∧ (b.mass ≤ b.low → builderBuild b = b) := by
  unfold builderBuild
  refine ⟨?_, ?_, rfl, rfl, rfl, rfl, rfl, rfl, rfl, rfl, ?_⟩
  · dsimp only; split_ifs with h
    · exact le_rfl
    · exact not_lt.1 h
  · dsimp only; split_ifs with h
    · exact h.le
    · exact le_rfl
  · intro h
    rw [if_neg (not_lt.2 h)]

/-- A user can therefore copy any built-in particle with the builder: the construction is accepted. -/
theorem C149_copy (ds : List PDef) (d : PDef) (hd : d ∈ builtinDefs) :
    constructDef tableEqual builtinDefs (ds.foldl (afterConstruct tableEqual builtinDefs) none) (builderBuild d) ≠ none := by
  rw [(C149_builder d).2.2.2.2.2.2.2.2.2.2 (C149_limits d hd).2.1]
  obtain ⟨m, -, h, -⟩ := C149_again ds d hd
  rw [h]
  simp

/-- C149: a particle made by the builder without a charge has the charge of an electron, and without a type its type is that of no
particle; two different ones cannot both be constructed. -/
theorem C149_default : builderDefault.charge = -1 ∧ builderDefault.type = 0 ∧ builderDefault.lifetime = none ∧
    (let a := builderBuild { builderDefault with name := bytes "a", mass := 1 }
     let b := builderBuild { builderDefault with name := bytes "b", mass := 2 }
     constructDef tableEqual builtinDefs (afterConstruct tableEqual builtinDefs none a) a ≠ none ∧
     constructDef tableEqual builtinDefs (afterConstruct tableEqual builtinDefs none a) b = none) := by
  refine ⟨rfl, rfl, rfl, ?_⟩
  have h0 : lookupType tableEqual builtinDefs none 0 = .invalidArgument :=
    (C94_undefined_types tableEqual builtinDefs rfl _ (by decide)).2 (by decide)
  obtain ⟨m, h1, h2⟩ := C149_map tableEqual
  have hm : findKey 0 m = none := by
    unfold lookupType ensureMap at h0
    simp only [h1] at h0
    split at h0
    · cases h0
    · assumption
  intro a b
  have hc : constructDef tableEqual builtinDefs none a = some (m ++ [(0, a)]) := by
    unfold constructDef ensureMap
    simp only [h1, Option.bind_some]
    unfold registerType
    have : a.type = 0 := rfl
    rw [this, hm]
  have hf : findKey 0 (m ++ [((0 : ℤ), a)]) = some a := by
    rw [findKey_append, hm]; simp [findKey]
  unfold afterConstruct
  rw [hc]
  unfold constructDef ensureMap
  simp only [Option.bind_some]
  unfold registerType
  have ta : a.type = 0 := rfl
  have tb : b.type = 0 := rfl
  rw [ta, tb, hf]
  refine ⟨by simp [pdef_refl], ?_⟩
  have : b.equal tableEqual a = false := by
    unfold PDef.equal
    rw [if_pos]
    simp only [a, b, builderBuild]
    decide
  simp [this]

/-- The hypotheses of `C149_anti_decay` are met by the taus. -/
example : ∃ c', (0.2595, c') ∈ defTauPlus.decay ∧ AntiChannel (builtChannel MTAU [dPiMinus, dPi0, dNuTau]) c' :=
  C149_anti_decay defTauMinus defTauPlus (by simp [builtinDefs]) (by simp [builtinDefs]) (by simp [defTauMinus])
    (by simp [defTauMinus, defTauPlus, antiType]) _ _ (C40_all_partial channelsTauMinus (by norm_num [channelsTauMinus]) _
      (by simp [channelsTauMinus]))

/-- A heavier muon is refused. -/
example : constructDef tableEqual builtinDefs none { defMuMinus with mass := 200 } = none :=
  C149_taken [] defMuMinus _ (by simp [builtinDefs]) rfl (by norm_num [defMuMinus, MMU])

end Proposal
