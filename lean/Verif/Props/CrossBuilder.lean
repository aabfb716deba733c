import Verif.Model.CrossBuilder
import Verif.Props.AssembledLaws
import Verif.Props.Cascade
import Verif.Props.ConfigDefaults
import Verif.Props.KleinNishina
import Verif.Props.PhotoEffectRate
import Verif.Props.PhotoproductionRate

/-!
# C148: cross sections which take all energy
-/

namespace Proposal

open Spec

/-- How a parametrization is passed to `make_crosssection`: as an object with a name that is not `const`, or as a temporary object. -/
def Spec.Plain (const named : Bool) : Prop := ¬ (const = true ∧ named = true)

/-- C148: the construction is refused exactly for cuts together with annihilation, photo effect, weak interaction and the pairs of photons,
unless the parametrization is an object with a name which is `const`. -/
theorem C148_refused (cls : CrossClass) (const named interpol : Bool) (P : CrossParts) (R : DirectRates) (cut : Option Cut) (e : XErr) :
    makeCrossSection (deduced cls const named) P R cut interpol = some (.error e) ↔
      e = .logicError ∧ cut ≠ none ∧ cls.itype ∈ [IType.annihilation, .photoeffect, .photopair, .photoMuPair, .weakInt] ∧
        Plain const named := by
  unfold makeCrossSection deduced paramType removeReference removeCv Plain
  cases cut <;> cases const <;> cases named <;> (try cases interpol) <;>
    (rcases cls with c | _ | _ | n <;> (try cases c) <;>
      simp [CrossClass.isDirect, isOnlyStochastic, isComponentWise, CrossClass.ofMedium, CrossClass.itype, eq_comm])

/-- C148: only the parametrizations of ionization, as `const` objects with a name, are not compiled. -/
theorem C148_compiled (cls : CrossClass) (const named interpol : Bool) (P : CrossParts) (R : DirectRates) (cut : Option Cut) :
    makeCrossSection (deduced cls const named) P R cut interpol = none ↔ cls.itype = .ioniz ∧ ¬ Plain const named := by
  unfold makeCrossSection deduced paramType removeReference removeCv Plain
  cases const <;> cases named <;>
    (rcases cls with c | _ | _ | n <;> (try cases c) <;>
      simp [CrossClass.isDirect, isOnlyStochastic, isComponentWise, CrossClass.ofMedium, CrossClass.itype])

theorem onlyContinuous_none : ¬ onlyContinuous none := by
  simp [onlyContinuous]

/-- C148: an interaction which converts the particle takes all of its energy, and there are no continuous losses.
Missing: `const` objects with a name, for which this is false (`C148_const`). -/
theorem C148_all_energy_partial (cls : CrossClass) (const named interpol : Bool) (P : CrossParts) (R : DirectRates) (cut : Option Cut) (x : XSec)
    (hp : Plain const named) (hc : cls.itype ∈ absorbed)
    (h : makeCrossSection (deduced cls const named) P R cut interpol = some (.ok x)) :
    x.type = cls.itype ∧ (∀ E, x.edx E = 0 ∧ x.e2dx E = 0) ∧ ∀ hash E rate, x.stochasticLoss hash E rate = .ok 1 := by
  have key : x = directXSec cls.itype R ∨ ∃ dndx, x = mkXSec cls.itype true P.lower (some dndx) none none := by
    unfold makeCrossSection deduced paramType removeReference removeCv at h
    unfold Plain at hp
    cases cut <;> cases const <;> cases named <;>
      (rcases cls with c | _ | _ | n <;> (try cases c) <;>
        simp_all [CrossClass.isDirect, isOnlyStochastic, isComponentWise, CrossClass.ofMedium, CrossClass.itype, absorbed, crossSectionOf,
          buildDndx, onlyContinuous_none, buildDedx, onlyRandomised] <;> (try subst h) <;> (try exact Or.inr ⟨_, rfl⟩))
  rcases key with rfl | ⟨d, rfl⟩
  · exact ⟨rfl, fun _ => ⟨rfl, rfl⟩, fun _ _ _ => rfl⟩
  · exact ⟨rfl, fun _ => ⟨rfl, rfl⟩, fun _ _ _ => by simp [mkXSec, stochasticLossOf]⟩

/-- C148: a `const` object with a name makes a difference for the pairs of photons and the weak interaction: nothing is refused, and the
loss is the one at which the cumulative rate of the component is reached. -/
theorem C148_const (cls : CrossClass) (interpol : Bool) (P : CrossParts) (R : DirectRates) (cut : Option Cut)
    (hc : cls.itype ∈ [IType.photopair, .photoMuPair, .weakInt]) :
    ∃ x, makeCrossSection (deduced cls true true) P R cut interpol = some (.ok x) ∧
      (cut = none → ∀ c, P.comps = [c] → ∀ E rate,
        x.stochasticLoss (c.hash P.h) E rate = .ok ((P.rate interpol c).upperLimit E (rate * weightComponent [c] c))) ∧
      (cut ≠ none → ∀ E, x.edx E = (P.comps.map fun c => P.loss interpol c E / weightComponent P.comps c).sum) := by
  have key : makeCrossSection (deduced cls true true) P R cut interpol =
      some (.ok (mkXSec cls.itype false P.lower (buildDndx P.h P.comps (P.rate interpol) cut) (buildDedx P.comps (P.loss interpol) cut)
        (buildDedx P.comps (P.loss2 interpol) (onlyRandomised cut)))) := by
    unfold makeCrossSection deduced paramType removeReference removeCv
    rcases cls with c | _ | _ | n <;> (try cases c) <;>
      simp_all [CrossClass.isDirect, isOnlyStochastic, isComponentWise, CrossClass.ofMedium, CrossClass.itype, crossSectionOf]
  refine ⟨_, key, ?_, ?_⟩
  · rintro rfl c hP E rate
    simp [mkXSec, stochasticLossOf, buildDndx, onlyContinuous_none, hP, emplace, lookup, Except.map]
  · intro hcut E
    cases cut with
    | none => exact absurd rfl hcut
    | some k => simp [mkXSec, edxOf, buildDedx, List.map_map, Function.comp_def]

/-- C148: for all other interactions `const` makes no difference, where it is compiled. -/
theorem C148_const_others (cls : CrossClass) (const named interpol : Bool) (P : CrossParts) (R : DirectRates) (cut : Option Cut)
    (hc : cls.itype ∈ [IType.brems, .epair, .photonuclear, .muPair, .compton, .photoproduction]) :
    ∃ x, makeCrossSection (deduced cls const named) P R cut interpol = some (.ok x) ∧
      makeCrossSection (deduced cls false true) P R cut interpol = some (.ok x) := by
  unfold makeCrossSection deduced paramType removeReference removeCv
  cases const <;> cases named <;>
    (rcases cls with c | _ | _ | n <;> (try cases c) <;>
      simp_all [CrossClass.isDirect, isOnlyStochastic, isComponentWise, CrossClass.ofMedium, CrossClass.itype])

/-- What is built for a parametrization with a differential cross section. -/
theorem built_par (c : ParClass) (const named interpol : Bool) (P : CrossParts) (R : DirectRates) (cut : Option Cut) (x : XSec)
    (h : makeCrossSection (deduced (.par c) const named) P R cut interpol = some (.ok x)) :
    ∃ w o, x = crossSectionOf P (CrossClass.par c).itype w o interpol cut := by
  unfold makeCrossSection at h
  rw [if_neg (by simp [deduced, CrossClass.isDirect])] at h
  split_ifs at h with h1 h2
  · cases Option.some.inj h
  · exact ⟨_, _, (Except.ok.inj (Option.some.inj h)).symm⟩

/-- C148: what the cuts are for: no continuous losses without cuts, no randomisation of them unless the cuts ask for it, and no rate for
cuts above all energies. -/
theorem C148_cuts (c : ParClass) (const named interpol : Bool) (P : CrossParts) (R : DirectRates) (cut : Option Cut) (x : XSec)
    (h : makeCrossSection (deduced (.par c) const named) P R cut interpol = some (.ok x)) :
    (cut = none → ∀ E, x.edx E = 0) ∧ ((∀ k, cut = some k → k.contRand = false) → ∀ E, x.e2dx E = 0) ∧
      (∀ k, cut = some k → k.ecut = .pinf → k.vcut = .fin 1 → ∀ E, x.ndx E = 0 ∧ x.perTarget E = []) ∧ x.lowerLim = P.lower := by
  obtain ⟨w, o, rfl⟩ := built_par c const named interpol P R cut x h
  refine ⟨?_, ?_, ?_, ?_⟩
  · rintro rfl E
    unfold crossSectionOf
    split_ifs <;> rfl
  · intro hk E
    have : onlyRandomised cut = none := by
      cases cut with
      | none => rfl
      | some k => simp [onlyRandomised, hk k rfl]
    unfold crossSectionOf
    rw [this]
    split_ifs <;> rfl
  · rintro k rfl h1 h2 E
    have : onlyContinuous (some k) := by simp [onlyContinuous, h1, h2, Dbl.eq]
    unfold crossSectionOf buildDndx buildDndxMedium
    simp only [if_pos this]
    split_ifs <;> exact ⟨rfl, rfl⟩
  · unfold crossSectionOf
    split_ifs <;> rfl

/-- C148: photoproduction takes cuts and ignores them. Its rates stay even for cuts above all energies. -/
theorem C148_photoproduction (n : String) (const named interpol interpol' : Bool) (P P' : CrossParts) (R : DirectRates)
    (cut cut' : Option Cut) :
    makeCrossSection (deduced (.photoproduction n) const named) P R cut interpol =
      makeCrossSection (deduced (.photoproduction n) false true) P' R cut' interpol' ∧
    ∃ x, makeCrossSection (deduced (.photoproduction n) const named) P R cut interpol = some (.ok x) ∧ x.perTarget = R.perTarget := by
  unfold makeCrossSection deduced paramType removeReference removeCv
  cases const <;> cases named <;> simp [CrossClass.isDirect, isOnlyStochastic, directXSec]

/-! ## The rates -/

/-- C148: annihilation, photo effect and photoproduction: the total rate is the sum of the rates of the targets, which are the components
of the medium in their order; these are the rates of C116, C118 and C119. -/
theorem C148_rates (reg : Registry Hash Component) (M : Med) (E : ℝ) :
    (∀ m t, (directXSec t (annihilationRates reg m M)).ndx E = heitlerTotal m M E ∧
      ((directXSec t (annihilationRates reg m M)).perTarget E).map Prod.fst = M.components.map fun c => c.hash.toNat) ∧
    (Atoms M → ∀ t, photoeffectNdx M E = some ((directXSec t (photoeffectRates reg M)).ndx E) ∧
      ((directXSec t (photoeffectRates reg M)).perTarget E).map Prod.fst = M.components.map fun c => c.hash.toNat) ∧
    (∀ atom : ℝ → Component → Option ℝ, (∀ c ∈ M.components, atom E c ≠ none) → ∀ t,
      photoproductionNdx (atom E) M = some ((directXSec t (photoproductionRates reg atom M)).ndx E) ∧
      ((directXSec t (photoproductionRates reg atom M)).perTarget E).map Prod.fst = M.components.map fun c => c.hash.toNat) := by
  have hsum : ∀ f : Component → Option ℝ, ((rateList M f).map Prod.snd) = M.components.map fun c => (f c).getD 0 := by
    intro f
    simp [rateList, List.map_map, Function.comp_def]
  have hfst : ∀ f : Component → Option ℝ, ((rateList M f).map Prod.fst) = M.components.map fun c => c.hash.toNat := by
    intro f
    simp [rateList, List.map_map, Function.comp_def]
  refine ⟨fun m t => ⟨?_, hfst _⟩, fun hA t => ⟨?_, hfst _⟩, fun atom ha t => ⟨?_, hfst _⟩⟩
  · simp only [directXSec, annihilationRates, hsum, heitlerTotal, sumOver_eq, Option.getD_some]
  · simp only [directXSec, photoeffectRates, hsum]
    unfold photoeffectNdx photoeffectPerTarget
    refine sumRates_some _ _ _ fun c hc => ?_
    by_cases hE : E > photoeffectCutOff c
    · obtain ⟨ha, hn, hZ⟩ := hA.2 c hc
      rw [if_pos hE, if_pos hE]
      unfold photoeffectNdxTarget
      rw [((photoAtom_pos ha hZ).1 hE).2]
      rfl
    · rw [if_neg hE, if_neg hE]
      rfl
  · simp only [directXSec, photoproductionRates, hsum]
    unfold photoproductionNdx
    refine sumRates_some _ _ _ fun c hc => ?_
    unfold photoproductionNdxTarget
    cases h : atom E c with
    | none => exact absurd h (ha c hc)
    | some s => rfl

/-- C148: the rate of a component of the medium, asked for by its hash, is its entry in the list of the rates. For the photo effect this
holds above the binding energy only; below it the list has 0, and the rate is not a number. -/
theorem C148_target (reg : Registry Hash Component) (M : Med) (E : ℝ) (c : Component) (hc : c ∈ M.components)
    (hr : lookupHash reg c.hash = .value c) (t : IType) :
    (∀ m, ∃ r, (directXSec t (annihilationRates reg m M)).ndxTarget E c.hash.toNat = .ok r ∧
      (c.hash.toNat, r) ∈ (directXSec t (annihilationRates reg m M)).perTarget E) ∧
    (∀ atom, ∃ r, (directXSec t (photoproductionRates reg atom M)).ndxTarget E c.hash.toNat = .ok r ∧
      (c.hash.toNat, r) ∈ (directXSec t (photoproductionRates reg atom M)).perTarget E) ∧
    (photoeffectCutOff c < E → ∃ r, (directXSec t (photoeffectRates reg M)).ndxTarget E c.hash.toNat = .ok r ∧
      (c.hash.toNat, r) ∈ (directXSec t (photoeffectRates reg M)).perTarget E) ∧
    (IsAtom c → E ≤ photoeffectCutOff c → photoeffectNdxTarget M E c = none ∧
      (c.hash.toNat, 0) ∈ (directXSec t (photoeffectRates reg M)).perTarget E) := by
  have hcomp : componentForHash reg c.hash.toNat = .ok c := by
    unfold componentForHash
    rw [BitVec.ofNat_toNat, BitVec.setWidth_eq, hr]
  have hmem : ∀ f : Component → Option ℝ, (c.hash.toNat, (f c).getD 0) ∈ rateList M f := by
    intro f
    exact List.mem_map.2 ⟨c, hc, rfl⟩
  refine ⟨fun m => ?_, fun atom => ⟨_, ?_, hmem _⟩, fun hE => ?_, fun ha hE => ⟨?_, ?_⟩⟩
  · refine ⟨heitlerRate m M c E, ?_, hmem _⟩
    simp only [directXSec, annihilationRates, hcomp]
    split_ifs with h
    · unfold heitlerRate
      rw [if_pos h]
    · rfl
  · simp only [directXSec, photoproductionRates, hcomp]
    rfl
  · refine ⟨(photoeffectNdxTarget M E c).getD 0, ?_, ?_⟩
    · simp only [directXSec, photoeffectRates, hcomp]
      rfl
    · have := hmem fun c => if E > photoeffectCutOff c then photoeffectNdxTarget M E c else some 0
      rw [if_pos hE] at this
      exact this
  · unfold photoeffectNdxTarget photoeffectAtom
    rw [(C118_threshold c E ha.1).2 hE]
    rfl
  · have := hmem fun c => if E > photoeffectCutOff c then photoeffectNdxTarget M E c else some 0
    rw [if_neg (not_lt.2 hE)] at this
    exact this

/-- C148: a component which does not belong to the medium has a rate nevertheless, if it has been constructed somewhere. -/
theorem C148_foreign_component (reg : Registry Hash Component) (M : Med) (m E : ℝ) (c : Component) (hm : 0 < m) (hE : m < E)
    (hs : 0 < M.sumNucleons) (ha : IsAtom c) (hn : 0 < c.atomInMolecule) (hr : lookupHash reg c.hash = .value c) (t : IType) :
    ∃ r > 0, (directXSec t (annihilationRates reg m M)).ndxTarget E c.hash.toNat = .ok r := by
  refine ⟨_, (C116_positive m M E hm hE).1 c ha hn hs, ?_⟩
  simp only [directXSec, annihilationRates, componentForHash, BitVec.ofNat_toNat, BitVec.setWidth_eq, hr]
  rw [if_neg (not_le.2 hE)]
  rfl

/-- C148: asking for a hash which no component has is answered by an exception, above the threshold of annihilation. -/
theorem C148_unknown_hash (reg : List (Hash × Component)) (M : Med) (m E : ℝ) (h : ℕ) (t : IType) (hr : ∀ e ∈ reg, e.1 ≠ BitVec.ofNat 64 h)
    (hE : m < E) : (directXSec t (annihilationRates (some reg) m M)).ndxTarget E h = .error .logicError ∧
      (directXSec t (photoeffectRates (some reg) M)).ndxTarget E h = .error .logicError ∧
      ∀ atom, (directXSec t (photoproductionRates (some reg) atom M)).ndxTarget E h = .error .logicError := by
  have hf : findKey (BitVec.ofNat 64 h) reg = none := by
    induction reg with
    | nil => rfl
    | cons e l ih =>
      unfold findKey
      rw [if_neg (hr e List.mem_cons_self)]
      exact ih fun x hx => hr x (List.mem_cons_of_mem _ hx)
  have hc : componentForHash (some reg) h = .error .logicError := by
    unfold componentForHash lookupHash
    simp only [hf]
  simp only [directXSec, annihilationRates, photoeffectRates, photoproductionRates, hc, if_neg (not_le.2 hE)]
  exact ⟨rfl, rfl, fun _ => rfl⟩

/-- C148: the lower limit of the energies is where the rates begin: at and below it they are 0, and above it they are positive. -/
theorem C148_lower_limit (reg : Registry Hash Component) (M : Med) (E : ℝ) (hA : Atoms M) (hne : M.components ≠ []) (t : IType) :
    (∀ m, 0 < m → (0 < (directXSec t (annihilationRates reg m M)).ndx E ↔ (directXSec t (annihilationRates reg m M)).lowerLim < E)) ∧
    (0 < (directXSec t (photoeffectRates reg M)).ndx E ↔ (directXSec t (photoeffectRates reg M)).lowerLim < E) ∧
    (∀ σ : ℝ → Component → ℝ, (∀ c ∈ M.components, (E < pionThreshold c → σ E c = 0) ∧ (pionThreshold c ≤ E → 0 < σ E c)) →
      (0 < (directXSec t (photoproductionRates reg (fun E c => photoproductionAtom (σ E c) c) M)).ndx E ↔
        (directXSec t (photoproductionRates reg (fun E c => photoproductionAtom (σ E c) c) M)).lowerLim ≤ E)) := by
  obtain ⟨r1, r2, r3⟩ := C148_rates reg M E
  refine ⟨fun m hm => ?_, ?_, fun σ hσ => ?_⟩
  · rw [(r1 m t).1]
    change _ ↔ m < E
    unfold heitlerTotal
    rw [sumOver_eq]
    constructor
    · intro h
      by_contra hE
      have : (M.components.map fun c => heitlerRate m M c E) = M.components.map fun _ => (0 : ℝ) := by
        apply List.map_congr_left
        intro c _
        exact (C116_rate m M c E hm).1 (not_lt.1 hE)
      rw [this] at h
      simp at h
    · intro hE
      refine List.sum_pos _ ?_ (by simpa using hne)
      intro x hx
      obtain ⟨c, hc, rfl⟩ := List.mem_map.1 hx
      exact (C116_positive m M E hm hE).1 c (hA.2 c hc).1 (hA.2 c hc).2.1 hA.1
  · have h := C118_lower_limit M E hA
    obtain ⟨c, hc, e, _⟩ := (lowestCutOff_spec photoeffectCutOff M.components).2 hne
    rw [e, (r2 hA t).1] at h
    simp only [Option.some.injEq] at h
    have hl : (directXSec t (photoeffectRates reg M)).lowerLim = photoeffectCutOff c := by
      simp [directXSec, photoeffectRates, e]
    rw [hl]
    constructor
    · intro hp
      by_contra hE
      rw [h.1 (not_lt.1 hE)] at hp
      exact lt_irrefl _ hp
    · intro hE
      obtain ⟨r, hr, e⟩ := h.2 hE
      rw [e]
      exact hr
  · have h0 : ∀ c ∈ M.components, 0 ≤ σ E c := by
      intro c hc
      rcases lt_or_ge E (pionThreshold c) with h | h
      · exact ((hσ c hc).1 h).ge
      · exact ((hσ c hc).2 h).le
    obtain ⟨s, hs, htot⟩ := C119_total M (σ E) hA.1 fun c hc => ⟨(hA.2 c hc).1, (hA.2 c hc).2.1, h0 c hc⟩
    have r := (r3 (fun E c => photoproductionAtom (σ E c) c) (fun c hc => by simp [(hs c hc).1]) t).1
    rw [htot, Option.some.injEq] at r
    rw [← r]
    obtain ⟨c, hc, e, hmin⟩ := (lowestCutOff_spec pionThreshold M.components).2 hne
    have hl : (directXSec t (photoproductionRates reg (fun E c => photoproductionAtom (σ E c) c) M)).lowerLim = pionThreshold c := by
      simp [directXSec, photoproductionRates, e]
    rw [hl]
    have hn : 0 < NAvogadro / M.sumNucleons := div_pos na_pos' hA.1
    have hs0 : ∀ d ∈ M.components, 0 ≤ s d := by
      intro d hd
      rcases (h0 d hd).eq_or_lt with h | h
      · exact ((hs d hd).2.2.1 h.symm).ge
      · exact ((hs d hd).2.1 h).le
    constructor
    · intro hp
      by_contra hE
      have : (M.components.map fun c => c.atomInMolecule * (1e-30 * s c)) = M.components.map fun _ => (0 : ℝ) := by
        apply List.map_congr_left
        intro d hd
        rw [(hs d hd).2.2.1 ((hσ d hd).1 ((not_le.1 hE).trans_le (hmin d hd)))]
        ring
      rw [this] at hp
      simp at hp
    · intro hE
      refine mul_pos hn ?_
      have hpos : 0 < c.atomInMolecule * (1e-30 * s c) :=
        mul_pos (hA.2 c hc).2.1 (mul_pos (by norm_num) ((hs c hc).2.1 ((hσ c hc).2 hE)))
      refine lt_of_lt_of_le hpos (List.single_le_sum ?_ _ (List.mem_map_of_mem (f := fun c => c.atomInMolecule * (1e-30 * s c)) hc))
      intro x hx
      obtain ⟨d, hd, rfl⟩ := List.mem_map.1 hx
      exact mul_nonneg (hA.2 d hd).2.1.le (mul_nonneg (by norm_num) (hs0 d hd))

/-! ## Sampling -/

/-- A cross section which `make_crosssection` gives, from an object that is not `const` or has no name, times any multiplier. -/
def Spec.Built (x : XSec) : Prop :=
  ∃ (cls : CrossClass) (const named interpol : Bool) (P : CrossParts) (R : DirectRates) (cut : Option Cut) (y : XSec),
    Plain const named ∧ makeCrossSection (deduced cls const named) P R cut interpol = some (.ok y) ∧ (x = y ∨ ∃ k, x = y.mul k)

theorem made_type (cls : CrossClass) (const named interpol : Bool) (P : CrossParts) (R : DirectRates) (cut : Option Cut) (x : XSec)
    (h : makeCrossSection (deduced cls const named) P R cut interpol = some (.ok x)) : x.type = cls.itype := by
  unfold makeCrossSection at h
  split_ifs at h with h1 h2 h3 h4
  · cases Option.some.inj h
  · rw [← Except.ok.inj (Option.some.inj h)]; rfl
  · cases Option.some.inj h
  · rw [← Except.ok.inj (Option.some.inj h)]
    unfold crossSectionOf
    split_ifs <;> rfl

theorem itype_not (cls : CrossClass) : cls.itype ≠ .decay ∧ cls.itype ≠ .undefined := by
  rcases cls with c | _ | _ | n <;> (try cases c) <;> simp [CrossClass.itype]

theorem built_spec {x : XSec} (h : Built x) : x.type ≠ .decay ∧ (x.type ∈ absorbed → ∀ hash E rate, x.stochasticLoss hash E rate = .ok 1) := by
  obtain ⟨cls, const, named, interpol, P, R, cut, y, hp, hy, hx⟩ := h
  have ht := made_type _ _ _ _ _ _ _ _ hy
  have key : y.type ≠ .decay ∧ (y.type ∈ absorbed → ∀ hash E rate, y.stochasticLoss hash E rate = .ok 1) := by
    rw [ht]
    exact ⟨(itype_not cls).1, fun hc => (C148_all_energy_partial cls const named interpol P R cut y hp hc hy).2.2⟩
  rcases hx with rfl | ⟨k, rfl⟩
  · exact key
  · exact ⟨key.1, fun h _ _ _ => key.2 h _ _ _⟩

theorem sampleGo_mem (l : List Rate) (s : ℝ) (r : Rate) (left : ℝ) (h : sampleGo l s = some (r, left)) : r ∈ l := by
  induction l generalizing s with
  | nil => cases h
  | cons a l ih =>
    unfold sampleGo at h
    split_ifs at h
    · rw [Option.some.injEq, Prod.mk.injEq] at h
      rw [h.1]
      exact List.mem_cons_self
    · exact List.mem_cons_of_mem _ (ih _ h)

/-- C148: a sampled loss is never called a decay, and one that converts the particle takes all of its energy. -/
theorem C148_sampled (xs : List XSec) (hx : ∀ x ∈ xs, Built x) (E rnd : ℝ) (l : Loss) (h : sampleLoss E (ratesOf xs E) rnd = .ok l) :
    l.type ≠ .decay ∧ (l.type ∈ absorbed → l.v = 1) := by
  unfold sampleLoss at h
  simp only at h
  cases hg : sampleGo (ratesOf xs E) (rnd * ((ratesOf xs E).map Rate.rate).sum) with
  | none =>
    rw [hg] at h
    simp only at h
    split_ifs at h
    cases h
    simp [absorbed]
  | some p =>
    obtain ⟨r, left⟩ := p
    rw [hg] at h
    simp only at h
    have hr := sampleGo_mem _ _ _ _ hg
    unfold ratesOf at hr
    obtain ⟨x, hxs, hr⟩ := List.mem_flatMap.1 hr
    obtain ⟨e, _, rfl⟩ := List.mem_map.1 hr
    obtain ⟨b1, b2⟩ := built_spec (hx x hxs)
    simp only at h
    cases hs : x.stochasticLoss e.1 E left with
    | error _ => rw [hs] at h; cases h
    | ok v =>
      rw [hs] at h
      cases h
      refine ⟨b1, fun ha => ?_⟩
      have := b2 ha e.1 E left
      rw [hs] at this
      exact Except.ok.inj this

/-- A propagator whose utilities are made of cross sections from `make_crosssection`. -/
def Spec.BuiltOf (a : PropArgs) : Prop :=
  ∀ s ∈ a.sectors, ∃ c : UtilitySettings, c.utility = some s.util ∧ ∀ x ∈ c.cross, Built x

theorem builtOf_sample (a : PropArgs) (ha : BuiltOf a) : ∀ s ∈ a.sectors, ∀ E rnd,
    (s.util.sampleLoss E rnd).type ≠ .decay ∧ ((s.util.sampleLoss E rnd).type ∈ absorbed → (s.util.sampleLoss E rnd).v = 1) := by
  intro s hs E rnd
  obtain ⟨c, hc, hx⟩ := ha s hs
  obtain ⟨lower, _, _, hm⟩ := utility_some hc
  obtain e := Option.some.inj hm
  rw [← e]
  change (c.sample E rnd).type ≠ .decay ∧ ((c.sample E rnd).type ∈ absorbed → (c.sample E rnd).v = 1)
  unfold UtilitySettings.sample
  cases h : sampleLoss E (ratesOf c.cross E) rnd with
  | error _ => simp [absorbed]
  | ok l => exact C148_sampled c.cross hx E rnd l h

/-- C148: the energy balance of a track (C147) for propagators made of cross sections: nothing has to be assumed about the losses. -/
theorem C148_track (a : PropArgs) (ha : BuiltOf a) (init : PState) (pos : ℕ) (q : Prop') (y : Entry)
    (h : Reachable a init pos q) (hy : q.track.getLast? = some y)
    (o : SecSampling) (primary partner : Daughter) (ts : List IType) (is : List Spec.Interaction)
    (h1 : is.map Spec.Interaction.loss = stochasticLosses q.track)
    (h2 : ∀ i ∈ is, lossSecondaries o primary partner ts i.loss i.Z i.rnd = .ok (some i.secondaries)) :
    deposited q.track + totalEnergy (added is) + y.state.energy = init.energy + atomsEnergy is :=
  C147_track a init pos q y (fun s hs E rnd => (builtOf_sample a ha s hs E rnd).1) (fun s hs E rnd => (builtOf_sample a ha s hs E rnd).2)
    h hy o primary partner ts is h1 h2

/-- C148: a photon or a positron that is converted is not there any more: the entry after the interaction has the energy 0. -/
theorem C148_gone (a : PropArgs) (ha : BuiltOf a) (init : PState) (pos : ℕ) (q : Prop') (h : Reachable a init pos q)
    (l : StochLoss) (hl : l ∈ stochasticLosses q.track) (ht : l.type ∈ absorbed) :
    l.energy = l.parentEnergy ∧ ∃ i x y, q.track[i]? = some x ∧ q.track[i + 1]? = some y ∧ y.type = l.type ∧ y.state.energy = 0 := by
  have e := C147_absorbed a init pos q h (fun s hs E rnd => (builtOf_sample a ha s hs E rnd).2) l hl ht
  refine ⟨e, ?_⟩
  obtain ⟨i, x, y, h1, h2, h3, h4, rfl⟩ := (C20_stochastic_content q.track l).1 hl
  refine ⟨i, x, y, h1, h2, rfl, ?_⟩
  simp only at e
  linarith

/-! ## Configurations and default cross sections -/

theorem key_absorbed (cls : CrossClass) :
    cls.itype ∈ absorbed ↔ Spec.crossKey cls ∉ ["brems", "compton", "epair", "ioniz", "mupair", "photo"] := by
  rcases cls with c | _ | _ | n <;> (try cases c) <;> simp [CrossClass.itype, absorbed, Spec.crossKey, ParClass.id]

/-- C148: neither the cross sections of a configuration nor the default cross sections are refused, whatever the cuts. -/
theorem C148_factories (cut : Option ℝ × ℝ) (interpol : Bool) (l : List CrossSpec)
    (h : (∃ d config, createCrossSectionList cut interpol d config = .ok l) ∨ ∃ type, stdCrossSections type cut interpol = some l)
    (s : CrossSpec) (hs : s ∈ l) (P : CrossParts) (R : DirectRates) (k : Cut) (named : Bool) :
    ∃ x, makeCrossSection (deduced s.cls false named) P R (if s.cuts then some k else none) s.interpol = some (.ok x) ∧ Built x := by
  have hcuts : s.cuts = true ↔ Spec.crossKey s.cls ∈ ["brems", "compton", "epair", "ioniz", "mupair", "photo"] := by
    rcases h with ⟨d, config, h⟩ | ⟨type, h⟩
    · obtain ⟨f, e, _, _, he⟩ := (C132_cross_list cut interpol d config l h).2 s hs
      exact he.cuts
    · exact ((C132_defaults type cut interpol).2 l h s hs).2.2.1
  cases hm : makeCrossSection (deduced s.cls false named) P R (if s.cuts then some k else none) s.interpol with
  | none =>
    rw [C148_compiled] at hm
    simp [Plain] at hm
  | some r =>
    cases r with
    | error e =>
      exfalso
      rw [C148_refused] at hm
      obtain ⟨_, h1, h2, _⟩ := hm
      have h3 : s.cls.itype ∈ absorbed := by
        revert h2
        generalize s.cls.itype = t
        cases t <;> simp [absorbed]
      rw [key_absorbed, ← hcuts] at h3
      simp [h3] at h1
    | ok x => exact ⟨x, rfl, s.cls, false, named, s.interpol, P, R, _, x, by simp [Plain], hm, Or.inl rfl⟩

/-! ## Examples -/

namespace BuilderExample

/-- Calculators which do not depend on the component. -/
noncomputable def parts : CrossParts where
  h := fun _ _ _ => 7
  comps := [⟨"H", 1, 1, 2⟩]
  mediumHash := 3
  rate := fun _ _ => ⟨fun E => E, fun E v => E * v, fun _ _ => 1 / 2⟩
  rateMedium := fun _ => ⟨fun E => E, fun E v => E * v, fun _ _ => 1 / 2⟩
  loss := fun _ _ E => E
  lossMedium := fun _ E => E
  loss2 := fun _ _ E => E
  loss2Medium := fun _ E => E
  lower := 1

noncomputable def rates : DirectRates := ⟨fun _ _ => .ok 2, fun _ => [(7, 2)], 1⟩

noncomputable def cuts : Cut := ⟨.fin 500, .fin (1 / 20), true⟩

/-- Pairs of photons: refused with cuts, all energy without. -/
example : makeCrossSection (deduced (.par .photoPairTsai) false true) parts rates (some cuts) true = some (.error .logicError) ∧
    ∃ x, makeCrossSection (deduced (.par .photoPairTsai) false true) parts rates none true = some (.ok x) ∧
      x.stochasticLoss 7 10 3 = .ok 1 ∧ x.edx 10 = 0 := by
  refine ⟨(C148_refused _ _ _ _ _ _ _ _).2 ⟨rfl, by simp, by simp [CrossClass.itype], by simp [Plain]⟩, ?_⟩
  refine ⟨crossSectionOf parts .photopair true true true none, ?_, ?_⟩
  · simp [makeCrossSection, deduced, paramType, removeReference, removeCv, CrossClass.isDirect, isOnlyStochastic, isComponentWise,
      CrossClass.ofMedium, CrossClass.itype]
  · obtain ⟨_, h2, h3⟩ := C148_all_energy_partial (.par .photoPairTsai) false true true parts rates none (hp := by simp [Plain])
      (hc := by simp [CrossClass.itype, absorbed]) (x := crossSectionOf parts .photopair true true true none)
      (h := by simp [makeCrossSection, deduced, paramType, removeReference, removeCv, CrossClass.isDirect, isOnlyStochastic, isComponentWise,
        CrossClass.ofMedium, CrossClass.itype])
    exact ⟨h3 _ _ _, (h2 _).1⟩

/-- The same parametrization as a `const` object with a name: the photon keeps a half of its energy. -/
example : ∃ x, makeCrossSection (deduced (.par .photoPairTsai) true true) parts rates none true = some (.ok x) ∧
    x.stochasticLoss 7 10 3 = .ok (1 / 2) := by
  obtain ⟨x, h1, h2, _⟩ := C148_const (.par .photoPairTsai) true parts rates none (by simp [CrossClass.itype])
  exact ⟨x, h1, h2 rfl _ rfl 10 3⟩

/-- With cuts there is a continuous loss by pairs. -/
example : ∃ x, makeCrossSection (deduced (.par .photoPairTsai) true true) parts rates (some cuts) true = some (.ok x) ∧ x.edx 10 = 10 := by
  obtain ⟨x, h1, _, h3⟩ := C148_const (.par .photoPairTsai) true parts rates (some cuts) (by simp [CrossClass.itype])
  refine ⟨x, h1, ?_⟩
  rw [h3 (by simp)]
  norm_num [parts, weightComponent, sumNucleons]

/-- The positron of the default cross sections. -/
example : ∃ l, stdCrossSections (-11) (some 500, 1) false = some l ∧ l.length = 5 ∧ ∀ s ∈ l, ∃ x,
    makeCrossSection (deduced s.cls false true) parts rates (if s.cuts then some cuts else none) s.interpol = some (.ok x) ∧ Built x :=
  ⟨_, rfl, rfl, fun s hs => C148_factories _ _ _ (Or.inr ⟨-11, rfl⟩) s hs parts rates cuts true⟩

/-- A photon in a medium made of one cross section, which converts it. -/
example : ∃ x, Built x ∧ x.type ∈ absorbed ∧ sampleLoss 10 (ratesOf [x] 10) (1 / 2) = .ok ⟨.photoproduction, 7, 1⟩ := by
  refine ⟨directXSec .photoproduction rates, ⟨.photoproduction "Zeus", false, true, false, parts, rates, none, _, by simp [Plain], ?_,
    Or.inl rfl⟩, by simp [directXSec, absorbed], ?_⟩
  · simp [makeCrossSection, deduced, paramType, removeReference, removeCv, CrossClass.isDirect, isOnlyStochastic, CrossClass.itype]
  · norm_num [sampleLoss, ratesOf, directXSec, rates, sampleGo, Except.map]

/-- A propagator whose sector has the utility made of this cross section. -/
example (Q : Quadrature) (search : IState → Option ℝ) (junk : IState) (N : Normal) :
    ∃ (a : PropArgs) (init : PState) (q : Prop'), a.sectors ≠ [] ∧ BuiltOf a ∧ Reachable a init 0 q := by
  let c : UtilitySettings := ⟨Q, search, junk, N, [directXSec .photoproduction rates], [], 0, none, false, false, none⟩
  obtain ⟨u, hu⟩ := (C146_constructed c).2 ⟨by simp [c], by simp [c]⟩
  let s : Sector := ⟨Toy.geo 10000, u, Toy.dens⟩
  let init : PState := ⟨10, 0, ⟨0, 0, 0⟩, ⟨0, 0, 1⟩, 0⟩
  refine ⟨⟨[s], fun _ => 1 / 2, 5000, 1, 0⟩, init, ⟨init, s, [⟨init, .continuousEnergyLoss, 0⟩], 0, true⟩, by simp, ?_, ?_⟩
  · intro s' hs'
    obtain rfl : s' = s := by simpa using hs'
    refine ⟨c, hu, fun x hx => ?_⟩
    obtain rfl : x = directXSec .photoproduction rates := by simpa [c] using hx
    refine ⟨.photoproduction "Zeus", false, true, false, parts, rates, none, _, by simp [Plain], ?_, Or.inl rfl⟩
    simp [makeCrossSection, deduced, paramType, removeReference, removeCv, CrossClass.isDirect, isOnlyStochastic, CrossClass.itype]
  · refine .start _ ?_
    have hin : (Toy.geo 10000).isInside init.position init.direction := Toy.inside (by norm_num) _ _
    have : currentSector [s] init.position init.direction = some s := by
      unfold currentSector
      simp [s, hin, maxHierarchy]
    unfold propInit
    simp only [this]

end BuilderExample

end Proposal
