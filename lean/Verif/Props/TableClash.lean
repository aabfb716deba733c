import Verif.Props.TableStore
import Verif.Props.KleinNishina
import Verif.Model.Calculators

/-!
# C131: different tables with the same name, the same table with different names
-/

namespace Proposal

/-- The tables for the secondaries of a photon have the same name for every process, for every hash function: for pairs of electrons after
Tsai, after Koch and Motz, and for pairs of muons. If two of them are made with a path for tables, the second gets the table of the first,
which is not its own one. -/
theorem C131_photon_secondaries {α T : Type} (A : HashAlg α) (s : TableSettings) (build : ParClass → PDef → Component → T)
    (cls cls' : ParClass) (p : PDef) (c : Component) (hdiff : build cls p c ≠ build cls' p c) :
    photonSecondaryName A s cls p c = photonSecondaryName A s cls' p c ∧
    (openTables (fun _ => none) [(photonSecondaryName A s cls p c, build cls p c), (photonSecondaryName A s cls' p c, build cls' p c)]).1 =
      [build cls p c, build cls p c] ∧
    (openTables (fun _ => none) [(photonSecondaryName A s cls p c, build cls p c), (photonSecondaryName A s cls' p c, build cls' p c)]).1 ≠
      [build cls p c, build cls' p c] := by
  have h2 : (openTables (fun _ => none) [(photonSecondaryName A s cls p c, build cls p c),
      (photonSecondaryName A s cls' p c, build cls' p c)]).1 = [build cls p c, build cls p c] := by
    have e : photonSecondaryName A s cls' p c = photonSecondaryName A s cls p c := rfl
    rw [e]
    simp [openTables, openTable]
  refine ⟨rfl, h2, ?_⟩
  rw [h2]
  simpa using hdiff

/-- The name of the cross section of the same processes tells them apart. -/
theorem C131_photon_cross (k k' : CrossTable) (r r' : TableReq) (hr : r.cls ≠ r'.cls) :
    k.fileName HTerm.free r ≠ k'.fileName HTerm.free r' := by
  intro h
  exact hr (congrArg Spec.CrossData.cls (C131_cross_partial k k' r r' h).2.1)

/-- The table of the secondaries of weak interactions has another name in every run in which the string literal has another address, though
everything that the table is made of is the same. -/
theorem C131_weak_secondaries (s : TableSettings) (a a' : ℕ) (p : PDef) (m : Med) (c : Component) (h : a ≠ a') :
    weakSecondaryName HTerm.free s a p m c ≠ weakSecondaryName HTerm.free s a' p m c := by
  intro e
  simp only [weakSecondaryName, dndxKey, targetKey, HTerm.free, Prod.mk.injEq, HTerm.size.injEq, HTerm.dbl.injEq, HTerm.int.injEq,
    HTerm.ptr.injEq] at e
  exact h (by tauto)

/-- The tables of the hard component of a particle do not enter any name, for every hash function. -/
theorem C131_hard_name {α : Type} (A : HashAlg α) (k : CrossTable) (r : TableReq) (tables : List (List ℝ)) :
    k.fileName A { r with particle := { r.particle with hard := tables } } = k.fileName A r := by
  cases k <;> rfl

/-- But the cross section for real photons with hard component depends on them: at an energy of 10⁶ MeV and half of it lost, where every
interpolant gives its first value. -/
theorem C131_hard_cross (I : List ℝ → ℝ → ℝ) (hI : ∀ y ys, I (y :: ys) 3 = y) (m : ℝ) (hm : m ≠ 0) (y y' : ℝ) (hy : y ≠ y') :
    realPhotonCross .zeus (some ([[y]].map I)) m 1 exHydrogen 1e6 (1 / 2) ≠
      realPhotonCross .zeus (some ([[y']].map I)) m 1 exHydrogen 1e6 (1 / 2) := by
  have hlog : Real.log 1e6 / Real.log 10 - 3 = 3 := by
    have h10 : Real.log 10 ≠ 0 := (Real.log_pos (by norm_num)).ne'
    have : (1e6 : ℝ) = 10 ^ (6 : ℕ) := by norm_num
    rw [this, Real.log_pow]
    field_simp
    norm_num
  have hh : ∀ y : ℝ, hardComponent ([[y]].map I) 1e6 (1 / 2) = 2 * y := by
    intro y
    unfold hardComponent
    rw [if_neg (by norm_num), hlog]
    simp only [List.map_cons, List.map_nil, hardSum, hI]
    ring
  have hs : ∀ σ, realShadowing σ exHydrogen = some 1 := by
    intro σ
    unfold realShadowing
    rw [if_pos (by norm_num [exHydrogen])]
  unfold realPhotonCross
  simp only
  have hv : ¬((1 / 2 : ℝ) = 0 ∨ (1 / 2 : ℝ) = 1 ∨ m = 0) := by push Not; exact ⟨by norm_num, by norm_num, hm⟩
  rw [if_neg hv, if_neg hv, hs]
  simp only [Option.map_some, hh, ne_eq, Option.some.injEq]
  intro e
  apply hy
  have hN : NAvogadro / exHydrogen.atomicNum ≠ 0 := by norm_num [NAvogadro, exHydrogen]
  simp only [mul_one] at e
  have e' := add_left_cancel (mul_left_cancel₀ hN e)
  have hA : exHydrogen.atomicNum * (1e-30 : ℝ) ≠ 0 := by norm_num [exHydrogen]
  have := mul_left_cancel₀ hA e'
  linarith

/-- The names of the tables of the exact time do not contain the mass, for every hash function and every list of cross sections, though
the integrand depends on it: two calculators with different masses at the same energy. -/
theorem C131_time {α : Type} (A : HashAlg α) (s : TableSettings) (ks : List α) (m m' E : ℝ) (dedx : ℝ → ℝ) (hm : 0 ≤ m) (hmm : m < m')
    (hE : m' < E) (hd : 0 < dedx E) :
    (UtilTable.exactTime m).fileName A s ks = (UtilTable.exactTime m').fileName A s ks ∧
      timeIntegrand dedx m E ≠ timeIntegrand dedx m' E := by
  refine ⟨rfl, ?_⟩
  have hd0 : displacementIntegrand dedx E ≠ 0 := by
    unfold displacementIntegrand
    rw [if_pos hd]
    exact div_ne_zero (by norm_num) hd.ne'
  unfold timeIntegrand
  rw [if_neg hd0, if_neg hd0]
  have h1 : 0 < (E - m') * (E + m') := mul_pos (by linarith) (by linarith)
  have h2 : (E - m') * (E + m') < (E - m) * (E + m) := by nlinarith
  rw [max_eq_left h1.le, max_eq_left (h1.trans h2).le]
  have hs := Real.sqrt_lt_sqrt h1.le h2
  have hs0 := Real.sqrt_pos.mpr h1
  have hsp : (0 : ℝ) < SPEED := by norm_num [SPEED]
  intro e
  have hn : displacementIntegrand dedx E * E ≠ 0 := mul_ne_zero hd0 (by linarith)
  rw [div_eq_div_iff (mul_pos (hs0.trans hs) hsp).ne' (mul_pos hs0 hsp).ne'] at e
  have := mul_right_cancel₀ hsp.ne' (by simpa [mul_assoc] using mul_left_cancel₀ hn e)
  linarith

/-! ## Examples -/

/-- Settings as in Constants.cxx 27-34. -/
noncomputable def exTables : TableSettings := ⟨500, 200, 100, 100, 500, 10000, 1e14⟩

/-- A photon. -/
noncomputable def exPhoton : PDef := ⟨[], 0, 0, none, 0, [], [], 22, 0⟩

/-- A muon. -/
noncomputable def exMuonDef : PDef := ⟨[], MMU, MMU, some 2.2e-6, -1, [], [], 13, 14⟩

/-- The rates of bremsstrahlung with LPM effect in hydrogen. -/
noncomputable def exReq (p : PDef) (d : ℝ) : TableReq :=
  ⟨.bremsKelnerKokoulinPetrukhin, .bremsLpm d, p, exWater, some (some 500, 0.05), some exHydrogen, exTables⟩

example (d d' : ℝ) (h : CrossTable.dndx.fileName HTerm.free (exReq exMuonDef d) = CrossTable.dndx.fileName HTerm.free (exReq exMuonDef d')) :
    d = d' := by
  have e := congrArg Spec.CrossData.opt (C131_cross_partial _ _ _ _ h).2.1
  simpa [Spec.dataOf, exReq] using e

/-- Pairs of muons made before pairs of electrons: the lower limit of the energy is wrong. -/
example {α : Type} (A : HashAlg α) :
    (openTables (fun _ => none)
      [(photonSecondaryName A exTables .photoMuPairBurkhardtKelnerKokoulin exPhoton exHydrogen, 2 * MMU),
       (photonSecondaryName A exTables .photoPairKochMotz exPhoton exHydrogen, 2 * ME)]).1 = [2 * MMU, 2 * MMU] :=
  (C131_photon_secondaries A exTables (fun cls _ _ => if cls = .photoPairKochMotz then 2 * ME else 2 * MMU)
    .photoMuPairBurkhardtKelnerKokoulin .photoPairKochMotz exPhoton exHydrogen (by rw [if_neg (by decide), if_pos rfl]; norm_num [ME, MMU])).2.1

example (u : ℝ → UtilTable) (p p' : PDef)
    (h : (u p.mass).fileName HTerm.free exTables ([([(CrossTable.dndx, exReq p 1)], none)].map (crossHash HTerm.free)) =
      (u p'.mass).fileName HTerm.free exTables ([([(CrossTable.dndx, exReq p' 1)], none)].map (crossHash HTerm.free))) : p.mass = p'.mass :=
  congrArg Prod.fst (C131_mass u u exTables exTables _ _ p p' (by simp [exReq]) (by simp [exReq]) ⟨_, List.mem_cons_self, by simp⟩ h)

example (s : TableSettings) (ks ks' : List HTerm) (l l' m m' : ℝ)
    (h : (UtilTable.decay l m).fileName HTerm.free s ks = (UtilTable.decay l' m').fileName HTerm.free s ks') : l = l' ∧ m = m' ∧ ks = ks' := by
  obtain ⟨_, h2, h3, _⟩ := C131_utility _ _ _ _ _ _ h
  have e := h2 l m rfl
  simp only [UtilTable.decay.injEq] at e
  exact ⟨e.1.symm, e.2.symm, h3⟩

example : timeIntegrand (fun _ => 2) ME 1000 ≠ timeIntegrand (fun _ => 2) MMU 1000 :=
  (C131_time HTerm.free exTables [] ME MMU 1000 (fun _ => 2) (by norm_num [ME]) (by norm_num [ME, MMU]) (by norm_num [MMU]) (by norm_num)).2

end Proposal
