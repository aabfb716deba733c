import Verif.Lemmas.Azimuth
import Verif.Props.Secondaries
import Verif.Props.Deflection
import Verif.Model.Utility

/-!
# C158: no side of the flight direction is preferred

The random number of the azimuth is uniform in `[0, 1)`; the other random numbers are arbitrary but fixed.
-/

namespace Proposal
namespace Spec

/-- The state with its direction turned; place, energy and time stay. -/
def turned (R : Vec3 → Vec3) (p : Part) : Part := { p with dir := R p.dir }

/-- What one random number yields has the same distribution after any rotation about the direction and after any reflection at a
plane through it. `act` turns a result. -/
def NoSide {α : Type} (dir : Vec3) (act : (Vec3 → Vec3) → α → α) (out : ℝ → α) : Prop :=
  ∀ R, About dir R → ∀ g : α → ENNReal, mean1 (fun u => g (act R (out u))) = mean1 (fun u => g (out u))

/-- Turned results of the calculators of secondaries. -/
def turnList (R : Vec3 → Vec3) : Option (List Part) → Option (List Part) := Option.map (List.map (turned R))

end Spec

open Spec MeasureTheory Set Real
open scoped ENNReal

namespace Azimuth

/-- From functions of the azimuth to functions of the random number. -/
theorem noSide_of {α : Type} {dir : Vec3} (hd : UnitVec dir) (act : (Vec3 → Vec3) → α → α) (out F : ℝ → α)
    (e : ∀ u, out u = F (2 * π * u)) (per : ∀ θ, F (θ + 2 * π) = F θ)
    (h : ∀ R a σ, About dir R → (σ = 1 ∨ σ = -1) → (∀ c θ, R (dir.deflect c θ) = dir.deflect c (a + σ * θ)) →
      ∀ θ, act R (F θ) = F (a + σ * θ)) : NoSide dir act out := by
  intro R hR g
  obtain ⟨a, σ, hσ, k⟩ := turn_deflect hd hR
  simp only [e]
  exact even F (fun θ => act R (F θ)) per a σ hσ (h R a σ hR hσ k) g

theorem deflect_per (dir : Vec3) (c θ : ℝ) : dir.deflect c (θ + 2 * π) = dir.deflect c θ :=
  deflect_congr _ _ _ _ (cos_add_two_pi θ) (sin_add_two_pi θ)

theorem opposite_per (dir : Vec3) (c0 c1 θ : ℝ) : opposite dir c0 c1 (θ + 2 * π) = opposite dir c0 c1 θ := by
  unfold opposite
  have h1 := fmod_trig (θ + 2 * π)
  have h2 := fmod_trig θ
  rw [deflect_per, deflect_congr dir c1 _ (fmod (θ + π) (2 * π)) (by rw [h1.1, h2.1, cos_add_two_pi])
    (by rw [h1.2, h2.2, sin_add_two_pi])]

theorem opposite_turn {dir : Vec3} {R : Vec3 → Vec3} {a σ : ℝ} (hσ : σ = 1 ∨ σ = -1)
    (h : ∀ c θ, R (dir.deflect c θ) = dir.deflect c (a + σ * θ)) (c0 c1 θ : ℝ) :
    (R (opposite dir c0 c1 θ).1, R (opposite dir c0 c1 θ).2) = opposite dir c0 c1 (a + σ * θ) := by
  have e : ∀ θ, opposite dir c0 c1 θ = (dir.deflect c0 θ, dir.deflect c1 (θ + π)) := fun θ => by
    unfold opposite
    rw [deflect_congr dir c1 _ (θ + π) (by rw [(fmod_trig θ).1, cos_add_pi]) (by rw [(fmod_trig θ).2, sin_add_pi])]
  rw [e, e, h, h]
  refine Prod.ext rfl ?_
  simp only
  rcases hσ with rfl | rfl
  · rw [show a + 1 * (θ + π) = a + 1 * θ + π by ring]
  · rw [show a + -1 * (θ + π) = a + -1 * θ - π by ring]
    exact deflect_congr _ _ _ _ (by rw [cos_sub_pi, cos_add_pi]) (by rw [sin_sub_pi, sin_add_pi])

theorem state_turned (R : Vec3 → Vec3) (l : SLoss) (d : Daughter) (v : Vec3) (E s : ℝ) :
    turned R (l.state d v E s) = l.state d (R v) E s := rfl

/-- Two products with opposite azimuths. -/
theorem two {l : SLoss} (hd : UnitVec l.dir) (out : ℝ → Option (List Part)) (c0 c1 E1 E2 s1 s2 : ℝ) (d1 d2 : Daughter)
    (e : ∀ u, out u = some [l.state d1 (opposite l.dir c0 c1 (2 * π * u)).1 E1 s1,
      l.state d2 (opposite l.dir c0 c1 (2 * π * u)).2 E2 s2]) : NoSide l.dir turnList out := by
  refine noSide_of hd turnList out (fun θ => some [l.state d1 (opposite l.dir c0 c1 θ).1 E1 s1,
    l.state d2 (opposite l.dir c0 c1 θ).2 E2 s2]) e (fun θ => ?_) fun R a σ _ hσ h θ => ?_
  · simp only [opposite_per]
  · have k := opposite_turn hσ h c0 c1 θ
    simp only [turnList, Option.map_some, List.map_cons, List.map_nil, state_turned]
    rw [← k]

/-- A result that is never there. -/
theorem never (dir : Vec3) (out : ℝ → Option (List Part)) (e : ∀ u, out u = none) : NoSide dir turnList out := by
  intro R _ g
  simp only [e, turnList, Option.map_none]

end Azimuth

open Azimuth

/-- C158: a deflection with the azimuth `2 π u` prefers no side. -/
theorem C158_deflection (dir : Vec3) (hd : UnitVec dir) (c : ℝ) :
    NoSide dir (fun R v => R v) (fun u => dir.deflect c (2 * π * u)) :=
  noSide_of hd _ _ (fun θ => dir.deflect c θ) (fun _ => rfl) (deflect_per dir c) fun _ _ _ _ _ h θ => h c θ

/-- C158: on average a deflected particle goes on in the old direction, shortened by the cosine of the angle. -/
theorem C158_mean (dir : Vec3) (c : ℝ) (h0 : -1 ≤ c) (h1 : c ≤ 1) :
    (∫ u in (0 : ℝ)..1, (dir.deflect c (2 * π * u)).x) = c * dir.x ∧
    (∫ u in (0 : ℝ)..1, (dir.deflect c (2 * π * u)).y) = c * dir.y ∧
    (∫ u in (0 : ℝ)..1, (dir.deflect c (2 * π * u)).z) = c * dir.z := by
  have hc : (∫ u in (0 : ℝ)..1, cos (2 * π * u)) = 0 := by
    rw [intervalIntegral.integral_comp_mul_left (fun x => cos x) (by positivity : (2 * π) ≠ 0), integral_cos]
    simp
  have hs : (∫ u in (0 : ℝ)..1, sin (2 * π * u)) = 0 := by
    rw [intervalIntegral.integral_comp_mul_left (fun x => sin x) (by positivity : (2 * π) ≠ 0), integral_sin]
    simp
  have key : ∀ A B C : ℝ, (∫ u in (0 : ℝ)..1, (A + B * cos (2 * π * u) + C * sin (2 * π * u))) = A := by
    intro A B C
    rw [intervalIntegral.integral_add, intervalIntegral.integral_add, intervalIntegral.integral_const_mul,
      intervalIntegral.integral_const_mul, hc, hs]
    · simp
    · exact intervalIntegrable_const
    · exact (by fun_prop : Continuous fun u : ℝ => B * cos (2 * π * u)).intervalIntegrable _ _
    · exact (by fun_prop : Continuous fun u : ℝ => A + B * cos (2 * π * u)).intervalIntegrable _ _
    · exact (by fun_prop : Continuous fun u : ℝ => C * sin (2 * π * u)).intervalIntegrable _ _
  set s := Real.sqrt (1 - c ^ 2) with hs'
  refine ⟨?_, ?_, ?_⟩
  · rw [← key (c * dir.x) (s * dir.rotX.x) (s * dir.rotY.x)]
    congr 1; funext u
    rw [Vec3.deflect_formula dir c _ h0 h1]
    simp only [Vec3.add_x, Vec3.smul_x]; ring
  · rw [← key (c * dir.y) (s * dir.rotX.y) (s * dir.rotY.y)]
    congr 1; funext u
    rw [Vec3.deflect_formula dir c _ h0 h1]
    simp only [Vec3.add_y, Vec3.smul_y]; ring
  · rw [← key (c * dir.z) (s * dir.rotX.z) (s * dir.rotY.z)]
    congr 1; funext u
    rw [Vec3.deflect_formula dir c _ h0 h1]
    simp only [Vec3.add_z, Vec3.smul_z]; ring

/-! ## Stochastic deflections -/

/-- The direction after a deflection by given angles. -/
noncomputable def Spec.deflected (dir : Vec3) (a : Option (ℝ × ℝ)) : Option Vec3 := a.map fun p => dir.deflect (cos p.1) p.2

theorem Azimuth.angles {dir : Vec3} (hd : UnitVec dir) (t : Option ℝ) (out : ℝ → Option (ℝ × ℝ))
    (e : ∀ u, out u = t.map fun x => (x, 2 * π * u)) : NoSide dir Option.map (fun u => deflected dir (out u)) := by
  refine noSide_of hd Option.map _ (fun θ => deflected dir (t.map fun x => (x, θ))) (fun u => by rw [e]) (fun θ => ?_)
    fun R a σ _ _ h θ => ?_
  · cases t with
    | none => rfl
    | some x => simp only [deflected, Option.map_some, deflect_per]
  · cases t with
    | none => rfl
    | some x => simp only [deflected, Option.map_some, h]

/-- C158: the stochastic deflections of ionization, bremsstrahlung (after Tsai), photonuclear interactions and pairs. -/
theorem C158_stochastic (dir : Vec3) (hd : UnitVec dir) (m ei ef r0 : ℝ) :
    NoSide dir Option.map (fun u => deflected dir (ionizNaive m ei ef u)) ∧
    NoSide dir Option.map (fun u => deflected dir (some (tsaiDeflection m ei ef r0 u))) ∧
    NoSide dir Option.map (fun u => deflected dir (borogDeflection m ei ef r0 u)) ∧
    NoSide dir Option.map (fun u => deflected dir (epairDeflection m ei ef r0 u)) ∧
    NoSide dir Option.map (fun u => deflected dir (photoDeflection m ei ef r0 u)) := by
  refine ⟨?_, ?_, ?_, ?_, ?_⟩
  · refine angles hd ((ionizNaive m ei ef 0).map Prod.fst) _ fun u => ?_
    unfold ionizNaive
    simp only
    split_ifs <;> rfl
  · exact angles hd (some ((ei - ef) / ef * tsaiPhoton m ei ef r0)) _ fun u => rfl
  · refine angles hd ((borogDeflection m ei ef r0 0).map Prod.fst) _ fun u => ?_
    unfold borogDeflection
    simp only
    split_ifs <;> rfl
  · refine angles hd ((epairDeflection m ei ef r0 0).map Prod.fst) _ fun u => ?_
    unfold epairDeflection
    cases epairRms (m / 1000) (ei / 1000) (ef / 1000) with
    | none => rfl
    | some r => cases h : rmsAngle r r0 <;> simp [h]
  · refine angles hd ((photoDeflection m ei ef r0 0).map Prod.fst) _ fun u => ?_
    unfold photoDeflection
    cases photoRms (m / 1000) (ei / 1000) (ef / 1000) with
    | none => rfl
    | some r => cases h : rmsAngle r r0 <;> simp [h]

/-- The angles of a result of `BremsGinneken`. -/
def Spec.anglesOf : DeflectResult → Option (ℝ × ℝ)
  | .angles p a => some (p, a)
  | _ => none

/-- C158: the stochastic deflection of bremsstrahlung after van Ginneken. -/
theorem C158_stochastic_brems (dir : Vec3) (hd : UnitVec dir) (m ei ef Z r0 : ℝ) :
    NoSide dir Option.map (fun u => deflected dir (anglesOf (bremsDeflection m ei ef Z r0 u))) := by
  refine angles hd ((anglesOf (bremsDeflection m ei ef Z r0 0)).map Prod.fst) _ fun u => ?_
  unfold bremsDeflection
  split
  · rfl
  · rfl
  · rfl
  · split <;> rfl

/-- C158: in a propagation, if the azimuth of the registered deflection is `2 π` times its last random number, and the polar angle
does not depend on this number: the direction after an interaction prefers no side, whatever was drawn before. -/
theorem C158_propagation (U : Utility) (s : ScatterCalc) (hs : U.scattering = some s) (t : IType) (n : ℕ)
    (f : ℝ → ℝ → List ℝ → ℕ → ℝ × ℝ) (hf : s.deflection t = some (n + 1, f)) (polar : ℝ → ℝ → List ℝ → ℕ → ℝ)
    (law : ∀ i e r u c, r.length = n → f i e (r ++ [u]) c = (polar i e r c, 2 * π * u))
    (ω : ℕ → ℝ) (pos : ℕ) (ei ef : ℝ) (dir : Vec3) (hd : UnitVec dir) (comp : ℕ) :
    NoSide dir (fun R v => R v) (fun u => (U.directionDeflect (Function.update ω (pos + n) u) pos t ei ef dir comp).1) := by
  have e : ∀ u, (U.directionDeflect (Function.update ω (pos + n) u) pos t ei ef dir comp).1
      = dir.deflect (cos (polar ei ef ((List.range n).map fun k => ω (pos + k)) comp)) (2 * π * u) := by
    intro u
    unfold Utility.directionDeflect
    rw [hs]
    simp only [hf]
    have hl : (List.range (n + 1)).map (fun k => Function.update ω (pos + n) u (pos + k))
        = (List.range n).map (fun k => ω (pos + k)) ++ [u] := by
      rw [List.range_succ, List.map_append]
      congr 1
      · apply List.map_congr_left
        intro k hk
        rw [List.mem_range] at hk
        rw [Function.update_of_ne (by omega)]
      · simp
    rw [hl, law _ _ _ _ _ (by simp)]
  intro R hR g
  simp only [e]
  exact C158_deflection dir hd _ R hR g

/-! ## Products of interactions -/

/-- C158: Compton scattering. -/
theorem C158_compton (l : SLoss) (hd : UnitVec l.dir) : NoSide l.dir turnList (comptonSecondaries l) := by
  by_cases h : l.parentEnergy * (1 - l.energy / l.parentEnergy) = 0 ∨
      Real.sqrt (2 * (l.energy / l.parentEnergy) * l.parentEnergy * ME
        + l.energy / l.parentEnergy * (l.energy / l.parentEnergy) * l.parentEnergy * l.parentEnergy) = 0
  · refine never _ _ fun u => ?_
    unfold comptonSecondaries comptonDirections
    simp only [if_pos h]
  · apply two hd
    intro u
    unfold comptonSecondaries comptonDirections
    simp only [if_neg h]
    rw [show u * 2 * π = 2 * π * u by ring]

/-- C158: ionization. -/
theorem C158_ionization (primary : Daughter) (l : SLoss) (hd : UnitVec l.dir) :
    NoSide l.dir turnList (ionizationSecondaries primary l) := by
  cases h : ionizationDirections primary.mass l.dir l.parentEnergy (l.energy / l.parentEnergy) 0 with
  | none =>
    refine never _ _ fun u => ?_
    unfold ionizationSecondaries
    unfold ionizationDirections at h ⊢
    simp only at h ⊢
    split_ifs at h ⊢
    rfl
  | some p =>
    unfold ionizationDirections at h
    simp only at h
    split_ifs at h with c
    apply two hd
    intro u
    unfold ionizationSecondaries ionizationDirections
    simp only [if_neg c]
    rw [show u * 2 * π = 2 * π * u by ring]

/-- Turned results of the annihilation. -/
def Spec.turnExcept (R : Vec3 → Vec3) : Except MathErr (Option (List Part)) → Except MathErr (Option (List Part)) :=
  Except.map (turnList R)

/-- C158: annihilation. -/
theorem C158_annihilation (m : ℝ) (l : SLoss) (hd : UnitVec l.dir) (r0 : ℝ) :
    NoSide l.dir turnExcept (annihilationSecondaries m l r0) := by
  intro R hR g
  cases h : heitlerRho m l.parentEnergy r0 with
  | error e =>
    have k : ∀ u, annihilationSecondaries m l r0 u = .error e := fun u => by
      unfold annihilationSecondaries; rw [h]
    simp only [k, turnExcept, Except.map]
  | ok ρ =>
    by_cases c : (l.parentEnergy + ME) * (l.parentEnergy - ME) ≤ 0 ∨ ρ = 0 ∨ ρ = 1
    · have k : ∀ u, annihilationSecondaries m l r0 u = .ok none := fun u => by
        unfold annihilationSecondaries annihilationDirections
        rw [h]
        simp only [if_pos c]
      simp only [k, turnExcept, Except.map, turnList, Option.map_none]
    · have k : ∀ u, annihilationSecondaries m l r0 u = .ok (some
          [l.state sGamma (opposite l.dir (((l.parentEnergy + ME) * (1 - ρ) - ME) / ((1 - ρ) *
              Real.sqrt ((l.parentEnergy + ME) * (l.parentEnergy - ME)))) (((l.parentEnergy + ME) * ρ - ME) / (ρ *
              Real.sqrt ((l.parentEnergy + ME) * (l.parentEnergy - ME)))) (2 * π * u)).1 ((l.parentEnergy + ME) * (1 - ρ)) 0,
            l.state sGamma (opposite l.dir (((l.parentEnergy + ME) * (1 - ρ) - ME) / ((1 - ρ) *
              Real.sqrt ((l.parentEnergy + ME) * (l.parentEnergy - ME)))) (((l.parentEnergy + ME) * ρ - ME) / (ρ *
              Real.sqrt ((l.parentEnergy + ME) * (l.parentEnergy - ME)))) (2 * π * u)).2 ((l.parentEnergy + ME) * ρ) 0]) :=
        fun u => by
          unfold annihilationSecondaries annihilationDirections
          rw [h]
          simp only [if_neg c]
          rw [show u * 2 * π = 2 * π * u by ring]
      simp only [k, turnExcept, Except.map]
      exact two hd (fun u => some _) _ _ _ _ _ _ _ _ (fun u => rfl) R hR (fun x => g (.ok x))

/-- C158: bremsstrahlung with any of the angles. -/
theorem C158_bremsstrahlung (a : BremsAngle) (primary : Daughter) (l : SLoss) (hd : UnitVec l.dir) :
    NoSide l.dir turnList (bremsSecondaries a primary l) := by
  have recoil : ∀ phi : ℝ, NoSide l.dir turnList (fun u =>
      match (if (l.parentEnergy + primary.mass) * (l.parentEnergy - primary.mass) < 0 then none
        else ((Real.sqrt ((l.parentEnergy + primary.mass) * (l.parentEnergy - primary.mass)) • l.dir
          - l.energy • l.dir.deflect (cos phi) (2 * π * u)).normalize).map
            fun e => (e, l.dir.deflect (cos phi) (2 * π * u))) with
      | none => none
      | some d => some [l.state primary d.1 (l.parentEnergy - l.energy) 0, l.state sGamma d.2 l.energy 0]) := by
    intro phi
    refine noSide_of hd turnList _ (fun θ =>
      match (if (l.parentEnergy + primary.mass) * (l.parentEnergy - primary.mass) < 0 then none
        else ((Real.sqrt ((l.parentEnergy + primary.mass) * (l.parentEnergy - primary.mass)) • l.dir
          - l.energy • l.dir.deflect (cos phi) θ).normalize).map
            fun e => (e, l.dir.deflect (cos phi) θ)) with
      | none => none
      | some d => some [l.state primary d.1 (l.parentEnergy - l.energy) 0, l.state sGamma d.2 l.energy 0])
      (fun u => rfl) (fun θ => ?_) fun R a σ hR _ h θ => ?_
    · simp only [deflect_per]
    · split_ifs with c
      · rfl
      · have k := turn_normalize hR.toTurn (Real.sqrt ((l.parentEnergy + primary.mass) * (l.parentEnergy - primary.mass)) • l.dir
          - l.energy • l.dir.deflect (cos phi) θ)
        rw [turn_sub hR.toTurn, hR.smul, hR.smul, hR.axis, h] at k
        simp only [k]
        cases (Real.sqrt ((l.parentEnergy + primary.mass) * (l.parentEnergy - primary.mass)) • l.dir
          - l.energy • l.dir.deflect (cos phi) θ).normalize with
        | none => rfl
        | some v => simp only [Option.map_some, turnList, List.map_cons, List.map_nil, state_turned, h]
  have go : ∀ phi u, (match (if (l.parentEnergy + primary.mass) * (l.parentEnergy - primary.mass) < 0 then none
        else ((Real.sqrt ((l.parentEnergy + primary.mass) * (l.parentEnergy - primary.mass)) • l.dir
          - l.energy • l.dir.deflect (cos phi) (u * 2 * π)).normalize).map
            fun e => (e, l.dir.deflect (cos phi) (u * 2 * π))) with
      | none => none
      | some d => some [l.state primary d.1 (l.parentEnergy - l.energy) 0, l.state sGamma d.2 l.energy 0])
      = (match (if (l.parentEnergy + primary.mass) * (l.parentEnergy - primary.mass) < 0 then none
        else ((Real.sqrt ((l.parentEnergy + primary.mass) * (l.parentEnergy - primary.mass)) • l.dir
          - l.energy • l.dir.deflect (cos phi) (2 * π * u)).normalize).map
            fun e => (e, l.dir.deflect (cos phi) (2 * π * u))) with
      | none => none
      | some d => some [l.state primary d.1 (l.parentEnergy - l.energy) 0, l.state sGamma d.2 l.energy 0]) := by
    intro phi u
    rw [show u * 2 * π = 2 * π * u by ring]
  intro R hR g
  cases a with
  | none =>
    have k : ∀ u, bremsSecondaries .none primary l u
        = some [l.state primary l.dir (l.parentEnergy - l.energy) 0, l.state sGamma l.dir l.energy 0] := fun u => rfl
    simp only [k, turnList, Option.map_some, List.map_cons, List.map_nil, state_turned, hR.axis]
  | egs4 =>
    have k : ∀ u, bremsSecondaries .egs4 primary l u = _ := fun u => go (primary.mass / l.parentEnergy) u
    simp only [k]
    exact recoil _ R hR g
  | kochMotz phi =>
    have k : ∀ u, bremsSecondaries (.kochMotz phi) primary l u = _ := fun u => go phi u
    simp only [k]
    exact recoil _ R hR g

/-- C158: pairs of electrons and of muons from photons. -/
theorem C158_photon_pairs (l : SLoss) (hd : UnitVec l.dir) (ρ c0 c1 : ℝ) :
    NoSide l.dir turnList (fun u => some (photoPairSecondaries l ρ c0 c1 u)) ∧
    NoSide l.dir turnList (fun u => some (photoMuPairSecondaries l ρ u)) := by
  constructor
  · apply two hd
    intro u
    unfold photoPairSecondaries photoPairDirections
    rw [show u * 2 * π = 2 * π * u by ring]
  · apply two hd
    intro u
    unfold photoMuPairSecondaries photoPairDirections
    rw [show u * 2 * π = 2 * π * u by ring]

/-- C158: the products of the other interactions go on in the direction of the particle, so that they stay as they are. -/
theorem C158_forward (l : SLoss) (R : Vec3 → Vec3) (hR : About l.dir R) (primary partner : Daughter) (upper : ℝ → ℝ → ℝ)
    (r1 r2 v Z : ℝ) :
    turnList R (epairSecondaries primary upper l r1 r2) = epairSecondaries primary upper l r1 r2 ∧
    (mupairSecondaries primary upper l r1 r2).map (turned R) = mupairSecondaries primary upper l r1 r2 ∧
    (photonuclearSecondaries primary l).map (turned R) = photonuclearSecondaries primary l ∧
    (photoproductionSecondaries l).map (turned R) = photoproductionSecondaries l ∧
    (photoeffectSecondaries Z l).map (turned R) = photoeffectSecondaries Z l ∧
    (weakSecondaries partner l v).map (turned R) = weakSecondaries partner l v := by
  have pair : ∀ (a b : Daughter) (ρ : ℝ), (pairSecondaries primary a b l ρ).map (turned R) = pairSecondaries primary a b l ρ := by
    intro a b ρ
    simp only [pairSecondaries, List.map_cons, List.map_nil, state_turned, hR.axis]
  refine ⟨?_, pair _ _ _, ?_, ?_, ?_, ?_⟩
  · unfold epairSecondaries
    split
    · simp only [turnList, Option.map_some, pair]
    · rfl
  · simp only [photonuclearSecondaries, List.map_cons, List.map_nil, state_turned, hR.axis]
  · simp only [photoproductionSecondaries, List.map_cons, List.map_nil, state_turned, hR.axis]
  · simp only [photoeffectSecondaries, List.map_cons, List.map_nil, state_turned, hR.axis]
  · simp only [weakSecondaries, List.map_cons, List.map_nil, state_turned, hR.axis]

/-! ## Decays -/

theorem Azimuth.boost_turned {axis : Vec3} {R : Vec3 → Vec3} (hR : Turn R) (ha : R axis = axis) (γ b : ℝ) (p : Part) :
    boost (turned R p) axis γ b = (boost p axis γ b).map (turned R) := by
  unfold boost
  have hn : ∀ n, axis.normalize = some n → R n = n := by
    intro n h
    have := turn_normalize hR axis
    rw [ha, h] at this
    simpa using this.symm
  cases h : axis.normalize with
  | none => rfl
  | some n =>
    cases hk : momentumOfEnergy p.mass p.energy with
    | none => simp only [turned, hk, Option.map_none]
    | some k =>
      have e : ∀ c : ℝ, k • R p.dir + c • n = R (k • p.dir + c • n) := fun c => by
        rw [hR.add, hR.smul, hR.smul, hn n h]
      have d : (k • R p.dir).dot n = (k • p.dir).dot n := by
        have := turn_dot hR (k • p.dir) n
        rw [hR.smul, hn n h] at this
        exact this
      simp only [turned, hk, d, e, turn_normalize hR, turn_mag hR]
      cases (k • p.dir + ((γ - 1) * (k • p.dir).dot n - b * p.energy) • n).normalize with
      | none => rfl
      | some v => rfl

theorem Azimuth.boostAll_turned {axis : Vec3} {R : Vec3 → Vec3} (hR : Turn R) (ha : R axis = axis) (γ b : ℝ) (ps : List Part) :
    boostAll axis γ b (ps.map (turned R)) = turnList R (boostAll axis γ b ps) := by
  induction ps with
  | nil => rfl
  | cons p ps ih =>
    simp only [List.map_cons, boostAll, boost_turned hR ha, ih]
    cases boost p axis γ b with
    | none => rfl
    | some q =>
      cases boostAll axis γ b ps with
      | none => rfl
      | some qs => rfl

/-- C158: if the direction of a decay into two particles is turned about the flight direction of the parent, its products in flight
are turned in the same way. With `C156_isotropic` the products of decays in flight prefer no side. -/
theorem C158_decay (M : ℝ) (d1 d2 : Daughter) (parent : Part) (R : Vec3 → Vec3) (hR : About parent.dir R) (u u' : ℝ × ℝ)
    (h : randomDirection u' = R (randomDirection u)) :
    twoBodyDecay M d1 d2 parent u' = turnList R (twoBodyDecay M d1 d2 parent u) := by
  have ha : R (-parent.dir) = -parent.dir := by rw [turn_neg hR.toTurn, hR.axis]
  unfold twoBodyDecay toLab
  simp only
  rw [← boostAll_turned hR.toTurn ha]
  congr 1
  unfold twoBodyRest
  simp only [h, List.map_cons, List.map_nil, List.cons.injEq, and_true]
  refine ⟨rfl, ?_⟩
  unfold product Part.setMomentum turned
  simp only [turn_neg hR.toTurn]

/-! ## Examples -/

namespace Azimuth

/-- A quarter of a turn about the z axis. -/
def quarter (v : Vec3) : Vec3 := ⟨-v.y, v.x, v.z⟩

theorem about_quarter : About ⟨0, 0, 1⟩ quarter where
  add a b := by ext <;> simp [quarter]; ring
  smul k a := by ext <;> simp [quarter]
  length a := by simp only [quarter]; ring
  axis := by ext <;> simp [quarter]

end Azimuth

example : UnitVec ⟨0, 0, 1⟩ ∧ About ⟨0, 0, 1⟩ quarter ∧ quarter ⟨1, 0, 0⟩ ≠ ⟨1, 0, 0⟩ :=
  ⟨by unfold UnitVec; norm_num, about_quarter, fun h => by have := congrArg Vec3.y h; norm_num [quarter] at this⟩

/-- A deflection with a fixed azimuth does prefer a side. -/
example : ¬ NoSide ⟨0, 0, 1⟩ (fun R v => R v) (fun _ => (⟨1, 0, 0⟩ : Vec3)) := by
  intro h
  classical
  have n : quarter ⟨1, 0, 0⟩ ≠ ⟨1, 0, 0⟩ := fun h => by have := congrArg Vec3.y h; norm_num [quarter] at this
  have := h quarter about_quarter (fun v => if v = ⟨1, 0, 0⟩ then 1 else 0)
  simp only [if_neg n, if_true] at this
  unfold mean1 at this
  simp at this

/-- The hypotheses of `C158_propagation` hold for the deflection after Tsai. -/
example (m : ℝ) : ∃ polar : ℝ → ℝ → List ℝ → ℕ → ℝ, ∀ i e r u (c : ℕ), r.length = 1 →
    (fun (i e : ℝ) (l : List ℝ) (_ : ℕ) => tsaiDeflection m i e (l.getD 0 0) (l.getD 1 0)) i e (r ++ [u]) c
      = (polar i e r c, 2 * π * u) := by
  refine ⟨fun i e r _ => (i - e) / e * tsaiPhoton m i e (r.getD 0 0), fun i e r u c h => ?_⟩
  match r, h with
  | [x], _ => rfl

end Proposal
