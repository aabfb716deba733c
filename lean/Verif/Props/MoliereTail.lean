import Verif.Props.Moliere
import Verif.Props.MoliereSampling
import Mathlib.Analysis.SpecialFunctions.Pow.Deriv
import Mathlib.Analysis.SpecialFunctions.Pow.Asymptotics
import Mathlib.Analysis.SpecialFunctions.Sqrt

/-! Properties C110, C112: angles of Molière's theory, thin layers, tails of the distribution. -/

namespace Proposal

open Spec Filter Topology

/-! ## The angles -/

/-- C110: the characteristic angle in an element: `χ_c² = 4π n (α ħ c / (p β))² Z (Z + 1)` for electrons, with `Z²` for all other
particles, for `n = N_A g / A` atoms per area, momentum `p` and velocity `β`. -/
theorem C110_chi_c (mass ei g z k A : ℝ) (hm : 0 ≤ mass) (hE : mass < ei) (hk : 0 < k) (hA : 0 < A) :
    ((Moliere.new mass [(z, k, A)]).getPrefactor ei g).1.chiCSq =
      4 * Real.pi * (NAvogadro * g / A) *
        (ALPHA * (HBAR * SPEED) / (Real.sqrt (ei ^ 2 - mass ^ 2) * (Real.sqrt (ei ^ 2 - mass ^ 2) / ei))) ^ 2 *
        (z * (if mass = ME then z + 1 else z)) := by
  have hp : 0 < ei ^ 2 - mass ^ 2 := by nlinarith
  have hs := Real.mul_self_sqrt hp.le
  set p := Real.sqrt (ei ^ 2 - mass ^ 2) with hpd
  have hp0 : 0 < p := Real.sqrt_pos.2 hp
  have he : 0 < ei := by linarith
  have h1 : ((Moliere.new mass [(z, k, A)]).getPrefactor ei g).1.chiCSq =
      chiCSqOf mass (Moliere.new mass [(z, k, A)]).zSqA ei g := by
    unfold Moliere.getPrefactor
    simp only
    split_ifs
    · rfl
    · split <;> rfl
  have h2 : (Moliere.new mass [(z, k, A)]).zSqA = z * (if mass = ME then z + 1 else z) / A := by
    unfold Moliere.new
    simp only [List.map_cons, List.map_nil, List.sum_cons, List.sum_nil, add_zero]
    split_ifs <;> field_simp
  rw [h1, h2]
  unfold chiCSqOf
  simp only
  have h3 : (ei - mass) * (ei + mass) = p * p := by rw [hs]; ring
  rw [h3]
  field_simp

/-- Electrons and muons in oxygen. -/
example : (0 : ℝ) ≤ ME ∧ ME < 100 ∧ (0 : ℝ) ≤ 105.7 ∧ (105.7 : ℝ) < 1000 ∧ (105.7 : ℝ) ≠ ME ∧ (0 : ℝ) < 15.999 := by
  norm_num [ME]

/-- C110: the screening angle: `χ_a² = χ_0² (1.13 + 3.76 (α Z / β)²)` for `χ_0 = ħ / (p a)` with the Thomas-Fermi radius `a` in
units of the Compton length of the electron. -/
theorem C110_chi_a (mass ei z : ℝ) (hm : 0 ≤ mass) (hE : mass < ei) (hz : 0 < z) :
    chiASq mass ei z =
      (ME / (Real.sqrt (ei ^ 2 - mass ^ 2) * ((9 * Real.pi ^ 2 / (128 * z)) ^ (1 / 3 : ℝ) / ALPHA))) ^ 2 *
        (1.13 + 3.76 * (ALPHA * z / (Real.sqrt (ei ^ 2 - mass ^ 2) / ei)) ^ 2) := by
  have hp : 0 < ei ^ 2 - mass ^ 2 := by nlinarith
  have hs := Real.mul_self_sqrt hp.le
  have hα : 0 < ALPHA := by norm_num [ALPHA]
  set p := Real.sqrt (ei ^ 2 - mass ^ 2) with hpd
  have hp0 : 0 < p := Real.sqrt_pos.2 hp
  have he : 0 < ei := by linarith
  have hpi := Real.pi_pos
  unfold chiASq
  simp only
  have h3 : (ei - mass) * (ei + mass) = p * p := by rw [hs]; ring
  have h4 : (9 * Real.pi ^ 2 / (128 * z)) ^ (1 / 3 : ℝ) = 1 / (z * 128 / (9 * Real.pi * Real.pi)) ^ (1 / 3 : ℝ) := by
    rw [one_div ((z * 128 / (9 * Real.pi * Real.pi)) ^ (1 / 3 : ℝ)), ← Real.inv_rpow (by positivity)]
    congr 1
    field_simp
  have h5 : 1 + mass * mass / (p * p) = ei ^ 2 / (p * p) := by
    rw [hs]
    field_simp
    ring
  rw [h3, h4, h5]
  have hq : 0 < (z * 128 / (9 * Real.pi * Real.pi)) ^ (1 / 3 : ℝ) := Real.rpow_pos_of_pos (by positivity) _
  set q := (z * 128 / (9 * Real.pi * Real.pi)) ^ (1 / 3 : ℝ)
  field_simp

/-- C110 fails for compounds: the scattering of a compound is not the sum of that of its atoms, `Σ n Z² / Σ n A`. The code averages
`Z²` and `A` with the weights by mass and divides the averages; for water the square of the angle is too large by 8 percent. -/
theorem C110_compound : ∀ mass, mass ≠ ME →
    1.08 * ((2 * 1 ^ 2 + 1 * 8 ^ 2) / (2 * 1.00794 + 1 * 15.9994)) < (Moliere.new mass [(1, 2, 1.00794), (8, 1, 15.9994)]).zSqA := by
  intro mass h
  unfold Moliere.new
  simp only [List.map_cons, List.map_nil, List.sum_cons, List.sum_nil, add_zero, if_neg h]
  norm_num

/-! ## The parameter `B` of all components -/

theorem bLoops_solves (l B : ℝ → ℝ) : ∀ zs : List ℝ,
    (∀ z ∈ zs, 4.5 ≤ B z ∧ B z - Real.log (B z) = l z + 1 - 2 * EULER_MASCHERONI) →
    (bLoops l zs).2 = some true ∧ List.Forall₂ (fun z b => B z ≤ b ∧ b ≤ B z + 2e-27) zs (bLoops l zs).1
  | [], _ => by simp [bLoops]
  | z :: zs, h => by
    obtain ⟨b, h1, h2⟩ := C110_solves (l z) (B z) (h z List.mem_cons_self).1 (h z List.mem_cons_self).2
    obtain ⟨i1, i2⟩ := bLoops_solves l B zs fun y hy => h y (List.mem_cons_of_mem _ hy)
    unfold bLoops
    rw [h1]
    exact ⟨i1, .cons h2 i2⟩

/-- C110: if the equation has a solution of at least 4.5 for every component, the object holds these solutions (up to 2e-27)
afterwards, and the square of the typical angle is `χ_c² B` for the chosen component. -/
theorem C110_prefactor (s : Moliere) (ei g : ℝ) (B : ℝ → ℝ) (hlen : s.bs.length = s.zs.length) (hi : s.maxIndex < s.zs.length)
    (hchi : 0 < chiCSqOf s.mass s.zSqA ei g)
    (hB : ∀ z ∈ s.zs, 4.5 ≤ B z ∧
      B z - Real.log (B z) = Real.log (chiCSqOf s.mass s.zSqA ei g / chiASq s.mass ei z) + 1 - 2 * EULER_MASCHERONI) :
    ∃ pre, (s.getPrefactor ei g).2 = some pre ∧
      (s.getPrefactor ei g).1.chiCSq * B s.zs[s.maxIndex] ≤ pre ^ 2 ∧
      pre ^ 2 ≤ (s.getPrefactor ei g).1.chiCSq * (B s.zs[s.maxIndex] + 2e-27) ∧ 0 < pre ∧
      List.Forall₂ (fun z b => B z ≤ b ∧ b ≤ B z + 2e-27) s.zs (s.getPrefactor ei g).1.bs := by
  obtain ⟨h1, h2⟩ := bLoops_solves (fun z => Real.log (chiCSqOf s.mass s.zSqA ei g / chiASq s.mass ei z)) B s.zs hB
  have hl := h2.length_eq
  set r := bLoops (fun z => Real.log (chiCSqOf s.mass s.zSqA ei g / chiASq s.mass ei z)) s.zs with hr
  have hdrop : s.bs.drop r.1.length = [] := List.drop_eq_nil_of_le (by omega)
  have hi' : s.maxIndex < r.1.length := by omega
  have e : s.getPrefactor ei g = ({ s with chiCSq := chiCSqOf s.mass s.zSqA ei g, bs := r.1 },
      some (Real.sqrt (chiCSqOf s.mass s.zSqA ei g * r.1[s.maxIndex]))) := by
    unfold Moliere.getPrefactor
    simp only
    rw [if_neg (by linarith), ← hr]
    simp only [h1, hdrop, List.append_nil, List.getElem?_eq_getElem hi', Option.map_some]
  have hb := (List.forall₂_iff_get.1 h2).2 s.maxIndex hi hi'
  simp only [List.get_eq_getElem] at hb
  have h45 := (hB _ (List.getElem_mem hi)).1
  norm_num at h45
  have hpos : 0 < chiCSqOf s.mass s.zSqA ei g * r.1[s.maxIndex] := mul_pos hchi (by linarith [hb.1])
  rw [e]
  refine ⟨_, rfl, ?_, ?_, Real.sqrt_pos.2 hpos, h2⟩
  · rw [Real.sq_sqrt hpos.le]
    exact mul_le_mul_of_nonneg_left hb.1 hchi.le
  · rw [Real.sq_sqrt hpos.le]
    exact mul_le_mul_of_nonneg_left hb.2 hchi.le

/-- Every value of `ln (χ_c² / χ_a²)` belongs to a thickness. -/
theorem thickness_exists (l : ℝ) : ∃ (s : Moliere) (ei g : ℝ), s.bs.length = s.zs.length ∧ s.maxIndex < s.zs.length ∧
    s.zs = [1] ∧ 0 < chiCSqOf s.mass s.zSqA ei g ∧
    ∀ z ∈ s.zs, Real.log (chiCSqOf s.mass s.zSqA ei g / chiASq s.mass ei z) = l := by
  have hA : 0 < chiASq 0 1 1 := by
    unfold chiASq
    have hα : 0 < ALPHA := by norm_num [ALPHA]
    have hm : 0 < ME := by norm_num [ME]
    have h1 : (0 : ℝ) < 1 * 128 / (9 * Real.pi * Real.pi) := by positivity
    have h2 := Real.rpow_pos_of_pos h1 (1 / 3)
    simp only
    norm_num at h2 ⊢
    positivity
  have hα : 0 < ALPHA := by norm_num [ALPHA]
  have hN : 0 < NAvogadro := by norm_num [NAvogadro]
  have hH : 0 < HBAR := by norm_num [HBAR]
  have hS : 0 < SPEED := by norm_num [SPEED]
  set k := 4 * Real.pi * NAvogadro * ALPHA * ALPHA * HBAR * HBAR * SPEED * SPEED with hk
  have hk0 : 0 < k := by positivity
  set q := Real.exp l with hq
  have hq0 : 0 < q := Real.exp_pos _
  have hchi : chiCSqOf 0 1 1 (chiASq 0 1 1 * q / k) = chiASq 0 1 1 * q := by
    unfold chiCSqOf
    simp only [sub_zero, add_zero, mul_one, div_one]
    rw [← hk]
    field_simp
  refine ⟨⟨0, 1, [1], [1], 1, 0, 0, [0]⟩, 1, chiASq 0 1 1 * q / k, rfl, by simp, rfl, ?_, ?_⟩
  · simp only
    rw [hchi]
    positivity
  · intro z hz
    simp only [List.mem_singleton] at hz
    subst hz
    simp only
    rw [hchi, mul_div_cancel_left₀ _ hA.ne', hq, Real.log_exp]

/-- Solutions for one component: the thickness for which `B = 10`. -/
example : ∃ (s : Moliere) (ei g : ℝ), s.bs.length = s.zs.length ∧ s.maxIndex < s.zs.length ∧ 0 < chiCSqOf s.mass s.zSqA ei g ∧
    ∀ z ∈ s.zs, (4.5 : ℝ) ≤ 10 ∧
      10 - Real.log 10 = Real.log (chiCSqOf s.mass s.zSqA ei g / chiASq s.mass ei z) + 1 - 2 * EULER_MASCHERONI := by
  obtain ⟨s, ei, g, h1, h2, _, h3, h4⟩ := thickness_exists (10 - Real.log 10 - 1 + 2 * EULER_MASCHERONI)
  refine ⟨s, ei, g, h1, h2, h3, fun z hz => ⟨by norm_num, ?_⟩⟩
  rw [h4 z hz]
  ring

theorem bLoops_off (l : ℝ → ℝ) : ∀ zs : List ℝ, (∀ z ∈ zs, 1 ≤ l z + 1 - 2 * EULER_MASCHERONI) →
    (∃ z ∈ zs, l z + 1 - 2 * EULER_MASCHERONI < 4.5 - Real.log 4.5 - 1e-27) → (bLoops l zs).2 = some false
  | [], _, h => by simp at h
  | z :: zs, h1, h2 => by
    by_cases hz : l z + 1 - 2 * EULER_MASCHERONI < 4.5 - Real.log 4.5 - 1e-27
    · unfold bLoops
      rw [C110_thin (l z) (h1 z List.mem_cons_self) hz]
    · have ih := bLoops_off l zs (fun y hy => h1 y (List.mem_cons_of_mem _ hy)) (by
        obtain ⟨y, hy, hy2⟩ := h2
        rcases List.mem_cons.1 hy with rfl | hy
        · exact absurd hy2 hz
        · exact ⟨y, hy, hy2⟩)
      rcases hb : bLoop (l z) 6 15 with b | _ | _
      · unfold bLoops
        rw [hb]
        exact ih
      · unfold bLoops
        rw [hb]
      · exfalso
        obtain ⟨y, -, -, -, hy⟩ := last_steps' (l z) (h1 z List.mem_cons_self)
        rw [hb] at hy
        split_ifs at hy

/-- C110: if the equation has solutions for all components but none of at least 4.5 for one of them, there is neither deflection nor
displacement. -/
theorem C110_thin_offsets (M : MoliereFns) (ppf : ℝ → Option ℝ) (s : Moliere) (g ei : ℝ) (r : Fin 4 → ℝ)
    (h1 : ∀ z ∈ s.zs, 1 ≤ Real.log (chiCSqOf s.mass s.zSqA ei g / chiASq s.mass ei z) + 1 - 2 * EULER_MASCHERONI)
    (h2 : ∃ z ∈ s.zs, Real.log (chiCSqOf s.mass s.zSqA ei g / chiASq s.mass ei z) + 1 - 2 * EULER_MASCHERONI <
      4.5 - Real.log 4.5 - 1e-27) :
    ∃ o, (s.randomAngle M ppf g ei r).2 = some o ∧ o.sx = 0 ∧ o.sy = 0 ∧ o.tx = 0 ∧ o.ty = 0 := by
  have h := bLoops_off _ s.zs h1 h2
  have e : (s.getPrefactor ei g).2 = some 0 := by
    unfold Moliere.getPrefactor
    simp only
    split_ifs
    · rfl
    · rw [h]
  unfold Moliere.randomAngle
  generalize s.getPrefactor ei g = q at e
  obtain ⟨s', p⟩ := q
  simp only at e
  subst e
  simp

/-- A layer that is too thin. -/
example : ∃ (s : Moliere) (g ei : ℝ),
    (∀ z ∈ s.zs, 1 ≤ Real.log (chiCSqOf s.mass s.zSqA ei g / chiASq s.mass ei z) + 1 - 2 * EULER_MASCHERONI) ∧
    ∃ z ∈ s.zs, Real.log (chiCSqOf s.mass s.zSqA ei g / chiASq s.mass ei z) + 1 - 2 * EULER_MASCHERONI <
      4.5 - Real.log 4.5 - 1e-27 := by
  obtain ⟨s, ei, g, _, _, h2, _, h4⟩ := thickness_exists (2 * EULER_MASCHERONI + 1)
  refine ⟨s, g, ei, fun z hz => by rw [h4 z hz]; linarith, 1, by rw [h2]; simp, ?_⟩
  rw [h4 1 (by rw [h2]; simp)]
  have h8 : Real.log 8 = 3 * Real.log 2 := by
    rw [show (8 : ℝ) = 2 ^ 3 by norm_num, Real.log_pow]; norm_num
  have h9 : Real.log 4.5 ≤ Real.log 8 + (4.5 / 8 - 1) := by
    have h := Real.log_le_sub_one_of_pos (x := 4.5 / 8) (by norm_num)
    rw [Real.log_div (by norm_num) (by norm_num)] at h
    linarith
  have l2 := Real.log_two_lt_d9
  norm_num at h9 l2 ⊢
  linarith

/-- C110: without matter there is no scattering. -/
theorem C110_no_matter (M : MoliereFns) (ppf : ℝ → Option ℝ) (s : Moliere) (ei : ℝ) (r : Fin 4 → ℝ) :
    (s.randomAngle M ppf 0 ei r).2 = some ⟨0, 0, 0, 0⟩ := by
  have e : (s.getPrefactor ei 0).2 = some 0 := by
    unfold Moliere.getPrefactor
    simp only
    rw [if_pos (by simp [chiCSqOf])]
  unfold Moliere.randomAngle
  generalize s.getPrefactor ei 0 = q at e
  obtain ⟨s', p⟩ := q
  simp only at e
  subst e
  simp

/-! ## The two planes -/

/-- C112: the random numbers 0 and 1 determine the offsets in one plane, 2 and 3 those in the other; exchanging them exchanges the
planes. -/
theorem C112_planes (M : MoliereFns) (ppf : ℝ → Option ℝ) (s : Moliere) (g ei : ℝ) (r q : Fin 4 → ℝ) (o u : ScatteringOffset)
    (h : (s.randomAngle M ppf g ei r).2 = some o) (hq : (s.randomAngle M ppf g ei q).2 = some u) :
    (q 0 = r 0 → q 1 = r 1 → u.sx = o.sx ∧ u.tx = o.tx) ∧ (q 2 = r 2 → q 3 = r 3 → u.sy = o.sy ∧ u.ty = o.ty) ∧
    (q 0 = r 2 → q 1 = r 3 → u.sx = o.sy ∧ u.tx = o.ty) ∧
    ∃ a, o.sx = (a / Real.sqrt 3 + o.tx) / 2 ∧ (q 1 = r 0 → u.tx = a) ∧ ∃ b, o.sy = (b / Real.sqrt 3 + o.ty) / 2 ∧ (q 1 = r 2 → u.tx = b) := by
  unfold Moliere.randomAngle at h hq
  generalize s.getPrefactor ei g = w at h hq
  obtain ⟨s', p⟩ := w
  cases p with
  | none => simp at h
  | some pre =>
    simp only at h hq
    by_cases hp : pre = 0
    · rw [if_pos hp] at h hq
      simp only [Option.some.injEq] at h hq
      subst h hq
      exact ⟨by simp, by simp, by simp, 0, by simp, by simp, 0, by simp, by simp⟩
    · rw [if_neg hp] at h hq
      simp only [Option.bind_eq_bind, Option.pure_def, Option.bind_eq_some_iff, Option.some.injEq] at h hq
      obtain ⟨a0, ha0, a1, ha1, a2, ha2, a3, ha3, rfl⟩ := h
      obtain ⟨b0, hb0, b1, hb1, b2, hb2, b3, hb3, rfl⟩ := hq
      refine ⟨?_, ?_, ?_, a0, ?_, ?_, a2, ?_, ?_⟩
      · intro e0 e1
        rw [e0, ha0, Option.some.injEq] at hb0
        rw [e1, ha1, Option.some.injEq] at hb1
        subst hb0 hb1
        exact ⟨rfl, rfl⟩
      · intro e0 e1
        rw [e0, ha2, Option.some.injEq] at hb2
        rw [e1, ha3, Option.some.injEq] at hb3
        subst hb2 hb3
        exact ⟨rfl, rfl⟩
      · intro e0 e1
        rw [e0, ha2, Option.some.injEq] at hb0
        rw [e1, ha3, Option.some.injEq] at hb1
        subst hb0 hb1
        exact ⟨rfl, rfl⟩
      · simp only [offsetsOf]; ring
      · intro e
        rw [e, ha0, Option.some.injEq] at hb1
        exact hb1.symm
      · simp only [offsetsOf]; ring
      · intro e
        rw [e, ha2, Option.some.injEq] at hb1
        exact hb1.symm

/-- C112: `MoliereInterpol` gives the same angles as `Moliere` if its tables have the values of the functions up to 20. -/
theorem C112_interpol (T : MoliereTables) (erf : ℝ → ℝ) (tab : MoliereFns) (ppf : ℝ → Option ℝ) (s : Moliere) (g ei : ℝ) (r : Fin 4 → ℝ)
    (h1 : ∀ x ≤ 20, tab.f1 x = f1M T x) (h2 : ∀ x ≤ 20, tab.f2 x = f2M T x) (h3 : ∀ x ≤ 20, tab.g1 x = F1M T x)
    (h4 : ∀ x ≤ 20, tab.g2 x = F2M T x) :
    s.randomAngle (interpolFns tab (moliereFns T erf)) ppf g ei r = s.randomAngle (moliereFns T erf) ppf g ei r := by
  have e : interpolFns tab (moliereFns T erf) = moliereFns T erf := by
    unfold interpolFns moliereFns
    simp only [MoliereFns.mk.injEq]
    refine ⟨?_, ?_, ?_, ?_, trivial⟩ <;> funext x <;> split_ifs with hx
    · rfl
    · exact h1 x (not_lt.1 hx)
    · rfl
    · exact h2 x (not_lt.1 hx)
    · rfl
    · exact h3 x (not_lt.1 hx)
    · rfl
    · exact h4 x (not_lt.1 hx)
  rw [e]

/-- C112: beyond 20 the tables are not used. -/
theorem C112_interpol_beyond (tab fns : MoliereFns) (x : ℝ) (hx : 20 < x) :
    (interpolFns tab fns).f1 x = fns.f1 x ∧ (interpolFns tab fns).f2 x = fns.f2 x ∧ (interpolFns tab fns).g1 x = fns.g1 x ∧
    (interpolFns tab fns).g2 x = fns.g2 x := by
  simp [interpolFns, hx]

/-! ## Tails -/

private theorem term_deriv (c s : ℝ) (p : ℕ) (hp : 0 < p) (u : ℝ) (hu : 0 < u) :
    HasDerivAt (fun u : ℝ => -0.5 * c / (p : ℕ) * (0.5 / (p : ℕ) + 0.5 * Real.log (u ^ 2) + s) * (u ^ 2) ^ (-((p : ℕ) : ℝ)))
      (c * (0.5 * Real.log (u ^ 2) + s) * (u ^ 2) ^ (-((p : ℕ) + 0.5 : ℝ))) u := by
  have hp' : (0 : ℝ) < p := by exact_mod_cast hp
  have hev : (fun u : ℝ => -0.5 * c / (p : ℕ) * (0.5 / (p : ℕ) + 0.5 * Real.log (u ^ 2) + s) * (u ^ 2) ^ (-((p : ℕ) : ℝ))) =ᶠ[𝓝 u]
      fun u => -0.5 * c / (p : ℕ) * (0.5 / (p : ℕ) + Real.log u + s) * u ^ (-(2 * p : ℝ)) := by
    filter_upwards [lt_mem_nhds hu] with v hv
    rw [Real.log_pow, ← Real.rpow_natCast, ← Real.rpow_mul hv.le]
    push_cast
    rw [show (2 : ℝ) * -(p : ℝ) = -(2 * p : ℝ) by ring, show (0.5 : ℝ) * (2 * Real.log v) = Real.log v by ring]
  refine HasDerivAt.congr_of_eventuallyEq ?_ hev
  have h1 : HasDerivAt (fun u : ℝ => -0.5 * c / (p : ℕ) * (0.5 / (p : ℕ) + Real.log u + s)) (-0.5 * c / (p : ℕ) * u⁻¹) u :=
    (((Real.hasDerivAt_log hu.ne').const_add _).add_const s).const_mul _
  have h2 : HasDerivAt (fun u : ℝ => u ^ (-(2 * p : ℝ))) (-(2 * p : ℝ) * u ^ (-(2 * p : ℝ) - 1)) u :=
    Real.hasDerivAt_rpow_const (Or.inl hu.ne')
  refine (h1.mul h2).congr_deriv ?_
  have e1 : (u ^ 2 : ℝ) ^ (-((p : ℕ) + 0.5 : ℝ)) = u ^ (-(2 * p : ℝ)) * u⁻¹ := by
    rw [← Real.rpow_natCast, ← Real.rpow_mul hu.le, ← Real.rpow_neg_one u, ← Real.rpow_add hu]
    congr 1
    push_cast
    ring
  have e2 : u ^ (-(2 * p : ℝ) - 1) = u ^ (-(2 * p : ℝ)) * u⁻¹ := by
    rw [← Real.rpow_neg_one u, ← Real.rpow_add hu]
    congr 1
  rw [e1, e2, Real.log_pow]
  set w := u ^ (-(2 * p : ℝ))
  push_cast
  field_simp
  ring

/-- C112: beyond the junction the second term of the distribution function is the integral of that of the density. -/
theorem C112_tail_second (T : MoliereTables) (u : ℝ) (hu : 6.5 < u) : HasDerivAt (fun u : ℝ => F2M T (u ^ 2)) (f2M T (u ^ 2)) u := by
  have hu0 : 0 < u := lt_trans (by norm_num) hu
  have big : ∀ v : ℝ, 6.5 < v → 6.5 * 6.5 < v ^ 2 := fun v hv => by norm_num at hv ⊢; nlinarith
  have e1 : ∀ v : ℝ, 6.5 < v → F2M T (v ^ 2) = ((List.range 11).map fun i => -0.5 * T.c2large (i + 2) / (i + 2 : ℕ) *
      (0.5 / (i + 2 : ℕ) + 0.5 * Real.log (v ^ 2) + T.s2large (i + 2)) * (v ^ 2) ^ (-((i + 2 : ℕ) : ℝ))).sum := by
    intro v hv
    have := big v hv
    unfold F2M F2Mlarge
    rw [if_pos (by norm_num at this ⊢; linarith), if_neg (by push Not; intro _; exact this)]
  have e2 : f2M T (u ^ 2) = ((List.range 11).map fun i => T.c2large (i + 2) * (0.5 * Real.log (u ^ 2) + T.s2large (i + 2)) *
      (u ^ 2) ^ (-((i + 2 : ℕ) + 0.5 : ℝ))).sum := by
    have := big u hu
    unfold f2M f2Mlarge
    rw [if_pos (by norm_num at this ⊢; linarith), if_neg (by push Not; intro _; exact this)]
  rw [e2]
  refine HasDerivAt.congr_of_eventuallyEq (hasDerivAt_list_sum _ _ u (List.range 11) fun i _ =>
    term_deriv (T.c2large (i + 2)) (T.s2large (i + 2)) (i + 2) (by omega) u hu0) ?_
  filter_upwards [lt_mem_nhds hu] with v hv using e1 v hv

/-- C112 fails at the junction between 4.25 and 6.5: distribution function and density are independent parabolas; for example at 5 the
derivative of the second term is 1.36e-3, the density 1.88e-3. -/
theorem C112_junction (T : MoliereTables) : ∃ d, HasDerivAt (fun u : ℝ => F2M T (u ^ 2)) d 5 ∧ d < 1.37e-3 ∧ 1.87e-3 < f2M T (5 ^ 2) := by
  refine ⟨-0.00026360133958801203364619158975302 * (2 * 5) + 0.0039965027465457608410459577896745, ?_, by norm_num, ?_⟩
  · have hev : (fun u : ℝ => F2M T (u ^ 2)) =ᶠ[𝓝 5] fun u => -0.00026360133958801203364619158975302 * u ^ 2 +
        0.0039965027465457608410459577896745 * u + -0.016305842044996649714549974419242 := by
      filter_upwards [lt_mem_nhds (show (4.25 : ℝ) < 5 by norm_num), gt_mem_nhds (show (5 : ℝ) < 6.5 by norm_num)] with v h1 h2
      norm_num at h1 h2
      unfold F2M F2Mlarge
      rw [if_pos (by norm_num; nlinarith), if_pos (by norm_num; constructor <;> nlinarith), Real.sqrt_sq (by linarith)]
    refine HasDerivAt.congr_of_eventuallyEq ?_ hev
    have h1 := ((hasDerivAt_pow 2 (5 : ℝ)).const_mul (-0.00026360133958801203364619158975302)).add
      ((hasDerivAt_id (5 : ℝ)).const_mul (0.0039965027465457608410459577896745))
    have h2 := h1.add_const (-0.016305842044996649714549974419242)
    refine h2.congr_deriv ?_
    norm_num
  · unfold f2M f2Mlarge
    rw [if_pos (by norm_num), if_pos (by norm_num), show ((5 : ℝ) ^ 2) = 5 ^ 2 from rfl, Real.sqrt_sq (by norm_num)]
    norm_num

/-- The expansion of the first term. -/
private theorem F1Mlarge_eq (T : MoliereTables) (x : ℝ) : F1Mlarge T x = T.C1large 0 + ∑ p ∈ Finset.range 14, T.C1large (p + 1) * (x⁻¹) ^ (p + 1) := by
  unfold F1Mlarge
  simp only [List.range, List.range.loop, List.foldr, Finset.sum_range_succ, Finset.sum_range_zero, div_eq_mul_inv]
  ring

private theorem rpow_expansion {y : ℝ} (h0 : 0 ≤ y) (h1 : y ≤ 3 / 8) :
    1 + 2 / 3 * y + 5 / 9 * y ^ 2 ≤ 1 / (1 - y) ^ (2 / 3 : ℝ) ∧ 1 / (1 - y) ^ (2 / 3 : ℝ) ≤ 1 + 2 / 3 * y + 5 / 9 * y ^ 2 + 2 * y ^ 3 := by
  have hy : 0 < 1 - y := by linarith
  set w := (1 - y) ^ (2 / 3 : ℝ) with hw
  have hw0 : 0 < w := Real.rpow_pos_of_pos hy _
  have hw3 : w ^ 3 = (1 - y) ^ 2 := by
    rw [hw, ← Real.rpow_natCast, ← Real.rpow_mul hy.le]
    norm_num
  have hp : 0 ≤ 1 + 2 / 3 * y + 5 / 9 * y ^ 2 := by positivity
  have h2 : 0 ≤ y ^ 3 := by positivity
  have y2 : y ^ 2 ≤ 9 / 64 := by nlinarith
  have y3 : y ^ 3 ≤ 27 / 512 := by nlinarith [mul_nonneg h0 h0]
  have y4 : y ^ 4 ≤ 81 / 4096 := by nlinarith [sq_nonneg y, sq_nonneg (y ^ 2)]
  have y5 : y ^ 5 ≤ 243 / 32768 := by
    have : y ^ 5 = y ^ 4 * y := by ring
    nlinarith [pow_nonneg h0 4]
  have y7 : y ^ 7 ≤ 1 / 128 := by
    have : y ^ 7 = y ^ 5 * y ^ 2 := by ring
    nlinarith [pow_nonneg h0 5, pow_nonneg h0 2]
  constructor
  · rw [le_div_iff₀ hw0]
    have : ((1 + 2 / 3 * y + 5 / 9 * y ^ 2) * w) ^ 3 ≤ 1 ^ 3 := by
      rw [mul_pow, hw3]
      have e : 1 ^ 3 - (1 + 2 / 3 * y + 5 / 9 * y ^ 2) ^ 3 * (1 - y) ^ 2 =
        y ^ 3 * (40 / 27 + 10 / 27 * y + 16 / 81 * y ^ 2 - 440 / 729 * y ^ 3 - 200 / 729 * y ^ 4 - 125 / 729 * y ^ 5) := by ring
      have : 0 ≤ 40 / 27 + 10 / 27 * y + 16 / 81 * y ^ 2 - 440 / 729 * y ^ 3 - 200 / 729 * y ^ 4 - 125 / 729 * y ^ 5 := by
        nlinarith [sq_nonneg y]
      have := mul_nonneg h2 this
      linarith
    exact le_of_pow_le_pow_left₀ (by norm_num) (by norm_num) this
  · rw [div_le_iff₀ hw0]
    have : (1 : ℝ) ^ 3 ≤ ((1 + 2 / 3 * y + 5 / 9 * y ^ 2 + 2 * y ^ 3) * w) ^ 3 := by
      rw [mul_pow, hw3]
      have e : (1 + 2 / 3 * y + 5 / 9 * y ^ 2 + 2 * y ^ 3) ^ 3 * (1 - y) ^ 2 - 1 ^ 3 =
        y ^ 3 * (122 / 27 - 118 / 27 * y - 70 / 81 * y ^ 2 + 4652 / 729 * y ^ 3 - 9790 / 729 * y ^ 4 + 2609 / 729 * y ^ 5 +
          122 / 27 * y ^ 6 - 28 / 3 * y ^ 7 + 8 * y ^ 8) := by ring
      have : 0 ≤ 122 / 27 - 118 / 27 * y - 70 / 81 * y ^ 2 + 4652 / 729 * y ^ 3 - 9790 / 729 * y ^ 4 + 2609 / 729 * y ^ 5 +
          122 / 27 * y ^ 6 - 28 / 3 * y ^ 7 + 8 * y ^ 8 := by
        have := pow_nonneg h0 5
        have := pow_nonneg h0 6
        have := pow_nonneg h0 8
        linarith
      have := mul_nonneg h2 this
      linarith
    exact le_of_pow_le_pow_left₀ (by norm_num) (by positivity) this

/-- C112: beyond 12 the first term of the distribution function is the integral of that of the density up to terms of the order
`u⁻⁹`, if the first coefficients are `-√π/4 (1, 3/2, 15/4)` (the values of the code are these numbers, rounded). -/
theorem C112_tail_first (T : MoliereTables) (h1 : T.C1large 1 = -(Real.sqrt Real.pi / 4)) (h2 : T.C1large 2 = -(Real.sqrt Real.pi / 4) * (3 / 2))
    (h3 : T.C1large 3 = -(Real.sqrt Real.pi / 4) * (15 / 4)) :
    ∃ K, ∀ u : ℝ, 0 < u → 12 < u ^ 2 → ∃ d, HasDerivAt (fun u : ℝ => F1M T (u ^ 2)) d u ∧ |d - f1M T (u ^ 2)| ≤ K * (u⁻¹) ^ 9 := by
  set S := Real.sqrt Real.pi with hS
  have hS0 : 0 < S := Real.sqrt_pos.2 Real.pi_pos
  refine ⟨(∑ p ∈ Finset.range 11, |T.C1large (p + 4) * (-(2 * (p + 4)))|) + S * 4.5 ^ 3, ?_⟩
  intro u hu hu2
  set a := u⁻¹ with ha
  have ha0 : 0 < a := inv_pos.2 hu
  have ha1 : a ≤ 1 := inv_le_one_of_one_le₀ (by nlinarith)
  have ha2 : a ^ 2 < 1 / 12 := by
    rw [ha, inv_pow, inv_eq_one_div]
    exact one_div_lt_one_div_of_lt (by norm_num) hu2
  have hd : HasDerivAt (fun u : ℝ => T.C1large 0 + ∑ p ∈ Finset.range 14, T.C1large (p + 1) * ((u ^ 2)⁻¹) ^ (p + 1))
      (∑ p ∈ Finset.range 14, T.C1large (p + 1) * (-(2 * (p + 1)) * a ^ (2 * p + 3))) u := by
    refine HasDerivAt.const_add _ (HasDerivAt.fun_sum fun p _ => HasDerivAt.const_mul _ ?_)
    have hi : HasDerivAt (fun u : ℝ => u⁻¹) (-(u ^ 2)⁻¹) u := hasDerivAt_inv hu.ne'
    have hp := hi.pow (2 * p + 2)
    refine (hp.congr_of_eventuallyEq (Eventually.of_forall fun v => ?_)).congr_deriv ?_
    · simp only [Pi.pow_apply]
      rw [← inv_pow, ← pow_mul]
      congr 1
    · rw [← inv_pow, ← ha, show 2 * p + 2 - 1 = 2 * p + 1 by omega]
      push_cast
      ring
  refine ⟨_, hd.congr_of_eventuallyEq ?_, ?_⟩
  · have : ∀ᶠ v : ℝ in 𝓝 u, 12 < v ^ 2 := (continuous_pow 2).continuousAt.eventually (lt_mem_nhds hu2)
    filter_upwards [this] with v hv
    unfold F1M
    rw [if_pos hv, F1Mlarge_eq]
  · have hy := rpow_expansion (y := 4.5 * a ^ 2) (by positivity) (by norm_num; linarith)
    have hf : f1M T (u ^ 2) = S / 2 * a ^ 3 * (1 / (1 - 4.5 * a ^ 2) ^ (2 / 3 : ℝ)) := by
      unfold f1M
      rw [if_pos hu2]
      have e1 : (u ^ 2 : ℝ) ^ (1.5 : ℝ) = u ^ 3 := by
        rw [← Real.rpow_natCast, ← Real.rpow_mul hu.le, ← Real.rpow_natCast u 3]
        norm_num
      have e2 : 4.5 / u ^ 2 = 4.5 * a ^ 2 := by rw [ha, inv_pow, div_eq_mul_inv]
      rw [e1, e2, ← hS, ha]
      have : (1 - 4.5 * u⁻¹ ^ 2) ^ (2 / 3 : ℝ) ≠ 0 := by
        rw [← ha]
        exact (Real.rpow_pos_of_pos (by norm_num; linarith) _).ne'
      set w := (1 - 4.5 * u⁻¹ ^ 2) ^ (2 / 3 : ℝ)
      field_simp
      norm_num
    rw [hf]
    set w := 1 / (1 - 4.5 * a ^ 2) ^ (2 / 3 : ℝ)
    have split : ∑ p ∈ Finset.range 14, T.C1large (p + 1) * (-(2 * (p + 1)) * a ^ (2 * p + 3)) =
        S / 2 * a ^ 3 * (1 + 2 / 3 * (4.5 * a ^ 2) + 5 / 9 * (4.5 * a ^ 2) ^ 2) +
        ∑ p ∈ Finset.range 11, T.C1large (p + 4) * (-(2 * (p + 4))) * a ^ (2 * p + 9) := by
      rw [Finset.sum_range_succ', Finset.sum_range_succ', Finset.sum_range_succ']
      simp only [zero_add, Nat.reduceAdd]
      rw [h1, h2, h3, add_assoc, add_assoc, add_comm]
      congr 1
      · norm_num
        ring
      · refine Finset.sum_congr rfl fun p _ => ?_
        push_cast
        rw [show p + 1 + 1 + 1 + 1 = p + 4 by ring, show 2 * (p + 1 + 1 + 1) + 3 = 2 * p + 9 by ring]
        ring
    rw [split]
    set R := ∑ p ∈ Finset.range 11, T.C1large (p + 4) * (-(2 * (p + 4))) * a ^ (2 * p + 9) with hR
    have hRb : |R| ≤ (∑ p ∈ Finset.range 11, |T.C1large (p + 4) * (-(2 * (p + 4)))|) * a ^ 9 := by
      rw [hR, Finset.sum_mul]
      refine (Finset.abs_sum_le_sum_abs _ _).trans (Finset.sum_le_sum fun p _ => ?_)
      rw [abs_mul, abs_of_nonneg (by positivity : 0 ≤ a ^ (2 * p + 9))]
      exact mul_le_mul_of_nonneg_left (pow_le_pow_of_le_one ha0.le ha1 (by omega)) (abs_nonneg _)
    have e : S / 2 * a ^ 3 * (1 + 2 / 3 * (4.5 * a ^ 2) + 5 / 9 * (4.5 * a ^ 2) ^ 2) + R - S / 2 * a ^ 3 * w =
        R - S / 2 * a ^ 3 * (w - (1 + 2 / 3 * (4.5 * a ^ 2) + 5 / 9 * (4.5 * a ^ 2) ^ 2)) := by ring
    rw [e, add_mul]
    refine (abs_sub _ _).trans (add_le_add hRb ?_)
    rw [abs_mul, abs_of_nonneg (by positivity : 0 ≤ S / 2 * a ^ 3), abs_of_nonneg (by linarith [hy.1])]
    have : w - (1 + 2 / 3 * (4.5 * a ^ 2) + 5 / 9 * (4.5 * a ^ 2) ^ 2) ≤ 2 * (4.5 * a ^ 2) ^ 3 := by linarith [hy.2]
    calc S / 2 * a ^ 3 * (w - (1 + 2 / 3 * (4.5 * a ^ 2) + 5 / 9 * (4.5 * a ^ 2) ^ 2))
        ≤ S / 2 * a ^ 3 * (2 * (4.5 * a ^ 2) ^ 3) := mul_le_mul_of_nonneg_left this (by positivity)
      _ = S * 4.5 ^ 3 * a ^ 9 := by ring

private theorem tendsto_F2M (T : MoliereTables) : Tendsto (F2M T) atTop (𝓝 0) := by
  have one : ∀ i : ℕ, Tendsto (fun x : ℝ => -0.5 * T.c2large (i + 2) / (i + 2 : ℕ) *
      (0.5 / (i + 2 : ℕ) + 0.5 * Real.log x + T.s2large (i + 2)) * x ^ (-((i + 2 : ℕ) : ℝ))) atTop (𝓝 0) := by
    intro i
    have hp : (0 : ℝ) < ((i + 2 : ℕ) : ℝ) := by positivity
    have t1 : Tendsto (fun x : ℝ => x ^ (-((i + 2 : ℕ) : ℝ))) atTop (𝓝 0) := tendsto_rpow_neg_atTop hp
    have t2 : Tendsto (fun x : ℝ => Real.log x / x ^ ((i + 2 : ℕ) : ℝ)) atTop (𝓝 0) :=
      (isLittleO_log_rpow_atTop hp).tendsto_div_nhds_zero
    have t3 := ((t1.const_mul (0.5 / (i + 2 : ℕ) + T.s2large (i + 2))).add (t2.const_mul 0.5)).const_mul
      (-0.5 * T.c2large (i + 2) / (i + 2 : ℕ))
    simp only [mul_zero, add_zero] at t3
    refine t3.congr' ?_
    filter_upwards [eventually_gt_atTop 0] with x hx
    rw [Real.rpow_neg hx.le]
    ring
  have hs : Tendsto (fun x : ℝ => ((List.range 11).map fun i => -0.5 * T.c2large (i + 2) / (i + 2 : ℕ) *
    (0.5 / (i + 2 : ℕ) + 0.5 * Real.log x + T.s2large (i + 2)) * x ^ (-((i + 2 : ℕ) : ℝ))).sum) atTop (𝓝 0) := by
    have := tendsto_list_sum (List.range 11) (fun i _ => one i)
    simpa using this
  refine hs.congr' ?_
  filter_upwards [eventually_gt_atTop (6.5 * 6.5)] with x hx
  unfold F2M F2Mlarge
  rw [if_pos (by norm_num at hx ⊢; linarith), if_neg (by push Not; intro _; exact hx)]

private theorem tendsto_F1M (T : MoliereTables) : Tendsto (F1M T) atTop (𝓝 (T.C1large 0)) := by
  have hs : Tendsto (fun x : ℝ => T.C1large 0 + ∑ p ∈ Finset.range 14, T.C1large (p + 1) * (x⁻¹) ^ (p + 1)) atTop (𝓝 (T.C1large 0)) := by
    have h : Tendsto (fun x : ℝ => ∑ p ∈ Finset.range 14, T.C1large (p + 1) * (x⁻¹) ^ (p + 1)) atTop
        (𝓝 (∑ p ∈ Finset.range 14, T.C1large (p + 1) * 0 ^ (p + 1))) :=
      tendsto_finsetSum _ fun p _ => ((tendsto_inv_atTop_zero).pow (p + 1)).const_mul _
    simpa using h.const_add (T.C1large 0)
  refine hs.congr' ?_
  filter_upwards [eventually_gt_atTop 12] with x hx
  unfold F1M
  rw [if_pos hx, F1Mlarge_eq]

/-- C112: the distribution function is normalized: it tends to 1/2 for large angles (and to -1/2 for large negative ones), so that
every random number in (0, 1) belongs to an angle. -/
theorem C112_normalized (T : MoliereTables) (erf : ℝ → ℝ) (he : Tendsto erf atTop (𝓝 1)) (hT : T.C1large 0 = 0) (s : Moliere)
    (hl : s.weightZZ.length ≤ s.bs.length) (hw : 0 < s.weightZZ.sum) (hws : s.weightZZSum = 1 / s.weightZZ.sum)
    (hB : ∀ b ∈ s.bs, 0 < s.chiCSq * b) :
    Tendsto (s.dist (moliereFns T erf)) atTop (𝓝 (1 / 2)) ∧ Tendsto (s.dist (moliereFns T erf)) atBot (𝓝 (-(1 / 2))) := by
  have one : ∀ wb ∈ s.weightZZ.zip s.bs, ∀ l : Filter ℝ, Tendsto (fun t : ℝ => t * t) l atTop →
      Tendsto (fun t : ℝ => wb.1 * (0.5 * erf (Real.sqrt (max (t * t / (s.chiCSq * wb.2)) 0)) +
      Real.sqrt (1 / Real.pi) * (F1M T (t * t / (s.chiCSq * wb.2)) / wb.2 + F2M T (t * t / (s.chiCSq * wb.2)) / (wb.2 * wb.2)))) l
      (𝓝 (wb.1 * 0.5)) := by
    intro wb hwb l hl
    have hq := hB wb.2 (List.of_mem_zip hwb).2
    have tx : Tendsto (fun t : ℝ => t * t / (s.chiCSq * wb.2)) l atTop := hl.atTop_div_const hq
    have ts : Tendsto (fun t : ℝ => Real.sqrt (max (t * t / (s.chiCSq * wb.2)) 0)) l atTop :=
      Real.tendsto_sqrt_atTop.comp (tendsto_atTop_mono (fun _ => le_max_left _ _) tx)
    have t1 := (tendsto_F1M T).comp tx
    have t2 := (tendsto_F2M T).comp tx
    rw [hT] at t1
    have := ((((he.comp ts).const_mul 0.5)).add (((t1.div_const wb.2).add (t2.div_const (wb.2 * wb.2))).const_mul
      (Real.sqrt (1 / Real.pi)))).const_mul wb.1
    simpa [Function.comp_def] using this
  have sum : ∀ l : Filter ℝ, Tendsto (fun t : ℝ => t * t) l atTop → Tendsto (fun t : ℝ => ((s.weightZZ.zip s.bs).map fun wb =>
      wb.1 * (0.5 * erf (Real.sqrt (max (t * t / (s.chiCSq * wb.2)) 0)) +
      Real.sqrt (1 / Real.pi) * (F1M T (t * t / (s.chiCSq * wb.2)) / wb.2 + F2M T (t * t / (s.chiCSq * wb.2)) / (wb.2 * wb.2)))).sum *
      s.weightZZSum) l (𝓝 (1 / 2)) := by
    intro l h
    have h1 := (tendsto_list_sum (s.weightZZ.zip s.bs) (fun wb hwb => one wb hwb l h)).mul_const s.weightZZSum
    have h2 : ((s.weightZZ.zip s.bs).map fun wb => wb.1 * 0.5).sum = s.weightZZ.sum * 0.5 := by
      rw [List.sum_map_mul_right, List.map_fst_zip hl]
    rw [h2, hws, show s.weightZZ.sum * 0.5 * (1 / s.weightZZ.sum) = 1 / 2 by field_simp; norm_num] at h1
    rwa [hws]
  constructor
  · refine (sum atTop (tendsto_id.atTop_mul_atTop₀ tendsto_id)).congr' ?_
    filter_upwards [eventually_gt_atTop 0] with t ht
    unfold Moliere.dist
    simp only [moliereFns]
    rw [if_neg (by linarith)]
  · refine ((sum atBot (tendsto_id.atBot_mul_atBot₀ tendsto_id)).neg).congr' ?_
    filter_upwards [eventually_lt_atBot 0] with t ht
    unfold Moliere.dist
    simp only [moliereFns]
    rw [if_pos ht]
    ring

/-- A new object for water, after a call. -/
example : let s : Moliere := { Moliere.new 105 [(1, 2, 1), (8, 1, 16)] with chiCSq := 1e-6, bs := [10, 9] }
    s.weightZZ.length ≤ s.bs.length ∧ 0 < s.weightZZ.sum ∧ s.weightZZSum = 1 / s.weightZZ.sum ∧ ∀ b ∈ s.bs, 0 < s.chiCSq * b := by
  norm_num [Moliere.new]

end Proposal
