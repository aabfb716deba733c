import Verif.Model.MultipleScattering
import Mathlib.Analysis.SpecialFunctions.Sqrt
import Mathlib.Analysis.SpecialFunctions.Pow.Deriv
import Mathlib.Analysis.SpecialFunctions.ExpDeriv
import Mathlib.Algebra.BigOperators.Intervals
import Mathlib.Analysis.Calculus.Deriv.Pow

/-! Properties C111, C112: state and sampling of Molière scattering. -/

namespace Proposal

/-! ## State -/

/-- The fields that the constructor sets and no function changes, and a complete list of values for `B`. -/
structure Spec.SameMoliere (s t : Moliere) : Prop where
  mass : s.mass = t.mass
  zSqA : s.zSqA = t.zSqA
  zs : s.zs = t.zs
  weightZZ : s.weightZZ = t.weightZZ
  weightZZSum : s.weightZZSum = t.weightZZSum
  maxIndex : s.maxIndex = t.maxIndex
  length : s.bs.length = t.bs.length

open Spec

theorem bLoops_length (l : ℝ → ℝ) : ∀ zs, (bLoops l zs).1.length ≤ zs.length ∧ ((bLoops l zs).2 = some true → (bLoops l zs).1.length = zs.length)
  | [] => by simp [bLoops]
  | z :: zs => by
    obtain ⟨h1, h2⟩ := bLoops_length l zs
    unfold bLoops
    split
    · exact ⟨by simpa using h1, fun h => by simpa using h2 h⟩
    · simp
    · simp

theorem getPrefactor_fields (s : Moliere) (ei g : ℝ) (h : s.bs.length = s.zs.length) : SameMoliere s (s.getPrefactor ei g).1 := by
  have hl := (bLoops_length (fun z => Real.log (chiCSqOf s.mass s.zSqA ei g / chiASq s.mass ei z)) s.zs).1
  unfold Moliere.getPrefactor
  simp only
  split_ifs
  · exact ⟨rfl, rfl, rfl, rfl, rfl, rfl, rfl⟩
  · split <;> refine ⟨rfl, rfl, rfl, rfl, rfl, rfl, ?_⟩ <;> · simp only [List.length_append, List.length_drop]; omega

/-- The result, and the part of the state that is used afterwards, do not depend on the values left by earlier calls. -/
theorem getPrefactor_indep (s t : Moliere) (ei g : ℝ) (hst : SameMoliere s t) (h : s.bs.length = s.zs.length) :
    (s.getPrefactor ei g).2 = (t.getPrefactor ei g).2 ∧
    ((s.getPrefactor ei g).2 ≠ some 0 → (s.getPrefactor ei g).2 ≠ none → (s.getPrefactor ei g).1 = (t.getPrefactor ei g).1) := by
  obtain ⟨m, z, zs, w, ws, i, chi, bs⟩ := s
  obtain ⟨m', z', zs', w', ws', i', chi', bs'⟩ := t
  obtain ⟨h1, h2, h3, h4, h5, h6, h7⟩ := hst
  simp only at h1 h2 h3 h4 h5 h6 h7 h
  subst h1 h2 h3 h4 h5 h6
  unfold Moliere.getPrefactor
  simp only
  by_cases hc : chiCSqOf m z ei g ≤ 0
  · simp only [if_pos hc]
    exact ⟨trivial, fun h => absurd rfl h⟩
  · simp only [if_neg hc]
    have hl := (bLoops_length (fun z' => Real.log (chiCSqOf m z ei g / chiASq m ei z')) zs).2
    generalize bLoops (fun z' => Real.log (chiCSqOf m z ei g / chiASq m ei z')) zs = r at hl
    obtain ⟨r1, r2⟩ := r
    match r2 with
    | none => exact ⟨rfl, fun _ h => absurd rfl h⟩
    | some false => exact ⟨rfl, fun h => absurd rfl h⟩
    | some true =>
      have hr : r1.length = zs.length := hl rfl
      have d1 : bs.drop r1.length = [] := List.drop_eq_nil_of_le (by omega)
      have d2 : bs'.drop r1.length = [] := List.drop_eq_nil_of_le (by omega)
      simp only [d1, d2]
      exact ⟨trivial, fun _ _ => trivial⟩

theorem randomAngle_fst (M : MoliereFns) (ppf : ℝ → Option ℝ) (s : Moliere) (g ei : ℝ) (r : Fin 4 → ℝ) :
    (s.randomAngle M ppf g ei r).1 = (s.getPrefactor ei g).1 := by
  unfold Moliere.randomAngle
  generalize s.getPrefactor ei g = q
  obtain ⟨s', p⟩ := q
  cases p with
  | none => rfl
  | some p =>
    simp only
    split_ifs <;> rfl

/-- A sequence of calls: grammages, energies and random numbers. -/
noncomputable def Spec.moliereAfter (M : MoliereFns) (ppf : ℝ → Option ℝ) (s : Moliere) : List (ℝ × ℝ × (Fin 4 → ℝ)) → Moliere
  | [] => s
  | c :: cs => Spec.moliereAfter M ppf (s.randomAngle M ppf c.1 c.2.1 c.2.2).1 cs

theorem moliereAfter_same (M : MoliereFns) (ppf : ℝ → Option ℝ) : ∀ (calls : List (ℝ × ℝ × (Fin 4 → ℝ))) (s : Moliere),
    s.bs.length = s.zs.length → SameMoliere s (moliereAfter M ppf s calls)
  | [], s, _ => ⟨rfl, rfl, rfl, rfl, rfl, rfl, rfl⟩
  | c :: cs, s, h => by
    have h1 := getPrefactor_fields s c.2.1 c.1 h
    have h2 := moliereAfter_same M ppf cs (s.randomAngle M ppf c.1 c.2.1 c.2.2).1 (by
      rw [randomAngle_fst, ← h1.length, ← h1.zs]; exact h)
    rw [randomAngle_fst] at h2
    show SameMoliere s (moliereAfter M ppf (s.randomAngle M ppf c.1 c.2.1 c.2.2).1 cs)
    rw [randomAngle_fst]
    exact ⟨h1.mass.trans h2.mass, h1.zSqA.trans h2.zSqA, h1.zs.trans h2.zs, h1.weightZZ.trans h2.weightZZ,
      h1.weightZZSum.trans h2.weightZZSum, h1.maxIndex.trans h2.maxIndex, h1.length.trans h2.length⟩

/-- C111: after any sequence of calls a Molière object gives the same offsets as a new one. -/
theorem C111_history (M : MoliereFns) (ppf : ℝ → Option ℝ) (mass : ℝ) (comps : List (ℝ × ℝ × ℝ)) (calls : List (ℝ × ℝ × (Fin 4 → ℝ)))
    (g ei : ℝ) (r : Fin 4 → ℝ) :
    ((moliereAfter M ppf (.new mass comps) calls).randomAngle M ppf g ei r).2 = ((Moliere.new mass comps).randomAngle M ppf g ei r).2 := by
  have hlen : (Moliere.new mass comps).bs.length = (Moliere.new mass comps).zs.length := by simp [Moliere.new]
  have hs := moliereAfter_same M ppf calls _ hlen
  obtain ⟨k1, k2⟩ := getPrefactor_indep _ _ ei g hs hlen
  generalize Moliere.new mass comps = s at *
  generalize moliereAfter M ppf s calls = t at *
  unfold Moliere.randomAngle
  generalize s.getPrefactor ei g = q at *
  generalize t.getPrefactor ei g = q' at *
  obtain ⟨s', p⟩ := q
  obtain ⟨t', p'⟩ := q'
  simp only at k1 k2
  subst k1
  cases p with
  | none => rfl
  | some p =>
    simp only
    by_cases hp : p = 0
    · simp only [if_pos hp]
    · simp only [if_neg hp]
      rw [k2 (by simpa using hp) (by simp)]

/-- C111 fails for the comparison: a Molière object that was used once is different from a new one (and so are the
propagation utilities that contain them). -/
theorem C111_comparison (M : MoliereFns) (ppf : ℝ → Option ℝ) (mass ei g : ℝ) (i : Bool) (r : Fin 4 → ℝ) (comps : List (ℝ × ℝ × ℝ))
    (hm : 0 ≤ mass) (hE : mass < ei) (hg : 0 < g) (hz : 0 < (Moliere.new mass comps).zSqA) :
    (MsObj.moliere i (.new mass comps)).equal (.moliere i (.new mass comps)) = some true ∧
    (MsObj.moliere i (.new mass comps)).equal (.moliere i ((Moliere.new mass comps).randomAngle M ppf g ei r).1) = some false := by
  constructor
  · simp [MsObj.equal]
  · have hlen : (Moliere.new mass comps).bs.length = (Moliere.new mass comps).zs.length := by simp [Moliere.new]
    rw [randomAngle_fst]
    have h1 := getPrefactor_fields _ ei g hlen
    have hchi : ((Moliere.new mass comps).getPrefactor ei g).1.chiCSq = chiCSqOf mass (Moliere.new mass comps).zSqA ei g := by
      unfold Moliere.getPrefactor
      simp only
      split_ifs
      · rfl
      · split <;> rfl
    have hpos : 0 < chiCSqOf mass (Moliere.new mass comps).zSqA ei g := by
      have hAL : 0 < ALPHA := by norm_num [ALPHA]
      have h1 : 0 < NAvogadro := by norm_num [NAvogadro]
      have h2 : 0 < HBAR := by norm_num [HBAR]
      have h3 : 0 < SPEED := by norm_num [SPEED]
      have hp2 : 0 < (ei - mass) * (ei + mass) := mul_pos (by linarith) (by linarith)
      have he : 0 < ei := by linarith
      unfold chiCSqOf
      simp only
      positivity
    have h0 : (Moliere.new mass comps).chiCSq = 0 := rfl
    unfold MsObj.equal
    rw [if_neg (by simpa [MsObj.mass] using h1.mass)]
    simp only [Option.some.injEq, decide_eq_false_iff_not]
    rintro ⟨-, -, -, -, -, -, h, -⟩
    rw [h0, hchi] at h
    linarith

/-- Water. -/
example : 0 < (Moliere.new 105 [(1, 2, 1), (8, 1, 16)]).zSqA := by
  norm_num [Moliere.new, ME]

/-- C111: one component for which there is no `B` of at least 4.5 switches the scattering off. -/
theorem C111_all_components (l : ℝ → ℝ) : ∀ zs, (bLoops l zs).2 = some true ↔ ∀ z ∈ zs, ∃ b, bLoop (l z) 6 15 = .value b
  | [] => by simp [bLoops]
  | z :: zs => by
    have ih := C111_all_components l zs
    unfold bLoops
    split
    · rename_i b hb
      simp [ih, hb]
    · rename_i hb
      simp [hb]
    · rename_i hb
      simp [hb]

/-! ## Sampling -/

theorem dens_neg (M : MoliereFns) (s : Moliere) (t : ℝ) : s.dens M (-t) = s.dens M t := by
  unfold Moliere.dens
  simp only [neg_mul_neg]

theorem dist_neg (M : MoliereFns) (s : Moliere) (t : ℝ) (h : s.dist M 0 = 0) : s.dist M (-t) = -s.dist M t := by
  rcases eq_or_ne t 0 with rfl | ht
  · rw [neg_zero, h, neg_zero]
  · unfold Moliere.dist
    simp only [neg_mul_neg]
    rcases lt_or_gt_of_ne ht with h1 | h1
    · rw [if_neg (by linarith), if_pos h1]; ring
    · rw [if_pos (by linarith), if_neg (by linarith)]; ring

theorem randomLoop_neg (M : MoliereFns) (s : Moliere) (h : s.dist M 0 = 0) (rnd : ℝ) : ∀ (n : ℕ) (t : ℝ),
    s.randomLoop M (-rnd) n (-t) = (s.randomLoop M rnd n t).map (-·)
  | 0, t => rfl
  | n + 1, t => by
    have ih := randomLoop_neg M s h rnd n
    unfold Moliere.randomLoop
    simp only [dens_neg, dist_neg M s t h]
    set f := s.dens M t
    set y := t - (s.dist M t - rnd) / f with hy
    have e : -t - (-s.dist M t - -rnd) / f = -y := by rw [hy]; ring
    have e2 : (-t - -y) / -y = (t - y) / y := by rw [show -t - -y = -(t - y) by ring, neg_div_neg_eq]
    rw [e]
    simp only [e2, ih, neg_eq_zero]
    split_ifs <;> simp

/-- C112: Molière's angles are symmetric: the complementary random number gives the opposite angle. -/
theorem C112_symmetric (M : MoliereFns) (ppf : ℝ → Option ℝ) (hp : ∀ p, ppf (1 - p) = (ppf p).map (-·)) (s : Moliere)
    (h : s.dist M 0 = 0) (pre rnd : ℝ) : s.getRandom M ppf pre (1 - rnd) = (s.getRandom M ppf pre rnd).map (-·) := by
  unfold Moliere.getRandom
  rw [hp]
  cases ppf rnd with
  | none => rfl
  | some n =>
    simp only [Option.map_some, Option.bind_some]
    have h1 : 1 - rnd - 0.5 = -(rnd - 0.5) := by ring
    have h2 : pre * -n / Real.sqrt 2 = -(pre * n / Real.sqrt 2) := by ring
    rw [h1, h2, randomLoop_neg M s h]

/-- The distribution function vanishes at 0, with the functions of `Moliere` and an error function. -/
theorem dist_zero (T : MoliereTables) (erf : ℝ → ℝ) (he : erf 0 = 0) (s : Moliere) : s.dist (moliereFns T erf) 0 = 0 := by
  have h1 : F1M T 0 = 0 := by
    unfold F1M
    rw [if_neg (by norm_num)]
    simp
  have h2 : F2M T 0 = 0 := by
    unfold F2M
    rw [if_neg (by norm_num)]
    simp
  unfold Moliere.dist
  simp only [mul_zero, zero_div, max_self, Real.sqrt_zero, moliereFns, he, h1, h2, add_zero, lt_irrefl, if_false]
  have : ∀ l : List (ℝ × ℝ), (l.map fun _ => (0 : ℝ)).sum = 0 := by
    intro l
    simp
  rw [this, zero_mul]

/-- C112: with the functions of the code. -/
theorem C112_symmetric_code (T : MoliereTables) (erf erfc : ℝ → ℝ) (he : erf 0 = 0) (hp : ∀ p, normalppf erfc (1 - p) = (normalppf erfc p).map (-·))
    (s : Moliere) (pre rnd : ℝ) :
    s.getRandom (moliereFns T erf) (normalppf erfc) pre (1 - rnd) = (s.getRandom (moliereFns T erf) (normalppf erfc) pre rnd).map (-·) :=
  C112_symmetric _ _ hp s (dist_zero T erf he s) pre rnd

/-- C112: the random number 1 / 2 is the median: the angle is 0, if the density there is not 0. -/
theorem C112_median (M : MoliereFns) (ppf : ℝ → Option ℝ) (s : Moliere) (pre : ℝ) (h : s.dist M 0 = 0) (hd : s.dens M 0 ≠ 0) (hp : ppf 0.5 = some 0) :
    s.getRandom M ppf pre 0.5 = some 0 := by
  unfold Moliere.getRandom
  rw [hp]
  simp only [Option.bind_some, mul_zero, zero_div, sub_self]
  rw [show (100 : ℕ) = 99 + 1 from rfl, Moliere.randomLoop, if_neg hd]
  simp [h]

/-- C112, what holds: the result either satisfies the equation `F(θ) = r - 1/2` in the following sense - the last step was smaller
than 1e-4 of the angle, so that at the value before it the distribution function differs from the random number by less than
1e-4 |θ| times the density - or all 100 steps were used. Missing: convergence. -/
theorem C112_residual_partial (M : MoliereFns) (s : Moliere) (rnd : ℝ) : ∀ (n : ℕ) (t y : ℝ), s.randomLoop M rnd n t = some y →
    (∃ x, s.dens M x ≠ 0 ∧ y = x - (s.dist M x - rnd) / s.dens M x ∧ |s.dist M x - rnd| ≤ 1 / 10000 * |y| * |s.dens M x|) ∨
    (∃ f : ℕ → ℝ, f 0 = t ∧ f n = y ∧ ∀ k < n, s.dens M (f k) ≠ 0 ∧ f (k + 1) = f k - (s.dist M (f k) - rnd) / s.dens M (f k))
  | 0, t, y, h => by
    right
    simp only [Moliere.randomLoop, Option.some.injEq] at h
    exact ⟨fun _ => t, rfl, h, fun k hk => absurd hk (by omega)⟩
  | n + 1, t, y, h => by
    unfold Moliere.randomLoop at h
    simp only at h
    by_cases hd : s.dens M t = 0
    · rw [if_pos hd] at h; simp at h
    rw [if_neg hd] at h
    set z := t - (s.dist M t - rnd) / s.dens M t with hz
    have cont : s.randomLoop M rnd n z = some y →
        (∃ x, s.dens M x ≠ 0 ∧ y = x - (s.dist M x - rnd) / s.dens M x ∧ |s.dist M x - rnd| ≤ 1 / 10000 * |y| * |s.dens M x|) ∨
        (∃ f : ℕ → ℝ, f 0 = t ∧ f (n + 1) = y ∧ ∀ k < n + 1, s.dens M (f k) ≠ 0 ∧
          f (k + 1) = f k - (s.dist M (f k) - rnd) / s.dens M (f k)) := by
      intro h
      rcases C112_residual_partial M s rnd n z y h with h | ⟨f, f0, fn, fs⟩
      · exact Or.inl h
      · right
        refine ⟨fun k => match k with | 0 => t | k + 1 => f k, rfl, fn, ?_⟩
        intro k hk
        cases k with
        | zero => exact ⟨hd, by simp only [f0, hz]⟩
        | succ k => exact fs k (by omega)
    have here : |t - z| ≤ 1 / 10000 * |z| → y = z → ∃ x, s.dens M x ≠ 0 ∧ y = x - (s.dist M x - rnd) / s.dens M x ∧
        |s.dist M x - rnd| ≤ 1 / 10000 * |y| * |s.dens M x| := by
      intro h1 h2
      refine ⟨t, hd, by rw [h2], ?_⟩
      have e : s.dist M t - rnd = (t - z) * s.dens M t := by rw [hz]; field_simp; ring
      rw [e, abs_mul, h2]
      gcongr
    by_cases hn : n = 0
    · rw [if_pos hn] at h
      apply cont
      rw [hn, Moliere.randomLoop]
      exact h
    rw [if_neg hn] at h
    by_cases hz0 : z = 0
    · rw [if_pos hz0] at h
      by_cases ht : t = 0
      · rw [if_pos ht] at h
        left
        apply here
        · rw [hz0, ht]; simp
        · rw [hz0]; simpa using h.symm
      · rw [if_neg ht] at h
        exact cont h
    · rw [if_neg hz0] at h
      by_cases hc : |(t - z) / z| > 1 / 10000
      · rw [if_pos hc] at h
        exact cont h
      · rw [if_neg hc] at h
        left
        apply here
        · push Not at hc
          rwa [abs_div, div_le_iff₀ (abs_pos.2 hz0)] at hc
        · simpa using h.symm

/-! ## Density and distribution function -/

theorem hornerM_eq (a : ℕ → ℝ) (x : ℝ) : ∀ (n : ℕ) (t : ℝ), hornerM a x n t = t * x ^ n + ∑ p ∈ Finset.range n, a p * x ^ p
  | 0, t => by simp [hornerM]
  | n + 1, t => by
    rw [hornerM, hornerM_eq a x n, Finset.sum_range_succ]
    ring

/-- The derivative of the odd polynomial. -/
theorem odd_poly_deriv (a : ℕ → ℝ) (u : ℝ) (n : ℕ) :
    HasDerivAt (fun u : ℝ => hornerM (fun p => a p / (2 * p + 1)) (u ^ 2) n (a n / (2 * n + 1)) * u) (hornerM a (u ^ 2) n (a n)) u := by
  have e : (fun u : ℝ => hornerM (fun p => a p / (2 * p + 1)) (u ^ 2) n (a n / (2 * n + 1)) * u) =
      fun u => ∑ p ∈ Finset.range (n + 1), a p / (2 * p + 1) * u ^ (2 * p + 1) := by
    funext u
    rw [hornerM_eq, Finset.sum_range_succ, add_mul, Finset.sum_mul, add_comm]
    congr 1
    · apply Finset.sum_congr rfl
      intro p _
      rw [← pow_mul]; ring
    · rw [← pow_mul]; ring
  have e' : hornerM a (u ^ 2) n (a n) = ∑ p ∈ Finset.range (n + 1), a p * (u ^ 2) ^ p := by
    rw [hornerM_eq, Finset.sum_range_succ]; ring
  rw [e, e']
  apply HasDerivAt.fun_sum
  intro p _
  have h := (hasDerivAt_pow (2 * p + 1) u).const_mul (a p / (2 * p + 1))
  have e2 : a p * (u ^ 2) ^ p = a p / (2 * p + 1) * (((2 * p + 1 : ℕ) : ℝ) * u ^ (2 * p + 1 - 1)) := by
    have : (2 * (p : ℝ) + 1) ≠ 0 := by positivity
    rw [Nat.add_sub_cancel, pow_mul]
    push_cast
    field_simp
  rw [e2]
  exact h

theorem hasDerivAt_list_sum {α : Type} (f : α → ℝ → ℝ) (f' : α → ℝ) (t : ℝ) : ∀ l : List α, (∀ a ∈ l, HasDerivAt (f a) (f' a) t) →
    HasDerivAt (fun t => (l.map fun a => f a t).sum) (l.map f').sum t
  | [], _ => by simpa using hasDerivAt_const t (0 : ℝ)
  | a :: l, h => by
    simp only [List.map_cons, List.sum_cons]
    exact (h a List.mem_cons_self).add (hasDerivAt_list_sum f f' t l fun b hb => h b (List.mem_cons_of_mem _ hb))

/-- C112: for any tables of coefficients the distribution function is the integral of the density, in the range of the polynomials
(`θ² < 12 χ_c² B` for all components). -/
theorem C112_density (T : MoliereTables) (erf : ℝ → ℝ) (he : ∀ u, HasDerivAt erf (2 / Real.sqrt Real.pi * Real.exp (-u ^ 2)) u) (s : Moliere)
    (theta : ℝ) (ht : 0 < theta) (hB : ∀ wb ∈ s.weightZZ.zip s.bs, 0 < s.chiCSq * wb.2 ∧ theta * theta / (s.chiCSq * wb.2) < 12) :
    HasDerivAt (s.dist (moliereFns T erf)) (s.dens (moliereFns T erf) theta) theta := by
  have hpi : 0 < Real.sqrt Real.pi := Real.sqrt_pos.2 Real.pi_pos
  have one : ∀ wb ∈ s.weightZZ.zip s.bs, HasDerivAt (fun t : ℝ => wb.1 * (0.5 * erf (Real.sqrt (max (t * t / (s.chiCSq * wb.2)) 0)) +
      Real.sqrt (1 / Real.pi) * (F1M T (t * t / (s.chiCSq * wb.2)) / wb.2 + F2M T (t * t / (s.chiCSq * wb.2)) / (wb.2 * wb.2))))
      (wb.1 / Real.sqrt (s.chiCSq * wb.2 * Real.pi) * (Real.exp (-(theta * theta / (s.chiCSq * wb.2))) +
        f1M T (theta * theta / (s.chiCSq * wb.2)) / wb.2 + f2M T (theta * theta / (s.chiCSq * wb.2)) / (wb.2 * wb.2))) theta := by
    intro wb hwb
    obtain ⟨hq, h12⟩ := hB wb hwb
    set q := s.chiCSq * wb.2
    set k := Real.sqrt q with hk
    have hk0 : 0 < k := Real.sqrt_pos.2 hq
    have hkq : k * k = q := Real.mul_self_sqrt hq.le
    have hx : ∀ t : ℝ, t * t / q = (t / k) ^ 2 := by intro t; rw [← hkq, div_pow]; ring
    have hsq : ∀ t : ℝ, 0 < t → Real.sqrt (max (t * t / q) 0) = t / k := by
      intro t h
      rw [max_eq_left (by positivity), hx, Real.sqrt_sq (by positivity)]
    have hev : (fun t : ℝ => wb.1 * (0.5 * erf (Real.sqrt (max (t * t / q) 0)) +
        Real.sqrt (1 / Real.pi) * (F1M T (t * t / q) / wb.2 + F2M T (t * t / q) / (wb.2 * wb.2)))) =ᶠ[nhds theta]
        fun t => wb.1 * (0.5 * erf (t / k) + Real.sqrt (1 / Real.pi) *
          (hornerM (fun p => T.c1 p / (2 * p + 1)) ((t / k) ^ 2) 69 (T.c1 69 / (2 * (69 : ℕ) + 1)) * (t / k) / wb.2 +
           hornerM (fun p => T.c2 p / (2 * p + 1)) ((t / k) ^ 2) 69 (T.c2 69 / (2 * (69 : ℕ) + 1)) * (t / k) / (wb.2 * wb.2))) := by
      have o1 : ∀ᶠ t in nhds theta, 0 < t := lt_mem_nhds ht
      have o2 : ∀ᶠ t in nhds theta, t * t / q < 12 := by
        have : ContinuousAt (fun t : ℝ => t * t / q) theta := by fun_prop
        exact this.eventually_lt_const h12
      filter_upwards [o1, o2] with t t0 t1
      have p1 : F1M T (t * t / q) = hornerM (fun p => T.c1 p / (2 * p + 1)) ((t / k) ^ 2) 69 (T.c1 69 / (2 * (69 : ℕ) + 1)) * (t / k) := by
        unfold F1M
        rw [if_neg (by linarith), hsq t t0, hx]
        norm_num
      have p2 : F2M T (t * t / q) = hornerM (fun p => T.c2 p / (2 * p + 1)) ((t / k) ^ 2) 69 (T.c2 69 / (2 * (69 : ℕ) + 1)) * (t / k) := by
        unfold F2M
        rw [if_neg (by norm_num; linarith), hsq t t0, hx]
        norm_num
      rw [p1, p2, hsq t t0]
    refine HasDerivAt.congr_of_eventuallyEq ?_ hev
    have hu : HasDerivAt (fun t : ℝ => t / k) (1 / k) theta := (hasDerivAt_id theta).div_const k
    have d0 := (he (theta / k)).comp theta hu
    have d1 := (odd_poly_deriv T.c1 (theta / k) 69).comp theta hu
    have d2 := (odd_poly_deriv T.c2 (theta / k) 69).comp theta hu
    have D := ((d0.const_mul 0.5).add (((d1.div_const wb.2).add (d2.div_const (wb.2 * wb.2))).const_mul (Real.sqrt (1 / Real.pi)))).const_mul wb.1
    have f1 : f1M T (theta * theta / q) = hornerM T.c1 ((theta / k) ^ 2) 69 (T.c1 69) := by
      unfold f1M; rw [if_neg (by linarith), hx]
    have f2 : f2M T (theta * theta / q) = hornerM T.c2 ((theta / k) ^ 2) 69 (T.c2 69) := by
      unfold f2M; rw [if_neg (by norm_num; linarith), hx]
    have hr : Real.sqrt (q * Real.pi) = k * Real.sqrt Real.pi := Real.sqrt_mul hq.le _
    have hi : Real.sqrt (1 / Real.pi) = 1 / Real.sqrt Real.pi := by rw [Real.sqrt_div (by norm_num), Real.sqrt_one]
    rw [hr, f1, f2, hx]
    refine D.congr_deriv ?_
    rw [hi]
    generalize hornerM T.c1 ((theta / k) ^ 2) 69 (T.c1 69) = A1
    generalize hornerM T.c2 ((theta / k) ^ 2) 69 (T.c2 69) = A2
    ring
  have hsum := (hasDerivAt_list_sum _ _ theta _ one).mul_const s.weightZZSum
  refine HasDerivAt.congr_of_eventuallyEq hsum ?_
  filter_upwards [lt_mem_nhds ht] with t t0
  unfold Moliere.dist
  simp only [moliereFns]
  rw [if_neg (by linarith)]

/-- The range of the polynomials for one component with `B = 5`. -/
example : ∀ wb ∈ (⟨105, 1, [1], [1], 1, 0, 1, [5]⟩ : Moliere).weightZZ.zip (⟨105, 1, [1], [1], 1, 0, 1, [5]⟩ : Moliere).bs,
    0 < (1 : ℝ) * wb.2 ∧ (1 : ℝ) * 1 / (1 * wb.2) < 12 := by
  intro wb h
  simp only [List.zip_cons_cons, List.zip_nil_right, List.mem_singleton] at h
  subst h
  norm_num

/-- C112: the start value takes `B` of the last component that is heavier than its predecessor, not of the heaviest one. With one or
two components these agree. -/
theorem C112_max_index_partial (w0 w1 : ℝ) : maxIndexLoop 0 0 [w0] = 0 ∧ maxIndexLoop 0 0 [w0, w1] = (if w0 < w1 then 1 else 0) := by
  simp [maxIndexLoop]

/-- C112: with three components the index can be that of a lighter one. -/
theorem C112_max_index : maxIndexLoop 0 0 [0.6, 0.1, 0.3] = 2 := by
  norm_num [maxIndexLoop]

end Proposal
