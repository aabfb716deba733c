import Verif.Model.CrossTables
import Verif.Model.Calculators
import Verif.Props.RootFinding
import Verif.Props.Tiling
import Mathlib.Analysis.Complex.ExponentialBounds

/-!
# C145: cross sections with tables
-/

namespace Proposal

open Spec

/-- The table of a function that vanishes up to a threshold: between two energies the nodes are equidistant in the logarithm, `step` apart. -/
noncomputable def Spec.logStep (low up : ℝ) (n : ℕ) : ℝ := Real.log (up / low) / (n - 1)

/-- A nonnegative function of the energy that stays positive once it is. -/
structure Spec.EnergyThreshold (f : ℝ → ℝ) : Prop where
  nonneg : ∀ E, 0 < E → 0 ≤ f E
  stays : ∀ E E', 0 < E → E ≤ E' → 0 < f E → 0 < f E'

variable {low up : ℝ} {n : ℕ}

private lemma step_pos (h0 : 0 < low) (h1 : low < up) (hn : 2 ≤ n) : 0 < logStep low up n := by
  unfold logStep
  have : (2 : ℝ) ≤ n := by exact_mod_cast hn
  exact div_pos (Real.log_pos (by rw [lt_div_iff₀ h0]; linarith)) (by linarith)

private lemma axis_eq (x : ℝ) : expAxis low up n x = low * Real.exp (x * logStep low up n) := rfl

private lemma axis_pos (h0 : 0 < low) (x : ℝ) : 0 < expAxis low up n x := mul_pos h0 (Real.exp_pos _)

private lemma axis_le (h0 : 0 < low) (h1 : low < up) (hn : 2 ≤ n) {x y : ℝ} :
    expAxis low up n x ≤ expAxis low up n y ↔ x ≤ y := by
  rw [axis_eq, axis_eq, mul_le_mul_iff_right₀ h0, Real.exp_le_exp, mul_le_mul_iff_left₀ (step_pos h0 h1 hn)]

private lemma axis_last (h0 : 0 < low) (h1 : low < up) (hn : 2 ≤ n) : expAxis low up n ((n - 1 : ℕ) : ℝ) = up := by
  have : (2 : ℝ) ≤ n := by exact_mod_cast hn
  rw [axis_eq]
  unfold logStep
  rw [Nat.cast_sub (by omega), Nat.cast_one, mul_div_cancel₀ _ (by linarith), Real.exp_log (div_pos (h0.trans h1) h0)]
  field_simp

private lemma axis_le_up (h0 : 0 < low) (h1 : low < up) (hn : 2 ≤ n) {j : ℕ} (hj : j < n) : expAxis low up n j ≤ up := by
  have h := (axis_le h0 h1 hn (x := (j : ℝ)) (y := ((n - 1 : ℕ) : ℝ))).2 (Nat.cast_le.2 (by omega))
  rwa [axis_last h0 h1 hn] at h

private lemma axis_onto (h0 : 0 < low) (h1 : low < up) (hn : 2 ≤ n) {E : ℝ} (hE : 0 < E) :
    ∃ x, E = expAxis low up n x := by
  refine ⟨Real.log (E / low) / logStep low up n, ?_⟩
  rw [axis_eq, div_mul_cancel₀ _ (step_pos h0 h1 hn).ne', Real.exp_log (div_pos hE h0)]
  field_simp

private lemma axis_shift (x d : ℝ) : expAxis low up n (x - d) = expAxis low up n x * Real.exp (-d * logStep low up n) := by
  rw [axis_eq, axis_eq, mul_assoc, ← Real.exp_add]
  congr 2
  ring

private lemma threshold {f : ℝ → ℝ} (hf : EnergyThreshold f) (h0 : 0 < low) (h1 : low < up) (hn : 2 ≤ n) :
    Threshold (fun i => f (expAxis low up n i)) :=
  ⟨fun _ => hf.nonneg _ (axis_pos h0 _), fun _ _ h => hf.stays _ _ (axis_pos h0 _) ((axis_le h0 h1 hn).2 h)⟩

/-- Without a positive node the function vanishes up to the last node. -/
private lemma all_zero {f : ℝ → ℝ} (hf : EnergyThreshold f) (h0 : 0 < low) (h1 : low < up) (hn : 2 ≤ n)
    (h : ∀ j : ℕ, j < n → f (expAxis low up n j) = 0) (E : ℝ) (hE : 0 < E) (hu : E ≤ up) : f E = 0 := by
  by_contra hne
  have hp := lt_of_le_of_ne (hf.nonneg _ hE) (Ne.symm hne)
  have := hf.stays _ _ hE hu hp
  rw [← axis_last (n := n) h0 h1 hn, h (n - 1) (by omega)] at this
  exact lt_irrefl _ this

/-- Below the beginning of the table the function vanishes, up to a part `d` of a step. -/
private lemma below {f : ℝ → ℝ} (hf : EnergyThreshold f) (h0 : 0 < low) (h1 : low < up) (hn : 2 ≤ n) {s d E : ℝ}
    (hs : f (expAxis low up n (s - d)) = 0) (hE : 0 < E) (h : E < expAxis low up n s) :
    f (E * Real.exp (-d * logStep low up n)) = 0 := by
  obtain ⟨x, rfl⟩ := axis_onto h0 h1 hn hE
  have hx : x ≤ s := (axis_le h0 h1 hn).1 h.le
  rw [← axis_shift]
  by_contra hne
  have hp := lt_of_le_of_ne (hf.nonneg _ (axis_pos h0 _)) (Ne.symm hne)
  have := hf.stays _ _ (axis_pos h0 _) ((axis_le h0 h1 hn (x := x - d) (y := s - d)).2 (by linarith)) hp
  exact this.ne' hs

/-- The splines reproduce a function up to a relative error, wherever the table begins. -/
def Spec.Close (S : SplineMaker) (f : ℝ → ℝ) (low up : ℝ) (n : ℕ) (ε : ℝ) : Prop :=
  ∀ l E, low ≤ l → 0 < f l → l ≤ E → E ≤ up → |S f l up n E - f E| ≤ ε * f E

/-- The part of a step by which a table begins too late, as a factor of the energy. -/
noncomputable def Spec.gap (d low up : ℝ) (n : ℕ) : ℝ := Real.exp (-d * logStep low up n)

/-- C145: a table of the continuous losses is always made, and gives the loss of the integration up to the error of the splines at all
energies of the table; only within a tenth of a step above the threshold it may give no loss at all. -/
theorem C145_loss_table (S : SplineMaker) (s : CrossTableSettings) (low : ℝ) (f : ℝ → ℝ) (hf : EnergyThreshold f) (h0 : 0 < low)
    (h1 : low < s.up) (hn : 2 ≤ s.nodesDedx) (ε : ℝ) (hS : Close S f low s.up s.nodesDedx ε) :
    ∃ r, makeDedx S s true low f = .ok r ∧ ∀ E, low ≤ E → E ≤ s.up →
      |(r.map fun t => t E).getD 0 - f E| ≤ ε * f E ∨
      ((r.map fun t => t E).getD 0 = 0 ∧ f (E * gap (1 / 10) low s.up s.nodesDedx) = 0) := by
  have ht := threshold hf h0 h1 hn
  obtain ⟨a1, a2, a3⟩ := C71_table_begin_partial _ ht s.nodesDedx
  unfold makeDedx
  simp only [if_true]
  rcases hr : refineRange (fun i => f (expAxis low s.up s.nodesDedx i)) s.nodesDedx with _ | _ | i
  · refine ⟨none, rfl, fun E hE hu => Or.inl ?_⟩
    rw [all_zero hf h0 h1 hn (a1.1 hr) E (h0.trans_le hE) hu]
    simp
  · exact absurd hr a2
  · obtain ⟨b1, b2, b3, b4⟩ := a3 i hr
    refine ⟨_, rfl, fun E hE hu => ?_⟩
    simp only [Option.map_some, Option.getD_some]
    unfold lossTable
    by_cases hl : E < expAxis low s.up s.nodesDedx i
    · right
      rw [if_pos hl]
      refine ⟨rfl, ?_⟩
      rcases b4 with rfl | b4
      · rw [axis_eq, zero_mul, Real.exp_zero, mul_one] at hl
        linarith
      · exact below hf h0 h1 hn b4 (h0.trans_le hE) hl
    · left
      rw [if_neg hl]
      refine hS _ _ ?_ b1 (not_lt.1 hl) hu
      rw [axis_eq]
      have : 1 ≤ Real.exp (i * logStep low s.up s.nodesDedx) :=
        Real.one_le_exp (mul_nonneg b2 (step_pos h0 h1 hn).le)
      nlinarith

/-- C145: a table of the rate is made exactly if the rate is positive at a node. It then gives the rate of the integration as the table of
the losses gives the losses. -/
theorem C145_rate_table (S : SplineMaker) (s : CrossTableSettings) (low : ℝ) (f : ℝ → ℝ) (hf : EnergyThreshold f) (h0 : 0 < low)
    (h1 : low < s.up) (hn : 2 ≤ s.nodesDndx) :
    (makeDndx S s true low f = .error .logicError ↔ ∀ E, low ≤ E → E ≤ s.up → f E = 0) ∧
    makeDndx S s true low f ≠ .error .mathError ∧
    ∀ ε t, Close S f low s.up s.nodesDndx ε → makeDndx S s true low f = .ok t → ∀ E, low ≤ E → E ≤ s.up →
      |t E - f E| ≤ ε * f E ∨ (t E = 0 ∧ f (E * gap (1 / 10) low s.up s.nodesDndx) = 0) := by
  have ht := threshold hf h0 h1 hn
  obtain ⟨a1, a2, a3⟩ := C71_table_begin_partial _ ht s.nodesDndx
  have nodes : (∀ E, low ≤ E → E ≤ s.up → f E = 0) ↔ ∀ j : ℕ, j < s.nodesDndx → f (expAxis low s.up s.nodesDndx j) = 0 := by
    refine ⟨fun h j hj => h _ ?_ ?_, fun h E hE hu => all_zero hf h0 h1 hn h E (h0.trans_le hE) hu⟩
    · have := (axis_le h0 h1 hn (x := 0) (y := (j : ℝ))).2 (Nat.cast_nonneg _)
      rwa [axis_eq, zero_mul, Real.exp_zero, mul_one] at this
    · exact axis_le_up h0 h1 hn hj
  rw [nodes, ← a1]
  unfold makeDndx
  simp only [if_true]
  rcases hr : refineRange (fun i => f (expAxis low s.up s.nodesDndx i)) s.nodesDndx with _ | _ | i
  · simp
  · exact absurd hr a2
  · refine ⟨by simp, by simp, ?_⟩
    obtain ⟨b1, b2, b3, b4⟩ := a3 i hr
    intro ε t hS e E hE hu
    obtain rfl := Except.ok.inj e
    unfold rateTable
    by_cases hl : E < expAxis low s.up s.nodesDndx i
    · right
      rw [if_pos hl]
      refine ⟨rfl, ?_⟩
      rcases b4 with rfl | b4
      · rw [axis_eq, zero_mul, Real.exp_zero, mul_one] at hl
        linarith
      · exact below hf h0 h1 hn b4 (h0.trans_le hE) hl
    · left
      rw [if_neg hl]
      have hb : low ≤ expAxis low s.up s.nodesDndx i := by
        rw [axis_eq]
        have : 1 ≤ Real.exp (i * logStep low s.up s.nodesDndx) :=
          Real.one_le_exp (mul_nonneg b2 (step_pos h0 h1 hn).le)
        nlinarith
      have h2 := hS _ _ hb b1 (not_lt.1 hl) hu
      split_ifs with hneg
      · have := hf.nonneg E (h0.trans_le hE)
        rw [abs_le] at h2 ⊢
        constructor <;> linarith [h2.1, h2.2]
      · exact h2

private lemma each_ok {β : Type} (mk : Comp → Except BuildErr β) (g : Comp → β) (cs : List Comp) (h : ∀ c ∈ cs, mk c = .ok (g c)) :
    eachComp mk cs = .ok (cs.map fun c => (c, g c)) := by
  induction cs with
  | nil => rfl
  | cons c cs ih =>
    unfold eachComp
    rw [h c (by simp), ih fun c' hc => h c' (List.mem_cons_of_mem _ hc)]
    rfl

private lemma each_error {β : Type} (mk : Comp → Except BuildErr β) (e : BuildErr) (cs : List Comp) (h : ∀ c ∈ cs, ∀ e', mk c = .error e' → e' = e)
    (c : Comp) (hc : c ∈ cs) (hm : mk c = .error e) : eachComp mk cs = .error e := by
  induction cs with
  | nil => simp at hc
  | cons d cs ih =>
    unfold eachComp
    rcases hd : mk d with e' | b
    · rw [h d (by simp) e' hd]; rfl
    · rcases List.mem_cons.1 hc with rfl | hc'
      · rw [hm] at hd; cases hd
      · rw [ih (fun c' h' => h c' (List.mem_cons_of_mem _ h')) hc']
        rfl

private lemma sum_close {β : Type} (cs : List β) (a b : β → ℝ) (ε : ℝ) (h : ∀ c ∈ cs, |a c - b c| ≤ ε * b c) :
    |(cs.map a).sum - (cs.map b).sum| ≤ ε * (cs.map b).sum := by
  induction cs with
  | nil => simp
  | cons c cs ih =>
    simp only [List.map_cons, List.sum_cons]
    have h1 := h c (by simp)
    have h2 := ih fun c' hc => h c' (List.mem_cons_of_mem _ hc)
    rw [abs_le] at *
    constructor <;> linarith [h1.1, h1.2, h2.1, h2.2]

private lemma weight_close (cs : List Comp) (c : Comp) (hw : 0 < weightComponent cs c) {a b ε : ℝ} (h : |a - b| ≤ ε * b) :
    |a / weightComponent cs c - b / weightComponent cs c| ≤ ε * (b / weightComponent cs c) := by
  rw [← sub_div, abs_div, abs_of_pos hw, ← mul_div_assoc]
  exact div_le_div_of_nonneg_right h hw.le

/-- C145: a cross section without tables is always built; with a cut, its rate and its loss are the means of the components. -/
theorem C145_integration (S : SplineMaker) (s : CrossTableSettings) (cs : List Comp) (low : ℝ) (rate loss var : Comp → ℝ → ℝ) (cut : Cut) :
    ∃ x, buildCross S s false cs low rate loss var (some cut) = .ok x ∧ ∀ E,
      (¬ onlyContinuous (some cut) → x.ndx E = (cs.map fun c => rate c E / weightComponent cs c).sum) ∧
      (onlyContinuous (some cut) → x.ndx E = 0) ∧
      x.edx E = (cs.map fun c => loss c E / weightComponent cs c).sum ∧
      x.e2dx E = if cut.contRand then (cs.map fun c => var c E / weightComponent cs c).sum else 0 := by
  have e1 := each_ok (fun c => makeDndx S s false low (rate c)) rate cs (fun _ _ => rfl)
  have e2 := each_ok (fun c => makeDedx S s false low (loss c)) (fun c => some (loss c)) cs (fun _ _ => rfl)
  have e3 := each_ok (fun c => makeDe2dx S s false low (var c)) var cs (fun _ _ => rfl)
  unfold buildCross
  rw [e1, e2, e3]
  by_cases ho : onlyContinuous (some cut) <;> by_cases hc : cut.contRand = true <;>
  · simp only [ho, hc, if_true, if_false, Option.isSome_some, Option.map_some, Option.getD_some, bind, Except.bind, pure,
      Except.pure, Bool.false_eq_true]
    refine ⟨_, rfl, fun E => ?_⟩
    simp [List.map_map, Function.comp_def]

private lemma each_inv {β : Type} [Inhabited β] (mk : Comp → Except BuildErr β) (cs : List Comp) (l : List (Comp × β)) (h : eachComp mk cs = .ok l) :
    ∃ g : Comp → β, l = cs.map (fun c => (c, g c)) ∧ ∀ c ∈ cs, mk c = .ok (g c) := by
  classical
  have hall : ∀ (cs : List Comp) (l : List (Comp × β)), eachComp mk cs = .ok l → ∀ c ∈ cs, ∃ b, mk c = .ok b := by
    intro cs
    induction cs with
    | nil => intro l _ c hc; simp at hc
    | cons d cs ih =>
      intro l h c hc
      unfold eachComp at h
      rcases hd : mk d with e | b
      · rw [hd] at h; cases h
      · rw [hd] at h
        rcases hrest : eachComp mk cs with e | l'
        · rw [hrest] at h; cases h
        · rcases List.mem_cons.1 hc with rfl | hc'
          · exact ⟨b, hd⟩
          · exact ih l' hrest c hc'
  let g : Comp → β := fun c => if h' : ∃ b, mk c = .ok b then h'.choose else default
  have hg : ∀ c ∈ cs, mk c = .ok (g c) := fun c hc => by
    simp only [g, dif_pos (hall cs l h c hc)]
    exact (hall cs l h c hc).choose_spec
  refine ⟨g, ?_, hg⟩
  have := each_ok mk g cs hg
  rw [h] at this
  exact Except.ok.inj this

private lemma variance_table (S : SplineMaker) (s : CrossTableSettings) (low : ℝ) (f : ℝ → ℝ) (hf : EnergyThreshold f) (h0 : 0 < low)
    (h1 : low < s.up) (hn : 2 ≤ s.nodesDe2dx) (hz : f low = 0) (ε : ℝ) (t : ℝ → ℝ) (hS : Close S f low s.up s.nodesDe2dx ε)
    (h : makeDe2dx S s true low f = .ok t) (E : ℝ) (hE : low ≤ E) (hu : E ≤ s.up) :
    |t E - f E| ≤ ε * f E ∨ (t E = 0 ∧ f (E * gap (1 / 2) low s.up s.nodesDe2dx) = 0) := by
  have ht := threshold hf h0 h1 hn
  have hz' : (fun i => f (expAxis low s.up s.nodesDe2dx i)) 0 = 0 := by
    simp only [axis_eq, zero_mul, Real.exp_zero, mul_one, hz]
  obtain ⟨a1, a2, a3⟩ := C71_variance_table_begin_partial _ ht s.nodesDe2dx hz'
  unfold makeDe2dx at h
  simp only [if_true] at h
  rcases hr : refineRangeDE2DX (fun i => f (expAxis low s.up s.nodesDe2dx i)) s.nodesDe2dx with _ | _ | i
  · rw [hr] at h; cases h
  · exact absurd hr a2
  · rw [hr] at h
    obtain rfl := Except.ok.inj h
    obtain ⟨b1, b2, b3, b4⟩ := a3 i hr
    unfold lossTable
    by_cases hl : E < expAxis low s.up s.nodesDe2dx i
    · right
      rw [if_pos hl]
      exact ⟨rfl, below hf h0 h1 hn b4 (h0.trans_le hE) hl⟩
    · left
      rw [if_neg hl]
      refine hS _ _ ?_ b1 (not_lt.1 hl) hu
      rw [axis_eq]
      have : 1 ≤ Real.exp (i * logStep low s.up s.nodesDe2dx) :=
        Real.one_le_exp (mul_nonneg b2.le (step_pos h0 h1 hn).le)
      nlinarith

/-- Energies that are not just above a threshold: the function vanishes, or it does not vanish `d` steps below. -/
def Spec.Clear (f : ℝ → ℝ) (d low up : ℝ) (n : ℕ) (E : ℝ) : Prop := f E = 0 ∨ f (E * gap d low up n) ≠ 0

/-- C145: wherever a cross section with tables can be built, it gives the rates, losses and squared losses of the one without tables up to
the error of the splines, at the energies of the tables that are not just above the threshold of a component: a tenth of a step for
rates and losses, half a step for squared losses. Missing are the cases in which it cannot be built, see below, and squared losses
that are positive at the lowest energy. -/
theorem C145_agreement_partial (S : SplineMaker) (s : CrossTableSettings) (cs : List Comp) (low : ℝ) (rate loss var : Comp → ℝ → ℝ)
    (cut : Cut) (hw : ∀ c ∈ cs, 0 < weightComponent cs c) (h0 : 0 < low) (h1 : low < s.up)
    (hn : 2 ≤ s.nodesDedx ∧ 2 ≤ s.nodesDndx ∧ 2 ≤ s.nodesDe2dx) (ε : ℝ)
    (hr : ∀ c ∈ cs, EnergyThreshold (rate c) ∧ Close S (rate c) low s.up s.nodesDndx ε)
    (hf : ∀ c ∈ cs, EnergyThreshold (loss c) ∧ Close S (loss c) low s.up s.nodesDedx ε)
    (hv : ∀ c ∈ cs, EnergyThreshold (var c) ∧ var c low = 0 ∧ Close S (var c) low s.up s.nodesDe2dx ε)
    (x : CrossFns) (hx : buildCross S s true cs low rate loss var (some cut) = .ok x) :
    ∃ y, buildCross S s false cs low rate loss var (some cut) = .ok y ∧ ∀ E, low ≤ E → E ≤ s.up →
      ((∀ c ∈ cs, Clear (rate c) (1 / 10) low s.up s.nodesDndx E) → |x.ndx E - y.ndx E| ≤ ε * y.ndx E) ∧
      ((∀ c ∈ cs, Clear (loss c) (1 / 10) low s.up s.nodesDedx E) → |x.edx E - y.edx E| ≤ ε * y.edx E) ∧
      ((∀ c ∈ cs, Clear (var c) (1 / 2) low s.up s.nodesDe2dx E) → |x.e2dx E - y.e2dx E| ≤ ε * y.e2dx E) := by
  classical
  have close : ∀ {f : ℝ → ℝ} {d E a : ℝ} {n : ℕ}, Clear f d low s.up n E →
      (|a - f E| ≤ ε * f E ∨ (a = 0 ∧ f (E * gap d low s.up n) = 0)) → |a - f E| ≤ ε * f E := by
    intro f d E a n hc h
    rcases h with h | ⟨h, h'⟩
    · exact h
    · rcases hc with h2 | h2
      · rw [h, h2]; simp
      · exact absurd h' h2
  obtain ⟨y, hy, hy'⟩ := C145_integration S s cs low rate loss var cut
  refine ⟨y, hy, ?_⟩
  unfold buildCross at hx
  simp only [Option.isSome_some, if_true, Option.map_some, Option.getD_some] at hx
  have hde : ∃ g : Comp → Option (ℝ → ℝ), eachComp (fun c => makeDedx S s true low (loss c)) cs = .ok (cs.map fun c => (c, g c)) ∧
      ∀ c ∈ cs, makeDedx S s true low (loss c) = .ok (g c) := by
    have hg : ∀ c ∈ cs, ∃ r, makeDedx S s true low (loss c) = .ok r := fun c hc =>
      (C145_loss_table S s low (loss c) (hf c hc).1 h0 h1 hn.1 ε (hf c hc).2).imp fun r h => h.1
    let g : Comp → Option (ℝ → ℝ) := fun c => if h : c ∈ cs then (hg c h).choose else none
    have hg' : ∀ c ∈ cs, makeDedx S s true low (loss c) = .ok (g c) := fun c h => by
      simp only [g, dif_pos h]; exact (hg c h).choose_spec
    exact ⟨g, each_ok _ _ _ hg', hg'⟩
  obtain ⟨g, hg1, hg2⟩ := hde
  rw [hg1] at hx
  have edx_close : ∀ E, low ≤ E → E ≤ s.up → (∀ c ∈ cs, Clear (loss c) (1 / 10) low s.up s.nodesDedx E) →
      |((cs.map fun c => (c, g c)).map fun e => (e.2.map fun t => t E / weightComponent cs e.1).getD 0).sum - y.edx E| ≤
        ε * y.edx E := by
    intro E hE hu hcl
    rw [(hy' E).2.2.1, List.map_map]
    refine sum_close cs _ _ ε fun c hc => ?_
    have hb : (((g c).map fun t => t E / weightComponent cs c).getD 0) = ((g c).map fun t => t E).getD 0 / weightComponent cs c := by
      generalize g c = o
      cases o <;> simp
    simp only [Function.comp_apply, hb]
    refine weight_close cs c (hw c hc) (close (hcl c hc) ?_)
    obtain ⟨r, e1, e2⟩ := C145_loss_table S s low (loss c) (hf c hc).1 h0 h1 hn.1 ε (hf c hc).2
    rw [hg2 c hc] at e1
    rw [Except.ok.inj e1]
    exact e2 E hE hu
  have ndx_close : ∀ q : Comp → ℝ → ℝ, (∀ c ∈ cs, makeDndx S s true low (rate c) = .ok (q c)) →
      ∀ E, low ≤ E → E ≤ s.up → (∀ c ∈ cs, Clear (rate c) (1 / 10) low s.up s.nodesDndx E) →
      |((cs.map fun c => (c, q c)).map fun e => e.2 E / weightComponent cs e.1).sum -
        (cs.map fun c => rate c E / weightComponent cs c).sum| ≤ ε * (cs.map fun c => rate c E / weightComponent cs c).sum := by
    intro q hq E hE hu hcl
    rw [List.map_map]
    refine sum_close cs _ _ ε fun c hc => ?_
    simp only [Function.comp_apply]
    exact weight_close cs c (hw c hc) (close (hcl c hc)
      ((C145_rate_table S s low (rate c) (hr c hc).1 h0 h1 hn.2.1).2.2 ε _ (hr c hc).2 (hq c hc) E hE hu))
  have var_close : ∀ q : Comp → ℝ → ℝ, (∀ c ∈ cs, makeDe2dx S s true low (var c) = .ok (q c)) →
      ∀ E, low ≤ E → E ≤ s.up → (∀ c ∈ cs, Clear (var c) (1 / 2) low s.up s.nodesDe2dx E) →
      |((cs.map fun c => (c, q c)).map fun e => e.2 E / weightComponent cs e.1).sum -
        (cs.map fun c => var c E / weightComponent cs c).sum| ≤ ε * (cs.map fun c => var c E / weightComponent cs c).sum := by
    intro q hq E hE hu hcl
    rw [List.map_map]
    refine sum_close cs _ _ ε fun c hc => ?_
    simp only [Function.comp_apply]
    exact weight_close cs c (hw c hc) (close (hcl c hc)
      (variance_table S s low (var c) (hv c hc).1 h0 h1 hn.2.2 (hv c hc).2.1 ε _ (hv c hc).2.2 (hq c hc) E hE hu))
  by_cases ho : onlyContinuous (some cut)
  · simp only [if_pos ho, bind, Except.bind, pure, Except.pure] at hx
    by_cases hc : cut.contRand = true
    · simp only [if_pos hc] at hx
      rcases hv2 : eachComp (fun c => makeDe2dx S s true low (var c)) cs with e | l
      · rw [hv2] at hx; cases hx
      · rw [hv2] at hx
        obtain ⟨q, rfl, hq⟩ := each_inv _ cs l hv2
        obtain rfl := Except.ok.inj hx
        intro E hE hu
        refine ⟨fun _ => ?_, edx_close E hE hu, fun hcl => ?_⟩
        · rw [(hy' E).2.1 ho]; simp
        · rw [(hy' E).2.2.2, if_pos hc]; exact var_close q hq E hE hu hcl
    · simp only [if_neg hc] at hx
      obtain rfl := Except.ok.inj hx
      intro E hE hu
      refine ⟨fun _ => ?_, edx_close E hE hu, fun _ => ?_⟩
      · rw [(hy' E).2.1 ho]; simp
      · rw [(hy' E).2.2.2, if_neg hc]; simp
  · simp only [if_neg ho, bind, Except.bind, pure, Except.pure] at hx
    rcases hr2 : eachComp (fun c => makeDndx S s true low (rate c)) cs with e | l
    · rw [hr2] at hx; cases hx
    · rw [hr2] at hx
      obtain ⟨p, rfl, hp⟩ := each_inv _ cs l hr2
      by_cases hc : cut.contRand = true
      · simp only [if_pos hc] at hx
        rcases hv2 : eachComp (fun c => makeDe2dx S s true low (var c)) cs with e | l
        · rw [hv2] at hx; cases hx
        · rw [hv2] at hx
          obtain ⟨q, rfl, hq⟩ := each_inv _ cs l hv2
          obtain rfl := Except.ok.inj hx
          intro E hE hu
          refine ⟨fun hcl => ?_, edx_close E hE hu, fun hcl => ?_⟩
          · rw [(hy' E).1 ho]; exact ndx_close p hp E hE hu hcl
          · rw [(hy' E).2.2.2, if_pos hc]; exact var_close q hq E hE hu hcl
      · simp only [if_neg hc] at hx
        obtain rfl := Except.ok.inj hx
        intro E hE hu
        refine ⟨fun hcl => ?_, edx_close E hE hu, fun _ => ?_⟩
        · rw [(hy' E).1 ho]; exact ndx_close p hp E hE hu hcl
        · rw [(hy' E).2.2.2, if_neg hc]; simp

/-- C145: for rates and losses with a threshold, a cross section with tables is built without fluctuations of the continuous losses exactly
if each component has stochastic losses at some energy of the tables, or none are asked for. -/
theorem C145_built (S : SplineMaker) (s : CrossTableSettings) (cs : List Comp) (low : ℝ) (rate loss var : Comp → ℝ → ℝ) (cut : Cut)
    (hr : cut.contRand = false) (h0 : 0 < low) (h1 : low < s.up) (hn : 2 ≤ s.nodesDedx ∧ 2 ≤ s.nodesDndx)
    (hrate : ∀ c ∈ cs, EnergyThreshold (rate c)) (hloss : ∀ c ∈ cs, EnergyThreshold (loss c)) :
    (∃ x, buildCross S s true cs low rate loss var (some cut) = .ok x) ↔
      onlyContinuous (some cut) ∨ ∀ c ∈ cs, ∃ E, low ≤ E ∧ E ≤ s.up ∧ 0 < rate c E := by
  classical
  have hg : ∀ c ∈ cs, ∃ r, makeDedx S s true low (loss c) = .ok r := by
    intro c hc
    obtain ⟨_, a2, _⟩ := C71_table_begin_partial _ (threshold (n := s.nodesDedx) (hloss c hc) h0 h1 hn.1) s.nodesDedx
    unfold makeDedx
    simp only [if_true]
    rcases hr : refineRange (fun i => loss c (expAxis low s.up s.nodesDedx i)) s.nodesDedx with _ | _ | i
    · exact ⟨_, rfl⟩
    · exact absurd hr a2
    · exact ⟨_, rfl⟩
  let g : Comp → Option (ℝ → ℝ) := fun c => if h : c ∈ cs then (hg c h).choose else none
  have e1 := each_ok (fun c => makeDedx S s true low (loss c)) g cs fun c h => by
    simp only [g, dif_pos h]; exact (hg c h).choose_spec
  have hex : ∀ c ∈ cs, (∃ t, makeDndx S s true low (rate c) = .ok t) ↔ ∃ E, low ≤ E ∧ E ≤ s.up ∧ 0 < rate c E := by
    intro c hc
    obtain ⟨k1, k2, _⟩ := C145_rate_table S s low (rate c) (hrate c hc) h0 h1 hn.2
    constructor
    · rintro ⟨t, ht⟩
      by_contra hno
      push Not at hno
      have := k1.2 fun E h2 h3 => le_antisymm (hno E h2 h3) ((hrate c hc).nonneg E (h0.trans_le h2))
      rw [ht] at this; cases this
    · rintro ⟨E, h2, h3, h4⟩
      rcases hm : makeDndx S s true low (rate c) with e | t
      · rcases e with _ | _
        · exact absurd (k1.1 hm E h2 h3) h4.ne'
        · exact absurd hm k2
      · exact ⟨t, rfl⟩
  unfold buildCross
  rw [e1]
  by_cases ho : onlyContinuous (some cut)
  · simp [ho, hr, bind, Except.bind, pure, Except.pure]
  · rw [or_iff_right ho]
    simp only [if_neg ho, hr, Option.isSome_some, if_true, Option.map_some, Option.getD_some, bind, Except.bind, pure,
      Except.pure, Bool.false_eq_true, if_false]
    constructor
    · rintro ⟨x, hx⟩ c hc
      rcases hr2 : eachComp (fun c => makeDndx S s true low (rate c)) cs with e | l
      · rw [hr2] at hx; cases hx
      · obtain ⟨p, _, hp⟩ := each_inv _ cs l hr2
        exact (hex c hc).1 ⟨_, hp c hc⟩
    · intro h
      let q : Comp → ℝ → ℝ := fun c => if h' : c ∈ cs then ((hex c h').2 (h c h')).choose else fun _ => 0
      have e2 := each_ok (fun c => makeDndx S s true low (rate c)) q cs fun c h' => by
        simp only [q, dif_pos h']; exact ((hex c h').2 (h c h')).choose_spec
      rw [e2]
      exact ⟨_, rfl⟩

/-- C145 fails for the rates: with a finite `ecut` above all energies of the tables and `vcut = 1` there is no stochastic loss at any of
these energies. Without tables the cross section is built and its rate is zero there; with tables the constructor throws. -/
theorem C145_no_stochastic_losses (S : SplineMaker) (s : CrossTableSettings) (cs : List Comp) (hcs : cs ≠ []) (low ecut : ℝ)
    (lim : Comp → ℝ → KinLim) (σ : Comp → ℝ → ℝ → ℝ) (loss var : Comp → ℝ → ℝ) (b : Bool) (h0 : 0 < low) (h1 : low < s.up)
    (hn : 2 ≤ s.nodesDndx) (he : s.up ≤ ecut) (hl : ∀ c E, (lim c E).vMin ≤ (lim c E).vMax ∧ (lim c E).vMax ≤ 1) :
    let cut : Cut := ⟨.fin ecut, .fin 1, b⟩
    let rate : Comp → ℝ → ℝ := fun c E => (dndxTotal (σ c E) (some cut) (lim c E) E).getD 0
    Cut.make (.fin ecut) (.fin 1) b = .ok cut ∧
    buildCross S s true cs low rate loss var (some cut) = .error .logicError ∧
    ∃ x, buildCross S s false cs low rate loss var (some cut) = .ok x ∧ ∀ E, 0 < E → E ≤ s.up → x.ndx E = 0 := by
  intro cut rate
  have hpos : 0 < ecut := h0.trans (h1.trans_le he)
  have hrate : ∀ c E, 0 < E → E ≤ s.up → rate c E = 0 := by
    intro c E hE hu
    have hcut : cut.cutIn (lim c E) E = .fin (lim c E).vMax := by
      have h2 : cut.cut E = .fin 1 := by
        simp only [cut, Cut.cut, Dbl.divPos, Dbl.min_fin]
        rw [min_eq_right]
        rw [le_div_iff₀ hE]; linarith
      unfold Cut.cutIn
      rw [h2, Dbl.max_fin, Dbl.min_fin, min_eq_right (le_max_of_le_right (hl c E).2)]
    simp only [rate, dndxTotal, dndxUpTo, integrationLimits, hcut, Dbl.max_fin, max_eq_left (hl c E).1, lt_irrefl, if_false,
      Option.getD_some]
  have hno : ¬ onlyContinuous (some cut) := fun h => h.1
  refine ⟨?_, ?_, ?_⟩
  · unfold Cut.make
    rw [if_neg (by simp only [Dbl.le, not_le]; exact hpos), if_neg]
    simp [Dbl.le, Dbl.lt]
  · have hc : ∀ c, makeDndx S s true low (rate c) = .error .logicError := by
      intro c
      unfold makeDndx
      simp only [if_true]
      have : refineRange (fun i => rate c (expAxis low s.up s.nodesDndx i)) s.nodesDndx = .outOfRange := by
        unfold refineRange
        have hfirst : ∀ k i : ℕ, i + k = s.nodesDndx →
            firstPositive.go (fun i => rate c (expAxis low s.up s.nodesDndx i)) k i = s.nodesDndx := by
          intro k
          induction k with
          | zero => intro i hi; simpa [firstPositive.go] using hi
          | succ k ih =>
            intro i hi
            simp only [firstPositive.go]
            rw [if_neg, ih (i + 1) (by omega)]
            rw [hrate c _ (axis_pos h0 _) ?_]
            · exact lt_irrefl _
            · exact axis_le_up h0 h1 hn (by omega)
        simp only
        rw [if_pos (by unfold firstPositive; exact hfirst _ _ (by omega))]
      rw [this]
    obtain ⟨c, cs', rfl⟩ := List.exists_cons_of_ne_nil hcs
    have := each_error (fun c => makeDndx S s true low (rate c)) .logicError (c :: cs') (fun d _ e' h => by
      rw [hc d] at h; exact (Except.error.inj h).symm) c (by simp) (hc c)
    unfold buildCross
    rw [if_neg hno, this]
    rfl
  · obtain ⟨x, hx, hx'⟩ := C145_integration S s cs low rate loss var cut
    refine ⟨x, hx, fun E hE hu => ?_⟩
    rw [(hx' E).1 hno]
    apply List.sum_eq_zero
    intro a ha
    obtain ⟨c, _, rfl⟩ := List.mem_map.1 ha
    rw [hrate c E hE hu, zero_div]

/-- C145 fails for the fluctuations of continuous losses: if the squared loss of a component is positive at all energies, as in Compton
scattering, the constructor of a cross section with tables throws, while without tables it is built. -/
theorem C145_positive_variance (S : SplineMaker) (s : CrossTableSettings) (cs : List Comp) (hcs : cs ≠ []) (low : ℝ)
    (rate loss var : Comp → ℝ → ℝ) (ecut vcut : Dbl) (h0 : 0 < low) (h1 : low < s.up) (hn : 2 ≤ s.nodesDedx) (hn2 : 2 ≤ s.nodesDndx)
    (hn3 : 0 < s.nodesDe2dx)
    (hr : ∀ c ∈ cs, EnergyThreshold (rate c) ∧ 0 < rate c s.up) (hf : ∀ c ∈ cs, EnergyThreshold (loss c))
    (hv : ∀ c ∈ cs, ∀ E, 0 < E → 0 < var c E) :
    buildCross S s true cs low rate loss var (some ⟨ecut, vcut, true⟩) = .error .mathError ∧
    ∃ x, buildCross S s false cs low rate loss var (some ⟨ecut, vcut, true⟩) = .ok x := by
  classical
  refine ⟨?_, (C145_integration S s cs low rate loss var ⟨ecut, vcut, true⟩).imp fun x h => h.1⟩
  have hvar : ∀ c ∈ cs, makeDe2dx S s true low (var c) = .error .mathError := by
    intro c hc
    have hg : ∀ x, 0 < max (var c (expAxis low s.up s.nodesDe2dx x)) 0 := fun x => lt_max_of_lt_left (hv c hc _ (axis_pos h0 _))
    have heq : (fun i => var c (expAxis low s.up s.nodesDe2dx i)) = fun i => max (var c (expAxis low s.up s.nodesDe2dx i)) 0 := by
      funext i; rw [max_eq_left (hv c hc _ (axis_pos h0 _)).le]
    have := (C71_positive_everywhere _ hg s.nodesDe2dx hn3).1
    unfold makeDe2dx
    simp only [if_true]
    rw [heq, this]
  have hloss : ∀ c ∈ cs, ∃ r, makeDedx S s true low (loss c) = .ok r := by
    intro c hc
    have ht := threshold (n := s.nodesDedx) (hf c hc) h0 h1 hn
    obtain ⟨_, a2, _⟩ := C71_table_begin_partial _ ht s.nodesDedx
    unfold makeDedx
    simp only [if_true]
    rcases hr : refineRange (fun i => loss c (expAxis low s.up s.nodesDedx i)) s.nodesDedx with _ | _ | i
    · exact ⟨_, rfl⟩
    · exact absurd hr a2
    · exact ⟨_, rfl⟩
  have hrate : ∀ c ∈ cs, ∃ r, makeDndx S s true low (rate c) = .ok r := by
    intro c hc
    obtain ⟨k1, k2, _⟩ := C145_rate_table S s low (rate c) (hr c hc).1 h0 h1 hn2
    rcases hm : makeDndx S s true low (rate c) with e | t
    · rcases e with _ | _
      · exact absurd (k1.1 hm s.up h1.le le_rfl) (hr c hc).2.ne'
      · exact absurd hm k2
    · exact ⟨t, rfl⟩
  let g : Comp → Option (ℝ → ℝ) := fun c => if h : c ∈ cs then (hloss c h).choose else none
  let q : Comp → ℝ → ℝ := fun c => if h : c ∈ cs then (hrate c h).choose else fun _ => 0
  have e1 := each_ok (fun c => makeDedx S s true low (loss c)) g cs fun c h => by
    simp only [g, dif_pos h]; exact (hloss c h).choose_spec
  have e2 := each_ok (fun c => makeDndx S s true low (rate c)) q cs fun c h => by
    simp only [q, dif_pos h]; exact (hrate c h).choose_spec
  obtain ⟨c, cs', hcc⟩ := List.exists_cons_of_ne_nil hcs
  have hmem : c ∈ cs := by rw [hcc]; simp
  have e3 := each_error (fun c => makeDe2dx S s true low (var c)) .mathError cs (fun d hd e' h => by
      rw [hvar d hd] at h; exact (Except.error.inj h).symm) c hmem (hvar c hmem)
  unfold buildCross
  rw [e1, e2, e3]
  by_cases ho : onlyContinuous (some ⟨ecut, vcut, true⟩) <;> simp [ho, bind, Except.bind]

/-- C145, the mean free path: if there are no stochastic losses at the energies of the table, asking for a table of the rates throws;
without the table the mean free path is infinite. -/
theorem C145_free_path (S : SplineMaker) (s : CrossTableSettings) (low : ℝ) (rate : ℝ → ℝ) (hf : EnergyThreshold rate) (h0 : 0 < low)
    (h1 : low < s.up) (hn : 2 ≤ s.nodesRate) :
    (makeRateTable S s low rate = .error .logicError ↔ ∀ E, low ≤ E → E ≤ s.up → meanFreePath none rate E = none) ∧
    ∀ t, makeRateTable S s low rate = .ok t → (∀ E, low ≤ E → 0 < rate t.2 ∧
      (E < t.2 → meanFreePath (some t) rate E = none ∧ rate (E * gap (1 / 10) low s.up s.nodesRate) = 0)) ∧
      ∀ ε E, ε < 1 → Close S rate low s.up s.nodesRate ε → t.2 ≤ E → E ≤ s.up →
        ∃ m m', meanFreePath (some t) rate E = some m ∧ meanFreePath none rate E = some m' ∧ |m' - m| ≤ ε * m := by
  have ht := threshold hf h0 h1 hn
  obtain ⟨a1, a2, a3⟩ := C71_table_begin_partial _ ht s.nodesRate
  have nodes : (∀ E, low ≤ E → E ≤ s.up → meanFreePath none rate E = none) ↔
      ∀ j : ℕ, j < s.nodesRate → rate (expAxis low s.up s.nodesRate j) = 0 := by
    have hz : ∀ E, meanFreePath none rate E = none ↔ rate E = 0 := by
      intro E; unfold meanFreePath; simp only; split_ifs with h <;> simp [h]
    simp only [hz]
    refine ⟨fun h j hj => h _ ?_ ?_, fun h E hE hu => all_zero hf h0 h1 hn h E (h0.trans_le hE) hu⟩
    · have := (axis_le h0 h1 hn (x := 0) (y := (j : ℝ))).2 (Nat.cast_nonneg _)
      rwa [axis_eq, zero_mul, Real.exp_zero, mul_one] at this
    · exact axis_le_up h0 h1 hn hj
  rw [nodes, ← a1]
  unfold makeRateTable
  rcases hr : refineRange (fun i => rate (expAxis low s.up s.nodesRate i)) s.nodesRate with _ | _ | i
  · simp
  · exact absurd hr a2
  · refine ⟨by simp, ?_⟩
    obtain ⟨b1, b2, b3, b4⟩ := a3 i hr
    intro t e
    obtain rfl := Except.ok.inj e
    have hb : low ≤ expAxis low s.up s.nodesRate i := by
      rw [axis_eq]
      have : 1 ≤ Real.exp (i * logStep low s.up s.nodesRate) :=
        Real.one_le_exp (mul_nonneg b2 (step_pos h0 h1 hn).le)
      nlinarith
    refine ⟨fun E hE => ⟨b1, fun hl => ⟨?_, ?_⟩⟩, ?_⟩
    · unfold meanFreePath
      simp only [if_pos hl]
    · rcases b4 with rfl | b4
      · simp only [axis_eq, zero_mul, Real.exp_zero, mul_one] at hl
        linarith
      · exact below hf h0 h1 hn b4 (h0.trans_le hE) hl
    · intro ε E hε hS hl hu
      have h2 := hS _ _ hb b1 hl hu
      have hp : 0 < rate E := hf.stays _ _ (axis_pos h0 _) hl b1
      rw [abs_le] at h2
      have hq : 0 < S rate (expAxis low s.up s.nodesRate i) s.up s.nodesRate E := by nlinarith [h2.1]
      refine ⟨1 / S rate (expAxis low s.up s.nodesRate i) s.up s.nodesRate E, 1 / rate E, ?_, ?_, ?_⟩
      · unfold meanFreePath
        simp only [if_neg (not_lt.2 hl), if_neg (not_lt.2 hq.le), if_neg hq.ne']
      · unfold meanFreePath
        simp only [if_neg hp.ne']
      · rw [div_sub_div _ _ hp.ne' hq.ne', abs_div, abs_of_pos (mul_pos hp hq), div_le_iff₀ (mul_pos hp hq)]
        have : ε * (1 / S rate (expAxis low s.up s.nodesRate i) s.up s.nodesRate E) *
            (rate E * S rate (expAxis low s.up s.nodesRate i) s.up s.nodesRate E) = ε * rate E := by
          field_simp
        rw [this, abs_le]
        constructor <;> linarith [h2.1, h2.2]

/-! Two nodes from 100 to `100 e`, splines without error and a function with the threshold 200. -/
section Examples

private noncomputable def exUp : ℝ := 100 * Real.exp 1
private noncomputable def exSet : CrossTableSettings := ⟨exUp, 2, 2, 2, 2⟩
private def exSpline : SplineMaker := fun f _ _ _ E => f E
private noncomputable def exF : ℝ → ℝ := fun E => max (E - 200) 0

private lemma ex_up : 271 < exUp := by have := Real.exp_one_gt_d9; unfold exUp; linarith

private lemma ex_gap : 9 / 10 ≤ gap (1 / 10) 100 exUp 2 := by
  have : logStep 100 exUp 2 = 1 := by
    unfold logStep exUp
    rw [mul_div_cancel_left₀ _ (by norm_num), Real.log_exp]; norm_num
  unfold gap
  rw [this]
  have := Real.add_one_le_exp (-(1 / 10) * 1 : ℝ)
  linarith

private lemma ex_threshold : EnergyThreshold exF :=
  ⟨fun _ _ => le_max_right _ _, fun E E' _ h h' => by
    have : 200 < E := by by_contra hc; rw [exF, max_eq_right (by linarith)] at h'; exact lt_irrefl _ h'
    exact lt_max_of_lt_left (by linarith)⟩

private lemma ex_close (f : ℝ → ℝ) : Close exSpline f 100 exUp 2 0 := by
  intro l E _ _ _ _
  simp [exSpline]

private noncomputable def exCut : Cut := ⟨.fin 500, .fin (1 / 20), false⟩

/-- The tables of losses and rates exist and are exact at 250. -/
example : ∃ r, makeDedx exSpline exSet true 100 exF = .ok r ∧ (r.map fun t => t 250).getD 0 = 50 := by
  obtain ⟨r, h1, h2⟩ := C145_loss_table exSpline exSet 100 exF ex_threshold (by norm_num) (by have := ex_up; show (100:ℝ) < exUp; linarith)
    le_rfl 0 (ex_close _)
  refine ⟨r, h1, ?_⟩
  rcases h2 250 (by norm_num) (by have := ex_up; show (250:ℝ) ≤ exUp; linarith) with h | ⟨_, h⟩
  · rw [zero_mul] at h
    have := abs_eq_zero.1 (le_antisymm h (abs_nonneg _))
    rw [sub_eq_zero.1 this, exF]; norm_num
  · have hg := ex_gap
    have : 0 < exF (250 * gap (1 / 10) 100 exUp 2) := lt_max_of_lt_left (by linarith)
    exact absurd h this.ne'

example (c : Comp) : ∃ x, buildCross exSpline exSet true [c] 100 (fun _ => exF) (fun _ => exF) (fun _ => exF) (some exCut) = .ok x := by
  have := ex_up
  refine (C145_built exSpline exSet [c] 100 (fun _ => exF) (fun _ => exF) (fun _ => exF) exCut rfl (by norm_num)
    (by show (100:ℝ) < exUp; linarith) ⟨le_rfl, le_rfl⟩ (fun _ _ => ex_threshold) (fun _ _ => ex_threshold)).2 (Or.inr ?_)
  exact fun _ _ => ⟨250, by norm_num, by show (250:ℝ) ≤ exUp; linarith, lt_max_of_lt_left (by norm_num)⟩

/-- The energy 250 is clear of the threshold. -/
example : Clear exF (1 / 10) 100 exUp 2 250 := by
  have hg := ex_gap
  right
  exact (lt_max_of_lt_left (by linarith) : 0 < exF _).ne'

/-- The table of rates exists. -/
example : makeRateTable exSpline exSet 100 exF ≠ .error .logicError := by
  have hu := ex_up
  intro h
  have := (C145_free_path exSpline exSet 100 exF ex_threshold (by norm_num) (by show (100:ℝ) < exUp; linarith) le_rfl).1.1 h 250
    (by norm_num) (by show (250:ℝ) ≤ exUp; linarith)
  unfold meanFreePath exF at this
  norm_num at this
  cases this

end Examples

end Proposal
