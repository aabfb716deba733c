import Verif.Model.Medium
import Mathlib.Algebra.BigOperators.Group.List.Basic
import Mathlib.Algebra.Order.BigOperators.Group.List
import Mathlib.Analysis.Complex.ExponentialBounds
import Mathlib.Tactic.Linarith
import Mathlib.Tactic.Positivity
import Mathlib.Tactic.FieldSimp

/-!
# Averages over the components of a medium (C93)
-/

namespace Proposal

/-- The arguments of a component: name, charge, atomic mass and number of atoms in the molecule. -/
structure Spec.Atom where
  name : List Byte
  z : ℝ
  a : ℝ
  n : ℝ

/-- The components for a list of arguments. -/
noncomputable def Spec.atoms (H : Hasher) (l : List Spec.Atom) : List Component := l.map fun q => mkComp H q.name q.z q.a q.n

/-- A component as nature makes them: positive mass and number, charge between 0 and the mass number. -/
structure Spec.PhysicalAtom (q : Spec.Atom) : Prop where
  a : 0 < q.a
  n : 0 < q.n
  z0 : 0 ≤ q.z
  za : q.z ≤ q.a

lemma foldl_sum {α : Type} (f : α → ℝ) (l : List α) (x : ℝ) :
    l.foldl (fun acc c => acc + f c) x = x + (l.map f).sum := by
  induction l generalizing x with
  | nil => simp
  | cons c l ih => rw [List.foldl_cons, ih, List.map_cons, List.sum_cons, add_assoc]

lemma sumOver_eq (cs : List Component) (f : Component → ℝ) : sumOver cs f = (cs.map f).sum := by
  unfold sumOver
  rw [foldl_sum, zero_add]

lemma sumOver_atoms (H : Hasher) (l : List Spec.Atom) (f : Component → ℝ) :
    sumOver (Spec.atoms H l) f = (l.map fun q => f (mkComp H q.name q.z q.a q.n)).sum := by
  rw [sumOver_eq, Spec.atoms, List.map_map]
  rfl

lemma sum_pos_of {α : Type} (l : List α) (f : α → ℝ) (hne : l ≠ []) (h : ∀ c ∈ l, 0 < f c) : 0 < (l.map f).sum := by
  induction l with
  | nil => exact absurd rfl hne
  | cons c l ih =>
    rw [List.map_cons, List.sum_cons]
    have hc := h c (by simp)
    by_cases hl : l = []
    · subst hl; simpa using hc
    · have := ih hl fun d hd => h d (by simp [hd])
      linarith

lemma sum_le_of {α : Type} (l : List α) (f g : α → ℝ) (h : ∀ c ∈ l, f c ≤ g c) : (l.map f).sum ≤ (l.map g).sum := by
  induction l with
  | nil => simp
  | cons c l ih =>
    rw [List.map_cons, List.sum_cons, List.map_cons, List.sum_cons]
    have hc := h c (by simp)
    have := ih fun d hd => h d (by simp [hd])
    linarith

lemma sum_mul_of {α : Type} (l : List α) (f : α → ℝ) (k : ℝ) : (l.map fun c => k * f c).sum = k * (l.map f).sum := by
  induction l with
  | nil => simp
  | cons c l ih => rw [List.map_cons, List.sum_cons, List.map_cons, List.sum_cons, ih, mul_add]

/-- The charges, nucleons, nucleon weights and inverse radiation lengths of a molecule. -/
lemma mkMed_atoms (H : Hasher) (x : MedArgs) (l : List Spec.Atom) :
    (mkMed x (Spec.atoms H l)).sumCharge = (l.map fun q => q.n * q.z).sum ∧
    (mkMed x (Spec.atoms H l)).sumNucleons = (l.map fun q => q.n * q.a).sum ∧
    (mkMed x (Spec.atoms H l)).ZA = (l.map fun q => q.n * q.z).sum / (l.map fun q => q.n * q.a).sum ∧
    (mkMed x (Spec.atoms H l)).molDensity = x.massDensity * NAvogadro / (l.map fun q => q.n * q.a).sum ∧
    (mkMed x (Spec.atoms H l)).MM =
      (l.map fun q => q.n * q.a * ((q.z * MP + (q.a - q.z) * MN) / q.a)).sum / (l.map fun q => q.n * q.a).sum ∧
    (mkMed x (Spec.atoms H l)).radiationLength =
      (l.map fun q => q.n * q.a).sum / (l.map fun q => X0inv ⌊q.z⌋₊ q.a * (q.n * q.a)).sum := by
  simp only [mkMed, sumOver_atoms]
  refine ⟨?_, ?_, ?_, ?_, ?_, ?_⟩ <;> rfl

/-- C93: the molecules in a unit of volume have the mass of this volume. -/
theorem C93_density (H : Hasher) (x : MedArgs) (l : List Spec.Atom) (hne : l ≠ []) (h : ∀ q ∈ l, Spec.PhysicalAtom q) :
    (mkMed x (Spec.atoms H l)).molDensity * (l.map fun q => q.n * q.a).sum = x.massDensity * NAvogadro ∧
    (mkMed x (Spec.atoms H l)).sumNucleons = (l.map fun q => q.n * q.a).sum ∧
    (mkMed x (Spec.atoms H l)).sumCharge = (l.map fun q => q.n * q.z).sum ∧
    (mkMed x (Spec.atoms H l)).massDensity = x.massDensity := by
  obtain ⟨h1, h2, -, h4, -⟩ := mkMed_atoms H x l
  have hpos : 0 < (l.map fun q => q.n * q.a).sum := sum_pos_of l _ hne fun q hq => mul_pos (h q hq).n (h q hq).a
  refine ⟨?_, h2, h1, rfl⟩
  rw [h4, div_mul_cancel₀ _ hpos.ne']

/-- The averages of a medium that the cross sections use. -/
def Spec.SameAverages (m m' : Med) : Prop :=
  m.ZA = m'.ZA ∧ m.MM = m'.MM ∧ m.radiationLength = m'.radiationLength ∧ m.massDensity = m'.massDensity

/-- C93: the order of the components does not matter. -/
theorem C93_order (H : Hasher) (x : MedArgs) (l l' : List Spec.Atom) (h : l.Perm l') :
    Spec.SameAverages (mkMed x (Spec.atoms H l)) (mkMed x (Spec.atoms H l')) ∧
    (mkMed x (Spec.atoms H l)).molDensity = (mkMed x (Spec.atoms H l')).molDensity := by
  obtain ⟨-, -, h3, h4, h5, h6⟩ := mkMed_atoms H x l
  obtain ⟨-, -, g3, g4, g5, g6⟩ := mkMed_atoms H x l'
  have hs : ∀ f : Spec.Atom → ℝ, (l.map f).sum = (l'.map f).sum := fun f => (h.map f).sum_eq
  refine ⟨⟨?_, ?_, ?_, rfl⟩, ?_⟩
  · rw [h3, g3, hs, hs]
  · rw [h5, g5, hs, hs]
  · rw [h6, g6, hs, hs]
  · rw [h4, g4, hs]

/-- The same mixture described by molecules that are `k` times as large. -/
def Spec.scaled (k : ℝ) (l : List Spec.Atom) : List Spec.Atom := l.map fun q => { q with n := k * q.n }

/-- C93: only the ratios of the numbers of atoms matter; larger molecules are fewer. -/
theorem C93_scaling (H : Hasher) (x : MedArgs) (l : List Spec.Atom) (k : ℝ) (hk : 0 < k) :
    Spec.SameAverages (mkMed x (Spec.atoms H (Spec.scaled k l))) (mkMed x (Spec.atoms H l)) ∧
    (mkMed x (Spec.atoms H (Spec.scaled k l))).molDensity * k = (mkMed x (Spec.atoms H l)).molDensity := by
  obtain ⟨-, -, h3, h4, h5, h6⟩ := mkMed_atoms H x l
  obtain ⟨-, -, g3, g4, g5, g6⟩ := mkMed_atoms H x (Spec.scaled k l)
  have e1 : ((Spec.scaled k l).map fun q => q.n * q.z).sum = k * (l.map fun q => q.n * q.z).sum := by
    rw [← sum_mul_of, Spec.scaled, List.map_map]
    exact congrArg List.sum (List.map_congr_left fun q _ => by simp only [Function.comp]; ring)
  have e2 : ((Spec.scaled k l).map fun q => q.n * q.a).sum = k * (l.map fun q => q.n * q.a).sum := by
    rw [← sum_mul_of, Spec.scaled, List.map_map]
    exact congrArg List.sum (List.map_congr_left fun q _ => by simp only [Function.comp]; ring)
  have e3 : ((Spec.scaled k l).map fun q => q.n * q.a * ((q.z * MP + (q.a - q.z) * MN) / q.a)).sum =
      k * (l.map fun q => q.n * q.a * ((q.z * MP + (q.a - q.z) * MN) / q.a)).sum := by
    rw [← sum_mul_of, Spec.scaled, List.map_map]
    exact congrArg List.sum (List.map_congr_left fun q _ => by simp only [Function.comp]; ring)
  have e4 : ((Spec.scaled k l).map fun q => X0inv ⌊q.z⌋₊ q.a * (q.n * q.a)).sum =
      k * (l.map fun q => X0inv ⌊q.z⌋₊ q.a * (q.n * q.a)).sum := by
    rw [← sum_mul_of, Spec.scaled, List.map_map]
    exact congrArg List.sum (List.map_congr_left fun q _ => by simp only [Function.comp]; ring)
  refine ⟨⟨?_, ?_, ?_, rfl⟩, ?_⟩
  · rw [h3, g3, e1, e2, mul_div_mul_left _ _ hk.ne']
  · rw [h5, g5, e3, e2, mul_div_mul_left _ _ hk.ne']
  · rw [h6, g6, e2, e4, mul_div_mul_left _ _ hk.ne']
  · rw [h4, g4, e2, mul_comm k, ← div_div, div_mul_cancel₀ _ hk.ne']

/-- C93: the average number of charges per nucleon lies between 0 and 1 and the average weight of the nucleons between
those of a proton and of a neutron. -/
theorem C93_averages (H : Hasher) (x : MedArgs) (l : List Spec.Atom) (hne : l ≠ []) (h : ∀ q ∈ l, Spec.PhysicalAtom q) :
    0 ≤ (mkMed x (Spec.atoms H l)).ZA ∧ (mkMed x (Spec.atoms H l)).ZA ≤ 1 ∧
    MP ≤ (mkMed x (Spec.atoms H l)).MM ∧ (mkMed x (Spec.atoms H l)).MM ≤ MN := by
  obtain ⟨-, -, h3, -, h5, -⟩ := mkMed_atoms H x l
  have hpos : 0 < (l.map fun q => q.n * q.a).sum := sum_pos_of l _ hne fun q hq => mul_pos (h q hq).n (h q hq).a
  have hM : MP ≤ MN := by unfold MP MN; norm_num
  have hw : ∀ q ∈ l, MP * (q.n * q.a) ≤ q.n * q.a * ((q.z * MP + (q.a - q.z) * MN) / q.a) ∧
      q.n * q.a * ((q.z * MP + (q.a - q.z) * MN) / q.a) ≤ MN * (q.n * q.a) := by
    intro q hq
    have hq := h q hq
    have he : q.n * q.a * ((q.z * MP + (q.a - q.z) * MN) / q.a) = q.n * (q.z * MP + (q.a - q.z) * MN) := by
      rw [mul_assoc, mul_div_cancel₀ _ hq.a.ne']
    rw [he]
    have h1 : 0 ≤ (q.a - q.z) * (MN - MP) := mul_nonneg (by linarith [hq.za]) (by linarith)
    have h2 : 0 ≤ q.z * (MN - MP) := mul_nonneg hq.z0 (by linarith)
    constructor
    · have := mul_nonneg hq.n.le h1; linarith
    · have := mul_nonneg hq.n.le h2; linarith
  rw [h3, h5]
  refine ⟨?_, ?_, ?_, ?_⟩
  · refine div_nonneg ?_ hpos.le
    have := sum_le_of l (fun _ => 0) (fun q => q.n * q.z) fun q hq => mul_nonneg (h q hq).n.le (h q hq).z0
    have h0 : (l.map fun _ : Spec.Atom => (0 : ℝ)).sum = 0 := by simp
    linarith
  · rw [div_le_one hpos]
    exact sum_le_of l _ _ fun q hq => mul_le_mul_of_nonneg_left (h q hq).za (h q hq).n.le
  · rw [le_div_iff₀ hpos, ← sum_mul_of]
    exact sum_le_of l _ _ fun q hq => (hw q hq).1
  · rw [div_le_iff₀ hpos, ← sum_mul_of]
    exact sum_le_of l _ _ fun q hq => (hw q hq).2

lemma log_gt_one {x : ℝ} (h : 3 ≤ x) : 1 < Real.log x := by
  rw [Real.lt_log_iff_exp_lt (by linarith)]
  have := Real.exp_one_lt_d9
  linarith

lemma X0inv_pos (Z : ℕ) (M : ℝ) (h1 : 1 ≤ Z) (h2 : Z ≤ 92) (hM : 0 < M) : 0 < X0inv Z M := by
  have hZ : (1 : ℝ) ≤ Z := by exact_mod_cast h1
  have hZ2 : (Z : ℝ) ≤ 92 := by exact_mod_cast h2
  unfold X0inv
  simp only
  generalize hasq : ALPHA * ALPHA * (Z : ℝ) * Z = asq
  have ha0 : 0 < asq := by rw [← hasq]; unfold ALPHA; positivity
  have ha1 : asq < 0.46 := by
    rw [← hasq]; unfold ALPHA
    nlinarith
  have hf : asq * (1 / (1 + asq) + 0.20206 - 0.0369 * asq + 0.0083 * asq * asq - 0.002 * asq * asq * asq) < 1 := by
    have hd : 1 / (1 + asq) ≤ 1 := by rw [div_le_one (by linarith)]; linarith
    have h3 : 0 ≤ asq * asq := by positivity
    have h4 : 0 ≤ asq * asq * asq := by positivity
    have h5 : asq * asq ≤ 1 := by nlinarith
    have hb : 1 / (1 + asq) + 0.20206 - 0.0369 * asq + 0.0083 * asq * asq - 0.002 * asq * asq * asq ≤ 1.3 := by
      nlinarith
    calc _ ≤ asq * 1.3 := mul_le_mul_of_nonneg_left hb ha0.le
      _ < 1 := by linarith
  generalize asq * (1 / (1 + asq) + 0.20206 - 0.0369 * asq + 0.0083 * asq * asq - 0.002 * asq * asq * asq) = fZ at hf ⊢
  have hpre : 0 < 4 * ALPHA * RE * RE * NAvogadro / M := by
    unfold ALPHA RE NAvogadro; positivity
  refine mul_pos hpre ?_
  have key : ∀ L : ℝ × ℝ, 1 < L.1 → 0 < L.2 → 0 < (Z : ℝ) * Z * (L.1 - fZ) + Z * L.2 := by
    intro L hL1 hL2
    have h3 : 0 < (Z : ℝ) * Z * (L.1 - fZ) := mul_pos (by positivity) (by linarith)
    have h4 : 0 < (Z : ℝ) * L.2 := mul_pos (by linarith) hL2
    linarith
  apply key
  · split_ifs
    · refine log_gt_one ?_
      have h5 : (5 : ℝ)⁻¹ ≤ (Z : ℝ) ^ (-1 / 3 : ℝ) := by
        have e : ((5 : ℝ) ^ (3 : ℝ)) ^ (-1 / 3 : ℝ) = 5⁻¹ := by
          rw [← Real.rpow_mul (by norm_num)]; norm_num [Real.rpow_neg_one]
        rw [← e]
        refine Real.rpow_le_rpow_of_nonpos (by linarith) ?_ (by norm_num)
        norm_num; linarith
      linarith
    all_goals norm_num
    omega
  · split_ifs
    · refine lt_trans one_pos (log_gt_one ?_)
      have h5 : (25 : ℝ)⁻¹ ≤ (Z : ℝ) ^ (-2 / 3 : ℝ) := by
        have e : ((5 : ℝ) ^ (3 : ℝ)) ^ (-2 / 3 : ℝ) = 25⁻¹ := by
          rw [← Real.rpow_mul (by norm_num)]
          norm_num
        rw [← e]
        refine Real.rpow_le_rpow_of_nonpos (by linarith) ?_ (by norm_num)
        norm_num; linarith
      linarith
    all_goals norm_num
    omega

/-- C93: the radiation length of a medium made of the elements up to uranium is positive, and lies between those of
its components. -/
theorem C93_radiation_length (H : Hasher) (x : MedArgs) (l : List Spec.Atom) (hne : l ≠ [])
    (h : ∀ q ∈ l, Spec.PhysicalAtom q) (hz : ∀ q ∈ l, 1 ≤ q.z ∧ q.z < 93) :
    0 < (mkMed x (Spec.atoms H l)).radiationLength ∧
    ∀ lo hi : ℝ, 0 < lo → (∀ q ∈ l, lo ≤ (mkMed x (Spec.atoms H [q])).radiationLength ∧
        (mkMed x (Spec.atoms H [q])).radiationLength ≤ hi) →
      lo ≤ (mkMed x (Spec.atoms H l)).radiationLength ∧ (mkMed x (Spec.atoms H l)).radiationLength ≤ hi := by
  obtain ⟨-, -, -, -, -, h6⟩ := mkMed_atoms H x l
  have hpos : 0 < (l.map fun q => q.n * q.a).sum := sum_pos_of l _ hne fun q hq => mul_pos (h q hq).n (h q hq).a
  have hX : ∀ q ∈ l, 0 < X0inv ⌊q.z⌋₊ q.a := by
    intro q hq
    obtain ⟨hz1, hz2⟩ := hz q hq
    refine X0inv_pos _ _ (Nat.le_floor (by exact_mod_cast hz1)) ?_ (h q hq).a
    have : ⌊q.z⌋₊ < 93 := (Nat.floor_lt (by linarith)).mpr (by exact_mod_cast hz2)
    omega
  have hinv : 0 < (l.map fun q => X0inv ⌊q.z⌋₊ q.a * (q.n * q.a)).sum :=
    sum_pos_of l _ hne fun q hq => mul_pos (hX q hq) (mul_pos (h q hq).n (h q hq).a)
  have hsingle : ∀ q ∈ l, (mkMed x (Spec.atoms H [q])).radiationLength = 1 / X0inv ⌊q.z⌋₊ q.a := by
    intro q hq
    obtain ⟨-, -, -, -, -, g6⟩ := mkMed_atoms H x [q]
    rw [g6]
    simp only [List.map_cons, List.map_nil, List.sum_cons, List.sum_nil, add_zero]
    have h1 := hX q hq
    have h2 : 0 < q.n * q.a := mul_pos (h q hq).n (h q hq).a
    rw [div_eq_div_iff (mul_pos h1 h2).ne' h1.ne']
    ring
  rw [h6]
  refine ⟨div_pos hpos hinv, fun lo hi hlo hb => ⟨?_, ?_⟩⟩
  · rw [le_div_iff₀ hinv, ← sum_mul_of]
    refine sum_le_of l _ _ fun q hq => ?_
    have hb := (hb q hq).1
    rw [hsingle q hq, le_div_iff₀ (hX q hq)] at hb
    have h2 : 0 < q.n * q.a := mul_pos (h q hq).n (h q hq).a
    have := mul_le_mul_of_nonneg_right hb h2.le
    linarith
  · rw [div_le_iff₀ hinv, ← sum_mul_of]
    refine sum_le_of l _ _ fun q hq => ?_
    have hb := (hb q hq).2
    rw [hsingle q hq, div_le_iff₀ (hX q hq)] at hb
    have h2 : 0 < q.n * q.a := mul_pos (h q hq).n (h q hq).a
    have := mul_le_mul_of_nonneg_right hb h2.le
    linarith

/-- Water meets the hypotheses of the theorems. -/
example : ∃ l : List Spec.Atom, l ≠ [] ∧ (∀ q ∈ l, Spec.PhysicalAtom q) ∧ (∀ q ∈ l, 1 ≤ q.z ∧ q.z < 93) ∧ l.length = 2 := by
  refine ⟨[⟨bytes "H", 1, 1.00794, 2⟩, ⟨bytes "O", 8, 15.9994, 1⟩], by simp, ?_, ?_, rfl⟩
  · intro q hq
    simp only [List.mem_cons, List.not_mem_nil, or_false] at hq
    rcases hq with rfl | rfl <;> constructor <;> norm_num
  · intro q hq
    simp only [List.mem_cons, List.not_mem_nil, or_false] at hq
    rcases hq with rfl | rfl <;> norm_num

/-- C93, violated: the charge of a component is cut to an integer for the radiation length, so the component
`FrejusRock` of charge 10.12 has the radiation length of charge 10. -/
theorem C93_fractional_charge (H : Hasher) (x : MedArgs) (n : List Byte) :
    (mkMed x (Spec.atoms H [⟨n, 10.12, 20.34, 1⟩])).radiationLength =
      (mkMed x (Spec.atoms H [⟨n, 10, 20.34, 1⟩])).radiationLength := by
  obtain ⟨-, -, -, -, -, g6⟩ := mkMed_atoms H x [⟨n, 10.12, 20.34, 1⟩]
  obtain ⟨-, -, -, -, -, h6⟩ := mkMed_atoms H x [⟨n, 10, 20.34, 1⟩]
  rw [g6, h6]
  simp only [List.map_cons, List.map_nil]
  have h1 : ⌊(10.12 : ℝ)⌋₊ = 10 := by rw [Nat.floor_eq_iff (by norm_num)]; norm_num
  have h2 : ⌊(10 : ℝ)⌋₊ = 10 := by rw [Nat.floor_eq_iff (by norm_num)]; norm_num
  rw [h1, h2]

end Proposal
