import Verif.Model.EnergyCut
import Mathlib.Tactic.Linarith
import Mathlib.Tactic.NormNum
import Mathlib.Tactic.Positivity
import Mathlib.Algebra.Order.Field.Basic

/-!
# Energy cuts (C27, C28)
-/

namespace Proposal

/-- The cut settings a user may ask for: a positive, possibly infinite absolute cut and a relative cut
in (0, 1]. -/
def Spec.ValidCut (c : Cut) : Prop :=
  (c.ecut = .pinf ∨ ∃ e, 0 < e ∧ c.ecut = .fin e) ∧ ∃ v, 0 < v ∧ v ≤ 1 ∧ c.vcut = .fin v

open Spec

/-- C27: for numbers other than NaN, construction succeeds exactly for `ecut > 0` and `0 < vcut ≤ 1`.
Missing are NaN cuts, which the code accepts, see `C27_nan_accepted`. -/
theorem C27_construction_partial (ecut vcut : Dbl) (he : ecut ≠ .nan) (hv : vcut ≠ .nan) (b : Bool) :
    (ValidCut ⟨ecut, vcut, b⟩ → Cut.make ecut vcut b = .ok ⟨ecut, vcut, b⟩) ∧
    (¬ ValidCut ⟨ecut, vcut, b⟩ → Cut.make ecut vcut b = .error .invalidArgument) := by
  constructor
  · rintro ⟨h1, v, v0, v1, hv'⟩
    simp only at h1 hv'
    subst hv'
    unfold Cut.make
    have n1 : ¬ Dbl.le ecut (.fin 0) := by
      rcases h1 with rfl | ⟨e, e0, rfl⟩ <;> simp [Dbl.le]
      exact e0
    have n2 : ¬ (Dbl.le (.fin v) (.fin 0) ∨ Dbl.lt (.fin 1) (.fin v)) := by
      simp [Dbl.le, Dbl.lt]; exact ⟨v0, v1⟩
    rw [if_neg n1, if_neg n2]
  · intro h
    unfold Cut.make
    split_ifs with h1 h2
    · rfl
    · rfl
    · exfalso
      apply h
      push Not at h2
      refine ⟨?_, ?_⟩
      · cases ecut with
        | nan => exact absurd rfl he
        | pinf => exact Or.inl rfl
        | ninf => simp [Dbl.le] at h1
        | fin e => exact Or.inr ⟨e, by simpa [Dbl.le] using h1, rfl⟩
      · cases vcut with
        | nan => exact absurd rfl hv
        | pinf => simp [Dbl.le, Dbl.lt] at h2
        | ninf => simp [Dbl.le] at h2
        | fin v => exact ⟨v, by simpa [Dbl.le] using h2.1, by simpa [Dbl.lt] using h2.2, rfl⟩

example : ValidCut ⟨.pinf, .fin (1 / 20), true⟩ ∧ ¬ ValidCut ⟨.fin 500, .fin 2, true⟩ := by
  refine ⟨⟨Or.inl rfl, 1 / 20, by norm_num, by norm_num, rfl⟩, ?_⟩
  rintro ⟨_, v, _, h, h'⟩
  obtain rfl : (2 : ℝ) = v := by simpa using h'
  norm_num at h

/-- C27 fails for NaN: such cuts are accepted, and no comparison with the resulting cut is true. -/
theorem C27_nan_accepted (E : ℝ) : ∃ c, Cut.make .nan (.fin 1) false = .ok c ∧ c.cut E = .nan := by
  refine ⟨⟨.nan, .fin 1, false⟩, ?_, ?_⟩
  · unfold Cut.make
    simp [Dbl.le, Dbl.lt]
  · simp [Cut.cut, Dbl.min, Dbl.divPos, Dbl.lt]

/-- The JSON object states a cut: a number or the word "inf" or "infinity" in any case for the
absolute cut, a number for the relative cut and a truth value for the randomisation. -/
def Spec.States (config : JObj) (c : Cut) : Prop :=
  (∃ e, config "e_cut" = some e ∧
    ((∃ x, e = .num x ∧ c.ecut = .fin x) ∨
     (∃ s, e = .str s ∧ (s.toList.map Char.toLower = "inf".toList ∨ s.toList.map Char.toLower = "infinity".toList) ∧ c.ecut = .pinf))) ∧
  (∃ v, config "v_cut" = some (.num v) ∧ c.vcut = .fin v) ∧
  config "cont_rand" = some (.bool c.contRand)

/-- C27: a configuration is accepted exactly if it states a valid cut, and then the settings are the
stated ones. -/
theorem C27_json (config : JObj) (c : Cut) :
    Cut.ofJson config = .ok c ↔ States config c ∧ ValidCut c := by
  have core : ∀ (e v : Dbl) (b : Bool), e ≠ .nan → v ≠ .nan →
      (Cut.make e v b = .ok c ↔ c = ⟨e, v, b⟩ ∧ ValidCut c) := by
    intro e v b he hv
    obtain ⟨h1, h2⟩ := C27_construction_partial e v he hv b
    constructor
    · intro h
      by_cases hc : ValidCut ⟨e, v, b⟩
      · rw [h1 hc] at h
        obtain rfl := Except.ok.inj h
        exact ⟨rfl, hc⟩
      · rw [h2 hc] at h; cases h
    · rintro ⟨rfl, h⟩
      exact h1 h
  unfold Cut.ofJson
  constructor
  · intro h
    split at h
    · cases h
    · cases h
    · cases h
    · rename_i e v b he hv hb
      cases hb' : b with
      | bool b' =>
        subst hb'
        cases hv' : v with
        | num v' =>
          subst hv'
          cases he' : e with
          | num e' =>
            subst he'
            simp only [JVal.toEcut, JVal.toNum, JVal.toBool, Except.map] at h
            obtain ⟨rfl, hc⟩ := (core _ _ _ (by simp) (by simp)).1 h
            exact ⟨⟨⟨_, he, Or.inl ⟨e', rfl, rfl⟩⟩, ⟨v', hv, rfl⟩, hb⟩, hc⟩
          | str s =>
            subst he'
            simp only [JVal.toEcut, JVal.toNum, JVal.toBool] at h
            split_ifs at h with hs
            · simp only at h
              obtain ⟨rfl, hc⟩ := (core _ _ _ (by simp) (by simp)).1 h
              exact ⟨⟨⟨_, he, Or.inr ⟨s, rfl, hs, rfl⟩⟩, ⟨v', hv, rfl⟩, hb⟩, hc⟩
          | bool _ => subst he'; simp [JVal.toEcut, JVal.toNum, Except.map] at h
          | other => subst he'; simp [JVal.toEcut, JVal.toNum, Except.map] at h
        | str s => subst hv'; cases he' : e.toEcut <;> simp [he', JVal.toNum] at h
        | bool _ => subst hv'; cases he' : e.toEcut <;> simp [he', JVal.toNum] at h
        | other => subst hv'; cases he' : e.toEcut <;> simp [he', JVal.toNum] at h
      | num x => subst hb'; cases he' : e.toEcut <;> cases hv' : v.toNum <;> simp [he', hv', JVal.toBool] at h
      | str s => subst hb'; cases he' : e.toEcut <;> cases hv' : v.toNum <;> simp [he', hv', JVal.toBool] at h
      | other => subst hb'; cases he' : e.toEcut <;> cases hv' : v.toNum <;> simp [he', hv', JVal.toBool] at h
  · rintro ⟨⟨⟨e, he, h1⟩, ⟨v, hv, h2⟩, hb⟩, hc⟩
    rw [he, hv, hb]
    rcases h1 with ⟨x, rfl, h1⟩ | ⟨s, rfl, hs, h1⟩
    · simp only [JVal.toEcut, JVal.toNum, JVal.toBool, Except.map]
      refine (core _ _ _ (by simp) (by simp)).2 ⟨?_, hc⟩
      rw [← h1, ← h2]
    · simp only [JVal.toEcut, JVal.toNum, JVal.toBool, if_pos hs]
      refine (core _ _ _ (by simp) (by simp)).2 ⟨?_, hc⟩
      rw [← h1, ← h2]

example : Cut.ofJson (fun k => if k = "e_cut" then some (.str "Infinity") else
      if k = "v_cut" then some (.num (1 / 20)) else if k = "cont_rand" then some (.bool true) else none) =
    .ok ⟨.pinf, .fin (1 / 20), true⟩ := by
  rw [C27_json]
  refine ⟨⟨⟨_, rfl, Or.inr ⟨_, rfl, Or.inr ?_, rfl⟩⟩, ⟨1 / 20, ?_, rfl⟩, ?_⟩,
    ⟨Or.inl rfl, 1 / 20, by norm_num, by norm_num, rfl⟩⟩
  · decide
  · simp
  · simp

/-- C27: the cut at an energy is a positive number, at most the relative cut, an energy of at most the
absolute cut, and one of the two is attained. -/
theorem C27_cut_value (c : Cut) (hc : ValidCut c) (E : ℝ) (hE : 0 < E) :
    ∃ x v, c.cut E = .fin x ∧ c.vcut = .fin v ∧ 0 < x ∧ x ≤ v ∧
      (c.ecut = .pinf → x = v) ∧
      (∀ e, c.ecut = .fin e → x * E ≤ e ∧ (x = v ∨ x * E = e)) := by
  obtain ⟨ec, vc, b⟩ := c
  obtain ⟨h1, v, v0, v1, hv⟩ := hc
  simp only at h1 hv
  subst hv
  rcases h1 with rfl | ⟨e, e0, rfl⟩
  · refine ⟨v, v, by simp [Cut.cut, Dbl.min, Dbl.divPos, Dbl.lt], rfl, v0, le_rfl, fun _ => rfl, ?_⟩
    intro e h; cases h
  · simp only [Cut.cut, Dbl.divPos, Dbl.min_fin]
    have hEne := hE.ne'
    refine ⟨_, v, rfl, rfl, lt_min (div_pos e0 hE) v0, min_le_right _ _, (fun h => by cases h), ?_⟩
    intro e' h'
    obtain rfl : e = e' := by simpa using h'
    rcases le_total (e / E) v with h | h
    · rw [min_eq_left h]
      exact ⟨by rw [div_mul_cancel₀ _ hEne], Or.inr (by rw [div_mul_cancel₀ _ hEne])⟩
    · rw [min_eq_right h]
      exact ⟨(le_div_iff₀ hE).1 h, Or.inl rfl⟩

/-- C27: the cut does not grow with the energy. -/
theorem C27_cut_antitone (c : Cut) (hc : ValidCut c) (E E' x x' : ℝ) (hE : 0 < E) (h : E ≤ E')
    (hx : c.cut E = .fin x) (hx' : c.cut E' = .fin x') : x' ≤ x := by
  obtain ⟨y, v, h1, h2, h3, h4, h5, h6⟩ := C27_cut_value c hc E hE
  obtain ⟨y', v', h1', h2', h3', h4', h5', h6'⟩ := C27_cut_value c hc E' (hE.trans_le h)
  obtain rfl : y = x := by rw [h1] at hx; simpa using hx
  obtain rfl : y' = x' := by rw [h1'] at hx'; simpa using hx'
  obtain rfl : v = v' := by rw [h2] at h2'; simpa using h2'
  rcases hc.1 with he | ⟨e, _, he⟩
  · rw [h5 he, h5' he]
  · rcases (h6 e he).2 with rfl | h7
    · exact h4'
    · have := (h6' e he).1
      by_contra hc
      push Not at hc
      nlinarith

/-- C27: the cut clamped to kinematic limits stays within them, and is the plain cut if that lies
between them. -/
theorem C27_cut_in_limits (c : Cut) (hc : ValidCut c) (lim : KinLim) (hl : lim.vMin ≤ lim.vMax)
    (E : ℝ) (hE : 0 < E) :
    ∃ x y, c.cutIn lim E = .fin x ∧ c.cut E = .fin y ∧ lim.vMin ≤ x ∧ x ≤ lim.vMax ∧
      (lim.vMin ≤ y → y ≤ lim.vMax → x = y) ∧ (y ≤ lim.vMin → x = lim.vMin) ∧
      (lim.vMax ≤ y → x = lim.vMax) := by
  obtain ⟨y, v, h1, _⟩ := C27_cut_value c hc E hE
  have : c.cutIn lim E = .fin (min (max lim.vMin y) lim.vMax) := by
    unfold Cut.cutIn
    rw [h1, Dbl.max_fin, Dbl.min_fin]
  refine ⟨_, y, this, h1, le_min (le_max_left _ _) hl, min_le_right _ _, ?_, ?_, ?_⟩
  · intro a b; rw [max_eq_right a, min_eq_left b]
  · intro a; rw [max_eq_left a, min_eq_left hl]
  · intro a; exact min_eq_right (le_max_of_le_right a)

example : ValidCut ⟨.fin 500, .fin (1 / 20), false⟩ ∧ (⟨1 / 100, 9 / 10⟩ : KinLim).vMin ≤ 9 / 10 ∧
    (⟨.fin 500, .fin (1 / 20), false⟩ : Cut).cut 100000 = .fin (1 / 200) := by
  refine ⟨⟨Or.inr ⟨500, by norm_num, rfl⟩, 1 / 20, by norm_num, by norm_num, rfl⟩, by norm_num, ?_⟩
  simp only [Cut.cut, Dbl.divPos, Dbl.min_fin]
  norm_num

/-- C28: equal settings have equal hashes, whatever the hash function for numbers. -/
theorem C28_equal_hash {H : Type} (h : Dbl → Dbl → H) (a b : Cut) (hab : a.beq b) : a.hash h = b.hash h := by
  have key : ∀ x y : Dbl, Dbl.eq x y → x = y := by
    intro x y hxy
    cases x <;> cases y <;> simp_all [Dbl.eq]
  unfold Cut.hash
  rw [key _ _ hab.1, key _ _ hab.2.1]

/-- C28: the randomisation flag does not enter the hash but the comparison. -/
theorem C28_flag_not_hashed {H : Type} (h : Dbl → Dbl → H) (ecut vcut : Dbl) :
    (⟨ecut, vcut, true⟩ : Cut).hash h = (⟨ecut, vcut, false⟩ : Cut).hash h ∧
    ¬ (⟨ecut, vcut, true⟩ : Cut).beq ⟨ecut, vcut, false⟩ := by
  refine ⟨rfl, ?_⟩
  rintro ⟨_, _, h⟩
  simp at h

/-- C28: settings without NaN compare equal exactly if they are the same. -/
theorem C28_equality (a b : Cut) (ha : ValidCut a) : a.beq b ↔ a = b := by
  constructor
  · rintro ⟨h1, h2, h3⟩
    have key : ∀ x y : Dbl, Dbl.eq x y → x = y := by
      intro x y hxy
      cases x <;> cases y <;> simp_all [Dbl.eq]
    cases a; cases b
    simp only at *
    rw [key _ _ h1, key _ _ h2, h3]
  · rintro rfl
    obtain ⟨h1, v, _, _, hv⟩ := ha
    refine ⟨?_, ?_, rfl⟩
    · rcases h1 with h | ⟨e, _, h⟩ <;> rw [h] <;> simp [Dbl.eq]
    · rw [hv]; simp [Dbl.eq]

example : (⟨.fin 500, .fin (1 / 20), false⟩ : Cut).beq ⟨.fin 500, .fin (1 / 20), false⟩ := by
  simp [Cut.beq, Dbl.eq]

end Proposal
