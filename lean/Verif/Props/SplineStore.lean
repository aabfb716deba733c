import Verif.Model.SplineStore
import Verif.Props.Spline
import Mathlib.Data.Int.Log
import Mathlib.Algebra.Order.Round

/-!
# Storing splines (C166)
-/

namespace Proposal

namespace Spec

/-- What the default precision of a stream makes of the numbers: six significant digits, numbers with at most
six digits as they are, the others with a relative error of at most 5/10⁶. -/
structure SixDigits (w : ℝ → ℝ) : Prop where
  digits : ∀ x, ∃ m e : ℤ, |m| < 10 ^ 6 ∧ w x = m * (10 : ℝ) ^ e
  short : ∀ m e : ℤ, |m| < 10 ^ 6 → w (m * (10 : ℝ) ^ e) = m * (10 : ℝ) ^ e
  near : ∀ x, |w x - x| ≤ 5 / 10 ^ 6 * |x|

/-- The spline with each number replaced. -/
def replaced (w : ℝ → ℝ) (s : Spline) : Spline := ⟨s.pieces.map (List.map w), s.knots.map w, s.n⟩

/-- A spline with a knot more than pieces and no empty piece, with sizes that fit into 32 bits. -/
structure Storable (s : Spline) : Prop where
  pos : 0 < s.pieces.length
  knots : s.knots.length = s.pieces.length + 1
  nonempty : ∀ p ∈ s.pieces, p ≠ []
  small : s.pieces.length < 2 ^ 32
  degrees : ∀ p ∈ s.pieces, p.length < 2 ^ 32

end Spec

open Spec

private lemma readCoeffs_map (w : ℝ → ℝ) (p : Poly) (ws : List SplineWord) :
    readCoeffs p.length ((p.map fun a => SplineWord.num (w a)) ++ ws) = some (p.map w, ws) := by
  induction p with
  | nil => rfl
  | cons a l ih => simp [readCoeffs, ih]

private lemma read_line (w : ℝ → ℝ) (p : Poly) (a b : ℝ) (hp : p ≠ []) (hl : p.length < 2 ^ 32)
    (ls : List SplineLine) :
    readContainer ⟨lineWords (containerLine w (p, a, b) :: ls), true⟩ = some ((w a, w b), p.map w, ⟨lineWords ls, true⟩) := by
  have h0 : 0 < p.length := List.length_pos_iff.2 hp
  have h1 : (p.length - 1 + 1) % 2 ^ 32 = p.length := by
    rw [Nat.sub_add_cancel h0, Nat.mod_eq_of_lt hl]
  have h2 : p.length - 1 < 2 ^ 32 := by omega
  simp only [readContainer, lineWords, containerLine, if_neg h0.ne', List.cons_append, if_true, if_pos h2, h1,
    readCoeffs_map, Option.map_some]

private lemma containers_some (ps : List Poly) : ∀ ks : List ℝ, ks.length = ps.length + 1 →
    ∃ cs, splineContainers ps ks = some cs ∧ cs.length = ps.length := by
  induction ps with
  | nil => intro ks _; exact ⟨[], by simp [splineContainers], rfl⟩
  | cons p ps ih =>
    intro ks hk
    obtain ⟨a, b, ks, rfl⟩ : ∃ a b l, ks = a :: b :: l := by
      match ks, hk with
      | a :: b :: l, _ => exact ⟨a, b, l, rfl⟩
    obtain ⟨cs, h1, h2⟩ := ih (b :: ks) (by simpa using hk)
    exact ⟨(p, a, b) :: cs, by simp [splineContainers, h1], by simp [h2]⟩

/-- The loop reads `ps` with the knots and goes on. -/
private lemma read_pieces (w : ℝ → ℝ) (ps : List Poly) : ∀ (ks : List ℝ) (cs : List (Poly × ℝ × ℝ)) (d : ℝ × ℝ) (k : ℕ)
    (ls : List SplineLine), ks.length = ps.length + 1 → (∀ p ∈ ps, p ≠ []) → (∀ p ∈ ps, p.length < 2 ^ 32) →
    splineContainers ps ks = some cs →
    ∃ d', (ps ≠ [] → d'.2 = w (ks.getLastD 0)) ∧ (ps = [] → d' = d) ∧
      readPieces (ps.length + k) d ⟨lineWords (cs.map (containerLine w) ++ ls), true⟩ =
        (readPieces k d' ⟨lineWords ls, true⟩).map fun r =>
          (ps.map (List.map w) ++ r.1, (ks.take ps.length).map w ++ r.2.1, r.2.2) := by
  induction ps with
  | nil =>
    intro ks cs d k ls _ _ _ h
    simp only [splineContainers, Option.some.injEq] at h
    subst h
    refine ⟨d, by simp, by simp, ?_⟩
    simp
  | cons p ps ih =>
    intro ks cs d k ls hk hn hl h
    obtain ⟨a, b, ks, rfl⟩ : ∃ a b l, ks = a :: b :: l := by
      match ks, hk with
      | a :: b :: l, _ => exact ⟨a, b, l, rfl⟩
    have hk' : (b :: ks).length = ps.length + 1 := by simpa using hk
    obtain ⟨cs', h1, -⟩ := containers_some ps (b :: ks) hk'
    simp only [splineContainers, h1, Option.map_some, Option.some.injEq] at h
    subst h
    obtain ⟨d', e1, e2, e3⟩ := ih (b :: ks) cs' (w a, w b) k ls hk' (fun q hq => hn q (by simp [hq]))
      (fun q hq => hl q (by simp [hq])) h1
    refine ⟨d', fun _ => ?_, by simp, ?_⟩
    · by_cases hp : ps = []
      · subst hp
        have : ks = [] := by simpa using hk'
        subst this
        rw [e2 rfl]; rfl
      · rw [e1 hp]; simp [List.getLastD]
    · rw [List.length_cons, show ps.length + 1 + k = (ps.length + k) + 1 by omega, readPieces, List.map_cons,
        List.cons_append, read_line w p a b (hn p (by simp)) (hl p (by simp)) _]
      simp only [e3, Option.map_map]
      rfl

private lemma lineWords_end (ls : List SplineLine) : lineWords (ls ++ [.words []]) = lineWords ls := by
  induction ls with
  | nil => rfl
  | cons l ls ih => cases l <;> simp [lineWords, ih]

/-- The rounding to six digits. -/
private noncomputable def sixDigits (x : ℝ) : ℝ :=
  round (x / (10 : ℝ) ^ (Int.log 10 |x| - 5)) * (10 : ℝ) ^ (Int.log 10 |x| - 5)

private lemma sixDigits_scale (x : ℝ) (hx : x ≠ 0) :
    (10 : ℝ) ^ 5 * (10 : ℝ) ^ (Int.log 10 |x| - 5) ≤ |x| ∧ |x| < (10 : ℝ) ^ 6 * (10 : ℝ) ^ (Int.log 10 |x| - 5) := by
  have h0 : 0 < |x| := abs_pos.2 hx
  have h1 := Int.zpow_log_le_self (b := 10) (by norm_num) h0
  have h2 := Int.lt_zpow_succ_log_self (b := 10) (by norm_num) |x|
  push_cast at h1 h2
  have e1 : (10 : ℝ) ^ 5 * (10 : ℝ) ^ (Int.log 10 |x| - 5) = (10 : ℝ) ^ (Int.log 10 |x|) := by
    rw [← zpow_natCast, ← zpow_add₀ (by norm_num)]; congr 1; push_cast; ring
  have e2 : (10 : ℝ) ^ 6 * (10 : ℝ) ^ (Int.log 10 |x| - 5) = (10 : ℝ) ^ (Int.log 10 |x| + 1) := by
    rw [← zpow_natCast, ← zpow_add₀ (by norm_num)]; congr 1; push_cast; ring
  rw [e1, e2]
  exact ⟨h1, h2⟩

/-- There is such a rounding. -/
private lemma sixDigits_spec : SixDigits sixDigits := by
  have near : ∀ x, |sixDigits x - x| ≤ 5 / 10 ^ 6 * |x| := by
    intro x
    by_cases hx : x = 0
    · simp [hx, sixDigits]
    obtain ⟨h1, -⟩ := sixDigits_scale x hx
    simp only [sixDigits]
    set t := (10 : ℝ) ^ (Int.log 10 |x| - 5) with ht
    have h0 : 0 < t := by positivity
    have h3 := abs_sub_round (x / t)
    have e : (round (x / t) : ℝ) * t - x = -((x / t - round (x / t)) * t) := by field_simp; ring
    rw [e, abs_neg, abs_mul, abs_of_pos h0]
    nlinarith
  refine ⟨?_, ?_, near⟩
  · intro x
    by_cases hx : x = 0
    · exact ⟨0, 0, by norm_num, by simp [hx, sixDigits]⟩
    obtain ⟨-, h2⟩ := sixDigits_scale x hx
    set t := (10 : ℝ) ^ (Int.log 10 |x| - 5) with ht
    have h0 : 0 < t := by positivity
    have h3 := abs_sub_round (x / t)
    have h4 : |x / t| < 10 ^ 6 := by rw [abs_div, abs_of_pos h0, div_lt_iff₀ h0]; exact h2
    have h5 : |round (x / t)| ≤ 10 ^ 6 := by
      have a1 := abs_lt.1 h4
      have a2 := abs_le.1 h3
      rw [abs_le]
      constructor
      · have : (-(10 ^ 6) - 1 : ℝ) < round (x / t) := by linarith [a1.1, a2.2]
        have : (-(10 ^ 6) - 1 : ℤ) < round (x / t) := by exact_mod_cast this
        omega
      · have : (round (x / t) : ℝ) < 10 ^ 6 + 1 := by linarith [a1.2, a2.1]
        have : round (x / t) < (10 ^ 6 + 1 : ℤ) := by exact_mod_cast this
        omega
    rcases h5.lt_or_eq with h | h
    · exact ⟨_, _, h, rfl⟩
    · have e : t * 10 = (10 : ℝ) ^ (Int.log 10 |x| - 5 + 1) := by rw [zpow_add_one₀ (by norm_num)]
      rcases abs_eq (by norm_num : (0 : ℤ) ≤ 10 ^ 6) |>.1 h with h' | h'
      · refine ⟨10 ^ 5, Int.log 10 |x| - 5 + 1, by norm_num, ?_⟩
        simp only [sixDigits]
        rw [← ht, h',
          show ((10 ^ 6 : ℤ) : ℝ) * t = ((10 ^ 5 : ℤ) : ℝ) * (t * 10) by push_cast; ring, e]
      · refine ⟨-10 ^ 5, Int.log 10 |x| - 5 + 1, by norm_num, ?_⟩
        simp only [sixDigits]
        rw [← ht, h',
          show ((-10 ^ 6 : ℤ) : ℝ) * t = ((-10 ^ 5 : ℤ) : ℝ) * (t * 10) by push_cast; ring, e]
  · intro m e hm
    by_cases hm0 : m = 0
    · simp [hm0, sixDigits]
    set x := (m : ℝ) * (10 : ℝ) ^ e with hx
    have hx0 : x ≠ 0 := mul_ne_zero (by exact_mod_cast hm0) (by positivity)
    obtain ⟨h1, -⟩ := sixDigits_scale x hx0
    have hle : Int.log 10 |x| - 5 ≤ e := by
      by_contra hlt
      have h6 : (10 : ℝ) ^ (e + 1) ≤ (10 : ℝ) ^ (Int.log 10 |x| - 5) := zpow_le_zpow_right₀ (by norm_num) (by omega)
      have h7 : |(m : ℝ)| < 10 ^ 6 := by exact_mod_cast hm
      have h8 : |x| = |(m : ℝ)| * (10 : ℝ) ^ e := by rw [hx, abs_mul, abs_of_pos (by positivity : (0 : ℝ) < (10 : ℝ) ^ e)]
      have h9 : (0 : ℝ) < (10 : ℝ) ^ e := by positivity
      rw [zpow_add_one₀ (by norm_num)] at h6
      have h11 : |x| < 10 ^ 6 * (10 : ℝ) ^ e := by rw [h8]; exact mul_lt_mul_of_pos_right h7 h9
      linarith
    simp only [sixDigits]
    obtain ⟨k, hk⟩ : ∃ k : ℕ, e = Int.log 10 |x| - 5 + k := ⟨(e - (Int.log 10 |x| - 5)).toNat, by omega⟩
    have h10 : x / (10 : ℝ) ^ (Int.log 10 |x| - 5) = ((m * 10 ^ k : ℤ) : ℝ) := by
      rw [div_eq_iff (by positivity)]
      conv_lhs => rw [hx, hk, zpow_add₀ (by norm_num), zpow_natCast]
      push_cast; ring
    rw [h10, round_intCast, ← h10, div_mul_cancel₀ _ (by positivity)]

/-- What is read back from a spline with the number `n`. -/
private lemma load_save (w : ℝ → ℝ) (s : Spline) (h : Storable s) (path : String) (files : SplineFiles) :
    ∃ files' cs, s.save w path false files = some files' ∧ splineContainers s.pieces s.knots = some cs ∧
      (∀ f, f ≠ path ++ ".txt" → files' f = files f) ∧
      Spline.load path false files' = readSpline (.int s.n :: lineWords (cs.map (containerLine w) ++ [.words []])) := by
  obtain ⟨cs, h1, -⟩ := containers_some s.pieces s.knots h.knots
  refine ⟨_, cs, by simp only [Spline.save, Spline.print, h1, Option.map_some]; rfl, h1, ?_, ?_⟩
  · intro f hf
    exact Function.update_of_ne (by simpa [tableName] using hf) _ _
  · simp [Spline.load, lineWords]

/-- C166: a spline written to a text file and read again is the spline with each number as printed: the same
pieces between the same knots up to the precision of the file. No other file changes. Missing are the exact numbers, see `C166_precision`, splines
constructed from polynomials, see `C166_polynoms`, and the binary mode, see `C166_binary`. -/
theorem C166_read_again_partial (w : ℝ → ℝ) (s : Spline) (h : Storable s) (hn : s.n = s.pieces.length) (path : String)
    (files : SplineFiles) :
    ∃ files', s.save w path false files = some files' ∧ (∀ f, f ≠ path ++ ".txt" → files' f = files f) ∧
      Spline.load path false files' = some (replaced w s) := by
  obtain ⟨files', cs, h1, h2, h3, h4⟩ := load_save w s h path files
  refine ⟨files', h1, h3, ?_⟩
  obtain ⟨d, e1, -, e3⟩ := read_pieces w s.pieces s.knots cs (0, 0) 0 [.words []] h.knots h.nonempty h.degrees h2
  have hne : s.pieces ≠ [] := List.length_pos_iff.1 h.pos
  rw [h4, hn]
  simp only [readSpline, if_pos h.small]
  rw [Nat.add_zero] at e3
  rw [e3]
  simp only [readPieces, Option.map_some, List.append_nil, replaced, hn, e1 hne]
  have hk : s.knots ≠ [] := by intro h0; have := h.knots; simp [h0] at this
  have : List.take s.pieces.length s.knots ++ [s.knots.getLastD 0] = s.knots := by
    conv_rhs => rw [← List.dropLast_append_getLast hk]
    rw [List.dropLast_eq_take, h.knots, Nat.add_sub_cancel]
    have gl : ∀ (l : List ℝ) (hl : l ≠ []), l.getLastD 0 = l.getLast hl := by
      intro l hl
      cases l with
      | nil => exact absurd rfl hl
      | cons a l => cases l <;> rfl
    rw [gl s.knots hk]
  conv_rhs => rw [← this]
  simp

/-- C166: with numbers of at most six digits the spline read again is the spline that was written, with the same values
everywhere. -/
theorem C166_six_digits (w : ℝ → ℝ) (hw : SixDigits w) (s : Spline) (h : Storable s) (hn : s.n = s.pieces.length)
    (hs : ∀ x, (x ∈ s.knots ∨ ∃ p ∈ s.pieces, x ∈ p) → ∃ m e : ℤ, |m| < 10 ^ 6 ∧ x = m * (10 : ℝ) ^ e)
    (path : String) (files : SplineFiles) :
    ∃ files', s.save w path false files = some files' ∧ Spline.load path false files' = some s := by
  obtain ⟨files', h1, -, h2⟩ := C166_read_again_partial w s h hn path files
  refine ⟨files', h1, ?_⟩
  have fix : ∀ x, (x ∈ s.knots ∨ ∃ p ∈ s.pieces, x ∈ p) → w x = x := by
    intro x hx
    obtain ⟨m, e, hm, rfl⟩ := hs x hx
    exact hw.short m e hm
  rw [h2]
  have a1 : s.knots.map w = s.knots := by
    conv_rhs => rw [← List.map_id s.knots]
    exact List.map_congr_left fun x hx => fix x (Or.inl hx)
  have a2 : s.pieces.map (List.map w) = s.pieces := by
    conv_rhs => rw [← List.map_id s.pieces]
    refine List.map_congr_left fun p hp => ?_
    conv_rhs => rw [id, ← List.map_id p]
    exact List.map_congr_left fun x hx => fix x (Or.inr ⟨p, hp, hx⟩)
  rw [replaced, a1, a2]

/-- C166: once read, a spline is stored and read again without any change. -/
theorem C166_once (w : ℝ → ℝ) (hw : SixDigits w) (s : Spline) (h : Storable s) (hn : s.n = s.pieces.length)
    (path : String) (files : SplineFiles) :
    ∃ files' t, s.save w path false files = some files' ∧ Spline.load path false files' = some t ∧
      t.save w path false files' = some files' := by
  obtain ⟨cs, c1, -⟩ := containers_some s.pieces s.knots h.knots
  obtain ⟨files', h1, -, h2⟩ := C166_read_again_partial w s h hn path files
  refine ⟨files', _, h1, h2, ?_⟩
  have idem : ∀ x, w (w x) = w x := by
    intro x
    obtain ⟨m, e, hm, hx⟩ := hw.digits x
    rw [hx, hw.short m e hm]
  have cont : ∀ (ps : List Poly) (ks : List ℝ), (splineContainers (ps.map (List.map w)) (ks.map w)).map (List.map (containerLine w))
      = (splineContainers ps ks).map (List.map (containerLine w)) := by
    intro ps
    induction ps with
    | nil => intro ks; simp [splineContainers]
    | cons p ps ih =>
      intro ks
      match ks with
      | [] => simp [splineContainers]
      | [a] => simp [splineContainers]
      | a :: b :: ks =>
        have := ih (b :: ks)
        simp only [List.map_cons] at this
        simp only [List.map_cons, splineContainers, Option.map_map]
        have e1 : containerLine w (p.map w, w a, w b) = containerLine w (p, a, b) := by
          simp [containerLine, idem, Function.comp_def]
        have f1 : ∀ (o : Option (List (Poly × ℝ × ℝ))) (c : Poly × ℝ × ℝ),
            o.map (List.map (containerLine w) ∘ (c :: ·)) = (o.map (List.map (containerLine w))).map (containerLine w c :: ·) := by
          intro o c; cases o <;> simp
        rw [f1, f1, this, e1]
  have pr : (replaced w s).print w = s.print w := by
    have := cont s.pieces s.knots
    have g : ∀ (o : Option (List (Poly × ℝ × ℝ))) (l : List SplineLine),
        o.map (fun cs => l ++ cs.map (containerLine w)) = (o.map (List.map (containerLine w))).map (l ++ ·) := by
      intro o l; cases o <;> simp
    simp only [Spline.print, replaced]
    rw [g, g, this]
  simp only [Spline.save] at h1 ⊢
  rw [pr]
  cases hp : s.print w with
  | none => simp [hp] at h1
  | some lines =>
    simp only [hp, Option.map_some, Option.some.injEq] at h1 ⊢
    rw [← h1]; simp

/-- C166: the knots of the spline read again are off by at most 5/10⁶ of their size. -/
theorem C166_knots (w : ℝ → ℝ) (hw : SixDigits w) (s : Spline) (h : Storable s) (hn : s.n = s.pieces.length)
    (path : String) (files : SplineFiles) :
    ∃ files' t, s.save w path false files = some files' ∧ Spline.load path false files' = some t ∧
      t.n = s.n ∧ t.knots.length = s.knots.length ∧ t.pieces.length = s.pieces.length ∧
      (∀ i, |t.knots.getD i 0 - s.knots.getD i 0| ≤ 5 / 10 ^ 6 * |s.knots.getD i 0|) ∧
      ∀ i j, |(t.pieces.getD i []).coef j - (s.pieces.getD i []).coef j| ≤ 5 / 10 ^ 6 * |(s.pieces.getD i []).coef j| := by
  obtain ⟨files', h1, -, h2⟩ := C166_read_again_partial w s h hn path files
  have h0 : w 0 = 0 := by simpa using hw.short 0 0 (by norm_num)
  have hd : ∀ (l : List ℝ) (i : ℕ), (l.map w).getD i 0 = w (l.getD i 0) := by
    intro l i
    simp only [List.getD_eq_getElem?_getD, List.getElem?_map]
    cases l[i]? <;> simp [h0]
  have hp : ∀ (l : List Poly) (i : ℕ), (l.map (List.map w)).getD i [] = (l.getD i []).map w := by
    intro l i
    simp only [List.getD_eq_getElem?_getD, List.getElem?_map]
    cases l[i]? <;> simp
  refine ⟨files', _, h1, h2, rfl, by simp [replaced], by simp [replaced], ?_, ?_⟩
  · intro i
    simp only [replaced, hd]
    exact hw.near _
  · intro i j
    simp only [replaced, hp, Poly.coef, hd]
    exact hw.near _

/-- The splines through nodes can be stored. -/
private lemma storable_of_regular {s : Spline} (h : RegularSpline s) (h1 : s.n < 2 ^ 32)
    (h2 : ∀ p ∈ s.pieces, p.length < 2 ^ 32) : Storable s ∧ s.n = s.pieces.length :=
  ⟨⟨by rw [h.pieces]; exact h.pos, by rw [h.knots, h.pieces], h.nonempty, by rw [h.pieces]; exact h1, h2⟩, h.pieces.symm⟩

/-- C166 for the splines through nodes. -/
theorem C166_through_nodes (w : ℝ → ℝ) (x y : List ℝ) (h : Nodes x y) (hl : x.length < 2 ^ 32) (path : String)
    (files : SplineFiles) :
    (∃ files', (Spline.linear x y).save w path false files = some files' ∧
      Spline.load path false files' = some (replaced w (Spline.linear x y))) ∧
    ∃ files', (Spline.cubic x y).save w path false files = some files' ∧
      Spline.load path false files' = some (replaced w (Spline.cubic x y)) := by
  constructor
  · obtain ⟨a, b⟩ := storable_of_regular (linear_regular h) (by simp only [Spline.linear]; omega) (by
      intro p hp
      simp only [Spline.linear, List.mem_map] at hp
      obtain ⟨i, -, rfl⟩ := hp
      simp)
    obtain ⟨f, h1, -, h2⟩ := C166_read_again_partial w _ a b path files
    exact ⟨f, h1, h2⟩
  · obtain ⟨a, b⟩ := storable_of_regular (cubic_regular h) (by simp only [Spline.cubic]; omega) (by
      intro p hp
      simp only [Spline.cubic, List.mem_map] at hp
      obtain ⟨i, -, rfl⟩ := hp
      simp [cubicPiece, Poly.shift]
      try split <;> simp)
    obtain ⟨f, h1, -, h2⟩ := C166_read_again_partial w _ a b path files
    exact ⟨f, h1, h2⟩

/-- C166 fails for numbers of more digits: the line through (0, 1234567) and (1, 1234567) has another value when read again. -/
theorem C166_precision (w : ℝ → ℝ) (hw : SixDigits w) (path : String) (files : SplineFiles) :
    ∃ files' t v, (Spline.linear [0, 1] [1234567, 1234567]).save w path false files = some files' ∧
      Spline.load path false files' = some t ∧
      (Spline.linear [0, 1] [1234567, 1234567]).evaluate 0 = some 1234567 ∧ t.evaluate 0 = some v ∧ v ≠ 1234567 := by
  have hN : Nodes [0, 1] [1234567, 1234567] := by
    refine ⟨by simp, by simp, ?_⟩
    intro i j hij hj
    simp only [List.length_cons, List.length_nil] at hj
    interval_cases j
    all_goals interval_cases i
    all_goals norm_num
  obtain ⟨⟨f, h1, h2⟩, -⟩ := C166_through_nodes w _ _ hN (by norm_num) path files
  have h0 : w 0 = 0 := by simpa using hw.short 0 0 (by norm_num)
  have h01 : w 1 = 1 := by simpa using hw.short 1 0 (by norm_num)
  have hl : Spline.linear [0, 1] [1234567, 1234567] = ⟨[[1234567, 0]], [0, 1], 1⟩ := by
    simp [Spline.linear, List.range_succ]
  refine ⟨f, _, w 1234567, h1, h2, ?_, ?_, ?_⟩
  · rw [hl]; simp [Spline.evaluate, Spline.evaluateGo, Poly.evaluate, horner]
  · rw [hl]; simp [replaced, Spline.evaluate, Spline.evaluateGo, Poly.evaluate, horner, h0, h01]
  · intro he
    obtain ⟨m, e, hm, hx⟩ := hw.digits 1234567
    rw [he] at hx
    rcases le_or_gt e 0 with h | h
    · have h5 : (10 : ℝ) ^ e ≤ 1 := zpow_le_one_of_nonpos₀ (by norm_num) h
      have h6 : (0 : ℝ) < (10 : ℝ) ^ e := by positivity
      have h7 : (m : ℝ) < 10 ^ 6 := by exact_mod_cast lt_of_le_of_lt (le_abs_self m) hm
      nlinarith
    · obtain ⟨k, rfl⟩ : ∃ k : ℕ, e = k + 1 := ⟨(e - 1).toNat, by omega⟩
      have h8 : (1234567 : ℤ) = m * 10 ^ (k + 1) := by
        have : (1234567 : ℝ) = m * (10 : ℝ) ^ (k + 1) := by exact_mod_cast hx
        exact_mod_cast this
      have h9 : (10 : ℤ) ∣ 1234567 := ⟨m * 10 ^ k, by rw [h8]; ring⟩
      omega

/-- C166 fails for splines constructed from polynomials: the number of intervals written is one too large and the file
ends before the last one. -/
theorem C166_polynoms (w : ℝ → ℝ) (pieces : List Poly) (knots : List ℝ) (h : Storable (Spline.ofPolynoms pieces knots))
    (path : String) (files : SplineFiles) :
    ∃ files', (Spline.ofPolynoms pieces knots).save w path false files = some files' ∧
      Spline.load path false files' = none := by
  obtain ⟨files', cs, h1, h2, -, h4⟩ := load_save w _ h path files
  refine ⟨files', h1, ?_⟩
  obtain ⟨d, -, -, e3⟩ := read_pieces w pieces knots cs (0, 0) 1 [.words []] h.knots h.nonempty h.degrees h2
  have hk : knots.length = pieces.length + 1 := h.knots
  rw [h4]
  simp only [readSpline, Spline.ofPolynoms, hk, e3]
  simp [readPieces, readContainer, lineWords]

/-- C166 fails in the binary mode: saving reports success but no spline can be read. -/
theorem C166_binary (w : ℝ → ℝ) (s : Spline) (h : Storable s) (path : String) (files : SplineFiles) :
    ∃ files', s.save w path true files = some files' ∧ files' (path ++ ".bin") = some .image ∧ Spline.load path true files' = none := by
  obtain ⟨cs, h1, -⟩ := containers_some s.pieces s.knots h.knots
  refine ⟨_, by simp only [Spline.save, Spline.print, h1, Option.map_some]; rfl, ?_, by simp [Spline.load]⟩
  simp [tableName]

/-- C166: a file that does not exist is not reported, the spline is undefined. -/
theorem C166_no_file (path : String) (files : SplineFiles) (h : files (path ++ ".txt") = none) :
    Spline.load path false files = none := by
  simp [Spline.load, tableName, h]

/-- The spline [1 + 2t, 3t] with the knots 0, 1, 2. -/
private def kinked : Spline := ⟨[[1, 2], [0, 3]], [0, 1, 2], 2⟩

private lemma kinked_storable : Storable kinked :=
  ⟨by simp [kinked], by simp [kinked], by simp [kinked], by simp [kinked], by simp [kinked]⟩

example : ∃ files', kinked.save sixDigits "a" false (fun _ => none) = some files' ∧
    (∀ f, f ≠ "a" ++ ".txt" → files' f = none) ∧ Spline.load "a" false files' = some (replaced sixDigits kinked) :=
  C166_read_again_partial sixDigits kinked kinked_storable rfl "a" _

example : ∃ files', kinked.save sixDigits "a" false (fun _ => none) = some files' ∧
    Spline.load "a" false files' = some kinked := by
  refine C166_six_digits sixDigits sixDigits_spec kinked kinked_storable rfl ?_ "a" _
  have int : ∀ k : ℤ, |k| < 10 ^ 6 → ∃ m e : ℤ, |m| < 10 ^ 6 ∧ (k : ℝ) = m * (10 : ℝ) ^ e :=
    fun k hk => ⟨k, 0, hk, by simp⟩
  have h0 := int 0 (by norm_num)
  have h1 := int 1 (by norm_num)
  have h2 := int 2 (by norm_num)
  have h3 := int 3 (by norm_num)
  push_cast at h0 h1 h2 h3
  rintro x (hx | ⟨p, hp, hx⟩)
  · simp only [kinked, List.mem_cons, List.not_mem_nil, or_false] at hx
    rcases hx with rfl | rfl | rfl <;> assumption
  · simp only [kinked, List.mem_cons, List.not_mem_nil, or_false] at hp
    rcases hp with rfl | rfl
    all_goals
      simp only [List.mem_cons, List.not_mem_nil, or_false] at hx
      rcases hx with rfl | rfl <;> assumption

example := C166_once sixDigits sixDigits_spec kinked kinked_storable rfl "a" (fun _ => none)

example := C166_knots sixDigits sixDigits_spec kinked kinked_storable rfl "a" (fun _ => none)

example : Nodes [0, 1, 3] [2, 5, 4] := by
  refine ⟨by simp, by simp, ?_⟩
  intro i j hij hj
  simp only [List.length_cons, List.length_nil] at hj
  interval_cases j
  all_goals interval_cases i
  all_goals norm_num

example := C166_precision sixDigits sixDigits_spec "a" (fun _ => none)

example : Storable (Spline.ofPolynoms [[1, 2], [0, 3]] [0, 1, 2]) :=
  ⟨by simp [Spline.ofPolynoms], by simp [Spline.ofPolynoms], by simp [Spline.ofPolynoms], by simp [Spline.ofPolynoms],
    by simp [Spline.ofPolynoms]⟩

example := C166_binary sixDigits kinked kinked_storable "a" (fun _ => none)

example : Spline.load "b" false (fun f => if f = "a.txt" then some .image else none) = none :=
  C166_no_file "b" _ (by decide)

end Proposal
