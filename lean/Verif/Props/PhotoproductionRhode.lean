import Verif.Model.Rhode
import Verif.Props.InterpTable
import Verif.Props.PhotoproductionRate
import Mathlib.LinearAlgebra.Lagrange
import Mathlib.Tactic.ComputeDegree

/-!
# C119: the table of Rhode's parametrization
-/

open Polynomial Filter Topology

namespace Proposal

/-- A polynomial of the third degree in the form of Bernstein. -/
lemma bern_eq {p : ℝ[X]} (hp : p.natDegree < 4) {x0 x1 x2 x3 y0 y1 y2 y3 b1 b2 : ℝ} (h0 : p.eval x0 = y0) (h1 : p.eval x1 = y1)
    (h2 : p.eval x2 = y2) (h3 : p.eval x3 = y3) (l01 : x0 < x1) (l12 : x1 < x2) (l23 : x2 < x3)
    (e0 : y1 * (x2 - x0) ^ 3 + 3 * b1 * (x2 - x0) ^ 2 * (x0 - x1) + 3 * b2 * (x2 - x0) * (x0 - x1) ^ 2 + y2 * (x0 - x1) ^ 3 = y0 * (x2 - x1) ^ 3)
    (e3 : y1 * (x2 - x3) ^ 3 + 3 * b1 * (x2 - x3) ^ 2 * (x3 - x1) + 3 * b2 * (x2 - x3) * (x3 - x1) ^ 2 + y2 * (x3 - x1) ^ 3 = y3 * (x2 - x1) ^ 3)
    (t : ℝ) : (x2 - x1) ^ 3 * p.eval t =
      y1 * (x2 - t) ^ 3 + 3 * b1 * (x2 - t) ^ 2 * (t - x1) + 3 * b2 * (x2 - t) * (t - x1) ^ 2 + y2 * (t - x1) ^ 3 := by
  set q : ℝ[X] := C y1 * (C x2 - X) ^ 3 + C (3 * b1) * (C x2 - X) ^ 2 * (X - C x1) + C (3 * b2) * (C x2 - X) * (X - C x1) ^ 2 +
    C y2 * (X - C x1) ^ 3 with hq
  have hqe : ∀ u, q.eval u = y1 * (x2 - u) ^ 3 + 3 * b1 * (x2 - u) ^ 2 * (u - x1) + 3 * b2 * (x2 - u) * (u - x1) ^ 2 + y2 * (u - x1) ^ 3 := by
    intro u
    simp [hq]
  have hqd : q.natDegree ≤ 3 := by
    rw [hq]
    compute_degree
  have key : C ((x2 - x1) ^ 3) * p = q := by
    have hcard : ({x0, x1, x2, x3} : Finset ℝ).card = 4 := by
      rw [Finset.card_insert_of_notMem, Finset.card_insert_of_notMem, Finset.card_insert_of_notMem, Finset.card_singleton] <;>
        simp only [Finset.mem_insert, Finset.mem_singleton, not_or] <;> (try refine ⟨?_, ?_⟩) <;> (try refine ⟨?_, ?_⟩) <;> (intro h; linarith)
    refine Polynomial.eq_of_degrees_lt_of_eval_finset_eq {x0, x1, x2, x3} ?_ ?_ ?_
    · rw [hcard]
      refine degree_le_natDegree.trans_lt ?_
      have := natDegree_C_mul_le ((x2 - x1) ^ 3) p
      exact_mod_cast (by omega : (C ((x2 - x1) ^ 3) * p).natDegree < 4)
    · rw [hcard]
      refine degree_le_natDegree.trans_lt ?_
      exact_mod_cast (by omega : q.natDegree < 4)
    · intro u hu
      simp only [Finset.mem_insert, Finset.mem_singleton] at hu
      rw [eval_mul, eval_C, hqe]
      rcases hu with rfl | rfl | rfl | rfl
      · rw [h0]; linarith
      · rw [h1]; ring
      · rw [h2]; ring
      · rw [h3]; linarith
  have hk := congrArg (Polynomial.eval t) key
  rw [eval_mul, eval_C, hqe] at hk
  exact hk

lemma bern_pos {p : ℝ[X]} (hp : p.natDegree < 4) {x0 x1 x2 x3 y0 y1 y2 y3 b1 b2 t : ℝ} (h0 : p.eval x0 = y0) (h1 : p.eval x1 = y1)
    (h2 : p.eval x2 = y2) (h3 : p.eval x3 = y3) (l01 : x0 < x1) (l12 : x1 < x2) (l23 : x2 < x3) (p1 : 0 < y1) (p2 : 0 < y2) (q1 : 0 < b1)
    (q2 : 0 < b2)
    (e0 : y1 * (x2 - x0) ^ 3 + 3 * b1 * (x2 - x0) ^ 2 * (x0 - x1) + 3 * b2 * (x2 - x0) * (x0 - x1) ^ 2 + y2 * (x0 - x1) ^ 3 = y0 * (x2 - x1) ^ 3)
    (e3 : y1 * (x2 - x3) ^ 3 + 3 * b1 * (x2 - x3) ^ 2 * (x3 - x1) + 3 * b2 * (x2 - x3) * (x3 - x1) ^ 2 + y2 * (x3 - x1) ^ 3 = y3 * (x2 - x1) ^ 3)
    (ha : x1 ≤ t) (hb : t ≤ x2) : 0 < p.eval t := by
  have hk := bern_eq hp h0 h1 h2 h3 l01 l12 l23 e0 e3 t
  have hd : 0 < x2 - x1 := by linarith
  have hpos : 0 < y1 * (x2 - t) ^ 3 + 3 * b1 * (x2 - t) ^ 2 * (t - x1) + 3 * b2 * (x2 - t) * (t - x1) ^ 2 + y2 * (t - x1) ^ 3 := by
    have a1 : 0 ≤ x2 - t := by linarith
    have a2 : 0 ≤ t - x1 := by linarith
    rcases a1.lt_or_eq with a3 | a3
    · have : 0 < y1 * (x2 - t) ^ 3 := by positivity
      positivity
    · have a4 : 0 < t - x1 := by linarith
      positivity
  rw [← hk] at hpos
  exact pos_of_mul_pos_right hpos (by positivity)

lemma rhodeX_length : rhodeX.length = 52 := rfl

lemma rhode_length : rhodeX.length = rhodeY.length := rfl

lemma rhodeX_mono : rhodeX.Pairwise (· < ·) := by
  rw [← List.isChain_iff_pairwise]
  unfold rhodeX
  simp only [List.isChain_cons_cons, List.isChain_singleton, and_true]
  norm_num

/-- Between the third node and 200 GeV the four nodes are the neighbours of the point and one more on each side. -/
lemma rhode_near {t : ℝ} {s i : ℕ} (h1 : 0.144544 < t) (h2 : t ≤ 200) (hA : Spec.Around rhodeX t i) (hN : Spec.Nearest rhodeX t 4 s i) :
    rhodeX.getD i 0 ≤ t ∧ t ≤ rhodeX.getD (i + 1) 0 ∧ s = i - 1 ∧ 2 ≤ i ∧ i ≤ 21 := by
  obtain ⟨a1, a2, a3⟩ := hA
  obtain ⟨n1, n2, n3, n4⟩ := hN
  rw [rhodeX_length] at a1 a3 n3 n4
  have i2 : 2 ≤ i := by
    by_contra hc
    have hlt := asc_lt rhodeX_mono (i := i + 1) (j := 3) (by omega) (by rw [rhodeX_length]; omega)
    rcases a3 with a3 | a3
    · omega
    · rw [Set.mem_uIcc] at a3
      have e1 : rhodeX.getD (52 - 1) 0 = 9.99996e6 := rfl
      have hle : rhodeX.getD (i + 1) 0 ≤ 0.144544 := by
        have : i = 0 ∨ i = 1 := by omega
        rcases this with rfl | rfl
        · show (0.1 : ℝ) ≤ _
          norm_num
        · exact le_refl _
      rw [e1] at a3
      norm_num at a3 hle h1
      rcases a3 with a3 | a3 <;> linarith [a3.1, a3.2]
  have i21 : i ≤ 21 := by
    by_contra hc
    have hge : 229.087 ≤ rhodeX.getD i 0 := by
      rcases Nat.lt_or_ge 22 i with h | h
      · exact (asc_lt rhodeX_mono h (by rw [rhodeX_length]; omega)).le
      · have : i = 22 := by omega
        subst this
        exact le_refl _
    rcases a2 with a2 | a2
    · omega
    · rw [Set.mem_uIcc] at a2
      have e1 : rhodeX.getD 0 0 = 0 := rfl
      rw [e1] at a2
      norm_num at a2 hge h1
      rcases a2 with a2 | a2 <;> linarith [a2.1, a2.2]
  have hs : s = i - 1 := by omega
  have ha : rhodeX.getD i 0 ≤ t := by
    rcases a2 with a2 | a2
    · omega
    · rw [Set.mem_uIcc] at a2
      have e1 : rhodeX.getD 0 0 = 0 := rfl
      rw [e1] at a2
      generalize rhodeX.getD i 0 = u at a2 ⊢
      norm_num at a2 h1
      rcases a2 with a2 | a2 <;> linarith [a2.1, a2.2]
  have hb : t ≤ rhodeX.getD (i + 1) 0 := by
    rcases a3 with a3 | a3
    · omega
    · rw [Set.mem_uIcc] at a3
      have e1 : rhodeX.getD (52 - 1) 0 = 9.99996e6 := rfl
      rw [e1] at a3
      generalize rhodeX.getD (i + 1) 0 = u at a3 ⊢
      norm_num at a3 h1
      rcases a3 with a3 | a3 <;> linarith [a3.1, a3.2]
  exact ⟨ha, hb, hs, i2, i21⟩

/-- Between the third node and 200 GeV the interpolation is positive. -/
lemma rhode_piece {p : ℝ[X]} {t : ℝ} {s i : ℕ} (h1 : 0.144544 < t) (h2 : t ≤ 200) (hA : Spec.Around rhodeX t i) (hN : Spec.Nearest rhodeX t 4 s i)
    (hp : p.natDegree < 4) (hy : ∀ j, s ≤ j → j < s + 4 → p.eval (rhodeX.getD j 0) = rhodeY.getD j 0) : 0 < p.eval t := by
  obtain ⟨ha, hb, hs, i2, i21⟩ := rhode_near h1 h2 hA hN
  subst hs
  clear hA hN
  interval_cases i
  · exact bern_pos (x0 := 0.1) (x1 := 0.144544) (x2 := 0.20893) (x3 := 0.301995) (y0 := 0.0666667) (y1 := 0.0963626) (y2 := 159.74) (y3 := 508.103)
      (b1 := 429128518832885459458212844377 / 16283229969242431168000000000)
      (b2 := 280255575255570839386846642151 / 3256645993848486233600000000)
      hp (hy 1 (by norm_num) (by norm_num)) (hy 2 (by norm_num) (by norm_num)) (hy 3 (by norm_num) (by norm_num)) (hy 4 (by norm_num) (by norm_num))
      (by norm_num) (by norm_num) (by norm_num) (by norm_num) (by norm_num) (by norm_num) (by norm_num) (by norm_num) (by norm_num) ha hb
  · exact bern_pos (x0 := 0.144544) (x1 := 0.20893) (x2 := 0.301995) (x3 := 0.436516) (y0 := 0.0963626) (y1 := 159.74) (y2 := 508.103) (y3 := 215.77)
      (b1 := 33960253701121276485065398843 / 123784716319670287879200000)
      (b2 := 104419542433893307943329496771 / 247569432639340575758400000)
      hp (hy 2 (by norm_num) (by norm_num)) (hy 3 (by norm_num) (by norm_num)) (hy 4 (by norm_num) (by norm_num)) (hy 5 (by norm_num) (by norm_num))
      (by norm_num) (by norm_num) (by norm_num) (by norm_num) (by norm_num) (by norm_num) (by norm_num) (by norm_num) (by norm_num) ha hb
  · exact bern_pos (x0 := 0.20893) (x1 := 0.301995) (x2 := 0.436516) (x3 := 0.630957) (y0 := 159.74) (y1 := 508.103) (y2 := 215.77) (y3 := 236.403)
      (b1 := 74852190933806726414053156585031 / 142937357574745846997035515000)
      (b2 := 51875236056887307981313503382013 / 142937357574745846997035515000)
      hp (hy 3 (by norm_num) (by norm_num)) (hy 4 (by norm_num) (by norm_num)) (hy 5 (by norm_num) (by norm_num)) (hy 6 (by norm_num) (by norm_num))
      (by norm_num) (by norm_num) (by norm_num) (by norm_num) (by norm_num) (by norm_num) (by norm_num) (by norm_num) (by norm_num) ha hb
  · exact bern_pos (x0 := 0.301995) (x1 := 0.436516) (x2 := 0.630957) (x3 := 0.912011) (y0 := 508.103) (y1 := 215.77) (y2 := 236.403) (y3 := 201.919)
      (b1 := 105468669373116536759767047908897 / 676416267899703422068835880000)
      (b2 := 65127260870199693144089022179957 / 338208133949851711034417940000)
      hp (hy 4 (by norm_num) (by norm_num)) (hy 5 (by norm_num) (by norm_num)) (hy 6 (by norm_num) (by norm_num)) (hy 7 (by norm_num) (by norm_num))
      (by norm_num) (by norm_num) (by norm_num) (by norm_num) (by norm_num) (by norm_num) (by norm_num) (by norm_num) (by norm_num) ha hb
  · exact bern_pos (x0 := 0.436516) (x1 := 0.630957) (x2 := 0.912011) (x3 := 1.31826) (y0 := 215.77) (y1 := 236.403) (y2 := 201.919) (y3 := 151.381)
      (b1 := 4008430708453821645047534332302311 / 17071753114235337238822287420000)
      (b2 := 3743605795916550292954504152441793 / 17071753114235337238822287420000)
      hp (hy 5 (by norm_num) (by norm_num)) (hy 6 (by norm_num) (by norm_num)) (hy 7 (by norm_num) (by norm_num)) (hy 8 (by norm_num) (by norm_num))
      (by norm_num) (by norm_num) (by norm_num) (by norm_num) (by norm_num) (by norm_num) (by norm_num) (by norm_num) (by norm_num) ha hb
  · exact bern_pos (x0 := 0.630957) (x1 := 0.912011) (x2 := 1.31826) (x3 := 1.90546) (y0 := 236.403) (y1 := 201.919) (y2 := 151.381) (y3 := 145.407)
      (b1 := 9898076527993410736169753767901069 / 53856951091823704798284202800000)
      (b2 := 17759739098992012754282383275107141 / 107713902183647409596568405600000)
      hp (hy 6 (by norm_num) (by norm_num)) (hy 7 (by norm_num) (by norm_num)) (hy 8 (by norm_num) (by norm_num)) (hy 9 (by norm_num) (by norm_num))
      (by norm_num) (by norm_num) (by norm_num) (by norm_num) (by norm_num) (by norm_num) (by norm_num) (by norm_num) (by norm_num) ha hb
  · exact bern_pos (x0 := 0.912011) (x1 := 1.31826) (x2 := 1.90546) (x3 := 2.75423) (y0 := 201.919) (y1 := 151.381) (y2 := 145.407) (y3 := 132.096)
      (b1 := 3783823681002517079584507543144619 / 27185403379536041994744454233000)
      (b2 := 769604619241290034760090153860661 / 5437080675907208398948890846600)
      hp (hy 7 (by norm_num) (by norm_num)) (hy 8 (by norm_num) (by norm_num)) (hy 9 (by norm_num) (by norm_num)) (hy 10 (by norm_num) (by norm_num))
      (by norm_num) (by norm_num) (by norm_num) (by norm_num) (by norm_num) (by norm_num) (by norm_num) (by norm_num) (by norm_num) ha hb
  · exact bern_pos (x0 := 1.31826) (x1 := 1.90546) (x2 := 2.75423) (x3 := 3.98107) (y0 := 151.381) (y1 := 145.407) (y2 := 132.096) (y3 := 128.546)
      (b1 := 3030879584511367444553176840627 / 21440580637053415920237360000)
      (b2 := 729834897146477708510889109247 / 5360145159263353980059340000)
      hp (hy 8 (by norm_num) (by norm_num)) (hy 9 (by norm_num) (by norm_num)) (hy 10 (by norm_num) (by norm_num)) (hy 11 (by norm_num) (by norm_num))
      (by norm_num) (by norm_num) (by norm_num) (by norm_num) (by norm_num) (by norm_num) (by norm_num) (by norm_num) (by norm_num) ha hb
  · exact bern_pos (x0 := 1.90546) (x1 := 2.75423) (x2 := 3.98107) (x3 := 5.7544) (y0 := 145.407) (y1 := 132.096) (y2 := 128.546) (y3 := 125.046)
      (b1 := 99029631859649654386952505533 / 770843986193428469372173500)
      (b2 := 49419613444004828554491100027 / 385421993096714234686086750)
      hp (hy 9 (by norm_num) (by norm_num)) (hy 10 (by norm_num) (by norm_num)) (hy 11 (by norm_num) (by norm_num)) (hy 12 (by norm_num) (by norm_num))
      (by norm_num) (by norm_num) (by norm_num) (by norm_num) (by norm_num) (by norm_num) (by norm_num) (by norm_num) (by norm_num) ha hb
  · exact bern_pos (x0 := 2.75423) (x1 := 3.98107) (x2 := 5.7544) (x3 := 8.31764) (y0 := 132.096) (y1 := 128.546) (y2 := 125.046) (y3 := 121.863)
      (b1 := 881956754399373107878746723809 / 6939635296215829399510038000)
      (b2 := 1748360291089258787108100577307 / 13879270592431658799020076000)
      hp (hy 10 (by norm_num) (by norm_num)) (hy 11 (by norm_num) (by norm_num)) (hy 12 (by norm_num) (by norm_num)) (hy 13 (by norm_num) (by norm_num))
      (by norm_num) (by norm_num) (by norm_num) (by norm_num) (by norm_num) (by norm_num) (by norm_num) (by norm_num) (by norm_num) ha hb
  · exact bern_pos (x0 := 3.98107) (x1 := 5.7544) (x2 := 8.31764) (x3 := 12.0226) (y0 := 128.546) (y1 := 125.046) (y2 := 121.863) (y3 := 119.16)
      (b1 := 128913386531581919259661163161 / 1042504272000673800186960000)
      (b2 := 54801704978346518567599025521 / 446787545143145914365840000)
      hp (hy 11 (by norm_num) (by norm_num)) (hy 12 (by norm_num) (by norm_num)) (hy 13 (by norm_num) (by norm_num)) (hy 14 (by norm_num) (by norm_num))
      (by norm_num) (by norm_num) (by norm_num) (by norm_num) (by norm_num) (by norm_num) (by norm_num) (by norm_num) (by norm_num) ha hb
  · exact bern_pos (x0 := 5.7544) (x1 := 8.31764) (x2 := 12.0226) (x3 := 17.378) (y0 := 125.046) (y1 := 121.863) (y2 := 119.16) (y3 := 117.022)
      (b1 := 533763716617508597780973530363 / 4424662902477755145037837500)
      (b2 := 70675886866633632051305284129 / 589955053663700686005045000)
      hp (hy 12 (by norm_num) (by norm_num)) (hy 13 (by norm_num) (by norm_num)) (hy 14 (by norm_num) (by norm_num)) (hy 15 (by norm_num) (by norm_num))
      (by norm_num) (by norm_num) (by norm_num) (by norm_num) (by norm_num) (by norm_num) (by norm_num) (by norm_num) (by norm_num) ha hb
  · exact bern_pos (x0 := 8.31764) (x1 := 12.0226) (x2 := 17.378) (x3 := 25.1189) (y0 := 121.863) (y1 := 119.16) (y2 := 117.022) (y3 := 115.496)
      (b1 := 430797552725343669743832491783 / 3646404501456205781795664000)
      (b2 := 999675942498903675111294912761 / 8508277170064480157523216000)
      hp (hy 13 (by norm_num) (by norm_num)) (hy 14 (by norm_num) (by norm_num)) (hy 15 (by norm_num) (by norm_num)) (hy 16 (by norm_num) (by norm_num))
      (by norm_num) (by norm_num) (by norm_num) (by norm_num) (by norm_num) (by norm_num) (by norm_num) (by norm_num) (by norm_num) ha hb
  · exact bern_pos (x0 := 12.0226) (x1 := 17.378) (x2 := 25.1189) (x3 := 36.3078) (y0 := 119.16) (y1 := 117.022) (y2 := 115.496) (y3 := 114.607)
      (b1 := 3145240102986386035233265723883 / 27056828881302056238893316000)
      (b2 := 6266128916918088667783371088277 / 54113657762604112477786632000)
      hp (hy 14 (by norm_num) (by norm_num)) (hy 15 (by norm_num) (by norm_num)) (hy 16 (by norm_num) (by norm_num)) (hy 17 (by norm_num) (by norm_num))
      (by norm_num) (by norm_num) (by norm_num) (by norm_num) (by norm_num) (by norm_num) (by norm_num) (by norm_num) (by norm_num) ha hb
  · exact bern_pos (x0 := 17.378) (x1 := 25.1189) (x2 := 36.3078) (x3 := 52.4807) (y0 := 117.022) (y1 := 115.496) (y2 := 114.607) (y3 := 114.368)
      (b1 := 358995574360504475797062937 / 3122360484996629383310520)
      (b2 := 483610954605316336896839059627 / 4215186654745449667469202000)
      hp (hy 15 (by norm_num) (by norm_num)) (hy 16 (by norm_num) (by norm_num)) (hy 17 (by norm_num) (by norm_num)) (hy 18 (by norm_num) (by norm_num))
      (by norm_num) (by norm_num) (by norm_num) (by norm_num) (by norm_num) (by norm_num) (by norm_num) (by norm_num) (by norm_num) ha hb
  · exact bern_pos (x0 := 25.1189) (x1 := 36.3078) (x2 := 52.4807) (x3 := 75.8577) (y0 := 115.496) (y1 := 114.607) (y2 := 114.368) (y3 := 114.786)
      (b1 := 4561872883728989634152467300217 / 39893662941339966403734180000)
      (b2 := 6840599713285718541929166712291 / 59840494412009949605601270000)
      hp (hy 16 (by norm_num) (by norm_num)) (hy 17 (by norm_num) (by norm_num)) (hy 18 (by norm_num) (by norm_num)) (hy 19 (by norm_num) (by norm_num))
      (by norm_num) (by norm_num) (by norm_num) (by norm_num) (by norm_num) (by norm_num) (by norm_num) (by norm_num) (by norm_num) ha hb
  · exact bern_pos (x0 := 36.3078) (x1 := 52.4807) (x2 := 75.8577) (x3 := 109.648) (y0 := 114.607) (y1 := 114.368) (y2 := 114.786) (y3 := 115.864)
      (b1 := 194342304192289770200858318272031 / 1699089991329424508594514993375)
      (b2 := 155709049130574035904697668143543 / 1359271993063539606875611994700)
      hp (hy 17 (by norm_num) (by norm_num)) (hy 18 (by norm_num) (by norm_num)) (hy 19 (by norm_num) (by norm_num)) (hy 20 (by norm_num) (by norm_num))
      (by norm_num) (by norm_num) (by norm_num) (by norm_num) (by norm_num) (by norm_num) (by norm_num) (by norm_num) (by norm_num) ha hb
  · exact bern_pos (x0 := 52.4807) (x1 := 75.8577) (x2 := 109.648) (x3 := 158.489) (y0 := 114.368) (y1 := 114.786) (y2 := 115.864) (y3 := 117.606)
      (b1 := 75912054099727607810611176927533 / 659710455941292166321803945000)
      (b2 := 76165094536255611656725805606491 / 659710455941292166321803945000)
      hp (hy 18 (by norm_num) (by norm_num)) (hy 19 (by norm_num) (by norm_num)) (hy 20 (by norm_num) (by norm_num)) (hy 21 (by norm_num) (by norm_num))
      (by norm_num) (by norm_num) (by norm_num) (by norm_num) (by norm_num) (by norm_num) (by norm_num) (by norm_num) (by norm_num) ha hb
  · exact bern_pos (x0 := 75.8577) (x1 := 109.648) (x2 := 158.489) (x3 := 229.087) (y0 := 114.786) (y1 := 115.864) (y2 := 117.606) (y3 := 120.011)
      (b1 := 66314380180969471761348312248377 / 569619254188306212157884078000)
      (b2 := 66653650298028010049485851282179 / 569619254188306212157884078000)
      hp (hy 19 (by norm_num) (by norm_num)) (hy 20 (by norm_num) (by norm_num)) (hy 21 (by norm_num) (by norm_num)) (hy 22 (by norm_num) (by norm_num))
      (by norm_num) (by norm_num) (by norm_num) (by norm_num) (by norm_num) (by norm_num) (by norm_num) (by norm_num) (by norm_num) ha hb
  · exact bern_pos (x0 := 109.648) (x1 := 158.489) (x2 := 229.087) (x3 := 331.131) (y0 := 115.864) (y1 := 117.606) (y2 := 120.011) (y3 := 123.08)
      (b1 := 155524020629422653649735930361 / 1313176031043849948961674000)
      (b2 := 156583506030702973470054124129 / 1313176031043849948961674000)
      hp (hy 20 (by norm_num) (by norm_num)) (hy 21 (by norm_num) (by norm_num)) (hy 22 (by norm_num) (by norm_num)) (hy 23 (by norm_num) (by norm_num))
      (by norm_num) (by norm_num) (by norm_num) (by norm_num) (by norm_num) (by norm_num) (by norm_num) (by norm_num) (by norm_num) ha hb


/-- The value at 200 GeV. -/
lemma rhode_200 {p : ℝ[X]} {s i : ℕ} (hA : Spec.Around rhodeX 200 i) (hN : Spec.Nearest rhodeX 200 4 s i)
    (hp : p.natDegree < 4) (hy : ∀ j, s ≤ j → j < s + 4 → p.eval (rhodeX.getD j 0) = rhodeY.getD j 0) : 119.04 < p.eval 200 ∧ p.eval 200 < 119.05 := by
  obtain ⟨ha, hb, hs, hi⟩ := rhode_near (by norm_num) le_rfl hA hN
  have hi21 : i = 21 := by
    have e1 : rhodeX.getD 21 0 = 158.489 := rfl
    by_contra hc
    have : rhodeX.getD (i + 1) 0 ≤ rhodeX.getD 21 0 := by
      rcases Nat.lt_or_ge (i + 1) 21 with h | h
      · exact (asc_lt rhodeX_mono h (by rw [rhodeX_length]; omega)).le
      · rw [show i + 1 = 21 by omega]
    rw [e1] at this
    norm_num at this hb
    linarith
  subst hs hi21
  have := bern_eq (x0 := 109.648) (x1 := 158.489) (x2 := 229.087) (x3 := 331.131) (y0 := 115.864) (y1 := 117.606) (y2 := 120.011) (y3 := 123.08)
      (b1 := 155524020629422653649735930361 / 1313176031043849948961674000)
      (b2 := 156583506030702973470054124129 / 1313176031043849948961674000)
      hp (hy 20 (by norm_num) (by norm_num)) (hy 21 (by norm_num) (by norm_num)) (hy 22 (by norm_num) (by norm_num)) (hy 23 (by norm_num) (by norm_num))
      (by norm_num) (by norm_num) (by norm_num) (by norm_num) (by norm_num) 200
  generalize p.eval 200 = v at this ⊢
  norm_num at this ⊢
  constructor <;> linarith

/-- The interpolation of the table as a function. -/
lemma rhode_table : ∃ I, rhodeInterp = .ok I ∧ ∃ table : ℝ → ℝ, Continuous table ∧
    (∀ J, Spec.Calls I J → ∀ t, ∃ K, J.interpolateArray t = .ok (table t, K)) ∧
    (∀ t, 0.144544 < t → t ≤ 200 → 0 < table t) ∧ 119.04 < table 200 ∧ table 200 < 119.05 := by
  have h4 : min (4 : ℤ).toNat rhodeX.length = 4 := by rw [rhodeX_length]; rfl
  have h52 : 2 ≤ rhodeX.length := by rw [rhodeX_length]; omega
  obtain ⟨I, e, g, hg, hv⟩ := C134_continuous (r := 4) rhode_length h52 (Or.inl rhodeX_mono) (by norm_num) (by rw [h4]; decide)
  obtain ⟨I', e', hv'⟩ := C134_array_partial (r := 4) rhode_length h52 (Or.inl rhodeX_mono) (by norm_num)
  rw [e] at e'
  obtain rfl : I = I' := by simpa using e'
  have hval : ∀ t, ∃ i s : ℕ, Spec.Around rhodeX t i ∧ Spec.Nearest rhodeX t 4 s i ∧ ∃ p : ℝ[X], p.natDegree < 4 ∧
      (∀ j, s ≤ j → j < s + 4 → p.eval (rhodeX.getD j 0) = rhodeY.getD j 0) ∧ g t = p.eval t := by
    intro t
    obtain ⟨i, s, hA, hN, p, hp, hy, K, hK⟩ := hv' I Spec.Calls.refl t
    obtain ⟨K', hK'⟩ := hv I Spec.Calls.refl t
    rw [hK] at hK'
    simp only [Except.ok.injEq, Prod.mk.injEq] at hK'
    rw [h4] at hN hp hy
    exact ⟨i, s, hA, hN, p, hp, hy, hK'.1.symm⟩
  refine ⟨I, e, g, hg, hv, fun t h1 h2 => ?_, ?_⟩
  · obtain ⟨i, s, hA, hN, p, hp, hy, h⟩ := hval t
    rw [h]
    exact rhode_piece h1 h2 hA hN hp hy
  · obtain ⟨i, s, hA, hN, p, hp, hy, h⟩ := hval 200
    rw [h]
    exact rhode_200 hA hN hp hy

/-- C119: the default parametrization of photoproduction with its table: the result is a function of energy and component, whatever was
calculated before. It is zero below the threshold and positive from the threshold on for nucleons of up to 1900 MeV; the table fulfils the
assumption of `C119_positive` and `C120_sigma`. -/
theorem C119_rhode : ∃ I, rhodeInterp = .ok I ∧ ∃ table : ℝ → ℝ,
    (∀ J, Spec.Calls I J → ∀ E c, ∃ K, Spec.Calls I K ∧ rhodeCall J E c = .ok (rhode table E c, K)) ∧
    (∀ E c, E < pionThreshold c → rhode table E c = 0) ∧
    (∀ c, 0 < c.averageNucleonWeight → c.averageNucleonWeight ≤ 1900 →
      (∀ x, pionThreshold c * 1e-3 ≤ x → x ≤ 200 → 0 < table x) ∧ ∀ E, pionThreshold c ≤ E → 0 < rhode table E c) := by
  obtain ⟨I, e, g, hg, hv, hpos, -⟩ := rhode_table
  refine ⟨I, e, g, fun J hJ E c => ?_, fun E c h => by simp [rhode, h], fun c hm hm' => ?_⟩
  · unfold rhodeCall rhode
    split_ifs with h1
    · exact ⟨J, hJ, rfl⟩
    · simp only
      split_ifs with h2 h3
      · exact ⟨J, hJ, rfl⟩
      · obtain ⟨K, hK⟩ := hv J hJ (E * 1e-3)
        exact ⟨K, .array hJ hK, by rw [hK]; rfl⟩
      · exact ⟨J, hJ, rfl⟩
  · have key : ∀ x, pionThreshold c * 1e-3 ≤ x → x ≤ 200 → 0 < g x := by
      intro x h1 h2
      refine hpos x (lt_of_lt_of_le ?_ h1) h2
      have : MPI * MPI / 3800 ≤ MPI * MPI / (2 * c.averageNucleonWeight) := by
        apply div_le_div_of_nonneg_left (mul_self_nonneg _) (by linarith) (by linarith)
      unfold pionThreshold
      norm_num [MPI] at this ⊢
      linarith
    exact ⟨key, fun E hE => ((C119_positive c E hm).2 hE).2.2.2.2 g key⟩

/-- The hypotheses of `C119_rhode` for oxygen. -/
example : 0 < exO.averageNucleonWeight ∧ exO.averageNucleonWeight ≤ 1900 ∧ pionThreshold exO ≤ 1000 := by
  norm_num [exO, pionThreshold, MPI]

/-- C119 fails for continuity: at 200 GeV the cross section falls by 0.3 microbarn. -/
theorem C119_rhode_200 (c : Component) (hE : pionThreshold c ≤ 200000) :
    ∃ I, rhodeInterp = .ok I ∧ ∃ σ : ℝ → ℝ, (∀ J, Spec.Calls I J → ∀ E, ∃ K, rhodeCall J E c = .ok (σ E, K)) ∧
      ∃ L, Tendsto σ (𝓝[>] 200000) (𝓝 L) ∧ 0.28 < σ 200000 - L ∧ σ 200000 - L < 0.32 := by
  obtain ⟨I, e, g, hg, hv, -, v1, v2⟩ := rhode_table
  refine ⟨I, e, fun E => rhode g E c, ?_, 49.2 + 11.1 * Real.log (200000 * 1e-3) + 151.8 / Real.sqrt (200000 * 1e-3), ?_, ?_⟩
  · intro J hJ E
    show ∃ K, rhodeCall J E c = .ok (rhode g E c, K)
    unfold rhodeCall rhode
    split_ifs with h1
    · exact ⟨J, rfl⟩
    · simp only
      split_ifs with h2 h3
      · exact ⟨J, rfl⟩
      · obtain ⟨K, hK⟩ := hv J hJ (E * 1e-3)
        exact ⟨K, by rw [hK]; rfl⟩
      · exact ⟨J, rfl⟩
  · have hc : ContinuousAt (fun E : ℝ => 49.2 + 11.1 * Real.log (E * 1e-3) + 151.8 / Real.sqrt (E * 1e-3)) 200000 := by
      have h1 : (200000 * 1e-3 : ℝ) ≠ 0 := by norm_num
      have h2 : Real.sqrt (200000 * 1e-3) ≠ 0 := (Real.sqrt_pos.2 (by norm_num)).ne'
      fun_prop (disch := assumption)
    refine (hc.tendsto.mono_left nhdsWithin_le_nhds).congr' ?_
    filter_upwards [self_mem_nhdsWithin] with E h1
    have h1 : 200000 < E := h1
    have hn : ¬ E < pionThreshold c := not_lt.2 (hE.trans h1.le)
    unfold rhode caldwell
    rw [if_neg hn, if_neg hn]
    simp only
    rw [if_neg (by norm_num; linarith), if_neg (by norm_num; linarith)]
  · have hval : rhode g 200000 c = g 200 := by
      unfold rhode
      rw [if_neg (not_lt.2 hE)]
      simp only
      rw [if_neg (by norm_num), if_pos (by norm_num), show (200000 * 1e-3 : ℝ) = 200 by norm_num]
      exact max_eq_left (by norm_num at v1; linarith)
    have h200 : (200000 * 1e-3 : ℝ) = 200 := by norm_num
    show 0.28 < rhode g 200000 c - _ ∧ rhode g 200000 c - _ < 0.32
    rw [hval, h200]
    have s1 : 14.142 < Real.sqrt 200 := Real.lt_sqrt_of_sq_lt (by norm_num)
    have s2 : Real.sqrt 200 < 14.143 := by rw [Real.sqrt_lt' (by norm_num)]; norm_num
    have q1 : 151.8 / Real.sqrt 200 < 10.735 := by rw [div_lt_iff₀ (by positivity)]; norm_num at s1 ⊢; linarith
    have q2 : 10.733 < 151.8 / Real.sqrt 200 := by rw [lt_div_iff₀ (by positivity)]; norm_num at s2 ⊢; linarith
    have t1 := Real.log_two_gt_d9
    have t2 := Real.log_two_lt_d9
    have h5 : 3 * Real.log 5 = 7 * Real.log 2 + Real.log (125 / 128) := by
      have e1 : 3 * Real.log 5 = Real.log 125 := by
        rw [show (125 : ℝ) = 5 ^ 3 by norm_num, Real.log_pow]; norm_num
      have e2 : 7 * Real.log 2 = Real.log 128 := by
        rw [show (128 : ℝ) = 2 ^ 7 by norm_num, Real.log_pow]; norm_num
      rw [e1, e2, Real.log_div (by norm_num) (by norm_num)]
      ring
    have b1 := Real.log_le_sub_one_of_pos (show (0 : ℝ) < 125 / 128 by norm_num)
    have b2 := Real.one_sub_inv_le_log_of_pos (show (0 : ℝ) < 125 / 128 by norm_num)
    have hl : Real.log 200 = 3 * Real.log 2 + 2 * Real.log 5 := by
      rw [show (200 : ℝ) = 2 ^ 3 * 5 ^ 2 by norm_num, Real.log_mul (by norm_num) (by norm_num), Real.log_pow, Real.log_pow]
      norm_num
    rw [hl]
    norm_num at v1 v2 q1 q2 b1 b2 t1 t2 ⊢
    constructor <;> linarith

end Proposal
