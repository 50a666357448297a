import Verif.Model.Bicubic
import Verif.Props.SurfaceApprox
import Verif.Props.Tangent
import Verif.Lemmas.UniformKnot
import Verif.Lemmas.VolumeSplit
import Verif.Lemmas.Octree

/-!
# C137: local bicubic interpolation of a grid (Geometry/Surface/NurbsSurface.cpp:2237-2447)
-/
set_option linter.unusedSectionVars false

namespace LNLib.Props
open LNLib Res LNLib.Spec Finset

/-- column `j` of a grid with `r` rows -/
def gridColumn {α : Type} [Zero α] (pts : List (List α)) (r j : ℕ) : List α := (List.range r).map fun i => ent pts i j

theorem getColumn_run {α : Type} [Zero α] {pts : List (List α)} {r c j : ℕ} (h : IsMat pts r c) (hj : j < c) : getColumn pts j = ok (gridColumn pts r j) := by
  unfold getColumn
  apply Runs.eq
  rw [h.1]
  refine (Runs.forN (m := 0) (n := r) (fun k (x : List α) => x.length = r ∧ ∀ i, i < k → nth x i = ent pts i j) rfl rfl (by omega)
    ⟨List.length_replicate, fun i hi => by omega⟩ ?_).mono ?_
  · rintro k x - hk ⟨g1, g2⟩
    rw [mget_ent (a := k) (b := j) h rfl rfl hk hj, ok_bind, vset_of rfl (by omega)]
    refine Runs.ok ⟨by rw [List.length_set]; exact g1, fun i hi => ?_⟩
    rw [nth_set (by omega)]
    split_ifs with e
    · rw [e]
    · exact g2 i (by omega)
  · rintro x ⟨g1, g2⟩
    refine ext_nth (by simp [gridColumn, g1]) fun i hi => ?_
    rw [g2 i (by omega)]
    unfold gridColumn
    rw [nth_mapRange (by omega)]

section
variable {K : Type} [Field K] [LinearOrder K] [IsStrictOrderedRing K]

/-- the sums over all lines of the distances of points `k + 1` and `k` -/
def sumDist (dist : XYZ K → XYZ K → K) (lines : List (List (XYZ K))) (L k : ℕ) : K := ∑ l ∈ range L, dist (ent lines l (k + 1)) (ent lines l k)

theorem bicubicSums_run {tangent : List (XYZ K) → Res (List (XYZ K))} {dist : XYZ K → XYZ K → K} {lines : List (List (XYZ K))} {L n : ℕ} (h : IsMat lines L (n + 1))
    (ht : ∀ l, l < L → Runs (tangent (row lines l)) (fun T => T.length = n + 1)) :
    Runs (bicubicSums tangent dist lines ((n : ℤ) + 1)) (fun st => IsMat st.1 L (n + 1) ∧ st.2.1.length = n + 1 ∧ nth st.2.1 0 = 0 ∧
      (∀ k, k < n → nth st.2.1 (k + 1) = sumDist dist lines L k) ∧ st.2.2 = ∑ k ∈ range n, sumDist dist lines L k) := by
  unfold bicubicSums
  rw [h.1, show ((n : ℤ) + 1).toNat = n + 1 by omega]
  refine (Runs.forN (m := 0) (n := L) (fun l (st : List (List (XYZ K)) × List K × K) => IsMat st.1 l (n + 1) ∧ st.2.1.length = n + 1 ∧ nth st.2.1 0 = 0 ∧
      (∀ k, k < n → nth st.2.1 (k + 1) = sumDist dist lines l k) ∧ st.2.2 = ∑ k ∈ range n, sumDist dist lines l k) rfl rfl (by omega)
      ⟨⟨rfl, fun i hi => by omega⟩, List.length_replicate, by simp [nth], fun k hk => by rw [nth_eq_getElem (by simp; omega)]; simp [sumDist], by simp [sumDist]⟩ ?_).mono (fun _ h => h)
  rintro l ⟨td, sums, total⟩ - hl ⟨g1, g2, g3, g4, g5⟩
  dsimp only at *
  rw [vget_row (k := l) rfl (by rw [h.1]; exact hl), ok_bind]
  refine Runs.bind (ht l hl) fun T hT => ?_
  have hline := h.2 l hl
  refine Runs.bind (Q := fun (st : List (XYZ K) × List K × K) => st.1.length = n + 1 ∧ st.2.1.length = n + 1 ∧ nth st.2.1 0 = 0 ∧
    (∀ k, k < n → nth st.2.1 (k + 1) = sumDist dist lines (l + 1) k) ∧ st.2.2 = ∑ k ∈ range n, dist (ent lines l (k + 1)) (ent lines l k)) ?_ ?_
  · refine (Runs.forN (m := 0) (n := n + 1) (fun k (st : List (XYZ K) × List K × K) => st.1.length = k ∧ st.2.1.length = n + 1 ∧ nth st.2.1 0 = 0 ∧
      (∀ i, i < n → nth st.2.1 (i + 1) = if i + 1 < k then sumDist dist lines (l + 1) i else sumDist dist lines l i) ∧
      st.2.2 = ∑ i ∈ range (k - 1), dist (ent lines l (i + 1)) (ent lines l i)) rfl (by push_cast; rfl) (by omega)
      ⟨rfl, g2, g3, fun i hi => by rw [if_neg (by omega), g4 i hi], by simp⟩ ?_).mono ?_
    · rintro k ⟨td1, sums, r⟩ - hk ⟨q1, q2, q3, q4, q5⟩
      dsimp only at *
      rw [vget_nth (k := k) rfl (by omega), ok_bind]
      obtain rfl | ⟨k, rfl⟩ : k = 0 ∨ ∃ k', k = k' + 1 := by cases k; exacts [Or.inl rfl, Or.inr ⟨_, rfl⟩]
      · rw [if_neg (by omega)]
        exact Runs.ok ⟨by simp [q1], q2, q3, fun i hi => by rw [q4 i hi, if_neg (by omega), if_neg (by omega)], q5⟩
      · rw [if_pos (by omega), vget_nth (k := k + 1) rfl (by omega), ok_bind, vget_nth (k := k) (by omega) (by omega), ok_bind, vget_nth (k := k + 1) rfl (by omega), ok_bind,
          vset_of (k := k + 1) rfl (by omega), ok_bind]
        refine Runs.ok ⟨by simp [q1], by simp [q2], ?_, fun i hi => ?_, ?_⟩
        · dsimp only
          rw [nth_set (by omega), if_neg (by omega), q3]
        · dsimp only
          rw [nth_set (by omega)]
          by_cases e : i = k
          · subst e
            rw [if_pos rfl, if_pos (by omega), q4 i hi, if_neg (by omega)]
            unfold sumDist
            rw [sum_range_succ]
            rfl
          · rw [if_neg (by omega), q4 i hi]
            by_cases e' : i < k
            · rw [if_pos (by omega), if_pos (by omega)]
            · rw [if_neg (by omega), if_neg (by omega)]
        · dsimp only
          rw [q5, show k + 1 + 1 - 1 = k + 1 by omega, show k + 1 - 1 = k by omega, sum_range_succ]
          rfl
    · rintro ⟨td1, sums, r⟩ ⟨q1, q2, q3, q4, q5⟩
      exact ⟨q1, q2, q3, fun k hk => by rw [q4 k hk, if_pos (by omega)], q5⟩
  · rintro ⟨td1, sums, r⟩ ⟨q1, q2, q3, q4, q5⟩
    dsimp only at *
    refine Runs.ok ⟨⟨by simp [g1.1], fun i hi => ?_⟩, q2, q3, q4, ?_⟩
    · dsimp only
      by_cases e : i = l
      · subst e
        unfold row
        rw [List.getD_eq_getElem?_getD, List.getElem?_append_right (by rw [g1.1]), g1.1, Nat.sub_self]
        exact q1
      · rw [← g1.2 i (by omega)]
        unfold row
        rw [List.getD_eq_getElem?_getD, List.getD_eq_getElem?_getD, List.getElem?_append_left (by rw [g1.1]; omega)]
    · dsimp only
      rw [g5, q5, ← sum_add_distrib]
      refine sum_congr rfl fun k _ => ?_
      unfold sumDist
      rw [sum_range_succ]

theorem bicubicParams_run {sums : List K} {total : K} {n : ℕ} (hl : sums.length = n + 1) (hn : 1 ≤ n) (h0 : nth sums 0 = 0) (ht : 0 < total) :
    Runs (bicubicParams sums total (n : ℤ)) (fun ub => ub.length = n + 1 ∧ (∀ k, k < n → nth ub k = (∑ i ∈ range k, nth sums (i + 1)) / total) ∧ nth ub n = 1) := by
  unfold bicubicParams
  rw [if_pos ht]
  refine Runs.bind (Q := fun (ub : List K) => ub.length = n + 1 ∧ ∀ k, k < n → nth ub k = (∑ i ∈ range k, nth sums (i + 1)) / total) ?_ ?_
  · refine (Runs.forN (m := 1) (n := n) (fun j (ub : List K) => ub.length = n + 1 ∧ (∀ k, k < j → nth ub k = (∑ i ∈ range k, nth sums (i + 1)) / total) ∧
      ∀ k, j ≤ k → k ≤ n → nth ub k = nth sums k) rfl rfl hn ⟨hl, fun k hk => ?_, fun k _ _ => rfl⟩ ?_).mono fun _ h => ⟨h.1, h.2.1⟩
    · obtain rfl : k = 0 := by omega
      simp [h0]
    · rintro k ub h1 hk ⟨q1, q2, q3⟩
      obtain ⟨k, rfl⟩ : ∃ k', k = k' + 1 := ⟨k - 1, by omega⟩
      rw [vget_nth (k := k) (by omega) (by omega), ok_bind, vget_nth (k := k + 1) rfl (by omega), ok_bind, fdiv_ok ht.ne', ok_bind, vset_of (k := k + 1) rfl (by omega)]
      refine Runs.ok ⟨by simp [q1], fun i hi => ?_, fun i hi hi' => ?_⟩
      · rw [nth_set (by omega)]
        split_ifs with e
        · rw [e, q2 k (by omega), q3 (k + 1) le_rfl (by omega), sum_range_succ, add_div]
        · exact q2 i (by omega)
      · rw [nth_set (by omega), if_neg (by omega), q3 i (by omega) hi']
  · rintro ub ⟨q1, q2⟩
    dsimp only
    rw [vset_of (k := n) rfl (by omega)]
    refine Runs.ok ⟨by simp [q1], fun k hk => ?_, ?_⟩
    · rw [nth_set (by omega), if_neg (by omega), q2 k hk]
    · rw [nth_set (by omega), if_pos rfl]

theorem bicubicLine_run {points T : List (XYZ K)} {u : List K} {len : K} {n : ℕ} (hp : points.length = n + 1) (hT : T.length = n + 1) (hu : u.length = n + 1) :
    Runs (bicubicLine points T u len) (fun temp => temp.length = 3 * n + 1 ∧ ∀ j, j ≤ n → nth temp (3 * j) = nth points j) := by
  unfold bicubicLine
  rw [hp]
  refine Runs.bind (Q := fun (temp : List (XYZ K)) => temp.length = 3 * n + 1 ∧ ∀ j, j ≤ n → nth temp (3 * j) = nth points j) ?_ ?_
  · refine (Runs.forN (m := 0) (n := n + 1) (fun k (temp : List (XYZ K)) => temp.length = 3 * n + 1 ∧ ∀ j, j < k → nth temp (3 * j) = nth points j) rfl (by push_cast; rfl) (by omega)
      ⟨by rw [List.length_replicate]; omega, fun j hj => by omega⟩ ?_).mono fun _ h => ⟨h.1, fun j hj => h.2 j (by omega)⟩
    rintro k temp - hk ⟨g1, g2⟩
    rw [vget_nth (k := k) rfl (by omega), ok_bind, vset_of (k := 3 * k) (by push_cast; rfl) (by omega)]
    refine Runs.ok ⟨by simp [g1], fun j hj => ?_⟩
    rw [nth_set (by omega)]
    by_cases e : j = k
    · rw [if_pos (by omega), e]
    · rw [if_neg (by omega), g2 j (by omega)]
  · rintro temp ⟨g1, g2⟩
    refine (Runs.forN (m := 0) (n := n) (fun _ (temp : List (XYZ K)) => temp.length = 3 * n + 1 ∧ ∀ j, j ≤ n → nth temp (3 * j) = nth points j) rfl (by push_cast; ring) (by omega)
      ⟨g1, g2⟩ ?_).mono (fun _ h => h)
    rintro k temp - hk ⟨g1, g2⟩
    rw [vget_nth (k := k + 1) (by omega) (by omega), ok_bind, vget_nth (k := k) rfl (by omega), ok_bind]
    dsimp only
    rw [vget_nth (k := k) rfl (by omega), ok_bind, vget_nth (k := k) rfl (by omega), ok_bind, vset_of (k := 3 * k + 1) (by push_cast; rfl) (by omega), ok_bind,
      vget_nth (k := k + 1) (by omega) (by omega), ok_bind, vset_of (k := 3 * k + 2) (by push_cast; rfl) (by rw [List.length_set]; omega)]
    refine Runs.ok ⟨by simp [g1], fun j hj => ?_⟩
    rw [nth_set (by rw [List.length_set]; omega), if_neg (by omega), nth_set (by omega), if_neg (by omega), g2 j hj]

theorem bicubicTwists_run {tu tv : ℤ → ℤ → Res (XYZ K)} {ub vb : List K} {n m : ℕ} (hu : ub.length = n + 1) (hv : vb.length = m + 1)
    (htu : ∀ k l : ℕ, k ≤ n → l ≤ m → ∃ x, tu k l = ok x) (htv : ∀ k l : ℕ, k ≤ n → l ≤ m → ∃ x, tv k l = ok x)
    (iu : ∀ k, k < n → nth ub k < nth ub (k + 1)) (iv : ∀ k, k < m → nth vb k < nth vb (k + 1)) (hn : 1 ≤ n) (hm : 1 ≤ m) :
    Runs (bicubicTwists tu tv ub vb (n : ℤ) (m : ℤ)) (fun tw => IsMat tw (n + 1) (m + 1)) := by
  unfold bicubicTwists
  rw [show ((n : ℤ) + 1).toNat = n + 1 by omega, show ((m : ℤ) + 1).toNat = m + 1 by omega]
  refine (Runs.forN (m := 1) (n := n) (fun _ (tw : List (List (XYZ K))) => IsMat tw (n + 1) (m + 1)) rfl rfl hn isMat_replicate ?_).mono (fun _ h => h)
  rintro k tw h1 hk g
  obtain ⟨k, rfl⟩ : ∃ k', k = k' + 1 := ⟨k - 1, by omega⟩
  rw [vget_nth (k := k + 1) rfl (by omega), ok_bind, vget_nth (k := k) (by omega) (by omega), ok_bind, vget_nth (k := k + 2) (by omega) (by omega), ok_bind]
  have u1 := iu k (by omega)
  have u2 := iu (k + 1) hk
  rw [show k + 1 + 1 = k + 2 by omega] at u2
  rw [fdiv_ok (by linarith), ok_bind]
  refine (Runs.forN (m := 1) (n := m) (fun _ (tw : List (List (XYZ K))) => IsMat tw (n + 1) (m + 1)) rfl rfl hm g ?_).mono (fun _ h => h)
  rintro l tw h1 hl g
  obtain ⟨l, rfl⟩ : ∃ l', l = l' + 1 := ⟨l - 1, by omega⟩
  rw [vget_nth (k := l + 1) rfl (by omega), ok_bind, vget_nth (k := l) (by omega) (by omega), ok_bind, vget_nth (k := l + 2) (by omega) (by omega), ok_bind]
  have v1 := iv l (by omega)
  have v2 := iv (l + 1) hl
  rw [show l + 1 + 1 = l + 2 by omega] at v2
  obtain ⟨c1, e1⟩ := htv (k + 1) (l + 1) (by omega) (by omega)
  obtain ⟨c0, e0⟩ := htv k (l + 1) (by omega) (by omega)
  obtain ⟨c2, e2⟩ := htv (k + 2) (l + 1) (by omega) (by omega)
  obtain ⟨d1, f1⟩ := htu (k + 1) (l + 1) (by omega) (by omega)
  obtain ⟨d0, f0⟩ := htu (k + 1) l (by omega) (by omega)
  obtain ⟨d2, f2⟩ := htu (k + 1) (l + 2) (by omega) (by omega)
  rw [fdiv_ok (by linarith), ok_bind, e1, ok_bind, show ((k + 1 : ℕ) : ℤ) - 1 = (k : ℕ) by omega, e0, ok_bind, show ((k + 1 : ℕ) : ℤ) + 1 = (k + 2 : ℕ) by push_cast; ring, e2, ok_bind,
    vdiv_ok (by linarith), ok_bind, vdiv_ok (by linarith), ok_bind, f1, ok_bind, show ((l + 1 : ℕ) : ℤ) - 1 = (l : ℕ) by omega, f0, ok_bind,
    show ((l + 1 : ℕ) : ℤ) + 1 = (l + 2 : ℕ) by push_cast; ring, f2, ok_bind, vdiv_ok (by linarith), ok_bind, vdiv_ok (by linarith), ok_bind]
  have ha : 0 < (nth ub (k + 1) - nth ub k) / (nth ub (k + 1) - nth ub k + (nth ub (k + 2) - nth ub (k + 1))) := div_pos (by linarith) (by linarith)
  have hb : 0 < (nth vb (l + 1) - nth vb l) / (nth vb (l + 1) - nth vb l + (nth vb (l + 2) - nth vb (l + 1))) := div_pos (by linarith) (by linarith)
  rw [vdiv_ok (by linarith), ok_bind]
  obtain ⟨tw', e, q1, -⟩ := mset_ok (x := _) g (i := ((k + 1 : ℕ) : ℤ)) (j := ((l + 1 : ℕ) : ℤ)) rfl rfl (by omega) (by omega)
  exact ⟨tw', e, q1⟩

theorem bicubicInner_run {tw B : List (List (XYZ K))} {ub vb : List K} {n m : ℕ} (htw : IsMat tw (n + 1) (m + 1)) (hu : ub.length = n + 1) (hv : vb.length = m + 1)
    (hB : IsMat B (3 * n + 1) (3 * m + 1)) :
    Runs (bicubicInner tw ub vb (n : ℤ) (m : ℤ) B) (fun B' => IsMat B' (3 * n + 1) (3 * m + 1) ∧ ∀ i j, i ≤ n → j ≤ m → ent B' (3 * i) (3 * j) = ent B (3 * i) (3 * j)) := by
  unfold bicubicInner
  refine (Runs.forN (m := 0) (n := n) (fun _ (B' : List (List (XYZ K))) => IsMat B' (3 * n + 1) (3 * m + 1) ∧ ∀ i j, i ≤ n → j ≤ m → ent B' (3 * i) (3 * j) = ent B (3 * i) (3 * j))
    rfl rfl (by omega) ⟨hB, fun _ _ _ _ => rfl⟩ ?_).mono (fun _ h => h)
  rintro k B1 - hk ⟨g1, g2⟩
  refine (Runs.forN (m := 0) (n := m) (fun _ (B' : List (List (XYZ K))) => IsMat B' (3 * n + 1) (3 * m + 1) ∧ ∀ i j, i ≤ n → j ≤ m → ent B' (3 * i) (3 * j) = ent B (3 * i) (3 * j))
    rfl rfl (by omega) ⟨g1, g2⟩ ?_).mono (fun _ h => h)
  rintro l B2 - hl ⟨g1, g2⟩
  rw [vget_nth (k := k + 1) (by omega) (by omega), ok_bind, vget_nth (k := k) rfl (by omega), ok_bind, vget_nth (k := l + 1) (by omega) (by omega), ok_bind,
    vget_nth (k := l) rfl (by omega), ok_bind]
  dsimp only
  rw [mget_ent (a := k) (b := l) htw rfl rfl (by omega) (by omega), ok_bind, mget_ent (a := 3 * k) (b := 3 * l + 1) g1 (by push_cast; rfl) (by push_cast; rfl) (by omega) (by omega), ok_bind,
    mget_ent (a := 3 * k + 1) (b := 3 * l) g1 (by push_cast; rfl) (by push_cast; rfl) (by omega) (by omega), ok_bind,
    mget_ent (a := 3 * k) (b := 3 * l) g1 (by push_cast; rfl) (by push_cast; rfl) (by omega) (by omega), ok_bind]
  have keep : ∀ {A : List (List (XYZ K))} {x : XYZ K} {a b : ℕ} {i' j' : ℤ}, IsMat A (3 * n + 1) (3 * m + 1) → (∀ i j, i ≤ n → j ≤ m → ent A (3 * i) (3 * j) = ent B (3 * i) (3 * j)) →
      i' = a → j' = b → a % 3 ≠ 0 → a < 3 * n + 1 → b < 3 * m + 1 →
      Runs (mset A i' j' x) (fun A' => IsMat A' (3 * n + 1) (3 * m + 1) ∧ ∀ i j, i ≤ n → j ≤ m → ent A' (3 * i) (3 * j) = ent B (3 * i) (3 * j)) := by
    intro A x a b i' j' hA hk hi hj h3 ha hb
    obtain ⟨A', e, q1, q2⟩ := mset_ok (x := x) hA hi hj ha hb
    exact ⟨A', e, q1, fun i j hi hj => by rw [q2, if_neg (by omega), hk i j hi hj]⟩
  refine Runs.bind (keep (a := 3 * k + 1) (b := 3 * l + 1) g1 g2 (by push_cast; rfl) (by push_cast; rfl) (by omega) (by omega) (by omega)) ?_
  rintro B3 ⟨g1, g2⟩
  rw [mget_ent (a := k + 1) (b := l) htw (by omega) rfl (by omega) (by omega), ok_bind, mget_ent (a := 3 * k + 3) (b := 3 * l + 1) g1 (by push_cast; rfl) (by push_cast; rfl) (by omega) (by omega), ok_bind,
    mget_ent (a := 3 * k + 3) (b := 3 * l) g1 (by push_cast; rfl) (by push_cast; rfl) (by omega) (by omega), ok_bind,
    mget_ent (a := 3 * k + 2) (b := 3 * l) g1 (by push_cast; rfl) (by push_cast; rfl) (by omega) (by omega), ok_bind]
  refine Runs.bind (keep (a := 3 * k + 2) (b := 3 * l + 1) g1 g2 (by push_cast; rfl) (by push_cast; rfl) (by omega) (by omega) (by omega)) ?_
  rintro B4 ⟨g1, g2⟩
  rw [mget_ent (a := k) (b := l + 1) htw rfl (by omega) (by omega) (by omega), ok_bind, mget_ent (a := 3 * k + 1) (b := 3 * l + 3) g1 (by push_cast; rfl) (by push_cast; rfl) (by omega) (by omega), ok_bind,
    mget_ent (a := 3 * k) (b := 3 * l + 3) g1 (by push_cast; rfl) (by push_cast; rfl) (by omega) (by omega), ok_bind,
    mget_ent (a := 3 * k) (b := 3 * l + 2) g1 (by push_cast; rfl) (by push_cast; rfl) (by omega) (by omega), ok_bind]
  refine Runs.bind (keep (a := 3 * k + 1) (b := 3 * l + 2) g1 g2 (by push_cast; rfl) (by push_cast; rfl) (by omega) (by omega) (by omega)) ?_
  rintro B5 ⟨g1, g2⟩
  rw [mget_ent (a := k + 1) (b := l + 1) htw (by omega) (by omega) (by omega) (by omega), ok_bind, mget_ent (a := 3 * k + 2) (b := 3 * l + 3) g1 (by push_cast; rfl) (by push_cast; rfl) (by omega) (by omega), ok_bind,
    mget_ent (a := 3 * k + 3) (b := 3 * l + 2) g1 (by push_cast; rfl) (by push_cast; rfl) (by omega) (by omega), ok_bind,
    mget_ent (a := 3 * k + 3) (b := 3 * l + 3) g1 (by push_cast; rfl) (by push_cast; rfl) (by omega) (by omega), ok_bind]
  exact keep (a := 3 * k + 2) (b := 3 * l + 2) g1 g2 (by push_cast; rfl) (by push_cast; rfl) (by omega) (by omega) (by omega)

theorem getIndex_run (s : ℕ) : getIndex s = ok ((List.range s).map fun i : ℕ => (3 * (i : ℤ))) := by
  unfold getIndex
  have := forI_append (s := ([] : List ℤ)) (rd := fun i => ok (3 * i)) (f := fun i : ℕ => (3 * (i : ℤ))) (n := (s : ℤ)) (m := s) rfl fun i _ => rfl
  simpa using this

theorem bicubicFilter_run {B : List (List (XYZ K))} {n m : ℕ} (hB : IsMat B (3 * n + 1) (3 * m + 1)) :
    bicubicFilter B ((List.range (n + 1)).map fun i : ℕ => (3 * (i : ℤ))) ((List.range (m + 1)).map fun i : ℕ => (3 * (i : ℤ))) =
      ok (tab (n + 1) (m + 1) fun i j => ent B (3 * i) (3 * j)) := by
  unfold bicubicFilter
  rw [List.length_map, List.length_range, List.length_map, List.length_range]
  have := forI_append (s := ([] : List (List (XYZ K)))) (n := ((n + 1 : ℕ) : ℤ)) (m := n + 1) (rd := fun i => forI 0 ((m + 1 : ℕ) : ℤ) [] fun j newRow => do
      let a ← vget ((List.range (n + 1)).map fun i : ℕ => (3 * (i : ℤ))) i
      let b ← vget ((List.range (m + 1)).map fun i : ℕ => (3 * (i : ℤ))) j
      let x ← mget B a b
      ok (newRow ++ [x])) (f := fun i => (List.range (m + 1)).map fun j => ent B (3 * i) (3 * j)) rfl ?_
  · rw [this, List.nil_append]
    rfl
  · intro i hi
    have := forI_append (s := ([] : List (XYZ K))) (n := ((m + 1 : ℕ) : ℤ)) (m := m + 1) (rd := fun j => do
      let a ← vget ((List.range (n + 1)).map fun i : ℕ => (3 * (i : ℤ))) i
      let b ← vget ((List.range (m + 1)).map fun i : ℕ => (3 * (i : ℤ))) j
      mget B a b) (f := fun j => ent B (3 * i) (3 * j)) rfl ?_
    · rw [List.nil_append] at this
      rw [← this]
      congr 1
      funext j acc
      simp only [bind_assoc']
    · intro j hj
      rw [vget_nth (k := i) rfl (by simp; omega), ok_bind, vget_nth (k := j) rfl (by simp; omega), ok_bind, nth_mapRange (by omega), nth_mapRange (by omega),
        mget_ent (a := 3 * i) (b := 3 * j) hB (by push_cast; rfl) (by push_cast; rfl) (by omega) (by omega)]

theorem bicubicKnots_run {ub : List K} {n : ℕ} (hu : ub.length = n + 1) (hn : 3 ≤ n) :
    Runs (bicubicKnots ub ((n : ℤ) + 1)) (fun kv => kv.length = n + 3 + 2 ∧ (∀ i, i ≤ 3 → nth kv i = 0) ∧ (∀ i, 3 < i → i ≤ n → nth kv i = nth ub (i - 3)) ∧
      ∀ i, n + 1 ≤ i → i ≤ n + 3 + 1 → nth kv i = 1) := by
  unfold bicubicKnots
  rw [show ((n : ℤ) + 1 + 3 + 1).toNat = n + 5 by omega]
  refine Runs.bind (Q := fun (kv : List K) => kv.length = n + 5 ∧ ∀ i, i ≤ 3 → nth kv i = 0) ?_ ?_
  · refine (Runs.forN (m := 0) (n := 4) (fun _ (kv : List K) => kv.length = n + 5 ∧ ∀ i, i ≤ 3 → nth kv i = 0) rfl rfl (by omega)
      ⟨List.length_replicate, fun i hi => by rw [nth_eq_getElem (by simp; omega)]; simp⟩ ?_).mono (fun _ h => h)
    rintro k kv - hk ⟨g1, g2⟩
    rw [vset_of (k := k) rfl (by omega)]
    refine Runs.ok ⟨by simp [g1], fun i hi => ?_⟩
    rw [nth_set (by omega)]
    split_ifs
    · rfl
    · exact g2 i hi
  · rintro kv ⟨g1, g2⟩
    refine Runs.bind (Q := fun (kv : List K) => kv.length = n + 5 ∧ (∀ i, i ≤ 3 → nth kv i = 0) ∧ ∀ i, 3 < i → i ≤ n → nth kv i = nth ub (i - 3)) ?_ ?_
    · refine (Runs.forN (m := 1) (n := n - 2) (fun k (kv : List K) => kv.length = n + 5 ∧ (∀ i, i ≤ 3 → nth kv i = 0) ∧ ∀ i, 3 < i → i < k + 3 → nth kv i = nth ub (i - 3))
        rfl (by omega) (by omega) ⟨g1, g2, fun i h1 h2 => by omega⟩ ?_).mono fun _ h => ⟨h.1, h.2.1, fun i h1 h2 => h.2.2 i h1 (by omega)⟩
      rintro k kv h1 hk ⟨g1, g2, g3⟩
      rw [vget_nth (k := k) rfl (by omega), ok_bind, vset_of (k := 3 + k) (by push_cast; rfl) (by omega)]
      refine Runs.ok ⟨by simp [g1], fun i hi => ?_, fun i h1 h2 => ?_⟩
      · rw [nth_set (by omega), if_neg (by omega), g2 i hi]
      · rw [nth_set (by omega)]
        split_ifs with e
        · rw [e]; congr 1; omega
        · exact g3 i h1 (by omega)
    · rintro kv ⟨g1, g2, g3⟩
      refine (Runs.forN (m := n + 1) (n := n + 5) (fun k (kv : List K) => kv.length = n + 5 ∧ (∀ i, i ≤ 3 → nth kv i = 0) ∧ (∀ i, 3 < i → i ≤ n → nth kv i = nth ub (i - 3)) ∧
        ∀ i, n + 1 ≤ i → i < k → nth kv i = 1) (by push_cast; rfl) (by rw [g1]) (by omega) ⟨g1, g2, g3, fun i h1 h2 => by omega⟩ ?_).mono
        fun _ h => ⟨h.1, h.2.1, h.2.2.1, fun i h1 h2 => h.2.2.2 i h1 (by omega)⟩
      rintro k kv h1 hk ⟨g1, g2, g3, g4⟩
      rw [vset_of (k := k) rfl (by omega)]
      refine Runs.ok ⟨by simp [g1], fun i hi => ?_, fun i h1 h2 => ?_, fun i h1 h2 => ?_⟩
      · rw [nth_set (by omega), if_neg (by omega), g2 i hi]
      · rw [nth_set (by omega), if_neg (by omega), g3 i h1 h2]
      · rw [nth_set (by omega)]
        split_ifs with e
        · rfl
        · exact g4 i h1 (by omega)

/-- The rows and columns of a square grid have tangents and lengths, and neighbours are apart. -/
structure GridRuns (tangent : List (XYZ K) → Res (List (XYZ K))) (dist : XYZ K → XYZ K → K) (totalLength : List (XYZ K) → Res K) (pts : List (List (XYZ K))) (R : ℕ) : Prop where
  mat : IsMat pts (R + 1) (R + 1)
  rows : ∀ i, i ≤ R → Runs (tangent (row pts i)) (fun T => T.length = R + 1)
  cols : ∀ j, j ≤ R → Runs (tangent (gridColumn pts (R + 1) j)) (fun T => T.length = R + 1)
  rowLen : ∀ i, i ≤ R → ∃ x, totalLength (row pts i) = ok x
  colLen : ∀ j, j ≤ R → ∃ x, totalLength (gridColumn pts (R + 1) j) = ok x
  apartU : ∀ i j, i < R → j ≤ R → 0 < dist (ent pts (i + 1) j) (ent pts i j)
  apartV : ∀ i j, i ≤ R → j < R → 0 < dist (ent pts i (j + 1)) (ent pts i j)

/-- share of the steps before row `k` in all steps from row to row -/
def shareU (dist : XYZ K → XYZ K → K) (pts : List (List (XYZ K))) (R k : ℕ) : K :=
  (∑ i ∈ range k, ∑ l ∈ range (R + 1), dist (ent pts (i + 1) l) (ent pts i l)) / ∑ i ∈ range R, ∑ l ∈ range (R + 1), dist (ent pts (i + 1) l) (ent pts i l)

/-- share of the steps before column `k` in all steps from column to column -/
def shareV (dist : XYZ K → XYZ K → K) (pts : List (List (XYZ K))) (R k : ℕ) : K :=
  (∑ i ∈ range k, ∑ l ∈ range (R + 1), dist (ent pts l (i + 1)) (ent pts l i)) / ∑ i ∈ range R, ∑ l ∈ range (R + 1), dist (ent pts l (i + 1)) (ent pts l i)

theorem share_mono {f : ℕ → K} {R : ℕ} (h : ∀ i, i < R → 0 < f i) (hR : 1 ≤ R) :
    0 < ∑ i ∈ range R, f i ∧ (∀ k, k < R → (∑ i ∈ range k, f i) / ∑ i ∈ range R, f i < (∑ i ∈ range (k + 1), f i) / ∑ i ∈ range R, f i) := by
  have hp : 0 < ∑ i ∈ range R, f i := sum_pos (fun i hi => h i (mem_range.mp hi)) ⟨0, mem_range.mpr (by omega)⟩
  refine ⟨hp, fun k hk => ?_⟩
  rw [sum_range_succ]
  exact div_lt_div_of_pos_right (by have := h k hk; linarith) hp

/-- the parameters of one direction -/
theorem lines_params {tangent : List (XYZ K) → Res (List (XYZ K))} {dist : XYZ K → XYZ K → K} {lines : List (List (XYZ K))} {L n : ℕ} (h : IsMat lines L (n + 1))
    (ht : ∀ l, l < L → Runs (tangent (row lines l)) (fun T => T.length = n + 1)) (hn : 1 ≤ n) (hd : ∀ k, k < n → 0 < sumDist dist lines L k) :
    ∃ td sums total ub, bicubicSums tangent dist lines ((n : ℤ) + 1) = ok (td, sums, total) ∧ bicubicParams sums total (n : ℤ) = ok ub ∧ IsMat td L (n + 1) ∧ ub.length = n + 1 ∧
      (∀ k, k ≤ n → nth ub k = (∑ i ∈ range k, sumDist dist lines L i) / ∑ i ∈ range n, sumDist dist lines L i) ∧ ∀ k, k < n → nth ub k < nth ub (k + 1) := by
  obtain ⟨⟨td, sums, total⟩, e, g1, g2, g3, g4, g5⟩ := bicubicSums_run (dist := dist) h ht
  dsimp only at *
  obtain ⟨hp, hi⟩ := share_mono hd hn
  obtain ⟨ub, e', q1, q2, q3⟩ := bicubicParams_run g2 hn g3 (total := total) (by rw [g5]; exact hp)
  have hub : ∀ k, k ≤ n → nth ub k = (∑ i ∈ range k, sumDist dist lines L i) / ∑ i ∈ range n, sumDist dist lines L i := by
    intro k hk
    by_cases c : k = n
    · rw [c, q3, div_self hp.ne']
    · rw [q2 k (by omega), g5]
      congr 1
      exact sum_congr rfl fun i hi => g4 i (by have := mem_range.mp hi; omega)
  refine ⟨td, sums, total, ub, e, e', g1, q1, hub, fun k hk => ?_⟩
  rw [hub k (by omega), hub (k + 1) (by omega)]
  exact hi k hk

theorem row_replace {α : Type} [Zero α] {B : List (List α)} {r c : ℕ} (h : IsMat B r c) {i : ℕ} (hi : i < r) {x : List α} (hx : x.length = c) :
    IsMat (B.set i x) r c ∧ ∀ a b, ent (B.set i x) a b = if a = i then nth x b else ent B a b := by
  have hr : ∀ a, row (B.set i x) a = if a = i then x else row B a := by
    intro a
    unfold row
    rw [List.getD_eq_getElem?_getD, List.getD_eq_getElem?_getD, List.getElem?_set]
    by_cases e : i = a
    · rw [if_pos e, if_pos e.symm, if_pos (by rw [h.1]; exact hi)]
      rfl
    · rw [if_neg e, if_neg (Ne.symm e)]
  refine ⟨⟨by simp [h.1], fun a ha => ?_⟩, fun a b => ?_⟩
  · rw [hr]
    split_ifs
    · exact hx
    · exact h.2 a ha
  · unfold ent
    rw [hr]
    split_ifs <;> rfl

theorem forI_unit {n : ℕ} {body : ℤ → Unit → Res Unit} (h : ∀ i : ℕ, 1 ≤ i → i < n + 1 → body i () = ok ()) : forI 1 ((n : ℤ) + 1) () body = ok () := by
  apply Runs.eq
  refine (Runs.forN (m := 1) (n := n + 1) (fun _ _ => True) rfl (by push_cast; rfl) (by omega) trivial ?_).mono fun _ _ => rfl
  rintro i ⟨⟩ h1 h2 -
  exact ⟨(), h i h1 h2, trivial⟩

/-- Every run on a square grid of at least 4 x 4 points whose lines have tangents returns; the net of control points is the grid itself. -/
theorem bicubic_square {tangent : List (XYZ K) → Res (List (XYZ K))} {dist : XYZ K → XYZ K → K} {totalLength : List (XYZ K) → Res K} {pts : List (List (XYZ K))} {R : ℕ}
    (hR : 3 ≤ R) (h : GridRuns tangent dist totalLength pts R) :
    Runs (bicubicBy tangent dist totalLength pts) (fun S => WellFormedS S 3 3 R R ∧ (∀ i j, i ≤ R → j ≤ R → ent S.cps i j = XYZW.ofXYZ (ent pts i j) 1) ∧
      (∀ i, i ≤ 3 → nth S.knotsU i = 0 ∧ nth S.knotsV i = 0) ∧ (∀ i, R + 1 ≤ i → i ≤ R + 3 + 1 → nth S.knotsU i = 1 ∧ nth S.knotsV i = 1) ∧
      (∀ i, 3 < i → i ≤ R → nth S.knotsU i = shareU dist pts R (i - 3) ∧ nth S.knotsV i = shareV dist pts R (i - 3)) ∧
      ∀ i, 3 ≤ i → i ≤ R → nth S.knotsU i < nth S.knotsU (i + 1) ∧ nth S.knotsV i < nth S.knotsV (i + 1)) := by
  have hm := h.mat
  unfold bicubicBy
  rw [validate_of (by rw [decide_eq_true_eq, hm.1]; omega), ok_bind, vget_row (i := 0) (k := 0) rfl (by rw [hm.1]; omega), ok_bind, validate_of (by rw [decide_eq_true_eq, hm.2 0 (by omega)]; omega),
    ok_bind]
  dsimp only
  rw [hm.1, hm.2 0 (by omega), show ((R + 1 : ℕ) : ℤ) = (R : ℤ) + 1 by push_cast; rfl, forI_unit fun i h1 h2 => by
    rw [vget_row (k := i) rfl (by rw [hm.1]; omega), ok_bind, validate_of (by rw [decide_eq_true_eq, hm.2 i (by omega)])], ok_bind,
    forI_append (rd := fun l => getColumn pts l) (f := fun l => gridColumn pts (R + 1) l) (m := R + 1) (by push_cast; rfl) (fun l hl => getColumn_run hm hl), ok_bind, List.nil_append,
    show (R : ℤ) + 1 - 1 = R by omega]
  obtain ⟨cols, hcols⟩ : ∃ cols, cols = (List.range (R + 1)).map fun l => gridColumn pts (R + 1) l := ⟨_, rfl⟩
  have ct : cols = tab (R + 1) (R + 1) fun l i => ent pts i l := hcols
  have hc : IsMat cols (R + 1) (R + 1) := by rw [ct]; exact isMat_tab
  have hce : ∀ l i, l ≤ R → i ≤ R → ent cols l i = ent pts i l := fun l i hl hi => by rw [ct, ent_tab (by omega) (by omega)]
  have hcr : ∀ l, l ≤ R → row cols l = gridColumn pts (R + 1) l := fun l hl => by rw [ct, row_tab (by omega)]; rfl
  have sU : ∀ k, k < R → sumDist dist cols (R + 1) k = ∑ l ∈ range (R + 1), dist (ent pts (k + 1) l) (ent pts k l) := fun k hk =>
    sum_congr rfl fun l hl => by rw [hce l _ (by have := mem_range.mp hl; omega) (by omega), hce l _ (by have := mem_range.mp hl; omega) (by omega)]
  have sV : ∀ k, sumDist dist pts (R + 1) k = ∑ l ∈ range (R + 1), dist (ent pts l (k + 1)) (ent pts l k) := fun k => rfl
  rw [← hcols]
  obtain ⟨tdV, us, ut, ub, e1, e2, hV, ul, uv, ui⟩ := lines_params (dist := dist) (tangent := tangent) (n := R) hc (fun l hl => by rw [hcr l (by omega)]; exact h.cols l (by omega)) (by omega)
    (fun k hk => by rw [sU k hk]; exact sum_pos (fun l hl => h.apartU k l hk (by have := mem_range.mp hl; omega)) ⟨0, mem_range.mpr (by omega)⟩)
  obtain ⟨tdU, vs, vt, vb, e3, e4, hU, vl, vv, vi⟩ := lines_params (dist := dist) (tangent := tangent) (n := R) hm (fun l hl => h.rows l (by omega)) (by omega)
    (fun k hk => by rw [sV k]; exact sum_pos (fun l hl => h.apartV l k (by have := mem_range.mp hl; omega) hk) ⟨0, mem_range.mpr (by omega)⟩)
  rw [e1, ok_bind]
  dsimp only
  rw [e2, ok_bind, e3, ok_bind]
  dsimp only
  rw [e4, ok_bind]
  have rl : ∀ i, ∃ x, i ≤ R → totalLength (row pts i) = ok x := fun i => by
    by_cases c : i ≤ R
    · obtain ⟨x, hx⟩ := h.rowLen i c
      exact ⟨x, fun _ => hx⟩
    · exact ⟨0, fun h => absurd h c⟩
  have cl : ∀ i, ∃ x, i ≤ R → totalLength (gridColumn pts (R + 1) i) = ok x := fun i => by
    by_cases c : i ≤ R
    · obtain ⟨x, hx⟩ := h.colLen i c
      exact ⟨x, fun _ => hx⟩
    · exact ⟨0, fun h => absurd h c⟩
  choose rlen hrl using rl
  choose clen hcl using cl
  have a1 := forI_append (s := ([] : List K)) (rd := fun i => do
    let r ← vget pts i
    totalLength r) (f := rlen) (n := (R : ℤ) + 1) (m := R + 1) (by push_cast; rfl) (fun i hi => by rw [vget_row (k := i) rfl (by rw [hm.1]; exact hi), ok_bind, hrl i (by omega)])
  have a2 := forI_append (s := ([] : List K)) (rd := fun i => do
    let r ← getColumn pts i
    totalLength r) (f := clen) (n := (R : ℤ) + 1) (m := R + 1) (by push_cast; rfl) (fun i hi => by rw [getColumn_run hm hi, ok_bind, hcl i (by omega)])
  simp only [bind_assoc', List.nil_append] at a1 a2
  rw [a1, ok_bind, a2, ok_bind, show (3 * ((R : ℤ) + 1) - 2).toNat = 3 * R + 1 by omega]
  refine Runs.bind (Q := fun (B : List (List (XYZ K))) => IsMat B (3 * R + 1) (3 * R + 1)) ?_ ?_
  · refine (Runs.forN (m := 0) (n := R + 1) (fun _ (B : List (List (XYZ K))) => IsMat B (3 * R + 1) (3 * R + 1)) rfl (by push_cast; rfl) (by omega) isMat_replicate ?_).mono (fun _ h => h)
    rintro i B - hi g
    rw [forI_append (rd := fun l => mget tdV l (i : ℤ)) (f := fun l => ent tdV l i) (m := R + 1) (by push_cast; rfl) (fun l hl => mget_ent (a := l) (b := i) hV rfl rfl hl hi), ok_bind, List.nil_append,
      vget_row (k := i) rfl (by rw [hm.1]; exact hi), ok_bind, vget_nth (k := i) rfl (by simpa using hi), ok_bind]
    refine Runs.bind (bicubicLine_run (n := R) (hm.2 i hi) (by simp) ul) ?_
    rintro temp ⟨q1, q2⟩
    rw [vset_of (k := 3 * i) (by push_cast; rfl) (by rw [g.1]; omega)]
    exact Runs.ok (row_replace g (by omega) q1).1
  rintro B gB
  refine Runs.bind (Q := fun (B : List (List (XYZ K))) => IsMat B (3 * R + 1) (3 * R + 1) ∧ ∀ i j, i ≤ R → j ≤ R → ent B (3 * i) (3 * j) = ent pts i j) ?_ ?_
  · refine (Runs.forN (m := 0) (n := R + 1) (fun k (B : List (List (XYZ K))) => IsMat B (3 * R + 1) (3 * R + 1) ∧ ∀ i j, i ≤ R → j < k → ent B (3 * i) (3 * j) = ent pts i j)
      rfl (by push_cast; rfl) (by omega) ⟨gB, fun i j _ h => by omega⟩ ?_).mono fun _ h => ⟨h.1, fun i j hi hj => h.2 i j hi (by omega)⟩
    rintro j B - hj ⟨g1, g2⟩
    rw [getColumn_run hm hj, ok_bind, forI_append (rd := fun k => mget tdU k (j : ℤ)) (f := fun k => ent tdU k j) (m := R + 1) (by push_cast; rfl) (fun k hk => mget_ent (a := k) (b := j) hU rfl rfl hk hj), ok_bind,
      List.nil_append, vget_nth (k := j) rfl (by simpa using hj), ok_bind]
    refine Runs.bind (bicubicLine_run (n := R) (by simp [gridColumn]) (by simp) vl) ?_
    rintro temp ⟨q1, q2⟩
    refine (Runs.forN (m := 0) (n := 3 * R + 1) (fun k (B : List (List (XYZ K))) => IsMat B (3 * R + 1) (3 * R + 1) ∧ (∀ i j', i ≤ R → j' < j → ent B (3 * i) (3 * j') = ent pts i j') ∧
      ∀ i, i < k → ent B i (3 * j) = nth temp i) rfl (by rw [q1]) (by omega) ⟨g1, g2, fun i h => by omega⟩ ?_).mono ?_
    · rintro k B - hk ⟨g1, g2, g3⟩
      rw [vget_nth (k := k) rfl (by omega), ok_bind]
      obtain ⟨B', e, r1, r2⟩ := mset_ok (x := nth temp k) g1 (i := (k : ℤ)) (j := 3 * (j : ℤ)) (a := k) (b := 3 * j) rfl (by push_cast; rfl) hk (by omega)
      refine ⟨B', e, r1, fun i j' hi hj' => ?_, fun i hi => ?_⟩
      · rw [r2, if_neg (by omega), g2 i j' hi hj']
      · rw [r2]
        by_cases c : i = k
        · rw [if_pos ⟨c, rfl⟩, c]
        · rw [if_neg (by omega), g3 i (by omega)]
    · rintro B ⟨g1, g2, g3⟩
      refine ⟨g1, fun i j' hi hj' => ?_⟩
      by_cases c : j' = j
      · rw [c, g3 (3 * i) (by omega), q2 i hi]
        unfold gridColumn
        rw [nth_mapRange (by omega)]
      · exact g2 i j' hi (by omega)
  rintro B ⟨gB, gE⟩
  refine Runs.bind (bicubicTwists_run ul vl (fun k l hk hl => ⟨_, mget_ent (a := k) (b := l) hU rfl rfl (by omega) (by omega)⟩)
    (fun k l hk hl => ⟨_, mget_ent (a := l) (b := k) hV rfl rfl (by omega) (by omega)⟩) ui vi (by omega) (by omega)) ?_
  rintro tw htw
  refine Runs.bind (bicubicInner_run htw ul vl gB) ?_
  rintro B' ⟨gB', gE'⟩
  have hix := getIndex_run (R + 1)
  rw [show ((R + 1 : ℕ) : ℤ) = (R : ℤ) + 1 by push_cast; rfl] at hix
  rw [hix, ok_bind, ok_bind, bicubicFilter_run gB', ok_bind]
  refine Runs.bind (netToXYZW_run (isMat_tab (r := R + 1) (c := R + 1)) (by omega)) ?_
  rintro cps ⟨gc, ge⟩
  rw [vget_row (i := 0) (k := 0) rfl (by rw [gc.1]; omega), ok_bind, gc.1, gc.2 0 (by omega), show ((R + 1 : ℕ) : ℤ) = (R : ℤ) + 1 by push_cast; rfl]
  obtain ⟨kU, k1, u1, u2, u3, u4⟩ := bicubicKnots_run ul hR
  obtain ⟨kV, k2, v1, v2, v3, v4⟩ := bicubicKnots_run vl hR
  rw [k1, ok_bind, k2, ok_bind]
  have srt : ∀ {b kv : List K}, (∀ k, k < R → nth b k < nth b (k + 1)) → nth b 0 = 0 → nth b R = 1 → kv.length = R + 3 + 2 → (∀ i, i ≤ 3 → nth kv i = 0) →
      (∀ i, 3 < i → i ≤ R → nth kv i = nth b (i - 3)) → (∀ i, R + 1 ≤ i → i ≤ R + 3 + 1 → nth kv i = 1) → ∀ i j, i ≤ j → j < kv.length → nth kv i ≤ nth kv j := by
    intro b kv bi b0 b1 h1 h2 h3 h4 i j hij hj
    have bm : ∀ d k, k + d ≤ R → nth b k ≤ nth b (k + d) := by
      intro d
      induction d with
      | zero => intro k _; exact le_rfl
      | succ d ih => intro k hk; exact (ih k (by omega)).trans (bi (k + d) (by omega)).le
    have val : ∀ i, i ≤ R + 3 + 1 → ∃ k, k ≤ R ∧ nth kv i = nth b k ∧ (i ≤ R ∧ k = i - 3 ∨ R < i ∧ k = R) := by
      intro i hi
      by_cases c : i ≤ 3
      · exact ⟨0, by omega, by rw [h2 i c, b0], by omega⟩
      · by_cases c' : i ≤ R
        · exact ⟨i - 3, by omega, h3 i (by omega) c', by omega⟩
        · exact ⟨R, le_rfl, by rw [h4 i (by omega) hi, b1], by omega⟩
    obtain ⟨a, ha, ea, oa⟩ := val i (by omega)
    obtain ⟨c, hc, ec, oc⟩ := val j (by omega)
    rw [ea, ec]
    have := bm (c - a) a (by omega)
    rwa [show a + (c - a) = c by omega] at this
  have rise : ∀ {b kv : List K}, (∀ k, k < R → nth b k < nth b (k + 1)) → nth b 0 = 0 → nth b R = 1 → (∀ i, i ≤ 3 → nth kv i = 0) →
      (∀ i, 3 < i → i ≤ R → nth kv i = nth b (i - 3)) → (∀ i, R + 1 ≤ i → i ≤ R + 3 + 1 → nth kv i = 1) → ∀ i, 3 ≤ i → i ≤ R → nth kv i < nth kv (i + 1) := by
    intro b kv bi b0 b1 h2 h3 h4 i hi1 hi2
    have bm : ∀ d k, k + d ≤ R → nth b k ≤ nth b (k + d) := by
      intro d
      induction d with
      | zero => intro k _; exact le_rfl
      | succ d ih => intro k hk; exact (ih k (by omega)).trans (bi (k + d) (by omega)).le
    have e1 : nth kv i = nth b (i - 3) := by
      by_cases c : i = 3
      · rw [c, h2 3 le_rfl, Nat.sub_self, b0]
      · exact h3 i (by omega) hi2
    rw [e1]
    refine (bi (i - 3) (by omega)).trans_le ?_
    by_cases c : i = R
    · rw [h4 (i + 1) (by omega) (by omega), ← b1]
      have := bm (R - (i - 3 + 1)) (i - 3 + 1) (by omega)
      rwa [show i - 3 + 1 + (R - (i - 3 + 1)) = R by omega] at this
    · rw [h3 (i + 1) (by omega) (by omega), show i + 1 - 3 = i - 3 + 1 by omega]
  have zU : nth ub 0 = 0 := by rw [uv 0 (by omega)]; simp
  have zV : nth vb 0 = 0 := by rw [vv 0 (by omega)]; simp
  have tU : ∑ i ∈ range R, sumDist dist cols (R + 1) i ≠ 0 := fun hz => by
    have := ui 0 (by omega)
    rw [uv 0 (by omega), uv (0 + 1) (by omega), hz] at this
    simp at this
  have tV : ∑ i ∈ range R, sumDist dist pts (R + 1) i ≠ 0 := fun hz => by
    have := vi 0 (by omega)
    rw [vv 0 (by omega), vv (0 + 1) (by omega), hz] at this
    simp at this
  have oU : nth ub R = 1 := by rw [uv R le_rfl, div_self tU]
  have oV : nth vb R = 1 := by rw [vv R le_rfl, div_self tV]
  refine Runs.ok ⟨⟨rfl, rfl, by omega, by omega, by omega, by omega, gc, hR, hR, u1, v1, srt ui zU oU u1 u2 u3 u4, srt vi zV oV v1 v2 v3 v4⟩, fun i j hi hj => ?_,
    fun i hi => ⟨u2 i hi, v2 i hi⟩, fun i h1 h2 => ⟨u4 i h1 h2, v4 i h1 h2⟩, fun i h1 h2 => ⟨?_, ?_⟩, fun i h1 h2 => ⟨rise ui zU oU u2 u3 u4 i h1 h2, rise vi zV oV v2 v3 v4 i h1 h2⟩⟩
  · dsimp only
    rw [ge i j (by omega) (by omega), ent_tab (by omega) (by omega), gE' i j hi hj, gE i j hi hj]
  · dsimp only
    rw [u3 i h1 h2, uv _ (by omega)]
    unfold shareU
    rw [sum_congr rfl fun i hi => sU i (by have := mem_range.mp hi; omega), sum_congr rfl fun i hi => sU i (by have := mem_range.mp hi; omega)]
  · dsimp only
    rw [v3 i h1 h2, vv _ (by omega)]
    rfl

/-- inside a clamped cubic knot vector with simple inner knots no basis function but the first and the last reaches 1 -/
theorem inner_basis_lt_one {U : ℕ → K} {R a s : ℕ} {t : K} (hm : MonoTo U (R + 3 + 1)) (hr : ∀ i, 3 ≤ i → i ≤ R → U i < U (i + 1)) (ha : 1 ≤ a) (haR : a < R)
    (hs : IsSpan U 3 R t s) : N U (U (R + 1)) 3 a t < 1 := by
  obtain ⟨hn, h1⟩ := basis_convex hm hs
  by_contra hc
  push Not at hc
  have hz : ∀ i, i ≤ R → i ≠ a → N U (U (R + 1)) 3 i t ≤ 0 := by
    intro i hi hia
    have : N U (U (R + 1)) 3 a t + N U (U (R + 1)) 3 i t ≤ ∑ i ∈ range (R + 1), N U (U (R + 1)) 3 i t := by
      rw [← sum_pair (f := fun i => N U (U (R + 1)) 3 i t) (Ne.symm hia)]
      exact sum_le_sum_of_subset_of_nonneg (by
        intro x hx
        rw [mem_insert, mem_singleton] at hx
        rw [mem_range]
        omega) (fun i hi _ => hn i (by have := mem_range.mp hi; omega))
    linarith
  have hns := fun i (hi : i ≤ R) => N_eq_Nspan hm (by omega) hs 3 i (by omega)
  obtain ⟨s1, s2, s3, s4, s5⟩ := hs
  rcases s5 with s5 | ⟨s5, s6⟩
  · have p1 := Nspan_first_pos hm s5 s3 (by omega) 3 s1
    by_cases c : s - 3 = a
    · rcases s4.eq_or_lt with e | l
      · have hl : U (s - 1) < U s := by
          have := hr (s - 1) (by omega) (by omega)
          rwa [Nat.sub_add_cancel (by omega)] at this
        have p2 := Nspan_prev_pos (s := s) hm s3 hl (by omega) 2 (by omega)
        have := hz (s - 1) (by omega) (by omega)
        rw [hns _ (by omega), ← e] at this
        linarith
      · have p2 := Nspan_last_pos hm l s3 3 (by omega)
        have := hz s s2 (by omega)
        rw [hns _ s2] at this
        linarith
    · have := hz (s - 3) (by omega) c
      rw [hns _ (by omega)] at this
      linarith
  · have hsR : s = R := by
      by_contra hne
      have l := hr (s + 1) (by omega) (by omega)
      have := hm (s + 2) (R + 1) (by omega) (by omega)
      rw [s6] at l
      exact absurd (l.trans_le this) (lt_irrefl _)
    have p2 := Nspan_last_pos (t := t) hm (by rw [s5]; exact s3) s3 3 (by omega)
    have := hz s s2 (by omega)
    rw [hns _ s2] at this
    linarith

variable {tangent : List (XYZ K) → Res (List (XYZ K))} {dist : XYZ K → XYZ K → K} {totalLength : List (XYZ K) → Res K}

/-- C137 (violated): if one inner point of the grid lies off the plane of all the others, the returned surface does not pass through it, whatever parameters are tried. -/
theorem C137_inner_violated {pts : List (List (XYZ K))} {R a b : ℕ} {S : NurbsSurface K} (hR : 3 ≤ R) (h : GridRuns tangent dist totalLength pts R)
    (hS : bicubicBy tangent dist totalLength pts = ok S) (he : EndsSeparatedS S 3 3 R R) (ha : 1 ≤ a) (haR : a < R) (hb : 1 ≤ b) (hbR : b < R)
    (hz : ∀ i j, i ≤ R → j ≤ R → (i, j) ≠ (a, b) → (ent pts i j).z = 0) (hab : (ent pts a b).z ≠ 0) :
    ∀ u v, InDomain S 3 3 R R u v → NurbsSurface.pointOnSurface S u v ≠ ok (ent pts a b) := by
  obtain ⟨S', e, w, q1, q2, q3, q4, q5⟩ := bicubic_square hR h
  rw [hS] at e
  cases e
  intro u v d hp
  rw [unit_weight_surface' w he d (fun i j hi hj => by rw [q1 i j hi hj]; rfl)] at hp
  obtain ⟨s, -, hs⟩ := getKnotSpanIndex_isSpan w.knotsU w.pn w.sortedU he.u d.u0 d.u1
  obtain ⟨t, -, ht⟩ := getKnotSpanIndex_isSpan w.knotsV w.qm w.sortedV he.v d.v0 d.v1
  have mU : MonoTo (nth S.knotsU) (R + 3 + 1) := fun i j h h' => w.sortedU i j h (by rw [w.knotsU]; omega)
  have mV : MonoTo (nth S.knotsV) (R + 3 + 1) := fun i j h h' => w.sortedV i j h (by rw [w.knotsV]; omega)
  have lU := inner_basis_lt_one mU (fun i h1 h2 => (q5 i h1 h2).1) ha haR hs
  have lV := inner_basis_lt_one mV (fun i h1 h2 => (q5 i h1 h2).2) hb hbR ht
  have nU := (basis_convex mU hs).1 a haR.le
  have nV := (basis_convex mV ht).1 b hbR.le
  have hzz := congrArg XYZ.z (Res.ok.inj hp)
  unfold surfacePoint at hzz
  have sz : ∀ f : ℕ → XYZ K, (∑ i ∈ range (R + 1), f i).z = ∑ i ∈ range (R + 1), (f i).z := fun f => map_sum (XYZ.zL (K := K)) f _
  rw [sz, sum_eq_single a, sz, sum_eq_single b] at hzz
  · dsimp only at hzz
    rw [q1 a b haR.le hbR.le] at hzz
    have e : (N (nth S.knotsU) (nth S.knotsU (R + 1)) 3 a u * N (nth S.knotsV) (nth S.knotsV (R + 1)) 3 b v) * (ent pts a b).z = 1 * (ent pts a b).z := by
      rw [one_mul]
      refine Eq.trans ?_ hzz
      simp [XYZW.ofXYZ, XYZW.raw]
    have := mul_right_cancel₀ hab e
    nlinarith
  · intro j hj hne
    have hj := mem_range.mp hj
    dsimp only
    rw [q1 a j haR.le (by omega)]
    simp [XYZW.ofXYZ, XYZW.raw, hz a j haR.le (by omega) (by simpa using hne)]
  · intro hne
    exact absurd (mem_range.mpr (by omega)) hne
  · intro i hi hne
    have hi := mem_range.mp hi
    rw [sz]
    refine sum_eq_zero fun j hj => ?_
    have hj := mem_range.mp hj
    dsimp only
    rw [q1 i j (by omega) (by omega)]
    simp [XYZW.ofXYZ, XYZW.raw, hz i j (by omega) (by omega) (by simp [hne])]
  · intro hne
    exact absurd (mem_range.mpr (by omega)) hne

/-- C137 (part): on a square grid of at least 4 x 4 points the call returns a valid bicubic surface with weights 1 and clamped knots from 0 to 1 with simple inner
knots; its control points are the given points; so it passes through the four corners. -/
theorem C137_square_partial {pts : List (List (XYZ K))} {R : ℕ} (hR : 3 ≤ R) (h : GridRuns tangent dist totalLength pts R) :
    ∃ S, bicubicBy tangent dist totalLength pts = ok S ∧ WellFormedS S 3 3 R R ∧ (∀ i j, i ≤ R → j ≤ R → ent S.cps i j = XYZW.ofXYZ (ent pts i j) 1) ∧
      (∀ i, i ≤ 3 → nth S.knotsU i = 0 ∧ nth S.knotsV i = 0) ∧ (∀ i, R + 1 ≤ i → i ≤ R + 3 + 1 → nth S.knotsU i = 1 ∧ nth S.knotsV i = 1) ∧
      (∀ i, 3 < i → i ≤ R → nth S.knotsU i = shareU dist pts R (i - 3) ∧ nth S.knotsV i = shareV dist pts R (i - 3)) ∧
      (EndsSeparatedS S 3 3 R R → NurbsSurface.pointOnSurface S 0 0 = ok (ent pts 0 0) ∧ NurbsSurface.pointOnSurface S 0 1 = ok (ent pts 0 R) ∧
        NurbsSurface.pointOnSurface S 1 0 = ok (ent pts R 0) ∧ NurbsSurface.pointOnSurface S 1 1 = ok (ent pts R R)) := by
  obtain ⟨S, e, w, q1, q2, q3, q4, q5⟩ := bicubic_square hR h
  refine ⟨S, e, w, q1, q2, q3, q4, fun he => ?_⟩
  have mU : MonoTo (nth S.knotsU) (R + 3 + 1) := fun i j h h' => w.sortedU i j h (by rw [w.knotsU]; omega)
  have mV : MonoTo (nth S.knotsV) (R + 3 + 1) := fun i j h h' => w.sortedV i j h (by rw [w.knotsV]; omega)
  have raw : ∀ i j, i ≤ R → j ≤ R → (ent S.cps i j).raw = ent pts i j := fun i j hi hj => by rw [q1 i j hi hj]; ext <;> simp [XYZW.ofXYZ, XYZW.raw]
  have u30 := (q2 3 le_rfl).1
  have v30 := (q2 3 le_rfl).2
  have uR := (q3 (R + 1) le_rfl (by omega)).1
  have vR := (q3 (R + 1) le_rfl (by omega)).2
  have at0 : ∀ {U : ℕ → K} {P : ℕ → XYZ K}, MonoTo U (R + 3 + 1) → (∀ i, i ≤ 3 → U i = 0) → U 3 < U (3 + 1) → curvePoint U 3 R P 0 = P 0 := by
    intro U P hm h0 hl
    rw [curvePoint_start (s := 3) hm ⟨le_rfl, hR, hl, (h0 3 le_rfl).le, Or.inl (by rw [← h0 3 le_rfl]; exact hl)⟩ (by rw [← h0 3 le_rfl]; exact hl) (fun j _ hj => h0 j hj)]
  have at1 : ∀ {U : ℕ → K} {P : ℕ → XYZ K}, MonoTo U (R + 3 + 1) → (∀ i, R + 1 ≤ i → i ≤ R + 3 + 1 → U i = 1) → U R < U (R + 1) → curvePoint U 3 R P 1 = P R := by
    intro U P hm h1 hl
    have e1 := h1 (R + 1) le_rfl (by omega)
    rw [curvePoint_end (s := R) hm ⟨hR, le_rfl, hl, by rw [← e1]; exact hl.le, Or.inr ⟨e1.symm, rfl⟩⟩ (by rw [← e1]; exact hl) (fun j h2 h3 => h1 j h2 (by omega))]
  have lU := (q5 3 le_rfl hR).1
  have lV := (q5 3 le_rfl hR).2
  have rU := (q5 R hR le_rfl).1
  have rV := (q5 R hR le_rfl).2
  have ev : ∀ u v, 0 ≤ u → u ≤ 1 → 0 ≤ v → v ≤ 1 → NurbsSurface.pointOnSurface S u v =
      ok (curvePoint (nth S.knotsU) 3 R (fun i => curvePoint (nth S.knotsV) 3 R (fun j => (ent S.cps i j).raw) v) u) := fun u v h1 h2 h3 h4 => by
    rw [unit_weight_surface' w he ⟨by rw [u30]; exact h1, by rw [uR]; exact h2, by rw [v30]; exact h3, by rw [vR]; exact h4⟩ (fun i j hi hj => by rw [q1 i j hi hj]; rfl), surfacePoint_eq]
  have f2 := fun i hi => (q2 i hi).1
  have g2 := fun i hi => (q2 i hi).2
  have f3 := fun i h1 h2 => (q3 i h1 h2).1
  have g3 := fun i h1 h2 => (q3 i h1 h2).2
  refine ⟨?_, ?_, ?_, ?_⟩
  · rw [ev 0 0 le_rfl zero_le_one le_rfl zero_le_one, at0 mU f2 lU, at0 mV g2 lV, raw 0 0 (by omega) (by omega)]
  · rw [ev 0 1 le_rfl zero_le_one zero_le_one le_rfl, at0 mU f2 lU, at1 mV g3 rV, raw 0 R (by omega) le_rfl]
  · rw [ev 1 0 zero_le_one le_rfl le_rfl zero_le_one, at1 mU f3 rU, at0 mV g2 lV, raw R 0 le_rfl (by omega)]
  · rw [ev 1 1 zero_le_one le_rfl zero_le_one le_rfl, at1 mU f3 rU, at1 mV g3 rV, raw R R le_rfl le_rfl]

theorem bicubicLine_needs {points T temp : List (XYZ K)} {u : List K} {len : K} (hu : 1 ≤ u.length) (h : bicubicLine points T u len = ok temp) : points.length ≤ u.length := by
  unfold bicubicLine at h
  obtain ⟨t0, -, h⟩ := bind_eq_ok.mp h
  by_contra hc
  have := forI_post (Inv := fun i _ => i < u.length) (by omega) (by omega) (by
    intro i s s' h1 h2 _ hb
    obtain ⟨x, hx, -⟩ := bind_eq_ok.mp hb
    obtain ⟨-, h3⟩ := vget_eq_ok_iff.mp hx
    obtain ⟨h3, -⟩ := List.getElem?_eq_some_iff.mp h3
    omega) h
  omega

theorem bicubicSums_length {lines td : List (List (XYZ K))} {sums : List K} {total : K} {size : ℤ} (hs : 0 ≤ size) (h : bicubicSums tangent dist lines size = ok (td, sums, total)) :
    sums.length = size.toNat := by
  unfold bicubicSums at h
  refine forI_post (Inv := fun _ (st : List (List (XYZ K)) × List K × K) => st.2.1.length = size.toNat) (by omega) (by simp) ?_ h
  rintro i ⟨td, sums, total⟩ s' h1 h2 hi hb
  obtain ⟨line, -, hb⟩ := bind_eq_ok.mp hb
  obtain ⟨t, -, hb⟩ := bind_eq_ok.mp hb
  obtain ⟨⟨td1, sums1, r⟩, h3, hb⟩ := bind_eq_ok.mp hb
  cases hb
  refine forI_post (Inv := fun _ (st : List (XYZ K) × List K × K) => st.2.1.length = size.toNat) hs hi ?_ h3
  rintro k ⟨a, b, c⟩ s' g1 g2 gi gb
  dsimp only at gi gb
  obtain ⟨x, -, gb⟩ := bind_eq_ok.mp gb
  by_cases c : k > 0
  · rw [if_pos c] at gb
    obtain ⟨_, -, gb⟩ := bind_eq_ok.mp gb
    obtain ⟨_, -, gb⟩ := bind_eq_ok.mp gb
    obtain ⟨_, -, gb⟩ := bind_eq_ok.mp gb
    obtain ⟨b', hb', gb⟩ := bind_eq_ok.mp gb
    obtain ⟨-, -, rfl⟩ := vset_eq_ok_iff.mp hb'
    cases gb
    simpa using gi
  · rw [if_neg c] at gb
    cases gb
    exact gi

theorem bicubicParams_length {sums ub : List K} {total : K} {n : ℤ} (h : bicubicParams sums total n = ok ub) : ub.length = sums.length := by
  unfold bicubicParams at h
  dsimp only at h
  by_cases c : total > 0
  · rw [if_pos c] at h
    obtain ⟨b, hb, h⟩ := bind_eq_ok.mp h
    obtain ⟨-, -, rfl⟩ := vset_eq_ok_iff.mp h
    rw [List.length_set]
    by_cases hn : 1 ≤ n
    · refine forI_post (Inv := fun _ (st : List K) => st.length = sums.length) hn rfl ?_ hb
      intro i s s' _ _ hi hb
      obtain ⟨_, -, hb⟩ := bind_eq_ok.mp hb
      obtain ⟨_, -, hb⟩ := bind_eq_ok.mp hb
      obtain ⟨_, -, hb⟩ := bind_eq_ok.mp hb
      obtain ⟨-, -, rfl⟩ := vset_eq_ok_iff.mp hb
      simpa using hi
    · rw [forI_empty (by omega)] at hb
      cases hb
      rfl
  · rw [if_neg c, ok_bind] at h
    obtain ⟨-, -, rfl⟩ := vset_eq_ok_iff.mp h
    rw [List.length_set]

/-- a loop of checks one of which fails -/
theorem checks_fail {body : ℤ → Unit → Res Unit} {b : ℤ} : ∀ (d : ℕ) (a : ℤ), b - a = d → (∀ i, a ≤ i → i < b → body i () = ok () ∨ body i () = invalidArg) →
    (∃ i, a ≤ i ∧ i < b ∧ body i () = invalidArg) → forI a b () body = invalidArg := by
  intro d
  induction d with
  | zero => rintro a h _ ⟨i, h1, h2, -⟩; omega
  | succ d ih =>
    rintro a h hall ⟨i, h1, h2, h3⟩
    rw [forI_head (by omega)]
    rcases hall a le_rfl (by omega) with h' | h'
    · rw [h', ok_bind]
      refine ih (a + 1) (by omega) (fun i h1 h2 => hall i (by omega) h2) ⟨i, ?_, h2, h3⟩
      by_contra hc
      rw [show i = a by omega, h'] at h3
      cases h3
    · rw [h']
      rfl

/-- C137 (violated): for a grid with different numbers of rows and columns the call never returns a surface: the loop over the rows reads the parameters of the rows,
the loop over the columns those of the columns, past their end. -/
theorem C137_nonsquare_violated {pts : List (List (XYZ K))} {n m : ℕ} (hp : IsMat pts (n + 1) (m + 1)) (hne : n ≠ m) (S : NurbsSurface K) :
    bicubicBy tangent dist totalLength pts ≠ ok S := by
  intro h
  unfold bicubicBy at h
  obtain ⟨_, -, h⟩ := bind_eq_ok.mp h
  rw [vget_row (i := 0) (k := 0) rfl (by rw [hp.1]; omega), ok_bind] at h
  obtain ⟨_, -, h⟩ := bind_eq_ok.mp h
  dsimp only at h
  obtain ⟨_, -, h⟩ := bind_eq_ok.mp h
  obtain ⟨cols, -, h⟩ := bind_eq_ok.mp h
  obtain ⟨⟨tdV, us, ut⟩, e1, h⟩ := bind_eq_ok.mp h
  obtain ⟨ub, e2, h⟩ := bind_eq_ok.mp h
  obtain ⟨⟨tdU, vs, vt⟩, e3, h⟩ := bind_eq_ok.mp h
  obtain ⟨vb, e4, h⟩ := bind_eq_ok.mp h
  obtain ⟨rl, -, h⟩ := bind_eq_ok.mp h
  obtain ⟨cl, -, h⟩ := bind_eq_ok.mp h
  obtain ⟨B, e5, h⟩ := bind_eq_ok.mp h
  obtain ⟨B', e6, -⟩ := bind_eq_ok.mp h
  have l1 : ub.length = n + 1 := by rw [bicubicParams_length e2, bicubicSums_length (by omega) e1, hp.1]; omega
  have l2 : vb.length = m + 1 := by rw [bicubicParams_length e4, bicubicSums_length (by omega) e3, hp.2 0 (by omega)]; omega
  have c1 : m ≤ n := by
    have := forI_post (Inv := fun i _ => 0 < i → m ≤ n) (by omega) (fun h => absurd h (lt_irrefl _)) (by
      intro i s s' h1 h2 _ hb _
      obtain ⟨T, -, hb⟩ := bind_eq_ok.mp hb
      obtain ⟨r, hr, hb⟩ := bind_eq_ok.mp hb
      obtain ⟨len, -, hb⟩ := bind_eq_ok.mp hb
      obtain ⟨temp, ht, -⟩ := bind_eq_ok.mp hb
      have := bicubicLine_needs (by omega) ht
      rw [hp.1] at h2
      rw [vget_row (k := i.toNat) (by omega) (by rw [hp.1]; omega)] at hr
      cases hr
      rw [hp.2 _ (by omega), l1] at this
      omega) e5
    exact this (by rw [hp.1]; omega)
  have c2 : n ≤ m := by
    have := forI_post (Inv := fun i _ => 0 < i → n ≤ m) (by omega) (fun h => absurd h (lt_irrefl _)) (by
      intro i s s' h1 h2 _ hb _
      obtain ⟨c, hc, hb⟩ := bind_eq_ok.mp hb
      obtain ⟨T, -, hb⟩ := bind_eq_ok.mp hb
      obtain ⟨len, -, hb⟩ := bind_eq_ok.mp hb
      obtain ⟨temp, ht, -⟩ := bind_eq_ok.mp hb
      have := bicubicLine_needs (by omega) ht
      rw [hp.2 0 (by omega)] at h2
      have hcr := getColumn_run hp (j := i.toNat) (by omega)
      rw [show ((i.toNat : ℕ) : ℤ) = i by omega, hc] at hcr
      cases hcr
      rw [l2] at this
      simp [gridColumn] at this
      omega) e6
    exact this (by rw [hp.2 0 (by omega)]; omega)
  omega

/-- C137: an empty grid, an empty first row and a row of another length are rejected, whatever else the grid contains. -/
theorem C137_rejects (pts : List (List (XYZ K))) (h : pts = [] ∨ pts.head? = some [] ∨ ∃ r ∈ pts, ∃ r0, pts.head? = some r0 ∧ r.length ≠ r0.length) :
    bicubicBy tangent dist totalLength pts = invalidArg := by
  unfold bicubicBy
  cases pts with
  | nil => rfl
  | cons r0 rest =>
    rw [validate_of (by simp), ok_bind, vget_row (i := 0) (k := 0) rfl (by simp), ok_bind, show row (r0 :: rest) 0 = r0 from rfl]
    by_cases c : r0.length = 0
    · rw [show validate (decide (0 < r0.length)) = invalidArg by rw [c]; rfl]
      rfl
    · rw [validate_of (by rw [decide_eq_true_eq]; omega), ok_bind]
      have hbad : ∃ r ∈ rest, r.length ≠ r0.length := by
        rcases h with h | h | ⟨r, hr, r0', h0, hne⟩
        · cases h
        · cases h
          exact absurd rfl c
        · cases h0
          rcases List.mem_cons.mp hr with rfl | hr
          · exact absurd rfl hne
          · exact ⟨r, hr, hne⟩
      dsimp only
      have key : forI 1 ((r0 :: rest).length : ℤ) () (fun i _ => do
          let r ← vget (r0 :: rest) i
          validate (decide (r.length = r0.length))) = invalidArg := by
        obtain ⟨r, hr, hne⟩ := hbad
        obtain ⟨k, hk, rfl⟩ := List.mem_iff_getElem.mp hr
        refine checks_fail ((r0 :: rest).length - 1) 1 (by simp) (fun i h1 h2 => ?_) ⟨(k : ℤ) + 1, by omega, by simp; omega, ?_⟩
        · rw [vget_row (k := i.toNat) (by omega) (by omega), ok_bind]
          unfold validate
          split_ifs
          · exact Or.inl rfl
          · exact Or.inr rfl
        · rw [vget_row (k := k + 1) (by push_cast; rfl) (by simp; omega), ok_bind, show row (r0 :: rest) (k + 1) = rest[k] by simp [row, hk], decide_eq_false hne]
          rfl
      rw [key]
      rfl

end

/-! ### The library's tangents and distances -/

section
variable {R : ℕ} {c C : ℝ}

/-- a line of points whose steps are between `c` and `C` long has tangents -/
theorem line_runs {line : List (XYZ ℝ)} (hl : line.length = R + 1) (hR : 2 ≤ R) (hc : 1 / 1000000 ≤ c) (hC : C * R < 500000 * c)
    (h : ∀ k, k < R → c ≤ (nth line (k + 1)).distance (nth line k) ∧ (nth line (k + 1)).distance (nth line k) ≤ C) :
    Runs (computeTangent line) (fun T => T.length = R + 1) ∧ ∃ x, getTotalChordLength line = ok x := by
  constructor
  · obtain ⟨uk, e, q1, q2, q3, q4, q5⟩ := C46_chord line (by omega)
    rw [hl, Nat.add_sub_cancel] at q5
    have t1 : ∑ j ∈ range R, (nth line (j + 1)).distance (nth line j) ≤ R * C := by
      have := sum_le_card_nsmul (range R) (fun j => (nth line (j + 1)).distance (nth line j)) C (fun j hj => (h j (mem_range.mp hj)).2)
      simpa using this
    have t2 : R * c ≤ ∑ j ∈ range R, (nth line (j + 1)).distance (nth line j) := by
      have := card_nsmul_le_sum (range R) (fun j => (nth line (j + 1)).distance (nth line j)) c (fun j hj => (h j (mem_range.mp hj)).1)
      simpa using this
    have hR' : (2 : ℝ) ≤ R := by exact_mod_cast hR
    have t3 : 2 * c ≤ ∑ j ∈ range R, (nth line (j + 1)).distance (nth line j) := le_trans (by nlinarith) t2
    obtain ⟨T, e', g, -⟩ := computeTangent_run (by omega) e q1 (by
      intro k hk
      rw [hl] at hk
      rw [q5 _ rfl (by linarith) k (by omega), q5 _ rfl (by linarith) (k + 1) (by omega), sum_range_succ, add_div, add_sub_cancel_left, div_le_div_iff₀ (by norm_num) (by linarith)]
      have := (h k (by omega)).1
      linarith)
    exact ⟨T, e', g.trans hl⟩
  · obtain ⟨x, e, -⟩ : Runs (getTotalChordLength line) (fun _ => True) := by
      unfold getTotalChordLength
      refine (Runs.forN (m := 1) (n := R + 1) (fun _ _ => True) rfl (by rw [hl]; push_cast; ring) (by omega) trivial ?_).mono fun _ _ => trivial
      rintro k s h1 h2 -
      rw [vget_nth (k := k) rfl (by omega), ok_bind, vget_nth (k := k - 1) (by omega) (by omega), ok_bind]
      exact Runs.ok trivial
    exact ⟨x, e⟩

/-- a square grid whose steps are between `c` and `C` long -/
structure EvenGrid (pts : List (List (XYZ ℝ))) (R : ℕ) (c C : ℝ) : Prop where
  mat : IsMat pts (R + 1) (R + 1)
  low : 1 / 1000000 ≤ c
  ratio : C * R < 500000 * c
  u : ∀ i j, i < R → j ≤ R → c ≤ (ent pts (i + 1) j).distance (ent pts i j) ∧ (ent pts (i + 1) j).distance (ent pts i j) ≤ C
  v : ∀ i j, i ≤ R → j < R → c ≤ (ent pts i (j + 1)).distance (ent pts i j) ∧ (ent pts i (j + 1)).distance (ent pts i j) ≤ C

theorem even_grid_runs {pts : List (List (XYZ ℝ))} (hR : 2 ≤ R) (h : EvenGrid pts R c C) : GridRuns computeTangent XYZ.distance getTotalChordLength pts R := by
  have hc : 0 < c := by have := h.low; linarith
  have hr : ∀ i, i ≤ R → Runs (computeTangent (row pts i)) (fun T => T.length = R + 1) ∧ ∃ x, getTotalChordLength (row pts i) = ok x := fun i hi =>
    line_runs (h.mat.2 i (by omega)) hR h.low h.ratio fun k hk => h.v i k hi hk
  have hcol : ∀ j, j ≤ R → Runs (computeTangent (gridColumn pts (R + 1) j)) (fun T => T.length = R + 1) ∧ ∃ x, getTotalChordLength (gridColumn pts (R + 1) j) = ok x := fun j hj =>
    line_runs (by simp [gridColumn]) hR h.low h.ratio fun k hk => by
      unfold gridColumn
      rw [nth_mapRange (by omega), nth_mapRange (by omega)]
      exact h.u k j hk hj
  exact ⟨h.mat, fun i hi => (hr i hi).1, fun j hj => (hcol j hj).1, fun i hi => (hr i hi).2, fun j hj => (hcol j hj).2, fun i j hi hj => hc.trans_le (h.u i j hi hj).1,
    fun i j hi hj => hc.trans_le (h.v i j hi hj).1⟩

theorem even_ends {kv : List ℝ} {f : ℕ → ℝ} {lo hi : ℝ} (hR : 3 ≤ R) (hlo : 0 < lo) (hf : ∀ i, i < R → lo ≤ f i ∧ f i ≤ hi) (hr : R * hi < 500000 * lo) (h0 : ∀ i, i ≤ 3 → nth kv i = 0)
    (h1 : ∀ i, R + 1 ≤ i → i ≤ R + 3 + 1 → nth kv i = 1) (hm : ∀ i, 3 < i → i ≤ R → nth kv i = (∑ j ∈ range (i - 3), f j) / ∑ j ∈ range R, f j) : EndsSeparated (nth kv) 3 R := by
  obtain ⟨hp, -⟩ := share_mono (fun i hi => hlo.trans_le (hf i hi).1) (f := f) (R := R) (by omega)
  have t1 : ∑ j ∈ range R, f j ≤ R * hi := by
    have := sum_le_card_nsmul (range R) f hi (fun j hj => (hf j (mem_range.mp hj)).2)
    simpa using this
  have nn : ∀ i, i < R → 0 ≤ f i := fun i hi => hlo.le.trans (hf i hi).1
  have e0 := h0 3 le_rfl
  have e1 := h1 (R + 1) le_rfl (by omega)
  constructor
  · rw [e0, abs_zero]
    by_cases c3 : R = 3
    · have := h1 (3 + 1) (by omega) (by omega)
      rw [this]
      norm_num
    · rw [hm (3 + 1) (by omega) (by omega), show 3 + 1 - 3 = 1 by omega, sum_range_one]
      have l := (hf 0 (by omega)).1
      have s0 : f 0 ≤ ∑ j ∈ range R, f j := single_le_sum (f := f) (fun i hi => nn i (mem_range.mp hi)) (mem_range.mpr (by omega))
      have g1 : 1 / 500000 < f 0 / ∑ j ∈ range R, f j := by rw [div_lt_div_iff₀ (by norm_num) hp]; linarith
      have g2 : f 0 / ∑ j ∈ range R, f j ≤ 1 := by rw [div_le_one hp]; exact s0
      rw [abs_of_pos (by linarith), max_eq_right (by linarith)]
      linarith
  · rw [e1, abs_one]
    by_cases c3 : R = 3
    · rw [c3, e0, abs_zero]
      norm_num
    · rw [hm R (by omega) le_rfl]
      have g1 : 0 ≤ (∑ j ∈ range (R - 3), f j) / ∑ j ∈ range R, f j := div_nonneg (sum_nonneg fun i hi => nn i (by have := mem_range.mp hi; omega)) hp.le
      have g2 : ∑ j ∈ range (R - 3), f j + f (R - 3) ≤ ∑ j ∈ range R, f j := by
        rw [← sum_range_succ]
        exact sum_le_sum_of_subset_of_nonneg (by intro x hx; have := mem_range.mp hx; exact mem_range.mpr (by omega)) fun i hi _ => nn i (mem_range.mp hi)
      have g3 : 1 / 500000 < f (R - 3) / ∑ j ∈ range R, f j := by rw [div_lt_div_iff₀ (by norm_num) hp]; linarith [(hf (R - 3) (by omega)).1]
      have g4 : (∑ j ∈ range (R - 3), f j) / (∑ j ∈ range R, f j) + f (R - 3) / (∑ j ∈ range R, f j) ≤ 1 := by rw [← add_div, div_le_one hp]; exact g2
      rw [abs_of_nonneg g1, max_eq_right (by linarith)]
      linarith

/-- C137 (part): for every square grid of at least 4 x 4 points with steps of comparable length the library's call returns; its control points are the given points, and
it passes through the four corners. -/
theorem C137_library_partial {pts : List (List (XYZ ℝ))} (hR : 3 ≤ R) (h : EvenGrid pts R c C) :
    ∃ S, bicubicLocalInterpolation pts = ok S ∧ WellFormedS S 3 3 R R ∧ EndsSeparatedS S 3 3 R R ∧ (∀ i j, i ≤ R → j ≤ R → ent S.cps i j = XYZW.ofXYZ (ent pts i j) 1) ∧
      NurbsSurface.pointOnSurface S 0 0 = ok (ent pts 0 0) ∧ NurbsSurface.pointOnSurface S 0 1 = ok (ent pts 0 R) ∧
      NurbsSurface.pointOnSurface S 1 0 = ok (ent pts R 0) ∧ NurbsSurface.pointOnSurface S 1 1 = ok (ent pts R R) := by
  obtain ⟨S, e, w, q1, q2, q3, q4, q5⟩ := C137_square_partial hR (even_grid_runs (by omega) h)
  have hc : 0 < c := by have := h.low; linarith
  have hR1 : (0 : ℝ) < ((R + 1 : ℕ) : ℝ) := by positivity
  have bnd : ∀ g : ℕ → ℝ, (∀ l, l ≤ R → c ≤ g l ∧ g l ≤ C) → ((R + 1 : ℕ) : ℝ) * c ≤ ∑ l ∈ range (R + 1), g l ∧ ∑ l ∈ range (R + 1), g l ≤ ((R + 1 : ℕ) : ℝ) * C := by
    intro g hg
    have b1 := card_nsmul_le_sum (range (R + 1)) g c (fun j hj => (hg j (by have := mem_range.mp hj; omega)).1)
    have b2 := sum_le_card_nsmul (range (R + 1)) g C (fun j hj => (hg j (by have := mem_range.mp hj; omega)).2)
    rw [card_range, nsmul_eq_mul] at b1 b2
    exact ⟨b1, b2⟩
  have hr : (R : ℝ) * (((R + 1 : ℕ) : ℝ) * C) < 500000 * (((R + 1 : ℕ) : ℝ) * c) := by
    have := mul_lt_mul_of_pos_left h.ratio hR1
    linarith
  have he : EndsSeparatedS S 3 3 R R :=
    ⟨even_ends hR (mul_pos hR1 hc) (fun i hi => bnd (fun l => (ent pts (i + 1) l).distance (ent pts i l)) fun l hl => h.u i l hi hl) hr (fun i hi => (q2 i hi).1)
        (fun i h1 h2 => (q3 i h1 h2).1) (fun i h1 h2 => (q4 i h1 h2).1),
      even_ends hR (mul_pos hR1 hc) (fun i hi => bnd (fun l => (ent pts l (i + 1)).distance (ent pts l i)) fun l hl => h.v l i hl hi) hr (fun i hi => (q2 i hi).2)
        (fun i h1 h2 => (q3 i h1 h2).2) (fun i h1 h2 => (q4 i h1 h2).2)⟩
  exact ⟨S, e, w, he, q1, q5 he⟩

/-- C137 (violated): for such a grid in which one inner point lies off the plane of all the others, the library's call returns a surface that misses this point. -/
theorem C137_library_violated {pts : List (List (XYZ ℝ))} {a b : ℕ} (hR : 3 ≤ R) (h : EvenGrid pts R c C) (ha : 1 ≤ a) (haR : a < R) (hb : 1 ≤ b) (hbR : b < R)
    (hz : ∀ i j, i ≤ R → j ≤ R → (i, j) ≠ (a, b) → (ent pts i j).z = 0) (hab : (ent pts a b).z ≠ 0) :
    ∃ S, bicubicLocalInterpolation pts = ok S ∧ ∀ u v, 0 ≤ u → u ≤ 1 → 0 ≤ v → v ≤ 1 → NurbsSurface.pointOnSurface S u v ≠ ok (ent pts a b) := by
  obtain ⟨S, e, w, he, -⟩ := C137_library_partial hR h
  obtain ⟨S', e', -, -, q2, q3, -⟩ := C137_square_partial hR (even_grid_runs (by omega) h)
  have := e'.symm.trans e
  cases this
  refine ⟨S, e, fun u v h1 h2 h3 h4 => C137_inner_violated hR (even_grid_runs (by omega) h) e he ha haR hb hbR hz hab u v ⟨?_, ?_, ?_, ?_⟩⟩
  · rw [(q2 3 le_rfl).1]; exact h1
  · rw [(q3 (R + 1) le_rfl (by omega)).1]; exact h2
  · rw [(q2 3 le_rfl).2]; exact h3
  · rw [(q3 (R + 1) le_rfl (by omega)).2]; exact h4

/-- C137 (violated): the library's call returns no surface for a grid with different numbers of rows and columns. -/
theorem C137_library_nonsquare_violated {pts : List (List (XYZ ℝ))} {n m : ℕ} (hp : IsMat pts (n + 1) (m + 1)) (hne : n ≠ m) (S : NurbsSurface ℝ) :
    bicubicLocalInterpolation pts ≠ ok S := C137_nonsquare_violated hp hne S

end

/-! ### Examples -/

/-- the grid of the points `(i, j, 0)` with one point raised -/
def bumpGrid (R a b : ℕ) : List (List (XYZ ℝ)) := tab (R + 1) (R + 1) fun i j => ⟨i, j, if (i, j) = (a, b) then 1 else 0⟩

theorem bump_even (R a b : ℕ) (hR : R ≤ 100000) : EvenGrid (bumpGrid R a b) R 1 2 := by
  have hR' : (R : ℝ) ≤ 100000 := by exact_mod_cast hR
  have key : ∀ x y : XYZ ℝ, 1 ≤ (x.x - y.x) ^ 2 + (x.y - y.y) ^ 2 + (x.z - y.z) ^ 2 → (x.x - y.x) ^ 2 + (x.y - y.y) ^ 2 + (x.z - y.z) ^ 2 ≤ 4 → 1 ≤ x.distance y ∧ x.distance y ≤ 2 := by
    intro x y h1 h2
    have hs := distance_sq x y
    have hn := distance_nonneg x y
    constructor <;> nlinarith
  have zb : ∀ p q : ℕ × ℕ, ((if p = (a, b) then (1 : ℝ) else 0) - if q = (a, b) then 1 else 0) ^ 2 ≤ 1 := by
    intro p q
    split_ifs <;> norm_num
  refine ⟨isMat_tab, by norm_num, by linarith, fun i j hi hj => ?_, fun i j hi hj => ?_⟩
  · unfold bumpGrid
    rw [ent_tab (by omega) (by omega), ent_tab (by omega) (by omega)]
    have := zb (i + 1, j) (i, j)
    apply key
    · dsimp only; push_cast; nlinarith [sq_nonneg (((if (i + 1, j) = (a, b) then (1 : ℝ) else 0) - if (i, j) = (a, b) then 1 else 0))]
    · dsimp only; push_cast; nlinarith
  · unfold bumpGrid
    rw [ent_tab (by omega) (by omega), ent_tab (by omega) (by omega)]
    have := zb (i, j + 1) (i, j)
    apply key
    · dsimp only; push_cast; nlinarith [sq_nonneg (((if (i, j + 1) = (a, b) then (1 : ℝ) else 0) - if (i, j) = (a, b) then 1 else 0))]
    · dsimp only; push_cast; nlinarith

/-- a raised inner point of a 10 x 10 grid is missed -/
example : ∃ S, bicubicLocalInterpolation (bumpGrid 9 4 5) = ok S ∧ ∀ u v, 0 ≤ u → u ≤ 1 → 0 ≤ v → v ≤ 1 → NurbsSurface.pointOnSurface S u v ≠ ok ⟨4, 5, 1⟩ := by
  have := C137_library_violated (R := 9) (by omega) (bump_even 9 4 5 (by omega)) (a := 4) (b := 5) (by omega) (by omega) (by omega) (by omega) (fun i j hi hj hne => by
    unfold bumpGrid
    rw [ent_tab (by omega) (by omega)]
    exact if_neg hne) (by
    unfold bumpGrid
    rw [ent_tab (by omega) (by omega)]
    simp)
  rwa [show ent (bumpGrid 9 4 5) 4 5 = ⟨4, 5, 1⟩ by unfold bumpGrid; rw [ent_tab (by omega) (by omega)]; simp] at this

example : ∃ S, bicubicLocalInterpolation (bumpGrid 9 0 0) = ok S ∧ NurbsSurface.pointOnSurface S 0 0 = ok ⟨0, 0, 1⟩ := by
  obtain ⟨S, e, -, -, -, h, -⟩ := C137_library_partial (R := 9) (by omega) (bump_even 9 0 0 (by omega))
  refine ⟨S, e, ?_⟩
  rw [h]
  unfold bumpGrid
  rw [ent_tab (by omega) (by omega)]
  simp

/-- differences to the next point as tangents -/
def stepTangent (line : List (XYZ ℚ)) : Res (List (XYZ ℚ)) := ok ((List.range line.length).map fun i => nth line (i + 1) - nth line i)

/-- the sum of the differences of the coordinates as distance -/
def cityDist (a b : XYZ ℚ) : ℚ := |a.x - b.x| + |a.y - b.y| + |a.z - b.z|

def cityGrid (r c : ℕ) : List (List (XYZ ℚ)) := tab r c fun i j => ⟨i, j, 0⟩

/-- 4 x 5 points: undefined behaviour -/
example : bicubicBy stepTangent cityDist (fun _ => ok 1) (cityGrid 4 5) = ub ∧ bicubicBy stepTangent cityDist (fun _ => ok 1) (cityGrid 5 4) = ub := by decide +kernel

/-- 5 x 5 points -/
example : (bicubicBy stepTangent cityDist (fun _ => ok 1) (cityGrid 5 5) >>= fun S => ok (S.knotsU, S.knotsV)) = ok ([0, 0, 0, 0, 1 / 4, 1, 1, 1, 1], [0, 0, 0, 0, 1 / 4, 1, 1, 1, 1]) := by
  decide +kernel

/-- C137 (violated): 3 x 3 points: the returned surface has fewer control points than its degree requires, the library's own check
accepts it, evaluating it at the start divides by zero and evaluating it at the end reads out of bounds. -/
theorem C137_small_violated : ∃ S : NurbsSurface ℚ, bicubicBy stepTangent cityDist (fun _ => ok 1) (cityGrid 3 3) = ok S ∧ S.degreeU = 3 ∧ S.cps.length = 3 ∧
    S.knotsU = [0, 0, 0, 1, 1, 1, 1] ∧ BsplineSurface.check S = ok () ∧
    NurbsSurface.pointOnSurface S 0 0 = nonfinite ∧ NurbsSurface.pointOnSurface S 1 1 = ub := by
  refine ⟨{ degreeU := 3, degreeV := 3, knotsU := [0, 0, 0, 1, 1, 1, 1], knotsV := [0, 0, 0, 1, 1, 1, 1], cps := tab 3 3 fun i j => ⟨i, j, 0, 1⟩ }, ?_⟩
  decide +kernel

/-- a ragged grid -/
example : bicubicBy stepTangent cityDist (fun _ => ok 1) [[0, 0], [0]] = invalidArg := C137_rejects _ (Or.inr (Or.inr ⟨[0], by simp, [0, 0], rfl, by simp⟩))

end LNLib.Props
