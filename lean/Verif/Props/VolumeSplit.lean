import Verif.Props.Volume
import Verif.Lemmas.VolumeSplit
import Verif.Lemmas.SurfaceOps

/-! # C78 (SplitAt), C52 (Extract), C79 (GetIsoCurve) -/
set_option linter.unusedSectionVars false

namespace LNLib.Props
open LNLib Res Spec Finset

variable {K : Type} [Field K] [LinearOrder K] [IsStrictOrderedRing K]
variable {T : Type} [AddCommGroup T] [Module K T]

theorem wellSep_knot {U : List K} {x : K} (hsep : WellSeparated (U ++ [x])) : KnotSeparated U x := by
  have hmu : x ∈ U ++ [x] := by simp
  intro y hy
  rcases lt_trichotomy y x with h | h | h
  · right
    have := wellSep_tol hsep (List.mem_append_left _ hy) hmu h
    rw [abs_of_pos (sub_pos.mpr h), max_comm]; exact this
  · left; exact h
  · right
    have := wellSep_tol hsep hmu (List.mem_append_left _ hy) h
    rw [abs_of_neg (sub_neg.mpr h), neg_sub]; exact this

theorem wellSep_not_almost {U : List K} {x y : K} (hsep : WellSeparated (U ++ [x])) (hy : y ∈ U) (hne : y ≠ x) : isAlmostEqualTo x y = false := by
  rcases wellSep_knot hsep y hy with h | h
  · exact absurd h hne
  · rw [Bool.eq_false_iff]
    intro h'
    simp only [isAlmostEqualTo, decide_eq_true_eq] at h'
    simp only [tolOf, doubleEps] at h'
    linarith

/-- span and multiplicity at a knot of multiplicity equal to the degree -/
theorem cutAt_of {d : ℤ} {U : List K} {p n : ℕ} {x : K} (g : GoodDir d U p n) (he : EndsSeparated (nth U) p n) (hsep : KnotSeparated U x)
    (h0 : nth U p < x) (h1 : x < nth U (n + 1)) (hc : U.count x = p) :
    ∃ k : ℕ, getKnotSpanIndex d U x = ok (k : ℤ) ∧ getKnotMultiplicity U x = ok (p : ℤ) ∧ CutAt (nth U) p n k x := by
  have hl := g.knots
  have hp := g.pos
  have hm := goodDir_mono g
  have hpn := g.pn
  obtain ⟨k, e, hs⟩ := getKnotSpanIndex_isSpan g.knots g.pn g.sorted he h0.le h1.le
  have hku : x < nth U (k + 1) := by
    rcases hs.2.2.2.2 with h | ⟨h, h'⟩
    · exact h
    · rw [← h', ← h] at h1; exact absurd h1 (lt_irrefl _)
  have hkn := hs.2.1
  have hpw := (isValidKnotVector_iff U).mp (isValidKnotVector_nth.mpr g.sorted)
  have hmul := C17_multiplicity_exact (U := U) (u := x) (by intro h; rw [h] at hl; simp at hl) hpw
    ((hm 0 p (by omega) (by omega)).trans h0.le) (by rw [hl]; exact h1.le.trans (hm (n + 1) (n + p + 1) (by omega) (by omega))) hsep
  rw [hc] at hmul
  have hcard : ((range (n + p + 1 + 1)).filter (fun i => nth U i = x)).card = p := by
    have := card_filter_nth U (fun y => decide (y = x))
    rw [hl] at this
    simp only [decide_eq_true_eq] at this
    rw [this, ← hc, List.count]
    apply List.countP_congr
    intro y _
    simp
  have hint := mult_interval hm (by omega) hs.2.2.2.1 hku
  rw [hcard] at hint
  have hblk : ∀ j, k + 1 ≤ j + p → j ≤ k → nth U j = x := fun j h2 h3 => (hint j (by omega)).1.mpr (by omega)
  have hpk : 2 * p ≤ k := by
    by_contra hcon
    have h3 : nth U (k + 1 - p) = x := hblk _ (by omega) (by omega)
    have h4 := hm (k + 1 - p) p (by omega) (by omega)
    rw [h3] at h4
    exact absurd h0 (not_lt.mpr h4)
  refine ⟨k, by rw [g.degree]; exact e, hmul, hm, hs, hku, hpk, ?_, hblk, h0, h1⟩
  refine lt_of_le_of_ne ((hm _ k (by omega) (by omega)).trans hs.2.2.2.1) (fun h => ?_)
  have := (hint (k - p) (by omega)).1.mp h
  omega

theorem splitKnots_run {d : ℤ} {U : List K} {p n k : ℕ} {x : K} (g : GoodDir d U p n) (he : EndsSeparated (nth U) p n) (hsep : WellSeparated (U ++ [x]))
    (h : CutAt (nth U) p n k x) :
    ∃ kl kr, splitKnots U (k : ℤ) (p : ℤ) x = ok (kl, kr) ∧ GoodDir d kl p (k - p) ∧ GoodDir d kr p (n - k + p) ∧
      EndsSeparated (nth kl) p (k - p) ∧ EndsSeparated (nth kr) p (n - k + p) ∧ (∀ j ≤ k, nth kl j = nth U j) ∧ nth kl (k + 1) = x ∧
      nth kr 0 = x ∧ (∀ j, 1 ≤ j → j ≤ n - k + p + p + 1 → nth kr j = nth U (j + (k - p))) := by
  have hl := g.knots
  have hp := g.pos
  have hpk := h.pk
  have hkn := h.span.2.1
  have hmem : ∀ i, i < U.length → nth U i ∈ U ++ [x] := fun i hi => List.mem_append_left _ (mem_of_nth hi)
  have hmu : x ∈ U ++ [x] := by simp
  have a1 : (U.take (k + 2)).length = k + 2 := by rw [List.length_take]; omega
  have lk : ∀ j ≤ k, nth ((U.take (k + 2)).set (k + 1) x) j = nth U j := by
    intro j hj
    rw [nth_set (by omega), if_neg (by omega), nth_take (by omega)]
  have lk1 : nth ((U.take (k + 2)).set (k + 1) x) (k + 1) = x := by rw [nth_set (by omega), if_pos rfl]
  have rk : ∀ j, 1 ≤ j → j ≤ n - k + p + p + 1 → nth (x :: U.drop (k - p + 1)) j = nth U (j + (k - p)) := by
    intro j h1 h2
    obtain ⟨j, rfl⟩ : ∃ j', j = j' + 1 := ⟨j - 1, by omega⟩
    rw [nth_cons_succ]
    unfold nth
    rw [List.getD_eq_getElem?_getD, List.getElem?_drop, List.getD_eq_getElem?_getD]
    congr 2
    omega
  have mL := h.monoL lk lk1
  have mR := h.monoR (R := nth (x :: U.drop (k - p + 1))) (nth_cons_zero) rk
  have hb : nth U k = x := h.blk k (by omega) (le_refl _)
  refine ⟨(U.take (k + 2)).set (k + 1) x, x :: U.drop (k - p + 1), ?_, ⟨g.degree, hp, g.le7, by omega, by rw [List.length_set]; omega, ?_⟩,
    ⟨g.degree, hp, g.le7, by omega, by rw [List.length_cons, List.length_drop]; omega, ?_⟩, ⟨?_, ?_⟩, ⟨?_, ?_⟩, lk, lk1, nth_cons_zero, rk⟩
  · unfold splitKnots dropR
    rw [show ((k : ℤ) + 2).toNat = k + 2 by omega, show k + 2 - U.length = 0 by omega]
    simp only [List.replicate_zero, List.append_nil]
    rw [vset_of (k := k + 1) (by omega) (by omega), ok_bind, if_pos (by omega), ok_bind, show ((k : ℤ) - p + 1).toNat = k - p + 1 by omega]
  · intro i j hij hj
    rw [List.length_set] at hj
    exact mL i j hij (by omega)
  · intro i j hij hj
    rw [List.length_cons, List.length_drop] at hj
    exact mR i j hij (by omega)
  · rw [lk _ (by omega), lk _ (by omega)]; exact he.first
  · rw [lk (k - p) (by omega), lk (k - p + 1) (by omega), h.blk (k - p + 1) (by omega) (by omega)]
    exact wellSep_tol hsep (hmem _ (by omega)) hmu h.low
  · rw [rk _ (by omega) (by omega), rk _ (by omega) (by omega), show p + (k - p) = k by omega, show p + 1 + (k - p) = k + 1 by omega, hb]
    exact wellSep_tol hsep hmu (hmem _ (by omega)) h.lt
  · rw [rk _ (by omega) (by omega), rk _ (by omega) (by omega), show n - k + p + (k - p) = n by omega, show n - k + p + 1 + (k - p) = n + 1 by omega]
    exact he.last

/-! ### sub-blocks of the control net -/

section nets
variable {α : Type} [Zero α]

theorem row_take {m : List (List α)} {e i : ℕ} (h : i < e) : row (m.take e) i = row m i := by
  unfold row
  rw [List.getD_eq_getElem?_getD, List.getD_eq_getElem?_getD, List.getElem?_take, if_pos h]

theorem row_drop {m : List (List α)} {e i : ℕ} : row (m.drop e) i = row m (i + e) := by
  unfold row
  rw [List.getD_eq_getElem?_getD, List.getD_eq_getElem?_getD, List.getElem?_drop, Nat.add_comm]

theorem nth_drop' {m : List α} {e i : ℕ} : nth (m.drop e) i = nth m (i + e) := by
  unfold nth
  rw [List.getD_eq_getElem?_getD, List.getD_eq_getElem?_getD, List.getElem?_drop, Nat.add_comm]

theorem row_map {m : List (List α)} {f : List α → List α} {i : ℕ} (h : i < m.length) : row (m.map f) i = f (row m i) := by
  unfold row
  rw [List.getD_eq_getElem?_getD, List.getD_eq_getElem?_getD, List.getElem?_map, List.getElem?_eq_getElem h]
  rfl

theorem row3_map {c : List (List (List α))} {f : List (List α) → List (List α)} {i : ℕ} (h : i < c.length) : row (c.map f) i = f (row c i) := by
  unfold row
  rw [List.getD_eq_getElem?_getD, List.getD_eq_getElem?_getD, List.getElem?_map, List.getElem?_eq_getElem h]
  rfl

theorem mem_row {m : List (List α)} {x : List α} (h : x ∈ m) : ∃ i < m.length, row m i = x := by
  obtain ⟨i, hi, e⟩ := List.getElem_of_mem h
  refine ⟨i, hi, ?_⟩
  unfold row
  rw [List.getD_eq_getElem?_getD, List.getElem?_eq_getElem hi]
  exact e

theorem mem_row3 {c : List (List (List α))} {x : List (List α)} (h : x ∈ c) : ∃ i < c.length, row c i = x := by
  obtain ⟨i, hi, e⟩ := List.getElem_of_mem h
  refine ⟨i, hi, ?_⟩
  unfold row
  rw [List.getD_eq_getElem?_getD, List.getElem?_eq_getElem hi]
  exact e

end nets

variable {net : List (List (List T))} {a b d e : ℕ}

theorem row3_take {m : List (List (List T))} {e i : ℕ} (h : i < e) : row (m.take e) i = row m i := by
  unfold row
  rw [List.getD_eq_getElem?_getD, List.getD_eq_getElem?_getD, List.getElem?_take, if_pos h]

theorem row3_drop {m : List (List (List T))} {e i : ℕ} : row (m.drop e) i = row m (i + e) := by
  unfold row
  rw [List.getD_eq_getElem?_getD, List.getD_eq_getElem?_getD, List.getElem?_drop, Nat.add_comm]

theorem takeU (h : IsCube net a b d) {x : ℤ} (hx : x = e) (he : e ≤ a) : ∃ net', takeR net x = ok net' ∧ IsCube net' e b d ∧
    ∀ i < e, ∀ j < b, ∀ k < d, ent3 net' i j k = ent3 net i j k := by
  subst hx
  refine ⟨net.take e, ?_, ⟨?_, ?_⟩, ?_⟩
  · unfold takeR; rw [if_pos ⟨by omega, by rw [h.1]; omega⟩, Int.toNat_natCast]
  · rw [List.length_take, h.1]; omega
  · intro i hi; rw [row3_take hi]; exact h.2 i (by omega)
  · intro i hi j _ k _; unfold ent3; rw [row3_take hi]

theorem dropU (h : IsCube net a b d) {x : ℤ} (hx : x = e) (he : e ≤ a) : ∃ net', dropR net x = ok net' ∧ IsCube net' (a - e) b d ∧
    ∀ i < a - e, ∀ j < b, ∀ k < d, ent3 net' i j k = ent3 net (i + e) j k := by
  subst hx
  refine ⟨net.drop e, ?_, ⟨?_, ?_⟩, ?_⟩
  · unfold dropR; rw [if_pos ⟨by omega, by rw [h.1]; omega⟩, Int.toNat_natCast]
  · rw [List.length_drop, h.1]
  · intro i hi; rw [row3_drop]; exact h.2 _ (by omega)
  · intro i hi j _ k _; unfold ent3; rw [row3_drop]

theorem takeV (h : IsCube net a b d) {x : ℤ} (hx : x = e) (he : e ≤ b) : ∃ net', mapR (fun y => takeR y x) net = ok net' ∧ IsCube net' a e d ∧
    ∀ i < a, ∀ j < e, ∀ k < d, ent3 net' i j k = ent3 net i j k := by
  subst hx
  refine ⟨net.map (List.take e), mapR_ok ?_, ⟨?_, ?_⟩, ?_⟩
  · intro y hy
    obtain ⟨i, hi, rfl⟩ := mem_row3 hy
    rw [h.1] at hi
    unfold takeR; rw [if_pos ⟨by omega, by rw [(h.2 i hi).1]; omega⟩, Int.toNat_natCast]
  · rw [List.length_map, h.1]
  · intro i hi
    rw [row3_map (by rw [h.1]; exact hi)]
    refine ⟨by rw [List.length_take, (h.2 i hi).1]; omega, fun j hj => ?_⟩
    rw [row_take hj]
    exact (h.2 i hi).2 j (by omega)
  · intro i hi j hj k _
    unfold ent3 ent
    rw [row3_map (by rw [h.1]; exact hi), row_take hj]

theorem dropV (h : IsCube net a b d) {x : ℤ} (hx : x = e) (he : e ≤ b) : ∃ net', mapR (fun y => dropR y x) net = ok net' ∧ IsCube net' a (b - e) d ∧
    ∀ i < a, ∀ j < b - e, ∀ k < d, ent3 net' i j k = ent3 net i (j + e) k := by
  subst hx
  refine ⟨net.map (List.drop e), mapR_ok ?_, ⟨?_, ?_⟩, ?_⟩
  · intro y hy
    obtain ⟨i, hi, rfl⟩ := mem_row3 hy
    rw [h.1] at hi
    unfold dropR; rw [if_pos ⟨by omega, by rw [(h.2 i hi).1]; omega⟩, Int.toNat_natCast]
  · rw [List.length_map, h.1]
  · intro i hi
    rw [row3_map (by rw [h.1]; exact hi)]
    refine ⟨by rw [List.length_drop, (h.2 i hi).1], fun j hj => ?_⟩
    rw [row_drop]
    exact (h.2 i hi).2 _ (by omega)
  · intro i hi j hj k _
    unfold ent3 ent
    rw [row3_map (by rw [h.1]; exact hi), row_drop]

theorem takeW (h : IsCube net a b d) {x : ℤ} (hx : x = e) (he : e ≤ d) : ∃ net', mapR (mapR fun y => takeR y x) net = ok net' ∧ IsCube net' a b e ∧
    ∀ i < a, ∀ j < b, ∀ k < e, ent3 net' i j k = ent3 net i j k := by
  subst hx
  refine ⟨net.map (List.map (List.take e)), mapR_ok ?_, ⟨?_, ?_⟩, ?_⟩
  · intro y hy
    obtain ⟨i, hi, rfl⟩ := mem_row3 hy
    rw [h.1] at hi
    refine mapR_ok ?_
    intro z hz
    obtain ⟨j, hj, rfl⟩ := mem_row hz
    rw [(h.2 i hi).1] at hj
    unfold takeR; rw [if_pos ⟨by omega, by rw [(h.2 i hi).2 j hj]; omega⟩, Int.toNat_natCast]
  · rw [List.length_map, h.1]
  · intro i hi
    rw [row3_map (by rw [h.1]; exact hi)]
    refine ⟨by rw [List.length_map, (h.2 i hi).1], fun j hj => ?_⟩
    rw [row_map (by rw [(h.2 i hi).1]; exact hj), List.length_take, (h.2 i hi).2 j hj]; omega
  · intro i hi j hj k hk
    unfold ent3 ent
    rw [row3_map (by rw [h.1]; exact hi), row_map (by rw [(h.2 i hi).1]; exact hj), nth_take hk]

theorem dropW (h : IsCube net a b d) {x : ℤ} (hx : x = e) (he : e ≤ d) : ∃ net', mapR (mapR fun y => dropR y x) net = ok net' ∧ IsCube net' a b (d - e) ∧
    ∀ i < a, ∀ j < b, ∀ k < d - e, ent3 net' i j k = ent3 net i j (k + e) := by
  subst hx
  refine ⟨net.map (List.map (List.drop e)), mapR_ok ?_, ⟨?_, ?_⟩, ?_⟩
  · intro y hy
    obtain ⟨i, hi, rfl⟩ := mem_row3 hy
    rw [h.1] at hi
    refine mapR_ok ?_
    intro z hz
    obtain ⟨j, hj, rfl⟩ := mem_row hz
    rw [(h.2 i hi).1] at hj
    unfold dropR; rw [if_pos ⟨by omega, by rw [(h.2 i hi).2 j hj]; omega⟩, Int.toNat_natCast]
  · rw [List.length_map, h.1]
  · intro i hi
    rw [row3_map (by rw [h.1]; exact hi)]
    refine ⟨by rw [List.length_map, (h.2 i hi).1], fun j hj => ?_⟩
    rw [row_map (by rw [(h.2 i hi).1]; exact hj), List.length_drop, (h.2 i hi).2 j hj]
  · intro i hi j hj k hk
    unfold ent3 ent
    rw [row3_map (by rw [h.1]; exact hi), row_map (by rw [(h.2 i hi).1]; exact hj), nth_drop']

/-! ## C78 -/

theorem raise_u {c : BsplineVolume K T} {p q r n m l : ℕ} {x : K} (wf : WellFormedV c p q r n m l) (he : EndsSeparatedV c p q r n m l)
    (hsep : WellSeparated (c.knotsU ++ [x])) (h0 : nth c.knotsU p < x) (h1 : x < nth c.knotsU (n + 1)) (hmul : c.knotsU.count x ≤ p) :
    ∃ (c1 : BsplineVolume K T) (n1 k : ℕ), raiseKnot c c.degreeU (fun c => c.knotsU) x .u = ok (c1, (k : ℤ), (p : ℤ)) ∧ WellFormedV c1 p q r n1 m l ∧
      EndsSeparatedV c1 p q r n1 m l ∧ CutAt (nth c1.knotsU) p n1 k x ∧ WellSeparated (c1.knotsU ++ [x]) ∧ c1.knotsV = c.knotsV ∧ c1.knotsW = c.knotsW ∧
      nth c1.knotsU p = nth c.knotsU p ∧ nth c1.knotsU (n1 + 1) = nth c.knotsU (n + 1) ∧
      ∀ u v w, InDomainV c p q r n m l u v w → InDomainV c1 p q r n1 m l u v w ∧ c1.pointOnVolume u v w = c.pointOnVolume u v w := by
  have hl := wf.u.knots
  have hpn := wf.u.pn
  have hm := goodDir_mono wf.u
  have hks := wellSep_knot hsep
  have hpw := (isValidKnotVector_iff c.knotsU).mp (isValidKnotVector_nth.mpr wf.u.sorted)
  have hmulti := C17_multiplicity_exact (U := c.knotsU) (u := x) (by intro h; rw [h] at hl; simp at hl) hpw
    ((hm 0 p (by omega) (by omega)).trans h0.le) (by rw [hl]; exact h1.le.trans (hm (n + 1) (n + p + 1) (by omega) (by omega))) hks
  obtain ⟨s, es, hs⟩ := getKnotSpanIndex_isSpan wf.u.knots wf.u.pn wf.u.sorted he.u h0.le h1.le
  have hrun : raiseKnot c c.degreeU (fun c => c.knotsU) x .u = (if (p : ℤ) - (c.knotsU.count x : ℕ) > 0 then do
      let c' ← insertKnotVolume c x ((p : ℤ) - (c.knotsU.count x : ℕ)) .u
      let k ← getKnotSpanIndex (p : ℤ) c'.knotsU x
      let s ← getKnotMultiplicity c'.knotsU x
      ok (c', k, s)
    else ok (c, (s : ℤ), ((c.knotsU.count x : ℕ) : ℤ)) : Res (BsplineVolume K T × ℤ × ℤ)) := by
    unfold raiseKnot
    dsimp only
    rw [wf.u.degree, es, ok_bind, hmulti, ok_bind]
  by_cases hc : c.knotsU.count x = p
  · obtain ⟨k, e1, e2, h⟩ := cutAt_of wf.u he.u hks h0 h1 hc
    rw [wf.u.degree, es] at e1
    refine ⟨c, n, k, ?_, wf, he, h, hsep, rfl, rfl, rfl, rfl, fun u v w d => ⟨d, rfl⟩⟩
    rw [hrun, if_neg (by omega), hc]
    simp only [ok.injEq] at e1
    rw [e1]
  · obtain ⟨c', i1, i2, i3, i4, i5, i6, i7⟩ := C77_insert_u (t := p - c.knotsU.count x) wf he hks h0 h1 (by omega) (by omega)
    have hx0 : nth c'.knotsU p = nth c.knotsU p ∧ nth c'.knotsU (n + (p - c.knotsU.count x) + 1) = nth c.knotsU (n + 1) := by
      obtain ⟨kv, g1, g2, g3, g4, g5, -⟩ := insertFibre T wf.u he.u hks h0 h1 (t := p - c.knotsU.count x) (by omega) (by omega)
      rw [perm_sorted_eq (i4.trans g2.symm) i2.u.sorted g1.sorted]
      exact ⟨g4, g5⟩
    have hsub : ∀ y ∈ c'.knotsU ++ [x], y ∈ c.knotsU ++ [x] := by
      intro y hy
      rcases List.mem_append.mp hy with h | h
      · rcases List.mem_append.mp (i4.mem_iff.mp h) with h | h
        · exact List.mem_append_left _ h
        · rw [List.eq_of_mem_replicate h]; simp
      · exact List.mem_append_right _ h
    have hsep' : WellSeparated (c'.knotsU ++ [x]) := fun a ha b hb => hsep a (hsub a ha) b (hsub b hb)
    have hcnt : c'.knotsU.count x = p := by
      rw [i4.count_eq, List.count_append, List.count_replicate_self]; omega
    obtain ⟨k, e1, e2, h⟩ := cutAt_of i2.u i3.u (wellSep_knot hsep') (by rw [hx0.1]; exact h0) (by rw [hx0.2]; exact h1) hcnt
    refine ⟨c', _, k, ?_, i2, i3, h, hsep', i5, i6, hx0.1, hx0.2, i7⟩
    rw [hrun, if_pos (by omega), show (p : ℤ) - (c.knotsU.count x : ℕ) = (((p - c.knotsU.count x : ℕ)) : ℤ) by omega, i1, ok_bind]
    rw [i2.u.degree] at e1
    rw [e1, ok_bind, e2]
    rfl

/-- C78 (U): for every value strictly inside the U range of multiplicity at most the degree (and clearly apart from the knots it is not
equal to), `SplitAt` returns two well-formed volumes that cover the two parts of the range and have the points of the original, the
cut included. -/
theorem C78_split_u {c : BsplineVolume K T} {p q r n m l : ℕ} {x : K} (wf : WellFormedV c p q r n m l) (he : EndsSeparatedV c p q r n m l)
    (hsep : WellSeparated (c.knotsU ++ [x])) (h0 : nth c.knotsU p < x) (h1 : x < nth c.knotsU (n + 1)) (hmul : c.knotsU.count x ≤ p) :
    ∃ (L R : BsplineVolume K T) (nl nr : ℕ), splitVolume c x .u = ok (L, R) ∧ WellFormedV L p q r nl m l ∧ WellFormedV R p q r nr m l ∧
      nth L.knotsU p = nth c.knotsU p ∧ nth L.knotsU (nl + 1) = x ∧ nth R.knotsU p = x ∧ nth R.knotsU (nr + 1) = nth c.knotsU (n + 1) ∧
      ∀ u v w, InDomainV c p q r n m l u v w → (u ≤ x → L.pointOnVolume u v w = c.pointOnVolume u v w) ∧ (x ≤ u → R.pointOnVolume u v w = c.pointOnVolume u v w) := by
  obtain ⟨c1, n1, k, hr, w1, e1, hcut, hsep1, hA, hB, hends1, hends2, hpt⟩ := raise_u wf he hsep h0 h1 hmul
  have hl := wf.u.knots
  have hpn := wf.u.pn
  have hp := wf.u.pos
  have hm := goodDir_mono wf.u
  have hpk := hcut.pk
  have hkn := hcut.span.2.1
  obtain ⟨kl, kr, hs, gl, gr, el, er, lk, lk1, rk0, rk⟩ := splitKnots_run w1.u e1.u hsep1 hcut
  obtain ⟨nl, hl1, hl2, hl3⟩ := takeU w1.cps (x := (k : ℤ) - p + 1) (e := k - p + 1) (by omega) (by omega)
  obtain ⟨nr, hr1, hr2, hr3⟩ := dropU w1.cps (x := (k : ℤ) - p) (e := k - p) (by omega) (by omega)
  rw [show n1 + 1 - (k - p) = n1 - k + p + 1 by omega] at hr2 hr3
  have f0 : isAlmostEqualTo x (nth c.knotsU 0) = false :=
    wellSep_not_almost hsep (mem_of_nth (by omega)) (fun h => by have := hm 0 p (by omega) (by omega); rw [h] at this; exact absurd h0 (not_lt.mpr this))
  have f1 : isAlmostEqualTo x (nth c.knotsU (n + p + 1)) = false :=
    wellSep_not_almost hsep (mem_of_nth (by omega)) (fun h => by have := hm (n + 1) (n + p + 1) (by omega) (by omega); rw [h] at this; exact absurd h1 (not_lt.mpr this))
  have wl : WellFormedV { c1 with knotsU := kl, cps := nl } p q r (k - p) m l := ⟨gl, w1.v, w1.w, hl2⟩
  have wr : WellFormedV { c1 with knotsU := kr, cps := nr } p q r (n1 - k + p) m l := ⟨gr, w1.v, w1.w, hr2⟩
  have elp : nth kl p = nth c1.knotsU p := lk _ (by omega)
  have ele : nth kl (k - p + 1) = x := by rw [lk _ (by omega)]; exact hcut.blk _ (by omega) (by omega)
  have erp : nth kr p = x := by rw [rk _ (by omega) (by omega), show p + (k - p) = k by omega]; exact hcut.blk k (by omega) (le_refl _)
  have ere : nth kr (n1 - k + p + 1) = nth c1.knotsU (n1 + 1) := by rw [rk _ (by omega) (by omega)]; congr 1; omega
  refine ⟨_, _, k - p, n1 - k + p, ?_, wl, wr, elp.trans hends1, ele, erp, ere.trans hends2, ?_⟩
  · unfold splitVolume
    dsimp only
    rw [vget_nth (i := 0) (k := 0) rfl (by omega), ok_bind, vget_nth (k := n + p + 1) (by omega) (by omega), ok_bind, f0, f1]
    simp only [Bool.or_self, Bool.false_eq_true, if_false]
    rw [hr, ok_bind]
    dsimp only
    rw [hs, ok_bind]
    dsimp only
    rw [hl1, ok_bind, hr1, ok_bind]
  · intro u v w d
    obtain ⟨d1, hq⟩ := hpt u v w d
    rw [← hq, C50_eval w1 e1 d1]
    clear hq d
    have d := d1
    constructor
    · intro hx
      rw [C50_eval wl ⟨el, e1.v, e1.w⟩ ⟨(by dsimp only; rw [elp]; exact d.u0), (by dsimp only; rw [ele]; exact hx), d.v0, d.v1, d.w0, d.w1⟩]
      refine congrArg ok ?_
      refine volumePoint_along fun j hj k hk => ?_
      rw [← hcut.left (P := fun i => ent3 c1.cps i j k) hp lk lk1 d.u0 hx]
      exact curvePoint_congr fun i hi => hl3 i (by omega) j (by omega) k (by omega)
    · intro hx
      rw [C50_eval wr ⟨er, e1.v, e1.w⟩ ⟨(by dsimp only; rw [erp]; exact hx), (by dsimp only; rw [ere]; exact d.u1), d.v0, d.v1, d.w0, d.w1⟩]
      refine congrArg ok ?_
      refine volumePoint_along fun j hj k hk => ?_
      exact hcut.right (P := fun i => ent3 c1.cps i j k) hp rk0 rk (fun i hi => hr3 i (by omega) j (by omega) k (by omega)) hx d.u1

theorem raise_v {c : BsplineVolume K T} {p q r n m l : ℕ} {x : K} (wf : WellFormedV c p q r n m l) (he : EndsSeparatedV c p q r n m l)
    (hsep : WellSeparated (c.knotsV ++ [x])) (h0 : nth c.knotsV q < x) (h1 : x < nth c.knotsV (m + 1)) (hmul : c.knotsV.count x ≤ q) :
    ∃ (c1 : BsplineVolume K T) (n1 k : ℕ), raiseKnot c c.degreeV (fun c => c.knotsV) x .v = ok (c1, (k : ℤ), (q : ℤ)) ∧ WellFormedV c1 p q r n n1 l ∧
      EndsSeparatedV c1 p q r n n1 l ∧ CutAt (nth c1.knotsV) q n1 k x ∧ WellSeparated (c1.knotsV ++ [x]) ∧ c1.knotsU = c.knotsU ∧ c1.knotsW = c.knotsW ∧
      nth c1.knotsV q = nth c.knotsV q ∧ nth c1.knotsV (n1 + 1) = nth c.knotsV (m + 1) ∧
      ∀ u v w, InDomainV c p q r n m l u v w → InDomainV c1 p q r n n1 l u v w ∧ c1.pointOnVolume u v w = c.pointOnVolume u v w := by
  have hl := wf.v.knots
  have hpn := wf.v.pn
  have hm := goodDir_mono wf.v
  have hks := wellSep_knot hsep
  have hpw := (isValidKnotVector_iff c.knotsV).mp (isValidKnotVector_nth.mpr wf.v.sorted)
  have hmulti := C17_multiplicity_exact (U := c.knotsV) (u := x) (by intro h; rw [h] at hl; simp at hl) hpw
    ((hm 0 q (by omega) (by omega)).trans h0.le) (by rw [hl]; exact h1.le.trans (hm (m + 1) (m + q + 1) (by omega) (by omega))) hks
  obtain ⟨s, es, hs⟩ := getKnotSpanIndex_isSpan wf.v.knots wf.v.pn wf.v.sorted he.v h0.le h1.le
  have hrun : raiseKnot c c.degreeV (fun c => c.knotsV) x .v = (if (q : ℤ) - (c.knotsV.count x : ℕ) > 0 then do
      let c' ← insertKnotVolume c x ((q : ℤ) - (c.knotsV.count x : ℕ)) .v
      let k ← getKnotSpanIndex (q : ℤ) c'.knotsV x
      let s ← getKnotMultiplicity c'.knotsV x
      ok (c', k, s)
    else ok (c, (s : ℤ), ((c.knotsV.count x : ℕ) : ℤ)) : Res (BsplineVolume K T × ℤ × ℤ)) := by
    unfold raiseKnot
    dsimp only
    rw [wf.v.degree, es, ok_bind, hmulti, ok_bind]
  by_cases hc : c.knotsV.count x = q
  · obtain ⟨k, e1, e2, h⟩ := cutAt_of wf.v he.v hks h0 h1 hc
    rw [wf.v.degree, es] at e1
    refine ⟨c, m, k, ?_, wf, he, h, hsep, rfl, rfl, rfl, rfl, fun u v w d => ⟨d, rfl⟩⟩
    rw [hrun, if_neg (by omega), hc]
    simp only [ok.injEq] at e1
    rw [e1]
  · obtain ⟨c', i1, i2, i3, i4, i5, i6, i7⟩ := C77_insert_v (t := q - c.knotsV.count x) wf he hks h0 h1 (by omega) (by omega)
    have hx0 : nth c'.knotsV q = nth c.knotsV q ∧ nth c'.knotsV (m + (q - c.knotsV.count x) + 1) = nth c.knotsV (m + 1) := by
      obtain ⟨kv, g1, g2, g3, g4, g5, -⟩ := insertFibre T wf.v he.v hks h0 h1 (t := q - c.knotsV.count x) (by omega) (by omega)
      rw [perm_sorted_eq (i4.trans g2.symm) i2.v.sorted g1.sorted]
      exact ⟨g4, g5⟩
    have hsub : ∀ y ∈ c'.knotsV ++ [x], y ∈ c.knotsV ++ [x] := by
      intro y hy
      rcases List.mem_append.mp hy with h | h
      · rcases List.mem_append.mp (i4.mem_iff.mp h) with h | h
        · exact List.mem_append_left _ h
        · rw [List.eq_of_mem_replicate h]; simp
      · exact List.mem_append_right _ h
    have hsep' : WellSeparated (c'.knotsV ++ [x]) := fun a ha b hb => hsep a (hsub a ha) b (hsub b hb)
    have hcnt : c'.knotsV.count x = q := by
      rw [i4.count_eq, List.count_append, List.count_replicate_self]; omega
    obtain ⟨k, e1, e2, h⟩ := cutAt_of i2.v i3.v (wellSep_knot hsep') (by rw [hx0.1]; exact h0) (by rw [hx0.2]; exact h1) hcnt
    refine ⟨c', _, k, ?_, i2, i3, h, hsep', i5, i6, hx0.1, hx0.2, i7⟩
    rw [hrun, if_pos (by omega), show (q : ℤ) - (c.knotsV.count x : ℕ) = (((q - c.knotsV.count x : ℕ)) : ℤ) by omega, i1, ok_bind]
    rw [i2.v.degree] at e1
    rw [e1, ok_bind, e2]
    rfl

/-- C78 (V): for every value strictly inside the V range of multiplicity at most the degree (and clearly apart from the knots it is not
equal to), `SplitAt` returns two well-formed volumes that cover the two parts of the range and have the points of the original, the
cut included. -/
theorem C78_split_v {c : BsplineVolume K T} {p q r n m l : ℕ} {x : K} (wf : WellFormedV c p q r n m l) (he : EndsSeparatedV c p q r n m l)
    (hsep : WellSeparated (c.knotsV ++ [x])) (h0 : nth c.knotsV q < x) (h1 : x < nth c.knotsV (m + 1)) (hmul : c.knotsV.count x ≤ q) :
    ∃ (L R : BsplineVolume K T) (nl nr : ℕ), splitVolume c x .v = ok (L, R) ∧ WellFormedV L p q r n nl l ∧ WellFormedV R p q r n nr l ∧
      nth L.knotsV q = nth c.knotsV q ∧ nth L.knotsV (nl + 1) = x ∧ nth R.knotsV q = x ∧ nth R.knotsV (nr + 1) = nth c.knotsV (m + 1) ∧
      ∀ u v w, InDomainV c p q r n m l u v w → (v ≤ x → L.pointOnVolume u v w = c.pointOnVolume u v w) ∧ (x ≤ v → R.pointOnVolume u v w = c.pointOnVolume u v w) := by
  obtain ⟨c1, n1, k, hr, w1, e1, hcut, hsep1, hA, hB, hends1, hends2, hpt⟩ := raise_v wf he hsep h0 h1 hmul
  have hl := wf.v.knots
  have hpn := wf.v.pn
  have hp := wf.v.pos
  have hm := goodDir_mono wf.v
  have hpk := hcut.pk
  have hkn := hcut.span.2.1
  obtain ⟨kl, kr, hs, gl, gr, el, er, lk, lk1, rk0, rk⟩ := splitKnots_run w1.v e1.v hsep1 hcut
  obtain ⟨nl, hl1, hl2, hl3⟩ := takeV w1.cps (x := (k : ℤ) - q + 1) (e := k - q + 1) (by omega) (by omega)
  obtain ⟨nr, hr1, hr2, hr3⟩ := dropV w1.cps (x := (k : ℤ) - q) (e := k - q) (by omega) (by omega)
  rw [show n1 + 1 - (k - q) = n1 - k + q + 1 by omega] at hr2 hr3
  have f0 : isAlmostEqualTo x (nth c.knotsV 0) = false :=
    wellSep_not_almost hsep (mem_of_nth (by omega)) (fun h => by have := hm 0 q (by omega) (by omega); rw [h] at this; exact absurd h0 (not_lt.mpr this))
  have f1 : isAlmostEqualTo x (nth c.knotsV (m + q + 1)) = false :=
    wellSep_not_almost hsep (mem_of_nth (by omega)) (fun h => by have := hm (m + 1) (m + q + 1) (by omega) (by omega); rw [h] at this; exact absurd h1 (not_lt.mpr this))
  have wl : WellFormedV { c1 with knotsV := kl, cps := nl } p q r n (k - q) l := ⟨w1.u, gl, w1.w, hl2⟩
  have wr : WellFormedV { c1 with knotsV := kr, cps := nr } p q r n (n1 - k + q) l := ⟨w1.u, gr, w1.w, hr2⟩
  have elp : nth kl q = nth c1.knotsV q := lk _ (by omega)
  have ele : nth kl (k - q + 1) = x := by rw [lk _ (by omega)]; exact hcut.blk _ (by omega) (by omega)
  have erp : nth kr q = x := by rw [rk _ (by omega) (by omega), show q + (k - q) = k by omega]; exact hcut.blk k (by omega) (le_refl _)
  have ere : nth kr (n1 - k + q + 1) = nth c1.knotsV (n1 + 1) := by rw [rk _ (by omega) (by omega)]; congr 1; omega
  refine ⟨_, _, k - q, n1 - k + q, ?_, wl, wr, elp.trans hends1, ele, erp, ere.trans hends2, ?_⟩
  · unfold splitVolume
    dsimp only
    rw [vget_nth (i := 0) (k := 0) rfl (by omega), ok_bind, vget_nth (k := m + q + 1) (by omega) (by omega), ok_bind, f0, f1]
    simp only [Bool.or_self, Bool.false_eq_true, if_false]
    rw [hr, ok_bind]
    dsimp only
    rw [hs, ok_bind]
    dsimp only
    rw [hl1, ok_bind, hr1, ok_bind]
  · intro u v w d
    obtain ⟨d1, hq⟩ := hpt u v w d
    rw [← hq, C50_eval w1 e1 d1]
    clear hq d
    have d := d1
    constructor
    · intro hx
      rw [C50_eval wl ⟨e1.u, el, e1.w⟩ ⟨d.u0, d.u1, (by dsimp only; rw [elp]; exact d.v0), (by dsimp only; rw [ele]; exact hx), d.w0, d.w1⟩]
      refine congrArg ok ?_
      rw [volumePoint_swapUV, volumePoint_swapUV (U := nth c1.knotsU)]
      refine volumePoint_along fun i hi k hk => ?_
      rw [← hcut.left (P := fun j => ent3 c1.cps i j k) hp lk lk1 d.v0 hx]
      exact curvePoint_congr fun j hj => hl3 i (by omega) j (by omega) k (by omega)
    · intro hx
      rw [C50_eval wr ⟨e1.u, er, e1.w⟩ ⟨d.u0, d.u1, (by dsimp only; rw [erp]; exact hx), (by dsimp only; rw [ere]; exact d.v1), d.w0, d.w1⟩]
      refine congrArg ok ?_
      rw [volumePoint_swapUV, volumePoint_swapUV (U := nth c1.knotsU)]
      refine volumePoint_along fun i hi k hk => ?_
      exact hcut.right (P := fun j => ent3 c1.cps i j k) hp rk0 rk (fun j hj => hr3 i (by omega) j (by omega) k (by omega)) hx d.v1

theorem raise_w {c : BsplineVolume K T} {p q r n m l : ℕ} {x : K} (wf : WellFormedV c p q r n m l) (he : EndsSeparatedV c p q r n m l)
    (hsep : WellSeparated (c.knotsW ++ [x])) (h0 : nth c.knotsW r < x) (h1 : x < nth c.knotsW (l + 1)) (hmul : c.knotsW.count x ≤ r) :
    ∃ (c1 : BsplineVolume K T) (n1 k : ℕ), raiseKnot c c.degreeW (fun c => c.knotsW) x .w = ok (c1, (k : ℤ), (r : ℤ)) ∧ WellFormedV c1 p q r n m n1 ∧
      EndsSeparatedV c1 p q r n m n1 ∧ CutAt (nth c1.knotsW) r n1 k x ∧ WellSeparated (c1.knotsW ++ [x]) ∧ c1.knotsU = c.knotsU ∧ c1.knotsV = c.knotsV ∧
      nth c1.knotsW r = nth c.knotsW r ∧ nth c1.knotsW (n1 + 1) = nth c.knotsW (l + 1) ∧
      ∀ u v w, InDomainV c p q r n m l u v w → InDomainV c1 p q r n m n1 u v w ∧ c1.pointOnVolume u v w = c.pointOnVolume u v w := by
  have hl := wf.w.knots
  have hpn := wf.w.pn
  have hm := goodDir_mono wf.w
  have hks := wellSep_knot hsep
  have hpw := (isValidKnotVector_iff c.knotsW).mp (isValidKnotVector_nth.mpr wf.w.sorted)
  have hmulti := C17_multiplicity_exact (U := c.knotsW) (u := x) (by intro h; rw [h] at hl; simp at hl) hpw
    ((hm 0 r (by omega) (by omega)).trans h0.le) (by rw [hl]; exact h1.le.trans (hm (l + 1) (l + r + 1) (by omega) (by omega))) hks
  obtain ⟨s, es, hs⟩ := getKnotSpanIndex_isSpan wf.w.knots wf.w.pn wf.w.sorted he.w h0.le h1.le
  have hrun : raiseKnot c c.degreeW (fun c => c.knotsW) x .w = (if (r : ℤ) - (c.knotsW.count x : ℕ) > 0 then do
      let c' ← insertKnotVolume c x ((r : ℤ) - (c.knotsW.count x : ℕ)) .w
      let k ← getKnotSpanIndex (r : ℤ) c'.knotsW x
      let s ← getKnotMultiplicity c'.knotsW x
      ok (c', k, s)
    else ok (c, (s : ℤ), ((c.knotsW.count x : ℕ) : ℤ)) : Res (BsplineVolume K T × ℤ × ℤ)) := by
    unfold raiseKnot
    dsimp only
    rw [wf.w.degree, es, ok_bind, hmulti, ok_bind]
  by_cases hc : c.knotsW.count x = r
  · obtain ⟨k, e1, e2, h⟩ := cutAt_of wf.w he.w hks h0 h1 hc
    rw [wf.w.degree, es] at e1
    refine ⟨c, l, k, ?_, wf, he, h, hsep, rfl, rfl, rfl, rfl, fun u v w d => ⟨d, rfl⟩⟩
    rw [hrun, if_neg (by omega), hc]
    simp only [ok.injEq] at e1
    rw [e1]
  · obtain ⟨c', i1, i2, i3, i4, i5, i6, i7⟩ := C77_insert_w (t := r - c.knotsW.count x) wf he hks h0 h1 (by omega) (by omega)
    have hx0 : nth c'.knotsW r = nth c.knotsW r ∧ nth c'.knotsW (l + (r - c.knotsW.count x) + 1) = nth c.knotsW (l + 1) := by
      obtain ⟨kv, g1, g2, g3, g4, g5, -⟩ := insertFibre T wf.w he.w hks h0 h1 (t := r - c.knotsW.count x) (by omega) (by omega)
      rw [perm_sorted_eq (i4.trans g2.symm) i2.w.sorted g1.sorted]
      exact ⟨g4, g5⟩
    have hsub : ∀ y ∈ c'.knotsW ++ [x], y ∈ c.knotsW ++ [x] := by
      intro y hy
      rcases List.mem_append.mp hy with h | h
      · rcases List.mem_append.mp (i4.mem_iff.mp h) with h | h
        · exact List.mem_append_left _ h
        · rw [List.eq_of_mem_replicate h]; simp
      · exact List.mem_append_right _ h
    have hsep' : WellSeparated (c'.knotsW ++ [x]) := fun a ha b hb => hsep a (hsub a ha) b (hsub b hb)
    have hcnt : c'.knotsW.count x = r := by
      rw [i4.count_eq, List.count_append, List.count_replicate_self]; omega
    obtain ⟨k, e1, e2, h⟩ := cutAt_of i2.w i3.w (wellSep_knot hsep') (by rw [hx0.1]; exact h0) (by rw [hx0.2]; exact h1) hcnt
    refine ⟨c', _, k, ?_, i2, i3, h, hsep', i5, i6, hx0.1, hx0.2, i7⟩
    rw [hrun, if_pos (by omega), show (r : ℤ) - (c.knotsW.count x : ℕ) = (((r - c.knotsW.count x : ℕ)) : ℤ) by omega, i1, ok_bind]
    rw [i2.w.degree] at e1
    rw [e1, ok_bind, e2]
    rfl

/-- C78 (W): for every value strictly inside the W range of multiplicity at most the degree (and clearly apart from the knots it is not
equal to), `SplitAt` returns two well-formed volumes that cover the two parts of the range and have the points of the original, the
cut included. -/
theorem C78_split_w {c : BsplineVolume K T} {p q r n m l : ℕ} {x : K} (wf : WellFormedV c p q r n m l) (he : EndsSeparatedV c p q r n m l)
    (hsep : WellSeparated (c.knotsW ++ [x])) (h0 : nth c.knotsW r < x) (h1 : x < nth c.knotsW (l + 1)) (hmul : c.knotsW.count x ≤ r) :
    ∃ (L R : BsplineVolume K T) (nl nr : ℕ), splitVolume c x .w = ok (L, R) ∧ WellFormedV L p q r n m nl ∧ WellFormedV R p q r n m nr ∧
      nth L.knotsW r = nth c.knotsW r ∧ nth L.knotsW (nl + 1) = x ∧ nth R.knotsW r = x ∧ nth R.knotsW (nr + 1) = nth c.knotsW (l + 1) ∧
      ∀ u v w, InDomainV c p q r n m l u v w → (w ≤ x → L.pointOnVolume u v w = c.pointOnVolume u v w) ∧ (x ≤ w → R.pointOnVolume u v w = c.pointOnVolume u v w) := by
  obtain ⟨c1, n1, k, hr, w1, e1, hcut, hsep1, hA, hB, hends1, hends2, hpt⟩ := raise_w wf he hsep h0 h1 hmul
  have hl := wf.w.knots
  have hpn := wf.w.pn
  have hp := wf.w.pos
  have hm := goodDir_mono wf.w
  have hpk := hcut.pk
  have hkn := hcut.span.2.1
  obtain ⟨kl, kr, hs, gl, gr, el, er, lk, lk1, rk0, rk⟩ := splitKnots_run w1.w e1.w hsep1 hcut
  obtain ⟨nl, hl1, hl2, hl3⟩ := takeW w1.cps (x := (k : ℤ) - r + 1) (e := k - r + 1) (by omega) (by omega)
  obtain ⟨nr, hr1, hr2, hr3⟩ := dropW w1.cps (x := (k : ℤ) - r) (e := k - r) (by omega) (by omega)
  rw [show n1 + 1 - (k - r) = n1 - k + r + 1 by omega] at hr2 hr3
  have f0 : isAlmostEqualTo x (nth c.knotsW 0) = false :=
    wellSep_not_almost hsep (mem_of_nth (by omega)) (fun h => by have := hm 0 r (by omega) (by omega); rw [h] at this; exact absurd h0 (not_lt.mpr this))
  have f1 : isAlmostEqualTo x (nth c.knotsW (l + r + 1)) = false :=
    wellSep_not_almost hsep (mem_of_nth (by omega)) (fun h => by have := hm (l + 1) (l + r + 1) (by omega) (by omega); rw [h] at this; exact absurd h1 (not_lt.mpr this))
  have wl : WellFormedV { c1 with knotsW := kl, cps := nl } p q r n m (k - r) := ⟨w1.u, w1.v, gl, hl2⟩
  have wr : WellFormedV { c1 with knotsW := kr, cps := nr } p q r n m (n1 - k + r) := ⟨w1.u, w1.v, gr, hr2⟩
  have elp : nth kl r = nth c1.knotsW r := lk _ (by omega)
  have ele : nth kl (k - r + 1) = x := by rw [lk _ (by omega)]; exact hcut.blk _ (by omega) (by omega)
  have erp : nth kr r = x := by rw [rk _ (by omega) (by omega), show r + (k - r) = k by omega]; exact hcut.blk k (by omega) (le_refl _)
  have ere : nth kr (n1 - k + r + 1) = nth c1.knotsW (n1 + 1) := by rw [rk _ (by omega) (by omega)]; congr 1; omega
  refine ⟨_, _, k - r, n1 - k + r, ?_, wl, wr, elp.trans hends1, ele, erp, ere.trans hends2, ?_⟩
  · unfold splitVolume
    dsimp only
    rw [vget_nth (i := 0) (k := 0) rfl (by omega), ok_bind, vget_nth (k := l + r + 1) (by omega) (by omega), ok_bind, f0, f1]
    simp only [Bool.or_self, Bool.false_eq_true, if_false]
    rw [hr, ok_bind]
    dsimp only
    rw [hs, ok_bind]
    dsimp only
    rw [hl1, ok_bind, hr1, ok_bind]
  · intro u v w d
    obtain ⟨d1, hq⟩ := hpt u v w d
    rw [← hq, C50_eval w1 e1 d1]
    clear hq d
    have d := d1
    constructor
    · intro hx
      rw [C50_eval wl ⟨e1.u, e1.v, el⟩ ⟨d.u0, d.u1, d.v0, d.v1, (by dsimp only; rw [elp]; exact d.w0), (by dsimp only; rw [ele]; exact hx)⟩]
      refine congrArg ok ?_
      rw [volumePoint_swapUW, volumePoint_swapUW (U := nth c1.knotsU)]
      refine volumePoint_along fun j hj i hi => ?_
      rw [← hcut.left (P := fun k => ent3 c1.cps i j k) hp lk lk1 d.w0 hx]
      exact curvePoint_congr fun k hk => hl3 i (by omega) j (by omega) k (by omega)
    · intro hx
      rw [C50_eval wr ⟨e1.u, e1.v, er⟩ ⟨d.u0, d.u1, d.v0, d.v1, (by dsimp only; rw [erp]; exact hx), (by dsimp only; rw [ere]; exact d.w1)⟩]
      refine congrArg ok ?_
      rw [volumePoint_swapUW, volumePoint_swapUW (U := nth c1.knotsU)]
      refine volumePoint_along fun j hj i hi => ?_
      exact hcut.right (P := fun k => ent3 c1.cps i j k) hp rk0 rk (fun k hk => hr3 i (by omega) j (by omega) k (by omega)) hx d.w1

/-- C78 is not vacuous -/
example : (∃ L R, splitVolume exVolume (1/2) .u = ok (L, R) ∧ L.knotsU = [0, 0, 0, 1/2, 1/2, 1/2] ∧ R.knotsU = [1/2, 1/2, 1/2, 1, 1, 1]) ∧
    (∃ (L R : NurbsVolume ℚ) (nl nr : ℕ), splitVolume exVolume (1/2) .v = ok (L, R) ∧ WellFormedV L 2 1 1 3 nl 1 ∧ WellFormedV R 2 1 1 3 nr 1) ∧
    ∃ (L R : NurbsVolume ℚ) (nl nr : ℕ), splitVolume exVolume 1 .w = ok (L, R) ∧ WellFormedV L 2 1 1 3 2 nl ∧ WellFormedV R 2 1 1 3 2 nr := by
  refine ⟨?_, ?_, ?_⟩
  · obtain ⟨L, R, nl, nr, e, -⟩ := C78_split_u (x := 1/2) exVolume_wf exVolume_ends (by unfold WellSeparated; decide +kernel) (by decide +kernel) (by decide +kernel) (by decide +kernel)
    have : (splitVolume exVolume (1/2) .u).bind (fun x => ok (x.1.knotsU, x.2.knotsU)) = ok ([0, 0, 0, 1/2, 1/2, 1/2], [1/2, 1/2, 1/2, 1, 1, 1]) := by decide +kernel
    rw [e] at this
    have h : L.knotsU = [0, 0, 0, 1/2, 1/2, 1/2] ∧ R.knotsU = [1/2, 1/2, 1/2, 1, 1, 1] := by simpa [Res.bind] using this
    exact ⟨L, R, e, h⟩
  · obtain ⟨L, R, nl, nr, e, w1, w2, -⟩ := C78_split_v (x := 1/2) exVolume_wf exVolume_ends (by unfold WellSeparated; decide +kernel) (by decide +kernel) (by decide +kernel) (by decide +kernel)
    exact ⟨L, R, nl, nr, e, w1, w2⟩
  · obtain ⟨L, R, nl, nr, e, w1, w2, -⟩ := C78_split_w (x := 1) exVolume_wf exVolume_ends (by unfold WellSeparated; decide +kernel) (by decide +kernel) (by decide +kernel) (by decide +kernel)
    exact ⟨L, R, nl, nr, e, w1, w2⟩

/-- C78 disagreement: at (up to tolerance) an end of the range nothing is cut, yet the answer is still "true" and both halves are
copies of the whole volume. -/
theorem C78_split_end_copies {c : BsplineVolume K T} {p q r n m l : ℕ} {x : K} (wf : WellFormedV c p q r n m l)
    (hx : isAlmostEqualTo x (nth c.knotsU 0) = true ∨ isAlmostEqualTo x (nth c.knotsU (n + p + 1)) = true) : splitVolume c x .u = ok (c, c) := by
  have hl := wf.u.knots
  unfold splitVolume
  dsimp only
  rw [vget_nth (i := 0) (k := 0) rfl (by omega), ok_bind, vget_nth (k := n + p + 1) (by omega) (by omega), ok_bind, if_pos (by simpa using hx)]

/-- a volume with an interior knot of multiplicity degree plus one -/
def exVolumeJump : NurbsVolume ℚ :=
  { degreeU := 1, degreeV := 1, degreeW := 1, knotsU := [0, 0, 1/2, 1/2, 1, 1], knotsV := [0, 0, 1, 1], knotsW := [0, 0, 1, 1]
    cps := [[[⟨0, 0, 0, 1⟩, ⟨0, 0, 1, 1⟩], [⟨0, 1, 0, 1⟩, ⟨0, 1, 1, 1⟩]], [[⟨1, 0, 0, 1⟩, ⟨1, 0, 1, 1⟩], [⟨1, 1, 0, 1⟩, ⟨1, 1, 1, 1⟩]],
      [[⟨2, 0, 0, 1⟩, ⟨2, 0, 1, 1⟩], [⟨2, 1, 0, 1⟩, ⟨2, 1, 1, 1⟩]], [[⟨3, 0, 0, 1⟩, ⟨3, 0, 1, 1⟩], [⟨3, 1, 0, 1⟩, ⟨3, 1, 1, 1⟩]]] }

/-- C78 violated: at an interior knot of multiplicity degree plus one the halves have one knot too many. -/
theorem C78_full_multiplicity_violated : WellFormedV exVolumeJump 1 1 1 3 1 1 ∧
    ∃ L R, splitVolume exVolumeJump (1/2) .u = ok (L, R) ∧ ∀ p q r n m l, ¬ WellFormedV L p q r n m l := by
  refine ⟨⟨⟨rfl, by decide, by decide, by decide, by decide, isValidKnotVector_nth.mp (by decide +kernel)⟩,
    ⟨rfl, by decide, by decide, by decide, by decide, isValidKnotVector_nth.mp (by decide +kernel)⟩,
    ⟨rfl, by decide, by decide, by decide, by decide, isValidKnotVector_nth.mp (by decide +kernel)⟩, by unfold IsCube IsMat; decide +kernel⟩, ?_⟩
  have h : (splitVolume exVolumeJump (1/2) .u).bind (fun x => ok (x.1.degreeU, x.1.knotsU.length, x.1.cps.length)) = ok (1, 5, 2) := by decide +kernel
  cases e : splitVolume exVolumeJump (1/2) .u with
  | ok x =>
    obtain ⟨L, R⟩ := x
    rw [e] at h
    have h' : L.degreeU = 1 ∧ L.knotsU.length = 5 ∧ L.cps.length = 2 := by simpa [Res.bind] using h
    refine ⟨L, R, rfl, fun p q r n m l w => ?_⟩
    have h1 := w.u.degree
    have h2 := w.u.knots
    have h3 := w.cps.1
    omega
  | _ => rw [e] at h; cases h

/-! ## C52: Extract -/

/-- C52 violated: whatever `Extract` computes, the caller's surface is the one that was passed in. -/
theorem C52_extract_violated {c : BsplineVolume K T} {x : K} {dir : VolumeDirection} {s s' : BsplineSurface K T} {b : Bool}
    (h : extractVolume c x dir s = ok (b, s')) : b = true ∧ s' = s := by
  unfold extractVolume at h
  cases e : extractLocal c x dir with
  | ok y =>
    rw [e, ok_bind] at h
    simp only [ok.injEq, Prod.mk.injEq] at h
    exact ⟨h.1.symm, h.2.symm⟩
  | _ => rw [e] at h; cases h

/-- the violation is about an ordinary input: the call answers `true` -/
example : extractVolume exVolume (1/2) .u (BsplineSurface.mk 0 0 [] [] []) = ok (true, BsplineSurface.mk 0 0 [] [] []) := by decide +kernel

/-- C52 violated: at the ends of the range `Extract` reads degrees that were never assigned. -/
theorem C52_extract_end_violated {c : BsplineVolume K T} {p q r n m l : ℕ} {x : K} {s : BsplineSurface K T} (wf : WellFormedV c p q r n m l)
    (hx : isAlmostEqualTo x (nth c.knotsU 0) = true ∨ isAlmostEqualTo x (nth c.knotsU (n + p + 1)) = true) : extractVolume c x .u s = ub := by
  have hl := wf.u.knots
  unfold extractVolume extractLocal
  dsimp only
  rw [vget_nth (i := 0) (k := 0) rfl (by omega), ok_bind, vget_nth (k := n + p + 1) (by omega) (by omega), ok_bind, if_pos (by simpa using hx)]
  rfl

/-! ## C79: GetIsoCurve -/

theorem clampParam_run {U : List K} {d : ℤ} {p n : ℕ} {t : K} (g : GoodDir d U p n) :
    clampParam t U d = ok (max (nth U p) (min t (nth U (n + 1)))) ∧ nth U p ≤ max (nth U p) (min t (nth U (n + 1))) ∧ max (nth U p) (min t (nth U (n + 1))) ≤ nth U (n + 1) := by
  have hl := g.knots
  have hpn := g.pn
  obtain ⟨y, e, h1, h2, rfl⟩ := clampR_ok (x := t) (g.sorted p (n + 1) (by omega) (by omega))
  refine ⟨?_, h1, h2⟩
  unfold clampParam
  rw [vget_nth (k := p) g.degree (by omega), ok_bind, vget_nth (k := n + 1) (by rw [g.degree]; omega) (by omega), ok_bind, e]

theorem isoLoop_run {n p q : ℕ} {sz : ℤ} (hsz : sz = (n : ℤ) + 1) {Na Nb : List (Option K)} {read : ℤ → ℤ → ℤ → Res T} {A B : ℕ → K} {f : ℕ → ℕ → ℕ → T}
    (hA : ∀ j ≤ p, aget Na (j : ℤ) = ok (A j)) (hB : ∀ k ≤ q, aget Nb (k : ℤ) = ok (B k))
    (hf : ∀ i ≤ n, ∀ j ≤ p, ∀ k ≤ q, read (i : ℤ) (j : ℤ) (k : ℤ) = ok (f i j k)) :
    isoLoop sz (p : ℤ) (q : ℤ) Na Nb read = ok ((List.range (n + 1)).map fun i => ∑ j ∈ range (p + 1), ∑ k ∈ range (q + 1), (A j * B k) • f i j k) := by
  subst hsz
  unfold isoLoop
  apply Runs.eq
  refine (Runs.forN (m := 0) (n := n + 1) (fun i (cps : List T) => cps = (List.range i).map fun i => ∑ j ∈ range (p + 1), ∑ k ∈ range (q + 1), (A j * B k) • f i j k)
    rfl (by push_cast; rfl) (by omega) (by simp) ?_).mono (fun _ h => h)
  rintro i cps - hi rfl
  refine Runs.bind (Q := fun pt : T => pt = ∑ j ∈ range (p + 1), ∑ k ∈ range (q + 1), (A j * B k) • f i j k) ?_ ?_
  · refine (Runs.forN (m := 0) (n := p + 1) (fun J (pt : T) => pt = ∑ j ∈ range J, ∑ k ∈ range (q + 1), (A j * B k) • f i j k)
      rfl (by push_cast; rfl) (by omega) (by simp) ?_).mono (fun _ h => h)
    rintro j pt - hj hpt
    refine (Runs.forN (m := 0) (n := q + 1) (fun k (pt' : T) => pt' = pt + ∑ k ∈ range k, (A j * B k) • f i j k)
      rfl (by push_cast; rfl) (by omega) (by simp) ?_).mono (fun _ h => by rw [h, hpt, sum_range_succ _ j])
    rintro k pt' - hk rfl
    refine Runs.bind_eq (hA j (by omega)) (Runs.bind_eq (hB k (by omega)) (Runs.bind_eq (hf i (by omega) j (by omega) k (by omega)) (Runs.ok ?_)))
    rw [sum_range_succ, add_assoc]
  · rintro pt rfl
    refine Runs.ok ?_
    rw [List.range_succ, List.map_append]
    rfl

theorem surfacePoint_window {V W : ℕ → K} {q r m l sv sw : ℕ} {P : ℕ → ℕ → T} {v w : K} (hV : MonoTo V (m + q + 1)) (hW : MonoTo W (l + r + 1))
    (hsv : IsSpan V q m v sv) (hsw : IsSpan W r l w sw) :
    surfacePoint V W q r m l P v w = ∑ j ∈ range (q + 1), ∑ k ∈ range (r + 1), (Nspan V sv q (sv - q + j) v * Nspan W sw r (sw - r + k) w) • P (sv - q + j) (sw - r + k) := by
  rw [surfacePoint_eq, curvePoint_span hV (le_refl _) hsv]
  refine sum_congr rfl fun j _ => ?_
  rw [curvePoint_span hW (le_refl _) hsw, smul_sum]
  exact sum_congr rfl fun k _ => by rw [smul_smul]

/-- `t` moved into `[a, b]` -/
def clampTo (a b t : K) : K := max a (min t b)

/-- C79 (U): when the U parameter is  the marker `-1`, `GetIsoCurve` returns a well-formed curve on the U knots that follows the volume at
the two other parameters (moved into the range if they are outside). -/
theorem C79_iso_u {c : BsplineVolume K T} {p q r n m l : ℕ} {u v w : K} (wf : WellFormedV c p q r n m l) (he : EndsSeparatedV c p q r n m l)
    (hu : isAlmostEqualTo u (-1) = true) :
    ∃ crv, isoCurveVolume c u v w = ok crv ∧ WellFormed crv p n ∧ crv.knots = c.knotsU ∧ ∀ t, nth c.knotsU p ≤ t → t ≤ nth c.knotsU (n + 1) →
      crv.pointOnCurve t = c.pointOnVolume t (clampTo (nth c.knotsV q) (nth c.knotsV (m + 1)) v) (clampTo (nth c.knotsW r) (nth c.knotsW (l + 1)) w) := by
  obtain ⟨a1, a2, a3⟩ := clampParam_run (t := v) wf.v
  obtain ⟨b1, b2, b3⟩ := clampParam_run (t := w) wf.w
  change clampParam v _ _ = ok (clampTo (nth c.knotsV q) (nth c.knotsV (m + 1)) v) at a1
  change _ ≤ (clampTo (nth c.knotsV q) (nth c.knotsV (m + 1)) v) at a2
  change (clampTo (nth c.knotsV q) (nth c.knotsV (m + 1)) v) ≤ _ at a3
  change clampParam w _ _ = ok (clampTo (nth c.knotsW r) (nth c.knotsW (l + 1)) w) at b1
  change _ ≤ (clampTo (nth c.knotsW r) (nth c.knotsW (l + 1)) w) at b2
  change (clampTo (nth c.knotsW r) (nth c.knotsW (l + 1)) w) ≤ _ at b3
  obtain ⟨s1, B1, f1, hs1, f2, f3⟩ := spanBasis wf.v.le7 wf.v.knots wf.v.pn wf.v.sorted he.v a2 a3
  obtain ⟨s2, B2, g1, hs2, g2, g3⟩ := spanBasis wf.w.le7 wf.w.knots wf.w.pn wf.w.sorted he.w b2 b3
  have h0 := wf.cps.2 0 (by omega)
  have x1 := hs1.1
  have x2 := hs1.2.1
  have y1 := hs2.1
  have y2 := hs2.2.1
  have hloop := isoLoop_run (n := n) (p := q) (q := r) (sz := (c.cps.length : ℤ)) (by rw [wf.cps.1]; push_cast; rfl)
    (read := fun u j k => cget c.cps u ((s1 : ℤ) - q + j) ((s2 : ℤ) - r + k)) (f := fun i j k => ent3 c.cps i (s1 - q + j) (s2 - r + k)) f3 g3
    (fun i hi j hj k hk => cget_ent3 wf.cps rfl (by omega) (by omega) (by omega) (by omega) (by omega))
  have hw' : WellFormed (fibre c.degreeU c.knotsU n (fun i => ∑ j ∈ range (q + 1), ∑ k ∈ range (r + 1), (Nspan (nth c.knotsV) s1 q (s1 - q + j) (clampTo (nth c.knotsV q) (nth c.knotsV (m + 1)) v) *
    Nspan (nth c.knotsW) s2 r (s2 - r + k) (clampTo (nth c.knotsW r) (nth c.knotsW (l + 1)) w)) • (fun i j k => ent3 c.cps i (s1 - q + j) (s2 - r + k)) i j k)) p n := fibre_wf wf.u
  refine ⟨_, ?_, hw', rfl, ?_⟩
  · unfold isoCurveVolume
    rw [if_neg (by rw [wf.cps.1]; omega), vget_row (i := 0) (k := 0) rfl (by rw [wf.cps.1]; omega), ok_bind, if_neg (by rw [h0.1]; omega),
      vget_row (i := 0) (k := 0) rfl (by rw [h0.1]; omega), ok_bind, if_pos hu, a1, ok_bind, b1, ok_bind, wf.v.degree, wf.w.degree, f1, ok_bind, g1, ok_bind, f2, ok_bind, g2, ok_bind,
      hloop, ok_bind]
    rfl
  · intro t ht0 ht1
    rw [C05_eval hw' he.u ht0 ht1, C50_eval wf he ⟨ht0, ht1, a2, a3, b2, b3⟩]
    refine congrArg ok ?_
    rw [volumePoint_eq]
    refine curvePoint_congr fun i hi => ?_
    rw [surfacePoint_window (goodDir_mono wf.v) (goodDir_mono wf.w) hs1 hs2]
    exact nth_range_map hi

/-- C79 (V): when the V parameter is the first one that is the marker `-1`, `GetIsoCurve` returns a well-formed curve on the V knots that follows the volume at
the two other parameters (moved into the range if they are outside). -/
theorem C79_iso_v {c : BsplineVolume K T} {p q r n m l : ℕ} {u v w : K} (wf : WellFormedV c p q r n m l) (he : EndsSeparatedV c p q r n m l)
    (hu : isAlmostEqualTo u (-1) = false) (hv : isAlmostEqualTo v (-1) = true) :
    ∃ crv, isoCurveVolume c u v w = ok crv ∧ WellFormed crv q m ∧ crv.knots = c.knotsV ∧ ∀ t, nth c.knotsV q ≤ t → t ≤ nth c.knotsV (m + 1) →
      crv.pointOnCurve t = c.pointOnVolume (clampTo (nth c.knotsU p) (nth c.knotsU (n + 1)) u) t (clampTo (nth c.knotsW r) (nth c.knotsW (l + 1)) w) := by
  obtain ⟨a1, a2, a3⟩ := clampParam_run (t := u) wf.u
  obtain ⟨b1, b2, b3⟩ := clampParam_run (t := w) wf.w
  change clampParam u _ _ = ok (clampTo (nth c.knotsU p) (nth c.knotsU (n + 1)) u) at a1
  change _ ≤ (clampTo (nth c.knotsU p) (nth c.knotsU (n + 1)) u) at a2
  change (clampTo (nth c.knotsU p) (nth c.knotsU (n + 1)) u) ≤ _ at a3
  change clampParam w _ _ = ok (clampTo (nth c.knotsW r) (nth c.knotsW (l + 1)) w) at b1
  change _ ≤ (clampTo (nth c.knotsW r) (nth c.knotsW (l + 1)) w) at b2
  change (clampTo (nth c.knotsW r) (nth c.knotsW (l + 1)) w) ≤ _ at b3
  obtain ⟨s1, B1, f1, hs1, f2, f3⟩ := spanBasis wf.u.le7 wf.u.knots wf.u.pn wf.u.sorted he.u a2 a3
  obtain ⟨s2, B2, g1, hs2, g2, g3⟩ := spanBasis wf.w.le7 wf.w.knots wf.w.pn wf.w.sorted he.w b2 b3
  have h0 := wf.cps.2 0 (by omega)
  have x1 := hs1.1
  have x2 := hs1.2.1
  have y1 := hs2.1
  have y2 := hs2.2.1
  have hloop := isoLoop_run (n := m) (p := p) (q := r) (sz := ((row c.cps 0).length : ℤ)) (by rw [h0.1]; push_cast; rfl)
    (read := fun v i k => cget c.cps ((s1 : ℤ) - p + i) v ((s2 : ℤ) - r + k)) (f := fun j i k => ent3 c.cps (s1 - p + i) j (s2 - r + k)) f3 g3
    (fun i hi j hj k hk => cget_ent3 wf.cps (by omega) rfl (by omega) (by omega) (by omega) (by omega))
  have hw' : WellFormed (fibre c.degreeV c.knotsV m (fun i => ∑ j ∈ range (p + 1), ∑ k ∈ range (r + 1), (Nspan (nth c.knotsU) s1 p (s1 - p + j) (clampTo (nth c.knotsU p) (nth c.knotsU (n + 1)) u) *
    Nspan (nth c.knotsW) s2 r (s2 - r + k) (clampTo (nth c.knotsW r) (nth c.knotsW (l + 1)) w)) • (fun j i k => ent3 c.cps (s1 - p + i) j (s2 - r + k)) i j k)) q m := fibre_wf wf.v
  refine ⟨_, ?_, hw', rfl, ?_⟩
  · unfold isoCurveVolume
    rw [if_neg (by rw [wf.cps.1]; omega), vget_row (i := 0) (k := 0) rfl (by rw [wf.cps.1]; omega), ok_bind, if_neg (by rw [h0.1]; omega),
      vget_row (i := 0) (k := 0) rfl (by rw [h0.1]; omega), ok_bind, hu, if_neg (by simp), if_pos hv, a1, ok_bind, b1, ok_bind, wf.u.degree, wf.w.degree, f1, ok_bind, g1, ok_bind, f2, ok_bind, g2, ok_bind,
      hloop, ok_bind]
    rfl
  · intro t ht0 ht1
    rw [C05_eval hw' he.v ht0 ht1, C50_eval wf he ⟨a2, a3, ht0, ht1, b2, b3⟩]
    refine congrArg ok ?_
    rw [volumePoint_swapUV, volumePoint_eq]
    refine curvePoint_congr fun i hi => ?_
    rw [surfacePoint_window (goodDir_mono wf.u) (goodDir_mono wf.w) hs1 hs2]
    exact nth_range_map hi

/-- C79 (W): when the W parameter is the first one that is the marker `-1`, `GetIsoCurve` returns a well-formed curve on the W knots that follows the volume at
the two other parameters (moved into the range if they are outside). -/
theorem C79_iso_w {c : BsplineVolume K T} {p q r n m l : ℕ} {u v w : K} (wf : WellFormedV c p q r n m l) (he : EndsSeparatedV c p q r n m l)
    (hu : isAlmostEqualTo u (-1) = false) (hv : isAlmostEqualTo v (-1) = false) (hw : isAlmostEqualTo w (-1) = true) :
    ∃ crv, isoCurveVolume c u v w = ok crv ∧ WellFormed crv r l ∧ crv.knots = c.knotsW ∧ ∀ t, nth c.knotsW r ≤ t → t ≤ nth c.knotsW (l + 1) →
      crv.pointOnCurve t = c.pointOnVolume (clampTo (nth c.knotsU p) (nth c.knotsU (n + 1)) u) (clampTo (nth c.knotsV q) (nth c.knotsV (m + 1)) v) t := by
  obtain ⟨a1, a2, a3⟩ := clampParam_run (t := u) wf.u
  obtain ⟨b1, b2, b3⟩ := clampParam_run (t := v) wf.v
  change clampParam u _ _ = ok (clampTo (nth c.knotsU p) (nth c.knotsU (n + 1)) u) at a1
  change _ ≤ (clampTo (nth c.knotsU p) (nth c.knotsU (n + 1)) u) at a2
  change (clampTo (nth c.knotsU p) (nth c.knotsU (n + 1)) u) ≤ _ at a3
  change clampParam v _ _ = ok (clampTo (nth c.knotsV q) (nth c.knotsV (m + 1)) v) at b1
  change _ ≤ (clampTo (nth c.knotsV q) (nth c.knotsV (m + 1)) v) at b2
  change (clampTo (nth c.knotsV q) (nth c.knotsV (m + 1)) v) ≤ _ at b3
  obtain ⟨s1, B1, f1, hs1, f2, f3⟩ := spanBasis wf.u.le7 wf.u.knots wf.u.pn wf.u.sorted he.u a2 a3
  obtain ⟨s2, B2, g1, hs2, g2, g3⟩ := spanBasis wf.v.le7 wf.v.knots wf.v.pn wf.v.sorted he.v b2 b3
  have h0 := wf.cps.2 0 (by omega)
  have x1 := hs1.1
  have x2 := hs1.2.1
  have y1 := hs2.1
  have y2 := hs2.2.1
  have hloop := isoLoop_run (n := l) (p := p) (q := q) (sz := ((row (row c.cps 0) 0).length : ℤ)) (by rw [h0.2 0 (by omega)]; push_cast; rfl)
    (read := fun w i j => cget c.cps ((s1 : ℤ) - p + i) ((s2 : ℤ) - q + j) w) (f := fun k i j => ent3 c.cps (s1 - p + i) (s2 - q + j) k) f3 g3
    (fun i hi j hj k hk => cget_ent3 wf.cps (by omega) (by omega) rfl (by omega) (by omega) (by omega))
  have hw' : WellFormed (fibre c.degreeW c.knotsW l (fun i => ∑ j ∈ range (p + 1), ∑ k ∈ range (q + 1), (Nspan (nth c.knotsU) s1 p (s1 - p + j) (clampTo (nth c.knotsU p) (nth c.knotsU (n + 1)) u) *
    Nspan (nth c.knotsV) s2 q (s2 - q + k) (clampTo (nth c.knotsV q) (nth c.knotsV (m + 1)) v)) • (fun k i j => ent3 c.cps (s1 - p + i) (s2 - q + j) k) i j k)) r l := fibre_wf wf.w
  refine ⟨_, ?_, hw', rfl, ?_⟩
  · unfold isoCurveVolume
    rw [if_neg (by rw [wf.cps.1]; omega), vget_row (i := 0) (k := 0) rfl (by rw [wf.cps.1]; omega), ok_bind, if_neg (by rw [h0.1]; omega),
      vget_row (i := 0) (k := 0) rfl (by rw [h0.1]; omega), ok_bind, hu, if_neg (by simp), hv, if_neg (by simp), if_pos hw, a1, ok_bind, b1, ok_bind, wf.u.degree, wf.v.degree, f1, ok_bind, g1, ok_bind, f2, ok_bind, g2, ok_bind,
      hloop, ok_bind]
    rfl
  · intro t ht0 ht1
    rw [C05_eval hw' he.w ht0 ht1, C50_eval wf he ⟨a2, a3, b2, b3, ht0, ht1⟩]
    refine congrArg ok ?_
    rw [volumePoint_swapVW, volumePoint_swapUV, volumePoint_eq]
    refine curvePoint_congr fun i hi => ?_
    rw [surfacePoint_window (goodDir_mono wf.u) (goodDir_mono wf.v) hs1 hs2]
    exact nth_range_map hi

/-- C79: without a marker, and with it on an empty net, the answer is a curve without knots and control points. -/
theorem C79_no_marker {c : BsplineVolume K T} {p q r n m l : ℕ} {u v w : K} (wf : WellFormedV c p q r n m l) (hu : isAlmostEqualTo u (-1) = false)
    (hv : isAlmostEqualTo v (-1) = false) (hw : isAlmostEqualTo w (-1) = false) : isoCurveVolume c u v w = ok (BsplineCurve.mk 1 [] []) := by
  have h0 := wf.cps.2 0 (by omega)
  unfold isoCurveVolume
  rw [if_neg (by rw [wf.cps.1]; omega), vget_row (i := 0) (k := 0) rfl (by rw [wf.cps.1]; omega), ok_bind, if_neg (by rw [h0.1]; omega),
      vget_row (i := 0) (k := 0) rfl (by rw [h0.1]; omega), ok_bind, hu, if_neg (by simp), hv, if_neg (by simp), hw, if_neg (by simp)]

/-- C79 is not vacuous: the V parameter `7` is moved to the end `1` of the range -/
example : ∃ crv, isoCurveVolume exVolume (-1) 7 1 = ok crv ∧ BsplineCurve.pointOnCurve crv (3/4) = BsplineVolume.pointOnVolume exVolume (3/4) 1 1 := by
  obtain ⟨crv, e, -, -, h⟩ := C79_iso_u (u := -1) (v := 7) (w := 1) exVolume_wf exVolume_ends (by decide +kernel)
  refine ⟨crv, e, ?_⟩
  have := h (3/4) (by decide +kernel) (by decide +kernel)
  rwa [show clampTo (nth exVolume.knotsV 1) (nth exVolume.knotsV (2 + 1)) 7 = 1 by decide +kernel, show clampTo (nth exVolume.knotsW 1) (nth exVolume.knotsW (1 + 1)) 1 = 1 by decide +kernel] at this

/-- and in the other two directions -/
example : (∃ crv, isoCurveVolume exVolume (1/4) (-1) 1 = ok crv ∧ WellFormed crv 1 2) ∧ ∃ crv, isoCurveVolume exVolume (1/4) (1/2) (-1) = ok crv ∧ WellFormed crv 1 1 := by
  obtain ⟨crv, e, w, -⟩ := C79_iso_v (u := 1/4) (v := -1) (w := 1) exVolume_wf exVolume_ends (by decide +kernel) (by decide +kernel)
  obtain ⟨crv', e', w', -⟩ := C79_iso_w (u := 1/4) (v := 1/2) (w := -1) exVolume_wf exVolume_ends (by decide +kernel) (by decide +kernel) (by decide +kernel)
  exact ⟨⟨crv, e, w⟩, ⟨crv', e', w'⟩⟩

end LNLib.Props
