import Verif.Model.SurfaceRemove
import Verif.Props.RemoveKnot
import Verif.Props.SurfaceElevate
import Verif.Props.SurfaceInsert

/-!
# C128: removal of a knot of a surface
-/
set_option linter.unusedSectionVars false

namespace LNLib.Props
open LNLib Res Spec Finset

section
variable {K : Type} [Field K] [LinearOrder K] [IsStrictOrderedRing K]
variable {T : Type} [AddCommGroup T] [Module K T]

/-- what the loop keeps of the answer of the curve function -/
def keptPoints (o : Option (BsplineCurve K T)) : List T := match o with | some c => c.cps | none => []
def keptKnots (o : Option (BsplineCurve K T)) : List K := match o with | some c => c.knots | none => []

theorem removeFibres_run {test : List T → T → T → Bool} {F : List (List T)} {a : ℕ} (ha : F.length = a) {degree : ℤ} {U : List K} {u : K} {times : ℤ} {R : ℕ → Option (BsplineCurve K T)}
    (h : ∀ i < a, removeKnot (test (row F i)) { degree := degree, knots := U, cps := row F i } u times = ok (R i)) :
    removeFibres test degree U u times F = ok ((List.range a).map (fun i => keptPoints (R i)), if a = 0 then [] else keptKnots (R (a - 1))) := by
  unfold removeFibres
  apply Runs.eq
  refine (Runs.forN (m := 0) (n := a) (fun j st => st = ((List.range j).map (fun i => keptPoints (R i)), if j = 0 then [] else keptKnots (R (j - 1)))) rfl (by rw [ha]) (by omega) rfl ?_)
  rintro i st - hi rfl
  rw [vget_row (k := i) rfl (by omega), ok_bind, h i hi, ok_bind]
  rw [List.range_succ, List.map_append, if_neg (Nat.succ_ne_zero i), Nat.add_sub_cancel]
  cases hR : R i with
  | none => exact Runs.ok (by simp [keptPoints, keptKnots, hR])
  | some c => exact Runs.ok (by simp [keptPoints, keptKnots, hR])

/-- each fibre is refused or accepted -/
theorem fibre_cases (test : List T → T → T → Bool) {F : List (List T)} {a p n : ℕ} {U : List K} {u : K} {d : ℤ} (hF : IsMat F a (n + 1)) (hd : d = p) (hp0 : 0 < p) (hp7 : p ≤ 7) (hpn : p ≤ n)
    (hU : U.length = n + p + 2) (hs : ∀ i j, i ≤ j → j < U.length → nth U i ≤ nth U j) (he : EndsSeparated (nth U) p n) (hsep : KnotSeparated U u)
    (h0 : nth U p < u) (h1 : u < nth U (n + 1)) (hc : 1 ≤ U.count u) (hcp : U.count u ≤ p) :
    ∃ (R : ℕ → Option (BsplineCurve K T)), ∀ i < a, removeKnot (test (row F i)) { degree := d, knots := U, cps := row F i } u 1 = ok (R i) ∧
      ∀ c' : BsplineCurve K T, R i = some c' → WellFormed c' p (n - 1) ∧ (u :: c'.knots).Perm U ∧ nth c'.knots p = nth U p ∧ nth c'.knots (n - 1 + 1) = nth U (n + 1) := by
  have key : ∀ i, ∃ o : Option (BsplineCurve K T), i < a → removeKnot (test (row F i)) { degree := d, knots := U, cps := row F i } u 1 = ok o ∧
      ∀ c' : BsplineCurve K T, o = some c' → WellFormed c' p (n - 1) ∧ (u :: c'.knots).Perm U ∧ nth c'.knots p = nth U p ∧ nth c'.knots (n - 1 + 1) = nth U (n + 1) := by
    intro i
    by_cases hi : i < a
    · have w : WellFormed ({ degree := d, knots := U, cps := row F i } : BsplineCurve K T) p n :=
        { degree := hd, pos := hp0, le7 := hp7, cps := hF.2 i hi, pn := hpn, knots := hU, sorted := hs }
      rcases C41_remove_valid_partial (test (row F i)) w he hsep h0 h1 hc hcp with h | ⟨c', h, h'⟩
      · exact ⟨none, fun _ => ⟨h, fun c' hc' => by cases hc'⟩⟩
      · refine ⟨some c', fun _ => ⟨h, fun c'' e => ?_⟩⟩
        cases e
        exact h'
    · exact ⟨none, fun h => absurd h hi⟩
  choose R hR using key
  exact ⟨R, hR⟩

theorem removeSurface_start {test : List T → T → T → Bool} {c : BsplineSurface K T} {u : K} {isU : Bool} {L : ℕ}
    (hl : (if isU then c.knotsU else c.knotsV).length = L + 1) (h0 : nth (if isU then c.knotsU else c.knotsV) 0 ≤ u) (h1 : u ≤ nth (if isU then c.knotsU else c.knotsV) L) :
    removeKnotSurface test c u 1 isU = (if isU then do
      let tr ← transposeM c.cps []
      let (cps, kv) ← removeFibres test c.degreeU c.knotsU u 1 tr
      let cps ← transposeM cps []
      ok { c with knotsU := kv, cps := cps }
    else do
      let (cps, kv) ← removeFibres test c.degreeV c.knotsV u 1 c.cps
      ok { c with knotsV := kv, cps := cps }) := by
  unfold removeKnotSurface
  dsimp only
  rw [vget_nth (i := 0) (k := 0) rfl (by omega), ok_bind, vget_nth (k := L) (by rw [hl]; push_cast; ring) (by omega), ok_bind,
    validateRange_ok h0 h1, ok_bind, validate_of (by decide), ok_bind]

/-- C128 (V direction): removing one copy of an interior knot, when the removal is accepted for the control points of every row, gives
a valid surface: one copy of the knot less, the rest of the surface as before, every row the result of the removal for the curve of
that row. -/
theorem C128_remove_v_partial (test : List T → T → T → Bool) {c : BsplineSurface K T} {p q n m : ℕ} {v : K} (w : WellFormedS c p q n m) (he : EndsSeparatedS c p q n m)
    (hsep : KnotSeparated c.knotsV v) (h0 : nth c.knotsV q < v) (h1 : v < nth c.knotsV (m + 1)) (hc : 1 ≤ c.knotsV.count v) (hcq : c.knotsV.count v ≤ q)
    (hacc : ∀ i ≤ n, removeKnot (test (row c.cps i)) { degree := c.degreeV, knots := c.knotsV, cps := row c.cps i } v 1 ≠ ok none) :
    ∃ r, removeKnotSurface test c v 1 false = ok r ∧ WellFormedS r p q n (m - 1) ∧ (v :: r.knotsV).Perm c.knotsV ∧ r.knotsU = c.knotsU ∧
      nth r.knotsV q = nth c.knotsV q ∧ nth r.knotsV (m - 1 + 1) = nth c.knotsV (m + 1) ∧
      ∀ i ≤ n, removeKnot (test (row c.cps i)) { degree := c.degreeV, knots := c.knotsV, cps := row c.cps i } v 1 =
        ok (some { degree := c.degreeV, knots := r.knotsV, cps := row r.cps i }) := by
  obtain ⟨R, hR⟩ := fibre_cases test w.cps w.degreeV w.posV w.le7V w.qm w.knotsV w.sortedV he.v hsep h0 h1 hc hcq
  have hsome : ∀ i, ∃ d : BsplineCurve K T, i ≤ n → R i = some d := by
    intro i
    by_cases hi : i ≤ n
    · cases hRi : R i with
      | none =>
        have := (hR i (by omega)).1
        rw [hRi] at this
        exact absurd this (hacc i hi)
      | some d => exact ⟨d, fun _ => rfl⟩
    · exact ⟨{ degree := 0, knots := [], cps := [] }, fun h => absurd h hi⟩
  choose D hD using hsome
  have hf := fun i (hi : i ≤ n) => (hR i (by omega)).2 (D i) (hD i hi)
  have hsame : ∀ i ≤ n, (D i).knots = (D n).knots := by
    intro i hi
    obtain ⟨w1, p1, -, -⟩ := hf i hi
    obtain ⟨w2, p2, -, -⟩ := hf n le_rfl
    exact sorted_perm_eq ((List.perm_cons v).mp (p1.trans p2.symm)) w1.sorted w2.sorted
  obtain ⟨wn, pn, en, fn⟩ := hf n le_rfl
  have hm0 := w.sortedV 0 q (by omega) (by rw [w.knotsV]; omega)
  have hm1 := w.sortedV (m + 1) (m + q + 1) (by omega) (by rw [w.knotsV]; omega)
  have hrow : ∀ i ≤ n, row ((List.range (n + 1)).map fun i => keptPoints (R i)) i = (D i).cps := by
    intro i hi
    rw [row_range_map (by omega), hD i hi]
    rfl
  refine ⟨{ c with knotsV := (D n).knots, cps := (List.range (n + 1)).map fun i => keptPoints (R i) }, ?_, ?_, pn, rfl, en, fn, ?_⟩
  · rw [removeSurface_start (L := m + q + 1) (by simp [w.knotsV]) (by simp; linarith) (by simp; linarith), if_neg (by simp),
      removeFibres_run w.cps.1 (fun i hi => (hR i hi).1), ok_bind]
    dsimp only
    rw [if_neg (by omega), Nat.add_sub_cancel, hD n le_rfl]
    rfl
  · refine { degreeU := w.degreeU, degreeV := w.degreeV, posU := w.posU, posV := w.posV, le7U := w.le7U, le7V := w.le7V, cps := ⟨by simp, fun i hi => ?_⟩, pn := w.pn, qm := wn.pn, knotsU := w.knotsU, knotsV := wn.knots, sortedU := w.sortedU, sortedV := wn.sorted }
    dsimp only
    rw [hrow i (by omega)]
    exact (hf i (by omega)).1.cps
  · intro i hi
    dsimp only
    rw [hrow i hi, (hR i (by omega)).1, hD i hi, ← hsame i hi]
    have hdeg := (hf i hi).1.degree
    rw [w.degreeV, ← hdeg]

/-- C128 (violated): when the removal is refused for one row, the result is not a surface: that row is empty. Nothing tells the
caller. -/
theorem C128_refused_v_violated (test : List T → T → T → Bool) {c : BsplineSurface K T} {p q n m : ℕ} {v : K} (w : WellFormedS c p q n m) (he : EndsSeparatedS c p q n m)
    (hsep : KnotSeparated c.knotsV v) (h0 : nth c.knotsV q < v) (h1 : v < nth c.knotsV (m + 1)) (hc : 1 ≤ c.knotsV.count v) (hcq : c.knotsV.count v ≤ q)
    {i : ℕ} (hi : i ≤ n) (hno : removeKnot (test (row c.cps i)) { degree := c.degreeV, knots := c.knotsV, cps := row c.cps i } v 1 = ok none) :
    ∃ r, removeKnotSurface test c v 1 false = ok r ∧ r.cps.length = n + 1 ∧ row r.cps i = [] := by
  obtain ⟨R, hR⟩ := fibre_cases test w.cps w.degreeV w.posV w.le7V w.qm w.knotsV w.sortedV he.v hsep h0 h1 hc hcq
  have hm0 := w.sortedV 0 q (by omega) (by have := w.qm; rw [w.knotsV]; omega)
  have hm1 := w.sortedV (m + 1) (m + q + 1) (by omega) (by rw [w.knotsV]; omega)
  have hRi := (hR i (by omega)).1
  rw [hno] at hRi
  rw [removeSurface_start (L := m + q + 1) (by simp [w.knotsV]) (by simp; linarith) (by simp; linarith), if_neg (by simp),
      removeFibres_run w.cps.1 (fun i hi => (hR i hi).1), ok_bind]
  refine ⟨_, rfl, by simp, ?_⟩
  dsimp only
  rw [row_range_map (by omega), ← Res.ok.inj hRi]
  rfl

/-- C128 (U direction). -/
theorem C128_remove_u_partial (test : List T → T → T → Bool) {c : BsplineSurface K T} {p q n m : ℕ} {u : K} (w : WellFormedS c p q n m) (he : EndsSeparatedS c p q n m)
    (hsep : KnotSeparated c.knotsU u) (h0 : nth c.knotsU p < u) (h1 : u < nth c.knotsU (n + 1)) (hc : 1 ≤ c.knotsU.count u) (hcp : c.knotsU.count u ≤ p)
    (hacc : ∀ j ≤ m, removeKnot (test ((List.range (n + 1)).map fun i => ent c.cps i j)) { degree := c.degreeU, knots := c.knotsU, cps := (List.range (n + 1)).map fun i => ent c.cps i j } u 1 ≠ ok none) :
    ∃ r, removeKnotSurface test c u 1 true = ok r ∧ WellFormedS r p q (n - 1) m ∧ (u :: r.knotsU).Perm c.knotsU ∧ r.knotsV = c.knotsV ∧
      nth r.knotsU p = nth c.knotsU p ∧ nth r.knotsU (n - 1 + 1) = nth c.knotsU (n + 1) ∧
      ∀ j ≤ m, removeKnot (test ((List.range (n + 1)).map fun i => ent c.cps i j)) { degree := c.degreeU, knots := c.knotsU, cps := (List.range (n + 1)).map fun i => ent c.cps i j } u 1 =
        ok (some { degree := c.degreeU, knots := r.knotsU, cps := (List.range (n - 1 + 1)).map fun i => ent r.cps i j }) := by
  have hpn := w.pn
  set F := tab (m + 1) (n + 1) fun j i => ent c.cps i j with hFdef
  have hF : IsMat F (m + 1) (n + 1) := isMat_tab
  have hFr : ∀ j ≤ m, row F j = (List.range (n + 1)).map fun i => ent c.cps i j := by
    intro j hj
    rw [hFdef]
    exact row_range_map (by omega)
  obtain ⟨R, hR⟩ := fibre_cases test hF w.degreeU w.posU w.le7U w.pn w.knotsU w.sortedU he.u hsep h0 h1 hc hcp
  have hsome : ∀ i, ∃ d : BsplineCurve K T, i ≤ m → R i = some d := by
    intro i
    by_cases hi : i ≤ m
    · cases hRi : R i with
      | none =>
        have := (hR i (by omega)).1
        rw [hRi, hFr i hi] at this
        exact absurd this (hacc i hi)
      | some d => exact ⟨d, fun _ => rfl⟩
    · exact ⟨{ degree := 0, knots := [], cps := [] }, fun h => absurd h hi⟩
  choose D hD using hsome
  have hf := fun i (hi : i ≤ m) => (hR i (by omega)).2 (D i) (hD i hi)
  have hsame : ∀ i ≤ m, (D i).knots = (D m).knots := by
    intro i hi
    obtain ⟨w1, p1, -, -⟩ := hf i hi
    obtain ⟨w2, p2, -, -⟩ := hf m le_rfl
    exact sorted_perm_eq ((List.perm_cons u).mp (p1.trans p2.symm)) w1.sorted w2.sorted
  obtain ⟨wn, pn, en, fn⟩ := hf m le_rfl
  have hm0 := w.sortedU 0 p (by omega) (by rw [w.knotsU]; omega)
  have hm1 := w.sortedU (n + 1) (n + p + 1) (by omega) (by rw [w.knotsU]; omega)
  set G := (List.range (m + 1)).map fun i => keptPoints (R i) with hG
  have hrow : ∀ i ≤ m, row G i = (D i).cps := by
    intro i hi
    rw [hG, row_range_map (by omega), hD i hi]
    rfl
  have hGm : IsMat G (m + 1) (n - 1 + 1) := ⟨by simp [hG], fun i hi => by rw [hrow i (by omega)]; exact (hf i (by omega)).1.cps⟩
  refine ⟨{ c with knotsU := (D m).knots, cps := tab (n - 1 + 1) (m + 1) fun i j => ent G j i }, ?_, ?_, pn, rfl, en, fn, ?_⟩
  · rw [removeSurface_start (L := n + p + 1) (by simp [w.knotsU]) (by simp; linarith) (by simp; linarith), if_pos rfl, transposeM_run w.cps (by omega), ok_bind, List.nil_append,
      removeFibres_run hF.1 (fun i hi => (hR i hi).1), ok_bind]
    dsimp only
    rw [← hG, transposeM_run hGm (by omega), ok_bind, List.nil_append, if_neg (by omega), Nat.add_sub_cancel, hD m le_rfl]
    rfl
  · exact { degreeU := w.degreeU, degreeV := w.degreeV, posU := w.posU, posV := w.posV, le7U := w.le7U, le7V := w.le7V, cps := isMat_tab, pn := wn.pn, qm := w.qm, knotsU := wn.knots, knotsV := w.knotsV, sortedU := wn.sorted, sortedV := w.sortedV }
  · intro j hj
    dsimp only
    have h := (hR j (by omega)).1
    rw [hFr j hj] at h
    rw [h, hD j hj, ← hsame j hj]
    have hdeg := (hf j hj).1.degree
    have hl := (hf j hj).1.cps
    have e : (List.range (n - 1 + 1)).map (fun i => ent (tab (n - 1 + 1) (m + 1) fun i j => ent G j i) i j) = (D j).cps := by
      apply ext_nth (by simp [hl])
      intro i hi
      rw [List.length_map, List.length_range] at hi
      rw [nth_mapRange hi, ent_tab (by omega) (by omega), ← hrow j hj]
      rfl
    rw [e, w.degreeU, ← hdeg]

/-- C128 (violated), U direction: the first column is refused; the result has no control points. -/
theorem C128_refused_u_violated (test : List T → T → T → Bool) {c : BsplineSurface K T} {p q n m : ℕ} {u : K} (w : WellFormedS c p q n m) (he : EndsSeparatedS c p q n m)
    (hsep : KnotSeparated c.knotsU u) (h0 : nth c.knotsU p < u) (h1 : u < nth c.knotsU (n + 1)) (hc : 1 ≤ c.knotsU.count u) (hcp : c.knotsU.count u ≤ p)
    (hno : removeKnot (test ((List.range (n + 1)).map fun i => ent c.cps i 0)) { degree := c.degreeU, knots := c.knotsU, cps := (List.range (n + 1)).map fun i => ent c.cps i 0 } u 1 = ok none) :
    ∃ r, removeKnotSurface test c u 1 true = ok r ∧ r.cps = [] := by
  have hpn := w.pn
  set F := tab (m + 1) (n + 1) fun j i => ent c.cps i j with hFdef
  have hF : IsMat F (m + 1) (n + 1) := isMat_tab
  have hFr : row F 0 = (List.range (n + 1)).map fun i => ent c.cps i 0 := by
    rw [hFdef]
    exact row_range_map (by omega)
  obtain ⟨R, hR⟩ := fibre_cases test hF w.degreeU w.posU w.le7U w.pn w.knotsU w.sortedU he.u hsep h0 h1 hc hcp
  have hm0 := w.sortedU 0 p (by omega) (by rw [w.knotsU]; omega)
  have hm1 := w.sortedU (n + 1) (n + p + 1) (by omega) (by rw [w.knotsU]; omega)
  have hR0 := (hR 0 (by omega)).1
  rw [hFr, hno] at hR0
  have hr : row ((List.range (m + 1)).map fun i => keptPoints (R i)) 0 = [] := by
    rw [row_range_map (by omega), ← Res.ok.inj hR0]
    rfl
  rw [removeSurface_start (L := n + p + 1) (by simp [w.knotsU]) (by simp; linarith) (by simp; linarith), if_pos rfl, transposeM_run w.cps (by omega), ok_bind, List.nil_append,
      removeFibres_run hF.1 (fun i hi => (hR i hi).1), ok_bind]
  dsimp only
  have ht : transposeM ((List.range (m + 1)).map fun i => keptPoints (R i)) [] = ok [] := by
    unfold transposeM
    rw [vget_row (k := 0) (by simp) (by simp), ok_bind, hr, forI_empty (by simp)]
  rw [ht, ok_bind]
  exact ⟨_, rfl, rfl⟩

/-! ## Removing what was inserted -/

theorem ent_ge_row {C : List (List T)} {i j : ℕ} (h : C.length ≤ i) : ent C i j = 0 := by
  unfold ent row
  rw [show C.getD i [] = [] by simp [h]]
  exact nth_ge (Nat.zero_le _)

/-- the loop for one row after an insertion that raised the multiplicity to the degree -/
theorem undo_fibre {close : T → T → Bool} (hcl : ∀ x, close x x = true) {d : ℤ} {U V : List K} {P Q : List T} {p n k : ℕ} {u : K}
    (w : WellFormed ({ degree := d, knots := U, cps := P } : BsplineCurve K T) p n) (he : EndsSeparated (nth U) p n) (hsep : KnotSeparated U u)
    (h0 : nth U p < u) (h1 : u < nth U (n + 1)) (hsp : U.count u + 1 = p) (hk : getKnotSpanIndex d U u = ok (k : ℤ))
    (hm : getKnotMultiplicity U u = ok ((U.count u : ℕ) : ℤ)) (hi : InsertAt (nth U) p n k (U.count u) u)
    (hV : V.length = n + 1 + p + 2) (hQ : Q.length = n + 2) (gV : InsKnots (nth U) (nth V) k 1 (n + p + 1) u)
    (gQ : InsPoints (nth U) (nth P) (nth Q) p n k (U.count u) 1 u) :
    removeKnot close { degree := d, knots := V, cps := Q } u 1 = ok (some { degree := d, knots := U, cps := P }) := by
  obtain ⟨o, ho, o1, o2, o3, o4, o5, o6⟩ := insertKnot_run (r := 1) (t := 1) (res := ({ degree := d, knots := U, cps := P } : BsplineCurve K T)) w hk hm hi (by omega)
    (by rw [if_neg (by omega)]; simp) le_rfl (by omega)
  have hkn := hi.kn
  have hpk := hi.pk
  have e : o = (1, { degree := d, knots := V, cps := Q }) := by
    have ek : o.2.knots = V := by
      apply ext_nth (by rw [hV]; omega)
      intro i hi'
      by_cases a : i ≤ k
      · rw [gV.lo i a]; exact o5.lo i a
      · by_cases b : i ≤ k + 1
        · rw [gV.mid i (by omega) b]; exact o5.mid i (by omega) b
        · rw [gV.hi i (by omega) (by omega)]; exact o5.hi i (by omega) (by omega)
    have ec : o.2.cps = Q := by
      apply ext_nth (by rw [hQ]; omega)
      intro i hi'
      by_cases a : i + p ≤ k
      · rw [gQ.lo i a]; exact o6.lo i a
      · by_cases b : i = k - p + 1
        · rw [b, gQ.left 1 le_rfl le_rfl (by omega)]; exact o6.left 1 le_rfl le_rfl (by omega)
        · rw [gQ.hi i (by omega) (by omega) (by omega)]; exact o6.hi i (by omega) (by omega) (by omega)
    obtain ⟨t, c'⟩ := o
    cases c'
    dsimp only at o1 o2 ek ec
    have hd : d = (p : ℤ) := w.degree
    simp_all
  rw [e] at ho
  exact C41_undo_insert_partial hcl w he hsep h0 h1 hsp ho

/-- C128: removing the knot undoes an insertion that raised the multiplicity to the degree (V direction): for every test that
accepts equal points, the original surface comes back, not merely an equivalent one. -/
theorem C128_undo_v_partial {test : List T → T → T → Bool} {c r : BsplineSurface K T} {p q n m : ℕ} {v : K} (w : WellFormedS c p q n m) (he : EndsSeparatedS c p q n m)
    (hsep : KnotSeparated c.knotsV v) (h0 : nth c.knotsV q < v) (h1 : v < nth c.knotsV (m + 1)) (hs : c.knotsV.count v + 1 = q)
    (hr : insertKnotSurface c v 1 false = ok r) (hcl : ∀ i ≤ n, ∀ x, test (row r.cps i) x x = true) : removeKnotSurface test r v 1 false = ok c := by
  have hpn := w.qm
  have hku := w.knotsV
  have wc : ∀ i < n + 1, WellFormed ({ degree := c.degreeV, knots := c.knotsV, cps := row c.cps i } : BsplineCurve K T) q m := fun i hi =>
    { degree := w.degreeV, pos := w.posV, le7 := w.le7V, cps := w.cps.2 i hi, pn := w.qm, knots := w.knotsV, sorted := w.sortedV }
  obtain ⟨k, hk, hm, hi⟩ := insertAt_of (wc 0 (by omega)) he.v hsep h0.le h1 (by dsimp only; omega)
  replace hk : getKnotSpanIndex c.degreeV c.knotsV v = ok (k : ℤ) := hk
  replace hm : getKnotMultiplicity c.knotsV v = ok ((c.knotsV.count v : ℕ) : ℤ) := hm
  replace hi : InsertAt (nth c.knotsV) q m k (c.knotsV.count v) v := hi
  have hval : isValidBspline (q : ℤ) (c.knotsV.length) ((m + 1 : ℕ) : ℤ) = true := by
    unfold isValidBspline
    rw [w.knotsV]
    simp; ring
  have hrow : vget c.cps 0 = ok (row c.cps 0) := vget_row (k := 0) (by simp) (by rw [w.cps.1]; omega)
  have hk' := hk
  rw [w.degreeV] at hk'
  unfold insertKnotSurface at hr
  simp only [Bool.false_eq_true, if_false, hrow, ok_bind, w.cps.2 0 (by omega), hval, validate_true, hk', hm, w.degreeV, w.cps.1] at hr
  rw [if_neg (show ¬ ((c.knotsV.count v : ℕ) : ℤ) = (q : ℤ) by omega)] at hr
  rw [show (if 1 + ((c.knotsV.count v : ℕ) : ℤ) > (q : ℤ) then (q : ℤ) - ((c.knotsV.count v : ℕ) : ℤ) else 1) = ((1 : ℕ) : ℤ) by rw [if_neg (by omega)]; simp] at hr
  obtain ⟨V, eV, lV, gV⟩ := insertedKnots_run (t := 1) hi hku
  obtain ⟨A, eA, mA, hA⟩ := insertAlpha_run (t := 1) hi hku (by omega)
  rw [eV, ok_bind, eA, ok_bind, if_neg (by omega)] at hr
  obtain ⟨⟨M, temp⟩, eM, hM, hP⟩ := insertRows_run (A := A) (M := List.replicate (n + 1) (List.replicate (m + 1 + 1) (0 : T))) (temp := List.replicate (q + 1) (0 : T))
    w.cps hi hku le_rfl (by omega) mA hA isMat_replicate (by simp)
  rw [show (((m + 1 : ℕ) : ℤ) + ((1 : ℕ) : ℤ)).toNat = m + 1 + 1 by omega, show (((n + 1 : ℕ) : ℤ)).toNat = n + 1 by omega, show ((q : ℤ) + 1).toNat = q + 1 by omega] at hr
  push_cast at eM hr
  rw [eM, ok_bind] at hr
  dsimp only at hM hP hr
  obtain ⟨k1, k2, k3, k4, k5⟩ := insKnots_facts hi hku lV gV
  cases hr
  have hm0 := k2 0 q (by omega) (by omega)
  have hm1 := k2 (m + 1 + 1) (m + 1 + q + 1) (by omega) (by omega)
  have hR : ∀ i < n + 1, removeKnot (test (row M i)) { degree := (q : ℤ), knots := V, cps := row M i } v 1 = ok (some { degree := c.degreeV, knots := c.knotsV, cps := row c.cps i }) := by
    intro i hi'
    have := undo_fibre (close := test (row M i)) (hcl i (by omega)) (V := V) (Q := row M i) (wc i hi') he.v hsep h0 h1 hs hk hm hi (by rw [lV]) (hM.2 i hi') gV (hP i (by omega))
    rw [← w.degreeV]
    exact this
  rw [removeSurface_start (L := m + 1 + q + 1) (by simp [lV]) (by simp only [Bool.false_eq_true, if_false]; linarith) (by simp only [Bool.false_eq_true, if_false]; linarith), if_neg (by simp),
    removeFibres_run hM.1 hR, ok_bind]
  dsimp only
  rw [if_neg (by omega)]
  have e : ((List.range (n + 1)).map fun i => keptPoints (some ({ degree := c.degreeV, knots := c.knotsV, cps := row c.cps i } : BsplineCurve K T))) = c.cps := by
    have h := w.cps.1
    apply row_ext (by simp [h])
    intro i hi'
    rw [List.length_map, List.length_range] at hi'
    rw [row_range_map hi']
    rfl
  rw [e]
  obtain ⟨a1, a2, a3, a4, a5⟩ := c
  have := w.degreeV
  dsimp only at this ⊢
  rw [this]
  rfl

/-- C128, U direction. -/
theorem C128_undo_u_partial {test : List T → T → T → Bool} {c r : BsplineSurface K T} {p q n m : ℕ} {u : K} (w : WellFormedS c p q n m) (he : EndsSeparatedS c p q n m)
    (hsep : KnotSeparated c.knotsU u) (h0 : nth c.knotsU p < u) (h1 : u < nth c.knotsU (n + 1)) (hs : c.knotsU.count u + 1 = p)
    (hr : insertKnotSurface c u 1 true = ok r) (hcl : ∀ j ≤ m, ∀ x, test ((List.range (n + 2)).map fun i => ent r.cps i j) x x = true) : removeKnotSurface test r u 1 true = ok c := by
  have hpn := w.pn
  have hku := w.knotsU
  have wc : ∀ j < m + 1, WellFormed ({ degree := c.degreeU, knots := c.knotsU, cps := (List.range (n + 1)).map fun i => ent c.cps i j } : BsplineCurve K T) p n := fun j hj =>
    { degree := w.degreeU, pos := w.posU, le7 := w.le7U, cps := by simp, pn := w.pn, knots := w.knotsU, sorted := w.sortedU }
  obtain ⟨k, hk, hm, hi⟩ := insertAt_of (wc 0 (by omega)) he.u hsep h0.le h1 (by dsimp only; omega)
  replace hk : getKnotSpanIndex c.degreeU c.knotsU u = ok (k : ℤ) := hk
  replace hm : getKnotMultiplicity c.knotsU u = ok ((c.knotsU.count u : ℕ) : ℤ) := hm
  replace hi : InsertAt (nth c.knotsU) p n k (c.knotsU.count u) u := hi
  have hk' := hk
  rw [w.degreeU] at hk'
  have hval : isValidBspline (p : ℤ) c.knotsU.length c.cps.length = true := by
    unfold isValidBspline
    rw [w.knotsU, w.cps.1]
    simp; ring
  unfold insertKnotSurface at hr
  simp only [if_true, hval, validate_true, ok_bind, hk', hm, w.degreeU] at hr
  rw [if_neg (show ¬ ((c.knotsU.count u : ℕ) : ℤ) = (p : ℤ) by omega)] at hr
  rw [show (if 1 + ((c.knotsU.count u : ℕ) : ℤ) > (p : ℤ) then (p : ℤ) - ((c.knotsU.count u : ℕ) : ℤ) else 1) = ((1 : ℕ) : ℤ) by rw [if_neg (by omega)]; simp] at hr
  obtain ⟨V, eV, lV, gV⟩ := insertedKnots_run (t := 1) hi hku
  obtain ⟨A, eA, mA, hA⟩ := insertAlpha_run (t := 1) hi hku (by omega)
  rw [eV, ok_bind, eA, ok_bind, vget_row (k := 0) (by simp) (by rw [w.cps.1]; omega), ok_bind, w.cps.2 0 (by omega), w.cps.1, if_neg (by omega)] at hr
  obtain ⟨⟨M, temp⟩, eM, hM, hP⟩ := insertColumns_run (A := A) (M := List.replicate (n + 1 + 1) (List.replicate (m + 1) (0 : T))) (temp := List.replicate (p + 1) (0 : T))
    w.cps hi hku le_rfl (by omega) mA hA isMat_replicate (by simp)
  rw [show (((n + 1 : ℕ) : ℤ) + ((1 : ℕ) : ℤ)).toNat = n + 1 + 1 by omega, show (((m + 1 : ℕ) : ℤ)).toNat = m + 1 by omega, show ((p : ℤ) + 1).toNat = p + 1 by omega] at hr
  push_cast at eM hr
  rw [eM, ok_bind] at hr
  dsimp only at hM hP hr
  obtain ⟨k1, k2, k3, k4, k5⟩ := insKnots_facts hi hku lV gV
  cases hr
  have hm0 := k2 0 p (by omega) (by omega)
  have hm1 := k2 (n + 1 + 1) (n + 1 + p + 1) (by omega) (by omega)
  set F := tab (m + 1) (n + 1 + 1) fun j i => ent M i j with hFdef
  have hF : IsMat F (m + 1) (n + 1 + 1) := isMat_tab
  have hFr : ∀ j < m + 1, row F j = (List.range (n + 1 + 1)).map fun i => ent M i j := by
    intro j hj
    rw [hFdef]
    exact row_range_map hj
  have hR : ∀ j < m + 1, removeKnot (test (row F j)) { degree := (p : ℤ), knots := V, cps := row F j } u 1 =
      ok (some { degree := c.degreeU, knots := c.knotsU, cps := (List.range (n + 1)).map fun i => ent c.cps i j }) := by
    intro j hj
    have g := hP j (by omega)
    have hk1 := hi.kn
    have gQ : InsPoints (nth c.knotsU) (nth ((List.range (n + 1)).map fun i => ent c.cps i j)) (nth (row F j)) p n k (c.knotsU.count u) 1 u := by
      have eP : (nth ((List.range (n + 1)).map fun i => ent c.cps i j)) = fun i => ent c.cps i j := by
        funext i
        by_cases hi' : i < n + 1
        · rw [nth_mapRange hi']
        · rw [nth_ge (by simp; omega), ent_ge_row (by rw [w.cps.1]; omega)]
      have eQ : nth (row F j) = fun i => ent M i j := by
        funext i
        rw [hFr j hj]
        by_cases hi' : i < n + 1 + 1
        · rw [nth_mapRange hi']
        · rw [nth_ge (by simp; omega), ent_ge_row (by rw [hM.1]; omega)]
      rw [eP, eQ]
      exact g
    have := undo_fibre (close := test (row F j)) (by rw [hFr j hj]; exact hcl j (by omega)) (V := V) (Q := row F j) (wc j hj) he.u hsep h0 h1 hs hk hm hi (by rw [lV]) (hF.2 j hj) gV gQ
    rw [← w.degreeU]
    exact this
  rw [removeSurface_start (L := n + 1 + p + 1) (by simp [lV]) (by simp only [if_true]; linarith) (by simp only [if_true]; linarith), if_pos rfl, transposeM_run hM (by omega), ok_bind, List.nil_append,
    removeFibres_run hF.1 hR, ok_bind]
  dsimp only
  rw [if_neg (by omega)]
  have hG : IsMat ((List.range (m + 1)).map fun j => keptPoints (some ({ degree := c.degreeU, knots := c.knotsU, cps := (List.range (n + 1)).map fun i => ent c.cps i j } : BsplineCurve K T))) (m + 1) (n + 1) := by
    refine ⟨by simp, fun j hj => ?_⟩
    rw [row_range_map hj]
    simp [keptPoints]
  rw [transposeM_run hG (by omega), ok_bind, List.nil_append]
  have e : (tab (n + 1) (m + 1) fun i j => ent ((List.range (m + 1)).map fun j => keptPoints (some ({ degree := c.degreeU, knots := c.knotsU, cps := (List.range (n + 1)).map fun i => ent c.cps i j } : BsplineCurve K T))) j i) = c.cps := by
    apply mat_ext isMat_tab w.cps
    intro i hi' j hj
    rw [ent_tab hi' hj]
    unfold ent
    rw [row_range_map hj]
    show nth ((List.range (n + 1)).map fun i => ent c.cps i j) i = _
    rw [nth_mapRange hi']
    rfl
  rw [e]
  obtain ⟨a1, a2, a3, a4, a5⟩ := c
  have := w.degreeU
  dsimp only at this ⊢
  rw [this]
  rfl

/-- C128: a parameter outside the knots, and a number of removals that is not positive, are rejected. -/
theorem C128_rejects (test : List T → T → T → Bool) (c : BsplineSurface K T) (u : K) (times : ℤ) (isU : Bool) {L : ℕ} (hl : (if isU then c.knotsU else c.knotsV).length = L + 1) :
    (u < nth (if isU then c.knotsU else c.knotsV) 0 - doubleEps ∨ nth (if isU then c.knotsU else c.knotsV) L + doubleEps < u → removeKnotSurface test c u times isU = outOfRange) ∧
    (nth (if isU then c.knotsU else c.knotsV) 0 ≤ u → u ≤ nth (if isU then c.knotsU else c.knotsV) L → times ≤ 0 → removeKnotSurface test c u times isU = invalidArg) := by
  unfold removeKnotSurface
  dsimp only
  rw [vget_nth (i := 0) (k := 0) rfl (by omega), ok_bind, vget_nth (k := L) (by rw [hl]; push_cast; ring) (by omega), ok_bind]
  refine ⟨fun h => ?_, fun h0 h1 h => ?_⟩
  · rw [validateRange_out h]; rfl
  · rw [validateRange_ok h0 h1, ok_bind]
    unfold validate
    rw [if_neg (by simpa using h)]
    rfl

end

/-! ## The library's tolerance -/

/-- all weights of a surface are non-negative -/
def NonnegWeights (c : NurbsSurface ℝ) : Prop := ∀ r ∈ c.cps, ∀ x ∈ r, 0 ≤ x.w

/-- C128 with the library's tolerance, V direction. -/
theorem C128_undo_library_v_partial {c r : NurbsSurface ℝ} {p q n m : ℕ} {v : ℝ} (w : WellFormedS c p q n m) (he : EndsSeparatedS c p q n m)
    (hsep : KnotSeparated c.knotsV v) (h0 : nth c.knotsV q < v) (h1 : v < nth c.knotsV (m + 1)) (hs : c.knotsV.count v + 1 = q)
    (hr : insertKnotSurface c v 1 false = ok r) (hw : NonnegWeights r) : NurbsSurface.removeKnot r v 1 false = ok c := by
  refine C128_undo_v_partial w he hsep h0 h1 hs hr fun i hi x => ?_
  refine closeTest_refl (fun x hx => ?_) x
  by_cases h : i < r.cps.length
  · refine hw (row r.cps i) ?_ x hx
    unfold row
    rw [show r.cps.getD i [] = r.cps[i] by simp [h]]
    exact List.getElem_mem h
  · unfold row at hx
    rw [show r.cps.getD i [] = [] by simp at h; simp [h]] at hx
    simp at hx

/-- C128 with the library's tolerance, U direction. -/
theorem C128_undo_library_u_partial {c r : NurbsSurface ℝ} {p q n m : ℕ} {u : ℝ} (w : WellFormedS c p q n m) (he : EndsSeparatedS c p q n m)
    (hsep : KnotSeparated c.knotsU u) (h0 : nth c.knotsU p < u) (h1 : u < nth c.knotsU (n + 1)) (hs : c.knotsU.count u + 1 = p)
    (hr : insertKnotSurface c u 1 true = ok r) (hw : NonnegWeights r) : NurbsSurface.removeKnot r u 1 true = ok c := by
  refine C128_undo_u_partial w he hsep h0 h1 hs hr fun j hj x => ?_
  refine closeTest_refl (fun x hx => ?_) x
  obtain ⟨i, -, rfl⟩ := List.mem_map.mp hx
  by_cases h : i < r.cps.length
  · by_cases h' : j < (row r.cps i).length
    · refine hw (row r.cps i) ?_ _ ?_
      · unfold row
        rw [show r.cps.getD i [] = r.cps[i] by simp [h]]
        exact List.getElem_mem h
      · unfold ent
        rw [nth_eq_getElem h']
        exact List.getElem_mem h'
    · unfold ent
      rw [nth_ge (by omega)]
      exact le_rfl
  · rw [ent_ge_row (by omega)]
    exact le_rfl

/-- a flat row and a row with one raised control point -/
def exRemSurf : NurbsSurface ℝ := { degreeU := 1, degreeV := 2, knotsU := [0, 0, 1, 1], knotsV := [0, 0, 0, 1, 2, 2, 2], cps := [[⟨0, 0, 0, 1⟩, ⟨0, 0, 0, 1⟩, ⟨0, 0, 0, 1⟩, ⟨0, 0, 0, 1⟩], [⟨0, 0, 0, 1⟩, ⟨0, 0, 0, 1⟩, ⟨1, 0, 0, 1⟩, ⟨0, 0, 0, 1⟩]] }

theorem exRemSurf_wf : WellFormedS exRemSurf 1 2 1 3 where
  degreeU := rfl
  degreeV := rfl
  posU := by decide
  posV := by decide
  le7U := by decide
  le7V := by decide
  cps := ⟨rfl, fun i hi => by interval_cases i <;> rfl⟩
  pn := by decide
  qm := by decide
  knotsU := rfl
  knotsV := rfl
  sortedU := isValidKnotVector_nth.mp ((isValidKnotVector_iff _).mpr (by simp [exRemSurf]))
  sortedV := isValidKnotVector_nth.mp ((isValidKnotVector_iff _).mpr (by simp [exRemSurf]))

theorem exRemSurf_ends : EndsSeparatedS exRemSurf 1 2 1 3 := by
  constructor <;> constructor <;> simp [exRemSurf, nth] <;> norm_num

theorem exRemSurf_sep : KnotSeparated exRemSurf.knotsV (1 : ℝ) := by
  intro x hx
  simp only [exRemSurf, List.mem_cons, List.not_mem_nil, or_false] at hx
  rcases hx with h | h | h | h | h | h | h <;> subst h <;> norm_num [abs_of_pos]

theorem exRemSurf_refused : removeKnot (libraryTest (row exRemSurf.cps 1)) { degree := exRemSurf.degreeV, knots := exRemSurf.knotsV, cps := row exRemSurf.cps 1 } (1 : ℝ) 1 = ok none := by
  have w := exRemSurf_wf
  have wc : WellFormed ({ degree := exRemSurf.degreeV, knots := exRemSurf.knotsV, cps := row exRemSurf.cps 1 } : NurbsCurve ℝ) 2 3 :=
    { degree := rfl, pos := by decide, le7 := by decide, cps := rfl, pn := by decide, knots := rfl, sorted := w.sortedV }
  have hcount : exRemSurf.knotsV.count (1 : ℝ) = 1 := by simp [exRemSurf, List.count_cons]
  obtain ⟨r, hr, hm, hi⟩ := insertAt_of wc exRemSurf_ends.v exRemSurf_sep (by simp [exRemSurf, nth]) (by simp [exRemSurf, nth]) (by dsimp only; rw [hcount]; decide)
  dsimp only at hr hm hi
  rw [hcount] at hm hi
  have hr3 : r = 3 := by
    have h2 := hi.kn
    have h3 := hi.pk
    have h4 := hi.hi
    interval_cases r
    · simp [exRemSurf, nth] at h4
    · rfl
  subst hr3
  refine (removeKnot_run (libraryTest (row exRemSurf.cps 1)) wc hr hm hi le_rfl (by decide)).1 ?_
  have hL : remL (nth exRemSurf.knotsV) (nth (row exRemSurf.cps 1)) 2 (1 : ℝ) 1 1 = ⟨0, 0, 0, 1⟩ := by
    simp [remL, remA, exRemSurf, row, nth]
    norm_num [XYZW.ext_iff]
  have hR : remR (nth exRemSurf.knotsV) (nth (row exRemSurf.cps 1)) 2 (1 : ℝ) 2 1 = ⟨2, 0, 0, 1⟩ := by
    simp [remR, remA, exRemSurf, row, nth]
    norm_num [XYZW.ext_iff]
  unfold remOk
  dsimp only
  rw [if_neg (by decide), show (2 - 1) / 2 + 1 = 1 by decide, show 3 - 2 = 1 by decide, show 3 - 1 = 2 by decide, hL, hR]
  have h : curveModifyTolerance (row exRemSurf.cps 1) ≤ 1 / 10000 := by
    unfold curveModifyTolerance
    dsimp only
    set st := (row exRemSurf.cps 1).foldl (fun (st : ℝ × ℝ) (q : XYZW ℝ) => (min st.1 q.w, max st.2 q.toXYZ.length)) (1, 0) with hst
    have h1 : st.1 = 1 := by rw [hst]; simp [exRemSurf, row]
    rw [h1, mul_one]
    unfold distEps
    exact div_le_self (by norm_num) (by have := abs_nonneg st.2; linarith)
  have h0 : 0 ≤ curveModifyTolerance (row exRemSurf.cps 1) := tolerance_nonneg (by
    intro q hq
    simp only [exRemSurf, row, List.getD_cons_succ, List.getD_cons_zero, List.mem_cons, List.not_mem_nil, or_false] at hq
    rcases hq with h | h | h | h <;> subst h <;> norm_num)
  have hd : XYZW.distance (⟨0, 0, 0, 1⟩ : XYZW ℝ) ⟨2, 0, 0, 1⟩ = 2 := by
    simp [XYZW.distance]
  unfold libraryTest
  rw [hd]
  unfold isLessThanOrEqual
  rw [decide_eq_false_iff_not]
  unfold tolOf doubleEps
  rw [max_eq_left (by rw [abs_of_nonneg h0]; norm_num; linarith), abs_of_pos (by norm_num)]
  norm_num
  linarith

/-- C128 (violated) with the library's tolerance: a knot that one row of the surface needs. The call succeeds, and leaves that row without
control points. -/
theorem C128_library_violated : WellFormedS exRemSurf 1 2 1 3 ∧ ∃ r, NurbsSurface.removeKnot exRemSurf 1 1 false = ok r ∧ r.cps.length = 2 ∧ row r.cps 1 = [] := by
  refine ⟨exRemSurf_wf, ?_⟩
  exact C128_refused_v_violated libraryTest exRemSurf_wf exRemSurf_ends exRemSurf_sep (by simp [exRemSurf, nth]) (by simp [exRemSurf, nth])
    (by simp [exRemSurf, List.count_cons]) (by simp [exRemSurf, List.count_cons]) (i := 1) le_rfl exRemSurf_refused

/-! ## Nontrivial instances -/

/-- a surface with a V knot no row needs and a U knot every column needs -/
def exRemOk : BsplineSurface ℚ ℚ := { degreeU := 2, degreeV := 1, knotsU := [0, 0, 0, 1, 2, 2, 2], knotsV := [0, 0, 1, 2, 2], cps := [[0, 1, 2], [1, 2, 3], [4, 5, 6], [7, 8, 9]] }

theorem exRemOk_wf : WellFormedS exRemOk 2 1 3 2 where
  degreeU := rfl
  degreeV := rfl
  posU := by decide
  posV := by decide
  le7U := by decide
  le7V := by decide
  cps := ⟨rfl, fun i hi => by interval_cases i <;> rfl⟩
  pn := by decide
  qm := by decide
  knotsU := rfl
  knotsV := rfl
  sortedU := isValidKnotVector_nth.mp (by decide +kernel)
  sortedV := isValidKnotVector_nth.mp (by decide +kernel)

example : EndsSeparatedS exRemOk 2 1 3 2 ∧ KnotSeparated exRemOk.knotsV 1 ∧ KnotSeparated exRemOk.knotsU 1 ∧
    removeKnotSurface (fun _ a b => a = b) exRemOk 1 1 false = ok { exRemOk with knotsV := [0, 0, 2, 2], cps := [[0, 2], [1, 3], [4, 6], [7, 9]] } ∧
    removeKnotSurface (fun _ _ _ => true) exRemOk 1 1 true = ok { exRemOk with knotsU := [0, 0, 0, 2, 2, 2], cps := [[0, 1, 2], [4, 5, 6], [7, 8, 9]] } ∧
    removeKnotSurface (fun _ a b => a = b) exRemOk 1 1 true = ok { exRemOk with knotsU := [], cps := [] } :=
  ⟨⟨⟨by decide +kernel, by decide +kernel⟩, ⟨by decide +kernel, by decide +kernel⟩⟩, by unfold KnotSeparated; decide +kernel, by unfold KnotSeparated; decide +kernel, by decide +kernel, by decide +kernel, by decide +kernel⟩

/-- an insertion in each direction and its removal -/
example : (∃ r, insertKnotSurface exRemOk (1 / 2) 1 false = ok r ∧ removeKnotSurface (fun _ a b => a = b) r (1 / 2) 1 false = ok exRemOk) ∧
    ∃ r, insertKnotSurface exRemOk 1 1 true = ok r ∧ removeKnotSurface (fun _ a b => a = b) r 1 1 true = ok exRemOk := by
  have he : EndsSeparatedS exRemOk 2 1 3 2 := ⟨⟨by decide +kernel, by decide +kernel⟩, ⟨by decide +kernel, by decide +kernel⟩⟩
  constructor
  · obtain ⟨r, e, -⟩ := C83_insert_v (times := 1) exRemOk_wf he (v := 1 / 2) (by unfold KnotSeparated; decide +kernel) (by decide +kernel) (by decide +kernel) (by decide +kernel) (by norm_num)
    exact ⟨r, e, C128_undo_v_partial exRemOk_wf he (by unfold KnotSeparated; decide +kernel) (by decide +kernel) (by decide +kernel) (by decide +kernel) e fun i _ x => by simp⟩
  · obtain ⟨r, e, -⟩ := C83_insert_u (times := 1) exRemOk_wf he (u := 1) (by unfold KnotSeparated; decide +kernel) (by decide +kernel) (by decide +kernel) (by decide +kernel) (by norm_num)
    exact ⟨r, e, C128_undo_u_partial exRemOk_wf he (by unfold KnotSeparated; decide +kernel) (by decide +kernel) (by decide +kernel) (by decide +kernel) e fun i _ x => by simp⟩

end LNLib.Props
