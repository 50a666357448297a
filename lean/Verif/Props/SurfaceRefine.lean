import Verif.Props.SurfaceInsert
import Verif.Props.Refine

/-!
# C84: knot refinement of a surface
-/

namespace LNLib.Props
open LNLib Res Spec Finset
set_option linter.unusedSectionVars false

variable {K : Type} [Field K] [LinearOrder K] [IsStrictOrderedRing K]
variable {T : Type} [AddCommGroup T] [Module K T]

/-- a curve operation applied to every row of a table -/
theorem fibresLoop_run {F : List (List T)} {a : ℕ} (ha : F.length = a) {degree : ℤ} {U : List K} {op : BsplineCurve K T → Res (BsplineCurve K T)} {R : ℕ → BsplineCurve K T}
    (h : ∀ i < a, op { degree := degree, knots := U, cps := row F i } = ok (R i)) :
    (forI 0 (F.length : ℤ) (([] : List (List T)), ([] : List K)) fun i st => do
      let f ← vget F i
      let tc ← op { degree := degree, knots := U, cps := f }
      ok (st.1 ++ [tc.cps], tc.knots)) = ok ((List.range a).map (fun i => (R i).cps), if a = 0 then [] else (R (a - 1)).knots) := by
  apply Runs.eq
  refine (Runs.forN (m := 0) (n := a) (fun j st => st = ((List.range j).map (fun i => (R i).cps), if j = 0 then [] else (R (j - 1)).knots)) rfl (by rw [ha]) (by omega) rfl ?_)
  rintro i st - hi rfl
  rw [vget_row (k := i) rfl (by omega), ok_bind, h i hi, ok_bind]
  refine Runs.ok ?_
  rw [List.range_succ, List.map_append, if_neg (Nat.succ_ne_zero i), Nat.add_sub_cancel]
  rfl

theorem row_range_map {a i : ℕ} {f : ℕ → List T} (hi : i < a) : row ((List.range a).map f) i = f i := by
  simp [row, hi]

theorem sorted_perm_eq {l l' : List K} (h : l.Perm l') (s : ∀ i j, i ≤ j → j < l.length → nth l i ≤ nth l j) (s' : ∀ i j, i ≤ j → j < l'.length → nth l' i ≤ nth l' j) : l = l' :=
  h.eq_of_pairwise' ((isValidKnotVector_iff l).mp (isValidKnotVector_nth.mpr s)) ((isValidKnotVector_iff l').mp (isValidKnotVector_nth.mpr s'))

/-- all rows of a table refined by the same knots -/
theorem refineFibres_run {F : List (List T)} {a n p : ℕ} {U X : List K} {d : ℤ} (ha : 0 < a) (hF : IsMat F a (n + 1)) (hd : d = p) (hp0 : 0 < p) (hp7 : p ≤ 7) (hpn : p ≤ n)
    (hU : U.length = n + p + 2) (hs : ∀ i j, i ≤ j → j < U.length → nth U i ≤ nth U j)
    (he : EndsSeparated (nth U) p n) (hne : X ≠ []) (hXs : X.Pairwise (· ≤ ·)) (hX : ∀ x ∈ X, nth U p < x ∧ x < nth U (n + 1)) (hsep : WellSeparated (U ++ X)) :
    ∃ G V, refineFibres d U X F = ok (G, V) ∧ IsMat G a (n + X.length + 1) ∧ V.Perm (U ++ X) ∧ (∀ i j, i ≤ j → j < V.length → nth V i ≤ nth V j) ∧
      EndsSeparated (nth V) p (n + X.length) ∧ nth V p = nth U p ∧ nth V (n + X.length + 1) = nth U (n + 1) ∧
      ∀ i < a, ∀ t, nth U p ≤ t → t ≤ nth U (n + 1) → curvePoint (nth V) p (n + X.length) (ent G i) t = curvePoint (nth U) p n (ent F i) t := by
  have key : ∀ i, ∃ R : BsplineCurve K T, i < a → refineKnotVector { degree := d, knots := U, cps := row F i } X = ok R ∧ WellFormed R p (n + X.length) ∧
      EndsSeparated (nth R.knots) p (n + X.length) ∧ R.knots.Perm (U ++ X) ∧ nth R.knots p = nth U p ∧ nth R.knots (n + X.length + 1) = nth U (n + 1) ∧
      ∀ t, nth U p ≤ t → t ≤ nth U (n + 1) → curvePoint (nth R.knots) p (n + X.length) (nth R.cps) t = curvePoint (nth U) p n (ent F i) t := by
    intro i
    by_cases hi : i < a
    · have w : WellFormed ({ degree := d, knots := U, cps := row F i } : BsplineCurve K T) p n :=
        { degree := hd, pos := hp0, le7 := hp7, cps := hF.2 i hi, pn := hpn, knots := hU, sorted := hs }
      obtain ⟨R, h1, h2, h3, h4, h5, h6, h7, -⟩ := refineKnotVector_run w he hne (fun m hm => (hX _ (mem_of_nth hm)).1) (fun m hm => (hX _ (mem_of_nth hm)).2) (sorted_nth hXs) hsep
      exact ⟨R, fun _ => ⟨h1, h2, h3, h4, h5, h6, h7⟩⟩
    · exact ⟨{ degree := d, knots := U, cps := [] }, fun h => absurd h hi⟩
  choose R hR using key
  have e := fibresLoop_run (F := F) (a := a) hF.1 (degree := d) (U := U) (op := fun c => refineKnotVector c X) (R := R) (fun i hi => (hR i hi).1)
  have hV : ∀ i < a, (R i).knots = (R (a - 1)).knots := fun i hi =>
    sorted_perm_eq ((hR i hi).2.2.2.1.trans (hR (a - 1) (by omega)).2.2.2.1.symm) (hR i hi).2.1.sorted (hR (a - 1) (by omega)).2.1.sorted
  rw [if_neg (by omega)] at e
  obtain ⟨-, b2, b3, b4, b5, b6, -⟩ := hR (a - 1) (by omega)
  refine ⟨_, _, e, ⟨by simp, fun i hi => ?_⟩, b4, b2.sorted, b3, b5, b6, fun i hi t h0 h1 => ?_⟩
  · rw [row_range_map hi]; exact (hR i hi).2.1.cps
  · rw [← hV i hi, ← (hR i hi).2.2.2.2.2.2 t h0 h1]
    refine curvePoint_congr fun j hj => ?_
    unfold ent
    rw [row_range_map hi]

/-- C84, U direction: refining by a nonempty sorted list of knots strictly inside the U range (all values equal or clearly apart) returns a well-formed
surface on the same domain whose U knots are the old ones together with the new ones, and every parameter pair has the same point. -/
theorem C84_refine_u {c : BsplineSurface K T} {p q n m : ℕ} {X : List K} (w : WellFormedS c p q n m) (he : EndsSeparatedS c p q n m) (hne : X ≠ [])
    (hXs : X.Pairwise (· ≤ ·)) (hX : ∀ x ∈ X, nth c.knotsU p < x ∧ x < nth c.knotsU (n + 1)) (hsep : WellSeparated (c.knotsU ++ X)) :
    ∃ r, refineKnotSurface c X true = ok r ∧ WellFormedS r p q (n + X.length) m ∧ EndsSeparatedS r p q (n + X.length) m ∧ r.knotsU.Perm (c.knotsU ++ X) ∧ r.knotsV = c.knotsV ∧
      ∀ x y, InDomain c p q n m x y → InDomain r p q (n + X.length) m x y ∧ r.pointOnSurface x y = c.pointOnSurface x y := by
  have hqm := w.qm
  obtain ⟨G, V, e, hG, h1, h2, h3, h4, h5, h6⟩ := refineFibres_run (F := tab (m + 1) (n + 1) fun i j => ent c.cps j i) (a := m + 1) (by omega) isMat_tab w.degreeU w.posU w.le7U w.pn
    w.knotsU w.sortedU he.u hne hXs hX hsep
  have hl : V.length = n + X.length + p + 2 := by rw [h1.length_eq, List.length_append, w.knotsU]; omega
  have hX0 : X.length > 0 := List.length_pos_iff.mpr hne
  unfold refineKnotSurface
  simp only [hX0, decide_true, validate_true, ok_bind, if_true]
  rw [transposeM_run w.cps (by omega), ok_bind, List.nil_append, e, ok_bind, transposeM_run hG (by omega), ok_bind, List.nil_append]
  have wr : WellFormedS ({ c with knotsU := V, cps := tab (n + X.length + 1) (m + 1) fun i j => ent G j i } : BsplineSurface K T) p q (n + X.length) m :=
    { degreeU := w.degreeU, degreeV := w.degreeV, posU := w.posU, posV := w.posV, le7U := w.le7U, le7V := w.le7V,
      cps := isMat_tab, pn := by have := w.pn; omega, qm := w.qm, knotsU := hl, knotsV := w.knotsV, sortedU := h2, sortedV := w.sortedV }
  have er : EndsSeparatedS ({ c with knotsU := V, cps := tab (n + X.length + 1) (m + 1) fun i j => ent G j i } : BsplineSurface K T) p q (n + X.length) m := ⟨h3, he.v⟩
  refine ⟨_, rfl, wr, er, h1, rfl, fun x y d => ?_⟩
  have d' : InDomain ({ c with knotsU := V, cps := tab (n + X.length + 1) (m + 1) fun i j => ent G j i } : BsplineSurface K T) p q (n + X.length) m x y :=
    ⟨by dsimp only; rw [h4]; exact d.u0, by dsimp only; rw [h5]; exact d.u1, d.v0, d.v1⟩
  refine ⟨d', ?_⟩
  rw [C33_eval wr er d', C33_eval w he d]
  dsimp only
  rw [surfacePoint_eq', surfacePoint_eq']
  refine congrArg ok (curvePoint_congr fun j hj => ?_)
  refine (curvePoint_congr (Q := ent G j) fun i hi => ?_).trans ((h6 j (by omega) x d.u0 d.u1).trans (curvePoint_congr fun i hi => ?_))
  · exact ent_tab (f := fun i j => ent G j i) (by omega) (by omega)
  · exact ent_tab (f := fun i j => ent c.cps j i) (by omega) (by omega)

/-- C84, V direction. -/
theorem C84_refine_v {c : BsplineSurface K T} {p q n m : ℕ} {X : List K} (w : WellFormedS c p q n m) (he : EndsSeparatedS c p q n m) (hne : X ≠ [])
    (hXs : X.Pairwise (· ≤ ·)) (hX : ∀ x ∈ X, nth c.knotsV q < x ∧ x < nth c.knotsV (m + 1)) (hsep : WellSeparated (c.knotsV ++ X)) :
    ∃ r, refineKnotSurface c X false = ok r ∧ WellFormedS r p q n (m + X.length) ∧ EndsSeparatedS r p q n (m + X.length) ∧ r.knotsV.Perm (c.knotsV ++ X) ∧ r.knotsU = c.knotsU ∧
      ∀ x y, InDomain c p q n m x y → InDomain r p q n (m + X.length) x y ∧ r.pointOnSurface x y = c.pointOnSurface x y := by
  have hqm := w.qm
  obtain ⟨G, V, e, hG, h1, h2, h3, h4, h5, h6⟩ := refineFibres_run (F := c.cps) (a := n + 1) (by omega) w.cps w.degreeV w.posV w.le7V w.qm
    w.knotsV w.sortedV he.v hne hXs hX hsep
  have hl : V.length = m + X.length + q + 2 := by rw [h1.length_eq, List.length_append, w.knotsV]; omega
  have hX0 : X.length > 0 := List.length_pos_iff.mpr hne
  unfold refineKnotSurface
  simp only [hX0, decide_true, validate_true, ok_bind, Bool.false_eq_true, if_false]
  rw [e, ok_bind]
  have wr : WellFormedS ({ c with knotsV := V, cps := G } : BsplineSurface K T) p q n (m + X.length) :=
    { degreeU := w.degreeU, degreeV := w.degreeV, posU := w.posU, posV := w.posV, le7U := w.le7U, le7V := w.le7V,
      cps := hG, pn := w.pn, qm := by omega, knotsU := w.knotsU, knotsV := hl, sortedU := w.sortedU, sortedV := h2 }
  have er : EndsSeparatedS ({ c with knotsV := V, cps := G } : BsplineSurface K T) p q n (m + X.length) := ⟨he.u, h3⟩
  refine ⟨_, rfl, wr, er, h1, rfl, fun x y d => ?_⟩
  have d' : InDomain ({ c with knotsV := V, cps := G } : BsplineSurface K T) p q n (m + X.length) x y :=
    ⟨d.u0, d.u1, by dsimp only; rw [h4]; exact d.v0, by dsimp only; rw [h5]; exact d.v1⟩
  refine ⟨d', ?_⟩
  rw [C33_eval wr er d', C33_eval w he d]
  dsimp only
  rw [surfacePoint_eq, surfacePoint_eq]
  exact congrArg ok (curvePoint_congr fun i hi => h6 i (by omega) y d.v0 d.v1)

/-- C84: an empty list of knots is rejected. -/
theorem C84_empty_rejected (c : BsplineSurface K T) (b : Bool) : refineKnotSurface c [] b = invalidArg := rfl

/-- the hypotheses are met -/
example : (∃ r, refineKnotSurface exSurface [1 / 4, 1 / 4, 1 / 2, 3 / 4] true = ok r ∧ WellFormedS r 2 1 7 2) ∧ ∃ r, refineKnotSurface exSurface [1 / 4, 1 / 2] false = ok r ∧ WellFormedS r 2 1 3 4 := by
  constructor
  · obtain ⟨r, e, h, -⟩ := C84_refine_u exSurface_wf exSurface_ends (X := [1 / 4, 1 / 4, 1 / 2, 3 / 4]) (by decide) (by decide +kernel) (by decide +kernel) (by unfold WellSeparated; decide +kernel)
    exact ⟨r, e, h⟩
  · obtain ⟨r, e, h, -⟩ := C84_refine_v exSurface_wf exSurface_ends (X := [1 / 4, 1 / 2]) (by decide) (by decide +kernel) (by decide +kernel) (by unfold WellSeparated; decide +kernel)
    exact ⟨r, e, h⟩

end LNLib.Props
