import Verif.Props.AllParamsCurve
import Verif.Props.Gsa
import Verif.Props.KnotsByBound
import Verif.Props.LengthParam

/-!
# C153, C154: searches for parameters on closed curves and on degenerate surfaces
-/

namespace LNLib.Props
open LNLib Res LNLib.Spec Finset

/-- The two parameters differ by more than the comparison tolerance, and their distance differs from the period by more than the comparison tolerance. -/
def DistinctOnLoop (period x y : ℝ) : Prop :=
  1 / 1000000 * (1 + |x - y|) < |x - y| ∧ 1 / 1000000 * (1 + |(|x - y| - period)|) < |(|x - y| - period)|

/-- C153 (partial): on a closed curve, no two of the parameters that the search returns coincide up to the tolerance, and no two of them stand at the two sides of the seam.  Missing as for
`C153_distinct_partial`, and that the search returns. -/
theorem C153_closed_distinct_partial {c : NurbsCurve ℝ} {p n : ℕ} (w : WellFormed c p n) (hclosed : isClosedCurve c = ok true) {P : XYZ ℝ} {l : List ℝ}
    (h : getAllParamsOnCurve c P = ok l) : l.Pairwise (DistinctOnLoop (nth c.knots (n + p + 1) - nth c.knots 0)) := by
  have hl := w.knots
  unfold getAllParamsOnCurve at h
  obtain ⟨_, -, h⟩ := bind_eq_ok.mp h
  rw [vget_nth (i := 0) (k := 0) rfl (by omega), ok_bind, vget_nth (k := n + p + 1) (by omega) (by omega), ok_bind, hclosed, ok_bind] at h
  obtain ⟨⟨pts, params⟩, -, h⟩ := bind_eq_ok.mp h
  obtain ⟨g, -, h⟩ := bind_eq_ok.mp h
  refine forI_ok_inv (fun l : List ℝ => l.Pairwise (DistinctOnLoop (nth c.knots (n + p + 1) - nth c.knots 0))) ?_ List.Pairwise.nil h
  intro i r r' hr hstep
  obtain ⟨t, -, hstep⟩ := bind_eq_ok.mp hstep
  obtain ⟨⟨T, d⟩, -, hstep⟩ := bind_eq_ok.mp hstep
  dsimp only at hstep
  split_ifs at hstep with hany
  · cases hstep; exact hr
  · cases hstep
    rw [List.pairwise_append]
    refine ⟨hr, List.pairwise_singleton _ _, fun a ha b hb => ?_⟩
    rw [List.mem_singleton] at hb
    subst hb
    have hs : ¬ sameParamC true (nth c.knots 0) (nth c.knots (n + p + 1)) a b = true := fun hs => hany (List.any_eq_true.mpr ⟨a, ha, hs⟩)
    unfold sameParamC at hs
    dsimp only at hs
    rw [if_pos rfl, almost_zero_iff (le_min (abs_nonneg _) (abs_nonneg _)), not_le] at hs
    have h1 := min_le_left |a - b| |(|a - b| - (nth c.knots (n + p + 1) - nth c.knots 0))|
    have h2 := min_le_right |a - b| |(|a - b| - (nth c.knots (n + p + 1) - nth c.knots 0))|
    exact ⟨by linarith, by linarith⟩

/-- the first Newton round on a segment without length ends the search at once -/
theorem pointSegment_round (Q : XYZ ℝ) {t : ℝ} (h0 : 0 ≤ t) (h1 : t ≤ 1) (b : Bool) (lo hi : ℝ) :
    newtonRoundAll (segment (onePoint Q) (onePoint Q)) Q b lo hi t = ok (t, true) := by
  have w := segment_wf (onePoint Q) (onePoint Q)
  have he : EndsSeparated (nth (segment (onePoint Q) (onePoint Q)).knots) 1 1 := ⟨by simp [segment, nth]; norm_num, by simp [segment, nth]; norm_num⟩
  obtain ⟨s, -, hs⟩ := getKnotSpanIndex_isSpan w.knots w.pn w.sorted he h0 h1
  obtain rfl : s = 1 := by have := hs.1; have := hs.2.1; omega
  have hd : curveDeriv (nth (segment (onePoint Q) (onePoint Q)).knots) 1 1 1 (nth (segment (onePoint Q) (onePoint Q)).cps) 0 t = onePoint Q := by
    unfold curveDeriv
    simp only [sum_range_succ, sum_range_zero, dN_zero]
    ext <;> simp [segment, nth, Nspan, onePoint] <;> ring
  have hw0 : weightFn (nth (segment (onePoint Q) (onePoint Q)).knots) 1 1 (nth (segment (onePoint Q) (onePoint Q)).cps) t ≠ 0 := by
    have := weightFn_ge (x := 1) w he h0 h1 (fun i hi => by interval_cases i <;> simp [segment, nth, onePoint])
    linarith
  obtain ⟨l, e, hl, hk⟩ := C20_leibniz w he h0 h1 hs (d := 2) (by decide) hw0
  have q0 := hk 0 (by omega)
  rw [sum_range_succ, sum_range_zero, hd] at q0
  have q : nth l 0 = Q := by
    simpa [onePoint, XYZW.raw] using q0
  have e' : NurbsCurve.rationalDerivatives (segment (onePoint Q) (onePoint Q)) 2 t = ok l := e
  unfold newtonRoundAll
  rw [e', ok_bind, vget_nth (i := 0) (k := 0) rfl (by omega), ok_bind, vget_nth (i := 1) (k := 1) rfl (by omega), ok_bind, vget_nth (i := 2) (k := 2) rfl (by omega), ok_bind]
  dsimp only
  rw [q, sub_self, length_zero_iff.mpr rfl, if_pos (almost_self 0)]

/-- A closed curve on which the search returns: a segment without length, where every parameter is a parameter of the point. The list is not empty. -/
example (Q : XYZ ℝ) : isClosedCurve (segment (onePoint Q) (onePoint Q)) = ok true ∧ ∃ l, getAllParamsOnCurve (segment (onePoint Q) (onePoint Q)) Q = ok l ∧ l ≠ [] := by
  have w := segment_wf (onePoint Q) (onePoint Q)
  have he : EndsSeparated (nth (segment (onePoint Q) (onePoint Q)).knots) 1 1 := ⟨by simp [segment, nth]; norm_num, by simp [segment, nth]; norm_num⟩
  have hc := segment_clamped (onePoint Q) (onePoint Q)
  have hclosed : isClosedCurve (segment (onePoint Q) (onePoint Q)) = ok true := by
    obtain ⟨-, -, b, hb, hiff⟩ := isClosed_run w he hc
    rw [hb, hiff.mpr (Or.inl (by
      rw [show nth (segment (onePoint Q) (onePoint Q)).cps 1 = nth (segment (onePoint Q) (onePoint Q)).cps 0 from rfl]
      norm_num [XYZ.distance]))]
  refine ⟨hclosed, ?_⟩
  obtain ⟨pts, params, et, l1, l2, hd, -⟩ := C90_tessellate w he hc
  classical
  have eg := curveGuesses_run (pts := pts) (params := params) (P := Q) l1
  unfold getAllParamsOnCurve notCentre isArc
  rw [if_pos (show isLinear (segment (onePoint Q) (onePoint Q)) = true from rfl)]
  dsimp only
  rw [ok_bind, vget_nth (i := 0) (k := 0) rfl (by simp [segment]), ok_bind, vget_nth (i := ((segment (onePoint Q) (onePoint Q)).knots.length : ℤ) - 1) (k := 3) (by simp [segment]) (by simp [segment]), ok_bind, hclosed, ok_bind, et, ok_bind]
  dsimp only
  rw [eg, ok_bind]
  set g := ((List.range params.length).filter fun k => decide (LocalMin (fun k => (Q - nth pts k).dot (Q - nth pts k)) params.length k)).map (nth params) with hg
  have hgd : ∀ x ∈ g, 0 ≤ x ∧ x ≤ 1 := by
    intro x hx
    rw [hg, List.mem_map] at hx
    obtain ⟨k, hk, rfl⟩ := hx
    rw [List.mem_filter, List.mem_range] at hk
    exact ⟨(hd k hk.1).1, (hd k hk.1).2.1⟩
  have hpos : 0 < g.length := by
    rw [List.length_pos_iff]
    obtain ⟨k, hk, hmin⟩ := (range params.length).exists_min_image (fun k => (Q - nth pts k).dot (Q - nth pts k)) ⟨0, by simpa using l2⟩
    have hk := mem_range.mp hk
    apply List.ne_nil_of_mem (a := nth params k)
    rw [hg, List.mem_map]
    refine ⟨k, ?_, rfl⟩
    rw [List.mem_filter, List.mem_range, decide_eq_true_iff]
    exact ⟨hk, fun h => hmin _ (mem_range.mpr (by omega)), fun h => hmin _ (mem_range.mpr h)⟩
  refine (Runs.forN (m := 0) (n := g.length) (fun i (l : List ℝ) => 0 < i → l ≠ []) rfl rfl (by omega) (fun h => absurd h (by omega)) ?_).mono (fun l h => h hpos)
  rintro i l - hi h1
  rw [vget_nth (k := i) rfl hi, ok_bind]
  obtain ⟨x0, x1⟩ := hgd (nth g i) (by rw [nth_eq_getElem hi]; exact List.getElem_mem _)
  obtain ⟨⟨T, d⟩, ex, -⟩ : Runs (newtonLoopAll (segment (onePoint Q) (onePoint Q)) Q true (nth (segment (onePoint Q) (onePoint Q)).knots 0)
      (nth (segment (onePoint Q) (onePoint Q)).knots 3) (nth g i)) (fun st => 0 ≤ st.1 ∧ st.1 ≤ 1) := by
    unfold newtonLoopAll
    refine (Runs.forN (m := 0) (n := 20) (fun _ (st : ℝ × Bool) => 0 ≤ st.1 ∧ st.1 ≤ 1) rfl rfl (by omega) ⟨x0, x1⟩ ?_).mono (fun _ h => h)
    rintro j ⟨t, d⟩ - - ht
    dsimp only at ht ⊢
    split_ifs
    · exact Runs.ok ht
    · rw [pointSegment_round Q ht.1 ht.2]
      exact Runs.ok ht
  rw [ex, ok_bind]
  dsimp only
  split_ifs with hany
  · refine Runs.ok (fun _ hl => ?_)
    rw [hl] at hany
    simp at hany
  · exact Runs.ok (fun _ => by simp)

/-- C154 is violated by every patch that is flattened to a line: whatever the given point is, the search returns the pair of numbers 1e-6, which
depends neither on the point nor on the patch. -/
theorem C154_degenerate_violated {a b c : XYZ ℝ} (hD : b.dot b * c.dot c - b.dot c * b.dot c = 0) (P : XYZ ℝ) :
    getParamOnSurfaceByGSA (planePatch a b c) P = ok (1 / 1000000, 1 / 1000000) := by
  have w := planePatch_wf a b c
  have he := planePatch_ends a b c
  have half : (0 : ℝ) ≤ 1 / 2 ∧ (1 / 2 : ℝ) ≤ 1 := ⟨by norm_num, by norm_num⟩
  have dom : InDomain (planePatch a b c) 2 2 2 2 (1 / 2) (1 / 2) := planePatch_dom.mpr ⟨half, half⟩
  obtain ⟨M, e, hM, -, d10, d01, -, -, -⟩ := planePatch_ders a b c (u := 1 / 2) (v := 1 / 2) half half
  obtain ⟨M1, e1, hM1, -⟩ := C67_leibniz w he dom (d := 1) (by omega) (by omega) (by omega) (planePatch_span half.1 half.2) (planePatch_span half.1 half.2)
    (surfaceWeight_pos w he dom (planePatch_weights a b c)).ne'
  have e1' : NurbsSurface.rationalDerivatives (planePatch a b c) 1 (1 / 2) (1 / 2) = ok M1 := e1
  have round : gsaRound (planePatch a b c) P (1 / 2, 1 / 2) = ok ((doubleEps, doubleEps), true) := by
    unfold gsaRound NurbsSurface.normal
    dsimp only
    rw [planePatch_point a b c half half, ok_bind, validateUV_ok w dom, ok_bind, e1', ok_bind,
      mget_ent (a := 1) (b := 0) (i := 1) (j := 0) hM1 rfl rfl (by omega) (by omega), ok_bind, mget_ent (a := 0) (b := 1) (i := 0) (j := 1) hM1 rfl rfl (by omega) (by omega), ok_bind, ok_bind,
      e, ok_bind,
      mget_ent (a := 2) (b := 0) (i := 2) (j := 0) hM rfl rfl (by omega) (by omega), ok_bind, mget_ent (a := 0) (b := 2) (i := 0) (j := 2) hM rfl rfl (by omega) (by omega), ok_bind,
      mget_ent (a := 1) (b := 1) (i := 1) (j := 1) hM rfl rfl (by omega) (by omega), ok_bind, mget_ent (a := 1) (b := 0) (i := 1) (j := 0) hM rfl rfl (by omega) (by omega), ok_bind,
      mget_ent (a := 0) (b := 1) (i := 0) (j := 1) hM rfl rfl (by omega) (by omega), ok_bind, d10, d01, hD, if_pos (almost_self 0)]
  rw [gsa_start w P (u := 1 / 2) (v := 1 / 2) (show (1 / 2 : ℝ) = (1 - 0) * (1 / 2) by norm_num) (show (1 / 2 : ℝ) = (1 - 0) * (1 / 2) by norm_num), round, ok_bind]
  obtain ⟨st, est, hst⟩ : Runs (forI (0 + 1) 1000 ((doubleEps, doubleEps), true) fun _ st => if st.2 then ok st else gsaRound (planePatch a b c) P st.1)
      (fun st => st = ((doubleEps, doubleEps), true)) := by
    refine (Runs.forN (m := 1) (n := 1000) (fun _ (st : (ℝ × ℝ) × Bool) => st = ((doubleEps, doubleEps), true)) rfl rfl (by omega) rfl ?_).mono (fun _ h => h)
    rintro i st - - rfl
    rw [if_pos rfl]
    exact Runs.ok rfl
  rw [est, ok_bind, hst]
  rfl

/-- a patch flattened to the segment from (0, 0, 0) to (2, 0, 0); the given point is the point of the patch at (1/2, 1/2), and the answer is a point near the start of the segment -/
example : getParamOnSurfaceByGSA (planePatch ⟨0, 0, 0⟩ ⟨1, 0, 0⟩ ⟨1, 0, 0⟩) ⟨1, 0, 0⟩ = ok (1 / 1000000, 1 / 1000000) :=
  C154_degenerate_violated (by norm_num [XYZ.dot]) _

end LNLib.Props
