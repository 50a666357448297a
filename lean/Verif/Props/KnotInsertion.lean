import Verif.Lemmas.InsertKnotRun
import Verif.Props.Curve

/-!
# C11, C12, C17, C59: knot insertion, knot multiplicity and corner cutting
(Algorithm/Polynomials.cpp, Geometry/Curve/NurbsCurve.cpp)
-/
set_option linter.unusedSectionVars false

namespace LNLib.Props
open LNLib Res Spec Finset

variable {K : Type} [Field K] [LinearOrder K] [IsStrictOrderedRing K]
variable {T : Type} [AddCommGroup T] [Module K T]

/-! ## C17 -/

theorem card_filter_nth (l : List K) (q : K → Bool) :
    ((range l.length).filter (fun i => q (nth l i) = true)).card = l.countP q := by
  induction l using List.reverseRecOn with
  | nil => rfl
  | append_singleton l a ih =>
    rw [List.length_append, List.length_singleton, Finset.range_add_one, Finset.filter_insert, List.countP_append]
    have e1 : nth (l ++ [a]) l.length = a := by rw [nth_append_right (le_refl _)]; simp
    have e2 : (range l.length).filter (fun i => q (nth (l ++ [a]) i) = true) = (range l.length).filter (fun i => q (nth l i) = true) := by
      apply Finset.filter_congr
      intro i hi
      rw [nth_append_left (by simpa using hi)]
    rw [e1, e2]
    by_cases h : q a = true
    · rw [if_pos h, Finset.card_insert_of_notMem (by simp), ih]
      simp [h]
    · rw [if_neg h, ih]
      simp [h]

/-- C17: for every sorted, nonempty knot vector and every value in its range, `GetKnotMultiplicity`
returns the number of knots within the comparison tolerance of the value. -/
theorem C17_multiplicity {U : List K} {u : K} (hne : U ≠ []) (hU : U.Pairwise (· ≤ ·))
    (h0 : nth U 0 ≤ u) (h1 : u ≤ nth U (U.length - 1)) :
    getKnotMultiplicity U u = ok ((U.countP (fun x => decide (|u - x| ≤ 1 / 1000000 * (1 + max |u| |x|))) : ℕ) : ℤ) := by
  have heps := doubleEps_pos (K := K)
  rw [getKnotMultiplicity_ok (List.length_pos_iff.mpr hne) ((isValidKnotVector_iff U).mpr hU) (by linarith) (by linarith)]
  rw [card_filter_nth U (fun x => isAlmostEqualTo u x)]
  rfl

/-- C17: when the value is separated from all knots different from it, this is the exact number of
occurrences. -/
theorem C17_multiplicity_exact {U : List K} {u : K} (hne : U ≠ []) (hU : U.Pairwise (· ≤ ·))
    (h0 : nth U 0 ≤ u) (h1 : u ≤ nth U (U.length - 1)) (hsep : KnotSeparated U u) :
    getKnotMultiplicity U u = ok ((U.count u : ℕ) : ℤ) := by
  rw [C17_multiplicity hne hU h0 h1]
  congr 2
  rw [List.count]
  apply List.countP_congr
  intro x hx
  simp only [decide_eq_true_eq, beq_iff_eq]
  constructor
  · intro h
    rcases hsep x hx with h2 | h2
    · exact h2
    · exact absurd h (not_le.mpr h2)
  · rintro rfl
    rw [sub_self, abs_zero]
    have : 0 ≤ max |x| |x| := le_max_of_le_left (abs_nonneg _)
    positivity

/-- C17: a value outside the knot range, or an unsorted knot vector, is rejected. -/
theorem C17_rejects {U : List K} {u : K} (hne : U ≠ []) :
    (¬ U.Pairwise (· ≤ ·) → getKnotMultiplicity U u = invalidArg) ∧
    (U.Pairwise (· ≤ ·) → (u < nth U 0 - 1 / 1000000 ∨ nth U (U.length - 1) + 1 / 1000000 < u) →
      getKnotMultiplicity U u = outOfRange) := by
  have hl := List.length_pos_iff.mpr hne
  rw [← isValidKnotVector_iff]
  constructor
  · intro h
    unfold getKnotMultiplicity
    simp [hl, h]
  · intro h hr
    unfold getKnotMultiplicity
    have e0 : vget U 0 = ok (nth U 0) := vget_nth (by simp) (by omega)
    have e1 : vget U ((U.length : ℤ) - 1) = ok (nth U (U.length - 1)) := vget_nth (by omega) (by omega)
    simp only [hl, decide_true, validate_true, ok_bind, h, e0, e1]
    rw [validateRange_out hr]
    rfl

example : getKnotMultiplicity exKnots (1 : ℚ) = ok 3 ∧ getKnotMultiplicity exKnots (1/3 : ℚ) = ok 0
    ∧ KnotSeparated exKnots (1/2) ∧ exKnots.Pairwise (· ≤ ·) :=
  ⟨by decide +kernel, by decide +kernel, by unfold KnotSeparated; decide +kernel, by decide +kernel⟩

/-! ## C11, C12 -/

theorem insertAt_of {c : BsplineCurve K T} {p n : ℕ} {u : K} (w : WellFormed c p n)
    (he : EndsSeparated (nth c.knots) p n) (hsep : KnotSeparated c.knots u)
    (h0 : nth c.knots p ≤ u) (h1 : u < nth c.knots (n + 1)) (hsp : c.knots.count u ≤ p) :
    ∃ k : ℕ, getKnotSpanIndex c.degree c.knots u = ok (k : ℤ) ∧ getKnotMultiplicity c.knots u = ok ((c.knots.count u : ℕ) : ℤ) ∧
      InsertAt (nth c.knots) p n k (c.knots.count u) u := by
  have hm := wf_monoTo w
  have hk := w.knots
  have hpn := w.pn
  obtain ⟨k, hk1, hk2⟩ := span_isSpan w he h0 h1.le
  have hne : c.knots ≠ [] := by
    intro h; rw [h] at hk; simp at hk
  have hpw := (isValidKnotVector_iff c.knots).mp (isValidKnotVector_nth.mpr w.sorted)
  have hmul := C17_multiplicity_exact (U := c.knots) (u := u) hne hpw
    ((hm 0 p (by omega) (by omega)).trans h0) (by
      have e : c.knots.length - 1 = n + p + 1 := by omega
      rw [e]
      exact h1.le.trans (hm (n + 1) (n + p + 1) (by omega) (by omega))) hsep
  refine ⟨k, hk1, hmul, ?_⟩
  have hku : u < nth c.knots (k + 1) := by
    rcases hk2.2.2.2.2 with h | ⟨h, h'⟩
    · exact h
    · rw [← h', ← h] at h1; exact absurd h1 (lt_irrefl _)
  have hkn := hk2.2.1
  have hcard : ((range (n + p + 1 + 1)).filter (fun i => nth c.knots i = u)).card = c.knots.count u := by
    have := card_filter_nth c.knots (fun x => decide (x = u))
    rw [hk] at this
    simp only [decide_eq_true_eq] at this
    rw [this, List.count]
    apply List.countP_congr
    intro x _
    simp
  have hint := mult_interval hm (by omega) hk2.2.2.2.1 hku
  rw [hcard] at hint
  refine ⟨hm, hk2.1, hkn, hk2.2.2.2.1, hku, ?_, ?_, hsp⟩
  · intro i h3 h4
    exact (hint i (by omega)).1.mpr ⟨by omega, h4, by omega⟩
  · intro i h3
    refine lt_of_le_of_ne ((hm i k (by omega) (by omega)).trans hk2.2.2.2.1) ?_
    intro h
    have := (hint i (by omega)).1.mp h
    omega

/-- the number of insertions that `InsertKnot` performs for a requested number `r` at a knot of
multiplicity `s` -/
def inserted (p s : ℕ) (r : ℤ) : ℤ := if (s : ℤ) + r ≤ p + 1 then r else max 0 ((p : ℤ) - 1 - s)

/-- C12: for every well-formed curve, every value strictly inside the domain and every positive
number of insertions, `InsertKnot` returns normally.  With `t` the returned count: if `t = 0` the
output argument is untouched; otherwise the new curve is well-formed with `t` more control points,
and its knots are the old knots with `t` copies of the value added. -/
theorem C12_insert_valid {c res : BsplineCurve K T} {p n : ℕ} {u : K} {r : ℤ} (w : WellFormed c p n)
    (he : EndsSeparated (nth c.knots) p n) (hsep : KnotSeparated c.knots u)
    (h0 : nth c.knots p < u) (h1 : u < nth c.knots (n + 1)) (hr : 0 < r) :
    ∃ c' : BsplineCurve K T, insertKnot c u r res = ok (inserted p (c.knots.count u) r, c') ∧
      (inserted p (c.knots.count u) r = 0 → c' = res) ∧
      (0 < inserted p (c.knots.count u) r →
        WellFormed c' p (n + (inserted p (c.knots.count u) r).toNat) ∧
        c'.knots.Perm (c.knots ++ List.replicate (inserted p (c.knots.count u) r).toNat u) ∧
        EndsSeparated (nth c'.knots) p (n + (inserted p (c.knots.count u) r).toNat) ∧
        nth c'.knots p = nth c.knots p ∧
        nth c'.knots (n + (inserted p (c.knots.count u) r).toNat + 1) = nth c.knots (n + 1) ∧
        ∀ x, nth c.knots p ≤ x → x ≤ nth c.knots (n + 1) →
          curvePoint (nth c'.knots) p (n + (inserted p (c.knots.count u) r).toNat) (nth c'.cps) x
            = curvePoint (nth c.knots) p n (nth c.cps) x) := by
  set s := c.knots.count u with hs
  have hm := wf_monoTo w
  have hk := w.knots
  have hpn := w.pn
  by_cases ht : 0 < inserted p s r
  · obtain ⟨t, ht2⟩ := Int.eq_ofNat_of_zero_le ht.le
    have hst : s + t ≤ p + 1 ∧ s ≤ p := by
      unfold inserted at ht ht2
      split at ht2
      · omega
      · rw [if_neg (by assumption)] at ht
        have : max 0 ((p : ℤ) - 1 - s) = (p : ℤ) - 1 - s := by omega
        omega
    have ht1 : 1 ≤ t := by omega
    obtain ⟨k, hk1, hk2, hi⟩ := insertAt_of w he hsep h0.le h1 hst.2
    obtain ⟨⟨t', c'⟩, hrun, g1, g2, g3, g4, g5, g6⟩ := insertKnot_run (res := res) (t := t) w hk1 hk2 hi hr (by
      rw [← hs]
      unfold inserted at ht ht2
      by_cases hc : (s : ℤ) + r ≤ p + 1
      · rw [if_neg (by omega)]; rw [if_pos hc] at ht2; exact ht2
      · rw [if_pos (by omega)]; rw [if_neg hc] at ht2 ht; omega) ht1 (by rw [← hs]; omega)
    dsimp only at g1 g2 g3 g4 g5 g6
    have hkn := hi.kn
    have hpk := hi.pk
    refine ⟨c', by rw [hrun, g1, ht2], fun h => by omega, fun _ => ?_⟩
    have ett : (inserted p s r).toNat = t := by omega
    rw [ett]
    have hmono := g5.mono hi
    have wf : WellFormed c' p (n + t) :=
      { degree := g2, pos := w.pos, le7 := w.le7, cps := g4, pn := by omega, knots := by omega,
        sorted := fun i j hij hj => hmono i j hij (by omega) }
    have ep : nth c'.knots p = nth c.knots p := g5.lo p hpk
    have en : nth c'.knots (n + t + 1) = nth c.knots (n + 1) := by
      rw [g5.hi (n + t + 1) (by omega) (by omega)]; congr 1; omega
    refine ⟨wf, ?_, ⟨?_, ?_⟩, ep, en, ?_⟩
    · -- knots as a multiset
      have hsplit : c'.knots = (c.knots.take (k + 1) ++ List.replicate t u) ++ c.knots.drop (k + 1) := by
        apply ext_nth
        · simp; omega
        · intro i hi'
          have l1 : (c.knots.take (k + 1)).length = k + 1 := by simp; omega
          by_cases a1 : i ≤ k
          · rw [g5.lo i a1, nth_append_left (by simp; omega), nth_append_left (by omega)]
            unfold nth
            simp only [List.getD, List.getElem?_take]
            rw [if_pos (by omega)]
          · by_cases a2 : i ≤ k + t
            · rw [g5.mid i (by omega) a2, nth_append_left (by simp; omega), nth_append_right (by omega), nth_replicate (by omega)]
            · rw [g5.hi i (by omega) (by omega), nth_append_right (by simp; omega)]
              unfold nth
              simp only [List.getD, List.getElem?_drop]
              congr 2
              simp only [List.length_append, List.length_replicate, l1]
              omega
      rw [hsplit]
      have : c.knots ++ List.replicate t u = c.knots.take (k + 1) ++ (c.knots.drop (k + 1) ++ List.replicate t u) := by
        rw [← List.append_assoc, List.take_append_drop]
      rw [this, List.append_assoc]
      exact List.Perm.append_left _ List.perm_append_comm
    · rw [ep]
      by_cases hkp : k = p
      · rw [g5.mid (p + 1) (by omega) (by omega)]
        have hmem : nth c.knots p ∈ c.knots := by
          rw [nth_eq_getElem (by omega)]; exact List.getElem_mem _
        rcases hsep _ hmem with h | h
        · rw [h] at h0; exact absurd h0 (lt_irrefl _)
        · rw [abs_of_pos (sub_pos.mpr h0), max_comm] at h
          exact h
      · rw [g5.lo (p + 1) (by omega)]
        exact he.first
    · rw [en]
      by_cases hkn' : k = n
      · rw [g5.mid (n + t) (by omega) (by omega)]
        have hmem : nth c.knots (n + 1) ∈ c.knots := by
          rw [nth_eq_getElem (by omega)]; exact List.getElem_mem _
        rcases hsep _ hmem with h | h
        · rw [h] at h1; exact absurd h1 (lt_irrefl _)
        · rw [abs_of_neg (sub_neg.mpr h1), neg_sub] at h
          exact h
      · rw [g5.hi (n + t) (by omega) (by omega)]
        have : n + t - t = n := by omega
        rw [this]
        exact he.last
    · intro x hx0 hx1
      obtain ⟨σ, _, hσ⟩ := span_isSpan w he hx0 hx1
      exact insert_curve hi g5 ht1 (by rw [← hs]; omega) g6 hσ
  · have hz : inserted p s r = 0 := by
      have : 0 ≤ inserted p s r := by
        unfold inserted; split <;> omega
      omega
    refine ⟨res, ?_, fun _ => rfl, fun h => by omega⟩
    rw [hz]
    unfold inserted at hz
    have hc : ¬ ((s : ℤ) + r ≤ p + 1) := by
      intro hc; rw [if_pos hc] at hz; omega
    rw [if_neg hc] at hz
    obtain ⟨k, hk1, hk2⟩ := span_isSpan w he h0.le h1.le
    have hne : c.knots ≠ [] := by
      intro h; rw [h] at hk; simp at hk
    have hpw := (isValidKnotVector_iff c.knots).mp (isValidKnotVector_nth.mpr w.sorted)
    have hmul := C17_multiplicity_exact (U := c.knots) (u := u) hne hpw
      ((hm 0 p (by omega) (by omega)).trans h0.le) (by
        have e : c.knots.length - 1 = n + p + 1 := by omega
        rw [e]
        exact h1.le.trans (hm (n + 1) (n + p + 1) (by omega) (by omega))) hsep
    unfold insertKnot
    rw [w.degree] at hk1
    simp only [hr, decide_true, validate_true, ok_bind, w.degree, hk1, hmul]
    rw [← hs, if_pos (by omega)]

/-- C11: the curve returned by `InsertKnot` (whenever it reports a positive number of insertions)
evaluates to the same point as the input curve at every parameter of the domain. -/
theorem C11_insert_preserves {c res c' : BsplineCurve K T} {p n : ℕ} {u : K} {r t : ℤ} (w : WellFormed c p n)
    (he : EndsSeparated (nth c.knots) p n) (hsep : KnotSeparated c.knots u)
    (h0 : nth c.knots p < u) (h1 : u < nth c.knots (n + 1)) (hr : 0 < r)
    (hrun : insertKnot c u r res = ok (t, c')) (ht : 0 < t) {x : K} (hx0 : nth c.knots p ≤ x) (hx1 : x ≤ nth c.knots (n + 1)) :
    c'.pointOnCurve x = c.pointOnCurve x ∧ c.pointOnCurve x = ok (curvePoint (nth c.knots) p n (nth c.cps) x) := by
  obtain ⟨c'', hrun', _, hpos⟩ := C12_insert_valid (res := res) w he hsep h0 h1 hr
  rw [hrun'] at hrun
  simp only [ok.injEq, Prod.mk.injEq] at hrun
  obtain ⟨rfl, rfl⟩ := hrun
  obtain ⟨wf, _, he', ep, en, hcur⟩ := hpos ht
  refine ⟨?_, C05_eval w he hx0 hx1⟩
  rw [C05_eval wf he' (by rw [ep]; exact hx0) (by rw [en]; exact hx1), C05_eval w he hx0 hx1, hcur x hx0 hx1]

/-- C11 for rational curves: the projected points agree as well. -/
theorem C11_insert_preserves_rational {c res c' : NurbsCurve K} {p n : ℕ} {u : K} {r t : ℤ} (w : WellFormed c p n)
    (he : EndsSeparated (nth c.knots) p n) (hsep : KnotSeparated c.knots u)
    (h0 : nth c.knots p < u) (h1 : u < nth c.knots (n + 1)) (hr : 0 < r)
    (hrun : insertKnot c u r res = ok (t, c')) (ht : 0 < t) {x : K} (hx0 : nth c.knots p ≤ x) (hx1 : x ≤ nth c.knots (n + 1)) :
    NurbsCurve.pointOnCurve c' x = NurbsCurve.pointOnCurve c x := by
  unfold NurbsCurve.pointOnCurve
  rw [(C11_insert_preserves w he hsep h0 h1 hr hrun ht hx0 hx1).1]

/-- C12: a nonpositive number of insertions is rejected. -/
theorem C12_times_rejected (c res : BsplineCurve K T) (u : K) {r : ℤ} (hr : r ≤ 0) : insertKnot c u r res = invalidArg := by
  unfold insertKnot
  simp [not_lt.mpr hr]

/-- C12: at the ends of a clamped curve nothing is inserted and the output argument is untouched. -/
theorem C12_clamped_ends {c res : BsplineCurve K T} {p n : ℕ} {u : K} {r : ℤ} (w : WellFormed c p n)
    (he : EndsSeparated (nth c.knots) p n) (hsep : KnotSeparated c.knots u)
    (hu : u = nth c.knots p ∨ u = nth c.knots (n + 1)) (hcl : p + 1 ≤ c.knots.count u) (hr : 0 < r) :
    insertKnot c u r res = ok (0, res) := by
  have hm := wf_monoTo w
  have hk := w.knots
  have hpn := w.pn
  have h0 : nth c.knots p ≤ u := by
    rcases hu with h | h <;> rw [h]
    exact hm _ _ (by omega) (by omega)
  have h1 : u ≤ nth c.knots (n + 1) := by
    rcases hu with h | h <;> rw [h]
    exact hm _ _ (by omega) (by omega)
  obtain ⟨k, hk1, hk2⟩ := span_isSpan w he h0 h1
  have hne : c.knots ≠ [] := by
    intro h; rw [h] at hk; simp at hk
  have hpw := (isValidKnotVector_iff c.knots).mp (isValidKnotVector_nth.mpr w.sorted)
  have hmul := C17_multiplicity_exact (U := c.knots) (u := u) hne hpw
    ((hm 0 p (by omega) (by omega)).trans h0) (by
      have e : c.knots.length - 1 = n + p + 1 := by omega
      rw [e]
      exact h1.trans (hm (n + 1) (n + p + 1) (by omega) (by omega))) hsep
  unfold insertKnot
  rw [w.degree] at hk1
  simp only [hr, decide_true, validate_true, ok_bind, w.degree, hk1, hmul]
  rw [if_pos (by omega)]

/-- `exCurve` with `1/3` inserted twice: the hypotheses hold and the model produces the new curve -/
def exCurveInserted : NurbsCurve ℚ :=
  { degree := 2, knots := [0, 0, 0, 1/3, 1/3, 1/2, 1, 1, 1],
    cps := [⟨0, 0, 0, 1⟩, ⟨4/3, 8/3, 0, 5/3⟩, ⟨2, 26/9, 2/9, 5/3⟩, ⟨7/3, 3, 1/3, 5/3⟩, ⟨3, 1, 1, 1⟩, ⟨4, 0, 2, 1⟩] }

example : KnotSeparated exCurve.knots (1/3) ∧ nth exCurve.knots 2 < 1/3 ∧ (1/3 : ℚ) < nth exCurve.knots 4 := by
  unfold KnotSeparated; decide +kernel

example : insertKnot exCurve (1/3) 2 exCurve = ok (2, exCurveInserted) := by decide +kernel

/-- the curve theorem applied to it, at the parameter `3/8` -/
example : NurbsCurve.pointOnCurve exCurveInserted (3/8) = NurbsCurve.pointOnCurve exCurve (3/8) :=
  C11_insert_preserves_rational (u := 1/3) (r := 2) (t := 2) (res := exCurve) exCurve_wf exKnots_ends
    (by unfold KnotSeparated; decide +kernel) (by decide +kernel) (by decide +kernel) (by decide) (by decide +kernel)
    (by decide) (by decide +kernel) (by decide +kernel)

/-- C11 (violated at the closed end of an unclamped curve): inserting the right end of the domain of
an unclamped curve is accepted but changes the curve. -/
theorem C11_unclamped_end_violated :
    ∃ (c c' : BsplineCurve ℚ ℚ), WellFormed c 2 2 ∧ EndsSeparated (nth c.knots) 2 2 ∧
      insertKnot c (nth c.knots 3) 1 c = ok (1, c') ∧
      c.pointOnCurve (5/2) = ok (5/4) ∧ c'.pointOnCurve (5/2) = ok (7/8) :=
  ⟨{ degree := 2, knots := [0, 1, 2, 3, 4, 5], cps := [0, 1, 4] }, { degree := 2, knots := [0, 1, 2, 3, 3, 4, 5], cps := [0, 1, 1, 4] },
    { degree := rfl, pos := by decide, le7 := by decide, cps := rfl, pn := by decide, knots := rfl,
      sorted := isValidKnotVector_nth.mp (by decide +kernel) }, ⟨by decide +kernel, by decide +kernel⟩, by decide +kernel⟩

/-- C12 (violated at the start of an unclamped curve): inserting the left end of the domain produces
a curve that cannot be evaluated at that end any more. -/
theorem C12_unclamped_start_violated :
    ∃ (c c' : BsplineCurve ℚ ℚ), WellFormed c 2 2 ∧ EndsSeparated (nth c.knots) 2 2 ∧
      insertKnot c (nth c.knots 2) 1 c = ok (1, c') ∧
      c.pointOnCurve (nth c.knots 2) = ok (1/2) ∧ c'.pointOnCurve (nth c.knots 2) = nonfinite :=
  ⟨{ degree := 2, knots := [0, 1, 2, 3, 4, 5], cps := [0, 1, 4] }, { degree := 2, knots := [0, 1, 2, 2, 3, 4, 5], cps := [0, 1/2, 1, 4] },
    { degree := rfl, pos := by decide, le7 := by decide, cps := rfl, pn := by decide, knots := rfl,
      sorted := isValidKnotVector_nth.mp (by decide +kernel) }, ⟨by decide +kernel, by decide +kernel⟩, by decide +kernel⟩

/-! ## C59 -/

theorem cornerCut_interior {c : BsplineCurve K T} {p n k s : ℕ} {t : K} (w : WellFormed c p n)
    (hk : getKnotSpanIndex c.degree c.knots t = ok (k : ℤ)) (hs : getKnotMultiplicity c.knots t = ok (s : ℤ))
    (hi : InsertAt (nth c.knots) p n k s t)
    (h0 : nth c.knots 0 ≤ t) (h1 : t ≤ nth c.knots (n + p + 1))
    (hn0 : isAlmostEqualTo t (nth c.knots 0) = false) (hn1 : isAlmostEqualTo t (nth c.knots (n + p + 1)) = false) :
    cornerCutRaw c t = ok (∑ r ∈ range (p + 1), Nspan (nth c.knots) k p (k - p + r) t • nth c.cps (k - p + r)) := by
  have hkn := hi.kn
  have hpk := hi.pk
  have hsp := hi.sp
  have hU := w.knots
  have hP := w.cps
  have e0 : vget c.knots 0 = ok (nth c.knots 0) := vget_nth (by simp) (by omega)
  have e1 : vget c.knots ((c.knots.length : ℤ) - 1) = ok (nth c.knots (n + p + 1)) := vget_nth (by omega) (by omega)
  have e2 : vget c.knots ((c.cps.length : ℤ) - 1 + p + 1) = ok (nth c.knots (n + p + 1)) := vget_nth (by omega) (by omega)
  rw [w.degree] at hk
  unfold cornerCutRaw
  simp only [w.degree, e0, e1, e2, ok_bind, validateRange_ok h0 h1, hn0, hn1, hk, hs, Bool.false_eq_true, if_false]
  apply Runs.eq
  refine Runs.bind (Runs.fill (e := 0) (f := fun m => nth c.cps (k - p + m)) (dst := fun i => i)
    (rd := fun i => vget c.cps ((k : ℤ) - p + i))
    (by intro i; omega) (by omega) (by simp) (by omega)
    (fun i h1 h2 => vget_nth (by omega) (by omega))) ?_
  rintro temp0 ⟨htl, htemp⟩
  simp only [List.length_replicate] at htl
  refine Runs.bind (Q := fun temp => temp.length = p - s + 1 ∧
    nth temp 0 = E (nth c.knots) p (nth c.cps) (List.replicate (p - s) t) (k - p)) ?_ ?_
  · refine (Runs.forN (m := 1) (n := p - s + 1) (fun j temp => temp.length = p - s + 1 ∧
      ∀ i, i + (j - 1) + s ≤ p → nth temp i = E (nth c.knots) p (nth c.cps) (List.replicate (j - 1) t) (k - p + i))
      (by simp) (by omega) (by omega) ?_ ?_).mono ?_
    · refine ⟨by omega, ?_⟩
      intro i h
      simp only [Nat.sub_self, List.replicate_zero, E]
      rw [htemp, if_pos (by omega)]
    · rintro j temp hj1 hj2 ⟨hl, ht⟩
      obtain ⟨m, rfl⟩ : ∃ m, j = m + 1 := ⟨j - 1, by omega⟩
      have em1 : m + 1 - 1 = m := by omega
      have em2 : m + 1 + 1 - 1 = m + 1 := by omega
      rw [em1] at ht
      rw [em2]
      have := deBoorRow (P := nth c.cps) (m := m) (L := (k : ℤ) - p + ((m + 1 : ℕ) : ℤ)) hi hU (by omega) (by push_cast; ring) hl ht
      have eb : (p : ℤ) - s - ((m + 1 : ℕ) : ℤ) + 1 = (p : ℤ) - ((m : ℤ) + 1) - s + 1 := by push_cast; ring
      rw [eb]
      exact this
    · rintro temp ⟨hl, ht⟩
      refine ⟨hl, ?_⟩
      have := ht 0 (by omega)
      simpa using this
  · rintro temp ⟨hl, ht⟩
    rw [vget_nth (k := 0) (by simp) (by omega)]
    refine Runs.ok ?_
    have hpiece : Piece (nth c.knots) p k :=
      ⟨hpk, fun a b g1 g2 => hi.mono a b g1 (by omega), lt_of_le_of_lt hi.lo hi.hi⟩
    rw [ht, E_eval hpiece, E_full hpiece s (List.replicate (p - s) t) (k - p) (by simp; omega) (by omega) (by simp; omega)]
    rw [kn_const (x := t) s _ (fun i hi' => hi.eq _ (by simp; omega) (by simp; omega)), ← List.replicate_add]
    have : p - s + s = p := by omega
    rw [this]

theorem almost_false {U : List K} {t : K} (hsep : KnotSeparated U t) {i : ℕ} (hi : i < U.length) (hne : t ≠ nth U i) :
    isAlmostEqualTo t (nth U i) = false := by
  have hmem : nth U i ∈ U := by
    rw [nth_eq_getElem hi]; exact List.getElem_mem _
  rcases hsep _ hmem with h | h
  · exact absurd h.symm hne
  · simp only [isAlmostEqualTo, decide_eq_false_iff_not, not_le]
    exact h

/-- C59: corner cutting returns the same point as the B-spline sum, for every parameter of the
domain that is separated from the knots it is not equal to, is not an interior knot of multiplicity
`p+1` and is not the end of the domain of an unclamped curve. -/
theorem C59_corner_cut_partial {c : BsplineCurve K T} {p n : ℕ} {t : K} (w : WellFormed c p n)
    (he : EndsSeparated (nth c.knots) p n) (hsep : KnotSeparated c.knots t)
    (h0 : nth c.knots p ≤ t) (h1 : t < nth c.knots (n + 1) ∨ t = nth c.knots (n + p + 1))
    (h1' : t ≤ nth c.knots (n + 1))
    (hmul : t ≠ nth c.knots 0 → t ≠ nth c.knots (n + p + 1) → c.knots.count t ≤ p) :
    cornerCutRaw c t = c.pointOnCurve t := by
  have hm := wf_monoTo w
  have hpn := w.pn
  have hU := w.knots
  have hP := w.cps
  have a0 := hm 0 p (by omega) (by omega)
  have a1 := hm (n + 1) (n + p + 1) (by omega) (by omega)
  have e0 : vget c.knots 0 = ok (nth c.knots 0) := vget_nth (by simp) (by omega)
  have e1 : vget c.knots ((c.knots.length : ℤ) - 1) = ok (nth c.knots (n + p + 1)) := vget_nth (by omega) (by omega)
  have e2 : vget c.knots ((c.cps.length : ℤ) - 1 + p + 1) = ok (nth c.knots (n + p + 1)) := vget_nth (by omega) (by omega)
  by_cases hs0 : t = nth c.knots 0
  · have hcl : ∀ i, i ≤ p → nth c.knots i = nth c.knots 0 := by
      intro i hi
      refine le_antisymm ?_ (hm 0 i (by omega) (by omega))
      rw [← hs0]
      exact (hm i p hi (by omega)).trans h0
    have := C09_start w he hcl
    rw [hs0, this]
    unfold cornerCutRaw
    simp only [w.degree, e0, e1, ok_bind, validateRange_ok (le_refl _) (hm 0 (n + p + 1) (by omega) (by omega)),
      isAlmostEqualTo_self doubleEps_pos, if_true]
    exact vget_nth (by simp) (by omega)
  · have hn0 := almost_false hsep (i := 0) (by omega) hs0
    by_cases hs1 : t = nth c.knots (n + p + 1)
    · have hcl : ∀ i, n + 1 ≤ i → i ≤ n + p + 1 → nth c.knots i = nth c.knots (n + p + 1) := by
        intro i hi1 hi2
        refine le_antisymm (hm i _ hi2 (by omega)) ?_
        rw [← hs1]
        exact h1'.trans (hm _ i hi1 (by omega))
      have := C09_end w he hcl
      rw [hs1] at hn0
      rw [hs1, this]
      unfold cornerCutRaw
      simp only [w.degree, e0, e1, e2, ok_bind, validateRange_ok (hm 0 (n + p + 1) (by omega) (by omega)) (le_refl _), hn0,
        isAlmostEqualTo_self doubleEps_pos, if_true, Bool.false_eq_true, if_false]
      exact vget_nth (by omega) (by omega)
    · have hn1 := almost_false hsep (i := n + p + 1) (by omega) hs1
      have h1'' : t < nth c.knots (n + 1) := by
        rcases h1 with h | h
        · exact h
        · exact absurd h hs1
      obtain ⟨k, hk1, hk2, hi⟩ := insertAt_of w he hsep h0 h1'' (hmul hs0 hs1)
      rw [cornerCut_interior w hk1 hk2 hi (a0.trans h0) (h1''.le.trans a1) hn0 hn1, C05_eval w he h0 h1''.le,
        curvePoint_span hm (le_refl _) ⟨hi.pk, hi.kn, lt_of_le_of_lt hi.lo hi.hi, hi.lo, Or.inl hi.hi⟩]

/-- the rational version -/
theorem C59_corner_cut_rational_partial {c : NurbsCurve K} {p n : ℕ} {t : K} (w : WellFormed c p n)
    (he : EndsSeparated (nth c.knots) p n) (hsep : KnotSeparated c.knots t)
    (h0 : nth c.knots p ≤ t) (h1 : t < nth c.knots (n + 1) ∨ t = nth c.knots (n + p + 1))
    (h1' : t ≤ nth c.knots (n + 1))
    (hmul : t ≠ nth c.knots 0 → t ≠ nth c.knots (n + p + 1) → c.knots.count t ≤ p) :
    NurbsCurve.pointByCornerCut c t = NurbsCurve.pointOnCurve c t := by
  unfold NurbsCurve.pointByCornerCut NurbsCurve.pointOnCurve
  rw [C59_corner_cut_partial w he hsep h0 h1 h1' hmul]

example : NurbsCurve.pointByCornerCut exCurve (1/2) = NurbsCurve.pointOnCurve exCurve (1/2) :=
  C59_corner_cut_rational_partial exCurve_wf exKnots_ends (by unfold KnotSeparated; decide +kernel) (by decide +kernel)
    (Or.inl (by decide +kernel)) (by decide +kernel) (by decide +kernel)

/-- C59 (violated): at an interior knot of multiplicity `p+1` the work array is empty and its first
element is read. -/
theorem C59_full_multiplicity_ub :
    ∃ (c : BsplineCurve ℚ ℚ), WellFormed c 1 3 ∧ EndsSeparated (nth c.knots) 1 3 ∧ c.pointOnCurve 1 = ok 5 ∧ cornerCutRaw c 1 = ub :=
  ⟨{ degree := 1, knots := [0, 0, 1, 1, 2, 2], cps := [0, 3, 5, 8] },
    { degree := rfl, pos := by decide, le7 := by decide, cps := rfl, pn := by decide, knots := rfl,
      sorted := isValidKnotVector_nth.mp (by decide +kernel) }, ⟨by decide +kernel, by decide +kernel⟩, by decide +kernel⟩

/-- C59 (violated): at the end of the domain of an unclamped curve the two evaluations differ. -/
theorem C59_unclamped_end_violated :
    ∃ (c : BsplineCurve ℚ ℚ), WellFormed c 2 2 ∧ EndsSeparated (nth c.knots) 2 2 ∧
      c.pointOnCurve (nth c.knots 3) = ok (5/2) ∧ cornerCutRaw c (nth c.knots 3) = ok 1 :=
  ⟨{ degree := 2, knots := [0, 1, 2, 3, 4, 5], cps := [0, 1, 4] },
    { degree := rfl, pos := by decide, le7 := by decide, cps := rfl, pn := by decide, knots := rfl,
      sorted := isValidKnotVector_nth.mp (by decide +kernel) }, ⟨by decide +kernel, by decide +kernel⟩, by decide +kernel⟩

end LNLib.Props
