import Verif.Lemmas.RemoveRun
import Verif.Props.Decompose
import Mathlib.Tactic.IntervalCases

/-!
# C41: knot removal

`close a b` stands for the library's test `IsLessThanOrEqual(a.Distance(b), tol)`; the theorems hold
for every test that accepts equal points, and `closeTest_refl` shows that the library's test does
so on curves with nonnegative weights.
-/
set_option linter.unusedSectionVars false

namespace LNLib.Props
open LNLib Res Spec Finset

variable {K : Type} [Field K] [LinearOrder K] [IsStrictOrderedRing K]
variable {T : Type} [AddCommGroup T] [Module K T]

theorem eraseIdx_nth {α : Type} [Zero α] (l : List α) (r i : ℕ) : nth (l.eraseIdx r) i = if i < r then nth l i else nth l (i + 1) := by
  unfold nth
  simp only [List.getD, List.getElem?_eraseIdx]
  split <;> rfl

/-- C41 (part): removing one copy of an interior knot either answers `false` or gives a valid curve
of the same degree and domain whose knots are those of the input without one copy of `u`.  Missing:
that the curve stays within tolerance, which is false (`C41_accepts_anything_violated`,
`C41_undo_violated`), and more than one copy (`C41_count_violated`). -/
theorem C41_remove_valid_partial (close : T → T → Bool) {c : BsplineCurve K T} {p n : ℕ} {u : K} (w : WellFormed c p n)
    (he : EndsSeparated (nth c.knots) p n) (hsep : KnotSeparated c.knots u)
    (h0 : nth c.knots p < u) (h1 : u < nth c.knots (n + 1)) (hs : 1 ≤ c.knots.count u) (hsp : c.knots.count u ≤ p) :
    removeKnot close c u 1 = ok none ∨ ∃ c' : BsplineCurve K T, removeKnot close c u 1 = ok (some c') ∧ WellFormed c' p (n - 1) ∧
      (u :: c'.knots).Perm c.knots ∧ nth c'.knots p = nth c.knots p ∧ nth c'.knots (n - 1 + 1) = nth c.knots (n + 1) := by
  obtain ⟨r, hr, hm, hi⟩ := insertAt_of w he hsep h0.le h1 hsp
  have hkn := hi.kn
  have hur : nth c.knots r = u := hi.eq r (by omega) le_rfl
  have hpr : p < r := by
    rcases lt_or_eq_of_le hi.pk with h | h
    · exact h
    · rw [← h] at hur; rw [hur] at h0; exact absurd h0 (lt_irrefl _)
  have hU := w.knots
  obtain ⟨a, b⟩ := removeKnot_run close w hr hm hi hs hpr
  rcases hb : remOk close c.knots c.cps p r (c.knots.count u) u with _ | _
  · exact Or.inl (a hb)
  · obtain ⟨c', k1, k2, k3, k4, _⟩ := b hb
    refine Or.inr ⟨c', k1, ⟨k2, w.pos, w.le7, by omega, by omega, ?_, ?_⟩, ?_, ?_, ?_⟩
    · rw [k3, List.length_eraseIdx_of_lt (by omega)]; omega
    · rw [k3]
      intro i j hij hj
      rw [List.length_eraseIdx_of_lt (by omega)] at hj
      rw [eraseIdx_nth, eraseIdx_nth]
      split <;> split <;> first | exact w.sorted _ _ (by omega) (by omega) | omega
    · rw [k3, ← hur, nth_eq_getElem (by omega : r < c.knots.length)]
      exact List.getElem_cons_eraseIdx_perm (by omega)
    · rw [k3, eraseIdx_nth, if_pos hpr]
    · rw [k3, eraseIdx_nth, if_neg (by omega)]
      congr 1; omega

/-- C41 (violated): when the degree minus the multiplicity of the knot is even (for instance a
simple knot of a cubic), the removal is accepted whatever the control points are, and the new curve
does not depend on the middle one of the control points involved. -/
theorem C41_accepts_anything_violated {close : T → T → Bool} (hc : ∀ x, close x x = true) {c : BsplineCurve K T} {p n : ℕ} {u : K} (w : WellFormed c p n)
    (he : EndsSeparated (nth c.knots) p n) (hsep : KnotSeparated c.knots u)
    (h0 : nth c.knots p < u) (h1 : u < nth c.knots (n + 1)) (hs : 1 ≤ c.knots.count u) (hsp : c.knots.count u ≤ p)
    (heven : (p - c.knots.count u) % 2 = 0) :
    ∃ (c' : BsplineCurve K T) (m : ℕ), m < c.cps.length ∧ ∀ x : T,
      removeKnot close { c with cps := c.cps.set m x } u 1 = ok (some c') := by
  obtain ⟨r, hr, hm, hi⟩ := insertAt_of w he hsep h0.le h1 hsp
  have hkn := hi.kn
  have hcp := w.cps
  have hur : nth c.knots r = u := hi.eq r (by omega) le_rfl
  have hpr : p < r := by
    rcases lt_or_eq_of_le hi.pk with h | h
    · exact h
    · rw [← h] at hur; rw [hur] at h0; exact absurd h0 (lt_irrefl _)
  set s := c.knots.count u with hsdef
  set m := r - p + (p - s) / 2 with hmdef
  have hset : ∀ x : T, WellFormed { c with cps := c.cps.set m x } p n := fun x =>
    ⟨w.degree, w.pos, w.le7, by simp [hcp], w.pn, w.knots, w.sorted⟩
  have hacc : ∀ P : List T, remOk close c.knots P p r s u = true := by
    intro P; unfold remOk; rw [if_pos heven]; exact hc _
  have hrun := fun x : T => (removeKnot_run close (hset x) hr hm hi hs hpr).2 (hacc _)
  obtain ⟨c0, k1, k2, k3, k4, k5⟩ := hrun 0
  refine ⟨c0, m, by omega, fun x => ?_⟩
  obtain ⟨c1, e1, e2, e3, e4, e5⟩ := hrun x
  rw [e1]
  have hsp' := hi.sp
  have hL : ∀ j, r - p + j ≤ m → remL (nth c.knots) (nth (c.cps.set m x)) p u (r - p) j = remL (nth c.knots) (nth (c.cps.set m 0)) p u (r - p) j := by
    intro j
    induction j with
    | zero =>
      intro _
      rw [remL, remL, nth_set (by omega), nth_set (by omega), if_neg (by omega), if_neg (by omega)]
    | succ j ih =>
      intro hj
      rw [remL, remL, ih (by omega), nth_set (by omega), nth_set (by omega), if_neg (by omega), if_neg (by omega)]
  have hcps : c1.cps = c0.cps := by
    apply ext_nth (by omega)
    intro i hi'
    rw [e5 i (by omega), k5 i (by omega)]
    dsimp only
    by_cases q1 : i < r - p
    · rw [if_pos q1, if_pos q1, nth_set (by omega), nth_set (by omega), if_neg (by omega), if_neg (by omega)]
    · rw [if_neg q1, if_neg q1]
      by_cases q2 : i < m
      · rw [if_pos q2, if_pos q2, hL _ (by omega)]
      · rw [if_neg q2, if_neg q2, nth_set (by omega), nth_set (by omega), if_neg (by omega), if_neg (by omega)]
  have : c1 = c0 := by
    cases c1; cases c0
    simp only at e2 e3 k2 k3 hcps
    simp only [e2, e3, k2, k3, hcps]
  rw [this]

/-- C41: a parameter in the first span makes the routine read the control point with index `-1`. -/
theorem C41_first_span_undefined (close : T → T → Bool) {c : BsplineCurve K T} {p n : ℕ} {u : K} (w : WellFormed c p n)
    (he : EndsSeparated (nth c.knots) p n) (h0 : nth c.knots p ≤ u) (h1 : u < nth c.knots (p + 1)) :
    removeKnot close c u 1 = ub := by
  have hU := w.knots
  have hP := w.cps
  have hpn := w.pn
  have hm := wf_monoTo w
  have hun : nth c.knots (p + 1) ≤ nth c.knots (n + 1) := hm _ _ (by omega) (by omega)
  obtain ⟨r, hr, hsp⟩ := span_isSpan w he h0 (by linarith)
  have hrp : r = p := by
    by_contra hne
    have hpr := hsp.1
    have : nth c.knots (p + 1) ≤ nth c.knots r := hm _ _ (by omega) (by have := hsp.2.1; omega)
    have := hsp.2.2.2.1
    linarith
  subst hrp
  have hlo : nth c.knots 0 ≤ u := (hm 0 r (by omega) (by omega)).trans h0
  have hhi : u ≤ nth c.knots (n + r + 1) := h1.le.trans (hm (r + 1) (n + r + 1) (by omega) le_rfl)
  have hv : validateRange u (nth c.knots 0) (nth c.knots (n + r + 1)) = ok () :=
    validateRange_eq_ok_iff.mpr ⟨by have := doubleEps_pos (K := K); linarith, by have := doubleEps_pos (K := K); linarith⟩
  have hmul := getKnotMultiplicity_ok (U := c.knots) (u := u) (by omega) (isValidKnotVector_nth.mpr w.sorted)
    (by have := doubleEps_pos (K := K); linarith)
    (by rw [show c.knots.length - 1 = n + r + 1 by omega]; have := doubleEps_pos (K := K); linarith)
  rw [w.degree] at hr
  unfold removeKnot
  dsimp only
  rw [vget_nth (i := 0) (k := 0) rfl (by omega), ok_bind, vget_nth (k := n + r + 1) (by omega) (by omega), ok_bind, hv, ok_bind]
  simp only [show (decide ((1 : ℤ) > 0)) = true by decide, validate_true, ok_bind, hmul, hr, w.degree, hP]
  rw [removeKnots_run hU hpn, ok_bind, if_neg (by omega)]
  simp only [show (1 : ℤ).toNat = 1 from rfl, whileF, ok_bind, show (decide ((0 : ℤ) < 1) && !false) = true by decide, if_true]
  unfold removeRound removeSweep
  dsimp only
  have : vget c.cps ((r : ℤ) - r - 1) = ub := by simp [vget]
  rw [this]
  rfl

/-- C41: a nonpositive count is rejected. -/
theorem C41_count_rejected (close : T → T → Bool) {c : BsplineCurve K T} {u : K} {times : ℤ} (hl : c.knots ≠ []) (ht : times ≤ 0)
    (h0 : nth c.knots 0 ≤ u) (h1 : u ≤ nth c.knots (c.knots.length - 1)) : removeKnot close c u times = invalidArg := by
  have hpos := List.length_pos_iff.mpr hl
  unfold removeKnot
  dsimp only
  rw [vget_nth (i := 0) (k := 0) rfl (by omega), ok_bind, vget_nth (k := c.knots.length - 1) (by omega) (by omega), ok_bind,
    validateRange_eq_ok_iff.mpr ⟨by have := doubleEps_pos (K := K); linarith, by have := doubleEps_pos (K := K); linarith⟩, ok_bind,
    decide_eq_false (by omega), validate_false]
  rfl

/-- C41: a parameter outside the knot range is rejected. -/
theorem C41_range_rejected (close : T → T → Bool) {c : BsplineCurve K T} {u : K} {times : ℤ} (hl : c.knots ≠ [])
    (h : u < nth c.knots 0 - doubleEps ∨ nth c.knots (c.knots.length - 1) + doubleEps < u) :
    removeKnot close c u times = outOfRange := by
  have hpos := List.length_pos_iff.mpr hl
  unfold removeKnot
  dsimp only
  rw [vget_nth (i := 0) (k := 0) rfl (by omega), ok_bind, vget_nth (k := c.knots.length - 1) (by omega) (by omega), ok_bind,
    validateRange_out h]
  rfl

/-- the curve after one insertion, as `RemoveKnot` sees it -/
theorem inserted_view {c c1 res : BsplineCurve K T} {p n : ℕ} {u : K} (w : WellFormed c p n)
    (he : EndsSeparated (nth c.knots) p n) (hsep : KnotSeparated c.knots u)
    (h0 : nth c.knots p < u) (h1 : u < nth c.knots (n + 1)) (hsp : c.knots.count u + 1 ≤ p)
    (hrun : insertKnot c u 1 res = ok (1, c1)) :
    ∃ k, InsertAt (nth c.knots) p n k (c.knots.count u) u ∧ WellFormed c1 p (n + 1) ∧
      getKnotSpanIndex c1.degree c1.knots u = ok ((k + 1 : ℕ) : ℤ) ∧ getKnotMultiplicity c1.knots u = ok ((c.knots.count u + 1 : ℕ) : ℤ) ∧
      InsertAt (nth c1.knots) p (n + 1) (k + 1) (c.knots.count u + 1) u ∧ c1.knots.eraseIdx (k + 1) = c.knots ∧
      InsKnots (nth c.knots) (nth c1.knots) k 1 (n + p + 1) u ∧
      InsPoints (nth c.knots) (nth c.cps) (nth c1.cps) p n k (c.knots.count u) 1 u := by
  obtain ⟨k, hk, hm, hi⟩ := insertAt_of w he hsep h0.le h1 (by omega)
  obtain ⟨o, ho, o1, o2, o3, o4, o5, o6⟩ := insertKnot_run (r := 1) (t := 1) (res := res) w hk hm hi (by omega)
    (by rw [if_neg (by omega)]; simp) le_rfl (by omega)
  rw [hrun] at ho
  simp only [ok.injEq] at ho
  subst ho
  dsimp only at o2 o3 o4 o5 o6
  obtain ⟨c2, hrun2, _, hpos⟩ := C12_insert_valid (res := res) w he hsep h0 h1 (by omega : (0 : ℤ) < 1)
  have hins : inserted p (c.knots.count u) 1 = 1 := by unfold inserted; rw [if_pos (by omega)]
  rw [hrun2] at hrun
  simp only [ok.injEq, Prod.mk.injEq] at hrun
  obtain ⟨_, rfl⟩ := hrun
  obtain ⟨wf, hperm, he', ep, en, _⟩ := hpos (by rw [hins]; omega)
  rw [hins] at wf hperm he' en
  simp only [Int.toNat_one] at wf hperm he' en
  have hcount : c2.knots.count u = c.knots.count u + 1 := by
    rw [hperm.count_eq]; simp
  have hsep' : KnotSeparated c2.knots u := by
    intro x hx
    have := hperm.mem_iff.mp hx
    simp only [List.replicate_one, List.mem_append, List.mem_singleton] at this
    rcases this with h | h
    · exact hsep x h
    · exact Or.inl h
  obtain ⟨r, q1, q2, q3⟩ := insertAt_of wf he' hsep' (by rw [ep]; exact h0.le) (by rw [en]; exact h1) (by omega)
  rw [hcount] at q2 q3
  have hU := w.knots
  have hkn := hi.kn
  have hm2 := wf_monoTo wf
  have hr : r = k + 1 := by
    have a1 := o5.mid (k + 1) (by omega) le_rfl
    have a2 : nth c2.knots (k + 2) = nth c.knots (k + 1) := o5.hi (k + 2) (by omega) (by omega)
    have a3 := q3.lo
    have a4 := q3.hi
    have a5 := hi.hi
    have a6 := q3.kn
    by_contra hne
    rcases lt_or_gt_of_ne hne with h | h
    · have := hm2 (r + 1) (k + 1) (by omega) (by omega)
      rw [a1] at this
      exact absurd (lt_of_lt_of_le a4 this) (lt_irrefl _)
    · have := hm2 (k + 2) r (by omega) (by omega)
      rw [a2] at this
      exact absurd (lt_of_lt_of_le a5 (this.trans a3)) (lt_irrefl _)
  subst hr
  refine ⟨k, hi, wf, q1, q2, q3, ?_, o5, o6⟩
  apply ext_nth
  · rw [List.length_eraseIdx_of_lt (by omega)]; omega
  · intro i hi'
    rw [List.length_eraseIdx_of_lt (by omega)] at hi'
    rw [eraseIdx_nth]
    by_cases h : i < k + 1
    · rw [if_pos h, o5.lo i (by omega)]
    · rw [if_neg h, o5.hi (i + 1) (by omega) (by omega)]
      congr 1

/-- C41 (part): removing a knot undoes its insertion, if the insertion raised its multiplicity to
the degree.  For smaller multiplicities this fails (`C41_undo_violated`). -/
theorem C41_undo_insert_partial {close : T → T → Bool} (hc : ∀ x, close x x = true) {c c1 res : BsplineCurve K T} {p n : ℕ} {u : K} (w : WellFormed c p n)
    (he : EndsSeparated (nth c.knots) p n) (hsep : KnotSeparated c.knots u)
    (h0 : nth c.knots p < u) (h1 : u < nth c.knots (n + 1)) (hsp : c.knots.count u + 1 = p)
    (hrun : insertKnot c u 1 res = ok (1, c1)) : removeKnot close c1 u 1 = ok (some c) := by
  obtain ⟨k, hi, wf, q1, q2, q3, q4, q5, q6⟩ := inserted_view w he hsep h0 h1 hsp.le hrun
  have hkn := hi.kn
  have hpk := hi.pk
  have hP := w.cps
  obtain ⟨c', a1, a2, a3, a4, a5⟩ := (removeKnot_run close wf q1 q2 q3 (by omega) (by omega)).2 (by
    unfold remOk; rw [if_pos (by omega)]; exact hc _)
  rw [a1]
  have hcps : c'.cps = c.cps := by
    apply ext_nth (by omega)
    intro i hi'
    rw [a5 i (by omega)]
    by_cases h : i < k + 1 - p
    · rw [if_pos h, q6.lo i (by omega)]
    · rw [if_neg h, if_neg (by omega), q6.hi (i + 1) (by omega) (by omega) (by omega)]
      congr 1
  have : c' = c := by
    have hd := w.degree
    rw [q4] at a3
    cases c'; cases c
    simp only at a2 a3 hd hcps
    simp only [a2, a3, hd, hcps]
  rw [this]

/-- C41 (violated): for an insertion that raised the multiplicity to the degree minus one, the removal
is accepted but returns a wrong control point: a combination of the right one and its neighbour, so
the original curve is restored only if these two points are equal. -/
theorem C41_undo_violated {close : T → T → Bool} (hc : ∀ x, close x x = true) {c c1 res : BsplineCurve K T} {p n : ℕ} {u : K} (w : WellFormed c p n)
    (he : EndsSeparated (nth c.knots) p n) (hsep : KnotSeparated c.knots u)
    (h0 : nth c.knots p < u) (h1 : u < nth c.knots (n + 1)) (hsp : c.knots.count u + 2 = p)
    (hrun : insertKnot c u 1 res = ok (1, c1)) :
    ∃ (k : ℕ) (a : K), p ≤ k ∧ k ≤ n ∧ nth c.knots k ≤ u ∧ u < nth c.knots (k + 1) ∧ 0 < a ∧ a < 1 ∧
      removeKnot close c1 u 1 = ok (some { c with cps := c.cps.set (k - p + 1) ((1 - a) • nth c.cps (k - p + 1) + a • nth c.cps (k - p + 2)) }) ∧
      a = (u - nth c.knots (k - p + 2)) / (nth c.knots (k + 2) - nth c.knots (k - p + 2)) := by
  obtain ⟨k, hi, wf, q1, q2, q3, q4, q5, q6⟩ := inserted_view w he hsep h0 h1 (by omega) hrun
  have hkn := hi.kn
  have hpk := hi.pk
  have hP := w.cps
  have hm := wf_monoTo w
  have hU := w.knots
  -- the knots involved
  have x1 : nth c.knots (k - p + 1) < u := hi.ne _ (by omega)
  have x2 : nth c.knots (k - p + 2) < u := hi.ne _ (by omega)
  have x3 := hi.hi
  have x4 : u < nth c.knots (k + 2) := lt_of_lt_of_le x3 (hm _ _ (by omega) (by omega))
  have v1 : nth c1.knots (k + 1 - p) = nth c.knots (k - p + 1) := by rw [q5.lo _ (by omega)]; congr 1; omega
  have v2 : nth c1.knots (k + 1 - p + p + 1) = nth c.knots (k + 1) := by rw [q5.hi _ (by omega) (by omega)]; congr 1; omega
  have v3 : nth c1.knots (k - p + 2) = nth c.knots (k - p + 2) := q5.lo _ (by omega)
  have v4 : nth c1.knots (k - p + 2 + p + 1) = nth c.knots (k + 2) := by rw [q5.hi _ (by omega) (by omega)]; congr 1; omega
  -- the control points involved
  have y0 : nth c1.cps (k + 1 - p - 1) = nth c.cps (k - p) := by rw [q6.lo _ (by omega)]; congr 1; omega
  have y1 := q6.left 1 le_rfl le_rfl (by omega)
  have y2 := q6.right 1 le_rfl le_rfl (by omega)
  have y3 : nth c1.cps (k - p + 3) = nth c.cps (k - p + 2) := q6.hi (k - p + 3) (by omega) (by omega) (by omega)
  rw [show k - p + 1 = k + 1 - p by omega] at y1
  rw [show k + 1 - 1 - c.knots.count u = k - p + 2 by omega, show k - c.knots.count u - 1 = k - p + 1 by omega] at y2
  simp only [List.replicate_one, E, List.length_nil, Nat.add_zero] at y1 y2
  rw [show k - p + p + 1 = k + 1 by omega] at y1
  rw [show k - p + 1 + p + 1 = k + 2 by omega, show k - p + 1 + 1 = k - p + 2 by omega] at y2
  have hs' : k + 1 - (c.knots.count u + 1) = k - p + 2 := by omega
  have hL : remL (nth c1.knots) (nth c1.cps) p u (k + 1 - p) 1 = nth c.cps (k - p + 1) := by
    have d : nth c.knots (k + 1) - nth c.knots (k - p + 1) ≠ 0 := by
      have : nth c.knots (k - p + 1) < nth c.knots (k + 1) := x1.trans x3
      exact (sub_pos.mpr this).ne'
    have d' : u - nth c.knots (k - p + 1) ≠ 0 := (sub_pos.mpr x1).ne'
    simp only [remL, Nat.add_zero]
    rw [y0, y1, remA, v1, v2, inv_smul_eq_iff₀ (div_ne_zero d' d)]
    rw [show (nth c.knots (k + 1) - u) / (nth c.knots (k + 1) - nth c.knots (k - p + 1))
      = 1 - (u - nth c.knots (k - p + 1)) / (nth c.knots (k + 1) - nth c.knots (k - p + 1)) by field_simp; ring]
    module
  have hR : remR (nth c1.knots) (nth c1.cps) p u (k - p + 2) 1 = nth c.cps (k - p + 1) := by
    have d : nth c.knots (k + 2) - nth c.knots (k - p + 2) ≠ 0 := by
      have : nth c.knots (k - p + 2) < nth c.knots (k + 2) := x2.trans x4
      exact (sub_pos.mpr this).ne'
    have d' : nth c.knots (k + 2) - u ≠ 0 := (sub_pos.mpr x4).ne'
    have e : 1 - (u - nth c.knots (k - p + 2)) / (nth c.knots (k + 2) - nth c.knots (k - p + 2))
      = (nth c.knots (k + 2) - u) / (nth c.knots (k + 2) - nth c.knots (k - p + 2)) := by field_simp; ring
    simp only [remR, Nat.sub_zero]
    rw [show k - p + 2 + 1 = k - p + 3 by omega, y3, y2, remA, v3, v4, e, inv_smul_eq_iff₀ (div_ne_zero d' d)]
    module
  obtain ⟨c', a1, a2, a3, a4, a5⟩ := (removeKnot_run close wf q1 q2 q3 (by omega) (by omega)).2 (by
    unfold remOk
    rw [if_neg (by omega), show (p - (c.knots.count u + 1)) / 2 + 1 = 1 by omega, hs', hL, hR]
    exact hc _)
  have d0 : 0 < nth c.knots (k + 2) - nth c.knots (k - p + 2) := sub_pos.mpr (x2.trans x4)
  refine ⟨k, (u - nth c.knots (k - p + 2)) / (nth c.knots (k + 2) - nth c.knots (k - p + 2)), hpk, hkn, hi.lo, x3,
    div_pos (sub_pos.mpr x2) d0, by rw [div_lt_one d0]; linarith, ?_, rfl⟩
  rw [a1]
  have hcps : c'.cps = c.cps.set (k - p + 1) ((1 - (u - nth c.knots (k - p + 2)) / (nth c.knots (k + 2) - nth c.knots (k - p + 2))) • nth c.cps (k - p + 1)
      + ((u - nth c.knots (k - p + 2)) / (nth c.knots (k + 2) - nth c.knots (k - p + 2))) • nth c.cps (k - p + 2)) := by
    apply ext_nth (by simp; omega)
    intro i hi'
    rw [a5 i (by omega), nth_set (by omega)]
    by_cases h : i < k + 1 - p
    · rw [if_pos h, if_neg (by omega), q6.lo i (by omega)]
    · rw [if_neg h, if_neg (by omega)]
      by_cases h2 : i = k - p + 1
      · rw [if_pos h2, h2, show k - p + 1 + 1 = k - p + 2 by omega, y2]
        rw [show (nth c.knots (k + 2) - u) / (nth c.knots (k + 2) - nth c.knots (k - p + 2))
          = 1 - (u - nth c.knots (k - p + 2)) / (nth c.knots (k + 2) - nth c.knots (k - p + 2)) by field_simp; ring]
      · rw [if_neg h2, q6.hi (i + 1) (by omega) (by omega) (by omega)]
        congr 1
  have : c' = { c with cps := c.cps.set (k - p + 1) ((1 - (u - nth c.knots (k - p + 2)) / (nth c.knots (k + 2) - nth c.knots (k - p + 2))) • nth c.cps (k - p + 1)
      + ((u - nth c.knots (k - p + 2)) / (nth c.knots (k + 2) - nth c.knots (k - p + 2))) • nth c.cps (k - p + 2)) } := by
    have hd := w.degree
    rw [q4] at a3
    cases c'
    simp only at a2 a3 hcps
    simp only [a2, a3, hd, hcps]
  rw [this]

/-! ## The library's tolerance test -/

theorem foldMin_nonneg {l : List (XYZW ℝ)} (h : ∀ q ∈ l, 0 ≤ q.w) :
    ∀ st : ℝ × ℝ, 0 ≤ st.1 → 0 ≤ (l.foldl (fun (st : ℝ × ℝ) (q : XYZW ℝ) => (min st.1 q.w, max st.2 q.toXYZ.length)) st).1 := by
  induction l with
  | nil => intro st h0; exact h0
  | cons a l ih =>
    intro st h0
    simp only [List.foldl_cons]
    exact ih (fun q hq => h q (List.mem_cons_of_mem _ hq)) _ (le_min h0 (h a List.mem_cons_self))

theorem tolerance_nonneg {l : List (XYZW ℝ)} (h : ∀ q ∈ l, 0 ≤ q.w) : 0 ≤ curveModifyTolerance l := by
  unfold curveModifyTolerance
  have := foldMin_nonneg h (1, 0) zero_le_one
  dsimp only
  unfold distEps
  positivity

/-- the library's test accepts equal points -/
theorem closeTest_refl {l : List (XYZW ℝ)} (h : ∀ q ∈ l, 0 ≤ q.w) (x : XYZW ℝ) :
    isLessThanOrEqual (XYZW.distance x x) (curveModifyTolerance l) = true := by
  have h1 := tolerance_nonneg h
  have h2 : XYZW.distance x x = 0 := by simp [XYZW.distance]
  rw [h2]
  unfold isLessThanOrEqual
  rw [decide_eq_true_eq]
  have := tolOf_pos (K := ℝ) (a := 0) (b := curveModifyTolerance l) (tol := doubleEps) doubleEps_pos
  linarith

/-- the witness of `C41_not_close_violated` -/
noncomputable def exRem : NurbsCurve ℝ :=
  { degree := 3, knots := [0, 0, 0, 0, 1, 2, 2, 2, 2], cps := [⟨0, 0, 0, 1⟩, ⟨0, 0, 0, 1⟩, ⟨100, 0, 0, 1⟩, ⟨0, 0, 0, 1⟩, ⟨0, 0, 0, 1⟩] }

/-- its image -/
noncomputable def exRem' : NurbsCurve ℝ :=
  { degree := 3, knots := [0, 0, 0, 0, 2, 2, 2, 2], cps := [⟨0, 0, 0, 1⟩, ⟨0, 0, 0, 1⟩, ⟨0, 0, 0, 1⟩, ⟨0, 0, 0, 1⟩] }

theorem exRem_wf : WellFormed exRem 3 4 where
  degree := rfl
  pos := by decide
  le7 := by decide
  cps := rfl
  pn := by decide
  knots := rfl
  sorted := by
    apply isValidKnotVector_nth.mp
    simp [exRem, isValidKnotVector]

theorem exRem_ends : EndsSeparated (nth exRem.knots) 3 4 := by
  constructor <;> simp [exRem, nth] <;> norm_num

theorem exRem_sep : KnotSeparated exRem.knots (1 : ℝ) := by
  intro x hx
  simp only [exRem, List.mem_cons, List.not_mem_nil, or_false] at hx
  rcases hx with h | h | h | h | h | h | h | h | h <;> subst h <;> norm_num [abs_of_pos]

theorem exRem_count : exRem.knots.count (1 : ℝ) = 1 := by
  simp [exRem, List.count_cons]

theorem exRem_removed : NurbsCurve.removeKnot exRem 1 1 = ok (some exRem') := by
  have w := exRem_wf
  obtain ⟨r, hr, hm, hi⟩ := insertAt_of w exRem_ends exRem_sep (by simp [exRem, nth]) (by simp [exRem, nth]) (by rw [exRem_count]; omega)
  rw [exRem_count] at hm hi
  have hr4 : r = 4 := by
    have h1 := hi.eq r (by omega) le_rfl
    have h2 := hi.kn
    have h3 := hi.pk
    interval_cases r
    · simp [exRem, nth] at h1
    · rfl
  subst hr4
  have hq : ∀ q ∈ exRem.cps, 0 ≤ q.w := by
    intro q hq
    simp only [exRem, List.mem_cons, List.not_mem_nil, or_false] at hq
    rcases hq with h | h | h | h | h <;> subst h <;> norm_num
  obtain ⟨c', a1, a2, a3, a4, a5⟩ := (removeKnot_run (fun a b => isLessThanOrEqual (XYZW.distance a b) (curveModifyTolerance exRem.cps))
    w hr hm hi le_rfl (by omega)).2 (by
      unfold remOk; rw [if_pos (by omega)]; exact closeTest_refl hq _)
  unfold NurbsCurve.removeKnot
  rw [a1]
  have hcps : c'.cps = exRem'.cps := by
    apply ext_nth (by rw [a4]; rfl)
    intro i hi'
    rw [a4] at hi'
    rw [a5 i hi']
    interval_cases i
    · simp [exRem, exRem', nth]
    · simp only [exRem, exRem', nth, remL, remA]
      simp [remL]
      ext <;> simp [nth] <;> norm_num
    · simp [exRem, exRem', nth]
    · simp [exRem, exRem', nth]
  have hk : c'.knots = exRem'.knots := by rw [a3]; rfl
  have : c' = exRem' := by
    cases c'
    simp only at a2 hk hcps
    simp only [a2, hk, hcps]
    rfl
  rw [this]

/-- C41 (violated): the library's `RemoveKnot` answers `true` for the simple knot of a cubic and the
new curve is 50 units away from the old one (its tolerance is at most 1/10000). -/
theorem C41_not_close_violated : WellFormed exRem 3 4 ∧ NurbsCurve.removeKnot exRem 1 1 = ok (some exRem') ∧
    curveModifyTolerance exRem.cps ≤ 1 / 10000 ∧
    NurbsCurve.pointOnCurve exRem 1 = ok ⟨50, 0, 0⟩ ∧ NurbsCurve.pointOnCurve exRem' 1 = ok ⟨0, 0, 0⟩ := by
  have w' : WellFormed exRem' 3 3 := by
    refine ⟨rfl, by decide, by decide, rfl, by decide, rfl, ?_⟩
    apply isValidKnotVector_nth.mp
    simp [exRem', isValidKnotVector]
  have he' : EndsSeparated (nth exRem'.knots) 3 3 := by
    constructor <;> simp [exRem', nth] <;> norm_num
  have e1 : weightFn (nth exRem.knots) 3 4 (nth exRem.cps) 1 = 1 := by
    simp [weightFn, exRem, nth, N, Finset.sum_range_succ]; norm_num
  have e2 : weightFn (nth exRem'.knots) 3 3 (nth exRem'.cps) 1 = 1 := by
    simp [weightFn, exRem', nth, N, Finset.sum_range_succ]; norm_num
  refine ⟨exRem_wf, exRem_removed, ?_, ?_, ?_⟩
  · unfold curveModifyTolerance
    dsimp only
    set st := exRem.cps.foldl (fun (st : ℝ × ℝ) (q : XYZW ℝ) => (min st.1 q.w, max st.2 q.toXYZ.length)) (1, 0) with hst
    have h1 : st.1 = 1 := by rw [hst]; simp [exRem]
    rw [h1, mul_one]
    unfold distEps
    exact div_le_self (by norm_num) (by have := abs_nonneg st.2; linarith)
  · rw [C05_eval_rational exRem_wf exRem_ends (by simp [exRem, nth]) (by simp [exRem, nth]) (by rw [e1]; norm_num)]
    unfold rationalPoint
    change ok ((weightFn (nth exRem.knots) 3 4 (nth exRem.cps) 1)⁻¹ • _) = _
    rw [e1]
    congr 1
    ext <;> simp [exRem, nth, N, Finset.sum_range_succ] <;> norm_num
  · rw [C05_eval_rational w' he' (by simp [exRem', nth]) (by simp [exRem', nth]) (by rw [e2]; norm_num)]
    unfold rationalPoint
    change ok ((weightFn (nth exRem'.knots) 3 3 (nth exRem'.cps) 1)⁻¹ • _) = _
    rw [e2]
    congr 1
    ext <;> simp [exRem', nth, Finset.sum_range_succ]

/-- the quadratic of `C41_undo_points_violated` -/
noncomputable def exUndo : NurbsCurve ℝ := { degree := 2, knots := [0, 0, 0, 2, 2, 2], cps := [⟨0, 0, 0, 1⟩, ⟨1, 0, 0, 1⟩, ⟨0, 0, 0, 1⟩] }

/-- what comes back -/
noncomputable def exUndo' : NurbsCurve ℝ := { degree := 2, knots := [0, 0, 0, 2, 2, 2], cps := [⟨0, 0, 0, 1⟩, ⟨1 / 2, 0, 0, 1⟩, ⟨0, 0, 0, 1⟩] }

/-- C41 (violated): inserting a knot into a parabola and removing it again is answered with `true`
and a different parabola. -/
theorem C41_undo_points_violated : WellFormed exUndo 2 2 ∧ (∃ c1 : NurbsCurve ℝ, insertKnot exUndo 1 1 exUndo = ok (1, c1) ∧
    ∀ l : List (XYZW ℝ), (∀ q ∈ l, 0 ≤ q.w) →
      removeKnot (fun a b => isLessThanOrEqual (XYZW.distance a b) (curveModifyTolerance l)) c1 1 1 = ok (some exUndo')) ∧
    NurbsCurve.pointOnCurve exUndo 1 = ok ⟨1 / 2, 0, 0⟩ ∧ NurbsCurve.pointOnCurve exUndo' 1 = ok ⟨1 / 4, 0, 0⟩ := by
  have w : WellFormed exUndo 2 2 := by
    refine ⟨rfl, by decide, by decide, rfl, by decide, rfl, ?_⟩
    apply isValidKnotVector_nth.mp
    simp [exUndo, isValidKnotVector]
  have he : EndsSeparated (nth exUndo.knots) 2 2 := by
    constructor <;> simp [exUndo, nth] <;> norm_num
  have w' : WellFormed exUndo' 2 2 := by
    refine ⟨rfl, by decide, by decide, rfl, by decide, rfl, ?_⟩
    apply isValidKnotVector_nth.mp
    simp [exUndo', isValidKnotVector]
  have he' : EndsSeparated (nth exUndo'.knots) 2 2 := by
    constructor <;> simp [exUndo', nth] <;> norm_num
  have hsep : KnotSeparated exUndo.knots (1 : ℝ) := by
    intro x hx
    simp only [exUndo, List.mem_cons, List.not_mem_nil, or_false] at hx
    rcases hx with h | h | h | h | h | h <;> subst h <;> norm_num [abs_of_pos]
  have hcount : exUndo.knots.count (1 : ℝ) = 0 := by simp [exUndo, List.count_cons]
  have e1 : weightFn (nth exUndo.knots) 2 2 (nth exUndo.cps) 1 = 1 := by
    simp [weightFn, exUndo, nth, N, Finset.sum_range_succ]; norm_num
  have e2 : weightFn (nth exUndo'.knots) 2 2 (nth exUndo'.cps) 1 = 1 := by
    simp [weightFn, exUndo', nth, N, Finset.sum_range_succ]; norm_num
  refine ⟨w, ?_, ?_, ?_⟩
  · obtain ⟨c1, hrun, _, _⟩ := C12_insert_valid (res := exUndo) (r := 1) w he hsep (by simp [exUndo, nth]) (by simp [exUndo, nth]) (by omega)
    rw [hcount, show inserted 2 0 1 = 1 from rfl] at hrun
    refine ⟨c1, hrun, fun l hl => ?_⟩
    obtain ⟨k, a, b1, b2, _, _, _, _, b3, b4⟩ := C41_undo_violated (close := fun a b => isLessThanOrEqual (XYZW.distance a b) (curveModifyTolerance l))
      (fun x => closeTest_refl hl x) w he hsep (by simp [exUndo, nth]) (by simp [exUndo, nth]) (by rw [hcount]) hrun
    have hk : k = 2 := by omega
    subst hk
    have ha : a = 1 / 2 := by rw [b4]; simp [exUndo, nth]
    rw [b3, ha]
    congr 2
    simp only [exUndo, exUndo', nth]
    simp
    ext <;> simp <;> norm_num
  · rw [C05_eval_rational w he (by simp [exUndo, nth]) (by simp [exUndo, nth]) (by rw [e1]; norm_num)]
    unfold rationalPoint
    change ok ((weightFn (nth exUndo.knots) 2 2 (nth exUndo.cps) 1)⁻¹ • _) = _
    rw [e1]
    congr 1
    ext <;> simp [exUndo, nth, N, Finset.sum_range_succ] <;> norm_num
  · rw [C05_eval_rational w' he' (by simp [exUndo', nth]) (by simp [exUndo', nth]) (by rw [e2]; norm_num)]
    unfold rationalPoint
    change ok ((weightFn (nth exUndo'.knots) 2 2 (nth exUndo'.cps) 1)⁻¹ • _) = _
    rw [e2]
    congr 1
    ext <;> simp [exUndo', nth, N, Finset.sum_range_succ] <;> norm_num

/-- the witness of `C41_count_violated` -/
noncomputable def exCount : NurbsCurve ℝ :=
  { degree := 2, knots := [0, 0, 0, 1, 1, 2, 2, 2], cps := [⟨0, 0, 0, 1⟩, ⟨0, 0, 0, 1⟩, ⟨0, 0, 0, 1⟩, ⟨1, 0, 0, 1⟩, ⟨0, 0, 0, 1⟩] }

theorem exCount_wf : WellFormed exCount 2 4 := by
  refine ⟨rfl, by decide, by decide, rfl, by decide, rfl, ?_⟩
  apply isValidKnotVector_nth.mp
  simp [exCount, isValidKnotVector]

section count
variable (close : XYZW ℝ → XYZW ℝ → Bool)

theorem toNat_two : (2 : ℤ).toNat = 2 := rfl
theorem toNat_five : (5 : ℤ).toNat = 5 := rfl

theorem exCount_round0 (h1 : ∀ x, close x x = true) : ∃ t0 t1 t2 t3 t4 : XYZW ℝ,
    removeRound close exCount.knots exCount.cps 2 1 ⟨0, 2, 2, List.replicate 5 0, exCount.cps, false⟩
      = ok ⟨1, 1, 3, [t0, t1, t2, t3, t4], exCount.cps, false⟩ := by
  have e : (1 : ℝ) - 2⁻¹ = 2⁻¹ := by norm_num
  simp [e, exCount, removeRound, removeSweep, whileF, removeSweepRound, vget, vset, fdiv, vdiv, removeTest, removeSave, h1, toNat_two, List.replicate]

theorem exCount_round1 (h2 : close ⟨0, 0, 0, 1⟩ ⟨2, 0, 0, 1⟩ = false) (t0 t1 t2 t3 t4 : XYZW ℝ) : ∃ tm : List (XYZW ℝ),
    removeRound close exCount.knots exCount.cps 2 1 ⟨1, 1, 3, [t0, t1, t2, t3, t4], exCount.cps, false⟩
      = ok ⟨1, 1, 3, tm, exCount.cps, true⟩ := by
  have hs : removeSweep exCount.knots exCount.cps 2 (1 : ℝ) 1 1 3 [t0, t1, t2, t3, t4]
      = ok ⟨2, 2, 2, 2, [⟨0, 0, 0, 1⟩, ⟨0, 0, 0, 1⟩, t2, ⟨2, 0, 0, 1⟩, ⟨0, 0, 0, 1⟩]⟩ := by
    simp [exCount, removeSweep, whileF, removeSweepRound, vget, vset, fdiv, vdiv]
    norm_num [XYZW.ext_iff]
  unfold removeRound
  rw [hs]
  simp [removeTest, vget, toNat_two, h2]

theorem exCount_core (h1 : ∀ x, close x x = true) (h2 : close ⟨0, 0, 0, 1⟩ ⟨2, 0, 0, 1⟩ = false)
    (hm : getKnotMultiplicity exCount.knots 1 = ok 2) (hr : getKnotSpanIndex 2 exCount.knots 1 = ok 4) (hv : validateRange (1 : ℝ) 0 2 = ok ()) :
    ∃ c' : NurbsCurve ℝ, removeKnot close exCount 1 2 = ok (some c') ∧ c'.degree = 2 ∧ c'.knots.length = 6 ∧ c'.cps.length = 4 := by
  obtain ⟨t0, t1, t2, t3, t4, g0⟩ := exCount_round0 close h1
  obtain ⟨tm, g1⟩ := exCount_round1 close h2 t0 t1 t2 t3 t4
  have hk : removeKnots exCount.knots 4 7 2 = ok [0, 0, 0, 2, 2, 2] := by
    simp [removeKnots, exCount, forI, loopUp, vget, vset, toNat_two]
  have hcomp : ∃ Q, removeCompact exCount.cps exCount.cps 2 2 4 4 1 = ok Q ∧ Q.length = 4 := by
    simp [removeCompact, exCount, forI, loopUp, vget, vset, toNat_two]
  obtain ⟨Q, hQ, hQl⟩ := hcomp
  have e0 : vget exCount.knots 0 = ok 0 := by simp [exCount, vget]
  have e1 : vget exCount.knots ((exCount.knots.length : ℤ) - 1) = ok 2 := by simp [exCount, vget]
  have el : (exCount.cps.length : ℤ) - 1 = 4 := by simp [exCount]
  refine ⟨{ degree := 2, knots := [0, 0, 0, 2, 2, 2], cps := Q }, ?_, rfl, rfl, hQl⟩
  unfold removeKnot
  dsimp only
  rw [e0, ok_bind, e1, ok_bind, hv, ok_bind, hm, show exCount.degree = 2 from rfl, hr, el]
  simp only [ok_bind, gt_iff_lt, Nat.ofNat_pos, decide_true, validate_true]
  norm_num only
  rw [hk, ok_bind]
  simp only [whileF, toNat_two, toNat_five, ok_bind, g0, g1]
  simp [hQ]

end count

theorem exCount_tol : isLessThanOrEqual (XYZW.distance (⟨0, 0, 0, 1⟩ : XYZW ℝ) ⟨2, 0, 0, 1⟩) (curveModifyTolerance exCount.cps) = false := by
  have h : curveModifyTolerance exCount.cps ≤ 1 / 10000 := by
    unfold curveModifyTolerance
    dsimp only
    set st := exCount.cps.foldl (fun (st : ℝ × ℝ) (q : XYZW ℝ) => (min st.1 q.w, max st.2 q.toXYZ.length)) (1, 0) with hst
    have h1 : st.1 = 1 := by rw [hst]; simp [exCount]
    rw [h1, mul_one]
    unfold distEps
    exact div_le_self (by norm_num) (by have := abs_nonneg st.2; linarith)
  have h0 : 0 ≤ curveModifyTolerance exCount.cps := tolerance_nonneg (by
    intro q hq
    simp only [exCount, List.mem_cons, List.not_mem_nil, or_false] at hq
    rcases hq with h | h | h | h | h <;> subst h <;> norm_num)
  have hd : XYZW.distance (⟨0, 0, 0, 1⟩ : XYZW ℝ) ⟨2, 0, 0, 1⟩ = 2 := by
    simp [XYZW.distance]
  rw [hd]
  unfold isLessThanOrEqual
  rw [decide_eq_false_iff_not]
  unfold tolOf doubleEps
  rw [max_eq_left (by rw [abs_of_nonneg h0]; norm_num; linarith), abs_of_pos (by norm_num)]
  norm_num
  linarith

/-- C41 (violated): when fewer copies can be removed than asked for, `true` is answered with the
knots of the full count and the control points of the smaller one; the result is not a curve. -/
theorem C41_count_violated : WellFormed exCount 2 4 ∧ ∃ c' : NurbsCurve ℝ, NurbsCurve.removeKnot exCount 1 2 = ok (some c') ∧
    c'.degree = 2 ∧ c'.knots.length = 6 ∧ c'.cps.length = 4 := by
  have w := exCount_wf
  have he : EndsSeparated (nth exCount.knots) 2 4 := by
    constructor <;> simp [exCount, nth] <;> norm_num
  have hsep : KnotSeparated exCount.knots (1 : ℝ) := by
    intro x hx
    simp only [exCount, List.mem_cons, List.not_mem_nil, or_false] at hx
    rcases hx with h | h | h | h | h | h | h | h <;> subst h <;> norm_num [abs_of_pos]
  have hcount : exCount.knots.count (1 : ℝ) = 2 := by simp [exCount, List.count_cons]
  obtain ⟨r, hr, hm, hi⟩ := insertAt_of w he hsep (by simp [exCount, nth]) (by simp [exCount, nth]) (by rw [hcount])
  rw [hcount] at hm hi
  have hr4 : r = 4 := by
    have h1 := hi.eq r (by omega) le_rfl
    have h2 := hi.kn
    have h3 := hi.pk
    have h4 := hi.hi
    interval_cases r
    · simp [exCount, nth] at h1
    · simp [exCount, nth] at h4
    · rfl
  subst hr4
  have hq : ∀ q ∈ exCount.cps, 0 ≤ q.w := by
    intro q hq
    simp only [exCount, List.mem_cons, List.not_mem_nil, or_false] at hq
    rcases hq with h | h | h | h | h <;> subst h <;> norm_num
  refine ⟨w, ?_⟩
  have hv : validateRange (1 : ℝ) 0 2 = ok () := validateRange_eq_ok_iff.mpr ⟨by have := doubleEps_pos (K := ℝ); linarith, by have := doubleEps_pos (K := ℝ); linarith⟩
  have hc1 : ∀ x : XYZW ℝ, isLessThanOrEqual (XYZW.distance x x) (curveModifyTolerance exCount.cps) = true := closeTest_refl hq
  have hr' : getKnotSpanIndex 2 exCount.knots (1 : ℝ) = ok 4 := hr
  have hm' : getKnotMultiplicity exCount.knots (1 : ℝ) = ok 2 := hm
  exact exCount_core _ hc1 exCount_tol hm' hr' hv

/-! ## Nontrivial instances -/

/-- a cubic with a simple knot -/
def exRemQ : BsplineCurve ℚ ℚ := { degree := 3, knots := [0, 0, 0, 0, 1, 2, 2, 2, 2], cps := [0, 1, 5, 2, 3] }

example : WellFormed exRemQ 3 4 ∧ EndsSeparated (nth exRemQ.knots) 3 4 ∧ KnotSeparated exRemQ.knots 1 ∧
    nth exRemQ.knots 3 < 1 ∧ 1 < nth exRemQ.knots 5 ∧ exRemQ.knots.count 1 = 1 ∧
    removeKnot (fun a b => a = b) exRemQ 1 1 = ok (some { degree := 3, knots := [0, 0, 0, 0, 2, 2, 2, 2], cps := [0, 2, 2, 3] }) :=
  ⟨wellFormed_of_check rfl (by decide) rfl rfl (by decide +kernel), ⟨by decide +kernel, by decide +kernel⟩, by unfold KnotSeparated; decide +kernel, by decide +kernel, by decide +kernel,
    by decide +kernel, by decide +kernel⟩

/-- a polyline vertex (multiplicity 1 = degree): insertion and removal -/
example : insertKnot ({ degree := 1, knots := [0, 0, 1, 2, 2], cps := [0, 4, 1] } : BsplineCurve ℚ ℚ) (1/2) 1 { degree := 0, knots := [], cps := [] }
      = ok (1, { degree := 1, knots := [0, 0, 1/2, 1, 2, 2], cps := [0, 2, 4, 1] }) ∧
    removeKnot (fun a b => a = b) ({ degree := 1, knots := [0, 0, 1/2, 1, 2, 2], cps := [0, 2, 4, 1] } : BsplineCurve ℚ ℚ) (1/2) 1
      = ok (some { degree := 1, knots := [0, 0, 1, 2, 2], cps := [0, 4, 1] }) :=
  ⟨by decide +kernel, by decide +kernel⟩

end LNLib.Props
