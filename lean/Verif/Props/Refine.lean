import Verif.Lemmas.RefineRun
import Verif.Props.KnotInsertion

/-!
# C57, C23: knot refinement and splitting (Geometry/Curve/NurbsCurve.cpp)
-/
set_option linter.unusedSectionVars false

namespace LNLib.Props
open LNLib Res Spec Finset

variable {K : Type} [Field K] [LinearOrder K] [IsStrictOrderedRing K]
variable {T : Type} [AddCommGroup T] [Module K T]

/-! ## C57 -/

theorem sorted_nth {X : List K} (h : X.Pairwise (· ≤ ·)) : ∀ b c, b ≤ c → c < X.length → nth X b ≤ nth X c :=
  isValidKnotVector_nth.mp ((isValidKnotVector_iff X).mpr h)

/-- C57: for every well-formed curve and every nonempty sorted list of knots strictly inside the
domain (all values involved equal or clearly apart), `RefineKnotVector` returns a well-formed curve
on the same domain whose knots are the old ones together with the new ones, and which evaluates to
the same point at every parameter of the domain. -/
theorem C57_refine {c : BsplineCurve K T} {p n : ℕ} {X : List K} (w : WellFormed c p n)
    (he : EndsSeparated (nth c.knots) p n) (hne : X ≠ []) (hXs : X.Pairwise (· ≤ ·))
    (hX : ∀ x ∈ X, nth c.knots p < x ∧ x < nth c.knots (n + 1)) (hsep : WellSeparated (c.knots ++ X)) :
    ∃ c' : BsplineCurve K T, refineKnotVector c X = ok c' ∧ WellFormed c' p (n + X.length) ∧
      c'.knots.Perm (c.knots ++ X) ∧ nth c'.knots p = nth c.knots p ∧ nth c'.knots (n + X.length + 1) = nth c.knots (n + 1) ∧
      ∀ t, nth c.knots p ≤ t → t ≤ nth c.knots (n + 1) →
        c'.pointOnCurve t = c.pointOnCurve t ∧ c.pointOnCurve t = ok (curvePoint (nth c.knots) p n (nth c.cps) t) := by
  obtain ⟨c', h1, h2, h3, h4, h5, h6, h7, _⟩ := refineKnotVector_run w he hne (fun m hm => (hX _ (mem_of_nth hm)).1)
    (fun m hm => (hX _ (mem_of_nth hm)).2) (sorted_nth hXs) hsep
  refine ⟨c', h1, h2, h4, h5, h6, ?_⟩
  intro t ht0 ht1
  refine ⟨?_, C05_eval w he ht0 ht1⟩
  rw [C05_eval w he ht0 ht1, C05_eval h2 h3 (by rw [h5]; exact ht0) (by rw [h6]; exact ht1), h7 t ht0 ht1]

/-- C57: an empty list of knots is rejected. -/
theorem C57_empty_rejected (c : BsplineCurve K T) : refineKnotVector c [] = invalidArg := by
  unfold refineKnotVector
  rfl

/-- C57 for rational curves. -/
theorem C57_refine_rational {c c' : NurbsCurve K} {p n : ℕ} {X : List K} (w : WellFormed c p n)
    (he : EndsSeparated (nth c.knots) p n) (hne : X ≠ []) (hXs : X.Pairwise (· ≤ ·))
    (hX : ∀ x ∈ X, nth c.knots p < x ∧ x < nth c.knots (n + 1)) (hsep : WellSeparated (c.knots ++ X))
    (hrun : refineKnotVector c X = ok c') {t : K} (ht0 : nth c.knots p ≤ t) (ht1 : t ≤ nth c.knots (n + 1)) :
    NurbsCurve.pointOnCurve c' t = NurbsCurve.pointOnCurve c t := by
  obtain ⟨c'', h1, _, _, _, _, h2⟩ := C57_refine w he hne hXs hX hsep
  rw [hrun] at h1
  cases h1
  unfold NurbsCurve.pointOnCurve
  rw [(h2 t ht0 ht1).1]

/-! ## C23 -/

theorem splitTail_run {c1 : BsplineCurve K T} {p n1 k : ℕ} {u : K} (w : WellFormed c1 p n1)
    (he : EndsSeparated (nth c1.knots) p n1) (hk : getKnotSpanIndex c1.degree c1.knots u = ok (k : ℤ))
    (hkn : k ≤ n1) (hku1 : u < nth c1.knots (k + 1)) (hpk : 2 * p + 1 ≤ k)
    (hblk : ∀ i, k - p ≤ i → i ≤ k → nth c1.knots i = u) (hlt : nth c1.knots (k - p - 1) < u)
    (hsep : WellSeparated (c1.knots ++ [u])) :
    ∃ l r : BsplineCurve K T, splitTail (p : ℤ) c1 u = ok (l, r) ∧
      WellFormed l p (k - p - 1) ∧ WellFormed r p (n1 - k + p) ∧
      EndsSeparated (nth l.knots) p (k - p - 1) ∧ EndsSeparated (nth r.knots) p (n1 - k + p) ∧
      (∀ j, j ≤ k → nth l.knots j = nth c1.knots j) ∧ (∀ j, j < k - p → nth l.cps j = nth c1.cps j) ∧
      (∀ j, j ≤ n1 - k + p + p + 1 → nth r.knots j = nth c1.knots (j + (k - p))) ∧
      (∀ j, j ≤ n1 - k + p → nth r.cps j = nth c1.cps (j + (k - p))) := by
  have hU := w.knots
  have hP := w.cps
  have hp := w.pos
  have hm := wf_monoTo w
  have hmem : ∀ i, i < c1.knots.length → nth c1.knots i ∈ c1.knots ++ [u] := fun i hi => List.mem_append_left _ (mem_of_nth hi)
  have hmu : u ∈ c1.knots ++ [u] := by simp
  have hrun : Runs (splitTail (p : ℤ) c1 u) (fun lr => lr.1.degree = p ∧ lr.2.degree = p ∧
      lr.1.knots = c1.knots.take (k + 1) ∧ lr.1.cps = c1.cps.take (k - p) ∧
      lr.2.knots.length = n1 - k + p + p + 2 ∧ lr.2.cps.length = n1 - k + p + 1 ∧
      (∀ j, j ≤ n1 - k + p + p + 1 → nth lr.2.knots j = nth c1.knots (j + (k - p))) ∧
      (∀ j, j ≤ n1 - k + p → nth lr.2.cps j = nth c1.cps (j + (k - p)))) := by
    unfold splitTail
    rw [hk, ok_bind]
    dsimp only
    refine Runs.bind (Runs.fillDown (f := fun j => nth c1.cps (j + (k - p)))
      (rd := fun j => vget c1.cps ((c1.cps.length : ℤ) - 1 - ((c1.cps.length : ℤ) - ((k : ℤ) - p) - 1 - j)))
      (by rw [List.length_replicate]; omega) (by omega) (fun i h1 h2 => vget_nth (by omega) (by omega))) ?_
    rintro rc ⟨hrc1, hrc2⟩
    refine Runs.bind (Runs.fillDown (f := fun j => nth c1.knots (j + (k - p)))
      (rd := fun j => vget c1.knots ((c1.knots.length : ℤ) - 1 - ((c1.cps.length : ℤ) - ((k : ℤ) - p) + p - j)))
      (by rw [List.length_replicate]; omega) (by omega) (fun i h1 h2 => vget_nth (by omega) (by omega))) ?_
    rintro rk ⟨hrk1, hrk2⟩
    rw [List.length_replicate] at hrc1 hrk1
    refine Runs.ok ⟨rfl, rfl, ?_, ?_, ?_, ?_, ?_, ?_⟩
    · dsimp only; congr 1; omega
    · dsimp only; congr 1; omega
    · dsimp only; omega
    · dsimp only; omega
    · intro j hj
      dsimp only
      rw [hrk2, if_pos (by omega)]
    · intro j hj
      dsimp only
      rw [hrc2, if_pos (by omega)]
  obtain ⟨⟨l, r⟩, h1, d1, d2, kl, cl, lk, lc, hrk, hrc⟩ := hrun
  dsimp only at d1 d2 kl cl lk lc hrk hrc
  have hlk : ∀ j, j ≤ k → nth l.knots j = nth c1.knots j := by
    intro j hj; rw [kl, nth_take (by omega)]
  refine ⟨l, r, h1, ⟨d1, hp, w.le7, ?_, by omega, ?_, ?_⟩, ⟨d2, hp, w.le7, lc, by omega, lk, ?_⟩, ⟨?_, ?_⟩, ⟨?_, ?_⟩, hlk, ?_, hrk, hrc⟩
  · rw [cl, List.length_take]; omega
  · rw [kl, List.length_take]; omega
  · intro i j hij hj
    rw [kl, List.length_take] at hj
    rw [hlk i (by omega), hlk j (by omega)]
    exact hm i j hij (by omega)
  · intro i j hij hj
    rw [hrk i (by omega), hrk j (by omega)]
    exact hm _ _ (by omega) (by omega)
  · rw [hlk _ (by omega), hlk _ (by omega)]; exact he.first
  · rw [hlk _ (by omega), hlk _ (by omega)]
    have e : k - p - 1 + 1 = k - p := by omega
    rw [e, hblk (k - p) (le_refl _) (by omega)]
    exact wellSep_tol hsep (hmem _ (by omega)) hmu hlt
  · rw [hrk _ (by omega), hrk _ (by omega)]
    have e : p + (k - p) = k := by omega
    have e2 : p + 1 + (k - p) = k + 1 := by omega
    rw [e, e2, hblk k (by omega) (le_refl _)]
    exact wellSep_tol hsep hmu (hmem _ (by omega)) hku1
  · rw [hrk _ (by omega), hrk _ (by omega)]
    have e : n1 - k + p + (k - p) = n1 := by omega
    have e2 : n1 - k + p + 1 + (k - p) = n1 + 1 := by omega
    rw [e, e2]; exact he.last
  · intro j hj; rw [cl, nth_take hj]

theorem sep_isLessThan {l : List K} (h : WellSeparated l) {x y : K} (hx : x ∈ l) (hy : y ∈ l) (hlt : x < y) :
    isLessThan x y = true := by
  have := wellSep_tol h hx hy hlt
  simp only [isLessThan, decide_eq_true_eq]
  simp only [tolOf, doubleEps]
  linarith

/-- everything `SplitAt` does after the refinement -/
theorem split_refined {c1 : BsplineCurve K T} {p n1 : ℕ} {u : K} (w : WellFormed c1 p n1)
    (he : EndsSeparated (nth c1.knots) p n1) (h0 : nth c1.knots p < u) (h1 : u < nth c1.knots (n1 + 1))
    (hcount : c1.knots.count u = p + 1) (hsep : WellSeparated (c1.knots ++ [u])) :
    ∃ (l r : BsplineCurve K T) (nl nr k : ℕ), splitTail (p : ℤ) c1 u = ok (l, r) ∧ WellFormed l p nl ∧ WellFormed r p nr ∧
      nth l.knots p = nth c1.knots p ∧ nth l.knots (nl + 1) = u ∧ nth r.knots p = u ∧ nth r.knots (nr + 1) = nth c1.knots (n1 + 1) ∧
      (∀ t, nth c1.knots p ≤ t → t < u → l.pointOnCurve t = c1.pointOnCurve t) ∧
      (∀ t, u ≤ t → t ≤ nth c1.knots (n1 + 1) → r.pointOnCurve t = c1.pointOnCurve t) ∧
      l.pointOnCurve u = ok (nth c1.cps (k - p - 1)) ∧ c1.pointOnCurve u = ok (nth c1.cps (k - p)) ∧
      2 * p + 1 ≤ k ∧ k ≤ n1 ∧ (∀ i, i ≤ n1 + p + 1 → (nth c1.knots i = u ↔ k - p ≤ i ∧ i ≤ k)) ∧
      (∀ i, i ≤ n1 + p + 1 → i < k - p → nth c1.knots i < u) ∧ (∀ i, i ≤ n1 + p + 1 → k < i → u < nth c1.knots i) := by
  have hU := w.knots
  have hP := w.cps
  have hp := w.pos
  have hm := wf_monoTo w
  have hpn := w.pn
  obtain ⟨k, hk1, hk2⟩ := span_isSpan w he h0.le h1.le
  have hku : u < nth c1.knots (k + 1) := by
    rcases hk2.2.2.2.2 with h | ⟨h, h'⟩
    · exact h
    · rw [← h', ← h] at h1; exact absurd h1 (lt_irrefl _)
  have hkn := hk2.2.1
  have hcard : ((range (n1 + p + 1 + 1)).filter (fun i => nth c1.knots i = u)).card = p + 1 := by
    have := card_filter_nth c1.knots (fun x => decide (x = u))
    rw [hU] at this
    simp only [decide_eq_true_eq] at this
    rw [this, ← hcount, List.count]
    apply List.countP_congr
    intro x _
    simp
  have hint := mult_interval hm (by omega) hk2.2.2.2.1 hku
  rw [hcard] at hint
  have hblk : ∀ i, i ≤ n1 + p + 1 → (nth c1.knots i = u ↔ k - p ≤ i ∧ i ≤ k) := by
    intro i hi
    rw [(hint i hi).1]
    constructor
    · rintro ⟨a, b, _⟩; omega
    · rintro ⟨a, b⟩; omega
  have hpk : 2 * p + 1 ≤ k := by
    by_contra hcon
    have h3 : nth c1.knots (k - p) = u := (hblk (k - p) (by omega)).mpr ⟨le_refl _, by omega⟩
    have h4 := hm (k - p) p (by omega) (by omega)
    rw [h3] at h4
    exact absurd h0 (not_lt.mpr h4)
  have hlo : ∀ i, i ≤ n1 + p + 1 → i < k - p → nth c1.knots i < u := by
    intro i h3 h4
    refine lt_of_le_of_ne ((hm i k (by omega) (by omega)).trans hk2.2.2.2.1) (fun h => ?_)
    have := (hblk i h3).mp h
    omega
  have hhi : ∀ i, i ≤ n1 + p + 1 → k < i → u < nth c1.knots i := fun i h3 h4 => lt_of_lt_of_le hku (hm (k + 1) i (by omega) h3)
  obtain ⟨l, r, hrun, wl, wr, el, er, lk, lc, rk, rc⟩ := splitTail_run w he hk1 hkn hku hpk
    (fun i h3 h4 => (hblk i (by omega)).mpr ⟨h3, h4⟩) (hlo _ (by omega) (by omega)) hsep
  have elp : nth l.knots p = nth c1.knots p := lk p (by omega)
  have ele : nth l.knots (k - p - 1 + 1) = u := by
    rw [lk _ (by omega)]; exact (hblk _ (by omega)).mpr ⟨by omega, by omega⟩
  have erp : nth r.knots p = u := by
    rw [rk _ (by omega)]; exact (hblk _ (by omega)).mpr ⟨by omega, by omega⟩
  have ere : nth r.knots (n1 - k + p + 1) = nth c1.knots (n1 + 1) := by
    rw [rk _ (by omega)]; congr 1; omega
  have hright : ∀ t, u ≤ t → t ≤ nth c1.knots (n1 + 1) → r.pointOnCurve t = c1.pointOnCurve t := by
    intro t ht0 ht1
    obtain ⟨s, _, hs⟩ := span_isSpan (t := t) wr er (by rw [erp]; exact ht0) (by rw [ere]; exact ht1)
    rw [C05_eval w he (h0.le.trans ht0) ht1, C05_eval wr er (by rw [erp]; exact ht0) (by rw [ere]; exact ht1)]
    congr 1
    have hs1 := hs.1
    have hs2 := hs.2.1
    refine window_curve (d := k - p) hm (by omega) (fun j hj => rk j hj) (fun j hj => rc j hj) ?_ hs
    obtain ⟨g1, g2, g3, g4, g5⟩ := hs
    rw [rk s (by omega), rk (s + 1) (by omega)] at g3
    rw [rk s (by omega)] at g4
    rw [rk (s + 1) (by omega), ere] at g5
    have e : s + 1 + (k - p) = s + (k - p) + 1 := by omega
    rw [e] at g3 g5
    exact ⟨by omega, by omega, g3, g4, g5⟩
  refine ⟨l, r, k - p - 1, n1 - k + p, k, hrun, wl, wr, elp, ele, erp, ere, ?_, hright, ?_, ?_, hpk, hkn, hblk, hlo, hhi⟩
  · intro t ht0 ht1
    obtain ⟨s, _, hs⟩ := span_isSpan (t := t) wl el (by rw [elp]; exact ht0) (by rw [ele]; exact ht1.le)
    rw [C05_eval w he ht0 (ht1.le.trans h1.le), C05_eval wl el (by rw [elp]; exact ht0) (by rw [ele]; exact ht1.le)]
    congr 1
    have hs1 := hs.1
    have hs2 := hs.2.1
    refine window_curve (d := 0) hm (by omega) (fun j hj => lk j (by omega)) (fun j hj => lc j (by omega)) ?_ hs
    obtain ⟨g1, g2, g3, g4, g5⟩ := hs
    rw [lk s (by omega), lk (s + 1) (by omega)] at g3
    rw [lk s (by omega)] at g4
    rw [lk (s + 1) (by omega), ele] at g5
    refine ⟨by omega, by omega, g3, g4, ?_⟩
    rcases g5 with g5 | ⟨g5, g6⟩
    · left; exact g5
    · rw [g5, g6] at ht1; exact absurd ht1 (lt_irrefl _)
  · have := C09_end wl el (by
      intro i h3 h4
      rw [lk i (by omega), lk _ (by omega), (hblk i (by omega)).mpr ⟨by omega, by omega⟩, (hblk _ (by omega)).mpr ⟨by omega, by omega⟩])
    rw [lk _ (by omega), (hblk _ (by omega)).mpr ⟨by omega, by omega⟩, lc _ (by omega)] at this
    exact this
  · rw [← hright u (le_refl _) h1.le]
    have := C09_start wr er (by
      intro i h3
      rw [rk i (by omega), rk _ (by omega), (hblk _ (by omega)).mpr ⟨by omega, by omega⟩, (hblk _ (by omega)).mpr ⟨by omega, by omega⟩])
    rw [rk 0 (by omega), (hblk _ (by omega)).mpr ⟨by omega, by omega⟩, rc _ (by omega), zero_add] at this
    exact this

/-- C23: for every well-formed curve and every value strictly inside the domain (clearly apart from
the knots it is not equal to, multiplicity at most `p+1`), `SplitAt` answers `true` and returns two
well-formed curves whose domains are `[a,u]` and `[u,b]`, and which evaluate to the points of the
original curve: the right one on `[u,b]`, the left one on `[a,u)` and, unless `u` already is a knot
of full multiplicity `p+1` (where a curve may jump), at `u` too. -/
theorem C23_split {c : BsplineCurve K T} {p n : ℕ} {u : K} (w : WellFormed c p n)
    (he : EndsSeparated (nth c.knots) p n) (hsep : WellSeparated (c.knots ++ [u]))
    (h0 : nth c.knots p < u) (h1 : u < nth c.knots (n + 1)) (hmul : c.knots.count u ≤ p + 1) :
    ∃ (l r : BsplineCurve K T) (nl nr : ℕ), splitAt c u = ok (some (l, r)) ∧ WellFormed l p nl ∧ WellFormed r p nr ∧
      nth l.knots p = nth c.knots p ∧ nth l.knots (nl + 1) = u ∧ nth r.knots p = u ∧ nth r.knots (nr + 1) = nth c.knots (n + 1) ∧
      (∀ t, nth c.knots p ≤ t → t < u → l.pointOnCurve t = c.pointOnCurve t) ∧
      (∀ t, u ≤ t → t ≤ nth c.knots (n + 1) → r.pointOnCurve t = c.pointOnCurve t) ∧
      (c.knots.count u ≤ p → l.pointOnCurve u = c.pointOnCurve u) := by
  have hU := w.knots
  have hp := w.pos
  have hpn := w.pn
  have hm := wf_monoTo w
  have hmem : ∀ i, i < c.knots.length → nth c.knots i ∈ c.knots ++ [u] := fun i hi => List.mem_append_left _ (mem_of_nth hi)
  have hmu : u ∈ c.knots ++ [u] := by simp
  have hne : c.knots ≠ [] := by
    intro h; rw [h] at hU; simp at hU
  have hpw := (isValidKnotVector_iff c.knots).mp (isValidKnotVector_nth.mpr w.sorted)
  have hks : KnotSeparated c.knots u := by
    intro x hx
    rcases lt_trichotomy x u with h | h | h
    · right
      have := wellSep_tol hsep (List.mem_append_left _ hx) hmu h
      rw [abs_of_pos (sub_pos.mpr h), max_comm]; exact this
    · left; exact h
    · right
      have := wellSep_tol hsep hmu (List.mem_append_left _ hx) h
      rw [abs_of_neg (sub_neg.mpr h), neg_sub]; exact this
  have hmulti := C17_multiplicity_exact (U := c.knots) (u := u) hne hpw
    ((hm 0 p (by omega) (by omega)).trans h0.le) (by
      have e : c.knots.length - 1 = n + p + 1 := by omega
      rw [e]
      exact h1.le.trans (hm (n + 1) (n + p + 1) (by omega) (by omega))) hks
  have b1 : isLessThanOrEqual u (nth c.knots p) = false := by
    rw [isLessThanOrEqual_eq_not, sep_isLessThan hsep (hmem p (by omega)) hmu h0]; rfl
  have b2 : isGreaterThanOrEqual u (nth c.knots (n + 1)) = false := by
    rw [isGreaterThanOrEqual_eq_not, sep_isLessThan hsep hmu (hmem (n + 1) (by omega)) h1]; rfl
  have e1 : vget c.knots c.degree = ok (nth c.knots p) := vget_nth w.degree (by omega)
  have e2 : vget c.knots ((c.knots.length : ℤ) - c.degree - 1) = ok (nth c.knots (n + 1)) :=
    vget_nth (by rw [w.degree]; omega) (by omega)
  -- the run up to the refinement
  have hstart : ∀ left : BsplineCurve K T,
      (if ((p : ℤ) + 1 - (c.knots.count u : ℕ)) < 0 then ub
        else if ((p : ℤ) + 1 - (c.knots.count u : ℕ)) > 0 then refineKnotVector c (List.replicate ((p : ℤ) + 1 - (c.knots.count u : ℕ)).toNat u)
        else ok c : Res (BsplineCurve K T)) = ok left →
      splitAt c u = splitTail (p : ℤ) left u >>= fun lr => ok (some lr) := by
    intro left hl
    unfold splitAt
    dsimp only
    rw [e1, ok_bind]
    simp only [b1, Bool.false_eq_true, if_false]
    rw [e2]
    simp only [ok_bind, b2, Bool.false_eq_true, if_false, hmulti, w.degree]
    rw [hl]
    rfl
  by_cases hc : c.knots.count u = p + 1
  · have hl := hstart c (by rw [if_neg (by omega), if_neg (by omega)])
    obtain ⟨l, r, nl, nr, k, hrun, wl, wr, g1, g2, g3, g4, g5, g6, _⟩ := split_refined w he h0 h1 hc hsep
    refine ⟨l, r, nl, nr, by rw [hl, hrun]; rfl, wl, wr, g1, g2, g3, g4, g5, g6, fun h => by omega⟩
  · obtain ⟨m, hm'⟩ : ∃ m, c.knots.count u + (m + 1) = p + 1 := ⟨p - c.knots.count u, by omega⟩
    set X := List.replicate (m + 1) u with hX
    have hXl : X.length = m + 1 := by rw [hX, List.length_replicate]
    have hXn : ∀ i, i < X.length → nth X i = u := fun i hi => nth_replicate (by omega)
    have hsepX : WellSeparated (c.knots ++ X) := by
      have hsub : ∀ x ∈ c.knots ++ X, x ∈ c.knots ++ [u] := by
        intro x hx
        rcases List.mem_append.mp hx with h | h
        · exact List.mem_append_left _ h
        · rw [List.eq_of_mem_replicate h]; exact hmu
      exact fun x hx y hy => hsep x (hsub x hx) y (hsub y hy)
    obtain ⟨c1, r1, w1, he1, perm, ep, en, hcur, W, A, i0, hi0, hone⟩ := refineKnotVector_run (X := X) w he (by rw [hX]; simp)
      (fun i hi => by rw [hXn i hi]; exact h0) (fun i hi => by rw [hXn i hi]; exact h1)
      (fun a b _ hb => by rw [hXn a (by omega), hXn b hb]) hsepX
    have hl := hstart c1 (by
      rw [if_neg (by omega), if_pos (by omega)]
      have : ((p : ℤ) + 1 - (c.knots.count u : ℕ)).toNat = m + 1 := by omega
      rw [this]; exact r1)
    rw [hXl] at w1 he1 en hcur hi0 hone
    rw [hXn 0 (by omega)] at hone
    have hcnt : c1.knots.count u = p + 1 := by
      rw [perm.count_eq, List.count_append, hX, List.count_replicate_self]; exact hm'
    have hsep1 : WellSeparated (c1.knots ++ [u]) := by
      have hsub : ∀ x ∈ c1.knots ++ [u], x ∈ c.knots ++ X := by
        intro x hx
        rcases List.mem_append.mp hx with h | h
        · exact perm.mem_iff.mp h
        · rw [List.mem_singleton] at h
          rw [h, hX]
          exact List.mem_append_right _ (by simp)
      exact fun x hx y hy => hsepX x (hsub x hx) y (hsub y hy)
    obtain ⟨l, r, nl, nr, k, hrun, wl, wr, g1, g2, g3, g4, g5, g6, g7, g8, hpk, hkn, hblk, hlo, hhi⟩ :=
      split_refined w1 he1 (by rw [ep]; exact h0) (by rw [en]; exact h1) hcnt hsep1
    have heq : ∀ t, nth c.knots p ≤ t → t ≤ nth c.knots (n + 1) → c1.pointOnCurve t = c.pointOnCurve t := by
      intro t ht0 ht1
      rw [C05_eval w he ht0 ht1, C05_eval w1 he1 (by rw [ep]; exact ht0) (by rw [en]; exact ht1), hcur t ht0 ht1]
    refine ⟨l, r, nl, nr, by rw [hl, hrun]; rfl, wl, wr, by rw [g1, ep], g2, g3, by rw [g4, en], ?_, ?_, ?_⟩
    · intro t ht0 ht1
      rw [g5 t (by rw [ep]; exact ht0) ht1, heq t ht0 (ht1.le.trans h1.le)]
    · intro t ht0 ht1
      rw [g6 t ht0 (by rw [en]; exact ht1), heq t (h0.le.trans ht0) ht1]
    · intro _
      rw [← heq u h0.le h1.le, g7, g8]
      congr 1
      have hx := (hblk (i0 + 1) (by omega)).mp hone.kx
      obtain ⟨j0, e⟩ : ∃ j0, k - p = j0 + 1 := ⟨k - p - 1, by omega⟩
      rw [e, Nat.add_sub_cancel]
      have hWhi : ∀ i, i0 < i → i ≤ n + (m + 1) - 1 + p + 1 → W i = nth c1.knots (i + 1) := by
        intro i a b
        rw [hone.khi (i + 1) (by omega) (by omega)]; rfl
      refine hone.double hp (by omega) (by omega) (by omega) ?_ ?_ ?_
      · intro j hj1 hj2
        by_cases hc2 : j0 + j ≤ i0
        · rw [← hone.klo _ hc2]; exact (hblk _ (by omega)).mpr ⟨by omega, by omega⟩
        · rw [hWhi _ (by omega) (by omega)]; exact (hblk _ (by omega)).mpr ⟨by omega, by omega⟩
      · rw [← hone.klo _ (by omega)]; exact hlo _ (by omega) (by omega)
      · rw [hWhi _ (by omega) (by omega)]; exact hhi _ (by omega) (by omega)

/-- C23: parameters at or beyond the ends of the domain are refused. -/
theorem C23_refuses {c : BsplineCurve K T} {p n : ℕ} {u : K} (w : WellFormed c p n)
    (h : u ≤ nth c.knots p ∨ nth c.knots (n + 1) ≤ u) : splitAt c u = ok none := by
  have hU := w.knots
  have hpn := w.pn
  have e1 : vget c.knots c.degree = ok (nth c.knots p) := vget_nth w.degree (by omega)
  have e2 : vget c.knots ((c.knots.length : ℤ) - c.degree - 1) = ok (nth c.knots (n + 1)) :=
    vget_nth (by rw [w.degree]; omega) (by omega)
  unfold splitAt
  dsimp only
  rw [e1, ok_bind]
  by_cases hb : isLessThanOrEqual u (nth c.knots p) = true
  · simp [hb]
  · have hb' : isLessThanOrEqual u (nth c.knots p) = false := by simpa using hb
    have h2 : nth c.knots (n + 1) ≤ u := by
      rcases h with h | h
      · exfalso
        rw [isLessThanOrEqual_eq_not] at hb'
        have : isLessThan (nth c.knots p) u = true := by simpa using hb'
        exact absurd (lt_of_isLessThan doubleEps_pos this) (not_lt.mpr h)
      · exact h
    have h3 : isGreaterThanOrEqual u (nth c.knots (n + 1)) = true := by
      rw [isGreaterThanOrEqual_eq_not]
      by_contra hcon
      have : isLessThan u (nth c.knots (n + 1)) = true := by simpa using hcon
      exact absurd (lt_of_isLessThan doubleEps_pos this) (not_lt.mpr h2)
    simp [hb', e2, h3]

example : WellSeparated (exCurve.knots ++ [1/3, 1/3, 1/2, 3/4]) ∧ ([1/3, 1/3, 1/2, 3/4] : List ℚ).Pairwise (· ≤ ·) := by
  unfold WellSeparated; decide +kernel

/-- the hypotheses of `C23_split` and `C57_refine` are met by `exCurve` -/
example : ∃ l r, splitAt exCurve (1/3 : ℚ) = ok (some (l, r)) := by
  obtain ⟨l, r, _, _, h, _⟩ := C23_split (u := (1/3 : ℚ)) exCurve_wf exKnots_ends (by unfold WellSeparated; decide +kernel)
    (by decide +kernel) (by decide +kernel) (by decide +kernel)
  exact ⟨l, r, h⟩

example : ∃ c', refineKnotVector exCurve [1/3, 1/3, 1/2, 3/4] = ok c' := by
  obtain ⟨c', h, _⟩ := C57_refine (X := [1/3, 1/3, 1/2, 3/4]) exCurve_wf exKnots_ends (by decide) (by decide +kernel)
    (by decide +kernel) (by unfold WellSeparated; decide +kernel)
  exact ⟨c', h⟩

end LNLib.Props
