import Verif.Lemmas.DecompRun
import Verif.Props.Curve

/-!
# C40: decomposition into Bézier pieces (Geometry/Curve/NurbsCurve.cpp, `DecomposeToBeziers`)
-/
set_option linter.unusedSectionVars false

namespace LNLib.Props
open LNLib Res Spec Finset

variable {K : Type} [Field K] [LinearOrder K] [IsStrictOrderedRing K]
variable {T : Type} [AddCommGroup T] [Module K T]

section
variable {p : ℕ}

theorem bezKnots_nth (i : ℕ) : nth (List.replicate (p + 1) (0 : K) ++ List.replicate (p + 1) 1) i
    = if i ≤ p then 0 else if i ≤ 2 * p + 1 then 1 else 0 := by
  by_cases h : i ≤ p
  · rw [if_pos h, nth_append_left (by simp; omega), nth_replicate (by omega)]
  · rw [if_neg h, nth_append_right (by simp; omega)]
    by_cases h2 : i ≤ 2 * p + 1
    · rw [if_pos h2, List.length_replicate, nth_replicate (by omega)]
    · rw [if_neg h2, nth_ge (by simp; omega)]

theorem bezKnots_wf {b : BsplineCurve K T} (hp : 0 < p) (h7 : p ≤ 7) (hd : b.degree = p)
    (hk : b.knots = List.replicate (p + 1) 0 ++ List.replicate (p + 1) 1) (hc : b.cps.length = p + 1) : WellFormed b p p := by
  refine ⟨hd, hp, h7, hc, le_refl _, by rw [hk]; simp; omega, ?_⟩
  intro i j hij hj
  rw [hk] at hj ⊢
  simp only [List.length_append, List.length_replicate] at hj
  rw [bezKnots_nth, bezKnots_nth]
  by_cases h1 : i ≤ p
  · rw [if_pos h1]
    split
    · exact le_refl _
    · split
      · exact zero_le_one
      · exact le_refl _
  · rw [if_neg h1, if_pos (by omega), if_neg (by omega), if_pos (by omega)]

theorem bezKnots_ends : EndsSeparated (nth (List.replicate (p + 1) (0 : K) ++ List.replicate (p + 1) 1)) p p := by
  have h : (1 : K) / 1000000 * (1 + 1) < 1 := by norm_num
  constructor <;>
  · rw [bezKnots_nth, bezKnots_nth, if_pos (le_refl _), if_neg (by omega), if_pos (by omega)]
    simp only [abs_zero, abs_one, sub_zero]
    rw [max_eq_right zero_le_one]
    exact h

/-- a Bézier curve whose points are values of a polar form at the ends of an interval -/
theorem bez_eval {b : BsplineCurve K T} {f : Multiset K → T} {x y : K} (hf : Polar p f) (hp : 0 < p) (h7 : p ≤ 7) (hd : b.degree = p)
    (hk : b.knots = List.replicate (p + 1) 0 ++ List.replicate (p + 1) 1) (hc : b.cps.length = p + 1)
    (hv : ∀ i, i ≤ p → nth b.cps i = f (Multiset.replicate (p - i) x + Multiset.replicate i y)) {t : K} (h0 : 0 ≤ t) (h1 : t ≤ 1) :
    b.pointOnCurve t = ok (f (Multiset.replicate p ((1 - t) * x + t * y))) := by
  have w := bezKnots_wf hp h7 hd hk hc
  have he : EndsSeparated (nth b.knots) p p := by rw [hk]; exact bezKnots_ends
  have k0 : ∀ i, i ≤ p → nth b.knots i = 0 := fun i hi => by rw [hk, bezKnots_nth, if_pos hi]
  have k1 : ∀ i, p < i → i ≤ 2 * p + 1 → nth b.knots i = 1 := fun i hi hi' => by rw [hk, bezKnots_nth, if_neg (by omega), if_pos hi']
  rw [pointOnCurve_eq w he (by rw [k0 p (le_refl _)]; exact h0) (by rw [k1 (p + 1) (by omega) (by omega)]; exact h1)]
  have hpiece : Piece (nth b.knots) p p := ⟨le_refl _, fun i j hij hj => wf_monoTo w i j hij (by omega), by
    rw [k0 p (le_refl _), k1 (p + 1) (by omega) (by omega)]; exact zero_lt_one⟩
  have hspan : IsSpan (nth b.knots) p p t p := by
    refine ⟨le_refl _, le_refl _, hpiece.lt, by rw [k0 p (le_refl _)]; exact h0, ?_⟩
    rw [k1 (p + 1) (by omega) (by omega)]
    rcases h1.lt_or_eq with h | h
    · exact Or.inl h
    · exact Or.inr ⟨h, rfl⟩
  rw [curvePoint_span (wf_monoTo w) (le_refl _) hspan, pol_diag hpiece]
  have hg : Polar p (fun m => f (m.map fun s => (1 - s) * x + s * y)) := by
    intro a c u v m hac hm
    simp only [Multiset.map_cons]
    have e : (1 - (a * u + c * v)) * x + (a * u + c * v) * y = a * ((1 - u) * x + u * y) + c * ((1 - v) * x + v * y) := by
      obtain rfl : c = 1 - a := by rw [← hac]; ring
      ring
    rw [e]
    exact hf a c _ _ _ hac (by simpa using hm)
  rw [pol_unique hpiece hg _ (by simp)]
  · simp
  · intro j hj1 hj2
    rw [hv j hj2]
    have e : kms (nth b.knots) (j + 1) p = Multiset.replicate (p - j) 0 + Multiset.replicate j 1 := by
      have ep : p = (p - j) + j := by omega
      conv_lhs => rw [ep]
      rw [kms_add, kms_const (x := 0) (fun i hi => k0 _ (by omega)), kms_const (x := 1) (fun i hi => k1 _ (by omega) (by omega))]
    rw [e]
    simp

end

/-- C40 (the part that holds): for every well-formed clamped curve whose knots are equal or clearly
apart and whose interior knots are repeated fewer than `p` times, `DecomposeToBeziers` terminates
and returns exactly one Bézier curve per nonempty knot span, in order; each one is a well-formed
curve on [0,1] that traces the original curve over that span.  Missing: interior knots of
multiplicity `p` and degree one with interior knots, see the two refutations below. -/
theorem C40_decompose_partial {c : BsplineCurve K T} {p n fuel : ℕ} (w : WellFormed c p n) (he : EndsSeparated (nth c.knots) p n)
    (hc : ClampedEnds (nth c.knots) p n) (hs : WellSeparated c.knots)
    (hmul : ∀ x, nth c.knots p < x → x < nth c.knots (n + 1) → c.knots.count x < p) (hf : c.knots.length ≤ fuel) :
    ∃ bs, decomposeToBeziers fuel c = ok bs ∧ List.Forall₂ (fun (s : ℕ) (b : BsplineCurve K T) => WellFormed b p p ∧
        b.knots = List.replicate (p + 1) 0 ++ List.replicate (p + 1) 1 ∧
        ∀ t, 0 ≤ t → t ≤ 1 → b.pointOnCurve t = c.pointOnCurve ((1 - t) * nth c.knots s + t * nth c.knots (s + 1)))
      ((List.range (n + 1)).filter fun s => decide (p ≤ s ∧ nth c.knots s < nth c.knots (s + 1))) bs := by
  have hp := w.pos
  have hpn := w.pn
  have hlen := w.knots
  have h := knotShape_of (q := p - 1) w he hc hs (fun x h1 h2 => by have := hmul x h1 h2; omega)
  obtain ⟨bs, hrun, hbs⟩ := decomposeToBeziers_run (fuel := fuel) rfl rfl w.degree h (by omega) w.cps (by omega)
  refine ⟨bs, hrun, ?_⟩
  have hspans : ((List.range (n + 1)).filter fun s => decide (p ≤ s ∧ nth c.knots s < nth c.knots (s + 1)))
      = spansFrom (nth c.knots) p (n + 1 - p) := by
    have e : List.range (n + 1) = List.range' 0 p ++ List.range' p (n + 1 - p) := by
      have := List.range'_append_1 (s := 0) (m := p) (n := n + 1 - p)
      rw [zero_add] at this
      rw [this, List.range_eq_range']
      congr 1; omega
    rw [e, List.filter_append]
    have e1 : (List.range' 0 p).filter (fun s => decide (p ≤ s ∧ nth c.knots s < nth c.knots (s + 1))) = [] := by
      rw [List.filter_eq_nil_iff]
      intro s hs
      rw [List.mem_range'_1] at hs
      rw [decide_eq_true_eq]
      omega
    rw [e1, List.nil_append]
    unfold spansFrom
    apply List.filter_congr
    intro s hs
    rw [List.mem_range'_1] at hs
    simp [hs.1]
  rw [hspans]
  have hmem : ∀ s ∈ spansFrom (nth c.knots) p (n + 1 - p), p ≤ s ∧ s ≤ n ∧ nth c.knots s < nth c.knots (s + 1) := by
    intro s hs
    unfold spansFrom at hs
    rw [List.mem_filter, List.mem_range'_1, decide_eq_true_eq] at hs
    exact ⟨hs.1.1, by omega, hs.2⟩
  have hboth : List.Forall₂ (fun (s : ℕ) (b : BsplineCurve K T) => (p ≤ s ∧ s ≤ n ∧ nth c.knots s < nth c.knots (s + 1)) ∧
      b.degree = p ∧ b.knots = List.replicate (p + 1) 0 ++ List.replicate (p + 1) 1 ∧ IsBez c.knots c.cps p s b.cps)
      (spansFrom (nth c.knots) p (n + 1 - p)) bs := by
    rw [List.forall₂_and_left]
    exact ⟨hmem, hbs⟩
  refine hboth.imp ?_
  rintro s b ⟨⟨s1, s2, s3⟩, b1, b2, b3, b4⟩
  refine ⟨bezKnots_wf hp w.le7 b1 b2 b3, b2, ?_⟩
  intro t ht0 ht1
  rw [bez_eval (pol_polar (P := nth c.cps) (h.piece s1 s2 s3)) hp w.le7 b1 b2 b3 b4 ht0 ht1]
  have m0 := h.mono p s s1 (by omega)
  have m1 := h.mono (s + 1) (n + 1) (by omega) (by omega)
  have hx0 : nth c.knots s ≤ (1 - t) * nth c.knots s + t * nth c.knots (s + 1) := by nlinarith
  have hx1 : (1 - t) * nth c.knots s + t * nth c.knots (s + 1) ≤ nth c.knots (s + 1) := by nlinarith
  rw [C05_eval w he (by linarith) (by linarith), h.curve_closed (by omega) s1 s2 s3 hx0 hx1]

/-- C40 is violated: with degree one and at least one interior knot the main loop never ends, whatever
the (valid, clamped) curve. -/
theorem C40_linear_diverges {c : BsplineCurve K T} {n : ℕ} (fuel : ℕ) (w : WellFormed c 1 n) (he : EndsSeparated (nth c.knots) 1 n)
    (hc : ClampedEnds (nth c.knots) 1 n) (hs : WellSeparated c.knots)
    (hmul : ∀ x, nth c.knots 1 < x → x < nth c.knots (n + 1) → c.knots.count x ≤ 2) (hn : 1 < n) :
    decomposeToBeziers fuel c = diverge :=
  decompose_linear_diverges fuel rfl rfl w.degree (knotShape_of w he hc hs hmul) (le_refl _) hn w.cps

/-- C40 for rational curves: the pieces trace the projected curve. -/
theorem C40_decompose_rational_partial {c : NurbsCurve K} {p n fuel : ℕ} (w : WellFormed c p n) (he : EndsSeparated (nth c.knots) p n)
    (hc : ClampedEnds (nth c.knots) p n) (hs : WellSeparated c.knots)
    (hmul : ∀ x, nth c.knots p < x → x < nth c.knots (n + 1) → c.knots.count x < p) (hf : c.knots.length ≤ fuel) :
    ∃ bs, decomposeToBeziers fuel c = ok bs ∧ List.Forall₂ (fun (s : ℕ) (b : NurbsCurve K) => WellFormed b p p ∧
        ∀ t, 0 ≤ t → t ≤ 1 → NurbsCurve.pointOnCurve b t = NurbsCurve.pointOnCurve c ((1 - t) * nth c.knots s + t * nth c.knots (s + 1)))
      ((List.range (n + 1)).filter fun s => decide (p ≤ s ∧ nth c.knots s < nth c.knots (s + 1))) bs := by
  obtain ⟨bs, h1, h2⟩ := C40_decompose_partial w he hc hs hmul hf
  refine ⟨bs, h1, h2.imp ?_⟩
  rintro s b ⟨b1, _, b3⟩
  refine ⟨b1, ?_⟩
  intro t h0 h1
  unfold NurbsCurve.pointOnCurve
  rw [b3 t h0 h1]

theorem count_of_mem {U : List K} {q : ℕ} {lo hi : K} (hq : 0 < q) (h : ∀ x ∈ U, lo < x → x < hi → U.count x < q) :
    ∀ x, lo < x → x < hi → U.count x < q := by
  intro x h1 h2
  by_cases hx : x ∈ U
  · exact h x hx h1 h2
  · rw [List.count_eq_zero_of_not_mem hx]; exact hq

/-- a cubic with a double interior knot -/
def exDecomp : BsplineCurve ℚ ℚ := ⟨3, [0, 0, 0, 0, 1, 1, 2, 3, 3, 3, 3], [1, 5, 2, -3, 4, 7, 1]⟩
/-- a polyline -/
def exPolyline : BsplineCurve ℚ ℚ := ⟨1, [0, 0, 1, 2, 2], [1, 5, 2]⟩
/-- a cubic with a triple interior knot -/
def exTriple : BsplineCurve ℚ ℚ := ⟨3, [0, 0, 0, 0, 1, 1, 1, 2, 2, 2, 2], [1, 5, 2, -3, 4, 7, 1]⟩

theorem wellFormed_of_check {c : BsplineCurve K T} {p n : ℕ} (h1 : c.degree = p) (h2 : 0 < p ∧ p ≤ 7 ∧ p ≤ n) (h3 : c.cps.length = n + 1)
    (h4 : c.knots.length = n + p + 2) (h5 : isValidKnotVector c.knots = true) : WellFormed c p n :=
  ⟨h1, h2.1, h2.2.1, h3, h2.2.2, h4, isValidKnotVector_nth.mp h5⟩

theorem exDecomp_wf : WellFormed exDecomp 3 6 :=
  wellFormed_of_check rfl (by decide) rfl rfl (by decide +kernel)

/-- the hypotheses of `C40_decompose_partial` are met by `exDecomp`: three pieces -/
example : ∃ bs, decomposeToBeziers 11 exDecomp = ok bs ∧ bs.length = 3 := by
  obtain ⟨bs, h1, h2⟩ := C40_decompose_partial (fuel := 11) exDecomp_wf ⟨by decide +kernel, by decide +kernel⟩
    ⟨by decide +kernel, by decide +kernel⟩ (by unfold WellSeparated; decide +kernel) (count_of_mem (by decide) (by decide +kernel)) (by decide)
  refine ⟨bs, h1, ?_⟩
  rw [← h2.length_eq]
  decide +kernel

/-- the hypotheses of `C40_linear_diverges` are met by `exPolyline` -/
example : ∀ fuel, decomposeToBeziers fuel exPolyline = diverge := fun fuel =>
  C40_linear_diverges (n := 2) fuel (wellFormed_of_check rfl (by decide) rfl rfl (by decide +kernel)) ⟨by decide +kernel, by decide +kernel⟩
    ⟨by decide +kernel, by decide +kernel⟩ (by unfold WellSeparated; decide +kernel)
    (fun x h1 h2 => Nat.lt_succ_iff.mp (count_of_mem (q := 3) (by decide) (by decide +kernel) x h1 h2)) (by decide)

/-- C40 is violated: at an interior knot of full multiplicity (here a cubic with a triple knot, a
valid clamped curve) the second piece does not trace the curve. -/
theorem C40_full_multiplicity_violated :
    WellFormed exTriple 3 6 ∧ EndsSeparated (nth exTriple.knots) 3 6 ∧ ClampedEnds (nth exTriple.knots) 3 6 ∧
    ∃ b0 b1 : BsplineCurve ℚ ℚ, decomposeToBeziers 100 exTriple = ok [b0, b1] ∧
      b0.pointOnCurve (1 / 2) = exTriple.pointOnCurve (1 / 2) ∧ b1.pointOnCurve (1 / 2) ≠ exTriple.pointOnCurve (3 / 2) := by
  refine ⟨wellFormed_of_check rfl (by decide) rfl rfl (by decide +kernel), ⟨by decide +kernel, by decide +kernel⟩,
    ⟨by decide +kernel, by decide +kernel⟩, ⟨3, [0, 0, 0, 0, 1, 1, 1, 1], [1, 5, 2, -3]⟩, ⟨3, [0, 0, 0, 0, 1, 1, 1, 1], [-3, -3, 7, 1]⟩, ?_⟩
  decide +kernel

end LNLib.Props
