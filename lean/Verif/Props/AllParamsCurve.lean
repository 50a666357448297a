import Verif.Model.AllParamsCurve
import Verif.Props.IsArc
import Verif.Props.SurfaceNearest

/-!
# C153: all parameters of a point on a curve
-/
set_option linter.unusedSectionVars false

namespace LNLib.Props
open LNLib Res LNLib.Spec Finset

/-- the value at `k` is not larger than those at its neighbours among `0, …, L - 1` -/
def LocalMin (d : ℕ → ℝ) (L k : ℕ) : Prop := (0 < k → d k ≤ d (k - 1)) ∧ (k + 1 < L → d k ≤ d (k + 1))

open Classical in
/-- the starting points are the samples that are local minima of the distance -/
theorem curveGuesses_run {pts : List (XYZ ℝ)} {params : List ℝ} {P : XYZ ℝ} (hl : pts.length = params.length) :
    curveGuesses pts params P =
      ok (((List.range params.length).filter fun k => decide (LocalMin (fun k => (P - nth pts k).dot (P - nth pts k)) params.length k)).map (nth params)) := by
  unfold curveGuesses
  have dl : ∀ k, k < params.length → vget (pts.map fun x => (P - x).dot (P - x)) (k : ℤ) = ok ((P - nth pts k).dot (P - nth pts k)) := by
    intro k hk
    rw [vget_nth (k := k) rfl (by simp; omega), nth_map (by omega)]
  dsimp only
  apply Runs.eq
  refine (Runs.forN (m := 0) (n := params.length) (fun i (g : List ℝ) =>
    g = ((List.range i).filter fun k => decide (LocalMin (fun k => (P - nth pts k).dot (P - nth pts k)) params.length k)).map (nth params)) rfl (by omega) (by omega) rfl ?_).mono (fun _ h => h)
  rintro i g - hi rfl
  rw [dl i hi, ok_bind]
  have e1 : ((if (i : ℤ) > 0 then do
        let e ← vget (pts.map fun x => (P - x).dot (P - x)) ((i : ℤ) - 1)
        ok (decide ((P - nth pts i).dot (P - nth pts i) > e))
      else ok false : Res Bool)) = ok (decide (0 < i ∧ (P - nth pts (i - 1)).dot (P - nth pts (i - 1)) < (P - nth pts i).dot (P - nth pts i))) := by
    by_cases h : 0 < i
    · rw [if_pos (by exact_mod_cast h), show (i : ℤ) - 1 = ((i - 1 : ℕ) : ℤ) by push_cast [Nat.cast_sub h]; ring, dl _ (by omega), ok_bind]
      simp [h]
    · rw [if_neg (by omega)]
      simp [h]
  have e2 : ((if (i : ℤ) < (pts.length : ℤ) - 1 then do
        let e ← vget (pts.map fun x => (P - x).dot (P - x)) ((i : ℤ) + 1)
        ok (decide ((P - nth pts i).dot (P - nth pts i) > e))
      else ok false : Res Bool)) = ok (decide (i + 1 < params.length ∧ (P - nth pts (i + 1)).dot (P - nth pts (i + 1)) < (P - nth pts i).dot (P - nth pts i))) := by
    by_cases h : i + 1 < params.length
    · rw [if_pos (by omega), show (i : ℤ) + 1 = ((i + 1 : ℕ) : ℤ) by push_cast; ring, dl _ (by omega), ok_bind]
      simp [h]
    · rw [if_neg (by omega)]
      simp [h]
  rw [e1, ok_bind, e2, ok_bind, vget_nth (k := i) rfl hi, List.range_succ, List.filter_append, List.map_append]
  by_cases h : LocalMin (fun k => (P - nth pts k).dot (P - nth pts k)) params.length i
  · rw [if_neg, ok_bind]
    · refine Runs.ok ?_
      congr 1
      simp [h]
    · rw [Bool.or_eq_true, decide_eq_true_iff, decide_eq_true_iff]
      rintro (⟨h1, h2⟩ | ⟨h1, h2⟩)
      · exact absurd (h.1 h1) (not_le.mpr h2)
      · exact absurd (h.2 h1) (not_le.mpr h2)
  · rw [if_pos]
    · refine Runs.ok ?_
      simp [h]
    · rw [Bool.or_eq_true, decide_eq_true_iff, decide_eq_true_iff]
      by_contra hn
      rw [not_or, not_and, not_and] at hn
      exact h ⟨fun h1 => not_lt.mp (hn.1 h1), fun h1 => not_lt.mp (hn.2 h1)⟩

/-- `T` is the result of an unclamped Newton step of about `1e-6` (measured in space) from `T0` -/
def TinyStep (c : NurbsCurve ℝ) (P : XYZ ℝ) (T0 T : ℝ) : Prop :=
  ∃ C C1 C2 : XYZ ℝ, NurbsCurve.rationalDerivatives c 2 T0 = ok [C, C1, C2] ∧
    T = T0 - C1.dot (C - P) / (C1.dot C1 + (C - P).dot C2) ∧ |(T0 - T) * C1.length| ≤ 1 / 1000000 * (1 + |(T0 - T) * C1.length|)

theorem newtonRoundAll_run {c : NurbsCurve ℝ} {P : XYZ ℝ} {lo hi t : ℝ} {l : List (XYZ ℝ)} (h : lo < hi) (ht : lo ≤ t ∧ t ≤ hi)
    (e : NurbsCurve.rationalDerivatives c 2 t = ok l) (hl : l.length = 3) :
    Runs (newtonRoundAll c P false lo hi t) (fun r => (lo ≤ r.1 ∧ r.1 ≤ hi) ∨ (r.2 = true ∧ TinyStep c P t r.1)) := by
  unfold newtonRoundAll
  rw [e, ok_bind, vget_nth (i := 0) (k := 0) rfl (by omega), ok_bind, vget_nth (i := 1) (k := 1) rfl (by omega), ok_bind,
    vget_nth (i := 2) (k := 2) rfl (by omega), ok_bind]
  dsimp only
  have hl3 : l = [nth l 0, nth l 1, nth l 2] := by
    refine ext_nth (by rw [hl]; rfl) fun i hi => ?_
    rw [hl] at hi
    interval_cases i <;> rfl
  obtain ⟨C, hC⟩ : ∃ C, nth l 0 = C := ⟨_, rfl⟩
  obtain ⟨C1, hC1⟩ : ∃ C, nth l 1 = C := ⟨_, rfl⟩
  obtain ⟨C2, hC2⟩ : ∃ C, nth l 2 = C := ⟨_, rfl⟩
  rw [hC, hC1, hC2] at hl3 ⊢
  by_cases h1 : isAlmostEqualTo (C - P).length 0 = true
  · rw [if_pos h1]; exact Runs.ok (Or.inl ht)
  by_cases h2 : isAlmostEqualTo |C1.dot C1 + (C - P).dot C2| 0 = true
  · rw [if_neg h1, if_pos h2]; exact Runs.ok (Or.inl ht)
  · rw [if_neg h1, if_neg h2]
    have hdf : C1.dot C1 + (C - P).dot C2 ≠ 0 := by
      intro h0
      rw [h0, abs_zero, almost_zero_iff le_rfl] at h2
      exact h2 (by norm_num)
    rw [fdiv_ok hdf, ok_bind]
    split_ifs with h3
    · refine Runs.ok (Or.inr ⟨rfl, C, C1, C2, by rw [e, hl3], rfl, ?_⟩)
      rw [sub_sub_cancel]
      rw [almost_zero_iff (abs_nonneg _)] at h3
      exact h3
    · unfold backIntoTol
      exact Runs.ok (Or.inl ⟨le_max_left _ _, max_le h.le (min_le_left _ _)⟩)

/-- the result of the rounds from one starting point -/
theorem newtonLoopAll_run {c : NurbsCurve ℝ} {p n : ℕ} (w : WellFormed c p n) (he : EndsSeparated (nth c.knots) p n)
    (hw : ∀ i, i ≤ n → 0 < (nth c.cps i).w) (P : XYZ ℝ) {t0 : ℝ} (h0 : nth c.knots p ≤ t0 ∧ t0 ≤ nth c.knots (n + 1)) :
    Runs (newtonLoopAll c P false (nth c.knots p) (nth c.knots (n + 1)) t0) (fun r => (nth c.knots p ≤ r.1 ∧ r.1 ≤ nth c.knots (n + 1)) ∨
      ∃ T0, nth c.knots p ≤ T0 ∧ T0 ≤ nth c.knots (n + 1) ∧ TinyStep c P T0 r.1) := by
  have hlt := clamped_lt w he
  unfold newtonLoopAll
  refine (Runs.forN (m := 0) (n := 20) (fun _ (r : ℝ × Bool) => (nth c.knots p ≤ r.1 ∧ r.1 ≤ nth c.knots (n + 1)) ∨
    (r.2 = true ∧ ∃ T0, nth c.knots p ≤ T0 ∧ T0 ≤ nth c.knots (n + 1) ∧ TinyStep c P T0 r.1)) rfl rfl (by omega) (Or.inl h0) ?_).mono (fun _ h => h.imp id And.right)
  rintro i ⟨t, d⟩ - - h
  dsimp only at h ⊢
  split_ifs with hdn
  · exact Runs.ok h
  · have ht : nth c.knots p ≤ t ∧ t ≤ nth c.knots (n + 1) := by
      rcases h with h | h
      · exact h
      · exact absurd h.1 hdn
    obtain ⟨s, -, hs⟩ := getKnotSpanIndex_isSpan w.knots w.pn w.sorted he ht.1 ht.2
    have hwt : weightFn (nth c.knots) p n (nth c.cps) t ≠ 0 := by
      obtain ⟨x, hx, hmin⟩ := (range (n + 1)).exists_min_image (fun i => (nth c.cps i).w) ⟨0, by simp⟩
      have hx := mem_range.mp hx
      have := weightFn_ge w he ht.1 ht.2 (fun i hi => hmin i (mem_range.mpr (by omega)))
      have h2 := hw x (by omega)
      linarith
    obtain ⟨l, e, hl3, -⟩ := C20_leibniz w he ht.1 ht.2 hs (d := 2) (by decide) hwt
    refine (newtonRoundAll_run hlt ht e hl3).mono ?_
    rintro r (h | ⟨h1, h2⟩)
    · exact Or.inl h
    · exact Or.inr ⟨h1, t, ht.1, ht.2, h2⟩

/-- the recognition of arcs on a valid curve gives an answer, or divides by zero -/
theorem isArc_cases {c : NurbsCurve ℝ} {p n : ℕ} (w : WellFormed c p n) (he : EndsSeparated (nth c.knots) p n) (hc : ClampedEnds (nth c.knots) p n) :
    isArc c = nonfinite ∨ ∃ r, isArc c = ok r := by
  have hl := w.knots
  have hm := wf_monoTo w
  have hpn := w.pn
  obtain ⟨-, -, b, hb, -⟩ := isClosed_run w he hc
  obtain ⟨pts, params, et, -⟩ := C90_tessellate w he hc
  have hdom : ∀ u, nth c.knots 0 ≤ u → u ≤ nth c.knots (n + p + 1) → ∃ P, NurbsCurve.pointOnCurve c u = ok P := by
    intro u u0 u1
    unfold NurbsCurve.pointOnCurve
    rw [C05_eval w he (by rw [← hc.first]; exact u0) (by rw [hc.last]; exact u1), ok_bind]
    exact ⟨_, rfl⟩
  have hlt : nth c.knots 0 ≤ nth c.knots (n + p + 1) := hm _ _ (by omega) le_rfl
  unfold isArc
  by_cases hlin : isLinear c = true
  · rw [if_pos hlin]; exact Or.inr ⟨_, rfl⟩
  rw [if_neg hlin, vget_nth (i := 0) (k := 0) rfl (by omega), ok_bind, vget_nth (k := n + p + 1) (by omega) (by omega), ok_bind]
  have ha : nth c.knots 0 ≤ arcParam c n p b ∧ arcParam c n p b ≤ nth c.knots (n + p + 1) := by
    unfold arcParam
    split_ifs <;> constructor <;> linarith
  obtain ⟨P0, e0⟩ := hdom _ le_rfl hlt
  obtain ⟨P1, e1⟩ := hdom (1 / 2 * nth c.knots 0 + 1 / 2 * arcParam c n p b) (by linarith) (by linarith)
  obtain ⟨P2, e2⟩ := hdom _ ha.1 ha.2
  unfold arcParam at e1 e2
  rw [e0, ok_bind, hb, ok_bind]
  dsimp only
  rw [e1, ok_bind, e2, ok_bind]
  unfold fdiv
  split_ifs with h
  · exact Or.inl rfl
  · rw [ok_bind, et, ok_bind]
    split_ifs <;> exact Or.inr ⟨_, rfl⟩

/-- everything before the loop over the starting points, for an open curve -/
theorem getAllParamsC_start {c : NurbsCurve ℝ} {p n : ℕ} (w : WellFormed c p n) (he : EndsSeparated (nth c.knots) p n) (hc : ClampedEnds (nth c.knots) p n)
    (hopen : isClosedCurve c = ok false) (P : XYZ ℝ) :
    ∃ pts params guesses, equallyTessellate c = ok (pts, params) ∧ curveGuesses pts params P = ok guesses ∧ guesses ≠ [] ∧
      (∀ x ∈ guesses, nth c.knots p ≤ x ∧ x ≤ nth c.knots (n + 1)) ∧
      getAllParamsOnCurve c P = forI 0 (guesses.length : ℤ) ([] : List ℝ) (fun i result => do
        let guess ← vget guesses i
        let (param, _) ← newtonLoopAll c P false (nth c.knots p) (nth c.knots (n + 1)) guess
        if result.any (fun e => sameParamC false (nth c.knots p) (nth c.knots (n + 1)) e param) then ok result
        else ok (result ++ [param])) := by
  have hl := w.knots
  obtain ⟨pts, params, et, l1, l2, hd, -⟩ := C90_tessellate w he hc
  classical
  have eg := curveGuesses_run (pts := pts) (params := params) (P := P) l1
  refine ⟨pts, params, _, et, eg, ?_, ?_, ?_⟩
  · obtain ⟨k, hk, hmin⟩ := (range params.length).exists_min_image (fun k => (P - nth pts k).dot (P - nth pts k)) ⟨0, by simpa using l2⟩
    have hk := mem_range.mp hk
    apply List.ne_nil_of_mem (a := nth params k)
    rw [List.mem_map]
    refine ⟨k, ?_, rfl⟩
    rw [List.mem_filter, List.mem_range, decide_eq_true_iff]
    exact ⟨hk, fun h => hmin _ (mem_range.mpr (by omega)), fun h => hmin _ (mem_range.mpr h)⟩
  · intro x hx
    rw [List.mem_map] at hx
    obtain ⟨k, hk, rfl⟩ := hx
    rw [List.mem_filter, List.mem_range] at hk
    exact ⟨(hd k hk.1).1, (hd k hk.1).2.1⟩
  · have hcen : notCentre c P = ok () := by
      unfold notCentre
      rcases isArc_cases w he hc with h | ⟨r, h⟩
      · rw [h]
      · rw [h]
        cases r with
        | none => rfl
        | some info =>
          have hi : info.isCircle = false := Res.ok.inj ((C119_sound_partial w he hc h).1.symm.trans hopen)
          dsimp only
          rw [hi]
          rfl
    unfold getAllParamsOnCurve
    rw [hcen, ok_bind, vget_nth (i := 0) (k := 0) rfl (by omega), ok_bind, vget_nth (k := n + p + 1) (by omega) (by omega), ok_bind, hc.first, ← hc.last, hopen, ok_bind, et, ok_bind]
    dsimp only
    rw [eg, ok_bind]

/-- The two parameters differ by more than the comparison tolerance. -/
def DistinctParam (x y : ℝ) : Prop := 1 / 1000000 * (1 + |x - y|) < |x - y|

/-- C153 (partial): on every valid clamped curve with positive weights that is not closed, the search returns at least one parameter for every point; each of them is in the domain (up to a
last Newton step of about 1e-6), and no two of them coincide up to the tolerance.  Missing from the full statement: closed curves; and that all parameters of the point, and no others, are
found, which is false (`C153_all_violated`, `C153_spurious_violated`). -/
theorem C153_distinct_partial {c : NurbsCurve ℝ} {p n : ℕ} (w : WellFormed c p n) (he : EndsSeparated (nth c.knots) p n) (hc : ClampedEnds (nth c.knots) p n)
    (hw : ∀ i, i ≤ n → 0 < (nth c.cps i).w) (hopen : isClosedCurve c = ok false) (P : XYZ ℝ) :
    ∃ l, getAllParamsOnCurve c P = ok l ∧ l ≠ [] ∧ l.Pairwise DistinctParam ∧
      ∀ T ∈ l, (nth c.knots p ≤ T ∧ T ≤ nth c.knots (n + 1)) ∨ ∃ T0, nth c.knots p ≤ T0 ∧ T0 ≤ nth c.knots (n + 1) ∧ TinyStep c P T0 T := by
  obtain ⟨-, -, g, -, -, hne, hd, e⟩ := getAllParamsC_start w he hc hopen P
  rw [e]
  have hpos : 0 < g.length := List.length_pos_iff.mpr hne
  refine (Runs.forN (m := 0) (n := g.length) (fun i (l : List ℝ) => (0 < i → l ≠ []) ∧ l.Pairwise DistinctParam ∧
    ∀ T ∈ l, (nth c.knots p ≤ T ∧ T ≤ nth c.knots (n + 1)) ∨ ∃ T0, nth c.knots p ≤ T0 ∧ T0 ≤ nth c.knots (n + 1) ∧ TinyStep c P T0 T) rfl rfl (by omega)
      ⟨fun h => absurd h (by omega), List.Pairwise.nil, by simp⟩ ?_).mono (fun l h => ⟨h.1 hpos, h.2⟩)
  rintro i l - hi ⟨h1, h2, h3⟩
  rw [vget_nth (k := i) rfl hi, ok_bind]
  obtain ⟨⟨T1, d1⟩, ex, hx⟩ := newtonLoopAll_run w he hw P (t0 := nth g i) (hd _ (by rw [nth_eq_getElem hi]; exact List.getElem_mem _))
  rw [ex, ok_bind]
  dsimp only at hx ⊢
  split_ifs with hany
  · refine Runs.ok ⟨fun _ hl => ?_, h2, h3⟩
    rw [hl] at hany
    simp at hany
  · refine Runs.ok ⟨fun _ => by simp, ?_, ?_⟩
    · rw [List.pairwise_append]
      refine ⟨h2, List.pairwise_singleton _ _, fun a ha b hb => ?_⟩
      rw [List.mem_singleton] at hb
      rw [hb]
      by_contra hs
      refine hany (List.any_eq_true.mpr ⟨a, ha, ?_⟩)
      unfold sameParamC
      dsimp only
      rw [if_neg (by simp), almost_zero_iff (abs_nonneg _)]
      exact not_lt.mp hs
    · intro T hT
      rw [List.mem_append, List.mem_singleton] at hT
      rcases hT with hT | rfl
      · exact h3 T hT
      · exact hx

/-- C153 is violated for every point that is not on the curve: the search is to return the parameters with `C(u) = P`, but the list is never empty. -/
theorem C153_spurious_violated {c : NurbsCurve ℝ} {p n : ℕ} (w : WellFormed c p n) (he : EndsSeparated (nth c.knots) p n) (hc : ClampedEnds (nth c.knots) p n)
    (hw : ∀ i, i ≤ n → 0 < (nth c.cps i).w) (hopen : isClosedCurve c = ok false) {P : XYZ ℝ}
    (hP : ∀ u, nth c.knots p ≤ u → u ≤ nth c.knots (n + 1) → NurbsCurve.pointOnCurve c u ≠ ok P) :
    ∃ l T, getAllParamsOnCurve c P = ok l ∧ T ∈ l ∧ ¬ (nth c.knots p ≤ T ∧ T ≤ nth c.knots (n + 1) ∧ NurbsCurve.pointOnCurve c T = ok P) := by
  obtain ⟨l, e, hne, -⟩ := C153_distinct_partial w he hc hw hopen P
  obtain ⟨T, hT⟩ := List.exists_mem_of_ne_nil l hne
  exact ⟨l, T, e, hT, fun h => hP T h.1 h.2.1 h.2.2⟩

/-- C153: for a closed curve that is recognised as a circle, the centre (up to the tolerance) is rejected. -/
theorem C153_centre {c : NurbsCurve ℝ} {p n : ℕ} {info : ArcInfo} (w : WellFormed c p n) (he : EndsSeparated (nth c.knots) p n) (hc : ClampedEnds (nth c.knots) p n)
    (hclosed : isClosedCurve c = ok true) (harc : isArc c = ok (some info)) {P : XYZ ℝ} (hP : Near info.center P) : getAllParamsOnCurve c P = invalidArg := by
  have hi : info.isCircle = true := Res.ok.inj ((C119_sound_partial w he hc harc).1.symm.trans hclosed)
  unfold getAllParamsOnCurve notCentre
  rw [harc]
  dsimp only
  rw [if_pos hi, almostEq_iff.mpr hP]
  rfl

/-! ### A loop -/

/-- the curve `(s², s³ - s, 0)`, `s = 198 t - 100`, `0 ≤ t ≤ 1`, which passes twice through `(1, 0, 0)` -/
noncomputable def loopCubic : NurbsCurve ℝ :=
  { degree := 3, knots := [0, 0, 0, 0, 1, 1, 1, 1]
    cps := [⟨10000, -999900, 0, 1⟩, ⟨-3200, 980034, 0, 1⟩, ⟨-3332, -960432, 0, 1⟩, ⟨9604, 941094, 0, 1⟩] }

theorem loopCubic_wf : WellFormed loopCubic 3 3 ∧ EndsSeparated (nth loopCubic.knots) 3 3 ∧ ClampedEnds (nth loopCubic.knots) 3 3 := by
  refine ⟨⟨rfl, by omega, by omega, rfl, by omega, rfl, isValidKnotVector_nth.mp (by simp [loopCubic, isValidKnotVector])⟩, ?_, ⟨rfl, rfl⟩⟩
  constructor <;> norm_num [loopCubic, nth]

theorem loopCubic_weights : ∀ i, i ≤ 3 → 0 < (nth loopCubic.cps i).w := by
  intro i hi
  interval_cases i <;> norm_num [loopCubic, nth]

theorem loopCubic_curvePoint {t : ℝ} (t0 : 0 ≤ t) (t1 : t ≤ 1) : (curvePoint (nth loopCubic.knots) 3 3 (nth loopCubic.cps) t).toXYZ =
    ⟨(198 * t - 100) ^ 2, (198 * t - 100) ^ 3 - (198 * t - 100), 0⟩ := by
  rw [curvePoint_bezier (a := 0) (b := 1) (by norm_num) (by intro i hi; interval_cases i <;> rfl) (by intro i hi hi'; interval_cases i <;> rfl) t0 t1]
  have c0 : nth loopCubic.cps 0 = ⟨10000, -999900, 0, 1⟩ := rfl
  have c1 : nth loopCubic.cps 1 = ⟨-3200, 980034, 0, 1⟩ := rfl
  have c2 : nth loopCubic.cps 2 = ⟨-3332, -960432, 0, 1⟩ := rfl
  have c3 : nth loopCubic.cps 3 = ⟨9604, 941094, 0, 1⟩ := rfl
  have hp : bezierPoint 3 (nth loopCubic.cps) ((t - 0) / (1 - 0)) = (⟨(198 * t - 100) ^ 2, (198 * t - 100) ^ 3 - (198 * t - 100), 0, 1⟩ : XYZW ℝ) := by
    rw [sub_zero, sub_zero, div_one]
    unfold bezierPoint
    rw [sum_range_succ, sum_range_succ, sum_range_succ, sum_range_succ, sum_range_zero, c0, c1, c2, c3]
    simp only [bernsteinP, show Nat.choose 3 0 = 1 from rfl, show Nat.choose 3 1 = 3 from rfl, show Nat.choose 3 2 = 3 from rfl, show Nat.choose 3 3 = 1 from rfl]
    ext <;> simp <;> ring
  rw [hp, toXYZ_one]

theorem loopCubic_point {t : ℝ} (t0 : 0 ≤ t) (t1 : t ≤ 1) : NurbsCurve.pointOnCurve loopCubic t =
    ok ⟨(198 * t - 100) ^ 2, (198 * t - 100) ^ 3 - (198 * t - 100), 0⟩ := by
  obtain ⟨w, he, hc⟩ := loopCubic_wf
  unfold NurbsCurve.pointOnCurve
  rw [C05_eval w he t0 t1, ok_bind, loopCubic_curvePoint t0 t1]

theorem loopCubic_open : isClosedCurve loopCubic = ok false := by
  obtain ⟨w, he, hc⟩ := loopCubic_wf
  obtain ⟨-, -, b, e, hb⟩ := isClosed_run w he hc
  rw [e]
  congr 1
  rw [← Bool.not_eq_true, hb]
  have c0 : (nth loopCubic.cps 0).toXYZ = ⟨10000, -999900, 0⟩ := toXYZ_one _ _ _
  have c1 : (nth loopCubic.cps 1).toXYZ = ⟨-3200, 980034, 0⟩ := toXYZ_one _ _ _
  have c2 : (nth loopCubic.cps 2).toXYZ = ⟨-3332, -960432, 0⟩ := toXYZ_one _ _ _
  have c3 : (nth loopCubic.cps 3).toXYZ = ⟨9604, 941094, 0⟩ := toXYZ_one _ _ _
  rintro (h | ⟨k, hk, -, h⟩)
  · rw [c0, c3] at h
    have h1 : |(10000 : ℝ) - 9604| ≤ XYZ.distance (⟨10000, -999900, 0⟩ : XYZ ℝ) ⟨9604, 941094, 0⟩ := by
      unfold XYZ.distance
      apply Real.abs_le_sqrt
      norm_num
    norm_num at h1
    linarith
  · have h := h 0 (by omega)
    rw [c0] at h
    interval_cases k
    · rw [show 3 - 0 + 0 = 3 from rfl, c3] at h; have := h.1; norm_num at this
    · rw [show 3 - 1 + 0 = 2 from rfl, c2] at h; have := h.1; norm_num at this
    · rw [show 3 - 2 + 0 = 1 from rfl, c1] at h; have := h.1; norm_num at this

/-- the squared distance of the sample `k / 99` from `(1, 0, 0)` -/
noncomputable def loopDist (k : ℕ) : ℝ := (4 * ((k : ℝ) - 50) ^ 2 - 1) ^ 2 * (1 + 4 * ((k : ℝ) - 50) ^ 2)

theorem loopDist_step {m : ℝ} (hm : m = 1 ∨ 2 ≤ m) : (4 * (m - 1) ^ 2 - 1) ^ 2 * (1 + 4 * (m - 1) ^ 2) < (4 * m ^ 2 - 1) ^ 2 * (1 + 4 * m ^ 2) := by
  rcases hm with rfl | hm
  · norm_num
  · have hy : 4 ≤ 4 * (m - 1) ^ 2 := by nlinarith
    have hxy : 4 * (m - 1) ^ 2 < 4 * m ^ 2 := by nlinarith
    generalize 4 * (m - 1) ^ 2 = y at hy hxy ⊢
    generalize 4 * m ^ 2 = x at hxy ⊢
    have h1 : (y - 1) ^ 2 < (x - 1) ^ 2 := by nlinarith
    have h2 : 0 ≤ (y - 1) ^ 2 := sq_nonneg _
    nlinarith

theorem loopDist_min {k : ℕ} (hk : k < 100) : LocalMin loopDist 100 k ↔ k = 50 := by
  constructor
  · rintro ⟨h1, h2⟩
    by_contra hne
    rcases Nat.lt_or_ge k 50 with h | h
    · have h2 := h2 (by omega)
      have := loopDist_step (m := 50 - (k : ℝ)) (by
        rcases (by omega : k = 49 ∨ k ≤ 48) with rfl | h
        · left; norm_num
        · right
          have : (k : ℝ) ≤ 48 := by exact_mod_cast h
          linarith)
      unfold loopDist at h2
      push_cast at h2
      have e1 : (4 * (50 - (k : ℝ)) ^ 2) = 4 * ((k : ℝ) - 50) ^ 2 := by ring
      have e2 : (4 * (50 - (k : ℝ) - 1) ^ 2) = 4 * ((k : ℝ) + 1 - 50) ^ 2 := by ring
      rw [e1, e2] at this
      linarith
    · have h1 := h1 (by omega)
      have := loopDist_step (m := (k : ℝ) - 50) (by
        rcases (by omega : k = 51 ∨ 52 ≤ k) with rfl | h
        · left; norm_num
        · right
          have : (52 : ℝ) ≤ k := by exact_mod_cast h
          linarith)
      unfold loopDist at h1
      rw [Nat.cast_sub (by omega)] at h1
      push_cast at h1
      have e2 : (4 * ((k : ℝ) - 50 - 1) ^ 2) = 4 * ((k : ℝ) - 1 - 50) ^ 2 := by ring
      rw [e2] at this
      linarith
  · rintro rfl
    constructor <;> intro _ <;> norm_num [loopDist]

/-- C153 is violated: the loop passes through `(1, 0, 0)` at the parameters `1/2` and `101/198`, but the search returns a single parameter. -/
theorem C153_all_violated : NurbsCurve.pointOnCurve loopCubic (1 / 2) = ok ⟨1, 0, 0⟩ ∧ NurbsCurve.pointOnCurve loopCubic (101 / 198) = ok ⟨1, 0, 0⟩ ∧
    ∃ T, getAllParamsOnCurve loopCubic ⟨1, 0, 0⟩ = ok [T] := by
  obtain ⟨w, he, hc⟩ := loopCubic_wf
  refine ⟨by rw [loopCubic_point (by norm_num) (by norm_num)]; norm_num, by rw [loopCubic_point (by norm_num) (by norm_num)]; norm_num, ?_⟩
  obtain ⟨pts, params, g, et, eg, -, hd, e⟩ := getAllParamsC_start w he hc loopCubic_open ⟨1, 0, 0⟩
  have hW : stdUnique loopCubic.knots = [0, 1] := by
    simp [loopCubic, stdUnique]
  have run := tessellate_run (s := 0) hW w he rfl (by
    intro i j hij hj
    obtain rfl : i = 0 := by omega
    obtain rfl : j = 1 := by omega
    norm_num [nth]) le_rfl le_rfl
  have hpair := Res.ok.inj (et.symm.trans run)
  have hpts := congrArg Prod.fst hpair
  have hpar := congrArg Prod.snd hpair
  dsimp only at hpts hpar
  have hs : ∀ k, k < 100 → sampleAt (nth ([0, 1] : List ℝ)) 99 k = (k : ℝ) / 99 := by
    intro k hk
    have := sampleAt_eq (nth ([0, 1] : List ℝ)) 99 (i := 0) (j := k) hk
    rw [Nat.mul_zero, Nat.zero_add] at this
    rw [this]
    simp [nth]
    ring
  have lp : params.length = 100 := by rw [hpar]; simp
  have lq : pts.length = 100 := by rw [hpts]; simp
  have hdist : ∀ k, k < 100 → ((⟨1, 0, 0⟩ : XYZ ℝ) - nth pts k).dot ((⟨1, 0, 0⟩ : XYZ ℝ) - nth pts k) = loopDist k := by
    intro k hk
    have hk' : (k : ℝ) ≤ 99 := by exact_mod_cast (by omega : k ≤ 99)
    rw [hpts, nth_mapRange (by omega), hs k hk, loopCubic_curvePoint (by positivity) (by linarith)]
    unfold loopDist
    simp [XYZ.dot]
    ring
  have hg : g = [nth params 50] := by
    rw [curveGuesses_run (by rw [lp, lq])] at eg
    rw [← Res.ok.inj eg, lp]
    have : ((List.range 100).filter fun k => @decide (LocalMin (fun k => ((⟨1, 0, 0⟩ : XYZ ℝ) - nth pts k).dot ((⟨1, 0, 0⟩ : XYZ ℝ) - nth pts k)) 100 k) (Classical.propDecidable _)) =
        (List.range 100).filter fun k => decide (k = 50) := by
      apply List.filter_congr
      intro k hk
      rw [List.mem_range] at hk
      rw [decide_eq_decide, ← loopDist_min hk]
      unfold LocalMin
      dsimp only
      rw [hdist k hk]
      constructor
      · rintro ⟨h1, h2⟩
        exact ⟨fun h => by have := h1 h; rw [hdist _ (by omega)] at this; exact this, fun h => by have := h2 h; rw [hdist _ h] at this; exact this⟩
      · rintro ⟨h1, h2⟩
        exact ⟨fun h => by rw [hdist _ (by omega)]; exact h1 h, fun h => by rw [hdist _ h]; exact h2 h⟩
    rw [this]
    rfl
  obtain ⟨⟨T, d⟩, ex, -⟩ := newtonLoopAll_run w he loopCubic_weights ⟨1, 0, 0⟩ (t0 := nth params 50) (hd _ (by rw [hg]; simp))
  refine ⟨T, ?_⟩
  rw [e, hg]
  rw [forI_head (by simp), vget_nth (i := 0) (k := 0) rfl (by simp), ok_bind, show nth [nth params 50] 0 = nth params 50 from rfl, ex, ok_bind]
  dsimp only
  rw [if_neg (by simp), ok_bind, forI_empty (by simp)]
  rfl

/-! ### A full circle -/

/-- the unit circle as a curve of degree five with positive weights -/
noncomputable def fullCircle : NurbsCurve ℝ :=
  { degree := 5, knots := [0, 0, 0, 0, 0, 0, 1, 1, 1, 1, 1, 1]
    cps := [⟨-5, 0, 0, 5⟩, ⟨-1, -4, 0, 1⟩, ⟨3, -2, 0, 1⟩, ⟨3, 2, 0, 1⟩, ⟨-1, 4, 0, 1⟩, ⟨-5, 0, 0, 5⟩] }

theorem fullCircle_wf : WellFormed fullCircle 5 5 ∧ EndsSeparated (nth fullCircle.knots) 5 5 ∧ ClampedEnds (nth fullCircle.knots) 5 5 := by
  refine ⟨⟨rfl, by omega, by omega, rfl, by omega, rfl, isValidKnotVector_nth.mp (by simp [fullCircle, isValidKnotVector])⟩, ?_, ⟨rfl, rfl⟩⟩
  constructor <;> norm_num [fullCircle, nth]

theorem fullCircle_point {t : ℝ} (t0 : 0 ≤ t) (t1 : t ≤ 1) : NurbsCurve.pointOnCurve fullCircle t =
    ok ((5 / 4 * (1 + (2 * t - 1) ^ 2) ^ 2)⁻¹ • (⟨5 / 4 * (1 - 6 * (2 * t - 1) ^ 2 + (2 * t - 1) ^ 4), 5 * (2 * t - 1) * (1 - (2 * t - 1) ^ 2), 0⟩ : XYZ ℝ)) := by
  obtain ⟨w, he, hc⟩ := fullCircle_wf
  unfold NurbsCurve.pointOnCurve
  rw [C05_eval w he t0 t1, ok_bind, curvePoint_bezier (a := 0) (b := 1) (by norm_num)
    (by intro i hi; interval_cases i <;> rfl) (by intro i hi hi'; interval_cases i <;> rfl) t0 t1]
  have c0 : nth fullCircle.cps 0 = ⟨-5, 0, 0, 5⟩ := rfl
  have c1 : nth fullCircle.cps 1 = ⟨-1, -4, 0, 1⟩ := rfl
  have c2 : nth fullCircle.cps 2 = ⟨3, -2, 0, 1⟩ := rfl
  have c3 : nth fullCircle.cps 3 = ⟨3, 2, 0, 1⟩ := rfl
  have c4 : nth fullCircle.cps 4 = ⟨-1, 4, 0, 1⟩ := rfl
  have c5 : nth fullCircle.cps 5 = ⟨-5, 0, 0, 5⟩ := rfl
  have hp : bezierPoint 5 (nth fullCircle.cps) ((t - 0) / (1 - 0)) =
      (⟨5 / 4 * (1 - 6 * (2 * t - 1) ^ 2 + (2 * t - 1) ^ 4), 5 * (2 * t - 1) * (1 - (2 * t - 1) ^ 2), 0, 5 / 4 * (1 + (2 * t - 1) ^ 2) ^ 2⟩ : XYZW ℝ) := by
    rw [sub_zero, sub_zero, div_one]
    unfold bezierPoint
    rw [sum_range_succ, sum_range_succ, sum_range_succ, sum_range_succ, sum_range_succ, sum_range_succ, sum_range_zero, c0, c1, c2, c3, c4, c5]
    simp only [bernsteinP, show Nat.choose 5 0 = 1 from rfl, show Nat.choose 5 1 = 5 from rfl, show Nat.choose 5 2 = 10 from rfl, show Nat.choose 5 3 = 10 from rfl,
      show Nat.choose 5 4 = 5 from rfl, show Nat.choose 5 5 = 1 from rfl]
    ext <;> simp <;> ring
  rw [hp, XYZW.toXYZ_eq]
  · rfl
  · refine notTiny_of_ge ?_
    dsimp only
    nlinarith [sq_nonneg (2 * t - 1), sq_nonneg ((2 * t - 1) ^ 2)]

theorem fullCircle_arc : isClosedCurve fullCircle = ok true ∧ isArc fullCircle = ok (some { isCircle := true, radius := 1, center := 0 }) := by
  obtain ⟨w, he, hc⟩ := fullCircle_wf
  have e0' : (⟨-5, 0, 0, 5⟩ : XYZW ℝ).toXYZ = ⟨-1, 0, 0⟩ := by
    rw [XYZW.toXYZ_eq (by norm_num)]; ext <;> norm_num [XYZW.raw]
  have hlin : isLinear fullCircle = false := by
    rw [Bool.eq_false_iff]
    intro h
    unfold isLinear at h
    simp only [fullCircle, List.map_cons, List.map_nil, toXYZ_one, e0'] at h
    have hd : ∀ l, linearDirection ⟨-1, 0, 0⟩ ⟨-1, -4, 0⟩ l = some (⟨-1, -4, 0⟩ - ⟨-1, 0, 0⟩ : XYZ ℝ) := by
      intro l
      unfold linearDirection
      rw [if_neg]
      rw [almostEq_iff]
      unfold Near
      norm_num
    rw [hd] at h
    have hn : (⟨-1, -4, 0⟩ - ⟨-1, 0, 0⟩ : XYZ ℝ).normalize = ⟨0, -1, 0⟩ := by
      have : (⟨-1, -4, 0⟩ - ⟨-1, 0, 0⟩ : XYZ ℝ) = ⟨0, -4, 0⟩ := by ext <;> norm_num
      rw [this]
      have hl : (⟨0, -4, 0⟩ : XYZ ℝ).length = 4 := by
        unfold XYZ.length
        rw [Real.sqrt_eq_iff_mul_self_eq (by positivity) (by norm_num)]
        norm_num
      unfold XYZ.normalize
      rw [hl]
      norm_num
    simp only [hn, List.all_cons, List.all_nil, Bool.and_true, Bool.and_eq_true] at h
    have := not_greater_small h.1
    have e : ((⟨3, -2, 0⟩ - ⟨-1, 0, 0⟩ : XYZ ℝ).cross ⟨0, -1, 0⟩).length = 4 := by
      unfold XYZ.length
      rw [Real.sqrt_eq_iff_mul_self_eq (add_nonneg (add_nonneg (mul_self_nonneg _) (mul_self_nonneg _)) (mul_self_nonneg _)) (by norm_num)]
      norm_num [XYZ.cross]
    rw [e] at this
    norm_num at this
  have hclosed : isClosedCurve fullCircle = ok true := by
    obtain ⟨-, -, b, hb, hiff⟩ := isClosed_run w he hc
    rw [hb, hiff.mpr (Or.inl (by
      rw [show nth fullCircle.cps 5 = nth fullCircle.cps 0 from rfl]
      norm_num [XYZ.distance]))]
  refine ⟨hclosed, ?_⟩
  obtain ⟨b, P0, P1, P2, hb, q0, q1, q2, h⟩ := C119_complete_partial (O := 0) (N := ⟨0, 0, 1⟩) (r := 1) w he hc hlin (by intro h; have := congrArg XYZ.z h; norm_num at this)
    (by
      intro u u0 u1
      refine ⟨_, fullCircle_point u0 u1, ?_, by simp [XYZ.dot]⟩
      unfold XYZ.distance
      rw [Real.sqrt_eq_one]
      simp only [XYZ.smul_x, XYZ.smul_y, XYZ.smul_z, XYZ.zero_x, XYZ.zero_y, XYZ.zero_z]
      generalize 2 * u - 1 = x
      have : (0 : ℝ) < 1 + x ^ 2 := by positivity
      field_simp
      ring)
  rw [hclosed] at hb
  obtain rfl := Res.ok.inj hb
  apply h
  have ha : arcParam fullCircle 5 5 true = 1 / 2 := by
    show 1 / 2 * (0 : ℝ) + 1 / 2 * 1 = 1 / 2
    norm_num
  rw [show nth fullCircle.knots 0 = (0 : ℝ) from rfl, fullCircle_point (by norm_num) (by norm_num)] at q0
  rw [ha, show nth fullCircle.knots 0 = (0 : ℝ) from rfl, fullCircle_point (by norm_num) (by norm_num)] at q1
  rw [ha, fullCircle_point (by norm_num) (by norm_num)] at q2
  rw [← Res.ok.inj q0, ← Res.ok.inj q1, ← Res.ok.inj q2]
  intro hz
  have := congrArg XYZ.z hz
  norm_num [XYZ.cross] at this

/-! ### Examples -/

example : getAllParamsOnCurve fullCircle ⟨0, 1 / 10000000, 0⟩ = invalidArg :=
  C153_centre fullCircle_wf.1 fullCircle_wf.2.1 fullCircle_wf.2.2 fullCircle_arc.1 fullCircle_arc.2 (by unfold Near; norm_num [abs_of_pos])

example : ∃ l, getAllParamsOnCurve loopCubic ⟨1 / 2, 1 / 3, 2⟩ = ok l ∧ l ≠ [] ∧ l.Pairwise DistinctParam ∧
      ∀ T ∈ l, (nth loopCubic.knots 3 ≤ T ∧ T ≤ nth loopCubic.knots 4) ∨ ∃ T0, nth loopCubic.knots 3 ≤ T0 ∧ T0 ≤ nth loopCubic.knots 4 ∧ TinyStep loopCubic ⟨1 / 2, 1 / 3, 2⟩ T0 T :=
  C153_distinct_partial loopCubic_wf.1 loopCubic_wf.2.1 loopCubic_wf.2.2 loopCubic_weights loopCubic_open _

example : ∃ l T, getAllParamsOnCurve loopCubic ⟨0, 0, 5⟩ = ok l ∧ T ∈ l ∧
    ¬ (nth loopCubic.knots 3 ≤ T ∧ T ≤ nth loopCubic.knots 4 ∧ NurbsCurve.pointOnCurve loopCubic T = ok ⟨0, 0, 5⟩) :=
  C153_spurious_violated loopCubic_wf.1 loopCubic_wf.2.1 loopCubic_wf.2.2 loopCubic_weights loopCubic_open (by
    intro u u0 u1 h
    rw [loopCubic_point u0 u1] at h
    have := congrArg XYZ.z (Res.ok.inj h)
    norm_num at this)

end LNLib.Props
