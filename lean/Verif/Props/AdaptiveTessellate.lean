import Verif.Model.AdaptiveTessellate
import Verif.Props.Tessellate
import Verif.Props.Closed
import Verif.Props.Loft
import Verif.Lemmas.BezierKnots

/-!
# C123: adaptive tessellation of a curve
(Geometry/Curve/NurbsCurve.cpp)
-/
set_option linter.unusedSectionVars false

namespace LNLib.Props
open LNLib Res Spec Finset

theorem isGreaterThan_lt {a b : ℝ} (h : isGreaterThan a b = true) : b < a := by
  unfold isGreaterThan at h
  rw [decide_eq_true_eq] at h
  have := tolOf_pos (K := ℝ) (a := a) (b := b) doubleEps_pos
  linarith

theorem vback_run {l : List ℝ} (hne : l ≠ []) (hp : l.Pairwise (· < ·)) : ∃ b ∈ l, vback l = ok b ∧ (∀ y ∈ l, y ≤ b) ∧ nth l (l.length - 1) = b := by
  have hl : 0 < l.length := List.length_pos_iff.mpr hne
  refine ⟨nth l (l.length - 1), ?_, ?_, ?_, rfl⟩
  · rw [nth_eq_getElem (by omega)]; exact List.getElem_mem _
  · exact vget_nth (k := l.length - 1) (by omega) (by omega)
  · intro y hy
    obtain ⟨i, hi, rfl⟩ := List.getElem_of_mem hy
    rw [nth_eq_getElem (by omega)]
    rcases (show i = l.length - 1 ∨ i < l.length - 1 by omega) with h | h
    · subst h; exact le_refl _
    · exact ((List.pairwise_iff_getElem.mp hp) i (l.length - 1) hi (by omega) h).le

/-- strictly increasing parameters from `a`, none beyond `x` -/
structure Ascending (a x : ℝ) (l : List ℝ) : Prop where
  ne : l ≠ []
  first : nth l 0 = a
  inc : l.Pairwise (· < ·)
  low : ∀ y ∈ l, a ≤ y
  high : ∀ y ∈ l, y ≤ x

theorem Ascending.push {a x x' : ℝ} {l : List ℝ} {t b : ℝ} (h : Ascending a x l) (hb : b ∈ l) (hmax : ∀ y ∈ l, y ≤ b) (hlt : b < t) (htx : t ≤ x')
    (hx : x ≤ x') : Ascending a x' (l ++ [t]) := by
  have hl : 0 < l.length := List.length_pos_iff.mpr h.ne
  refine ⟨by simp, ?_, ?_, ?_, ?_⟩
  · rw [← h.first, nth_eq_getElem (by simp), nth_eq_getElem hl, List.getElem_append_left hl]
  · rw [List.pairwise_append]
    refine ⟨h.inc, by simp, fun y hy z hz => ?_⟩
    rw [List.mem_singleton] at hz
    subst hz
    exact lt_of_le_of_lt (hmax y hy) hlt
  · intro y hy
    rcases List.mem_append.mp hy with hy | hy
    · exact h.low y hy
    · rw [List.mem_singleton] at hy; subst hy
      exact (h.low b hb).trans hlt.le
  · intro y hy
    rcases List.mem_append.mp hy with hy | hy
    · exact (h.high y hy).trans hx
    · rw [List.mem_singleton] at hy; subst hy; exact htx

theorem Ascending.mono {a x x' : ℝ} {l : List ℝ} (h : Ascending a x l) (hx : x ≤ x') : Ascending a x' l :=
  ⟨h.ne, h.first, h.inc, h.low, fun y hy => (h.high y hy).trans hx⟩

theorem core_runs {c : NurbsCurve ℝ} {A B : ℝ} (hev : ∀ t, A ≤ t → t ≤ B → ∃ x, NurbsCurve.pointOnCurve c t = ok x) :
    ∀ (k : ℕ) (a b : ℝ), A ≤ a → a ≤ b → b ≤ B → ∃ l, tessellateCore c k a b = ok l := by
  intro k
  induction k with
  | zero => intro a b _ _ _; exact ⟨_, rfl⟩
  | succ k ih =>
    intro a b h1 h2 h3
    obtain ⟨x0, e0⟩ := hev a h1 (h2.trans h3)
    obtain ⟨x2, e2⟩ := hev b (h1.trans h2) h3
    obtain ⟨x1, e1⟩ := hev ((a + b) * (1 / 2)) (by linarith) (by linarith)
    obtain ⟨l, el⟩ := ih a ((a + b) * (1 / 2)) h1 (by linarith) (by linarith)
    obtain ⟨r, er⟩ := ih ((a + b) * (1 / 2)) b (by linarith) (by linarith) h3
    unfold tessellateCore
    rw [e0, ok_bind, e2, ok_bind]
    dsimp only
    rw [e1, ok_bind, el, ok_bind, er, ok_bind]
    split_ifs
    · exact ⟨_, rfl⟩
    · exact ⟨_, rfl⟩

theorem keep_runs {u0 u1 a : ℝ} {internal params : List ℝ} (h : Ascending a u1 params) :
    Runs (keepIncreasing u0 u1 internal params) (Ascending a u1) := by
  unfold keepIncreasing
  refine Runs.forN (m := 0) (n := internal.length) (fun _ => Ascending a u1) (by simp) rfl (by omega) h ?_
  intro i st _ hi hst
  rw [vget_nth (k := i) rfl hi, ok_bind, if_neg (by have := List.length_pos_iff.mpr hst.ne; omega)]
  obtain ⟨b, hb, eb, hmax, -⟩ := vback_run hst.ne hst.inc
  rw [eb, ok_bind]
  apply Runs.ok
  split_ifs with hc
  · exact hst.push hb hmax (isGreaterThan_lt hc.2.2) hc.2.1.le (le_refl _)
  · exact hst

theorem params_runs {c : NurbsCurve ℝ} {uniq : List ℝ} {s : ℕ} (hlen : uniq.length = s + 2)
    (hmono : ∀ i j, i < j → j < s + 2 → nth uniq i < nth uniq j)
    (hev : ∀ t, nth uniq 0 ≤ t → t ≤ nth uniq (s + 1) → ∃ x, NurbsCurve.pointOnCurve c t = ok x) :
    Runs (tessellateParams c uniq) fun l => Ascending (nth uniq 0) (nth uniq (s + 1)) l ∧ isAlmostEqualTo (nth l (l.length - 1)) (nth uniq (s + 1)) = true := by
  have hle : ∀ a b, a ≤ b → b < s + 2 → nth uniq a ≤ nth uniq b := by
    intro a b hab hb
    rcases hab.lt_or_eq with h | rfl
    · exact (hmono a b h hb).le
    · exact le_refl _
  unfold tessellateParams vback
  rw [vget_nth (k := 0) (i := 0) rfl (by omega), ok_bind, vget_nth (k := s + 1) (by omega) (by omega), ok_bind]
  refine Runs.bind (Q := Ascending (nth uniq 0) (nth uniq (s + 1))) ?_ ?_
  · refine Runs.forN (m := 0) (n := s + 1) (fun i => Ascending (nth uniq 0) (nth uniq i)) (by simp) (by omega) (by omega) ?_ ?_
    · exact ⟨by simp, rfl, by simp, by simp, by simp⟩
    · intro i st _ hi hst
      rw [vget_nth (k := i) rfl (by omega), ok_bind, vget_nth (k := i + 1) (by push_cast; ring) (by omega), ok_bind]
      have hii := hle i (i + 1) (by omega) (by omega)
      split_ifs with h
      · exact Runs.ok (hst.mono hii)
      · obtain ⟨l, el⟩ := core_runs hev 20 (nth uniq i) (nth uniq (i + 1)) (hle 0 i (by omega) (by omega)) hii (hle (i + 1) (s + 1) (by omega) (by omega))
        rw [el, ok_bind]
        refine Runs.bind (keep_runs (hst.mono hii)) ?_
        intro ps hps
        obtain ⟨b, hb, eb, hmax, -⟩ := vback_run hps.ne hps.inc
        have eb' : vget ps ((ps.length : ℤ) - 1) = ok b := eb
        rw [eb', ok_bind]
        apply Runs.ok
        split_ifs with hg
        · exact hps.push hb hmax (isGreaterThan_lt hg) (le_refl _) (le_refl _)
        · exact hps
  · intro ps hps
    rw [if_neg (by have := List.length_pos_iff.mpr hps.ne; omega)]
    obtain ⟨b, hb, eb, hmax, elast⟩ := vback_run hps.ne hps.inc
    have eb' : vget ps ((ps.length : ℤ) - 1) = ok b := eb
    rw [eb', ok_bind]
    apply Runs.ok
    split_ifs with ha
    · exact ⟨hps, by rw [elast]; exact ha⟩
    · have hlt : b < nth uniq (s + 1) := by
        rcases (hps.high b hb).lt_or_eq with h | h
        · exact h
        · rw [h, isAlmostEqualTo_self doubleEps_pos] at ha; exact absurd rfl ha
      refine ⟨hps.push hb hmax hlt (le_refl _) (le_refl _), ?_⟩
      have : nth (ps ++ [nth uniq (s + 1)]) ((ps ++ [nth uniq (s + 1)]).length - 1) = nth uniq (s + 1) := by
        rw [nth_eq_getElem (by simp)]
        simp
      rw [this]
      exact isAlmostEqualTo_self doubleEps_pos

theorem knots_eval {c : NurbsCurve ℝ} {p n : ℕ} (w : WellFormed c p n) (he : EndsSeparated (nth c.knots) p n) {t : ℝ}
    (h0 : nth c.knots p ≤ t) (h1 : t ≤ nth c.knots (n + 1)) :
    NurbsCurve.pointOnCurve c t = ok (curvePoint (nth c.knots) p n (nth c.cps) t).toXYZ := by
  unfold NurbsCurve.pointOnCurve
  rw [C05_eval w he h0 h1, ok_bind]

/-- the distinct knots the program iterates over -/
theorem sorted_unique {c : NurbsCurve ℝ} {p n : ℕ} (w : WellFormed c p n) (he : EndsSeparated (nth c.knots) p n) (hc : ClampedEnds (nth c.knots) p n) :
    ∃ s, (stdUnique (stdSort c.knots)).length = s + 2 ∧ nth (stdUnique (stdSort c.knots)) 0 = nth c.knots p ∧
      nth (stdUnique (stdSort c.knots)) (s + 1) = nth c.knots (n + 1) ∧
      ∀ i j, i < j → j < s + 2 → nth (stdUnique (stdSort c.knots)) i < nth (stdUnique (stdSort c.knots)) j := by
  have hl := w.knots
  have hm := wf_monoTo w
  have hpn := w.pn
  have hlt : nth c.knots 0 < nth c.knots (n + p + 1) := by
    have h1 := he.first
    have h2 := hm (p + 1) (n + p + 1) (by omega) (by omega)
    have : (0 : ℝ) ≤ 1 / 1000000 * (1 + max |nth c.knots p| |nth c.knots (p + 1)|) := by positivity
    have h3 := hm 0 p (by omega) (by omega)
    linarith
  have hsort : stdSort c.knots = c.knots := by
    apply List.Pairwise.insertionSort_eq
    rw [List.pairwise_iff_getElem]
    intro i j hi hj hij
    rw [← nth_eq_getElem hi, ← nth_eq_getElem hj]
    exact w.sorted i j hij.le hj
  rw [hsort]
  obtain ⟨s, us, u0, u1, umono, -⟩ := unique_knots (m := n + p + 1) (by omega) w.sorted hlt
  exact ⟨s, us, by rw [u0, hc.first], by rw [u1, hc.last], umono⟩

/-- C123 (partial): for every valid clamped curve of degree above one, `Tessellate` returns the points of the curve at strictly
increasing parameters of its domain, the first being its start and the last its end up to the comparison tolerance (not always exactly, so that
the end point itself may be missing, see `C123_end_missing_violated`).  The distance of the polyline to the curve is not bounded, see `C123_s_curve_violated`. -/
theorem C123_points_partial {c : NurbsCurve ℝ} {p n : ℕ} (w : WellFormed c p n) (he : EndsSeparated (nth c.knots) p n)
    (hc : ClampedEnds (nth c.knots) p n) (hp : 2 ≤ p) :
    ∃ pts params, tessellate c = ok pts ∧ pts.length = params.length ∧ 0 < params.length ∧
      (∀ k, k < params.length → nth c.knots p ≤ nth params k ∧ nth params k ≤ nth c.knots (n + 1) ∧
        NurbsCurve.pointOnCurve c (nth params k) = ok (nth pts k)) ∧
      (∀ k, k + 1 < params.length → nth params k < nth params (k + 1)) ∧
      nth params 0 = nth c.knots p ∧
      |nth params (params.length - 1) - nth c.knots (n + 1)| ≤
        1 / 1000000 * (1 + max |nth params (params.length - 1)| |nth c.knots (n + 1)|) := by
  obtain ⟨s, us, u0, u1, umono⟩ := sorted_unique w he hc
  have hev := fun t h0 h1 => knots_eval (t := t) w he h0 h1
  obtain ⟨params, ep, ha, hlast⟩ := params_runs us umono (c := c) (fun t h0 h1 => ⟨_, hev t (by rw [← u0]; exact h0) (by rw [← u1]; exact h1)⟩)
  rw [u0, u1] at ha
  rw [u1] at hlast
  have hmem : ∀ k, k < params.length → nth params k ∈ params := fun k hk => by
    rw [nth_eq_getElem hk]; exact List.getElem_mem _
  have hpt : ∀ k, k < params.length → NurbsCurve.pointOnCurve c (nth params k) =
      ok (curvePoint (nth c.knots) p n (nth c.cps) (nth params k)).toXYZ := fun k hk =>
    hev _ (ha.low _ (hmem k hk)) (ha.high _ (hmem k hk))
  refine ⟨params.map fun t => (curvePoint (nth c.knots) p n (nth c.cps) t).toXYZ, params, ?_, by simp, List.length_pos_iff.mpr ha.ne, ?_, ?_, ha.first, almost_iff.mp hlast⟩
  · unfold tessellate
    rw [w.degree, if_neg (by exact_mod_cast (by omega : p ≠ 1))]
    dsimp only
    rw [if_neg (by omega), ep, ok_bind]
    apply Runs.eq
    refine (Runs.forN (m := 0) (n := params.length)
      (fun i st => st = (params.take i).map fun t => (curvePoint (nth c.knots) p n (nth c.cps) t).toXYZ) (by simp) rfl (by omega) (by simp) ?_).mono ?_
    · rintro i st - hi rfl
      rw [vget_nth (k := i) rfl hi, ok_bind, hpt i hi, ok_bind]
      apply Runs.ok
      rw [List.take_add_one, List.map_append, nth_eq_getElem hi]
      simp [hi]
    · rintro st rfl
      simp
  · intro k hk
    refine ⟨ha.low _ (hmem k hk), ha.high _ (hmem k hk), ?_⟩
    rw [hpt k hk]
    congr 1
    rw [nth_eq_getElem hk, nth_eq_getElem (by simpa using hk)]
    simp
  · intro k hk
    have := (List.pairwise_iff_getElem.mp ha.inc) k (k + 1) (by omega) hk (by omega)
    rwa [← nth_eq_getElem, ← nth_eq_getElem] at this

/-- C123: for a valid clamped curve of degree one with weights above the zero tolerance, `Tessellate` returns the projected control points, and
the polyline through them is exactly the curve: on every span the curve runs on the segment between two consecutive ones, from end to end. -/
theorem C123_polyline {c : NurbsCurve ℝ} {n : ℕ} (w : WellFormed c 1 n) (he : EndsSeparated (nth c.knots) 1 n)
    (hw : ∀ x ∈ c.cps, 1 / 1000000 * (1 + x.w) < x.w) :
    ∃ pts, tessellate c = ok pts ∧ pts.length = n + 1 ∧
      ∀ s, 1 ≤ s → s ≤ n → nth c.knots s < nth c.knots (s + 1) →
        (∀ t, nth c.knots s ≤ t → t < nth c.knots (s + 1) → ∃ k : ℝ, 0 ≤ k ∧ k < 1 ∧
          NurbsCurve.pointOnCurve c t = ok ((1 - k) • nth pts (s - 1) + k • nth pts s)) ∧
        NurbsCurve.pointOnCurve c (nth c.knots s) = ok (nth pts (s - 1)) := by
  have hcl := w.cps
  have hk := w.knots
  have hm := wf_monoTo w
  have hnth : ∀ i, i ≤ n → nth (c.cps.map XYZW.toXYZ) i = (nth c.cps i).toXYZ := by
    intro i hi
    rw [nth_eq_getElem (by simp; omega), nth_eq_getElem (by omega)]
    simp
  have hwt : ∀ i, i ≤ n → 1 / 1000000 * (1 + (nth c.cps i).w) < (nth c.cps i).w := by
    intro i hi
    refine hw _ ?_
    rw [nth_eq_getElem (by omega)]
    exact List.getElem_mem _
  refine ⟨c.cps.map XYZW.toXYZ, ?_, by simp [hcl], ?_⟩
  · unfold tessellate
    rw [w.degree, if_pos (by simp)]
  · intro s hs1 hsn hlt
    obtain ⟨s, rfl⟩ : ∃ r, s = r + 1 := ⟨s - 1, by omega⟩
    have key : ∀ t, nth c.knots (s + 1) ≤ t → t < nth c.knots (s + 1 + 1) → ∃ k : ℝ, 0 ≤ k ∧ k < 1 ∧
        NurbsCurve.pointOnCurve c t = ok ((1 - k) • nth (c.cps.map XYZW.toXYZ) s + k • nth (c.cps.map XYZW.toXYZ) (s + 1)) ∧
        (t = nth c.knots (s + 1) → k = 0) := by
      intro t h0 h1
      have hsp : IsSpan (nth c.knots) 1 n t (s + 1) := ⟨hs1, hsn, hlt, h0, Or.inl h1⟩
      have hd : 0 < nth c.knots (s + 1 + 1) - nth c.knots (s + 1) := by linarith
      have ev := knots_eval w he (t := t) ((hm 1 (s + 1) (by omega) (by omega)).trans h0) (h1.le.trans (hm (s + 1 + 1) (n + 1) (by omega) (by omega)))
      rw [curvePoint_span hm (le_refl _) hsp, sum_range_succ, sum_range_one] at ev
      set r := (t - nth c.knots (s + 1)) / (nth c.knots (s + 1 + 1) - nth c.knots (s + 1)) with hr
      have e0 : Nspan (nth c.knots) (s + 1) 1 (s + 1 - 1 + 0) t = 1 - r := by
        simp only [Nat.add_sub_cancel, Nat.add_zero, Nspan]
        rw [hr]
        field_simp
        simp
      have e1 : Nspan (nth c.knots) (s + 1) 1 (s + 1 - 1 + 1) t = r := by
        simp only [Nat.add_sub_cancel, Nspan]
        rw [hr]
        simp
      rw [e0, e1] at ev
      have hr0 : 0 ≤ r := div_nonneg (by linarith) hd.le
      have hr1 : r < 1 := (div_lt_one hd).mpr (by linarith)
      set A := nth c.cps s with hA
      set B := nth c.cps (s + 1) with hB
      have ha := hwt s (by omega)
      have hb := hwt (s + 1) (by omega)
      rw [← hA] at ha
      rw [← hB] at hb
      have ha' : 0 < A.w := by linarith
      have hb' : 0 < B.w := by linarith
      have h1r : 0 < 1 - r := by linarith
      set W := (1 - r) * A.w + r * B.w with hW
      have hWp : 0 < W := by
        have := mul_pos h1r ha'
        have := mul_nonneg hr0 hb'.le
        linarith
      have hWt : 1 / 1000000 * (1 + W) < W := by
        have := mul_lt_mul_of_pos_left ha h1r
        have := mul_le_mul_of_nonneg_left hb.le hr0
        nlinarith
      refine ⟨r * B.w / W, by positivity, ?_, ?_, ?_⟩
      · rw [div_lt_one hWp, hW]
        have := mul_pos h1r ha'
        linarith
      · rw [hnth s (by omega), hnth (s + 1) (by omega), ← hA, ← hB, ev]
        congr 1
        simp only [Nat.add_sub_cancel, Nat.add_zero, ← hA, ← hB]
        have hsum : ((1 - r) • A + r • B).w = W := by simp [hW]
        rw [XYZW.toXYZ_eq (by rw [hsum, abs_of_pos hWp]; exact hWt), hsum, XYZW.toXYZ_eq (by rw [abs_of_pos ha']; exact ha),
          XYZW.toXYZ_eq (by rw [abs_of_pos hb']; exact hb)]
        have e1 : 1 - r * B.w / W = (1 - r) * A.w / W := by
          field_simp
          rw [hW]; ring
        rw [e1]
        ext <;> simp [XYZW.raw] <;> field_simp
      · intro ht
        have : r = 0 := by rw [hr, ht]; simp
        rw [this]; simp
    refine ⟨fun t h0 h1 => ?_, ?_⟩
    · obtain ⟨k, k0, k1, e, -⟩ := key t h0 h1
      exact ⟨k, k0, k1, e⟩
    · obtain ⟨k, k0, k1, e, hk0⟩ := key _ (le_refl _) hlt
      rw [e, hk0 rfl]
      simp

/-! ### an S-shaped curve -/

/-- the cubic with control points `(0,0), (1,1), (2,-1), (3,0)` -/
noncomputable def sCurve : NurbsCurve ℝ :=
  { degree := 3, knots := [0, 0, 0, 0, 1, 1, 1, 1], cps := [⟨0, 0, 0, 1⟩, ⟨1, 1, 0, 1⟩, ⟨2, -1, 0, 1⟩, ⟨3, 0, 0, 1⟩] }

theorem sCurve_wf : WellFormed sCurve 3 3 :=
  { degree := rfl, pos := by decide, le7 := by decide, cps := rfl, pn := le_refl _, knots := rfl,
    sorted := isValidKnotVector_nth.mp (by rw [isValidKnotVector_iff]; simp [sCurve]) }

theorem sCurve_ends : EndsSeparated (nth sCurve.knots) 3 3 := by
  constructor <;> simp [sCurve, nth] <;> norm_num

theorem sCurve_clamped : ClampedEnds (nth sCurve.knots) 3 3 := by
  constructor <;> simp [sCurve, nth]

theorem sCurve_point {t : ℝ} (h0 : 0 ≤ t) (h1 : t ≤ 1) :
    NurbsCurve.pointOnCurve sCurve t = ok ⟨3 * t, 3 * t * (1 - t) * (1 - 2 * t), 0⟩ := by
  rw [knots_eval sCurve_wf sCurve_ends (by simpa [sCurve, nth] using h0) (by simpa [sCurve, nth] using h1)]
  congr 1
  have e := cubic_bezier (K := ℝ) (P := nth sCurve.cps) h0 h1
  have e' : curvePoint (nth sCurve.knots) 3 3 (nth sCurve.cps) t = ⟨3 * t, 3 * t * (1 - t) * (1 - 2 * t), 0, 1⟩ := by
    show curvePoint (nth ([0, 0, 0, 0, 1, 1, 1, 1] : List ℝ)) 3 3 (nth sCurve.cps) t = _
    rw [e]
    ext <;> simp [sCurve] <;> ring
  rw [e', XYZW.toXYZ_eq (by norm_num)]
  ext <;> simp [XYZW.raw]

/-- C123 (violated): the S-shaped cubic is replaced by its chord: only three points, all on the x-axis, are returned, while the curve
reaches the height 9/32 at parameter 1/4, far more than the library's tolerance away from the returned polyline. -/
theorem C123_s_curve_violated : tessellate sCurve = ok [⟨0, 0, 0⟩, ⟨3/2, 0, 0⟩, ⟨3, 0, 0⟩] ∧
    NurbsCurve.pointOnCurve sCurve (1/4) = ok ⟨3/4, 9/32, 0⟩ := by
  have huniq : stdUnique (stdSort sCurve.knots) = [0, 1] := by
    have : stdSort sCurve.knots = sCurve.knots := by
      apply List.Pairwise.insertionSort_eq
      simp [sCurve]
    rw [this]
    simp [sCurve, stdUnique]
  have q0 := sCurve_point (t := 0) (le_refl _) (by norm_num)
  have q1 := sCurve_point (t := 1) (by norm_num) (le_refl _)
  have q2 := sCurve_point (t := 1/2) (by norm_num) (by norm_num)
  have e2 : ((0 : ℝ) + 1) * (1 / 2) = 1 / 2 := by norm_num
  have hcore : tessellateCore sCurve 20 0 1 = ok [1/2] := by
    unfold tessellateCore
    rw [q0, ok_bind, q1, ok_bind]
    dsimp only
    rw [e2, q2, ok_bind, if_pos]
    rw [almost_iff]
    unfold XYZ.distance
    norm_num
  have g1 : isGreaterThan (1/2 : ℝ) 0 = true := by
    unfold isGreaterThan; rw [decide_eq_true_eq]; unfold tolOf doubleEps; norm_num
  have g2 : isGreaterThan (1 : ℝ) (1/2) = true := by
    unfold isGreaterThan; rw [decide_eq_true_eq]; unfold tolOf doubleEps; norm_num [max_def]
  have hparams : tessellateParams sCurve [0, 1] = ok [0, 1/2, 1] := by
    have a1 : isAlmostEqualTo (1 : ℝ) 0 = false := almost_far (by norm_num)
    have k1 : keepIncreasing 0 1 [1/2] [0] = ok [0, 1/2] := by
      unfold keepIncreasing
      rw [show ((([1/2] : List ℝ).length : ℤ)) = 0 + 1 by simp, forI_last (by omega), forI_empty (by omega), ok_bind]
      simp [vget, vback]
      rw [show (2:ℝ)⁻¹ = 1/2 by norm_num, g1]
      norm_num
    unfold tessellateParams
    rw [vget_nth (k := 0) (i := 0) rfl (by simp), ok_bind]
    unfold vback
    rw [vget_nth (k := 1) (by simp) (by simp), ok_bind, show (((([0, 1] : List ℝ).length : ℤ)) - 1) = 0 + 1 by simp, forI_last (by omega), forI_empty (by omega), ok_bind]
    rw [vget_nth (k := 0) (i := 0) rfl (by simp), ok_bind, vget_nth (k := 1) (by simp) (by simp), ok_bind]
    show ((if isAlmostEqualTo (1 : ℝ) 0 = true then _ else _) >>= _) = _
    rw [if_neg (by rw [a1]; simp)]
    show (((tessellateCore sCurve 20 0 1) >>= _) >>= _) = _
    rw [hcore, ok_bind]
    show (((keepIncreasing 0 1 [1/2] [0]) >>= _) >>= _) = _
    rw [k1, ok_bind, vget_nth (k := 1) (by simp) (by simp), ok_bind]
    show ((Res.ok (if isGreaterThan (1 : ℝ) (1/2) = true then _ else _)) >>= _) = _
    rw [if_pos g2, ok_bind, if_neg (by simp), vget_nth (k := 2) (by simp [nth]) (by simp [nth]), ok_bind]
    show Res.ok (if isAlmostEqualTo (1 : ℝ) 1 = true then _ else _) = _
    rw [if_pos (isAlmostEqualTo_self doubleEps_pos)]
    rfl
  constructor
  · unfold tessellate
    rw [if_neg (by simp [sCurve])]
    dsimp only
    rw [huniq, if_neg (by simp), hparams, ok_bind]
    rw [show ((([0, 1/2, 1] : List ℝ).length : ℤ)) = 0 + 1 + 1 + 1 by simp, forI_last (by omega), forI_last (by omega), forI_last (by omega), forI_empty (by omega)]
    simp only [ok_bind]
    rw [vget_nth (k := 0) (by simp) (by simp), ok_bind, vget_nth (k := 1) (by simp) (by simp), vget_nth (k := 2) (by simp) (by simp)]
    simp only [nth]
    simp [q0, q1]
    rw [show (2:ℝ)⁻¹ = 1/2 by norm_num, q2]
    simp
    norm_num
  · rw [sCurve_point (by norm_num) (by norm_num)]
    norm_num

/-! ### a curve with a slim domain -/

/-- the parabola `(1000 s, s² / 25000)`, `s = 800000 t`, on the domain `[0, 1/800000]` -/
noncomputable def slim : NurbsCurve ℝ :=
  { degree := 2, knots := [0, 0, 0, 1/800000, 1/800000, 1/800000], cps := [⟨0, 0, 0, 1⟩, ⟨500, 0, 0, 1⟩, ⟨1000, 1/25000, 0, 1⟩] }

theorem slim_wf : WellFormed slim 2 2 :=
  { degree := rfl, pos := by decide, le7 := by decide, cps := rfl, pn := le_refl _, knots := rfl,
    sorted := isValidKnotVector_nth.mp (by rw [isValidKnotVector_iff]; simp [slim]) }

theorem slim_ends : EndsSeparated (nth slim.knots) 2 2 := by
  constructor <;> simp [slim, nth] <;> norm_num

theorem slim_clamped : ClampedEnds (nth slim.knots) 2 2 := by
  constructor <;> simp [slim, nth]

theorem slim_point {s t : ℝ} (ht : t = s / 800000) (h0 : 0 ≤ s) (h1 : s ≤ 1) :
    NurbsCurve.pointOnCurve slim t = ok ⟨1000 * s, s ^ 2 / 25000, 0⟩ := by
  subst ht
  have l1 : (0 : ℝ) ≤ s / 800000 := by positivity
  have l2 : s / 800000 ≤ 1 / 800000 := by linarith
  rw [knots_eval slim_wf slim_ends (by simpa [slim, nth] using l1) (by simpa [slim, nth] using l2)]
  congr 1
  have e' : curvePoint (nth slim.knots) 2 2 (nth slim.cps) (s / 800000) = ⟨1000 * s, s ^ 2 / 25000, 0, 1⟩ := by
    rw [curvePoint_bezier (a := 0) (b := 1/800000) (by norm_num) (by intro i hi; interval_cases i <;> simp [slim])
      (by intro i hi hi'; interval_cases i <;> simp [slim]) l1 l2]
    have : (s / 800000 - 0) / (1 / 800000 - 0) = s := by ring
    rw [this]
    unfold bezierPoint
    rw [sum_range_succ, sum_range_succ, sum_range_one]
    ext <;> simp [slim, bernsteinP] <;> ring
  rw [e', XYZW.toXYZ_eq (by norm_num)]
  ext <;> simp [XYZW.raw]

/-- one step of the recursion on `[a, b]` (in units of the domain) -/
theorem slim_core {k : ℕ} {a b m : ℝ} (ha : 0 ≤ a) (hab : a ≤ b) (hb : b ≤ 1) (hm : m = (a + b) / 2) :
    tessellateCore slim (k + 1) (a / 800000) (b / 800000) =
      if (b - a) ^ 2 / 100000 ≤ 1 / 1000000 * (1 + (b - a) ^ 2 / 100000) then ok [m / 800000]
      else tessellateCore slim k (a / 800000) (m / 800000) >>= fun l =>
        tessellateCore slim k (m / 800000) (b / 800000) >>= fun r => ok (l ++ r) := by
  subst hm
  rw [tessellateCore.eq_2]
  rw [slim_point rfl ha (hab.trans hb), ok_bind, slim_point rfl (ha.trans hab) hb, ok_bind]
  dsimp only
  rw [show (a / 800000 + b / 800000) * (1 / 2) = (a + b) / 2 / 800000 by ring, slim_point rfl (by linarith) (by linarith), ok_bind]
  have hd : XYZ.distance (⟨1000 * ((a + b) / 2), ((a + b) / 2) ^ 2 / 25000, 0⟩ : XYZ ℝ)
      ((1 / 2 : ℝ) • ((⟨1000 * a, a ^ 2 / 25000, 0⟩ : XYZ ℝ) + ⟨1000 * b, b ^ 2 / 25000, 0⟩)) = (b - a) ^ 2 / 100000 := by
    unfold XYZ.distance
    simp
    rw [show (2⁻¹ * (1000 * a) + 2⁻¹ * (1000 * b) - 1000 * ((a + b) / 2)) ^ 2 + (2⁻¹ * (a ^ 2 / 25000) + 2⁻¹ * (b ^ 2 / 25000) - ((a + b) / 2) ^ 2 / 25000) ^ 2 =
      ((b - a) ^ 2 / 100000) ^ 2 by ring]
    exact Real.sqrt_sq (by positivity)
  rw [hd]
  have hi : isAlmostEqualTo ((b - a) ^ 2 / 100000) (0 : ℝ) = true ↔ (b - a) ^ 2 / 100000 ≤ 1 / 1000000 * (1 + (b - a) ^ 2 / 100000) := by
    have h0 : 0 ≤ (b - a) ^ 2 / 100000 := by positivity
    rw [almost_iff, sub_zero, abs_zero, abs_of_nonneg h0, max_eq_left h0]
  by_cases h : isAlmostEqualTo ((b - a) ^ 2 / 100000) (0 : ℝ) = true
  · rw [if_pos h, if_pos (hi.mp h)]
  · rw [if_neg h, if_neg (fun h' => h (hi.mpr h'))]

/-- C123 (violated): the end of the curve may be missing.  On a domain of width 1/800000 the last parameter kept is at 7/8 of the domain, the
end of the domain counts as equal to it, and the polyline stops at `x = 875` although the curve ends at `x = 1000`. -/
theorem C123_end_missing_violated : tessellate slim = ok [⟨0, 0, 0⟩, ⟨875, 49/1600000, 0⟩] ∧
    NurbsCurve.pointOnCurve slim (1/800000) = ok ⟨1000, 1/25000, 0⟩ := by
  have huniq : stdUnique (stdSort slim.knots) = [0, 1/800000] := by
    have : stdSort slim.knots = slim.knots := by
      apply List.Pairwise.insertionSort_eq
      simp [slim]
    rw [this]
    simp [slim, stdUnique]
  have leaf : ∀ (k : ℕ) (a m b : ℝ), 0 ≤ a → a ≤ b → b ≤ 1 → m = (a + b) / 2 → b - a = 1/4 →
      tessellateCore slim (k + 1) (a / 800000) (b / 800000) = ok [m / 800000] := by
    intro k a m b h0 h1 h2 h3 h4
    rw [slim_core h0 h1 h2 h3, if_pos (by rw [h4]; norm_num)]
  have halves : ∀ (k : ℕ) (a m b : ℝ), 0 ≤ a → a ≤ b → b ≤ 1 → m = (a + b) / 2 → b - a = 1/2 →
      tessellateCore slim (k + 2) (a / 800000) (b / 800000) = ok [(a + m) / 2 / 800000, (m + b) / 2 / 800000] := by
    intro k a m b h0 h1 h2 h3 h4
    rw [slim_core h0 h1 h2 h3, if_neg (by rw [h4]; norm_num), leaf k a _ m h0 (by linarith) (by linarith) rfl (by linarith), ok_bind,
      leaf k m _ b (by linarith) (by linarith) h2 rfl (by linarith), ok_bind]
    rfl
  have hcore : tessellateCore slim 20 0 (1/800000) = ok [1/8/800000, 3/8/800000, 5/8/800000, 7/8/800000] := by
    have e := slim_core (k := 19) (a := 0) (b := 1) (m := 1/2) (le_refl _) (by norm_num) (le_refl _) (by norm_num)
    rw [zero_div] at e
    rw [e, if_neg (by norm_num)]
    have e1 := halves 17 0 (1/4) (1/2) (le_refl _) (by norm_num) (by norm_num) (by norm_num) (by norm_num)
    have e2 := halves 17 (1/2) (3/4) 1 (by norm_num) (by norm_num) (by norm_num) (by norm_num) (by norm_num)
    rw [zero_div] at e1
    rw [e1, ok_bind, e2, ok_bind]
    norm_num
  have ng : ∀ x : ℝ, 0 ≤ x → x ≤ 1 → isGreaterThan (x / 800000 : ℝ) 0 = decide (1 / 1000000 * (1 + x / 800000) < x / 800000) := by
    intro x h0 _
    unfold isGreaterThan tolOf doubleEps
    have : 0 ≤ x / 800000 := by positivity
    rw [abs_zero, abs_of_nonneg this, max_eq_left this, sub_zero]
  have g1 : isGreaterThan (1/8/800000 : ℝ) 0 = false := by rw [ng _ (by norm_num) (by norm_num)]; norm_num
  have g3 : isGreaterThan (3/8/800000 : ℝ) 0 = false := by rw [ng _ (by norm_num) (by norm_num)]; norm_num
  have g5 : isGreaterThan (5/8/800000 : ℝ) 0 = false := by rw [ng _ (by norm_num) (by norm_num)]; norm_num
  have g7 : isGreaterThan (7/8/800000 : ℝ) 0 = true := by rw [ng _ (by norm_num) (by norm_num)]; norm_num
  have gend : isGreaterThan (1/800000 : ℝ) (7/8/800000) = false := by
    unfold isGreaterThan; rw [decide_eq_false_iff_not]; unfold tolOf doubleEps; norm_num [max_def]
  have aend : isAlmostEqualTo (7/8/800000 : ℝ) (1/800000) = true := by rw [almost_iff]; norm_num [max_def, abs_le]
  have hparams : tessellateParams slim [0, 1/800000] = ok [0, 7/8/800000] := by
    have a1 : isAlmostEqualTo (1/800000 : ℝ) 0 = false := almost_far (by norm_num)
    have k1 : keepIncreasing 0 (1/800000) [1/8/800000, 3/8/800000, 5/8/800000, 7/8/800000] [0] = ok [0, 7/8/800000] := by
      unfold keepIncreasing
      rw [show ((([1/8/800000, 3/8/800000, 5/8/800000, 7/8/800000] : List ℝ).length : ℤ)) = 0 + 1 + 1 + 1 + 1 by simp,
        forI_last (by omega), forI_last (by omega), forI_last (by omega), forI_last (by omega), forI_empty (by omega), ok_bind]
      rw [vget_nth (k := 0) (i := 0) rfl (by simp), ok_bind, if_neg (by simp)]
      unfold vback
      rw [vget_nth (k := 0) (by simp) (by simp), ok_bind]
      rw [if_neg (fun h => absurd ((show isGreaterThan (1/8/800000 : ℝ) 0 = true from h.2.2).symm.trans g1) (by simp)), ok_bind, vget_nth (k := 1) (by simp) (by simp), ok_bind, if_neg (by simp), vget_nth (k := 0) (by simp) (by simp), ok_bind]
      rw [if_neg (fun h => absurd ((show isGreaterThan (3/8/800000 : ℝ) 0 = true from h.2.2).symm.trans g3) (by simp)), ok_bind, vget_nth (k := 2) (by simp) (by simp), ok_bind, if_neg (by simp), vget_nth (k := 0) (by simp) (by simp), ok_bind]
      rw [if_neg (fun h => absurd ((show isGreaterThan (5/8/800000 : ℝ) 0 = true from h.2.2).symm.trans g5) (by simp)), ok_bind, vget_nth (k := 3) (by simp) (by simp), ok_bind, if_neg (by simp), vget_nth (k := 0) (by simp) (by simp), ok_bind]
      refine congrArg Res.ok ((if_pos ?_).trans rfl)
      show (0 : ℝ) < 7/8/800000 ∧ (7/8/800000 : ℝ) < 1/800000 ∧ isGreaterThan (7/8/800000 : ℝ) 0 = true
      exact ⟨by norm_num, by norm_num, g7⟩
    unfold tessellateParams
    rw [vget_nth (k := 0) (i := 0) rfl (by simp), ok_bind]
    unfold vback
    rw [vget_nth (k := 1) (by simp) (by simp), ok_bind, show (((([0, 1/800000] : List ℝ).length : ℤ)) - 1) = 0 + 1 by simp, forI_last (by omega),
      forI_empty (by omega), ok_bind]
    rw [vget_nth (k := 0) (i := 0) rfl (by simp), ok_bind, vget_nth (k := 1) (by simp) (by simp), ok_bind]
    show ((if isAlmostEqualTo (1/800000 : ℝ) 0 = true then _ else _) >>= _) = _
    rw [if_neg (by rw [a1]; simp)]
    show (((tessellateCore slim 20 0 (1/800000)) >>= _) >>= _) = _
    rw [hcore, ok_bind]
    show (((keepIncreasing 0 (1/800000) _ [0]) >>= _) >>= _) = _
    rw [k1, ok_bind, vget_nth (k := 1) (by simp) (by simp), ok_bind]
    show ((Res.ok (if isGreaterThan (1/800000 : ℝ) (7/8/800000) = true then _ else _)) >>= _) = _
    rw [if_neg (by rw [gend]; simp), ok_bind, if_neg (by simp), vget_nth (k := 1) (by simp) (by simp), ok_bind]
    show Res.ok (if isAlmostEqualTo (7/8/800000 : ℝ) (1/800000) = true then _ else _) = _
    rw [if_pos aend]
  constructor
  · unfold tessellate
    rw [if_neg (by simp [slim])]
    dsimp only
    rw [huniq, if_neg (by simp), hparams, ok_bind]
    rw [show ((([0, 7/8/800000] : List ℝ).length : ℤ)) = 0 + 1 + 1 by simp, forI_last (by omega), forI_last (by omega), forI_empty (by omega)]
    rw [ok_bind, vget_nth (k := 0) (i := 0) rfl (by simp), ok_bind]
    show ((NurbsCurve.pointOnCurve slim 0 >>= _) >>= _) = _
    rw [slim_point (s := 0) (by norm_num) (by norm_num) (by norm_num), ok_bind, ok_bind, vget_nth (k := 1) (by simp) (by simp), ok_bind]
    show (NurbsCurve.pointOnCurve slim (7/8/800000) >>= _) = _
    rw [slim_point (s := 7/8) rfl (by norm_num) (by norm_num), ok_bind]
    norm_num
  · rw [slim_point (s := 1) rfl (by norm_num) (by norm_num)]
    norm_num

/-- C123 is not vacuous: the S-shaped cubic meets the hypotheses of `C123_points_partial`. -/
example : ∃ pts params, tessellate sCurve = ok pts ∧ pts.length = params.length ∧ nth params 0 = nth sCurve.knots 3 := by
  obtain ⟨pts, params, h1, h2, -, -, -, h3, -⟩ := C123_points_partial sCurve_wf sCurve_ends sCurve_clamped (by decide)
  exact ⟨pts, params, h1, h2, h3⟩

/-- a polyline with three vertices, one of weight two -/
noncomputable def bentLine : NurbsCurve ℝ :=
  { degree := 1, knots := [0, 0, 1, 3, 3], cps := [⟨0, 0, 0, 1⟩, ⟨2, 4, 0, 2⟩, ⟨3, 0, 0, 1⟩] }

/-- `C123_polyline` is not vacuous. -/
example : WellFormed bentLine 1 2 ∧ EndsSeparated (nth bentLine.knots) 1 2 ∧ (∀ x ∈ bentLine.cps, (1 : ℝ) / 1000000 * (1 + x.w) < x.w) ∧
    nth bentLine.knots 2 < nth bentLine.knots 3 := by
  refine ⟨⟨rfl, by decide, by decide, rfl, by decide, rfl, isValidKnotVector_nth.mp (by rw [isValidKnotVector_iff]; simp [bentLine])⟩, ?_, ?_, ?_⟩
  · constructor <;> simp [bentLine, nth] <;> norm_num
  · intro x hx
    simp only [bentLine, List.mem_cons, List.not_mem_nil, or_false] at hx
    rcases hx with rfl | rfl | rfl <;> norm_num
  · simp [bentLine, nth]

end LNLib.Props
