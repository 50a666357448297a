import Verif.Lemmas.CurveEval
import Verif.Lemmas.Geom
import Verif.Props.Basis

/-!
# C05–C07, C09, C10, C61: curve evaluation (include/BsplineCurve.h, Geometry/Curve/NurbsCurve.cpp)
-/
set_option linter.unusedSectionVars false

namespace LNLib.Props
open LNLib Res Spec Finset

variable {K : Type} [Field K] [LinearOrder K] [IsStrictOrderedRing K]
variable {T : Type} [AddCommGroup T] [Module K T]

/-! ## Example curves -/

/-- a quadratic curve with four weighted control points -/
def exCurve : NurbsCurve ℚ :=
  { degree := 2, knots := exKnots, cps := [⟨0, 0, 0, 1⟩, ⟨2, 4, 0, 2⟩, ⟨3, 1, 1, 1⟩, ⟨4, 0, 2, 1⟩] }

theorem exCurve_wf : WellFormed exCurve 2 3 where
  degree := rfl
  pos := by decide
  le7 := by decide
  cps := rfl
  pn := by decide
  knots := rfl
  sorted := exKnots_sorted

/-! ## C05 -/

/-- C05: evaluating a well-formed curve at a parameter of its domain returns `∑ᵢ N_{i,p}(t) Pᵢ`
(and in particular does not read outside any array, divide by zero or throw). -/
theorem C05_eval {c : BsplineCurve K T} {p n : ℕ} {t : K} (w : WellFormed c p n)
    (he : EndsSeparated (nth c.knots) p n) (h0 : nth c.knots p ≤ t) (h1 : t ≤ nth c.knots (n + 1)) :
    c.pointOnCurve t = ok (curvePoint (nth c.knots) p n (nth c.cps) t) :=
  pointOnCurve_eq w he h0 h1

/-- C05: the rational version, when the weight function is not within tolerance of zero. -/
theorem C05_eval_rational {c : NurbsCurve K} {p n : ℕ} {t : K} (w : WellFormed c p n)
    (he : EndsSeparated (nth c.knots) p n) (h0 : nth c.knots p ≤ t) (h1 : t ≤ nth c.knots (n + 1))
    (hw : 1 / 1000000 * (1 + |weightFn (nth c.knots) p n (nth c.cps) t|) < |weightFn (nth c.knots) p n (nth c.cps) t|) :
    NurbsCurve.pointOnCurve c t = ok (rationalPoint (nth c.knots) p n (nth c.cps) t) := by
  unfold NurbsCurve.pointOnCurve
  rw [C05_eval w he h0 h1, ok_bind]
  have hwe : (curvePoint (nth c.knots) p n (nth c.cps) t).w = weightFn (nth c.knots) p n (nth c.cps) t := by
    unfold curvePoint weightFn; rw [XYZW.sum_w]
  rw [XYZW.toXYZ_eq (by rw [hwe]; exact hw), hwe]
  unfold rationalPoint curvePoint weightFn
  rw [XYZW.sum_raw]
  rfl

/-- the hypotheses of C05 hold for `exCurve` at `t = 3/4`; the model computes the value -/
example : NurbsCurve.pointOnCurve exCurve (3/4) = ok (rationalPoint (nth exCurve.knots) 2 3 (nth exCurve.cps) (3/4))
    ∧ NurbsCurve.pointOnCurve exCurve (3/4) = ok ⟨25/9, 1, 1⟩ :=
  ⟨C05_eval_rational exCurve_wf exKnots_ends (by decide +kernel) (by decide +kernel) (by decide +kernel),
    by decide +kernel⟩

/-! ## C06 -/

/-- C06: a parameter outside the knot range by more than `1e-6` is rejected with `out_of_range`,
whatever the curve (as long as it has knots at all). -/
theorem C06_out_of_range {c : BsplineCurve K T} {t : K} (hne : c.knots ≠ [])
    (h : t < nth c.knots 0 - 1 / 1000000 ∨ nth c.knots (c.knots.length - 1) + 1 / 1000000 < t) :
    c.pointOnCurve t = outOfRange := by
  have hl : 0 < c.knots.length := List.length_pos_iff.mpr hne
  unfold BsplineCurve.pointOnCurve
  have e0 : vget c.knots 0 = ok (nth c.knots 0) := vget_nth (by simp) (by omega)
  have e1 : vget c.knots ((c.knots.length : ℤ) - 1) = ok (nth c.knots (c.knots.length - 1)) := vget_nth (by omega) (by omega)
  rw [e0, e1]
  simp only [ok_bind]
  rw [validateRange_out h]
  rfl

/-- C06: a curve that passes `Check` but has a degree above 7 is rejected with `invalid_argument` at
every parameter of the knot range; the fixed size work arrays are never overrun. -/
theorem C06_degree_too_large {c : BsplineCurve K T} {t : K} (hc : c.check = ok ()) (hd : 7 < c.degree)
    (h0 : nth c.knots 0 ≤ t) (h1 : t ≤ nth c.knots (c.knots.length - 1)) :
    c.pointOnCurve t = invalidArg := by
  have hpos : c.degree > 0 := by omega
  unfold BsplineCurve.check at hc
  simp only [hpos, decide_true, validate_true, ok_bind] at hc
  by_cases hl : c.knots.length > 0
  swap
  · simp [hl] at hc
  by_cases hU : isValidKnotVector c.knots = true
  swap
  · simp [hl, hU] at hc
  by_cases hcp : c.cps.length > 0
  swap
  · simp [hl, hU, hcp] at hc
  have hb : isValidBspline c.degree c.knots.length c.cps.length = true := by
    by_contra hcon
    have hcon' : isValidBspline c.degree c.knots.length c.cps.length = false := by simpa using hcon
    simp [hl, hU, hcp, hcon'] at hc
  obtain ⟨p, hp⟩ := Int.eq_ofNat_of_zero_le (show 0 ≤ c.degree by omega)
  have hlen : c.knots.length = (c.cps.length - 1) + p + 2 := by
    simp only [isValidBspline, beq_iff_eq] at hb
    omega
  have heps := doubleEps_pos (K := K)
  have el : c.knots.length - 1 = c.cps.length - 1 + p + 1 := by omega
  obtain ⟨s, hs, _⟩ := getKnotSpanIndex_ok (p := p) (n := c.cps.length - 1) (U := c.knots) (t := t) hlen hU (by linarith)
    (by rw [← el]; linarith)
  unfold BsplineCurve.pointOnCurve
  have e0 : vget c.knots 0 = ok (nth c.knots 0) := vget_nth (by simp) (by omega)
  have e1 : vget c.knots ((c.knots.length : ℤ) - 1) = ok (nth c.knots (c.knots.length - 1)) := vget_nth (by omega) (by omega)
  rw [hp, hs]
  simp only [e0, e1, ok_bind, validateRange_ok h0 h1]
  rw [basisFunctions_unfold]
  have : ¬ ((p : ℤ) ≤ nurbsMaxDegree) := by unfold nurbsMaxDegree; omega
  simp [this]

/-- a degree 8 curve that passes `Check` -/
def exDegree8 : BsplineCurve ℚ ℚ :=
  { degree := 8, knots := [0,0,0,0,0,0,0,0,0,1,1,1,1,1,1,1,1,1], cps := [0,1,2,3,4,5,6,7,8] }

example : exDegree8.check = ok () ∧ exDegree8.pointOnCurve (1/2 : ℚ) = invalidArg
    ∧ exCurve.knots ≠ [] ∧ BsplineCurve.pointOnCurve exCurve 2 = outOfRange :=
  ⟨by decide +kernel, C06_degree_too_large (by decide +kernel) (by decide) (by decide +kernel) (by decide +kernel),
    by decide, C06_out_of_range (by decide) (Or.inr (by decide +kernel))⟩

/-- C06 does not extend to a curve without knots: evaluation reads `knotVector[0]` before any
validation. -/
theorem C06_empty_knots_ub (d : ℤ) (P : List T) (t : K) :
    (BsplineCurve.mk d ([] : List K) P).pointOnCurve t = ub := by
  unfold BsplineCurve.pointOnCurve
  simp [vget]

/-! ## C61 : what `Check` accepts -/

/-- C61: `Check` accepts exactly: positive degree, sorted knots, at least one control point and
`m = n + p + 1`. -/
theorem C61_check_iff {c : BsplineCurve K T} :
    c.check = ok () ↔ 0 < c.degree ∧ (∀ i j, i ≤ j → j < c.knots.length → nth c.knots i ≤ nth c.knots j) ∧
      0 < c.cps.length ∧ (c.knots.length : ℤ) = c.cps.length + c.degree + 1 := by
  unfold BsplineCurve.check
  rw [← isValidKnotVector_nth]
  by_cases hd : c.degree > 0
  swap
  · simp [hd]
  by_cases hU : isValidKnotVector c.knots = true
  swap
  · by_cases hl : c.knots.length > 0 <;> simp [hd, hU, hl]
  by_cases hcp : c.cps.length > 0
  swap
  · by_cases hl : c.knots.length > 0 <;> simp [hd, hU, hl, hcp]
  by_cases hb : isValidBspline c.degree c.knots.length c.cps.length = true
  · have hb' := hb
    simp only [isValidBspline, beq_iff_eq] at hb'
    have hl : c.knots.length > 0 := by omega
    simp only [hd, hl, hU, hcp, hb, decide_true, validate_true, ok_bind, true_iff]
    exact ⟨trivial, trivial, trivial, by omega⟩
  · have hb' := hb
    simp only [isValidBspline, beq_iff_eq] at hb'
    have hb'' : isValidBspline c.degree c.knots.length c.cps.length = false := by simpa using hb
    by_cases hl : c.knots.length > 0
    · simp only [hd, hl, hU, hcp, hb'', decide_true, validate_true, ok_bind, validate_false, reduceCtorEq, false_iff]
      rintro ⟨_, _, _, h⟩
      omega
    · simp only [hd, hl, decide_true, validate_true, ok_bind, decide_false, validate_false, invalidArg_bind, reduceCtorEq, false_iff]
      rintro ⟨_, _, _, h⟩
      omega

/-- C61 (violated): a curve can pass `Check` and still have undefined behaviour when evaluated: with
fewer than `p+1` control points the basis function loop reads `U[-1]`. -/
theorem C61_check_insufficient :
    ∃ (c : BsplineCurve ℚ (XYZW ℚ)) (t : ℚ), c.check = ok () ∧ nth c.knots 0 ≤ t ∧ t ≤ nth c.knots (c.knots.length - 1) ∧
      c.pointOnCurve t = ub :=
  ⟨{ degree := 2, knots := [0, 1, 2, 3], cps := [⟨1, 0, 0, 1⟩] }, 3/2, by decide +kernel⟩

/-- C61 (violated): a constant knot vector also passes `Check` and evaluation divides by zero. -/
theorem C61_check_accepts_constant :
    ∃ (c : BsplineCurve ℚ (XYZW ℚ)) (t : ℚ), c.check = ok () ∧ nth c.knots 0 ≤ t ∧ t ≤ nth c.knots (c.knots.length - 1) ∧
      c.pointOnCurve t = nonfinite :=
  ⟨{ degree := 1, knots := [0, 0, 0, 0], cps := [⟨1, 0, 0, 1⟩, ⟨2, 0, 0, 1⟩] }, 0, by decide +kernel⟩

/-- C61 (positive part): a checked curve with at least `p+1` control points, degree at most 7 and
separated end spans evaluates normally on its whole domain. -/
theorem C61_check_evaluates_partial {c : BsplineCurve K T} {t : K} (hc : c.check = ok ()) (hd : c.degree ≤ 7)
    (hn : c.degree + 1 ≤ c.cps.length)
    (he : EndsSeparated (nth c.knots) c.degree.toNat (c.cps.length - 1))
    (h0 : nth c.knots c.degree.toNat ≤ t) (h1 : t ≤ nth c.knots c.cps.length) :
    ∃ q, c.pointOnCurve t = ok q := by
  obtain ⟨a1, a2, a3, a4⟩ := C61_check_iff.mp hc
  have w : WellFormed c c.degree.toNat (c.cps.length - 1) :=
    { degree := by omega, pos := by omega, le7 := by omega, cps := by omega, pn := by omega,
      knots := by omega, sorted := a2 }
  have e : c.cps.length - 1 + 1 = c.cps.length := by omega
  exact ⟨_, pointOnCurve_eq w he h0 (by rw [e]; exact h1)⟩

example : exCurve.check = ok () ∧ exCurve.degree ≤ 7 ∧ exCurve.degree + 1 ≤ exCurve.cps.length := by decide +kernel

/-! ## C07 -/

/-- C07: every evaluated point is a convex combination of the `p+1` control points of the active
span. -/
theorem C07_convex_combination {c : BsplineCurve K T} {p n : ℕ} {t : K} (w : WellFormed c p n)
    (he : EndsSeparated (nth c.knots) p n) (h0 : nth c.knots p ≤ t) (h1 : t ≤ nth c.knots (n + 1)) :
    ∃ (s : ℕ) (b : ℕ → K), IsSpan (nth c.knots) p n t s ∧ (∀ r ≤ p, 0 ≤ b r) ∧ ∑ r ∈ range (p + 1), b r = 1 ∧
      c.pointOnCurve t = ok (∑ r ∈ range (p + 1), b r • nth c.cps (s - p + r)) := by
  obtain ⟨s, hs, hspan⟩ := span_isSpan w he h0 h1
  have hm := wf_monoTo w
  refine ⟨s, fun r => Nspan (nth c.knots) s p (s - p + r) t, hspan, ?_, ?_, ?_⟩
  · intro r hr
    have h5 : t ≤ nth c.knots (s + 1) := by
      rcases hspan.2.2.2.2 with h | ⟨h, _⟩
      · exact h.le
      · exact h.le
    have := hspan.1
    have := hspan.2.1
    exact Nspan_nonneg hm hspan.2.2.2.1 h5 p _ (by omega)
  · rw [← sum_rangeK hspan.1 (fun i hi => Nspan_zero _ _ _ _ _ hi)]
    have := hspan.2.1
    exact Nspan_sum hm hspan.2.2.1 p hspan.1 (by omega)
  · rw [C05_eval w he h0 h1, curvePoint_span hm (le_refl _) hspan]

theorem convex_bounds {p : ℕ} {b x : ℕ → K} {lo hi : K} (hb : ∀ r ≤ p, 0 ≤ b r) (hsum : ∑ r ∈ range (p + 1), b r = 1)
    (hx : ∀ r ≤ p, lo ≤ x r ∧ x r ≤ hi) : lo ≤ ∑ r ∈ range (p + 1), b r * x r ∧ ∑ r ∈ range (p + 1), b r * x r ≤ hi := by
  constructor
  · calc lo = ∑ r ∈ range (p + 1), b r * lo := by rw [← Finset.sum_mul, hsum, one_mul]
      _ ≤ _ := Finset.sum_le_sum (fun r hr => by
        have hr' : r ≤ p := by simp only [mem_range] at hr; omega
        exact mul_le_mul_of_nonneg_left (hx r hr').1 (hb r hr'))
  · calc _ ≤ ∑ r ∈ range (p + 1), b r * hi := Finset.sum_le_sum (fun r hr => by
        have hr' : r ≤ p := by simp only [mem_range] at hr; omega
        exact mul_le_mul_of_nonneg_left (hx r hr').2 (hb r hr'))
      _ = hi := by rw [← Finset.sum_mul, hsum, one_mul]

/-- C07: bounding box of a non-rational curve: any box that contains the control points contains
every evaluated point. -/
theorem C07_bounding_box {c : BsplineCurve K (XYZ K)} {p n : ℕ} {t : K} (w : WellFormed c p n)
    (he : EndsSeparated (nth c.knots) p n) (h0 : nth c.knots p ≤ t) (h1 : t ≤ nth c.knots (n + 1))
    {lo hi : XYZ K}
    (hbox : ∀ q ∈ c.cps, lo.x ≤ q.x ∧ q.x ≤ hi.x ∧ lo.y ≤ q.y ∧ q.y ≤ hi.y ∧ lo.z ≤ q.z ∧ q.z ≤ hi.z) :
    ∃ q, c.pointOnCurve t = ok q ∧ lo.x ≤ q.x ∧ q.x ≤ hi.x ∧ lo.y ≤ q.y ∧ q.y ≤ hi.y ∧ lo.z ≤ q.z ∧ q.z ≤ hi.z := by
  obtain ⟨s, b, hs, hb, hsum, hq⟩ := C07_convex_combination w he h0 h1
  refine ⟨_, hq, ?_⟩
  have hbox' : ∀ r ≤ p, _ := fun r (hr : r ≤ p) => hbox (nth c.cps (s - p + r)) (by
    have h1 := hs.1
    have h2 := hs.2.1
    have h3 := w.cps
    rw [nth_eq_getElem (by omega)]
    exact List.getElem_mem _)
  rw [XYZ.sum_x, XYZ.sum_y, XYZ.sum_z]
  have bx := convex_bounds hb hsum (x := fun r => (nth c.cps (s - p + r)).x) (fun r hr => ⟨(hbox' r hr).1, (hbox' r hr).2.1⟩)
  have by' := convex_bounds hb hsum (x := fun r => (nth c.cps (s - p + r)).y) (fun r hr => ⟨(hbox' r hr).2.2.1, (hbox' r hr).2.2.2.1⟩)
  have bz := convex_bounds hb hsum (x := fun r => (nth c.cps (s - p + r)).z) (fun r hr => ⟨(hbox' r hr).2.2.2.2.1, (hbox' r hr).2.2.2.2.2⟩)
  exact ⟨bx.1, bx.2, by'.1, by'.2, bz.1, bz.2⟩

/-- C07: bounding box of a rational curve whose weights are positive and above the library's zero
tolerance: any box that contains the projected control points contains every evaluated point. -/
theorem C07_bounding_box_rational {c : NurbsCurve K} {p n : ℕ} {t : K} (w : WellFormed c p n)
    (he : EndsSeparated (nth c.knots) p n) (h0 : nth c.knots p ≤ t) (h1 : t ≤ nth c.knots (n + 1))
    {lo hi : XYZ K}
    (hw : ∀ q ∈ c.cps, 1 / 1000000 * (1 + q.w) < q.w)
    (hbox : ∀ q ∈ c.cps, lo.x ≤ q.wx / q.w ∧ q.wx / q.w ≤ hi.x ∧ lo.y ≤ q.wy / q.w ∧ q.wy / q.w ≤ hi.y ∧
      lo.z ≤ q.wz / q.w ∧ q.wz / q.w ≤ hi.z) :
    ∃ q, NurbsCurve.pointOnCurve c t = ok q ∧ lo.x ≤ q.x ∧ q.x ≤ hi.x ∧ lo.y ≤ q.y ∧ q.y ≤ hi.y ∧ lo.z ≤ q.z ∧ q.z ≤ hi.z := by
  obtain ⟨s, b, hs, hb, hsum, hq⟩ := C07_convex_combination w he h0 h1
  have hmem : ∀ r ≤ p, nth c.cps (s - p + r) ∈ c.cps := fun r hr => by
    have h1 := hs.1
    have h2 := hs.2.1
    have h3 := w.cps
    rw [nth_eq_getElem (by omega)]
    exact List.getElem_mem _
  set P := fun r => nth c.cps (s - p + r) with hP
  have hwpos : ∀ r ≤ p, 0 < (P r).w := fun r hr => by
    have := hw _ (hmem r hr)
    have : 1 / 1000000 * (1 + (P r).w) < (P r).w := this
    nlinarith
  set W := ∑ r ∈ range (p + 1), b r * (P r).w with hW
  -- the total weight is above the tolerance
  have hWt : 1 / 1000000 * (1 + W) < W := by
    have hterm : ∀ r ∈ range (p + 1), b r * (1 / 1000000 * (1 + (P r).w)) ≤ b r * (P r).w := fun r hr => by
      have hr' : r ≤ p := by simp only [mem_range] at hr; omega
      exact mul_le_mul_of_nonneg_left (hw _ (hmem r hr')).le (hb r hr')
    obtain ⟨r0, hr0, hr0pos⟩ : ∃ r ∈ range (p + 1), 0 < b r := by
      by_contra hcon
      push Not at hcon
      have hz : ∑ r ∈ range (p + 1), b r ≤ 0 := Finset.sum_nonpos hcon
      rw [hsum] at hz
      linarith
    have hstrict := Finset.sum_lt_sum hterm ⟨r0, hr0, by
      have hr' : r0 ≤ p := by simp only [mem_range] at hr0; omega
      exact mul_lt_mul_of_pos_left (hw _ (hmem r0 hr')) hr0pos⟩
    have e : ∑ r ∈ range (p + 1), b r * (1 / 1000000 * (1 + (P r).w)) = 1 / 1000000 * (1 + W) := by
      have : ∀ r ∈ range (p + 1), b r * (1 / 1000000 * (1 + (P r).w)) = 1 / 1000000 * b r + 1 / 1000000 * (b r * (P r).w) := by
        intros; ring
      rw [Finset.sum_congr rfl this, Finset.sum_add_distrib, ← Finset.mul_sum, ← Finset.mul_sum, hsum]
      ring
    rw [e] at hstrict
    exact hstrict
  have hWpos : 0 < W := by nlinarith
  have hWw : (∑ r ∈ range (p + 1), b r • P r).w = W := by rw [XYZW.sum_w]
  have hval : NurbsCurve.pointOnCurve c t = ok (W⁻¹ • ∑ r ∈ range (p + 1), b r • (P r).raw) := by
    unfold NurbsCurve.pointOnCurve
    rw [hq, ok_bind, XYZW.toXYZ_eq, XYZW.sum_raw, hWw]
    rw [hWw, abs_of_pos hWpos]
    exact hWt
  refine ⟨_, hval, ?_⟩
  -- new convex coefficients
  have hb' : ∀ r ≤ p, 0 ≤ W⁻¹ * (b r * (P r).w) := fun r hr =>
    mul_nonneg (inv_nonneg.mpr hWpos.le) (mul_nonneg (hb r hr) (hwpos r hr).le)
  have hsum' : ∑ r ∈ range (p + 1), W⁻¹ * (b r * (P r).w) = 1 := by
    rw [← Finset.mul_sum, ← hW, inv_mul_cancel₀ hWpos.ne']
  have conv : ∀ f : ℕ → K, W⁻¹ * ∑ r ∈ range (p + 1), b r * f r
      = ∑ r ∈ range (p + 1), (W⁻¹ * (b r * (P r).w)) * (f r / (P r).w) := by
    intro f
    rw [Finset.mul_sum]
    apply Finset.sum_congr rfl
    intro r hr
    have hr' : r ≤ p := by simp only [mem_range] at hr; omega
    have := (hwpos r hr').ne'
    field_simp
  simp only [XYZ.smul_x, XYZ.smul_y, XYZ.smul_z]
  rw [XYZ.sum_x, XYZ.sum_y, XYZ.sum_z]
  have bx := convex_bounds hb' hsum' (x := fun r => (P r).wx / (P r).w)
    (fun r hr => ⟨(hbox _ (hmem r hr)).1, (hbox _ (hmem r hr)).2.1⟩)
  have by' := convex_bounds hb' hsum' (x := fun r => (P r).wy / (P r).w)
    (fun r hr => ⟨(hbox _ (hmem r hr)).2.2.1, (hbox _ (hmem r hr)).2.2.2.1⟩)
  have bz := convex_bounds hb' hsum' (x := fun r => (P r).wz / (P r).w)
    (fun r hr => ⟨(hbox _ (hmem r hr)).2.2.2.2.1, (hbox _ (hmem r hr)).2.2.2.2.2⟩)
  have ex : ∀ r, ((P r).raw).x = (P r).wx := fun _ => rfl
  have ey : ∀ r, ((P r).raw).y = (P r).wy := fun _ => rfl
  have ez : ∀ r, ((P r).raw).z = (P r).wz := fun _ => rfl
  simp only [ex, ey, ez]
  rw [conv, conv, conv]
  exact ⟨bx.1, bx.2, by'.1, by'.2, bz.1, bz.2⟩

/-- the hypotheses of the rational version hold for `exCurve` in the box `[0,4]×[0,2]×[0,2]` -/
example : ∃ q, NurbsCurve.pointOnCurve exCurve (1/3) = ok q ∧ (0:ℚ) ≤ q.x ∧ q.x ≤ 4 ∧ 0 ≤ q.y ∧ q.y ≤ 2 ∧ 0 ≤ q.z ∧ q.z ≤ 2 :=
  C07_bounding_box_rational exCurve_wf exKnots_ends (by decide +kernel) (by decide +kernel)
    (lo := ⟨0, 0, 0⟩) (hi := ⟨4, 2, 2⟩) (by decide +kernel) (by decide +kernel)

/-- C07 (boundary of the tolerance): positive weights below the tolerance are treated as zero and the
evaluated point leaves the hull: all projected control points have `x ≥ 10` but the result has
`x < 1`. -/
theorem C07_tiny_weights_violated :
    ∃ (c : NurbsCurve ℚ) (t : ℚ) (q : XYZ ℚ), WellFormed c 1 1 ∧ EndsSeparated (nth c.knots) 1 1 ∧ nth c.knots 1 ≤ t ∧
      t ≤ nth c.knots 2 ∧ (∀ a ∈ c.cps, 0 < a.w ∧ 10 ≤ a.wx / a.w) ∧ NurbsCurve.pointOnCurve c t = ok q ∧ q.x < 1 :=
  ⟨{ degree := 1, knots := [0, 0, 1, 1], cps := [⟨10/10000000, 0, 0, 1/10000000⟩, ⟨20/10000000, 0, 0, 1/10000000⟩] },
    1/2, ⟨15/10000000, 0, 0⟩,
    { degree := rfl, pos := by decide, le7 := by decide, cps := rfl, pn := by decide, knots := rfl,
      sorted := isValidKnotVector_nth.mp (by decide +kernel) },
    ⟨by decide +kernel, by decide +kernel⟩, by decide +kernel⟩

/-! ## C09 -/

theorem Nspan_start {U : ℕ → K} {p : ℕ} (h : ∀ i, 1 ≤ i → i ≤ p → U i = U p) (hlt : U p < U (p + 1)) :
    ∀ q ≤ p, ∀ i, Nspan U p q i (U p) = if i = p - q then 1 else 0 := by
  intro q
  induction q with
  | zero => intro _ i; simp [Nspan]
  | succ q ih =>
    intro hq i
    simp only [Nspan]
    rw [ih (by omega) i, ih (by omega) (i + 1)]
    by_cases h1 : i = p - q
    · subst h1
      rw [h (p - q) (by omega) (by omega)]
      rw [if_neg (by omega : ¬ (p - q + 1 = p - q)), if_neg (by omega : ¬ (p - q = p - (q + 1)))]
      simp
    · rw [if_neg h1]
      by_cases h2 : i = p - (q + 1)
      · subst h2
        rw [if_pos rfl, if_pos (by omega : p - (q + 1) + 1 = p - q)]
        rw [h (p - (q + 1) + 1) (by omega) (by omega)]
        have e : p - (q + 1) + q + 2 = p + 1 := by omega
        rw [e, div_self (sub_ne_zero.mpr hlt.ne')]
        simp
      · rw [if_neg h2, if_neg (by omega : ¬ (i + 1 = p - q))]
        simp

theorem Nspan_end {U : ℕ → K} {p n : ℕ} (h : ∀ i, n + 1 ≤ i → i ≤ n + p → U i = U (n + 1)) (hlt : U n < U (n + 1)) :
    ∀ q ≤ p, ∀ i, Nspan U n q i (U (n + 1)) = if i = n then 1 else 0 := by
  intro q
  induction q with
  | zero => intro _ i; simp [Nspan]
  | succ q ih =>
    intro hq i
    simp only [Nspan]
    rw [ih (by omega) i, ih (by omega) (i + 1)]
    by_cases h1 : i = n
    · subst h1
      rw [h (i + q + 1) (by omega) (by omega)]
      rw [if_neg (by omega : ¬ (i + 1 = i)), if_pos rfl, div_self (sub_ne_zero.mpr hlt.ne')]
      simp
    · rw [if_neg h1]
      by_cases h2 : i + 1 = n
      · rw [if_pos h2]
        have e : i + q + 2 = n + 1 + q := by omega
        rw [e, h (n + 1 + q) (by omega) (by omega)]
        simp
      · rw [if_neg h2]
        simp

/-- C09: a clamped curve evaluated at the first knot returns the first control point. -/
theorem C09_start {c : BsplineCurve K T} {p n : ℕ} (w : WellFormed c p n)
    (he : EndsSeparated (nth c.knots) p n) (hcl : ∀ i, i ≤ p → nth c.knots i = nth c.knots 0) :
    c.pointOnCurve (nth c.knots 0) = ok (nth c.cps 0) := by
  have hpn := w.pn
  have hk := w.knots
  have hm := wf_monoTo w
  have hlt : nth c.knots p < nth c.knots (p + 1) := by
    have h1 : (0:K) < 1 / 1000000 * (1 + max |nth c.knots p| |nth c.knots (p + 1)|) := by
      have : 0 ≤ max |nth c.knots p| |nth c.knots (p + 1)| := le_max_of_le_left (abs_nonneg _)
      positivity
    have := he.first
    linarith
  have e0 : nth c.knots 0 = nth c.knots p := (hcl p (le_refl _)).symm
  have hspan : IsSpan (nth c.knots) p n (nth c.knots p) p := ⟨le_refl _, hpn, hlt, le_refl _, Or.inl hlt⟩
  rw [e0, C05_eval w he (le_refl _) (hm _ _ (by omega) (by omega)), curvePoint_span hm (le_refl _) hspan]
  congr 1
  rw [Finset.sum_eq_single 0]
  · rw [Nspan_start (fun i _ h2 => by rw [hcl i h2, e0]) hlt p (le_refl _)]
    simp
  · intro r hr hr0
    rw [Nspan_start (fun i _ h2 => by rw [hcl i h2, e0]) hlt p (le_refl _)]
    rw [if_neg (by omega), zero_smul]
  · intro h; simp at h

/-- C09: a clamped curve evaluated at the last knot returns the last control point. -/
theorem C09_end {c : BsplineCurve K T} {p n : ℕ} (w : WellFormed c p n)
    (he : EndsSeparated (nth c.knots) p n)
    (hcl : ∀ i, n + 1 ≤ i → i ≤ n + p + 1 → nth c.knots i = nth c.knots (n + p + 1)) :
    c.pointOnCurve (nth c.knots (n + p + 1)) = ok (nth c.cps n) := by
  have hpn := w.pn
  have hk := w.knots
  have hm := wf_monoTo w
  have hlt : nth c.knots n < nth c.knots (n + 1) := by
    have h1 : (0:K) < 1 / 1000000 * (1 + max |nth c.knots n| |nth c.knots (n + 1)|) := by
      have : 0 ≤ max |nth c.knots n| |nth c.knots (n + 1)| := le_max_of_le_left (abs_nonneg _)
      positivity
    have := he.last
    linarith
  have e0 : nth c.knots (n + p + 1) = nth c.knots (n + 1) := (hcl (n + 1) (le_refl _) (by omega)).symm
  have hspan : IsSpan (nth c.knots) p n (nth c.knots (n + 1)) n := ⟨hpn, le_refl _, hlt, hlt.le, Or.inr ⟨rfl, rfl⟩⟩
  rw [e0, C05_eval w he (hm _ _ (by omega) (by omega)) (le_refl _), curvePoint_span hm (le_refl _) hspan]
  congr 1
  rw [Finset.sum_eq_single p]
  · rw [Nspan_end (fun i h1 h2 => by rw [hcl i h1 (by omega), e0]) hlt p (le_refl _)]
    rw [if_pos (by omega), one_smul]
    congr 1
    omega
  · intro r hr hr0
    simp only [mem_range] at hr
    rw [Nspan_end (fun i h1 h2 => by rw [hcl i h1 (by omega), e0]) hlt p (le_refl _)]
    rw [if_neg (by omega), zero_smul]
  · intro h; simp at h

/-- `exCurve` is clamped; the model returns its end points -/
example : (∀ i, i ≤ 2 → nth exCurve.knots i = nth exCurve.knots 0) ∧
    (∀ i, i ≤ 6 → 4 ≤ i → nth exCurve.knots i = nth exCurve.knots 6) ∧
    BsplineCurve.pointOnCurve exCurve 0 = ok ⟨0, 0, 0, 1⟩ ∧ BsplineCurve.pointOnCurve exCurve 1 = ok ⟨4, 0, 2, 1⟩ := by
  decide +kernel

/-! ## C10 -/

/-- C10: two curves that differ only in control point `i` agree at every parameter of the domain
outside the support interval `[U_i, U_{i+p+1}]`. -/
theorem C10_local_modification {c c' : BsplineCurve K T} {p n i : ℕ} {t : K} (w : WellFormed c p n) (w' : WellFormed c' p n)
    (hk : c'.knots = c.knots) (hP : ∀ j, j ≠ i → nth c'.cps j = nth c.cps j) (hi : i ≤ n)
    (he : EndsSeparated (nth c.knots) p n) (h0 : nth c.knots p ≤ t) (h1 : t ≤ nth c.knots (n + 1))
    (hout : t < nth c.knots i ∨ nth c.knots (i + p + 1) < t) :
    c'.pointOnCurve t = c.pointOnCurve t := by
  have hm := wf_monoTo w
  rw [C05_eval w he h0 h1, C05_eval w' (by rw [hk]; exact he) (by rw [hk]; exact h0) (by rw [hk]; exact h1), hk]
  obtain ⟨s, _, hs⟩ := span_isSpan w he h0 h1
  rw [curvePoint_span hm (le_refl _) hs, curvePoint_span hm (le_refl _) hs]
  congr 1
  apply Finset.sum_congr rfl
  intro r hr
  simp only [mem_range] at hr
  obtain ⟨s1, s2, s3, s4, s5⟩ := hs
  rw [hP]
  intro hc
  rcases hout with h | h
  · have := hm i s (by omega) (by omega)
    linarith
  · have h2 := hm (s + 1) (i + p + 1) (by omega) (by omega)
    rcases s5 with h3 | ⟨h3, _⟩ <;> linarith

/-- the same curve with its last control point moved: unchanged at `t = 1/4 < U_3 = 1/2` -/
def exCurve' : NurbsCurve ℚ := { exCurve with cps := [⟨0, 0, 0, 1⟩, ⟨2, 4, 0, 2⟩, ⟨3, 1, 1, 1⟩, ⟨9, 9, 9, 1⟩] }

example : BsplineCurve.pointOnCurve exCurve' (1/4) = BsplineCurve.pointOnCurve exCurve (1/4) :=
  C10_local_modification (i := 3) exCurve_wf
    { degree := rfl, pos := by decide, le7 := by decide, cps := rfl, pn := by decide, knots := rfl, sorted := exKnots_sorted }
    rfl (by
      intro j hj
      match j with
      | 0 => rfl
      | 1 => rfl
      | 2 => rfl
      | 3 => exact absurd rfl hj
      | n + 4 => rfl) (by decide) exKnots_ends (by decide +kernel) (by decide +kernel) (Or.inl (by decide +kernel))

end LNLib.Props
