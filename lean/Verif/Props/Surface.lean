import Verif.Lemmas.SurfaceOps
import Mathlib.Algebra.BigOperators.Fin

/-!
# C32 – C37, C39, C68: surfaces
(include/BsplineSurface.h, Geometry/Surface/NurbsSurface.cpp)
-/
set_option linter.unusedSectionVars false

namespace LNLib.Props
open LNLib Res Spec Finset

variable {K : Type} [Field K] [LinearOrder K] [IsStrictOrderedRing K]
variable {T : Type} [AddCommGroup T] [Module K T]

/-! ## C33 -/

/-- C33: for every well-formed surface with separated end spans and every parameter pair of its domain,
`BsplineSurface::GetPointOnSurface` runs without undefined behaviour and returns the tensor product sum. -/
theorem C33_eval {c : BsplineSurface K T} {p q n m : ℕ} {u v : K} (w : WellFormedS c p q n m)
    (he : EndsSeparatedS c p q n m) (d : InDomain c p q n m u v) :
    c.pointOnSurface u v = ok (surfacePoint (nth c.knotsU) (nth c.knotsV) p q n m (ent c.cps) u v) :=
  pointOnSurface_eq w he d

theorem surfacePoint_w {U V : ℕ → K} {p q n m : ℕ} {P : ℕ → ℕ → XYZW K} {u v : K} :
    (surfacePoint U V p q n m P u v).w = surfaceWeight U V p q n m P u v := by
  unfold surfacePoint surfaceWeight
  have : ∀ x : XYZW K, x.w = XYZW.wL x := fun _ => rfl
  rw [this, map_sum]
  refine sum_congr rfl fun i _ => ?_
  rw [map_sum]
  exact sum_congr rfl fun j _ => by rw [map_smul]; rfl

theorem surfacePoint_raw {U V : ℕ → K} {p q n m : ℕ} {P : ℕ → ℕ → XYZW K} {u v : K} :
    (surfacePoint U V p q n m P u v).raw = surfacePoint U V p q n m (fun i j => (P i j).raw) u v := by
  unfold surfacePoint
  have : ∀ x : XYZW K, x.raw = XYZW.rawL x := fun _ => rfl
  rw [this, map_sum]
  refine sum_congr rfl fun i _ => ?_
  rw [map_sum]
  exact sum_congr rfl fun j _ => by rw [map_smul]; rfl

/-- C33 (rational): `NurbsSurface::GetPointOnSurface` returns the rational tensor product point whenever the
weight function is beyond the library's zero tolerance. -/
theorem C33_eval_rational {c : NurbsSurface K} {p q n m : ℕ} {u v : K} (w : WellFormedS c p q n m)
    (he : EndsSeparatedS c p q n m) (d : InDomain c p q n m u v)
    (hw : 1 / 1000000 * (1 + |surfaceWeight (nth c.knotsU) (nth c.knotsV) p q n m (ent c.cps) u v|) <
      |surfaceWeight (nth c.knotsU) (nth c.knotsV) p q n m (ent c.cps) u v|) :
    NurbsSurface.pointOnSurface c u v = ok (rationalSurfacePoint (nth c.knotsU) (nth c.knotsV) p q n m (ent c.cps) u v) := by
  unfold NurbsSurface.pointOnSurface
  rw [C33_eval w he d, ok_bind, XYZW.toXYZ_eq (by rw [surfacePoint_w]; exact hw), surfacePoint_w, surfacePoint_raw]
  rfl

/-- C33: parameters outside the knot range (by more than the tolerance) are rejected with an exception. -/
theorem C33_out_of_range {c : BsplineSurface K T} {p q n m : ℕ} {u v : K} (w : WellFormedS c p q n m)
    (hu : u < nth c.knotsU 0 - doubleEps ∨ nth c.knotsU (n + p + 1) + doubleEps < u) :
    c.pointOnSurface u v = outOfRange := by
  unfold BsplineSurface.pointOnSurface BsplineSurface.validateUV
  have := w.knotsU
  rw [vget_nth (k := 0) (by simp) (by omega), ok_bind, vget_nth (k := n + p + 1) (by omega) (by omega), ok_bind]
  rw [validateRange_out (by rcases hu with h | h <;> [left; right] <;> exact h)]
  rfl

/-- A biquadratic-by-linear rational surface used in the examples. -/
def exSurface : NurbsSurface ℚ :=
  { degreeU := 2, degreeV := 1, knotsU := [0, 0, 0, 1/2, 1, 1, 1], knotsV := [0, 0, 1/3, 1, 1]
    cps := [[⟨0, 0, 0, 1⟩, ⟨0, 1, 0, 1⟩, ⟨0, 3, 0, 1⟩], [⟨1, 0, 1, 1⟩, ⟨2, 2, 2, 2⟩, ⟨1, 3, 1, 1⟩],
      [⟨2, 0, 1, 1⟩, ⟨2, 1, 3, 1⟩, ⟨2, 3, 0, 1⟩], [⟨3, 0, 0, 1⟩, ⟨3, 1, 0, 1⟩, ⟨3, 3, 1, 1⟩]] }

theorem exSurface_wf : WellFormedS exSurface 2 1 3 2 where
  degreeU := rfl
  degreeV := rfl
  posU := by decide
  posV := by decide
  le7U := by decide
  le7V := by decide
  cps := by unfold IsMat; decide
  pn := by decide
  qm := by decide
  knotsU := rfl
  knotsV := rfl
  sortedU := isValidKnotVector_nth.mp (by decide +kernel)
  sortedV := isValidKnotVector_nth.mp (by decide +kernel)

theorem exSurface_ends : EndsSeparatedS exSurface 2 1 3 2 :=
  ⟨⟨by decide +kernel, by decide +kernel⟩, ⟨by decide +kernel, by decide +kernel⟩⟩

theorem exSurface_dom : InDomain exSurface 2 1 3 2 (3/4) (1/2) :=
  ⟨by decide +kernel, by decide +kernel, by decide +kernel, by decide +kernel⟩

/-- C33 is not vacuous -/
example : ∃ x, NurbsSurface.pointOnSurface exSurface (3/4) (1/2) = ok x ∧
    x = rationalSurfacePoint (nth exSurface.knotsU) (nth exSurface.knotsV) 2 1 3 2 (ent exSurface.cps) (3/4) (1/2) :=
  ⟨_, C33_eval_rational exSurface_wf exSurface_ends exSurface_dom (by decide +kernel), rfl⟩

/-! ## C32 -/

/-- C32: `Swap` of a well-formed surface returns a well-formed surface with `S'(v,u) = S(u,v)` on the whole
domain, and swapping again gives the original surface back. -/
theorem C32_swap {c : BsplineSurface K T} {p q n m : ℕ} (w : WellFormedS c p q n m) :
    ∃ r, swapSurface c = ok r ∧ WellFormedS r q p m n ∧
      (EndsSeparatedS c p q n m → ∀ u v, InDomain c p q n m u v → r.pointOnSurface v u = c.pointOnSurface u v) ∧
      swapSurface r = ok c := by
  have e := transposeM_run w.cps (by omega) []
  refine ⟨_, by unfold swapSurface; rw [e, ok_bind, List.nil_append], ?_, ?_, ?_⟩
  · exact { degreeU := w.degreeV, degreeV := w.degreeU, posU := w.posV, posV := w.posU, le7U := w.le7V, le7V := w.le7U,
            cps := isMat_tab, pn := w.qm, qm := w.pn, knotsU := w.knotsV, knotsV := w.knotsU, sortedU := w.sortedV, sortedV := w.sortedU }
  · intro he u v d
    rw [C33_eval w he d, C33_eval (p := q) (q := p) (n := m) (m := n)
      { degreeU := w.degreeV, degreeV := w.degreeU, posU := w.posV, posV := w.posU, le7U := w.le7V, le7V := w.le7U,
            cps := isMat_tab, pn := w.qm, qm := w.pn, knotsU := w.knotsV, knotsV := w.knotsU, sortedU := w.sortedV, sortedV := w.sortedU }
      ⟨he.v, he.u⟩ ⟨d.v0, d.v1, d.u0, d.u1⟩]
    congr 1
    dsimp only
    rw [surfacePoint_swap]
    exact surfacePoint_congr fun i hi j hj => ent_tab (by omega) (by omega)
  · unfold swapSurface
    have e2 := transposeM_run (m := tab (m + 1) (n + 1) fun i j => ent c.cps j i) isMat_tab (by omega) []
    dsimp only
    rw [e2, ok_bind, List.nil_append]
    have : (tab (n + 1) (m + 1) fun i j => ent (tab (m + 1) (n + 1) fun i j => ent c.cps j i) j i) = c.cps :=
      (eq_tab w.cps fun i hi j hj => by rw [ent_tab hj hi]).symm
    rw [this]

/-- C32: a surface without control points is read out of bounds. -/
theorem C32_empty_ub (a b : ℤ) (U V : List K) : swapSurface (BsplineSurface.mk a b U V ([] : List (List T))) = ub := rfl

example : swapSurface ({ degreeU := 1, degreeV := 1, knotsU := [0, 0, 1, 1], knotsV := [0, 0, 1/2, 1, 1], cps := [[1, 2, 3], [4, 5, 6]] } : BsplineSurface ℚ ℚ) =
    ok { degreeU := 1, degreeV := 1, knotsU := [0, 0, 1/2, 1, 1], knotsV := [0, 0, 1, 1], cps := [[1, 4], [2, 5], [3, 6]] } := by decide +kernel

/-! ## C34 -/

/-- C34: the iso curve in the U direction at `v` is a well-formed curve whose point at `u` is the surface
point at `(u, v)`, both homogeneously and after projection. -/
theorem C34_iso_u {c : NurbsSurface K} {p q n m : ℕ} {u v : K} (w : WellFormedS c p q n m)
    (he : EndsSeparatedS c p q n m) (d : InDomain c p q n m u v) :
    ∃ r, BsplineSurface.isoCurve c v true = ok r ∧ WellFormed r p n ∧ r.knots = c.knotsU ∧
      r.pointOnCurve u = BsplineSurface.pointOnSurface c u v ∧ NurbsCurve.pointOnCurve r u = NurbsSurface.pointOnSurface c u v := by
  obtain ⟨y, hy, -, -, e⟩ := isoCurve_u (v := v) w he.v
  have hyv : y = v := by rw [hy, min_eq_left d.v1, max_eq_right d.v0]
  subst hyv
  have wf : WellFormed ({ degree := c.degreeU, knots := c.knotsU, cps := (List.range (n + 1)).map fun i => curvePoint (nth c.knotsV) q m (ent c.cps i) y } : NurbsCurve K) p n :=
    { degree := w.degreeU, pos := w.posU, le7 := w.le7U, cps := by simp, pn := w.pn, knots := w.knotsU, sorted := w.sortedU }
  have hp : BsplineCurve.pointOnCurve ({ degree := c.degreeU, knots := c.knotsU, cps := (List.range (n + 1)).map fun i => curvePoint (nth c.knotsV) q m (ent c.cps i) y } : NurbsCurve K) u
      = BsplineSurface.pointOnSurface c u y := by
    rw [C05_eval wf he.u d.u0 d.u1, C33_eval w he d, surfacePoint_eq]
    congr 1
    exact curvePoint_congr fun i hi => nth_mapRange (by omega)
  refine ⟨_, e, wf, rfl, hp, ?_⟩
  unfold NurbsCurve.pointOnCurve NurbsSurface.pointOnSurface
  rw [hp]

/-- C34: the iso curve in the V direction at `u`. -/
theorem C34_iso_v {c : NurbsSurface K} {p q n m : ℕ} {u v : K} (w : WellFormedS c p q n m)
    (he : EndsSeparatedS c p q n m) (d : InDomain c p q n m u v) :
    ∃ r, BsplineSurface.isoCurve c u false = ok r ∧ WellFormed r q m ∧ r.knots = c.knotsV ∧
      r.pointOnCurve v = BsplineSurface.pointOnSurface c u v ∧ NurbsCurve.pointOnCurve r v = NurbsSurface.pointOnSurface c u v := by
  obtain ⟨y, hy, -, -, e⟩ := isoCurve_v (u := u) w he.u
  have hyv : y = u := by rw [hy, min_eq_left d.u1, max_eq_right d.u0]
  subst hyv
  have wf : WellFormed ({ degree := c.degreeV, knots := c.knotsV, cps := (List.range (m + 1)).map fun j => curvePoint (nth c.knotsU) p n (fun i => ent c.cps i j) y } : NurbsCurve K) q m :=
    { degree := w.degreeV, pos := w.posV, le7 := w.le7V, cps := by simp, pn := w.qm, knots := w.knotsV, sorted := w.sortedV }
  have hp : BsplineCurve.pointOnCurve ({ degree := c.degreeV, knots := c.knotsV, cps := (List.range (m + 1)).map fun j => curvePoint (nth c.knotsU) p n (fun i => ent c.cps i j) y } : NurbsCurve K) v
      = BsplineSurface.pointOnSurface c y v := by
    rw [C05_eval wf he.v d.v0 d.v1, C33_eval w he d, surfacePoint_eq']
    congr 1
    exact curvePoint_congr fun i hi => nth_mapRange (by omega)
  refine ⟨_, e, wf, rfl, hp, ?_⟩
  unfold NurbsCurve.pointOnCurve NurbsSurface.pointOnSurface
  rw [hp]

/-- C34: a fixed parameter outside the domain is clamped to it: the result is the iso curve at the nearest
end of the domain. -/
theorem C34_iso_clamped {c : NurbsSurface K} {p q n m : ℕ} {v : K} (w : WellFormedS c p q n m)
    (he : EndsSeparatedS c p q n m) :
    BsplineSurface.isoCurve c v true = BsplineSurface.isoCurve c (max (nth c.knotsV q) (min v (nth c.knotsV (m + 1)))) true := by
  obtain ⟨y, hy, y0, y1, e⟩ := isoCurve_u (v := v) w he.v
  obtain ⟨y', hy', -, -, e'⟩ := isoCurve_u (v := y) w he.v
  rw [← hy, e, e', hy', min_eq_left y1, max_eq_right y0]

/-- C34 is not vacuous -/
example : ∃ r, BsplineSurface.isoCurve exSurface (1/2) true = ok r ∧
    NurbsCurve.pointOnCurve r (3/4) = NurbsSurface.pointOnSurface exSurface (3/4) (1/2) := by
  obtain ⟨r, h1, -, -, -, h2⟩ := C34_iso_u exSurface_wf exSurface_ends exSurface_dom
  exact ⟨r, h1, h2⟩

/-! ## C35 -/

/-- C35 (partial): the U direction is reversed correctly, provided the caller's output object already
holds the surface's V knot vector: the result is well-formed and `S'(a+b-u, v) = S(u, v)` at all parameters
where the surface is continuous in `u`.  The V direction and `All` are violated, see below. -/
theorem C35_reverse_u_partial {c res : BsplineSurface K T} {p q n m : ℕ} (w : WellFormedS c p q n m) (hres : res.knotsV = c.knotsV) :
    ∃ r, reverseSurface c .uDirection res = ok r ∧ WellFormedS r p q n m ∧ r.knotsV = c.knotsV ∧
      nth r.knotsU 0 = nth c.knotsU 0 ∧ nth r.knotsU (n + p + 1) = nth c.knotsU (n + p + 1) ∧
      (EndsSeparatedS c p q n m → EndsSeparated (nth r.knotsU) p n → ∀ u v, InDomain c p q n m u v →
        (nth c.knotsU p < u → u < nth c.knotsU (n + 1) → c.knotsU.count u ≤ p) →
        r.pointOnSurface (nth c.knotsU 0 + nth c.knotsU (n + p + 1) - u) v = c.pointOnSurface u v) := by
  have hl := w.knotsU
  have hpn := w.pn
  have hU := wfS_monoU w
  obtain ⟨V, g1, g2, g3⟩ := reverseKnots_run (U := c.knotsU) (by intro h; rw [h] at hl; simp at hl)
  rw [show c.knotsU.length - 1 = n + p + 1 by omega] at g3
  have hV : ∀ j, j ≤ n + p + 1 → nth V j = nth c.knotsU 0 + nth c.knotsU (n + p + 1) - nth c.knotsU (n + p + 1 - j) := fun j hj => g3 j (by omega)
  have hrows := reverseRows_run w.cps (by omega)
  have erun : reverseSurface c .uDirection res = ok { degreeU := c.degreeU, degreeV := c.degreeV, knotsU := V, knotsV := c.knotsV, cps := tab (n + 1) (m + 1) fun i j => ent c.cps (n - i) j } := by
    unfold reverseSurface
    simp only [reduceCtorEq, or_true, or_false, if_true, if_false, g1, ok_bind]
    have e1 := w.cps.1
    have e2 := w.cps.2 0 (by omega)
    rw [vget_row (k := 0) (by simp) (by omega), ok_bind, e2, e1]
    refine (congrArg (fun x => x >>= _) hrows).trans ?_
    rw [ok_bind, hres]
    simp
  have w' : WellFormedS ({ degreeU := c.degreeU, degreeV := c.degreeV, knotsU := V, knotsV := c.knotsV, cps := tab (n + 1) (m + 1) fun i j => ent c.cps (n - i) j } : BsplineSurface K T) p q n m :=
    { degreeU := w.degreeU, degreeV := w.degreeV, posU := w.posU, posV := w.posV, le7U := w.le7U, le7V := w.le7V, cps := isMat_tab, pn := w.pn, qm := w.qm,
      knotsU := by rw [g2, hl], knotsV := w.knotsV, sortedV := w.sortedV
      sortedU := by
        intro i j hij hj
        dsimp only at hj ⊢
        rw [hV i (by omega), hV j (by omega)]
        have := hU (n + p + 1 - j) (n + p + 1 - i) (by omega) (by omega)
        linarith }
  refine ⟨_, erun, w', rfl, ?_, ?_, ?_⟩
  · dsimp only
    rw [hV 0 (by omega)]; simp
  · dsimp only
    rw [hV _ (le_refl _)]; simp
  · intro he he' u v d hcnt
    have d0 : nth V p ≤ nth c.knotsU 0 + nth c.knotsU (n + p + 1) - u := by
      rw [hV p (by omega), show n + p + 1 - p = n + 1 by omega]; linarith [d.u1]
    have d1 : nth c.knotsU 0 + nth c.knotsU (n + p + 1) - u ≤ nth V (n + 1) := by
      rw [hV _ (by omega), show n + p + 1 - (n + 1) = p by omega]; linarith [d.u0]
    rw [C33_eval w he d, C33_eval w' ⟨he', he.v⟩ ⟨d0, d1, d.v0, d.v1⟩]
    obtain ⟨s, -, hs⟩ := getKnotSpanIndex_isSpan w.knotsU w.pn w.sortedU he.u d.u0 d.u1
    obtain ⟨s2, -, hs2⟩ := getKnotSpanIndex_isSpan w'.knotsU w'.pn w'.sortedU he' d0 d1
    congr 1
    rw [surfacePoint_eq, surfacePoint_eq]
    refine curvePoint_reverse hU hV ?_ hs hs2 ?_ w.posU
    · intro j hj
      dsimp only
      exact curvePoint_congr fun k hk => ent_tab (by omega) (by omega)
    · intro hlt0 hlt1 i hi hin hit hit'
      have h1 := hcnt hlt0 hlt1
      have h2 : p + 1 ≤ c.knotsU.count u := by
        refine count_block (i := i) (by omega) ?_
        intro l hl'
        have m1 := hU i (i + l) (by omega) (by omega)
        have m2 := hU (i + l) (i + p) (by omega) (by omega)
        linarith
      omega

/-- C35 (violated): reversing in the U direction into a fresh output object does not set its V knot vector:
the result does not even pass `Check`. -/
theorem C35_u_fresh_violated : ∃ r, reverseSurface exSurface .uDirection ⟨0, 0, [], [], []⟩ = ok r ∧ r.check = invalidArg :=
  ⟨_, rfl, by decide +kernel⟩

/-- C35 (violated): reversing in the V direction, whatever the output object held, yields twice as many
control point rows, the first half of them empty: the result never passes `Check`. -/
theorem C35_v_violated {c res : BsplineSurface K T} {p q n m : ℕ} (w : WellFormedS c p q n m) :
    ∃ r, reverseSurface c .vDirection res = ok r ∧ r.cps.length = 2 * (n + 1) ∧ vget r.cps 0 = ok [] ∧ r.check ≠ ok () := by
  have hl := w.knotsV
  obtain ⟨V, g1, g2, g3⟩ := reverseKnots_run (U := c.knotsV) (by intro h; rw [h] at hl; simp at hl)
  have e0 : reverseSurface c .vDirection res = ok { degreeU := c.degreeU, degreeV := c.degreeV, knotsU := res.knotsU, knotsV := V, cps := List.replicate c.cps.length [] ++ c.cps.map List.reverse } := by
    unfold reverseSurface
    simp only [reduceCtorEq, or_true, or_false, if_true, if_false, g1, ok_bind]
  have hr0 : vget (List.replicate c.cps.length ([] : List T) ++ c.cps.map List.reverse) 0 = ok [] := by
    rw [w.cps.1]; rfl
  refine ⟨_, e0, by simp [w.cps.1]; omega, hr0, ?_⟩
  unfold BsplineSurface.check
  dsimp only
  rw [hr0, ok_bind]
  have hf : isValidBspline c.degreeV V.length ([] : List T).length = false := by
    rw [g2, w.degreeV, hl]
    simp only [isValidBspline, List.length_nil, beq_eq_false_iff_ne, ne_eq]
    omega
  rw [hf]
  intro h
  have key : ∀ (b : Bool) (x : Res Unit), x ≠ ok () → (validate b >>= fun _ => x) ≠ ok () := by
    intro b x hx
    cases b
    · exact fun e => nomatch e
    · exact hx
  revert h
  iterate 8 apply key
  exact fun e => nomatch e

/-- C35 (violated): `All` reverses the control points only in the U direction although both knot vectors are
reversed; the result is not the surface traversed backwards in both directions. -/
theorem C35_all_violated :
    ∃ (c r : BsplineSurface ℚ ℚ), WellFormedS c 1 1 1 1 ∧ EndsSeparatedS c 1 1 1 1 ∧ InDomain c 1 1 1 1 0 0 ∧ reverseSurface c .all c = ok r ∧
      r.pointOnSurface (0 + 1 - 0) (0 + 1 - 0) ≠ c.pointOnSurface 0 0 :=
  ⟨{ degreeU := 1, degreeV := 1, knotsU := [0, 0, 1, 1], knotsV := [0, 0, 1, 1], cps := [[0, 1], [2, 3]] },
    { degreeU := 1, degreeV := 1, knotsU := [0, 0, 1, 1], knotsV := [0, 0, 1, 1], cps := [[2, 3], [0, 1]] },
    { degreeU := rfl, degreeV := rfl, posU := by decide, posV := by decide, le7U := by decide, le7V := by decide, cps := by unfold IsMat; decide,
      pn := by decide, qm := by decide, knotsU := rfl, knotsV := rfl,
      sortedU := isValidKnotVector_nth.mp (by decide +kernel), sortedV := isValidKnotVector_nth.mp (by decide +kernel) },
    ⟨⟨by decide +kernel, by decide +kernel⟩, ⟨by decide +kernel, by decide +kernel⟩⟩,
    ⟨by decide +kernel, by decide +kernel, by decide +kernel, by decide +kernel⟩, by decide +kernel, by decide +kernel⟩

/-- C35 is not vacuous -/
example : ∃ r, reverseSurface exSurface .uDirection exSurface = ok r ∧ BsplineSurface.pointOnSurface r (0 + 1 - 3/4) (1/2) = BsplineSurface.pointOnSurface exSurface (3/4) (1/2) := by
  obtain ⟨r, h1, -, -, -, -, h2⟩ := C35_reverse_u_partial (res := exSurface) exSurface_wf rfl
  have hr : r.knotsU = exSurface.knotsU := by
    have h3 : (reverseSurface exSurface .uDirection exSurface).bind (fun r => ok r.knotsU) = ok exSurface.knotsU := by decide +kernel
    rw [h1] at h3
    exact Res.ok.inj h3
  exact ⟨r, h1, h2 exSurface_ends (by rw [hr]; exact exSurface_ends.u) _ _ exSurface_dom (by decide +kernel)⟩

/-! ## C36 -/

/-- C36 (partial): if neither requested range agrees (up to tolerance) with the current one, the
result is well-formed, its knot vectors run over the requested ranges, and the point at the affinely mapped
parameters is the original point. -/
theorem C36_reparametrize_partial {c : BsplineSurface K T} {p q n m : ℕ} {minU maxU minV maxV : K} (w : WellFormedS c p q n m)
    (hu : minU < maxU) (hv : minV < maxV)
    (hcu : nth c.knotsU p < nth c.knotsU (n + 1)) (hcv : nth c.knotsV q < nth c.knotsV (m + 1))
    (h1 : (isAlmostEqualTo minU (nth c.knotsU 0) && isAlmostEqualTo maxU (nth c.knotsU (n + p + 1))) = false)
    (h2 : (isAlmostEqualTo minV (nth c.knotsV 0) && isAlmostEqualTo maxV (nth c.knotsV (m + q + 1))) = false) :
    ∃ r, reparametrizeSurface c minU maxU minV maxV = ok r ∧ WellFormedS r p q n m ∧ r.cps = c.cps ∧
      nth r.knotsU 0 = minU ∧ nth r.knotsU (n + p + 1) = maxU ∧ nth r.knotsV 0 = minV ∧ nth r.knotsV (m + q + 1) = maxV ∧
      (EndsSeparatedS c p q n m → EndsSeparatedS r p q n m → ∀ u v, InDomain c p q n m u v →
        r.pointOnSurface (minU + (maxU - minU) / (nth c.knotsU (n + p + 1) - nth c.knotsU 0) * (u - nth c.knotsU 0))
          (minV + (maxV - minV) / (nth c.knotsV (m + q + 1) - nth c.knotsV 0) * (v - nth c.knotsV 0)) = c.pointOnSurface u v) := by
  have hl := w.knotsU
  have hl' := w.knotsV
  have := w.pn
  have := w.qm
  have hU := wfS_monoU w
  have hV := wfS_monoV w
  have a0 := hU 0 p (by omega) (by omega)
  have a1 := hU (n + 1) (n + p + 1) (by omega) (by omega)
  have b0 := hV 0 q (by omega) (by omega)
  have b1 := hV (m + 1) (m + q + 1) (by omega) (by omega)
  have ltu : nth c.knotsU 0 < nth c.knotsU (c.knotsU.length - 1) := by rw [show c.knotsU.length - 1 = n + p + 1 by omega]; linarith
  have ltv : nth c.knotsV 0 < nth c.knotsV (c.knotsV.length - 1) := by rw [show c.knotsV.length - 1 = m + q + 1 by omega]; linarith
  obtain ⟨X, x1, x2, x3, x4, x5, x6, -⟩ := C44_rescale (mn := minU) (mx := maxU) ((isValidKnotVector_iff _).mp (isValidKnotVector_nth.mpr w.sortedU)) ltu hu
  obtain ⟨Y, y1, y2, y3, y4, y5, y6, -⟩ := C44_rescale (mn := minV) (mx := maxV) ((isValidKnotVector_iff _).mp (isValidKnotVector_nth.mpr w.sortedV)) ltv hv
  rw [show c.knotsU.length - 1 = n + p + 1 by omega] at x6 ltu
  rw [show c.knotsV.length - 1 = m + q + 1 by omega] at y6 ltv
  have e : reparametrizeSurface c minU maxU minV maxV = ok { c with knotsU := X, knotsV := Y } := by
    unfold reparametrizeSurface
    rw [vget_nth (k := 0) (by simp) (by omega), ok_bind, vget_nth (k := n + p + 1) (by omega) (by omega), ok_bind,
      vget_nth (k := 0) (by simp) (by omega), ok_bind, vget_nth (k := m + q + 1) (by omega) (by omega), ok_bind, h1, h2,
      if_neg (by simp), x1, ok_bind, y1, ok_bind]
  have w' : WellFormedS ({ c with knotsU := X, knotsV := Y } : BsplineSurface K T) p q n m :=
    { degreeU := w.degreeU, degreeV := w.degreeV, posU := w.posU, posV := w.posV, le7U := w.le7U, le7V := w.le7V, cps := w.cps, pn := w.pn, qm := w.qm,
      knotsU := by rw [x2, hl], knotsV := by rw [y2, hl'],
      sortedU := isValidKnotVector_nth.mp ((isValidKnotVector_iff _).mpr x3), sortedV := isValidKnotVector_nth.mp ((isValidKnotVector_iff _).mpr y3) }
  refine ⟨_, e, w', rfl, x4, by rw [show n + p + 1 = X.length - 1 by omega]; exact x5, y4, by rw [show m + q + 1 = Y.length - 1 by omega]; exact y5, ?_⟩
  intro he he' u v d
  set k := (maxU - minU) / (nth c.knotsU (n + p + 1) - nth c.knotsU 0) with hkd
  set k' := (maxV - minV) / (nth c.knotsV (m + q + 1) - nth c.knotsV 0) with hkd'
  have hk : 0 < k := div_pos (by linarith) (by linarith)
  have hk' : 0 < k' := div_pos (by linarith) (by linarith)
  have eu : ∀ x : K, minU + k * (x - nth c.knotsU 0) = k * x + (minU - k * nth c.knotsU 0) := fun x => by ring
  have ev : ∀ x : K, minV + k' * (x - nth c.knotsV 0) = k' * x + (minV - k' * nth c.knotsV 0) := fun x => by ring
  have hX : ∀ j, j ≤ n + p + 1 → nth X j = k * nth c.knotsU j + (minU - k * nth c.knotsU 0) := fun j hj => by rw [x6 j (by omega), eu]
  have hY : ∀ j, j ≤ m + q + 1 → nth Y j = k' * nth c.knotsV j + (minV - k' * nth c.knotsV 0) := fun j hj => by rw [y6 j (by omega), ev]
  have d' : InDomain ({ c with knotsU := X, knotsV := Y } : BsplineSurface K T) p q n m (k * u + (minU - k * nth c.knotsU 0)) (k' * v + (minV - k' * nth c.knotsV 0)) := by
    constructor
    · dsimp only; rw [hX p (by omega)]; have := mul_le_mul_of_nonneg_left d.u0 hk.le; linarith
    · dsimp only; rw [hX (n + 1) (by omega)]; have := mul_le_mul_of_nonneg_left d.u1 hk.le; linarith
    · dsimp only; rw [hY q (by omega)]; have := mul_le_mul_of_nonneg_left d.v0 hk'.le; linarith
    · dsimp only; rw [hY (m + 1) (by omega)]; have := mul_le_mul_of_nonneg_left d.v1 hk'.le; linarith
  rw [eu, ev, C33_eval w he d, C33_eval w' he' d']
  obtain ⟨s, -, hs⟩ := getKnotSpanIndex_isSpan w.knotsU w.pn w.sortedU he.u d.u0 d.u1
  obtain ⟨s2, -, hs2⟩ := getKnotSpanIndex_isSpan w.knotsV w.qm w.sortedV he.v d.v0 d.v1
  congr 1
  dsimp only
  rw [surfacePoint_eq, surfacePoint_eq, curvePoint_affine hk hU hX hs]
  exact curvePoint_congr fun i _ => curvePoint_affine hk' hV hY hs2

/-- C36 (violated): when one direction already has the requested range, the other direction is not
reparametrised at all: for every well-formed surface the request `[U_0,U_end] × [minV,maxV]` returns the surface
unchanged, whatever `minV`, `maxV` are. -/
theorem C36_one_direction_violated {c : BsplineSurface K T} {p q n m : ℕ} {minV maxV : K} (w : WellFormedS c p q n m) :
    reparametrizeSurface c (nth c.knotsU 0) (nth c.knotsU (n + p + 1)) minV maxV = ok c := by
  have hl := w.knotsU
  have hl' := w.knotsV
  unfold reparametrizeSurface
  rw [vget_nth (k := 0) (by simp) (by omega), ok_bind, vget_nth (k := n + p + 1) (by omega) (by omega), ok_bind,
      vget_nth (k := 0) (by simp) (by omega), ok_bind, vget_nth (k := m + q + 1) (by omega) (by omega), ok_bind,
      isAlmostEqualTo_self doubleEps_pos, isAlmostEqualTo_self doubleEps_pos, if_pos (by simp)]

/-- C36 is not vacuous -/
example : (isAlmostEqualTo (2 : ℚ) (nth exSurface.knotsU 0) && isAlmostEqualTo (4 : ℚ) (nth exSurface.knotsU 6)) = false ∧
    (reparametrizeSurface exSurface 2 4 0 3).bind (fun r => BsplineSurface.pointOnSurface r (7/2) (3/2)) = BsplineSurface.pointOnSurface exSurface (3/4) (1/2) := by
  decide +kernel

/-! ## C68: convex hull -/

theorem basis_convex {U : ℕ → K} {p n s : ℕ} {t : K} (hm : MonoTo U (n + p + 1)) (hs : IsSpan U p n t s) :
    (∀ i ≤ n, 0 ≤ N U (U (n + 1)) p i t) ∧ ∑ i ∈ range (n + 1), N U (U (n + 1)) p i t = 1 := by
  have h5 : t ≤ U (s + 1) := by
    rcases hs.2.2.2.2 with h | ⟨h, _⟩
    · exact h.le
    · exact h.le
  have h1 := hs.1
  have h2 := hs.2.1
  have heq : ∀ i ≤ n, N U (U (n + 1)) p i t = Nspan U s p i t := fun i hi => N_eq_Nspan hm (by omega) hs p i (by omega)
  refine ⟨fun i hi => ?_, ?_⟩
  · rw [heq i hi]
    exact Nspan_nonneg hm hs.2.2.2.1 h5 p _ (by omega)
  · rw [sum_congr rfl (fun i hi => heq i (by rw [mem_range] at hi; omega)),
      sum_window h1 h2 (f := fun i => Nspan U s p i t) (fun i hi => Nspan_zero _ _ _ _ _ hi),
      ← sum_rangeK h1 (fun i hi => Nspan_zero _ _ _ _ _ hi)]
    exact Nspan_sum hm hs.2.2.1 p h1 (by omega)

/-- weighted points with convex coefficients stay in every box that contains the projected points -/
theorem rational_hull {ι : Type} {S : Finset ι} {b : ι → K} {P : ι → XYZW K} {B : BoundingBox K}
    (hb : ∀ i ∈ S, 0 ≤ b i) (hsum : ∑ i ∈ S, b i = 1) (hw : ∀ i ∈ S, 1 / 1000000 * (1 + (P i).w) < (P i).w)
    (hbox : ∀ i ∈ S, InBox B (proj (P i))) : InBox B (∑ i ∈ S, b i • P i).toXYZ := by
  have hwpos : ∀ i ∈ S, 0 < (P i).w := fun i hi => by have := hw i hi; linarith
  set W := ∑ i ∈ S, b i * (P i).w with hW
  have hWw : (∑ i ∈ S, b i • P i).w = W := by
    have : ∀ x : XYZW K, x.w = XYZW.wL x := fun _ => rfl
    rw [this, map_sum]
    exact sum_congr rfl fun i _ => by rw [map_smul]; rfl
  have hWt : 1 / 1000000 * (1 + W) < W := by
    obtain ⟨r0, hr0, hr0pos⟩ : ∃ r ∈ S, 0 < b r := by
      by_contra hcon
      push Not at hcon
      have := Finset.sum_nonpos hcon
      linarith
    have hstrict : ∑ r ∈ S, b r * (1 / 1000000 * (1 + (P r).w)) < ∑ r ∈ S, b r * (P r).w :=
      Finset.sum_lt_sum (fun r hr => mul_le_mul_of_nonneg_left (hw r hr).le (hb r hr)) ⟨r0, hr0, mul_lt_mul_of_pos_left (hw r0 hr0) hr0pos⟩
    have e : ∑ r ∈ S, b r * (1 / 1000000 * (1 + (P r).w)) = 1 / 1000000 * (1 + W) := by
      have : ∀ r ∈ S, b r * (1 / 1000000 * (1 + (P r).w)) = 1 / 1000000 * b r + 1 / 1000000 * (b r * (P r).w) := by
        intros; ring
      rw [Finset.sum_congr rfl this, Finset.sum_add_distrib, ← Finset.mul_sum, ← Finset.mul_sum, hsum]
      ring
    rwa [e] at hstrict
  have hWpos : 0 < W := by linarith
  have key : ∀ (L : XYZ K →ₗ[K] K) (lo hi : K), (∀ i ∈ S, lo ≤ L (P i).raw / (P i).w ∧ L (P i).raw / (P i).w ≤ hi) →
      lo ≤ W⁻¹ * L (∑ i ∈ S, b i • P i).raw ∧ W⁻¹ * L (∑ i ∈ S, b i • P i).raw ≤ hi := by
    intro L lo hi hL
    have e1 : L (∑ i ∈ S, b i • P i).raw = ∑ i ∈ S, b i * L (P i).raw := by
      have : ∀ x : XYZW K, x.raw = XYZW.rawL x := fun _ => rfl
      rw [this, map_sum, map_sum]
      exact sum_congr rfl fun i _ => by rw [map_smul, map_smul]; rfl
    have lower : lo * W ≤ ∑ i ∈ S, b i * L (P i).raw := by
      rw [hW, Finset.mul_sum]
      refine Finset.sum_le_sum fun i hi => ?_
      have := (le_div_iff₀ (hwpos i hi)).mp (hL i hi).1
      have := mul_le_mul_of_nonneg_left this (hb i hi)
      linarith
    have upper : ∑ i ∈ S, b i * L (P i).raw ≤ hi * W := by
      rw [hW, Finset.mul_sum]
      refine Finset.sum_le_sum fun i hi' => ?_
      have := (div_le_iff₀ (hwpos i hi')).mp (hL i hi').2
      have := mul_le_mul_of_nonneg_left this (hb i hi')
      linarith
    rw [e1, inv_mul_eq_div]
    exact ⟨(le_div_iff₀ hWpos).mpr lower, (div_le_iff₀ hWpos).mpr upper⟩
  rw [XYZW.toXYZ_eq (by rw [hWw, abs_of_pos hWpos]; exact hWt), hWw]
  obtain ⟨x1, x2⟩ := key XYZ.xL B.lo.x B.hi.x fun i hi => ⟨(hbox i hi).1, (hbox i hi).2.1⟩
  obtain ⟨y1, y2⟩ := key XYZ.yL B.lo.y B.hi.y fun i hi => ⟨(hbox i hi).2.2.1, (hbox i hi).2.2.2.1⟩
  obtain ⟨z1, z2⟩ := key XYZ.zL B.lo.z B.hi.z fun i hi => ⟨(hbox i hi).2.2.2.2.1, (hbox i hi).2.2.2.2.2⟩
  exact ⟨x1, x2, y1, y2, z1, z2⟩

/-- C68: every evaluated point of a rational surface with weights above the library's zero tolerance lies in
every box that contains the projected control points. -/
theorem C68_convex_hull {c : NurbsSurface K} {p q n m : ℕ} {u v : K} {B : BoundingBox K} (w : WellFormedS c p q n m)
    (he : EndsSeparatedS c p q n m) (d : InDomain c p q n m u v)
    (hw : ∀ row ∈ c.cps, ∀ x ∈ row, 1 / 1000000 * (1 + x.w) < x.w)
    (hbox : ∀ row ∈ c.cps, ∀ x ∈ row, InBox B (proj x)) :
    ∃ x, NurbsSurface.pointOnSurface c u v = ok x ∧ InBox B x := by
  obtain ⟨s, -, hs⟩ := getKnotSpanIndex_isSpan w.knotsU w.pn w.sortedU he.u d.u0 d.u1
  obtain ⟨s2, -, hs2⟩ := getKnotSpanIndex_isSpan w.knotsV w.qm w.sortedV he.v d.v0 d.v1
  obtain ⟨bu, su⟩ := basis_convex (wfS_monoU w) hs
  obtain ⟨bv, sv⟩ := basis_convex (wfS_monoV w) hs2
  have hmem : ∀ i ≤ n, ∀ j ≤ m, ∃ row ∈ c.cps, ent c.cps i j ∈ row := by
    intro i hi j hj
    have h1 : i < c.cps.length := by rw [w.cps.1]; omega
    have h2 : j < (row c.cps i).length := by rw [w.cps.2 i (by omega)]; omega
    refine ⟨row c.cps i, ?_, ?_⟩
    · have : row c.cps i = c.cps[i] := by simp [row, h1]
      rw [this]; exact List.getElem_mem _
    · unfold ent
      rw [nth_eq_getElem h2]; exact List.getElem_mem _
  unfold NurbsSurface.pointOnSurface
  rw [C33_eval w he d, ok_bind]
  refine ⟨_, rfl, ?_⟩
  unfold surfacePoint
  rw [← Finset.sum_product']
  refine rational_hull (S := range (n + 1) ×ˢ range (m + 1))
    (b := fun x => N (nth c.knotsU) (nth c.knotsU (n + 1)) p x.1 u * N (nth c.knotsV) (nth c.knotsV (m + 1)) q x.2 v)
    (P := fun x => ent c.cps x.1 x.2) ?_ ?_ ?_ ?_
  · rintro ⟨i, j⟩ hi
    simp only [mem_product, mem_range] at hi
    exact mul_nonneg (bu i (by omega)) (bv j (by omega))
  · rw [Finset.sum_product' (f := fun i j => N (nth c.knotsU) (nth c.knotsU (n + 1)) p i u * N (nth c.knotsV) (nth c.knotsV (m + 1)) q j v)]
    simp only [← Finset.mul_sum, sv, mul_one, su]
  · rintro ⟨i, j⟩ hi
    simp only [mem_product, mem_range] at hi
    obtain ⟨r, hr, hx⟩ := hmem i (by omega) j (by omega)
    exact hw r hr _ hx
  · rintro ⟨i, j⟩ hi
    simp only [mem_product, mem_range] at hi
    obtain ⟨r, hr, hx⟩ := hmem i (by omega) j (by omega)
    exact hbox r hr _ hx

/-- C68 is not vacuous -/
example : ∃ x, NurbsSurface.pointOnSurface exSurface (3/4) (1/2) = ok x ∧ InBox (⟨⟨0, 0, 0⟩, ⟨3, 3, 3⟩⟩ : BoundingBox ℚ) x :=
  C68_convex_hull exSurface_wf exSurface_ends exSurface_dom (by decide +kernel) (by unfold InBox proj; decide +kernel)

/-! ## C37 -/

/-- C37 (violated): the box returned by `GetBoundingBox` need not contain the surface.  The control net has
`z`-values 0, 1, 0 in the V direction, the samples are taken only at knot pairs (all with `z = 0`), and the
intersection of the two boxes loses the bump: the box has `z ≤ 0`, the surface point at `v = 1/2` has
`z = 1/2`. -/
theorem C37_box_violated :
    ∃ (c : NurbsSurface ℚ) (b : BoundingBox ℚ) (x : XYZ ℚ), WellFormedS c 1 2 1 2 ∧ EndsSeparatedS c 1 2 1 2 ∧ InDomain c 1 2 1 2 0 (1/2) ∧
      (∀ row ∈ c.cps, ∀ y ∈ row, y.w = 1) ∧ NurbsSurface.boundingBox c = ok b ∧ NurbsSurface.pointOnSurface c 0 (1/2) = ok x ∧ ¬ InBox b x :=
  ⟨{ degreeU := 1, degreeV := 2, knotsU := [0, 0, 1, 1], knotsV := [0, 0, 0, 1, 1, 1],
     cps := [[⟨0, 0, 0, 1⟩, ⟨1, 0, 1, 1⟩, ⟨2, 0, 0, 1⟩], [⟨0, 1, 0, 1⟩, ⟨1, 1, 1, 1⟩, ⟨2, 1, 0, 1⟩]] },
    ⟨⟨0, 0, 0⟩, ⟨0, 1, 0⟩⟩, ⟨1, 0, 1/2⟩,
    { degreeU := rfl, degreeV := rfl, posU := by decide, posV := by decide, le7U := by decide, le7V := by decide, cps := by unfold IsMat; decide,
      pn := by decide, qm := by decide, knotsU := rfl, knotsV := rfl,
      sortedU := isValidKnotVector_nth.mp (by decide +kernel), sortedV := isValidKnotVector_nth.mp (by decide +kernel) },
    ⟨⟨by decide +kernel, by decide +kernel⟩, ⟨by decide +kernel, by decide +kernel⟩⟩,
    ⟨by decide +kernel, by decide +kernel, by decide +kernel, by decide +kernel⟩, by decide +kernel, by decide +kernel, by decide +kernel,
    by unfold InBox; decide +kernel⟩

/-- C37 (violated): a valid surface with more U knots than V knots makes `GetBoundingBox` read the V knot
vector out of bounds. -/
theorem C37_box_ub : NurbsSurface.boundingBox ({ degreeU := 2, degreeV := 1, knotsU := [0, 0, 0, 1, 1, 1], knotsV := [0, 0, 1, 1], cps := [[⟨0, 0, 0, 1⟩, ⟨0, 1, 0, 1⟩], [⟨1, 0, 1, 1⟩, ⟨1, 1, 1, 1⟩], [⟨2, 0, 0, 1⟩, ⟨2, 1, 0, 1⟩]] } : NurbsSurface ℚ) = ub := by
  decide +kernel

theorem inBox_extend {b : BoundingBox K} {x y : XYZ K} (h : InBox b y ∨ y = x) : InBox (b.extend x) y := by
  rcases h with ⟨h1, h2, h3, h4, h5, h6⟩ | rfl
  · exact ⟨min_le_of_left_le h1, le_max_of_le_left h2, min_le_of_left_le h3, le_max_of_le_left h4, min_le_of_left_le h5, le_max_of_le_left h6⟩
  · exact ⟨min_le_right _ _, le_max_right _ _, min_le_right _ _, le_max_right _ _, min_le_right _ _, le_max_right _ _⟩

/-- `a` lies inside `b` -/
def SubBox (a b : BoundingBox K) : Prop :=
  b.lo.x ≤ a.lo.x ∧ a.hi.x ≤ b.hi.x ∧ b.lo.y ≤ a.lo.y ∧ a.hi.y ≤ b.hi.y ∧ b.lo.z ≤ a.lo.z ∧ a.hi.z ≤ b.hi.z

theorem subBox_extend {a b : BoundingBox K} {x : XYZ K} (h : SubBox a b) (hx : InBox b x) : SubBox (a.extend x) b := by
  obtain ⟨h1, h2, h3, h4, h5, h6⟩ := h
  obtain ⟨g1, g2, g3, g4, g5, g6⟩ := hx
  exact ⟨le_min h1 g1, max_le h2 g2, le_min h3 g3, max_le h4 g4, le_min h5 g5, max_le h6 g6⟩

theorem foldRow_box (row : List (XYZW K)) (b : BoundingBox K) :
    (∀ y, (InBox b y ∨ ∃ q ∈ row, y = q.toXYZ) → InBox (row.foldl (fun (b : BoundingBox K) (q : XYZW K) => b.extend q.toXYZ) b) y) ∧
    ∀ B, SubBox b B → (∀ q ∈ row, InBox B q.toXYZ) → SubBox (row.foldl (fun (b : BoundingBox K) (q : XYZW K) => b.extend q.toXYZ) b) B := by
  induction row generalizing b with
  | nil => exact ⟨fun y h => h.elim id (fun ⟨_, h, _⟩ => absurd h (by simp)), fun B h _ => h⟩
  | cons x l ih =>
    obtain ⟨i1, i2⟩ := ih (b.extend x.toXYZ)
    refine ⟨fun y h => i1 y ?_, fun B h hB => i2 B (subBox_extend h (hB x (by simp))) fun q hq => hB q (by simp [hq])⟩
    rcases h with h | ⟨q, hq, rfl⟩
    · exact Or.inl (inBox_extend (Or.inl h))
    · rcases List.mem_cons.mp hq with rfl | hq
      · exact Or.inl (inBox_extend (Or.inr rfl))
      · exact Or.inr ⟨q, hq, rfl⟩

theorem foldRows_box (rows : List (List (XYZW K))) (b : BoundingBox K) :
    (∀ y, (InBox b y ∨ ∃ row ∈ rows, ∃ q ∈ row, y = q.toXYZ) →
      InBox (rows.foldl (fun (b : BoundingBox K) row => row.foldl (fun (b : BoundingBox K) (q : XYZW K) => b.extend q.toXYZ) b) b) y) ∧
    ∀ B, SubBox b B → (∀ row ∈ rows, ∀ q ∈ row, InBox B q.toXYZ) →
      SubBox (rows.foldl (fun (b : BoundingBox K) row => row.foldl (fun (b : BoundingBox K) (q : XYZW K) => b.extend q.toXYZ) b) b) B := by
  induction rows generalizing b with
  | nil => exact ⟨fun y h => h.elim id (fun ⟨_, h, _⟩ => absurd h (by simp)), fun B h _ => h⟩
  | cons r l ih =>
    obtain ⟨j1, j2⟩ := foldRow_box r b
    obtain ⟨i1, i2⟩ := ih (r.foldl (fun (b : BoundingBox K) (q : XYZW K) => b.extend q.toXYZ) b)
    refine ⟨fun y h => i1 y ?_, fun B h hB => i2 B (j2 B h (hB r (by simp))) fun row hq => hB row (by simp [hq])⟩
    rcases h with h | ⟨row, hr, q, hq, rfl⟩
    · exact Or.inl (j1 _ (Or.inl h))
    · rcases List.mem_cons.mp hr with rfl | hr
      · exact Or.inl (j1 _ (Or.inr ⟨q, hq, rfl⟩))
      · exact Or.inr ⟨row, hr, q, hq, rfl⟩

theorem toXYZ_proj {x : XYZW K} (h : 1 / 1000000 * (1 + x.w) < x.w) : x.toXYZ = proj x := by
  have : 0 < x.w := by linarith
  rw [XYZW.toXYZ_eq (by rwa [abs_of_pos this])]
  cases x
  simp only [proj, XYZW.raw, div_eq_inv_mul]
  rfl

/-- C37 (partial): for a clamped surface with weights above the zero tolerance and no more U knots than
V knots plus one, `GetBoundingBox` succeeds, its box lies inside every box around the control points, and
it contains the diagonal sample points `S(U_i, V_i)`.  It does not contain the surface in general, see
`C37_box_violated`. -/
theorem C37_samples_partial {c : NurbsSurface K} {p q n m : ℕ} (w : WellFormedS c p q n m) (he : EndsSeparatedS c p q n m)
    (hw : ∀ row ∈ c.cps, ∀ x ∈ row, 1 / 1000000 * (1 + x.w) < x.w)
    (hu0 : nth c.knotsU 0 = nth c.knotsU p) (hu1 : nth c.knotsU (n + 1) = nth c.knotsU (n + p + 1))
    (hv0 : nth c.knotsV 0 = nth c.knotsV q) (hv1 : nth c.knotsV (m + 1) = nth c.knotsV (m + q + 1))
    (hsz : n + p + 1 ≤ m + q + 2) :
    ∃ b, NurbsSurface.boundingBox c = ok b ∧
      (∀ B, (∀ row ∈ c.cps, ∀ x ∈ row, InBox B (proj x)) → SubBox b B) ∧
      ∀ i < n + p + 1, ∃ x, NurbsSurface.pointOnSurface c (nth c.knotsU i) (nth c.knotsV i) = ok x ∧ InBox b x := by
  have hl := w.knotsU
  have hl' := w.knotsV
  have := w.pn
  have := w.qm
  have hU := wfS_monoU w
  have hV := wfS_monoV w
  have dom : ∀ i < n + p + 1, InDomain c p q n m (nth c.knotsU i) (nth c.knotsV i) := by
    intro i hi
    refine ⟨?_, ?_, ?_, ?_⟩
    · rw [← hu0]; exact hU 0 i (by omega) (by omega)
    · rw [hu1]; exact hU i _ (by omega) (by omega)
    · rw [← hv0]; exact hV 0 i (by omega) (by omega)
    · rw [hv1]; exact hV i _ (by omega) (by omega)
  have hr0 : row c.cps 0 ∈ c.cps := by
    have h1 : 0 < c.cps.length := by rw [w.cps.1]; omega
    have : row c.cps 0 = c.cps[0] := by simp [row, h1]
    rw [this]; exact List.getElem_mem _
  have hr0l : 0 < (row c.cps 0).length := by rw [w.cps.2 0 (by omega)]; omega
  have hp0 : nth (row c.cps 0) 0 ∈ row c.cps 0 := by rw [nth_eq_getElem hr0l]; exact List.getElem_mem _
  set b0 : BoundingBox K := ⟨(nth (row c.cps 0) 0).toXYZ, (nth (row c.cps 0) 0).toXYZ⟩ with hb0
  obtain ⟨f1, f2⟩ := foldRows_box c.cps b0
  set box0 := c.cps.foldl (fun (b : BoundingBox K) row => row.foldl (fun (b : BoundingBox K) (q : XYZW K) => b.extend q.toXYZ) b) b0 with hbox0
  have hcp : ∀ row ∈ c.cps, ∀ x ∈ row, InBox box0 (proj x) := fun r hr x hx => by
    rw [← toXYZ_proj (hw r hr x hx)]; exact f1 _ (Or.inr ⟨r, hr, x, hx, rfl⟩)
  have hsub : ∀ B, (∀ row ∈ c.cps, ∀ x ∈ row, InBox B (proj x)) → SubBox box0 B := fun B hB => by
    refine f2 B ?_ fun r hr x hx => by rw [toXYZ_proj (hw r hr x hx)]; exact hB r hr x hx
    have := hB _ hr0 _ hp0
    rw [← toXYZ_proj (hw _ hr0 _ hp0)] at this
    exact this
  have pts : ∀ i < n + p + 1, ∃ x, NurbsSurface.pointOnSurface c (nth c.knotsU i) (nth c.knotsV i) = ok x ∧ InBox box0 x :=
    fun i hi => C68_convex_hull w he (dom i hi) hw hcp
  have loop : Runs (forI 0 (sizePred c.knotsU.length) (⟨0, 0⟩ : BoundingBox K) fun i box1 =>
        forI 0 (sizePred c.knotsV.length) box1 fun _ box1 => do
          let u ← vget c.knotsU i
          let v ← vget c.knotsV i
          let pt ← NurbsSurface.pointOnSurface c u v
          ok (box1.extend pt))
      (fun b => ∀ i < n + p + 1, ∃ x, NurbsSurface.pointOnSurface c (nth c.knotsU i) (nth c.knotsV i) = ok x ∧ InBox b x) := by
    refine (Runs.forN (m := 0) (n := n + p + 1)
      (fun k b => ∀ i < k, ∃ x, NurbsSurface.pointOnSurface c (nth c.knotsU i) (nth c.knotsV i) = ok x ∧ InBox b x)
      rfl (by rw [hl]; simp only [sizePred]; split <;> push_cast <;> omega) (by omega) (fun i hi => absurd hi (by omega)) ?_).mono fun b hb => hb
    intro i b hi0 hi hb
    obtain ⟨x, hx, -⟩ := pts i hi
    refine (Runs.forN (m := 0) (n := m + q + 1)
      (fun k b => (∀ i' < i, ∃ x, NurbsSurface.pointOnSurface c (nth c.knotsU i') (nth c.knotsV i') = ok x ∧ InBox b x) ∧ (0 < k → InBox b x))
      rfl (by rw [hl']; simp only [sizePred]; split <;> push_cast <;> omega) (by omega) ⟨hb, fun h => absurd h (by omega)⟩ ?_).mono ?_
    · intro j b _ hj ⟨hb1, hb2⟩
      rw [vget_nth (k := i) rfl (by omega), ok_bind, vget_nth (k := i) rfl (by omega), ok_bind, hx, ok_bind]
      refine Runs.ok ⟨fun i' hi' => ?_, fun _ => inBox_extend (Or.inr rfl)⟩
      obtain ⟨y, hy, hyb⟩ := hb1 i' hi'
      exact ⟨y, hy, inBox_extend (Or.inl hyb)⟩
    · rintro b ⟨hb1, hb2⟩ i' hi'
      rcases Nat.lt_succ_iff_lt_or_eq.mp hi' with h | rfl
      · exact hb1 i' h
      · exact ⟨x, hx, hb2 (by omega)⟩
  obtain ⟨box1, e1, hbox1⟩ := loop
  refine ⟨⟨⟨max box0.lo.x box1.lo.x, max box0.lo.y box1.lo.y, max box0.lo.z box1.lo.z⟩,
        ⟨min box0.hi.x box1.hi.x, min box0.hi.y box1.hi.y, min box0.hi.z box1.hi.z⟩⟩, ?_, ?_, ?_⟩
  · unfold NurbsSurface.boundingBox
    rw [if_neg (by rw [w.cps.1]; omega), vget_row (k := 0) (i := 0) rfl (by rw [w.cps.1]; omega), ok_bind, if_neg (by omega),
      vget_nth (k := 0) (i := 0) rfl hr0l, ok_bind]
    dsimp only
    rw [e1, ok_bind]
  · intro B hB
    obtain ⟨h1, h2, h3, h4, h5, h6⟩ := hsub B hB
    exact ⟨le_max_of_le_left h1, min_le_of_left_le h2, le_max_of_le_left h3, min_le_of_left_le h4, le_max_of_le_left h5, min_le_of_left_le h6⟩
  · intro i hi
    obtain ⟨x, hx, h1, h2, h3, h4, h5, h6⟩ := pts i hi
    obtain ⟨x', hx', g1, g2, g3, g4, g5, g6⟩ := hbox1 i hi
    obtain rfl : x = x' := Res.ok.inj (hx.symm.trans hx')
    exact ⟨x, hx, max_le h1 g1, le_min h2 g2, max_le h3 g3, le_min h4 g4, max_le h5 g5, le_min h6 g6⟩

/-- `exSurface` with the directions exchanged -/
def exSurfaceT : NurbsSurface ℚ :=
  { degreeU := 1, degreeV := 2, knotsU := [0, 0, 1/3, 1, 1], knotsV := [0, 0, 0, 1/2, 1, 1, 1]
    cps := [[⟨0, 0, 0, 1⟩, ⟨1, 0, 1, 1⟩, ⟨2, 0, 1, 1⟩, ⟨3, 0, 0, 1⟩], [⟨0, 1, 0, 1⟩, ⟨2, 2, 2, 2⟩, ⟨2, 1, 3, 1⟩, ⟨3, 1, 0, 1⟩],
      [⟨0, 3, 0, 1⟩, ⟨1, 3, 1, 1⟩, ⟨2, 3, 0, 1⟩, ⟨3, 3, 1, 1⟩]] }

theorem exSurfaceT_wf : WellFormedS exSurfaceT 1 2 2 3 := by
  obtain ⟨r, h1, h2, -⟩ := C32_swap exSurface_wf
  have : swapSurface exSurface = ok exSurfaceT := by decide +kernel
  rw [this] at h1
  cases h1
  exact h2

/-- C37 is not vacuous -/
example : ∃ b, NurbsSurface.boundingBox exSurfaceT = ok b ∧ ∃ x, NurbsSurface.pointOnSurface exSurfaceT (nth exSurfaceT.knotsU 2) (nth exSurfaceT.knotsV 2) = ok x ∧ InBox b x := by
  obtain ⟨b, h1, -, h2⟩ := C37_samples_partial exSurfaceT_wf ⟨exSurface_ends.v, exSurface_ends.u⟩ (by decide +kernel) (by decide +kernel) (by decide +kernel) (by decide +kernel) (by decide +kernel) (by decide)
  exact ⟨b, h1, h2 2 (by decide)⟩

/-! ## C39 -/

theorem cubic_bezier {P : ℕ → T} {t : K} (h0 : 0 ≤ t) (h1 : t ≤ 1) :
    curvePoint (nth ([0, 0, 0, 0, 1, 1, 1, 1] : List K)) 3 3 P t =
      ((1 - t) ^ 3) • P 0 + (3 * t * (1 - t) ^ 2) • P 1 + (3 * t ^ 2 * (1 - t)) • P 2 + (t ^ 3) • P 3 := by
  have hm : MonoTo (nth ([0, 0, 0, 0, 1, 1, 1, 1] : List K)) 7 := by
    intro i j hij hj
    refine isValidKnotVector_nth.mp ?_ i j hij (by simpa using Nat.lt_succ_of_le hj)
    rw [isValidKnotVector_iff]
    simp
  have hs : IsSpan (nth ([0, 0, 0, 0, 1, 1, 1, 1] : List K)) 3 3 t 3 := by
    refine ⟨le_refl _, le_refl _, ?_, h0, ?_⟩
    · show (0 : K) < 1; exact zero_lt_one
    · rcases lt_or_eq_of_le h1 with h | h
      · exact Or.inl h
      · exact Or.inr ⟨h, rfl⟩
  rw [curvePoint_span hm (le_refl _) hs]
  simp only [Finset.sum_range_succ, Finset.sum_range_zero, Nat.sub_self, zero_add, Nspan, nth_cons_succ, nth_cons_zero]
  have e : ∀ a b c d a' b' c' d' : K, a = a' → b = b' → c = c' → d = d' →
      a • P 0 + b • P 1 + c • P 2 + d • P 3 = a' • P 0 + b' • P 1 + c' • P 2 + d' • P 3 := by
    rintro a b c d a' b' c' d' rfl rfl rfl rfl; rfl
  apply e
  · simp; ring
  · simp; ring
  · simp; ring
  · simp; ring

/-- C39: `CreateBilinearSurface` returns a well-formed bicubic surface over `[0,1]²` whose point at every
`(u, v)` of the unit square is the bilinear interpolant of the four corners (with `u` from top to bottom and
`v` from left to right). -/
theorem C39_bilinear (a b c d : XYZ K) :
    ∃ s, createBilinearSurface a b c d = ok s ∧ WellFormedS s 3 3 3 3 ∧ s.check = ok () ∧
      ∀ u v : K, 0 ≤ u → u ≤ 1 → 0 ≤ v → v ≤ 1 → NurbsSurface.pointOnSurface s u v = ok (bilinear a b c d u v) := by
  set f : ℕ → ℕ → XYZW K := fun i j => XYZW.ofXYZ ((1 - ((j : ℤ) : K) / 3) • ((1 - ((i : ℤ) : K) / 3) • a + (1 - (1 - ((i : ℤ) : K) / 3)) • c)
    + (((j : ℤ) : K) / 3) • ((1 - ((i : ℤ) : K) / 3) • b + (1 - (1 - ((i : ℤ) : K) / 3)) • d)) 1 with hf
  have run : createBilinearSurface a b c d = ok { degreeU := 3, degreeV := 3, knotsU := [0, 0, 0, 0, 1, 1, 1, 1], knotsV := [0, 0, 0, 0, 1, 1, 1, 1], cps := tab 4 4 f } := rfl
  have hv : isValidKnotVector ([0, 0, 0, 0, 1, 1, 1, 1] : List K) = true := by
    rw [isValidKnotVector_iff]; simp
  have wf : WellFormedS ({ degreeU := 3, degreeV := 3, knotsU := [0, 0, 0, 0, 1, 1, 1, 1], knotsV := [0, 0, 0, 0, 1, 1, 1, 1], cps := tab 4 4 f } : NurbsSurface K) 3 3 3 3 :=
    { degreeU := rfl, degreeV := rfl, posU := by decide, posV := by decide, le7U := by decide, le7V := by decide, cps := isMat_tab,
      pn := le_refl _, qm := le_refl _, knotsU := rfl, knotsV := rfl, sortedU := isValidKnotVector_nth.mp hv, sortedV := isValidKnotVector_nth.mp hv }
  refine ⟨_, run, wf, ?_, ?_⟩
  · unfold BsplineSurface.check
    dsimp only
    rw [hv]
    rfl
  · intro u v u0 u1 v0 v1
    have ends : EndsSeparated (nth ([0, 0, 0, 0, 1, 1, 1, 1] : List K)) 3 3 := by
      constructor <;> simp [nth] <;> norm_num
    unfold NurbsSurface.pointOnSurface
    rw [C33_eval wf ⟨ends, ends⟩ ⟨u0, u1, v0, v1⟩, ok_bind]
    have key : surfacePoint (nth ([0, 0, 0, 0, 1, 1, 1, 1] : List K)) (nth ([0, 0, 0, 0, 1, 1, 1, 1] : List K)) 3 3 3 3 (ent (tab 4 4 f)) u v
        = XYZW.ofXYZ (bilinear a b c d u v) 1 := by
      rw [surfacePoint_eq, cubic_bezier u0 u1]
      simp only [cubic_bezier v0 v1]
      simp only [ent_tab (show 0 < 4 by decide), ent_tab (show 1 < 4 by decide), ent_tab (show 2 < 4 by decide), ent_tab (show 3 < 4 by decide),
        show 0 < 4 by decide, show 1 < 4 by decide, show 2 < 4 by decide, show 3 < 4 by decide, hf, bilinear]
      ext <;> simp [XYZW.ofXYZ] <;> ring
    rw [key, XYZW.toXYZ_eq (by simp only [XYZW.ofXYZ, abs_one]; norm_num)]
    simp [XYZW.ofXYZ, XYZW.raw]

/-- C39 is not vacuous: a twisted patch -/
example : ∃ s, createBilinearSurface (⟨0, 0, 0⟩ : XYZ ℚ) ⟨1, 0, 1⟩ ⟨0, 1, 1⟩ ⟨1, 1, 0⟩ = ok s ∧ NurbsSurface.pointOnSurface s (1/4) (1/2) = ok ⟨1/2, 1/4, 1/2⟩ := by
  obtain ⟨s, h1, -, -, h2⟩ := C39_bilinear (⟨0, 0, 0⟩ : XYZ ℚ) ⟨1, 0, 1⟩ ⟨0, 1, 1⟩ ⟨1, 1, 0⟩
  exact ⟨s, h1, by rw [h2 (1/4) (1/2) (by norm_num) (by norm_num) (by norm_num) (by norm_num)]; decide +kernel⟩

end LNLib.Props
