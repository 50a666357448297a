import Verif.Model.Offset
import Verif.Props.BasisDers
import Verif.Props.FitConic
import Verif.Props.ProjectNormal
import Verif.Props.Reshape
import Verif.Props.DiffGeom
import Verif.Props.Nearest

/-!
# C147: offset curves
-/

namespace LNLib.Props
open LNLib Res LNLib.Spec Finset

/-- "`q` is the control point `P` moved by `offset` along the normal of the curve at the parameter that the library finds for `P`" (to one side or the other) -/
def IsOffset (c : NurbsCurve ℝ) (offset : ℝ) (P : XYZW ℝ) (q : XYZ ℝ) : Prop :=
  ∃ t N, getParamOnCurve c P.toXYZ = ok t ∧ NurbsCurve.normal c .normal t = ok N ∧ (q = P.toXYZ + offset • N ∨ q = P.toXYZ - offset • N)

theorem offsetPoint_inv {c : NurbsCurve ℝ} {offset : ℝ} {f : XYZ ℝ} {P : XYZW ℝ} {q : XYZ ℝ} (h : offsetPoint c offset f P = ok q) : IsOffset c offset P q := by
  unfold offsetPoint at h
  dsimp only at h
  obtain ⟨t, h1, h⟩ := bind_eq_ok.mp h
  obtain ⟨N, h2, h⟩ := bind_eq_ok.mp h
  cases h
  refine ⟨t, N, h1, h2, ?_⟩
  split
  · right; rw [smul_neg, sub_eq_add_neg]
  · left; rfl

theorem rays_first {p0 v0 p1 v1 : XYZ ℝ} {t0 t1 : ℝ} (hmeet : p0 + t0 • v0 = p1 + t1 • v1) (hd : (v0.cross v1).sqrLength ≠ 0) :
    (v0.dot v1 * v1.dot (p0 - p1) - v1.dot v1 * v0.dot (p0 - p1)) / (v0.cross v1).sqrLength = t0 := by
  have hdiff : p0 - p1 = t1 • v1 - t0 • v0 := by
    rw [sub_eq_sub_iff_add_eq_add]; rw [hmeet]; abel
  have e0 : v0.dot (p0 - p1) = t1 * v0.dot v1 - t0 * v0.dot v0 := by
    rw [hdiff]; simp only [XYZ.dot, XYZ.sub_x, XYZ.sub_y, XYZ.sub_z, XYZ.smul_x, XYZ.smul_y, XYZ.smul_z]; ring
  have e1 : v1.dot (p0 - p1) = t1 * v1.dot v1 - t0 * v0.dot v1 := by
    rw [hdiff]; simp only [XYZ.dot, XYZ.sub_x, XYZ.sub_y, XYZ.sub_z, XYZ.smul_x, XYZ.smul_y, XYZ.smul_z]; ring
  rw [div_eq_iff hd, ← denom_eq, e0, e1]; ring

/-- two rays that end in the same point meet there -/
theorem corner_inv {p0 p1 m X : XYZ ℝ} {old : ℝ × ℝ × XYZ ℝ} {a b : ℝ} (h : computeRays p0 (m - p0) p1 (m - p1) old = ok (.intersecting, a, b, X)) :
    X = m ∨ (Near p0 p1 ∧ X = p0) := by
  by_cases hn : p0.almostEq p1 = true
  · rcases rays_inv h with ⟨-, -, hX⟩ | ⟨hd, ha, hb, hX⟩
    · exact Or.inr ⟨almostEq_iff.mp hn, hX⟩
    · left
      have hmeet : p0 + (1 : ℝ) • (m - p0) = p1 + (1 : ℝ) • (m - p1) := by rw [one_smul, one_smul]; abel
      rw [rays_first hmeet hd] at ha
      rw [rays_second hmeet hd] at hb
      rw [hX, ha, hb, one_smul, one_smul, add_sub_cancel, add_sub_cancel, ← two_smul ℝ m, smul_smul]
      norm_num
  · have hn' : ((m - p0).almostEq (m - p1) && p0.almostEq p1) = false := by simp [hn]
    rcases rays_inv h with ⟨ha, hb, hX⟩ | ⟨hd, ha, hb, hX⟩
    · -- the shortcut is not taken, so the parameters are those of the meeting point
      exfalso
      unfold computeRays at h
      rw [if_neg (by rw [hn']; simp)] at h
      obtain ⟨-, -, h⟩ := bind_eq_ok.mp h
      obtain ⟨-, -, h⟩ := bind_eq_ok.mp h
      dsimp only at h
      rw [denom_eq] at h
      split at h
      · split at h <;> simp at h
      · obtain ⟨b1, h1, h⟩ := bind_eq_ok.mp h
        obtain ⟨b2, h2, h⟩ := bind_eq_ok.mp h
        obtain ⟨n, e1⟩ := fdiv_inv h1
        split at h
        · have hmeet : p0 + (1 : ℝ) • (m - p0) = p1 + (1 : ℝ) • (m - p1) := by rw [one_smul, one_smul]; abel
          rw [rays_first hmeet n] at e1
          injection h with h
          have : b1 = a := congrArg (fun x => x.2.1) h
          rw [ha, e1] at this
          norm_num at this
        · simp at h
    · left
      have hmeet : p0 + (1 : ℝ) • (m - p0) = p1 + (1 : ℝ) • (m - p1) := by rw [one_smul, one_smul]; abel
      rw [rays_first hmeet hd] at ha
      rw [rays_second hmeet hd] at hb
      rw [hX, ha, hb, one_smul, one_smul, add_sub_cancel, add_sub_cancel, ← two_smul ℝ m, smul_smul]
      norm_num

/-- C147: a curve made by the method of Tiller and Hanson has the degree, the knots and the number of control points of the given one; all its weights are 1; and its control points are the given
ones moved along the normals of the curve (unless the neighbours of a moved control point coincide, in which case it may be put there). -/
theorem C147_points {c r : NurbsCurve ℝ} {offset : ℝ} (h : offsetTillerHanson c offset = ok (some r)) (hne : ¬ |offset| ≤ 1 / 1000000 * (1 + |offset|)) :
    r.degree = c.degree ∧ r.knots = c.knots ∧ r.cps.length = c.cps.length ∧ ∃ q : ℕ → XYZ ℝ, (∀ i, i < c.cps.length → IsOffset c offset (nth c.cps i) (q i)) ∧
      ∀ i, i < c.cps.length → nth r.cps i = XYZW.ofXYZ (q i) 1 ∨
        (0 < i ∧ i + 1 < c.cps.length ∧ Near (q (i - 1)) (q (i + 1)) ∧ nth r.cps i = XYZW.ofXYZ (q (i - 1)) 1) := by
  have hb : isAlmostEqualTo offset 0 = false := by
    by_contra hc
    have := almost_iff.mp (by simpa using hc)
    rw [sub_zero, abs_zero, max_eq_left (abs_nonneg _)] at this
    exact hne this
  unfold offsetTillerHanson at h
  rw [hb] at h
  simp only [Bool.false_eq_true, if_false] at h
  obtain ⟨a, -, h⟩ := bind_eq_ok.mp h
  obtain ⟨f, -, h⟩ := bind_eq_ok.mp h
  obtain ⟨temp, ht, h⟩ := bind_eq_ok.mp h
  obtain ⟨first, hfirst, h⟩ := bind_eq_ok.mp h
  obtain ⟨st, hst, h⟩ := bind_eq_ok.mp h
  obtain ⟨n, hn⟩ : ∃ n, n = c.cps.length := ⟨_, rfl⟩
  rw [← hn] at ht hst ⊢
  -- the moved control points
  let q : ℕ → XYZ ℝ := fun i => match offsetPoint c offset f (nth c.cps i) with | ok x => x | _ => 0
  have hq : ∀ i x, offsetPoint c offset f (nth c.cps i) = ok x → q i = x := by
    intro i x hx
    simp only [q, hx]
  have hn0 : 2 ≤ n := by
    by_contra hcon
    have hz : ((n : ℤ) - 1 - 0).toNat = 0 := by omega
    unfold forI at ht
    rw [hz] at ht
    simp only [loopUp] at ht
    cases ht
    simp [vget] at hfirst
  obtain ⟨t1, t2⟩ : temp.length = 2 * (n - 1) ∧ ∀ k, k < n - 1 → nth temp (2 * k) = q k ∧ nth temp (2 * k + 1) = q (k + 1) ∧
      offsetPoint c offset f (nth c.cps k) = ok (q k) ∧ offsetPoint c offset f (nth c.cps (k + 1)) = ok (q (k + 1)) := by
    have hp := forI_post (Inv := fun i (temp : List (XYZ ℝ)) => (temp.length : ℤ) = 2 * i ∧ ∀ k : ℕ, (k : ℤ) < i → nth temp (2 * k) = q k ∧ nth temp (2 * k + 1) = q (k + 1) ∧
        offsetPoint c offset f (nth c.cps k) = ok (q k) ∧ offsetPoint c offset f (nth c.cps (k + 1)) = ok (q (k + 1))) (by omega) ⟨by simp, fun k hk => by omega⟩ ?_ ht
    · exact ⟨by have := hp.1; omega, fun k hk => hp.2 k (by omega)⟩
    · rintro i s s' i0 i1 ⟨l1, l2⟩ hs
      obtain ⟨j, rfl⟩ : ∃ j : ℕ, i = j := ⟨i.toNat, by omega⟩
      obtain ⟨p0, h0, hs⟩ := bind_eq_ok.mp hs
      obtain ⟨q0, h1, hs⟩ := bind_eq_ok.mp hs
      obtain ⟨p1, h2, hs⟩ := bind_eq_ok.mp hs
      obtain ⟨q1, h3, hs⟩ := bind_eq_ok.mp hs
      cases hs
      rw [vget_nth (k := j) rfl (by omega)] at h0
      cases h0
      rw [vget_nth (k := j + 1) (by push_cast; rfl) (by omega)] at h2
      cases h2
      have hl : s.length = 2 * j := by omega
      refine ⟨by rw [List.length_append]; push_cast; simp; omega, ?_⟩
      intro k hk
      by_cases hkj : k = j
      · subst hkj
        refine ⟨?_, ?_, by rw [hq _ _ h1]; exact h1, by rw [hq _ _ h3]; exact h3⟩
        · rw [LNLib.nth_append_right (by omega), hl, hq _ _ h1]; simp [nth]
        · rw [LNLib.nth_append_right (by omega), hl, Nat.add_sub_cancel_left, hq _ _ h3]; simp [nth]
      · obtain ⟨g1, g2, g3, g4⟩ := l2 k (by omega)
        refine ⟨?_, ?_, g3, g4⟩
        · rw [← g1]; unfold nth; rw [List.getD_eq_getElem?_getD, List.getD_eq_getElem?_getD, List.getElem?_append_left (by omega)]
        · rw [← g2]; unfold nth; rw [List.getD_eq_getElem?_getD, List.getD_eq_getElem?_getD, List.getElem?_append_left (by omega)]
  have hall : ∀ i, i < n → offsetPoint c offset f (nth c.cps i) = ok (q i) := by
    intro i hi
    by_cases h' : i < n - 1
    · exact (t2 i h').2.2.1
    · have := (t2 (i - 1) (by omega)).2.2.2
      have e : i - 1 + 1 = i := by omega
      rwa [e] at this
  have hf0 : first = q 0 := by
    rw [vget_nth (k := 0) (i := 0) rfl (by omega)] at hfirst
    cases hfirst
    exact (t2 0 (by omega)).1
  have key : ∀ cps, st = some cps → cps.length = n - 1 ∧ ∀ i, i < n - 1 → nth cps i = XYZW.ofXYZ (q i) 1 ∨
      (0 < i ∧ i + 1 < n ∧ Near (q (i - 1)) (q (i + 1)) ∧ nth cps i = XYZW.ofXYZ (q (i - 1)) 1) := by
    have hp := forI_post (Inv := fun i (st : Option (List (XYZW ℝ))) => ∀ cps, st = some cps → (cps.length : ℤ) = i + 1 ∧ ∀ k : ℕ, (k : ℤ) ≤ i →
        nth cps k = XYZW.ofXYZ (q k) 1 ∨ (0 < k ∧ k + 1 < n ∧ Near (q (k - 1)) (q (k + 1)) ∧ nth cps k = XYZW.ofXYZ (q (k - 1)) 1)) (by omega) ?_ ?_ hst
    · intro cps hc
      obtain ⟨l1, l2⟩ := hp cps hc
      exact ⟨by omega, fun i hi => l2 i (by omega)⟩
    · intro cps hc
      cases hc
      refine ⟨by simp, fun k hk => Or.inl ?_⟩
      obtain rfl : k = 0 := by omega
      rw [hf0]; rfl
    · intro i s s' i0 i1 ih hs cps hc
      subst hc
      match s, ih, hs with
      | none, ih, hs => cases hs
      | some cps0, ih, hs =>
        obtain ⟨l1, l2⟩ := ih cps0 rfl
        obtain ⟨j, rfl⟩ : ∃ j : ℕ, i = j := ⟨i.toNat, by omega⟩
        have hs : offsetCorner temp j cps0 = ok (some cps) := hs
        obtain ⟨a1, a2, -, -⟩ := t2 j (by omega)
        obtain ⟨b1, b2, -, -⟩ := t2 (j + 1) (by omega)
        unfold offsetCorner at hs
        rw [vget_nth (k := 2 * j) (by push_cast; rfl) (by omega), ok_bind, vget_nth (k := 2 * j + 1) (by push_cast; rfl) (by omega), ok_bind,
          vget_nth (k := 2 * (j + 1)) (by push_cast; ring) (by omega), ok_bind, vget_nth (k := 2 * (j + 1) + 1) (by push_cast; ring) (by omega), ok_bind,
          a1, a2, b1, b2] at hs
        obtain ⟨⟨ty, x, y, X⟩, hr, hs⟩ := bind_eq_ok.mp hs
        dsimp only at hs
        by_cases hty : ty = .intersecting
        · subst hty
          simp only [ne_eq, not_true_eq_false, if_false] at hs
          cases hs
          have hX := corner_inv hr
          have hl : cps0.length = j + 1 := by omega
          refine ⟨by rw [List.length_append]; simp; omega, fun k hk => ?_⟩
          by_cases hkj : k = j + 1
          · subst hkj
            have e : nth (cps0 ++ [XYZW.ofXYZ X 1]) (j + 1) = XYZW.ofXYZ X 1 := by
              simp [nth, List.getElem?_append, hl]
            rw [e]
            rcases hX with hX | ⟨hX, hX'⟩
            · left; rw [hX]
            · right
              refine ⟨by omega, by omega, ?_, by rw [hX']; rfl⟩
              exact hX
          · have e : nth (cps0 ++ [XYZW.ofXYZ X 1]) k = nth cps0 k := by
              unfold nth; rw [List.getD_eq_getElem?_getD, List.getD_eq_getElem?_getD, List.getElem?_append_left (by omega)]
            rw [e]
            exact l2 k (by omega)
        · rw [if_pos hty] at hs
          cases hs
  rcases st with _ | cps
  · cases h
  · obtain ⟨l1, l2⟩ := key cps rfl
    obtain ⟨last, hlast, h⟩ := bind_eq_ok.mp h
    cases h
    have hla : last = q (n - 1) := by
      rw [vget_nth (k := 2 * (n - 2) + 1) (by omega) (by omega)] at hlast
      cases hlast
      have := (t2 (n - 2) (by omega)).2.1
      have e : n - 2 + 1 = n - 1 := by omega
      rwa [e] at this
    refine ⟨rfl, rfl, by simp [l1]; omega, q, fun i hi => offsetPoint_inv (hall i hi), fun i hi => ?_⟩
    by_cases h' : i < n - 1
    · have e : nth (cps ++ [XYZW.ofXYZ last 1]) i = nth cps i := by
        unfold nth; rw [List.getD_eq_getElem?_getD, List.getD_eq_getElem?_getD, List.getElem?_append_left (by omega)]
      dsimp only
      rw [e]
      exact l2 i h'
    · obtain rfl : i = n - 1 := by omega
      left
      have e : nth (cps ++ [XYZW.ofXYZ last 1]) (n - 1) = XYZW.ofXYZ last 1 := by
        simp [nth, List.getElem?_append, l1]
      dsimp only
      rw [e, hla]

/-- C147: an offset within tolerance of zero gives the curve itself. -/
theorem C147_zero {c : NurbsCurve ℝ} {offset : ℝ} (h : |offset| ≤ 1 / 1000000 * (1 + |offset|)) (solve : List (List ℝ) → List (List ℝ) → Res (List (List ℝ)))
    (test : List (XYZW ℝ) → XYZW ℝ → XYZW ℝ → Bool) (fuel : ℕ) : offsetTillerHanson c offset = ok (some c) ∧ offsetPieglTiller solve test fuel c offset = ok c := by
  have hb : isAlmostEqualTo offset 0 = true := by
    rw [almost_iff, sub_zero, abs_zero, max_eq_left (abs_nonneg _)]; exact h
  constructor
  · unfold offsetTillerHanson; rw [if_pos hb]
  · unfold offsetPieglTiller; rw [if_pos hb]

/-- the second derivative of a curve of degree 1 with weights 1 is zero -/
theorem polyline_ders {c : NurbsCurve ℝ} {n : ℕ} {t : ℝ} (w : WellFormed c 1 n) (he : EndsSeparated (nth c.knots) 1 n) (hw : ∀ i ≤ n, (nth c.cps i).w = 1)
    (h0 : nth c.knots 1 ≤ t) (h1 : t ≤ nth c.knots (n + 1)) : ∃ x y, NurbsCurve.rationalDerivatives c 2 t = ok [x, y, 0] := by
  have hm := wf_monoTo w
  obtain ⟨s, -, hs⟩ := span_isSpan w he h0 h1
  have hw0 : weightFn (nth c.knots) 1 n (nth c.cps) t ≠ 0 := by
    have := weightFn_ge (x := 1) w he h0 h1 (fun i hi => (hw i hi).ge)
    linarith
  obtain ⟨l, e, hl, hk⟩ := C20_leibniz w he h0 h1 hs (d := 2) (by decide) hw0
  have d2 : curveDeriv (nth c.knots) s 1 n (nth c.cps) 2 t = 0 := by
    unfold curveDeriv
    exact sum_eq_zero fun i hi => by rw [dN_gt _ _ _ _ _ _ (by omega), zero_smul]
  have hwin : ∀ k, (curveDeriv (nth c.knots) s 1 n (nth c.cps) k t).w = ∑ r ∈ range 2, dN (nth c.knots) s 1 (s - 1 + r) k t := by
    intro k
    rw [curveDeriv_window hs.1 hs.2.1]
    simp only [sum_range_succ, sum_range_zero, zero_add, XYZW.add_w, XYZW.smul_w]
    have := hs.1
    have := hs.2.1
    rw [hw _ (by omega), hw _ (by omega), mul_one, mul_one]
  have w1 : (curveDeriv (nth c.knots) s 1 n (nth c.cps) 1 t).w = 0 := by
    rw [hwin]
    exact sum_dN (p := 1) (m := n + 1 + 1) hm hs.2.2.1 hs.1 (by have := hs.2.1; omega) (by omega)
  have w0 : (curveDeriv (nth c.knots) s 1 n (nth c.cps) 0 t).w ≠ 0 := by
    rw [hwin]
    unfold dN
    simp only [Function.iterate_zero, id]
    rw [← Polynomial.eval_finsetSum, NspanP_sum (p := 1) (m := n + 1 + 1) hm hs.2.2.1 hs.1 (by have := hs.2.1; omega), Polynomial.eval_one]
    exact one_ne_zero
  have q2 := hk 2 le_rfl
  simp only [sum_range_succ, sum_range_zero, d2, w1] at q2
  have e2 : nth l 2 = 0 := by
    have q2 : (curveDeriv (nth c.knots) s 1 n (nth c.cps) 0 t).w • nth l 2 = (0 : XYZW ℝ).raw := by simpa using q2
    have z : (0 : XYZW ℝ).raw = 0 := rfl
    rw [z] at q2
    exact (smul_eq_zero.mp q2).resolve_left w0
  refine ⟨nth l 0, nth l 1, ?_⟩
  rw [← e2]
  refine e.trans ?_
  congr 1
  apply ext_nth (by rw [hl]; rfl)
  intro j hj
  rw [hl] at hj
  interval_cases j <;> rfl

/-- there is no normal on a polyline -/
theorem polyline_normal {c : NurbsCurve ℝ} {n : ℕ} {t : ℝ} (w : WellFormed c 1 n) (he : EndsSeparated (nth c.knots) 1 n) (hc : ClampedEnds (nth c.knots) 1 n)
    (hw : ∀ i ≤ n, (nth c.cps i).w = 1) (h0 : nth c.knots 1 ≤ t) (h1 : t ≤ nth c.knots (n + 1)) (ty : CurveNormal) : NurbsCurve.normal c ty t = nonfinite := by
  obtain ⟨x, y, e⟩ := polyline_ders w he hw h0 h1
  have hl := w.knots
  have z : (0 : XYZ ℝ).length = 0 := by simp [XYZ.length]
  have z2 : y.cross 0 = 0 := by ext <;> simp [XYZ.cross]
  have := doubleEps_pos (K := ℝ)
  unfold NurbsCurve.normal
  rw [vget_nth (i := 0) (k := 0) rfl (by omega), ok_bind, vget_nth (k := n + 1 + 1) (by omega) (by omega), ok_bind,
    validateRange_eq_ok_iff.mpr ⟨by rw [hc.first]; linarith, by rw [← hc.last]; linarith⟩, ok_bind, e, ok_bind]
  simp [vget, vdiv, z, z2]

/-- C147: no line and no polyline can be offset: whatever curve of degree 1 with weights 1 is given, both methods divide by the length of the vanishing second derivative and the result is not a
number. -/
theorem C147_polyline_violated {c : NurbsCurve ℝ} {n : ℕ} (w : WellFormed c 1 n) (he : EndsSeparated (nth c.knots) 1 n) (hc : ClampedEnds (nth c.knots) 1 n)
    (hw : ∀ i ≤ n, (nth c.cps i).w = 1) {offset : ℝ} (hne : ¬ |offset| ≤ 1 / 1000000 * (1 + |offset|)) (solve : List (List ℝ) → List (List ℝ) → Res (List (List ℝ)))
    (test : List (XYZW ℝ) → XYZW ℝ → XYZW ℝ → Bool) (fuel : ℕ) : offsetTillerHanson c offset = nonfinite ∧ offsetPieglTiller solve test fuel c offset = nonfinite := by
  have hb : ¬ isAlmostEqualTo offset 0 = true := by
    intro hc
    have := almost_iff.mp hc
    rw [sub_zero, abs_zero, max_eq_left (abs_nonneg _)] at this
    exact hne this
  have hl := w.knots
  have hm := wf_monoTo w
  have hlt := clamped_lt w he
  have hN := polyline_normal w he hc hw le_rfl hlt.le .normal
  constructor
  · unfold offsetTillerHanson
    rw [if_neg hb, vget_nth (i := 0) (k := 0) rfl (by omega), ok_bind, hc.first, hN]
    rfl
  · unfold offsetPieglTiller
    have hsam : offsetSamples c = ok 4 := by
      unfold offsetSamples
      have hrun : forI 0 c.knots.length (0 : ℤ) (fun i n => do
          let u ← vget c.knots i
          let ders ← NurbsCurve.rationalDerivatives c 2 u
          let d2 ← vget ders 2
          let l := ⌊Real.sqrt (1 / (1 / 10000)) * Real.sqrt (d2.length / 8)⌋
          ok (if l > n then l else n)) = ok 0 := by
        obtain ⟨v, e, hv⟩ := Runs.forN (m := 0) (n := c.knots.length) (a := 0) (b := c.knots.length) (s := (0 : ℤ)) (body := fun i n => do
          let u ← vget c.knots i
          let ders ← NurbsCurve.rationalDerivatives c 2 u
          let d2 ← vget ders 2
          let l := ⌊Real.sqrt (1 / (1 / 10000)) * Real.sqrt (d2.length / 8)⌋
          ok (if l > n then l else n)) (fun _ (x : ℤ) => x = 0) rfl rfl (by omega) rfl (by
            rintro i x - hi rfl
            obtain ⟨x, y, e⟩ := polyline_ders (t := nth c.knots i) w he hw (by rw [← hc.first]; exact hm 0 i (by omega) (by omega)) (by rw [hc.last]; exact hm i (n + 1 + 1) (by omega) (by omega))
            rw [vget_nth (k := i) rfl hi, ok_bind, e, ok_bind]
            have z : (0 : XYZ ℝ).length = 0 := by simp [XYZ.length]
            refine ⟨0, ?_, rfl⟩
            simp [vget, z])
        rw [e, hv]
      rw [hrun, ok_bind, w.degree]
      rfl
    rw [if_neg hb, vget_nth (i := 0) (k := 0) rfl (by omega), ok_bind, vget_nth (k := n + 1 + 1) (by omega) (by omega), ok_bind, hsam, ok_bind, fdiv_ok (by norm_num), ok_bind,
      hc.first, ← hc.last]
    obtain ⟨x, ex⟩ : ∃ x, NurbsCurve.pointOnCurve c (nth c.knots 1) = ok x := by
      unfold NurbsCurve.pointOnCurve
      exact ⟨_, by rw [C05_eval w he le_rfl hlt.le]; rfl⟩
    simp [forI, loopUp, ex, hN]

example : offsetTillerHanson (segCurve ⟨0, 0, 0⟩ ⟨1, 0, 0⟩) 1 = nonfinite := by
  obtain ⟨w, he, hc⟩ := segCurve_wf ⟨0, 0, 0⟩ ⟨1, 0, 0⟩
  exact (C147_polyline_violated w he hc (by intro i hi; interval_cases i <;> rfl) (by norm_num) (fun _ _ => ub) (fun _ _ _ => true) 0).1

/-! ### a parabola: the hypotheses of `C147_points` can be met -/

theorem parabola_all {t : ℝ} (h0 : 0 ≤ t) (h1 : t ≤ 1) :
    NurbsCurve.rationalDerivatives parabola 2 t = ok [⟨2 * t, t ^ 2, 0⟩, ⟨2, 2 * t, 0⟩, ⟨0, 2, 0⟩] ∧ NurbsCurve.pointOnCurve parabola t = ok ⟨2 * t, t ^ 2, 0⟩ := by
  have w := parabola_wf
  have he : EndsSeparated (nth parabola.knots) 2 2 := bez2_ends
  have hm := wf_monoTo w
  have k0 : nth parabola.knots 2 ≤ t := h0
  have k1 : t ≤ nth parabola.knots (2 + 1) := h1
  obtain ⟨s, -, hs⟩ := span_isSpan w he k0 k1
  obtain rfl : s = 2 := by have := hs.1; have := hs.2.1; omega
  have hd : ∀ k, k ≤ 2 → curveDeriv (nth parabola.knots) 2 2 2 (nth parabola.cps) k t = if k = 0 then ⟨2 * t, t ^ 2, 0, 1⟩ else if k = 1 then ⟨2, 2 * t, 0, 0⟩ else ⟨0, 2, 0, 0⟩ := by
    intro k hk
    unfold curveDeriv
    simp only [sum_range_succ, sum_range_zero, parabola]
    rw [(bez2_dN _).1, (bez2_dN _).2.1, (bez2_dN _).2.2]
    interval_cases k <;> ext <;> simp <;> ring
  have hpt : curvePoint (nth parabola.knots) 2 2 (nth parabola.cps) t = ⟨2 * t, t ^ 2, 0, 1⟩ := by
    have := hd 0 (by omega)
    rw [curveDeriv_window hs.1 hs.2.1] at this
    simp only [dN_zero] at this
    rw [curvePoint_span hm le_rfl hs, this]
    rfl
  have hw0 : weightFn (nth parabola.knots) 2 2 (nth parabola.cps) t ≠ 0 := by
    have := weightFn_ge (x := 1) w he k0 k1 (fun i hi => by interval_cases i <;> simp [parabola])
    linarith
  constructor
  · obtain ⟨l, e, hl, hk⟩ := C20_leibniz w he k0 k1 hs (d := 2) (by decide) hw0
    have q0 := hk 0 (by omega)
    have q1 := hk 1 (by omega)
    have q2 := hk 2 (by omega)
    simp only [sum_range_succ, sum_range_zero, hd 0 (by omega), hd 1 (by omega), hd 2 (by omega)] at q0 q1 q2
    simp at q0 q1 q2
    refine e.trans ?_
    congr 1
    apply ext_nth (by rw [hl]; rfl)
    intro j hj
    rw [hl] at hj
    interval_cases j
    · exact q0
    · exact q1
    · exact q2
  · unfold NurbsCurve.pointOnCurve
    rw [C05_eval w he k0 k1, ok_bind, hpt, toXYZ_one]

/-- the points of the tessellation of the parabola -/
theorem parabola_tessellate : ∃ pts params, equallyTessellate parabola = ok (pts, params) ∧ pts.length = 100 ∧ params.length = 100 ∧
    ∀ j < 100, nth params j = j / 99 ∧ nth pts j = ⟨2 * (j / 99), (j / 99) ^ 2, 0⟩ := by
  unfold equallyTessellate
  have hu : stdUnique parabola.knots = [0, 1] := by simp [parabola, stdUnique]
  dsimp only
  rw [hu]
  have key : Runs (forI 0 100 (([], []) : List (XYZ ℝ) × List ℝ) fun j st => do
      let u := (0 : ℝ) + (1 - 0) / 99 * (j : ℝ)
      let x ← NurbsCurve.pointOnCurve parabola u
      ok (st.1 ++ [x], st.2 ++ [u])) (fun r => r.1.length = 100 ∧ r.2.length = 100 ∧ ∀ j < 100, nth r.2 j = j / 99 ∧ nth r.1 j = ⟨2 * (j / 99), (j / 99) ^ 2, 0⟩) := by
    refine (Runs.forN (m := 0) (n := 100) (fun i (r : List (XYZ ℝ) × List ℝ) => r.1.length = i ∧ r.2.length = i ∧ ∀ j < i, nth r.2 j = (j : ℝ) / 99 ∧ nth r.1 j = ⟨2 * (j / 99), (j / 99) ^ 2, 0⟩)
      rfl rfl (by omega) ⟨rfl, rfl, fun j hj => by omega⟩ ?_).mono (fun _ h => h)
    rintro i ⟨a, b⟩ - hi ⟨l1, l2, h⟩
    have hi' : (i : ℝ) ≤ 99 := by exact_mod_cast (by omega : i ≤ 99)
    have e : (0 : ℝ) + (1 - 0) / 99 * ((i : ℤ) : ℝ) = i / 99 := by push_cast; ring
    dsimp only
    rw [e, (parabola_all (t := i / 99) (by positivity) (by rw [div_le_one (by norm_num)]; exact hi')).2, ok_bind]
    refine Runs.ok ⟨by simp [l1], by simp [l2], ?_⟩
    dsimp only at l1 l2 h ⊢
    intro j hj
    by_cases hji : j < i
    · rw [LNLib.nth_append_left (by omega), LNLib.nth_append_left (by omega)]
      exact h j hji
    · obtain rfl : j = i := by omega
      rw [LNLib.nth_append_right (by omega), LNLib.nth_append_right (by omega), l1, l2]
      simp [nth]
  obtain ⟨⟨a, b⟩, e, h⟩ := key
  refine ⟨a, b, ?_, h⟩
  rw [show (([0, 1] : List ℝ).length : ℤ) - 1 = 1 by simp]
  have hone : ∀ (f : ℤ → List (XYZ ℝ) × List ℝ → Res (List (XYZ ℝ) × List ℝ)) s, forI 0 1 s f = (f 0 s >>= fun s => ok s) := by
    intro f s; rfl
  rw [hone]
  simp only [vget, zero_add] at e ⊢
  simp only [show ((0:ℤ) ≥ 0) from le_rfl] at e ⊢
  simp at e ⊢
  rw [e]

/-- one round of the search for a parameter on the parabola: the point found on the `i`-th chord is at `⟨2 T, _, 0⟩` -/
theorem parabola_round {pts : List (XYZ ℝ)} {params : List ℝ} (lp : pts.length = 100) (lq : params.length = 100)
    (h : ∀ j < 100, nth params j = (j : ℝ) / 99 ∧ nth pts j = ⟨2 * (j / 99), (j / 99) ^ 2, 0⟩) (P : XYZ ℝ) {i : ℕ} (hi : i < 99) (st : Option ℝ × ℝ) :
    ∃ D T, nearestRound pts params P i st = (match st.1 with | none => ok (some D, T) | some m => if D < m then ok (some D, T) else ok st) ∧
      (P.x - 2 * T) ^ 2 ≤ D ∧ (P = nth pts i → D = 0 ∧ T = nth params i) ∧ (P = nth pts (i + 1) → D = 0 ∧ T = nth params (i + 1)) := by
  obtain ⟨a1, a2⟩ := h i (by omega)
  obtain ⟨b1, b2⟩ := h (i + 1) (by omega)
  unfold nearestRound
  rw [vget_nth (k := i) rfl (by omega), ok_bind, vget_nth (k := i + 1) (by push_cast; rfl) (by omega), ok_bind, vget_nth (k := i) rfl (by omega), ok_bind,
    vget_nth (k := i + 1) (by push_cast; rfl) (by omega), ok_bind]
  dsimp only
  set seg := nth pts (i + 1) - nth pts i with hseg
  have sx : seg.x = 2 / 99 := by rw [hseg, a2, b2]; simp; ring
  have hlong : doubleEps < seg.dot seg := by
    have : seg.dot seg = seg.x * seg.x + seg.y * seg.y + seg.z * seg.z := rfl
    rw [this, sx]
    have := mul_self_nonneg seg.y
    have := mul_self_nonneg seg.z
    have : (doubleEps : ℝ) < 2 / 99 * (2 / 99) := by norm_num [doubleEps]
    linarith
  have hpos : 0 < seg.dot seg := lt_trans doubleEps_pos hlong
  rw [if_pos hlong, fdiv_ok hpos.ne', ok_bind, ok_bind]
  set u := max 0 (min 1 ((P - nth pts i).dot seg / seg.dot seg)) with hu
  refine ⟨_, _, rfl, ?_, ?_, ?_⟩
  · have e : (P - (nth pts i + u • seg)).x = P.x - 2 * (nth params i + (nth params (i + 1) - nth params i) * u) := by
      rw [a1, b1]; simp only [XYZ.sub_x, XYZ.add_x, XYZ.smul_x, sx, a2]; push_cast; ring
    rw [← e]
    set v := P - (nth pts i + u • seg)
    have : v.dot v = v.x * v.x + v.y * v.y + v.z * v.z := rfl
    rw [this]
    nlinarith [mul_self_nonneg v.y, mul_self_nonneg v.z]
  · intro hP
    have u0 : u = 0 := by
      rw [hu, hP, sub_self]; simp [XYZ.dot]
    rw [u0, hP]
    constructor
    · simp [XYZ.dot]
    · ring
  · intro hP
    have u1 : u = 1 := by
      rw [hu, hP, ← hseg, div_self hpos.ne']; simp
    rw [u1, hP, one_smul, hseg, add_sub_cancel, sub_self]
    constructor
    · simp [XYZ.dot]
    · ring

/-- where the Newton iteration of the library ends on the parabola for a point of the curve at which it starts -/
theorem parabola_newton {T : ℝ} (h0 : 0 ≤ T) (h1 : T ≤ 1) {P : XYZ ℝ} (hP : P = ⟨2 * T, T ^ 2, 0⟩) (b : Bool) : newtonLoop parabola P b 0 1 T = ok (T, true) := by
  have hr : newtonRound parabola P b 0 1 T = ok (T, true) := by
    unfold newtonRound
    rw [(parabola_all h0 h1).1, ok_bind]
    have z : (0 : XYZ ℝ).length = 0 := by simp [XYZ.length]
    rw [← hP]
    simp [vget, z, distEps]
  unfold newtonLoop
  obtain ⟨r, e, he, -⟩ := Runs.forN (m := 0) (n := 20) (a := 0) (b := 20) (s := (T, false)) (body := fun _ st => if st.2 then ok st else newtonRound parabola P b 0 1 st.1)
    (fun i (r : ℝ × Bool) => (0 < i → r = (T, true)) ∧ (i = 0 → r = (T, false))) rfl rfl (by omega) ⟨fun h => by omega, fun _ => rfl⟩ (by
      rintro i s - - ⟨h1, h2⟩
      by_cases hi : i = 0
      · rw [h2 hi]
        dsimp only
        rw [if_neg (by simp), hr]
        exact Runs.ok ⟨fun _ => rfl, fun h => by omega⟩
      · rw [h1 (by omega)]
        dsimp only
        rw [if_pos rfl]
        exact Runs.ok ⟨fun _ => rfl, fun h => by omega⟩)
  rw [e, he (by omega)]

theorem parabola_param : getParamOnCurve parabola ⟨0, 0, 0⟩ = ok 0 ∧ getParamOnCurve parabola ⟨2, 1, 0⟩ = ok 1 ∧ ∃ T, 0 ≤ T ∧ T ≤ 1 ∧ getParamOnCurve parabola ⟨1, 0, 0⟩ = ok T := by
  have w := parabola_wf
  have he : EndsSeparated (nth parabola.knots) 2 2 := bez2_ends
  have hc : ClampedEnds (nth parabola.knots) 2 2 := ⟨rfl, rfl⟩
  obtain ⟨-, -, b, eb, -⟩ := isClosed_run w he hc
  obtain ⟨pts, params, et, lp, lq, h⟩ := parabola_tessellate
  have hdef : ∀ P, getParamOnCurve parabola P = (nearestStart pts params P 0 >>= fun s => newtonLoop parabola P b 0 1 s >>= fun r => ok r.1) := by
    intro P
    unfold getParamOnCurve
    rw [vget_nth (i := 0) (k := 0) rfl (by simp [parabola]), ok_bind, vget_nth (k := 5) (by simp [parabola]) (by simp [parabola]), ok_bind, eb, ok_bind, et, ok_bind]
    rfl
  refine ⟨?_, ?_, ?_⟩
  · rw [hdef]
    have hs : nearestStart pts params ⟨0, 0, 0⟩ 0 = ok 0 := by
      unfold nearestStart
      rw [if_neg (by omega)]
      obtain ⟨r, e, hr⟩ := Runs.forN (m := 0) (n := 99) (a := 0) (b := (pts.length : ℤ) - 1) (s := ((none : Option ℝ), (0 : ℝ))) (body := nearestRound pts params ⟨0, 0, 0⟩)
        (fun i (r : Option ℝ × ℝ) => r.2 = 0 ∧ (0 < i → r.1 = some 0) ∧ (i = 0 → r.1 = none)) rfl (by omega) (by omega) ⟨rfl, fun h => by omega, fun _ => rfl⟩ (by
          rintro i ⟨m, t⟩ - hi ⟨rfl, hm, hn⟩
          obtain ⟨D, T, e, hx, hP, -⟩ := parabola_round lp lq h ⟨0, 0, 0⟩ hi (m, 0)
          rw [e]
          have hD : 0 ≤ D := le_trans (sq_nonneg _) hx
          rcases m with _ | m
          · have hi0 : i = 0 := by
              by_contra hne
              simpa using hm (by omega)
            subst hi0
            obtain ⟨e0, e1⟩ := hP (by rw [(h 0 (by omega)).2]; simp)
            exact Runs.ok ⟨by rw [e1, (h 0 (by omega)).1]; simp, fun _ => by rw [e0], fun h => by omega⟩
          · by_cases hi0 : i = 0
            · cases hn hi0
            · have hm := hm (by omega)
              cases hm
              dsimp only
              rw [if_neg (by linarith)]
              exact Runs.ok ⟨rfl, fun _ => rfl, fun h => by omega⟩)
      rw [e, ok_bind, hr.1]
    rw [hs, ok_bind, parabola_newton le_rfl zero_le_one (by simp) b]
    rfl
  · rw [hdef]
    have hs : nearestStart pts params ⟨2, 1, 0⟩ 0 = ok 1 := by
      unfold nearestStart
      rw [if_neg (by omega)]
      obtain ⟨r, e, hr⟩ := Runs.forN (m := 0) (n := 99) (a := 0) (b := (pts.length : ℤ) - 1) (s := ((none : Option ℝ), (0 : ℝ))) (body := nearestRound pts params ⟨2, 1, 0⟩)
        (fun i (r : Option ℝ × ℝ) => (∀ d, r.1 = some d → (2 - 2 * r.2) ^ 2 ≤ d) ∧ (i = 99 → r.2 = 1)) rfl (by omega) (by omega) ⟨fun d hd => (by cases hd), fun h => (by omega)⟩ (by
          rintro i ⟨m, t⟩ - hi ⟨hm, -⟩
          obtain ⟨D, T, e, hx, -, hP⟩ := parabola_round lp lq h ⟨2, 1, 0⟩ hi (m, t)
          rw [e]
          dsimp only at hx hm
          have h99 : i + 1 = 99 → D = 0 ∧ T = 1 := by
            intro hi
            have hi : i = 98 := by omega
            subst hi
            obtain ⟨e0, e1⟩ := hP (by rw [(h _ (by omega)).2]; ext <;> simp <;> norm_num)
            exact ⟨e0, by rw [e1, (h _ (by omega)).1]; norm_num⟩
          rcases m with _ | m
          · exact Runs.ok ⟨fun d hd => (by cases hd; exact hx), fun hi => (h99 hi).2⟩
          · dsimp only
            split_ifs with hlt
            · exact Runs.ok ⟨fun d hd => (by cases hd; exact hx), fun hi => (h99 hi).2⟩
            · refine Runs.ok ⟨hm, fun hi => ?_⟩
              have h1 := hm m rfl
              rw [(h99 hi).1] at hlt
              dsimp only
              have h2 : (2 - 2 * t) ^ 2 ≤ 0 := by linarith
              have h3 : 2 - 2 * t = 0 := by nlinarith [sq_nonneg (2 - 2 * t)]
              linarith)
      rw [e, ok_bind, hr.2 rfl]
    rw [hs, ok_bind, parabola_newton zero_le_one le_rfl (by simp) b]
    rfl
  · rw [hdef]
    obtain ⟨t0, e0, h0⟩ := nearestStart_run (P := ⟨1, 0, 0⟩) (lp.trans lq.symm) (by omega) zero_le_one (fun k hk => by
      rw [(h k (by omega)).1]
      have hk' : (k : ℝ) ≤ 99 := by exact_mod_cast (by omega : k ≤ 99)
      exact ⟨by positivity, by rw [div_le_one (by norm_num)]; exact hk'⟩)
    rw [e0, ok_bind]
    obtain ⟨r, e, hr⟩ : Runs (newtonLoop parabola ⟨1, 0, 0⟩ b 0 1 t0) (fun r => 0 ≤ r.1 ∧ r.1 ≤ 1) := by
      unfold newtonLoop
      refine (Runs.forN (m := 0) (n := 20) (fun _ (r : ℝ × Bool) => 0 ≤ r.1 ∧ r.1 ≤ 1) rfl rfl (by omega) h0 ?_).mono (fun _ h => h)
      rintro i ⟨t, d⟩ - - ⟨h0, h1⟩
      dsimp only at h0 h1 ⊢
      split_ifs
      · exact Runs.ok ⟨h0, h1⟩
      · unfold newtonRound
        rw [(parabola_all h0 h1).1, ok_bind]
        have ef : (⟨2, 2 * t, 0⟩ : XYZ ℝ).dot (⟨2 * t, t ^ 2, 0⟩ - ⟨1, 0, 0⟩) = 2 * t ^ 3 + 4 * t - 2 := by simp [XYZ.dot]; ring
        have ed : (⟨2, 2 * t, 0⟩ : XYZ ℝ).dot ⟨2, 2 * t, 0⟩ + ((⟨2 * t, t ^ 2, 0⟩ : XYZ ℝ) - ⟨1, 0, 0⟩).dot ⟨0, 2, 0⟩ = 6 * t ^ 2 + 4 := by simp [XYZ.dot]; ring
        have hd : (6 * t ^ 2 + 4 : ℝ) ≠ 0 := by positivity
        have hn : t - (2 * t ^ 3 + 4 * t - 2) / (6 * t ^ 2 + 4) = (4 * t ^ 3 + 2) / (6 * t ^ 2 + 4) := by field_simp; ring
        have n0 : 0 ≤ t - (2 * t ^ 3 + 4 * t - 2) / (6 * t ^ 2 + 4) := by rw [hn]; positivity
        have n1 : t - (2 * t ^ 3 + 4 * t - 2) / (6 * t ^ 2 + 4) ≤ 1 := by
          rw [hn, div_le_one (by positivity)]
          nlinarith [mul_nonneg (sq_nonneg t) (sub_nonneg.mpr h1), sq_nonneg t]
        rw [vget_nth (i := 0) (k := 0) rfl (by simp), ok_bind, vget_nth (i := 1) (k := 1) rfl (by simp), ok_bind, vget_nth (i := 2) (k := 2) rfl (by simp), ok_bind]
        have e0 : nth ([⟨2 * t, t ^ 2, 0⟩, ⟨2, 2 * t, 0⟩, ⟨0, 2, 0⟩] : List (XYZ ℝ)) 0 = ⟨2 * t, t ^ 2, 0⟩ := rfl
        have e1 : nth ([⟨2 * t, t ^ 2, 0⟩, ⟨2, 2 * t, 0⟩, ⟨0, 2, 0⟩] : List (XYZ ℝ)) 1 = ⟨2, 2 * t, 0⟩ := rfl
        have e2 : nth ([⟨2 * t, t ^ 2, 0⟩, ⟨2, 2 * t, 0⟩, ⟨0, 2, 0⟩] : List (XYZ ℝ)) 2 = ⟨0, 2, 0⟩ := rfl
        dsimp only
        rw [e0, e1, e2, ef, ed, fdiv_ok hd, ok_bind]
        split_ifs
        · exact Runs.ok ⟨h0, h1⟩
        · exact Runs.ok ⟨h0, h1⟩
        · exact Runs.ok ⟨n0, n1⟩
        · exact Runs.ok ⟨le_max_left _ _, max_le zero_le_one (min_le_left _ _)⟩
        · obtain ⟨t', e', g⟩ := wrapParam_run zero_lt_one (t - (2 * t ^ 3 + 4 * t - 2) / (6 * t ^ 2 + 4))
          rw [e', ok_bind]
          exact Runs.ok g
    rw [e, ok_bind]
    exact ⟨r.1, hr.1, hr.2, rfl⟩

theorem parabola_normal {t : ℝ} (h0 : 0 ≤ t) (h1 : t ≤ 1) : ∃ N : XYZ ℝ, NurbsCurve.normal parabola .normal t = ok N ∧ |N.x| ≤ 1 ∧ |N.y| ≤ 1 ∧ N.z = 0 := by
  have hz : (⟨2, 2 * t, 0⟩ : XYZ ℝ).cross ⟨0, 2, 0⟩ = ⟨0, 0, 4⟩ := by ext <;> simp [XYZ.cross] <;> norm_num
  have hl : (⟨0, 0, 4⟩ : XYZ ℝ).length = 4 := by
    rw [XYZ.length, show (0 * 0 + 0 * 0 + 4 * 4 : ℝ) = 4 ^ 2 by norm_num, Real.sqrt_sq (by norm_num)]
  have hl1 : (⟨0, 0, 1⟩ : XYZ ℝ).length = 1 := by
    rw [XYZ.length, show (0 * 0 + 0 * 0 + 1 * 1 : ℝ) = 1 by norm_num, Real.sqrt_one]
  have hlt : 2 ≤ (⟨2, 2 * t, 0⟩ : XYZ ℝ).length := by
    apply Real.le_sqrt_of_sq_le
    simp [XYZ.sqrLength]
    nlinarith [sq_nonneg t]
  have hne : isAlmostEqualTo (⟨2, 2 * t, 0⟩ : XYZ ℝ).length 1 = false := by
    apply almost_far
    rw [abs_one, abs_of_nonneg (by linarith), abs_of_nonneg (by linarith), max_eq_left (by linarith)]
    linarith
  have hd := doubleEps_pos (K := ℝ)
  have hT : (⟨2, 2 * t, 0⟩ : XYZ ℝ) ≠ 0 := fun h => by have := congrArg XYZ.x h; simp at this
  have hO : (⟨0, 0, 1⟩ : XYZ ℝ) ≠ 0 := fun h => by have := congrArg XYZ.z h; simp at this
  set L := (⟨2, 2 * t, 0⟩ : XYZ ℝ).length with hL
  refine ⟨⟨-(2 * t / L), 2 / L, 0⟩, ?_, ?_, ?_, rfl⟩
  · have hv : validateRange t (nth parabola.knots 0) (nth parabola.knots 5) = ok () :=
      validateRange_eq_ok_iff.mpr ⟨show (0 : ℝ) - doubleEps ≤ t by linarith, show t ≤ 1 + doubleEps by linarith⟩
    unfold NurbsCurve.normal
    rw [vget_nth (i := 0) (k := 0) rfl (by simp [parabola]), ok_bind, vget_nth (k := 5) (by simp [parabola]) (by simp [parabola]), ok_bind,
      hv, ok_bind, (parabola_all h0 h1).1, ok_bind,
      vget_nth (i := 1) (k := 1) rfl (by simp), ok_bind, vget_nth (i := 2) (k := 2) rfl (by simp), ok_bind]
    have e1 : nth ([⟨2 * t, t ^ 2, 0⟩, ⟨2, 2 * t, 0⟩, ⟨0, 2, 0⟩] : List (XYZ ℝ)) 1 = ⟨2, 2 * t, 0⟩ := rfl
    have e2 : nth ([⟨2 * t, t ^ 2, 0⟩, ⟨2, 2 * t, 0⟩, ⟨0, 2, 0⟩] : List (XYZ ℝ)) 2 = ⟨0, 2, 0⟩ := rfl
    rw [e1, e2, ← hL, hne, if_neg (by simp), hz, hl, vdiv_ok (by norm_num), ok_bind, if_neg (by simp)]
    have e3 : (4 : ℝ)⁻¹ • (⟨0, 0, 4⟩ : XYZ ℝ) = ⟨0, 0, 1⟩ := by ext <;> simp
    rw [e3, normalize_eq hO, normalize_eq hT, hl1, ← hL]
    congr 1
    ext <;> simp [XYZ.cross] <;> ring
  · rw [abs_neg, abs_div, abs_of_nonneg (by linarith : 0 ≤ L), abs_of_nonneg (by linarith), div_le_one (by linarith)]
    linarith
  · rw [abs_div, abs_of_nonneg (by linarith : 0 ≤ L), abs_of_nonneg (by norm_num), div_le_one (by linarith)]
    exact hlt

theorem parabola_offsetPoint {t : ℝ} (h0 : 0 ≤ t) (h1 : t ≤ 1) {P : XYZW ℝ} (h : getParamOnCurve parabola P.toXYZ = ok t) (f : XYZ ℝ) :
    ∃ q : XYZ ℝ, offsetPoint parabola (1 / 100) f P = ok q ∧ |q.x - P.toXYZ.x| ≤ 1 / 100 ∧ |q.y - P.toXYZ.y| ≤ 1 / 100 ∧ q.z = P.toXYZ.z := by
  obtain ⟨N, e, nx, ny, nz⟩ := parabola_normal h0 h1
  unfold offsetPoint
  dsimp only
  rw [h, ok_bind, e, ok_bind]
  refine ⟨_, rfl, ?_, ?_, ?_⟩
  · split_ifs <;> simp [abs_mul] <;> linarith
  · split_ifs <;> simp [abs_mul] <;> linarith
  · split_ifs <;> simp [nz]

theorem open_corner {v0 v1 : XYZ ℝ} (a1 : 98 / 100 ≤ v0.x ∧ v0.x ≤ 102 / 100) (a2 : -2 / 100 ≤ v0.y ∧ v0.y ≤ 2 / 100) (a3 : v0.z = 0)
    (b1 : -102 / 100 ≤ v1.x ∧ v1.x ≤ -98 / 100) (b2 : -102 / 100 ≤ v1.y ∧ v1.y ≤ -98 / 100) (b3 : v1.z = 0) :
    1 / 4 ≤ (v0.cross v1).sqrLength ∧ v0.almostEq v1 = false ∧ v0.isZero = false ∧ v1.isZero = false := by
  have hcr : (v0.cross v1).sqrLength = (v0.x * v1.y - v0.y * v1.x) ^ 2 := by
    simp only [XYZ.sqrLength, XYZ.cross, a3, b3]; ring
  have hbig : v0.x * v1.y - v0.y * v1.x ≤ -1 / 2 := by
    have k1 : v0.x * v1.y ≤ -(9 / 10) := by nlinarith
    have k2 : -(3 / 100) ≤ v0.y * v1.x := by nlinarith
    linarith
  have hsq : 1 / 4 ≤ (v0.cross v1).sqrLength := by rw [hcr]; nlinarith
  have hz : ∀ v : XYZ ℝ, 9 / 10 ≤ |v.x| → v.isZero = false := by
    intro v hv
    have : 81 / 100 ≤ v.x * v.x := by rw [← abs_mul_abs_self]; nlinarith
    unfold XYZ.isZero XYZ.sqrLength doubleEps
    apply decide_eq_false
    nlinarith [mul_self_nonneg v.y, mul_self_nonneg v.z]
  have hna : v0.almostEq v1 = false := by
    rw [Bool.eq_false_iff]
    intro hcon
    have hx := (almostEq_iff.mp hcon).1
    have hmx : max |v0.x| |v1.x| ≤ 2 := max_le (abs_le.mpr ⟨by linarith, by linarith⟩) (abs_le.mpr ⟨by linarith, by linarith⟩)
    have hge : v0.x - v1.x ≤ |v0.x - v1.x| := le_abs_self _
    linarith
  exact ⟨hsq, hna, hz _ (by rw [abs_of_nonneg (by linarith)]; linarith), hz _ (by rw [abs_of_neg (by linarith)]; linarith)⟩

/-- a curve that the method of Tiller and Hanson does offset -/
theorem parabola_offset : ∃ r, offsetTillerHanson parabola (1 / 100) = ok (some r) := by
  obtain ⟨p0, p2, T, T0, T1, p1⟩ := parabola_param
  obtain ⟨f, ef, -⟩ := parabola_normal le_rfl zero_le_one
  have c0 : nth parabola.cps 0 = ⟨0, 0, 0, 1⟩ := rfl
  have c1 : nth parabola.cps 1 = ⟨1, 0, 0, 1⟩ := rfl
  have c2 : nth parabola.cps 2 = ⟨2, 1, 0, 1⟩ := rfl
  obtain ⟨q0, e0, x0, y0, z0⟩ := parabola_offsetPoint (P := ⟨0, 0, 0, 1⟩) le_rfl zero_le_one (by rw [toXYZ_one]; exact p0) f
  obtain ⟨q1, e1, x1, y1, z1⟩ := parabola_offsetPoint (P := ⟨1, 0, 0, 1⟩) T0 T1 (by rw [toXYZ_one]; exact p1) f
  obtain ⟨q2, e2, x2, y2, z2⟩ := parabola_offsetPoint (P := ⟨2, 1, 0, 1⟩) zero_le_one le_rfl (by rw [toXYZ_one]; exact p2) f
  rw [toXYZ_one] at x0 y0 z0 x1 y1 z1 x2 y2 z2
  dsimp only at x0 y0 z0 x1 y1 z1 x2 y2 z2
  rw [abs_le] at x0 y0 x1 y1 x2 y2
  have hb : isAlmostEqualTo (1 / 100 : ℝ) 0 = false := by
    apply almost_far
    norm_num [abs_of_pos]
  obtain ⟨v0, hv0⟩ : ∃ v, v = q1 - q0 := ⟨_, rfl⟩
  obtain ⟨v1, hv1⟩ : ∃ v, v = q1 - q2 := ⟨_, rfl⟩
  have a1 : 98 / 100 ≤ v0.x ∧ v0.x ≤ 102 / 100 := by rw [hv0]; simp only [XYZ.sub_x]; constructor <;> linarith
  have a2 : -2 / 100 ≤ v0.y ∧ v0.y ≤ 2 / 100 := by rw [hv0]; simp only [XYZ.sub_y]; constructor <;> linarith
  have a3 : v0.z = 0 := by rw [hv0]; simp only [XYZ.sub_z]; linarith
  have b1 : -102 / 100 ≤ v1.x ∧ v1.x ≤ -98 / 100 := by rw [hv1]; simp only [XYZ.sub_x]; constructor <;> linarith
  have b2 : -102 / 100 ≤ v1.y ∧ v1.y ≤ -98 / 100 := by rw [hv1]; simp only [XYZ.sub_y]; constructor <;> linarith
  have b3 : v1.z = 0 := by rw [hv1]; simp only [XYZ.sub_z]; linarith
  obtain ⟨hsq, hna, n0, n1⟩ := open_corner a1 a2 a3 b1 b2 b3
  have hray : computeRays q0 (q1 - q0) q2 (q1 - q2) (0, 0, 0) = ok (.intersecting, 1, 1, q0 + (1 : ℝ) • (q1 - q0)) := by
    rw [← hv0, ← hv1]
    have hm : q0 + (1 : ℝ) • v0 = q2 + (1 : ℝ) • v1 := by rw [hv0, hv1, one_smul, one_smul, add_sub_cancel, add_sub_cancel]
    have hnp : 1 / 1000000 * (1 + (v0.cross v1).sqrLength) < (v0.cross v1).sqrLength := by linarith only [hsq]
    exact C27_rays_complete hm hnp hna n0 n1
  have hn : parabola.cps = [⟨0, 0, 0, 1⟩, ⟨1, 0, 0, 1⟩, ⟨2, 1, 0, 1⟩] := rfl
  unfold offsetTillerHanson
  rw [hb, if_neg (by simp), vget_nth (i := 0) (k := 0) rfl (by simp [parabola]), ok_bind, show nth parabola.knots 0 = 0 from rfl, ef, ok_bind]
  generalize (1 / 100 : ℝ) = d at e0 e1 e2 ⊢
  simp [hn, forI, loopUp, vget, e0, e1, e2, offsetCorner, hray]

example : ∃ r, offsetTillerHanson parabola (1 / 100) = ok (some r) ∧ r.knots = parabola.knots ∧ r.cps.length = 3 ∧ (nth r.cps 0).w = 1 := by
  obtain ⟨r, e⟩ := parabola_offset
  obtain ⟨-, h2, h3, q, -, h4⟩ := C147_points e (by norm_num [abs_of_pos])
  refine ⟨r, e, h2, h3, ?_⟩
  rcases h4 0 (by simp [parabola]) with h | h
  · rw [h]; rfl
  · exact absurd h.1 (by omega)

end LNLib.Props
