import Verif.Model.SubLength
import Verif.Props.LengthParam
import Verif.Props.CurveEdit
import Verif.Props.LeastSquares

/-!
# C159: the length of a part of a curve
-/

namespace LNLib.Props
open LNLib Res Spec Finset

/-- `Extract` on a segment keeps the part behind the end parameter. -/
theorem segment_extract {P Q : XYZW ℝ} {s e : ℝ} (h0 : 1 / 1000000 * (1 + s) < s) (h1 : 2 / 1000000 < 1 - e) (hse : 2 / 1000000 < e - s) :
    ∃ R, extractCurve (segment P Q) s e = ok ⟨1, [s, e, e, 1], [s • Q + (1 - s) • P, R, R, Q]⟩ ∧ R = ((e - s) / (1 - s)) • Q + (1 - (e - s) / (1 - s)) • (s • Q + (1 - s) • P) := by
  have hs0 : 0 < s := by linarith
  have he0 : 0 < e := by linarith
  have he1 : e < 1 := by linarith
  have hs1 : s < 1 := by linarith
  have hlt : s < e := by linarith
  have b1 : isAlmostEqualTo s 0 = false := by
    simp [isAlmostEqualTo, tolOf, doubleEps, abs_of_pos hs0, max_eq_left hs0.le]; linarith
  have b2 : isAlmostEqualTo s 1 = false := by
    simp [isAlmostEqualTo, tolOf, doubleEps, abs_of_pos hs0, max_eq_right hs1.le, abs_of_neg (sub_neg.mpr hs1)]; linarith
  have b3 : isAlmostEqualTo e 0 = false := by
    simp [isAlmostEqualTo, tolOf, doubleEps, abs_of_pos he0, max_eq_left he0.le]; linarith
  have b4 : isAlmostEqualTo e 1 = false := by
    simp [isAlmostEqualTo, tolOf, doubleEps, abs_of_pos he0, max_eq_right he1.le, abs_of_neg (sub_neg.mpr he1)]; linarith
  have b5 : isAlmostEqualTo e s = false := by
    simp [isAlmostEqualTo, tolOf, doubleEps, abs_of_pos he0, abs_of_pos hs0, max_eq_left hlt.le, abs_of_pos (sub_pos.mpr hlt)]; linarith
  have c1 : isLessThan s e = true := by
    simp [isLessThan, tolOf, doubleEps, abs_of_pos he0, abs_of_pos hs0, max_eq_right hlt.le]; linarith
  have a2 : isGreaterThanOrEqual s 1 = false := by
    simp [isGreaterThanOrEqual, tolOf, doubleEps, abs_of_pos hs0, max_eq_right hs1.le]; linarith
  have a3 : isGreaterThanOrEqual e 1 = false := by
    simp [isGreaterThanOrEqual, tolOf, doubleEps, abs_of_pos he0, max_eq_right he1.le]; linarith
  have a0 : isLessThanOrEqual s 0 = false := by
    simp [isLessThanOrEqual, tolOf, doubleEps, abs_of_pos hs0, max_eq_left hs0.le]; linarith
  have a1 : isLessThanOrEqual e 0 = false := by
    simp [isLessThanOrEqual, tolOf, doubleEps, abs_of_pos he0, max_eq_left he0.le]; linarith
  have k1 : isValidKnotVector [0, 0, 1, (1 : ℝ)] = true := by
    rw [isValidKnotVector_iff]; simp
  have k2 : isValidKnotVector [0, 0, s, s, 1, (1 : ℝ)] = true := by
    rw [isValidKnotVector_iff]; simp [hs0.le, hs1.le]
  have k3 : isValidKnotVector [0, 0, s, s, e, e, 1, (1 : ℝ)] = true := by
    rw [isValidKnotVector_iff]; simp [hs0.le, hs1.le, hlt.le, he0.le, he1.le]
  have r1 : validateRange s 0 1 = ok () := by
    simp [validateRange, not_lt.mpr hs0.le, not_lt.mpr hs1.le]
  have r2 : validateRange e 0 1 = ok () := by
    simp [validateRange, not_lt.mpr he0.le, not_lt.mpr he1.le]
  have m1 : getKnotMultiplicity [0, 0, 1, 1] s = ok 0 := by
    simp [getKnotMultiplicity, validate, k1, vget, r1, forI, loopUp, b1, b2]
  have m2 : getKnotMultiplicity [0, 0, s, s, 1, 1] e = ok 0 := by
    simp [getKnotMultiplicity, validate, k2, vget, r2, forI, loopUp, b3, b4, b5]
  have s1 : getKnotSpanIndex 1 [0, 0, 1, 1] s = ok 1 := by
    simp [getKnotSpanIndex, validate, k1, vget, r1, whileF, not_lt.mpr hs0.le, not_le.mpr hs1]
  have s2 : getKnotSpanIndex 1 [0, 0, s, s, 1, 1] e = ok 3 := by
    simp [getKnotSpanIndex, validate, k2, vget, r2, a1, whileF, not_le.mpr he1, not_lt.mpr hlt.le, hlt.le]
  have s3 : getKnotSpanIndex 1 [0, 0, s, s, e, e, 1, 1] s = ok 3 := by
    simp [getKnotSpanIndex, validate, k3, vget, r1, a2, a0, whileF, not_le.mpr hlt, hlt]
  have s4 : getKnotSpanIndex 1 [0, 0, s, s, e, e, 1, 1] e = ok 5 := by
    simp [getKnotSpanIndex, validate, k3, vget, r2, a1, whileF, not_le.mpr he1, not_lt.mpr hlt.le]
  have one_not_neg : ¬ (1 : ℝ) < 0 := by norm_num
  have n1 : (getKnotMultiplicityMap [0, 0, 1, (1 : ℝ)]).at s = 0 := by
    simp [getKnotMultiplicityMap, KnotMap.at, KnotMap.incr, KnotMap.find, one_not_neg, hs0.ne, hs1.ne']
  have n2 : (getKnotMultiplicityMap [0, 0, 1, (1 : ℝ)]).at e = 0 := by
    simp [getKnotMultiplicityMap, KnotMap.at, KnotMap.incr, KnotMap.find, one_not_neg, he0.ne, he1.ne']
  refine ⟨_, ?_, rfl⟩
  have i1 : insertKnot (segment P Q) s 2 (segment P Q) = ok (2, ⟨1, [0, 0, s, s, 1, 1], [P, s • Q + (1 - s) • P, s • Q + (1 - s) • P, Q]⟩) := by
    simp [insertKnot, segment, validate, s1, m1, forI, loopUp, vget, vset, fdiv]
    exact List.Pairwise.insertionSort_eq (by simp [hs0.le, hs1.le])
  have i2 : insertKnot (⟨1, [0, 0, s, s, 1, 1], [P, s • Q + (1 - s) • P, s • Q + (1 - s) • P, Q]⟩ : NurbsCurve ℝ) e 2 ⟨1, [0, 0, s, s, 1, 1], [P, s • Q + (1 - s) • P, s • Q + (1 - s) • P, Q]⟩ =
      ok (2, ⟨1, [0, 0, s, s, e, e, 1, 1], [P, s • Q + (1 - s) • P, s • Q + (1 - s) • P, ((e - s) / (1 - s)) • Q + (1 - (e - s) / (1 - s)) • (s • Q + (1 - s) • P),
        ((e - s) / (1 - s)) • Q + (1 - (e - s) / (1 - s)) • (s • Q + (1 - s) • P), Q]⟩) := by
    have : (1 : ℝ) - s ≠ 0 := by linarith
    simp [insertKnot, validate, s2, m2, forI, loopUp, vget, vset, fdiv, this]
    exact List.Pairwise.insertionSort_eq (by simp [hs0.le, hs1.le, hlt.le, he0.le, he1.le])
  unfold extractCurve
  rw [show (segment P Q).degree = 1 from rfl, show (segment P Q).knots = [0, 0, 1, 1] from rfl]
  dsimp only
  rw [n1, n2]
  simp [vget, r1, r2, c1, i1, i2, s3, s4, sliceR, validate]

/-- `Extract` on a segment up to its end. -/
theorem segment_extract_tail {P Q : XYZW ℝ} {s : ℝ} (h0 : 1 / 1000000 * (1 + s) < s) (h1 : 2 / 1000000 < 1 - s) :
    extractCurve (segment P Q) s 1 = ok ⟨1, [s, 1], [s • Q + (1 - s) • P, Q]⟩ := by
  have hs0 : 0 < s := by linarith
  have hs1 : s < 1 := by linarith
  have b1 : isAlmostEqualTo s 0 = false := by
    simp [isAlmostEqualTo, tolOf, doubleEps, abs_of_pos hs0, max_eq_left hs0.le]; linarith
  have b2 : isAlmostEqualTo s 1 = false := by
    simp [isAlmostEqualTo, tolOf, doubleEps, abs_of_pos hs0, max_eq_right hs1.le, abs_of_neg (sub_neg.mpr hs1)]; linarith
  have c1 : isLessThan s 1 = true := by
    simp [isLessThan, tolOf, doubleEps, abs_of_pos hs0, max_eq_right hs1.le]; linarith
  have a2 : isGreaterThanOrEqual s 1 = false := by
    simp [isGreaterThanOrEqual, tolOf, doubleEps, abs_of_pos hs0, max_eq_right hs1.le]; linarith
  have a3 : isGreaterThanOrEqual (1 : ℝ) 1 = true := by
    simp [isGreaterThanOrEqual, tolOf, doubleEps]
  have a0 : isLessThanOrEqual s 0 = false := by
    simp [isLessThanOrEqual, tolOf, doubleEps, abs_of_pos hs0, max_eq_left hs0.le]; linarith
  have a1 : isLessThanOrEqual (1 : ℝ) 0 = false := by
    simp [isLessThanOrEqual, tolOf, doubleEps]; norm_num
  have k1 : isValidKnotVector [0, 0, 1, (1 : ℝ)] = true := by
    rw [isValidKnotVector_iff]; simp
  have k2 : isValidKnotVector [0, 0, s, s, 1, (1 : ℝ)] = true := by
    rw [isValidKnotVector_iff]; simp [hs0.le, hs1.le]
  have r1 : validateRange s 0 1 = ok () := by
    simp [validateRange, not_lt.mpr hs0.le, not_lt.mpr hs1.le]
  have r2 : validateRange (1 : ℝ) 0 1 = ok () := by
    simp [validateRange]
  have m1 : getKnotMultiplicity [0, 0, 1, 1] s = ok 0 := by
    simp [getKnotMultiplicity, validate, k1, vget, r1, forI, loopUp, b1, b2]
  have s1 : getKnotSpanIndex 1 [0, 0, 1, 1] s = ok 1 := by
    simp [getKnotSpanIndex, validate, k1, vget, r1, whileF, not_lt.mpr hs0.le, not_le.mpr hs1]
  have s3 : getKnotSpanIndex 1 [0, 0, s, s, 1, 1] s = ok 3 := by
    simp [getKnotSpanIndex, validate, k2, vget, r1, a0, whileF, not_le.mpr hs1]
  have s4 : getKnotSpanIndex 1 [0, 0, s, s, 1, 1] 1 = ok 3 := by
    simp [getKnotSpanIndex, validate, k2, vget, r2, a3, a1]
  have one_not_neg : ¬ (1 : ℝ) < 0 := by norm_num
  have n1 : (getKnotMultiplicityMap [0, 0, 1, (1 : ℝ)]).at s = 0 := by
    simp [getKnotMultiplicityMap, KnotMap.at, KnotMap.incr, KnotMap.find, one_not_neg, hs0.ne, hs1.ne']
  have n2 : (getKnotMultiplicityMap [0, 0, 1, (1 : ℝ)]).at 1 = 2 := by
    simp [getKnotMultiplicityMap, KnotMap.at, KnotMap.incr, KnotMap.find, one_not_neg]
  have i1 : insertKnot (segment P Q) s 2 (segment P Q) = ok (2, ⟨1, [0, 0, s, s, 1, 1], [P, s • Q + (1 - s) • P, s • Q + (1 - s) • P, Q]⟩) := by
    simp [insertKnot, segment, validate, s1, m1, forI, loopUp, vget, vset, fdiv]
    exact List.Pairwise.insertionSort_eq (by simp [hs0.le, hs1.le])
  unfold extractCurve
  rw [show (segment P Q).degree = 1 from rfl, show (segment P Q).knots = [0, 0, 1, 1] from rfl]
  dsimp only
  rw [n1, n2]
  simp [vget, r1, r2, c1, i1, s3, s4, sliceR, validate]

theorem dist_between (x y : XYZ ℝ) {s e : ℝ} (h : s ≤ e) : (x + s • (y - x)).distance (x + e • (y - x)) = (e - s) * x.distance y := by
  rw [distance_eq_length, distance_eq_length]
  have : x + e • (y - x) - (x + s • (y - x)) = (e - s) • (y - x) := by rw [sub_smul]; abel
  rw [this, length_smul (by linarith)]

theorem dist_rest (x y : XYZ ℝ) {s : ℝ} (h : s ≤ 1) : (x + s • (y - x)).distance y = (1 - s) * x.distance y := by
  have := dist_between x y h
  rwa [one_smul, add_sub_cancel] at this

/-- The point of a segment at a parameter. -/
theorem segment_point (x y : XYZ ℝ) {t : ℝ} (h0 : 0 ≤ t) (h1 : t ≤ 1) : NurbsCurve.pointOnCurve (segment (onePoint x) (onePoint y)) t = ok (x + t • (y - x)) := by
  rw [unit_weight_point (segment_wf _ _) ⟨by simp [segment, nth]; norm_num, by simp [segment, nth]; norm_num⟩ (by simpa [segment, nth]) (by simpa [segment, nth])
    (by intro i hi; interval_cases i <;> rfl)]
  congr 1
  rcases h1.lt_or_eq with h | rfl
  · have n0 : N (nth (segment (onePoint x) (onePoint y)).knots) 1 1 0 t = 1 - t := by
      simp [N, segment, nth, h0, h, not_le.mpr h]
    have n1 : N (nth (segment (onePoint x) (onePoint y)).knots) 1 1 1 t = t := by
      simp [N, segment, nth, h0, h, not_le.mpr h]
    rw [sum_range_succ, sum_range_succ, sum_range_zero, zero_add, show nth (segment (onePoint x) (onePoint y)).knots (1 + 1) = 1 from rfl, n0, n1]
    ext <;> simp [segment, nth, onePoint, XYZW.raw] <;> ring
  · rw [sum_range_succ, sum_range_succ, sum_range_zero, zero_add]
    ext <;> simp [N, segment, nth, onePoint, XYZW.raw]

/-- The length of a part of a segment that begins behind the start and ends before the end. -/
theorem segment_subLength (quadrature : NurbsCurve ℝ → Res ℝ) (x y : XYZ ℝ) {s e : ℝ} (h0 : 1 / 1000000 * (1 + s) < s) (h1 : 2 / 1000000 < 1 - e)
    (hse : 2 / 1000000 < e - s) : approximateSubLength quadrature (segment (onePoint x) (onePoint y)) s e = ok ((1 - s) * x.distance y) := by
  have hs1 : 0 < 1 - s := by linarith
  obtain ⟨R, hR, eR⟩ := segment_extract (P := onePoint x) (Q := onePoint y) h0 h1 hse
  have eS : s • onePoint y + (1 - s) • onePoint x = onePoint (x + s • (y - x)) := by rw [add_comm, onePoint_mix]
  have eR' : R = onePoint (x + e • (y - x)) := by
    rw [eR]
    have : (1 : ℝ) - s ≠ 0 := hs1.ne'
    apply XYZW.ext <;> simp [onePoint] <;> field_simp <;> ring
  rw [eS, eR'] at hR
  have lin : isLinear (⟨1, [s, e, e, 1], [onePoint (x + s • (y - x)), onePoint (x + e • (y - x)), onePoint (x + e • (y - x)), onePoint y]⟩ : NurbsCurve ℝ) = true := by
    refine C110_collinear (A := x) (D := y - x) (by simp) ?_
    intro q hq
    simp only [List.mem_cons, List.not_mem_nil, or_false] at hq
    rcases hq with rfl | rfl | rfl | rfl
    · exact ⟨s, onePoint_xyz _⟩
    · exact ⟨e, onePoint_xyz _⟩
    · exact ⟨e, onePoint_xyz _⟩
    · exact ⟨1, by rw [onePoint_xyz, one_smul]; abel⟩
  unfold approximateSubLength
  rw [hR, ok_bind]
  unfold approximateLength
  rw [if_pos lin]
  simp [vget, onePoint_xyz]
  exact dist_rest x y (by linarith)

/-- C159 (violated): on every segment, for every range of parameters that ends before the end of the segment, the length returned is the length from the start of the range to the end of the whole
segment. It does not depend on the end of the range, and it is never the length of the range. -/
theorem C159_sublength_violated (quadrature : NurbsCurve ℝ → Res ℝ) {x y : XYZ ℝ} (hxy : x ≠ y) {s e : ℝ} (h0 : 1 / 1000000 * (1 + s) < s) (h1 : 2 / 1000000 < 1 - e)
    (hse : 2 / 1000000 < e - s) :
    ∃ A B L, NurbsCurve.pointOnCurve (segment (onePoint x) (onePoint y)) s = ok A ∧ NurbsCurve.pointOnCurve (segment (onePoint x) (onePoint y)) e = ok B ∧
      approximateSubLength quadrature (segment (onePoint x) (onePoint y)) s e = ok L ∧ L = A.distance y ∧ A.distance B < L := by
  have hD : 0 < x.distance y := by
    rcases (distance_nonneg x y).lt_or_eq with h | h
    · exact h
    · exfalso
      apply hxy
      have h' : (y.x - x.x) ^ 2 + (y.y - x.y) ^ 2 + (y.z - x.z) ^ 2 = 0 := by
        have := h.symm
        unfold XYZ.distance at this
        exact (Real.sqrt_eq_zero (by positivity)).mp this
      ext <;> nlinarith [sq_nonneg (y.x - x.x), sq_nonneg (y.y - x.y), sq_nonneg (y.z - x.z)]
  refine ⟨x + s • (y - x), x + e • (y - x), _, segment_point x y (by linarith) (by linarith), segment_point x y (by linarith) (by linarith),
    segment_subLength quadrature x y h0 h1 hse, (dist_rest x y (by linarith)).symm, ?_⟩
  rw [dist_between x y (by linarith)]
  nlinarith

/-- C159 (part): on every segment, for every range that begins behind the start and ends at the end, the length returned is the length of the range. -/
theorem C159_tail_partial (quadrature : NurbsCurve ℝ → Res ℝ) {x y : XYZ ℝ} {s : ℝ} (h0 : 1 / 1000000 * (1 + s) < s) (h1 : 2 / 1000000 < 1 - s) :
    ∃ A L, NurbsCurve.pointOnCurve (segment (onePoint x) (onePoint y)) s = ok A ∧
      approximateSubLength quadrature (segment (onePoint x) (onePoint y)) s 1 = ok L ∧ L = A.distance y := by
  refine ⟨x + s • (y - x), _, segment_point x y (by linarith) (by linarith), ?_, rfl⟩
  have eS : s • onePoint y + (1 - s) • onePoint x = onePoint (x + s • (y - x)) := by rw [add_comm, onePoint_mix]
  unfold approximateSubLength
  rw [segment_extract_tail h0 h1, ok_bind, eS]
  unfold approximateLength
  rw [if_pos (by rfl)]
  simp [vget, onePoint_xyz]

/-- C159: a range outside of the knots and an empty range are rejected, for every curve. -/
theorem C159_rejects (quadrature : NurbsCurve ℝ → Res ℝ) {c : NurbsCurve ℝ} {s e : ℝ} (hc : 0 < c.knots.length) :
    ((s < nth c.knots 0 - 1 / 1000000 ∨ nth c.knots (c.knots.length - 1) + 1 / 1000000 < s) → approximateSubLength quadrature c s e = outOfRange) ∧
    (nth c.knots 0 ≤ s → s ≤ nth c.knots (c.knots.length - 1) → nth c.knots 0 ≤ e → e ≤ s → approximateSubLength quadrature c s e = invalidArg) := by
  obtain ⟨a, b⟩ := C43_rejects_partial (c := c) (s := s) (e := e) hc
  unfold approximateSubLength
  exact ⟨fun h => by rw [a h]; rfl, fun h1 h2 h3 h4 => by rw [b h1 h2 h3 h4]; rfl⟩

/-- non-vacuity: the middle third of the segment from the origin to (3, 4, 0) -/
example (quadrature : NurbsCurve ℝ → Res ℝ) :
    approximateSubLength quadrature (segment (onePoint ⟨0, 0, 0⟩) (onePoint ⟨3, 4, 0⟩)) (1 / 3) (2 / 3) = ok ((1 - 1 / 3) * XYZ.distance ⟨0, 0, 0⟩ ⟨3, 4, 0⟩) :=
  segment_subLength quadrature _ _ (by norm_num) (by norm_num) (by norm_num)

end LNLib.Props
