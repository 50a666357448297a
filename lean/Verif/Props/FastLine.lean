import Verif.Props.KnotsByBound

/-!
# A straight curve with two interior knots, for C155

The steps of `RemoveKnotsByGivenBound` on one curve.
-/

namespace LNLib.Props
open LNLib Res LNLib.Spec Finset
noncomputable section
def rowPt (x : ℝ) : XYZW ℝ := ⟨x, 0, 0, 1⟩
def fastLine : NurbsCurve ℝ := { degree := 2, knots := [0, 0, 0, 1, 2, 3, 3, 3], cps := [rowPt 0, rowPt 1, rowPt 3, rowPt 5, rowPt 6] }
def fastLine' : NurbsCurve ℝ := { degree := 2, knots := [0, 0, 0, 2, 3, 3, 3], cps := [rowPt 0, rowPt 3, rowPt 5, rowPt 6] }

theorem fl_m3 : getKnotMultiplicity [0, 0, 0, 1, 2, 3, 3, (3:ℝ)] 1 = ok 1 := by
  simp [getKnotMultiplicity, isValidKnotVector, vget, validateRange, forI, loopUp, isAlmostEqualTo, tolOf, doubleEps]
  norm_num [abs_of_pos]
theorem fl_m4 : getKnotMultiplicity [0, 0, 0, 1, 2, 3, 3, (3:ℝ)] 2 = ok 1 := by
  simp [getKnotMultiplicity, isValidKnotVector, vget, validateRange, forI, loopUp, isAlmostEqualTo, tolOf, doubleEps]
  norm_num [abs_of_pos]
theorem fl_m3' : getKnotMultiplicity [0, 0, 0, 2, 3, 3, (3:ℝ)] 2 = ok 1 := by
  simp [getKnotMultiplicity, isValidKnotVector, vget, validateRange, forI, loopUp, isAlmostEqualTo, tolOf, doubleEps]
  norm_num [abs_of_pos]
theorem fl_b3 : removeBoundPair fastLine 3 = ok (rowPt 2, rowPt 2) := by
  simp [removeBoundPair, fastLine, validateIndex, vget, fl_m3, vset, whileF, removeSweepRound, fdiv, vdiv]
  norm_num
  simp
  constructor <;> ext <;> simp [rowPt] <;> norm_num
theorem fl_b4 : removeBoundPair fastLine 4 = ok (rowPt 4, rowPt 4) := by
  simp [removeBoundPair, fastLine, validateIndex, vget, fl_m4, vset, whileF, removeSweepRound, fdiv, vdiv]
  norm_num
  simp
  constructor <;> ext <;> simp [rowPt] <;> norm_num
theorem fl_b3' : removeBoundPair fastLine' 3 = ok (rowPt (9/2), rowPt 3) := by
  simp [removeBoundPair, fastLine', validateIndex, vget, fl_m3', vset, whileF, removeSweepRound, fdiv, vdiv]
  norm_num
  simp
  constructor <;> ext <;> simp [rowPt] <;> norm_num

theorem fl_span : getKnotSpanIndex 2 [0, 0, 0, 1, 2, 3, 3, (3:ℝ)] 1 = ok 3 := by
  simp [getKnotSpanIndex, isValidKnotVector, vget, validateRange, isGreaterThanOrEqual, isLessThanOrEqual, tolOf, doubleEps]
  norm_num
  simp [whileF]
theorem fl_span' : getKnotSpanIndex 2 [0, 0, 0, 2, 3, 3, (3:ℝ)] 1 = ok 2 := by
  simp [getKnotSpanIndex, isValidKnotVector, vget, validateRange, isGreaterThanOrEqual, isLessThanOrEqual, tolOf, doubleEps]
  norm_num
  simp [whileF, not_lt.mpr (zero_le_one (α := ℝ))]

theorem fl_remove {close : XYZW ℝ → XYZW ℝ → Bool} (hc : ∀ x, close x x = true) : removeKnot close fastLine 1 1 = ok (some fastLine') := by
  have e1 : (2 : ℝ) • (rowPt 1 - (2 : ℝ)⁻¹ • rowPt 0) = rowPt 2 := by ext <;> simp [rowPt]; norm_num
  have e2 : (3 / 2 : ℝ) • (rowPt 3 - (3 : ℝ)⁻¹ • rowPt 5) = rowPt 2 := by ext <;> simp [rowPt] <;> norm_num
  simp [removeKnot, fastLine, vget, validateRange, fl_m3, fl_span, removeKnots, forI, loopUp, vset]
  norm_num
  simp [whileF, removeRound, removeSweep, vget, vset, removeSweepRound, fdiv, vdiv]
  norm_num
  simp [removeTest, vget]
  rw [e1, e2]
  simp [hc, removeSave, whileF, vget, vset, removeCompact, forI, loopUp, fastLine', Int.tdiv]

theorem fl_basis : oneBasisFunction 2 2 [0, 0, 0, 1, 2, 3, 3, (3:ℝ)] 1 = ok (1 / 2) := by
  have g1 : isGreaterThanOrEqual (1 : ℝ) 0 (1 / 1000000) = true := by norm_num [isGreaterThanOrEqual, tolOf]
  have g2 : isGreaterThanOrEqual (1 : ℝ) 1 (1 / 1000000) = true := by norm_num [isGreaterThanOrEqual, tolOf]
  have g3 : isGreaterThanOrEqual (1 : ℝ) 2 (1 / 1000000) = false := by norm_num [isGreaterThanOrEqual, tolOf]
  have g4 : isLessThan (1 : ℝ) 1 (1 / 1000000) = false := by norm_num [isLessThan, tolOf]
  have g5 : isLessThan (1 : ℝ) 2 (1 / 1000000) = true := by norm_num [isLessThan, tolOf]
  simp [oneBasisFunction, isValidKnotVector, vget, validateRange, isAlmostEqualTo, isLessThan, isGreaterThanOrEqual, tolOf, doubleEps]
  norm_num
  simp [forI, loopUp, inSpan, vget, vset, obfSaved, obfStep, isAlmostEqualTo, tolOf, doubleEps]
  norm_num
  simp only [g1, g2, g3, g4, g5, if_true, ok_bind, Bool.false_eq_true, if_false]
  norm_num [fdiv]

theorem fl_basis' : oneBasisFunction 2 2 [0, 0, 0, 2, 3, 3, (3:ℝ)] 1 = ok (1 / 6) := by
  have g1 : isGreaterThanOrEqual (1 : ℝ) 0 (1 / 1000000) = true := by norm_num [isGreaterThanOrEqual, tolOf]
  have g2 : isGreaterThanOrEqual (1 : ℝ) 3 (1 / 1000000) = false := by norm_num [isGreaterThanOrEqual, tolOf]
  have g3 : isGreaterThanOrEqual (1 : ℝ) 2 (1 / 1000000) = false := by norm_num [isGreaterThanOrEqual, tolOf]
  have g5 : isLessThan (1 : ℝ) 2 (1 / 1000000) = true := by norm_num [isLessThan, tolOf]
  simp [oneBasisFunction, isValidKnotVector, vget, validateRange, isAlmostEqualTo, isLessThan, isGreaterThanOrEqual, tolOf, doubleEps]
  norm_num
  simp [forI, loopUp, inSpan, vget, vset, obfSaved, obfStep, isAlmostEqualTo, tolOf, doubleEps]
  norm_num
  simp only [g1, g2, g3, g5, if_true, ok_bind, Bool.false_eq_true, if_false]
  norm_num [fdiv]
/-- `Constants::MaxDistance` -/
abbrev M9 : ℝ := maxDistance

theorem dist_self4 (x : XYZW ℝ) : XYZW.distance x x = 0 := distance4_zero.mpr rfl

theorem dist_row (x y : ℝ) : XYZW.distance (rowPt x) (rowPt y) = |x - y| := by
  simp [XYZW.distance, rowPt, Real.sqrt_sq_eq_abs, abs_sub_comm]

theorem fl_bounds : initialBounds XYZW.distance fastLine = ok ([M9, M9, M9, 0, 0, M9, M9, M9], [0, 0, 0, 1, 1, 0, 0, 0]) := by
  have k3 : knotBound XYZW.distance fastLine 3 = ok 0 := by unfold knotBound; rw [fl_b3, ok_bind]; dsimp only; rw [dist_self4]
  have k4 : knotBound XYZW.distance fastLine 4 = ok 0 := by unfold knotBound; rw [fl_b4, ok_bind]; dsimp only; rw [dist_self4]
  have l1 : isLessThan (1 : ℝ) 2 = true := by norm_num [isLessThan, tolOf, doubleEps]
  have l2 : isLessThan (2 : ℝ) 3 = true := by norm_num [isLessThan, tolOf, doubleEps]
  have hk : fastLine.knots = [0, 0, 0, 1, 2, 3, 3, (3:ℝ)] := rfl
  have hc : fastLine.cps.length = 5 := rfl
  have hd : fastLine.degree = 2 := rfl
  simp [initialBounds, hk, hc, hd, forI, loopUp, vget, vset, l1, l2, k3, k4, fl_m3, fl_m4, List.replicate]

theorem fl_ranges : initialRanges fastLine [1] = ok (List.replicate 8 0, List.replicate 8 0) := by
  have hk : fastLine.knots = [0, 0, 0, 1, 2, 3, 3, (3:ℝ)] := rfl
  have hd : fastLine.degree = 2 := rfl
  simp [initialRanges, hk, hd, forI, loopUp, vget, vset, fl_span, List.replicate]

theorem m9_ne : (0 : ℝ) ≠ maxDistance := by norm_num [maxDistance]

theorem fl_least : leastBound [M9, M9, M9, 0, 0, M9, M9, M9] 0 = ok 3 := by
  have l1 : isLessThan M9 M9 = false := by norm_num [isLessThan, tolOf, doubleEps, maxDistance]
  have l2 : isLessThan 0 M9 = true := by norm_num [isLessThan, tolOf, doubleEps, maxDistance]
  have l3 : isLessThan M9 0 = false := by norm_num [isLessThan, tolOf, doubleEps, maxDistance]
  have l4 : isLessThan (0 : ℝ) 0 = false := by norm_num [isLessThan, tolOf, doubleEps]
  simp [leastBound, forI, loopUp, vget, l1, l2, l3, l4]

theorem fl_least1 : leastBound [M9, M9, M9, 3 / 2, M9, M9, M9] 3 = ok 3 := by
  have l1 : isLessThan M9 M9 = false := by norm_num [isLessThan, tolOf, doubleEps, maxDistance]
  have l2 : isLessThan (3 / 2) M9 = true := by norm_num [isLessThan, tolOf, doubleEps, maxDistance]
  have l3 : isLessThan M9 (3 / 2) = false := by norm_num [isLessThan, tolOf, doubleEps, maxDistance]
  simp [leastBound, forI, loopUp, vget, l1, l2, l3]

theorem fl_least2 : leastBound [M9, M9, M9, M9, M9, M9, M9] 3 = ok 3 := by
  have l1 : isLessThan M9 M9 = false := by norm_num [isLessThan, tolOf, doubleEps, maxDistance]
  simp [leastBound, forI, loopUp, vget, l1]

theorem fl_pt : NurbsCurve.pointOnCurve fastLine 1 = ok ⟨2, 0, 0⟩ := by
  have hk : fastLine.knots = [0, 0, 0, 1, 2, 3, 3, (3:ℝ)] := rfl
  have hc : fastLine.cps = [rowPt 0, rowPt 1, rowPt 3, rowPt 5, rowPt 6] := rfl
  have hd : fastLine.degree = 2 := rfl
  simp [vset, NurbsCurve.pointOnCurve, BsplineCurve.pointOnCurve, hk, hc, hd, fl_span, vget, validateRange, basisFunctions, isValidKnotVector, nurbsMaxDegree, aset, uninit, forI, loopUp, aget, fdiv, List.replicate]
  norm_num
  simp [XYZW.toXYZ, rowPt, isAlmostEqualTo, tolOf, doubleEps, XYZW.raw]
  norm_num
theorem fl_pt' : NurbsCurve.pointOnCurve fastLine' 1 = ok ⟨31 / 12, 0, 0⟩ := by
  have hk : fastLine'.knots = [0, 0, 0, 2, 3, 3, (3:ℝ)] := rfl
  have hc : fastLine'.cps = [rowPt 0, rowPt 3, rowPt 5, rowPt 6] := rfl
  have hd : fastLine'.degree = 2 := rfl
  simp [vset, NurbsCurve.pointOnCurve, BsplineCurve.pointOnCurve, hk, hc, hd, fl_span', vget, validateRange, basisFunctions, isValidKnotVector, nurbsMaxDegree, aset, uninit, forI, loopUp, aget, fdiv, List.replicate]
  norm_num
  simp [XYZW.toXYZ, rowPt, isAlmostEqualTo, tolOf, doubleEps, XYZW.raw]
  norm_num

end
end LNLib.Props
