import Verif.Model.Arc

/-!
# Model of the conic arcs: `CreateOneConicArc`, `SplitArc` and `CreateOpenConic`

Over `ℝ`.  All paths are relative to /repo/src/LNLib.
-/

namespace LNLib
open Res

noncomputable section

/-- `std::sqrt`; the square root of a negative number is not a number -/
def fsqrt (x : ℝ) : Res ℝ := if x < 0 then nonfinite else ok (Real.sqrt x)

/-- `NurbsCurve::CreateOneConicArc`, Geometry/Curve/NurbsCurve.cpp:1885-1927: the point and the weight, or `none` for
`return false`.  The uninitialised `param0` and `alf0` (lines 1890, 1895) are only read after `ComputeRays` has set them. -/
def createOneConicArc (start startTangent «end» endTangent pointOnConic : XYZ ℝ) : Res (Option (XYZ ℝ × ℝ)) := do
  validate (!startTangent.isZero)
  validate (!endTangent.isZero)
  let q ← computeRays start startTangent «end» endTangent (0, 0, 0)
  let pDiff := «end» - start
  if q.1 = .intersecting then do
    let point := q.2.2.2
    let v1p := pointOnConic - point
    let r ← computeRays point v1p start pDiff (0, 0, 0)
    if r.1 = .intersecting then do
      let alf2 := r.2.2.1
      let x ← fdiv alf2 (1 - alf2)
      let a ← fsqrt x
      let u ← fdiv a (1 + a)
      let num := (1 - u) * (1 - u) * (pointOnConic - start).dot (point - pointOnConic) + u * u * (pointOnConic - «end»).dot (point - pointOnConic)
      let den := 2 * u * (1 - u) * (point - pointOnConic).dot (point - pointOnConic)
      let w ← fdiv num den
      ok (some (point, w))
    else ok none
  else if q.1 = .parallel then do
    let r ← computeRays pointOnConic startTangent start pDiff (0, 0, 0)
    if r.1 = .intersecting then do
      let alf0 := r.2.1
      let alf2 := r.2.2.1
      let x ← fdiv alf2 (1 - alf2)
      let a ← fsqrt x
      let u ← fdiv a (1 + a)
      let b := 2 * u * (1 - u)
      let b ← fdiv (-alf0 * (1 - b)) b
      ok (some (b • startTangent, 0))
    else ok none
  else ok none

/-- The outputs of `NurbsCurve::SplitArc`. -/
structure SplitArc where
  startSide : XYZ ℝ
  split : XYZ ℝ
  endSide : XYZ ℝ

/-- `NurbsCurve::SplitArc`, Geometry/Curve/NurbsCurve.cpp:1929-1935.  Its parameter `insertWeight` is passed by value, so the
assignment to it (line 1934) has no effect for the caller; it is only kept as a possible failure. -/
def splitArc (start projectPoint : XYZ ℝ) (projectPointWeight : ℝ) («end» : XYZ ℝ) : Res SplitArc := do
  let q1 := start + projectPoint
  let r1 := «end» + projectPoint
  let _ ← fsqrt (1 + projectPointWeight)
  ok ⟨q1, (1 / 2 : ℝ) • (q1 + r1), r1⟩

/-- The choice of the number of segments in `CreateOpenConic`, Geometry/Curve/NurbsCurve.cpp:1947-1975 (for a weight above -1). -/
def conicSegments (start P1 «end» : XYZ ℝ) (w1 : ℝ) : ℕ :=
  if isGreaterThanOrEqual w1 1 then 1
  else
    let v1 := (P1 - start).normalize
    let v2 := («end» - P1).normalize
    let rad := v1.angleTo v2
    if isGreaterThan w1 0 && decide (rad > 60 * constPi / 180) then 1
    else if isLessThan w1 0 && decide (rad > 90 * constPi / 180) then 4
    else 2

/-- `NurbsCurve::CreateOpenConic`, Geometry/Curve/NurbsCurve.cpp:1937-2045.  `none` is `return false`.  The knot vector and the
control points of each of the three cases are written out; `wqr` is `0` throughout because `SplitArc` does not return it. -/
def createOpenConic (start startTangent «end» endTangent pointOnConic : XYZ ℝ) : Res (Option (NurbsCurve ℝ)) := do
  validate (!startTangent.isZero)
  validate (!endTangent.isZero)
  let one ← createOneConicArc start startTangent «end» endTangent pointOnConic
  match one with
  | none => ok none
  | some (P1, w1) =>
    if isLessThanOrEqual w1 (-1) then ok none
    else
      let wqr : ℝ := 0
      let nsegs := conicSegments start P1 «end» w1
      if nsegs = 1 then
        ok (some ⟨2, [0, 0, 0, 1, 1, 1], [XYZW.ofXYZ start 1, XYZW.ofXYZ P1 w1, XYZW.ofXYZ «end» 1]⟩)
      else do
        let s ← splitArc start P1 w1 «end»
        if nsegs = 2 then
          ok (some ⟨2, [0, 0, 0, 0.5, 0.5, 1, 1, 1],
            [XYZW.ofXYZ start 1, XYZW.ofXYZ s.startSide wqr, XYZW.ofXYZ s.split 1, XYZW.ofXYZ s.endSide wqr, XYZW.ofXYZ «end» 1]⟩)
        else do
          let h1 ← splitArc start s.startSide wqr s.split
          let h2 ← splitArc s.split s.endSide wqr «end»
          ok (some ⟨2, [0, 0, 0, 0.25, 0.25, 0.5, 0.5, 0.75, 0.75, 1, 1, 1],
            [XYZW.ofXYZ start 1, XYZW.ofXYZ h1.startSide wqr, XYZW.ofXYZ h1.split 1, XYZW.ofXYZ h1.endSide wqr, XYZW.ofXYZ s.split 1,
              XYZW.ofXYZ h2.startSide wqr, XYZW.ofXYZ h2.split 1, XYZW.ofXYZ h2.endSide wqr, XYZW.ofXYZ «end» 1]⟩)

end

end LNLib
