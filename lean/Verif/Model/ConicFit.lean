import Verif.Model.Intersection
import Verif.Model.Curve

/-!
# Model of the fitting of a conic between two points with given tangents

`Interpolation::ComputerWeightForRationalQuadraticInterpolation` (Algorithm/Interpolation.cpp) and
`BezierCurve::ComputerMiddleControlPointsOnQuadraticCurve` (Geometry/Curve/BezierCurve.cpp); all paths are relative to /repo/src/LNLib.
-/

namespace LNLib
open Res

noncomputable section

/-- The second half of `Interpolation::ComputerWeightForRationalQuadraticInterpolation`, Algorithm/Interpolation.cpp:230-244 (and 246-256 with the end points
exchanged): the point in which the line from `s` to a point of the opposite side meets the line from the middle of the base to `r`; `none` if `ComputeRays` finds none. -/
def bisectorPoint (s r e : XYZ ℝ) (old : ℝ × ℝ × XYZ ℝ) : Res (Option (XYZ ℝ)) := do
  let M := (1 / 2 : ℝ) • (s + e)
  let MR := r - M
  let ratio ← fdiv (r - s).length (e - s).length
  let frac ← fdiv 1 (ratio + 1)
  let D := e + frac • (r - e)
  let SD := D - s
  let (type, _, _, S1) ← computeRays s SD.normalize M MR.normalize old
  if type ≠ .intersecting then ok none else ok (some S1)

/-- `Interpolation::ComputerWeightForRationalQuadraticInterpolation`, Algorithm/Interpolation.cpp:211-263; `none` for the result `false` (the weight is then left alone).
The parameters `alf1`, `alf2` and the points that are passed to `ComputeRays` are not read before they are set; they are 0 here. -/
def rationalQuadraticWeight (startPoint middle endPoint : XYZ ℝ) : Res (Option ℝ) :=
  let SM := middle - startPoint
  let EM := middle - endPoint
  let SE := endPoint - startPoint
  if SM.normalize.almostEq EM.normalize || SM.normalize.almostEq (-EM.normalize) then ok (some 1)
  else if isAlmostEqualTo SM.length EM.length then do
    let w ← fdiv (SM.dot SE) (SM.length * SE.length)
    ok (some w)
  else do
    let M := (1 / 2 : ℝ) • (startPoint + endPoint)
    let MR := middle - M
    let s1 ← bisectorPoint startPoint middle endPoint (0, 0, 0)
    match s1 with
    | none => ok none
    | some S1 => do
      let s2 ← bisectorPoint endPoint middle startPoint (0, 0, 0)
      match s2 with
      | none => ok none
      | some S2 => do
        let S := (1 / 2 : ℝ) • (S1 + S2)
        let MS := S - M
        let s ← fdiv MS.length MR.length
        let w ← fdiv s (1 - s)
        ok (some w)

/-- The step `bool result = …; if (!result) return false; controlPoints.emplace_back(XYZW(R, weight)); return true;`,
Geometry/Curve/BezierCurve.cpp:67-70, 75-78 and 86-89. -/
def oneMiddlePoint (startPoint R endPoint : XYZ ℝ) : Res (Option (List (XYZW ℝ))) := do
  let w ← rationalQuadraticWeight startPoint R endPoint
  match w with
  | none => ok none
  | some w => ok (some [XYZW.ofXYZ R w])

/-- `BezierCurve::ComputerMiddleControlPointsOnQuadraticCurve`, Geometry/Curve/BezierCurve.cpp:39-132; the control points that are appended, `none` for `false`. -/
def middleControlPoints (startPoint startTangent endPoint endTangent : XYZ ℝ) : Res (Option (List (XYZW ℝ))) :=
  let chord := (endPoint - startPoint).normalize
  let nST := startTangent.normalize
  let nET := endTangent.normalize
  if (nST.almostEq chord || nST.almostEq (-chord)) && (nST.almostEq nET || nST.almostEq (-nET)) then
    ok (some [XYZW.ofXYZ ((1 / 2 : ℝ) • (startPoint + endPoint)) 1])
  else do
    let (type, alf1, alf2, R) ← computeRays startPoint nST endPoint nET (0, 0, 0)
    let half := (1 / 2 : ℝ) • (startPoint + endPoint)
    let SE := endPoint - startPoint
    if type = .intersecting ∧ (startPoint.almostEq R || endPoint.almostEq R) = true then oneMiddlePoint startPoint half endPoint
    else if type = .intersecting ∧ isGreaterThan alf1 0 = true ∧ isLessThan alf2 0 = true then oneMiddlePoint startPoint R endPoint
    else if (SE.normalize.almostEq startTangent && SE.normalize.almostEq endTangent) = true then oneMiddlePoint startPoint half endPoint
    else do
      let (gamma1, gamma2) ← if type ≠ .intersecting then ok (1 / 2 * SE.length, 1 / 2 * SE.length)
        else do
          let SR := R - startPoint
          let ER := R - endPoint
          let theta0 ← fdiv (SR.dot SE) (SR.length * SE.length)
          let theta1 ← fdiv (ER.dot SE) (ER.length * SE.length)
          let g1 ← fdiv (1 / 2 * SE.length) (1 + 2 / 3 * theta1 + (1 - 2 / 3) * theta0)
          let g2 ← fdiv (1 / 2 * SE.length) (1 + 2 / 3 * theta0 + (1 - 2 / 3) * theta1)
          ok (g1, g2)
      let R1 := startPoint + gamma1 • startTangent
      let R2 := endPoint - gamma2 • endTangent
      let Qk ← vdiv (gamma1 • R2 + gamma2 • R1) (gamma1 + gamma2)
      let w1 ← rationalQuadraticWeight startPoint R1 Qk
      match w1 with
      | none => ok none
      | some w1 => do
        let w2 ← rationalQuadraticWeight Qk R2 endPoint
        match w2 with
        | none => ok none
        | some w2 => ok (some [XYZW.ofXYZ R1 w1, XYZW.ofXYZ Qk 1, XYZW.ofXYZ R2 w2])

end

end LNLib
