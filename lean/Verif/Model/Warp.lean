import Verif.Model.Reshape
import Verif.Model.Intersection
import Verif.Model.BasisDers

/-!
# Model of warping, flattening and bending in Geometry/Curve/NurbsCurve.cpp

All paths are relative to /repo/src/LNLib.
-/

namespace LNLib
open Res

noncomputable section

/-- `NurbsCurve::Warping`, Geometry/Curve/NurbsCurve.cpp:3328-3358. -/
def warping (c : NurbsCurve ℝ) (warpShape : List ℝ) (warpDistance : ℝ) (planeNormal : XYZ ℝ) (startParameter endParameter : ℝ) : Res (NurbsCurve ℝ) := do
  validate (decide (c.cps.length = warpShape.length))
  validate (!(isAlmostEqualTo warpDistance 0))
  validate (!planeNormal.isZero)
  let first ← vget c.knots 0
  let last ← vget c.knots ((c.knots.length : ℤ) - 1)
  validateRange startParameter first last
  validateRange endParameter startParameter last
  validate (isGreaterThan endParameter startParameter)
  let halfParameter := 1 / 2 * (startParameter + endParameter)
  let ders ← NurbsCurve.rationalDerivatives c 1 halfParameter
  let tangent ← vget ders 1
  let normal := tangent.cross planeNormal
  let W := if isGreaterThan warpDistance 0 then normal else -normal
  let resultControlPoints ← forI 0 (c.cps.length : ℤ) ([] : List (XYZW ℝ)) fun i acc => do
    let P ← vget c.cps i
    let f ← vget warpShape i
    let newPoint := P.toXYZ + (f * |warpDistance|) • W.normalize
    ok (acc ++ [XYZW.ofXYZ newPoint P.w])
  ok { degree := c.degree, knots := c.knots, cps := resultControlPoints }

/-- `NurbsCurve::Flattening`, Geometry/Curve/NurbsCurve.cpp:3360-3403. The two loops are one: the map of lines 3374-3379 is walked by ascending index
(lines 3385-3396) and each entry changes only its own control point. The unused `lineVector` and `lineLength` are left out. -/
def flattening (c : NurbsCurve ℝ) (lineStartPoint lineEndPoint : XYZ ℝ) (startParameter endParameter : ℝ) : Res (Bool × NurbsCurve ℝ) := do
  validate (!(lineStartPoint.almostEq lineEndPoint))
  let first ← vget c.knots 0
  let last ← vget c.knots ((c.knots.length : ℤ) - 1)
  validateRange startParameter first last
  validateRange endParameter startParameter last
  validate (isGreaterThan endParameter startParameter)
  let spanMinIndex ← getKnotSpanIndex c.degree c.knots startParameter
  let spanMaxIndex ← getKnotSpanIndex c.degree c.knots endParameter
  let (projectCount, cps) ← forI spanMinIndex (spanMaxIndex - c.degree) ((0 : ℤ), c.cps) fun i st => do
    let P ← vget c.cps i
    let (isProjection, project) ← pointToLine lineStartPoint lineEndPoint P.toXYZ 0
    if isProjection then do
      let cps ← vset st.2 i (XYZW.ofXYZ project P.w)
      ok (st.1 + 1, cps)
    else ok st
  ok (decide (projectCount ≥ c.degree + 1), { degree := c.degree, knots := c.knots, cps := cps })

/-- `NurbsCurve::Bending`, Geometry/Curve/NurbsCurve.cpp:3405-3440. The two loops are one, as in `flattening`. -/
def bending (c : NurbsCurve ℝ) (startParameter endParameter : ℝ) (bendCenter : XYZ ℝ) (radius crossRatio : ℝ) : Res (NurbsCurve ℝ) := do
  let first ← vget c.knots 0
  let last ← vget c.knots ((c.knots.length : ℤ) - 1)
  validateRange startParameter first last
  validateRange endParameter first last
  validate (isGreaterThan endParameter startParameter)
  let spanMinIndex ← getKnotSpanIndex c.degree c.knots startParameter
  let spanMaxIndex ← getKnotSpanIndex c.degree c.knots endParameter
  let cps ← forI spanMinIndex (spanMaxIndex - c.degree) c.cps fun i st => do
    let P ← vget c.cps i
    let current := P.toXYZ
    let pointOnBendCurve := bendCenter + radius • (current - bendCenter).normalize
    let si ← fdiv (bendCenter.distance pointOnBendCurve) (bendCenter.distance current)
    let ti ← fdiv (crossRatio * si) (1 + (crossRatio - 1) * si)
    let project := bendCenter + ti • (current - bendCenter)
    vset st i (XYZW.ofXYZ project P.w)
  ok { degree := c.degree, knots := c.knots, cps := cps }

end
end LNLib
