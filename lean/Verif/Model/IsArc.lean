import Verif.Model.Linear
import Verif.Model.Query

/-!
# Model of `NurbsCurve::IsArc`, Geometry/Curve/NurbsCurve.cpp:3743-3794

All paths are relative to /repo/src/LNLib.
-/

namespace LNLib
open Res

noncomputable section

/-- the fields of `LN_ArcInfo`, include/LNObject.h:83-88 -/
structure ArcInfo where
  isCircle : Bool
  radius : ℝ
  center : XYZ ℝ

/-- `NurbsCurve::IsArc`, Geometry/Curve/NurbsCurve.cpp:3743-3794. `none` is the answer `false` (the field `IsCircle`, which is then set all the same, is left out).
A division by zero is the outcome `nonfinite`; with IEEE numbers all distances are then NaN and the code answers `false`. -/
def isArc (c : NurbsCurve ℝ) : Res (Option ArcInfo) :=
  if isLinear c then ok none
  else do
    let first ← vget c.knots 0
    let last ← vget c.knots ((c.knots.length : ℤ) - 1)
    let P0 ← NurbsCurve.pointOnCurve c first
    let isCircle ← isClosedCurve c
    let param := if isCircle then 1 / 2 * first + 1 / 2 * last else last
    let P1 ← NurbsCurve.pointOnCurve c (1 / 2 * first + 1 / 2 * param)
    let P2 ← NurbsCurve.pointOnCurve c param
    let v1 := P1 - P0
    let v2 := P2 - P0
    let v1v1 := v1.dot v1
    let v2v2 := v2.dot v2
    let v1v2 := v1.dot v2
    let base ← fdiv (1 / 2) (v1v1 * v2v2 - v1v2 * v1v2)
    let k1 := base * v2v2 * (v1v1 - v1v2)
    let k2 := base * v1v1 * (v2v2 - v1v2)
    let center := P0 + k1 • v1 + k2 • v2
    let radius := center.distance P0
    let tess ← equallyTessellate c
    if tess.1.all fun point => isAlmostEqualTo (point.distance center) radius then ok (some { isCircle := isCircle, radius := radius, center := center }) else ok none

end
end LNLib
