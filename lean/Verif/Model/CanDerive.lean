import Verif.Model.Curve

/-!
# Model of the differentiability test of Geometry/Curve/NurbsCurve.cpp

All paths are relative to /repo/src/LNLib.
-/

namespace LNLib
open Res

section
variable {K : Type} [Field K] [LinearOrder K]

/-- `NurbsCurve::CanComputeDerivative`, Geometry/Curve/NurbsCurve.cpp:288-304.  `KnotVector.back()` of an empty vector is undefined. -/
def canComputeDerivative (c : NurbsCurve K) (t : K) : Res Bool := do
  let first ← vget c.knots 0
  if isAlmostEqualTo t first then ok true
  else do
    let last ← vget c.knots ((c.knots.length : ℤ) - 1)
    if isAlmostEqualTo t last then ok true
    else do
      let pt ← NurbsCurve.pointOnCurve c t
      let eps : K := 1 / 100000000
      let l ← NurbsCurve.pointOnCurve c (t - eps)
      let left ← vdiv (l - pt) (-eps)
      let r ← NurbsCurve.pointOnCurve c (t + eps)
      let right ← vdiv (r - pt) eps
      ok (left.almostEq right)

end
end LNLib
