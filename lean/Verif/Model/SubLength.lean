import Verif.Model.Linear
import Verif.Model.CurveEdit

/-!
# Model of `NurbsCurve::ApproximateLength` on a part of the parameters, Geometry/Curve/NurbsCurve.cpp:3877-3882

All paths are relative to /repo/src/LNLib.
-/

namespace LNLib
open Res

noncomputable section

/-- `NurbsCurve::ApproximateLength(curve, startParameter, endParameter, type)`, Geometry/Curve/NurbsCurve.cpp:3877-3882. -/
def approximateSubLength (quadrature : NurbsCurve ℝ → Res ℝ) (c : NurbsCurve ℝ) (startParameter endParameter : ℝ) : Res ℝ := do
  let result ← extractCurve c startParameter endParameter
  approximateLength quadrature result

end
end LNLib
