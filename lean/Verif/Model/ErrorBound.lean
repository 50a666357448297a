import Verif.Model.KnotsByBound
import Verif.Model.BezierPieces
import Verif.Model.Interp

/-!
# Model of `NurbsCurve::GlobalApproximationByErrorBound`, Geometry/Curve/NurbsCurve.cpp:2892-2930

All paths are relative to /repo/src/LNLib. The function is generic in the field; `chord` is `Interpolation::GetChordParameterization`, `dist` and `tol` are as in `Model/KnotsByBound.lean`.
-/

namespace LNLib
open Res

section
variable {K : Type} [Field K] [LinearOrder K]

/-- The polyline `tc` of `NurbsCurve::GlobalApproximationByErrorBound`, Geometry/Curve/NurbsCurve.cpp:2902-2923: degree 1, knots 0, the parameters, 1, all weights 1. The parameters are
taken to be as many as the points, as they are (C46). -/
def polylineCurve (uk : List K) (pts : List (XYZ K)) : NurbsCurve K :=
  { degree := 1, knots := 0 :: (uk ++ [1]), cps := pts.map (XYZW.ofXYZ · 1) }

/-- `NurbsCurve::GlobalApproximationByErrorBound`, Geometry/Curve/NurbsCurve.cpp:2892-2930. `fuel` bounds the rounds of the knot removal. -/
def approximateByErrorBound (chord : List (XYZ K) → Res (List K)) (dist : XYZW K → XYZW K → K) (tol : List (XYZW K) → K) (fuel : ℕ) (degree : ℤ) (pts : List (XYZ K)) (maxError : K) :
    Res (NurbsCurve K) := do
  validate (decide (degree > 0))
  validate (decide ((pts.length : ℤ) > degree))
  validate (isGreaterThan maxError 0)
  let uk ← chord pts
  let newtc ← elevateDegree (polylineCurve uk pts) (degree - 1)
  let (r, _) ← removeKnotsByBound dist tol fuel newtc uk (List.replicate pts.length 0) maxError
  ok r

end

noncomputable section

/-- `NurbsCurve::GlobalApproximationByErrorBound`, Geometry/Curve/NurbsCurve.cpp:2892-2930, with the functions of the library. -/
def NurbsCurve.globalApproximationByErrorBound (fuel : ℕ) (degree : ℤ) (pts : List (XYZ ℝ)) (maxError : ℝ) : Res (NurbsCurve ℝ) :=
  approximateByErrorBound getChordParameterization XYZW.distance (fun P => curveModifyTolerance P) fuel degree pts maxError

end
end LNLib
