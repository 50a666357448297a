import Verif.Model.Curve
import Verif.Model.GeomReal

/-!
# Model of the shape modification of Geometry/Curve/NurbsCurve.cpp

All paths are relative to /repo/src/LNLib.
-/

namespace LNLib
open Res

noncomputable section

/-- `VALIDATE_ARGUMENT_RANGE(moveIndex, 0, controlPoints.size() - 1)`, include/LNLibExceptions.h:21-25 with integers (for a non-empty list of
control points). -/
def validateIndex (i : ℤ) (size : ℕ) : Res Unit := if i < 0 ∨ i > (size : ℤ) - 1 then outOfRange else ok ()

/-- The value `basis[0]` used by `ControlPointReposition` and `WeightModification`, Geometry/Curve/NurbsCurve.cpp:3203-3206 and 3236-3239. -/
def firstBasis (c : NurbsCurve ℝ) (parameter : ℝ) : Res ℝ := do
  let spanIndex ← getKnotSpanIndex c.degree c.knots parameter
  let basis ← basisFunctions spanIndex c.degree c.knots parameter (uninit ℝ 8)
  aget basis 0

/-- `NurbsCurve::ControlPointReposition`, Geometry/Curve/NurbsCurve.cpp:3192-3221; `none` is the answer `false`. -/
def controlPointReposition (c : NurbsCurve ℝ) (parameter : ℝ) (moveIndex : ℤ) (moveDirection : XYZ ℝ) (moveDistance : ℝ) : Res (Option (NurbsCurve ℝ)) := do
  let first ← vget c.knots 0
  let last ← vget c.knots ((c.knots.length : ℤ) - 1)
  validateRange parameter first last
  validateIndex moveIndex c.cps.length
  validate (!moveDirection.isZero)
  validate (!(isAlmostEqualTo moveDistance 0))
  let Rkp ← firstBasis c parameter
  if isLessThan Rkp 0 then ok none
  else do
    let P ← vget c.cps moveIndex
    let movePoint := P.toXYZ
    let alpha ← fdiv moveDistance (moveDirection.length * Rkp)
    let newPoint := movePoint + alpha • moveDirection
    let cps ← vset c.cps moveIndex (XYZW.ofXYZ newPoint P.w)
    ok (some { degree := c.degree, knots := c.knots, cps := cps })

/-- `NurbsCurve::WeightModification`, Geometry/Curve/NurbsCurve.cpp:3223-3250. -/
def weightModification (c : NurbsCurve ℝ) (parameter : ℝ) (moveIndex : ℤ) (moveDistance : ℝ) : Res (NurbsCurve ℝ) := do
  let first ← vget c.knots 0
  let last ← vget c.knots ((c.knots.length : ℤ) - 1)
  validateRange parameter first last
  validateIndex moveIndex c.cps.length
  validate (!(isAlmostEqualTo moveDistance 0))
  let point ← NurbsCurve.pointOnCurve c parameter
  let P ← vget c.cps moveIndex
  let movePoint := P.toXYZ
  let distance := point.distance movePoint
  let Rkp ← firstBasis c parameter
  let q ← fdiv moveDistance (Rkp * (distance - moveDistance))
  let coefficient := 1 + q
  let cps ← vset c.cps moveIndex (XYZW.ofXYZ movePoint (P.w * coefficient))
  ok { degree := c.degree, knots := c.knots, cps := cps }

end
end LNLib
