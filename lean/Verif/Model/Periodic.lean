import Verif.Model.Query
import Verif.Model.Clamp
import Verif.Model.CurveParam
import Verif.Model.BasisDers

/-!
# Model of the periodicity query in Geometry/Curve/NurbsCurve.cpp

All paths are relative to /repo/src/LNLib.
-/

namespace LNLib
open Res

noncomputable section

/-- The loop over the first `degree` control points, Geometry/Curve/NurbsCurve.cpp:3616-3624;
`XYZW::IsAlmostEqualTo` (Mathematics/Math/XYZW.cpp:117-122) compares the projected points. -/
def wrappedTest (cps : List (XYZW ℝ)) (degree size : ℤ) : Res Bool :=
  forI 0 degree true fun i flag =>
    if flag then do
      let a ← vget cps i
      let b ← vget cps (size - degree + i)
      ok (a.toXYZ.almostEq b.toXYZ)
    else ok false

/-- The loop over the derivatives, Geometry/Curve/NurbsCurve.cpp:3650-3660. -/
def sameDerivatives (fDers eDers : List (XYZ ℝ)) (cFirst : ℤ) : Res Bool :=
  forI 0 (cFirst + 1) true fun i flag =>
    if flag then do
      let f ← vget fDers i
      let e ← vget eDers i
      ok (f.normalize.almostEq e.normalize && isAlmostEqualTo f.length e.length)
    else ok false

/-- `NurbsCurve::IsPeriodic`, Geometry/Curve/NurbsCurve.cpp:3594-3661. -/
def isPeriodic (c : NurbsCurve ℝ) : Res Bool := do
  let size : ℤ := c.cps.length
  let clamp ← isClamp c
  if clamp then ok false
  else do
    let uniform ← isUniform c.knots
    if !uniform then ok false
    else do
      let wrapped ← if size ≥ c.degree + c.degree then wrappedTest c.cps c.degree size else ok false
      if wrapped then ok true
      else do
        let closed ← isClosedCurve c
        if !closed then ok false
        else do
          let first ← vget c.knots 0
          let last ← vget c.knots ((c.knots.length : ℤ) - 1)
          let cFirst ← getContinuity c.degree c.knots first
          let cEnd ← getContinuity c.degree c.knots last
          if cFirst ≠ cEnd then ok false
          else do
            let fDers ← NurbsCurve.rationalDerivatives c cFirst first
            let eDers ← NurbsCurve.rationalDerivatives c cEnd last
            sameDerivatives fDers eDers cFirst

end

end LNLib
