import Verif.Model.SurfaceInsert
import Verif.Model.BezierPieces
import Verif.Model.KnotVector

/-!
# Model of the surface constructors of Geometry/Surface/NurbsSurface.cpp

All paths are relative to /repo/src/LNLib.  The C++ functions are written for `XYZW` points; the
model is generic in the vector space of points, which covers the weighted points.
-/

namespace LNLib
open Res

section
variable {K : Type} [Field K] [LinearOrder K]
variable {T : Type} [AddCommGroup T] [Module K T]

/-- The curve brought to the degree of the surface, Geometry/Surface/NurbsSurface.cpp:1783-1792 and 1794-1803.  Only the knot vector and the control
points of the elevated curve are kept; its degree is the degree of the surface. -/
def ruledElevate (c : BsplineCurve K T) (degree : ℤ) : Res (BsplineCurve K T) :=
  if c.degree < degree then do
    let tc ← elevateDegree c (degree - c.degree)
    ok { degree := degree, knots := tc.knots, cps := tc.cps }
  else ok { degree := degree, knots := c.knots, cps := c.cps }

/-- The refinement of one of the two curves, Geometry/Surface/NurbsSurface.cpp:1812-1822 and 1823-1833. -/
def ruledRefine (c : BsplineCurve K T) (ins : List K) : Res (BsplineCurve K T) :=
  if ins.length > 0 then refineKnotVector c ins else ok c

/-- `NurbsSurface::CreateRuledSurface`, Geometry/Surface/NurbsSurface.cpp:1765-1846. -/
def createRuledSurface (c0 c1 : BsplineCurve K T) : Res (BsplineSurface K T) := do
  let a0 ← vget c0.knots 0
  let a1 ← vget c1.knots 0
  let check ← (if isAlmostEqualTo a0 a1 then do
      let b0 ← vget c0.knots ((c0.knots.length : ℤ) - 1)
      let b1 ← vget c1.knots ((c1.knots.length : ℤ) - 1)
      ok (isAlmostEqualTo b0 b1)
    else ok false : Res Bool)
  validate check
  let degreeU := max c0.degree c1.degree
  let d0 ← ruledElevate c0 degreeU
  let d1 ← ruledElevate c1 degreeU
  let (e0, e1) ← (if d0.knots = d1.knots then ok (d0, d1)
    else do
      let ins := getInsertedKnotElement2 d0.knots d1.knots [] []
      let e0 ← ruledRefine d0 ins.1
      let e1 ← ruledRefine d1 ins.2
      ok (e0, e1) : Res (BsplineCurve K T × BsplineCurve K T))
  let cps ← forI 0 e0.cps.length (List.replicate e0.cps.length (List.replicate 2 (0 : T))) fun i cps => do
    let x ← vget e0.cps i
    let cps ← mset cps i 0 x
    let y ← vget e1.cps i
    mset cps i 1 y
  ok { degreeU := degreeU, degreeV := 1, knotsU := e0.knots, knotsV := [0, 0, 1, 1], cps := cps }

end

end LNLib
