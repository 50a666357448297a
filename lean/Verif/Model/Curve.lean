import Verif.Model.Geom
import Verif.Model.Polynomials

/-!
# Model of include/BsplineCurve.h, include/BezierCurve.h and the evaluation part of
# Geometry/Curve/NurbsCurve.cpp

All paths are relative to /repo/src/LNLib.  Points of a template type `T` are elements of a
`K`-vector space.
-/

namespace LNLib
open Res

section
variable {K : Type} [Field K] [LinearOrder K]
variable {T : Type} [AddCommGroup T] [Module K T]

/-- `BsplineCurve::Check` (include/BsplineCurve.h:28-40) and `NurbsCurve::Check`
(Geometry/Curve/NurbsCurve.cpp:240-251), which perform the same tests. -/
def BsplineCurve.check (c : BsplineCurve K T) : Res Unit := do
  validate (c.degree > 0)
  validate (c.knots.length > 0)
  validate (isValidKnotVector c.knots)
  validate (c.cps.length > 0)
  validate (isValidBspline c.degree c.knots.length c.cps.length)

/-- `BsplineCurve::GetPointOnCurve`, include/BsplineCurve.h:47-66. -/
def BsplineCurve.pointOnCurve (c : BsplineCurve K T) (t : K) : Res T := do
  let first ← vget c.knots 0
  let last ← vget c.knots ((c.knots.length : ℤ) - 1)
  validateRange t first last
  let spanIndex ← getKnotSpanIndex c.degree c.knots t
  let N ← basisFunctions spanIndex c.degree c.knots t (uninit K 8)
  forI 0 (c.degree + 1) (0 : T) fun i point => do
    let b ← aget N i
    let p ← vget c.cps (spanIndex - c.degree + i)
    ok (point + b • p)

/-- `NurbsCurve::GetPointOnCurve`, Geometry/Curve/NurbsCurve.cpp:254-258. -/
def NurbsCurve.pointOnCurve (c : NurbsCurve K) (t : K) : Res (XYZ K) := do
  let wp ← BsplineCurve.pointOnCurve c t
  ok wp.toXYZ

/-- `BezierCurve::Check`, include/BezierCurve.h:28-37. -/
def BezierCurve.check (c : BezierCurve T) : Res Unit := do
  validate (c.degree > 0)
  validate (c.cps.length > 0)
  validate (isValidBezier c.degree c.cps.length)

/-- `BezierCurve::GetPointOnCurveByBernstein`, include/BezierCurve.h:46-61. -/
def BezierCurve.pointByBernstein (c : BezierCurve T) (t : K) : Res T := do
  validateRange t 0 1
  let b ← allBernstein c.degree t
  forI 0 (c.degree + 1) (0 : T) fun k temp => do
    let x ← vget b k
    let p ← vget c.cps k
    ok (temp + x • p)

/-- `BezierCurve::GetPointOnCurveByDeCasteljau`, include/BezierCurve.h:70-85. -/
def BezierCurve.pointByDeCasteljau (c : BezierCurve T) (t : K) : Res T := do
  validateRange t 0 1
  let temp ← forI 1 (c.degree + 1) c.cps fun k temp =>
    forI 0 (c.degree - k + 1) temp fun i temp => do
      let a ← vget temp i
      let b ← vget temp (i + 1)
      vset temp i ((1 - t) • a + t • b)
  vget temp 0

/-- `BezierCurve::GetPointOnQuadraticArc`, Geometry/Curve/BezierCurve.cpp:25-37.  All three points
are divided by the weight `w0` of the first one, as in the source. -/
def quadraticArc (s m e : XYZW K) (t : K) : Res (XYZ K) := do
  validateRange t 0 1
  let p0 ← vdiv s.raw s.w
  let p1 ← vdiv m.raw s.w
  let p2 ← vdiv e.raw s.w
  vdiv (((1 - t) * (1 - t) * s.w) • p0 + (2 * t * (1 - t) * m.w) • p1 + (t * t * e.w) • p2)
    ((1 - t) * (1 - t) * s.w + 2 * t * (1 - t) * m.w + t * t * e.w)

end

end LNLib
