import Verif.Model.ExcessiveKnots
import Verif.Model.SurfaceInsert

/-!
# Model of the removal of a knot of a surface in Geometry/Surface/NurbsSurface.cpp

All paths are relative to /repo/src/LNLib.  As in `removeExcessiveKnots` the comparison of two points within the tolerance that
belongs to the control points of one curve is a parameter (`test cps a b`).
-/

namespace LNLib
open Res

section
variable {K : Type} [Field K] [LinearOrder K]
variable {T : Type} [AddCommGroup T] [Module K T]

/-- The loop over the fibres, Geometry/Surface/NurbsSurface.cpp:985-998 and 1008-1019. The answer of `NurbsCurve::RemoveKnot` is
ignored; when it is `false`, `newtc` stays default constructed, with neither knots nor control points.
State: (`tempControlPoints`, `tempKnotVector`). -/
def removeFibres (test : List T → T → T → Bool) (degree : ℤ) (U : List K) (u : K) (times : ℤ) (fibres : List (List T)) :
    Res (List (List T) × List K) :=
  forI 0 fibres.length (([] : List (List T)), ([] : List K)) fun i st => do
    let f ← vget fibres i
    let o ← removeKnot (test f) { degree := degree, knots := U, cps := f } u times
    match o with
    | some tc => ok (st.1 ++ [tc.cps], tc.knots)
    | none => ok (st.1 ++ [[]], [])

/-- `NurbsSurface::RemoveKnot`, Geometry/Surface/NurbsSurface.cpp:957-1022. -/
def removeKnotSurface (test : List T → T → T → Bool) (c : BsplineSurface K T) (u : K) (times : ℤ) (isUDirection : Bool) :
    Res (BsplineSurface K T) := do
  let U := if isUDirection then c.knotsU else c.knotsV
  let lo ← vget U 0
  let hi ← vget U ((U.length : ℤ) - 1)
  validateRange u lo hi
  validate (decide (times > 0))
  if isUDirection then do
    let tr ← transposeM c.cps []
    let (cps, kv) ← removeFibres test c.degreeU c.knotsU u times tr
    let cps ← transposeM cps []
    ok { c with knotsU := kv, cps := cps }
  else do
    let (cps, kv) ← removeFibres test c.degreeV c.knotsV u times c.cps
    ok { c with knotsV := kv, cps := cps }

end

/-- `NurbsSurface::RemoveKnot` with the library's tolerance, Geometry/Surface/NurbsSurface.cpp:957-1022. -/
noncomputable def NurbsSurface.removeKnot (c : NurbsSurface ℝ) (u : ℝ) (times : ℤ) (isUDirection : Bool) : Res (NurbsSurface ℝ) :=
  removeKnotSurface libraryTest c u times isUDirection

end LNLib
