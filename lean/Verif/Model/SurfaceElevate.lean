import Verif.Model.BezierPieces
import Verif.Model.CurveEdit
import Verif.Model.SurfaceInsert

/-!
# Degree elevation and reduction of surfaces

Models `NurbsSurface::ElevateDegree` and `NurbsSurface::ReduceDegree` from Geometry/Surface/NurbsSurface.cpp:1024-1154.
The `result` output object of the C++ code is freshly constructed here: every field is assigned.
-/

namespace LNLib
open Res

section
variable {K T : Type} [Field K] [LinearOrder K] [AddCommGroup T] [Module K T]

/-- The loop of `NurbsSurface::ElevateDegree` over the fibres, Geometry/Surface/NurbsSurface.cpp:1042-1054 and 1066-1078.
State: (`tempControlPoints`, `tempKnotVector`). -/
def elevateFibres (degree : ℤ) (U : List K) (times : ℤ) (fibres : List (List T)) : Res (List (List T) × List K) :=
  forI 0 fibres.length (([] : List (List T)), ([] : List K)) fun i (cps, _) => do
    let f ← vget fibres i
    let tc ← elevateDegree { degree := degree, knots := U, cps := f } times
    ok (cps ++ [tc.cps], tc.knots)

/-- `NurbsSurface::ElevateDegree`, Geometry/Surface/NurbsSurface.cpp:1024-1085. -/
def elevateSurface (c : BsplineSurface K T) (times : ℤ) (isUDirection : Bool) : Res (BsplineSurface K T) := do
  validate (times > 0)
  if isUDirection then do
    let tr ← transposeM c.cps []
    let (cps, kv) ← elevateFibres c.degreeU c.knotsU times tr
    let cps ← transposeM cps []
    ok { c with degreeU := c.degreeU + times, knotsU := kv, cps := cps }
  else do
    let (cps, kv) ← elevateFibres c.degreeV c.knotsV times c.cps
    ok { c with degreeV := c.degreeV + times, knotsV := kv, cps := cps }

end

/-- One round of the loop of `NurbsSurface::ReduceDegree`, Geometry/Surface/NurbsSurface.cpp:1103-1120 and 1134-1151.
State: `none` after `return false`, else (`tempControlPoints`, `tempKnotVector`). -/
noncomputable def reduceFibre (degree : ℤ) (U : List ℝ) (fibres : List (List (XYZW ℝ))) (i : ℤ) (st : Option (List (List (XYZW ℝ)) × List ℝ)) :
    Res (Option (List (List (XYZW ℝ)) × List ℝ)) :=
  match st with
  | none => ok none
  | some (cps, _) => do
    let f ← vget fibres i
    let r ← reduceDegree { degree := degree, knots := U, cps := f }
    match r with
    | none => ok none
    | some tc => ok (some (cps ++ [tc.cps], tc.knots))

/-- `NurbsSurface::ReduceDegree`, Geometry/Surface/NurbsSurface.cpp:1086-1154; `none` is the answer `false`. -/
noncomputable def reduceSurface (c : NurbsSurface ℝ) (isUDirection : Bool) : Res (Option (NurbsSurface ℝ)) := do
  if isUDirection then do
    let tr ← transposeM c.cps []
    let st ← forI 0 tr.length (some ([], [])) (reduceFibre c.degreeU c.knotsU tr)
    match st with
    | none => ok none
    | some (cps, kv) => do
      let cps ← transposeM cps []
      ok (some { c with degreeU := c.degreeU - 1, knotsU := kv, cps := cps })
  else do
    let st ← forI 0 c.cps.length (some ([], [])) (reduceFibre c.degreeV c.knotsV c.cps)
    match st with
    | none => ok none
    | some (cps, kv) => ok (some { c with degreeV := c.degreeV - 1, knotsV := kv, cps := cps })

end LNLib
