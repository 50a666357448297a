import Verif.Model.Coons
import Verif.Model.Loft
import Verif.Model.SurfaceInterp

/-!
# Model of `NurbsSurface::CreateGordonSurface`, Geometry/Surface/NurbsSurface.cpp:2876-3123

All paths are relative to /repo/src/LNLib. `solve` is the linear solver (Eigen), which is not modelled.
-/

namespace LNLib
open Res

section
variable {K : Type} [Field K] [LinearOrder K]

/-- every curve on the interval from 0 to 1 and raised to the degree, Geometry/Surface/NurbsSurface.cpp:2888-2905 and 2935-2951 (the same text twice) -/
def gordonRaise (degreeMax : ℤ) : List (NurbsCurve K) → Res (List (NurbsCurve K))
  | [] => ok []
  | c :: rest => do
    let current ← reparametrizeLinear c 0 1
    let tc ← (if degreeMax > current.degree then elevateDegree current (degreeMax - current.degree) else ok current : Res (NurbsCurve K))
    let rest ← gordonRaise degreeMax rest
    ok (tc :: rest)

/-- every curve refined by its list of missing knots, Geometry/Surface/NurbsSurface.cpp:2913-2922 and 2959-2968. Reading a list that is missing would be out of bounds. -/
def gordonRefine : List (NurbsCurve K) → List (List K) → Res (List (NurbsCurve K))
  | [], _ => ok []
  | _ :: _, [] => ub
  | c :: rest, ins :: more => do
    let tc ← ruledRefine c ins
    let rest ← gordonRefine rest more
    ok (tc :: rest)

/-- the curves of one direction brought to one interval, degree and knot vector, Geometry/Surface/NurbsSurface.cpp:2878-2922 (u) and 2924-2968 (v). `loftDegree` is the largest degree. -/
def gordonCurves (curves : List (NurbsCurve K)) : Res (List (NurbsCurve K)) := do
  let internals ← gordonRaise (loftDegree curves) curves
  gordonRefine internals (getInsertedKnotElementsAll (internals.map fun c => c.knots))

/-- the control points `a + b - c`, Geometry/Surface/NurbsSurface.cpp:3109-3122. The sizes are those of `c`, the interpolated surface. -/
def gordonNet (a b c : List (List (XYZW K))) : Res (List (List (XYZW K))) := do
  let r0 ← vget c 0
  forI 0 (c.length : ℤ) (List.replicate c.length (List.replicate r0.length (0 : XYZW K))) fun i net =>
    forI 0 (r0.length : ℤ) net fun j net => do
      let x ← mget a i j
      let y ← mget b i j
      let z ← mget c i j
      mset net i j (x + y - z)

/-- the three surfaces brought to common degrees and knots and combined, Geometry/Surface/NurbsSurface.cpp:2994-3122: `a` is `loftSurfaceU`, `b` is `loftSurfaceV`, `c` is
`interpolatedSurface`. The steps are those of the Coons patch, `Model/Coons.lean`. -/
def gordonSum (a b c : NurbsSurface K) : Res (NurbsSurface K) := do
  let (a, b, c) ← commonDegree a b c true
  let (a, b, c) ← commonDegree a b c false
  let (a, b, c) ← commonKnots a b c true
  let (a, b, c) ← commonKnots a b c false
  let net ← gordonNet a.cps b.cps c.cps
  ok { degreeU := c.degreeU, degreeV := c.degreeV, knotsU := c.knotsU, knotsV := c.knotsV, cps := net }

end

noncomputable section

/-- `NurbsSurface::CreateGordonSurface`, Geometry/Surface/NurbsSurface.cpp:2876-3123. The second transposition of the control points (2990), whose result is not used, is left out: it reads
what `Swap` reads. -/
def createGordonSurface (solve : List (List ℝ) → List (List ℝ) → Res (List (List ℝ))) (uCurves vCurves : List (NurbsCurve ℝ)) (intersectionPoints : List (List (XYZ ℝ))) :
    Res (NurbsSurface ℝ) := do
  let uInternals ← gordonCurves uCurves
  let vInternals ← gordonCurves vCurves
  let row0 ← vget intersectionPoints 0
  let loftSurfaceV ← createLoft solve uInternals 0 []
  let ts ← createLoft solve vInternals 0 []
  let loftSurfaceU ← swapSurface ts
  let degreeU := min ((row0.length : ℤ) - 1) (loftDegree uCurves)
  let degreeV := min ((intersectionPoints.length : ℤ) - 1) (loftDegree vCurves)
  let ts ← surfaceInterpolation solve intersectionPoints degreeU degreeV
  let interpolated ← swapSurface ts
  gordonSum loftSurfaceU loftSurfaceV interpolated

end
end LNLib
