import Verif.Model.SurfaceCreate
import Verif.Model.SurfaceElevate
import Verif.Model.CurveParam

/-!
# Model of `NurbsSurface::CreateCoonsSurface`, Geometry/Surface/NurbsSurface.cpp:3125-3394

All paths are relative to /repo/src/LNLib.
-/

namespace LNLib
open Res

section
variable {K : Type} [Field K] [LinearOrder K]

/-- two opposite curves brought to one degree and one knot vector, Geometry/Surface/NurbsSurface.cpp:3166-3203 and 3205-3242 (the same text twice) -/
def coonsPair (n0 n2 : NurbsCurve K) : Res (NurbsCurve K × NurbsCurve K) := do
  let m2 ← (if n0.degree > n2.degree then elevateDegree n2 (n0.degree - n2.degree) else ok n2 : Res (NurbsCurve K))
  let m0 ← (if n2.degree > n0.degree then elevateDegree n0 (n2.degree - n0.degree) else ok n0 : Res (NurbsCurve K))
  if m0.knots = m2.knots then ok (m0, m2)
  else do
    let ins := getInsertedKnotElement2 m0.knots m2.knots [] []
    let r0 ← ruledRefine m0 ins.1
    let r2 ← ruledRefine m2 ins.2
    ok (r0, r2)

/-- `if (degree > S.degree) ElevateDegree(S, …)`, Geometry/Surface/NurbsSurface.cpp:3274-3301 (U) and 3308-3335 (V) -/
def raiseTo (S : NurbsSurface K) (degree : ℤ) (isU : Bool) : Res (NurbsSurface K) :=
  if degree > (if isU then S.degreeU else S.degreeV) then elevateSurface S (degree - (if isU then S.degreeU else S.degreeV)) isU else ok S

/-- `if (insertElements[i].size() > 0) RefineKnotVector(S, …)`, Geometry/Surface/NurbsSurface.cpp:3341-3358 (U) and 3367-3384 (V) -/
def refineTo (S : NurbsSurface K) (ins : List K) (isU : Bool) : Res (NurbsSurface K) :=
  if ins.length > 0 then refineKnotSurface S ins isU else ok S

/-- three surfaces brought to one degree in one direction, Geometry/Surface/NurbsSurface.cpp:3269-3301 (U) and 3303-3335 (V) -/
def commonDegree (a b c : NurbsSurface K) (isU : Bool) : Res (NurbsSurface K × NurbsSurface K × NurbsSurface K) := do
  let degree := if isU then max a.degreeU (max b.degreeU c.degreeU) else max a.degreeV (max b.degreeV c.degreeV)
  let a ← raiseTo a degree isU
  let b ← raiseTo b degree isU
  let c ← raiseTo c degree isU
  ok (a, b, c)

/-- three surfaces brought to one knot vector in one direction, Geometry/Surface/NurbsSurface.cpp:3338-3360 (U) and 3362-3384 (V) -/
def commonKnots (a b c : NurbsSurface K) (isU : Bool) : Res (NurbsSurface K × NurbsSurface K × NurbsSurface K) := do
  let ins := getInsertedKnotElementsAll (if isU then [a.knotsU, b.knotsU, c.knotsU] else [a.knotsV, b.knotsV, c.knotsV])
  let i0 ← vget ins 0
  let a ← refineTo a i0 isU
  let i1 ← vget ins 1
  let b ← refineTo b i1 isU
  let i2 ← vget ins 2
  let c ← refineTo c i2 isU
  ok (a, b, c)

/-- the control points `a + b - c`, Geometry/Surface/NurbsSurface.cpp:3386-3400. The sizes are those of `a`. -/
def sumNet (a b c : List (List (XYZW K))) : Res (List (List (XYZW K))) := do
  let r0 ← vget a 0
  forI 0 (a.length : ℤ) (List.replicate a.length (List.replicate r0.length (0 : XYZW K))) fun i net =>
    forI 0 (r0.length : ℤ) net fun j net => do
      let x ← mget a i j
      let y ← mget b i j
      let z ← mget c i j
      mset net i j (x + y - z)

/-- everything after the preparation of the four curves, Geometry/Surface/NurbsSurface.cpp:3244-3401 -/
def coonsFrom (n0 n1 n2 n3 : NurbsCurve K) : Res (NurbsSurface K) := do
  let ruled0 ← createRuledSurface n0 n2
  let ts ← createRuledSurface n1 n3
  let ruled1 ← swapSurface ts
  let a0 ← vget n0.knots 0
  let point00 ← NurbsCurve.pointOnCurve n0 a0
  let a2 ← vget n2.knots 0
  let point01 ← NurbsCurve.pointOnCurve n2 a2
  let b0 ← vget n0.knots ((n0.knots.length : ℤ) - 1)
  let point10 ← NurbsCurve.pointOnCurve n0 b0
  let b2 ← vget n2.knots ((n2.knots.length : ℤ) - 1)
  let point11 ← NurbsCurve.pointOnCurve n2 b2
  let bilinear ← createBilinearSurface point00 point01 point10 point11
  let (a, b, c) ← commonDegree ruled0 ruled1 bilinear true
  let (a, b, c) ← commonDegree a b c false
  let (a, b, c) ← commonKnots a b c true
  let (a, b, c) ← commonKnots a b c false
  let net ← sumNet a.cps b.cps c.cps
  ok { degreeU := a.degreeU, degreeV := a.degreeV, knotsU := a.knotsU, knotsV := a.knotsV, cps := net }

/-- the test of the corners, Geometry/Surface/NurbsSurface.cpp:3152-3157. `isP00 & isP01 & isP10 & isP11` evaluates all four. -/
def coonsCorners (n0 n1 n2 n3 : NurbsCurve K) : Res Bool := do
  let l0 ← NurbsCurve.pointOnCurve n0 0
  let t0 ← NurbsCurve.pointOnCurve n3 0
  let r0 ← NurbsCurve.pointOnCurve n2 0
  let t1 ← NurbsCurve.pointOnCurve n3 1
  let l1 ← NurbsCurve.pointOnCurve n0 1
  let b0 ← NurbsCurve.pointOnCurve n1 0
  let r1 ← NurbsCurve.pointOnCurve n2 1
  let b1 ← NurbsCurve.pointOnCurve n1 1
  ok (l0.almostEq t0 && r0.almostEq t1 && l1.almostEq b0 && r1.almostEq b1)

/-- `NurbsSurface::CreateCoonsSurface`, Geometry/Surface/NurbsSurface.cpp:3125-3401. -/
def createCoonsSurface (left bottom right top : NurbsCurve K) : Res (NurbsSurface K) := do
  let right ← reverseCurve right
  let top ← reverseCurve top
  let n0 ← reparametrizeLinear left 0 1
  let n1 ← reparametrizeLinear bottom 0 1
  let n2 ← reparametrizeLinear right 0 1
  let n3 ← reparametrizeLinear top 0 1
  let connected ← coonsCorners n0 n1 n2 n3
  validate connected
  let (n0, n2) ← coonsPair n0 n2
  let (n1, n3) ← coonsPair n1 n3
  coonsFrom n0 n1 n2 n3

end

end LNLib
