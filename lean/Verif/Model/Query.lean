import Verif.Model.Surface
import Verif.Model.KnotVector
import Verif.Model.GeomReal

/-!
# Tessellation, closedness, tangents in parameter space, scaling of control nets

All paths are relative to /repo/src/LNLib.
-/

namespace LNLib
open Res

section
variable {K : Type} [Field K] [LinearOrder K]

/-- `NurbsCurve::EquallyTessellate`, Geometry/Curve/NurbsCurve.cpp:1168-1191; returns (`tessellatedPoints`, `correspondingKnots`).  The model
starts from empty output vectors. -/
def equallyTessellate (c : NurbsCurve K) : Res (List (XYZ K) × List K) := do
  let uniqueKv := stdUnique c.knots
  let size : ℤ := uniqueKv.length
  forI 0 (size - 1) ([], []) fun i st => do
    let currentU ← vget uniqueKv i
    let nextU ← vget uniqueKv (i + 1)
    let step := (nextU - currentU) / 99
    forI 0 100 st fun j st => do
      let u := currentU + step * (j : K)
      let x ← NurbsCurve.pointOnCurve c u
      ok (st.1 ++ [x], st.2 ++ [u])

/-- The parameters in one direction, Geometry/Surface/NurbsSurface.cpp:1164-1184 and 1185-1196. -/
def tessellateDirection (knots : List K) : Res (List K) := do
  let uniqueKv := stdUnique knots
  let size : ℤ := uniqueKv.length
  forI 0 (size - 1) [] fun i st => do
    let current ← vget uniqueKv i
    let next ← vget uniqueKv (i + 1)
    let step := (next - current) / 100
    forI 0 100 st fun j st => ok (st ++ [current + step * (j : K)])

/-- `NurbsSurface::EquallyTessellate`, Geometry/Surface/NurbsSurface.cpp:1156-1210; returns (`tessellatedPoints`, `correspondingKnots`).  The model
starts from empty output vectors. -/
def equallyTessellateSurface (c : NurbsSurface K) : Res (List (XYZ K) × List (K × K)) := do
  let tessellatedU ← tessellateDirection c.knotsU
  let tessellatedV ← tessellateDirection c.knotsV
  let st ← forI 0 tessellatedU.length ([], []) fun i st =>
    forI 0 tessellatedV.length st fun j (st : List (XYZ K) × List (K × K)) => do
      let u ← vget tessellatedU i
      let v ← vget tessellatedV j
      let x ← NurbsSurface.pointOnSurface c u v
      ok (st.1 ++ [x], st.2 ++ [(u, v)])
  let u ← vget c.knotsU ((c.knotsU.length : ℤ) - 1)
  let v ← vget c.knotsV ((c.knotsV.length : ℤ) - 1)
  let row ← vget c.cps 0
  let p ← mget c.cps ((c.cps.length : ℤ) - 1) ((row.length : ℤ) - 1)
  ok (st.1 ++ [p.toXYZ], st.2 ++ [(u, v)])

/-- `NurbsSurface::GetUVTangent`, Geometry/Surface/NurbsSurface.cpp:1659-1690; `none` is the answer `false`. -/
def getUVTangent (c : NurbsSurface K) (pu pv : K) (tangent : XYZ K) : Res (Option (K × K)) := do
  let derivatives ← NurbsSurface.rationalDerivatives c 1 pu pv
  let su ← mget derivatives 1 0
  let sv ← mget derivatives 0 1
  let a := su.dot su
  let b := su.dot sv
  let c := su.dot sv
  let d := sv.dot sv
  let e := su.dot tangent
  let f := sv.dot tangent
  if isAlmostEqualTo (a * d) (b * c) then ok none
  else do
    let u ← fdiv (e * d - b * f) (a * d - b * c)
    let v ← fdiv (a * f - e * c) (a * d - b * c)
    ok (some (u, v))

/-- One control point of `NurbsSurface::NonUniformScaling`, Geometry/Surface/NurbsSurface.cpp:1989-1995 (reference point near the origin) and
2007-2017.  The constructor `XYZW(double, double, double, double)` stores its arguments as they are (Mathematics/Math/XYZW.cpp:20-26). -/
def scalePoint (atOrigin : Bool) (xFactor yFactor zFactor : K) (referencePoint : XYZ K) (current : XYZW K) : Res (XYZW K) := do
  let weight := current.w
  let x ← fdiv current.wx weight
  let y ← fdiv current.wy weight
  let z ← fdiv current.wz weight
  if atOrigin then ok ⟨x * xFactor, y * yFactor, z * zFactor, weight⟩
  else
    ok ⟨x * xFactor + (1 - xFactor) * referencePoint.x, y * yFactor + (1 - yFactor) * referencePoint.y,
      z * zFactor + (1 - zFactor) * referencePoint.z, weight⟩

/-- `NurbsSurface::NonUniformScaling`, Geometry/Surface/NurbsSurface.cpp:1976-2023. -/
def nonUniformScaling (cps : List (List (XYZW K))) (xFactor yFactor zFactor : K) (referencePoint : XYZ K) : Res (List (List (XYZW K))) := do
  let first ← vget cps 0
  let col : ℤ := first.length
  let atOrigin := referencePoint.almostEq ⟨0, 0, 0⟩
  forI 0 cps.length [] fun i result => do
    let row ← forI 0 col [] fun j row => do
      let current ← mget cps i j
      let x ← scalePoint atOrigin xFactor yFactor zFactor referencePoint current
      ok (row ++ [x])
    ok (result ++ [row])

/-- The first loop of `NurbsCurve::IsClosed`, Geometry/Curve/NurbsCurve.cpp:1209-1220: the first control point that coincides with the last one. -/
def closedIndex (cps : List (XYZW K)) (last : XYZ K) (n : ℤ) : Res (Option ℤ) :=
  forI 0 n none fun i st =>
    match st with
    | some k => ok (some k)
    | none => do
      let current ← vget cps i
      ok (if last.almostEq current.toXYZ then some i else none)

/-- The second loop of `NurbsCurve::IsClosed`, Geometry/Curve/NurbsCurve.cpp:1224-1233. -/
def closedOverlap (cps : List (XYZW K)) (n index : ℤ) : Res Bool :=
  forDown index 0 true fun i st =>
    if st then do
      let current ← vget cps i
      let another ← vget cps (n - index + i)
      ok (another.toXYZ.almostEq current.toXYZ)
    else ok false

end

noncomputable section

/-- `NurbsCurve::IsClosed`, Geometry/Curve/NurbsCurve.cpp:1193-1235 (over `ℝ`: `XYZ::Distance` takes a square root). -/
def isClosedCurve (c : NurbsCurve ℝ) : Res Bool := do
  let first ← vget c.knots 0
  let last ← vget c.knots ((c.knots.length : ℤ) - 1)
  let startPoint ← NurbsCurve.pointOnCurve c first
  let endPoint ← NurbsCurve.pointOnCurve c last
  if isAlmostEqualTo (startPoint.distance endPoint) 0 then ok true
  else do
    let n : ℤ := (c.cps.length : ℤ) - 1
    let l ← vget c.cps n
    let flag ← closedIndex c.cps l.toXYZ n
    match flag with
    | none => ok false
    | some index => if index = 0 then ok true else closedOverlap c.cps n index

/-- `NurbsSurface::IsClosed`, Geometry/Surface/NurbsSurface.cpp:1212-1262. -/
def isClosedSurface (c : NurbsSurface ℝ) (isUDirection : Bool) : Res Bool := do
  let numU : ℤ := c.cps.length
  if numU = 0 then ok false
  else do
    let row0 ← vget c.cps 0
    let numV : ℤ := row0.length
    if isUDirection then
      forI 0 numV true fun v st =>
        if st then do
          let col ← forI 0 numU [] fun u l => do
            let x ← mget c.cps u v
            ok (l ++ [x])
          isClosedCurve { degree := c.degreeU, knots := c.knotsU, cps := col }
        else ok false
    else
      forI 0 numU true fun u st =>
        if st then do
          let rw ← forI 0 numV [] fun v l => do
            let x ← mget c.cps u v
            ok (l ++ [x])
          isClosedCurve { degree := c.degreeV, knots := c.knotsV, cps := rw }
        else ok false

end

end LNLib
