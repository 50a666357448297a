import Verif.Model.GeomReal

/-!
# Model of Algorithm/Projection.cpp and Algorithm/Intersection.cpp

All paths are relative to /repo/src/LNLib.  Output reference arguments that a branch leaves untouched
keep the value the caller passed in.
-/

namespace LNLib
open Res

section
variable {K : Type} [Field K] [LinearOrder K]

/-- `Projection::PointToRay`, Algorithm/Projection.cpp:15-23. -/
def pointToRay (origin vector point : XYZ K) : Res (XYZ K) := do
  let diff := point - origin
  let dot := diff.dot vector
  let lenSqr := vector.dot vector
  let t ← fdiv dot lenSqr
  ok (origin + t • vector)

/-- `Projection::PointToLine`, Algorithm/Projection.cpp:25-43.  `old` is the value of `projectPoint` before the call. -/
def pointToLine (start end' point old : XYZ K) : Res (Bool × XYZ K) := do
  let direction := end' - start
  let lenSqr := direction.dot direction
  if isAlmostEqualTo lenSqr 0 then ok (false, old)
  else do
    let t ← fdiv ((point - start).dot direction) lenSqr
    if isLessThan t 0 || isGreaterThan t 1 then ok (false, old)
    else ok (true, start + t • direction)

/-- `Projection::Stereographic`, Algorithm/Projection.cpp:45-56. -/
def stereographic (p : XYZ K) (radius : K) : Res (XYZ K) := do
  let alpha ← fdiv (-2 * radius) (p.z - 2 * radius)
  ok ⟨alpha * p.x, alpha * p.y, 0⟩

/-- `LinePlaneIntersectionType`, include/LNEnums.h. -/
inductive LinePlane where
  | intersecting
  | parallel
  | on
  deriving DecidableEq, Repr

/-- `Intersection::ComputeLineAndPlane`, Algorithm/Intersection.cpp:74-100. -/
def computeLineAndPlane (normal pointOnPlane pointOnLine lineDirection old : XYZ K) : Res (LinePlane × XYZ K) := do
  let denom := lineDirection.dot normal
  let numer := -((pointOnLine - pointOnPlane).dot normal)
  if isAlmostEqualTo |denom| 0 then
    if isAlmostEqualTo |numer| 0 then ok (.on, pointOnLine) else ok (.parallel, old)
  else do
    let t ← fdiv numer denom
    ok (.intersecting, pointOnLine + t • lineDirection)

end

/-- `CurveCurveIntersectionType`, include/LNEnums.h. -/
inductive CurveCurve where
  | intersecting
  | parallel
  | coincident
  | skew
  deriving DecidableEq, Repr

noncomputable section

/-- `Intersection::ComputeRays`, Algorithm/Intersection.cpp:18-72.  `old` holds the values of `param0`,
`param1`, `intersectPoint` before the call. -/
def computeRays (point0 vector0 point1 vector1 : XYZ ℝ) (old : ℝ × ℝ × XYZ ℝ) : Res (CurveCurve × ℝ × ℝ × XYZ ℝ) := do
  if vector0.almostEq vector1 && point0.almostEq point1 then ok (.intersecting, 0, 0, point0)
  else do
    validate (!vector0.isZero)
    validate (!vector1.isZero)
    let diff := point0 - point1
    let a := vector0.dot vector0
    let b := vector0.dot vector1
    let c := vector1.dot vector1
    let d := vector0.dot diff
    let e := vector1.dot diff
    let denom := a * c - b * b
    if isAlmostEqualTo |denom| 0 then
      if isAlmostEqualTo (((point1 - point0).cross vector0).length) 0 then ok (.coincident, 0, 0, point0)
      else ok (.parallel, old)
    else do
      let param0 ← fdiv (b * e - c * d) denom
      let param1 ← fdiv (a * e - b * d) denom
      let p0 := point0 + param0 • vector0
      let p1 := point1 + param1 • vector1
      if isAlmostEqualTo (p0.distance p1) 0 then ok (.intersecting, param0, param1, (1 / 2 : ℝ) • (p0 + p1))
      else ok (.skew, param0, param1, p0)

/-- `XYZ::CreateRandomOrthogonal`, Mathematics/Math/XYZ.cpp:174-186.  The random angle is a parameter. -/
def createRandomOrthogonal (xyz : XYZ ℝ) (angle : ℝ) : XYZ ℝ :=
  let normal := xyz.normalize
  let tangent := normal.cross ⟨-normal.z, normal.x, normal.y⟩
  let bitangent := normal.cross tangent
  (Real.sin angle • tangent + Real.cos angle • bitangent).normalize

end

end LNLib
