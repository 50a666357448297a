import Verif.Model.Geom
import Verif.Model.SurfaceApprox

/-!
# Model of the matrices of points of Algorithm/ControlPointsUtils.cpp

All paths are relative to /repo/src/LNLib.
-/

namespace LNLib
open Res

section
variable {K : Type} [Field K] [LinearOrder K]

/-- `ControlPointsUtils::ToXYZ(weightedControlPoints)` for a list, Algorithm/ControlPointsUtils.cpp:19-27. -/
def listToXYZ (points : List (XYZW K)) : List (XYZ K) := points.map XYZW.toXYZ

/-- `ControlPointsUtils::ToXYZ(points)` for a net, Algorithm/ControlPointsUtils.cpp:29-44. -/
def netToXYZ (points : List (List (XYZW K))) : Res (List (List (XYZ K))) := do
  let r0 ← vget points 0
  forI 0 points.length (List.replicate points.length (List.replicate r0.length (⟨0, 0, 0⟩ : XYZ K))) fun i net =>
    forI 0 r0.length net fun j net => do
      let p ← mget points i j
      mset net i j p.toXYZ

/-- `ControlPointsUtils::Multiply(points, coefficient)`, Algorithm/ControlPointsUtils.cpp:61-79. -/
def pointsMultiply (points : List (List (XYZW K))) (coefficient : List (List K)) : Res (List (List (XYZW K))) := do
  let p0 ← vget points 0
  let c0 ← vget coefficient 0
  forI 0 points.length (List.replicate points.length (List.replicate c0.length (0 : XYZW K))) fun i result =>
    forI 0 c0.length result fun j result =>
      forI 0 p0.length result fun k result => do
        let old ← mget result i j
        let a ← mget points i k
        let b ← mget coefficient k j
        mset result i j (old + b • a)

/-- `ControlPointsUtils::Multiply(coefficient, points)`, Algorithm/ControlPointsUtils.cpp:81-99. -/
def multiplyPoints (coefficient : List (List K)) (points : List (List (XYZW K))) : Res (List (List (XYZW K))) := do
  let c0 ← vget coefficient 0
  let p0 ← vget points 0
  forI 0 coefficient.length (List.replicate coefficient.length (List.replicate p0.length (0 : XYZW K))) fun i result =>
    forI 0 p0.length result fun j result =>
      forI 0 c0.length result fun k result => do
        let old ← mget result i j
        let a ← mget coefficient i k
        let b ← mget points k j
        mset result i j (old + a • b)

end
end LNLib
