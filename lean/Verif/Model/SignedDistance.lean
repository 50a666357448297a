import Verif.Model.SurfaceNearest
import Verif.Model.DiffGeom

/-!
# Model of the signed distance of Geometry/Surface/NurbsSurface.cpp

All paths are relative to /repo/src/LNLib.
-/

namespace LNLib
open Res

noncomputable section

/-- `NurbsSurface::ComputeSignedDistanceFunction`, Geometry/Surface/NurbsSurface.cpp:3940-3950. -/
def signedDistance (c : NurbsSurface ℝ) (point : XYZ ℝ) : Res ℝ := do
  let uv ← getParamOnSurface c point
  let closestPointOnSurf ← NurbsSurface.pointOnSurface c uv.1 uv.2
  let vecPQ := point - closestPointOnSurf
  let normal ← NurbsSurface.normal c uv.1 uv.2
  let dotProduct := vecPQ.dot normal
  let distance := vecPQ.length
  ok (if isGreaterThanOrEqual dotProduct 0 then distance else -distance)

end
end LNLib
