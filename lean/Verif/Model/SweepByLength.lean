import Verif.Model.SweepSections
import Verif.Model.LengthParam

/-!
# Model of `NurbsSurface::CreateSweepSurface` with a trajectory that is not interpolated, Geometry/Surface/NurbsSurface.cpp:2826-2874

All paths are relative to /repo/src/LNLib.
-/

namespace LNLib
open Res

noncomputable section

/-- `segments`, the parameters of the sections, Geometry/Surface/NurbsSurface.cpp:2835-2841. A vector of negative size, for which the library throws, is treated as an empty one, whose first
element cannot be written. -/
def lengthSegments (nsect : ℤ) (params : List ℝ) : Res (List ℝ) := do
  let segments ← vset (List.replicate nsect.toNat (0 : ℝ)) 0 0
  forI 0 params.length segments fun i segments => do
    let x ← vget params i
    vset segments (i + 1) x

/-- `NurbsSurface::CreateSweepSurface(profile, trajectory, minimumProfiles, customTrajectoryDegree, surface)`, Geometry/Surface/NurbsSurface.cpp:2826-2874. `len` is
`NurbsCurve::ApproximateLength`; `fuel` and `rounds` bound the loops of `GetParamsOnCurve`, `fuelN` those of `ProjectNormal`, whose random angles are `angle`; `solve` is the linear solver.
The first element of `segments`, which the code writes before it looks for the parameters, is written after that. -/
def createSweepByLength (solve : List (List ℝ) → List (List ℝ) → Res (List (List ℝ))) (len : NurbsCurve ℝ → Res ℝ) (fuel rounds fuelN : ℕ) (angle : ℕ → ℝ)
    (profile trajectory : NurbsCurve ℝ) (minimumProfiles customTrajectoryDegree : ℤ) : Res (NurbsSurface ℝ) := do
  let nsect := minimumProfiles + 1
  let trajectoryLength ← len trajectory
  let stepLength ← fdiv trajectoryLength ((nsect - 1 : ℤ) : ℝ)
  let path ← reparametrizeLinear trajectory 0 1
  let params ← getParamsAtLength fuel rounds len path stepLength
  let segments ← lengthSegments nsect params
  let Bv ← projectNormal fuelN angle path
  let sections ← sweepSections profile path Bv nsect segments
  createLoft solve sections customTrajectoryDegree segments

end
end LNLib
