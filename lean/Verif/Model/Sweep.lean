import Verif.Model.Surface
import Verif.Model.Curve

/-!
# Translational sweep surfaces
-/

namespace LNLib
open Res

variable {K : Type} [Field K] [LinearOrder K]

/-- `NurbsSurface::CreateGeneralizedTranslationalSweepSurface`, Geometry/Surface/NurbsSurface.cpp:2712-2740. -/
def createTranslationalSweep (profile trajectory : NurbsCurve K) : Res (NurbsSurface K) := do
  let n : ℤ := (profile.cps.length : ℤ) - 1
  let m : ℤ := (trajectory.cps.length : ℤ) - 1
  let cps ← forI 0 (n + 1) (List.replicate profile.cps.length (List.replicate trajectory.cps.length (0 : XYZW K))) fun i cps =>
    forI 0 (m + 1) cps fun j cps => do
      let t ← vget trajectory.cps j
      let p ← vget profile.cps i
      mset cps i j (XYZW.ofXYZ (t.toXYZ + p.toXYZ) (p.w * t.w))
  ok { degreeU := profile.degree, degreeV := trajectory.degree, knotsU := profile.knots, knotsV := trajectory.knots, cps := cps }

end LNLib
