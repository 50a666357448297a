import Verif.Model.Surface
import Verif.Model.GeomReal

/-!
# Curvature and normals (over `ℝ`)

All paths are relative to /repo/src/LNLib.
-/

namespace LNLib
open Res

noncomputable section

/-- `CurveNormal`, include/LNEnums.h:30-34. -/
inductive CurveNormal | normal | binormal
  deriving DecidableEq

/-- `SurfaceCurvature`, include/LNEnums.h:43-51. -/
inductive SurfaceCurvature | maximum | minimum | gauss | mean | abs | rms
  deriving DecidableEq

/-- `NurbsCurve::Curvature`, Geometry/Curve/NurbsCurve.cpp:305-323. -/
def NurbsCurve.curvature (c : NurbsCurve ℝ) (t : ℝ) : Res ℝ := do
  let a ← vget c.knots 0
  let b ← vget c.knots ((c.knots.length : ℤ) - 1)
  validateRange t a b
  let ders ← NurbsCurve.rationalDerivatives c 2 t
  let d1 ← vget ders 1
  let d2 ← vget ders 2
  if isAlmostEqualTo d1.length 1 then ok d2.length
  else fdiv (d1.cross d2).length (d1.length ^ 3)

/-- `NurbsCurve::Normal`, Geometry/Curve/NurbsCurve.cpp:325-360. -/
def NurbsCurve.normal (c : NurbsCurve ℝ) (ty : CurveNormal) (t : ℝ) : Res (XYZ ℝ) := do
  let a ← vget c.knots 0
  let b ← vget c.knots ((c.knots.length : ℤ) - 1)
  validateRange t a b
  let ders ← NurbsCurve.rationalDerivatives c 2 t
  let tangent ← vget ders 1
  let der2 ← vget ders 2
  if isAlmostEqualTo tangent.length 1 then do
    let curveNormal ← vdiv der2 der2.length
    if ty = .normal then ok curveNormal else ok (tangent.cross curveNormal)
  else do
    let b ← vdiv (tangent.cross der2) (tangent.cross der2).length
    if ty = .binormal then ok b else ok (b.normalize.cross tangent.normalize)

/-- `NurbsSurface::Normal`, Geometry/Surface/NurbsSurface.cpp:442-455. -/
def NurbsSurface.normal (c : NurbsSurface ℝ) (u v : ℝ) : Res (XYZ ℝ) := do
  c.validateUV u v
  let ders ← NurbsSurface.rationalDerivatives c 1 u v
  let su ← mget ders 1 0
  let sv ← mget ders 0 1
  ok ((su.normalize.cross sv).normalize)

/-- `NurbsSurface::Curvature`, Geometry/Surface/NurbsSurface.cpp:257-321.  `abs` is the absolute value
of a `double`. -/
def NurbsSurface.curvature (c : NurbsSurface ℝ) (ty : SurfaceCurvature) (u v : ℝ) : Res ℝ := do
  c.validateUV u v
  let ders ← NurbsSurface.rationalDerivatives c 2 u v
  let suu ← mget ders 2 0
  let svv ← mget ders 0 2
  let suv ← mget ders 1 1
  let su ← mget ders 1 0
  let sv ← mget ders 0 1
  let normal ← NurbsSurface.normal c u v
  let L := suu.dot normal
  let M := suv.dot normal
  let N := svv.dot normal
  let E := su.dot su
  let F := su.dot sv
  let G := sv.dot sv
  let denominator := E * G - F * F
  if isAlmostEqualTo denominator 0 then ok 0
  else do
    let K ← fdiv (L * N - M * M) denominator
    let H ← fdiv (E * N + G * L - 2 * F * M) (2 * denominator)
    let k1 := H + Real.sqrt |H * H - K|
    let k2 := H - Real.sqrt |H * H - K|
    match ty with
    | .gauss => ok K
    | .mean => ok H
    | .maximum => ok k1
    | .minimum => ok k2
    | .abs => ok (|k1| + |k2|)
    | .rms => ok (Real.sqrt (k1 * k1 + k2 * k2))

end
end LNLib
