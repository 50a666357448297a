import Verif.Model.DiffGeom
import Verif.Model.Surface

/-!
# Model of `NurbsSurface::GetParamOnSurfaceByGSA`, Geometry/Surface/NurbsSurface.cpp:1552-1637

All paths are relative to /repo/src/LNLib.
-/

namespace LNLib
open Res

noncomputable section

/-- One round, Geometry/Surface/NurbsSurface.cpp:1569-1634. The boolean is true when the loop is left, by the `return` for a degenerate metric (lines 1591-1594) or by the `break` (line 1630).
`c3`, which is not read, is left out. -/
def gsaRound (c : NurbsSurface ℝ) (givenPoint : XYZ ℝ) (uv : ℝ × ℝ) : Res ((ℝ × ℝ) × Bool) := do
  let p0 ← NurbsSurface.pointOnSurface c uv.1 uv.2
  let normal ← NurbsSurface.normal c uv.1 uv.2
  let ders ← NurbsSurface.rationalDerivatives c 2 uv.1 uv.2
  let Suu ← mget ders 2 0
  let Svv ← mget ders 0 2
  let Suv ← mget ders 1 1
  let Su ← mget ders 1 0
  let Sv ← mget ders 0 1
  let L := Suu.dot normal
  let M := Suv.dot normal
  let N := Svv.dot normal
  let E := Su.dot Su
  let F := Su.dot Sv
  let G := Sv.dot Sv
  let denominator := E * G - F * F
  if isAlmostEqualTo denominator 0 then ok ((doubleEps, doubleEps), true)
  else do
    let c1 := Su.dot normal
    let c2 := Sv.dot normal
    let s1 := (givenPoint - p0).dot Su
    let s2 := (givenPoint - p0).dot Sv
    let s3 := (givenPoint - p0).dot normal
    let a1 ← fdiv (-(c1 * c2 * s2 - c1 * G * s3 - c2 * c2 * s1 + c2 * F * s3 - F * s2 + G * s1)) (c1 * c1 * G - 2 * c1 * c2 * F + c2 * c2 * E - E * G + F * F)
    let a2 ← fdiv (c1 * c1 * s2 - c1 * c2 * s1 - c1 * F * s3 + c2 * E * s3 - E * s2 + F * s1) (c1 * c1 * G - 2 * c1 * c2 * F + c2 * c2 * E - E * G + F * F)
    let curvature ← fdiv (L * a1 * a1 + 2 * M * a1 * a2 + N * a2 * a2) (E * a1 * a1 + 2 * F * a1 * a2 + G * a2 * a2)
    let radius ← fdiv 1 |curvature|
    let m := p0 + radius • normal
    let ratio ← fdiv radius (m.distance givenPoint)
    let q := givenPoint + (1 - ratio) • (m - givenPoint)
    let c4 := (q - p0).dot Su
    let c5 := (q - p0).dot Sv
    let deltaU ← fdiv (c4 * G - c5 * F) denominator
    let deltaV ← fdiv (-(c4 * F - c5 * E)) denominator
    let ut := uv.1 + deltaU
    let vt := uv.2 + deltaV
    let condition1 := isLessThanOrEqual |deltaU| doubleEps && isLessThanOrEqual |deltaV| doubleEps
    let condition2 := isLessThanOrEqual (|deltaU| * |deltaU| + |deltaV| * |deltaV|) doubleEps
    if condition1 || condition2 then do
      let newNormal ← NurbsSurface.normal c ut vt
      ok ((ut, vt), normal.almostEq newNormal)
    else ok ((ut, vt), false)

/-- `NurbsSurface::GetParamOnSurfaceByGSA`, Geometry/Surface/NurbsSurface.cpp:1552-1637. -/
def getParamOnSurfaceByGSA (c : NurbsSurface ℝ) (givenPoint : XYZ ℝ) : Res (ℝ × ℝ) := do
  let minU ← vget c.knotsU 0
  let maxU ← vget c.knotsU ((c.knotsU.length : ℤ) - 1)
  let minV ← vget c.knotsV 0
  let maxV ← vget c.knotsV ((c.knotsV.length : ℤ) - 1)
  let u0 := (maxU - minU) * (1 / 2)
  let v0 := (maxV - minV) * (1 / 2)
  let (uv, _) ← forI 0 1000 ((u0, v0), false) fun _ st => if st.2 then ok st else gsaRound c givenPoint st.1
  ok uv

end
end LNLib
