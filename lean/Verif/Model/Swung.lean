import Verif.Model.Interp
import Verif.Model.Surface
import Verif.Model.Matrix4d
import Verif.Model.SweepSections

/-!
# Model of the swung surface, Geometry/Surface/NurbsSurface.cpp

All paths are relative to /repo/src/LNLib.
-/

namespace LNLib
open Res

section
variable {K : Type} [Field K] [LinearOrder K]

/-- The parameters of the placed profiles, Geometry/Surface/NurbsSurface.cpp:2528-2539. -/
def swungParams (q size : ℤ) (knots : List K) : Res (List K) := do
  let a ← vget knots q
  let vl ← vset (List.replicate size.toNat (0 : K)) 0 a
  let b ← vget knots ((knots.length : ℤ) - q - 1)
  let vl ← vset vl (size - 1) b
  forI 1 (size - 1) vl fun k vl => do
    let vl ← vset vl k 0
    let vl ← forI (k + 1) (k + q + 1) vl fun i vl => do
      let x ← vget vl k
      let y ← vget knots i
      vset vl k (x + y)
    let x ← vget vl k
    let v ← fdiv x ((q : ℤ) : K)
    vset vl k v

end

noncomputable section

/-- The first of the vectors that turn the profile, Geometry/Surface/NurbsSurface.cpp:2544-2553. -/
def swungFirst (d : XYZ ℝ) : XYZ ℝ :=
  if isAlmostEqualTo d.y 0 then ((⟨0, 1, 0⟩ : XYZ ℝ).cross d).normalize else ((⟨1, 0, 0⟩ : XYZ ℝ).cross d).normalize

/-- The vectors that turn the profile, Geometry/Surface/NurbsSurface.cpp:2541-2561. -/
def swungNormals (trajectory : NurbsCurve ℝ) (vl : List ℝ) : Res (List (XYZ ℝ)) := do
  let v0 ← vget vl 0
  let td ← NurbsCurve.rationalDerivatives trajectory 1 v0
  let d ← vget td 1
  let tempB ← vset (List.replicate vl.length (0 : XYZ ℝ)) 0 (swungFirst d)
  forI 1 vl.length tempB fun i tempB => do
    let v ← vget vl i
    let td ← NurbsCurve.rationalDerivatives trajectory 1 v
    let d ← vget td 1
    let b ← vget tempB (i - 1)
    vset tempB i (b - (b.dot d.normalize) • d.normalize).normalize

/-- The matrix of one position, Geometry/Surface/NurbsSurface.cpp:2573-2580. -/
def swungMatrix (trajectory Bv : NurbsCurve ℝ) (v : ℝ) : Res (Matrix4d ℝ) := do
  let td ← NurbsCurve.rationalDerivatives trajectory 1 v
  let d ← vget td 1
  let b ← NurbsCurve.pointOnCurve Bv v
  let o ← NurbsCurve.pointOnCurve trajectory v
  let x := d.normalize
  let z := b.normalize
  ok ((Matrix4d.createTranslation o).multiply (Matrix4d.ofBasis (z.cross x) x z ⟨0, 0, 1⟩))

/-- The placed control points, row by row of the final net: entry `i`, `k` is the `i`-th control point at the `k`-th position,
Geometry/Surface/NurbsSurface.cpp:2526, 2566-2585. -/
def swungPlace (profile trajectory Bv : NurbsCurve ℝ) (scale : ℝ) (size : ℤ) (vl : List ℝ) : Res (List (List (XYZW ℝ))) :=
  forI 0 size (List.replicate profile.cps.length (List.replicate size.toNat (0 : XYZW ℝ))) fun k net => do
    let v ← vget vl k
    let A ← swungMatrix trajectory Bv v
    forI 0 profile.cps.length net fun i net => do
      let a ← vget profile.cps i
      let x ← A.ofWeightedPoint (scale • a)
      mset net i k x

/-- The rows are replaced by the control points of the interpolating curves, Geometry/Surface/NurbsSurface.cpp:2587-2600. -/
def swungRows (solve : List (List ℝ) → List (List ℝ) → Res (List (List ℝ))) (q : ℤ) (vl : List ℝ) (net : List (List (XYZW ℝ))) : Res (List (List (XYZW ℝ))) :=
  forI 0 net.length net fun i net => do
    let row0 ← vget net 0
    let through ← forI 0 row0.length (List.replicate row0.length (0 : XYZ ℝ)) fun k t => do
      let x ← mget net i k
      vset t k x.toXYZ
    let R ← globalInterpolation solve q through vl
    forI 0 row0.length net fun k net => do
      let x ← vget R.cps k
      mset net i k x

/-- `NurbsSurface::CreateSwungSurface`, Geometry/Surface/NurbsSurface.cpp:2511-2609.  `solve` is the linear solver of `GlobalInterpolation`. -/
def createSwung (solve : List (List ℝ) → List (List ℝ) → Res (List (List ℝ))) (profile trajectory : NurbsCurve ℝ) (scale : ℝ) : Res (NurbsSurface ℝ) := do
  let size : ℤ := trajectory.cps.length
  let vl ← swungParams trajectory.degree size trajectory.knots
  let tempB ← swungNormals trajectory vl
  let Bv ← globalInterpolation solve (min 3 ((tempB.length : ℤ) - 1)) tempB vl
  let net ← swungPlace profile trajectory Bv scale size vl
  let net ← swungRows solve trajectory.degree vl net
  ok { degreeU := profile.degree, degreeV := trajectory.degree, knotsU := profile.knots, knotsV := trajectory.knots, cps := net }

end

end LNLib
