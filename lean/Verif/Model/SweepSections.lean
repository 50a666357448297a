import Verif.Model.Loft
import Verif.Model.ProjectNormal
import Verif.Model.Matrix4d
import Verif.Model.CurveOps
import Verif.Model.KnotVector

/-!
# Model of the sweep surface that interpolates its trajectory, Geometry/Surface/NurbsSurface.cpp

All paths are relative to /repo/src/LNLib.  A vector of negative size throws `std::length_error` in the C++; the model's `toNat` makes it
an empty vector.
-/

namespace LNLib
open Res

section
variable {K : Type} [Field K] [LinearOrder K]

/-- The number of sections and the curve they are placed on, Geometry/Surface/NurbsSurface.cpp:2744-2767. -/
def sweepTrajectory (trajectory : NurbsCurve K) (minimumProfiles : ℤ) : Res (NurbsCurve K × ℤ) :=
  let q := trajectory.degree
  let ktv : ℤ := trajectory.knots.length
  let nsect := minimumProfiles + 1
  if ktv ≤ nsect + q then do
    let m := nsect + q - ktv + 1
    let inserted ← getInsertedKnotElementsMid m trajectory.knots
    let copy ← refineKnotVector trajectory inserted
    ok (copy, nsect)
  else if ktv > nsect + q + 1 then ok (trajectory, ktv - q - 1)
  else ok (trajectory, nsect)

/-- The smallest and the largest element, `std::minmax_element`, Geometry/Surface/NurbsSurface.cpp:2771; reading through the iterators of an
empty range is undefined. -/
def minmaxElement : List K → Res (K × K)
  | [] => ub
  | a :: l => ok (l.foldl min a, l.foldl max a)

/-- The parameters of the sections, Geometry/Surface/NurbsSurface.cpp:2769-2785. -/
def sweepParams (q nsect : ℤ) (knots : List K) : Res (List K) := do
  let mm ← minmaxElement knots
  let vk ← vset (List.replicate nsect.toNat (0 : K)) 0 mm.1
  let vk ← vset vk (nsect - 1) mm.2
  forI 1 (nsect - 1) vk fun k vk => do
    let sum ← forI 1 (q + 1) (0 : K) fun i sum => do
      let x ← vget knots (k + i)
      ok (sum + x)
    let v ← fdiv sum ((q : ℤ) : K)
    vset vk k v

end

noncomputable section

/-- The section at the parameter `v`, Geometry/Surface/NurbsSurface.cpp:2796-2818. -/
def sweepSection (profile path : NurbsCurve ℝ) (Bv : List (XYZ ℝ)) (v : ℝ) : Res (NurbsCurve ℝ) := do
  let d ← NurbsCurve.rationalDerivatives path 1 v
  let d1 ← vget d 1
  let zdir := d1.normalize
  let spanIndex ← getKnotSpanIndex path.degree path.knots v
  let xdir ← vget Bv spanIndex
  let ydir := (zdir.cross xdir).normalize
  let cps ← forI 0 profile.cps.length (List.replicate profile.cps.length (0 : XYZW ℝ)) fun i cps => do
    let wp ← vget profile.cps i
    let o ← NurbsCurve.pointOnCurve path v
    let t ← (Matrix4d.ofBasis xdir ydir zdir o).ofPoint wp.toXYZ
    vset cps i (XYZW.ofXYZ t wp.w)
  ok { degree := profile.degree, knots := profile.knots, cps := cps }

/-- The sections, Geometry/Surface/NurbsSurface.cpp:2792-2819. -/
def sweepSections (profile path : NurbsCurve ℝ) (Bv : List (XYZ ℝ)) (nsect : ℤ) (vk : List ℝ) : Res (List (NurbsCurve ℝ)) :=
  forI 0 nsect [] fun k sections => do
    let v ← vget vk k
    let s ← sweepSection profile path Bv v
    ok (sections ++ [s])

/-- `NurbsSurface::CreateSweepSurface` with interpolated trajectory, Geometry/Surface/NurbsSurface.cpp:2742-2823.  `angle` are the random
angles drawn by `ProjectNormal`, `fuel` bounds its rounds, `solve` is the linear solver used by the interpolation in `CreateLoftSurface`. -/
def createSweep (solve : List (List ℝ) → List (List ℝ) → Res (List (List ℝ))) (fuel : ℕ) (angle : ℕ → ℝ) (profile trajectory : NurbsCurve ℝ)
    (minimumProfiles : ℤ) : Res (NurbsSurface ℝ) := do
  let r ← sweepTrajectory trajectory minimumProfiles
  let vk ← sweepParams trajectory.degree r.2 r.1.knots
  let Bv ← projectNormal fuel angle r.1
  let sections ← sweepSections profile r.1 Bv r.2 vk
  createLoft solve sections 0 []

end

end LNLib
