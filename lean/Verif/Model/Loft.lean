import Verif.Model.Interp
import Verif.Model.Surface
import Verif.Model.BezierPieces

/-!
# Model of NurbsSurface::CreateLoftSurface

All paths are relative to /repo/src/LNLib.
-/

namespace LNLib
open Res

section
variable {K : Type} [Field K] [LinearOrder K]

/-- the largest degree, Geometry/Surface/NurbsSurface.cpp:2613-2621 -/
def loftDegree (sections : List (NurbsCurve K)) : ℤ :=
  sections.foldl (fun (m : ℤ) c => if m < c.degree then c.degree else m) 0

/-- the sections with the lower degrees raised, Geometry/Surface/NurbsSurface.cpp:2625-2642 -/
def loftRaise (degreeMax : ℤ) : List (NurbsCurve K) → Res (List (NurbsCurve K))
  | [] => ok []
  | c :: rest =>
    if degreeMax > c.degree then do
      let tc ← elevateDegree c (degreeMax - c.degree)
      let rest ← loftRaise degreeMax rest
      ok ({ degree := degreeMax, knots := tc.knots, cps := tc.cps } :: rest)
    else do
      let rest ← loftRaise degreeMax rest
      ok (c :: rest)

/-- one column of the control net: interpolate the unweighted control points of the sections and put the weights of the sections on the
result, Geometry/Surface/NurbsSurface.cpp:2687-2704. -/
def loftColumn (solve : List (List K) → List (List K) → Res (List (List K))) (degreeV : ℤ) (nets : List (List (XYZW K))) (vl : List K)
    (c : ℤ) : Res (List (XYZW K)) := do
  let size := nets.length
  let (weightCache, temp) ← forI 0 size (List.replicate size (0 : K), List.replicate size (0 : XYZ K)) fun k (weightCache, temp) => do
    let cp ← mget nets k c
    let weightCache ← vset weightCache k cp.w
    let x ← fdiv cp.wx cp.w
    let y ← fdiv cp.wy cp.w
    let z ← fdiv cp.wz cp.w
    let temp ← vset temp k ⟨x, y, z⟩
    ok (weightCache, temp)
  let tc ← globalInterpolation solve degreeV temp vl
  forI 0 tc.cps.length tc.cps fun i cps => do
    let cp ← vget cps i
    let x ← fdiv cp.wx cp.w
    let y ← fdiv cp.wy cp.w
    let z ← fdiv cp.wz cp.w
    let w ← vget weightCache i
    vset cps i (XYZW.ofXYZ ⟨x, y, z⟩ w)

/-- the rest of `NurbsSurface::CreateLoftSurface` once the parameters `vl` are known, Geometry/Surface/NurbsSurface.cpp:2683-2713. -/
def loftSurface (solve : List (List K) → List (List K) → Res (List (List K))) (degreeU degreeV : ℤ) (internals : List (NurbsCurve K))
    (vl : List K) : Res (NurbsSurface K) := do
  let nets := internals.map fun c => c.cps
  let knotVectorV ← averageKnotVector degreeV vl
  let first ← vget internals 0
  let cps ← forI 0 first.cps.length [] fun c cps => do
    let col ← loftColumn solve degreeV nets vl c
    ok (cps ++ [col])
  ok { degreeU := degreeU, degreeV := degreeV, knotsU := first.knots, knotsV := knotVectorV, cps := cps }

/-- `NurbsSurface::CreateLoftSurface` with a non-empty `customTrajectoryKnotVector`, Geometry/Surface/NurbsSurface.cpp:2611-2713; the
branch of lines 2678-2682. The list is used as the parameters of the sections. -/
def createLoftCustom (solve : List (List K) → List (List K) → Res (List (List K))) (sections : List (NurbsCurve K))
    (customTrajectoryDegree : ℤ) (customTrajectoryKnotVector : List K) : Res (NurbsSurface K) := do
  let internals ← loftRaise (loftDegree sections) sections
  loftSurface solve (loftDegree sections) customTrajectoryDegree internals customTrajectoryKnotVector

end

noncomputable section

/-- the default parameters of the sections, Geometry/Surface/NurbsSurface.cpp:2647-2677 -/
def loftParams (nets : List (List (XYZW ℝ))) : Res (List ℝ) := do
  let size := nets.length
  let K : ℤ := (size : ℤ) - 1
  let vl ← vset (List.replicate size (0 : ℝ)) 0 0
  let vl ← vset vl K 1
  forI 1 (K - 1 + 1) vl fun k vl => do
    let current ← vget nets k
    let n : ℤ := (current.length : ℤ) - 1
    let sum ← forI 0 (n + 1) (0 : ℝ) fun i sum => do
      let a ← mget nets k i
      let b ← mget nets (k - 1) i
      let delta := a.toXYZ.distance b.toXYZ
      let tempPoints ← forI 0 (K + 1) (List.replicate size (0 : XYZ ℝ)) fun j t => do
        let q ← mget nets j i
        vset t j q.toXYZ
      let di ← getTotalChordLength tempPoints
      let q ← fdiv delta di
      ok (sum + q)
    let prev ← vget vl (k - 1)
    let r ← fdiv 1 ((n + 1 : ℤ) : ℝ)
    vset vl k (prev + r * sum)

/-- `NurbsSurface::CreateLoftSurface`, Geometry/Surface/NurbsSurface.cpp:2611-2713. -/
def createLoft (solve : List (List ℝ) → List (List ℝ) → Res (List (List ℝ))) (sections : List (NurbsCurve ℝ))
    (customTrajectoryDegree : ℤ) (customTrajectoryKnotVector : List ℝ) : Res (NurbsSurface ℝ) :=
  if customTrajectoryKnotVector.length = 0 then do
    let internals ← loftRaise (loftDegree sections) sections
    let vl ← loftParams (internals.map fun c => c.cps)
    loftSurface solve (loftDegree sections) (loftDegree sections) internals vl
  else createLoftCustom solve sections customTrajectoryDegree customTrajectoryKnotVector

end
end LNLib
