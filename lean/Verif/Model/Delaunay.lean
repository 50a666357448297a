import Verif.Model.Mesh
import Verif.Model.DiffGeom
import Verif.Model.Volume

/-!
# Model of the triangulation by random samples, Geometry/Surface/NurbsSurface.cpp

All paths are relative to /repo/src/LNLib.

Two parts are parameters: the numbers drawn by the generator (`std::mt19937` through `std::uniform_real_distribution`, which promises numbers of a half-open interval), and the planar Delaunay
triangulation (Algorithm/Voronoi.cpp), which gets the samples, scaled, and returns triples of their indices.
-/

namespace LNLib
open Res

noncomputable section

/-- The loops that fill a grid, Geometry/Surface/NurbsSurface.cpp:3605-3611 and others: row by row. -/
def gridR {α : Type} (n m : ℕ) (read : ℕ → ℕ → Res α) : Res (List (List α)) := mapR (fun i => mapR (fun j => read i j) (List.range m)) (List.range n)

/-- `operator<` of `std::vector<double>`: lexicographic. Used by `max_element` and `min_element` on grids, Geometry/Surface/NurbsSurface.cpp:3657-3660. -/
def rowLess : List ℝ → List ℝ → Bool
  | _, [] => false
  | [], _ :: _ => true
  | x :: xs, y :: ys => if x < y then true else if y < x then false else rowLess xs ys

/-- `*std::max_element`; of an empty range the end is read. Geometry/Surface/NurbsSurface.cpp:3657-3658. -/
def maxElement {α : Type} (less : α → α → Bool) : List α → Res α
  | [] => ub
  | a :: l => ok (l.foldl (fun best x => if less best x then x else best) a)

/-- `*std::min_element`, Geometry/Surface/NurbsSurface.cpp:3659-3660. -/
def minElement {α : Type} (less : α → α → Bool) : List α → Res α
  | [] => ub
  | a :: l => ok (l.foldl (fun best x => if less x best then x else best) a)

/-- The largest entry of the largest row and the smallest entry of the smallest row, Geometry/Surface/NurbsSurface.cpp:3657-3660 and 3741-3744. -/
def gridExtremes (g : List (List ℝ)) : Res (ℝ × ℝ) := do
  let iterMax ← maxElement rowLess g
  let mx ← maxElement (fun a b => decide (a < b)) iterMax
  let iterMin ← minElement rowLess g
  let mn ← minElement (fun a b => decide (a < b)) iterMin
  ok (mx, mn)

/-- The factors of the cells, Geometry/Surface/NurbsSurface.cpp:3588-3787. The four shifted copies of each grid are read from the grid itself. A division by zero is reported as `nonfinite`, although the
program goes on with values that are not numbers. -/
def delaunayFactors (c : NurbsSurface ℝ) (n m : ℕ) (us vs : ℕ → ℝ) (uInterval vInterval : ℝ) : Res (List (List ℝ)) := do
  let curvatures ← gridR n m fun i j => NurbsSurface.curvature c .gauss (us i) (vs j)
  let maxCurvatures ← gridR (n - 1) (m - 1) fun i j => do
    let c0 ← mget curvatures i j
    let cdu ← mget curvatures (i + 1) j
    let cdv ← mget curvatures i (j + 1)
    let cdudv ← mget curvatures (i + 1) (j + 1)
    ok (max (max (max c0 cdu) cdv) cdudv)
  let (maxCurvature, minCurvature) ← gridExtremes maxCurvatures
  let curvatureRange := maxCurvature - minCurvature
  let maxCurvatures ← if isAlmostEqualTo curvatureRange 0 then ok (List.replicate (n - 1) (List.replicate (m - 1) 0))
    else gridR (n - 1) (m - 1) fun i j => do
      let x ← mget maxCurvatures i j
      fdiv (x - minCurvature) curvatureRange
  let surfacePoints ← gridR n m fun i j => NurbsSurface.pointOnSurface c (us i) (vs j)
  let area ← gridR (n - 1) (m - 1) fun i j => do
    let p0 ← mget surfacePoints i j
    let pdu ← mget surfacePoints (i + 1) j
    let pdv ← mget surfacePoints i (j + 1)
    let pdudv ← mget surfacePoints (i + 1) (j + 1)
    let area1 := ((pdudv - p0).cross (pdu - p0)).length / 2
    let area2 := ((pdv - p0).cross (pdudv - p0)).length / 2
    fdiv (area1 + area2) (uInterval * vInterval)
  let (maxArea, minArea) ← gridExtremes area
  let areaRange := maxArea - minArea
  let area ← if isAlmostEqualTo curvatureRange 0 then ok (List.replicate (n - 1) (List.replicate (m - 1) 0))
    else gridR (n - 1) (m - 1) fun i j => do
      let x ← mget area i j
      fdiv (x - minArea) areaRange
  let factors ← gridR (n - 1) (m - 1) fun i j => do
    let x ← mget maxCurvatures i j
    let y ← mget area i j
    ok ((x + y) / 2)
  let (maxFactor, _) ← gridExtremes factors
  if isAlmostEqualTo maxFactor 0 then ok factors
  else gridR (n - 1) (m - 1) fun i j => do
    let x ← mget factors i j
    fdiv x maxFactor

/-- The samples of all cells, Geometry/Surface/NurbsSurface.cpp:3788-3828. State: the parameters so far and the number of draws so far; `random` are the draws, as numbers of the unit interval. -/
def delaunaySamples (random : ℕ → ℝ) (n m : ℕ) (us vs : ℕ → ℝ) (factors : List (List ℝ)) : Res (List (ℝ × ℝ) × ℕ) :=
  forI 0 ((n : ℤ) - 1) (([] : List (ℝ × ℝ)), 0) fun i st =>
    forI 0 ((m : ℤ) - 1) st fun j st => do
      let currentU := us i.toNat
      let nextU := us (i.toNat + 1)
      let currentV := vs j.toNat
      let nextV := vs (j.toNat + 1)
      let f ← mget factors i j
      let ppf : ℤ := if isAlmostEqualTo f 0 then 3 else ⌈1 + 4 * f⌉
      forI 0 ppf (st.1 ++ [(currentU, currentV)], st.2) fun _ st =>
        ok (st.1 ++ [(currentU + (nextU - currentU) * random st.2, currentV + (nextV - currentV) * random (st.2 + 1))], st.2 + 2)

/-- `NurbsSurface::Triangulate` with `useDelaunay = true`, Geometry/Surface/NurbsSurface.cpp:3566-3888. The model leaves out resolutions below two, for which the steps are not numbers or the grids have no cells. -/
def triangulateDelaunay (random : ℕ → ℝ) (triangles : List (ℝ × ℝ) → List (List ℤ)) (c : NurbsSurface ℝ) (n m : ℕ) : Res (Mesh ℝ) :=
  if n < 2 ∨ m < 2 then ub
  else do
    let umin ← vget c.knotsU 0
    let umax ← vget c.knotsU ((c.knotsU.length : ℤ) - 1)
    let vmin ← vget c.knotsV 0
    let vmax ← vget c.knotsV ((c.knotsV.length : ℤ) - 1)
    let uInterval := (umax - umin) / ((n : ℝ) - 1)
    let vInterval := (vmax - vmin) / ((m : ℝ) - 1)
    let us : ℕ → ℝ := fun i => umin + i * uInterval
    let vs : ℕ → ℝ := fun j => vmin + j * vInterval
    let factors ← delaunayFactors c n m us vs uInterval vInterval
    let (samples, _) ← delaunaySamples random n m us vs factors
    let vertices ← mapR (fun x : ℝ × ℝ => NurbsSurface.pointOnSurface c x.1 x.2) samples
    ok { vertices := vertices, faces := triangles samples, uvs := [], uvIndices := [] }

end
end LNLib
