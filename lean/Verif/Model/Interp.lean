import Verif.Model.Curve
import Verif.Model.GeomReal
import Mathlib.Algebra.Order.Floor.Defs
import Mathlib.Data.Rat.Floor

/-!
# Model of Algorithm/Interpolation.cpp, Algorithm/Integrator.cpp (Simpson) and the global interpolation of
Geometry/Curve/NurbsCurve.cpp

All paths are relative to /repo/src/LNLib.
-/

namespace LNLib
open Res

section
variable {K : Type} [Field K] [LinearOrder K]

/-- `Integrator::Simpson` for functions of one variable, Algorithm/Integrator.cpp:19-26. -/
def simpson (f : K → K) (start stop : K) : K :=
  ((stop - start) / 6) * (f start + 4 * f ((start + stop) / 2) + f stop)

/-- `Integrator::Simpson` for functions of two variables, Algorithm/Integrator.cpp:28-63; the table `uvw` row by row. -/
def simpson2 (f : K → K → K) (uStart uEnd vStart vEnd : K) : K :=
  let du := uEnd - uStart
  let dv := vEnd - vStart
  let hdu := 1 / 2 * du
  let hdv := 1 / 2 * dv
  let uvw : List (K × K × K) := [(uStart, vStart, 1), (uStart, vStart + hdv, 4), (uStart, vEnd, 1),
    (uStart + hdu, vStart, 4), (uStart + hdu, vStart + hdv, 16), (uStart + hdu, vEnd, 4),
    (uEnd, vStart, 1), (uEnd, vStart + hdv, 4), (uEnd, vEnd, 1)]
  let sum := uvw.foldl (fun (s : K) (b : K × K × K) => s + b.2.2 * f b.1 b.2.1) 0
  sum * (du * dv / 36)

/-- The part of `GetChordParameterization` and `GetCentripetalParameterization` after the segment lengths are known,
Algorithm/Interpolation.cpp:51-93 and 108-152; `segs[i]` is the length of segment `i`, there is one point more than segments. -/
def parameterization (segs : List K) : Res (List K) :=
  let size := segs.length + 1
  if size = 1 then ok [0]
  else if size = 2 then ok [0, 1]
  else
    let totalLength := segs.foldl (fun (s : K) x => s + x) 0
    if isAlmostEqualTo totalLength 0 then
      forI 0 (size : ℤ) (List.replicate size (0 : K)) fun i uk => do
        let q ← fdiv ((i : ℤ) : K) (((size : ℤ) - 1 : ℤ) : K)
        vset uk i q
    else do
      let uk := List.replicate size (0 : K)
      let uk ← vset uk 0 0
      let uk ← vset uk ((size : ℤ) - 1) 1
      let (uk, _) ← forI 1 ((size : ℤ) - 1) (uk, (0 : K)) fun i (uk, accumulated) => do
        let s ← vget segs (i - 1)
        let accumulated := accumulated + s
        let q ← fdiv accumulated totalLength
        let uk ← vset uk i q
        ok (uk, accumulated)
      ok uk

/-- `Interpolation::AverageKnotVector`, Algorithm/Interpolation.cpp:154-182. -/
def averageKnotVector (degree : ℤ) (params : List K) : Res (List K) := do
  let n : ℤ := (params.length : ℤ) - 1
  let m := n + degree + 1
  let knotVector ← forI (m - degree) (m + 1) (List.replicate (m + 1).toNat (0 : K)) fun i kv => vset kv i 1
  if n ≤ degree then ok knotVector
  else do
    let windowSum ← forI 1 (degree + 1) (0 : K) fun i s => do
      let x ← vget params i
      ok (s + x)
    let q ← fdiv windowSum ((degree : ℤ) : K)
    let knotVector ← vset knotVector (degree + 1) q
    let (knotVector, _) ← forI 2 (n - degree + 1) (knotVector, windowSum) fun j (kv, windowSum) => do
      let a ← vget params (j - 1)
      let windowSum := windowSum - a
      let b ← vget params (j + degree - 1)
      let windowSum := windowSum + b
      let q ← fdiv windowSum ((degree : ℤ) : K)
      let kv ← vset kv (degree + j) q
      ok (kv, windowSum)
    ok knotVector

/-- `Interpolation::ComputeKnotVector`, Algorithm/Interpolation.cpp:184-209. -/
def computeKnotVector [FloorRing K] (degree controlPointsCount : ℤ) (params : List K) : Res (List K) := do
  let m : ℤ := (params.length : ℤ) - 1
  let n := controlPointsCount - 1
  let nn := n + degree + 2
  let d ← fdiv (((m + 1 : ℤ)) : K) ((n - degree + 1 : ℤ) : K)
  let kv ← forI 1 (n - degree + 1) (List.replicate nn.toNat (0 : K)) fun j kv => do
    let i := ⌊((j : ℤ) : K) * d⌋
    let alpha := ((j : ℤ) : K) * d - ((i : ℤ) : K)
    let a ← vget params (i - 1)
    let b ← vget params i
    vset kv (degree + j) ((1 - alpha) * a + alpha * b)
  forI 0 nn kv fun i kv =>
    if i ≤ degree then vset kv i 0
    else if i ≥ nn - 1 - degree then vset kv i 1
    else ok kv

/-- The matrix of `NurbsCurve::GlobalInterpolation`, Geometry/Curve/NurbsCurve.cpp:2069-2083. -/
def interpolationMatrix (degree : ℤ) (size : ℕ) (knotVector uk : List K) : Res (List (List K)) := do
  let n : ℤ := (size : ℤ) - 1
  let A ← forI 1 n (List.replicate size (List.replicate size (0 : K))) fun i A => do
    let u ← vget uk i
    let spanIndex ← getKnotSpanIndex degree knotVector u
    let basis ← basisFunctions spanIndex degree knotVector u (uninit K 8)
    forI 0 (degree + 1) A fun j A => do
      let b ← aget basis j
      mset A i (spanIndex - degree + j) b
  let A ← mset A 0 0 1
  mset A n n 1

/-- `NurbsCurve::GlobalInterpolation(degree, throughPoints, curve, params)`,
Geometry/Curve/NurbsCurve.cpp:2047-2111, with non-empty `params` or with the chord parameters as `params`.
`solve` is `MathUtils::SolveLinearSystem` (Mathematics/Utils/MathUtils.cpp:258-289), which calls Eigen and is not modelled. -/
def globalInterpolation (solve : List (List K) → List (List K) → Res (List (List K))) (degree : ℤ) (throughPoints : List (XYZ K))
    (params : List K) : Res (NurbsCurve K) := do
  validate (decide (degree ≥ 0) && decide (degree ≤ nurbsMaxDegree))
  validate (decide ((throughPoints.length : ℤ) > degree))
  validate (decide (params.length = throughPoints.length))
  let size := throughPoints.length
  let knotVector ← averageKnotVector degree params
  let A ← interpolationMatrix degree size knotVector params
  let right := throughPoints.map fun q => [q.x, q.y, q.z]
  let result ← solve A right
  let cps ← forI 0 result.length (List.replicate size (⟨0, 0, 0, 0⟩ : XYZW K)) fun i cps => do
    let x ← mget result i 0
    let y ← mget result i 1
    let z ← mget result i 2
    vset cps i ⟨x * 1, y * 1, z * 1, 1⟩
  ok { degree := degree, knots := knotVector, cps := cps }
end

noncomputable section

/-- segment lengths of a polyline -/
def segmentLengths (pts : List (XYZ ℝ)) : Res (List ℝ) :=
  forI 1 pts.length [] fun i segs => do
    let a ← vget pts i
    let b ← vget pts (i - 1)
    ok (segs ++ [a.distance b])

/-- `Interpolation::GetTotalChordLength`, Algorithm/Interpolation.cpp:40-49. -/
def getTotalChordLength (pts : List (XYZ ℝ)) : Res ℝ :=
  forI 1 ((pts.length : ℤ) - 1 + 1) 0 fun i length => do
    let a ← vget pts i
    let b ← vget pts (i - 1)
    ok (length + a.distance b)

/-- `Interpolation::GetChordParameterization`, Algorithm/Interpolation.cpp:51-93. -/
def getChordParameterization (pts : List (XYZ ℝ)) : Res (List ℝ) :=
  if pts.length = 0 then ok []
  else do
    let segs ← segmentLengths pts
    parameterization segs

/-- `Interpolation::GetCentripetalParameterization`, Algorithm/Interpolation.cpp:108-152. -/
def getCentripetalParameterization (pts : List (XYZ ℝ)) : Res (List ℝ) :=
  if pts.length = 0 then ok []
  else do
    let segs ← segmentLengths pts
    parameterization (segs.map Real.sqrt)

/-- `GlobalInterpolation` with empty `params`: chord parameters are used. -/
def globalInterpolationChord (solve : List (List ℝ) → List (List ℝ) → Res (List (List ℝ))) (degree : ℤ) (pts : List (XYZ ℝ)) :
    Res (NurbsCurve ℝ) := do
  validate (decide (degree ≥ 0) && decide (degree ≤ nurbsMaxDegree))
  validate (decide ((pts.length : ℤ) > degree))
  let uk ← getChordParameterization pts
  globalInterpolation solve degree pts uk
end
end LNLib
