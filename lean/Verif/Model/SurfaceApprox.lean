import Verif.Model.LeastSquares
import Verif.Model.Surface

/-!
# Model of the approximation of a grid of points by a surface, Geometry/Surface/NurbsSurface.cpp

All paths are relative to /repo/src/LNLib.  `fit p points count` stands for the call of
`NurbsCurve::LeastSquaresApproximation(p, points, count, curve)`, `none` for the answer `false`.
-/

namespace LNLib
open Res

section
variable {K : Type} [Field K] [LinearOrder K]

/-- One of the two loops over the rows, Geometry/Surface/NurbsSurface.cpp:2468-2480 and 2487-2499: the control points of the curves and
the knot vector of the first one; `none` for `return false`. -/
def approximateRows (fit : List (XYZ K) → Res (Option (NurbsCurve K))) (rows : List (List (XYZ K))) : Res (Option (List (List (XYZ K)) × List K)) :=
  forI 0 rows.length (some ([], [])) fun i st =>
    match st with
    | none => ok none
    | some (temp, knots) => do
      let row ← vget rows i
      let r ← fit row
      match r with
      | none => ok none
      | some curve => ok (some (temp ++ [curve.cps.map XYZW.toXYZ], if i = 0 then curve.knots else knots))

/-- `ControlPointsUtils::ToXYZW(points)`, Algorithm/ControlPointsUtils.cpp:46-60. -/
def netToXYZW (points : List (List (XYZ K))) : Res (List (List (XYZW K))) := do
  let r0 ← vget points 0
  forI 0 points.length (List.replicate points.length (List.replicate r0.length (⟨0, 0, 0, 0⟩ : XYZW K))) fun i net =>
    forI 0 r0.length net fun j net => do
      let p ← mget points i j
      mset net i j (XYZW.ofXYZ p 1)

/-- `NurbsSurface::GlobalApproximation`, Geometry/Surface/NurbsSurface.cpp:2447-2509. -/
def globalApproximationBy (fit : ℤ → List (XYZ K) → ℤ → Res (Option (NurbsCurve K))) (pts : List (List (XYZ K))) (degreeU degreeV rows columns : ℤ) :
    Res (Option (NurbsSurface K)) := do
  validate (decide (0 < pts.length))
  let r0 ← vget pts 0
  validate (decide (0 < r0.length))
  validate (decide (degreeU > 0 ∧ degreeU ≤ nurbsMaxDegree))
  validate (decide (degreeV > 0 ∧ degreeV ≤ nurbsMaxDegree))
  validate (decide (rows > degreeV))
  validate (decide (columns > degreeU))
  let t ← approximateRows (fun row => fit degreeU row columns) pts
  match t with
  | none => ok none
  | some (temp, knotsU) => do
    let transposed ← transposeM temp []
    let f ← approximateRows (fun row => fit degreeV row rows) transposed
    match f with
    | none => ok none
    | some (final, knotsV) => do
      let net ← transposeM final []
      let cps ← netToXYZW net
      ok (some { degreeU := degreeU, degreeV := degreeV, knotsU := knotsU, knotsV := knotsV, cps := cps })

/-- The least squares approximation with a given parametrisation, Geometry/Curve/NurbsCurve.cpp:2284-2432. -/
def leastSquaresBy [FloorRing K] (solve : List (List K) → ℤ → List (List K) → Res (Option (List (List K)))) (params : List (XYZ K) → Res (List K)) (degree : ℤ)
    (pts : List (XYZ K)) (count : ℤ) : Res (Option (NurbsCurve K)) := do
  validate (decide (degree ≥ 0 ∧ degree ≤ nurbsMaxDegree))
  validate (decide (count > 0))
  let uk ← params pts
  leastSquares solve degree pts count uk

end

/-- The same with the chord parameters, Geometry/Surface/NurbsSurface.cpp:2447-2509. -/
noncomputable def surfaceApproximation (solve : List (List ℝ) → ℤ → List (List ℝ) → Res (Option (List (List ℝ)))) (pts : List (List (XYZ ℝ)))
    (degreeU degreeV rows columns : ℤ) : Res (Option (NurbsSurface ℝ)) :=
  globalApproximationBy (leastSquaresBy solve getChordParameterization) pts degreeU degreeV rows columns

end LNLib
