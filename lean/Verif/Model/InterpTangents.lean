import Verif.Model.Interp
import Verif.Model.BasisDers

/-!
# Model of global interpolation with prescribed tangents, Geometry/Curve/NurbsCurve.cpp

All paths are relative to /repo/src/LNLib.
-/

namespace LNLib
open Res

section
variable {K : Type} [Field K] [LinearOrder K]

/-- `knotVector[i] = 0.0; knotVector[knotVector.size() - 1 - i] = 1.0;` for `i = 0 … degree`, Geometry/Curve/NurbsCurve.cpp:2126-2130 and
2139-2143. -/
def clampKnots (degree : ℤ) (kv : List K) : Res (List K) :=
  forI 0 (degree + 1) kv fun i kv => do
    let kv ← vset kv i 0
    vset kv ((kv.length : ℤ) - 1 - i) 1

/-- The knots for degree 2, Geometry/Curve/NurbsCurve.cpp:2126-2135. -/
def tangentKnots2 (size : ℤ) (uk kv : List K) : Res (List K) := do
  let kv ← clampKnots 2 kv
  forI 0 (size - 1) kv fun i kv => do
    let x ← vget uk i
    let kv ← vset kv (2 + 2 * i) x
    let y ← vget uk (i + 1)
    vset kv (2 + 2 * i + 1) y

/-- The knots for degree 3, Geometry/Curve/NurbsCurve.cpp:2139-2152. -/
def tangentKnots3 (size : ℤ) (uk kv : List K) : Res (List K) := do
  let kv ← clampKnots 3 kv
  let x ← vget uk 1
  let kv ← vset kv 4 x
  let kv ← vset kv 5 x
  let kv ← forI 1 (size - 2) kv fun i kv => do
    let x ← vget uk (i + 1)
    let kv ← vset kv (3 + 2 * i) x
    vset kv (3 + 2 * i + 1) x
  let x ← vget uk (size - 2)
  let kv ← vset kv ((kv.length : ℤ) - 6) x
  vset kv ((kv.length : ℤ) - 5) x

/-- `ukExtended`: the parameters, the midpoints between them, and the last parameter repeated up to the length `n`,
Geometry/Curve/NurbsCurve.cpp:2156-2166. -/
def extendedParams (size : ℤ) (n : ℕ) (uk : List K) : Res (List K) := do
  let ext ← forI 0 size ([] : List K) fun i ext => do
    let x ← vget uk i
    if i < size - 1 then do
      let y ← vget uk (i + 1)
      ok (ext ++ [x] ++ [(x + y) / 2])
    else ok (ext ++ [x])
  let last ← vget uk ((uk.length : ℤ) - 1)
  ok (ext ++ List.replicate (n - ext.length) last)

/-- The knot vector, Geometry/Curve/NurbsCurve.cpp:2119-2168. -/
def tangentKnots (degree : ℤ) (size : ℕ) (uk : List K) : Res (List K) :=
  if degree = 2 then tangentKnots2 size uk (List.replicate (2 * size + 3) 0)
  else if degree = 3 then tangentKnots3 size uk (List.replicate (2 * size + 4) 0)
  else do
    let ext ← extendedParams size (2 * size) uk
    averageKnotVector degree ext

/-- One round of the loop that fills the matrix (the right-hand side is `tangentRight`), Geometry/Curve/NurbsCurve.cpp:2175-2191. -/
def tangentRows (degree : ℤ) (size : ℕ) (kv uk : List K) (i : ℤ) (A : List (List K)) : Res (List (List K)) := do
  let u ← vget uk i
  let span ← getKnotSpanIndex degree kv u
  let basis ← basisFunctions span degree kv u (uninit K 8)
  let der ← basisFunctionsDerivatives span degree 1 kv u
  forI 0 (degree + 1) A fun j A =>
    let col := span - degree + j
    if col ≥ 0 ∧ col < 2 * (size : ℤ) then do
      let b ← aget basis j
      let A ← mset A (2 * i) col b
      let d ← mget der 1 j
      mset A (2 * i + 1) col d
    else ok A

/-- The matrix of the linear system, Geometry/Curve/NurbsCurve.cpp:2170-2191. -/
def tangentMatrix (degree : ℤ) (size : ℕ) (kv uk : List K) : Res (List (List K)) :=
  forI 0 size (List.replicate (2 * size) (List.replicate (2 * size) (0 : K))) (tangentRows degree size kv uk)

/-- The right-hand side: points in the even rows, scaled tangents in the odd ones, Geometry/Curve/NurbsCurve.cpp:2193-2201. -/
def tangentRight (size : ℕ) (pts tans : List (XYZ K)) (factor : K) : List (List K) :=
  (List.range (2 * size)).map fun r =>
    let v := if r % 2 = 0 then nth pts (r / 2) else nth tans (r / 2)
    if r % 2 = 0 then [v.x, v.y, v.z] else [v.x * factor, v.y * factor, v.z * factor]

/-- `NurbsCurve::GlobalInterpolation(degree, throughPoints, tangents, tangentFactor, curve)`, Geometry/Curve/NurbsCurve.cpp:2107-2218, with
the chord parameters as `params`.  `solve` is `MathUtils::SolveLinearSystem` (Eigen, not modelled); the `std::runtime_error` thrown when
its answer has the wrong size is reported as `invalidArg`. -/
def globalInterpolationTangents (solve : List (List K) → List (List K) → Res (List (List K))) (degree : ℤ) (pts tans : List (XYZ K))
    (factor : K) (params : List K) : Res (NurbsCurve K) := do
  validate (decide (degree > 0))
  validate (decide (pts.length = tans.length))
  validate (decide ((pts.length : ℤ) > degree))
  validate (isGreaterThan factor 0)
  let kv ← tangentKnots degree pts.length params
  let A ← tangentMatrix degree pts.length kv params
  let result ← solve A (tangentRight pts.length pts tans factor)
  validate (decide (result.length = 2 * pts.length) && decide ((row result 0).length = 3))
  let cps ← forI 0 (2 * (pts.length : ℤ)) (List.replicate (2 * pts.length) (⟨0, 0, 0, 0⟩ : XYZW K)) fun i cps => do
    let x ← mget result i 0
    let y ← mget result i 1
    let z ← mget result i 2
    vset cps i ⟨x * 1, y * 1, z * 1, 1⟩
  ok { degree := degree, knots := kv, cps := cps }

end

noncomputable section

/-- The same with its parameters: the chord parameters of the points, Geometry/Curve/NurbsCurve.cpp:2107-2122. -/
def globalInterpolationTangentsChord (solve : List (List ℝ) → List (List ℝ) → Res (List (List ℝ))) (degree : ℤ) (pts tans : List (XYZ ℝ))
    (factor : ℝ) : Res (NurbsCurve ℝ) := do
  validate (decide (degree > 0))
  validate (decide (pts.length = tans.length))
  validate (decide ((pts.length : ℤ) > degree))
  validate (isGreaterThan factor 0)
  let uk ← getChordParameterization pts
  globalInterpolationTangents solve degree pts tans factor uk

end

end LNLib
