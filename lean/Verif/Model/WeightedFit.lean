import Verif.Model.BasisDers
import Verif.Model.Interp
import Verif.Model.Volume

/-!
# Weighted and constrained least squares approximation (/repo/src/LNLib/Geometry/Curve/NurbsCurve.cpp:2432-2636)

Simplifications: the tables `N`, `M`, `S`, `T` and `W_vec`, allocated in advance and filled from the front, are lists to which rows are
appended (`mu_idx` and `mc_idx` are their lengths; each row is counted in `mu` or `mc`, so no write is out of bounds). `order` is the answer of
`std::sort` for the tangents. The tables `W`, `tN`, `S_mat`, `A` and `B` are written down entry by entry instead of being filled by loops.
-/

namespace LNLib
open Res

section
variable {K : Type} [Field K] [LinearOrder K]

/-- `N`, `W_vec`, `S`, `M` and `T`, Geometry/Curve/NurbsCurve.cpp:2484-2488. -/
structure FitRows (K : Type) where
  N : List (List K)
  W : List K
  S : List (XYZ K)
  M : List (List K)
  T : List (XYZ K)

/-- `for (int k = 0; k <= degree; ++k) { int col = start + k; if (...) row[col] = value[k]; }` on a row of zeros,
Geometry/Curve/NurbsCurve.cpp:2504-2509, 2518-2523, 2538-2543 and 2549-2554. -/
def fitRow (degree start count : ℤ) (value : ℤ → Res K) : Res (List K) :=
  forI 0 (degree + 1) (List.replicate count.toNat (0 : K)) fun k row =>
    if start + k ≥ 0 ∧ start + k < count then do
      let b ← value k
      vset row (start + k) b
    else ok row

/-- One row: to `N`, `W_vec` and `S` if the weight is positive, to `M` and `T` if it is negative, else nothing,
Geometry/Curve/NurbsCurve.cpp:2500-2526 and 2537-2557. -/
def fitAdd (w : K) (q : XYZ K) (makeRow : Res (List K)) (rows : FitRows K) : Res (FitRows K) :=
  if isGreaterThan w 0 then do
    let r ← makeRow
    ok { rows with N := rows.N ++ [r], W := rows.W ++ [w], S := rows.S ++ [w • q] }
  else if isLessThan w 0 then do
    let r ← makeRow
    ok { rows with M := rows.M ++ [r], T := rows.T ++ [q] }
  else ok rows

/-- `hasTangent`, Geometry/Curve/NurbsCurve.cpp:2494-2495. -/
def fitHasTangent (tangents : List (XYZ K)) (indices order : List ℤ) (i next : ℤ) : Res Bool :=
  if next < tangents.length then do
    let o ← vget order next
    let j ← vget indices o
    ok (decide (j = i))
  else ok false

/-- The loop over the points, Geometry/Curve/NurbsCurve.cpp:2493-2560. The second component of the state is `tan_order_idx`. -/
def fitLoop (degree count : ℤ) (pts : List (XYZ K)) (weights : List K) (tangents : List (XYZ K)) (indices : List ℤ) (tangentWeights : List K)
    (order : List ℤ) (kv uk : List K) : Res (FitRows K × ℤ) :=
  forI 0 pts.length ((⟨[], [], [], [], []⟩ : FitRows K), (0 : ℤ)) fun i st => do
    let hasTangent ← fitHasTangent tangents indices order i st.2
    let u ← vget uk i
    let span ← getKnotSpanIndex degree kv u
    let wp ← vget weights i
    let q ← vget pts i
    let rows ← fitAdd wp q (do
      let basis ← basisFunctions span degree kv u (List.replicate (degree + 1).toNat (some 0))
      fitRow degree (span - degree) count fun k => aget basis k) st.1
    if hasTangent then do
      let o ← vget order st.2
      let d ← vget tangents o
      let wt ← vget tangentWeights o
      let ders ← basisFunctionsDerivatives span degree 1 kv u
      let rows ← fitAdd wt d (fitRow degree (span - degree) count fun k => mget ders 1 k) rows
      ok (rows, st.2 + 1)
    else ok (rows, st.2)

/-- The matrix `W`, Geometry/Curve/NurbsCurve.cpp:2564-2567. -/
def fitDiagonal (W : List K) : List (List K) :=
  (List.range W.length).map fun i => (List.range W.length).map fun j => if i = j then W.getD i 0 else 0

/-- The matrices `tN` and `tM`, Geometry/Curve/NurbsCurve.cpp:2569-2572 and 2593-2596. -/
def fitTranspose (count : ℕ) (N : List (List K)) : List (List K) :=
  (List.range count).map fun i => (List.range N.length).map fun j => (N.getD j []).getD i 0

/-- `S_mat`, Geometry/Curve/NurbsCurve.cpp:2577-2582. -/
def fitPoints (S : List (XYZ K)) : List (List K) := S.map fun q => [q.x, q.y, q.z]

/-- The blocks of `A`, Geometry/Curve/NurbsCurve.cpp:2598-2612. -/
def fitBlocks (count : ℕ) (tNWN M : List (List K)) : List (List K) :=
  (List.zipWith (fun a b => a ++ b) tNWN (fitTranspose count M)) ++ M.map fun r => r ++ List.replicate M.length 0

/-- The system handed to the solver, without and with constraints, Geometry/Curve/NurbsCurve.cpp:2585-2586 and 2598-2624. -/
def fitSystem (solve : List (List K) → List (List K) → Res (List (List K))) (count mc : ℕ) (tNWN tNWS : List (List K)) (rows : FitRows K) : Res (List (List K)) :=
  if mc = 0 then solve tNWN tNWS else solve (fitBlocks count tNWN rows.M) (tNWS ++ fitPoints rows.T)

/-- `controlPoints[i] = XYZW(XYZ(result[i][0], result[i][1], result[i][2]), 1.0)`, Geometry/Curve/NurbsCurve.cpp:2589-2591 and 2628-2630. -/
def fitControl (count : ℕ) (X : List (List K)) : Res (List (XYZW K)) :=
  mapR (fun i : ℕ => do
    let x ← mget X i 0
    let y ← mget X i 1
    let z ← mget X i 2
    ok (XYZW.ofXYZ ⟨x, y, z⟩ 1)) (List.range count)

/-- The size test of the answer of the solver, Geometry/Curve/NurbsCurve.cpp:2587 and 2625. -/
def fitSized (size : ℕ) (X : List (List K)) : Bool := decide (X.length = size ∧ (0 < size → (X.headD []).length = 3))

/-- `NurbsCurve::WeightedAndContrainedLeastSquaresApproximation`, Geometry/Curve/NurbsCurve.cpp:2432-2636, with the chord parameters as `uk`.
`none` is the answer `false`. `solve` is `MathUtils::SolveLinearSystem` (Eigen, not modelled). `derivatives.size() < 2` never holds. -/
def weightedFit [FloorRing K] (solve : List (List K) → List (List K) → Res (List (List K))) (degree : ℤ) (pts : List (XYZ K)) (weights : List K)
    (tangents : List (XYZ K)) (indices : List ℤ) (tangentWeights : List K) (order : List ℤ) (count : ℤ) (uk : List K) : Res (Option (NurbsCurve K)) := do
  validate (decide (degree > 0))
  validate (decide ((pts.length : ℤ) > degree))
  validate (decide (weights.length = pts.length))
  validate (decide (indices.length = tangents.length))
  validate (decide (tangentWeights.length = tangents.length))
  validate (indices.all fun i => decide (0 ≤ i ∧ i < pts.length))
  let mu := weights.countP (fun w => isGreaterThan w 0) + tangentWeights.countP (fun w => isGreaterThan w 0)
  let mc := weights.countP (fun w => isLessThan w 0) + tangentWeights.countP (fun w => isLessThan w 0)
  if mu = 0 ∨ (mc : ℤ) > count - 1 ∨ count ≤ 0 then ok none
  else do
    let kv ← computeKnotVector degree count uk
    let st ← fitLoop degree count pts weights tangents indices tangentWeights order kv uk
    let rows := st.1
    if rows.N.length ≠ mu ∨ rows.M.length ≠ mc then ok none
    else do
      let tNW ← matrixMultiply (fitTranspose count.toNat rows.N) (fitDiagonal rows.W)
      let tNWN ← matrixMultiply tNW rows.N
      let tNWS ← matrixMultiply tNW (fitPoints rows.S)
      let X ← fitSystem solve count.toNat mc tNWN tNWS rows
      if fitSized (count.toNat + mc) X then do
        let cps ← fitControl count.toNat X
        ok (some { degree := degree, knots := kv, cps := cps })
      else ok none

end

noncomputable section

/-- The same with the chord parameters, Geometry/Curve/NurbsCurve.cpp:2480; here they are computed before the arguments are tested. -/
def weightedFitChord (solve : List (List ℝ) → List (List ℝ) → Res (List (List ℝ))) (degree : ℤ) (pts : List (XYZ ℝ)) (weights : List ℝ)
    (tangents : List (XYZ ℝ)) (indices : List ℤ) (tangentWeights : List ℝ) (order : List ℤ) (count : ℤ) : Res (Option (NurbsCurve ℝ)) := do
  let uk ← getChordParameterization pts
  weightedFit solve degree pts weights tangents indices tangentWeights order count uk

end
end LNLib
