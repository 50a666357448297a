import Verif.Model.Interp
import Verif.Model.Surface
import Verif.Model.Tangent

/-!
# Model of the global interpolation of Geometry/Surface/NurbsSurface.cpp

All paths are relative to /repo/src/LNLib.
-/

namespace LNLib
open Res

section
variable {K : Type} [Field K] [LinearOrder K]

/-- The matrix of `NurbsSurface::GlobalInterpolation`, Geometry/Surface/NurbsSurface.cpp:2171-2212. -/
def surfaceSystem (rows cols : ℕ) (degreeU degreeV : ℤ) (knotVectorU knotVectorV uk vl : List K) : Res (List (List K)) :=
  let total := rows * cols
  forI 0 rows (List.replicate total (List.replicate total (0 : K))) fun i A =>
    forI 0 cols A fun j A => do
      let eqIdx := i * cols + j
      if (i = 0 ∨ i = (rows : ℤ) - 1) ∧ (j = 0 ∨ j = (cols : ℤ) - 1) then mset A eqIdx eqIdx 1
      else do
        let u ← vget uk j
        let v ← vget vl i
        let spanU ← getKnotSpanIndex degreeU knotVectorU u
        let spanV ← getKnotSpanIndex degreeV knotVectorV v
        let basisU ← basisFunctions spanU degreeU knotVectorU u (uninit K 8)
        let basisV ← basisFunctions spanV degreeV knotVectorV v (uninit K 8)
        forI 0 (degreeV + 1) A fun l A =>
          let ctrlRow := spanV - degreeV + l
          if ctrlRow < 0 ∨ ctrlRow ≥ rows then ok A
          else forI 0 (degreeU + 1) A fun k A =>
            let ctrlCol := spanU - degreeU + k
            if ctrlCol < 0 ∨ ctrlCol ≥ cols then ok A
            else do
              let bv ← aget basisV l
              let bu ← aget basisU k
              mset A eqIdx (ctrlRow * cols + ctrlCol) (bv * bu)

/-- The rest of `NurbsSurface::GlobalInterpolation` once the parameters are known, Geometry/Surface/NurbsSurface.cpp:2167-2235.
`solve` is `MathUtils::SolveLinearSystem` (Eigen), which is not modelled. The right-hand side is built row by row. -/
def surfaceInterpolationWith (solve : List (List K) → List (List K) → Res (List (List K))) (throughPoints : List (List (XYZ K)))
    (rows cols : ℕ) (degreeU degreeV : ℤ) (uk vl : List K) : Res (NurbsSurface K) := do
  let knotVectorU ← averageKnotVector degreeU uk
  let knotVectorV ← averageKnotVector degreeV vl
  let A ← surfaceSystem rows cols degreeU degreeV knotVectorU knotVectorV uk vl
  let right ← forI 0 rows (List.replicate (rows * cols) (List.replicate 3 (0 : K))) fun i right =>
    forI 0 cols right fun j right => do
      let q ← mget throughPoints i j
      vset right (i * cols + j) [q.x, q.y, q.z]
  let result ← solve A right
  let cps ← forI 0 rows (List.replicate rows (List.replicate cols (0 : XYZW K))) fun i cps =>
    forI 0 cols cps fun j cps => do
      let x ← mget result (i * cols + j) 0
      let y ← mget result (i * cols + j) 1
      let z ← mget result (i * cols + j) 2
      mset cps i j (XYZW.ofXYZ ⟨x, y, z⟩ 1)
  ok { degreeU := degreeU, degreeV := degreeV, knotsU := knotVectorU, knotsV := knotVectorV, cps := cps }

end

noncomputable section

/-- `NurbsSurface::GlobalInterpolation`, Geometry/Surface/NurbsSurface.cpp:2147-2235. The boolean result of
`GetSurfaceMeshParameterization` is not looked at. -/
def surfaceInterpolation (solve : List (List ℝ) → List (List ℝ) → Res (List (List ℝ))) (throughPoints : List (List (XYZ ℝ)))
    (degreeU degreeV : ℤ) : Res (NurbsSurface ℝ) := do
  validate (decide (throughPoints.length > 0))
  let row0 ← vget throughPoints 0
  validate (decide (row0.length > 0))
  validate (decide (degreeU ≥ 0) && decide (degreeU ≤ nurbsMaxDegree))
  validate (decide (degreeV ≥ 0) && decide (degreeV ≤ nurbsMaxDegree))
  let rows := throughPoints.length
  let cols := row0.length
  validate (decide ((cols : ℤ) > degreeU))
  validate (decide ((rows : ℤ) > degreeV))
  let (_, uk, vl) ← getSurfaceMeshParameterization throughPoints [] []
  surfaceInterpolationWith solve throughPoints rows cols degreeU degreeV uk vl

end
end LNLib
