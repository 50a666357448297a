import Verif.Model.Surface

/-!
# Model of the grid triangulation, Geometry/Surface/NurbsSurface.cpp

All paths are relative to /repo/src/LNLib.  The Delaunay branch of `Triangulate` is in Model/Delaunay.lean.
-/

namespace LNLib
open Res

/-- `UV`, include/UV.h -/
structure UV (K : Type) where
  u : K
  v : K
  deriving DecidableEq, Repr

/-- `LN_Mesh`, include/LNObject.h:73-81.  (`Normals` and `NormalIndices` stay empty in `Triangulate`.) -/
structure Mesh (K : Type) where
  vertices : List (XYZ K)
  faces : List (List ℤ)
  uvs : List (UV K)
  uvIndices : List ℤ
  deriving DecidableEq, Repr

section
variable {K : Type} [Field K] [LinearOrder K]

instance : Zero (UV K) := ⟨⟨0, 0⟩⟩

/-- `NurbsSurface::Triangulate` with `useDelaunay = false`, Geometry/Surface/NurbsSurface.cpp:3889-3938.  `int` products do not overflow in the model.
A negative resolution makes the vector constructor throw `std::length_error`; the model gives `ub` there. -/
def triangulateGrid (c : NurbsSurface K) (resolutionU resolutionV : ℤ) : Res (Mesh K) := do
  if resolutionU < 0 ∨ resolutionV < 0 then ub
  else do
    let points := List.replicate resolutionU.toNat (List.replicate resolutionV.toNat (0 : XYZ K))
    let uvs := List.replicate resolutionU.toNat (List.replicate resolutionV.toNat (0 : UV K))
    let (points, uvs) ← forI 0 resolutionU (points, uvs) fun i (points, uvs) => do
      let u ← fdiv (i : K) ((resolutionU - 1 : ℤ) : K)
      forI 0 resolutionV (points, uvs) fun j (points, uvs) => do
        let v ← fdiv (j : K) ((resolutionV - 1 : ℤ) : K)
        let p ← NurbsSurface.pointOnSurface c u v
        let points ← mset points i j p
        let uvs ← mset uvs i j ⟨u, v⟩
        ok (points, uvs)
    let (vs, us) ← forI 0 resolutionU (([] : List (XYZ K)), ([] : List (UV K))) fun i st =>
      forI 0 resolutionV st fun j (vs, us) => do
        let p ← mget points i j
        let x ← mget uvs i j
        ok (vs ++ [p], us ++ [x])
    let (faces, uvIndices) ← forI 0 (resolutionU - 1) (([] : List (List ℤ)), ([] : List ℤ)) fun i st =>
      forI 0 (resolutionV - 1) st fun j (faces, uvIndices) =>
        let idx0 := i * resolutionV + j
        let idx1 := i * resolutionV + j + 1
        let idx2 := (i + 1) * resolutionV + j
        let idx3 := (i + 1) * resolutionV + j + 1
        let faces := faces ++ [[idx0, idx1, idx2]]
        let uvIndices := uvIndices ++ [idx0] ++ [idx1] ++ [idx2]
        let faces := faces ++ [[idx1, idx3, idx2]]
        let uvIndices := uvIndices ++ [idx1] ++ [idx3] ++ [idx2]
        ok (faces, uvIndices)
    ok { vertices := vs, faces := faces, uvs := us, uvIndices := uvIndices }

end
end LNLib
