import Verif.Model.Surface

/-!
# Oriented bounding box of a surface

All paths are relative to /repo/src/LNLib.
-/

namespace LNLib
open Res

variable {K : Type} [Field K] [LinearOrder K]

/-- `LN_OrientedBoundingBox3d`, include/LNObject.h:103-108. -/
structure OrientedBox (K : Type) where
  center : XYZ K
  axes : Fin 3 → XYZ K
  half : Fin 3 → K

/-- coordinate `k` of a point, as in the `std::array<double, 3>` and `Eigen::Vector3d` copies,
Geometry/Surface/NurbsSurface.cpp:408, Mathematics/Utils/MathUtils.cpp:245. -/
def XYZ.coord (p : XYZ K) : Fin 3 → K
  | 0 => p.x
  | 1 => p.y
  | 2 => p.z

/-- The covariance matrix, Mathematics/Utils/MathUtils.cpp:239-248 (`covariance += p * p.transpose()`, then
`covariance /= count`). -/
def covariance (pts : List (XYZ K)) (c : XYZ K) : Fin 3 → Fin 3 → K :=
  let sum := pts.foldl (fun (S : Fin 3 → Fin 3 → K) pt => fun a b => S a b + (pt.coord a - c.coord a) * (pt.coord b - c.coord b)) (fun _ _ => 0)
  fun a b => sum a b / (pts.length : K)

/-- `MathUtils::ComputeOBBAxes`, Mathematics/Utils/MathUtils.cpp:231-256.  The external
`Eigen::SelfAdjointEigenSolver` is the parameter `eigen`: it maps the symmetric matrix to the matrix whose columns
are the eigenvectors. -/
def obbAxes (eigen : (Fin 3 → Fin 3 → K) → Fin 3 → Fin 3 → K) (pts : List (XYZ K)) (c : XYZ K) : Fin 3 → XYZ K :=
  if pts.length = 0 then fun i => ⟨if i = 0 then 1 else 0, if i = 1 then 1 else 0, if i = 2 then 1 else 0⟩
  else
    let V := eigen (covariance pts c)
    fun i => ⟨V 0 i, V 1 i, V 2 i⟩

/-- `NurbsSurface::GetOrientedBoundingBox`, Geometry/Surface/NurbsSurface.cpp:381-440.  `big` is
`std::numeric_limits<double>::max()`.  For an empty net the axes are default constructed (zero). -/
def NurbsSurface.orientedBox (eigen : (Fin 3 → Fin 3 → K) → Fin 3 → Fin 3 → K) (big : K) (c : NurbsSurface K) : Res (OrientedBox K) := do
  if c.cps.length = 0 then ok ⟨0, fun _ => 0, fun _ => 0⟩
  else do
    let r0 ← vget c.cps 0
    if r0.length = 0 then ok ⟨0, fun _ => 0, fun _ => 0⟩
    else do
      let sum := c.cps.foldl (fun (s : XYZ K × ℤ) row => row.foldl (fun (s : XYZ K × ℤ) (q : XYZW K) => (s.1 + q.toXYZ, s.2 + 1)) s) ((0 : XYZ K), (0 : ℤ))
      let centroid ← vdiv sum.1 (sum.2 : K)
      let pts := c.cps.foldl (fun (l : List (XYZ K)) row => row.foldl (fun (l : List (XYZ K)) (q : XYZW K) => l ++ [q.toXYZ]) l) []
      let axes := obbAxes eigen pts centroid
      let ext := c.cps.foldl (fun (s : (Fin 3 → K) × (Fin 3 → K)) row => row.foldl (fun (s : (Fin 3 → K) × (Fin 3 → K)) (q : XYZW K) =>
        (fun i => min (s.1 i) ((q.toXYZ - centroid).dot (axes i)), fun i => max (s.2 i) ((q.toXYZ - centroid).dot (axes i)))) s)
        ((fun _ => big), (fun _ => -big))
      let offset := fun i => (ext.2 i + ext.1 i) / 2
      ok ⟨centroid + offset 0 • axes 0 + offset 1 • axes 1 + offset 2 • axes 2, axes, fun i => (ext.2 i - ext.1 i) / 2⟩

end LNLib
