import Verif.Spec.Surface
import Verif.Model.GeomReal
import Mathlib.Analysis.Calculus.IteratedDeriv.Defs

/-!
# Specification: classical differential geometry

Curves and surfaces are plain functions into `ℝ³`; derivatives are Mathlib's `iteratedDeriv`.
-/

namespace LNLib.Spec

noncomputable section

/-- the `k`-th derivative of a space curve -/
def curveD (C : ℝ → XYZ ℝ) (k : ℕ) (t : ℝ) : XYZ ℝ :=
  ⟨iteratedDeriv k (fun u => (C u).x) t, iteratedDeriv k (fun u => (C u).y) t, iteratedDeriv k (fun u => (C u).z) t⟩

/-- the partial derivative `∂ᵏ/∂uᵏ ∂ˡ/∂vˡ` of a parametrised surface -/
def surfD (S : ℝ → ℝ → XYZ ℝ) (k l : ℕ) (u v : ℝ) : XYZ ℝ :=
  ⟨iteratedDeriv k (fun a => iteratedDeriv l (fun b => (S a b).x) v) u, iteratedDeriv k (fun a => iteratedDeriv l (fun b => (S a b).y) v) u,
   iteratedDeriv k (fun a => iteratedDeriv l (fun b => (S a b).z) v) u⟩

/-- curvature of a space curve: `|C' × C''| / |C'|³` -/
def curvatureOf (C : ℝ → XYZ ℝ) (t : ℝ) : ℝ :=
  ((curveD C 1 t).cross (curveD C 2 t)).length / (curveD C 1 t).length ^ 3

/-- unit normal of a surface -/
def unitNormal (S : ℝ → ℝ → XYZ ℝ) (u v : ℝ) : XYZ ℝ :=
  ((surfD S 1 0 u v).cross (surfD S 0 1 u v)).length⁻¹ • (surfD S 1 0 u v).cross (surfD S 0 1 u v)

/-- determinant of the first fundamental form -/
def detI (S : ℝ → ℝ → XYZ ℝ) (u v : ℝ) : ℝ :=
  (surfD S 1 0 u v).dot (surfD S 1 0 u v) * (surfD S 0 1 u v).dot (surfD S 0 1 u v) - (surfD S 1 0 u v).dot (surfD S 0 1 u v) ^ 2

/-- `det(II - k I)`: its roots are the principal curvatures -/
def charPoly (S : ℝ → ℝ → XYZ ℝ) (u v k : ℝ) : ℝ :=
  ((surfD S 2 0 u v).dot (unitNormal S u v) - k * (surfD S 1 0 u v).dot (surfD S 1 0 u v)) *
    ((surfD S 0 2 u v).dot (unitNormal S u v) - k * (surfD S 0 1 u v).dot (surfD S 0 1 u v)) -
  ((surfD S 1 1 u v).dot (unitNormal S u v) - k * (surfD S 1 0 u v).dot (surfD S 0 1 u v)) ^ 2

end
end LNLib.Spec
