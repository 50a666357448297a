import Verif.Model.DiffGeom

/-!
# Torsion of a curve (over `ℝ`)

All paths are relative to /repo/src/LNLib.
-/

namespace LNLib
open Res

noncomputable section

/-- `NurbsCurve::Torsion`, Geometry/Curve/NurbsCurve.cpp:422-447. -/
def NurbsCurve.torsion (c : NurbsCurve ℝ) (t : ℝ) : Res ℝ := do
  let a ← vget c.knots 0
  let b ← vget c.knots ((c.knots.length : ℤ) - 1)
  validateRange t a b
  let ders ← NurbsCurve.rationalDerivatives c 3 t
  let tangent ← vget ders 1
  let der2 ← vget ders 2
  let der3 ← vget ders 3
  if isAlmostEqualTo tangent.length 1 then
    fdiv ((tangent.cross der2).dot der3) (der2.dot der2)
  else
    fdiv ((tangent.cross der2).dot der3) ((tangent.cross der2).dot (tangent.cross der2))

end

end LNLib
