import Verif.Model.GeomReal

/-!
# Specification: conic arcs
-/

namespace LNLib.Spec

/-- the conic arc from `A` to `B` with the tangents meeting in `P` and the weight `w` of that point, at the parameter `u` of
`[0, 1]` (The NURBS Book, eq. 7.2): an arc of an ellipse, a parabola or a hyperbola for `w < 1`, `w = 1`, `w > 1` -/
noncomputable def conicPoint (A P B : XYZ ℝ) (w u : ℝ) : XYZ ℝ :=
  ((1 - u) ^ 2 + 2 * u * (1 - u) * w + u ^ 2)⁻¹ • ((1 - u) ^ 2 • A + (2 * u * (1 - u) * w) • P + u ^ 2 • B)

end LNLib.Spec
