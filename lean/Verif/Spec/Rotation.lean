import Verif.Model.GeomReal

/-!
# Specification: rotation about an axis
-/

namespace LNLib.Spec

/-- the rotation by the angle `θ` about the line through `o` with the unit direction `k` (Rodrigues' formula) -/
noncomputable def rotateAbout (o k : XYZ ℝ) (θ : ℝ) (p : XYZ ℝ) : XYZ ℝ :=
  o + Real.cos θ • (p - o) + Real.sin θ • k.cross (p - o) + ((1 - Real.cos θ) * k.dot (p - o)) • k

/-- the vector from the nearest point of the line through `o` with the unit direction `k` to `p` -/
noncomputable def radial (o k p : XYZ ℝ) : XYZ ℝ := (p - o) - k.dot (p - o) • k

end LNLib.Spec
