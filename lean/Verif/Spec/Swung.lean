import Verif.Spec.SweepSections

/-!
# Swung surfaces
-/

namespace LNLib.Spec
open LNLib

/-- the curve with the same control points, all of weight 1 -/
def unweighted {K : Type} [Field K] [LinearOrder K] (c : NurbsCurve K) : NurbsCurve K :=
  { c with cps := c.cps.map fun a => ⟨a.wx / a.w, a.wy / a.w, a.wz / a.w, 1⟩ }

/-- the axis of the first placed profile: orthogonal to the tangent `d`, and to the `y` axis or, unless the `y` component of the tangent is
negligible, to the `x` axis -/
noncomputable def firstAxis (d : XYZ ℝ) : XYZ ℝ :=
  if isAlmostEqualTo d.y 0 then ((⟨0, 1, 0⟩ : XYZ ℝ).cross d).normalize else ((⟨1, 0, 0⟩ : XYZ ℝ).cross d).normalize

/-- the axes of the placed profiles for the tangents `d`: each is the one before, projected to the normal plane of its tangent -/
noncomputable def swungAxis (d : ℕ → XYZ ℝ) : ℕ → XYZ ℝ
  | 0 => firstAxis (d 0)
  | k + 1 => (swungAxis d k - ((swungAxis d k).dot (d (k + 1)).normalize) • (d (k + 1)).normalize).normalize

end LNLib.Spec
