import Verif.Core.Vec
import Verif.Model.Tangent

/-!
# The chords of a list of points
-/

namespace LNLib.Spec
open LNLib

/-- distance between the points `i` and `i + 1` -/
noncomputable def chord (pts : List (XYZ ℝ)) (i : ℕ) : ℝ := (nth pts (i + 1) - nth pts i).length

/-- consecutive points are further apart than the library's comparison tolerance -/
def ApartPoints (pts : List (XYZ ℝ)) : Prop := ∀ i, i + 1 < pts.length → 1 / 1000000 * (1 + chord pts i) < chord pts i

end LNLib.Spec
