import Verif.Spec.Surface
import Verif.Model.GeomReal

/-!
# Chord-length parameters of lofted sections (The NURBS Book, eq. 10.8)
-/

namespace LNLib.Spec
open LNLib Finset

noncomputable section

/-- the length of the polygon through the `i`-th control points of the sections `0, …, k` -/
def columnChord (c : ℕ → NurbsCurve ℝ) (i k : ℕ) : ℝ :=
  ∑ j ∈ range k, (proj (nth (c (j + 1)).cps i)).distance (proj (nth (c j).cps i))

/-- the parameter of section `k` among the sections `0, …, m` with `n + 1` control points each: the fraction of the polygon length that
lies before section `k`, averaged over the columns of control points -/
def loftParameter (c : ℕ → NurbsCurve ℝ) (m n k : ℕ) : ℝ :=
  1 / ((n : ℝ) + 1) * ∑ i ∈ range (n + 1), columnChord c i k / columnChord c i m

end
end LNLib.Spec
