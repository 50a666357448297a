import Verif.Spec.Curve
import Verif.Spec.Loft

/-!
# Placing a profile along a trajectory
-/

namespace LNLib.Spec
open LNLib Finset

/-- the `k`-th Greville abscissa: the mean of `q` consecutive knots -/
def greville {K : Type} [Field K] (U : ℕ → K) (q k : ℕ) : K := (∑ i ∈ range q, U (k + 1 + i)) / q

/-- the point whose coordinates in the frame with origin `o` and axes `x`, `y`, `z` are those of `a` -/
def framePoint {K : Type} [Field K] (o x y z a : XYZ K) : XYZ K := o + a.x • x + a.y • y + a.z • z

end LNLib.Spec
