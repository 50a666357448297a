import Verif.Core.Vec
import Verif.Model.Curve
import Mathlib.Algebra.BigOperators.Group.Finset.Basic
import Mathlib.Algebra.BigOperators.Intervals
import Mathlib.Algebra.Field.Defs

/-!
# What is assumed of the band solver, and the sum of squared deviations
-/

namespace LNLib.Spec
open LNLib Res

/-- `MathUtils::SolveLinearSystemBanded` (/repo/src/LNLib/Mathematics/Utils/MathUtils.cpp:290-342) hands the system to Eigen and is not
modelled. Row `i` of a band matrix of half width `w` holds the entries of the columns `i - w … i + w`; the entries that would lie
outside the square are ignored. Whenever the solver answers with a table, this table solves the system. Nothing is assumed about when
it does. -/
def SoundBandSolver {K : Type} [Field K] (solve : List (List K) → ℤ → List (List K) → Res (Option (List (List K)))) : Prop :=
  ∀ (s w d : ℕ) (A B X : List (List K)), IsMat A s (2 * w + 1) → IsMat B s d → solve A (2 * (w : ℤ) + 1) B = ok (some X) →
    IsMat X s d ∧ ∀ i j, i < s → j < d →
      ∑ k ∈ Finset.range (2 * w + 1), (if w ≤ i + k ∧ i + k - w < s then ent A i k * ent X (i + k - w) j else 0) = ent B i j

/-- the sum of the squared distances between the points `x 1, …, x (m - 1)` of a curve and the inner data points -/
def squaredDeviation {K : Type} [Field K] (m : ℕ) (pts : List (XYZ K)) (x : ℕ → XYZ K) : K :=
  ∑ k ∈ Finset.Ico 1 m, (x k - nth pts k).sqrLength

end LNLib.Spec
