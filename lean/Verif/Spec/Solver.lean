import Verif.Core.Vec
import Mathlib.Algebra.BigOperators.Group.Finset.Basic
import Mathlib.Algebra.Field.Defs

/-!
# What is assumed of the linear solver

`MathUtils::SolveLinearSystem` (/repo/src/LNLib/Mathematics/Utils/MathUtils.cpp:258-289) hands the system to Eigen and is not modelled. The
functions that use it take it as a parameter, and the theorems about them assume only that what it returns solves the system.
-/

namespace LNLib.Spec
open LNLib Res

/-- Whenever the solver returns something for a square system `A X = B` of any size and any number of right-hand sides, it is a table of
the right size that solves the system. Nothing is assumed about when it returns. -/
def SoundSolver {K : Type} [Field K] (solve : List (List K) → List (List K) → Res (List (List K))) : Prop :=
  ∀ (s d : ℕ) (A B X : List (List K)), IsMat A s s → IsMat B s d → solve A B = ok X →
    IsMat X s d ∧ ∀ i j, i < s → j < d → ∑ k ∈ Finset.range s, ent A i k * ent X k j = ent B i j

end LNLib.Spec

namespace LNLib.Spec
open LNLib Res

/-- What is assumed of `MathUtils::MakeInverse` (/repo/src/LNLib/Mathematics/Utils/MathUtils.cpp:200-229, also Eigen): whatever it returns for a square matrix `A` of any
size is a matrix `X` of the same size with `A X = 1`. Nothing is assumed about when it returns. -/
def SoundInverse {K : Type} [Field K] (inverse : List (List K) → Res (List (List K))) : Prop :=
  ∀ (s : ℕ) (A X : List (List K)), IsMat A s s → inverse A = ok X →
    IsMat X s s ∧ ∀ i j, i < s → j < s → ∑ k ∈ Finset.range s, ent A i k * ent X k j = if i = j then 1 else 0

end LNLib.Spec
