import Verif.Spec.Curve
import Mathlib.Algebra.Polynomial.Derivative

/-!
# Specification: derivatives of the basis functions (no reference to the model)
-/

namespace LNLib.Spec
open Polynomial

variable {K : Type} [Field K]

/-- The Cox–de Boor recursion with a polynomial variable: the polynomial that the basis function of
degree `p` and index `i` is equal to on the knot span `s`.  Its `k`-th derivative is Mathlib's
`Polynomial.derivative^[k]`. -/
noncomputable def NspanP (U : ℕ → K) (s : ℕ) : ℕ → ℕ → K[X]
  | 0, i => if i = s then 1 else 0
  | p + 1, i =>
      C ((U (i + p + 1) - U i)⁻¹) * (X - C (U i)) * NspanP U s p i
        + C ((U (i + p + 2) - U (i + 1))⁻¹) * (C (U (i + p + 2)) - X) * NspanP U s p (i + 1)

/-- the `k`-th derivative at `t` of the basis function of degree `p` and index `i` on span `s` -/
noncomputable def dN (U : ℕ → K) (s p i k : ℕ) (t : K) : K := ((derivative^[k]) (NspanP U s p i)).eval t

/-- The `k`-th derivative at `t` of `∑ᵢ N_{i,p} Pᵢ`, `t` in span `s` (at a knot: from the right; at
the right end of the domain: from the left). -/
noncomputable def curveDeriv {T : Type} [AddCommGroup T] [Module K T] (U : ℕ → K) (s p n : ℕ) (P : ℕ → T) (k : ℕ) (t : K) : T :=
  ∑ i ∈ Finset.range (n + 1), dN U s p i k t • P i

end LNLib.Spec
