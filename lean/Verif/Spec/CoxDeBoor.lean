import Verif.Core.Vec

/-!
# Specification: B-spline basis functions (no reference to the model)

Knot vectors are functions `U : ℕ → K`; only the first `m+1` values of a concrete knot vector matter.
-/

namespace LNLib.Spec

variable {K : Type} [Field K] [LinearOrder K]

/-- The Cox–de Boor recursion (The NURBS Book, eq. 2.5) for the basis function of degree `p` and
index `i` at `t`.  `b` is the right end of the domain: at `t = b` the (half-open) spans of the
recursion are taken to be closed on the right, so that the basis is also defined there.  Lean's `x / 0 = 0` is the book's `0/0 = 0`
convention (whenever a denominator vanishes, the basis function it multiplies is zero). -/
def N (U : ℕ → K) (b : K) : ℕ → ℕ → K → K
  | 0, i, t =>
      if (t ≠ b ∧ U i ≤ t ∧ t < U (i + 1)) ∨ (t = b ∧ U i < U (i + 1) ∧ U (i + 1) = b) then 1 else 0
  | p + 1, i, t =>
      (t - U i) / (U (i + p + 1) - U i) * N U b p i t
        + (U (i + p + 2) - t) / (U (i + p + 2) - U (i + 1)) * N U b p (i + 1) t

/-- `s` is the span of `t` for degree `p` and last control point index `n`. -/
def IsSpan (U : ℕ → K) (p n : ℕ) (t : K) (s : ℕ) : Prop :=
  p ≤ s ∧ s ≤ n ∧ U s < U (s + 1) ∧ U s ≤ t ∧ (t < U (s + 1) ∨ (t = U (s + 1) ∧ U (s + 1) = U (n + 1)))

/-- The polynomial piece of the basis function of degree `p`, index `i`, on span `s`: the same
recursion started from the indicator of span `s`. -/
def Nspan {K : Type} [Field K] (U : ℕ → K) (s : ℕ) : ℕ → ℕ → K → K
  | 0, i, _ => if i = s then 1 else 0
  | p + 1, i, t =>
      (t - U i) / (U (i + p + 1) - U i) * Nspan U s p i t
        + (U (i + p + 2) - t) / (U (i + p + 2) - U (i + 1)) * Nspan U s p (i + 1) t

end LNLib.Spec
