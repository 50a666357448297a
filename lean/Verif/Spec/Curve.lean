import Verif.Spec.CoxDeBoor
import Verif.Model.Geom
import Mathlib.Algebra.BigOperators.Group.Finset.Basic
import Mathlib.Data.Nat.Choose.Sum
import Mathlib.LinearAlgebra.AffineSpace.AffineMap

/-!
# Specification: B-spline and Bézier curves

Independent of the model except for the data types of Model/Geom (points and curve records).
-/

namespace LNLib.Spec
open Finset

variable {K : Type} [Field K] [LinearOrder K]
variable {T : Type} [AddCommGroup T] [Module K T]

/-- `C(t) = ∑ᵢ N_{i,p}(t) Pᵢ` (The NURBS Book, eq. 3.1), `n` = last control point index. -/
def curvePoint (U : ℕ → K) (p n : ℕ) (P : ℕ → T) (t : K) : T :=
  ∑ i ∈ range (n + 1), N U (U (n + 1)) p i t • P i

/-- A curve record that satisfies the documented requirements: degree at least one and at most
the supported maximum, at least `p+1` control points, `m = n + p + 1`, nondecreasing knots. -/
structure WellFormed (c : BsplineCurve K T) (p n : ℕ) : Prop where
  degree : c.degree = p
  pos : 0 < p
  le7 : p ≤ 7
  cps : c.cps.length = n + 1
  pn : p ≤ n
  knots : c.knots.length = n + p + 2
  sorted : ∀ i j, i ≤ j → j < c.knots.length → nth c.knots i ≤ nth c.knots j

/-- The first and the last span of the domain are longer than the library's comparison tolerance
`1e-6 (1 + max(|a|,|b|))`. -/
structure EndsSeparated (U : ℕ → K) (p n : ℕ) : Prop where
  first : U (p + 1) - U p > 1 / 1000000 * (1 + max |U p| |U (p + 1)|)
  last : U (n + 1) - U n > 1 / 1000000 * (1 + max |U n| |U (n + 1)|)

/-- The first `p + 1` knots are equal, and so are the last `p + 1`. -/
structure ClampedEnds (U : ℕ → K) (p n : ℕ) : Prop where
  first : U 0 = U p
  last : U (n + 1) = U (n + p + 1)

/-- `u` is either exactly equal to a knot or further away from it than the library's comparison
tolerance, for every knot of the vector. -/
def KnotSeparated (U : List K) (u : K) : Prop :=
  ∀ x ∈ U, x = u ∨ 1 / 1000000 * (1 + max |u| |x|) < |u - x|

/-- Different values of the list are further apart than twice the library's comparison tolerance. -/
def WellSeparated (l : List K) : Prop :=
  ∀ x ∈ l, ∀ y ∈ l, x = y ∨ 2 / 1000000 * (1 + max |x| |y|) < |x - y|

/-- `C(t) = (∑ᵢ N_{i,p}(t) wᵢ Pᵢ) / (∑ᵢ N_{i,p}(t) wᵢ)` (The NURBS Book, eq. 4.1) from the weighted
control points `(wᵢ xᵢ, wᵢ yᵢ, wᵢ zᵢ, wᵢ)`. -/
def rationalPoint (U : ℕ → K) (p n : ℕ) (P : ℕ → XYZW K) (t : K) : XYZ K :=
  (∑ i ∈ range (n + 1), N U (U (n + 1)) p i t * (P i).w)⁻¹ •
    ∑ i ∈ range (n + 1), N U (U (n + 1)) p i t • (⟨(P i).wx, (P i).wy, (P i).wz⟩ : XYZ K)

/-- the weight function `w(t) = ∑ᵢ N_{i,p}(t) wᵢ` -/
def weightFn (U : ℕ → K) (p n : ℕ) (P : ℕ → XYZW K) (t : K) : K :=
  ∑ i ∈ range (n + 1), N U (U (n + 1)) p i t * (P i).w

/-- Bernstein polynomial (The NURBS Book, eq. 1.8). -/
def bernsteinP (n i : ℕ) (t : K) : K := (n.choose i : K) * t ^ i * (1 - t) ^ (n - i)

/-- Bézier curve `∑ B_{i,n}(t) Pᵢ`. -/
def bezierPoint (n : ℕ) (P : ℕ → T) (t : K) : T := ∑ i ∈ range (n + 1), bernsteinP n i t • P i

end LNLib.Spec
