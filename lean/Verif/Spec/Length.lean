import Verif.Model.GeomReal

/-! # Specification: the length of a curve

The length of a curve is the least upper bound of the lengths of the polygons with corners on the curve. -/

namespace LNLib.Spec

/-- the length of the polygon through the points of `f` at the listed parameters -/
noncomputable def polyLength (f : ℝ → XYZ ℝ) : List ℝ → ℝ
  | a :: b :: l => (f a).distance (f b) + polyLength f (b :: l)
  | _ => 0

/-- `L` is the length of the curve `f` over `[a, b]` -/
def IsArcLength (f : ℝ → XYZ ℝ) (a b L : ℝ) : Prop :=
  IsLUB {x | ∃ ts : List ℝ, ts.Pairwise (· ≤ ·) ∧ (∀ t ∈ ts, a ≤ t ∧ t ≤ b) ∧ x = polyLength f ts} L

end LNLib.Spec
