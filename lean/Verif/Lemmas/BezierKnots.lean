import Verif.Lemmas.CurveEval
import Verif.Lemmas.Poly

/-!
# A B-spline curve over a Bézier knot vector is the Bézier curve
-/

namespace LNLib
open Res Spec Finset

variable {K : Type} [Field K] [LinearOrder K] [IsStrictOrderedRing K]
variable {T : Type} [AddCommGroup T] [Module K T]

theorem Nspan_bezier {U : ℕ → K} {p : ℕ} {a b t : K} (hab : a < b) (h0 : ∀ i, i ≤ p → U i = a) (h1 : ∀ i, p < i → i ≤ 2 * p + 1 → U i = b) :
    ∀ d, d ≤ p → ∀ k, k ≤ d → Nspan U p d (p - d + k) t = bernsteinP d k ((t - a) / (b - a)) := by
  have hb : b - a ≠ 0 := (sub_pos.mpr hab).ne'
  intro d
  induction d with
  | zero =>
    intro _ k hk
    have : k = 0 := by omega
    subst this
    simp [Nspan, bernsteinP]
  | succ d ih =>
    intro hd k hk
    simp only [Nspan]
    have hs : (b - t) / (b - a) = 1 - (t - a) / (b - a) := by
      rw [eq_sub_iff_add_eq, ← add_div, div_eq_one_iff_eq hb]; ring
    have first : ∀ j, k = j + 1 → (t - U (p - (d + 1) + k)) / (U (p - (d + 1) + k + d + 1) - U (p - (d + 1) + k)) * Nspan U p d (p - (d + 1) + k) t =
        (t - a) / (b - a) * bernsteinP d j ((t - a) / (b - a)) := by
      intro j hj
      rw [show p - (d + 1) + k = p - d + j by omega, ih (by omega) j (by omega), h0 _ (by omega), h1 _ (by omega) (by omega)]
    have second : k ≤ d → (U (p - (d + 1) + k + d + 2) - t) / (U (p - (d + 1) + k + d + 2) - U (p - (d + 1) + k + 1)) * Nspan U p d (p - (d + 1) + k + 1) t =
        (1 - (t - a) / (b - a)) * bernsteinP d k ((t - a) / (b - a)) := by
      intro hj
      rw [show p - (d + 1) + k + 1 = p - d + k by omega, ih (by omega) k hj, h0 (p - d + k) (by omega), h1 _ (by omega) (by omega), hs]
    cases k with
    | zero =>
      rw [second (by omega), Nspan_zero U p d (p - (d + 1) + 0) t (by omega), mul_zero, zero_add, bernsteinP_zero_succ]
    | succ j =>
      rw [first j rfl, bernsteinP_succ]
      by_cases hj : j + 1 ≤ d
      · rw [second hj]; ring
      · rw [Nspan_zero U p d (p - (d + 1) + (j + 1) + 1) t (by omega), bernsteinP_gt (by omega : d < j + 1)]; ring

/-- the knot vector `a, …, a, b, …, b` -/
theorem curvePoint_bezier {U : ℕ → K} {p : ℕ} {P : ℕ → T} {a b t : K} (hab : a < b) (h0 : ∀ i, i ≤ p → U i = a) (h1 : ∀ i, p < i → i ≤ 2 * p + 1 → U i = b)
    (ht0 : a ≤ t) (ht1 : t ≤ b) : curvePoint U p p P t = bezierPoint p P ((t - a) / (b - a)) := by
  have hm : MonoTo U (p + p + 1) := by
    intro i j hij hj
    by_cases hi : j ≤ p
    · rw [h0 i (by omega), h0 j hi]
    · rw [h1 j (by omega) (by omega)]
      by_cases hi : i ≤ p
      · rw [h0 i hi]; exact hab.le
      · rw [h1 i (by omega) (by omega)]
  have hs : IsSpan U p p t p := by
    refine ⟨le_refl _, le_refl _, ?_, ?_, ?_⟩
    · rw [h0 p (le_refl _), h1 (p + 1) (by omega) (by omega)]; exact hab
    · rw [h0 p (le_refl _)]; exact ht0
    · rw [h1 (p + 1) (by omega) (by omega)]
      rcases lt_or_eq_of_le ht1 with h | h
      · exact Or.inl h
      · exact Or.inr ⟨h, rfl⟩
  rw [curvePoint_span hm (by omega) hs]
  unfold bezierPoint
  refine sum_congr rfl fun r hr => ?_
  rw [mem_range] at hr
  rw [Nspan_bezier hab h0 h1 p (le_refl _) r (by omega), Nat.sub_self, Nat.zero_add]

/-- the knots of a Bézier curve -/
theorem nth_bezier_knots {p : ℕ} (a b : K) : (∀ i, i ≤ p → nth (List.replicate (p + 1) a ++ List.replicate (p + 1) b) i = a) ∧
    ∀ i, p < i → i ≤ 2 * p + 1 → nth (List.replicate (p + 1) a ++ List.replicate (p + 1) b) i = b := by
  constructor
  · intro i hi
    rw [nth_append_left (by simp; omega), nth_replicate (by omega)]
  · intro i h1 h2
    rw [nth_append_right (by simp; omega), nth_replicate (by simp; omega)]

end LNLib
