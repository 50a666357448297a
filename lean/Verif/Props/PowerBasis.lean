import Verif.Lemmas.PowerBasis
import Mathlib.Algebra.Module.BigOperators

/-!
# C49: power basis conversion (Algorithm/Polynomials.cpp)
-/
set_option linter.unusedSectionVars false

namespace LNLib.Props
open LNLib Res Spec Finset

variable {K : Type} [Field K] [LinearOrder K] [IsStrictOrderedRing K]

/-- C49: for every degree `p`, `BezierToPowerMatrix(p)` returns normally a `(p+1)×(p+1)` matrix `M`
that turns Bézier control values into power basis coefficients: whatever the control points, the
Bézier curve is the polynomial with coefficients `aⱼ = ∑ₖ Mⱼₖ Pₖ`. -/
theorem C49_bezier_to_power {T : Type} [AddCommGroup T] [Module K T] (p : ℕ) :
    ∃ M : List (List K), bezierToPowerMatrix p = ok M ∧ IsMat M (p + 1) (p + 1) ∧
      ∀ (P : ℕ → T) (t : K), bezierPoint p P t = ∑ j ∈ range (p + 1), t ^ j • ∑ k ∈ range (p + 1), ent M j k • P k := by
  obtain ⟨M, e, g⟩ := bezierToPowerMatrix_run (K := K) p
  refine ⟨M, e, g.1, ?_⟩
  intro P t
  unfold bezierPoint
  simp only [Finset.smul_sum]
  rw [Finset.sum_comm]
  apply Finset.sum_congr rfl
  intro k hk
  simp only [mem_range] at hk
  rw [bernstein_power (by omega), Finset.sum_smul]
  apply Finset.sum_congr rfl
  intro j hj
  simp only [mem_range] at hj
  rw [g.2 j (by omega) k (by omega) trivial, smul_smul, mul_comm]

/-- C49: `PowerToBezierMatrix(p, M)` for that `M` returns normally a matrix that turns power basis
coefficients into Bézier control values. -/
theorem C49_power_to_bezier {T : Type} [AddCommGroup T] [Module K T] (p : ℕ) :
    ∃ M R : List (List K), bezierToPowerMatrix p = ok M ∧ powerToBezierMatrix p M = ok R ∧ IsMat R (p + 1) (p + 1) ∧
      ∀ (a : ℕ → T) (t : K), ∑ k ∈ range (p + 1), t ^ k • a k =
        bezierPoint p (fun j => ∑ k ∈ range (p + 1), ent R j k • a k) t := by
  obtain ⟨M, e, g⟩ := bezierToPowerMatrix_run (K := K) p
  obtain ⟨R, e', g'⟩ := powerToBezierMatrix_run g
  refine ⟨M, R, e, e', g'.1, ?_⟩
  intro a t
  unfold bezierPoint
  simp only [Finset.smul_sum]
  rw [Finset.sum_comm]
  apply Finset.sum_congr rfl
  intro k hk
  simp only [mem_range] at hk
  rw [power_bernstein (p := p) (k := k) (by omega), Finset.sum_smul]
  apply Finset.sum_congr rfl
  intro j hj
  simp only [mem_range] at hj
  rw [g'.2 j (by omega) k (by omega) trivial, smul_smul, mul_comm]

/-- C49: the two matrices are inverse to each other, `M R = 1`. -/
theorem C49_inverse (p : ℕ) :
    ∃ M R : List (List K), bezierToPowerMatrix p = ok M ∧ powerToBezierMatrix p M = ok R ∧
      ∀ j ≤ p, ∀ k ≤ p, ∑ i ∈ range (p + 1), ent M j i * ent R i k = if j = k then 1 else 0 := by
  obtain ⟨M, e, g⟩ := bezierToPowerMatrix_run (K := K) p
  obtain ⟨R, e', g'⟩ := powerToBezierMatrix_run g
  refine ⟨M, R, e, e', ?_⟩
  intro j hj k hk
  rw [Finset.sum_congr rfl (fun i hi => by
    simp only [mem_range] at hi
    rw [g.2 j hj i (by omega) trivial, g'.2 i (by omega) k hk trivial])]
  by_cases hkj : k ≤ j
  · rw [← bp_pb hkj hj, sum_from hk _ (fun i hi => by simp [pbG, not_le.mpr hi])]
    symm
    apply Finset.sum_subset
    · intro i hi; simp only [mem_range] at *; omega
    · intro i hi1 hi2
      simp only [mem_range] at *
      simp [bpF, show ¬ (k + i ≤ j) by omega]
  · rw [if_neg (by omega)]
    apply Finset.sum_eq_zero
    intro i hi
    by_cases hij : i ≤ j
    · simp [pbG, show ¬ (k ≤ i) by omega]
    · simp [bpF, hij]

/-- the quadratic matrices -/
example : bezierToPowerMatrix (K := ℚ) 2 = ok [[1, 0, 0], [-2, 2, 0], [1, -2, 1]] := by decide +kernel
example : powerToBezierMatrix (K := ℚ) 2 [[1, 0, 0], [-2, 2, 0], [1, -2, 1]] = ok [[1, 0, 0], [1, 1/2, 0], [1, 1, 1]] := by
  decide +kernel

/-- C49: a negative degree is not rejected: the first write is behind the end of the empty matrix. -/
theorem C49_negative_degree_ub : bezierToPowerMatrix (K := ℚ) (-1) = ub := by decide +kernel

end LNLib.Props
