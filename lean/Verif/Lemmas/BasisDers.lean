import Verif.Spec.Derivative
import Verif.Lemmas.CurveEval
import Verif.Model.BasisDers
import Verif.Core.Hoare
import Mathlib.Tactic.LinearCombination
import Mathlib.Algebra.Polynomial.Roots
import Mathlib.Algebra.CharZero.Infinite

/-! # Derivatives of the basis polynomials and the table algorithm -/
set_option linter.unusedSectionVars false

namespace LNLib
open Res Spec Polynomial Finset

section poly
variable {K : Type} [Field K]

theorem NspanP_eval (U : ℕ → K) (s : ℕ) (t : K) : ∀ p i, (NspanP U s p i).eval t = Nspan U s p i t := by
  intro p
  induction p with
  | zero => intro i; simp only [NspanP, Nspan]; split <;> simp
  | succ p ih =>
    intro i
    simp only [NspanP, Nspan, eval_add, eval_mul, eval_C, eval_sub, eval_X, ih]
    ring

theorem dN_zero (U : ℕ → K) (s p i : ℕ) (t : K) : dN U s p i 0 t = Nspan U s p i t := NspanP_eval U s t p i

theorem NspanP_zero (U : ℕ → K) (s : ℕ) : ∀ p i, (s < i ∨ i + p < s) → NspanP U s p i = 0 := by
  intro p
  induction p with
  | zero => intro i h; simp only [NspanP]; rw [if_neg (by omega)]
  | succ p ih => intro i h; simp only [NspanP]; rw [ih i (by omega), ih (i + 1) (by omega)]; ring

variable [LinearOrder K] [IsStrictOrderedRing K]

/-- The NURBS Book eq. 2.7: `N'_{i,p} = p (N_{i,p-1}/(u_{i+p}-u_i) - N_{i+1,p-1}/(u_{i+p+1}-u_{i+1}))`. -/
theorem NspanP_derivative {U : ℕ → K} {m : ℕ} (hm : MonoTo U m) (s : ℕ) :
    ∀ q i, i + q + 2 ≤ m → derivative (NspanP U s (q + 1) i) =
      C ((q : K) + 1) * (C ((U (i + q + 1) - U i)⁻¹) * NspanP U s q i
        - C ((U (i + q + 2) - U (i + 1))⁻¹) * NspanP U s q (i + 1)) := by
  intro q
  induction q with
  | zero =>
    intro i _
    have h0 : ∀ j, derivative (NspanP U s 0 j) = 0 := by
      intro j; simp only [NspanP]; split <;> simp
    have r3 : NspanP U s (0 + 1) i = C ((U (i + 0 + 1) - U i)⁻¹) * (X - C (U i)) * NspanP U s 0 i
        + C ((U (i + 0 + 2) - U (i + 1))⁻¹) * (C (U (i + 0 + 2)) - X) * NspanP U s 0 (i + 1) := rfl
    rw [r3]
    simp only [derivative_add, derivative_mul, derivative_C, derivative_sub, derivative_X, h0, Nat.cast_zero, zero_add, map_one]
    ring
  | succ q ih =>
    intro i hi
    have hA : (U (i + 1 + q + 1) - U (i + 1))⁻¹ *
        (-((U (i + (q + 1) + 1) - U i)⁻¹ * (U (i + (q + 1) + 1) - U i))
          + (U (i + (q + 1) + 2) - U (i + 1))⁻¹ * (U (i + (q + 1) + 2) - U (i + 1))) = 0 := by
      by_cases hc : U (i + 1 + q + 1) - U (i + 1) = 0
      · rw [hc]; simp
      · have h1 := hm i (i + 1) (by omega) (by omega)
        have h2 := hm (i + 1) (i + 1 + q + 1) (by omega) (by omega)
        have h3 := hm (i + 1 + q + 1) (i + (q + 1) + 2) (by omega) (by omega)
        have h2' : U (i + 1) < U (i + 1 + q + 1) := lt_of_le_of_ne h2 (fun e => hc (by rw [e]; ring))
        have e1 : i + (q + 1) + 1 = i + 1 + q + 1 := by omega
        rw [inv_mul_cancel₀, inv_mul_cancel₀]
        · ring
        · exact ne_of_gt (by linarith)
        · rw [e1]; exact ne_of_gt (by linarith)
    have hAP := congrArg (C : K → K[X]) hA
    simp only [map_mul, map_add, map_neg, map_sub, map_zero] at hAP
    have d1 := ih i (by omega)
    have d2 := ih (i + 1) (by omega)
    have r1 : NspanP U s (q + 1) i = C ((U (i + q + 1) - U i)⁻¹) * (X - C (U i)) * NspanP U s q i
        + C ((U (i + q + 2) - U (i + 1))⁻¹) * (C (U (i + q + 2)) - X) * NspanP U s q (i + 1) := rfl
    have r2 : NspanP U s (q + 1) (i + 1) = C ((U (i + 1 + q + 1) - U (i + 1))⁻¹) * (X - C (U (i + 1))) * NspanP U s q (i + 1)
        + C ((U (i + 1 + q + 2) - U (i + 1 + 1))⁻¹) * (C (U (i + 1 + q + 2)) - X) * NspanP U s q (i + 1 + 1) := rfl
    have r3 : NspanP U s (q + 1 + 1) i = C ((U (i + (q + 1) + 1) - U i)⁻¹) * (X - C (U i)) * NspanP U s (q + 1) i
        + C ((U (i + (q + 1) + 2) - U (i + 1))⁻¹) * (C (U (i + (q + 1) + 2)) - X) * NspanP U s (q + 1) (i + 1) := rfl
    rw [r3]
    simp only [derivative_add, derivative_mul, derivative_C, derivative_sub, derivative_X, d1, d2]
    have e1 : i + (q + 1) + 1 = i + 1 + q + 1 := by omega
    have e2 : i + q + 2 = i + 1 + q + 1 := by omega
    have e3 : i + (q + 1) + 2 = i + 1 + q + 2 := by omega
    rw [e1, e3] at hAP ⊢
    rw [e2] at r1 ⊢
    push_cast
    simp only [map_add, map_one]
    generalize C ((U (i + 1 + q + 1) - U i)⁻¹) = A at *
    generalize C ((U (i + 1 + q + 2) - U (i + 1))⁻¹) = B at *
    generalize C ((U (i + q + 1) - U i)⁻¹) = D at *
    generalize C ((U (i + 1 + q + 1) - U (i + 1))⁻¹) = E at *
    generalize C ((U (i + 1 + q + 2) - U (i + 1 + 1))⁻¹) = F at *
    generalize NspanP U s (q + 1) i = M1 at *
    generalize NspanP U s (q + 1) (i + 1) = M2 at *
    generalize NspanP U s q i = L1 at *
    generalize NspanP U s q (i + 1) = L2 at *
    generalize NspanP U s q (i + 1 + 1) = L3 at *
    generalize (C (q : K) : K[X]) = Q at *
    linear_combination (Q + 1) * L2 * hAP - (Q + 1) * A * r1 + (Q + 1) * B * r2

/-- The coefficients `a_{k,j}` of The NURBS Book eq. 2.10. -/
def ac (U : ℕ → K) (p i : ℕ) : ℕ → ℕ → K
  | 0, j => if j = 0 then 1 else 0
  | k + 1, 0 => ac U p i k 0 / (U (i + p - k) - U i)
  | k + 1, j + 1 => (ac U p i k (j + 1) - ac U p i k j) / (U (i + p - k + (j + 1)) - U (i + (j + 1)))

theorem ac_gt (U : ℕ → K) (p i : ℕ) : ∀ k j, k < j → ac U p i k j = 0 := by
  intro k
  induction k with
  | zero => intro j hj; simp only [ac]; rw [if_neg (by omega)]
  | succ k ih =>
    intro j hj
    obtain ⟨j, rfl⟩ : ∃ j', j = j' + 1 := ⟨j - 1, by omega⟩
    simp only [ac]
    rw [ih (j + 1) (by omega), ih j (by omega)]; simp

/-- The NURBS Book eq. 2.10. -/
theorem NspanP_iterate {U : ℕ → K} {m : ℕ} (hm : MonoTo U m) (s p i : ℕ) (hi : i + p + 1 ≤ m) :
    ∀ k, k ≤ p → (derivative^[k]) (NspanP U s p i) =
      C ((p.descFactorial k : ℕ) : K) * ∑ j ∈ range (k + 1), C (ac U p i k j) * NspanP U s (p - k) (i + j) := by
  intro k
  induction k with
  | zero => intro _; simp [ac]
  | succ k ih =>
    intro hk
    rw [Function.iterate_succ_apply', ih (by omega)]
    obtain ⟨q, hq⟩ : ∃ q, p - k = q + 1 := ⟨p - k - 1, by omega⟩
    have hq' : p - (k + 1) = q := by omega
    rw [hq, hq', derivative_mul, derivative_C, zero_mul, zero_add, derivative_sum]
    have hstep : ∀ j ∈ range (k + 1), derivative (C (ac U p i k j) * NspanP U s (q + 1) (i + j)) =
        C ((q : K) + 1) * (C (ac U p i k j * (U (i + j + q + 1) - U (i + j))⁻¹) * NspanP U s q (i + j)
         - C (ac U p i k j * (U (i + (j + 1) + q + 1) - U (i + (j + 1)))⁻¹) * NspanP U s q (i + (j + 1))) := by
      intro j hj
      rw [mem_range] at hj
      rw [derivative_mul, derivative_C, zero_mul, zero_add, NspanP_derivative hm s q (i + j) (by omega)]
      have e1 : i + j + q + 2 = i + (j + 1) + q + 1 := by omega
      rw [e1, ← add_assoc i j 1, map_mul, map_mul]
      ring
    rw [Finset.sum_congr rfl hstep, ← Finset.mul_sum, Finset.sum_sub_distrib]
    have hR : ∑ j ∈ range (k + 1 + 1), C (ac U p i (k + 1) j) * NspanP U s q (i + j) =
        ∑ j ∈ range (k + 1), C (ac U p i k j * (U (i + j + q + 1) - U (i + j))⁻¹) * NspanP U s q (i + j)
         - ∑ j ∈ range (k + 1), C (ac U p i k j * (U (i + (j + 1) + q + 1) - U (i + (j + 1)))⁻¹) * NspanP U s q (i + (j + 1)) := by
      have e : ∑ j ∈ range (k + 1), C (ac U p i k j * (U (i + j + q + 1) - U (i + j))⁻¹) * NspanP U s q (i + j)
          = ∑ j ∈ range (k + 1 + 1), C (ac U p i k j * (U (i + j + q + 1) - U (i + j))⁻¹) * NspanP U s q (i + j) := by
        rw [Finset.sum_range_succ _ (k + 1), ac_gt U p i k (k + 1) (by omega)]; simp
      rw [e, Finset.sum_range_succ' _ (k + 1), Finset.sum_range_succ' _ (k + 1), add_sub_right_comm, ← Finset.sum_sub_distrib]
      congr 1
      · apply Finset.sum_congr rfl
        intro j hj
        rw [← sub_mul, ← map_sub]
        congr 2
        simp only [ac]
        have e3 : i + p - k + (j + 1) = i + (j + 1) + q + 1 := by omega
        rw [e3]; ring
      · simp only [ac, add_zero]
        have e3 : i + p - k = i + q + 1 := by omega
        rw [e3, div_eq_mul_inv]
    rw [hR]
    rw [Nat.descFactorial_succ, hq]
    push_cast
    simp only [map_mul, map_add, map_one]
    ring

theorem dN_eq {U : ℕ → K} {m : ℕ} (hm : MonoTo U m) (s p i : ℕ) (hi : i + p + 1 ≤ m) (k : ℕ) (hk : k ≤ p) (t : K) :
    dN U s p i k t = ((p.descFactorial k : ℕ) : K) * ∑ j ∈ range (k + 1), ac U p i k j * Nspan U s (p - k) (i + j) t := by
  unfold dN
  rw [NspanP_iterate hm s p i hi k hk]
  simp only [eval_mul, eval_C, eval_finsetSum, NspanP_eval]

/-- the basis polynomials of a span sum to one -/
theorem NspanP_sum {U : ℕ → K} {m s p : ℕ} (hm : MonoTo U m) (hs : U s < U (s + 1)) (hps : p ≤ s) (hsm : s + p + 1 ≤ m) :
    ∑ r ∈ range (p + 1), NspanP U s p (s - p + r) = 1 := by
  apply Polynomial.funext
  intro t
  rw [eval_finsetSum, eval_one]
  simp only [NspanP_eval]
  rw [← sum_window hps (le_refl s) (f := fun i => Nspan U s p i t) (fun i hi => Nspan_zero U s p i t hi)]
  exact Nspan_sum hm hs p hps (by omega)

end poly

end LNLib
