import Verif.Lemmas.CurveDers
import Mathlib.Analysis.Calculus.ContDiff.Polynomial
import Mathlib.Analysis.Calculus.ContDiff.Deriv
import Mathlib.Analysis.Calculus.Deriv.Polynomial

/-!
# Two neighbouring pieces of a B-spline agree at the knot up to the order degree − multiplicity
-/

namespace LNLib
open Spec Finset Polynomial

section
variable {K : Type} [Field K]

/-- at a knot `u = U (a+1) = … = U (a+m)`, seen from the span on the left -/
theorem Nspan_left {U : ℕ → K} {a m : ℕ} {u : K} (h : ∀ i, a < i → i ≤ a + m → U i = u) (ha : U a ≠ u) :
    ∀ q ≤ m, ∀ i, Nspan U a q i u = if i = a then 1 else 0 := by
  intro q
  induction q with
  | zero => intro _ i; rfl
  | succ q ih =>
    intro hq i
    simp only [Nspan]
    rw [ih (by omega), ih (by omega)]
    by_cases h1 : i = a
    · subst h1
      rw [if_pos rfl, if_neg (by omega), h (i + q + 1) (by omega) (by omega), div_self (sub_ne_zero.mpr (Ne.symm ha))]
      simp
    · rw [if_neg h1]
      by_cases h2 : i + 1 = a
      · rw [if_pos h2, h (i + q + 2) (by omega) (by omega)]; simp
      · rw [if_neg h2]; simp

/-- the same knot `u = U b = … = U (b-m+1)`, seen from the span on the right -/
theorem Nspan_right {U : ℕ → K} {b m : ℕ} {u : K} (hmb : m ≤ b) (h : ∀ i, b < i + m → i ≤ b → U i = u) (hb : U (b + 1) ≠ u) :
    ∀ q ≤ m, ∀ i, Nspan U b q i u = if i + q = b then 1 else 0 := by
  intro q
  induction q with
  | zero => intro _ i; rfl
  | succ q ih =>
    intro hq i
    simp only [Nspan]
    rw [ih (by omega), ih (by omega)]
    by_cases h1 : i + q = b
    · rw [if_pos h1, if_neg (by omega), if_neg (by omega), h i (by omega) (by omega)]; simp
    · rw [if_neg h1]
      by_cases h2 : i + 1 + q = b
      · rw [if_pos h2, if_pos (by omega), h (i + 1) (by omega) (by omega), show i + q + 2 = b + 1 by omega, div_self (sub_ne_zero.mpr hb)]
        simp
      · rw [if_neg h2, if_neg (by omega)]; simp

/-- the values of the two pieces agree when the degree is at least the multiplicity -/
theorem Nspan_agree {U : ℕ → K} {b m : ℕ} {u : K} (hmb : m ≤ b) (h : ∀ i, b < i + m → i ≤ b → U i = u)
    (ha : U (b - m) ≠ u) (hb : U (b + 1) ≠ u) : ∀ j i, Nspan U (b - m) (m + j) i u = Nspan U b (m + j) i u := by
  intro j
  induction j with
  | zero =>
    intro i
    rw [Nat.add_zero, Nspan_left (m := m) (fun i h1 h2 => h i (by omega) (by omega)) ha m le_rfl, Nspan_right hmb h hb m le_rfl]
    by_cases h1 : i = b - m
    · rw [if_pos h1, if_pos (by omega)]
    · rw [if_neg h1, if_neg (by omega)]
  | succ j ih =>
    intro i
    rw [← Nat.add_assoc]
    simp only [Nspan]
    rw [ih, ih]

variable [LinearOrder K] [IsStrictOrderedRing K]

/-- the derivatives of the two pieces agree up to the order degree − multiplicity -/
theorem dN_agree {U : ℕ → K} {b m N : ℕ} {u : K} (hmono : MonoTo U N) (hmb : m ≤ b) (h : ∀ i, b < i + m → i ≤ b → U i = u)
    (ha : U (b - m) ≠ u) (hb : U (b + 1) ≠ u) :
    ∀ k p i, k + m ≤ p → i + p + 1 ≤ N → dN U (b - m) p i k u = dN U b p i k u := by
  intro k
  induction k with
  | zero =>
    intro p i hp _
    obtain ⟨j, rfl⟩ := Nat.exists_eq_add_of_le (show m ≤ p by omega)
    rw [dN_zero, dN_zero]
    exact Nspan_agree hmb h ha hb j i
  | succ k ih =>
    intro p i hp hi
    obtain ⟨q, rfl⟩ : ∃ q, p = q + 1 := ⟨p - 1, by omega⟩
    rw [dN_succ hmono _ _ _ _ (by omega), dN_succ hmono _ _ _ _ (by omega), ih q i (by omega) (by omega), ih q (i + 1) (by omega) (by omega)]

end

/-- two polynomial pieces whose derivatives agree at `u` up to order `r` make an `r` times continuously differentiable function -/
theorem contDiff_pieces (u : ℝ) : ∀ (r : ℕ) (A B : ℝ[X]), (∀ k ≤ r, (derivative^[k] A).eval u = (derivative^[k] B).eval u) →
    ContDiff ℝ r (fun t => if t < u then A.eval t else B.eval t) := by
  intro r
  induction r with
  | zero =>
    intro A B h
    rw [Nat.cast_zero, contDiff_zero]
    have h0 : A.eval u = B.eval u := h 0 le_rfl
    have : (fun t => if t < u then A.eval t else B.eval t) = fun t => if t ≤ u then A.eval t else B.eval t := by
      funext t
      rcases lt_trichotomy t u with h1 | h1 | h1
      · rw [if_pos h1, if_pos h1.le]
      · rw [h1, if_neg (lt_irrefl _), if_pos le_rfl, h0]
      · rw [if_neg h1.not_gt, if_neg h1.not_ge]
    rw [this]
    exact Continuous.if_le A.differentiable.continuous B.differentiable.continuous continuous_id continuous_const (by rintro t rfl; exact h0)
  | succ r ih =>
    intro A B h
    have hd : ∀ t, HasDerivAt (fun t => if t < u then A.eval t else B.eval t) (if t < u then (derivative A).eval t else (derivative B).eval t) t := by
      intro t
      rcases lt_trichotomy t u with h1 | h1 | h1
      · rw [if_pos h1]
        refine (A.hasDerivAt t).congr_of_eventuallyEq ?_
        filter_upwards [Iio_mem_nhds h1] with x hx
        rw [if_pos (Set.mem_Iio.mp hx)]
      · subst h1
        rw [if_neg (lt_irrefl _)]
        have e0 : A.eval t = B.eval t := h 0 (by omega)
        have e1 : (derivative A).eval t = (derivative B).eval t := h 1 (by omega)
        have hl : HasDerivWithinAt (fun x => if x < t then A.eval x else B.eval x) ((derivative B).eval t) (Set.Iic t) t := by
          rw [← e1]
          refine (A.hasDerivAt t).hasDerivWithinAt.congr ?_ ?_
          · intro x hx
            rcases lt_or_eq_of_le (Set.mem_Iic.mp hx) with h2 | h2
            · rw [if_pos h2]
            · rw [h2, if_neg (lt_irrefl _), e0]
          · rw [if_neg (lt_irrefl _), e0]
        have hr : HasDerivWithinAt (fun x => if x < t then A.eval x else B.eval x) ((derivative B).eval t) (Set.Ici t) t := by
          refine (B.hasDerivAt t).hasDerivWithinAt.congr ?_ ?_
          · intro x hx
            rw [if_neg (not_lt.mpr hx)]
          · rw [if_neg (lt_irrefl _)]
        have := hl.union hr
        rwa [Set.Iic_union_Ici, hasDerivWithinAt_univ] at this
      · rw [if_neg h1.not_gt]
        refine (B.hasDerivAt t).congr_of_eventuallyEq ?_
        filter_upwards [Ioi_mem_nhds h1] with x hx
        rw [if_neg (not_lt.mpr (le_of_lt hx))]
    rw [Nat.cast_succ, contDiff_succ_iff_deriv]
    refine ⟨fun t => (hd t).differentiableAt, by simp, ?_⟩
    have : deriv (fun t => if t < u then A.eval t else B.eval t) = fun t => if t < u then (derivative A).eval t else (derivative B).eval t := by
      funext t
      exact (hd t).deriv
    rw [this]
    exact ih (derivative A) (derivative B) (fun k hk => h (k + 1) (by omega))

end LNLib
