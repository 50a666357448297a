import Verif.Core.Hoare
import Verif.Lemmas.CurveEval
import Mathlib.Algebra.Order.BigOperators.Group.Finset

/-! # Knot multiplicity -/
set_option linter.unusedSectionVars false

namespace LNLib
open Res Spec Finset

variable {K : Type} [Field K] [LinearOrder K] [IsStrictOrderedRing K]

theorem getKnotMultiplicity_ok {U : List K} {u : K} (hl : 0 < U.length) (hU : isValidKnotVector U = true)
    (h0 : nth U 0 - doubleEps ≤ u) (h1 : u ≤ nth U (U.length - 1) + doubleEps) :
    getKnotMultiplicity U u = ok (((range U.length).filter (fun i => isAlmostEqualTo u (nth U i) = true)).card : ℤ) := by
  unfold getKnotMultiplicity
  have e0 : vget U 0 = ok (nth U 0) := vget_nth (by simp) (by omega)
  have e1 : vget U ((U.length : ℤ) - 1) = ok (nth U (U.length - 1)) := vget_nth (by omega) (by omega)
  have hv : validateRange u (nth U 0) (nth U (U.length - 1)) = ok () := validateRange_eq_ok_iff.mpr ⟨h0, h1⟩
  simp only [hl, decide_true, validate_true, ok_bind, hU, e0, e1, hv]
  apply Runs.eq
  refine (Runs.forN (m := 0) (n := U.length)
    (fun j (r : ℤ) => r = (((range j).filter (fun i => isAlmostEqualTo u (nth U i) = true)).card : ℤ)) rfl rfl (by omega) (by simp) ?_).mono ?_
  · intro i r _ hi hr
    rw [vget_nth rfl hi, ok_bind]
    refine Runs.ok ?_
    rw [hr, Finset.range_add_one, Finset.filter_insert]
    split
    · rw [Finset.card_insert_of_notMem (by simp)]
      push_cast; rfl
    · rfl
  · intro a ha; exact ha

/-- the knots equal to `u` are the last ones before the end of its span -/
theorem mult_interval {U : ℕ → K} {m k : ℕ} {u : K} (hm : MonoTo U m) (hk : k + 1 ≤ m) (h0 : U k ≤ u) (h1 : u < U (k + 1)) :
    ∀ i ≤ m, (U i = u ↔ k + 1 - ((range (m + 1)).filter (fun i => U i = u)).card ≤ i ∧ i ≤ k ∧
      ((range (m + 1)).filter (fun i => U i = u)).card ≠ 0) ∧ ((range (m + 1)).filter (fun i => U i = u)).card ≤ k + 1 := by
  classical
  have hle : ∀ i ≤ m, U i = u → i ≤ k := by
    intro i hi hu
    by_contra hcon
    have := hm (k + 1) i (by omega) hi
    rw [hu] at this
    exact absurd this (not_le.mpr h1)
  by_cases hex : ∃ i, i ≤ m ∧ U i = u
  · let a := Nat.find hex
    have ha : a ≤ m ∧ U a = u := Nat.find_spec hex
    have hmin : ∀ j, j < a → ¬ (j ≤ m ∧ U j = u) := fun j hj => Nat.find_min hex hj
    have hak := hle a ha.1 ha.2
    have hset : (range (m + 1)).filter (fun i => U i = u) = Icc a k := by
      ext i
      simp only [mem_filter, mem_range, mem_Icc]
      constructor
      · rintro ⟨h2, h3⟩
        refine ⟨?_, hle i (by omega) h3⟩
        by_contra hcon
        exact hmin i (by omega) ⟨by omega, h3⟩
      · rintro ⟨h2, h3⟩
        refine ⟨by omega, le_antisymm ?_ ?_⟩
        · exact (hm i k h3 (by omega)).trans h0
        · rw [← ha.2]; exact hm a i h2 (by omega)
    rw [hset, Nat.card_Icc]
    intro i hi
    refine ⟨?_, by omega⟩
    have : U i = u ↔ i ∈ (range (m + 1)).filter (fun i => U i = u) := by
      simp only [mem_filter, mem_range]
      constructor
      · intro h; exact ⟨by omega, h⟩
      · intro h; exact h.2
    rw [this, hset, mem_Icc]
    omega
  · push Not at hex
    have hset : (range (m + 1)).filter (fun i => U i = u) = ∅ := by
      rw [Finset.filter_eq_empty_iff]
      intro i hi
      simp only [mem_range] at hi
      exact hex i (by omega)
    rw [hset]
    intro i hi
    simp only [card_empty, ne_eq, not_true_eq_false, and_false, iff_false, zero_le, and_true]
    exact hex i hi

end LNLib
