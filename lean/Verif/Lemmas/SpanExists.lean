import Verif.Lemmas.CurveEval
import Mathlib.Data.Nat.Find

/-! # Every parameter of a nondegenerate domain lies in a span -/

set_option linter.unusedSectionVars false

namespace LNLib
open Spec

variable {K : Type} [Field K] [LinearOrder K] [IsStrictOrderedRing K]

theorem exists_isSpan {U : ℕ → K} {p n : ℕ} {t : K} (hpn : p ≤ n) (hlt : U p < U (n + 1))
    (h0 : U p ≤ t) (h1 : t ≤ U (n + 1)) : ∃ s, IsSpan U p n t s := by
  classical
  rcases h1.lt_or_eq with h | h
  · have a1 := Nat.findGreatest_spec (P := fun s => U s ≤ t) hpn h0
    have a2 := Nat.le_findGreatest (P := fun s => U s ≤ t) hpn h0
    have a3 := Nat.findGreatest_le (P := fun s => U s ≤ t) n
    have a4 : t < U (Nat.findGreatest (fun s => U s ≤ t) n + 1) := by
      rcases a3.lt_or_eq with h' | h'
      · have := Nat.findGreatest_is_greatest (P := fun s => U s ≤ t) (n := n) (k := Nat.findGreatest (fun s => U s ≤ t) n + 1) (by omega) h'
        exact lt_of_not_ge this
      · rw [h']; exact h
    exact ⟨_, a2, a3, lt_of_le_of_lt a1 a4, a1, Or.inl a4⟩
  · have a1 := Nat.findGreatest_spec (P := fun s => U s < U (n + 1)) hpn hlt
    have a2 := Nat.le_findGreatest (P := fun s => U s < U (n + 1)) hpn hlt
    have a3 := Nat.findGreatest_le (P := fun s => U s < U (n + 1)) n
    set s := Nat.findGreatest (fun s => U s < U (n + 1)) n
    rcases a3.lt_or_eq with h' | h'
    · have := Nat.findGreatest_is_greatest (P := fun s => U s < U (n + 1)) (n := n) (k := s + 1) (by omega) h'
      have h2 : U (n + 1) ≤ U (s + 1) := le_of_not_gt this
      refine ⟨s, a2, a3, lt_of_lt_of_le a1 h2, ?_, ?_⟩
      · rw [h]; exact a1.le
      · rw [h]
        rcases h2.lt_or_eq with h3 | h3
        · exact Or.inl h3
        · exact Or.inr ⟨h3, h3.symm⟩
    · refine ⟨s, a2, a3, ?_, by rw [h]; exact a1.le, ?_⟩
      · have h2 : s + 1 = n + 1 := by omega
        rw [h2]; exact a1
      · right
        have h2 : s + 1 = n + 1 := by omega
        rw [h2]; exact ⟨h, rfl⟩

end LNLib
