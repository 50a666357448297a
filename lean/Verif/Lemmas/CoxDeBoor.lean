import Verif.Spec.CoxDeBoor
import Mathlib.Algebra.BigOperators.Intervals
import Mathlib.Algebra.BigOperators.Ring.Finset
import Mathlib.Algebra.Order.BigOperators.Group.Finset
import Mathlib.Order.Monotone.Basic

/-! # Facts about the Cox–de Boor recursion -/
set_option linter.unusedSectionVars false

namespace LNLib.Spec
open Finset

variable {K : Type} [Field K]

/-- local support of the span pieces -/
theorem Nspan_zero (U : ℕ → K) (s : ℕ) : ∀ (p i : ℕ) (t : K), (s < i ∨ i + p < s) → Nspan U s p i t = 0 := by
  intro p
  induction p with
  | zero => intro i t h; simp only [Nspan]; rw [if_neg]; omega
  | succ p ih =>
    intro i t h
    simp only [Nspan]
    rw [ih i t (by omega), ih (i + 1) t (by omega)]
    simp

section
variable [LinearOrder K] [IsStrictOrderedRing K]

/-- knots `0..m` are nondecreasing -/
def MonoTo (U : ℕ → K) (m : ℕ) : Prop := ∀ i j, i ≤ j → j ≤ m → U i ≤ U j

theorem N_zero_eq {U : ℕ → K} {p n m s : ℕ} {t : K} (hm : MonoTo U m) (hnm : n + 1 ≤ m)
    (hs : IsSpan U p n t s) (i : ℕ) (hi : i + 1 ≤ m) :
    N U (U (n + 1)) 0 i t = if i = s then 1 else 0 := by
  obtain ⟨h1, h2, h3, h4, h5⟩ := hs
  simp only [N]
  by_cases his : i = s
  · subst his
    rw [if_pos, if_pos rfl]
    rcases h5 with h | ⟨h, h'⟩
    · have : t ≠ U (n + 1) := by
        intro hc
        exact absurd (hm (i + 1) (n + 1) (by omega) hnm) (not_le.mpr (hc ▸ h))
      exact Or.inl ⟨this, h4, h⟩
    · exact Or.inr ⟨by rw [h, h'], h3, h'⟩
  · rw [if_neg, if_neg his]
    rintro (⟨hne, ha, hb⟩ | ⟨ha, hb, hc⟩)
    · have h5' : t < U (s + 1) := by
        rcases h5 with h' | ⟨h', h''⟩
        · exact h'
        · exact absurd (h'.trans h'') hne
      rcases lt_or_gt_of_ne his with h | h
      · exact absurd (lt_of_lt_of_le hb (hm (i + 1) s (by omega) (by omega))) (not_lt.mpr h4)
      · exact absurd (lt_of_lt_of_le h5' (hm (s + 1) i (by omega) (by omega))) (not_lt.mpr ha)
    · have hts : t = U (s + 1) := by
        rcases h5 with h | ⟨h, _⟩
        · exact absurd (hm (s + 1) (n + 1) (by omega) hnm) (not_le.mpr (ha ▸ h))
        · exact h
      rcases lt_or_gt_of_ne his with h | h
      · have : U (i + 1) ≤ U s := hm _ _ (by omega) (by omega)
        rw [hc, ← ha, hts] at this
        exact absurd this (not_le.mpr h3)
      · have : U (s + 1) ≤ U i := hm _ _ (by omega) (by omega)
        rw [← hts, ha, ← hc] at this
        exact absurd this (not_le.mpr hb)

/-- on its span the global basis function is the span piece -/
theorem N_eq_Nspan {U : ℕ → K} {p n m s : ℕ} {t : K} (hm : MonoTo U m) (hnm : n + 1 ≤ m)
    (hs : IsSpan U p n t s) : ∀ (q i : ℕ), i + q + 1 ≤ m → N U (U (n + 1)) q i t = Nspan U s q i t := by
  intro q
  induction q with
  | zero => intro i hi; rw [N_zero_eq hm hnm hs i (by omega)]; rfl
  | succ q ih =>
    intro i hi
    simp only [N, Nspan]
    rw [ih i (by omega), ih (i + 1) (by omega)]

/-- nonnegativity on the closed span -/
theorem Nspan_nonneg {U : ℕ → K} {m s : ℕ} {t : K} (hm : MonoTo U m)
    (h1 : U s ≤ t) (h2 : t ≤ U (s + 1)) : ∀ (p i : ℕ), i + p + 1 ≤ m → 0 ≤ Nspan U s p i t := by
  intro p
  induction p with
  | zero => intro i _; simp only [Nspan]; split <;> simp
  | succ p ih =>
    intro i hi
    by_cases hz : s < i ∨ i + (p + 1) < s
    · rw [Nspan_zero U s _ _ _ hz]
    · simp only [Nspan]
      push Not at hz
      apply add_nonneg
      · by_cases hz2 : s < i ∨ i + p < s
        · rw [Nspan_zero U s _ _ _ hz2, mul_zero]
        · push Not at hz2
          apply mul_nonneg _ (ih i (by omega))
          apply div_nonneg
          · have := hm i s (by omega) (by omega); linarith
          · have := hm i (i + p + 1) (by omega) (by omega); linarith
      · by_cases hz2 : s < i + 1 ∨ i + 1 + p < s
        · rw [Nspan_zero U s _ _ _ hz2, mul_zero]
        · push Not at hz2
          apply mul_nonneg _ (ih (i + 1) (by omega))
          apply div_nonneg
          · have := hm (s + 1) (i + p + 2) (by omega) (by omega); linarith
          · have := hm (i + 1) (i + p + 2) (by omega) (by omega); linarith

omit [IsStrictOrderedRing K] in
/-- partition of unity, over all indices up to the span -/
theorem Nspan_sum {U : ℕ → K} {m s : ℕ} {t : K} (hm : MonoTo U m) (hs : U s < U (s + 1)) :
    ∀ (p : ℕ), p ≤ s → s + p + 1 ≤ m → ∑ i ∈ range (s + 1), Nspan U s p i t = 1 := by
  intro p
  induction p with
  | zero =>
    intro _ _
    simp only [Nspan]
    rw [Finset.sum_ite_eq' (range (s + 1)) s (fun _ => (1 : K))]
    simp
  | succ p ih =>
    intro hp hsm
    have ih' := ih (by omega) (by omega)
    simp only [Nspan]
    rw [Finset.sum_add_distrib]
    have hshift : ∑ i ∈ range (s + 1), (U (i + p + 2) - t) / (U (i + p + 2) - U (i + 1)) * Nspan U s p (i + 1) t
        = ∑ i ∈ range (s + 1), (U (i + p + 1) - t) / (U (i + p + 1) - U i) * Nspan U s p i t := by
      have h1 := Finset.sum_range_succ' (fun i => (U (i + p + 1) - t) / (U (i + p + 1) - U i) * Nspan U s p i t) (s + 1)
      have h2 := Finset.sum_range_succ (fun i => (U (i + p + 1) - t) / (U (i + p + 1) - U i) * Nspan U s p i t) (s + 1)
      rw [h2] at h1
      rw [Nspan_zero U s p (s + 1) t (by omega), Nspan_zero U s p 0 t (by omega)] at h1
      simp only [mul_zero, add_zero] at h1
      rw [h1]
      apply Finset.sum_congr rfl
      intro i _
      have e1 : i + 1 + p + 1 = i + p + 2 := by ring
      rw [e1]
    rw [hshift, ← Finset.sum_add_distrib]
    rw [← ih']
    apply Finset.sum_congr rfl
    intro i hi
    by_cases hz2 : s < i ∨ i + p < s
    · rw [Nspan_zero U s _ _ _ hz2]; simp
    · push Not at hz2
      have a1 := hm i s (by omega) (by omega)
      have a2 := hm (s + 1) (i + p + 1) (by omega) (by omega)
      have hne : U (i + p + 1) - U i ≠ 0 := by
        have : U i < U (i + p + 1) := lt_of_le_of_lt a1 (lt_of_lt_of_le hs a2)
        exact sub_ne_zero.mpr (ne_of_gt this)
      field_simp
      ring

end
end LNLib.Spec
