import Verif.Lemmas.CurveParam
import Mathlib.Algebra.BigOperators.GroupWithZero.Finset

/-!
# Rational linear change of parameter
-/
set_option linter.unusedSectionVars false

namespace LNLib
open Res Spec Finset

variable {K : Type} [Field K] [LinearOrder K] [IsStrictOrderedRing K]

theorem count_block {U : List K} {i k : ℕ} {t : K} (hk : i + k ≤ U.length) (h : ∀ l, l < k → nth U (i + l) = t) : k ≤ U.count t := by
  have e : (U.drop i).take k = List.replicate k t := by
    apply List.ext_getElem (by simp; omega)
    intro l h1 h2
    simp only [List.length_replicate] at h2
    have := h l h2
    rw [nth_eq_getElem (by omega)] at this
    simp [this]
  have h1 : ((U.drop i).take k).count t ≤ U.count t :=
    ((List.take_sublist k _).trans (List.drop_sublist i U)).count_le t
  rw [e, List.count_replicate_self] at h1
  exact h1

section
variable {al be ga de : K}

theorem mobius_sub {x y : K} (hx : ga * x + de ≠ 0) (hy : ga * y + de ≠ 0) :
    (al * x + be) / (ga * x + de) - (al * y + be) / (ga * y + de) =
      (al * de - ga * be) * (x - y) / ((ga * x + de) * (ga * y + de)) := by
  rw [div_sub_div _ _ hx hy]
  congr 1
  ring

/-- The basis functions under `t ↦ (αt+β)/(γt+δ)`. -/
theorem Nspan_mobius {U V : ℕ → K} {s : ℕ} {t : K} (hD : al * de - ga * be ≠ 0) (ht : ga * t + de ≠ 0) :
    ∀ (q i : ℕ), (∀ j, i ≤ j → j ≤ i + q + 1 → V j = (al * U j + be) / (ga * U j + de) ∧ ga * U j + de ≠ 0) →
      Nspan V s q i ((al * t + be) / (ga * t + de)) =
        (∏ j ∈ range q, ((ga * U (i + 1 + j) + de) / (ga * t + de))) * Nspan U s q i t := by
  intro q
  induction q with
  | zero => intro i _; simp [Nspan]
  | succ q ih =>
    intro i h
    simp only [Nspan]
    rw [ih i (fun j h1 h2 => h j h1 (by omega)), ih (i + 1) (fun j h1 h2 => h j (by omega) (by omega)),
      (h i (by omega) (by omega)).1, (h (i + q + 1) (by omega) (by omega)).1, (h (i + q + 2) (by omega) (by omega)).1,
      (h (i + 1) (by omega) (by omega)).1]
    have n0 := (h i (by omega) (by omega)).2
    have n1 := (h (i + 1) (by omega) (by omega)).2
    have n2 := (h (i + q + 1) (by omega) (by omega)).2
    have n3 := (h (i + q + 2) (by omega) (by omega)).2
    have e1 : ∀ x z : K, ga * x + de ≠ 0 → ga * z + de ≠ 0 →
        ((al * t + be) / (ga * t + de) - (al * x + be) / (ga * x + de)) / ((al * z + be) / (ga * z + de) - (al * x + be) / (ga * x + de)) =
          (t - x) / (z - x) * ((ga * z + de) / (ga * t + de)) := by
      intro x z hx hz
      rw [mobius_sub ht hx, mobius_sub hz hx]
      by_cases hzx : z - x = 0
      · simp [hzx]
      · field_simp
    have e2 : ∀ x z : K, ga * x + de ≠ 0 → ga * z + de ≠ 0 →
        ((al * z + be) / (ga * z + de) - (al * t + be) / (ga * t + de)) / ((al * z + be) / (ga * z + de) - (al * x + be) / (ga * x + de)) =
          (z - t) / (z - x) * ((ga * x + de) / (ga * t + de)) := by
      intro x z hx hz
      rw [mobius_sub hz ht, mobius_sub hz hx]
      by_cases hzx : z - x = 0
      · simp [hzx]
      · field_simp
    rw [e1 _ _ n0 n2, e2 _ _ n1 n3]
    have p1 : ∏ j ∈ range (q + 1), ((ga * U (i + 1 + j) + de) / (ga * t + de)) =
        (∏ j ∈ range q, ((ga * U (i + 1 + j) + de) / (ga * t + de))) * ((ga * U (i + q + 1) + de) / (ga * t + de)) := by
      rw [prod_range_succ, show i + 1 + q = i + q + 1 by omega]
    have p2 : ∏ j ∈ range (q + 1), ((ga * U (i + 1 + j) + de) / (ga * t + de)) =
        (∏ j ∈ range q, ((ga * U (i + 1 + 1 + j) + de) / (ga * t + de))) * ((ga * U (i + 1) + de) / (ga * t + de)) := by
      rw [prod_range_succ']
      congr 1
      apply prod_congr rfl
      intro j _
      rw [show i + 1 + (j + 1) = i + 1 + 1 + j by omega]
    rw [mul_add]
    congr 1
    · rw [p1]; ring
    · rw [p2]; ring

theorem mobius_lt {x y : K} (hD : 0 < al * de - ga * be) (hs : 0 < (ga * x + de) * (ga * y + de)) :
    (al * x + be) / (ga * x + de) < (al * y + be) / (ga * y + de) ↔ x < y := by
  have hx : ga * x + de ≠ 0 := fun h => by rw [h, zero_mul] at hs; exact lt_irrefl _ hs
  have hy : ga * y + de ≠ 0 := fun h => by rw [h, mul_zero] at hs; exact lt_irrefl _ hs
  rw [← sub_pos, mobius_sub hy hx, ← sub_pos (b := x), mul_comm (ga * y + de)]
  constructor
  · intro h
    by_contra hc
    rw [not_lt] at hc
    have : (al * de - ga * be) * (y - x) / ((ga * x + de) * (ga * y + de)) ≤ 0 :=
      div_nonpos_of_nonpos_of_nonneg (mul_nonpos_of_nonneg_of_nonpos hD.le hc) hs.le
    linarith
  · intro h; positivity

end

end LNLib
