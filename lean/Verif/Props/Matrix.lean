import Verif.Lemmas.Matrix

/-!
# C31: matrix helpers (Mathematics/Utils/MathUtils.cpp, include/MathUtils.h)

A matrix is a list of rows; `IsMat m r c` says it has `r` rows of `c` entries and `ent m i j` is the
entry in row `i` and column `j`.
-/
set_option linter.unusedSectionVars false

namespace LNLib.Props
open LNLib Res Finset

variable {K : Type} [Field K]

/-- C31: `Transpose` of an `r × c` matrix into an empty output is the `c × r` matrix with the
entries exchanged; the output argument is appended to. -/
theorem C31_transpose {α : Type} [Zero α] {m : List (List α)} {r c : ℕ} (hm : IsMat m r c) (hr : 0 < r) (out : List (List α)) :
    ∃ t, transposeM m out = ok (out ++ t) ∧ IsMat t c r ∧ ∀ i < c, ∀ j < r, ent t i j = ent m j i :=
  ⟨_, transposeM_run hm hr out, isMat_tab, fun _ hi _ hj => ent_tab hi hj⟩

/-- C31: transposing twice gives the matrix back. -/
theorem C31_transpose_involution {α : Type} [Zero α] {m : List (List α)} {r c : ℕ} (hm : IsMat m r c) (hr : 0 < r) (hc : 0 < c) :
    (transposeM m [] >>= fun t => transposeM t []) = ok m := by
  rw [transposeM_run hm hr, ok_bind, List.nil_append, transposeM_run isMat_tab hc, List.nil_append]
  congr 1
  apply mat_ext isMat_tab hm
  intro i hi j hj
  rw [ent_tab hi hj, ent_tab hj hi]

/-- C31: `Transpose` of the empty matrix reads `matrix[0]` out of bounds. -/
theorem C31_transpose_empty_ub {α : Type} (out : List (List α)) : transposeM [] out = ub := rfl

/-- C31: `MatrixMultiply` is the matrix product. -/
theorem C31_multiply {a b : List (List K)} {m n p : ℕ} (ha : IsMat a m n) (hb : IsMat b n p) (hm : 0 < m) (hn : 0 < n) :
    ∃ c, matrixMultiply a b = ok c ∧ IsMat c m p ∧ ∀ i < m, ∀ j < p, ent c i j = ∑ k ∈ range n, ent a i k * ent b k j :=
  ⟨_, matrixMultiply_run ha hb hm hn, isMat_tab, fun _ hi _ hj => ent_tab hi hj⟩

/-- C31: the product is associative. -/
theorem C31_multiply_assoc {a b c : List (List K)} {m n p q : ℕ} (ha : IsMat a m n) (hb : IsMat b n p) (hc : IsMat c p q)
    (hm : 0 < m) (hn : 0 < n) (hp : 0 < p) :
    ∃ r, (matrixMultiply a b >>= fun ab => matrixMultiply ab c) = ok r ∧ (matrixMultiply b c >>= fun bc => matrixMultiply a bc) = ok r := by
  rw [matrixMultiply_run ha hb hm hn, ok_bind, matrixMultiply_run isMat_tab hc hm hp, matrixMultiply_run hb hc hn hp, ok_bind,
    matrixMultiply_run ha isMat_tab hm hn]
  refine ⟨_, rfl, ?_⟩
  congr 1
  apply mat_ext isMat_tab isMat_tab
  intro i hi j hj
  rw [ent_tab hi hj, ent_tab hi hj]
  have h1 : ∀ k ∈ range n, ent a i k * ent (tab n q fun i j => ∑ k ∈ range p, ent b i k * ent c k j) k j =
      ∑ l ∈ range p, ent a i k * ent b k l * ent c l j := by
    intro k hk
    rw [ent_tab (mem_range.mp hk) hj, mul_sum]
    exact sum_congr rfl fun _ _ => by ring
  have h2 : ∀ l ∈ range p, ent (tab m p fun i j => ∑ k ∈ range n, ent a i k * ent b k j) i l * ent c l j =
      ∑ k ∈ range n, ent a i k * ent b k l * ent c l j := by
    intro l hl
    rw [ent_tab hi (mem_range.mp hl), sum_mul]
  rw [sum_congr rfl h1, sum_congr rfl h2, sum_comm]

/-- C31: `MakeDiagonal(n)` is a two-sided identity for the product. -/
theorem C31_identity {a : List (List K)} {m n : ℕ} (ha : IsMat a m n) (hm : 0 < m) (hn : 0 < n) :
    (makeDiagonal (m : ℤ) >>= fun d => matrixMultiply d a) = ok a ∧ (makeDiagonal (n : ℤ) >>= fun d => matrixMultiply a d) = ok a := by
  rw [makeDiagonal_run, ok_bind, makeDiagonal_run, ok_bind, matrixMultiply_run isMat_tab ha hm hm, matrixMultiply_run ha isMat_tab hm hn]
  constructor
  · congr 1
    apply mat_ext isMat_tab ha
    intro i hi j hj
    rw [ent_tab hi hj, sum_eq_single i]
    · rw [ent_tab hi hi, if_pos rfl, one_mul]
    · intro k hk hki
      rw [ent_tab hi (mem_range.mp hk), if_neg hki.symm, zero_mul]
    · intro h; exact absurd (mem_range.mpr hi) h
  · congr 1
    apply mat_ext isMat_tab ha
    intro i hi j hj
    rw [ent_tab hi hj, sum_eq_single j]
    · rw [ent_tab hj hj, if_pos rfl, mul_one]
    · intro k hk hkj
      rw [ent_tab (mem_range.mp hk) hj, if_neg hkj, mul_zero]
    · intro h; exact absurd (mem_range.mpr hj) h

example : IsMat [[1, 2, 3], [4, 5, (6 : ℚ)]] 2 3 ∧ transposeM [[1, 2, 3], [4, 5, (6 : ℚ)]] [] = ok [[1, 4], [2, 5], [3, 6]] ∧
    matrixMultiply [[1, 2, 3], [4, 5, (6 : ℚ)]] [[1, 4], [2, 5], [3, 6]] = ok [[14, 32], [32, 77]] := by
  unfold IsMat; decide +kernel

end LNLib.Props
