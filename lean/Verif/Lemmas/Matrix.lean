import Verif.Core.Vec
import Verif.Core.Hoare
import Verif.Model.MathUtils
import Mathlib.Algebra.BigOperators.Ring.Finset
import Mathlib.Algebra.BigOperators.Group.Finset.Sigma

/-!
# Loop lemmas for the matrix helpers of MathUtils
-/
set_option linter.unusedSectionVars false

namespace LNLib
open Res Finset

section
variable {α : Type}

theorem row_ext {m m' : List (List α)} (hl : m.length = m'.length) (h : ∀ i < m.length, row m i = row m' i) : m = m' := by
  apply List.ext_getElem hl
  intro i h1 h2
  have := h i h1
  simpa [row, h1, h2] using this

theorem mat_ext [Zero α] {m m' : List (List α)} {r c : ℕ} (h : IsMat m r c) (h' : IsMat m' r c)
    (he : ∀ i < r, ∀ j < c, ent m i j = ent m' i j) : m = m' := by
  apply row_ext (by rw [h.1, h'.1])
  intro i hi
  rw [h.1] at hi
  apply ext_nth (by rw [h.2 i hi, h'.2 i hi])
  intro j hj
  rw [h.2 i hi] at hj
  exact he i hi j hj

/-- The table with `r` rows, `c` columns and entries `f i j`. -/
def tab (r c : ℕ) (f : ℕ → ℕ → α) : List (List α) := (List.range r).map fun i => (List.range c).map fun j => f i j

theorem row_tab {r c : ℕ} {f : ℕ → ℕ → α} {i : ℕ} (h : i < r) : row (tab r c f) i = (List.range c).map fun j => f i j := by
  simp [row, tab, h]

theorem isMat_tab {r c : ℕ} {f : ℕ → ℕ → α} : IsMat (tab r c f) r c := by
  refine ⟨by simp [tab], fun i hi => by rw [row_tab hi]; simp⟩

theorem nth_mapRange [Zero α] {c j : ℕ} {f : ℕ → α} (h : j < c) : nth ((List.range c).map f) j = f j := by
  rw [nth_eq_getElem (by simpa using h)]; simp

theorem ent_tab [Zero α] {r c : ℕ} {f : ℕ → ℕ → α} {i j : ℕ} (hi : i < r) (hj : j < c) : ent (tab r c f) i j = f i j := by
  unfold ent; rw [row_tab hi, nth_mapRange hj]

theorem eq_tab [Zero α] {m : List (List α)} {r c : ℕ} (h : IsMat m r c) {f : ℕ → ℕ → α} (he : ∀ i < r, ∀ j < c, ent m i j = f i j) :
    m = tab r c f := mat_ext h isMat_tab fun i hi j hj => by rw [he i hi j hj, ent_tab hi hj]

/-- appending `f 0, f 1, …` in a loop. -/
theorem forI_append {n : ℤ} {m : ℕ} {rd : ℤ → Res α} {f : ℕ → α} {s : List α} (hn : n = m) (h : ∀ i < m, rd (i : ℤ) = ok (f i)) :
    (forI 0 n s fun i acc => rd i >>= fun x => ok (acc ++ [x])) = ok (s ++ (List.range m).map f) := by
  apply Runs.eq
  refine (Runs.forN (m := 0) (n := m) (fun i acc => acc = s ++ (List.range i).map f) (by simp) hn (by omega) (by simp) ?_).mono ?_
  · rintro i acc _ hi rfl
    rw [h i hi, ok_bind]
    refine Runs.ok ?_
    rw [List.range_succ, List.map_append, List.append_assoc]; rfl
  · rintro acc rfl; rfl

/-- appending with an option-free payload, spelled as in `Transpose`. -/
theorem transposeM_run [Zero α] {m : List (List α)} {r c : ℕ} (hm : IsMat m r c) (hr : 0 < r) (out : List (List α)) :
    transposeM m out = ok (out ++ tab c r fun i j => ent m j i) := by
  unfold transposeM
  rw [vget_row (k := 0) (by simp) (by rw [hm.1]; exact hr), ok_bind]
  apply forI_append (f := fun i => (List.range r).map fun j => ent m j i) (rd := fun i =>
    forI 0 (m.length : ℤ) ([] : List α) fun j temp => mget m j i >>= fun x => ok (temp ++ [x])) (by rw [hm.2 0 hr])
  intro i hi
  rw [forI_append (m := r) (f := fun j => ent m j i) (rd := fun j => mget m j (i : ℤ)) (by rw [hm.1])
    (fun j hj => mget_ent hm rfl rfl hj hi)]
  rfl

end

variable {K : Type} [Field K]

theorem matrixMultiply_run {a b : List (List K)} {m n p : ℕ} (ha : IsMat a m n) (hb : IsMat b n p) (hm : 0 < m) (hn : 0 < n) :
    matrixMultiply a b = ok (tab m p fun i j => ∑ k ∈ range n, ent a i k * ent b k j) := by
  apply Runs.eq
  unfold matrixMultiply
  rw [vget_row (k := 0) (by simp) (by rw [ha.1]; exact hm), ok_bind, vget_row (k := 0) (by simp) (by rw [hb.1]; exact hn), ok_bind]
  have e1 := ha.2 0 hm
  have e2 := hb.2 0 hn
  have e3 := ha.1
  simp only [e1, e2, e3]
  set S : ℕ → ℕ → K := fun i j => ∑ k ∈ range n, ent a i k * ent b k j with hS
  refine (Runs.forN (m := 0) (n := m) (fun i r => IsMat r m p ∧ ∀ x y, ent r x y = if x < i ∧ y < p then S x y else 0)
    (by simp) rfl (by omega) ⟨isMat_replicate, fun x y => by rw [ent_replicate_zero, if_neg (by omega)]⟩ ?_).mono ?_
  · rintro i r _ hi ⟨hr, hv⟩
    refine (Runs.forN (m := 0) (n := p) (fun j r => IsMat r m p ∧ ∀ x y, ent r x y =
        if (x < i ∧ y < p) ∨ (x = i ∧ y < j) then S x y else 0) (by simp) rfl (by omega) ⟨hr, fun x y => by rw [hv]; congr 1; simp⟩ ?_).mono ?_
    · rintro j r _ hj ⟨hr, hv⟩
      refine (Runs.forN (m := 0) (n := n) (fun k r => IsMat r m p ∧ ∀ x y, ent r x y =
          if (x < i ∧ y < p) ∨ (x = i ∧ y < j) then S x y else if x = i ∧ y = j then ∑ k ∈ range k, ent a i k * ent b k j else 0)
          (by simp) rfl (by omega) ⟨hr, fun x y => by rw [hv]; simp⟩ ?_).mono ?_
      · rintro k r _ hk ⟨hr, hv⟩
        rw [mget_ent hr rfl rfl hi hj, ok_bind, mget_ent ha rfl rfl hi hk, ok_bind, mget_ent hb rfl rfl hk hj, ok_bind]
        obtain ⟨r', e, hr', hv'⟩ := mset_ok (x := ent r i j + ent a i k * ent b k j) hr (i := (i : ℤ)) (j := (j : ℤ)) rfl rfl hi hj
        rw [e]
        refine Runs.ok ⟨hr', fun x y => ?_⟩
        rw [hv']
        by_cases h : x = i ∧ y = j
        · rw [if_pos h, if_neg (by omega), if_pos h, hv, if_neg (by omega), if_pos ⟨rfl, rfl⟩, sum_range_succ]
        · rw [if_neg h, if_neg h, hv, if_neg h]
      · rintro r ⟨hr, hv⟩
        refine ⟨hr, fun x y => ?_⟩
        rw [hv]
        by_cases h : x = i ∧ y = j
        · rw [if_neg (by omega), if_pos h, if_pos (by omega), h.1, h.2]
        · rw [if_neg h]
          congr 1
          simp only [eq_iff_iff]
          omega
    · rintro r ⟨hr, hv⟩
      refine ⟨hr, fun x y => ?_⟩
      rw [hv]
      congr 1
      simp only [eq_iff_iff]
      omega
  · rintro r ⟨hr, hv⟩
    exact eq_tab hr fun i hi j hj => by rw [hv, if_pos ⟨hi, hj⟩]

theorem makeDiagonal_run {n : ℕ} : makeDiagonal (K := K) (n : ℤ) = ok (tab n n fun i j => if i = j then 1 else 0) := by
  apply Runs.eq
  unfold makeDiagonal
  simp only [Int.toNat_natCast]
  refine (Runs.forN (m := 0) (n := n) (fun i r => r.length = n ∧ ∀ x < i, row r x = (List.range n).map fun j => if x = j then (1 : K) else 0)
    (by simp) rfl (by omega) ⟨by simp, fun x h => by omega⟩ ?_).mono ?_
  · rintro i r _ hi ⟨hr, hv⟩
    refine Runs.bind (Q := fun l => l = (List.range n).map fun j => if i = j then (1 : K) else 0) ?_ ?_
    · refine (Runs.forN (m := 0) (n := n) (fun j l => l.length = n ∧ ∀ y < j, nth l y = if i = y then (1 : K) else 0)
        (by simp) rfl (by omega) ⟨by simp, fun x h => by omega⟩ ?_).mono ?_
      · rintro j l _ hj ⟨hl, hw⟩
        have : (if (i : ℤ) = (j : ℤ) then vset l (j : ℤ) (1 : K) else vset l (j : ℤ) 0) = ok (l.set j (if i = j then 1 else 0)) := by
          by_cases h : i = j
          · rw [if_pos (by omega), if_pos h, vset_of rfl (by omega)]
          · rw [if_neg (by omega), if_neg h, vset_of rfl (by omega)]
        rw [this]
        refine Runs.ok ⟨by simp [hl], fun y hy => ?_⟩
        rw [nth_set (by omega)]
        by_cases h : y = j
        · rw [if_pos h, h]
        · rw [if_neg h]; exact hw y (by omega)
      · rintro l ⟨hl, hw⟩
        apply ext_nth (by simp [hl])
        intro y hy
        rw [hw y (by omega), nth_mapRange (by omega)]
    · rintro l rfl
      rw [vset_of rfl (by omega)]
      refine Runs.ok ⟨by simp [hr], fun x hx => ?_⟩
      rw [row_set (by omega)]
      by_cases h : x = i
      · rw [if_pos h, h]
      · rw [if_neg h]; exact hv x (by omega)
  · rintro r ⟨hr, hv⟩
    apply row_ext (by rw [hr, isMat_tab.1])
    intro i hi
    rw [hv i (by omega), row_tab (by omega)]

end LNLib
