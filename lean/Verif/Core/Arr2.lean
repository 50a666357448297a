import Verif.Core.Vec

/-!
# Two-dimensional C arrays

`double a[n][m]` is a table of optional cells; an uninitialised cell is `none`.
-/

namespace LNLib
open Res

section
variable {α : Type}

/-- `double a[r][c];` without initialiser -/
def uninit2 (α : Type) (r c : ℕ) : List (List (Option α)) := List.replicate r (uninit α c)

/-- `a[i][j]`: out of bounds or uninitialised is undefined behaviour. -/
def aget2 (m : List (List (Option α))) (i j : ℤ) : Res α := do
  let r ← vget m i
  aget r j

/-- `a[i][j] = x` -/
def aset2 (m : List (List (Option α))) (i j : ℤ) (x : α) : Res (List (List (Option α))) := do
  let r ← vget m i
  let r' ← aset r j x
  vset m i r'

/-- the cell `a[i][j]`; `none` when uninitialised or outside -/
def cell (m : List (List (Option α))) (i j : ℕ) : Option α := ((row m i)[j]?).join

theorem aget2_of {m : List (List (Option α))} {i j : ℤ} {a b : ℕ} {x : α} (hi : i = a) (hj : j = b)
    (h : cell m a b = some x) : aget2 m i j = ok x := by
  unfold aget2
  have hal : a < m.length := by
    by_contra hc
    have : row m a = [] := by simp [row, not_lt.mp hc]
    simp [cell, this] at h
  rw [vget_row hi hal, ok_bind]
  apply aget_of hj
  unfold cell at h
  cases hh : (row m a)[b]? with
  | none => simp [hh] at h
  | some y => simp [hh] at h; simp [h]

theorem aset2_ok {m : List (List (Option α))} {r c : ℕ} (hm : IsMat m r c) {i j : ℤ} {a b : ℕ} {x : α}
    (hi : i = a) (hj : j = b) (ha : a < r) (hb : b < c) :
    ∃ m', aset2 m i j x = ok m' ∧ IsMat m' r c ∧
      ∀ a' b', cell m' a' b' = if a' = a ∧ b' = b then some x else cell m a' b' := by
  have hal : a < m.length := by rw [hm.1]; exact ha
  have hbl : b < (row m a).length := by rw [hm.2 a ha]; exact hb
  refine ⟨m.set a ((row m a).set b (some x)), ?_, ⟨?_, ?_⟩, ?_⟩
  · unfold aset2
    rw [vget_row hi hal, ok_bind, aset_of hj hbl, ok_bind, vset_of hi hal]
  · simp [hm.1]
  · intro k hk
    rw [row_set hal]
    split
    · simp [hm.2 a ha]
    · exact hm.2 k hk
  · intro a' b'
    unfold cell
    rw [row_set hal]
    by_cases h : a' = a
    · subst h
      simp only [if_true, true_and]
      by_cases hb' : b' = b
      · subst hb'; simp [hbl]
      · rw [if_neg hb', List.getElem?_set_ne (fun e => hb' e.symm)]
    · simp [h]

theorem isMat_uninit2 {r c : ℕ} : IsMat (uninit2 α r c) r c := isMat_replicate

end

end LNLib
