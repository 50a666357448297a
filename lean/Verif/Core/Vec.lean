import Verif.Core.Res

/-!
# Total accessors for containers, used in statements and invariants
-/

namespace LNLib
open Res

section
variable {α : Type} [Zero α]

/-- `l[i]`, zero outside; only ever used for indices that are also shown to be in range. -/
def nth (l : List α) (i : ℕ) : α := l.getD i 0

theorem nth_eq_getElem {l : List α} {i : ℕ} (h : i < l.length) : nth l i = l[i] := by
  simp [nth, h]

theorem getElem?_nth {l : List α} {i : ℕ} (h : i < l.length) : l[i]? = some (nth l i) := by
  simp [nth, h]

theorem nth_of_getElem? {l : List α} {i : ℕ} {x : α} (h : l[i]? = some x) : nth l i = x := by
  simp [nth, h]

theorem nth_set {l : List α} {i j : ℕ} {x : α} (h : i < l.length) :
    nth (l.set i x) j = if j = i then x else nth l j := by
  unfold nth
  by_cases hij : j = i
  · subst hij
    simp [List.getD, h]
  · simp only [List.getD, List.getElem?_set, hij, if_false]
    rw [if_neg (fun hh => hij hh.symm)]

theorem nth_replicate {n i : ℕ} {x : α} (h : i < n) : nth (List.replicate n x) i = x := by
  simp [nth, h]

theorem nth_replicate_zero {n i : ℕ} : nth (List.replicate n (0 : α)) i = 0 := by
  simp only [nth, List.getD]
  by_cases h : i < n
  · simp [h]
  · simp [h]

theorem nth_append_left {l m : List α} {i : ℕ} (h : i < l.length) : nth (l ++ m) i = nth l i := by
  simp [nth, List.getElem?_append, h]

theorem nth_append_right {l m : List α} {i : ℕ} (h : l.length ≤ i) :
    nth (l ++ m) i = nth m (i - l.length) := by
  simp [nth, List.getElem?_append, not_lt.mpr h]

@[simp] theorem nth_cons_zero {a : α} {l : List α} : nth (a :: l) 0 = a := rfl
@[simp] theorem nth_cons_succ {a : α} {l : List α} {i : ℕ} : nth (a :: l) (i + 1) = nth l i := rfl
@[simp] theorem nth_nil {i : ℕ} : nth ([] : List α) i = 0 := by simp [nth]

theorem nth_ge {l : List α} {i : ℕ} (h : l.length ≤ i) : nth l i = 0 := by
  simp [nth, h]

theorem nth_ofFn {n : ℕ} {f : Fin n → α} {i : ℕ} (h : i < n) : nth (List.ofFn f) i = f ⟨i, h⟩ := by
  simp [nth, h]

theorem nth_map {β : Type} [Zero β] {f : β → α} {l : List β} {i : ℕ} (h : i < l.length) :
    nth (l.map f) i = f (nth l i) := by
  simp [nth, h]

theorem nth_reverse {l : List α} {i : ℕ} (h : i < l.length) :
    nth l.reverse i = nth l (l.length - 1 - i) := by
  have h2 : l.length - 1 - i < l.length := by omega
  simp [nth, h, h2]

theorem vget_nth {v : List α} {i : ℤ} {k : ℕ} (hi : i = k) (h : k < v.length) :
    vget v i = ok (nth v k) := vget_of hi (getElem?_nth h)

theorem ext_nth {l m : List α} (hl : l.length = m.length) (h : ∀ i < l.length, nth l i = nth m i) :
    l = m := by
  apply List.ext_getElem hl
  intro i h1 h2
  have := h i h1
  rwa [nth_eq_getElem h1, nth_eq_getElem h2] at this

end

/-! ## Matrices (`std::vector<std::vector<double>>`) -/

section
variable {α : Type}

/-- `m[i][j]` -/
def mget (m : List (List α)) (i j : ℤ) : Res α := do
  let r ← vget m i
  vget r j

/-- `m[i][j] = x` -/
def mset (m : List (List α)) (i j : ℤ) (x : α) : Res (List (List α)) := do
  let r ← vget m i
  let r' ← vset r j x
  vset m i r'

/-- the row `m[i]`, empty outside. -/
def row (m : List (List α)) (i : ℕ) : List α := m.getD i []

/-- `m` is an `r × c` table. -/
def IsMat (m : List (List α)) (r c : ℕ) : Prop := m.length = r ∧ ∀ i < r, (row m i).length = c

theorem row_set {m : List (List α)} {i j : ℕ} {x : List α} (h : i < m.length) :
    row (m.set i x) j = if j = i then x else row m j := by
  unfold row
  by_cases hij : j = i
  · subst hij; simp [List.getD, h]
  · simp only [List.getD, List.getElem?_set, hij, if_false]
    rw [if_neg (fun hh => hij hh.symm)]

theorem getElem?_row {m : List (List α)} {i : ℕ} (h : i < m.length) : m[i]? = some (row m i) := by
  simp [row, h]

theorem vget_row {m : List (List α)} {i : ℤ} {k : ℕ} (hi : i = k) (h : k < m.length) :
    vget m i = ok (row m k) := vget_of hi (getElem?_row h)

theorem isMat_replicate {r c : ℕ} {x : α} : IsMat (List.replicate r (List.replicate c x)) r c := by
  refine ⟨by simp, ?_⟩
  intro i hi
  simp [row, hi]

variable [Zero α]

/-- the entry `m[i][j]`, zero outside. -/
def ent (m : List (List α)) (i j : ℕ) : α := nth (row m i) j

theorem mget_ent {m : List (List α)} {r c : ℕ} (hm : IsMat m r c) {i j : ℤ} {a b : ℕ}
    (hi : i = a) (hj : j = b) (ha : a < r) (hb : b < c) : mget m i j = ok (ent m a b) := by
  unfold mget
  rw [vget_row hi (by rw [hm.1]; exact ha), ok_bind]
  exact vget_nth hj (by rw [hm.2 a ha]; exact hb)

theorem mset_ok {m : List (List α)} {r c : ℕ} (hm : IsMat m r c) {i j : ℤ} {a b : ℕ} {x : α}
    (hi : i = a) (hj : j = b) (ha : a < r) (hb : b < c) :
    ∃ m', mset m i j x = ok m' ∧ IsMat m' r c ∧
      ∀ a' b', ent m' a' b' = if a' = a ∧ b' = b then x else ent m a' b' := by
  have hal : a < m.length := by rw [hm.1]; exact ha
  have hbl : b < (row m a).length := by rw [hm.2 a ha]; exact hb
  refine ⟨m.set a ((row m a).set b x), ?_, ⟨?_, ?_⟩, ?_⟩
  · unfold mset
    rw [vget_row hi hal, ok_bind, vset_of hj hbl, ok_bind, vset_of hi hal]
  · simp [hm.1]
  · intro k hk
    rw [row_set hal]
    split
    · simp [hm.2 a ha]
    · exact hm.2 k hk
  · intro a' b'
    unfold ent
    rw [row_set hal]
    by_cases h : a' = a
    · subst h
      simp only [if_true, true_and]
      rw [nth_set hbl]
    · simp [h]

theorem ent_replicate_zero {r c i j : ℕ} : ent (List.replicate r (List.replicate c (0 : α))) i j = 0 := by
  unfold ent
  by_cases h : i < r
  · have : row (List.replicate r (List.replicate c (0 : α))) i = List.replicate c 0 := by
      simp [row, h]
    rw [this, nth_replicate_zero]
  · have : row (List.replicate r (List.replicate c (0 : α))) i = [] := by
      simp [row, h]
    rw [this, nth_nil]
end

end LNLib
