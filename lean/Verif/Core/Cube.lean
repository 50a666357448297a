import Verif.Core.Hoare

/-!
# Three dimensional containers (`std::vector<std::vector<std::vector<T>>>`)
-/

namespace LNLib
open Res

variable {α : Type}

/-- `c[i][j][k]` -/
def cget (c : List (List (List α))) (i j k : ℤ) : Res α := do
  let p ← vget c i
  mget p j k

/-- `c[i][j][k] = x` -/
def cset (c : List (List (List α))) (i j k : ℤ) (x : α) : Res (List (List (List α))) := do
  let p ← vget c i
  let p' ← mset p j k x
  vset c i p'

/-- `c` is an `a × b × d` table. -/
def IsCube (c : List (List (List α))) (a b d : ℕ) : Prop := c.length = a ∧ ∀ i < a, IsMat (row c i) b d

theorem isCube_replicate {a b d : ℕ} {x : α} : IsCube (List.replicate a (List.replicate b (List.replicate d x))) a b d := by
  refine ⟨by simp, fun i hi => ?_⟩
  have : row (List.replicate a (List.replicate b (List.replicate d x))) i = List.replicate b (List.replicate d x) := by
    simp [row, hi]
  rw [this]
  exact isMat_replicate

variable [Zero α]

/-- the entry `c[i][j][k]`, zero outside. -/
def ent3 (c : List (List (List α))) (i j k : ℕ) : α := ent (row c i) j k

theorem cget_ent3 {c : List (List (List α))} {a b d : ℕ} (hc : IsCube c a b d) {i j k : ℤ} {x y z : ℕ}
    (hi : i = x) (hj : j = y) (hk : k = z) (hx : x < a) (hy : y < b) (hz : z < d) : cget c i j k = ok (ent3 c x y z) := by
  unfold cget
  rw [vget_row hi (by rw [hc.1]; exact hx), ok_bind]
  exact mget_ent (hc.2 x hx) hj hk hy hz

theorem cset_ok {c : List (List (List α))} {a b d : ℕ} (hc : IsCube c a b d) {i j k : ℤ} {x y z : ℕ} {e : α}
    (hi : i = x) (hj : j = y) (hk : k = z) (hx : x < a) (hy : y < b) (hz : z < d) :
    ∃ c', cset c i j k e = ok c' ∧ IsCube c' a b d ∧
      ∀ x' y' z', ent3 c' x' y' z' = if x' = x ∧ y' = y ∧ z' = z then e else ent3 c x' y' z' := by
  have hxl : x < c.length := by rw [hc.1]; exact hx
  obtain ⟨m, e1, hm, he⟩ := mset_ok (x := e) (hc.2 x hx) hj hk hy hz
  refine ⟨c.set x m, ?_, ⟨?_, ?_⟩, ?_⟩
  · unfold cset
    rw [vget_row hi hxl, ok_bind, e1, ok_bind, vset_of hi hxl]
  · simp [hc.1]
  · intro t ht
    rw [row_set hxl]
    split
    · exact hm
    · exact hc.2 t ht
  · intro x' y' z'
    unfold ent3
    rw [row_set hxl]
    by_cases h : x' = x
    · subst h
      simp only [if_true, true_and]
      exact he y' z'
    · simp [h]

omit [Zero α] in
theorem cset_ub {c : List (List (List α))} {i j k : ℤ} {e : α} (h : (c.length : ℤ) ≤ i) : cset c i j k e = ub := by
  unfold cset
  rw [vget_ge h]
  rfl

theorem ent3_replicate_zero {a b d i j k : ℕ} : ent3 (List.replicate a (List.replicate b (List.replicate d (0 : α)))) i j k = 0 := by
  unfold ent3
  by_cases h : i < a
  · have : row (List.replicate a (List.replicate b (List.replicate d (0 : α)))) i = List.replicate b (List.replicate d 0) := by
      simp [row, h]
    rw [this, ent_replicate_zero]
  · have : row (List.replicate a (List.replicate b (List.replicate d (0 : α)))) i = [] := by
      simp [row, h]
    rw [this]
    simp [ent, row]

end LNLib
