import Verif.Model.CApiArrays
import Verif.Props.CApi
import Verif.Props.PowerBasis

/-!
# C166: tables across the C interface (/repo/dotnet/CAPI)
-/
set_option linter.unusedSectionVars false

namespace LNLib.Props
open LNLib Res LNLib.Spec Finset

variable {K : Type} [Field K] [LinearOrder K] [IsStrictOrderedRing K]

/-- C166: a table written row by row into an array is read back. -/
theorem C166_read {M : List (List K)} {r c : ℕ} (h : IsMat M r c) : unflatten r c M.flatten = ok M := by
  have hr : ∀ x ∈ M, x.length = c := by
    intro x hx
    obtain ⟨i, hi, rfl⟩ := List.getElem_of_mem hx
    have := h.2 i (by rw [← h.1]; exact hi)
    simpa [row, hi] using this
  unfold unflatten
  rw [gridR_ok (g := ent M), ← eq_tab h (fun i _ j _ => rfl)]
  intro i j hi hj
  refine vget_of (k := i * c + j) (by push_cast; rfl) ?_
  rw [flatten_get M hr i j (by rw [h.1]; exact hi) hj]
  have : j < (row M i).length := by rw [h.2 i hi]; exact hj
  simp [ent, nth, this]

example : unflatten 2 3 ([1, 2, 3, 4, 5, 6] : List ℚ) = ok [[1, 2, 3], [4, 5, 6]] :=
  C166_read (M := [[1, 2, 3], [4, 5, 6]]) ⟨rfl, by intro i hi; interval_cases i <;> rfl⟩

/-- C166: the value of a polynomial in two variables is that of the library, for all degrees and all tables of coefficients, written row by row. -/
theorem C166_horner {M : List (List K)} {p q : ℕ} (h : IsMat M (p + 1) (q + 1)) (u v : K) : capiHorner2 p q M.flatten u v = horner2 p q M u v := by
  unfold capiHorner2
  have e1 : ((p : ℤ) + 1).toNat = p + 1 := by omega
  have e2 : ((q : ℤ) + 1).toNat = q + 1 := by omega
  rw [e1, e2, C166_read h, ok_bind]

theorem all_rows {M : List (List K)} {r c : ℕ} (h : IsMat M r c) : (M.all fun x => decide (x.length = c)) = true := by
  rw [List.all_eq_true]
  intro x hx
  obtain ⟨i, hi, rfl⟩ := List.getElem_of_mem hx
  have := h.2 i (by rw [← h.1]; exact hi)
  simpa [row, hi] using this

/-- C166: for every degree the matrix from Bézier to power form arrives, with its sizes. -/
theorem C166_bezier_to_power (p : ℕ) : ∃ (M : List (List K)) (flat : List K), bezierToPowerMatrix p = ok M ∧ capiBezierToPower p = ok (some (flat, (p : ℤ) + 1, (p : ℤ) + 1)) ∧
    unflatten (p + 1) (p + 1) flat = ok M := by
  obtain ⟨M, e, hM, _⟩ := C49_bezier_to_power (K := K) (T := K) p
  refine ⟨M, M.flatten, e, ?_, C166_read hM⟩
  unfold capiBezierToPower
  rw [e, ok_bind]
  simp only
  rw [hM.1, if_neg (by omega), if_neg (by push_cast; simp), if_pos (all_rows hM), gridR_ok (g := ent M) (fun i j hi hj => mget_ent hM rfl rfl hi hj), ok_bind, ← eq_tab hM (fun i _ j _ => rfl)]
  push_cast
  rfl

theorem vget_ub_or {α : Type} {v : List α} {i : ℤ} : vget v i = ub ∨ ∃ y, vget v i = ok y := by
  by_cases h0 : i < 0
  · exact Or.inl (vget_neg h0)
  · by_cases h1 : (v.length : ℤ) ≤ i
    · exact Or.inl (vget_ge h1)
    · obtain ⟨k, rfl⟩ := Int.eq_ofNat_of_zero_le (not_lt.mp h0)
      exact Or.inr ⟨v[k]'(by omega), vget_ok (List.getElem?_eq_getElem (by omega))⟩

theorem mapR_ub_or {α β : Type} {f : α → Res β} {l : List α} (h : ∀ x ∈ l, f x = ub ∨ ∃ y, f x = ok y) : mapR f l = ub ∨ ∃ y, mapR f l = ok y := by
  induction l with
  | nil => exact Or.inr ⟨[], rfl⟩
  | cons x l ih =>
    unfold mapR
    rcases h x (by simp) with e | ⟨y, e⟩
    · left; rw [e]; rfl
    · rw [e, ok_bind]
      rcases ih (fun z hz => h z (by simp [hz])) with e' | ⟨r, e'⟩
      · left; rw [e']; rfl
      · right; rw [e']; exact ⟨y :: r, rfl⟩

theorem mapR_ub {α β : Type} {f : α → Res β} {l : List α} (h : ∀ x ∈ l, f x = ub ∨ ∃ y, f x = ok y) (hu : ∃ x ∈ l, f x = ub) : mapR f l = ub := by
  rcases mapR_ub_or h with e | ⟨r, e⟩
  · exact e
  · obtain ⟨x, hx, hxu⟩ := hu
    obtain ⟨y, _, e'⟩ := (mapR_post e).2.1 x hx
    rw [hxu] at e'
    exact absurd e' (by simp)

/-- C166 (violated): for every degree from one on, the matrix from power to Bézier form never arrives. The library makes it, but the function of the C interface copies from its own output argument
instead, a single pointer of the caller's: it reads behind it, whatever it points at. -/
theorem C166_power_to_bezier_violated (p : ℕ) (hp : 1 ≤ p) : ∃ M R : List (List K), bezierToPowerMatrix p = ok M ∧ powerToBezierMatrix p M = ok R ∧
    ∀ before : List K, capiPowerToBezier p M.flatten [before] = ub := by
  obtain ⟨M, e, hM, _⟩ := C49_bezier_to_power (K := K) (T := K) p
  obtain ⟨M', R, e', eR, hR, _⟩ := C49_power_to_bezier (K := K) (T := K) p
  rw [e] at e'
  injection e' with e'
  subst e'
  refine ⟨M, R, e, eR, ?_⟩
  intro before
  unfold capiPowerToBezier
  have e1 : ((p : ℤ) + 1).toNat = p + 1 := by omega
  simp only
  rw [e1, C166_read hM, ok_bind, eR, ok_bind, if_neg (by rw [hR.1]; simp), if_pos (all_rows hR)]
  have cell : ∀ i j : ℤ, mget [before] i j = ub ∨ ∃ y, mget [before] i j = ok y := by
    intro i j
    unfold mget
    rcases vget_ub_or (v := [before]) (i := i) with h | ⟨y, h⟩
    · left; rw [h]; rfl
    · rw [h, ok_bind]; exact vget_ub_or
  have key : gridR (p + 1) (p + 1) (fun i j => mget [before] i j) = ub := by
    refine mapR_ub (fun i _ => mapR_ub_or fun j _ => cell i j) ⟨1, List.mem_range.mpr (by omega), ?_⟩
    exact mapR_ub (fun j _ => cell _ j) ⟨0, List.mem_range.mpr (by omega), rfl⟩
  rw [key]
  rfl

/-- C166 (violated): even if the caller has a whole table there, what comes back is that table, not the matrix. -/
theorem C166_power_stale_violated (p : ℕ) {before : List (List K)} (hb : IsMat before (p + 1) (p + 1)) : ∃ M R : List (List K), bezierToPowerMatrix p = ok M ∧ powerToBezierMatrix p M = ok R ∧
    capiPowerToBezier p M.flatten before = ok (some (before.flatten, (p : ℤ) + 1, (p : ℤ) + 1)) := by
  obtain ⟨M, e, hM, _⟩ := C49_bezier_to_power (K := K) (T := K) p
  obtain ⟨M', R, e', eR, hR, _⟩ := C49_power_to_bezier (K := K) (T := K) p
  rw [e] at e'
  injection e' with e'
  subst e'
  refine ⟨M, R, e, eR, ?_⟩
  unfold capiPowerToBezier
  have e1 : ((p : ℤ) + 1).toNat = p + 1 := by omega
  simp only
  rw [e1, C166_read hM, ok_bind, eR, ok_bind, if_neg (by rw [hR.1]; simp), if_pos (all_rows hR), gridR_ok (g := ent before) (fun i j hi hj => mget_ent hb rfl rfl hi hj), ok_bind,
    ← eq_tab hb (fun i _ j _ => rfl)]
  push_cast
  rfl

example : IsMat ([[0, 0], [0, 0]] : List (List ℚ)) (1 + 1) (1 + 1) := ⟨rfl, by intro i hi; interval_cases i <;> rfl⟩

end LNLib.Props
