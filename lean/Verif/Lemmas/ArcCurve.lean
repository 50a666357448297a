import Verif.Lemmas.ArcGeom
import Verif.Lemmas.CurveEval
import Verif.Lemmas.Blossom

/-!
# Quadratic curves with double interior knots: a chain of Bézier segments
-/

namespace LNLib
open Res Spec Finset

/-- The knots of a chain of `m` quadratic segments over `[0, 1]`: the segment ends `k / m` are double, the ends triple. -/
structure ChainKnots (U : ℕ → ℝ) (m : ℕ) : Prop where
  first : U 0 = 0
  one : ∀ k, k ≤ m → U (2 * k + 1) = (k : ℝ) / m
  two : ∀ k, k ≤ m → U (2 * k + 2) = (k : ℝ) / m
  last : U (2 * m + 3) = 1

namespace ChainKnots
variable {U : ℕ → ℝ} {m : ℕ}

theorem eq (h : ChainKnots U m) (hm : 0 < m) {i : ℕ} (hi : i ≤ 2 * m + 3) : U i = (min ((i - 1) / 2) m : ℕ) / (m : ℝ) := by
  have hm' : (m : ℝ) ≠ 0 := by positivity
  rcases Nat.eq_zero_or_pos i with rfl | hpos
  · simp [h.first]
  rcases Nat.lt_or_ge (2 * m + 2) i with hlt | hge
  · have : i = 2 * m + 3 := by omega
    subst this
    rw [h.last, show (2 * m + 3 - 1) / 2 = m + 1 by omega, min_eq_right (by omega), div_self hm']
  · rcases Nat.even_or_odd' i with ⟨k, rfl | rfl⟩
    · obtain ⟨k, rfl⟩ : ∃ j, k = j + 1 := ⟨k - 1, by omega⟩
      rw [show 2 * (k + 1) = 2 * k + 2 by ring, h.two k (by omega), show (2 * k + 2 - 1) / 2 = k by omega, min_eq_left (by omega)]
    · rw [h.one k (by omega), show (2 * k + 1 - 1) / 2 = k by omega, min_eq_left (by omega)]

theorem mono (h : ChainKnots U m) (hm : 0 < m) : MonoTo U (2 * m + 3) := by
  intro i j hij hj
  rw [h.eq hm (by omega), h.eq hm hj]
  have hm' : (0 : ℝ) < m := by positivity
  rw [div_le_div_iff_of_pos_right hm']
  have : min ((i - 1) / 2) m ≤ min ((j - 1) / 2) m := by omega
  exact_mod_cast this

/-- one segment of the chain -/
theorem seg (h : ChainKnots U m) {T : Type} [AddCommGroup T] [Module ℝ T] {P : ℕ → T} {k : ℕ} (hk : k < m) {u : ℝ}
    (h0 : (k : ℝ) / m ≤ u) (h1 : u ≤ ((k + 1 : ℕ) : ℝ) / m) :
    curvePoint U 2 (2 * m) P u = bez2 (P (2 * k)) (P (2 * k + 1)) (P (2 * k + 2)) (u * m - k) := by
  have hm : 0 < m := by omega
  have hm' : (0 : ℝ) < m := by positivity
  have step : ∀ k, k < m → U (2 * k + 2) < U (2 * k + 3) := by
    intro k hk
    rw [h.two k hk.le, show 2 * k + 3 = 2 * (k + 1) + 1 by ring, h.one (k + 1) (by omega), div_lt_div_iff_of_pos_right hm']
    push_cast; linarith
  have piece : ∀ k, k < m → Piece U 2 (2 * k + 2) := by
    intro k hk
    exact ⟨by omega, fun i j a b => h.mono hm i j a (by omega), step k hk⟩
  have span : ∀ k, k < m → IsSpan U 2 (2 * m) u (2 * k + 2) →
      curvePoint U 2 (2 * m) P u = bez2 (P (2 * k)) (P (2 * k + 1)) (P (2 * k + 2)) (u * m - k) := by
    intro k hk hs
    rw [curvePoint_span (h.mono hm) (le_refl _) hs, E_eval (piece k hk)]
    simp only [List.replicate, E, List.length_cons, List.length_nil]
    rw [show 2 * k + 2 - 2 = 2 * k by omega]
    have a1 := h.one k hk.le
    have a2 := h.two k hk.le
    have a3 := h.one (k + 1) (by omega)
    have a4 := h.two (k + 1) (by omega)
    rw [show 2 * (k + 1) + 1 = 2 * k + 3 by ring] at a3
    rw [show 2 * (k + 1) + 2 = 2 * k + 4 by ring] at a4
    rw [show 2 * k + 2 + 1 = 2 * k + 3 by ring, show 2 * k + (0 + 1) + 1 = 2 * k + 2 by ring, show 2 * k + 0 + 1 = 2 * k + 1 by ring,
      show 2 * k + 1 + 2 + 1 = 2 * k + 4 by ring, show 2 * k + 1 + 0 + 1 = 2 * k + 2 by ring, show 2 * k + 1 + 1 = 2 * k + 2 by ring,
      a1, a2, a3, a4]
    have e1 : (((k + 1 : ℕ) : ℝ) / m - u) / (((k + 1 : ℕ) : ℝ) / m - k / m) = 1 - (u * m - k) := by
      push_cast; rw [← sub_div, show (k : ℝ) + 1 - k = 1 by ring]; field_simp; ring
    have e2 : (u - (k : ℝ) / m) / (((k + 1 : ℕ) : ℝ) / m - k / m) = u * m - k := by
      push_cast; rw [← sub_div, show (k : ℝ) + 1 - k = 1 by ring]; field_simp
    rw [e1, e2]
    unfold bez2
    module
  have hlast : U (2 * m + 1) = 1 := by rw [h.one m le_rfl, div_self hm'.ne']
  have e3 : U (2 * k + 2 + 1) = ((k + 1 : ℕ) : ℝ) / m := by
    rw [show 2 * k + 2 + 1 = 2 * (k + 1) + 1 by ring, h.one (k + 1) (by omega)]
  rcases h1.lt_or_eq with hlt | heq
  · exact span k hk ⟨by omega, by omega, step k hk, by rw [h.two k hk.le]; exact h0, Or.inl (by rw [e3]; exact hlt)⟩
  · rcases Nat.lt_or_ge (k + 1) m with hlt | hge
    · rw [span (k + 1) hlt ⟨by omega, by omega, step (k + 1) hlt, by rw [h.two (k + 1) hlt.le, heq], Or.inl (by
        rw [show 2 * (k + 1) + 2 + 1 = 2 * (k + 2) + 1 by ring, h.one (k + 2) (by omega), heq, div_lt_div_iff_of_pos_right hm']
        push_cast; linarith)⟩]
      have e4 : u * m = k + 1 := by rw [heq]; push_cast; field_simp
      unfold bez2
      rw [e4, show 2 * (k + 1) = 2 * k + 2 by ring]
      push_cast
      rw [show (k : ℝ) + 1 - (k + 1) = 0 by ring, show (k : ℝ) + 1 - k = 1 by ring]
      simp
    · have : k + 1 = m := by omega
      refine span k hk ⟨by omega, by omega, step k hk, by rw [h.two k hk.le]; exact h0, Or.inr ⟨by rw [e3, heq], by rw [e3, hlast, this, div_self hm'.ne']⟩⟩

theorem exists_seg (m : ℕ) {u : ℝ} (hm : 0 < m) (h0 : 0 ≤ u) (h1 : u ≤ 1) :
    ∃ k, k < m ∧ (k : ℝ) / m ≤ u ∧ u ≤ ((k + 1 : ℕ) : ℝ) / m := by
  have hm' : (0 : ℝ) < m := by positivity
  rcases h1.lt_or_eq with hlt | rfl
  · refine ⟨⌊u * m⌋₊, ?_, ?_, ?_⟩
    · rw [Nat.floor_lt (by positivity)]; nlinarith
    · rw [div_le_iff₀ hm']; exact Nat.floor_le (by positivity)
    · rw [le_div_iff₀ hm']; push_cast; exact (Nat.lt_floor_add_one _).le
  · refine ⟨m - 1, by omega, ?_, ?_⟩
    · rw [div_le_iff₀ hm', one_mul]; exact_mod_cast (by omega : m - 1 ≤ m)
    · rw [le_div_iff₀ hm', one_mul]; exact_mod_cast (by omega : m ≤ m - 1 + 1)

theorem local_mem {k : ℕ} {u : ℝ} (hm : 0 < m) (h0 : (k : ℝ) / m ≤ u) (h1 : u ≤ ((k + 1 : ℕ) : ℝ) / m) :
    0 ≤ u * m - k ∧ u * m - k ≤ 1 := by
  have hm' : (0 : ℝ) < m := by positivity
  rw [div_le_iff₀ hm'] at h0
  rw [le_div_iff₀ hm'] at h1
  push_cast at h1
  constructor <;> linarith

end ChainKnots

end LNLib
