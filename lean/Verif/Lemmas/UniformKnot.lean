import Verif.Lemmas.CurveDers
import Mathlib.Tactic.FieldSimp

/-!
# Cubic basis functions at a knot with equally spaced neighbours, and at the ends of the support
-/

namespace LNLib
open Res LNLib.Spec Finset
variable {K : Type} [Field K] [LinearOrder K] [IsStrictOrderedRing K]

theorem uniform_knot_cubic {U : ℕ → K} {r : ℕ} {t d : K} (hd : 0 < d) (h1 : U (r + 1) = t - 2 * d) (h2 : U (r + 2) = t - d) (h3 : U (r + 3) = t)
    (h4 : U (r + 4) = t + d) (h5 : U (r + 5) = t + 2 * d) :
    Nspan U (r + 3) 3 r t = 1 / 6 ∧ Nspan U (r + 3) 3 (r + 1) t = 4 / 6 ∧ Nspan U (r + 3) 3 (r + 2) t = 1 / 6 ∧ Nspan U (r + 3) 3 (r + 3) t = 0 := by
  have hd' := hd.ne'
  refine ⟨?_, ?_, ?_, ?_⟩ <;>
  · simp [Nspan, h1, h2, h3, h4, h5, add_assoc]
    try (ring_nf; field_simp; try norm_num)

theorem uniform_knot_quadratic {U : ℕ → K} {r : ℕ} {t d : K} (hd : 0 < d) (h2 : U (r + 2) = t - d) (h3 : U (r + 3) = t) (h4 : U (r + 4) = t + d) :
    Nspan U (r + 3) 2 r t = 0 ∧ Nspan U (r + 3) 2 (r + 1) t = 1 / 2 ∧ Nspan U (r + 3) 2 (r + 2) t = 1 / 2 ∧ Nspan U (r + 3) 2 (r + 3) t = 0 ∧
      Nspan U (r + 3) 2 (r + 4) t = 0 := by
  have hd' := hd.ne'
  refine ⟨?_, ?_, ?_, ?_, ?_⟩ <;>
  · simp [Nspan, h2, h3, h4, add_assoc]
    try (ring_nf; field_simp; try norm_num)

theorem uniform_knot_dN {U : ℕ → K} {m r : ℕ} {t d : K} (hm : MonoTo U m) (hr : r + 7 ≤ m) (hd : 0 < d) (h1 : U (r + 1) = t - 2 * d) (h2 : U (r + 2) = t - d)
    (h3 : U (r + 3) = t) (h4 : U (r + 4) = t + d) (h5 : U (r + 5) = t + 2 * d) :
    dN U (r + 3) 3 r 1 t = - (2 * d)⁻¹ ∧ dN U (r + 3) 3 (r + 1) 1 t = 0 ∧ dN U (r + 3) 3 (r + 2) 1 t = (2 * d)⁻¹ ∧ dN U (r + 3) 3 (r + 3) 1 t = 0 := by
  obtain ⟨n0, n1, n2, n3, n4⟩ := uniform_knot_quadratic hd h2 h3 h4
  have hd' := hd.ne'
  refine ⟨?_, ?_, ?_, ?_⟩
  · rw [dN_succ hm _ _ _ _ (by omega)]
    simp only [dN_zero, n0, n1, h4, h1, show r + 2 + 2 = r + 4 from rfl]
    ring_nf
  · rw [dN_succ hm _ _ _ _ (by omega)]
    simp only [dN_zero, n1, n2, h4, h1, h5, h2, show r + 1 + 2 + 1 = r + 4 from rfl, show r + 1 + 2 + 2 = r + 5 from rfl, show r + 1 + 1 = r + 2 from rfl]
    ring_nf
  · rw [dN_succ hm _ _ _ _ (by omega)]
    simp only [dN_zero, n2, n3, h2, h5, show r + 2 + 2 + 1 = r + 5 from rfl, show r + 2 + 1 = r + 3 from rfl]
    ring_nf
  · rw [dN_succ hm _ _ _ _ (by omega)]
    simp only [dN_zero, n3, n4, show r + 3 + 1 = r + 4 from rfl]
    ring

/-- the first basis function of a span is positive before the right end of the span -/
theorem Nspan_first_pos {U : ℕ → K} {m s : ℕ} {t : K} (hm : MonoTo U m) (ht : t < U (s + 1)) (hlt : U s < U (s + 1)) (hs : s + 1 ≤ m) :
    ∀ p, p ≤ s → 0 < Nspan U s p (s - p) t := by
  intro p
  induction p with
  | zero => intro _; simp [Nspan]
  | succ p ih =>
    intro hp
    simp only [Nspan]
    rw [Nspan_zero U s p (s - (p + 1)) t (by omega), mul_zero, zero_add, show s - (p + 1) + p + 2 = s + 1 by omega, show s - (p + 1) + 1 = s - p by omega]
    have h := hm (s - p) s (by omega) (by omega)
    exact mul_pos (div_pos (by linarith) (by linarith)) (ih (by omega))

/-- the last basis function of a span is positive after the left end of the span -/
theorem Nspan_last_pos {U : ℕ → K} {m s : ℕ} {t : K} (hm : MonoTo U m) (ht : U s < t) (hlt : U s < U (s + 1)) :
    ∀ p, s + p + 1 ≤ m → 0 < Nspan U s p s t := by
  intro p
  induction p with
  | zero => intro _; simp [Nspan]
  | succ p ih =>
    intro hp
    simp only [Nspan]
    rw [Nspan_zero U s p (s + 1) t (by omega), mul_zero, add_zero]
    have h := hm (s + 1) (s + p + 1) (by omega) (by omega)
    exact mul_pos (div_pos (by linarith) (by linarith)) (ih (by omega))

/-- the last but one basis function of a span is positive at the left end of the span if this is a simple knot -/
theorem Nspan_prev_pos {U : ℕ → K} {m s : ℕ} (hm : MonoTo U m) (hlt : U s < U (s + 1)) (hl : U (s - 1) < U s) (h1 : 1 ≤ s) :
    ∀ p, s + p + 1 ≤ m → 0 < Nspan U s (p + 1) (s - 1) (U s) := by
  intro p
  induction p with
  | zero =>
    intro _
    simp only [Nspan]
    rw [if_neg (by omega), if_pos (by omega), show s - 1 + 0 + 2 = s + 1 by omega, show s - 1 + 1 = s by omega]
    rw [mul_zero, zero_add, mul_one]
    exact div_pos (by linarith) (by linarith)
  | succ p ih =>
    intro hp
    have e : Nspan U s (p + 1 + 1) (s - 1) (U s) = (U s - U (s - 1)) / (U (s - 1 + (p + 1) + 1) - U (s - 1)) * Nspan U s (p + 1) (s - 1) (U s)
        + (U (s - 1 + (p + 1) + 2) - U s) / (U (s - 1 + (p + 1) + 2) - U (s - 1 + 1)) * Nspan U s (p + 1) (s - 1 + 1) (U s) := rfl
    have z : Nspan U s (p + 1) (s - 1 + 1) (U s) = 0 := by
      rw [show s - 1 + 1 = s by omega]
      simp only [Nspan]
      rw [Nspan_zero U s p (s + 1) _ (by omega)]
      simp
    rw [e, z, mul_zero, add_zero]
    have h := hm s (s - 1 + (p + 1) + 1) (by omega) (by omega)
    exact mul_pos (div_pos (by linarith) (by linarith)) (ih (by omega))

/-- first derivatives of the cubic basis functions at the left end of a clamped knot vector -/
theorem clamped_start_dN {U : ℕ → K} {m : ℕ} {t d : K} (hm : MonoTo U m) (hr : 7 ≤ m) (hd : 0 < d) (h1 : U 1 = t) (h2 : U 2 = t) (h3 : U 3 = t) (h4 : U 4 = t + d) :
    dN U 3 3 0 1 t = - (3 / d) ∧ dN U 3 3 1 1 t = 3 / d ∧ dN U 3 3 2 1 t = 0 ∧ dN U 3 3 3 1 t = 0 := by
  have hd' := hd.ne'
  have n0 : Nspan U 3 2 0 t = 0 := by simp [Nspan]
  have n1 : Nspan U 3 2 1 t = 1 := by simp [Nspan, h1, h2, h3, h4]; field_simp
  have n2 : Nspan U 3 2 2 t = 0 := by simp [Nspan, h2, h3]
  have n3 : Nspan U 3 2 3 t = 0 := by simp [Nspan, h3]
  have n4 : Nspan U 3 2 4 t = 0 := by simp [Nspan]
  refine ⟨?_, ?_, ?_, ?_⟩ <;>
  · rw [dN_succ hm _ _ _ _ (by omega)]
    simp only [dN_zero, n0, n1, n2, n3, n4, h4, h1, Nat.reduceAdd]
    ring_nf

/-- first derivatives of the cubic basis functions at the right end of a clamped knot vector -/
theorem clamped_end_dN {U : ℕ → K} {m r : ℕ} {t d : K} (hm : MonoTo U m) (hr : r + 7 ≤ m) (hd : 0 < d) (h3 : U (r + 3) = t - d) (h4 : U (r + 4) = t)
    (h5 : U (r + 5) = t) (h6 : U (r + 6) = t) :
    dN U (r + 3) 3 r 1 t = 0 ∧ dN U (r + 3) 3 (r + 1) 1 t = 0 ∧ dN U (r + 3) 3 (r + 2) 1 t = - (3 / d) ∧ dN U (r + 3) 3 (r + 3) 1 t = 3 / d := by
  have hd' := hd.ne'
  have n0 : Nspan U (r + 3) 2 r t = 0 := by simp [Nspan]
  have n1 : Nspan U (r + 3) 2 (r + 1) t = 0 := by simp [Nspan, h4, add_assoc]
  have n2 : Nspan U (r + 3) 2 (r + 2) t = 0 := by simp [Nspan, h4, h5, add_assoc]
  have n3 : Nspan U (r + 3) 2 (r + 3) t = 1 := by simp [Nspan, h3, h4, h5, add_assoc]; field_simp
  have n4 : Nspan U (r + 3) 2 (r + 4) t = 0 := by simp [Nspan]
  refine ⟨?_, ?_, ?_, ?_⟩ <;>
  · rw [dN_succ hm _ _ _ _ (by omega)]
    simp only [dN_zero, n0, n1, n2, n3, n4, h3, h6, add_assoc, Nat.reduceAdd]
    ring_nf

end LNLib
