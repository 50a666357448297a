import Verif.Model.CurveParam
import Verif.Lemmas.CurveEval
import Verif.Lemmas.Blossom
import Verif.Lemmas.Geom
import Verif.Core.Hoare

/-!
# How the basis functions behave under a change of parameter
-/
set_option linter.unusedSectionVars false

namespace LNLib
open Res Spec Finset

variable {K : Type} [Field K] [LinearOrder K] [IsStrictOrderedRing K]
variable {T : Type} [AddCommGroup T] [Module K T]

/-- Affine covariance of the basis functions. -/
theorem Nspan_affine {U V : ℕ → K} {a b : K} (ha : a ≠ 0) {s : ℕ} {t : K} :
    ∀ (q i : ℕ), (∀ j, i ≤ j → j ≤ i + q + 1 → V j = a * U j + b) → Nspan V s q i (a * t + b) = Nspan U s q i t := by
  intro q
  induction q with
  | zero => intro i _; rfl
  | succ q ih =>
    intro i h
    simp only [Nspan]
    rw [ih i (fun j h1 h2 => h j h1 (by omega)), ih (i + 1) (fun j h1 h2 => h j (by omega) (by omega)),
      h i (by omega) (by omega), h (i + q + 1) (by omega) (by omega), h (i + q + 2) (by omega) (by omega), h (i + 1) (by omega) (by omega)]
    have e1 : ∀ x y z : K, (a * x + b - (a * y + b)) / (a * z + b - (a * y + b)) = (x - y) / (z - y) := by
      intro x y z
      rw [show a * x + b - (a * y + b) = a * (x - y) by ring, show a * z + b - (a * y + b) = a * (z - y) by ring,
        mul_div_mul_left _ _ ha]
    have e2 : ∀ x y z : K, (a * z + b - (a * x + b)) / (a * z + b - (a * y + b)) = (z - x) / (z - y) := by
      intro x y z
      rw [show a * z + b - (a * x + b) = a * (z - x) by ring, show a * z + b - (a * y + b) = a * (z - y) by ring,
        mul_div_mul_left _ _ ha]
    rw [e1, e2]

/-- Reversal symmetry of the basis functions. -/
theorem Nspan_reverse {U V : ℕ → K} {c : K} {m s : ℕ} {t : K} (hV : ∀ j, j ≤ m → V j = c - U (m - j)) (hs : s + 1 ≤ m) :
    ∀ (q i : ℕ), i + q + 1 ≤ m → Nspan V (m - 1 - s) q (m - 1 - q - i) (c - t) = Nspan U s q i t := by
  intro q
  induction q with
  | zero =>
    intro i hi
    simp only [Nspan]
    congr 1
    simp only [eq_iff_iff]
    omega
  | succ q ih =>
    intro i hi
    simp only [Nspan]
    have h1 := ih i (by omega)
    have h2 := ih (i + 1) (by omega)
    have e1 : m - 1 - (q + 1) - i + 1 = m - 1 - q - i := by omega
    have e2 : m - 1 - (q + 1) - i = m - 1 - q - (i + 1) := by omega
    rw [e1, h1, e2, h2, hV _ (by omega), hV _ (by omega), hV _ (by omega), hV _ (by omega),
      show m - (m - 1 - q - (i + 1)) = i + q + 2 by omega, show m - (m - 1 - q - (i + 1) + q + 1) = i + 1 by omega,
      show m - (m - 1 - q - (i + 1) + q + 2) = i by omega, show m - (m - 1 - q - i) = i + q + 1 by omega]
    rw [show c - t - (c - U (i + q + 2)) = U (i + q + 2) - t by ring,
      show c - U (i + 1) - (c - U (i + q + 2)) = U (i + q + 2) - U (i + 1) by ring,
      show c - U i - (c - t) = t - U i by ring, show c - U i - (c - U (i + q + 1)) = U (i + q + 1) - U i by ring]
    ring

/-- Two neighbouring pieces agree at a knot of multiplicity at most `p`. -/
theorem pieces_meet {U : ℕ → K} {p s s' : ℕ} {P : ℕ → T} {t : K} (h : Piece U p s) (h' : Piece U p s') (hss : s ≤ s') (hmul : s' ≤ s + p)
    (hblk : ∀ i, s < i → i ≤ s' → U i = t) :
    ∑ r ∈ range (p + 1), Nspan U s p (s - p + r) t • P (s - p + r) = ∑ r ∈ range (p + 1), Nspan U s' p (s' - p + r) t • P (s' - p + r) := by
  rw [E_eval h, E_eval h']
  have hle := h.le
  have hle' := h'.le
  obtain ⟨d, rfl⟩ : ∃ d, s' = s + d := ⟨s' - s, by omega⟩
  have hd : d ≤ p := by omega
  have e : List.replicate p t = List.replicate (p - d) t ++ kn U (s + 1) d := by
    rw [kn_const d (s + 1) (x := t) (fun i hi => hblk _ (by omega) (by omega)), ← List.replicate_add]
    congr 1; omega
  have h1 := E_full (P := P) h d (List.replicate (p - d) t) (s + d - p) (by simp; omega) (by omega) (by simp; omega)
  have h2 := E_full (P := P) h' d (List.replicate (p - d) t) (s + d - p) (by simp; omega) (by omega) (by simp; omega)
  have e2 : s + d - p + (List.replicate (p - d) t).length + 1 = s + 1 := by simp; omega
  rw [e2, ← e] at h1 h2
  rw [← h1, ← h2]

theorem isSpan_unique {U : ℕ → K} {p n m s s' : ℕ} {t : K} (hm : MonoTo U m) (hnm : n + 1 ≤ m) (h : IsSpan U p n t s) (h' : IsSpan U p n t s') :
    s = s' := by
  by_contra hne
  wlog hlt : s < s' generalizing s s'
  · exact this h' h (Ne.symm hne) (by omega)
  obtain ⟨a1, a2, a3, a4, a5⟩ := h
  obtain ⟨b1, b2, b3, b4, b5⟩ := h'
  have m1 := hm (s + 1) s' (by omega) (by omega)
  rcases a5 with a5 | ⟨a5, a6⟩
  · linarith
  · have m2 := hm (s' + 1) (n + 1) (by omega) (by omega)
    linarith

/-- evaluation of the reversed curve. -/
theorem curvePoint_reverse {U V : ℕ → K} {P Q : ℕ → T} {c : K} {p n : ℕ} {t : K} (hU : MonoTo U (n + p + 1))
    (hV : ∀ j, j ≤ n + p + 1 → V j = c - U (n + p + 1 - j)) (hQ : ∀ j, j ≤ n → Q j = P (n - j)) {s s2 : ℕ}
    (hs : IsSpan U p n t s) (hs2 : IsSpan V p n (c - t) s2)
    (hmul : U p < t → t < U (n + 1) → ∀ i, p < i → i + p ≤ n + 1 → U i = t → U (i + p) ≠ t)
    (hp : 1 ≤ p) :
    curvePoint V p n Q (c - t) = curvePoint U p n P t := by
  have hVm : MonoTo V (n + p + 1) := by
    intro i j h1 h2
    rw [hV i (by omega), hV j h2]
    have := hU (n + p + 1 - j) (n + p + 1 - i) (by omega) (by omega)
    linarith
  rw [curvePoint_span hU (le_refl _) hs, curvePoint_span hVm (le_refl _) hs2]
  obtain ⟨a1, a2, a3, a4, a5⟩ := hs
  obtain ⟨b1, b2, b3, b4, b5⟩ := hs2
  -- the original span that corresponds to `s2`
  set s1 := n + p - s2 with hs1
  rw [hV _ (by omega), hV _ (by omega)] at b3
  rw [hV _ (by omega)] at b4
  rw [hV _ (by omega), hV _ (by omega)] at b5
  rw [show n + p + 1 - s2 = s1 + 1 by omega] at b3 b4
  rw [show n + p + 1 - (s2 + 1) = s1 by omega] at b3 b5
  rw [show n + p + 1 - (n + 1) = p by omega] at b5
  have c3 : U s1 < U (s1 + 1) := by linarith
  have c4 : t ≤ U (s1 + 1) := by linarith
  have hrev : ∑ r ∈ range (p + 1), Nspan V s2 p (s2 - p + r) (c - t) • Q (s2 - p + r)
      = ∑ r ∈ range (p + 1), Nspan U s1 p (s1 - p + r) t • P (s1 - p + r) := by
    rw [← Finset.sum_range_reflect (fun r => Nspan U s1 p (s1 - p + r) t • P (s1 - p + r))]
    apply Finset.sum_congr rfl
    intro r hr
    simp only [mem_range] at hr
    have := Nspan_reverse (U := U) (V := V) (c := c) (m := n + p + 1) (s := s1) (t := t) hV (by omega) p (s1 - p + (p - r)) (by omega)
    rw [show n + p + 1 - 1 - s1 = s2 by omega, show n + p + 1 - 1 - p - (s1 - p + (p - r)) = s2 - p + r by omega] at this
    rw [this, hQ _ (by omega), show n - (s2 - p + r) = s1 - p + (p - r) by omega]
    simp only [Nat.add_sub_cancel]
  rw [hrev]
  by_cases hc : s1 = s
  · rw [hc]
  · -- `t` is an interior knot and `s1` is the span on its left
    have hlt : s1 < s := by
      by_contra hge
      have h1 : s + 1 ≤ s1 := by omega
      have h2 := hU (s + 1) s1 h1 (by omega)
      rcases a5 with a5 | ⟨a5, a6⟩
      · rcases b5 with b5 | ⟨b5, b6⟩
        · linarith
        · have h3 : t = U s1 := by linarith
          linarith
      · have h3 := hU (s1 + 1) (n + 1) (by omega) (by omega)
        linarith
    have h2 := hU (s1 + 1) s (by omega) (by omega)
    have h3 : t = U s := by linarith
    have h4 : U (s1 + 1) = t := by linarith
    have hUp := hU p s1 (by omega) (by omega)
    have hUn := hU (s + 1) (n + 1) (by omega) (by omega)
    have hblk : ∀ i, s1 < i → i ≤ s → U i = t := by
      intro i h5 h6
      have h7 := hU (s1 + 1) i (by omega) (by omega)
      have h8 := hU i s h6 (by omega)
      linarith
    apply pieces_meet ⟨by omega, fun i j h5 h6 => hU i j h5 (by omega), c3⟩ ⟨a1, fun i j h5 h6 => hU i j h5 (by omega), a3⟩ (by omega) ?_ hblk
    by_contra hgt
    exact hmul (by linarith) (by linarith) (s1 + 1) (by omega) (by omega) h4 (hblk _ (by omega) (by omega))

end LNLib
