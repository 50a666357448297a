import Verif.Lemmas.Blossom
import Verif.Core.Hoare
import Verif.Model.CurveOps

/-! # Insertion of a single knot between two knots -/
set_option linter.unusedSectionVars false

namespace LNLib
open Res Spec Finset

variable {K : Type} [Field K] [LinearOrder K] [IsStrictOrderedRing K]
variable {T : Type} [AddCommGroup T] [Module K T]

/-- `W'` is `W` with `x` inserted between the knots `i` and `i+1`, `Q'` the corresponding points -/
structure OneIns (W W' : ℕ → K) (Q Q' : ℕ → T) (p n i : ℕ) (x : K) : Prop where
  mono : MonoTo W (n + p + 1)
  pi : p ≤ i
  lo : W i ≤ x
  hi : x ≤ W (i + 1)
  last : x < W (n + 1)
  klo : ∀ l, l ≤ i → W' l = W l
  kx : W' (i + 1) = x
  khi : ∀ l, i + 1 < l → l ≤ n + p + 2 → W' l = W (l - 1)
  qlo : ∀ j, j + p ≤ i → Q' j = Q j
  qmid : ∀ j, i < j + p → j ≤ i → W j < W (j + p) →
    Q' j = ((W (j + p) - x) / (W (j + p) - W j)) • Q (j - 1) + ((x - W j) / (W (j + p) - W j)) • Q j
  qhi : ∀ j, i < j → j ≤ n + 1 → Q' j = Q (j - 1)

section
variable {W W' : ℕ → K} {Q Q' : ℕ → T} {p n i : ℕ} {x : K}

theorem OneIns.i_le (h : OneIns W W' Q Q' p n i x) : i ≤ n ∨ ∃ k, i = n + 1 + k ∧ n + p + 1 < i := by
  by_cases h1 : i ≤ n
  · exact Or.inl h1
  · by_cases h2 : i ≤ n + p + 1
    · have := h.mono (n + 1) i (by omega) h2
      exact absurd (lt_of_lt_of_le h.last (this.trans h.lo)) (lt_irrefl _)
    · exact Or.inr ⟨i - (n + 1), by omega, by omega⟩

theorem OneIns.mono' (h : OneIns W W' Q Q' p n i x) (hin : i ≤ n) : MonoTo W' (n + 1 + p + 1) := by
  intro a b hab hb
  have hm := h.mono
  by_cases a1 : a ≤ i
  · rw [h.klo a a1]
    by_cases b1 : b ≤ i
    · rw [h.klo b b1]; exact hm a b hab (by omega)
    · by_cases b2 : b = i + 1
      · rw [b2, h.kx]; exact (hm a i a1 (by omega)).trans h.lo
      · rw [h.khi b (by omega) (by omega)]; exact hm a (b - 1) (by omega) (by omega)
  · by_cases a2 : a = i + 1
    · rw [a2, h.kx]
      by_cases b2 : b = i + 1
      · rw [b2, h.kx]
      · rw [h.khi b (by omega) (by omega)]
        exact h.hi.trans (hm (i + 1) (b - 1) (by omega) (by omega))
    · rw [h.khi a (by omega) (by omega), h.khi b (by omega) (by omega)]
      exact hm _ _ (by omega) (by omega)

theorem OneIns.span (h : OneIns W W' Q Q' p n i x) (hin : i ≤ n) {t : K} {σ : ℕ} (hσ : IsSpan W p n t σ) :
    ∃ σ', IsSpan W' p (n + 1) t σ' ∧ ((σ' = σ ∧ σ ≤ i) ∨ (σ' = σ + 1 ∧ i ≤ σ)) := by
  obtain ⟨s1, s2, s3, s4, s5⟩ := hσ
  have hm := h.mono
  have hend : W' (n + 1 + 1) = W (n + 1) := h.khi (n + 1 + 1) (by omega) (by omega)
  by_cases hA : σ < i ∨ (σ = i ∧ t < x)
  · refine ⟨σ, ?_, Or.inl ⟨rfl, by omega⟩⟩
    rcases hA with hs | ⟨rfl, ht⟩
    · refine ⟨s1, by omega, ?_, ?_, ?_⟩
      · rw [h.klo σ (by omega), h.klo (σ + 1) (by omega)]; exact s3
      · rw [h.klo σ (by omega)]; exact s4
      · left
        rw [h.klo (σ + 1) (by omega)]
        rcases s5 with h5 | ⟨h5, h6⟩
        · exact h5
        · exfalso
          have h7 := hm (σ + 1) i (by omega) (by omega)
          rw [h6] at h7
          exact absurd (lt_of_lt_of_le h.last (h7.trans h.lo)) (lt_irrefl _)
    · refine ⟨s1, by omega, ?_, ?_, ?_⟩
      · rw [h.klo σ (le_refl _), h.kx]; exact lt_of_le_of_lt s4 ht
      · rw [h.klo σ (le_refl _)]; exact s4
      · left; rw [h.kx]; exact ht
  · have hiσ : i ≤ σ := by omega
    have hxt : σ = i → x ≤ t := by
      intro he
      by_contra hcon
      exact hA (Or.inr ⟨he, not_le.mp hcon⟩)
    have hend2 : W (n + 1) = W' (n + 1 + 1) := hend.symm
    by_cases hσi : σ = i
    · subst hσi
      by_cases hxe : x = W (σ + 1)
      · -- then t = x = end of the span
        exfalso
        have h1 := hxt rfl
        rw [hxe] at h1
        rcases s5 with h5 | ⟨h5, h6⟩
        · exact absurd h5 (not_lt.mpr h1)
        · rw [hxe, h6] at h
          exact absurd h.last (lt_irrefl _)
      · have hx' : x < W (σ + 1) := lt_of_le_of_ne h.hi hxe
        refine ⟨σ + 1, ⟨by omega, by omega, ?_, ?_, ?_⟩, Or.inr ⟨rfl, le_refl _⟩⟩
        · rw [h.kx, h.khi (σ + 1 + 1) (by omega) (by omega)]; exact hx'
        · rw [h.kx]; exact hxt rfl
        · rw [h.khi (σ + 1 + 1) (by omega) (by omega), hend]; exact s5
    · refine ⟨σ + 1, ⟨by omega, by omega, ?_, ?_, ?_⟩, Or.inr ⟨rfl, hiσ⟩⟩
      · rw [h.khi (σ + 1) (by omega) (by omega), h.khi (σ + 1 + 1) (by omega) (by omega)]; exact s3
      · rw [h.khi (σ + 1) (by omega) (by omega)]; exact s4
      · rw [h.khi (σ + 1 + 1) (by omega) (by omega), hend]; exact s5

theorem OneIns.blossom (h : OneIns W W' Q Q' p n i x) (hin : i ≤ n) (hp : 1 ≤ p) {σ σ' : ℕ} (hW : Piece W p σ) (hσn : σ ≤ n)
    (hσ : (σ' = σ ∧ σ ≤ i) ∨ (σ' = σ + 1 ∧ i ≤ σ)) :
    ∀ j, σ' ≤ j + p → j ≤ σ' → Q' j = E W p Q (kn W' (j + 1) p) (σ - p) := by
  intro j h1 h2
  have hpi := h.pi
  have hpσ := hW.le
  by_cases c1 : j + p ≤ i
  · rw [h.qlo j c1]
    have := E_full (P := Q) hW p [] j (by simp) (by omega) (by simp; omega)
    simp only [E, List.nil_append, List.length_nil, add_zero] at this
    rw [this, kn_congr (U := W') (V := W) p (j + 1) (j + 1) (fun l hl => h.klo _ (by omega))]
  by_cases c2 : j ≤ i
  · have hlt : W j < W (j + p) := by
      have g1 := hW.mono j σ (by omega) (by omega)
      have g2 := hW.mono (σ + 1) (j + p) (by omega) (by omega)
      exact lt_of_le_of_lt g1 (lt_of_lt_of_le hW.lt g2)
    rw [h.qmid j (by omega) c2 hlt]
    have hE : E W p Q [x] (j - 1) = ((W (j + p) - x) / (W (j + p) - W j)) • Q (j - 1) + ((x - W j) / (W (j + p) - W j)) • Q j := by
      simp only [E, List.length_nil, add_zero]
      have e1 : j - 1 + p + 1 = j + p := by omega
      have e2 : j - 1 + 1 = j := by omega
      rw [e1, e2]
    rw [← hE, E_full (P := Q) hW (p - 1) [x] (j - 1) (by simp; omega) (by omega) (by simp; omega)]
    apply E_perm hW _ (by omega) (by simp; omega)
    have e : p = (i - j) + (1 + (p - 1 - (i - j))) := by omega
    have e0 : j - 1 + [x].length + 1 = j + 1 := by simp; omega
    have e3 : p - 1 = (i - j) + (p - 1 - (i - j)) := by omega
    rw [e0, show kn W' (j + 1) p = kn W' (j + 1) ((i - j) + (1 + (p - 1 - (i - j)))) by rw [← e],
      show kn W (j + 1) (p - 1) = kn W (j + 1) ((i - j) + (p - 1 - (i - j))) by rw [← e3], kn_add, kn_add, kn_add]
    rw [kn_congr (U := W') (V := W) (i - j) (j + 1) (j + 1) (fun l hl => h.klo _ (by omega))]
    rw [kn_const (x := x) 1 (j + 1 + (i - j)) (fun l hl => by
      have : j + 1 + (i - j) + l = i + 1 := by omega
      rw [this, h.kx])]
    rw [kn_congr (U := W') (V := W) (p - 1 - (i - j)) (j + 1 + (i - j) + 1) (j + 1 + (i - j)) (fun l hl => by
      rw [h.khi _ (by omega) (by omega)]
      congr 1; omega)]
    rw [← List.append_assoc, ← List.append_assoc]
    exact List.Perm.append_right _ List.perm_append_comm
  · rw [h.qhi j (by omega) (by omega)]
    have := E_full (P := Q) hW p [] (j - 1) (by simp) (by omega) (by simp; omega)
    simp only [E, List.nil_append, List.length_nil, add_zero] at this
    rw [this, kn_congr (U := W') (V := W) p (j + 1) (j - 1 + 1) (fun l hl => by
      rw [h.khi _ (by omega) (by omega)]
      congr 1; omega)]

theorem OneIns.curve (h : OneIns W W' Q Q' p n i x) (hin : i ≤ n) (hp : 1 ≤ p) {t : K} {σ : ℕ} (hσ : IsSpan W p n t σ) :
    ∃ σ', IsSpan W' p (n + 1) t σ' ∧ curvePoint W' p (n + 1) Q' t = curvePoint W p n Q t := by
  obtain ⟨σ', hσ', hrel⟩ := h.span hin hσ
  refine ⟨σ', hσ', ?_⟩
  have hm' := h.mono' hin
  rw [curvePoint_span h.mono (le_refl _) hσ, curvePoint_span hm' (le_refl _) hσ']
  have hW : Piece W p σ := ⟨hσ.1, fun a b h1 h2 => h.mono a b h1 (by have := hσ.2.1; omega), hσ.2.2.1⟩
  have hW' : Piece W' p σ' := ⟨hσ'.1, fun a b h1 h2 => hm' a b h1 (by have := hσ'.2.1; omega), hσ'.2.2.1⟩
  exact piece_eq hW hW' (h.blossom hin hp hW hσ.2.1 hrel) t
end

end LNLib
