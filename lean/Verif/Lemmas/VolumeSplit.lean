import Verif.Lemmas.VolumeFibres
import Verif.Props.Refine
import Verif.Lemmas.SpanExists

/-! # Cutting a curve at a knot of multiplicity equal to the degree -/
set_option linter.unusedSectionVars false

namespace LNLib
open Res Spec Finset Props

variable {K : Type} [Field K] [LinearOrder K] [IsStrictOrderedRing K]
variable {T : Type} [AddCommGroup T] [Module K T]

/-- on span `s` a basis function of degree `p` depends on the knots `s-p+1, …, s+p` only -/
theorem nspan_local {R V : ℕ → K} {d s : ℕ} {t : K} : ∀ (p i : ℕ), p ≤ s → (∀ j, s + 1 ≤ j + p → j ≤ s + p → R j = V (j + d)) →
    Nspan R s p i t = Nspan V (s + d) p (i + d) t := by
  intro p
  induction p with
  | zero =>
    intro i _ _
    simp only [Nspan]
    by_cases h : i = s
    · rw [if_pos h, if_pos (by omega)]
    · rw [if_neg h, if_neg (by omega)]
  | succ p ih =>
    intro i hp h
    have e1 : i + p + 1 + d = i + d + p + 1 := by omega
    have e2 : i + p + 2 + d = i + d + p + 2 := by omega
    have e3 : i + 1 + d = i + d + 1 := by omega
    have ih' := fun i => ih i (by omega) (fun j h1 h2 => h j (by omega) (by omega))
    simp only [Nspan]
    congr 1
    · by_cases hi : s < i ∨ i + p < s
      · rw [Nspan_zero R s p i t hi, Nspan_zero V (s + d) p (i + d) t (by omega)]; simp
      · rw [ih' i, h i (by omega) (by omega), h (i + p + 1) (by omega) (by omega), e1]
    · by_cases hi : s < i + 1 ∨ i + 1 + p < s
      · rw [Nspan_zero R s p (i + 1) t hi, Nspan_zero V (s + d) p (i + d + 1) t (by omega)]; simp
      · rw [ih' (i + 1), h (i + 1) (by omega) (by omega), h (i + p + 2) (by omega) (by omega), e2, e3]

theorem window_local {R V : ℕ → K} {Q P : ℕ → T} {d p n n' s : ℕ} {t : K} (hV : MonoTo V (n + p + 1)) (hR' : MonoTo R (n' + p + 1))
    (hR : ∀ j, s + 1 ≤ j + p → j ≤ s + p → R j = V (j + d)) (hQ : ∀ j, j ≤ n' → Q j = P (j + d))
    (hs : IsSpan V p n t (s + d)) (hs' : IsSpan R p n' t s) : curvePoint R p n' Q t = curvePoint V p n P t := by
  have h1 := hs'.1
  have h2 := hs'.2.1
  rw [curvePoint_span hV (le_refl _) hs, curvePoint_span hR' (le_refl _) hs']
  refine sum_congr rfl fun r hr => ?_
  simp only [mem_range] at hr
  rw [show s + d - p + r = s - p + r + d by omega, nspan_local (d := d) p (s - p + r) h1 hR, hQ _ (by omega)]

theorem nspan_start {U : ℕ → K} {s : ℕ} {t : K} (hs : t < U (s + 1)) : ∀ (p i : ℕ), p ≤ s → (∀ j, s + 1 ≤ j + p → j ≤ s → U j = t) →
    Nspan U s p i t = if i = s - p then 1 else 0 := by
  intro p
  induction p with
  | zero => intro i _ _; simp only [Nspan, Nat.sub_zero]
  | succ p ih =>
    intro i hp h
    have ih' := fun i => ih i (by omega) (fun j h1 h2 => h j (by omega) h2)
    simp only [Nspan]
    rw [ih' i, ih' (i + 1)]
    by_cases h1 : i = s - p
    · rw [if_pos h1, if_neg (by omega), if_neg (by omega), h i (by omega) (by omega)]; simp
    · rw [if_neg h1]
      by_cases h2 : i = s - (p + 1)
      · rw [if_pos (by omega), if_pos h2, h (i + 1) (by omega) (by omega), show i + p + 2 = s + 1 by omega, div_self (by linarith)]; simp
      · rw [if_neg (by omega), if_neg h2]; simp

theorem nspan_end {U : ℕ → K} {s : ℕ} {t : K} (hs : U s < t) : ∀ (p i : ℕ), (∀ j, s + 1 ≤ j → j ≤ s + p → U j = t) →
    Nspan U s p i t = if i = s then 1 else 0 := by
  intro p
  induction p with
  | zero => intro i _; simp only [Nspan]
  | succ p ih =>
    intro i h
    have ih' := fun i => ih i (fun j h1 h2 => h j h1 (by omega))
    simp only [Nspan]
    rw [ih' i, ih' (i + 1)]
    by_cases h1 : i = s
    · rw [if_pos h1, if_neg (by omega), h1, h (s + p + 1) (by omega) (by omega), div_self (by linarith)]; simp
    · rw [if_neg h1]
      by_cases h2 : i + 1 = s
      · rw [if_pos h2, h (i + p + 2) (by omega) (by omega)]; simp
      · rw [if_neg h2]; simp

theorem curvePoint_start {U : ℕ → K} {P : ℕ → T} {p n s : ℕ} {t : K} (hU : MonoTo U (n + p + 1)) (hs : IsSpan U p n t s) (ht : t < U (s + 1))
    (h : ∀ j, s + 1 ≤ j + p → j ≤ s → U j = t) : curvePoint U p n P t = P (s - p) := by
  have h1 := hs.1
  rw [curvePoint_span hU (le_refl _) hs, sum_eq_single 0]
  · rw [nspan_start ht p _ hs.1 h, if_pos (by omega), one_smul]; rfl
  · intro r hr h0
    rw [nspan_start ht p _ hs.1 h, if_neg (by omega), zero_smul]
  · intro h; simp at h

theorem curvePoint_end {U : ℕ → K} {P : ℕ → T} {p n s : ℕ} {t : K} (hU : MonoTo U (n + p + 1)) (hs : IsSpan U p n t s) (ht : U s < t)
    (h : ∀ j, s + 1 ≤ j → j ≤ s + p → U j = t) : curvePoint U p n P t = P s := by
  have h1 := hs.1
  rw [curvePoint_span hU (le_refl _) hs, sum_eq_single p]
  · rw [nspan_end ht p _ h, if_pos (by omega), one_smul, Nat.sub_add_cancel h1]
  · intro r hr h0
    rw [nspan_end ht p _ h, if_neg (by simp at hr; omega), zero_smul]
  · intro h; simp at h

/-- the two halves -/
structure CutAt (U : ℕ → K) (p n k : ℕ) (t : K) : Prop where
  mono : MonoTo U (n + p + 1)
  span : IsSpan U p n t k
  lt : t < U (k + 1)
  pk : 2 * p ≤ k
  low : U (k - p) < t
  blk : ∀ j, k + 1 ≤ j + p → j ≤ k → U j = t
  lo : U p < t
  hi : t < U (n + 1)

variable {U L R : ℕ → K} {P : ℕ → T} {p n k : ℕ} {t : K}

theorem CutAt.monoL (h : CutAt U p n k t) (hL : ∀ j ≤ k, L j = U j) (hL1 : L (k + 1) = t) : MonoTo L (k - p + p + 1) := by
  have hb := h.pk
  intro i j hij hj
  have hk := h.span.2.1
  by_cases h1 : j ≤ k
  · rw [hL i (by omega), hL j h1]; exact h.mono i j hij (by omega)
  · rw [show j = k + 1 by omega, hL1]
    by_cases h2 : i ≤ k
    · rw [hL i h2]
      exact (h.mono i k h2 (by omega)).trans h.span.2.2.2.1
    · rw [show i = k + 1 by omega, hL1]

theorem CutAt.left (h : CutAt U p n k t) (hp : 0 < p) (hL : ∀ j ≤ k, L j = U j) (hL1 : L (k + 1) = t) {x : K} (hx0 : U p ≤ x) (hx1 : x ≤ t) :
    curvePoint L p (k - p) P x = curvePoint U p n P x := by
  have hk := h.pk
  have hkn := h.span.2.1
  have mL := h.monoL hL hL1
  have eL : L (k - p + 1) = t := by
    by_cases h1 : p = 0
    · omega
    · rw [hL _ (by omega)]; exact h.blk _ (by omega) (by omega)
  rcases eq_or_lt_of_le hx1 with rfl | hx1
  · have hs : IsSpan L p (k - p) x (k - p) := by
      refine ⟨by omega, le_refl _, ?_, ?_, Or.inr ⟨eL.symm, rfl⟩⟩
      · rw [eL, hL _ (by omega)]; exact h.low
      · rw [hL _ (by omega)]; exact h.low.le
    rw [curvePoint_end mL hs (by rw [hL _ (by omega)]; exact h.low), curvePoint_start h.mono h.span h.lt h.blk]
    intro j h1 h2
    by_cases h3 : j ≤ k
    · rw [hL j h3]; exact h.blk j (by omega) h3
    · omega
  · obtain ⟨s, hs⟩ := exists_isSpan (U := U) (p := p) (n := n) (t := x) (h.span.1.trans h.span.2.1) (lt_trans h.lo h.hi) hx0 (hx1.le.trans h.hi.le)
    have hsk : s ≤ k - p := by
      by_contra hcon
      have := (h.mono (k - p + 1) s (by omega) (by have := hs.2.1; omega)).trans hs.2.2.2.1
      rw [h.blk _ (by omega) (by omega)] at this
      exact absurd hx1 (not_lt.mpr this)
    have e : ∀ j, j ≤ s + p → L j = U j := fun j hj => hL j (by omega)
    have h1 := hs.1
    refine window_local (d := 0) (s := s) h.mono mL (fun j _ hj => e j hj) (fun _ _ => rfl) hs ?_
    obtain ⟨g1, g2, g3, g4, g5⟩ := hs
    refine ⟨g1, hsk, ?_, ?_, ?_⟩
    · rw [e s (by omega), e (s + 1) (by omega)]; exact g3
    · rw [e s (by omega)]; exact g4
    · rw [e (s + 1) (by omega), eL]
      rcases g5 with g5 | ⟨g5, g6⟩
      · exact Or.inl g5
      · rw [g5, g6] at hx1; exact absurd hx1 (not_lt.mpr h.hi.le)

theorem CutAt.monoR (h : CutAt U p n k t) (hR0 : R 0 = t) (hR : ∀ j, 1 ≤ j → j ≤ n - k + p + p + 1 → R j = U (j + (k - p))) :
    MonoTo R (n - k + p + p + 1) := by
  intro i j hij hj
  have hk := h.pk
  have hkn := h.span.2.1
  by_cases h1 : 1 ≤ i
  · rw [hR i h1 (by omega), hR j (by omega) hj]; exact h.mono _ _ (by omega) (by omega)
  · rw [show i = 0 by omega, hR0]
    by_cases h2 : 1 ≤ j
    · rw [hR j h2 hj]
      by_cases h3 : j + (k - p) ≤ k
      · exact (h.blk _ (by omega) h3).ge
      · exact (h.lt.le).trans (h.mono _ _ (by omega) (by omega))
    · rw [show j = 0 by omega, hR0]

theorem CutAt.right (h : CutAt U p n k t) (hp : 0 < p) (hR0 : R 0 = t) (hR : ∀ j, 1 ≤ j → j ≤ n - k + p + p + 1 → R j = U (j + (k - p)))
    {Q : ℕ → T} (hQ : ∀ j ≤ n - k + p, Q j = P (j + (k - p))) {x : K} (hx0 : t ≤ x) (hx1 : x ≤ U (n + 1)) :
    curvePoint R p (n - k + p) Q x = curvePoint U p n P x := by
  have hk := h.pk
  have hkn := h.span.2.1
  have mR := h.monoR hR0 hR
  obtain ⟨s, hs⟩ := exists_isSpan (U := U) (p := p) (n := n) (t := x) (h.span.1.trans h.span.2.1) (lt_trans h.lo h.hi) (h.lo.le.trans hx0) hx1
  have hsk : k ≤ s := by
    by_contra hcon
    have h1 := h.mono (s + 1) k (by omega) (by omega)
    rw [h.blk k (by omega) (le_refl _)] at h1
    rcases hs.2.2.2.2 with h2 | ⟨h2, h3⟩
    · linarith
    · have := h.hi
      linarith
  have e : s = s - (k - p) + (k - p) := by omega
  have g0 := hs.2.1
  rw [e] at hs
  refine window_local (d := k - p) (s := s - (k - p)) h.mono mR (fun j h1 hj => hR j (by omega) (by omega)) hQ hs ?_
  obtain ⟨g1, g2, g3, g4, g5⟩ := hs
  have e1 : s - (k - p) + 1 + (k - p) = s - (k - p) + (k - p) + 1 := by omega
  refine ⟨by omega, by omega, ?_, ?_, ?_⟩
  · rw [hR _ (by omega) (by omega), hR _ (by omega) (by omega), e1]; exact g3
  · rw [hR _ (by omega) (by omega)]; exact g4
  · rw [hR (s - (k - p) + 1) (by omega) (by omega), hR (n - k + p + 1) (by omega) (by omega), e1, show n - k + p + 1 + (k - p) = n + 1 by omega]
    exact g5

end LNLib
