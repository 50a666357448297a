import Verif.Lemmas.Basis
import Verif.Model.Curve
import Verif.Spec.Curve

/-! # Curve evaluation -/
set_option linter.unusedSectionVars false

namespace LNLib
open Res Spec Finset

variable {K : Type} [Field K] [LinearOrder K] [IsStrictOrderedRing K]
variable {T : Type} [AddCommGroup T] [Module K T]

theorem sum_window {s p n : ℕ} (hp : p ≤ s) (hs : s ≤ n) {f : ℕ → T}
    (h : ∀ i, (s < i ∨ i + p < s) → f i = 0) :
    ∑ i ∈ range (n + 1), f i = ∑ r ∈ range (p + 1), f (s - p + r) := by
  have h1 : ∑ i ∈ Ico (s - p) (s + 1), f i = ∑ i ∈ range (n + 1), f i := by
    apply Finset.sum_subset
    · intro i hi
      simp only [mem_Ico, mem_range] at *
      omega
    · intro i _ hi
      apply h
      simp only [mem_Ico, not_and, not_lt] at hi
      omega
  rw [← h1, Finset.sum_Ico_eq_sum_range]
  have : s + 1 - (s - p) = p + 1 := by omega
  rw [this]

theorem sum_rangeK {s p : ℕ} (hp : p ≤ s) {f : ℕ → K}
    (h : ∀ i, (s < i ∨ i + p < s) → f i = 0) :
    ∑ i ∈ range (s + 1), f i = ∑ r ∈ range (p + 1), f (s - p + r) :=
  sum_window hp (le_refl s) h

/-- the summation loop `point += N[i] * P[span - degree + i]` -/
theorem sumLoop {N : List (Option K)} {P : List T} {p : ℕ} {off : ℤ} {o : ℕ} {b : ℕ → K} (ho : off = o)
    (hN : ∀ r ≤ p, aget N (r : ℤ) = ok (b r)) (hP : o + p < P.length) :
    forI 0 ((p : ℤ) + 1) (0 : T) (fun i point => do
      let b ← aget N i
      let q ← vget P (off + i)
      ok (point + b • q)) = ok (∑ r ∈ range (p + 1), b r • nth P (o + r)) := by
  obtain ⟨s, h1, h2⟩ := forI_invN (a := 0) (b := p + 1) (s := (0 : T)) (body := fun i point => do
      let b ← aget N i
      let q ← vget P (off + i)
      ok (point + b • q))
    (fun i pt => pt = ∑ r ∈ range i, b r • nth P (o + r)) (by omega) (by simp) (by
      intro i pt _ hi hpt
      have g1 := hN i (by omega)
      have g2 : vget P (off + (i : ℤ)) = ok (nth P (o + i)) := vget_nth (by rw [ho]; push_cast; rfl) (by omega)
      simp only [g1, g2, ok_bind]
      exact ⟨_, rfl, by rw [hpt, Finset.sum_range_succ]⟩)
  have e : ((p : ℤ) + 1) = ((p + 1 : ℕ) : ℤ) := by push_cast; rfl
  rw [e, ← h2]
  exact_mod_cast h1

/-- evaluation on a known span -/
theorem pointOnCurve_span {c : BsplineCurve K T} {p n s : ℕ} {t : K} (w : WellFormed c p n)
    (h0 : nth c.knots 0 - doubleEps ≤ t) (h1 : t ≤ nth c.knots (n + p + 1) + doubleEps)
    (hs : getKnotSpanIndex c.degree c.knots t = ok (s : ℤ)) (hps : p ≤ s) (hsn : s ≤ n)
    (hlt : nth c.knots s < nth c.knots (s + 1)) :
    c.pointOnCurve t = ok (∑ r ∈ range (p + 1), Nspan (nth c.knots) s p (s - p + r) t • nth c.cps (s - p + r)) := by
  unfold BsplineCurve.pointOnCurve
  have hk := w.knots
  have e0 : vget c.knots 0 = ok (nth c.knots 0) := vget_nth (by simp) (by omega)
  have e1 : vget c.knots ((c.knots.length : ℤ) - 1) = ok (nth c.knots (n + p + 1)) := vget_nth (by omega) (by omega)
  have hv : validateRange t (nth c.knots 0) (nth c.knots (n + p + 1)) = ok () := validateRange_eq_ok_iff.mpr ⟨h0, h1⟩
  have hU := isValidKnotVector_nth.mpr w.sorted
  have el : c.knots.length - 1 = n + p + 1 := by omega
  obtain ⟨N, hN, _, hNr⟩ := basisFunctions_span (U := c.knots) (s := s) (p := p) (t := t) (out := uninit K 8) w.le7 hps
    (by omega) (by omega) (by have := w.le7; simp; omega) hU hlt h0 (by rw [el]; exact h1)
  simp only [e0, e1, ok_bind, hv, hs]
  rw [w.degree] at *
  simp only [hN, ok_bind]
  exact sumLoop (off := (s : ℤ) - p) (o := s - p) (by omega) hNr (by rw [w.cps]; omega)

theorem wf_monoTo {c : BsplineCurve K T} {p n : ℕ} (w : WellFormed c p n) : MonoTo (nth c.knots) (n + p + 1) := by
  intro i j h1 h2
  exact w.sorted i j h1 (by rw [w.knots]; omega)

/-- the span search finds the span of every parameter of the domain -/
theorem getKnotSpanIndex_isSpan {U : List K} {p n : ℕ} {t : K} (hlen : U.length = n + p + 2) (hpn : p ≤ n)
    (hsorted : ∀ i j, i ≤ j → j < U.length → nth U i ≤ nth U j)
    (he : EndsSeparated (nth U) p n) (h0 : nth U p ≤ t) (h1 : t ≤ nth U (n + 1)) :
    ∃ s : ℕ, getKnotSpanIndex p U t = ok (s : ℤ) ∧ IsSpan (nth U) p n t s := by
  have hU := isValidKnotVector_nth.mpr hsorted
  have heps := doubleEps_pos (K := K)
  have a0 := hsorted 0 p (by omega) (by omega)
  have a1 := hsorted (n + 1) (n + p + 1) (by omega) (by omega)
  obtain ⟨s, hs, hcase⟩ := getKnotSpanIndex_ok (p := p) (n := n) (U := U) (t := t) hlen hU (by linarith) (by linarith)
  refine ⟨s, hs, ?_⟩
  have hfirst : isLessThan (nth U p) (nth U (p + 1)) = true := by
    simp only [isLessThan, decide_eq_true_eq]; exact he.first
  have hlast : isLessThan (nth U n) (nth U (n + 1)) = true := by
    simp only [isLessThan, decide_eq_true_eq]; exact he.last
  rcases hcase with ⟨c1, rfl⟩ | ⟨c1, c2, rfl⟩ | ⟨c1, c2, r1, r2, r3, r4⟩
  · refine ⟨hpn, le_refl _, lt_of_isLessThan doubleEps_pos hlast, ?_, ?_⟩
    · by_contra hcon
      push Not at hcon
      have := isLessThan_mono_left doubleEps_pos doubleEps_lt_one hlast hcon.le
      rw [isGreaterThanOrEqual_eq_not, this] at c1
      simp at c1
    · rcases lt_or_eq_of_le h1 with h | h
      · exact Or.inl h
      · exact Or.inr ⟨h, rfl⟩
  · refine ⟨le_refl _, hpn, lt_of_isLessThan doubleEps_pos hfirst, h0, ?_⟩
    left
    by_contra hcon
    push Not at hcon
    have := isLessThan_mono_right doubleEps_pos doubleEps_lt_one hfirst hcon
    rw [isLessThanOrEqual_eq_not, this] at c2
    simp at c2
  · exact ⟨r1, r2, lt_of_le_of_lt r3 r4, r3, Or.inl r4⟩

theorem span_isSpan {c : BsplineCurve K T} {p n : ℕ} {t : K} (w : WellFormed c p n)
    (he : EndsSeparated (nth c.knots) p n) (h0 : nth c.knots p ≤ t) (h1 : t ≤ nth c.knots (n + 1)) :
    ∃ s : ℕ, getKnotSpanIndex c.degree c.knots t = ok (s : ℤ) ∧ IsSpan (nth c.knots) p n t s := by
  rw [w.degree]
  exact getKnotSpanIndex_isSpan w.knots w.pn w.sorted he h0 h1

theorem curvePoint_span {U : ℕ → K} {p n m s : ℕ} {P : ℕ → T} {t : K} (hm : MonoTo U m) (hnm : n + p + 1 ≤ m)
    (hs : IsSpan U p n t s) :
    curvePoint U p n P t = ∑ r ∈ range (p + 1), Nspan U s p (s - p + r) t • P (s - p + r) := by
  unfold curvePoint
  rw [← sum_window hs.1 hs.2.1 (f := fun i => Nspan U s p i t • P i)]
  · apply Finset.sum_congr rfl
    intro i hi
    simp only [mem_range] at hi
    rw [N_eq_Nspan hm (by omega) hs p i (by omega)]
  · intro i hi
    rw [Nspan_zero U s p i t hi, zero_smul]

theorem pointOnCurve_eq {c : BsplineCurve K T} {p n : ℕ} {t : K} (w : WellFormed c p n)
    (he : EndsSeparated (nth c.knots) p n) (h0 : nth c.knots p ≤ t) (h1 : t ≤ nth c.knots (n + 1)) :
    c.pointOnCurve t = ok (curvePoint (nth c.knots) p n (nth c.cps) t) := by
  obtain ⟨s, hs, hspan⟩ := span_isSpan w he h0 h1
  have hm := wf_monoTo w
  have hpn := w.pn
  have heps := doubleEps_pos (K := K)
  have a0 := hm 0 p (by omega) (by omega)
  have a1 := hm (n + 1) (n + p + 1) (by omega) (by omega)
  rw [pointOnCurve_span w (by linarith) (by linarith) hs hspan.1 hspan.2.1 hspan.2.2.1,
    curvePoint_span hm (le_refl _) hspan]

end LNLib
