import Verif.Lemmas.CurveEval

/-!
# C01–C04: span search and basis functions (Algorithm/Polynomials.cpp)
-/
set_option linter.unusedSectionVars false

namespace LNLib.Props
open LNLib Res Spec Finset

variable {K : Type} [Field K] [LinearOrder K] [IsStrictOrderedRing K]

/-! ## C01 -/

/-- C01: for every degree `p`, every nondecreasing knot vector with `n ≥ p` whose first and last
domain spans exceed the tolerance, and every `t` of the domain `[U_p, U_{n+1}]`, the search
terminates normally (no out-of-bounds read) with the index of the span that contains `t`. -/
theorem C01_span_correct {U : List K} {p n : ℕ} {t : K} (hlen : U.length = n + p + 2) (hpn : p ≤ n)
    (hsorted : ∀ i j, i ≤ j → j < U.length → nth U i ≤ nth U j)
    (he : EndsSeparated (nth U) p n) (h0 : nth U p ≤ t) (h1 : t ≤ nth U (n + 1)) :
    ∃ s : ℕ, getKnotSpanIndex p U t = ok (s : ℤ) ∧ IsSpan (nth U) p n t s :=
  getKnotSpanIndex_isSpan hlen hpn hsorted he h0 h1

/-- C01: the span index is uniquely determined by the specification. -/
theorem C01_span_unique {U : ℕ → K} {p n : ℕ} {t : K}
    (hsorted : ∀ i j, i ≤ j → j ≤ n + 1 → U i ≤ U j) {s s' : ℕ}
    (h : IsSpan U p n t s) (h' : IsSpan U p n t s') : s = s' := by
  have key : ∀ {a b : ℕ}, IsSpan U p n t a → IsSpan U p n t b → ¬ a < b := by
    intro a b ha hb hab
    obtain ⟨_, _, _, _, a5⟩ := ha
    obtain ⟨_, b2, b3, b4, b5⟩ := hb
    have hab' := hsorted (a + 1) b (by omega) (by omega)
    rcases a5 with h5 | ⟨h5, h6⟩
    · exact absurd (lt_of_lt_of_le h5 hab') (not_lt.mpr b4)
    · have := hsorted (b + 1) (n + 1) (by omega) (le_refl _)
      rw [← h6] at this
      exact absurd (lt_of_lt_of_le b3 (this.trans hab')) (lt_irrefl _)
  rcases Nat.lt_trichotomy s s' with h1 | h1 | h1
  · exact absurd h1 (key h h')
  · exact h1
  · exact absurd h1 (key h' h)

/-- C01: the search never runs forever, whatever it is called with (any degree, any list of knots,
sorted or not, any parameter). -/
theorem C01_terminates (degree : ℤ) (U : List K) (t : K) : getKnotSpanIndex degree U t ≠ diverge := by
  by_cases hd : degree ≥ 0
  swap
  · rw [getKnotSpanIndex_unfold]; simp [hd]
  by_cases hl : U.length > 0
  swap
  · rw [getKnotSpanIndex_unfold]; simp [hd, hl]
  by_cases hU : isValidKnotVector U = true
  swap
  · rw [getKnotSpanIndex_unfold]; simp [hd, hl, hU]
  obtain ⟨p, rfl⟩ := Int.eq_ofNat_of_zero_le hd
  have e0 : vget U 0 = ok (nth U 0) := vget_nth (by simp) (by omega)
  have e1 : vget U ((U.length : ℤ) - 1) = ok (nth U (U.length - 1)) := vget_nth (by omega) (by omega)
  rcases validateRange_cases t (nth U 0) (nth U (U.length - 1)) with hv | hv
  swap
  · rw [getKnotSpanIndex_unfold]; simp [hl, hU, e0, e1, hv]
  rcases Nat.lt_trichotomy U.length (p + 1) with h | h | h
  · rw [getKnotSpanIndex_unfold]
    have : vget U ((U.length : ℤ) - p - 2 + 1) = ub := vget_neg (by omega)
    simp [hl, hU, e0, e1, hv, this]
  · rw [getKnotSpanIndex_unfold]
    have e2 : vget U ((U.length : ℤ) - p - 2 + 1) = ok (nth U 0) := vget_nth (by omega) (by omega)
    have e3 : vget U (p : ℤ) = ok (nth U p) := vget_nth rfl (by omega)
    simp only [ge_iff_le, Int.natCast_nonneg, decide_true, validate_true, ok_bind, hl, hU, e0, e1, hv, e2, e3]
    split
    · simp
    · rename_i c1
      rw [isGreaterThanOrEqual_eq_not] at c1
      have d1 : isLessThan t (nth U 0) = true := by simpa using c1
      have l1 := lt_of_isLessThan doubleEps_pos d1
      have l2 := isValidKnotVector_nth.mp hU 0 p (by omega) (by omega)
      have : isLessThanOrEqual t (nth U p) = true := by
        rw [isLessThanOrEqual_eq_not]
        by_contra hc
        have hc' : isLessThan (nth U p) t = true := by simpa using hc
        have := lt_of_isLessThan doubleEps_pos hc'
        linarith
      rw [if_pos this]
      simp
  · obtain ⟨n, hn⟩ : ∃ n, U.length = n + p + 2 := ⟨U.length - p - 2, by omega⟩
    rw [validateRange_eq_ok_iff] at hv
    have el : U.length - 1 = n + p + 1 := by omega
    rw [el] at hv
    obtain ⟨s, hs, _⟩ := getKnotSpanIndex_ok (p := p) hn hU hv.1 hv.2
    rw [hs]
    simp

/-- the running example: a quadratic knot vector with one interior knot -/
def exKnots : List ℚ := [0, 0, 0, 1/2, 1, 1, 1]

theorem exKnots_sorted : ∀ i j, i ≤ j → j < exKnots.length → nth exKnots i ≤ nth exKnots j :=
  isValidKnotVector_nth.mp (by decide +kernel)

theorem exKnots_ends : EndsSeparated (nth exKnots) 2 3 := ⟨by decide +kernel, by decide +kernel⟩

/-- C01 is not vacuous: the hypotheses hold for `exKnots`, and the search answers 3 at `t = 3/4`. -/
example : (∃ s : ℕ, getKnotSpanIndex 2 exKnots (3/4) = ok (s : ℤ) ∧ IsSpan (nth exKnots) 2 3 (3/4) s)
    ∧ getKnotSpanIndex 2 exKnots (3/4 : ℚ) = ok 3 :=
  ⟨C01_span_correct (p := 2) (n := 3) (by decide) (by decide) exKnots_sorted exKnots_ends
    (by decide +kernel) (by decide +kernel), by decide +kernel⟩

/-! ## C02–C04 -/

/-- C02: on every nonempty span the loop writes exactly the Cox–de Boor values
`N_{s-p,p}(t), …, N_{s,p}(t)` to the first `p+1` cells of the caller's array, meets no zero
denominator and no out-of-bounds access. -/
theorem C02_basis_is_coxDeBoor {U : List K} {p n s : ℕ} {t : K} {out : List (Option K)}
    (hp : p ≤ 7) (hlen : U.length = n + p + 2) (hout : p < out.length)
    (hsorted : ∀ i j, i ≤ j → j < U.length → nth U i ≤ nth U j)
    (hs : IsSpan (nth U) p n t s) :
    ∃ out', basisFunctions s p U t out = ok out' ∧ out'.length = out.length ∧
      ∀ r ≤ p, aget out' (r : ℤ) = ok (N (nth U) (nth U (n + 1)) p (s - p + r) t) := by
  obtain ⟨h1, h2, h3, h4, h5⟩ := id hs
  have hU := isValidKnotVector_nth.mpr hsorted
  have heps := doubleEps_pos (K := K)
  have el : U.length - 1 = n + p + 1 := by omega
  have a0 := hsorted 0 s (by omega) (by omega)
  have a1 := hsorted (s + 1) (n + p + 1) (by omega) (by omega)
  have h5' : t ≤ nth U (s + 1) := by
    rcases h5 with h | ⟨h, _⟩
    · exact h.le
    · exact h.le
  obtain ⟨o, e1, e2, e3⟩ := basisFunctions_span (U := U) (s := s) (p := p) (t := t) (out := out) hp h1
    (by omega) (by omega) hout hU h3 (by linarith) (by rw [el]; linarith)
  refine ⟨o, e1, e2, ?_⟩
  intro r hr
  rw [e3 r hr, N_eq_Nspan (m := n + p + 1) (fun i j hi hj => hsorted i j hi (by omega)) (by omega) hs p _ (by omega)]

/-- C02: all the basis functions that the routine does not return vanish at `t`. -/
theorem C02_other_basis_vanish {U : ℕ → K} {p n s : ℕ} {t : K}
    (hsorted : ∀ i j, i ≤ j → j ≤ n + p + 1 → U i ≤ U j)
    (hs : IsSpan U p n t s) {i : ℕ} (hi : i ≤ n) (hout : i < s - p ∨ s < i) :
    N U (U (n + 1)) p i t = 0 := by
  rw [N_eq_Nspan (m := n + p + 1) hsorted (by omega) hs p i (by omega)]
  apply Nspan_zero
  have := hs.1
  omega

/-- C03: the values written by the loop sum to one, for every parameter the routine accepts, even
outside the span. -/
theorem C03_partition_of_unity {U : List K} {p s : ℕ} {t : K} {out out' : List (Option K)} {b : ℕ → K}
    (hp : p ≤ 7) (hps : p ≤ s) (hlen : s + p + 1 < U.length) (hout : p < out.length)
    (hsorted : ∀ i j, i ≤ j → j < U.length → nth U i ≤ nth U j) (hs : nth U s < nth U (s + 1))
    (h0 : nth U 0 - 1 / 1000000 ≤ t) (h1 : t ≤ nth U (U.length - 1) + 1 / 1000000)
    (hrun : basisFunctions s p U t out = ok out') (hb : ∀ r ≤ p, aget out' (r : ℤ) = ok (b r)) :
    ∑ r ∈ range (p + 1), b r = 1 := by
  have hU := isValidKnotVector_nth.mpr hsorted
  obtain ⟨o, e1, e2, e3⟩ := basisFunctions_span (U := U) (s := s) (p := p) (t := t) (out := out) hp hps
    (by omega) (by omega) hout hU hs h0 h1
  rw [hrun] at e1
  obtain rfl : out' = o := by simpa using e1
  have hbe : ∀ r ∈ range (p + 1), b r = Nspan (nth U) s p (s - p + r) t := by
    intro r hr
    have hr' : r ≤ p := by simp only [mem_range] at hr; omega
    have := hb r hr'
    rw [e3 r hr'] at this
    simpa using this.symm
  rw [Finset.sum_congr rfl hbe, ← sum_rangeK hps (fun i hi => Nspan_zero _ _ _ _ _ hi)]
  exact Nspan_sum (m := s + p + 1) (fun i j hi hj => hsorted i j hi (by omega)) hs p hps (le_refl _)

/-- C03: the routine accepts all the inputs of `C03_partition_of_unity` and initialises all cells. -/
theorem C03_runs {U : List K} {p s : ℕ} {t : K} {out : List (Option K)}
    (hp : p ≤ 7) (hps : p ≤ s) (hlen : s + p + 1 < U.length) (hout : p < out.length)
    (hsorted : ∀ i j, i ≤ j → j < U.length → nth U i ≤ nth U j) (hs : nth U s < nth U (s + 1))
    (h0 : nth U 0 - 1 / 1000000 ≤ t) (h1 : t ≤ nth U (U.length - 1) + 1 / 1000000) :
    ∃ out', ∃ b : ℕ → K, basisFunctions s p U t out = ok out' ∧ ∀ r ≤ p, aget out' (r : ℤ) = ok (b r) := by
  have hU := isValidKnotVector_nth.mpr hsorted
  obtain ⟨o, e1, e2, e3⟩ := basisFunctions_span (U := U) (s := s) (p := p) (t := t) (out := out) hp hps
    (by omega) (by omega) hout hU hs h0 h1
  exact ⟨o, _, e1, e3⟩

/-- C04: the values are nonnegative when the parameter lies in the closed span. -/
theorem C04_nonneg {U : List K} {p s : ℕ} {t : K} {out out' : List (Option K)} {b : ℕ → K}
    (hp : p ≤ 7) (hps : p ≤ s) (hlen : s + p + 1 < U.length) (hout : p < out.length)
    (hsorted : ∀ i j, i ≤ j → j < U.length → nth U i ≤ nth U j) (hs : nth U s < nth U (s + 1))
    (h0 : nth U s ≤ t) (h1 : t ≤ nth U (s + 1))
    (hrun : basisFunctions s p U t out = ok out') (hb : ∀ r ≤ p, aget out' (r : ℤ) = ok (b r)) :
    ∀ r ≤ p, 0 ≤ b r := by
  have hU := isValidKnotVector_nth.mpr hsorted
  have heps := doubleEps_pos (K := K)
  have a0 := hsorted 0 s (by omega) (by omega)
  have a1 := hsorted (s + 1) (U.length - 1) (by omega) (by omega)
  obtain ⟨o, e1, e2, e3⟩ := basisFunctions_span (U := U) (s := s) (p := p) (t := t) (out := out) hp hps
    (by omega) (by omega) hout hU hs (by linarith) (by linarith)
  rw [hrun] at e1
  obtain rfl : out' = o := by simpa using e1
  intro r hr
  have := hb r hr
  rw [e3 r hr] at this
  have hbr : Nspan (nth U) s p (s - p + r) t = b r := by simpa using this
  rw [← hbr]
  exact Nspan_nonneg (m := s + p + 1) (fun i j hi hj => hsorted i j hi (by omega)) h0 h1 p _ (by omega)

/-- the hypotheses of C02–C04 hold at a concrete point, with three different nonzero values -/
example : IsSpan (nth exKnots) 2 3 (3/4) 3 ∧
    basisFunctions 3 2 exKnots (3/4 : ℚ) (uninit ℚ 8) =
      ok [some (1/8), some (5/8), some (1/4), none, none, none, none, none] := by
  refine ⟨?_, by decide +kernel⟩
  unfold IsSpan
  decide +kernel

end LNLib.Props
