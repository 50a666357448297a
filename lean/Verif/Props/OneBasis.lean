import Verif.Lemmas.OneBasisDer
import Verif.Props.BasisDers
import Mathlib.Tactic.IntervalCases

/-!
# C18, C66: single basis functions and their derivatives (Algorithm/Polynomials.cpp)
-/
set_option linter.unusedSectionVars false

namespace LNLib.Props
open LNLib Res Spec Finset

variable {K : Type} [Field K] [LinearOrder K] [IsStrictOrderedRing K]

/-- `U` is a clamped knot vector for degree `p` and last control point index `n`. -/
structure Clamped (U : List K) (p n : ℕ) : Prop where
  len : U.length = n + p + 2
  pos : 0 < p
  pn : p ≤ n
  sorted : U.Pairwise (· ≤ ·)
  left : ∀ i ≤ p, nth U i = nth U 0
  right : ∀ i, n + 1 ≤ i → i ≤ n + p + 1 → nth U i = nth U (n + 1)

theorem exKnots_clamped : Clamped exKnots 2 3 :=
  ⟨by decide, by decide, by decide, by decide +kernel, by decide +kernel, by
    intro i h1 h2
    obtain h | h | h : i = 4 ∨ i = 5 ∨ i = 6 := by omega
    all_goals (subst h; decide +kernel)⟩

/-- outside the half-open support the answer is zero -/
theorem oneBasis_outside {U : List K} {p i : ℕ} {t : K} (hlen : i + p + 1 < U.length) (hp : 0 < p)
    (hU : isValidKnotVector U = true) (hsep : KnotSeparated U t) (h0 : nth U 0 ≤ t) (h1 : t ≤ nth U (U.length - 1))
    (hne : ¬ (((i : ℤ) = 0 ∧ isAlmostEqualTo t (nth U 0) = true) ∨
      ((i : ℤ) = (U.length : ℤ) - 1 - p - 1 ∧ isAlmostEqualTo t (nth U (U.length - 1)) = true)))
    (hout : t < nth U i ∨ nth U (i + p + 1) ≤ t) : oneBasisFunction i p U t = ok 0 := by
  have heps := doubleEps_pos (K := K)
  unfold oneBasisFunction
  rw [validate_of (by simp), ok_bind, validate_of (by simpa using hp), ok_bind]
  apply Runs.eq
  refine prologue' (t := t) (by omega) hU (by linarith) (by linarith) ?_
  dsimp only
  rw [if_neg hne]
  refine Runs.bind_eq (vget_nth rfl (by omega)) ?_
  rw [sep_lt hsep (by omega)]
  by_cases c : t < nth U i
  · rw [if_pos (by simpa using c)]; exact Runs.ok rfl
  · rw [if_neg (by simpa using c)]
    refine Runs.bind_eq (vget_nth (k := i + p + 1) (by push_cast; ring) (by omega)) ?_
    rw [sep_ge hsep (by omega), if_pos (by simpa using hout.resolve_left c)]; exact Runs.ok rfl

/-- the answer, case by case: either exactly the basis function or the truncated recursion -/
theorem oneBasis_cases {U : List K} {p n i : ℕ} {t : K} (hc : Clamped U p n) (he : EndsSeparated (nth U) p n)
    (hsep : KnotSeparated U t) (hi : i ≤ n) (h0 : nth U 0 ≤ t) (h1 : t ≤ nth U (n + 1)) :
    oneBasisFunction i p U t = ok (N (nth U) (nth U (n + 1)) p i t) ∨
    ∃ s, IsSpan (nth U) p n t s ∧ nth U s ≤ t ∧ t < nth U (s + 1) ∧
      oneBasisFunction i p U t = ok (NT (nth U) s t p i) ∧ N (nth U) (nth U (n + 1)) p i t = Nspan (nth U) s p i t := by
  have hpn := hc.pn
  have hlen := hc.len
  have hU := (isValidKnotVector_iff U).mpr hc.sorted
  have hmono := isValidKnotVector_nth.mp hU
  have hm : MonoTo (nth U) (n + p + 1) := fun a b h1 h2 => hmono a b h1 (by omega)
  have hp0 := hc.left p (le_refl _)
  obtain ⟨s, -, hs⟩ := getKnotSpanIndex_isSpan hlen hpn hmono he (by rw [hp0]; exact h0) h1
  have hlast : nth U (U.length - 1) = nth U (n + 1) := by
    rw [show U.length - 1 = n + p + 1 by omega]; exact hc.right _ (by omega) (le_refl _)
  have hpos : ∀ a b : K, a - b > 1 / 1000000 * (1 + max |b| |a|) → b < a := by
    intro a b h
    have : (0:K) ≤ max |b| |a| := le_max_of_le_left (abs_nonneg _)
    have : (0:K) < 1 / 1000000 * (1 + max |b| |a|) := by positivity
    linarith
  have hlt0 := hpos _ _ he.first
  have hlt1 := hpos _ _ he.last
  have hN : ∀ s, IsSpan (nth U) p n t s → N (nth U) (nth U (n + 1)) p i t = Nspan (nth U) s p i t :=
    fun s hs => N_eq_Nspan hm (by omega) hs p i (by omega)
  have heps := doubleEps_pos (K := K)
  by_cases hA : ((i : ℤ) = 0 ∧ isAlmostEqualTo t (nth U 0) = true) ∨
      ((i : ℤ) = (U.length : ℤ) - 1 - p - 1 ∧ isAlmostEqualTo t (nth U (U.length - 1)) = true)
  · left
    have hone : oneBasisFunction i p U t = ok 1 := by
      unfold oneBasisFunction
      rw [validate_of (by simp), ok_bind, validate_of (by simpa using hc.pos), ok_bind]
      apply Runs.eq
      refine prologue' (t := t) (by omega) hU (by linarith) (by rw [hlast]; linarith) ?_
      dsimp only
      rw [if_pos hA]
      exact Runs.ok rfl
    rw [hone]
    congr 1
    rcases hA with ⟨a1, a2⟩ | ⟨a1, a2⟩
    · rw [sep_eq hsep (by omega), decide_eq_true_eq] at a2
      have a1' : i = 0 := by omega
      have hspan : IsSpan (nth U) p n t p := ⟨le_refl _, hpn, hlt0, by rw [a2, hp0], Or.inl (by rw [a2, ← hp0]; exact hlt0)⟩
      rw [hN p hspan, a2, ← hp0, Nspan_start (fun j _ h2 => by rw [hc.left j h2, hp0]) hlt0 p (le_refl _), if_pos (by omega)]
    · rw [sep_eq hsep (by omega), decide_eq_true_eq, hlast] at a2
      have a1' : i = n := by omega
      have hspan : IsSpan (nth U) p n t n := ⟨hpn, le_refl _, hlt1, by rw [a2]; exact hlt1.le, Or.inr ⟨a2, rfl⟩⟩
      rw [hN n hspan, a2, Nspan_end (fun j h1 h2 => hc.right j h1 (by omega)) hlt1 p (le_refl _), if_pos a1']
  · by_cases hend : t = nth U (n + 1)
    · left
      have hin : i ≠ n := by
        rintro rfl
        apply hA
        right
        refine ⟨by omega, ?_⟩
        rw [sep_eq hsep (by omega), hlast]
        simpa using hend
      rw [oneBasis_outside (by omega) hc.pos hU hsep h0 (by rw [hlast]; exact h1) hA
        (Or.inr (by rw [hend, ← hlast]; exact hmono _ _ (by omega) (by omega)))]
      have hspan : IsSpan (nth U) p n t n := ⟨hpn, le_refl _, hlt1, by rw [hend]; exact hlt1.le, Or.inr ⟨hend, rfl⟩⟩
      rw [hN n hspan, hend, Nspan_end (fun j h1 h2 => hc.right j h1 (by omega)) hlt1 p (le_refl _), if_neg hin]
    · have hts : t < nth U (s + 1) := by
        rcases hs.2.2.2.2 with h | ⟨h, h'⟩
        · exact h
        · exact absurd (h.trans h') hend
      have hsn := hs.2.1
      by_cases hz : s < i ∨ i + p < s
      · left
        rw [hN s hs, Nspan_zero _ s p i t hz]
        apply oneBasis_outside (by omega) hc.pos hU hsep h0 (by rw [hlast]; exact h1) hA
        rcases hz with hz | hz
        · left; exact lt_of_lt_of_le hts (hmono _ _ (by omega) (by omega))
        · right; exact (hmono _ _ (by omega) (by omega)).trans hs.2.2.2.1
      · right
        refine ⟨s, hs, hs.2.2.2.1, hts, ?_, hN s hs⟩
        exact oneBasis_core (by omega) hU hsep (by omega) (by omega) hs.2.2.2.1 hts hA hc.pos

/-- C18 (the part that holds without further assumptions): on a clamped knot vector, for every index
and every parameter of the domain (exactly on a knot or clearly away from it) the call returns
normally, and the result differs from the Cox–de Boor value by at most `4e-6 (2^p - 1)`.  The full
property asks for equality; see `C18_small_value_violated`. -/
theorem C18_error_partial {U : List K} {p n i : ℕ} {t : K} (hc : Clamped U p n) (he : EndsSeparated (nth U) p n)
    (hsep : KnotSeparated U t) (hi : i ≤ n) (h0 : nth U 0 ≤ t) (h1 : t ≤ nth U (n + 1)) :
    ∃ r, oneBasisFunction i p U t = ok r ∧ |r - N (nth U) (nth U (n + 1)) p i t| ≤ 4 / 1000000 * (2 ^ p - 1) := by
  have hlen := hc.len
  have hmono := isValidKnotVector_nth.mp ((isValidKnotVector_iff U).mpr hc.sorted)
  have hm : MonoTo (nth U) (n + p + 1) := fun a b h1 h2 => hmono a b h1 (by omega)
  rcases oneBasis_cases hc he hsep hi h0 h1 with h | ⟨s, hs, b1, b2, h, e⟩
  · refine ⟨_, h, ?_⟩
    rw [sub_self, abs_zero]
    have : (1 : K) ≤ 2 ^ p := one_le_pow₀ (by norm_num)
    exact mul_nonneg (by norm_num) (by linarith)
  · refine ⟨_, h, ?_⟩
    rw [e]
    exact NT_error hm b1 b2 p i (by omega)

/-- C18 (partial): the result is exactly `N_{i,p}(t)` whenever no basis function of a lower degree
takes a non-zero value of modulus at most `2e-6` at `t`. -/
theorem C18_exact_partial {U : List K} {p n i : ℕ} {t : K} (hc : Clamped U p n) (he : EndsSeparated (nth U) p n)
    (hsep : KnotSeparated U t) (hi : i ≤ n) (h0 : nth U 0 ≤ t) (h1 : t ≤ nth U (n + 1))
    (hbig : ∀ q < p, ∀ j, j + q ≤ n + p → N (nth U) (nth U (n + 1)) q j t = 0 ∨ 2 / 1000000 < N (nth U) (nth U (n + 1)) q j t) :
    oneBasisFunction i p U t = ok (N (nth U) (nth U (n + 1)) p i t) := by
  have hlen := hc.len
  have hmono := isValidKnotVector_nth.mp ((isValidKnotVector_iff U).mpr hc.sorted)
  have hm : MonoTo (nth U) (n + p + 1) := fun a b h1 h2 => hmono a b h1 (by omega)
  rcases oneBasis_cases hc he hsep hi h0 h1 with h | ⟨s, hs, b1, b2, h, e⟩
  · exact h
  · rw [h, e, NT_exact (p := p) (fun q hq j => ?_) p (le_refl _) i]
    by_cases hj : j + q ≤ n + p
    · have := hbig q hq j hj
      rw [N_eq_Nspan hm (by omega) hs q j (by omega)] at this
      rcases this with h | h
      · exact Or.inl h
      · exact Or.inr (lt_of_lt_of_le h (le_abs_self _))
    · left
      exact Nspan_zero _ s q j t (by have := hs.2.1; omega)

example : oneBasisFunction 1 2 exKnots (1/4) = ok (N (nth exKnots) (nth exKnots 4) 2 1 (1/4)) :=
  C18_exact_partial (p := 2) (n := 3) (i := 1) exKnots_clamped exKnots_ends (by unfold KnotSeparated; decide +kernel) (by decide)
    (by decide +kernel) (by decide +kernel) (by
      intro q hq j hj
      have hj' : j ≤ 5 - q := by omega
      clear hj
      obtain rfl | rfl : q = 0 ∨ q = 1 := by omega
      · have : j ≤ 5 := hj'
        interval_cases j <;> decide +kernel
      · have : j ≤ 4 := hj'
        interval_cases j <;> decide +kernel)

example : oneBasisFunction 1 2 exKnots (1/4) = ok (5/8) := by decide +kernel

/-- C18 is violated: values below the tolerance are dropped, so on the cubic Bézier knot vector the
last basis function at `t = 1/1000` comes out as `0` instead of `t³`. -/
theorem C18_small_value_violated :
    oneBasisFunction 3 3 [0, 0, 0, 0, 1, 1, 1, 1] (1 / 1000 : ℚ) = ok 0 ∧
    N (nth [0, 0, 0, 0, 1, 1, 1, (1 : ℚ)]) 1 3 3 (1 / 1000) = (1 / 1000) ^ 3 := by
  constructor <;> decide +kernel

/-- C18: on an unclamped knot vector the shortcut for the first basis function answers `1` at the
first knot, where the function is `0`. -/
theorem C18_unclamped_violated :
    oneBasisFunction 0 2 [0, 1, 2, 3, 4, 5] (0 : ℚ) = ok 1 ∧ N (nth [0, 1, 2, 3, 4, (5 : ℚ)]) 5 2 0 0 = 0 := by
  constructor <;> decide +kernel

/-- C18: an index for which there is no basis function (`i + p + 1` is not a knot index) is not
rejected: for every knot vector some such call reads behind the end of it. -/
theorem C18_index_ub {U : List K} {p i : ℕ} {t : K} (hp : 0 < p) (hpos : 0 < i) (hl : i < U.length) (hlen : U.length ≤ i + p + 1)
    (hU : U.Pairwise (· ≤ ·)) (h0 : nth U i ≤ t) (h1 : t ≤ nth U (U.length - 1)) : oneBasisFunction i p U t = ub := by
  have heps := doubleEps_pos (K := K)
  have hV := (isValidKnotVector_iff U).mpr hU
  have hmono := isValidKnotVector_nth.mp hV
  have a0 := hmono 0 i (by omega) hl
  unfold oneBasisFunction
  have e0 : vget U 0 = ok (nth U 0) := vget_nth (by simp) (by omega)
  have e1 : vget U ((U.length : ℤ) - 1) = ok (nth U (U.length - 1)) := vget_nth (by omega) (by omega)
  have e2 : vget U (i : ℤ) = ok (nth U i) := vget_nth rfl hl
  have e3 : vget U ((i : ℤ) + p + 1) = ub := vget_ge (by omega)
  have hlt : isLessThan t (nth U i) = false := by
    by_contra hc
    exact absurd (lt_of_isLessThan doubleEps_pos (by simpa using hc)) (not_lt.mpr h0)
  rw [validate_of (by simp), ok_bind, validate_of (by simpa using hp), ok_bind, validate_of (by simp; omega), ok_bind,
    validate_of hV, ok_bind, e0, ok_bind, e1, ok_bind, validateRange_ok (by linarith) h1, ok_bind]
  dsimp only
  rw [if_neg (by omega), e2, ok_bind, hlt]
  simp only [Bool.false_eq_true, if_false]
  rw [e3]; rfl

/-! ## C66 -/

/-- C66 (partial): for every order `d ≤ p` the list of the derivatives of orders `0 … d` of the basis
function is returned, for parameters inside the domain (exactly on a knot or clearly away from it) at
which no basis function of lower degree has a derivative of non-zero modulus at most `2e-6`.  Missing
for the full property: the dropped small values and the right end (`C66_right_end_violated`). -/
theorem C66_derivatives_partial {U : List K} {p n i d s : ℕ} {t : K} (hc : Clamped U p n)
    (hsep : KnotSeparated U t) (hi : i ≤ n) (hd : d ≤ p) (hs : IsSpan (nth U) p n t s) (h1 : t < nth U (n + 1))
    (hbig : ∀ q < p, ∀ j l, dN (nth U) s q j l t = 0 ∨ 2 / 1000000 < |dN (nth U) s q j l t|) :
    ∃ r, oneBasisFunctionDerivative i p d U t = ok r ∧ r.length = d + 1 ∧
      ∀ k ≤ d, nth r k = dN (nth U) s p i k t := by
  have hpn := hc.pn
  have hlen := hc.len
  have hU := (isValidKnotVector_iff U).mpr hc.sorted
  have hmono := isValidKnotVector_nth.mp hU
  have hm : MonoTo (nth U) (n + p + 1) := fun a b h1 h2 => hmono a b h1 (by omega)
  have heps := doubleEps_pos (K := K)
  have hts : t < nth U (s + 1) := by
    rcases hs.2.2.2.2 with h | ⟨h, h'⟩
    · exact h
    · exact absurd (h.trans h') h1.ne
  have hsn := hs.2.1
  by_cases hz : s < i ∨ i + p < s
  · refine ⟨List.replicate (d + 1) 0, ?_, by simp, fun k _ => by rw [dN_out _ s p i k t hz]; exact nth_replicate_zero⟩
    unfold oneBasisFunctionDerivative
    rw [validate_of (by simp), ok_bind, validate_of (by simpa using hc.pos), ok_bind, validate_of (by simpa using hd), ok_bind]
    apply Runs.eq
    refine prologue (t := t) (by omega) hU (by have := (hmono 0 s (by omega) (by omega)).trans hs.2.2.2.1; linarith)
      (by have := hmono (n + 1) (U.length - 1) (by omega) (by omega); linarith) ?_
    dsimp only
    have ed : ((d : ℤ) + 1).toNat = d + 1 := by omega
    rw [ed]
    refine Runs.bind_eq (vget_nth rfl (by omega)) ?_
    rw [sep_lt hsep (by omega)]
    by_cases c : t < nth U i
    · rw [if_pos (by simpa using c)]; exact Runs.ok rfl
    · rw [if_neg (by simpa using c)]
      refine Runs.bind_eq (vget_nth (k := i + p + 1) (by push_cast; ring) (by omega)) ?_
      rw [sep_ge hsep (by omega), if_pos]; exact Runs.ok rfl
      rcases hz with hz | hz
      · exact absurd (lt_of_lt_of_le hts (hmono _ _ (by omega) (by omega))) c
      · simpa using (hmono (i + p + 1) s (by omega) (by omega)).trans hs.2.2.2.1
  · exact oneBasisDer_core (by omega) hU hsep (by omega) (by omega) hs.2.2.2.1 hts hc.pos hd hbig

example : oneBasisFunctionDerivative 1 2 2 exKnots (1/4) = ok [5/8, 1, -12] := by decide +kernel
example : IsSpan (nth exKnots) 2 3 (1/4) 2 ∧ KnotSeparated exKnots (1/4) := by
  unfold KnotSeparated IsSpan; decide +kernel

/-- an index outside the knot vector `[0,0,0,1/2,1,1,1]` -/
example : oneBasisFunction 4 2 exKnots 1 = ub :=
  C18_index_ub (p := 2) (i := 4) (by decide) (by decide) (by decide) (by decide) (by decide +kernel) (by decide +kernel) (by decide +kernel)

/-- C66: an order above the degree is rejected. -/
theorem C66_order_rejected {U : List K} {p i d : ℤ} {t : K} (h : p < d) : oneBasisFunctionDerivative i p d U t = invalidArg := by
  unfold oneBasisFunctionDerivative validate
  by_cases h1 : i ≥ 0
  · by_cases h2 : p > 0
    · simp [h1, h2, not_le.mpr h]
    · simp [h1, h2]
  · simp [h1]

/-- C66 is violated at the right end of the domain of a clamped knot vector: all values of the last
basis function are reported as zero, also the function value itself, which is one (and which
`OneBasisFunction` gets right). -/
theorem C66_right_end_violated :
    oneBasisFunctionDerivative 3 2 1 exKnots 1 = ok [0, 0] ∧ oneBasisFunction 3 2 exKnots 1 = ok 1 ∧
    N (nth exKnots) (nth exKnots 4) 2 3 1 = 1 := by
  refine ⟨?_, ?_, ?_⟩ <;> decide +kernel

end LNLib.Props
