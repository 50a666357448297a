import Verif.Lemmas.Tolerance
import Verif.Lemmas.CoxDeBoor

/-! # The knot span search and the basis function loop -/
set_option linter.unusedSectionVars false

namespace LNLib
open Res Spec

variable {K : Type} [Field K] [LinearOrder K] [IsStrictOrderedRing K]

/-- loop condition of the binary search -/
def spanCond (U : List K) (t : K) (s : ℤ × ℤ × ℤ) : Res Bool := do
  let a ← vget U s.2.2
  if t < a then ok true
  else do
    let b ← vget U (s.2.2 + 1)
    ok (decide (t ≥ b))

/-- loop body of the binary search -/
def spanBody (U : List K) (t : K) (s : ℤ × ℤ × ℤ) : Res (ℤ × ℤ × ℤ) := do
  let a ← vget U s.2.2
  if t < a then ok (s.1, s.2.2, (s.1 + s.2.2) / 2)
  else ok (s.2.2, s.2.1, (s.2.2 + s.2.1) / 2)

theorem spanLoop {U : List K} {t : K} :
    ∀ (fuel : ℕ) (low high : ℕ), high ≤ low + fuel → low < high → high < U.length →
      nth U low ≤ t → t < nth U high →
      ∃ (l h : ℤ) (m : ℕ), whileF (spanCond U t) (spanBody U t) fuel ((low : ℤ), (high : ℤ), ((low : ℤ) + high) / 2) = ok (l, h, (m : ℤ))
        ∧ low ≤ m ∧ m < high ∧ nth U m ≤ t ∧ t < nth U (m + 1) := by
  intro fuel
  induction fuel with
  | zero => intro low high h1 h2; omega
  | succ fuel ih =>
    intro low high hf hlt hlen h1 h2
    obtain ⟨mid, hmid⟩ : ∃ mid : ℕ, ((low : ℤ) + high) / 2 = mid := ⟨(low + high) / 2, by omega⟩
    have hmlow : low ≤ mid := by omega
    have hmhigh : mid < high := by omega
    rw [hmid]
    have ga : vget U (mid : ℤ) = ok (nth U mid) := vget_nth rfl (by omega)
    have gb : vget U ((mid : ℤ) + 1) = ok (nth U (mid + 1)) := vget_nth (by push_cast; rfl) (by omega)
    simp only [whileF, spanCond, spanBody, ga, ok_bind]
    by_cases c1 : t < nth U mid
    · simp only [c1, if_true, ok_bind]
      have hlm : low < mid := by
        rcases Nat.lt_or_ge low mid with h | h
        · exact h
        · have : low = mid := by omega
          rw [this] at h1
          exact absurd c1 (not_lt.mpr h1)
      obtain ⟨l, h, m, e, r1, r2, r3, r4⟩ := ih low mid (by omega) hlm (by omega) h1 c1
      exact ⟨l, h, m, e, r1, by omega, r3, r4⟩
    · simp only [c1, if_false, gb, ok_bind]
      by_cases c2 : t ≥ nth U (mid + 1)
      · simp only [c2, decide_true, if_true]
        have hlm : mid + 1 < high := by
          rcases Nat.lt_or_ge (mid + 1) high with h | h
          · exact h
          · have : mid + 1 = high := by omega
            rw [this] at c2
            exact absurd h2 (not_lt.mpr c2)
        obtain ⟨l, h, m, e, r1, r2, r3, r4⟩ := ih mid high (by omega) (by omega) hlen (not_lt.mp c1) h2
        exact ⟨l, h, m, e, by omega, r2, r3, r4⟩
      · simp only [c2, decide_false]
        exact ⟨low, high, mid, by simp, hmlow, hmhigh, not_lt.mp c1, not_le.mp c2⟩

theorem getKnotSpanIndex_unfold (degree : ℤ) (U : List K) (t : K) :
    getKnotSpanIndex degree U t = (do
      validate (degree ≥ 0)
      validate (U.length > 0)
      validate (isValidKnotVector U)
      let first ← vget U 0
      let last ← vget U ((U.length : ℤ) - 1)
      validateRange t first last
      let n : ℤ := (U.length : ℤ) - degree - 2
      let un1 ← vget U (n + 1)
      if isGreaterThanOrEqual t un1 then ok n
      else do
        let up ← vget U degree
        if isLessThanOrEqual t up then ok degree
        else do
          let s ← whileF (spanCond U t) (spanBody U t) U.length (degree, n + 1, (degree + (n + 1)) / 2)
          ok s.2.2) := rfl

/-- The whole function on every input that gets past its own validations and whose knot vector is
long enough to have `U[n+1]`, `U[degree]`: it returns a span. -/
theorem getKnotSpanIndex_ok {p n : ℕ} {U : List K} {t : K}
    (hlen : U.length = n + p + 2) (hU : isValidKnotVector U = true)
    (h0 : nth U 0 - doubleEps ≤ t) (h1 : t ≤ nth U (n + p + 1) + doubleEps) :
    ∃ s : ℕ, getKnotSpanIndex p U t = ok (s : ℤ) ∧
      ((isGreaterThanOrEqual t (nth U (n + 1)) = true ∧ s = n) ∨
       (isGreaterThanOrEqual t (nth U (n + 1)) = false ∧ isLessThanOrEqual t (nth U p) = true ∧ s = p) ∨
       (isGreaterThanOrEqual t (nth U (n + 1)) = false ∧ isLessThanOrEqual t (nth U p) = false ∧
         p ≤ s ∧ s ≤ n ∧ nth U s ≤ t ∧ t < nth U (s + 1))) := by
  rw [getKnotSpanIndex_unfold]
  have e0 : vget U 0 = ok (nth U 0) := vget_nth (by simp) (by omega)
  have e1 : vget U ((U.length : ℤ) - 1) = ok (nth U (n + p + 1)) := vget_nth (by rw [hlen]; push_cast; ring) (by omega)
  have en : (U.length : ℤ) - p - 2 = n := by rw [hlen]; push_cast; ring
  have e2 : vget U ((n : ℤ) + 1) = ok (nth U (n + 1)) := vget_nth (by push_cast; rfl) (by omega)
  have e3 : vget U (p : ℤ) = ok (nth U p) := vget_nth rfl (by omega)
  have hv : validateRange t (nth U 0) (nth U (n + p + 1)) = ok () := validateRange_eq_ok_iff.mpr ⟨h0, h1⟩
  have hpos : U.length > 0 := by omega
  simp only [hU, e0, e1, en, e2, e3, hv, ok_bind, ge_iff_le, Int.natCast_nonneg, hpos, decide_true, validate_true]
  by_cases c1 : isGreaterThanOrEqual t (nth U (n + 1)) = true
  · simp only [c1, if_true]
    exact ⟨n, rfl, Or.inl ⟨trivial, rfl⟩⟩
  · rw [if_neg c1]
    by_cases c2 : isLessThanOrEqual t (nth U p) = true
    · rw [if_pos c2]
      exact ⟨p, rfl, Or.inr (Or.inl ⟨by simpa using c1, c2, rfl⟩)⟩
    · rw [if_neg c2]
      rw [isGreaterThanOrEqual_eq_not] at c1
      rw [isLessThanOrEqual_eq_not] at c2
      have d1 : isLessThan t (nth U (n + 1)) = true := by simpa using c1
      have d2 : isLessThan (nth U p) t = true := by simpa using c2
      have l1 := lt_of_isLessThan doubleEps_pos d1
      have l2 := lt_of_isLessThan doubleEps_pos d2
      have hpn : p < n + 1 := by
        by_contra hcon
        have := isValidKnotVector_nth.mp hU (n + 1) p (by omega) (by omega)
        exact absurd (l2.trans l1) (not_lt.mpr this)
      have := spanLoop U.length p (n + 1) (by omega) hpn (by omega) l2.le l1
      push_cast at this
      obtain ⟨l, h, m, e, r1, r2, r3, r4⟩ := this
      rw [e]
      refine ⟨m, rfl, Or.inr (Or.inr ⟨by rw [isGreaterThanOrEqual_eq_not]; simpa using d1, by rw [isLessThanOrEqual_eq_not]; simpa using d2, r1, by omega, r3, r4⟩)⟩

end LNLib
