import Verif.Model.Polynomials

/-! # Facts about the tolerant comparisons and the validation macros -/
set_option linter.unusedSectionVars false

namespace LNLib
open Res

variable {K : Type} [Field K] [LinearOrder K] [IsStrictOrderedRing K]

theorem doubleEps_pos : (0 : K) < doubleEps := by unfold doubleEps; positivity
theorem doubleEps_lt_one : (doubleEps : K) < 1 := by
  unfold doubleEps
  rw [div_lt_one (by positivity)]
  norm_num

theorem tolOf_pos {a b tol : K} (h : 0 < tol) : 0 < tolOf a b tol := by
  unfold tolOf
  have : 0 ≤ max |a| |b| := le_max_of_le_left (abs_nonneg a)
  positivity

theorem tolOf_comm (a b tol : K) : tolOf a b tol = tolOf b a tol := by
  unfold tolOf; rw [max_comm]

theorem max_abs_lipschitz (a b c : K) : |a| ⊔ |c| ≤ |a| ⊔ |b| + |b - c| := by
  have h1 : |c| ≤ |b| + |b - c| := by
    have : c = b - (b - c) := by ring
    calc |c| = |b - (b - c)| := by rw [← this]
      _ ≤ |b| + |b - c| := abs_sub _ _
  apply max_le
  · exact le_add_of_le_of_nonneg (le_max_left _ _) (abs_nonneg _)
  · exact h1.trans (by gcongr; exact le_max_right _ _)

/-- a tolerant `<` survives moving the right side up -/
theorem isLessThan_mono_right {a b c tol : K} (h0 : 0 < tol) (h1 : tol < 1)
    (h : isLessThan a b tol = true) (hbc : b ≤ c) : isLessThan a c tol = true := by
  simp only [isLessThan, decide_eq_true_eq] at *
  simp only [tolOf] at *
  have h2 := max_abs_lipschitz a b c
  have h3 : |b - c| = c - b := by rw [abs_sub_comm, abs_of_nonneg (by linarith)]
  rw [h3] at h2
  have : tol * (1 + |a| ⊔ |c|) ≤ tol * (1 + |a| ⊔ |b|) + tol * (c - b) := by
    have := mul_le_mul_of_nonneg_left h2 h0.le
    linarith [mul_add tol (|a| ⊔ |b|) (c - b)]
  have h4 : tol * (c - b) ≤ c - b := by
    have : 0 ≤ c - b := by linarith
    nlinarith
  linarith

/-- a tolerant `<` survives moving the left side down -/
theorem isLessThan_mono_left {a b c tol : K} (h0 : 0 < tol) (h1 : tol < 1)
    (h : isLessThan a b tol = true) (hca : c ≤ a) : isLessThan c b tol = true := by
  simp only [isLessThan, decide_eq_true_eq] at *
  simp only [tolOf] at *
  have h2 := max_abs_lipschitz b a c
  have h3 : |a - c| = a - c := abs_of_nonneg (by linarith)
  rw [h3] at h2
  rw [max_comm] at h
  rw [max_comm]
  have : tol * (1 + |b| ⊔ |c|) ≤ tol * (1 + |b| ⊔ |a|) + tol * (a - c) := by
    have := mul_le_mul_of_nonneg_left h2 h0.le
    linarith [mul_add tol (|b| ⊔ |a|) (a - c)]
  have h4 : tol * (a - c) ≤ a - c := by
    have : 0 ≤ a - c := by linarith
    nlinarith
  linarith

theorem lt_of_isLessThan {a b tol : K} (h0 : 0 < tol) (h : isLessThan a b tol = true) : a < b := by
  simp only [isLessThan, decide_eq_true_eq] at h
  have := tolOf_pos (a := a) (b := b) h0
  linarith

theorem isGreaterThanOrEqual_eq_not (a b tol : K) :
    isGreaterThanOrEqual a b tol = !(isLessThan a b tol) := by
  simp only [isGreaterThanOrEqual, isLessThan]
  rw [← decide_not, decide_eq_decide]
  constructor
  · intro h; push Not; linarith
  · intro h; push Not at h; linarith

theorem isLessThanOrEqual_eq_not (a b tol : K) :
    isLessThanOrEqual a b tol = !(isLessThan b a tol) := by
  simp only [isLessThanOrEqual, isLessThan]
  rw [← decide_not, decide_eq_decide, tolOf_comm b a]
  push Not
  rfl

theorem isAlmostEqualTo_self {a tol : K} (h : 0 < tol) : isAlmostEqualTo a a tol = true := by
  simp only [isAlmostEqualTo, sub_self, abs_zero, decide_eq_true_eq]
  exact (tolOf_pos h).le

theorem isAlmostEqualTo_iff (a b tol : K) :
    isAlmostEqualTo a b tol = (!(isLessThan a b tol) && !(isLessThan b a tol)) := by
  simp only [isAlmostEqualTo, isLessThan]
  rw [tolOf_comm b a, ← decide_not, ← decide_not, ← Bool.decide_and, decide_eq_decide, abs_le]
  push Not
  constructor
  · rintro ⟨h1, h2⟩; constructor <;> linarith
  · rintro ⟨h1, h2⟩; constructor <;> linarith

/-! ### ranges -/

theorem validateRange_ok {x lo hi : K} (h1 : lo ≤ x) (h2 : x ≤ hi) : validateRange x lo hi = ok () := by
  unfold validateRange
  rw [if_neg]
  rintro (⟨h, _⟩ | ⟨h, _⟩)
  · exact absurd h (not_lt.mpr h1)
  · exact absurd h (not_lt.mpr h2)

theorem validateRange_eq_ok_iff {x lo hi : K} :
    validateRange x lo hi = ok () ↔ lo - doubleEps ≤ x ∧ x ≤ hi + doubleEps := by
  have he := doubleEps_pos (K := K)
  unfold validateRange
  split
  · rename_i h
    simp only [reduceCtorEq, false_iff, not_and, not_le]
    intro h1
    rcases h with ⟨ha, hb⟩ | ⟨ha, hb⟩
    · rw [abs_of_neg (by linarith)] at hb; linarith
    · rw [abs_of_pos (by linarith)] at hb; linarith
  · rename_i h
    push Not at h
    simp only [true_iff]
    constructor
    · by_cases hx : x < lo
      · have := h.1 hx
        rw [abs_of_neg (by linarith)] at this; linarith
      · linarith
    · by_cases hx : hi < x
      · have := h.2 hx
        rw [abs_of_pos (by linarith)] at this; linarith
      · linarith

theorem validateRange_cases (x lo hi : K) :
    validateRange x lo hi = ok () ∨ validateRange x lo hi = outOfRange := by
  unfold validateRange; split <;> simp

theorem validateRange_out {x lo hi : K} (h : x < lo - doubleEps ∨ hi + doubleEps < x) :
    validateRange x lo hi = outOfRange := by
  rcases validateRange_cases x lo hi with h1 | h1
  · rw [validateRange_eq_ok_iff] at h1
    rcases h with h | h <;> linarith
  · exact h1

/-! ### sorted knot vectors -/

theorem isValidKnotVector_iff (l : List K) : isValidKnotVector l = true ↔ l.Pairwise (· ≤ ·) := by
  induction l with
  | nil => simp [isValidKnotVector]
  | cons a l ih =>
    cases l with
    | nil => simp [isValidKnotVector]
    | cons b l =>
      simp only [isValidKnotVector, Bool.and_eq_true, Bool.not_eq_true', decide_eq_false_iff_not, not_lt, ih]
      rw [List.pairwise_cons (a := a)]
      constructor
      · rintro ⟨h1, h2⟩
        refine ⟨?_, h2⟩
        intro x hx
        rcases List.mem_cons.mp hx with rfl | hx
        · exact h1
        · exact h1.trans ((List.pairwise_cons.mp h2).1 x hx)
      · rintro ⟨h1, h2⟩
        exact ⟨h1 b (by simp), h2⟩

theorem isValidKnotVector_nth {l : List K} :
    isValidKnotVector l = true ↔ ∀ i j, i ≤ j → j < l.length → nth l i ≤ nth l j := by
  rw [isValidKnotVector_iff, List.pairwise_iff_getElem]
  constructor
  · intro h i j hij hj
    rcases Nat.lt_or_ge i j with h1 | h1
    · rw [nth_eq_getElem (by omega), nth_eq_getElem hj]
      exact h i j (by omega) hj h1
    · have : i = j := by omega
      rw [this]
  · intro h i j hi hj hij
    have := h i j (by omega) hj
    rwa [nth_eq_getElem (by omega), nth_eq_getElem hj] at this

end LNLib
