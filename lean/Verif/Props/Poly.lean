import Verif.Lemmas.Poly
import Mathlib.Algebra.BigOperators.Fin

/-!
# C13–C16, C24, C25: polynomials, binomials, tolerance comparisons
(Algorithm/Polynomials.cpp, include/BezierCurve.h, Mathematics/Utils/MathUtils.cpp)
-/
set_option linter.unusedSectionVars false

namespace LNLib.Props
open LNLib Res Spec Finset

variable {K : Type} [Field K] [LinearOrder K] [IsStrictOrderedRing K]
variable {T : Type} [AddCommGroup T] [Module K T]

/-! ## C13 -/

/-- C13: `Horner` returns `∑ aᵢ tⁱ` for every degree `n ≥ 1`, every list of `n + 1` coefficients and
every parameter. -/
theorem C13_horner {n : ℕ} (hn : 0 < n) {a : List K} (ha : a.length = n + 1) (t : K) :
    horner (n : ℤ) a t = ok (∑ i ∈ range (n + 1), nth a i * t ^ i) := horner_run hn ha t

/-- C13: a nonpositive degree or a wrong number of coefficients is rejected. -/
theorem C13_horner_rejects {n : ℤ} {a : List K} (t : K) (h : n ≤ 0 ∨ (a.length : ℤ) ≠ n + 1) : horner n a t = invalidArg := by
  unfold horner
  by_cases hn : n > 0
  · rcases h with h | h
    · omega
    · have hv : isValidBezier n (a.length : ℤ) = false := by simpa [isValidBezier] using h
      simp [hn, hv]
  · simp [hn]

/-- C13: the bivariate version returns `∑ᵢ∑ⱼ aᵢⱼ uⁱ vʲ`. -/
theorem C13_horner_bivariate {n m : ℕ} (hn : 0 < n) (hm : 0 < m) {a : List (List K)} (ha : IsMat a (n + 1) (m + 1)) {u v : K}
    (hu0 : 0 ≤ u) (hu1 : u ≤ 1) (hv0 : 0 ≤ v) (hv1 : v ≤ 1) :
    horner2 (n : ℤ) (m : ℤ) a u v = ok (∑ i ∈ range (n + 1), ∑ j ∈ range (m + 1), ent a i j * u ^ i * v ^ j) := by
  have hl := ha.1
  have hr := ha.2
  apply Runs.eq
  unfold horner2
  have v1 : validate ((n : ℤ) > 0) = ok () := validate_of (by simpa using hn)
  have v2 : validate ((m : ℤ) > 0) = ok () := validate_of (by simpa using hm)
  have v3 : validate (a.length > 0) = ok () := validate_of (by simp [hl])
  have v4 : validate (isValidBezier (n : ℤ) (a.length : ℤ)) = ok () := validate_of (by simp [isValidBezier, hl])
  have v5 : validate (isValidBezier (m : ℤ) ((row a 0).length : ℤ)) = ok () := validate_of (by simp [isValidBezier, hr 0 (by omega)])
  rw [v1, ok_bind, v2, ok_bind, v3, ok_bind, v4, ok_bind, vget_row (k := 0) (by simp) (by omega), ok_bind, v5, ok_bind,
    validateRange_ok hu0 hu1, ok_bind, validateRange_ok hv0 hv1, ok_bind]
  dsimp only
  have hbody : (fun (i : ℤ) (temp : List K) => (vget a i >>= fun c => horner (m : ℤ) c v >>= fun h => vset temp i h : Res (List K))) =
      fun i temp => (vget a i >>= fun c => horner (m : ℤ) c v) >>= fun h => vset temp i h := by
    funext i temp; rw [bind_assoc']
  rw [hbody]
  refine Runs.bind (Runs.fill (e := 0) (f := fun i => ∑ j ∈ range (m + 1), ent a i j * v ^ j) (dst := fun i => i)
    (rd := fun i => vget a i >>= fun c => horner (m : ℤ) c v) (by intro i; omega) (by omega) (by rw [List.length_replicate]; omega) (by omega) ?_) ?_
  · intro i h1 h2
    rw [vget_row (k := (i + 0).toNat) (by omega) (by omega), ok_bind, horner_run hm (hr _ (by omega))]
    rfl
  · rintro temp ⟨g1, g2⟩
    rw [horner_run hn (by rw [g1, List.length_replicate]; omega)]
    refine Runs.ok ?_
    apply Finset.sum_congr rfl
    intro i hi
    simp only [mem_range] at hi
    rw [g2, if_pos (by omega), Finset.sum_mul]
    apply Finset.sum_congr rfl
    intro j _
    ring

example : horner 2 [1, 2, 3] (2 : ℚ) = ok 17 ∧ horner2 1 1 [[1, 2], [3, 4]] (1/2) (1/3 : ℚ) = ok (23/6) := by decide +kernel

/-! ## C14 -/

/-- C14: `AllBernstein(n,t)` is the list of the `n + 1` Bernstein polynomials at `t`. -/
theorem C14_all_bernstein (n : ℕ) {t : K} (h0 : 0 ≤ t) (h1 : t ≤ 1) :
    allBernstein (n : ℤ) t = ok ((List.range (n + 1)).map fun i => bernsteinP n i t) := by
  obtain ⟨b, hb, hl, hn⟩ := allBernstein_run (n := n) h0 h1
  rw [hb]
  congr 1
  apply List.ext_getElem (by simp [hl])
  intro i h2 h3
  have := hn i (by omega)
  rw [nth_eq_getElem h2] at this
  simp [this]

/-- C14: partition of unity and nonnegativity. -/
theorem C14_bernstein_sum_nonneg (n : ℕ) {t : K} (h0 : 0 ≤ t) (h1 : t ≤ 1) :
    ∃ b : List K, allBernstein (n : ℤ) t = ok b ∧ b.length = n + 1 ∧ b.sum = 1 ∧ ∀ x ∈ b, 0 ≤ x := by
  refine ⟨_, C14_all_bernstein n h0 h1, by simp, ?_, ?_⟩
  · have : ((List.range (n + 1)).map fun i => bernsteinP n i t).sum = ∑ i ∈ range (n + 1), bernsteinP n i t := by
      rw [Finset.sum_range]
      rw [← List.sum_ofFn]
      congr 1
      apply List.ext_getElem (by simp)
      intro i h2 h3
      rw [List.getElem_ofFn, List.getElem_map, List.getElem_range]
    rw [this]
    have := add_pow t (1 - t) n
    rw [add_sub_cancel, one_pow] at this
    rw [this]
    apply Finset.sum_congr rfl
    intro i _
    unfold bernsteinP; ring
  · intro x hx
    simp only [List.mem_map, List.mem_range] at hx
    obtain ⟨i, _, rfl⟩ := hx
    unfold bernsteinP
    have : 0 ≤ 1 - t := by linarith
    positivity

/-- C14: negative degrees and parameters outside `[0,1]` are rejected. -/
theorem C14_rejects {n : ℤ} {t : K} :
    (n < 0 → allBernstein n t = invalidArg) ∧ (0 ≤ n → (t < 0 - 1 / 1000000 ∨ 1 + 1 / 1000000 < t) → allBernstein n t = outOfRange) := by
  constructor
  · intro h
    unfold allBernstein
    simp [not_le.mpr h]
  · intro h ht
    unfold allBernstein
    have v : validate (n ≥ 0) = ok () := validate_of (by simpa using h)
    rw [v, ok_bind, validateRange_out ht]
    rfl

example : allBernstein 3 (1/2 : ℚ) = ok [1/8, 3/8, 3/8, 1/8] := by decide +kernel

/-! ## C15 -/

/-- C15 (the cases in which the code is right): for the indices `0`, `1` and `degree`,
`Bernstein(index, degree, t)` is the Bernstein polynomial.  The full claim is for every index
`0 ≤ i ≤ n`; `C15_bernstein_violated` refutes it. -/
theorem C15_bernstein_partial {n i : ℕ} {t : K} (h0 : 0 ≤ t) (h1 : t ≤ 1) (hi : i = 0 ∨ i = n ∨ (i = 1 ∧ 1 ≤ n)) :
    bernstein (i : ℤ) (n : ℤ) t = ok (bernsteinP n i t) := by
  have main : 1 ≤ n → i = 0 ∨ i = n → bernstein (i : ℤ) (n : ℤ) t = ok (bernsteinP n i t) := by
    intro hn hi
    unfold bernstein
    have v1 : validate ((i : ℤ) ≥ 0 ∧ (i : ℤ) ≤ n) = ok () := validate_of (by simp; omega)
    have v2 : validate ((n : ℤ) ≥ 0) = ok () := validate_of (by simp)
    rw [v1, ok_bind, v2, ok_bind, validateRange_ok h0 h1, ok_bind, if_neg (by omega)]
    rcases hi with rfl | rfl
    · rw [if_pos (by simp)]; simp [bernsteinP]
    · rw [if_neg (by omega), if_pos rfl]; simp [bernsteinP]
  by_cases hn : n = 0
  · subst hn
    have : i = 0 := by omega
    subst this
    unfold bernstein
    rw [validate_of (by simp), ok_bind, validate_of (by simp), ok_bind, validateRange_ok h0 h1, ok_bind]
    simp [bernsteinP]
  · rcases hi with h | h | ⟨rfl, h⟩
    · exact main (by omega) (Or.inl h)
    · exact main (by omega) (Or.inr h)
    · by_cases h2 : n = 1
      · exact main (by omega) (Or.inr h2.symm)
      · rw [bernstein_run (le_refl 1) (by omega) h0 h1]
        congr 2; omega

/-- C15: what the code returns for `1 ≤ i < n`: the Bernstein polynomial of degree `n - i + 1`. -/
theorem C15_bernstein_actual_partial {n i : ℕ} {t : K} (hi : 1 ≤ i) (hin : i < n) (h0 : 0 ≤ t) (h1 : t ≤ 1) :
    bernstein (i : ℤ) (n : ℤ) t = ok (((n - i + 1).choose i : K) * t ^ i * (1 - t) ^ (n - i + 1 - i)) :=
  bernstein_run hi hin h0 h1

/-- C15 is violated by the code: `Bernstein(2,3,1/2)` returns `1/4` instead of `3/8`. -/
theorem C15_bernstein_violated : bernstein 2 3 (1/2 : ℚ) = ok (1/4) ∧ bernsteinP 3 2 (1/2 : ℚ) = 3/8 := by
  decide +kernel

/-! ## C16 -/

/-- C16: both Bézier evaluators return `∑ B_{k,n}(t) P_k`. -/
theorem C16_deCasteljau {c : BezierCurve T} {n : ℕ} {t : K} (hd : c.degree = n) (hc : c.cps.length = n + 1)
    (h0 : 0 ≤ t) (h1 : t ≤ 1) :
    c.pointByDeCasteljau t = ok (bezierPoint n (nth c.cps) t) ∧ c.pointByBernstein t = ok (bezierPoint n (nth c.cps) t) :=
  ⟨deCasteljau_run hd hc h0 h1, byBernstein_run hd hc h0 h1⟩

/-- C16: every Bézier curve accepted by `Check` meets the hypotheses of `C16_deCasteljau`. -/
theorem C16_checked {c : BezierCurve T} (h : c.check = ok ()) : ∃ n : ℕ, 0 < n ∧ c.degree = n ∧ c.cps.length = n + 1 := by
  unfold BezierCurve.check at h
  by_cases h1 : c.degree > 0
  · by_cases h2 : isValidBezier c.degree (c.cps.length : ℤ) = true
    · refine ⟨c.degree.toNat, by omega, by omega, ?_⟩
      simp only [isValidBezier, beq_iff_eq] at h2
      omega
    · exfalso
      by_cases h3 : c.cps.length > 0 <;> simp [h1, h2, h3] at h
  · simp [h1] at h

example : (⟨2, [1, 2, 4]⟩ : BezierCurve ℚ).check = ok () ∧
    (⟨2, [1, 2, 4]⟩ : BezierCurve ℚ).pointByDeCasteljau (1/2 : ℚ) = ok (9/4) := by decide +kernel

/-! ## C25 -/

/-- C25: for every pair of numbers and every positive tolerance exactly one of `IsLessThan`,
`IsAlmostEqualTo`, `IsGreaterThan` holds. -/
theorem C25_trichotomy (a b : K) {tol : K} (h : 0 < tol) :
    (isLessThan a b tol = true ∧ isAlmostEqualTo a b tol = false ∧ isGreaterThan a b tol = false) ∨
    (isLessThan a b tol = false ∧ isAlmostEqualTo a b tol = true ∧ isGreaterThan a b tol = false) ∨
    (isLessThan a b tol = false ∧ isAlmostEqualTo a b tol = false ∧ isGreaterThan a b tol = true) := by
  have hp := tolOf_pos (a := a) (b := b) h
  simp only [isLessThan, isAlmostEqualTo, isGreaterThan, decide_eq_true_eq, decide_eq_false_iff_not, not_lt, not_le, gt_iff_lt]
  rcases lt_or_ge (tolOf a b tol) (b - a) with h1 | h1
  · left
    refine ⟨h1, ?_, by linarith⟩
    rw [abs_sub_comm]; exact lt_of_lt_of_le h1 (le_abs_self _)
  · rcases lt_or_ge (tolOf a b tol) (a - b) with h2 | h2
    · right; right
      exact ⟨h1, lt_of_lt_of_le h2 (le_abs_self _), h2⟩
    · right; left
      exact ⟨h1, abs_le.mpr ⟨by linarith, h2⟩, h2⟩

/-- C25: the weak comparisons are the negations of the strict ones. -/
theorem C25_weak (a b tol : K) : isLessThanOrEqual a b tol = !isGreaterThan a b tol ∧ isGreaterThanOrEqual a b tol = !isLessThan a b tol := by
  refine ⟨?_, isGreaterThanOrEqual_eq_not a b tol⟩
  simp only [isLessThanOrEqual, isGreaterThan]
  rw [← decide_not, decide_eq_decide]
  push Not
  rfl

/-- C25: reflexivity, symmetry and duality. -/
theorem C25_refl_symm (a b : K) {tol : K} (h : 0 < tol) :
    isAlmostEqualTo a a tol = true ∧ isAlmostEqualTo a b tol = isAlmostEqualTo b a tol ∧ isLessThan a b tol = isGreaterThan b a tol := by
  refine ⟨isAlmostEqualTo_self h, ?_, ?_⟩
  · simp only [isAlmostEqualTo]; rw [abs_sub_comm, tolOf_comm]
  · simp only [isLessThan, isGreaterThan]; rw [tolOf_comm]

/-- C25: the comparisons are sound with respect to the exact order, and refine it. -/
theorem C25_sound (a b : K) {tol : K} (h : 0 < tol) :
    (isLessThan a b tol = true → a < b) ∧ (a = b → isAlmostEqualTo a b tol = true) ∧ (a ≤ b → isLessThanOrEqual a b tol = true) := by
  refine ⟨lt_of_isLessThan h, ?_, ?_⟩
  · rintro rfl; exact isAlmostEqualTo_self h
  · intro hab
    simp only [isLessThanOrEqual, decide_eq_true_eq]
    have := tolOf_pos (a := a) (b := b) h
    linarith

/-- C25: `IsAlmostEqualTo` is not transitive. -/
theorem C25_not_transitive : isAlmostEqualTo (0 : ℚ) (1/1000000) = true ∧ isAlmostEqualTo (1/1000000 : ℚ) (2/1000000) = true ∧
    isAlmostEqualTo (0 : ℚ) (2/1000000) = false := by decide +kernel

/-! ## C24 -/

/-- C24: `Factorial(n)` is `n!` for `0 ≤ n ≤ 20` (which fits a 64-bit integer), `-1` for negative
arguments and an exception above 20. -/
theorem C24_factorial (n : ℤ) :
    (n < 0 → factorial n = ok (-1)) ∧ (20 < n → factorial n = invalidArg) ∧
    (0 ≤ n → n ≤ 20 → factorial n = ok ((n.toNat.factorial : ℕ) : ℤ) ∧ ((n.toNat.factorial : ℕ) : ℤ) < 2 ^ 63) := by
  refine ⟨fun h => by simp [factorial, h], fun h => ?_, fun h0 h1 => ⟨?_, ?_⟩⟩
  · unfold factorial; rw [if_neg (by omega), if_pos (by omega)]
  · unfold factorial
    rw [if_neg (by omega), if_neg (by omega)]
    obtain ⟨m, rfl⟩ := Int.eq_ofNat_of_zero_le h0
    by_cases hm : m ≤ 1
    · rw [forI_empty (by omega)]
      have : m = 0 ∨ m = 1 := by omega
      rcases this with rfl | rfl <;> rfl
    · apply Runs.eq
      refine (Runs.forN (m := 2) (n := m + 1) (fun i r => r = (((i - 1).factorial : ℕ) : ℤ)) (by simp) (by simp) (by omega) (by simp) ?_).mono ?_
      · rintro i r hi1 _ rfl
        refine Runs.ok ?_
        obtain ⟨i', rfl⟩ : ∃ i', i = i' + 1 := ⟨i - 1, by omega⟩
        simp only [Nat.add_sub_cancel, Nat.factorial_succ]
        push_cast; ring
      · rintro r rfl; simp
  · have : n.toNat.factorial ≤ Nat.factorial 20 := Nat.factorial_le (by omega)
    have h20 : Nat.factorial 20 < 2 ^ 63 := by decide
    have h3 : n.toNat.factorial < 2 ^ 63 := lt_of_le_of_lt this h20
    exact_mod_cast h3

theorem pascal_run {last : ℕ} : Runs (pascalTable K (last : ℤ)) (fun m => IsMat m (last + 1) (last + 1) ∧
    ∀ i j, i ≤ last → j ≤ i → ent m i j = (i.choose j : K)) := by
  unfold pascalTable
  have e : ((last : ℤ) + 1).toNat = last + 1 := by omega
  simp only [e]
  refine (Runs.forN (m := 0) (n := last + 1) (fun i m => IsMat m (last + 1) (last + 1) ∧
    ∀ a b, a < i → b ≤ a → ent m a b = (a.choose b : K)) (by simp) (by simp) (by omega) ⟨isMat_replicate, fun a b h => by omega⟩ ?_).mono ?_
  · rintro i m hi1 hi2 ⟨hm, hv⟩
    obtain ⟨m1, r1, hm1, hv1⟩ := mset_ok (x := (1 : K)) hm (i := (i : ℤ)) (j := (i : ℤ)) (a := i) (b := i) rfl rfl hi2 hi2
    obtain ⟨m2, r2, hm2, hv2⟩ := mset_ok (x := (1 : K)) hm1 (i := (i : ℤ)) (j := 0) (a := i) (b := 0) rfl (by simp) hi2 (by omega)
    rw [r1, ok_bind, r2, ok_bind]
    by_cases hi0 : i = 0
    · subst hi0
      rw [forI_empty (by simp)]
      refine Runs.ok ⟨hm2, ?_⟩
      intro a b ha hb
      have : a = 0 ∧ b = 0 := by omega
      rw [this.1, this.2, hv2, if_pos ⟨rfl, rfl⟩]; simp
    · refine (Runs.forN (m := 1) (n := i) (fun j m => IsMat m (last + 1) (last + 1) ∧
        (∀ a b, a < i → b ≤ a → ent m a b = (a.choose b : K)) ∧ (∀ b, b < j → ent m i b = (i.choose b : K)) ∧ ent m i i = 1)
        (by simp) rfl (by omega) ?_ ?_).mono ?_
      · refine ⟨hm2, ?_, ?_, ?_⟩
        · intro a b ha hb
          rw [hv2, if_neg (by omega), hv1, if_neg (by omega)]; exact hv a b ha hb
        · intro b hb
          have : b = 0 := by omega
          rw [this, hv2, if_pos ⟨rfl, rfl⟩]; simp
        · rw [hv2, if_neg (by omega), hv1, if_pos ⟨rfl, rfl⟩]
      · rintro j m' hj1 hj2 ⟨g1, g2, g3, g4⟩
        rw [mget_ent g1 (a := i - 1) (b := j - 1) (by omega) (by omega) (by omega) (by omega), ok_bind,
          mget_ent g1 (a := i - 1) (b := j) (by omega) rfl (by omega) (by omega), ok_bind]
        obtain ⟨m3, r3, hm3, hv3⟩ := mset_ok (x := ent m' (i - 1) (j - 1) + ent m' (i - 1) j) g1 (i := (i : ℤ)) (j := (j : ℤ)) (a := i) (b := j) rfl rfl hi2 (by omega)
        rw [r3]
        refine Runs.ok ⟨hm3, ?_, ?_, ?_⟩
        · intro a b ha hb
          rw [hv3, if_neg (by omega)]; exact g2 a b ha hb
        · intro b hb
          rw [hv3]
          by_cases hc : b = j
          · rw [if_pos ⟨rfl, hc⟩, hc, g2 _ _ (by omega) (by omega), g2 _ _ (by omega) (by omega)]
            obtain ⟨i', rfl⟩ : ∃ i', i = i' + 1 := ⟨i - 1, by omega⟩
            obtain ⟨j', rfl⟩ : ∃ j', j = j' + 1 := ⟨j - 1, by omega⟩
            rw [Nat.choose_succ_succ]
            push_cast; rfl
          · rw [if_neg (by omega)]; exact g3 b (by omega)
        · rw [hv3, if_neg (by omega)]; exact g4
      · rintro m' ⟨g1, g2, g3, g4⟩
        refine ⟨g1, ?_⟩
        intro a b ha hb
        by_cases hc : a = i
        · by_cases hd : b = i
          · rw [hc, hd, g4]; simp
          · rw [hc]; exact g3 b (by omega)
        · exact g2 a b (by omega) hb
  · rintro m ⟨h1, h2⟩
    exact ⟨h1, fun i j hi hj => h2 i j (by omega) hj⟩

/-- C24: `Binomial(n,i)` is the binomial coefficient for every `n` and `i` (zero outside `0 ≤ i ≤ n`). -/
theorem C24_binomial (n i : ℤ) :
    binomial n i = ok (if n < 0 ∨ i < 0 ∨ i > n then (0 : K) else (n.toNat.choose i.toNat : K)) := by
  unfold binomial
  by_cases h : n < 0 ∨ i < 0 ∨ i > n
  · rw [if_pos h, if_pos h]
  · rw [if_neg h, if_neg h]
    obtain ⟨n, rfl⟩ := Int.eq_ofNat_of_zero_le (by omega : 0 ≤ n)
    obtain ⟨i, rfl⟩ := Int.eq_ofNat_of_zero_le (by omega : 0 ≤ i)
    have hin : i ≤ n := by omega
    simp only [Int.toNat_natCast]
    by_cases hn : (n : ℤ) ≤ 20
    · rw [if_pos hn]
      obtain ⟨m, hm, hmat, hv⟩ := pascal_run (K := K) (last := 20)
      have hm' : pascalTable K 20 = ok m := hm
      rw [hm', ok_bind, mget_ent hmat (a := n) (b := i) rfl rfl (by omega) (by omega), hv n i (by omega) hin]
    · rw [if_neg hn]
      obtain ⟨k, hk⟩ : ∃ k : ℕ, min (i : ℤ) ((n : ℤ) - i) = k := Int.eq_ofNat_of_zero_le (by omega)
      rw [hk]
      have hkn : k ≤ n := by omega
      have hch : n.choose i = n.choose k := by
        by_cases hc : i ≤ n - i
        · have : k = i := by omega
          rw [this]
        · have : k = n - i := by omega
          rw [this, Nat.choose_symm hin]
      rw [hch]
      apply Runs.eq
      refine (Runs.forN (m := 1) (n := k + 1) (fun j r => r = (((n - k + (j - 1)).choose (j - 1) : ℕ) : K)) (by simp) (by simp) (by omega) (by simp) ?_).mono ?_
      · rintro j r hj1 hj2 rfl
        obtain ⟨j', rfl⟩ : ∃ j', j = j' + 1 := ⟨j - 1, by omega⟩
        have hne : (((j' + 1 : ℕ) : ℤ) : K) ≠ 0 := by
          have : ((j' + 1 : ℕ) : K) ≠ 0 := Nat.cast_ne_zero.mpr (by omega)
          simpa using this
        rw [fdiv_ok hne]
        refine Runs.ok ?_
        simp only [Nat.add_sub_cancel]
        rw [div_eq_iff hne]
        have e1 : (((n : ℤ) - k + ((j' + 1 : ℕ) : ℤ) : ℤ) : K) = ((n - k + j' + 1 : ℕ) : K) := by
          have : ((n : ℤ) - k + ((j' + 1 : ℕ) : ℤ) : ℤ) = ((n - k + j' + 1 : ℕ) : ℤ) := by omega
          rw [this, Int.cast_natCast]
        rw [e1]
        have := Nat.add_one_mul_choose_eq (n - k + j') j'
        have e2 : n - k + (j' + 1) = n - k + j' + 1 := by omega
        rw [e2]
        have h2 : ((n - k + j' + 1 : ℕ) : K) * ((n - k + j').choose j' : K) = ((n - k + j' + 1).choose (j' + 1) : K) * ((j' + 1 : ℕ) : K) := by
          exact_mod_cast this
        rw [mul_comm, h2, Int.cast_natCast]
      · rintro r rfl
        have e : n - k + (k + 1 - 1) = n := by omega
        rw [e]; simp

example : (binomial 5 2 : Res ℚ) = ok 10 ∧ (binomial 30 28 : Res ℚ) = ok 435 ∧ (binomial 3 5 : Res ℚ) = ok 0 ∧ factorial 5 = ok 120 := by
  decide +kernel

end LNLib.Props
