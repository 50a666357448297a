import Verif.Model.OneBasis
import Verif.Lemmas.CurveDers

/-! # `OneBasisFunction`: the run and the truncated recursion it computes -/
set_option linter.unusedSectionVars false

namespace LNLib
open Res Spec Finset

variable {K : Type} [Field K] [LinearOrder K] [IsStrictOrderedRing K]

/-- the common prologue of the basis function routines, when the rest uses the end knots -/
theorem prologue' {β : Type} {U : List K} {t : K} {x : K → K → Res β} {R : β → Prop} (hpos : 0 < U.length)
    (hU : isValidKnotVector U = true)
    (h0 : nth U 0 - doubleEps ≤ t) (h1 : t ≤ nth U (U.length - 1) + doubleEps) (h : Runs (x (nth U 0) (nth U (U.length - 1))) R) :
    Runs (validate (decide (U.length > 0)) >>= fun _ => validate (isValidKnotVector U) >>= fun _ => vget U 0 >>= fun first =>
      vget U ((U.length : ℤ) - 1) >>= fun last => validateRange t first last >>= fun _ => x first last) R := by
  have e0 : vget U 0 = ok (nth U 0) := vget_nth (by simp) (by omega)
  have e1 : vget U ((U.length : ℤ) - 1) = ok (nth U (U.length - 1)) := vget_nth (by omega) (by omega)
  have hv : validateRange t (nth U 0) (nth U (U.length - 1)) = ok () := validateRange_eq_ok_iff.mpr ⟨h0, h1⟩
  rw [validate_of (by simpa using hpos), ok_bind, validate_of hU, ok_bind, e0, ok_bind, e1, ok_bind, hv, ok_bind]
  exact h

/-- values within the tolerance of zero are dropped -/
def trunc (x : K) : K := if isAlmostEqualTo x 0 then 0 else x

/-- the Cox–de Boor recursion with dropped small values -/
def NT (U : ℕ → K) (s : ℕ) (t : K) : ℕ → ℕ → K
  | 0, i => if i = s then 1 else 0
  | q + 1, i => (t - U i) / (U (i + q + 1) - U i) * trunc (NT U s t q i)
      + (U (i + q + 2) - t) / (U (i + q + 2) - U (i + 1)) * trunc (NT U s t q (i + 1))

theorem almostZero_zero : isAlmostEqualTo (0 : K) 0 = true := isAlmostEqualTo_self doubleEps_pos

@[simp] theorem trunc_zero : trunc (0 : K) = 0 := by simp [trunc]

theorem almostZero_abs {x : K} (h : isAlmostEqualTo x 0 = true) : |x| ≤ 2 / 1000000 := by
  simp only [isAlmostEqualTo, decide_eq_true_eq] at h
  simp only [tolOf, doubleEps, sub_zero, abs_zero] at h
  rw [max_eq_left (abs_nonneg x)] at h
  linarith

theorem trunc_err (x : K) : |trunc x - x| ≤ 2 / 1000000 := by
  unfold trunc
  split
  · rename_i h
    rw [zero_sub, abs_neg]; exact almostZero_abs h
  · simp; positivity

theorem trunc_eq {x : K} (h : x = 0 ∨ 2 / 1000000 < |x|) : trunc x = x := by
  rcases h with rfl | h
  · simp
  · unfold trunc
    rw [if_neg]
    intro hc
    exact absurd (almostZero_abs hc) (not_le.mpr h)

theorem NT_zero (U : ℕ → K) (s : ℕ) (t : K) : ∀ q i, (s < i ∨ i + q < s) → NT U s t q i = 0 := by
  intro q
  induction q with
  | zero => intro i h; simp only [NT]; rw [if_neg (by omega)]
  | succ q ih => intro i h; simp only [NT]; rw [ih i (by omega), ih (i + 1) (by omega)]; simp

theorem NT_den {U : ℕ → K} {m s : ℕ} {t : K} (hm : MonoTo U m) (hs : U s < U (s + 1)) {q i : ℕ} (hi : i + q + 1 ≤ m)
    (h : isAlmostEqualTo (NT U s t q i) 0 = false) : U (i + q + 1) - U i ≠ 0 := by
  have h1 : ¬ (s < i ∨ i + q < s) := by
    intro hc
    rw [NT_zero U s t q i hc, almostZero_zero] at h
    exact absurd h (by simp)
  have a1 := hm i s (by omega) (by omega)
  have a2 := hm (s + 1) (i + q + 1) (by omega) (by omega)
  exact sub_ne_zero.mpr (ne_of_gt (lt_of_le_of_lt a1 (lt_of_lt_of_le hs a2)))

/-- the `saved` value -/
def obfL (U : ℕ → K) (s : ℕ) (t : K) (q i : ℕ) : K :=
  (t - U i) / (U (i + q + 1) - U i) * trunc (NT U s t q i)

theorem obfStep_run {U : ℕ → K} {m s : ℕ} {t : K} (hm : MonoTo U m) (hs : U s < U (s + 1)) {q i : ℕ} (hi : i + q + 2 ≤ m) :
    obfStep t (U (i + 1)) (U (i + q + 2)) (NT U s t q (i + 1)) (obfL U s t q i) =
      ok (NT U s t (q + 1) i, obfL U s t q (i + 1)) := by
  unfold obfStep
  have e : i + 1 + q + 1 = i + q + 2 := by omega
  split
  · rename_i h
    simp only [NT, obfL, trunc, h, if_true, mul_zero, add_zero]
  · rename_i h
    have h' : isAlmostEqualTo (NT U s t q (i + 1)) 0 = false := by simpa using h
    have hd := NT_den hm hs (q := q) (i := i + 1) (by omega) h'
    rw [e] at hd
    rw [fdiv_ok hd, ok_bind]
    simp only [NT, obfL, e]
    have ht : trunc (NT U s t q (i + 1)) = NT U s t q (i + 1) := by simp [trunc, h']
    rw [ht]
    congr 2
    · ring
    · ring

theorem obfSaved_run {U : List K} {m s : ℕ} {t : K} (hm : MonoTo (nth U) m) (hml : m < U.length) (hs : nth U s < nth U (s + 1)) {q i : ℕ} (hi : i + q + 1 ≤ m) :
    obfSaved U t i ((q + 1 : ℕ) : ℤ) (NT (nth U) s t q i) = ok (obfL (nth U) s t q i) := by
  unfold obfSaved
  split
  · rename_i h
    simp only [obfL, trunc, h, if_true, mul_zero]
  · rename_i h
    have h' : isAlmostEqualTo (NT (nth U) s t q i) 0 = false := by simpa using h
    have hd := NT_den hm hs (q := q) (i := i) (by omega) h'
    rw [vget_nth rfl (by omega), ok_bind, vget_nth (k := i + q + 1) (by push_cast; ring) (by omega), ok_bind, fdiv_ok hd]
    have ht : trunc (NT (nth U) s t q i) = NT (nth U) s t q i := by simp [trunc, h']
    simp only [obfL, ht]
    congr 1
    ring

/-- the tolerant span test is exact for separated parameters -/
theorem sep_lt {U : List K} {t : K} (hsep : KnotSeparated U t) {i : ℕ} (hi : i < U.length) :
    isLessThan t (nth U i) = decide (t < nth U i) := by
  have hmem : nth U i ∈ U := by
    rw [nth_eq_getElem hi]; exact List.getElem_mem _
  rw [Bool.eq_iff_iff, decide_eq_true_eq]
  constructor
  · exact lt_of_isLessThan doubleEps_pos
  · intro h
    rcases hsep _ hmem with h2 | h2
    · exact absurd h2 (ne_of_gt h)
    · simp only [isLessThan, decide_eq_true_eq]
      rw [abs_sub_comm, abs_of_pos (sub_pos.mpr h)] at h2
      exact h2

theorem sep_ge {U : List K} {t : K} (hsep : KnotSeparated U t) {i : ℕ} (hi : i < U.length) :
    isGreaterThanOrEqual t (nth U i) = decide (nth U i ≤ t) := by
  rw [isGreaterThanOrEqual_eq_not, sep_lt hsep hi, ← decide_not]
  simp

theorem sep_eq {U : List K} {t : K} (hsep : KnotSeparated U t) {i : ℕ} (hi : i < U.length) :
    isAlmostEqualTo t (nth U i) = decide (t = nth U i) := by
  have hmem : nth U i ∈ U := by
    rw [nth_eq_getElem hi]; exact List.getElem_mem _
  rw [Bool.eq_iff_iff, decide_eq_true_eq]
  constructor
  · intro h
    rcases hsep _ hmem with h2 | h2
    · exact h2.symm
    · simp only [isAlmostEqualTo, decide_eq_true_eq] at h
      exact absurd h (not_le.mpr h2)
  · intro h
    rw [← h]; exact isAlmostEqualTo_self doubleEps_pos

theorem inSpan_run {U : List K} {m s : ℕ} {t : K} (hm : MonoTo (nth U) m) (hml : m < U.length) (hsep : KnotSeparated U t)
    (h0 : nth U s ≤ t) (h1 : t < nth U (s + 1)) (hsm : s + 1 ≤ m) {j : ℤ} {i : ℕ} (hj : j = i) (hi : i + 1 ≤ m) :
    inSpan U t j = ok (decide (i = s)) := by
  subst hj
  unfold inSpan
  rw [vget_nth rfl (by omega), ok_bind, sep_ge hsep (by omega)]
  by_cases c : nth U i ≤ t
  · rw [if_pos (by simpa using c), vget_nth (k := i + 1) (by push_cast; ring) (by omega), ok_bind, sep_lt hsep (by omega)]
    congr 1
    rw [decide_eq_decide]
    constructor
    · intro h
      by_contra hne
      rcases Nat.lt_or_ge i s with h2 | h2
      · exact absurd (lt_of_le_of_lt (hm (i + 1) s (by omega) (by omega)) (lt_of_le_of_lt h0 h)) (lt_irrefl _)
      · exact absurd (lt_of_lt_of_le h1 (hm (s + 1) i (by omega) (by omega))) (not_lt.mpr c)
    · rintro rfl; exact h1
  · rw [if_neg (by simpa using c)]
    congr 1
    symm
    rw [decide_eq_false_iff_not]
    rintro rfl
    exact c h0

theorem NT_error {U : ℕ → K} {m s : ℕ} {t : K} (hm : MonoTo U m) (h0 : U s ≤ t) (h1 : t < U (s + 1)) :
    ∀ q i, i + q + 1 ≤ m → |NT U s t q i - Nspan U s q i t| ≤ 4 / 1000000 * (2 ^ q - 1) := by
  intro q
  induction q with
  | zero => intro i _; simp [NT, Nspan]
  | succ q ih =>
    intro i hi
    have key : ∀ j, j + q + 1 ≤ m → ∀ α : K, (j ≤ s → s ≤ j + q → 0 ≤ α ∧ α ≤ 1) →
        |α * trunc (NT U s t q j) - α * Nspan U s q j t| ≤ 4 / 1000000 * (2 ^ q - 1) + 2 / 1000000 := by
      intro j hj α hα
      by_cases hz : s < j ∨ j + q < s
      · rw [NT_zero U s t q j hz, Nspan_zero U s q j t hz]
        simp only [trunc_zero, mul_zero, sub_self, abs_zero]
        have : (1 : K) ≤ 2 ^ q := one_le_pow₀ (by norm_num)
        have : (0 : K) ≤ 4 / 1000000 * (2 ^ q - 1) := mul_nonneg (by norm_num) (by linarith)
        linarith
      · obtain ⟨a0, a1⟩ := hα (by omega) (by omega)
        rw [← mul_sub, abs_mul, abs_of_nonneg a0]
        have e : trunc (NT U s t q j) - Nspan U s q j t = (trunc (NT U s t q j) - NT U s t q j) + (NT U s t q j - Nspan U s q j t) := by ring
        have b1 := trunc_err (NT U s t q j)
        have b2 := ih j hj
        have b3 : |trunc (NT U s t q j) - Nspan U s q j t| ≤ 4 / 1000000 * (2 ^ q - 1) + 2 / 1000000 := by
          rw [e]
          refine (abs_add_le _ _).trans (by linarith)
        calc α * |trunc (NT U s t q j) - Nspan U s q j t| ≤ 1 * |trunc (NT U s t q j) - Nspan U s q j t| :=
              mul_le_mul_of_nonneg_right a1 (abs_nonneg _)
          _ ≤ _ := by rw [one_mul]; exact b3
    simp only [NT, Nspan]
    have k1 := key i (by omega) ((t - U i) / (U (i + q + 1) - U i)) (by
      intro c1 c2
      have d1 := hm i s c1 (by omega)
      have d2 := hm (s + 1) (i + q + 1) (by omega) (by omega)
      constructor
      · exact div_nonneg (by linarith) (by linarith)
      · rw [div_le_one (by linarith)]; linarith)
    have k2 := key (i + 1) (by omega) ((U (i + q + 2) - t) / (U (i + q + 2) - U (i + 1))) (by
      intro c1 c2
      have d1 := hm (i + 1) s c1 (by omega)
      have d2 := hm (s + 1) (i + q + 2) (by omega) (by omega)
      constructor
      · exact div_nonneg (by linarith) (by linarith)
      · rw [div_le_one (by linarith)]; linarith)
    have e : ∀ a b c d : K, a + b - (c + d) = (a - c) + (b - d) := by intros; ring
    rw [e]
    refine (abs_add_le _ _).trans ?_
    rw [pow_succ]
    linarith

theorem NT_exact {U : ℕ → K} {s p : ℕ} {t : K} (h : ∀ q < p, ∀ i, Nspan U s q i t = 0 ∨ 2 / 1000000 < |Nspan U s q i t|) :
    ∀ q ≤ p, ∀ i, NT U s t q i = Nspan U s q i t := by
  intro q
  induction q with
  | zero => intro _ i; simp [NT, Nspan]
  | succ q ih =>
    intro hq i
    simp only [NT, Nspan]
    rw [ih (by omega) i, ih (by omega) (i + 1), trunc_eq (h q (by omega) i), trunc_eq (h q (by omega) (i + 1))]

/-- the run of the main part, for a parameter inside the support -/
theorem oneBasis_core {U : List K} {p i s : ℕ} {t : K} (hlen : i + p + 1 < U.length)
    (hU : isValidKnotVector U = true) (hsep : KnotSeparated U t) (his : i ≤ s) (hsi : s ≤ i + p)
    (h0 : nth U s ≤ t) (h1 : t < nth U (s + 1))
    (hne : ¬ (((i : ℤ) = 0 ∧ isAlmostEqualTo t (nth U 0) = true) ∨
      ((i : ℤ) = (U.length : ℤ) - 1 - p - 1 ∧ isAlmostEqualTo t (nth U (U.length - 1)) = true))) (hp : 0 < p) :
    oneBasisFunction i p U t = ok (NT (nth U) s t p i) := by
  have hmono := isValidKnotVector_nth.mp hU
  have heps := doubleEps_pos (K := K)
  have hm : MonoTo (nth U) (i + p + 1) := fun a b h1 h2 => hmono a b h1 (by omega)
  have hs : nth U s < nth U (s + 1) := lt_of_le_of_lt h0 h1
  unfold oneBasisFunction
  rw [validate_of (by simp), ok_bind, validate_of (by simpa using hp), ok_bind]
  apply Runs.eq
  refine prologue' (t := t) (by omega) hU (by have := hmono 0 s (by omega) (by omega); linarith)
    (by have := hmono (s + 1) (U.length - 1) (by omega) (by omega); linarith) ?_
  dsimp only
  rw [if_neg hne]
  refine Runs.bind_eq (vget_nth rfl (by omega)) ?_
  rw [sep_lt hsep (by omega), if_neg (by simpa using (hmono i s his (by omega)).trans h0)]
  refine Runs.bind_eq (vget_nth (k := i + p + 1) (by push_cast; ring) (by omega)) ?_
  rw [sep_ge hsep (by omega), if_neg (by simpa using lt_of_lt_of_le h1 (hmono (s + 1) (i + p + 1) (by omega) (by omega)))]
  -- the indicator row
  refine Runs.bind (Q := fun N => N.length = p + i + 1 ∧ ∀ j ≤ p, nth N j = NT (nth U) s t 0 (i + j)) ?_ ?_
  · refine (Runs.forN (m := 0) (n := p + 1) (fun J N => N.length = p + i + 1 ∧ (∀ j < J, nth N j = NT (nth U) s t 0 (i + j)) ∧ ∀ j, J ≤ j → nth N j = 0)
      rfl (by push_cast; rfl) (by omega) ⟨by simp; omega, by omega, fun j _ => nth_replicate_zero⟩ ?_).mono
      (fun N h => ⟨h.1, fun j hj => h.2.1 j (by omega)⟩)
    rintro J N - hJ ⟨b1, b2, b3⟩
    refine Runs.bind_eq (inSpan_run hm (by omega) hsep h0 h1 (by omega) (i := i + J) (by push_cast; ring) (by omega)) ?_
    by_cases c : i + J = s
    · rw [if_pos (by simpa using c), vset_of rfl (by omega)]
      refine Runs.ok ⟨by simpa using b1, ?_, ?_⟩
      · intro j hj
        rw [nth_set (by omega)]
        by_cases hjj : j = J
        · rw [if_pos hjj, hjj]; simp [NT, c]
        · rw [if_neg hjj]; exact b2 j (by omega)
      · intro j hj
        rw [nth_set (by omega), if_neg (by omega)]; exact b3 j (by omega)
    · rw [if_neg (by simpa using c)]
      refine Runs.ok ⟨b1, ?_, fun j hj => b3 j (by omega)⟩
      intro j hj
      by_cases hjj : j = J
      · rw [hjj, b3 J (le_refl _)]; simp [NT, c]
      · exact b2 j (by omega)
  · rintro N ⟨b1, b2⟩
    refine Runs.bind (Q := fun N => N.length = p + i + 1 ∧ nth N 0 = NT (nth U) s t p i) ?_ ?_
    · refine (Runs.forN (m := 1) (n := p + 1) (fun k N => N.length = p + i + 1 ∧ ∀ j, j + k ≤ p + 1 → nth N j = NT (nth U) s t (k - 1) (i + j))
        rfl (by push_cast; rfl) (by omega) ⟨b1, fun j hj => b2 j (by omega)⟩ ?_).mono
        (fun N h => ⟨h.1, h.2 0 (by omega)⟩)
      rintro k N hk1 hkp ⟨c1, c2⟩
      obtain ⟨q, rfl⟩ : ∃ q, k = q + 1 := ⟨k - 1, by omega⟩
      rw [Nat.add_sub_cancel] at c2
      refine Runs.bind_eq (vget_nth (k := 0) (i := 0) rfl (by omega)) ?_
      rw [c2 0 (by omega)]
      refine Runs.bind_eq (obfSaved_run hm (by omega) hs (by omega)) ?_
      refine Runs.bind (Q := fun st : List K × K => st.1.length = p + i + 1 ∧
        ∀ j, j + (q + 1) ≤ p → nth st.1 j = NT (nth U) s t (q + 1) (i + j)) ?_ ?_
      · refine (Runs.forN (m := 0) (n := p - q) (fun J (st : List K × K) => st.1.length = p + i + 1 ∧
          (∀ j < J, nth st.1 j = NT (nth U) s t (q + 1) (i + j)) ∧ (∀ j, J ≤ j → j + q ≤ p → nth st.1 j = NT (nth U) s t q (i + j)) ∧
          st.2 = obfL (nth U) s t q (i + J)) rfl (by push_cast; omega) (by omega)
          ⟨c1, by omega, fun j _ hj => c2 j (by omega), rfl⟩ ?_).mono
          (fun st h => ⟨h.1, fun j hj => h.2.1 j (by omega)⟩)
        rintro J ⟨N, saved⟩ - hJ ⟨d1, d2, d3, d4⟩
        dsimp only at d1 d2 d3 d4 ⊢
        refine Runs.bind_eq (vget_nth (k := i + J + 1) (by push_cast; ring) (by omega)) ?_
        refine Runs.bind_eq (vget_nth (k := i + J + q + 2) (by push_cast; ring) (by omega)) ?_
        refine Runs.bind_eq (vget_nth (k := J + 1) (by push_cast; ring) (by omega)) ?_
        rw [d3 (J + 1) (by omega) (by omega), d4, ← add_assoc]
        refine Runs.bind_eq (obfStep_run hm hs (by omega)) ?_
        dsimp only
        refine Runs.bind_eq (vset_of rfl (by omega)) ?_
        refine Runs.ok ⟨by simpa using d1, ?_, ?_, by simp only [add_assoc]⟩
        · intro j hj
          dsimp only
          rw [nth_set (by omega)]
          by_cases hjj : j = J
          · rw [if_pos hjj, hjj]
          · rw [if_neg hjj]; exact d2 j (by omega)
        · intro j h1 h2
          dsimp only
          rw [nth_set (by omega), if_neg (by omega)]
          exact d3 j (by omega) h2
      · rintro ⟨N, saved⟩ ⟨d1, d2⟩
        refine Runs.ok ⟨d1, fun j hj => ?_⟩
        rw [Nat.add_sub_cancel]
        exact d2 j (by omega)
    · rintro N ⟨c1, c2⟩
      refine Runs.of_eq (vget_nth (k := 0) (i := 0) rfl (by omega)) c2

end LNLib
