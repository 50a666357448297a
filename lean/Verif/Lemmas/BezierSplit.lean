import Verif.Model.BezierPieces
import Verif.Lemmas.Polar
import Verif.Lemmas.RefineRun

/-! # Inserting the right end knot of a piece until the piece is a Bézier piece -/
set_option linter.unusedSectionVars false

namespace LNLib
open Res Spec Finset

variable {K : Type} [Field K] [LinearOrder K] [IsStrictOrderedRing K]
variable {T : Type} [AddCommGroup T] [Module K T]

theorem splitAlphas_run {U : List K} {p a μ : ℕ} {alfs : List K} {numer ua : K} (hμ : μ ≤ p) (ha : a + p < U.length)
    (hl : p - μ ≤ alfs.length) (hd : ∀ k, μ < k → k ≤ p → nth U (a + k) - ua ≠ 0) :
    Runs (splitAlphas U (p : ℤ) (a : ℤ) (μ : ℤ) numer ua alfs)
      (fun r => r.length = alfs.length ∧ ∀ i, i < p - μ → nth r i = numer / (nth U (a + μ + 1 + i) - ua)) := by
  unfold splitAlphas
  refine (Runs.forDown (fun j (r : List K) => r.length = alfs.length ∧
    ∀ i : ℕ, i < p - μ → j < i + μ + 1 → nth r i = numer / (nth U (a + μ + 1 + i) - ua)) (by omega) ⟨rfl, ?_⟩ ?_).mono ?_
  · intro i h1 h2; omega
  · rintro k r h1 h2 ⟨hr1, hr2⟩
    obtain ⟨k', rfl⟩ : ∃ k' : ℕ, k = k' := ⟨k.toNat, by omega⟩
    rw [vget_nth (k := a + k') (by push_cast; ring) (by omega), ok_bind, fdiv_ok (hd k' (by omega) (by omega)), ok_bind,
      vset_of (k := k' - μ - 1) (by omega) (by omega)]
    refine Runs.ok ⟨by simpa using hr1, ?_⟩
    intro i h3 h4
    rw [nth_set (by omega)]
    by_cases hi : i = k' - μ - 1
    · rw [if_pos hi]
      have : a + k' = a + μ + 1 + i := by omega
      rw [this]
    · rw [if_neg hi]
      exact hr2 i h3 (by omega)
  · rintro r ⟨h1, h2⟩
    exact ⟨h1, fun i hi => h2 i hi (by omega)⟩

theorem splitPiece_run {U : ℕ → K} {p a μ : ℕ} {alfs : List K} {ua ub : K} {f : Multiset K → T} (hf : Polar p f)
    (hμ : 1 ≤ μ) (hμp : μ ≤ p) (heq : ∀ i < μ, U (a + 1 + i) = ub) (hal : p - μ ≤ alfs.length)
    (half : ∀ i, i < p - μ → nth alfs i = (ub - ua) / (U (a + μ + 1 + i) - ua))
    (hd : ∀ k, μ < k → k ≤ p → U (a + k) - ua ≠ 0) (save : Bool) {cur nxt : List T} (hc : cur.length = p + 1)
    (hn : save = true → p - μ ≤ nxt.length)
    (hcur : ∀ i, i ≤ p → nth cur i = f (Multiset.replicate (p - i) ua + kms U (a + 1) i)) :
    Runs (splitPiece (p : ℤ) (μ : ℤ) alfs save cur nxt) (fun r => r.1.length = p + 1 ∧ r.2.length = nxt.length ∧
      (∀ i, i ≤ p → nth r.1 i = f (Multiset.replicate (p - i) ua + Multiset.replicate i ub)) ∧
      (∀ q, nth r.2 q = if save = true ∧ q < p - μ then f (Multiset.replicate (p - μ - q) ub + kms U (a + 1) (μ + q)) else nth nxt q)) := by
  unfold splitPiece
  let D : ℕ → ℕ → T := fun j k => f (Multiset.replicate (p - k) ua
    + (Multiset.replicate (min j (k - μ)) ub + kms U (a + 1) (k - min j (k - μ))))
  refine (Runs.forN (m := 1) (n := p - μ + 1) (fun j (r : List T × List T) => r.1.length = p + 1 ∧ r.2.length = nxt.length ∧
      (∀ i, i ≤ p → nth r.1 i = D (j - 1) i) ∧
      (∀ q, nth r.2 q = if save = true ∧ q < p - μ ∧ p - μ < q + j then f (Multiset.replicate (p - μ - q) ub + kms U (a + 1) (μ + q)) else nth nxt q))
    (by simp) (by omega) (by omega) ⟨hc, rfl, ?_, ?_⟩ ?_).mono ?_
  · intro i hi
    simp only [D, Nat.sub_self, Nat.zero_min, Multiset.replicate_zero, zero_add, Nat.sub_zero]
    exact hcur i hi
  · intro q
    rw [if_neg (by omega)]
  · rintro j ⟨cur', nxt'⟩ hj1 hj2 ⟨h1, h2, h3, h4⟩
    dsimp only at h1 h2 h3 h4 ⊢
    refine Runs.bind (Q := fun r => r.length = p + 1 ∧ ∀ i, i ≤ p → nth r i = D j i) ?_ ?_
    · refine (Runs.forDown (fun k (r : List T) => r.length = p + 1 ∧
        ∀ i : ℕ, i ≤ p → nth r i = if k < i then D j i else D (j - 1) i) (by omega) ⟨h1, ?_⟩ ?_).mono ?_
      · intro i hi
        rw [if_neg (by omega)]
        exact h3 i hi
      · rintro k r hk1 hk2 ⟨hr1, hr2⟩
        obtain ⟨k', rfl⟩ : ∃ k' : ℕ, k = k' := ⟨k.toNat, by omega⟩
        rw [vget_nth (k := k' - (μ + j)) (by omega) (by omega), ok_bind, vget_nth (k := k') rfl (by omega), ok_bind,
          vget_nth (k := k' - 1) (by omega) (by omega), ok_bind, vset_of (k := k') rfl (by omega)]
        refine Runs.ok ⟨by simpa using hr1, ?_⟩
        intro i hi
        rw [nth_set (by omega)]
        by_cases hik : i = k'
        · subst hik
          rw [if_pos rfl, if_pos (by omega), hr2 i hi, if_neg (by omega), hr2 (i - 1) (by omega), if_neg (by omega),
            half _ (by omega)]
          simp only [D]
          rw [Nat.min_eq_left (show j - 1 ≤ i - μ by omega), Nat.min_eq_left (show j - 1 ≤ i - 1 - μ by omega),
            Nat.min_eq_left (show j ≤ i - μ by omega)]
          have e1 : a + μ + 1 + (i - (μ + j)) = a + 1 + (i - j) := by omega
          have e2 : i - (j - 1) = i - j + 1 := by omega
          have e3 : p - (i - 1) = p - i + 1 := by omega
          have e4 : i - 1 - (j - 1) = i - j := by omega
          have e5 : j = j - 1 + 1 := by omega
          have hden := hd (i - j + 1) (by omega) (by omega)
          rw [show a + (i - j + 1) = a + 1 + (i - j) by omega] at hden
          rw [e1, e2, e3, e4, kms_succ, Multiset.replicate_succ (n := p - i)]
          have := hf.mix (x := ua) (y := U (a + 1 + (i - j))) (z := ub)
            (m := Multiset.replicate (p - i) ua + (Multiset.replicate (j - 1) ub + kms U (a + 1) (i - j)))
            (by simp; omega) (sub_ne_zero.mp hden)
          have e6 : Multiset.replicate j ub = ub ::ₘ Multiset.replicate (j - 1) ub := by
            rw [← Multiset.replicate_succ, ← e5]
          rw [e6]
          simp only [Multiset.add_cons, Multiset.cons_add]
          exact this.symm
        · rw [if_neg hik, hr2 i hi]
          by_cases hki : (k' : ℤ) < i
          · rw [if_pos hki, if_pos (by omega)]
          · rw [if_neg hki, if_neg (by omega)]
      · rintro r ⟨hr1, hr2⟩
        refine ⟨hr1, ?_⟩
        intro i hi
        rw [hr2 i hi]
        by_cases hki : (μ : ℤ) + j - 1 < i
        · rw [if_pos hki]
        · rw [if_neg hki]
          simp only [D]
          rw [Nat.min_eq_right (show i - μ ≤ j - 1 by omega), Nat.min_eq_right (show i - μ ≤ j by omega)]
    · rintro cur'' ⟨g1, g2⟩
      cases save with
      | false =>
        simp only [Bool.false_eq_true, if_false, false_and] at h4 ⊢
        exact Runs.ok ⟨g1, h2, g2, h4⟩
      | true =>
        simp only [if_true, true_and] at h4 ⊢
        rw [vget_nth (k := p) rfl (by omega), ok_bind, vset_of (k := p - μ - j) (by omega) (by have := hn rfl; omega), ok_bind]
        refine Runs.ok ⟨g1, by simpa using h2, g2, ?_⟩
        intro q
        dsimp only
        rw [nth_set (by have := hn rfl; omega)]
        by_cases hq : q = p - μ - j
        · rw [if_pos hq, if_pos (by omega), g2 p (le_refl _)]
          simp only [D]
          rw [Nat.min_eq_left (show j ≤ p - μ by omega)]
          have e1 : p - μ - q = j := by omega
          have e2 : μ + q = p - j := by omega
          rw [e1, e2]
          simp
        · rw [if_neg hq, h4 q]
          by_cases hc' : q < p - μ ∧ p - μ < q + j
          · rw [if_pos hc', if_pos (by omega)]
          · rw [if_neg hc', if_neg (by omega)]
  · rintro ⟨r1, r2⟩ ⟨h1, h2, h3, h4⟩
    dsimp only at h1 h2 h3 h4
    refine ⟨h1, h2, ?_, ?_⟩
    · intro i hi
      dsimp only
      rw [h3 i hi]
      simp only [D]
      rw [Nat.min_eq_right (show i - μ ≤ p - μ + 1 - 1 by omega)]
      congr 2
      by_cases hiμ : i ≤ μ
      · have e : i - μ = 0 := by omega
        rw [e, Multiset.replicate_zero, zero_add, Nat.sub_zero, kms_const (fun k hk => heq k (by omega))]
      · have e : i - (i - μ) = μ := by omega
        rw [e, kms_const heq, ← Multiset.replicate_add]
        congr 1; omega
    · intro q
      dsimp only
      rw [h4 q]
      by_cases hc' : save = true ∧ q < p - μ
      · rw [if_pos hc', if_pos ⟨hc'.1, hc'.2, by omega⟩]
      · rw [if_neg hc', if_neg (by tauto)]

/-- the scan over equal knots stops at the last copy -/
theorem skipEqual_run {U : List K} {m b k : ℕ} (hm : m < U.length) (hb : b + k ≤ m)
    (heq : ∀ i < k, isAlmostEqualTo (nth U (b + i + 1)) (nth U (b + i)) = true)
    (hstop : b + k = m ∨ isAlmostEqualTo (nth U (b + k + 1)) (nth U (b + k)) = false) :
    skipEqual U (m : ℤ) (b : ℤ) = ok ((b + k : ℕ) : ℤ) := by
  apply Runs.eq
  unfold skipEqual
  refine Runs.whileF (Inv := fun x => ∃ i : ℕ, x = ((b + i : ℕ) : ℤ) ∧ i ≤ k) (fun x => (((b + k : ℕ) : ℤ) - x).toNat) ?_ _ _
    ⟨0, by simp, by omega⟩ (by omega)
  rintro x ⟨i, rfl, hi⟩
  by_cases hik : i = k
  · left
    subst hik
    refine ⟨?_, rfl⟩
    rcases hstop with h | h
    · rw [if_neg (by omega)]
    · by_cases hlt : ((b + i : ℕ) : ℤ) < m
      · rw [if_pos hlt, vget_nth (k := b + i + 1) (by push_cast; ring) (by omega), ok_bind, vget_nth (k := b + i) rfl (by omega), ok_bind, h]
      · rw [if_neg hlt]
  · right
    refine ⟨?_, Runs.ok ⟨⟨i + 1, by push_cast; ring, by omega⟩, by push_cast; omega⟩⟩
    rw [if_pos (by omega), vget_nth (k := b + i + 1) (by push_cast; ring) (by omega), ok_bind, vget_nth (k := b + i) rfl (by omega), ok_bind,
      heq i (by omega)]

end LNLib
