import Verif.Core.Hoare
import Verif.Lemmas.Tolerance
import Verif.Model.Curve
import Verif.Spec.Curve

/-! # Horner, Bernstein and de Casteljau loops -/
set_option linter.unusedSectionVars false

namespace LNLib
open Res Spec Finset

variable {K : Type} [Field K] [LinearOrder K] [IsStrictOrderedRing K]
variable {T : Type} [AddCommGroup T] [Module K T]

theorem horner_run {n : ℕ} (hn : 0 < n) {a : List K} (ha : a.length = n + 1) (t : K) :
    horner (n : ℤ) a t = ok (∑ i ∈ range (n + 1), nth a i * t ^ i) := by
  apply Runs.eq
  unfold horner
  have v1 : validate ((n : ℤ) > 0) = ok () := validate_of (by simpa using hn)
  have v2 : validate (isValidBezier (n : ℤ) (a.length : ℤ)) = ok () := validate_of (by simp [isValidBezier, ha])
  rw [v1, ok_bind, v2, ok_bind, vget_nth (k := n) rfl (by omega), ok_bind]
  refine (Runs.forDown (fun j r => ∃ m : ℕ, (m : ℤ) = n - 1 - j ∧ r = ∑ l ∈ range (m + 1), nth a (n - m + l) * t ^ l)
    (by omega) ⟨0, by omega, by simp⟩ ?_).mono ?_
  · rintro i r h1 h2 ⟨m, hm, rfl⟩
    rw [vget_nth (k := n - m - 1) (by omega) (by omega), ok_bind]
    refine Runs.ok ⟨m + 1, by push_cast; omega, ?_⟩
    rw [Finset.sum_range_succ' _ (m + 1), Finset.sum_mul]
    congr 1
    · apply Finset.sum_congr rfl
      intro l hl
      have e : n - (m + 1) + (l + 1) = n - m + l := by omega
      rw [e, pow_succ]; ring
    · have e : n - (m + 1) + 0 = n - m - 1 := by omega
      rw [e]; simp
  · rintro r ⟨m, hm, rfl⟩
    have e : m = n := by omega
    subst e
    simp

theorem bernsteinP_zero_succ (j : ℕ) (t : K) : bernsteinP (j + 1) 0 t = (1 - t) * bernsteinP j 0 t := by
  simp [bernsteinP, pow_succ]; ring

theorem bernsteinP_succ (j k : ℕ) (t : K) :
    bernsteinP (j + 1) (k + 1) t = (1 - t) * bernsteinP j (k + 1) t + t * bernsteinP j k t := by
  unfold bernsteinP
  rw [Nat.choose_succ_succ]
  rcases Nat.lt_trichotomy k j with h | h | h
  · have e1 : j + 1 - (k + 1) = j - (k + 1) + 1 := by omega
    have e2 : j - k = j - (k + 1) + 1 := by omega
    rw [e1, e2]
    push_cast
    ring
  · subst h
    rw [Nat.choose_succ_self]
    simp
    ring
  · rw [Nat.choose_eq_zero_of_lt h, Nat.choose_eq_zero_of_lt (by omega : j < k + 1)]
    simp

theorem bernsteinP_gt {j k : ℕ} (h : j < k) (t : K) : bernsteinP j k t = 0 := by
  unfold bernsteinP; rw [Nat.choose_eq_zero_of_lt h]; simp

theorem allBernstein_run {n : ℕ} {t : K} (h0 : 0 ≤ t) (h1 : t ≤ 1) :
    Runs (allBernstein (n : ℤ) t) (fun b => b.length = n + 1 ∧ ∀ k, k ≤ n → nth b k = bernsteinP n k t) := by
  unfold allBernstein
  have v1 : validate ((n : ℤ) ≥ 0) = ok () := validate_of (by simp)
  rw [v1, ok_bind, validateRange_ok h0 h1, ok_bind]
  dsimp only
  rw [vset_of (k := 0) (by simp) (by simp), ok_bind]
  have e : ((n : ℤ) + 1).toNat = n + 1 := by omega
  rw [e]
  by_cases hn : (n : ℤ) = 0
  · rw [if_pos hn]
    have : n = 0 := by omega
    subst this
    refine Runs.ok ⟨by simp, ?_⟩
    intro k hk
    have : k = 0 := by omega
    subst this
    simp [bernsteinP]
  · rw [if_neg hn]
    refine (Runs.forN (m := 1) (n := n + 1) (fun j b => b.length = n + 1 ∧ ∀ k, k < j → nth b k = bernsteinP (j - 1) k t)
      (by simp) (by simp) (by omega) ?_ ?_).mono ?_
    · refine ⟨by simp, ?_⟩
      intro k hk
      have : k = 0 := by omega
      subst this
      rw [nth_set (by simp)]; simp [bernsteinP]
    · rintro j b hj1 hj2 ⟨hl, hb⟩
      obtain ⟨j', rfl⟩ : ∃ j', j = j' + 1 := ⟨j - 1, by omega⟩
      simp only [Nat.add_sub_cancel] at hb ⊢
      refine Runs.bind (Runs.forN (m := 0) (n := j' + 1) (fun k (s : List K × K) => s.1.length = n + 1 ∧
        (∀ l, l < k → nth s.1 l = bernsteinP (j' + 1) l t) ∧ (∀ l, k ≤ l → l ≤ j' → nth s.1 l = bernsteinP j' l t) ∧
        s.2 = if k = 0 then 0 else t * bernsteinP j' (k - 1) t) (by simp) rfl (by omega) ?_ ?_) ?_
      · exact ⟨hl, fun l h => by omega, fun l _ h => hb l (by omega), by simp⟩
      · rintro k ⟨arr, saved⟩ hk1 hk2 ⟨g1, g2, g3, g4⟩
        dsimp only at g1 g2 g3 g4 ⊢
        rw [vget_nth (k := k) rfl (by omega), ok_bind, vset_of (k := k) rfl (by omega), ok_bind]
        refine Runs.ok ⟨by simp [g1], ?_, ?_, ?_⟩
        · intro l hl
          dsimp only
          rw [nth_set (by omega)]
          by_cases hc : l = k
          · rw [if_pos hc, hc, g3 k (le_refl _) (by omega), g4]
            cases k with
            | zero => rw [bernsteinP_zero_succ]; simp
            | succ k =>
              rw [bernsteinP_succ, if_neg (by omega)]
              simp only [Nat.add_sub_cancel]
              ring
          · rw [if_neg hc]; exact g2 l (by omega)
        · intro l h1 h2
          dsimp only
          rw [nth_set (by omega), if_neg (by omega)]
          exact g3 l (by omega) h2
        · dsimp only
          rw [if_neg (by omega), g3 k (le_refl _) (by omega)]
          rfl
      · rintro ⟨arr, saved⟩ ⟨g1, g2, g3, g4⟩
        dsimp only at g1 g2 g3 g4 ⊢
        rw [vset_of (k := j' + 1) rfl (by omega)]
        refine Runs.ok ⟨by simp [g1], ?_⟩
        intro k hk
        rw [nth_set (by omega)]
        by_cases hc : k = j' + 1
        · rw [if_pos hc, hc, g4, if_neg (by omega), bernsteinP_succ, bernsteinP_gt (by omega : j' < j' + 1)]
          simp
        · rw [if_neg hc]; exact g2 k (by omega)
    · rintro b ⟨hl, hb⟩
      exact ⟨hl, fun k hk => hb k (by omega)⟩

theorem bezier_deCasteljau_step (k i : ℕ) (P : ℕ → T) (t : K) :
    (1 - t) • (∑ m ∈ range (k + 1), bernsteinP k m t • P (i + m)) + t • (∑ m ∈ range (k + 1), bernsteinP k m t • P (i + 1 + m))
      = ∑ m ∈ range (k + 2), bernsteinP (k + 1) m t • P (i + m) := by
  rw [Finset.sum_range_succ' (fun m => bernsteinP (k + 1) m t • P (i + m)) (k + 1)]
  have h : ∀ m ∈ range (k + 1), bernsteinP (k + 1) (m + 1) t • P (i + (m + 1))
      = ((1 - t) * bernsteinP k (m + 1) t) • P (i + (m + 1)) + t • bernsteinP k m t • P (i + 1 + m) := by
    intro m _
    have e : i + (m + 1) = i + 1 + m := by omega
    rw [bernsteinP_succ, add_smul, e, smul_smul]
  rw [Finset.sum_congr rfl h, Finset.sum_add_distrib, Finset.smul_sum, Finset.smul_sum, bernsteinP_zero_succ]
  rw [Finset.sum_range_succ' _ k, Finset.sum_range_succ (fun m => ((1 - t) * bernsteinP k (m + 1) t) • P (i + (m + 1))) k,
    bernsteinP_gt (by omega : k < k + 1)]
  simp only [mul_zero, zero_smul, add_zero, smul_smul]
  abel

theorem deCasteljau_run {c : BezierCurve T} {n : ℕ} {t : K} (hd : c.degree = n) (hc : c.cps.length = n + 1) (h0 : 0 ≤ t) (h1 : t ≤ 1) :
    c.pointByDeCasteljau t = ok (bezierPoint n (nth c.cps) t) := by
  apply Runs.eq
  unfold BezierCurve.pointByDeCasteljau
  rw [validateRange_ok h0 h1, ok_bind, hd]
  refine Runs.bind (Runs.forN (m := 1) (n := n + 1) (fun k temp => temp.length = n + 1 ∧
    ∀ i, i + k ≤ n + 1 → nth temp i = ∑ m ∈ range k, bernsteinP (k - 1) m t • nth c.cps (i + m)) (by simp) (by simp) (by omega)
    ⟨hc, fun i _ => by simp [bernsteinP]⟩ ?_) ?_
  · rintro k temp hk1 hk2 ⟨hl, ht⟩
    obtain ⟨k', rfl⟩ : ∃ k', k = k' + 1 := ⟨k - 1, by omega⟩
    simp only [Nat.add_sub_cancel] at ht ⊢
    refine (Runs.forN (m := 0) (n := n - k') (fun i s => s.length = n + 1 ∧
      (∀ l, l < i → nth s l = ∑ m ∈ range (k' + 2), bernsteinP (k' + 1) m t • nth c.cps (l + m)) ∧
      (∀ l, i ≤ l → nth s l = nth temp l)) (by simp) (by omega) (by omega) ⟨hl, fun l h => by omega, fun l _ => rfl⟩ ?_).mono ?_
    · rintro i s hi1 hi2 ⟨g1, g2, g3⟩
      rw [vget_nth (k := i) rfl (by omega), ok_bind, vget_nth (k := i + 1) (by push_cast; rfl) (by omega), ok_bind, vset_of (k := i) rfl (by omega)]
      refine Runs.ok ⟨by simp [g1], ?_, ?_⟩
      · intro l hl'
        rw [nth_set (by omega)]
        by_cases hc' : l = i
        · rw [if_pos hc', hc', g3 i (le_refl _), g3 (i + 1) (by omega), ht i (by omega), ht (i + 1) (by omega)]
          exact bezier_deCasteljau_step k' i (nth c.cps) t
        · rw [if_neg hc']; exact g2 l (by omega)
      · intro l hl'
        rw [nth_set (by omega), if_neg (by omega)]
        exact g3 l (by omega)
    · rintro s ⟨g1, g2, _⟩
      exact ⟨g1, fun i hi => g2 i (by omega)⟩
  · rintro temp ⟨hl, ht⟩
    rw [vget_nth (k := 0) (by simp) (by omega)]
    refine Runs.ok ?_
    rw [ht 0 (by omega)]
    simp [bezierPoint]

theorem byBernstein_run {c : BezierCurve T} {n : ℕ} {t : K} (hd : c.degree = n) (hc : c.cps.length = n + 1) (h0 : 0 ≤ t) (h1 : t ≤ 1) :
    c.pointByBernstein t = ok (bezierPoint n (nth c.cps) t) := by
  apply Runs.eq
  unfold BezierCurve.pointByBernstein
  rw [validateRange_ok h0 h1, ok_bind, hd]
  refine Runs.bind (allBernstein_run h0 h1) ?_
  rintro b ⟨hl, hb⟩
  refine (Runs.forN (m := 0) (n := n + 1) (fun k s => s = ∑ m ∈ range k, bernsteinP n m t • nth c.cps m) (by simp) (by simp) (by omega)
    (by simp) ?_).mono (fun s hs => hs)
  rintro k s hk1 hk2 rfl
  rw [vget_nth (k := k) rfl (by omega), ok_bind, vget_nth (k := k) rfl (by omega), ok_bind, hb k (by omega), Finset.sum_range_succ]
  exact Runs.ok rfl

/-- what the loops of `Bernstein` compute: the Bernstein polynomial of degree `n - i + 1` -/
theorem bernstein_run {n i : ℕ} {t : K} (hi : 1 ≤ i) (hin : i < n) (h0 : 0 ≤ t) (h1 : t ≤ 1) :
    bernstein (i : ℤ) (n : ℤ) t = ok (bernsteinP (n - i + 1) i t) := by
  apply Runs.eq
  unfold bernstein
  have v1 : validate ((i : ℤ) ≥ 0 ∧ (i : ℤ) ≤ n) = ok () := validate_of (by simp; omega)
  have v2 : validate ((n : ℤ) ≥ 0) = ok () := validate_of (by simp)
  rw [v1, ok_bind, v2, ok_bind, validateRange_ok h0 h1, ok_bind, if_neg (by omega), if_neg (by omega), if_neg (by omega)]
  dsimp only
  have e : ((n : ℤ) + 1).toNat = n + 1 := by omega
  rw [e, vset_of (k := n - i) (by omega) (by simp), ok_bind]
  -- entry `j` after `r` rounds
  set f : ℕ → ℕ → K := fun r j => if n - i ≤ j then bernsteinP r (j - (n - i)) t else 0 with hf
  have fstep : ∀ r j, 1 ≤ j → f (r + 1) j = (1 - t) * f r j + t * f r (j - 1) := by
    intro r j hj
    simp only [hf]
    by_cases hc : n - i ≤ j
    · rw [if_pos hc, if_pos hc]
      by_cases hc2 : n - i ≤ j - 1
      · rw [if_pos hc2]
        have e1 : j - (n - i) = (j - 1 - (n - i)) + 1 := by omega
        rw [e1, bernsteinP_succ]
      · rw [if_neg hc2]
        have e1 : j - (n - i) = 0 := by omega
        rw [e1, bernsteinP_zero_succ]; ring
    · rw [if_neg hc, if_neg hc, if_neg (by omega)]; ring
  refine Runs.bind (Runs.forN (m := i) (n := n + 1) (fun k s => s.length = n + 1 ∧
    ∀ j, k ≤ j + 1 → j ≤ n → nth s j = f (k - i) j) rfl (by simp) (by omega) ?_ ?_) ?_
  · refine ⟨by simp, ?_⟩
    intro j _ hj
    rw [nth_set (by simp)]
    simp only [hf, Nat.sub_self]
    by_cases hc : j = n - i
    · rw [if_pos hc, if_pos (by omega), hc]; simp [bernsteinP]
    · rw [if_neg hc, nth_replicate_zero]
      by_cases hc2 : n - i ≤ j
      · rw [if_pos hc2, bernsteinP_gt (by omega)]
      · rw [if_neg hc2]
  · rintro k s hk1 hk2 ⟨hl, hs⟩
    refine (Runs.forDown (fun j s' => s'.length = n + 1 ∧ (∀ l : ℕ, j < (l : ℤ) → l ≤ n → nth s' l = f (k + 1 - i) l) ∧
      (∀ l : ℕ, (l : ℤ) ≤ j → nth s' l = nth s l)) (by omega) ⟨hl, fun l h1 h2 => by omega, fun l _ => rfl⟩ ?_).mono ?_
    · rintro j s' hj1 hj2 ⟨g1, g2, g3⟩
      obtain ⟨j, rfl⟩ := Int.eq_ofNat_of_zero_le (by omega : 0 ≤ j)
      rw [vget_nth (k := j) rfl (by omega), ok_bind, vget_nth (k := j - 1) (by omega) (by omega), ok_bind, vset_of (k := j) rfl (by omega)]
      refine Runs.ok ⟨by simp [g1], ?_, ?_⟩
      · intro l hl1 hl2
        rw [nth_set (by omega)]
        by_cases hc : l = j
        · rw [if_pos hc, hc, g3 j (by simp), g3 (j - 1) (by omega), hs j (by omega) (by omega), hs (j - 1) (by omega) (by omega)]
          have e1 : k + 1 - i = (k - i) + 1 := by omega
          rw [e1, fstep _ j (by omega)]
        · rw [if_neg hc]; exact g2 l (by omega) hl2
      · intro l hl1
        rw [nth_set (by omega), if_neg (by omega)]
        exact g3 l (by omega)
    · rintro s' ⟨g1, g2, _⟩
      exact ⟨g1, fun j h1 h2 => g2 j (by omega) h2⟩
  · rintro s ⟨hl, hs⟩
    rw [vget_nth (k := n) rfl (by omega)]
    refine Runs.ok ?_
    rw [hs n (by omega) (le_refl _)]
    simp only [hf]
    rw [if_pos (by omega)]
    congr 1 <;> omega

end LNLib
