import Verif.Props.Interp
import Verif.Model.LeastSquares

/-! # The knot vector of the least squares approximation is the one of `ComputeKnotVector` -/
set_option linter.unusedSectionVars false

namespace LNLib.Props
open LNLib Res Spec Finset

variable {K : Type} [Field K] [LinearOrder K] [IsStrictOrderedRing K]

theorem leastSquaresKnots_eq [FloorRing K] {params : List K} {p n m : ℕ} (hp : 0 < p) (hpn : p ≤ n) (hl : params.length = m + 1) (hm : n ≤ m + p) :
    ∃ kv, leastSquaresKnots p n m params = ok kv ∧ computeKnotVector p ((n : ℤ) + 1) params = ok kv := by
  have hN : (0 : K) < ((n - p + 1 : ℕ) : K) := Nat.cast_pos.mpr (by omega)
  set d : K := ((m + 1 : ℕ) : K) / ((n - p + 1 : ℕ) : K) with hd
  have hd1 : 1 ≤ d := by
    rw [hd, one_le_div hN]
    exact_mod_cast (by omega : n - p + 1 ≤ m + 1)
  set f : ℕ → K := fun j => (1 - ((j : K) * d - (⌊(j : K) * d⌋ : K))) * nth params (⌊(j : K) * d⌋.toNat - 1) +
    ((j : K) * d - (⌊(j : K) * d⌋ : K)) * nth params ⌊(j : K) * d⌋.toNat with hf
  have hjd : ∀ j : ℕ, 1 ≤ j → j ≤ n - p → 1 ≤ (j : K) * d ∧ (j : K) * d < (m : K) + 1 := by
    intro j hj1 hj2
    have hjK : (1 : K) ≤ j := by exact_mod_cast hj1
    refine ⟨by nlinarith, ?_⟩
    have : (j : K) < ((n - p + 1 : ℕ) : K) := by exact_mod_cast (by omega : j < n - p + 1)
    have hd0 : 0 < d := by linarith
    calc (j : K) * d < ((n - p + 1 : ℕ) : K) * d := mul_lt_mul_of_pos_right this hd0
      _ = (m : K) + 1 := by rw [hd, mul_div_cancel₀ _ hN.ne']; push_cast; ring
  have hfloor : ∀ j : ℕ, 1 ≤ j → j ≤ n - p → ∃ k : ℕ, ⌊(j : K) * d⌋ = k ∧ 1 ≤ k ∧ k ≤ m := by
    intro j hj1 hj2
    obtain ⟨a, b⟩ := hjd j hj1 hj2
    have c1 : 1 ≤ ⌊(j : K) * d⌋ := Int.le_floor.mpr (by exact_mod_cast a)
    have c2 : ⌊(j : K) * d⌋ < (m : ℤ) + 1 := Int.floor_lt.mpr (by push_cast; exact b)
    obtain ⟨k, hk⟩ := Int.eq_ofNat_of_zero_le (show 0 ≤ ⌊(j : K) * d⌋ by omega)
    exact ⟨k, hk, by omega, by omega⟩
  have hrun : Runs (computeKnotVector p ((n : ℤ) + 1) params) (fun kv => kv.length = n + p + 2 ∧
      ∀ i, nth kv i = if i ≤ p then 0 else if n + 1 ≤ i ∧ i < n + p + 2 then 1 else if i ≤ n then f (i - p) else 0) := by
    unfold computeKnotVector
    dsimp only
    have e1 : ((((params.length : ℤ) - 1 + 1 : ℤ)) : K) = ((m + 1 : ℕ) : K) := by rw [hl]; push_cast; ring
    have e2 : (((n : ℤ) + 1 - 1 - p + 1 : ℤ) : K) = ((n - p + 1 : ℕ) : K) := by
      rw [show ((n : ℤ) + 1 - 1 - p + 1 : ℤ) = ((n - p + 1 : ℕ) : ℤ) by omega]; push_cast; rfl
    rw [e1, e2, fdiv_ok hN.ne', ok_bind, show ((n : ℤ) + 1 - 1 + p + 2).toNat = n + p + 2 by omega]
    refine Runs.bind (Q := fun kv : List K => kv.length = n + p + 2 ∧ ∀ i, nth kv i = if p + 1 ≤ i ∧ i ≤ n then f (i - p) else 0) ?_ ?_
    · refine (Runs.forN (m := 1) (n := n - p + 1) (fun k (kv : List K) => kv.length = n + p + 2 ∧ ∀ i, nth kv i = if p + 1 ≤ i ∧ i < p + k then f (i - p) else 0)
        rfl (by omega) (by omega) ⟨by simp, ?_⟩ ?_).mono ?_
      · intro i; rw [if_neg (by omega), nth_replicate_zero]
      · rintro j kv hj1 hj ⟨g1, g2⟩
        obtain ⟨k, hk, k1, k2⟩ := hfloor j hj1 (by omega)
        have hfj : f j = (1 - ((j : K) * d - (k : K))) * nth params (k - 1) + ((j : K) * d - (k : K)) * nth params k := by
          rw [hf]; dsimp only; rw [hk]; simp
        simp only [Int.cast_natCast]
        rw [← hd, hk, vget_nth (k := k - 1) (by omega) (by omega), ok_bind, vget_nth (k := k) rfl (by omega), ok_bind, vset_of (k := p + j) (by push_cast; ring) (by omega)]
        refine Runs.ok ⟨by simp [g1], ?_⟩
        intro i
        rw [nth_set (by omega), g2 i]
        by_cases hi : i = p + j
        · rw [if_pos hi, if_pos (by omega), hi, Nat.add_sub_cancel_left, hfj]
          simp
        · rw [if_neg hi]
          by_cases hc : p + 1 ≤ i ∧ i < p + j
          · rw [if_pos hc, if_pos (by omega)]
          · rw [if_neg hc, if_neg (by omega)]
      · rintro kv ⟨g1, g2⟩
        refine ⟨g1, fun i => ?_⟩
        rw [g2 i]
        have : (p + 1 ≤ i ∧ i < p + (n - p + 1)) ↔ (p + 1 ≤ i ∧ i ≤ n) := by omega
        simp only [this]
    · rintro kv ⟨g1, g2⟩
      refine (Runs.forN (m := 0) (n := n + p + 2) (fun k (kv' : List K) => kv'.length = n + p + 2 ∧
        ∀ i, nth kv' i = if i < k then (if i ≤ p then 0 else if n + 1 ≤ i ∧ i < n + p + 2 then 1 else nth kv i) else nth kv i) rfl (by push_cast; ring) (by omega) ⟨g1, by intro i; rw [if_neg (by omega)]⟩ ?_).mono ?_
      · rintro i kv' - hi ⟨q1, q2⟩
        split
        · rename_i hle
          rw [vset_of (k := i) rfl (by omega)]
          refine Runs.ok ⟨by simp [q1], ?_⟩
          intro j
          rw [nth_set (by omega), q2 j]
          split_ifs <;> first | rfl | omega
        · rename_i hle
          split
          · rename_i hge
            rw [vset_of (k := i) rfl (by omega)]
            refine Runs.ok ⟨by simp [q1], ?_⟩
            intro j
            rw [nth_set (by omega), q2 j]
            split_ifs <;> first | rfl | omega
          · rename_i hge
            refine Runs.ok ⟨q1, ?_⟩
            intro j
            rw [q2 j]
            split_ifs <;> first | rfl | omega
      · rintro kv' ⟨q1, q2⟩
        refine ⟨q1, fun i => ?_⟩
        rw [q2 i, g2 i]
        split_ifs <;> first | rfl | omega
  have hrun2 : Runs (leastSquaresKnots p n m params) (fun kv => kv.length = n + p + 2 ∧
      ∀ i, nth kv i = if i ≤ p then 0 else if n + 1 ≤ i ∧ i < n + p + 2 then 1 else if i ≤ n then f (i - p) else 0) := by
    unfold leastSquaresKnots
    have e1 : (((m : ℤ) + 1 : ℤ) : K) = ((m + 1 : ℕ) : K) := by push_cast; ring
    have e2 : (((n : ℤ) - p + 1 : ℤ) : K) = ((n - p + 1 : ℕ) : K) := by
      rw [show ((n : ℤ) - p + 1 : ℤ) = ((n - p + 1 : ℕ) : ℤ) by omega]; push_cast; rfl
    rw [e1, e2, fdiv_ok hN.ne', ok_bind, show ((n : ℤ) + p + 2).toNat = n + p + 2 by omega]
    refine Runs.bind (Q := fun kv : List K => kv.length = n + p + 2 ∧ ∀ i, nth kv i = if i ≤ p then 0 else if i < n + p + 2 then 1 else 0) ?_ ?_
    · refine (Runs.forN (m := 0) (n := p + 1) (fun k (kv : List K) => kv.length = n + p + 2 ∧ ∀ i, nth kv i = if i < k then 0 else if i < n + p + 2 then 1 else 0)
        rfl (by push_cast; ring) (by omega) ⟨by simp, ?_⟩ ?_).mono ?_
      · intro i
        rw [if_neg (by omega)]
        by_cases h : i < n + p + 2
        · rw [if_pos h, nth_replicate h]
        · rw [if_neg h]; simp [nth, h]
      · rintro j kv - hj ⟨g1, g2⟩
        rw [vset_of (k := j) rfl (by omega)]
        refine Runs.ok ⟨by simp [g1], fun i => ?_⟩
        rw [nth_set (by omega), g2 i]
        split_ifs <;> first | rfl | omega
      · rintro kv ⟨g1, g2⟩
        refine ⟨g1, fun i => ?_⟩
        rw [g2 i]
        split_ifs <;> first | rfl | omega
    · rintro kv0 ⟨g01, g02⟩
      refine (Runs.forN (m := 1) (n := n - p + 1) (fun k (kv : List K) => kv.length = n + p + 2 ∧ ∀ i, nth kv i = if p + 1 ≤ i ∧ i < p + k then f (i - p) else nth kv0 i)
        rfl (by omega) (by omega) ⟨g01, fun i => by rw [if_neg (by omega)]⟩ ?_).mono ?_
      · rintro j kv hj1 hj ⟨g1, g2⟩
        obtain ⟨k, hk, k1, k2⟩ := hfloor j hj1 (by omega)
        have hfj : f j = (1 - ((j : K) * d - (k : K))) * nth params (k - 1) + ((j : K) * d - (k : K)) * nth params k := by
          rw [hf]; dsimp only; rw [hk]; simp
        simp only [Int.cast_natCast]
        rw [← hd, hk, vget_nth (k := k - 1) (by omega) (by omega), ok_bind, vget_nth (k := k) rfl (by omega), ok_bind, vset_of (k := p + j) (by push_cast; ring) (by omega)]
        refine Runs.ok ⟨by simp [g1], ?_⟩
        intro i
        rw [nth_set (by omega), g2 i]
        by_cases hi : i = p + j
        · rw [if_pos hi, if_pos (by omega), hi, Nat.add_sub_cancel_left, hfj]
          simp
        · rw [if_neg hi]
          by_cases hc : p + 1 ≤ i ∧ i < p + j
          · rw [if_pos hc, if_pos (by omega)]
          · rw [if_neg hc, if_neg (by omega)]
      · rintro kv ⟨g1, g2⟩
        refine ⟨g1, fun i => ?_⟩
        rw [g2 i, g02 i]
        split_ifs <;> first | rfl | omega
  obtain ⟨kv, e, g1, g2⟩ := hrun
  obtain ⟨kv', e', g1', g2'⟩ := hrun2
  have : kv' = kv := by
    refine ext_nth (by rw [g1, g1']) fun i _ => ?_
    rw [g2, g2']
  subst this
  exact ⟨kv', e', e⟩

end LNLib.Props
