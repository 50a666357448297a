import Verif.Lemmas.BasisDers

/-! # The derivative table algorithm computes the derivatives of the basis polynomials -/
set_option linter.unusedSectionVars false

namespace LNLib
open Res Spec Finset

variable {K : Type} [Field K] [LinearOrder K] [IsStrictOrderedRing K]

/-- columns `≤ c` of the table hold the basis functions of degree `≤ c`, the part below the diagonal
holds the knot differences -/
structure NduOk (U : ℕ → K) (s : ℕ) (t : K) (m : List (List (Option K))) (c : ℕ) : Prop where
  up : ∀ c' ≤ c, ∀ r ≤ c', cell m r c' = some (Nspan U s c' (s - c' + r) t)
  low : ∀ c' ≤ c, ∀ r < c', cell m c' r = some (U (s + r + 1) - U (s + 1 - c' + r))

theorem nduTable_run {U : List K} {s p R : ℕ} {t : K} {ndu : List (List (Option K))} {left right : List (Option K)}
    (hm : IsMat ndu R R) (hR : p < R) (hl : p < left.length) (hr : p < right.length) (hps : p ≤ s)
    (hlen : s + p < U.length) (hU : isValidKnotVector U = true) (hs : nth U s < nth U (s + 1)) :
    Runs (nduTable s p U t ndu left right) (fun m => IsMat m R R ∧ NduOk (nth U) s t m p) := by
  have hmono := isValidKnotVector_nth.mp hU
  unfold nduTable
  obtain ⟨m0, e0, hm0, hc0⟩ := aset2_ok hm (i := 0) (j := 0) (a := 0) (b := 0) (x := (1 : K)) rfl rfl (by omega) (by omega)
  refine Runs.bind_eq e0 ?_
  refine Runs.bind (Q := fun st => IsMat st.1 R R ∧ NduOk (nth U) s t st.1 p) ?_ (fun a h => Runs.ok h)
  refine (Runs.forN (m := 1) (n := p + 1) (fun j st => IsMat st.1 R R ∧ NduOk (nth U) s t st.1 (j - 1) ∧
      st.2.1.length = left.length ∧ st.2.2.length = right.length ∧
      Holds st.2.1 1 j (fun i => t - nth U (s + 1 - i)) ∧ Holds st.2.2 1 j (fun i => nth U (s + i) - t))
      rfl (by push_cast; rfl) (by omega) ⟨hm0, ⟨?_, ?_⟩, rfl, rfl, Holds.empty (le_refl _), Holds.empty (le_refl _)⟩ ?_).mono ?_
  · intro c hc r hr
    obtain rfl : c = 0 := by omega
    obtain rfl : r = 0 := by omega
    rw [hc0]; simp [Nspan]
  · intro c hc r hr; omega
  · rintro j ⟨m, l, rt⟩ hj1 hjp ⟨i1, i2, i3, i4, i5, i6⟩
    dsimp only at i1 i2 i3 i4 i5 i6 ⊢
    have gl : vget U ((s : ℤ) + 1 - j) = ok (nth U (s + 1 - j)) := vget_nth (by omega) (by omega)
    have gr : vget U ((s : ℤ) + j) = ok (nth U (s + j)) := vget_nth (by push_cast; rfl) (by omega)
    have hl' := i5.snoc (x := t - nth U (s + 1 - j)) (by omega) rfl
    have hr' := i6.snoc (x := nth U (s + j) - t) (by omega) rfl
    refine Runs.bind_eq gl ?_
    refine Runs.bind_eq (aset_of (k := j) rfl (by omega)) ?_
    refine Runs.bind_eq gr ?_
    refine Runs.bind_eq (aset_of (k := j) rfl (by omega)) ?_
    refine Runs.bind (Q := fun st : List (List (Option K)) × K => IsMat st.1 R R ∧ st.2 = savedVal (nth U) s t j j ∧
        NduOk (nth U) s t st.1 (j - 1) ∧ (∀ r < j, cell st.1 r j = some (Nspan (nth U) s j (s - j + r) t)) ∧
        (∀ r < j, cell st.1 j r = some (nth U (s + r + 1) - nth U (s + 1 - j + r)))) ?_ ?_
    · refine Runs.forN (m := 0) (n := j) (fun r (st : List (List (Option K)) × K) => IsMat st.1 R R ∧ st.2 = savedVal (nth U) s t j r ∧
        NduOk (nth U) s t st.1 (j - 1) ∧ (∀ r' < r, cell st.1 r' j = some (Nspan (nth U) s j (s - j + r') t)) ∧
        (∀ r' < r, cell st.1 j r' = some (nth U (s + r' + 1) - nth U (s + 1 - j + r'))))
        rfl rfl (by omega) ⟨i1, by simp [savedVal], i2, by omega, by omega⟩ ?_
      rintro r ⟨m1, sv⟩ - hrj ⟨k1, k2, k3, k4, k5⟩
      dsimp only at k1 k2 k3 k4 k5 ⊢
      have g2 := hr'.aget (i := (r : ℤ) + 1) (r := r + 1) (by push_cast; rfl) (by omega) (by omega)
      have g3 := hl'.aget (i := (j : ℤ) - r) (r := j - r) (by omega) (by omega) (by omega)
      have a1 : s + 1 - (j - r) = s + 1 - j + r := by omega
      have hd : nth U (s + (r + 1)) - t + (t - nth U (s + 1 - (j - r))) = nth U (s + r + 1) - nth U (s + 1 - j + r) := by
        rw [a1, ← add_assoc]; ring
      have hd0 : nth U (s + r + 1) - nth U (s + 1 - j + r) ≠ 0 := by
        have b1 := hmono (s + 1) (s + r + 1) (by omega) (by omega)
        have b2 := hmono (s + 1 - j + r) s (by omega) (by omega)
        exact sub_ne_zero.mpr (ne_of_gt (lt_of_le_of_lt b2 (lt_of_lt_of_le hs b1)))
      refine Runs.bind_eq g2 ?_
      refine Runs.bind_eq g3 ?_
      rw [hd]
      obtain ⟨m2, e2, hm2, hc2⟩ := aset2_ok k1 (i := (j : ℤ)) (j := (r : ℤ)) (a := j) (b := r)
        (x := nth U (s + r + 1) - nth U (s + 1 - j + r)) rfl rfl (by omega) (by omega)
      refine Runs.bind_eq e2 ?_
      have q1 : cell m2 r (j - 1) = some (Nspan (nth U) s (j - 1) (s - (j - 1) + r) t) := by
        rw [hc2, if_neg (by omega)]
        exact k3.up (j - 1) (le_refl _) r (by omega)
      have q2 : cell m2 j r = some (nth U (s + r + 1) - nth U (s + 1 - j + r)) := by
        rw [hc2, if_pos ⟨rfl, rfl⟩]
      refine Runs.bind_eq (aget2_of rfl (by omega) q1) ?_
      refine Runs.bind_eq (aget2_of rfl rfl q2) ?_
      refine Runs.bind_eq (fdiv_ok hd0) ?_
      obtain ⟨m3, e3, hm3, hc3⟩ := aset2_ok hm2 (i := (r : ℤ)) (j := (j : ℤ)) (a := r) (b := j)
        (x := sv + (nth U (s + (r + 1)) - t) * (Nspan (nth U) s (j - 1) (s - (j - 1) + r) t / (nth U (s + r + 1) - nth U (s + 1 - j + r)))) rfl rfl (by omega) (by omega)
      refine Runs.bind_eq e3 ?_
      have a2 : s - (j - 1) + r = s + 1 - j + r := by omega
      have a3 : s - j + (r + 1) = s + 1 - j + r := by omega
      have a4 : s - j + r + 1 = s + 1 - j + r := by omega
      refine Runs.ok ⟨hm3, ?_, ⟨?_, ?_⟩, ?_, ?_⟩
      · dsimp only
        simp only [savedVal]
        rw [if_neg (by omega), a3, a1, a2, ← add_assoc]
      · intro c hc r' hr'
        rw [hc3, if_neg (by omega), hc2, if_neg (by omega)]
        exact k3.up c hc r' hr'
      · intro c hc r' hr'
        rw [hc3, if_neg (by omega), hc2, if_neg (by omega)]
        exact k3.low c hc r' hr'
      · intro r' hr'
        by_cases hrr : r' = r
        · subst hrr
          rw [hc3, if_pos ⟨rfl, rfl⟩, k2]
          congr 1
          obtain ⟨q, rfl⟩ : ∃ q, j = q + 1 := ⟨j - 1, by omega⟩
          simp only [Nspan, savedVal, Nat.add_sub_cancel]
          rw [Nat.add_sub_cancel] at a2
          rw [a4, a2]
          have a5 : s - (q + 1) + r' + q + 2 = s + r' + 1 := by omega
          have a6 : s - (q + 1) + r' + q + 1 = s + r' := by omega
          rw [a5, a6, ← add_assoc]
          by_cases hr0 : r' = 0
          · subst hr0
            simp only [if_true]
            rw [Nspan_zero (nth U) s q (s - (q + 1) + 0) t (by omega)]
            ring
          · rw [if_neg hr0]; ring
        · rw [hc3, if_neg (by omega), hc2, if_neg (by omega)]
          exact k4 r' (by omega)
      · intro r' hr'
        by_cases hrr : r' = r
        · subst hrr
          rw [hc3, if_neg (by omega), hc2, if_pos ⟨rfl, rfl⟩]
        · rw [hc3, if_neg (by omega), hc2, if_neg (by omega)]
          exact k5 r' (by omega)
    · rintro ⟨m1, sv⟩ ⟨k1, k2, k3, k4, k5⟩
      dsimp only at k1 k2 k3 k4 k5 ⊢
      obtain ⟨m3, e3, hm3, hc3⟩ := aset2_ok k1 (i := (j : ℤ)) (j := (j : ℤ)) (a := j) (b := j)
        (x := sv) rfl rfl (by omega) (by omega)
      refine Runs.bind_eq e3 ?_
      refine Runs.ok ⟨hm3, ⟨?_, ?_⟩, by simp [i3], by simp [i4], hl', hr'⟩
      · intro c hc r hr
        rw [Nat.add_sub_cancel] at hc
        by_cases hcj : c = j
        · subst hcj
          by_cases hrc : r = c
          · subst hrc
            rw [hc3, if_pos ⟨rfl, rfl⟩, k2]
            congr 1
            obtain ⟨q, rfl⟩ : ∃ q, r = q + 1 := ⟨r - 1, by omega⟩
            simp only [savedVal, Nspan, Nat.add_sub_cancel]
            rw [if_neg (by omega)]
            have a1 : s - (q + 1) + (q + 1) = s := by omega
            rw [a1]
            rw [Nspan_zero (nth U) s q (s + 1) t (by omega)]
            have a2 : s + (q + 1) = s + q + 1 := by omega
            rw [a2]
            ring
          · rw [hc3, if_neg (by omega)]
            exact k4 r (by omega)
        · rw [hc3, if_neg (by omega)]
          exact k3.up c (by omega) r hr
      · intro c hc r hr
        rw [Nat.add_sub_cancel] at hc
        rw [hc3, if_neg (by omega)]
        by_cases hcj : c = j
        · subst hcj
          exact k5 r hr
        · exact k3.low c (by omega) r hr
  · rintro ⟨m, l, rt⟩ ⟨i1, i2, -⟩
    exact ⟨i1, by simpa using i2⟩

theorem ac_succ (U : ℕ → K) (p i k j : ℕ) :
    ac U p i (k + 1) j = (ac U p i k j - if j = 0 then 0 else ac U p i k (j - 1)) / (U (i + p - k + j) - U (i + j)) := by
  cases j with
  | zero => simp [ac]
  | succ j => simp [ac]

/-- the partial sum `∑_{j<J} a_{k,j} N_{i+j,p-k}` -/
def psum (U : ℕ → K) (s p i k : ℕ) (t : K) (J : ℕ) : K :=
  ∑ j ∈ range J, ac U p i k j * Nspan U s (p - k) (i + j) t

theorem psum_succ (U : ℕ → K) (s p i k : ℕ) (t : K) (J : ℕ) :
    psum U s p i k t (J + 1) = psum U s p i k t J + ac U p i k J * Nspan U s (p - k) (i + J) t := by
  unfold psum; rw [Finset.sum_range_succ]

theorem psum_low {U : ℕ → K} {s p r k : ℕ} {t : K} (hps : p ≤ s) (hkp : k ≤ p) {J : ℕ} (hJ : J + r ≤ k) :
    psum U s p (s - p + r) k t J = 0 := by
  unfold psum
  apply Finset.sum_eq_zero
  intro j hj
  rw [mem_range] at hj
  rw [Nspan_zero _ _ _ _ _ (Or.inr (by omega)), mul_zero]

theorem psum_high {U : ℕ → K} {s p r k : ℕ} {t : K} (hps : p ≤ s) {J J' : ℕ} (hJ : p < r + J) (hJJ : J ≤ J') :
    psum U s p (s - p + r) k t J' = psum U s p (s - p + r) k t J := by
  unfold psum
  symm
  apply Finset.sum_subset
  · intro x hx; rw [mem_range] at *; omega
  · intro x hx hx'
    rw [mem_range] at *
    rw [Nspan_zero _ _ _ _ _ (Or.inl (by omega)), mul_zero]

theorem dersRound_run {U : ℕ → K} {s p r k c : ℕ} {t : K} {ndu a : List (List (Option K))}
    (hndu : NduOk U s t ndu p) (ha : IsMat a 2 c) (hc : p < c) (hkp : k + 1 ≤ p) (hrp : r ≤ p) (hps : p ≤ s)
    (hden : ∀ j ≤ p, ∀ r < j, U (s + r + 1) - U (s + 1 - j + r) ≠ 0)
    {s1 s2 : ℕ} (_hs1 : s1 < 2) (hs2 : s2 < 2) (hne : s1 ≠ s2)
    (hrow : ∀ j, k ≤ r + j → j ≤ k → r + j ≤ p → cell a s1 j = some (ac U p (s - p + r) k j)) :
    Runs (dersRound p ndu r ((k + 1 : ℕ) : ℤ) a s1 s2) (fun x => IsMat x.1 2 c ∧
      x.2 = ∑ j ∈ range (k + 1 + 1), ac U p (s - p + r) (k + 1) j * Nspan U s (p - (k + 1)) (s - p + r + j) t ∧
      ∀ j, k + 1 ≤ r + j → j ≤ k + 1 → r + j ≤ p → cell x.1 s2 j = some (ac U p (s - p + r) (k + 1) j)) := by
  have hlow : ∀ j, k + 1 ≤ r + j → r + j ≤ p → cell ndu (p - k) (r + j - (k + 1)) =
      some (U (s - p + r + p - k + j) - U (s - p + r + j)) := by
    intro j h1 h2
    rw [hndu.low (p - k) (by omega) (r + j - (k + 1)) (by omega)]
    have e1 : s + (r + j - (k + 1)) + 1 = s - p + r + p - k + j := by omega
    have e2 : s + 1 - (p - k) + (r + j - (k + 1)) = s - p + r + j := by omega
    rw [e1, e2]
  have hup : ∀ j, k + 1 ≤ r + j → r + j ≤ p → cell ndu (r + j - (k + 1)) (p - (k + 1)) =
      some (Nspan U s (p - (k + 1)) (s - p + r + j) t) := by
    intro j h1 h2
    rw [hndu.up (p - (k + 1)) (by omega) (r + j - (k + 1)) (by omega)]
    have e1 : s - (p - (k + 1)) + (r + j - (k + 1)) = s - p + r + j := by omega
    rw [e1]
  have hdz : ∀ j, k + 1 ≤ r + j → r + j ≤ p → U (s - p + r + p - k + j) - U (s - p + r + j) ≠ 0 := by
    intro j h1 h2
    have := hden (p - k) (by omega) (r + j - (k + 1)) (by omega)
    have e1 : s + (r + j - (k + 1)) + 1 = s - p + r + p - k + j := by omega
    have e2 : s + 1 - (p - k) + (r + j - (k + 1)) = s - p + r + j := by omega
    rwa [e1, e2] at this
  -- the invariant after the columns `< J` are done
  let Inv : ℕ → List (List (Option K)) × K → Prop := fun J x => IsMat x.1 2 c ∧
    x.2 = psum U s p (s - p + r) (k + 1) t J ∧ (∀ j, cell x.1 s1 j = cell a s1 j) ∧
    ∀ j, k + 1 ≤ r + j → j < J → r + j ≤ p → cell x.1 s2 j = some (ac U p (s - p + r) (k + 1) j)
  unfold dersRound
  dsimp only
  -- first part
  refine Runs.bind (Q := Inv (if (r : ℤ) - ((k + 1 : ℕ) : ℤ) ≥ -1 then 1 else k + 1 - r)) ?_ ?_
  · by_cases hrk : k + 1 ≤ r
    · rw [if_pos (by push_cast; omega), if_pos (by push_cast; omega)]
      refine Runs.bind_eq (aget2_of rfl (b := 0) rfl (hrow 0 (by omega) (by omega) (by omega))) ?_
      refine Runs.bind_eq (aget2_of (a := p - k) (b := r + 0 - (k + 1)) (by push_cast; omega) (by push_cast; omega) (hlow 0 (by omega) (by omega))) ?_
      refine Runs.bind_eq (fdiv_ok (hdz 0 (by omega) (by omega))) ?_
      obtain ⟨m2, e2, hm2, hc2⟩ := aset2_ok ha (i := (s2 : ℤ)) (j := 0) (a := s2) (b := 0)
        (x := ac U p (s - p + r) k 0 / (U (s - p + r + p - k + 0) - U (s - p + r + 0))) rfl rfl (by omega) (by omega)
      refine Runs.bind_eq e2 ?_
      refine Runs.bind_eq (aget2_of (a := r + 0 - (k + 1)) (b := p - (k + 1)) (by push_cast; omega) (by push_cast; omega) (hup 0 (by omega) (by omega))) ?_
      have hac : ac U p (s - p + r) (k + 1) 0 = ac U p (s - p + r) k 0 / (U (s - p + r + p - k + 0) - U (s - p + r + 0)) := by
        rw [ac_succ]; simp
      refine Runs.ok ⟨hm2, ?_, ?_, ?_⟩
      · dsimp only
        rw [psum_succ, ← hac]; simp [psum]
      · intro j; rw [hc2, if_neg (by omega)]
      · intro j _ hj _
        obtain rfl : j = 0 := by omega
        rw [hc2, if_pos ⟨rfl, rfl⟩, hac]
    · rw [if_neg (by push_cast; omega)]
      refine Runs.ok ⟨ha, ?_, fun j => rfl, ?_⟩
      · dsimp only
        rw [psum_low hps (by omega)]
        split <;> omega
      · intro j h1 h2 h3
        split at h2 <;> omega
  · rintro ⟨a1, d1⟩ hI
    dsimp only
    -- the loop
    have hj1 : (if (r : ℤ) - ((k + 1 : ℕ) : ℤ) ≥ -1 then (1 : ℤ) else -((r : ℤ) - ((k + 1 : ℕ) : ℤ))) =
        ((if (r : ℤ) - ((k + 1 : ℕ) : ℤ) ≥ -1 then 1 else k + 1 - r : ℕ) : ℤ) := by
      split
      · rfl
      · push_cast; omega
    have hj2 : (if (r : ℤ) - 1 ≤ (p : ℤ) - ((k + 1 : ℕ) : ℤ) then ((k + 1 : ℕ) : ℤ) - 1 else (p : ℤ) - r) + 1 =
        ((if r ≤ p - k then k + 1 else p + 1 - r : ℕ) : ℤ) := by
      by_cases h : r ≤ p - k
      · rw [if_pos (by push_cast; omega), if_pos h]; push_cast; ring
      · rw [if_neg (by push_cast; omega), if_neg h]; push_cast; omega
    rw [hj1, hj2]
    refine Runs.bind (Q := Inv (if r ≤ p - k then k + 1 else p + 1 - r)) ?_ ?_
    · refine Runs.forN Inv rfl rfl ?_ hI ?_
      · split <;> split <;> omega
      · rintro j ⟨a2, d2⟩ h1 h2 ⟨i1, i2, i3, i4⟩
        dsimp only at i1 i2 i3 i4 ⊢
        have b1 : 1 ≤ j ∧ k + 1 ≤ r + j := by split at h1 <;> omega
        have b2 : j ≤ k ∧ r + j ≤ p := by split at h2 <;> omega
        refine Runs.bind_eq (aget2_of rfl rfl ((i3 j).trans (hrow j (by omega) (by omega) (by omega)))) ?_
        refine Runs.bind_eq (aget2_of rfl (b := j - 1) (by omega) ((i3 (j - 1)).trans (hrow (j - 1) (by omega) (by omega) (by omega)))) ?_
        refine Runs.bind_eq (aget2_of (a := p - k) (b := r + j - (k + 1)) (by push_cast; omega) (by push_cast; omega) (hlow j (by omega) (by omega))) ?_
        refine Runs.bind_eq (fdiv_ok (hdz j (by omega) (by omega))) ?_
        have hac : (ac U p (s - p + r) k j - ac U p (s - p + r) k (j - 1)) / (U (s - p + r + p - k + j) - U (s - p + r + j)) =
            ac U p (s - p + r) (k + 1) j := by
          rw [ac_succ, if_neg (by omega)]
        rw [hac]
        obtain ⟨m2, e2, hm2, hc2⟩ := aset2_ok i1 (i := (s2 : ℤ)) (j := (j : ℤ)) (a := s2) (b := j)
          (x := ac U p (s - p + r) (k + 1) j) rfl rfl (by omega) (by omega)
        refine Runs.bind_eq e2 ?_
        refine Runs.bind_eq (aget2_of (a := r + j - (k + 1)) (b := p - (k + 1)) (by push_cast; omega) (by push_cast; omega) (hup j (by omega) (by omega))) ?_
        refine Runs.ok ⟨hm2, ?_, ?_, ?_⟩
        · dsimp only
          rw [psum_succ, i2]
        · intro j'; rw [hc2, if_neg (by omega)]; exact i3 j'
        · intro j' h3 h4 h5
          rw [hc2]
          by_cases hjj : j' = j
          · rw [if_pos ⟨rfl, hjj⟩, hjj]
          · rw [if_neg (by omega)]
            exact i4 j' h3 (by omega) h5
    · rintro ⟨a2, d2⟩ ⟨i1, i2, i3, i4⟩
      dsimp only at i1 i2 i3 i4 ⊢
      by_cases hrp' : r + (k + 1) ≤ p
      · rw [if_pos (by push_cast; omega)]
        rw [if_pos (by omega)] at i2 i4
        refine Runs.bind_eq (aget2_of rfl (b := k) (by push_cast; omega) ((i3 k).trans (hrow k (by omega) (by omega) (by omega)))) ?_
        refine Runs.bind_eq (aget2_of (a := p - k) (b := r + (k + 1) - (k + 1)) (by push_cast; omega) (by push_cast; omega) (hlow (k + 1) (by omega) (by omega))) ?_
        refine Runs.bind_eq (fdiv_ok (hdz (k + 1) (by omega) (by omega))) ?_
        have hac : -ac U p (s - p + r) k k / (U (s - p + r + p - k + (k + 1)) - U (s - p + r + (k + 1))) =
            ac U p (s - p + r) (k + 1) (k + 1) := by
          rw [ac_succ, if_neg (by omega), ac_gt U p _ k (k + 1) (by omega)]; simp
        rw [hac]
        obtain ⟨m2, e2, hm2, hc2⟩ := aset2_ok i1 (i := (s2 : ℤ)) (j := ((k + 1 : ℕ) : ℤ)) (a := s2) (b := k + 1)
          (x := ac U p (s - p + r) (k + 1) (k + 1)) rfl rfl (by omega) (by omega)
        refine Runs.bind_eq e2 ?_
        refine Runs.bind_eq (aget2_of (a := r + (k + 1) - (k + 1)) (b := p - (k + 1)) (by push_cast; omega) (by push_cast; omega) (hup (k + 1) (by omega) (by omega))) ?_
        refine Runs.ok ⟨hm2, ?_, ?_⟩
        · dsimp only
          rw [i2, ← psum_succ]; rfl
        · intro j' h3 h4 h5
          rw [hc2]
          by_cases hjj : j' = k + 1
          · rw [if_pos ⟨rfl, hjj⟩, hjj]
          · rw [if_neg (by omega)]
            exact i4 j' h3 (by omega) h5
      · rw [if_neg (by push_cast; omega)]
        refine Runs.ok ⟨i1, ?_, ?_⟩
        · dsimp only
          rw [i2]
          symm
          apply psum_high hps
          · split <;> omega
          · split <;> omega
        · intro j' h3 h4 h5
          apply i4 j' h3 _ h5
          split <;> omega

theorem isMat_zeros2 {r c : ℕ} : IsMat (zeros2 K r c) r c := isMat_replicate

theorem den_ne {U : List K} {s p : ℕ} (hps : p ≤ s) (hlen : s + p < U.length) (hU : isValidKnotVector U = true)
    (hs : nth U s < nth U (s + 1)) : ∀ j ≤ p, ∀ r < j, nth U (s + r + 1) - nth U (s + 1 - j + r) ≠ 0 := by
  have hmono := isValidKnotVector_nth.mp hU
  intro j hj r hr
  have b1 := hmono (s + 1) (s + r + 1) (by omega) (by omega)
  have b2 := hmono (s + 1 - j + r) s (by omega) (by omega)
  exact sub_ne_zero.mpr (ne_of_gt (lt_of_le_of_lt b2 (lt_of_lt_of_le hs b1)))

/-- the common prologue of the basis function routines -/
theorem prologue {β : Type} {U : List K} {t : K} {x : Res β} {R : β → Prop} (hpos : 0 < U.length)
    (hU : isValidKnotVector U = true)
    (h0 : nth U 0 - doubleEps ≤ t) (h1 : t ≤ nth U (U.length - 1) + doubleEps) (h : Runs x R) :
    Runs (validate (decide (U.length > 0)) >>= fun _ => validate (isValidKnotVector U) >>= fun _ => vget U 0 >>= fun first =>
      vget U ((U.length : ℤ) - 1) >>= fun last => validateRange t first last >>= fun _ => x) R := by
  have e0 : vget U 0 = ok (nth U 0) := vget_nth (by simp) (by omega)
  have e1 : vget U ((U.length : ℤ) - 1) = ok (nth U (U.length - 1)) := vget_nth (by omega) (by omega)
  have hv : validateRange t (nth U 0) (nth U (U.length - 1)) = ok () := validateRange_eq_ok_iff.mpr ⟨h0, h1⟩
  rw [validate_of (by simpa using hpos), ok_bind, validate_of hU, ok_bind, e0, ok_bind, e1, ok_bind, hv, ok_bind]
  exact h

theorem basisFunctionsDerivatives_run {U : List K} {s p d : ℕ} {t : K} (hp : p ≤ 7) (hd : d ≤ p) (hps : p ≤ s)
    (hlen : s + p + 1 < U.length) (hU : isValidKnotVector U = true) (hs : nth U s < nth U (s + 1))
    (h0 : nth U 0 - doubleEps ≤ t) (h1 : t ≤ nth U (U.length - 1) + doubleEps) :
    Runs (basisFunctionsDerivatives s p d U t) (fun m => IsMat m (d + 1) (p + 1) ∧
      ∀ k ≤ d, ∀ r ≤ p, ent m k r = dN (nth U) s p (s - p + r) k t) := by
  have hmono := isValidKnotVector_nth.mp hU
  have hm : MonoTo (nth U) (s + p + 1) := fun i j h1 h2 => hmono i j h1 (by omega)
  have hden := den_ne hps (by omega) hU hs
  unfold basisFunctionsDerivatives
  rw [validate_of (by simp), ok_bind, validate_of (by simp [nurbsMaxDegree]; omega), ok_bind, validate_of (by simpa using hd), ok_bind]
  refine prologue (by omega) hU h0 h1 ?_
  have ep : ((p : ℤ) + 1).toNat = p + 1 := by omega
  have ed : ((d : ℤ) + 1).toNat = d + 1 := by omega
  dsimp only
  rw [ep, ed]
  refine Runs.bind (nduTable_run (R := p + 1) isMat_zeros2 (by omega) (by simp; omega) (by simp; omega) hps (by omega) hU hs) ?_
  rintro ndu ⟨-, hndu⟩
  -- row zero
  refine Runs.bind (Q := fun m => IsMat m (d + 1) (p + 1) ∧ ∀ r ≤ p, ent m 0 r = Nspan (nth U) s p (s - p + r) t) ?_ ?_
  · refine (Runs.forN (m := 0) (n := p + 1) (fun j m => IsMat m (d + 1) (p + 1) ∧
      ∀ r < j, ent m 0 r = Nspan (nth U) s p (s - p + r) t) rfl (by push_cast; rfl) (by omega)
      ⟨isMat_replicate, by omega⟩ ?_).mono (fun m h => ⟨h.1, fun r hr => h.2 r (by omega)⟩)
    rintro j m - hj ⟨i1, i2⟩
    refine Runs.bind_eq (aget2_of rfl rfl (hndu.up p (le_refl _) j (by omega))) ?_
    obtain ⟨m', e', hm', hc'⟩ := mset_ok i1 (i := 0) (j := (j : ℤ)) (a := 0) (b := j)
      (x := Nspan (nth U) s p (s - p + j) t) rfl rfl (by omega) (by omega)
    refine Runs.of_eq e' ⟨hm', ?_⟩
    intro r hr
    rw [hc']
    by_cases hrj : r = j
    · rw [if_pos ⟨rfl, hrj⟩, hrj]
    · rw [if_neg (by omega)]; exact i2 r (by omega)
  · rintro D0 ⟨hD0, hrow0⟩
    -- the coefficient loops
    let S : ℕ → ℕ → K := fun k r => ∑ j ∈ range (k + 1), ac (nth U) p (s - p + r) k j * Nspan (nth U) s (p - k) (s - p + r + j) t
    have hS0 : ∀ r, S 0 r = Nspan (nth U) s p (s - p + r) t := by
      intro r; simp [S, ac]
    refine Runs.bind (Q := fun st => IsMat st.2 (d + 1) (p + 1) ∧ ∀ k ≤ d, ∀ r ≤ p, ent st.2 k r = S k r) ?_ ?_
    · refine (Runs.forN (m := 0) (n := p + 1) (fun r0 st => IsMat st.1 2 (p + 1) ∧ IsMat st.2 (d + 1) (p + 1) ∧
        (∀ r ≤ p, ent st.2 0 r = S 0 r) ∧ ∀ k ≤ d, ∀ r < r0, r ≤ p → ent st.2 k r = S k r) rfl (by push_cast; rfl) (by omega)
        ⟨isMat_zeros2, hD0, fun r hr => by rw [hS0]; exact hrow0 r hr, by omega⟩ ?_).mono ?_
      · rintro r ⟨a, D⟩ - hr ⟨i1, i2, i3, i4⟩
        dsimp only at i1 i2 i3 i4 ⊢
        obtain ⟨a0, e0', ha0, hc0⟩ := aset2_ok i1 (i := 0) (j := 0) (a := 0) (b := 0) (x := (1 : K)) rfl rfl (by omega) (by omega)
        refine Runs.bind_eq e0' ?_
        refine Runs.bind (Q := fun st => IsMat st.1 2 (p + 1) ∧ IsMat st.2.2.2 (d + 1) (p + 1) ∧
          (∀ r ≤ p, ent st.2.2.2 0 r = S 0 r) ∧ ∀ k ≤ d, ∀ r' < r + 1, r' ≤ p → ent st.2.2.2 k r' = S k r') ?_
          (fun st h => Runs.ok ⟨h.1, h.2.1, h.2.2.1, h.2.2.2⟩)
        refine (Runs.forN (m := 1) (n := d + 1) (fun k st => IsMat st.1 2 (p + 1) ∧ IsMat st.2.2.2 (d + 1) (p + 1) ∧
          (∀ r ≤ p, ent st.2.2.2 0 r = S 0 r) ∧ (∀ k' ≤ d, ∀ r' < r, r' ≤ p → ent st.2.2.2 k' r' = S k' r') ∧
          (∀ k' < k, ent st.2.2.2 k' r = S k' r) ∧
          ∃ s1 s2 : ℕ, st.2.1 = (s1 : ℤ) ∧ st.2.2.1 = (s2 : ℤ) ∧ s1 < 2 ∧ s2 < 2 ∧ s1 ≠ s2 ∧
            ∀ j, k - 1 ≤ r + j → j ≤ k - 1 → r + j ≤ p → cell st.1 s1 j = some (ac (nth U) p (s - p + r) (k - 1) j)) rfl (by push_cast; rfl) (by omega)
          ⟨ha0, i2, i3, i4, ?_, 0, 1, rfl, rfl, by omega, by omega, by omega, ?_⟩ ?_).mono ?_
        · intro k' hk'
          obtain rfl : k' = 0 := by omega
          exact i3 r (by omega)
        · intro j _ hj _
          obtain rfl : j = 0 := by omega
          rw [hc0, if_pos ⟨rfl, rfl⟩]; simp [ac]
        · rintro k ⟨a', s1', s2', D'⟩ hk1 hkd ⟨j1, j2, j3, j4, j5, s1, s2, hs1, hs2, b1, b2, hne, hrow⟩
          dsimp only at j1 j2 j3 j4 j5 hs1 hs2 hrow ⊢
          subst hs1 hs2
          obtain ⟨k, rfl⟩ : ∃ k', k = k' + 1 := ⟨k - 1, by omega⟩
          rw [Nat.add_sub_cancel] at hrow
          refine Runs.bind (dersRound_run hndu j1 (by omega) (by omega) (by omega) hps hden b1 b2 hne hrow) ?_
          rintro ⟨a2, dd⟩ ⟨g1, g2, g3⟩
          dsimp only at g1 g2 g3 ⊢
          obtain ⟨m', e', hm', hc'⟩ := mset_ok j2 (i := ((k + 1 : ℕ) : ℤ)) (j := (r : ℤ)) (a := k + 1) (b := r)
            (x := dd) rfl rfl (by omega) (by omega)
          refine Runs.bind_eq e' ?_
          refine Runs.ok ⟨g1, hm', ?_, ?_, ?_, s2, s1, rfl, rfl, b2, b1, hne.symm, ?_⟩
          · intro r' hr'
            rw [hc', if_neg (by omega)]; exact j3 r' hr'
          · intro k' hk' r' hr' hr''
            rw [hc', if_neg (by omega)]; exact j4 k' hk' r' hr' hr''
          · intro k' hk'
            rw [hc']
            by_cases hkk : k' = k + 1
            · rw [if_pos ⟨hkk, rfl⟩, g2, hkk]
            · rw [if_neg (by omega)]; exact j5 k' (by omega)
          · intro j h2 h3 h4
            exact g3 j h2 h3 h4
        · rintro ⟨a', s1', s2', D'⟩ ⟨j1, j2, j3, j4, j5, -⟩
          refine ⟨j1, j2, j3, ?_⟩
          intro k hk r' hr' hr''
          by_cases hrr : r' = r
          · rw [hrr]; exact j5 k (by omega)
          · exact j4 k hk r' (by omega) hr''
      · rintro ⟨a, D⟩ ⟨-, i2, -, i4⟩
        exact ⟨i2, fun k hk r hr => i4 k hk r (by omega) hr⟩
    · rintro ⟨a, D⟩ ⟨hD, hSD⟩
      dsimp only at hD hSD ⊢
      have hfin : ∀ k ≤ d, ∀ r ≤ p, dN (nth U) s p (s - p + r) k t = ((p.descFactorial k : ℕ) : K) * S k r := by
        intro k hk r hr
        exact dN_eq hm s p (s - p + r) (by omega) k (by omega) t
      refine Runs.bind (Q := fun st => IsMat st.1 (d + 1) (p + 1) ∧
        ∀ k ≤ d, ∀ r ≤ p, ent st.1 k r = dN (nth U) s p (s - p + r) k t) ?_ (fun st h => Runs.ok h)
      refine (Runs.forN (m := 1) (n := d + 1) (fun k st => IsMat st.1 (d + 1) (p + 1) ∧ st.2 = ((p.descFactorial k : ℕ) : ℤ) ∧
        (∀ k' < k, ∀ r ≤ p, ent st.1 k' r = dN (nth U) s p (s - p + r) k' t) ∧
        (∀ k', k ≤ k' → k' ≤ d → ∀ r ≤ p, ent st.1 k' r = S k' r)) rfl (by push_cast; rfl) (by omega)
        ⟨hD, by simp, ?_, fun k' _ h => hSD k' h⟩ ?_).mono ?_
      · intro k' hk' r hr
        obtain rfl : k' = 0 := by omega
        rw [hfin 0 (by omega) r hr, hSD 0 (by omega) r hr]; simp
      · rintro k ⟨D1, f⟩ hk1 hkd ⟨i1, i2, i3, i4⟩
        dsimp only at i1 i2 i3 i4 ⊢
        refine Runs.bind (Q := fun D => IsMat D (d + 1) (p + 1) ∧
          (∀ k' < k + 1, ∀ r ≤ p, ent D k' r = dN (nth U) s p (s - p + r) k' t) ∧
          (∀ k', k + 1 ≤ k' → k' ≤ d → ∀ r ≤ p, ent D k' r = S k' r)) ?_ ?_
        · refine (Runs.forN (m := 0) (n := p + 1) (fun j D => IsMat D (d + 1) (p + 1) ∧
            (∀ k' < k, ∀ r ≤ p, ent D k' r = dN (nth U) s p (s - p + r) k' t) ∧
            (∀ k', k + 1 ≤ k' → k' ≤ d → ∀ r ≤ p, ent D k' r = S k' r) ∧
            (∀ r ≤ p, ent D k r = if r < j then dN (nth U) s p (s - p + r) k t else S k r))
            rfl (by push_cast; rfl) (by omega) ⟨i1, i3, fun k' h => i4 k' (by omega), ?_⟩ ?_).mono ?_
          · intro r hr; rw [if_neg (by omega)]; exact i4 k (le_refl _) (by omega) r hr
          · rintro j D2 - hj ⟨j1, j2, j3, j4⟩
            refine Runs.bind_eq (mget_ent j1 rfl rfl (by omega) (by omega)) ?_
            obtain ⟨m', e', hm', hc'⟩ := mset_ok j1 (i := (k : ℤ)) (j := (j : ℤ)) (a := k) (b := j)
              (x := ent D2 k j * ((f : ℤ) : K)) rfl rfl (by omega) (by omega)
            refine Runs.of_eq e' ⟨hm', ?_, ?_, ?_⟩
            · intro k' hk' r hr
              rw [hc', if_neg (by omega)]; exact j2 k' hk' r hr
            · intro k' hk' hk'' r hr
              rw [hc', if_neg (by omega)]; exact j3 k' hk' hk'' r hr
            · intro r hr
              rw [hc']
              by_cases hrj : r = j
              · subst hrj
                rw [if_pos ⟨rfl, rfl⟩, if_pos (by omega), j4 r hr, if_neg (by omega), hfin k (by omega) r hr, i2]
                push_cast; ring
              · rw [if_neg (by omega), j4 r hr]
                by_cases h : r < j
                · rw [if_pos h, if_pos (by omega)]
                · rw [if_neg h, if_neg (by omega)]
          · rintro D2 ⟨j1, j2, j3, j4⟩
            refine ⟨j1, ?_, j3⟩
            intro k' hk' r hr
            by_cases hkk : k' = k
            · subst hkk
              rw [j4 r hr, if_pos (by omega)]
            · exact j2 k' (by omega) r hr
        · rintro D2 ⟨j1, j2, j3⟩
          refine Runs.ok ⟨j1, ?_, j2, j3⟩
          dsimp only
          rw [i2, Nat.descFactorial_succ]
          push_cast [Nat.cast_sub (show k ≤ p by omega)]
          ring
      · rintro ⟨D1, f⟩ ⟨i1, -, i3, -⟩
        exact ⟨i1, fun k hk r hr => i3 k (by omega) r hr⟩

theorem allBasisFunctions_run {U : List K} {s p : ℕ} {t : K} (hp : p ≤ 7) (hps : p ≤ s)
    (hlen : s + p < U.length) (hU : isValidKnotVector U = true) (hs : nth U s < nth U (s + 1))
    (h0 : nth U 0 - doubleEps ≤ t) (h1 : t ≤ nth U (U.length - 1) + doubleEps) :
    Runs (allBasisFunctions s p U t) (fun m => IsMat m (p + 1) (p + 1) ∧ NduOk (nth U) s t m p) := by
  unfold allBasisFunctions
  rw [validate_of (by simp), ok_bind, validate_of (by simp [nurbsMaxDegree]; omega), ok_bind]
  refine prologue (by omega) hU h0 h1 ?_
  have ep : ((p : ℤ) + 1).toNat = p + 1 := by omega
  dsimp only
  rw [ep]
  exact nduTable_run (R := p + 1) isMat_zeros2 (by omega) (by simp) (by simp) hps (by omega) hU hs

theorem basisFunctionsFirstOrderDerivative_run {U : List K} {s p : ℕ} {t : K} {out : List (List (Option K))}
    (hout : IsMat out 2 8) (hp : p ≤ 7) (hp1 : 1 ≤ p) (hps : p ≤ s)
    (hlen : s + p + 1 < U.length) (hU : isValidKnotVector U = true) (hs : nth U s < nth U (s + 1))
    (h0 : nth U 0 - doubleEps ≤ t) (h1 : t ≤ nth U (U.length - 1) + doubleEps) :
    Runs (basisFunctionsFirstOrderDerivative s p U t out) (fun m => IsMat m 2 8 ∧
      ∀ k ≤ 1, ∀ r ≤ p, cell m k r = some (dN (nth U) s p (s - p + r) k t)) := by
  have hmono := isValidKnotVector_nth.mp hU
  have hm : MonoTo (nth U) (s + p + 1) := fun i j h1 h2 => hmono i j h1 (by omega)
  have hden := den_ne hps (by omega) hU hs
  unfold basisFunctionsFirstOrderDerivative
  rw [validate_of (by simp), ok_bind, validate_of (by simp [nurbsMaxDegree]; omega), ok_bind, validate_of (by simpa using hp1), ok_bind]
  refine prologue (by omega) hU h0 h1 ?_
  refine Runs.bind (nduTable_run (R := 8) isMat_uninit2 (by omega) (by simp; omega) (by simp; omega) hps (by omega) hU hs) ?_
  rintro ndu ⟨-, hndu⟩
  refine Runs.bind (Q := fun m => IsMat m 2 8 ∧ ∀ r ≤ p, cell m 0 r = some (dN (nth U) s p (s - p + r) 0 t)) ?_ ?_
  · refine (Runs.forN (m := 0) (n := p + 1) (fun j m => IsMat m 2 8 ∧
      ∀ r < j, cell m 0 r = some (dN (nth U) s p (s - p + r) 0 t)) rfl (by push_cast; rfl) (by omega)
      ⟨hout, by omega⟩ ?_).mono (fun m h => ⟨h.1, fun r hr => h.2 r (by omega)⟩)
    rintro j m - hj ⟨i1, i2⟩
    refine Runs.bind_eq (aget2_of rfl rfl (hndu.up p (le_refl _) j (by omega))) ?_
    obtain ⟨m', e', hm', hc'⟩ := aset2_ok i1 (i := 0) (j := (j : ℤ)) (a := 0) (b := j)
      (x := Nspan (nth U) s p (s - p + j) t) rfl rfl (by omega) (by omega)
    refine Runs.of_eq e' ⟨hm', ?_⟩
    intro r hr
    rw [hc']
    by_cases hrj : r = j
    · rw [if_pos ⟨rfl, hrj⟩, hrj, dN_zero]
    · rw [if_neg (by omega)]; exact i2 r (by omega)
  · rintro D0 ⟨hD0, hrow0⟩
    have hfin : ∀ r ≤ p, dN (nth U) s p (s - p + r) 1 t = (p : K) * ∑ j ∈ range (1 + 1), ac (nth U) p (s - p + r) 1 j * Nspan (nth U) s (p - 1) (s - p + r + j) t := by
      intro r hr
      rw [dN_eq hm s p (s - p + r) (by omega) 1 (by omega) t]; simp
    refine Runs.bind (Q := fun st => IsMat st.2 2 8 ∧ (∀ r ≤ p, cell st.2 0 r = some (dN (nth U) s p (s - p + r) 0 t)) ∧
      ∀ r ≤ p, cell st.2 1 r = some (∑ j ∈ range (1 + 1), ac (nth U) p (s - p + r) 1 j * Nspan (nth U) s (p - 1) (s - p + r + j) t)) ?_ ?_
    · refine (Runs.forN (m := 0) (n := p + 1) (fun r0 st => IsMat st.1 2 8 ∧ IsMat st.2 2 8 ∧
        (∀ r ≤ p, cell st.2 0 r = some (dN (nth U) s p (s - p + r) 0 t)) ∧
        ∀ r < r0, cell st.2 1 r = some (∑ j ∈ range (1 + 1), ac (nth U) p (s - p + r) 1 j * Nspan (nth U) s (p - 1) (s - p + r + j) t))
        rfl (by push_cast; rfl) (by omega) ⟨isMat_uninit2, hD0, hrow0, by omega⟩ ?_).mono
        (fun st h => ⟨h.2.1, h.2.2.1, fun r hr => h.2.2.2 r (by omega)⟩)
      rintro r ⟨a, D⟩ - hr ⟨i1, i2, i3, i4⟩
      dsimp only at i1 i2 i3 i4 ⊢
      obtain ⟨a0, e0', ha0, hc0⟩ := aset2_ok i1 (i := 0) (j := 0) (a := 0) (b := 0) (x := (1 : K)) rfl rfl (by omega) (by omega)
      refine Runs.bind_eq e0' ?_
      refine Runs.bind (dersRound_run (k := 0) (s1 := 0) (s2 := 1) hndu ha0 (by omega) (by omega) (by omega) hps hden (by omega) (by omega) (by omega) ?_) ?_
      · intro j _ hj _
        obtain rfl : j = 0 := by omega
        rw [hc0, if_pos ⟨rfl, rfl⟩]; simp [ac]
      · rintro ⟨a2, dd⟩ ⟨g1, g2, -⟩
        dsimp only at g1 g2 ⊢
        obtain ⟨m', e', hm', hc'⟩ := aset2_ok i2 (i := 1) (j := (r : ℤ)) (a := 1) (b := r)
            (x := dd) rfl rfl (by omega) (by omega)
        refine Runs.bind_eq e' ?_
        refine Runs.ok ⟨g1, hm', ?_, ?_⟩
        · intro r' hr'
          rw [hc', if_neg (by omega)]; exact i3 r' hr'
        · intro r' hr'
          rw [hc']
          by_cases hrr : r' = r
          · rw [if_pos ⟨rfl, hrr⟩, g2, hrr]
          · rw [if_neg (by omega)]; exact i4 r' (by omega)
    · rintro ⟨a, D⟩ ⟨hD, hD0', hD1⟩
      dsimp only at hD hD0' hD1 ⊢
      refine (Runs.forN (m := 0) (n := p + 1) (fun j m => IsMat m 2 8 ∧
        (∀ r ≤ p, cell m 0 r = some (dN (nth U) s p (s - p + r) 0 t)) ∧
        (∀ r < j, cell m 1 r = some (dN (nth U) s p (s - p + r) 1 t)) ∧
        ∀ r ≤ p, j ≤ r → cell m 1 r = some (∑ j ∈ range (1 + 1), ac (nth U) p (s - p + r) 1 j * Nspan (nth U) s (p - 1) (s - p + r + j) t))
        rfl (by push_cast; rfl) (by omega) ⟨hD, hD0', by omega, fun r hr _ => hD1 r hr⟩ ?_).mono ?_
      · rintro j m - hj ⟨i1, i2, i3, i4⟩
        refine Runs.bind_eq (aget2_of (a := 1) rfl rfl (i4 j (by omega) (le_refl _))) ?_
        obtain ⟨m', e', hm', hc'⟩ := aset2_ok i1 (i := 1) (j := (j : ℤ)) (a := 1) (b := j)
          (x := (∑ j' ∈ range (1 + 1), ac (nth U) p (s - p + j) 1 j' * Nspan (nth U) s (p - 1) (s - p + j + j') t) * (((p : ℕ) : ℤ) : K)) rfl rfl (by omega) (by omega)
        refine Runs.of_eq e' ⟨hm', ?_, ?_, ?_⟩
        · intro r hr
          rw [hc', if_neg (by omega)]; exact i2 r hr
        · intro r hr
          rw [hc']
          by_cases hrj : r = j
          · rw [if_pos ⟨rfl, hrj⟩, hrj, hfin j (by omega)]
            congr 1; push_cast; ring
          · rw [if_neg (by omega)]; exact i3 r (by omega)
        · intro r hr hr'
          rw [hc', if_neg (by omega)]; exact i4 r hr (by omega)
      · rintro m ⟨i1, i2, i3, -⟩
        refine ⟨i1, ?_⟩
        intro k hk r hr
        obtain rfl | rfl : k = 0 ∨ k = 1 := by omega
        · exact i2 r hr
        · exact i3 r (by omega)

end LNLib
