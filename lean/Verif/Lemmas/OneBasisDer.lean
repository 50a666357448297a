import Verif.Lemmas.OneBasis

/-! # `OneBasisFunctionDerivative`: the run -/
set_option linter.unusedSectionVars false

namespace LNLib
open Res Spec Finset

variable {K : Type} [Field K] [LinearOrder K] [IsStrictOrderedRing K]

/-- the run of the main part, for a parameter inside the support, when no value is dropped -/
theorem oneBasisDer_core {U : List K} {p i s d : ℕ} {t : K} (hlen : i + p + 1 < U.length)
    (hU : isValidKnotVector U = true) (hsep : KnotSeparated U t) (his : i ≤ s) (hsi : s ≤ i + p)
    (h0 : nth U s ≤ t) (h1 : t < nth U (s + 1)) (hp : 0 < p) (hd : d ≤ p)
    (hnd : ∀ q < p, ∀ j l, dN (nth U) s q j l t = 0 ∨ 2 / 1000000 < |dN (nth U) s q j l t|) :
    Runs (oneBasisFunctionDerivative i p d U t) (fun r => r.length = d + 1 ∧ ∀ k ≤ d, nth r k = dN (nth U) s p i k t) := by
  have hmono := isValidKnotVector_nth.mp hU
  have heps := doubleEps_pos (K := K)
  have hm : MonoTo (nth U) (i + p + 1) := fun a b h1 h2 => hmono a b h1 (by omega)
  have hs : nth U s < nth U (s + 1) := lt_of_le_of_lt h0 h1
  have hex : ∀ q ≤ p, ∀ j, NT (nth U) s t q j = Nspan (nth U) s q j t :=
    NT_exact (fun q hq j => by simpa [dN_zero] using hnd q hq j 0)
  have hden : ∀ q j, j + q + 1 ≤ i + p + 1 → ∀ l, isAlmostEqualTo (dN (nth U) s q j l t) 0 = false →
      nth U (j + q + 1) - nth U j ≠ 0 := by
    intro q j hj l h
    have h1 : ¬ (s < j ∨ j + q < s) := by
      intro hc
      rw [dN_out _ s q j l t hc, almostZero_zero] at h
      exact absurd h (by simp)
    have a1 := hm j s (by omega) (by omega)
    have a2 := hm (s + 1) (j + q + 1) (by omega) (by omega)
    exact sub_ne_zero.mpr (ne_of_gt (lt_of_le_of_lt a1 (lt_of_lt_of_le hs a2)))
  have hzero : ∀ q < p, ∀ j l, isAlmostEqualTo (dN (nth U) s q j l t) 0 = true → dN (nth U) s q j l t = 0 := by
    intro q hq j l h
    rcases hnd q hq j l with h2 | h2
    · exact h2
    · exact absurd (almostZero_abs h) (not_le.mpr h2)
  unfold oneBasisFunctionDerivative
  rw [validate_of (by simp), ok_bind, validate_of (by simpa using hp), ok_bind, validate_of (by simpa using hd), ok_bind]
  refine prologue (t := t) (by omega) hU (by have := hmono 0 s (by omega) (by omega); linarith)
    (by have := hmono (s + 1) (U.length - 1) (by omega) (by omega); linarith) ?_
  dsimp only
  refine Runs.bind_eq (vget_nth rfl (by omega)) ?_
  rw [sep_lt hsep (by omega), if_neg (by simpa using (hmono i s his (by omega)).trans h0)]
  refine Runs.bind_eq (vget_nth (k := i + p + 1) (by push_cast; ring) (by omega)) ?_
  rw [sep_ge hsep (by omega), if_neg (by simpa using lt_of_lt_of_le h1 (hmono (s + 1) (i + p + 1) (by omega) (by omega)))]
  have ep : ((p : ℤ) + 1).toNat = p + 1 := by omega
  have ed : ((d : ℤ) + 1).toNat = d + 1 := by omega
  rw [ep, ed]
  -- the indicator column
  refine Runs.bind (Q := fun N => IsMat N (p + 1) (p + 1) ∧ ∀ j ≤ p, ent N j 0 = NT (nth U) s t 0 (i + j)) ?_ ?_
  · refine (Runs.forN (m := 0) (n := p + 1) (fun J N => IsMat N (p + 1) (p + 1) ∧ (∀ j < J, ent N j 0 = NT (nth U) s t 0 (i + j)) ∧ ∀ j, J ≤ j → ent N j 0 = 0)
      rfl (by push_cast; rfl) (by omega) ⟨isMat_replicate, by omega, fun j _ => ent_replicate_zero⟩ ?_).mono
      (fun N h => ⟨h.1, fun j hj => h.2.1 j (by omega)⟩)
    rintro J N - hJ ⟨b1, b2, b3⟩
    refine Runs.bind_eq (inSpan_run hm (by omega) hsep h0 h1 (by omega) (i := i + J) (by push_cast; ring) (by omega)) ?_
    by_cases c : i + J = s
    · rw [if_pos (by simpa using c)]
      obtain ⟨m', e', hm', hc'⟩ := mset_ok b1 (i := (J : ℤ)) (j := 0) (a := J) (b := 0) (x := (1 : K)) rfl rfl (by omega) (by omega)
      refine Runs.of_eq e' ⟨hm', ?_, ?_⟩
      · intro j hj
        rw [hc']
        by_cases hjj : j = J
        · rw [if_pos ⟨hjj, rfl⟩, hjj]; simp [NT, c]
        · rw [if_neg (by omega)]; exact b2 j (by omega)
      · intro j hj
        rw [hc', if_neg (by omega)]; exact b3 j (by omega)
    · rw [if_neg (by simpa using c)]
      refine Runs.ok ⟨b1, ?_, fun j hj => b3 j (by omega)⟩
      intro j hj
      by_cases hjj : j = J
      · rw [hjj, b3 J (le_refl _)]; simp [NT, c]
      · exact b2 j (by omega)
  · rintro N ⟨b1, b2⟩
    refine Runs.bind (Q := fun N => IsMat N (p + 1) (p + 1) ∧ ∀ k ≤ p, ∀ j, j + k ≤ p → ent N j k = dN (nth U) s k (i + j) 0 t) ?_ ?_
    · refine (Runs.forN (m := 1) (n := p + 1) (fun k N => IsMat N (p + 1) (p + 1) ∧ ∀ k' < k, ∀ j, j + k' ≤ p → ent N j k' = NT (nth U) s t k' (i + j))
        rfl (by push_cast; rfl) (by omega) ⟨b1, fun k' hk' j hj => ?_⟩ ?_).mono
        (fun N h => ⟨h.1, fun k hk j hj => by rw [h.2 k (by omega) j hj, hex k hk, dN_zero]⟩)
      · obtain rfl : k' = 0 := by omega
        exact b2 j (by omega)
      rintro k N hk1 hkp ⟨c1, c2⟩
      obtain ⟨q, rfl⟩ : ∃ q, k = q + 1 := ⟨k - 1, by omega⟩
      refine Runs.bind_eq (mget_ent c1 (a := 0) (b := q) rfl (by push_cast; ring) (by omega) (by omega)) ?_
      rw [c2 q (by omega) 0 (by omega)]
      refine Runs.bind_eq (obfSaved_run hm (by omega) hs (by omega)) ?_
      refine Runs.bind (Q := fun st : List (List K) × K => IsMat st.1 (p + 1) (p + 1) ∧
        ∀ k' < q + 2, ∀ j, j + k' ≤ p → ent st.1 j k' = NT (nth U) s t k' (i + j)) ?_ (fun st h => Runs.ok h)
      · refine (Runs.forN (m := 0) (n := p - q) (fun J (st : List (List K) × K) => IsMat st.1 (p + 1) (p + 1) ∧
          (∀ k' < q + 1, ∀ j, j + k' ≤ p → ent st.1 j k' = NT (nth U) s t k' (i + j)) ∧
          (∀ j < J, ent st.1 j (q + 1) = NT (nth U) s t (q + 1) (i + j)) ∧
          st.2 = obfL (nth U) s t q (i + J)) rfl (by push_cast; omega) (by omega)
          ⟨c1, c2, by omega, rfl⟩ ?_).mono ?_
        · rintro J ⟨N, saved⟩ - hJ ⟨d1, d2, d3, d4⟩
          dsimp only at d1 d2 d3 d4 ⊢
          refine Runs.bind_eq (vget_nth (k := i + J + 1) (by push_cast; ring) (by omega)) ?_
          refine Runs.bind_eq (vget_nth (k := i + J + q + 2) (by push_cast; ring) (by omega)) ?_
          refine Runs.bind_eq (mget_ent d1 (a := J + 1) (b := q) (by push_cast; ring) (by push_cast; ring) (by omega) (by omega)) ?_
          rw [d2 q (by omega) (J + 1) (by omega), d4, ← add_assoc]
          refine Runs.bind_eq (obfStep_run hm hs (by omega)) ?_
          dsimp only
          obtain ⟨m', e', hm', hc'⟩ := mset_ok d1 (i := (J : ℤ)) (j := ((q + 1 : ℕ) : ℤ)) (a := J) (b := q + 1)
            (x := NT (nth U) s t (q + 1) (i + J)) rfl rfl (by omega) (by omega)
          refine Runs.bind_eq e' ?_
          refine Runs.ok ⟨hm', ?_, ?_, by simp only [add_assoc]⟩
          · intro k' hk' j hj
            dsimp only
            rw [hc', if_neg (by omega)]; exact d2 k' hk' j hj
          · intro j hj
            dsimp only
            rw [hc']
            by_cases hjj : j = J
            · rw [if_pos ⟨hjj, rfl⟩, hjj]
            · rw [if_neg (by omega)]; exact d3 j (by omega)
        · rintro ⟨N, saved⟩ ⟨d1, d2, d3, -⟩
          refine ⟨d1, fun k' hk' j hj => ?_⟩
          by_cases hkk : k' = q + 1
          · subst hkk; exact d3 j (by omega)
          · exact d2 k' (by omega) j hj
    · rintro N ⟨c1, c2⟩
      refine Runs.bind_eq (mget_ent c1 (a := 0) (b := p) rfl rfl (by omega) (by omega)) ?_
      rw [c2 p (le_refl _) 0 (by omega)]
      refine Runs.bind_eq (vset_of (k := 0) rfl (by simp)) ?_
      refine (Runs.forN (m := 1) (n := d + 1) (fun k r => r.length = d + 1 ∧ ∀ k' < k, nth r k' = dN (nth U) s p i k' t)
        rfl (by push_cast; rfl) (by omega) ⟨by simp, ?_⟩ ?_).mono (fun r h => ⟨h.1, fun k hk => h.2 k (by omega)⟩)
      · intro k' hk'
        obtain rfl : k' = 0 := by omega
        rw [nth_set (by simp), if_pos rfl, add_zero]
      · rintro k r hk1 hkd ⟨g1, g2⟩
        have ek : ((k : ℤ) + 1).toNat = k + 1 := by omega
        rw [ek]
        refine Runs.bind (Q := fun ND => ND.length = k + 1 ∧ ∀ j ≤ k, nth ND j = dN (nth U) s (p - k) (i + j) 0 t) ?_ ?_
        · refine (Runs.forN (m := 0) (n := k + 1) (fun J ND => ND.length = k + 1 ∧ ∀ j < J, nth ND j = dN (nth U) s (p - k) (i + j) 0 t)
            rfl (by push_cast; rfl) (by omega) ⟨by simp, by omega⟩ ?_).mono (fun r h => ⟨h.1, fun j hj => h.2 j (by omega)⟩)
          rintro J ND - hJ ⟨a1, a2⟩
          refine Runs.bind_eq (mget_ent c1 (a := J) (b := p - k) rfl (by omega) (by omega) (by omega)) ?_
          rw [vset_of rfl (by omega)]
          refine Runs.ok ⟨by simpa using a1, ?_⟩
          intro j hj
          rw [nth_set (by omega)]
          by_cases hjj : j = J
          · rw [if_pos hjj, hjj]; exact c2 (p - k) (by omega) J (by omega)
          · rw [if_neg hjj]; exact a2 j (by omega)
        · rintro ND ⟨a1, a2⟩
          refine Runs.bind (Q := fun ND => ND.length = k + 1 ∧ nth ND 0 = dN (nth U) s p i k t) ?_ ?_
          · refine (Runs.forN (m := 1) (n := k + 1) (fun jj ND => ND.length = k + 1 ∧
              ∀ j, j + (jj - 1) ≤ k → nth ND j = dN (nth U) s (p - k + (jj - 1)) (i + j) (jj - 1) t) rfl (by push_cast; rfl) (by omega)
              ⟨a1, fun j hj => by simpa using a2 j (by omega)⟩ ?_).mono (fun ND h => ⟨h.1, ?_⟩)
            · rintro jj ND hjj1 hjjk ⟨b1', b2'⟩
              obtain ⟨l, rfl⟩ : ∃ l, jj = l + 1 := ⟨jj - 1, by omega⟩
              rw [Nat.add_sub_cancel] at b2' ⊢
              let L : ℕ → K := fun j => (nth U (i + j + (p - k + l) + 1) - nth U (i + j))⁻¹ * dN (nth U) s (p - k + l) (i + j) l t
              refine Runs.bind_eq (vget_nth (k := 0) (i := 0) rfl (by omega)) ?_
              rw [b2' 0 (by omega)]
              refine Runs.bind_eq (a := L 0) ?_ ?_
              · split
                · rename_i h
                  have := hzero (p - k + l) (by omega) (i + 0) l h
                  simp only [L, this, mul_zero]
                · rename_i h
                  have h' : isAlmostEqualTo (dN (nth U) s (p - k + l) (i + 0) l t) 0 = false := by simpa using h
                  have hd' := hden (p - k + l) (i + 0) (by omega) l h'
                  rw [vget_nth (k := i + 0) (by push_cast; ring) (by omega), ok_bind, vget_nth (k := i + 0 + (p - k + l) + 1) (by push_cast; omega) (by omega), ok_bind, fdiv_ok hd']
                  simp only [L]
                  congr 1
                  rw [div_eq_inv_mul]
              · refine Runs.bind (Q := fun st : List K × K => st.1.length = k + 1 ∧
                  ∀ j, j + (l + 1) ≤ k → nth st.1 j = dN (nth U) s (p - k + (l + 1)) (i + j) (l + 1) t) ?_ (fun st h => Runs.ok ⟨h.1, by simpa using h.2⟩)
                refine (Runs.forN (m := 0) (n := k - l) (fun J (st : List K × K) => st.1.length = k + 1 ∧
                  (∀ j < J, nth st.1 j = dN (nth U) s (p - k + (l + 1)) (i + j) (l + 1) t) ∧
                  (∀ j, J ≤ j → j + l ≤ k → nth st.1 j = dN (nth U) s (p - k + l) (i + j) l t) ∧ st.2 = L J) rfl (by push_cast; omega) (by omega)
                  ⟨b1', by omega, fun j _ hj => b2' j hj, rfl⟩ ?_).mono (fun st h => ⟨h.1, fun j hj => h.2.1 j (by omega)⟩)
                rintro J ⟨ND, saved⟩ - hJ ⟨d1, d2, d3, d4⟩
                dsimp only at d1 d2 d3 d4 ⊢
                have hval : dN (nth U) s (p - k + (l + 1)) (i + J) (l + 1) t = (((p : ℤ) - k + ((l + 1 : ℕ) : ℤ) : ℤ) : K) * (L J - L (J + 1)) := by
                  have hc : (((p : ℤ) - k + ((l + 1 : ℕ) : ℤ) : ℤ) : K) = ((p - k + l : ℕ) : K) + 1 := by
                    have : ((p : ℤ) - k + ((l + 1 : ℕ) : ℤ) : ℤ) = ((p - k + l + 1 : ℕ) : ℤ) := by push_cast; omega
                    rw [this]; push_cast; ring
                  have e2 : i + (J + 1) = i + J + 1 := by omega
                  have e3 : i + J + 1 + (p - k + l) + 1 = i + J + (p - k + l) + 2 := by omega
                  rw [hc, ← add_assoc (p - k) l 1, dN_succ hm s (p - k + l) (i + J) l (by omega) t]
                  simp only [L]
                  rw [e2, e3]
                have hset : ∀ x : K, x = dN (nth U) s (p - k + (l + 1)) (i + J) (l + 1) t → ∀ sv : K, sv = L (J + 1) →
                    Runs (vset ND (J : ℤ) x >>= fun ND => ok (ND, sv)) (fun st : List K × K => st.1.length = k + 1 ∧
                  (∀ j < J + 1, nth st.1 j = dN (nth U) s (p - k + (l + 1)) (i + j) (l + 1) t) ∧
                  (∀ j, J + 1 ≤ j → j + l ≤ k → nth st.1 j = dN (nth U) s (p - k + l) (i + j) l t) ∧ st.2 = L (J + 1)) := by
                  rintro x hx sv hsv
                  refine Runs.bind_eq (vset_of rfl (by omega)) ?_
                  refine Runs.ok ⟨by simpa using d1, ?_, ?_, hsv⟩
                  · intro j hj
                    dsimp only
                    rw [nth_set (by omega)]
                    by_cases hjj : j = J
                    · rw [if_pos hjj, hjj]; exact hx
                    · rw [if_neg hjj]; exact d2 j (by omega)
                  · intro j h1 h2
                    dsimp only
                    rw [nth_set (by omega), if_neg (by omega)]
                    exact d3 j (by omega) h2
                refine Runs.bind_eq (vget_nth (k := i + J + 1) (by push_cast; ring) (by omega)) ?_
                refine Runs.bind_eq (vget_nth (k := i + (J + 1) + (p - k + l) + 1) (by push_cast; omega) (by omega)) ?_
                refine Runs.bind_eq (vget_nth (k := J + 1) (by push_cast; ring) (by omega)) ?_
                rw [d3 (J + 1) (by omega) (by omega), d4]
                split
                · rename_i h
                  have hz := hzero (p - k + l) (by omega) (i + (J + 1)) l h
                  have hL : L (J + 1) = 0 := by simp only [L, hz, mul_zero]
                  refine hset _ ?_ _ hL.symm
                  rw [hval, hL, sub_zero]
                · rename_i h
                  have h' : isAlmostEqualTo (dN (nth U) s (p - k + l) (i + (J + 1)) l t) 0 = false := by simpa using h
                  have hd' := hden (p - k + l) (i + (J + 1)) (by omega) l h'
                  have hL : L (J + 1) = dN (nth U) s (p - k + l) (i + (J + 1)) l t / (nth U (i + (J + 1) + (p - k + l) + 1) - nth U (i + J + 1)) := by
                    simp only [L]; rw [div_eq_inv_mul]; rfl
                  refine Runs.bind_eq (fdiv_ok hd') ?_
                  refine hset _ ?_ _ hL.symm
                  rw [hval, hL]
            · have := h.2 0 (by omega)
              rw [Nat.add_sub_cancel, add_zero] at this
              rw [this]
              congr 1
              omega
          · rintro ND ⟨e1, e2⟩
            refine Runs.bind_eq (vget_nth (k := 0) (i := 0) rfl (by omega)) ?_
            rw [vset_of rfl (by omega)]
            refine Runs.ok ⟨by simpa using g1, ?_⟩
            intro k' hk'
            rw [nth_set (by omega)]
            by_cases hkk : k' = k
            · rw [if_pos hkk, hkk]; exact e2
            · rw [if_neg hkk]; exact g2 k' (by omega)

end LNLib
