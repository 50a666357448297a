import Verif.Lemmas.Blossom
import Verif.Lemmas.Multiplicity

/-! # Boehm's knot insertion preserves the curve (no reference to the program) -/
set_option linter.unusedSectionVars false

namespace LNLib
open Res Spec Finset

variable {K : Type} [Field K] [LinearOrder K] [IsStrictOrderedRing K]
variable {T : Type} [AddCommGroup T] [Module K T]

/-- `u` lies in span `k` and has multiplicity `s` -/
structure InsertAt (U : ℕ → K) (p n k s : ℕ) (u : K) : Prop where
  mono : MonoTo U (n + p + 1)
  pk : p ≤ k
  kn : k ≤ n
  lo : U k ≤ u
  hi : u < U (k + 1)
  eq : ∀ i, k < i + s → i ≤ k → U i = u
  ne : ∀ i, i + s ≤ k → U i < u
  sp : s ≤ p

/-- the knot vector with `t` copies of `u` inserted behind index `k` -/
structure InsKnots (U V : ℕ → K) (k t m : ℕ) (u : K) : Prop where
  lo : ∀ i, i ≤ k → V i = U i
  mid : ∀ i, k < i → i ≤ k + t → V i = u
  hi : ∀ i, k + t < i → i ≤ m + t → V i = U (i - t)

/-- the control points of Boehm's algorithm -/
structure InsPoints (U : ℕ → K) (P Q : ℕ → T) (p n k s t : ℕ) (u : K) : Prop where
  lo : ∀ j, j + p ≤ k → Q j = P j
  left : ∀ i, 1 ≤ i → i ≤ t → i + s ≤ p → Q (k - p + i) = E U p P (List.replicate i u) (k - p)
  top : t + s = p + 1 → Q (k - s + 1) = E U p P (List.replicate (p - s) u) (k - p)
  mid : ∀ j, k + t < j + p → j + s < k → Q j = E U p P (List.replicate t u) (j - t)
  right : ∀ i, 1 ≤ i → i ≤ t → i + s < p → Q (k + t - i - s) = E U p P (List.replicate i u) (k - s - i)
  hi : ∀ j, k + t ≤ j + s → j ≤ n + t → (t + s = p + 1 → j + s ≠ k + 1) → Q j = P (j - t)

section
variable {U V : ℕ → K} {P Q : ℕ → T} {p n k s t : ℕ} {u : K}

theorem InsKnots.mono (hi : InsertAt U p n k s u) (hv : InsKnots U V k t (n + p + 1) u) : MonoTo V (n + t + p + 1) := by
  intro a b hab hb
  have hm := hi.mono
  have hkn := hi.kn
  by_cases ha1 : a ≤ k
  · rw [hv.lo a ha1]
    by_cases hb1 : b ≤ k
    · rw [hv.lo b hb1]; exact hm a b hab (by omega)
    · have h2 := hm a k ha1 (by omega)
      by_cases hb2 : b ≤ k + t
      · rw [hv.mid b (by omega) hb2]; exact h2.trans hi.lo
      · rw [hv.hi b (by omega) (by omega)]
        exact hm a (b - t) (by omega) (by omega)
  · by_cases ha2 : a ≤ k + t
    · rw [hv.mid a (by omega) ha2]
      by_cases hb2 : b ≤ k + t
      · rw [hv.mid b (by omega) hb2]
      · rw [hv.hi b (by omega) (by omega)]
        exact hi.hi.le.trans (hm (k + 1) (b - t) (by omega) (by omega))
    · rw [hv.hi a (by omega) (by omega), hv.hi b (by omega) (by omega)]
      exact hm _ _ (by omega) (by omega)

/-- the same knot vector seen with the new knots in front of the old ones -/
theorem InsKnots.mid' (hi : InsertAt U p n k s u) (hv : InsKnots U V k t (n + p + 1) u) :
    ∀ i, k - s < i → i ≤ k - s + t → V i = u := by
  intro i h1 h2
  have := hi.pk
  have := hi.sp
  by_cases h : i ≤ k
  · rw [hv.lo i h]; exact hi.eq i (by omega) h
  · exact hv.mid i (by omega) (by omega)

theorem InsKnots.hi' (hi : InsertAt U p n k s u) (hv : InsKnots U V k t (n + p + 1) u) :
    ∀ i, k - s + t < i → i ≤ n + t + p + 1 → V i = U (i - t) := by
  intro i h1 h2
  have := hi.pk
  have := hi.sp
  by_cases h : i ≤ k + t
  · rw [hi.eq (i - t) (by omega) (by omega)]
    by_cases h3 : i ≤ k
    · rw [hv.lo i h3]; exact hi.eq i (by omega) h3
    · exact hv.mid i (by omega) h
  · exact hv.hi i (by omega) (by omega)

theorem insert_span (hi : InsertAt U p n k s u) (hv : InsKnots U V k t (n + p + 1) u) (ht : 1 ≤ t) {x : K} {σ : ℕ}
    (hσ : IsSpan U p n x σ) :
    ∃ σ', IsSpan V p (n + t) x σ' ∧ ((σ' = σ ∧ σ + s ≤ k) ∨ (σ' = σ + t ∧ k ≤ σ)) := by
  obtain ⟨s1, s2, s3, s4, s5⟩ := hσ
  have hm := hi.mono
  have hkn := hi.kn
  have hpk := hi.pk
  have hsp := hi.sp
  have hend : V (n + t + 1) = U (n + 1) := by
    rw [hv.hi (n + t + 1) (by omega) (by omega)]
    congr 1; omega
  by_cases hA : σ < k ∨ (σ = k ∧ x < u)
  · refine ⟨σ, ?_, Or.inl ⟨rfl, ?_⟩⟩
    · rcases hA with h | ⟨h, hx⟩
      · refine ⟨s1, by omega, ?_, ?_, ?_⟩
        · rw [hv.lo σ (by omega), hv.lo (σ + 1) (by omega)]; exact s3
        · rw [hv.lo σ (by omega)]; exact s4
        · left
          rw [hv.lo (σ + 1) (by omega)]
          rcases s5 with h5 | ⟨h5, h6⟩
          · exact h5
          · exfalso
            have h7 := hm (σ + 1) k (by omega) (by omega)
            have h8 := hm (k + 1) (n + 1) (by omega) (by omega)
            have := hi.lo
            have := hi.hi
            rw [h6] at h7
            exact absurd (lt_of_le_of_lt (h7.trans hi.lo) (lt_of_lt_of_le hi.hi h8)) (lt_irrefl _)
      · subst h
        refine ⟨s1, by omega, ?_, ?_, ?_⟩
        · rw [hv.lo σ (by omega), hv.mid (σ + 1) (by omega) (by omega)]; exact lt_of_le_of_lt s4 hx
        · rw [hv.lo σ (by omega)]; exact s4
        · left
          rw [hv.mid (σ + 1) (by omega) (by omega)]; exact hx
    · by_contra hcon
      push Not at hcon
      rcases hA with h | ⟨h, hx⟩
      · have h1 := hi.eq σ hcon (by omega)
        have h2 := hi.eq (σ + 1) (by omega) (by omega)
        rw [h1, h2] at s3
        exact lt_irrefl _ s3
      · subst h
        have h1 := hi.eq σ hcon (by omega)
        rw [h1] at s4
        exact absurd hx (not_lt.mpr s4)
  · have hkσ : k ≤ σ := by omega
    have hxu : σ = k → u ≤ x := by
      intro h
      by_contra hcon
      exact hA (Or.inr ⟨h, not_le.mp hcon⟩)
    refine ⟨σ + t, ?_, Or.inr ⟨rfl, hkσ⟩⟩
    have e1 : V (σ + t + 1) = U (σ + 1) := by
      rw [hv.hi (σ + t + 1) (by omega) (by omega)]; congr 1; omega
    refine ⟨by omega, by omega, ?_, ?_, ?_⟩
    · rw [e1]
      by_cases h : σ = k
      · subst h
        rw [hv.mid (σ + t) (by omega) (by omega)]; exact hi.hi
      · rw [hv.hi (σ + t) (by omega) (by omega)]
        have : σ + t - t = σ := by omega
        rw [this]; exact s3
    · by_cases h : σ = k
      · subst h
        rw [hv.mid (σ + t) (by omega) (by omega)]; exact hxu rfl
      · rw [hv.hi (σ + t) (by omega) (by omega)]
        have : σ + t - t = σ := by omega
        rw [this]; exact s4
    · rw [e1, hend]; exact s5

/-- every new control point is a blossom value at its own knots -/
theorem insert_blossom (hi : InsertAt U p n k s u) (hv : InsKnots U V k t (n + p + 1) u) (ht : 1 ≤ t) (hst : s + t ≤ p + 1)
    (hq : InsPoints U P Q p n k s t u) {σ σ' : ℕ} (hU : Piece U p σ) (hσn : σ ≤ n)
    (hσ : (σ' = σ ∧ σ + s ≤ k) ∨ (σ' = σ + t ∧ k ≤ σ)) :
    ∀ j, σ' ≤ j + p → j ≤ σ' → Q j = E U p P (kn V (j + 1) p) (σ - p) := by
  intro j h1 h2
  have hm := hi.mono
  have hkn := hi.kn
  have hpk := hi.pk
  have hsp := hi.sp
  have hpσ := hU.le
  -- common last step
  have fin : ∀ (i l : ℕ), i ≤ p → σ ≤ l + p → l + i ≤ σ →
      (kn V (j + 1) p).Perm (List.replicate i u ++ kn U (l + i + 1) (p - i)) →
      Q j = E U p P (List.replicate i u) l → Q j = E U p P (kn V (j + 1) p) (σ - p) := by
    intro i l hip g1 g2 hperm hQ
    rw [hQ, E_full hU (p - i) (List.replicate i u) l (by simp; omega) g1 (by simpa using g2)]
    rw [List.length_replicate]
    exact (E_perm hU hperm (by omega) (by simp; omega)).symm
  by_cases c1 : j + p ≤ k
  · -- untouched on the left
    refine fin 0 j (by omega) (by omega) (by omega) ?_ (by simpa [E] using hq.lo j c1)
    simp only [List.replicate_zero, List.nil_append, Nat.sub_zero, add_zero]
    rw [kn_congr (U := V) (V := U) p (j + 1) (j + 1) (fun i hi' => hv.lo _ (by omega))]
  by_cases c2 : j + p ≤ k + t ∧ j + s ≤ k
  · -- left flank
    have hj : j = k - p + (j + p - k) := by omega
    refine fin (j + p - k) (k - p) (by omega) (by omega) (by omega) ?_ ?_
    · have e : p = (k - j) + (j + p - k) := by omega
      have e2 : p - (j + p - k) = k - j := by omega
      rw [e2, show kn V (j + 1) p = kn V (j + 1) ((k - j) + (j + p - k)) by rw [← e], kn_add]
      rw [kn_congr (U := V) (V := U) (k - j) (j + 1) (k - p + (j + p - k) + 1) (fun i hi' => by
        have : k - p + (j + p - k) + 1 = j + 1 := by omega
        rw [this]
        exact hv.lo _ (by omega))]
      rw [kn_const (j + p - k) (j + 1 + (k - j)) (fun i hi' => hv.mid _ (by omega) (by omega))]
      exact List.perm_append_comm
    · have := hq.left (j + p - k) (by omega) (by omega) (by omega)
      rw [← hj] at this; exact this
  by_cases c3 : t + s = p + 1 ∧ j + s = k + 1
  · have hj : j = k - s + 1 := by omega
    have hσk : σ = k := by omega
    refine fin (p - s) (k - p) (by omega) (by omega) (by omega) ?_ ?_
    · rw [kn_const (x := u) p (j + 1) (fun i hi' => by
        by_cases hik : j + 1 + i ≤ k
        · rw [hv.lo _ hik]; exact hi.eq _ (by omega) hik
        · exact hv.mid _ (by omega) (by omega))]
      have e2 : p - (p - s) = s := by omega
      rw [e2, kn_const (x := u) s _ (fun i hi' => hi.eq _ (by omega) (by omega)), ← List.replicate_add]
      have : p - s + s = p := by omega
      rw [this]
    · rw [hj]; exact hq.top c3.1
  by_cases c4 : j + s < k
  · -- middle
    have c4' : k + t < j + p := by omega
    refine fin t (j - t) (by omega) (by omega) (by omega) ?_ (hq.mid j c4' c4)
    have e : p = (k - j) + (t + (p - t - (k - j))) := by omega
    have e0 : j - t + t + 1 = j + 1 := by omega
    have e3 : p - t = (k - j) + (p - t - (k - j)) := by omega
    rw [e0, show kn V (j + 1) p = kn V (j + 1) ((k - j) + (t + (p - t - (k - j)))) by rw [← e],
      show kn U (j + 1) (p - t) = kn U (j + 1) ((k - j) + (p - t - (k - j))) by rw [← e3], kn_add, kn_add, kn_add]
    rw [kn_congr (U := V) (V := U) (k - j) (j + 1) (j + 1) (fun i hi' => hv.lo _ (by omega))]
    rw [kn_const (x := u) t (j + 1 + (k - j)) (fun i hi' => hv.mid _ (by omega) (by omega))]
    rw [kn_congr (U := V) (V := U) (p - t - (k - j)) (j + 1 + (k - j) + t) (j + 1 + (k - j)) (fun i hi' => by
      rw [hv.hi _ (by omega) (by omega)]
      congr 1; omega)]
    rw [← List.append_assoc, ← List.append_assoc]
    exact List.Perm.append_right _ List.perm_append_comm
  by_cases c5 : j + s < k + t
  · -- right flank
    have hj : j = k + t - (k + t - s - j) - s := by omega
    refine fin (k + t - s - j) (k - s - (k + t - s - j)) (by omega) (by omega) (by omega) ?_ ?_
    · have e : p = (k + t - s - j) + (p - (k + t - s - j)) := by omega
      rw [show kn V (j + 1) p = kn V (j + 1) ((k + t - s - j) + (p - (k + t - s - j))) by rw [← e], kn_add]
      rw [kn_const (x := u) (k + t - s - j) (j + 1) (fun i hi' => hv.mid' hi _ (by omega) (by omega))]
      rw [kn_congr (U := V) (V := U) (p - (k + t - s - j)) (j + 1 + (k + t - s - j))
        (k - s - (k + t - s - j) + (k + t - s - j) + 1) (fun i hi' => by
        rw [hv.hi' hi _ (by omega) (by omega)]
        congr 1; omega)]
    · have := hq.right (k + t - s - j) (by omega) (by omega) (by omega)
      rw [← hj] at this; exact this
  · -- untouched on the right
    refine fin 0 (j - t) (by omega) (by omega) (by omega) ?_ (by
      simpa [E] using hq.hi j (by omega) (by omega) (by omega))
    simp only [List.replicate_zero, List.nil_append, Nat.sub_zero, add_zero]
    rw [kn_congr (U := V) (V := U) p (j + 1) (j - t + 1) (fun i hi' => by
      rw [hv.hi' hi _ (by omega) (by omega)]
      congr 1; omega)]

/-- Boehm: the inserted curve is the same curve. -/
theorem insert_curve (hi : InsertAt U p n k s u) (hv : InsKnots U V k t (n + p + 1) u) (ht : 1 ≤ t) (hst : s + t ≤ p + 1)
    (hq : InsPoints U P Q p n k s t u) {x : K} {σ : ℕ} (hσ : IsSpan U p n x σ) :
    curvePoint V p (n + t) Q x = curvePoint U p n P x := by
  obtain ⟨σ', hσ', hrel⟩ := insert_span hi hv ht hσ
  have hV := hv.mono hi
  rw [curvePoint_span hi.mono (le_refl _) hσ, curvePoint_span hV (le_refl _) hσ']
  have hU : Piece U p σ := ⟨hσ.1, fun a b h1 h2 => hi.mono a b h1 (by have := hσ.2.1; omega), hσ.2.2.1⟩
  have hV' : Piece V p σ' := ⟨hσ'.1, fun a b h1 h2 => hV a b h1 (by have := hσ'.2.1; omega), hσ'.2.2.1⟩
  exact piece_eq hU hV' (insert_blossom hi hv ht hst hq hU hσ.2.1 hrel) x

end

end LNLib
