import Verif.Lemmas.ElevRemove

/-! # One round of degree elevation -/
set_option linter.unusedSectionVars false

namespace LNLib
open Res Spec Finset Multiset KnotShape

variable {K : Type} [Field K] [LinearOrder K] [IsStrictOrderedRing K]
variable {T : Type} [AddCommGroup T] [Module K T]
variable {U : List K} {P : List T} {p n q t N : ℕ}

/-- the new control point `i` has its final value -/
def ElevSettled (U : List K) (P : List T) (p n t : ℕ) (Q : List T) (i : ℕ) : Prop :=
  ∀ x, p ≤ x → x ≤ n → nth U x < nth U (x + 1) → i ≤ sig (nth U) p t x → sig (nth U) p t x ≤ i + (p + t) →
    nth Q i = G U P p x (kms (elevKnot (nth U) p n t) (i + 1) (p + t))

/-- the part of the state at the start of the round for the span `a` that `elevateEmit` works on -/
structure EmitPre (U : List K) (P : List T) (p n t N a ρ k0 cind kk : ℕ) (st : ElevateState K T) : Prop where
  ha : st.a = a
  pa : p ≤ a
  an : a ≤ n
  lt : nth U a < nth U (a + 1)
  ua : st.ua = nth U a
  cases : (a = p ∧ ρ = 0 ∧ st.r = -1 ∧ k0 = 1 ∧ kk = p + t + 1) ∨ (p < a ∧ st.r = ρ ∧ kk = k0 ∧ p + t < k0 ∧
    (∀ j < k0, elevKnot (nth U) p n t j < nth U a) ∧ ∀ e, e ≤ t → elevKnot (nth U) p n t (k0 - 1 - e) = elevKnot (nth U) p n t (k0 - 1))
  kind : st.kind = kk
  k0e : k0 + (p + t - ρ) = sig (nth U) p t a + 1
  ρp : ρ < p
  cst : st.cind = cind
  cinde : cind + (ρ + 1) / 2 = k0
  lenQ : st.Q.length = N + 1
  lenV : st.V.length = N + (p + t) + 2
  V1 : ∀ j < kk, nth st.V j = elevKnot (nth U) p n t j
  V0 : ∀ j, kk ≤ j → nth st.V j = 0
  W : ∀ j, k0 ≤ j → j ≤ sig (nth U) p t a → elevKnot (nth U) p n t j = nth U a
  set : ∀ i, i + 1 + ρ < k0 → ElevSettled U P p n t st.Q i
  left : ∀ d, d ≤ ρ → k0 ≤ cind + d → nth st.Q (k0 - 1 - d) = G U P p a (kms (elevKnot (nth U) p n t) (k0 - d) d + replicate (p + t - d) (nth U a))
  Q0 : ∀ i, cind ≤ i → nth st.Q i = 0

theorem elevateEmit_run (h : KnotShape U p n q) (ht : 0 < t) (h7 : p ≤ 7) {a ρ k0 cind kk rb l : ℕ} {st : ElevateState K T} {B : List (List K)} {bpts : List T}
    (hB : IsMat B (p + t + 1) (p + 1)) (hBv : ∀ i j, i ≤ p + t → j ≤ p → ent B i j = elevCoeff K p t i j)
    (hN : sig (nth U) p t n ≤ N) (hst : EmitPre U P p n t N a ρ k0 cind kk st) (hbez : IsBez U P p a bpts)
    (hl : l = ρ / 2 + 1) (hlr : l ≤ rb + 1) (hrb : rb ≤ p + t) :
    Runs (elevateEmit B (p : ℤ) (t : ℤ) (l : ℤ) (rb : ℤ) (nth U (a + 1)) bpts st) (fun r =>
      r.1.length = N + 1 ∧ r.2.1.length = N + (p + t) + 2 ∧ r.2.2.1 = ((sig (nth U) p t a + 1 : ℕ) : ℤ) ∧ r.2.2.2 = ((k0 + rb - ρ : ℕ) : ℤ) ∧
      (∀ j ≤ sig (nth U) p t a, nth r.2.1 j = elevKnot (nth U) p n t j) ∧ (∀ j, sig (nth U) p t a < j → nth r.2.1 j = 0) ∧
      (∀ i, i + 1 + ρ < k0 → ElevSettled U P p n t r.1 i) ∧
      (∀ i, k0 ≤ i + 1 + ρ → i < k0 + rb - ρ → nth r.1 i = G U P p a (kms (elevKnot (nth U) p n t) (i + 1) (sig (nth U) p t a - i) +
        replicate (p + t - (sig (nth U) p t a - i)) (nth U (a + 1)))) ∧
      (∀ i, k0 + rb - ρ ≤ i → nth r.1 i = 0)) := by
  obtain ⟨ha, hpa, han, hlt, hua, hcases, hkind, hk0e, hρp, hcind, hcinde, hlenQ, hlenV, hV1, hV0, hWa, hset, hleft, hQ0⟩ := hst
  have hσn := sig_le (U := nth U) (t := t) hpa han
  unfold elevateEmit
  dsimp only
  refine Runs.bind (elevatePiece_run hB hBv hbez.1 (by omega : l ≤ p + t) hbez.2) ?_
  rintro eb ⟨e1, e2⟩
  have hk0 : ρ < k0 := by omega
  have hkk : k0 ≤ kk := by omega
  have hrem := elevateRemove_run (f := G U P p a) (W := elevKnot (nth U) p n t) (k0 := k0) (cind := cind) (ph := p + t) (ρ := ρ) (l := l)
    (ua := nth U a) (ub := nth U (a + 1)) (V := st.V) (Q := st.Q) (eb := eb) (oldr := st.r) (h.G_polar hpa han hlt) (by omega) (by omega) (by omega)
    (by rcases hcases with ⟨_, h2, h3, _⟩ | ⟨_, h2, _⟩
        · exact Or.inr ⟨h3, h2⟩
        · exact Or.inl h2) hk0 (by omega) (fun _ j hj => hV1 j (by omega))
    (by intro h1
        rcases hcases with ⟨_, h2, _⟩ | ⟨_, _, _, _, h2, _⟩
        · omega
        · exact h2) hlt (by omega) (by omega) (by omega)
    (by intro h1 e he1 he2
        rcases hcases with ⟨_, h2, _⟩ | ⟨_, _, _, _, _, h2⟩
        · omega
        · exact h2 e (by omega)) e1 hleft e2 st.kind (by
        intro h1
        rcases hcases with ⟨_, h2, _⟩ | ⟨_, _, h2, _⟩
        · omega
        · rw [hkind, h2])
  rw [← hua, ← hcind] at hrem
  have ecast : ((p + t : ℕ) : ℤ) = (p : ℤ) + t := by push_cast; rfl
  rw [ecast] at hrem
  refine Runs.bind hrem ?_
  rintro ⟨Q1, eb1⟩ hrs
  dsimp only at hrs ⊢
  have hq1 := hrs.lenQ
  have he1 := hrs.lenE
  refine Runs.bind (Q := fun (r : List K × ℤ) => r.1.length = N + (p + t) + 2 ∧ r.2 = ((sig (nth U) p t a + 1 : ℕ) : ℤ) ∧
      (∀ j ≤ sig (nth U) p t a, nth r.1 j = elevKnot (nth U) p n t j) ∧ (∀ j, sig (nth U) p t a < j → nth r.1 j = 0)) ?_ ?_
  · rcases hcases with ⟨h1, h2, h3, h4, h5⟩ | ⟨h1, h2, h3, h4, _, _⟩
    · rw [if_neg (by omega)]
      have hσ := h.sig_first (t := t)
      rw [← h1] at hσ
      refine Runs.ok ⟨hlenV, ?_, ?_, ?_⟩
      · dsimp only; omega
      · intro j hj; exact hV1 j (by omega)
      · intro j hj; exact hV0 j (by omega)
    · rw [if_pos (by omega)]
      refine (Runs.forN (m := 0) (n := p + t - ρ) (fun k (r : List K × ℤ) => r.1.length = N + (p + t) + 2 ∧ r.2 = ((k0 + k : ℕ) : ℤ) ∧
        (∀ j < k0 + k, nth r.1 j = elevKnot (nth U) p n t j) ∧ (∀ j, k0 + k ≤ j → nth r.1 j = 0)) rfl (by omega) (by omega)
        ⟨hlenV, by dsimp only; omega, fun j hj => hV1 j (by omega), fun j hj => hV0 j (by omega)⟩ ?_).mono ?_
      · rintro k ⟨V', kd⟩ _ hk ⟨v1, v2, v3, v4⟩
        dsimp only at v1 v2 v3 v4 ⊢
        rw [v2, vset_of (k := k0 + k) rfl (by omega), ok_bind]
        refine Runs.ok ⟨by simpa using v1, by dsimp only; push_cast; ring, ?_, ?_⟩
        · intro j hj
          dsimp only
          rw [nth_set (by omega)]
          by_cases hjk : j = k0 + k
          · rw [if_pos hjk, hua, hWa j (by omega) (by omega)]
          · rw [if_neg hjk, v3 j (by omega)]
        · intro j hj
          dsimp only
          rw [nth_set (by omega), if_neg (by omega), v4 j (by omega)]
      · rintro ⟨V', kd⟩ ⟨v1, v2, v3, v4⟩
        dsimp only at v1 v2 v3 v4 ⊢
        exact ⟨v1, by rw [v2]; congr 1, fun j hj => v3 j (by omega), fun j hj => v4 j (by omega)⟩
  · rintro ⟨V', kd⟩ ⟨v1, v2, v3, v4⟩
    dsimp only at v1 v2 v3 v4 ⊢
    have hσN : sig (nth U) p t a ≤ N := by omega
    refine Runs.bind (Q := fun (r : List T × ℤ) => r.1.length = N + 1 ∧ r.2 = ((k0 + rb - ρ : ℕ) : ℤ) ∧
      ∀ i, nth r.1 i = if cind ≤ i ∧ i < k0 + rb - ρ then nth eb1 (i + 1 + ρ - k0) else nth Q1 i) ?_ ?_
    · refine (Runs.forN (m := l) (n := rb + 1) (fun k (r : List T × ℤ) => r.1.length = N + 1 ∧ r.2 = ((cind + (k - l) : ℕ) : ℤ) ∧
        ∀ i, nth r.1 i = if cind ≤ i ∧ i < cind + (k - l) then nth eb1 (i + 1 + ρ - k0) else nth Q1 i) rfl (by push_cast; ring) hlr
        ⟨by dsimp only; omega, by dsimp only; rw [hcind]; simp, fun i => by rw [if_neg (by omega)]⟩ ?_).mono ?_
      · rintro k ⟨Q', cd⟩ hk1 hk2 ⟨w1, w2, w3⟩
        dsimp only at w1 w2 w3 ⊢
        rw [vget_nth (k := k) rfl (by omega), ok_bind, w2, vset_of (k := cind + (k - l)) rfl (by omega), ok_bind]
        refine Runs.ok ⟨by simpa using w1, by dsimp only; omega, ?_⟩
        intro i
        dsimp only
        rw [nth_set (by omega)]
        by_cases hi : i = cind + (k - l)
        · rw [if_pos hi, if_pos (by omega)]
          congr 1
          omega
        · rw [if_neg hi, w3 i]
          by_cases hi2 : cind ≤ i ∧ i < cind + (k - l)
          · rw [if_pos hi2, if_pos (by omega)]
          · rw [if_neg hi2, if_neg (by omega)]
      · rintro ⟨Q', cd⟩ ⟨w1, w2, w3⟩
        dsimp only at w1 w2 w3 ⊢
        have e : cind + (rb + 1 - l) = k0 + rb - ρ := by omega
        rw [e] at w2 w3
        exact ⟨w1, w2, w3⟩
    · rintro ⟨Q2, cd⟩ ⟨w1, w2, w3⟩
      dsimp only at w1 w2 w3 ⊢
      refine Runs.ok ⟨w1, v1, v2, w2, v3, v4, ?_, ?_, ?_⟩
      · intro i hi x x1 x2 x3 x4 x5
        dsimp only
        rw [w3 i, if_neg (by omega), hrs.frame i (Or.inl (by omega))]
        exact hset i hi x x1 x2 x3 x4 x5
      · intro i hi1 hi2
        dsimp only
        rw [w3 i]
        by_cases hic : i < cind
        · rw [if_neg (by omega)]
          have := hrs.left (k0 - 1 - i) (by omega) (by omega)
          rw [show k0 - 1 - (k0 - 1 - i) = i by omega, hua] at this
          rw [this]
          congr 1
          have e : sig (nth U) p t a - i = (k0 - 1 - i) + (p + t - ρ) := by omega
          rw [e, kms_add, kms_const (a := i + 1 + (k0 - 1 - i)) (x := nth U a)]
          · have f1 : k0 - (k0 - 1 - i) = i + 1 := by omega
            have f2 : p + t - (k0 - 1 - i) - (ρ - (k0 - 1 - i)) = p + t - ρ := by omega
            have f3 : p + t - (k0 - 1 - i + (p + t - ρ)) = ρ - (k0 - 1 - i) := by omega
            rw [f1, f2, f3]
          · intro k hk
            exact hWa _ (by omega) (by omega)
        · rw [if_pos (by omega), hrs.right _ (by omega) (by omega), hua]
          congr 1
          by_cases hkr : i + 1 ≤ k0
          · have e : sig (nth U) p t a - i = (k0 - (i + 1)) + (p + t - ρ) := by omega
            rw [e, kms_add, kms_const (a := i + 1 + (k0 - (i + 1))) (x := nth U a)]
            · have e3 : ρ - (i + 1 + ρ - k0) = k0 - (i + 1) := by omega
              have f1 : k0 - (k0 - (i + 1)) = i + 1 := by omega
              have f2 : p + t - (i + 1 + ρ - k0) - (k0 - (i + 1)) = p + t - ρ := by omega
              have f3 : p + t - (k0 - (i + 1) + (p + t - ρ)) = i + 1 + ρ - k0 := by omega
              rw [e3, f1, f2, f3]
            · intro k hk
              exact hWa _ (by omega) (by omega)
          · have e : ρ - (i + 1 + ρ - k0) = 0 := by omega
            rw [e, kms_zero, zero_add, kms_const (a := i + 1) (x := nth U a)]
            · congr 2
              · omega
              · omega
            · intro k hk
              exact hWa _ (by omega) (by omega)
      · intro i hi
        dsimp only
        rw [w3 i, if_neg (by omega)]
        rw [hrs.frame i (Or.inr (by omega))]
        exact hQ0 i (by omega)

end LNLib
