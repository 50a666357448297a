import Verif.Lemmas.InsertKnotRun
import Verif.Model.SurfaceInsert

/-! # `NurbsSurface::InsertKnot` performs Boehm's algorithm on every fibre -/
set_option linter.unusedSectionVars false

namespace LNLib
open Res Spec Finset

variable {K : Type} [Field K] [LinearOrder K] [IsStrictOrderedRing K]
variable {T : Type} [AddCommGroup T] [Module K T]

/-- one row or one column of a table, seen through `write` -/
structure FibreView (write : List (List T) → ℤ → T → Res (List (List T))) (Valid : List (List T) → Prop) (get : List (List T) → ℕ → T) (N : ℕ) : Prop where
  step : ∀ M (i : ℕ) x, Valid M → i < N → ∃ M', write M (i : ℤ) x = ok M' ∧ Valid M' ∧ ∀ j, get M' j = if j = i then x else get M j

section
variable {write : List (List T) → ℤ → T → Res (List (List T))} {Valid : List (List T) → Prop} {get : List (List T) → ℕ → T} {N : ℕ}

theorem FibreView.fill (hv : FibreView write Valid get N) {a b e : ℤ} {M : List (List T)} {rd : ℤ → Res T} {f : ℕ → T} {dst : ℤ → ℤ}
    (hd : ∀ i, dst i = i + e) (h0 : 0 ≤ a + e) (hb : b + e ≤ N) (hab : a ≤ b) (hM : Valid M) (hrd : ∀ i, a ≤ i → i < b → rd i = Res.ok (f (i + e).toNat)) :
    Runs (forI a b M fun i M => rd i >>= fun x => write M (dst i) x)
      (fun r => Valid r ∧ ∀ m : ℕ, get r m = if a + e ≤ (m : ℤ) ∧ (m : ℤ) < b + e then f m else get M m) := by
  refine Runs.forI (fun j r => Valid r ∧ ∀ m : ℕ, get r m = if a + e ≤ (m : ℤ) ∧ (m : ℤ) < j + e then f m else get M m) hab ?_ ?_
  · exact ⟨hM, fun m => by rw [if_neg (by omega)]⟩
  · rintro i r h1 h2 ⟨hr, hg⟩
    obtain ⟨M', e1, e2, e3⟩ := hv.step r (i + e).toNat (f (i + e).toNat) hr (by omega)
    rw [show (((i + e).toNat : ℕ) : ℤ) = i + e by omega] at e1
    rw [hrd i h1 h2, ok_bind, hd i, e1]
    refine Runs.ok ⟨e2, fun m => ?_⟩
    rw [e3 m]
    by_cases hm : m = (i + e).toNat
    · subst hm; rw [if_pos rfl, if_pos (by omega)]
    · rw [if_neg hm, hg m]
      by_cases hc : a + e ≤ (m : ℤ) ∧ (m : ℤ) < i + e
      · rw [if_pos hc, if_pos (by omega)]
      · rw [if_neg hc, if_neg (by omega)]

/-- the knot vector loops -/
theorem insertedKnots_run {U : List K} {p n k s t : ℕ} {u : K} (hi : InsertAt (nth U) p n k s u) (hU : U.length = n + p + 2) :
    Runs (insertedKnots (k : ℤ) (t : ℤ) U u) (fun V => V.length = n + t + p + 2 ∧ InsKnots (nth U) (nth V) k t (n + p + 1) u) := by
  have hkn := hi.kn
  unfold insertedKnots
  rw [if_neg (by omega)]
  refine Runs.bind (Runs.fill (e := 0) (f := nth U) (dst := fun i => i) (rd := fun i => vget U i)
    (by intro i; omega) (by omega) (by simp; omega) (by omega) (fun i h1 h2 => vget_nth (by omega) (by omega))) ?_
  rintro V1 ⟨hV1l, hV1⟩
  simp only [List.length_replicate] at hV1l
  refine Runs.bind (Runs.fill (arr := V1) (e := (k : ℤ)) (f := fun _ => u) (dst := fun i => (k : ℤ) + i) (rd := fun i => ok u)
    (by intro i; omega) (by omega) (by omega) (by omega) (fun i h1 h2 => rfl)) ?_
  rintro V2 ⟨hV2l, hV2⟩
  refine (Runs.fill (arr := V2) (e := (t : ℤ)) (f := fun m => nth U (m - t)) (dst := fun i => i + (t : ℤ))
    (rd := fun i => vget U i) (by intro i; omega) (by omega) (by omega) (by omega) (fun i h1 h2 => vget_nth (by omega) (by omega))).mono ?_
  rintro V3 ⟨hV3l, hV3⟩
  refine ⟨by omega, ?_, ?_, ?_⟩
  · intro i hik
    rw [hV3, if_neg (by omega), hV2, if_neg (by omega), hV1, if_pos (by omega)]
  · intro i h1 h2
    rw [hV3, if_neg (by omega), hV2, if_pos (by omega)]
  · intro i h1 h2
    rw [hV3, if_pos (by omega)]

/-- the table of ratios -/
theorem insertAlpha_run {U : List K} {p n k s t : ℕ} {u : K} (hi : InsertAt (nth U) p n k s u) (hU : U.length = n + p + 2) (hst : s + t ≤ p) :
    Runs (insertAlpha (p : ℤ) (k : ℤ) (s : ℤ) (t : ℤ) U u) (fun A => IsMat A (p - s) (t + 1) ∧ ∀ j, 1 ≤ j → j ≤ t → ∀ i, i + j + s ≤ p →
      ent A i j = (u - nth U (k - p + j + i)) / (nth U (k - p + i + p + 1) - nth U (k - p + j + i))) := by
  have hkn := hi.kn
  have hpk := hi.pk
  unfold insertAlpha
  rw [if_neg (by omega), show ((p : ℤ) - s).toNat = p - s by omega, show ((t : ℤ) + 1).toNat = t + 1 by omega]
  refine (Runs.forN (m := 1) (n := t + 1) (fun J A => IsMat A (p - s) (t + 1) ∧ ∀ j, 1 ≤ j → j < J → ∀ i, i + j + s ≤ p →
      ent A i j = (u - nth U (k - p + j + i)) / (nth U (k - p + i + p + 1) - nth U (k - p + j + i))) (by simp) (by push_cast; ring) (by omega)
    ⟨isMat_replicate, fun j h1 h2 => by omega⟩ ?_).mono (fun A h => ⟨h.1, fun j h1 h2 => h.2 j h1 (by omega)⟩)
  rintro J A hJ1 hJ2 ⟨hA, hv⟩
  refine (Runs.forN (m := 0) (n := p - J - s + 1) (fun I A => IsMat A (p - s) (t + 1) ∧ (∀ j, 1 ≤ j → j < J → ∀ i, i + j + s ≤ p →
      ent A i j = (u - nth U (k - p + j + i)) / (nth U (k - p + i + p + 1) - nth U (k - p + j + i))) ∧ ∀ i, i < I →
      ent A i J = (u - nth U (k - p + J + i)) / (nth U (k - p + i + p + 1) - nth U (k - p + J + i))) (by simp) (by omega) (by omega) ⟨hA, hv, by omega⟩ ?_).mono ?_
  · rintro i A' - h2 ⟨hA', hv', hw⟩
    have e1 : vget U ((k : ℤ) - p + J + i) = ok (nth U (k - p + J + i)) := vget_nth (by omega) (by omega)
    have e2 : vget U ((i : ℤ) + k + 1) = ok (nth U (k - p + i + p + 1)) := vget_nth (by omega) (by omega)
    have hlt : nth U (k - p + J + i) < nth U (k - p + i + p + 1) := by
      have g1 := hi.mono (k - p + J + i) k (by omega) (by omega)
      have g2 := hi.mono (k + 1) (k - p + i + p + 1) (by omega) (by omega)
      exact lt_of_le_of_lt (g1.trans hi.lo) (lt_of_lt_of_le hi.hi g2)
    rw [e1, ok_bind, e2, ok_bind, ok_bind, fdiv_ok (sub_ne_zero.mpr hlt.ne'), ok_bind]
    obtain ⟨A2, f1, f2, f3⟩ := mset_ok (x := (u - nth U (k - p + J + i)) / (nth U (k - p + i + p + 1) - nth U (k - p + J + i))) hA' (i := (i : ℤ)) (j := (J : ℤ)) rfl rfl (by omega) (by omega)
    rw [f1]
    refine Runs.ok ⟨f2, ?_, ?_⟩
    · intro j h3 h4 i' h5
      rw [f3, if_neg (by omega), hv' j h3 h4 i' h5]
    · intro i' hi'
      rw [f3]
      by_cases h : i' = i
      · rw [if_pos ⟨h, rfl⟩, h]
      · rw [if_neg (by omega), hw i' (by omega)]
  · rintro A' ⟨a1, a2, a3⟩
    refine ⟨a1, ?_⟩
    intro j h1 h2 i h3
    by_cases h : j = J
    · subst h; exact a3 i (by omega)
    · exact a2 j h1 (by omega) i h3

/-- invariant of the main loop of one fibre after `m` stages -/
structure InsInvF (U : ℕ → K) (P : ℕ → T) (p n k s t : ℕ) (u : K) (m : ℕ) (Q : ℕ → T) (temp : List T) : Prop where
  lent : temp.length = p + 1
  temp : ∀ i, i + m + s ≤ p → nth temp i = E U p P (List.replicate m u) (k - p + i)
  lo : ∀ j, j + p ≤ k → Q j = P j
  left : ∀ i, 1 ≤ i → i ≤ m → Q (k - p + i) = E U p P (List.replicate i u) (k - p)
  right : ∀ i, 1 ≤ i → i ≤ m → Q (k + t - i - s) = E U p P (List.replicate i u) (k - s - i)
  hi : ∀ j, k + t ≤ j + s → j ≤ n + t → Q j = P (j - t)

theorem insertFibre_run (hv : FibreView write Valid get (n + 1 + t)) {U : List K} {p k s : ℕ} {u : K} {A : List (List K)} {P : ℕ → T} {rd : ℤ → Res T}
    (hi : InsertAt (nth U) p n k s u) (hU : U.length = n + p + 2) (ht1 : 1 ≤ t) (hst : s + t ≤ p) (hA : IsMat A (p - s) (t + 1))
    (ha : ∀ j, 1 ≤ j → j ≤ t → ∀ i, i + j + s ≤ p → ent A i j = (u - nth U (k - p + j + i)) / (nth U (k - p + i + p + 1) - nth U (k - p + j + i)))
    (hr : ∀ i : ℕ, i ≤ n → rd (i : ℤ) = ok (P i)) {M : List (List T)} {temp : List T} (hM : Valid M) (htl : temp.length = p + 1) :
    Runs (insertFibre (p : ℤ) (k : ℤ) (s : ℤ) (t : ℤ) A ((n : ℤ) + 1) rd write (M, temp)) (fun st => Valid st.1 ∧ st.2.length = p + 1 ∧
      InsPoints (nth U) P (get st.1) p n k s t u) := by
  have hkn := hi.kn
  have hpk := hi.pk
  have hsp := hi.sp
  have hr' : ∀ i : ℤ, 0 ≤ i → i ≤ n → rd i = ok (P i.toNat) := by
    intro i h0 h1
    have := hr i.toNat (by omega)
    rwa [show ((i.toNat : ℕ) : ℤ) = i by omega] at this
  unfold insertFibre
  dsimp only
  refine Runs.bind (hv.fill (e := 0) (f := P) (dst := fun i => i) (rd := rd) (by intro i; omega) (by omega) (by push_cast; omega) (by omega) hM
    (fun i h1 h2 => by rw [hr' i (by omega) (by omega)]; congr 2; omega)) ?_
  rintro Q1 ⟨hQ1v, hQ1⟩
  refine Runs.bind (hv.fill (e := (t : ℤ)) (f := fun m => P (m - t)) (dst := fun i => i + (t : ℤ)) (rd := rd) (by intro i; omega) (by omega) (by push_cast; omega) (by omega) hQ1v
    (fun i h1 h2 => by rw [hr' i (by omega) (by omega)]; congr 2; omega)) ?_
  rintro Q2 ⟨hQ2v, hQ2⟩
  refine Runs.bind (Runs.fill (e := 0) (f := fun m => P (k - p + m)) (dst := fun i => i) (rd := fun i => rd ((k : ℤ) - p + i))
    (by intro i; omega) (by omega) (by omega) (by omega) (fun i h1 h2 => by rw [hr' _ (by omega) (by omega)]; congr 2; omega)) ?_
  rintro temp0 ⟨htl0, htemp⟩
  refine Runs.bind (Q := fun st => Valid st.1 ∧ InsInvF (nth U) P p n k s t u t (get st.1) st.2.1 ∧ st.2.2 = (k : ℤ) - p + t) ?_ ?_
  · refine (Runs.forN (m := 1) (n := t + 1) (fun j st => Valid st.1 ∧ InsInvF (nth U) P p n k s t u (j - 1) (get st.1) st.2.1 ∧
      (1 < j → st.2.2 = (k : ℤ) - p + (j - 1 : ℕ))) (by simp) (by push_cast; ring) (by omega) ?_ ?_).mono ?_
    · refine ⟨hQ2v, ⟨by dsimp only; omega, ?_, ?_, ?_, ?_, ?_⟩, by omega⟩
      · intro i h
        simp only [Nat.sub_self, List.replicate_zero, E]
        rw [htemp, if_pos (by omega)]
      · intro j hj
        rw [hQ2, if_neg (by omega), hQ1, if_pos (by omega)]
      · intro i h1 h2; omega
      · intro i h1 h2; omega
      · intro j h1 h2
        rw [hQ2, if_pos (by omega)]
    · rintro j ⟨Q, temp, L⟩ hj1 hj2 ⟨hQ, inv, -⟩
      obtain ⟨m, rfl⟩ : ∃ m, j = m + 1 := ⟨j - 1, by omega⟩
      have em1 : m + 1 - 1 = m := by omega
      have em2 : m + 1 + 1 - 1 = m + 1 := by omega
      rw [em1] at inv
      rw [em2]
      dsimp only at inv hQ ⊢
      refine Runs.bind (Q := fun r => r.length = p + 1 ∧ ∀ i, i + (m + 1) + s ≤ p → nth r i = E (nth U) p P (List.replicate (m + 1) u) (k - p + i)) ?_ ?_
      · refine (Runs.forN (m := 0) (n := p - (m + 1) - s + 1) (fun j r => r.length = p + 1 ∧
            (∀ i, i < j → nth r i = E (nth U) p P (List.replicate (m + 1) u) (k - p + i)) ∧
            (∀ i, j ≤ i → i + m + s ≤ p → nth r i = E (nth U) p P (List.replicate m u) (k - p + i)))
          (by simp) (by omega) (by omega) ⟨inv.lent, fun i hi' => by omega, fun i _ h => inv.temp i h⟩ ?_).mono ?_
        · rintro i r _ h2 ⟨hr, h3, h4⟩
          have hlt : nth U (k - p + (m + 1) + i) < nth U (k - p + i + p + 1) := by
            have g1 := hi.mono (k - p + (m + 1) + i) k (by omega) (by omega)
            have g2 := hi.mono (k + 1) (k - p + i + p + 1) (by omega) (by omega)
            exact lt_of_le_of_lt (g1.trans hi.lo) (lt_of_lt_of_le hi.hi g2)
          have hne : nth U (k - p + i + p + 1) - nth U (k - p + (m + 1) + i) ≠ 0 := sub_ne_zero.mpr hlt.ne'
          rw [mget_ent hA rfl rfl (by omega) (by omega), ok_bind, ha (m + 1) (by omega) (by omega) i (by omega),
            vget_nth (k := i + 1) (by omega) (by omega), ok_bind, vget_nth (k := i) rfl (by omega), ok_bind, vset_of rfl (by omega)]
          refine Runs.ok ⟨by simp [hr], ?_, ?_⟩
          · intro j hj
            rw [nth_set (by omega)]
            by_cases hji : j = i
            · subst hji
              rw [if_pos rfl, h4 j (le_refl _) (by omega), h4 (j + 1) (by omega) (by omega)]
              simp only [List.replicate_succ, E, List.length_replicate]
              have e5 : k - p + j + m + 1 = k - p + (m + 1) + j := by omega
              have e6 : k - p + (j + 1) = k - p + j + 1 := by omega
              rw [e5, e6, add_comm]
              congr 2
              field_simp
              ring
            · rw [if_neg hji]; exact h3 j (by omega)
          · intro j hj hj2
            rw [nth_set (by omega), if_neg (by omega)]
            exact h4 j (by omega) hj2
        · rintro r ⟨h1, h2, -⟩
          exact ⟨h1, fun i hi' => h2 i (by omega)⟩
      · rintro temp' ⟨hl', ht'⟩
        rw [vget_nth (k := 0) (by simp) (by omega), ok_bind]
        obtain ⟨M1, e1, v1, g1⟩ := hv.step Q (k - p + (m + 1)) (nth temp' 0) hQ (by omega)
        rw [show (k : ℤ) - p + ((m + 1 : ℕ) : ℤ) = ((k - p + (m + 1) : ℕ) : ℤ) by omega, e1, ok_bind,
          vget_nth (k := p - (m + 1) - s) (by omega) (by omega), ok_bind]
        obtain ⟨M2, e2, v2, g2⟩ := hv.step M1 (k + t - (m + 1) - s) (nth temp' (p - (m + 1) - s)) v1 (by omega)
        rw [show (k : ℤ) + t - ((m + 1 : ℕ) : ℤ) - s = ((k + t - (m + 1) - s : ℕ) : ℤ) by omega, e2, ok_bind]
        refine Runs.ok ⟨v2, ⟨hl', ht', ?_, ?_, ?_, ?_⟩, fun _ => by dsimp only⟩
        · intro j hj
          dsimp only
          rw [g2, if_neg (by omega), g1, if_neg (by omega), inv.lo j hj]
        · intro i h1 h2
          dsimp only
          by_cases hc : i = m + 1
          · subst hc
            rw [g2]
            by_cases hs : k - p + (m + 1) = k + t - (m + 1) - s
            · rw [if_pos hs, ht' _ (by omega)]
              congr 1; omega
            · rw [if_neg hs, g1, if_pos rfl, ht' 0 (by omega)]
              rfl
          · rw [g2, if_neg (by omega), g1, if_neg (by omega), inv.left i h1 (by omega)]
        · intro i h1 h2
          dsimp only
          by_cases hc : i = m + 1
          · subst hc
            rw [g2, if_pos rfl, ht' _ (by omega)]
            congr 1; omega
          · rw [g2, if_neg (by omega), g1, if_neg (by omega), inv.right i h1 (by omega)]
        · intro j h1 h2
          dsimp only
          rw [g2, if_neg (by omega), g1, if_neg (by omega), inv.hi j h1 h2]
    · rintro ⟨Q, temp, L⟩ ⟨hQ, inv, hL⟩
      exact ⟨hQ, inv, hL (by omega)⟩
  · rintro ⟨Q, temp, L⟩ ⟨hQ, inv, hL⟩
    dsimp only at hQ inv hL ⊢
    subst hL
    refine Runs.bind (Q := fun Q' => Valid Q' ∧
      ∀ m, get Q' m = if k + t < m + p ∧ m + s < k then E (nth U) p P (List.replicate t u) (m - t) else get Q m) ?_ ?_
    · by_cases hc : t + s < p
      · refine (hv.fill (e := 0) (f := fun m => E (nth U) p P (List.replicate t u) (m - t))
          (dst := fun i => i) (rd := fun i => vget temp (i - ((k : ℤ) - p + t)))
          (by intro i; omega) (by omega) (by push_cast; omega) (by omega) hQ ?_).mono ?_
        · intro i h1 h2
          have e := inv.temp (i - ((k : ℤ) - p + t)).toNat (by omega)
          rw [vget_nth (k := (i - ((k : ℤ) - p + t)).toNat) (by omega) (by rw [inv.lent]; omega), e]
          congr 2; omega
        · rintro Q' ⟨g1, g2⟩
          refine ⟨g1, ?_⟩
          intro m
          rw [g2 m]
          by_cases hm : k + t < m + p ∧ m + s < k
          · rw [if_pos hm, if_pos (by omega)]
          · rw [if_neg hm, if_neg (by omega)]
      · rw [forI_empty (by omega)]
        refine Runs.ok ⟨hQ, ?_⟩
        intro m
        rw [if_neg (by omega)]
    · rintro Q' ⟨g1, g2⟩
      refine Runs.ok ⟨g1, inv.lent, ?_, ?_, ?_, ?_, ?_, ?_⟩
      · intro j hj
        dsimp only
        rw [g2, if_neg (by omega)]; exact inv.lo j hj
      · intro i h1 h2 h3
        dsimp only
        rw [g2, if_neg (by omega)]; exact inv.left i h1 h2
      · intro h; omega
      · intro j h1 h2
        dsimp only
        rw [g2, if_pos ⟨h1, h2⟩]
      · intro i h1 h2 h3
        dsimp only
        rw [g2, if_neg (by omega)]; exact inv.right i h1 h2
      · intro j h1 h2 h3
        dsimp only
        rw [g2, if_neg (by omega)]; exact inv.hi j h1 h2

end

end LNLib
