import Verif.Lemmas.KnotInsertion
import Verif.Model.CurveOps

/-! # `InsertKnot` computes Boehm's algorithm -/
set_option linter.unusedSectionVars false

namespace LNLib
open Res Spec Finset

variable {K : Type} [Field K] [LinearOrder K] [IsStrictOrderedRing K]
variable {T : Type} [AddCommGroup T] [Module K T]

/-- one row of the de Boor triangle, computed in place -/
theorem deBoorRow {U : List K} {P : ℕ → T} {p n k s m : ℕ} {u : K} {temp : List T} {L : ℤ}
    (hi : InsertAt (nth U) p n k s u) (hU : U.length = n + p + 2) (hm : m + 1 + s ≤ p)
    (hL : L = (k : ℤ) - p + (m + 1)) (hl : temp.length = p - s + 1)
    (ht : ∀ i, i + m + s ≤ p → nth temp i = E (nth U) p P (List.replicate m u) (k - p + i)) :
    Runs (forI 0 ((p : ℤ) - ((m : ℤ) + 1) - s + 1) temp fun i temp => do
        let ul ← vget U (L + i)
        let ur ← vget U (i + k + 1)
        let alpha ← fdiv (u - ul) (ur - ul)
        let b ← vget temp (i + 1)
        let a ← vget temp i
        vset temp i (alpha • b + (1 - alpha) • a))
      (fun r => r.length = p - s + 1 ∧
        ∀ i, i + (m + 1) + s ≤ p → nth r i = E (nth U) p P (List.replicate (m + 1) u) (k - p + i)) := by
  have hkn := hi.kn
  have hpk := hi.pk
  refine (Runs.forN (m := 0) (n := p - (m + 1) - s + 1) (fun j r => r.length = p - s + 1 ∧
      (∀ i, i < j → nth r i = E (nth U) p P (List.replicate (m + 1) u) (k - p + i)) ∧
      (∀ i, j ≤ i → i + m + s ≤ p → nth r i = E (nth U) p P (List.replicate m u) (k - p + i)))
    (by simp) (by omega) (by omega) ⟨hl, fun i hi' => by omega, fun i _ h => ht i h⟩ ?_).mono ?_
  · rintro i r _ h2 ⟨hr, h3, h4⟩
    have e1 : vget U (L + i) = ok (nth U (k - p + m + 1 + i)) := vget_nth (by omega) (by omega)
    have e2 : vget U ((i : ℤ) + k + 1) = ok (nth U (k - p + i + p + 1)) := vget_nth (by omega) (by omega)
    have e3 : vget r ((i : ℤ) + 1) = ok (nth r (i + 1)) := vget_nth (by omega) (by omega)
    have e4 : vget r (i : ℤ) = ok (nth r i) := vget_nth rfl (by omega)
    have hlt : nth U (k - p + m + 1 + i) < nth U (k - p + i + p + 1) := by
      have g1 := hi.mono (k - p + m + 1 + i) k (by omega) (by omega)
      have g2 := hi.mono (k + 1) (k - p + i + p + 1) (by omega) (by omega)
      exact lt_of_le_of_lt (g1.trans hi.lo) (lt_of_lt_of_le hi.hi g2)
    have hne : nth U (k - p + i + p + 1) - nth U (k - p + m + 1 + i) ≠ 0 := sub_ne_zero.mpr hlt.ne'
    rw [e1, ok_bind, e2, ok_bind, fdiv_ok hne, ok_bind, e3, ok_bind, e4, ok_bind, vset_of rfl (by omega)]
    refine Runs.ok ⟨by simp [hr], ?_, ?_⟩
    · intro j hj
      rw [nth_set (by omega)]
      by_cases hji : j = i
      · subst hji
        rw [if_pos rfl, h4 j (le_refl _) (by omega), h4 (j + 1) (by omega) (by omega)]
        simp only [List.replicate_succ, E, List.length_replicate]
        have e5 : k - p + j + m + 1 = k - p + m + 1 + j := by omega
        have e6 : k - p + (j + 1) = k - p + j + 1 := by omega
        rw [e5, e6, add_comm]
        congr 2
        field_simp
        ring
      · rw [if_neg hji]; exact h3 j (by omega)
    · intro j hj hj2
      rw [nth_set (by omega), if_neg (by omega)]
      exact h4 j (by omega) hj2
  · rintro r ⟨h1, h2, _⟩
    exact ⟨h1, fun i hi' => h2 i (by omega)⟩

/-- invariant of the main loop after `m` stages -/
structure InsInv (U : ℕ → K) (P : ℕ → T) (p n k s t : ℕ) (u : K) (m : ℕ) (Q temp : List T) : Prop where
  lenQ : Q.length = n + 1 + t
  lent : temp.length = p - s + 1
  temp : ∀ i, i + min m (p - s) + s ≤ p → nth temp i = E U p P (List.replicate (min m (p - s)) u) (k - p + i)
  lo : ∀ j, j + p ≤ k → nth Q j = P j
  left : ∀ i, 1 ≤ i → i ≤ m → i + s ≤ p → nth Q (k - p + i) = E U p P (List.replicate i u) (k - p)
  top : m + s = p + 1 → nth Q (k - s + 1) = E U p P (List.replicate (p - s) u) (k - p)
  right : ∀ i, 1 ≤ i → i ≤ m → i + s < p → nth Q (k + t - i - s) = E U p P (List.replicate i u) (k - s - i)
  hi : ∀ j, k + t ≤ j + s → j ≤ n + t → (t + s = p + 1 → j + s ≠ k + 1) → nth Q j = P (j - t)

theorem insertKnot_run {c : BsplineCurve K T} {p n k s t : ℕ} {u : K} {r : ℤ} {res : BsplineCurve K T}
    (w : WellFormed c p n)
    (hk : getKnotSpanIndex c.degree c.knots u = ok (k : ℤ)) (hs : getKnotMultiplicity c.knots u = ok (s : ℤ))
    (hi : InsertAt (nth c.knots) p n k s u) (hr : 0 < r)
    (ht : (if (s : ℤ) + r > p + 1 then (p : ℤ) - 1 - s else r) = t) (ht1 : 1 ≤ t) (hst : s + t ≤ p + 1) :
    Runs (insertKnot c u r res) (fun o => o.1 = t ∧ o.2.degree = p ∧ o.2.knots.length = n + t + p + 2 ∧
      o.2.cps.length = n + t + 1 ∧ InsKnots (nth c.knots) (nth o.2.knots) k t (n + p + 1) u ∧
      InsPoints (nth c.knots) (nth c.cps) (nth o.2.cps) p n k s t u) := by
  have hkn := hi.kn
  have hpk := hi.pk
  have hsp := hi.sp
  have hU := w.knots
  have hP := w.cps
  unfold insertKnot
  rw [w.degree] at hk
  simp only [hr, decide_true, validate_true, ok_bind, w.degree, hk, hs, ht]
  rw [if_neg (by omega)]
  -- the knot vector
  refine Runs.bind (Runs.fill (e := 0) (f := nth c.knots) (dst := fun i => i) (rd := fun i => vget c.knots i)
    (by intro i; omega) (by omega) (by simp; omega) (by omega)
    (fun i h1 h2 => vget_nth (by omega) (by omega))) ?_
  rintro V1 ⟨hV1l, hV1⟩
  simp only [List.length_replicate] at hV1l
  refine Runs.bind (Runs.fill (arr := V1) (e := (k : ℤ)) (f := fun _ => u) (dst := fun i => (k : ℤ) + i) (rd := fun i => ok u)
    (by intro i; omega) (by omega) (by omega) (by omega) (fun i h1 h2 => rfl)) ?_
  rintro V2 ⟨hV2l, hV2⟩
  refine Runs.bind (Runs.fill (arr := V2) (e := (t : ℤ)) (f := fun m => nth c.knots (m - t)) (dst := fun i => i + (t : ℤ))
    (rd := fun i => vget c.knots i)
    (by intro i; omega) (by omega) (by omega) (by omega) (fun i h1 h2 => vget_nth (by omega) (by omega))) ?_
  rintro V3 ⟨hV3l, hV3⟩
  have hIK : InsKnots (nth c.knots) (nth V3) k t (n + p + 1) u := by
    refine ⟨?_, ?_, ?_⟩
    · intro i hik
      rw [hV3, if_neg (by omega), hV2, if_neg (by omega), hV1, if_pos (by omega)]
    · intro i h1 h2
      rw [hV3, if_neg (by omega), hV2, if_pos (by omega)]
    · intro i h1 h2
      rw [hV3, if_pos (by omega)]
  -- the control points
  refine Runs.bind (Runs.fill (e := 0) (f := nth c.cps) (dst := fun i => i) (rd := fun i => vget c.cps i)
    (by intro i; omega) (by omega) (by simp; omega) (by omega)
    (fun i h1 h2 => vget_nth (by omega) (by omega))) ?_
  rintro Q1 ⟨hQ1l, hQ1⟩
  simp only [List.length_replicate] at hQ1l
  refine Runs.bind (Runs.fill (arr := Q1) (e := (t : ℤ)) (f := fun m => nth c.cps (m - t)) (dst := fun i => i + (t : ℤ))
    (rd := fun i => vget c.cps i)
    (by intro i; omega) (by omega) (by omega) (by omega) (fun i h1 h2 => vget_nth (by omega) (by omega))) ?_
  rintro Q2 ⟨hQ2l, hQ2⟩
  refine Runs.bind (Runs.fill (e := 0) (f := fun m => nth c.cps (k - p + m)) (dst := fun i => i)
    (rd := fun i => vget c.cps ((k : ℤ) - p + i))
    (by intro i; omega) (by omega) (by simp) (by omega)
    (fun i h1 h2 => vget_nth (by omega) (by omega))) ?_
  rintro temp0 ⟨htl, htemp⟩
  simp only [List.length_replicate] at htl
  -- the triangle
  refine Runs.bind (Q := fun st => InsInv (nth c.knots) (nth c.cps) p n k s t u t st.1 st.2.1 ∧ st.2.2 = (k : ℤ) - p + t) ?_ ?_
  · refine (Runs.forN (m := 1) (n := t + 1) (fun j st => InsInv (nth c.knots) (nth c.cps) p n k s t u (j - 1) st.1 st.2.1 ∧
      (1 < j → st.2.2 = (k : ℤ) - p + (j - 1 : ℕ))) (by simp) (by push_cast; ring) (by omega) ?_ ?_).mono ?_
    · refine ⟨⟨by dsimp only; omega, by dsimp only; omega, ?_, ?_, ?_, ?_, ?_, ?_⟩, by omega⟩
      · intro i h
        simp only [Nat.sub_self, Nat.zero_min, List.replicate_zero, E]
        rw [htemp, if_pos (by omega)]
      · intro j hj
        rw [hQ2, if_neg (by omega), hQ1, if_pos (by omega)]
      · intro i h1 h2; omega
      · intro h; omega
      · intro i h1 h2; omega
      · intro j h1 h2 _
        rw [hQ2, if_pos (by omega)]
    · rintro j ⟨Q, temp, L⟩ hj1 hj2 ⟨inv, _⟩
      obtain ⟨m, rfl⟩ : ∃ m, j = m + 1 := ⟨j - 1, by omega⟩
      have em1 : m + 1 - 1 = m := by omega
      have em2 : m + 1 + 1 - 1 = m + 1 := by omega
      rw [em1] at inv
      rw [em2]
      dsimp only at inv ⊢
      -- the row
      have hrow : Runs (forI 0 ((p : ℤ) - ((m + 1 : ℕ) : ℤ) - s + 1) temp fun i temp => do
          let ul ← vget c.knots ((k : ℤ) - p + ((m + 1 : ℕ) : ℤ) + i)
          let ur ← vget c.knots (i + k + 1)
          let alpha ← fdiv (u - ul) (ur - ul)
          let b ← vget temp (i + 1)
          let a ← vget temp i
          vset temp i (alpha • b + (1 - alpha) • a))
          (fun r => r.length = p - s + 1 ∧ ∀ i, i + min (m + 1) (p - s) + s ≤ p →
            nth r i = E (nth c.knots) p (nth c.cps) (List.replicate (min (m + 1) (p - s)) u) (k - p + i)) := by
        by_cases hm : m + 1 + s ≤ p
        · have e : min (m + 1) (p - s) = m + 1 := by omega
          have e' : min m (p - s) = m := by omega
          rw [e]
          have h := inv.temp
          rw [e'] at h
          push_cast
          exact deBoorRow hi hU hm rfl inv.lent h
        · rw [forI_empty (by push_cast; omega)]
          have e : min (m + 1) (p - s) = min m (p - s) := by omega
          rw [e]
          exact Runs.ok ⟨inv.lent, inv.temp⟩
      refine Runs.bind hrow ?_
      rintro temp' ⟨hl', ht'⟩
      rw [vget_nth (k := 0) (by simp) (by omega), ok_bind]
      have eL : (k : ℤ) - p + ((m + 1 : ℕ) : ℤ) = ((k - p + (m + 1) : ℕ) : ℤ) := by omega
      rw [vset_of (k := k - p + (m + 1)) eL (by rw [inv.lenQ]; omega), ok_bind]
      have ht0 : nth temp' 0 = E (nth c.knots) p (nth c.cps) (List.replicate (min (m + 1) (p - s)) u) (k - p) := by
        have := ht' 0 (by omega)
        simpa using this
      set Q' := Q.set (k - p + (m + 1)) (nth temp' 0) with hQ'
      have hQ'n : ∀ j, nth Q' j = if j = k - p + (m + 1) then nth temp' 0 else nth Q j := by
        intro j; rw [hQ', nth_set (by rw [inv.lenQ]; omega)]
      have hQ'l : Q'.length = n + 1 + t := by rw [hQ', List.length_set, inv.lenQ]
      refine Runs.bind (Q := fun Q'' => Q''.length = n + 1 + t ∧ (∀ j, ((m + 1 + s < p) → j + (m + 1) + s ≠ k + t) → nth Q'' j = nth Q' j) ∧
        (m + 1 + s < p → nth Q'' (k + t - (m + 1) - s) = nth temp' (p - (m + 1) - s))) ?_ ?_
      · by_cases hc : (p : ℤ) - ((m + 1 : ℕ) : ℤ) - s > 0
        · rw [if_pos hc, vget_nth (k := p - (m + 1) - s) (by omega) (by omega), ok_bind,
            vset_of (k := k + t - (m + 1) - s) (by omega) (by omega)]
          refine Runs.ok ⟨by simp [hQ'l], ?_, ?_⟩
          · intro j hj
            rw [nth_set (by omega), if_neg]
            have := hj (by omega)
            omega
          · intro _
            rw [nth_set (by omega), if_pos rfl]
        · rw [if_neg hc]
          exact Runs.ok ⟨hQ'l, fun _ _ => rfl, fun h => by omega⟩
      · rintro Q'' ⟨hl'', hfr, hup⟩
        refine Runs.ok ⟨⟨hl'', hl', ht', ?_, ?_, ?_, ?_, ?_⟩, fun _ => rfl⟩
        · intro j hj
          rw [hfr j (by intro _; omega), hQ'n, if_neg (by omega)]
          exact inv.lo j hj
        · intro i h1 h2 h3
          rw [hfr _ (by intro _; omega), hQ'n]
          by_cases hc : i = m + 1
          · rw [if_pos (by omega), ht0, hc]
            congr 2; omega
          · rw [if_neg (by omega)]
            exact inv.left i h1 (by omega) h3
        · intro h
          rw [hfr _ (by intro _; omega), hQ'n, if_pos (by omega), ht0]
          congr 2; omega
        · intro i h1 h2 h3
          by_cases hc : i = m + 1
          · subst hc
            rw [hup h3, ht' _ (by omega)]
            have e : min (m + 1) (p - s) = m + 1 := by omega
            rw [e]
            congr 1; omega
          · rw [hfr _ (by intro _; omega), hQ'n, if_neg (by omega)]
            exact inv.right i h1 (by omega) h3
        · intro j h1 h2 h3
          rw [hfr _ (by intro _; omega), hQ'n, if_neg (by omega)]
          exact inv.hi j h1 h2 h3
    · rintro ⟨Q, temp, L⟩ ⟨inv, hL⟩
      exact ⟨inv, hL (by omega)⟩
  · rintro ⟨Q, temp, L⟩ ⟨inv, hL⟩
    dsimp only at inv hL ⊢
    subst hL
    -- the middle part
    refine Runs.bind (Q := fun Q' => Q'.length = n + 1 + t ∧
      ∀ m, nth Q' m = if k + t < m + p ∧ m + s < k then E (nth c.knots) p (nth c.cps) (List.replicate t u) (m - t) else nth Q m) ?_ ?_
    · by_cases hc : t + s < p
      · refine (Runs.fill (arr := Q) (e := 0) (f := fun m => E (nth c.knots) p (nth c.cps) (List.replicate t u) (m - t))
          (dst := fun i => i) (rd := fun i => vget temp (i - ((k : ℤ) - p + t)))
          (by intro i; omega) (by omega) (by rw [inv.lenQ]; omega) (by omega) ?_).mono ?_
        · intro i h1 h2
          have e := inv.temp (i - ((k : ℤ) - p + t)).toNat (by omega)
          have e' : min t (p - s) = t := by omega
          rw [e'] at e
          rw [vget_nth (k := (i - ((k : ℤ) - p + t)).toNat) (by omega) (by rw [inv.lent]; omega), e]
          congr 2; omega
        · rintro Q' ⟨g1, g2⟩
          refine ⟨by rw [g1, inv.lenQ], ?_⟩
          intro m
          rw [g2 m]
          by_cases hm : k + t < m + p ∧ m + s < k
          · rw [if_pos hm, if_pos (by omega)]
          · rw [if_neg hm, if_neg (by omega)]
      · rw [forI_empty (by omega)]
        refine Runs.ok ⟨inv.lenQ, ?_⟩
        intro m
        rw [if_neg (by omega)]
    · rintro Q' ⟨g1, g2⟩
      have hsort : sortKnots V3 = V3 := by
        unfold sortKnots
        apply List.Pairwise.insertionSort_eq
        rw [← isValidKnotVector_iff, isValidKnotVector_nth]
        intro a b hab hb
        exact hIK.mono hi a b hab (by omega)
      rw [hsort]
      refine Runs.ok ⟨rfl, rfl, by dsimp only; omega, by dsimp only; omega, hIK, ?_⟩
      dsimp only
      refine ⟨?_, ?_, ?_, ?_, ?_, ?_⟩
      · intro j hj
        rw [g2, if_neg (by omega)]; exact inv.lo j hj
      · intro i h1 h2 h3
        rw [g2, if_neg (by omega)]; exact inv.left i h1 h2 h3
      · intro h
        rw [g2, if_neg (by omega)]; exact inv.top (by omega)
      · intro j h1 h2
        rw [g2, if_pos ⟨h1, h2⟩]
      · intro i h1 h2 h3
        rw [g2, if_neg (by omega)]; exact inv.right i h1 h2 h3
      · intro j h1 h2 h3
        rw [g2, if_neg (by omega)]; exact inv.hi j h1 h2 h3

end LNLib
