import Verif.Model.RemoveKnot
import Verif.Props.KnotInsertion

/-! # The run of `RemoveKnot` for a single removal of an interior knot -/
set_option linter.unusedSectionVars false

namespace LNLib
open Res Spec Finset

variable {K : Type} [Field K] [LinearOrder K] [IsStrictOrderedRing K]
variable {T : Type} [AddCommGroup T] [Module K T]

/-- the coefficient of the old point `i` when `u` is removed -/
def remA (U : ℕ → K) (p : ℕ) (u : K) (i : ℕ) : K := (u - U i) / (U (i + p + 1) - U i)

/-- the points computed from the left -/
def remL (U : ℕ → K) (P : ℕ → T) (p : ℕ) (u : K) (first : ℕ) : ℕ → T
  | 0 => P (first - 1)
  | m + 1 => (remA U p u (first + m))⁻¹ • (P (first + m) - (1 - remA U p u (first + m)) • remL U P p u first m)

/-- the points computed from the right -/
def remR (U : ℕ → K) (P : ℕ → T) (p : ℕ) (u : K) (last : ℕ) : ℕ → T
  | 0 => P (last + 1)
  | m + 1 => (1 - remA U p u (last - m))⁻¹ • (P (last - m) - remA U p u (last - m) • remR U P p u last m)

section
variable {U : List K} {P : List T} {p n r s : ℕ} {u : K}

theorem remA_pos (hi : InsertAt (nth U) p n r s u) {i : ℕ} (h1 : r ≤ i + p) (h2 : i + s ≤ r) :
    0 < nth U (i + p + 1) - nth U i ∧ 0 < remA (nth U) p u i ∧ remA (nth U) p u i < 1 := by
  have hkn := hi.kn
  have a1 : nth U i < u := hi.ne i h2
  have a2 : u < nth U (i + p + 1) := lt_of_lt_of_le hi.hi (hi.mono (r + 1) (i + p + 1) (by omega) (by omega))
  have a3 : 0 < nth U (i + p + 1) - nth U i := by linarith
  refine ⟨a3, div_pos (by linarith) a3, ?_⟩
  rw [remA, div_lt_one a3]
  linarith

/-- the state of the sweep after `k` rounds -/
structure SweepInv (U : List K) (P : List T) (p r s : ℕ) (u : K) (k : ℕ) (st : SweepState T) : Prop where
  le : 2 * k ≤ p - s + 2
  i : st.i = ((r - p + k : ℕ) : ℤ)
  j : st.j = ((r - s : ℕ) : ℤ) - k
  ii : st.ii = ((k + 1 : ℕ) : ℤ)
  jj : st.jj = ((p - s + 1 : ℕ) : ℤ) - k
  len : st.temp.length = 2 * p + 1
  left : ∀ m ≤ k, m + k < p - s + 2 → nth st.temp m = remL (nth U) (nth P) p u (r - p) m
  right : ∀ m ≤ k, nth st.temp (p - s + 2 - m) = remR (nth U) (nth P) p u (r - s) m

theorem removeSweepRound_run (hi : InsertAt (nth U) p n r s u) (hU : U.length = n + p + 2) (hP : P.length = n + 1)
    (hs : 1 ≤ s) {k : ℕ} {st : SweepState T} (h : SweepInv U P p r s u k st) (hk : 2 * k ≤ p - s) :
    Runs (removeSweepRound U P p u 0 st) (SweepInv U P p r s u (k + 1)) := by
  have hkn := hi.kn
  have hpk := hi.pk
  have hsp := hi.sp
  obtain ⟨d1, d2, d3⟩ := remA_pos hi (i := r - p + k) (by omega) (by omega)
  obtain ⟨e1, e2, e3⟩ := remA_pos hi (i := r - s - k) (by omega) (by omega)
  have hlen := h.len
  unfold removeSweepRound
  refine Runs.bind_eq (vget_nth (k := r - p + k) h.i (by omega)) ?_
  refine Runs.bind_eq (vget_nth (k := r - p + k + p + 1) (by rw [h.i]; push_cast; ring) (by omega)) ?_
  refine Runs.bind_eq (fdiv_ok d1.ne') ?_
  refine Runs.bind_eq (vget_nth (k := r - s - k) (by rw [h.j]; omega) (by omega)) ?_
  refine Runs.bind_eq (vget_nth (k := r - s - k + p + 1) (by rw [h.j]; omega) (by omega)) ?_
  refine Runs.bind_eq (fdiv_ok e1.ne') ?_
  change Runs (vget P st.i >>= _) _
  have f1 : (u - nth U (r - p + k)) / (nth U (r - p + k + p + 1) - nth U (r - p + k)) = remA (nth U) p u (r - p + k) := rfl
  have f2 : (u - nth U (r - s - k)) / (nth U (r - s - k + p + 1) - nth U (r - s - k)) = remA (nth U) p u (r - s - k) := rfl
  rw [f1, f2]
  refine Runs.bind_eq (vget_nth (k := r - p + k) h.i (by omega)) ?_
  refine Runs.bind_eq (vget_nth (k := k) (by rw [h.ii]; push_cast; ring) (by omega)) ?_
  refine Runs.bind_eq (vdiv_ok d2.ne') ?_
  refine Runs.bind_eq (vset_of (k := k + 1) h.ii (by omega)) ?_
  refine Runs.bind_eq (vget_nth (k := r - s - k) (by rw [h.j]; omega) (by omega)) ?_
  refine Runs.bind_eq (vget_nth (k := p - s + 2 - k) (by rw [h.jj]; omega) (by simp only [List.length_set]; omega)) ?_
  refine Runs.bind_eq (vdiv_ok (by linarith)) ?_
  refine Runs.bind_eq (vset_of (k := p - s + 1 - k) (by rw [h.jj]; omega) (by simp only [List.length_set]; omega)) ?_
  have hL := h.left k le_rfl (by omega)
  have hR := h.right k le_rfl
  refine Runs.ok ⟨by omega, ?_, ?_, ?_, ?_, ?_, ?_, ?_⟩
  · simp only [h.i]; push_cast; ring
  · simp only [h.j]; push_cast; ring
  · simp only [h.ii]; push_cast; ring
  · simp only [h.jj]; push_cast; ring
  · simp only [List.length_set, hlen]
  · intro m hm1 hm2
    simp only
    rw [nth_set, if_neg (by omega), nth_set]
    · by_cases hmk : m = k + 1
      · subst hmk
        rw [if_pos rfl, hL, remL]
      · rw [if_neg (by omega)]
        exact h.left m (by omega) (by omega)
    · omega
    · simp only [List.length_set]; omega
  · intro m hm1
    simp only
    rw [nth_set (by simp only [List.length_set]; omega)]
    by_cases hmk : m = k + 1
    · subst hmk
      rw [if_pos (by omega), nth_set (by omega), if_neg (by omega), hR, remR]
    · rw [if_neg (by omega), nth_set (by omega), if_neg (by omega)]
      exact h.right m (by omega)

theorem removeSweep_run (hi : InsertAt (nth U) p n r s u) (hU : U.length = n + p + 2) (hP : P.length = n + 1)
    (hs : 1 ≤ s) (hr : p < r) {temp : List T} (ht : temp.length = 2 * p + 1) {fi la : ℤ} (hfi : fi = ((r - p : ℕ) : ℤ)) (hla : la = ((r - s : ℕ) : ℤ)) :
    Runs (removeSweep U P p u 0 fi la temp) (SweepInv U P p r s u ((p - s) / 2 + 1)) := by
  have hkn := hi.kn
  have hsp := hi.sp
  subst hfi hla
  unfold removeSweep
  dsimp only
  refine Runs.bind_eq (vget_nth (k := r - p - 1) (by omega) (by omega)) ?_
  refine Runs.bind_eq (vset_of (i := (0 : ℤ)) (k := 0) (by simp) (by omega)) ?_
  refine Runs.bind_eq (vget_nth (k := r - s + 1) (by push_cast; ring) (by omega)) ?_
  refine Runs.bind_eq (vset_of (k := p - s + 2) (by omega) (by simp only [List.length_set]; omega)) ?_
  refine Runs.whileF (Inv := fun st => ∃ k, k ≤ (p - s) / 2 + 1 ∧ SweepInv U P p r s u k st)
    (fun st => (st.j - st.i + 1).toNat) ?_ _ _ ⟨0, by omega, ?_⟩ ?_
  · rintro st ⟨k, hk, h⟩
    have hj := h.j
    have hi' := h.i
    by_cases hc : 2 * k ≤ p - s
    · refine Or.inr ⟨?_, ?_⟩
      · rw [decide_eq_true]; rw [hj, hi']; push_cast; omega
      · refine (removeSweepRound_run hi hU hP hs h hc).mono fun st' h' => ⟨⟨k + 1, by omega, h'⟩, ?_⟩
        have hj' := h'.j
        have hi'' := h'.i
        rw [hj, hi', hj', hi'']; push_cast; omega
    · refine Or.inl ⟨?_, ?_⟩
      · rw [decide_eq_false]; rw [hj, hi']; push_cast; omega
      · have : k = (p - s) / 2 + 1 := by omega
        rw [← this]; exact h
  · refine ⟨by omega, by simp, by simp, by simp, ?_, by simp [ht], ?_, ?_⟩
    · push_cast; omega
    · intro m hm _
      have : m = 0 := by omega
      subst this
      simp only
      rw [nth_set (by simp only [List.length_set]; omega), if_neg (by omega), nth_set (by omega), if_pos rfl]
      rfl
    · intro m hm
      have : m = 0 := by omega
      subst this
      simp only
      rw [nth_set (by simp only [List.length_set]; omega), if_pos (by omega)]
      rfl
  · dsimp only
    omega

/-- the outcome of the removal test -/
def remOk (close : T → T → Bool) (U : List K) (P : List T) (p r s : ℕ) (u : K) : Bool :=
  if (p - s) % 2 = 0 then close (remR (nth U) (nth P) p u (r - s) ((p - s) / 2 + 1)) (remR (nth U) (nth P) p u (r - s) ((p - s) / 2 + 1))
  else close (remL (nth U) (nth P) p u (r - p) ((p - s) / 2 + 1)) (remR (nth U) (nth P) p u (r - s) ((p - s) / 2 + 1))

theorem removeTest_run (close : T → T → Bool) (hi : InsertAt (nth U) p n r s u) (hs : 1 ≤ s) {st : SweepState T}
    (h : SweepInv U P p r s u ((p - s) / 2 + 1) st) :
    removeTest close U P p u 0 st = ok (remOk close U P p r s u) := by
  have hj := h.j
  have hi' := h.i
  have hpk := hi.pk
  have hsp := hi.sp
  have hlen := h.len
  unfold removeTest
  rw [if_pos (by rw [hj, hi']; push_cast; omega), vget_nth (k := (p - s) / 2 + 1) (by rw [h.ii]; push_cast; ring) (by omega), ok_bind,
    vget_nth (k := p - s + 2 - ((p - s) / 2 + 1)) (by rw [h.jj]; omega) (by omega), ok_bind, h.right _ le_rfl]
  unfold remOk
  by_cases hc : (p - s) % 2 = 0
  · rw [if_pos hc]
    have e : (p - s) / 2 + 1 = p - s + 2 - ((p - s) / 2 + 1) := by omega
    have : nth st.temp ((p - s) / 2 + 1) = remR (nth U) (nth P) p u (r - s) ((p - s) / 2 + 1) := by
      rw [← h.right _ le_rfl, ← e]
    rw [this]
  · rw [if_neg hc, h.left _ le_rfl (by omega)]

theorem removeSave_run {temp Q : List T} (ht : temp.length = 2 * p + 1) (hQ : Q.length = n + 1) (hr : r ≤ n) (hpr : p < r) (hsp : s ≤ p) (hs : 1 ≤ s)
    {fi la : ℤ} (hfi : fi = ((r - p : ℕ) : ℤ)) (hla : la = ((r - s : ℕ) : ℤ)) :
    Runs (removeSave temp 0 fi la Q) (fun Q' => Q'.length = n + 1 ∧ (∀ i, i < r - p → nth Q' i = nth Q i) ∧
      ∀ m, m < (p - s) / 2 → nth Q' (r - p + m) = nth temp (m + 1)) := by
  subst hfi hla
  unfold removeSave
  dsimp only
  refine Runs.bind (Q := fun (st : ℤ × ℤ × List T) => st.2.2.length = n + 1 ∧ (∀ i, i < r - p → nth st.2.2 i = nth Q i) ∧
      ∀ m, m < (p - s) / 2 → nth st.2.2 (r - p + m) = nth temp (m + 1)) ?_ (fun st h => Runs.ok h)
  refine Runs.whileF (Inv := fun (st : ℤ × ℤ × List T) => ∃ k : ℕ, k ≤ (p - s + 1) / 2 ∧ st.1 = ((r - p + k : ℕ) : ℤ) ∧ st.2.1 = ((r - s : ℕ) : ℤ) - k ∧
      st.2.2.length = n + 1 ∧ (∀ i, i < r - p → nth st.2.2 i = nth Q i) ∧ ∀ m, m < k → nth st.2.2 (r - p + m) = nth temp (m + 1))
    (fun st => (st.2.1 - st.1).toNat) ?_ _ _ ⟨0, by omega, by simp, by simp, hQ, fun i _ => rfl, fun m hm => by omega⟩ ?_
  · rintro ⟨i, j, Q1⟩ ⟨k, hk, h1, h2, h3, h4, h5⟩
    dsimp only at h1 h2 h3 h4 h5 ⊢
    by_cases hc : 2 * k < p - s
    · refine Or.inr ⟨by rw [decide_eq_true]; rw [h1, h2]; push_cast; omega, ?_⟩
      refine Runs.bind_eq (vget_nth (k := k + 1) (by rw [h1]; omega) (by omega)) ?_
      refine Runs.bind_eq (vset_of (k := r - p + k) h1 (by omega)) ?_
      refine Runs.bind_eq (vget_nth (k := p - s + 1 - k) (by rw [h2]; omega) (by omega)) ?_
      refine Runs.bind_eq (vset_of (k := r - s - k) (by rw [h2]; omega) (by simp only [List.length_set]; omega)) ?_
      refine Runs.ok ⟨⟨k + 1, by omega, by simp only; rw [h1]; push_cast; ring, by simp only; rw [h2]; push_cast; ring, by simp [h3], ?_, ?_⟩, ?_⟩
      · intro a ha
        simp only
        rw [nth_set (by simp only [List.length_set]; omega), if_neg (by omega), nth_set (by omega), if_neg (by omega)]
        exact h4 a ha
      · intro m hm
        simp only
        rw [nth_set (by simp only [List.length_set]; omega), if_neg (by omega), nth_set (by omega)]
        by_cases hmk : m = k
        · rw [if_pos (by omega), hmk]
        · rw [if_neg (by omega)]
          exact h5 m (by omega)
      · dsimp only
        rw [h1, h2]; omega
    · refine Or.inl ⟨by rw [decide_eq_false]; rw [h1, h2]; push_cast; omega, h3, h4, fun m hm => h5 m (by omega)⟩
  · dsimp only; omega

/-- the new control points -/
theorem removeCompact_run {Q : List T} (hP : P.length = n + 1) (hQ : Q.length = n + 1) (hr : r ≤ n) (hpr : p < r) (hsp : s ≤ p) (hs : 1 ≤ s) :
    Runs (removeCompact P Q p s r ((n + 1 : ℕ) - 1 : ℤ) 1) (fun Q' => Q'.length = n ∧
      ∀ i, i < n → nth Q' i = if i < r - p + (p - s) / 2 then nth Q i else nth P (i + 1)) := by
  have hj : (2 * (r : ℤ) - s - p).tdiv 2 = ((r - p + (p - s) / 2 : ℕ) : ℤ) := by
    rw [Int.tdiv_eq_ediv_of_nonneg (by omega)]
    omega
  unfold removeCompact
  dsimp only
  rw [hj, forI_empty (by omega), ok_bind]
  dsimp only
  refine Runs.bind (Q := fun (st : List T × ℤ) => st.1.length = n + 1 ∧
      ∀ i, i < n → nth st.1 i = if i < r - p + (p - s) / 2 then nth Q i else nth P (i + 1)) ?_ ?_
  · refine (Runs.forN (m := r - p + (p - s) / 2 + 1) (n := n + 1) (fun k (st : List T × ℤ) => st.1.length = n + 1 ∧ st.2 = ((k - 1 : ℕ) : ℤ) ∧
        ∀ i, nth st.1 i = if r - p + (p - s) / 2 ≤ i ∧ i + 1 < k then nth P (i + 1) else nth Q i) (by push_cast; ring) (by push_cast; ring) (by omega)
        ⟨hQ, by simp, fun i => by rw [if_neg (by omega)]⟩ ?_).mono ?_
    · rintro k ⟨Q1, j⟩ hk1 hk2 ⟨g1, g2, g3⟩
      dsimp only at g1 g2 g3 ⊢
      refine Runs.bind_eq (vget_nth (k := k) rfl (by omega)) ?_
      refine Runs.bind_eq (vset_of (k := k - 1) g2 (by omega)) ?_
      refine Runs.ok ⟨by simp [g1], by simp only; rw [g2]; omega, ?_⟩
      intro i
      simp only
      rw [nth_set (by omega)]
      by_cases hik : i = k - 1
      · rw [if_pos hik, if_pos (by omega)]
        congr 1; omega
      · rw [if_neg hik, g3 i]
        by_cases hc : r - p + (p - s) / 2 ≤ i ∧ i + 1 < k
        · rw [if_pos hc, if_pos (by omega)]
        · rw [if_neg hc, if_neg (by omega)]
    · rintro ⟨Q1, j⟩ ⟨g1, g2, g3⟩
      refine ⟨g1, fun i hi => ?_⟩
      dsimp only at g3 ⊢
      rw [g3 i]
      by_cases hc : i < r - p + (p - s) / 2
      · rw [if_pos hc, if_neg (by omega)]
      · rw [if_neg hc, if_pos (by omega)]
  · rintro ⟨Q1, j⟩ ⟨g1, g2⟩
    dsimp only at g1 g2 ⊢
    rw [if_pos (by omega)]
    refine Runs.ok ⟨by simp [g1], fun i hi => ?_⟩
    rw [← g2 i hi]
    unfold nth
    simp only [List.getD, List.getElem?_take]
    rw [if_pos (by simp [g1]; omega)]

/-- the new knots -/
theorem removeKnots_run (hU : U.length = n + p + 2) (hr : r ≤ n) :
    removeKnots U r (((n + 1 : ℕ) : ℤ) - 1 + p + 1) 1 = ok (U.eraseIdx r) := by
  apply Runs.eq
  unfold removeKnots
  refine Runs.bind (Q := fun V => V.length = n + p + 2 ∧ ∀ i, i < n + p + 1 → nth V i = if i < r then nth U i else nth U (i + 1)) ?_ ?_
  · refine (Runs.forN (m := r + 1) (n := n + p + 2) (fun k (V : List K) => V.length = n + p + 2 ∧
        ∀ i, nth V i = if r ≤ i ∧ i + 1 < k then nth U (i + 1) else nth U i) (by push_cast; ring) (by push_cast; ring) (by omega)
        ⟨hU, fun i => by rw [if_neg (by omega)]⟩ ?_).mono ?_
    · rintro k V hk1 hk2 ⟨g1, g3⟩
      refine Runs.bind_eq (vget_nth (k := k) rfl (by omega)) ?_
      rw [vset_of (k := k - 1) (by omega) (by omega)]
      refine Runs.ok ⟨by simp [g1], ?_⟩
      intro i
      have hVk : nth V k = nth U k := by rw [g3 k, if_neg (by omega)]
      rw [nth_set (by omega), hVk]
      by_cases hik : i = k - 1
      · rw [if_pos hik, if_pos (by omega)]
        congr 1; omega
      · rw [if_neg hik, g3 i]
        by_cases hc : r ≤ i ∧ i + 1 < k
        · rw [if_pos hc, if_pos (by omega)]
        · rw [if_neg hc, if_neg (by omega)]
    · rintro V ⟨g1, g3⟩
      refine ⟨g1, fun i hi => ?_⟩
      rw [g3 i]
      by_cases hc : i < r
      · rw [if_pos hc, if_neg (by omega)]
      · rw [if_neg hc, if_pos (by omega)]
  · rintro V ⟨g1, g2⟩
    rw [if_pos (by omega)]
    refine Runs.ok (ext_nth ?_ ?_)
    · rw [List.length_eraseIdx_of_lt (by omega)]
      simp [g1, hU]
    · intro i hi
      have hi' : i < n + p + 1 := by simp [g1] at hi; omega
      have e1 : nth (V.take (V.length - (1 : ℤ).toNat)) i = nth V i := by
        unfold nth
        simp only [List.getD, List.getElem?_take]
        rw [if_pos (by simp [g1]; omega)]
      rw [e1, g2 i hi']
      unfold nth
      simp only [List.getD, List.getElem?_eraseIdx]
      split <;> rfl

/-- the outcome of a single removal -/
theorem removeKnot_run {c : BsplineCurve K T} (close : T → T → Bool) (w : WellFormed c p n)
    (hk : getKnotSpanIndex c.degree c.knots u = ok (r : ℤ)) (hm : getKnotMultiplicity c.knots u = ok (s : ℤ))
    (hi : InsertAt (nth c.knots) p n r s u) (hs : 1 ≤ s) (hr : p < r) :
    (remOk close c.knots c.cps p r s u = false → removeKnot close c u 1 = ok none) ∧
    (remOk close c.knots c.cps p r s u = true → ∃ c' : BsplineCurve K T, removeKnot close c u 1 = ok (some c') ∧ c'.degree = p ∧
      c'.knots = c.knots.eraseIdx r ∧ c'.cps.length = n ∧
      ∀ i, i < n → nth c'.cps i = if i < r - p then nth c.cps i
        else if i < r - p + (p - s) / 2 then remL (nth c.knots) (nth c.cps) p u (r - p) (i - (r - p) + 1) else nth c.cps (i + 1)) := by
  have hU := w.knots
  have hP := w.cps
  have hkn := hi.kn
  have hsp := hi.sp
  have hlo : nth c.knots 0 ≤ u := (hi.mono 0 r (by omega) (by omega)).trans hi.lo
  have hhi : u ≤ nth c.knots (n + p + 1) := hi.hi.le.trans (hi.mono (r + 1) (n + p + 1) (by omega) le_rfl)
  have hpre : removeKnot close c u 1 = (do
      let st ← whileF (fun (st : RemoveState T) => ok (decide (st.t < 1) && !st.stop)) (removeRound close c.knots c.cps p u)
        1 ⟨0, r - p, r - s, List.replicate (2 * (p : ℤ) + 1).toNat 0, c.cps, false⟩
      if st.t = 0 then ok none
      else do
        let Q ← removeCompact c.cps st.Q p s r ((n + 1 : ℕ) - 1 : ℤ) st.t
        ok (some { degree := p, knots := c.knots.eraseIdx r, cps := Q })) := by
    rw [w.degree] at hk
    unfold removeKnot
    dsimp only
    rw [vget_nth (i := 0) (k := 0) rfl (by omega), ok_bind, vget_nth (k := n + p + 1) (by omega) (by omega), ok_bind,
      validateRange_eq_ok_iff.mpr ⟨by have := doubleEps_pos (K := K); linarith, by have := doubleEps_pos (K := K); linarith⟩, ok_bind]
    simp only [show (decide ((1 : ℤ) > 0)) = true by decide, validate_true, ok_bind, hm, hk, w.degree, hP]
    rw [removeKnots_run hU hkn, ok_bind, if_neg (by omega)]
    rfl
  rw [hpre]
  obtain ⟨sw, hsw, hinv⟩ := removeSweep_run (temp := List.replicate (2 * (p : ℤ) + 1).toNat (0 : T)) hi hU hP hs hr
    (by simp; omega) (fi := (r : ℤ) - p) (la := (r : ℤ) - s) (by omega) (by omega)
  have hround : removeRound close c.knots c.cps p u ⟨0, r - p, r - s, List.replicate (2 * (p : ℤ) + 1).toNat 0, c.cps, false⟩
      = (if !(remOk close c.knots c.cps p r s u) then ok ⟨0, r - p, r - s, sw.temp, c.cps, true⟩
        else do
          let Q ← removeSave sw.temp 0 (r - p) (r - s) c.cps
          ok ⟨0 + 1, r - p - 1, r - s + 1, sw.temp, Q, false⟩) := by
    unfold removeRound
    dsimp only
    rw [hsw, ok_bind, removeTest_run close hi hs hinv, ok_bind]
  constructor
  · intro hf
    simp only [whileF, hround, hf, ok_bind, if_true, Bool.not_false]
    simp
  · intro ht
    obtain ⟨Q, hQ, q1, q2, q3⟩ := removeSave_run (n := n) (Q := c.cps) hinv.len hP hkn hr hsp hs
      (fi := (r : ℤ) - p) (la := (r : ℤ) - s) (by omega) (by omega)
    obtain ⟨Q', hQ', k1, k2⟩ := removeCompact_run (P := c.cps) (Q := Q) hP q1 hkn hr hsp hs
    refine ⟨{ degree := p, knots := c.knots.eraseIdx r, cps := Q' }, ?_, rfl, rfl, k1, ?_⟩
    · simp only [whileF, hround, ht, hQ, ok_bind, show (decide ((0 : ℤ) < 1) && !false) = true by decide, if_true, Bool.not_true,
        Bool.false_eq_true, if_false, zero_add, show (decide ((1 : ℤ) < 1) && !false) = false by decide, one_ne_zero]
      rw [hQ', ok_bind]
    · intro i hin
      rw [k2 i hin]
      by_cases h1 : i < r - p
      · rw [if_pos h1, if_pos (by omega), q2 i h1]
      · rw [if_neg h1]
        by_cases h2 : i < r - p + (p - s) / 2
        · rw [if_pos h2, if_pos h2]
          have := q3 (i - (r - p)) (by omega)
          rw [show r - p + (i - (r - p)) = i by omega] at this
          rw [this, hinv.left _ (by omega) (by omega)]
        · rw [if_neg h2, if_neg h2]

end

end LNLib
