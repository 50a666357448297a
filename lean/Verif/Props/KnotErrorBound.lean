import Verif.Model.KnotErrorBound
import Verif.Lemmas.RemoveRun
import Verif.Props.RemoveKnot
import Verif.Props.Reshape
import Verif.Props.Surface

/-! # C144: the error bound of a knot removal is zero exactly for the knots that can be removed without a change of the curve -/
set_option linter.unusedSectionVars false

namespace LNLib.Props
open LNLib Res LNLib.Spec Finset

section
variable {K : Type} [Field K] [LinearOrder K] [IsStrictOrderedRing K]
variable {T : Type} [AddCommGroup T] [Module K T]
variable {U : List K} {P : List T} {p n r s : ℕ} {u : K}

/-- the state of the sweep after `k` rounds -/
structure BoundInv (U : List K) (P : List T) (p n r s : ℕ) (u : K) (k : ℕ) (st : SweepState T) : Prop where
  le : 2 * k ≤ p - s + 1
  i : st.i = ((r - p + k : ℕ) : ℤ)
  j : st.j = ((r - s : ℕ) : ℤ) - k
  ii : st.ii = ((k + 1 : ℕ) : ℤ)
  jj : st.jj = ((p - s + 1 : ℕ) : ℤ) - k
  len : st.temp.length = n + p + 2
  left : ∀ m ≤ k, nth st.temp m = remL (nth U) (nth P) p u (r - p) m
  right : ∀ m ≤ k, nth st.temp (p - s + 2 - m) = remR (nth U) (nth P) p u (r - s) m

theorem boundRound_run (hi : InsertAt (nth U) p n r s u) (hU : U.length = n + p + 2) (hP : P.length = n + 1)
    (hs : 1 ≤ s) {k : ℕ} {st : SweepState T} (h : BoundInv U P p n r s u k st) (hk : 2 * k < p - s) :
    Runs (removeSweepRound U P p u 0 st) (BoundInv U P p n r s u (k + 1)) := by
  have hkn := hi.kn
  have hpk := hi.pk
  have hsp := hi.sp
  obtain ⟨d1, d2, d3⟩ := remA_pos hi (i := r - p + k) (by omega) (by omega)
  obtain ⟨e1, e2, e3⟩ := remA_pos hi (i := r - s - k) (by omega) (by omega)
  have hlen := h.len
  unfold removeSweepRound
  refine Runs.bind_eq (vget_nth (k := r - p + k) h.i (by omega)) ?_
  refine Runs.bind_eq (vget_nth (k := r - p + k + p + 1) (by rw [h.i]; push_cast; ring) (by omega)) ?_
  refine Runs.bind_eq (fdiv_ok d1.ne') ?_
  refine Runs.bind_eq (vget_nth (k := r - s - k) (by rw [h.j]; omega) (by omega)) ?_
  refine Runs.bind_eq (vget_nth (k := r - s - k + p + 1) (by rw [h.j]; omega) (by omega)) ?_
  refine Runs.bind_eq (fdiv_ok e1.ne') ?_
  change Runs (vget P st.i >>= _) _
  have f1 : (u - nth U (r - p + k)) / (nth U (r - p + k + p + 1) - nth U (r - p + k)) = remA (nth U) p u (r - p + k) := rfl
  have f2 : (u - nth U (r - s - k)) / (nth U (r - s - k + p + 1) - nth U (r - s - k)) = remA (nth U) p u (r - s - k) := rfl
  rw [f1, f2]
  refine Runs.bind_eq (vget_nth (k := r - p + k) h.i (by omega)) ?_
  refine Runs.bind_eq (vget_nth (k := k) (by rw [h.ii]; push_cast; ring) (by omega)) ?_
  refine Runs.bind_eq (vdiv_ok d2.ne') ?_
  refine Runs.bind_eq (vset_of (k := k + 1) h.ii (by omega)) ?_
  refine Runs.bind_eq (vget_nth (k := r - s - k) (by rw [h.j]; omega) (by omega)) ?_
  refine Runs.bind_eq (vget_nth (k := p - s + 2 - k) (by rw [h.jj]; omega) (by simp only [List.length_set]; omega)) ?_
  refine Runs.bind_eq (vdiv_ok (by linarith)) ?_
  refine Runs.bind_eq (vset_of (k := p - s + 1 - k) (by rw [h.jj]; omega) (by simp only [List.length_set]; omega)) ?_
  have hL := h.left k le_rfl
  have hR := h.right k le_rfl
  refine Runs.ok ⟨by omega, ?_, ?_, ?_, ?_, ?_, ?_, ?_⟩
  · simp only [h.i]; push_cast; ring
  · simp only [h.j]; push_cast; ring
  · simp only [h.ii]; push_cast; ring
  · simp only [h.jj]; push_cast; ring
  · simp only [List.length_set, hlen]
  · intro m hm1
    simp only
    rw [nth_set (by simp only [List.length_set]; omega), if_neg (by omega), nth_set (by omega)]
    by_cases hmk : m = k + 1
    · subst hmk
      rw [if_pos rfl, hL, remL]
    · rw [if_neg (by omega)]
      exact h.left m (by omega)
  · intro m hm1
    simp only
    rw [nth_set (by simp only [List.length_set]; omega)]
    by_cases hmk : m = k + 1
    · subst hmk
      rw [if_pos (by omega), nth_set (by omega), if_neg (by omega), hR, remR]
    · rw [if_neg (by omega), nth_set (by omega), if_neg (by omega)]
      exact h.right m (by omega)

/-- the two points that the function compares -/
def boundPair (U : List K) (P : List T) (p r s : ℕ) (u : K) : T × T :=
  if (p - s) % 2 = 0 then (nth P (r - p + (p - s) / 2), remA (nth U) p u (r - p + (p - s) / 2) • remR (nth U) (nth P) p u (r - s) ((p - s) / 2) +
    (1 - remA (nth U) p u (r - p + (p - s) / 2)) • remL (nth U) (nth P) p u (r - p) ((p - s) / 2))
  else (remL (nth U) (nth P) p u (r - p) ((p - s + 1) / 2), remR (nth U) (nth P) p u (r - s) ((p - s + 1) / 2))

theorem removeBoundPair_run {c : BsplineCurve K T} (w : WellFormed c p n) (hs : 1 ≤ s) (hr : p < r) (hi : InsertAt (nth c.knots) p n r s (nth c.knots r))
    (hm : getKnotMultiplicity c.knots (nth c.knots r) = ok (s : ℤ)) :
    removeBoundPair c (r : ℤ) = ok (boundPair c.knots c.cps p r s (nth c.knots r)) := by
  have hU := w.knots
  have hP := w.cps
  have hkn := hi.kn
  have hsp := hi.sp
  obtain ⟨x, hx, hx'⟩ : Runs (removeBoundPair c (r : ℤ)) (fun x => x = boundPair c.knots c.cps p r s (nth c.knots r)) := by
    unfold removeBoundPair
    dsimp only
    rw [w.degree]
    refine Runs.bind_eq (validateIndex_in (by omega)) ?_
    refine Runs.bind_eq (vget_nth (k := r) rfl (by omega)) ?_
    refine Runs.bind_eq hm ?_
    refine Runs.bind_eq (vget_nth (k := r - p - 1) (by omega) (by omega)) ?_
    refine Runs.bind_eq (vset_of (i := (0 : ℤ)) (k := 0) (by simp) (by simp; omega)) ?_
    refine Runs.bind_eq (vget_nth (k := r - s + 1) (by omega) (by omega)) ?_
    refine Runs.bind_eq (vset_of (k := p - s + 2) (by omega) (by simp only [List.length_set, List.length_replicate]; omega)) ?_
    refine Runs.bind (Q := BoundInv c.knots c.cps p n r s (nth c.knots r) ((p - s + 1) / 2)) (Runs.whileF (Inv := fun st => ∃ k, k ≤ (p - s + 1) / 2 ∧ BoundInv c.knots c.cps p n r s (nth c.knots r) k st)
      (fun st => (st.j - st.i + 1).toNat) ?_ _ _ ⟨0, by omega, ?_⟩ ?_) ?_
    · rintro st ⟨k, hk, h⟩
      have hj := h.j
      have hi' := h.i
      by_cases hc : 2 * k < p - s
      · refine Or.inr ⟨?_, ?_⟩
        · rw [decide_eq_true]; rw [hj, hi']; push_cast; omega
        · refine (boundRound_run hi hU hP hs h hc).mono fun st' h' => ⟨⟨k + 1, by omega, h'⟩, ?_⟩
          have hj' := h'.j
          have hi'' := h'.i
          rw [hj, hi', hj', hi'']; push_cast; omega
      · refine Or.inl ⟨?_, ?_⟩
        · rw [decide_eq_false]; rw [hj, hi']; push_cast; omega
        · have : k = (p - s + 1) / 2 := by omega
          rw [← this]; exact h
    · refine ⟨by omega, by dsimp only; omega, by dsimp only; omega, by simp, ?_, by simp [hU], ?_, ?_⟩
      · dsimp only; omega
      · intro m hm
        have : m = 0 := by omega
        subst this
        simp only
        rw [nth_set (by simp only [List.length_set, List.length_replicate]; omega), if_neg (by omega), nth_set (by simp; omega), if_pos rfl]
        rfl
      · intro m hm
        have : m = 0 := by omega
        subst this
        simp only
        rw [nth_set (by simp only [List.length_set, List.length_replicate]; omega), if_pos (by omega)]
        rfl
    · dsimp only
      omega
    · intro st h
      have hlen := h.len
      have hj := h.j
      have hi' := h.i
      unfold boundPair
      by_cases hc : (p - s) % 2 = 0
      · rw [if_neg (by rw [hj, hi']; push_cast; omega), if_pos hc]
        have e : (p - s + 1) / 2 = (p - s) / 2 := by omega
        rw [e] at h hi' hj
        obtain ⟨d1, d2, d3⟩ := remA_pos hi (i := r - p + (p - s) / 2) (by omega) (by omega)
        refine Runs.bind_eq (vget_nth (k := r - p + (p - s) / 2) hi' (by omega)) ?_
        refine Runs.bind_eq (vget_nth (k := r - p + (p - s) / 2 + p + 1) (by rw [hi']; push_cast; ring) (by omega)) ?_
        refine Runs.bind_eq (fdiv_ok d1.ne') ?_
        refine Runs.bind_eq (vget_nth (k := r - p + (p - s) / 2) hi' (by omega)) ?_
        refine Runs.bind_eq (vget_nth (k := p - s + 2 - (p - s) / 2) (by rw [h.ii]; omega) (by omega)) ?_
        refine Runs.bind_eq (vget_nth (k := (p - s) / 2) (by rw [h.ii]; omega) (by omega)) ?_
        refine Runs.ok ?_
        rw [h.left _ le_rfl, h.right _ le_rfl]
        rfl
      · rw [if_pos (by rw [hj, hi']; push_cast; omega), if_neg hc]
        refine Runs.bind_eq (vget_nth (k := (p - s + 1) / 2) (by rw [h.ii]; omega) (by omega)) ?_
        refine Runs.bind_eq (vget_nth (k := p - s + 2 - (p - s + 1) / 2) (by rw [h.jj]; omega) (by omega)) ?_
        refine Runs.ok ?_
        rw [h.left _ le_rfl, h.right _ le_rfl]
  rw [hx, hx']

/-! ### The curve without the knot -/

/-- the control points without the knot: the sweep from the left, the sweep from the right, the untouched points -/
def coarsePoint (U : ℕ → K) (Q : ℕ → T) (p r s : ℕ) (u : K) (i : ℕ) : T :=
  if i < r - p then Q i
  else if i + 1 ≤ r - p + (p - s + 1) / 2 then remL U Q p u (r - p) (i + 1 - (r - p))
  else if i ≤ r - s then remR U Q p u (r - s) (r - s - i) else Q (i + 1)

/-- the index of the one control point that can differ -/
def oddIndex (p r s : ℕ) : ℕ := r - p + (p - s + 1) / 2

theorem coarse_insert (hi : InsertAt (nth U) p n r s u) (hs : 1 ≤ s) (hr : p < r) {i : ℕ} (h1 : r - p ≤ i) (h2 : i ≤ r - s) (hne : i ≠ oddIndex p r s) :
    remA (nth U) p u i • coarsePoint (nth U) (nth P) p r s u i + (1 - remA (nth U) p u i) • coarsePoint (nth U) (nth P) p r s u (i - 1) = nth P i := by
  have hsp := hi.sp
  have hkn := hi.kn
  obtain ⟨d1, d2, d3⟩ := remA_pos hi (i := i) (by omega) (by omega)
  unfold oddIndex at hne
  by_cases hc : i < r - p + (p - s + 1) / 2
  · obtain ⟨k, rfl⟩ : ∃ k, i = r - p + k := ⟨i - (r - p), by omega⟩
    have e1 : coarsePoint (nth U) (nth P) p r s u (r - p + k) = remL (nth U) (nth P) p u (r - p) (k + 1) := by
      unfold coarsePoint
      rw [if_neg (by omega), if_pos (by omega)]
      congr 1; omega
    have e2 : coarsePoint (nth U) (nth P) p r s u (r - p + k - 1) = remL (nth U) (nth P) p u (r - p) k := by
      unfold coarsePoint
      by_cases hk : k = 0
      · subst hk
        rw [if_pos (by omega)]
        rfl
      · rw [if_neg (by omega), if_pos (by omega)]
        congr 1; omega
    rw [e1, e2, remL, smul_inv_smul₀ d2.ne']
    module
  · obtain ⟨k, rfl⟩ : ∃ k, i = r - s - k := ⟨r - s - i, by omega⟩
    have e1 : coarsePoint (nth U) (nth P) p r s u (r - s - k) = remR (nth U) (nth P) p u (r - s) k := by
      unfold coarsePoint
      rw [if_neg (by omega), if_neg (by omega), if_pos (by omega)]
      congr 1; omega
    have e2 : coarsePoint (nth U) (nth P) p r s u (r - s - k - 1) = remR (nth U) (nth P) p u (r - s) (k + 1) := by
      unfold coarsePoint
      rw [if_neg (by omega), if_neg (by omega), if_pos (by omega)]
      congr 1; omega
    rw [e1, e2, remR, smul_inv_smul₀ (by linarith)]
    module

/-- at the index where the sweeps meet, the point differs by a multiple (at most one) of the difference of the two compared points -/
theorem coarse_odd (hi : InsertAt (nth U) p n r s u) (hs : 1 ≤ s) (hr : p < r) : ∃ δ : K, |δ| ≤ 1 ∧
    remA (nth U) p u (oddIndex p r s) • coarsePoint (nth U) (nth P) p r s u (oddIndex p r s) +
      (1 - remA (nth U) p u (oddIndex p r s)) • coarsePoint (nth U) (nth P) p r s u (oddIndex p r s - 1) =
    nth P (oddIndex p r s) + δ • ((boundPair U P p r s u).1 - (boundPair U P p r s u).2) := by
  have hsp := hi.sp
  have hkn := hi.kn
  have e2 : coarsePoint (nth U) (nth P) p r s u (oddIndex p r s - 1) = remL (nth U) (nth P) p u (r - p) ((p - s + 1) / 2) := by
    unfold coarsePoint oddIndex
    by_cases hk : (p - s + 1) / 2 = 0
    · rw [hk, if_pos (by omega)]
      rfl
    · rw [if_neg (by omega), if_pos (by omega)]
      congr 1; omega
  by_cases hc : (p - s) % 2 = 0
  · have e : (p - s + 1) / 2 = (p - s) / 2 := by omega
    have e1 : coarsePoint (nth U) (nth P) p r s u (oddIndex p r s) = remR (nth U) (nth P) p u (r - s) ((p - s) / 2) := by
      unfold coarsePoint oddIndex
      rw [if_neg (by omega), if_neg (by omega), if_pos (by omega)]
      congr 1; omega
    refine ⟨-1, by simp, ?_⟩
    rw [e1, e2]
    unfold boundPair oddIndex
    rw [if_pos hc, e]
    module
  · obtain ⟨d1, d2, d3⟩ := remA_pos hi (i := oddIndex p r s) (by unfold oddIndex; omega) (by unfold oddIndex; omega)
    have e1 : coarsePoint (nth U) (nth P) p r s u (oddIndex p r s) = remR (nth U) (nth P) p u (r - s) ((p - s + 1) / 2 - 1) := by
      unfold coarsePoint oddIndex
      rw [if_neg (by omega), if_neg (by omega), if_pos (by omega)]
      congr 1; omega
    have e3 : remR (nth U) (nth P) p u (r - s) ((p - s + 1) / 2) = (1 - remA (nth U) p u (oddIndex p r s))⁻¹ •
        (nth P (oddIndex p r s) - remA (nth U) p u (oddIndex p r s) • remR (nth U) (nth P) p u (r - s) ((p - s + 1) / 2 - 1)) := by
      obtain ⟨m, hm⟩ : ∃ m, (p - s + 1) / 2 = m + 1 := ⟨(p - s + 1) / 2 - 1, by omega⟩
      have : oddIndex p r s = r - s - m := by unfold oddIndex; omega
      rw [hm, remR, this]
      rfl
    refine ⟨1 - remA (nth U) p u (oddIndex p r s), by rw [abs_of_nonneg (by linarith)]; linarith, ?_⟩
    rw [e1, e2]
    unfold boundPair
    rw [if_neg hc]
    dsimp only
    rw [smul_sub, e3, smul_inv_smul₀ (by linarith)]
    abel

/-- the points computed by the sweeps, if the curve comes from an insertion -/
theorem coarse_unique (hi : InsertAt (nth U) p n r s u) (hs : 1 ≤ s) (hr : p < r) {P0 : ℕ → T} (hlo : P0 (r - p - 1) = nth P (r - p - 1))
    (hhi : P0 (r - s) = nth P (r - s + 1)) (hmid : ∀ i, r - p ≤ i → i ≤ r - s → nth P i = remA (nth U) p u i • P0 i + (1 - remA (nth U) p u i) • P0 (i - 1)) :
    (boundPair U P p r s u).1 = (boundPair U P p r s u).2 := by
  have hsp := hi.sp
  have hkn := hi.kn
  have hL : ∀ k, k ≤ p - s + 1 → remL (nth U) (nth P) p u (r - p) k = P0 (r - p - 1 + k) := by
    intro k
    induction k with
    | zero => intro _; rw [remL, ← hlo]; rfl
    | succ k ih =>
      intro hk
      obtain ⟨d1, d2, d3⟩ := remA_pos hi (i := r - p + k) (by omega) (by omega)
      rw [remL, ih (by omega), hmid _ (by omega) (by omega), inv_smul_eq_iff₀ d2.ne',
        show r - p + k - 1 = r - p - 1 + k by omega, show r - p - 1 + (k + 1) = r - p + k by omega]
      abel
  have hR : ∀ k, k ≤ p - s + 1 → remR (nth U) (nth P) p u (r - s) k = P0 (r - s - k) := by
    intro k
    induction k with
    | zero => intro _; rw [remR, ← hhi]; rfl
    | succ k ih =>
      intro hk
      obtain ⟨d1, d2, d3⟩ := remA_pos hi (i := r - s - k) (by omega) (by omega)
      rw [remR, ih (by omega), hmid _ (by omega) (by omega), inv_smul_eq_iff₀ (by linarith),
        show r - s - (k + 1) = r - s - k - 1 by omega]
      abel
  unfold boundPair
  split_ifs with hc
  · dsimp only
    rw [hL _ (by omega), hR _ (by omega), hmid _ (by omega) (by omega), show r - s - (p - s) / 2 = r - p + (p - s) / 2 by omega,
      show r - p - 1 + (p - s) / 2 = r - p + (p - s) / 2 - 1 by omega]
  · dsimp only
    rw [hL _ (by omega), hR _ (by omega)]
    congr 1; omega

/-! ### The curves -/

theorem sep_widen {a b a' b' : K} (h : b - a > 1 / 1000000 * (1 + max |a| |b|)) (ha : a' ≤ a) (hb : b ≤ b') : b' - a' > 1 / 1000000 * (1 + max |a'| |b'|) := by
  have x1 : |a'| ≤ |a| + (a - a') := by
    have := abs_sub_abs_le_abs_sub a' a
    rw [abs_sub_comm, abs_of_nonneg (sub_nonneg.mpr ha)] at this
    linarith
  have x2 : |b'| ≤ |b| + (b' - b) := by
    have := abs_sub_abs_le_abs_sub b' b
    rw [abs_of_nonneg (sub_nonneg.mpr hb)] at this
    linarith
  have x3 : max |a'| |b'| ≤ max |a| |b| + ((a - a') + (b' - b)) := by
    apply max_le
    · have := le_max_left |a| |b|
      linarith
    · have := le_max_right |a| |b|
      linarith
  linarith

/-- what is known at an interior knot with the index `r` of its last occurrence -/
theorem atKnot {c : BsplineCurve K T} (w : WellFormed c p (n + 1)) (he : EndsSeparated (nth c.knots) p (n + 1)) (hsep : KnotSeparated c.knots (nth c.knots r))
    (h0 : nth c.knots p < nth c.knots r) (h1 : nth c.knots r < nth c.knots (r + 1)) (hrn : r ≤ n + 1) (hs : c.knots.count (nth c.knots r) ≤ p) :
    p < r ∧ 1 ≤ c.knots.count (nth c.knots r) ∧ getKnotMultiplicity c.knots (nth c.knots r) = ok ((c.knots.count (nth c.knots r) : ℕ) : ℤ) ∧
      InsertAt (nth c.knots) p (n + 1) r (c.knots.count (nth c.knots r)) (nth c.knots r) := by
  have hm := wf_monoTo w
  have hU := w.knots
  have hpr : p < r := by
    by_contra h
    exact absurd (lt_of_lt_of_le h0 (hm r p (by omega) (by omega))) (lt_irrefl _)
  have hlt : nth c.knots r < nth c.knots (n + 1 + 1) := lt_of_lt_of_le h1 (hm _ _ (by omega) (by omega))
  obtain ⟨k, -, a2, a3⟩ := insertAt_of w he hsep h0.le hlt hs
  have hk : k = r := by
    have b1 := a3.lo
    have b2 := a3.hi
    have b3 := a3.kn
    by_contra hne
    rcases lt_or_gt_of_ne hne with h | h
    · exact absurd (lt_of_lt_of_le b2 (hm (k + 1) r (by omega) (by omega))) (lt_irrefl _)
    · exact absurd (lt_of_lt_of_le h1 ((hm (r + 1) k (by omega) (by omega)).trans b1)) (lt_irrefl _)
  subst hk
  refine ⟨hpr, ?_, a2, a3⟩
  rw [Nat.one_le_iff_ne_zero, Ne, List.count_eq_zero, not_not]
  have hlt' : k < c.knots.length := by omega
  have : nth c.knots k = c.knots[k] := by
    unfold nth
    simp [hlt']
  rw [this]
  exact List.getElem_mem hlt'

/-- the curve without the knot -/
def coarseCurve (c : BsplineCurve K T) (p n r : ℕ) : BsplineCurve K T :=
  { degree := p, knots := c.knots.eraseIdx r,
    cps := (List.range (n + 1)).map (coarsePoint (nth c.knots) (nth c.cps) p r (c.knots.count (nth c.knots r)) (nth c.knots r)) }

theorem coarse_wf {c : BsplineCurve K T} (w : WellFormed c p (n + 1)) (hpr : p < r) (hrn : r ≤ n + 1) : WellFormed (coarseCurve c p n r) p n := by
  have hU := w.knots
  have hm := wf_monoTo w
  refine ⟨rfl, w.pos, w.le7, by simp [coarseCurve], by omega, ?_, ?_⟩
  · simp only [coarseCurve]
    rw [List.length_eraseIdx_of_lt (by omega)]; omega
  · intro i j hij hj
    simp only [coarseCurve] at hj ⊢
    rw [List.length_eraseIdx_of_lt (by omega)] at hj
    rw [eraseIdx_nth, eraseIdx_nth]
    split_ifs with a b b
    · exact hm i j hij (by omega)
    · exact hm i (j + 1) (by omega) (by omega)
    · omega
    · exact hm (i + 1) (j + 1) (by omega) (by omega)

theorem coarse_ends {c : BsplineCurve K T} (w : WellFormed c p (n + 1)) (he : EndsSeparated (nth c.knots) p (n + 1)) (hpr : p < r) (hrn : r ≤ n + 1) :
    EndsSeparated (nth (coarseCurve c p n r).knots) p n := by
  have hU := w.knots
  have hm := wf_monoTo w
  constructor
  · simp only [coarseCurve]
    rw [eraseIdx_nth, eraseIdx_nth, if_pos hpr]
    split_ifs with h
    · exact he.first
    · exact sep_widen he.first le_rfl (hm (p + 1) (p + 1 + 1) (by omega) (by omega))
  · simp only [coarseCurve]
    rw [eraseIdx_nth, eraseIdx_nth, if_neg (by omega : ¬ n + 1 < r)]
    split_ifs with h
    · have := he.last
      exact sep_widen this (hm n (n + 1) (by omega) (by omega)) le_rfl
    · exact he.last

/-- inserting the knot again gives the curve back, except for the one control point where the sweeps meet -/
theorem coarse_run {c : BsplineCurve K T} (w : WellFormed c p (n + 1)) (he : EndsSeparated (nth c.knots) p (n + 1)) (hsep : KnotSeparated c.knots (nth c.knots r))
    (h0 : nth c.knots p < nth c.knots r) (h1 : nth c.knots r < nth c.knots (r + 1)) (hrn : r ≤ n + 1) (hs : c.knots.count (nth c.knots r) ≤ p) :
    ∃ (j : ℕ) (δ : K), j ≤ n + 1 ∧ |δ| ≤ 1 ∧ insertKnot (coarseCurve c p n r) (nth c.knots r) 1 (coarseCurve c p n r) =
      ok (1, { c with cps := c.cps.set j (nth c.cps j + δ • ((boundPair c.knots c.cps p r (c.knots.count (nth c.knots r)) (nth c.knots r)).1 -
        (boundPair c.knots c.cps p r (c.knots.count (nth c.knots r)) (nth c.knots r)).2)) }) := by
  obtain ⟨hpr, hs1, hmul, hi⟩ := atKnot w he hsep h0 h1 hrn hs
  obtain ⟨δ, hδ, hodd⟩ := coarse_odd (P := c.cps) hi hs1 hpr
  have hins := fun i => coarse_insert (P := c.cps) hi hs1 hpr (i := i)
  set s := c.knots.count (nth c.knots r) with hsdef
  set u := nth c.knots r with hu
  set c0 := coarseCurve c p n r with hc0
  have hU := w.knots
  have hP := w.cps
  have hm := wf_monoTo w
  have w0 : WellFormed c0 p n := coarse_wf w hpr hrn
  have he0 : EndsSeparated (nth c0.knots) p n := coarse_ends w he hpr hrn
  have hK : ∀ i, nth c0.knots i = if i < r then nth c.knots i else nth c.knots (i + 1) := fun i => eraseIdx_nth _ _ _
  have hC : ∀ i, i ≤ n → nth c0.cps i = coarsePoint (nth c.knots) (nth c.cps) p r s u i := by
    intro i hi'
    have hlt : i < n + 1 := by omega
    simp only [hc0, coarseCurve]
    conv_lhs => unfold nth
    simp [hlt]
    rfl
  have hrl : r < c.knots.length := by omega
  have hperm : (u :: c0.knots).Perm c.knots := by
    have : u = c.knots[r] := by
      rw [hu]; unfold nth; simp [hrl]
    rw [this]
    exact List.getElem_cons_eraseIdx_perm hrl
  have hcount : c0.knots.count u + 1 = s := by
    rw [hsdef, ← hperm.count_eq]; simp
  have hsep0 : KnotSeparated c0.knots u := fun x hx => hsep x (hperm.mem_iff.mp (List.mem_cons_of_mem _ hx))
  obtain ⟨k, q1, q2, q3⟩ := insertAt_of w0 he0 hsep0 (by rw [hK, if_pos hpr]; exact h0.le)
    (by rw [hK, if_neg (by omega)]; exact lt_of_lt_of_le h1 (hm _ _ (by omega) (by omega))) (by omega)
  have hk : k + 1 = r := by
    have b1 := q3.lo
    have b2 := q3.hi
    have b3 := q3.kn
    rw [hK] at b1 b2
    by_contra hne
    rcases lt_or_gt_of_ne hne with h | h
    · rw [if_pos h] at b2
      exact absurd (lt_of_lt_of_le b2 (hm (k + 1) r (by omega) (by omega))) (lt_irrefl _)
    · rw [if_neg (by omega)] at b1
      exact absurd (lt_of_lt_of_le h1 ((hm (r + 1) (k + 1) (by omega) (by omega)).trans b1)) (lt_irrefl _)
  have hkn := q3.kn
  obtain ⟨o, ho, o1, o2, o3, o4, o5, o6⟩ := insertKnot_run (r := 1) (t := 1) (res := c0) w0 q1 q2 q3 (by omega)
    (by rw [if_neg (by omega)]; simp) le_rfl (by omega)
  have hmidE : ∀ j, r - p ≤ j → j ≤ r - s → E (nth c0.knots) p (nth c0.cps) (List.replicate 1 u) (j - 1) =
      remA (nth c.knots) p u j • coarsePoint (nth c.knots) (nth c.cps) p r s u j + (1 - remA (nth c.knots) p u j) • coarsePoint (nth c.knots) (nth c.cps) p r s u (j - 1) := by
    intro j j1 j2
    obtain ⟨d1, d2, d3⟩ := remA_pos hi (i := j) (by omega) (by omega)
    simp only [List.replicate_one, E, List.length_nil, Nat.add_zero]
    rw [show j - 1 + p + 1 = j + p by omega, show j - 1 + 1 = j by omega, hK, hK, if_neg (by omega), if_pos (by omega), hC _ (by omega), hC _ (by omega), add_comm]
    have : (nth c.knots (j + p + 1) - u) / (nth c.knots (j + p + 1) - nth c.knots j) = 1 - remA (nth c.knots) p u j := by
      unfold remA
      field_simp
      ring
    rw [this]
    rfl
  have hpts : ∀ j, r - p ≤ j → j ≤ r - s → nth o.2.cps j = remA (nth c.knots) p u j • coarsePoint (nth c.knots) (nth c.cps) p r s u j +
      (1 - remA (nth c.knots) p u j) • coarsePoint (nth c.knots) (nth c.cps) p r s u (j - 1) := by
    intro j j1 j2
    rw [← hmidE j j1 j2]
    by_cases ja : j = r - p
    · have := o6.left 1 le_rfl le_rfl (by omega)
      rw [show k - p + 1 = j by omega, show k - p = j - 1 by omega] at this
      exact this
    · by_cases jb : j = r - s
      · have := o6.right 1 le_rfl le_rfl (by omega)
        rw [show k + 1 - 1 - c0.knots.count u = j by omega, show k - c0.knots.count u - 1 = j - 1 by omega] at this
        exact this
      · exact o6.mid j (by omega) (by omega)
  have hoddlt : oddIndex p r s ≤ n + 1 := by unfold oddIndex; omega
  have hodd1 : r - p ≤ oddIndex p r s := by unfold oddIndex; omega
  have hodd2 : oddIndex p r s ≤ r - s := by unfold oddIndex; omega
  refine ⟨oddIndex p r s, δ, hoddlt, hδ, ?_⟩
  rw [ho]
  congr 1
  have eknots : o.2.knots = c.knots := by
    apply ext_nth (by omega)
    intro i hi'
    rcases lt_trichotomy i r with h | h | h
    · rw [o5.lo i (by omega), hK, if_pos h]
    · rw [o5.mid i (by omega) (by omega), h]
    · rw [o5.hi i (by omega) (by omega), hK, if_neg (by omega)]
      congr 1; omega
  have ecps : o.2.cps = c.cps.set (oddIndex p r s) (nth c.cps (oddIndex p r s) + δ • ((boundPair c.knots c.cps p r s u).1 - (boundPair c.knots c.cps p r s u).2)) := by
    apply ext_nth (by simp; omega)
    intro j hj
    rw [nth_set (by omega)]
    by_cases j1 : j < r - p
    · rw [if_neg (by omega), o6.lo j (by omega), hC j (by omega)]
      unfold coarsePoint
      rw [if_pos j1]
    · by_cases j2 : j ≤ r - s
      · rw [hpts j (by omega) j2]
        split_ifs with h
        · rw [h]; exact hodd
        · exact hins j (by omega) j2 h
      · rw [if_neg (by omega), o6.hi j (by omega) (by omega) (by omega), hC _ (by omega)]
        unfold coarsePoint
        rw [if_neg (by omega), if_neg (by omega)]
        split_ifs with h
        · rw [show r - s - (j - 1) = 0 by omega, remR]
          congr 1; omega
        · congr 1; omega
  have hd := w.degree
  obtain ⟨o', od⟩ := o
  cases od
  simp only at o1 o2 eknots ecps
  simp only [o1, o2, eknots, ecps, ← hd]
  rfl

theorem distance4_zero {a b : XYZW ℝ} : XYZW.distance a b = 0 ↔ a = b := by
  unfold XYZW.distance
  rw [Real.sqrt_eq_zero (by positivity)]
  constructor
  · intro h
    have h1 : (b.wx - a.wx) ^ 2 = 0 := by nlinarith [sq_nonneg (b.wx - a.wx), sq_nonneg (b.wy - a.wy), sq_nonneg (b.wz - a.wz), sq_nonneg (b.w - a.w)]
    have h2 : (b.wy - a.wy) ^ 2 = 0 := by nlinarith [sq_nonneg (b.wx - a.wx), sq_nonneg (b.wy - a.wy), sq_nonneg (b.wz - a.wz), sq_nonneg (b.w - a.w)]
    have h3 : (b.wz - a.wz) ^ 2 = 0 := by nlinarith [sq_nonneg (b.wx - a.wx), sq_nonneg (b.wy - a.wy), sq_nonneg (b.wz - a.wz), sq_nonneg (b.w - a.w)]
    have h4 : (b.w - a.w) ^ 2 = 0 := by nlinarith [sq_nonneg (b.wx - a.wx), sq_nonneg (b.wy - a.wy), sq_nonneg (b.wz - a.wz), sq_nonneg (b.w - a.w)]
    simp only [ne_eq, OfNat.ofNat_ne_zero, not_false_eq_true, pow_eq_zero_iff, sub_eq_zero] at h1 h2 h3 h4
    apply XYZW.ext <;> simp [*]
  · rintro rfl
    ring

theorem distance4_smul {a b P : XYZW ℝ} {k : ℝ} : XYZW.distance (P + k • (a - b)) P = |k| * XYZW.distance a b := by
  unfold XYZW.distance
  rw [← Real.sqrt_sq_eq_abs, ← Real.sqrt_mul (sq_nonneg k)]
  congr 1
  simp only [XYZW.add_wx, XYZW.add_wy, XYZW.add_wz, XYZW.add_w, XYZW.smul_wx, XYZW.smul_wy, XYZW.smul_wz, XYZW.smul_w, XYZW.sub_wx, XYZW.sub_wy, XYZW.sub_wz, XYZW.sub_w]
  ring

theorem curvePoint_set {U : ℕ → K} {p n k : ℕ} {l : List T} (hk : k ≤ n) (hl : l.length = n + 1) (D : T) (t : K) :
    curvePoint U p n (nth (l.set k (nth l k + D))) t = curvePoint U p n (nth l) t + N U (U (n + 1)) p k t • D := by
  unfold curvePoint
  have : ∀ i ∈ range (n + 1), N U (U (n + 1)) p i t • nth (l.set k (nth l k + D)) i = N U (U (n + 1)) p i t • nth l i + if i = k then N U (U (n + 1)) p k t • D else 0 := by
    intro i _
    rw [nth_set (by omega)]
    split_ifs with h
    · rw [h, smul_add]
    · rw [add_zero]
  rw [Finset.sum_congr rfl this, Finset.sum_add_distrib, Finset.sum_ite_eq' (range (n + 1)) k, if_pos (by simp; omega)]

end

section
variable {c : NurbsCurve ℝ} {p n r : ℕ}

/-- C144 (part): at the last occurrence of an interior knot (multiplicity at most the degree, apart from the other knots by more than the comparison tolerance) the
function returns a number, and a curve without this occurrence of the knot exists whose homogeneous points are at most that number away, at every parameter. -/
theorem C144_bound_partial (w : WellFormed c p (n + 1)) (he : EndsSeparated (nth c.knots) p (n + 1)) (hsep : KnotSeparated c.knots (nth c.knots r))
    (h0 : nth c.knots p < nth c.knots r) (h1 : nth c.knots r < nth c.knots (r + 1)) (hrn : r ≤ n + 1) (hs : c.knots.count (nth c.knots r) ≤ p) :
    ∃ (b : ℝ) (c0 : NurbsCurve ℝ), removeKnotErrorBound c (r : ℤ) = ok b ∧ WellFormed c0 p n ∧ c0.knots = c.knots.eraseIdx r ∧
      ∀ x, nth c.knots p ≤ x → x ≤ nth c.knots (n + 2) → ∃ A B, BsplineCurve.pointOnCurve c x = ok A ∧ BsplineCurve.pointOnCurve c0 x = ok B ∧ XYZW.distance B A ≤ b := by
  obtain ⟨hpr, hs1, hmul, hi⟩ := atKnot w he hsep h0 h1 hrn hs
  obtain ⟨j, δ, hj, hδ, hrun⟩ := coarse_run w he hsep h0 h1 hrn hs
  have hm := wf_monoTo w
  have hU := w.knots
  have w0 := coarse_wf (c := c) w hpr hrn
  have he0 := coarse_ends (c := c) w he hpr hrn
  set P := boundPair c.knots c.cps p r (c.knots.count (nth c.knots r)) (nth c.knots r) with hP
  have hK : ∀ i, nth (coarseCurve c p n r).knots i = if i < r then nth c.knots i else nth c.knots (i + 1) := fun i => eraseIdx_nth _ _ _
  have hrl : r < c.knots.length := by omega
  have hsep0 : KnotSeparated (coarseCurve c p n r).knots (nth c.knots r) := fun x hx => hsep x (List.mem_of_mem_eraseIdx hx)
  have ep : nth (coarseCurve c p n r).knots p = nth c.knots p := by rw [hK, if_pos hpr]
  have en : nth (coarseCurve c p n r).knots (n + 1) = nth c.knots (n + 2) := by rw [hK, if_neg (by omega)]
  have hlast : nth c.knots r < nth c.knots (n + 2) := lt_of_lt_of_le h1 (hm _ _ (by omega) (by omega))
  refine ⟨XYZW.distance P.1 P.2, coarseCurve c p n r, ?_, w0, rfl, ?_⟩
  · unfold removeKnotErrorBound
    rw [removeBoundPair_run w hs1 hpr hi hmul, ok_bind]
  · intro x hx0 hx1
    have hev := C11_insert_preserves w0 he0 hsep0 (by rw [ep]; exact h0) (by rw [en]; exact hlast) one_pos hrun one_pos (x := x) (by rw [ep]; exact hx0) (by rw [en]; exact hx1)
    set c1 : NurbsCurve ℝ := { c with cps := c.cps.set j (nth c.cps j + δ • (P.1 - P.2)) } with hc1
    have w1 : WellFormed c1 p (n + 1) := ⟨w.degree, w.pos, w.le7, by simp [c1, w.cps], w.pn, w.knots, w.sorted⟩
    have e1 : BsplineCurve.pointOnCurve c1 x = ok (curvePoint (nth c.knots) p (n + 1) (nth c1.cps) x) := C05_eval w1 he hx0 hx1
    refine ⟨_, _, C05_eval w he hx0 hx1, hev.1.symm.trans e1, ?_⟩
    rw [curvePoint_set hj w.cps, smul_smul, distance4_smul, abs_mul]
    obtain ⟨σ, -, hσ⟩ := span_isSpan w he hx0 hx1
    obtain ⟨n0, n1⟩ := basis_convex hm hσ
    have hNle : N (nth c.knots) (nth c.knots (n + 1 + 1)) p j x ≤ 1 := by
      rw [← n1]
      exact Finset.single_le_sum (f := fun i => N (nth c.knots) (nth c.knots (n + 1 + 1)) p i x) (fun i hi' => n0 i (by simp at hi'; omega)) (by simp; omega)
    have hd : 0 ≤ XYZW.distance P.1 P.2 := Real.sqrt_nonneg _
    have : |N (nth c.knots) (nth c.knots (n + 1 + 1)) p j x| * |δ| ≤ 1 := by
      rw [abs_of_nonneg (n0 j hj)]
      calc _ ≤ 1 * 1 := mul_le_mul hNle hδ (abs_nonneg _) zero_le_one
        _ = 1 := one_mul 1
    calc _ ≤ 1 * XYZW.distance P.1 P.2 := mul_le_mul_of_nonneg_right this hd
      _ = _ := one_mul _

/-- C144 (part): for such a knot the returned number is zero exactly if the curve is the result of an insertion of the knot into a curve without this occurrence. -/
theorem C144_zero_iff_partial (w : WellFormed c p (n + 1)) (he : EndsSeparated (nth c.knots) p (n + 1)) (hsep : KnotSeparated c.knots (nth c.knots r))
    (h0 : nth c.knots p < nth c.knots r) (h1 : nth c.knots r < nth c.knots (r + 1)) (hrn : r ≤ n + 1) (hs : c.knots.count (nth c.knots r) ≤ p) :
    removeKnotErrorBound c (r : ℤ) = ok 0 ↔ ∃ c0 : NurbsCurve ℝ, WellFormed c0 p n ∧ EndsSeparated (nth c0.knots) p n ∧ c0.knots = c.knots.eraseIdx r ∧ insertKnot c0 (nth c.knots r) 1 c0 = ok (1, c) := by
  obtain ⟨hpr, hs1, hmul, hi⟩ := atKnot w he hsep h0 h1 hrn hs
  have hm := wf_monoTo w
  have hU := w.knots
  have hrl : r < c.knots.length := by omega
  have hrun : removeKnotErrorBound c (r : ℤ) = ok (XYZW.distance (boundPair c.knots c.cps p r (c.knots.count (nth c.knots r)) (nth c.knots r)).1
      (boundPair c.knots c.cps p r (c.knots.count (nth c.knots r)) (nth c.knots r)).2) := by
    unfold removeKnotErrorBound
    rw [removeBoundPair_run w hs1 hpr hi hmul, ok_bind]
  rw [hrun]
  simp only [ok.injEq]
  rw [distance4_zero]
  constructor
  · intro h
    obtain ⟨j, δ, hj, hδ, hrun⟩ := coarse_run w he hsep h0 h1 hrn hs
    refine ⟨coarseCurve c p n r, coarse_wf w hpr hrn, coarse_ends w he hpr hrn, rfl, ?_⟩
    rw [hrun, h, sub_self, smul_zero, add_zero]
    have : c.cps.set j (nth c.cps j) = c.cps := by
      apply ext_nth (by simp)
      intro i hi'
      have := w.cps
      rw [nth_set (by omega)]
      split_ifs with e
      · rw [e]
      · rfl
    rw [this]
  · rintro ⟨c0, w0, he0, hk0, hins⟩
    have hK : ∀ i, nth c0.knots i = if i < r then nth c.knots i else nth c.knots (i + 1) := fun i => by rw [hk0]; exact eraseIdx_nth _ _ _
    have hperm : (nth c.knots r :: c0.knots).Perm c.knots := by
      have : nth c.knots r = c.knots[r] := by
        unfold nth; simp [hrl]
      rw [hk0, this]
      exact List.getElem_cons_eraseIdx_perm hrl
    have hcount : c0.knots.count (nth c.knots r) + 1 = c.knots.count (nth c.knots r) := by
      rw [← hperm.count_eq]; simp
    have hsep0 : KnotSeparated c0.knots (nth c.knots r) := fun x hx => hsep x (hperm.mem_iff.mp (List.mem_cons_of_mem _ hx))
    obtain ⟨k, a1, -, -, -, a5, -, -, a8⟩ := inserted_view w0 he0 hsep0 (by rw [hK, if_pos hpr]; exact h0)
      (by rw [hK, if_neg (by omega)]; exact lt_of_lt_of_le h1 (hm _ _ (by omega) (by omega))) (by omega) hins
    have hk : k + 1 = r := by
      have b1 := a5.lo
      have b2 := a5.hi
      have b3 := a5.kn
      by_contra hne
      rcases lt_or_gt_of_ne hne with h | h
      · exact absurd (lt_of_lt_of_le b2 (hm (k + 1 + 1) r (by omega) (by omega))) (lt_irrefl _)
      · exact absurd (lt_of_lt_of_le h1 ((hm (r + 1) (k + 1) (by omega) (by omega)).trans b1)) (lt_irrefl _)
    have hkn := a1.kn
    refine coarse_unique hi hs1 hpr (P0 := nth c0.cps) (a8.lo _ (by omega)).symm ?_ ?_
    · have := a8.hi (r - c.knots.count (nth c.knots r) + 1) (by omega) (by omega) (by omega)
      rw [this]
      congr 1
    · intro j j1 j2
      obtain ⟨d1, d2, d3⟩ := remA_pos hi (i := j) (by omega) (by omega)
      have hE : E (nth c0.knots) p (nth c0.cps) (List.replicate 1 (nth c.knots r)) (j - 1) =
          remA (nth c.knots) p (nth c.knots r) j • nth c0.cps j + (1 - remA (nth c.knots) p (nth c.knots r) j) • nth c0.cps (j - 1) := by
        simp only [List.replicate_one, E, List.length_nil, Nat.add_zero]
        rw [show j - 1 + p + 1 = j + p by omega, show j - 1 + 1 = j by omega, hK, hK, if_neg (by omega), if_pos (by omega), add_comm]
        have : (nth c.knots (j + p + 1) - nth c.knots r) / (nth c.knots (j + p + 1) - nth c.knots j) = 1 - remA (nth c.knots) p (nth c.knots r) j := by
          unfold remA
          field_simp
          ring
        rw [this]
        rfl
      rw [← hE]
      by_cases ja : j = r - p
      · have := a8.left 1 le_rfl le_rfl (by omega)
        rw [show k - p + 1 = j by omega, show k - p = j - 1 by omega] at this
        exact this
      · by_cases jb : j = r - c.knots.count (nth c.knots r)
        · have := a8.right 1 le_rfl le_rfl (by omega)
          rw [show k + 1 - 1 - c0.knots.count (nth c.knots r) = j by omega, show k - c0.knots.count (nth c.knots r) - 1 = j - 1 by omega] at this
          exact this
        · exact a8.mid j (by omega) (by omega)

/-- C144 (violated): every index of the knot vector is accepted, but at the start of the curve (an index up to the degree) the function reads in front of the control points. -/
theorem C144_start_violated (w : WellFormed c p n) (hr : r ≤ p) : removeKnotErrorBound c (r : ℤ) = ub := by
  have hU := w.knots
  have hm := wf_monoTo w
  have hmul := C17_multiplicity (U := c.knots) (u := nth c.knots r) (by intro h; rw [h] at hU; simp at hU) ((isValidKnotVector_iff c.knots).mp (isValidKnotVector_nth.mpr w.sorted))
    (hm 0 r (by omega) (by omega)) (by rw [hU]; exact hm r _ (by omega) (by omega))
  unfold removeKnotErrorBound removeBoundPair
  dsimp only
  rw [validateIndex_in (by omega), ok_bind, vget_nth (k := r) rfl (by omega), ok_bind, hmul, ok_bind, w.degree, vget_neg (by omega)]
  rfl

/-- C144: an index outside the knot vector is rejected. -/
theorem C144_rejects (c : NurbsCurve ℝ) {i : ℤ} (h : i < 0 ∨ (c.knots.length : ℤ) ≤ i) : removeKnotErrorBound c i = outOfRange := by
  unfold removeKnotErrorBound removeBoundPair validateIndex
  dsimp only
  rw [if_pos (by omega)]
  rfl

end

/-- the hypotheses of `C144_bound_partial` and `C144_zero_iff_partial` hold for the inner knot of a cubic with two spans -/
example : ∃ (b : ℝ) (c0 : NurbsCurve ℝ), removeKnotErrorBound exRem (4 : ℕ) = ok b ∧ WellFormed c0 3 3 ∧ c0.knots = exRem.knots.eraseIdx 4 := by
  have e : nth exRem.knots 4 = (1 : ℝ) := by simp [exRem, nth]
  obtain ⟨b, c0, h1, h2, h3, -⟩ := C144_bound_partial (c := exRem) (p := 3) (n := 3) (r := 4) exRem_wf exRem_ends (by rw [e]; exact exRem_sep)
    (by rw [e]; simp [exRem, nth]) (by rw [e]; simp [exRem, nth]) (by norm_num) (by rw [e, exRem_count]; norm_num)
  exact ⟨b, c0, h1, h2, h3⟩

/-- the hypotheses of `C144_start_violated` hold for its first knot -/
example : removeKnotErrorBound exRem (0 : ℕ) = ub := C144_start_violated exRem_wf (by norm_num)

end LNLib.Props
