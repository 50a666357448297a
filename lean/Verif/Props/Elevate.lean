import Verif.Lemmas.ElevRun
import Verif.Lemmas.ElevCount
import Verif.Props.Decompose
import Verif.Lemmas.SpanExists
import Mathlib.Tactic.IntervalCases

/-!
# C42: degree elevation (Geometry/Curve/NurbsCurve.cpp, `ElevateDegree`)
-/
set_option linter.unusedSectionVars false

namespace LNLib.Props
open LNLib Res Spec Finset

variable {K : Type} [Field K] [LinearOrder K] [IsStrictOrderedRing K]
variable {T : Type} [AddCommGroup T] [Module K T]

/-- `c'` (of degree `p + t` with control points `0, …, n'`) is `c` (of degree `p` with control points
`0, …, n`) elevated by `t`: sorted knots, every distinct knot repeated `t` times more, the same
domain, clamped, and the same point for every parameter. -/
structure Elevated (c c' : BsplineCurve K T) (p n t n' : ℕ) : Prop where
  degree : c'.degree = ((p + t : ℕ) : ℤ)
  cps : c'.cps.length = n' + 1
  knots : c'.knots.length = n' + (p + t) + 2
  sorted : ∀ i j, i ≤ j → j < c'.knots.length → nth c'.knots i ≤ nth c'.knots j
  mult : ∀ x, c'.knots.count x = if x ∈ c.knots then c.knots.count x + t else 0
  start : nth c'.knots (p + t) = nth c.knots p
  stop : nth c'.knots (n' + 1) = nth c.knots (n + 1)
  ends : EndsSeparated (nth c'.knots) (p + t) n'
  clamped : ClampedEnds (nth c'.knots) (p + t) n'
  points : ∀ x, nth c.knots p ≤ x → x ≤ nth c.knots (n + 1) →
    curvePoint (nth c'.knots) (p + t) n' (nth c'.cps) x = curvePoint (nth c.knots) p n (nth c.cps) x

/-- What `ElevateDegree` returns for every clamped curve with well-separated knots of multiplicity at
most `p` in the interior: the elevated curve, with `k` zero knots and `k` zero control points
appended, where `k = 0` exactly when the interior knots are simple. -/
theorem C42_elevate_result {c : BsplineCurve K T} {p n t : ℕ} (w : WellFormed c p n) (he : EndsSeparated (nth c.knots) p n)
    (hc : ClampedEnds (nth c.knots) p n) (hs : WellSeparated c.knots)
    (hmul : ∀ x, nth c.knots p < x → x < nth c.knots (n + 1) → c.knots.count x ≤ p) (ht : 0 < t) :
    ∃ (c' : BsplineCurve K T) (n' k : ℕ), Elevated c c' p n t n' ∧
      elevateDegree c (t : ℤ) = ok ⟨c'.degree, c'.knots ++ List.replicate k 0, c'.cps ++ List.replicate k 0⟩ ∧
      n' + k = n + (n + 1 - p) * t ∧ (k = 0 ↔ ∀ s, p ≤ s → s ≤ n → nth c.knots s < nth c.knots (s + 1)) := by
  have h := knotShape_of w he hc hs hmul
  have hpn := w.pn
  have hlen := w.knots
  obtain ⟨st, hd, hrun⟩ := elevateDegree_run (t := t) rfl rfl w.degree h (le_refl _) w.le7 ht w.cps
  have hbound := sig_bound c.knots p n t
  have hpt : p + t ≤ sig (nth c.knots) p t n := by rw [← h.sig_first (t := t)]; exact sig_le (le_refl _) hpn
  set N := n + (n + 1 - p) * t with hN
  set σ := sig (nth c.knots) p t n with hσ
  set W := elevKnot (nth c.knots) p n t with hW
  have hVl : st.V = (List.range (σ + (p + t) + 2)).map W ++ List.replicate (N - σ) 0 := by
    apply ext_nth
    · rw [hd.lenV]; simp; omega
    · intro i hi
      rw [hd.lenV] at hi
      by_cases h1 : i ≤ σ + (p + t) + 1
      · rw [hd.V1 i h1, nth_append_left (by simp; omega)]
        have : i < σ + (p + t) + 2 := by omega
        simp [nth, this, hW]
      · rw [hd.V0 i (by omega), nth_append_right (by simp; omega), nth_replicate_zero]
  have hQl : st.Q = st.Q.take (σ + 1) ++ List.replicate (N - σ) 0 := by
    have hlq := hd.lenQ
    apply ext_nth
    · rw [hlq]; simp; omega
    · intro i hi
      by_cases h1 : i ≤ σ
      · rw [nth_append_left (by simp; omega), nth_take (by omega)]
      · rw [hd.Q0 i (by omega), nth_append_right (by simp; omega), nth_replicate_zero]
  have hVn : ∀ i, i < σ + (p + t) + 2 → nth ((List.range (σ + (p + t) + 2)).map W) i = W i := by
    intro i hi
    simp [nth, hi]
  have hsW : ∀ {s : ℕ}, p ≤ s → s ≤ n → nth c.knots s < nth c.knots (s + 1) →
      W (sig (nth c.knots) p t s) = nth c.knots s ∧ W (sig (nth c.knots) p t s + 1) = nth c.knots (s + 1) := by
    intro s h1 h2 h3
    exact ⟨h.ek_at h1 h2 h3 _ (le_refl _) (by omega), h.ek_next h1 h2 h3⟩
  have e1 : W (p + t) = nth c.knots p := KnotShape.ek_first (le_refl _)
  have e1' : W (p + t + 1) = nth c.knots (p + 1) := by
    have := (hsW (le_refl p) hpn h.lo).2
    rwa [h.sig_first] at this
  have e2 := (hsW hpn (le_refl n) h.hi).1
  have e3 := (hsW hpn (le_refl n) h.hi).2
  rw [← hσ] at e2 e3
  refine ⟨⟨((p + t : ℕ) : ℤ), (List.range (σ + (p + t) + 2)).map W, st.Q.take (σ + 1)⟩, σ, N - σ, ?_, ?_, by omega, ?_⟩
  · refine ⟨rfl, by simp [hd.lenQ]; omega, by simp, ?_, ?_, ?_, ?_, ⟨?_, ?_⟩, ⟨?_, ?_⟩, ?_⟩
    · intro i j hij hj
      simp only [List.length_map, List.length_range] at hj
      rw [hVn i (by omega), hVn j hj]
      exact h.ek_mono (N := j) i j hij (le_refl _)
    · intro x
      dsimp only
      rw [hW, hσ, h.ek_count x]
      by_cases hx : x ∈ c.knots
      · rw [if_pos hx, if_pos hx]
      · rw [if_neg hx, if_neg hx, List.count_eq_zero_of_not_mem hx]
    · dsimp only
      rw [hVn _ (by omega), e1]
    · dsimp only
      rw [hVn _ (by omega), e3]
    · dsimp only
      rw [hVn _ (by omega), hVn _ (by omega), e1, e1']
      exact he.first
    · dsimp only
      rw [hVn _ (by omega), hVn _ (by omega), e2, e3]
      exact he.last
    · dsimp only
      rw [hVn _ (by omega), hVn _ (by omega), e1]
      exact KnotShape.ek_first (by omega)
    · dsimp only
      rw [hVn _ (by omega), hVn _ (by omega), e3]
      exact (h.ek_last (by omega)).symm
    · intro x h0 h1
      dsimp only
      have hlt : nth c.knots p < nth c.knots (n + 1) := lt_of_lt_of_le h.lo (h.mono _ _ (by omega) (by omega))
      obtain ⟨s, s1, s2, s3, s4, s5⟩ := exists_isSpan hpn hlt h0 h1
      obtain ⟨w1, w2⟩ := hsW s1 s2 s3
      have hsσ : sig (nth c.knots) p t s ≤ σ := sig_le s1 s2
      have hps : p + t ≤ sig (nth c.knots) p t s := by rw [← h.sig_first (t := t)]; exact sig_le (le_refl _) s1
      have hmonoV : MonoTo (nth ((List.range (σ + (p + t) + 2)).map W)) (σ + (p + t) + 1) := by
        intro i j hij hj
        rw [hVn i (by omega), hVn j (by omega)]
        exact h.ek_mono (N := j) i j hij (le_refl _)
      have hspan : IsSpan (nth ((List.range (σ + (p + t) + 2)).map W)) (p + t) σ x (sig (nth c.knots) p t s) := by
        refine ⟨hps, hsσ, ?_, ?_, ?_⟩
        · rw [hVn _ (by omega), hVn _ (by omega), w1, w2]; exact s3
        · rw [hVn _ (by omega), w1]; exact s4
        · rw [hVn _ (by omega), hVn _ (by omega), w2, e3]; exact s5
      have hpieceV : Piece (nth ((List.range (σ + (p + t) + 2)).map W)) (p + t) (sig (nth c.knots) p t s) :=
        ⟨hps, fun i j hij hj => hmonoV i j hij (by omega), hspan.2.2.1⟩
      rw [curvePoint_span hmonoV (le_refl _) hspan, pol_diag hpieceV,
        curvePoint_span h.mono (le_refl _) ⟨s1, s2, s3, s4, s5⟩, pol_diag (h.piece s1 s2 s3),
        pol_unique hpieceV (f := KnotShape.G c.knots c.cps p s) (h.G_polar s1 s2 s3) _ (by simp)]
      · unfold KnotShape.G
        exact elev_diag (by omega) x
      · intro j hj1 hj2
        rw [nth_take (by omega), hd.set j (by omega) s s1 s2 s3 hj2 hj1]
        congr 1
        apply kms_congr
        intro i hi
        exact (hVn _ (by omega)).symm
  · rw [hrun, hVl]
    conv_lhs => rw [hQl]
  · constructor
    · intro hk s h1 h2
      have hlen2 : (spansFrom (nth c.knots) p (n + 1 - p)).length = n + 1 - p := by
        have hle : (spansFrom (nth c.knots) p (n + 1 - p)).length ≤ n + 1 - p := by
          unfold spansFrom
          exact (List.length_filter_le _ _).trans (by simp)
        have hge : (n + 1 - p) * t ≤ t * (spansFrom (nth c.knots) p (n + 1 - p)).length := by
          have : σ = n + t * (spansFrom (nth c.knots) p (n + 1 - p)).length := rfl
          omega
        rw [Nat.mul_comm] at hge
        have := Nat.le_of_mul_le_mul_left hge ht
        omega
      have hmem : s ∈ spansFrom (nth c.knots) p (n + 1 - p) := by
        have : spansFrom (nth c.knots) p (n + 1 - p) = List.range' p (n + 1 - p) := by
          unfold spansFrom at hlen2 ⊢
          apply List.Sublist.eq_of_length List.filter_sublist
          rw [hlen2, List.length_range']
        rw [this, List.mem_range'_1]
        omega
      unfold spansFrom at hmem
      exact of_decide_eq_true (List.mem_filter.mp hmem).2
    · intro hsim
      have := sig_simple (t := t) hpn hsim
      omega

/-- C42 (the part that holds): for every clamped curve with well-separated ends and knots and simple
interior knots, `ElevateDegree` returns the elevated curve; it is valid and evaluates to the same
points (up to the largest supported degree, 7).  Missing: repeated interior knots, see below. -/
theorem C42_elevate_partial {c : BsplineCurve K T} {p n t : ℕ} (w : WellFormed c p n) (he : EndsSeparated (nth c.knots) p n)
    (hc : ClampedEnds (nth c.knots) p n) (hs : WellSeparated c.knots)
    (hsim : ∀ s, p ≤ s → s ≤ n → nth c.knots s < nth c.knots (s + 1))
    (hmul : ∀ x, nth c.knots p < x → x < nth c.knots (n + 1) → c.knots.count x ≤ p) (ht : 0 < t) :
    ∃ c', elevateDegree c (t : ℤ) = ok c' ∧ Elevated c c' p n t (n + (n + 1 - p) * t) ∧
      (p + t ≤ 7 → WellFormed c' (p + t) (n + (n + 1 - p) * t) ∧
        ∀ x, nth c.knots p ≤ x → x ≤ nth c.knots (n + 1) → c'.pointOnCurve x = c.pointOnCurve x) := by
  obtain ⟨c', n', k, h1, h2, h3, h4⟩ := C42_elevate_result w he hc hs hmul ht
  obtain rfl : k = 0 := h4.mpr hsim
  rw [add_zero] at h3
  subst h3
  simp only [List.replicate_zero, List.append_nil] at h2
  refine ⟨c', h2, h1, ?_⟩
  intro h7
  have w' : WellFormed c' (p + t) (n + (n + 1 - p) * t) :=
    ⟨h1.degree, by have := w.pos; omega, h7, h1.cps, by have := w.pn; nlinarith [Nat.sub_pos_of_lt (show p < n + 1 by omega)], h1.knots, h1.sorted⟩
  refine ⟨w', ?_⟩
  intro x hx0 hx1
  rw [C05_eval w he hx0 hx1, C05_eval w' h1.ends (by rw [h1.start]; exact hx0) (by rw [h1.stop]; exact hx1), h1.points x hx0 hx1]

/-- C42 for rational curves -/
theorem C42_elevate_rational_partial {c : NurbsCurve K} {p n t : ℕ} (w : WellFormed c p n) (he : EndsSeparated (nth c.knots) p n)
    (hc : ClampedEnds (nth c.knots) p n) (hs : WellSeparated c.knots)
    (hsim : ∀ s, p ≤ s → s ≤ n → nth c.knots s < nth c.knots (s + 1))
    (hmul : ∀ x, nth c.knots p < x → x < nth c.knots (n + 1) → c.knots.count x ≤ p) (ht : 0 < t) (h7 : p + t ≤ 7) :
    ∃ c', elevateDegree c (t : ℤ) = ok c' ∧ WellFormed c' (p + t) (n + (n + 1 - p) * t) ∧
        ∀ x, nth c.knots p ≤ x → x ≤ nth c.knots (n + 1) → NurbsCurve.pointOnCurve c' x = NurbsCurve.pointOnCurve c x := by
  obtain ⟨c', h1, _, h3⟩ := C42_elevate_partial w he hc hs hsim hmul ht
  refine ⟨c', h1, (h3 h7).1, ?_⟩
  intro x hx0 hx1
  unfold NurbsCurve.pointOnCurve
  rw [(h3 h7).2 x hx0 hx1]

/-- C42 is violated by every clamped curve with positive last knot that has a repeated interior knot:
the knot vector of the result is not sorted. -/
theorem C42_repeated_invalid {c : BsplineCurve K T} {p n t : ℕ} (w : WellFormed c p n) (he : EndsSeparated (nth c.knots) p n)
    (hc : ClampedEnds (nth c.knots) p n) (hs : WellSeparated c.knots)
    (hmul : ∀ x, nth c.knots p < x → x < nth c.knots (n + 1) → c.knots.count x ≤ p) (ht : 0 < t)
    {s : ℕ} (hps : p ≤ s) (hsn : s ≤ n) (hrep : nth c.knots s = nth c.knots (s + 1)) (hpos : 0 < nth c.knots (n + 1)) :
    ∃ c', elevateDegree c (t : ℤ) = ok c' ∧ ¬ ∀ i j, i ≤ j → j < c'.knots.length → nth c'.knots i ≤ nth c'.knots j := by
  obtain ⟨c', n', k, h1, h2, h3, h4⟩ := C42_elevate_result w he hc hs hmul ht
  refine ⟨_, h2, ?_⟩
  intro hall
  have hk : k ≠ 0 := fun h => by
    have := h4.mp h s hps hsn
    rw [hrep] at this
    exact lt_irrefl _ this
  have hl := h1.knots
  have := hall (n' + 1) c'.knots.length (by omega) (by simp; omega)
  dsimp only at this
  rw [nth_append_left (by omega), nth_append_right (le_refl _), nth_replicate_zero, h1.stop] at this
  exact absurd hpos (not_lt.mpr this)

/-- `ElevateDegree` rejects a nonpositive count. -/
theorem C42_elevate_rejects (c : BsplineCurve K T) {t : ℤ} (ht : t ≤ 0) : elevateDegree c t = invalidArg := by
  unfold elevateDegree
  dsimp only
  have : decide (t > 0) = false := by simpa using ht
  rw [this]
  rfl

/-- a cubic with simple interior knots -/
def exElev : BsplineCurve ℚ ℚ := ⟨3, [0, 0, 0, 0, 1, 2, 3, 3, 3, 3], [1, 5, 2, -3, 4, 7]⟩

theorem exElev_wf : WellFormed exElev 3 5 := wellFormed_of_check rfl (by decide) rfl rfl (by decide +kernel)

/-- the hypotheses of `C42_elevate_partial` are met by `exElev`, and the result is not the input -/
example : ∃ c', elevateDegree exElev 2 = ok c' ∧ WellFormed c' 5 11 ∧ c'.pointOnCurve (3 / 2) = exElev.pointOnCurve (3 / 2) := by
  obtain ⟨c', h1, _, h3⟩ := C42_elevate_partial (t := 2) exElev_wf ⟨by decide +kernel, by decide +kernel⟩
    ⟨by decide +kernel, by decide +kernel⟩ (by unfold WellSeparated; decide +kernel)
    (fun s h1 h2 => by interval_cases s <;> decide +kernel)
    (fun x h1 h2 => Nat.lt_succ_iff.mp (count_of_mem (q := 4) (by decide) (by decide +kernel) x h1 h2)) (by decide)
  exact ⟨c', h1, (h3 (by decide)).1, (h3 (by decide)).2 _ (by decide +kernel) (by decide +kernel)⟩

/-- the hypotheses of `C42_repeated_invalid` are met by a cubic with a double interior knot -/
example : ∃ c', elevateDegree exDecomp 1 = ok c' ∧ ¬ ∀ i j, i ≤ j → j < c'.knots.length → nth c'.knots i ≤ nth c'.knots j :=
  C42_repeated_invalid (t := 1) (s := 4) exDecomp_wf ⟨by decide +kernel, by decide +kernel⟩
    ⟨by decide +kernel, by decide +kernel⟩ (by unfold WellSeparated; decide +kernel)
    (fun x h1 h2 => Nat.lt_succ_iff.mp (count_of_mem (q := 4) (by decide) (by decide +kernel) x h1 h2)) (by decide) (by decide) (by decide)
    (by decide +kernel) (by decide +kernel)

/-- C42 is violated: the same curve can no longer be evaluated at a parameter of its domain after
elevation. -/
theorem C42_repeated_violated : ∃ c', elevateDegree exDecomp 1 = ok c' ∧ exDecomp.pointOnCurve (1 / 2) = ok (43 / 16) ∧ c'.pointOnCurve (1 / 2) = outOfRange := by
  refine ⟨⟨4, [0, 0, 0, 0, 0, 1, 1, 1, 2, 2, 3, 3, 3, 3, 3, 0], [1, 4, 7 / 2, 11 / 8, -19 / 8, -5 / 4, 7 / 2, 25 / 4, 11 / 2, 1, 0]⟩, ?_⟩
  decide +kernel

end LNLib.Props
