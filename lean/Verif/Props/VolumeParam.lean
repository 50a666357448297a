import Verif.Props.VolumeClosed

/-!
# C152: the parameters of a point in a volume, the validity check
-/
set_option linter.unusedSectionVars false

namespace LNLib.Props
open LNLib Res LNLib.Spec Finset

/-- all volumes answer the closedness queries -/
theorem isClosedVolume_runs {c : NurbsVolume ℝ} {p q r n m l : ℕ} (w : WellFormedV c p q r n m l) (he : EndsSeparatedV c p q r n m l) (hU : ClampedEnds (nth c.knotsU) p n) (hV : ClampedEnds (nth c.knotsV) q m)
    (hW : ClampedEnds (nth c.knotsW) r l) (d : VolumeDirection) : ∃ b, isClosedVolume c d = ok b := by
  cases d
  · obtain ⟨b, h, -⟩ := C151_closed_u_partial w he hU
    exact ⟨b, h⟩
  · obtain ⟨b, h, -⟩ := C151_closed_v_partial w he hV
    exact ⟨b, h⟩
  · obtain ⟨b, h, -⟩ := C151_closed_w_partial w he hW
    exact ⟨b, h⟩

theorem grid_dom {a b : ℝ} (hab : a ≤ b) {i N : ℕ} (hN : 0 < N) (hi : i ≤ N) : a ≤ a + i * ((b - a) / N) ∧ a + i * ((b - a) / N) ≤ b := by
  have hN' : (0 : ℝ) < N := by exact_mod_cast hN
  have hi' : (i : ℝ) ≤ N := by exact_mod_cast hi
  constructor
  · have : 0 ≤ (i : ℝ) * ((b - a) / N) := mul_nonneg (Nat.cast_nonneg _) (div_nonneg (by linarith) hN'.le)
    linarith
  · have : (i : ℝ) * ((b - a) / N) ≤ N * ((b - a) / N) := mul_le_mul_of_nonneg_right hi' (div_nonneg (by linarith) hN'.le)
    rw [mul_div_cancel₀ _ hN'.ne'] at this
    linarith

theorem goodDir_dom {d : ℤ} {U : List ℝ} {p n : ℕ} (g : GoodDir d U p n) : nth U p ≤ nth U (n + 1) := goodDir_mono g p (n + 1) (by have := g.pn; omega) (by have := g.pos; omega)

/-- C152 is violated by every volume: the search for the parameters of a point never returns, whatever the volume and the point.  If all degrees are at least two its first Newton step divides by zero, or, if the V degree
exceeds the W degree, reads past the end of an array (the volume derivatives are defective, see `C51_derivatives_violated`); if one of the degrees is one an exception is thrown. -/
theorem C152_param_violated {c : NurbsVolume ℝ} {p q r n m l : ℕ} (w : WellFormedV c p q r n m l) (he : EndsSeparatedV c p q r n m l) (hU : ClampedEnds (nth c.knotsU) p n) (hV : ClampedEnds (nth c.knotsV) q m)
    (hW : ClampedEnds (nth c.knotsW) r l) (P : XYZ ℝ) :
    getParamOnVolume c P = if 2 ≤ p ∧ 2 ≤ q ∧ 2 ≤ r then (if q ≤ r then nonfinite else ub) else invalidArg := by
  have lU := w.u.knots
  have lV := w.v.knots
  have lW := w.w.knots
  obtain ⟨bU, eU⟩ := isClosedVolume_runs w he hU hV hW .u
  obtain ⟨bV, eV⟩ := isClosedVolume_runs w he hU hV hW .v
  obtain ⟨bW, eW⟩ := isClosedVolume_runs w he hU hV hW .w
  unfold getParamOnVolume
  rw [vget_nth (i := 0) (k := 0) rfl (by omega), ok_bind, vget_nth (k := n + p + 1) (by omega) (by omega), ok_bind, vget_nth (i := 0) (k := 0) rfl (by omega), ok_bind,
    vget_nth (k := m + q + 1) (by omega) (by omega), ok_bind, vget_nth (i := 0) (k := 0) rfl (by omega), ok_bind,
    vget_nth (k := l + r + 1) (by omega) (by omega), ok_bind, hU.first, ← hU.last, hV.first, ← hV.last, hW.first, ← hW.last, eU, ok_bind, eV, ok_bind, eW, ok_bind]
  dsimp only
  have dU := goodDir_dom w.u
  have dV := goodDir_dom w.v
  have dW := goodDir_dom w.w
  have gr : ∀ i j k : ℕ, i < 40 → j < 40 → k < 40 → InDomainV c p q r n m l (nth c.knotsU p + ((i : ℤ) : ℝ) * ((nth c.knotsU (n + 1) - nth c.knotsU p) / 39))
      (nth c.knotsV q + ((j : ℤ) : ℝ) * ((nth c.knotsV (m + 1) - nth c.knotsV q) / 39)) (nth c.knotsW r + ((k : ℤ) : ℝ) * ((nth c.knotsW (l + 1) - nth c.knotsW r) / 39)) := by
    intro i j k hi hj hk
    have a := grid_dom dU (i := i) (N := 39) (by omega) (by omega)
    have b := grid_dom dV (i := j) (N := 39) (by omega) (by omega)
    have c := grid_dom dW (i := k) (N := 39) (by omega) (by omega)
    push_cast at a b c ⊢
    exact ⟨a.1, a.2, b.1, b.2, c.1, c.2⟩
  have start : Runs (forI 0 40 ((none : Option ℝ), (nth c.knotsU p, nth c.knotsV q, nth c.knotsW r)) fun i st =>
      forI 0 40 st fun j st => forI 0 40 st fun k st => nearestRoundV c P (nth c.knotsU p + (i : ℝ) * ((nth c.knotsU (n + 1) - nth c.knotsU p) / 39),
        nth c.knotsV q + (j : ℝ) * ((nth c.knotsV (m + 1) - nth c.knotsV q) / 39), nth c.knotsW r + (k : ℝ) * ((nth c.knotsW (l + 1) - nth c.knotsW r) / 39)) st)
      (fun st => InDomainV c p q r n m l st.2.1 st.2.2.1 st.2.2.2) := by
    refine Runs.forN (m := 0) (n := 40) (fun _ (st : Option ℝ × (ℝ × ℝ × ℝ)) => InDomainV c p q r n m l st.2.1 st.2.2.1 st.2.2.2) rfl rfl (by omega) ⟨le_refl _, dU, le_refl _, dV, le_refl _, dW⟩ ?_
    rintro i st - hi hst
    refine Runs.forN (m := 0) (n := 40) (fun _ (st : Option ℝ × (ℝ × ℝ × ℝ)) => InDomainV c p q r n m l st.2.1 st.2.2.1 st.2.2.2) rfl rfl (by omega) hst ?_
    rintro j st - hj hst
    refine Runs.forN (m := 0) (n := 40) (fun _ (st : Option ℝ × (ℝ × ℝ × ℝ)) => InDomainV c p q r n m l st.2.1 st.2.2.1 st.2.2.2) rfl rfl (by omega) hst ?_
    rintro k st - hk hst
    have d := gr i j k hi hj hk
    unfold nearestRoundV NurbsVolume.pointOnVolume
    dsimp only
    rw [C50_eval w he d, ok_bind, ok_bind]
    rcases st with ⟨_ | x, t⟩
    · exact Runs.ok d
    · dsimp only
      split_ifs
      · exact Runs.ok d
      · exact Runs.ok hst
  obtain ⟨st, est, hst⟩ := start
  rw [est, ok_bind, forI_head (by omega), if_neg (by simp)]
  unfold newtonRoundV
  dsimp only
  split_ifs with h hqr
  · rw [show (2 : ℤ) = ((2 : ℕ) : ℤ) from rfl, C51_derivatives_violated w he hst h.1 h.2.1 h.2.2, if_pos hqr]
    rfl
  · rw [show (2 : ℤ) = ((2 : ℕ) : ℤ) from rfl, C51_derivatives_violated w he hst h.1 h.2.1 h.2.2, if_neg hqr]
    rfl
  · rw [show (2 : ℤ) = ((2 : ℕ) : ℤ) from rfl, C51_order_rejected w he hst (by omega)]
    rfl

/-- C152 is violated by every volume: the validity check computes no Jacobian, whatever the volume: at its first sample it divides by zero, or reads past the end of an array if the V degree exceeds the W degree.  In the
first case the program goes on with values that are not numbers, which are never at most zero, and accepts the volume. -/
theorem C152_check_violated {c : NurbsVolume ℝ} {p q r n m l : ℕ} (w : WellFormedV c p q r n m l) (he : EndsSeparatedV c p q r n m l) (hU : ClampedEnds (nth c.knotsU) p n) (hV : ClampedEnds (nth c.knotsV) q m)
    (hW : ClampedEnds (nth c.knotsW) r l) : checkVolume c = if q ≤ r then nonfinite else ub := by
  have lU := w.u.knots
  have lV := w.v.knots
  have lW := w.w.knots
  unfold checkVolume
  rw [vget_nth (i := 0) (k := 0) rfl (by omega), ok_bind, vget_nth (k := n + p + 1) (by omega) (by omega), ok_bind, vget_nth (i := 0) (k := 0) rfl (by omega), ok_bind,
    vget_nth (k := m + q + 1) (by omega) (by omega), ok_bind, vget_nth (i := 0) (k := 0) rfl (by omega), ok_bind,
    vget_nth (k := l + r + 1) (by omega) (by omega), ok_bind, hU.first, ← hU.last, hV.first, ← hV.last, hW.first, ← hW.last]
  dsimp only
  have d : InDomainV c p q r n m l (nth c.knotsU p) (nth c.knotsV q) (nth c.knotsW r) := ⟨le_refl _, goodDir_dom w.u, le_refl _, goodDir_dom w.v, le_refl _, goodDir_dom w.w⟩
  rw [forI_head (by omega), if_pos rfl, forI_head (by omega), if_pos rfl, forI_head (by omega), if_pos rfl]
  have e := C51_derivatives_violated (d := 1) w he d w.u.pos w.v.pos w.w.pos
  unfold positiveAt
  rw [Int.cast_zero, zero_mul, add_zero, zero_mul, add_zero, zero_mul, add_zero, show (1 : ℤ) = ((1 : ℕ) : ℤ) from rfl, e]
  split_ifs <;> rfl

/-! ### Examples -/

example (P : XYZ ℝ) : getParamOnVolume loopVolume P = invalidArg := by
  rw [C152_param_violated loopVolume_wf.1 loopVolume_wf.2.1 loopVolume_wf.2.2 ⟨rfl, rfl⟩ ⟨rfl, rfl⟩, if_neg (by decide)]

example : checkVolume loopVolume = nonfinite := by
  rw [C152_check_violated loopVolume_wf.1 loopVolume_wf.2.1 loopVolume_wf.2.2 ⟨rfl, rfl⟩ ⟨rfl, rfl⟩, if_pos (by decide)]

end LNLib.Props
