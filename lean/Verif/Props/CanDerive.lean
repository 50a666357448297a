import Mathlib.Analysis.Calculus.Deriv.MeanValue
import Verif.Model.CanDerive
import Verif.Props.Closed
import Verif.Props.Reshape
import Verif.Lemmas.BezierKnots

/-!
# C146: the differentiability test
-/

namespace LNLib.Props
open LNLib Res LNLib.Spec Finset

/-- `t` is a parameter of the domain `[a, b]` that is not within the tolerance of the library of an end -/
def Inside (a b t : ℝ) : Prop := a + 1 / 1000000 * (1 + max |t| |a|) < t ∧ t < b - 1 / 1000000 * (1 + max |t| |b|)

theorem inside_run {c : NurbsCurve ℝ} {p n : ℕ} {t : ℝ} {A M B : XYZ ℝ} (w : WellFormed c p n)
    (hin : Inside (nth c.knots 0) (nth c.knots (n + p + 1)) t) (hA : NurbsCurve.pointOnCurve c (t - 1 / 100000000) = ok A)
    (hM : NurbsCurve.pointOnCurve c t = ok M) (hB : NurbsCurve.pointOnCurve c (t + 1 / 100000000) = ok B) :
    canComputeDerivative c t = ok ((((-(1 / 100000000) : ℝ)⁻¹) • (A - M)).almostEq (((1 / 100000000 : ℝ)⁻¹) • (B - M))) := by
  have hU := w.knots
  have e0 : vget c.knots 0 = ok (nth c.knots 0) := vget_nth (by rfl) (by omega)
  have e1 : vget c.knots ((c.knots.length : ℤ) - 1) = ok (nth c.knots (n + p + 1)) := vget_nth (by omega) (by omega)
  have f0 : isAlmostEqualTo t (nth c.knots 0) = false := by
    refine almost_far (lt_of_lt_of_le ?_ (le_abs_self _))
    linarith [hin.1]
  have f1 : isAlmostEqualTo t (nth c.knots (n + p + 1)) = false := by
    refine almost_far (lt_of_lt_of_le ?_ (neg_le_abs _))
    linarith [hin.2]
  unfold canComputeDerivative
  rw [e0, ok_bind, f0]
  simp only [Bool.false_eq_true, if_false]
  rw [e1, ok_bind, f1]
  simp only [Bool.false_eq_true, if_false]
  rw [hM, ok_bind]
  rw [hA, ok_bind, vdiv_ok (by norm_num), ok_bind, hB, ok_bind, vdiv_ok (by norm_num), ok_bind]

/-- C146, partial: the test says yes when the derivative of the curve varies by at most `1e-6` (in each coordinate) in the neighbourhood of width `1e-8`
of the parameter. -/
theorem C146_smooth_partial {c : NurbsCurve ℝ} {p n : ℕ} {t : ℝ} {f f' : ℝ → XYZ ℝ} (w : WellFormed c p n)
    (hin : Inside (nth c.knots 0) (nth c.knots (n + p + 1)) t)
    (hf : ∀ s, |s - t| ≤ 1 / 100000000 → NurbsCurve.pointOnCurve c s = ok (f s))
    (hx : ∀ s, |s - t| ≤ 1 / 100000000 → HasDerivAt (fun s => (f s).x) (f' s).x s)
    (hy : ∀ s, |s - t| ≤ 1 / 100000000 → HasDerivAt (fun s => (f s).y) (f' s).y s)
    (hz : ∀ s, |s - t| ≤ 1 / 100000000 → HasDerivAt (fun s => (f s).z) (f' s).z s)
    (hv : ∀ s s', |s - t| ≤ 1 / 100000000 → |s' - t| ≤ 1 / 100000000 →
      |(f' s).x - (f' s').x| ≤ 1 / 1000000 ∧ |(f' s).y - (f' s').y| ≤ 1 / 1000000 ∧ |(f' s).z - (f' s').z| ≤ 1 / 1000000) :
    canComputeDerivative c t = ok true := by
  rw [inside_run w hin (hf _ (by norm_num)) (hf _ (by norm_num)) (hf _ (by norm_num))]
  congr 1
  rw [almostEq_iff]
  have slope : ∀ (g g' : ℝ → ℝ), (∀ s, |s - t| ≤ 1 / 100000000 → HasDerivAt g (g' s) s) →
      (∀ s s', |s - t| ≤ 1 / 100000000 → |s' - t| ≤ 1 / 100000000 → |g' s - g' s'| ≤ 1 / 1000000) →
      |(-(1 / 100000000) : ℝ)⁻¹ * (g (t - 1 / 100000000) - g t) - (1 / 100000000 : ℝ)⁻¹ * (g (t + 1 / 100000000) - g t)| ≤ 1 / 1000000 := by
    intro g g' hg hv
    have near : ∀ s ∈ Set.Icc (t - 1 / 100000000) (t + 1 / 100000000), |s - t| ≤ 1 / 100000000 := by
      intro s hs
      rw [abs_le]
      exact ⟨by linarith [hs.1], by linarith [hs.2]⟩
    obtain ⟨a, ha, ea⟩ := exists_hasDerivAt_eq_slope g g' (a := t - 1 / 100000000) (b := t) (by norm_num)
      (fun s hs => (hg s (near s ⟨hs.1, by linarith [hs.2]⟩)).continuousAt.continuousWithinAt)
      (fun s hs => hg s (near s ⟨hs.1.le, by linarith [hs.2]⟩))
    obtain ⟨b, hb, eb⟩ := exists_hasDerivAt_eq_slope g g' (a := t) (b := t + 1 / 100000000) (by norm_num)
      (fun s hs => (hg s (near s ⟨by linarith [hs.1], hs.2⟩)).continuousAt.continuousWithinAt)
      (fun s hs => hg s (near s ⟨by linarith [hs.1], hs.2.le⟩))
    have h := hv a b (near a ⟨ha.1.le, by linarith [ha.2]⟩) (near b ⟨by linarith [hb.1], hb.2.le⟩)
    rw [ea, eb] at h
    have k1 : t - (t - 1 / 100000000) = 1 / 100000000 := by ring
    have k2 : t + 1 / 100000000 - t = 1 / 100000000 := by ring
    rw [k1, k2] at h
    have : (-(1 / 100000000) : ℝ)⁻¹ * (g (t - 1 / 100000000) - g t) - (1 / 100000000 : ℝ)⁻¹ * (g (t + 1 / 100000000) - g t) =
        (g t - g (t - 1 / 100000000)) / (1 / 100000000) - (g (t + 1 / 100000000) - g t) / (1 / 100000000) := by
      norm_num
      ring
    rw [this]
    exact h
  have widen : ∀ {a b : ℝ}, |a - b| ≤ 1 / 1000000 → |a - b| ≤ 1 / 1000000 * (1 + max |a| |b|) := by
    intro a b h
    have : 0 ≤ max |a| |b| := le_max_of_le_left (abs_nonneg _)
    linarith
  exact ⟨widen (slope (fun s => (f s).x) _ hx fun s s' h h' => (hv s s' h h').1),
    widen (slope (fun s => (f s).y) _ hy fun s s' h h' => (hv s s' h h').2.1),
    widen (slope (fun s => (f s).z) _ hz fun s s' h h' => (hv s s' h h').2.2)⟩

/-- C146: where the curve consists of two straight pieces that meet at `t`, the test says yes exactly if the two directions are equal up to the tolerance of the
library. -/
theorem C146_corner {c : NurbsCurve ℝ} {p n : ℕ} {t : ℝ} {P dl dr : XYZ ℝ} (w : WellFormed c p n)
    (hin : Inside (nth c.knots 0) (nth c.knots (n + p + 1)) t)
    (hl : ∀ s, -(1 / 100000000) ≤ s → s ≤ 0 → NurbsCurve.pointOnCurve c (t + s) = ok (P + s • dl))
    (hr : ∀ s, 0 ≤ s → s ≤ 1 / 100000000 → NurbsCurve.pointOnCurve c (t + s) = ok (P + s • dr)) :
    ∃ r, canComputeDerivative c t = ok r ∧ (r = true ↔ Near dl dr) := by
  have h0 := hl 0 (by norm_num) (le_refl _)
  have h1 := hl (-(1 / 100000000)) (le_refl _) (by norm_num)
  have h2 := hr (1 / 100000000) (by norm_num) (le_refl _)
  rw [add_zero, zero_smul, add_zero] at h0
  rw [← sub_eq_add_neg] at h1
  refine ⟨_, inside_run w hin h1 h0 h2, ?_⟩
  rw [add_sub_cancel_left, add_sub_cancel_left, smul_smul, smul_smul, inv_mul_cancel₀ (by norm_num), inv_mul_cancel₀ (by norm_num), one_smul, one_smul]
  exact almostEq_iff

/-- C146: at the ends the test says yes for every curve. -/
theorem C146_ends {c : NurbsCurve ℝ} {p n : ℕ} {t : ℝ} (w : WellFormed c p n)
    (h : |t - nth c.knots 0| ≤ 1 / 1000000 * (1 + max |t| |nth c.knots 0|) ∨
      |t - nth c.knots (n + p + 1)| ≤ 1 / 1000000 * (1 + max |t| |nth c.knots (n + p + 1)|)) : canComputeDerivative c t = ok true := by
  have hU := w.knots
  have e0 : vget c.knots 0 = ok (nth c.knots 0) := vget_nth (by rfl) (by omega)
  have e1 : vget c.knots ((c.knots.length : ℤ) - 1) = ok (nth c.knots (n + p + 1)) := vget_nth (by omega) (by omega)
  unfold canComputeDerivative
  rw [e0, ok_bind]
  by_cases b : isAlmostEqualTo t (nth c.knots 0) = true
  · rw [if_pos b]
  · rw [if_neg b, e1, ok_bind, if_pos]
    exact almost_iff.mpr (h.resolve_left fun h' => b (almost_iff.mpr h'))

/-- the parabola `y = 100 (x - 1/2)²` -/
def exParabola : NurbsCurve ℚ := ⟨2, [0, 0, 0, 1, 1, 1], [⟨0, 25, 0, 1⟩, ⟨1 / 2, -25, 0, 1⟩, ⟨1, 25, 0, 1⟩]⟩

theorem exParabola_wf : WellFormed exParabola 2 2 :=
  { degree := rfl, pos := by decide, le7 := by decide, cps := rfl, pn := le_refl _, knots := rfl,
    sorted := isValidKnotVector_nth.mp (by decide +kernel) }

/-- the points of the parabola -/
theorem exParabola_point {t : ℚ} (h0 : 0 ≤ t) (h1 : t ≤ 1) : NurbsCurve.pointOnCurve exParabola t = ok ⟨t, 100 * (t - 1 / 2) ^ 2, 0⟩ := by
  unfold NurbsCurve.pointOnCurve
  rw [C05_eval exParabola_wf ⟨by decide +kernel, by decide +kernel⟩ h0 h1, ok_bind,
    curvePoint_bezier (a := 0) (b := 1) (by norm_num) (by intro i hi; interval_cases i <;> rfl) (by intro i hi hi'; interval_cases i <;> rfl) h0 h1]
  have e : bezierPoint 2 (nth exParabola.cps) ((t - 0) / (1 - 0)) = ⟨t, 100 * (t - 1 / 2) ^ 2, 0, 1⟩ := by
    simp only [bezierPoint, Finset.sum_range_succ, Finset.sum_range_zero, bernsteinP, zero_add]
    apply XYZW.ext <;> simp [exParabola, nth, Nat.choose] <;> ring
  rw [e]
  unfold XYZW.toXYZ
  rw [if_neg (show ¬ isAlmostEqualTo (1 : ℚ) 0 = true by decide +kernel)]
  simp

/-- C146 fails: on the parabola `y = 100 (x - 1/2)²`, `0 ≤ x ≤ 1`, a quadratic Bézier curve, the test says at the apex that no derivative can be computed: it takes
the change of the slope over `2e-8`, which is `2e-6`, for a corner. -/
theorem C146_parabola_violated : (∀ t : ℚ, 0 ≤ t → t ≤ 1 → NurbsCurve.pointOnCurve exParabola t = ok ⟨t, 100 * (t - 1 / 2) ^ 2, 0⟩) ∧
    canComputeDerivative exParabola (1 / 2) = ok false := ⟨fun _ => exParabola_point, by decide +kernel⟩

theorem exSegment_onCurve {s : ℝ} (h0 : 0 ≤ s) (h1 : s ≤ 1) : NurbsCurve.pointOnCurve exSegment s = ok ⟨s, 0, 0⟩ := by
  unfold NurbsCurve.pointOnCurve
  rw [C05_eval exSegment_wf exSegment_ends h0 h1, ok_bind,
    curvePoint_bezier (a := 0) (b := 1) (by norm_num) (by intro i hi; interval_cases i <;> rfl) (by intro i hi hi'; interval_cases i <;> rfl) h0 h1]
  have e : bezierPoint 1 (nth exSegment.cps) ((s - 0) / (1 - 0)) = ⟨s, 0, 0, 1⟩ := by
    simp only [bezierPoint, Finset.sum_range_succ, Finset.sum_range_zero, bernsteinP, zero_add]
    apply XYZW.ext <;> simp [exSegment, nth]
  rw [e, toXYZ_one]

/-- the straight segment of C108 meets the hypotheses of `C146_corner`: both directions are equal -/
example : ∃ r, canComputeDerivative exSegment (1 / 2) = ok r ∧ r = true := by
  have ln : ∀ s : ℝ, |s| ≤ 1 / 100000000 → NurbsCurve.pointOnCurve exSegment (1 / 2 + s) = ok ((⟨1 / 2, 0, 0⟩ : XYZ ℝ) + s • ⟨1, 0, 0⟩) := by
    intro s hs
    rw [abs_le] at hs
    rw [exSegment_onCurve (by linarith [hs.1]) (by linarith [hs.2])]
    congr 1
    apply XYZ.ext <;> simp
  obtain ⟨r, h1, h2⟩ := C146_corner (t := 1 / 2) (P := ⟨1 / 2, 0, 0⟩) (dl := ⟨1, 0, 0⟩) (dr := ⟨1, 0, 0⟩) exSegment_wf
    (by unfold Inside; simp [exSegment, nth]; norm_num)
    (fun s a b => ln s (by rw [abs_le]; exact ⟨a, by linarith⟩)) (fun s a b => ln s (by rw [abs_le]; exact ⟨by linarith, b⟩))
  exact ⟨r, h1, h2.mpr (near_refl _)⟩

/-- and those of `C146_smooth_partial` -/
example : canComputeDerivative exSegment (1 / 2) = ok true := by
  refine C146_smooth_partial (f := fun s => ⟨s, 0, 0⟩) (f' := fun _ => ⟨1, 0, 0⟩) exSegment_wf (by unfold Inside; simp [exSegment, nth]; norm_num)
    ?_ (fun s _ => hasDerivAt_id s) (fun s _ => hasDerivAt_const s 0) (fun s _ => hasDerivAt_const s 0) ?_
  · intro s hs
    rw [abs_le] at hs
    exact exSegment_onCurve (by linarith [hs.1]) (by linarith [hs.2])
  · intro s s' _ _
    norm_num

example : canComputeDerivative exSegment 1 = ok true := C146_ends exSegment_wf (Or.inr (by simp [exSegment, nth]))

end LNLib.Props
