import Verif.Props.CurveEdit
import Verif.Props.SurfaceCreate

/-!
# C53: merging curves of different degrees
-/

namespace LNLib.Props
open LNLib Res Spec Finset

section
variable {K : Type} [Field K] [LinearOrder K] [IsStrictOrderedRing K]

/-- Distinct knots are further apart than four millionths of the knot range (so that they stay distinct for the library when the range is scaled to
one half). -/
def Spaced (U : List K) : Prop :=
  ∀ x ∈ U, ∀ y ∈ U, x = y ∨ 4 / 1000000 * (nth U (U.length - 1) - nth U 0) < |x - y|

omit [IsStrictOrderedRing K] in
theorem elevateDegree_degree {T : Type} [AddCommGroup T] [Module K T] {c e : BsplineCurve K T} {t : ℤ} (h : elevateDegree c t = ok e) :
    e.degree = c.degree + t := by
  unfold elevateDegree at h
  dsimp only at h
  simp only [bind_eq_ok] at h
  obtain ⟨_, _, _, _, _, _, _, _, _, _, _, _, _, _, _, _, h⟩ := h
  rw [← Res.ok.inj h]

/-- One side of `Merge`: what is done to a curve is what would be done to its elevated form. -/
theorem mergeSide_elevated {c : NurbsCurve K} {p n P : ℕ} (w : WellFormed c p n) (he : EndsSeparated (nth c.knots) p n)
    (hc : ClampedEnds (nth c.knots) p n) (hs : WellSeparated c.knots) (hP : p ≤ P) (h7 : P ≤ 7)
    (hsim : p < P → ∀ s, p ≤ s → s ≤ n → nth c.knots s < nth c.knots (s + 1)) (hu : UnitOrFar c.knots) (hsp : Spaced c.knots) :
    ∃ (d : NurbsCurve K) (n' : ℕ), mergeSide elevateDegree c P = mergeSide elevateDegree d P ∧ WellFormed d P n' ∧ EndsSeparated (nth d.knots) P n' ∧
      ClampedEnds (nth d.knots) P n' ∧ nth d.knots 0 = nth c.knots 0 ∧ nth d.knots (n' + P + 1) = nth c.knots (n + p + 1) ∧
      nth d.knots P = nth c.knots p ∧ nth d.knots (n' + 1) = nth c.knots (n + 1) ∧
      UnitOrFar d.knots ∧ Spaced d.knots ∧ nth d.cps 0 = nth c.cps 0 ∧ nth d.cps n' = nth c.cps n ∧
      ∀ t, nth c.knots p ≤ t → t ≤ nth c.knots (n + 1) → BsplineCurve.pointOnCurve d t = BsplineCurve.pointOnCurve c t := by
  obtain ⟨d, hd, n', wd, ed, cd, mem, k0, k1, -, pts⟩ := ruledElevate_run w he hc hs hP h7 hsim
  have lc := w.knots
  have ld := wd.knots
  have mc := wf_monoTo w
  have md := wf_monoTo wd
  have e0 : nth d.knots 0 = nth c.knots 0 := by rw [cd.first, k0, hc.first]
  have e1 : nth d.knots (n' + P + 1) = nth c.knots (n + p + 1) := by rw [← cd.last, k1, hc.last]
  have hdom := pts
  have hpt : ∀ t, nth c.knots p ≤ t → t ≤ nth c.knots (n + 1) → BsplineCurve.pointOnCurve d t = BsplineCurve.pointOnCurve c t := by
    intro t t0 t1
    rw [pointOnCurve_eq w he t0 t1, pointOnCurve_eq wd ed (k0 ▸ t0) (k1 ▸ t1), pts t t0 t1]
  have hle : nth c.knots p ≤ nth c.knots (n + 1) := mc _ _ (by have := w.pn; omega) (by omega)
  have c0 : nth d.cps 0 = nth c.cps 0 := by
    have h1 := C09_start w he (fun i hi => le_antisymm ((mc i p hi (by omega)).trans hc.first.ge) (mc 0 i (by omega) (by omega)))
    have h2 := C09_start wd ed (fun i hi => le_antisymm ((md i P hi (by omega)).trans cd.first.ge) (md 0 i (by omega) (by omega)))
    rw [e0, hpt _ (by rw [hc.first]) (by rw [hc.first]; exact hle), h1] at h2
    exact (Res.ok.inj h2).symm
  have c1 : nth d.cps n' = nth c.cps n := by
    have h1 := C09_end w he (fun i hi hi' => le_antisymm (mc i _ hi' (by omega)) (hc.last.ge.trans (mc _ i hi (by omega))))
    have h2 := C09_end wd ed (fun i hi hi' => le_antisymm (md i _ hi' (by omega)) (cd.last.ge.trans (md _ i hi (by omega))))
    rw [e1, hpt _ (by rw [← hc.last]; exact hle) (by rw [← hc.last]), h1] at h2
    exact (Res.ok.inj h2).symm
  have fc : c.knots.length - 1 = n + p + 1 := by omega
  have fd : d.knots.length - 1 = n' + P + 1 := by omega
  have hud : UnitOrFar d.knots := by
    unfold UnitOrFar at hu ⊢
    rw [fd, e0, e1, ← fc]
    exact hu
  have hspd : Spaced d.knots := by
    intro x hx y hy
    rw [fd, e0, e1, ← fc]
    exact hsp x ((mem x).mp hx) y ((mem y).mp hy)
  refine ⟨d, n', ?_, wd, ed, cd, e0, e1, k0, k1, hud, hspd, c0, c1, hpt⟩
  have hlt : nth c.knots p < nth c.knots (n + 1) := by
    have h1 := he.first
    have h2 := mc (p + 1) (n + 1) (by have := w.pn; omega) (by omega)
    have : (0 : K) ≤ 1 / 1000000 * (1 + max |nth c.knots p| |nth c.knots (p + 1)|) := by
      have : 0 ≤ max |nth c.knots p| |nth c.knots (p + 1)| := le_max_of_le_left (abs_nonneg _)
      positivity
    linarith
  obtain ⟨V, rV, -⟩ := reparam_unit w hlt hu
  obtain ⟨V', rV', -⟩ := reparam_unit wd (by rw [k0, k1]; exact hlt) hud
  unfold mergeSide
  rw [rV, ok_bind, rV', ok_bind, if_neg (c := (P : ℤ) > d.degree) (by rw [wd.degree]; omega)]
  unfold ruledElevate at hd
  by_cases hpP : p < P
  · rw [if_pos (by rw [w.degree]; omega)] at hd
    rw [if_pos (by rw [w.degree]; omega)]
    obtain ⟨e, he', hd⟩ := bind_eq_ok.mp hd
    have hde := elevateDegree_degree he'
    have : e = d := by
      rw [← Res.ok.inj hd, show (P : ℤ) = e.degree by rw [hde]; ring]
    rw [he', ok_bind, this, rV']
  · rw [if_neg (by rw [w.degree]; omega)] at hd
    rw [if_neg (by rw [w.degree]; omega)]
    have : c = d := by
      rw [← Res.ok.inj hd, show (P : ℤ) = c.degree by rw [w.degree]; omega]
    subst this
    rw [rV] at rV'
    exact rV'

/-- C53 for curves of any two degrees: two clamped curves whose end points agree up to tolerance are merged into one valid curve over `[0,1]`, of the
larger of the two degrees; evaluated in its first half it gives the points of the left curve and in its second half those of the right curve.  Missing
from the full statement: the curve of lower degree has simple interior knots (see `C53_repeated_violated`), and the knots of each curve are not closer
to each other than the tolerances. -/
theorem C53_merge_degrees_partial {L R : NurbsCurve K} {p q nL nR : ℕ} (wL : WellFormed L p nL) (wR : WellFormed R q nR)
    (eL : EndsSeparated (nth L.knots) p nL) (eR : EndsSeparated (nth R.knots) q nR)
    (cL : ClampedEnds (nth L.knots) p nL) (cR : ClampedEnds (nth R.knots) q nR) (sL : WellSeparated L.knots) (sR : WellSeparated R.knots)
    (hsimL : p < q → ∀ s, p ≤ s → s ≤ nL → nth L.knots s < nth L.knots (s + 1))
    (hsimR : q < p → ∀ s, q ≤ s → s ≤ nR → nth R.knots s < nth R.knots (s + 1))
    (uL : UnitOrFar L.knots) (uR : UnitOrFar R.knots) (gL : Spaced L.knots) (gR : Spaced R.knots)
    (hj : (nth L.cps nL).toXYZ.almostEq (nth R.cps 0).toXYZ = true) :
    ∃ M n, mergeCurves elevateDegree L R = ok (some M) ∧ WellFormed M (max p q) n ∧ nth M.knots 0 = 0 ∧ nth M.knots (n + max p q + 1) = 1 ∧
      (∀ t, nth L.knots p ≤ t → t < nth L.knots (nL + 1) →
        NurbsCurve.pointOnCurve M (unitParam (nth L.knots) (nL + p + 1) t / 2) = NurbsCurve.pointOnCurve L t) ∧
      (∀ t, nth R.knots q ≤ t → t ≤ nth R.knots (nR + 1) →
        NurbsCurve.pointOnCurve M ((1 + unitParam (nth R.knots) (nR + q + 1) t) / 2) = NurbsCurve.pointOnCurve R t) := by
  obtain ⟨P, hP⟩ : ∃ P, max p q = P := ⟨_, rfl⟩
  have h7 : P ≤ 7 := by rw [← hP]; exact max_le wL.le7 wR.le7
  have hpP : p ≤ P := by rw [← hP]; exact le_max_left _ _
  have hqP : q ≤ P := by rw [← hP]; exact le_max_right _ _
  obtain ⟨A, a, rA, wA, eA, cA, a0, a1, a2, a3, uA, gA, -, aN, pA⟩ := mergeSide_elevated wL eL cL sL hpP h7 (fun h => hsimL (by omega)) uL gL
  obtain ⟨B, b, rB, wB, eB, cB, b0, b1, b2, b3, uB, gB, bN, -, pB⟩ := mergeSide_elevated wR eR cR sR hqP h7 (fun h => hsimR (by omega)) uR gR
  rw [hP]
  have lA := wA.knots
  have lB := wB.knots
  have pnA := wA.pn
  have pnB := wB.pn
  have mA := wf_monoTo wA
  have mB := wf_monoTo wB
  have gap : ∀ {U : List K} {i j m : ℕ}, Spaced U → U.length = m + 1 → i ≤ m → j ≤ m → nth U i < nth U j →
      4 / 1000000 * (nth U m - nth U 0) < nth U j - nth U i := by
    intro U i j m g l hi hj hij
    rcases g (nth U j) (by rw [nth_eq_getElem (show j < U.length by omega)]; exact List.getElem_mem _)
      (nth U i) (by rw [nth_eq_getElem (show i < U.length by omega)]; exact List.getElem_mem _) with h | h
    · exact absurd h hij.ne'
    · rw [abs_of_pos (sub_pos.mpr hij), show U.length - 1 = m by omega] at h
      exact h
  have pos : ∀ x y : K, x - y > 1 / 1000000 * (1 + max |y| |x|) → y < x := by
    intro x y h
    have : (0 : K) ≤ 1 / 1000000 * (1 + max |y| |x|) := by
      have : 0 ≤ max |y| |x| := le_max_of_le_left (abs_nonneg _)
      positivity
    linarith
  have hA1 := pos _ _ eA.first
  have hA2 := pos _ _ eA.last
  have hB1 := pos _ _ eB.first
  have hB2 := pos _ _ eB.last
  have gA1 := gap (m := a + P + 1) gA (by omega) (by omega) (by omega) hA1
  have gA2 := gap (m := a + P + 1) gA (by omega) (by omega) (by omega) hA2
  have gB1 := gap (m := b + P + 1) gB (by omega) (by omega) (by omega) hB1
  have gB2 := gap (m := b + P + 1) gB (by omega) (by omega) (by omega) hB2
  have dA : nth A.knots P < nth A.knots (a + 1) := lt_of_lt_of_le hA1 (mA _ _ (by omega) (by omega))
  have dB : nth B.knots P < nth B.knots (b + 1) := lt_of_lt_of_le hB1 (mB _ _ (by omega) (by omega))
  have rangeA : 0 < nth A.knots (a + P + 1) - nth A.knots 0 := by rw [cA.first, ← cA.last]; linarith
  have rangeB : 0 < nth B.knots (b + P + 1) - nth B.knots 0 := by rw [cB.first, ← cB.last]; linarith
  have hjAB : (nth A.cps a).toXYZ.almostEq (nth B.cps 0).toXYZ = true := by rw [aN, bN]; exact hj
  have hsA : 2 / 1000000 * (nth A.knots (a + P + 1) - nth A.knots 0) < nth A.knots (a + 1) - nth A.knots a := by linarith
  have hsB : 2 / 1000000 * (nth B.knots (b + P + 1) - nth B.knots 0) < nth B.knots (P + 1) - nth B.knots P := by linarith
  obtain ⟨M, rM, wM, M0, M1, -, kL, kR, -, -⟩ := C53_merge_partial elevateDegree wA wB dA dB cA.last cB.first uA uB hsA hsB hjAB
  have hsame : mergeCurves elevateDegree L R = mergeCurves elevateDegree A B := by
    have cLl := wL.cps
    have cRl := wR.cps
    have cAl := wA.cps
    have cBl := wB.cps
    unfold mergeCurves
    have i1 : vget L.cps ((L.cps.length : ℤ) - 1) = ok (nth L.cps nL) := vget_nth (k := nL) (by omega) (by omega)
    have i2 : vget R.cps 0 = ok (nth R.cps 0) := vget_nth (k := 0) (by simp) (by omega)
    have i3 : vget A.cps ((A.cps.length : ℤ) - 1) = ok (nth A.cps a) := vget_nth (k := a) (by omega) (by omega)
    have i4 : vget B.cps 0 = ok (nth B.cps 0) := vget_nth (k := 0) (by simp) (by omega)
    rw [i1, i2, i3, i4, ok_bind, ok_bind, ok_bind, ok_bind, hj, hjAB]
    have h1 : max L.degree R.degree = (P : ℤ) := by rw [wL.degree, wR.degree, ← hP]; push_cast; rfl
    have h2 : max A.degree B.degree = (P : ℤ) := by rw [wA.degree, wB.degree]; exact max_self _
    dsimp only
    rw [h1, h2, rA, rB]
  have eM : EndsSeparated (nth M.knots) P (a + b + 1) := by
    constructor
    · rw [kL P (by omega), kL (P + 1) (by omega)]
      have h0 : unitParam (nth A.knots) (a + P + 1) (nth A.knots P) = 0 := by unfold unitParam; rw [← cA.first, sub_self, zero_div]
      obtain ⟨v, hv⟩ : ∃ v, unitParam (nth A.knots) (a + P + 1) (nth A.knots (P + 1)) = v := ⟨_, rfl⟩
      have v1 : 4 / 1000000 < v := by
        rw [← hv]; unfold unitParam; rw [lt_div_iff₀ rangeA, cA.first]; rw [cA.first] at gA1; exact gA1
      have v2 : v ≤ 1 := by
        rw [← hv]; unfold unitParam; rw [div_le_one rangeA]
        have := mA (P + 1) (a + P + 1) (by omega) (by omega)
        linarith
      rw [h0, hv, zero_div, abs_zero, abs_of_pos (by linarith), max_eq_right (by linarith)]
      linarith
    · rw [show a + b + 1 + 1 = a + 1 + (b + 1) by omega, show a + b + 1 = a + 1 + b by omega, kR (b + 1) (by omega), kR b (by omega)]
      have h1 : unitParam (nth B.knots) (b + P + 1) (nth B.knots (b + 1)) = 1 := by unfold unitParam; rw [cB.last]; exact div_self rangeB.ne'
      obtain ⟨v, hv⟩ : ∃ v, unitParam (nth B.knots) (b + P + 1) (nth B.knots b) = v := ⟨_, rfl⟩
      have v1 : v < 1 - 4 / 1000000 := by
        rw [← hv]; unfold unitParam; rw [div_lt_iff₀ rangeB]
        have := cB.last
        rw [← cB.last] at gB2 ⊢
        linarith
      have v2 : 0 ≤ v := by
        rw [← hv]; unfold unitParam
        exact div_nonneg (sub_nonneg.mpr (mB 0 b (by omega) (by omega))) rangeB.le
      rw [h1, hv, abs_of_nonneg (by linarith : 0 ≤ (1 + v) / 2), abs_of_pos (by norm_num), max_eq_right (by linarith)]
      linarith
  obtain ⟨pL, pR⟩ := C53_merge_points_partial elevateDegree wA wB cA.last cB.first uA uB hsA hsB hjAB eA eB rM eM
  have hUL : ∀ t, unitParam (nth A.knots) (a + P + 1) t = unitParam (nth L.knots) (nL + p + 1) t := fun t => by unfold unitParam; rw [a0, a1]
  have hUR : ∀ t, unitParam (nth B.knots) (b + P + 1) t = unitParam (nth R.knots) (nR + q + 1) t := fun t => by unfold unitParam; rw [b0, b1]
  refine ⟨M, a + b + 1, hsame.trans rM, wM, M0, M1, ?_, ?_⟩
  · intro t t0 t1
    rw [← hUL, pL t (by rw [a2]; exact t0) (by rw [a3]; exact t1)]
    unfold NurbsCurve.pointOnCurve
    rw [pA t t0 t1.le]
  · intro t t0 t1
    rw [← hUR, pR t (by rw [b2]; exact t0) (by rw [b3]; exact t1)]
    unfold NurbsCurve.pointOnCurve
    rw [pB t t0 t1]

end

/-- a line from the origin to (2, 0, 0) over [0, 3], with one interior knot -/
def exMergeL : NurbsCurve ℚ := { degree := 1, knots := [0, 0, 1, 3, 3], cps := [⟨0, 0, 0, 1⟩, ⟨1, 1, 0, 1⟩, ⟨2, 0, 0, 1⟩] }

/-- a parabola over [0, 1] that starts where `exMergeL` ends -/
def exMergeR : NurbsCurve ℚ := { degree := 2, knots := [0, 0, 0, 1, 1, 1], cps := [⟨2, 0, 0, 1⟩, ⟨3, 1, 0, 1⟩, ⟨8, 0, 2, 2⟩] }

/-- the hypotheses of `C53_merge_degrees_partial` are met by a polyline and a rational parabola -/
example : ∃ M n, mergeCurves elevateDegree exMergeL exMergeR = ok (some M) ∧ WellFormed M 2 n ∧
    NurbsCurve.pointOnCurve M ((1 / 3) / 2) = NurbsCurve.pointOnCurve exMergeL 1 := by
  obtain ⟨M, n, h1, h2, -, -, h3, -⟩ := C53_merge_degrees_partial (L := exMergeL) (R := exMergeR) (p := 1) (q := 2) (nL := 2) (nR := 2)
    (wellFormed_of_check rfl (by decide) rfl rfl (by decide +kernel)) (wellFormed_of_check rfl (by decide) rfl rfl (by decide +kernel))
    ⟨by decide +kernel, by decide +kernel⟩ ⟨by decide +kernel, by decide +kernel⟩ ⟨by decide +kernel, by decide +kernel⟩
    ⟨by decide +kernel, by decide +kernel⟩ (by unfold WellSeparated; decide +kernel) (by unfold WellSeparated; decide +kernel)
    (fun _ => by intro s h0 h1; interval_cases s <;> decide +kernel) (fun h => absurd h (by decide))
    (by unfold UnitOrFar; decide +kernel) (by unfold UnitOrFar; decide +kernel) (by unfold Spaced; decide +kernel)
    (by unfold Spaced; decide +kernel) (by decide +kernel)
  refine ⟨M, n, h1, h2, ?_⟩
  have := h3 1 (by decide +kernel) (by decide +kernel)
  rw [← this]
  congr 1
  unfold unitParam
  decide +kernel

/-- C53 is violated when the curve of lower degree has a repeated interior knot: `Merge` of a clamped quadratic curve with a double interior knot and
a clamped cubic curve that starts where it ends
throws `std::invalid_argument`, because the elevated curve has an invalid knot vector. -/
theorem C53_repeated_violated : ∃ L R : NurbsCurve ℚ, WellFormed L 2 4 ∧ WellFormed R 3 3 ∧ ClampedEnds (nth L.knots) 2 4 ∧ ClampedEnds (nth R.knots) 3 3 ∧
    nth L.cps 4 = nth R.cps 0 ∧ mergeCurves elevateDegree L R = invalidArg := by
  refine ⟨{ degree := 2, knots := [1, 1, 1, 2, 2, 3, 3, 3], cps := [⟨0, 0, 0, 1⟩, ⟨1, 1, 0, 1⟩, ⟨2, 0, 0, 1⟩, ⟨3, 1, 0, 1⟩, ⟨4, 0, 0, 1⟩] },
    { degree := 3, knots := [0, 0, 0, 0, 1, 1, 1, 1], cps := [⟨4, 0, 0, 1⟩, ⟨5, 1, 0, 1⟩, ⟨6, 1, 0, 1⟩, ⟨7, 0, 0, 1⟩] },
    wellFormed_of_check rfl (by decide) rfl rfl (by decide +kernel), wellFormed_of_check rfl (by decide) rfl rfl (by decide +kernel),
    ⟨by decide +kernel, by decide +kernel⟩, ⟨by decide +kernel, by decide +kernel⟩, by decide +kernel, by decide +kernel⟩

end LNLib.Props
