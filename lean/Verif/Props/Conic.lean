import Verif.Model.Conic
import Verif.Spec.Conic
import Verif.Props.Cylinder

/-!
# C89: `NurbsCurve::CreateOpenConic` gives the conic through the given point
-/

namespace LNLib.Props
open LNLib Res Spec Finset

theorem conic_den {w u : ℝ} (hw : 0 < w) (h0 : 0 ≤ u) (h1 : u ≤ 1) : 1 / 2 ≤ (1 - u) ^ 2 + 2 * u * (1 - u) * w + u ^ 2 := by
  have : 0 ≤ 2 * u * (1 - u) * w := mul_nonneg (mul_nonneg (by linarith) (by linarith)) hw.le
  nlinarith [sq_nonneg (2 * u - 1)]

/-- the vector equation of the shoulder weight -/
theorem conic_vec {A P B : XYZ ℝ} {w u : ℝ} (hw : 0 < w) (h0 : 0 ≤ u) (h1 : u ≤ 1) :
    (1 - u) ^ 2 • (conicPoint A P B w u - A) + u ^ 2 • (conicPoint A P B w u - B) = (2 * u * (1 - u) * w) • (P - conicPoint A P B w u) := by
  have hD := conic_den hw h0 h1
  obtain ⟨D, hDe⟩ : ∃ D, (1 - u) ^ 2 + 2 * u * (1 - u) * w + u ^ 2 = D := ⟨_, rfl⟩
  rw [hDe] at hD
  have hne : D ≠ 0 := by linarith
  unfold conicPoint
  rw [hDe]
  ext <;> simp only [XYZ.add_x, XYZ.add_y, XYZ.add_z, XYZ.sub_x, XYZ.sub_y, XYZ.sub_z, XYZ.smul_x, XYZ.smul_y, XYZ.smul_z] <;> field_simp <;> rw [← hDe] <;> ring

/-- the line from the tangent point through the point of the arc meets the chord -/
theorem conic_meet {A P B : XYZ ℝ} {w u : ℝ} (hw : 0 < w) (h0 : 0 ≤ u) (h1 : u ≤ 1) :
    P + (((1 - u) ^ 2 + 2 * u * (1 - u) * w + u ^ 2) / ((1 - u) ^ 2 + u ^ 2)) • (conicPoint A P B w u - P) = A + (u ^ 2 / ((1 - u) ^ 2 + u ^ 2)) • (B - A) := by
  have hD := conic_den hw h0 h1
  have hE : 0 < (1 - u) ^ 2 + u ^ 2 := by nlinarith [sq_nonneg (2 * u - 1)]
  obtain ⟨D, hDe⟩ : ∃ D, (1 - u) ^ 2 + 2 * u * (1 - u) * w + u ^ 2 = D := ⟨_, rfl⟩
  rw [hDe] at hD
  have hne : D ≠ 0 := by linarith
  unfold conicPoint
  rw [hDe]
  ext <;> simp only [XYZ.add_x, XYZ.add_y, XYZ.add_z, XYZ.sub_x, XYZ.sub_y, XYZ.sub_z, XYZ.smul_x, XYZ.smul_y, XYZ.smul_z] <;> field_simp <;> rw [← hDe] <;> ring

theorem sum_dot (a b : ℝ) (p q r : XYZ ℝ) : a * p.dot r + b * q.dot r = (a • p + b • q).dot r := by
  simp only [XYZ.dot, XYZ.add_x, XYZ.add_y, XYZ.add_z, XYZ.smul_x, XYZ.smul_y, XYZ.smul_z]; ring

theorem smul_dot (a : ℝ) (p r : XYZ ℝ) : (a • p).dot r = a * p.dot r := by
  simp only [XYZ.dot, XYZ.smul_x, XYZ.smul_y, XYZ.smul_z]; ring

/-- the lines `p0 + t v0` and `p1 + t v1` are seen as neither parallel nor degenerate by the library's comparisons -/
structure Transversal (v0 v1 : XYZ ℝ) : Prop where
  cross : 1 / 1000000 * (1 + (v0.cross v1).sqrLength) < (v0.cross v1).sqrLength
  ne : v0.almostEq v1 = false
  left : v0.isZero = false
  right : v1.isZero = false

/-- `CreateOneConicArc` recovers the tangent point and its weight -/
theorem oneConicArc_run {A T0 B T1 P1 : XYZ ℝ} {w u t0 t1 : ℝ} (hA : A + t0 • T0 = P1) (hB : B + t1 • T1 = P1) (hw : 0 < w) (h0 : 0 < u) (h1 : u < 1)
    (hT : Transversal T0 T1) (hP : Transversal (conicPoint A P1 B w u - P1) (B - A)) :
    createOneConicArc A T0 B T1 (conicPoint A P1 B w u) = ok (some (P1, w)) := by
  have hv := conic_vec (A := A) (P := P1) (B := B) hw h0.le h1.le
  have hm := conic_meet (A := A) (P := P1) (B := B) hw h0.le h1.le
  have hE : 0 < (1 - u) ^ 2 + u ^ 2 := by nlinarith [sq_nonneg (2 * u - 1)]
  set P := conicPoint A P1 B w u with hPdef
  have h1u : 0 < 1 - u := by linarith
  have e1 : 1 - u ^ 2 / ((1 - u) ^ 2 + u ^ 2) = (1 - u) ^ 2 / ((1 - u) ^ 2 + u ^ 2) := by field_simp; ring
  have e2 : u ^ 2 / ((1 - u) ^ 2 + u ^ 2) / ((1 - u) ^ 2 / ((1 - u) ^ 2 + u ^ 2)) = (u / (1 - u)) ^ 2 := by field_simp
  have e3 : u / (1 - u) / (1 + u / (1 - u)) = u := by
    have : 1 + u / (1 - u) = 1 / (1 - u) := by field_simp; ring
    rw [this]; field_simp
  have hdot : 0 < (P1 - P).dot (P1 - P) := by
    have := hP.left
    simp only [XYZ.isZero, XYZ.sqrLength, doubleEps] at this
    have := of_decide_eq_false this
    simp only [XYZ.dot, XYZ.sub_x, XYZ.sub_y, XYZ.sub_z] at this ⊢
    nlinarith
  unfold createOneConicArc
  rw [hT.left, hT.right]
  dsimp only
  rw [C27_rays_complete (hA.trans hB.symm) hT.cross hT.ne hT.left hT.right]
  simp only [Bool.not_false, validate_true, ok_bind]
  rw [if_pos trivial, hA, C27_rays_complete hm hP.cross hP.ne hP.left hP.right, ok_bind]
  dsimp only
  rw [if_pos rfl, e1, fdiv_ok (by positivity), ok_bind, e2]
  unfold fsqrt
  rw [if_neg (not_lt.mpr (sq_nonneg _)), ok_bind, Real.sqrt_sq (by positivity), fdiv_ok (by positivity), ok_bind, e3, fdiv_ok (by positivity), ok_bind]
  rw [sum_dot, ← pow_two, ← pow_two, hv, smul_dot]
  congr 3
  field_simp

theorem length_pos_of_ne {a : XYZ ℝ} (h : a ≠ 0) : 0 < a.length := by
  obtain ⟨h1, k, hk, he⟩ := (C29_normalize a).1 h
  rw [normalize_eq h] at h1
  by_contra hcon
  have : a.length = 0 := le_antisymm (not_lt.mp hcon) (Real.sqrt_nonneg _)
  rw [this, inv_zero, zero_smul] at h1
  simp [XYZ.length] at h1

theorem conicSegments_one {A P1 B : XYZ ℝ} {w : ℝ} (h : 1 ≤ w ∨ (1 / 1000000 * (1 + |w|) < w ∧ P1 ≠ A ∧ B ≠ P1 ∧
    2 * (P1 - A).dot (B - P1) < (P1 - A).length * (B - P1).length)) : conicSegments A P1 B w = 1 := by
  unfold conicSegments
  split
  · rfl
  · rename_i hn
    rcases h with h | ⟨h, hA, hB, hc⟩
    · exfalso
      apply hn
      unfold isGreaterThanOrEqual
      have := tolOf_pos (a := w) (b := 1) (doubleEps_pos (K := ℝ))
      exact decide_eq_true (by linarith)
    · have hgt : isGreaterThan w 0 = true := by
        unfold isGreaterThan tolOf doubleEps
        rw [abs_zero, sub_zero, max_eq_left (abs_nonneg w)]; exact decide_eq_true h
      dsimp only
      rw [hgt, if_pos]
      rw [Bool.true_and]
      apply decide_eq_true
      have n1 : P1 - A ≠ 0 := sub_ne_zero.mpr hA
      have n2 : B - P1 ≠ 0 := sub_ne_zero.mpr hB
      have l1 := ((C29_normalize (P1 - A)).1 n1).1
      have l2 := ((C29_normalize (B - P1)).1 n2).1
      have m1 : (P1 - A).normalize ≠ 0 := by intro e; rw [e] at l1; simp [XYZ.length] at l1
      have m2 : (B - P1).normalize ≠ 0 := by intro e; rw [e] at l2; simp [XYZ.length] at l2
      obtain ⟨ha, hb, -⟩ := C29_angle m1 m2
      rw [l1, l2, one_mul, one_mul] at ha
      by_contra hcon
      push Not at hcon
      have hpi := constPi_lt
      have h3 : Real.cos (Real.pi / 3) ≤ Real.cos ((P1 - A).normalize.angleTo (B - P1).normalize) :=
        Real.cos_le_cos_of_nonneg_of_le_pi hb (by linarith [Real.pi_pos]) (by linarith)
      rw [ha, Real.cos_pi_div_three, normalize_eq n1, normalize_eq n2, smul_dot] at h3
      have p1 : 0 < (P1 - A).length := length_pos_of_ne n1
      have p2 : 0 < (B - P1).length := length_pos_of_ne n2
      have : (P1 - A).dot ((B - P1).length⁻¹ • (B - P1)) = (B - P1).length⁻¹ * (P1 - A).dot (B - P1) := by
        simp only [XYZ.dot, XYZ.smul_x, XYZ.smul_y, XYZ.smul_z]; ring
      rw [this] at h3
      field_simp at h3
      linarith

/-- C89 (partial): let the tangent lines at the ends meet in `P1`, and let the given point be the point at the parameter `u` of the conic
arc with the weight `w` of `P1`.  For `w ≥ 1`, and for `0 < w < 1` if the tangent turns by more than 60 degrees,
`CreateOpenConic` succeeds and its curve is exactly this conic arc; in particular it passes through the given point, at the parameter `u`.
The full property allows every conic; see the refutation below. -/
theorem C89_conic_partial {A T0 B T1 P1 : XYZ ℝ} {w u t0 t1 : ℝ} (hA : A + t0 • T0 = P1) (hB : B + t1 • T1 = P1) (h0 : 0 < u) (h1 : u < 1)
    (hw : 1 ≤ w ∨ (1 / 1000000 * (1 + |w|) < w ∧ P1 ≠ A ∧ B ≠ P1 ∧ 2 * (P1 - A).dot (B - P1) < (P1 - A).length * (B - P1).length))
    (hT : Transversal T0 T1) (hP : Transversal (conicPoint A P1 B w u - P1) (B - A)) :
    ∃ c, createOpenConic A T0 B T1 (conicPoint A P1 B w u) = ok (some c) ∧ WellFormed c 2 2 ∧ nth c.knots 2 = 0 ∧ nth c.knots 3 = 1 ∧
      ∀ s, 0 ≤ s → s ≤ 1 → NurbsCurve.pointOnCurve c s = ok (conicPoint A P1 B w s) := by
  have hwp : 0 < w := by
    rcases hw with h | h
    · linarith
    · have := h.1; have := abs_nonneg w; linarith
  obtain ⟨wf, he, e0, e1⟩ := arc_wf (c := ⟨2, [0, 0, 0, 1, 1, 1], [XYZW.ofXYZ A 1, XYZW.ofXYZ P1 w, XYZW.ofXYZ B 1]⟩) (m := 1) one_pos rfl rfl rfl chainKnots_one (by omega)
  refine ⟨⟨2, [0, 0, 0, 1, 1, 1], [XYZW.ofXYZ A 1, XYZW.ofXYZ P1 w, XYZW.ofXYZ B 1]⟩, ?_, wf, e0, e1, fun s hs0 hs1 => ?_⟩
  · unfold createOpenConic
    rw [hT.left, hT.right, oneConicArc_run hA hB hwp h0 h1 hT hP]
    simp only [Bool.not_false, validate_true, ok_bind]
    rw [if_neg, conicSegments_one hw, if_pos rfl]
    unfold isLessThanOrEqual tolOf doubleEps
    rw [decide_eq_true_eq, abs_of_pos hwp, abs_neg, abs_one]
    push Not
    rcases le_total w 1 with h | h
    · rw [max_eq_right h]; linarith
    · rw [max_eq_left h]; linarith
  · have hD := conic_den hwp hs0 hs1
    have hp : curvePoint (nth ([0, 0, 0, 1, 1, 1] : List ℝ)) 2 2 (nth [XYZW.ofXYZ A 1, XYZW.ofXYZ P1 w, XYZW.ofXYZ B 1]) s
        = XYZW.ofXYZ (conicPoint A P1 B w s) ((1 - s) ^ 2 + 2 * s * (1 - s) * w + s ^ 2) := by
      have := chainKnots_one.seg (P := nth [XYZW.ofXYZ A 1, XYZW.ofXYZ P1 w, XYZW.ofXYZ B 1]) (k := 0) one_pos (by simpa using hs0) (by simpa using hs1)
      rw [this]
      obtain ⟨D, hDe⟩ : ∃ D, (1 - s) ^ 2 + 2 * s * (1 - s) * w + s ^ 2 = D := ⟨_, rfl⟩
      rw [hDe] at hD
      have hne : D ≠ 0 := by linarith
      unfold conicPoint
      rw [hDe]
      rw [show nth [XYZW.ofXYZ A 1, XYZW.ofXYZ P1 w, XYZW.ofXYZ B 1] (2 * 0) = XYZW.ofXYZ A 1 from rfl,
        show nth [XYZW.ofXYZ A 1, XYZW.ofXYZ P1 w, XYZW.ofXYZ B 1] (2 * 0 + 1) = XYZW.ofXYZ P1 w from rfl,
        show nth [XYZW.ofXYZ A 1, XYZW.ofXYZ P1 w, XYZW.ofXYZ B 1] (2 * 0 + 2) = XYZW.ofXYZ B 1 from rfl]
      simp only [Nat.cast_one, Nat.cast_zero, mul_one, sub_zero]
      ext <;> simp only [bez2, XYZW.ofXYZ, XYZW.add_wx, XYZW.add_wy, XYZW.add_wz, XYZW.add_w, XYZW.smul_wx, XYZW.smul_wy, XYZW.smul_wz, XYZW.smul_w,
        XYZ.add_x, XYZ.add_y, XYZ.add_z, XYZ.smul_x, XYZ.smul_y, XYZ.smul_z]
      · field_simp
      · field_simp
      · field_simp
      · rw [← hDe]; ring
    unfold NurbsCurve.pointOnCurve
    rw [C05_eval wf he (by rw [e0]; exact hs0) (by rw [e1]; exact hs1), ok_bind]
    dsimp only
    rw [hp, C56_roundtrip_partial (by rw [abs_of_pos (by linarith)]; linarith)]

/-- the hypotheses of `C89_conic_partial` hold for the quarter of the unit circle -/
example : ∃ c, createOpenConic ⟨1, 0, 0⟩ ⟨0, 1, 0⟩ ⟨0, 1, 0⟩ ⟨-1, 0, 0⟩ (conicPoint ⟨1, 0, 0⟩ ⟨1, 1, 0⟩ ⟨0, 1, 0⟩ (3 / 4) (1 / 2)) = ok (some c) ∧
    NurbsCurve.pointOnCurve c (1 / 2) = ok (conicPoint ⟨1, 0, 0⟩ ⟨1, 1, 0⟩ ⟨0, 1, 0⟩ (3 / 4) (1 / 2)) := by
  have hne : ∀ a b c a' b' c' : ℝ, 1 / 1000000 * (1 + max |a| |a'|) < |a - a'| → (⟨a, b, c⟩ : XYZ ℝ).almostEq ⟨a', b', c'⟩ = false := by
    intro a b c a' b' c' h
    have : isAlmostEqualTo a a' = false := by
      unfold isAlmostEqualTo tolOf doubleEps
      exact decide_eq_false (not_le.mpr h)
    simp only [XYZ.almostEq]; rw [this]; simp
  have hP : conicPoint ⟨1, 0, 0⟩ ⟨1, 1, 0⟩ ⟨0, 1, 0⟩ (3 / 4) (1 / 2) - ⟨1, 1, 0⟩ = ⟨-2 / 7, -2 / 7, 0⟩ := by
    ext <;> norm_num [conicPoint]
  obtain ⟨c, h1, -, -, -, h2⟩ := C89_conic_partial (A := ⟨1, 0, 0⟩) (T0 := ⟨0, 1, 0⟩) (B := ⟨0, 1, 0⟩) (T1 := ⟨-1, 0, 0⟩) (P1 := ⟨1, 1, 0⟩) (w := 3 / 4)
    (u := 1 / 2) (t0 := 1) (t1 := -1) (by ext <;> norm_num) (by ext <;> norm_num) (by norm_num) (by norm_num)
    (Or.inr ⟨by norm_num, by intro e; have := congrArg XYZ.y e; norm_num at this, by intro e; have := congrArg XYZ.x e; norm_num at this,
      by norm_num [XYZ.dot, XYZ.length]⟩)
    ⟨by norm_num [XYZ.cross, XYZ.sqrLength], hne _ _ _ _ _ _ (by norm_num), by norm_num [XYZ.isZero, XYZ.sqrLength, doubleEps], by norm_num [XYZ.isZero, XYZ.sqrLength, doubleEps]⟩
    (by
      rw [hP]
      refine ⟨by norm_num [XYZ.cross, XYZ.sqrLength], ?_, by norm_num [XYZ.isZero, XYZ.sqrLength, doubleEps], by norm_num [XYZ.isZero, XYZ.sqrLength, doubleEps]⟩
      have : (⟨0, 1, 0⟩ : XYZ ℝ) - ⟨1, 0, 0⟩ = ⟨-1, 1, 0⟩ := by ext <;> norm_num
      rw [this]
      exact hne _ _ _ _ _ _ (by norm_num))
  exact ⟨c, h1, h2 (1 / 2) (by norm_num) (by norm_num)⟩

/-- C89 is violated for flat elliptic arcs: the arc from `(-1, 0)` to `(1, 0)` with the tangents meeting in `(0, 1/2)`, through
`(0, 1/6)`, is created, but it is a broken line through `(0, 1/2)` that does not contain the given point. -/
theorem C89_flat_violated : ∃ c, createOpenConic ⟨-1, 0, 0⟩ ⟨2, 1, 0⟩ ⟨1, 0, 0⟩ ⟨2, -1, 0⟩ ⟨0, 1 / 6, 0⟩ = ok (some c) ∧
    WellFormed c 2 4 ∧ nth c.knots 2 = 0 ∧ nth c.knots 5 = 1 ∧ ∀ s, 0 ≤ s → s ≤ 1 → NurbsCurve.pointOnCurve c s ≠ ok ⟨0, 1 / 6, 0⟩ := by
  have hne : ∀ a b c a' b' c' : ℝ, 1 / 1000000 * (1 + max |b| |b'|) < |b - b'| → (⟨a, b, c⟩ : XYZ ℝ).almostEq ⟨a', b', c'⟩ = false := by
    intro a b c a' b' c' h
    have : isAlmostEqualTo b b' = false := by
      unfold isAlmostEqualTo tolOf doubleEps
      exact decide_eq_false (not_le.mpr h)
    simp only [XYZ.almostEq]; rw [this]; simp
  have hP : conicPoint ⟨-1, 0, 0⟩ ⟨0, 1 / 2, 0⟩ ⟨1, 0, 0⟩ (1 / 2) (1 / 2) = ⟨0, 1 / 6, 0⟩ := by ext <;> norm_num [conicPoint]
  have hone : createOneConicArc ⟨-1, 0, 0⟩ ⟨2, 1, 0⟩ ⟨1, 0, 0⟩ ⟨2, -1, 0⟩ ⟨0, 1 / 6, 0⟩ = ok (some (⟨0, 1 / 2, 0⟩, 1 / 2)) := by
    rw [← hP]
    refine oneConicArc_run (t0 := 1 / 2) (t1 := -1 / 2) (by ext <;> norm_num) (by ext <;> norm_num) (by norm_num) (by norm_num) (by norm_num)
      ⟨by norm_num [XYZ.cross, XYZ.sqrLength], hne _ _ _ _ _ _ (by norm_num), by norm_num [XYZ.isZero, XYZ.sqrLength, doubleEps], by norm_num [XYZ.isZero, XYZ.sqrLength, doubleEps]⟩ ?_
    rw [hP]
    rw [show (⟨0, 1 / 6, 0⟩ : XYZ ℝ) - ⟨0, 1 / 2, 0⟩ = ⟨0, -1 / 3, 0⟩ by ext <;> norm_num, show (⟨1, 0, 0⟩ : XYZ ℝ) - ⟨-1, 0, 0⟩ = ⟨2, 0, 0⟩ by ext <;> norm_num]
    exact ⟨by norm_num [XYZ.cross, XYZ.sqrLength], hne _ _ _ _ _ _ (by norm_num), by norm_num [XYZ.isZero, XYZ.sqrLength, doubleEps], by norm_num [XYZ.isZero, XYZ.sqrLength, doubleEps]⟩
  have hseg : conicSegments ⟨-1, 0, 0⟩ ⟨0, 1 / 2, 0⟩ ⟨1, 0, 0⟩ (1 / 2) = 2 := by
    have hlt : isLessThan (1 / 2 : ℝ) 0 = false := by
      unfold isLessThan tolOf doubleEps
      exact decide_eq_false (by norm_num)
    unfold conicSegments
    rw [if_neg (by unfold isGreaterThanOrEqual tolOf doubleEps; rw [decide_eq_true_eq]; norm_num)]
    dsimp only
    rw [hlt, if_neg, Bool.false_and, if_neg (by simp)]
    rw [show (⟨0, 1 / 2, 0⟩ : XYZ ℝ) - ⟨-1, 0, 0⟩ = ⟨1, 1 / 2, 0⟩ by ext <;> norm_num, show (⟨1, 0, 0⟩ : XYZ ℝ) - ⟨0, 1 / 2, 0⟩ = ⟨1, -1 / 2, 0⟩ by ext <;> norm_num]
    have n1 : (⟨1, 1 / 2, 0⟩ : XYZ ℝ) ≠ 0 := by intro e; have := congrArg XYZ.x e; norm_num at this
    have n2 : (⟨1, -1 / 2, 0⟩ : XYZ ℝ) ≠ 0 := by intro e; have := congrArg XYZ.x e; norm_num at this
    have l1 := ((C29_normalize ⟨1, 1 / 2, 0⟩).1 n1).1
    have l2 := ((C29_normalize ⟨1, -1 / 2, 0⟩).1 n2).1
    have m1 : (⟨1, 1 / 2, 0⟩ : XYZ ℝ).normalize ≠ 0 := by intro e; rw [e] at l1; simp [XYZ.length] at l1
    have m2 : (⟨1, -1 / 2, 0⟩ : XYZ ℝ).normalize ≠ 0 := by intro e; rw [e] at l2; simp [XYZ.length] at l2
    obtain ⟨ha, -, hb⟩ := C29_angle m1 m2
    rw [l1, l2, one_mul, one_mul] at ha
    rw [Bool.and_eq_true, decide_eq_true_eq]
    rintro ⟨-, hr⟩
    have hpi := constPi_bounds.1
    have h1 : Real.cos ((⟨1, 1 / 2, 0⟩ : XYZ ℝ).normalize.angleTo (⟨1, -1 / 2, 0⟩ : XYZ ℝ).normalize) ≤ Real.cos 1 :=
      Real.cos_le_cos_of_nonneg_of_le_pi (by norm_num) hb (by linarith)
    have h2 := Real.cos_one_le
    have hl : (⟨1, 1 / 2, 0⟩ : XYZ ℝ).length = Real.sqrt (5 / 4) := by unfold XYZ.length; congr 1; norm_num
    have hl' : (⟨1, -1 / 2, 0⟩ : XYZ ℝ).length = Real.sqrt (5 / 4) := by unfold XYZ.length; congr 1; norm_num
    have hs : Real.sqrt (5 / 4) * Real.sqrt (5 / 4) = 5 / 4 := Real.mul_self_sqrt (by norm_num)
    have hsp : 0 < Real.sqrt (5 / 4) := Real.sqrt_pos.mpr (by norm_num)
    have h3 : (⟨1, 1 / 2, 0⟩ : XYZ ℝ).normalize.dot (⟨1, -1 / 2, 0⟩ : XYZ ℝ).normalize = 3 / 5 := by
      rw [normalize_eq n1, normalize_eq n2, hl, hl']
      simp only [XYZ.dot, XYZ.smul_x, XYZ.smul_y, XYZ.smul_z]
      field_simp
      rw [pow_two √(5 / 4), hs]; norm_num
    rw [ha, h3] at h1
    linarith
  have hsplit : splitArc ⟨-1, 0, 0⟩ ⟨0, 1 / 2, 0⟩ (1 / 2) ⟨1, 0, 0⟩ = ok ⟨⟨-1, 1 / 2, 0⟩, ⟨0, 1 / 2, 0⟩, ⟨1, 1 / 2, 0⟩⟩ := by
    unfold splitArc fsqrt
    rw [if_neg (by norm_num), ok_bind]
    congr 2 <;> ext <;> norm_num
  have hU : ChainKnots (nth ([0, 0, 0, 0.5, 0.5, 1, 1, 1] : List ℝ)) 2 :=
    ⟨rfl, fun k hk => by interval_cases k <;> norm_num [nth], fun k hk => by interval_cases k <;> norm_num [nth], by norm_num [nth]⟩
  set Q : List (XYZW ℝ) := [XYZW.ofXYZ ⟨-1, 0, 0⟩ 1, XYZW.ofXYZ ⟨-1, 1 / 2, 0⟩ 0, XYZW.ofXYZ ⟨0, 1 / 2, 0⟩ 1, XYZW.ofXYZ ⟨1, 1 / 2, 0⟩ 0, XYZW.ofXYZ ⟨1, 0, 0⟩ 1] with hQ
  obtain ⟨wf, he, e0, e1⟩ := arc_wf (c := ⟨2, [0, 0, 0, 0.5, 0.5, 1, 1, 1], Q⟩) (m := 2) (by norm_num) rfl rfl rfl hU (by omega)
  refine ⟨⟨2, [0, 0, 0, 0.5, 0.5, 1, 1, 1], Q⟩, ?_, wf, e0, e1, fun s hs0 hs1 => ?_⟩
  · unfold createOpenConic
    rw [show (⟨2, 1, 0⟩ : XYZ ℝ).isZero = false by norm_num [XYZ.isZero, XYZ.sqrLength, doubleEps], show (⟨2, -1, 0⟩ : XYZ ℝ).isZero = false by norm_num [XYZ.isZero, XYZ.sqrLength, doubleEps], hone]
    simp only [Bool.not_false, validate_true, ok_bind]
    rw [if_neg (by unfold isLessThanOrEqual tolOf doubleEps; rw [decide_eq_true_eq]; norm_num), hseg, if_neg (by norm_num), hsplit, ok_bind, if_pos rfl]
  · unfold NurbsCurve.pointOnCurve
    rw [C05_eval wf he (by rw [e0]; exact hs0) (by rw [e1]; exact hs1), ok_bind]
    dsimp only
    obtain ⟨k, hk, hk0, hk1⟩ := ChainKnots.exists_seg 2 (by norm_num) hs0 hs1
    rw [hU.seg hk hk0 hk1]
    obtain ⟨l0, l1⟩ := ChainKnots.local_mem (by norm_num) hk0 hk1
    obtain ⟨t, ht⟩ : ∃ t, s * ((2 : ℕ) : ℝ) - (k : ℝ) = t := ⟨_, rfl⟩
    rw [ht] at l0 l1 ⊢
    have hW : 1 / 2 ≤ (1 - t) ^ 2 + t ^ 2 := by nlinarith [sq_nonneg (2 * t - 1)]
    have key : ∀ A M B : XYZ ℝ, bez2 (XYZW.ofXYZ A 1) (XYZW.ofXYZ M 0) (XYZW.ofXYZ B 1) t
        = XYZW.ofXYZ (((1 - t) ^ 2 + t ^ 2)⁻¹ • ((1 - t) ^ 2 • A + t ^ 2 • B)) ((1 - t) ^ 2 + t ^ 2) := by
      intro A M B
      have hne : (1 - t) ^ 2 + t ^ 2 ≠ 0 := by linarith
      ext <;> simp only [bez2, XYZW.ofXYZ, XYZW.add_wx, XYZW.add_wy, XYZW.add_wz, XYZW.add_w, XYZW.smul_wx, XYZW.smul_wy, XYZW.smul_wz, XYZW.smul_w,
        XYZ.add_x, XYZ.add_y, XYZ.add_z, XYZ.smul_x, XYZ.smul_y, XYZ.smul_z] <;> field_simp <;> ring
    interval_cases k
    · rw [show nth Q (2 * 0) = XYZW.ofXYZ ⟨-1, 0, 0⟩ 1 from rfl, show nth Q (2 * 0 + 1) = XYZW.ofXYZ ⟨-1, 1 / 2, 0⟩ 0 from rfl,
        show nth Q (2 * 0 + 2) = XYZW.ofXYZ ⟨0, 1 / 2, 0⟩ 1 from rfl, key, C56_roundtrip_partial (by rw [abs_of_pos (by linarith)]; linarith)]
      intro e
      have e' := Res.ok.inj e
      have ex := congrArg XYZ.x e'
      have ey := congrArg XYZ.y e'
      simp only [XYZ.add_x, XYZ.add_y, XYZ.smul_x, XYZ.smul_y] at ex ey
      rw [inv_mul_eq_iff_eq_mul₀ (by linarith)] at ex ey
      linarith
    · rw [show nth Q (2 * 1) = XYZW.ofXYZ ⟨0, 1 / 2, 0⟩ 1 from rfl, show nth Q (2 * 1 + 1) = XYZW.ofXYZ ⟨1, 1 / 2, 0⟩ 0 from rfl,
        show nth Q (2 * 1 + 2) = XYZW.ofXYZ ⟨1, 0, 0⟩ 1 from rfl, key, C56_roundtrip_partial (by rw [abs_of_pos (by linarith)]; linarith)]
      intro e
      have e' := Res.ok.inj e
      have ex := congrArg XYZ.x e'
      have ey := congrArg XYZ.y e'
      simp only [XYZ.add_x, XYZ.add_y, XYZ.smul_x, XYZ.smul_y] at ex ey
      rw [inv_mul_eq_iff_eq_mul₀ (by linarith)] at ex ey
      linarith

end LNLib.Props
