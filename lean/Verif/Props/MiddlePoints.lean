import Verif.Props.ConicFit

/-!
# C139: the control points between two points with given tangents (Geometry/Curve/BezierCurve.cpp:39-132)
-/
set_option linter.unusedSectionVars false

namespace LNLib.Props
open LNLib Res LNLib.Spec Finset

theorem oneMiddlePoint_shape {s R e : XYZ ℝ} {L : List (XYZW ℝ)} (h : oneMiddlePoint s R e = ok (some L)) : ∃ w, L = [XYZW.ofXYZ R w] := by
  unfold oneMiddlePoint at h
  obtain ⟨w, -, h⟩ := bind_eq_ok.mp h
  cases w with
  | none => simp at h
  | some w => simp at h; exact ⟨w, h.symm⟩

theorem cos_range (a b : XYZ ℝ) : -1 ≤ a.dot b / (a.length * b.length) ∧ a.dot b / (a.length * b.length) ≤ 1 := by
  have h : |a.dot b| ≤ a.length * b.length := by
    apply abs_le_of_sq_le_sq
    · rw [mul_pow, length_sqr, length_sqr]
      have := C29_lagrange a b
      have := sqr_nonneg' (a.cross b)
      simp only [XYZ.sqrLength] at *
      linarith
    · exact mul_nonneg (length_nonneg a) (length_nonneg b)
  rw [← abs_le, abs_div, abs_of_nonneg (mul_nonneg (length_nonneg a) (length_nonneg b))]
  exact div_le_one_of_le₀ h (mul_nonneg (length_nonneg a) (length_nonneg b))

theorem fdiv_inv {a b x : ℝ} (h : fdiv a b = ok x) : b ≠ 0 ∧ x = a / b := by
  by_cases hb : b = 0
  · subst hb
    rw [fdiv_zero] at h
    cases h
  · rw [fdiv_ok hb] at h
    cases h
    exact ⟨hb, rfl⟩

/-- the cosine of the angle between two vectors -/
noncomputable def cosine (a b : XYZ ℝ) : ℝ := a.dot b / (a.length * b.length)

/-- C139 (part): whatever the tangents, the control points that are found have one of three forms: one control point in the middle of the chord; one control point, in which the
two tangent lines meet, before the start tangent's ray and behind the end tangent's ray; or three control points, the first ahead on the start tangent, the last
behind on the end tangent and the middle one, of weight 1, between these two, so that the two arcs join with a common tangent; the lengths on the tangents are half the chord
or those of The NURBS Book (9.36), with the angles between the chord and the legs to the point in which the tangent lines meet. -/
theorem C139_shape {s T0 e T1 : XYZ ℝ} {L : List (XYZW ℝ)} (hne : s ≠ e) (h : middleControlPoints s T0 e T1 = ok (some L)) :
    (∃ w, L = [XYZW.ofXYZ ((1 / 2 : ℝ) • (s + e)) w]) ∨
    (∃ (R : XYZ ℝ) (w t0 t1 : ℝ), L = [XYZW.ofXYZ R w] ∧ 0 < t0 ∧ t1 < 0 ∧ R = (1 / 2 : ℝ) • ((s + t0 • T0.normalize) + (e + t1 • T1.normalize)) ∧
      (s + t0 • T0.normalize).distance (e + t1 • T1.normalize) ≤ 2 / 1000000) ∨
    (∃ (g1 g2 w1 w2 : ℝ) (R1 Q R2 : XYZ ℝ), L = [XYZW.ofXYZ R1 w1, XYZW.ofXYZ Q 1, XYZW.ofXYZ R2 w2] ∧ 0 < g1 ∧ 0 < g2 ∧ R1 = s + g1 • T0 ∧ e = R2 + g2 • T1 ∧
      Q = R1 + (g1 / (g1 + g2)) • (R2 - R1) ∧ ((g1 = 1 / 2 * (e - s).length ∧ g2 = 1 / 2 * (e - s).length) ∨
        ∃ (a1 a2 : ℝ) (R : XYZ ℝ), computeRays s T0.normalize e T1.normalize (0, 0, 0) = ok (.intersecting, a1, a2, R) ∧
          g1 = 1 / 2 * (e - s).length / (1 + 2 / 3 * cosine (R - e) (e - s) + (1 - 2 / 3) * cosine (R - s) (e - s)) ∧
          g2 = 1 / 2 * (e - s).length / (1 + 2 / 3 * cosine (R - s) (e - s) + (1 - 2 / 3) * cosine (R - e) (e - s)))) := by
  have lSE : 0 < (e - s).length := length_pos (sub_ne_zero.mpr hne.symm)
  unfold middleControlPoints at h
  dsimp only at h
  by_cases c0 : ((T0.normalize.almostEq (e - s).normalize || T0.normalize.almostEq (-(e - s).normalize)) && (T0.normalize.almostEq T1.normalize || T0.normalize.almostEq (-T1.normalize))) = true
  · left
    rw [if_pos c0] at h
    cases h
    exact ⟨1, rfl⟩
  rw [if_neg c0] at h
  obtain ⟨⟨type, a1, a2, R⟩, hr, h⟩ := bind_eq_ok.mp h
  dsimp only at h
  by_cases c1 : type = .intersecting ∧ (s.almostEq R || e.almostEq R) = true
  · left
    rw [if_pos c1] at h
    exact oneMiddlePoint_shape h
  rw [if_neg c1] at h
  by_cases c2 : type = .intersecting ∧ isGreaterThan a1 0 = true ∧ isLessThan a2 0 = true
  · right; left
    rw [if_pos c2] at h
    obtain ⟨w, rfl⟩ := oneMiddlePoint_shape h
    obtain ⟨ht, p1, p2⟩ := c2
    subst ht
    unfold isGreaterThan tolOf doubleEps at p1
    unfold isLessThan tolOf doubleEps at p2
    rw [decide_eq_true_eq, abs_zero, sub_zero] at p1
    rw [decide_eq_true_eq, abs_zero, zero_sub] at p2
    have p1' : 0 < a1 := by
      have := (abs_nonneg a1).trans (le_max_left |a1| 0)
      linarith
    have p2' : a2 < 0 := by
      have := (abs_nonneg a2).trans (le_max_left |a2| 0)
      linarith
    refine ⟨R, w, a1, a2, rfl, p1', p2', ?_⟩
    unfold computeRays at hr
    by_cases d0 : (T0.normalize.almostEq T1.normalize && s.almostEq e) = true
    · rw [if_pos d0] at hr
      cases hr
      exact absurd p1' (lt_irrefl _)
    rw [if_neg d0] at hr
    obtain ⟨-, -, hr⟩ := bind_eq_ok.mp hr
    obtain ⟨-, -, hr⟩ := bind_eq_ok.mp hr
    dsimp only at hr
    split at hr
    · split at hr <;> simp at hr
    · obtain ⟨b1, -, hr⟩ := bind_eq_ok.mp hr
      obtain ⟨b2, -, hr⟩ := bind_eq_ok.mp hr
      split at hr
      · rename_i d3
        cases hr
        refine ⟨rfl, ?_⟩
        rw [isAlmostZero_iff, abs_of_nonneg (distance_nonneg _ _)] at d3
        linarith
      · simp at hr
  rw [if_neg c2] at h
  by_cases c3 : ((e - s).normalize.almostEq T0 && (e - s).normalize.almostEq T1) = true
  · left
    rw [if_pos c3] at h
    exact oneMiddlePoint_shape h
  rw [if_neg c3] at h
  · right; right
    have hg : ∃ g1 g2 : ℝ, 0 < g1 ∧ 0 < g2 ∧ ((g1 = 1 / 2 * (e - s).length ∧ g2 = 1 / 2 * (e - s).length) ∨
        ∃ (a1 a2 : ℝ) (R : XYZ ℝ), computeRays s T0.normalize e T1.normalize (0, 0, 0) = ok (.intersecting, a1, a2, R) ∧
          g1 = 1 / 2 * (e - s).length / (1 + 2 / 3 * cosine (R - e) (e - s) + (1 - 2 / 3) * cosine (R - s) (e - s)) ∧
          g2 = 1 / 2 * (e - s).length / (1 + 2 / 3 * cosine (R - s) (e - s) + (1 - 2 / 3) * cosine (R - e) (e - s))) ∧ (do
        let Qk ← vdiv (g1 • (e - g2 • T1) + g2 • (s + g1 • T0)) (g1 + g2)
        let w1 ← rationalQuadraticWeight s (s + g1 • T0) Qk
        match w1 with
        | none => ok none
        | some w1 => do
          let w2 ← rationalQuadraticWeight Qk (e - g2 • T1) e
          match w2 with
          | none => ok none
          | some w2 => ok (some [XYZW.ofXYZ (s + g1 • T0) w1, XYZW.ofXYZ Qk 1, XYZW.ofXYZ (e - g2 • T1) w2])) = ok (some L) := by
      by_cases ht : type = .intersecting
      · rw [if_neg (by simp [ht])] at h
        obtain ⟨t0, e0, h⟩ := bind_eq_ok.mp h
        obtain ⟨t1, e1, h⟩ := bind_eq_ok.mp h
        obtain ⟨h1, e2, h⟩ := bind_eq_ok.mp h
        obtain ⟨h2, e3, h⟩ := bind_eq_ok.mp h
        rw [ok_bind] at h
        dsimp only at h
        obtain ⟨-, rfl⟩ := fdiv_inv e0
        obtain ⟨-, rfl⟩ := fdiv_inv e1
        obtain ⟨n1, rfl⟩ := fdiv_inv e2
        obtain ⟨n2, rfl⟩ := fdiv_inv e3
        have r0 := (cos_range (R - s) (e - s)).1
        have r1 := (cos_range (R - e) (e - s)).1
        refine ⟨_, _, div_pos (by linarith) (lt_of_le_of_ne (by linarith) (Ne.symm n1)), div_pos (by linarith) (lt_of_le_of_ne (by linarith) (Ne.symm n2)), Or.inr ⟨a1, a2, R, by rw [← ht]; exact hr, rfl, rfl⟩, h⟩
      · rw [if_pos ht, ok_bind] at h
        dsimp only at h
        exact ⟨_, _, by linarith, by linarith, Or.inl ⟨rfl, rfl⟩, h⟩
    obtain ⟨g1, g2, p1, p2, hlen, h⟩ := hg
    rw [vdiv_ok (by linarith), ok_bind] at h
    obtain ⟨w1, -, h⟩ := bind_eq_ok.mp h
    cases w1 with
    | none => simp at h
    | some w1 =>
      dsimp only at h
      obtain ⟨w2, -, h⟩ := bind_eq_ok.mp h
      cases w2 with
      | none => simp at h
      | some w2 =>
        cases h
        have : g1 + g2 ≠ 0 := by linarith
        refine ⟨g1, g2, w1, w2, _, _, _, rfl, p1, p2, rfl, by abel, ?_, hlen⟩
        ext <;> simp only [XYZ.sub_x, XYZ.sub_y, XYZ.sub_z, XYZ.add_x, XYZ.add_y, XYZ.add_z, XYZ.smul_x, XYZ.smul_y, XYZ.smul_z] <;> field_simp <;> ring

/-- C139 (part): tangent lines that meet ahead of the start and behind the end, in a point that makes a triangle that is not thin with two noticeably different legs, give
this one control point with the weight of C138, which is positive. -/
theorem C139_single_partial {s T0 e T1 : XYZ ℝ} {a b : ℝ} (hT : Open T0 T1) (hm : s + a • T0 = e + b • T1)
    (ha : isGreaterThan (a * T0.length) 0 = true) (hb : isLessThan (b * T1.length) 0 = true) (hs : s.almostEq (s + a • T0) = false) (he : e.almostEq (s + a • T0) = false)
    (hF : Fat s (s + a • T0) e) (hl : isAlmostEqualTo (s + a • T0 - s).length (s + a • T0 - e).length = false) :
    ∃ w, 0 < w ∧ w = meanHeight s (s + a • T0) e / (1 - meanHeight s (s + a • T0) e) ∧ middleControlPoints s T0 e T1 = ok (some [XYZW.ofXYZ (s + a • T0) w]) := by
  obtain ⟨hw, hp⟩ := C138_weight_partial hF hl
  refine ⟨_, hp, rfl, ?_⟩
  obtain ⟨n1, n2⟩ := open_not_almost hT
  unfold middleControlPoints
  dsimp only
  rw [n1, n2, Bool.or_false, Bool.and_false, if_neg (by simp), rays_meet hT hm, ok_bind]
  dsimp only
  rw [hs, he, if_neg (by simp), if_pos ⟨rfl, ha, hb⟩]
  unfold oneMiddlePoint
  rw [hw, ok_bind]

/-- C139 (part): opposite tangents of length 1 perpendicular to the chord give the control points of a half circle: a square's two upper corners with weight `√2/2` each and the middle of its
upper side. -/
theorem C139_half_circle_partial {s T e : XYZ ℝ} (hT : T.length = 1) (hd : T.dot (e - s) = 0) (hl : 1 / 100000 < (e - s).length) :
    middleControlPoints s T e (-T) = ok (some [XYZW.ofXYZ (s + (1 / 2 * (e - s).length) • T) (Real.sqrt 2 / 2),
      XYZW.ofXYZ ((1 / 2 : ℝ) • (s + e) + (1 / 2 * (e - s).length) • T) 1, XYZW.ofXYZ (e + (1 / 2 * (e - s).length) • T) (Real.sqrt 2 / 2)]) := by
  obtain ⟨c, hc⟩ : ∃ c, c = e - s := ⟨_, rfl⟩
  obtain ⟨l, hle⟩ : ∃ l, l = c.length := ⟨_, rfl⟩
  rw [← hc] at hd hl
  have he : e = s + c := by rw [hc]; abel
  have hl0 : 0 < c.length := by linarith
  have hcn : c ≠ 0 := by rintro rfl; simp [XYZ.length] at hl0
  have hTn : T ≠ 0 := by rintro rfl; simp [XYZ.length] at hT
  have hT2 : T.sqrLength = 1 := by rw [← length_sqr, hT, one_pow]
  have hc2 : c.sqrLength = l ^ 2 := by rw [← length_sqr, hle]
  have nT : T.normalize = T := by rw [normalize_eq hTn, hT, inv_one, one_smul]
  have lnT : (-T).length = 1 := by rw [← hT]; unfold XYZ.length; congr 1; simp
  have hTn' : -T ≠ 0 := neg_ne_zero.mpr hTn
  have nT' : (-T).normalize = -T := by rw [normalize_eq hTn', lnT, inv_one, one_smul]
  have hT2' : (-T).sqrLength = 1 := by rw [← length_sqr, lnT, one_pow]
  have uc := unit_normalize hcn
  have dc : c.normalize.dot T = 0 := by
    rw [normalize_eq hcn, show (c.length⁻¹ • c).dot T = c.length⁻¹ * T.dot c by simp only [XYZ.dot, XYZ.smul_x, XYZ.smul_y, XYZ.smul_z]; ring, hd, mul_zero]
  have f1 : T.almostEq c.normalize = false := by
    rw [← Bool.not_eq_true]
    intro hh
    have := almost_units hT2 uc hh
    rw [show T.dot c.normalize = c.normalize.dot T by unfold XYZ.dot; ring, dc] at this
    linarith
  have f2 : T.almostEq (-c.normalize) = false := by
    rw [← Bool.not_eq_true]
    intro hh
    have := almost_units hT2 (by rw [← uc]; simp [XYZ.dot, XYZ.sqrLength]) hh
    rw [show T.dot (-c.normalize) = -c.normalize.dot T by simp only [XYZ.dot, XYZ.neg_x, XYZ.neg_y, XYZ.neg_z]; ring, dc] at this
    linarith
  have f3 : c.normalize.almostEq T = false := by
    rw [← Bool.not_eq_true]
    intro hh
    have := almost_units uc hT2 hh
    rw [dc] at this
    linarith
  have f4 : T.almostEq (-T) = false := by
    rw [← Bool.not_eq_true]
    intro hh
    have := almost_units hT2 hT2' hh
    rw [show T.dot (-T) = -T.sqrLength by simp only [XYZ.dot, XYZ.sqrLength, XYZ.neg_x, XYZ.neg_y, XYZ.neg_z]; ring, hT2] at this
    linarith
  have z : ∀ {v : XYZ ℝ}, v.sqrLength = 1 → v.isZero = false := fun {v} hv => by
    unfold XYZ.isZero doubleEps
    rw [hv]
    norm_num
  have hrays : computeRays s T (s + c) (-T) (0, 0, 0) = ok (.parallel, 0, 0, 0) := by
    unfold computeRays
    rw [f4, Bool.false_and, if_neg (by simp), z hT2, z hT2']
    simp only [Bool.not_false, validate_true, ok_bind]
    rw [show T.dot T * (-T).dot (-T) - T.dot (-T) * T.dot (-T) = 0 by simp only [XYZ.dot, XYZ.neg_x, XYZ.neg_y, XYZ.neg_z]; ring, abs_zero,
      if_pos (isAlmostEqualTo_self doubleEps_pos), if_neg]
    rw [add_sub_cancel_left, isAlmostZero_iff, abs_of_nonneg (length_nonneg _), length_of hl0.le (a := c.cross T), not_le]
    · linarith
    · have := C29_lagrange c T
      rw [show c.dot T = T.dot c by unfold XYZ.dot; ring, hd] at this
      have h1 := length_sqr c
      unfold XYZ.sqrLength at h1 hT2 ⊢
      simp only [XYZ.sqrLength] at this
      rw [h1]
      unfold XYZ.dot at *
      nlinarith
  have wt : ∀ (p v : XYZ ℝ), v.sqrLength = l ^ 2 → v.dot T = 0 →
      (rationalQuadraticWeight p (p + (1 / 2 * l) • T) (p + (1 / 2 * l) • T + (1 / 2 : ℝ) • v) = ok (some (Real.sqrt 2 / 2)) ∧
      rationalQuadraticWeight (p - (1 / 2 : ℝ) • v) p (p - (1 / 2 * l) • T) = ok (some (Real.sqrt 2 / 2))) := by
    intro p v hv hv2
    have hl1 : 0 < l := by rw [hle]; exact hl0
    have key : ∀ x y z : XYZ ℝ, (y - x).sqrLength = (1 / 2 * l) ^ 2 → (y - z).sqrLength = (1 / 2 * l) ^ 2 → (z - x).sqrLength = (Real.sqrt 2 / 2 * l) ^ 2 →
        rationalQuadraticWeight x y z = ok (some (Real.sqrt 2 / 2)) := by
      intro x y z h1 h2 h3
      have e1 := length_of (by positivity) h1
      have e2 := length_of (by positivity) h2
      have e3 := length_of (by positivity) h3
      have s2 : Real.sqrt 2 ^ 2 = 2 := Real.sq_sqrt (by norm_num)
      have hF : Fat x y z := by
        have h3' : (z - x).sqrLength = 1 / 2 * l ^ 2 := by rw [h3, mul_pow, div_pow, s2]; ring
        have hcr := C29_lagrange (z - x) (y - x)
        have hdt : (z - x).dot (y - x) = 1 / 4 * l ^ 2 := by
          have : 2 * (z - x).dot (y - x) = (z - x).sqrLength + (y - x).sqrLength - (y - z).sqrLength := by
            simp only [XYZ.dot, XYZ.sqrLength, XYZ.sub_x, XYZ.sub_y, XYZ.sub_z]; ring
          rw [h1, h2, h3'] at this
          linarith
        unfold Fat
        rw [h1, h2, h3']
        rw [hdt] at hcr
        have q1 : (z - x).dot (z - x) = 1 / 2 * l ^ 2 := h3'
        have q2 : (y - x).dot (y - x) = (1 / 2 * l) ^ 2 := h1
        have hl4 : 0 < l ^ 4 := by positivity
        have : ((z - x).cross (y - x)).sqrLength = 1 / 16 * l ^ 4 := by
          have e : ((z - x).cross (y - x)).sqrLength = (z - x).dot (z - x) * (y - x).dot (y - x) - (1 / 4 * l ^ 2) ^ 2 := by
            simp only [XYZ.sqrLength, XYZ.dot] at hcr ⊢
            linarith
          rw [e, q1, q2]; ring
        rw [this]
        nlinarith
      rw [(C138_isosceles_partial hF (by rw [e1, e2])).1, e1, e3]
      congr 2
      field_simp
    have sq := fun (a b : ℝ) => show (a • T + b • v).sqrLength = a ^ 2 + b ^ 2 * l ^ 2 by
      rw [← hv]
      unfold XYZ.dot at hv2
      unfold XYZ.sqrLength at hT2 ⊢
      simp only [XYZ.add_x, XYZ.add_y, XYZ.add_z, XYZ.smul_x, XYZ.smul_y, XYZ.smul_z]
      linear_combination (2 * a * b) * hv2 + a ^ 2 * hT2
    have s2 : Real.sqrt 2 ^ 2 = 2 := Real.sq_sqrt (by norm_num)
    constructor
    · apply key
      · rw [show p + (1 / 2 * l) • T - p = (1 / 2 * l) • T + (0 : ℝ) • v by rw [zero_smul]; abel, sq]; ring
      · rw [show p + (1 / 2 * l) • T - (p + (1 / 2 * l) • T + (1 / 2 : ℝ) • v) = (0 : ℝ) • T + (-(1 / 2) : ℝ) • v by rw [zero_smul, neg_smul]; abel, sq]; ring
      · rw [show p + (1 / 2 * l) • T + (1 / 2 : ℝ) • v - p = (1 / 2 * l) • T + (1 / 2 : ℝ) • v by abel, sq]; linear_combination (-(1 / 4) * l ^ 2) * s2
    · apply key
      · rw [show p - (p - (1 / 2 : ℝ) • v) = (0 : ℝ) • T + (1 / 2 : ℝ) • v by rw [zero_smul]; abel, sq]; ring
      · rw [show p - (p - (1 / 2 * l) • T) = (1 / 2 * l) • T + (0 : ℝ) • v by rw [zero_smul]; abel, sq]; ring
      · rw [show p - (1 / 2 * l) • T - (p - (1 / 2 : ℝ) • v) = (-(1 / 2 * l)) • T + (1 / 2 : ℝ) • v by rw [neg_smul]; abel, sq]; linear_combination (-(1 / 4) * l ^ 2) * s2
  unfold middleControlPoints
  dsimp only
  rw [he, add_sub_cancel_left, nT, nT', f1, f2, Bool.or_false, Bool.false_and, if_neg (by simp), hrays, ok_bind]
  dsimp only
  rw [if_neg (by simp), if_neg (by simp), f3, Bool.false_and, if_neg (by simp), if_pos (by simp), ok_bind, ← hle]
  dsimp only
  have hl1 : 0 < l := by rw [hle]; exact hl0
  rw [vdiv_ok (by positivity), ok_bind]
  have hdv : c.dot T = 0 := by rw [← hd]; unfold XYZ.dot; ring
  obtain ⟨w1, -⟩ := wt s c hc2 hdv
  obtain ⟨-, w2⟩ := wt (s + c + (1 / 2 * l) • T) c hc2 hdv
  have eQ : (1 / 2 * l + 1 / 2 * l)⁻¹ • ((1 / 2 * l) • (s + c - (1 / 2 * l) • -T) + (1 / 2 * l) • (s + (1 / 2 * l) • T)) = s + (1 / 2 * l) • T + (1 / 2 : ℝ) • c := by
    ext <;> simp only [XYZ.sub_x, XYZ.sub_y, XYZ.sub_z, XYZ.add_x, XYZ.add_y, XYZ.add_z, XYZ.smul_x, XYZ.smul_y, XYZ.smul_z, XYZ.neg_x, XYZ.neg_y, XYZ.neg_z] <;> field_simp <;> ring
  have eR : s + c - (1 / 2 * l) • -T = s + c + (1 / 2 * l) • T := by rw [smul_neg]; abel
  rw [eQ, eR, w1, ok_bind]
  dsimp only
  rw [show s + (1 / 2 * l) • T + (1 / 2 : ℝ) • c = s + c + (1 / 2 * l) • T - (1 / 2 : ℝ) • c by ext <;> simp <;> ring,
    show rationalQuadraticWeight (s + c + (1 / 2 * l) • T - (1 / 2 : ℝ) • c) (s + c + (1 / 2 * l) • T) (s + c) = ok (some (Real.sqrt 2 / 2)) by
      rw [← w2]; congr 1; abel, ok_bind]
  dsimp only
  congr 5
  ext <;> simp <;> ring

/-- the hypotheses of `C139_half_circle_partial` hold over a chord of length 2; so the third form of `C139_shape` occurs -/
example : ∃ L, middleControlPoints ⟨0, 0, 0⟩ ⟨0, 1, 0⟩ ⟨2, 0, 0⟩ (-⟨0, 1, 0⟩) = ok (some L) ∧ L.length = 3 := by
  have hl : ((⟨2, 0, 0⟩ : XYZ ℝ) - ⟨0, 0, 0⟩).length = 2 := length_of (by norm_num) (by norm_num [XYZ.sqrLength])
  exact ⟨_, C139_half_circle_partial (length_of (by norm_num) (by norm_num [XYZ.sqrLength])) (by norm_num [XYZ.dot]) (by rw [hl]; norm_num), rfl⟩

/-- the hypotheses of `C139_single_partial` hold for tangents along the legs 3 and 5 over the base 4 -/
example : ∃ w, 0 < w ∧ middleControlPoints ⟨0, 0, 0⟩ ⟨0, 1, 0⟩ ⟨4, 0, 0⟩ ⟨4, -3, 0⟩ = ok (some [XYZW.ofXYZ ⟨0, 3, 0⟩ w]) := by
  have l1 : ((⟨0, 3, 0⟩ : XYZ ℝ) - ⟨0, 0, 0⟩).length = 3 := length_of (by norm_num) (by norm_num [XYZ.sqrLength])
  have l2 : ((⟨0, 3, 0⟩ : XYZ ℝ) - ⟨4, 0, 0⟩).length = 5 := length_of (by norm_num) (by norm_num [XYZ.sqrLength])
  have t0 : (⟨0, 1, 0⟩ : XYZ ℝ).length = 1 := length_of (by norm_num) (by norm_num [XYZ.sqrLength])
  have t1 : (⟨4, -3, 0⟩ : XYZ ℝ).length = 5 := length_of (by norm_num) (by norm_num [XYZ.sqrLength])
  have hR : (⟨0, 0, 0⟩ : XYZ ℝ) + (3 : ℝ) • ⟨0, 1, 0⟩ = ⟨0, 3, 0⟩ := by ext <;> norm_num
  obtain ⟨w, hw, -, h⟩ := C139_single_partial (s := ⟨0, 0, 0⟩) (T0 := ⟨0, 1, 0⟩) (e := ⟨4, 0, 0⟩) (T1 := ⟨4, -3, 0⟩) (a := 3) (b := -1)
    (by unfold Open; norm_num [XYZ.cross, XYZ.sqrLength]) (by ext <;> norm_num)
    (by rw [t0]; unfold isGreaterThan tolOf doubleEps; exact decide_eq_true (by norm_num))
    (by rw [t1]; unfold isLessThan tolOf doubleEps; exact decide_eq_true (by norm_num))
    (by rw [hR]; unfold XYZ.almostEq isAlmostEqualTo tolOf doubleEps; norm_num)
    (by rw [hR]; unfold XYZ.almostEq isAlmostEqualTo tolOf doubleEps; norm_num)
    (by rw [hR]; exact fat_345)
    (by rw [hR, l1, l2]; unfold isAlmostEqualTo tolOf doubleEps; exact decide_eq_false (by norm_num))
  rw [hR] at h
  exact ⟨w, hw, h⟩

/-- C139 is violated when the end tangent runs along the chord: whatever the direction of the start tangent, as long as it differs noticeably from the chord, the answer is the
straight segment, whose direction at the start is the chord and not the start tangent. -/
theorem C139_ignored_violated {s T e : XYZ ℝ} (h : Open T (e - s)) : middleControlPoints s T e (e - s) = ok (some [XYZW.ofXYZ ((1 / 2 : ℝ) • (s + e)) 1]) := by
  obtain ⟨n1, n2⟩ := open_not_almost h
  obtain ⟨-, hne⟩ := open_ne h
  have refl : ∀ v : XYZ ℝ, v.almostEq v = true := fun v => by
    unfold XYZ.almostEq
    simp [isAlmostEqualTo_self (doubleEps_pos (K := ℝ))]
  have hse : e ≠ s := sub_ne_zero.mp hne
  have hmid : (1 / 2 : ℝ) • (s + e) - s = (1 / 2 : ℝ) • (e - s) := by ext <;> simp <;> ring
  have hmid' : (1 / 2 : ℝ) • (s + e) - e = -((1 / 2 : ℝ) • (e - s)) := by ext <;> simp <;> ring
  have hh : (1 / 2 : ℝ) • (e - s) ≠ 0 := smul_ne_zero (by norm_num) hne
  unfold middleControlPoints
  dsimp only
  rw [n1, n2, Bool.or_false, Bool.false_and, if_neg (by simp), rays_meet h (a := 0) (b := -1) (by rw [zero_smul, add_zero, neg_one_smul]; abel), ok_bind]
  dsimp only
  rw [zero_smul, add_zero, refl, Bool.true_or, if_pos ⟨rfl, rfl⟩]
  unfold oneMiddlePoint
  rw [C138_line (k := -1) (sub_ne_zero.mp (by rw [hmid]; exact hh)) (sub_ne_zero.mp (by rw [hmid']; exact neg_ne_zero.mpr hh)) (by rw [hmid, hmid', neg_one_smul, neg_neg]), ok_bind]

/-- the hypothesis of `C139_ignored_violated` holds for a start tangent perpendicular to the chord -/
example : Open (⟨0, 1, 0⟩ : XYZ ℝ) ((⟨1, 0, 0⟩ : XYZ ℝ) - ⟨0, 0, 0⟩) := by
  unfold Open
  norm_num [XYZ.cross, XYZ.sqrLength]

end LNLib.Props
