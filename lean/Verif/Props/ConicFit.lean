import Verif.Model.ConicFit
import Verif.Props.Conic

/-!
# C138: the weight of a conic arc from its three points (Algorithm/Interpolation.cpp:211-263)
-/
set_option linter.unusedSectionVars false

namespace LNLib.Props
open LNLib Res LNLib.Spec Finset

/-- The triangle is not thin: the square of twice its area exceeds a small part of the square of the sum of its squared sides. -/
def Fat (s r e : XYZ ℝ) : Prop := 1 / 25000 * ((r - s).sqrLength + (r - e).sqrLength + (e - s).sqrLength) ^ 2 < ((e - s).cross (r - s)).sqrLength

/-- the directions differ noticeably -/
def Open (p q : XYZ ℝ) : Prop := 1 / 100000 * (p.sqrLength * q.sqrLength) < (p.cross q).sqrLength

theorem sqr_nonneg' (a : XYZ ℝ) : 0 ≤ a.sqrLength := by
  unfold XYZ.sqrLength
  have := mul_self_nonneg a.x; have := mul_self_nonneg a.y; have := mul_self_nonneg a.z; linarith

theorem length_sqr (a : XYZ ℝ) : a.length ^ 2 = a.sqrLength := length_sq a

theorem open_ne {p q : XYZ ℝ} (h : Open p q) : p ≠ 0 ∧ q ≠ 0 := by
  unfold Open at h
  constructor
  · rintro rfl
    simp [XYZ.cross, XYZ.sqrLength] at h
  · rintro rfl
    simp [XYZ.cross, XYZ.sqrLength] at h

theorem open_cross {p q : XYZ ℝ} (h : Open p q) : 1 / 100000 < (p.normalize.cross q.normalize).sqrLength ∧ (p.normalize.cross q.normalize).sqrLength + p.normalize.dot q.normalize ^ 2 = 1 ∧
    p.normalize.sqrLength = 1 ∧ q.normalize.sqrLength = 1 := by
  obtain ⟨hp, hq⟩ := open_ne h
  have lp := length_pos hp
  have lq := length_pos hq
  have up := unit_normalize hp
  have uq := unit_normalize hq
  refine ⟨?_, ?_, up, uq⟩
  · rw [normalize_eq hp, normalize_eq hq, show ((p.length⁻¹ • p).cross (q.length⁻¹ • q)).sqrLength = (p.length ^ 2)⁻¹ * ((q.length ^ 2)⁻¹ * (p.cross q).sqrLength) by
      simp only [XYZ.cross, XYZ.sqrLength, XYZ.smul_x, XYZ.smul_y, XYZ.smul_z]; field_simp, length_sqr, length_sqr]
    unfold Open at h
    have a : 0 < p.sqrLength := by rw [← length_sqr]; positivity
    have b : 0 < q.sqrLength := by rw [← length_sqr]; positivity
    rw [← mul_assoc, ← mul_inv, mul_comm, ← div_eq_mul_inv, lt_div_iff₀ (mul_pos a b)]
    exact h
  · have := C29_lagrange p.normalize q.normalize
    rw [this]
    unfold XYZ.sqrLength
    rw [up, uq, one_mul]

theorem unit_coord {a : XYZ ℝ} (h : a.sqrLength = 1) : |a.x| ≤ 1 ∧ |a.y| ≤ 1 ∧ |a.z| ≤ 1 := by
  unfold XYZ.sqrLength at h
  refine ⟨abs_le_one_iff_mul_self_le_one.mpr ?_, abs_le_one_iff_mul_self_le_one.mpr ?_, abs_le_one_iff_mul_self_le_one.mpr ?_⟩ <;>
    nlinarith [mul_self_nonneg a.x, mul_self_nonneg a.y, mul_self_nonneg a.z]

theorem almost_coord {a b : ℝ} (ha : |a| ≤ 1) (hb : |b| ≤ 1) (h : isAlmostEqualTo a b = true) : (a - b) ^ 2 ≤ 1 / 100000000000 := by
  unfold isAlmostEqualTo tolOf doubleEps at h
  rw [decide_eq_true_eq] at h
  have h2 : |a - b| ≤ 1 / 500000 := by
    refine h.trans ?_
    have : max |a| |b| ≤ 1 := max_le ha hb
    linarith
  rw [← sq_abs]
  have := abs_nonneg (a - b)
  nlinarith

theorem almost_units {a b : XYZ ℝ} (ha : a.sqrLength = 1) (hb : b.sqrLength = 1) (h : a.almostEq b = true) : 1 - 1 / 10000000000 ≤ a.dot b := by
  unfold XYZ.almostEq at h
  rw [Bool.and_eq_true, Bool.and_eq_true] at h
  obtain ⟨⟨h1, h2⟩, h3⟩ := h
  obtain ⟨a1, a2, a3⟩ := unit_coord ha
  obtain ⟨b1, b2, b3⟩ := unit_coord hb
  have q1 := almost_coord a1 b1 h1
  have q2 := almost_coord a2 b2 h2
  have q3 := almost_coord a3 b3 h3
  unfold XYZ.sqrLength at ha hb
  unfold XYZ.dot
  nlinarith

theorem open_not_almost {p q : XYZ ℝ} (h : Open p q) : p.normalize.almostEq q.normalize = false ∧ p.normalize.almostEq (-q.normalize) = false := by
  obtain ⟨h1, h2, hp, hq⟩ := open_cross h
  constructor
  · rw [← Bool.not_eq_true]
    intro hc
    have := almost_units hp hq hc
    nlinarith
  · rw [← Bool.not_eq_true]
    intro hc
    have hq' : (-q.normalize).sqrLength = 1 := by rw [← hq]; simp [XYZ.sqrLength]
    have := almost_units hp hq' hc
    rw [show p.normalize.dot (-q.normalize) = -p.normalize.dot q.normalize by simp only [XYZ.dot, XYZ.neg_x, XYZ.neg_y, XYZ.neg_z]; ring] at this
    nlinarith

/-- two lines that meet, with noticeably different directions -/
theorem rays_meet {p0 v0 p1 v1 : XYZ ℝ} {a b : ℝ} {old : ℝ × ℝ × XYZ ℝ} (h : Open v0 v1) (hm : p0 + a • v0 = p1 + b • v1) :
    computeRays p0 v0.normalize p1 v1.normalize old = ok (.intersecting, a * v0.length, b * v1.length, p0 + a • v0) := by
  obtain ⟨h1, h2, hp, hq⟩ := open_cross h
  obtain ⟨n0, n1⟩ := open_ne h
  have l0 := length_pos n0
  have l1 := length_pos n1
  have e0 : (a * v0.length) • v0.normalize = a • v0 := by rw [normalize_eq n0, smul_smul, mul_assoc, mul_inv_cancel₀ l0.ne', mul_one]
  have e1 : (b * v1.length) • v1.normalize = b • v1 := by rw [normalize_eq n1, smul_smul, mul_assoc, mul_inv_cancel₀ l1.ne', mul_one]
  have z : ∀ {v : XYZ ℝ}, v.sqrLength = 1 → v.isZero = false := fun {v} hv => by
    unfold XYZ.isZero doubleEps
    rw [hv]
    norm_num
  rw [C27_rays_complete (t0 := a * v0.length) (t1 := b * v1.length) (by rw [e0, e1, hm]) (by nlinarith [sq_nonneg (v0.normalize.dot v1.normalize)]) (open_not_almost h).1 (z hp) (z hq), e0]

/-- the sides of a triangle that is not thin, and the lines from a corner to a point of the opposite side -/
theorem fat_open {s r e : XYZ ℝ} (h : Fat s r e) : Open (r - s) (r - e) ∧ e - s ≠ 0 ∧ ∀ f : ℝ, 0 ≤ f → f ≤ 1 → Open ((e + f • (r - e)) - s) (r - (1 / 2 : ℝ) • (s + e)) := by
  have a := sqr_nonneg' (r - s)
  have b := sqr_nonneg' (r - e)
  have c := sqr_nonneg' (e - s)
  unfold Fat at h
  refine ⟨?_, ?_, fun f h0 h1 => ?_⟩
  · unfold Open
    rw [show ((r - s).cross (r - e)).sqrLength = ((e - s).cross (r - s)).sqrLength by
      simp only [XYZ.cross, XYZ.sqrLength, XYZ.sub_x, XYZ.sub_y, XYZ.sub_z]; ring]
    nlinarith [mul_nonneg a b, mul_nonneg a c, mul_nonneg b c]
  · intro hz
    rw [hz] at h
    simp only [XYZ.cross, XYZ.sqrLength, XYZ.zero_x, XYZ.zero_y, XYZ.zero_z] at h
    nlinarith [sq_nonneg ((r - s).sqrLength + (r - e).sqrLength + (0 : ℝ))]
  · unfold Open
    have hx : ((e + f • (r - e) - s).cross (r - (1 / 2 : ℝ) • (s + e))).sqrLength = (1 - f / 2) ^ 2 * ((e - s).cross (r - s)).sqrLength := by
      simp only [XYZ.cross, XYZ.sqrLength, XYZ.sub_x, XYZ.sub_y, XYZ.sub_z, XYZ.add_x, XYZ.add_y, XYZ.add_z, XYZ.smul_x, XYZ.smul_y, XYZ.smul_z]; ring
    have hd : (e + f • (r - e) - s).sqrLength ≤ (r - s).sqrLength + (r - e).sqrLength + (e - s).sqrLength := by
      have : (e + f • (r - e) - s).sqrLength = (1 - f) * (e - s).sqrLength + f * (r - s).sqrLength - f * (1 - f) * (r - e).sqrLength := by
        simp only [XYZ.sqrLength, XYZ.sub_x, XYZ.sub_y, XYZ.sub_z, XYZ.add_x, XYZ.add_y, XYZ.add_z, XYZ.smul_x, XYZ.smul_y, XYZ.smul_z]; ring
      rw [this]
      nlinarith [mul_nonneg h0 (sub_nonneg.mpr h1), mul_nonneg (mul_nonneg h0 (sub_nonneg.mpr h1)) b, mul_nonneg h0 c, mul_nonneg (sub_nonneg.mpr h1) a]
    have hm : (r - (1 / 2 : ℝ) • (s + e)).sqrLength ≤ (r - s).sqrLength + (r - e).sqrLength + (e - s).sqrLength := by
      have : (r - (1 / 2 : ℝ) • (s + e)).sqrLength = 1 / 2 * (r - s).sqrLength + 1 / 2 * (r - e).sqrLength - 1 / 4 * (e - s).sqrLength := by
        simp only [XYZ.sqrLength, XYZ.sub_x, XYZ.sub_y, XYZ.sub_z, XYZ.add_x, XYZ.add_y, XYZ.add_z, XYZ.smul_x, XYZ.smul_y, XYZ.smul_z]; ring
      rw [this]
      linarith
    rw [hx]
    have n1 := sqr_nonneg' (e + f • (r - e) - s)
    have n2 := sqr_nonneg' (r - (1 / 2 : ℝ) • (s + e))
    have p := mul_le_mul hd hm n2 (by linarith)
    have q : (1 : ℝ) / 4 ≤ (1 - f / 2) ^ 2 := by nlinarith
    have n3 := sqr_nonneg' ((e - s).cross (r - s))
    nlinarith [mul_le_mul_of_nonneg_right q n3]

theorem fat_swap {s r e : XYZ ℝ} (h : Fat s r e) : Fat e r s := by
  unfold Fat at *
  rw [show ((s - e).cross (r - e)).sqrLength = ((e - s).cross (r - s)).sqrLength by
      simp only [XYZ.cross, XYZ.sqrLength, XYZ.sub_x, XYZ.sub_y, XYZ.sub_z]; ring,
    show (r - e).sqrLength + (r - s).sqrLength + (s - e).sqrLength = (r - s).sqrLength + (r - e).sqrLength + (e - s).sqrLength by
      simp only [XYZ.sqrLength, XYZ.sub_x, XYZ.sub_y, XYZ.sub_z]; ring]
  exact h

theorem length_swap (a b : XYZ ℝ) : (a - b).length = (b - a).length := by
  unfold XYZ.length
  congr 1
  simp only [XYZ.sub_x, XYZ.sub_y, XYZ.sub_z]; ring

/-- the point in which the bisector of the angle at `s` meets the median -/
theorem bisectorPoint_run {s r e : XYZ ℝ} {old : ℝ × ℝ × XYZ ℝ} (h : Fat s r e) :
    bisectorPoint s r e old = ok (some ((1 / 2 : ℝ) • (s + e) + (1 / (1 + 2 * ((r - s).length / (e - s).length))) • (r - (1 / 2 : ℝ) • (s + e)))) := by
  obtain ⟨-, hne, ho⟩ := fat_open h
  have l := length_pos hne
  have l' := length_nonneg (r - s)
  have hr : 0 ≤ (r - s).length / (e - s).length := div_nonneg l' l.le
  obtain ⟨q, hq⟩ : ∃ q, q = (r - s).length / (e - s).length := ⟨_, rfl⟩
  unfold bisectorPoint
  rw [fdiv_ok l.ne', ok_bind, ← hq]
  rw [← hq] at hr
  rw [fdiv_ok (by linarith), ok_bind]
  have hO := ho (1 / (q + 1)) (by positivity) (by rw [div_le_one (by linarith)]; linarith)
  dsimp only
  rw [rays_meet hO (a := (q + 1) / (1 + 2 * q)) (b := 1 / (1 + 2 * q)) ?_, ok_bind]
  · rw [if_neg (by simp)]
    congr 2
    have : (1 + 2 * q) ≠ 0 := by linarith
    have : q + 1 ≠ 0 := by linarith
    ext <;> simp only [XYZ.sub_x, XYZ.sub_y, XYZ.sub_z, XYZ.add_x, XYZ.add_y, XYZ.add_z, XYZ.smul_x, XYZ.smul_y, XYZ.smul_z] <;> field_simp <;> ring
  · have : (1 + 2 * q) ≠ 0 := by linarith
    have : q + 1 ≠ 0 := by linarith
    ext <;> simp only [XYZ.sub_x, XYZ.sub_y, XYZ.sub_z, XYZ.add_x, XYZ.add_y, XYZ.add_z, XYZ.smul_x, XYZ.smul_y, XYZ.smul_z] <;> field_simp <;> ring

/-- the mean of the heights at which the two bisectors meet the median, as part of the median -/
noncomputable def meanHeight (s r e : XYZ ℝ) : ℝ := (1 / (1 + 2 * ((r - s).length / (e - s).length)) + 1 / (1 + 2 * ((r - e).length / (e - s).length))) / 2

theorem fat_lengths {s r e : XYZ ℝ} (h : Fat s r e) : 0 < (r - s).length ∧ 0 < (r - e).length ∧ 0 < (e - s).length := by
  obtain ⟨ho, hne, -⟩ := fat_open h
  obtain ⟨h1, h2⟩ := open_ne ho
  exact ⟨length_pos h1, length_pos h2, length_pos hne⟩

theorem meanHeight_range {s r e : XYZ ℝ} (h : Fat s r e) : 0 < meanHeight s r e ∧ meanHeight s r e < 1 := by
  obtain ⟨l1, l2, l3⟩ := fat_lengths h
  have a := div_pos l1 l3
  have b := div_pos l2 l3
  have h1 : 1 / (1 + 2 * ((r - s).length / (e - s).length)) < 1 := by rw [div_lt_one (by linarith)]; linarith
  have h2 : 1 / (1 + 2 * ((r - e).length / (e - s).length)) < 1 := by rw [div_lt_one (by linarith)]; linarith
  unfold meanHeight
  constructor
  · positivity
  · linarith

/-- C138 (part): for a triangle that is not thin and whose two legs are not equal up to the tolerance, the weight is `h / (1 - h)`, where `h` is the mean of the
heights, as parts of the median, at which the bisectors of the two base angles meet the median; it is positive. -/
theorem C138_weight_partial {s r e : XYZ ℝ} (h : Fat s r e) (hl : isAlmostEqualTo (r - s).length (r - e).length = false) :
    rationalQuadraticWeight s r e = ok (some (meanHeight s r e / (1 - meanHeight s r e))) ∧ 0 < meanHeight s r e / (1 - meanHeight s r e) := by
  obtain ⟨ho, hne, hmo⟩ := fat_open h
  obtain ⟨p0, p1⟩ := meanHeight_range h
  obtain ⟨n1, n2⟩ := open_not_almost ho
  refine ⟨?_, div_pos p0 (by linarith)⟩
  unfold rationalQuadraticWeight
  dsimp only
  rw [n1, n2, if_neg (by simp), hl, if_neg (by simp), bisectorPoint_run h, ok_bind]
  dsimp only
  rw [bisectorPoint_run (fat_swap h), ok_bind]
  dsimp only
  have hM : r - (1 / 2 : ℝ) • (s + e) ≠ 0 := (open_ne (hmo 0 le_rfl zero_le_one)).2
  have lM := length_pos hM
  have e1 : (1 / 2 : ℝ) • ((1 / 2 : ℝ) • (s + e) + (1 / (1 + 2 * ((r - s).length / (e - s).length))) • (r - (1 / 2 : ℝ) • (s + e)) +
      ((1 / 2 : ℝ) • (e + s) + (1 / (1 + 2 * ((r - e).length / (s - e).length))) • (r - (1 / 2 : ℝ) • (e + s)))) - (1 / 2 : ℝ) • (s + e) =
      meanHeight s r e • (r - (1 / 2 : ℝ) • (s + e)) := by
    rw [length_swap s e, add_comm e s]
    unfold meanHeight
    ext <;> simp only [XYZ.sub_x, XYZ.sub_y, XYZ.sub_z, XYZ.add_x, XYZ.add_y, XYZ.add_z, XYZ.smul_x, XYZ.smul_y, XYZ.smul_z] <;> ring
  have e2 : (meanHeight s r e • (r - (1 / 2 : ℝ) • (s + e))).length = meanHeight s r e * (r - (1 / 2 : ℝ) • (s + e)).length := by
    rw [← abs_of_nonneg (length_nonneg (meanHeight s r e • _)), ← abs_of_nonneg (mul_nonneg p0.le lM.le), ← sq_eq_sq_iff_abs_eq_abs, mul_pow, length_sqr, length_sqr]
    simp only [XYZ.sqrLength, XYZ.smul_x, XYZ.smul_y, XYZ.smul_z]; ring
  rw [e1, e2, fdiv_ok lM.ne', ok_bind, mul_div_cancel_right₀ _ lM.ne', fdiv_ok (by linarith), ok_bind]

/-- C138 (part): for equal legs the weight is the cosine of the base angles, `|SE| / (2 |SR|)`; this is also the value of the general formula; it lies between 0 and 1. -/
theorem C138_isosceles_partial {s r e : XYZ ℝ} (h : Fat s r e) (hl : (r - s).length = (r - e).length) :
    rationalQuadraticWeight s r e = ok (some ((e - s).length / (2 * (r - s).length))) ∧ (e - s).length / (2 * (r - s).length) = meanHeight s r e / (1 - meanHeight s r e) ∧
      0 < (e - s).length / (2 * (r - s).length) ∧ (e - s).length / (2 * (r - s).length) < 1 := by
  obtain ⟨ho, hne, hmo⟩ := fat_open h
  obtain ⟨l1, l2, l3⟩ := fat_lengths h
  obtain ⟨n1, n2⟩ := open_not_almost ho
  have hd : (r - s).dot (e - s) = (e - s).length ^ 2 / 2 := by
    have q1 := length_sqr (r - s)
    have q2 := length_sqr (r - e)
    have q3 := length_sqr (e - s)
    rw [hl, q2] at q1
    rw [q3]
    unfold XYZ.dot
    simp only [XYZ.sqrLength, XYZ.sub_x, XYZ.sub_y, XYZ.sub_z] at *
    linarith
  refine ⟨?_, ?_, by positivity, ?_⟩
  · unfold rationalQuadraticWeight
    dsimp only
    rw [n1, n2, if_neg (by simp), if_pos (by rw [hl]; exact isAlmostEqualTo_self doubleEps_pos), fdiv_ok (mul_pos l1 l3).ne', ok_bind, hd]
    congr 2
    field_simp
  · unfold meanHeight
    rw [← hl]
    have : (e - s).length + 2 * (r - s).length ≠ 0 := by positivity
    field_simp
    ring_nf
    exact (mul_inv_cancel₀ l1.ne').symm
  · rw [div_lt_one (by linarith)]
    have hM : 0 < (r - (1 / 2 : ℝ) • (s + e)).sqrLength := by
      rw [← length_sqr]
      have := length_pos (open_ne (hmo 0 le_rfl zero_le_one)).2
      positivity
    have q : (r - (1 / 2 : ℝ) • (s + e)).sqrLength = (r - s).length ^ 2 - 1 / 4 * (e - s).length ^ 2 := by
      have q1 := length_sqr (r - s)
      have q2 := length_sqr (r - e)
      have q3 := length_sqr (e - s)
      rw [hl, q2] at q1
      rw [hl, q2, q3]
      simp only [XYZ.sqrLength, XYZ.sub_x, XYZ.sub_y, XYZ.sub_z, XYZ.add_x, XYZ.add_y, XYZ.add_z, XYZ.smul_x, XYZ.smul_y, XYZ.smul_z] at *
      linarith
    rw [q] at hM
    nlinarith

/-- evaluation of the quadratic with the control points `A`, `P`, `B` and the weights 1, `w`, 1 -/
theorem conic_eval {A P B : XYZ ℝ} {w : ℝ} (hw : 0 < w) {u : ℝ} (h0 : 0 ≤ u) (h1 : u ≤ 1) :
    NurbsCurve.pointOnCurve ⟨2, [0, 0, 0, 1, 1, 1], [XYZW.ofXYZ A 1, XYZW.ofXYZ P w, XYZW.ofXYZ B 1]⟩ u = ok (conicPoint A P B w u) := by
  obtain ⟨wf, he, e0, e1⟩ := arc_wf (c := ⟨2, [0, 0, 0, 1, 1, 1], [XYZW.ofXYZ A 1, XYZW.ofXYZ P w, XYZW.ofXYZ B 1]⟩) (m := 1) one_pos rfl rfl rfl chainKnots_one (by omega)
  have hD := conic_den hw h0 h1
  have hp : curvePoint (nth ([0, 0, 0, 1, 1, 1] : List ℝ)) 2 2 (nth [XYZW.ofXYZ A 1, XYZW.ofXYZ P w, XYZW.ofXYZ B 1]) u
      = XYZW.ofXYZ (conicPoint A P B w u) ((1 - u) ^ 2 + 2 * u * (1 - u) * w + u ^ 2) := by
    have := chainKnots_one.seg (P := nth [XYZW.ofXYZ A 1, XYZW.ofXYZ P w, XYZW.ofXYZ B 1]) (k := 0) one_pos (by simpa using h0) (by simpa using h1)
    rw [this]
    obtain ⟨D, hDe⟩ : ∃ D, (1 - u) ^ 2 + 2 * u * (1 - u) * w + u ^ 2 = D := ⟨_, rfl⟩
    rw [hDe] at hD
    have hne : D ≠ 0 := by linarith
    unfold conicPoint
    rw [hDe]
    rw [show nth [XYZW.ofXYZ A 1, XYZW.ofXYZ P w, XYZW.ofXYZ B 1] (2 * 0) = XYZW.ofXYZ A 1 from rfl,
      show nth [XYZW.ofXYZ A 1, XYZW.ofXYZ P w, XYZW.ofXYZ B 1] (2 * 0 + 1) = XYZW.ofXYZ P w from rfl,
      show nth [XYZW.ofXYZ A 1, XYZW.ofXYZ P w, XYZW.ofXYZ B 1] (2 * 0 + 2) = XYZW.ofXYZ B 1 from rfl]
    simp only [Nat.cast_one, Nat.cast_zero, mul_one, sub_zero]
    ext <;> simp only [bez2, XYZW.ofXYZ, XYZW.add_wx, XYZW.add_wy, XYZW.add_wz, XYZW.add_w, XYZW.smul_wx, XYZW.smul_wy, XYZW.smul_wz, XYZW.smul_w,
      XYZ.add_x, XYZ.add_y, XYZ.add_z, XYZ.smul_x, XYZ.smul_y, XYZ.smul_z]
    · field_simp
    · field_simp
    · field_simp
    · rw [← hDe]; ring
  unfold NurbsCurve.pointOnCurve
  rw [C05_eval wf he (by rw [e0]; exact h0) (by rw [e1]; exact h1), ok_bind]
  dsimp only
  rw [hp, C56_roundtrip_partial (by rw [abs_of_pos (by linarith)]; linarith)]

/-- C138 (part): for equal legs the curve with that weight is an arc of a circle that touches both legs: it starts at `s` and ends at `e`, all its points are equally far
from one centre, and the radii to `s` and `e` are perpendicular to the legs. -/
theorem C138_circle_partial {s r e : XYZ ℝ} (h : Fat s r e) (hl : (r - s).length = (r - e).length) : ∃ (w ρ : ℝ) (O : XYZ ℝ), rationalQuadraticWeight s r e = ok (some w) ∧ 0 < ρ ∧
    (∀ u, 0 ≤ u → u ≤ 1 → ∃ P, NurbsCurve.pointOnCurve ⟨2, [0, 0, 0, 1, 1, 1], [XYZW.ofXYZ s 1, XYZW.ofXYZ r w, XYZW.ofXYZ e 1]⟩ u = ok P ∧ (P - O).length = ρ ∧
      (u = 0 → P = s) ∧ (u = 1 → P = e)) ∧ (s - O).dot (r - s) = 0 ∧ (e - O).dot (r - e) = 0 := by
  obtain ⟨hrun, -, hw0, hw1⟩ := C138_isosceles_partial h hl
  obtain ⟨ho, hne, hmo⟩ := fat_open h
  obtain ⟨l1, l2, l3⟩ := fat_lengths h
  have hM := (open_ne (hmo 0 le_rfl zero_le_one)).2
  obtain ⟨d, hd⟩ : ∃ d, d = (1 / 2 : ℝ) • (e - s) := ⟨_, rfl⟩
  obtain ⟨q, hq⟩ : ∃ q, q = r - (1 / 2 : ℝ) • (s + e) := ⟨_, rfl⟩
  obtain ⟨w, hw⟩ : ∃ w, w = (e - s).length / (2 * (r - s).length) := ⟨_, rfl⟩
  rw [← hq] at hM
  rw [← hw] at hrun hw0 hw1
  have lM := length_pos hM
  have Q0 : 0 < q.sqrLength := by rw [← length_sqr]; positivity
  have q1 := length_sqr (r - s)
  have q2 := length_sqr (r - e)
  have q3 := length_sqr (e - s)
  have dq : d.dot q = 0 := by
    rw [hl, q2] at q1
    rw [hd, hq]
    unfold XYZ.dot
    simp only [XYZ.sqrLength, XYZ.sub_x, XYZ.sub_y, XYZ.sub_z, XYZ.add_x, XYZ.add_y, XYZ.add_z, XYZ.smul_x, XYZ.smul_y, XYZ.smul_z] at *
    linarith
  have hs : s = r - q - d := by rw [hd, hq]; ext <;> simp <;> ring
  have he : e = r - q + d := by rw [hd, hq]; ext <;> simp <;> ring
  have D0 : 0 < d.sqrLength := by
    have : d.sqrLength = 1 / 4 * (e - s).sqrLength := by
      rw [hd]
      simp only [XYZ.sqrLength, XYZ.sub_x, XYZ.sub_y, XYZ.sub_z, XYZ.smul_x, XYZ.smul_y, XYZ.smul_z]; ring
    rw [this, ← q3]
    positivity
  have hw2 : w ^ 2 * (d.sqrLength + q.sqrLength) = d.sqrLength := by
    have e1 : (r - s).length ^ 2 = d.sqrLength + q.sqrLength := by
      rw [q1, hs]
      unfold XYZ.dot at dq
      simp only [XYZ.sqrLength, XYZ.sub_x, XYZ.sub_y, XYZ.sub_z]
      linarith
    have e2 : (e - s).length ^ 2 = 4 * d.sqrLength := by
      rw [q3, hs, he]
      simp only [XYZ.sqrLength, XYZ.sub_x, XYZ.sub_y, XYZ.sub_z, XYZ.add_x, XYZ.add_y, XYZ.add_z]
      ring
    rw [hw, div_pow, mul_pow, e1, e2]
    have := add_pos D0 Q0
    field_simp
    ring
  obtain ⟨A, hA⟩ : ∃ A, A = d.sqrLength := ⟨_, rfl⟩
  obtain ⟨B, hB⟩ : ∃ B, B = q.sqrLength := ⟨_, rfl⟩
  rw [← hA] at D0 hw2
  rw [← hB] at Q0 hw2
  obtain ⟨k, hk⟩ : ∃ k, k = A / B := ⟨_, rfl⟩
  have hkB : k * B = A := by rw [hk]; field_simp
  have hcomb : ∀ a b : ℝ, (a • d + b • q).sqrLength = a ^ 2 * A + b ^ 2 * B := by
    intro a b
    rw [hA, hB]
    unfold XYZ.dot at dq
    simp only [XYZ.sqrLength, XYZ.add_x, XYZ.add_y, XYZ.add_z, XYZ.smul_x, XYZ.smul_y, XYZ.smul_z]
    linear_combination (2 * a * b) * dq
  refine ⟨w, Real.sqrt (A + k ^ 2 * B), r - q - k • q, hrun, Real.sqrt_pos.mpr (by positivity), fun u h0 h1 => ⟨_, conic_eval hw0 h0 h1, ?_, ?_, ?_⟩, ?_, ?_⟩
  · have hD := conic_den hw0 h0 h1
    obtain ⟨D, hDe⟩ : ∃ D, (1 - u) ^ 2 + 2 * u * (1 - u) * w + u ^ 2 = D := ⟨_, rfl⟩
    have hP : conicPoint s r e w u - (r - q - k • q) = (D⁻¹ * (2 * u - 1)) • d + (D⁻¹ * (2 * u * (1 - u) * w) + k) • q := by
      unfold conicPoint
      rw [hDe] at hD ⊢
      have hne : D ≠ 0 := by linarith
      rw [hs, he]
      ext <;> simp only [XYZ.sub_x, XYZ.sub_y, XYZ.sub_z, XYZ.add_x, XYZ.add_y, XYZ.add_z, XYZ.smul_x, XYZ.smul_y, XYZ.smul_z] <;> field_simp <;> rw [← hDe] <;> ring
    have hlen : ∀ v : XYZ ℝ, v.length = Real.sqrt v.sqrLength := fun v => rfl
    rw [hP, hlen, hcomb]
    congr 1
    rw [hDe] at hD
    have hne : D ≠ 0 := by linarith
    have hw2' : w ^ 2 * (1 + k) = k := by
      have : (w ^ 2 * (1 + k) - k) * B = 0 := by linear_combination hw2 + (w ^ 2 - 1) * hkB
      rcases mul_eq_zero.mp this with h | h
      · linarith
      · exact absurd h Q0.ne'
    rw [← hkB]
    field_simp
    rw [← hDe]
    linear_combination (2 * u * (1 - u)) ^ 2 * hw2'
  · rintro rfl
    unfold conicPoint
    ext <;> simp
  · rintro rfl
    unfold conicPoint
    ext <;> simp
  · rw [show s - (r - q - k • q) = (-1 : ℝ) • d + k • q by rw [hs]; ext <;> simp <;> ring, show r - s = d + q by rw [hs]; abel]
    unfold XYZ.dot at dq ⊢
    unfold XYZ.sqrLength at hA hB
    simp only [XYZ.add_x, XYZ.add_y, XYZ.add_z, XYZ.smul_x, XYZ.smul_y, XYZ.smul_z]
    linear_combination (k - 1) * dq + hA - k * hB + hkB
  · rw [show e - (r - q - k • q) = d + k • q by rw [he]; ext <;> simp <;> ring, show r - e = q - d by rw [he]; abel]
    unfold XYZ.dot at dq ⊢
    unfold XYZ.sqrLength at hA hB
    simp only [XYZ.add_x, XYZ.add_y, XYZ.add_z, XYZ.sub_x, XYZ.sub_y, XYZ.sub_z, XYZ.smul_x, XYZ.smul_y, XYZ.smul_z]
    linear_combination (1 - k) * dq + hA - k * hB + hkB

/-- C138 (part): three points on a line get the weight 1. -/
theorem C138_line {s r e : XYZ ℝ} {k : ℝ} (h1 : r ≠ s) (h2 : r ≠ e) (hl : r - s = k • (r - e)) : rationalQuadraticWeight s r e = ok (some 1) := by
  have n1 : r - s ≠ 0 := sub_ne_zero.mpr h1
  have n2 : r - e ≠ 0 := sub_ne_zero.mpr h2
  have l2 := length_pos n2
  have hk : k ≠ 0 := by rintro rfl; rw [zero_smul] at hl; exact n1 hl
  have hlen : (r - s).length = |k| * (r - e).length := by
    rw [← abs_of_nonneg (length_nonneg (r - s)), ← abs_of_nonneg (mul_nonneg (abs_nonneg k) l2.le), ← sq_eq_sq_iff_abs_eq_abs, mul_pow, sq_abs, length_sqr, length_sqr, hl]
    simp only [XYZ.sqrLength, XYZ.smul_x, XYZ.smul_y, XYZ.smul_z]; ring
  have refl : ∀ v : XYZ ℝ, v.almostEq v = true := fun v => by
    unfold XYZ.almostEq
    simp [isAlmostEqualTo_self (doubleEps_pos (K := ℝ))]
  have hn : (r - s).normalize = (r - e).normalize ∨ (r - s).normalize = -(r - e).normalize := by
    rw [normalize_eq n1, normalize_eq n2, hlen, hl, smul_smul, mul_inv, mul_assoc, mul_comm _ k, ← mul_assoc]
    rcases lt_or_gt_of_ne hk with hk | hk
    · right
      rw [abs_of_neg hk, inv_neg, neg_mul, inv_mul_cancel₀ hk.ne, neg_one_mul, neg_smul]
    · left
      rw [abs_of_pos hk, inv_mul_cancel₀ hk.ne', one_mul]
  unfold rationalQuadraticWeight
  dsimp only
  rw [if_pos]
  rcases hn with hn | hn
  · rw [hn, refl, Bool.true_or]
  · rw [hn, refl, Bool.or_true]

theorem length_of {a : XYZ ℝ} {c : ℝ} (hc : 0 ≤ c) (h : a.sqrLength = c ^ 2) : a.length = c := by
  unfold XYZ.length
  rw [← Real.sqrt_sq hc, ← h]
  rfl

theorem fat_345 : Fat ⟨0, 0, 0⟩ ⟨0, 3, 0⟩ ⟨4, 0, 0⟩ := by
  unfold Fat
  norm_num [XYZ.cross, XYZ.sqrLength]

/-- the hypotheses of `C138_weight_partial` hold for a triangle with the legs 3 and 5 over the base 4: the weight is 12/23 -/
example : rationalQuadraticWeight ⟨0, 0, 0⟩ ⟨0, 3, 0⟩ ⟨4, 0, 0⟩ = ok (some (12 / 23)) := by
  have l1 : ((⟨0, 3, 0⟩ : XYZ ℝ) - ⟨0, 0, 0⟩).length = 3 := by
    exact length_of (by norm_num) (by norm_num [XYZ.sqrLength])
  have l2 : ((⟨0, 3, 0⟩ : XYZ ℝ) - ⟨4, 0, 0⟩).length = 5 := by
    exact length_of (by norm_num) (by norm_num [XYZ.sqrLength])
  have l3 : ((⟨4, 0, 0⟩ : XYZ ℝ) - ⟨0, 0, 0⟩).length = 4 := by
    exact length_of (by norm_num) (by norm_num [XYZ.sqrLength])
  rw [(C138_weight_partial fat_345 (by rw [l1, l2]; unfold isAlmostEqualTo tolOf doubleEps; exact decide_eq_false (by norm_num))).1]
  unfold meanHeight
  rw [l1, l2, l3]
  norm_num

/-- the hypotheses of the isosceles theorems hold for a triangle with two legs 5 over the base 6 -/
example : Fat ⟨0, 0, 0⟩ ⟨3, 4, 0⟩ ⟨6, 0, 0⟩ ∧ ((⟨3, 4, 0⟩ : XYZ ℝ) - ⟨0, 0, 0⟩).length = ((⟨3, 4, 0⟩ : XYZ ℝ) - ⟨6, 0, 0⟩).length := by
  constructor
  · unfold Fat
    norm_num [XYZ.cross, XYZ.sqrLength]
  · unfold XYZ.length
    congr 1
    norm_num

/-- C138 is violated for tiny triangles: the legs of a triangle with a base of a millionth count as equal up to the tolerance, so the cosine of the obtuse angle at the start
is taken as the weight, which is `-3/5`; the triangle itself is not thin. -/
theorem C138_tiny_violated : Fat ⟨0, 0, 0⟩ ⟨-3 / 10000000, 4 / 10000000, 0⟩ ⟨1 / 1000000, 0, 0⟩ ∧
    rationalQuadraticWeight ⟨0, 0, 0⟩ ⟨-3 / 10000000, 4 / 10000000, 0⟩ ⟨1 / 1000000, 0, 0⟩ = ok (some (-3 / 5)) := by
  have hF : Fat ⟨0, 0, 0⟩ ⟨-3 / 10000000, 4 / 10000000, 0⟩ ⟨1 / 1000000, 0, 0⟩ := by
    unfold Fat
    norm_num [XYZ.cross, XYZ.sqrLength]
  refine ⟨hF, ?_⟩
  obtain ⟨ho, -, -⟩ := fat_open hF
  obtain ⟨n1, n2⟩ := open_not_almost ho
  have l1 : ((⟨-3 / 10000000, 4 / 10000000, 0⟩ : XYZ ℝ) - ⟨0, 0, 0⟩).length = 5 / 10000000 := by
    exact length_of (by norm_num) (by norm_num [XYZ.sqrLength])
  have l3 : ((⟨1 / 1000000, 0, 0⟩ : XYZ ℝ) - ⟨0, 0, 0⟩).length = 1 / 1000000 := by
    exact length_of (by norm_num) (by norm_num [XYZ.sqrLength])
  have l2 : ((⟨-3 / 10000000, 4 / 10000000, 0⟩ : XYZ ℝ) - ⟨1 / 1000000, 0, 0⟩).length ≤ 14 / 10000000 := by
    unfold XYZ.length
    rw [Real.sqrt_le_left (by norm_num)]
    norm_num
  have l2' := length_nonneg ((⟨-3 / 10000000, 4 / 10000000, 0⟩ : XYZ ℝ) - ⟨1 / 1000000, 0, 0⟩)
  unfold rationalQuadraticWeight
  dsimp only
  rw [n1, n2, if_neg (by simp), if_pos, l1, l3, fdiv_ok (by norm_num), ok_bind]
  · congr 2
    norm_num [XYZ.dot]
  · rw [l1]
    unfold isAlmostEqualTo tolOf doubleEps
    rw [decide_eq_true_eq]
    have h1 : |5 / 10000000 - ((⟨-3 / 10000000, 4 / 10000000, 0⟩ : XYZ ℝ) - ⟨1 / 1000000, 0, 0⟩).length| ≤ 1 / 1000000 := by
      rw [abs_le]; constructor <;> linarith
    have := le_max_left |(5 / 10000000 : ℝ)| |((⟨-3 / 10000000, 4 / 10000000, 0⟩ : XYZ ℝ) - ⟨1 / 1000000, 0, 0⟩).length|
    have := abs_nonneg (5 / 10000000 : ℝ)
    linarith

/-- almost parallel directions: `ComputeRays` does not find the meeting point -/
theorem rays_thin {p0 v0 p1 v1 : XYZ ℝ} {old : ℝ × ℝ × XYZ ℝ} (n0 : v0 ≠ 0) (n1 : v1 ≠ 0) (h : (v0.cross v1).sqrLength ≤ 1 / 1000000 * (v0.sqrLength * v1.sqrLength))
    (hn : p0.almostEq p1 = false) : ∃ x, computeRays p0 v0.normalize p1 v1.normalize old = ok x ∧ x.1 ≠ .intersecting := by
  have u0 := unit_normalize n0
  have u1 := unit_normalize n1
  have l0 := length_pos n0
  have l1 := length_pos n1
  have z : ∀ {v : XYZ ℝ}, v.sqrLength = 1 → v.isZero = false := fun {v} hv => by
    unfold XYZ.isZero doubleEps
    rw [hv]
    norm_num
  have hden : v0.normalize.dot v0.normalize * v1.normalize.dot v1.normalize - v0.normalize.dot v1.normalize * v0.normalize.dot v1.normalize = (v0.normalize.cross v1.normalize).sqrLength := by
    simp only [XYZ.cross, XYZ.sqrLength, XYZ.dot]; ring
  have hc : (v0.normalize.cross v1.normalize).sqrLength ≤ 1 / 1000000 := by
    rw [normalize_eq n0, normalize_eq n1, show ((v0.length⁻¹ • v0).cross (v1.length⁻¹ • v1)).sqrLength = (v0.length ^ 2)⁻¹ * ((v1.length ^ 2)⁻¹ * (v0.cross v1).sqrLength) by
      simp only [XYZ.cross, XYZ.sqrLength, XYZ.smul_x, XYZ.smul_y, XYZ.smul_z]; field_simp, length_sqr, length_sqr]
    have a : 0 < v0.sqrLength := by rw [← length_sqr]; positivity
    have b : 0 < v1.sqrLength := by rw [← length_sqr]; positivity
    rw [← mul_assoc, ← mul_inv, mul_comm, ← div_eq_mul_inv, div_le_iff₀ (mul_pos a b)]
    exact h
  have hz : isAlmostEqualTo |(v0.normalize.cross v1.normalize).sqrLength| 0 = true := by
    rw [isAlmostZero_iff, abs_abs, abs_of_nonneg (sqr_nonneg' _)]
    have := sqr_nonneg' (v0.normalize.cross v1.normalize)
    linarith
  unfold computeRays
  rw [hn, Bool.and_false, if_neg (by simp), z u0, z u1]
  simp only [Bool.not_false, validate_true, ok_bind]
  rw [hden, hz, if_pos rfl]
  split_ifs
  · exact ⟨_, rfl, by simp⟩
  · exact ⟨_, rfl, by simp⟩

/-- C138 is violated for thin triangles: with the legs 1 and 3 (nearly) over the base 4 and a height of two parts in ten thousand no weight is found, although the three
points are not on a line and are not treated as such. -/
theorem C138_thin_violated : rationalQuadraticWeight ⟨0, 0, 0⟩ ⟨99999999 / 100000001, 20000 / 100000001, 0⟩ ⟨4, 0, 0⟩ = ok none := by
  obtain ⟨r, hr⟩ : ∃ r : XYZ ℝ, r = ⟨99999999 / 100000001, 20000 / 100000001, 0⟩ := ⟨_, rfl⟩
  have l1 : (r - ⟨0, 0, 0⟩).length = 1 := by
    rw [hr]; exact length_of (by norm_num) (by norm_num [XYZ.sqrLength])
  have l3 : ((⟨4, 0, 0⟩ : XYZ ℝ) - ⟨0, 0, 0⟩).length = 4 := by
    exact length_of (by norm_num) (by norm_num [XYZ.sqrLength])
  have n1 : r - ⟨0, 0, 0⟩ ≠ 0 := by rw [hr]; intro e; have := congrArg XYZ.y e; norm_num at this
  have n2 : r - ⟨4, 0, 0⟩ ≠ 0 := by rw [hr]; intro e; have := congrArg XYZ.y e; norm_num at this
  have l2 := length_pos n2
  have l2' : 3 ≤ (r - ⟨4, 0, 0⟩).length := by
    rw [hr]; unfold XYZ.length
    apply Real.le_sqrt_of_sq_le
    norm_num
  have e1 : (r - ⟨0, 0, 0⟩).normalize = r := by rw [normalize_eq n1, l1, hr]; ext <;> simp
  have c : ∀ {a b : XYZ ℝ}, isAlmostEqualTo a.y b.y = false ∨ isAlmostEqualTo a.x b.x = false → a.almostEq b = false := by
    intro a b h
    unfold XYZ.almostEq
    rcases h with h | h <;> rw [h] <;> simp
  have m1 : (r - ⟨0, 0, 0⟩).normalize.almostEq (r - ⟨4, 0, 0⟩).normalize = false := by
    apply c
    right
    rw [e1, normalize_eq n2]
    unfold isAlmostEqualTo tolOf doubleEps
    apply decide_eq_false
    have hx : ((r - ⟨4, 0, 0⟩).length⁻¹ • (r - ⟨4, 0, 0⟩)).x < 0 := by
      rw [XYZ.smul_x]
      exact mul_neg_of_pos_of_neg (inv_pos.mpr l2) (by rw [hr]; norm_num)
    have hx' : -1 ≤ ((r - ⟨4, 0, 0⟩).length⁻¹ • (r - ⟨4, 0, 0⟩)).x := by
      rw [XYZ.smul_x, inv_mul_eq_div, le_div_iff₀ l2]
      have : ((r - ⟨4, 0, 0⟩) : XYZ ℝ).x ^ 2 ≤ (r - ⟨4, 0, 0⟩).length ^ 2 := by
        rw [length_sqr]; unfold XYZ.sqrLength
        nlinarith [mul_self_nonneg (r - ⟨4, 0, 0⟩ : XYZ ℝ).y, mul_self_nonneg (r - ⟨4, 0, 0⟩ : XYZ ℝ).z]
      have := sq_le_sq.mp this
      rw [abs_of_pos l2, abs_le] at this
      linarith [this.1]
    rw [not_le]
    have hrx : r.x = 99999999 / 100000001 := by rw [hr]
    rw [hrx, abs_of_neg hx, abs_of_pos (by norm_num : (0 : ℝ) < 99999999 / 100000001)]
    refine lt_of_lt_of_le ?_ (le_abs_self _)
    have : max (99999999 / 100000001 : ℝ) (-((r - ⟨4, 0, 0⟩).length⁻¹ • (r - ⟨4, 0, 0⟩)).x) ≤ 1 := max_le (by norm_num) (by linarith)
    have h99 : (99999999 / 100000001 : ℝ) > 9 / 10 := by norm_num
    linarith
  have m2 : (r - ⟨0, 0, 0⟩).normalize.almostEq (-(r - ⟨4, 0, 0⟩).normalize) = false := by
    apply c
    left
    rw [e1, normalize_eq n2]
    unfold isAlmostEqualTo tolOf doubleEps
    apply decide_eq_false
    have hry : r.y = 20000 / 100000001 := by rw [hr]
    have hy : (-((r - ⟨4, 0, 0⟩).length⁻¹ • (r - ⟨4, 0, 0⟩))).y < 0 := by
      rw [XYZ.neg_y, XYZ.smul_y, neg_lt_zero]
      exact mul_pos (inv_pos.mpr l2) (by rw [hr]; norm_num)
    have hy' : -1 ≤ (-((r - ⟨4, 0, 0⟩).length⁻¹ • (r - ⟨4, 0, 0⟩))).y := by
      rw [XYZ.neg_y, XYZ.smul_y, neg_le_neg_iff, inv_mul_le_iff₀ l2, XYZ.sub_y, hry]
      linarith
    rw [not_le, hry, abs_of_neg hy, abs_of_pos (by norm_num : (0 : ℝ) < 20000 / 100000001)]
    refine lt_of_lt_of_le ?_ (le_abs_self _)
    have : max (20000 / 100000001 : ℝ) (-(-((r - ⟨4, 0, 0⟩).length⁻¹ • (r - ⟨4, 0, 0⟩))).y) ≤ 1 := max_le (by norm_num) (by linarith)
    have h99 : (20000 / 100000001 : ℝ) > 1 / 10000 := by norm_num
    linarith
  have m3 : isAlmostEqualTo (1 : ℝ) (r - ⟨4, 0, 0⟩).length = false := by
    unfold isAlmostEqualTo tolOf doubleEps
    apply decide_eq_false
    rw [not_le, abs_of_pos l2, abs_one, max_eq_right (by linarith), abs_sub_comm, abs_of_pos (by linarith)]
    linarith
  rw [← hr]
  unfold rationalQuadraticWeight
  dsimp only
  rw [m1, m2, if_neg (by simp), l1, m3, if_neg (by simp)]
  have hb : bisectorPoint ⟨0, 0, 0⟩ r ⟨4, 0, 0⟩ (0, 0, 0) = ok none := by
    unfold bisectorPoint
    rw [l1, l3, fdiv_ok (by norm_num), ok_bind, fdiv_ok (by norm_num), ok_bind]
    dsimp only
    obtain ⟨x, hx, hx'⟩ := rays_thin (p0 := ⟨0, 0, 0⟩) (v0 := (⟨4, 0, 0⟩ : XYZ ℝ) + (1 / (1 / 4 + 1) : ℝ) • (r - ⟨4, 0, 0⟩) - ⟨0, 0, 0⟩) (p1 := (1 / 2 : ℝ) • ((⟨0, 0, 0⟩ : XYZ ℝ) + ⟨4, 0, 0⟩))
      (v1 := r - (1 / 2 : ℝ) • ((⟨0, 0, 0⟩ : XYZ ℝ) + ⟨4, 0, 0⟩)) (old := (0, 0, 0))
      (by rw [hr]; intro e; have := congrArg XYZ.y e; norm_num at this) (by rw [hr]; intro e; have := congrArg XYZ.y e; norm_num at this)
      (by rw [hr]; norm_num [XYZ.cross, XYZ.sqrLength])
      (by
        apply c
        right
        unfold isAlmostEqualTo tolOf doubleEps
        apply decide_eq_false
        norm_num)
    rw [hx, ok_bind, if_pos hx']
  rw [hb, ok_bind]

end LNLib.Props
