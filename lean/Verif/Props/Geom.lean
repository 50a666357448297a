import Verif.Model.Intersection
import Verif.Lemmas.Geom
import Mathlib.Tactic.NormNum
import Mathlib.Algebra.Order.Ring.Pow
import Mathlib.Tactic.LinearCombination

/-!
# C26-C30, C56, C63, C64: vectors, matrices, projections and intersections
(Mathematics/Math/XYZ.cpp, XYZW.cpp, Matrix4d.cpp, Algorithm/Projection.cpp, Intersection.cpp)
-/
set_option linter.unusedSectionVars false

namespace LNLib.Props
open LNLib Res

section
variable {K : Type} [Field K] [LinearOrder K] [IsStrictOrderedRing K]

/-! ## C29 -/

/-- C29: the cross product is orthogonal to both factors. -/
theorem C29_cross_orthogonal (a b : XYZ K) : (a.cross b).dot a = 0 ∧ (a.cross b).dot b = 0 := by
  constructor <;> simp only [XYZ.cross, XYZ.dot] <;> ring

/-- C29: the cross product is anti-commutative and bilinear. -/
theorem C29_cross_algebra (a b c : XYZ K) (k : K) : a.cross b = -(b.cross a) ∧ a.cross (b + c) = a.cross b + a.cross c ∧
    a.cross (k • b) = k • a.cross b ∧ a.cross a = 0 := by
  refine ⟨?_, ?_, ?_, ?_⟩ <;> ext <;> simp [XYZ.cross] <;> ring

/-- C29: right-handed orientation on the coordinate axes (fixes the sign convention). -/
theorem C29_cross_right_handed : (⟨1, 0, 0⟩ : XYZ K).cross ⟨0, 1, 0⟩ = ⟨0, 0, 1⟩ ∧
    (⟨0, 1, 0⟩ : XYZ K).cross ⟨0, 0, 1⟩ = ⟨1, 0, 0⟩ ∧ (⟨0, 0, 1⟩ : XYZ K).cross ⟨1, 0, 0⟩ = ⟨0, 1, 0⟩ := by
  refine ⟨?_, ?_, ?_⟩ <;> ext <;> simp [XYZ.cross]

/-- C29: Lagrange's identity `|a×b|² + (a·b)² = |a|²|b|²`. -/
theorem C29_lagrange (a b : XYZ K) : (a.cross b).sqrLength + a.dot b ^ 2 = a.sqrLength * b.sqrLength := by
  simp only [XYZ.cross, XYZ.dot, XYZ.sqrLength]; ring

/-- C29: the dot product is symmetric, bilinear and positive definite. -/
theorem C29_dot (a b c : XYZ K) (k : K) : a.dot b = b.dot a ∧ (a + b).dot c = a.dot c + b.dot c ∧ (k • a).dot b = k * a.dot b ∧
    0 ≤ a.dot a ∧ (a.dot a = 0 ↔ a = 0) := by
  refine ⟨by simp only [XYZ.dot]; ring, by simp only [XYZ.dot, XYZ.add_x, XYZ.add_y, XYZ.add_z]; ring,
    by simp only [XYZ.dot, XYZ.smul_x, XYZ.smul_y, XYZ.smul_z]; ring, ?_, ?_⟩
  · simp only [XYZ.dot]; have := mul_self_nonneg a.x; have := mul_self_nonneg a.y; have := mul_self_nonneg a.z; linarith
  · constructor
    · intro h
      simp only [XYZ.dot] at h
      have h1 := mul_self_nonneg a.x; have h2 := mul_self_nonneg a.y; have h3 := mul_self_nonneg a.z
      ext
      · exact mul_self_eq_zero.mp (by linarith)
      · exact mul_self_eq_zero.mp (by linarith)
      · exact mul_self_eq_zero.mp (by linarith)
    · rintro rfl; simp [XYZ.dot]

theorem dot_pos {a : XYZ K} (h : a ≠ 0) : 0 < a.dot a :=
  lt_of_le_of_ne (C29_dot a a a (0 : K)).2.2.2.1 (fun e => h ((C29_dot a a a (0 : K)).2.2.2.2.mp e.symm))

/-! ## C26 -/

/-- the squared distance between two points (specification) -/
def sqDist (a b : XYZ K) : K := (a.x - b.x) ^ 2 + (a.y - b.y) ^ 2 + (a.z - b.z) ^ 2

/-- C26: for every non-zero direction `PointToRay` returns the foot of the perpendicular: a point of the
line, with the difference orthogonal to the direction, and no point of the line is closer. -/
theorem C26_point_to_ray {o v p : XYZ K} (hv : v ≠ 0) :
    ∃ q, pointToRay o v p = ok q ∧ (∃ t : K, q = o + t • v) ∧ (p - q).dot v = 0 ∧ ∀ t : K, sqDist p q ≤ sqDist p (o + t • v) := by
  have hd := dot_pos hv
  refine ⟨o + ((p - o).dot v / v.dot v) • v, by simp only [pointToRay, fdiv_ok hd.ne', ok_bind], ⟨_, rfl⟩, ?_, ?_⟩
  · have : (p - (o + ((p - o).dot v / v.dot v) • v)).dot v = (p - o).dot v - ((p - o).dot v / v.dot v) * v.dot v := by
      simp only [XYZ.dot, XYZ.sub_x, XYZ.sub_y, XYZ.sub_z, XYZ.add_x, XYZ.add_y, XYZ.add_z, XYZ.smul_x, XYZ.smul_y, XYZ.smul_z]; ring
    rw [this, div_mul_cancel₀ _ hd.ne', sub_self]
  · intro t
    have e : sqDist p (o + t • v) - sqDist p (o + ((p - o).dot v / v.dot v) • v) =
        v.dot v * (t - (p - o).dot v / v.dot v) ^ 2 := by
      set s := (p - o).dot v / v.dot v with hs
      have hs' : s * v.dot v = (p - o).dot v := by rw [hs]; field_simp
      simp only [XYZ.dot, XYZ.sub_x, XYZ.sub_y, XYZ.sub_z] at hs'
      simp only [sqDist, XYZ.dot, XYZ.add_x, XYZ.add_y, XYZ.add_z, XYZ.smul_x, XYZ.smul_y, XYZ.smul_z]
      linear_combination (2 * t - 2 * s) * hs'
    have : 0 ≤ v.dot v * (t - (p - o).dot v / v.dot v) ^ 2 := mul_nonneg hd.le (sq_nonneg _)
    linarith

/-- C26: a zero direction divides by zero. -/
theorem C26_zero_direction (o p : XYZ K) : pointToRay o (0 : XYZ K) p = nonfinite := by
  simp only [pointToRay, show (0 : XYZ K).dot 0 = 0 by simp [XYZ.dot], fdiv_zero]; rfl

/-- C26: when `PointToLine` returns `true` the answer is the foot of the perpendicular on the line, within
tolerance of the segment; when it returns `false` the output is untouched and the segment is degenerate or
the foot is outside the segment. -/
theorem C26_point_to_line (s e p old : XYZ K) :
    (∃ (q : XYZ K) (t : K), pointToLine s e p old = ok (true, q) ∧ q = s + t • (e - s) ∧ (p - q).dot (e - s) = 0 ∧
      isLessThan t 0 = false ∧ isGreaterThan t 1 = false) ∨
    (pointToLine s e p old = ok (false, old) ∧ (isAlmostEqualTo ((e - s).dot (e - s)) 0 = true ∨
      ∃ t : K, (p - (s + t • (e - s))).dot (e - s) = 0 ∧ (t < 0 ∨ 1 < t))) := by
  unfold pointToLine
  dsimp only
  by_cases h0 : isAlmostEqualTo ((e - s).dot (e - s)) 0 = true
  · right; rw [if_pos h0]; exact ⟨rfl, Or.inl h0⟩
  · rw [if_neg h0]
    have hd : (e - s).dot (e - s) ≠ 0 := by
      intro h; rw [h] at h0; exact h0 (isAlmostEqualTo_self doubleEps_pos)
    have hfd : fdiv ((p - s).dot (e - s)) ((e - s).dot (e - s)) = ok ((p - s).dot (e - s) / (e - s).dot (e - s)) := fdiv_ok hd
    rw [hfd, ok_bind]
    have hort : ∀ t, t = (p - s).dot (e - s) / (e - s).dot (e - s) → (p - (s + t • (e - s))).dot (e - s) = 0 := by
      rintro t rfl
      have : (p - (s + ((p - s).dot (e - s) / (e - s).dot (e - s)) • (e - s))).dot (e - s) =
          (p - s).dot (e - s) - ((p - s).dot (e - s) / (e - s).dot (e - s)) * (e - s).dot (e - s) := by
        simp only [XYZ.dot, XYZ.sub_x, XYZ.sub_y, XYZ.sub_z, XYZ.add_x, XYZ.add_y, XYZ.add_z, XYZ.smul_x, XYZ.smul_y, XYZ.smul_z]; ring
      rw [this, div_mul_cancel₀ _ hd, sub_self]
    by_cases h1 : (isLessThan ((p - s).dot (e - s) / (e - s).dot (e - s)) 0 || isGreaterThan ((p - s).dot (e - s) / (e - s).dot (e - s)) 1) = true
    · right
      rw [if_pos h1]
      refine ⟨rfl, Or.inr ⟨(p - s).dot (e - s) / (e - s).dot (e - s), hort ((p - s).dot (e - s) / (e - s).dot (e - s)) rfl, ?_⟩⟩
      rw [Bool.or_eq_true] at h1
      rcases h1 with h1 | h1
      · exact Or.inl (lt_of_isLessThan doubleEps_pos h1)
      · right
        have h2 := tolOf_pos (a := (p - s).dot (e - s) / (e - s).dot (e - s)) (b := 1) doubleEps_pos
        simp only [isGreaterThan, decide_eq_true_eq] at h1
        linarith
    · left
      rw [if_neg h1]
      rw [Bool.or_eq_true, not_or, Bool.not_eq_true, Bool.not_eq_true] at h1
      exact ⟨_, (p - s).dot (e - s) / (e - s).dot (e - s), rfl, rfl, hort ((p - s).dot (e - s) / (e - s).dot (e - s)) rfl, h1.1, h1.2⟩

example : pointToRay (⟨1, 0, 0⟩ : XYZ ℚ) ⟨2, 0, 0⟩ ⟨4, 5, 6⟩ = ok ⟨4, 0, 0⟩ ∧
    pointToLine (⟨0, 0, 0⟩ : XYZ ℚ) ⟨2, 0, 0⟩ ⟨1, 5, 6⟩ ⟨9, 9, 9⟩ = ok (true, ⟨1, 0, 0⟩) ∧
    pointToLine (⟨0, 0, 0⟩ : XYZ ℚ) ⟨2, 0, 0⟩ ⟨3, 5, 6⟩ ⟨9, 9, 9⟩ = ok (false, ⟨9, 9, 9⟩) := by decide +kernel

/-! ## C63: stereographic projection -/

/-- C63: for every point other than those at the height of the north pole `(0,0,2r)`, the stereographic
image is the point where the line through the pole and the point meets the plane `z = 0`. -/
theorem C63_stereographic {p : XYZ K} {r : K} (h : p.z ≠ 2 * r) :
    ∃ q, stereographic p r = ok q ∧ q.z = 0 ∧ ∃ s : K, q = (⟨0, 0, 2 * r⟩ : XYZ K) + s • (p - ⟨0, 0, 2 * r⟩) := by
  have hd : p.z - 2 * r ≠ 0 := fun e => h (by linarith)
  refine ⟨⟨-2 * r / (p.z - 2 * r) * p.x, -2 * r / (p.z - 2 * r) * p.y, 0⟩, by simp only [stereographic, fdiv_ok hd, ok_bind], rfl,
    -2 * r / (p.z - 2 * r), ?_⟩
  ext
  · simp
  · simp
  · simp only [XYZ.add_z, XYZ.smul_z, XYZ.sub_z]; rw [div_mul_cancel₀ _ hd]; ring

/-- C63: points of the sphere of radius `r` resting on the plane at the origin: different points other
than the pole have different images. -/
theorem C63_injective {p p' q : XYZ K} {r : K} (hr : 0 < r) (hp : p.x ^ 2 + p.y ^ 2 + (p.z - r) ^ 2 = r ^ 2)
    (hp' : p'.x ^ 2 + p'.y ^ 2 + (p'.z - r) ^ 2 = r ^ 2) (h : stereographic p r = ok q) (h' : stereographic p' r = ok q) : p = p' := by
  have key : ∀ p : XYZ K, p.x ^ 2 + p.y ^ 2 + (p.z - r) ^ 2 = r ^ 2 → stereographic p r = ok q →
      p.z - 2 * r ≠ 0 ∧ q.x * (p.z - 2 * r) = -2 * r * p.x ∧ q.y * (p.z - 2 * r) = -2 * r * p.y := by
    intro p hp h
    have hd : p.z - 2 * r ≠ 0 := by
      intro e; simp only [stereographic, e, fdiv_zero] at h; cases h
    simp only [stereographic, fdiv_ok hd, ok_bind, Res.ok.injEq] at h
    subst h
    refine ⟨hd, ?_, ?_⟩ <;> dsimp only <;> field_simp
  have key2 : ∀ p : XYZ K, p.x ^ 2 + p.y ^ 2 + (p.z - r) ^ 2 = r ^ 2 → stereographic p r = ok q →
      (q.x ^ 2 + q.y ^ 2) * (2 * r - p.z) = 4 * r ^ 2 * p.z := by
    intro p hp h
    obtain ⟨h1, h2, h3⟩ := key p hp h
    have : (q.x ^ 2 + q.y ^ 2) * (p.z - 2 * r) ^ 2 = 4 * r ^ 2 * (p.x ^ 2 + p.y ^ 2) := by
      calc _ = (q.x * (p.z - 2 * r)) ^ 2 + (q.y * (p.z - 2 * r)) ^ 2 := by ring
        _ = _ := by rw [h2, h3]; ring
    have e : p.x ^ 2 + p.y ^ 2 = -(p.z * (p.z - 2 * r)) := by linear_combination hp
    rw [e] at this
    apply mul_right_cancel₀ h1
    linear_combination -this
  have a1 := key2 p hp h
  have a2 := key2 p' hp' h'
  have hz : p.z = p'.z := by
    have hpos : (q.x ^ 2 + q.y ^ 2) + 4 * r ^ 2 ≠ 0 := by positivity
    apply mul_left_cancel₀ hpos
    linear_combination a2 - a1
  obtain ⟨-, b2, b3⟩ := key p hp h
  obtain ⟨-, c2, c3⟩ := key p' hp' h'
  have hr2 : (-2 * r) ≠ 0 := by simpa using hr.ne'
  ext
  · apply mul_left_cancel₀ hr2; rw [← b2, ← c2, hz]
  · apply mul_left_cancel₀ hr2; rw [← b3, ← c3, hz]
  · exact hz

/-- C63: the pole has no image: the division by zero is not caught. -/
theorem C63_pole (x y r : K) : stereographic ⟨x, y, 2 * r⟩ r = nonfinite := by
  simp [stereographic, fdiv_zero]

example : stereographic (⟨1, 0, 1⟩ : XYZ ℚ) 1 = ok ⟨2, 0, 0⟩ := by decide +kernel

/-! ## C28 -/

/-- C28: if the direction is not parallel to the plane (beyond tolerance) the answer is `Intersecting` and
the point lies exactly on the plane and on the line; otherwise the answer is `On` or `Parallel`
according to whether the line's base point is in the plane (up to tolerance). -/
theorem C28_line_plane (nrm pp pl dir old : XYZ K) :
    (1 / 1000000 * (1 + |dir.dot nrm|) < |dir.dot nrm| ∧ ∃ q, computeLineAndPlane nrm pp pl dir old = ok (.intersecting, q) ∧
      (q - pp).dot nrm = 0 ∧ ∃ t : K, q = pl + t • dir) ∨
    (|dir.dot nrm| ≤ 1 / 1000000 * (1 + |dir.dot nrm|) ∧
      ((computeLineAndPlane nrm pp pl dir old = ok (.on, pl) ∧ |(pl - pp).dot nrm| ≤ 1 / 1000000 * (1 + |(pl - pp).dot nrm|)) ∨
       (computeLineAndPlane nrm pp pl dir old = ok (.parallel, old) ∧ 1 / 1000000 * (1 + |(pl - pp).dot nrm|) < |(pl - pp).dot nrm|))) := by
  unfold computeLineAndPlane
  dsimp only
  by_cases h0 : isAlmostEqualTo |dir.dot nrm| 0 = true
  · right
    have h0' := h0
    rw [isAlmostZero_iff, abs_abs] at h0'
    refine ⟨h0', ?_⟩
    rw [if_pos h0]
    by_cases h1 : isAlmostEqualTo |(-((pl - pp).dot nrm))| 0 = true
    · left
      rw [if_pos h1]
      rw [isAlmostZero_iff, abs_abs, abs_neg] at h1
      exact ⟨rfl, h1⟩
    · right
      rw [if_neg h1]
      rw [isAlmostZero_iff, abs_abs, abs_neg, not_le] at h1
      exact ⟨rfl, h1⟩
  · left
    have h0' := h0
    rw [isAlmostZero_iff, abs_abs, not_le] at h0'
    refine ⟨h0', ?_⟩
    rw [if_neg h0]
    have hd : dir.dot nrm ≠ 0 := by
      intro h; rw [h] at h0'; norm_num at h0'
    rw [fdiv_ok hd, ok_bind]
    refine ⟨_, rfl, ?_, _, rfl⟩
    have : (pl + (-(pl - pp).dot nrm / dir.dot nrm) • dir - pp).dot nrm = (pl - pp).dot nrm + (-(pl - pp).dot nrm / dir.dot nrm) * dir.dot nrm := by
      simp only [XYZ.dot, XYZ.sub_x, XYZ.sub_y, XYZ.sub_z, XYZ.add_x, XYZ.add_y, XYZ.add_z, XYZ.smul_x, XYZ.smul_y, XYZ.smul_z]; ring
    rw [this, div_mul_cancel₀ _ hd]; ring

example : computeLineAndPlane (⟨0, 0, 1⟩ : XYZ ℚ) ⟨0, 0, 2⟩ ⟨1, 1, 0⟩ ⟨1, 0, 1⟩ 0 = ok (.intersecting, ⟨3, 1, 2⟩) := by decide +kernel

/-! ## C30 -/

/-- C30: `A*B` applied to a point is `A` applied to `B` applied to the point, whenever both applications
are defined (for affine matrices they always are, `C30_affine_defined`). -/
theorem C30_multiply_composes {A B : Matrix4d K} {p q r : XYZ K} (hB : B.ofPoint p = ok q) (hA : A.ofPoint q = ok r) :
    (A.multiply B).ofPoint p = ok r := by
  unfold Matrix4d.ofPoint at *
  set wB := B.a30 * p.x + B.a31 * p.y + B.a32 * p.z + B.a33 * 1 with hwB
  by_cases h1 : wB = 0
  · rw [h1, vdiv_zero] at hB; cases hB
  rw [vdiv_ok h1, Res.ok.injEq] at hB
  subst hB
  dsimp only [XYZ.smul_x, XYZ.smul_y, XYZ.smul_z] at hA
  set wA := A.a30 * (wB⁻¹ * (B.a00 * p.x + B.a01 * p.y + B.a02 * p.z + B.a03 * 1)) + A.a31 * (wB⁻¹ * (B.a10 * p.x + B.a11 * p.y + B.a12 * p.z + B.a13 * 1)) +
    A.a32 * (wB⁻¹ * (B.a20 * p.x + B.a21 * p.y + B.a22 * p.z + B.a23 * 1)) + A.a33 * 1 with hwA
  by_cases h2 : wA = 0
  · rw [h2, vdiv_zero] at hA; cases hA
  rw [vdiv_ok h2, Res.ok.injEq] at hA
  subst hA
  have hw : (A.multiply B).a30 * p.x + (A.multiply B).a31 * p.y + (A.multiply B).a32 * p.z + (A.multiply B).a33 * 1 = wB * wA := by
    rw [hwA]; simp only [Matrix4d.multiply]; field_simp; rw [hwB]; ring
  have h3 : wB * wA ≠ 0 := mul_ne_zero h1 h2
  rw [hw, vdiv_ok h3]
  congr 1
  ext <;> simp only [XYZ.smul_x, XYZ.smul_y, XYZ.smul_z, Matrix4d.multiply] <;> field_simp <;> rw [hwB] <;> ring

/-- C30: an affine matrix (last row `0 0 0 1`) is defined on every point. -/
theorem C30_affine_defined {A : Matrix4d K} (h : A.a30 = 0 ∧ A.a31 = 0 ∧ A.a32 = 0 ∧ A.a33 = 1) (p : XYZ K) :
    A.ofPoint p = ok (A.ofVector p + A.basisW) := by
  obtain ⟨h0, h1, h2, h3⟩ := h
  unfold Matrix4d.ofPoint
  rw [h0, h1, h2, h3, vdiv_ok (by simp)]
  congr 1
  ext <;> simp [Matrix4d.ofVector, Matrix4d.basisW]

/-- C30: multiplication is associative, the identity is neutral, and the transpose is an involution that
reverses products. -/
theorem C30_algebra (A B C : Matrix4d K) : (A.multiply B).multiply C = A.multiply (B.multiply C) ∧
    Matrix4d.identity.multiply A = A ∧ A.multiply Matrix4d.identity = A ∧ A.getTranspose.getTranspose = A ∧
    (A.multiply B).getTranspose = B.getTranspose.multiply A.getTranspose := by
  refine ⟨?_, ?_, ?_, rfl, ?_⟩
  · ext <;> simp only [Matrix4d.multiply] <;> ring
  · ext <;> simp [Matrix4d.multiply, Matrix4d.identity]
  · ext <;> simp [Matrix4d.multiply, Matrix4d.identity]
  · ext <;> simp only [Matrix4d.multiply, Matrix4d.getTranspose] <;> ring

/-- C30: `OfVector` ignores the translation part and composes. -/
theorem C30_ofVector (A B : Matrix4d K) (w v : XYZ K) : (A.setBasisW w).ofVector v = A.ofVector v ∧
    ((B.a30 = 0 ∧ B.a31 = 0 ∧ B.a32 = 0) → (A.multiply B).ofVector v = A.ofVector (B.ofVector v)) := by
  refine ⟨rfl, ?_⟩
  rintro ⟨h0, h1, h2⟩
  ext <;> simp only [Matrix4d.ofVector, Matrix4d.multiply, h0, h1, h2] <;> ring

/-- C30: the constructors do what their names say. -/
theorem C30_constructors (bx by' bz o v s p : XYZ K) :
    (Matrix4d.ofBasis bx by' bz o).ofPoint p = ok (o + p.x • bx + p.y • by' + p.z • bz) ∧
    (Matrix4d.createTranslation v).ofPoint p = ok (p + v) ∧
    (Matrix4d.createScale s).ofPoint p = ok ⟨s.x * p.x, s.y * p.y, s.z * p.z⟩ ∧
    (Matrix4d.identity : Matrix4d K).ofPoint p = ok p := by
  refine ⟨?_, ?_, ?_, ?_⟩
  · rw [C30_affine_defined ⟨rfl, rfl, rfl, rfl⟩]
    congr 1
    ext <;> simp [Matrix4d.ofVector, Matrix4d.basisW, Matrix4d.ofBasis] <;> ring
  · rw [C30_affine_defined ⟨rfl, rfl, rfl, rfl⟩]
    congr 1
    ext <;> simp [Matrix4d.ofVector, Matrix4d.basisW, Matrix4d.createTranslation]
  · rw [C30_affine_defined ⟨rfl, rfl, rfl, rfl⟩]
    congr 1
    ext <;> simp [Matrix4d.ofVector, Matrix4d.basisW, Matrix4d.createScale]
  · rw [C30_affine_defined ⟨rfl, rfl, rfl, rfl⟩]
    congr 1
    ext <;> simp [Matrix4d.ofVector, Matrix4d.basisW, Matrix4d.identity]

/-- C30 is violated by `GetInverse`: whatever the underlying linear algebra library returns, it answers
`true` for the singular zero matrix, together with something that is not an inverse. -/
theorem C30_inverse_singular_violated (eigenInverse : Matrix4d K → Matrix4d K) :
    ∃ (m : Matrix4d K) (inv : Matrix4d K), m.getInverse eigenInverse = (true, inv) ∧ m.multiply inv ≠ Matrix4d.identity := by
  refine ⟨⟨0, 0, 0, 0, 0, 0, 0, 0, 0, 0, 0, 0, 0, 0, 0, 0⟩, _, rfl, ?_⟩
  intro h
  have := congrArg Matrix4d.a00 h
  simp [Matrix4d.multiply, Matrix4d.identity] at this

/-- C30 (the part of the inverse claim that holds): if the library inverts invertible matrices correctly,
`GetInverse` of an invertible matrix answers `true` with a two-sided inverse.  Missing: it should answer
`false` for singular matrices. -/
theorem C30_inverse_partial (eigenInverse : Matrix4d K → Matrix4d K)
    (hE : ∀ m n : Matrix4d K, m.multiply n = .identity → n.multiply m = .identity → eigenInverse m = n)
    {m n : Matrix4d K} (h1 : m.multiply n = .identity) (h2 : n.multiply m = .identity) :
    ∃ inv, m.getInverse eigenInverse = (true, inv) ∧ m.multiply inv = .identity ∧ inv.multiply m = .identity :=
  ⟨n, by unfold Matrix4d.getInverse; rw [hE m n h1 h2], h1, h2⟩

/-- C30: `IsIdentity` accepts the identity but also a shear, because it adds the off-diagonal
entries up; the same for `IsTranslation`. -/
theorem C30_isIdentity_violated : ∃ (m : Matrix4d ℚ) (p q : XYZ ℚ), m.isIdentity = true ∧ m.isTranslation = true ∧ m.ofPoint p = ok q ∧ q ≠ p ∧
    m.basisW = 0 :=
  ⟨⟨1, 1, -1, 0, 0, 1, 0, 0, 0, 0, 1, 0, 0, 0, 0, 1⟩, ⟨0, 1, 0⟩, ⟨1, 1, 0⟩, by decide +kernel⟩

/-- C30: what a positive answer of `IsIdentity` guarantees: the first three diagonal entries are near one and the off-diagonal entries add up to
something near zero; a matrix for which these four things hold is accepted. -/
theorem C30_isIdentity_partial (m : Matrix4d K) : m.isIdentity = true ↔ |m.a00 - 1| ≤ 1 / 1000000 * (1 + max |m.a00| |1|) ∧ |m.a11 - 1| ≤ 1 / 1000000 * (1 + max |m.a11| |1|) ∧
    |m.a22 - 1| ≤ 1 / 1000000 * (1 + max |m.a22| |1|) ∧
    |m.a01 + m.a02 + m.a03 + m.a10 + m.a12 + m.a13 + m.a20 + m.a21 + m.a23 + m.a30 + m.a31 + m.a32 - 0| ≤
      1 / 1000000 * (1 + max |m.a01 + m.a02 + m.a03 + m.a10 + m.a12 + m.a13 + m.a20 + m.a21 + m.a23 + m.a30 + m.a31 + m.a32| |0|) := by
  have key : ∀ x y : K, isAlmostEqualTo x y = true ↔ |x - y| ≤ 1 / 1000000 * (1 + max |x| |y|) := fun x y => by
    unfold isAlmostEqualTo
    rw [decide_eq_true_eq]
    rfl
  rw [← key, ← key, ← key, ← key]
  unfold Matrix4d.isIdentity
  cases isAlmostEqualTo m.a00 1 <;> cases isAlmostEqualTo m.a11 1 <;> cases isAlmostEqualTo m.a22 1 <;> simp

/-- C30: what a positive answer of `IsTranslation` guarantees. -/
theorem C30_isTranslation_partial (m : Matrix4d K) : m.isTranslation = true ↔ |m.a00 - 1| ≤ 1 / 1000000 * (1 + max |m.a00| |1|) ∧ |m.a11 - 1| ≤ 1 / 1000000 * (1 + max |m.a11| |1|) ∧
    |m.a22 - 1| ≤ 1 / 1000000 * (1 + max |m.a22| |1|) ∧
    |m.a01 + m.a02 + m.a10 + m.a12 + m.a20 + m.a21 + m.a30 + m.a31 + m.a32 - 0| ≤
      1 / 1000000 * (1 + max |m.a01 + m.a02 + m.a10 + m.a12 + m.a20 + m.a21 + m.a30 + m.a31 + m.a32| |0|) := by
  have key : ∀ x y : K, isAlmostEqualTo x y = true ↔ |x - y| ≤ 1 / 1000000 * (1 + max |x| |y|) := fun x y => by
    unfold isAlmostEqualTo
    rw [decide_eq_true_eq]
    rfl
  rw [← key, ← key, ← key, ← key]
  unfold Matrix4d.isTranslation
  cases isAlmostEqualTo m.a00 1 <;> cases isAlmostEqualTo m.a11 1 <;> cases isAlmostEqualTo m.a22 1 <;> simp

/-- C30: the identity is recognised as such, and every translation as a translation. -/
theorem C30_recognised (v : XYZ K) : (Matrix4d.identity : Matrix4d K).isIdentity = true ∧ (Matrix4d.createTranslation v).isTranslation = true := by
  have h : ∀ a : K, isAlmostEqualTo a a = true := fun a => isAlmostEqualTo_self doubleEps_pos
  constructor
  · simp [Matrix4d.isIdentity, Matrix4d.identity, h]
  · simp [Matrix4d.isTranslation, Matrix4d.createTranslation, h]

/-- C30: `HasReflection` is the sign of the determinant of the linear part (up to tolerance). -/
theorem C30_hasReflection (m : Matrix4d K) : (m.hasReflection = true →
    m.a00 * (m.a11 * m.a22 - m.a12 * m.a21) - m.a01 * (m.a10 * m.a22 - m.a12 * m.a20) + m.a02 * (m.a10 * m.a21 - m.a11 * m.a20) < 0) := by
  intro h
  have := lt_of_isLessThan doubleEps_pos h
  simp only [XYZ.dot, XYZ.cross, Matrix4d.basisX, Matrix4d.basisY, Matrix4d.basisZ] at this
  linarith

example : (Matrix4d.createScale (⟨-1, 2, 3⟩ : XYZ ℚ)).hasReflection = true ∧
    ((⟨1, 0, 0, 3, 0, 2, 0, 0, 0, 0, 1, 0, 1, 0, 0, 1⟩ : Matrix4d ℚ).ofPoint ⟨1, 2, 3⟩ = ok ⟨2, 2, 3/2⟩) := by decide +kernel

/-! ## C56 -/

/-- C56: building a weighted point and projecting it back returns the point, for every weight beyond the
zero tolerance; sums and multiples of weighted points are componentwise. -/
theorem C56_roundtrip_partial {p : XYZ K} {w : K} (hw : 1 / 1000000 * (1 + |w|) < |w|) : (XYZW.ofXYZ p w).toXYZ = p := by
  have hne : w ≠ 0 := by rintro rfl; norm_num at hw
  rw [XYZW.toXYZ_eq (by exact hw)]
  ext <;> simp [XYZW.ofXYZ, XYZW.raw] <;> field_simp

/-- C56: componentwise arithmetic. -/
theorem C56_componentwise (a b : XYZW K) (k : K) : (a + b) = ⟨a.wx + b.wx, a.wy + b.wy, a.wz + b.wz, a.w + b.w⟩ ∧
    (k • a) = ⟨k * a.wx, k * a.wy, k * a.wz, k * a.w⟩ ∧ (a - b) = ⟨a.wx - b.wx, a.wy - b.wy, a.wz - b.wz, a.w - b.w⟩ := ⟨rfl, rfl, rfl⟩

/-- C56: adding two weighted points and projecting gives the weighted mean of the two points. -/
theorem C56_weighted_mean {p q : XYZ K} {v w : K} (h : 1 / 1000000 * (1 + |v + w|) < |v + w|) :
    (XYZW.ofXYZ p v + XYZW.ofXYZ q w).toXYZ = (v / (v + w)) • p + (w / (v + w)) • q := by
  have hne : v + w ≠ 0 := by intro e; rw [e] at h; norm_num at h
  rw [XYZW.toXYZ_eq (by exact h)]
  ext <;> simp [XYZW.ofXYZ, XYZW.raw] <;> field_simp

/-- C56 is violated for small non-zero weights: `ToXYZ(true)` leaves the coordinates multiplied. -/
theorem C56_small_weight_violated : ∃ (p : XYZ ℚ) (w : ℚ), w ≠ 0 ∧ (XYZW.ofXYZ p w).toXYZ ≠ p :=
  ⟨⟨1, 2, 3⟩, 1 / 2000000, by decide +kernel⟩

example : (XYZW.ofXYZ (⟨1, 2, 3⟩ : XYZ ℚ) (1/2)).toXYZ = ⟨1, 2, 3⟩ := C56_roundtrip_partial (by decide +kernel)

end

/-! ## Real numbers: lengths, rotations, rays -/

section

theorem length_sq (a : XYZ ℝ) : a.length ^ 2 = a.x * a.x + a.y * a.y + a.z * a.z := by
  unfold XYZ.length
  exact Real.sq_sqrt (by have := mul_self_nonneg a.x; have := mul_self_nonneg a.y; have := mul_self_nonneg a.z; linarith)

theorem length_nonneg (a : XYZ ℝ) : 0 ≤ a.length := Real.sqrt_nonneg _
theorem distance_nonneg (a b : XYZ ℝ) : 0 ≤ a.distance b := Real.sqrt_nonneg _

theorem length_pos {a : XYZ ℝ} (h : a ≠ 0) : 0 < a.length := by
  unfold XYZ.length; exact Real.sqrt_pos.mpr (dot_pos h)

theorem normalize_eq {a : XYZ ℝ} (h : a ≠ 0) : a.normalize = a.length⁻¹ • a := by
  unfold XYZ.normalize
  rw [if_pos (length_pos h)]
  ext <;> simp <;> ring

/-- C29: `Normalize` of a non-zero vector is the unit vector in the same direction; the zero vector is
returned unchanged, without division. -/
theorem C29_normalize (a : XYZ ℝ) : (a ≠ 0 → a.normalize.length = 1 ∧ ∃ k : ℝ, 0 < k ∧ a.normalize = k • a) ∧ (0 : XYZ ℝ).normalize = 0 := by
  constructor
  · intro h
    have hp := length_pos h
    refine ⟨?_, a.length⁻¹, inv_pos.mpr hp, normalize_eq h⟩
    have h1 : a.normalize.length ^ 2 = 1 := by
      rw [length_sq, normalize_eq h]
      simp only [XYZ.smul_x, XYZ.smul_y, XYZ.smul_z]
      have := length_sq a
      field_simp
      linarith
    have h2 : 0 ≤ a.normalize.length := Real.sqrt_nonneg _
    nlinarith
  · unfold XYZ.normalize XYZ.length
    simp

/-- C29: `Distance` is symmetric, zero exactly for equal points, and satisfies the triangle inequality. -/
theorem C29_distance (a b c : XYZ ℝ) : a.distance b = b.distance a ∧ (a.distance b = 0 ↔ a = b) ∧ a.distance c ≤ a.distance b + b.distance c := by
  refine ⟨?_, ?_, ?_⟩
  · unfold XYZ.distance; congr 1; ring
  · unfold XYZ.distance
    rw [Real.sqrt_eq_zero (by positivity)]
    constructor
    · intro h
      have h1 := sq_nonneg (b.x - a.x); have h2 := sq_nonneg (b.y - a.y); have h3 := sq_nonneg (b.z - a.z)
      ext
      · have : (b.x - a.x) ^ 2 = 0 := by linarith
        have := pow_eq_zero_iff (two_ne_zero) |>.mp this; linarith
      · have : (b.y - a.y) ^ 2 = 0 := by linarith
        have := pow_eq_zero_iff (two_ne_zero) |>.mp this; linarith
      · have : (b.z - a.z) ^ 2 = 0 := by linarith
        have := pow_eq_zero_iff (two_ne_zero) |>.mp this; linarith
    · rintro rfl; simp
  · unfold XYZ.distance
    set S1 := (b.x - a.x) ^ 2 + (b.y - a.y) ^ 2 + (b.z - a.z) ^ 2 with hS1
    set S2 := (c.x - b.x) ^ 2 + (c.y - b.y) ^ 2 + (c.z - b.z) ^ 2 with hS2
    have p1 : 0 ≤ S1 := by positivity
    have p2 : 0 ≤ S2 := by positivity
    rw [Real.sqrt_le_left (by positivity)]
    have e : (√S1 + √S2) ^ 2 = S1 + S2 + 2 * (√S1 * √S2) := by
      rw [add_sq, Real.sq_sqrt p1, Real.sq_sqrt p2]; ring
    rw [e, ← Real.sqrt_mul p1]
    set D := (b.x - a.x) * (c.x - b.x) + (b.y - a.y) * (c.y - b.y) + (b.z - a.z) * (c.z - b.z) with hD
    have hCS : D ^ 2 ≤ S1 * S2 := by
      have : S1 * S2 - D ^ 2 = ((b.x - a.x) * (c.y - b.y) - (b.y - a.y) * (c.x - b.x)) ^ 2 +
          ((b.x - a.x) * (c.z - b.z) - (b.z - a.z) * (c.x - b.x)) ^ 2 + ((b.y - a.y) * (c.z - b.z) - (b.z - a.z) * (c.y - b.y)) ^ 2 := by
        rw [hS1, hS2, hD]; ring
      have h1 := sq_nonneg ((b.x - a.x) * (c.y - b.y) - (b.y - a.y) * (c.x - b.x))
      have h2 := sq_nonneg ((b.x - a.x) * (c.z - b.z) - (b.z - a.z) * (c.x - b.x))
      have h3 := sq_nonneg ((b.y - a.y) * (c.z - b.z) - (b.z - a.z) * (c.y - b.y))
      linarith
    have hD' : D ≤ √(S1 * S2) := Real.le_sqrt_of_sq_le hCS
    have : (c.x - a.x) ^ 2 + (c.y - a.y) ^ 2 + (c.z - a.z) ^ 2 = S1 + S2 + 2 * D := by rw [hS1, hS2, hD]; ring
    linarith

/-- C29: Cauchy-Schwarz, so that `AngleTo` never takes the arc cosine of a number outside [-1,1] for exact
arithmetic: the dot product of the normalised vectors is in [-1,1], and `|a||b| cos(AngleTo) = a·b`. -/
theorem C29_angle {a b : XYZ ℝ} (ha : a ≠ 0) (hb : b ≠ 0) : a.length * b.length * Real.cos (a.angleTo b) = a.dot b ∧
    0 ≤ a.angleTo b ∧ a.angleTo b ≤ Real.pi := by
  have la := length_pos ha
  have lb := length_pos hb
  have na := (C29_normalize a).1 ha
  have nb := (C29_normalize b).1 hb
  have hza : a.normalize.isZero = false := by
    have : a.normalize.sqrLength = 1 := by
      have := length_sq a.normalize; rw [na.1] at this; unfold XYZ.sqrLength; linarith
    unfold XYZ.isZero
    rw [this]; unfold doubleEps; norm_num
  have hzb : b.normalize.isZero = false := by
    have : b.normalize.sqrLength = 1 := by
      have := length_sq b.normalize; rw [nb.1] at this; unfold XYZ.sqrLength; linarith
    unfold XYZ.isZero
    rw [this]; unfold doubleEps; norm_num
  have hdot : a.normalize.dot b.normalize = a.dot b / (a.length * b.length) := by
    rw [normalize_eq ha, normalize_eq hb]
    simp only [XYZ.dot, XYZ.smul_x, XYZ.smul_y, XYZ.smul_z]
    field_simp
  have hCS : (a.dot b) ^ 2 ≤ (a.length * b.length) ^ 2 := by
    rw [mul_pow, length_sq, length_sq]
    have h := C29_lagrange a b
    have h2 : 0 ≤ (a.cross b).sqrLength := by
      unfold XYZ.sqrLength
      have := mul_self_nonneg (a.cross b).x; have := mul_self_nonneg (a.cross b).y; have := mul_self_nonneg (a.cross b).z; linarith
    unfold XYZ.sqrLength at h h2
    linarith
  have hab := abs_le_of_sq_le_sq' hCS (by positivity)
  have h1 : -1 ≤ a.dot b / (a.length * b.length) := by rw [le_div_iff₀ (by positivity)]; linarith
  have h2 : a.dot b / (a.length * b.length) ≤ 1 := by rw [div_le_iff₀ (by positivity)]; linarith
  have e : a.angleTo b = Real.arccos (a.dot b / (a.length * b.length)) := by
    unfold XYZ.angleTo
    rw [hza, hzb]
    simp only [Bool.or_self, Bool.false_eq_true, if_false, hdot]
    rw [if_neg (not_lt.mpr h1), if_neg (not_lt.mpr h2)]
  rw [e]
  refine ⟨?_, Real.arccos_nonneg _, Real.arccos_le_pi _⟩
  rw [Real.cos_arccos h1 h2]
  field_simp

/-! ### Rotations and reflections -/

theorem unit_normalize {n : XYZ ℝ} (h : n ≠ 0) : n.normalize.x * n.normalize.x + n.normalize.y * n.normalize.y + n.normalize.z * n.normalize.z = 1 := by
  have := length_sq n.normalize
  rw [((C29_normalize n).1 h).1] at this
  linarith

/-- C30: for every non-zero axis and every angle, the rotation fixes the axis, preserves dot products
(hence lengths and angles) and turns vectors orthogonal to the axis by the angle, counter-clockwise about
the axis. -/
theorem C30_rotation {axis : XYZ ℝ} (h : axis ≠ 0) (rad : ℝ) (v w : XYZ ℝ) :
    (Matrix4d.createRotation axis rad).ofVector axis = axis ∧
    ((Matrix4d.createRotation axis rad).ofVector v).dot ((Matrix4d.createRotation axis rad).ofVector w) = v.dot w ∧
    (v.dot axis = 0 → (Matrix4d.createRotation axis rad).ofVector v =
      Real.cos rad • v + Real.sin rad • axis.normalize.cross v) := by
  have hu := unit_normalize h
  have hcs : Real.cos rad ^ 2 + Real.sin rad ^ 2 = 1 := Real.cos_sq_add_sin_sq rad
  have hax : axis = axis.length • axis.normalize := by
    rw [normalize_eq h, smul_smul, mul_inv_cancel₀ (length_pos h).ne', one_smul]
  refine ⟨?_, ?_, ?_⟩
  · conv_lhs => rw [hax]
    conv_rhs => rw [hax]
    have hn : ∀ k : ℝ, (k • axis.normalize).x = k * axis.normalize.x ∧ (k • axis.normalize).y = k * axis.normalize.y ∧ (k • axis.normalize).z = k * axis.normalize.z := fun k => ⟨rfl, rfl, rfl⟩
    have hn2 : (axis.length • axis.normalize).normalize = axis.normalize := by rw [← hax]
    ext <;> simp only [Matrix4d.ofVector, Matrix4d.createRotation, hn2, XYZ.smul_x, XYZ.smul_y, XYZ.smul_z]
    · linear_combination (axis.length * axis.normalize.x * (1 - Real.cos rad)) * hu
    · linear_combination (axis.length * axis.normalize.y * (1 - Real.cos rad)) * hu
    · linear_combination (axis.length * axis.normalize.z * (1 - Real.cos rad)) * hu
  · set x := axis.normalize.x
    set y := axis.normalize.y
    set z := axis.normalize.z
    have e : ∀ u : XYZ ℝ, (Matrix4d.createRotation axis rad).ofVector u =
        Real.cos rad • u + Real.sin rad • axis.normalize.cross u + ((1 - Real.cos rad) * axis.normalize.dot u) • axis.normalize := by
      intro u
      ext <;> simp only [Matrix4d.ofVector, Matrix4d.createRotation, XYZ.add_x, XYZ.add_y, XYZ.add_z, XYZ.smul_x, XYZ.smul_y, XYZ.smul_z, XYZ.cross, XYZ.dot] <;> ring
    rw [e, e]
    simp only [XYZ.dot, XYZ.add_x, XYZ.add_y, XYZ.add_z, XYZ.smul_x, XYZ.smul_y, XYZ.smul_z, XYZ.cross]
    change _ = v.x * w.x + v.y * w.y + v.z * w.z
    set c := Real.cos rad
    set s := Real.sin rad
    have hd1 : x * x + y * y + z * z = 1 := hu
    linear_combination (v.x * w.x + v.y * w.y + v.z * w.z) * hcs + (s ^ 2 * (v.x * w.x + v.y * w.y + v.z * w.z) + (1 - c) ^ 2 * (x * v.x + y * v.y + z * v.z) * (x * w.x + y * w.y + z * w.z)) * hd1 -
      ((x * v.x + y * v.y + z * v.z) * (x * w.x + y * w.y + z * w.z)) * hcs
  · intro hv
    have hv' : axis.normalize.dot v = 0 := by
      rw [normalize_eq h]
      have : (axis.length⁻¹ • axis).dot v = axis.length⁻¹ * v.dot axis := by
        simp only [XYZ.dot, XYZ.smul_x, XYZ.smul_y, XYZ.smul_z]; ring
      rw [this, hv, mul_zero]
    simp only [XYZ.dot] at hv'
    ext <;> simp only [Matrix4d.ofVector, Matrix4d.createRotation, XYZ.add_x, XYZ.add_y, XYZ.add_z, XYZ.smul_x, XYZ.smul_y, XYZ.smul_z, XYZ.cross]
    · linear_combination (axis.normalize.x * (1 - Real.cos rad)) * hv'
    · linear_combination (axis.normalize.y * (1 - Real.cos rad)) * hv'
    · linear_combination (axis.normalize.z * (1 - Real.cos rad)) * hv'

/-- C30: rotation at a point fixes that point and rotates the difference vectors. -/
theorem C30_rotation_at_point (o axis p : XYZ ℝ) (rad : ℝ) :
    (Matrix4d.createRotationAtPoint o axis rad).ofPoint p = ok (o + (Matrix4d.createRotation axis rad).ofVector (p - o)) := by
  rw [C30_affine_defined ⟨rfl, rfl, rfl, rfl⟩]
  congr 1
  ext <;> simp only [Matrix4d.ofVector, Matrix4d.basisW, Matrix4d.createRotationAtPoint, Matrix4d.setBasisW, XYZ.add_x, XYZ.add_y, XYZ.add_z,
    XYZ.sub_x, XYZ.sub_y, XYZ.sub_z] <;> ring

/-- C30 fails for a zero axis: the "rotation" by 90° about the zero vector maps everything to the origin. -/
theorem C30_rotation_zero_axis_violated (v : XYZ ℝ) : (Matrix4d.createRotation 0 (Real.pi / 2)).ofVector v = 0 := by
  have h : (0 : XYZ ℝ).normalize = 0 := (C29_normalize 0).2
  ext <;> simp [Matrix4d.ofVector, Matrix4d.createRotation, h]

/-- C30: a reflection with non-zero normal is an involution, fixes exactly the points of the plane
`n̂·p = -d`, and moves points along the normal. -/
theorem C30_reflection {n : XYZ ℝ} (h : n ≠ 0) (d : ℝ) (p : XYZ ℝ) :
    ∃ q, (Matrix4d.createReflection n d).ofPoint p = ok q ∧ (Matrix4d.createReflection n d).ofPoint q = ok p ∧
      (q = p ↔ n.normalize.dot p = -d) ∧ ∃ k : ℝ, q - p = k • n.normalize := by
  have hu := unit_normalize h
  have e : ∀ p : XYZ ℝ, (Matrix4d.createReflection n d).ofPoint p = ok (p + (-2 * (n.normalize.dot p + d)) • n.normalize) := by
    intro p
    rw [C30_affine_defined ⟨rfl, rfl, rfl, rfl⟩]
    congr 1
    ext <;> simp only [Matrix4d.ofVector, Matrix4d.basisW, Matrix4d.createReflection, XYZ.add_x, XYZ.add_y, XYZ.add_z,
      XYZ.smul_x, XYZ.smul_y, XYZ.smul_z, XYZ.dot] <;> ring
  have hdot : n.normalize.dot (p + (-2 * (n.normalize.dot p + d)) • n.normalize) + d = -(n.normalize.dot p + d) := by
    simp only [XYZ.dot, XYZ.add_x, XYZ.add_y, XYZ.add_z, XYZ.smul_x, XYZ.smul_y, XYZ.smul_z]
    linear_combination (-2 * (n.normalize.x * p.x + n.normalize.y * p.y + n.normalize.z * p.z + d)) * hu
  refine ⟨_, e p, ?_, ?_, ⟨_, by abel⟩⟩
  · rw [e, hdot]
    congr 1
    ext <;> simp only [XYZ.add_x, XYZ.add_y, XYZ.add_z, XYZ.smul_x, XYZ.smul_y, XYZ.smul_z] <;> ring
  · constructor
    · intro hq
      rw [hq] at hdot
      linarith
    · intro hq
      rw [hq]; simp

/-! ## C64 -/

/-- C64: whatever the random angle, the generated vector is orthogonal to the argument, and it is a unit
vector unless the argument is a multiple of `(1,-1,1)`. -/
theorem C64_random_orthogonal_partial (v : XYZ ℝ) (angle : ℝ) : (createRandomOrthogonal v angle).dot v = 0 ∧
    (¬ (v.z = v.x ∧ v.y = -v.x) → (createRandomOrthogonal v angle).length = 1) := by
  set n := v.normalize with hn
  set tg := n.cross ⟨-n.z, n.x, n.y⟩ with htg
  set bt := n.cross tg with hbt
  set u := Real.sin angle • tg + Real.cos angle • bt with hu
  have hdef : createRandomOrthogonal v angle = u.normalize := rfl
  have hun : u.dot n = 0 := by
    have h1 := (C29_cross_orthogonal n (⟨-n.z, n.x, n.y⟩ : XYZ ℝ)).1
    have h2 := (C29_cross_orthogonal n tg).1
    rw [← htg] at h1; rw [← hbt] at h2
    rw [hu, (C29_dot _ _ n 0).2.1, (C29_dot tg n n (Real.sin angle)).2.2.1, (C29_dot bt n n (Real.cos angle)).2.2.1, h1, h2]; simp
  have hsmul : ∀ (k : ℝ) (a b : XYZ ℝ), (k • a).dot b = k * a.dot b := fun k a b => (C29_dot a b a k).2.2.1
  have hcomm : ∀ (a b : XYZ ℝ), a.dot b = b.dot a := fun a b => (C29_dot a b a 0).1
  constructor
  · rw [hdef]
    by_cases hv : v = 0
    · rw [hv]; simp [XYZ.dot]
    · have hv' : v = v.length • n := by
        rw [hn, normalize_eq hv, smul_smul, mul_inv_cancel₀ (length_pos hv).ne', one_smul]
      have huv : u.dot v = 0 := by
        rw [hv', hcomm, hsmul, hcomm, hun, mul_zero]
      by_cases hu0 : u = 0
      · rw [hu0, (C29_normalize 0).2]; simp [XYZ.dot]
      · rw [normalize_eq hu0, hsmul, huv, mul_zero]
  · intro hnp
    have hv : v ≠ 0 := by rintro rfl; exact hnp (by simp)
    have hunit := unit_normalize hv
    rw [← hn] at hunit
    have hlen : u.dot u = tg.dot tg := by
      have h1 := (C29_cross_orthogonal n (⟨-n.z, n.x, n.y⟩ : XYZ ℝ)).1
      rw [← htg] at h1
      have h2 := (C29_cross_orthogonal n tg).2
      rw [← hbt] at h2
      have h3 : bt.dot bt = tg.dot tg := by
        have := C29_lagrange n tg
        rw [← hbt] at this
        have e1 : n.sqrLength = 1 := hunit
        rw [hcomm n tg, h1, e1] at this
        unfold XYZ.sqrLength at this
        unfold XYZ.dot
        linarith
      have h4 : u.dot u = Real.sin angle ^ 2 * tg.dot tg + Real.cos angle ^ 2 * bt.dot bt + 2 * (Real.sin angle * Real.cos angle) * bt.dot tg := by
        rw [hu]
        simp only [XYZ.dot, XYZ.add_x, XYZ.add_y, XYZ.add_z, XYZ.smul_x, XYZ.smul_y, XYZ.smul_z]; ring
      rw [h4, h3, h2]
      have := Real.sin_sq_add_cos_sq angle
      linear_combination (tg.dot tg) * this
    have htne : tg.dot tg ≠ 0 := by
      intro h0
      have ht : tg = 0 := (C29_dot tg tg tg (0:ℝ)).2.2.2.2.mp h0
      have hx := congrArg XYZ.x ht
      have hy := congrArg XYZ.y ht
      have hz := congrArg XYZ.z ht
      simp only [htg, XYZ.cross, XYZ.zero_x, XYZ.zero_y, XYZ.zero_z] at hx hy hz
      -- y² = xz, z² = -xy, x² = -yz
      have hc1 : n.z ^ 3 = n.x ^ 3 := by linear_combination (-n.z) * hy - n.x * hz
      have hc2 : n.y ^ 3 = (-n.x) ^ 3 := by linear_combination n.y * hx + n.x * hz
      have o3 : Odd 3 := ⟨1, rfl⟩
      have z1 : n.z = n.x := (Odd.strictMono_pow o3).injective hc1
      have z2 : n.y = -n.x := (Odd.strictMono_pow o3).injective hc2
      have hv' : v = v.length • n := by
        rw [hn, normalize_eq hv, smul_smul, mul_inv_cancel₀ (length_pos hv).ne', one_smul]
      apply hnp
      rw [hv']
      simp only [XYZ.smul_x, XYZ.smul_y, XYZ.smul_z, z1, z2, true_and]
      ring
    have hu0 : u ≠ 0 := by
      rintro h0
      rw [h0] at hlen
      apply htne
      rw [← hlen]; simp [XYZ.dot]
    rw [hdef]
    exact ((C29_normalize u).1 hu0).1

/-- C64 is violated on multiples of `(1,-1,1)`: the zero vector is returned, for every angle. -/
theorem C64_random_orthogonal_violated (k angle : ℝ) : createRandomOrthogonal ⟨k, -k, k⟩ angle = 0 := by
  have key : ∀ x : ℝ, (⟨x, -x, x⟩ : XYZ ℝ).cross ⟨-x, x, -x⟩ = 0 := by
    intro x; ext <;> simp [XYZ.cross]
  have hn : ∃ x : ℝ, (⟨k, -k, k⟩ : XYZ ℝ).normalize = ⟨x, -x, x⟩ := by
    by_cases h : (⟨k, -k, k⟩ : XYZ ℝ) = 0
    · exact ⟨0, by rw [h, (C29_normalize 0).2]; ext <;> simp⟩
    · refine ⟨(⟨k, -k, k⟩ : XYZ ℝ).length⁻¹ * k, ?_⟩
      rw [normalize_eq h]; ext <;> simp
  obtain ⟨x, hx⟩ := hn
  unfold createRandomOrthogonal
  simp only [hx, key]
  have h0 : ∀ a : XYZ ℝ, a.cross 0 = 0 := by intro a; ext <;> simp [XYZ.cross]
  rw [h0, smul_zero, smul_zero, add_zero]
  exact (C29_normalize 0).2

example : (createRandomOrthogonal ⟨1, 2, 3⟩ 0).length = 1 := (C64_random_orthogonal_partial _ _).2 (by norm_num)

/-! ## C27 -/

theorem denom_eq (a b : XYZ ℝ) : a.dot a * b.dot b - a.dot b * a.dot b = (a.cross b).sqrLength := by
  simp only [XYZ.dot, XYZ.cross, XYZ.sqrLength]; ring

/-- C27: soundness of every answer of `ComputeRays`. -/
theorem C27_rays_sound_partial {p0 v0 p1 v1 : XYZ ℝ} {old : ℝ × ℝ × XYZ ℝ} {ty : CurveCurve} {s0 s1 : ℝ} {q : XYZ ℝ}
    (h : computeRays p0 v0 p1 v1 old = ok (ty, s0, s1, q)) :
    (ty = .intersecting →
      (p0.almostEq p1 = true ∧ v0.almostEq v1 = true ∧ s0 = 0 ∧ s1 = 0 ∧ q = p0) ∨
      ((p0 + s0 • v0).distance (p1 + s1 • v1) ≤ 2 / 1000000 ∧ q = (1 / 2 : ℝ) • ((p0 + s0 • v0) + (p1 + s1 • v1)))) ∧
    (ty = .skew → 0 < (p0 + s0 • v0).distance (p1 + s1 • v1) ∧
      (∀ t0 t1 : ℝ, (p0 + s0 • v0).distance (p1 + s1 • v1) ≤ (p0 + t0 • v0).distance (p1 + t1 • v1))) ∧
    (ty = .parallel → (v0.cross v1).sqrLength ≤ 1 / 1000000 * (1 + (v0.cross v1).sqrLength)) ∧
    (ty = .coincident → (v0.cross v1).sqrLength ≤ 1 / 1000000 * (1 + (v0.cross v1).sqrLength) ∧
      ((p1 - p0).cross v0).length ≤ 1 / 1000000 * (1 + ((p1 - p0).cross v0).length) ∧ s0 = 0 ∧ s1 = 0 ∧ q = p0) := by
  unfold computeRays at h
  by_cases hfirst : (v0.almostEq v1 && p0.almostEq p1) = true
  · rw [if_pos hfirst] at h
    rw [Bool.and_eq_true] at hfirst
    simp only [Res.ok.injEq, Prod.mk.injEq] at h
    obtain ⟨rfl, rfl, rfl, rfl⟩ := h
    exact ⟨fun _ => Or.inl ⟨hfirst.2, hfirst.1, rfl, rfl, rfl⟩, fun e => (nomatch e), fun e => (nomatch e), fun e => (nomatch e)⟩
  rw [if_neg hfirst] at h
  by_cases hz0 : v0.isZero = true
  · rw [hz0] at h; cases h
  rw [Bool.not_eq_true] at hz0
  by_cases hz1 : v1.isZero = true
  · rw [hz0, hz1] at h; cases h
  rw [Bool.not_eq_true] at hz1
  rw [hz0, hz1] at h
  simp only [Bool.not_false, validate_true, ok_bind] at h
  have hnn : 0 ≤ (v0.cross v1).sqrLength := by
    unfold XYZ.sqrLength
    have := mul_self_nonneg (v0.cross v1).x; have := mul_self_nonneg (v0.cross v1).y; have := mul_self_nonneg (v0.cross v1).z; linarith
  rw [denom_eq] at h
  by_cases hden : isAlmostEqualTo |(v0.cross v1).sqrLength| 0 = true
  · rw [if_pos hden] at h
    rw [isAlmostZero_iff, abs_abs, abs_of_nonneg hnn] at hden
    by_cases hco : isAlmostEqualTo (((p1 - p0).cross v0).length) 0 = true
    · rw [if_pos hco] at h
      rw [isAlmostZero_iff, abs_of_nonneg (length_nonneg _)] at hco
      simp only [Res.ok.injEq, Prod.mk.injEq] at h
      obtain ⟨rfl, rfl, rfl, rfl⟩ := h
      exact ⟨fun e => (nomatch e), fun e => (nomatch e), fun e => (nomatch e), fun _ => ⟨hden, hco, rfl, rfl, rfl⟩⟩
    · rw [if_neg hco] at h
      simp only [Res.ok.injEq, Prod.mk.injEq] at h
      obtain ⟨rfl, -⟩ := h
      exact ⟨fun e => (nomatch e), fun e => (nomatch e), fun _ => hden, fun e => (nomatch e)⟩
  · rw [if_neg hden] at h
    have hd : (v0.cross v1).sqrLength ≠ 0 := by
      intro e; rw [e, abs_zero] at hden; exact hden (isAlmostEqualTo_self doubleEps_pos)
    rw [fdiv_ok hd, ok_bind, fdiv_ok hd, ok_bind] at h
    set S0 := (v0.dot v1 * v1.dot (p0 - p1) - v1.dot v1 * v0.dot (p0 - p1)) / (v0.cross v1).sqrLength with hS0
    set S1 := (v0.dot v0 * v1.dot (p0 - p1) - v0.dot v1 * v0.dot (p0 - p1)) / (v0.cross v1).sqrLength with hS1
    by_cases hdi : isAlmostEqualTo ((p0 + S0 • v0).distance (p1 + S1 • v1)) 0 = true
    · rw [if_pos hdi] at h
      rw [isAlmostZero_iff, abs_of_nonneg (distance_nonneg _ _)] at hdi
      simp only [Res.ok.injEq, Prod.mk.injEq] at h
      obtain ⟨rfl, rfl, rfl, rfl⟩ := h
      refine ⟨fun _ => Or.inr ⟨by linarith, rfl⟩, fun e => (nomatch e), fun e => (nomatch e), fun e => (nomatch e)⟩
    · rw [if_neg hdi] at h
      rw [isAlmostZero_iff, abs_of_nonneg (distance_nonneg _ _), not_le] at hdi
      simp only [Res.ok.injEq, Prod.mk.injEq] at h
      obtain ⟨rfl, rfl, rfl, rfl⟩ := h
      refine ⟨fun e => (nomatch e), fun _ => ⟨?_, ?_⟩, fun e => (nomatch e), fun e => (nomatch e)⟩
      · have : 0 ≤ (p0 + S0 • v0).distance (p1 + S1 • v1) := Real.sqrt_nonneg _
        linarith
      · intro t0 t1
        -- the difference of the feet is orthogonal to both directions
        have k0 : S0 * (v0.cross v1).sqrLength = v0.dot v1 * v1.dot (p0 - p1) - v1.dot v1 * v0.dot (p0 - p1) := by
          rw [hS0]; exact div_mul_cancel₀ _ hd
        have k1 : S1 * (v0.cross v1).sqrLength = v0.dot v0 * v1.dot (p0 - p1) - v0.dot v1 * v0.dot (p0 - p1) := by
          rw [hS1]; exact div_mul_cancel₀ _ hd
        have o0 : v0.dot (p0 - p1) + S0 * v0.dot v0 - S1 * v0.dot v1 = 0 := by
          apply mul_right_cancel₀ hd
          rw [zero_mul]
          have := denom_eq v0 v1
          linear_combination v0.dot v0 * k0 - v0.dot v1 * k1 - v0.dot (p0 - p1) * this
        have o1 : v1.dot (p0 - p1) + S0 * v0.dot v1 - S1 * v1.dot v1 = 0 := by
          apply mul_right_cancel₀ hd
          rw [zero_mul]
          have := denom_eq v0 v1
          linear_combination v0.dot v1 * k0 - v1.dot v1 * k1 - v1.dot (p0 - p1) * this
        unfold XYZ.distance
        apply Real.sqrt_le_sqrt
        have key : ((p1 + t1 • v1).x - (p0 + t0 • v0).x) ^ 2 + ((p1 + t1 • v1).y - (p0 + t0 • v0).y) ^ 2 + ((p1 + t1 • v1).z - (p0 + t0 • v0).z) ^ 2 -
            (((p1 + S1 • v1).x - (p0 + S0 • v0).x) ^ 2 + ((p1 + S1 • v1).y - (p0 + S0 • v0).y) ^ 2 + ((p1 + S1 • v1).z - (p0 + S0 • v0).z) ^ 2) =
            ((t1 - S1) * v1.x - (t0 - S0) * v0.x) ^ 2 + ((t1 - S1) * v1.y - (t0 - S0) * v0.y) ^ 2 + ((t1 - S1) * v1.z - (t0 - S0) * v0.z) ^ 2 := by
          simp only [XYZ.add_x, XYZ.add_y, XYZ.add_z, XYZ.smul_x, XYZ.smul_y, XYZ.smul_z]
          simp only [XYZ.dot, XYZ.sub_x, XYZ.sub_y, XYZ.sub_z] at o0 o1
          linear_combination (2 * (t0 - S0)) * o0 - (2 * (t1 - S1)) * o1
        have g1 := sq_nonneg ((t1 - S1) * v1.x - (t0 - S0) * v0.x)
        have g2 := sq_nonneg ((t1 - S1) * v1.y - (t0 - S0) * v0.y)
        have g3 := sq_nonneg ((t1 - S1) * v1.z - (t0 - S0) * v0.z)
        linarith

/-- C27: completeness: if the two lines really meet, at parameters `t0` and `t1`, and their directions
are not parallel beyond the tolerance on `|v0 × v1|²`, the answer is `Intersecting` with exactly those
parameters and that point. -/
theorem C27_rays_complete {p0 v0 p1 v1 : XYZ ℝ} {old : ℝ × ℝ × XYZ ℝ} {t0 t1 : ℝ} (hmeet : p0 + t0 • v0 = p1 + t1 • v1)
    (hnp : 1 / 1000000 * (1 + (v0.cross v1).sqrLength) < (v0.cross v1).sqrLength) (hv : v0.almostEq v1 = false) (h0 : v0.isZero = false) (h1 : v1.isZero = false) :
    computeRays p0 v0 p1 v1 old = ok (.intersecting, t0, t1, p0 + t0 • v0) := by
  unfold computeRays
  rw [hv, Bool.false_and, if_neg (by simp), h0, h1]
  simp only [Bool.not_false, validate_true, ok_bind]
  have hnn : 0 ≤ (v0.cross v1).sqrLength := by
    unfold XYZ.sqrLength
    have := mul_self_nonneg (v0.cross v1).x; have := mul_self_nonneg (v0.cross v1).y; have := mul_self_nonneg (v0.cross v1).z; linarith
  rw [denom_eq, if_neg (by rw [isAlmostZero_iff, abs_abs, abs_of_nonneg hnn]; exact not_le.mpr hnp)]
  have hd : (v0.cross v1).sqrLength ≠ 0 := by
    intro e; rw [e] at hnp; norm_num at hnp
  have hdiff : p0 - p1 = t1 • v1 - t0 • v0 := by
    rw [sub_eq_sub_iff_add_eq_add]; rw [hmeet]; abel
  have e0 : v0.dot (p0 - p1) = t1 * v0.dot v1 - t0 * v0.dot v0 := by
    rw [hdiff]; simp only [XYZ.dot, XYZ.sub_x, XYZ.sub_y, XYZ.sub_z, XYZ.smul_x, XYZ.smul_y, XYZ.smul_z]; ring
  have e1 : v1.dot (p0 - p1) = t1 * v1.dot v1 - t0 * v0.dot v1 := by
    rw [hdiff]; simp only [XYZ.dot, XYZ.sub_x, XYZ.sub_y, XYZ.sub_z, XYZ.smul_x, XYZ.smul_y, XYZ.smul_z]; ring
  have r0 : (v0.dot v1 * v1.dot (p0 - p1) - v1.dot v1 * v0.dot (p0 - p1)) / (v0.cross v1).sqrLength = t0 := by
    rw [div_eq_iff hd, ← denom_eq, e0, e1]; ring
  have r1 : (v0.dot v0 * v1.dot (p0 - p1) - v0.dot v1 * v0.dot (p0 - p1)) / (v0.cross v1).sqrLength = t1 := by
    rw [div_eq_iff hd, ← denom_eq, e0, e1]; ring
  rw [fdiv_ok hd, ok_bind, fdiv_ok hd, ok_bind, r0, r1]
  have hdist : (p0 + t0 • v0).distance (p1 + t1 • v1) = 0 := (C29_distance _ _ 0).2.1.mpr hmeet
  rw [hdist, if_pos (isAlmostEqualTo_self doubleEps_pos), ← hmeet]
  congr 4
  ext <;> simp only [XYZ.smul_x, XYZ.smul_y, XYZ.smul_z, XYZ.add_x, XYZ.add_y, XYZ.add_z] <;> ring

/-- C27: zero direction vectors are rejected (unless the two rays are the same). -/
theorem C27_zero_rejected {p0 v0 p1 v1 : XYZ ℝ} {old : ℝ × ℝ × XYZ ℝ} (h : v0.isZero = true ∨ v1.isZero = true)
    (hd : (v0.almostEq v1 && p0.almostEq p1) = false) : computeRays p0 v0 p1 v1 old = invalidArg := by
  unfold computeRays
  rw [hd]
  cases h0 : v0.isZero
  · rcases h with h | h
    · rw [h0] at h; cases h
    · rw [h]; rfl
  · rfl

/-- C27 is violated for short direction vectors: two perpendicular rays in a plane that meet are reported
as `Parallel`. -/
theorem C27_perpendicular_reported_parallel_violated (old : ℝ × ℝ × XYZ ℝ) :
    ∃ (p0 v0 p1 v1 : XYZ ℝ), v0.dot v1 = 0 ∧ v0.isZero = false ∧ v1.isZero = false ∧ (∃ t0 t1 : ℝ, p0 + t0 • v0 = p1 + t1 • v1) ∧
      computeRays p0 v0 p1 v1 old = ok (.parallel, old) := by
  refine ⟨⟨0, 0, 0⟩, ⟨1/100, 0, 0⟩, ⟨1, 1, 0⟩, ⟨0, 1/100, 0⟩, by norm_num [XYZ.dot], ?_, ?_, ⟨100, -100, ?_⟩, ?_⟩
  · simp only [XYZ.isZero, XYZ.sqrLength, doubleEps]; norm_num
  · simp only [XYZ.isZero, XYZ.sqrLength, doubleEps]; norm_num
  · ext <;> norm_num
  · unfold computeRays
    have h1 : (⟨1/100, 0, 0⟩ : XYZ ℝ).almostEq ⟨0, 1/100, 0⟩ = false := by
      simp only [XYZ.almostEq]
      have : isAlmostEqualTo (1/100 : ℝ) 0 = false := by
        rw [← Bool.not_eq_true, isAlmostZero_iff]; norm_num [abs_of_pos]
      rw [this]; rfl
    have h2 : (⟨1/100, 0, 0⟩ : XYZ ℝ).isZero = false := by simp only [XYZ.isZero, XYZ.sqrLength, doubleEps]; norm_num
    have h3 : (⟨0, 1/100, 0⟩ : XYZ ℝ).isZero = false := by simp only [XYZ.isZero, XYZ.sqrLength, doubleEps]; norm_num
    rw [h1, h2, h3, Bool.false_and, if_neg (by simp)]
    simp only [Bool.not_false, validate_true, ok_bind]
    rw [if_pos, if_neg]
    · rw [isAlmostZero_iff]
      have : (((⟨1, 1, 0⟩ : XYZ ℝ) - ⟨0, 0, 0⟩).cross ⟨1/100, 0, 0⟩).length = 1/100 := by
        unfold XYZ.length
        rw [show (1/100 : ℝ) = √((1/100) ^ 2) from (Real.sqrt_sq (by norm_num)).symm]
        congr 1
        simp [XYZ.cross]
        norm_num
      rw [this]; norm_num [abs_of_pos]
    · rw [isAlmostZero_iff]
      norm_num [XYZ.dot, abs_of_pos]

/-- C27: two identical rays are reported as `Intersecting`, not `Coincident`. -/
theorem C27_identical_rays_intersecting (p v : XYZ ℝ) (old : ℝ × ℝ × XYZ ℝ) : computeRays p v p v old = ok (.intersecting, 0, 0, p) := by
  unfold computeRays
  have h : ∀ a : XYZ ℝ, a.almostEq a = true := fun a => by
    simp [XYZ.almostEq, isAlmostEqualTo_self doubleEps_pos]
  rw [h, h]; rfl

/-- the hypotheses of the completeness theorem hold for two rays meeting at `(1,1,0)` -/
example (old : ℝ × ℝ × XYZ ℝ) : computeRays ⟨0, 0, 0⟩ ⟨1, 1, 0⟩ ⟨1, 0, 0⟩ ⟨0, 1, 0⟩ old = ok (.intersecting, 1, 1, ⟨0, 0, 0⟩ + (1 : ℝ) • ⟨1, 1, 0⟩) := by
  refine C27_rays_complete ?_ ?_ ?_ ?_ ?_
  · ext <;> norm_num
  · norm_num [XYZ.cross, XYZ.sqrLength]
  · have : isAlmostEqualTo (1 : ℝ) 0 = false := by
      rw [← Bool.not_eq_true, isAlmostZero_iff]; norm_num
    simp only [XYZ.almostEq, this]; rfl
  · simp only [XYZ.isZero, XYZ.sqrLength, doubleEps]; norm_num
  · simp only [XYZ.isZero, XYZ.sqrLength, doubleEps]; norm_num

end

end LNLib.Props
