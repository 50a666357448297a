import Verif.Model.VectorTests
import Verif.Props.Closed

/-!
# C162: tests for zero and unit vectors, distances of parameters, angles
-/

namespace LNLib.Props
open LNLib Res LNLib.Spec

theorem xyz_length_sq (a : XYZ ℝ) : a.length ^ 2 = a.sqrLength := by
  unfold XYZ.length XYZ.sqrLength
  exact Real.sq_sqrt (add_nonneg (add_nonneg (mul_self_nonneg _) (mul_self_nonneg _)) (mul_self_nonneg _))

theorem uv_length_sq (a : UV ℝ) : a.length ^ 2 = a.sqrLength := by
  unfold UV.length UV.sqrLength
  exact Real.sq_sqrt (add_nonneg (mul_self_nonneg _) (mul_self_nonneg _))

theorem sq_test {x ε : ℝ} (hx : 0 ≤ x) (hε : 0 ≤ ε) : x ^ 2 ≤ ε * ε ↔ x ≤ ε := by
  rw [← sq]
  exact pow_le_pow_iff_left₀ hx hε (by norm_num)

/-- C162: `IsZero` is true exactly for the vectors that are not longer than the tolerance. -/
theorem C162_zero {ε : ℝ} (hε : 0 ≤ ε) (a : XYZ ℝ) (b : UV ℝ) : (a.isZero ε = true ↔ a.length ≤ ε) ∧ (b.isZero ε = true ↔ b.length ≤ ε) := by
  constructor
  · unfold XYZ.isZero
    rw [decide_eq_true_iff, ← xyz_length_sq, sq_test (x := a.length) (Real.sqrt_nonneg _) hε]
  · unfold UV.isZero
    rw [decide_eq_true_iff, ← uv_length_sq, sq_test (x := b.length) (Real.sqrt_nonneg _) hε]

/-- The hypothesis is met: with tolerance 5 the vector (3, 4, 0) is as long as the tolerance and counts as zero. -/
example : (⟨3, 4, 0⟩ : XYZ ℝ).isZero 5 = true ∧ (⟨3, 5⟩ : UV ℝ).isZero 5 = false := by
  constructor <;> norm_num [XYZ.isZero, XYZ.sqrLength, UV.isZero, UV.sqrLength]

/-- the two cases of the next theorem -/
theorem unit_test {x ε : ℝ} (hx : 0 ≤ x) : (|x ^ 2 - 1| < ε * ε → |x - 1| < ε ^ 2) ∧ (ε ^ 2 ≤ |x - 1| → ¬ |x ^ 2 - 1| < ε * ε) := by
  have h : |x ^ 2 - 1| = |x - 1| * (x + 1) := by
    rw [show x ^ 2 - 1 = (x - 1) * (x + 1) by ring, abs_mul, abs_of_nonneg (by linarith : 0 ≤ x + 1)]
  have h1 : |x - 1| ≤ |x ^ 2 - 1| := by
    rw [h]
    nlinarith [abs_nonneg (x - 1)]
  constructor
  · intro h2; rw [sq]; linarith
  · intro h2 h3; rw [sq] at h2; linarith

/-- C162: a vector accepted by `IsUnit` has a length that differs from 1 by less than the square of the tolerance. -/
theorem C162_unit (a : XYZ ℝ) (b : UV ℝ) (ε : ℝ) : (a.isUnit ε = true → |a.length - 1| < ε ^ 2) ∧ (b.isUnit ε = true → |b.length - 1| < ε ^ 2) := by
  constructor
  · unfold XYZ.isUnit
    rw [decide_eq_true_iff, ← xyz_length_sq]
    exact (unit_test (Real.sqrt_nonneg _)).1
  · unfold UV.isUnit
    rw [decide_eq_true_iff, ← uv_length_sq]
    exact (unit_test (Real.sqrt_nonneg _)).1

/-- A vector other than an axis that is accepted. -/
example : (⟨3 / 5, 0, 4 / 5⟩ : XYZ ℝ).isUnit (1 / 10) = true := by
  norm_num [XYZ.isUnit, XYZ.sqrLength]

/-- C162 (violated): for every tolerance below 1, `IsUnit` rejects vectors whose length differs from 1 by less than the tolerance: all those for which the difference is at least the square of
the tolerance. There are such vectors. -/
theorem C162_unit_violated {ε : ℝ} (h0 : 0 < ε) (h1 : ε < 1) : (∀ a : XYZ ℝ, ε ^ 2 ≤ |a.length - 1| → a.isUnit ε = false) ∧ (∀ b : UV ℝ, ε ^ 2 ≤ |b.length - 1| → b.isUnit ε = false) ∧
    ∃ a : XYZ ℝ, |a.length - 1| < ε ∧ a.isUnit ε = false := by
  have key : ∀ a : XYZ ℝ, ε ^ 2 ≤ |a.length - 1| → a.isUnit ε = false := by
    intro a h
    unfold XYZ.isUnit
    rw [decide_eq_false_iff_not, ← xyz_length_sq]
    exact (unit_test (Real.sqrt_nonneg _)).2 h
  refine ⟨key, ?_, ?_⟩
  · intro b h
    unfold UV.isUnit
    rw [decide_eq_false_iff_not, ← uv_length_sq]
    exact (unit_test (Real.sqrt_nonneg _)).2 h
  · have hl : (⟨1 + ε ^ 2, 0, 0⟩ : XYZ ℝ).length = 1 + ε ^ 2 := by
      unfold XYZ.length
      rw [show (1 + ε ^ 2) * (1 + ε ^ 2) + 0 * 0 + 0 * 0 = (1 + ε ^ 2) ^ 2 by ring]
      exact Real.sqrt_sq (by positivity)
    have ha : |(⟨1 + ε ^ 2, 0, 0⟩ : XYZ ℝ).length - 1| = ε ^ 2 := by
      rw [hl, add_sub_cancel_left, abs_of_nonneg (by positivity)]
    exact ⟨_, by rw [ha]; nlinarith, key _ ha.ge⟩

/-- C162: every vector other than zero is a unit vector after `Normalize`, for every tolerance; the zero vector stays. -/
theorem C162_normalize {ε : ℝ} (hε : ε ≠ 0) (a : XYZ ℝ) (b : UV ℝ) : (a ≠ ⟨0, 0, 0⟩ → a.normalize.isUnit ε = true) ∧ (b ≠ ⟨0, 0⟩ → b.normalize.isUnit ε = true) ∧
    (⟨0, 0, 0⟩ : XYZ ℝ).normalize = ⟨0, 0, 0⟩ ∧ (⟨0, 0⟩ : UV ℝ).normalize = ⟨0, 0⟩ := by
  have hpos : 0 < ε * ε := mul_self_pos.mpr hε
  refine ⟨fun h => ?_, fun h => ?_, ?_, ?_⟩
  · have hs : 0 < a.x * a.x + a.y * a.y + a.z * a.z := by
      rcases lt_or_eq_of_le (add_nonneg (add_nonneg (mul_self_nonneg a.x) (mul_self_nonneg a.y)) (mul_self_nonneg a.z)) with h' | h'
      · exact h'
      · exfalso
        apply h
        ext
        · show a.x = 0; nlinarith [mul_self_nonneg a.x, mul_self_nonneg a.y, mul_self_nonneg a.z]
        · show a.y = 0; nlinarith [mul_self_nonneg a.x, mul_self_nonneg a.y, mul_self_nonneg a.z]
        · show a.z = 0; nlinarith [mul_self_nonneg a.x, mul_self_nonneg a.y, mul_self_nonneg a.z]
    have hl : 0 < a.length := Real.sqrt_pos.mpr hs
    have h2 := xyz_length_sq a
    unfold XYZ.normalize XYZ.isUnit
    rw [if_pos hl, decide_eq_true_iff]
    have : (⟨a.x * (1 / a.length), a.y * (1 / a.length), a.z * (1 / a.length)⟩ : XYZ ℝ).sqrLength = 1 := by
      unfold XYZ.sqrLength at h2 ⊢
      dsimp only
      field_simp
      linarith
    rw [this]
    simpa using hpos
  · have hs : 0 < b.u * b.u + b.v * b.v := by
      rcases lt_or_eq_of_le (add_nonneg (mul_self_nonneg b.u) (mul_self_nonneg b.v)) with h' | h'
      · exact h'
      · exfalso
        apply h
        have e1 : b.u = 0 := by nlinarith [mul_self_nonneg b.u, mul_self_nonneg b.v]
        have e2 : b.v = 0 := by nlinarith [mul_self_nonneg b.u, mul_self_nonneg b.v]
        obtain ⟨u, v⟩ := b
        exact congrArg₂ UV.mk e1 e2
    have hl : 0 < b.length := Real.sqrt_pos.mpr hs
    have h2 := uv_length_sq b
    unfold UV.normalize UV.isUnit
    rw [if_pos hl, decide_eq_true_iff]
    have : (⟨b.u * (1 / b.length), b.v * (1 / b.length)⟩ : UV ℝ).sqrLength = 1 := by
      unfold UV.sqrLength at h2 ⊢
      dsimp only
      field_simp
      linarith
    rw [this]
    simpa using hpos
  · simp [XYZ.normalize, XYZ.length]
  · simp [UV.normalize, UV.length]

/-- The hypotheses are met by the vectors (3, 4, 12) and (3, 4) and a tolerance. -/
example : ((1 : ℝ) / 1000000 ≠ 0) ∧ (⟨3, 4, 12⟩ : XYZ ℝ) ≠ ⟨0, 0, 0⟩ ∧ (⟨3, 4⟩ : UV ℝ) ≠ ⟨0, 0⟩ := by
  refine ⟨by norm_num, fun h => ?_, fun h => ?_⟩
  · have := congrArg XYZ.x h; norm_num at this
  · have := congrArg UV.u h; norm_num at this

/-- C162: the distance of two pairs of parameters is a metric. -/
theorem C162_distance (a b c : UV ℝ) : 0 ≤ a.distance b ∧ (a.distance b = 0 ↔ a = b) ∧ a.distance b = b.distance a ∧ a.distance c ≤ a.distance b + b.distance c := by
  have e : ∀ x y : UV ℝ, x.distance y = ‖(⟨y.u - x.u, y.v - x.v⟩ : ℂ)‖ := by
    intro x y
    unfold UV.distance
    rw [Complex.norm_def, Complex.normSq_mk]
    congr 1
    ring
  refine ⟨Real.sqrt_nonneg _, ?_, ?_, ?_⟩
  · rw [e, norm_eq_zero, Complex.ext_iff]
    cases a
    cases b
    simp only [Complex.zero_re, Complex.zero_im, sub_eq_zero, UV.mk.injEq]
    constructor <;> rintro ⟨rfl, rfl⟩ <;> exact ⟨rfl, rfl⟩
  · unfold UV.distance
    congr 1
    ring
  · rw [e, e, e]
    have : (⟨c.u - a.u, c.v - a.v⟩ : ℂ) = ⟨b.u - a.u, b.v - a.v⟩ + ⟨c.u - b.u, c.v - b.v⟩ := by
      apply Complex.ext <;> simp
    rw [this]
    exact norm_add_le _ _

/-- C162: `IsAlmostEqualTo` for parameters is reflexive and symmetric. It is not transitive. -/
theorem C162_almost (a b : UV ℝ) : a.almostEq a = true ∧ a.almostEq b = b.almostEq a ∧
    ∃ x y z : UV ℝ, x.almostEq y = true ∧ y.almostEq z = true ∧ x.almostEq z = false := by
  have sym : ∀ x y : ℝ, isAlmostEqualTo x y = isAlmostEqualTo y x := by
    intro x y
    rw [Bool.eq_iff_iff, almost_iff, almost_iff, abs_sub_comm, max_comm]
  have refl : ∀ x : ℝ, isAlmostEqualTo x x = true := by
    intro x
    rw [almost_iff, sub_self, abs_zero]
    positivity
  refine ⟨by simp [UV.almostEq, refl], by unfold UV.almostEq; rw [sym a.u, sym a.v], ⟨0, 0⟩, ⟨1 / 1000000, 0⟩, ⟨2 / 1000000, 0⟩, ?_, ?_, ?_⟩
  · unfold UV.almostEq
    rw [refl, Bool.and_true, almost_iff]
    norm_num [abs_of_pos]
  · unfold UV.almostEq
    rw [refl, Bool.and_true, almost_iff]
    norm_num [abs_of_pos]
  · unfold UV.almostEq
    rw [refl, Bool.and_true, Bool.eq_false_iff, Ne, almost_iff]
    norm_num [abs_of_pos]

/-- C162: the conversions of angles undo each other and take half a turn to 180. -/
theorem C162_angles (x : ℝ) : radiansToAngle (angleToRadians x) = x ∧ angleToRadians (radiansToAngle x) = x ∧ angleToRadians 180 = Real.pi ∧ radiansToAngle (Real.pi / 2) = 90 := by
  have := Real.pi_ne_zero
  unfold radiansToAngle angleToRadians
  refine ⟨?_, ?_, ?_, ?_⟩ <;> field_simp
  norm_num

end LNLib.Props
