import Verif.Model.Arc
import Verif.Props.Geom
import Mathlib.Analysis.SpecialFunctions.Trigonometric.Arctan
import Mathlib.Analysis.SpecialFunctions.Trigonometric.Bounds
import Mathlib.Analysis.Real.Pi.Bounds
import Mathlib.Topology.Order.IntermediateValue

/-!
# A rational quadratic Bézier segment is a circular arc, and the rays of a circular arc
-/

namespace LNLib
open Res

/-- the weight function of a circular arc segment of angle `δ` -/
noncomputable def arcW (δ s : ℝ) : ℝ := (1 - s) ^ 2 + 2 * s * (1 - s) * Real.cos (δ / 2) + s ^ 2

theorem arcW_ge {δ : ℝ} (hc : 0 ≤ Real.cos (δ / 2)) {s : ℝ} (h0 : 0 ≤ s) (h1 : s ≤ 1) : 1 / 2 ≤ arcW δ s := by
  unfold arcW
  have : 0 ≤ 2 * s * (1 - s) * Real.cos (δ / 2) := mul_nonneg (mul_nonneg (by linarith) (by linarith)) hc
  nlinarith [sq_nonneg (1 - 2 * s)]

/-- the angle swept by a circular arc segment of angle `δ` up to the parameter `s` -/
noncomputable def arcPhi (δ s : ℝ) : ℝ :=
  δ / 2 + Real.arctan ((2 * s - 1) * Real.sin (δ / 2) / (((1 - s) ^ 2 + s ^ 2) * Real.cos (δ / 2) + 2 * s * (1 - s)))

section
variable {δ : ℝ} (h0 : 0 < δ) (h1 : δ < Real.pi)
include h0 h1

theorem cos_half_pos : 0 < Real.cos (δ / 2) := Real.cos_pos_of_mem_Ioo ⟨by linarith, by linarith⟩

theorem sin_half_pos : 0 < Real.sin (δ / 2) := Real.sin_pos_of_pos_of_lt_pi (by linarith) (by linarith)

theorem arcDen_pos {s : ℝ} (hs0 : 0 ≤ s) (hs1 : s ≤ 1) : 0 < ((1 - s) ^ 2 + s ^ 2) * Real.cos (δ / 2) + 2 * s * (1 - s) := by
  have hc := cos_half_pos h0 h1
  have h2 : 0 < (1 - s) ^ 2 + s ^ 2 := by nlinarith [sq_nonneg (1 - 2 * s)]
  have h3 : 0 ≤ 2 * s * (1 - s) := mul_nonneg (by linarith) (by linarith)
  have := mul_pos h2 hc
  linarith

theorem arcPhi_zero : arcPhi δ 0 = 0 := by
  unfold arcPhi
  have hc := cos_half_pos h0 h1
  have : (2 * (0 : ℝ) - 1) * Real.sin (δ / 2) / (((1 - 0) ^ 2 + 0 ^ 2) * Real.cos (δ / 2) + 2 * 0 * (1 - 0)) = -Real.tan (δ / 2) := by
    rw [Real.tan_eq_sin_div_cos]; field_simp; ring
  rw [this, Real.arctan_neg, Real.arctan_tan (by linarith) (by linarith)]; ring

theorem arcPhi_one : arcPhi δ 1 = δ := by
  unfold arcPhi
  have : (2 * (1 : ℝ) - 1) * Real.sin (δ / 2) / (((1 - 1) ^ 2 + 1 ^ 2) * Real.cos (δ / 2) + 2 * 1 * (1 - 1)) = Real.tan (δ / 2) := by
    rw [Real.tan_eq_sin_div_cos]; congr 1 <;> ring
  rw [this, Real.arctan_tan (by linarith) (by linarith)]; ring

theorem arcPhi_continuousOn : ContinuousOn (arcPhi δ) (Set.Icc 0 1) := by
  unfold arcPhi
  apply ContinuousOn.add continuousOn_const
  apply Real.continuous_arctan.comp_continuousOn
  apply ContinuousOn.div
  · fun_prop
  · fun_prop
  · intro s hs
    exact (arcDen_pos h0 h1 hs.1 hs.2).ne'

theorem arcPhi_mem {s : ℝ} (hs0 : 0 ≤ s) (hs1 : s ≤ 1) : 0 ≤ arcPhi δ s ∧ arcPhi δ s ≤ δ := by
  have hc := cos_half_pos h0 h1
  have hsn := sin_half_pos h0 h1
  have hd := arcDen_pos h0 h1 hs0 hs1
  have hA : |2 * s - 1| ≤ (1 - s) ^ 2 + s ^ 2 := by
    rw [abs_le]; constructor <;> nlinarith [sq_nonneg s, sq_nonneg (1 - s)]
  have hB : 0 ≤ 2 * s * (1 - s) := mul_nonneg (by linarith) (by linarith)
  have hx : |(2 * s - 1) * Real.sin (δ / 2) / (((1 - s) ^ 2 + s ^ 2) * Real.cos (δ / 2) + 2 * s * (1 - s))| ≤ Real.tan (δ / 2) := by
    rw [abs_div, abs_mul, abs_of_pos hsn, abs_of_pos hd, Real.tan_eq_sin_div_cos, div_le_div_iff₀ hd hc]
    have e1 : |2 * s - 1| * Real.cos (δ / 2) ≤ ((1 - s) ^ 2 + s ^ 2) * Real.cos (δ / 2) + 2 * s * (1 - s) := by
      have := mul_le_mul_of_nonneg_right hA hc.le
      linarith
    have := mul_le_mul_of_nonneg_right e1 hsn.le
    linarith
  rw [abs_le] at hx
  have ht : Real.arctan (Real.tan (δ / 2)) = δ / 2 := Real.arctan_tan (by linarith) (by linarith)
  have m1 := Real.arctan_mono hx.2
  have m2 := Real.arctan_mono hx.1
  rw [Real.arctan_neg, ht] at m2
  rw [ht] at m1
  unfold arcPhi
  constructor <;> linarith

/-- the quadratic Bézier segment with the middle weight `cos (δ/2)` runs on the circle: the point is the
weight times the point of the unit circle at the angle `α + arcPhi δ s` -/
theorem arc_conic {s : ℝ} (hs0 : 0 ≤ s) (hs1 : s ≤ 1) (α : ℝ) :
    (1 - s) ^ 2 * Real.cos α + 2 * s * (1 - s) * Real.cos (α + δ / 2) + s ^ 2 * Real.cos (α + δ) = arcW δ s * Real.cos (α + arcPhi δ s) ∧
    (1 - s) ^ 2 * Real.sin α + 2 * s * (1 - s) * Real.sin (α + δ / 2) + s ^ 2 * Real.sin (α + δ) = arcW δ s * Real.sin (α + arcPhi δ s) := by
  have hc := cos_half_pos h0 h1
  have hd := arcDen_pos h0 h1 hs0 hs1
  have hW := arcW_ge hc.le hs0 hs1
  set c := Real.cos (δ / 2) with hcd
  set k := Real.sin (δ / 2) with hkd
  have hck : k ^ 2 + c ^ 2 = 1 := Real.sin_sq_add_cos_sq _
  set D := ((1 - s) ^ 2 + s ^ 2) * c + 2 * s * (1 - s) with hD
  have hWs : arcW δ s ^ 2 = D ^ 2 + ((2 * s - 1) * k) ^ 2 := by
    have hk2 : k ^ 2 = 1 - c ^ 2 := by linarith
    rw [mul_pow, hk2, hD]; unfold arcW; rw [← hcd]; ring
  have hsq : Real.sqrt (1 + ((2 * s - 1) * k / D) ^ 2) = arcW δ s / D := by
    rw [show 1 + ((2 * s - 1) * k / D) ^ 2 = (arcW δ s / D) ^ 2 by
      rw [div_pow, div_pow, hWs]; field_simp]
    exact Real.sqrt_sq (div_nonneg (by linarith) hd.le)
  have hWne : arcW δ s ≠ 0 := by linarith
  have hcos : arcW δ s * Real.cos (Real.arctan ((2 * s - 1) * k / D)) = D := by
    rw [Real.cos_arctan, hsq]; field_simp
  have hsin : arcW δ s * Real.sin (Real.arctan ((2 * s - 1) * k / D)) = (2 * s - 1) * k := by
    rw [Real.sin_arctan, hsq]; field_simp
  obtain ⟨x, hx⟩ : ∃ x, Real.arctan ((2 * s - 1) * k / D) = x := ⟨_, rfl⟩
  rw [hx] at hcos hsin
  obtain ⟨β, hβ⟩ : ∃ β, α + δ / 2 = β := ⟨_, rfl⟩
  have hφ : α + arcPhi δ s = β + x := by unfold arcPhi; rw [← hcd, ← hkd, ← hD, hx, ← hβ]; ring
  have hα2 : α + δ = β + δ / 2 := by rw [← hβ]; ring
  have hα : α = β - δ / 2 := by rw [← hβ]; ring
  rw [hφ, hα2, hβ, hα, Real.cos_add, Real.cos_add, Real.cos_sub, Real.sin_add, Real.sin_add, Real.sin_sub, ← hcd, ← hkd]
  constructor
  · linear_combination -Real.cos β * hcos + Real.sin β * hsin - Real.cos β * hD
  · linear_combination -Real.sin β * hcos - Real.cos β * hsin - Real.sin β * hD

/-- every angle of the segment is reached -/
theorem arcPhi_surj {φ : ℝ} (hφ0 : 0 ≤ φ) (hφ1 : φ ≤ δ) : ∃ s, 0 ≤ s ∧ s ≤ 1 ∧ arcPhi δ s = φ := by
  have := intermediate_value_Icc (zero_le_one (α := ℝ)) (arcPhi_continuousOn h0 h1)
  rw [arcPhi_zero h0 h1, arcPhi_one h0 h1] at this
  obtain ⟨s, hs, e⟩ := this ⟨hφ0, hφ1⟩
  exact ⟨s, hs.1, hs.2, e⟩

end

/-- a mixed point of a quadratic Bézier segment -/
noncomputable def bez2 {T : Type} [AddCommGroup T] [Module ℝ T] (a b c : T) (s : ℝ) : T :=
  ((1 - s) ^ 2) • a + (2 * s * (1 - s)) • b + (s ^ 2) • c

/-! ### The tangent rays -/

theorem sqrLength_arcTangent {X Y : XYZ ℝ} {ρ α : ℝ} (hXY : X.dot Y = 0) (hX : X.dot X = ρ) (hY : Y.dot Y = ρ) :
    (arcTangent X Y α).sqrLength = ρ := by
  have hsc := Real.sin_sq_add_cos_sq α
  simp only [XYZ.dot] at hXY hX hY
  have : (arcTangent X Y α).sqrLength = Real.sin α ^ 2 * (X.x * X.x + X.y * X.y + X.z * X.z)
      - 2 * Real.sin α * Real.cos α * (X.x * Y.x + X.y * Y.y + X.z * Y.z) + Real.cos α ^ 2 * (Y.x * Y.x + Y.y * Y.y + Y.z * Y.z) := by
    simp only [arcTangent, XYZ.sqrLength, XYZ.add_x, XYZ.add_y, XYZ.add_z, XYZ.smul_x, XYZ.smul_y, XYZ.smul_z]; ring
  rw [this, hXY, hX, hY]
  linear_combination ρ * hsc

theorem cross_arcTangent (X Y : XYZ ℝ) (α δ : ℝ) :
    (arcTangent X Y α).cross (arcTangent X Y (α + δ)) = Real.sin δ • X.cross Y := by
  have e : Real.sin δ = Real.sin (α + δ) * Real.cos α - Real.cos (α + δ) * Real.sin α := by
    rw [← Real.sin_sub]; congr 1; ring
  rw [e]
  ext <;> simp only [arcTangent, XYZ.cross, XYZ.add_x, XYZ.add_y, XYZ.add_z, XYZ.smul_x, XYZ.smul_y, XYZ.smul_z] <;> ring

theorem sqrLength_cross {X Y : XYZ ℝ} {ρ : ℝ} (hXY : X.dot Y = 0) (hX : X.dot X = ρ) (hY : Y.dot Y = ρ) : (X.cross Y).sqrLength = ρ ^ 2 := by
  have : (X.cross Y).sqrLength = X.dot X * Y.dot Y - X.dot Y ^ 2 := by
    simp only [XYZ.cross, XYZ.sqrLength, XYZ.dot]; ring
  rw [this, hXY, hX, hY]; ring

theorem almostEq_sqr {A B : XYZ ℝ} {R : ℝ} (hR : 0 ≤ R) (hA : A.sqrLength ≤ R ^ 2) (hB : B.sqrLength ≤ R ^ 2) (h : A.almostEq B = true) :
    (A - B).sqrLength ≤ 3 / 1000000000000 * (1 + R) ^ 2 := by
  simp only [XYZ.almostEq, Bool.and_eq_true, isAlmostEqualTo, decide_eq_true_eq] at h
  obtain ⟨⟨hx, hy⟩, hz⟩ := h
  simp only [XYZ.sqrLength] at hA hB
  have comp : ∀ a b : ℝ, a * a ≤ R ^ 2 → b * b ≤ R ^ 2 → |a - b| ≤ tolOf a b doubleEps → (a - b) * (a - b) ≤ 1 / 1000000000000 * (1 + R) ^ 2 := by
    intro a b ha hb hab
    have h1 : |a| ≤ R := abs_le_of_sq_le_sq (by nlinarith) hR |> fun h => h
    have h2 : |b| ≤ R := abs_le_of_sq_le_sq (by nlinarith) hR |> fun h => h
    have h3 : |a - b| ≤ 1 / 1000000 * (1 + R) := by
      refine hab.trans ?_
      unfold tolOf doubleEps
      have := max_le h1 h2
      nlinarith
    have h4 := abs_nonneg (a - b)
    have h5 : (a - b) * (a - b) = |a - b| * |a - b| := (abs_mul_abs_self _).symm
    rw [h5]
    nlinarith
  have nn : ∀ a : ℝ, 0 ≤ a * a := mul_self_nonneg
  have cx := comp A.x B.x (by linarith [nn A.y, nn A.z]) (by linarith [nn B.y, nn B.z]) hx
  have cy := comp A.y B.y (by linarith [nn A.x, nn A.z]) (by linarith [nn B.x, nn B.z]) hy
  have cz := comp A.z B.z (by linarith [nn A.x, nn A.y]) (by linarith [nn B.x, nn B.y]) hz
  simp only [XYZ.sqrLength, XYZ.sub_x, XYZ.sub_y, XYZ.sub_z]
  linarith

theorem sqrLength_tangent_diff {X Y : XYZ ℝ} {ρ α δ : ℝ} (hXY : X.dot Y = 0) (hX : X.dot X = ρ) (hY : Y.dot Y = ρ) :
    (arcTangent X Y α - arcTangent X Y (α + δ)).sqrLength = ρ * (2 - 2 * Real.cos δ) := by
  have e : Real.cos δ = Real.cos (α + δ) * Real.cos α + Real.sin (α + δ) * Real.sin α := by
    rw [← Real.cos_sub]; congr 1; ring
  have h1 := Real.sin_sq_add_cos_sq α
  have h2 := Real.sin_sq_add_cos_sq (α + δ)
  simp only [XYZ.dot] at hXY hX hY
  set a := Real.sin α
  set b := Real.cos α
  set c := Real.sin (α + δ)
  set d := Real.cos (α + δ)
  have : (arcTangent X Y α - arcTangent X Y (α + δ)).sqrLength = (c - a) ^ 2 * (X.x * X.x + X.y * X.y + X.z * X.z)
      + 2 * (c - a) * (b - d) * (X.x * Y.x + X.y * Y.y + X.z * Y.z) + (b - d) ^ 2 * (Y.x * Y.x + Y.y * Y.y + Y.z * Y.z) := by
    simp only [arcTangent, XYZ.sqrLength, XYZ.add_x, XYZ.add_y, XYZ.add_z, XYZ.smul_x, XYZ.smul_y, XYZ.smul_z, XYZ.sub_x, XYZ.sub_y, XYZ.sub_z]; ring
  rw [this, hXY, hX, hY, e]
  linear_combination ρ * h1 + ρ * h2

/-- the tangents at the two ends of a circular arc meet at the corner of the arc -/
theorem rays_circle {O X Y : XYZ ℝ} {ρ α δ r : ℝ} {old : ℝ × ℝ × XYZ ℝ} (hXY : X.dot Y = 0) (hX : X.dot X = ρ) (hY : Y.dot Y = ρ)
    (hc : 0 < Real.cos (δ / 2)) (hs : 1 / 1000 ≤ Real.sin δ) (hnp : 1 / 1000000 * (1 + Real.sin δ ^ 2 * ρ ^ 2) < Real.sin δ ^ 2 * ρ ^ 2) :
    computeRays (arcPoint O X Y r r α) (arcTangent X Y α) (arcPoint O X Y r r (α + δ)) (arcTangent X Y (α + δ)) old
      = ok (.intersecting, r * Real.tan (δ / 2), -(r * Real.tan (δ / 2)),
        O + (r / Real.cos (δ / 2)) • (Real.cos (α + δ / 2) • X + Real.sin (α + δ / 2) • Y)) := by
  have hρ : 0 ≤ ρ := by
    rw [← hX]; simp only [XYZ.dot]
    have nn : ∀ a : ℝ, 0 ≤ a * a := mul_self_nonneg
    linarith [nn X.x, nn X.y, nn X.z]
  have hs1 := Real.sin_le_one δ
  have hs2 : Real.sin δ ^ 2 ≤ 1 := by nlinarith
  have hp2 : 0 ≤ Real.sin δ ^ 2 * ρ ^ 2 := mul_nonneg (sq_nonneg _) (sq_nonneg _)
  have hρ2 : 1 / 1000000 < ρ ^ 2 := by
    have : Real.sin δ ^ 2 * ρ ^ 2 ≤ 1 * ρ ^ 2 := mul_le_mul_of_nonneg_right hs2 (sq_nonneg _)
    linarith
  have hρ3 : 1 / 1000 < ρ := by nlinarith
  have hcross : ((arcTangent X Y α).cross (arcTangent X Y (α + δ))).sqrLength = Real.sin δ ^ 2 * ρ ^ 2 := by
    rw [cross_arcTangent, ← sqrLength_cross hXY hX hY]
    simp only [XYZ.sqrLength, XYZ.smul_x, XYZ.smul_y, XYZ.smul_z]; ring
  have hz : ∀ a, (arcTangent X Y a).isZero = false := by
    intro a
    simp only [XYZ.isZero, sqrLength_arcTangent hXY hX hY, decide_eq_false_iff_not, not_le, doubleEps]
    linarith
  have key : arcPoint O X Y r r α + (r * Real.tan (δ / 2)) • arcTangent X Y α
      = O + (r / Real.cos (δ / 2)) • (Real.cos (α + δ / 2) • X + Real.sin (α + δ / 2) • Y) := by
    have e1 : Real.cos (α + δ / 2) / Real.cos (δ / 2) = Real.cos α - Real.tan (δ / 2) * Real.sin α := by
      rw [Real.cos_add, Real.tan_eq_sin_div_cos]; field_simp
    have e2 : Real.sin (α + δ / 2) / Real.cos (δ / 2) = Real.sin α + Real.tan (δ / 2) * Real.cos α := by
      rw [Real.sin_add, Real.tan_eq_sin_div_cos]; field_simp
    have e3 : ∀ a b : ℝ, r / Real.cos (δ / 2) * (Real.cos (α + δ / 2) * a + Real.sin (α + δ / 2) * b)
        = r * ((Real.cos (α + δ / 2) / Real.cos (δ / 2)) * a + (Real.sin (α + δ / 2) / Real.cos (δ / 2)) * b) := by intro a b; ring
    ext <;> simp only [arcPoint, arcTangent, XYZ.add_x, XYZ.add_y, XYZ.add_z, XYZ.smul_x, XYZ.smul_y, XYZ.smul_z] <;> rw [e3, e1, e2] <;> ring
  have key2 : arcPoint O X Y r r (α + δ) + (-(r * Real.tan (δ / 2))) • arcTangent X Y (α + δ)
      = O + (r / Real.cos (δ / 2)) • (Real.cos (α + δ / 2) • X + Real.sin (α + δ / 2) • Y) := by
    have hα : α + δ / 2 = (α + δ) - δ / 2 := by ring
    have e1 : Real.cos (α + δ / 2) / Real.cos (δ / 2) = Real.cos (α + δ) + Real.tan (δ / 2) * Real.sin (α + δ) := by
      rw [hα, Real.cos_sub, Real.tan_eq_sin_div_cos]; field_simp
    have e2 : Real.sin (α + δ / 2) / Real.cos (δ / 2) = Real.sin (α + δ) - Real.tan (δ / 2) * Real.cos (α + δ) := by
      rw [hα, Real.sin_sub, Real.tan_eq_sin_div_cos]; field_simp
    have e3 : ∀ a b : ℝ, r / Real.cos (δ / 2) * (Real.cos (α + δ / 2) * a + Real.sin (α + δ / 2) * b)
        = r * ((Real.cos (α + δ / 2) / Real.cos (δ / 2)) * a + (Real.sin (α + δ / 2) / Real.cos (δ / 2)) * b) := by intro a b; ring
    ext <;> simp only [arcPoint, arcTangent, XYZ.add_x, XYZ.add_y, XYZ.add_z, XYZ.smul_x, XYZ.smul_y, XYZ.smul_z] <;> rw [e3, e1, e2] <;> ring
  have hne : (arcTangent X Y α).almostEq (arcTangent X Y (α + δ)) = false := by
    by_contra hcon
    have ht : (arcTangent X Y α).almostEq (arcTangent X Y (α + δ)) = true := by simpa using hcon
    have hsq : Real.sqrt ρ ^ 2 = ρ := Real.sq_sqrt hρ
    have h1 := almostEq_sqr (R := Real.sqrt ρ) (Real.sqrt_nonneg _) (by rw [sqrLength_arcTangent hXY hX hY, hsq])
      (by rw [sqrLength_arcTangent hXY hX hY, hsq]) ht
    rw [sqrLength_tangent_diff hXY hX hY] at h1
    have h2 : (1 + Real.sqrt ρ) ^ 2 ≤ 2 + 2 * ρ := by nlinarith [sq_nonneg (1 - Real.sqrt ρ)]
    have h3 : Real.sin δ ^ 2 ≤ 2 - 2 * Real.cos δ := by
      have := Real.sin_sq_add_cos_sq δ
      nlinarith [sq_nonneg (1 - Real.cos δ)]
    have h4 : 1 / 1000000 ≤ Real.sin δ ^ 2 := by nlinarith
    have h5 : ρ * (1 / 1000000) ≤ ρ * (2 - 2 * Real.cos δ) := mul_le_mul_of_nonneg_left (h4.trans h3) hρ
    nlinarith
  rw [Props.C27_rays_complete (key.trans key2.symm) (by rw [hcross]; exact hnp) hne (hz _) (hz _), key]

end LNLib
