import Verif.Lemmas.Tolerance
import Verif.Model.Geom
import Mathlib.Algebra.BigOperators.Group.Finset.Basic
import Mathlib.Algebra.Module.LinearMap.Basic

/-! # Linear structure of points -/
set_option linter.unusedSectionVars false

namespace LNLib
open Res Finset

section
variable {K : Type} [Field K]

def XYZW.rawL : XYZW K →ₗ[K] XYZ K where
  toFun a := a.raw
  map_add' _ _ := rfl
  map_smul' _ _ := rfl

def XYZW.wL : XYZW K →ₗ[K] K where
  toFun a := a.w
  map_add' _ _ := rfl
  map_smul' _ _ := rfl

def XYZ.xL : XYZ K →ₗ[K] K where
  toFun a := a.x
  map_add' _ _ := rfl
  map_smul' _ _ := rfl
def XYZ.yL : XYZ K →ₗ[K] K where
  toFun a := a.y
  map_add' _ _ := rfl
  map_smul' _ _ := rfl
def XYZ.zL : XYZ K →ₗ[K] K where
  toFun a := a.z
  map_add' _ _ := rfl
  map_smul' _ _ := rfl

@[simp] theorem XYZW.rawL_apply (a : XYZW K) : XYZW.rawL a = a.raw := rfl
@[simp] theorem XYZW.wL_apply (a : XYZW K) : XYZW.wL a = a.w := rfl
@[simp] theorem XYZ.xL_apply (a : XYZ K) : XYZ.xL a = a.x := rfl
@[simp] theorem XYZ.yL_apply (a : XYZ K) : XYZ.yL a = a.y := rfl
@[simp] theorem XYZ.zL_apply (a : XYZ K) : XYZ.zL a = a.z := rfl

theorem XYZW.sum_raw {ι : Type} (s : Finset ι) (b : ι → K) (P : ι → XYZW K) :
    (∑ i ∈ s, b i • P i).raw = ∑ i ∈ s, b i • (P i).raw := by
  have := map_sum (XYZW.rawL (K := K)) (fun i => b i • P i) s
  exact this

theorem XYZW.sum_w {ι : Type} (s : Finset ι) (b : ι → K) (P : ι → XYZW K) :
    (∑ i ∈ s, b i • P i).w = ∑ i ∈ s, b i * (P i).w := by
  have := map_sum (XYZW.wL (K := K)) (fun i => b i • P i) s
  exact this

theorem XYZ.sum_x {ι : Type} (s : Finset ι) (b : ι → K) (P : ι → XYZ K) :
    (∑ i ∈ s, b i • P i).x = ∑ i ∈ s, b i * (P i).x := by
  have := map_sum (XYZ.xL (K := K)) (fun i => b i • P i) s
  exact this
theorem XYZ.sum_y {ι : Type} (s : Finset ι) (b : ι → K) (P : ι → XYZ K) :
    (∑ i ∈ s, b i • P i).y = ∑ i ∈ s, b i * (P i).y := by
  have := map_sum (XYZ.yL (K := K)) (fun i => b i • P i) s
  exact this
theorem XYZ.sum_z {ι : Type} (s : Finset ι) (b : ι → K) (P : ι → XYZ K) :
    (∑ i ∈ s, b i • P i).z = ∑ i ∈ s, b i * (P i).z := by
  have := map_sum (XYZ.zL (K := K)) (fun i => b i • P i) s
  exact this
end

section
variable {K : Type} [Field K] [LinearOrder K] [IsStrictOrderedRing K]

theorem isAlmostZero_iff (w : K) : isAlmostEqualTo w 0 = true ↔ |w| ≤ 1 / 1000000 * (1 + |w|) := by
  simp only [isAlmostEqualTo, decide_eq_true_eq, sub_zero]
  unfold tolOf doubleEps
  rw [abs_zero, max_eq_left (abs_nonneg w)]

theorem XYZW.toXYZ_eq {a : XYZW K} (h : 1 / 1000000 * (1 + |a.w|) < |a.w|) : a.toXYZ = a.w⁻¹ • a.raw := by
  unfold XYZW.toXYZ
  rw [if_neg]
  · ext <;> simp [XYZW.raw, div_eq_inv_mul]
  · rw [isAlmostZero_iff]; exact not_le.mpr h

theorem XYZW.toXYZ_tiny {a : XYZW K} (h : |a.w| ≤ 1 / 1000000 * (1 + |a.w|)) : a.toXYZ = a.raw := by
  unfold XYZW.toXYZ
  rw [if_pos]
  rw [isAlmostZero_iff]; exact h
end
end LNLib
