import Mathlib.Algebra.Order.Floor.Defs
import Verif.Model.DiffGeom
import Verif.Model.Nearest
import Verif.Model.Intersection
import Verif.Model.Interp
import Verif.Model.ExcessiveKnots

/-!
# Model of the offset curves of Geometry/Curve/NurbsCurve.cpp

All paths are relative to /repo/src/LNLib.
-/

namespace LNLib
open Res

noncomputable section

/-- One control point moved along the normal, Geometry/Curve/NurbsCurve.cpp:136-144 (and again 146-154): the normal at the parameter nearest to the control point, turned to the side of
the first normal.  `Constants::AngleEpsilon` is 1e-2 (include/Constants.h:25). -/
def offsetPoint (c : NurbsCurve ℝ) (offset : ℝ) (firstNormal : XYZ ℝ) (wp : XYZW ℝ) : Res (XYZ ℝ) := do
  let current := wp.toXYZ
  let param ← getParamOnCurve c current
  let normal ← NurbsCurve.normal c .normal param
  let angle := firstNormal.angleTo normal
  ok (current + offset • (if isGreaterThan angle (Real.pi / 2) (1 / 100) then -normal else normal))

/-- The round of the second loop for the points `tempPoints[2k] … tempPoints[2k+3]`, Geometry/Curve/NurbsCurve.cpp:166-180; `none` is the early `return`, after which `result` is untouched.
The values that `ComputeRays` leaves alone are not read. -/
def offsetCorner (temp : List (XYZ ℝ)) (k : ℤ) (cps : List (XYZW ℝ)) : Res (Option (List (XYZW ℝ))) := do
  let currentP0 ← vget temp (2 * k)
  let currentP1 ← vget temp (2 * k + 1)
  let nextP0 ← vget temp (2 * k + 2)
  let nextP1 ← vget temp (2 * k + 3)
  let (type, _, _, X) ← computeRays currentP0 (currentP1 - currentP0) nextP1 (nextP0 - nextP1) (0, 0, 0)
  if type ≠ .intersecting then ok none else ok (some (cps ++ [XYZW.ofXYZ X 1]))

/-- `OffsetByTillerAndHanson`, Geometry/Curve/NurbsCurve.cpp:119-186; `none` is the early `return` that leaves `result` untouched. -/
def offsetTillerHanson (c : NurbsCurve ℝ) (offset : ℝ) : Res (Option (NurbsCurve ℝ)) := do
  if isAlmostEqualTo offset 0 then ok (some c)
  else do
    let a ← vget c.knots 0
    let firstNormal ← NurbsCurve.normal c .normal a
    let n : ℤ := (c.cps.length : ℤ) - 1
    let temp ← forI 0 n ([] : List (XYZ ℝ)) fun i temp => do
      let p0 ← vget c.cps i
      let q0 ← offsetPoint c offset firstNormal p0
      let p1 ← vget c.cps (i + 1)
      let q1 ← offsetPoint c offset firstNormal p1
      ok (temp ++ [q0, q1])
    let first ← vget temp 0
    let cps ← forI 0 (n - 1) (some [XYZW.ofXYZ first 1]) fun k st =>
      match st with
      | none => ok none
      | some cps => offsetCorner temp k cps
    match cps with
    | none => ok none
    | some cps => do
      let last ← vget temp ((temp.length : ℤ) - 1)
      ok (some { degree := c.degree, knots := c.knots, cps := cps ++ [XYZW.ofXYZ last 1] })

/-- The number of samples of `OffsetByPieglAndTiller`, Geometry/Curve/NurbsCurve.cpp:203-222; the conversion to `int` is the floor of a non-negative number. -/
def offsetSamples (c : NurbsCurve ℝ) : Res ℤ := do
  let n ← forI 0 c.knots.length (0 : ℤ) fun i n => do
    let u ← vget c.knots i
    let ders ← NurbsCurve.rationalDerivatives c 2 u
    let d2 ← vget ders 2
    let l := ⌊Real.sqrt (1 / (1 / 10000)) * Real.sqrt (d2.length / 8)⌋
    ok (if l > n then l else n)
  let count := 2 * (c.degree + 1)
  ok (if n > count then n else count)

/-- `OffsetByPieglAndTiller`, Geometry/Curve/NurbsCurve.cpp:188-237.  `solve` is the linear solver of the interpolation (Eigen, not modelled), `test` the comparison of `RemoveExcessiveKnots`
(Model/ExcessiveKnots.lean), which has fuel. -/
def offsetPieglTiller (solve : List (List ℝ) → List (List ℝ) → Res (List (List ℝ))) (test : List (XYZW ℝ) → XYZW ℝ → XYZW ℝ → Bool) (fuel : ℕ) (c : NurbsCurve ℝ)
    (offset : ℝ) : Res (NurbsCurve ℝ) := do
  if isAlmostEqualTo offset 0 then ok c
  else do
    let minParam ← vget c.knots 0
    let maxParam ← vget c.knots ((c.knots.length : ℤ) - 1)
    let count ← offsetSamples c
    let step ← fdiv (maxParam - minParam) ((count : ℝ) - 1)
    let samples ← forI 0 count ([] : List (XYZ ℝ)) fun j samples => do
      let bparam := minParam + step * j
      let point ← NurbsCurve.pointOnCurve c bparam
      let normal ← NurbsCurve.normal c .normal bparam
      ok (samples ++ [point + offset • normal])
    let temp ← globalInterpolationChord solve c.degree samples
    removeExcessiveKnots test fuel temp

end
end LNLib
