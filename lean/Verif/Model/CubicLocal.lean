import Verif.Model.Tangent
import Verif.Model.Curve

/-!
# Model of the local cubic interpolation of points, Geometry/Curve/NurbsCurve.cpp

All paths are relative to /repo/src/LNLib.
-/

namespace LNLib
open Res
noncomputable section

/-- `chordLengths`, Geometry/Curve/NurbsCurve.cpp:2234-2242.  `totalLength` is not used by the C++ and left out. -/
def cubicChords (pts : List (XYZ ℝ)) : Res (List ℝ) :=
  forI 0 ((pts.length : ℤ) - 1) (List.replicate (pts.length - 1) (0 : ℝ)) fun i chords => do
    let a ← vget pts (i + 1)
    let b ← vget pts i
    vset chords i (if isAlmostEqualTo (a - b).length 0 then 1 / 100000000 else (a - b).length)

/-- `controlPoints`, Geometry/Curve/NurbsCurve.cpp:2244-2264. -/
def cubicLocalPoints (pts tangents : List (XYZ ℝ)) (chords : List ℝ) : Res (List (XYZW ℝ)) := do
  let first ← vget pts 0
  forI 0 ((pts.length : ℤ) - 1) [XYZW.ofXYZ first 1] fun i cps => do
    let h ← vget chords i
    let p0 ← vget pts i
    let p3 ← vget pts (i + 1)
    let d0 ← vget tangents i
    let d3 ← vget tangents (i + 1)
    let t0 := h • d0
    let t3 := h • d3
    let p1 := p0 + (1 / 3 : ℝ) • t0
    let p2 := p3 - (1 / 3 : ℝ) • t3
    ok (cps ++ [XYZW.ofXYZ p1 1, XYZW.ofXYZ p2 1, XYZW.ofXYZ p3 1])

/-- `knotVector`, Geometry/Curve/NurbsCurve.cpp:2266-2280. -/
def cubicLocalKnots (num : ℤ) : Res (List ℝ) := do
  let kv ← forI 0 4 (List.replicate (num + 4).toNat (0 : ℝ)) fun i kv => do
    let kv ← vset kv i 0
    vset kv (kv.length - 1 - i) 1
  let step ← fdiv 1 ((num - 3 : ℤ) : ℝ)
  forI 1 (num - 3) kv fun i kv => vset kv (3 + i) ((i : ℝ) * step)

/-- `NurbsCurve::CubicLocalInterpolation`, Geometry/Curve/NurbsCurve.cpp:2216-2285: `none` when it returns false. -/
def cubicLocalInterpolation (pts : List (XYZ ℝ)) : Res (Option (NurbsCurve ℝ)) := do
  validate (decide (0 < pts.length))
  if pts.length = 1 then do
    let p ← vget pts 0
    ok (some ⟨0, [0, 1], [XYZW.ofXYZ p 1]⟩)
  else do
    let t ← computeTangentFive pts
    if t.1 = false then ok none
    else do
      let chords ← cubicChords pts
      let cps ← cubicLocalPoints pts t.2 chords
      let kv ← cubicLocalKnots cps.length
      ok (some ⟨3, kv, cps⟩)

end
end LNLib
