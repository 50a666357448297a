import Verif.Model.Query

/-!
# Adaptive tessellation of a curve (over `ℝ`)

All paths are relative to /repo/src/LNLib.
-/

namespace LNLib
open Res

noncomputable section

/-- `TessellateCore`, Geometry/Curve/NurbsCurve.cpp:93-117; returns the parameters it appends.  The first argument is
`MAX_DEPTH - depth`, the number of levels left. -/
def tessellateCore (c : NurbsCurve ℝ) : ℕ → ℝ → ℝ → Res (List ℝ)
  | 0, start, stop => ok [(start + stop) * (1 / 2)]
  | k + 1, start, stop => do
    let p0 ← NurbsCurve.pointOnCurve c start
    let p2 ← NurbsCurve.pointOnCurve c stop
    let mid := (start + stop) * (1 / 2)
    let p1 ← NurbsCurve.pointOnCurve c mid
    let chordMid := (1 / 2 : ℝ) • (p0 + p2)
    let deviation := p1.distance chordMid
    if isAlmostEqualTo deviation 0 then ok [mid]
    else do
      let l ← tessellateCore c k start mid
      let r ← tessellateCore c k mid stop
      ok (l ++ r)

/-- `parameters.back()`; undefined on an empty vector. -/
def vback (l : List ℝ) : Res ℝ := vget l ((l.length : ℤ) - 1)

/-- The loop that filters the parameters of one span, Geometry/Curve/NurbsCurve.cpp:4174-4179. -/
def keepIncreasing (u0 u1 : ℝ) (internal params : List ℝ) : Res (List ℝ) :=
  forI 0 (internal.length : ℤ) params fun k params => do
    let t ← vget internal k
    if params.length = 0 then ok params
    else do
      let back ← vback params
      ok (if u0 < t ∧ t < u1 ∧ isGreaterThan t back = true then params ++ [t] else params)

/-- The parameters, Geometry/Curve/NurbsCurve.cpp:4156-4188. -/
def tessellateParams (c : NurbsCurve ℝ) (uniq : List ℝ) : Res (List ℝ) := do
  let ustart ← vget uniq 0
  let uend ← vback uniq
  let params ← forI 0 ((uniq.length : ℤ) - 1) [ustart] fun i params => do
    let u0 ← vget uniq i
    let u1 ← vget uniq (i + 1)
    if isAlmostEqualTo u1 u0 then ok params
    else do
      let internal ← tessellateCore c 20 u0 u1
      let params ← keepIncreasing u0 u1 internal params
      let back ← vback params
      ok (if isGreaterThan u1 back then params ++ [u1] else params)
  if params.length = 0 then ok (params ++ [uend])
  else do
    let back ← vback params
    ok (if isAlmostEqualTo back uend then params else params ++ [uend])

/-- `NurbsCurve::Tessellate`, Geometry/Curve/NurbsCurve.cpp:4141-4196, with `ControlPointsUtils::ToXYZ`,
Algorithm/ControlPointsUtils.cpp:19-27. -/
def tessellate (c : NurbsCurve ℝ) : Res (List (XYZ ℝ)) := do
  if c.degree = 1 then ok (c.cps.map XYZW.toXYZ)
  else do
    let uniq := stdUnique (stdSort c.knots)
    if uniq.length < 2 then do
      let u ← vget uniq 0
      let pt ← NurbsCurve.pointOnCurve c u
      ok [pt]
    else do
      let params ← tessellateParams c uniq
      forI 0 (params.length : ℤ) [] fun k points => do
        let t ← vget params k
        let x ← NurbsCurve.pointOnCurve c t
        ok (points ++ [x])

end

end LNLib
