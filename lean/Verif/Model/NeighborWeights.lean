import Verif.Model.Reshape
import Verif.Model.Intersection

/-!
# Model of the modification of two neighbouring weights, Geometry/Curve/NurbsCurve.cpp

All paths are relative to /repo/src/LNLib.
-/

namespace LNLib
open Res

noncomputable section

/-- `NurbsCurve::NeighborWeightsModification`, Geometry/Curve/NurbsCurve.cpp:3249-3324; `none` is the answer `false`. The parameters and the point that `ComputeRays` leaves alone when
it finds parallel lines are not read in that case; they are 0 here. -/
def neighborWeightsModification (c : NurbsCurve ℝ) (parameter : ℝ) (moveIndex : ℤ) (moveDistance scale : ℝ) : Res (Option (NurbsCurve ℝ)) := do
  let first ← vget c.knots 0
  let last ← vget c.knots ((c.knots.length : ℤ) - 1)
  validateRange parameter first last
  validateIndex moveIndex c.cps.length
  validate (!(isAlmostEqualTo moveDistance 0))
  validate (!(isAlmostEqualTo scale 0))
  let p1 ← vget c.cps moveIndex
  let movePoint1 := p1.toXYZ
  let temp ← vset c.cps moveIndex (XYZW.ofXYZ movePoint1 0)
  let p2 ← vget temp (moveIndex + 1)
  let movePoint2 := p2.toXYZ
  let temp ← vset temp (moveIndex + 1) (XYZW.ofXYZ movePoint2 0)
  let R ← NurbsCurve.pointOnCurve { degree := c.degree, knots := c.knots, cps := temp } parameter
  let controlLeg := movePoint1 - movePoint2
  let controlLegLength := movePoint2.distance movePoint1
  let P ← NurbsCurve.pointOnCurve c parameter
  let (type, _, _, Q) ← computeRays movePoint1 controlLeg R (R - P) (0, 0, 0)
  if type ≠ .intersecting then ok none
  else do
    let pkq := Q - movePoint1
    let pk1q := Q - movePoint2
    let RQ := Q.distance R
    let RP := P.distance R
    let Rtarget := RP + moveDistance
    let qRP ← fdiv RP RQ
    let qRtarget ← fdiv Rtarget RQ
    let A := movePoint1 + qRP • pkq
    let B := movePoint2 + qRP • pk1q
    let C := movePoint1 + qRtarget • pkq
    let D := movePoint2 + qRtarget • pk1q
    let ak ← fdiv (B.distance movePoint2) controlLegLength
    let ak1 ← fdiv (A.distance movePoint1) controlLegLength
    let abk ← fdiv (D.distance movePoint2) controlLegLength
    let abk1 ← fdiv (C.distance movePoint1) controlLegLength
    if isLessThan |ak| 0 ∨ isLessThan |ak1| 0 ∨ isLessThan |abk| 0 ∨ isLessThan |abk1| 0 then ok none
    else do
      let alpha := 1 - ak - ak1
      let beta := 1 - abk - abk1
      let x ← fdiv alpha ak
      let y ← fdiv beta abk
      let betak ← fdiv x y
      let x ← fdiv alpha ak1
      let y ← fdiv beta abk1
      let betak1 ← fdiv x y
      let cps ← vset c.cps moveIndex (XYZW.ofXYZ movePoint1 (p1.w * betak))
      let cps ← vset cps (moveIndex + 1) (XYZW.ofXYZ movePoint2 (p2.w * betak1))
      ok (some { degree := c.degree, knots := c.knots, cps := cps })

end
end LNLib
