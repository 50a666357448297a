import Verif.Model.Volume
import Verif.Model.Query
import Verif.Model.SurfaceNearest

/-!
# Model of the queries of Geometry/Volume/NurbsVolume.cpp

All paths are relative to /repo/src/LNLib.
-/

namespace LNLib
open Res

noncomputable section

/-- The loops of one branch of `NurbsVolume::IsClosed`, e.g. Geometry/Volume/NurbsVolume.cpp:1177-1196: the control points `read a b 0`, …, `read a b (len - 1)` of each curve of one direction
are collected and the curve is tested; the first curve that is not closed ends the loops. -/
def closedFibres (outer inner len : ℤ) (degree : ℤ) (knots : List ℝ) (read : ℤ → ℤ → ℤ → Res (XYZW ℝ)) : Res Bool :=
  forI 0 outer true fun a st =>
    if st then
      forI 0 inner true fun b st =>
        if st then do
          let cps ← forI 0 len [] fun i l => do
            let x ← read a b i
            ok (l ++ [x])
          isClosedCurve { degree := degree, knots := knots, cps := cps }
        else ok false
    else ok false

/-- `NurbsVolume::IsClosed`, Geometry/Volume/NurbsVolume.cpp:1165-1259. -/
def isClosedVolume (c : NurbsVolume ℝ) (direction : VolumeDirection) : Res Bool := do
  let numU : ℤ := c.cps.length
  if numU = 0 then ok false
  else do
    let slice0 ← vget c.cps 0
    let numV : ℤ := slice0.length
    if numV = 0 then ok false
    else do
      let row0 ← vget slice0 0
      let numW : ℤ := row0.length
      match direction with
      | .u => closedFibres numV numW numU c.degreeU c.knotsU fun v w u => cget c.cps u v w
      | .v => closedFibres numU numW numV c.degreeV c.knotsV fun u w v => cget c.cps u v w
      | .w => closedFibres numU numV numW c.degreeW c.knotsW fun u v w => cget c.cps u v w

/-- One sample of the search for the starting point, Geometry/Volume/NurbsVolume.cpp:1293-1305. State: (`minDistSq`, `bestParam`); `none` is the largest `double`, the initial value, which every
squared distance is taken to be below. -/
def nearestRoundV (c : NurbsVolume ℝ) (givenPoint : XYZ ℝ) (current : ℝ × ℝ × ℝ) (st : Option ℝ × (ℝ × ℝ × ℝ)) : Res (Option ℝ × (ℝ × ℝ × ℝ)) := do
  let point ← NurbsVolume.pointOnVolume c current.1 current.2.1 current.2.2
  let distSq := (point - givenPoint).dot (point - givenPoint)
  match st.1 with
  | none => ok (some distSq, current)
  | some minDistSq => if distSq < minDistSq then ok (some distSq, current) else ok st

/-- One Newton round, Geometry/Volume/NurbsVolume.cpp:1317-1394. The boolean is true when the loop is left. -/
def newtonRoundV (c : NurbsVolume ℝ) (givenPoint : XYZ ℝ) (wrapU wrapV wrapW : ℝ → Res ℝ) (param : ℝ × ℝ × ℝ) : Res ((ℝ × ℝ × ℝ) × Bool) := do
  let ders ← NurbsVolume.rationalDerivatives c 2 param.1 param.2.1 param.2.2
  let V ← cget ders 0 0 0
  let Vu ← cget ders 1 0 0
  let Vv ← cget ders 0 1 0
  let Vw ← cget ders 0 0 1
  let Vuu ← cget ders 2 0 0
  let Vvv ← cget ders 0 2 0
  let Vww ← cget ders 0 0 2
  let Vuv ← cget ders 1 1 0
  let Vuw ← cget ders 1 0 1
  let Vvw ← cget ders 0 1 1
  let diff := V - givenPoint
  if isAlmostEqualTo diff.length 0 distEps then ok (param, true)
  else do
    let J00 := Vu.dot Vu + diff.dot Vuu
    let J01 := Vu.dot Vv + diff.dot Vuv
    let J02 := Vu.dot Vw + diff.dot Vuw
    let J10 := J01
    let J11 := Vv.dot Vv + diff.dot Vvv
    let J12 := Vv.dot Vw + diff.dot Vvw
    let J20 := J02
    let J21 := J12
    let J22 := Vw.dot Vw + diff.dot Vww
    let K0 := Vu.dot diff
    let K1 := Vv.dot diff
    let K2 := Vw.dot diff
    let det := J00 * (J11 * J22 - J12 * J21) - J01 * (J10 * J22 - J12 * J20) + J02 * (J10 * J21 - J11 * J20)
    if isAlmostEqualTo |det| 0 then ok (param, true)
    else do
      let deltaU ← fdiv (-K0 * (J11 * J22 - J12 * J21) - J01 * (-K1 * J22 - J12 * -K2) + J02 * (-K1 * J21 - J11 * -K2)) det
      let deltaV ← fdiv (J00 * (-K1 * J22 - J12 * -K2) - -K0 * (J10 * J22 - J12 * J20) + J02 * (J10 * -K2 - -K1 * J20)) det
      let deltaW ← fdiv (J00 * (J11 * -K2 - -K1 * J21) - J01 * (J10 * -K2 - -K1 * J20) + -K0 * (J10 * J21 - J11 * J20)) det
      let newU := param.1 + deltaU
      let newV := param.2.1 + deltaV
      let newW := param.2.2 + deltaW
      let deltaWorld := deltaU • Vu + deltaV • Vv + deltaW • Vw
      if isAlmostEqualTo deltaWorld.length 0 distEps then ok ((newU, newV, newW), true)
      else do
        let newU ← wrapU newU
        let newV ← wrapV newV
        let newW ← wrapW newW
        ok ((newU, newV, newW), false)

/-- `NurbsVolume::GetParamOnVolume`, Geometry/Volume/NurbsVolume.cpp:1261-1398. -/
def getParamOnVolume (c : NurbsVolume ℝ) (givenPoint : XYZ ℝ) : Res (ℝ × ℝ × ℝ) := do
  let minU ← vget c.knotsU 0
  let maxU ← vget c.knotsU ((c.knotsU.length : ℤ) - 1)
  let minV ← vget c.knotsV 0
  let maxV ← vget c.knotsV ((c.knotsV.length : ℤ) - 1)
  let minW ← vget c.knotsW 0
  let maxW ← vget c.knotsW ((c.knotsW.length : ℤ) - 1)
  let isClosedU ← isClosedVolume c .u
  let isClosedV ← isClosedVolume c .v
  let isClosedW ← isClosedVolume c .w
  let stepU := (maxU - minU) / 39
  let stepV := (maxV - minV) / 39
  let stepW := (maxW - minW) / 39
  let best ← forI 0 40 ((none : Option ℝ), (minU, minV, minW)) fun i st =>
    forI 0 40 st fun j st =>
      forI 0 40 st fun k st => nearestRoundV c givenPoint (minU + i * stepU, minV + j * stepV, minW + k * stepW) st
  let (param, _) ← forI 0 20 (best.2, false) fun _ st =>
    if st.2 then ok st else newtonRoundV c givenPoint (backInto isClosedU minU maxU) (backInto isClosedV minV maxV) (backInto isClosedW minW maxW) st.1
  ok param

/-- The test at one sample of `NurbsVolume::Check`, Geometry/Volume/NurbsVolume.cpp:1671-1690. -/
def positiveAt (c : NurbsVolume ℝ) (u v w : ℝ) : Res Bool := do
  let ders ← NurbsVolume.rationalDerivatives c 1 u v w
  let Vu ← cget ders 1 0 0
  let Vv ← cget ders 0 1 0
  let Vw ← cget ders 0 0 1
  let jacobian := Vu.x * Vv.y * Vw.z + Vu.y * Vv.z * Vw.x + Vu.z * Vv.x * Vw.y - Vu.z * Vv.y * Vw.x - Vu.y * Vv.x * Vw.z - Vu.x * Vv.z * Vw.y
  ok (!decide (jacobian ≤ 0))

/-- `NurbsVolume::Check`, Geometry/Volume/NurbsVolume.cpp:1650-1694. -/
def checkVolume (c : NurbsVolume ℝ) : Res Bool := do
  let minU ← vget c.knotsU 0
  let maxU ← vget c.knotsU ((c.knotsU.length : ℤ) - 1)
  let minV ← vget c.knotsV 0
  let maxV ← vget c.knotsV ((c.knotsV.length : ℤ) - 1)
  let minW ← vget c.knotsW 0
  let maxW ← vget c.knotsW ((c.knotsW.length : ℤ) - 1)
  let stepU := (maxU - minU) / 49
  let stepV := (maxV - minV) / 49
  let stepW := (maxW - minW) / 49
  forI 0 50 true fun i st =>
    if st then
      forI 0 50 true fun j st =>
        if st then
          forI 0 50 true fun k st => if st then positiveAt c (minU + i * stepU) (minV + j * stepV) (minW + k * stepW) else ok false
        else ok false
    else ok false

end
end LNLib
