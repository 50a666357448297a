import Verif.Model.IsArc
import Verif.Model.SurfaceNearest

/-!
# Model of `NurbsCurve::GetAllParamsOnCurve`, Geometry/Curve/NurbsCurve.cpp:1331-1448

All paths are relative to /repo/src/LNLib.
-/

namespace LNLib
open Res

noncomputable section

/-- The check for the centre of a circle, Geometry/Curve/NurbsCurve.cpp:1333-1342. When the centre of the three points is not finite, `IsArc` answers `false` (all comparisons with NaN
fail), so this outcome is not reported here. -/
def notCentre (c : NurbsCurve ℝ) (givenPoint : XYZ ℝ) : Res Unit :=
  match isArc c with
  | nonfinite => ok ()
  | ok none => ok ()
  | ok (some info) => if info.isCircle then validate (!info.center.almostEq givenPoint) else ok ()
  | invalidArg => invalidArg
  | outOfRange => outOfRange
  | ub => ub
  | diverge => diverge

/-- The starting points, Geometry/Curve/NurbsCurve.cpp:1357-1376: the samples that are not farther from the point than their neighbours. -/
def curveGuesses (pts : List (XYZ ℝ)) (params : List ℝ) (givenPoint : XYZ ℝ) : Res (List ℝ) :=
  let distSq := pts.map fun x => (givenPoint - x).dot (givenPoint - x)
  forI 0 pts.length ([] : List ℝ) fun i guesses => do
    let d ← vget distSq i
    let left ← (if i > 0 then do
        let e ← vget distSq (i - 1)
        ok (decide (d > e))
      else ok false : Res Bool)
    let right ← (if i < (pts.length : ℤ) - 1 then do
        let e ← vget distSq (i + 1)
        ok (decide (d > e))
      else ok false : Res Bool)
    if left || right then ok guesses
    else do
      let t ← vget params i
      ok (guesses ++ [t])

/-- One Newton round, Geometry/Curve/NurbsCurve.cpp:1385-1423; the way back into the domain of lines 1414-1421 is that of `backIntoTol`. The boolean is true when the loop is left. -/
def newtonRoundAll (c : NurbsCurve ℝ) (givenPoint : XYZ ℝ) (isClosed : Bool) (minParam maxParam paramT : ℝ) : Res (ℝ × Bool) := do
  let derivatives ← NurbsCurve.rationalDerivatives c 2 paramT
  let C ← vget derivatives 0
  let Ct ← vget derivatives 1
  let Ctt ← vget derivatives 2
  let diff := C - givenPoint
  if isAlmostEqualTo diff.length 0 then ok (paramT, true)
  else do
    let f := Ct.dot diff
    let df := Ct.dot Ct + diff.dot Ctt
    if isAlmostEqualTo |df| 0 then ok (paramT, true)
    else do
      let deltaT ← fdiv f df
      let newT := paramT - deltaT
      if isAlmostEqualTo |deltaT * Ct.length| 0 then ok (newT, true)
      else do
        let newT ← backIntoTol isClosed minParam maxParam newT
        ok (newT, false)

/-- The Newton loop, Geometry/Curve/NurbsCurve.cpp:1379-1424. -/
def newtonLoopAll (c : NurbsCurve ℝ) (givenPoint : XYZ ℝ) (isClosed : Bool) (minParam maxParam start : ℝ) : Res (ℝ × Bool) :=
  forI 0 20 (start, false) fun _ st => if st.2 then ok st else newtonRoundAll c givenPoint isClosed minParam maxParam st.1

/-- The comparison with one of the parameters found before, Geometry/Curve/NurbsCurve.cpp:1427-1441. -/
def sameParamC (isClosed : Bool) (minParam maxParam existingT paramT : ℝ) : Bool :=
  let diffT := |existingT - paramT|
  let diffT := if isClosed then min diffT |diffT - (maxParam - minParam)| else diffT
  isAlmostEqualTo diffT 0

/-- `NurbsCurve::GetAllParamsOnCurve`, Geometry/Curve/NurbsCurve.cpp:1331-1450. -/
def getAllParamsOnCurve (c : NurbsCurve ℝ) (givenPoint : XYZ ℝ) : Res (List ℝ) := do
  notCentre c givenPoint
  let minParam ← vget c.knots 0
  let maxParam ← vget c.knots ((c.knots.length : ℤ) - 1)
  let isClosed ← isClosedCurve c
  let (pts, params) ← equallyTessellate c
  let guesses ← curveGuesses pts params givenPoint
  forI 0 guesses.length ([] : List ℝ) fun i result => do
    let guess ← vget guesses i
    let (param, _) ← newtonLoopAll c givenPoint isClosed minParam maxParam guess
    if result.any (fun e => sameParamC isClosed minParam maxParam e param) then ok result
    else ok (result ++ [param])

end
end LNLib
