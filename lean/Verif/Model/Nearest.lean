import Verif.Model.Query
import Verif.Model.BasisDers

/-!
# Model of the parameter search of Geometry/Curve/NurbsCurve.cpp

All paths are relative to /repo/src/LNLib.
-/

namespace LNLib
open Res

noncomputable section

/-- One round of the search along the tessellation, Geometry/Curve/NurbsCurve.cpp:1257-1281. State: (`minDistSq`, `bestT`); `none` is the largest
`double`, the initial value, which every squared distance is taken to be below. -/
def nearestRound (pts : List (XYZ ℝ)) (params : List ℝ) (givenPoint : XYZ ℝ) (i : ℤ) (st : Option ℝ × ℝ) : Res (Option ℝ × ℝ) := do
  let P0 ← vget pts i
  let P1 ← vget pts (i + 1)
  let t0 ← vget params i
  let t1 ← vget params (i + 1)
  let seg := P1 - P0
  let segLenSq := seg.dot seg
  let u ← (if segLenSq > doubleEps then do
      let u ← fdiv ((givenPoint - P0).dot seg) segLenSq
      ok (max 0 (min 1 u))
    else ok (1 / 2) : Res ℝ)
  let projectPoint := P0 + u • seg
  let projectT := t0 + (t1 - t0) * u
  let distSq := (givenPoint - projectPoint).dot (givenPoint - projectPoint)
  match st.1 with
  | none => ok (some distSq, projectT)
  | some minDistSq => if distSq < minDistSq then ok (some distSq, projectT) else ok st

/-- The search along the tessellation, Geometry/Curve/NurbsCurve.cpp:1247-1282. The number of points is unsigned: without points the loop
bound wraps around and the first access is out of bounds. -/
def nearestStart (pts : List (XYZ ℝ)) (params : List ℝ) (givenPoint : XYZ ℝ) (minParam : ℝ) : Res ℝ :=
  if pts.length = 0 then ub
  else do
    let st ← forI 0 ((pts.length : ℤ) - 1) ((none : Option ℝ), minParam) (nearestRound pts params givenPoint)
    ok st.2

/-- The wrapping into the domain of a closed curve, Geometry/Curve/NurbsCurve.cpp:1318-1320. The first loop ends after at most
`⌈(minParam - newT) / range⌉` rounds, the second after `⌈(newT - maxParam) / range⌉`, if the range is positive; otherwise the loops are
reported as divergent as soon as they do not end by themselves. -/
def wrapParam (minParam maxParam newT : ℝ) : Res ℝ := do
  let range := maxParam - minParam
  let t ← whileF (fun t => ok (decide (t < minParam))) (fun t => ok (t + range)) (⌈(minParam - newT) / range⌉₊) newT
  whileF (fun t => ok (decide (t > maxParam))) (fun t => ok (t - range)) (⌈(t - maxParam) / range⌉₊) t

/-- One Newton round, Geometry/Curve/NurbsCurve.cpp:1289-1324. The boolean is true when the loop is left. -/
def newtonRound (c : NurbsCurve ℝ) (givenPoint : XYZ ℝ) (isClosed : Bool) (minParam maxParam paramT : ℝ) : Res (ℝ × Bool) := do
  let derivatives ← NurbsCurve.rationalDerivatives c 2 paramT
  let C ← vget derivatives 0
  let Ct ← vget derivatives 1
  let Ctt ← vget derivatives 2
  let diff := C - givenPoint
  if diff.length < distEps then ok (paramT, true)
  else do
    let f := Ct.dot diff
    let df := Ct.dot Ct + diff.dot Ctt
    if |df| < doubleEps then ok (paramT, true)
    else do
      let deltaT ← fdiv f df
      let newT := paramT - deltaT
      if |deltaT * Ct.length| < distEps then ok (newT, true)
      else if !isClosed then ok (max minParam (min maxParam newT), false)
      else do
        let t ← wrapParam minParam maxParam newT
        ok (t, false)

/-- The Newton loop, Geometry/Curve/NurbsCurve.cpp:1284-1327. -/
def newtonLoop (c : NurbsCurve ℝ) (givenPoint : XYZ ℝ) (isClosed : Bool) (minParam maxParam start : ℝ) : Res (ℝ × Bool) :=
  forI 0 20 (start, false) fun _ st => if st.2 then ok st else newtonRound c givenPoint isClosed minParam maxParam st.1

/-- `NurbsCurve::GetParamOnCurve`, Geometry/Curve/NurbsCurve.cpp:1237-1328. -/
def getParamOnCurve (c : NurbsCurve ℝ) (givenPoint : XYZ ℝ) : Res ℝ := do
  let minParam ← vget c.knots 0
  let maxParam ← vget c.knots ((c.knots.length : ℤ) - 1)
  let isClosed ← isClosedCurve c
  let (pts, params) ← equallyTessellate c
  let start ← nearestStart pts params givenPoint minParam
  let (t, _) ← newtonLoop c givenPoint isClosed minParam maxParam start
  ok t

end
end LNLib
