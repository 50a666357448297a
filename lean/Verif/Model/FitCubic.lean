import Verif.Model.FitConic
import Verif.Model.Interp
import Verif.Model.Tangent
import Verif.Model.Curve

/-!
# Model of the fitting of a cubic to points between given tangents

`MathUtils::ComputerCubicEquationsWithOneVariable` (Mathematics/Utils/MathUtils.cpp) and `NurbsCurve::FitWithCubic` (Geometry/Curve/NurbsCurve.cpp); all paths are relative to
/repo/src/LNLib.
-/

namespace LNLib
open Res

section
variable {K : Type} [Field K] [LinearOrder K]

/-- The Newton step of `MathUtils::ComputerCubicEquationsWithOneVariable`, Mathematics/Utils/MathUtils.cpp:128 and 132. -/
def cubicStep (cubic quadratic linear constant x : K) : Res K := do
  let q ← fdiv (cubic * x ^ 3 + quadratic * x ^ 2 + linear * x + constant) (3 * cubic * x ^ 2 + 2 * quadratic * x + linear)
  ok (x - q)

/-- `MathUtils::ComputerCubicEquationsWithOneVariable`, Mathematics/Utils/MathUtils.cpp:124-135. The loop has no bound of its own; it gets `fuel` rounds here. -/
def cubicEquation (fuel : ℕ) (cubic quadratic linear constant : K) : Res K := do
  let initial : K := 1 / 1000
  let result ← cubicStep cubic quadratic linear constant initial
  let (_, result) ← whileF (fun st : K × K => ok (isGreaterThan |st.2 - st.1| doubleEps)) (fun st => do
    let r ← cubicStep cubic quadratic linear constant st.2
    ok (st.2, r)) fuel (initial, result)
  ok result
end

noncomputable section

/-- The case of neighbouring points in `NurbsCurve::FitWithCubic`, Geometry/Curve/NurbsCurve.cpp:3020-3047. -/
def fitCubicPair (throughPoints : List (XYZ ℝ)) (startPointIndex endPointIndex : ℤ) (startPoint endPoint startTangent endTangent : XYZ ℝ) : Res (List (XYZW ℝ)) := do
  let tangents ← computeTangent throughPoints
  let Dks ← (if startPointIndex = 0 then vget tangents startPointIndex
    else do
      let p ← vget throughPoints (startPointIndex - 1)
      let q ← fdiv (endPoint.distance startPoint) (startPoint.distance p)
      ok (q • startTangent) : Res (XYZ ℝ))
  let Dke ← (if endPointIndex = (throughPoints.length : ℤ) - 1 then vget tangents endPointIndex
    else do
      let p ← vget throughPoints (endPointIndex + 1)
      let q ← fdiv (p.distance endPoint) (endPoint.distance startPoint)
      ok (q • endTangent) : Res (XYZ ℝ))
  let alpha := Dks.length / 3
  let beta := -Dke.length / 3
  ok [XYZW.ofXYZ (startPoint + alpha • startTangent) 1, XYZW.ofXYZ (endPoint + beta • endTangent) 1]

/-- The test whether the points are on a line in `NurbsCurve::FitWithCubic`, Geometry/Curve/NurbsCurve.cpp:3048-3067. State: (`isLine`, `tempStandard`); after the `break` nothing
changes. -/
def fitCubicLine (throughPoints : List (XYZ ℝ)) (startPointIndex dk : ℤ) (startPoint : XYZ ℝ) : Res (Bool × XYZ ℝ) :=
  forI startPointIndex (dk + 1) (true, 0) fun i st =>
    if st.1 then do
      let tp ← vget throughPoints i
      let direction := (tp - startPoint).normalize
      if st.2.isZero then ok (true, direction)
      else if !st.2.almostEq direction then ok (false, st.2)
      else ok st
    else ok st

/-- The arrays of `NurbsCurve::FitWithCubic`. -/
structure CubicArrays where
  uh : List ℝ
  alphak : List ℝ
  betak : List ℝ

/-- The case of a point in the plane in the loop of `NurbsCurve::FitWithCubic`, Geometry/Curve/NurbsCurve.cpp:3089-3122; `none` for `return false`. -/
def fitCubicOn (throughPoints : List (XYZ ℝ)) (startPoint endPoint startTangent endTangent : XYZ ℝ) (k : ℤ) (st : CubicArrays) : Res (Option CubicArrays) := do
  let t ← vget st.uh k
  let s := 1 - t
  let a1 := (3 * s ^ 2 * t) • startTangent
  let b1 := (3 * s * t ^ 2) • endTangent
  let P ← vget throughPoints k
  let c1 := P - (s ^ 3 + 3 * s ^ 2 * t) • startPoint - (t ^ 3 + 3 * s * t ^ 2) • endPoint
  let u0 ← vget st.uh (k - 1)
  let u2 ← vget st.uh (k + 1)
  let alk ← fdiv (t - u0) (u2 - u0)
  let P0 ← vget throughPoints (k - 1)
  let dk ← vdiv (P - P0) (t - u0)
  let P2 ← vget throughPoints (k + 1)
  let dk1 ← vdiv (P2 - P) (u2 - t)
  let Dk := ((1 - alk) • dk + alk • dk1).normalize
  let a2 := (s * (s - 2 * t)) • Dk.cross startTangent
  let b2 := (t * (2 * s - t)) • Dk.cross endTangent
  let c2 := (2 * s * t) • Dk.cross (startPoint - endPoint)
  let ak ← fdiv (c1.dot b2 - c2.dot b1) (a1.dot b2 - a2.dot b1)
  let bk ← fdiv (c1.dot a2 - c2.dot a1) (b1.dot a2 - b2.dot a1)
  if isGreaterThan ak 0 ∧ isLessThan bk 0 then do
    let alphak ← vset st.alphak k ak
    let betak ← vset st.betak k bk
    ok (some { st with alphak := alphak, betak := betak })
  else ok none

/-- The case of a point out of the plane in the loop of `NurbsCurve::FitWithCubic`, Geometry/Curve/NurbsCurve.cpp:3123-3151; `none` for `return false`. -/
def fitCubicOff (fuel : ℕ) (throughPoints : List (XYZ ℝ)) (startPointIndex : ℤ) (normalPi startPoint endPoint startTangent : XYZ ℝ) (k : ℤ) (st : CubicArrays) : Res (Option CubicArrays) := do
  let P ← vget throughPoints (k + startPointIndex)
  let (type0, Pd) ← computeLineAndPlane normalPi startPoint P startTangent 0
  if type0 ≠ .intersecting then ok (some st)
  else do
    let (type1, _, _, Pc) ← computeRays startPoint (endPoint - startPoint) Pd startTangent (0, 0, 0)
    if type1 ≠ .intersecting then ok (some st)
    else do
      let gamma ← fdiv (Pc.distance endPoint) (startPoint.distance endPoint)
      if isLessThan gamma 0 ∨ isGreaterThan gamma 1 then ok none
      else do
        let u ← cubicEquation fuel 2 (-3) 0 (1 - gamma)
        let uh ← vset st.uh k u
        if isLessThan u 0 ∨ isGreaterThan u 1 then ok none
        else do
          let a := Pc.distance Pd
          let b := -(Pd.distance P)
          let b13 ← bernstein 1 3 u
          let b23 ← bernstein 2 3 u
          let x ← fdiv a b13
          let alphak ← vset st.alphak k x
          let y ← fdiv b b23
          let betak ← vset st.betak k y
          ok (some ⟨uh, alphak, betak⟩)

/-- The loop over the inner points in `NurbsCurve::FitWithCubic`, Geometry/Curve/NurbsCurve.cpp:3082-3152. -/
def fitCubicRounds (fuel : ℕ) (throughPoints : List (XYZ ℝ)) (startPointIndex dk : ℤ) (startPoint endPoint startTangent endTangent : XYZ ℝ) (st : CubicArrays) : Res (Option CubicArrays) :=
  forI 1 dk (some st) fun k st =>
    match st with
    | none => ok none
    | some st => do
      let normalPi := (endPoint - startPoint).normalize.cross startTangent
      let P ← vget throughPoints (k + startPointIndex)
      let (type, _) ← computeLineAndPlane normalPi startPoint P endTangent 0
      if type = .on then fitCubicOn throughPoints startPoint endPoint startTangent endTangent k st
      else fitCubicOff fuel throughPoints startPointIndex normalPi startPoint endPoint startTangent k st

/-- The end of `NurbsCurve::FitWithCubic`, Geometry/Curve/NurbsCurve.cpp:3153-3190: the means, the two control points and the test of the error; the control points stay in the
output when the test fails. -/
def fitCubicEnd (throughPoints : List (XYZ ℝ)) (startPointIndex endPointIndex dk : ℤ) (startPoint endPoint startTangent endTangent : XYZ ℝ) (maxError : ℝ) (st : CubicArrays) :
    Res (Bool × List (XYZW ℝ)) := do
  let (alpha, beta) ← forI 1 dk ((0, 0) : ℝ × ℝ) fun k p => do
    let a ← vget st.alphak k
    let b ← vget st.betak k
    ok (p.1 + a, p.2 + b)
  let alpha ← fdiv alpha ((dk - 1 : ℤ) : ℝ)
  let beta ← fdiv beta ((dk - 1 : ℤ) : ℝ)
  let S ← vget throughPoints startPointIndex
  let E ← vget throughPoints endPointIndex
  let P1 := S + alpha • startTangent
  let P2 := E + beta • endTangent
  let good ← forI 1 dk true fun k good =>
    if good then do
      let u ← vget st.uh k
      let a ← vget st.alphak k
      let b ← vget st.betak k
      let b13 ← bernstein 1 3 u
      let b23 ← bernstein 2 3 u
      let e := (((a - alpha) * b13) • startTangent).distance (((b - beta) * b23) • endTangent)
      if isLessThanOrEqual e maxError then ok true
      else do
        let p ← BezierCurve.pointByBernstein ⟨3, [startPoint, P1, P2, endPoint]⟩ u
        let P ← vget throughPoints (startPointIndex + k)
        ok (!isGreaterThan (P.distance p) maxError)
    else ok false
  ok (good, [XYZW.ofXYZ P1 1, XYZW.ofXYZ P2 1])

/-- `NurbsCurve::FitWithCubic`, Geometry/Curve/NurbsCurve.cpp:3006-3190; the result and the control points that are appended. `newThroughPoints` starts with as many zero points as
there are points, and the points are appended behind them. -/
def fitWithCubic (fuel : ℕ) (throughPoints : List (XYZ ℝ)) (startPointIndex endPointIndex : ℤ) (startTangent endTangent : XYZ ℝ) (maxError : ℝ) : Res (Bool × List (XYZW ℝ)) := do
  validate (decide (throughPoints.length ≥ 3))
  validateBetween startPointIndex 0 (throughPoints.length - 1)
  validateBetween endPointIndex (startPointIndex + 1) (throughPoints.length - 1)
  validate (!startTangent.isZero)
  validate (!endTangent.isZero)
  let startPoint ← vget throughPoints startPointIndex
  let endPoint ← vget throughPoints endPointIndex
  if endPointIndex - startPointIndex = 1 then do
    let cps ← fitCubicPair throughPoints startPointIndex endPointIndex startPoint endPoint startTangent endTangent
    ok (true, cps)
  else do
    let dk := endPointIndex - startPointIndex
    let (isLine, _) ← fitCubicLine throughPoints startPointIndex dk startPoint
    if isLine then
      ok (true, [XYZW.ofXYZ ((3 : ℝ)⁻¹ • ((2 : ℝ) • startPoint + endPoint)) 1, XYZW.ofXYZ ((3 : ℝ)⁻¹ • (startPoint + (2 : ℝ) • endPoint)) 1])
    else do
      let newThroughPoints ← forI startPointIndex (endPointIndex + 1) (List.replicate (endPointIndex - startPointIndex + 1).toNat (0 : XYZ ℝ)) fun i l => do
        let p ← vget throughPoints i
        ok (l ++ [p])
      let uh ← getChordParameterization newThroughPoints
      let r ← fitCubicRounds fuel throughPoints startPointIndex dk startPoint endPoint startTangent endTangent ⟨uh, List.replicate dk.toNat 0, List.replicate dk.toNat 0⟩
      match r with
      | none => ok (false, [])
      | some st => fitCubicEnd throughPoints startPointIndex endPointIndex dk startPoint endPoint startTangent endTangent maxError st

end

end LNLib
