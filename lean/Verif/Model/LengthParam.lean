import Verif.Model.Linear
import Verif.Model.CurveOps

/-!
# Model of the search for a parameter at a given length in Geometry/Curve/NurbsCurve.cpp

All paths are relative to /repo/src/LNLib.  `len` stands for `NurbsCurve::ApproximateLength(·, type)` (Model/Linear.lean).
-/

namespace LNLib
open Res

noncomputable section

/-- `Constants::DistanceEpsilon`, include/Constants.h:24. -/
def distanceEps : ℝ := 1 / 10000

/-- `GetParamByLength`, Geometry/Curve/NurbsCurve.cpp:67-91.  The recursion has fuel; running out of it is `diverge`. -/
def getParamByLength (len : NurbsCurve ℝ → Res ℝ) (c : NurbsCurve ℝ) (given : ℝ) : ℕ → ℝ → ℝ → Res ℝ
  | 0, _, _ => diverge
  | fuel + 1, s, e => do
    let middle := (s + e) / 2
    let split ← splitAt c middle
    match split with
    | none => ok s
    | some (left, _) => do
      let length ← len left
      if isAlmostEqualTo length given distanceEps then ok middle
      else if isGreaterThan length given distanceEps then getParamByLength len c given fuel s middle
      else if isLessThan length given distanceEps then getParamByLength len c given fuel middle e
      else ok middle

/-- How the loop over the knots in `NurbsCurve::GetParamOnCurve` ends: the function returns a knot, or the loop is left with the value of `end`. -/
inductive KnotScan where
  | found (knot : ℝ)
  | bracket (e : ℝ)

/-- The loop over the knots in `NurbsCurve::GetParamOnCurve`, Geometry/Curve/NurbsCurve.cpp:4098-4115, run over the knots that are left. -/
def knotScan (len : NurbsCurve ℝ → Res ℝ) (c : NurbsCurve ℝ) (given e : ℝ) : List ℝ → Res KnotScan
  | [] => ok (.bracket e)
  | knot :: rest => do
    let split ← splitAt c knot
    match split with
    | none => knotScan len c given e rest
    | some (left, _) => do
      let length ← len left
      if isAlmostEqualTo length given then ok (.found knot)
      else if isGreaterThan length given then ok (.bracket knot)
      else knotScan len c given e rest

/-- `NurbsCurve::GetParamOnCurve(curve, givenLength, type)`, Geometry/Curve/NurbsCurve.cpp:4086-4118. -/
def getParamAtLength (fuel : ℕ) (len : NurbsCurve ℝ → Res ℝ) (c : NurbsCurve ℝ) (given : ℝ) : Res ℝ := do
  let s ← vget c.knots 0
  let e ← vget c.knots ((c.knots.length : ℤ) - 1)
  let total ← len c
  if isLessThan total given distanceEps then ok e
  else do
    let scan ← knotScan len c given e c.knots
    match scan with
    | .found knot => ok knot
    | .bracket e' => getParamByLength len c given fuel s e'

/-- The loop of `NurbsCurve::GetParamsOnCurve`, Geometry/Curve/NurbsCurve.cpp:4127-4139; the state is `result`, `param`.  The loop has fuel. -/
def paramsLoop (fuel : ℕ) (len : NurbsCurve ℝ → Res ℝ) (c : NurbsCurve ℝ) (given e : ℝ) (rounds : ℕ) (st : List ℝ × ℝ) : Res (List ℝ × ℝ) :=
  whileF (fun st => ok (!isAlmostEqualTo st.2 e)) (fun st => do
    let result := st.1 ++ [st.2]
    let split ← splitAt c st.2
    match split with
    | none => ok (result, st.2)
    | some (_, right) => do
      let param ← getParamAtLength fuel len right given
      ok (result, param)) rounds st

/-- `NurbsCurve::GetParamsOnCurve(curve, givenLength, type)`, Geometry/Curve/NurbsCurve.cpp:4120-4140. -/
def getParamsAtLength (fuel rounds : ℕ) (len : NurbsCurve ℝ → Res ℝ) (c : NurbsCurve ℝ) (given : ℝ) : Res (List ℝ) := do
  let e ← vget c.knots ((c.knots.length : ℤ) - 1)
  let param ← getParamAtLength fuel len c given
  let st ← paramsLoop fuel len c given e rounds ([], param)
  ok st.1

end
end LNLib
