import Verif.Model.ConicFit
import Verif.Model.Conic
import Verif.Model.Nearest

/-!
# Model of the fitting of a conic to points between given tangents

`NurbsCurve::FitWithConic` (Geometry/Curve/NurbsCurve.cpp); all paths are relative to /repo/src/LNLib.
-/

namespace LNLib
open Res

noncomputable section

/-- `VALIDATE_ARGUMENT_RANGE(arg, min, max)`, include/LNLibExceptions.h:21-25, for indices (whole numbers differ by more than the tolerance or not at all). -/
def validateBetween (arg lo hi : ℤ) : Res Unit := if arg < lo ∨ hi < arg then outOfRange else ok ()

/-- One round of the loop over the inner points in `NurbsCurve::FitWithConic`, Geometry/Curve/NurbsCurve.cpp:2964-2981; `none` for `return false`. The parameters and the
point that `ComputeRays` leaves alone when it finds parallel lines are not read in that case; they are 0 here. -/
def conicWeightRound (startPoint endPoint R P : XYZ ℝ) (s : ℝ) : Res (Option ℝ) := do
  let V := endPoint - startPoint
  let V1 := P - R
  let (type, alf1, alf2, _) ← computeRays startPoint V R V1 (0, 0, 0)
  if type ≠ .intersecting ∨ isLessThanOrEqual alf1 0 = true ∨ isGreaterThanOrEqual alf1 1 = true ∨ isLessThanOrEqual alf2 0 = true then ok none
  else do
    let one ← createOneConicArc startPoint V R V1 P
    match one with
    | none => ok (some s)
    | some (_, wi) => do
      let q ← fdiv wi (1 + wi)
      ok (some (s + q))

/-- One round of the test of the inner points in `NurbsCurve::FitWithConic`, Geometry/Curve/NurbsCurve.cpp:2989-3003; `false` for `return false`. -/
def conicFitsPoint (c : NurbsCurve ℝ) (tp : XYZ ℝ) (maxError : ℝ) : Res Bool := do
  let param ← getParamOnCurve c tp
  let point ← NurbsCurve.pointOnCurve c param
  ok (!isGreaterThan (tp.distance point) maxError)

/-- `NurbsCurve::FitWithConic`, Geometry/Curve/NurbsCurve.cpp:2928-3004; the control points that are appended, `none` for `false`. -/
def fitWithConic (throughPoints : List (XYZ ℝ)) (startPointIndex endPointIndex : ℤ) (startTangent endTangent : XYZ ℝ) (maxError : ℝ) : Res (Option (List (XYZW ℝ))) := do
  validate (decide (throughPoints.length > 0))
  validateBetween startPointIndex 0 (throughPoints.length - 1)
  validateBetween endPointIndex (startPointIndex + 1) (throughPoints.length - 1)
  validate (!startTangent.isZero)
  validate (!endTangent.isZero)
  let startPoint ← vget throughPoints startPointIndex
  let endPoint ← vget throughPoints endPointIndex
  if endPointIndex - startPointIndex = 1 then middleControlPoints startPoint startTangent endPoint endTangent
  else do
    let (type, alf1, alf2, R) ← computeRays startPoint startTangent endPoint endTangent (0, 0, 0)
    if type = .coincident then ok (some [XYZW.ofXYZ ((1 / 2 : ℝ) • (startPoint + endPoint)) 1])
    else if type = .skew ∨ type = .parallel then ok none
    else if isLessThanOrEqual alf1 0 = true ∨ isGreaterThanOrEqual alf2 0 = true then ok none
    else do
      let s ← forI (startPointIndex + 1) endPointIndex (some 0) fun i st =>
        match st with
        | none => ok none
        | some s => do
          let P ← vget throughPoints i
          conicWeightRound startPoint endPoint R P s
      match s with
      | none => ok none
      | some s => do
        let s ← fdiv s ((endPointIndex - startPointIndex - 1 : ℤ) : ℝ)
        let w ← fdiv s (1 - s)
        let fits ← forI (startPointIndex + 1) endPointIndex true fun k st =>
          if st then do
            let tp ← vget throughPoints k
            conicFitsPoint ⟨2, [0, 0, 0, 1, 1, 1], [XYZW.ofXYZ startPoint 1, XYZW.ofXYZ R w, XYZW.ofXYZ endPoint 1]⟩ tp maxError
          else ok false
        if fits then ok (some [XYZW.ofXYZ R w]) else ok none

end

end LNLib
