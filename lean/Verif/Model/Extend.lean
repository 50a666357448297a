import Verif.Model.Periodic
import Verif.Model.CurveEdit
import Verif.Model.DiffGeom
import Verif.Model.Arc
import Mathlib.Analysis.SpecialFunctions.Complex.Arg
import Verif.Model.BezierPieces

/-!
# Model of the extension of a curve in Geometry/Curve/NurbsCurve.cpp

All paths are relative to /repo/src/LNLib.
-/

namespace LNLib
open Res

noncomputable section

/-- `ExtensionType`, include/LNEnums.h:75-94. -/
inductive ExtensionType | tangent | arc | natural
  deriving DecidableEq

/-- The coefficients of the Taylor polynomial, Geometry/Curve/NurbsCurve.cpp:3943-3950. -/
def taylorCoeffs (derivatives : List (XYZ ℝ)) (taylorOrder : ℤ) : Res (List (XYZ ℝ)) := do
  let r ← forI 0 (taylorOrder + 1) (([] : List (XYZ ℝ)), (1 : ℝ)) fun i st => do
    let factorial := if i > 0 then st.2 * (i : ℝ) else st.2
    let d ← vget derivatives i
    let c ← vdiv d factorial
    ok (st.1 ++ [c], factorial)
  ok r.1

/-- `evaluateFirstDerivative`, Geometry/Curve/NurbsCurve.cpp:3952-3959. -/
def taylorVelocity (coeffs : List (XYZ ℝ)) (taylorOrder : ℤ) (t : ℝ) : Res (XYZ ℝ) := do
  let top ← vget coeffs taylorOrder
  forDown (taylorOrder - 1) 1 ((taylorOrder : ℝ) • top) fun k v => do
    let c ← vget coeffs k
    ok (t • v + (k : ℝ) • c)

/-- One round of the Newton iteration for the parameter length, Geometry/Curve/NurbsCurve.cpp:3963-3999; `true` = `break`. -/
def extendNewton (coeffs : List (XYZ ℝ)) (taylorOrder : ℤ) (delta currentDeltaT : ℝ) : Res (ℝ × Bool) := do
  let absLen := |currentDeltaT| * 0.5
  let mid := currentDeltaT * 0.5
  let v1 ← taylorVelocity coeffs taylorOrder (mid - absLen * 0.7745966692414834)
  let v2 ← taylorVelocity coeffs taylorOrder mid
  let v3 ← taylorVelocity coeffs taylorOrder (mid + absLen * 0.7745966692414834)
  let currentLen := absLen * (0.5555555555555556 * v1.length + 0.8888888888888889 * v2.length + 0.5555555555555556 * v3.length)
  let velocity ← taylorVelocity coeffs taylorOrder currentDeltaT
  let speed := velocity.length
  if isAlmostEqualTo speed 0 then ok (currentDeltaT, true)
  else do
    let error := currentLen - delta
    if isAlmostEqualTo |error| 0 then ok (currentDeltaT, true)
    else do
      let step ← fdiv (-error) (speed * (if currentDeltaT > 0 then 1 else -1))
      let maxStep := |currentDeltaT| * 0.5
      let maxStep := if isAlmostEqualTo maxStep 0 then |delta| * 0.1 else maxStep
      let step := if |step| > maxStep then (if step > 0 then 1 else -1) * maxStep else step
      ok (currentDeltaT + step, false)

/-- The parameter length `L` of the natural extension, Geometry/Curve/NurbsCurve.cpp:3961-4001. -/
def extendParam (coeffs : List (XYZ ℝ)) (taylorOrder : ℤ) (delta directionSign : ℝ) : Res ℝ := do
  let r ← forI 0 50 (delta * directionSign, false) fun _ st =>
    if st.2 then ok st else extendNewton coeffs taylorOrder delta st.1
  ok |r.1|

/-- The control points of the natural extension, Geometry/Curve/NurbsCurve.cpp:4013-4027 (and 4051-4066); `S` is the signed
parameter length. -/
def extendPoints (coeffs : List (XYZ ℝ)) (degree : ℤ) (S w : ℝ) : Res (List (XYZW ℝ)) :=
  forI 0 (degree + 1) ([] : List (XYZW ℝ)) fun i cps => do
    let start ← vget coeffs 0
    let pt ← forI 1 (i + 1) start fun k pt => do
      let a ← binomial i k
      let b ← binomial degree k
      let scale ← fdiv a b
      let c ← vget coeffs k
      ok (pt + (S ^ k.toNat * scale) • c)
    ok (cps ++ [XYZW.ofXYZ pt w])

/-- The natural extension at the end of the curve, Geometry/Curve/NurbsCurve.cpp:4003-4039. -/
def extendEnd (c : NurbsCurve ℝ) (coeffs : List (XYZ ℝ)) (paramT L : ℝ) : Res (NurbsCurve ℝ) := do
  let lastCP ← vget c.cps ((c.cps.length : ℤ) - 1)
  let newCPs ← extendPoints coeffs c.degree L lastCP.w
  let cps ← forI 1 (c.degree + 1) c.cps fun i cps => do
    let q ← vget newCPs i
    ok (cps ++ [q])
  let knots := if (c.knots.length : ℤ) > c.degree then c.knots.dropLast else c.knots
  ok { degree := c.degree, knots := knots ++ List.replicate (c.degree + 1).toNat (paramT + L), cps := cps }

/-- The natural extension at the start of the curve, Geometry/Curve/NurbsCurve.cpp:4040-4078. -/
def extendStart (c : NurbsCurve ℝ) (coeffs : List (XYZ ℝ)) (paramT L : ℝ) : Res (NurbsCurve ℝ) := do
  let firstCP ← vget c.cps 0
  let newCPs ← extendPoints coeffs c.degree (-L) firstCP.w
  let cps ← forI 1 (c.degree + 1) c.cps fun i cps => do
    let q ← vget newCPs i
    ok (q :: cps)
  let knots := if (c.knots.length : ℤ) > c.degree then c.knots.tail else c.knots
  ok { degree := c.degree, knots := List.replicate (c.degree + 1).toNat (paramT - L) ++ knots, cps := cps }

/-- The two ways the extension is joined, e.g. Geometry/Curve/NurbsCurve.cpp:3906-3907; when `Merge` answers `false` the result stays the curve. -/
def extendMerge (c extend : NurbsCurve ℝ) (isFromStart : Bool) : Res (NurbsCurve ℝ) := do
  let r ← mergeCurves elevateDegree (if isFromStart then extend else c) (if isFromStart then c else extend)
  match r with
  | none => ok c
  | some m => ok m

/-- The parameter at which the curve is extended, Geometry/Curve/NurbsCurve.cpp:3895. -/
def extendAt (c : NurbsCurve ℝ) (isFromStart : Bool) : Res ℝ :=
  if isFromStart then vget c.knots 0 else vget c.knots ((c.knots.length : ℤ) - 1)

/-- The line of the tangent extension, Geometry/Curve/NurbsCurve.cpp:3906. -/
def tangentLine (point tangent : XYZ ℝ) (delta : ℝ) (isFromStart : Bool) : Res (NurbsCurve ℝ) :=
  if isFromStart then createLine (point - delta • tangent.normalize) point else createLine point (point + delta • tangent.normalize)

/-- The arc of the arc extension, Geometry/Curve/NurbsCurve.cpp:3915-3935. When `CreateArc` answers `false` the extension stays an
empty curve. `atan2(y, x)` is the argument of `x + iy`. -/
def osculatingArc (point tangent normal : XYZ ℝ) (curvature delta : ℝ) (isFromStart : Bool) : Res (NurbsCurve ℝ) := do
  let radius ← fdiv 1 curvature
  let theta ← fdiv delta radius
  let center := point + radius • normal
  let xAxis := tangent.normalize
  let yAxis := normal.normalize
  let vecToPoint := (point - center).normalize
  let rad := Complex.arg ⟨vecToPoint.dot xAxis, vecToPoint.dot yAxis⟩
  let startRad := if isFromStart then rad - theta else rad
  let endRad := if isFromStart then rad else rad + theta
  let arc ← createArc center xAxis yAxis startRad endRad radius radius
  match arc with
  | none => ok { degree := 0, knots := [], cps := [] }
  | some a => ok a

/-- The natural extension, Geometry/Curve/NurbsCurve.cpp:3939-4080. -/
def naturalExtend (c : NurbsCurve ℝ) (delta : ℝ) (isFromStart : Bool) (paramT : ℝ) : Res (NurbsCurve ℝ) := do
  let derivatives ← NurbsCurve.rationalDerivatives c c.degree paramT
  let coeffs ← taylorCoeffs derivatives c.degree
  let L ← extendParam coeffs c.degree delta (if isFromStart then -1 else 1)
  if isFromStart then extendStart c coeffs paramT L else extendEnd c coeffs paramT L

/-- `NurbsCurve::Extend`, Geometry/Curve/NurbsCurve.cpp:3884-4084. In the arc branch the curvature is tested before the normal is
computed (the code computes a normal that may not be a number, and does not use it when the curvature vanishes). -/
def extendCurve (c : NurbsCurve ℝ) (delta : ℝ) (isFromStart : Bool) (type : ExtensionType) : Res (NurbsCurve ℝ) := do
  if isLessThanOrEqual delta 0 then ok c
  else do
    let periodic ← isPeriodic c
    if periodic then ok c
    else do
      let paramT ← extendAt c isFromStart
      let ders ← NurbsCurve.rationalDerivatives c 1 paramT
      let point ← vget ders 0
      let tangent ← vget ders 1
      match type with
      | .tangent => do
        let extend ← tangentLine point tangent delta isFromStart
        extendMerge c extend isFromStart
      | .arc => do
        let curvature ← NurbsCurve.curvature c paramT
        if isAlmostEqualTo curvature 0 then ok c
        else do
          let normal ← NurbsCurve.normal c .normal paramT
          let extend ← osculatingArc point tangent normal curvature delta isFromStart
          extendMerge c extend isFromStart
      | .natural => naturalExtend c delta isFromStart paramT

end

end LNLib
