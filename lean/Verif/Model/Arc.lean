import Verif.Model.Intersection
import Verif.Model.Curve

/-!
# Model of `NurbsCurve::CreateArc`

Over `ℝ` (square roots and trigonometry).  All paths are relative to /repo/src/LNLib.
-/

namespace LNLib
open Res

noncomputable section

/-- `Constants::Pi`, include/Constants.h:27: the decimal literal (not the real number π). -/
def constPi : ℝ := 3.14159265358979323846

/-- The number of arc segments, Geometry/Curve/NurbsCurve.cpp:1798-1817. -/
def arcCount (theta : ℝ) : ℤ :=
  if isLessThanOrEqual theta (constPi / 2) then 1
  else if isLessThanOrEqual theta constPi then 2
  else if isLessThanOrEqual theta (3 * constPi / 2) then 3
  else 4

/-- The variables of the loop Geometry/Curve/NurbsCurve.cpp:1830-1853. -/
structure ArcState where
  cps : List (XYZW ℝ)
  angle : ℝ
  P0 : XYZ ℝ
  T0 : XYZ ℝ
  index : ℤ

/-- The point of the ellipse, Geometry/Curve/NurbsCurve.cpp:1828 and 1837. -/
def arcPoint (center nX nY : XYZ ℝ) (xRadius yRadius a : ℝ) : XYZ ℝ :=
  center + (xRadius * Real.cos a) • nX + (yRadius * Real.sin a) • nY

/-- The tangent direction, Geometry/Curve/NurbsCurve.cpp:1829 and 1839. -/
def arcTangent (nX nY : XYZ ℝ) (a : ℝ) : XYZ ℝ := (-Real.sin a) • nX + Real.cos a • nY

/-- One pass of the loop Geometry/Curve/NurbsCurve.cpp:1834-1853; `none` is the early `return false`.
`param0`, `param2` and `P1` are only outputs of `ComputeRays`, so the values they start with do not matter. -/
def arcRound (center nX nY : XYZ ℝ) (xRadius yRadius dtheta w1 : ℝ) (narcs i : ℤ) (s : ArcState) : Res (Option ArcState) := do
  let angle := s.angle + dtheta
  let P2 := arcPoint center nX nY xRadius yRadius angle
  let cps ← vset s.cps (s.index + 2) (XYZW.ofXYZ P2 1)
  let T2 := arcTangent nX nY angle
  let r ← computeRays s.P0 s.T0 P2 T2 (0, 0, 0)
  if r.1 = .intersecting then do
    let cps ← vset cps (s.index + 1) (XYZW.ofXYZ r.2.2.2 w1)
    if i < narcs then ok (some ⟨cps, angle, P2, T2, s.index + 2⟩)
    else ok (some ⟨cps, angle, s.P0, s.T0, s.index + 2⟩)
  else ok none

/-- The loop body after a possible early `return false` (`none`), Geometry/Curve/NurbsCurve.cpp:1834-1853. -/
def arcStep (center nX nY : XYZ ℝ) (xRadius yRadius dtheta w1 : ℝ) (narcs i : ℤ) : Option ArcState → Res (Option ArcState)
  | none => ok none
  | some s => arcRound center nX nY xRadius yRadius dtheta w1 narcs i s

/-- The interior knots, Geometry/Curve/NurbsCurve.cpp:1863-1879. -/
def arcKnots (narcs : ℤ) (knots : List ℝ) : Res (List ℝ) :=
  if narcs = 2 then do
    let k ← vset knots 4 (0.5 : ℝ)
    vset k 3 (0.5 : ℝ)
  else if narcs = 3 then do
    let k ← vset knots 4 (1 / 3 : ℝ)
    let k ← vset k 3 (1 / 3 : ℝ)
    let k ← vset k 6 (2 / 3 : ℝ)
    vset k 5 (2 / 3 : ℝ)
  else if narcs = 4 then do
    let k ← vset knots 4 (0.25 : ℝ)
    let k ← vset k 3 (0.25 : ℝ)
    let k ← vset k 6 (0.5 : ℝ)
    let k ← vset k 5 (0.5 : ℝ)
    let k ← vset k 8 (0.75 : ℝ)
    vset k 7 (0.75 : ℝ)
  else ok knots

/-- `NurbsCurve::CreateArc`, Geometry/Curve/NurbsCurve.cpp:1788-1881.  `none` is `return false`, which leaves
the output curve as it was. -/
def createArc (center xAxis yAxis : XYZ ℝ) (startRad endRad xRadius yRadius : ℝ) : Res (Option (NurbsCurve ℝ)) := do
  validate (!xAxis.isZero)
  validate (!yAxis.isZero)
  validate (isGreaterThan endRad startRad)
  let theta := endRad - startRad
  validateRange theta 0 (2 * constPi)
  validate (isGreaterThan xRadius 0)
  validate (isGreaterThan yRadius 0)
  let narcs := arcCount theta
  let dtheta ← fdiv theta (narcs : ℝ)
  let n := 2 * narcs
  let w1 := Real.cos (dtheta / 2)
  let nX := xAxis.normalize
  let nY := yAxis.normalize
  let P0 := arcPoint center nX nY xRadius yRadius startRad
  let T0 := arcTangent nX nY startRad
  let cps ← vset (List.replicate (n + 1).toNat (0 : XYZW ℝ)) 0 (XYZW.ofXYZ P0 1)
  let r ← forI 1 (narcs + 1) (some (⟨cps, startRad, P0, T0, 0⟩ : ArcState)) fun i st =>
    arcStep center nX nY xRadius yRadius dtheta w1 narcs i st
  match r with
  | none => ok none
  | some s => do
    let j := 2 * narcs + 1
    let knots ← forI 0 3 (List.replicate (n + 2 + 1 + 1).toNat (0 : ℝ)) fun i k => do
      let k ← vset k i (0 : ℝ)
      vset k (i + j) (1 : ℝ)
    let knots ← arcKnots narcs knots
    ok (some { degree := 2, knots := knots, cps := s.cps })

end

end LNLib
