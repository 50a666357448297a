import Verif.Model.GeomReal
import Verif.Model.CurveParam

/-!
# Model of the straightness test and the length of Geometry/Curve/NurbsCurve.cpp

All paths are relative to /repo/src/LNLib.
-/

namespace LNLib
open Res

noncomputable section

/-- The choice of `v0` in `NurbsCurve::IsLinear`, Geometry/Curve/NurbsCurve.cpp:3725-3732: the first of the vectors from the first control point
to the others that is not almost zero; `none` when there is no such vector (`return true`). -/
def linearDirection (p0 p1 : XYZ ℝ) (rest : List (XYZ ℝ)) : Option (XYZ ℝ) :=
  if (p1 - p0).almostEq ⟨0, 0, 0⟩ then (rest.map (· - p0)).find? fun v => !v.almostEq ⟨0, 0, 0⟩ else some (p1 - p0)

/-- `NurbsCurve::IsLinear`, Geometry/Curve/NurbsCurve.cpp:3714-3744. -/
def isLinear (c : NurbsCurve ℝ) : Bool :=
  match c.cps.map XYZW.toXYZ with
  | [] => false
  | [_] => false
  | [_, _] => true
  | p0 :: p1 :: rest =>
    match linearDirection p0 p1 rest with
    | none => true
    | some v0 => rest.all fun q => !isGreaterThan ((q - p0).cross v0.normalize).length 0

/-- `NurbsCurve::ApproximateLength(curve, type)`, Geometry/Curve/NurbsCurve.cpp:3796-3874. `quadrature` stands for the numeric integration of the
speed of the reparametrised curve (lines 3817-3873, the three cases of the switch), which is not modelled. -/
def approximateLength (quadrature : NurbsCurve ℝ → Res ℝ) (c : NurbsCurve ℝ) : Res ℝ :=
  if isLinear c then do
    let s ← vget c.cps 0
    let e ← vget c.cps ((c.cps.length : ℤ) - 1)
    ok (s.toXYZ.distance e.toXYZ)
  else do
    validate (!(decide (c.degree = 1)))
    let re ← reparametrizeLinear c 0 1
    quadrature re

end
end LNLib
