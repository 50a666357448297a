import Verif.Model.BasisDers
import Verif.Model.Intersection
import Verif.Model.Query

/-!
# Model of `NurbsCurve::ProjectNormal`, Geometry/Curve/NurbsCurve.cpp

All paths are relative to /repo/src/LNLib.  The random angles that `XYZ::CreateRandomOrthogonal` draws are a parameter: `angle k` is
the angle of the `k`-th call.
-/

namespace LNLib
open Res

noncomputable section

/-- The unit tangent at a knot, Geometry/Curve/NurbsCurve.cpp:372, 382 and 409. -/
def tangentAt (c : NurbsCurve ℝ) (i : ℤ) : Res (XYZ ℝ) := do
  let t ← vget c.knots i
  let d ← NurbsCurve.rationalDerivatives c 1 t
  let x ← vget d 1
  ok x.normalize

/-- One round of the `for` loop, Geometry/Curve/NurbsCurve.cpp:380-392. State: (`Blist`, `needReCal`); a set flag stands for the
`break`. -/
def projectStep (c : NurbsCurve ℝ) (i : ℤ) (st : List (XYZ ℝ) × Bool) : Res (List (XYZ ℝ) × Bool) :=
  if st.2 then ok st
  else do
    let t ← tangentAt c i
    let b ← vget st.1 (i - 1)
    if (t.cross b).isZero then ok (st.1, true)
    else do
      let l ← vset st.1 i (b - (b.dot t) • t).normalize
      ok (l, false)

/-- One round of the `while` loop, Geometry/Curve/NurbsCurve.cpp:375-397. State: (`Blist`, `flag`, number of rounds so far). -/
def projectTry (angle : ℕ → ℝ) (c : NurbsCurve ℝ) (t0 : XYZ ℝ) (m : ℤ) (st : List (XYZ ℝ) × Bool × ℕ) : Res (List (XYZ ℝ) × Bool × ℕ) := do
  let l ← vset st.1 0 (createRandomOrthogonal t0 (angle st.2.2))
  let r ← forI 1 (m + 1) (l, false) (projectStep c)
  ok (r.1, if r.2 then st.2.1 else false, st.2.2 + 1)

/-- The part for closed curves, Geometry/Curve/NurbsCurve.cpp:402-418. -/
def projectClosed (c : NurbsCurve ℝ) (m : ℤ) (l : List (XYZ ℝ)) : Res (List (XYZ ℝ)) := do
  let b0 ← vget l 0
  let l ← vset l m b0
  let aver ← vset (List.replicate m.toNat (0 : XYZ ℝ)) m b0
  let aver ← forDown (m - 1) 1 aver fun i aver => do
    let t ← tangentAt c (i + 1)
    let b ← vget aver (i + 1)
    vset aver i (b + t).normalize
  forI 1 m l fun i l => do
    let x ← vget l i
    let y ← vget aver i
    vset l i ((1 / 2 : ℝ) • (x + y))

/-- `NurbsCurve::ProjectNormal`, Geometry/Curve/NurbsCurve.cpp:362-420. `fuel` bounds the rounds of the `while` loop; a longer run is
`diverge`. -/
def projectNormal (fuel : ℕ) (angle : ℕ → ℝ) (c : NurbsCurve ℝ) : Res (List (XYZ ℝ)) := do
  let m : ℤ := (c.knots.length : ℤ) - 1
  let _ ← vget c.knots 0
  let _ ← vget c.knots m
  let t0 ← tangentAt c 0
  let st ← whileF (fun st => ok st.2.1) (projectTry angle c t0 m) fuel (List.replicate c.knots.length 0, true, 0)
  let closed ← isClosedCurve c
  if closed then projectClosed c m st.1 else ok st.1

end

end LNLib
