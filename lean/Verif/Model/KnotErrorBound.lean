import Verif.Model.RemoveKnot
import Verif.Model.Reshape

/-!
# Model of `NurbsCurve::ComputerRemoveKnotErrorBound`

All paths are relative to /repo/src/LNLib.
-/

namespace LNLib
open Res

section
variable {K : Type} [Field K] [LinearOrder K]
variable {T : Type} [AddCommGroup T] [Module K T]

/-- The two points whose distance `ComputerRemoveKnotErrorBound` returns, Geometry/Curve/NurbsCurve.cpp:2644-2683.  The body of its loop (2666-2676) is that
of the sweep of `RemoveKnot` for `t = 0`. -/
def removeBoundPair (c : BsplineCurve K T) (removalIndex : ℤ) : Res (T × T) := do
  let degree := c.degree
  let U := c.knots
  let P := c.cps
  validateIndex removalIndex U.length
  let u ← vget U removalIndex
  let s ← getKnotMultiplicity U u
  let last := removalIndex - s
  let first := removalIndex - degree
  let off := first - 1
  let x ← vget P off
  let temp ← vset (List.replicate U.length (0 : T)) 0 x
  let y ← vget P (last + 1)
  let temp ← vset temp (last + 1 - off) y
  let st ← whileF (fun (st : SweepState T) => ok (decide (st.j - st.i > 0))) (removeSweepRound U P degree u 0)
    (last - first + 1).toNat ⟨first, last, 1, last - off, temp⟩
  if st.j - st.i < 0 then do
    let a ← vget st.temp (st.ii - 1)
    let b ← vget st.temp (st.jj + 1)
    ok (a, b)
  else do
    let ui ← vget U st.i
    let uio ← vget U (st.i + (degree + 1))
    let alfi ← fdiv (u - ui) (uio - ui)
    let p ← vget P st.i
    let a ← vget st.temp (st.ii + 1)
    let b ← vget st.temp (st.ii - 1)
    ok (p, alfi • a + (1 - alfi) • b)

end

noncomputable section

/-- `NurbsCurve::ComputerRemoveKnotErrorBound`, Geometry/Curve/NurbsCurve.cpp:2638-2684. -/
def removeKnotErrorBound (c : NurbsCurve ℝ) (removalIndex : ℤ) : Res ℝ := do
  let (a, b) ← removeBoundPair c removalIndex
  ok (XYZW.distance a b)

end

end LNLib
