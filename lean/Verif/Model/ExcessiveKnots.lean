import Verif.Model.RemoveKnot

/-!
# Model of the removal of excessive knots in Geometry/Curve/NurbsCurve.cpp

All paths are relative to /repo/src/LNLib.  As in `removeKnot` the comparison of two points within the tolerance that
belongs to the control points of the current curve is a parameter (`test cps a b`).
-/

namespace LNLib
open Res

section
variable {K : Type} [Field K] [LinearOrder K]
variable {T : Type} [AddCommGroup T] [Module K T]

/-- The inner loop of `NurbsCurve::RemoveExcessiveKnots`, Geometry/Curve/NurbsCurve.cpp:876-890: the first removal
that is accepted (`some`), or `none` when `changed` stays `false`. -/
def excessiveScan (test : List T → T → T → Bool) (c : BsplineCurve K T) : KnotMap K → Res (Option (BsplineCurve K T))
  | [] => ok none
  | e :: m =>
    if e.2 ≤ 1 then excessiveScan test c m
    else removeKnot (test c.cps) c e.1 1 >>= fun o =>
      match o with
      | some c' => ok (some c')
      | none => excessiveScan test c m

/-- The body of the outer loop, Geometry/Curve/NurbsCurve.cpp:874-890; the state is (`result`, `changed`). -/
def excessiveRound (test : List T → T → T → Bool) (st : BsplineCurve K T × Bool) : Res (BsplineCurve K T × Bool) := do
  let m ← getInternalKnotMultiplicityMap st.1.knots
  let o ← excessiveScan test st.1 m
  match o with
  | some c' => ok (c', true)
  | none => ok (st.1, false)

/-- `NurbsCurve::RemoveExcessiveKnots`, Geometry/Curve/NurbsCurve.cpp:868-892, with fuel for the outer loop
(`diverge` when it runs out). -/
def removeExcessiveKnots (test : List T → T → T → Bool) (fuel : ℕ) (c : BsplineCurve K T) : Res (BsplineCurve K T) := do
  let st ← whileF (fun (st : BsplineCurve K T × Bool) => ok st.2) (excessiveRound test) fuel (c, true)
  ok st.1

end

noncomputable section

/-- The library's test, Geometry/Curve/NurbsCurve.cpp:746, 799 and 807. -/
def libraryTest (cps : List (XYZW ℝ)) (a b : XYZW ℝ) : Bool :=
  isLessThanOrEqual (XYZW.distance a b) (curveModifyTolerance cps)

/-- `NurbsCurve::RemoveExcessiveKnots` with the library's tolerance, Geometry/Curve/NurbsCurve.cpp:868-892. -/
def NurbsCurve.removeExcessiveKnots (fuel : ℕ) (c : NurbsCurve ℝ) : Res (NurbsCurve ℝ) :=
  LNLib.removeExcessiveKnots libraryTest fuel c

end

end LNLib
