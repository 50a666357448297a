import Verif.Model.CurveOps
import Verif.Model.CurveEdit
import Verif.Model.KnotVector

/-!
# Model of knot removal in Geometry/Curve/NurbsCurve.cpp

All paths are relative to /repo/src/LNLib.  The pass over the control points is generic in the field
and the points; the comparison `MathUtils::IsLessThanOrEqual(a.Distance(b), tol)` is the parameter
`close`, which `NurbsCurve.removeKnot` instantiates with the library's distance and tolerance.
-/

namespace LNLib
open Res

section
variable {K : Type} [Field K] [LinearOrder K]
variable {T : Type} [AddCommGroup T] [Module K T]

/-- State of the two-sided sweep of `RemoveKnot`, Geometry/Curve/NurbsCurve.cpp:775-779. -/
structure SweepState (T : Type) where
  i : ℤ
  j : ℤ
  ii : ℤ
  jj : ℤ
  temp : List T

/-- One round of the sweep, Geometry/Curve/NurbsCurve.cpp:784-794. -/
def removeSweepRound (U : List K) (P : List T) (degree : ℤ) (u : K) (t : ℤ) (st : SweepState T) :
    Res (SweepState T) := do
  let ui ← vget U st.i
  let uio ← vget U (st.i + (degree + 1) + t)
  let alphai ← fdiv (u - ui) (uio - ui)
  let uj ← vget U (st.j - t)
  let ujo ← vget U (st.j + (degree + 1))
  let alphaj ← fdiv (u - uj) (ujo - uj)
  let pi ← vget P st.i
  let tl ← vget st.temp (st.ii - 1)
  let x ← vdiv (pi - (1 - alphai) • tl) alphai
  let temp ← vset st.temp st.ii x
  let pj ← vget P st.j
  let tr ← vget temp (st.jj + 1)
  let y ← vdiv (pj - alphaj • tr) (1 - alphaj)
  let temp ← vset temp st.jj y
  ok ⟨st.i + 1, st.j - 1, st.ii + 1, st.jj - 1, temp⟩

/-- The sweep with its initialisation, Geometry/Curve/NurbsCurve.cpp:773-795. -/
def removeSweep (U : List K) (P : List T) (degree : ℤ) (u : K) (t first last : ℤ) (temp : List T) :
    Res (SweepState T) := do
  let off := first - 1
  let x ← vget P off
  let temp ← vset temp 0 x
  let y ← vget P (last + 1)
  let temp ← vset temp (last + 1 - off) y
  whileF (fun (st : SweepState T) => ok (decide (st.j - st.i ≥ t))) (removeSweepRound U P degree u t)
    (last - first + 1).toNat ⟨first, last, 1, last - off, temp⟩

/-- The test whether the knot can be removed, Geometry/Curve/NurbsCurve.cpp:797-811. -/
def removeTest (close : T → T → Bool) (U : List K) (P : List T) (degree : ℤ) (u : K) (t : ℤ) (st : SweepState T) :
    Res Bool :=
  if st.j - st.i < t then do
    let a ← vget st.temp (st.ii - 1)
    let b ← vget st.temp (st.jj + 1)
    ok (close a b)
  else do
    let ui ← vget U st.i
    let uio ← vget U (st.i + (degree + 1) + t)
    let alphai ← fdiv (u - ui) (uio - ui)
    let p ← vget P st.i
    let a ← vget st.temp (st.ii + t + 1)
    let b ← vget st.temp (st.ii - 1)
    ok (close p (alphai • a + (1 - alphai) • b))

/-- The new control points of a successful pass, Geometry/Curve/NurbsCurve.cpp:818-827.  State:
(`i`, `j`, `updatedControlPoints`). -/
def removeSave (temp : List T) (t first last : ℤ) (Q : List T) : Res (List T) := do
  let off := first - 1
  let (_, _, Q) ← whileF (fun (st : ℤ × ℤ × List T) => ok (decide (st.2.1 - st.1 > t)))
    (fun (st : ℤ × ℤ × List T) => do
      let a ← vget temp (st.1 - off)
      let Q ← vset st.2.2 st.1 a
      let b ← vget temp (st.2.1 - off)
      let Q ← vset Q st.2.1 b
      ok (st.1 + 1, st.2.1 - 1, Q)) (last - first).toNat (first, last, Q)
  ok Q

/-- State of the loop over the removals: `t`, `first`, `last`, `temp`, `updatedControlPoints`, and
whether the loop has been left by `break`. -/
structure RemoveState (T : Type) where
  t : ℤ
  first : ℤ
  last : ℤ
  temp : List T
  Q : List T
  stop : Bool

/-- One removal, Geometry/Curve/NurbsCurve.cpp:771-831. -/
def removeRound (close : T → T → Bool) (U : List K) (P : List T) (degree : ℤ) (u : K) (st : RemoveState T) :
    Res (RemoveState T) := do
  let sw ← removeSweep U P degree u st.t st.first st.last st.temp
  let remflag ← removeTest close U P degree u st.t sw
  if !remflag then ok { st with temp := sw.temp, stop := true }
  else do
    let Q ← removeSave sw.temp st.t st.first st.last st.Q
    ok ⟨st.t + 1, st.first - 1, st.last + 1, sw.temp, Q, false⟩

/-- The remaining knots, Geometry/Curve/NurbsCurve.cpp:756-765. -/
def removeKnots (U : List K) (r m times : ℤ) : Res (List K) := do
  let V ← forI (r + 1) (m + 1) U fun k V => do
    let x ← vget V k
    vset V (k - times) x
  if times ≤ V.length then ok (V.take (V.length - times.toNat)) else ub

/-- The compacted control points, Geometry/Curve/NurbsCurve.cpp:838-861.  `/ 2` is an `int` division. -/
def removeCompact (P Q : List T) (degree s r n t : ℤ) : Res (List T) := do
  let j := (2 * r - s - degree).tdiv 2
  let (i, j) ← forI 1 t (j, j) fun k (st : ℤ × ℤ) =>
    ok (if k % 2 = 1 then (st.1 + 1, st.2) else (st.1, st.2 - 1))
  let (Q, _) ← forI (i + 1) (n + 1) (Q, j) fun k (st : List T × ℤ) => do
    let x ← vget P k
    let Q ← vset st.1 st.2 x
    ok (Q, st.2 + 1)
  if t ≤ Q.length then ok (Q.take (Q.length - t.toNat)) else ub

/-- `NurbsCurve::RemoveKnot`, Geometry/Curve/NurbsCurve.cpp:737-866; `none` is the answer `false`. -/
def removeKnot (close : T → T → Bool) (c : BsplineCurve K T) (u : K) (times : ℤ) :
    Res (Option (BsplineCurve K T)) := do
  let degree := c.degree
  let U := c.knots
  let P := c.cps
  let lo ← vget U 0
  let hi ← vget U ((U.length : ℤ) - 1)
  validateRange u lo hi
  validate (decide (times > 0))
  let n := (P.length : ℤ) - 1
  let s ← getKnotMultiplicity U u
  let r ← getKnotSpanIndex degree U u
  let V ← removeKnots U r (n + degree + 1) times
  if 2 * degree + 1 < 0 then ub
  else do
    let st ← whileF (fun (st : RemoveState T) => ok (decide (st.t < times) && !st.stop)) (removeRound close U P degree u)
      times.toNat ⟨0, r - degree, r - s, List.replicate (2 * degree + 1).toNat 0, P, false⟩
    if st.t = 0 then ok none
    else do
      let Q ← removeCompact P st.Q degree s r n st.t
      ok (some { degree := degree, knots := V, cps := Q })

end

noncomputable section

/-- `NurbsCurve::RemoveKnot`, Geometry/Curve/NurbsCurve.cpp:737-866, with its tolerance test
(lines 746, 799 and 807). -/
def NurbsCurve.removeKnot (c : NurbsCurve ℝ) (u : ℝ) (times : ℤ) : Res (Option (NurbsCurve ℝ)) :=
  LNLib.removeKnot (fun a b => isLessThanOrEqual (XYZW.distance a b) (curveModifyTolerance c.cps)) c u times

end

end LNLib
