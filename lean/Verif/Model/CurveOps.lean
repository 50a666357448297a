import Verif.Model.Curve
import Mathlib.Data.List.Sort

/-!
# Model of the curve operations in Geometry/Curve/NurbsCurve.cpp

All paths are relative to /repo/src/LNLib.  The C++ functions are written for `XYZW` points; the
model is generic in the vector space of points, which covers the weighted points.
-/

namespace LNLib
open Res

section
variable {K : Type} [Field K] [LinearOrder K]
variable {T : Type} [AddCommGroup T] [Module K T]

/-- `std::sort` on a `std::vector<double>`. -/
def sortKnots (l : List K) : List K := l.insertionSort (· ≤ ·)

/-- `NurbsCurve::InsertKnot`, Geometry/Curve/NurbsCurve.cpp:448-525.  `result` is the value of the
output argument before the call; it is left untouched when nothing is inserted.  Loop state of the
main loop: (`updatedControlPoints`, `temp`, `L`). -/
def insertKnot (c : BsplineCurve K T) (knot : K) (times : ℤ) (result : BsplineCurve K T) :
    Res (ℤ × BsplineCurve K T) := do
  let degree := c.degree
  let U := c.knots
  let P := c.cps
  validate (times > 0)
  let k ← getKnotSpanIndex degree U knot
  let s ← getKnotMultiplicity U knot
  let times := if s + times > degree + 1 then degree - 1 - s else times
  if times ≤ 0 then ok (0, result)
  else do
    let V := List.replicate (U.length + times).toNat (0 : K)
    let V ← forI 0 (k + 1) V fun i V => do
      let x ← vget U i
      vset V i x
    let V ← forI 1 (times + 1) V fun i V => vset V (k + i) knot
    let V ← forI (k + 1) U.length V fun i V => do
      let x ← vget U i
      vset V (i + times) x
    let Q := List.replicate (P.length + times).toNat (0 : T)
    let Q ← forI 0 (k - degree + 1) Q fun i Q => do
      let x ← vget P i
      vset Q i x
    let Q ← forI (k - s) P.length Q fun i Q => do
      let x ← vget P i
      vset Q (i + times) x
    let temp := List.replicate (degree - s + 1).toNat (0 : T)
    let temp ← forI 0 (degree - s + 1) temp fun i temp => do
      let x ← vget P (k - degree + i)
      vset temp i x
    let (Q, temp, L) ← forI 1 (times + 1) (Q, temp, (0 : ℤ)) fun j (Q, temp, _) => do
      let L := k - degree + j
      let temp ← forI 0 (degree - j - s + 1) temp fun i temp => do
        let ul ← vget U (L + i)
        let ur ← vget U (i + k + 1)
        let alpha ← fdiv (knot - ul) (ur - ul)
        let b ← vget temp (i + 1)
        let a ← vget temp i
        vset temp i (alpha • b + (1 - alpha) • a)
      let t0 ← vget temp 0
      let Q ← vset Q L t0
      let Q ← (if degree - j - s > 0 then do
          let x ← vget temp (degree - j - s)
          vset Q (k + times - j - s) x
        else ok Q : Res (List T))
      ok (Q, temp, L)
    let Q ← forI (L + 1) (k - s) Q fun i Q => do
      let x ← vget temp (i - L)
      vset Q i x
    ok (times, { degree := degree, knots := sortKnots V, cps := Q })

/-- `NurbsCurve::GetPointOnCurveByCornerCut`, Geometry/Curve/NurbsCurve.cpp:527-563, up to the final
projection `ToXYZ(true)` of the returned weighted point.  (A multiplicity above `degree + 1` makes
the size of `temp` negative, which throws `std::length_error`; the model reports `ub` there.) -/
def cornerCutRaw (c : BsplineCurve K T) (t : K) : Res T := do
  let degree := c.degree
  let U := c.knots
  let P := c.cps
  let first ← vget U 0
  let last ← vget U ((U.length : ℤ) - 1)
  validateRange t first last
  if isAlmostEqualTo t first then vget P 0
  else do
    let n : ℤ := (P.length : ℤ) - 1
    let un ← vget U (n + degree + 1)
    if isAlmostEqualTo t un then vget P n
    else do
      let k ← getKnotSpanIndex degree U t
      let s ← getKnotMultiplicity U t
      let times := degree - s
      let temp := List.replicate (times + 1).toNat (0 : T)
      let temp ← forI 0 (times + 1) temp fun i temp => do
        let x ← vget P (k - degree + i)
        vset temp i x
      let temp ← forI 1 (times + 1) temp fun j temp =>
        forI 0 (times - j + 1) temp fun i temp => do
          let ul ← vget U (k - degree + j + i)
          let ur ← vget U (i + k + 1)
          let alpha ← fdiv (t - ul) (ur - ul)
          let b ← vget temp (i + 1)
          let a ← vget temp i
          vset temp i (alpha • b + (1 - alpha) • a)
      vget temp 0

/-- `NurbsCurve::GetPointOnCurveByCornerCut` with the projection. -/
def NurbsCurve.pointByCornerCut (c : NurbsCurve K) (t : K) : Res (XYZ K) := do
  let wp ← cornerCutRaw c t
  ok wp.toXYZ

/-- loop state of `RefineKnotVector` -/
structure RefineState (K T : Type) where
  i : ℤ
  k : ℤ
  V : List K
  Q : List T

/-- the `while` loop of `RefineKnotVector`, Geometry/Curve/NurbsCurve.cpp:604-610.  It runs at most
`i - a` times; the model gives it `knotVector.size()` rounds. -/
def refineShift (degree : ℤ) (U : List K) (P : List T) (a : ℤ) (x : K) (st : RefineState K T) : Res (RefineState K T) :=
  whileF
    (fun st => do
      let ui ← vget U st.i
      ok (decide (x ≤ ui ∧ st.i > a)))
    (fun st => do
      let pt ← vget P (st.i - degree - 1)
      let Q ← vset st.Q (st.k - degree - 1) pt
      let ui ← vget U st.i
      let V ← vset st.V st.k ui
      ok ⟨st.i - 1, st.k - 1, V, Q⟩)
    U.length st

/-- the rest of the body of the main loop of `RefineKnotVector`, NurbsCurve.cpp:612-631. -/
def refineInsert (degree : ℤ) (U : List K) (x : K) (st : RefineState K T) : Res (RefineState K T) := do
  let pt ← vget st.Q (st.k - degree)
  let Q ← vset st.Q (st.k - degree - 1) pt
  let Q ← forI 1 (degree + 1) Q fun l Q => do
    let ind := st.k - degree + l
    let vkl ← vget st.V (st.k + l)
    let uil ← vget U (st.i - degree + l)
    let num := vkl - x
    let denom := vkl - uil
    let q1 ← vget Q ind
    if isAlmostEqualTo num 0 || isAlmostEqualTo denom 0 then vset Q (ind - 1) q1
    else do
      let alpha ← fdiv num denom
      let q0 ← vget Q (ind - 1)
      vset Q (ind - 1) (alpha • q0 + (1 - alpha) • q1)
  let V ← vset st.V st.k x
  ok ⟨st.i, st.k - 1, V, Q⟩

/-- `NurbsCurve::RefineKnotVector`, Geometry/Curve/NurbsCurve.cpp:565-634. -/
def refineKnotVector (c : BsplineCurve K T) (X : List K) : Res (BsplineCurve K T) := do
  let degree := c.degree
  let U := c.knots
  let P := c.cps
  validate (X.length > 0)
  let n : ℤ := (P.length : ℤ) - 1
  let m : ℤ := n + degree + 1
  let r : ℤ := (X.length : ℤ) - 1
  let x0 ← vget X 0
  let a ← getKnotSpanIndex degree U x0
  let xr ← vget X r
  let b' ← getKnotSpanIndex degree U xr
  let b := b' + 1
  let V := List.replicate (m + r + 2).toNat (0 : K)
  let V ← forI 0 (a + 1) V fun j V => do
    let x ← vget U j
    vset V j x
  let V ← forI (b + degree) (m + 1) V fun j V => do
    let x ← vget U j
    vset V (j + r + 1) x
  let Q := List.replicate (n + r + 2).toNat (0 : T)
  let Q ← forI 0 (a - degree + 1) Q fun j Q => do
    let x ← vget P j
    vset Q j x
  let Q ← forI (b - 1) (n + 1) Q fun j Q => do
    let x ← vget P j
    vset Q (j + r + 1) x
  let st ← forDown r 0 (⟨b + degree - 1, b + degree + r, V, Q⟩ : RefineState K T) fun j st => do
    let x ← vget X j
    let st ← refineShift degree U P a x st
    refineInsert degree U x st
  ok { degree := degree, knots := st.V, cps := st.Q }

/-- `NurbsCurve::SplitAt` from the span search on, Geometry/Curve/NurbsCurve.cpp:1563-1585: `left` is
the refined curve.  `resize` only ever shrinks here (a growing `resize` would append zeros; `take`
models the shrinking case, and the indices are shown to be in range). -/
def splitTail (degree : ℤ) (left : BsplineCurve K T) (u : K) : Res (BsplineCurve K T × BsplineCurve K T) := do
  let span ← getKnotSpanIndex left.degree left.knots u
  let spanIndex := span - degree
  let rC : ℤ := (left.cps.length : ℤ) - spanIndex
  let rcps ← forDown (rC - 1) 0 (List.replicate rC.toNat (0 : T)) fun j acc => do
    let x ← vget left.cps ((left.cps.length : ℤ) - 1 - (rC - 1 - j))
    vset acc j x
  let rknots ← forDown (rC + degree) 0 (List.replicate (rC + degree + 1).toNat (0 : K)) fun j acc => do
    let x ← vget left.knots ((left.knots.length : ℤ) - 1 - (rC + degree - j))
    vset acc j x
  ok (⟨degree, left.knots.take (spanIndex + degree + 1).toNat, left.cps.take spanIndex.toNat⟩,
    ⟨degree, rknots, rcps⟩)

/-- `NurbsCurve::SplitAt`, Geometry/Curve/NurbsCurve.cpp:1542-1586; `none` is the answer `false`
(the output curves are untouched), `some (left, right)` the answer `true`.  A multiplicity above
`degree + 1` makes the size of `insert` negative, which throws `std::length_error`; the model
reports `ub`. -/
def splitAt (c : BsplineCurve K T) (u : K) : Res (Option (BsplineCurve K T × BsplineCurve K T)) := do
  let degree := c.degree
  let U := c.knots
  let up ← vget U degree
  let outside ← (if isLessThanOrEqual u up then ok true
    else do
      let ue ← vget U ((U.length : ℤ) - degree - 1)
      ok (isGreaterThanOrEqual u ue) : Res Bool)
  if outside then ok none
  else do
    let multi ← getKnotMultiplicity U u
    let cnt := degree + 1 - multi
    let left ← (if cnt < 0 then ub
      else if cnt > 0 then refineKnotVector c (List.replicate cnt.toNat u)
      else ok c : Res (BsplineCurve K T))
    let lr ← splitTail degree left u
    ok (some lr)

end

end LNLib
