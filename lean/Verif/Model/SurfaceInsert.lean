import Verif.Model.Surface
import Verif.Model.CurveOps

/-!
# Model of knot insertion and knot refinement of surfaces, Geometry/Surface/NurbsSurface.cpp

All paths are relative to /repo/src/LNLib.
-/

namespace LNLib
open Res

section
variable {K : Type} [Field K] [LinearOrder K]
variable {T : Type} [AddCommGroup T] [Module K T]

/-- The table `alpha` of `NurbsSurface::InsertKnot`, Geometry/Surface/NurbsSurface.cpp:597-605.  A negative number of rows or columns makes the constructor
throw `std::length_error`; the model reports `ub`. -/
def insertAlpha (degree k s times : ℤ) (U : List K) (knot : K) : Res (List (List K)) := do
  if degree - s < 0 ∨ times + 1 < 0 then ub
  else forI 1 (times + 1) (List.replicate (degree - s).toNat (List.replicate (times + 1).toNat (0 : K))) fun j alpha => do
    let L := k - degree + j
    forI 0 (degree - j - s + 1) alpha fun i alpha => do
      let a ← vget U (L + i)
      let b ← vget U (i + k + 1)
      let c ← vget U (L + i)
      let x ← fdiv (knot - a) (b - c)
      mset alpha i j x

/-- The body of the loop over columns (Geometry/Surface/NurbsSurface.cpp:618-652) and of the loop over rows (659-693) of `NurbsSurface::InsertKnot`; the two
are the same text with the index pair swapped, so `read` and `write` access one column or one row.  State: (`updatedControlPoints`, `temp`). -/
def insertFibre (degree k s times : ℤ) (alpha : List (List K)) (count : ℤ) (read : ℤ → Res T) (write : List (List T) → ℤ → T → Res (List (List T)))
    (st : List (List T) × List T) : Res (List (List T) × List T) := do
  let M ← forI 0 (k - degree + 1) st.1 fun i M => do
    let x ← read i
    write M i x
  let M ← forI (k - s) count M fun i M => do
    let x ← read i
    write M (i + times) x
  let temp ← forI 0 (degree - s + 1) st.2 fun i temp => do
    let x ← read (k - degree + i)
    vset temp i x
  let (M, temp, L) ← forI 1 (times + 1) (M, temp, (0 : ℤ)) fun j (M, temp, _) => do
    let L := k - degree + j
    let temp ← forI 0 (degree - j - s + 1) temp fun i temp => do
      let a ← mget alpha i j
      let y ← vget temp (i + 1)
      let x ← vget temp i
      vset temp i (a • y + (1 - a) • x)
    let x ← vget temp 0
    let M ← write M L x
    let x ← vget temp (degree - j - s)
    let M ← write M (k + times - j - s) x
    ok (M, temp, L)
  let M ← forI (L + 1) (k - s) M fun i M => do
    let x ← vget temp (i - L)
    write M i x
  ok (M, temp)

/-- The knot vector loops of `NurbsSurface::InsertKnot`, Geometry/Surface/NurbsSurface.cpp:581-595. -/
def insertedKnots (k times : ℤ) (U : List K) (knot : K) : Res (List K) := do
  if (U.length : ℤ) + times < 0 then ub
  else do
    let V := List.replicate (U.length + times).toNat (0 : K)
    let V ← forI 0 (k + 1) V fun i V => do
      let x ← vget U i
      vset V i x
    let V ← forI 1 (times + 1) V fun i V => vset V (k + i) knot
    forI (k + 1) U.length V fun i V => do
      let x ← vget U i
      vset V (i + times) x

/-- `NurbsSurface::InsertKnot`, Geometry/Surface/NurbsSurface.cpp:548-697.  The number of insertions is not validated.  The model is generic in the point
type; `temp` has `degree + 1` default constructed points and is shared by all fibres.  A negative size of `updatedControlPoints` throws in the source and
is `ub` in the model. -/
def insertKnotSurface (c : BsplineSurface K T) (knot : K) (times : ℤ) (isUDirection : Bool) : Res (BsplineSurface K T) := do
  (if isUDirection then validate (isValidBspline c.degreeU c.knotsU.length c.cps.length)
    else do
      let r0 ← vget c.cps 0
      validate (isValidBspline c.degreeV c.knotsV.length r0.length) : Res Unit)
  let degree := if isUDirection then c.degreeU else c.degreeV
  let U := if isUDirection then c.knotsU else c.knotsV
  let k ← getKnotSpanIndex degree U knot
  let s ← getKnotMultiplicity U knot
  if s = degree then ok c
  else do
    let times := if times + s > degree then degree - s else times
    let V ← insertedKnots k times U knot
    let alpha ← insertAlpha degree k s times U knot
    let temp := List.replicate (degree + 1).toNat (0 : T)
    let rows : ℤ := c.cps.length
    let r0 ← vget c.cps 0
    let columns : ℤ := r0.length
    if isUDirection then do
      if rows + times < 0 then ub
      else do
        let M := List.replicate (rows + times).toNat (List.replicate columns.toNat (0 : T))
        let (M, _) ← forI 0 columns (M, temp) fun col st =>
          insertFibre degree k s times alpha rows (fun i => mget c.cps i col) (fun M i x => mset M i col x) st
        ok { c with knotsU := V, cps := M }
    else do
      if columns + times < 0 then ub
      else do
        let M := List.replicate rows.toNat (List.replicate (columns + times).toNat (0 : T))
        let (M, _) ← forI 0 rows (M, temp) fun row st =>
          insertFibre degree k s times alpha columns (fun i => mget c.cps row i) (fun M i x => mset M row i x) st
        ok { c with knotsV := V, cps := M }

/-- The loop of `NurbsSurface::RefineKnotVector` over the fibres, Geometry/Surface/NurbsSurface.cpp:719-730 and 739-750.
State: (`tempControlPoints`, `tempKnotVector`). -/
def refineFibres (degree : ℤ) (U X : List K) (fibres : List (List T)) : Res (List (List T) × List K) :=
  forI 0 fibres.length (([] : List (List T)), ([] : List K)) fun i (cps, _) => do
    let f ← vget fibres i
    let tc ← refineKnotVector { degree := degree, knots := U, cps := f } X
    ok (cps ++ [tc.cps], tc.knots)

/-- `NurbsSurface::RefineKnotVector`, Geometry/Surface/NurbsSurface.cpp:699-755. -/
def refineKnotSurface (c : BsplineSurface K T) (X : List K) (isUDirection : Bool) : Res (BsplineSurface K T) := do
  validate (X.length > 0)
  if isUDirection then do
    let tr ← transposeM c.cps []
    let (cps, kv) ← refineFibres c.degreeU c.knotsU X tr
    let cps ← transposeM cps []
    ok { c with knotsU := kv, cps := cps }
  else do
    let (cps, kv) ← refineFibres c.degreeV c.knotsV X c.cps
    ok { c with knotsV := kv, cps := cps }

end

end LNLib
