import Verif.Model.BezierPieces
import Verif.Model.SurfaceInsert
import Mathlib.Algebra.Module.Pi

/-!
# Model of the decomposition of a surface into Bézier patches, Geometry/Surface/NurbsSurface.cpp

All paths are relative to /repo/src/LNLib.  The C++ function runs the same algorithm twice: over the rows of the control net (every
step is a loop over the columns that treats each entry of two rows alike) and then over the columns of every strip (every step is a
loop over the rows).  The model writes the algorithm once, for "points" that are whole rows or whole columns: vectors `ℕ → T`, with the
entrywise sum and multiple for the inner loops.
-/

namespace LNLib
open Res

section
variable {K : Type} [Field K] [LinearOrder K]
variable {X : Type} [AddCommGroup X] [Module K X]

/-- `while (b < m && IsLessThanOrEqual(knotVector[b + 1], knotVector[b])) b++;`
Geometry/Surface/NurbsSurface.cpp:816-819 and 893-896. -/
def skipLessEqual (U : List K) (m b : ℤ) : Res ℤ :=
  whileF (fun b => if b < m then do
      let x ← vget U (b + 1)
      let y ← vget U b
      ok (isLessThanOrEqual x y)
    else ok false) (fun b => ok (b + 1)) m.toNat b

/-- The knot insertions of one round, Geometry/Surface/NurbsSurface.cpp:821-851 and 898-927.  `asize` is the size of `alphaVector`,
which the C++ allocates once; every entry is written before it is read. -/
def patchSplit (U : List K) (degree m asize a b nb multi : ℤ) (pieces : List (List X)) : Res (List (List X)) :=
  if multi < degree then do
    let ub ← vget U b
    let ua ← vget U a
    let alfs ← splitAlphas U degree a multi (ub - ua) ua (List.replicate asize.toNat (0 : K))
    let cur ← vget pieces nb
    if b < m then do
      let nxt ← vget pieces (nb + 1)
      let r ← splitPiece degree multi alfs true cur nxt
      let pieces ← vset pieces nb r.1
      vset pieces (nb + 1) r.2
    else do
      let r ← splitPiece degree multi alfs false cur []
      vset pieces nb r.1
  else ok pieces

/-- One round of the main loop, Geometry/Surface/NurbsSurface.cpp:813-864 and 890-940.  `rd k` reads the `k`-th row (column). -/
def patchRound (U : List K) (rd : ℤ → Res X) (degree m asize : ℤ) (st : DecompState X) : Res (DecompState X) := do
  let b ← skipLessEqual U m st.b
  let multi := b - st.b + 1
  let pieces ← patchSplit U degree m asize st.a b st.nb multi st.pieces
  if b < m then do
    let nxt ← vget pieces (st.nb + 1)
    let nxt ← forI (degree - multi) (degree + 1) nxt fun i nxt => do
      let x ← rd (b - degree + i)
      vset nxt i x
    let pieces ← vset pieces (st.nb + 1) nxt
    ok ⟨b, b + 1, st.nb + 1, pieces⟩
  else ok ⟨st.a, b, st.nb + 1, pieces⟩

/-- The algorithm in one direction: the first `degree + 1` rows (columns) start the piece `nb`, then the main loop, whose rounds
increase `b < m`.  Geometry/Surface/NurbsSurface.cpp:800-864 and 876-941. -/
def patchPhase (U : List K) (rd : ℤ → Res X) (degree size asize : ℤ) (pieces : List (List X)) (nb : ℤ) : Res (ℤ × List (List X)) := do
  let m := size + degree
  let row0 ← vget pieces nb
  let row0 ← forI 0 (degree + 1) row0 fun i row => do
    let x ← rd i
    vset row i x
  let pieces ← vset pieces nb row0
  let st ← whileF (fun st => ok (decide (st.b < m))) (patchRound U rd degree m asize) m.toNat
    (⟨degree, degree + 1, nb, pieces⟩ : DecompState X)
  ok (st.nb, st.pieces)

end

section
variable {K : Type} [Field K] [LinearOrder K]
variable {T : Type} [AddCommGroup T] [Module K T]

/-- The row `k` of the net as a vector of `columns` entries: reading an entry past the end of a shorter row is undefined. -/
def netRow (columns : ℕ) (cps : List (List T)) (k : ℤ) : Res (ℕ → T) := do
  let row ← vget cps k
  if row.length < columns then ub
  else ok fun j => if j < columns then nth row j else 0

/-- The column `k` of a strip whose rows are vectors of `columns` entries. -/
def stripColumn (columns : ℤ) (strip : List (ℕ → T)) (k : ℤ) : Res (ℕ → T) :=
  if 0 ≤ k ∧ k < columns then ok fun r => nth strip r k.toNat else ub

/-- `NurbsSurface::DecomposeToBeziers`, Geometry/Surface/NurbsSurface.cpp:757-955.  A negative size of one of the vectors throws
`std::length_error` in the C++; the model's `toNat` makes it an empty vector and the first access `ub`. -/
def decomposeToPatches (c : BsplineSurface K T) : Res (List (BsplineSurface K T)) := do
  let row0 ← vget c.cps 0
  let rows : ℤ := c.cps.length
  let columns : ℤ := row0.length
  let knotsU := List.replicate (c.degreeU + 1).toNat (0 : K) ++ List.replicate (c.degreeU + 1).toNat (1 : K)
  let knotsV := List.replicate (c.degreeV + 1).toNat (0 : K) ++ List.replicate (c.degreeV + 1).toNat (1 : K)
  let asize := max c.degreeU c.degreeV + 1
  let strips := List.replicate (rows - c.degreeU).toNat (List.replicate (c.degreeU + 1).toNat (0 : ℕ → T))
  let ru ← patchPhase c.knotsU (netRow row0.length c.cps) c.degreeU rows asize strips 0
  let patches := List.replicate ((rows - c.degreeU).toNat * (columns - c.degreeV).toNat) (List.replicate (c.degreeV + 1).toNat (0 : ℕ → T))
  let rv ← forI 0 ru.1 ((0 : ℤ), patches) fun np st => do
    let strip ← vget ru.2 np
    patchPhase c.knotsV (stripColumn columns strip) c.degreeV columns asize st.2 st.1
  ok ((rv.2.take rv.1.toNat).map fun (cols : List (ℕ → T)) =>
    { degreeU := c.degreeU, degreeV := c.degreeV, knotsU := knotsU, knotsV := knotsV, cps := (List.range (c.degreeU + 1).toNat).map fun i => (List.range (c.degreeV + 1).toNat).map fun j => (nth cols j : ℕ → T) i })

end

end LNLib
