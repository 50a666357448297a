import Verif.Model.Tangent
import Verif.Model.SurfaceApprox

/-!
# Model of the local bicubic interpolation of a grid, Geometry/Surface/NurbsSurface.cpp

All paths are relative to /repo/src/LNLib.  The three entries of `td[k][l]` are kept as three matrices.  `tangent` stands for `Interpolation::ComputeTangent`
(Algorithm/Interpolation.cpp:378-437), `dist` for `XYZ::Distance`, `total` for `Interpolation::GetTotalChordLength`; they are given below for the real numbers.
-/

namespace LNLib
open Res

/-- `MathUtils::GetColumn`, include/MathUtils.h:76-85. -/
def getColumn {α : Type} [Zero α] (matrix : List (List α)) (column : ℤ) : Res (List α) :=
  forI 0 matrix.length (List.replicate matrix.length (0 : α)) fun i result => do
    let x ← mget matrix i column
    vset result i x

section
variable {K : Type} [Field K] [LinearOrder K]

/-- One of the two loops over columns or rows, Geometry/Surface/NurbsSurface.cpp:2266-2284 and 2294-2311: the lines are the columns (`read k l = [k][l]`) or the rows.
Result: the tangents `td`, line by line, the sums of the distances and the total.  `r` and `s` are only read in the round in which they are computed, and the tangents are
stored by lines here, by grid position in the source. -/
def bicubicSums (tangent : List (XYZ K) → Res (List (XYZ K))) (dist : XYZ K → XYZ K → K) (lines : List (List (XYZ K))) (size : ℤ) :
    Res (List (List (XYZ K)) × List K × K) :=
  forI 0 lines.length ([], List.replicate size.toNat (0 : K), 0) fun l (td, sums, total) => do
    let line ← vget lines l
    let t ← tangent line
    let (td1, sums, r) ← forI 0 size ([], sums, 0) fun k (td1, sums, r) => do
      let x ← vget t k
      if k > 0 then do
        let a ← vget line k
        let b ← vget line (k - 1)
        let old ← vget sums k
        let sums ← vset sums k (old + dist a b)
        ok (td1 ++ [x], sums, r + dist a b)
      else ok (td1 ++ [x], sums, r)
    ok (td ++ [td1], sums, total + r)

/-- `ub` from the sums, Geometry/Surface/NurbsSurface.cpp:2285-2291 and 2312-2318; `n` is the last index. -/
def bicubicParams (sums : List K) (total : K) (n : ℤ) : Res (List K) := do
  let ub ← if total > 0 then
      forI 1 n sums fun k ub => do
        let a ← vget ub (k - 1)
        let b ← vget ub k
        let q ← fdiv b total
        vset ub k (a + q)
    else ok sums
  vset ub n 1

/-- The control points along one row or column, Geometry/Surface/NurbsSurface.cpp:2340-2350 and 2363-2373: `points` and `T` are the points and tangents of the line, `u`
the parameters, which in the source are those of the OTHER direction, `len` the length of the line. -/
def bicubicLine (points T : List (XYZ K)) (u : List K) (len : K) : Res (List (XYZ K)) := do
  let temp ← forI 0 points.length (List.replicate (3 * points.length - 2) (0 : XYZ K)) fun j temp => do
    let p ← vget points j
    vset temp (3 * j) p
  forI 0 ((points.length : ℤ) - 1) temp fun j temp => do
    let u1 ← vget u (j + 1)
    let u0 ← vget u j
    let a := (u1 - u0) * len
    let p ← vget points j
    let t ← vget T j
    let temp ← vset temp (3 * j + 1) (p + (a / 3) • t)
    let q ← vget points (j + 1)
    vset temp (3 * j + 2) (q - (a / 3) • t)

/-- The mixed derivatives, Geometry/Surface/NurbsSurface.cpp:2380-2394; `tu k l = td[k][l][0]`, `tv k l = td[k][l][1]`. -/
def bicubicTwists (tu tv : ℤ → ℤ → Res (XYZ K)) (ub vb : List K) (n m : ℤ) : Res (List (List (XYZ K))) :=
  forI 1 n (List.replicate (n + 1).toNat (List.replicate (m + 1).toNat (0 : XYZ K))) fun k tw => do
    let u1 ← vget ub k
    let u0 ← vget ub (k - 1)
    let u2 ← vget ub (k + 1)
    let ak ← fdiv (u1 - u0) ((u1 - u0) + (u2 - u1))
    forI 1 m tw fun l tw => do
      let v1 ← vget vb l
      let v0 ← vget vb (l - 1)
      let v2 ← vget vb (l + 1)
      let bl ← fdiv (v1 - v0) ((v1 - v0) + (v2 - v1))
      let c1 ← tv k l
      let c0 ← tv (k - 1) l
      let c2 ← tv (k + 1) l
      let x ← vdiv ((1 - ak) • (c1 - c0)) (u1 - u0)
      let y ← vdiv (ak • (c2 - c1)) (u2 - u1)
      let d1 ← tu k l
      let d0 ← tu k (l - 1)
      let d2 ← tu k (l + 1)
      let z ← vdiv ((1 - bl) • (d1 - d0)) (v1 - v0)
      let w ← vdiv (bl • (d2 - d1)) (v2 - v1)
      let t ← vdiv (ak • (z + w) + bl • (x + y)) (ak + bl)
      mset tw k l t

/-- The inner control points, Geometry/Surface/NurbsSurface.cpp:2396-2408. -/
def bicubicInner (tw : List (List (XYZ K))) (ub vb : List K) (n m : ℤ) (B : List (List (XYZ K))) : Res (List (List (XYZ K))) :=
  forI 0 n B fun k B => forI 0 m B fun l B => do
    let u1 ← vget ub (k + 1)
    let u0 ← vget ub k
    let v1 ← vget vb (l + 1)
    let v0 ← vget vb l
    let gamma := (u1 - u0) * (v1 - v0) / 9
    let ii := 3 * k
    let jj := 3 * l
    let t ← mget tw k l
    let a ← mget B ii (jj + 1)
    let b ← mget B (ii + 1) jj
    let c ← mget B ii jj
    let B ← mset B (ii + 1) (jj + 1) (gamma • t + a + b - c)
    let t ← mget tw (k + 1) l
    let a ← mget B (ii + 3) (jj + 1)
    let b ← mget B (ii + 3) jj
    let c ← mget B (ii + 2) jj
    let B ← mset B (ii + 2) (jj + 1) ((-gamma) • t + a - b + c)
    let t ← mget tw k (l + 1)
    let a ← mget B (ii + 1) (jj + 3)
    let b ← mget B ii (jj + 3)
    let c ← mget B ii (jj + 2)
    let B ← mset B (ii + 1) (jj + 2) ((-gamma) • t + a - b + c)
    let t ← mget tw (k + 1) (l + 1)
    let a ← mget B (ii + 2) (jj + 3)
    let b ← mget B (ii + 3) (jj + 2)
    let c ← mget B (ii + 3) (jj + 3)
    mset B (ii + 2) (jj + 2) (gamma • t + a + b - c)

/-- `GetIndex`, Geometry/Surface/NurbsSurface.cpp:78-87. -/
def getIndex (size : ℤ) : Res (List ℤ) := forI 0 size [] fun i ind => ok (ind ++ [3 * i])

/-- The rows and columns that are kept, Geometry/Surface/NurbsSurface.cpp:2410-2420. -/
def bicubicFilter (B : List (List (XYZ K))) (indU indV : List ℤ) : Res (List (List (XYZ K))) :=
  forI 0 indU.length [] fun i filtered => do
    let newRow ← forI 0 indV.length [] fun j newRow => do
      let a ← vget indU i
      let b ← vget indV j
      let x ← mget B a b
      ok (newRow ++ [x])
    ok (filtered ++ [newRow])

/-- A knot vector for `nu` control points, Geometry/Surface/NurbsSurface.cpp:2427-2432 and 2434-2439. -/
def bicubicKnots (ub : List K) (nu : ℤ) : Res (List K) := do
  let kv ← forI 0 (3 + 1) (List.replicate (nu + 3 + 1).toNat (0 : K)) fun i kv => vset kv i 0
  let kv ← forI 1 (nu - 3) kv fun i kv => do
    let x ← vget ub i
    vset kv (3 + i) x
  forI nu kv.length kv fun i kv => vset kv i 1

/-- `NurbsSurface::BicubicLocalInterpolation`, Geometry/Surface/NurbsSurface.cpp:2237-2447.  It never returns `false`. -/
def bicubicBy (tangent : List (XYZ K) → Res (List (XYZ K))) (dist : XYZ K → XYZ K → K) (totalLength : List (XYZ K) → Res K) (pts : List (List (XYZ K))) :
    Res (NurbsSurface K) := do
  validate (decide (0 < pts.length))
  let r0 ← vget pts 0
  validate (decide (0 < r0.length))
  let row : ℤ := pts.length
  let column : ℤ := r0.length
  forI 1 row () fun i _ => do
    let r ← vget pts i
    validate (decide (r.length = r0.length))
  let n := row - 1
  let m := column - 1
  let columns ← forI 0 column [] fun l cols => do
    let c ← getColumn pts l
    ok (cols ++ [c])
  let (tdV, usums, utotal) ← bicubicSums tangent dist columns row
  let ub ← bicubicParams usums utotal n
  let (tdU, vsums, vtotal) ← bicubicSums tangent dist pts column
  let vb ← bicubicParams vsums vtotal m
  let rowTotalLen ← forI 0 row [] fun i lens => do
    let r ← vget pts i
    let x ← totalLength r
    ok (lens ++ [x])
  let colTotalLen ← forI 0 column [] fun j lens => do
    let c ← getColumn pts j
    let x ← totalLength c
    ok (lens ++ [x])
  let B ← forI 0 row (List.replicate (3 * row - 2).toNat (List.replicate (3 * column - 2).toNat (0 : XYZ K))) fun i B => do
    let T ← forI 0 (m + 1) [] fun l T => do
      let t ← mget tdV l i
      ok (T ++ [t])
    let r ← vget pts i
    let len ← vget rowTotalLen i
    let temp ← bicubicLine r T ub len
    vset B (3 * i) temp
  let B ← forI 0 column B fun j B => do
    let c ← getColumn pts j
    let T ← forI 0 (n + 1) [] fun k T => do
      let t ← mget tdU k j
      ok (T ++ [t])
    let len ← vget colTotalLen j
    let temp ← bicubicLine c T vb len
    forI 0 temp.length B fun i B => do
      let x ← vget temp i
      mset B i (3 * j) x
  let tw ← bicubicTwists (fun k l => mget tdU k l) (fun k l => mget tdV l k) ub vb n m
  let B ← bicubicInner tw ub vb n m B
  let indU ← getIndex row
  let indV ← getIndex column
  let filtered ← bicubicFilter B indU indV
  let cps ← netToXYZW filtered
  let nu : ℤ := cps.length
  let c0 ← vget cps 0
  let nv : ℤ := c0.length
  let kU ← bicubicKnots ub nu
  let kV ← bicubicKnots vb nv
  ok { degreeU := 3, degreeV := 3, knotsU := kU, knotsV := kV, cps := cps }

end

noncomputable section

/-- The same over the real numbers, Geometry/Surface/NurbsSurface.cpp:2237-2447. -/
def bicubicLocalInterpolation (pts : List (List (XYZ ℝ))) : Res (NurbsSurface ℝ) := bicubicBy computeTangent XYZ.distance getTotalChordLength pts

end

end LNLib
