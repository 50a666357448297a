import Verif.Model.Surface

/-!
# Model of the first order surface derivatives

All paths are relative to /repo/src/LNLib.
-/

namespace LNLib
open Res

variable {K : Type} [Field K] [LinearOrder K]
variable {T : Type} [AddCommGroup T] [Module K T]

/-- `BsplineSurface::ComputeFirstOrderDerivative`, include/BsplineSurface.h:143-191.  `derivatives` is the caller's array `T[2][2]`, to which the function adds; `temp` is an array of
`NURBSMaxDegree + 1 = 8` points, of which every entry is assigned before it is read. -/
def BsplineSurface.firstOrder (c : BsplineSurface K T) (u v : K) (derivatives : List (List T)) : Res (List (List T)) := do
  c.validateUV u v
  let uSpan ← getKnotSpanIndex c.degreeU c.knotsU u
  let Nu ← basisFunctionsFirstOrderDerivative uSpan c.degreeU c.knotsU u (uninit2 K 2 8)
  let vSpan ← getKnotSpanIndex c.degreeV c.knotsV v
  let Nv ← basisFunctionsFirstOrderDerivative vSpan c.degreeV c.knotsV v (uninit2 K 2 8)
  let du := min 1 c.degreeU
  let dv := min 1 c.degreeV
  let (derivatives, _) ← forI 0 (du + 1) (derivatives, List.replicate 8 (0 : T)) fun k (derivatives, temp) => do
    let temp ← forI 0 (c.degreeV + 1) temp fun s temp => do
      let temp ← vset temp s 0
      forI 0 (c.degreeU + 1) temp fun r temp => do
        let old ← vget temp s
        let b ← aget2 Nu k r
        let p ← mget c.cps (uSpan - c.degreeU + r) (vSpan - c.degreeV + s)
        vset temp s (old + b • p)
    let dd := min 1 dv
    let derivatives ← forI 0 (dd + 1) derivatives fun l derivatives =>
      forI 0 (c.degreeV + 1) derivatives fun s derivatives => do
        let old ← mget derivatives k l
        let b ← aget2 Nv l s
        let x ← vget temp s
        mset derivatives k l (old + b • x)
    ok (derivatives, temp)
  ok derivatives

/-- `NurbsSurface::ComputeRationalSurfaceFirstOrderDerivative`, Geometry/Surface/NurbsSurface.cpp:225-254; returns (`S`, `Su`, `Sv`).  The array `ders` is default constructed, that is zero
(Mathematics/Math/XYZW.cpp, default constructor). -/
def NurbsSurface.rationalFirstOrder (c : NurbsSurface K) (u v : K) : Res (XYZ K × XYZ K × XYZ K) := do
  c.validateUV u v
  let ders ← BsplineSurface.firstOrder c u v [[0, 0], [0, 0]]
  let d00 ← mget ders 0 0
  let d01 ← mget ders 0 1
  let d10 ← mget ders 1 0
  let invW ← fdiv 1 d00.w
  let S := invW • d00.raw
  let Sv := invW • (d01.raw - d01.w • S)
  let Su := invW • (d10.raw - d10.w • S)
  ok (S, Su, Sv)

end LNLib
