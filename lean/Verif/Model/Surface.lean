import Verif.Model.SurfaceData
import Verif.Model.BasisDers
import Verif.Model.CurveParam

/-!
# Model of include/BsplineSurface.h and Geometry/Surface/NurbsSurface.cpp (first part)

Evaluation, derivatives, iso curves, swapping, reversing, reparametrising, bounding box, bilinear
surfaces.  All paths are relative to /repo/src/LNLib.
-/

namespace LNLib
open Res

/-- `v.size() - 1` in the unsigned 64 bit arithmetic of `size_t`: the predecessor of zero is
`2^64 - 1`. -/
def sizePred (n : ℕ) : ℤ := if n = 0 then 2 ^ 64 - 1 else (n : ℤ) - 1

section
variable {K : Type} [Field K] [LinearOrder K]
variable {T : Type} [AddCommGroup T] [Module K T]

/-- `BsplineSurface::Check` (include/BsplineSurface.h:29-48) and `NurbsSurface::Check`
(Geometry/Surface/NurbsSurface.cpp:90-107), which perform the same tests. -/
def BsplineSurface.check (c : BsplineSurface K T) : Res Unit := do
  validate (c.degreeU > 0)
  validate (c.degreeV > 0)
  validate (c.knotsU.length > 0)
  validate (isValidKnotVector c.knotsU)
  validate (c.knotsV.length > 0)
  validate (isValidKnotVector c.knotsV)
  validate (c.cps.length > 0)
  validate (isValidBspline c.degreeU c.knotsU.length c.cps.length)
  let r0 ← vget c.cps 0
  validate (isValidBspline c.degreeV c.knotsV.length r0.length)

/-- The two `VALIDATE_ARGUMENT_RANGE` lines that start most surface functions, e.g.
include/BsplineSurface.h:64-65. -/
def BsplineSurface.validateUV (c : BsplineSurface K T) (u v : K) : Res Unit := do
  let u0 ← vget c.knotsU 0
  let um ← vget c.knotsU ((c.knotsU.length : ℤ) - 1)
  validateRange u u0 um
  let v0 ← vget c.knotsV 0
  let vm ← vget c.knotsV ((c.knotsV.length : ℤ) - 1)
  validateRange v v0 vm

/-- `BsplineSurface::GetPointOnSurface`, include/BsplineSurface.h:55-88. -/
def BsplineSurface.pointOnSurface (c : BsplineSurface K T) (u v : K) : Res T := do
  c.validateUV u v
  let uSpan ← getKnotSpanIndex c.degreeU c.knotsU u
  let Nu ← basisFunctions uSpan c.degreeU c.knotsU u (uninit K 8)
  let vSpan ← getKnotSpanIndex c.degreeV c.knotsV v
  let Nv ← basisFunctions vSpan c.degreeV c.knotsV v (uninit K 8)
  let uind := uSpan - c.degreeU
  forI 0 (c.degreeV + 1) (0 : T) fun l point => do
    let vind := vSpan - c.degreeV + l
    let temp ← forI 0 (c.degreeU + 1) (0 : T) fun k temp => do
      let b ← aget Nu k
      let p ← mget c.cps (uind + k) vind
      ok (temp + b • p)
    let b ← aget Nv l
    ok (point + b • temp)

/-- `NurbsSurface::GetPointOnSurface`, Geometry/Surface/NurbsSurface.cpp:172-176. -/
def NurbsSurface.pointOnSurface (c : NurbsSurface K) (u v : K) : Res (XYZ K) := do
  let wp ← BsplineSurface.pointOnSurface c u v
  ok wp.toXYZ

/-- `BsplineSurface::ComputeDerivatives`, include/BsplineSurface.h:95-141.  As in the source the
requested order, not its minimum with the degree, is passed to `BasisFunctionsDerivatives`. -/
def BsplineSurface.computeDerivatives (c : BsplineSurface K T) (derivative : ℤ) (u v : K) :
    Res (List (List T)) := do
  validate (derivative > 0)
  c.validateUV u v
  let n := (derivative + 1).toNat
  let derivatives := List.replicate n (List.replicate n (0 : T))
  let uSpan ← getKnotSpanIndex c.degreeU c.knotsU u
  let Nu ← basisFunctionsDerivatives uSpan c.degreeU derivative c.knotsU u
  let vSpan ← getKnotSpanIndex c.degreeV c.knotsV v
  let Nv ← basisFunctionsDerivatives vSpan c.degreeV derivative c.knotsV v
  let du := min derivative c.degreeU
  let dv := min derivative c.degreeV
  let (derivatives, _) ← forI 0 (du + 1) (derivatives, List.replicate (c.degreeV + 1).toNat (0 : T))
    fun k (derivatives, temp) => do
      let temp ← forI 0 (c.degreeV + 1) temp fun s temp => do
        let temp ← vset temp s 0
        forI 0 (c.degreeU + 1) temp fun r temp => do
          let old ← vget temp s
          let b ← mget Nu k r
          let p ← mget c.cps (uSpan - c.degreeU + r) (vSpan - c.degreeV + s)
          vset temp s (old + b • p)
      let dd := min derivative dv
      let derivatives ← forI 0 (dd + 1) derivatives fun l derivatives =>
        forI 0 (c.degreeV + 1) derivatives fun s derivatives => do
          let old ← mget derivatives k l
          let b ← mget Nv l s
          let x ← vget temp s
          mset derivatives k l (old + b • x)
      ok (derivatives, temp)
  ok derivatives

/-- `NurbsSurface::ComputeRationalSurfaceDerivatives`, Geometry/Surface/NurbsSurface.cpp:178-223.
`Aders` and `wders` are the two projections of `ders`. -/
def NurbsSurface.rationalDerivatives (c : NurbsSurface K) (derivative : ℤ) (u v : K) :
    Res (List (List (XYZ K))) := do
  validate (derivative > 0)
  c.validateUV u v
  let n := (derivative + 1).toNat
  let ders ← BsplineSurface.computeDerivatives c derivative u v
  let aders := ders.map (List.map XYZW.raw)
  let wders := ders.map (List.map XYZW.w)
  forI 0 (derivative + 1) (List.replicate n (List.replicate n (0 : XYZ K))) fun k derivatives =>
    forI 0 (derivative - k + 1) derivatives fun l derivatives => do
      let x ← mget aders k l
      let x ← forI 1 (l + 1) x fun j x => do
        let b ← (binomial l j : Res K)
        let w ← mget wders 0 j
        let d ← mget derivatives k (l - j)
        ok (x - (b * w) • d)
      let x ← forI 1 (k + 1) x fun i x => do
        let b ← (binomial k i : Res K)
        let w ← mget wders i 0
        let d ← mget derivatives (k - i) l
        let x := x - (b * w) • d
        let v2 ← forI 1 (l + 1) (0 : XYZ K) fun j v2 => do
          let b ← (binomial l j : Res K)
          let w ← mget wders i j
          let d ← mget derivatives (k - i) (l - j)
          ok (v2 + (b * w) • d)
        ok (x - b • v2)
      let w0 ← mget wders 0 0
      let q ← vdiv x w0
      mset derivatives k l q

/-- `std::clamp(x, lo, hi)`: undefined behaviour when `hi < lo`. -/
def clampR (x lo hi : K) : Res K := if hi < lo then ub else ok (if x < lo then lo else if hi < x then hi else x)

/-- `NurbsSurface::GetIsoCurve`, Geometry/Surface/NurbsSurface.cpp:109-170.  The default constructed
curve has degree 1 (include/LNObject.h:38). -/
def BsplineSurface.isoCurve (c : BsplineSurface K T) (fixedParam : K) (isUDirection : Bool) :
    Res (BsplineCurve K T) := do
  if c.cps.length = 0 then ok { degree := 1, knots := [], cps := [] }
  else do
    let r0 ← vget c.cps 0
    if isUDirection then do
      let lo ← vget c.knotsV c.degreeV
      let hi ← vget c.knotsV ((c.knotsV.length : ℤ) - c.degreeV - 1)
      let fixedV ← clampR fixedParam lo hi
      let vSpan ← getKnotSpanIndex c.degreeV c.knotsV fixedV
      let Nv ← basisFunctions vSpan c.degreeV c.knotsV fixedV (uninit K 8)
      let cps ← forI 0 c.cps.length ([] : List T) fun i cps => do
        let combined ← forI 0 (c.degreeV + 1) (0 : T) fun j combined => do
          let b ← aget Nv j
          let p ← mget c.cps i (vSpan - c.degreeV + j)
          ok (combined + b • p)
        ok (cps ++ [combined])
      ok { degree := c.degreeU, knots := c.knotsU, cps := cps }
    else do
      let lo ← vget c.knotsU c.degreeU
      let hi ← vget c.knotsU ((c.knotsU.length : ℤ) - c.degreeU - 1)
      let fixedU ← clampR fixedParam lo hi
      let uSpan ← getKnotSpanIndex c.degreeU c.knotsU fixedU
      let Nu ← basisFunctions uSpan c.degreeU c.knotsU fixedU (uninit K 8)
      let cps ← forI 0 r0.length ([] : List T) fun j cps => do
        let combined ← forI 0 (c.degreeU + 1) (0 : T) fun i combined => do
          let b ← aget Nu i
          let p ← mget c.cps (uSpan - c.degreeU + i) j
          ok (combined + b • p)
        ok (cps ++ [combined])
      ok { degree := c.degreeV, knots := c.knotsV, cps := cps }

/-- `NurbsSurface::Swap`, Geometry/Surface/NurbsSurface.cpp:457-472. -/
def swapSurface (c : BsplineSurface K T) : Res (BsplineSurface K T) := do
  let t ← transposeM c.cps []
  ok { degreeU := c.degreeV, degreeV := c.degreeU, knotsU := c.knotsV, knotsV := c.knotsU, cps := t }

/-- The knot vector loop of `NurbsSurface::Reverse`, Geometry/Surface/NurbsSurface.cpp:487-496 and
502-511 (the same text for U and V). -/
def reverseKnots (U : List K) : Res (List K) := do
  let size : ℤ := U.length
  let min ← vget U 0
  let _max ← vget U (size - 1)
  let rk ← vset (List.replicate U.length (0 : K)) 0 min
  forI 1 size rk fun i rk => do
    let a ← vget rk (i - 1)
    let b ← vget U (size - i)
    let d ← vget U (size - i - 1)
    vset rk i (a + (b - d))

/-- `NurbsSurface::Reverse`, Geometry/Surface/NurbsSurface.cpp:474-546.  `result` is the caller's
output object: the knot vector of the direction that is not reversed is not assigned and keeps the
caller's value.  State of the swap loop: (`controlPoints`, `start`, `end`). -/
def reverseSurface (c : BsplineSurface K T) (direction : SurfaceDirection) (result : BsplineSurface K T) :
    Res (BsplineSurface K T) := do
  let result := { result with degreeU := c.degreeU, degreeV := c.degreeV }
  let result ← (if direction = .all ∨ direction = .uDirection then do
      let rk ← reverseKnots c.knotsU
      ok { result with knotsU := rk }
    else ok result : Res (BsplineSurface K T))
  let result ← (if direction = .all ∨ direction = .vDirection then do
      let rk ← reverseKnots c.knotsV
      ok { result with knotsV := rk }
    else ok result : Res (BsplineSurface K T))
  match direction with
  | .uDirection => do
    let row : ℤ := c.cps.length
    let r0 ← vget c.cps 0
    let cps ← forI 0 r0.length c.cps fun i cps => do
      let (cps, _, _) ← whileF (fun st : List (List T) × ℤ × ℤ => ok (decide (st.2.1 < st.2.2)))
        (fun (cps, start, stop) => do
          let a ← mget cps start i
          let b ← mget cps stop i
          let cps ← mset cps start i b
          let cps ← mset cps stop i a
          ok (cps, start + 1, stop - 1)) c.cps.length (cps, 0, row - 1)
      ok cps
    ok { result with cps := cps }
  | .vDirection =>
    -- `newControlPoints(size)` already holds `size` empty rows when the reversed rows are appended
    ok { result with cps := List.replicate c.cps.length [] ++ c.cps.map List.reverse }
  | .all => ok { result with cps := c.cps.reverse }

/-- `NurbsSurface::Reparametrize`, Geometry/Surface/NurbsSurface.cpp:1639-1657. -/
def reparametrizeSurface (c : BsplineSurface K T) (minU maxU minV maxV : K) : Res (BsplineSurface K T) := do
  let u0 ← vget c.knotsU 0
  let um ← vget c.knotsU ((c.knotsU.length : ℤ) - 1)
  let v0 ← vget c.knotsV 0
  let vm ← vget c.knotsV ((c.knotsV.length : ℤ) - 1)
  if (isAlmostEqualTo minU u0 && isAlmostEqualTo maxU um) || (isAlmostEqualTo minV v0 && isAlmostEqualTo maxV vm) then ok c
  else do
    let U' ← rescale c.knotsU minU maxU
    let V' ← rescale c.knotsV minV maxV
    ok { c with knotsU := U', knotsV := V' }

/-- Six `std::min`/`std::max` assignments that extend a box by a point,
Geometry/Surface/NurbsSurface.cpp:341-347. -/
def BoundingBox.extend (b : BoundingBox K) (p : XYZ K) : BoundingBox K :=
  ⟨⟨min b.lo.x p.x, min b.lo.y p.y, min b.lo.z p.z⟩, ⟨max b.hi.x p.x, max b.hi.y p.y, max b.hi.z p.z⟩⟩

/-- `NurbsSurface::GetBoundingBox`, Geometry/Surface/NurbsSurface.cpp:323-379.  As in the source the
second box starts at the origin (default constructed points), its samples use the knot pair
`(KnotVectorU[i], KnotVectorV[i])`, and the result is the intersection of the two boxes. -/
def NurbsSurface.boundingBox (c : NurbsSurface K) : Res (BoundingBox K) := do
  if c.cps.length = 0 then ok ⟨0, 0⟩
  else do
    let r0 ← vget c.cps 0
    if r0.length = 0 then ok ⟨0, 0⟩
    else do
      let p0 ← vget r0 0
      let box0 := c.cps.foldl (fun (b : BoundingBox K) row => row.foldl (fun (b : BoundingBox K) (q : XYZW K) => b.extend q.toXYZ) b) (⟨p0.toXYZ, p0.toXYZ⟩ : BoundingBox K)
      let box1 ← forI 0 (sizePred c.knotsU.length) (⟨0, 0⟩ : BoundingBox K) fun i box1 =>
        forI 0 (sizePred c.knotsV.length) box1 fun _ box1 => do
          let u ← vget c.knotsU i
          let v ← vget c.knotsV i
          let pt ← NurbsSurface.pointOnSurface c u v
          ok (box1.extend pt)
      ok ⟨⟨max box0.lo.x box1.lo.x, max box0.lo.y box1.lo.y, max box0.lo.z box1.lo.z⟩,
        ⟨min box0.hi.x box1.hi.x, min box0.hi.y box1.hi.y, min box0.hi.z box1.hi.z⟩⟩

/-- `NurbsSurface::CreateBilinearSurface`, Geometry/Surface/NurbsSurface.cpp:1692-1724.  `degree` is
the constant 3; the loop state is (`knotVector`, `controlPoints`), the two knot vectors being equal
throughout. -/
def createBilinearSurface (topLeft topRight bottomLeft bottomRight : XYZ K) : Res (NurbsSurface K) := do
  let (kv, cps) ← forI 0 4 (([] : List K), ([] : List (List (XYZW K)))) fun i (kv, cps) => do
    let l : K := 1 - ((i : ℤ) : K) / 3
    let row ← forI 0 4 ([] : List (XYZW K)) fun j row => do
      let d1 := l • topLeft + (1 - l) • bottomLeft
      let d2 := l • topRight + (1 - l) • bottomRight
      let res := (1 - ((j : ℤ) : K) / 3) • d1 + (((j : ℤ) : K) / 3) • d2
      ok (row ++ [XYZW.ofXYZ res 1])
    ok ((0 :: kv) ++ [1], cps ++ [row])
  ok { degreeU := 3, degreeV := 3, knotsU := kv, knotsV := kv, cps := cps }

end

end LNLib
