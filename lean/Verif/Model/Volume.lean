import Verif.Spec.Volume
import Verif.Model.Surface
import Verif.Model.CurveOps

/-!
# Model of Geometry/Volume/NurbsVolume.cpp

All paths are relative to /repo/src/LNLib.  `ElevateDegree` is in VolumeElevate.lean; `IsClosed`, `GetParamOnVolume` and `Check` are in VolumeQuery.lean.
-/

namespace LNLib
open Res

section
variable {K : Type} [Field K] [LinearOrder K]
variable {T : Type} [AddCommGroup T] [Module K T]

/-- The homogeneous point computed by `NurbsVolume::GetPointOnVolume`, Geometry/Volume/NurbsVolume.cpp:137-190, before the
final `ToXYZ(true)`.  There is no range check besides the one inside `GetKnotSpanIndex`. -/
def BsplineVolume.pointOnVolume (c : BsplineVolume K T) (u v w : K) : Res T := do
  let uspan ← getKnotSpanIndex c.degreeU c.knotsU u
  let basisU ← basisFunctions uspan c.degreeU c.knotsU u (uninit K 8)
  let vspan ← getKnotSpanIndex c.degreeV c.knotsV v
  let basisV ← basisFunctions vspan c.degreeV c.knotsV v (uninit K 8)
  let wspan ← getKnotSpanIndex c.degreeW c.knotsW w
  let basisW ← basisFunctions wspan c.degreeW c.knotsW w (uninit K 8)
  let temp2 := List.replicate (c.degreeW + 1).toNat (0 : T)
  let temp2 ← forI 0 (c.degreeW + 1) temp2 fun j temp2 => do
    let temp1 := List.replicate (c.degreeV + 1).toNat (0 : T)
    let temp1 ← forI 0 (c.degreeV + 1) temp1 fun l temp1 =>
      forI 0 (c.degreeU + 1) temp1 fun k temp1 => do
        let old ← vget temp1 l
        let b ← aget basisU k
        let p ← cget c.cps (uspan - c.degreeU + k) (vspan - c.degreeV + l) (wspan - c.degreeW + j)
        vset temp1 l (old + b • p)
    forI 0 (c.degreeV + 1) temp2 fun l temp2 => do
      let old ← vget temp2 j
      let b ← aget basisV l
      let x ← vget temp1 l
      vset temp2 j (old + b • x)
  forI 0 (c.degreeW + 1) (0 : T) fun j sw => do
    let b ← aget basisW j
    let x ← vget temp2 j
    ok (sw + b • x)

/-- `NurbsVolume::GetPointOnVolume`, Geometry/Volume/NurbsVolume.cpp:137-192. -/
def NurbsVolume.pointOnVolume (c : NurbsVolume K) (u v w : K) : Res (XYZ K) := do
  let sw ← BsplineVolume.pointOnVolume c u v w
  ok sw.toXYZ

/-- The homogeneous derivatives of `NurbsVolume::ComputeVolumeRationalDerivatives`,
Geometry/Volume/NurbsVolume.cpp:194-262.  As in the source the inner accumulation reads `temp2[y]` where `temp1[y]` was
computed (line 249).  Loop state: (`ders`, `temp1`, `temp2`). -/
def BsplineVolume.homogeneousDerivatives (c : BsplineVolume K T) (derivative : ℤ) (u v w : K) :
    Res (List (List (List T))) := do
  let nd := (derivative + 1).toNat
  let ders := List.replicate nd (List.replicate nd (List.replicate nd (0 : T)))
  let du := min derivative c.degreeU
  let dv := min derivative c.degreeV
  let dw := min derivative c.degreeW
  let uspan ← getKnotSpanIndex c.degreeU c.knotsU u
  let Nu ← basisFunctionsDerivatives uspan c.degreeU derivative c.knotsU u
  let vspan ← getKnotSpanIndex c.degreeV c.knotsV v
  let Nv ← basisFunctionsDerivatives vspan c.degreeV derivative c.knotsV v
  let wspan ← getKnotSpanIndex c.degreeW c.knotsW w
  let Nw ← basisFunctionsDerivatives wspan c.degreeW derivative c.knotsW w
  forI 0 (du + 1) ders fun a ders => do
    let ddb := min (derivative - a) dv
    forI 0 (ddb + 1) ders fun b ders => do
      let temp2 := List.replicate (c.degreeW + 1).toNat (0 : T)
      let temp2 ← forI 0 (c.degreeW + 1) temp2 fun z temp2 => do
        let temp1 := List.replicate (c.degreeV + 1).toNat (0 : T)
        let _temp1 ← forI 0 (c.degreeV + 1) temp1 fun y temp1 =>
          forI 0 (c.degreeU + 1) temp1 fun x temp1 => do
            let old ← vget temp1 y
            let b ← mget Nu a x
            let p ← cget c.cps (uspan - c.degreeU + x) (vspan - c.degreeV + y) (wspan - c.degreeW + z)
            vset temp1 y (old + b • p)
        forI 0 (c.degreeV + 1) temp2 fun y temp2 => do
          let old ← vget temp2 z
          let b ← mget Nv b y
          let x ← vget temp2 y
          vset temp2 z (old + b • x)
      let ddc := min (derivative - a - b) dw
      forI 0 (ddc + 1) ders fun cc ders =>
        forI 0 (c.degreeW + 1) ders fun z ders => do
          let old ← cget ders a b cc
          let bb ← mget Nw cc z
          let x ← vget temp2 z
          cset ders a b cc (old + bb • x)

/-- The rational part of `NurbsVolume::ComputeVolumeRationalDerivatives`, Geometry/Volume/NurbsVolume.cpp:264-336:
`Aders` and `wders` are the projections of `ders`. -/
def volumeRational (ders : List (List (List (XYZW K)))) (derivative : ℤ) : Res (List (List (List (XYZ K)))) := do
  let nd := (derivative + 1).toNat
  let aders := ders.map (List.map (List.map XYZW.raw))
  let wders := ders.map (List.map (List.map XYZW.w))
  forI 0 (derivative + 1) (List.replicate nd (List.replicate nd (List.replicate nd (0 : XYZ K)))) fun a derivatives =>
    forI 0 (derivative - a + 1) derivatives fun b derivatives =>
      forI 0 (derivative - a - b + 1) derivatives fun c derivatives => do
        let g ← cget aders a b c
        let g ← forI 1 (c + 1) g fun s g => do
          let b1 ← (binomial c s : Res K)
          let w ← cget wders 0 0 s
          let d ← cget derivatives a b (c - s)
          ok (g - (b1 * w) • d)
        let g ← forI 1 (b + 1) g fun j g =>
          forI 0 (c + 1) g fun s g => do
            let b1 ← (binomial b j : Res K)
            let b2 ← (binomial c s : Res K)
            let w ← cget wders 0 j s
            let d ← cget derivatives a (b - j) (c - s)
            ok (g - (b1 * b2 * w) • d)
        let g ← forI 1 (a + 1) g fun i g =>
          forI 0 (b + 1) g fun j g =>
            forI 0 (c + 1) g fun s g => do
              let b0 ← (binomial a i : Res K)
              let b1 ← (binomial b j : Res K)
              let b2 ← (binomial c s : Res K)
              let w ← cget wders i j s
              let d ← cget derivatives (a - i) (b - j) (c - s)
              ok (g - (b0 * b1 * b2 * w) • d)
        let w0 ← cget wders 0 0 0
        let q ← vdiv g w0
        cset derivatives a b c q

/-- `NurbsVolume::ComputeVolumeRationalDerivatives`, Geometry/Volume/NurbsVolume.cpp:194-336. -/
def NurbsVolume.rationalDerivatives (c : NurbsVolume K) (derivative : ℤ) (u v w : K) : Res (List (List (List (XYZ K)))) := do
  let ders ← BsplineVolume.homogeneousDerivatives c derivative u v w
  volumeRational ders derivative

/-- the two nested loops over all fibres of one direction that `InsertKnot` (Geometry/Volume/NurbsVolume.cpp:376-409,
419-452, 461-494), `RefineKnotVector` (865-898, 907-940, 949-982) and `Reverse` (1426-1459, 1474-1504, 1517-1547) share: gather
the control points of a fibre, apply a curve operation, scatter the resulting control points into `newControlPoints`, remember the
resulting knot vector.  `outer`, `inner`: loop bounds (exclusive); `len`: number of control points of a fibre. -/
def fibreLoop (outer inner len : ℤ) (read : ℤ → ℤ → ℤ → Res T)
    (write : List (List (List T)) → ℤ → ℤ → ℤ → T → Res (List (List (List T)))) (degree : ℤ) (knots : List K)
    (op : BsplineCurve K T → Res (BsplineCurve K T)) (net : List (List (List T))) : Res (List K × List (List (List T))) :=
  forI 0 outer (([] : List K), net) fun o st =>
    forI 0 inner st fun i (_, net) => do
      let pts ← forI 0 len (List.replicate len.toNat (0 : T)) fun k pts => do
        let x ← read o i k
        vset pts k x
      let r ← op { degree := degree, knots := knots, cps := pts }
      let net ← forI 0 r.cps.length net fun k net => do
        let x ← vget r.cps k
        write net o i k x
      ok (r.knots, net)

/-- `n`, `m`, `l`: the last control point indices, e.g. Geometry/Volume/NurbsVolume.cpp:350-352. -/
def BsplineVolume.sizes (c : BsplineVolume K T) : Res (ℤ × ℤ × ℤ) := do
  let c0 ← vget c.cps 0
  let c00 ← vget c0 0
  ok ((c.cps.length : ℤ) - 1, (c0.length : ℤ) - 1, (c00.length : ℤ) - 1)

/-- `newControlPoints.resize(a, vector(b, vector(d)))` -/
def newNet (a b d : ℤ) : List (List (List T)) := List.replicate a.toNat (List.replicate b.toNat (List.replicate d.toNat (0 : T)))

/-- the U, V and W branches of the operations that work fibre by fibre; `net` is the freshly sized `newControlPoints`. -/
def alongFibres (c : BsplineVolume K T) (direction : VolumeDirection) (n m l : ℤ)
    (op : BsplineCurve K T → Res (BsplineCurve K T)) (net : List (List (List T))) : Res (BsplineVolume K T) :=
  match direction with
  | .u => do
    let (kv, net) ← fibreLoop (l + 1) (m + 1) (n + 1) (fun sep col i => cget c.cps i col sep)
      (fun net sep col i x => cset net i col sep x) c.degreeU c.knotsU op net
    ok { c with knotsU := kv, cps := net }
  | .v => do
    let (kv, net) ← fibreLoop (l + 1) (n + 1) (m + 1) (fun sep row j => cget c.cps row j sep)
      (fun net sep row j x => cset net row j sep x) c.degreeV c.knotsV op net
    ok { c with knotsV := kv, cps := net }
  | .w => do
    let (kv, net) ← fibreLoop (m + 1) (n + 1) (l + 1) (fun col row k => cget c.cps row col k)
      (fun net col row k x => cset net row col k x) c.degreeW c.knotsW op net
    ok { c with knotsW := kv, cps := net }

/-- the size of `newControlPoints` when `t` control points are added in one direction,
Geometry/Volume/NurbsVolume.cpp:359-370 and 847-858. -/
def grownNet (direction : VolumeDirection) (n m l t : ℤ) : List (List (List T)) :=
  match direction with
  | .u => newNet (n + t + 1) (m + 1) (l + 1)
  | .v => newNet (n + 1) (m + t + 1) (l + 1)
  | .w => newNet (n + 1) (m + 1) (l + t + 1)

/-- `NurbsVolume::InsertKnot`, Geometry/Volume/NurbsVolume.cpp:338-484.  Each fibre is inserted into a default constructed curve
(degree 1, no knots, no control points; include/LNObject.h:37-42). -/
def insertKnotVolume (c : BsplineVolume K T) (knot : K) (times : ℤ) (direction : VolumeDirection) : Res (BsplineVolume K T) := do
  let (n, m, l) ← c.sizes
  alongFibres c direction n m l (fun crv => do
    let (_, r) ← insertKnot crv knot times { degree := 1, knots := [], cps := [] }
    ok r) (grownNet direction n m l times)

/-- `NurbsVolume::RefineKnotVector`, Geometry/Volume/NurbsVolume.cpp:826-985.  As in the source `times` is one less than the number
of new knots. -/
def refineVolume (c : BsplineVolume K T) (X : List K) (direction : VolumeDirection) : Res (BsplineVolume K T) := do
  let (n, m, l) ← c.sizes
  let times : ℤ := (X.length : ℤ) - 1
  alongFibres c direction n m l (fun crv => refineKnotVector crv X) (grownNet direction n m l times)

/-- `NurbsVolume::Reverse`, Geometry/Volume/NurbsVolume.cpp:1400-1557.  As in the source `newControlPoints` is sized in the U branch
only. -/
def reverseVolume (c : BsplineVolume K T) (direction : VolumeDirection) : Res (BsplineVolume K T) := do
  let (n, m, l) ← c.sizes
  alongFibres c direction n m l reverseCurve (if direction = .u then newNet (n + 1) (m + 1) (l + 1) else [])

/-- `std::vector(l.begin(), l.begin() + e)`: undefined outside `[0, size]`. -/
def takeR {α : Type} (l : List α) (e : ℤ) : Res (List α) := if 0 ≤ e ∧ e ≤ l.length then ok (l.take e.toNat) else ub

/-- `std::vector(l.begin() + e, l.end())`: undefined outside `[0, size]`. -/
def dropR {α : Type} (l : List α) (e : ℤ) : Res (List α) := if 0 ≤ e ∧ e ≤ l.length then ok (l.drop e.toNat) else ub

/-- `for (i …) out[i] = f(in[i]);` with `out` resized to the size of `in`. -/
def mapR {α β : Type} (f : α → Res β) : List α → Res (List β)
  | [] => ok []
  | x :: l => do
    let y ← f x
    let r ← mapR f l
    ok (y :: r)

/-- The preparation shared by the three branches of `SplitAt` and `Extract`, e.g. Geometry/Volume/NurbsVolume.cpp:511-527: span and
multiplicity of the parameter after the knot has been raised to multiplicity `degree`. -/
def raiseKnot (c : BsplineVolume K T) (degree : ℤ) (kv : BsplineVolume K T → List K) (parameter : K) (direction : VolumeDirection) :
    Res (BsplineVolume K T × ℤ × ℤ) := do
  let k ← getKnotSpanIndex degree (kv c) parameter
  let s ← getKnotMultiplicity (kv c) parameter
  let rr := degree - s
  if rr > 0 then do
    let c' ← insertKnotVolume c parameter rr direction
    let k ← getKnotSpanIndex degree (kv c') parameter
    let s ← getKnotMultiplicity (kv c') parameter
    ok (c', k, s)
  else ok (c, k, s)

/-- the two knot vectors of `SplitAt`, e.g. Geometry/Volume/NurbsVolume.cpp:529-535 -/
def splitKnots (kv : List K) (k s : ℤ) (parameter : K) : Res (List K × List K) := do
  let left := kv.take (k + 2).toNat ++ List.replicate ((k + 2).toNat - kv.length) (0 : K)
  let left ← vset left (k + 1) parameter
  let right ← dropR kv (k - s + 1)
  ok (left, parameter :: right)

/-- `NurbsVolume::SplitAt`, Geometry/Volume/NurbsVolume.cpp:486-671; the answer is always `true`. -/
def splitVolume (c : BsplineVolume K T) (parameter : K) (direction : VolumeDirection) : Res (BsplineVolume K T × BsplineVolume K T) :=
  match direction with
  | .u => do
    let a ← vget c.knotsU 0
    let b ← vget c.knotsU ((c.knotsU.length : ℤ) - 1)
    if isAlmostEqualTo parameter a || isAlmostEqualTo parameter b then ok (c, c)
    else do
      let (c1, k, s) ← raiseKnot c c.degreeU (fun c => c.knotsU) parameter .u
      let (kl, kr) ← splitKnots c1.knotsU k s parameter
      let pl ← takeR c1.cps (k - s + 1)
      let pr ← dropR c1.cps (k - s)
      ok ({ c1 with knotsU := kl, cps := pl }, { c1 with knotsU := kr, cps := pr })
  | .v => do
    let a ← vget c.knotsV 0
    let b ← vget c.knotsV ((c.knotsV.length : ℤ) - 1)
    if isAlmostEqualTo parameter a || isAlmostEqualTo parameter b then ok (c, c)
    else do
      let (c1, k, s) ← raiseKnot c c.degreeV (fun c => c.knotsV) parameter .v
      let (kl, kr) ← splitKnots c1.knotsV k s parameter
      let pl ← mapR (fun x => takeR x (k - s + 1)) c1.cps
      let pr ← mapR (fun x => dropR x (k - s)) c1.cps
      ok ({ c1 with knotsV := kl, cps := pl }, { c1 with knotsV := kr, cps := pr })
  | .w => do
    let a ← vget c.knotsW 0
    let b ← vget c.knotsW ((c.knotsW.length : ℤ) - 1)
    if isAlmostEqualTo parameter a || isAlmostEqualTo parameter b then ok (c, c)
    else do
      let (c1, k, s) ← raiseKnot c c.degreeW (fun c => c.knotsW) parameter .w
      let (kl, kr) ← splitKnots c1.knotsW k s parameter
      let pl ← mapR (mapR fun x => takeR x (k - s + 1)) c1.cps
      let pr ← mapR (mapR fun x => dropR x (k - s)) c1.cps
      ok ({ c1 with knotsW := kl, cps := pl }, { c1 with knotsW := kr, cps := pr })

/-- The surface that `NurbsVolume::Extract` (Geometry/Volume/NurbsVolume.cpp:673-824) assembles in its local variables.  At the two
ends of the parameter range `newDegreeU` and `newDegreeV` are read without having been assigned: undefined behaviour. -/
def extractLocal (c : BsplineVolume K T) (parameter : K) (direction : VolumeDirection) : Res (BsplineSurface K T) :=
  match direction with
  | .u => do
    let a ← vget c.knotsU 0
    let b ← vget c.knotsU ((c.knotsU.length : ℤ) - 1)
    if isAlmostEqualTo parameter a || isAlmostEqualTo parameter b then ub
    else do
      let (c1, k, s) ← raiseKnot c c.degreeU (fun c => c.knotsU) parameter .u
      let pwc ← vget c1.cps (k - s)
      ok { degreeU := c1.degreeV, degreeV := c1.degreeW, knotsU := c1.knotsV, knotsV := c1.knotsW, cps := pwc }
  | .v => do
    let a ← vget c.knotsV 0
    let b ← vget c.knotsV ((c.knotsV.length : ℤ) - 1)
    if isAlmostEqualTo parameter a || isAlmostEqualTo parameter b then ub
    else do
      let (c1, k, s) ← raiseKnot c c.degreeV (fun c => c.knotsV) parameter .v
      let pwc ← mapR (fun x => vget x (k - s)) c1.cps
      ok { degreeU := c1.degreeW, degreeV := c1.degreeU, knotsU := c1.knotsW, knotsV := c1.knotsU, cps := pwc }
  | .w => do
    let a ← vget c.knotsW 0
    let b ← vget c.knotsW ((c.knotsW.length : ℤ) - 1)
    if isAlmostEqualTo parameter a || isAlmostEqualTo parameter b then ub
    else do
      let (c1, k, s) ← raiseKnot c c.degreeW (fun c => c.knotsW) parameter .w
      let pwc ← mapR (mapR fun x => vget x (k - s)) c1.cps
      ok { degreeU := c1.degreeU, degreeV := c1.degreeV, knotsU := c1.knotsU, knotsV := c1.knotsV, cps := pwc }

/-- `NurbsVolume::Extract`, Geometry/Volume/NurbsVolume.cpp:673-824.  The parameter `surface` is passed by value: the second
component of the answer, the caller's object, is the one that was passed in. -/
def extractVolume (c : BsplineVolume K T) (parameter : K) (direction : VolumeDirection) (surface : BsplineSurface K T) :
    Res (Bool × BsplineSurface K T) := do
  let _local ← extractLocal c parameter direction
  ok (true, surface)

/-- the loops of `NurbsVolume::Swap`: `newControlPoints` of size `a × b × d` filled from `read`. -/
def tabulate (a b d : ℕ) (read : ℤ → ℤ → ℤ → Res T) : Res (List (List (List T))) :=
  mapR (fun i => mapR (fun j => mapR (fun k => read i j k) ((List.range d).map fun x : ℕ => (x : ℤ))) ((List.range b).map fun x : ℕ => (x : ℤ)))
    ((List.range a).map fun x : ℕ => (x : ℤ))

/-- `NurbsVolume::Swap`, Geometry/Volume/NurbsVolume.cpp:1559-1649.  `result` is the caller's output object, unchanged for the
combinations that the source does not mention. -/
def swapVolume (c : BsplineVolume K T) (direction swap : VolumeDirection) (result : BsplineVolume K T) : Res (BsplineVolume K T) := do
  let c0 ← vget c.cps 0
  let c00 ← vget c0 0
  match direction, swap with
  | .u, .v => do
    let net ← tabulate c0.length c.cps.length c00.length fun j i k => cget c.cps i j k
    ok { degreeU := c.degreeV, degreeV := c.degreeU, degreeW := c.degreeW, knotsU := c.knotsV, knotsV := c.knotsU, knotsW := c.knotsW, cps := net }
  | .u, .w => do
    let net ← tabulate c00.length c0.length c.cps.length fun k j i => cget c.cps i j k
    ok { degreeU := c.degreeW, degreeV := c.degreeV, degreeW := c.degreeU, knotsU := c.knotsW, knotsV := c.knotsV, knotsW := c.knotsU, cps := net }
  | .v, .w => do
    let net ← tabulate c.cps.length c00.length c0.length fun i k j => cget c.cps i j k
    ok { degreeU := c.degreeU, degreeV := c.degreeW, degreeW := c.degreeV, knotsU := c.knotsU, knotsV := c.knotsW, knotsW := c.knotsV, cps := net }
  | _, _ => ok result

/-- the lambda `clampParam` of `GetIsoCurve`, Geometry/Volume/NurbsVolume.cpp:31-35 -/
def clampParam (t : K) (kv : List K) (degree : ℤ) : Res K := do
  let lo ← vget kv degree
  let hi ← vget kv ((kv.length : ℤ) - degree - 1)
  clampR t lo hi

/-- the loop nest of one branch of `GetIsoCurve`, e.g. Geometry/Volume/NurbsVolume.cpp:53-66 -/
def isoLoop (size : ℤ) (da db : ℤ) (Na Nb : List (Option K)) (read : ℤ → ℤ → ℤ → Res T) : Res (List T) :=
  forI 0 size ([] : List T) fun i cps => do
    let pt ← forI 0 (da + 1) (0 : T) fun j pt =>
      forI 0 (db + 1) pt fun k pt => do
        let x ← aget Na j
        let y ← aget Nb k
        let p ← read i j k
        ok (pt + (x * y) • p)
    ok (cps ++ [pt])

/-- `NurbsVolume::GetIsoCurve`, Geometry/Volume/NurbsVolume.cpp:19-135. -/
def isoCurveVolume (c : BsplineVolume K T) (u v w : K) : Res (BsplineCurve K T) := do
  if c.cps.length = 0 then ok { degree := 1, knots := [], cps := [] }
  else do
    let c0 ← vget c.cps 0
    if c0.length = 0 then ok { degree := 1, knots := [], cps := [] }
    else do
      let c00 ← vget c0 0
      if isAlmostEqualTo u (-1) then do
        let v ← clampParam v c.knotsV c.degreeV
        let w ← clampParam w c.knotsW c.degreeW
        let vs ← getKnotSpanIndex c.degreeV c.knotsV v
        let ws ← getKnotSpanIndex c.degreeW c.knotsW w
        let Nv ← basisFunctions vs c.degreeV c.knotsV v (uninit K 8)
        let Nw ← basisFunctions ws c.degreeW c.knotsW w (uninit K 8)
        let cps ← isoLoop c.cps.length c.degreeV c.degreeW Nv Nw fun u j k => cget c.cps u (vs - c.degreeV + j) (ws - c.degreeW + k)
        ok { degree := c.degreeU, knots := c.knotsU, cps := cps }
      else if isAlmostEqualTo v (-1) then do
        let u ← clampParam u c.knotsU c.degreeU
        let w ← clampParam w c.knotsW c.degreeW
        let us ← getKnotSpanIndex c.degreeU c.knotsU u
        let ws ← getKnotSpanIndex c.degreeW c.knotsW w
        let Nu ← basisFunctions us c.degreeU c.knotsU u (uninit K 8)
        let Nw ← basisFunctions ws c.degreeW c.knotsW w (uninit K 8)
        let cps ← isoLoop c0.length c.degreeU c.degreeW Nu Nw fun v i k => cget c.cps (us - c.degreeU + i) v (ws - c.degreeW + k)
        ok { degree := c.degreeV, knots := c.knotsV, cps := cps }
      else if isAlmostEqualTo w (-1) then do
        let u ← clampParam u c.knotsU c.degreeU
        let v ← clampParam v c.knotsV c.degreeV
        let us ← getKnotSpanIndex c.degreeU c.knotsU u
        let vs ← getKnotSpanIndex c.degreeV c.knotsV v
        let Nu ← basisFunctions us c.degreeU c.knotsU u (uninit K 8)
        let Nv ← basisFunctions vs c.degreeV c.knotsV v (uninit K 8)
        let cps ← isoLoop c00.length c.degreeU c.degreeV Nu Nv fun w i j => cget c.cps (us - c.degreeU + i) (vs - c.degreeV + j) w
        ok { degree := c.degreeW, knots := c.knotsW, cps := cps }
      else ok { degree := 1, knots := [], cps := [] }

end

end LNLib
