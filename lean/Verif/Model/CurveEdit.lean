import Verif.Model.CurveOps
import Verif.Model.KnotVector
import Verif.Model.Interp

/-!
# Model of Extract, Merge, ReduceDegree, CreateLine and CreateCubicHermite (Geometry/Curve/NurbsCurve.cpp)

All paths are relative to /repo/src/LNLib.
-/

namespace LNLib
open Res

/-- `v.assign(w.begin() + a, w.begin() + b)`: undefined behaviour when the range is not inside `w`. -/
def sliceR {α : Type} (l : List α) (a b : ℤ) : Res (List α) :=
  if 0 ≤ a ∧ a ≤ b ∧ b ≤ l.length then ok ((l.drop a.toNat).take (b - a).toNat) else ub

section
variable {K : Type} [Field K] [LinearOrder K]
variable {T : Type} [AddCommGroup T] [Module K T]

/-- `kmap[key]` on a `std::map<double, int>`: an absent key is value-initialised to 0. -/
def KnotMap.at (m : KnotMap K) (key : K) : ℤ := (KnotMap.find key m).getD 0

/-- `NurbsCurve::Extract`, Geometry/Curve/NurbsCurve.cpp:1588-1620.  The output argument of the two
`InsertKnot` calls is their own input curve. -/
def extractCurve (c : BsplineCurve K T) (startParameter endParameter : K) : Res (BsplineCurve K T) := do
  let degree := c.degree
  let u0 ← vget c.knots 0
  let um ← vget c.knots ((c.knots.length : ℤ) - 1)
  validateRange startParameter u0 um
  validateRange endParameter u0 um
  validate (isLessThan startParameter endParameter)
  let kmap := getKnotMultiplicityMap c.knots
  let insertCountStart := (degree + 1) - kmap.at startParameter
  let temp ← (if insertCountStart > 0 then do
      let (_, r) ← insertKnot c startParameter insertCountStart c
      ok r
    else ok c : Res (BsplineCurve K T))
  let insertCountEnd := (degree + 1) - kmap.at endParameter
  let temp ← (if insertCountEnd > 0 then do
      let (_, r) ← insertKnot temp endParameter insertCountEnd temp
      ok r
    else ok temp : Res (BsplineCurve K T))
  let ks ← getKnotSpanIndex degree temp.knots startParameter
  let ke ← getKnotSpanIndex degree temp.knots endParameter
  let knots ← sliceR temp.knots ks (ke + 2)
  let cps ← sliceR temp.cps (ks - degree) (ke + 1)
  ok { degree := degree, knots := knots, cps := cps }

/-- One side of `NurbsCurve::Merge`: reparametrise to [0,1], after degree elevation when the other curve has the larger degree;
Geometry/Curve/NurbsCurve.cpp:1638-1656.  `elevate` is `ElevateDegree`. -/
def mergeSide (elevate : NurbsCurve K → ℤ → Res (NurbsCurve K)) (c : NurbsCurve K) (degree : ℤ) : Res (NurbsCurve K) := do
  let temp ← reparametrizeLinear c 0 1
  if degree > c.degree then do
    let e ← elevate c (degree - c.degree)
    reparametrizeLinear e 0 1
  else ok temp

/-- `NurbsCurve::Merge`, Geometry/Curve/NurbsCurve.cpp:1622-1695; `none` is the answer `false`.  Degree elevation is a parameter
(it is not called for curves of equal degree). -/
def mergeCurves (elevate : NurbsCurve K → ℤ → Res (NurbsCurve K)) (left right : NurbsCurve K) : Res (Option (NurbsCurve K)) := do
  let a ← vget left.cps ((left.cps.length : ℤ) - 1)
  let b ← vget right.cps 0
  if !(a.toXYZ.almostEq b.toXYZ) then ok none
  else do
    let degree := max left.degree right.degree
    let tempL ← mergeSide elevate left degree
    let tempR ← mergeSide elevate right degree
    let ul ← vget tempL.knots ((tempL.knots.length : ℤ) - 1)
    let l ← getKnotMultiplicity tempL.knots ul
    let ur ← vget tempR.knots 0
    let r ← getKnotMultiplicity tempR.knots ur
    if l ≠ degree + 1 ∨ r ≠ degree + 1 then ok none
    else do
      let cps := tempL.cps ++ tempR.cps
      let tempR ← reparametrizeLinear tempR 1 2
      let knots ← forI (degree + 1) tempR.knots.length tempL.knots fun i kv => do
        let x ← vget tempR.knots i
        ok (kv ++ [x])
      let knots ← rescale knots 0 1
      ok (some { degree := degree, knots := knots, cps := cps })

/-- `NurbsCurve::CreateLine`, Geometry/Curve/NurbsCurve.cpp:1713-1728. -/
def createLine (start end' : XYZ K) : Res (NurbsCurve K) := do
  validate (!(start.almostEq end'))
  ok { degree := 1, knots := [0, 0, 1, 1], cps := [XYZW.ofXYZ start 1, XYZW.ofXYZ end' 1] }

/-- The knots and control points of `NurbsCurve::CreateCubicHermite` from the parameters on,
Geometry/Curve/NurbsCurve.cpp:1741-1786. -/
def cubicHermite (throughPoints tangents : List (XYZ K)) (uk : List K) : Res (NurbsCurve K) := do
  let n : ℤ := throughPoints.length
  validate (decide (n > 3))
  validate (decide (n = tangents.length))
  let startPoint ← vget throughPoints 0
  let endPoint ← vget throughPoints (n - 1)
  let startTangent ← vget tangents 0
  let endTangent ← vget tangents ((tangents.length : ℤ) - 1)
  let isCyclePoint := startPoint.almostEq endPoint
  let isCycleTangent := startTangent.almostEq endTangent
  let kn := 2 * n
  let knotSize := kn + 3 + 1
  let kv ← forI 0 n (List.replicate knotSize.toNat (0 : K)) fun j kv => do
    let u ← vget uk j
    let kv ← vset kv (2 + 2 * j + 1) u
    vset kv (2 + 2 * j) u
  let kv ← (if isCyclePoint && isCycleTangent then do
      let u0 ← vget uk 0
      let a ← vget uk (n - 1)
      let b ← vget uk (n - 2)
      let kv ← vset kv 1 (u0 - (a - b))
      let kv ← vset kv 0 (u0 - (a - b))
      let u1 ← vget uk 1
      let kv ← vset kv (kn + 3) (a + u1 - u0)
      vset kv (kn + 2) (a + u1 - u0)
    else if isCyclePoint && !isCycleTangent then do
      let u0 ← vget uk 0
      let a ← vget uk (n - 1)
      let b ← vget uk (n - 2)
      let kv ← vset kv 0 (u0 - (a - b))
      let k2 ← vget kv 2
      let kv ← vset kv 1 k2
      let k ← vget kv kn
      let kv ← vset kv (kn + 2) k
      let u1 ← vget uk 1
      vset kv (kn + 3) (a + u1 - u0)
    else do
      let k2 ← vget kv 2
      let kv ← vset kv 1 k2
      let kv ← vset kv 0 k2
      let k ← vget kv kn
      let kv ← vset kv (kn + 3) k
      vset kv (kn + 2) k : Res (List K))
  let cps ← forI 0 n (List.replicate kn.toNat (0 : XYZW K)) fun coef cps => do
    let j := 2 * coef
    let a ← vget kv (j + 3)
    let b ← vget kv (j + 1)
    let i1 := a - b
    let a ← vget kv (j + 4)
    let b ← vget kv (j + 2)
    let i2 := a - b
    let q ← vget throughPoints coef
    let t ← vget tangents coef
    let d1 ← vdiv (i1 • t) (3 : K)
    let cps ← vset cps j (XYZW.ofXYZ (q - d1) 1)
    let d2 ← vdiv (i2 • t) (3 : K)
    vset cps (j + 1) (XYZW.ofXYZ (q + d2) 1)
  ok { degree := 3, knots := kv, cps := cps }

end

noncomputable section

/-- `NurbsCurve::CreateCubicHermite`, Geometry/Curve/NurbsCurve.cpp:1730-1786. -/
def createCubicHermite (throughPoints tangents : List (XYZ ℝ)) : Res (NurbsCurve ℝ) := do
  validate (decide ((throughPoints.length : ℤ) > 3))
  validate (decide ((throughPoints.length : ℤ) = tangents.length))
  let uk ← getChordParameterization throughPoints
  cubicHermite throughPoints tangents uk

/-- `XYZW::Distance`, Mathematics/Math/XYZW.cpp:124-128. -/
def XYZW.distance (a b : XYZW ℝ) : ℝ := Real.sqrt ((b.wx - a.wx) ^ 2 + (b.wy - a.wy) ^ 2 + (b.wz - a.wz) ^ 2 + (b.w - a.w) ^ 2)

/-- `ValidationUtils::ComputeCurveModifyTolerance`, Algorithm/ValidationUtils.cpp:43-57. -/
def curveModifyTolerance (cps : List (XYZW ℝ)) : ℝ :=
  let st := cps.foldl (fun (st : ℝ × ℝ) (q : XYZW ℝ) => (min st.1 q.w, max st.2 q.toXYZ.length)) (1, 0)
  distEps * st.1 / (1 + |st.2|)

/-- `NurbsCurve::ReduceDegree`, Geometry/Curve/NurbsCurve.cpp:1095-1166; `none` is the answer `false`. -/
def reduceDegree (c : NurbsCurve ℝ) : Res (Option (NurbsCurve ℝ)) := do
  let degree := c.degree
  let P := c.cps
  let tol := curveModifyTolerance P
  if !(isValidBezier degree P.length) then ok none
  else do
    let r := (degree - 1) / 2
    let p0 ← vget P 0
    let Q ← vset (List.replicate degree.toNat (0 : XYZW ℝ)) 0 p0
    let pl ← vget P degree
    let Q ← vset Q (degree - 1) pl
    let alpha ← forI 0 degree (List.replicate degree.toNat (0 : ℝ)) fun i alpha => do
      let q ← fdiv ((i : ℤ) : ℝ) ((degree : ℤ) : ℝ)
      vset alpha i q
    let lower := fun (i : ℤ) (Q : List (XYZW ℝ)) => do
      let p ← vget P i
      let a ← vget alpha i
      let q ← vget Q (i - 1)
      vdiv (p - a • q) (1 - a)
    let upper := fun (i : ℤ) (Q : List (XYZW ℝ)) => do
      let p ← vget P (i + 1)
      let a ← vget alpha (i + 1)
      let q ← vget Q (i + 1)
      vdiv (p - (1 - a) • q) a
    let (Q, error) ← (if degree % 2 = 0 then do
        let Q ← forI 1 (r + 1) Q fun i Q => do
          let x ← lower i Q
          vset Q i x
        let Q ← forDown (degree - 2) (r + 1) Q fun i Q => do
          let x ← upper i Q
          vset Q i x
        let p ← vget P (r + 1)
        let q0 ← vget Q r
        let q1 ← vget Q (r + 1)
        let error := p.distance ((1 / 2 : ℝ) • (q0 + q1))
        let c ← (binomial degree (r + 1) : Res ℝ)
        ok (Q, error * (c * (1 / 2) ^ (r + 1).toNat * (1 - 1 / 2) ^ (degree - r - 1).toNat))
      else do
        let Q ← forI 1 r Q fun i Q => do
          let x ← lower i Q
          vset Q i x
        let Q ← forDown (degree - 2) (r + 1) Q fun i Q => do
          let x ← upper i Q
          vset Q i x
        let PLr ← lower r Q
        let PRr ← upper r Q
        let Q ← vset Q r ((1 / 2 : ℝ) • (PLr + PRr))
        let error := PLr.distance PRr
        let maxU ← fdiv (((degree : ℤ) : ℝ) - Real.sqrt ((degree : ℤ) : ℝ)) (2 * ((degree : ℤ) : ℝ))
        let a ← vget alpha r
        let c ← (binomial degree r : Res ℝ)
        ok (Q, error * (1 / 2) * (1 - a) * (c * maxU ^ r.toNat * (1 - maxU) ^ (r + 1).toNat * (1 - 2 * maxU))) : Res (List (XYZW ℝ) × ℝ))
    if error > tol then ok none
    else do
      let map := getKnotMultiplicityMap c.knots
      let knots := map.foldl (fun (kv : List ℝ) (e : ℝ × ℤ) => kv ++ List.replicate (e.2 - 1).toNat e.1) []
      ok (some { degree := degree - 1, knots := knots, cps := Q })

end
end LNLib
