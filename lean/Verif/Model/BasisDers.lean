import Verif.Core.Arr2
import Verif.Model.Curve

/-!
# Model of the derivative part of Algorithm/Polynomials.cpp, include/BsplineCurve.h and
# Geometry/Curve/NurbsCurve.cpp

All paths are relative to /repo/src/LNLib.
-/

namespace LNLib
open Res

section
variable {K : Type} [Field K] [LinearOrder K]
variable {T : Type} [AddCommGroup T] [Module K T]

/-- A `std::vector<std::vector<double>>(r, std::vector<double>(c))`: every cell is initialised to
zero. -/
def zeros2 (K : Type) [Field K] (r c : ℕ) : List (List (Option K)) :=
  List.replicate r (List.replicate c (some 0))

/-- The triangular table loop.  The same text appears three times:
Algorithm/Polynomials.cpp:209-233 (`BasisFunctionsDerivatives`), 308-332
(`BasisFunctionsFirstOrderDerivative`) and 553-571 (`AllBasisFunctions`); only the storage of
`ndu`, `left` and `right` differs, so it is a parameter.  The outer loop state is (`ndu`, `left`,
`right`), the inner one (`ndu`, `saved`). -/
def nduTable (spanIndex degree : ℤ) (U : List K) (t : K) (ndu : List (List (Option K)))
    (left right : List (Option K)) : Res (List (List (Option K))) := do
  let ndu ← aset2 ndu 0 0 1
  let (ndu, _, _) ← forI 1 (degree + 1) (ndu, left, right) fun j (ndu, left, right) => do
    let ul ← vget U (spanIndex + 1 - j)
    let left ← aset left j (t - ul)
    let ur ← vget U (spanIndex + j)
    let right ← aset right j (ur - t)
    let (ndu, saved) ← forI 0 j (ndu, (0 : K)) fun r (ndu, saved) => do
      let rr ← aget right (r + 1)
      let lr ← aget left (j - r)
      let ndu ← aset2 ndu j r (rr + lr)
      let num ← aget2 ndu r (j - 1)
      let den ← aget2 ndu j r
      let temp ← fdiv num den
      let ndu ← aset2 ndu r j (saved + rr * temp)
      ok (ndu, lr * temp)
    let ndu ← aset2 ndu j j saved
    ok (ndu, left, right)
  ok ndu

/-- One round `k` for basis function `r` of the coefficient recursion: the text
Algorithm/Polynomials.cpp:249-281 (`BasisFunctionsDerivatives`) and 347-379
(`BasisFunctionsFirstOrderDerivative`, `k = 1`).  Returns the two-row table `a` and the value `d`. -/
def dersRound (degree : ℤ) (ndu : List (List (Option K))) (r k : ℤ) (a : List (List (Option K)))
    (s1 s2 : ℤ) : Res (List (List (Option K)) × K) := do
  let d : K := 0
  let rk := r - k
  let pk := degree - k
  let (a, d) ← (if r ≥ k then do
      let x ← aget2 a s1 0
      let y ← aget2 ndu (pk + 1) rk
      let q ← fdiv x y
      let a ← aset2 a s2 0 q
      let z ← aget2 ndu rk pk
      ok (a, q * z)
    else ok (a, d) : Res (List (List (Option K)) × K))
  let j1 : ℤ := if rk ≥ -1 then 1 else -rk
  let j2 : ℤ := if r - 1 ≤ pk then k - 1 else degree - r
  let (a, d) ← forI j1 (j2 + 1) (a, d) fun j (a, d) => do
    let x ← aget2 a s1 j
    let x' ← aget2 a s1 (j - 1)
    let y ← aget2 ndu (pk + 1) (rk + j)
    let q ← fdiv (x - x') y
    let a ← aset2 a s2 j q
    let z ← aget2 ndu (rk + j) pk
    ok (a, d + q * z)
  if r ≤ pk then do
    let x ← aget2 a s1 (k - 1)
    let y ← aget2 ndu (pk + 1) r
    let q ← fdiv (-x) y
    let a ← aset2 a s2 k q
    let z ← aget2 ndu r pk
    ok (a, d + q * z)
  else ok (a, d)

/-- `Polynomials::BasisFunctionsDerivatives`, Algorithm/Polynomials.cpp:195-298.  The state of the
loop over `k` is (`a`, `s1`, `s2`, `derivatives`).  The factor `r *= degree - k` is an `int`
(at most `7!`, no overflow) converted to `double`. -/
def basisFunctionsDerivatives (spanIndex degree derivative : ℤ) (U : List K) (t : K) :
    Res (List (List K)) := do
  validate (spanIndex ≥ 0)
  validate (degree ≥ 0 ∧ degree ≤ nurbsMaxDegree)
  validate (derivative ≤ degree)
  validate (U.length > 0)
  validate (isValidKnotVector U)
  let first ← vget U 0
  let last ← vget U ((U.length : ℤ) - 1)
  validateRange t first last
  let p1 := (degree + 1).toNat
  let derivatives := List.replicate (derivative + 1).toNat (List.replicate p1 (0 : K))
  let ndu ← nduTable spanIndex degree U t (zeros2 K p1 p1) (uninit K 8) (uninit K 8)
  let derivatives ← forI 0 (degree + 1) derivatives fun j derivatives => do
    let x ← aget2 ndu j degree
    mset derivatives 0 j x
  let (_, derivatives) ← forI 0 (degree + 1) (zeros2 K 2 p1, derivatives) fun r (a, derivatives) => do
    let a ← aset2 a 0 0 1
    let (a, _, _, derivatives) ← forI 1 (derivative + 1) (a, (0 : ℤ), (1 : ℤ), derivatives)
      fun k (a, s1, s2, derivatives) => do
        let (a, d) ← dersRound degree ndu r k a s1 s2
        let derivatives ← mset derivatives k r d
        ok (a, s2, s1, derivatives)
    ok (a, derivatives)
  let (derivatives, _) ← forI 1 (derivative + 1) (derivatives, degree) fun k (derivatives, r) => do
    let derivatives ← forI 0 (degree + 1) derivatives fun j derivatives => do
      let x ← mget derivatives k j
      mset derivatives k j (x * ((r : ℤ) : K))
    ok (derivatives, r * (degree - k))
  ok derivatives

/-- `Polynomials::BasisFunctionsFirstOrderDerivative`, Algorithm/Polynomials.cpp:300-394.
`derivatives` is the caller's array `double[2][NURBSMaxDegree + 1]`. -/
def basisFunctionsFirstOrderDerivative (spanIndex degree : ℤ) (U : List K) (t : K)
    (derivatives : List (List (Option K))) : Res (List (List (Option K))) := do
  validate (spanIndex ≥ 0)
  validate (degree ≥ 0 ∧ degree ≤ nurbsMaxDegree)
  validate (1 ≤ degree)
  validate (U.length > 0)
  validate (isValidKnotVector U)
  let first ← vget U 0
  let last ← vget U ((U.length : ℤ) - 1)
  validateRange t first last
  let ndu ← nduTable spanIndex degree U t (uninit2 K 8 8) (uninit K 8) (uninit K 8)
  let derivatives ← forI 0 (degree + 1) derivatives fun j derivatives => do
    let x ← aget2 ndu j degree
    aset2 derivatives 0 j x
  let (_, derivatives) ← forI 0 (degree + 1) (uninit2 K 2 8, derivatives) fun r (a, derivatives) => do
    let a ← aset2 a 0 0 1
    let (a, d) ← dersRound degree ndu r 1 a 0 1
    let derivatives ← aset2 derivatives 1 r d
    ok (a, derivatives)
  forI 0 (degree + 1) derivatives fun j derivatives => do
    let x ← aget2 derivatives 1 j
    aset2 derivatives 1 j (x * ((degree : ℤ) : K))

/-- `Polynomials::AllBasisFunctions`, Algorithm/Polynomials.cpp:542-572.  The entries strictly below
the diagonal keep the knot differences. -/
def allBasisFunctions (spanIndex degree : ℤ) (U : List K) (t : K) : Res (List (List (Option K))) := do
  validate (spanIndex ≥ 0)
  validate (degree ≥ 0 ∧ degree ≤ nurbsMaxDegree)
  validate (U.length > 0)
  validate (isValidKnotVector U)
  let first ← vget U 0
  let last ← vget U ((U.length : ℤ) - 1)
  validateRange t first last
  let p1 := (degree + 1).toNat
  nduTable spanIndex degree U t (zeros2 K p1 p1) (List.replicate p1 (some 0)) (List.replicate p1 (some 0))

/-- `BsplineCurve::ComputeDerivatives`, include/BsplineCurve.h:73-98. -/
def BsplineCurve.computeDerivatives (c : BsplineCurve K T) (derivative : ℤ) (t : K) : Res (List T) := do
  validate (derivative > 0)
  let first ← vget c.knots 0
  let last ← vget c.knots ((c.knots.length : ℤ) - 1)
  validateRange t first last
  let du := min derivative c.degree
  let spanIndex ← getKnotSpanIndex c.degree c.knots t
  let nders ← basisFunctionsDerivatives spanIndex c.degree du c.knots t
  forI 0 (du + 1) (List.replicate (derivative + 1).toNat (0 : T)) fun k derivatives =>
    forI 0 (c.degree + 1) derivatives fun j derivatives => do
      let old ← vget derivatives k
      let x ← mget nders k j
      let p ← vget c.cps (spanIndex - c.degree + j)
      vset derivatives k (old + x • p)

/-- `BsplineCurve::ComputeControlPointsOfDerivatives`, include/BsplineCurve.h:105-131.  The two
`VALIDATE_ARGUMENT_RANGE` arguments are `int`s converted to `double`. -/
def BsplineCurve.controlPointsOfDerivatives (c : BsplineCurve K T) (derivative minSpan maxSpan : ℤ) :
    Res (List (List T)) := do
  validate (derivative > 0)
  validateRange ((minSpan : ℤ) : K) 0 ((maxSpan : ℤ) : K)
  let range := maxSpan - minSpan
  let PK := List.replicate (derivative + 1).toNat (List.replicate (range + 1).toNat (0 : T))
  let PK ← forI 0 (range + 1) PK fun i PK => do
    let p ← vget c.cps (minSpan + i)
    mset PK 0 i p
  forI 1 (derivative + 1) PK fun k PK =>
    forI 0 (range - k + 1) PK fun i PK => do
      let x ← mget PK (k - 1) (i + 1)
      let y ← mget PK (k - 1) i
      let ua ← vget c.knots (minSpan + i + c.degree + 1)
      let ub ← vget c.knots (minSpan + i + k)
      let q ← vdiv (((c.degree - k + 1 : ℤ) : K) • (x - y)) (ua - ub)
      mset PK k i q

/-- `BsplineCurve::ComputeDerivativesByAllBasisFunctions`, include/BsplineCurve.h:138-170. -/
def BsplineCurve.computeDerivativesByAll (c : BsplineCurve K T) (derivative : ℤ) (t : K) : Res (List T) := do
  validate (derivative > 0)
  let first ← vget c.knots 0
  let last ← vget c.knots ((c.knots.length : ℤ) - 1)
  validateRange t first last
  let spanIndex ← getKnotSpanIndex c.degree c.knots t
  let N ← allBasisFunctions spanIndex c.degree c.knots t
  let du := min derivative c.degree
  let PK ← c.controlPointsOfDerivatives du (spanIndex - c.degree) spanIndex
  forI 0 (du + 1) (List.replicate (derivative + 1).toNat (0 : T)) fun k derivatives =>
    forI 0 (c.degree - k + 1) derivatives fun j derivatives => do
      let old ← vget derivatives k
      let x ← aget2 N j (c.degree - k)
      let p ← mget PK k j
      vset derivatives k (old + x • p)

/-- `NurbsCurve::ComputeRationalCurveDerivatives`, Geometry/Curve/NurbsCurve.cpp:260-286.  `Aders`
and `wders` are the two projections of `ders`. -/
def NurbsCurve.rationalDerivatives (c : NurbsCurve K) (derivative : ℤ) (t : K) : Res (List (XYZ K)) := do
  let ders ← BsplineCurve.computeDerivatives c derivative t
  let aders := ders.map XYZW.raw
  let wders := ders.map XYZW.w
  forI 0 (derivative + 1) (List.replicate (derivative + 1).toNat (0 : XYZ K)) fun k derivatives => do
    let v ← vget aders k
    let v ← forI 1 (k + 1) v fun i v => do
      let b ← (binomial k i : Res K)
      let w ← vget wders i
      let d ← vget derivatives (k - i)
      ok (v - (b * w) • d)
    let w0 ← vget wders 0
    let q ← vdiv v w0
    vset derivatives k q

end

end LNLib
