import Verif.Model.MathUtils

/-!
# Model of Algorithm/Polynomials.cpp and Algorithm/ValidationUtils.cpp

All paths are relative to /repo/src/LNLib.
-/

namespace LNLib
open Res

section
variable {K : Type} [Field K] [LinearOrder K]

/-- `ValidationUtils::IsValidBezier`, Algorithm/ValidationUtils.cpp:18-21. -/
def isValidBezier (degree count : ℤ) : Bool := count == degree + 1

/-- `std::is_sorted` as used by `ValidationUtils::IsValidKnotVector`,
Algorithm/ValidationUtils.cpp:23-26: no element is smaller than its predecessor. -/
def isValidKnotVector : List K → Bool
  | [] => true
  | [_] => true
  | a :: b :: l => !(decide (b < a)) && isValidKnotVector (b :: l)

/-- `ValidationUtils::IsValidBspline` / `IsValidNurbs`, Algorithm/ValidationUtils.cpp:28-36. -/
def isValidBspline (degree knotCount cpCount : ℤ) : Bool :=
  knotCount - 1 == (cpCount - 1) + degree + 1

/-- `Polynomials::Horner` (univariate), Algorithm/Polynomials.cpp:22-32. -/
def horner (degree : ℤ) (coefficients : List K) (t : K) : Res K := do
  validate (degree > 0)
  validate (isValidBezier degree coefficients.length)
  let r ← vget coefficients degree
  forDown (degree - 1) 0 r fun i result => do
    let c ← vget coefficients i
    ok (result * t + c)

/-- `Polynomials::Bernstein`, Algorithm/Polynomials.cpp:34-60.  `std::pow(x, degree)` with the
nonnegative integer `degree` is the integer power. -/
def bernstein (index degree : ℤ) (t : K) : Res K := do
  validate (index ≥ 0 ∧ index ≤ degree)
  validate (degree ≥ 0)
  validateRange t 0 1
  if degree = 0 then ok 1
  else if index = 0 then ok ((1 - t) ^ degree.toNat)
  else if index = degree then ok (t ^ degree.toNat)
  else do
    let temp := List.replicate (degree + 1).toNat (0 : K)
    let temp ← vset temp (degree - index) 1
    let t1 := 1 - t
    let temp ← forI index (degree + 1) temp fun k temp =>
      forDown degree k temp fun j temp => do
        let a ← vget temp j
        let b ← vget temp (j - 1)
        vset temp j (t1 * a + t * b)
    vget temp degree

/-- `Polynomials::AllBernstein`, Algorithm/Polynomials.cpp:62-87.  The loop state is
(`bernsteinArray`, `saved`). -/
def allBernstein (degree : ℤ) (t : K) : Res (List K) := do
  validate (degree ≥ 0)
  validateRange t 0 1
  let arr := List.replicate (degree + 1).toNat (0 : K)
  let arr ← vset arr 0 1
  if degree = 0 then ok arr
  else do
    let t1 := 1 - t
    forI 1 (degree + 1) arr fun j arr => do
      let (arr, saved) ← forI 0 j (arr, (0 : K)) fun k (arr, saved) => do
        let temp ← vget arr k
        let arr ← vset arr k (saved + t1 * temp)
        ok (arr, t * temp)
      vset arr j saved

/-- `Polynomials::Horner` (bivariate), Algorithm/Polynomials.cpp:89-105. -/
def horner2 (degreeU degreeV : ℤ) (coefficients : List (List K)) (u v : K) : Res K := do
  validate (degreeU > 0)
  validate (degreeV > 0)
  validate (coefficients.length > 0)
  validate (isValidBezier degreeU coefficients.length)
  let c0 ← vget coefficients 0
  validate (isValidBezier degreeV c0.length)
  validateRange u 0 1
  validateRange v 0 1
  let temp := List.replicate (degreeU + 1).toNat (0 : K)
  let temp ← forI 0 (degreeU + 1) temp fun i temp => do
    let c ← vget coefficients i
    let h ← horner degreeV c v
    vset temp i h
  horner degreeU temp u

/-- `Polynomials::GetKnotMultiplicity`, Algorithm/Polynomials.cpp:107-125. -/
def getKnotMultiplicity (U : List K) (knot : K) : Res ℤ := do
  validate (U.length > 0)
  validate (isValidKnotVector U)
  let first ← vget U 0
  let last ← vget U ((U.length : ℤ) - 1)
  validateRange knot first last
  forI 0 U.length (0 : ℤ) fun index multi => do
    let x ← vget U index
    ok (if isAlmostEqualTo knot x then multi + 1 else multi)

/-- `Polynomials::GetKnotSpanIndex`, Algorithm/Polynomials.cpp:127-162.  The state of the
binary search loop is (`low`, `high`, `mid`).  The model gives the `while` loop
`knotVector.size()` rounds; Props/C01 proves that it never needs more.
`(low + high) / 2` is `int` division; the operands are nonnegative there. -/
def getKnotSpanIndex (degree : ℤ) (U : List K) (t : K) : Res ℤ := do
  validate (degree ≥ 0)
  validate (U.length > 0)
  validate (isValidKnotVector U)
  let first ← vget U 0
  let last ← vget U ((U.length : ℤ) - 1)
  validateRange t first last
  let n : ℤ := (U.length : ℤ) - degree - 2
  let un1 ← vget U (n + 1)
  if isGreaterThanOrEqual t un1 then ok n
  else do
    let up ← vget U degree
    if isLessThanOrEqual t up then ok degree
    else do
      let low := degree
      let high := n + 1
      let mid := (low + high) / 2
      let s ← whileF
        (fun s : ℤ × ℤ × ℤ => do
          let a ← vget U s.2.2
          if t < a then ok true
          else do
            let b ← vget U (s.2.2 + 1)
            ok (decide (t ≥ b)))
        (fun s => do
          let a ← vget U s.2.2
          if t < a then ok (s.1, s.2.2, (s.1 + s.2.2) / 2)
          else ok (s.2.2, s.2.1, (s.2.2 + s.2.1) / 2))
        U.length (low, high, mid)
      ok s.2.2

/-- `Polynomials::BasisFunctions`, Algorithm/Polynomials.cpp:164-193.  `out` is the caller's
array; `left` and `right` are the uninitialised local arrays of length `NURBSMaxDegree + 1`.
The outer loop state is (`basisFunctions`, `left`, `right`), the inner one
(`basisFunctions`, `saved`). -/
def basisFunctions (spanIndex degree : ℤ) (U : List K) (t : K) (out : List (Option K)) :
    Res (List (Option K)) := do
  validate (spanIndex ≥ 0)
  validate (degree ≥ 0 ∧ degree ≤ nurbsMaxDegree)
  validate (U.length > 0)
  validate (isValidKnotVector U)
  let first ← vget U 0
  let last ← vget U ((U.length : ℤ) - 1)
  validateRange t first last
  let out ← aset out 0 1
  let left := uninit K 8
  let right := uninit K 8
  let (out, _, _) ← forI 1 (degree + 1) (out, left, right) fun j (out, left, right) => do
    let ul ← vget U (spanIndex + 1 - j)
    let left ← aset left j (t - ul)
    let ur ← vget U (spanIndex + j)
    let right ← aset right j (ur - t)
    let (out, saved) ← forI 0 j (out, (0 : K)) fun r (out, saved) => do
      let br ← aget out r
      let rr ← aget right (r + 1)
      let lr ← aget left (j - r)
      let temp ← fdiv br (rr + lr)
      let out ← aset out r (saved + rr * temp)
      ok (out, lr * temp)
    let out ← aset out j saved
    ok (out, left, right)
  ok out

end

end LNLib
