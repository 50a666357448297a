import Verif.Model.BasisDers

/-!
# Model of `OneBasisFunction` and `OneBasisFunctionDerivative` (Algorithm/Polynomials.cpp)

All paths are relative to /repo/src/LNLib.
-/

namespace LNLib
open Res

section
variable {K : Type} [Field K] [LinearOrder K]

/-- The test of Algorithm/Polynomials.cpp:423-424 and 474-475: `t` lies in the knot span `j` (a
tolerant comparison; `&&` does not read the second knot when the first test fails). -/
def inSpan (U : List K) (t : K) (j : ℤ) : Res Bool := do
  let a ← vget U j
  if isGreaterThanOrEqual t a then do
    let b ← vget U (j + 1)
    ok (isLessThan t b)
  else ok false

/-- One inner loop step, Algorithm/Polynomials.cpp:438-451 and 487-501: from the value `x` of the next
basis function of the lower degree and `saved`, the new value and the new `saved`. -/
def obfStep (t : K) (knotLeft knotRight x saved : K) : Res (K × K) :=
  if isAlmostEqualTo x 0 then ok (saved, 0)
  else do
    let temp ← fdiv x (knotRight - knotLeft)
    ok (saved + (knotRight - t) * temp, (t - knotLeft) * temp)

/-- the first `saved` of a round, Algorithm/Polynomials.cpp:432-436 and 482-486 -/
def obfSaved (U : List K) (t : K) (spanIndex k : ℤ) (x : K) : Res K :=
  if isAlmostEqualTo x 0 then ok 0
  else do
    let a ← vget U spanIndex
    let b ← vget U (spanIndex + k)
    fdiv ((t - a) * x) (b - a)

/-- `Polynomials::OneBasisFunction`, Algorithm/Polynomials.cpp:399-455. -/
def oneBasisFunction (spanIndex degree : ℤ) (U : List K) (t : K) : Res K := do
  validate (spanIndex ≥ 0)
  validate (degree > 0)
  validate (U.length > 0)
  validate (isValidKnotVector U)
  let first ← vget U 0
  let last ← vget U ((U.length : ℤ) - 1)
  validateRange t first last
  let m := (U.length : ℤ) - 1
  if (spanIndex = 0 ∧ isAlmostEqualTo t first = true) ∨ (spanIndex = m - degree - 1 ∧ isAlmostEqualTo t last = true) then
    ok 1
  else do
    let ui ← vget U spanIndex
    if isLessThan t ui then ok 0
    else do
      let ue ← vget U (spanIndex + degree + 1)
      if isGreaterThanOrEqual t ue then ok 0
      else do
        let N := List.replicate (degree + spanIndex + 1).toNat (0 : K)
        let N ← forI 0 (degree + 1) N fun j N => do
          let c ← inSpan U t (spanIndex + j)
          if c then vset N j 1 else ok N
        let N ← forI 1 (degree + 1) N fun k N => do
          let x ← vget N 0
          let saved ← obfSaved U t spanIndex k x
          let (N, _) ← forI 0 (degree - k + 1) (N, saved) fun j (N, saved) => do
            let knotLeft ← vget U (spanIndex + j + 1)
            let knotRight ← vget U (spanIndex + j + k + 1)
            let x ← vget N (j + 1)
            let (y, saved) ← obfStep t knotLeft knotRight x saved
            let N ← vset N j y
            ok (N, saved)
          ok N
        vget N 0

/-- `Polynomials::OneBasisFunctionDerivative`, Algorithm/Polynomials.cpp:457-540. -/
def oneBasisFunctionDerivative (spanIndex degree derivative : ℤ) (U : List K) (t : K) : Res (List K) := do
  validate (spanIndex ≥ 0)
  validate (degree > 0)
  validate (derivative ≤ degree)
  validate (U.length > 0)
  validate (isValidKnotVector U)
  let first ← vget U 0
  let last ← vget U ((U.length : ℤ) - 1)
  validateRange t first last
  let derivatives := List.replicate (derivative + 1).toNat (0 : K)
  let ui ← vget U spanIndex
  if isLessThan t ui then ok derivatives
  else do
    let ue ← vget U (spanIndex + degree + 1)
    if isGreaterThanOrEqual t ue then ok derivatives
    else do
      let p1 := (degree + 1).toNat
      let N := List.replicate p1 (List.replicate p1 (0 : K))
      let N ← forI 0 (degree + 1) N fun j N => do
        let c ← inSpan U t (spanIndex + j)
        if c then mset N j 0 1 else ok N
      let N ← forI 1 (degree + 1) N fun k N => do
        let x ← mget N 0 (k - 1)
        let saved ← obfSaved U t spanIndex k x
        let (N, _) ← forI 0 (degree - k + 1) (N, saved) fun j (N, saved) => do
          let knotLeft ← vget U (spanIndex + j + 1)
          let knotRight ← vget U (spanIndex + j + k + 1)
          let x ← mget N (j + 1) (k - 1)
          let (y, saved) ← obfStep t knotLeft knotRight x saved
          let N ← mset N j k y
          ok (N, saved)
        ok N
      let x ← mget N 0 degree
      let derivatives ← vset derivatives 0 x
      forI 1 (derivative + 1) derivatives fun k derivatives => do
        let ND ← forI 0 (k + 1) (List.replicate (k + 1).toNat (0 : K)) fun j ND => do
          let x ← mget N j (degree - k)
          vset ND j x
        let ND ← forI 1 (k + 1) ND fun jj ND => do
          let x ← vget ND 0
          let saved ← (if isAlmostEqualTo x 0 then ok 0 else do
            let a ← vget U spanIndex
            let b ← vget U (spanIndex + degree - k + jj)
            fdiv x (b - a) : Res K)
          let (ND, _) ← forI 0 (k - jj + 1) (ND, saved) fun j (ND, saved) => do
            let knotLeft ← vget U (spanIndex + j + 1)
            let knotRight ← vget U (spanIndex + j + degree - k + jj + 1)
            let x ← vget ND (j + 1)
            if isAlmostEqualTo x 0 then do
              let ND ← vset ND j (((degree - k + jj : ℤ) : K) * saved)
              ok (ND, 0)
            else do
              let temp ← fdiv x (knotRight - knotLeft)
              let ND ← vset ND j (((degree - k + jj : ℤ) : K) * (saved - temp))
              ok (ND, temp)
          ok ND
        let x ← vget ND 0
        vset derivatives k x

end
end LNLib
