import Verif.Model.MathUtils

/-!
# Model of the power basis conversion matrices (Algorithm/Polynomials.cpp)

All paths are relative to /repo/src/LNLib.
-/

namespace LNLib
open Res

section
variable {K : Type} [Field K] [LinearOrder K]

/-- `Polynomials::BezierToPowerMatrix`, Algorithm/Polynomials.cpp:578-620. -/
def bezierToPowerMatrix (degree : ℤ) : Res (List (List K)) := do
  let p1 := (degree + 1).toNat
  let matrix := List.replicate p1 (List.replicate p1 (0 : K))
  let matrix ← forI 0 degree matrix fun i matrix =>
    forI (i + 1) (degree + 1) matrix fun j matrix => mset matrix i j 0
  let matrix ← mset matrix degree degree 1
  let matrix ← mset matrix 0 0 1
  let matrix ← (if degree % 2 ≠ 0 then mset matrix degree 0 (-1) else mset matrix degree 0 1 : Res _)
  let (matrix, _) ← forI 1 degree (matrix, (-1 : K)) fun i (matrix, sign) => do
    let b ← binomial degree i
    let matrix ← mset matrix i i b
    let x ← mget matrix i i
    let matrix ← mset matrix degree (degree - i) (sign * x)
    let matrix ← mset matrix i 0 (sign * x)
    ok (matrix, -sign)
  let k1 := (degree + 1) / 2
  let (matrix, _) ← forI 1 k1 (matrix, degree - 1) fun k (matrix, pk) => do
    let (matrix, _) ← forI (k + 1) (pk + 1) (matrix, (-1 : K)) fun j (matrix, sign) => do
      let b ← binomial degree k
      let b' ← binomial (degree - k) (j - k)
      let v := sign * b * b'
      let matrix ← mset matrix pk (degree - j) v
      let matrix ← mset matrix j k v
      ok (matrix, -sign)
    ok (matrix, pk - 1)
  ok matrix

/-- `Polynomials::PowerToBezierMatrix`, Algorithm/Polynomials.cpp:622-657. -/
def powerToBezierMatrix (degree : ℤ) (matrix : List (List K)) : Res (List (List K)) := do
  let p1 := (degree + 1).toNat
  let inv := List.replicate p1 (List.replicate p1 (0 : K))
  let inv ← forI 0 degree inv fun i inv =>
    forI (i + 1) (degree + 1) inv fun j inv => mset inv i j 0
  let inv ← forI 0 (degree + 1) inv fun i inv => do
    let inv ← mset inv degree i 1
    let inv ← mset inv i 0 1
    let x ← mget matrix i i
    let q ← fdiv 1 x
    mset inv i i q
  let k1 := (degree + 1) / 2
  let (inv, _) ← forI 1 k1 (inv, degree - 1) fun k (inv, pk) => do
    let inv ← forI (k + 1) (pk + 1) inv fun j inv => do
      let d ← forI k j (0 : K) fun i d => do
        let a ← mget matrix j i
        let b ← mget inv i k
        ok (d - a * b)
      let x ← mget matrix j j
      let q ← fdiv d x
      let inv ← mset inv j k q
      let y ← mget inv j k
      mset inv pk (degree - j) y
    ok (inv, pk - 1)
  ok inv

end
end LNLib
