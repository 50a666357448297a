import Verif.Core.Vec

/-!
# Model of Mathematics/Utils/MathUtils.cpp, include/Constants.h, include/LNLibExceptions.h

All paths are relative to /repo/src/LNLib.  `double` is an arbitrary linearly ordered field `K`
(exact arithmetic; no rounding, no NaN, no infinities).
-/

namespace LNLib
open Res

section
variable {K : Type} [Field K] [LinearOrder K]

/-- `Constants::DoubleEpsilon`, include/Constants.h:23. -/
def doubleEps : K := 1 / 1000000

/-- `Constants::DistanceEpsilon`, include/Constants.h:24. -/
def distEps : K := 1 / 10000

/-- `Constants::AngleEpsilon`, include/Constants.h:25. -/
def angleEps : K := 1 / 100

/-- `Constants::NURBSMaxDegree`, include/Constants.h:28. -/
def nurbsMaxDegree : ℤ := 7

/-- `VALIDATE_ARGUMENT_RANGE(arg, min, max)`, include/LNLibExceptions.h:21-25. -/
def validateRange (arg lo hi : K) : Res Unit :=
  if (arg < lo ∧ |arg - lo| > doubleEps) ∨ (arg > hi ∧ |arg - hi| > doubleEps)
  then outOfRange else ok ()

/-- the tolerance `tolerance * (1.0 + std::max(std::abs(a), std::abs(b)))`,
Mathematics/Utils/MathUtils.cpp:50,56,62,69,75. -/
def tolOf (a b tol : K) : K := tol * (1 + max |a| |b|)

/-- `MathUtils::IsAlmostEqualTo`, Mathematics/Utils/MathUtils.cpp:43-51
(the NaN and infinity branches do not arise in exact arithmetic). -/
def isAlmostEqualTo (a b : K) (tol : K := doubleEps) : Bool := decide (|a - b| ≤ tolOf a b tol)

/-- `MathUtils::IsGreaterThan`, Mathematics/Utils/MathUtils.cpp:53-57. -/
def isGreaterThan (a b : K) (tol : K := doubleEps) : Bool := decide (a - b > tolOf a b tol)

/-- `MathUtils::IsGreaterThanOrEqual`, Mathematics/Utils/MathUtils.cpp:59-64. -/
def isGreaterThanOrEqual (a b : K) (tol : K := doubleEps) : Bool := decide (a - b ≥ -tolOf a b tol)

/-- `MathUtils::IsLessThan`, Mathematics/Utils/MathUtils.cpp:66-70. -/
def isLessThan (a b : K) (tol : K := doubleEps) : Bool := decide (b - a > tolOf a b tol)

/-- `MathUtils::IsLessThanOrEqual`, Mathematics/Utils/MathUtils.cpp:72-77. -/
def isLessThanOrEqual (a b : K) (tol : K := doubleEps) : Bool := decide (a - b ≤ tolOf a b tol)

/-- `MathUtils::Factorial`, Mathematics/Utils/MathUtils.cpp:99-110.  `long long` is `ℤ`; the guard
`n > 20` keeps the value below 2^63 (proved in Props/C24). -/
def factorial (n : ℤ) : Res ℤ :=
  if n < 0 then ok (-1)
  else if n > 20 then invalidArg
  else forI 2 (n + 1) 1 fun i result => ok (result * i)

/-- the static `pascal` table, Mathematics/Utils/MathUtils.cpp:31-40, with its size 21 as a
parameter (`size = 20` is the last row). -/
def pascalTable (K : Type) [Field K] (last : ℤ) : Res (List (List K)) :=
  let n := (last + 1).toNat
  forI 0 (last + 1) (List.replicate n (List.replicate n (0 : K))) fun i table => do
    let table ← mset table i i 1
    let table ← mset table i 0 1
    forI 1 i table fun j table => do
      let x ← mget table (i - 1) (j - 1)
      let y ← mget table (i - 1) j
      mset table i j (x + y)

/-- `MathUtils::Binomial`, Mathematics/Utils/MathUtils.cpp:112-122. -/
def binomial (number i : ℤ) : Res K :=
  if number < 0 ∨ i < 0 ∨ i > number then ok 0
  else if number ≤ 20 then do
    let table ← pascalTable K 20
    mget table number i
  else
    let i := min i (number - i)
    forI 1 (i + 1) (1 : K) fun j res => fdiv (res * ((number - i + j : ℤ) : K)) ((j : ℤ) : K)

/-- `MathUtils::MatrixMultiply`, Mathematics/Utils/MathUtils.cpp:137-155. -/
def matrixMultiply (left right : List (List K)) : Res (List (List K)) := do
  let l0 ← vget left 0
  let r0 ← vget right 0
  let m : ℤ := left.length
  let n : ℤ := l0.length
  let p : ℤ := r0.length
  forI 0 m (List.replicate left.length (List.replicate r0.length (0 : K))) fun i result =>
    forI 0 p result fun j result =>
      forI 0 n result fun k result => do
        let old ← mget result i j
        let a ← mget left i k
        let b ← mget right k j
        mset result i j (old + a * b)

/-- `MathUtils::MakeDiagonal`, Mathematics/Utils/MathUtils.cpp:157-177. -/
def makeDiagonal (size : ℤ) : Res (List (List K)) :=
  forI 0 size (List.replicate size.toNat ([] : List K)) fun i result => do
    let r := List.replicate size.toNat (0 : K)
    let r ← forI 0 size r fun j r => if i = j then vset r j 1 else vset r j 0
    vset result i r

end

/-- `MathUtils::Transpose`, include/MathUtils.h:59-73.  The rows are appended to the output argument
`transposed`. -/
def transposeM {α : Type} (matrix transposed : List (List α)) : Res (List (List α)) := do
  let r0 ← vget matrix 0
  forI 0 r0.length transposed fun i transposed => do
    let temp ← forI 0 matrix.length ([] : List α) fun j temp => do
      let x ← mget matrix j i
      ok (temp ++ [x])
    ok (transposed ++ [temp])

end LNLib
