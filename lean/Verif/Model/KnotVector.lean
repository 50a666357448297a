import Verif.Model.CurveParam
import Mathlib.Data.List.Sort

/-!
# Model of Algorithm/KnotVectorUtils.cpp (the functions on plain knot lists)

All paths are relative to /repo/src/LNLib.  `std::map<double, int>` is an association list kept in
ascending order of its keys, which is the order in which the C++ iterates over it.  `std::sort` is
insertion sort: on numbers every sorting algorithm returns the same list.
-/

namespace LNLib
open Res

section
variable {K : Type} [Field K] [LinearOrder K]

/-- `std::map<double, int>` -/
abbrev KnotMap (K : Type) := List (K × ℤ)

/-- `++result[knot]`: the value-initialised entry is created at its place in the order. -/
def KnotMap.incr (knot : K) : KnotMap K → KnotMap K
  | [] => [(knot, 1)]
  | (k, c) :: m => if knot < k then (knot, 1) :: (k, c) :: m else if knot = k then (k, c + 1) :: m else (k, c) :: KnotMap.incr knot m

/-- `map.find(key)`; `none` is `end()`. -/
def KnotMap.find (key : K) : KnotMap K → Option ℤ
  | [] => none
  | (k, c) :: m => if k = key then some c else KnotMap.find key m

/-- `map.insert({key, count})` for an absent key and `map[key] = count`. -/
def KnotMap.put (key : K) (count : ℤ) : KnotMap K → KnotMap K
  | [] => [(key, count)]
  | (k, c) :: m => if key < k then (key, count) :: (k, c) :: m else if key = k then (k, count) :: m else (k, c) :: KnotMap.put key count m

/-- `std::sort` on numbers. -/
def stdSort (l : List K) : List K := l.insertionSort (· ≤ ·)

/-- `KnotVectorUtils::GetKnotMultiplicityMap`, Algorithm/KnotVectorUtils.cpp:119-130. -/
def getKnotMultiplicityMap (U : List K) : KnotMap K := U.foldl (fun m k => m.incr k) []

/-- `KnotVectorUtils::GetInternalKnotMultiplicityMap`, Algorithm/KnotVectorUtils.cpp:132-142.  With a single key the
map is empty after the first `erase`, and `prev(end())` is undefined behaviour. -/
def getInternalKnotMultiplicityMap (U : List K) : Res (KnotMap K) :=
  match getKnotMultiplicityMap U with
  | [] => ok []
  | _ :: m => if m.isEmpty then ub else ok m.dropLast

/-- The body of the first loop of `KnotVectorUtils::GetInsertedKnotElement`,
Algorithm/KnotVectorUtils.cpp:149-183. -/
def insertedStep0 (map1 : KnotMap K) (st : List K × List K) (e : K × ℤ) : List K × List K :=
  match map1.find e.1 with
  | none => (st.1, st.2 ++ List.replicate e.2.toNat e.1)
  | some count1 =>
    if e.2 > count1 then (st.1, st.2 ++ List.replicate (e.2 - count1).toNat e.1)
    else (st.1 ++ List.replicate (count1 - e.2).toNat e.1, st.2)

/-- The body of the second loop, Algorithm/KnotVectorUtils.cpp:185-197. -/
def insertedStep1 (map0 : KnotMap K) (ins0 : List K) (e : K × ℤ) : List K :=
  match map0.find e.1 with
  | none => ins0 ++ List.replicate e.2.toNat e.1
  | some _ => ins0

/-- `KnotVectorUtils::GetInsertedKnotElement(knotVector0, knotVector1, insertElements0, insertElements1)`,
Algorithm/KnotVectorUtils.cpp:144-201; `ins0`, `ins1` are the contents of the caller's output vectors. -/
def getInsertedKnotElement2 (U0 U1 ins0 ins1 : List K) : List K × List K :=
  let map0 := getKnotMultiplicityMap U0
  let map1 := getKnotMultiplicityMap U1
  let st := map0.foldl (insertedStep0 map1) (ins0, ins1)
  let i0 := map1.foldl (insertedStep1 map0) st.1
  (stdSort i0, stdSort st.2)

/-- One entry of the loop that builds `finalMap`, Algorithm/KnotVectorUtils.cpp:210-227. -/
def finalStep (fm : KnotMap K) (e : K × ℤ) : KnotMap K :=
  match fm.find e.1 with
  | none => fm.put e.1 e.2
  | some currentCount => if currentCount < e.2 then fm.put e.1 e.2 else fm

/-- One entry of the second loop, Algorithm/KnotVectorUtils.cpp:237-260. -/
def missingStep (map : KnotMap K) (ins : List K) (e : K × ℤ) : List K :=
  match map.find e.1 with
  | none => ins ++ List.replicate e.2.toNat e.1
  | some currentCount => ins ++ List.replicate (e.2 - currentCount).toNat e.1

/-- `KnotVectorUtils::GetInsertedKnotElements(knotVectors)`, Algorithm/KnotVectorUtils.cpp:203-265. -/
def getInsertedKnotElementsAll (Us : List (List K)) : List (List K) :=
  let finalMap := Us.foldl (fun fm U => (getKnotMultiplicityMap U).foldl finalStep fm) []
  Us.map fun U => finalMap.foldl (missingStep (getKnotMultiplicityMap U)) []

/-- leading elements that `IsAlmostEqualTo` the parameter, Algorithm/KnotVectorUtils.cpp:86-93 and 103-110 -/
def leadingMulti (param : K) : List K → ℤ
  | [] => 0
  | k :: l => if isAlmostEqualTo k param then 1 + leadingMulti param l else 0

/-- `KnotVectorUtils::GetInsertedKnotElement(degree, knotVector, startParam, endParam)`,
Algorithm/KnotVectorUtils.cpp:72-118. -/
def getInsertedKnotElementEnds (degree : ℤ) (U : List K) (startParam endParam : K) : Res (List K) := do
  validate (decide (degree ≥ 0))
  validate (!U.isEmpty)
  validate (decide (startParam ≤ endParam))
  validate (isValidKnotVector U)
  let startMulti := leadingMulti startParam U
  let result := if startMulti < degree + 1 then List.replicate (degree + 1 - startMulti).toNat startParam else []
  let endMulti := leadingMulti endParam U.reverse
  ok (if endMulti < degree + 1 then result ++ List.replicate (degree + 1 - endMulti).toNat endParam else result)

/-- `std::unique` followed by `erase`: drop every element equal to its predecessor. -/
def stdUnique : List K → List K
  | [] => []
  | [a] => [a]
  | a :: b :: l => if a = b then stdUnique (b :: l) else a :: stdUnique (b :: l)

/-- The scan for the longest span, Algorithm/KnotVectorUtils.cpp:29-39; returns `(standard, index)`. -/
def longestSpan (uniq : List K) : Res (K × ℤ) :=
  forI 0 ((uniq.length : ℤ) - 1) (doubleEps, -1) fun i st => do
    let a ← vget uniq (i + 1)
    let b ← vget uniq i
    let delta := a - b
    ok (if isGreaterThan delta st.1 then (delta, i) else st)

/-- `InsertMidKnotCore`, Algorithm/KnotVectorUtils.cpp:21-47.  The C++ recursion stops when
`insert.size() == limitNumber`; `rounds` is the number of recursive calls left, so it is
`limitNumber - insert.size()`.  An empty `unqiueKnotVector` makes `size() - 1` wrap around and the scan reads
out of bounds. -/
def insertMidKnotCore : ℕ → List K → List K → Res (List K)
  | 0, _, insert => ok insert
  | rounds + 1, uniq, insert =>
    if uniq.isEmpty then ub
    else do
      let (standard, index) ← longestSpan uniq
      let left ← vget uniq index
      let current := left + standard / 2
      insertMidKnotCore rounds (stdSort (uniq ++ [current])) (insert ++ [current])

/-- `KnotVectorUtils::GetInsertedKnotElements(insertKnotsNumber, knotVector)`, Algorithm/KnotVectorUtils.cpp:267-276.
With a negative number the recursion never meets its limit: it goes on until a read out of bounds. -/
def getInsertedKnotElementsMid (number : ℤ) (U : List K) : Res (List K) :=
  if number < 0 then ub
  else do
    let insert ← insertMidKnotCore number.toNat (stdUnique U) []
    ok (stdSort insert)

/-- The loop of `KnotVectorUtils::IsUniform`, Algorithm/KnotVectorUtils.cpp:298-324; the state is `false` after
`return false`. -/
def isUniformLoop (knots : List K) (standard : K) (multi : List ℤ) : Res Bool :=
  forI 1 ((knots.length : ℤ) - 1) true fun i st =>
    if st then do
      let current ← vget knots i
      let next ← vget knots (i + 1)
      if !isAlmostEqualTo (next - current) standard then ok false
      else do
        let currentCounts ← vget multi i
        let nextCounts ← vget multi (i + 1)
        ok (decide (currentCounts = nextCounts) || decide (i + 1 = (knots.length : ℤ) - 1))
    else ok false

/-- `KnotVectorUtils::IsUniform`, Algorithm/KnotVectorUtils.cpp:278-326.  `map[knots[i]]` is the count stored
with the `i`-th key. -/
def isUniform (U : List K) : Res Bool :=
  let map := getKnotMultiplicityMap U
  if map.isEmpty then ok false
  else do
    let knots := map.map Prod.fst
    let multi := map.map Prod.snd
    let first ← vget multi 0
    let last ← vget multi ((multi.length : ℤ) - 1)
    if first ≠ last then ok false
    else do
      let k1 ← vget knots 1
      let k0 ← vget knots 0
      isUniformLoop knots (k1 - k0) multi
end
end LNLib
