import Verif.Model.GeomReal
import Mathlib.Data.Fin.Tuple.Basic
import Mathlib.Data.List.FinRange

/-!
# Model of Algorithm/Octree/Octree.cpp and OctreeCollector.cpp

All paths are relative to /repo/src/LNLib.  Coordinates are real numbers (`Distance` takes a square root); the result sets are over any ordered field.
Index lists are `List ℤ`.  `new` and `delete` have no counterpart: an `Octant*` is a value of the tree type `Octant`, with `null` for `nullptr`.
-/

namespace LNLib
open Res

/-- `DistIndex`, include/OctreeCollector.h:17-27 -/
structure DistIndex (K : Type) where
  distance : K
  index : ℤ
  deriving DecidableEq, Repr

/-- `KnnResultSet`, include/OctreeCollector.h:29-44 -/
structure KnnResultSet (K : Type) where
  capacity : ℤ
  count : ℤ
  worst : K
  list : List (DistIndex K)
  comparisons : ℤ
  deriving DecidableEq, Repr

/-- `RadiusNnResultSet`, include/OctreeCollector.h:46-60 -/
structure RadiusNnResultSet (K : Type) where
  radius : K
  count : ℤ
  list : List (DistIndex K)
  comparisons : ℤ
  deriving DecidableEq, Repr

section
variable {K : Type} [Field K] [LinearOrder K]

/-- `KnnResultSet::KnnResultSet`, Algorithm/Octree/OctreeCollector.cpp:14-20.  A negative capacity makes `resize` throw `std::length_error`; the model
gives `ub` there. -/
def KnnResultSet.new (capacity : ℤ) : Res (KnnResultSet K) :=
  if capacity < 0 then ub
  else ok ⟨capacity, 0, 10 ^ 10, List.replicate capacity.toNat ⟨10 ^ 10, 0⟩, 0⟩

/-- `KnnResultSet::Full`, Algorithm/Octree/OctreeCollector.cpp:23 -/
def KnnResultSet.full (s : KnnResultSet K) : Bool := s.count == s.capacity

/-- the loop condition of `KnnResultSet::AddPoint`, Algorithm/Octree/OctreeCollector.cpp:40-41,45-47 (`i > 0` and no `break`) -/
def KnnResultSet.shiftCond (dist : K) (st : List (DistIndex K) × ℤ) : Res Bool :=
  if st.2 > 0 then do
    let y ← vget st.1 (st.2 - 1)
    ok (isGreaterThan y.distance dist)
  else ok false

/-- the loop body of `KnnResultSet::AddPoint`, Algorithm/Octree/OctreeCollector.cpp:42-43 -/
def KnnResultSet.shiftBody (st : List (DistIndex K) × ℤ) : Res (List (DistIndex K) × ℤ) := do
  let y ← vget st.1 (st.2 - 1)
  let l ← vset st.1 st.2 y
  ok (l, st.2 - 1)

/-- `KnnResultSet::AddPoint`, Algorithm/Octree/OctreeCollector.cpp:26-53.  The `while` loop is given as many steps as `i` allows. -/
def KnnResultSet.addPoint (s : KnnResultSet K) (dist : K) (index : ℤ) : Res (KnnResultSet K) :=
  if isGreaterThan dist s.worst then ok { s with comparisons := s.comparisons + 1 }
  else do
    let count := if s.count < s.capacity then s.count + 1 else s.count
    let i := if s.count < s.capacity then count - 1 else s.capacity - 1
    let (list, i) ← whileF (shiftCond dist) shiftBody i.toNat (s.list, i)
    let list ← vset list i ⟨dist, index⟩
    let last ← vget list (s.capacity - 1)
    ok ⟨s.capacity, count, last.distance, list, s.comparisons + 1⟩

/-- `RadiusNnResultSet::RadiusNnResultSet`, Algorithm/Octree/OctreeCollector.cpp:55-57 -/
def RadiusNnResultSet.new (radius : K) : RadiusNnResultSet K := ⟨radius, 0, [], 0⟩

/-- `RadiusNnResultSet::AddPoint`, Algorithm/Octree/OctreeCollector.cpp:62-68 -/
def RadiusNnResultSet.addPoint (s : RadiusNnResultSet K) (dist : K) (index : ℤ) : Res (RadiusNnResultSet K) :=
  if isGreaterThan dist s.radius then ok { s with comparisons := s.comparisons + 1 }
  else ok ⟨s.radius, s.count + 1, s.list ++ [⟨dist, index⟩], s.comparisons + 1⟩

end

/-- `Octant`, include/Octree.h:19-30; the eight `Children` are a function on `Fin 8` -/
inductive Octant where
  | null
  | node (center : XYZ ℝ) (extent : ℝ) (indices : List ℤ) (isLeaf : Bool) (children : Fin 8 → Octant)

/-- `child == nullptr` -/
def Octant.isNull : Octant → Bool
  | .null => true
  | .node .. => false

noncomputable section

/-- `Inside`, Algorithm/Octree/Octree.cpp:32-38 -/
def octInside (query : XYZ ℝ) (radius : ℝ) (center : XYZ ℝ) (extent : ℝ) : Bool :=
  isLessThan (|query.x - center.x| + radius) extent && isLessThan (|query.y - center.y| + radius) extent &&
    isLessThan (|query.z - center.z| + radius) extent

/-- `Overlaps`, Algorithm/Octree/Octree.cpp:40-61, on a non-null octant given by its centre and extent -/
def octOverlapsBox (query : XYZ ℝ) (radius : ℝ) (center : XYZ ℝ) (extent : ℝ) : Bool :=
  let ax := |query.x - center.x|
  let ay := |query.y - center.y|
  let az := |query.z - center.z|
  let maxDist := radius + extent
  if isGreaterThan ax maxDist || isGreaterThan ay maxDist || isGreaterThan az maxDist then false
  else
    let count := (if isLessThan ax extent then 1 else 0) + (if isLessThan ay extent then 1 else 0) + (if isLessThan az extent then 1 else 0)
    if 2 ≤ count then true
    else
      let diff : XYZ ℝ := ⟨max (ax - extent) 0, max (ay - extent) 0, max (az - extent) 0⟩
      isLessThan diff.sqrLength (radius * radius)

/-- `Overlaps` on a child pointer already known not to be null -/
def octOverlaps (query : XYZ ℝ) (radius : ℝ) : Octant → Bool
  | .null => false
  | .node c e _ _ _ => octOverlapsBox query radius c e

/-- `Contains`, Algorithm/Octree/Octree.cpp:63-70 -/
def octContains (query : XYZ ℝ) (radius : ℝ) (center : XYZ ℝ) (extent : ℝ) : Bool :=
  decide ((⟨|query.x - center.x| + extent, |query.y - center.y| + extent, |query.z - center.z| + extent⟩ : XYZ ℝ).length < radius)

/-- the Morton code of a point with respect to a centre, Algorithm/Octree/Octree.cpp:91-94, 191-194, 220-223 -/
def mortonCode (p center : XYZ ℝ) : Fin 8 :=
  (if isGreaterThan p.x center.x then 1 else 0) + (if isGreaterThan p.y center.y then 2 else 0) + (if isGreaterThan p.z center.z then 4 else 0)

/-- `childCenter`, Algorithm/Octree/Octree.cpp:98-105 -/
def childCenter (center : XYZ ℝ) (extent : ℝ) (i : Fin 8) : XYZ ℝ :=
  ⟨center.x + (if i.val.testBit 0 then 1 / 2 else -(1 / 2)) * extent, center.y + (if i.val.testBit 1 then 1 / 2 else -(1 / 2)) * extent,
    center.z + (if i.val.testBit 2 then 1 / 2 else -(1 / 2)) * extent⟩

/-- the loop distributing the indices over the children, Algorithm/Octree/Octree.cpp:87-96 -/
def distribute (db : List (XYZ ℝ)) (center : XYZ ℝ) (idx : List ℤ) : Res (Fin 8 → List ℤ) :=
  idx.foldlM (fun b i => do
    let p ← vget db i
    ok (Function.update b (mortonCode p center) (b (mortonCode p center) ++ [i]))) (fun _ => [])

/-- `OctreeRecursiveBuild`, Algorithm/Octree/Octree.cpp:72-113, always called with a null `root`.  The first argument bounds the depth of the
recursion; exceeding it is `diverge`. -/
def octreeBuild (db : List (XYZ ℝ)) (leafSize : ℤ) (minExtent : ℝ) : ℕ → XYZ ℝ → ℝ → List ℤ → Res Octant
  | fuel, center, extent, idx =>
    if idx = [] then ok .null
    else if (idx.length : ℤ) ≤ leafSize ∨ extent ≤ minExtent then ok (.node center extent idx true fun _ => .null)
    else
      match fuel with
      | 0 => diverge
      | fuel + 1 => do
        let b ← distribute db center idx
        let ch ← (List.finRange 8).foldlM (fun ch i => do
          let c ← octreeBuild db leafSize minExtent fuel (childCenter center extent i) (1 / 2 * extent) (b i)
          ok (Function.update ch i c)) (fun _ => Octant.null)
        ok (.node center extent idx false ch)

/-- `std::numeric_limits<double>::max()` -/
def dblMax : ℝ := (2 ^ 53 - 1) * 2 ^ 971

/-- the loop computing the bounds, Algorithm/Octree/Octree.cpp:119-135 -/
def octreeBounds (db : List (XYZ ℝ)) : XYZ ℝ × XYZ ℝ :=
  db.foldl (fun (mn, mx) p =>
    (⟨if isLessThan p.x mn.x then p.x else mn.x, if isLessThan p.y mn.y then p.y else mn.y, if isLessThan p.z mn.z then p.z else mn.z⟩,
     ⟨if isGreaterThan p.x mx.x then p.x else mx.x, if isGreaterThan p.y mx.y then p.y else mx.y, if isGreaterThan p.z mx.z then p.z else mx.z⟩))
    (⟨dblMax, dblMax, dblMax⟩, ⟨-dblMax, -dblMax, -dblMax⟩)

/-- `OctreeConstruction`, Algorithm/Octree/Octree.cpp:115-149 -/
def octreeConstruction (fuel : ℕ) (db : List (XYZ ℝ)) (leafSize : ℤ) (minExtent : ℝ) : Res Octant :=
  if db = [] then ok .null
  else
    let mn := (octreeBounds db).1
    let mx := (octreeBounds db).2
    let ext := max (max (mx.x - mn.x) (mx.y - mn.y)) (mx.z - mn.z) * (1 / 2)
    octreeBuild db leafSize minExtent fuel ⟨mn.x + ext, mn.y + ext, mn.z + ext⟩ ext ((List.range db.length).map Int.ofNat)

variable {S : Type}

/-- the loops over the indices of an octant, Algorithm/Octree/Octree.cpp:156-159, 164-167, 184-187, 213-216 -/
def addAll (add : S → ℝ → ℤ → Res S) (db : List (XYZ ℝ)) (query : XYZ ℝ) (s : S) (idx : List ℤ) : Res S :=
  idx.foldlM (fun s i => do
    let p ← vget db i
    add s (query.distance p) i) s

/-- `OctreeRadiusSearch`, Algorithm/Octree/Octree.cpp:179-206, and `OctreeKnnSearch`, lines 208-235: the two C++ functions differ only in the type
of the result set, which the model abstracts by `add` (`AddPoint`) and `worst` (`WorstDist`). -/
def octreeSearch (add : S → ℝ → ℤ → Res S) (worst : S → ℝ) (db : List (XYZ ℝ)) (query : XYZ ℝ) : Octant → S → Res (Bool × S)
  | .null, s => ok (false, s)
  | .node center extent idx isLeaf children, s =>
    if isLeaf = true ∧ idx ≠ [] then do
      let s ← addAll add db query s idx
      ok (octInside query (worst s) center extent, s)
    else do
      let m := mortonCode query center
      let (b, s) ← octreeSearch add worst db query (children m) s
      if b then ok (true, s)
      else do
        let (b, s) ← (List.finRange 8).foldlM (fun (st : Bool × S) c =>
          if st.1 then ok st
          else if c = m ∨ (children c).isNull then ok st
          else if !octOverlaps query (worst st.2) (children c) then ok st
          else octreeSearch add worst db query (children c) st.2) (false, s)
        if b then ok (true, s) else ok (octInside query (worst s) center extent, s)

/-- `OctreeRadiusSearchFast`, Algorithm/Octree/Octree.cpp:151-177 -/
def octreeSearchFast (add : S → ℝ → ℤ → Res S) (worst : S → ℝ) (db : List (XYZ ℝ)) (query : XYZ ℝ) : Octant → S → Res (Bool × S)
  | .null, s => ok (false, s)
  | .node center extent idx isLeaf children, s =>
    if octContains query (worst s) center extent then do
      let s ← addAll add db query s idx
      ok (false, s)
    else if isLeaf = true ∧ idx ≠ [] then do
      let s ← addAll add db query s idx
      ok (octInside query (worst s) center extent, s)
    else do
      let (b, s) ← (List.finRange 8).foldlM (fun (st : Bool × S) c =>
        if st.1 then ok st
        else if (children c).isNull then ok st
        else if !octOverlaps query (worst st.2) (children c) then ok st
        else octreeSearchFast add worst db query (children c) st.2) (false, s)
      if b then ok (true, s) else ok (octInside query (worst s) center extent, s)

/-- `OctreeRadiusSearch` on a fresh result set -/
def octreeRadiusSearch (root : Octant) (db : List (XYZ ℝ)) (radius : ℝ) (query : XYZ ℝ) : Res (Bool × RadiusNnResultSet ℝ) :=
  octreeSearch RadiusNnResultSet.addPoint RadiusNnResultSet.radius db query root (RadiusNnResultSet.new radius)

/-- `OctreeRadiusSearchFast` on a fresh result set -/
def octreeRadiusSearchFast (root : Octant) (db : List (XYZ ℝ)) (radius : ℝ) (query : XYZ ℝ) : Res (Bool × RadiusNnResultSet ℝ) :=
  octreeSearchFast RadiusNnResultSet.addPoint RadiusNnResultSet.radius db query root (RadiusNnResultSet.new radius)

/-- `OctreeKnnSearch` on a fresh result set -/
def octreeKnnSearch (root : Octant) (db : List (XYZ ℝ)) (capacity : ℤ) (query : XYZ ℝ) : Res (Bool × KnnResultSet ℝ) := do
  let s ← KnnResultSet.new capacity
  octreeSearch KnnResultSet.addPoint KnnResultSet.worst db query root s

end
end LNLib
