import Verif.Model.CurveOps
import Verif.Model.BezierPieces
import Verif.Model.SurfaceData
import Verif.Model.Mesh
import Verif.Model.Volume
import Verif.Model.Delaunay

/-!
# Model of the C interface for curves and surfaces, /repo/dotnet/CAPI

All paths are relative to /repo. Curves and surfaces cross the interface as handles: structures of counts and pointers. `ToCAPI` copies a curve into buffers of the thread
(`static thread_local std::vector`) and returns a handle whose pointers are the addresses of the data of these buffers; `FromCAPI` copies what a handle points at.
-/

namespace LNLib
open Res

/-- A `static thread_local std::vector`, dotnet/CAPI/include/NurbsCurve_CAPI.h:268-270 and dotnet/CAPI/src/NurbsSurface_CAPI.cpp:20-26: its contents, its capacity, and `gen`, which counts how often its storage has been
given up for another one (so that a pointer into it remembers which storage it points into). -/
structure Buffer (α : Type) where
  gen : ℕ
  cap : ℕ
  data : List α

/-- `buffer = list`, and `clear`, `reserve`, `push_back` …: dotnet/CAPI/include/NurbsCurve_CAPI.h:272, 274-278, dotnet/CAPI/src/NurbsSurface_CAPI.cpp:45-56. The storage is kept if the new contents fit into it (libstdc++
and the other libraries do this for a copy assignment; the standard promises it for `clear` and `reserve`), otherwise it is freed and another one is taken. -/
def Buffer.assign {α : Type} (b : Buffer α) (l : List α) : Buffer α :=
  if l.length ≤ b.cap then { b with data := l } else ⟨b.gen + 1, l.length, l⟩

/-- What a handle points at: memory of the caller, or the storage number `gen` of the buffer of the thread. -/
inductive Pointer (α : Type) where
  | caller (memory : List α)
  | buffer (gen : ℕ)

/-- The elements `p[0] … p[count - 1]`, dotnet/CAPI/include/NurbsCurve_CAPI.h:258-263, dotnet/CAPI/src/NurbsSurface_CAPI.cpp:32-33. Reading storage that has been freed, or behind the end, is undefined. -/
def readN {α : Type} (b : Buffer α) (p : Pointer α) (count : ℤ) : Res (List α) :=
  match p with
  | .caller memory => if 0 ≤ count ∧ count ≤ memory.length then ok (memory.take count.toNat) else ub
  | .buffer gen => if gen = b.gen ∧ 0 ≤ count ∧ count ≤ b.data.length then ok (b.data.take count.toNat) else ub

/-- `p[index]`, dotnet/CAPI/src/NurbsSurface_CAPI.cpp:37. -/
def readAt {α : Type} (b : Buffer α) (p : Pointer α) (index : ℤ) : Res α :=
  match p with
  | .caller memory => vget memory index
  | .buffer gen => if gen = b.gen then vget b.data index else ub

/-- `LN_NurbsCurve_C`, dotnet/CAPI/include/NurbsCurve_CAPI.h. -/
structure CurveC (K : Type) where
  degree : ℤ
  knotVector : Pointer K
  knotVectorCount : ℤ
  controlPoints : Pointer (XYZW K)
  controlPointCount : ℤ

/-- The buffers of a thread for curves, dotnet/CAPI/include/NurbsCurve_CAPI.h:268-270 (the second one is only an intermediate copy and left out). -/
structure CurveBuffers (K : Type) where
  knots : Buffer K
  cps : Buffer (XYZW K)

/-- `FromCAPI` for curves, dotnet/CAPI/include/NurbsCurve_CAPI.h:255-265. -/
def fromCapi {K : Type} (m : CurveBuffers K) (c : CurveC K) : Res (NurbsCurve K) := do
  let knots ← readN m.knots c.knotVector c.knotVectorCount
  let cps ← readN m.cps c.controlPoints c.controlPointCount
  ok { degree := c.degree, knots := knots, cps := cps }

/-- `ToCAPI` for curves, dotnet/CAPI/include/NurbsCurve_CAPI.h:267-287: the buffers afterwards, and the handle. The casts of sizes to `int` are exact here. -/
def toCapi {K : Type} (m : CurveBuffers K) (s : NurbsCurve K) : CurveBuffers K × CurveC K :=
  let knots := m.knots.assign s.knots
  let cps := m.cps.assign s.cps
  (⟨knots, cps⟩, ⟨s.degree, .buffer knots.gen, s.knots.length, .buffer cps.gen, s.cps.length⟩)

/-- The functions of dotnet/CAPI/src/NurbsCurve_CAPI.cpp that take a curve and return a curve: 372-376 (`reverse`), 378-386 (`reparametrize`), 439-446 (`elevate_degree`) and the like. `f` is the function of the
library, with its other arguments. -/
def capiCall {K : Type} (f : NurbsCurve K → Res (NurbsCurve K)) (m : CurveBuffers K) (h : CurveC K) : Res (CurveBuffers K × CurveC K) := do
  let c ← fromCapi m h
  let r ← f c
  ok (toCapi m r)

/-- The loop of `LNLIB_NURBSCUR_decompose_to_beziers`, dotnet/CAPI/src/NurbsCurve_CAPI.cpp:340-342. -/
def toCapiAll {K : Type} (m : CurveBuffers K) : List (NurbsCurve K) → CurveBuffers K × List (CurveC K)
  | [] => (m, [])
  | s :: rest =>
    let r := toCapi m s
    let q := toCapiAll r.1 rest
    (q.1, r.2 :: q.2)

/-- The buffers of all threads after the thread `e.1` has returned the curve `e.2`: they are `thread_local`, dotnet/CAPI/include/NurbsCurve_CAPI.h:268-270. -/
def threadReturn {K : Type} (M : ℕ → CurveBuffers K) (e : ℕ × NurbsCurve K) : ℕ → CurveBuffers K := fun t => if t = e.1 then (toCapi (M t) e.2).1 else M t

section
variable {K : Type} [Field K] [LinearOrder K] [IsStrictOrderedRing K]

/-- `LNLIB_NURBSCUR_split_at`, dotnet/CAPI/src/NurbsCurve_CAPI.cpp:295-307; `none` is the answer 0, which leaves `out_left` and `out_right` as they were. -/
def capiSplitAt (m : CurveBuffers K) (h : CurveC K) (u : K) : Res (Option (CurveBuffers K × CurveC K × CurveC K)) := do
  let c ← fromCapi m h
  let lr ← splitAt c u
  match lr with
  | none => ok none
  | some (left, right) =>
    let l := toCapi m left
    let r := toCapi l.1 right
    ok (some (r.1, l.2, r.2))

/-- `LNLIB_NURBSCUR_decompose_to_beziers`, dotnet/CAPI/src/NurbsCurve_CAPI.cpp:334-344. -/
def capiDecompose (fuel : ℕ) (m : CurveBuffers K) (h : CurveC K) (maxSegments : ℤ) : Res (CurveBuffers K × List (CurveC K)) := do
  let c ← fromCapi m h
  let segments ← decomposeToBeziers fuel c
  ok (toCapiAll m (segments.take maxSegments.toNat))

end

/-- `LN_NurbsSurface_C`, dotnet/CAPI/include/NurbsSurface_CAPI.h:23-33. -/
structure SurfaceC (K : Type) where
  degreeU : ℤ
  degreeV : ℤ
  knotVectorU : Pointer K
  knotVectorCountU : ℤ
  knotVectorV : Pointer K
  knotVectorCountV : ℤ
  controlPoints : Pointer (XYZW K)
  rows : ℤ
  cols : ℤ

/-- The buffers of a thread for surfaces, dotnet/CAPI/src/NurbsSurface_CAPI.cpp:20-23 (the third one is only an intermediate copy; those of the lines 24-26 are never used). -/
structure SurfaceBuffers (K : Type) where
  knotsU : Buffer K
  knotsV : Buffer K
  cps : Buffer (XYZW K)

noncomputable section

/-- `FromCAPI` for surfaces, dotnet/CAPI/src/NurbsSurface_CAPI.cpp:28-42. A negative count throws `std::length_error`; the model reports `ub`. -/
def fromCapiS {K : Type} (m : SurfaceBuffers K) (c : SurfaceC K) : Res (NurbsSurface K) := do
  let knotsU ← readN m.knotsU c.knotVectorU c.knotVectorCountU
  let knotsV ← readN m.knotsV c.knotVectorV c.knotVectorCountV
  if c.rows < 0 ∨ c.cols < 0 then ub
  else do
    let cps ← gridR c.rows.toNat c.cols.toNat fun i j => readAt m.cps c.controlPoints (i * c.cols + j)
    ok { degreeU := c.degreeU, degreeV := c.degreeV, knotsU := knotsU, knotsV := knotsV, cps := cps }

/-- `ToCAPI` for surfaces, dotnet/CAPI/src/NurbsSurface_CAPI.cpp:44-70: the width is that of the first row; a shorter row is read behind its end, of a longer one the rest is dropped. -/
def toCapiS {K : Type} (m : SurfaceBuffers K) (s : NurbsSurface K) : Res (SurfaceBuffers K × SurfaceC K) := do
  let rows := s.cps.length
  let cols := (s.cps.headD []).length
  let grid ← gridR rows cols fun i j => mget s.cps i j
  let flat := grid.flatten
  let knotsU := m.knotsU.assign s.knotsU
  let knotsV := m.knotsV.assign s.knotsV
  let cps := m.cps.assign flat
  ok (⟨knotsU, knotsV, cps⟩, ⟨s.degreeU, s.degreeV, .buffer knotsU.gen, s.knotsU.length, .buffer knotsV.gen, s.knotsV.length, .buffer cps.gen, rows, cols⟩)

end
end LNLib
