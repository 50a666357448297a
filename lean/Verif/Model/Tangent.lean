import Verif.Model.Interp

/-!
# Model of the remaining parametrisation and tangent estimates of Algorithm/Interpolation.cpp

All paths are relative to /repo/src/LNLib.
-/

namespace LNLib
open Res

section
variable {K : Type} [Field K] [LinearOrder K]

/-- One row or column of `Interpolation::GetSurfaceMeshParameterization`, Algorithm/Interpolation.cpp:278-300 and 313-334: `dist k` is the
distance between the points `k` and `k - 1` of that line, `len` the number of its points.  State: (`cds`, `params`, `num`). -/
def meshLine (len : ℤ) (dist : ℤ → Res K) (st : List K × List K × ℤ) : Res (List K × List K × ℤ) := do
  let (cds, params, num) := st
  let (cds, total) ← forI 1 len (cds, (0 : K)) fun k (cds, total) => do
    let d ← dist k
    let cds ← vset cds k d
    let c ← vget cds k
    ok (cds, total + c)
  if isAlmostEqualTo total 0 then ok (cds, params, num - 1)
  else do
    let (params, _) ← forI 1 len (params, (0 : K)) fun k (params, d) => do
      let c ← vget cds k
      let d := d + c
      let x ← vget params k
      let q ← fdiv d total
      let params ← vset params k (x + q)
      ok (params, d)
    ok (cds, params, num)

/-- One direction of `Interpolation::GetSurfaceMeshParameterization`, Algorithm/Interpolation.cpp:274-310 and 312-344: `lines` rows or columns
of `len` points each.  The boolean is false when the function returns false at the end of this direction. -/
def meshDirection (lines len : ℤ) (dist : ℤ → ℤ → Res K) (cds params : List K) : Res (Bool × List K × List K) := do
  let (cds, params, num) ← forI 0 lines (cds, params, lines) fun l st => meshLine len (dist l) st
  if num = 0 then ok (false, cds, params)
  else do
    let params ← forI 1 (len - 1) params fun k params => do
      let x ← vget params k
      let q ← fdiv x ((num : ℤ) : K)
      vset params k q
    let params ← vset params (len - 1) 1
    ok (true, cds, params)

/-- `v.resize(size, 0.0)` -/
def resizeZero (l : List K) (size : ℕ) : List K := l.take size ++ List.replicate (size - l.length) 0

end

noncomputable section

/-- `Interpolation::GetCentripetalLength`, Algorithm/Interpolation.cpp:95-106. -/
def getCentripetalLength (pts : List (XYZ ℝ)) : Res ℝ :=
  if pts.length < 2 then ok 0
  else forI 1 pts.length 0 fun i length => do
    let a ← vget pts i
    let b ← vget pts (i - 1)
    ok (length + Real.sqrt (a.distance b))

/-- `Interpolation::GetSurfaceMeshParameterization`, Algorithm/Interpolation.cpp:265-346: the returned boolean and the final contents of the
reference arguments `paramsU` and `paramsV`, whose contents on entry are `paramsU0` and `paramsV0`. -/
def getSurfaceMeshParameterization (pts : List (List (XYZ ℝ))) (paramsU0 paramsV0 : List ℝ) : Res (Bool × List ℝ × List ℝ) := do
  let n := pts.length
  let row0 ← vget pts 0
  let m := row0.length
  let cds := List.replicate (max n m) (0 : ℝ)
  let paramsU := resizeZero paramsU0 n
  let paramsV := resizeZero paramsV0 m
  let (good, cds, paramsU) ← meshDirection m n (fun l k => do
    let a ← mget pts k l
    let b ← mget pts (k - 1) l
    ok (a.distance b)) cds paramsU
  if good = false then ok (false, paramsU, paramsV)
  else do
    let (good, _, paramsV) ← meshDirection n m (fun k l => do
      let a ← mget pts k l
      let b ← mget pts k (l - 1)
      ok (a.distance b)) cds paramsV
    ok (good, paramsU, paramsV)

/-- `Getqk`, Algorithm/Interpolation.cpp:22-25. -/
def getqk (pts : List (XYZ ℝ)) (index : ℤ) : Res (XYZ ℝ) := do
  let a ← vget pts index
  let b ← vget pts (index - 1)
  ok (a - b)

/-- `Getak`, Algorithm/Interpolation.cpp:27-30. -/
def getak (qk_1 qk qk1 qk2 : XYZ ℝ) : Res ℝ :=
  fdiv (qk_1.cross qk).length ((qk_1.cross qk).length + (qk1.cross qk2).length)

/-- `GetTk`, Algorithm/Interpolation.cpp:32-36. -/
def getTk (qk_1 qk qk1 qk2 : XYZ ℝ) : Res (XYZ ℝ) := do
  let ak ← getak qk_1 qk qk1 qk2
  ok ((1 - ak) • qk + ak • qk1).normalize

/-- `Interpolation::ComputeTangent(throughPoints, tangents)`, Algorithm/Interpolation.cpp:348-376: the boolean and, when it is true, the
tangents (every entry of the output is written then). -/
def computeTangentFive (pts : List (XYZ ℝ)) : Res (Bool × List (XYZ ℝ)) :=
  if pts.length < 5 then ok (false, [])
  else do
    let size : ℤ := pts.length
    let tangents ← forI 2 (size - 2) (List.replicate pts.length (0 : XYZ ℝ)) fun k tangents => do
      let qk_1 ← getqk pts (k - 1)
      let qk ← getqk pts k
      let qk1 ← getqk pts (k + 1)
      let qk2 ← getqk pts (k + 2)
      let t ← getTk qk_1 qk qk1 qk2
      vset tangents k t
    let n := size - 1
    let q1 ← getqk pts 1
    let q2 ← getqk pts 2
    let q0 := (2 : ℝ) • q1 - q2
    let q_1 := (2 : ℝ) • q0 - q1
    let qn ← getqk pts n
    let qnm1 ← getqk pts (n - 1)
    let qn1 := (2 : ℝ) • qn - qnm1
    let qn2 := (2 : ℝ) • qn1 - qn
    let t ← getTk q_1 q0 q1 q2
    let tangents ← vset tangents 0 t
    let q3 ← getqk pts 3
    let t ← getTk q0 q1 q2 q3
    let tangents ← vset tangents 1 t
    let qnm2 ← getqk pts (n - 2)
    let t ← getTk qnm2 qnm1 qn qn1
    let tangents ← vset tangents (n - 1) t
    let t ← getTk qnm1 qn qn1 qn2
    let tangents ← vset tangents n t
    ok (true, tangents)

/-- The body of the loop of `Interpolation::ComputeTangent(throughPoints)`, Algorithm/Interpolation.cpp:400-419. -/
def tangentInner (du : List ℝ) (dP : List (XYZ ℝ)) (i : ℤ) (tangents : List (XYZ ℝ)) : Res (List (XYZ ℝ)) := do
  let w1 ← vget du i
  let w2 ← vget du (i - 1)
  let a1 ← vget dP i
  let a0 ← vget dP (i - 1)
  if isAlmostEqualTo w1 0 && isAlmostEqualTo w2 0 then vset tangents i 0
  else if isAlmostEqualTo w1 0 then do
    let t ← vdiv a1 w1
    vset tangents i t
  else if isAlmostEqualTo w2 0 then do
    let t ← vdiv a0 w2
    vset tangents i t
  else do
    let a ← fdiv w2 (w1 + w2)
    let t0 ← vdiv a0 w2
    let t1 ← vdiv a1 w1
    vset tangents i (a • t0 + (1 - a) • t1)

/-- The end tangents of `Interpolation::ComputeTangent(throughPoints)`, Algorithm/Interpolation.cpp:421-435: `i` is the end, `j` its neighbour
and `s` the segment between them. -/
def tangentEnd (du : List ℝ) (dP : List (XYZ ℝ)) (i j s : ℤ) (tangents : List (XYZ ℝ)) : Res (List (XYZ ℝ)) := do
  let d ← vget du s
  let t ← vget tangents j
  if isGreaterThan d 0 then do
    let a ← vget dP s
    let deriv ← vdiv a d
    vset tangents i ((2 : ℝ) • deriv - t)
  else vset tangents i t

/-- `Interpolation::ComputeTangent(throughPoints)`, Algorithm/Interpolation.cpp:378-437. -/
def computeTangent (pts : List (XYZ ℝ)) : Res (List (XYZ ℝ)) :=
  if pts.length = 0 then ok []
  else if pts.length = 1 then ok [0]
  else if pts.length = 2 then do
    let b ← vget pts 1
    let a ← vget pts 0
    ok [b - a, b - a]
  else do
    let size : ℤ := pts.length
    let params ← getChordParameterization pts
    let (du, dP) ← forI 0 (size - 1) (List.replicate (pts.length - 1) (0 : ℝ), List.replicate (pts.length - 1) (0 : XYZ ℝ)) fun i (du, dP) => do
      let u1 ← vget params (i + 1)
      let u0 ← vget params i
      let du ← vset du i (u1 - u0)
      let p1 ← vget pts (i + 1)
      let p0 ← vget pts i
      let dP ← vset dP i (p1 - p0)
      ok (du, dP)
    let tangents ← forI 1 (size - 1) (List.replicate pts.length (0 : XYZ ℝ)) fun i tangents => tangentInner du dP i tangents
    let tangents ← tangentEnd du dP 0 1 0 tangents
    let last := size - 1
    tangentEnd du dP last (last - 1) (last - 1) tangents

end
end LNLib
