import Verif.Model.Nearest
import Verif.Model.Surface

/-!
# Model of the parameter searches of Geometry/Surface/NurbsSurface.cpp

All paths are relative to /repo/src/LNLib.
-/

namespace LNLib
open Res

noncomputable section

/-- One round of the search along the tessellation, Geometry/Surface/NurbsSurface.cpp:1289-1315. State: (`minDistanceSquared`, `bestParam`); `none` is the largest
`double`, the initial value, which every squared distance is taken to be below. -/
def nearestRoundS (pts : List (XYZ ℝ)) (params : List (ℝ × ℝ)) (givenPoint : XYZ ℝ) (i : ℤ) (st : Option ℝ × (ℝ × ℝ)) : Res (Option ℝ × (ℝ × ℝ)) := do
  let P0 ← vget pts i
  let P1 ← vget pts (i + 1)
  let UV0 ← vget params i
  let UV1 ← vget params (i + 1)
  let seg := P1 - P0
  let segLenSq := seg.dot seg
  let t ← (if isGreaterThan segLenSq 0 then do
      let t ← fdiv ((givenPoint - P0).dot seg) segLenSq
      ok (max 0 (min 1 t))
    else ok (1 / 2) : Res ℝ)
  let projectPoint := P0 + t • seg
  let projectParam := (UV0.1 + (UV1.1 - UV0.1) * t, UV0.2 + (UV1.2 - UV0.2) * t)
  let distSq := (givenPoint - projectPoint).dot (givenPoint - projectPoint)
  match st.1 with
  | none => ok (some distSq, projectParam)
  | some minDistSq => if distSq < minDistSq then ok (some distSq, projectParam) else ok st

/-- The search along the tessellation, Geometry/Surface/NurbsSurface.cpp:1286-1315. The number of points is unsigned: without points the loop bound wraps around and the first
access is out of bounds. -/
def nearestStartS (pts : List (XYZ ℝ)) (params : List (ℝ × ℝ)) (givenPoint : XYZ ℝ) : Res (ℝ × ℝ) :=
  if pts.length = 0 then ub
  else do
    let st ← forI 0 ((pts.length : ℤ) - 1) ((none : Option ℝ), (doubleEps, doubleEps)) (nearestRoundS pts params givenPoint)
    ok st.2

/-- One Newton round, Geometry/Surface/NurbsSurface.cpp:1322-1384 and 1463-1524. `wrapU` and `wrapV` bring a parameter back into the domain: for a closed direction by adding the period, for
an open one by clamping; the order of these four steps does not matter, as each of them reads and writes its own parameter only. The boolean is true when the loop is left. -/
def newtonRoundS (c : NurbsSurface ℝ) (givenPoint : XYZ ℝ) (wrapU wrapV : ℝ → Res ℝ) (param : ℝ × ℝ) : Res ((ℝ × ℝ) × Bool) := do
  let derivatives ← NurbsSurface.rationalDerivatives c 2 param.1 param.2
  let S ← mget derivatives 0 0
  let Su ← mget derivatives 1 0
  let Sv ← mget derivatives 0 1
  let Suu ← mget derivatives 2 0
  let Svv ← mget derivatives 0 2
  let Suv ← mget derivatives 1 1
  let diff := S - givenPoint
  if isAlmostEqualTo diff.length 0 then ok (param, true)
  else do
    let J00 := Su.dot Su + diff.dot Suu
    let J01 := Su.dot Sv + diff.dot Suv
    let J10 := J01
    let J11 := Sv.dot Sv + diff.dot Svv
    let K0 := Su.dot diff
    let K1 := Sv.dot diff
    let determinant := J00 * J11 - J01 * J10
    if isAlmostEqualTo |determinant| 0 then ok (param, true)
    else do
      let deltaU ← fdiv (J10 * K1 - J11 * K0) determinant
      let deltaV ← fdiv (J01 * K0 - J00 * K1) determinant
      let newU := param.1 + deltaU
      let newV := param.2 + deltaV
      let deltaWorld := deltaU • Su + deltaV • Sv
      if isAlmostEqualTo deltaWorld.length 0 then ok ((newU, newV), true)
      else do
        let newU ← wrapU newU
        let newV ← wrapV newV
        ok ((newU, newV), false)

/-- The Newton loop, Geometry/Surface/NurbsSurface.cpp:1318-1385 and 1455-1525. -/
def newtonLoopS (c : NurbsSurface ℝ) (givenPoint : XYZ ℝ) (wrapU wrapV : ℝ → Res ℝ) (start : ℝ × ℝ) : Res ((ℝ × ℝ) × Bool) :=
  forI 0 20 (start, false) fun _ st => if st.2 then ok st else newtonRoundS c givenPoint wrapU wrapV st.1

/-- The way back into the domain, Geometry/Surface/NurbsSurface.cpp:1366-1382 (both directions) and 1514-1521 (the second direction). -/
def backInto (isClosed : Bool) (lo hi x : ℝ) : Res ℝ := if isClosed then wrapParam lo hi x else ok (max lo (min hi x))

/-- `NurbsSurface::GetParamOnSurface`, Geometry/Surface/NurbsSurface.cpp:1266-1388. -/
def getParamOnSurface (c : NurbsSurface ℝ) (givenPoint : XYZ ℝ) : Res (ℝ × ℝ) := do
  let minU ← vget c.knotsU 0
  let maxU ← vget c.knotsU ((c.knotsU.length : ℤ) - 1)
  let minV ← vget c.knotsV 0
  let maxV ← vget c.knotsV ((c.knotsV.length : ℤ) - 1)
  let isClosedU ← isClosedSurface c true
  let isClosedV ← isClosedSurface c false
  let (pts, params) ← equallyTessellateSurface c
  let start ← nearestStartS pts params givenPoint
  let (param, _) ← newtonLoopS c givenPoint (backInto isClosedU minU maxU) (backInto isClosedV minV maxV) start
  ok param

/-- The first direction in `GetAllParamsOnSurface`, Geometry/Surface/NurbsSurface.cpp:1505-1512: the loops compare with the tolerance; the numbers of rounds are bounded as in `wrapParam`. -/
def backIntoTol (isClosed : Bool) (lo hi x : ℝ) : Res ℝ :=
  if isClosed then do
    let range := hi - lo
    let t ← whileF (fun t => ok (isLessThan t lo)) (fun t => ok (t + range)) (⌈(lo - x) / range⌉₊) x
    whileF (fun t => ok (isGreaterThan t hi)) (fun t => ok (t - range)) (⌈(t - hi) / range⌉₊) t
  else ok (max lo (min hi x))

/-- The comparison with one of the parameters found before, Geometry/Surface/NurbsSurface.cpp:1526-1541. -/
def sameParam (isClosedU isClosedV : Bool) (minU maxU minV maxV : ℝ) (existing param : ℝ × ℝ) : Bool :=
  let diffU := |existing.1 - param.1|
  let diffV := |existing.2 - param.2|
  let diffU := if isClosedU then min diffU |diffU - (maxU - minU)| else diffU
  let diffV := if isClosedV then min diffV |diffV - (maxV - minV)| else diffV
  isAlmostEqualTo diffU 0 && isAlmostEqualTo diffV 0

/-- The starting points, Geometry/Surface/NurbsSurface.cpp:1422-1452: the inner samples of the tessellation that are nearer than their four neighbours, and the last corner. -/
def initialGuesses (pts : List (XYZ ℝ)) (params : List (ℝ × ℝ)) (givenPoint : XYZ ℝ) (numU numV : ℤ) : Res (List (ℝ × ℝ)) := do
  let distSq := pts.map fun x => (givenPoint - x).dot (givenPoint - x)
  let guesses ← forI 1 (numU - 1) ([] : List (ℝ × ℝ)) fun i guesses =>
    forI 1 (numV - 1) guesses fun j guesses => do
      let d ← vget distSq (i * numV + j)
      let dUp ← vget distSq ((i - 1) * numV + j)
      let dDown ← vget distSq ((i + 1) * numV + j)
      let dLeft ← vget distSq (i * numV + (j - 1))
      let dRight ← vget distSq (i * numV + (j + 1))
      if isLessThan d dUp && isLessThan d dDown && isLessThan d dLeft && isLessThan d dRight then do
        let x ← vget params (i * numV + j)
        ok (guesses ++ [x])
      else ok guesses
  if pts.length ≠ 0 then do
    let x ← vget params ((params.length : ℤ) - 1)
    ok (guesses ++ [x])
  else ok guesses

/-- `NurbsSurface::GetAllParamsOnSurface`, Geometry/Surface/NurbsSurface.cpp:1390-1550. -/
def getAllParamsOnSurface (c : NurbsSurface ℝ) (givenPoint : XYZ ℝ) : Res (List (ℝ × ℝ)) := do
  let minU ← vget c.knotsU 0
  let maxU ← vget c.knotsU ((c.knotsU.length : ℤ) - 1)
  let minV ← vget c.knotsV 0
  let maxV ← vget c.knotsV ((c.knotsV.length : ℤ) - 1)
  let isClosedU ← isClosedSurface c true
  let isClosedV ← isClosedSurface c false
  let (pts, params) ← equallyTessellateSurface c
  let numU : ℤ := ((stdUnique c.knotsU).length - 1) * 100
  let numV : ℤ := ((stdUnique c.knotsV).length - 1) * 100
  let guesses ← initialGuesses pts params givenPoint numU numV
  forI 0 guesses.length ([] : List (ℝ × ℝ)) fun i result => do
    let guess ← vget guesses i
    let (param, _) ← newtonLoopS c givenPoint (backIntoTol isClosedU minU maxU) (backInto isClosedV minV maxV) guess
    if result.any (fun e => sameParam isClosedU isClosedV minU maxU minV maxV e param) then ok result
    else ok (result ++ [param])

end
end LNLib
