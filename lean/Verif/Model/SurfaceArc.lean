import Verif.Model.Arc
import Verif.Model.Surface

/-!
# Model of the surfaces made of circular arcs: `CreateCylindricalSurface` and `CreateRevolvedSurface`

Over `ℝ`.  All paths are relative to /repo/src/LNLib.
-/

namespace LNLib
open Res

noncomputable section

/-- `NurbsSurface::CreateCylindricalSurface`, Geometry/Surface/NurbsSurface.cpp:1726-1763.  `none` is `return false`. -/
def createCylindricalSurface (origin xAxis yAxis : XYZ ℝ) (startRad endRad radius height : ℝ) : Res (Option (NurbsSurface ℝ)) := do
  validate (!xAxis.isZero)
  validate (!yAxis.isZero)
  validate (isGreaterThan endRad startRad)
  validate (isGreaterThan radius 0)
  validate (isGreaterThan height 0)
  let nX := xAxis.normalize
  let nY := yAxis.normalize
  let arc ← createArc origin nX nY startRad endRad radius radius
  match arc with
  | none => ok none
  | some arc => do
    let axis := nX.cross nY
    let translation := height • axis
    let halfTranslation := (0.5 * height : ℝ) • axis
    let size := arc.cps.length
    let cps ← forI 0 size (List.replicate 3 (List.replicate size (0 : XYZW ℝ))) fun i cps => do
      let a ← vget arc.cps i
      let cps ← mset cps 2 i (XYZW.ofXYZ a.toXYZ a.w)
      let cps ← mset cps 1 i (XYZW.ofXYZ (halfTranslation + a.toXYZ) a.w)
      mset cps 0 i (XYZW.ofXYZ (translation + a.toXYZ) a.w)
    ok (some { degreeU := 2, degreeV := arc.degree, knotsU := [0, 0, 0, 1, 1, 1], knotsV := arc.knots, cps := cps })

/-- The variables of the inner loop of `CreateRevolvedSurface`, Geometry/Surface/NurbsSurface.cpp:1936-1965. -/
structure RevState where
  cps : List (List (XYZW ℝ))
  index : ℤ
  P0 : XYZ ℝ
  T0 : XYZ ℝ

/-- One pass of the inner loop, Geometry/Surface/NurbsSurface.cpp:1936-1965, for the column `j` of the weight `w`; `none` is
the early `return false`. -/
def revRound (O X Y : XYZ ℝ) (r : ℝ) (cosines sines : List ℝ) (wm w : ℝ) (narcs j i : ℤ) (s : RevState) : Res (Option RevState) := do
  let ci ← vget cosines i
  let si ← vget sines i
  let P2 := if isAlmostEqualTo r 0 then O else O + (r * ci) • X + (r * si) • Y
  let cps ← mset s.cps (s.index + 2) j (XYZW.ofXYZ P2 w)
  let T2 := (-si) • X + ci • Y
  let next (cps : List (List (XYZW ℝ))) : Res (Option RevState) :=
    if i < narcs then ok (some ⟨cps, s.index + 2, P2, T2⟩) else ok (some ⟨cps, s.index + 2, s.P0, s.T0⟩)
  if isAlmostEqualTo r 0 then do
    let cps ← mset cps (s.index + 1) j (XYZW.ofXYZ O (wm * w))
    next cps
  else do
    let q ← computeRays s.P0 s.T0 P2 T2 (0, 0, 0)
    if q.1 = .intersecting then do
      let cps ← mset cps (s.index + 1) j (XYZW.ofXYZ q.2.2.2 (wm * w))
      next cps
    else ok none

/-- The inner loop body after a possible early `return false` (`none`), Geometry/Surface/NurbsSurface.cpp:1936-1965. -/
def revStep (O X Y : XYZ ℝ) (r : ℝ) (cosines sines : List ℝ) (wm w : ℝ) (narcs j i : ℤ) : Option RevState → Res (Option RevState)
  | none => ok none
  | some s => revRound O X Y r cosines sines wm w narcs j i s

/-- One pass of the outer loop: the column of one profile control point, Geometry/Surface/NurbsSurface.cpp:1911-1966. -/
def revColumn (origin axis : XYZ ℝ) (cosines sines : List ℝ) (wm : ℝ) (narcs j : ℤ) (gp : XYZW ℝ) (cps : List (List (XYZW ℝ))) :
    Res (Option (List (List (XYZW ℝ)))) := do
  let p := gp.toXYZ
  let O ← pointToRay origin axis p
  let X := p - O
  let r := X.normalize.length
  let Y := axis.cross X
  let X' ← (if isGreaterThan r 0 then vdiv X r else ok X : Res (XYZ ℝ))
  let Y' ← (if isGreaterThan r 0 then vdiv Y r else ok Y : Res (XYZ ℝ))
  let cps ← mset cps 0 j (XYZW.ofXYZ p gp.w)
  let res ← forI 1 (narcs + 1) (some (⟨cps, 0, p, Y'⟩ : RevState)) fun i st => revStep O X' Y' r cosines sines wm gp.w narcs j i st
  ok (res.map RevState.cps)

/-- The outer loop body after a possible early `return false` (`none`), Geometry/Surface/NurbsSurface.cpp:1911-1966. -/
def revColumnStep (origin axis : XYZ ℝ) (cosines sines : List ℝ) (wm : ℝ) (narcs j : ℤ) (gp : XYZW ℝ) :
    Option (List (List (XYZW ℝ))) → Res (Option (List (List (XYZW ℝ))))
  | none => ok none
  | some cps => revColumn origin axis cosines sines wm narcs j gp cps

/-- The variables of the loop Geometry/Surface/NurbsSurface.cpp:1897-1902. -/
structure AngleState where
  angle : ℝ
  cosines : List ℝ
  sines : List ℝ

/-- `NurbsSurface::CreateRevolvedSurface`, Geometry/Surface/NurbsSurface.cpp:1848-1974.  `none` is `return false`. -/
def createRevolvedSurface (origin axis : XYZ ℝ) (rad : ℝ) (profile : NurbsCurve ℝ) : Res (Option (NurbsSurface ℝ)) := do
  validate (!axis.isZero)
  let narcs := arcCount rad
  let knots ← arcKnots narcs (List.replicate (2 * narcs + 3 + 1).toNat (0 : ℝ))
  let dtheta ← fdiv rad (narcs : ℝ)
  let j := 3 + 2 * (narcs - 1)
  let knots ← forI 0 3 knots fun i k => do
    let k ← vset k i (0 : ℝ)
    vset k (j + i) (1 : ℝ)
  let n := 2 * narcs
  let wm := Real.cos (dtheta / 2)
  let a ← forI 1 (narcs + 1) (⟨0, List.replicate (narcs + 1).toNat 0, List.replicate (narcs + 1).toNat 0⟩ : AngleState) fun i a => do
    let angle := a.angle + dtheta
    let cosines ← vset a.cosines i (Real.cos angle)
    let sines ← vset a.sines i (Real.sin angle)
    ok ⟨angle, cosines, sines⟩
  let m : ℤ := (profile.cps.length : ℤ) - 1
  let res ← forI 0 (m + 1) (some (List.replicate (n + 1).toNat (List.replicate (m + 1).toNat (0 : XYZW ℝ)))) fun j cps => do
    let gp ← vget profile.cps j
    revColumnStep origin axis a.cosines a.sines wm narcs j gp cps
  ok (res.map fun cps => { degreeU := 2, degreeV := profile.degree, knotsU := knots, knotsV := profile.knots, cps := cps })

end

end LNLib
