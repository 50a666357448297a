import Verif.Model.PointMatrix
import Verif.Model.PowerBasis
import Verif.Model.Intersection
import Verif.Model.GeomReal
import Verif.Model.Curve
import Verif.Model.MathUtils
import Verif.Model.Surface

/-!
# Model of `NurbsSurface::MakeCornerFilletSurface`, Geometry/Surface/NurbsSurface.cpp:2025-2145

All paths are relative to /repo/src/LNLib.
-/

namespace LNLib
open Res

noncomputable section

/-- `radius` from the points of the arc at 0, 0.5 and 1, Geometry/Surface/NurbsSurface.cpp:2031-2035. When `PointToLine` fails, the projection stays the origin. -/
def filletRadius (s m e : XYZ ℝ) : Res ℝ := do
  let chordLength := s.distance e
  let (_, projectPoint) ← pointToLine s e m ⟨0, 0, 0⟩
  let archHeight := m.distance projectPoint
  fdiv ((chordLength / 2) ^ 2 + archHeight ^ 2) (2 * archHeight)

/-- `p11` and `w11` from the projections of the three points, Geometry/Surface/NurbsSurface.cpp:2042-2081. -/
def filletMiddle (p01 phalf p21 : XYZ ℝ) : Res (XYZ ℝ × ℝ) := do
  let x1 := p01.x
  let x2 := p21.x
  let x3 := phalf.x
  let y1 := p01.y
  let y2 := p21.y
  let y3 := phalf.y
  let x12 := x1 - x2
  let x13 := x1 - x3
  let y12 := y1 - y2
  let y13 := y1 - y3
  let y31 := y3 - y1
  let y21 := y2 - y1
  let x31 := x3 - x1
  let x21 := x2 - x1
  let sx13 := x1 ^ 2 - x3 ^ 2
  let sy13 := y1 ^ 2 - y3 ^ 2
  let sx21 := x2 ^ 2 - x1 ^ 2
  let sy21 := y2 ^ 2 - y1 ^ 2
  let f ← fdiv (sx13 * x12 + sy13 * x12 + sx21 * x13 + sy21 * x13) (2 * (y31 * x12 - y21 * x13))
  let g ← fdiv (sx13 * y12 + sy13 * y12 + sx21 * y13 + sy21 * y13) (2 * (x31 * y12 - x21 * y13))
  let c := -x1 ^ 2 - y1 ^ 2 - 2 * g * x1 - 2 * f * y1
  let cx := -g
  let cy := -f
  let r ← (if cx * cx + cy * cy - c < 0 then nonfinite else ok (Real.sqrt (cx * cx + cy * cy - c)) : Res ℝ)
  let center : XYZ ℝ := ⟨cx, cy, 0⟩
  let middle : XYZ ℝ := (1 / 2 : ℝ) • (p01 + p21)
  let center2Middle := center.distance middle
  let a ← fdiv (r ^ 2) (center2Middle ^ 2)
  let p11 := (1 - a) • center + a • middle
  let d1 := p11 - p21
  let d2 := p01 - p21
  let theta := d1.angleTo d2
  ok (p11, Real.cos theta)

/-- the table `b` from the tables `u`, `v` and `h` of the coordinates of `alphas`, Geometry/Surface/NurbsSurface.cpp:2115-2131. -/
def filletTable (radius : ℝ) (u v h : ℕ → ℕ → ℝ) : List (List (XYZW ℝ)) :=
  let radius2 := radius * radius
  [[⟨0, 0, 0, 4 * radius2 * h 0 0⟩,
    ⟨4 * radius2 * u 0 1 * h 0 0, 0, 0, 1⟩,
    ⟨0, 0, 2 * radius * u 0 1 ^ 2, u 0 1 ^ 2⟩],
   [⟨0, 0, 0, 4 * radius2 * h 0 0 ^ 2⟩,
    ⟨4 * radius2 * (u 1 1 * h 0 0 + u 0 1 * h 1 0), 4 * radius2 * v 1 1 * h 0 0, 0, 1⟩,
    ⟨0, 0, 4 * radius * u 0 1 * u 1 1, 2 * u 0 1 * u 1 1⟩],
   [⟨0, 0, 0, 4 * radius2 * (h 1 0 ^ 2 + 2 * h 0 0 * h 2 0)⟩,
    ⟨4 * radius2 * (u 2 1 * h 0 0 + u 1 1 * h 1 0 + u 0 1 * h 2 0), 4 * radius2 * (v 2 1 * h 0 0 + v 1 1 * h 1 0), 0, 1⟩,
    ⟨0, 0, 2 * radius * (u 1 1 ^ 2 + 2 * u 0 1 * u 2 1 + v 1 1 ^ 2), u 1 1 ^ 2 + 2 * u 0 1 * u 2 1 + v 1 1 ^ 2⟩],
   [⟨0, 0, 0, 8 * radius2 * h 1 0 * h 2 0⟩,
    ⟨4 * radius2 * (u 2 1 * h 1 0 + u 1 1 * h 2 0), 4 * radius2 * (v 1 1 * h 2 0 + v 2 1 * h 1 0), 0, 1⟩,
    ⟨0, 0, 4 * radius * (u 1 1 * u 2 1 + v 1 1 * v 2 1), 2 * (u 1 1 * u 2 1 + v 1 1 * v 2 1)⟩],
   [⟨0, 0, 0, 4 * radius2 * h 2 0 ^ 2⟩,
    ⟨4 * radius2 * u 2 1 * h 2 0, 4 * radius2 * v 2 1 * h 2 0, 0, 1⟩,
    ⟨0, 0, 2 * radius * (u 2 1 ^ 2 + v 2 1 ^ 2), u 2 1 ^ 2 + v 2 1 ^ 2⟩]]

/-- `NurbsSurface::MakeCornerFilletSurface`, Geometry/Surface/NurbsSurface.cpp:2025-2145. `inverse` stands for `MathUtils::MakeInverse` as in Model/Constrain.lean; `surface` is the value of
the output argument before the call. The tables `u`, `v` and `h` of lines 2098-2113 are read off `alphas` when they are used. -/
def makeCornerFillet (inverse : List (List ℝ) → Res (List (List ℝ))) (arc : NurbsCurve ℝ) (surface : NurbsSurface ℝ) : Res (NurbsSurface ℝ) := do
  let s ← NurbsCurve.pointOnCurve arc 0
  let m ← NurbsCurve.pointOnCurve arc (1 / 2)
  let e ← NurbsCurve.pointOnCurve arc 1
  let radius ← filletRadius s m e
  let p01 ← stereographic s radius
  let phalf ← stereographic m radius
  let p21 ← stereographic e radius
  let (p11, w11) ← filletMiddle p01 phalf p21
  let bezier : List (List (XYZW ℝ)) := [[⟨0, 0, 0, 1⟩, XYZW.ofXYZ p01 1], [⟨0, 0, 0, w11⟩, XYZW.ofXYZ p11 w11], [⟨0, 0, 0, 1⟩, XYZW.ofXYZ p21 1]]
  let m2 ← bezierToPowerMatrix 2
  let m1 ← bezierToPowerMatrix 1
  let m1T ← transposeM m1 []
  let m2bz ← multiplyPoints m2 bezier
  let alphas ← pointsMultiply m2bz m1T
  let b := filletTable radius (fun i j => (nth (row alphas i) j).wx) (fun i j => (nth (row alphas i) j).wy) (fun i j => (nth (row alphas i) j).w)
  let M4 ← bezierToPowerMatrix 4
  let IM4 ← inverse M4
  let IM2 ← inverse m2
  let IM2T ← transposeM IM2 []
  let IM4CP ← multiplyPoints IM4 b
  let controlPoints ← pointsMultiply IM4CP IM2T
  ok { surface with degreeU := 4, degreeV := 2, cps := controlPoints }

end
end LNLib
