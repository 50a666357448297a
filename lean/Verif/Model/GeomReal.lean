import Verif.Model.Matrix4d
import Mathlib.Analysis.SpecialFunctions.Trigonometric.Inverse

/-!
# The parts of Mathematics/Math/XYZ.cpp and Matrix4d.cpp that need square roots or trigonometry

Over `ℝ`.  All paths are relative to /repo/src/LNLib.
-/

namespace LNLib
open Res

noncomputable section

/-- `XYZ::Length`, Mathematics/Math/XYZ.cpp:102-105. -/
def XYZ.length (a : XYZ ℝ) : ℝ := Real.sqrt (a.x * a.x + a.y * a.y + a.z * a.z)

/-- `XYZ::Normalize`, Mathematics/Math/XYZ.cpp:127-139. -/
def XYZ.normalize (a : XYZ ℝ) : XYZ ℝ :=
  if a.length > 0 then ⟨a.x * (1 / a.length), a.y * (1 / a.length), a.z * (1 / a.length)⟩ else a

/-- `XYZ::Distance`, Mathematics/Math/XYZ.cpp:168-172. -/
def XYZ.distance (a b : XYZ ℝ) : ℝ := Real.sqrt ((b.x - a.x) ^ 2 + (b.y - a.y) ^ 2 + (b.z - a.z) ^ 2)

/-- `XYZ::AngleTo`, Mathematics/Math/XYZ.cpp:112-125. -/
def XYZ.angleTo (a b : XYZ ℝ) : ℝ :=
  if a.normalize.isZero || b.normalize.isZero then 0
  else
    let dot := a.normalize.dot b.normalize
    Real.arccos (if dot < -1 then -1 else if dot > 1 then 1 else dot)

namespace Matrix4d

/-- `Matrix4d::CreateReflection`, Mathematics/Math/Matrix4d.cpp:76-104. -/
def createReflection (normal : XYZ ℝ) (d : ℝ) : Matrix4d ℝ :=
  let t := normal.normalize
  let x := t.x
  let y := t.y
  let z := t.z
  ⟨-2 * x * x + 1, -2 * y * x, -2 * z * x, -2 * x * d,
   -2 * x * y, -2 * y * y + 1, -2 * z * y, -2 * y * d,
   -2 * x * z, -2 * y * z, -2 * z * z + 1, -2 * z * d,
   0, 0, 0, 1⟩

/-- `Matrix4d::CreateRotation`, Mathematics/Math/Matrix4d.cpp:111-142. -/
def createRotation (axis : XYZ ℝ) (rad : ℝ) : Matrix4d ℝ :=
  let c := Real.cos rad
  let s := Real.sin rad
  let t := 1 - c
  let n := axis.normalize
  let x := n.x
  let y := n.y
  let z := n.z
  ⟨c + x * x * t, x * y * t - z * s, x * z * t + y * s, 0,
   y * x * t + z * s, c + y * y * t, y * z * t - x * s, 0,
   z * x * t - y * s, z * y * t + x * s, c + z * z * t, 0,
   0, 0, 0, 1⟩

/-- `Matrix4d::CreateRotationAtPoint`, Mathematics/Math/Matrix4d.cpp:144-154. -/
def createRotationAtPoint (o axis : XYZ ℝ) (rad : ℝ) : Matrix4d ℝ :=
  let r := createRotation axis rad
  let Rv : XYZ ℝ := ⟨r.a00 * o.x + r.a01 * o.y + r.a02 * o.z, r.a10 * o.x + r.a11 * o.y + r.a12 * o.z,
    r.a20 * o.x + r.a21 * o.y + r.a22 * o.z⟩
  r.setBasisW (o - Rv)

end Matrix4d

end

end LNLib
