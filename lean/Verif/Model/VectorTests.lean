import Verif.Model.Mesh
import Verif.Model.GeomReal
import Mathlib.Analysis.SpecialFunctions.Trigonometric.Basic

/-!
# Model of the tests for vectors, Mathematics/Math/XYZ.cpp and UV.cpp, and of the conversions of angles, Mathematics/Utils/MathUtils.cpp

All paths are relative to /repo/src/LNLib.
-/

namespace LNLib

noncomputable section

/-- `XYZ::IsUnit`, Mathematics/Math/XYZ.cpp:90-93. -/
def XYZ.isUnit (a : XYZ ℝ) (epsilon : ℝ) : Bool := decide (|a.sqrLength - 1| < epsilon * epsilon)

namespace UV

/-- `UV::SqrLength`, Mathematics/Math/UV.cpp:90-93. -/
def sqrLength (a : UV ℝ) : ℝ := a.u * a.u + a.v * a.v

/-- `UV::Length`, Mathematics/Math/UV.cpp:85-88. -/
def length (a : UV ℝ) : ℝ := Real.sqrt (a.u * a.u + a.v * a.v)

/-- `UV::IsZero`, Mathematics/Math/UV.cpp:69-72. -/
def isZero (a : UV ℝ) (epsilon : ℝ) : Bool := decide (a.sqrLength ≤ epsilon * epsilon)

/-- `UV::IsUnit`, Mathematics/Math/UV.cpp:74-77. -/
def isUnit (a : UV ℝ) (epsilon : ℝ) : Bool := decide (|a.sqrLength - 1| < epsilon * epsilon)

/-- `UV::IsAlmostEqualTo`, Mathematics/Math/UV.cpp:79-83. -/
def almostEq (a b : UV ℝ) : Bool := isAlmostEqualTo a.u b.u && isAlmostEqualTo a.v b.v

/-- `UV::Normalize`, Mathematics/Math/UV.cpp:95-106. -/
def normalize (a : UV ℝ) : UV ℝ := if a.length > 0 then ⟨a.u * (1 / a.length), a.v * (1 / a.length)⟩ else a

/-- `UV::Distance`, Mathematics/Math/UV.cpp:133-137. -/
def distance (a b : UV ℝ) : ℝ := Real.sqrt ((b.u - a.u) ^ 2 + (b.v - a.v) ^ 2)

end UV

/-- `MathUtils::RadiansToAngle`, Mathematics/Utils/MathUtils.cpp:89-92. The constant for pi is the real number. -/
def radiansToAngle (radians : ℝ) : ℝ := radians * 180 / Real.pi

/-- `MathUtils::AngleToRadians`, Mathematics/Utils/MathUtils.cpp:94-97. -/
def angleToRadians (angle : ℝ) : ℝ := angle * Real.pi / 180

end
end LNLib
