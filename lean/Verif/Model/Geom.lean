import Verif.Model.MathUtils

/-!
# Model of Mathematics/Math/XYZ.cpp, XYZW.cpp (the field-only part) and include/LNObject.h

All paths are relative to /repo/src/LNLib.
-/

namespace LNLib
open Res

/-- `XYZ`, Mathematics/Math/XYZ.cpp:19-31 (`m_xyz[3]`). -/
@[ext] structure XYZ (K : Type) where
  x : K
  y : K
  z : K
  deriving DecidableEq, Repr

/-- `XYZW`, Mathematics/Math/XYZW.cpp:19-41: homogeneous point (`wx`, `wy`, `wz`, `w`). -/
@[ext] structure XYZW (K : Type) where
  wx : K
  wy : K
  wz : K
  w : K
  deriving DecidableEq, Repr

section
variable {K : Type} [Field K]

namespace XYZ

/-- `XYZ::XYZ()`, Mathematics/Math/XYZ.cpp:19-24. -/
instance : Zero (XYZ K) := ⟨⟨0, 0, 0⟩⟩
/-- `operator+`, Mathematics/Math/XYZ.cpp:206-209 (and `+=`, 237-243). -/
instance : Add (XYZ K) := ⟨fun a b => ⟨a.x + b.x, a.y + b.y, a.z + b.z⟩⟩
/-- `operator-`, Mathematics/Math/XYZ.cpp:211-214. -/
instance : Sub (XYZ K) := ⟨fun a b => ⟨a.x - b.x, a.y - b.y, a.z - b.z⟩⟩
/-- unary `operator-` and `Negative`, Mathematics/Math/XYZ.cpp:253-256, 151-154. -/
instance : Neg (XYZ K) := ⟨fun a => ⟨-a.x, -a.y, -a.z⟩⟩
/-- `operator*(double, XYZ)`, Mathematics/Math/XYZ.cpp:257-264. -/
instance : SMul K (XYZ K) := ⟨fun c a => ⟨c * a.x, c * a.y, c * a.z⟩⟩

@[simp] theorem zero_x : (0 : XYZ K).x = 0 := rfl
@[simp] theorem zero_y : (0 : XYZ K).y = 0 := rfl
@[simp] theorem zero_z : (0 : XYZ K).z = 0 := rfl
@[simp] theorem add_x (a b : XYZ K) : (a + b).x = a.x + b.x := rfl
@[simp] theorem add_y (a b : XYZ K) : (a + b).y = a.y + b.y := rfl
@[simp] theorem add_z (a b : XYZ K) : (a + b).z = a.z + b.z := rfl
@[simp] theorem sub_x (a b : XYZ K) : (a - b).x = a.x - b.x := rfl
@[simp] theorem sub_y (a b : XYZ K) : (a - b).y = a.y - b.y := rfl
@[simp] theorem sub_z (a b : XYZ K) : (a - b).z = a.z - b.z := rfl
@[simp] theorem neg_x (a : XYZ K) : (-a).x = -a.x := rfl
@[simp] theorem neg_y (a : XYZ K) : (-a).y = -a.y := rfl
@[simp] theorem neg_z (a : XYZ K) : (-a).z = -a.z := rfl
@[simp] theorem smul_x (c : K) (a : XYZ K) : (c • a).x = c * a.x := rfl
@[simp] theorem smul_y (c : K) (a : XYZ K) : (c • a).y = c * a.y := rfl
@[simp] theorem smul_z (c : K) (a : XYZ K) : (c • a).z = c * a.z := rfl

instance : AddCommGroup (XYZ K) where
  add_assoc a b c := by ext <;> simp [add_assoc]
  zero_add a := by ext <;> simp
  add_zero a := by ext <;> simp
  add_comm a b := by ext <;> simp [add_comm]
  neg_add_cancel a := by ext <;> simp
  sub_eq_add_neg a b := by ext <;> simp [sub_eq_add_neg]
  nsmul := nsmulRec
  zsmul := zsmulRec

instance : Module K (XYZ K) where
  one_smul a := by ext <;> simp
  mul_smul c d a := by ext <;> simp [mul_assoc]
  smul_zero c := by ext <;> simp
  smul_add c a b := by ext <;> simp [mul_add]
  add_smul c d a := by ext <;> simp [add_mul]
  zero_smul a := by ext <;> simp

/-- `XYZ::DotProduct`, Mathematics/Math/XYZ.cpp:156-159. -/
def dot (a b : XYZ K) : K := a.x * b.x + a.y * b.y + a.z * b.z

/-- `XYZ::CrossProduct`, Mathematics/Math/XYZ.cpp:161-166. -/
def cross (a b : XYZ K) : XYZ K :=
  ⟨a.y * b.z - b.y * a.z, a.z * b.x - b.z * a.x, a.x * b.y - b.x * a.y⟩

/-- `XYZ::SqrLength`, Mathematics/Math/XYZ.cpp:107-110. -/
def sqrLength (a : XYZ K) : K := a.x * a.x + a.y * a.y + a.z * a.z

/-- `XYZ::IsAlmostEqualTo`, Mathematics/Math/XYZ.cpp:95-100. -/
def almostEq [LinearOrder K] (a b : XYZ K) : Bool :=
  isAlmostEqualTo a.x b.x && isAlmostEqualTo a.y b.y && isAlmostEqualTo a.z b.z

/-- `XYZ::IsZero`, Mathematics/Math/XYZ.cpp:85-88. -/
def isZero [LinearOrder K] (a : XYZ K) (epsilon : K := doubleEps) : Bool :=
  decide (a.sqrLength ≤ epsilon * epsilon)

end XYZ

namespace XYZW

/-- `XYZW::XYZW()`, Mathematics/Math/XYZW.cpp:19-25. -/
instance : Zero (XYZW K) := ⟨⟨0, 0, 0, 0⟩⟩
/-- `operator+`, `+=`, Mathematics/Math/XYZW.cpp:140-143, 150-157. -/
instance : Add (XYZW K) := ⟨fun a b => ⟨a.wx + b.wx, a.wy + b.wy, a.wz + b.wz, a.w + b.w⟩⟩
/-- `operator-`, Mathematics/Math/XYZW.cpp:145-148. -/
instance : Sub (XYZW K) := ⟨fun a b => ⟨a.wx - b.wx, a.wy - b.wy, a.wz - b.wz, a.w - b.w⟩⟩
instance : Neg (XYZW K) := ⟨fun a => ⟨-a.wx, -a.wy, -a.wz, -a.w⟩⟩
/-- `operator*(double, XYZW)`, Mathematics/Math/XYZW.cpp:160-168. -/
instance : SMul K (XYZW K) := ⟨fun c a => ⟨c * a.wx, c * a.wy, c * a.wz, c * a.w⟩⟩

@[simp] theorem zero_wx : (0 : XYZW K).wx = 0 := rfl
@[simp] theorem zero_wy : (0 : XYZW K).wy = 0 := rfl
@[simp] theorem zero_wz : (0 : XYZW K).wz = 0 := rfl
@[simp] theorem zero_w : (0 : XYZW K).w = 0 := rfl
@[simp] theorem add_wx (a b : XYZW K) : (a + b).wx = a.wx + b.wx := rfl
@[simp] theorem add_wy (a b : XYZW K) : (a + b).wy = a.wy + b.wy := rfl
@[simp] theorem add_wz (a b : XYZW K) : (a + b).wz = a.wz + b.wz := rfl
@[simp] theorem add_w (a b : XYZW K) : (a + b).w = a.w + b.w := rfl
@[simp] theorem sub_wx (a b : XYZW K) : (a - b).wx = a.wx - b.wx := rfl
@[simp] theorem sub_wy (a b : XYZW K) : (a - b).wy = a.wy - b.wy := rfl
@[simp] theorem sub_wz (a b : XYZW K) : (a - b).wz = a.wz - b.wz := rfl
@[simp] theorem sub_w (a b : XYZW K) : (a - b).w = a.w - b.w := rfl
@[simp] theorem neg_wx (a : XYZW K) : (-a).wx = -a.wx := rfl
@[simp] theorem neg_wy (a : XYZW K) : (-a).wy = -a.wy := rfl
@[simp] theorem neg_wz (a : XYZW K) : (-a).wz = -a.wz := rfl
@[simp] theorem neg_w (a : XYZW K) : (-a).w = -a.w := rfl
@[simp] theorem smul_wx (c : K) (a : XYZW K) : (c • a).wx = c * a.wx := rfl
@[simp] theorem smul_wy (c : K) (a : XYZW K) : (c • a).wy = c * a.wy := rfl
@[simp] theorem smul_wz (c : K) (a : XYZW K) : (c • a).wz = c * a.wz := rfl
@[simp] theorem smul_w (c : K) (a : XYZW K) : (c • a).w = c * a.w := rfl

instance : AddCommGroup (XYZW K) where
  add_assoc a b c := by ext <;> simp [add_assoc]
  zero_add a := by ext <;> simp
  add_zero a := by ext <;> simp
  add_comm a b := by ext <;> simp [add_comm]
  neg_add_cancel a := by ext <;> simp
  sub_eq_add_neg a b := by ext <;> simp [sub_eq_add_neg]
  nsmul := nsmulRec
  zsmul := zsmulRec

instance : Module K (XYZW K) where
  one_smul a := by ext <;> simp
  mul_smul c d a := by ext <;> simp [mul_assoc]
  smul_zero c := by ext <;> simp
  smul_add c a b := by ext <;> simp [mul_add]
  add_smul c d a := by ext <;> simp [add_mul]
  zero_smul a := by ext <;> simp

/-- `XYZW::XYZW(XYZ xyz, double w)`, Mathematics/Math/XYZW.cpp:27-33. -/
def ofXYZ (p : XYZ K) (w : K) : XYZW K := ⟨p.x * w, p.y * w, p.z * w, w⟩

/-- the three weighted coordinates, `ToXYZ(false)`, Mathematics/Math/XYZW.cpp:111-114. -/
def raw (a : XYZW K) : XYZ K := ⟨a.wx, a.wy, a.wz⟩

variable [LinearOrder K]

/-- `XYZW::ToXYZ(true)`, Mathematics/Math/XYZW.cpp:97-110: divides by the weight unless the weight
is within tolerance of zero, in which case the weighted coordinates are returned unchanged.  (The
division is total here because a zero weight is within tolerance of zero.) -/
def toXYZ (a : XYZW K) : XYZ K :=
  if isAlmostEqualTo a.w 0 then a.raw else ⟨a.wx / a.w, a.wy / a.w, a.wz / a.w⟩

end XYZW

end

/-- `LN_BezierCurve<T>`, include/LNObject.h:20-25. -/
structure BezierCurve (T : Type) where
  degree : ℤ
  cps : List T
  deriving DecidableEq, Repr

/-- `LN_BsplineCurve<T>`, include/LNObject.h:35-41. -/
structure BsplineCurve (K T : Type) where
  degree : ℤ
  knots : List K
  cps : List T
  deriving DecidableEq, Repr

/-- `LN_NurbsCurve`, include/LNObject.h:43. -/
abbrev NurbsCurve (K : Type) := BsplineCurve K (XYZW K)

end LNLib
