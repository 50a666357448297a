import Verif.Model.Geom

/-!
# Model of Mathematics/Math/Matrix4d.cpp

All paths are relative to /repo/src/LNLib.  Functions that need `sqrt`, `sin` or `cos`
(`CreateReflection`, `CreateRotation`, `GetScale`) are in Model/GeomReal.lean.  `GetInverse` calls the
Eigen library; that call is a parameter of the model.
-/

namespace LNLib
open Res

/-- `Matrix4d`: `m_matrix4d[4][4]`, include/Matrix4d.h; `aij` is `m_matrix4d[i][j]`. -/
@[ext] structure Matrix4d (K : Type) where
  a00 : K
  a01 : K
  a02 : K
  a03 : K
  a10 : K
  a11 : K
  a12 : K
  a13 : K
  a20 : K
  a21 : K
  a22 : K
  a23 : K
  a30 : K
  a31 : K
  a32 : K
  a33 : K
  deriving DecidableEq, Repr

namespace Matrix4d

section
variable {K : Type} [Field K]

/-- `Matrix4d::Matrix4d()`, Mathematics/Math/Matrix4d.cpp:22-29: the identity. -/
def identity : Matrix4d K := ⟨1, 0, 0, 0, 0, 1, 0, 0, 0, 0, 1, 0, 0, 0, 0, 1⟩

/-- `Matrix4d(basisX, basisY, basisZ, origin)`, Mathematics/Math/Matrix4d.cpp:31-52. -/
def ofBasis (bx by' bz o : XYZ K) : Matrix4d K :=
  ⟨bx.x, by'.x, bz.x, o.x, bx.y, by'.y, bz.y, o.y, bx.z, by'.z, bz.z, o.z, 0, 0, 0, 1⟩

/-- `Matrix4d::CreateTranslation`, Mathematics/Math/Matrix4d.cpp:156-163. -/
def createTranslation (v : XYZ K) : Matrix4d K := ⟨1, 0, 0, v.x, 0, 1, 0, v.y, 0, 0, 1, v.z, 0, 0, 0, 1⟩

/-- `Matrix4d::CreateScale`, Mathematics/Math/Matrix4d.cpp:165-172. -/
def createScale (s : XYZ K) : Matrix4d K := ⟨1 * s.x, 0, 0, 0, 0, 1 * s.y, 0, 0, 0, 0, 1 * s.z, 0, 0, 0, 0, 1⟩

/-- `SetBasisW`, Mathematics/Math/Matrix4d.cpp:210-215. -/
def setBasisW (m : Matrix4d K) (w : XYZ K) : Matrix4d K := { m with a03 := w.x, a13 := w.y, a23 := w.z }

/-- `GetBasisX`, Mathematics/Math/Matrix4d.cpp:181-184. -/
def basisX (m : Matrix4d K) : XYZ K := ⟨m.a00, m.a10, m.a20⟩
/-- `GetBasisY`, Mathematics/Math/Matrix4d.cpp:193-196. -/
def basisY (m : Matrix4d K) : XYZ K := ⟨m.a01, m.a11, m.a21⟩
/-- `GetBasisZ`, Mathematics/Math/Matrix4d.cpp:205-208. -/
def basisZ (m : Matrix4d K) : XYZ K := ⟨m.a02, m.a12, m.a22⟩
/-- `GetBasisW`, Mathematics/Math/Matrix4d.cpp:217-220. -/
def basisW (m : Matrix4d K) : XYZ K := ⟨m.a03, m.a13, m.a23⟩

/-- `Matrix4d::Multiply`, Mathematics/Math/Matrix4d.cpp:232-257. -/
def multiply (l r : Matrix4d K) : Matrix4d K where
  a00 := l.a00 * r.a00 + l.a01 * r.a10 + l.a02 * r.a20 + l.a03 * r.a30
  a01 := l.a00 * r.a01 + l.a01 * r.a11 + l.a02 * r.a21 + l.a03 * r.a31
  a02 := l.a00 * r.a02 + l.a01 * r.a12 + l.a02 * r.a22 + l.a03 * r.a32
  a03 := l.a00 * r.a03 + l.a01 * r.a13 + l.a02 * r.a23 + l.a03 * r.a33
  a10 := l.a10 * r.a00 + l.a11 * r.a10 + l.a12 * r.a20 + l.a13 * r.a30
  a11 := l.a10 * r.a01 + l.a11 * r.a11 + l.a12 * r.a21 + l.a13 * r.a31
  a12 := l.a10 * r.a02 + l.a11 * r.a12 + l.a12 * r.a22 + l.a13 * r.a32
  a13 := l.a10 * r.a03 + l.a11 * r.a13 + l.a12 * r.a23 + l.a13 * r.a33
  a20 := l.a20 * r.a00 + l.a21 * r.a10 + l.a22 * r.a20 + l.a23 * r.a30
  a21 := l.a20 * r.a01 + l.a21 * r.a11 + l.a22 * r.a21 + l.a23 * r.a31
  a22 := l.a20 * r.a02 + l.a21 * r.a12 + l.a22 * r.a22 + l.a23 * r.a32
  a23 := l.a20 * r.a03 + l.a21 * r.a13 + l.a22 * r.a23 + l.a23 * r.a33
  a30 := l.a30 * r.a00 + l.a31 * r.a10 + l.a32 * r.a20 + l.a33 * r.a30
  a31 := l.a30 * r.a01 + l.a31 * r.a11 + l.a32 * r.a21 + l.a33 * r.a31
  a32 := l.a30 * r.a02 + l.a31 * r.a12 + l.a32 * r.a22 + l.a33 * r.a32
  a33 := l.a30 * r.a03 + l.a31 * r.a13 + l.a32 * r.a23 + l.a33 * r.a33

/-- `Matrix4d::OfPoint`, Mathematics/Math/Matrix4d.cpp:259-268. -/
def ofPoint [DecidableEq K] (m : Matrix4d K) (p : XYZ K) : Res (XYZ K) :=
  vdiv (⟨m.a00 * p.x + m.a01 * p.y + m.a02 * p.z + m.a03 * 1, m.a10 * p.x + m.a11 * p.y + m.a12 * p.z + m.a13 * 1,
    m.a20 * p.x + m.a21 * p.y + m.a22 * p.z + m.a23 * 1⟩ : XYZ K)
    (m.a30 * p.x + m.a31 * p.y + m.a32 * p.z + m.a33 * 1)

/-- `Matrix4d::OfWeightedPoint`, Mathematics/Math/Matrix4d.cpp:270-282. -/
def ofWeightedPoint [DecidableEq K] (m : Matrix4d K) (p : XYZW K) : Res (XYZW K) := do
  let x ← fdiv p.wx p.w
  let y ← fdiv p.wy p.w
  let z ← fdiv p.wz p.w
  let t ← m.ofPoint ⟨x, y, z⟩
  ok (XYZW.ofXYZ t p.w)

/-- `Matrix4d::OfVector`, Mathematics/Math/Matrix4d.cpp:284-291. -/
def ofVector (m : Matrix4d K) (v : XYZ K) : XYZ K :=
  ⟨m.a00 * v.x + m.a01 * v.y + m.a02 * v.z, m.a10 * v.x + m.a11 * v.y + m.a12 * v.z, m.a20 * v.x + m.a21 * v.y + m.a22 * v.z⟩

/-- `Matrix4d::GetTranspose`, Mathematics/Math/Matrix4d.cpp:319-325. -/
def getTranspose (m : Matrix4d K) : Matrix4d K :=
  ⟨m.a00, m.a10, m.a20, m.a30, m.a01, m.a11, m.a21, m.a31, m.a02, m.a12, m.a22, m.a32, m.a03, m.a13, m.a23, m.a33⟩

/-- `Matrix4d::GetInverse` (Mathematics/Math/Matrix4d.cpp:293-317) with `MathUtils::MakeInverse`
(Mathematics/Utils/MathUtils.cpp:199-229).  A `4 × 4` matrix is always square, so `MakeInverse` never
returns `false`; the entries come from Eigen's `inverse()`, which is the parameter `eigenInverse`. -/
def getInverse (eigenInverse : Matrix4d K → Matrix4d K) (m : Matrix4d K) : Bool × Matrix4d K := (true, eigenInverse m)

variable [LinearOrder K]

/-- `Matrix4d::IsIdentity`, Mathematics/Math/Matrix4d.cpp:344-371. -/
def isIdentity (m : Matrix4d K) : Bool :=
  if !isAlmostEqualTo m.a00 1 then false
  else if !isAlmostEqualTo m.a11 1 then false
  else if !isAlmostEqualTo m.a22 1 then false
  else if !isAlmostEqualTo (m.a01 + m.a02 + m.a03 + m.a10 + m.a12 + m.a13 + m.a20 + m.a21 + m.a23 + m.a30 + m.a31 + m.a32) 0 then false
  else true

/-- `Matrix4d::HasReflection`, Mathematics/Math/Matrix4d.cpp:373-378. -/
def hasReflection (m : Matrix4d K) : Bool := isLessThan ((m.basisX.cross m.basisY).dot m.basisZ) 0

/-- `Matrix4d::IsTranslation`, Mathematics/Math/Matrix4d.cpp:380-393. -/
def isTranslation (m : Matrix4d K) : Bool :=
  isAlmostEqualTo m.a00 1 && isAlmostEqualTo m.a11 1 && isAlmostEqualTo m.a22 1 &&
    isAlmostEqualTo (m.a01 + m.a02 + m.a10 + m.a12 + m.a20 + m.a21 + m.a30 + m.a31 + m.a32) 0

end

end Matrix4d

end LNLib
