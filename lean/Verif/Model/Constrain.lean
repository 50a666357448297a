import Verif.Model.BasisDers
import Verif.Model.MathUtils
import Verif.Model.Interp

/-!
# Model of the constraint-based modification of curves, Geometry/Curve/NurbsCurve.cpp:3442-3547

All paths are relative to /repo/src/LNLib.
-/

namespace LNLib
open Res

section
variable {K : Type} [Field K] [LinearOrder K]

/-- the rows of the constraint matrix, Geometry/Curve/NurbsCurve.cpp:3460-3470. `count` is the number of constraints. -/
def constraintRows (c : NurbsCurve K) (ur : List K) (Dr Dk : List ℤ) (count : ℕ) : Res (List (List K)) :=
  forI 0 (count : ℤ) (List.replicate count (List.replicate c.cps.length (0 : K))) fun i B => do
    let r ← vget Dr i
    let u ← vget ur r
    let spanIndex ← getKnotSpanIndex c.degree c.knots u
    let k ← vget Dk i
    let ders ← basisFunctionsDerivatives spanIndex c.degree k c.knots u
    forI 0 (c.degree + 1) B fun j B => do
      let x ← mget ders k j
      mset B i (spanIndex - c.degree + j) x

/-- the inner loop with `break` over the rows of one column, Geometry/Curve/NurbsCurve.cpp:3477-3484 -/
def scanRows (j : ℤ) : List (List K) → Res Bool
  | [] => ok false
  | r :: rows => do
    let b ← vget r j
    if isGreaterThan (b * b) 0 then ok true else scanRows j rows

/-- the flags of the control points that are left out, Geometry/Curve/NurbsCurve.cpp:3472-3490 -/
def removeFlags (size : ℕ) (B : List (List K)) (fixed : List ℤ) : Res (List ℤ) := do
  let remove ← forI 0 (size : ℤ) (List.replicate size (1 : ℤ)) fun j remove => do
    let hit ← scanRows j B
    if hit then vset remove j 0 else ok remove
  forI 0 (fixed.length : ℤ) remove fun i remove => do
    let k ← vget fixed i
    vset remove k 1

/-- the indices that are kept, Geometry/Curve/NurbsCurve.cpp:3473, 3492-3502. The code writes to an array of the full size that is cut afterwards; here the entries are
appended. -/
def keptIndices (size : ℕ) (remove : List ℤ) : Res (List ℤ) :=
  forI 0 (size : ℤ) ([] : List ℤ) fun i map => do
    let r ← vget remove i
    if r = 0 then ok (map ++ [i]) else ok map

/-- the kept columns, Geometry/Curve/NurbsCurve.cpp:3504-3511 -/
def keptColumns (count : ℕ) (B : List (List K)) (map : List ℤ) : Res (List (List K)) :=
  forI 0 (map.length : ℤ) (List.replicate count (List.replicate map.length (0 : K))) fun j Bopt =>
    forI 0 (B.length : ℤ) Bopt fun i Bopt => do
      let m ← vget map j
      let x ← mget B i m
      mset Bopt i j x

/-- the update of the control points, Geometry/Curve/NurbsCurve.cpp:3528-3542 -/
def moveKept (cps : List (XYZW K)) (map : List ℤ) (dP : List (List K)) : Res (List (XYZW K)) :=
  forI 0 (map.length : ℤ) cps fun i cps => do
    let m ← vget map i
    let P ← vget cps m
    let x ← mget dP i 0
    let y ← mget dP i 1
    let z ← mget dP i 2
    vset cps m ⟨P.wx + P.w * x, P.wy + P.w * y, P.wz + P.w * z, P.w⟩

/-- `NurbsCurve::ConstraintBasedModification`, Geometry/Curve/NurbsCurve.cpp:3442-3547. `inverse` stands for `MathUtils::MakeInverse`
(Mathematics/Utils/MathUtils.cpp:200-229), which hands the matrix to Eigen; its answer is ignored by the code, so a matrix that has no inverse is a run of `inverse` that
does not return. -/
def constraintBasedModification (inverse : List (List K) → Res (List (List K))) (c : NurbsCurve K) (ur : List K) (D : List (XYZ K)) (Dr Dk fixed : List ℤ) :
    Res (NurbsCurve K) := do
  validate (decide (ur.length > 0))
  validate (decide (D.length > 0))
  validate (decide (Dr.length = D.length))
  validate (decide (Dk.length = Dr.length))
  let B ← constraintRows c ur Dr Dk D.length
  let remove ← removeFlags c.cps.length B fixed
  let map ← keptIndices c.cps.length remove
  let Bopt ← keptColumns D.length B map
  let Bt ← transposeM Bopt []
  let BoptBt ← matrixMultiply Bopt Bt
  let BBt ← inverse BoptBt
  let A ← matrixMultiply Bt BBt
  let dD := D.map fun d => [d.x, d.y, d.z]
  let dP ← matrixMultiply A dD
  let cps ← moveKept c.cps map dP
  ok { degree := c.degree, knots := c.knots, cps := cps }

end

end LNLib
