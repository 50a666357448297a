import Verif.Model.CurveOps

/-!
# Clamping and unclamping a curve

Models `NurbsCurve::ToUnclampCurve`, `NurbsCurve::IsClamp` and the part of `NurbsCurve::ToClampCurve` before the final
closedness repair, Geometry/Curve/NurbsCurve.cpp:3549-3592 and 3663-3712.
-/

namespace LNLib
open Res

variable {K T : Type} [Field K] [LinearOrder K] [AddCommGroup T] [Module K T]

/-- The inner loop at the start of the curve, Geometry/Curve/NurbsCurve.cpp:3673-3679.  State: (`controlPoints`, `k`). -/
def unclampStartInner (degree i : ℤ) (U : List K) (P : List T) : Res (List T × ℤ) :=
  forDown i 0 (P, degree - 1) fun j (P, k) => do
    let a ← vget U degree
    let b ← vget U k
    let d ← vget U (degree + j + 1)
    let alpha ← fdiv (a - b) (d - b)
    let x ← vget P j
    let y ← vget P (j + 1)
    let z ← vdiv (x - alpha • y) (1 - alpha)
    let P ← vset P j z
    ok (P, k - 1)

/-- The loop at the start of the curve, Geometry/Curve/NurbsCurve.cpp:3670-3680.  State: (`knotVector`, `controlPoints`). -/
def unclampStart (degree n : ℤ) (U : List K) (P : List T) : Res (List K × List T) :=
  forI 0 (degree - 1) (U, P) fun i (U, P) => do
    let a ← vget U (degree - i)
    let b ← vget U (n - i + 1)
    let d ← vget U (n - i)
    let U ← vset U (degree - i - 1) (a - (b - d))
    let (P, _) ← unclampStartInner degree i U P
    ok (U, P)

/-- The inner loop at the end of the curve, Geometry/Curve/NurbsCurve.cpp:3685-3689. -/
def unclampEndInner (n i : ℤ) (U : List K) (P : List T) : Res (List T) :=
  forDown i 0 P fun j P => do
    let a ← vget U (n + 1)
    let b ← vget U (n - j)
    let d ← vget U (n - j + i + 2)
    let alpha ← fdiv (a - b) (d - b)
    let x ← vget P (n - j)
    let y ← vget P (n - j - 1)
    let z ← vdiv (x - (1 - alpha) • y) alpha
    vset P (n - j) z

/-- The loop at the end of the curve, Geometry/Curve/NurbsCurve.cpp:3682-3690. -/
def unclampEnd (degree n : ℤ) (U : List K) (P : List T) : Res (List K × List T) :=
  forI 0 (degree - 1) (U, P) fun i (U, P) => do
    let a ← vget U (n + i + 1)
    let b ← vget U (degree + i + 1)
    let d ← vget U (degree + i)
    let U ← vset U (n + i + 2) (a + (b - d))
    let P ← unclampEndInner n i U P
    ok (U, P)

/-- `NurbsCurve::ToUnclampCurve`, Geometry/Curve/NurbsCurve.cpp:3663-3696. -/
def toUnclampCurve (c : BsplineCurve K T) : Res (BsplineCurve K T) := do
  let degree := c.degree
  let n : ℤ := (c.cps.length : ℤ) - 1
  let (U, P) ← unclampStart degree n c.knots c.cps
  let a ← vget U 1
  let b ← vget U (n - degree + 2)
  let d ← vget U (n - degree + 1)
  let U ← vset U 0 (a - (b - d))
  let (U, P) ← unclampEnd degree n U P
  let a ← vget U (n + degree)
  let b ← vget U (2 * degree)
  let d ← vget U (2 * degree - 1)
  let U ← vset U (n + degree + 1) (a + (b - d))
  ok { degree := degree, knots := U, cps := P }

/-- `NurbsCurve::IsClamp`, Geometry/Curve/NurbsCurve.cpp:3698-3712. -/
def isClamp (c : BsplineCurve K T) : Res Bool := do
  let first ← vget c.knots 0
  let last ← vget c.knots ((c.knots.length : ℤ) - 1)
  let f ← getKnotMultiplicity c.knots first
  let e ← getKnotMultiplicity c.knots last
  ok (decide (f = c.degree + 1 ∧ e = c.degree + 1))

/-- The copying loop of `NurbsCurve::ToClampCurve`, Geometry/Curve/NurbsCurve.cpp:3572-3579.  State: (`knotVector`, `controlPoints`). -/
def clampCopy (degree : ℤ) (kv : List K) (cps : List T) (U : List K) (P : List T) : Res (List K × List T) :=
  forDown ((U.length : ℤ) - 1) 0 (U, P) fun i (U, P) => do
    let x ← vget kv (i + degree)
    let U ← vset U i x
    if i < P.length then do
      let y ← vget cps (i + degree)
      let P ← vset P i y
      ok (U, P)
    else ok (U, P)

/-- `std::vector::resize(size, value)`; a negative size wraps around and throws `std::length_error`, reported as `ub`. -/
def resizeTo {α : Type} (l : List α) (size : ℤ) (x : α) : Res (List α) :=
  if size < 0 then ub else ok (l.take size.toNat ++ List.replicate (size.toNat - l.length) x)

/-- `NurbsCurve::ToClampCurve` up to the closedness repair of lines 3585-3591, Geometry/Curve/NurbsCurve.cpp:3549-3583. -/
def toClampCurve (c : BsplineCurve K T) : Res (BsplineCurve K T) := do
  let degree := c.degree
  let m : ℤ := (c.knots.length : ℤ) - 1
  let up ← vget c.knots degree
  let ump ← vget c.knots (m - degree)
  let upMulti ← getKnotMultiplicity c.knots up
  let umpMulti ← getKnotMultiplicity c.knots ump
  let (t1, tc) ← insertKnot c up (degree + 1 - upMulti) { degree := 0, knots := [], cps := [] }
  let (t2, tc) ← insertKnot tc ump (degree + 1 - umpMulti) tc
  let U ← resizeTo c.knots ((tc.knots.length : ℤ) - t1 - t2) 0
  let P ← resizeTo c.cps ((U.length : ℤ) - degree - 1) 0
  let (U, P) ← clampCopy degree tc.knots tc.cps U P
  ok { degree := tc.degree, knots := U, cps := P }

end LNLib
