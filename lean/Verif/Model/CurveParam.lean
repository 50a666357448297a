import Verif.Model.Curve
import Verif.Model.Matrix4d

/-!
# Model of KnotVectorUtils::Rescale / GetContinuity and of the reparametrising curve operations
(Algorithm/KnotVectorUtils.cpp, Geometry/Curve/NurbsCurve.cpp)

All paths are relative to /repo/src/LNLib.
-/

namespace LNLib
open Res

section
variable {K : Type} [Field K] [LinearOrder K]
variable {T : Type} [AddCommGroup T] [Module K T]

/-- `KnotVectorUtils::GetContinuity`, Algorithm/KnotVectorUtils.cpp:49-54. -/
def getContinuity (degree : ℤ) (U : List K) (knot : K) : Res ℤ := do
  validate (degree > 0)
  let multi ← getKnotMultiplicity U knot
  ok (degree - multi)

/-- `KnotVectorUtils::Rescale`, Algorithm/KnotVectorUtils.cpp:56-69. -/
def rescale (U : List K) (min max : K) : Res (List K) := do
  let originMin ← vget U 0
  let originMax ← vget U ((U.length : ℤ) - 1)
  let k ← fdiv (max - min) (originMax - originMin)
  forI 0 U.length (List.replicate U.length (0 : K)) fun i result => do
    let u ← vget U i
    vset result i (k * (u - originMin) + min)

/-- `NurbsCurve::Reparametrize(curve, min, max, result)`, Geometry/Curve/NurbsCurve.cpp:1504-1517. -/
def reparametrizeLinear (c : BsplineCurve K T) (min max : K) : Res (BsplineCurve K T) := do
  let u0 ← vget c.knots 0
  let um ← vget c.knots ((c.knots.length : ℤ) - 1)
  if isAlmostEqualTo min u0 && isAlmostEqualTo max um then ok c
  else do
    let U' ← rescale c.knots min max
    ok { c with knots := U' }

/-- `NurbsCurve::Reverse`, Geometry/Curve/NurbsCurve.cpp:1519-1540. -/
def reverseCurve (c : BsplineCurve K T) : Res (BsplineCurve K T) := do
  let size : ℤ := c.knots.length
  let min ← vget c.knots 0
  let _max ← vget c.knots (size - 1)
  let rk ← vset (List.replicate c.knots.length (0 : K)) 0 min
  let rk ← forI 1 size rk fun i rk => do
    let a ← vget rk (i - 1)
    let b ← vget c.knots (size - i)
    let d ← vget c.knots (size - i - 1)
    vset rk i (a + (b - d))
  ok { degree := c.degree, knots := rk, cps := c.cps.reverse }

/-- `NurbsCurve::CreateTransformed`, Geometry/Curve/NurbsCurve.cpp:1453-1470. -/
def createTransformed (c : NurbsCurve K) (m : Matrix4d K) : Res (NurbsCurve K) := do
  let size : ℤ := c.cps.length
  let cps ← forI 0 size (List.replicate c.cps.length (0 : XYZW K)) fun i acc => do
    let temp ← vget c.cps i
    let q ← m.ofWeightedPoint temp
    vset acc i q
  ok { c with cps := cps }

/-- `NurbsCurve::Reparametrize(curve, alpha, beta, gamma, delta, result)`,
Geometry/Curve/NurbsCurve.cpp:1472-1502.  `abs` is taken to be the floating point absolute value. -/
def reparametrizeRational (c : NurbsCurve K) (alpha beta gamma delta : K) : Res (NurbsCurve K) := do
  validate (isGreaterThan (alpha * delta) (gamma * beta))
  let V ← forI 0 c.knots.length (List.replicate c.knots.length (0 : K)) fun i V => do
    let u ← vget c.knots i
    let v ← fdiv (alpha * u + beta) (gamma * u + delta)
    vset V i v
  let Q ← forI 0 c.cps.length (List.replicate c.cps.length (0 : XYZW K)) fun i Q => do
    let temp ← forI 1 (c.degree + 1) (1 : K) fun j temp => do
      let v ← vget V (i + j)
      ok (temp * (v * gamma - alpha))
    let p ← vget c.cps i
    vset Q i (XYZW.ofXYZ p.toXYZ |p.w * temp|)
  ok { degree := c.degree, knots := V, cps := Q }

end

end LNLib
