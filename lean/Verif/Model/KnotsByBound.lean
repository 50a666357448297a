import Verif.Model.KnotErrorBound
import Verif.Model.OneBasis

/-!
# Model of `NurbsCurve::RemoveKnotsByGivenBound`, Geometry/Curve/NurbsCurve.cpp:2686-2890

All paths are relative to /repo/src/LNLib. The functions are generic in the field; `dist` is the distance of two control points (`XYZW::Distance`) and `tol` the tolerance of the knot
removal (`ValidationUtils::ComputeCurveModifyTolerance`), which `NurbsCurve.removeKnotsByGivenBound` instantiates.
-/

namespace LNLib
open Res

section
variable {K : Type} [Field K] [LinearOrder K]

/-- `Constants::MaxDistance`, include/Constants.h:26. -/
def maxDistance : K := 1000000000

/-- The local variables of `RemoveKnotsByGivenBound` that live from one round to the next, Geometry/Curve/NurbsCurve.cpp:2696-2741: `best` is `BrMinIndex`, `U` and `P` are `tempU` and
`tempCP`, `updU` and `updP` are `updatedKnotVector` and `updatedControlPoints`; `stop` tells whether the loop has been left. `NewError` is only read right after it is written and is left out. -/
structure BoundState (K : Type) where
  Br : List K
  S : List ℤ
  Nl : List ℤ
  Nr : List ℤ
  best : ℤ
  errors : List K
  temp : List K
  U : List K
  P : List (XYZW K)
  updU : List K
  updP : List (XYZW K)
  stop : Bool

/-- `ComputerRemoveKnotErrorBound`, Geometry/Curve/NurbsCurve.cpp:2638-2684, with the distance as a parameter. -/
def knotBound (dist : XYZW K → XYZW K → K) (c : NurbsCurve K) (i : ℤ) : Res K := do
  let (a, b) ← removeBoundPair c i
  ok (dist a b)

/-- `for (k = start; k < size - 1; k++) l[k] = l[k + 1]`, e.g. Geometry/Curve/NurbsCurve.cpp:2847-2850 and 2871-2875. The bound is unsigned: a negative start would be a huge number. -/
def shiftFrom {α : Type} (l : List α) (start : ℤ) : Res (List α) :=
  if start < 0 then ok l
  else forI start ((l.length : ℤ) - 1) l fun k l => do
    let x ← vget l (k + 1)
    vset l k x

/-- The bounds and multiplicities before the loop, Geometry/Curve/NurbsCurve.cpp:2712-2726. -/
def initialBounds (dist : XYZW K → XYZW K → K) (c : NurbsCurve K) : Res (List K × List ℤ) :=
  forI (c.degree + 1) c.cps.length (List.replicate c.knots.length (maxDistance : K), List.replicate c.knots.length (0 : ℤ)) fun i (st : List K × List ℤ) => do
    let a ← vget c.knots i
    let b ← vget c.knots (i + 1)
    if isLessThan a b then do
      let e ← knotBound dist c i
      let Br ← vset st.1 i e
      let s ← getKnotMultiplicity c.knots a
      let S ← vset st.2 i s
      ok (Br, S)
    else do
      let Br ← vset st.1 i maxDistance
      let S ← vset st.2 i 1
      ok (Br, S)

/-- The ranges of parameters before the loop, Geometry/Curve/NurbsCurve.cpp:2728-2740. -/
def initialRanges (c : NurbsCurve K) (uk : List K) : Res (List ℤ × List ℤ) := do
  let Nl ← vset (List.replicate c.knots.length (0 : ℤ)) 0 0
  forI 0 uk.length (Nl, List.replicate c.knots.length ((uk.length : ℤ) - 1)) fun i (st : List ℤ × List ℤ) => do
    let u ← vget uk i
    let span ← getKnotSpanIndex c.degree c.knots u
    let old ← vget st.1 span
    let Nl ← (if old = 0 then vset st.1 span i else ok st.1 : Res (List ℤ))
    let Nr ← (if i + 1 < uk.length then vset st.2 span (i + 1) else ok st.2 : Res (List ℤ))
    ok (Nl, Nr)

/-- The index of the least bound, Geometry/Curve/NurbsCurve.cpp:2750-2758; without one the old index is kept. -/
def leastBound (Br : List K) (best : ℤ) : Res ℤ := do
  let st ← forI 0 Br.length (best, (maxDistance : K)) fun i (st : ℤ × K) => do
    let b ← vget Br i
    if isLessThan b st.2 then ok (i, b) else ok st
  ok st.1

/-- The error at one parameter, Geometry/Curve/NurbsCurve.cpp:2779-2795. -/
def removalError (degree : ℤ) (U : List K) (r s : ℤ) (bound u : K) : Res K := do
  if (degree + s) % 2 ≠ 0 then do
    let k := (degree + s + 1) / 2
    let a1 ← vget U r
    let a2 ← vget U (r - k + 1)
    let b1 ← vget U (r - k + degree + 2)
    let a ← fdiv (a1 - a2) (b1 - a2)
    let N ← oneBasisFunction (r - k + 1) degree U u
    ok ((1 - a) * bound * N)
  else do
    let k := (degree + s) / 2
    let N ← oneBasisFunction (r - k) degree U u
    ok (bound * N)

/-- The test of the accumulated errors, Geometry/Curve/NurbsCurve.cpp:2775-2805. State: (`temp`, `removable`). -/
def errorsStay (degree : ℤ) (uk : List K) (maxError : K) (st : BoundState K) (r s : ℤ) (bound : K) (Rstart Rend : ℤ) : Res (List K × Bool) :=
  forI Rstart (Rend + 1) (st.temp, true) fun i (x : List K × Bool) =>
    if x.2 then do
      let u ← vget uk i
      let e ← removalError degree st.U r s bound u
      let old ← vget st.errors i
      let temp ← vset x.1 i (e + old)
      ok (temp, !isGreaterThan (e + old) maxError)
    else ok x

/-- The ranges of parameters after a removal, Geometry/Curve/NurbsCurve.cpp:2829-2846. State: (`Nl`, `Nr`, `oldspanIndex`). -/
def updateRanges (degree : ℤ) (uk newU : List K) (Nl Nr : List ℤ) (Rstart Rend : ℤ) : Res (List ℤ × List ℤ) := do
  let (Nl, Nr, _) ← forI Rstart (Rend + 1) (Nl, Nr, (-1 : ℤ)) fun k (x : List ℤ × List ℤ × ℤ) => do
    let u ← vget uk k
    let span ← getKnotSpanIndex degree newU u
    let Nl ← (if span ≠ x.2.2 then vset x.1 span k else ok x.1 : Res (List ℤ))
    let Nr ← (if k + 1 < uk.length then vset x.2.1 span (k + 1) else ok x.2.1 : Res (List ℤ))
    ok (Nl, Nr, span)
  ok (Nl, Nr)

/-- The bounds after a removal, Geometry/Curve/NurbsCurve.cpp:2854-2870. State: (`Br`, `S`, `s`). -/
def updateBounds (dist : XYZW K → XYZW K → K) (newc : NurbsCurve K) (Br : List K) (S : List ℤ) (s Rstart Rend : ℤ) : Res (List K × List ℤ) := do
  let (Br, S, _) ← forI Rstart (Rend + 1) (Br, S, s) fun i (x : List K × List ℤ × ℤ) => do
    let a ← vget newc.knots i
    let b ← vget newc.knots (i + 1)
    if isLessThan a b then do
      let e ← knotBound dist newc i
      let Br ← vset x.1 i e
      let S ← vset x.2.1 i x.2.2
      ok (Br, S, 1)
    else do
      let Br ← vset x.1 i maxDistance
      let S ← vset x.2.1 i 1
      ok (Br, S, x.2.2 + 1)
  ok (Br, S)

/-- The copy of `temp` into `errors`, Geometry/Curve/NurbsCurve.cpp:2820-2823. -/
def acceptErrors (errors temp : List K) (Rstart Rend : ℤ) : Res (List K) :=
  forI Rstart (Rend + 1) errors fun i errors => do
    let x ← vget temp i
    vset errors i x

/-- The removal, Geometry/Curve/NurbsCurve.cpp:2807-2881. When `RemoveKnot` refuses, `newtc` stays empty, so the number of its control points is 0 and the loop ends with the old curve. -/
def removeChosen (dist : XYZW K → XYZW K → K) (tol : List (XYZW K) → K) (degree : ℤ) (uk : List K) (st : BoundState K) (r Rstart Rend : ℤ) : Res (BoundState K) := do
  let u ← vget st.U r
  let new ← removeKnot (fun a b => isLessThanOrEqual (dist a b) (tol st.P)) { degree := degree, knots := st.U, cps := st.P } u 1
  let errors ← acceptErrors st.errors st.temp Rstart Rend
  let newc : NurbsCurve K := new.getD { degree := 0, knots := [], cps := [] }
  if (newc.cps.length : ℤ) ≤ degree + 1 then ok { st with errors := errors, updU := st.U, updP := st.P, stop := true }
  else do
    let Rs ← vget st.Nl (r - degree - 1)
    let sr ← vget st.S r
    let Re ← vget st.Nr (r - sr)
    let (Nl, Nr) ← updateRanges degree uk newc.knots st.Nl st.Nr Rs Re
    let Nl ← shiftFrom Nl (r - sr + 1)
    let Nr ← shiftFrom Nr (r - sr + 1)
    let Rs := max (r - degree) (degree + 1)
    let Re := min (r + degree - sr + 1) (newc.cps.length : ℤ)
    let s ← vget st.S Rs
    let (Br, S) ← updateBounds dist newc st.Br st.S s Rs Re
    let S ← (if Re + 1 < 0 then ok S else forI (Re + 1) ((Br.length : ℤ) - 1) S fun i S => do
      let x ← vget S (i + 1)
      vset S i x : Res (List ℤ))
    let Br ← shiftFrom Br (Re + 1)
    ok { st with Br := Br.dropLast, S := S, Nl := Nl.dropLast, Nr := Nr.dropLast, errors := errors, U := newc.knots, P := newc.cps }

/-- One round of the loop, Geometry/Curve/NurbsCurve.cpp:2748-2886; `n` is the number of control points of the curve given, less one. -/
def boundRound (dist : XYZW K → XYZW K → K) (tol : List (XYZW K) → K) (degree n : ℤ) (uk : List K) (maxError : K) (st : BoundState K) : Res (BoundState K) := do
  let best ← leastBound st.Br st.best
  let BrMin ← vget st.Br best
  let st := { st with best := best }
  if BrMin = maxDistance then ok { st with updU := st.U, updP := st.P, stop := true }
  else do
    let r := best
    let s ← vget st.S r
    let sd ← vget st.S (r + degree)
    let Rstart ← vget st.Nl (max (r - degree) (degree + 1))
    let Rend ← vget st.Nr (min (r + degree - sd + 1) n)
    let (temp, removable) ← errorsStay degree uk maxError st r s BrMin Rstart Rend
    let st := { st with temp := temp }
    if removable then removeChosen dist tol degree uk st r Rstart Rend
    else do
      let Br ← vset st.Br r maxDistance
      ok { st with Br := Br, updU := st.U, updP := st.P }

/-- `NurbsCurve::RemoveKnotsByGivenBound`, Geometry/Curve/NurbsCurve.cpp:2686-2890: the curve and the new contents of `errors`. The number of rounds of `while (1)` is bounded by `fuel`. -/
def removeKnotsByBound (dist : XYZW K → XYZW K → K) (tol : List (XYZW K) → K) (fuel : ℕ) (c : NurbsCurve K) (params errors : List K) (maxError : K) :
    Res (NurbsCurve K × List K) := do
  validate (decide (params.length > 0))
  validate (decide (params.length = errors.length))
  validate (isGreaterThan maxError 0)
  let (Br, S) ← initialBounds dist c
  let (Nl, Nr) ← initialRanges c params
  let st ← whileF (fun (st : BoundState K) => ok (!st.stop)) (boundRound dist tol c.degree ((c.cps.length : ℤ) - 1) params maxError) fuel
    ⟨Br, S, Nl, Nr, 0, errors, List.replicate params.length 0, c.knots, c.cps, [], [], false⟩
  ok ({ degree := c.degree, knots := st.updU, cps := st.updP }, st.errors)

end

noncomputable section

/-- `NurbsCurve::RemoveKnotsByGivenBound`, Geometry/Curve/NurbsCurve.cpp:2686-2890, with the distance and the tolerance of the library. -/
def NurbsCurve.removeKnotsByGivenBound (fuel : ℕ) (c : NurbsCurve ℝ) (params errors : List ℝ) (maxError : ℝ) : Res (NurbsCurve ℝ × List ℝ) :=
  removeKnotsByBound XYZW.distance (fun P => curveModifyTolerance P) fuel c params errors maxError

end
end LNLib
