import Verif.Model.Interp
import Verif.Model.OneBasis

/-!
# Model of the least squares approximation of points by a curve, Geometry/Curve/NurbsCurve.cpp

All paths are relative to /repo/src/LNLib.  A vector of negative size throws `std::length_error` in the C++; the model's `toNat` makes it
an empty vector.
-/

namespace LNLib
open Res

section
variable {K : Type} [Field K] [LinearOrder K]

/-- The knot vector, Geometry/Curve/NurbsCurve.cpp:2292-2305.  The C++ divides by `n - degree + 1` also when that is zero and does not use
the infinite quotient; the model stops with `nonfinite`. -/
def leastSquaresKnots [FloorRing K] (degree n m : ℤ) (uk : List K) : Res (List K) := do
  let d ← fdiv ((m + 1 : ℤ) : K) ((n - degree + 1 : ℤ) : K)
  let kv ← forI 0 (degree + 1) (List.replicate (n + degree + 2).toNat (1 : K)) fun j kv => vset kv j 0
  forI 1 (n - degree + 1) kv fun j kv => do
    let i := ⌊((j : ℤ) : K) * d⌋
    let a := ((j : ℤ) : K) * d - ((i : ℤ) : K)
    let x ← vget uk (i - 1)
    let y ← vget uk i
    vset kv (degree + j) ((1 - a) * x + a * y)

/-- The arrays `start`, `end`, `index` and `B` and the counters `rj`, `sj` and `ej`, Geometry/Curve/NurbsCurve.cpp:2307-2322. -/
structure BandState (K : Type) where
  start : List ℤ
  stop : List ℤ
  index : List ℤ
  B : List (List K)
  rj : ℤ
  sj : ℤ
  ej : ℤ

/-- `if (c) l[i] = x;`, Geometry/Curve/NurbsCurve.cpp:2353-2356. -/
def setIf (c : Bool) (l : List ℤ) (i x : ℤ) : Res (List ℤ) := if c then vset l i x else ok l

/-- `for (int k = 1; k <= j - rj; k++)`, Geometry/Curve/NurbsCurve.cpp:2350-2357. State: (`start`, `end`, `sj`, `ej`). -/
def bandShift (n i count : ℤ) (st : List ℤ × List ℤ × ℤ × ℤ) : Res (List ℤ × List ℤ × ℤ × ℤ) :=
  forI 1 (count + 1) st fun _ st => do
    let sj := st.2.2.1 + 1
    let ej := st.2.2.2 + 1
    let start ← setIf (decide (sj ≤ n - 2)) st.1 sj (i - 1)
    let stop ← setIf (decide (ej ≥ 0)) st.2.1 ej (i - 2)
    ok (start, stop, sj, ej)

/-- One round of the loop over the inner points, Geometry/Curve/NurbsCurve.cpp:2324-2360. -/
def bandRound (degree n : ℤ) (kv uk : List K) (i : ℤ) (st : BandState K) : Res (BandState K) := do
  let u ← vget uk i
  let j ← getKnotSpanIndex degree kv u
  let N ← basisFunctions j degree kv u (List.replicate (degree + 1).toNat (some 0))
  let l : ℤ := if j = degree then 1 else 0
  let hk : ℤ := if j = degree ∨ j = n then degree - 1 else degree
  let B ← forI 0 (hk + 1) st.B fun k B => do
    let x ← aget N (l + k)
    mset B (i - 1) k x
  let index ← vset st.index (i - 1) (max 0 (j - degree - 1))
  if j > st.rj then do
    let r ← bandShift n i (j - st.rj) (st.start, st.stop, st.sj, st.ej)
    ok ⟨r.1, r.2.1, index, B, j, r.2.2.1, r.2.2.2⟩
  else ok ⟨st.start, st.stop, index, B, st.rj, st.sj, st.ej⟩

/-- The arrays after the loop over the inner points, Geometry/Curve/NurbsCurve.cpp:2307-2360. -/
def bandArrays (degree n m : ℤ) (kv uk : List K) : Res (BandState K) := do
  let start ← forI 0 (min (degree - 1) (n - 2) + 1) (List.replicate (n - 1).toNat (0 : ℤ)) fun i start => vset start i 0
  let stop ← vset (List.replicate (n - 1).toNat (0 : ℤ)) 0 (-2)
  let st : BandState K := ⟨start, stop, List.replicate (m - 1).toNat (0 : ℤ), List.replicate (m - 1).toNat (List.replicate (degree + 1).toNat (0 : K)), degree, degree - 1, -2⟩
  forI 1 (m - 1 + 1) st (bandRound degree n kv uk)

/-- The band matrix `NTN`, Geometry/Curve/NurbsCurve.cpp:2370-2384. -/
def bandMatrix (degree n : ℤ) (st : BandState K) (stop : List ℤ) : Res (List (List K)) :=
  forI 0 (n - 2 + 1) (List.replicate (n - 1).toNat (List.replicate (2 * degree + 1).toNat (0 : K))) fun i M =>
    forI (max 0 (i - degree)) (min (n - 2) (i + degree) + 1) M fun j M => do
      let si ← vget st.start i
      let sj ← vget st.start j
      let ei ← vget stop i
      let ej ← vget stop j
      forI (max si sj) (min ei ej + 1) M fun k M => do
        let ix ← vget st.index k
        let x ← mget st.B k (i - ix)
        let y ← mget st.B k (j - ix)
        let a ← mget M i (j - i + degree)
        mset M i (j - i + degree) (a + x * y)

/-- `Rk`, Geometry/Curve/NurbsCurve.cpp:2386-2392. -/
def residualPoints (degree n m : ℤ) (kv uk : List K) (pts : List (XYZ K)) : Res (List (XYZ K)) :=
  forI 1 (m - 1 + 1) (List.replicate (m - 1).toNat (0 : XYZ K)) fun k Rk => do
    let u ← vget uk k
    let n0 ← oneBasisFunction 0 degree kv u
    let np ← oneBasisFunction n degree kv u
    let q ← vget pts k
    let q0 ← vget pts 0
    let qm ← vget pts m
    vset Rk (k - 1) (q - n0 • q0 - np • qm)

/-- `R`, Geometry/Curve/NurbsCurve.cpp:2394-2404. -/
def bandRight (n : ℤ) (st : BandState K) (stop : List ℤ) (Rk : List (XYZ K)) : Res (List (XYZ K)) :=
  forI 1 (n - 1 + 1) (List.replicate (n - 1).toNat (0 : XYZ K)) fun i R => do
    let R ← vset R (i - 1) ⟨0, 0, 0⟩
    let lk ← vget st.start (i - 1)
    let hk ← vget stop (i - 1)
    forI lk (hk + 1) R fun k R => do
      let r ← vget Rk k
      let ix ← vget st.index k
      let b ← mget st.B k (i - ix - 1)
      let a ← vget R (i - 1)
      vset R (i - 1) (a + b • r)

/-- The control points, Geometry/Curve/NurbsCurve.cpp:2419-2426. -/
def leastSquaresPoints (n m : ℤ) (pts : List (XYZ K)) (temp : List (List K)) : Res (List (XYZW K)) := do
  let cps ← forI 1 n (List.replicate (n + 1).toNat (⟨0, 0, 0, 0⟩ : XYZW K)) fun i cps => do
    let x ← mget temp (i - 1) 0
    let y ← mget temp (i - 1) 1
    let z ← mget temp (i - 1) 2
    vset cps i (XYZW.ofXYZ ⟨x, y, z⟩ 1)
  let q0 ← vget pts 0
  let cps ← vset cps 0 (XYZW.ofXYZ q0 1)
  let qm ← vget pts m
  vset cps n (XYZW.ofXYZ qm 1)

/-- `NurbsCurve::LeastSquaresApproximation`, Geometry/Curve/NurbsCurve.cpp:2284-2432, with the chord parameters as `uk`; `none` is the
answer `false`.  `solve` is `MathUtils::SolveLinearSystemBanded` (Mathematics/Utils/MathUtils.cpp:290-342), which calls Eigen and is not
modelled; its arguments are the matrix, the bandwidth and the right-hand side. -/
def leastSquares [FloorRing K] (solve : List (List K) → ℤ → List (List K) → Res (Option (List (List K)))) (degree : ℤ) (pts : List (XYZ K))
    (count : ℤ) (uk : List K) : Res (Option (NurbsCurve K)) := do
  validate (decide (degree ≥ 0 ∧ degree ≤ nurbsMaxDegree))
  validate (decide (count > 0))
  let n := count - 1
  let m : ℤ := (pts.length : ℤ) - 1
  let kv ← leastSquaresKnots degree n m uk
  let st ← bandArrays degree n m kv uk
  let e0 ← vget st.stop 0
  if st.sj < n - 2 ∨ e0 = -1 then ok none
  else do
    let stop ← forI (max 0 (st.ej + 1)) (n - 2 + 1) st.stop fun i stop => vset stop i (m - 2)
    let M ← bandMatrix degree n st stop
    let Rk ← residualPoints degree n m kv uk pts
    let R ← bandRight n st stop Rk
    let temp ← solve M (2 * degree + 1) (R.map fun q => [q.x, q.y, q.z])
    match temp with
    | none => ok none
    | some temp => do
      let cps ← leastSquaresPoints n m pts temp
      ok (some { degree := degree, knots := kv, cps := cps })

end

noncomputable section

/-- The same with its parameters, Geometry/Curve/NurbsCurve.cpp:2284-2292. -/
def leastSquaresChord (solve : List (List ℝ) → ℤ → List (List ℝ) → Res (Option (List (List ℝ)))) (degree : ℤ) (pts : List (XYZ ℝ))
    (count : ℤ) : Res (Option (NurbsCurve ℝ)) := do
  validate (decide (degree ≥ 0 ∧ degree ≤ nurbsMaxDegree))
  validate (decide (count > 0))
  let uk ← getChordParameterization pts
  leastSquares solve degree pts count uk

end

end LNLib
