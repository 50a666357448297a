import Verif.Model.CurveOps

/-!
# Model of Bézier decomposition and degree elevation in Geometry/Curve/NurbsCurve.cpp

All paths are relative to /repo/src/LNLib.  The C++ functions are written for `XYZW` points; the
model is generic in the vector space of points, which covers the weighted points.
-/

namespace LNLib
open Res

section
variable {K : Type} [Field K] [LinearOrder K]
variable {T : Type} [AddCommGroup T] [Module K T]

/-- `while (b < m && IsAlmostEqualTo(knotVector[b + 1], knotVector[b])) b++;`
Geometry/Curve/NurbsCurve.cpp:687-690 and (arguments of the symmetric comparison exchanged) 960-963.
The loop runs at most `m` times, so `m` is enough fuel. -/
def skipEqual (U : List K) (m b : ℤ) : Res ℤ :=
  whileF (fun b => if b < m then do
      let x ← vget U (b + 1)
      let y ← vget U b
      ok (isAlmostEqualTo x y)
    else ok false) (fun b => ok (b + 1)) m.toNat b

/-- The table of interpolation factors, Geometry/Curve/NurbsCurve.cpp:694-699 and 977-982. -/
def splitAlphas (U : List K) (degree a mul : ℤ) (numer ua : K) (alfs : List K) : Res (List K) :=
  forDown degree (mul + 1) alfs fun k alfs => do
    let x ← vget U (a + k)
    let al ← fdiv numer (x - ua)
    vset alfs (k - mul - 1) al

/-- Inserting the right end knot until the current piece is a Bézier piece; the points saved on the
way are the first points of the next piece.  Geometry/Curve/NurbsCurve.cpp:701-717 (where the next
piece is only written if `b < m`: `save`) and 983-993.  `cur` is the row of the current piece,
`nxt` the row of the next one. -/
def splitPiece (degree mul : ℤ) (alfs : List K) (save : Bool) (cur nxt : List T) : Res (List T × List T) :=
  forI 1 (degree - mul + 1) (cur, nxt) fun j (cur, nxt) => do
    let s := mul + j
    let cur ← forDown degree s cur fun k cur => do
      let alpha ← vget alfs (k - s)
      let x ← vget cur k
      let y ← vget cur (k - 1)
      vset cur k (alpha • x + (1 - alpha) • y)
    if save then do
      let x ← vget cur degree
      let nxt ← vset nxt (degree - mul - j) x
      ok (cur, nxt)
    else ok (cur, nxt)

/-- Loop state of `DecomposeToBeziers`: `a`, `b`, `nb` and the control points of the pieces. -/
structure DecompState (T : Type) where
  a : ℤ
  b : ℤ
  nb : ℤ
  pieces : List (List T)

/-- One round of the main loop of `DecomposeToBeziers`, Geometry/Curve/NurbsCurve.cpp:684-732.  The
row of the next piece is read up front when it is written later (`b < m`, and the loop over `j`
runs at least once). -/
def decompRound (U : List K) (P : List T) (degree m : ℤ) (st : DecompState T) : Res (DecompState T) := do
  let i := st.b
  let b ← skipEqual U m st.b
  let multi := b - i + 1
  if multi < degree then do
    let ub ← vget U b
    let ua ← vget U st.a
    let alfs ← splitAlphas U degree st.a multi (ub - ua) ua (List.replicate (degree + 1).toNat (0 : K))
    let cur ← vget st.pieces st.nb
    if b < m then do
      let nxt ← vget st.pieces (st.nb + 1)
      let (cur, nxt) ← splitPiece degree multi alfs true cur nxt
      let nxt ← forI (degree - multi) (degree + 1) nxt fun i nxt => do
        let x ← vget P (b - degree + i)
        vset nxt i x
      let pieces ← vset st.pieces st.nb cur
      let pieces ← vset pieces (st.nb + 1) nxt
      ok ⟨b, b + 1, st.nb + 1, pieces⟩
    else do
      let (cur, _) ← splitPiece degree multi alfs false cur []
      let pieces ← vset st.pieces st.nb cur
      ok ⟨st.a, b, st.nb + 1, pieces⟩
  else ok { st with b := b }

/-- `NurbsCurve::DecomposeToBeziers`, Geometry/Curve/NurbsCurve.cpp:636-735.  `fuel` bounds the
number of rounds of the main loop: a run that needs more is reported as `diverge`. -/
def decomposeToBeziers (fuel : ℕ) (c : BsplineCurve K T) : Res (List (BsplineCurve K T)) := do
  let degree := c.degree
  let U := c.knots
  let P := c.cps
  let _ ← forI 0 U.length () fun i _ => do
    let x ← vget U i
    let multi ← getKnotMultiplicity U x
    validate (decide (multi ≤ degree + 1))
  let bezierKnots := List.replicate (degree + 1).toNat (0 : K) ++ List.replicate (degree + 1).toNat (1 : K)
  let n : ℤ := (P.length : ℤ) - 1
  let m := n + degree + 1
  let breaks ← forI 0 (m + 1) (0 : ℤ) fun i breaks =>
    if i = 0 then ok (breaks + 1)
    else do
      let x ← vget U i
      let y ← vget U (i - 1)
      ok (if !isAlmostEqualTo x y then breaks + 1 else breaks)
  let bezierSize := breaks - 1
  let pieces := List.replicate bezierSize.toNat (List.replicate (degree + 1).toNat (0 : T))
  let row0 ← vget pieces 0
  let row0 ← forI 0 (degree + 1) row0 fun i row => do
    let x ← vget P i
    vset row i x
  let pieces ← vset pieces 0 row0
  let st ← whileF (fun st => ok (decide (st.b < m))) (decompRound U P degree m) fuel
    (⟨degree, degree + 1, 0, pieces⟩ : DecompState T)
  ok (st.pieces.map fun cps => { degree := degree, knots := bezierKnots, cps := cps })

/-- The coefficients of Bézier degree elevation, Geometry/Curve/NurbsCurve.cpp:905-929.  `ph / 2` is
an `int` division of a positive number. -/
def bezierElevation (degree times : ℤ) : Res (List (List K)) := do
  let ph := degree + times
  let ph2 := ph / 2
  let B := List.replicate (degree + times + 1).toNat (List.replicate (degree + 1).toNat (0 : K))
  let B ← mset B ph degree 1
  let B ← mset B 0 0 1
  let B ← forI 1 (ph2 + 1) B fun i B => do
    let b ← (binomial ph i : Res K)
    let inv ← fdiv 1 b
    forI (max 0 (i - times)) (min degree i + 1) B fun j B => do
      let b1 ← (binomial degree j : Res K)
      let b2 ← (binomial times (i - j) : Res K)
      mset B i j (inv * b1 * b2)
  forI (ph2 + 1) ph B fun i B =>
    forI (max 0 (i - times)) (min degree i + 1) B fun j B => do
      let x ← mget B (ph - i) (degree - j)
      mset B i j x

/-- Loop state of `ElevateDegree` (`mh` is computed but never used by the C++ and left out). -/
structure ElevateState (K T : Type) where
  kind : ℤ
  r : ℤ
  a : ℤ
  b : ℤ
  cind : ℤ
  ua : K
  Q : List T
  V : List K
  bpts : List T
  nextbpts : List T

/-- The degree elevated Bézier points, Geometry/Curve/NurbsCurve.cpp:996-1005. -/
def elevatePiece (B : List (List K)) (degree times lbz : ℤ) (bpts : List T) : Res (List T) :=
  forI lbz (degree + times + 1) (List.replicate (degree + times + 1).toNat (0 : T)) fun i ebpts => do
    let ebpts ← vset ebpts i 0
    forI (max 0 (i - times)) (min degree i + 1) ebpts fun j ebpts => do
      let e ← vget ebpts i
      let al ← mget B i j
      let x ← vget bpts j
      vset ebpts i (e + al • x)

/-- One pass of knot removal at the left end of the piece (the `while` over `i` and `j`),
Geometry/Curve/NurbsCurve.cpp:1016-1050.  State: (`i`, `j`, `Q`, `ebpts`); `kj = j - kind + 1`
throughout. -/
def elevateRemovePass (kind ph oldr cind lbz tr : ℤ) (ua ub den bet : K) (V : List K) (first last : ℤ) (Q ebpts : List T) :
    Res (List T × List T) := do
  let (_, _, Q, ebpts) ← whileF (fun (st : ℤ × ℤ × List T × List T) => ok (decide (st.2.1 - st.1 > tr)))
    (fun (i, j, Q, ebpts) => do
      let kj := j - kind + 1
      let Q ← (if i < cind then do
          let v ← vget V i
          let alf ← fdiv (ub - v) (ua - v)
          let x ← vget Q i
          let y ← vget Q (i - 1)
          vset Q i (alf • x + (1 - alf) • y)
        else ok Q : Res (List T))
      let ebpts ← (if j ≥ lbz then do
          if j - tr ≤ kind - ph + oldr then do
            let v ← vget V (j - tr)
            let gam ← fdiv (ub - v) den
            let x ← vget ebpts kj
            let y ← vget ebpts (kj + 1)
            vset ebpts kj (gam • x + (1 - gam) • y)
          else do
            let x ← vget ebpts kj
            let y ← vget ebpts (kj + 1)
            vset ebpts kj (bet • x + (1 - bet) • y)
        else ok ebpts : Res (List T))
      ok (i + 1, j - 1, Q, ebpts)) (last - first).toNat (first, last, Q, ebpts)
  ok (Q, ebpts)

/-- The removal of the superfluous knots at the left end of the piece,
Geometry/Curve/NurbsCurve.cpp:1007-1055.  State: (`first`, `last`, `Q`, `ebpts`). -/
def elevateRemove (kind ph oldr cind lbz : ℤ) (ua ub : K) (V : List K) (Q ebpts : List T) : Res (List T × List T) :=
  if oldr > 1 then do
    let den := ub - ua
    let vk ← vget V (kind - 1)
    let bet ← fdiv (ub - vk) den
    let (_, _, Q, ebpts) ← forI 1 oldr (kind - 2, kind, Q, ebpts) fun tr (first, last, Q, ebpts) => do
      let (Q, ebpts) ← elevateRemovePass kind ph oldr cind lbz tr ua ub den bet V first last Q ebpts
      ok (first - 1, last + 1, Q, ebpts)
    ok (Q, ebpts)
  else ok (Q, ebpts)

/-- The part of a round that appends the elevated piece to the result: elevated points, knot removal,
the knots `ua` and the control points, Geometry/Curve/NurbsCurve.cpp:998-1065. -/
def elevateEmit (B : List (List K)) (degree times lbz rbz : ℤ) (ub : K) (bpts : List T) (st : ElevateState K T) :
    Res (List T × List K × ℤ × ℤ) := do
  let ph := degree + times
  let ebpts ← elevatePiece B degree times lbz bpts
  let (Q, ebpts) ← elevateRemove st.kind ph st.r st.cind lbz st.ua ub st.V st.Q ebpts
  let (V, kind) ← (if st.a ≠ degree then
      forI 0 (ph - st.r) (st.V, st.kind) fun _ (V, kind) => do
        let V ← vset V kind st.ua
        ok (V, kind + 1)
    else ok (st.V, st.kind) : Res (List K × ℤ))
  let (Q, cind) ← forI lbz (rbz + 1) (Q, st.cind) fun j (Q, cind) => do
    let x ← vget ebpts j
    let Q ← vset Q cind x
    ok (Q, cind + 1)
  ok (Q, V, kind, cind)

/-- One round of the main loop of `ElevateDegree`, Geometry/Curve/NurbsCurve.cpp:957-1086.  The `int`
divisions have nonnegative numerators. -/
def elevateRound (U : List K) (P : List T) (degree times m : ℤ) (B : List (List K)) (st : ElevateState K T) :
    Res (ElevateState K T) := do
  let ph := degree + times
  let i := st.b
  let b ← skipEqual U m st.b
  let mul := b - i + 1
  let ub ← vget U b
  let oldr := st.r
  let r := degree - mul
  let lbz := if oldr > 0 then (oldr + 2) / 2 else 1
  let rbz := if r > 0 then ph - (r + 1) / 2 else ph
  let (bpts, nextbpts) ← (if r > 0 then do
      let alfs ← splitAlphas U degree st.a mul (ub - st.ua) st.ua (List.replicate (degree - 1).toNat (0 : K))
      splitPiece degree mul alfs true st.bpts st.nextbpts
    else ok (st.bpts, st.nextbpts) : Res (List T × List T))
  let (Q, V, kind, cind) ← elevateEmit B degree times lbz rbz ub bpts st
  if b < m then do
    let bpts ← forI 0 r bpts fun j bpts => do
      let x ← vget nextbpts j
      vset bpts j x
    let bpts ← forI r (degree + 1) bpts fun j bpts => do
      let x ← vget P (b - degree + j)
      vset bpts j x
    ok ⟨kind, r, b, b + 1, cind, ub, Q, V, bpts, nextbpts⟩
  else do
    let V ← forI 0 (ph + 1) V fun i V => vset V (kind + i) ub
    ok ⟨kind, r, st.a, b, cind, st.ua, Q, V, bpts, nextbpts⟩

/-- `NurbsCurve::ElevateDegree`, Geometry/Curve/NurbsCurve.cpp:893-1093.  The main loop advances `b`
in every round that does not end it, so `m` is enough fuel.  A negative `std::vector` size (degree
0) throws `std::length_error` in the C++; the model's `toNat` makes it an empty vector. -/
def elevateDegree (c : BsplineCurve K T) (times : ℤ) : Res (BsplineCurve K T) := do
  let degree := c.degree
  let U := c.knots
  let P := c.cps
  validate (decide (times > 0))
  let n : ℤ := (P.length : ℤ) - 1
  let m := n + degree + 1
  let ph := degree + times
  let B ← (bezierElevation degree times : Res (List (List K)))
  let ua ← vget U 0
  let uniqueCount := (U.length : ℤ) - (degree + 1) - (degree + 1)
  let nh := n + (uniqueCount + 1) * times
  let p0 ← vget P 0
  let Q ← vset (List.replicate (nh + 1).toNat (0 : T)) 0 p0
  let V ← forI 0 (ph + 1) (List.replicate (nh + 1 + ph + 1).toNat (0 : K)) fun i V => vset V i ua
  let bpts ← forI 0 (degree + 1) (List.replicate (degree + 1).toNat (0 : T)) fun i bpts => do
    let x ← vget P i
    vset bpts i x
  let st ← whileF (fun st => ok (decide (st.b < m))) (elevateRound U P degree times m B) m.toNat
    (⟨ph + 1, -1, degree, degree + 1, 1, ua, Q, V, bpts, List.replicate (degree - 1).toNat (0 : T)⟩ : ElevateState K T)
  ok { degree := ph, knots := st.V, cps := st.Q }

end

end LNLib
