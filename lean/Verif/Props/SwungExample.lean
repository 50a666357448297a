import Verif.Props.Swung
import Verif.Props.SweepExample

/-!
# C134: an example of a swung surface
-/
set_option linter.unusedSectionVars false

namespace LNLib.Props
open LNLib Res LNLib.Spec Finset

/-- the solver finds the quadratic through three points -/
theorem quad_interp_exists (q0 q1 q2 : XYZ ℝ) : ∃ c, globalInterpolation anySolve 2 [q0, q1, q2] [0, 1 / 2, 1] = ok c ∧ c.cps.length = 3 := by
  have hcol := quad_colloc (x := 1 / 2) (by norm_num) (by norm_num)
  obtain ⟨A, hA, a1, a2⟩ := interpolationMatrix_run hcol.pos hcol.le7 hcol.pn hcol.len hcol.knots hcol.zeros hcol.ones hcol.sorted hcol.ends hcol.first hcol.last hcol.mono
  have hA : interpolationMatrix 2 3 ([0, 0, 0, 1, 1, 1] : List ℝ) [0, 1 / 2, 1] = ok A := hA
  set P : XYZ ℝ := (2 : ℝ) • q1 - (1 / 2 : ℝ) • (q0 + q2) with hP
  have hX : IsMat ([[q0.x, q0.y, q0.z], [P.x, P.y, P.z], [q2.x, q2.y, q2.z]] : List (List ℝ)) 3 3 := ⟨rfl, fun i hi => by interval_cases i <;> rfl⟩
  have hB : IsMat ([[q0.x, q0.y, q0.z], [q1.x, q1.y, q1.z], [q2.x, q2.y, q2.z]] : List (List ℝ)) 3 3 := ⟨rfl, fun i hi => by interval_cases i <;> rfl⟩
  obtain ⟨b0, b1, b2⟩ := quad_basis (t := 0) le_rfl (by norm_num)
  obtain ⟨m0, m1, m2⟩ := quad_basis (t := 1 / 2) (by norm_num) (by norm_num)
  have cor := hcol.corner.2
  have c0 := cor 0 (by omega)
  have c1 := cor 1 (by omega)
  have c2 := cor 2 (by omega)
  have n3 : nth ([0, 0, 0, 1, 1, 1] : List ℝ) (2 + 1) = 1 := rfl
  have p0 : nth ([0, 1 / 2, 1] : List ℝ) 0 = 0 := rfl
  have p1 : nth ([0, 1 / 2, 1] : List ℝ) 1 = 1 / 2 := rfl
  have p2 : nth ([0, 1 / 2, 1] : List ℝ) 2 = 1 := rfl
  rw [n3, p2] at c0 c1 c2
  obtain ⟨Y, hY⟩ := anySolve_of (s := 3) (d := 3) (by omega) a1 hB hX (by
    intro i j hi hj
    simp only [sum_range_succ, sum_range_zero]
    rw [a2 i 0 (by omega) (by omega), a2 i 1 (by omega) (by omega), a2 i 2 (by omega) (by omega), n3]
    interval_cases i
    · rw [p0, b0, b1, b2]
      interval_cases j <;> simp [ent, row, nth]
    · rw [p1, m0, m1, m2]
      interval_cases j <;> simp [ent, row, nth, hP] <;> ring
    · rw [p2, c0, c1, c2]
      interval_cases j <;> simp [ent, row, nth])
  obtain ⟨y1, -⟩ := anySolve_sound _ _ _ _ _ a1 hB hY
  have hlen : Y.length = 3 := y1.1
  have hrun : Runs (forI 0 (Y.length : ℤ) (List.replicate 3 (⟨0, 0, 0, 0⟩ : XYZW ℝ)) fun i cps => do
      let x ← mget Y i 0
      let y ← mget Y i 1
      let z ← mget Y i 2
      vset cps i ⟨x * 1, y * 1, z * 1, 1⟩) (fun c => c.length = 3) := by
    refine (Runs.forN (m := 0) (n := 3) (fun _ (c : List (XYZW ℝ)) => c.length = 3) rfl (by rw [hlen]) (by omega) (by simp) ?_).mono fun _ h => h
    rintro i c - hi hc
    rw [mget_ent (i := (i : ℤ)) (j := 0) (a := i) (b := 0) y1 rfl rfl hi (by omega), ok_bind, mget_ent (i := (i : ℤ)) (j := 1) (a := i) (b := 1) y1 rfl rfl hi (by omega), ok_bind,
      mget_ent (i := (i : ℤ)) (j := 2) (a := i) (b := 2) y1 rfl rfl hi (by omega), ok_bind, vset_of (k := i) rfl (by omega)]
    exact Runs.ok (by simp [hc])
  obtain ⟨c, ec, hc⟩ := hrun
  refine ⟨⟨2, [0, 0, 0, 1, 1, 1], c⟩, ?_, hc⟩
  unfold globalInterpolation
  rw [show (decide ((2 : ℤ) ≥ 0) && decide ((2 : ℤ) ≤ nurbsMaxDegree)) = true by simp [nurbsMaxDegree], validate_of rfl, ok_bind,
    show decide ((([q0, q1, q2] : List (XYZ ℝ)).length : ℤ) > 2) = true by simp, validate_of rfl, ok_bind, validate_of (by simp), ok_bind,
    quad_knots (by norm_num) (by norm_num), ok_bind]
  show (do
    let A ← interpolationMatrix 2 3 ([0, 0, 0, 1, 1, 1] : List ℝ) [0, 1 / 2, 1]
    let result ← anySolve A [[q0.x, q0.y, q0.z], [q1.x, q1.y, q1.z], [q2.x, q2.y, q2.z]]
    let cps ← forI 0 (result.length : ℤ) (List.replicate 3 (⟨0, 0, 0, 0⟩ : XYZW ℝ)) fun i cps => do
      let x ← mget result i 0
      let y ← mget result i 1
      let z ← mget result i 2
      vset cps i ⟨x * 1, y * 1, z * 1, 1⟩
    ok (⟨2, [0, 0, 0, 1, 1, 1], cps⟩ : NurbsCurve ℝ)) = _
  rw [hA, ok_bind, hY, ok_bind, ec, ok_bind]

/-- the quarter of the unit circle -/
noncomputable def quarterCircle : NurbsCurve ℝ := { degree := 2, knots := [0, 0, 0, 1, 1, 1], cps := [⟨1, 0, 0, 1⟩, ⟨1, 1, 0, 1⟩, ⟨0, 2, 0, 2⟩] }

theorem quarterCircle_facts : WellFormed quarterCircle 2 2 ∧ EndsSeparated (nth quarterCircle.knots) 2 2 := by
  refine ⟨?_, ?_⟩
  · refine ⟨rfl, by omega, by omega, rfl, le_rfl, rfl, ?_⟩
    apply isValidKnotVector_nth.mp
    simp [isValidKnotVector, quarterCircle]
  · constructor <;> simp [nth, quarterCircle] <;> norm_num

theorem bend_grevilles : grevilles bendCurve.knots 2 2 = [0, 1 / 2, 1] := by
  simp [grevilles, List.range_succ, greville, sum_range_succ, bendCurve, nth]

/-- the swung surface of the quarter circle along the bend exists -/
theorem bend_swung {s : ℝ} (hs : s ≠ 0) : ∃ S, createSwung anySolve quarterCircle bendCurve s = ok S := by
  obtain ⟨w, he, hc⟩ := bendCurve_facts
  obtain ⟨vl, hvl, hvlen, hv⟩ := swungParams_run (by omega) (by omega) w.knots w.sorted hc
  have evl : vl = [0, 1 / 2, 1] := by
    rw [← bend_grevilles]
    refine ext_nth (by rw [hvlen]; simp [grevilles]) fun i hi => ?_
    rw [hv i (by omega), nth_grevilles (by omega)]
  subst evl
  have hder : ∀ k ≤ 2, ∃ x d, NurbsCurve.rationalDerivatives bendCurve 1 (nth [0, 1 / 2, 1] k) = ok [x, d] := by
    intro k hk
    have : 0 ≤ nth ([0, 1 / 2, 1] : List ℝ) k ∧ nth ([0, 1 / 2, 1] : List ℝ) k ≤ 1 := by
      interval_cases k <;> norm_num [nth]
    obtain ⟨-, -, x, h⟩ := bendCurve_run this.1 this.2
    exact ⟨x, _, h⟩
  have hpt : ∀ k ≤ 2, ∃ o, NurbsCurve.pointOnCurve bendCurve (nth [0, 1 / 2, 1] k) = ok o := by
    intro k hk
    have : 0 ≤ nth ([0, 1 / 2, 1] : List ℝ) k ∧ nth ([0, 1 / 2, 1] : List ℝ) k ≤ 1 := by
      interval_cases k <;> norm_num [nth]
    exact ⟨_, (bendCurve_run this.1 this.2).2.1⟩
  have three : ∀ {α : Type} {l : List α}, l.length = 3 → ∃ a b c, l = [a, b, c] := by
    intro α l hl
    match l, hl with
    | [a, b, c], _ => exact ⟨a, b, c, rfl⟩
  have hB : Runs (swungNormals bendCurve [0, 1 / 2, 1]) (fun B => B.length = 3) := by
    unfold swungNormals
    obtain ⟨x, d, e⟩ := hder 0 (by omega)
    rw [vget_nth (i := 0) (k := 0) rfl (by simp), ok_bind, e, ok_bind, vget_nth (i := 1) (k := 1) rfl (by simp), ok_bind, vset_of (i := 0) (k := 0) rfl (by simp), ok_bind]
    refine (Runs.forN (m := 1) (n := 3) (fun _ (c : List (XYZ ℝ)) => c.length = 3) rfl rfl (by omega) (by simp) ?_).mono fun _ h => h
    rintro i c i0 hi hc
    obtain ⟨x, d, e⟩ := hder i (by omega)
    rw [vget_nth (k := i) rfl (by simp; omega), ok_bind, e, ok_bind, vget_nth (i := 1) (k := 1) rfl (by simp), ok_bind, vget_nth (k := i - 1) (by omega) (by omega), ok_bind,
      vset_of (k := i) rfl (by omega)]
    exact Runs.ok (by simp [hc])
  obtain ⟨B, eB, hB⟩ := hB
  obtain ⟨b0, b1, b2, rfl⟩ := three hB
  obtain ⟨Bv, eBv, -⟩ := quad_interp_exists b0 b1 b2
  have hBpt : ∀ k ≤ 2, ∃ b, NurbsCurve.pointOnCurve Bv (nth [0, 1 / 2, 1] k) = ok b := by
    have hcol := quad_colloc (x := 1 / 2) (by norm_num) (by norm_num)
    have hk : Bv.knots = [0, 0, 0, 1, 1, 1] := by
      unfold globalInterpolation at eBv
      obtain ⟨_, -, hR⟩ := bind_eq_ok.mp eBv
      obtain ⟨_, -, hR⟩ := bind_eq_ok.mp hR
      obtain ⟨_, -, hR⟩ := bind_eq_ok.mp hR
      rw [quad_knots (by norm_num) (by norm_num), ok_bind] at hR
      obtain ⟨_, -, hR⟩ := bind_eq_ok.mp hR
      obtain ⟨_, -, hR⟩ := bind_eq_ok.mp hR
      obtain ⟨_, -, hR⟩ := bind_eq_ok.mp hR
      rw [← Res.ok.inj hR]
    obtain ⟨-, -, -, h⟩ := C73_interpolates (p := 2) (n := 2) anySolve_sound (by omega) (by omega) rfl hcol.first hcol.last hcol.mono eBv (by rw [hk]; exact hcol.ends)
    intro k hk
    exact ⟨_, h k hk⟩
  have hnet : Runs (swungPlace quarterCircle bendCurve Bv s 3 [0, 1 / 2, 1]) (fun M => IsMat M 3 3) := by
    unfold swungPlace
    refine (Runs.forN (m := 0) (n := 3) (fun _ (M : List (List (XYZW ℝ))) => IsMat M 3 3) rfl rfl (by omega) ?_ ?_).mono fun _ h => h
    · exact isMat_replicate
    rintro k M - hk hM
    obtain ⟨x, d, e⟩ := hder k (by omega)
    obtain ⟨b, eb⟩ := hBpt k (by omega)
    obtain ⟨o, eo⟩ := hpt k (by omega)
    have hA : ∃ A, swungMatrix bendCurve Bv (nth [0, 1 / 2, 1] k) = ok A := by
      unfold swungMatrix
      rw [e, ok_bind, vget_nth (i := 1) (k := 1) rfl (by simp), ok_bind, eb, ok_bind, eo, ok_bind]
      exact ⟨_, rfl⟩
    obtain ⟨A, hA⟩ := hA
    rw [vget_nth (k := k) rfl (by simp; omega), ok_bind, hA, ok_bind]
    refine (Runs.forN (m := 0) (n := 3) (fun _ (M : List (List (XYZW ℝ))) => IsMat M 3 3) rfl rfl (by omega) hM ?_).mono fun _ h => h
    rintro i M - hi hM
    have hw : s * (nth quarterCircle.cps i).w ≠ 0 := by
      apply mul_ne_zero hs
      interval_cases i <;> simp [quarterCircle, nth]
    rw [vget_nth (k := i) rfl (by simp [quarterCircle]; omega), ok_bind, ofWeightedPoint_affine (swungMatrix_of_ok hA).1 hw, ok_bind]
    obtain ⟨M', e1, e2, -⟩ := mset_ok (x := liftW A (s • nth quarterCircle.cps i)) hM (i := (i : ℤ)) (j := (k : ℤ)) rfl rfl hi hk
    exact ⟨M', e1, e2⟩
  obtain ⟨net, enet, hM⟩ := hnet
  have hrows : Runs (swungRows anySolve 2 [0, 1 / 2, 1] net) (fun M => IsMat M 3 3) := by
    unfold swungRows
    refine (Runs.forN (m := 0) (n := 3) (fun _ (M : List (List (XYZW ℝ))) => IsMat M 3 3) rfl (by rw [hM.1]) (by omega) hM ?_).mono fun _ h => h
    rintro i M - hi hM
    have hr := hM.2 0 (by omega)
    rw [vget_row (i := 0) (k := 0) rfl (by rw [hM.1]; omega), ok_bind, swungThrough_run (n := 2) (m := 2) hM (by omega) hr, ok_bind]
    obtain ⟨R, eR, hR⟩ := quad_interp_exists (ent M i 0).toXYZ (ent M i 1).toXYZ (ent M i 2).toXYZ
    rw [show (List.range (2 + 1)).map (fun k => (ent M i k).toXYZ) = [(ent M i 0).toXYZ, (ent M i 1).toXYZ, (ent M i 2).toXYZ] from rfl, eR, ok_bind, hr]
    refine (Runs.forN (m := 0) (n := 3) (fun _ (M : List (List (XYZW ℝ))) => IsMat M 3 3) rfl rfl (by omega) hM ?_).mono fun _ h => h
    rintro k M - hk hM
    rw [vget_nth (k := k) rfl (by omega), ok_bind]
    obtain ⟨M', e1, e2, -⟩ := mset_ok (x := nth R.cps k) hM (i := (i : ℤ)) (j := (k : ℤ)) rfl rfl hi hk
    exact ⟨M', e1, e2⟩
  obtain ⟨net', enet', -⟩ := hrows
  refine ⟨{ degreeU := 2, degreeV := 2, knotsU := quarterCircle.knots, knotsV := bendCurve.knots, cps := net' }, ?_⟩
  unfold createSwung
  show (swungParams ((2 : ℕ) : ℤ) (((2 : ℕ) : ℤ) + 1) bendCurve.knots >>= _) = _
  rw [hvl, ok_bind, eB, ok_bind]
  show (globalInterpolation anySolve 2 [b0, b1, b2] [0, 1 / 2, 1] >>= _) = _
  rw [eBv, ok_bind]
  show (swungPlace quarterCircle bendCurve Bv s 3 [0, 1 / 2, 1] >>= _) = _
  rw [enet, ok_bind]
  show (swungRows anySolve 2 [0, 1 / 2, 1] net >>= _) = _
  rw [enet', ok_bind]
  rfl

/-- C134, concretely: the quarter of the unit circle around the origin, swung along a parabola from the origin, with the scale 3. The profile
passes at `(3/5, 4/5, 0)`, at distance 1 from the trajectory it is placed on; the point of the edge of the surface at the same parameter is
`(3/4, -3/4, 1)`, neither at the distance 1 nor at the distance 3. -/
theorem C134_concrete : ∃ S, createSwung anySolve quarterCircle bendCurve 3 = ok S ∧ NurbsSurface.pointOnSurface S (1 / 2) 0 = ok ⟨3 / 4, -(3 / 4), 1⟩ ∧
    NurbsCurve.pointOnCurve bendCurve 0 = ok 0 ∧ NurbsCurve.pointOnCurve quarterCircle (1 / 2) = ok ⟨3 / 5, 4 / 5, 0⟩ := by
  obtain ⟨S, hS⟩ := bend_swung (s := 3) (by norm_num)
  obtain ⟨w, he, hc⟩ := bendCurve_facts
  obtain ⟨wP, heP⟩ := quarterCircle_facts
  have hend : ∀ kv, averageKnotVector ((2 : ℕ) : ℤ) (grevilles bendCurve.knots 2 2) = ok kv → EndsSeparated (nth kv) 2 2 := by
    intro kv h
    rw [bend_grevilles] at h
    rw [show (((2 : ℕ) : ℤ)) = 2 from rfl, quad_knots (by norm_num) (by norm_num)] at h
    rw [← Res.ok.inj h]
    exact (quad_colloc (x := 1 / 2) (by norm_num) (by norm_num)).ends
  obtain ⟨-, -, -, d, hd, h⟩ := C134_placed_partial anySolve_sound wP heP (by simp [quarterCircle]; norm_num) w he hc (by simp [bendCurve, nth]) (by simp [bendCurve, nth]) hend hend hS
  obtain ⟨q0, q1, q2⟩ := quad_basis (t := 1 / 2) (by norm_num) (by norm_num)
  have g0 : greville (nth bendCurve.knots) 2 0 = 0 := by simp [greville, sum_range_succ, bendCurve, nth]
  obtain ⟨-, ho', x, hx⟩ := bendCurve_run le_rfl zero_le_one
  have ho : NurbsCurve.pointOnCurve bendCurve 0 = ok 0 := by
    rw [ho']
    congr 1
    ext <;> simp
  have ed : d 0 = ⟨2, 0, 0⟩ := by
    obtain ⟨l, el, e⟩ := hd 0 (by omega)
    rw [g0, hx] at el
    rw [← e, ← Res.ok.inj el]
    simp [nth]
  obtain ⟨o, eo, h⟩ := h 0 (by omega) (Or.inl rfl)
  rw [g0, ho] at eo
  have eo := Res.ok.inj eo
  subst eo
  obtain ⟨a, ea, es⟩ := h (1 / 2) (by norm_num [quarterCircle, nth]) (by norm_num [quarterCircle, nth])
  have eax : swungAxis d 0 = ⟨0, 0, -1⟩ := by
    unfold swungAxis firstAxis
    rw [ed, if_pos (by simp [isAlmostEqualTo, doubleEps, tolOf])]
    rw [show (⟨0, 1, 0⟩ : XYZ ℝ).cross ⟨2, 0, 0⟩ = ⟨0, 0, -2⟩ by simp [XYZ.cross]]
    rw [normalize_eq (by intro h; have := congrArg XYZ.z h; simp at this)]
    have : (⟨0, 0, -2⟩ : XYZ ℝ).length = 2 := by
      unfold XYZ.length
      rw [show ((0 : ℝ) * 0 + 0 * 0 + -2 * -2) = 2 ^ 2 by norm_num]
      exact Real.sqrt_sq (by norm_num)
    rw [this]
    ext <;> simp
  have etn : (d 0).normalize = ⟨1, 0, 0⟩ := by
    rw [ed, normalize_eq (by intro h; have := congrArg XYZ.x h; simp at this)]
    have : (⟨2, 0, 0⟩ : XYZ ℝ).length = 2 := by
      unfold XYZ.length
      rw [show ((2 : ℝ) * 2 + 0 * 0 + 0 * 0) = 2 ^ 2 by norm_num]
      exact Real.sqrt_sq (by norm_num)
    rw [this]
    ext <;> simp
  have eU : (unweighted quarterCircle).cps = [⟨1, 0, 0, 1⟩, ⟨1, 1, 0, 1⟩, ⟨0, 1, 0, 1⟩] := by
    simp [unweighted, quarterCircle]
  have ea' : a = ⟨3 / 4, 3 / 4, 0⟩ := by
    have wW : WellFormed (unweighted quarterCircle) 2 2 :=
      { degree := wP.degree, pos := wP.pos, le7 := wP.le7, cps := by rw [eU]; rfl, pn := wP.pn, knots := wP.knots, sorted := wP.sorted }
    rw [unit_weight_point wW heP (by norm_num [unweighted, quarterCircle, nth]) (by norm_num [unweighted, quarterCircle, nth]) (by intro i hi; rw [eU]; interval_cases i <;> rfl), eU] at ea
    rw [← Res.ok.inj ea]
    show ∑ j ∈ range 3, N (nth ([0, 0, 0, 1, 1, 1] : List ℝ)) 1 2 j (1 / 2) • (nth ([⟨1, 0, 0, 1⟩, ⟨1, 1, 0, 1⟩, ⟨0, 1, 0, 1⟩] : List (XYZW ℝ)) j).raw = _
    simp only [sum_range_succ, sum_range_zero, q0, q1, q2]
    ext <;> simp [nth, XYZW.raw] <;> norm_num
  refine ⟨S, hS, ?_, ho, ?_⟩
  · rw [← g0, es, eax, etn, ea']
    congr 1
    ext <;> simp [framePoint, XYZ.cross]
  · have ew : weightFn (nth quarterCircle.knots) 2 2 (nth quarterCircle.cps) (1 / 2) = 5 / 4 := by
      show ∑ j ∈ range 3, N (nth ([0, 0, 0, 1, 1, 1] : List ℝ)) 1 2 j (1 / 2) * (nth ([⟨1, 0, 0, 1⟩, ⟨1, 1, 0, 1⟩, ⟨0, 2, 0, 2⟩] : List (XYZW ℝ)) j).w = _
      simp only [sum_range_succ, sum_range_zero, q0, q1, q2]
      simp [nth]
      norm_num
    rw [C05_eval_rational wP heP (by norm_num [quarterCircle, nth]) (by norm_num [quarterCircle, nth]) (by rw [ew]; norm_num [abs_of_pos])]
    congr 1
    unfold rationalPoint
    unfold weightFn at ew
    rw [ew]
    show (5 / 4 : ℝ)⁻¹ • ∑ j ∈ range 3, N (nth ([0, 0, 0, 1, 1, 1] : List ℝ)) 1 2 j (1 / 2) • (nth ([⟨1, 0, 0, 1⟩, ⟨1, 1, 0, 1⟩, ⟨0, 2, 0, 2⟩] : List (XYZW ℝ)) j).raw = _
    simp only [sum_range_succ, sum_range_zero, q0, q1, q2]
    ext <;> simp [nth, XYZW.raw] <;> norm_num

end LNLib.Props
