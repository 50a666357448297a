import Verif.Lemmas.RevolveRun
import Verif.Props.Cylinder

/-!
# C88: `NurbsSurface::CreateRevolvedSurface` is the surface of revolution of its profile
-/

namespace LNLib.Props
open LNLib Res Spec Finset

/-- the weight of a point of a curve is at least the smallest weight of its control points -/
theorem weight_ge {c : NurbsCurve ℝ} {p n : ℕ} {t b : ℝ} (w : WellFormed c p n) (he : EndsSeparated (nth c.knots) p n) (h0 : nth c.knots p ≤ t)
    (h1 : t ≤ nth c.knots (n + 1)) (hb : ∀ i, i ≤ n → b ≤ (nth c.cps i).w) : b ≤ (curvePoint (nth c.knots) p n (nth c.cps) t).w := by
  obtain ⟨s, -, hs⟩ := span_isSpan w he h0 h1
  have hm := wf_monoTo w
  have hpn := w.pn
  rw [curvePoint_span hm (le_refl _) hs, XYZW.sum_w]
  have hsum := Nspan_sum (t := t) hm hs.2.2.1 p hs.1 (by have := hs.2.1; omega)
  rw [sum_rangeK hs.1 (fun i hi => Nspan_zero _ s p i t hi)] at hsum
  calc b = ∑ r ∈ range (p + 1), Nspan (nth c.knots) s p (s - p + r) t * b := by rw [← sum_mul, hsum, one_mul]
    _ ≤ _ := by
      refine sum_le_sum fun r hr => ?_
      rw [mem_range] at hr
      have a1 := hs.1; have a2 := hs.2.1
      refine mul_le_mul_of_nonneg_left (hb _ (by omega)) (Nspan_nonneg hm hs.2.2.2.1 ?_ p _ (by omega))
      rcases hs.2.2.2.2 with h | h
      · exact h.le
      · exact h.1.le

theorem curvePoint_map {V : ℕ → ℝ} {p n : ℕ} {P : ℕ → XYZW ℝ} {t : ℝ} (L : XYZW ℝ →ₗ[ℝ] XYZW ℝ) :
    curvePoint V p n (fun j => L (P j)) t = L (curvePoint V p n P t) := by
  unfold curvePoint
  rw [map_sum]
  exact sum_congr rfl fun i _ => by rw [map_smul]

/-- C88 for a unit axis: for a valid profile with positive weights whose control points are on the axis or at least `1/2` away from it, and an
angle between `1/100` and a full turn, `CreateRevolvedSurface` succeeds; every line `u = const` of the surface it makes is the profile
turned by one angle between `0` and `rad` about the axis, with the angle `0` at `u = 0` and `rad` at `u = 1`; and every angle between `0` and
`rad` is reached.  The full property allows every axis direction and every distance from the axis; see the two refutations below. -/
theorem C88_revolved_partial {o k : XYZ ℝ} {rad : ℝ} {c : NurbsCurve ℝ} {p n : ℕ} (w : WellFormed c p n) (he : EndsSeparated (nth c.knots) p n)
    (hk : k.dot k = 1) (hmin : 1 / 100 ≤ rad) (hmax : rad ≤ 2 * Real.pi) (hw : ∀ j, j ≤ n → 1 / 100000 ≤ (nth c.cps j).w)
    (hd : ∀ j, j ≤ n → radial o k (nth c.cps j).toXYZ = 0 ∨ 1 / 4 ≤ (radial o k (nth c.cps j).toXYZ).dot (radial o k (nth c.cps j).toXYZ)) :
    ∃ (s : NurbsSurface ℝ) (N : ℕ), createRevolvedSurface o k rad c = ok (some s) ∧ WellFormedS s 2 p N n ∧
      (∀ u v, InDomain s 2 p N n u v ↔ 0 ≤ u ∧ u ≤ 1 ∧ nth c.knots p ≤ v ∧ v ≤ nth c.knots (n + 1)) ∧
      (∀ u, 0 ≤ u → u ≤ 1 → ∃ θ, 0 ≤ θ ∧ θ ≤ rad ∧ (u = 0 → θ = 0) ∧ (u = 1 → θ = rad) ∧ ∀ v, nth c.knots p ≤ v → v ≤ nth c.knots (n + 1) →
        ∃ x, NurbsCurve.pointOnCurve c v = ok x ∧ NurbsSurface.pointOnSurface s u v = ok (rotateAbout o k θ x)) ∧
      (∀ θ, 0 ≤ θ → θ ≤ rad → ∃ u, 0 ≤ u ∧ u ≤ 1 ∧ ∀ v, nth c.knots p ≤ v → v ≤ nth c.knots (n + 1) →
        ∃ x, NurbsCurve.pointOnCurve c v = ok x ∧ NurbsSurface.pointOnSurface s u v = ok (rotateAbout o k θ x)) := by
  obtain ⟨m, U, cps, hrun, hm0, hm4, hUl, hU, hδ0, hδ1, hmat, hP⟩ := createRevolved_run (rad := rad) hk w.cps hmin hmax hd
  have hm' : (m : ℝ) ≠ 0 := by positivity
  have hend : 0 + m * (rad / m) = rad := by field_simp; ring
  obtain ⟨heU, u0, u1, hsU⟩ := chain_dir hm0 (by omega) hUl hU
  set s : NurbsSurface ℝ := ⟨2, c.degree, U, c.knots, cps⟩ with hs
  have wf : WellFormedS s 2 p (2 * m) n :=
    { degreeU := rfl, degreeV := w.degree, posU := by omega, posV := w.pos, le7U := by omega, le7V := w.le7, cps := hmat,
      pn := by omega, qm := w.pn, knotsU := by rw [hs]; dsimp only; omega, knotsV := w.knots, sortedU := hsU, sortedV := w.sorted }
  have hes : EndsSeparatedS s 2 p (2 * m) n := ⟨heU, he⟩
  have hdom : ∀ u v, InDomain s 2 p (2 * m) n u v ↔ 0 ≤ u ∧ u ≤ 1 ∧ nth c.knots p ≤ v ∧ v ≤ nth c.knots (n + 1) := by
    intro u v
    rw [← u0, ← u1]
    exact ⟨fun ⟨a1, a2, a3, a4⟩ => ⟨a1, a2, a3, a4⟩, fun ⟨a1, a2, a3, a4⟩ => ⟨a1, a2, a3, a4⟩⟩
  have hwt : ∀ j, j ≤ n → 1 / 1000000 * (1 + |(nth c.cps j).w|) < |(nth c.cps j).w| := by
    intro j hj
    have := hw j hj
    rw [abs_of_pos (by linarith)]; linarith
  have hpoint : ∀ θ u W : ℝ, 0 ≤ u → u ≤ 1 → 1 / 2 ≤ W → (∀ (U : ℕ → ℝ) (P : ℕ → XYZW ℝ) (O X Y : XYZ ℝ) (r w : ℝ), ChainKnots U m →
      ArcPolygon P O X Y r 0 (rad / m) w m → curvePoint U 2 (2 * m) P u = XYZW.ofXYZ (arcPoint O X Y r r θ) (w * W)) →
      ∀ v, nth c.knots p ≤ v → v ≤ nth c.knots (n + 1) →
        ∃ x, NurbsCurve.pointOnCurve c v = ok x ∧ NurbsSurface.pointOnSurface s u v = ok (rotateAbout o k θ x) := by
    intro θ u W hu0 hu1 hW h v hv0 hv1
    have hwv := weight_ge w he hv0 hv1 hw
    have hwv' : 1 / 1000000 * (1 + |(curvePoint (nth c.knots) p n (nth c.cps) v).w|) < |(curvePoint (nth c.knots) p n (nth c.cps) v).w| := by
      rw [abs_of_pos (by linarith)]; linarith
    refine ⟨(curvePoint (nth c.knots) p n (nth c.cps) v).toXYZ, ?_, ?_⟩
    · unfold NurbsCurve.pointOnCurve
      rw [C05_eval w he hv0 hv1]; rfl
    · have hpos : 1 / 200000 ≤ (curvePoint (nth c.knots) p n (nth c.cps) v).w * W := by nlinarith
      refine evalS_ofXYZ (W := (curvePoint (nth c.knots) p n (nth c.cps) v).w * W) wf hes ((hdom u v).mpr ⟨hu0, hu1, hv0, hv1⟩) ?_
        (by rw [abs_of_pos (by linarith)]; linarith)
      rw [surfacePoint_eq', hs]
      dsimp only
      rw [curvePoint_congr (Q := fun j => (W • rotHom o k θ) (nth c.cps j)) fun j hj => ?_]
      · rw [curvePoint_map, ofXYZ_smul, ← rotHom_ofXYZ, ofXYZ_toXYZ hwv']; rfl
      · rw [h _ _ _ _ _ _ _ hU (hP j hj), arcPoint_rotate, ofXYZ_smul, ← rotHom_ofXYZ, ofXYZ_toXYZ (hwt j hj)]; rfl
  refine ⟨s, 2 * m, hrun, wf, hdom, ?_, ?_⟩
  · intro u hu0 hu1
    obtain ⟨θ, W, t0, t1, hW, hz, ho, h⟩ := ArcPolygon.exists_angle m 0 hm0 hδ0 hδ1 hu0 hu1
    rw [hend] at t1 ho
    exact ⟨θ, t0, t1, hz, ho, hpoint θ u W hu0 hu1 hW h⟩
  · intro θ t0 t1
    obtain ⟨u, W, hu0, hu1, hW, h⟩ := ArcPolygon.exists_param m 0 hm0 hδ0 hδ1 t0 (by rw [hend]; exact t1)
    exact ⟨u, hu0, hu1, hpoint θ u W hu0 hu1 hW h⟩

/-- a profile with one end on the Z axis -/
noncomputable def revProfile : NurbsCurve ℝ := ⟨1, [0, 0, 1, 1], [⟨0, 0, 0, 1⟩, ⟨2, 0, 2, 2⟩]⟩

/-- the hypotheses of `C88_revolved_partial` hold for a rational line that starts on the axis, turned once around -/
example : ∃ (s : NurbsSurface ℝ) (N : ℕ), createRevolvedSurface ⟨0, 0, 0⟩ ⟨0, 0, 1⟩ (2 * Real.pi) revProfile = ok (some s) ∧ WellFormedS s 2 1 N 1 := by
  have h1 := Real.pi_gt_three
  have hsort : ∀ i j, i ≤ j → j < revProfile.knots.length → nth revProfile.knots i ≤ nth revProfile.knots j := by
    intro i j hij hj
    have hj' : j < 4 := hj
    interval_cases j <;> interval_cases i <;> simp [revProfile, nth]
  have w : WellFormed revProfile 1 1 :=
    { degree := rfl, pos := by norm_num, le7 := by norm_num, cps := rfl, pn := le_refl _, knots := rfl, sorted := hsort }
  obtain ⟨s, N, e1, e2, -⟩ := C88_revolved_partial (o := ⟨0, 0, 0⟩) (k := ⟨0, 0, 1⟩) (rad := 2 * Real.pi) w
    ⟨by norm_num [revProfile, nth, isLessThan, isLessThanOrEqual, tolOf, doubleEps], by norm_num [revProfile, nth, isLessThan, isLessThanOrEqual, tolOf, doubleEps]⟩
    (by norm_num [XYZ.dot]) (by linarith) (le_refl _)
    (by intro j hj; interval_cases j <;> norm_num [revProfile, nth])
    (by
      intro j hj
      interval_cases j
      · left
        simp only [revProfile, nth, List.getElem?_cons_zero, Option.getD_some]
        rw [XYZW.toXYZ_eq (by norm_num)]
        ext <;> norm_num [radial, XYZW.raw, XYZ.dot]
      · right
        simp only [revProfile, nth, List.getElem?_cons_succ, List.getElem?_cons_zero, Option.getD_some]
        rw [XYZW.toXYZ_eq (by norm_num)]
        norm_num [radial, XYZW.raw, XYZ.dot])
  exact ⟨s, N, e1, e2⟩

/-! ### Refutations -/

/-- the run of one column when one segment is enough -/
theorem revColumn_one {axis p O X : XYZ ℝ} {c s wm : ℝ} {j : ℕ} {cps : List (List (XYZW ℝ))} {q : CurveCurve × ℝ × ℝ × XYZ ℝ} (hj : j < 2)
    (hmat : IsMat cps 3 2) (hO : pointToRay ⟨0, 0, 0⟩ axis p = ok O) (hX : p - O = X) (hne : X ≠ 0)
    (hq : computeRays p (axis.cross X) (O + c • X + s • axis.cross X) ((-s) • X + c • axis.cross X) (0, 0, 0) = ok q) :
    ∃ r, revColumn ⟨0, 0, 0⟩ axis [0, c] [0, s] wm 1 j (XYZW.ofXYZ p 1) cps = ok r ∧ (q.1 ≠ .intersecting → r = none) ∧
      (q.1 = .intersecting → ∃ cps', r = some cps' ∧ IsMat cps' 3 2 ∧ ent cps' 2 j = XYZW.ofXYZ (O + c • X + s • axis.cross X) 1 ∧
        ∀ a b, b ≠ j → ent cps' a b = ent cps a b) := by
  have hgt : isGreaterThan (1 : ℝ) 0 = true := by
    unfold isGreaterThan tolOf doubleEps
    exact decide_eq_true (by norm_num)
  have hw1 : (XYZW.ofXYZ p 1).w = 1 := rfl
  unfold revColumn
  rw [C56_roundtrip_partial (by norm_num)]
  dsimp only
  rw [hO, ok_bind, hX, ((C29_normalize X).1 hne).1, if_pos hgt, if_pos hgt, vdiv_ok one_ne_zero, vdiv_ok one_ne_zero, inv_one, one_smul, one_smul, ok_bind, ok_bind, hw1]
  obtain ⟨m1, r1, M1, E1⟩ := mset_ok hmat (i := 0) (j := (j : ℤ)) (a := 0) (b := j) (x := XYZW.ofXYZ p 1) rfl rfl (by omega) hj
  rw [r1, ok_bind, show (1 : ℤ) + 1 = 2 by norm_num, forI_head (by norm_num : (1 : ℤ) < 2), show (1 : ℤ) + 1 = 2 by norm_num]
  obtain ⟨m2, r2, M2, E2⟩ := mset_ok M1 (i := 0 + 2) (j := (j : ℤ)) (a := 2) (b := j) (x := XYZW.ofXYZ (O + c • X + s • axis.cross X) 1) rfl rfl (by omega) hj
  obtain ⟨m3, r3, M3, E3⟩ := mset_ok M2 (i := 0 + 1) (j := (j : ℤ)) (a := 1) (b := j) (x := XYZW.ofXYZ q.2.2.2 (wm * 1)) rfl rfl (by omega) hj
  have hstep : revStep O X (axis.cross X) 1 [0, c] [0, s] wm 1 1 j 1 (some ⟨m1, 0, p, axis.cross X⟩)
      = if q.1 = .intersecting then ok (some ⟨m3, 0 + 2, p, axis.cross X⟩) else ok none := by
    unfold revStep revRound
    dsimp only
    rw [vget_nth (i := 1) (k := 1) rfl (by simp), ok_bind, vget_nth (i := 1) (k := 1) rfl (by simp), ok_bind]
    have hnz : ¬ isAlmostEqualTo (1 : ℝ) 0 = true := by rw [isAlmostZero_iff]; norm_num
    simp only [if_neg hnz]
    rw [show nth [0, c] 1 = c from rfl, show nth [0, s] 1 = s from rfl, one_mul, one_mul, r2, ok_bind, hq, ok_bind]
    split
    · rw [r3, ok_bind, if_neg (by norm_num)]
    · rfl
  rw [hstep]
  by_cases hi : q.1 = .intersecting
  · rw [if_pos hi, ok_bind, forI_empty (le_refl _), ok_bind]
    refine ⟨_, rfl, fun h => absurd hi h, fun _ => ⟨m3, rfl, M3, ?_, fun a b hb => ?_⟩⟩
    · rw [E3, if_neg (by omega), E2, if_pos ⟨rfl, rfl⟩]
    · rw [E3, if_neg (by tauto), E2, if_neg (by tauto), E1, if_neg (by tauto)]
  · rw [if_neg hi, ok_bind, forI_empty (le_refl _), ok_bind]
    exact ⟨_, rfl, fun _ => rfl, fun h => absurd h hi⟩

/-- a vertical line at the distance `d` from the Z axis -/
noncomputable def verticalLine (d : ℝ) : NurbsCurve ℝ := ⟨1, [0, 0, 1, 1], [XYZW.ofXYZ ⟨d, 0, 0⟩ 1, XYZW.ofXYZ ⟨d, 0, 1⟩ 1]⟩

/-- the run of `CreateRevolvedSurface` for a vertical line turned by the angle `π/3` about a vertical axis -/
theorem revolve_line {h d : ℝ} {axis : XYZ ℝ} (ha : axis = ⟨0, 0, h⟩) (hh : 1 ≤ h) (hd : 0 < d) {q : ℝ → CurveCurve × ℝ × ℝ × XYZ ℝ}
    (hq : ∀ z : ℝ, computeRays ⟨d, 0, z⟩ ⟨0, h * d, 0⟩ ⟨d * Real.cos (Real.pi / 3), h * d * Real.sin (Real.pi / 3), z⟩
      ⟨-(d * Real.sin (Real.pi / 3)), h * d * Real.cos (Real.pi / 3), 0⟩ (0, 0, 0) = ok (q z)) :
    ((q 0).1 ≠ .intersecting → createRevolvedSurface ⟨0, 0, 0⟩ axis (Real.pi / 3) (verticalLine d) = ok none) ∧
    ((q 0).1 = .intersecting → (q 1).1 = .intersecting → ∃ cps, createRevolvedSurface ⟨0, 0, 0⟩ axis (Real.pi / 3) (verticalLine d) =
      ok (some ⟨2, 1, [0, 0, 0, 1, 1, 1], [0, 0, 1, 1], cps⟩) ∧ IsMat cps 3 2 ∧
      ent cps 2 0 = XYZW.ofXYZ ⟨d * Real.cos (Real.pi / 3), h * d * Real.sin (Real.pi / 3), 0⟩ 1) := by
  have hpi := Real.pi_gt_three
  have hpi' := Real.pi_lt_d2
  have hbd1 := constPi_bounds.1
  obtain ⟨C, hC⟩ : ∃ C, Real.cos (Real.pi / 3) = C := ⟨_, rfl⟩
  obtain ⟨S, hS⟩ : ∃ S, Real.sin (Real.pi / 3) = S := ⟨_, rfl⟩
  rw [hC, hS] at hq ⊢
  have hcount : arcCount (Real.pi / 3) = 1 := by
    unfold arcCount isLessThanOrEqual
    rw [if_pos]
    have := tolOf_pos (a := Real.pi / 3) (b := constPi / 2) (doubleEps_pos (K := ℝ))
    exact decide_eq_true (by linarith)
  have hz : axis.isZero = false := by
    rw [ha]
    simp only [XYZ.isZero, XYZ.sqrLength, doubleEps]
    exact decide_eq_false (by nlinarith)
  have hk1 : arcKnots 1 (List.replicate (2 * (1 : ℤ) + 3 + 1).toNat (0 : ℝ)) = ok [0, 0, 0, 0, 0, 0] := rfl
  have hk2 : (forI 0 3 ([0, 0, 0, 0, 0, 0] : List ℝ) fun i k => do
      let k ← vset k i (0 : ℝ)
      vset k (3 + 2 * ((1 : ℤ) - 1) + i) (1 : ℝ)) = ok [0, 0, 0, 1, 1, 1] := by simp [forI, loopUp, vset]
  have hang : (forI 1 ((1 : ℤ) + 1) (⟨0, List.replicate ((1 : ℤ) + 1).toNat 0, List.replicate ((1 : ℤ) + 1).toNat 0⟩ : AngleState) fun i a => do
      let angle := a.angle + Real.pi / 3
      let cosines ← vset a.cosines i (Real.cos angle)
      let sines ← vset a.sines i (Real.sin angle)
      ok ⟨angle, cosines, sines⟩) = ok ⟨0 + Real.pi / 3, [0, C], [0, S]⟩ := by
    simp [forI, loopUp, vset, hC, hS]
  have hray : ∀ z : ℝ, pointToRay ⟨0, 0, 0⟩ axis ⟨d, 0, z⟩ = ok ⟨0, 0, z⟩ := by
    intro z
    unfold pointToRay
    dsimp only
    rw [ha, fdiv_ok (by simp [XYZ.dot]; linarith), ok_bind]
    congr 1
    ext <;> simp [XYZ.dot]
    field_simp
  have hX : ∀ z : ℝ, (⟨d, 0, z⟩ : XYZ ℝ) - ⟨0, 0, z⟩ = ⟨d, 0, 0⟩ := by intro z; ext <;> simp
  have hX0 : (⟨d, 0, 0⟩ : XYZ ℝ) ≠ 0 := by
    intro e; have := congrArg XYZ.x e; simp at this; linarith
  have hcr : axis.cross ⟨d, 0, 0⟩ = ⟨0, h * d, 0⟩ := by rw [ha]; ext <;> simp [XYZ.cross]
  have hP2 : ∀ z : ℝ, (⟨0, 0, z⟩ : XYZ ℝ) + C • (⟨d, 0, 0⟩ : XYZ ℝ) + S • axis.cross ⟨d, 0, 0⟩ = ⟨d * C, h * d * S, z⟩ := by
    intro z; rw [hcr]; ext <;> simp <;> ring
  have hT2 : (-S) • (⟨d, 0, 0⟩ : XYZ ℝ) + C • axis.cross ⟨d, 0, 0⟩ = ⟨-(d * S), h * d * C, 0⟩ := by
    rw [hcr]; ext <;> simp <;> ring
  have hcol : ∀ (j : ℕ) (z : ℝ) (cps : List (List (XYZW ℝ))), j < 2 → IsMat cps 3 2 → _ := fun j z cps hj hm =>
    revColumn_one (c := C) (s := S) (wm := Real.cos (Real.pi / 3 / 2)) hj hm (hray z) (hX z) hX0 (by rw [hP2, hT2, hcr]; exact hq z)
  obtain ⟨r0, e0, n0, i0⟩ := hcol 0 0 (List.replicate 3 (List.replicate 2 0)) (by omega) isMat_replicate
  have hrun : ∀ {r}, (do
      let cps ← revColumnStep ⟨0, 0, 0⟩ axis [0, C] [0, S] (Real.cos (Real.pi / 3 / 2)) 1 1 (XYZW.ofXYZ ⟨d, 0, 1⟩ 1) r0
      ok (cps.map fun cps => (⟨2, 1, [0, 0, 0, 1, 1, 1], [0, 0, 1, 1], cps⟩ : NurbsSurface ℝ))) = r →
      createRevolvedSurface ⟨0, 0, 0⟩ axis (Real.pi / 3) (verticalLine d) = r := by
    intro r hr
    unfold createRevolvedSurface
    rw [hz, hcount]
    dsimp only
    rw [hk1, Int.cast_one, fdiv_ok one_ne_zero, div_one]
    simp only [Bool.not_false, validate_true, ok_bind]
    rw [hk2, ok_bind, hang, ok_bind]
    rw [show ((verticalLine d).cps.length : ℤ) - 1 + 1 = 2 by simp [verticalLine], forI_head (by norm_num : (0 : ℤ) < 2), show (0 : ℤ) + 1 = 1 by norm_num]
    rw [vget_nth (i := 0) (k := 0) rfl (by simp [verticalLine]), ok_bind]
    have h0 : revColumnStep ⟨0, 0, 0⟩ axis [0, C] [0, S] (Real.cos (Real.pi / 3 / 2)) 1 0 (nth (verticalLine d).cps 0)
      (some (List.replicate (2 * (1 : ℤ) + 1).toNat (List.replicate (2 : ℤ).toNat 0))) = ok r0 := e0
    rw [h0, ok_bind, forI_head (by norm_num : (1 : ℤ) < 2), show (1 : ℤ) + 1 = 2 by norm_num,
      vget_nth (i := 1) (k := 1) rfl (by simp [verticalLine]), ok_bind, bind_assoc', ← hr]
    simp only [forI_empty (le_refl (2 : ℤ)), ok_bind]
    rfl
  constructor
  · intro hne
    rw [n0 hne] at hrun
    exact hrun rfl
  · intro hi0 hi1
    obtain ⟨c0, rfl, M0, E0, -⟩ := i0 hi0
    obtain ⟨r1, e1, -, i1⟩ := hcol 1 1 c0 (by omega) M0
    obtain ⟨c1, rfl, M1, E1, O1⟩ := i1 hi1
    refine ⟨c1, hrun ?_, M1, ?_⟩
    · have h1 : revColumnStep ⟨0, 0, 0⟩ axis [0, C] [0, S] (Real.cos (Real.pi / 3 / 2)) 1 1 (XYZW.ofXYZ ⟨d, 0, 1⟩ 1) (some c0) = ok (some c1) := e1
      rw [h1]; rfl
    · rw [O1 2 0 (by omega), E0, hP2]

theorem sorted_0011 : ∀ i j, i ≤ j → j < ([0, 0, 1, 1] : List ℝ).length → nth ([0, 0, 1, 1] : List ℝ) i ≤ nth ([0, 0, 1, 1] : List ℝ) j := by
  intro i j hij hj
  have hj' : j < 4 := hj
  interval_cases j <;> interval_cases i <;> simp [nth]

/-- C88 is violated for an axis that is not of unit length: turning the vertical line at the distance 1 about the axis `(0, 0, 2)` succeeds,
but the surface contains points that are not at the distance 1 from the axis. -/
theorem C88_axis_violated : ∃ (s : NurbsSurface ℝ) (x : XYZ ℝ), createRevolvedSurface ⟨0, 0, 0⟩ ⟨0, 0, 2⟩ (Real.pi / 3) (verticalLine 1) = ok (some s) ∧
    NurbsSurface.pointOnSurface s 1 0 = ok x ∧ x.x ^ 2 + x.y ^ 2 ≠ 1 := by
  have h3 : Real.sqrt 3 ^ 2 = 3 := Real.sq_sqrt (by norm_num)
  have h3p : 0 < Real.sqrt 3 := Real.sqrt_pos.mpr (by norm_num)
  have hq : ∀ z : ℝ, computeRays ⟨1, 0, z⟩ ⟨0, 2 * 1, 0⟩ ⟨1 * Real.cos (Real.pi / 3), 2 * 1 * Real.sin (Real.pi / 3), z⟩
      ⟨-(1 * Real.sin (Real.pi / 3)), 2 * 1 * Real.cos (Real.pi / 3), 0⟩ (0, 0, 0) =
      ok (.intersecting, Real.sqrt 3 / 3, -(Real.sqrt 3 / 3), ⟨1, 0, z⟩ + (Real.sqrt 3 / 3) • ⟨0, 2 * 1, 0⟩) := by
    intro z
    rw [Real.cos_pi_div_three, Real.sin_pi_div_three]
    obtain ⟨t, ht⟩ : ∃ t, Real.sqrt 3 = t := ⟨_, rfl⟩
    rw [ht] at h3 h3p ⊢
    refine C27_rays_complete ?_ ?_ ?_ ?_ ?_
    · ext <;> simp
      · linear_combination (-1 / 6) * h3
      · ring
    · simp only [XYZ.cross, XYZ.sqrLength]
      ring_nf
      rw [h3]; norm_num
    · have : isAlmostEqualTo (0 : ℝ) (-(1 * (t / 2))) = false := by
        unfold isAlmostEqualTo tolOf doubleEps
        apply decide_eq_false
        rw [one_mul, sub_neg_eq_add, zero_add, abs_neg, abs_zero, abs_of_pos (by linarith), max_eq_right (by linarith)]
        nlinarith
      simp only [XYZ.almostEq]; rw [this]; simp
    · simp only [XYZ.isZero, XYZ.sqrLength, doubleEps]; norm_num
    · simp only [XYZ.isZero, XYZ.sqrLength, doubleEps]
      exact decide_eq_false (by nlinarith)
  obtain ⟨cps, hrun, hmat, h20⟩ := (revolve_line (h := 2) (d := 1) rfl (by norm_num) one_pos hq).2 rfl rfl
  refine ⟨_, ⟨1 * Real.cos (Real.pi / 3), 2 * 1 * Real.sin (Real.pi / 3), 0⟩, hrun, ?_, ?_⟩
  · have wf : WellFormedS (⟨2, 1, [0, 0, 0, 1, 1, 1], [0, 0, 1, 1], cps⟩ : NurbsSurface ℝ) 2 1 2 1 :=
      { degreeU := rfl, degreeV := rfl, posU := by omega, posV := by omega, le7U := by omega, le7V := by omega, cps := hmat,
        pn := by omega, qm := by omega, knotsU := rfl, knotsV := rfl
        sortedU := (chain_dir (m := 1) one_pos (by omega) rfl chainKnots_one).2.2.2, sortedV := sorted_0011 }
    refine evalS_ofXYZ (W := 1) wf ⟨(chain_dir (m := 1) one_pos (by omega) rfl chainKnots_one).1, ?_⟩ ⟨?_, ?_, ?_, ?_⟩ ?_ (by norm_num)
    · exact ⟨by norm_num [nth, isLessThan, isLessThanOrEqual, tolOf, doubleEps], by norm_num [nth, isLessThan, isLessThanOrEqual, tolOf, doubleEps]⟩
    · norm_num [nth]
    · norm_num [nth]
    · norm_num [nth]
    · norm_num [nth]
    · rw [surfacePoint_eq', ← h20]
      simp only [curvePoint, sum_range_succ, sum_range_zero, N, nth]
      norm_num
  · rw [Real.cos_pi_div_three, Real.sin_pi_div_three]
    dsimp only
    nlinarith

/-- C88 is violated close to the axis: a vertical line at the distance `1/100` from the axis is not turned by `π/3`. -/
theorem C88_near_violated : createRevolvedSurface ⟨0, 0, 0⟩ ⟨0, 0, 1⟩ (Real.pi / 3) (verticalLine (1 / 100)) = ok none := by
  have h3 : Real.sqrt 3 ^ 2 = 3 := Real.sq_sqrt (by norm_num)
  have h3p : 0 < Real.sqrt 3 := Real.sqrt_pos.mpr (by norm_num)
  have hq : ∀ z : ℝ, ∃ q, computeRays ⟨1 / 100, 0, z⟩ ⟨0, 1 * (1 / 100), 0⟩ ⟨1 / 100 * Real.cos (Real.pi / 3), 1 * (1 / 100) * Real.sin (Real.pi / 3), z⟩
      ⟨-(1 / 100 * Real.sin (Real.pi / 3)), 1 * (1 / 100) * Real.cos (Real.pi / 3), 0⟩ (0, 0, 0) = ok q ∧ q.1 ≠ .intersecting := by
    intro z
    rw [Real.cos_pi_div_three, Real.sin_pi_div_three]
    obtain ⟨t, ht⟩ : ∃ t, Real.sqrt 3 = t := ⟨_, rfl⟩
    rw [ht] at h3 h3p ⊢
    have ht1 : 1 < t := by nlinarith
    have hne : (⟨0, 1 * (1 / 100), 0⟩ : XYZ ℝ).almostEq ⟨-(1 / 100 * (t / 2)), 1 * (1 / 100) * (1 / 2), 0⟩ = false := by
      have : isAlmostEqualTo (0 : ℝ) (-(1 / 100 * (t / 2))) = false := by
        unfold isAlmostEqualTo tolOf doubleEps
        apply decide_eq_false
        rw [sub_neg_eq_add, zero_add, abs_neg, abs_zero, abs_of_pos (by linarith), max_eq_right (by linarith)]
        linarith
      simp only [XYZ.almostEq]; rw [this]; simp
    have hz0 : (⟨0, 1 * (1 / 100), 0⟩ : XYZ ℝ).isZero = false := by
      simp only [XYZ.isZero, XYZ.sqrLength, doubleEps]; norm_num
    have hz1 : (⟨-(1 / 100 * (t / 2)), 1 * (1 / 100) * (1 / 2), 0⟩ : XYZ ℝ).isZero = false := by
      simp only [XYZ.isZero, XYZ.sqrLength, doubleEps]
      exact decide_eq_false (by nlinarith)
    unfold computeRays
    rw [hne, Bool.false_and, if_neg (by simp), hz0, hz1]
    simp only [Bool.not_false, validate_true, ok_bind]
    rw [if_pos]
    · split
      · exact ⟨_, rfl, by simp⟩
      · exact ⟨_, rfl, by simp⟩
    · rw [isAlmostZero_iff, abs_abs]
      simp only [XYZ.dot]
      ring_nf
      rw [h3]; norm_num
  choose q hq hne using hq
  exact (revolve_line (h := 1) (d := 1 / 100) rfl (le_refl _) (by norm_num) hq).1 (hne 0)

end LNLib.Props
