import Verif.Model.SurfaceArc
import Verif.Props.Arc
import Verif.Props.Surface

/-!
# C87: `NurbsSurface::CreateCylindricalSurface` is the cylinder it is asked for
-/

namespace LNLib.Props
open LNLib Res Spec Finset

theorem arcPoint_shift (O X Y t : XYZ ℝ) (r θ : ℝ) : t + arcPoint O X Y r r θ = arcPoint (O + t) X Y r r θ := by
  ext <;> simp only [arcPoint, XYZ.add_x, XYZ.add_y, XYZ.add_z, XYZ.smul_x, XYZ.smul_y, XYZ.smul_z] <;> ring

theorem arcCorner_shift (O X Y t : XYZ ℝ) (r δ a : ℝ) : t + arcCorner O X Y r δ a = arcCorner (O + t) X Y r δ a := by
  ext <;> simp only [arcCorner, XYZ.add_x, XYZ.add_y, XYZ.add_z, XYZ.smul_x, XYZ.smul_y, XYZ.smul_z] <;> ring

/-- moving the points of an arc polygon, as the code does -/
theorem ArcPolygon_shift {P Q : ℕ → XYZW ℝ} {O X Y t : XYZ ℝ} {r α δ : ℝ} {m : ℕ} (h : ArcPolygon P O X Y r α δ 1 m) (hc : 1 / 2 ≤ Real.cos (δ / 2))
    (hQ : ∀ i, i ≤ 2 * m → Q i = XYZW.ofXYZ (t + (P i).toXYZ) (P i).w) : ArcPolygon Q (O + t) X Y r α δ 1 m := by
  refine ⟨fun k hk => ?_, fun k hk => ?_⟩
  · rw [hQ _ (by omega), h.even k hk, C56_roundtrip_partial (by norm_num), arcPoint_shift]; rfl
  · rw [hQ _ (by omega), h.odd k hk, C56_roundtrip_partial (by rw [one_mul, abs_of_pos (by linarith)]; linarith), arcCorner_shift]; rfl

/-- the triple end knots of a single quadratic segment -/
theorem chainKnots_one : ChainKnots (nth ([0, 0, 0, 1, 1, 1] : List ℝ)) 1 :=
  ⟨rfl, fun k hk => by interval_cases k <;> norm_num [nth], fun k hk => by interval_cases k <;> norm_num [nth], by norm_num [nth]⟩

/-- a chain of quadratic segments in one direction of a surface -/
theorem chain_dir {m : ℕ} {U : List ℝ} (hm : 0 < m) (hm4 : m ≤ 1000) (hk : U.length = 2 * m + 4) (hU : ChainKnots (nth U) m) :
    EndsSeparated (nth U) 2 (2 * m) ∧ nth U 2 = 0 ∧ nth U (2 * m + 1) = 1 ∧ ∀ i j, i ≤ j → j < U.length → nth U i ≤ nth U j := by
  obtain ⟨wf, he, e0, e1⟩ := arc_wf (c := ⟨2, U, List.replicate (2 * m + 1) 0⟩) hm rfl hk (by simp) hU hm4
  exact ⟨he, e0, e1, wf.sorted⟩

/-- a surface whose homogeneous point is a multiple of the point evaluates to the point -/
theorem evalS_ofXYZ {c : NurbsSurface ℝ} {p q n m : ℕ} {u v W : ℝ} {x : XYZ ℝ} (w : WellFormedS c p q n m) (he : EndsSeparatedS c p q n m)
    (hd : InDomain c p q n m u v) (hp : surfacePoint (nth c.knotsU) (nth c.knotsV) p q n m (ent c.cps) u v = XYZW.ofXYZ x W)
    (hW : 1 / 1000000 * (1 + |W|) < |W|) : NurbsSurface.pointOnSurface c u v = ok x := by
  unfold NurbsSurface.pointOnSurface
  rw [C33_eval w he hd, ok_bind, hp, C56_roundtrip_partial hW]

/-- C87 (partial: angles of at least `1/100`): for perpendicular axes of any length `CreateCylindricalSurface` succeeds, and the
surface it makes is the cylinder over the circular arc: the V direction runs along the arc from the start to the end angle
and covers it, the U direction goes straight from the height `height` down to the plane of the arc. -/
theorem C87_cylinder_partial {origin ex ey : XYZ ℝ} {a b startRad endRad r height : ℝ} (ha : 1 / 1000000 < a) (hb : 1 / 1000000 < b)
    (hX : ex.dot ex = 1) (hY : ey.dot ey = 1) (hXY : ex.dot ey = 0) (hr : 1 / 1000000 * (1 + |r|) < r) (hh : 1 / 1000000 * (1 + |height|) < height)
    (hlt : 1 / 1000000 * (1 + max |endRad| |startRad|) < endRad - startRad) (hmin : 1 / 100 ≤ endRad - startRad)
    (hmax : endRad - startRad ≤ 2 * Real.pi) :
    ∃ (s : NurbsSurface ℝ) (n : ℕ), createCylindricalSurface origin (a • ex) (b • ey) startRad endRad r height = ok (some s) ∧
      WellFormedS s 2 2 2 n ∧ (∀ u v, InDomain s 2 2 2 n u v ↔ 0 ≤ u ∧ u ≤ 1 ∧ 0 ≤ v ∧ v ≤ 1) ∧
      (∀ v, 0 ≤ v → v ≤ 1 → ∃ θ, startRad ≤ θ ∧ θ ≤ endRad ∧ (v = 0 → θ = startRad) ∧ (v = 1 → θ = endRad) ∧ ∀ u, 0 ≤ u → u ≤ 1 →
        NurbsSurface.pointOnSurface s u v = ok (origin + r • (Real.cos θ • ex + Real.sin θ • ey) + ((1 - u) * height) • ex.cross ey)) ∧
      (∀ θ, startRad ≤ θ → θ ≤ endRad → ∃ v, 0 ≤ v ∧ v ≤ 1 ∧ ∀ u, 0 ≤ u → u ≤ 1 →
        NurbsSurface.pointOnSurface s u v = ok (origin + r • (Real.cos θ • ex + Real.sin θ • ey) + ((1 - u) * height) • ex.cross ey)) := by
  obtain ⟨m, c, hrun, hm0, hm4, hd, hk, hl, hU, hδ0, hδ1, hδ2, hP⟩ := createArc_run (O := origin) (a := 1) (b := 1) (by norm_num) (by norm_num) hX hY hXY hr hlt hmin hmax
  rw [one_smul, one_smul] at hrun
  have hm' : (m : ℝ) ≠ 0 := by positivity
  have hend : startRad + m * ((endRad - startRad) / m) = endRad := by field_simp; ring
  have hc : 1 / 2 ≤ Real.cos ((endRad - startRad) / m / 2) := by
    have := Real.one_sub_sq_div_two_le_cos (x := (endRad - startRad) / m / 2)
    nlinarith
  have hgt : ∀ r : ℝ, 1 / 1000000 * (1 + |r|) < r → isGreaterThan r 0 = true := by
    intro r hr
    unfold isGreaterThan tolOf doubleEps
    rw [abs_zero, sub_zero, max_eq_left (abs_nonneg r)]; exact decide_eq_true hr
  have hβ : isGreaterThan endRad startRad = true := by unfold isGreaterThan tolOf doubleEps; exact decide_eq_true hlt
  set T : ℕ → XYZ ℝ := fun i => if i = 0 then height • ex.cross ey else if i = 1 then (0.5 * height) • ex.cross ey else 0 with hT
  have hloop : Runs (forI 0 (c.cps.length : ℤ) (List.replicate 3 (List.replicate c.cps.length (0 : XYZW ℝ))) fun i cps => do
      let a ← vget c.cps i
      let cps ← mset cps 2 i (XYZW.ofXYZ a.toXYZ a.w)
      let cps ← mset cps 1 i (XYZW.ofXYZ ((0.5 * height : ℝ) • ex.cross ey + a.toXYZ) a.w)
      mset cps 0 i (XYZW.ofXYZ (height • ex.cross ey + a.toXYZ) a.w))
      (fun cps => IsMat cps 3 c.cps.length ∧ ∀ i < 3, ∀ j < c.cps.length, ent cps i j = XYZW.ofXYZ (T i + (nth c.cps j).toXYZ) (nth c.cps j).w) := by
    refine Runs.forN (m := 0) (n := c.cps.length) (fun k cps => IsMat cps 3 c.cps.length ∧ ∀ i < 3, ∀ j < k, ent cps i j
      = XYZW.ofXYZ (T i + (nth c.cps j).toXYZ) (nth c.cps j).w) rfl rfl (by omega) ⟨isMat_replicate, fun i _ j hj => absurd hj (by omega)⟩ ?_
    rintro j cps - hj ⟨hmat, hent⟩
    rw [vget_nth rfl hj, ok_bind]
    obtain ⟨m1, r1, M1, E1⟩ := mset_ok hmat (i := 2) (j := (j : ℤ)) (a := 2) (b := j) (x := XYZW.ofXYZ (nth c.cps j).toXYZ (nth c.cps j).w) rfl rfl (by omega) hj
    obtain ⟨m2, r2, M2, E2⟩ := mset_ok M1 (i := 1) (j := (j : ℤ)) (a := 1) (b := j) (x := XYZW.ofXYZ ((0.5 * height : ℝ) • ex.cross ey + (nth c.cps j).toXYZ) (nth c.cps j).w) rfl rfl (by omega) hj
    obtain ⟨m3, r3, M3, E3⟩ := mset_ok M2 (i := 0) (j := (j : ℤ)) (a := 0) (b := j) (x := XYZW.ofXYZ (height • ex.cross ey + (nth c.cps j).toXYZ) (nth c.cps j).w) rfl rfl (by omega) hj
    rw [r1, ok_bind, r2, ok_bind, r3]
    refine Runs.ok ⟨M3, fun i hi j' hj' => ?_⟩
    rw [E3, E2, E1]
    by_cases e : j' = j
    · subst e
      interval_cases i
      · simp [hT]
      · simp [hT]
      · simp [hT]
    · rw [if_neg (by tauto), if_neg (by tauto), if_neg (by tauto), hent i hi j' (by omega)]
  obtain ⟨cps, hcps, hmat, hent⟩ := hloop
  obtain ⟨heV, v0, v1, hsV⟩ := chain_dir hm0 (by omega) hk hU
  obtain ⟨heU, u0, u1, hsU⟩ := chain_dir (m := 1) (U := [0, 0, 0, 1, 1, 1]) one_pos (by omega) rfl chainKnots_one
  have wf : WellFormedS (⟨2, c.degree, [0, 0, 0, 1, 1, 1], c.knots, cps⟩ : NurbsSurface ℝ) 2 2 2 (2 * m) :=
    { degreeU := rfl, degreeV := hd, posU := by omega, posV := by omega, le7U := by omega, le7V := by omega, cps := by rw [← hl]; exact hmat,
      pn := by omega, qm := by omega, knotsU := rfl, knotsV := by rw [hk], sortedU := hsU, sortedV := hsV }
  have he : EndsSeparatedS (⟨2, c.degree, [0, 0, 0, 1, 1, 1], c.knots, cps⟩ : NurbsSurface ℝ) 2 2 2 (2 * m) := ⟨heU, heV⟩
  have hdom : ∀ u v, InDomain (⟨2, c.degree, [0, 0, 0, 1, 1, 1], c.knots, cps⟩ : NurbsSurface ℝ) 2 2 2 (2 * m) u v ↔ 0 ≤ u ∧ u ≤ 1 ∧ 0 ≤ v ∧ v ≤ 1 := by
    intro u v
    constructor
    · rintro ⟨a1, a2, a3, a4⟩
      dsimp only at a1 a2 a3 a4
      rw [u0] at a1; rw [u1] at a2; rw [v0] at a3; rw [v1] at a4
      exact ⟨a1, a2, a3, a4⟩
    · rintro ⟨a1, a2, a3, a4⟩
      refine ⟨?_, ?_, ?_, ?_⟩ <;> dsimp only
      · rw [u0]; exact a1
      · rw [u1]; exact a2
      · rw [v0]; exact a3
      · rw [v1]; exact a4
  have hrow : ∀ i < 3, ArcPolygon (ent cps i) (origin + T i) ex ey r startRad ((endRad - startRad) / m) 1 m := by
    intro i hi
    exact ArcPolygon_shift hP hc fun j hj => hent i hi j (by omega)
  have hpoint : ∀ θ v W : ℝ, 0 ≤ v → v ≤ 1 → 1 / 2 ≤ W → (∀ (U : ℕ → ℝ) (P : ℕ → XYZW ℝ) (O X Y : XYZ ℝ) (r w : ℝ), ChainKnots U m →
      ArcPolygon P O X Y r startRad ((endRad - startRad) / m) w m → curvePoint U 2 (2 * m) P v = XYZW.ofXYZ (arcPoint O X Y r r θ) (w * W)) →
      ∀ u, 0 ≤ u → u ≤ 1 → NurbsSurface.pointOnSurface (⟨2, c.degree, [0, 0, 0, 1, 1, 1], c.knots, cps⟩ : NurbsSurface ℝ) u v
        = ok (origin + r • (Real.cos θ • ex + Real.sin θ • ey) + ((1 - u) * height) • ex.cross ey) := by
    intro θ v W hv0 hv1 hW h u hu0 hu1
    refine evalS_ofXYZ (W := W) wf he ((hdom u v).mpr ⟨hu0, hu1, hv0, hv1⟩) ?_ (by rw [abs_of_pos (by linarith)]; linarith)
    dsimp only
    rw [surfacePoint_eq, chainKnots_one.seg (k := 0) one_pos (by simpa using hu0) (by simpa using hu1)]
    rw [h _ _ _ _ _ _ _ hU (hrow (2 * 0) (by omega)), h _ _ _ _ _ _ _ hU (hrow (2 * 0 + 1) (by omega)), h _ _ _ _ _ _ _ hU (hrow (2 * 0 + 2) (by omega))]
    have t0 : T (2 * 0) = height • ex.cross ey := rfl
    have t1 : T (2 * 0 + 1) = (0.5 * height) • ex.cross ey := rfl
    have t2 : T (2 * 0 + 2) = 0 := rfl
    rw [t0, t1, t2]
    ext <;> simp only [bez2, XYZW.ofXYZ, arcPoint, XYZW.add_wx, XYZW.add_wy, XYZW.add_wz, XYZW.add_w, XYZW.smul_wx, XYZW.smul_wy, XYZW.smul_wz, XYZW.smul_w,
      XYZ.add_x, XYZ.add_y, XYZ.add_z, XYZ.smul_x, XYZ.smul_y, XYZ.smul_z, XYZ.zero_x, XYZ.zero_y, XYZ.zero_z, Nat.cast_one, Nat.cast_zero, mul_one, sub_zero] <;> ring
  refine ⟨⟨2, c.degree, [0, 0, 0, 1, 1, 1], c.knots, cps⟩, 2 * m, ?_, wf, hdom, ?_, ?_⟩
  · unfold createCylindricalSurface
    rw [isZero_smul_unit ha hX, isZero_smul_unit hb hY, hβ, hgt r hr, hgt height hh, normalize_unit (by linarith) hX, normalize_unit (by linarith) hY]
    dsimp only
    simp only [Bool.not_false, validate_true, ok_bind]
    rw [hrun, ok_bind]
    dsimp only
    rw [hcps, ok_bind]
  · intro v hv0 hv1
    obtain ⟨θ, W, t0, t1, hW, hz, ho, h⟩ := ArcPolygon.exists_angle m startRad hm0 hδ0 hδ1 hv0 hv1
    rw [hend] at t1 ho
    exact ⟨θ, t0, t1, hz, ho, hpoint θ v W hv0 hv1 hW h⟩
  · intro θ t0 t1
    obtain ⟨v, W, hv0, hv1, hW, h⟩ := ArcPolygon.exists_param m startRad hm0 hδ0 hδ1 t0 (by rw [hend]; exact t1)
    exact ⟨v, hv0, hv1, hpoint θ v W hv0 hv1 hW h⟩

/-- the hypotheses of `C87_cylinder_partial` hold for a full cylinder -/
example : ∃ (s : NurbsSurface ℝ) (n : ℕ), createCylindricalSurface ⟨1, 2, 3⟩ ((2 : ℝ) • ⟨1, 0, 0⟩) ((3 : ℝ) • ⟨0, 1, 0⟩) 0 (2 * Real.pi) 2 5 = ok (some s) ∧
    WellFormedS s 2 2 2 n := by
  have h1 := Real.pi_gt_three
  have h2 := Real.pi_lt_d2
  obtain ⟨s, n, h1, h2, -⟩ := C87_cylinder_partial (origin := ⟨1, 2, 3⟩) (ex := ⟨1, 0, 0⟩) (ey := ⟨0, 1, 0⟩) (a := 2) (b := 3) (startRad := 0)
    (endRad := 2 * Real.pi) (r := 2) (height := 5) (by norm_num) (by norm_num) (by norm_num [XYZ.dot]) (by norm_num [XYZ.dot]) (by norm_num [XYZ.dot])
    (by norm_num) (by norm_num) (by rw [abs_zero, max_eq_left (abs_nonneg _), abs_of_pos (by linarith)]; linarith) (by linarith) (by linarith)
  exact ⟨s, n, h1, h2⟩

end LNLib.Props
