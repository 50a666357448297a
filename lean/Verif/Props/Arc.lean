import Verif.Lemmas.ArcRun
import Verif.Props.Curve

/-!
# C86: `NurbsCurve::CreateArc` traces the circular arc it is asked for
-/

namespace LNLib.Props
open LNLib Res Spec Finset

/-- the data of a run of `CreateArc` make a well-formed curve over `[0, 1]` -/
theorem arc_wf {c : NurbsCurve ℝ} {m : ℕ} (hm : 0 < m) (hd : c.degree = 2) (hk : c.knots.length = 2 * m + 4) (hl : c.cps.length = 2 * m + 1)
    (hU : ChainKnots (nth c.knots) m) (hm4 : m ≤ 1000) :
    WellFormed c 2 (2 * m) ∧ EndsSeparated (nth c.knots) 2 (2 * m) ∧ nth c.knots 2 = 0 ∧ nth c.knots (2 * m + 1) = 1 := by
  have hm' : (0 : ℝ) < m := by positivity
  have hm1 : (1 : ℝ) ≤ m := by exact_mod_cast hm
  have hm2 : (m : ℝ) ≤ 1000 := by exact_mod_cast hm4
  have e2 : nth c.knots 2 = 0 := by have := hU.two 0 (by omega); simpa using this
  have e3 : nth c.knots 3 = 1 / m := by have := hU.one 1 (by omega); simpa using this
  have e1 : nth c.knots (2 * m + 1) = 1 := by rw [hU.one m le_rfl, div_self hm'.ne']
  have e4 : nth c.knots (2 * m) = 1 - 1 / m := by
    have := hU.two (m - 1) (by omega)
    rw [show 2 * (m - 1) + 2 = 2 * m by omega] at this
    rw [this, Nat.cast_sub (by omega), Nat.cast_one]; field_simp
  have hq : 1 / 1000 ≤ 1 / (m : ℝ) := by rw [div_le_div_iff₀ (by norm_num) hm']; linarith
  have hq1 : 1 / (m : ℝ) ≤ 1 := by rw [div_le_one hm']; exact hm1
  refine ⟨⟨by rw [hd]; rfl, by omega, by omega, by omega, by omega, by omega, fun i j h1 h2 => hU.mono hm i j h1 (by omega)⟩, ⟨?_, ?_⟩, e2, e1⟩
  · rw [e2, e3, abs_zero, max_eq_right (abs_nonneg _), abs_of_nonneg (by linarith)]; linarith
  · rw [e1, e4, abs_one, max_eq_right (by rw [abs_of_nonneg (by linarith)]; linarith)]; linarith

/-- a curve whose homogeneous point is a positive multiple of the point evaluates to the point -/
theorem eval_ofXYZ {c : NurbsCurve ℝ} {p n : ℕ} {t W : ℝ} {q : XYZ ℝ} (w : WellFormed c p n) (he : EndsSeparated (nth c.knots) p n)
    (h0 : nth c.knots p ≤ t) (h1 : t ≤ nth c.knots (n + 1)) (hp : curvePoint (nth c.knots) p n (nth c.cps) t = XYZW.ofXYZ q W) (hW : 1 / 2 ≤ W) :
    NurbsCurve.pointOnCurve c t = ok q := by
  unfold NurbsCurve.pointOnCurve
  rw [C05_eval w he h0 h1, ok_bind, hp, C56_roundtrip_partial (by rw [abs_of_pos (by linarith)]; linarith)]

/-- C86 for circles: for perpendicular axes of any length, equal radii and an angle between `1/100` and a full
turn, `CreateArc` succeeds, and the curve it makes runs over `[0, 1]`, starts at the start angle, ends at the
end angle, stays on the arc, and covers the whole arc.  The full property asks for the elliptical arc for
different radii, and for every angle the library's comparison distinguishes from zero; see the two refutations below. -/
theorem C86_arc_partial {center ex ey : XYZ ℝ} {a b startRad endRad r : ℝ} (ha : 1 / 1000000 < a) (hb : 1 / 1000000 < b)
    (hX : ex.dot ex = 1) (hY : ey.dot ey = 1) (hXY : ex.dot ey = 0) (hr : 1 / 1000000 * (1 + |r|) < r)
    (hlt : 1 / 1000000 * (1 + max |endRad| |startRad|) < endRad - startRad) (hmin : 1 / 100 ≤ endRad - startRad)
    (hmax : endRad - startRad ≤ 2 * Real.pi) :
    ∃ (c : NurbsCurve ℝ) (n : ℕ), createArc center (a • ex) (b • ey) startRad endRad r r = ok (some c) ∧
      WellFormed c 2 n ∧ nth c.knots 2 = 0 ∧ nth c.knots (n + 1) = 1 ∧
      NurbsCurve.pointOnCurve c 0 = ok (center + r • (Real.cos startRad • ex + Real.sin startRad • ey)) ∧
      NurbsCurve.pointOnCurve c 1 = ok (center + r • (Real.cos endRad • ex + Real.sin endRad • ey)) ∧
      (∀ u, 0 ≤ u → u ≤ 1 → ∃ θ, startRad ≤ θ ∧ θ ≤ endRad ∧
        NurbsCurve.pointOnCurve c u = ok (center + r • (Real.cos θ • ex + Real.sin θ • ey))) ∧
      (∀ θ, startRad ≤ θ → θ ≤ endRad → ∃ u, 0 ≤ u ∧ u ≤ 1 ∧
        NurbsCurve.pointOnCurve c u = ok (center + r • (Real.cos θ • ex + Real.sin θ • ey))) := by
  obtain ⟨m, c, hrun, hm0, hm4, hd, hk, hl, hU, hδ0, hδ1, -, hP⟩ := createArc_run (O := center) ha hb hX hY hXY hr hlt hmin hmax
  obtain ⟨wf, he, e0, e1⟩ := arc_wf hm0 hd hk hl hU (by omega)
  have hm' : (m : ℝ) ≠ 0 := by positivity
  have hend : startRad + m * ((endRad - startRad) / m) = endRad := by field_simp; ring
  have hpt : ∀ θ, arcPoint center ex ey r r θ = center + r • (Real.cos θ • ex + Real.sin θ • ey) := by
    intro θ; ext <;> simp only [arcPoint, XYZ.add_x, XYZ.add_y, XYZ.add_z, XYZ.smul_x, XYZ.smul_y, XYZ.smul_z] <;> ring
  have hat : ∀ u, 0 ≤ u → u ≤ 1 → ∃ θ, startRad ≤ θ ∧ θ ≤ endRad ∧ (u = 0 → θ = startRad) ∧ (u = 1 → θ = endRad) ∧
        NurbsCurve.pointOnCurve c u = ok (center + r • (Real.cos θ • ex + Real.sin θ • ey)) := by
    intro u hu0 hu1
    obtain ⟨θ, W, t0, t1, hW, hz, ho, h⟩ := ArcPolygon.exists_angle m startRad hm0 hδ0 hδ1 hu0 hu1
    rw [hend] at t1 ho
    refine ⟨θ, t0, t1, hz, ho, ?_⟩
    rw [← hpt]
    have := h _ _ _ _ _ _ _ hU hP
    rw [one_mul] at this
    exact eval_ofXYZ wf he (by rw [e0]; exact hu0) (by rw [e1]; exact hu1) this hW
  refine ⟨c, 2 * m, hrun, wf, e0, e1, ?_, ?_, ?_, ?_⟩
  · obtain ⟨θ, -, -, hz, -, h⟩ := hat 0 le_rfl zero_le_one
    rw [h, hz rfl]
  · obtain ⟨θ, -, -, -, ho, h⟩ := hat 1 zero_le_one le_rfl
    rw [h, ho rfl]
  · intro u hu0 hu1
    obtain ⟨θ, t0, t1, -, -, h⟩ := hat u hu0 hu1
    exact ⟨θ, t0, t1, h⟩
  · intro θ t0 t1
    obtain ⟨u, W, u0, u1, hW, h⟩ := ArcPolygon.exists_param m startRad hm0 hδ0 hδ1 t0 (by rw [hend]; exact t1)
    have := h _ _ _ _ _ _ _ hU hP
    rw [one_mul] at this
    refine ⟨u, u0, u1, ?_⟩
    rw [← hpt]
    exact eval_ofXYZ wf he (by rw [e0]; exact u0) (by rw [e1]; exact u1) this hW

/-- the hypotheses of `C86_arc_partial` hold for three quarters of a circle of radius 2 in a tilted position -/
example : ∃ (c : NurbsCurve ℝ) (n : ℕ), createArc ⟨1, 2, 3⟩ ((2 : ℝ) • ⟨3 / 5, 4 / 5, 0⟩) ((3 : ℝ) • ⟨0, 0, 1⟩) 1 4 2 2 = ok (some c) ∧ WellFormed c 2 n := by
  obtain ⟨c, n, h1, h2, -⟩ := C86_arc_partial (center := ⟨1, 2, 3⟩) (ex := ⟨3 / 5, 4 / 5, 0⟩) (ey := ⟨0, 0, 1⟩) (a := 2) (b := 3) (startRad := 1)
    (endRad := 4) (r := 2) (by norm_num) (by norm_num) (by norm_num [XYZ.dot]) (by norm_num [XYZ.dot]) (by norm_num [XYZ.dot])
    (by norm_num) (by norm_num) (by norm_num) (by linarith [Real.pi_gt_three])
  exact ⟨c, n, h1, h2⟩

/-- the run of `CreateArc` when one segment is enough -/
theorem createArc_one {O ex ey : XYZ ℝ} {α β rx ry : ℝ} {q : CurveCurve × ℝ × ℝ × XYZ ℝ} (hX : ex.dot ex = 1) (hY : ey.dot ey = 1)
    (hrx : 1 / 1000000 * (1 + |rx|) < rx) (hry : 1 / 1000000 * (1 + |ry|) < ry) (hlt : 1 / 1000000 * (1 + max |β| |α|) < β - α)
    (h0 : 0 < β - α) (hmax : β - α ≤ 1.5)
    (hq : computeRays (arcPoint O ex ey rx ry α) (arcTangent ex ey α) (arcPoint O ex ey rx ry β) (arcTangent ex ey β) (0, 0, 0) = ok q) :
    createArc O ex ey α β rx ry = ok (if q.1 = .intersecting then some ⟨2, [0, 0, 0, 1, 1, 1], [XYZW.ofXYZ (arcPoint O ex ey rx ry α) 1,
      XYZW.ofXYZ q.2.2.2 (Real.cos ((β - α) / 2)), XYZW.ofXYZ (arcPoint O ex ey rx ry β) 1]⟩ else none) := by
  have hbd := constPi_bounds
  have hbd1 := hbd.1
  have hgt : ∀ r : ℝ, 1 / 1000000 * (1 + |r|) < r → isGreaterThan r 0 = true := by
    intro r hr
    unfold isGreaterThan tolOf doubleEps
    rw [abs_zero, sub_zero, max_eq_left (abs_nonneg r)]; exact decide_eq_true hr
  have hβ : isGreaterThan β α = true := by unfold isGreaterThan tolOf doubleEps; exact decide_eq_true hlt
  have hz : ∀ e : XYZ ℝ, e.dot e = 1 → e.isZero = false ∧ e.normalize = e := by
    intro e he
    have h1 := isZero_smul_unit (a := 1) (by norm_num) he
    have h2 := normalize_unit (a := 1) one_pos he
    rw [one_smul] at h1 h2
    exact ⟨h1, h2⟩
  have hcount : arcCount (β - α) = 1 := by
    unfold arcCount isLessThanOrEqual
    rw [if_pos]
    have := tolOf_pos (a := β - α) (b := constPi / 2) (doubleEps_pos (K := ℝ))
    exact decide_eq_true (by linarith)
  unfold createArc
  rw [(hz ex hX).1, (hz ey hY).1, (hz ex hX).2, (hz ey hY).2, hβ, hgt rx hrx, hgt ry hry]
  dsimp only
  rw [hcount]
  simp only [Bool.not_false, validate_true, ok_bind]
  rw [show validateRange (β - α) 0 (2 * constPi) = ok () by
    unfold validateRange
    rw [if_neg]
    push Not
    exact ⟨fun h => by linarith, fun h => by linarith⟩, ok_bind, fdiv_ok (by norm_num), ok_bind, Int.cast_one, div_one]
  rw [vset_of (i := 0) (k := 0) rfl (by simp), ok_bind]
  rw [show (1 : ℤ) + 1 = 2 by norm_num, forI_head (by norm_num : (1 : ℤ) < 2)]
  rw [show arcStep O ex ey rx ry (β - α) (Real.cos ((β - α) / 2)) 1 1 (some ⟨(List.replicate (2 * 1 + 1 : ℤ).toNat (0 : XYZW ℝ)).set 0 (XYZW.ofXYZ (arcPoint O ex ey rx ry α) 1),
      α, arcPoint O ex ey rx ry α, arcTangent ex ey α, 0⟩) = ok (if q.1 = .intersecting then some ⟨[XYZW.ofXYZ (arcPoint O ex ey rx ry α) 1,
      XYZW.ofXYZ q.2.2.2 (Real.cos ((β - α) / 2)), XYZW.ofXYZ (arcPoint O ex ey rx ry β) 1], β, arcPoint O ex ey rx ry α, arcTangent ex ey α, 2⟩ else none) by
    unfold arcStep arcRound
    dsimp only
    rw [show α + (β - α) = β by ring, vset_of (k := 2) (by norm_num) (by simp), ok_bind, hq, ok_bind]
    split
    · rename_i h
      rw [vset_of (k := 1) (by norm_num) (by simp), ok_bind, if_neg (by norm_num)]
      rfl
    · rfl, ok_bind, show (1 : ℤ) + 1 = 2 by norm_num, forI_empty (le_refl _), ok_bind]
  split
  · rename_i h
    split at h
    · cases h
    · rename_i h'; rw [if_neg h']
  · rename_i s h
    split at h
    · rename_i h'
      rw [if_pos h']
      cases h
      simp [forI, loopUp, vset, arcKnots]
    · cases h

/-- C86 is violated for different radii: asked for the arc from `0` to `π/3` of the ellipse with the radii 2 and 1,
`CreateArc` succeeds with a curve that leaves the ellipse `(x/2)² + y² = 1`.  The tangent directions ignore the radii. -/
theorem C86_ellipse_violated : ∃ (c : NurbsCurve ℝ) (q : XYZ ℝ), createArc ⟨0, 0, 0⟩ ⟨1, 0, 0⟩ ⟨0, 1, 0⟩ 0 (Real.pi / 3) 2 1 = ok (some c) ∧
    NurbsCurve.pointOnCurve c (1 / 2) = ok q ∧ (q.x / 2) ^ 2 + q.y ^ 2 ≠ 1 := by
  have hpi := Real.pi_gt_three
  have hpi' := Real.pi_lt_d2
  have h3 : Real.sqrt 3 ^ 2 = 3 := Real.sq_sqrt (by norm_num)
  have h3p : 0 < Real.sqrt 3 := Real.sqrt_pos.mpr (by norm_num)
  set t := Real.sqrt 3 with ht
  have hrays : computeRays (arcPoint ⟨0, 0, 0⟩ ⟨1, 0, 0⟩ ⟨0, 1, 0⟩ 2 1 0) (arcTangent ⟨1, 0, 0⟩ ⟨0, 1, 0⟩ 0) (arcPoint ⟨0, 0, 0⟩ ⟨1, 0, 0⟩ ⟨0, 1, 0⟩ 2 1 (Real.pi / 3))
      (arcTangent ⟨1, 0, 0⟩ ⟨0, 1, 0⟩ (Real.pi / 3)) (0, 0, 0) = ok (.intersecting, t / 6, -(2 * t / 3), ⟨2, t / 6, 0⟩) := by
    have e0 : arcTangent (⟨1, 0, 0⟩ : XYZ ℝ) ⟨0, 1, 0⟩ 0 = ⟨0, 1, 0⟩ := by ext <;> simp [arcTangent]
    have e1 : arcTangent (⟨1, 0, 0⟩ : XYZ ℝ) ⟨0, 1, 0⟩ (Real.pi / 3) = ⟨-(t / 2), 1 / 2, 0⟩ := by ext <;> simp [arcTangent, ht]
    have e2 : arcPoint (⟨0, 0, 0⟩ : XYZ ℝ) ⟨1, 0, 0⟩ ⟨0, 1, 0⟩ 2 1 0 = ⟨2, 0, 0⟩ := by ext <;> simp [arcPoint]
    have e3 : arcPoint (⟨0, 0, 0⟩ : XYZ ℝ) ⟨1, 0, 0⟩ ⟨0, 1, 0⟩ 2 1 (Real.pi / 3) = ⟨1, t / 2, 0⟩ := by ext <;> simp [arcPoint, ht]
    rw [e0, e1, e2, e3]
    rw [C27_rays_complete (t0 := t / 6) (t1 := -(2 * t / 3))]
    · congr 4; ext <;> simp
    · ext
      · simp only [XYZ.add_x, XYZ.smul_x]; nlinarith
      · simp only [XYZ.add_y, XYZ.smul_y]; ring
      · simp
    · simp only [XYZ.cross, XYZ.sqrLength]; nlinarith
    · have : isAlmostEqualTo (1 : ℝ) (1 / 2) = false := by
        unfold isAlmostEqualTo tolOf doubleEps
        apply decide_eq_false
        norm_num [abs_of_pos]
      simp only [XYZ.almostEq]; rw [this]; simp
    · simp only [XYZ.isZero, XYZ.sqrLength, doubleEps]; norm_num
    · simp only [XYZ.isZero, XYZ.sqrLength, doubleEps]
      exact decide_eq_false (by nlinarith)
  have hcr := createArc_one (O := ⟨0, 0, 0⟩) (ex := ⟨1, 0, 0⟩) (ey := ⟨0, 1, 0⟩) (α := 0) (β := Real.pi / 3) (rx := 2) (ry := 1)
    (by norm_num [XYZ.dot]) (by norm_num [XYZ.dot]) (by norm_num) (by norm_num)
    (by rw [abs_zero, max_eq_left (abs_nonneg _), abs_of_pos (by linarith)]; linarith) (by linarith) (by linarith) hrays
  rw [if_pos rfl] at hcr
  refine ⟨_, ⟨t, (1 + t) / (2 * (2 + t)), 0⟩, hcr, ?_, ?_⟩
  · have hU : ChainKnots (nth ([0, 0, 0, 1, 1, 1] : List ℝ)) 1 :=
      ⟨rfl, fun k hk => by interval_cases k <;> norm_num [nth], fun k hk => by interval_cases k <;> norm_num [nth], by norm_num [nth]⟩
    obtain ⟨wf, he, e0, e1⟩ := arc_wf (c := ⟨2, [0, 0, 0, 1, 1, 1], [XYZW.ofXYZ (arcPoint ⟨0, 0, 0⟩ ⟨1, 0, 0⟩ ⟨0, 1, 0⟩ 2 1 0) 1,
      XYZW.ofXYZ ⟨2, t / 6, 0⟩ (Real.cos ((Real.pi / 3 - 0) / 2)), XYZW.ofXYZ (arcPoint ⟨0, 0, 0⟩ ⟨1, 0, 0⟩ ⟨0, 1, 0⟩ 2 1 (Real.pi / 3)) 1]⟩) (m := 1)
      one_pos rfl rfl rfl hU (by norm_num)
    refine eval_ofXYZ (W := (2 + t) / 4) wf he (by rw [e0]; norm_num) (by rw [e1]; norm_num) ?_ (by linarith)
    rw [hU.seg (k := 0) (by norm_num) (by norm_num) (by norm_num)]
    have hc : Real.cos (Real.pi / 3 / 2) = t / 2 := by rw [show Real.pi / 3 / 2 = Real.pi / 6 by ring, Real.cos_pi_div_six]
    have h2t : 2 + t ≠ 0 := by linarith
    ext
    · simp [bez2, nth, XYZW.ofXYZ, arcPoint, hc]; nlinarith
    · simp [bez2, nth, XYZW.ofXYZ, arcPoint, hc, ← ht]; field_simp; nlinarith
    · simp [bez2, nth, XYZW.ofXYZ, arcPoint, hc]
    · simp [bez2, nth, XYZW.ofXYZ, arcPoint, hc]; ring
  · dsimp only
    intro hcon
    have h2t : 2 + t ≠ 0 := by linarith
    rw [div_pow, div_pow, mul_pow] at hcon
    field_simp at hcon
    nlinarith

/-- C86 is violated for small angles: the arc of the unit circle from `0` to `1/2000` is not created, although the angle is
500 times the comparison tolerance. -/
theorem C86_small_violated : createArc ⟨0, 0, 0⟩ ⟨1, 0, 0⟩ ⟨0, 1, 0⟩ 0 (1 / 2000) 1 1 = ok none := by
  have hs0 : 0 < Real.sin (1 / 2000) := Real.sin_pos_of_pos_of_lt_pi (by norm_num) (by linarith [Real.pi_gt_three])
  have hs1 : Real.sin (1 / 2000) < 1 / 2000 := Real.sin_lt (by norm_num)
  have hs2 : 1 / 4000 < Real.sin (1 / 2000) := by
    have := Real.sin_gt_sub_cube (x := 1 / 2000) (by norm_num)
    norm_num at this ⊢; linarith
  have hsc := Real.sin_sq_add_cos_sq (1 / 2000)
  have hrays : ∃ q, computeRays (arcPoint ⟨0, 0, 0⟩ ⟨1, 0, 0⟩ ⟨0, 1, 0⟩ 1 1 0) (arcTangent ⟨1, 0, 0⟩ ⟨0, 1, 0⟩ 0) (arcPoint ⟨0, 0, 0⟩ ⟨1, 0, 0⟩ ⟨0, 1, 0⟩ 1 1 (1 / 2000))
      (arcTangent ⟨1, 0, 0⟩ ⟨0, 1, 0⟩ (1 / 2000)) (0, 0, 0) = ok q ∧ q.1 ≠ .intersecting := by
    have e0 : arcTangent (⟨1, 0, 0⟩ : XYZ ℝ) ⟨0, 1, 0⟩ 0 = ⟨0, 1, 0⟩ := by ext <;> simp [arcTangent]
    have e1 : arcTangent (⟨1, 0, 0⟩ : XYZ ℝ) ⟨0, 1, 0⟩ (1 / 2000) = ⟨-Real.sin (1 / 2000), Real.cos (1 / 2000), 0⟩ := by
      ext <;> simp [arcTangent]
    have hne : (⟨0, 1, 0⟩ : XYZ ℝ).almostEq ⟨-Real.sin (1 / 2000), Real.cos (1 / 2000), 0⟩ = false := by
      have : isAlmostEqualTo (0 : ℝ) (-Real.sin (1 / 2000)) = false := by
        unfold isAlmostEqualTo tolOf doubleEps
        apply decide_eq_false
        rw [sub_neg_eq_add, zero_add, abs_neg, abs_zero, abs_of_pos hs0, max_eq_right hs0.le]
        linarith
      simp only [XYZ.almostEq]; rw [this]; simp
    have hz0 : (⟨0, 1, 0⟩ : XYZ ℝ).isZero = false := by
      simp only [XYZ.isZero, XYZ.sqrLength, doubleEps]; norm_num
    have hz1 : (⟨-Real.sin (1 / 2000), Real.cos (1 / 2000), 0⟩ : XYZ ℝ).isZero = false := by
      simp only [XYZ.isZero, XYZ.sqrLength, doubleEps]
      exact decide_eq_false (by nlinarith)
    rw [e0, e1]
    unfold computeRays
    rw [hne, Bool.false_and, if_neg (by simp), hz0, hz1]
    simp only [Bool.not_false, validate_true, ok_bind]
    rw [if_pos]
    · split
      · exact ⟨_, rfl, by simp⟩
      · exact ⟨_, rfl, by simp⟩
    · rw [isAlmostZero_iff, abs_abs]
      simp only [XYZ.dot]
      rw [show (0 * 0 + 1 * 1 + 0 * 0) * (-Real.sin (1 / 2000) * -Real.sin (1 / 2000) + Real.cos (1 / 2000) * Real.cos (1 / 2000) + 0 * 0) -
        (0 * -Real.sin (1 / 2000) + 1 * Real.cos (1 / 2000) + 0 * 0) * (0 * -Real.sin (1 / 2000) + 1 * Real.cos (1 / 2000) + 0 * 0) = Real.sin (1 / 2000) ^ 2 by ring,
        abs_of_nonneg (sq_nonneg _)]
      nlinarith
  obtain ⟨q, hq, hne⟩ := hrays
  rw [createArc_one (by norm_num [XYZ.dot]) (by norm_num [XYZ.dot]) (by norm_num) (by norm_num) (by norm_num) (by norm_num) (by norm_num) hq, if_neg hne]

end LNLib.Props
