import Verif.Model.DiffGeom
import Verif.Spec.DiffGeom
import Verif.Props.SurfaceDers
import Verif.Props.Geom
import Mathlib.Tactic.IntervalCases

/-!
# C60, C69, C70: curvature and normals
(Geometry/Curve/NurbsCurve.cpp, Geometry/Surface/NurbsSurface.cpp)
-/
set_option linter.unusedSectionVars false

namespace LNLib.Props
open LNLib Res Spec Finset

theorem almost_far {a b : ℝ} (h : 1 / 1000000 * (1 + max |a| |b|) < |a - b|) : isAlmostEqualTo a b = false := by
  unfold isAlmostEqualTo tolOf doubleEps
  exact decide_eq_false (not_le.mpr h)

theorem almost_near {a b : ℝ} (h : |a - b| ≤ 1 / 1000000 * (1 + max |a| |b|)) : isAlmostEqualTo a b = true := by
  unfold isAlmostEqualTo tolOf doubleEps
  exact decide_eq_true h

theorem length_smul {k : ℝ} (hk : 0 ≤ k) (a : XYZ ℝ) : (k • a).length = k * a.length := by
  unfold XYZ.length
  simp only [XYZ.smul_x, XYZ.smul_y, XYZ.smul_z]
  rw [show k * a.x * (k * a.x) + k * a.y * (k * a.y) + k * a.z * (k * a.z) = k ^ 2 * (a.x * a.x + a.y * a.y + a.z * a.z) by ring,
    Real.sqrt_mul (sq_nonneg k), Real.sqrt_sq hk]

theorem length_zero_iff {a : XYZ ℝ} : a.length = 0 ↔ a = 0 := by
  constructor
  · intro h
    by_contra hn
    exact absurd h (length_pos hn).ne'
  · rintro rfl
    simp [XYZ.length]

/-! ## C60: curvature of curves -/

theorem ders2 {c : NurbsCurve ℝ} {p n s : ℕ} {t : ℝ} (w : WellFormed c p n)
    (he : EndsSeparated (nth c.knots) p n) (hps : p ≤ s) (hsn : s ≤ n) (h0 : nth c.knots s < t) (h1 : t < nth c.knots (s + 1))
    (hw : weightFn (nth c.knots) p n (nth c.cps) t ≠ 0) {β : Type} (f : XYZ ℝ → XYZ ℝ → Res β) :
    (do
      let a ← vget c.knots 0
      let b ← vget c.knots ((c.knots.length : ℤ) - 1)
      validateRange t a b
      let ders ← NurbsCurve.rationalDerivatives c 2 t
      let d1 ← vget ders 1
      let d2 ← vget ders 2
      f d1 d2) = f (curveD (rationalPoint (nth c.knots) p n (nth c.cps)) 1 t) (curveD (rationalPoint (nth c.knots) p n (nth c.cps)) 2 t) := by
  obtain ⟨l, e, hl, hk⟩ := C20_true_derivative w he hps hsn h0 h1 (d := 2) (by decide) hw
  have hlen := w.knots
  have hm := wf_monoTo w
  have b0 := hm 0 s (by omega) (by omega)
  have b1 := hm (s + 1) (n + p + 1) (by omega) (by omega)
  have heps := doubleEps_pos (K := ℝ)
  have e' : NurbsCurve.rationalDerivatives c 2 t = ok l := e
  rw [vget_nth (k := 0) (i := 0) rfl (by omega), ok_bind, vget_nth (k := n + p + 1) (by omega) (by omega), ok_bind,
    validateRange_eq_ok_iff.mpr ⟨by linarith, by linarith⟩, ok_bind, e', ok_bind, vget_nth (k := 1) (i := 1) rfl (by omega), ok_bind,
    vget_nth (k := 2) (i := 2) rfl (by omega), ok_bind]
  have f1 : nth l 1 = curveD (rationalPoint (nth c.knots) p n (nth c.cps)) 1 t := XYZ.ext (hk 1 (by omega)).1 (hk 1 (by omega)).2.1 (hk 1 (by omega)).2.2
  have f2 : nth l 2 = curveD (rationalPoint (nth c.knots) p n (nth c.cps)) 2 t := XYZ.ext (hk 2 (by omega)).1 (hk 2 (by omega)).2.1 (hk 2 (by omega)).2.2
  rw [f1, f2]

/-- C60 (partial): inside a span, `Curvature` returns `|C' × C''| / |C'|³` whenever the curve is regular and
its speed is not (up to tolerance) equal to one, and also when the speed is exactly one and `C''` is
orthogonal to `C'` (as for an arc-length parametrisation).  For a speed that just happens to be close to one
at the parameter the returned value is wrong, see `C60_speed_one_violated`. -/
theorem C60_curvature_partial {c : NurbsCurve ℝ} {p n s : ℕ} {t : ℝ} (w : WellFormed c p n)
    (he : EndsSeparated (nth c.knots) p n) (hps : p ≤ s) (hsn : s ≤ n) (h0 : nth c.knots s < t) (h1 : t < nth c.knots (s + 1))
    (hw : weightFn (nth c.knots) p n (nth c.cps) t ≠ 0) (C : ℝ → XYZ ℝ) (hC : C = rationalPoint (nth c.knots) p n (nth c.cps))
    (hreg : curveD C 1 t ≠ 0)
    (hspeed : 1 / 1000000 * (1 + max |(curveD C 1 t).length| |1|) < |(curveD C 1 t).length - 1| ∨
      ((curveD C 1 t).length = 1 ∧ (curveD C 1 t).dot (curveD C 2 t) = 0)) :
    NurbsCurve.curvature c t = ok (curvatureOf C t) := by
  subst hC
  unfold NurbsCurve.curvature
  rw [ders2 w he hps hsn h0 h1 hw]
  set C := rationalPoint (nth c.knots) p n (nth c.cps)
  have hp := length_pos hreg
  rcases hspeed with h | ⟨h, h'⟩
  · rw [if_neg (by rw [almost_far h]; simp), fdiv_ok (pow_ne_zero _ hp.ne')]
    rfl
  · rw [h, if_pos (almost_near (by norm_num)), curvatureOf, h, one_pow, div_one]
    congr 1
    have e := C29_lagrange (curveD C 1 t) (curveD C 2 t)
    have l1 := length_sq (curveD C 1 t)
    rw [h] at l1
    unfold XYZ.length
    congr 1
    unfold XYZ.sqrLength at e
    rw [h', ← l1] at e
    linarith

/-- C60: where the derivative vanishes the code divides zero by zero. -/
theorem C60_stationary_nonfinite {c : NurbsCurve ℝ} {p n s : ℕ} {t : ℝ} (w : WellFormed c p n)
    (he : EndsSeparated (nth c.knots) p n) (hps : p ≤ s) (hsn : s ≤ n) (h0 : nth c.knots s < t) (h1 : t < nth c.knots (s + 1))
    (hw : weightFn (nth c.knots) p n (nth c.cps) t ≠ 0) (hz : curveD (rationalPoint (nth c.knots) p n (nth c.cps)) 1 t = 0) :
    NurbsCurve.curvature c t = nonfinite := by
  unfold NurbsCurve.curvature
  rw [ders2 w he hps hsn h0 h1 hw, hz, length_zero_iff.mpr rfl, if_neg (by rw [almost_far (by norm_num)]; simp)]
  simp [fdiv]

/-! ### a quadratic Bézier basis for the witnesses -/

theorem bez2_mono : MonoTo (nth ([0, 0, 0, 1, 1, 1] : List ℝ)) 5 := by
  intro i j hij hj
  refine isValidKnotVector_nth.mp ?_ i j hij (by simpa using Nat.lt_succ_of_le hj)
  rw [isValidKnotVector_iff]
  simp

theorem bez2_ends : EndsSeparated (nth ([0, 0, 0, 1, 1, 1] : List ℝ)) 2 2 := by
  constructor <;> simp [nth] <;> norm_num

theorem bez2_dN (t : ℝ) : (∀ k, dN (nth ([0, 0, 0, 1, 1, 1] : List ℝ)) 2 2 0 k t = if k = 0 then (1 - t) ^ 2 else if k = 1 then -2 * (1 - t) else if k = 2 then 2 else 0) ∧
    (∀ k, dN (nth ([0, 0, 0, 1, 1, 1] : List ℝ)) 2 2 1 k t = if k = 0 then 2 * t * (1 - t) else if k = 1 then 2 - 4 * t else if k = 2 then -4 else 0) ∧
    (∀ k, dN (nth ([0, 0, 0, 1, 1, 1] : List ℝ)) 2 2 2 k t = if k = 0 then t ^ 2 else if k = 1 then 2 * t else if k = 2 then 2 else 0) := by
  refine ⟨?_, ?_, ?_⟩
  all_goals
    intro k
    rcases k with _ | _ | _ | k
    · rw [dN_zero]; simp [Nspan]; try ring
    · rw [dN_succ bez2_mono 2 1 _ 0 (by omega)]; simp [dN_zero, Nspan]; try first | ring1 | norm_num
    · rw [dN_succ bez2_mono 2 1 _ 1 (by omega), dN_succ bez2_mono 2 0 _ 0 (by omega), dN_succ bez2_mono 2 0 _ 0 (by omega)]
      simp [dN_zero, Nspan]; try norm_num
    · rw [dN_gt _ _ _ _ _ _ (by omega)]; simp

/-- the curve with `x = t²` (a straight line) whose speed at `t = 1/2` is one -/
noncomputable def lineCurve : NurbsCurve ℝ :=
  { degree := 2, knots := [0, 0, 0, 1, 1, 1], cps := [⟨0, 0, 0, 1⟩, ⟨0, 0, 0, 1⟩, ⟨1, 0, 0, 1⟩] }

theorem lineCurve_wf : WellFormed lineCurve 2 2 :=
  { degree := rfl, pos := by decide, le7 := by decide, cps := rfl, pn := le_refl _, knots := rfl,
    sorted := isValidKnotVector_nth.mp (by rw [isValidKnotVector_iff]; simp [lineCurve]) }

theorem bez2_span {t : ℝ} (h0 : 0 < t) (h1 : t < 1) : IsSpan (nth ([0, 0, 0, 1, 1, 1] : List ℝ)) 2 2 t 2 :=
  ⟨le_refl _, le_refl _, zero_lt_one, h0.le, Or.inl h1⟩

theorem bez2_N {t : ℝ} (h0 : 0 < t) (h1 : t < 1) (i : ℕ) (hi : i ≤ 2) :
    N (nth ([0, 0, 0, 1, 1, 1] : List ℝ)) (nth ([0, 0, 0, 1, 1, 1] : List ℝ) 3) 2 i t = dN (nth ([0, 0, 0, 1, 1, 1] : List ℝ)) 2 2 i 0 t := by
  rw [dN_zero]
  exact N_eq_Nspan bez2_mono (by omega) (bez2_span h0 h1) 2 i (by omega)

theorem lineCurve_ders : weightFn (nth lineCurve.knots) 2 2 (nth lineCurve.cps) (1/2) ≠ 0 ∧
    curveD (rationalPoint (nth lineCurve.knots) 2 2 (nth lineCurve.cps)) 1 (1/2) = ⟨1, 0, 0⟩ ∧
    curveD (rationalPoint (nth lineCurve.knots) 2 2 (nth lineCurve.cps)) 2 (1/2) = ⟨2, 0, 0⟩ := by
  have hw : weightFn (nth lineCurve.knots) 2 2 (nth lineCurve.cps) (1/2) ≠ 0 := by
    unfold weightFn
    simp only [sum_range_succ, sum_range_zero, lineCurve]
    rw [bez2_N (by norm_num) (by norm_num) 0 (by omega), bez2_N (by norm_num) (by norm_num) 1 (by omega), bez2_N (by norm_num) (by norm_num) 2 (by omega),
      (bez2_dN _).1, (bez2_dN _).2.1, (bez2_dN _).2.2]
    simp
    norm_num
  refine ⟨hw, ?_⟩
  have h0 : nth lineCurve.knots 2 < (1/2 : ℝ) := by simp [lineCurve]
  have h1 : (1/2 : ℝ) < nth lineCurve.knots 3 := by simp [lineCurve]; norm_num
  obtain ⟨l, e, hl, hk⟩ := C20_true_derivative lineCurve_wf bez2_ends (le_refl 2) (le_refl 2) h0 h1 (d := 2) (by decide) hw
  obtain ⟨l', e', hl', hk'⟩ := C20_leibniz lineCurve_wf bez2_ends h0.le h1.le (bez2_span (by norm_num) (by norm_num)) (d := 2) (by decide) hw
  obtain rfl : l = l' := Res.ok.inj (e.symm.trans e')
  have hd : ∀ k, curveDeriv (nth lineCurve.knots) 2 2 2 (nth lineCurve.cps) k (1/2) =
      (if k = 0 then ⟨1/4, 0, 0, 1⟩ else if k = 1 then ⟨1, 0, 0, 0⟩ else if k = 2 then ⟨2, 0, 0, 0⟩ else 0 : XYZW ℝ) := by
    intro k
    unfold curveDeriv
    simp only [sum_range_succ, sum_range_zero, lineCurve]
    rw [(bez2_dN _).1, (bez2_dN _).2.1, (bez2_dN _).2.2]
    rcases k with _ | _ | _ | k
    · ext <;> simp <;> norm_num
    · ext <;> simp <;> norm_num
    · ext <;> simp <;> norm_num
    · simp
  have f0 := hk' 0 (by omega)
  have f1 := hk' 1 (by omega)
  have f2 := hk' 2 (by omega)
  simp only [hd, sum_range_succ, sum_range_zero] at f0 f1 f2
  simp [XYZW.raw] at f0 f1 f2
  have g : ∀ k ≤ 2, curveD (rationalPoint (nth lineCurve.knots) 2 2 (nth lineCurve.cps)) k (1/2) = nth l k := fun k hk2 =>
    XYZ.ext (hk k hk2).1.symm (hk k hk2).2.1.symm (hk k hk2).2.2.symm
  exact ⟨by rw [g 1 (by omega), f1], by rw [g 2 (by omega), f2]⟩

/-- C60 (violated): a straight line whose speed at the parameter happens to be one is reported to have
curvature 2. -/
theorem C60_speed_one_violated : NurbsCurve.curvature lineCurve (1/2) = ok 2 ∧
    curvatureOf (rationalPoint (nth lineCurve.knots) 2 2 (nth lineCurve.cps)) (1/2) = 0 := by
  obtain ⟨hw, d1, d2⟩ := lineCurve_ders
  constructor
  · unfold NurbsCurve.curvature
    rw [ders2 lineCurve_wf bez2_ends (le_refl 2) (le_refl 2) (by simp [lineCurve]) (by simp [lineCurve]; norm_num) hw, d1, d2]
    have e1 : (⟨1, 0, 0⟩ : XYZ ℝ).length = 1 := by simp [XYZ.length]
    have e2 : (⟨2, 0, 0⟩ : XYZ ℝ).length = 2 := by
      simp only [XYZ.length]
      rw [show (2 : ℝ) * 2 + 0 * 0 + 0 * 0 = 2 ^ 2 by norm_num, Real.sqrt_sq (by norm_num)]
    rw [e1, e2, if_pos (almost_near (by norm_num))]
  · unfold curvatureOf
    rw [d1, d2]
    simp [XYZ.cross, XYZ.length]

/-! ## C69: normals -/

theorem cross_smul_left (k : ℝ) (a b : XYZ ℝ) : (k • a).cross b = k • a.cross b := by
  ext <;> simp [XYZ.cross] <;> ring

theorem cross_ne_left {a b : XYZ ℝ} (h : a.cross b ≠ 0) : a ≠ 0 := by
  rintro rfl
  apply h
  ext <;> simp [XYZ.cross]

theorem normalize_smul {k : ℝ} (hk : 0 < k) {a : XYZ ℝ} (h : a ≠ 0) : (k • a).normalize = a.normalize := by
  have hka : k • a ≠ 0 := smul_ne_zero hk.ne' h
  rw [normalize_eq hka, normalize_eq h, length_smul hk.le, smul_smul]
  congr 1
  have := (length_pos h).ne'
  field_simp

/-- C69: inside a pair of spans where the surface is regular, `NurbsSurface::Normal` returns
`(S_u × S_v) / |S_u × S_v|`; it is a unit vector orthogonal to both partial derivatives. -/
theorem C69_surface_normal {c : NurbsSurface ℝ} {p q n m su sv : ℕ} {u v : ℝ} (w : WellFormedS c p q n m)
    (he : EndsSeparatedS c p q n m) (hpu : p ≤ su) (hun : su ≤ n) (hqv : q ≤ sv) (hvm : sv ≤ m)
    (hu0 : nth c.knotsU su < u) (hu1 : u < nth c.knotsU (su + 1)) (hv0 : nth c.knotsV sv < v) (hv1 : v < nth c.knotsV (sv + 1))
    (hw : surfaceWeight (nth c.knotsU) (nth c.knotsV) p q n m (ent c.cps) u v ≠ 0)
    (S : ℝ → ℝ → XYZ ℝ) (hS : S = rationalSurfacePoint (nth c.knotsU) (nth c.knotsV) p q n m (ent c.cps))
    (hreg : (surfD S 1 0 u v).cross (surfD S 0 1 u v) ≠ 0) :
    NurbsSurface.normal c u v = ok (unitNormal S u v) ∧ (unitNormal S u v).length = 1 ∧
      (unitNormal S u v).dot (surfD S 1 0 u v) = 0 ∧ (unitNormal S u v).dot (surfD S 0 1 u v) = 0 := by
  subst hS
  have hU := wfS_monoU w
  have hV := wfS_monoV w
  have b0 := hU p su hpu (by omega)
  have b1 := hU (su + 1) (n + 1) (by omega) (by omega)
  have b2 := hV q sv hqv (by omega)
  have b3 := hV (sv + 1) (m + 1) (by omega) (by omega)
  have hp := w.posU
  have hq := w.posV
  obtain ⟨M, e, hM, hk⟩ := C67_true_derivative w he hpu hun hqv hvm hu0 hu1 hv0 hv1 (d := 1) (by decide) (by omega) (by omega) hw
  have e' : NurbsSurface.rationalDerivatives c 1 u v = ok M := e
  set S := rationalSurfacePoint (nth c.knotsU) (nth c.knotsV) p q n m (ent c.cps)
  have f : ∀ k l, k + l ≤ 1 → ent M k l = surfD S k l u v := fun k l h => XYZ.ext (hk k l h).1 (hk k l h).2.1 (hk k l h).2.2
  have hpos := length_pos hreg
  have hne := cross_ne_left hreg
  have hn : ((surfD S 1 0 u v).normalize.cross (surfD S 0 1 u v)).normalize = unitNormal S u v := by
    rw [normalize_eq hne, cross_smul_left, normalize_smul (inv_pos.mpr (length_pos hne)) hreg, normalize_eq hreg]
    rfl
  refine ⟨?_, ?_, ?_, ?_⟩
  · unfold NurbsSurface.normal
    rw [validateUV_ok w ⟨by linarith, by linarith, by linarith, by linarith⟩, ok_bind, e', ok_bind,
      mget_ent (a := 1) (b := 0) (i := 1) (j := 0) hM rfl rfl (by omega) (by omega), ok_bind, mget_ent (a := 0) (b := 1) (i := 0) (j := 1) hM rfl rfl (by omega) (by omega), ok_bind,
      f 1 0 (by omega), f 0 1 (by omega), hn]
  · unfold unitNormal
    rw [length_smul (inv_nonneg.mpr hpos.le), inv_mul_cancel₀ hpos.ne']
  · have := (C29_cross_orthogonal (surfD S 1 0 u v) (surfD S 0 1 u v)).1
    unfold unitNormal
    rw [(C29_dot _ _ 0 _).2.2.1, this, mul_zero]
  · have := (C29_cross_orthogonal (surfD S 1 0 u v) (surfD S 0 1 u v)).2
    unfold unitNormal
    rw [(C29_dot _ _ 0 _).2.2.1, this, mul_zero]

/-- C69 (partial): for a curve with linearly independent `C'`, `C''` whose speed is not (up to tolerance) one,
`Normal` returns the binormal `C' × C'' / |C' × C''|` and the principal normal: a unit vector, orthogonal to
tangent and binormal, and pointing to the side of `C''`. -/
theorem C69_curve_normal_partial {c : NurbsCurve ℝ} {p n s : ℕ} {t : ℝ} (w : WellFormed c p n)
    (he : EndsSeparated (nth c.knots) p n) (hps : p ≤ s) (hsn : s ≤ n) (h0 : nth c.knots s < t) (h1 : t < nth c.knots (s + 1))
    (hw : weightFn (nth c.knots) p n (nth c.cps) t ≠ 0) (C : ℝ → XYZ ℝ) (hC : C = rationalPoint (nth c.knots) p n (nth c.cps))
    (hreg : (curveD C 1 t).cross (curveD C 2 t) ≠ 0)
    (hspeed : 1 / 1000000 * (1 + max |(curveD C 1 t).length| |1|) < |(curveD C 1 t).length - 1|) :
    ∃ b nn, NurbsCurve.normal c .binormal t = ok b ∧ NurbsCurve.normal c .normal t = ok nn ∧
      b = ((curveD C 1 t).cross (curveD C 2 t)).length⁻¹ • (curveD C 1 t).cross (curveD C 2 t) ∧
      nn.length = 1 ∧ nn.dot (curveD C 1 t) = 0 ∧ nn.dot b = 0 ∧ 0 < nn.dot (curveD C 2 t) := by
  subst hC
  unfold NurbsCurve.normal
  simp only [ders2 w he hps hsn h0 h1 hw]
  set C := rationalPoint (nth c.knots) p n (nth c.cps)
  set d1 := curveD C 1 t
  set d2 := curveD C 2 t
  have hl := length_pos hreg
  have hd1 := cross_ne_left hreg
  have hl1 := length_pos hd1
  have hfar := almost_far hspeed
  rw [hfar]
  simp only [Bool.false_eq_true, if_false, if_true, reduceCtorEq]
  rw [vdiv_ok hl.ne']
  simp only [ok_bind]
  have hb0 : ((d1.cross d2).length⁻¹ • d1.cross d2) ≠ 0 := smul_ne_zero (inv_ne_zero hl.ne') hreg
  have hbn : ((d1.cross d2).length⁻¹ • d1.cross d2).normalize = (d1.cross d2).length⁻¹ • d1.cross d2 := by
    rw [normalize_smul (inv_pos.mpr hl) hreg, normalize_eq hreg]
  refine ⟨_, _, rfl, rfl, rfl, ?_⟩
  rw [hbn, normalize_eq hd1]
  have key : ((d1.cross d2).length⁻¹ • d1.cross d2).cross (d1.length⁻¹ • d1) = ((d1.cross d2).length⁻¹ * d1.length⁻¹) • (d1.cross d2).cross d1 := by
    ext <;> simp [XYZ.cross] <;> ring
  rw [key]
  have lag : ((d1.cross d2).cross d1).sqrLength = (d1.cross d2).sqrLength * d1.sqrLength := by
    have h1 := C29_lagrange (d1.cross d2) d1
    rw [(C29_cross_orthogonal d1 d2).1] at h1
    linarith
  have sq1 : (d1.cross d2).sqrLength = (d1.cross d2).length ^ 2 := (length_sq _).symm
  have sq2 : d1.sqrLength = d1.length ^ 2 := (length_sq _).symm
  refine ⟨?_, ?_, ?_, ?_⟩
  · rw [length_smul (by positivity)]
    have : ((d1.cross d2).cross d1).length = (d1.cross d2).length * d1.length := by
      have h2 := length_sq ((d1.cross d2).cross d1)
      have h3 : ((d1.cross d2).cross d1).length ^ 2 = ((d1.cross d2).length * d1.length) ^ 2 := by
        rw [h2, mul_pow, ← sq1, ← sq2, ← lag]; rfl
      exact (pow_left_inj₀ (length_nonneg _) (by positivity) (by decide)).mp h3
    rw [this]
    field_simp
  · rw [(C29_dot _ _ 0 _).2.2.1, (C29_cross_orthogonal (d1.cross d2) d1).2, mul_zero]
  · rw [(C29_dot _ _ 0 (0 : ℝ)).1, (C29_dot _ _ 0 _).2.2.1, (C29_dot _ _ 0 (0 : ℝ)).1, (C29_dot _ _ 0 _).2.2.1, (C29_cross_orthogonal (d1.cross d2) d1).1]
    simp
  · rw [(C29_dot _ _ 0 _).2.2.1]
    have : ((d1.cross d2).cross d1).dot d2 = (d1.cross d2).sqrLength := by
      simp only [XYZ.cross, XYZ.dot, XYZ.sqrLength]; ring
    rw [this, sq1]
    positivity

/-- C69 (violated): when the speed happens to be one, `C''/|C''|` is returned as the normal although it
need not be orthogonal to the curve: on a straight line the "normal" is the tangent. -/
theorem C69_curve_normal_violated : NurbsCurve.normal lineCurve .normal (1/2) = ok ⟨1, 0, 0⟩ ∧
    curveD (rationalPoint (nth lineCurve.knots) 2 2 (nth lineCurve.cps)) 1 (1/2) = ⟨1, 0, 0⟩ := by
  obtain ⟨hw, d1, d2⟩ := lineCurve_ders
  refine ⟨?_, d1⟩
  unfold NurbsCurve.normal
  rw [ders2 lineCurve_wf bez2_ends (le_refl 2) (le_refl 2) (by simp [lineCurve]) (by simp [lineCurve]; norm_num) hw, d1, d2]
  have e1 : (⟨1, 0, 0⟩ : XYZ ℝ).length = 1 := by simp [XYZ.length]
  have e2 : (⟨2, 0, 0⟩ : XYZ ℝ).length = 2 := by
    simp only [XYZ.length]
    rw [show (2 : ℝ) * 2 + 0 * 0 + 0 * 0 = 2 ^ 2 by norm_num, Real.sqrt_sq (by norm_num)]
  rw [e1, e2, if_pos (almost_near (by norm_num)), vdiv_ok (by norm_num), ok_bind, if_pos rfl]
  congr 1
  ext <;> simp

/-! ## C70: curvature of surfaces -/

theorem table2 {c : NurbsSurface ℝ} {p q n m su sv : ℕ} {u v : ℝ} (w : WellFormedS c p q n m)
    (he : EndsSeparatedS c p q n m) (hpu : p ≤ su) (hun : su ≤ n) (hqv : q ≤ sv) (hvm : sv ≤ m)
    (hu0 : nth c.knotsU su < u) (hu1 : u < nth c.knotsU (su + 1)) (hv0 : nth c.knotsV sv < v) (hv1 : v < nth c.knotsV (sv + 1))
    (hp2 : 2 ≤ p) (hq2 : 2 ≤ q) (hw : surfaceWeight (nth c.knotsU) (nth c.knotsV) p q n m (ent c.cps) u v ≠ 0)
    (S : ℝ → ℝ → XYZ ℝ) (hS : S = rationalSurfacePoint (nth c.knotsU) (nth c.knotsV) p q n m (ent c.cps))
    (hreg : (surfD S 1 0 u v).cross (surfD S 0 1 u v) ≠ 0) (ty : SurfaceCurvature) :
    NurbsSurface.curvature c ty u v = (
      if isAlmostEqualTo (detI S u v) 0 then ok 0
      else do
        let K ← fdiv ((surfD S 2 0 u v).dot (unitNormal S u v) * (surfD S 0 2 u v).dot (unitNormal S u v) - (surfD S 1 1 u v).dot (unitNormal S u v) * (surfD S 1 1 u v).dot (unitNormal S u v)) (detI S u v)
        let H ← fdiv ((surfD S 1 0 u v).dot (surfD S 1 0 u v) * (surfD S 0 2 u v).dot (unitNormal S u v) + (surfD S 0 1 u v).dot (surfD S 0 1 u v) * (surfD S 2 0 u v).dot (unitNormal S u v)
          - 2 * (surfD S 1 0 u v).dot (surfD S 0 1 u v) * (surfD S 1 1 u v).dot (unitNormal S u v)) (2 * detI S u v)
        match ty with
        | .gauss => ok K
        | .mean => ok H
        | .maximum => ok (H + Real.sqrt |H * H - K|)
        | .minimum => ok (H - Real.sqrt |H * H - K|)
        | .abs => ok (|(H + Real.sqrt (|H * H - K|))| + |(H - Real.sqrt (|H * H - K|))|)
        | .rms => ok (Real.sqrt ((H + Real.sqrt |H * H - K|) * (H + Real.sqrt |H * H - K|) + (H - Real.sqrt |H * H - K|) * (H - Real.sqrt |H * H - K|)))) := by
  have hn := (C69_surface_normal w he hpu hun hqv hvm hu0 hu1 hv0 hv1 hw S hS hreg).1
  subst hS
  have hU := wfS_monoU w
  have hV := wfS_monoV w
  have b0 := hU p su hpu (by omega)
  have b1 := hU (su + 1) (n + 1) (by omega) (by omega)
  have b2 := hV q sv hqv (by omega)
  have b3 := hV (sv + 1) (m + 1) (by omega) (by omega)
  obtain ⟨M, e, hM, hk⟩ := C67_true_derivative w he hpu hun hqv hvm hu0 hu1 hv0 hv1 (d := 2) (by decide) hp2 hq2 hw
  have e' : NurbsSurface.rationalDerivatives c 2 u v = ok M := e
  set S := rationalSurfacePoint (nth c.knotsU) (nth c.knotsV) p q n m (ent c.cps)
  have f : ∀ k l, k + l ≤ 2 → ent M k l = surfD S k l u v := fun k l h => XYZ.ext (hk k l h).1 (hk k l h).2.1 (hk k l h).2.2
  unfold NurbsSurface.curvature
  rw [validateUV_ok w ⟨by linarith, by linarith, by linarith, by linarith⟩, ok_bind, e', ok_bind,
    mget_ent (a := 2) (b := 0) (i := 2) (j := 0) hM rfl rfl (by omega) (by omega), ok_bind, mget_ent (a := 0) (b := 2) (i := 0) (j := 2) hM rfl rfl (by omega) (by omega), ok_bind,
    mget_ent (a := 1) (b := 1) (i := 1) (j := 1) hM rfl rfl (by omega) (by omega), ok_bind, mget_ent (a := 1) (b := 0) (i := 1) (j := 0) hM rfl rfl (by omega) (by omega), ok_bind,
    mget_ent (a := 0) (b := 1) (i := 0) (j := 1) hM rfl rfl (by omega) (by omega), ok_bind, hn, ok_bind, f 2 0 (by omega), f 0 2 (by omega), f 1 1 (by omega), f 1 0 (by omega), f 0 1 (by omega)]
  dsimp only
  rw [show (surfD S 1 0 u v).dot (surfD S 1 0 u v) * (surfD S 0 1 u v).dot (surfD S 0 1 u v) - (surfD S 1 0 u v).dot (surfD S 0 1 u v) * (surfD S 1 0 u v).dot (surfD S 0 1 u v) = detI S u v by
    unfold detI; ring]
  rfl

theorem detI_eq (S : ℝ → ℝ → XYZ ℝ) (u v : ℝ) : detI S u v = ((surfD S 1 0 u v).cross (surfD S 0 1 u v)).length ^ 2 := by
  rw [length_sq]
  unfold detI XYZ.cross XYZ.dot
  ring

/-- C70 (partial): inside a pair of spans of a surface with both degrees at least two, where the determinant of
the first fundamental form exceeds the library's tolerance, the values returned by `Curvature` are those of the
two principal curvatures `k₂ ≤ k₁` (the roots of `det(II - k I) = 0`): maximum, minimum, product, mean, `|k₁|+|k₂|` and
root of the sum of squares.  For smaller determinants 0 is returned, see `C70_small_patch_violated`; for degree
one the call throws, see `C70_linear_violated`. -/
theorem C70_curvature_partial {c : NurbsSurface ℝ} {p q n m su sv : ℕ} {u v : ℝ} (w : WellFormedS c p q n m)
    (he : EndsSeparatedS c p q n m) (hpu : p ≤ su) (hun : su ≤ n) (hqv : q ≤ sv) (hvm : sv ≤ m)
    (hu0 : nth c.knotsU su < u) (hu1 : u < nth c.knotsU (su + 1)) (hv0 : nth c.knotsV sv < v) (hv1 : v < nth c.knotsV (sv + 1))
    (hp2 : 2 ≤ p) (hq2 : 2 ≤ q) (hw : surfaceWeight (nth c.knotsU) (nth c.knotsV) p q n m (ent c.cps) u v ≠ 0)
    (S : ℝ → ℝ → XYZ ℝ) (hS : S = rationalSurfacePoint (nth c.knotsU) (nth c.knotsV) p q n m (ent c.cps))
    (hdet : 1 / 1000000 * (1 + detI S u v) < detI S u v) :
    ∃ k1 k2 : ℝ, k2 ≤ k1 ∧ (∀ k, charPoly S u v k = detI S u v * (k - k1) * (k - k2)) ∧
      NurbsSurface.curvature c .maximum u v = ok k1 ∧ NurbsSurface.curvature c .minimum u v = ok k2 ∧
      NurbsSurface.curvature c .gauss u v = ok (k1 * k2) ∧ NurbsSurface.curvature c .mean u v = ok ((k1 + k2) / 2) ∧
      NurbsSurface.curvature c .abs u v = ok (|k1| + |k2|) ∧ NurbsSurface.curvature c .rms u v = ok (Real.sqrt (k1 ^ 2 + k2 ^ 2)) := by
  have hD : 0 < detI S u v := by linarith
  have hreg : (surfD S 1 0 u v).cross (surfD S 0 1 u v) ≠ 0 := by
    intro h
    rw [detI_eq, h, length_zero_iff.mpr rfl] at hD
    simp at hD
  have hfar : isAlmostEqualTo (detI S u v) 0 = false := almost_far (by rw [abs_zero, abs_of_pos hD, max_eq_left hD.le, sub_zero, abs_of_pos hD]; exact hdet)
  have tab := table2 w he hpu hun hqv hvm hu0 hu1 hv0 hv1 hp2 hq2 hw S hS hreg
  have hDdef : detI S u v = (surfD S 1 0 u v).dot (surfD S 1 0 u v) * (surfD S 0 1 u v).dot (surfD S 0 1 u v) - (surfD S 1 0 u v).dot (surfD S 0 1 u v) ^ 2 := rfl
  have hchar : ∀ k, charPoly S u v k = ((surfD S 2 0 u v).dot (unitNormal S u v) - k * (surfD S 1 0 u v).dot (surfD S 1 0 u v)) *
    ((surfD S 0 2 u v).dot (unitNormal S u v) - k * (surfD S 0 1 u v).dot (surfD S 0 1 u v)) -
      ((surfD S 1 1 u v).dot (unitNormal S u v) - k * (surfD S 1 0 u v).dot (surfD S 0 1 u v)) ^ 2 := fun _ => rfl
  have hEn : 0 ≤ (surfD S 1 0 u v).dot (surfD S 1 0 u v) := by
    unfold XYZ.dot; nlinarith [mul_self_nonneg (surfD S 1 0 u v).x, mul_self_nonneg (surfD S 1 0 u v).y, mul_self_nonneg (surfD S 1 0 u v).z]
  simp only [hfar, Bool.false_eq_true, if_false, fdiv_ok hD.ne', fdiv_ok (mul_pos two_pos hD).ne', ok_bind] at tab
  set D := detI S u v with hDD
  set L := (surfD S 2 0 u v).dot (unitNormal S u v)
  set M := (surfD S 1 1 u v).dot (unitNormal S u v)
  set Nn := (surfD S 0 2 u v).dot (unitNormal S u v)
  set E := (surfD S 1 0 u v).dot (surfD S 1 0 u v)
  set F := (surfD S 1 0 u v).dot (surfD S 0 1 u v)
  set G := (surfD S 0 1 u v).dot (surfD S 0 1 u v)
  have hE : 0 < E := by
    rcases hEn.lt_or_eq with h | h
    · exact h
    · exfalso
      rw [← h] at hDdef
      nlinarith [sq_nonneg F]
  set K := (L * Nn - M * M) / D with hK
  set H := (E * Nn + G * L - 2 * F * M) / (2 * D) with hH
  have hKD : L * Nn - M * M = K * D := by rw [hK]; field_simp
  have hHD : E * Nn + G * L - 2 * F * M = 2 * H * D := by rw [hH]; field_simp
  have hdisc : 0 ≤ H * H - K := by
    have h1 : E ^ 2 * ((E * Nn + G * L - 2 * F * M) ^ 2 - 4 * (E * G - F ^ 2) * (L * Nn - M * M)) =
        4 * (E * G - F ^ 2) * (E * M - F * L) ^ 2 + (E * (E * Nn - G * L) - 2 * F * (E * M - F * L)) ^ 2 := by ring
    rw [← hDdef, hKD, hHD] at h1
    have h2 : 0 ≤ E ^ 2 * ((2 * H * D) ^ 2 - 4 * D * (K * D)) := by rw [h1]; positivity
    have h3 : E ^ 2 * ((2 * H * D) ^ 2 - 4 * D * (K * D)) = (4 * E ^ 2 * D ^ 2) * (H * H - K) := by ring
    rw [h3] at h2
    exact nonneg_of_mul_nonneg_right h2 (by positivity)
  rw [abs_of_nonneg hdisc] at tab
  set r := Real.sqrt (H * H - K) with hr
  have hr2 : r * r = H * H - K := Real.mul_self_sqrt hdisc
  have hr0 : 0 ≤ r := Real.sqrt_nonneg _
  refine ⟨H + r, H - r, by linarith, ?_, tab .maximum, tab .minimum, ?_, ?_, tab .abs, ?_⟩
  · intro k
    rw [hchar]
    have : (L - k * E) * (Nn - k * G) - (M - k * F) ^ 2 = (L * Nn - M * M) - k * (E * Nn + G * L - 2 * F * M) + k ^ 2 * (E * G - F ^ 2) := by ring
    rw [this, ← hDdef, hKD, hHD]
    linear_combination D * hr2
  · rw [tab .gauss]
    exact congrArg Res.ok (by linear_combination hr2)
  · rw [tab .mean]
    exact congrArg Res.ok (by ring)
  · rw [tab .rms]
    exact congrArg (fun x => Res.ok (Real.sqrt x)) (by ring)

/-- C70 (violated): a surface that is linear in a direction makes `Curvature` throw (it asks for second
derivatives in both directions), at every parameter. -/
theorem C70_linear_violated {c : NurbsSurface ℝ} {p q n m : ℕ} {u v : ℝ} (w : WellFormedS c p q n m)
    (he : EndsSeparatedS c p q n m) (dom : InDomain c p q n m u v) (h : p = 1 ∨ q = 1) (ty : SurfaceCurvature) :
    NurbsSurface.curvature c ty u v = invalidArg := by
  unfold NurbsSurface.curvature NurbsSurface.rationalDerivatives
  have := w.posU
  have := w.posV
  have e : BsplineSurface.computeDerivatives c 2 u v = invalidArg := by
    have := C67_order_rejected (d := 2) w he dom (by omega)
    exact this
  rw [validateUV_ok w dom, ok_bind, validate_of (by simp), ok_bind, e]
  rfl

/-- C70 (violated): wherever the determinant of the first fundamental form is positive but within the
tolerance (about 1e-6, i.e. for surfaces about a thousandth of a unit per parameter unit), every curvature is
reported as 0, whatever the surface. -/
theorem C70_small_determinant {c : NurbsSurface ℝ} {p q n m su sv : ℕ} {u v : ℝ} (w : WellFormedS c p q n m)
    (he : EndsSeparatedS c p q n m) (hpu : p ≤ su) (hun : su ≤ n) (hqv : q ≤ sv) (hvm : sv ≤ m)
    (hu0 : nth c.knotsU su < u) (hu1 : u < nth c.knotsU (su + 1)) (hv0 : nth c.knotsV sv < v) (hv1 : v < nth c.knotsV (sv + 1))
    (hp2 : 2 ≤ p) (hq2 : 2 ≤ q) (hw : surfaceWeight (nth c.knotsU) (nth c.knotsV) p q n m (ent c.cps) u v ≠ 0)
    (S : ℝ → ℝ → XYZ ℝ) (hS : S = rationalSurfacePoint (nth c.knotsU) (nth c.knotsV) p q n m (ent c.cps))
    (hpos : 0 < detI S u v) (hdet : detI S u v ≤ 1 / 1000000) (ty : SurfaceCurvature) :
    NurbsSurface.curvature c ty u v = ok 0 := by
  have hreg : (surfD S 1 0 u v).cross (surfD S 0 1 u v) ≠ 0 := by
    intro h
    rw [detI_eq, h, length_zero_iff.mpr rfl] at hpos
    simp at hpos
  rw [table2 w he hpu hun hqv hvm hu0 hu1 hv0 hv1 hp2 hq2 hw S hS hreg, if_pos]
  apply almost_near
  rw [abs_zero, sub_zero, abs_of_pos hpos, max_eq_left hpos.le]
  linarith

/-- a saddle `(ε u, ε v, ε u v)` as a biquadratic surface -/
noncomputable def saddle (ε : ℝ) : NurbsSurface ℝ :=
  { degreeU := 2, degreeV := 2, knotsU := [0, 0, 0, 1, 1, 1], knotsV := [0, 0, 0, 1, 1, 1]
    cps := [[⟨0, 0, 0, 1⟩, ⟨0, ε / 2, 0, 1⟩, ⟨0, ε, 0, 1⟩], [⟨ε / 2, 0, 0, 1⟩, ⟨ε / 2, ε / 2, ε / 4, 1⟩, ⟨ε / 2, ε, ε / 2, 1⟩],
      [⟨ε, 0, 0, 1⟩, ⟨ε, ε / 2, ε / 2, 1⟩, ⟨ε, ε, ε, 1⟩]] }

theorem saddle_wf (ε : ℝ) : WellFormedS (saddle ε) 2 2 2 2 where
  degreeU := rfl
  degreeV := rfl
  posU := by decide
  posV := by decide
  le7U := by decide
  le7V := by decide
  cps := ⟨rfl, fun i hi => by have : i < 3 := hi; interval_cases i <;> rfl⟩
  pn := by decide
  qm := by decide
  knotsU := rfl
  knotsV := rfl
  sortedU := isValidKnotVector_nth.mp (by rw [isValidKnotVector_iff]; simp [saddle])
  sortedV := isValidKnotVector_nth.mp (by rw [isValidKnotVector_iff]; simp [saddle])

theorem saddle_ends (ε : ℝ) : EndsSeparatedS (saddle ε) 2 2 2 2 := ⟨bez2_ends, bez2_ends⟩

theorem saddle_weight (ε : ℝ) {u v : ℝ} (hu0 : 0 < u) (hu1 : u < 1) (hv0 : 0 < v) (hv1 : v < 1) :
    surfaceWeight (nth (saddle ε).knotsU) (nth (saddle ε).knotsV) 2 2 2 2 (ent (saddle ε).cps) u v = 1 := by
  unfold surfaceWeight
  simp only [sum_range_succ, sum_range_zero, saddle]
  simp only [bez2_N hu0 hu1 0 (by omega), bez2_N hu0 hu1 1 (by omega), bez2_N hu0 hu1 2 (by omega),
    bez2_N hv0 hv1 0 (by omega), bez2_N hv0 hv1 1 (by omega), bez2_N hv0 hv1 2 (by omega), (bez2_dN _).1, (bez2_dN _).2.1, (bez2_dN _).2.2]
  simp [ent, row]
  ring

theorem saddle_point (ε : ℝ) {u v : ℝ} (hu0 : 0 < u) (hu1 : u < 1) (hv0 : 0 < v) (hv1 : v < 1) :
    rationalSurfacePoint (nth (saddle ε).knotsU) (nth (saddle ε).knotsV) 2 2 2 2 (ent (saddle ε).cps) u v = ⟨ε * u, ε * v, ε * u * v⟩ := by
  unfold rationalSurfacePoint
  rw [saddle_weight ε hu0 hu1 hv0 hv1]
  simp only [sum_range_succ, sum_range_zero, saddle]
  simp only [bez2_N hu0 hu1 0 (by omega), bez2_N hu0 hu1 1 (by omega), bez2_N hu0 hu1 2 (by omega),
    bez2_N hv0 hv1 0 (by omega), bez2_N hv0 hv1 1 (by omega), bez2_N hv0 hv1 2 (by omega), (bez2_dN _).1, (bez2_dN _).2.1, (bez2_dN _).2.2]
  ext <;> simp [ent, row] <;> ring

theorem surfD_congr {S S' : ℝ → ℝ → XYZ ℝ} {u v : ℝ} (hu0 : 0 < u) (hu1 : u < 1) (hv0 : 0 < v) (hv1 : v < 1)
    (h : ∀ a b, 0 < a → a < 1 → 0 < b → b < 1 → S a b = S' a b) (k l : ℕ) : surfD S k l u v = surfD S' k l u v := by
  have key : ∀ g : XYZ ℝ → ℝ, iteratedDeriv k (fun a => iteratedDeriv l (fun b => g (S a b)) v) u = iteratedDeriv k (fun a => iteratedDeriv l (fun b => g (S' a b)) v) u := by
    intro g
    apply Filter.EventuallyEq.iteratedDeriv_eq
    filter_upwards [Ioo_mem_nhds hu0 hu1] with a ha
    apply Filter.EventuallyEq.iteratedDeriv_eq
    filter_upwards [Ioo_mem_nhds hv0 hv1] with b hb
    rw [h a b ha.1 ha.2 hb.1 hb.2]
  exact XYZ.ext (key XYZ.x) (key XYZ.y) (key XYZ.z)

theorem saddle_ders (ε : ℝ) (S : ℝ → ℝ → XYZ ℝ) (hS : S = rationalSurfacePoint (nth (saddle ε).knotsU) (nth (saddle ε).knotsV) 2 2 2 2 (ent (saddle ε).cps)) :
    surfD S 1 0 (1/2) (1/2) = ⟨ε, 0, ε / 2⟩ ∧ surfD S 0 1 (1/2) (1/2) = ⟨0, ε, ε / 2⟩ ∧ surfD S 2 0 (1/2) (1/2) = 0 ∧
    surfD S 0 2 (1/2) (1/2) = 0 ∧ surfD S 1 1 (1/2) (1/2) = ⟨0, 0, ε⟩ := by
  subst hS
  have hc : ∀ k l, surfD (rationalSurfacePoint (nth (saddle ε).knotsU) (nth (saddle ε).knotsV) 2 2 2 2 (ent (saddle ε).cps)) k l (1/2) (1/2) =
      surfD (fun u v => ⟨ε * u, ε * v, ε * u * v⟩) k l (1/2) (1/2) := by
    apply surfD_congr (by norm_num) (by norm_num) (by norm_num) (by norm_num)
    intro a b h1 h2 h3 h4
    exact saddle_point ε h1 h2 h3 h4
  simp only [hc]
  refine ⟨?_, ?_, ?_, ?_, ?_⟩ <;> ext <;> simp [surfD, iteratedDeriv_succ, iteratedDeriv_zero] <;> ring

theorem saddle_det (ε : ℝ) (S : ℝ → ℝ → XYZ ℝ) (hS : S = rationalSurfacePoint (nth (saddle ε).knotsU) (nth (saddle ε).knotsV) 2 2 2 2 (ent (saddle ε).cps)) :
    detI S (1/2) (1/2) = 3 / 2 * ε ^ 4 := by
  obtain ⟨h1, h2, -⟩ := saddle_ders ε S hS
  unfold detI
  rw [h1, h2]
  simp only [XYZ.dot]
  ring

/-- C70 is not vacuous: the saddle `(u, v, uv)` -/
example : ∃ k1 k2 : ℝ, NurbsSurface.curvature (saddle 1) .maximum (1/2) (1/2) = ok k1 ∧ NurbsSurface.curvature (saddle 1) .minimum (1/2) (1/2) = ok k2 ∧ k2 ≤ k1 := by
  obtain ⟨k1, k2, h, -, h1, h2, -⟩ := C70_curvature_partial (saddle_wf 1) (saddle_ends 1) (le_refl 2) (le_refl 2) (le_refl 2) (le_refl 2)
    (u := 1/2) (v := 1/2) (by simp [saddle]) (by simp [saddle]; norm_num) (by simp [saddle]) (by simp [saddle]; norm_num) (le_refl 2) (le_refl 2)
    (by rw [saddle_weight 1 (by norm_num) (by norm_num) (by norm_num) (by norm_num)]; norm_num) _ rfl (by rw [saddle_det 1 _ rfl]; norm_num)
  exact ⟨k1, k2, h1, h2, h⟩

/-- C70 (violated): a saddle of the size of a thousandth of a unit has negative Gaussian curvature, namely
`det II / det I`, but is reported to be flat. -/
theorem C70_small_patch_violated : ∃ S, S = rationalSurfacePoint (nth (saddle (1/1000)).knotsU) (nth (saddle (1/1000)).knotsV) 2 2 2 2 (ent (saddle (1/1000)).cps) ∧
    NurbsSurface.curvature (saddle (1/1000)) .gauss (1/2) (1/2) = ok 0 ∧ 0 < detI S (1/2) (1/2) ∧ charPoly S (1/2) (1/2) 0 / detI S (1/2) (1/2) < 0 := by
  refine ⟨_, rfl, ?_⟩
  set S := rationalSurfacePoint (nth (saddle (1/1000)).knotsU) (nth (saddle (1/1000)).knotsV) 2 2 2 2 (ent (saddle (1/1000)).cps) with hS
  obtain ⟨h1, h2, h3, h4, h5⟩ := saddle_ders _ S hS
  have hd := saddle_det _ S hS
  have hpos : 0 < detI S (1/2) (1/2) := by rw [hd]; norm_num
  refine ⟨?_, hpos, ?_⟩
  · exact C70_small_determinant (saddle_wf _) (saddle_ends _) (le_refl 2) (le_refl 2) (le_refl 2) (le_refl 2)
      (by simp [saddle]) (by simp [saddle]; norm_num) (by simp [saddle]) (by simp [saddle]; norm_num) (le_refl 2) (le_refl 2)
      (by rw [saddle_weight _ (by norm_num) (by norm_num) (by norm_num) (by norm_num)]; norm_num) S hS hpos (by rw [hd]; norm_num) _
  · apply div_neg_of_neg_of_pos _ hpos
    have hl : (0:ℝ) < ((surfD S 1 0 (1/2) (1/2)).cross (surfD S 0 1 (1/2) (1/2))).length := by
      have := detI_eq S (1/2) (1/2)
      rcases (length_nonneg ((surfD S 1 0 (1/2) (1/2)).cross (surfD S 0 1 (1/2) (1/2)))).lt_or_eq with h | h
      · exact h
      · rw [← h] at this; rw [this] at hpos; norm_num at hpos
    unfold charPoly unitNormal
    rw [h3, h4, h5]
    set r := ((surfD S 1 0 (1/2) (1/2)).cross (surfD S 0 1 (1/2) (1/2))).length
    rw [h1, h2]
    simp only [XYZ.dot, XYZ.cross, XYZ.smul_x, XYZ.smul_y, XYZ.smul_z, XYZ.zero_x, XYZ.zero_y, XYZ.zero_z]
    have : (0 : ℝ) < r⁻¹ := inv_pos.mpr hl
    nlinarith [mul_pos this this]

/-- C69 is not vacuous: the saddle `(u, v, uv)` -/
example : ∃ nrm, NurbsSurface.normal (saddle 1) (1/2) (1/2) = ok nrm ∧ nrm.length = 1 := by
  obtain ⟨h1, h2, -⟩ := saddle_ders 1 _ rfl
  obtain ⟨e, l, -⟩ := C69_surface_normal (saddle_wf 1) (saddle_ends 1) (le_refl 2) (le_refl 2) (le_refl 2) (le_refl 2)
    (u := 1/2) (v := 1/2) (by simp [saddle]) (by simp [saddle]; norm_num) (by simp [saddle]) (by simp [saddle]; norm_num)
    (by rw [saddle_weight 1 (by norm_num) (by norm_num) (by norm_num) (by norm_num)]; norm_num) _ rfl
    (by rw [h1, h2]; intro h; have := congrArg XYZ.z h; simp [XYZ.cross] at this)
  exact ⟨_, e, l⟩

/-! ### a parabola: non-vacuity of C60 and C69 for curves -/

/-- the parabola `(2t, t², 0)` -/
noncomputable def parabola : NurbsCurve ℝ :=
  { degree := 2, knots := [0, 0, 0, 1, 1, 1], cps := [⟨0, 0, 0, 1⟩, ⟨1, 0, 0, 1⟩, ⟨2, 1, 0, 1⟩] }

theorem parabola_wf : WellFormed parabola 2 2 :=
  { degree := rfl, pos := by decide, le7 := by decide, cps := rfl, pn := le_refl _, knots := rfl,
    sorted := isValidKnotVector_nth.mp (by rw [isValidKnotVector_iff]; simp [parabola]) }

theorem parabola_point {t : ℝ} (h0 : 0 < t) (h1 : t < 1) : weightFn (nth parabola.knots) 2 2 (nth parabola.cps) t = 1 ∧
    rationalPoint (nth parabola.knots) 2 2 (nth parabola.cps) t = ⟨2 * t, t ^ 2, 0⟩ := by
  have hw : weightFn (nth parabola.knots) 2 2 (nth parabola.cps) t = 1 := by
    unfold weightFn
    simp only [sum_range_succ, sum_range_zero, parabola]
    simp only [bez2_N h0 h1 0 (by omega), bez2_N h0 h1 1 (by omega), bez2_N h0 h1 2 (by omega), (bez2_dN _).1, (bez2_dN _).2.1, (bez2_dN _).2.2]
    simp
    ring
  refine ⟨hw, ?_⟩
  unfold weightFn at hw
  unfold rationalPoint
  rw [hw]
  simp only [sum_range_succ, sum_range_zero, parabola]
  simp only [bez2_N h0 h1 0 (by omega), bez2_N h0 h1 1 (by omega), bez2_N h0 h1 2 (by omega), (bez2_dN _).1, (bez2_dN _).2.1, (bez2_dN _).2.2]
  ext <;> simp <;> ring

theorem parabola_ders : curveD (rationalPoint (nth parabola.knots) 2 2 (nth parabola.cps)) 1 (1/2) = ⟨2, 1, 0⟩ ∧
    curveD (rationalPoint (nth parabola.knots) 2 2 (nth parabola.cps)) 2 (1/2) = ⟨0, 2, 0⟩ := by
  have key : ∀ k, curveD (rationalPoint (nth parabola.knots) 2 2 (nth parabola.cps)) k (1/2) = curveD (fun t => ⟨2 * t, t ^ 2, 0⟩) k (1/2) := by
    intro k
    have key : ∀ g : XYZ ℝ → ℝ, iteratedDeriv k (fun a => g (rationalPoint (nth parabola.knots) 2 2 (nth parabola.cps) a)) (1/2) = iteratedDeriv k (fun a => g ⟨2 * a, a ^ 2, 0⟩) (1/2) := by
      intro g
      apply Filter.EventuallyEq.iteratedDeriv_eq
      filter_upwards [Ioo_mem_nhds (show (0:ℝ) < 1/2 by norm_num) (show (1/2:ℝ) < 1 by norm_num)] with a ha
      rw [(parabola_point ha.1 ha.2).2]
    exact XYZ.ext (key XYZ.x) (key XYZ.y) (key XYZ.z)
  simp only [key]
  constructor <;> ext <;> simp [curveD, iteratedDeriv_succ, iteratedDeriv_zero]

theorem parabola_speed : 1 / 1000000 * (1 + max |(⟨2, 1, 0⟩ : XYZ ℝ).length| |1|) < |(⟨2, 1, 0⟩ : XYZ ℝ).length - 1| := by
  have h2 : (2:ℝ) ≤ (⟨2, 1, 0⟩ : XYZ ℝ).length := by
    apply Real.le_sqrt_of_sq_le; norm_num
  have h3 : (⟨2, 1, 0⟩ : XYZ ℝ).length ≤ 3 := by
    apply Real.sqrt_le_iff.mpr; norm_num
  rw [abs_of_nonneg (by linarith), abs_one, abs_of_nonneg (by linarith), max_eq_left (by linarith)]
  linarith

/-- C60 and C69 are not vacuous -/
example : NurbsCurve.curvature parabola (1/2) = ok (curvatureOf (rationalPoint (nth parabola.knots) 2 2 (nth parabola.cps)) (1/2)) ∧
    ∃ nn, NurbsCurve.normal parabola .normal (1/2) = ok nn ∧ nn.length = 1 := by
  obtain ⟨d1, d2⟩ := parabola_ders
  have hw : weightFn (nth parabola.knots) 2 2 (nth parabola.cps) (1/2) ≠ 0 := by
    rw [(parabola_point (by norm_num) (by norm_num)).1]; norm_num
  constructor
  · refine C60_curvature_partial parabola_wf bez2_ends (le_refl 2) (le_refl 2) (by simp [parabola]) (by simp [parabola]; norm_num) hw _ rfl ?_ ?_
    · rw [d1]; intro h; have := congrArg XYZ.y h; simp at this
    · left; rw [d1]; exact parabola_speed
  · obtain ⟨b, nn, -, e, -, l, -⟩ := C69_curve_normal_partial parabola_wf bez2_ends (le_refl 2) (le_refl 2) (t := 1/2) (by simp [parabola]) (by simp [parabola]; norm_num) hw _ rfl
      (by rw [d1, d2]; intro h; have := congrArg XYZ.z h; simp [XYZ.cross] at this) (by rw [d1]; exact parabola_speed)
    exact ⟨nn, e, l⟩

end LNLib.Props
