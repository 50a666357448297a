import Verif.Model.Torsion
import Verif.Props.DiffGeom

/-!
# C121: torsion of a curve
(Geometry/Curve/NurbsCurve.cpp)
-/
set_option linter.unusedSectionVars false

namespace LNLib.Spec

/-- torsion of a space curve: `((C' × C'') · C''') / |C' × C''|²` -/
noncomputable def torsionOf (C : ℝ → XYZ ℝ) (t : ℝ) : ℝ :=
  ((curveD C 1 t).cross (curveD C 2 t)).dot (curveD C 3 t) / ((curveD C 1 t).cross (curveD C 2 t)).length ^ 2

end LNLib.Spec

namespace LNLib.Props
open LNLib Res Spec Finset

theorem torsion_eq {c : NurbsCurve ℝ} {p n s : ℕ} {t : ℝ} (w : WellFormed c p n)
    (he : EndsSeparated (nth c.knots) p n) (hps : p ≤ s) (hsn : s ≤ n) (h0 : nth c.knots s < t) (h1 : t < nth c.knots (s + 1))
    (hw : weightFn (nth c.knots) p n (nth c.cps) t ≠ 0) {C : ℝ → XYZ ℝ} (hC : C = rationalPoint (nth c.knots) p n (nth c.cps)) :
    NurbsCurve.torsion c t =
      if isAlmostEqualTo (curveD C 1 t).length 1 then
        fdiv (((curveD C 1 t).cross (curveD C 2 t)).dot (curveD C 3 t)) ((curveD C 2 t).dot (curveD C 2 t))
      else fdiv (((curveD C 1 t).cross (curveD C 2 t)).dot (curveD C 3 t))
        (((curveD C 1 t).cross (curveD C 2 t)).dot ((curveD C 1 t).cross (curveD C 2 t))) := by
  subst hC
  obtain ⟨l, e, hl, hk⟩ := C20_true_derivative w he hps hsn h0 h1 (d := 3) (by decide) hw
  have hlen := w.knots
  have hm := wf_monoTo w
  have b0 := hm 0 s (by omega) (by omega)
  have b1 := hm (s + 1) (n + p + 1) (by omega) (by omega)
  have heps := doubleEps_pos (K := ℝ)
  have e' : NurbsCurve.rationalDerivatives c 3 t = ok l := e
  have g : ∀ k ≤ 3, nth l k = curveD (rationalPoint (nth c.knots) p n (nth c.cps)) k t := fun k hk3 =>
    XYZ.ext (hk k hk3).1 (hk k hk3).2.1 (hk k hk3).2.2
  unfold NurbsCurve.torsion
  rw [vget_nth (k := 0) (i := 0) rfl (by omega), ok_bind, vget_nth (k := n + p + 1) (by omega) (by omega), ok_bind,
    validateRange_eq_ok_iff.mpr ⟨by linarith, by linarith⟩, ok_bind, e', ok_bind, vget_nth (k := 1) (i := 1) rfl (by omega), ok_bind,
    vget_nth (k := 2) (i := 2) rfl (by omega), ok_bind, vget_nth (k := 3) (i := 3) rfl (by omega), ok_bind,
    g 1 (by omega), g 2 (by omega), g 3 (by omega)]

theorem dot_self (a : XYZ ℝ) : a.dot a = a.length ^ 2 := by
  rw [length_sq]
  rfl

/-- C121 (partial): inside a span, where `C' × C'' ≠ 0`, `Torsion` returns `((C' × C'') · C''') / |C' × C''|²`
whenever the speed of the curve is not (up to tolerance) equal to one, and also when the speed is exactly one
and `C''` is orthogonal to `C'`, as for an arc-length parametrisation.  For a speed that merely happens to be
one at the parameter the returned value is wrong, see `C121_speed_one_violated`. -/
theorem C121_torsion_partial {c : NurbsCurve ℝ} {p n s : ℕ} {t : ℝ} (w : WellFormed c p n)
    (he : EndsSeparated (nth c.knots) p n) (hps : p ≤ s) (hsn : s ≤ n) (h0 : nth c.knots s < t) (h1 : t < nth c.knots (s + 1))
    (hw : weightFn (nth c.knots) p n (nth c.cps) t ≠ 0) (C : ℝ → XYZ ℝ) (hC : C = rationalPoint (nth c.knots) p n (nth c.cps))
    (hreg : (curveD C 1 t).cross (curveD C 2 t) ≠ 0)
    (hspeed : 1 / 1000000 * (1 + max |(curveD C 1 t).length| |1|) < |(curveD C 1 t).length - 1| ∨
      ((curveD C 1 t).length = 1 ∧ (curveD C 1 t).dot (curveD C 2 t) = 0)) :
    NurbsCurve.torsion c t = ok (torsionOf C t) := by
  rw [torsion_eq w he hps hsn h0 h1 hw hC]
  have hp := length_pos hreg
  have hd : ((curveD C 1 t).cross (curveD C 2 t)).dot ((curveD C 1 t).cross (curveD C 2 t)) ≠ 0 := by
    rw [dot_self]; exact pow_ne_zero _ hp.ne'
  rcases hspeed with h | ⟨h, h'⟩
  · rw [if_neg (by rw [almost_far h]; simp), fdiv_ok hd, torsionOf, dot_self]
  · have e : (curveD C 2 t).dot (curveD C 2 t) = ((curveD C 1 t).cross (curveD C 2 t)).length ^ 2 := by
      have e := C29_lagrange (curveD C 1 t) (curveD C 2 t)
      have l1 : (curveD C 1 t).length ^ 2 = (curveD C 1 t).sqrLength := length_sq _
      have l2 : (curveD C 2 t).length ^ 2 = (curveD C 2 t).sqrLength := length_sq _
      have l3 : ((curveD C 1 t).cross (curveD C 2 t)).length ^ 2 = ((curveD C 1 t).cross (curveD C 2 t)).sqrLength := length_sq _
      rw [h, one_pow] at l1
      rw [h', ← l1, one_mul] at e
      rw [dot_self, l3, l2, ← e]
      ring
    rw [h, if_pos (almost_near (by norm_num)), e, fdiv_ok (pow_ne_zero _ hp.ne'), torsionOf]

/-- C121: where `C' × C''` vanishes (on a straight piece, at an inflection or a cusp) the torsion is undefined; unless
the speed is (up to tolerance) one, the code divides zero by zero. -/
theorem C121_undefined_nonfinite {c : NurbsCurve ℝ} {p n s : ℕ} {t : ℝ} (w : WellFormed c p n)
    (he : EndsSeparated (nth c.knots) p n) (hps : p ≤ s) (hsn : s ≤ n) (h0 : nth c.knots s < t) (h1 : t < nth c.knots (s + 1))
    (hw : weightFn (nth c.knots) p n (nth c.cps) t ≠ 0) (C : ℝ → XYZ ℝ) (hC : C = rationalPoint (nth c.knots) p n (nth c.cps))
    (hz : (curveD C 1 t).cross (curveD C 2 t) = 0)
    (hspeed : 1 / 1000000 * (1 + max |(curveD C 1 t).length| |1|) < |(curveD C 1 t).length - 1|) :
    NurbsCurve.torsion c t = nonfinite := by
  rw [torsion_eq w he hps hsn h0 h1 hw hC, if_neg (by rw [almost_far hspeed]; simp), hz]
  simp [fdiv, XYZ.dot]

/-! ### cubic curves for the witnesses -/

/-- the cubic `(a s + b s²/2, d s²/2, s³/6)`, `s = t - 1/2`, as a Bézier curve -/
noncomputable def twisted (a b d : ℝ) : NurbsCurve ℝ :=
  { degree := 3, knots := [0, 0, 0, 0, 1, 1, 1, 1],
    cps := [⟨-a/2 + b/8, d/8, -1/48, 1⟩, ⟨-a/6 - b/24, -d/24, 1/48, 1⟩, ⟨a/6 - b/24, -d/24, -1/48, 1⟩, ⟨a/2 + b/8, d/8, 1/48, 1⟩] }

theorem twisted_wf (a b d : ℝ) : WellFormed (twisted a b d) 3 3 :=
  { degree := rfl, pos := by decide, le7 := by decide, cps := rfl, pn := le_refl _, knots := rfl,
    sorted := isValidKnotVector_nth.mp (by rw [isValidKnotVector_iff]; simp [twisted]) }

theorem bez3_ends : EndsSeparated (nth ([0, 0, 0, 0, 1, 1, 1, 1] : List ℝ)) 3 3 := by
  constructor <;> simp [nth] <;> norm_num

theorem twisted_curve (a b d : ℝ) {t : ℝ} (h0 : 0 < t) (h1 : t < 1) :
    curvePoint (nth (twisted a b d).knots) 3 3 (nth (twisted a b d).cps) t =
      ⟨a * (t - 1/2) + b * (t - 1/2) ^ 2 / 2, d * (t - 1/2) ^ 2 / 2, (t - 1/2) ^ 3 / 6, 1⟩ := by
  have e := cubic_bezier (K := ℝ) (P := nth (twisted a b d).cps) h0.le h1.le
  show curvePoint (nth ([0, 0, 0, 0, 1, 1, 1, 1] : List ℝ)) 3 3 (nth (twisted a b d).cps) t = _
  rw [e]
  ext <;> simp [twisted] <;> ring

theorem twisted_point (a b d : ℝ) {t : ℝ} (h0 : 0 < t) (h1 : t < 1) :
    weightFn (nth (twisted a b d).knots) 3 3 (nth (twisted a b d).cps) t = 1 ∧
    rationalPoint (nth (twisted a b d).knots) 3 3 (nth (twisted a b d).cps) t =
      ⟨a * (t - 1/2) + b * (t - 1/2) ^ 2 / 2, d * (t - 1/2) ^ 2 / 2, (t - 1/2) ^ 3 / 6⟩ := by
  have e := twisted_curve a b d h0 h1
  have hw : weightFn (nth (twisted a b d).knots) 3 3 (nth (twisted a b d).cps) t = 1 := by
    have := congrArg XYZW.w e
    unfold curvePoint at this
    rw [XYZW.sum_w] at this
    exact this
  refine ⟨hw, ?_⟩
  unfold rationalPoint
  unfold weightFn at hw
  unfold curvePoint at e
  rw [hw]
  rw [sum_range_succ, sum_range_succ, sum_range_succ, sum_range_one] at e ⊢
  have ex := congrArg XYZW.wx e
  have ey := congrArg XYZW.wy e
  have ez := congrArg XYZW.wz e
  simp only [XYZW.add_wx, XYZW.add_wy, XYZW.add_wz, XYZW.smul_wx, XYZW.smul_wy, XYZW.smul_wz] at ex ey ez
  ext
  · simpa using ex
  · simpa using ey
  · simpa using ez

theorem twisted_ders (a b d : ℝ) : curveD (rationalPoint (nth (twisted a b d).knots) 3 3 (nth (twisted a b d).cps)) 1 (1/2) = ⟨a, 0, 0⟩ ∧
    curveD (rationalPoint (nth (twisted a b d).knots) 3 3 (nth (twisted a b d).cps)) 2 (1/2) = ⟨b, d, 0⟩ ∧
    curveD (rationalPoint (nth (twisted a b d).knots) 3 3 (nth (twisted a b d).cps)) 3 (1/2) = ⟨0, 0, 1⟩ := by
  have key : ∀ k, curveD (rationalPoint (nth (twisted a b d).knots) 3 3 (nth (twisted a b d).cps)) k (1/2) =
      curveD (fun t => ⟨a * (t - 1/2) + b * (t - 1/2) ^ 2 / 2, d * (t - 1/2) ^ 2 / 2, (t - 1/2) ^ 3 / 6⟩) k (1/2) := by
    intro k
    have key : ∀ g : XYZ ℝ → ℝ, iteratedDeriv k (fun t => g (rationalPoint (nth (twisted a b d).knots) 3 3 (nth (twisted a b d).cps) t)) (1/2) =
        iteratedDeriv k (fun t => g ⟨a * (t - 1/2) + b * (t - 1/2) ^ 2 / 2, d * (t - 1/2) ^ 2 / 2, (t - 1/2) ^ 3 / 6⟩) (1/2) := by
      intro g
      apply Filter.EventuallyEq.iteratedDeriv_eq
      filter_upwards [Ioo_mem_nhds (show (0:ℝ) < 1/2 by norm_num) (show (1/2:ℝ) < 1 by norm_num)] with x hx
      rw [(twisted_point a b d hx.1 hx.2).2]
    exact XYZ.ext (key XYZ.x) (key XYZ.y) (key XYZ.z)
  simp only [key]
  have q1 : ∀ k e : ℝ, deriv (fun t : ℝ => k * (t - 1/2) + e * (t - 1/2) ^ 2 / 2) = fun t => k + e * (t - 1/2) := by
    intro k e
    funext t
    have h : HasDerivAt (fun t : ℝ => t - 1/2) 1 t := (hasDerivAt_id t).sub_const _
    have := (h.const_mul k).add (((h.pow 2).const_mul e).div_const 2)
    refine HasDerivAt.deriv (HasDerivAt.congr_deriv this ?_)
    norm_num
    ring
  have q2 : ∀ k e : ℝ, deriv (fun t : ℝ => k + e * (t - 1/2)) = fun _ => e := by
    intro k e
    funext t
    have h : HasDerivAt (fun t : ℝ => t - 1/2) 1 t := (hasDerivAt_id t).sub_const _
    have := (h.const_mul e).const_add k
    convert this.deriv using 1
    simp
  have q3 : deriv (fun t : ℝ => (t - 1/2) ^ 3 / 6) = fun t => 0 * (t - 1/2) + 1 * (t - 1/2) ^ 2 / 2 := by
    funext t
    have h : HasDerivAt (fun t : ℝ => t - 1/2) 1 t := (hasDerivAt_id t).sub_const _
    have := (h.pow 3).div_const 6
    refine HasDerivAt.deriv (HasDerivAt.congr_deriv this ?_)
    norm_num
    ring
  have q4 : (fun t : ℝ => d * (t - 1/2) ^ 2 / 2) = fun t => 0 * (t - 1/2) + d * (t - 1/2) ^ 2 / 2 := by funext t; ring
  refine ⟨?_, ?_, ?_⟩ <;> unfold curveD <;> simp only [q4] <;> simp only [iteratedDeriv_succ, iteratedDeriv_zero, q1, q2, q3, deriv_const] <;> ext <;> simp

theorem twisted_torsion (a b d : ℝ) (ha : a ≠ 0) (hd : d ≠ 0) :
    torsionOf (rationalPoint (nth (twisted a b d).knots) 3 3 (nth (twisted a b d).cps)) (1/2) = 1 / (a * d) := by
  obtain ⟨d1, d2, d3⟩ := twisted_ders a b d
  rw [torsionOf, d1, d2, d3, length_sq]
  simp [XYZ.cross, XYZ.dot]

/-- C121 (violated): a cubic whose speed at the parameter happens to be one, with torsion 1 there, is reported to
have torsion 1/2. -/
theorem C121_speed_one_violated : NurbsCurve.torsion (twisted 1 1 1) (1/2) = ok (1/2) ∧
    torsionOf (rationalPoint (nth (twisted 1 1 1).knots) 3 3 (nth (twisted 1 1 1).cps)) (1/2) = 1 := by
  obtain ⟨d1, d2, d3⟩ := twisted_ders 1 1 1
  have hw : weightFn (nth (twisted 1 1 1).knots) 3 3 (nth (twisted 1 1 1).cps) (1/2) ≠ 0 := by
    rw [(twisted_point 1 1 1 (by norm_num) (by norm_num)).1]; norm_num
  constructor
  · rw [torsion_eq (twisted_wf 1 1 1) bez3_ends (le_refl 3) (le_refl 3) (by simp [twisted]) (by simp [twisted]; norm_num) hw rfl, d1, d2, d3]
    have e1 : (⟨1, 0, 0⟩ : XYZ ℝ).length = 1 := by simp [XYZ.length]
    rw [e1, if_pos (almost_near (by norm_num)), fdiv_ok (by simp [XYZ.dot])]
    norm_num [XYZ.cross, XYZ.dot]
  · rw [twisted_torsion 1 1 1 one_ne_zero one_ne_zero]; norm_num

/-- C121 is not vacuous: a twisted cubic of speed 3 has the reported torsion 1/3. -/
example : NurbsCurve.torsion (twisted 3 1 1) (1/2) = ok (1/3) := by
  obtain ⟨d1, d2, d3⟩ := twisted_ders 3 1 1
  have hw : weightFn (nth (twisted 3 1 1).knots) 3 3 (nth (twisted 3 1 1).cps) (1/2) ≠ 0 := by
    rw [(twisted_point 3 1 1 (by norm_num) (by norm_num)).1]; norm_num
  rw [C121_torsion_partial (twisted_wf 3 1 1) bez3_ends (le_refl 3) (le_refl 3) (by simp [twisted]) (by simp [twisted]; norm_num) hw _ rfl
    (by rw [d1, d2]; intro h; have := congrArg XYZ.z h; simp [XYZ.cross] at this) (by
      left
      rw [d1]
      have e1 : (⟨3, 0, 0⟩ : XYZ ℝ).length = 3 := by
        simp only [XYZ.length]
        rw [show (3 : ℝ) * 3 + 0 * 0 + 0 * 0 = 3 ^ 2 by norm_num, Real.sqrt_sq (by norm_num)]
      rw [e1]; norm_num), twisted_torsion 3 1 1 (by norm_num) (by norm_num)]
  norm_num

end LNLib.Props
