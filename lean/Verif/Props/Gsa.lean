import Verif.Model.Gsa
import Verif.Props.DiffGeom
import Verif.Props.SurfaceNearest

/-!
# C154: the second search for the nearest point of a surface
-/
set_option linter.unusedSectionVars false

namespace LNLib.Props
open LNLib Res LNLib.Spec Finset

/-- the search up to its first round -/
theorem gsa_start {c : NurbsSurface ℝ} {p q n m : ℕ} (w : WellFormedS c p q n m) (P : XYZ ℝ) {u v : ℝ}
    (hu : u = (nth c.knotsU (n + p + 1) - nth c.knotsU 0) * (1 / 2)) (hv : v = (nth c.knotsV (m + q + 1) - nth c.knotsV 0) * (1 / 2)) :
    getParamOnSurfaceByGSA c P = (do
      let st ← gsaRound c P (u, v)
      let r ← forI (0 + 1) 1000 st fun _ st => if st.2 then ok st else gsaRound c P st.1
      ok r.1) := by
  have lU := w.knotsU
  have lV := w.knotsV
  unfold getParamOnSurfaceByGSA
  rw [vget_nth (i := 0) (k := 0) rfl (by omega), ok_bind, vget_nth (k := n + p + 1) (by omega) (by omega), ok_bind, vget_nth (i := 0) (k := 0) rfl (by omega), ok_bind,
    vget_nth (k := m + q + 1) (by omega) (by omega), ok_bind, ← hu, ← hv]
  dsimp only
  rw [forI_head (by norm_num), if_neg (by simp), bind_assoc']

/-- a failure of the first round is the result of the search -/
theorem gsa_fails {c : NurbsSurface ℝ} {p q n m : ℕ} (w : WellFormedS c p q n m) {P : XYZ ℝ} {u v : ℝ}
    (hu : u = (nth c.knotsU (n + p + 1) - nth c.knotsU 0) * (1 / 2)) (hv : v = (nth c.knotsV (m + q + 1) - nth c.knotsV 0) * (1 / 2)) :
    (gsaRound c P (u, v) = nonfinite → getParamOnSurfaceByGSA c P = nonfinite) ∧ (gsaRound c P (u, v) = invalidArg → getParamOnSurfaceByGSA c P = invalidArg) ∧
      (gsaRound c P (u, v) = outOfRange → getParamOnSurfaceByGSA c P = outOfRange) := by
  rw [gsa_start w P hu hv]
  refine ⟨fun h => ?_, fun h => ?_, fun h => ?_⟩ <;> rw [h] <;> rfl

/-- C154 is violated by every surface whose domain does not contain half of its own length in the first direction: the search starts at this number, and throws an exception whatever the
point. -/
theorem C154_domain_violated {c : NurbsSurface ℝ} {p q n m : ℕ} (w : WellFormedS c p q n m)
    (hout : (nth c.knotsU (n + p + 1) - nth c.knotsU 0) / 2 < nth c.knotsU 0 - 1 / 1000000 ∨ nth c.knotsU (n + p + 1) + 1 / 1000000 < (nth c.knotsU (n + p + 1) - nth c.knotsU 0) / 2)
    (P : XYZ ℝ) : getParamOnSurfaceByGSA c P = outOfRange := by
  have lU := w.knotsU
  refine (gsa_fails w rfl rfl).2.2 ?_
  unfold gsaRound NurbsSurface.pointOnSurface BsplineSurface.pointOnSurface BsplineSurface.validateUV
  rw [vget_nth (i := 0) (k := 0) rfl (by omega), ok_bind, vget_nth (k := n + p + 1) (by omega) (by omega), ok_bind]
  unfold validateRange
  rw [if_pos]
  · rfl
  · rcases hout with h | h
    · refine Or.inl ⟨by linarith, ?_⟩
      unfold doubleEps
      rw [abs_of_neg (by linarith)]
      linarith
    · refine Or.inr ⟨by linarith, ?_⟩
      unfold doubleEps
      rw [abs_of_pos (by linarith)]
      linarith

/-- C154 is violated by every surface of degree one in a direction: the search throws an exception, whatever the point. -/
theorem C154_linear_violated {c : NurbsSurface ℝ} {p q n m : ℕ} {u v : ℝ} (w : WellFormedS c p q n m) (he : EndsSeparatedS c p q n m)
    (hw : ∀ i j, i ≤ n → j ≤ m → 0 < (ent c.cps i j).w) (h : p = 1 ∨ q = 1)
    (hu : u = (nth c.knotsU (n + p + 1) - nth c.knotsU 0) * (1 / 2)) (hv : v = (nth c.knotsV (m + q + 1) - nth c.knotsV 0) * (1 / 2)) (dom : InDomain c p q n m u v)
    (P : XYZ ℝ) : getParamOnSurfaceByGSA c P = invalidArg := by
  refine (gsa_fails w hu hv).2.1 ?_
  have hp := w.posU
  have hq := w.posV
  obtain ⟨su, -, hsu⟩ := getKnotSpanIndex_isSpan w.knotsU w.pn w.sortedU he.u dom.u0 dom.u1
  obtain ⟨sv, -, hsv⟩ := getKnotSpanIndex_isSpan w.knotsV w.qm w.sortedV he.v dom.v0 dom.v1
  obtain ⟨M, e, hM, -⟩ := C67_leibniz w he dom (d := 1) (by omega) (by omega) (by omega) hsu hsv (surfaceWeight_pos w he dom hw).ne'
  have e' : NurbsSurface.rationalDerivatives c 1 u v = ok M := e
  unfold gsaRound NurbsSurface.pointOnSurface NurbsSurface.normal
  dsimp only
  rw [C33_eval w he dom, ok_bind, ok_bind, validateUV_ok w dom, ok_bind, e', ok_bind,
    mget_ent (a := 1) (b := 0) (i := 1) (j := 0) hM rfl rfl (by omega) (by omega), ok_bind, mget_ent (a := 0) (b := 1) (i := 0) (j := 1) hM rfl rfl (by omega) (by omega), ok_bind, ok_bind,
    order2_rejected w he dom h]
  rfl

/-- the first part of a round at a regular point inside a pair of spans -/
theorem gsaRound_regular {c : NurbsSurface ℝ} {p q n m su sv : ℕ} {u v : ℝ} (w : WellFormedS c p q n m)
    (he : EndsSeparatedS c p q n m) (hpu : p ≤ su) (hun : su ≤ n) (hqv : q ≤ sv) (hvm : sv ≤ m)
    (hu0 : nth c.knotsU su < u) (hu1 : u < nth c.knotsU (su + 1)) (hv0 : nth c.knotsV sv < v) (hv1 : v < nth c.knotsV (sv + 1))
    (hp2 : 2 ≤ p) (hq2 : 2 ≤ q) (hw : surfaceWeight (nth c.knotsU) (nth c.knotsV) p q n m (ent c.cps) u v ≠ 0)
    (S : ℝ → ℝ → XYZ ℝ) (hS : S = rationalSurfacePoint (nth c.knotsU) (nth c.knotsV) p q n m (ent c.cps))
    (hdet : 1 / 1000000 * (1 + detI S u v) < detI S u v) {p0 : XYZ ℝ} (hp0 : NurbsSurface.pointOnSurface c u v = ok p0) (P : XYZ ℝ)
    (h : ((P - p0).dot (surfD S 1 0 u v) = 0 ∧ (P - p0).dot (surfD S 0 1 u v) = 0) ∨
      ((surfD S 2 0 u v).dot (unitNormal S u v) = 0 ∧ (surfD S 1 1 u v).dot (unitNormal S u v) = 0 ∧ (surfD S 0 2 u v).dot (unitNormal S u v) = 0)) :
    gsaRound c P (u, v) = nonfinite := by
  have hD : 0 < detI S u v := by linarith
  have hreg : (surfD S 1 0 u v).cross (surfD S 0 1 u v) ≠ 0 := by
    intro h
    rw [detI_eq, h, length_zero_iff.mpr rfl] at hD
    simp at hD
  have hfar : isAlmostEqualTo (detI S u v) 0 = false := almost_far (by rw [abs_zero, abs_of_pos hD, max_eq_left hD.le, sub_zero, abs_of_pos hD]; exact hdet)
  obtain ⟨hn, -, o1, o2⟩ := C69_surface_normal w he hpu hun hqv hvm hu0 hu1 hv0 hv1 hw S hS hreg
  subst hS
  obtain ⟨M, e, hM, hk⟩ := C67_true_derivative w he hpu hun hqv hvm hu0 hu1 hv0 hv1 (d := 2) (by decide) hp2 hq2 hw
  have e' : NurbsSurface.rationalDerivatives c 2 u v = ok M := e
  set S := rationalSurfacePoint (nth c.knotsU) (nth c.knotsV) p q n m (ent c.cps)
  have f : ∀ k l, k + l ≤ 2 → ent M k l = surfD S k l u v := fun k l h => XYZ.ext (hk k l h).1 (hk k l h).2.1 (hk k l h).2.2
  have comm : ∀ a b : XYZ ℝ, a.dot b = b.dot a := by intro a b; simp only [XYZ.dot]; ring
  rw [comm] at o1 o2
  unfold gsaRound
  dsimp only
  rw [hp0, ok_bind, hn, ok_bind, e', ok_bind,
    mget_ent (a := 2) (b := 0) (i := 2) (j := 0) hM rfl rfl (by omega) (by omega), ok_bind, mget_ent (a := 0) (b := 2) (i := 0) (j := 2) hM rfl rfl (by omega) (by omega), ok_bind,
    mget_ent (a := 1) (b := 1) (i := 1) (j := 1) hM rfl rfl (by omega) (by omega), ok_bind, mget_ent (a := 1) (b := 0) (i := 1) (j := 0) hM rfl rfl (by omega) (by omega), ok_bind,
    mget_ent (a := 0) (b := 1) (i := 0) (j := 1) hM rfl rfl (by omega) (by omega), ok_bind, f 2 0 (by omega), f 0 2 (by omega), f 1 1 (by omega), f 1 0 (by omega), f 0 1 (by omega), o1, o2]
  have hd : detI S u v = (surfD S 1 0 u v).dot (surfD S 1 0 u v) * (surfD S 0 1 u v).dot (surfD S 0 1 u v) - (surfD S 1 0 u v).dot (surfD S 0 1 u v) * (surfD S 1 0 u v).dot (surfD S 0 1 u v) := by
    unfold detI; ring
  rw [← hd, if_neg (by rw [hfar]; simp)]
  have hden : 0 * 0 * (surfD S 0 1 u v).dot (surfD S 0 1 u v) - 2 * 0 * 0 * (surfD S 1 0 u v).dot (surfD S 0 1 u v) + 0 * 0 * (surfD S 1 0 u v).dot (surfD S 1 0 u v) -
      (surfD S 1 0 u v).dot (surfD S 1 0 u v) * (surfD S 0 1 u v).dot (surfD S 0 1 u v) + (surfD S 1 0 u v).dot (surfD S 0 1 u v) * (surfD S 1 0 u v).dot (surfD S 0 1 u v) = -detI S u v := by
    rw [hd]; ring
  rw [hden, fdiv_ok (by linarith), ok_bind, fdiv_ok (by linarith), ok_bind]
  rcases h with ⟨h1, h2⟩ | ⟨h1, h2, h3⟩
  · rw [h1, h2]
    unfold fdiv
    rw [if_pos (by ring)]
    rfl
  · rw [h1, h2, h3]
    have z : ∀ (a b E F G : ℝ) (k : ℝ → Res ((ℝ × ℝ) × Bool)), (do
        let curvature ← fdiv (0 * a * a + 2 * 0 * a * b + 0 * b * b) (E * a * a + 2 * F * a * b + G * b * b)
        let radius ← fdiv 1 |curvature|
        k radius) = nonfinite := by
      intro a b E F G k
      unfold fdiv
      split_ifs with h
      · rfl
      · rw [ok_bind, if_pos (by simp)]
        rfl
    exact z _ _ _ _ _ _

/-- C154 is violated whenever the search starts at the answer: when the vector from the starting point of the surface to the given point is already orthogonal to the surface (in particular when
the given point is this point of the surface), the search divides zero by zero. -/
theorem C154_foot_violated {c : NurbsSurface ℝ} {p q n m su sv : ℕ} {u v : ℝ} (w : WellFormedS c p q n m)
    (he : EndsSeparatedS c p q n m) (hpu : p ≤ su) (hun : su ≤ n) (hqv : q ≤ sv) (hvm : sv ≤ m)
    (hu : u = (nth c.knotsU (n + p + 1) - nth c.knotsU 0) * (1 / 2)) (hv : v = (nth c.knotsV (m + q + 1) - nth c.knotsV 0) * (1 / 2))
    (hu0 : nth c.knotsU su < u) (hu1 : u < nth c.knotsU (su + 1)) (hv0 : nth c.knotsV sv < v) (hv1 : v < nth c.knotsV (sv + 1))
    (hp2 : 2 ≤ p) (hq2 : 2 ≤ q) (hw : surfaceWeight (nth c.knotsU) (nth c.knotsV) p q n m (ent c.cps) u v ≠ 0)
    (S : ℝ → ℝ → XYZ ℝ) (hS : S = rationalSurfacePoint (nth c.knotsU) (nth c.knotsV) p q n m (ent c.cps))
    (hdet : 1 / 1000000 * (1 + detI S u v) < detI S u v) {p0 P : XYZ ℝ} (hp0 : NurbsSurface.pointOnSurface c u v = ok p0)
    (h1 : (P - p0).dot (surfD S 1 0 u v) = 0) (h2 : (P - p0).dot (surfD S 0 1 u v) = 0) : getParamOnSurfaceByGSA c P = nonfinite :=
  (gsa_fails w hu hv).1 (gsaRound_regular w he hpu hun hqv hvm hu0 hu1 hv0 hv1 hp2 hq2 hw S hS hdet hp0 P (Or.inl ⟨h1, h2⟩))

/-- C154 is violated by every surface without curvature at the start (in particular by every regular plane patch): the search divides by zero, whatever the point. -/
theorem C154_flat_violated {c : NurbsSurface ℝ} {p q n m su sv : ℕ} {u v : ℝ} (w : WellFormedS c p q n m)
    (he : EndsSeparatedS c p q n m) (hpu : p ≤ su) (hun : su ≤ n) (hqv : q ≤ sv) (hvm : sv ≤ m)
    (hu : u = (nth c.knotsU (n + p + 1) - nth c.knotsU 0) * (1 / 2)) (hv : v = (nth c.knotsV (m + q + 1) - nth c.knotsV 0) * (1 / 2))
    (hu0 : nth c.knotsU su < u) (hu1 : u < nth c.knotsU (su + 1)) (hv0 : nth c.knotsV sv < v) (hv1 : v < nth c.knotsV (sv + 1))
    (hp2 : 2 ≤ p) (hq2 : 2 ≤ q) (hw : surfaceWeight (nth c.knotsU) (nth c.knotsV) p q n m (ent c.cps) u v ≠ 0)
    (S : ℝ → ℝ → XYZ ℝ) (hS : S = rationalSurfacePoint (nth c.knotsU) (nth c.knotsV) p q n m (ent c.cps))
    (hdet : 1 / 1000000 * (1 + detI S u v) < detI S u v) (h20 : (surfD S 2 0 u v).dot (unitNormal S u v) = 0) (h11 : (surfD S 1 1 u v).dot (unitNormal S u v) = 0)
    (h02 : (surfD S 0 2 u v).dot (unitNormal S u v) = 0) (P : XYZ ℝ) : getParamOnSurfaceByGSA c P = nonfinite := by
  have hU := wfS_monoU w
  have hV := wfS_monoV w
  have b0 := hU p su hpu (by omega)
  have b1 := hU (su + 1) (n + 1) (by omega) (by omega)
  have b2 := hV q sv hqv (by omega)
  have b3 := hV (sv + 1) (m + 1) (by omega) (by omega)
  have dom : InDomain c p q n m u v := ⟨by linarith, by linarith, by linarith, by linarith⟩
  have hp0 : NurbsSurface.pointOnSurface c u v = ok (surfacePoint (nth c.knotsU) (nth c.knotsV) p q n m (ent c.cps) u v).toXYZ := by
    unfold NurbsSurface.pointOnSurface
    rw [C33_eval w he dom, ok_bind]
  exact (gsa_fails w hu hv).1 (gsaRound_regular w he hpu hun hqv hvm hu0 hu1 hv0 hv1 hp2 hq2 hw S hS hdet hp0 P (Or.inr ⟨h20, h11, h02⟩))

/-- the derivatives of a plane patch in the middle -/
theorem planePatch_surfD (a b c : XYZ ℝ) : ∃ S, S = rationalSurfacePoint (nth (planePatch a b c).knotsU) (nth (planePatch a b c).knotsV) 2 2 2 2 (ent (planePatch a b c).cps) ∧
    surfD S 1 0 (1 / 2) (1 / 2) = b ∧ surfD S 0 1 (1 / 2) (1 / 2) = c ∧ surfD S 2 0 (1 / 2) (1 / 2) = 0 ∧ surfD S 1 1 (1 / 2) (1 / 2) = 0 ∧ surfD S 0 2 (1 / 2) (1 / 2) = 0 := by
  have w := planePatch_wf a b c
  have he := planePatch_ends a b c
  have dom : InDomain (planePatch a b c) 2 2 2 2 (1 / 2) (1 / 2) := planePatch_dom.mpr ⟨⟨by norm_num, by norm_num⟩, by norm_num, by norm_num⟩
  obtain ⟨M, e, -, -, d10, d01, d20, d02, d11⟩ := planePatch_ders a b c (u := 1 / 2) (v := 1 / 2) ⟨by norm_num, by norm_num⟩ ⟨by norm_num, by norm_num⟩
  obtain ⟨M', e', hM', hk⟩ := C67_true_derivative (su := 2) (sv := 2) (u := 1 / 2) (v := 1 / 2) w he (by omega) (by omega) (by omega) (by omega)
    (show (0 : ℝ) < 1 / 2 by norm_num) (show (1 / 2 : ℝ) < 1 by norm_num) (show (0 : ℝ) < 1 / 2 by norm_num) (show (1 / 2 : ℝ) < 1 by norm_num) (d := 2) (by decide) (by omega) (by omega)
    (surfaceWeight_pos w he dom (planePatch_weights a b c)).ne'
  obtain rfl : M = M' := Res.ok.inj (e.symm.trans e')
  refine ⟨_, rfl, ?_⟩
  have f : ∀ k l, k + l ≤ 2 → ent M k l = surfD (rationalSurfacePoint (nth (planePatch a b c).knotsU) (nth (planePatch a b c).knotsV) 2 2 2 2 (ent (planePatch a b c).cps)) k l (1 / 2) (1 / 2) :=
    fun k l h => XYZ.ext (hk k l h).1 (hk k l h).2.1 (hk k l h).2.2
  rw [← f 1 0 (by omega), ← f 0 1 (by omega), ← f 2 0 (by omega), ← f 1 1 (by omega), ← f 0 2 (by omega)]
  exact ⟨d10, d01, d20, d11, d02⟩

/-- C154 is violated by every plane patch `a + u b + v c` (of degree two) that is not too small: the search divides by zero, whatever the point. -/
theorem C154_plane_violated {a b c : XYZ ℝ} (hD : 1 / 1000 ≤ b.dot b * c.dot c - b.dot c ^ 2) (P : XYZ ℝ) : getParamOnSurfaceByGSA (planePatch a b c) P = nonfinite := by
  have w := planePatch_wf a b c
  have he := planePatch_ends a b c
  have dom : InDomain (planePatch a b c) 2 2 2 2 (1 / 2) (1 / 2) := planePatch_dom.mpr ⟨⟨by norm_num, by norm_num⟩, by norm_num, by norm_num⟩
  obtain ⟨S, hS, d10, d01, d20, d11, d02⟩ := planePatch_surfD a b c
  have z : ∀ x : XYZ ℝ, (0 : XYZ ℝ).dot x = 0 := by intro x; simp [XYZ.dot]
  refine C154_flat_violated (su := 2) (sv := 2) (u := 1 / 2) (v := 1 / 2) w he (by omega) (by omega) (by omega) (by omega) ?_ ?_
    (show (0 : ℝ) < 1 / 2 by norm_num) (show (1 / 2 : ℝ) < 1 by norm_num) (show (0 : ℝ) < 1 / 2 by norm_num) (show (1 / 2 : ℝ) < 1 by norm_num) (by omega) (by omega)
    (surfaceWeight_pos w he dom (planePatch_weights a b c)).ne' S hS ?_ (by rw [d20, z]) (by rw [d11, z]) (by rw [d02, z]) P
  · show (1 / 2 : ℝ) = (1 - 0) * (1 / 2)
    norm_num
  · show (1 / 2 : ℝ) = (1 - 0) * (1 / 2)
    norm_num
  · unfold detI
    rw [d10, d01]
    linarith

/-! ### Examples -/

/-- the unit square with the domain `[2, 3] × [0, 1]` -/
noncomputable def shiftedSquare : NurbsSurface ℝ := { unitSquare with knotsU := [2, 2, 3, 3] }

example (P : XYZ ℝ) : getParamOnSurfaceByGSA shiftedSquare P = outOfRange := by
  obtain ⟨w, -⟩ := unitSquare_wf
  have w' : WellFormedS shiftedSquare 1 1 1 1 := { w with
    knotsU := rfl
    sortedU := isValidKnotVector_nth.mp (by rw [isValidKnotVector_iff]; simp [shiftedSquare]; norm_num) }
  exact C154_domain_violated w' (Or.inl (show ((3 : ℝ) - 2) / 2 < 2 - 1 / 1000000 by norm_num)) P

example (P : XYZ ℝ) : getParamOnSurfaceByGSA unitSquare P = invalidArg :=
  C154_linear_violated (u := 1 / 2) (v := 1 / 2) unitSquare_wf.1 unitSquare_wf.2
    (by intro i j hi hj; interval_cases i <;> interval_cases j <;> exact zero_lt_one (α := ℝ)) (Or.inl rfl)
    (show (1 / 2 : ℝ) = (1 - 0) * (1 / 2) by norm_num) (show (1 / 2 : ℝ) = (1 - 0) * (1 / 2) by norm_num)
    ⟨show (0 : ℝ) ≤ 1 / 2 by norm_num, show (1 / 2 : ℝ) ≤ 1 by norm_num, show (0 : ℝ) ≤ 1 / 2 by norm_num, show (1 / 2 : ℝ) ≤ 1 by norm_num⟩ P

/-- the point of the surface at the start of the search -/
example : getParamOnSurfaceByGSA (planePatch 0 ⟨1, 0, 0⟩ ⟨1, 1, 0⟩) ⟨1, 1 / 2, 7⟩ = nonfinite := by
  have w := planePatch_wf 0 ⟨1, 0, 0⟩ ⟨1, 1, 0⟩
  have he := planePatch_ends 0 ⟨1, 0, 0⟩ ⟨1, 1, 0⟩
  have dom : InDomain (planePatch 0 ⟨1, 0, 0⟩ ⟨1, 1, 0⟩) 2 2 2 2 (1 / 2) (1 / 2) := planePatch_dom.mpr ⟨⟨by norm_num, by norm_num⟩, by norm_num, by norm_num⟩
  obtain ⟨S, hS, d10, d01, -⟩ := planePatch_surfD 0 ⟨1, 0, 0⟩ ⟨1, 1, 0⟩
  exact C154_foot_violated (su := 2) (sv := 2) (u := 1 / 2) (v := 1 / 2) w he (by omega) (by omega) (by omega) (by omega)
    (show (1 / 2 : ℝ) = (1 - 0) * (1 / 2) by norm_num) (show (1 / 2 : ℝ) = (1 - 0) * (1 / 2) by norm_num)
    (show (0 : ℝ) < 1 / 2 by norm_num) (show (1 / 2 : ℝ) < 1 by norm_num) (show (0 : ℝ) < 1 / 2 by norm_num) (show (1 / 2 : ℝ) < 1 by norm_num) (by omega) (by omega)
    (surfaceWeight_pos w he dom (planePatch_weights _ _ _)).ne' S hS (by unfold detI; rw [d10, d01]; norm_num [XYZ.dot])
    (planePatch_point _ _ _ ⟨by norm_num, by norm_num⟩ ⟨by norm_num, by norm_num⟩) (by rw [d10]; norm_num [XYZ.dot]) (by rw [d01]; norm_num [XYZ.dot])

example (P : XYZ ℝ) : getParamOnSurfaceByGSA shearPatch P = nonfinite := C154_plane_violated (by norm_num [XYZ.dot]) P

end LNLib.Props
