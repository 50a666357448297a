import Verif.Model.CornerFillet
import Verif.Lemmas.PowerBasis
import Verif.Props.PointMatrix
import Verif.Props.PowerBasis
import Mathlib.LinearAlgebra.Matrix.NonsingularInverse
import Verif.Props.LeastSquares

/-!
# C161: corner fillet surfaces
-/

namespace LNLib.Props
open LNLib Res Spec Finset

/-- `inverse` returns left inverses of square matrices -/
def LeftInverse (inverse : List (List ℝ) → Res (List (List ℝ))) : Prop :=
  ∀ (M I : List (List ℝ)) (n : ℕ), IsMat M n n → inverse M = ok I → IsMat I n n ∧ ∀ i < n, ∀ j < n, ∑ k ∈ range n, ent I i k * ent M k j = if i = j then 1 else 0

theorem powerMatrix_of_ok {p : ℕ} {m : List (List ℝ)} (h : bezierToPowerMatrix (p : ℤ) = ok m) : IsMat m (p + 1) (p + 1) ∧ ∀ i ≤ p, ∀ j ≤ p, ent m i j = bpF ℝ p i j := by
  obtain ⟨m', e, g⟩ := bezierToPowerMatrix_run (K := ℝ) p
  rw [e] at h
  cases h
  exact ⟨g.1, fun i hi j hj => g.2 i hi j hj trivial⟩

/-- C161 (violated): whatever arc it is called with, the knots of the surface are those it had before. A surface without knots, as both bindings pass it, never becomes valid. -/
theorem C161_knots_violated {inverse : List (List ℝ) → Res (List (List ℝ))} {arc : NurbsCurve ℝ} {S S' : NurbsSurface ℝ} (h : makeCornerFillet inverse arc S = ok S') :
    S'.knotsU = S.knotsU ∧ S'.knotsV = S.knotsV ∧ S'.degreeU = 4 ∧ S'.degreeV = 2 ∧ (S.knotsU = [] ∨ S.knotsV = [] → S'.check ≠ ok ()) := by
  unfold makeCornerFillet at h
  obtain ⟨s, h1, h⟩ := bind_eq_ok.mp h
  obtain ⟨m, h2, h⟩ := bind_eq_ok.mp h
  obtain ⟨e, h3, h⟩ := bind_eq_ok.mp h
  obtain ⟨r, h4, h⟩ := bind_eq_ok.mp h
  obtain ⟨p01, h5, h⟩ := bind_eq_ok.mp h
  obtain ⟨ph, h6, h⟩ := bind_eq_ok.mp h
  obtain ⟨p21, h7, h⟩ := bind_eq_ok.mp h
  obtain ⟨⟨p11, w11⟩, h8, h⟩ := bind_eq_ok.mp h
  obtain ⟨m2, h9, h⟩ := bind_eq_ok.mp h
  obtain ⟨m1, h10, h⟩ := bind_eq_ok.mp h
  obtain ⟨m1T, h11, h⟩ := bind_eq_ok.mp h
  obtain ⟨mb, h12, h⟩ := bind_eq_ok.mp h
  obtain ⟨al, h13, h⟩ := bind_eq_ok.mp h
  obtain ⟨M4, h14, h⟩ := bind_eq_ok.mp h
  obtain ⟨I4, h15, h⟩ := bind_eq_ok.mp h
  obtain ⟨I2, h16, h⟩ := bind_eq_ok.mp h
  obtain ⟨I2T, h17, h⟩ := bind_eq_ok.mp h
  obtain ⟨I4C, h18, h⟩ := bind_eq_ok.mp h
  obtain ⟨cps, h19, h⟩ := bind_eq_ok.mp h
  cases h
  refine ⟨rfl, rfl, rfl, rfl, ?_⟩
  intro hk hc
  unfold BsplineSurface.check at hc
  dsimp only at hc
  obtain ⟨_, -, hc⟩ := bind_eq_ok.mp hc
  obtain ⟨_, -, hc⟩ := bind_eq_ok.mp hc
  obtain ⟨_, c1, hc⟩ := bind_eq_ok.mp hc
  obtain ⟨_, -, hc⟩ := bind_eq_ok.mp hc
  obtain ⟨_, c2, hc⟩ := bind_eq_ok.mp hc
  rcases hk with hk | hk
  · rw [hk] at c1
    cases c1
  · rw [hk] at c2
    cases c2

/-- the corner of the control net -/
theorem fillet_corner {inverse : List (List ℝ) → Res (List (List ℝ))} (hinv : LeftInverse inverse) {arc : NurbsCurve ℝ} {S S' : NurbsSurface ℝ} (h : makeCornerFillet inverse arc S = ok S') :
    ∃ s m e r, NurbsCurve.pointOnCurve arc 0 = ok s ∧ NurbsCurve.pointOnCurve arc (1 / 2) = ok m ∧ NurbsCurve.pointOnCurve arc 1 = ok e ∧ filletRadius s m e = ok r ∧ s.z - 2 * r ≠ 0 ∧
      IsMat S'.cps 5 3 ∧ ent S'.cps 0 2 = ⟨4 * r ^ 2 * (-2 * r / (s.z - 2 * r) * s.x), 0, 2 * r * (-2 * r / (s.z - 2 * r) * s.x) ^ 2, 4 * r ^ 2 + 1 + (-2 * r / (s.z - 2 * r) * s.x) ^ 2⟩ := by
  unfold makeCornerFillet at h
  obtain ⟨s, h1, h⟩ := bind_eq_ok.mp h
  obtain ⟨m, h2, h⟩ := bind_eq_ok.mp h
  obtain ⟨e, h3, h⟩ := bind_eq_ok.mp h
  obtain ⟨r, h4, h⟩ := bind_eq_ok.mp h
  obtain ⟨p01, h5, h⟩ := bind_eq_ok.mp h
  obtain ⟨ph, h6, h⟩ := bind_eq_ok.mp h
  obtain ⟨p21, h7, h⟩ := bind_eq_ok.mp h
  obtain ⟨⟨p11, w11⟩, h8, h⟩ := bind_eq_ok.mp h
  obtain ⟨m2, h9, h⟩ := bind_eq_ok.mp h
  obtain ⟨m1, h10, h⟩ := bind_eq_ok.mp h
  obtain ⟨m1T, h11, h⟩ := bind_eq_ok.mp h
  obtain ⟨mb, h12, h⟩ := bind_eq_ok.mp h
  obtain ⟨al, h13, h⟩ := bind_eq_ok.mp h
  obtain ⟨M4, h14, h⟩ := bind_eq_ok.mp h
  obtain ⟨I4, h15, h⟩ := bind_eq_ok.mp h
  obtain ⟨I2, h16, h⟩ := bind_eq_ok.mp h
  obtain ⟨I2T, h17, h⟩ := bind_eq_ok.mp h
  obtain ⟨I4C, h18, h⟩ := bind_eq_ok.mp h
  obtain ⟨cps, h19, hS⟩ := bind_eq_ok.mp h
  obtain ⟨g2, v2⟩ := powerMatrix_of_ok (p := 2) h9
  obtain ⟨g1, v1⟩ := powerMatrix_of_ok (p := 1) h10
  obtain ⟨g4, v4⟩ := powerMatrix_of_ok (p := 4) h14
  obtain ⟨i4, w4⟩ := hinv _ _ _ g4 h15
  obtain ⟨i2, w2⟩ := hinv _ _ _ g2 h16
  have hz : s.z - 2 * r ≠ 0 := by
    intro hz
    unfold stereographic at h5
    rw [hz] at h5
    unfold fdiv at h5
    rw [if_pos rfl] at h5
    cases h5
  unfold stereographic at h5
  rw [fdiv_ok hz, ok_bind] at h5
  cases h5
  set x := -2 * r / (s.z - 2 * r) * s.x with hx
  set y := -2 * r / (s.z - 2 * r) * s.y with hy
  refine ⟨s, m, e, r, h1, h2, h3, h4, hz, ?_⟩
  rw [transposeM_run g1 (by omega), List.nil_append] at h11
  cases h11
  have hB : IsMat ([[⟨0, 0, 0, 1⟩, XYZW.ofXYZ ⟨x, y, 0⟩ 1], [⟨0, 0, 0, w11⟩, XYZW.ofXYZ p11 w11], [⟨0, 0, 0, 1⟩, XYZW.ofXYZ p21 1]] : List (List (XYZW ℝ))) 3 2 :=
    ⟨rfl, by intro i hi; interval_cases i <;> rfl⟩
  rw [multiplyPoints_run g2 hB (by omega) (by omega)] at h12
  cases h12
  rw [pointsMultiply_run isMat_tab isMat_tab (by omega) (by omega)] at h13
  have hal := (Res.ok.inj h13).symm
  have k10 : ent m1 0 0 = 1 := by rw [v1 0 (by omega) 0 (by omega)]; simp [bpF]
  have k11 : ent m1 0 1 = 0 := by rw [v1 0 (by omega) 1 (by omega)]; simp [bpF]
  have k12 : ent m1 1 0 = -1 := by rw [v1 1 (by omega) 0 (by omega)]; simp [bpF]
  have k13 : ent m1 1 1 = 1 := by rw [v1 1 (by omega) 1 (by omega)]; simp [bpF]
  have k20 : ent m2 0 0 = 1 := by rw [v2 0 (by omega) 0 (by omega)]; simp [bpF]
  have k21 : ent m2 0 1 = 0 := by rw [v2 0 (by omega) 1 (by omega)]; simp [bpF]
  have k22 : ent m2 0 2 = 0 := by rw [v2 0 (by omega) 2 (by omega)]; simp [bpF]
  have q00 : ent al 0 0 = ⟨0, 0, 0, 1⟩ := by
    rw [hal, ent_tab (by omega) (by omega), sum_range_succ, sum_range_succ, sum_range_zero, zero_add, ent_tab (by omega) (by omega), ent_tab (by omega) (by omega),
      ent_tab (by omega) (by omega), k10, k11, zero_smul, add_zero, one_smul]
    simp only [sum_range_succ, sum_range_zero, zero_add, k20, k21, k22]
    ext <;> simp [ent, row, nth]
  have q01 : ent al 0 1 = ⟨x, y, 0, 0⟩ := by
    rw [hal, ent_tab (by omega) (by omega), sum_range_succ, sum_range_succ, sum_range_zero, zero_add, ent_tab (by omega) (by omega), ent_tab (by omega) (by omega),
      ent_tab (by omega) (by omega), ent_tab (by omega) (by omega), k12, k13]
    simp only [sum_range_succ, sum_range_zero, zero_add, k20, k21, k22]
    ext <;> simp [ent, row, nth, XYZW.ofXYZ]
  clear hal h13
  rw [transposeM_run i2 (by omega), List.nil_append] at h17
  cases h17
  have hT : ∀ u v h, IsMat (filletTable r u v h) 5 3 := fun u v h => ⟨rfl, by intro i hi; interval_cases i <;> rfl⟩
  rw [multiplyPoints_run i4 (hT _ _ _) (by omega) (by omega)] at h18
  cases h18
  rw [pointsMultiply_run isMat_tab isMat_tab (by omega) (by omega)] at h19
  cases h19
  cases hS
  refine ⟨isMat_tab, ?_⟩
  rw [← hx]
  dsimp only
  -- the first row of the inverse for degree four
  have e44 := w4 0 (by omega) 4 (by omega)
  have e43 := w4 0 (by omega) 3 (by omega)
  have e42 := w4 0 (by omega) 2 (by omega)
  have e41 := w4 0 (by omega) 1 (by omega)
  have e40 := w4 0 (by omega) 0 (by omega)
  simp only [sum_range_succ, sum_range_zero] at e44 e43 e42 e41 e40
  simp [v4, bpF, Nat.choose] at e44 e43 e42 e41 e40
  have f22 := w2 2 (by omega) 2 (by omega)
  have f21 := w2 2 (by omega) 1 (by omega)
  have f20 := w2 2 (by omega) 0 (by omega)
  simp only [sum_range_succ, sum_range_zero] at f22 f21 f20
  simp [v2, bpF, Nat.choose] at f22 f21 f20
  have a4 : ent I4 0 4 = 0 := by linarith
  have a3 : ent I4 0 3 = 0 := by linarith
  have a2 : ent I4 0 2 = 0 := by linarith
  have a1 : ent I4 0 1 = 0 := by linarith
  have a0 : ent I4 0 0 = 1 := by linarith
  have c2 : ent I2 2 2 = 1 := by linarith
  have c1 : ent I2 2 1 = 1 := by linarith
  have c0 : ent I2 2 0 = 1 := by linarith
  rw [ent_tab (by omega) (by omega)]
  simp only [sum_range_succ, sum_range_zero, zero_add]
  rw [ent_tab (by omega) (by omega), ent_tab (by omega) (by omega), ent_tab (by omega) (by omega), ent_tab (by omega) (by omega), ent_tab (by omega) (by omega),
    ent_tab (by omega) (by omega), c0, c1, c2]
  simp only [a0, a1, a2, a3, a4]
  have u00 : (nth (row al 0) 0) = ⟨0, 0, 0, 1⟩ := q00
  have u01 : (nth (row al 0) 1) = ⟨x, y, 0, 0⟩ := q01
  simp only [zero_smul, one_smul, add_zero]
  have t00 : ent (filletTable r (fun i j => (nth (row al i) j).wx) (fun i j => (nth (row al i) j).wy) (fun i j => (nth (row al i) j).w)) 0 0 = ⟨0, 0, 0, 4 * (r * r) * (nth (row al 0) 0).w⟩ := rfl
  have t01 : ent (filletTable r (fun i j => (nth (row al i) j).wx) (fun i j => (nth (row al i) j).wy) (fun i j => (nth (row al i) j).w)) 0 1 = ⟨4 * (r * r) * (nth (row al 0) 1).wx * (nth (row al 0) 0).w, 0, 0, 1⟩ := rfl
  have t02 : ent (filletTable r (fun i j => (nth (row al i) j).wx) (fun i j => (nth (row al i) j).wy) (fun i j => (nth (row al i) j).w)) 0 2 = ⟨0, 0, 2 * r * (nth (row al 0) 1).wx ^ 2, (nth (row al 0) 1).wx ^ 2⟩ := rfl
  rw [t00, t01, t02, u00, u01]
  clear_value x y
  apply XYZW.ext
  · change (0 : ℝ) + 4 * (r * r) * x * 1 + 0 = 4 * r ^ 2 * x
    ring
  · change (0 : ℝ) + 0 + 0 = 0
    ring
  · change (0 : ℝ) + 0 + 2 * r * x ^ 2 = 2 * r * x ^ 2
    ring
  · change 4 * (r * r) * 1 + 1 + x ^ 2 = 4 * r ^ 2 + 1 + x ^ 2
    ring

/-- C161 (violated): the corner of the patch where the arc starts is not the start of the arc, for every arc that starts on the sphere of the fillet (radius `r`, touching the origin from
above) somewhere else than at the origin. -/
theorem C161_corner_violated {inverse : List (List ℝ) → Res (List (List ℝ))} (hinv : LeftInverse inverse) {arc : NurbsCurve ℝ} {S S' : NurbsSurface ℝ} {s m e : XYZ ℝ} {r : ℝ}
    (h : makeCornerFillet inverse arc S = ok S') (hs : NurbsCurve.pointOnCurve arc 0 = ok s) (hm : NurbsCurve.pointOnCurve arc (1 / 2) = ok m)
    (he : NurbsCurve.pointOnCurve arc 1 = ok e) (hr : filletRadius s m e = ok r) (hsph : s.x ^ 2 + s.y ^ 2 + (s.z - r) ^ 2 = r ^ 2) (hne : s ≠ ⟨0, 0, 0⟩) :
    (ent S'.cps 0 2).toXYZ ≠ s := by
  obtain ⟨s', m', e', r', h1, h2, h3, h4, hz, -, hc⟩ := fillet_corner hinv h
  rw [hs] at h1; cases h1
  rw [hm] at h2; cases h2
  rw [he] at h3; cases h3
  rw [hr] at h4; cases h4
  have hw : (1 : ℝ) ≤ 4 * r ^ 2 + 1 + (-2 * r / (s.z - 2 * r) * s.x) ^ 2 := by nlinarith [sq_nonneg r, sq_nonneg (-2 * r / (s.z - 2 * r) * s.x)]
  have hw0 : 4 * r ^ 2 + 1 + (-2 * r / (s.z - 2 * r) * s.x) ^ 2 ≠ 0 := by linarith
  intro hs'
  rw [hc, XYZW.toXYZ, if_neg (by
    rw [isAlmostZero_iff, abs_of_nonneg (by linarith)]
    linarith)] at hs'
  have cx : 4 * r ^ 2 * (-2 * r / (s.z - 2 * r) * s.x) / (4 * r ^ 2 + 1 + (-2 * r / (s.z - 2 * r) * s.x) ^ 2) = s.x := congrArg XYZ.x hs'
  have cy : 0 / (4 * r ^ 2 + 1 + (-2 * r / (s.z - 2 * r) * s.x) ^ 2) = s.y := congrArg XYZ.y hs'
  rw [zero_div] at cy
  rw [← cy] at hsph
  have hx : s.x ≠ 0 := by
    intro hx
    have hz0 : s.z * (s.z - 2 * r) = 0 := by rw [hx] at hsph; nlinarith
    rcases mul_eq_zero.mp hz0 with hz0 | hz0
    · exact hne (by ext <;> simp [hx, ← cy, hz0])
    · exact hz hz0
  rw [div_eq_iff hw0] at cx
  have cx' : 4 * r ^ 2 * (-2 * r / (s.z - 2 * r)) = 4 * r ^ 2 + 1 + (-2 * r / (s.z - 2 * r) * s.x) ^ 2 := by
    apply mul_left_cancel₀ hx
    linarith
  have hα : -2 * r / (s.z - 2 * r) * (s.z - 2 * r) = -2 * r := div_mul_cancel₀ _ hz
  generalize -2 * r / (s.z - 2 * r) = α at *
  have hx2 : s.x ^ 2 = -(s.z * (s.z - 2 * r)) := by nlinarith
  have : α ^ 2 * s.x ^ 2 = 2 * r * α * s.z := by rw [hx2]; linear_combination (-α * s.z) * hα
  have h2 : 2 * r * α * s.z = 4 * r ^ 2 * α - 4 * r ^ 2 := by linear_combination (2 * r) * hα
  have h3 : (α * s.x) ^ 2 = α ^ 2 * s.x ^ 2 := by ring
  linarith

/-! A concrete arc: a quarter-like arc of the great circle of the sphere of radius 5 over the origin, through (4, -3, 5), (5, 0, 5) and (4, 3, 5). -/

open Classical in
/-- an inverse function in the sense of linear algebra -/
noncomputable def trueInverse (M : List (List ℝ)) : Res (List (List ℝ)) :=
  if h : ∃ I, IsMat I M.length M.length ∧ ∀ i < M.length, ∀ j < M.length, ∑ k ∈ range M.length, ent I i k * ent M k j = if i = j then 1 else 0 then ok h.choose else nonfinite

theorem trueInverse_left : LeftInverse trueInverse := by
  intro M I n hM h
  unfold trueInverse at h
  split_ifs at h with hI
  · have := hI.choose_spec
    cases h
    obtain ⟨hl, -⟩ := hM
    subst hl
    exact this

theorem trueInverse_runs {M I : List (List ℝ)} {n : ℕ} (hM : IsMat M n n) (hI : IsMat I n n) (h : ∀ i < n, ∀ j < n, ∑ k ∈ range n, ent I i k * ent M k j = if i = j then 1 else 0) :
    ∃ I', trueInverse M = ok I' := by
  unfold trueInverse
  rw [dif_pos ⟨I, by rw [hM.1]; exact ⟨hI, h⟩⟩]
  exact ⟨_, rfl⟩

/-- the arc -/
def sampleArc : NurbsCurve ℝ := ⟨2, [0, 0, 0, 1, 1, 1], [⟨4, -3, 5, 1⟩, ⟨6, 0, 5, 1⟩, ⟨4, 3, 5, 1⟩]⟩

theorem sampleArc_wf : WellFormed sampleArc 2 2 := by
  refine ⟨rfl, by omega, by omega, rfl, le_refl _, rfl, ?_⟩
  intro i j hij hj
  have hj : j < 6 := hj
  interval_cases j <;> interval_cases i <;> simp [sampleArc, nth]

theorem sampleArc_point {t : ℝ} (h0 : 0 ≤ t) (h1 : t ≤ 1) {P : XYZ ℝ}
    (h : N (nth sampleArc.knots) 1 2 0 t • (⟨4, -3, 5⟩ : XYZ ℝ) + N (nth sampleArc.knots) 1 2 1 t • (⟨6, 0, 5⟩ : XYZ ℝ) + N (nth sampleArc.knots) 1 2 2 t • (⟨4, 3, 5⟩ : XYZ ℝ) = P) :
    NurbsCurve.pointOnCurve sampleArc t = ok P := by
  rw [unit_weight_point sampleArc_wf ⟨by simp [sampleArc, nth]; norm_num, by simp [sampleArc, nth]; norm_num⟩ (by simpa [sampleArc, nth]) (by simpa [sampleArc, nth])
    (by intro i hi; interval_cases i <;> rfl), sum_range_succ, sum_range_succ, sum_range_succ, sum_range_zero, zero_add, ← h]
  rfl

theorem sampleArc_points : NurbsCurve.pointOnCurve sampleArc 0 = ok ⟨4, -3, 5⟩ ∧ NurbsCurve.pointOnCurve sampleArc (1 / 2) = ok ⟨5, 0, 5⟩ ∧
    NurbsCurve.pointOnCurve sampleArc 1 = ok ⟨4, 3, 5⟩ := by
  refine ⟨sampleArc_point (le_refl _) zero_le_one ?_, sampleArc_point (by norm_num) (by norm_num) ?_, sampleArc_point zero_le_one (le_refl _) ?_⟩
  · ext <;> simp [N, sampleArc, nth]
  · ext <;> simp [N, sampleArc, nth] <;> norm_num
  · ext <;> simp [N, sampleArc, nth]

theorem sampleArc_radius : filletRadius ⟨4, -3, 5⟩ ⟨5, 0, 5⟩ ⟨4, 3, 5⟩ = ok 5 := by
  have hl : pointToLine (⟨4, -3, 5⟩ : XYZ ℝ) ⟨4, 3, 5⟩ ⟨5, 0, 5⟩ ⟨0, 0, 0⟩ = ok (true, ⟨4, 0, 5⟩) := by
    have d : ((⟨4, 3, 5⟩ : XYZ ℝ) - ⟨4, -3, 5⟩) = ⟨0, 6, 0⟩ := by ext <;> simp <;> norm_num
    have d2 : ((⟨5, 0, 5⟩ : XYZ ℝ) - ⟨4, -3, 5⟩) = ⟨1, 3, 0⟩ := by ext <;> simp <;> norm_num
    have d3 : ((⟨0, 6, 0⟩ : XYZ ℝ).dot ⟨0, 6, 0⟩) = 36 := by simp [XYZ.dot]; norm_num
    have d4 : ((⟨1, 3, 0⟩ : XYZ ℝ).dot ⟨0, 6, 0⟩) = 18 := by simp [XYZ.dot]; norm_num
    unfold pointToLine
    simp only [d, d2, d3, d4]
    rw [if_neg (by rw [isAlmostZero_iff]; norm_num [abs_of_pos]), fdiv_ok (by norm_num), ok_bind, if_neg]
    · congr 2
      ext <;> simp <;> norm_num
    · simp [isLessThan, isGreaterThan, tolOf, doubleEps]
      constructor <;> norm_num [abs_of_pos]
  have a : (⟨4, -3, 5⟩ : XYZ ℝ).distance ⟨4, 3, 5⟩ = 6 := by
    unfold XYZ.distance
    rw [show (6 : ℝ) = Real.sqrt (6 ^ 2) from (Real.sqrt_sq (by norm_num)).symm]
    congr 1
    simp; norm_num
  have b : (⟨5, 0, 5⟩ : XYZ ℝ).distance ⟨4, 0, 5⟩ = 1 := by
    unfold XYZ.distance
    rw [show (1 : ℝ) = Real.sqrt (1 ^ 2) from (Real.sqrt_sq (by norm_num)).symm]
    congr 1
    simp; norm_num
  unfold filletRadius
  rw [hl, ok_bind]
  dsimp only
  rw [a, b, fdiv_ok (by norm_num)]
  norm_num

theorem sampleArc_middle : ∃ q w, filletMiddle ⟨8, -6, 0⟩ ⟨10, 0, 0⟩ ⟨8, 6, 0⟩ = ok (q, w) := by
  have b : (⟨0, 0, 0⟩ : XYZ ℝ).distance ((1 / 2 : ℝ) • ((⟨8, -6, 0⟩ : XYZ ℝ) + ⟨8, 6, 0⟩)) = 8 := by
    unfold XYZ.distance
    rw [show (8 : ℝ) = Real.sqrt (8 ^ 2) from (Real.sqrt_sq (by norm_num)).symm]
    congr 1
    simp; norm_num
  unfold filletMiddle
  dsimp only
  rw [fdiv_ok (by norm_num), ok_bind, fdiv_ok (by norm_num), ok_bind, if_neg (by norm_num), ok_bind]
  norm_num at b ⊢
  rw [b, fdiv_ok (by norm_num), ok_bind]
  exact ⟨_, _, rfl⟩

/-- The hypotheses of both theorems hold for a concrete arc. -/
theorem C161_sample (S : NurbsSurface ℝ) : ∃ S', LeftInverse trueInverse ∧ makeCornerFillet trueInverse sampleArc S = ok S' ∧ (ent S'.cps 0 2).toXYZ ≠ ⟨4, -3, 5⟩ := by
  have hrun : ∃ S', makeCornerFillet trueInverse sampleArc S = ok S' := by
    obtain ⟨p0, p1, p2⟩ := sampleArc_points
    have st : ∀ x y : ℝ, stereographic (⟨x, y, 5⟩ : XYZ ℝ) 5 = ok ⟨2 * x, 2 * y, 0⟩ := by
      intro x y
      unfold stereographic
      rw [fdiv_ok (by norm_num), ok_bind]
      norm_num
    obtain ⟨q, w, hq⟩ := sampleArc_middle
    have hinv : ∀ p : ℕ, ∃ m I, bezierToPowerMatrix (p : ℤ) = ok m ∧ IsMat m (p + 1) (p + 1) ∧ trueInverse m = ok I ∧ IsMat I (p + 1) (p + 1) := by
      intro p
      obtain ⟨m, e, g⟩ := bezierToPowerMatrix_run (K := ℝ) p
      obtain ⟨gm, vm⟩ := powerMatrix_of_ok e
      obtain ⟨I, hI⟩ : ∃ I, trueInverse m = ok I := by
        obtain ⟨m', R, e', er, hR⟩ := C49_inverse (K := ℝ) p
        rw [e] at e'
        cases e'
        obtain ⟨R', er', gR⟩ := powerToBezierMatrix_run g
        rw [er] at er'
        cases er'
        have h1 : (Matrix.of fun i j : Fin (p + 1) => ent m i j) * (Matrix.of fun i j : Fin (p + 1) => ent R i j) = 1 := by
          ext i j
          rw [Matrix.mul_apply, Matrix.one_apply]
          simp only [Matrix.of_apply, Fin.ext_iff]
          rw [← hR i (by omega) j (by omega)]
          exact Fin.sum_univ_eq_sum_range (fun k => ent m i k * ent R k j) (p + 1)
        have h2 := mul_eq_one_comm.mp h1
        refine trueInverse_runs gm gR.1 fun i hi j hj => ?_
        have h3 := congrFun (congrFun h2 ⟨i, hi⟩) ⟨j, hj⟩
        rw [Matrix.mul_apply, Matrix.one_apply] at h3
        simp only [Matrix.of_apply, Fin.ext_iff] at h3
        rw [← h3]
        exact (Fin.sum_univ_eq_sum_range (fun k => ent R i k * ent m k j) (p + 1)).symm
      exact ⟨m, I, e, gm, hI, (trueInverse_left _ _ _ gm hI).1⟩
    obtain ⟨m2, I2, e2, g2, t2, i2⟩ := hinv 2
    obtain ⟨m1, I1, e1, g1, t1, i1⟩ := hinv 1
    obtain ⟨m4, I4, e4, g4, t4, i4⟩ := hinv 4
    have hB : ∀ a b c d f g : XYZW ℝ, IsMat [[a, b], [c, d], [f, g]] 3 2 := fun a b c d f g => ⟨rfl, by intro i hi; interval_cases i <;> rfl⟩
    have hT : ∀ u v h, IsMat (filletTable 5 u v h) 5 3 := fun u v h => ⟨rfl, by intro i hi; interval_cases i <;> rfl⟩
    unfold makeCornerFillet
    rw [p0, ok_bind, p1, ok_bind, p2, ok_bind, sampleArc_radius, ok_bind, st, ok_bind, st, ok_bind, st, ok_bind]
    norm_num only
    rw [hq, ok_bind]
    dsimp only
    rw [show bezierToPowerMatrix (2 : ℤ) = ok m2 from e2, ok_bind, show bezierToPowerMatrix (1 : ℤ) = ok m1 from e1, ok_bind, transposeM_run g1 (by omega), ok_bind,
      List.nil_append, multiplyPoints_run g2 (hB _ _ _ _ _ _) (by omega) (by omega), ok_bind, pointsMultiply_run isMat_tab isMat_tab (by omega) (by omega), ok_bind,
      show bezierToPowerMatrix (4 : ℤ) = ok m4 from e4, ok_bind, t4, ok_bind, t2, ok_bind, transposeM_run i2 (by omega), ok_bind, List.nil_append,
      multiplyPoints_run i4 (hT _ _ _) (by omega) (by omega), ok_bind, pointsMultiply_run isMat_tab isMat_tab (by omega) (by omega), ok_bind]
    exact ⟨_, rfl⟩
  obtain ⟨S', h⟩ := hrun
  obtain ⟨p0, p1, p2⟩ := sampleArc_points
  exact ⟨S', trueInverse_left, h, C161_corner_violated trueInverse_left h p0 p1 p2 sampleArc_radius (by norm_num) (by intro hc; have := congrArg XYZ.z hc; norm_num at this)⟩

end LNLib.Props
