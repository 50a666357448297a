import Verif.Model.FitConic
import Verif.Props.MiddlePoints
import Verif.Core.Stuck
import Verif.Props.ProjectNormal

/-!
# C140: fitting a conic to points between given tangents (Geometry/Curve/NurbsCurve.cpp:2928-3004)
-/
set_option linter.unusedSectionVars false

namespace LNLib.Props
open LNLib Res LNLib.Spec Finset

/-- what `Intersecting` means -/
theorem rays_inv {p0 v0 p1 v1 X : XYZ ℝ} {old : ℝ × ℝ × XYZ ℝ} {a b : ℝ} (h : computeRays p0 v0 p1 v1 old = ok (.intersecting, a, b, X)) :
    (a = 0 ∧ b = 0 ∧ X = p0) ∨ ((v0.cross v1).sqrLength ≠ 0 ∧ a = (v0.dot v1 * v1.dot (p0 - p1) - v1.dot v1 * v0.dot (p0 - p1)) / (v0.cross v1).sqrLength ∧
      b = (v0.dot v0 * v1.dot (p0 - p1) - v0.dot v1 * v0.dot (p0 - p1)) / (v0.cross v1).sqrLength ∧ X = (1 / 2 : ℝ) • (p0 + a • v0 + (p1 + b • v1))) := by
  unfold computeRays at h
  by_cases d0 : (v0.almostEq v1 && p0.almostEq p1) = true
  · rw [if_pos d0] at h
    cases h
    exact Or.inl ⟨rfl, rfl, rfl⟩
  right
  rw [if_neg d0] at h
  obtain ⟨-, -, h⟩ := bind_eq_ok.mp h
  obtain ⟨-, -, h⟩ := bind_eq_ok.mp h
  dsimp only at h
  rw [denom_eq] at h
  split at h
  · split at h <;> simp at h
  · obtain ⟨b1, h1, h⟩ := bind_eq_ok.mp h
    obtain ⟨b2, h2, h⟩ := bind_eq_ok.mp h
    obtain ⟨n, e1⟩ := fdiv_inv h1
    obtain ⟨-, e2⟩ := fdiv_inv h2
    split at h
    · cases h
      exact ⟨n, e1, e2, rfl⟩
    · simp at h

/-- in a plane, lines that are not parallel meet exactly -/
theorem rays_planar {p0 v0 p1 v1 X : XYZ ℝ} {old : ℝ × ℝ × XYZ ℝ} {a b : ℝ} (h : computeRays p0 v0 p1 v1 old = ok (.intersecting, a, b, X)) (ha : a ≠ 0)
    (z0 : p0.z = 0) (z1 : v0.z = 0) (z2 : p1.z = 0) (z3 : v1.z = 0) : X = p0 + a • v0 ∧ X = p1 + b • v1 ∧ X.z = 0 := by
  rcases rays_inv h with ⟨h1, -⟩ | ⟨hn, e1, e2, e3⟩
  · exact absurd h1 ha
  have hD : (v0.cross v1).sqrLength = (v0.x * v1.y - v0.y * v1.x) ^ 2 := by
    simp only [XYZ.cross, XYZ.sqrLength, z1, z3]; ring
  rw [hD] at hn e1 e2
  have hD0 : v0.x * v1.y - v0.y * v1.x ≠ 0 := fun h => hn (by rw [h]; ring)
  rw [eq_div_iff hn] at e1 e2
  simp only [XYZ.dot, XYZ.sub_x, XYZ.sub_y, XYZ.sub_z, z0, z1, z2, z3] at e1 e2
  have key : p0 + a • v0 = p1 + b • v1 := by
    ext
    · simp only [XYZ.add_x, XYZ.smul_x]
      apply mul_right_cancel₀ hn
      linear_combination v0.x * e1 - v1.x * e2
    · simp only [XYZ.add_y, XYZ.smul_y]
      apply mul_right_cancel₀ hn
      linear_combination v0.y * e1 - v1.y * e2
    · simp only [XYZ.add_z, XYZ.smul_z, z0, z1, z2, z3]; ring
  have hX : X = p0 + a • v0 := by
    rw [e3, ← key]
    ext <;> simp only [XYZ.smul_x, XYZ.smul_y, XYZ.smul_z, XYZ.add_x, XYZ.add_y, XYZ.add_z] <;> ring
  refine ⟨hX, hX.trans key, ?_⟩
  rw [hX, XYZ.add_z, XYZ.smul_z, z0, z1]; ring

theorem rays_second {p0 v0 p1 v1 : XYZ ℝ} {t0 t1 : ℝ} (hmeet : p0 + t0 • v0 = p1 + t1 • v1) (hd : (v0.cross v1).sqrLength ≠ 0) :
    (v0.dot v0 * v1.dot (p0 - p1) - v0.dot v1 * v0.dot (p0 - p1)) / (v0.cross v1).sqrLength = t1 := by
  have hdiff : p0 - p1 = t1 • v1 - t0 • v0 := by
    rw [sub_eq_sub_iff_add_eq_add]; rw [hmeet]; abel
  have e0 : v0.dot (p0 - p1) = t1 * v0.dot v1 - t0 * v0.dot v0 := by
    rw [hdiff]; simp only [XYZ.dot, XYZ.sub_x, XYZ.sub_y, XYZ.sub_z, XYZ.smul_x, XYZ.smul_y, XYZ.smul_z]; ring
  have e1 : v1.dot (p0 - p1) = t1 * v1.dot v1 - t0 * v0.dot v1 := by
    rw [hdiff]; simp only [XYZ.dot, XYZ.sub_x, XYZ.sub_y, XYZ.sub_z, XYZ.smul_x, XYZ.smul_y, XYZ.smul_z]; ring
  rw [div_eq_iff hd, ← denom_eq, e0, e1]; ring

/-- the call of `CreateOneConicArc` in the fit never yields a weight for points in a plane -/
theorem noArc {S V R P X : XYZ ℝ} {a b : ℝ} (hr : computeRays S V R (P - R) (0, 0, 0) = ok (.intersecting, a, b, X)) (hX : X = R + b • (P - R)) (x : XYZ ℝ × ℝ) :
    createOneConicArc S V R (P - R) P ≠ ok (some x) := by
  intro h
  unfold createOneConicArc at h
  obtain ⟨-, -, h⟩ := bind_eq_ok.mp h
  obtain ⟨-, -, h⟩ := bind_eq_ok.mp h
  rw [hr, ok_bind] at h
  dsimp only at h
  rw [if_pos rfl] at h
  obtain ⟨⟨ty, c1, c2, Y⟩, h2, h⟩ := bind_eq_ok.mp h
  dsimp only at h
  by_cases ht : ty = .intersecting
  · subst ht
    rw [if_pos rfl] at h
    rcases rays_inv h2 with ⟨-, e, -⟩ | ⟨hn, -, e, -⟩
    · subst e
      rw [fdiv_ok (by norm_num), ok_bind, zero_div] at h
      unfold fsqrt at h
      rw [if_neg (lt_irrefl _), ok_bind, Real.sqrt_zero, fdiv_ok (by norm_num), ok_bind, zero_div] at h
      rw [show (2 : ℝ) * 0 * (1 - 0) * (X - P).dot (X - P) = 0 by ring, fdiv_zero] at h
      cases h
    · have hb : b ≠ 1 := by
        rintro rfl
        apply hn
        rw [hX, one_smul, show P - (R + (P - R)) = 0 by abel]
        simp [XYZ.cross, XYZ.sqrLength]
      have hb' : 1 - b ≠ 0 := sub_ne_zero.mpr hb.symm
      rw [rays_second (t0 := -(b / (1 - b))) (t1 := 1) ?_ hn] at e
      · subst e
        rw [sub_self, fdiv_zero] at h
        cases h
      · rw [hX]
        ext <;> simp only [XYZ.sub_x, XYZ.sub_y, XYZ.sub_z, XYZ.add_x, XYZ.add_y, XYZ.add_z, XYZ.smul_x, XYZ.smul_y, XYZ.smul_z] <;> field_simp <;> ring
  · rw [if_neg ht] at h
    cases h

theorem round_planar {S E R P : XYZ ℝ} {s s' : ℝ} (zS : S.z = 0) (zE : E.z = 0) (zR : R.z = 0) (zP : P.z = 0) (h : conicWeightRound S E R P s = ok (some s')) : s' = s := by
  unfold conicWeightRound at h
  dsimp only at h
  obtain ⟨⟨ty, a, b, X⟩, hr, h⟩ := bind_eq_ok.mp h
  dsimp only at h
  split at h
  · simp at h
  · rename_i hc
    push Not at hc
    obtain ⟨ht, ha, -, -⟩ := hc
    subst ht
    have ha' : a ≠ 0 := by
      rintro rfl
      apply ha
      unfold isLessThanOrEqual tolOf doubleEps
      rw [decide_eq_true_eq]
      norm_num
    obtain ⟨-, hX, -⟩ := rays_planar hr ha' zS (by rw [XYZ.sub_z, zS, zE, sub_zero]) zR (by rw [XYZ.sub_z, zR, zP, sub_zero])
    obtain ⟨one, h1, h⟩ := bind_eq_ok.mp h
    cases one with
    | none => simp at h; exact h.symm
    | some x => exact absurd h1 (noArc hr hX x)

/-- C140 is violated for points in a plane: with at least one point between the ends the fit never determines a weight: if it succeeds at all, then with the middle of the
chord (tangents on the chord's line) or with a control point of weight 0, which gives the straight segment. -/
theorem C140_weight_violated {Q : List (XYZ ℝ)} {i j : ℤ} {T0 T1 : XYZ ℝ} {tol : ℝ} {L : List (XYZW ℝ)} (hij : i + 2 ≤ j) (hz : ∀ q ∈ Q, q.z = 0) (z0 : T0.z = 0) (z1 : T1.z = 0)
    (h : fitWithConic Q i j T0 T1 tol = ok (some L)) : (∃ p, L = [XYZW.ofXYZ p 1] ∧ ∃ s e, vget Q i = ok s ∧ vget Q j = ok e ∧ p = (1 / 2 : ℝ) • (s + e)) ∨ L = [0] := by
  have hget : ∀ {k : ℤ} {q : XYZ ℝ}, vget Q k = ok q → q.z = 0 := by
    intro k q hq
    exact hz q (List.mem_of_getElem? (vget_eq_ok_iff.mp hq).2)
  unfold fitWithConic at h
  obtain ⟨-, -, h⟩ := bind_eq_ok.mp h
  obtain ⟨-, -, h⟩ := bind_eq_ok.mp h
  obtain ⟨-, -, h⟩ := bind_eq_ok.mp h
  obtain ⟨-, -, h⟩ := bind_eq_ok.mp h
  obtain ⟨-, -, h⟩ := bind_eq_ok.mp h
  obtain ⟨S, hS, h⟩ := bind_eq_ok.mp h
  obtain ⟨E, hE, h⟩ := bind_eq_ok.mp h
  rw [if_neg (by omega)] at h
  obtain ⟨⟨ty, a, b, R⟩, hr, h⟩ := bind_eq_ok.mp h
  dsimp only at h
  by_cases t1 : ty = .coincident
  · rw [if_pos t1] at h
    cases h
    exact Or.inl ⟨_, rfl, S, E, hS, hE, rfl⟩
  rw [if_neg t1] at h
  by_cases t2 : ty = .skew ∨ ty = .parallel
  · rw [if_pos t2] at h
    cases h
  rw [if_neg t2] at h
  split at h
  · cases h
  rename_i hc
  push Not at hc
  obtain ⟨ha, -⟩ := hc
  have ht : ty = .intersecting := by
    cases ty with
    | intersecting => rfl
    | coincident => exact absurd rfl t1
    | skew => exact absurd (Or.inl rfl) t2
    | parallel => exact absurd (Or.inr rfl) t2
  subst ht
  have ha' : a ≠ 0 := by
    rintro rfl
    apply ha
    unfold isLessThanOrEqual tolOf doubleEps
    rw [decide_eq_true_eq]
    norm_num
  obtain ⟨-, -, zR⟩ := rays_planar hr ha' (hget hS) z0 (hget hE) z1
  obtain ⟨s, hl, h⟩ := bind_eq_ok.mp h
  have hs : s = none ∨ s = some 0 := by
    refine forI_post (Inv := fun _ s => s = none ∨ s = some 0) (by omega) (Or.inr rfl) ?_ hl
    rintro k st st' - - (rfl | rfl) hk
    · cases hk
      exact Or.inl rfl
    · obtain ⟨P, hP, hk⟩ := bind_eq_ok.mp hk
      cases st' with
      | none => exact Or.inl rfl
      | some s' => right; rw [round_planar (hget hS) (hget hE) zR (hget hP) hk]
  rcases hs with rfl | rfl
  · cases h
  · dsimp only at h
    obtain ⟨x, hx, h⟩ := bind_eq_ok.mp h
    obtain ⟨-, rfl⟩ := fdiv_inv hx
    obtain ⟨w, hw, h⟩ := bind_eq_ok.mp h
    obtain ⟨-, rfl⟩ := fdiv_inv hw
    obtain ⟨fits, -, h⟩ := bind_eq_ok.mp h
    cases fits with
    | false => simp at h
    | true =>
      simp only [zero_div, if_true] at h
      cases h
      right
      congr 1
      ext <;> simp [XYZW.ofXYZ]

/-- C140 is violated in the regular case: if the tangent lines meet properly in `R`, and the line from `R` through the first inner point meets the chord inside, all noticeably,
then the fit divides by zero. -/
theorem C140_divides_violated {Q : List (XYZ ℝ)} {i j : ℤ} {T0 T1 S E P R X : XYZ ℝ} {tol t0 t1 a b : ℝ} (hij : i + 2 ≤ j) (hi : 0 ≤ i) (hj : j < Q.length)
    (hS : vget Q i = ok S) (hP : vget Q (i + 1) = ok P) (hE : vget Q j = ok E) (hT : Transversal T0 T1) (hR0 : R = S + t0 • T0) (hR1 : R = E + t1 • T1)
    (ht0 : isLessThanOrEqual t0 0 = false) (ht1 : isGreaterThanOrEqual t1 0 = false) (hV : Transversal (E - S) (P - R)) (hX0 : X = S + a • (E - S)) (hX1 : X = R + b • (P - R))
    (ha0 : isLessThanOrEqual a 0 = false) (ha1 : isGreaterThanOrEqual a 1 = false) (hb : isLessThanOrEqual b 0 = false) (hPX : Transversal (P - X) (R - S)) :
    fitWithConic Q i j T0 T1 tol = nonfinite := by
  have hne : ∀ {x : ℝ}, isLessThanOrEqual x 0 = false → x ≠ 0 := by
    rintro x h rfl
    unfold isLessThanOrEqual tolOf doubleEps at h
    rw [decide_eq_false_iff_not] at h
    norm_num at h
  have r1 : computeRays S T0 E T1 (0, 0, 0) = ok (.intersecting, t0, t1, R) := by
    rw [C27_rays_complete (by rw [← hR0, hR1]) hT.cross hT.ne hT.left hT.right, hR0]
  have r2 : computeRays S (E - S) R (P - R) (0, 0, 0) = ok (.intersecting, a, b, X) := by
    rw [C27_rays_complete (by rw [← hX0, hX1]) hV.cross hV.ne hV.left hV.right, hX0]
  have hb1 : b ≠ 1 := by
    rintro rfl
    have := hPX.left
    rw [hX1, one_smul, show P - (R + (P - R)) = 0 by abel] at this
    simp [XYZ.isZero, XYZ.sqrLength, doubleEps] at this
  have hb' : 1 - b ≠ 0 := sub_ne_zero.mpr hb1.symm
  have r3 : computeRays X (P - X) S (R - S) (0, 0, 0) = ok (.intersecting, -(b / (1 - b)), 1, R) := by
    have hm : X + (-(b / (1 - b))) • (P - X) = R := by
      rw [hX1]
      ext <;> simp only [XYZ.sub_x, XYZ.sub_y, XYZ.sub_z, XYZ.add_x, XYZ.add_y, XYZ.add_z, XYZ.smul_x, XYZ.smul_y, XYZ.smul_z] <;> field_simp <;> ring
    rw [C27_rays_complete (t1 := 1) (by rw [hm, one_smul]; abel) hPX.cross hPX.ne hPX.left hPX.right, hm]
  have harc : createOneConicArc S (E - S) R (P - R) P = nonfinite := by
    unfold createOneConicArc
    rw [hV.left, hV.right, r2]
    simp only [Bool.not_false, validate_true, ok_bind]
    rw [if_pos trivial, r3, ok_bind, if_pos rfl, sub_self, fdiv_zero]
    rfl
  have hround : conicWeightRound S E R P 0 = nonfinite := by
    unfold conicWeightRound
    dsimp only
    rw [r2, ok_bind]
    dsimp only
    rw [if_neg (by rw [ha0, ha1, hb]; simp), harc]
    rfl
  unfold fitWithConic
  rw [validate_of (decide_eq_true (by omega)), ok_bind]
  unfold validateBetween
  rw [if_neg (by omega), ok_bind, if_neg (by omega), ok_bind, hT.left, hT.right]
  simp only [Bool.not_false, validate_true, ok_bind]
  rw [hS, ok_bind, hE, ok_bind, if_neg (by omega), r1, ok_bind]
  dsimp only
  rw [if_neg (by simp), if_neg (by simp), ht0, ht1, if_neg (by simp), forI_head (by omega), hP]
  dsimp only
  rw [ok_bind, hround]
  rfl

/-- the hypotheses of `C140_divides_violated` hold for three points of a quarter of the unit circle with its tangents -/
example : fitWithConic [⟨1, 0, 0⟩, ⟨4 / 5, 3 / 5, 0⟩, ⟨0, 1, 0⟩] 0 2 ⟨0, 1, 0⟩ ⟨-1, 0, 0⟩ (1 / 10) = nonfinite := by
  have hne : ∀ a b c a' b' c' : ℝ, 1 / 1000000 * (1 + max |a| |a'|) < |a - a'| → (⟨a, b, c⟩ : XYZ ℝ).almostEq ⟨a', b', c'⟩ = false := by
    intro a b c a' b' c' h
    have : isAlmostEqualTo a a' = false := by
      unfold isAlmostEqualTo tolOf doubleEps
      exact decide_eq_false (not_le.mpr h)
    simp only [XYZ.almostEq]; rw [this]; simp
  have e1 : (⟨0, 1, 0⟩ : XYZ ℝ) - ⟨1, 0, 0⟩ = ⟨-1, 1, 0⟩ := by ext <;> norm_num
  have e2 : (⟨4 / 5, 3 / 5, 0⟩ : XYZ ℝ) - ⟨1, 1, 0⟩ = ⟨-1 / 5, -2 / 5, 0⟩ := by ext <;> norm_num
  have e3 : (⟨4 / 5, 3 / 5, 0⟩ : XYZ ℝ) - ⟨2 / 3, 1 / 3, 0⟩ = ⟨2 / 15, 4 / 15, 0⟩ := by ext <;> norm_num
  have e4 : (⟨1, 1, 0⟩ : XYZ ℝ) - ⟨1, 0, 0⟩ = ⟨0, 1, 0⟩ := by ext <;> norm_num
  refine C140_divides_violated (S := ⟨1, 0, 0⟩) (P := ⟨4 / 5, 3 / 5, 0⟩) (E := ⟨0, 1, 0⟩) (R := ⟨1, 1, 0⟩) (X := ⟨2 / 3, 1 / 3, 0⟩) (t0 := 1) (t1 := -1) (a := 1 / 3) (b := 5 / 3)
    (by norm_num) (by norm_num) (by norm_num) rfl rfl rfl ?_ (by ext <;> norm_num) (by ext <;> norm_num) ?_ ?_ ?_ (by rw [e1]; ext <;> norm_num) (by rw [e2]; ext <;> norm_num) ?_ ?_ ?_ ?_
  · exact ⟨by norm_num [XYZ.cross, XYZ.sqrLength], hne _ _ _ _ _ _ (by norm_num), by norm_num [XYZ.isZero, XYZ.sqrLength, doubleEps], by norm_num [XYZ.isZero, XYZ.sqrLength, doubleEps]⟩
  · unfold isLessThanOrEqual tolOf doubleEps; exact decide_eq_false (by norm_num)
  · unfold isGreaterThanOrEqual tolOf doubleEps; exact decide_eq_false (by norm_num)
  · rw [e1, e2]
    exact ⟨by norm_num [XYZ.cross, XYZ.sqrLength], hne _ _ _ _ _ _ (by norm_num), by norm_num [XYZ.isZero, XYZ.sqrLength, doubleEps], by norm_num [XYZ.isZero, XYZ.sqrLength, doubleEps]⟩
  · unfold isLessThanOrEqual tolOf doubleEps; exact decide_eq_false (by norm_num)
  · unfold isGreaterThanOrEqual tolOf doubleEps; exact decide_eq_false (by norm_num)
  · unfold isLessThanOrEqual tolOf doubleEps; exact decide_eq_false (by norm_num)
  · rw [e3, e4]
    exact ⟨by norm_num [XYZ.cross, XYZ.sqrLength], hne _ _ _ _ _ _ (by norm_num), by norm_num [XYZ.isZero, XYZ.sqrLength, doubleEps], by norm_num [XYZ.isZero, XYZ.sqrLength, doubleEps]⟩

/-- C140: the arguments are checked: there is a point, the indices are in range and in order, the tangents are not zero. -/
theorem C140_rejects {Q : List (XYZ ℝ)} {i j : ℤ} {T0 T1 : XYZ ℝ} {tol : ℝ} {r : Option (List (XYZW ℝ))} (h : fitWithConic Q i j T0 T1 tol = ok r) :
    Q ≠ [] ∧ 0 ≤ i ∧ i < j ∧ j < Q.length ∧ T0.isZero = false ∧ T1.isZero = false := by
  unfold fitWithConic validateBetween at h
  obtain ⟨u1, h1, h⟩ := bind_eq_ok.mp h
  obtain ⟨u2, h2, h⟩ := bind_eq_ok.mp h
  obtain ⟨u3, h3, h⟩ := bind_eq_ok.mp h
  obtain ⟨u4, h4, h⟩ := bind_eq_ok.mp h
  obtain ⟨u5, h5, h⟩ := bind_eq_ok.mp h
  have v := fun {b : Bool} (h : validate b = ok ()) => show b = true by
    unfold validate at h
    by_contra hb
    simp [hb] at h
  have g1 := v h1
  have g4 := v h4
  have g5 := v h5
  rw [decide_eq_true_eq] at g1
  split_ifs at h2 h3 with c2 c3
  refine ⟨by rintro rfl; simp at g1, by omega, by omega, by omega, by simpa using g4, by simpa using g5⟩

/-- C140 (part): two neighbouring points are joined as in C139, with the tolerance unused. -/
theorem C140_pair_partial {Q : List (XYZ ℝ)} {i : ℤ} {T0 T1 S E : XYZ ℝ} {tol : ℝ} (hS : vget Q i = ok S) (hE : vget Q (i + 1) = ok E) (h0 : T0.isZero = false) (h1 : T1.isZero = false) :
    fitWithConic Q i (i + 1) T0 T1 tol = middleControlPoints S T0 E T1 := by
  obtain ⟨hi, gi⟩ := vget_eq_ok_iff.mp hS
  obtain ⟨-, gj⟩ := vget_eq_ok_iff.mp hE
  have li := (List.getElem?_eq_some_iff.mp gj).1
  unfold fitWithConic validateBetween
  rw [validate_of (decide_eq_true (by omega)), ok_bind, if_neg (by omega), ok_bind, if_neg (by omega), ok_bind, h0, h1]
  simp only [Bool.not_false, validate_true, ok_bind]
  rw [hS, ok_bind, hE, ok_bind, if_pos (by omega)]

/-- the hypotheses of `C140_weight_violated` hold for three points on a line and tangents on it: the fit succeeds with the middle of the chord -/
example : fitWithConic [⟨0, 0, 0⟩, ⟨1, 0, 0⟩, ⟨2, 0, 0⟩] 0 2 ⟨1, 0, 0⟩ ⟨1, 0, 0⟩ (1 / 10) = ok (some [XYZW.ofXYZ ((1 / 2 : ℝ) • ((⟨0, 0, 0⟩ : XYZ ℝ) + ⟨2, 0, 0⟩)) 1]) := by
  have z : (⟨1, 0, 0⟩ : XYZ ℝ).isZero = false := by norm_num [XYZ.isZero, XYZ.sqrLength, doubleEps]
  have n : (⟨0, 0, 0⟩ : XYZ ℝ).almostEq ⟨2, 0, 0⟩ = false := by
    unfold XYZ.almostEq isAlmostEqualTo tolOf doubleEps
    norm_num
  have r : computeRays ⟨0, 0, 0⟩ ⟨1, 0, 0⟩ ⟨2, 0, 0⟩ ⟨1, 0, 0⟩ (0, 0, 0) = ok (.coincident, 0, 0, ⟨0, 0, 0⟩) := by
    unfold computeRays
    rw [n, Bool.and_false, if_neg (by simp), z]
    simp only [Bool.not_false, validate_true, ok_bind]
    rw [denom_eq, show ((⟨1, 0, 0⟩ : XYZ ℝ).cross ⟨1, 0, 0⟩).sqrLength = 0 by norm_num [XYZ.cross, XYZ.sqrLength], abs_zero, if_pos (isAlmostEqualTo_self doubleEps_pos),
      show (((⟨2, 0, 0⟩ : XYZ ℝ) - ⟨0, 0, 0⟩).cross ⟨1, 0, 0⟩).length = 0 from length_of le_rfl (by norm_num [XYZ.cross, XYZ.sqrLength]),
      if_pos (isAlmostEqualTo_self doubleEps_pos)]
  unfold fitWithConic validateBetween
  rw [validate_of (by simp), ok_bind, if_neg (by simp), ok_bind, if_neg (by simp), ok_bind, z]
  simp only [Bool.not_false, validate_true, ok_bind]
  rw [show vget [(⟨0, 0, 0⟩ : XYZ ℝ), ⟨1, 0, 0⟩, ⟨2, 0, 0⟩] 0 = ok ⟨0, 0, 0⟩ from rfl, show vget [(⟨0, 0, 0⟩ : XYZ ℝ), ⟨1, 0, 0⟩, ⟨2, 0, 0⟩] 2 = ok ⟨2, 0, 0⟩ from rfl, ok_bind, ok_bind,
    if_neg (by norm_num), r, ok_bind]
  dsimp only
  rw [if_pos rfl]

/-- the hypotheses of `C140_pair_partial` hold for two of three points -/
example : ∃ L, fitWithConic [⟨0, 0, 0⟩, ⟨2, 0, 0⟩, ⟨5, 5, 5⟩] 0 1 ⟨0, 1, 0⟩ (-⟨0, 1, 0⟩) 0 = ok (some L) ∧ L.length = 3 := by
  have hl : ((⟨2, 0, 0⟩ : XYZ ℝ) - ⟨0, 0, 0⟩).length = 2 := length_of (by norm_num) (by norm_num [XYZ.sqrLength])
  have h := C140_pair_partial (Q := [⟨0, 0, 0⟩, ⟨2, 0, 0⟩, ⟨5, 5, 5⟩]) (i := 0) (T0 := ⟨0, 1, 0⟩) (T1 := -⟨0, 1, 0⟩) (S := ⟨0, 0, 0⟩) (E := ⟨2, 0, 0⟩) (tol := 0) rfl rfl
    (by norm_num [XYZ.isZero, XYZ.sqrLength, doubleEps]) (by norm_num [XYZ.isZero, XYZ.sqrLength, doubleEps])
  exact ⟨_, h.trans (C139_half_circle_partial (length_of (by norm_num) (by norm_num [XYZ.sqrLength])) (by norm_num [XYZ.dot]) (by rw [hl]; norm_num)), rfl⟩

end LNLib.Props
