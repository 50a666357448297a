import Verif.Model.NeighborWeights
import Verif.Props.Reshape
import Verif.Props.Conic
import Verif.Props.ConicFit
import Verif.Props.DiffGeom

/-!
# C143: changing two neighbouring weights (Geometry/Curve/NurbsCurve.cpp:3249-3324)
-/
set_option linter.unusedSectionVars false

namespace LNLib.Props
open LNLib Res LNLib.Spec Finset

/-- the distance between two points of a line -/
theorem distance_scaled (A v : XYZ ℝ) (x : ℝ) : (A + x • v).distance A = |x| * v.length := by
  unfold XYZ.distance XYZ.length
  rw [← Real.sqrt_sq_eq_abs, ← Real.sqrt_mul (sq_nonneg x)]
  congr 1
  simp only [XYZ.add_x, XYZ.add_y, XYZ.add_z, XYZ.smul_x, XYZ.smul_y, XYZ.smul_z]
  ring

theorem not_less_abs (x : ℝ) : isLessThan |x| 0 = false := by
  unfold isLessThan
  rw [decide_eq_false_iff_not, not_lt]
  have := tolOf_pos (a := |x|) (b := 0) (doubleEps_pos (K := ℝ))
  have := abs_nonneg x
  linarith

/-- the share of control point `k` in the point of the curve at `t` (its rational basis function) -/
noncomputable def share (c : NurbsCurve ℝ) (p n k : ℕ) (t : ℝ) : ℝ :=
  N (nth c.knots) (nth c.knots (n + 1)) p k t * (nth c.cps k).w / weightFn (nth c.knots) p n (nth c.cps) t

/-- the curve with the weights of the control points `k` and `k + 1` set to zero -/
noncomputable def withoutLeg (c : NurbsCurve ℝ) (k : ℕ) : NurbsCurve ℝ :=
  { degree := c.degree, knots := c.knots, cps := (c.cps.set k (XYZW.ofXYZ (nth c.cps k).toXYZ 0)).set (k + 1) (XYZW.ofXYZ (nth c.cps (k + 1)).toXYZ 0) }

/-- the algebra: the point of the curve is a combination of the point without the leg and the two control points -/
theorem leg_combination {c : NurbsCurve ℝ} {p n k : ℕ} {t x y : ℝ} (w : WellFormed c p n) (hk : k + 1 ≤ n) (hw : NotTiny (nth c.cps k).w) (hw1 : NotTiny (nth c.cps (k + 1)).w)
    (hW : weightFn (nth c.knots) p n (nth c.cps) t ≠ 0) (l : List (XYZW ℝ))
    (hl : l = (c.cps.set k (XYZW.ofXYZ (nth c.cps k).toXYZ ((nth c.cps k).w * x))).set (k + 1) (XYZW.ofXYZ (nth c.cps (k + 1)).toXYZ ((nth c.cps (k + 1)).w * y))) :
    weightFn (nth c.knots) p n (nth l) t = weightFn (nth c.knots) p n (nth c.cps) t * (1 + share c p n k t * (x - 1) + share c p n (k + 1) t * (y - 1)) ∧
    (weightFn (nth c.knots) p n (nth l) t ≠ 0 → (1 + share c p n k t * (x - 1) + share c p n (k + 1) t * (y - 1)) • rationalPoint (nth c.knots) p n (nth l) t =
      rationalPoint (nth c.knots) p n (nth c.cps) t + (share c p n k t * (x - 1)) • (nth c.cps k).toXYZ + (share c p n (k + 1) t * (y - 1)) • (nth c.cps (k + 1)).toXYZ) := by
  have hc := w.cps
  have n1 : nth (c.cps.set k (XYZW.ofXYZ (nth c.cps k).toXYZ ((nth c.cps k).w * x))) (k + 1) = nth c.cps (k + 1) := by
    rw [nth_set (by omega), if_neg (by omega)]
  have e : weightFn (nth c.knots) p n (nth l) t = weightFn (nth c.knots) p n (nth c.cps) t * (1 + share c p n k t * (x - 1) + share c p n (k + 1) t * (y - 1)) := by
    rw [hl, weightFn_set hk (by rw [List.length_set]; omega), weightFn_set (by omega) hc, n1]
    unfold share
    simp only [XYZW.ofXYZ]
    field_simp
  refine ⟨e, fun hne => ?_⟩
  rw [rationalPoint_raw, rationalPoint_raw]
  have s : (1 + share c p n k t * (x - 1) + share c p n (k + 1) t * (y - 1)) * (weightFn (nth c.knots) p n (nth l) t)⁻¹ = (weightFn (nth c.knots) p n (nth c.cps) t)⁻¹ := by
    rw [e] at hne ⊢
    have := right_ne_zero_of_mul hne
    field_simp
  rw [smul_smul, s, hl, rawSum_set hk (by rw [List.length_set]; omega), rawSum_set (by omega) hc, n1, raw_ofXYZ, raw_ofXYZ, smul_add, smul_add]
  have t0 := smul_toXYZ hw
  have t1 := smul_toXYZ hw1
  rw [← t0, ← t1]
  obtain ⟨A, hA⟩ : ∃ A, A = (nth c.cps k).toXYZ := ⟨_, rfl⟩
  obtain ⟨B, hB⟩ : ∃ B, B = (nth c.cps (k + 1)).toXYZ := ⟨_, rfl⟩
  rw [← hA, ← hB]
  unfold share
  congr 1
  · congr 1
    apply XYZ.ext <;> simp only [XYZ.smul_x, XYZ.smul_y, XYZ.smul_z, XYZ.sub_x, XYZ.sub_y, XYZ.sub_z] <;> field_simp
  · apply XYZ.ext <;> simp only [XYZ.smul_x, XYZ.smul_y, XYZ.smul_z, XYZ.sub_x, XYZ.sub_y, XYZ.sub_z] <;> field_simp

/-- what the code does: the point at the parameter moves on the line through the point without the leg, to the distance `|RP + d|` from it -/
theorem neighborWeights_run {c : NurbsCurve ℝ} {p n k : ℕ} {t d sc a b τ : ℝ} {P R : XYZ ℝ} (w : WellFormed c p n) (he : EndsSeparated (nth c.knots) p n) (h0 : nth c.knots p ≤ t)
    (h1 : t ≤ nth c.knots (n + 1)) (hk : k + 1 ≤ n) (hw : NotTiny (nth c.cps k).w) (hw1 : NotTiny (nth c.cps (k + 1)).w) (hd : NotTiny d) (hsc : NotTiny sc)
    (hW : NotTiny (weightFn (nth c.knots) p n (nth c.cps) t)) (hW0 : NotTiny (weightFn (nth c.knots) p n (nth (withoutLeg c k).cps) t))
    (hP : NurbsCurve.pointOnCurve c t = ok P) (hR : NurbsCurve.pointOnCurve (withoutLeg c k) t = ok R) (ha : a = share c p n k t) (hb : b = share c p n (k + 1) t) (ha0 : 0 < a) (hb0 : 0 < b)
    (hT : Transversal ((nth c.cps k).toXYZ - (nth c.cps (k + 1)).toXYZ) (R - P)) (hτ : τ = |1 + d / P.distance R|) (hτ0 : τ ≠ 0) (hβ : 1 - τ * (a + b) ≠ 0)
    (hW' : NotTiny (weightFn (nth c.knots) p n (nth c.cps) t * ((1 - a - b) / (1 - τ * (a + b))))) :
    ∃ c', neighborWeightsModification c t k d sc = ok (some c') ∧ WellFormed c' p n ∧ c'.knots = c.knots ∧ (∀ i, i ≤ n → i ≠ k → i ≠ k + 1 → nth c'.cps i = nth c.cps i) ∧
      nth c'.cps k = XYZW.ofXYZ (nth c.cps k).toXYZ ((nth c.cps k).w * ((1 - a - b) * τ / (1 - τ * (a + b)))) ∧
      nth c'.cps (k + 1) = XYZW.ofXYZ (nth c.cps (k + 1)).toXYZ ((nth c.cps (k + 1)).w * ((1 - a - b) * τ / (1 - τ * (a + b)))) ∧
      NurbsCurve.pointOnCurve c' t = ok (R + τ • (P - R)) := by
  have hl := w.knots
  have hpn := w.pn
  have hc := w.cps
  have hm : MonoTo (nth c.knots) (n + p + 1) := fun i j h h' => w.sorted i j h (by omega)
  have w0 : WellFormed (withoutLeg c k) p n := { degree := w.degree, pos := w.pos, le7 := w.le7, cps := by simpa [withoutLeg] using hc, pn := hpn, knots := hl, sorted := w.sorted }
  have eP : P = rationalPoint (nth c.knots) p n (nth c.cps) t := by
    rw [C05_eval_rational w he h0 h1 hW] at hP
    cases hP
    rfl
  have eR : R = rationalPoint (nth c.knots) p n (nth (withoutLeg c k).cps) t := by
    rw [C05_eval_rational w0 he h0 h1 hW0] at hR
    cases hR
    rfl
  obtain ⟨A, hA⟩ : ∃ A, A = (nth c.cps k).toXYZ := ⟨_, rfl⟩
  obtain ⟨B, hB⟩ : ∃ B, B = (nth c.cps (k + 1)).toXYZ := ⟨_, rfl⟩
  -- the point without the leg
  obtain ⟨g1, g2⟩ := leg_combination (x := 0) (y := 0) w hk hw hw1 hW.ne (withoutLeg c k).cps (by rw [mul_zero, mul_zero]; rfl)
  have g2 := g2 hW0.ne
  rw [← eP, ← eR, ← ha, ← hb, ← hA, ← hB] at g2
  rw [← ha, ← hb] at g1
  have hα : 1 - a - b ≠ 0 := by
    intro h
    apply hW0.ne
    rw [g1, show 1 + a * (0 - 1) + b * (0 - 1) = 0 by linarith, mul_zero]
  have comb : P = (1 - a - b) • R + a • A + b • B := by
    have e1 := congrArg XYZ.x g2
    have e2 := congrArg XYZ.y g2
    have e3 := congrArg XYZ.z g2
    simp only [XYZ.smul_x, XYZ.smul_y, XYZ.smul_z, XYZ.add_x, XYZ.add_y, XYZ.add_z] at e1 e2 e3
    apply XYZ.ext <;> simp only [XYZ.smul_x, XYZ.smul_y, XYZ.smul_z, XYZ.add_x, XYZ.add_y, XYZ.add_z] <;> linarith
  have hab : 0 < a + b := by linarith
  obtain ⟨Q, hQ⟩ : ∃ Q, Q = A + (-(b / (a + b))) • (A - B) := ⟨_, rfl⟩
  have hQR : P - R = (a + b) • (Q - R) := by
    rw [comb, hQ]
    apply XYZ.ext <;> simp only [XYZ.smul_x, XYZ.smul_y, XYZ.smul_z, XYZ.add_x, XYZ.add_y, XYZ.add_z, XYZ.sub_x, XYZ.sub_y, XYZ.sub_z] <;> field_simp <;> ring
  rw [← hA, ← hB] at hT
  have rays : computeRays A (A - B) R (R - P) (0, 0, 0) = ok (.intersecting, -(b / (a + b)), -(1 / (a + b)), Q) := by
    rw [hQ]
    refine C27_rays_complete ?_ hT.cross hT.ne hT.left hT.right
    rw [← hQ]
    have e1 := congrArg XYZ.x hQR
    have e2 := congrArg XYZ.y hQR
    have e3 := congrArg XYZ.z hQR
    simp only [XYZ.smul_x, XYZ.smul_y, XYZ.smul_z, XYZ.sub_x, XYZ.sub_y, XYZ.sub_z] at e1 e2 e3
    apply XYZ.ext <;> simp only [XYZ.smul_x, XYZ.smul_y, XYZ.smul_z, XYZ.add_x, XYZ.add_y, XYZ.add_z, XYZ.sub_x, XYZ.sub_y, XYZ.sub_z]
    · rw [show R.x - P.x = -((a + b) * (Q.x - R.x)) by linarith]; field_simp; ring
    · rw [show R.y - P.y = -((a + b) * (Q.y - R.y)) by linarith]; field_simp; ring
    · rw [show R.z - P.z = -((a + b) * (Q.z - R.z)) by linarith]; field_simp; ring
  -- lengths
  have lAB : 0 < (A - B).length := length_pos_of_isZero hT.left
  have lRP : 0 < (R - P).length := length_pos_of_isZero hT.right
  have dAB : B.distance A = (A - B).length := by
    rw [(C29_distance B A A).1]
    have := distance_scaled B (A - B) 1
    rw [one_smul, add_sub_cancel, abs_one, one_mul] at this
    exact this
  have dPR : P.distance R = (R - P).length := by
    rw [(C29_distance P R R).1]
    have := distance_scaled P (R - P) 1
    rw [one_smul, add_sub_cancel, abs_one, one_mul] at this
    exact this
  have dQR : Q.distance R = P.distance R / (a + b) := by
    have e1 := distance_scaled R (Q - R) 1
    rw [one_smul, add_sub_cancel, abs_one, one_mul] at e1
    have e2 := distance_scaled R (Q - R) (a + b)
    rw [← hQR, add_sub_cancel, abs_of_pos hab] at e2
    rw [e1, e2]
    field_simp
  have hRP : 0 < P.distance R := by rw [dPR]; exact lRP
  have qRP : P.distance R / Q.distance R = a + b := by rw [dQR]; field_simp
  have qRt : (P.distance R + d) / Q.distance R = (1 + d / P.distance R) * (a + b) := by rw [dQR]; field_simp
  have pkq : Q - A = (-(b / (a + b))) • (A - B) := by rw [hQ, add_sub_cancel_left]
  have pk1q : Q - B = (a / (a + b)) • (A - B) := by
    rw [hQ]
    apply XYZ.ext <;> simp only [XYZ.smul_x, XYZ.smul_y, XYZ.smul_z, XYZ.add_x, XYZ.add_y, XYZ.add_z, XYZ.sub_x, XYZ.sub_y, XYZ.sub_z] <;> field_simp <;> ring
  have lenA : ∀ x, (A + x • (Q - A)).distance A / B.distance A = |x| * (b / (a + b)) := by
    intro x
    rw [pkq, smul_smul, distance_scaled, dAB, mul_div_assoc, div_self lAB.ne', mul_one, abs_mul, abs_neg, abs_of_pos (div_pos hb0 hab)]
  have lenB : ∀ x, (B + x • (Q - B)).distance B / B.distance A = |x| * (a / (a + b)) := by
    intro x
    rw [pk1q, smul_smul, distance_scaled, dAB, mul_div_assoc, div_self lAB.ne', mul_one, abs_mul, abs_of_pos (div_pos ha0 hab)]
  have τpos : 0 < τ := lt_of_le_of_ne (by rw [hτ]; exact abs_nonneg _) (Ne.symm hτ0)
  have v1 : |a + b| * (a / (a + b)) = a := by rw [abs_of_pos hab]; field_simp
  have v2 : |a + b| * (b / (a + b)) = b := by rw [abs_of_pos hab]; field_simp
  have v3 : |(1 + d / P.distance R) * (a + b)| * (a / (a + b)) = τ * a := by rw [abs_mul, ← hτ, abs_of_pos hab]; field_simp
  have v4 : |(1 + d / P.distance R) * (a + b)| * (b / (a + b)) = τ * b := by rw [abs_mul, ← hτ, abs_of_pos hab]; field_simp
  have hβ' : 1 - τ * a - τ * b ≠ 0 := by rw [show 1 - τ * a - τ * b = 1 - τ * (a + b) by ring]; exact hβ
  obtain ⟨γ, hγ⟩ : ∃ γ, γ = (1 - a - b) * τ / (1 - τ * (a + b)) := ⟨_, rfl⟩
  have bk : ∀ x, 0 < x → (1 - a - b) / x / ((1 - τ * a - τ * b) / (τ * x)) = γ := by
    intro x hx
    rw [hγ, show 1 - τ * (a + b) = 1 - τ * a - τ * b by ring]
    field_simp
  have l1 : nth (c.cps.set k (XYZW.ofXYZ A 0)) (k + 1) = nth c.cps (k + 1) := by
    rw [nth_set (by omega), if_neg (by omega)]
  obtain ⟨l, hl'⟩ : ∃ l, l = (c.cps.set k (XYZW.ofXYZ A ((nth c.cps k).w * γ))).set (k + 1) (XYZW.ofXYZ B ((nth c.cps (k + 1)).w * γ)) := ⟨_, rfl⟩
  obtain ⟨f1, f2⟩ := leg_combination (x := γ) (y := γ) w hk hw hw1 hW.ne l (by rw [hl', hA, hB])
  rw [← ha, ← hb] at f1 f2
  have fs : 1 + a * (γ - 1) + b * (γ - 1) = (1 - a - b) / (1 - τ * (a + b)) := by
    rw [hγ]; field_simp; ring
  rw [fs] at f1 f2
  have w' : WellFormed { degree := c.degree, knots := c.knots, cps := l } p n :=
    { degree := w.degree, pos := w.pos, le7 := w.le7, cps := by simpa [hl'] using hc, pn := hpn, knots := hl, sorted := w.sorted }
  refine ⟨{ degree := c.degree, knots := c.knots, cps := l }, ?_, w', rfl, ?_, ?_, ?_, ?_⟩
  · unfold neighborWeightsModification
    rw [vget_nth (i := 0) (k := 0) rfl (by omega), ok_bind, vget_nth (k := n + p + 1) (by omega) (by omega), ok_bind,
      validateRange_in (le_trans (hm _ _ (by omega) (by omega)) h0) (le_trans h1 (hm _ _ (by omega) (by omega))), ok_bind,
      validateIndex_in (by omega), ok_bind, notTiny_iff.mpr hd, notTiny_iff.mpr hsc]
    simp only [Bool.not_false, validate_true, ok_bind]
    rw [vget_nth (k := k) rfl (by omega), ok_bind]
    rw [← hA, vset_of rfl (by omega), ok_bind, vget_nth (k := k + 1) (by push_cast; rfl) (by rw [List.length_set]; omega), ok_bind, l1, ← hB,
      vset_of (k := k + 1) (by push_cast; rfl) (by rw [List.length_set]; omega), ok_bind]
    have hR' := hR
    unfold withoutLeg at hR'
    rw [← hA, ← hB] at hR'
    rw [hR', ok_bind, hP, ok_bind, rays, ok_bind]
    dsimp only
    have dne : B.distance A ≠ 0 := by rw [dAB]; exact lAB.ne'
    have qne : Q.distance R ≠ 0 := by rw [dQR]; exact (div_pos hRP hab).ne'
    rw [if_neg (by simp), fdiv_ok qne, ok_bind, fdiv_ok qne, ok_bind, qRP, qRt, fdiv_ok dne, ok_bind, fdiv_ok dne, ok_bind, fdiv_ok dne, ok_bind, fdiv_ok dne, ok_bind, lenA, lenA, lenB, lenB,
      v1, v2, v3, v4, not_less_abs, not_less_abs, not_less_abs, not_less_abs, if_neg (by simp), fdiv_ok ha0.ne', ok_bind, fdiv_ok (mul_pos τpos ha0).ne', ok_bind,
      fdiv_ok (div_ne_zero hβ' (mul_pos τpos ha0).ne'), ok_bind, fdiv_ok hb0.ne', ok_bind, fdiv_ok (mul_pos τpos hb0).ne', ok_bind, fdiv_ok (div_ne_zero hβ' (mul_pos τpos hb0).ne'), ok_bind,
      bk a ha0, bk b hb0, vset_of rfl (by omega), ok_bind, vset_of (k := k + 1) (by push_cast; rfl) (by rw [List.length_set]; omega), ok_bind, ← hl']
  · intro i hi h2 h3
    rw [hl', nth_set (by rw [List.length_set]; omega), if_neg h3, nth_set (by omega), if_neg h2]
  · rw [hl', nth_set (by rw [List.length_set]; omega), if_neg (by omega), nth_set (by omega), if_pos rfl, ← hγ, hA]
  · rw [hl', nth_set (by rw [List.length_set]; omega), if_pos rfl, ← hγ, hB]
  · rw [C05_eval_rational w' he h0 h1 (by dsimp only; rw [f1]; exact hW')]
    dsimp only
    have f2 := f2 (by rw [f1]; exact hW'.ne)
    rw [← eP, ← hA, ← hB] at f2
    have hs : (1 - a - b) / (1 - τ * (a + b)) ≠ 0 := div_ne_zero hα hβ
    congr 1
    have : R + τ • (P - R) = ((1 - a - b) / (1 - τ * (a + b)))⁻¹ • (P + (a * (γ - 1)) • A + (b * (γ - 1)) • B) := by
      rw [comb, hγ]
      apply XYZ.ext <;> simp only [XYZ.smul_x, XYZ.smul_y, XYZ.smul_z, XYZ.add_x, XYZ.add_y, XYZ.add_z, XYZ.sub_x, XYZ.sub_y, XYZ.sub_z] <;> field_simp <;> ring
    rw [this, ← f2, smul_smul, inv_mul_cancel₀ hs, one_smul]

/-- C143 (part): the point of the curve at the parameter moves by exactly the requested distance on the straight line away from the point it would have without the two control points; only the
two weights change, and both by the same factor. Conditions beyond the checks: both control points act at the parameter (positive shares `a`, `b`), others act too, the leg and the line are not
parallel, and the target is neither behind the point without the leg nor on the leg. -/
theorem C143_moves_partial {c : NurbsCurve ℝ} {p n k : ℕ} {t d sc a b : ℝ} {P R : XYZ ℝ} (w : WellFormed c p n) (he : EndsSeparated (nth c.knots) p n) (h0 : nth c.knots p ≤ t)
    (h1 : t ≤ nth c.knots (n + 1)) (hk : k + 1 ≤ n) (hw : NotTiny (nth c.cps k).w) (hw1 : NotTiny (nth c.cps (k + 1)).w) (hd : NotTiny d) (hsc : NotTiny sc)
    (hW : NotTiny (weightFn (nth c.knots) p n (nth c.cps) t)) (hW0 : NotTiny (weightFn (nth c.knots) p n (nth (withoutLeg c k).cps) t))
    (hP : NurbsCurve.pointOnCurve c t = ok P) (hR : NurbsCurve.pointOnCurve (withoutLeg c k) t = ok R) (ha : a = share c p n k t) (hb : b = share c p n (k + 1) t) (ha0 : 0 < a) (hb0 : 0 < b)
    (hT : Transversal ((nth c.cps k).toXYZ - (nth c.cps (k + 1)).toXYZ) (R - P)) (hd0 : -P.distance R < d) (hβ : 1 - (1 + d / P.distance R) * (a + b) ≠ 0)
    (hW' : NotTiny (weightFn (nth c.knots) p n (nth c.cps) t * ((1 - a - b) / (1 - (1 + d / P.distance R) * (a + b))))) :
    ∃ c' γ, neighborWeightsModification c t k d sc = ok (some c') ∧ WellFormed c' p n ∧ c'.knots = c.knots ∧ (∀ i, i ≤ n → i ≠ k → i ≠ k + 1 → nth c'.cps i = nth c.cps i) ∧
      nth c'.cps k = XYZW.ofXYZ (nth c.cps k).toXYZ ((nth c.cps k).w * γ) ∧ nth c'.cps (k + 1) = XYZW.ofXYZ (nth c.cps (k + 1)).toXYZ ((nth c.cps (k + 1)).w * γ) ∧
      NurbsCurve.pointOnCurve c' t = ok (P + d • (P - R).normalize) := by
  have hl : P.distance R = (P - R).length := by
    have := distance_scaled R (P - R) 1
    rw [one_smul, add_sub_cancel, abs_one, one_mul] at this
    exact this
  have hne : P - R ≠ 0 := by
    intro h
    have := hT.right
    rw [sub_eq_zero.mp h, sub_self] at this
    norm_num [XYZ.isZero, XYZ.sqrLength, doubleEps] at this
  have hpos := length_pos hne
  have hτ : 0 < 1 + d / P.distance R := by
    rw [hl] at hd0 ⊢
    have : 1 + d / (P - R).length = ((P - R).length + d) / (P - R).length := by field_simp
    rw [this]
    exact div_pos (by linarith) hpos
  obtain ⟨c', e, w', ek, g1, g2, g3, g4⟩ := neighborWeights_run (sc := sc) (τ := 1 + d / P.distance R) w he h0 h1 hk hw hw1 hd hsc hW hW0 hP hR ha hb ha0 hb0 hT (abs_of_pos hτ).symm hτ.ne' hβ hW'
  refine ⟨c', _, e, w', ek, g1, g2, g3, ?_⟩
  rw [g4, hl, normalize_eq hne]
  congr 1
  apply XYZ.ext <;> simp only [XYZ.smul_x, XYZ.smul_y, XYZ.smul_z, XYZ.add_x, XYZ.add_y, XYZ.add_z, XYZ.sub_x, XYZ.sub_y, XYZ.sub_z] <;> field_simp <;> ring

/-- C143 is violated when the point is to move beyond the point without the leg (a negative distance larger than the distance to it): the code works with unsigned lengths, and the point
ends on the wrong side, as far from it as the target but not at the target. -/
theorem C143_beyond_violated {c : NurbsCurve ℝ} {p n k : ℕ} {t d sc a b : ℝ} {P R : XYZ ℝ} (w : WellFormed c p n) (he : EndsSeparated (nth c.knots) p n) (h0 : nth c.knots p ≤ t)
    (h1 : t ≤ nth c.knots (n + 1)) (hk : k + 1 ≤ n) (hw : NotTiny (nth c.cps k).w) (hw1 : NotTiny (nth c.cps (k + 1)).w) (hd : NotTiny d) (hsc : NotTiny sc)
    (hW : NotTiny (weightFn (nth c.knots) p n (nth c.cps) t)) (hW0 : NotTiny (weightFn (nth c.knots) p n (nth (withoutLeg c k).cps) t))
    (hP : NurbsCurve.pointOnCurve c t = ok P) (hR : NurbsCurve.pointOnCurve (withoutLeg c k) t = ok R) (ha : a = share c p n k t) (hb : b = share c p n (k + 1) t) (ha0 : 0 < a) (hb0 : 0 < b)
    (hT : Transversal ((nth c.cps k).toXYZ - (nth c.cps (k + 1)).toXYZ) (R - P)) (hd0 : d < -P.distance R) (hβ : 1 + (1 + d / P.distance R) * (a + b) ≠ 0)
    (hW' : NotTiny (weightFn (nth c.knots) p n (nth c.cps) t * ((1 - a - b) / (1 + (1 + d / P.distance R) * (a + b))))) :
    ∃ c', neighborWeightsModification c t k d sc = ok (some c') ∧ NurbsCurve.pointOnCurve c' t = ok (R - (P + d • (P - R).normalize - R)) ∧
      R - (P + d • (P - R).normalize - R) ≠ P + d • (P - R).normalize := by
  have hl : P.distance R = (P - R).length := by
    have := distance_scaled R (P - R) 1
    rw [one_smul, add_sub_cancel, abs_one, one_mul] at this
    exact this
  have hne : P - R ≠ 0 := by
    intro h
    have := hT.right
    rw [sub_eq_zero.mp h, sub_self] at this
    norm_num [XYZ.isZero, XYZ.sqrLength, doubleEps] at this
  have hpos := length_pos hne
  have hτ : 1 + d / P.distance R < 0 := by
    rw [hl] at hd0 ⊢
    have : 1 + d / (P - R).length = ((P - R).length + d) / (P - R).length := by field_simp
    rw [this]
    exact div_neg_of_neg_of_pos (by linarith) hpos
  have vec : P + d • (P - R).normalize - R = (1 + d / P.distance R) • (P - R) := by
    rw [hl, normalize_eq hne]
    apply XYZ.ext <;> simp only [XYZ.smul_x, XYZ.smul_y, XYZ.smul_z, XYZ.add_x, XYZ.add_y, XYZ.add_z, XYZ.sub_x, XYZ.sub_y, XYZ.sub_z] <;> field_simp <;> ring
  obtain ⟨c', e, w', ek, g1, g2, g3, g4⟩ := neighborWeights_run (sc := sc) (τ := -(1 + d / P.distance R)) w he h0 h1 hk hw hw1 hd hsc hW hW0 hP hR ha hb ha0 hb0 hT (abs_of_neg hτ).symm
    (by linarith) (by rw [neg_mul, sub_neg_eq_add]; exact hβ) (by rw [neg_mul, sub_neg_eq_add]; exact hW')
  refine ⟨c', e, ?_, ?_⟩
  · rw [g4, vec, neg_smul, ← sub_eq_add_neg]
  · intro h
    have h2 : (2 : ℝ) • ((1 + d / P.distance R) • (P - R)) = 0 := by
      rw [← vec, two_smul]
      have h' : P + d • (P - R).normalize = R - (P + d • (P - R).normalize - R) := h.symm
      calc _ = (P + d • (P - R).normalize - R) - (R - (P + d • (P - R).normalize)) := by abel
        _ = (P + d • (P - R).normalize) - (R - (P + d • (P - R).normalize - R)) := by abel
        _ = 0 := by rw [← h', sub_self]
    rw [smul_smul, smul_eq_zero] at h2
    rcases h2 with h2 | h2
    · linarith
    · exact hne h2

/-- C143 is violated for the last control point: the index passes the check, but its neighbour does not exist and is read all the same. -/
theorem C143_last_violated {c : NurbsCurve ℝ} {p n : ℕ} {t d sc : ℝ} (w : WellFormed c p n) (h0 : nth c.knots p ≤ t) (h1 : t ≤ nth c.knots (n + 1)) (hd : NotTiny d) (hsc : NotTiny sc) :
    neighborWeightsModification c t n d sc = ub := by
  have hl := w.knots
  have hpn := w.pn
  have hc := w.cps
  have hm : MonoTo (nth c.knots) (n + p + 1) := fun i j h h' => w.sorted i j h (by omega)
  unfold neighborWeightsModification
  rw [vget_nth (i := 0) (k := 0) rfl (by omega), ok_bind, vget_nth (k := n + p + 1) (by omega) (by omega), ok_bind,
    validateRange_in (le_trans (hm _ _ (by omega) (by omega)) h0) (le_trans h1 (hm _ _ (by omega) (by omega))), ok_bind,
    validateIndex_in (by omega), ok_bind, notTiny_iff.mpr hd, notTiny_iff.mpr hsc]
  simp only [Bool.not_false, validate_true, ok_bind]
  rw [vget_nth (k := n) rfl (by omega), ok_bind]
  rw [vset_of rfl (by omega), ok_bind, vget_ge (by rw [List.length_set]; omega)]
  rfl

/-- C143: an index that does not exist is rejected, and so are a zero distance and a zero scale. -/
theorem C143_rejects {c : NurbsCurve ℝ} {p n : ℕ} {t d sc : ℝ} {k : ℤ} {r : Option (NurbsCurve ℝ)} (w : WellFormed c p n) (h : neighborWeightsModification c t k d sc = ok r) :
    0 ≤ k ∧ k ≤ n ∧ NotTiny d ∧ NotTiny sc := by
  have hc := w.cps
  unfold neighborWeightsModification validateIndex at h
  obtain ⟨u1, -, h⟩ := bind_eq_ok.mp h
  obtain ⟨u2, -, h⟩ := bind_eq_ok.mp h
  obtain ⟨u3, -, h⟩ := bind_eq_ok.mp h
  obtain ⟨u4, h1, h⟩ := bind_eq_ok.mp h
  obtain ⟨u5, h2, h⟩ := bind_eq_ok.mp h
  obtain ⟨u6, h3, h⟩ := bind_eq_ok.mp h
  have v := fun {b : Bool} (h : validate b = ok ()) => show b = true by
    unfold validate at h
    by_contra hb
    simp [hb] at h
  have g2 := v h2
  have g3 := v h3
  rw [Bool.not_eq_true'] at g2 g3
  split_ifs at h1 with c1
  exact ⟨by omega, by omega, notTiny_iff.mp g2, notTiny_iff.mp g3⟩

/-- C143 is violated by the scale: it is checked, but otherwise it has no effect. -/
theorem C143_scale_violated {c : NurbsCurve ℝ} {t d s1 s2 : ℝ} {k : ℤ} (h1 : NotTiny s1) (h2 : NotTiny s2) :
    neighborWeightsModification c t k d s1 = neighborWeightsModification c t k d s2 := by
  unfold neighborWeightsModification
  rw [notTiny_iff.mpr h1, notTiny_iff.mpr h2]

/-- a quadratic whose point at 1/2 is (1, 4/3, 0); without the first two control points it is (2, 0, 0), at the distance 5/3 -/
noncomputable def exTent : NurbsCurve ℝ := { degree := 2, knots := [0, 0, 0, 1, 1, 1], cps := [⟨0, 0, 0, 1⟩, ⟨1, 8 / 3, 0, 1⟩, ⟨2, 0, 0, 1⟩] }

theorem exTent_wf : WellFormed exTent 2 2 :=
  { degree := rfl, pos := by decide, le7 := by decide, cps := rfl, pn := le_refl _, knots := rfl,
    sorted := isValidKnotVector_nth.mp (by rw [isValidKnotVector_iff]; simp [exTent]) }

/-- the values of the three basis functions at 1/2 -/
theorem bez2_half : N (nth ([0, 0, 0, 1, 1, 1] : List ℝ)) (nth ([0, 0, 0, 1, 1, 1] : List ℝ) 3) 2 0 (1 / 2) = 1 / 4 ∧
    N (nth ([0, 0, 0, 1, 1, 1] : List ℝ)) (nth ([0, 0, 0, 1, 1, 1] : List ℝ) 3) 2 1 (1 / 2) = 1 / 2 ∧
    N (nth ([0, 0, 0, 1, 1, 1] : List ℝ)) (nth ([0, 0, 0, 1, 1, 1] : List ℝ) 3) 2 2 (1 / 2) = 1 / 4 := by
  rw [bez2_N (by norm_num) (by norm_num) 0 (by omega), bez2_N (by norm_num) (by norm_num) 1 (by omega), bez2_N (by norm_num) (by norm_num) 2 (by omega),
      (bez2_dN _).1, (bez2_dN _).2.1, (bez2_dN _).2.2]
  norm_num

/-- the facts about that quadratic -/
theorem exTent_facts : weightFn (nth exTent.knots) 2 2 (nth exTent.cps) (1 / 2) = 1 ∧ weightFn (nth exTent.knots) 2 2 (nth (withoutLeg exTent 0).cps) (1 / 2) = 1 / 4 ∧
    NurbsCurve.pointOnCurve exTent (1 / 2) = ok ⟨1, 4 / 3, 0⟩ ∧ NurbsCurve.pointOnCurve (withoutLeg exTent 0) (1 / 2) = ok ⟨2, 0, 0⟩ ∧ share exTent 2 2 0 (1 / 2) = 1 / 4 ∧
    share exTent 2 2 (0 + 1) (1 / 2) = 1 / 2 ∧ ((⟨1, 4 / 3, 0⟩ : XYZ ℝ) - ⟨2, 0, 0⟩).length = 5 / 3 ∧ (⟨1, 4 / 3, 0⟩ : XYZ ℝ).distance ⟨2, 0, 0⟩ = 5 / 3 ∧
    Transversal ((nth exTent.cps 0).toXYZ - (nth exTent.cps (0 + 1)).toXYZ) ((⟨2, 0, 0⟩ : XYZ ℝ) - ⟨1, 4 / 3, 0⟩) := by
  obtain ⟨b0, b1, b2⟩ := bez2_half
  have n1 : NotTiny (1 : ℝ) := notTiny_of_ge (by norm_num)
  have k1 : nth exTent.knots 2 ≤ 1 / 2 := by simp [exTent, nth]
  have k2 : (1 : ℝ) / 2 ≤ nth exTent.knots 3 := by simp [exTent, nth]; norm_num
  have e1 : (nth exTent.cps 0).toXYZ = ⟨0, 0, 0⟩ := by
    have := smul_toXYZ (a := nth exTent.cps 0) n1
    rw [show (nth exTent.cps 0).w = 1 from rfl, one_smul] at this
    exact this
  have e2 : (nth exTent.cps 1).toXYZ = ⟨1, 8 / 3, 0⟩ := by
    have := smul_toXYZ (a := nth exTent.cps 1) n1
    rw [show (nth exTent.cps 1).w = 1 from rfl, one_smul] at this
    exact this
  have w0 : WellFormed (withoutLeg exTent 0) 2 2 :=
    { degree := rfl, pos := by decide, le7 := by decide, cps := rfl, pn := le_refl _, knots := rfl,
      sorted := isValidKnotVector_nth.mp (by rw [isValidKnotVector_iff]; simp [exTent, withoutLeg]) }
  have hW : weightFn (nth exTent.knots) 2 2 (nth exTent.cps) (1 / 2) = 1 := by
    unfold weightFn
    simp only [sum_range_succ, sum_range_zero, exTent]
    rw [b0, b1, b2]
    norm_num [nth]
  have hl0 : (withoutLeg exTent 0).cps = [⟨0, 0, 0, 0⟩, ⟨0, 0, 0, 0⟩, ⟨2, 0, 0, 1⟩] := by
    unfold withoutLeg
    rw [e1, e2]
    simp [exTent, XYZW.ofXYZ]
  have hW0 : weightFn (nth exTent.knots) 2 2 (nth (withoutLeg exTent 0).cps) (1 / 2) = 1 / 4 := by
    unfold weightFn
    rw [hl0]
    simp only [sum_range_succ, sum_range_zero, exTent]
    rw [b0, b1, b2]
    norm_num [nth]
  have n4 : NotTiny (1 / 4 : ℝ) := notTiny_of_ge (by norm_num)
  have hP : NurbsCurve.pointOnCurve exTent (1 / 2) = ok ⟨1, 4 / 3, 0⟩ := by
    rw [C05_eval_rational exTent_wf bez2_ends k1 k2 (by rw [hW]; exact n1), rationalPoint_raw, hW]
    simp only [sum_range_succ, sum_range_zero, exTent]
    rw [b0, b1, b2]
    congr 1
    apply XYZ.ext <;> norm_num [nth, XYZW.raw]
  have hR : NurbsCurve.pointOnCurve (withoutLeg exTent 0) (1 / 2) = ok ⟨2, 0, 0⟩ := by
    rw [C05_eval_rational w0 bez2_ends k1 k2 (by rw [show (withoutLeg exTent 0).knots = exTent.knots from rfl, hW0]; exact n4), rationalPoint_raw,
      show (withoutLeg exTent 0).knots = exTent.knots from rfl, hW0, hl0]
    simp only [sum_range_succ, sum_range_zero, exTent]
    rw [b0, b1, b2]
    congr 1
    apply XYZ.ext <;> norm_num [nth, XYZW.raw]
  have s0 : share exTent 2 2 0 (1 / 2) = 1 / 4 := by
    unfold share
    rw [hW]
    simp only [exTent]
    rw [b0]
    norm_num [nth]
  have s1 : share exTent 2 2 (0 + 1) (1 / 2) = 1 / 2 := by
    unfold share
    rw [hW]
    simp only [exTent]
    rw [b1]
    norm_num [nth]
  have hl : ((⟨1, 4 / 3, 0⟩ : XYZ ℝ) - ⟨2, 0, 0⟩).length = 5 / 3 := length_of (by norm_num) (by norm_num [XYZ.sqrLength])
  have hdist : (⟨1, 4 / 3, 0⟩ : XYZ ℝ).distance ⟨2, 0, 0⟩ = 5 / 3 := by
    have := distance_scaled (⟨2, 0, 0⟩ : XYZ ℝ) ((⟨1, 4 / 3, 0⟩ : XYZ ℝ) - ⟨2, 0, 0⟩) 1
    rw [one_smul, add_sub_cancel, abs_one, one_mul, hl] at this
    exact this
  refine ⟨hW, hW0, hP, hR, s0, s1, hl, hdist, ?_⟩
  rw [e1, e2]
  refine ⟨?_, ?_, ?_, ?_⟩
  · norm_num [XYZ.cross, XYZ.sqrLength]
  · unfold XYZ.almostEq isAlmostEqualTo tolOf doubleEps
    norm_num
  · norm_num [XYZ.isZero, XYZ.sqrLength, doubleEps]
  · norm_num [XYZ.isZero, XYZ.sqrLength, doubleEps]

/-- the hypotheses of `C143_moves_partial` hold for that quadratic and the distance 1/3 -/
example : ∃ c', neighborWeightsModification exTent (1 / 2) (0 : ℕ) (1 / 3) 1 = ok (some c') ∧ NurbsCurve.pointOnCurve c' (1 / 2) = ok ⟨4 / 5, 8 / 5, 0⟩ := by
  obtain ⟨hW, hW0, hP, hR, s0, s1, hl, hdist, hT⟩ := exTent_facts
  have n1 : NotTiny (1 : ℝ) := notTiny_of_ge (by norm_num)
  obtain ⟨c', γ, e, -, -, -, -, -, g⟩ := C143_moves_partial (c := exTent) (k := 0) (t := 1 / 2) (d := 1 / 3) (sc := 1) (a := 1 / 4) (b := 1 / 2) exTent_wf bez2_ends (by simp [exTent, nth])
    (by simp [exTent, nth]; norm_num) (by norm_num) n1 n1 (notTiny_of_ge (by norm_num)) n1 (by rw [hW]; exact n1) (by rw [hW0]; exact notTiny_of_ge (by norm_num)) hP hR s0.symm s1.symm
    (by norm_num) (by norm_num) hT (by rw [hdist]; norm_num) (by rw [hdist]; norm_num) (by rw [hdist, hW]; exact notTiny_of_ge (by norm_num))
  refine ⟨c', e, ?_⟩
  rw [g, normalize_eq (by intro h; have := congrArg XYZ.x h; norm_num at this), hl]
  congr 1
  apply XYZ.ext <;> norm_num

/-- the hypotheses of `C143_beyond_violated` hold for that quadratic and the distance -2: the target is (11/5, -4/15, 0), the point moves to (9/5, 4/15, 0) -/
example : ∃ c', neighborWeightsModification exTent (1 / 2) (0 : ℕ) (-2) 1 = ok (some c') ∧ NurbsCurve.pointOnCurve c' (1 / 2) = ok ⟨9 / 5, 4 / 15, 0⟩ := by
  obtain ⟨hW, hW0, hP, hR, s0, s1, hl, hdist, hT⟩ := exTent_facts
  have n1 : NotTiny (1 : ℝ) := notTiny_of_ge (by norm_num)
  have n2 : NotTiny (-2 : ℝ) := by unfold NotTiny; norm_num
  obtain ⟨c', e, g, -⟩ := C143_beyond_violated (c := exTent) (k := 0) (t := 1 / 2) (d := -2) (sc := 1) (a := 1 / 4) (b := 1 / 2) exTent_wf bez2_ends (by simp [exTent, nth])
    (by simp [exTent, nth]; norm_num) (by norm_num) n1 n1 n2 n1 (by rw [hW]; exact n1) (by rw [hW0]; exact notTiny_of_ge (by norm_num)) hP hR s0.symm s1.symm
    (by norm_num) (by norm_num) hT (by rw [hdist]; norm_num) (by rw [hdist]; norm_num) (by rw [hdist, hW]; exact notTiny_of_ge (by norm_num))
  refine ⟨c', e, ?_⟩
  rw [g, normalize_eq (by intro h; have := congrArg XYZ.x h; norm_num at this), hl]
  congr 1
  apply XYZ.ext <;> norm_num

/-- the hypotheses of `C143_last_violated` and `C143_scale_violated` hold for it too -/
example : neighborWeightsModification exTent (1 / 2) (2 : ℕ) 1 1 = ub ∧ neighborWeightsModification exTent (1 / 2) (0 : ℕ) (1 / 3) 1 = neighborWeightsModification exTent (1 / 2) (0 : ℕ) (1 / 3) 5 :=
  ⟨C143_last_violated exTent_wf (by simp [exTent, nth]) (by simp [exTent, nth]; norm_num) (notTiny_of_ge (by norm_num)) (notTiny_of_ge (by norm_num)),
    C143_scale_violated (notTiny_of_ge (by norm_num)) (notTiny_of_ge (by norm_num))⟩

end LNLib.Props
