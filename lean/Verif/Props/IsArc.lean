import Verif.Model.IsArc
import Verif.Props.Linear
import Verif.Props.Closed
import Verif.Props.Warp
import Verif.Lemmas.BezierKnots

/-! # C119: recognising arcs -/

namespace LNLib.Props
open LNLib Res Spec Finset

/-- the points of the curve that the code puts a circle through: the start, and two more by parameter (the curve is halved when it is closed) -/
noncomputable def arcParam (c : NurbsCurve ℝ) (n p : ℕ) (closed : Bool) : ℝ :=
  if closed then 1 / 2 * nth c.knots 0 + 1 / 2 * nth c.knots (n + p + 1) else nth c.knots (n + p + 1)

theorem xyz_eq_zero {v : XYZ ℝ} (h : v.x ^ 2 + v.y ^ 2 + v.z ^ 2 = 0) : v = 0 := by
  have hx := sq_nonneg v.x
  have hy := sq_nonneg v.y
  have hz := sq_nonneg v.z
  ext
  · exact pow_eq_zero_iff (two_ne_zero) |>.mp (show v.x ^ 2 = 0 by linarith)
  · exact pow_eq_zero_iff (two_ne_zero) |>.mp (show v.y ^ 2 = 0 by linarith)
  · exact pow_eq_zero_iff (two_ne_zero) |>.mp (show v.z ^ 2 = 0 by linarith)

/-- a point at the same distance from the three points, in their plane, is the one the code computes -/
theorem circumcenter {P0 P1 P2 O N : XYZ ℝ} {r : ℝ} (h0 : P0.distance O = r) (h1 : P1.distance O = r) (h2 : P2.distance O = r) (hN : N ≠ 0)
    (n0 : (P0 - O).dot N = 0) (n1 : (P1 - O).dot N = 0) (n2 : (P2 - O).dot N = 0)
    (hd : (P1 - P0).dot (P1 - P0) * (P2 - P0).dot (P2 - P0) - (P1 - P0).dot (P2 - P0) * (P1 - P0).dot (P2 - P0) ≠ 0) :
    P0 + (1 / 2 / ((P1 - P0).dot (P1 - P0) * (P2 - P0).dot (P2 - P0) - (P1 - P0).dot (P2 - P0) * (P1 - P0).dot (P2 - P0)) * (P2 - P0).dot (P2 - P0) *
        ((P1 - P0).dot (P1 - P0) - (P1 - P0).dot (P2 - P0))) • (P1 - P0) +
      (1 / 2 / ((P1 - P0).dot (P1 - P0) * (P2 - P0).dot (P2 - P0) - (P1 - P0).dot (P2 - P0) * (P1 - P0).dot (P2 - P0)) * (P1 - P0).dot (P1 - P0) *
        ((P2 - P0).dot (P2 - P0) - (P1 - P0).dot (P2 - P0))) • (P2 - P0) = O := by
  obtain ⟨a, b, ha, hb⟩ : ∃ a b : XYZ ℝ, a = P1 - P0 ∧ b = P2 - P0 := ⟨_, _, rfl, rfl⟩
  rw [← ha, ← hb] at hd ⊢
  obtain ⟨o, ho⟩ : ∃ o : XYZ ℝ, o = O - P0 := ⟨_, rfl⟩
  have sq : ∀ {A B : XYZ ℝ}, A.distance B = r → (B.x - A.x) ^ 2 + (B.y - A.y) ^ 2 + (B.z - A.z) ^ 2 = r ^ 2 := by
    intro A B h
    rw [← h]
    unfold XYZ.distance
    rw [Real.sq_sqrt (by positivity)]
  have s0 := sq h0
  have s1 := sq h1
  have s2 := sq h2
  have e1 : 2 * o.dot a = a.dot a := by
    rw [ho, ha]; simp only [XYZ.dot, XYZ.sub_x, XYZ.sub_y, XYZ.sub_z]; linarith
  have e2 : 2 * o.dot b = b.dot b := by
    rw [ho, hb]; simp only [XYZ.dot, XYZ.sub_x, XYZ.sub_y, XYZ.sub_z]; linarith
  have na : a.dot N = 0 := by
    have : a.dot N = (P1 - O).dot N - (P0 - O).dot N := by rw [ha]; simp only [XYZ.dot, XYZ.sub_x, XYZ.sub_y, XYZ.sub_z]; ring
    rw [this, n0, n1, sub_zero]
  have nb : b.dot N = 0 := by
    have : b.dot N = (P2 - O).dot N - (P0 - O).dot N := by rw [hb]; simp only [XYZ.dot, XYZ.sub_x, XYZ.sub_y, XYZ.sub_z]; ring
    rw [this, n0, n2, sub_zero]
  have no : o.dot N = 0 := by
    have : o.dot N = -(P0 - O).dot N := by rw [ho]; simp only [XYZ.dot, XYZ.sub_x, XYZ.sub_y, XYZ.sub_z]; ring
    rw [this, n0, neg_zero]
  have hO : O = P0 + o := by rw [ho]; abel
  rw [hO, add_assoc]
  congr 1
  obtain ⟨G, hG⟩ : ∃ G, a.dot a * b.dot b - a.dot b * a.dot b = G := ⟨_, rfl⟩
  rw [hG] at hd ⊢
  obtain ⟨D, hD⟩ : ∃ D : XYZ ℝ, D = (1 / 2 / G * b.dot b * (a.dot a - a.dot b)) • a + (1 / 2 / G * a.dot a * (b.dot b - a.dot b)) • b - o := ⟨_, rfl⟩
  have lin : ∀ x : XYZ ℝ, D.dot x = 1 / 2 / G * b.dot b * (a.dot a - a.dot b) * a.dot x + 1 / 2 / G * a.dot a * (b.dot b - a.dot b) * b.dot x - o.dot x := by
    intro x
    rw [hD]
    simp only [XYZ.dot, XYZ.sub_x, XYZ.sub_y, XYZ.sub_z, XYZ.add_x, XYZ.add_y, XYZ.add_z, XYZ.smul_x, XYZ.smul_y, XYZ.smul_z]
    ring
  have hba : b.dot a = a.dot b := by simp only [XYZ.dot]; ring
  have d1 : D.dot a = 0 := by
    rw [lin, hba, show o.dot a = a.dot a / 2 by linarith]
    field_simp
    rw [← hG]; ring
  have d2 : D.dot b = 0 := by
    rw [lin, show o.dot b = b.dot b / 2 by linarith]
    field_simp
    rw [← hG]; ring
  have d3 : D.dot N = 0 := by rw [lin, na, nb, no]; ring
  obtain ⟨T, hT⟩ : ∃ T, T = a.dot (b.cross N) := ⟨_, rfl⟩
  have hN2 : 0 < N.dot N := by
    have h1 : 0 ≤ N.dot N := by
      simp only [XYZ.dot]
      exact add_nonneg (add_nonneg (mul_self_nonneg _) (mul_self_nonneg _)) (mul_self_nonneg _)
    refine lt_of_le_of_ne h1 fun h => hN ?_
    simp only [XYZ.dot] at h
    exact xyz_eq_zero (by rw [h]; ring)
  have hTT : T * T = G * N.dot N := by
    have hgen : T * T = a.dot a * (b.dot b * N.dot N - b.dot N * b.dot N) - a.dot b * (a.dot b * N.dot N - b.dot N * a.dot N) + a.dot N * (a.dot b * b.dot N - b.dot b * a.dot N) := by
      rw [hT]; simp only [XYZ.dot, XYZ.cross]; ring
    rw [hgen, na, nb, ← hG]; ring
  have hT0 : T ≠ 0 := by
    intro h
    rw [h, zero_mul] at hTT
    rcases mul_eq_zero.mp hTT.symm with h | h
    · exact hd h
    · exact hN2.ne' h
  have hz : T • D = 0 := by
    have : T • D = D.dot a • b.cross N + D.dot b • N.cross a + D.dot N • a.cross b := by
      rw [hT]
      ext <;> simp only [XYZ.dot, XYZ.cross, XYZ.add_x, XYZ.add_y, XYZ.add_z, XYZ.smul_x, XYZ.smul_y, XYZ.smul_z] <;> ring
    rw [this, d1, d2, d3, zero_smul, zero_smul, zero_smul, add_zero, add_zero]
  have hD0 : D = 0 := (smul_eq_zero.mp hz).resolve_left hT0
  rw [hD0] at hD
  exact (sub_eq_zero.mp hD.symm)

/-- the computed centre is at the same distance from the three points -/
theorem circumcenter_dist (P0 a b : XYZ ℝ) {G k1 k2 : ℝ} (hG : a.dot a * b.dot b - a.dot b * a.dot b = G) (hd : G ≠ 0)
    (h1 : k1 = 1 / 2 / G * b.dot b * (a.dot a - a.dot b)) (h2 : k2 = 1 / 2 / G * a.dot a * (b.dot b - a.dot b)) :
    (P0 + a).distance (P0 + k1 • a + k2 • b) = (P0 + k1 • a + k2 • b).distance P0 ∧ (P0 + b).distance (P0 + k1 • a + k2 • b) = (P0 + k1 • a + k2 • b).distance P0 := by
  have e1 : 2 * (k1 * a.dot a + k2 * a.dot b) = a.dot a := by
    rw [h1, h2]
    field_simp
    rw [← hG]; ring
  have e2 : 2 * (k1 * a.dot b + k2 * b.dot b) = b.dot b := by
    rw [h1, h2]
    field_simp
    rw [← hG]; ring
  simp only [XYZ.dot] at e1 e2
  unfold XYZ.distance
  simp only [XYZ.add_x, XYZ.add_y, XYZ.add_z, XYZ.smul_x, XYZ.smul_y, XYZ.smul_z]
  constructor
  · congr 1; linarith
  · congr 1; linarith

theorem dot_comm' (a b : XYZ ℝ) : a.dot b = b.dot a := by simp only [XYZ.dot]; ring

/-- what the code computes from the three points -/
theorem isArc_run {c : NurbsCurve ℝ} {p n : ℕ} (w : WellFormed c p n) (he : EndsSeparated (nth c.knots) p n) (hc : ClampedEnds (nth c.knots) p n) (hlin : isLinear c = false)
    {b : Bool} (hb : isClosedCurve c = ok b) {P0 P1 P2 O : XYZ ℝ} (e0 : NurbsCurve.pointOnCurve c (nth c.knots 0) = ok P0)
    (e1 : NurbsCurve.pointOnCurve c (1 / 2 * nth c.knots 0 + 1 / 2 * arcParam c n p b) = ok P1) (e2 : NurbsCurve.pointOnCurve c (arcParam c n p b) = ok P2)
    (hd : (P1 - P0).dot (P1 - P0) * (P2 - P0).dot (P2 - P0) - (P1 - P0).dot (P2 - P0) * (P1 - P0).dot (P2 - P0) ≠ 0)
    (hO : P0 + (1 / 2 / ((P1 - P0).dot (P1 - P0) * (P2 - P0).dot (P2 - P0) - (P1 - P0).dot (P2 - P0) * (P1 - P0).dot (P2 - P0)) * (P2 - P0).dot (P2 - P0) *
        ((P1 - P0).dot (P1 - P0) - (P1 - P0).dot (P2 - P0))) • (P1 - P0) +
      (1 / 2 / ((P1 - P0).dot (P1 - P0) * (P2 - P0).dot (P2 - P0) - (P1 - P0).dot (P2 - P0) * (P1 - P0).dot (P2 - P0)) * (P1 - P0).dot (P1 - P0) *
        ((P2 - P0).dot (P2 - P0) - (P1 - P0).dot (P2 - P0))) • (P2 - P0) = O) :
    ∃ pts params, equallyTessellate c = ok (pts, params) ∧
      isArc c = ok (if pts.all fun point => isAlmostEqualTo (point.distance O) (O.distance P0) then some { isCircle := b, radius := O.distance P0, center := O } else none) := by
  obtain ⟨pts, params, et, -⟩ := C90_tessellate w he hc
  have hl := w.knots
  refine ⟨pts, params, et, ?_⟩
  unfold isArc
  rw [if_neg (by rw [hlin]; simp), vget_nth (i := 0) (k := 0) rfl (by omega), ok_bind, vget_nth (k := n + p + 1) (by omega) (by omega), ok_bind, e0, ok_bind, hb, ok_bind]
  dsimp only
  unfold arcParam at e1 e2
  rw [e1, ok_bind, e2, ok_bind]
  rw [fdiv_ok hd, ok_bind]
  rw [hO, et, ok_bind]
  dsimp only
  split_ifs <;> rfl

theorem almost_self (x : ℝ) : isAlmostEqualTo x x = true := by
  unfold isAlmostEqualTo
  rw [decide_eq_true_eq, sub_self, abs_zero]
  exact (tolOf_pos doubleEps_pos).le

theorem distance_symm (a b : XYZ ℝ) : a.distance b = b.distance a := by
  unfold XYZ.distance
  congr 1
  ring

/-- C119 (partial, arcs are recognised): for every valid clamped curve that is not straight and whose points all lie on a circle (distance `r` from `O`, in the plane
through `O` with normal `N`), if the three points used by the code are not collinear then `IsArc` answers `true` with exactly that centre and radius. -/
theorem C119_complete_partial {c : NurbsCurve ℝ} {p n : ℕ} {O N : XYZ ℝ} {r : ℝ} (w : WellFormed c p n) (he : EndsSeparated (nth c.knots) p n) (hc : ClampedEnds (nth c.knots) p n)
    (hlin : isLinear c = false) (hN : N ≠ 0)
    (hcirc : ∀ u, nth c.knots p ≤ u → u ≤ nth c.knots (n + 1) → ∃ P, NurbsCurve.pointOnCurve c u = ok P ∧ P.distance O = r ∧ (P - O).dot N = 0) :
    ∃ b P0 P1 P2, isClosedCurve c = ok b ∧ NurbsCurve.pointOnCurve c (nth c.knots 0) = ok P0 ∧
      NurbsCurve.pointOnCurve c (1 / 2 * nth c.knots 0 + 1 / 2 * arcParam c n p b) = ok P1 ∧ NurbsCurve.pointOnCurve c (arcParam c n p b) = ok P2 ∧
      ((P1 - P0).cross (P2 - P0) ≠ 0 → isArc c = ok (some { isCircle := b, radius := r, center := O })) := by
  have hm := wf_monoTo w
  have hpn := w.pn
  obtain ⟨-, -, b, hb, -⟩ := isClosed_run w he hc
  have hlt : nth c.knots 0 ≤ nth c.knots (n + p + 1) := hm _ _ (by omega) le_rfl
  have hle : nth c.knots 0 ≤ arcParam c n p b ∧ arcParam c n p b ≤ nth c.knots (n + p + 1) := by
    unfold arcParam
    split_ifs <;> constructor <;> linarith
  have hdom : ∀ u, nth c.knots 0 ≤ u → u ≤ nth c.knots (n + p + 1) → ∃ P, NurbsCurve.pointOnCurve c u = ok P ∧ P.distance O = r ∧ (P - O).dot N = 0 := by
    intro u u0 u1
    exact hcirc u (by rw [← hc.first]; exact u0) (by rw [hc.last]; exact u1)
  obtain ⟨P0, e0, d0, n0⟩ := hdom (nth c.knots 0) le_rfl hlt
  obtain ⟨P1, e1, d1, n1⟩ := hdom (1 / 2 * nth c.knots 0 + 1 / 2 * arcParam c n p b) (by linarith [hle.1]) (by linarith [hle.2])
  obtain ⟨P2, e2, d2, n2⟩ := hdom (arcParam c n p b) hle.1 hle.2
  refine ⟨b, P0, P1, P2, hb, e0, e1, e2, fun hcr => ?_⟩
  have hG : (P1 - P0).dot (P1 - P0) * (P2 - P0).dot (P2 - P0) - (P1 - P0).dot (P2 - P0) * (P1 - P0).dot (P2 - P0) ≠ 0 := by
    intro h
    apply hcr
    refine xyz_eq_zero ?_
    rw [← h]
    simp only [XYZ.cross, XYZ.dot]
    ring
  obtain ⟨pts, params, et, hrun⟩ := isArc_run w he hc hlin hb e0 e1 e2 hG (circumcenter d0 d1 d2 hN n0 n1 n2 hG)
  rw [hrun, distance_symm O P0, d0, if_pos]
  rw [List.all_eq_true]
  intro Q hQ
  obtain ⟨pts', params', et', hlen, -, hpt, -⟩ := C90_tessellate w he hc
  obtain ⟨rfl, rfl⟩ : pts' = pts ∧ params' = params := by
    rw [et] at et'
    injection et' with h
    exact ⟨(congrArg Prod.fst h).symm, (congrArg Prod.snd h).symm⟩
  obtain ⟨k, hk, rfl⟩ := List.getElem_of_mem hQ
  obtain ⟨a0, a1, ek⟩ := hpt k (by omega)
  obtain ⟨P, eP, dP, -⟩ := hcirc _ a0 a1
  rw [ek] at eP
  injection eP with eP
  rw [nth_eq_getElem hk] at eP
  rw [eP, dP]
  exact almost_self r

/-- C119 (partial, soundness): when `IsArc` answers `true`, the centre is at the same distance (the radius) from the three points it was computed from and lies in their
plane, and the distance of every sample of the curve agrees with the radius up to the relative tolerance. (Nothing is known about the plane of the samples.) -/
theorem C119_sound_partial {c : NurbsCurve ℝ} {p n : ℕ} {info : ArcInfo} (w : WellFormed c p n) (he : EndsSeparated (nth c.knots) p n) (hc : ClampedEnds (nth c.knots) p n)
    (hrun : isArc c = ok (some info)) :
    isClosedCurve c = ok info.isCircle ∧ ∃ P0 P1 P2, NurbsCurve.pointOnCurve c (nth c.knots 0) = ok P0 ∧
      NurbsCurve.pointOnCurve c (1 / 2 * nth c.knots 0 + 1 / 2 * arcParam c n p info.isCircle) = ok P1 ∧ NurbsCurve.pointOnCurve c (arcParam c n p info.isCircle) = ok P2 ∧
      P0.distance info.center = info.radius ∧ P1.distance info.center = info.radius ∧ P2.distance info.center = info.radius ∧
      (∃ x y : ℝ, info.center = P0 + x • (P1 - P0) + y • (P2 - P0)) ∧
      ∃ pts params, equallyTessellate c = ok (pts, params) ∧ ∀ Q ∈ pts, |Q.distance info.center - info.radius| ≤ 1 / 1000000 * (1 + max |Q.distance info.center| |info.radius|) := by
  obtain ⟨-, -, b, hb, -⟩ := isClosed_run w he hc
  have hl := w.knots
  have hrun' := hrun
  unfold isArc at hrun'
  by_cases hlin : isLinear c = true
  · rw [if_pos hlin] at hrun'; cases hrun'
  rw [if_neg hlin, vget_nth (i := 0) (k := 0) rfl (by omega), ok_bind, vget_nth (k := n + p + 1) (by omega) (by omega), ok_bind] at hrun'
  obtain ⟨P0, e0, hrun'⟩ := bind_eq_ok.mp hrun'
  rw [hb, ok_bind] at hrun'
  dsimp only at hrun'
  obtain ⟨P1, e1, hrun'⟩ := bind_eq_ok.mp hrun'
  obtain ⟨P2, e2, hrun'⟩ := bind_eq_ok.mp hrun'
  have hG : (P1 - P0).dot (P1 - P0) * (P2 - P0).dot (P2 - P0) - (P1 - P0).dot (P2 - P0) * (P1 - P0).dot (P2 - P0) ≠ 0 := by
    intro h
    rw [h, fdiv_zero] at hrun'
    cases hrun'
  obtain ⟨O, hO⟩ : ∃ O, P0 + (1 / 2 / ((P1 - P0).dot (P1 - P0) * (P2 - P0).dot (P2 - P0) - (P1 - P0).dot (P2 - P0) * (P1 - P0).dot (P2 - P0)) * (P2 - P0).dot (P2 - P0) *
        ((P1 - P0).dot (P1 - P0) - (P1 - P0).dot (P2 - P0))) • (P1 - P0) +
      (1 / 2 / ((P1 - P0).dot (P1 - P0) * (P2 - P0).dot (P2 - P0) - (P1 - P0).dot (P2 - P0) * (P1 - P0).dot (P2 - P0)) * (P1 - P0).dot (P1 - P0) *
        ((P2 - P0).dot (P2 - P0) - (P1 - P0).dot (P2 - P0))) • (P2 - P0) = O := ⟨_, rfl⟩
  obtain ⟨pts, params, et, hrun2⟩ := isArc_run w he hc (by simpa using hlin) hb e0 e1 e2 hG hO
  rw [hrun2] at hrun
  by_cases hall : (pts.all fun point => isAlmostEqualTo (point.distance O) (O.distance P0)) = true
  · rw [if_pos hall] at hrun
    obtain rfl : _ = info := by injection hrun with h; injection h
    refine ⟨hb, P0, P1, P2, e0, e1, e2, distance_symm _ _, ?_, ?_, ⟨_, _, hO.symm⟩, pts, params, et, fun Q hQ => ?_⟩
    · have := (circumcenter_dist P0 (P1 - P0) (P2 - P0) rfl hG rfl rfl).1
      rw [hO, add_sub_cancel] at this
      exact this
    · have := (circumcenter_dist P0 (P1 - P0) (P2 - P0) rfl hG rfl rfl).2
      rw [hO, add_sub_cancel] at this
      exact this
    · have := (List.all_eq_true.mp hall) Q hQ
      unfold isAlmostEqualTo at this
      rw [decide_eq_true_eq] at this
      unfold tolOf doubleEps at this
      exact this
  · rw [if_neg hall] at hrun
    cases hrun

theorem xyzw_sum_wx {ι : Type} (s : Finset ι) (f : ι → ℝ) (P : ι → XYZW ℝ) : (∑ i ∈ s, f i • P i).wx = ∑ i ∈ s, f i * (P i).wx := by
  classical
  induction s using Finset.induction_on with
  | empty => simp
  | insert a s ha ih => rw [sum_insert ha, sum_insert ha, XYZW.add_wx, XYZW.smul_wx, ih]

theorem xyzw_sum_wy {ι : Type} (s : Finset ι) (f : ι → ℝ) (P : ι → XYZW ℝ) : (∑ i ∈ s, f i • P i).wy = ∑ i ∈ s, f i * (P i).wy := by
  classical
  induction s using Finset.induction_on with
  | empty => simp
  | insert a s ha ih => rw [sum_insert ha, sum_insert ha, XYZW.add_wy, XYZW.smul_wy, ih]

theorem xyzw_sum_wz {ι : Type} (s : Finset ι) (f : ι → ℝ) (P : ι → XYZW ℝ) : (∑ i ∈ s, f i • P i).wz = ∑ i ∈ s, f i * (P i).wz := by
  classical
  induction s using Finset.induction_on with
  | empty => simp
  | insert a s ha ih => rw [sum_insert ha, sum_insert ha, XYZW.add_wz, XYZW.smul_wz, ih]

/-- on one span the curve is the quotient of polynomials of degree at most the degree of the curve; so if it is at distance `r` from `O` at more than twice that many
parameters of the span then it is there everywhere on the span -/
theorem span_sphere {c : NurbsCurve ℝ} {p n s : ℕ} {O : XYZ ℝ} {r : ℝ} (w : WellFormed c p n) (he : EndsSeparated (nth c.knots) p n)
    (hw : ∀ i, i ≤ n → 1 / 500000 ≤ (nth c.cps i).w) {x : ℕ → ℝ} (hx : ∀ i j, i < j → j < 99 → x i < x j) (hspan : ∀ j, j < 99 → IsSpan (nth c.knots) p n (x j) s)
    (hd : ∀ j, j < 99 → (curvePoint (nth c.knots) p n (nth c.cps) (x j)).toXYZ.distance O = r) {u : ℝ} (hu : IsSpan (nth c.knots) p n u s) :
    (curvePoint (nth c.knots) p n (nth c.cps) u).toXYZ.distance O = r := by
  have hm := wf_monoTo w
  have hpn := w.pn
  have h7 := w.le7
  obtain ⟨r0, hr0⟩ : ∃ r0 : 0 ≤ r, True := ⟨by rw [← hd 0 (by omega)]; exact Real.sqrt_nonneg _, trivial⟩
  obtain ⟨PP, hPP⟩ : ∃ PP : (XYZW ℝ → ℝ) → Polynomial ℝ, PP = fun f => ∑ i ∈ range (n + 1), Polynomial.C (f (nth c.cps i)) * NspanP (nth c.knots) s p i := ⟨_, rfl⟩
  have hdeg : ∀ f, (PP f).natDegree ≤ p := by
    intro f
    rw [hPP]
    refine Polynomial.natDegree_sum_le_of_forall_le _ _ fun i _ => ?_
    exact (Polynomial.natDegree_C_mul_le _ _).trans (NspanP_natDegree _ _ _ _)
  have hev : ∀ f t, IsSpan (nth c.knots) p n t s → (PP f).eval t = ∑ i ∈ range (n + 1), N (nth c.knots) (nth c.knots (n + 1)) p i t * f (nth c.cps i) := by
    intro f t ht
    rw [hPP]
    dsimp only
    rw [Polynomial.eval_finsetSum]
    refine sum_congr rfl fun i hi => ?_
    rw [mem_range] at hi
    rw [Polynomial.eval_mul, Polynomial.eval_C, NspanP_eval, N_eq_Nspan hm (by omega) ht p i (by omega), mul_comm]
  obtain ⟨F, hF⟩ : ∃ F : Polynomial ℝ, F = (PP fun q => q.wx - O.x * q.w) ^ 2 + (PP fun q => q.wy - O.y * q.w) ^ 2 + (PP fun q => q.wz - O.z * q.w) ^ 2
    - Polynomial.C (r ^ 2) * (PP fun q => q.w) ^ 2 := ⟨_, rfl⟩
  have hFdeg : F.natDegree ≤ 14 := by
    have h2 : ∀ f, ((PP f) ^ 2).natDegree ≤ 14 := fun f => Polynomial.natDegree_pow_le.trans (by have := hdeg f; omega)
    rw [hF]
    refine (Polynomial.natDegree_sub_le_of_le (m := 14) (n := 14) ?_ ((Polynomial.natDegree_C_mul_le _ _).trans (h2 _))).trans (by simp)
    refine (Polynomial.natDegree_add_le_of_le (m := 14) (n := 14) ?_ (h2 _)).trans (by simp)
    exact (Polynomial.natDegree_add_le_of_le (m := 14) (n := 14) (h2 _) (h2 _)).trans (by simp)
  have key : ∀ t, IsSpan (nth c.knots) p n t s → ((curvePoint (nth c.knots) p n (nth c.cps) t).toXYZ.distance O = r ↔ F.eval t = 0) := by
    intro t ht
    have t0 : nth c.knots p ≤ t := (hm p s ht.1 (by have := ht.2.1; omega)).trans ht.2.2.2.1
    have t1 : t ≤ nth c.knots (n + 1) := by
      rcases ht.2.2.2.2 with h | ⟨h, h'⟩
      · exact h.le.trans (hm _ _ (by have := ht.2.1; omega) (by omega))
      · rw [h, h']
    have hge := weightFn_ge w he t0 t1 hw
    have hwe : (curvePoint (nth c.knots) p n (nth c.cps) t).w = weightFn (nth c.knots) p n (nth c.cps) t := by unfold curvePoint weightFn; rw [XYZW.sum_w]
    obtain ⟨om, hom⟩ : ∃ om, weightFn (nth c.knots) p n (nth c.cps) t = om := ⟨_, rfl⟩
    rw [hom] at hge hwe
    have hpos : 0 < om := by have : (0 : ℝ) < 1 / 500000 := by norm_num
                             linarith
    have ew : (PP fun q => q.w).eval t = om := by rw [hev _ _ ht, ← hom]; rfl
    have lin : ∀ (f : XYZW ℝ → ℝ) (o : ℝ), (PP fun q => f q - o * q.w).eval t = (PP f).eval t - o * om := by
      intro f o
      rw [← ew, hev _ _ ht, hev _ _ ht, hev _ _ ht, mul_sum, ← sum_sub_distrib]
      exact sum_congr rfl fun i _ => by ring
    have ex : (PP fun q => q.wx).eval t = (curvePoint (nth c.knots) p n (nth c.cps) t).wx := by rw [hev _ _ ht]; unfold curvePoint; rw [xyzw_sum_wx]
    have ey : (PP fun q => q.wy).eval t = (curvePoint (nth c.knots) p n (nth c.cps) t).wy := by rw [hev _ _ ht]; unfold curvePoint; rw [xyzw_sum_wy]
    have ez : (PP fun q => q.wz).eval t = (curvePoint (nth c.knots) p n (nth c.cps) t).wz := by rw [hev _ _ ht]; unfold curvePoint; rw [xyzw_sum_wz]
    have eF : F.eval t = ((curvePoint (nth c.knots) p n (nth c.cps) t).wx - O.x * om) ^ 2 + ((curvePoint (nth c.knots) p n (nth c.cps) t).wy - O.y * om) ^ 2 +
        ((curvePoint (nth c.knots) p n (nth c.cps) t).wz - O.z * om) ^ 2 - r ^ 2 * om ^ 2 := by
      rw [hF]
      simp only [Polynomial.eval_sub, Polynomial.eval_add, Polynomial.eval_pow, Polynomial.eval_mul, Polynomial.eval_C]
      rw [lin, lin, lin, ex, ey, ez, ew]
    rw [eF]
    have hT : (curvePoint (nth c.knots) p n (nth c.cps) t).toXYZ = om⁻¹ • (curvePoint (nth c.knots) p n (nth c.cps) t).raw := by
      rw [XYZW.toXYZ_eq (by rw [hwe]; exact notTiny_of_ge hge), hwe]
    rw [hT]
    unfold XYZ.distance
    simp only [XYZ.smul_x, XYZ.smul_y, XYZ.smul_z, XYZW.raw]
    rw [Real.sqrt_eq_iff_mul_self_eq (by positivity) r0]
    constructor
    · intro h
      field_simp at h
      linarith
    · intro h
      field_simp
      linarith
  have hF0 : F = 0 := by
    refine Polynomial.eq_zero_of_natDegree_lt_card_of_eval_eq_zero' F ((range 99).image x) ?_ ?_
    · intro t ht
      obtain ⟨j, hj, rfl⟩ := mem_image.mp ht
      rw [mem_range] at hj
      exact (key _ (hspan j hj)).mp (hd j hj)
    · rw [card_image_of_injOn, card_range]
      · omega
      · intro i hi j hj hij
        rw [mem_coe, mem_range] at hi hj
        by_contra hne
        rcases Nat.lt_or_gt_of_ne hne with h | h
        · exact (hx i j h hj).ne hij
        · exact (hx j i h hi).ne hij.symm
  rw [key u hu, hF0, Polynomial.eval_zero]

/-- C119 (partial, the samples are enough): for every valid clamped curve with weights at least 2e-6, if all the samples taken by the code are at distance exactly `r` from
a point `O` then so are all the points of the curve. (The code compares the distances only up to a tolerance.) -/
theorem C119_samples_partial {c : NurbsCurve ℝ} {p n : ℕ} {O : XYZ ℝ} {r : ℝ} {pts : List (XYZ ℝ)} {params : List ℝ} (w : WellFormed c p n)
    (he : EndsSeparated (nth c.knots) p n) (hc : ClampedEnds (nth c.knots) p n) (hw : ∀ i, i ≤ n → 1 / 500000 ≤ (nth c.cps i).w)
    (ht : equallyTessellate c = ok (pts, params)) (hs : ∀ Q ∈ pts, Q.distance O = r) {u : ℝ} (u0 : nth c.knots p ≤ u) (u1 : u ≤ nth c.knots (n + 1)) :
    ∃ P, NurbsCurve.pointOnCurve c u = ok P ∧ P.distance O = r := by
  have hl := w.knots
  have hm := wf_monoTo w
  have hpn := w.pn
  refine ⟨(curvePoint (nth c.knots) p n (nth c.cps) u).toXYZ, by unfold NurbsCurve.pointOnCurve; rw [C05_eval w he u0 u1, ok_bind], ?_⟩
  obtain ⟨sp, -, hsp⟩ := getKnotSpanIndex_isSpan w.knots w.pn w.sorted he u0 u1
  obtain ⟨a1, a2, a3, a4, a5⟩ := hsp
  have hlt : nth c.knots 0 < nth c.knots (n + p + 1) := by
    have := hm 0 sp (by omega) (by omega)
    have := hm (sp + 1) (n + p + 1) (by omega) (by omega)
    linarith
  obtain ⟨s, us, v0, v1, umono, umem⟩ := unique_knots (m := n + p + 1) (by omega) w.sorted hlt
  obtain ⟨W, hW⟩ : ∃ W, stdUnique c.knots = W := ⟨_, rfl⟩
  rw [hW] at us v0 v1 umono umem
  have run := tessellate_run hW w he us umono (by rw [v0, hc.first]) (by rw [v1, hc.last])
  rw [ht] at run
  have hpts := congrArg Prod.fst (Res.ok.inj run)
  dsimp only at hpts
  -- the span is between two consecutive distinct knots
  have mem : ∀ i, i ≤ n + p + 1 → ∃ j, j < s + 2 ∧ nth W j = nth c.knots i := by
    intro i hi
    have : nth c.knots i ∈ W := by
      rw [umem, nth_eq_getElem (by omega)]
      exact List.getElem_mem _
    obtain ⟨j, hj, e⟩ := List.getElem_of_mem this
    exact ⟨j, by omega, by rw [nth_eq_getElem hj, e]⟩
  have mem' : ∀ j, j < s + 2 → ∃ i, i ≤ n + p + 1 ∧ nth W j = nth c.knots i := by
    intro j hj
    have : nth W j ∈ c.knots := by
      rw [← umem, nth_eq_getElem (by omega)]
      exact List.getElem_mem _
    obtain ⟨i, hi, e⟩ := List.getElem_of_mem this
    exact ⟨i, by omega, by rw [nth_eq_getElem hi, e]⟩
  have wlt : ∀ {i j : ℕ}, i < s + 2 → j < s + 2 → nth W i < nth W j → i < j := by
    intro i j hi hj h
    by_contra hn
    rcases Nat.lt_or_eq_of_le (not_lt.mp hn) with h' | rfl
    · exact absurd (umono _ _ h' hi) (not_lt.mpr h.le)
    · exact absurd h (lt_irrefl _)
  obtain ⟨j, hj, ej⟩ := mem sp (by omega)
  obtain ⟨j', hj', ej'⟩ := mem (sp + 1) (by omega)
  have hjj : j < j' := wlt hj hj' (by rw [ej, ej']; exact a3)
  obtain rfl : j' = j + 1 := by
    by_contra hne
    obtain ⟨i, hi, ei⟩ := mem' (j + 1) (by omega)
    have l1 := umono j (j + 1) (by omega) (by omega)
    have l2 := umono (j + 1) j' (by omega) hj'
    rw [ej, ei] at l1
    rw [ei, ej'] at l2
    rcases Nat.lt_or_ge sp i with h | h
    · exact absurd (hm (sp + 1) i (by omega) hi) (not_le.mpr l2)
    · exact absurd (hm i sp h (by omega)) (not_le.mpr l1)
  refine span_sphere w he hw (x := fun k => sampleAt (nth W) 99 (100 * j + k)) (s := sp) ?_ ?_ ?_ ⟨a1, a2, a3, a4, a5⟩
  · intro i k hik hk
    rw [sampleAt_eq _ _ (by omega), sampleAt_eq _ _ (by omega), ej, ej']
    have : (0 : ℝ) < (nth c.knots (sp + 1) - nth c.knots sp) / 99 := by linarith
    have hik' : (i : ℝ) < k := by exact_mod_cast hik
    nlinarith
  · intro k hk
    rw [sampleAt_eq _ _ (by omega), ej, ej']
    have hk' : (k : ℝ) ≤ 98 := by exact_mod_cast (show k ≤ 98 by omega)
    have hk0 : (0 : ℝ) ≤ k := by positivity
    have hpos : (0 : ℝ) < (nth c.knots (sp + 1) - nth c.knots sp) / 99 := by linarith
    refine ⟨a1, a2, a3, ?_, Or.inl ?_⟩
    · nlinarith
    · nlinarith
  · intro k hk
    apply hs
    rw [hpts]
    exact List.mem_map.mpr ⟨100 * j + k, List.mem_range.mpr (by omega), rfl⟩

/-! ### C119 is violated -/

/-- a curve of degree four on the unit sphere that is not planar -/
noncomputable def exSphere : NurbsCurve ℝ := { degree := 4, knots := [0, 0, 0, 0, 0, 1, 1, 1, 1, 1], cps := [⟨2, 0, 0, 2⟩, ⟨1, 2, 1, 1⟩, ⟨0, 8 / 3, -(4 / 3), 10 / 3⟩, ⟨-1, 2, 1, 1⟩, ⟨-2, 0, 0, 2⟩] }

theorem exSphere_wf : WellFormed exSphere 4 4 ∧ EndsSeparated (nth exSphere.knots) 4 4 ∧ ClampedEnds (nth exSphere.knots) 4 4 := by
  refine ⟨{ degree := rfl, pos := by decide, le7 := by decide, cps := rfl, pn := by decide, knots := rfl, sorted := ?_ }, ⟨?_, ?_⟩, ⟨rfl, rfl⟩⟩
  · intro i j hij hj
    have hj' : j < 10 := hj
    unfold exSphere
    dsimp only
    interval_cases j <;> interval_cases i <;> norm_num [nth]
  · norm_num [exSphere, nth]
  · norm_num [exSphere, nth]

/-- the points of the curve -/
theorem exSphere_point {t : ℝ} (t0 : 0 ≤ t) (t1 : t ≤ 1) : NurbsCurve.pointOnCurve exSphere t =
    ok ((2 - (4 * t * (1 - t)) + (4 * t * (1 - t)) ^ 2)⁻¹ • (⟨2 * (1 - 2 * t), 2 * (4 * t * (1 - t)), 4 * t * (1 - t) - (4 * t * (1 - t)) ^ 2⟩ : XYZ ℝ)) := by
  obtain ⟨w, he, hc⟩ := exSphere_wf
  have k4 : nth exSphere.knots 4 = 0 := rfl
  have k5 : nth exSphere.knots (4 + 1) = 1 := rfl
  unfold NurbsCurve.pointOnCurve
  rw [C05_eval w he (by rw [k4]; exact t0) (by rw [k5]; exact t1), ok_bind, curvePoint_bezier (a := 0) (b := 1) (by norm_num)
    (by intro i hi; interval_cases i <;> rfl) (by intro i hi hi'; interval_cases i <;> rfl) t0 t1]
  have c0 : nth exSphere.cps 0 = ⟨2, 0, 0, 2⟩ := rfl
  have c1 : nth exSphere.cps 1 = ⟨1, 2, 1, 1⟩ := rfl
  have c2 : nth exSphere.cps 2 = ⟨0, 8 / 3, -(4 / 3), 10 / 3⟩ := rfl
  have c3 : nth exSphere.cps 3 = ⟨-1, 2, 1, 1⟩ := rfl
  have c4 : nth exSphere.cps 4 = ⟨-2, 0, 0, 2⟩ := rfl
  have hp : bezierPoint 4 (nth exSphere.cps) ((t - 0) / (1 - 0)) =
      (⟨2 * (1 - 2 * t), 2 * (4 * t * (1 - t)), 4 * t * (1 - t) - (4 * t * (1 - t)) ^ 2, 2 - (4 * t * (1 - t)) + (4 * t * (1 - t)) ^ 2⟩ : XYZW ℝ) := by
    rw [sub_zero, sub_zero, div_one]
    unfold bezierPoint
    rw [sum_range_succ, sum_range_succ, sum_range_succ, sum_range_succ, sum_range_succ, sum_range_zero, c0, c1, c2, c3, c4]
    simp only [bernsteinP, show Nat.choose 4 0 = 1 from rfl, show Nat.choose 4 1 = 4 from rfl, show Nat.choose 4 2 = 6 from rfl, show Nat.choose 4 3 = 4 from rfl,
      show Nat.choose 4 4 = 1 from rfl]
    ext <;> simp <;> ring
  rw [hp, XYZW.toXYZ_eq]
  · rfl
  · refine notTiny_of_ge ?_
    dsimp only
    nlinarith [sq_nonneg (4 * t * (1 - t) - 1 / 2)]

theorem exSphere_unit {t : ℝ} (t0 : 0 ≤ t) (t1 : t ≤ 1) : ∃ P, NurbsCurve.pointOnCurve exSphere t = ok P ∧ P.distance 0 = 1 := by
  refine ⟨_, exSphere_point t0 t1, ?_⟩
  have hpos : 0 < 2 - (4 * t * (1 - t)) + (4 * t * (1 - t)) ^ 2 := by nlinarith [sq_nonneg (4 * t * (1 - t) - 1 / 2)]
  unfold XYZ.distance
  rw [Real.sqrt_eq_one]
  simp only [XYZ.smul_x, XYZ.smul_y, XYZ.smul_z, XYZ.zero_x, XYZ.zero_y, XYZ.zero_z]
  obtain ⟨W, hW⟩ : ∃ W, 2 - (4 * t * (1 - t)) + (4 * t * (1 - t)) ^ 2 = W := ⟨_, rfl⟩
  rw [hW] at hpos ⊢
  field_simp
  rw [← hW]
  ring

theorem exSphere_linear : isLinear exSphere = false := by
  rw [Bool.eq_false_iff]
  intro h
  have e0 : (⟨2, 0, 0, 2⟩ : XYZW ℝ).toXYZ = ⟨1, 0, 0⟩ := by
    rw [XYZW.toXYZ_eq (by norm_num)]; ext <;> norm_num [XYZW.raw]
  have e4 : (⟨-2, 0, 0, 2⟩ : XYZW ℝ).toXYZ = ⟨-1, 0, 0⟩ := by
    rw [XYZW.toXYZ_eq (by norm_num)]; ext <;> norm_num [XYZW.raw]
  unfold isLinear at h
  simp only [exSphere, List.map_cons, List.map_nil, toXYZ_one, e0, e4] at h
  have hd : ∀ l, linearDirection ⟨1, 0, 0⟩ ⟨1, 2, 1⟩ l = some (⟨1, 2, 1⟩ - ⟨1, 0, 0⟩ : XYZ ℝ) := by
    intro l
    unfold linearDirection
    rw [if_neg]
    rw [almostEq_iff]
    unfold Near
    norm_num
  rw [hd] at h
  have hn : (⟨1, 2, 1⟩ - ⟨1, 0, 0⟩ : XYZ ℝ).normalize = ⟨0, 2 / √5, 1 / √5⟩ := by
    have : (⟨1, 2, 1⟩ - ⟨1, 0, 0⟩ : XYZ ℝ) = ⟨0, 2, 1⟩ := by ext <;> norm_num
    rw [this]
    have hl : (⟨0, 2, 1⟩ : XYZ ℝ).length = √5 := by unfold XYZ.length; norm_num
    unfold XYZ.normalize
    rw [hl]
    norm_num [div_eq_mul_inv]
  simp only [hn, List.all_cons, List.all_nil, Bool.and_true, Bool.and_eq_true] at h
  have := not_greater_small h.2.2
  have e : ((⟨-1, 0, 0⟩ - ⟨1, 0, 0⟩ : XYZ ℝ).cross ⟨0, 2 / √5, 1 / √5⟩).length = 2 := by
    unfold XYZ.length
    rw [Real.sqrt_eq_iff_mul_self_eq (add_nonneg (add_nonneg (mul_self_nonneg _) (mul_self_nonneg _)) (mul_self_nonneg _)) (by norm_num)]
    simp only [XYZ.cross, XYZ.sub_x, XYZ.sub_y, XYZ.sub_z]
    have h5 : (√5 : ℝ) ^ 2 = 5 := Real.sq_sqrt (by norm_num)
    field_simp
    rw [h5]
    norm_num
  rw [e] at this
  norm_num at this

theorem exSphere_closed : isClosedCurve exSphere = ok false := by
  obtain ⟨w, he, hc⟩ := exSphere_wf
  obtain ⟨-, -, b, hb, hiff⟩ := isClosed_run w he hc
  have e0 : (nth exSphere.cps 0).toXYZ = ⟨1, 0, 0⟩ := by
    show (⟨2, 0, 0, 2⟩ : XYZW ℝ).toXYZ = _
    rw [XYZW.toXYZ_eq (by norm_num)]; ext <;> norm_num [XYZW.raw]
  have e4 : (nth exSphere.cps 4).toXYZ = ⟨-1, 0, 0⟩ := by
    show (⟨-2, 0, 0, 2⟩ : XYZW ℝ).toXYZ = _
    rw [XYZW.toXYZ_eq (by norm_num)]; ext <;> norm_num [XYZW.raw]
  have e1 : (nth exSphere.cps 1).toXYZ = ⟨1, 2, 1⟩ := toXYZ_one _ _ _
  have e3 : (nth exSphere.cps 3).toXYZ = ⟨-1, 2, 1⟩ := toXYZ_one _ _ _
  have e2 : (nth exSphere.cps 2).toXYZ = ⟨0, 4 / 5, -(2 / 5)⟩ := by
    show (⟨0, 8 / 3, -(4 / 3), 10 / 3⟩ : XYZW ℝ).toXYZ = _
    rw [XYZW.toXYZ_eq (by norm_num [abs_of_pos])]; ext <;> norm_num [XYZW.raw]
  rw [hb]
  cases b with
  | false => rfl
  | true =>
    exfalso
    rcases hiff.mp rfl with h | ⟨k, hk, -, h⟩
    · rw [e0, e4] at h
      have : (⟨1, 0, 0⟩ : XYZ ℝ).distance ⟨-1, 0, 0⟩ = 2 := by
        unfold XYZ.distance
        rw [Real.sqrt_eq_iff_mul_self_eq (by positivity) (by norm_num)]
        norm_num
      rw [this] at h
      norm_num at h
    · have hk' := h k le_rfl
      rw [show 4 - k + k = 4 by omega, e4] at hk'
      unfold Near at hk'
      interval_cases k
      · rw [e0] at hk'; norm_num at hk'
      · rw [e1] at hk'; norm_num at hk'
      · rw [e2] at hk'; norm_num at hk'
      · rw [e3] at hk'; norm_num at hk'

/-- C119 is false: only the distances to the centre are compared, so `IsArc` answers `true` for a curve on a sphere that is in no plane with its centre: it starts at
`(1,0,0)`, passes through `(0,1,0)` and ends at `(-1,0,0)`, and the point at 1/4 is outside of the plane of these three. -/
theorem C119_sphere_violated : WellFormed exSphere 4 4 ∧ EndsSeparated (nth exSphere.knots) 4 4 ∧ ClampedEnds (nth exSphere.knots) 4 4 ∧
    isArc exSphere = ok (some { isCircle := false, radius := 1, center := 0 }) ∧ NurbsCurve.pointOnCurve exSphere 0 = ok ⟨1, 0, 0⟩ ∧
    NurbsCurve.pointOnCurve exSphere (1 / 2) = ok ⟨0, 1, 0⟩ ∧ NurbsCurve.pointOnCurve exSphere 1 = ok ⟨-1, 0, 0⟩ ∧
    NurbsCurve.pointOnCurve exSphere (1 / 4) = ok ⟨16 / 29, 24 / 29, 3 / 29⟩ := by
  obtain ⟨w, he, hc⟩ := exSphere_wf
  have p0 : NurbsCurve.pointOnCurve exSphere 0 = ok ⟨1, 0, 0⟩ := by
    rw [exSphere_point (by norm_num) (by norm_num)]; congr 1; ext <;> norm_num
  have p1 : NurbsCurve.pointOnCurve exSphere (1 / 2) = ok ⟨0, 1, 0⟩ := by
    rw [exSphere_point (by norm_num) (by norm_num)]; congr 1; ext <;> norm_num
  have p2 : NurbsCurve.pointOnCurve exSphere 1 = ok ⟨-1, 0, 0⟩ := by
    rw [exSphere_point (by norm_num) (by norm_num)]; congr 1; ext <;> norm_num
  have p3 : NurbsCurve.pointOnCurve exSphere (1 / 4) = ok ⟨16 / 29, 24 / 29, 3 / 29⟩ := by
    rw [exSphere_point (by norm_num) (by norm_num)]; congr 1; ext <;> norm_num
  refine ⟨w, he, hc, ?_, p0, p1, p2, p3⟩
  have ha : arcParam exSphere 4 4 false = 1 := rfl
  have k0 : nth exSphere.knots 0 = 0 := rfl
  obtain ⟨pts, params, et, hrun⟩ := isArc_run (O := 0) w he hc exSphere_linear exSphere_closed p0 (by rw [ha, k0, mul_zero, zero_add, mul_one]; exact p1) (by rw [ha]; exact p2)
    (by norm_num [XYZ.dot]) (by ext <;> norm_num [XYZ.dot])
  have hr : (0 : XYZ ℝ).distance ⟨1, 0, 0⟩ = 1 := by norm_num [XYZ.distance]
  rw [hrun, hr, if_pos]
  rw [List.all_eq_true]
  intro Q hQ
  obtain ⟨pts', params', et', hlen, -, hpt, -⟩ := C90_tessellate w he hc
  obtain ⟨rfl, rfl⟩ : pts' = pts ∧ params' = params := by
    rw [et] at et'
    injection et' with h
    exact ⟨(congrArg Prod.fst h).symm, (congrArg Prod.snd h).symm⟩
  obtain ⟨k, hk, rfl⟩ := List.getElem_of_mem hQ
  obtain ⟨a0, a1, ek⟩ := hpt k (by omega)
  obtain ⟨P, eP, dP⟩ := exSphere_unit (t := nth params' k) a0 a1
  rw [ek] at eP
  injection eP with eP
  rw [nth_eq_getElem hk] at eP
  rw [eP, dP]
  exact almost_self 1

/-! ### a quarter of a circle -/

/-- a quarter of the unit circle -/
noncomputable def exQuarter : NurbsCurve ℝ := { degree := 2, knots := [0, 0, 0, 1, 1, 1], cps := [⟨1, 0, 0, 1⟩, ⟨1, 1, 0, 1⟩, ⟨0, 2, 0, 2⟩] }

theorem exQuarter_wf : WellFormed exQuarter 2 2 ∧ EndsSeparated (nth exQuarter.knots) 2 2 ∧ ClampedEnds (nth exQuarter.knots) 2 2 := by
  refine ⟨{ degree := rfl, pos := by decide, le7 := by decide, cps := rfl, pn := by decide, knots := rfl, sorted := ?_ }, ⟨?_, ?_⟩, ⟨rfl, rfl⟩⟩
  · intro i j hij hj
    have hj' : j < 6 := hj
    unfold exQuarter
    dsimp only
    interval_cases j <;> interval_cases i <;> norm_num [nth]
  · norm_num [exQuarter, nth]
  · norm_num [exQuarter, nth]

theorem exQuarter_point {t : ℝ} (t0 : 0 ≤ t) (t1 : t ≤ 1) : NurbsCurve.pointOnCurve exQuarter t = ok ((1 + t ^ 2)⁻¹ • (⟨1 - t ^ 2, 2 * t, 0⟩ : XYZ ℝ)) := by
  obtain ⟨w, he, hc⟩ := exQuarter_wf
  have k2 : nth exQuarter.knots 2 = 0 := rfl
  have k3 : nth exQuarter.knots (2 + 1) = 1 := rfl
  unfold NurbsCurve.pointOnCurve
  rw [C05_eval w he (by rw [k2]; exact t0) (by rw [k3]; exact t1), ok_bind, curvePoint_bezier (a := 0) (b := 1) (by norm_num)
    (by intro i hi; interval_cases i <;> rfl) (by intro i hi hi'; interval_cases i <;> rfl) t0 t1]
  have c0 : nth exQuarter.cps 0 = ⟨1, 0, 0, 1⟩ := rfl
  have c1 : nth exQuarter.cps 1 = ⟨1, 1, 0, 1⟩ := rfl
  have c2 : nth exQuarter.cps 2 = ⟨0, 2, 0, 2⟩ := rfl
  have hp : bezierPoint 2 (nth exQuarter.cps) ((t - 0) / (1 - 0)) = (⟨1 - t ^ 2, 2 * t, 0, 1 + t ^ 2⟩ : XYZW ℝ) := by
    rw [sub_zero, sub_zero, div_one]
    unfold bezierPoint
    rw [sum_range_succ, sum_range_succ, sum_range_succ, sum_range_zero, c0, c1, c2]
    simp only [bernsteinP, show Nat.choose 2 0 = 1 from rfl, show Nat.choose 2 1 = 2 from rfl, show Nat.choose 2 2 = 1 from rfl]
    ext <;> simp <;> ring
  rw [hp, XYZW.toXYZ_eq]
  · rfl
  · refine notTiny_of_ge ?_
    dsimp only
    nlinarith [sq_nonneg t]

/-- C119_complete_partial, C119_sound_partial: the hypotheses hold for a quarter of a circle. -/
example : isArc exQuarter = ok (some { isCircle := false, radius := 1, center := 0 }) ∧ WellFormed exQuarter 2 2 ∧ EndsSeparated (nth exQuarter.knots) 2 2 ∧
    ClampedEnds (nth exQuarter.knots) 2 2 := by
  obtain ⟨w, he, hc⟩ := exQuarter_wf
  refine ⟨?_, w, he, hc⟩
  have e0 : (nth exQuarter.cps 0).toXYZ = ⟨1, 0, 0⟩ := toXYZ_one _ _ _
  have e1 : (nth exQuarter.cps 1).toXYZ = ⟨1, 1, 0⟩ := toXYZ_one _ _ _
  have e2' : (⟨0, 2, 0, 2⟩ : XYZW ℝ).toXYZ = ⟨0, 1, 0⟩ := by
    rw [XYZW.toXYZ_eq (by norm_num)]; ext <;> norm_num [XYZW.raw]
  have e2 : (nth exQuarter.cps 2).toXYZ = ⟨0, 1, 0⟩ := e2'
  have hlin : isLinear exQuarter = false := by
    rw [Bool.eq_false_iff]
    intro h
    unfold isLinear at h
    simp only [exQuarter, List.map_cons, List.map_nil, toXYZ_one, e2'] at h
    have hd : ∀ l, linearDirection ⟨1, 0, 0⟩ ⟨1, 1, 0⟩ l = some (⟨1, 1, 0⟩ - ⟨1, 0, 0⟩ : XYZ ℝ) := by
      intro l
      unfold linearDirection
      rw [if_neg]
      rw [almostEq_iff]
      unfold Near
      norm_num
    rw [hd] at h
    have hn : (⟨1, 1, 0⟩ - ⟨1, 0, 0⟩ : XYZ ℝ).normalize = ⟨0, 1, 0⟩ := by
      have : (⟨1, 1, 0⟩ - ⟨1, 0, 0⟩ : XYZ ℝ) = ⟨0, 1, 0⟩ := by ext <;> norm_num
      rw [this]
      simp [XYZ.normalize, XYZ.length]
    simp only [hn, List.all_cons, List.all_nil, Bool.and_true] at h
    have := not_greater_small h
    have e : ((⟨0, 1, 0⟩ - ⟨1, 0, 0⟩ : XYZ ℝ).cross ⟨0, 1, 0⟩).length = 1 := by
      simp [XYZ.length, XYZ.cross]
    rw [e] at this
    norm_num at this
  have hclosed : isClosedCurve exQuarter = ok false := by
    obtain ⟨-, -, b, hb, hiff⟩ := isClosed_run w he hc
    rw [hb]
    cases b with
    | false => rfl
    | true =>
      exfalso
      rcases hiff.mp rfl with h | ⟨k, hk, -, h⟩
      · rw [e0, e2] at h
        have : (⟨1, 0, 0⟩ : XYZ ℝ).distance ⟨0, 1, 0⟩ = √2 := by
          unfold XYZ.distance
          norm_num
        rw [this] at h
        have h1 : (1 : ℝ) ≤ √2 := by rw [Real.one_le_sqrt]; norm_num
        linarith
      · have hk' := h k le_rfl
        rw [show 2 - k + k = 2 by omega, e2] at hk'
        unfold Near at hk'
        interval_cases k
        · rw [e0] at hk'; norm_num at hk'
        · rw [e1] at hk'; norm_num at hk'
  obtain ⟨b, P0, P1, P2, hb, q0, q1, q2, h⟩ := C119_complete_partial (O := 0) (N := ⟨0, 0, 1⟩) (r := 1) w he hc hlin (by intro h; have := congrArg XYZ.z h; norm_num at this)
    (by
      intro u u0 u1
      refine ⟨_, exQuarter_point u0 u1, ?_, by simp [XYZ.dot]⟩
      unfold XYZ.distance
      rw [Real.sqrt_eq_one]
      simp only [XYZ.smul_x, XYZ.smul_y, XYZ.smul_z, XYZ.zero_x, XYZ.zero_y, XYZ.zero_z]
      have : (0 : ℝ) < 1 + u ^ 2 := by positivity
      field_simp
      ring)
  rw [hclosed] at hb
  obtain rfl := Res.ok.inj hb
  apply h
  rw [show nth exQuarter.knots 0 = (0 : ℝ) from rfl, exQuarter_point (by norm_num) (by norm_num)] at q0
  rw [show arcParam exQuarter 2 2 false = (1 : ℝ) from rfl, show nth exQuarter.knots 0 = (0 : ℝ) from rfl, exQuarter_point (by norm_num) (by norm_num)] at q1
  rw [show arcParam exQuarter 2 2 false = (1 : ℝ) from rfl, exQuarter_point (by norm_num) (by norm_num)] at q2
  rw [← Res.ok.inj q0, ← Res.ok.inj q1, ← Res.ok.inj q2]
  intro hz
  have := congrArg XYZ.z hz
  norm_num [XYZ.cross] at this

end LNLib.Props
