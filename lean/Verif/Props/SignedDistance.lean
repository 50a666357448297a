import Verif.Model.SignedDistance
import Verif.Props.SurfaceNearest
import Verif.Props.DiffGeom

/-!
# C163: the signed distance from a surface
-/

namespace LNLib.Props
open LNLib Res LNLib.Spec Finset

/-- C163 (partial): whatever the surface, the size of a returned value is the distance of the point from a point of the surface. Missing from the full statement: that this point is the nearest, which
is false (`C149_nearest_violated`). -/
theorem C163_size_partial {c : NurbsSurface ℝ} {P : XYZ ℝ} {d : ℝ} (h : signedDistance c P = ok d) :
    ∃ u v Q, getParamOnSurface c P = ok (u, v) ∧ NurbsSurface.pointOnSurface c u v = ok Q ∧ |d| = Q.distance P := by
  unfold signedDistance at h
  obtain ⟨T, e, h⟩ := bind_eq_ok.mp h
  obtain ⟨Q, e', h⟩ := bind_eq_ok.mp h
  obtain ⟨N, -, h⟩ := bind_eq_ok.mp h
  have h := Res.ok.inj h
  refine ⟨T.1, T.2, Q, e, e', ?_⟩
  have hd : (P - Q).length = Q.distance P := by
    unfold XYZ.length XYZ.distance
    congr 1
    change (P.x - Q.x) * (P.x - Q.x) + (P.y - Q.y) * (P.y - Q.y) + (P.z - Q.z) * (P.z - Q.z) = _
    ring
  have hn : 0 ≤ (P - Q).length := Real.sqrt_nonneg _
  rw [← h, ← hd]
  split_ifs
  · exact abs_of_nonneg hn
  · rw [abs_neg, abs_of_nonneg hn]

/-- C163 (side): whatever the surface, the sign of a returned value is decided by the normal of the surface at the parameters found: on its side, and up to the tolerance on the other, the value is not
negative; from 2e-6 on the other side it is not positive. -/
theorem C163_side {c : NurbsSurface ℝ} {P : XYZ ℝ} {d : ℝ} (h : signedDistance c P = ok d) :
    ∃ u v Q N, getParamOnSurface c P = ok (u, v) ∧ NurbsSurface.pointOnSurface c u v = ok Q ∧ NurbsSurface.normal c u v = ok N ∧
      (0 ≤ (P - Q).dot N → 0 ≤ d) ∧ ((P - Q).dot N ≤ -(2 / 1000000) → d ≤ 0) := by
  unfold signedDistance at h
  obtain ⟨T, e, h⟩ := bind_eq_ok.mp h
  obtain ⟨Q, e', h⟩ := bind_eq_ok.mp h
  obtain ⟨N, e'', h⟩ := bind_eq_ok.mp h
  have h := Res.ok.inj h
  refine ⟨T.1, T.2, Q, N, e, e', e'', ?_⟩
  have hn : 0 ≤ (P - Q).length := Real.sqrt_nonneg _
  have hd : (doubleEps : ℝ) = 1 / 1000000 := by norm_num [doubleEps]
  have ge : ∀ x : ℝ, isGreaterThanOrEqual x 0 = true ↔ -(1 / 1000000 * (1 + |x|)) ≤ x := by
    intro x
    unfold isGreaterThanOrEqual tolOf
    rw [decide_eq_true_iff, hd, abs_zero, max_eq_left (abs_nonneg x), sub_zero]
  rw [← h]
  constructor
  · intro g
    rw [if_pos ((ge _).mpr (by have := abs_nonneg ((P - Q).dot N); linarith))]
    exact hn
  · intro g
    rw [if_neg (by rw [ge, abs_of_nonpos (by linarith)]; linarith)]
    linarith

/-- C163 is violated by every surface of degree one in a direction (planes, cylinders, ruled surfaces): an exception is thrown, whatever the point. -/
theorem C163_linear_violated {c : NurbsSurface ℝ} {p q n m : ℕ} (w : WellFormedS c p q n m) (he : EndsSeparatedS c p q n m)
    (hcU : ClampedEnds (nth c.knotsU) p n) (hcV : ClampedEnds (nth c.knotsV) q m) (h : p = 1 ∨ q = 1) (P : XYZ ℝ) : signedDistance c P = invalidArg := by
  unfold signedDistance
  rw [C149_linear_violated w he hcU hcV h P]
  rfl

example (P : XYZ ℝ) : signedDistance unitSquare P = invalidArg :=
  C163_linear_violated unitSquare_wf.1 unitSquare_wf.2 ⟨rfl, rfl⟩ ⟨rfl, rfl⟩ (Or.inl rfl) P

/-! ### Plane patches -/

theorem planePatch_cross {b c : XYZ ℝ} (hD : 1 / 1000 ≤ b.dot b * c.dot c - b.dot c * b.dot c) : b.cross c ≠ 0 := by
  intro h
  have e1 : (b.cross c).x = 0 := congrArg XYZ.x h
  have e2 : (b.cross c).y = 0 := congrArg XYZ.y h
  have e3 : (b.cross c).z = 0 := congrArg XYZ.z h
  have : b.dot b * c.dot c - b.dot c * b.dot c = (b.cross c).x ^ 2 + (b.cross c).y ^ 2 + (b.cross c).z ^ 2 := by
    unfold XYZ.dot XYZ.cross
    ring
  rw [this, e1, e2, e3] at hD
  norm_num at hD

/-- the normal of a plane patch -/
theorem planePatch_normal {a b c : XYZ ℝ} (hne : b.cross c ≠ 0) {u v : ℝ} (hu : 0 ≤ u ∧ u ≤ 1) (hv : 0 ≤ v ∧ v ≤ 1) :
    NurbsSurface.normal (planePatch a b c) u v = ok (b.cross c).normalize := by
  have w := planePatch_wf a b c
  have he := planePatch_ends a b c
  have dom : InDomain (planePatch a b c) 2 2 2 2 u v := planePatch_dom.mpr ⟨hu, hv⟩
  obtain ⟨M, e, hM, hk⟩ := C67_leibniz w he dom (d := 1) (by omega) (by omega) (by omega) (planePatch_span hu.1 hu.2) (planePatch_span hv.1 hv.2)
    (surfaceWeight_pos w he dom (planePatch_weights a b c)).ne'
  have e : NurbsSurface.rationalDerivatives (planePatch a b c) 1 u v = ok M := e
  have k00 := hk 0 0 (by omega)
  have k10 := hk 1 0 (by omega)
  have k01 := hk 0 1 (by omega)
  have rw0 : ∀ x : XYZ ℝ, (XYZW.ofXYZ x 1).w = 1 := fun x => rfl
  have rw1 : ∀ x : XYZ ℝ, (XYZW.ofXYZ x 1).raw = x := fun x => by ext <;> simp [XYZW.ofXYZ, XYZW.raw]
  have d00 := planePatch_deriv a b c 0 0 (by omega) u v
  have d10 := planePatch_deriv a b c 1 0 (by omega) u v
  have d01 := planePatch_deriv a b c 0 1 (by omega) u v
  norm_num at d00 d10 d01
  simp only [sum_range_succ, sum_range_zero, d00, d10, d01, rw0, rw1] at k00 k10 k01
  simp [XYZW.raw] at k00 k10 k01
  have hb := cross_ne_left hne
  unfold NurbsSurface.normal
  rw [validateUV_ok w dom, ok_bind, e, ok_bind, mget_ent (a := 1) (b := 0) (i := 1) (j := 0) hM rfl rfl (by omega) (by omega), ok_bind,
    mget_ent (a := 0) (b := 1) (i := 0) (j := 1) hM rfl rfl (by omega) (by omega), ok_bind, k10, k01]
  congr 1
  rw [normalize_eq hb, cross_smul_left, normalize_smul (inv_pos.mpr (length_pos hb)) hne]

/-- a vector with a part in a plane and a part along its unit normal -/
theorem plane_split {w N : XYZ ℝ} (hN : N.dot N = 1) (hw : w.dot N = 0) (h : ℝ) : (w + h • N).dot N = h ∧ (w + h • N).length ^ 2 = w.dot w + h ^ 2 := by
  obtain ⟨w1, w2, w3⟩ := w
  obtain ⟨n1, n2, n3⟩ := N
  have hN : n1 * n1 + n2 * n2 + n3 * n3 = 1 := hN
  have hw : w1 * n1 + w2 * n2 + w3 * n3 = 0 := hw
  constructor
  · change (w1 + h * n1) * n1 + (w2 + h * n2) * n2 + (w3 + h * n3) * n3 = h
    linear_combination hw + h * hN
  · rw [length_sq]
    change (w1 + h * n1) * (w1 + h * n1) + (w2 + h * n2) * (w2 + h * n2) + (w3 + h * n3) * (w3 + h * n3) = w1 * w1 + w2 * w2 + w3 * w3 + h ^ 2
    linear_combination 2 * h * hw + h ^ 2 * hN

/-- what the search finds on a plane patch, for a point at the height `h` over it -/
theorem plane_signed {a b c : XYZ ℝ} {s r : ℝ} (hD : 1 / 1000 ≤ b.dot b * c.dot c - b.dot c * b.dot c) (hs : 0 ≤ s ∧ s ≤ 1) (hr : 0 ≤ r ∧ r ≤ 1) (h : ℝ) :
    ∃ l, signedDistance (planePatch a b c) (a + s • b + r • c + h • (b.cross c).normalize) = ok (if isGreaterThanOrEqual h 0 then l else -l) ∧ |h| ≤ l ∧
      (l = |h| ∨ l ≤ 1 / 1000000 * (1 + l)) := by
  have hne := planePatch_cross hD
  obtain ⟨h1, k, -, hk⟩ := (C29_normalize (b.cross c)).1 hne
  set N := (b.cross c).normalize with hNdef
  have hN : N.dot N = 1 := by
    have := length_sq N
    rw [h1] at this
    unfold XYZ.dot
    linarith
  have hbN : b.dot N = 0 := by
    rw [hk]
    simp only [XYZ.dot, XYZ.smul_x, XYZ.smul_y, XYZ.smul_z, XYZ.cross]
    ring
  have hcN : c.dot N = 0 := by
    rw [hk]
    simp only [XYZ.dot, XYZ.smul_x, XYZ.smul_y, XYZ.smul_z, XYZ.cross]
    ring
  clear_value N
  have off : ∀ x : XYZ ℝ, x.dot (a + s • b + r • c - (a + s • b + r • c + h • N)) = -h * x.dot N := by
    intro x
    change x.x * (a.x + s * b.x + r * c.x - (a.x + s * b.x + r * c.x + h * N.x)) + x.y * (a.y + s * b.y + r * c.y - (a.y + s * b.y + r * c.y + h * N.y)) +
      x.z * (a.z + s * b.z + r * c.z - (a.z + s * b.z + r * c.z + h * N.z)) = -h * (x.x * N.x + x.y * N.y + x.z * N.z)
    ring
  obtain ⟨T, eT, hT1, hT2, hT⟩ := C149_plane (a := a) (P := a + s • b + r • c + h • N) hD (by rw [off, hbN, mul_zero]) (by rw [off, hcN, mul_zero]) hs hr
  have hv : a + s • b + r • c + h • N - (a + T.1 • b + T.2 • c) = ((s - T.1) • b + (r - T.2) • c) + h • N := by
    module
  have hw : ((s - T.1) • b + (r - T.2) • c).dot N = 0 := by
    change ((s - T.1) * b.x + (r - T.2) * c.x) * N.x + ((s - T.1) * b.y + (r - T.2) * c.y) * N.y + ((s - T.1) * b.z + (r - T.2) * c.z) * N.z = 0
    have hbN : b.x * N.x + b.y * N.y + b.z * N.z = 0 := hbN
    have hcN : c.x * N.x + c.y * N.y + c.z * N.z = 0 := hcN
    linear_combination (s - T.1) * hbN + (r - T.2) * hcN
  obtain ⟨g1, g2⟩ := plane_split hN hw h
  refine ⟨(((s - T.1) • b + (r - T.2) • c) + h • N).length, ?_, ?_, ?_⟩
  · unfold signedDistance
    rw [eT, ok_bind, planePatch_point a b c hT1 hT2, ok_bind, planePatch_normal hne hT1 hT2, ok_bind, hv, ← hNdef, g1]
  · refine abs_le_of_sq_le_sq (b := XYZ.length _) ?_ (Real.sqrt_nonneg _)
    rw [g2]
    have : 0 ≤ ((s - T.1) • b + (r - T.2) • c).dot ((s - T.1) • b + (r - T.2) • c) := by
      unfold XYZ.dot
      exact add_nonneg (add_nonneg (mul_self_nonneg _) (mul_self_nonneg _)) (mul_self_nonneg _)
    linarith
  · rcases hT with rfl | hT
    · left
      dsimp only at g2 ⊢
      have z : (((s - s) • b + (r - r) • c : XYZ ℝ)).dot ((s - s) • b + (r - r) • c) = 0 := by
        rw [sub_self, sub_self, zero_smul, zero_smul, add_zero]
        norm_num [XYZ.dot]
      rw [z, zero_add] at g2
      have hn : 0 ≤ ((s - s) • b + (r - r) • c + h • N).length := Real.sqrt_nonneg _
      rw [← abs_of_nonneg hn]
      exact (sq_eq_sq_iff_abs_eq_abs _ _).mp g2
    · right
      have hlen : (a + T.1 • b + T.2 • c - (a + s • b + r • c + h • N)).length = (((s - T.1) • b + (r - T.2) • c) + h • N).length := by
        rw [← hv]
        unfold XYZ.length
        congr 1
        simp only [XYZ.sub_x, XYZ.sub_y, XYZ.sub_z]
        ring
      rw [hlen] at hT
      exact hT

theorem ge_zero_iff (h : ℝ) : isGreaterThanOrEqual h 0 = true ↔ -(1 / 1000000 * (1 + |h|)) ≤ h := by
  have hd : (doubleEps : ℝ) = 1 / 1000000 := by norm_num [doubleEps]
  unfold isGreaterThanOrEqual tolOf
  rw [decide_eq_true_iff, hd, abs_zero, max_eq_left (abs_nonneg h), sub_zero]

/-- C163 (plane patches): for every parallelogram whose sides are not parallel (the square of its area is at least 1/1000), the value for the point at the height `h` over a point of the parallelogram is `h`, on both
sides, if the point is at least 2e-6 away. -/
theorem C163_plane {a b c : XYZ ℝ} {s r h : ℝ} (hD : 1 / 1000 ≤ b.dot b * c.dot c - b.dot c * b.dot c) (hs : 0 ≤ s ∧ s ≤ 1) (hr : 0 ≤ r ∧ r ≤ 1) (hh : 2 / 1000000 ≤ |h|) :
    signedDistance (planePatch a b c) (a + s • b + r • c + h • (b.cross c).normalize) = ok h := by
  obtain ⟨l, e, h1, h2⟩ := plane_signed (a := a) hD hs hr h
  have hl : l = |h| := h2.resolve_right (by intro g; linarith)
  rw [e, hl]
  congr 1
  rcases abs_cases h with ⟨g, g'⟩ | ⟨g, g'⟩
  · rw [if_pos ((ge_zero_iff h).mpr (by rw [g]; linarith)), g]
  · rw [if_neg (by rw [ge_zero_iff, g]; rw [g] at hh; linarith), g, neg_neg]

/-- C163 is violated near every parallelogram: for every point at most 1e-6 below it the value is positive. -/
theorem C163_sign_violated {a b c : XYZ ℝ} {s r h : ℝ} (hD : 1 / 1000 ≤ b.dot b * c.dot c - b.dot c * b.dot c) (hs : 0 ≤ s ∧ s ≤ 1) (hr : 0 ≤ r ∧ r ≤ 1) (h0 : -(1 / 1000000) ≤ h) (h1 : h < 0) :
    ∃ d, signedDistance (planePatch a b c) (a + s • b + r • c + h • (b.cross c).normalize) = ok d ∧ 0 < d := by
  obtain ⟨l, e, h2, -⟩ := plane_signed (a := a) hD hs hr h
  refine ⟨l, ?_, lt_of_lt_of_le (abs_pos.mpr h1.ne) h2⟩
  rw [e, if_pos ((ge_zero_iff h).mpr (by have := abs_nonneg h; linarith))]

/-- The hypotheses are met: the sheared square and points on both sides of its middle. -/
example (h : ℝ) (hh : 2 / 1000000 ≤ |h|) : signedDistance shearPatch (0 + (1 / 2 : ℝ) • ⟨1, 0, 0⟩ + (1 / 2 : ℝ) • ⟨1, 1, 0⟩ + h • ((⟨1, 0, 0⟩ : XYZ ℝ).cross ⟨1, 1, 0⟩).normalize) = ok h :=
  C163_plane (by norm_num [XYZ.dot]) (by norm_num) (by norm_num) hh

example : ∃ d, signedDistance shearPatch (0 + (1 / 2 : ℝ) • ⟨1, 0, 0⟩ + (1 / 2 : ℝ) • ⟨1, 1, 0⟩ + (-(1 / 2000000) : ℝ) • ((⟨1, 0, 0⟩ : XYZ ℝ).cross ⟨1, 1, 0⟩).normalize) = ok d ∧ 0 < d :=
  C163_sign_violated (by norm_num [XYZ.dot]) (by norm_num) (by norm_num) (by norm_num) (by norm_num)

end LNLib.Props
