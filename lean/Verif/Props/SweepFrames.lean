import Verif.Props.SweepSections

/-!
# C133: the sections as placed profiles: congruent to the profile, normal to the trajectory only at the start
-/
set_option linter.unusedSectionVars false

namespace LNLib.Props
open LNLib Res LNLib.Spec Finset

/-! ## Frames -/

theorem normalize_cross_dot {d x : XYZ ℝ} (h : d.cross x ≠ 0) : (d.normalize.cross x).normalize.length = 1 ∧ (d.normalize.cross x).normalize.dot x = 0 ∧
    (d.normalize.cross x).normalize.dot d = 0 := by
  have hd : d ≠ 0 := by
    rintro rfl
    apply h
    ext <;> simp [XYZ.cross]
  obtain ⟨-, k, hk, e⟩ := (C29_normalize d).1 hd
  have hc : d.normalize.cross x = k • d.cross x := by
    rw [e]; ext <;> simp [XYZ.cross] <;> ring
  have hne : d.normalize.cross x ≠ 0 := by
    rw [hc]
    intro h0
    apply h
    have hk' := hk.ne'
    ext
    · have := congrArg XYZ.x h0; simpa [hk'] using this
    · have := congrArg XYZ.y h0; simpa [hk'] using this
    · have := congrArg XYZ.z h0; simpa [hk'] using this
  refine ⟨((C29_normalize _).1 hne).1, normalize_perp ?_, normalize_perp ?_⟩
  · simp [XYZ.cross, XYZ.dot]; ring
  · rw [hc]; simp [XYZ.cross, XYZ.dot]; ring

/-- two points of the plane `z = 0` keep their distance in a frame whose `x` and `y` axes are orthogonal unit vectors -/
theorem frame_distance {o x y z a b : XYZ ℝ} (hx : x.length = 1) (hy : y.length = 1) (hxy : y.dot x = 0) (ha : a.z = 0) (hb : b.z = 0) :
    (framePoint o x y z a).distance (framePoint o x y z b) = a.distance b := by
  have h1 := length_sq x
  have h2 := length_sq y
  rw [hx] at h1
  rw [hy] at h2
  unfold XYZ.dot at hxy
  unfold XYZ.distance
  congr 1
  simp only [framePoint, ha, hb, XYZ.add_x, XYZ.add_y, XYZ.add_z, XYZ.smul_x, XYZ.smul_y, XYZ.smul_z]
  linear_combination (-(b.x - a.x) ^ 2) * h1 - (b.y - a.y) ^ 2 * h2 + 2 * (b.x - a.x) * (b.y - a.y) * hxy

/-- the component of a placed point of the plane `z = 0` along the tangent -/
theorem frame_normal {o x y z a d : XYZ ℝ} (hy : y.dot d = 0) (ha : a.z = 0) : (framePoint o x y z a - o).dot d = a.x * x.dot d := by
  unfold XYZ.dot at hy ⊢
  simp only [framePoint, ha, XYZ.sub_x, XYZ.sub_y, XYZ.sub_z, XYZ.add_x, XYZ.add_y, XYZ.add_z, XYZ.smul_x, XYZ.smul_y, XYZ.smul_z]
  linear_combination a.y * hy

/-- a curve in the plane `z = 0` -/
theorem flat_point {c : NurbsCurve ℝ} {p n : ℕ} {u : ℝ} {a : XYZ ℝ} (w : WellFormed c p n) (he : EndsSeparated (nth c.knots) p n) (hpos : ∀ a ∈ c.cps, 1 / 500000 ≤ a.w)
    (hflat : ∀ a ∈ c.cps, a.wz = 0) (u0 : nth c.knots p ≤ u) (u1 : u ≤ nth c.knots (n + 1)) (h : NurbsCurve.pointOnCurve c u = ok a) : a.z = 0 := by
  have hl := w.cps
  rw [C05_eval_rational w he u0 u1 (clear_weight (weightFn_ge w he u0 u1 fun i hi => hpos _ (mem_of_nth (by omega))))] at h
  rw [← Res.ok.inj h]
  unfold rationalPoint
  rw [XYZ.smul_z, XYZ.sum_z]
  apply mul_eq_zero_of_right
  apply sum_eq_zero
  intro i hi
  have hi := mem_range.mp hi
  show _ * (nth c.cps i).wz = 0
  rw [hflat _ (mem_of_nth (by omega)), mul_zero]

/-! ## The properties -/

section
variable {solve : List (List ℝ) → List (List ℝ) → Res (List (List ℝ))} {fuel : ℕ} {angle : ℕ → ℝ} {profile T T' : NurbsCurve ℝ}
    {k₀ : ℤ} {p n q m : ℕ} {S : NurbsSurface ℝ}

/-- C133 (partial, as above): for a profile in the plane `z = 0` every section whose `x` axis is not parallel to the tangent of the trajectory
is congruent to the profile. -/
theorem C133_congruent_partial (hsolve : SoundSolver solve)
    (wP : WellFormed profile p n) (heP : EndsSeparated (nth profile.knots) p n) (hpos : ∀ a ∈ profile.cps, 1 / 500000 ≤ a.w) (hflat : ∀ a ∈ profile.cps, a.wz = 0)
    (hT : sweepTrajectory T k₀ = ok (T', (m : ℤ) + 1)) (hdeg : T.degree = q) (wT : WellFormed T' q m) (heT : EndsSeparated (nth T'.knots) q m)
    (hcT : ClampedEnds (nth T'.knots) q m) (hm : 2 ≤ m) (hpm : p ≤ m)
    (hS : createSweep solve fuel angle profile T k₀ = ok S) (heV : EndsSeparated (nth S.knotsV) p m) :
    ∃ s : ℕ → ℝ, s 0 = 0 ∧ s m = 1 ∧ (∀ j k, j ≤ k → k ≤ m → s j ≤ s k) ∧
      ∀ k ≤ m, ∃ (B l : List (XYZ ℝ)) (i : ℕ), projectNormal fuel angle T' = ok B ∧ IsSpan (nth T'.knots) q m (greville (nth T'.knots) q k) i ∧
        NurbsCurve.rationalDerivatives T' 1 (greville (nth T'.knots) q k) = ok l ∧
        ((nth l 1).cross (nth B i) ≠ 0 → ∀ u u', nth profile.knots p ≤ u → u ≤ nth profile.knots (n + 1) → nth profile.knots p ≤ u' → u' ≤ nth profile.knots (n + 1) →
          ∃ a a' X X', NurbsCurve.pointOnCurve profile u = ok a ∧ NurbsCurve.pointOnCurve profile u' = ok a' ∧
            NurbsSurface.pointOnSurface S u (s k) = ok X ∧ NurbsSurface.pointOnSurface S u' (s k) = ok X' ∧ X.distance X' = a.distance a') := by
  obtain ⟨-, -, s, s0, s1, s2, h⟩ := C133_sections_partial hsolve wP heP hpos hT hdeg wT heT hcT hm hpm hS heV
  refine ⟨s, s0, s1, s2, fun k hk => ?_⟩
  obtain ⟨o, d, x, d', i, l, l', h1, h2, h3, h4, h5, h6, h7, h8, h9, B, h10, h11, h12⟩ := h k hk
  refine ⟨B, l, i, h10, h4, h2, fun hne u u' a0 a1 b0 b1 => ?_⟩
  rw [h3, ← h11] at hne
  obtain ⟨a, ha, ha'⟩ := h12 u a0 a1
  obtain ⟨b, hb, hb'⟩ := h12 u' b0 b1
  obtain ⟨y1, y2, -⟩ := normalize_cross_dot hne
  exact ⟨a, b, _, _, ha, hb, ha', hb', frame_distance h8 y1 y2 (flat_point wP heP hpos hflat a0 a1 ha) (flat_point wP heP hpos hflat b0 b1 hb)⟩

/-- C133 (partial, as above): the first section is congruent to the profile and lies in the plane through the start of the trajectory that
is normal to it there. -/
theorem C133_first_section_partial (hsolve : SoundSolver solve)
    (wP : WellFormed profile p n) (heP : EndsSeparated (nth profile.knots) p n) (hpos : ∀ a ∈ profile.cps, 1 / 500000 ≤ a.w) (hflat : ∀ a ∈ profile.cps, a.wz = 0)
    (hT : sweepTrajectory T k₀ = ok (T', (m : ℤ) + 1)) (hdeg : T.degree = q) (wT : WellFormed T' q m) (heT : EndsSeparated (nth T'.knots) q m)
    (hcT : ClampedEnds (nth T'.knots) q m) (hm : 2 ≤ m) (hpm : p ≤ m)
    (hS : createSweep solve fuel angle profile T k₀ = ok S) (heV : EndsSeparated (nth S.knotsV) p m) :
    ∃ o d l, NurbsCurve.pointOnCurve T' (nth T'.knots q) = ok o ∧ NurbsCurve.rationalDerivatives T' 1 (nth T'.knots q) = ok l ∧ nth l 1 = d ∧ d ≠ 0 ∧
      ∀ u u', nth profile.knots p ≤ u → u ≤ nth profile.knots (n + 1) → nth profile.knots p ≤ u' → u' ≤ nth profile.knots (n + 1) →
        ∃ a a' X X', NurbsCurve.pointOnCurve profile u = ok a ∧ NurbsCurve.pointOnCurve profile u' = ok a' ∧
          NurbsSurface.pointOnSurface S u 0 = ok X ∧ NurbsSurface.pointOnSurface S u' 0 = ok X' ∧ X.distance X' = a.distance a' ∧ (X - o).dot d = 0 := by
  obtain ⟨-, -, s, s0, s1, s2, h⟩ := C133_sections_partial hsolve wP heP hpos hT hdeg wT heT hcT hm hpm hS heV
  obtain ⟨o, d, x, d', i, l, l', h1, h2, h3, h4, h5, h6, h7, h8, h9, B, h10, h11, h12⟩ := h 0 (by omega)
  have hl := wT.knots
  have hpn := wT.pn
  have hv : greville (nth T'.knots) q 0 = nth T'.knots q := by
    obtain ⟨g0, -⟩ := greville_range wT.pos wT.knots wT.sorted hcT (k := 0) (by omega)
    refine le_antisymm ?_ g0
    have hq : (0 : ℝ) < q := by exact_mod_cast wT.pos
    unfold greville
    rw [div_le_iff₀ hq]
    calc _ ≤ ∑ _i ∈ range q, nth T'.knots q := sum_le_sum fun i hi => wT.sorted _ _ (by have := mem_range.mp hi; omega) (by omega)
      _ = _ := by rw [sum_const, card_range, nsmul_eq_mul]; ring
  rw [hv] at h1 h2 h4
  have hi : nth T'.knots i = nth T'.knots q := le_antisymm h4.2.2.2.1 (wT.sorted _ _ h4.1 (by have := h4.2.1; omega))
  rw [hi, h2] at h5
  have h5 := Res.ok.inj h5
  subst h5
  have hdd : d' = d := h6.symm.trans h3
  subst hdd
  have hx0 : x ≠ 0 := by rintro rfl; simp [XYZ.length] at h8
  have hne : d'.cross x ≠ 0 := by
    intro h0
    have e1 := congrArg XYZ.x h0
    have e2 := congrArg XYZ.y h0
    have e3 := congrArg XYZ.z h0
    simp only [XYZ.cross, XYZ.zero_x, XYZ.zero_y, XYZ.zero_z] at e1 e2 e3
    have hxx := length_sq x
    have hdx := length_pos h7
    have hd2 := length_sq d'
    rw [h8] at hxx
    unfold XYZ.dot at h9
    have : d'.length ^ 2 * (x.x * x.x + x.y * x.y + x.z * x.z) = 0 := by
      rw [hd2]
      linear_combination (d'.y * x.z - d'.z * x.y) * e1 + (d'.z * x.x - d'.x * x.z) * e2 + (d'.x * x.y - d'.y * x.x) * e3 + (x.x * d'.x + x.y * d'.y + x.z * d'.z) * h9
    rw [← hxx] at this
    nlinarith
  obtain ⟨y1, y2, y3⟩ := normalize_cross_dot hne
  refine ⟨o, d', l, h1, h2, h3, h7, fun u u' a0 a1 b0 b1 => ?_⟩
  obtain ⟨a, ha, ha'⟩ := h12 u a0 a1
  obtain ⟨b, hb, hb'⟩ := h12 u' b0 b1
  rw [s0] at ha' hb'
  have fa := flat_point wP heP hpos hflat a0 a1 ha
  refine ⟨a, b, _, _, ha, hb, ha', hb', frame_distance h8 y1 y2 fa (flat_point wP heP hpos hflat b0 b1 hb), ?_⟩
  rw [frame_normal y3 fa, h9, mul_zero]

/-- C133 (violated): a closed trajectory is never swept: `ProjectNormal` writes past the end of an array or does not come back. -/
theorem C133_closed_violated (hT : sweepTrajectory T k₀ = ok (T', (m : ℤ) + 1)) (hdeg : T.degree = q) (wT : WellFormed T' q m) (heT : EndsSeparated (nth T'.knots) q m)
    (hcT : ClampedEnds (nth T'.knots) q m) (hw : ∀ t, nth T'.knots q ≤ t → t ≤ nth T'.knots (m + 1) → weightFn (nth T'.knots) q m (nth T'.cps) t ≠ 0)
    (hclosed : isClosedCurve T' = ok true) :
    createSweep solve fuel angle profile T k₀ = ub ∨ createSweep solve fuel angle profile T k₀ = diverge := by
  obtain ⟨vk, hvk, -, -⟩ := sweepParams_run wT.pos (by have := wT.pos; have := wT.pn; omega) wT.knots wT.sorted hcT
  obtain ⟨D, hD⟩ := hasTangents_of wT heT hcT hw
  unfold createSweep
  rw [hT, ok_bind]
  dsimp only
  rw [hdeg, hvk, ok_bind]
  rcases C129_closed_violated hD (by rw [wT.knots]; omega) hclosed fuel angle with h | h
  · left; rw [h]; rfl
  · right; rw [h]; rfl

end

/-! ## A trajectory of one Bezier segment -/

theorem normalize_idem (a : XYZ ℝ) : a.normalize.normalize = a.normalize := by
  by_cases h : a = 0
  · subst h; rw [(C29_normalize 0).2, (C29_normalize 0).2]
  · have h1 := ((C29_normalize a).1 h).1
    have hne : a.normalize ≠ 0 := by intro h0; rw [h0] at h1; simp [XYZ.length] at h1
    rw [normalize_eq hne, h1, inv_one, one_smul]

/-- as long as the tangent does not change, neither does the normal: it is the vector drawn at random -/
theorem project_first_block {fuel : ℕ} {angle : ℕ → ℝ} {c : NurbsCurve ℝ} {D : ℕ → XYZ ℝ} {B : List (XYZ ℝ)} {s : ℕ} (h : HasTangents c D) (hs : s < c.knots.length)
    (hD : ∀ i ≤ s, D i = D 0) (hB : projectNormal fuel angle c = ok B) :
    ∃ r, ∀ i ≤ s, nth B i = createRandomOrthogonal (D 0).normalize (angle r) := by
  obtain ⟨m, hm⟩ : ∃ m, c.knots.length = m + 1 := ⟨c.knots.length - 1, by omega⟩
  rw [project_start h hm] at hB
  obtain ⟨st, hst, hB⟩ := bind_eq_ok.mp hB
  obtain ⟨b, hb, hB⟩ := bind_eq_ok.mp hB
  obtain ⟨⟨k1, k2⟩, k3⟩ := whileF_post (Inv := fun st : List (XYZ ℝ) × Bool × ℕ => st.1.length = m + 1 ∧
    (st.2.1 = false → ∃ r, ∀ i ≤ s, nth st.1 i = createRandomOrthogonal (D 0).normalize (angle r))) (by
      rintro st st' ⟨i1, -⟩ hc ht
      have hf : st.2.1 = true := Res.ok.inj hc
      unfold projectTry at ht
      rw [vset_of (i := 0) (k := 0) rfl (by omega), ok_bind] at ht
      obtain ⟨r, hr, ht⟩ := bind_eq_ok.mp ht
      have hst' := Res.ok.inj ht
      clear ht
      set b0 := createRandomOrthogonal (D 0).normalize (angle st.2.2) with hb0
      have hperp : b0.dot (D 0).normalize = 0 := (C64_random_orthogonal_partial (D 0).normalize (angle st.2.2)).1
      have hnorm : b0.normalize = b0 := normalize_idem _
      have key := forI_post (Inv := fun i (x : List (XYZ ℝ) × Bool) => x.1.length = m + 1 ∧ (x.2 = false → ∀ j : ℕ, (j : ℤ) < i → j ≤ s → nth x.1 j = b0)) (by omega)
        ⟨by simp [i1], fun _ j h1 h2 => by have : j = 0 := by omega
                                           subst this; rw [nth_set (by omega), if_pos rfl]⟩ (by
          rintro i ⟨l, fl⟩ ⟨l', fl'⟩ h1 h2 ⟨g1, g2⟩ hstep
          obtain ⟨i, rfl⟩ := Int.eq_ofNat_of_zero_le (by omega : 0 ≤ i)
          dsimp only at g1 g2 ⊢
          rw [projectStep_run h hm (by omega) (by omega) g1] at hstep
          have hstep := Res.ok.inj hstep
          cases fl with
          | true =>
            rw [if_pos rfl] at hstep
            simp only [Prod.mk.injEq] at hstep
            exact ⟨by rw [← hstep.1]; exact g1, fun h => by rw [← hstep.2] at h; simp at h⟩
          | false =>
            rw [if_neg (by simp)] at hstep
            split at hstep
            · simp only [Prod.mk.injEq] at hstep
              exact ⟨by rw [← hstep.1]; exact g1, fun h => by rw [← hstep.2] at h; simp at h⟩
            · simp only [Prod.mk.injEq] at hstep
              rw [← hstep.1]
              refine ⟨by simp [g1], fun _ j hj hjs => ?_⟩
              rw [nth_set (by omega)]
              by_cases e : j = i
              · subst e
                rw [if_pos rfl, g2 rfl (j - 1) (by omega) (by omega), hD j hjs, hperp, zero_smul, sub_zero, hnorm]
              · rw [if_neg e]
                exact g2 rfl j (by omega) hjs) hr
      rw [← hst']
      refine ⟨key.1, fun hfl => ⟨st.2.2, fun i hi => key.2 ?_ i (by omega) hi⟩⟩
      cases hr2 : r.2 with
      | false => rfl
      | true => rw [hr2] at hfl; simp [hf] at hfl) fuel _ _ ⟨by simp, by simp⟩ hst
  cases b with
  | false =>
    rw [if_neg (by simp)] at hB
    rw [← Res.ok.inj hB]
    exact k2 (Res.ok.inj k3)
  | true =>
    rw [if_pos rfl, projectClosed_ub k1] at hB
    cases hB

/-- C133 (violated): on a trajectory of one Bezier segment all sections get the same `x` axis, the vector drawn at random for the start.
Unless this vector happens to be orthogonal to the tangent at the end, the last section does not lie in the normal plane of the trajectory:
every point of it that comes from a point `a` of the profile off the `y` axis lies outside. -/
theorem C133_normal_plane_violated {solve : List (List ℝ) → List (List ℝ) → Res (List (List ℝ))} {fuel : ℕ} {angle : ℕ → ℝ} {profile T : NurbsCurve ℝ}
    {k₀ : ℤ} {p n q : ℕ} {S : NurbsSurface ℝ} {D : ℕ → XYZ ℝ} (hsolve : SoundSolver solve)
    (wP : WellFormed profile p n) (heP : EndsSeparated (nth profile.knots) p n) (hpos : ∀ a ∈ profile.cps, 1 / 500000 ≤ a.w) (hflat : ∀ a ∈ profile.cps, a.wz = 0)
    (wT : WellFormed T q q) (heT : EndsSeparated (nth T.knots) q q) (hcT : ClampedEnds (nth T.knots) q q) (hk : k₀ ≤ q) (hq : 2 ≤ q) (hpq : p ≤ q)
    (hD : HasTangents T D) (hdir : ∀ r, (createRandomOrthogonal (D 0).normalize (angle r)).dot (D (q + 1)) ≠ 0)
    (hcross : ∀ r, (D (q + 1)).cross (createRandomOrthogonal (D 0).normalize (angle r)) ≠ 0)
    (hS : createSweep solve fuel angle profile T k₀ = ok S) (heV : EndsSeparated (nth S.knotsV) p q)
    {u : ℝ} {a : XYZ ℝ} (u0 : nth profile.knots p ≤ u) (u1 : u ≤ nth profile.knots (n + 1)) (ha : NurbsCurve.pointOnCurve profile u = ok a) (hax : a.x ≠ 0) :
    ∃ X o, NurbsSurface.pointOnSurface S u 1 = ok X ∧ NurbsCurve.pointOnCurve T (nth T.knots (q + 1)) = ok o ∧ (X - o).dot (D (q + 1)) ≠ 0 := by
  obtain ⟨-, -, s, s0, s1, s2, h⟩ := C133_sections_partial hsolve wP heP hpos (sweepTrajectory_kept wT hk) wT.degree wT heT hcT hq hpq hS heV
  obtain ⟨o, d, x, d', i, l, l', h1, h2, h3, h4, h5, h6, h7, h8, h9, B, h10, h11, h12⟩ := h q le_rfl
  have hl := wT.knots
  have hv : greville (nth T.knots) q q = nth T.knots (q + 1) := by
    obtain ⟨-, g1⟩ := greville_range wT.pos wT.knots wT.sorted hcT (k := q) (by omega)
    refine le_antisymm g1 ?_
    have hq : (0 : ℝ) < q := by exact_mod_cast wT.pos
    unfold greville
    rw [le_div_iff₀ hq]
    calc _ = ∑ _i ∈ range q, nth T.knots (q + 1) := by rw [sum_const, card_range, nsmul_eq_mul]; ring
      _ ≤ _ := sum_le_sum fun i hi => wT.sorted _ _ (by omega) (by have := mem_range.mp hi; omega)
  rw [hv] at h1 h2
  obtain ⟨y, hy⟩ := hD (q + 1) (by omega)
  rw [hy] at h2
  rw [← Res.ok.inj h2] at h3
  have hd : D (q + 1) = d := h3
  have hi : i = q := le_antisymm h4.2.1 h4.1
  have hstart : ∀ i ≤ q, D i = D 0 := by
    intro i hi
    obtain ⟨x1, e1⟩ := hD i (by omega)
    obtain ⟨x2, e2⟩ := hD 0 (by omega)
    rw [clamped_first wT hcT i hi, e2] at e1
    have := Res.ok.inj e1
    simp only [List.cons.injEq] at this
    exact this.2.1.symm
  obtain ⟨r, hr⟩ := project_first_block hD (by omega) hstart h10
  rw [hi, hr q le_rfl] at h11
  obtain ⟨a', ha', hX⟩ := h12 u u0 u1
  rw [ha] at ha'
  have haa := Res.ok.inj ha'
  subst haa
  refine ⟨_, o, by rw [← s1]; exact hX, h1, ?_⟩
  have hne := hcross r
  rw [← h11] at hne
  rw [← hd, frame_normal (normalize_cross_dot hne).2.2 (flat_point wP heP hpos hflat u0 u1 ha)]
  refine mul_ne_zero hax ?_
  rw [h11]
  exact hdir r

end LNLib.Props
