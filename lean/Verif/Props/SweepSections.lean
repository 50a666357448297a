import Verif.Model.SweepSections
import Verif.Spec.SweepSections
import Verif.Props.Loft
import Verif.Props.ProjectNormal
import Verif.Props.CurveParam
import Verif.Props.Refine
import Verif.Props.KnotVector

/-!
# C133: sweep surfaces that interpolate their trajectory
-/

set_option linter.unusedSectionVars false

namespace LNLib.Props
open LNLib Res LNLib.Spec Finset

/-! ## The parameters of the sections -/

section
variable {K : Type} [Field K] [LinearOrder K] [IsStrictOrderedRing K]

theorem foldl_min_sorted : ∀ (l : List K) (a : K), (∀ x ∈ l, a ≤ x) → l.foldl min a = a := by
  intro l
  induction l with
  | nil => intro a _; rfl
  | cons b l ih =>
    intro a h
    rw [List.foldl_cons, min_eq_left (h b (by simp))]
    exact ih a fun x hx => h x (by simp [hx])

theorem foldl_max_sorted : ∀ (l : List K) (a : K), (a :: l).Pairwise (· ≤ ·) → l.foldl max a = nth (a :: l) l.length := by
  intro l
  induction l with
  | nil => intro a _; rfl
  | cons b l ih =>
    intro a h
    rw [List.foldl_cons, max_eq_right ((List.pairwise_cons.mp h).1 b (by simp)), ih b (List.pairwise_cons.mp h).2]
    rfl

theorem minmaxElement_sorted {U : List K} {m : ℕ} (hl : U.length = m + 1) (hs : ∀ i j, i ≤ j → j < U.length → nth U i ≤ nth U j) :
    minmaxElement U = ok (nth U 0, nth U m) := by
  have hp : U.Pairwise (· ≤ ·) := (isValidKnotVector_iff U).mp (isValidKnotVector_nth.mpr hs)
  match U, hl, hp with
  | a :: l, hl, hp =>
    have hl' : l.length = m := by simpa using hl
    show ok (l.foldl min a, l.foldl max a) = _
    rw [foldl_min_sorted l a (List.pairwise_cons.mp hp).1, foldl_max_sorted l a hp, hl']
    rfl

/-- the parameters of the sections are the Greville abscissae of the trajectory -/
theorem sweepParams_run {U : List K} {q m : ℕ} (hq : 0 < q) (hm : 1 ≤ m) (hl : U.length = m + q + 2) (hs : ∀ i j, i ≤ j → j < U.length → nth U i ≤ nth U j)
    (hc : ClampedEnds (nth U) q m) : ∃ vk, sweepParams (q : ℤ) ((m : ℤ) + 1) U = ok vk ∧ vk.length = m + 1 ∧ ∀ k ≤ m, nth vk k = greville (nth U) q k := by
  have hqK : (q : K) ≠ 0 := by simpa using hq.ne'
  change Runs (sweepParams (q : ℤ) ((m : ℤ) + 1) U) (fun vk => vk.length = m + 1 ∧ ∀ k ≤ m, nth vk k = greville (nth U) q k)
  unfold sweepParams
  rw [minmaxElement_sorted (m := m + q + 1) (by omega) hs, ok_bind, vset_of (i := 0) (k := 0) rfl (by simp), ok_bind,
    vset_of (k := m) (by ring) (by simp), ok_bind]
  refine (Runs.forN (m := 1) (n := m) (fun k (vk : List K) => vk.length = m + 1 ∧ nth vk 0 = nth U 0 ∧ nth vk m = nth U (m + q + 1) ∧
    ∀ j, 1 ≤ j → j < k → nth vk j = greville (nth U) q j) rfl (by ring) hm ⟨by simp, ?_, ?_, fun j h1 h2 => by omega⟩ ?_).mono ?_
  · rw [nth_set (by simp), if_neg (by omega), nth_set (by simp), if_pos rfl]
  · rw [nth_set (by simp), if_pos rfl]
  · rintro k vk h1 h2 ⟨g1, g2, g3, g4⟩
    refine Runs.bind (Q := fun (x : K) => x = ∑ i ∈ range q, nth U (k + 1 + i)) ?_ ?_
    · refine (Runs.forN (m := 1) (n := q + 1) (fun i (x : K) => x = ∑ i ∈ range (i - 1), nth U (k + 1 + i)) rfl (by push_cast; ring) (by omega) (by simp) ?_).mono ?_
      · rintro i x i1 i2 rfl
        rw [vget_nth (k := k + i) (by push_cast; ring) (by omega), ok_bind]
        refine Runs.ok ?_
        obtain ⟨i', rfl⟩ : ∃ i', i = i' + 1 := ⟨i - 1, by omega⟩
        rw [show i' + 1 + 1 - 1 = i' + 1 by omega, sum_range_succ, show i' + 1 - 1 = i' by omega, show k + 1 + i' = k + (i' + 1) by ring]
      · rintro x rfl; rfl
    · rintro x rfl
      rw [fdiv_ok (by simpa using hqK), ok_bind, vset_of (k := k) rfl (by omega)]
      refine Runs.ok ⟨by simp [g1], ?_, ?_, fun j j1 j2 => ?_⟩
      · rw [nth_set (by omega), if_neg (by omega)]; exact g2
      · rw [nth_set (by omega), if_neg (by omega)]; exact g3
      · rw [nth_set (by omega)]
        by_cases e : j = k
        · subst e; rw [if_pos rfl]; simp [greville]
        · rw [if_neg e]; exact g4 j j1 (by omega)
  · rintro vk ⟨g1, g2, g3, g4⟩
    refine ⟨g1, fun k hk => ?_⟩
    have hconst : ∀ (k : ℕ) (b : K), (∀ i < q, nth U (k + 1 + i) = b) → greville (nth U) q k = b := by
      intro k b h
      unfold greville
      rw [sum_congr rfl (fun i hi => h i (mem_range.mp hi)), sum_const, card_range, nsmul_eq_mul]
      field_simp
    rcases Nat.eq_zero_or_pos k with rfl | h0
    · rw [g2, hconst 0 (nth U 0)]
      intro i hi
      exact le_antisymm (by rw [hc.first]; exact hs _ _ (by omega) (by omega)) (hs _ _ (by omega) (by omega))
    · rcases Nat.lt_or_ge k m with h | h
      · exact g4 k h0 h
      · have : k = m := by omega
        subst this
        rw [g3, hconst k (nth U (k + q + 1))]
        intro i hi
        exact le_antisymm (hs _ _ (by omega) (by omega)) (by rw [← hc.last]; exact hs _ _ (by omega) (by omega))

theorem greville_mono {U : List K} {q m : ℕ} (hl : U.length = m + q + 2) (hs : ∀ i j, i ≤ j → j < U.length → nth U i ≤ nth U j)
    {j k : ℕ} (hjk : j ≤ k) (hk : k ≤ m) : greville (nth U) q j ≤ greville (nth U) q k := by
  unfold greville
  refine div_le_div_of_nonneg_right (sum_le_sum fun i hi => hs _ _ (by omega) ?_) (by positivity)
  have := mem_range.mp hi
  omega

/-- a Greville abscissa lies in the range of the knots -/
theorem greville_range {U : List K} {q m : ℕ} (hq : 0 < q) (hl : U.length = m + q + 2) (hs : ∀ i j, i ≤ j → j < U.length → nth U i ≤ nth U j)
    (hc : ClampedEnds (nth U) q m) {k : ℕ} (hk : k ≤ m) : nth U q ≤ greville (nth U) q k ∧ greville (nth U) q k ≤ nth U (m + 1) := by
  have hqK : (0 : K) < q := by exact_mod_cast hq
  unfold greville
  constructor
  · rw [le_div_iff₀ hqK, ← hc.first]
    calc nth U 0 * q = ∑ _i ∈ range q, nth U 0 := by rw [sum_const, card_range, nsmul_eq_mul]; ring
      _ ≤ _ := sum_le_sum fun i hi => hs _ _ (by omega) (by have := mem_range.mp hi; omega)
  · rw [div_le_iff₀ hqK, hc.last]
    calc _ ≤ ∑ _i ∈ range q, nth U (m + q + 1) := sum_le_sum fun i hi => hs _ _ (by have := mem_range.mp hi; omega) (by omega)
      _ = _ := by rw [sum_const, card_range, nsmul_eq_mul]; ring

/-! ## The trajectory that the sections are placed on -/

/-- enough control points: nothing is inserted -/
theorem sweepTrajectory_kept {T : NurbsCurve K} {q m : ℕ} (w : WellFormed T q m) {k : ℤ} (hk : k ≤ m) : sweepTrajectory T k = ok (T, (m : ℤ) + 1) := by
  have hl := w.knots
  have hd := w.degree
  unfold sweepTrajectory
  dsimp only
  rw [hl, hd, if_neg (by push_cast; omega)]
  by_cases h : k < m
  · rw [if_pos (by push_cast; omega)]
    congr 2
    push_cast; ring
  · rw [if_neg (by push_cast; omega)]
    congr 2
    omega

/-- C133: the trajectory is only refined, never changed: with at least as many control points as sections asked for it is used as it is, and
otherwise knots are inserted until there is one control point for each section. -/
theorem C133_trajectory_partial {T T' : NurbsCurve K} {q n k : ℕ} {s : ℤ} (w : WellFormed T q n) (he : EndsSeparated (nth T.knots) q n)
    (hc : ClampedEnds (nth T.knots) q n) (hk : n < k)
    {ks : List K} (hks : ks.Pairwise (· < ·)) (hmem : ∀ x, x ∈ ks ↔ x ∈ T.knots)
    (hgap : isGreaterThan ((nth ks (ks.length - 1) - nth ks 0) / ((ks.length + (k - n) : ℕ) : K)) doubleEps = true)
    (hsep : ∀ X, getInsertedKnotElementsMid ((k - n : ℕ) : ℤ) T.knots = ok X → WellSeparated (T.knots ++ X))
    (hT : sweepTrajectory T k = ok (T', s)) : s = (k : ℤ) + 1 ∧ WellFormed T' q k ∧ EndsSeparated (nth T'.knots) q k ∧ ClampedEnds (nth T'.knots) q k ∧
      ∀ t, nth T.knots q ≤ t → t ≤ nth T.knots (n + 1) → NurbsCurve.pointOnCurve T' t = NurbsCurve.pointOnCurve T t := by
  have hl := w.knots
  have hd := w.degree
  have hpn := w.pn
  have hp := w.pos
  have hmem0 : nth T.knots q ∈ T.knots := mem_of_nth (by omega)
  have hmem1 : nth T.knots (q + 1) ∈ T.knots := mem_of_nth (by omega)
  have h01 : nth T.knots q < nth T.knots (q + 1) := by
    have := he.first
    have h2 : (0 : K) ≤ 1 / 1000000 * (1 + max |nth T.knots q| |nth T.knots (q + 1)|) := by positivity
    linarith
  have h2 : 2 ≤ ks.length := by
    by_contra hcon
    have a := (hmem _).mpr hmem0
    have b := (hmem _).mpr hmem1
    match ks, hcon, a, b with
    | [], _, a, _ => simp at a
    | [x], _, a, b =>
      rw [List.mem_singleton] at a b
      rw [a, b] at h01
      exact lt_irrefl _ h01
    | _ :: _ :: _, hcon, _, _ => exact hcon (by simp)
  have hrange : ∀ x ∈ T.knots, nth T.knots 0 ≤ x ∧ x ≤ nth T.knots (n + q + 1) := by
    intro x hx
    obtain ⟨i, hi, rfl⟩ := List.getElem_of_mem hx
    rw [← nth_eq_getElem hi]
    exact ⟨w.sorted _ _ (by omega) hi, w.sorted _ _ (by omega) (by omega)⟩
  obtain ⟨X, hX, hXl, hXs, hXm⟩ := C72_insert_mid_partial ((isValidKnotVector_iff _).mp (isValidKnotVector_nth.mpr w.sorted)) hks hmem h2 hgap
  have hin : ∀ x ∈ X, nth T.knots q < x ∧ x < nth T.knots (n + 1) := by
    intro x hx
    obtain ⟨a, b, -⟩ := hXm x hx
    refine ⟨?_, ?_⟩
    · rw [← hc.first]
      exact lt_of_le_of_lt (hrange _ ((hmem _).mp (mem_of_nth (by omega)))).1 a
    · rw [hc.last]
      exact lt_of_lt_of_le b (hrange _ ((hmem _).mp (mem_of_nth (by omega)))).2
  have hXs' : X.Pairwise (· ≤ ·) := hXs.imp fun h => h.le
  have hne : X ≠ [] := by intro h; rw [h] at hXl; simp at hXl; omega
  obtain ⟨c', r0, r1, r2, r3, r4, r5, r6, -⟩ := refineKnotVector_run w he hne (fun m hm => (hin _ (mem_of_nth hm)).1) (fun m hm => (hin _ (mem_of_nth hm)).2)
    (sorted_nth hXs') (hsep X hX)
  unfold sweepTrajectory at hT
  dsimp only at hT
  rw [hl, hd, if_pos (by push_cast; omega), show (k : ℤ) + 1 + q - ((n + q + 2 : ℕ) : ℤ) + 1 = ((k - n : ℕ) : ℤ) by push_cast [Nat.cast_sub hk.le]; ring,
    hX, ok_bind, r0, ok_bind] at hT
  have hT := Res.ok.inj hT
  rw [Prod.mk.injEq] at hT
  obtain ⟨rfl, rfl⟩ := hT
  rw [hXl, show n + (k - n) = k by omega] at r1 r2 r5
  have hl' := r1.knots
  have hall : ∀ x ∈ c'.knots, nth T.knots q ≤ x ∧ x ≤ nth T.knots (n + 1) := by
    intro x hx
    rcases List.mem_append.mp (r3.mem_iff.mp hx) with h | h
    · rw [← hc.first, hc.last]; exact hrange x h
    · exact ⟨(hin x h).1.le, (hin x h).2.le⟩
  refine ⟨rfl, r1, r2, ⟨?_, ?_⟩, fun t t0 t1 => C57_refine_rational w he hne hXs' hin (hsep X hX) r0 t0 t1⟩
  · refine le_antisymm (r1.sorted _ _ (by omega) (by omega)) ?_
    rw [r4]
    exact (hall _ (mem_of_nth (by omega))).1
  · refine le_antisymm (r1.sorted _ _ (by omega) (by omega)) ?_
    rw [r5]
    exact (hall _ (mem_of_nth (by omega))).2

end

/-! ## One section -/

theorem clear_weight {a : ℝ} (h : 1 / 500000 ≤ a) : 1 / 1000000 * (1 + |a|) < |a| := by
  have : |a| = a := abs_of_nonneg (by linarith)
  rw [this]; linarith

/-- the matrix of a frame -/
theorem ofBasis_affine (x y z o : XYZ ℝ) : IsAffine (Matrix4d.ofBasis x y z o) := ⟨rfl, rfl, rfl, rfl⟩

theorem affineImage_frame (x y z o a : XYZ ℝ) : affineImage (Matrix4d.ofBasis x y z o) a = framePoint o x y z a := by
  ext <;> simp [affineImage, Matrix4d.ofBasis, framePoint] <;> ring

/-- the frame of a section -/
noncomputable def sectionFrame (x d o : XYZ ℝ) : Matrix4d ℝ := Matrix4d.ofBasis x (d.normalize.cross x).normalize d.normalize o

theorem sweepSection_run {profile path : NurbsCurve ℝ} {Bv : List (XYZ ℝ)} {v : ℝ} {s : ℕ} {l : List (XYZ ℝ)} {o : XYZ ℝ} (hw : ∀ a ∈ profile.cps, 1 / 500000 ≤ a.w)
    (hl : NurbsCurve.rationalDerivatives path 1 v = ok l) (hlen : 1 < l.length) (hs : getKnotSpanIndex path.degree path.knots v = ok (s : ℤ)) (hsB : s < Bv.length)
    (ho : NurbsCurve.pointOnCurve path v = ok o) :
    sweepSection profile path Bv v = ok { profile with cps := profile.cps.map (liftW (sectionFrame (nth Bv s) (nth l 1) o)) } := by
  unfold sweepSection
  rw [hl, ok_bind, vget_nth (i := 1) (k := 1) rfl hlen, ok_bind]
  dsimp only
  rw [hs, ok_bind, vget_nth (k := s) rfl hsB, ok_bind]
  change (forI 0 profile.cps.length (List.replicate profile.cps.length (0 : XYZW ℝ)) (fun i cps => (vget profile.cps i >>= fun wp => NurbsCurve.pointOnCurve path v >>= fun o =>
        (sectionFrame (nth Bv s) (nth l 1) o).ofPoint wp.toXYZ >>= fun t => vset cps i (XYZW.ofXYZ t wp.w))) >>= fun cps =>
        ok ({ degree := profile.degree, knots := profile.knots, cps := cps } : NurbsCurve ℝ)) = _
  have hA : ∀ x d o, IsAffine (sectionFrame x d o) := fun _ _ _ => ofBasis_affine _ _ _ _
  set M := sectionFrame (nth Bv s) (nth l 1) o with hM
  obtain ⟨V, h1, h2, h3⟩ := Runs.fill (e := 0) (a := 0) (b := (profile.cps.length : ℤ)) (arr := List.replicate profile.cps.length (0 : XYZW ℝ)) (dst := fun i => i)
    (rd := fun i => vget profile.cps i >>= fun wp => NurbsCurve.pointOnCurve path v >>= fun o => (sectionFrame (nth Bv s) (nth l 1) o).ofPoint wp.toXYZ >>= fun t => ok (XYZW.ofXYZ t wp.w))
    (f := fun i => liftW M (nth profile.cps i))
    (by intro i; omega) (by omega) (by simp) (by omega) (by
      intro i h1 h2
      have hm := hw _ (mem_of_nth (l := profile.cps) (i := (i + 0).toNat) (by omega))
      rw [vget_nth (k := (i + 0).toNat) (by omega) (by omega), ok_bind, ho, ok_bind, ofPoint_affine (hA _ _ _), ok_bind,
        XYZW.toXYZ_eq (clear_weight hm)]
      congr 1
      have h0 : (nth profile.cps (i + 0).toNat).w ≠ 0 := by intro h; rw [h] at hm; norm_num at hm
      rw [← hM]
      generalize nth profile.cps (i + 0).toNat = a at h0
      ext <;> simp [affineImage, liftW, XYZW.ofXYZ, XYZW.raw] <;> field_simp)
  have hbody : (fun (i : ℤ) (cps : List (XYZW ℝ)) => (vget profile.cps i >>= fun wp => NurbsCurve.pointOnCurve path v >>= fun o =>
      (sectionFrame (nth Bv s) (nth l 1) o).ofPoint wp.toXYZ >>= fun t => vset cps i (XYZW.ofXYZ t wp.w) : Res (List (XYZW ℝ)))) =
      fun i cps => (vget profile.cps i >>= fun wp => NurbsCurve.pointOnCurve path v >>= fun o =>
      (sectionFrame (nth Bv s) (nth l 1) o).ofPoint wp.toXYZ >>= fun t => ok (XYZW.ofXYZ t wp.w)) >>= fun q => vset cps i q := by
    funext i cps
    simp only [bind_assoc', ok_bind]
  rw [hbody, h1, ok_bind]
  congr 2
  apply ext_nth (by rw [h2]; simp)
  intro i hi
  rw [h2, List.length_replicate] at hi
  rw [h3, if_pos (by omega), nth_map hi]

theorem sweepSection_of_ok {profile path r : NurbsCurve ℝ} {Bv : List (XYZ ℝ)} {v : ℝ} {s : ℕ} (hw : ∀ a ∈ profile.cps, 1 / 500000 ≤ a.w)
    (hne : 0 < profile.cps.length) (hs : getKnotSpanIndex path.degree path.knots v = ok (s : ℤ)) (h : sweepSection profile path Bv v = ok r) :
    ∃ l o, NurbsCurve.rationalDerivatives path 1 v = ok l ∧ NurbsCurve.pointOnCurve path v = ok o ∧ s < Bv.length ∧
      r = { profile with cps := profile.cps.map (liftW (sectionFrame (nth Bv s) (nth l 1) o)) } := by
  have hrun := h
  unfold sweepSection at h
  obtain ⟨l, hl, h⟩ := bind_eq_ok.mp h
  obtain ⟨d1, hd1, h⟩ := bind_eq_ok.mp h
  have hlen : 1 < l.length := by
    by_contra hh
    rw [vget_ge (by omega)] at hd1
    cases hd1
  dsimp only at h
  rw [hs, ok_bind] at h
  have hsB : s < Bv.length := by
    by_contra hh
    rw [vget_ge (by omega)] at h
    cases h
  rw [vget_nth (k := s) rfl hsB, ok_bind] at h
  cases ho : NurbsCurve.pointOnCurve path v with
  | ok o =>
    refine ⟨l, o, hl, rfl, hsB, ?_⟩
    rw [sweepSection_run hw hl hlen hs hsB ho] at hrun
    exact (Res.ok.inj hrun).symm
  | _ =>
    rw [forI_head (by omega), vget_nth (i := 0) (k := 0) rfl hne, ok_bind, ho] at h
    cases h

/-- the list of sections -/
theorem sweepSections_of_ok {profile path : NurbsCurve ℝ} {Bv : List (XYZ ℝ)} {vk : List ℝ} {m : ℕ} {secs : List (NurbsCurve ℝ)} (hl : vk.length = m + 1)
    (h : sweepSections profile path Bv ((m : ℤ) + 1) vk = ok secs) :
    ∃ c : ℕ → NurbsCurve ℝ, secs = (List.range (m + 1)).map c ∧ ∀ k ≤ m, sweepSection profile path Bv (nth vk k) = ok (c k) := by
  unfold sweepSections at h
  have key := forI_post (Inv := fun i (s : List (NurbsCurve ℝ)) => ∃ c : ℕ → NurbsCurve ℝ, s = (List.range i.toNat).map c ∧
    ∀ k : ℕ, (k : ℤ) < i → sweepSection profile path Bv (nth vk k) = ok (c k)) (by omega) ⟨fun _ => profile, by simp, fun k hk => by omega⟩ ?_ h
  · obtain ⟨c, h1, h2⟩ := key
    exact ⟨c, by rw [h1]; congr 2, fun k hk => h2 k (by omega)⟩
  · rintro i s s' h0 h1 ⟨c, hc, hk⟩ hs
    obtain ⟨i, rfl⟩ := Int.eq_ofNat_of_zero_le h0
    rw [vget_nth (k := i) rfl (by omega), ok_bind] at hs
    obtain ⟨r, hr, hs⟩ := bind_eq_ok.mp hs
    have hs := Res.ok.inj hs
    refine ⟨fun k => if k = i then r else c k, ?_, ?_⟩
    · rw [← hs, hc, show ((i : ℤ) + 1).toNat = i + 1 by omega, List.range_succ, List.map_append, List.map_singleton, if_pos rfl]
      congr 1
      refine List.map_congr_left fun k hk => ?_
      have := List.mem_range.mp hk
      simp at this
      rw [if_neg (by omega)]
    · intro k hk'
      by_cases e : k = i
      · subst e; simpa using hr
      · simp only [if_neg e]; exact hk k (by omega)

/-! ## The surface -/

theorem distance_zero {a b : XYZ ℝ} (h : a.distance b = 0) : a = b := by
  unfold XYZ.distance at h
  have h0 := (Real.sqrt_eq_zero (by positivity)).mp h
  have h1 := sq_nonneg (b.x - a.x)
  have h2 := sq_nonneg (b.y - a.y)
  have h3 := sq_nonneg (b.z - a.z)
  have e1 : b.x - a.x = 0 := pow_eq_zero_iff (n := 2) (by norm_num) |>.mp (by linarith)
  have e2 : b.y - a.y = 0 := pow_eq_zero_iff (n := 2) (by norm_num) |>.mp (by linarith)
  have e3 : b.z - a.z = 0 := pow_eq_zero_iff (n := 2) (by norm_num) |>.mp (by linarith)
  ext <;> linarith

/-- C133 (partial: the trajectory `T'` with the knots inserted, see `sweepTrajectory_kept` and `C133_trajectory_partial`; at least three
sections, and as many as the degree of the profile asks for; weights of the profile of at least 2e-6; a sound solver; a `v` knot vector with
clear ends): every surface that `CreateSweepSurface` returns is valid, and for every section it contains, at a rising sequence of values of
`v`, the profile placed at the trajectory: the origin is the trajectory point, the `z` axis is the unit tangent, the `x` axis is a unit
vector orthogonal to the tangent at the last knot before the section, and the `y` axis is the unit vector along `z × x`. The sections stand
at the Greville abscissae of the trajectory. -/
theorem C133_sections_partial {solve : List (List ℝ) → List (List ℝ) → Res (List (List ℝ))} {fuel : ℕ} {angle : ℕ → ℝ} {profile T T' : NurbsCurve ℝ}
    {k₀ : ℤ} {p n q m : ℕ} {S : NurbsSurface ℝ} (hsolve : SoundSolver solve)
    (wP : WellFormed profile p n) (heP : EndsSeparated (nth profile.knots) p n) (hpos : ∀ a ∈ profile.cps, 1 / 500000 ≤ a.w)
    (hT : sweepTrajectory T k₀ = ok (T', (m : ℤ) + 1)) (hdeg : T.degree = q) (wT : WellFormed T' q m) (heT : EndsSeparated (nth T'.knots) q m)
    (hcT : ClampedEnds (nth T'.knots) q m) (hm : 2 ≤ m) (hpm : p ≤ m)
    (hS : createSweep solve fuel angle profile T k₀ = ok S) (heV : EndsSeparated (nth S.knotsV) p m) :
    WellFormedS S p p n m ∧ S.knotsU = profile.knots ∧ ∃ s : ℕ → ℝ, s 0 = 0 ∧ s m = 1 ∧ (∀ j k, j ≤ k → k ≤ m → s j ≤ s k) ∧
      ∀ k ≤ m, ∃ (o d x d' : XYZ ℝ) (i : ℕ) (l l' : List (XYZ ℝ)),
        NurbsCurve.pointOnCurve T' (greville (nth T'.knots) q k) = ok o ∧
        NurbsCurve.rationalDerivatives T' 1 (greville (nth T'.knots) q k) = ok l ∧ nth l 1 = d ∧
        IsSpan (nth T'.knots) q m (greville (nth T'.knots) q k) i ∧
        NurbsCurve.rationalDerivatives T' 1 (nth T'.knots i) = ok l' ∧ nth l' 1 = d' ∧ d' ≠ 0 ∧ x.length = 1 ∧ x.dot d' = 0 ∧
        ∃ B, projectNormal fuel angle T' = ok B ∧ x = nth B i ∧
        ∀ u, nth profile.knots p ≤ u → u ≤ nth profile.knots (n + 1) → ∃ a, NurbsCurve.pointOnCurve profile u = ok a ∧
          NurbsSurface.pointOnSurface S u (s k) = ok (framePoint o x (d.normalize.cross x).normalize d.normalize a) := by
  unfold createSweep at hS
  rw [hT, ok_bind] at hS
  dsimp only at hS
  obtain ⟨vk, hvk, hvl, hv⟩ := sweepParams_run wT.pos (by omega) wT.knots wT.sorted hcT
  rw [hdeg, hvk, ok_bind] at hS
  obtain ⟨B, hB, hS⟩ := bind_eq_ok.mp hS
  obtain ⟨secs, hsecs, hS⟩ := bind_eq_ok.mp hS
  obtain ⟨c, rfl, hc⟩ := sweepSections_of_ok hvl hsecs
  have hlP := wP.cps
  have hspan : ∀ k ≤ m, ∃ i : ℕ, getKnotSpanIndex T'.degree T'.knots (nth vk k) = ok (i : ℤ) ∧ IsSpan (nth T'.knots) q m (nth vk k) i := by
    intro k hk
    obtain ⟨g0, g1⟩ := greville_range wT.pos wT.knots wT.sorted hcT hk
    rw [hv k hk, wT.degree]
    exact getKnotSpanIndex_isSpan wT.knots wT.pn wT.sorted heT g0 g1
  have hplace : ∀ k ≤ m, ∃ (i : ℕ) (l : List (XYZ ℝ)) (o : XYZ ℝ), IsSpan (nth T'.knots) q m (nth vk k) i ∧ NurbsCurve.rationalDerivatives T' 1 (nth vk k) = ok l ∧
      NurbsCurve.pointOnCurve T' (nth vk k) = ok o ∧ i < B.length ∧
      c k = { profile with cps := profile.cps.map (liftW (sectionFrame (nth B i) (nth l 1) o)) } := by
    intro k hk
    obtain ⟨i, hi, hi'⟩ := hspan k hk
    obtain ⟨l, o, e1, e2, e3, e4⟩ := sweepSection_of_ok hpos (by omega) hi (hc k hk)
    exact ⟨i, l, o, hi', e1, e2, e3, e4⟩
  have hshape : ∀ k ≤ m, ∃ M, IsAffine M ∧ c k = { profile with cps := profile.cps.map (liftW M) } := fun k hk => by
    obtain ⟨i, l, o, -, -, -, -, e⟩ := hplace k hk
    exact ⟨_, ofBasis_affine _ _ _ _, e⟩
  have hwf : ∀ k, k ≤ m → WellFormed (c k) p n := by
    intro k hk
    obtain ⟨M, -, e⟩ := hshape k hk
    rw [e]
    exact { degree := wP.degree, pos := wP.pos, le7 := wP.le7, cps := by rw [List.length_map]; exact wP.cps, pn := wP.pn, knots := wP.knots, sorted := wP.sorted }
  have hkn : ∀ k, k ≤ m → (c k).knots = profile.knots := by
    intro k hk
    obtain ⟨M, -, e⟩ := hshape k hk
    rw [e]
  have hwt : ∀ k i, k ≤ m → i ≤ n → (nth (c k).cps i).w = (nth profile.cps i).w := by
    intro k i hk hi
    obtain ⟨M, -, e⟩ := hshape k hk
    rw [e]
    dsimp only
    rw [nth_map (by omega)]
    rfl
  have hge : ∀ i, i ≤ n → 1 / 500000 ≤ (nth profile.cps i).w := fun i hi => hpos _ (mem_of_nth (by omega))
  have hL : ∀ i, i ≤ n → columnChord c i m ≠ 0 := by
    intro i hi h0
    have hz : ∀ j < m, proj (nth (c (j + 1)).cps i) = proj (nth (c j).cps i) := by
      intro j hj
      unfold columnChord at h0
      exact distance_zero ((sum_eq_zero_iff_of_nonneg (fun j _ => distance_nonneg _ _)).mp h0 j (mem_range.mpr hj))
    have hz' : ∀ k ≤ m, proj (nth (c k).cps i) = proj (nth (c 0).cps i) := by
      intro k hk
      induction k with
      | zero => rfl
      | succ k ih => rw [hz k (by omega)]; exact ih (by omega)
    have := C112_pole_violated solve 0 hwf hm hi (fun k hk => by
      have e : ∀ k ≤ m, (nth (c k).cps i).toXYZ = proj (nth (c k).cps i) := fun k hk => toXYZ_proj (by
        rw [hwt k i hk hi]; have := hge i hi; linarith)
      rw [e k hk, e 0 (by omega), hz' k hk])
    rw [this] at hS
    cases hS
  obtain ⟨wS, hkU, s0, s1, smono, hpt⟩ := C112_default_partial hsolve hwf (fun k hk => by rw [hkn k hk, hkn 0 (by omega)]) (by rw [hkn 0 (by omega)]; exact heP)
    (fun k i hk hi => by rw [hwt k i hk hi, hwt 0 i (by omega) hi]) (fun i hi => by rw [hwt 0 i (by omega) hi]; exact hge i hi) hpm hL hS heV
  refine ⟨wS, by rw [hkU, hkn 0 (by omega)], _, s0, s1, smono, fun k hk => ?_⟩
  obtain ⟨i, l, o, hi, e1, e2, e3, e4⟩ := hplace k hk
  obtain ⟨hBl, hBn⟩ := C129_normals (by rw [wT.knots]; omega) hB
  obtain ⟨l', f1, f2, f3, f4⟩ := hBn i (by omega)
  rw [← hv k hk]
  refine ⟨o, nth l 1, nth B i, nth l' 1, i, l, l', e2, e1, rfl, hi, f1, rfl, f2, f3, f4, B, hB, rfl, fun u u0 u1 => ?_⟩
  obtain ⟨x, hx, hSx⟩ := hpt k u hk (by rw [hkn 0 (by omega)]; exact u0) (by rw [hkn 0 (by omega)]; exact u1)
  have hbig := weightFn_ge wP heP u0 u1 hge
  obtain ⟨c', a, g1, -, -, g2, g3, -⟩ := C08_affine_invariance (ofBasis_affine (nth B i) ((nth l 1).normalize.cross (nth B i)).normalize (nth l 1).normalize o) wP heP
    (fun a ha h => by have := hpos a ha; rw [h] at this; norm_num at this) u0 u1 (clear_weight hbig)
  rw [createTransformed_run (ofBasis_affine _ _ _ _) (fun a ha h => by have := hpos a ha; rw [h] at this; norm_num at this)] at g1
  have g1 := Res.ok.inj g1
  refine ⟨a, g2, ?_⟩
  rw [hSx, ← affineImage_frame]
  unfold sectionFrame at e4
  rw [← hx, e4, g1]
  exact g3

end LNLib.Props
