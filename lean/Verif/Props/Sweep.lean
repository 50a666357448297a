import Verif.Model.Sweep
import Verif.Props.Surface

/-!
# C101: translational sweep surfaces (Geometry/Surface/NurbsSurface.cpp, `CreateGeneralizedTranslationalSweepSurface`)
-/
set_option linter.unusedSectionVars false

namespace LNLib.Props
open LNLib Res Spec Finset

variable {K : Type} [Field K] [LinearOrder K] [IsStrictOrderedRing K]

/-- the weight is not within the library's tolerance of zero -/
def NotTiny (x : K) : Prop := 1 / 1000000 * (1 + |x|) < |x|

theorem NotTiny.ne {x : K} (h : NotTiny x) : x ≠ 0 := by
  rintro rfl
  unfold NotTiny at h
  norm_num at h

theorem notTiny_of_ge {x : K} (h : 1 / 500000 ≤ x) : NotTiny x := by
  unfold NotTiny
  have : (0 : K) < 1 / 500000 := by norm_num
  rw [abs_of_pos (by linarith)]
  linarith

theorem raw_ofXYZ (p : XYZ K) (w : K) : (XYZW.ofXYZ p w).raw = w • p := by
  ext <;> simp [XYZW.ofXYZ, XYZW.raw, mul_comm]

theorem smul_toXYZ {a : XYZW K} (h : NotTiny a.w) : a.w • a.toXYZ = a.raw := by
  rw [XYZW.toXYZ_eq h, smul_smul, mul_inv_cancel₀ (NotTiny.ne h), one_smul]

/-- the control net of the sweep -/
theorem sweep_run {pr tr : NurbsCurve K} {n m : ℕ} (hn : pr.cps.length = n + 1) (hm : tr.cps.length = m + 1) :
    ∃ cps, createTranslationalSweep pr tr = ok ⟨pr.degree, tr.degree, pr.knots, tr.knots, cps⟩ ∧ IsMat cps (n + 1) (m + 1) ∧
      ∀ i j, i ≤ n → j ≤ m → ent cps i j = XYZW.ofXYZ ((nth tr.cps j).toXYZ + (nth pr.cps i).toXYZ) ((nth pr.cps i).w * (nth tr.cps j).w) := by
  have key : Runs (forI 0 (((pr.cps.length : ℤ) - 1) + 1) (List.replicate pr.cps.length (List.replicate tr.cps.length (0 : XYZW K))) fun i cps =>
      forI 0 (((tr.cps.length : ℤ) - 1) + 1) cps fun j cps => do
        let t ← vget tr.cps j
        let p ← vget pr.cps i
        mset cps i j (XYZW.ofXYZ (t.toXYZ + p.toXYZ) (p.w * t.w)))
      (fun cps => IsMat cps (n + 1) (m + 1) ∧ ∀ i j, i < n + 1 → j ≤ m →
        ent cps i j = XYZW.ofXYZ ((nth tr.cps j).toXYZ + (nth pr.cps i).toXYZ) ((nth pr.cps i).w * (nth tr.cps j).w)) := by
    refine Runs.forN (a := 0) (m := 0) (n := n + 1) (fun k cps => IsMat cps (n + 1) (m + 1) ∧ ∀ i j, i < k → j ≤ m →
        ent cps i j = XYZW.ofXYZ ((nth tr.cps j).toXYZ + (nth pr.cps i).toXYZ) ((nth pr.cps i).w * (nth tr.cps j).w))
        rfl (by rw [hn]; push_cast; ring) (by omega) ?_ ?_
    · rw [hn, hm]
      exact ⟨isMat_replicate, fun i j hi => absurd hi (by omega)⟩
    · rintro i cps - hi ⟨hM, hE⟩
      refine (Runs.forN (a := 0) (m := 0) (n := m + 1) (fun l cps => IsMat cps (n + 1) (m + 1) ∧ (∀ i' j, i' < i → j ≤ m →
        ent cps i' j = XYZW.ofXYZ ((nth tr.cps j).toXYZ + (nth pr.cps i').toXYZ) ((nth pr.cps i').w * (nth tr.cps j).w)) ∧
        ∀ j, j < l → ent cps i j = XYZW.ofXYZ ((nth tr.cps j).toXYZ + (nth pr.cps i).toXYZ) ((nth pr.cps i).w * (nth tr.cps j).w))
        rfl (by rw [hm]; push_cast; ring) (by omega) ?_ ?_).mono ?_
      · exact ⟨hM, hE, fun j hj => absurd hj (by omega)⟩
      · rintro j cps - hj ⟨hM, hE, hF⟩
        rw [vget_nth (k := j) rfl (by omega), ok_bind, vget_nth (k := i) rfl (by omega), ok_bind]
        obtain ⟨m1, r1, hm1, he1⟩ := mset_ok (x := XYZW.ofXYZ ((nth tr.cps j).toXYZ + (nth pr.cps i).toXYZ) ((nth pr.cps i).w * (nth tr.cps j).w)) hM
          (i := (i : ℤ)) (j := (j : ℤ)) rfl rfl hi hj
        rw [r1]
        refine Runs.ok ⟨hm1, fun i' j' hi' hj' => ?_, fun j' hj' => ?_⟩
        · rw [he1, if_neg (by omega)]; exact hE i' j' hi' hj'
        · rw [he1]
          split
          · rename_i e; rw [e.2]
          · exact hF j' (by omega)
      · rintro cps ⟨hM, hE, hF⟩
        refine ⟨hM, fun i' j hi' hj => ?_⟩
        rcases Nat.lt_succ_iff_lt_or_eq.mp hi' with h | rfl
        · exact hE i' j h hj
        · exact hF j (by omega)
  obtain ⟨cps, r, h1, h2⟩ := key
  refine ⟨cps, ?_, h1, fun i j hi hj => h2 i j (by omega) hj⟩
  unfold createTranslationalSweep
  dsimp only
  rw [r, ok_bind]

/-- C101: the sweep of two valid rational curves is a valid surface over the product of their domains whose point at `(u, v)` is the
sum of the point of the profile at `u` and the point of the trajectory at `v`. -/
theorem C101_sweep {pr tr : NurbsCurve K} {p q n m : ℕ} (wp : WellFormed pr p n) (wt : WellFormed tr q m)
    (hp : EndsSeparated (nth pr.knots) p n) (ht : EndsSeparated (nth tr.knots) q m)
    (hwp : ∀ i, i ≤ n → NotTiny (nth pr.cps i).w) (hwt : ∀ j, j ≤ m → NotTiny (nth tr.cps j).w) :
    ∃ S, createTranslationalSweep pr tr = ok S ∧ WellFormedS S p q n m ∧ S.knotsU = pr.knots ∧ S.knotsV = tr.knots ∧
      ∀ u v, nth pr.knots p ≤ u → u ≤ nth pr.knots (n + 1) → nth tr.knots q ≤ v → v ≤ nth tr.knots (m + 1) →
        NotTiny (weightFn (nth pr.knots) p n (nth pr.cps) u) → NotTiny (weightFn (nth tr.knots) q m (nth tr.cps) v) →
        NotTiny (weightFn (nth pr.knots) p n (nth pr.cps) u * weightFn (nth tr.knots) q m (nth tr.cps) v) →
        ∃ a b, NurbsCurve.pointOnCurve pr u = ok a ∧ NurbsCurve.pointOnCurve tr v = ok b ∧ NurbsSurface.pointOnSurface S u v = ok (a + b) := by
  obtain ⟨cps, r, hM, hE⟩ := sweep_run wp.cps wt.cps
  have wS : WellFormedS (⟨pr.degree, tr.degree, pr.knots, tr.knots, cps⟩ : NurbsSurface K) p q n m :=
    { degreeU := wp.degree, degreeV := wt.degree, posU := wp.pos, posV := wt.pos, le7U := wp.le7, le7V := wt.le7, cps := hM, pn := wp.pn,
      qm := wt.pn, knotsU := wp.knots, knotsV := wt.knots, sortedU := wp.sorted, sortedV := wt.sorted }
  refine ⟨_, r, wS, rfl, rfl, ?_⟩
  intro u v u0 u1 v0 v1 hWp hWt hW
  refine ⟨_, _, C05_eval_rational wp hp u0 u1 hWp, C05_eval_rational wt ht v0 v1 hWt, ?_⟩
  have eW : surfaceWeight (nth pr.knots) (nth tr.knots) p q n m (ent cps) u v
      = weightFn (nth pr.knots) p n (nth pr.cps) u * weightFn (nth tr.knots) q m (nth tr.cps) v := by
    unfold surfaceWeight weightFn
    rw [sum_mul_sum]
    refine sum_congr rfl fun i hi => sum_congr rfl fun j hj => ?_
    rw [mem_range] at hi hj
    rw [hE i j (by omega) (by omega)]
    simp only [XYZW.ofXYZ]
    ring
  rw [C33_eval_rational wS ⟨hp, ht⟩ ⟨u0, u1, v0, v1⟩ (by dsimp only; rw [eW]; exact hW)]
  congr 1
  dsimp only
  unfold rationalSurfacePoint rationalPoint
  rw [eW]
  set A := weightFn (nth pr.knots) p n (nth pr.cps) u with hA
  set B := weightFn (nth tr.knots) q m (nth tr.cps) v with hB
  have hAne : A ≠ 0 := NotTiny.ne hWp
  have hBne : B ≠ 0 := NotTiny.ne hWt
  have eA : (∑ i ∈ range (n + 1), N (nth pr.knots) (nth pr.knots (n + 1)) p i u * (nth pr.cps i).w) = A := rfl
  have eB : (∑ i ∈ range (m + 1), N (nth tr.knots) (nth tr.knots (m + 1)) q i v * (nth tr.cps i).w) = B := rfl
  rw [eA, eB]
  set X := ∑ i ∈ range (n + 1), N (nth pr.knots) (nth pr.knots (n + 1)) p i u • (⟨(nth pr.cps i).wx, (nth pr.cps i).wy, (nth pr.cps i).wz⟩ : XYZ K) with hX
  set Y := ∑ i ∈ range (m + 1), N (nth tr.knots) (nth tr.knots (m + 1)) q i v • (⟨(nth tr.cps i).wx, (nth tr.cps i).wy, (nth tr.cps i).wz⟩ : XYZ K) with hY
  have eS : ∑ i ∈ range (n + 1), ∑ j ∈ range (m + 1),
      (N (nth pr.knots) (nth pr.knots (n + 1)) p i u * N (nth tr.knots) (nth tr.knots (m + 1)) q j v) •
        (⟨(ent cps i j).wx, (ent cps i j).wy, (ent cps i j).wz⟩ : XYZ K) = B • X + A • Y := by
    have e1 : B • X = ∑ i ∈ range (n + 1), ∑ j ∈ range (m + 1), (N (nth pr.knots) (nth pr.knots (n + 1)) p i u *
        N (nth tr.knots) (nth tr.knots (m + 1)) q j v * (nth tr.cps j).w) • (nth pr.cps i).raw := by
      rw [hX, smul_sum]
      refine sum_congr rfl fun i _ => ?_
      rw [← sum_smul, ← eB, smul_smul, sum_mul]
      congr 1
      exact sum_congr rfl fun j _ => by ring
    have e2 : A • Y = ∑ i ∈ range (n + 1), ∑ j ∈ range (m + 1), (N (nth pr.knots) (nth pr.knots (n + 1)) p i u *
        N (nth tr.knots) (nth tr.knots (m + 1)) q j v * (nth pr.cps i).w) • (nth tr.cps j).raw := by
      rw [sum_comm, hY, smul_sum]
      refine sum_congr rfl fun j _ => ?_
      rw [← sum_smul, ← eA, smul_smul, sum_mul]
      congr 1
      exact sum_congr rfl fun i _ => by ring
    rw [e1, e2, ← sum_add_distrib]
    refine sum_congr rfl fun i hi => ?_
    rw [← sum_add_distrib]
    refine sum_congr rfl fun j hj => ?_
    rw [mem_range] at hi hj
    have e3 : (⟨(ent cps i j).wx, (ent cps i j).wy, (ent cps i j).wz⟩ : XYZ K) = (ent cps i j).raw := rfl
    rw [e3, hE i j (by omega) (by omega), raw_ofXYZ, ← smul_toXYZ (hwp i (by omega)), ← smul_toXYZ (hwt j (by omega))]
    simp only [smul_smul, smul_add]
    rw [add_comm]
    congr 2 <;> ring
  rw [eS, smul_add, smul_smul, smul_smul]
  congr 2 <;> field_simp

/-- the weight function of a curve is at least the smallest weight -/
theorem weightFn_ge {c : NurbsCurve K} {p n : ℕ} {t x : K} (w : WellFormed c p n) (he : EndsSeparated (nth c.knots) p n)
    (h0 : nth c.knots p ≤ t) (h1 : t ≤ nth c.knots (n + 1)) (hw : ∀ i, i ≤ n → x ≤ (nth c.cps i).w) :
    x ≤ weightFn (nth c.knots) p n (nth c.cps) t := by
  obtain ⟨s, b, hs, hb, hsum, hq⟩ := C07_convex_combination w he h0 h1
  rw [C05_eval w he h0 h1] at hq
  have hq := Res.ok.inj hq
  have e : weightFn (nth c.knots) p n (nth c.cps) t = (curvePoint (nth c.knots) p n (nth c.cps) t).w := by
    unfold curvePoint weightFn; rw [XYZW.sum_w]
  rw [e, hq, XYZW.sum_w]
  have h1 := hs.1
  have h2 := hs.2.1
  calc x = ∑ r ∈ range (p + 1), b r * x := by rw [← Finset.sum_mul, hsum, one_mul]
    _ ≤ _ := Finset.sum_le_sum (fun r hr => by
      have hr' : r ≤ p := by simp only [mem_range] at hr; omega
      exact mul_le_mul_of_nonneg_left (hw _ (by omega)) (hb r hr'))

/-- C101 for curves with weights at least 1/500: the sum formula holds at every parameter pair of the domain. -/
theorem C101_sweep_positive {pr tr : NurbsCurve K} {p q n m : ℕ} (wp : WellFormed pr p n) (wt : WellFormed tr q m)
    (hp : EndsSeparated (nth pr.knots) p n) (ht : EndsSeparated (nth tr.knots) q m)
    (hwp : ∀ i, i ≤ n → 1 / 500 ≤ (nth pr.cps i).w) (hwt : ∀ j, j ≤ m → 1 / 500 ≤ (nth tr.cps j).w) :
    ∃ S, createTranslationalSweep pr tr = ok S ∧ WellFormedS S p q n m ∧ S.knotsU = pr.knots ∧ S.knotsV = tr.knots ∧
      ∀ u v, nth pr.knots p ≤ u → u ≤ nth pr.knots (n + 1) → nth tr.knots q ≤ v → v ≤ nth tr.knots (m + 1) →
        ∃ a b, NurbsCurve.pointOnCurve pr u = ok a ∧ NurbsCurve.pointOnCurve tr v = ok b ∧ NurbsSurface.pointOnSurface S u v = ok (a + b) := by
  have big : ∀ x : K, 1 / 500 ≤ x → NotTiny x := fun x hx => notTiny_of_ge (le_trans (by norm_num) hx)
  obtain ⟨S, r, wS, h1, h2, h3⟩ := C101_sweep wp wt hp ht (fun i hi => big _ (hwp i hi)) (fun j hj => big _ (hwt j hj))
  refine ⟨S, r, wS, h1, h2, fun u v u0 u1 v0 v1 => ?_⟩
  have a := weightFn_ge wp hp u0 u1 hwp
  have b := weightFn_ge wt ht v0 v1 hwt
  refine h3 u v u0 u1 v0 v1 (big _ a) (big _ b) (notTiny_of_ge ?_)
  have : (1 / 500 : K) * (1 / 500) ≤ _ := mul_le_mul a b (by norm_num) (le_trans (by norm_num) a)
  exact le_trans (by norm_num) this

/-- C101: with smaller weights the product weight can fall below the library's zero tolerance and the evaluated surface point is not the
sum: both curves are straight lines from 0 to 1, all weights are 1/2000. -/
theorem C101_small_weights_violated : ∃ (pr tr : NurbsCurve ℚ) (S : NurbsSurface ℚ), WellFormed pr 1 1 ∧ WellFormed tr 1 1 ∧
    EndsSeparated (nth pr.knots) 1 1 ∧ EndsSeparated (nth tr.knots) 1 1 ∧ createTranslationalSweep pr tr = ok S ∧
    NurbsCurve.pointOnCurve pr 1 = ok ⟨1, 0, 0⟩ ∧ NurbsCurve.pointOnCurve tr 1 = ok ⟨0, 1, 0⟩ ∧
    NurbsSurface.pointOnSurface S 1 1 = ok ⟨1 / 4000000, 1 / 4000000, 0⟩ :=
  ⟨{ degree := 1, knots := [0, 0, 1, 1], cps := [⟨0, 0, 0, 1/2000⟩, ⟨1/2000, 0, 0, 1/2000⟩] },
   { degree := 1, knots := [0, 0, 1, 1], cps := [⟨0, 0, 0, 1/2000⟩, ⟨0, 1/2000, 0, 1/2000⟩] },
   { degreeU := 1, degreeV := 1, knotsU := [0, 0, 1, 1], knotsV := [0, 0, 1, 1],
     cps := [[⟨0, 0, 0, 1/4000000⟩, ⟨0, 1/4000000, 0, 1/4000000⟩], [⟨1/4000000, 0, 0, 1/4000000⟩, ⟨1/4000000, 1/4000000, 0, 1/4000000⟩]] },
   { degree := rfl, pos := by decide, le7 := by decide, cps := rfl, pn := by decide, knots := rfl, sorted := isValidKnotVector_nth.mp (by decide +kernel) },
   { degree := rfl, pos := by decide, le7 := by decide, cps := rfl, pn := by decide, knots := rfl, sorted := isValidKnotVector_nth.mp (by decide +kernel) },
   ⟨by decide +kernel, by decide +kernel⟩, ⟨by decide +kernel, by decide +kernel⟩, by decide +kernel, by decide +kernel, by decide +kernel, by decide +kernel⟩

/-- A quadratic rational profile and a linear trajectory. -/
def exProfile : NurbsCurve ℚ := { degree := 2, knots := [0, 0, 0, 1/2, 1, 1, 1], cps := [⟨0, 0, 0, 1⟩, ⟨2, 4, 0, 2⟩, ⟨3, 1, 0, 1⟩, ⟨2, 1, 1, 1/2⟩] }
def exTrajectory : NurbsCurve ℚ := { degree := 1, knots := [0, 0, 1/3, 1, 1], cps := [⟨0, 0, 0, 1⟩, ⟨0, 0, 6, 3⟩, ⟨0, 1, 5, 1⟩] }

/-- The hypotheses of C101 are met by a genuinely rational pair. -/
example : WellFormed exProfile 2 3 ∧ WellFormed exTrajectory 1 2 ∧ EndsSeparated (nth exProfile.knots) 2 3 ∧ EndsSeparated (nth exTrajectory.knots) 1 2 ∧
    (∀ i, i ≤ 3 → 1 / 500 ≤ (nth exProfile.cps i).w) ∧ (∀ j, j ≤ 2 → 1 / 500 ≤ (nth exTrajectory.cps j).w) :=
  ⟨{ degree := rfl, pos := by decide, le7 := by decide, cps := rfl, pn := by decide, knots := rfl, sorted := isValidKnotVector_nth.mp (by decide +kernel) },
   { degree := rfl, pos := by decide, le7 := by decide, cps := rfl, pn := by decide, knots := rfl, sorted := isValidKnotVector_nth.mp (by decide +kernel) },
   ⟨by decide +kernel, by decide +kernel⟩, ⟨by decide +kernel, by decide +kernel⟩, by decide +kernel, by decide +kernel⟩

end LNLib.Props
