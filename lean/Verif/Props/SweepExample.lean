import Verif.Props.SweepFrames
import Verif.Props.LeastSquares
import Verif.Props.SurfaceInterp

/-!
# C133: an example of a sweep
-/
set_option linter.unusedSectionVars false

namespace LNLib.Props
open LNLib Res LNLib.Spec Finset

/-- a parabola in the xz plane, from the direction x to the direction z -/
noncomputable def bendCurve : NurbsCurve ℝ := { degree := 2, knots := [0, 0, 0, 1, 1, 1], cps := [⟨0, 0, 0, 1⟩, ⟨1, 0, 0, 1⟩, ⟨1, 0, 1, 1⟩] }

theorem bendCurve_facts : WellFormed bendCurve 2 2 ∧ EndsSeparated (nth bendCurve.knots) 2 2 ∧ ClampedEnds (nth bendCurve.knots) 2 2 := by
  refine ⟨?_, ?_, ?_⟩
  · refine ⟨rfl, by omega, by omega, rfl, le_rfl, rfl, ?_⟩
    apply isValidKnotVector_nth.mp
    simp [isValidKnotVector, bendCurve]
  · constructor <;> simp [nth, bendCurve] <;> norm_num
  · constructor <;> simp [nth, bendCurve]

theorem bendCurve_run {t : ℝ} (h0 : 0 ≤ t) (h1 : t ≤ 1) : getKnotSpanIndex bendCurve.degree bendCurve.knots t = ok ((2 : ℕ) : ℤ) ∧
    NurbsCurve.pointOnCurve bendCurve t = ok ⟨2 * t - t ^ 2, 0, t ^ 2⟩ ∧ ∃ x, NurbsCurve.rationalDerivatives bendCurve 1 t = ok [x, ⟨2 - 2 * t, 0, 2 * t⟩] := by
  obtain ⟨w, he, hc⟩ := bendCurve_facts
  have hm := wf_monoTo w
  have k1 : nth bendCurve.knots 2 = 0 := rfl
  have k2 : nth bendCurve.knots (2 + 1) = 1 := rfl
  obtain ⟨s, hg, hs⟩ := getKnotSpanIndex_isSpan (t := t) w.knots w.pn w.sorted he (by rw [k1]; exact h0) (by rw [k2]; exact h1)
  have es : s = 2 := by have := hs.1; have := hs.2.1; omega
  subst es
  have hpt : curvePoint (nth bendCurve.knots) 2 2 (nth bendCurve.cps) t = ⟨2 * t - t ^ 2, 0, t ^ 2, 1⟩ := by
    rw [curvePoint_span hm le_rfl hs]
    simp only [Finset.sum_range_succ, Finset.sum_range_zero]
    ext <;> simp [Nspan, bendCurve, nth] <;> ring
  refine ⟨hg, ?_, ?_⟩
  · unfold NurbsCurve.pointOnCurve
    rw [C05_eval w he (by rw [k1]; exact h0) (by rw [k2]; exact h1), ok_bind, hpt, XYZW.toXYZ_eq (by norm_num)]
    simp [XYZW.raw]
  obtain ⟨l, e, hl, e0, hk⟩ := end_derivatives (d := 1) w he (by rw [k1]; exact h0) (by rw [k2]; exact h1) hs hpt one_ne_zero (by omega)
  have d0 : (curveDeriv (nth bendCurve.knots) 2 2 2 (nth bendCurve.cps) 0 t).w = 1 := by
    rw [curveDeriv_window hs.1 hs.2.1]
    simp only [dN_zero]
    rw [← curvePoint_span hm le_rfl hs, hpt]
  have d1 : curveDeriv (nth bendCurve.knots) 2 2 2 (nth bendCurve.cps) 1 t = ⟨2 - 2 * t, 0, 2 * t, 0⟩ := by
    unfold curveDeriv
    simp only [Finset.sum_range_succ, Finset.sum_range_zero]
    rw [dN_succ hm 2 1 0 0 (by omega), dN_succ hm 2 1 1 0 (by omega), dN_succ hm 2 1 2 0 (by omega)]
    simp only [dN_zero]
    ext <;> simp [Nspan, bendCurve, nth] <;> first | ring1 | (ring_nf; simp)
  have q1 := hk 1 le_rfl
  simp only [Finset.sum_range_succ, Finset.sum_range_zero, d0, d1] at q1
  have e1 : nth l 1 = ⟨2 - 2 * t, 0, 2 * t⟩ := by
    ext
    · have := congrArg XYZ.x q1; simp [XYZW.raw] at this; simp [this]
    · have := congrArg XYZ.y q1; simp [XYZW.raw] at this; simp [this]
    · have := congrArg XYZ.z q1; simp [XYZW.raw] at this; simp [this]
  refine ⟨nth l 0, ?_⟩
  rw [← e1]
  have e' : NurbsCurve.rationalDerivatives bendCurve 1 t = ok l := e
  rw [e']
  congr 1
  apply ext_nth (by rw [hl]; rfl)
  intro j hj
  rw [hl] at hj
  interval_cases j <;> rfl

theorem bendCurve_tangents : HasTangents bendCurve fun i => if i < 3 then ⟨2, 0, 0⟩ else ⟨0, 0, 2⟩ := by
  have a0 := (bendCurve_run le_rfl zero_le_one).2.2
  have a1 := (bendCurve_run zero_le_one le_rfl).2.2
  norm_num at a0 a1
  intro i hi
  have hi' : i < 6 := hi
  interval_cases i
  · exact a0
  · exact a0
  · exact a0
  · exact a1
  · exact a1
  · exact a1

theorem bendCurve_open : isClosedCurve bendCurve = ok false := by
  obtain ⟨w, he, hc⟩ := bendCurve_facts
  obtain ⟨-, -, b, hb, hb'⟩ := isClosed_run w he hc
  cases b with
  | false => exact hb
  | true =>
    exfalso
    have hP0 : (nth bendCurve.cps 0).toXYZ = ⟨0, 0, 0⟩ := by simp [bendCurve, nth, XYZW.toXYZ, XYZW.raw]
    have hP2 : (nth bendCurve.cps 2).toXYZ = ⟨1, 0, 1⟩ := by simp [bendCurve, nth, XYZW.toXYZ, XYZW.raw]
    have hP1 : (nth bendCurve.cps 1).toXYZ = ⟨1, 0, 0⟩ := by simp [bendCurve, nth, XYZW.toXYZ, XYZW.raw]
    rcases hb'.mp rfl with h | ⟨k, k1, k2, k3⟩
    · rw [hP0, hP2] at h
      have h2 : (1 : ℝ) ≤ XYZ.distance ⟨0, 0, 0⟩ ⟨1, 0, 1⟩ := by
        unfold XYZ.distance
        exact Real.one_le_sqrt.mpr (by norm_num)
      linarith
    · have h0 := k3 0 (by omega)
      have hk : k = 0 ∨ k = 1 := by omega
      rcases hk with rfl | rfl
      · rw [show 2 - 0 + 0 = 2 from rfl, hP0, hP2] at h0
        simp [Near] at h0
        norm_num at h0
      · rw [show 2 - 1 + 0 = 1 from rfl, hP0, hP1] at h0
        simp [Near] at h0
        norm_num at h0

/-- the random vector for the angle with sine 3/5 -/
theorem bend_random : createRandomOrthogonal (XYZ.normalize ⟨2, 0, 0⟩) (Real.arcsin (3 / 5)) = ⟨0, -(4 / 5), 3 / 5⟩ := by
  have hs : Real.sin (Real.arcsin (3 / 5)) = 3 / 5 := Real.sin_arcsin (by norm_num) (by norm_num)
  have hc : Real.cos (Real.arcsin (3 / 5)) = 4 / 5 := by
    rw [Real.cos_arcsin, show (1 : ℝ) - (3 / 5) ^ 2 = (4 / 5) ^ 2 by norm_num, Real.sqrt_sq (by norm_num)]
  have hn : ∀ v k : ℝ, 0 < v → (XYZ.normalize ⟨v, 0, 0⟩ : XYZ ℝ) = ⟨1, 0, 0⟩ := by
    intro v k hv
    have hl : XYZ.length (⟨v, 0, 0⟩ : XYZ ℝ) = v := by
      simp [XYZ.length]
      exact Real.sqrt_mul_self hv.le
    rw [normalize_eq (by intro h; have := congrArg XYZ.x h; simp at this; linarith), hl]
    ext <;> simp [hv.ne']
  unfold createRandomOrthogonal
  dsimp only
  rw [hs, hc, hn 2 0 (by norm_num), hn 1 0 (by norm_num)]
  have e : ((3 : ℝ) / 5) • XYZ.cross ⟨1, 0, 0⟩ ⟨-0, 1, 0⟩ + (4 / 5 : ℝ) • XYZ.cross ⟨1, 0, 0⟩ (XYZ.cross ⟨1, 0, 0⟩ ⟨-0, 1, 0⟩) = (⟨0, -(4 / 5), 3 / 5⟩ : XYZ ℝ) := by
    ext <;> simp [XYZ.cross]
  rw [e]
  have hl : XYZ.length (⟨0, -(4 / 5), 3 / 5⟩ : XYZ ℝ) = 1 := by
    simp [XYZ.length]; norm_num
  rw [normalize_eq (by intro h; have := congrArg XYZ.z h; norm_num at this), hl, inv_one, one_smul]

theorem bend_normals : ∃ B, projectNormal 1 (fun _ => Real.arcsin (3 / 5)) bendCurve = ok B ∧ B.length = 6 ∧ nth B 2 = ⟨0, -(4 / 5), 3 / 5⟩ := by
  have hD := bendCurve_tangents
  have hz : XYZ.normalize (⟨0, 0, 2⟩ : XYZ ℝ) = ⟨0, 0, 1⟩ := by
    have hl : XYZ.length (⟨0, 0, 2⟩ : XYZ ℝ) = 2 := by
      simp [XYZ.length]
    rw [normalize_eq (by intro h; have := congrArg XYZ.z h; simp at this), hl]
    ext <;> simp
  have hx : XYZ.normalize (⟨2, 0, 0⟩ : XYZ ℝ) = ⟨1, 0, 0⟩ := by
    have hl : XYZ.length (⟨2, 0, 0⟩ : XYZ ℝ) = 2 := by
      simp [XYZ.length]
    rw [normalize_eq (by intro h; have := congrArg XYZ.x h; simp at this), hl]
    ext <;> simp
  rw [project_start hD (m := 5) rfl, if_pos (by omega)]
  rw [whileF.eq_2, ok_bind, if_pos rfl]
  unfold projectTry
  rw [vset_of (i := 0) (k := 0) rfl (by simp), ok_bind]
  dsimp only
  rw [bend_random]
  set b : XYZ ℝ := ⟨0, -(4 / 5), 3 / 5⟩ with hb
  have hbl : b.length = 1 := by simp [hb, XYZ.length]; norm_num
  have hbn : b.normalize = b := by rw [normalize_eq (by intro h; have := congrArg XYZ.z h; norm_num [hb] at this), hbl, inv_one, one_smul]
  have hloop : ∃ r : List (XYZ ℝ), forI 1 (((5 : ℕ) : ℤ) + 1) ((List.replicate (5 + 1) (0 : XYZ ℝ)).set 0 b, false) (projectStep bendCurve) = ok (r, false) ∧ r.length = 6 ∧ nth r 2 = b := by
    have h1 := fun (i : ℕ) (l : List (XYZ ℝ)) (a : 1 ≤ i) (b : i ≤ 5) (c : l.length = 6) => projectStep_run hD (m := 5) (fl := false) rfl b a c
    refine ⟨[b, b, b, ⟨0, -1, 0⟩, ⟨0, -1, 0⟩, ⟨0, -1, 0⟩], ?_, rfl, rfl⟩
    have c1 : (XYZ.cross ⟨1, 0, 0⟩ b).isZero = false := by simp [XYZ.isZero, XYZ.cross, hb, XYZ.sqrLength, doubleEps]; norm_num
    have c2 : (XYZ.cross ⟨0, 0, 1⟩ b).isZero = false := by simp [XYZ.isZero, XYZ.cross, hb, XYZ.sqrLength, doubleEps]; norm_num
    have c3 : (XYZ.cross ⟨0, 0, 1⟩ (⟨0, -1, 0⟩ : XYZ ℝ)).isZero = false := by simp [XYZ.isZero, XYZ.cross, XYZ.sqrLength, doubleEps]; norm_num
    have p1 : (b - (b.dot ⟨1, 0, 0⟩) • (⟨1, 0, 0⟩ : XYZ ℝ)).normalize = b := by
      rw [show b - (b.dot ⟨1, 0, 0⟩) • (⟨1, 0, 0⟩ : XYZ ℝ) = b by ext <;> simp [XYZ.dot, hb], hbn]
    have hy : ∀ k : ℝ, 0 < k → XYZ.normalize (⟨0, -k, 0⟩ : XYZ ℝ) = ⟨0, -1, 0⟩ := by
      intro k hk
      have hl : XYZ.length (⟨0, -k, 0⟩ : XYZ ℝ) = k := by
        simp [XYZ.length]; exact Real.sqrt_mul_self hk.le
      rw [normalize_eq (by intro h; have := congrArg XYZ.y h; simp at this; linarith), hl]
      ext <;> simp [hk.ne']
    have p2 : (b - (b.dot ⟨0, 0, 1⟩) • (⟨0, 0, 1⟩ : XYZ ℝ)).normalize = ⟨0, -1, 0⟩ := by
      rw [show b - (b.dot ⟨0, 0, 1⟩) • (⟨0, 0, 1⟩ : XYZ ℝ) = ⟨0, -(4 / 5), 0⟩ by ext <;> simp [XYZ.dot, hb], hy _ (by norm_num)]
    have p3 : ((⟨0, -1, 0⟩ : XYZ ℝ) - ((⟨0, -1, 0⟩ : XYZ ℝ).dot ⟨0, 0, 1⟩) • (⟨0, 0, 1⟩ : XYZ ℝ)).normalize = ⟨0, -1, 0⟩ := by
      rw [show (⟨0, -1, 0⟩ : XYZ ℝ) - ((⟨0, -1, 0⟩ : XYZ ℝ).dot ⟨0, 0, 1⟩) • (⟨0, 0, 1⟩ : XYZ ℝ) = ⟨0, -1, 0⟩ by ext <;> simp [XYZ.dot], hy _ (by norm_num)]
    have s1 := h1 1 [b, 0, 0, 0, 0, 0] (by omega) (by omega) rfl
    have s2 := h1 2 [b, b, 0, 0, 0, 0] (by omega) (by omega) rfl
    have s3 := h1 3 [b, b, b, 0, 0, 0] (by omega) (by omega) rfl
    have s4 := h1 4 [b, b, b, ⟨0, -1, 0⟩, 0, 0] (by omega) (by omega) rfl
    have s5 := h1 5 [b, b, b, ⟨0, -1, 0⟩, ⟨0, -1, 0⟩, 0] (by omega) (by omega) rfl
    simp [hx, hz, nth, c1, c2, c3, p1, p2, p3] at s1 s2 s3 s4 s5
    show forI 1 6 ([b, 0, 0, 0, 0, 0], false) (projectStep bendCurve) = _
    rw [forI_head (by omega), s1, ok_bind, forI_head (by omega), show (1 : ℤ) + 1 = 2 from rfl, s2, ok_bind, forI_head (by omega), show (2 : ℤ) + 1 = 3 from rfl, s3, ok_bind,
      forI_head (by omega), show (3 : ℤ) + 1 = 4 from rfl, s4, ok_bind, forI_head (by omega), show (4 : ℤ) + 1 = 5 from rfl, s5, ok_bind, forI_empty (by omega)]
  obtain ⟨r, e, hl, hr⟩ := hloop
  refine ⟨r, ?_, hl, hr⟩
  rw [e, ok_bind, ok_bind]
  simp [whileF, bendCurve_open]

/-- the unit segment on the x axis -/
noncomputable def unitSegment : NurbsCurve ℝ := { degree := 1, knots := [0, 0, 1, 1], cps := [⟨0, 0, 0, 1⟩, ⟨1, 0, 0, 1⟩] }

theorem unitSegment_facts : WellFormed unitSegment 1 1 ∧ EndsSeparated (nth unitSegment.knots) 1 1 ∧ (∀ a ∈ unitSegment.cps, 1 / 500000 ≤ a.w) ∧ ∀ a ∈ unitSegment.cps, a.wz = 0 := by
  refine ⟨?_, ?_, ?_, ?_⟩
  · refine ⟨rfl, by omega, by omega, rfl, le_rfl, rfl, ?_⟩
    apply isValidKnotVector_nth.mp
    simp [isValidKnotVector, unitSegment]
  · constructor <;> simp [nth, unitSegment] <;> norm_num
  · simp [unitSegment]; norm_num
  · simp [unitSegment]

open Classical in
/-- a solver for the identity matrix of size 3 -/
noncomputable def exIdSolve3 (A B : List (List ℝ)) : Res (List (List ℝ)) := if A = [[1, 0, 0], [0, 1, 0], [0, 0, 1]] then ok B else invalidArg

theorem exIdSolve3_sound : SoundSolver exIdSolve3 := by
  intro s d A B X hA hB h
  unfold exIdSolve3 at h
  split at h
  · rename_i hA'
    have := Res.ok.inj h
    subst this hA'
    have hs : s = 3 := hA.1.symm
    subst hs
    refine ⟨hB, fun i j hi hj => ?_⟩
    interval_cases i <;> simp [sum_range_succ, ent, row, nth]
  · simp at h

/-- three sections of degree 1 at equal distances -/
theorem loft_three {a b : ℕ → XYZ ℝ} {D : ℝ} (hD : D ≠ 0) (ha : ∀ k < 2, (a (k + 1)).distance (a k) = D) (hb : ∀ k < 2, (b (k + 1)).distance (b k) = D) :
    ∃ cps, createLoft exIdSolve3 ((List.range 3).map fun k => ({ degree := 1, knots := [0, 0, 1, 1], cps := [⟨(a k).x, (a k).y, (a k).z, 1⟩, ⟨(b k).x, (b k).y, (b k).z, 1⟩] } : NurbsCurve ℝ)) 0 [] =
      ok ⟨1, 1, [0, 0, 1, 1], [0, 0, 1 / 2, 1, 1], cps⟩ := by
  set c : ℕ → NurbsCurve ℝ := fun k => { degree := 1, knots := [0, 0, 1, 1], cps := [⟨(a k).x, (a k).y, (a k).z, 1⟩, ⟨(b k).x, (b k).y, (b k).z, 1⟩] } with hc
  have hM := nets_isMat (m := 2) (n := 1) (c := c) fun _ _ => rfl
  have hp : loftParams (((List.range 3).map c).map fun c => c.cps) = ok [0, 1 / 2, 1] := by
    have hstep : ∀ i ≤ 1, ∀ j < 2, netStep (((List.range 3).map c).map fun c => c.cps) i j = D := by
      intro i hi j hj
      unfold netStep
      rw [nets_ent (m := 2) (by omega), nets_ent (m := 2) (by omega)]
      interval_cases i
      · rw [← ha j hj]
        simp [hc, nth, XYZW.toXYZ, XYZW.raw]
      · rw [← hb j hj]
        simp [hc, nth, XYZW.toXYZ, XYZW.raw]
    have hs : ∀ i ≤ 1, ∀ k ≤ 2, ∑ j ∈ range k, netStep (((List.range 3).map c).map fun c => c.cps) i j = k * D := by
      intro i hi k hk
      rw [sum_congr rfl fun j hj => hstep i hi j (by have := mem_range.mp hj; omega), sum_const, card_range, nsmul_eq_mul]
    obtain ⟨vl, e, hl, hv⟩ := loftParams_run hM (by omega) (fun i hi => by rw [hs i hi 2 le_rfl]; simpa using hD)
    rw [e]
    congr 1
    apply ext_nth hl
    intro k hk
    rw [hv k (by omega)]
    have : ∑ i ∈ range (1 + 1), (∑ j ∈ range k, netStep (((List.range 3).map c).map fun c => c.cps) i j) / ∑ j ∈ range 2, netStep (((List.range 3).map c).map fun c => c.cps) i j = ∑ i ∈ range 2, (k : ℝ) / 2 := by
      refine sum_congr rfl fun i hi => ?_
      have := mem_range.mp hi
      rw [hs i (by omega) k (by omega), hs i (by omega) 2 le_rfl]
      push_cast
      field_simp
    rw [this]
    have hk : k < 3 := by omega
    interval_cases k <;> simp [nth] <;> norm_num
  have hr : loftRaise (loftDegree ((List.range 3).map c)) ((List.range 3).map c) = ok ((List.range 3).map c) := rfl
  have hd : loftDegree ((List.range 3).map c) = 1 := rfl
  obtain ⟨kv, hkv, k1, k2, k3, k4, k5⟩ := C46_average_partial (params := ([0, 1 / 2, 1] : List ℝ)) (p := 1) (n := 2) (by omega) (by omega) rfl rfl rfl (by
    intro i j h1 h2
    interval_cases j <;> interval_cases i <;> simp [nth] <;> norm_num)
  have ekv : kv = [0, 0, 1 / 2, 1, 1] := by
    apply ext_nth k1
    intro k hk
    rw [k1] at hk
    have a0 := k2 0 (by omega)
    have a1 := k2 1 (by omega)
    have a2 := k4 1 (by omega) (by omega)
    have a3 := k3 3 (by omega) (by omega)
    have a4 := k3 4 (by omega) (by omega)
    interval_cases k
    · rw [a0]; rfl
    · rw [a1]; rfl
    · rw [show 2 = 1 + 1 from rfl, a2]; simp [nth]
    · rw [a3]; rfl
    · rw [a4]; rfl
  have he : EndsSeparated (nth kv) 1 2 := by
    rw [ekv]
    constructor <;> simp [nth] <;> norm_num
  obtain ⟨A, hA, hAm, hAe⟩ := interpolationMatrix_run (params := ([0, 1 / 2, 1] : List ℝ)) (p := 1) (n := 2) (by omega) (by omega) (by omega) rfl k1 k2 k3 k5 he rfl rfl (by
    intro i j h1 h2
    interval_cases j <;> interval_cases i <;> simp [nth] <;> norm_num)
  have eA : A = [[1, 0, 0], [0, 1, 0], [0, 0, 1]] := by
    refine mat_ext hAm ⟨rfl, ?_⟩ fun i hi j hj => ?_
    · intro i hi
      interval_cases i <;> rfl
    · rw [hAe i j (by omega) (by omega), ekv]
      interval_cases i <;> interval_cases j <;> simp [N, nth, ent, row] <;> norm_num
  have hkv' : averageKnotVector 1 ([0, 1 / 2, 1] : List ℝ) = ok [0, 0, 1 / 2, 1, 1] := by rw [← ekv]; exact hkv
  have hA' : interpolationMatrix 1 3 ([0, 0, 1 / 2, 1, 1] : List ℝ) [0, 1 / 2, 1] = ok [[1, 0, 0], [0, 1, 0], [0, 0, 1]] := by rw [← ekv, ← eA]; exact hA
  have hg : ∀ a b d : XYZ ℝ, globalInterpolation exIdSolve3 1 [a, b, d] [0, 1 / 2, 1] = ok ⟨1, [0, 0, 1 / 2, 1, 1], [⟨a.x * 1, a.y * 1, a.z * 1, 1⟩, ⟨b.x * 1, b.y * 1, b.z * 1, 1⟩, ⟨d.x * 1, d.y * 1, d.z * 1, 1⟩]⟩ := by
    intro a b d
    unfold globalInterpolation
    rw [validate_of (by decide), ok_bind, validate_of (by simp), ok_bind, validate_of (by simp), ok_bind]
    dsimp only [List.length_cons, List.length_nil]
    rw [hkv', ok_bind, hA', ok_bind]
    unfold exIdSolve3
    rw [if_pos rfl]
    rfl
  have hcol : ∀ i : ℕ, ∃ r, i < 2 → loftColumn exIdSolve3 1 (((List.range 3).map c).map fun c => c.cps) [0, 1 / 2, 1] i = ok r := by
    intro i
    by_cases hi : i < 2
    swap
    · exact ⟨[], fun h => absurd h hi⟩
    unfold loftColumn
    dsimp only
    have hw1 : ∀ k, k ≤ 2 → (ent (((List.range 3).map c).map fun c : NurbsCurve ℝ => c.cps) k i).w = 1 := by
      intro k hk
      rw [nets_ent (m := 2) hk]
      interval_cases i <;> simp [hc, nth]
    obtain ⟨⟨wc, tm⟩, e, l1, l2, l3⟩ := loftGather_run (c := i) hM (by omega) fun k hk => by rw [hw1 k hk]; exact one_ne_zero
    dsimp only at l1 l2 l3
    rw [e]
    match tm, l2 with
    | [t0, t1, t2], _ =>
      rw [ok_bind]
      dsimp only
      rw [hg, ok_bind]
      have hfin : Runs (forI 0 (3 : ℤ) [(⟨t0.x * 1, t0.y * 1, t0.z * 1, 1⟩ : XYZW ℝ), ⟨t1.x * 1, t1.y * 1, t1.z * 1, 1⟩, ⟨t2.x * 1, t2.y * 1, t2.z * 1, 1⟩] fun i cps => do
          let cp ← vget cps i
          let x ← fdiv cp.wx cp.w
          let y ← fdiv cp.wy cp.w
          let z ← fdiv cp.wz cp.w
          let w ← vget wc i
          vset cps i (XYZW.ofXYZ ⟨x, y, z⟩ w)) (fun _ => True) := by
        refine (Runs.forN (m := 0) (n := 3) (fun r (l : List (XYZW ℝ)) => l.length = 3 ∧ ∀ j, r ≤ j → j < 3 → (nth l j).w = 1) rfl rfl (by omega) ⟨rfl, ?_⟩ ?_).mono fun _ _ => trivial
        · intro j _ hj
          interval_cases j <;> rfl
        · rintro r l - hr ⟨h1, h2⟩
          rw [vget_nth (k := r) rfl (by omega), ok_bind, h2 r le_rfl hr]
          simp only [fdiv_ok (one_ne_zero (α := ℝ)), ok_bind]
          rw [vget_nth (k := r) rfl (by omega), ok_bind, vset_of (k := r) rfl (by omega)]
          refine Runs.ok ⟨by simp [h1], fun j hj hj3 => ?_⟩
          rw [nth_set (by omega), if_neg (by omega)]
          exact h2 j (by omega) hj3
      obtain ⟨r, hr, -⟩ := hfin
      exact ⟨r, fun _ => hr⟩
  choose f hf using hcol
  refine ⟨[f 0, f 1], ?_⟩
  unfold createLoft
  rw [if_pos List.length_nil, hr, ok_bind, hp, ok_bind, hd]
  unfold loftSurface
  dsimp only
  rw [hkv', ok_bind, vget_of (i := 0) (k := 0) (x := c 0) rfl rfl, ok_bind,
    forI_append (rd := loftColumn exIdSolve3 1 (((List.range 3).map c).map fun c => c.cps) [0, 1 / 2, 1]) (m := 2) (f := f) (n := ((c 0).cps.length : ℤ)) rfl hf, ok_bind]
  simp [hc, List.range_succ]

/-- the sweep of the unit segment along the bend -/
theorem bend_sweep : ∃ S, createSweep exIdSolve3 1 (fun _ => Real.arcsin (3 / 5)) unitSegment bendCurve 2 = ok S ∧ S.knotsV = [0, 0, 1 / 2, 1, 1] := by
  obtain ⟨w, he, hc⟩ := bendCurve_facts
  obtain ⟨-, -, hpos, -⟩ := unitSegment_facts
  obtain ⟨B, hB, hBl, hB2⟩ := bend_normals
  obtain ⟨vk, hvk, hvl, hv⟩ := sweepParams_run (by omega) (by omega) w.knots w.sorted hc
  have hvk' : ∀ k ≤ 2, nth vk k = (k : ℝ) / 2 := by
    intro k hk
    rw [hv k hk]
    interval_cases k <;> simp [greville, sum_range_succ, bendCurve, nth]
  set b : XYZ ℝ := ⟨0, -(4 / 5), 3 / 5⟩ with hb
  set a : ℕ → XYZ ℝ := fun k => ⟨2 * ((k : ℝ) / 2) - ((k : ℝ) / 2) ^ 2, 0, ((k : ℝ) / 2) ^ 2⟩ with ha
  have hsec : ∀ k ≤ 2, sweepSection unitSegment bendCurve B (nth vk k) = ok ({ degree := 1, knots := [0, 0, 1, 1], cps := [⟨(a k).x, (a k).y, (a k).z, 1⟩, ⟨(a k + b).x, (a k + b).y, (a k + b).z, 1⟩] } : NurbsCurve ℝ) := by
    intro k hk
    have hk2 : (k : ℝ) ≤ 2 := by exact_mod_cast hk
    obtain ⟨r1, r2, x, r3⟩ := bendCurve_run (t := (k : ℝ) / 2) (by positivity) (by linarith)
    rw [hvk' k hk, sweepSection_run hpos r3 (by simp) r1 (by omega) r2, hB2]
    congr 1
    simp [unitSegment, liftW, sectionFrame, Matrix4d.ofBasis, ha]
    ring_nf
    simp
  have hsecs : sweepSections unitSegment bendCurve B 3 vk = ok ((List.range 3).map fun k => ({ degree := 1, knots := [0, 0, 1, 1], cps := [⟨(a k).x, (a k).y, (a k).z, 1⟩, ⟨(a k + b).x, (a k + b).y, (a k + b).z, 1⟩] } : NurbsCurve ℝ)) := by
    unfold sweepSections
    rw [forI_head (by omega), vget_nth (i := 0) (k := 0) rfl (by omega), ok_bind, hsec 0 (by omega), ok_bind, ok_bind,
      forI_head (by omega), vget_nth (i := 0 + 1) (k := 1) rfl (by omega), ok_bind, hsec 1 (by omega), ok_bind, ok_bind,
      forI_head (by omega), vget_nth (i := 0 + 1 + 1) (k := 2) rfl (by omega), ok_bind, hsec 2 (by omega), ok_bind, ok_bind, forI_empty (by omega)]
    rfl
  have hdist : ∀ k < 2, (a (k + 1)).distance (a k) = Real.sqrt (5 / 8) := by
    intro k hk
    unfold XYZ.distance
    congr 1
    interval_cases k <;> simp [ha] <;> norm_num
  obtain ⟨cps, h⟩ := loft_three (a := a) (b := fun k => a k + b) (D := Real.sqrt (5 / 8)) (by rw [Real.sqrt_ne_zero']; norm_num) hdist (by
    intro k hk
    rw [← hdist k hk]
    unfold XYZ.distance
    congr 1
    simp)
  refine ⟨⟨1, 1, [0, 0, 1, 1], [0, 0, 1 / 2, 1, 1], cps⟩, ?_, rfl⟩
  · unfold createSweep
    rw [sweepTrajectory_kept w (by norm_num), ok_bind]
    dsimp only
    rw [show bendCurve.degree = ((2 : ℕ) : ℤ) from rfl, hvk, ok_bind, hB, ok_bind]
    rw [show (((2 : ℕ) : ℤ) + 1) = 3 from rfl, hsecs, ok_bind]
    exact h

/-- C133, concretely: the sweep of the unit segment along a parabola that starts in the direction x and ends in the direction z. The last
section is the segment from the end `(1, 0, 1)` to `(1, -4/5, 8/5)`, which is not normal to the direction z. -/
theorem C133_concrete : ∃ S, createSweep exIdSolve3 1 (fun _ => Real.arcsin (3 / 5)) unitSegment bendCurve 2 = ok S ∧
    ∃ X o, NurbsSurface.pointOnSurface S 1 1 = ok X ∧ NurbsCurve.pointOnCurve bendCurve 1 = ok o ∧ (X - o).dot ⟨0, 0, 2⟩ ≠ 0 := by
  obtain ⟨S, hS, hV⟩ := bend_sweep
  obtain ⟨w, he, hc⟩ := bendCurve_facts
  obtain ⟨wP, heP, hpos, hflat⟩ := unitSegment_facts
  refine ⟨S, hS, ?_⟩
  have ha : NurbsCurve.pointOnCurve unitSegment 1 = ok ⟨1, 0, 0⟩ := by
    rw [unit_weight_point wP heP (by simp [unitSegment, nth]) (by simp [unitSegment, nth]) (by intro i hi; interval_cases i <;> rfl)]
    congr 1
    ext <;> simp [unitSegment, sum_range_succ, N, nth, XYZW.raw]
  exact C133_normal_plane_violated (k₀ := 2) exIdSolve3_sound wP heP hpos hflat w he hc (by norm_num) (by omega) (by omega) bendCurve_tangents
    (by intro r; rw [if_pos (by omega), bend_random]; simp [XYZ.dot])
    (by intro r h; rw [if_neg (by omega), if_pos (by omega), bend_random] at h; have := congrArg XYZ.x h; simp [XYZ.cross] at this)
    hS (by rw [hV]; constructor <;> simp [nth] <;> norm_num) (u := 1) (by simp [unitSegment, nth]) (by simp [unitSegment, nth]) ha (by simp)

end LNLib.Props
