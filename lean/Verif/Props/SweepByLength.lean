import Verif.Model.SweepByLength
import Verif.Props.SweepSections
import Verif.Props.LengthParam
import Verif.Props.KnotsByBound
import Verif.Props.SweepExample

/-!
# C158: sweep along a trajectory at equal lengths
-/

namespace LNLib.Props
open LNLib Res Spec Finset

/-- The parameters of the sections: zero, the parameters found, and zeros for those that were not found. -/
theorem lengthSegments_of_ok {K : ℤ} {params segs : List ℝ} (h : lengthSegments (K + 1) params = ok segs) :
    0 ≤ K ∧ (params.length : ℤ) ≤ K ∧ segs = 0 :: (params ++ List.replicate (K.toNat - params.length) 0) := by
  unfold lengthSegments at h
  obtain ⟨s0, h0, h⟩ := bind_eq_ok.mp h
  obtain ⟨-, hlt, rfl⟩ := vset_eq_ok_iff.mp h0
  rw [List.length_replicate] at hlt
  have hK : 0 ≤ K := by simp at hlt; omega
  obtain ⟨k, rfl⟩ : ∃ k : ℕ, K = k := ⟨K.toNat, by omega⟩
  have hn : ((k : ℤ) + 1).toNat = k + 1 := by omega
  rw [hn] at h
  have e0 : (List.replicate (k + 1) (0 : ℝ)).set (0 : ℤ).toNat 0 = 0 :: List.replicate k 0 := by simp [List.replicate_succ]
  rw [e0] at h
  have key := forI_ok_post (fun i (s : List ℝ) => i.toNat ≤ k ∧ s = 0 :: (params.take i.toNat ++ List.replicate (k - i.toNat) 0)) params.length 0 _ segs (by omega)
    (by
      rintro i s s' hi hb ⟨h1, rfl⟩ hs
      obtain ⟨x, hx, hs⟩ := bind_eq_ok.mp hs
      obtain ⟨-, hx⟩ := vget_eq_ok_iff.mp hx
      obtain ⟨-, hlen, rfl⟩ := vset_eq_ok_iff.mp hs
      obtain ⟨j, rfl⟩ : ∃ j : ℕ, i = j := ⟨i.toNat, by omega⟩
      have e1 : ((j : ℤ) + 1).toNat = j + 1 := by omega
      rw [Int.toNat_natCast] at h1 hx hlen ⊢
      rw [e1] at hlen ⊢
      have hj : j < params.length := by omega
      simp only [List.length_cons, List.length_append, List.length_take, List.length_replicate] at hlen
      have hjk : j < k := by omega
      refine ⟨by omega, ?_⟩
      rw [List.set_cons_succ, List.set_append_right _ _ (by simp)]
      have e2 : k - j = (k - (j + 1)) + 1 := by omega
      have e3 : j - (params.take j).length = 0 := by simp; omega
      rw [e3, e2, List.replicate_succ, List.set_cons_zero, List.take_add_one, hx]
      simp) ⟨by simp, by simp⟩ h
  rw [max_eq_right (by omega), Int.toNat_natCast, List.take_length] at key
  exact ⟨by omega, by exact_mod_cast key.1, key.2⟩

theorem division_far {fuel : ℕ} {len : NurbsCurve ℝ → Res ℝ} {c : NurbsCurve ℝ} {given e q : ℝ} {ps : List ℝ} (h : Division fuel len c given e q ps) :
    ∀ t ∈ ps, ¬ |t - e| ≤ 1 / 1000000 * (1 + max |t| |e|) := by
  induction h with
  | done _ => simp
  | step h _ _ _ ih =>
    intro t ht
    rcases List.mem_cons.mp ht with rfl | ht
    · exact h
    · exact ih t ht

/-- C158 (part): whenever the sweep returns a surface, it is the loft through the profile placed at the start of the trajectory, at the parameters that `GetParamsOnCurve` finds for the step
length, and at the start again for every section for which no parameter was found. -/
theorem C158_sections_partial {solve : List (List ℝ) → List (List ℝ) → Res (List (List ℝ))} {len : NurbsCurve ℝ → Res ℝ} {fuel rounds fuelN : ℕ} {angle : ℕ → ℝ}
    {profile trajectory : NurbsCurve ℝ} {K d : ℤ} {S : NurbsSurface ℝ} (h : createSweepByLength solve len fuel rounds fuelN angle profile trajectory K d = ok S) :
    ∃ (total : ℝ) (path : NurbsCurve ℝ) (params segs : List ℝ) (B : List (XYZ ℝ)) (c : ℕ → NurbsCurve ℝ), 1 ≤ K ∧ len trajectory = ok total ∧
      reparametrizeLinear trajectory 0 1 = ok path ∧ getParamsAtLength fuel rounds len path (total / K) = ok params ∧ (params.length : ℤ) ≤ K ∧
      segs = 0 :: (params ++ List.replicate (K.toNat - params.length) 0) ∧ projectNormal fuelN angle path = ok B ∧
      (∀ k : ℕ, (k : ℤ) ≤ K → sweepSection profile path B (nth segs k) = ok (c k)) ∧ createLoft solve ((List.range (K.toNat + 1)).map c) d segs = ok S := by
  unfold createSweepByLength at h
  obtain ⟨total, h1, h⟩ := bind_eq_ok.mp h
  obtain ⟨step, h2, h⟩ := bind_eq_ok.mp h
  obtain ⟨path, h3, h⟩ := bind_eq_ok.mp h
  obtain ⟨params, h4, h⟩ := bind_eq_ok.mp h
  obtain ⟨segs, h5, h⟩ := bind_eq_ok.mp h
  obtain ⟨B, h6, h⟩ := bind_eq_ok.mp h
  obtain ⟨secs, h7, hS⟩ := bind_eq_ok.mp h
  obtain ⟨a1, a2, a3⟩ := lengthSegments_of_ok h5
  have hz : ((K + 1 - 1 : ℤ) : ℝ) ≠ 0 := by
    intro hz
    rw [hz] at h2
    unfold fdiv at h2
    rw [if_pos rfl] at h2
    cases h2
  have hK : K ≠ 0 := by
    rintro rfl
    exact hz (by norm_num)
  rw [fdiv_ok hz] at h2
  have e : ((K + 1 - 1 : ℤ) : ℝ) = (K : ℝ) := by push_cast; ring
  rw [e] at h2
  cases h2
  obtain ⟨m, rfl⟩ : ∃ m : ℕ, K = m := ⟨K.toNat, by omega⟩
  rw [Int.toNat_natCast] at a3 ⊢
  have hl : segs.length = m + 1 := by rw [a3]; simp; omega
  obtain ⟨c, c1, c2⟩ := sweepSections_of_ok hl h7
  rw [c1] at hS
  exact ⟨total, path, params, segs, B, c, by omega, h1, h3, h4, a2, a3, h6, fun k hk => c2 k (by omega), hS⟩

/-- C158 (violated): the profile is never placed at the end of the trajectory: whenever the sweep returns a surface, it is a loft through `K + 1` placed profiles, none of which stands at the end
of the trajectory, not even up to the tolerance of the comparison. -/
theorem C158_end_violated {solve : List (List ℝ) → List (List ℝ) → Res (List (List ℝ))} {len : NurbsCurve ℝ → Res ℝ} {fuel rounds fuelN : ℕ} {angle : ℕ → ℝ}
    {profile trajectory : NurbsCurve ℝ} {K d : ℤ} {S : NurbsSurface ℝ} {p n : ℕ} (w : WellFormed trajectory p n) (hdom : nth trajectory.knots p < nth trajectory.knots (n + 1))
    (h : createSweepByLength solve len fuel rounds fuelN angle profile trajectory K d = ok S) :
    ∃ (path : NurbsCurve ℝ) (segs : List ℝ) (B : List (XYZ ℝ)) (c : ℕ → NurbsCurve ℝ), reparametrizeLinear trajectory 0 1 = ok path ∧ (segs.length : ℤ) = K + 1 ∧
      (∀ k : ℕ, (k : ℤ) ≤ K → sweepSection profile path B (nth segs k) = ok (c k)) ∧ createLoft solve ((List.range (K.toNat + 1)).map c) d segs = ok S ∧
      ∀ s ∈ segs, ¬ |s - nth path.knots (n + p + 1)| ≤ 1 / 1000000 * (1 + max |s| |nth path.knots (n + p + 1)|) := by
  obtain ⟨total, path, params, segs, B, c, h1, h2, h3, h4, h5, h6, h7, h8, h9⟩ := C158_sections_partial h
  have wp : WellFormed path p n ∧ 1 / 2 ≤ nth path.knots (n + p + 1) := by
    rcases C22_reparametrize (mn := 0) (mx := 1) w zero_lt_one hdom with ⟨-, hb, hc⟩ | ⟨r, hr, wr, -, -, hr2, -⟩
    · rw [hc] at h3
      cases h3
      refine ⟨w, ?_⟩
      by_contra hlt
      push Not at hlt
      rw [isAlmostEqualTo, decide_eq_true_eq, tolOf, doubleEps, abs_one] at hb
      have hd := le_abs_self (1 - nth trajectory.knots (n + p + 1))
      have hm : max 1 |nth trajectory.knots (n + p + 1)| ≤ 1 + |1 - nth trajectory.knots (n + p + 1)| := by
        refine max_le (by linarith [abs_nonneg (1 - nth trajectory.knots (n + p + 1))]) ?_
        have := abs_sub_abs_le_abs_sub (nth trajectory.knots (n + p + 1)) 1
        rw [abs_one, abs_sub_comm] at this
        linarith
      linarith
    · rw [hr] at h3
      cases h3
      exact ⟨wr, by rw [hr2]; norm_num⟩
  obtain ⟨wp, he⟩ := wp
  obtain ⟨q, -, hq⟩ := C145_params wp h4
  have far := division_far hq
  refine ⟨path, segs, B, c, h3, by rw [h6]; simp; omega, h8, h9, ?_⟩
  have zero : ¬ |0 - nth path.knots (n + p + 1)| ≤ 1 / 1000000 * (1 + max |0| |nth path.knots (n + p + 1)|) := by
    rw [zero_sub, abs_neg, abs_zero, abs_of_nonneg (by linarith), max_eq_right (by linarith)]
    linarith
  intro s hs
  rw [h6] at hs
  rcases List.mem_cons.mp hs with rfl | hs
  · exact zero
  · rcases List.mem_append.mp hs with hs | hs
    · exact far s hs
    · rw [List.eq_of_mem_replicate hs]; exact zero

/-- C158: fewer than two sections are never made. -/
theorem C158_rejects {solve : List (List ℝ) → List (List ℝ) → Res (List (List ℝ))} {len : NurbsCurve ℝ → Res ℝ} {fuel rounds fuelN : ℕ} {angle : ℕ → ℝ}
    {profile trajectory : NurbsCurve ℝ} {K d : ℤ} {S : NurbsSurface ℝ} (hK : K ≤ 0) : createSweepByLength solve len fuel rounds fuelN angle profile trajectory K d ≠ ok S := by
  intro h
  obtain ⟨_, _, _, _, _, _, h1, -⟩ := C158_sections_partial h
  omega

theorem bend_average : averageKnotVector 1 ([0, 1 / 2, 0] : List ℝ) = ok [0, 0, 1 / 2, 1, 1] := by
  simp [averageKnotVector, forI, loopUp, vset, vget, fdiv]

theorem bend_split : ∃ l r, splitAt bendCurve (1 / 2) = ok (some (l, r)) ∧ l.knots = [0, 0, 0, 1 / 2, 1 / 2, 1 / 2] ∧ r.knots = [1 / 2, 1 / 2, 1 / 2, 1, 1, 1] := by
  have a1 : isLessThanOrEqual (1 / 2 : ℝ) 0 = false := by
    simp [isLessThanOrEqual, tolOf, doubleEps]; norm_num
  have a2 : isGreaterThanOrEqual (1 / 2 : ℝ) 1 = false := by
    simp [isGreaterThanOrEqual, tolOf, doubleEps]; norm_num
  have b1 : isAlmostEqualTo (1 / 2 : ℝ) 0 = false := by
    simp [isAlmostEqualTo, tolOf, doubleEps]; norm_num
  have b2 : isAlmostEqualTo (1 / 2 : ℝ) 1 = false := by
    simp [isAlmostEqualTo, tolOf, doubleEps]; norm_num
  have b4 : isAlmostEqualTo (1 : ℝ) 0 = false := by
    simp [isAlmostEqualTo, tolOf, doubleEps]; norm_num
  have b5 : isAlmostEqualTo (0 : ℝ) 0 = true := isAlmostEqualTo_self doubleEps_pos
  have e1 : (1 : ℝ) - 1 / 2 = 1 / 2 := by norm_num
  have k1 : isValidKnotVector [0, 0, 0, 1, 1, (1 : ℝ)] = true := by
    rw [isValidKnotVector_iff]; simp
  have k2 : isValidKnotVector [0, 0, 0, 1 / 2, 1 / 2, 1 / 2, 1, 1, (1 : ℝ)] = true := by
    rw [isValidKnotVector_iff]; simp; norm_num
  have r1 : validateRange (1 / 2 : ℝ) 0 1 = ok () := by
    simp [validateRange]; norm_num
  have hm : getKnotMultiplicity [0, 0, 0, 1, 1, 1] (1 / 2 : ℝ) = ok 0 := by
    simp only [getKnotMultiplicity, k1]
    simp [validate, vget, forI, loopUp, -one_div, r1, b1, b2]
  have hs : getKnotSpanIndex 2 [0, 0, 0, 1, 1, 1] (1 / 2 : ℝ) = ok 2 := (bendCurve_run (t := 1 / 2) (by norm_num) (by norm_num)).1
  have hr : ∃ a b c d e f, refineKnotVector bendCurve [1 / 2, 1 / 2, 1 / 2] = ok ⟨2, [0, 0, 0, 1 / 2, 1 / 2, 1 / 2, 1, 1, 1], [a, b, c, d, e, f]⟩ := by
    simp [refineKnotVector, bendCurve, validate, vget, -one_div, hs, forI, loopUp, vset, forDown, loopDown, refineShift, refineInsert, whileF, e1, b1, b4, b5, fdiv]
  obtain ⟨a, b, c, d, e, f, hr⟩ := hr
  have hs2 : getKnotSpanIndex 2 [0, 0, 0, 1 / 2, 1 / 2, 1 / 2, 1, 1, 1] (1 / 2 : ℝ) = ok 5 := by
    simp only [getKnotSpanIndex, k2]
    simp [validate, vget, -one_div, r1, a1, a2, whileF]
    norm_num
  have ht : splitTail 2 (⟨2, [0, 0, 0, 1 / 2, 1 / 2, 1 / 2, 1, 1, 1], [a, b, c, d, e, f]⟩ : NurbsCurve ℝ) (1 / 2) =
      ok (⟨2, [0, 0, 0, 1 / 2, 1 / 2, 1 / 2], [a, b, c]⟩, ⟨2, [1 / 2, 1 / 2, 1 / 2, 1, 1, 1], [d, e, f]⟩) := by
    simp [splitTail, -one_div, hs2, forDown, loopDown, vget, vset]
  refine ⟨⟨2, [0, 0, 0, 1 / 2, 1 / 2, 1 / 2], [a, b, c]⟩, ⟨2, [1 / 2, 1 / 2, 1 / 2, 1, 1, 1], [d, e, f]⟩, ?_, rfl, rfl⟩
  have hd : bendCurve.degree = 2 := rfl
  have hk : bendCurve.knots = [0, 0, 0, 1, 1, 1] := rfl
  unfold splitAt
  simp [hd, hk, -one_div, vget, a1, a2, hm]
  rw [hr, ok_bind, ht]
  rfl

/-- `SplitAt` refuses the ends of the bend -/
theorem bend_refuse : splitAt bendCurve 0 = ok none ∧ splitAt bendCurve 1 = ok none := by
  have a1 : isLessThanOrEqual (0 : ℝ) 0 = true := by
    simp [isLessThanOrEqual, tolOf, doubleEps]
  have a2 : isGreaterThanOrEqual (1 : ℝ) 1 = true := by
    simp [isGreaterThanOrEqual, tolOf, doubleEps]
  have hd : bendCurve.degree = 2 := rfl
  have hk : bendCurve.knots = [0, 0, 0, 1, 1, 1] := rfl
  constructor <;> unfold splitAt <;> simp [hd, hk, vget, a1, a2]

/-- a length for which the half of the bend is half as long -/
noncomputable def bendLength (c : NurbsCurve ℝ) : Res ℝ := ok (if nth c.knots 0 = 0 then (if nth c.knots 5 = 1 then 2 else 1) else 0)

theorem bend_params : getParamsAtLength 1 2 bendLength bendCurve 1 = ok [1 / 2] := by
  obtain ⟨l, r, hs, hl, hr⟩ := bend_split
  obtain ⟨s0, s1⟩ := bend_refuse
  have L0 : bendLength bendCurve = ok 2 := by simp [bendLength, bendCurve, nth]
  have L1 : bendLength l = ok 1 := by simp [bendLength, hl, nth]
  have L2 : bendLength r = ok 0 := by simp [bendLength, hr, nth]
  have hk : bendCurve.knots = [0, 0, 0, 1, 1, 1] := rfl
  have c1 : isLessThan (2 : ℝ) 1 distanceEps = false := by
    simp [isLessThan, tolOf, distanceEps]; norm_num
  have c2 : isLessThan (0 : ℝ) 1 distanceEps = true := by
    simp [isLessThan, tolOf, distanceEps]; norm_num
  have c3 : isAlmostEqualTo (1 : ℝ) 1 distanceEps = true := isAlmostEqualTo_self (by norm_num [distanceEps])
  have c4 : isAlmostEqualTo (1 / 2 : ℝ) 1 = false := by
    simp [isAlmostEqualTo, tolOf, doubleEps]; norm_num
  have c5 : isAlmostEqualTo (1 : ℝ) 1 = true := isAlmostEqualTo_self doubleEps_pos
  have g1 : getParamAtLength 1 bendLength bendCurve 1 = ok (1 / 2) := by
    simp [getParamAtLength, L0, hk, vget, c1, knotScan, s0, s1, getParamByLength]
    rw [show (2 : ℝ)⁻¹ = 1 / 2 by norm_num, hs, ok_bind]
    simp [L1, c3]
  have g2 : getParamAtLength 1 bendLength r 1 = ok 1 := by
    simp [getParamAtLength, L2, hr, vget, c2]
  unfold getParamsAtLength
  rw [g1]
  simp [hk, vget, paramsLoop, whileF, -one_div, c4, hs, g2, c5]

theorem bend_matrix : interpolationMatrix 1 3 ([0, 0, 1 / 2, 1, 1] : List ℝ) [0, 1 / 2, 0] = ok [[1, 0, 0], [0, 1, 0], [0, 0, 1]] := by
  obtain ⟨A, hA, hAm, hAe⟩ := interpolationMatrix_run (kv := [0, 0, 1 / 2, 1, 1]) (params := ([0, 1 / 2, 1] : List ℝ)) (p := 1) (n := 2) (by omega) (by omega) (by omega) rfl rfl (by
      intro i hi; interval_cases i <;> rfl) (by intro i h1 h2; interval_cases i <;> rfl) (by
      intro i j h1 h2
      have h2 : j < 5 := h2
      interval_cases j <;> interval_cases i <;> simp [nth] <;> norm_num) (by constructor <;> simp [nth] <;> norm_num) rfl rfl (by
    intro i j h1 h2
    interval_cases j <;> interval_cases i <;> simp [nth] <;> norm_num)
  have eA : A = [[1, 0, 0], [0, 1, 0], [0, 0, 1]] := by
    refine mat_ext hAm ⟨rfl, ?_⟩ fun i hi j hj => ?_
    · intro i hi
      interval_cases i <;> rfl
    · rw [hAe i j (by omega) (by omega)]
      interval_cases i <;> interval_cases j <;> simp [N, nth, ent, row] <;> norm_num
  rw [← eA, ← hA]
  rfl

/-- three sections of degree 1 lofted at the parameters 0, 1/2 and 0 -/
theorem bend_loft {a b : ℕ → XYZ ℝ} : ∃ S, createLoft exIdSolve3 ((List.range 3).map fun k => ({ degree := 1, knots := [0, 0, 1, 1], cps := [⟨(a k).x, (a k).y, (a k).z, 1⟩, ⟨(b k).x, (b k).y, (b k).z, 1⟩] } : NurbsCurve ℝ)) 1 [0, 1 / 2, 0] = ok S := by
  set c : ℕ → NurbsCurve ℝ := fun k => { degree := 1, knots := [0, 0, 1, 1], cps := [⟨(a k).x, (a k).y, (a k).z, 1⟩, ⟨(b k).x, (b k).y, (b k).z, 1⟩] } with hc
  have hM := nets_isMat (m := 2) (n := 1) (c := c) fun _ _ => rfl
  have hr : loftRaise (loftDegree ((List.range 3).map c)) ((List.range 3).map c) = ok ((List.range 3).map c) := rfl
  have hd : loftDegree ((List.range 3).map c) = 1 := rfl
  have hg : ∀ a b d : XYZ ℝ, globalInterpolation exIdSolve3 1 [a, b, d] [0, 1 / 2, 0] = ok ⟨1, [0, 0, 1 / 2, 1, 1], [⟨a.x * 1, a.y * 1, a.z * 1, 1⟩, ⟨b.x * 1, b.y * 1, b.z * 1, 1⟩, ⟨d.x * 1, d.y * 1, d.z * 1, 1⟩]⟩ := by
    intro a b d
    unfold globalInterpolation
    rw [validate_of (by decide), ok_bind, validate_of (by simp), ok_bind, validate_of (by simp), ok_bind]
    dsimp only [List.length_cons, List.length_nil]
    rw [bend_average, ok_bind, bend_matrix, ok_bind]
    unfold exIdSolve3
    rw [if_pos rfl]
    rfl
  have hcol : ∀ i : ℕ, ∃ r, i < 2 → loftColumn exIdSolve3 1 (((List.range 3).map c).map fun c => c.cps) [0, 1 / 2, 0] i = ok r := by
    intro i
    by_cases hi : i < 2
    swap
    · exact ⟨[], fun h => absurd h hi⟩
    unfold loftColumn
    dsimp only
    have hw1 : ∀ k, k ≤ 2 → (ent (((List.range 3).map c).map fun c : NurbsCurve ℝ => c.cps) k i).w = 1 := by
      intro k hk
      rw [nets_ent (m := 2) hk]
      interval_cases i <;> simp [hc, nth]
    obtain ⟨⟨wc, tm⟩, e, l1, l2, l3⟩ := loftGather_run (c := i) hM (by omega) fun k hk => by rw [hw1 k hk]; exact one_ne_zero
    dsimp only at l1 l2 l3
    rw [e]
    match tm, l2 with
    | [t0, t1, t2], _ =>
      rw [ok_bind]
      dsimp only
      rw [hg, ok_bind]
      have hfin : Runs (forI 0 (3 : ℤ) [(⟨t0.x * 1, t0.y * 1, t0.z * 1, 1⟩ : XYZW ℝ), ⟨t1.x * 1, t1.y * 1, t1.z * 1, 1⟩, ⟨t2.x * 1, t2.y * 1, t2.z * 1, 1⟩] fun i cps => do
          let cp ← vget cps i
          let x ← fdiv cp.wx cp.w
          let y ← fdiv cp.wy cp.w
          let z ← fdiv cp.wz cp.w
          let w ← vget wc i
          vset cps i (XYZW.ofXYZ ⟨x, y, z⟩ w)) (fun _ => True) := by
        refine (Runs.forN (m := 0) (n := 3) (fun r (l : List (XYZW ℝ)) => l.length = 3 ∧ ∀ j, r ≤ j → j < 3 → (nth l j).w = 1) rfl rfl (by omega) ⟨rfl, ?_⟩ ?_).mono fun _ _ => trivial
        · intro j _ hj
          interval_cases j <;> rfl
        · rintro r l - hr ⟨h1, h2⟩
          rw [vget_nth (k := r) rfl (by omega), ok_bind, h2 r le_rfl hr]
          simp only [fdiv_ok (one_ne_zero (α := ℝ)), ok_bind]
          rw [vget_nth (k := r) rfl (by omega), ok_bind, vset_of (k := r) rfl (by omega)]
          refine Runs.ok ⟨by simp [h1], fun j hj hj3 => ?_⟩
          rw [nth_set (by omega), if_neg (by omega)]
          exact h2 j (by omega) hj3
      obtain ⟨r, hr, -⟩ := hfin
      exact ⟨r, fun _ => hr⟩
  choose f hf using hcol
  unfold createLoft
  rw [if_neg (by simp)]
  unfold createLoftCustom
  rw [hr, ok_bind, hd]
  unfold loftSurface
  dsimp only
  rw [bend_average, ok_bind, vget_of (i := 0) (k := 0) (x := c 0) rfl rfl, ok_bind,
    forI_append (rd := loftColumn exIdSolve3 1 (((List.range 3).map c).map fun c => c.cps) [0, 1 / 2, 0]) (m := 2) (f := f) (n := ((c 0).cps.length : ℤ)) rfl hf, ok_bind]
  exact ⟨_, rfl⟩

/-- C158, concretely: the sweep of the unit segment along the bend with three sections, for a length that sees the middle of the bend at its half, is made from sections at the parameters
0, 1/2 and 0: the last one stands at the start. -/
theorem C158_concrete : ∃ S, createSweepByLength exIdSolve3 bendLength 1 2 1 (fun _ => Real.arcsin (3 / 5)) unitSegment bendCurve 2 1 = ok S := by
  obtain ⟨-, -, hpos, -⟩ := unitSegment_facts
  obtain ⟨B, hB, hBl, hB2⟩ := bend_normals
  set b : XYZ ℝ := ⟨0, -(4 / 5), 3 / 5⟩ with hb
  set vk : List ℝ := [0, 1 / 2, 0] with hvk
  set a : ℕ → XYZ ℝ := fun k => ⟨2 * nth vk k - (nth vk k) ^ 2, 0, (nth vk k) ^ 2⟩ with ha
  have hv : ∀ k ≤ 2, 0 ≤ nth vk k ∧ nth vk k ≤ 1 := by
    intro k hk
    interval_cases k <;> simp [hvk, nth] <;> norm_num
  have hsec : ∀ k ≤ 2, sweepSection unitSegment bendCurve B (nth vk k) = ok ({ degree := 1, knots := [0, 0, 1, 1], cps := [⟨(a k).x, (a k).y, (a k).z, 1⟩, ⟨(a k + b).x, (a k + b).y, (a k + b).z, 1⟩] } : NurbsCurve ℝ) := by
    intro k hk
    obtain ⟨r1, r2, x, r3⟩ := bendCurve_run (t := nth vk k) (hv k hk).1 (hv k hk).2
    rw [sweepSection_run hpos r3 (by simp) r1 (by omega) r2, hB2]
    congr 1
    simp [unitSegment, liftW, sectionFrame, Matrix4d.ofBasis, ha]
    ring_nf
    simp
  have hl : vk.length = 3 := rfl
  have hsecs : sweepSections unitSegment bendCurve B 3 vk = ok ((List.range 3).map fun k => ({ degree := 1, knots := [0, 0, 1, 1], cps := [⟨(a k).x, (a k).y, (a k).z, 1⟩, ⟨(a k + b).x, (a k + b).y, (a k + b).z, 1⟩] } : NurbsCurve ℝ)) := by
    unfold sweepSections
    rw [forI_head (by omega), vget_nth (i := 0) (k := 0) rfl (by omega), ok_bind, hsec 0 (by omega), ok_bind, ok_bind,
      forI_head (by omega), vget_nth (i := 0 + 1) (k := 1) rfl (by omega), ok_bind, hsec 1 (by omega), ok_bind, ok_bind,
      forI_head (by omega), vget_nth (i := 0 + 1 + 1) (k := 2) rfl (by omega), ok_bind, hsec 2 (by omega), ok_bind, ok_bind, forI_empty (by omega)]
    rfl
  obtain ⟨S, hS⟩ := bend_loft (a := a) (b := fun k => a k + b)
  refine ⟨S, ?_⟩
  have L0 : bendLength bendCurve = ok 2 := by simp [bendLength, bendCurve, nth]
  have hpath : reparametrizeLinear bendCurve 0 1 = ok bendCurve := by
    simp [reparametrizeLinear, bendCurve, vget, isAlmostEqualTo_self doubleEps_pos]
  have hseg : lengthSegments (2 + 1) [1 / 2] = ok vk := by
    simp [lengthSegments, vset, forI, loopUp, vget, hvk]
  unfold createSweepByLength
  dsimp only
  rw [L0, ok_bind, fdiv_ok (by norm_num), ok_bind, hpath, ok_bind, show (2 : ℝ) / ((2 + 1 - 1 : ℤ) : ℝ) = 1 by norm_num, bend_params, ok_bind, hseg, ok_bind, hB, ok_bind,
    show (2 + 1 : ℤ) = 3 from rfl, hsecs, ok_bind]
  exact hS

end LNLib.Props
