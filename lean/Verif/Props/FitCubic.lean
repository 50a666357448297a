import Verif.Model.FitCubic
import Verif.Props.FitConic
import Verif.Props.Interp
import Verif.Props.Poly
import Verif.Props.Geom

/-!
# C142: fitting a cubic to points between given tangents (Geometry/Curve/NurbsCurve.cpp:3006-3190)
-/
set_option linter.unusedSectionVars false

namespace LNLib.Props
open LNLib Res LNLib.Spec Finset

/-- the plane of the start tangent and the chord, as `FitWithCubic` computes its normal -/
noncomputable def chordNormal (S E T0 : XYZ ℝ) : XYZ ℝ := (E - S).normalize.cross T0

/-- the start tangent is in that plane -/
theorem dot_chordNormal (S E T0 : XYZ ℝ) : T0.dot (chordNormal S E T0) = 0 := by
  unfold chordNormal
  rw [(C29_dot _ _ 0 0).1]
  exact (C29_cross_orthogonal _ _).2

/-- the branch for points out of the plane never does anything -/
theorem fitCubicOff_idle {fuel : ℕ} {Q : List (XYZ ℝ)} {i k : ℤ} {S E T0 P : XYZ ℝ} {st : CubicArrays} (hP : vget Q (k + i) = ok P) :
    fitCubicOff fuel Q i (chordNormal S E T0) S E T0 k st = ok (some st) := by
  unfold fitCubicOff
  rw [hP, ok_bind]
  rcases C28_line_plane (chordNormal S E T0) S P T0 0 with ⟨h, -⟩ | ⟨-, ⟨h, -⟩ | ⟨h, -⟩⟩
  · rw [dot_chordNormal] at h
    norm_num at h
  · rw [h, ok_bind]
    dsimp only
    rw [if_pos (by simp)]
  · rw [h, ok_bind]
    dsimp only
    rw [if_pos (by simp)]

/-- the loop over the inner points, when none of them is taken to be in the plane -/
theorem fitCubicRounds_idle {fuel : ℕ} {Q : List (XYZ ℝ)} {i d : ℤ} {S E T0 T1 : XYZ ℝ} {st : CubicArrays} (hi : 0 ≤ i) (hd : 1 ≤ d) (hl : i + d < Q.length)
    (off : ∀ k P, 1 ≤ k → k < d → vget Q (k + i) = ok P → ∀ X, computeLineAndPlane (chordNormal S E T0) S P T1 0 ≠ ok (.on, X)) :
    fitCubicRounds fuel Q i d S E T0 T1 st = ok (some st) := by
  unfold fitCubicRounds
  obtain ⟨r, hr, hinv⟩ := forI_inv (a := 1) (b := d) (s := some st) (body := fun k st =>
    match st with
    | none => ok none
    | some st => do
      let normalPi := (E - S).normalize.cross T0
      let P ← vget Q (k + i)
      let (type, _) ← computeLineAndPlane normalPi S P T1 0
      if type = .on then fitCubicOn Q S E T0 T1 k st
      else fitCubicOff fuel Q i normalPi S E T0 k st) (fun _ s => s = some st) hd rfl (by
    rintro k s k1 k2 rfl
    refine ⟨some st, ?_, rfl⟩
    have hP := vget_nth (v := Q) (i := k + i) (k := (k + i).toNat) (by omega) (by omega)
    dsimp only
    rw [hP, ok_bind]
    have ne := off k _ k1 k2 hP
    have fin : fitCubicOff fuel Q i ((E - S).normalize.cross T0) S E T0 k st = ok (some st) := fitCubicOff_idle hP
    have tr : ∃ ty X, computeLineAndPlane ((E - S).normalize.cross T0) S (nth Q (k + i).toNat) T1 0 = ok (ty, X) ∧ ty ≠ .on := by
      rcases C28_line_plane (chordNormal S E T0) S (nth Q (k + i).toNat) T1 0 with ⟨-, q, h, -⟩ | ⟨-, ⟨h, -⟩ | ⟨h, -⟩⟩
      · exact ⟨_, _, h, by simp⟩
      · exact absurd h (ne _)
      · exact ⟨_, _, h, by simp⟩
    obtain ⟨ty, X, h, hty⟩ := tr
    rw [h, ok_bind]
    dsimp only
    rw [if_neg hty, fin])
  rw [hinv] at hr
  exact hr

/-- `FitWithCubic` accepts two control points that were computed from nothing but zeros -/
theorem fitCubicEnd_zero {Q : List (XYZ ℝ)} {i j : ℤ} {S E T0 T1 : XYZ ℝ} {tol : ℝ} {uh : List ℝ} (hij : i + 2 ≤ j) (hS : vget Q i = ok S) (hE : vget Q j = ok E) (htol : 0 ≤ tol)
    (hu : (j - i).toNat ≤ uh.length) (h01 : ∀ k, k < uh.length → 0 ≤ nth uh k ∧ nth uh k ≤ 1) :
    fitCubicEnd Q i j (j - i) S E T0 T1 tol ⟨uh, List.replicate (j - i).toNat 0, List.replicate (j - i).toNat 0⟩ = ok (true, [XYZW.ofXYZ S 1, XYZW.ofXYZ E 1]) := by
  have hz : ∀ k : ℤ, 1 ≤ k → k < j - i → vget (List.replicate (j - i).toNat (0 : ℝ)) k = ok 0 := by
    intro k k1 k2
    rw [vget_nth (k := k.toNat) (by omega) (by rw [List.length_replicate]; omega)]
    simp [nth, List.getElem?_replicate, show k.toNat < (j - i).toNat by omega]
  have hne : ((j - i - 1 : ℤ) : ℝ) ≠ 0 := by exact_mod_cast (by omega)
  unfold fitCubicEnd
  dsimp only
  obtain ⟨r, hr, rfl⟩ := forI_inv (a := 1) (b := j - i) (s := ((0, 0) : ℝ × ℝ)) (body := fun k p => do
    let a ← vget (List.replicate (j - i).toNat (0 : ℝ)) k
    let b ← vget (List.replicate (j - i).toNat (0 : ℝ)) k
    ok (p.1 + a, p.2 + b)) (fun _ s => s = (0, 0)) (by omega) rfl (by
      rintro k s k1 k2 rfl
      refine ⟨(0, 0), ?_, rfl⟩
      rw [hz k k1 k2]
      simp)
  rw [hr, ok_bind]
  dsimp only
  rw [fdiv_ok hne, ok_bind, zero_div, ok_bind, hS, ok_bind, hE, ok_bind, zero_smul, zero_smul, add_zero, add_zero]
  obtain ⟨r, hr, rfl⟩ := forI_inv (a := 1) (b := j - i) (s := true) (body := fun k good =>
    if good then do
      let u ← vget uh k
      let a ← vget (List.replicate (j - i).toNat (0 : ℝ)) k
      let b ← vget (List.replicate (j - i).toNat (0 : ℝ)) k
      let b13 ← bernstein 1 3 u
      let b23 ← bernstein 2 3 u
      let e := (((a - 0) * b13) • T0).distance (((b - 0) * b23) • T1)
      if isLessThanOrEqual e tol then ok true
      else do
        let p ← BezierCurve.pointByBernstein ⟨3, [S, S, E, E]⟩ u
        let P ← vget Q (i + k)
        ok (!isGreaterThan (P.distance p) tol)
    else ok false) (fun _ s => s = true) (by omega) rfl (by
      rintro k s k1 k2 rfl
      refine ⟨true, ?_, rfl⟩
      rw [if_pos rfl, vget_nth (k := k.toNat) (by omega) (by omega), ok_bind, hz k k1 k2, ok_bind, ok_bind]
      obtain ⟨g0, g1⟩ := h01 k.toNat (by omega)
      rw [show bernstein 1 3 (nth uh k.toNat) = _ from bernstein_run (n := 3) (i := 1) le_rfl (by norm_num) g0 g1, ok_bind,
        show bernstein 2 3 (nth uh k.toNat) = _ from bernstein_run (n := 3) (i := 2) (by norm_num) (by norm_num) g0 g1, ok_bind]
      dsimp only
      rw [sub_zero, zero_mul, zero_mul, zero_smul, zero_smul, (C29_distance 0 0 0).2.1.mpr rfl, if_pos]
      unfold isLessThanOrEqual tolOf doubleEps
      rw [decide_eq_true_eq]
      simp only [abs_zero, zero_sub]
      have := le_max_left (0 : ℝ) |tol|
      first | positivity | nlinarith)
  rw [hr, ok_bind]

/-- the points that are given to the chord parameterization: zeros, then the points -/
theorem fitCubic_points {Q : List (XYZ ℝ)} {i j : ℤ} (hi : 0 ≤ i) (hij : i < j) (hj : j < Q.length) :
    ∃ L, forI i (j + 1) (List.replicate (j - i + 1).toNat (0 : XYZ ℝ)) (fun k l => do
        let p ← vget Q k
        ok (l ++ [p])) = ok L ∧ L.length = 2 * (j - i + 1).toNat ∧ (∀ k, k < (j - i + 1).toNat → nth L k = 0) ∧ ∀ k, k < (j - i + 1).toNat → nth L ((j - i + 1).toNat + k) = nth Q (i.toNat + k) := by
  obtain ⟨N, hN⟩ : ∃ N, N = (j - i + 1).toNat := ⟨_, rfl⟩
  rw [← hN]
  obtain ⟨L, hL, l1, l2, l3⟩ := forI_inv (a := i) (b := j + 1) (s := List.replicate N (0 : XYZ ℝ)) (body := fun k l => do
        let p ← vget Q k
        ok (l ++ [p])) (fun k l => l.length = N + (k - i).toNat ∧ (∀ m, m < N → nth l m = 0) ∧ ∀ m, m < (k - i).toNat → nth l (N + m) = nth Q (i.toNat + m)) (by omega)
    ⟨by simp, fun m hm => by simp [nth, List.getElem?_replicate, hm], fun m hm => by omega⟩ (by
      rintro k l k1 k2 ⟨l1, l2, l3⟩
      refine ⟨l ++ [nth Q k.toNat], ?_, ?_, ?_, ?_⟩
      · rw [vget_nth (k := k.toNat) (by omega) (by omega), ok_bind]
      · rw [List.length_append, List.length_singleton]; omega
      · intro m hm
        rw [nth_append_left (by omega), l2 m hm]
      · intro m hm
        by_cases h : m < (k - i).toNat
        · rw [nth_append_left (by omega), l3 m h]
        · rw [nth_append_right (by omega), show N + m - l.length = 0 by omega, show i.toNat + m = k.toNat by omega]
          rfl)
  exact ⟨L, hL, by omega, l2, fun k hk => l3 k (by omega)⟩

/-- the test for points on a line always answers -/
theorem fitCubicLine_runs {Q : List (XYZ ℝ)} {i d : ℤ} {S : XYZ ℝ} (hi : 0 ≤ i) (hl : i + d < Q.length) : ∃ b x, fitCubicLine Q i d S = ok (b, x) := by
  unfold fitCubicLine
  by_cases h : i ≤ d + 1
  · obtain ⟨r, hr, -⟩ := forI_inv (a := i) (b := d + 1) (s := ((true, 0) : Bool × XYZ ℝ)) (body := fun i st =>
      if st.1 then do
        let tp ← vget Q i
        let direction := (tp - S).normalize
        if st.2.isZero then ok (true, direction)
        else if !st.2.almostEq direction then ok (false, st.2)
        else ok st
      else ok st) (fun _ _ => True) h trivial (by
        rintro k s k1 k2 -
        by_cases hs : s.1 = true
        · rw [if_pos hs, vget_nth (k := k.toNat) (by omega) (by omega), ok_bind]
          dsimp only
          split_ifs <;> exact ⟨_, rfl, trivial⟩
        · rw [if_neg hs]
          exact ⟨_, rfl, trivial⟩)
    exact ⟨r.1, r.2, hr⟩
  · rw [forI_empty (by omega)]
    exact ⟨_, _, rfl⟩

/-- the checks and the two end points -/
theorem fitCubic_start {fuel : ℕ} {Q : List (XYZ ℝ)} {i j : ℤ} {T0 T1 S E : XYZ ℝ} {tol : ℝ} (hij : i + 2 ≤ j) (hS : vget Q i = ok S) (hE : vget Q j = ok E) (h0 : T0.isZero = false)
    (h1 : T1.isZero = false) : fitWithCubic fuel Q i j T0 T1 tol = (do
      let (isLine, _) ← fitCubicLine Q i (j - i) S
      if isLine then
        ok (true, [XYZW.ofXYZ ((3 : ℝ)⁻¹ • ((2 : ℝ) • S + E)) 1, XYZW.ofXYZ ((3 : ℝ)⁻¹ • (S + (2 : ℝ) • E)) 1])
      else do
        let newThroughPoints ← forI i (j + 1) (List.replicate (j - i + 1).toNat (0 : XYZ ℝ)) fun i l => do
          let p ← vget Q i
          ok (l ++ [p])
        let uh ← getChordParameterization newThroughPoints
        let r ← fitCubicRounds fuel Q i (j - i) S E T0 T1 ⟨uh, List.replicate (j - i).toNat 0, List.replicate (j - i).toNat 0⟩
        match r with
        | none => ok (false, [])
        | some st => fitCubicEnd Q i j (j - i) S E T0 T1 tol st) := by
  obtain ⟨hi, gi⟩ := vget_eq_ok_iff.mp hS
  obtain ⟨-, gj⟩ := vget_eq_ok_iff.mp hE
  have lj := (List.getElem?_eq_some_iff.mp gj).1
  unfold fitWithCubic validateBetween
  rw [validate_of (decide_eq_true (by omega)), ok_bind, if_neg (by omega), ok_bind, if_neg (by omega), ok_bind, h0, h1]
  simp only [Bool.not_false, validate_true, ok_bind]
  rw [hS, ok_bind, hE, ok_bind, if_neg (by omega)]
  rfl

/-- C142 is violated out of the plane: when the end tangent is not in the plane of the chord and the start tangent, `FitWithCubic` accepts every sequence of points whatever the permitted error is,
and the cubic that it answers is the chord: both inner control points are on it. -/
theorem C142_chord_violated {fuel : ℕ} {Q : List (XYZ ℝ)} {i j : ℤ} {T0 T1 S E : XYZ ℝ} {tol : ℝ} (hij : i + 2 ≤ j) (hS : vget Q i = ok S) (hE : vget Q j = ok E) (h0 : T0.isZero = false)
    (h1 : T1.isZero = false) (htol : 0 ≤ tol) (hn : 1 / 1000000 * (1 + |T1.dot (chordNormal S E T0)|) < |T1.dot (chordNormal S E T0)|) :
    ∃ a b : ℝ, fitWithCubic fuel Q i j T0 T1 tol = ok (true, [XYZW.ofXYZ (S + a • (E - S)) 1, XYZW.ofXYZ (S + b • (E - S)) 1]) ∧ 0 ≤ a ∧ a < b ∧ b ≤ 1 := by
  obtain ⟨hi, gi⟩ := vget_eq_ok_iff.mp hS
  obtain ⟨-, gj⟩ := vget_eq_ok_iff.mp hE
  have lj := (List.getElem?_eq_some_iff.mp gj).1
  rw [fitCubic_start hij hS hE h0 h1]
  obtain ⟨b, x, hb⟩ := fitCubicLine_runs (Q := Q) (i := i) (d := j - i) (S := S) hi (by omega)
  rw [hb, ok_bind]
  dsimp only
  cases b with
  | true =>
    refine ⟨1 / 3, 2 / 3, ?_, by norm_num, by norm_num, by norm_num⟩
    rw [if_pos rfl]
    rw [show (3 : ℝ)⁻¹ • ((2 : ℝ) • S + E) = S + (1 / 3 : ℝ) • (E - S) by ext <;> simp <;> ring, show (3 : ℝ)⁻¹ • (S + (2 : ℝ) • E) = S + (2 / 3 : ℝ) • (E - S) by ext <;> simp <;> ring]
  | false =>
    refine ⟨0, 1, ?_, le_rfl, one_pos, le_rfl⟩
    rw [if_neg (by simp)]
    obtain ⟨L, hL, l1, -, -⟩ := fitCubic_points (Q := Q) hi (show i < j by omega) (by omega)
    rw [hL, ok_bind]
    obtain ⟨uh, hu, u1, u2, u3, u4, -⟩ := C46_chord L (by omega)
    rw [hu, ok_bind, fitCubicRounds_idle hi (by omega) (by omega), ok_bind]
    · dsimp only
      rw [fitCubicEnd_zero hij hS hE htol (by omega) (fun k hk => ⟨by rw [← u2]; exact u4 0 k (by omega) (by omega), by rw [← u3]; exact u4 k _ (by omega) (by omega)⟩)]
      simp
    · intro k P _ _ _ X h
      rcases C28_line_plane (chordNormal S E T0) S P T1 0 with ⟨-, q, h', -⟩ | ⟨h', -⟩
      · rw [h'] at h; cases h
      · linarith

/-- a cubic whose inner control points are on the chord stays on it -/
theorem chord_cubic {S E : XYZ ℝ} {a b u : ℝ} (ha : 0 ≤ a) (hab : a ≤ b) (hb : b ≤ 1) (h0 : 0 ≤ u) (h1 : u ≤ 1) :
    ∃ c : ℝ, 0 ≤ c ∧ c ≤ 1 ∧ ((1 - u) ^ 3) • S + (3 * u * (1 - u) ^ 2) • (S + a • (E - S)) + (3 * u ^ 2 * (1 - u)) • (S + b • (E - S)) + (u ^ 3) • E = S + c • (E - S) := by
  have w : 0 ≤ 1 - u := by linarith
  refine ⟨3 * u * (1 - u) ^ 2 * a + 3 * u ^ 2 * (1 - u) * b + u ^ 3, ?_, ?_, ?_⟩
  · have : 0 ≤ b := by linarith
    positivity
  · have e1 : 3 * u * (1 - u) ^ 2 * a ≤ 3 * u * (1 - u) ^ 2 * 1 := mul_le_mul_of_nonneg_left (by linarith) (by positivity)
    have e2 : 3 * u ^ 2 * (1 - u) * b ≤ 3 * u ^ 2 * (1 - u) * 1 := mul_le_mul_of_nonneg_left hb (by positivity)
    have e3 : 3 * u * (1 - u) ^ 2 * 1 + 3 * u ^ 2 * (1 - u) * 1 + u ^ 3 = 1 - (1 - u) ^ 3 := by ring
    have : 0 ≤ (1 - u) ^ 3 := by positivity
    linarith
  · ext <;> simp <;> ring

/-- C142 is violated when the fit does not begin at the first point: the test for points on a line runs over the wrong indices. If the start index is at least the number of inner points, it sees
at most one point besides the start, and the chord is accepted whatever the points, the tangents and the permitted error are. -/
theorem C142_line_test_violated {fuel : ℕ} {Q : List (XYZ ℝ)} {i j : ℤ} {T0 T1 S E : XYZ ℝ} {tol : ℝ} (hij : i + 2 ≤ j) (hS : vget Q i = ok S) (hE : vget Q j = ok E) (h0 : T0.isZero = false)
    (h1 : T1.isZero = false) (hs : j - i - 1 ≤ i) :
    fitWithCubic fuel Q i j T0 T1 tol = ok (true, [XYZW.ofXYZ ((3 : ℝ)⁻¹ • ((2 : ℝ) • S + E)) 1, XYZW.ofXYZ ((3 : ℝ)⁻¹ • (S + (2 : ℝ) • E)) 1]) := by
  obtain ⟨hi, gi⟩ := vget_eq_ok_iff.mp hS
  obtain ⟨-, gj⟩ := vget_eq_ok_iff.mp hE
  have lj := (List.getElem?_eq_some_iff.mp gj).1
  rw [fitCubic_start hij hS hE h0 h1]
  have z : (0 : XYZ ℝ).isZero = true := by norm_num [XYZ.isZero, XYZ.sqrLength, doubleEps]
  have run : ∃ x, fitCubicLine Q i (j - i) S = ok (true, x) := by
    unfold fitCubicLine
    by_cases c1 : j - i < i
    · rw [forI_empty (by omega)]
      exact ⟨_, rfl⟩
    · rw [forI_head (by omega)]
      dsimp only
      rw [if_pos rfl, hS, ok_bind, sub_self, (C29_normalize 0).2, z, if_pos rfl, ok_bind]
      by_cases c2 : j - i < i + 1
      · rw [forI_empty (by omega)]
        exact ⟨_, rfl⟩
      · rw [forI_head (by omega)]
        dsimp only
        rw [if_pos rfl, vget_nth (k := (i + 1).toNat) (by omega) (by omega), ok_bind, z, if_pos rfl, ok_bind, forI_empty (by omega)]
        exact ⟨_, rfl⟩
  obtain ⟨x, hx⟩ := run
  rw [hx, ok_bind]
  dsimp only
  rw [if_pos rfl]

/-- the line test with a point off the ray to the first point -/
theorem fitCubicLine_bent {Q : List (XYZ ℝ)} {j : ℤ} {S : XYZ ℝ} {m : ℕ} (hS : vget Q 0 = ok S) (hm : 2 ≤ m) (hmj : (m : ℤ) ≤ j) (hj : j < Q.length) (hne : nth Q 1 - S ≠ 0)
    (hb : (nth Q 1 - S).normalize.almostEq (nth Q m - S).normalize = false) : ∃ x, fitCubicLine Q 0 j S = ok (false, x) := by
  have z : (0 : XYZ ℝ).isZero = true := by norm_num [XYZ.isZero, XYZ.sqrLength, doubleEps]
  have z1 : (nth Q 1 - S).normalize.isZero = false := by
    have := unit_normalize hne
    unfold XYZ.isZero XYZ.sqrLength
    rw [decide_eq_false_iff_not, this]
    norm_num [doubleEps]
  unfold fitCubicLine
  rw [forI_head (by omega)]
  dsimp only
  rw [if_pos rfl, hS, ok_bind, sub_self, (C29_normalize 0).2, z, if_pos rfl, ok_bind, forI_head (by omega)]
  dsimp only
  rw [if_pos rfl, vget_nth (k := 1) (by omega) (by omega), ok_bind, z, if_pos rfl, ok_bind]
  obtain ⟨r, hr, hinv⟩ := forI_inv (a := 0 + 1 + 1) (b := j + 1) (s := (true, (nth Q 1 - S).normalize)) (body := fun i st =>
      if st.1 then do
        let tp ← vget Q i
        let direction := (tp - S).normalize
        if st.2.isZero then ok (true, direction)
        else if !st.2.almostEq direction then ok (false, st.2)
        else ok st
      else ok st) (fun k s => s.1 = false ∨ (k ≤ m ∧ s = (true, (nth Q 1 - S).normalize))) (by omega) (Or.inr ⟨by omega, rfl⟩) (by
        rintro k s k1 k2 (h | ⟨h, rfl⟩)
        · rw [h, if_neg (by simp)]
          exact ⟨_, rfl, Or.inl h⟩
        · dsimp only
          rw [if_pos rfl, vget_nth (k := k.toNat) (by omega) (by omega), ok_bind, z1, if_neg (by simp)]
          by_cases hk : k = m
          · rw [hk, Int.toNat_natCast, hb, if_pos (by simp)]
            exact ⟨_, rfl, Or.inl rfl⟩
          · split_ifs
            · exact ⟨_, rfl, Or.inl rfl⟩
            · exact ⟨_, rfl, Or.inr ⟨by omega, rfl⟩⟩)
  rcases hinv with h | ⟨h, -⟩
  · refine ⟨r.2, ?_⟩
    rw [hr, ← h]
  · omega

/-- C142 is violated in the plane: when the tangents, the chord and the first inner point are in one plane and the points are not on a line, the parameters of the points come from a list that
begins with as many zero points as there are points. They are all zero, and the fit divides zero by zero (in the library: the answer is `false`), however well a cubic would fit. -/
theorem C142_plane_violated {fuel : ℕ} {Q : List (XYZ ℝ)} {j : ℤ} {T0 T1 S E : XYZ ℝ} {tol : ℝ} {m : ℕ} (hS : vget Q 0 = ok S) (hE : vget Q j = ok E) (h0 : T0.isZero = false)
    (h1 : T1.isZero = false) (hm : 2 ≤ m) (hmj : (m : ℤ) ≤ j) (hd : 1 / 500000 ≤ (nth Q 1).distance S) (hb : (nth Q 1 - S).normalize.almostEq (nth Q m - S).normalize = false)
    (ht : |T1.dot (chordNormal S E T0)| ≤ 1 / 1000000 * (1 + |T1.dot (chordNormal S E T0)|))
    (hp : |(nth Q 1 - S).dot (chordNormal S E T0)| ≤ 1 / 1000000 * (1 + |(nth Q 1 - S).dot (chordNormal S E T0)|)) :
    fitWithCubic fuel Q 0 j T0 T1 tol = nonfinite := by
  obtain ⟨-, gj⟩ := vget_eq_ok_iff.mp hE
  have lj := (List.getElem?_eq_some_iff.mp gj).1
  have hS0 : S = nth Q 0 := by
    rw [vget_nth (k := 0) (by omega) (by omega)] at hS
    cases hS
    rfl
  have hne : nth Q 1 - S ≠ 0 := by
    intro h
    rw [sub_eq_zero.mp h, (C29_distance S S S).2.1.mpr rfl] at hd
    norm_num at hd
  rw [fitCubic_start (by omega) hS hE h0 h1, sub_zero]
  obtain ⟨x, hx⟩ := fitCubicLine_bent (j := j) hS hm hmj (by omega) hne hb
  rw [hx, ok_bind]
  dsimp only
  rw [if_neg (by simp)]
  obtain ⟨L, hL, l1, l2, l3⟩ := fitCubic_points (Q := Q) le_rfl (show 0 < j by omega) (by omega)
  rw [sub_zero] at hL l1 l2 l3
  rw [hL, ok_bind]
  obtain ⟨uh, hu, u1, -, -, -, u5⟩ := C46_chord L (by omega)
  rw [hu, ok_bind]
  obtain ⟨n, hn⟩ : ∃ n : ℕ, j = n := ⟨j.toNat, by omega⟩
  subst hn
  rw [show ((n : ℤ) + 1).toNat = n + 1 by omega] at l1 l2 l3
  obtain ⟨total, htot⟩ : ∃ total, total = ∑ j ∈ range (L.length - 1), (nth L (j + 1)).distance (nth L j) := ⟨_, rfl⟩
  have big : 1 / 500000 ≤ total := by
    refine hd.trans ?_
    have h1 := l3 0 (by omega)
    have h2 := l3 1 (by omega)
    simp only [Int.toNat_zero, Nat.zero_add, Nat.add_zero] at h1 h2
    rw [hS0, ← h1, ← h2, htot]
    exact single_le_sum (f := fun j => (nth L (j + 1)).distance (nth L j)) (fun j _ => distance_nonneg _ _) (mem_range.mpr (by omega))
  have uz : ∀ k, k ≤ n → nth uh k = 0 := by
    intro k hk
    rw [u5 total htot (by linarith) k (by omega), sum_eq_zero, zero_div]
    intro a ha
    rw [mem_range] at ha
    rw [l2 _ (by omega), l2 _ (by omega)]
    exact (C29_distance 0 0 0).2.1.mpr rfl
  have on : computeLineAndPlane ((E - S).normalize.cross T0) S (nth Q 1) T1 0 = ok (.on, nth Q 1) := by
    rcases C28_line_plane (chordNormal S E T0) S (nth Q 1) T1 0 with ⟨h, -⟩ | ⟨-, ⟨h, -⟩ | ⟨-, h⟩⟩
    · linarith
    · exact h
    · linarith
  unfold fitCubicRounds
  rw [forI_head (by omega)]
  dsimp only
  rw [vget_nth (k := 1) (by omega) (by omega), ok_bind, on, ok_bind]
  dsimp only
  rw [if_pos rfl]
  unfold fitCubicOn
  dsimp only
  rw [vget_nth (k := 1) (by omega) (by omega), ok_bind, vget_nth (k := 1) (by omega) (by omega), ok_bind, vget_nth (k := 0) (by omega) (by omega), ok_bind,
    vget_nth (k := 2) (by omega) (by omega), ok_bind, uz 0 (by omega), uz 2 (by omega), sub_self, fdiv_zero]
  rfl

/-- positive multiples have the same direction -/
theorem normalize_scaled {D : XYZ ℝ} {t : ℝ} (hD : D ≠ 0) (ht : 0 < t) : (t • D).normalize = D.normalize := by
  have hl : (t • D).length = t * D.length := by
    refine length_of (by have := length_nonneg D; positivity) ?_
    rw [mul_pow, length_sqr]
    simp only [XYZ.sqrLength, XYZ.smul_x, XYZ.smul_y, XYZ.smul_z]
    ring
  have hp := length_pos hD
  have h2 : t • D ≠ 0 := by
    intro h
    rw [h, show (0 : XYZ ℝ).length = 0 from length_of le_rfl (by simp [XYZ.sqrLength])] at hl
    have := mul_pos ht hp
    linarith
  rw [normalize_eq h2, normalize_eq hD, hl, smul_smul]
  congr 1
  field_simp

/-- C142 (part): points on a ray from the first point, from the first point on: the chord is answered, divided into thirds. -/
theorem C142_line_partial {fuel : ℕ} {Q : List (XYZ ℝ)} {j : ℤ} {T0 T1 S E D : XYZ ℝ} {tol : ℝ} (hj : 2 ≤ j) (hS : vget Q 0 = ok S) (hE : vget Q j = ok E) (h0 : T0.isZero = false)
    (h1 : T1.isZero = false) (hD : D ≠ 0) (hr : ∀ k : ℕ, 1 ≤ k → (k : ℤ) ≤ j → ∃ t : ℝ, 0 < t ∧ nth Q k = S + t • D) :
    fitWithCubic fuel Q 0 j T0 T1 tol = ok (true, [XYZW.ofXYZ ((3 : ℝ)⁻¹ • ((2 : ℝ) • S + E)) 1, XYZW.ofXYZ ((3 : ℝ)⁻¹ • (S + (2 : ℝ) • E)) 1]) := by
  obtain ⟨-, gj⟩ := vget_eq_ok_iff.mp hE
  have lj := (List.getElem?_eq_some_iff.mp gj).1
  rw [fitCubic_start (by omega) hS hE h0 h1, sub_zero]
  have z : (0 : XYZ ℝ).isZero = true := by norm_num [XYZ.isZero, XYZ.sqrLength, doubleEps]
  have dir : ∀ k : ℕ, 1 ≤ k → (k : ℤ) ≤ j → (nth Q k - S).normalize = D.normalize := by
    intro k k1 k2
    obtain ⟨t, ht, h⟩ := hr k k1 k2
    rw [h, add_sub_cancel_left, normalize_scaled hD ht]
  have self : D.normalize.almostEq D.normalize = true := by
    unfold XYZ.almostEq
    rw [isAlmostEqualTo_self doubleEps_pos, isAlmostEqualTo_self doubleEps_pos, isAlmostEqualTo_self doubleEps_pos]
    rfl
  have run : ∃ x, fitCubicLine Q 0 j S = ok (true, x) := by
    unfold fitCubicLine
    obtain ⟨r, hr, h1, -⟩ := forI_inv (a := 0) (b := j + 1) (s := ((true, 0) : Bool × XYZ ℝ)) (body := fun i st =>
      if st.1 then do
        let tp ← vget Q i
        let direction := (tp - S).normalize
        if st.2.isZero then ok (true, direction)
        else if !st.2.almostEq direction then ok (false, st.2)
        else ok st
      else ok st) (fun k s => s.1 = true ∧ (s.2 = 0 ∨ (1 ≤ k ∧ s.2 = D.normalize))) (by omega) ⟨rfl, Or.inl rfl⟩ (by
        rintro k ⟨b, x⟩ k1 k2 ⟨hb, hx⟩
        dsimp only at hb hx
        subst hb
        dsimp only
        rw [if_pos rfl, vget_nth (k := k.toNat) (by omega) (by omega), ok_bind]
        by_cases hk : k = 0
        · subst hk
          have hx : x = 0 := hx.resolve_right (by omega)
          have hS0 : S = nth Q 0 := by
            rw [vget_nth (k := 0) (by omega) (by omega)] at hS
            cases hS
            rfl
          rw [hx, z, if_pos rfl, Int.toNat_zero, ← hS0, sub_self, (C29_normalize 0).2]
          exact ⟨_, rfl, rfl, Or.inl rfl⟩
        · rw [dir k.toNat (by omega) (by omega)]
          by_cases hz : x.isZero = true
          · rw [if_pos hz]
            exact ⟨_, rfl, rfl, Or.inr ⟨by omega, rfl⟩⟩
          · rw [if_neg hz]
            have hx : x = D.normalize := by
              rcases hx with rfl | ⟨-, h⟩
              · exact absurd z hz
              · exact h
            rw [hx, self, if_neg (by simp)]
            exact ⟨_, rfl, rfl, Or.inr ⟨by omega, rfl⟩⟩)
    exact ⟨r.2, by rw [hr, ← h1]⟩
  obtain ⟨x, hx⟩ := run
  rw [hx, ok_bind]
  dsimp only
  rw [if_pos rfl]

/-- C142: the arguments are checked: there are three points, the indices are in range and in order, the tangents are not zero. -/
theorem C142_rejects {fuel : ℕ} {Q : List (XYZ ℝ)} {i j : ℤ} {T0 T1 : XYZ ℝ} {tol : ℝ} {r : Bool × List (XYZW ℝ)} (h : fitWithCubic fuel Q i j T0 T1 tol = ok r) :
    3 ≤ Q.length ∧ 0 ≤ i ∧ i < j ∧ j < Q.length ∧ T0.isZero = false ∧ T1.isZero = false := by
  unfold fitWithCubic validateBetween at h
  obtain ⟨u1, h1, h⟩ := bind_eq_ok.mp h
  obtain ⟨u2, h2, h⟩ := bind_eq_ok.mp h
  obtain ⟨u3, h3, h⟩ := bind_eq_ok.mp h
  obtain ⟨u4, h4, h⟩ := bind_eq_ok.mp h
  obtain ⟨u5, h5, h⟩ := bind_eq_ok.mp h
  have v := fun {b : Bool} (h : validate b = ok ()) => show b = true by
    unfold validate at h
    by_contra hb
    simp [hb] at h
  have g1 := v h1
  have g4 := v h4
  have g5 := v h5
  rw [decide_eq_true_eq] at g1
  split_ifs at h2 h3 with c2 c3
  refine ⟨by omega, by omega, by omega, by omega, by simpa using g4, by simpa using g5⟩

/-- C142 (part): between neighbouring points the answer is two control points of weight 1, the first forward on the start tangent and the second backward on the end tangent. -/
theorem C142_pair_partial {fuel : ℕ} {Q : List (XYZ ℝ)} {i : ℤ} {T0 T1 S E : XYZ ℝ} {tol : ℝ} {r : Bool × List (XYZW ℝ)} (hS : vget Q i = ok S) (hE : vget Q (i + 1) = ok E)
    (h : fitWithCubic fuel Q i (i + 1) T0 T1 tol = ok r) : ∃ a b : ℝ, 0 ≤ a ∧ 0 ≤ b ∧ r = (true, [XYZW.ofXYZ (S + a • T0) 1, XYZW.ofXYZ (E - b • T1) 1]) := by
  unfold fitWithCubic at h
  obtain ⟨u1, -, h⟩ := bind_eq_ok.mp h
  obtain ⟨u2, -, h⟩ := bind_eq_ok.mp h
  obtain ⟨u3, -, h⟩ := bind_eq_ok.mp h
  obtain ⟨u4, -, h⟩ := bind_eq_ok.mp h
  obtain ⟨u5, -, h⟩ := bind_eq_ok.mp h
  rw [hS, ok_bind, hE, ok_bind, if_pos (by omega)] at h
  obtain ⟨c, hc, h⟩ := bind_eq_ok.mp h
  cases h
  unfold fitCubicPair at hc
  obtain ⟨tg, -, hc⟩ := bind_eq_ok.mp hc
  dsimp only at hc
  obtain ⟨Dks, -, hc⟩ := bind_eq_ok.mp hc
  obtain ⟨Dke, -, hc⟩ := bind_eq_ok.mp hc
  cases hc
  refine ⟨Dks.length / 3, Dke.length / 3, by have := length_nonneg Dks; positivity, by have := length_nonneg Dke; positivity, ?_⟩
  rw [neg_div, neg_smul, sub_eq_add_neg]

/-- the hypotheses of `C142_chord_violated` hold for a point far from the chord: the fit of (0,0,0), (1,0,500), (2,0,0) is accepted with error 0, and is the chord -/
example : ∃ a b : ℝ, fitWithCubic 0 [⟨0, 0, 0⟩, ⟨1, 0, 500⟩, ⟨2, 0, 0⟩] 0 2 ⟨0, 1, 0⟩ ⟨0, 0, 1⟩ 0 =
    ok (true, [XYZW.ofXYZ (⟨0, 0, 0⟩ + a • ((⟨2, 0, 0⟩ : XYZ ℝ) - ⟨0, 0, 0⟩)) 1, XYZW.ofXYZ (⟨0, 0, 0⟩ + b • ((⟨2, 0, 0⟩ : XYZ ℝ) - ⟨0, 0, 0⟩)) 1]) ∧ 0 ≤ a ∧ a < b ∧ b ≤ 1 := by
  have hl : ((⟨2, 0, 0⟩ : XYZ ℝ) - ⟨0, 0, 0⟩).length = 2 := length_of (by norm_num) (by norm_num [XYZ.sqrLength])
  have hn : chordNormal (⟨0, 0, 0⟩ : XYZ ℝ) ⟨2, 0, 0⟩ ⟨0, 1, 0⟩ = ⟨0, 0, 1⟩ := by
    unfold chordNormal
    rw [normalize_eq (by intro h; have := congrArg XYZ.x h; norm_num at this), hl]
    ext <;> norm_num [XYZ.cross]
  refine C142_chord_violated (by norm_num) rfl rfl (by norm_num [XYZ.isZero, XYZ.sqrLength, doubleEps]) (by norm_num [XYZ.isZero, XYZ.sqrLength, doubleEps]) le_rfl ?_
  rw [hn]
  norm_num [XYZ.dot]

/-- the hypotheses of `C142_line_test_violated` hold for four points, of which the last three are fitted -/
example : fitWithCubic 0 [⟨9, 9, 9⟩, ⟨0, 0, 0⟩, ⟨1, 500, 0⟩, ⟨2, 0, 0⟩] 1 3 ⟨0, 1, 0⟩ ⟨0, -1, 0⟩ 0 =
    ok (true, [XYZW.ofXYZ ((3 : ℝ)⁻¹ • ((2 : ℝ) • (⟨0, 0, 0⟩ : XYZ ℝ) + ⟨2, 0, 0⟩)) 1, XYZW.ofXYZ ((3 : ℝ)⁻¹ • ((⟨0, 0, 0⟩ : XYZ ℝ) + (2 : ℝ) • ⟨2, 0, 0⟩)) 1]) :=
  C142_line_test_violated (by norm_num) rfl rfl (by norm_num [XYZ.isZero, XYZ.sqrLength, doubleEps]) (by norm_num [XYZ.isZero, XYZ.sqrLength, doubleEps]) (by norm_num)

/-- the hypotheses of `C142_plane_violated` hold for three points of a parabola with its tangents, which a cubic fits exactly -/
example : fitWithCubic 0 [⟨0, 0, 0⟩, ⟨1, 1, 0⟩, ⟨2, 0, 0⟩] 0 2 ⟨1, 2, 0⟩ ⟨1, -2, 0⟩ 1 = nonfinite := by
  have hn : ∀ v : XYZ ℝ, v.z = 0 → v.dot (chordNormal (⟨0, 0, 0⟩ : XYZ ℝ) ⟨2, 0, 0⟩ ⟨1, 2, 0⟩) = 0 := by
    intro v hv
    unfold chordNormal
    rw [normalize_eq (by intro h; have := congrArg XYZ.x h; norm_num at this)]
    simp [XYZ.cross, XYZ.dot, hv]
  have e1 : nth [(⟨0, 0, 0⟩ : XYZ ℝ), ⟨1, 1, 0⟩, ⟨2, 0, 0⟩] 1 = ⟨1, 1, 0⟩ := rfl
  have e2 : nth [(⟨0, 0, 0⟩ : XYZ ℝ), ⟨1, 1, 0⟩, ⟨2, 0, 0⟩] 2 = ⟨2, 0, 0⟩ := rfl
  refine C142_plane_violated (m := 2) (S := ⟨0, 0, 0⟩) (E := ⟨2, 0, 0⟩) rfl rfl (by norm_num [XYZ.isZero, XYZ.sqrLength, doubleEps]) (by norm_num [XYZ.isZero, XYZ.sqrLength, doubleEps]) le_rfl
    (by norm_num) ?_ ?_ ?_ ?_
  · rw [e1]
    unfold XYZ.distance
    refine Real.le_sqrt_of_sq_le ?_
    norm_num
  · rw [e1, e2]
    have g : ((⟨2, 0, 0⟩ : XYZ ℝ) - ⟨0, 0, 0⟩).length = 2 := length_of (by norm_num) (by norm_num [XYZ.sqrLength])
    rw [normalize_eq (by intro h; have := congrArg XYZ.x h; norm_num at this), normalize_eq (by intro h; have := congrArg XYZ.x h; norm_num at this), g]
    have hl2 := length_sqr ((⟨1, 1, 0⟩ : XYZ ℝ) - ⟨0, 0, 0⟩)
    have hl0 := length_nonneg ((⟨1, 1, 0⟩ : XYZ ℝ) - ⟨0, 0, 0⟩)
    obtain ⟨c, hc⟩ : ∃ c, c = ((⟨1, 1, 0⟩ : XYZ ℝ) - ⟨0, 0, 0⟩).length := ⟨_, rfl⟩
    rw [← hc] at hl2 hl0 ⊢
    norm_num [XYZ.sqrLength] at hl2
    have hc2 : c ≤ 2 := by nlinarith
    have hc1 : 0 < c := by
      rcases hl0.lt_or_eq with h | h
      · exact h
      · rw [← h] at hl2; norm_num at hl2
    have hi : 1 / 2 ≤ c⁻¹ := by rw [le_inv_comm₀ (by norm_num) hc1]; norm_num; linarith
    have : isAlmostEqualTo c⁻¹ (0 : ℝ) = false := by
      rw [← Bool.not_eq_true, isAlmostZero_iff, abs_of_pos (by positivity), not_le]
      linarith
    unfold XYZ.almostEq
    simp [this]
  · rw [hn _ rfl]; norm_num
  · rw [hn _ (by norm_num [e1])]; norm_num

/-- the hypotheses of `C142_line_partial` hold for three points on a line -/
example : fitWithCubic 0 [⟨0, 0, 0⟩, ⟨1, 0, 0⟩, ⟨3, 0, 0⟩] 0 2 ⟨0, 1, 0⟩ ⟨0, -1, 0⟩ 0 =
    ok (true, [XYZW.ofXYZ ((3 : ℝ)⁻¹ • ((2 : ℝ) • (⟨0, 0, 0⟩ : XYZ ℝ) + ⟨3, 0, 0⟩)) 1, XYZW.ofXYZ ((3 : ℝ)⁻¹ • ((⟨0, 0, 0⟩ : XYZ ℝ) + (2 : ℝ) • ⟨3, 0, 0⟩)) 1]) := by
  refine C142_line_partial (D := ⟨1, 0, 0⟩) le_rfl rfl rfl (by norm_num [XYZ.isZero, XYZ.sqrLength, doubleEps]) (by norm_num [XYZ.isZero, XYZ.sqrLength, doubleEps])
    (by intro h; have := congrArg XYZ.x h; norm_num at this) ?_
  intro k k1 k2
  have : k ≤ 2 := by omega
  interval_cases k
  · exact ⟨1, one_pos, by ext <;> simp [nth]⟩
  · exact ⟨3, by norm_num, by ext <;> simp [nth]⟩

end LNLib.Props
