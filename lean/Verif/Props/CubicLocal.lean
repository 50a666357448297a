import Verif.Model.CubicLocal
import Verif.Spec.CubicLocal
import Verif.Lemmas.UniformKnot
import Verif.Props.Tangent
import Verif.Props.Extend
import Verif.Props.LeastSquares

/-!
# C135: local cubic interpolation (Geometry/Curve/NurbsCurve.cpp:2216-2285)
-/
set_option linter.unusedSectionVars false

namespace LNLib.Props
open LNLib Res LNLib.Spec Finset

theorem cubicChords_run {pts : List (XYZ ℝ)} (ha : ApartPoints pts) :
    Runs (cubicChords pts) (fun h => h.length = pts.length - 1 ∧ ∀ i, i < pts.length - 1 → nth h i = chord pts i) := by
  unfold cubicChords
  by_cases h0 : pts.length = 0
  · rw [forI_empty (by omega), h0]
    exact Runs.ok ⟨rfl, fun i hi => by omega⟩
  refine (Runs.forN (m := 0) (n := pts.length - 1) (fun k (h : List ℝ) => h.length = pts.length - 1 ∧ ∀ i, i < k → nth h i = chord pts i)
    rfl (by omega) (by omega) ⟨by simp, fun i hi => by omega⟩ ?_).mono (fun _ h => h)
  rintro k h - hk ⟨g1, g2⟩
  have e : isAlmostEqualTo (nth pts (k + 1) - nth pts k).length 0 = false := by
    have h2 := ha k (by omega)
    unfold chord at h2
    have h3 : 0 ≤ (nth pts (k + 1) - nth pts k).length := Real.sqrt_nonneg _
    unfold isAlmostEqualTo
    simp only [tolOf, doubleEps, sub_zero, abs_zero, decide_eq_false_iff_not, not_le, abs_of_nonneg h3, max_eq_left h3]
    linarith
  rw [vget_nth (k := k + 1) (by omega) (by omega), ok_bind, vget_nth (k := k) rfl (by omega), ok_bind, e, if_neg (by simp), vset_of rfl (by omega)]
  refine Runs.ok ⟨by simp [g1], fun i hi => ?_⟩
  rw [nth_set (by omega)]
  split_ifs with c
  · rw [c]; rfl
  · exact g2 i (by omega)

/-- the control points made for the points `pts`, the tangents `T` and the chord lengths `h` -/
structure LocalPoints (pts T : List (XYZ ℝ)) (h : ℕ → ℝ) (cps : List (XYZW ℝ)) (m : ℕ) : Prop where
  len : cps.length = 3 * m + 1
  first : nth cps 0 = XYZW.ofXYZ (nth pts 0) 1
  one : ∀ i, i < m → nth cps (3 * i + 1) = XYZW.ofXYZ (nth pts i + (h i / 3) • nth T i) 1
  two : ∀ i, i < m → nth cps (3 * i + 2) = XYZW.ofXYZ (nth pts (i + 1) - (h i / 3) • nth T (i + 1)) 1
  three : ∀ i, i < m → nth cps (3 * i + 3) = XYZW.ofXYZ (nth pts (i + 1)) 1

theorem nth_append_left {α : Type} [Zero α] {l r : List α} {i : ℕ} (h : i < l.length) : nth (l ++ r) i = nth l i := by
  rw [nth_eq_getElem (by simp; omega), nth_eq_getElem h, List.getElem_append_left]

theorem nth_append_right {α : Type} [Zero α] {l r : List α} {i j : ℕ} (h : i = l.length + j) (hj : j < r.length) : nth (l ++ r) i = nth r j := by
  subst h
  rw [nth_eq_getElem (by simp; omega), nth_eq_getElem hj, List.getElem_append_right (by omega)]
  simp

theorem cubicLocalPoints_run {pts T : List (XYZ ℝ)} {hs : List ℝ} {m : ℕ} (hp : pts.length = m + 1) (hT : T.length = m + 1) (hh : hs.length = m) :
    Runs (cubicLocalPoints pts T hs) (fun cps => LocalPoints pts T (nth hs) cps m) := by
  unfold cubicLocalPoints
  rw [vget_nth (i := 0) (k := 0) rfl (by omega), ok_bind]
  refine (Runs.forN (m := 0) (n := m) (fun k (cps : List (XYZW ℝ)) => LocalPoints pts T (nth hs) cps k) rfl (by omega) (by omega)
    ⟨rfl, rfl, fun i hi => by omega, fun i hi => by omega, fun i hi => by omega⟩ ?_).mono (fun _ h => h)
  rintro k cps - hk ⟨g1, g2, g3, g4, g5⟩
  rw [vget_nth rfl (by omega), ok_bind, vget_nth (k := k) rfl (by omega), ok_bind, vget_nth (k := k + 1) (by omega) (by omega), ok_bind,
    vget_nth (k := k) rfl (by omega), ok_bind, vget_nth (k := k + 1) (by omega) (by omega), ok_bind]
  refine Runs.ok ⟨by simp [g1]; omega, ?_, ?_, ?_, ?_⟩
  · rw [nth_append_left (by omega), g2]
  · intro i hi
    by_cases hc : i = k
    · subst hc
      rw [nth_append_right (j := 0) (by omega) (by simp)]
      show XYZW.ofXYZ _ 1 = _
      rw [smul_smul, show (1 / 3 : ℝ) * nth hs i = nth hs i / 3 by ring]
    · rw [nth_append_left (by omega), g3 i (by omega)]
  · intro i hi
    by_cases hc : i = k
    · subst hc
      rw [nth_append_right (j := 1) (by omega) (by simp)]
      show XYZW.ofXYZ _ 1 = _
      rw [smul_smul, show (1 / 3 : ℝ) * nth hs i = nth hs i / 3 by ring]
    · rw [nth_append_left (by omega), g4 i (by omega)]
  · intro i hi
    by_cases hc : i = k
    · subst hc
      rw [nth_append_right (j := 2) (by omega) (by simp)]
      rfl
    · rw [nth_append_left (by omega), g5 i (by omega)]

/-- clamped cubic knots for `n + 1` control points, equally spaced in between -/
structure UniformCubic (U : List ℝ) (n : ℕ) : Prop where
  len : U.length = n + 5
  zeros : ∀ i, i ≤ 3 → nth U i = 0
  ones : ∀ i, n + 1 ≤ i → i ≤ n + 4 → nth U i = 1
  inner : ∀ i, i ≤ n - 2 → nth U (3 + i) = (i : ℝ) / ((n : ℝ) - 2)

theorem cubicLocalKnots_run {n : ℕ} (hn : 3 ≤ n) : Runs (cubicLocalKnots ((n : ℤ) + 1)) (fun kv => UniformCubic kv n) := by
  have hn' : (3 : ℝ) ≤ n := by exact_mod_cast hn
  unfold cubicLocalKnots
  refine Runs.bind (Q := fun (kv : List ℝ) => kv.length = n + 5 ∧ (∀ i, i ≤ 3 → nth kv i = 0) ∧ ∀ i, n + 1 ≤ i → i ≤ n + 4 → nth kv i = 1) ?_ ?_
  · refine (Runs.forN (m := 0) (n := 4) (fun k (kv : List ℝ) => kv.length = n + 5 ∧ (∀ i, i ≤ 3 → nth kv i = 0) ∧ ∀ i, n + 5 - k ≤ i → i ≤ n + 4 → nth kv i = 1)
      rfl rfl (by omega) ⟨by simp; omega, ?_, fun i h1 h2 => by omega⟩ ?_).mono ?_
    · intro i hi
      rw [nth_eq_getElem (by simp; omega), List.getElem_replicate]
    · rintro k kv - hk ⟨g1, g2, g3⟩
      rw [vset_of rfl (by omega), ok_bind, vset_of (k := n + 4 - k) (by simp [g1]; omega) (by simp [g1]; omega)]
      refine Runs.ok ⟨by simp [g1], fun i hi => ?_, fun i h1 h2 => ?_⟩
      · rw [nth_set (by simp [g1]; omega), if_neg (by omega), nth_set (by omega)]
        split_ifs with c
        · rfl
        · exact g2 i hi
      · rw [nth_set (by simp [g1]; omega)]
        split_ifs with c
        · rfl
        · rw [nth_set (by omega), if_neg (by omega), g3 i (by omega) h2]
    · rintro kv ⟨g1, g2, g3⟩
      exact ⟨g1, g2, fun i h1 h2 => g3 i (by omega) h2⟩
  · rintro kv ⟨g1, g2, g3⟩
    have e : (((n : ℤ) + 1 - 3 : ℤ) : ℝ) = (n : ℝ) - 2 := by push_cast; ring
    rw [e, fdiv_ok (by linarith), ok_bind]
    refine (Runs.forN (m := 1) (n := n - 2) (fun k (kv : List ℝ) => kv.length = n + 5 ∧ (∀ i, i ≤ 3 → nth kv i = 0) ∧ (∀ i, n + 1 ≤ i → i ≤ n + 4 → nth kv i = 1) ∧
      ∀ i, 1 ≤ i → i < k → nth kv (3 + i) = (i : ℝ) / ((n : ℝ) - 2)) rfl (by omega) (by omega) ⟨g1, g2, g3, fun i h1 h2 => by omega⟩ ?_).mono ?_
    · rintro k kv h1 hk ⟨g1, g2, g3, g4⟩
      rw [vset_of (k := 3 + k) (by omega) (by omega)]
      refine Runs.ok ⟨by simp [g1], fun i hi => ?_, fun i h1 h2 => ?_, fun i h1 h2 => ?_⟩
      · rw [nth_set (by omega), if_neg (by omega), g2 i hi]
      · rw [nth_set (by omega), if_neg (by omega), g3 i h1 h2]
      · rw [nth_set (by omega)]
        split_ifs with c
        · rw [show i = k by omega]
          push_cast
          ring
        · exact g4 i h1 (by omega)
    · rintro kv ⟨g1, g2, g3, g4⟩
      refine ⟨g1, g2, g3, fun i hi => ?_⟩
      by_cases h0 : i = 0
      · subst h0; rw [g2 (3 + 0) (by omega)]; simp
      by_cases h1 : i = n - 2
      · rw [h1, g3 _ (by omega) (by omega)]
        rw [Nat.cast_sub (by omega)]
        push_cast
        rw [div_self (by linarith)]
      · exact g4 i (by omega) (by omega)

/-- knots in order, ends not merged -/
theorem UniformCubic.facts {U : List ℝ} {n : ℕ} (h : UniformCubic U n) (hn : 3 ≤ n) :
    (∀ i j, i ≤ j → j < U.length → nth U i ≤ nth U j) ∧ (n ≤ 500000 → EndsSeparated (nth U) 3 n) ∧
      ∀ i, 3 ≤ i → i ≤ n → nth U (i + 1) = nth U i + 1 / ((n : ℝ) - 2) := by
  have hn' : (3 : ℝ) ≤ n := by exact_mod_cast hn
  have hp : (0 : ℝ) < (n : ℝ) - 2 := by linarith
  have hstep : ∀ i, 3 ≤ i → i ≤ n → nth U (i + 1) = nth U i + 1 / ((n : ℝ) - 2) := by
    intro i h1 h2
    obtain ⟨j, rfl⟩ : ∃ j, i = 3 + j := ⟨i - 3, by omega⟩
    rw [show 3 + j + 1 = 3 + (j + 1) by omega, h.inner (j + 1) (by omega), h.inner j (by omega)]
    push_cast
    ring
  have hpos : (0 : ℝ) < 1 / ((n : ℝ) - 2) := by positivity
  refine ⟨?_, ?_, hstep⟩
  · have hmono : ∀ d i, i + d < U.length → nth U i ≤ nth U (i + d) := by
      intro d
      induction d with
      | zero => intro i _; exact le_rfl
      | succ d ih =>
        intro i hi
        refine (ih i (by omega)).trans ?_
        have hl := h.len
        by_cases c1 : i + d < 3
        · rw [h.zeros _ (by omega), h.zeros _ (by omega)]
        by_cases c2 : i + d ≤ n
        · rw [← add_assoc, hstep _ (by omega) c2]; linarith
        · rw [h.ones _ (by omega) (by omega), h.ones _ (by omega) (by omega)]
    intro i j hij hj
    have := hmono (j - i) i (by omega)
    rwa [show i + (j - i) = j by omega] at this
  · intro hb
    have hb' : (n : ℝ) ≤ 500000 := by exact_mod_cast hb
    have hq : 2 / 1000000 < 1 / ((n : ℝ) - 2) := by
      rw [lt_div_iff₀ hp]; linarith
    constructor
    · rw [hstep 3 le_rfl hn, h.zeros 3 le_rfl, zero_add, abs_zero, max_eq_right (abs_nonneg _), abs_of_pos hpos]
      linarith
    · have e := hstep n hn le_rfl
      have e1 := h.ones (n + 1) le_rfl (by omega)
      have e0 : 0 ≤ nth U n := by
        obtain ⟨j, hj⟩ : ∃ j, n = 3 + j := ⟨n - 3, by omega⟩
        have := h.inner j (by omega)
        rw [← hj] at this
        rw [this]
        positivity
      rw [e1, abs_one, abs_of_nonneg e0, max_eq_right (by linarith)]
      linarith

/-- the whole run -/
theorem cubicLocal_run {pts T : List (XYZ ℝ)} {m : ℕ} (hp : pts.length = m + 1) (hm : 4 ≤ m) (ha : ApartPoints pts) (hT : computeTangentFive pts = ok (true, T))
    (hl : T.length = m + 1) :
    Runs (cubicLocalInterpolation pts) (fun r => ∃ c, r = some c ∧ c.degree = 3 ∧ LocalPoints pts T (chord pts) c.cps m ∧ UniformCubic c.knots (3 * m)) := by
  unfold cubicLocalInterpolation
  rw [validate_of (by simp; omega), ok_bind, if_neg (by omega), hT, ok_bind, if_neg (by simp)]
  obtain ⟨hs, e1, c1, c2⟩ := cubicChords_run ha
  rw [e1, ok_bind]
  obtain ⟨cps, e2, hc⟩ := cubicLocalPoints_run (hs := hs) hp hl (by omega)
  rw [e2, ok_bind]
  have hlen : ((cps.length : ℕ) : ℤ) = ((3 * m : ℕ) : ℤ) + 1 := by rw [hc.len]; push_cast; ring
  rw [hlen]
  obtain ⟨kv, e3, hk⟩ := cubicLocalKnots_run (n := 3 * m) (by omega)
  rw [e3, ok_bind]
  refine Runs.ok ⟨_, rfl, rfl, ⟨hc.len, hc.first, fun i hi => ?_, fun i hi => ?_, hc.three⟩, hk⟩
  · rw [← c2 i (by omega)]; exact hc.one i hi
  · rw [← c2 i (by omega)]; exact hc.two i hi

/-- all weights are one -/
theorem LocalPoints.weight {pts T : List (XYZ ℝ)} {h : ℕ → ℝ} {cps : List (XYZW ℝ)} {m : ℕ} (hc : LocalPoints pts T h cps m) : ∀ i, i ≤ 3 * m → (nth cps i).w = 1 := by
  intro i hi
  by_cases h0 : i = 0
  · rw [h0, hc.first]; rfl
  obtain ⟨j, hj⟩ : ∃ j, i = 3 * j + 1 ∨ i = 3 * j + 2 ∨ i = 3 * j + 3 := ⟨(i - 1) / 3, by omega⟩
  rcases hj with rfl | rfl | rfl
  · rw [hc.one j (by omega)]; rfl
  · rw [hc.two j (by omega)]; rfl
  · rw [hc.three j (by omega)]; rfl

section
variable {c : NurbsCurve ℝ} {n s : ℕ} {t : ℝ}

/-- a point of a cubic curve with weights one -/
theorem unit_cubic_point (w : WellFormed c 3 n) (he : EndsSeparated (nth c.knots) 3 n) (h0 : nth c.knots 3 ≤ t) (h1 : t ≤ nth c.knots (n + 1))
    (hs : IsSpan (nth c.knots) 3 n t s) (hw : ∀ i, i ≤ n → (nth c.cps i).w = 1) :
    NurbsCurve.pointOnCurve c t = ok (∑ r ∈ range 4, Nspan (nth c.knots) s 3 (s - 3 + r) t • (nth c.cps (s - 3 + r)).raw) := by
  rw [unit_weight_point w he h0 h1 hw]
  exact congrArg ok (curvePoint_span (P := fun j => (nth c.cps j).raw) (wf_monoTo w) le_rfl hs)

/-- the derivative of a cubic curve with weights one -/
theorem unit_cubic_deriv (w : WellFormed c 3 n) (he : EndsSeparated (nth c.knots) 3 n) (h0 : nth c.knots 3 ≤ t) (h1 : t ≤ nth c.knots (n + 1))
    (hs : IsSpan (nth c.knots) 3 n t s) (hw : ∀ i, i ≤ n → (nth c.cps i).w = 1) (hz : ∑ r ∈ range 4, dN (nth c.knots) s 3 (s - 3 + r) 1 t = 0) :
    ∃ l, NurbsCurve.rationalDerivatives c 1 t = ok l ∧ l.length = 2 ∧ nth l 1 = ∑ r ∈ range 4, dN (nth c.knots) s 3 (s - 3 + r) 1 t • (nth c.cps (s - 3 + r)).raw := by
  have hs' := hs
  obtain ⟨s1, s2, -⟩ := hs'
  obtain ⟨-, hone⟩ := basis_convex (wf_monoTo w) hs
  have hw1 : weightFn (nth c.knots) 3 n (nth c.cps) t = 1 := by
    unfold weightFn
    rw [← hone]
    refine Finset.sum_congr rfl fun j hj => ?_
    rw [hw j (by have := Finset.mem_range.mp hj; omega), mul_one]
  have hd0 : (curveDeriv (nth c.knots) s 3 n (nth c.cps) 0 t).w = 1 := by
    unfold curveDeriv
    rw [← hw1, XYZW.sum_w]
    unfold weightFn
    refine Finset.sum_congr rfl fun j hj => ?_
    rw [dN_zero, N_eq_Nspan (wf_monoTo w) _ hs 3 j (by have := Finset.mem_range.mp hj; omega)]
    omega
  have hd1 : (curveDeriv (nth c.knots) s 3 n (nth c.cps) 1 t).w = 0 := by
    rw [curveDeriv_window s1 s2, XYZW.sum_w, ← hz]
    refine Finset.sum_congr rfl fun r hr => ?_
    have := Finset.mem_range.mp hr
    show _ * (nth c.cps (s - 3 + r)).w = _
    rw [hw _ (by omega), mul_one]
  obtain ⟨l, e, hl, hk⟩ := C20_leibniz w he h0 h1 hs (d := 1) (by omega) (by rw [hw1]; exact one_ne_zero)
  refine ⟨l, e, hl, ?_⟩
  have h := hk 1 le_rfl
  rw [sum_range_succ, sum_range_one, hd0, hd1, curveDeriv_window s1 s2, XYZW.sum_raw] at h
  simp only [Nat.choose_zero_right, Nat.cast_one, mul_one, one_smul, mul_zero, zero_smul, add_zero, Nat.sub_zero] at h
  rw [h]

end

/-- C135: for 5 to 166667 points, consecutive ones apart, for which no tangent formula divides by zero, `CubicLocalInterpolation` returns true and a
valid clamped cubic curve on `[0, 1]` that starts at the first point in the direction of its tangent and ends at the last one in the direction of
its tangent. At the parameter `(3k - 1) / (3m - 2)` the curve has the direction of the tangent `T_k` of the point `Q_k` and is at the point
`Q_k + (h_k - h_{k-1}) / 18 T_k`, where `h_k` is the distance from `Q_k` to `Q_{k+1}` and `T` are the tangents of property C106. Missing for the
full property: the curve should pass through `Q_k`. -/
theorem C135_curve_partial {pts : List (XYZ ℝ)} {m : ℕ} (hp : pts.length = m + 1) (hm : 4 ≤ m) (hbig : m ≤ 166666) (ha : ApartPoints pts)
    (hb : ∀ k, k < pts.length → bend pts k + bend pts (k + 2) ≠ 0) :
    ∃ T c, computeTangentFive pts = ok (true, T) ∧ T.length = pts.length ∧ cubicLocalInterpolation pts = ok (some c) ∧
      WellFormed c 3 (3 * m) ∧ EndsSeparated (nth c.knots) 3 (3 * m) ∧ ClampedEnds (nth c.knots) 3 (3 * m) ∧ nth c.knots 3 = 0 ∧ nth c.knots (3 * m + 1) = 1 ∧
      NurbsCurve.pointOnCurve c 0 = ok (nth pts 0) ∧ NurbsCurve.pointOnCurve c 1 = ok (nth pts m) ∧
      (∃ l, NurbsCurve.rationalDerivatives c 1 0 = ok l ∧ nth l 1 = ((3 * (m : ℝ) - 2) * chord pts 0) • nth T 0) ∧
      (∃ l, NurbsCurve.rationalDerivatives c 1 1 = ok l ∧ nth l 1 = ((3 * (m : ℝ) - 2) * chord pts (m - 1)) • nth T m) ∧
      ∀ k, k + 1 < m → NurbsCurve.pointOnCurve c ((3 * (k : ℝ) + 2) / (3 * m - 2)) = ok (nth pts (k + 1) + ((chord pts (k + 1) - chord pts k) / 18) • nth T (k + 1)) ∧
        ∃ l, NurbsCurve.rationalDerivatives c 1 ((3 * (k : ℝ) + 2) / (3 * m - 2)) = ok l ∧
          nth l 1 = ((3 * (m : ℝ) - 2) * (chord pts (k + 1) + chord pts k) / 6) • nth T (k + 1) := by
  obtain ⟨T, eT, hT, -⟩ := C106_tangents_partial (by omega) hb
  obtain ⟨-, e, c, rfl, hdeg, hc, hk⟩ := cubicLocal_run hp hm ha eT (by omega)
  obtain ⟨f1, f2, f3⟩ := hk.facts (by omega)
  have he := f2 (by omega)
  have w : WellFormed c 3 (3 * m) := ⟨hdeg, by omega, by omega, hc.len, by omega, hk.len, f1⟩
  have hM := wf_monoTo w
  have hw := hc.weight
  have hm' : (4 : ℝ) ≤ m := by exact_mod_cast hm
  have hden : (0 : ℝ) < 3 * m - 2 := by linarith
  have hcast : (((3 * m : ℕ) : ℝ) - 2) = 3 * m - 2 := by push_cast; ring
  rw [hcast] at f3
  have hd : (0 : ℝ) < 1 / (3 * m - 2) := by positivity
  have k3 : nth c.knots 3 = 0 := hk.zeros 3 le_rfl
  have kn : nth c.knots (3 * m + 1) = 1 := hk.ones _ le_rfl (by omega)
  have raw1 : ∀ p : XYZ ℝ, (XYZW.ofXYZ p 1).raw = p := fun p => by apply XYZ.ext <;> simp [XYZW.ofXYZ, XYZW.raw]
  have hs0 : IsSpan (nth c.knots) 3 (3 * m) 0 3 := ⟨le_rfl, by omega, by rw [f3 3 le_rfl (by omega)]; linarith, k3.le, Or.inl (by rw [f3 3 le_rfl (by omega), k3]; linarith)⟩
  have kl : nth c.knots (3 * m) = 1 - 1 / (3 * m - 2) := by have := f3 (3 * m) (by omega) le_rfl; rw [kn] at this; linarith
  have hs1 : IsSpan (nth c.knots) 3 (3 * m) 1 (3 * m) := ⟨by omega, le_rfl, by rw [kl, kn]; linarith, by rw [kl]; linarith, Or.inr ⟨kn.symm, rfl⟩⟩
  refine ⟨T, c, eT, hT, e, w, he, ⟨?_, ?_⟩, k3, kn, ?_, ?_, ?_, ?_, ?_⟩
  · rw [hk.zeros 0 (by omega), k3]
  · rw [kn, hk.ones _ (by omega) (by omega)]
  · rw [unit_cubic_point w he k3.le (by rw [kn]; norm_num) hs0 hw]
    have hN : ∀ i, Nspan (nth c.knots) 3 3 i 0 = if i = 0 then 1 else 0 := by
      have := Nspan_start (U := nth c.knots) (p := 3) (fun i _ h => by rw [hk.zeros i h, k3]) hs0.2.2.1 3 le_rfl
      rwa [k3] at this
    simp only [sum_range_succ, sum_range_zero, hN]
    simp [hc.first, raw1]
  · rw [unit_cubic_point w he (by rw [k3]; norm_num) kn.ge hs1 hw]
    have hN : ∀ i, Nspan (nth c.knots) (3 * m) 3 i 1 = if i = 3 * m then 1 else 0 := by
      have := Nspan_end (U := nth c.knots) (p := 3) (n := 3 * m) (fun i h h' => by rw [hk.ones i h (by omega), kn]) hs1.2.2.1 3 le_rfl
      rwa [kn] at this
    simp only [sum_range_succ, sum_range_zero, hN]
    rw [if_neg (by omega), if_neg (by omega), if_neg (by omega), if_pos (by omega), show 3 * m - 3 + 3 = 3 * (m - 1) + 3 by omega, hc.three (m - 1) (by omega), raw1,
      show m - 1 + 1 = m by omega]
    simp
  · obtain ⟨d0, d1, d2, d3⟩ := clamped_start_dN (U := nth c.knots) (t := 0) hM (by omega) hd (hk.zeros 1 (by omega)) (hk.zeros 2 (by omega)) k3 (by rw [f3 3 le_rfl (by omega), k3])
    obtain ⟨l, e1, -, e2⟩ := unit_cubic_deriv w he k3.le (by rw [kn]; norm_num) hs0 hw (by simp [sum_range_succ, d0, d1, d2, d3])
    refine ⟨l, e1, ?_⟩
    rw [e2]
    simp only [sum_range_succ, sum_range_zero, Nat.sub_self, Nat.zero_add, zero_add, d0, d1, d2, d3, zero_smul, add_zero]
    rw [hc.first, show nth c.cps 1 = _ from hc.one 0 (by omega), raw1, raw1]
    apply XYZ.ext <;> simp <;> ring
  · obtain ⟨r, hr⟩ : ∃ r, 3 * m = r + 3 := ⟨3 * m - 3, by omega⟩
    obtain ⟨d0, d1, d2, d3⟩ := clamped_end_dN (U := nth c.knots) (t := 1) (r := r) hM (by omega) hd (by rw [← hr, kl]) (hk.ones _ (by omega) (by omega))
      (hk.ones _ (by omega) (by omega)) (hk.ones _ (by omega) (by omega))
    rw [← hr] at d0 d1 d2 d3
    have i0 : 3 * m - 3 = r := by omega
    obtain ⟨l, e1, -, e2⟩ := unit_cubic_deriv w he (by rw [k3]; norm_num) kn.ge hs1 hw (by simp [sum_range_succ, i0, ← hr, d0, d1, d2, d3])
    refine ⟨l, e1, ?_⟩
    rw [e2, i0]
    simp only [sum_range_succ, sum_range_zero, zero_add, add_zero, ← hr, d0, d1, d2, d3, zero_smul]
    rw [show r + 2 = 3 * (m - 1) + 2 by omega, show nth c.cps (3 * m) = nth c.cps (3 * (m - 1) + 3) by rw [show 3 * (m - 1) + 3 = 3 * m by omega], hc.three (m - 1) (by omega),
      hc.two (m - 1) (by omega), raw1, raw1, show m - 1 + 1 = m by omega]
    apply XYZ.ext <;> simp <;> ring
  · intro k hk2
    set t : ℝ := (3 * (k : ℝ) + 2) / (3 * m - 2) with ht
    set d : ℝ := 1 / (3 * m - 2) with hdd
    have hU : ∀ i, i ≤ 3 * m - 2 → nth c.knots (3 + i) = i * d := fun i hi => by rw [hk.inner i hi, hcast, hdd]; ring
    have hkm : (k : ℝ) + 2 ≤ m := by exact_mod_cast hk2
    have htd : t = (3 * (k : ℝ) + 2) * d := by rw [ht, hdd]; ring
    have u1 : nth c.knots (3 * k + 2 + 1) = t - 2 * d := by rw [show 3 * k + 2 + 1 = 3 + 3 * k by omega, hU _ (by omega), htd]; push_cast; ring
    have u2 : nth c.knots (3 * k + 2 + 2) = t - d := by rw [show 3 * k + 2 + 2 = 3 + (3 * k + 1) by omega, hU _ (by omega), htd]; push_cast; ring
    have u3 : nth c.knots (3 * k + 2 + 3) = t := by rw [show 3 * k + 2 + 3 = 3 + (3 * k + 2) by omega, hU _ (by omega), htd]; push_cast; ring
    have u4 : nth c.knots (3 * k + 2 + 4) = t + d := by rw [show 3 * k + 2 + 4 = 3 + (3 * k + 3) by omega, hU _ (by omega), htd]; push_cast; ring
    have u5 : nth c.knots (3 * k + 2 + 5) = t + 2 * d := by rw [show 3 * k + 2 + 5 = 3 + (3 * k + 4) by omega, hU _ (by omega), htd]; push_cast; ring
    have hs : IsSpan (nth c.knots) 3 (3 * m) t (3 * k + 2 + 3) := ⟨by omega, by omega, by rw [u3, u4]; linarith, u3.le, Or.inl (by rw [u4]; linarith)⟩
    have t0 : nth c.knots 3 ≤ t := by rw [← u3]; exact hM _ _ (by omega) (by omega)
    have t1 : t ≤ nth c.knots (3 * m + 1) := by rw [← u3]; exact hM _ _ (by omega) (by omega)
    obtain ⟨b0, b1, b2, b3⟩ := uniform_knot_cubic hd u1 u2 u3 u4 u5
    obtain ⟨d0, d1, d2, d3⟩ := uniform_knot_dN hM (by omega) hd u1 u2 u3 u4 u5
    have p0 : nth c.cps (3 * k + 2) = _ := hc.two k (by omega)
    have p1 : nth c.cps (3 * k + 2 + 1) = _ := hc.three k (by omega)
    have p2 : nth c.cps (3 * k + 2 + 2) = _ := hc.one (k + 1) (by omega)
    constructor
    · rw [unit_cubic_point w he t0 t1 hs hw]
      simp only [sum_range_succ, sum_range_zero, Nat.add_sub_cancel, add_zero, b0, b1, b2, b3, p0, p1, p2, raw1, zero_smul, zero_add]
      refine congrArg ok ?_
      apply XYZ.ext <;> simp <;> ring
    · obtain ⟨l, e1, -, e2⟩ := unit_cubic_deriv w he t0 t1 hs hw (by simp [sum_range_succ, d0, d1, d2, d3])
      refine ⟨l, e1, ?_⟩
      rw [e2]
      simp only [sum_range_succ, sum_range_zero, Nat.add_sub_cancel, add_zero, d0, d1, d2, d3, p0, p1, p2, raw1, zero_smul, zero_add]
      rw [hdd]
      apply XYZ.ext <;> simp <;> ring

/-- C135: with equal distances between consecutive points the curve passes through all of them, in order, with their tangents' directions. -/
theorem C135_equal_chords_partial {pts : List (XYZ ℝ)} {m : ℕ} {h : ℝ} (hp : pts.length = m + 1) (hm : 4 ≤ m) (hbig : m ≤ 166666)
    (hh : ∀ i, i < m → chord pts i = h) (ha : 1 / 1000000 * (1 + h) < h) (hb : ∀ k, k < pts.length → bend pts k + bend pts (k + 2) ≠ 0) :
    ∃ (T : List (XYZ ℝ)) (c : NurbsCurve ℝ) (t : ℕ → ℝ), computeTangentFive pts = ok (true, T) ∧ cubicLocalInterpolation pts = ok (some c) ∧ t 0 = 0 ∧ t m = 1 ∧
      (∀ k, k < m → t k < t (k + 1)) ∧ ∀ k, k ≤ m → NurbsCurve.pointOnCurve c (t k) = ok (nth pts k) ∧
        ∃ (l : List (XYZ ℝ)) (a : ℝ), NurbsCurve.rationalDerivatives c 1 (t k) = ok l ∧ 0 < a ∧ nth l 1 = a • nth T k := by
  have hm' : (4 : ℝ) ≤ m := by exact_mod_cast hm
  have hden : (0 : ℝ) < 3 * m - 2 := by linarith
  have hh0 : 0 < h := by linarith
  obtain ⟨T, c, eT, hT, e, -, -, -, -, -, c0, c1, d0, d1, hk⟩ := C135_curve_partial hp hm hbig (fun i hi => by rw [hh i (by omega)]; exact ha) hb
  refine ⟨T, c, fun k => if k = 0 then 0 else if k = m then 1 else (3 * (k : ℝ) - 1) / (3 * m - 2), eT, e, if_pos rfl, ?_, ?_, ?_⟩
  · simp only [if_neg (show m ≠ 0 by omega), if_true]
  · intro k hkm
    have hkm' : (k : ℝ) + 1 ≤ m := by exact_mod_cast hkm
    have hk0 : (0 : ℝ) ≤ k := by positivity
    simp only [if_neg (show k + 1 ≠ 0 by omega), if_neg (show k ≠ m by omega)]
    by_cases a0 : k = 0
    · subst a0
      simp only [if_true, if_neg (show 0 + 1 ≠ m by omega)]
      apply div_pos _ hden
      norm_num
    · rw [if_neg a0]
      by_cases a1 : k + 1 = m
      · rw [if_pos a1, div_lt_one hden]
        have : (m : ℝ) = k + 1 := by rw [← a1]; push_cast; ring
        linarith
      · rw [if_neg a1]
        apply div_lt_div_of_pos_right _ hden
        push_cast
        linarith
  · intro k hkm
    dsimp only
    by_cases a0 : k = 0
    · subst a0
      rw [if_pos rfl]
      obtain ⟨l, e1, e2⟩ := d0
      rw [hh 0 (by omega)] at e2
      exact ⟨c0, l, _, e1, mul_pos hden hh0, e2⟩
    rw [if_neg a0]
    by_cases a1 : k = m
    · subst a1
      rw [if_pos rfl]
      obtain ⟨l, e1, e2⟩ := d1
      rw [hh _ (by omega)] at e2
      exact ⟨c1, l, _, e1, mul_pos hden hh0, e2⟩
    rw [if_neg a1]
    obtain ⟨j, rfl⟩ : ∃ j, k = j + 1 := ⟨k - 1, by omega⟩
    obtain ⟨q, l, e1, e2⟩ := hk j (by omega)
    rw [hh _ (by omega), hh _ (by omega)] at q e2
    rw [show (3 * ((j + 1 : ℕ) : ℝ) - 1) = 3 * j + 2 by push_cast; ring]
    refine ⟨?_, l, _, e1, ?_, e2⟩
    · rw [q, sub_self, zero_div, zero_smul, add_zero]
    · have := mul_pos hden hh0
      linarith

/-- C135: no points is an invalid argument. -/
theorem C135_empty : cubicLocalInterpolation [] = invalidArg := rfl

/-- C135: two to four points: the function returns false. -/
theorem C135_too_few {pts : List (XYZ ℝ)} (h1 : 2 ≤ pts.length) (h2 : pts.length < 5) : cubicLocalInterpolation pts = ok none := by
  unfold cubicLocalInterpolation
  rw [validate_of (by simp; omega), ok_bind, if_neg (by omega), C106_too_few h2, ok_bind, if_pos rfl]

/-- C135 is false for one point: the function returns true with a curve of degree zero, which is not a valid curve: `NurbsCurve::Check` rejects it. -/
theorem C135_single_violated (q : XYZ ℝ) :
    ∃ c, cubicLocalInterpolation [q] = ok (some c) ∧ c.degree = 0 ∧ c.cps = [XYZW.ofXYZ q 1] ∧ (¬ ∃ p n, WellFormed c p n) ∧ BsplineCurve.check c = invalidArg := by
  refine ⟨⟨0, [0, 1], [XYZW.ofXYZ q 1]⟩, rfl, rfl, rfl, ?_, rfl⟩
  rintro ⟨p, n, w⟩
  have h1 : (0 : ℤ) = p := w.degree
  have h2 := w.pos
  omega

/-- C135 is false for points with a straight stretch: whenever the first three points are on a line and the third to fifth are on a line, the tangents,
and with them all the control points next to them, are not numbers. -/
theorem C135_straight_violated {pts : List (XYZ ℝ)} (h5 : 5 ≤ pts.length)
    (h1 : (nth pts 1 - nth pts 0).cross (nth pts 2 - nth pts 1) = 0) (h2 : (nth pts 3 - nth pts 2).cross (nth pts 4 - nth pts 3) = 0) :
    cubicLocalInterpolation pts = nonfinite := by
  unfold cubicLocalInterpolation
  rw [validate_of (by simp; omega), ok_bind, if_neg (by omega), C106_straight_violated h5 h1 h2]
  rfl

/-- points of a curve with a bump, the chords before and after the middle one of different lengths -/
noncomputable def bumpPoints : List (XYZ ℝ) := [⟨-2, -1, 0⟩, ⟨-1, -1, 0⟩, ⟨0, 0, 0⟩, ⟨2, -1, 0⟩, ⟨3, -1, 0⟩]

theorem bump_bend : bend bumpPoints 0 = 1 ∧ bend bumpPoints 1 = 1 ∧ bend bumpPoints 2 = 1 ∧ bend bumpPoints 3 = 3 ∧ bend bumpPoints 4 = 1 ∧ bend bumpPoints 5 = 1 ∧
    bend bumpPoints 6 = 1 := by
  have s9 : Real.sqrt 9 = 3 := by rw [show (9 : ℝ) = 3 ^ 2 by norm_num]; exact Real.sqrt_sq (by norm_num)
  refine ⟨?_, ?_, ?_, ?_, ?_, ?_, ?_⟩ <;>
  · simp only [bend, extDiff, XYZ.cross, XYZ.length, nth, List.length_cons, List.length_nil, bumpPoints]
    norm_num [s9]

theorem bump_chord : chord bumpPoints 0 = 1 ∧ chord bumpPoints 1 = Real.sqrt 2 ∧ chord bumpPoints 2 = Real.sqrt 5 ∧ chord bumpPoints 3 = 1 := by
  refine ⟨?_, ?_, ?_, ?_⟩ <;>
  · simp only [chord, XYZ.length, nth, bumpPoints]
    norm_num

theorem bump_apart : ApartPoints bumpPoints := by
  obtain ⟨h0, h1, h2, h3⟩ := bump_chord
  have s2 : 1 ≤ Real.sqrt 2 := by rw [Real.one_le_sqrt]; norm_num
  have s5 : 1 ≤ Real.sqrt 5 := by rw [Real.one_le_sqrt]; norm_num
  intro i hi
  have : i < 4 := by simp [bumpPoints] at hi; omega
  interval_cases i
  · rw [h0]; norm_num
  · rw [h1]; linarith
  · rw [h2]; linarith
  · rw [h3]; norm_num

theorem bump_tangent : ∀ k, k < bumpPoints.length → bend bumpPoints k + bend bumpPoints (k + 2) ≠ 0 := by
  obtain ⟨h0, h1, h2, h3, h4, h5, h6⟩ := bump_bend
  intro k hk
  have : k < 5 := hk
  interval_cases k <;> norm_num [h0, h1, h2, h3, h4, h5, h6]

/-- the hypotheses of `C135_curve_partial` are met -/
example : ∃ T c, computeTangentFive bumpPoints = ok (true, T) ∧ cubicLocalInterpolation bumpPoints = ok (some c) ∧
    NurbsCurve.pointOnCurve c 0 = ok ⟨-2, -1, 0⟩ ∧ NurbsCurve.pointOnCurve c 1 = ok ⟨3, -1, 0⟩ := by
  obtain ⟨T, c, h1, -, h2, -, -, -, -, -, h3, h4, -⟩ := C135_curve_partial (m := 4) rfl le_rfl (by norm_num) bump_apart bump_tangent
  exact ⟨T, c, h1, h2, h3, h4⟩

/-- a normalised vector has coordinates between -1 and 1 -/
theorem normalize_y (a : XYZ ℝ) : |a.normalize.y| ≤ 1 := by
  by_cases h : a = 0
  · rw [h, (C29_normalize 0).2]; simp
  · have h1 := ((C29_normalize a).1 h).1
    have h2 := length_sq a.normalize
    rw [h1] at h2
    rw [← sq_le_one_iff_abs_le_one]
    nlinarith [sq_nonneg a.normalize.x, sq_nonneg a.normalize.z]

/-- C135 is false in general: for five points, no three on a line, that are far apart, the valid curve that `CubicLocalInterpolation` returns does not
pass through the middle point, at any parameter. -/
theorem C135_misses_violated : ∃ c, cubicLocalInterpolation bumpPoints = ok (some c) ∧ WellFormed c 3 12 ∧ nth c.knots 3 = 0 ∧ nth c.knots 13 = 1 ∧
    ∀ t, 0 ≤ t → t ≤ 1 → ∃ x, NurbsCurve.pointOnCurve c t = ok x ∧ x ≠ nth bumpPoints 2 := by
  obtain ⟨T, eT, hT, hTk⟩ := C106_tangents_partial (pts := bumpPoints) (by simp [bumpPoints]) bump_tangent
  obtain ⟨-, e, c, rfl, hdeg, hc, hk⟩ := cubicLocal_run (m := 4) rfl le_rfl bump_apart eT hT
  obtain ⟨f1, f2, f3⟩ := hk.facts (by omega)
  have he := f2 (by omega)
  have w : WellFormed c 3 12 := ⟨hdeg, by omega, by omega, hc.len, by omega, hk.len, f1⟩
  have hM := wf_monoTo w
  have hw := hc.weight
  have k3 : nth c.knots 3 = 0 := hk.zeros 3 le_rfl
  have kn : nth c.knots 13 = 1 := hk.ones _ le_rfl (by omega)
  have raw1 : ∀ p : XYZ ℝ, (XYZW.ofXYZ p 1).raw = p := fun p => by apply XYZ.ext <;> simp [XYZW.ofXYZ, XYZW.raw]
  obtain ⟨c0, c1, c2, c3⟩ := bump_chord
  have hTy : ∀ k, k < 5 → |(nth T k).y| ≤ 1 := by
    intro k hk5
    obtain ⟨α, -, -, -, h⟩ := hTk k hk5
    rw [h]
    exact normalize_y _
  have hT2 : nth T 2 = ⟨1, 0, 0⟩ := by
    obtain ⟨α, -, -, h1, h2⟩ := hTk 2 (by simp [bumpPoints])
    rw [bump_bend.2.2.1, show (2 + 2) = 4 from rfl, bump_bend.2.2.2.2.1] at h1
    have hα : α = 1 / 2 := by linarith
    have hv : (1 - α) • extDiff bumpPoints (2 + 1) + α • extDiff bumpPoints (2 + 2) = ⟨3 / 2, 0, 0⟩ := by
      rw [hα]
      simp only [extDiff, bumpPoints, nth, List.length_cons, List.length_nil]
      apply XYZ.ext <;> norm_num
    rw [h2, hv]
    have hl : XYZ.length (⟨3 / 2, 0, 0⟩ : XYZ ℝ) = 3 / 2 := by
      show Real.sqrt _ = _
      rw [show (3 / 2 : ℝ) * (3 / 2) + 0 * 0 + 0 * 0 = (3 / 2) ^ 2 by norm_num]
      exact Real.sqrt_sq (by norm_num)
    unfold XYZ.normalize
    rw [hl]
    norm_num
  have s2 : Real.sqrt 2 < 3 := by rw [Real.sqrt_lt' (by norm_num)]; norm_num
  have s5 : Real.sqrt 5 < 3 := by rw [Real.sqrt_lt' (by norm_num)]; norm_num
  have s25 : Real.sqrt 2 < Real.sqrt 5 := Real.sqrt_lt_sqrt (by norm_num) (by norm_num)
  have p0 := hc.first
  have p1 : nth c.cps 1 = _ := hc.one 0 (by omega)
  have p2 : nth c.cps 2 = _ := hc.two 0 (by omega)
  have p3 : nth c.cps 3 = _ := hc.three 0 (by omega)
  have p4 : nth c.cps 4 = _ := hc.one 1 (by omega)
  have p5 : nth c.cps 5 = _ := hc.two 1 (by omega)
  have p6 : nth c.cps 6 = _ := hc.three 1 (by omega)
  have p7 : nth c.cps 7 = _ := hc.one 2 (by omega)
  have p8 : nth c.cps 8 = _ := hc.two 2 (by omega)
  have p9 : nth c.cps 9 = _ := hc.three 2 (by omega)
  have p10 : nth c.cps 10 = _ := hc.one 3 (by omega)
  have p11 : nth c.cps 11 = _ := hc.two 3 (by omega)
  have p12 : nth c.cps 12 = _ := hc.three 3 (by omega)
  have hz : ∀ j, j = 5 ∨ j = 6 ∨ j = 7 → (nth c.cps j).raw.y = 0 := by
    rintro j (rfl | rfl | rfl)
    · rw [p5, raw1, hT2]; simp [bumpPoints, nth]
    · rw [p6, raw1]; simp [bumpPoints, nth]
    · rw [p7, raw1, hT2]; simp [bumpPoints, nth]
  have a0 := abs_le.mp (hTy 0 (by omega))
  have a1 := abs_le.mp (hTy 1 (by omega))
  have a3 := abs_le.mp (hTy 3 (by omega))
  have a4 := abs_le.mp (hTy 4 (by omega))
  have r2 := Real.sqrt_nonneg 2
  have r5 := Real.sqrt_nonneg 5
  have v0 : nth bumpPoints 0 = ⟨-2, -1, 0⟩ := rfl
  have v1 : nth bumpPoints 1 = ⟨-1, -1, 0⟩ := rfl
  have v3 : nth bumpPoints 3 = ⟨2, -1, 0⟩ := rfl
  have v4 : nth bumpPoints 4 = ⟨3, -1, 0⟩ := rfl
  have hneg : ∀ j, j ≤ 12 → ¬ (j = 5 ∨ j = 6 ∨ j = 7) → (nth c.cps j).raw.y < 0 := by
    intro j hj hn
    interval_cases j
    · rw [p0, raw1]; norm_num [v0, v1, v3, v4]
    · rw [p1, raw1, c0]; simp only [zero_add, Nat.reduceAdd, v0, v1, v3, v4, XYZ.add_y, XYZ.sub_y, XYZ.smul_y]; linarith
    · rw [p2, raw1, c0]; simp only [zero_add, Nat.reduceAdd, v0, v1, v3, v4, XYZ.add_y, XYZ.sub_y, XYZ.smul_y]; linarith
    · rw [p3, raw1]; norm_num [v0, v1, v3, v4]
    · rw [p4, raw1, c1]; simp only [zero_add, Nat.reduceAdd, v0, v1, v3, v4, XYZ.add_y, XYZ.sub_y, XYZ.smul_y]; nlinarith
    · omega
    · omega
    · omega
    · rw [p8, raw1, c2]; simp only [zero_add, Nat.reduceAdd, v0, v1, v3, v4, XYZ.add_y, XYZ.sub_y, XYZ.smul_y]; nlinarith
    · rw [p9, raw1]; norm_num [v0, v1, v3, v4]
    · rw [p10, raw1, c3]; simp only [zero_add, Nat.reduceAdd, v0, v1, v3, v4, XYZ.add_y, XYZ.sub_y, XYZ.smul_y]; linarith
    · rw [p11, raw1, c3]; simp only [zero_add, Nat.reduceAdd, v0, v1, v3, v4, XYZ.add_y, XYZ.sub_y, XYZ.smul_y]; linarith
    · rw [p12, raw1]; norm_num [v0, v1, v3, v4]
  have hle : ∀ j, j ≤ 12 → (nth c.cps j).raw.y ≤ 0 := by
    intro j hj
    by_cases h : j = 5 ∨ j = 6 ∨ j = 7
    · rw [hz j h]
    · exact (hneg j hj h).le
  refine ⟨c, e, w, k3, kn, fun t t0 t1 => ?_⟩
  obtain ⟨s, -, hs⟩ := getKnotSpanIndex_isSpan w.knots w.pn w.sorted he (t := t) (by rw [k3]; exact t0) (by rw [kn]; exact t1)
  have hpt := unit_cubic_point w he (by rw [k3]; exact t0) (by rw [kn]; exact t1) hs hw
  refine ⟨_, hpt, fun hx => ?_⟩
  obtain ⟨q1, q2, q3, q4, q5⟩ := hs
  have hy : ∑ r ∈ range 4, Nspan (nth c.knots) s 3 (s - 3 + r) t * (nth c.cps (s - 3 + r)).raw.y = 0 := by
    have := congrArg XYZ.y hx
    simpa [sum_range_succ, bumpPoints, nth] using this
  have ht' : t ≤ nth c.knots (s + 1) := by
    rcases q5 with h | h
    · exact h.le
    · exact h.1.le
  have hterm : ∀ r, r < 4 → Nspan (nth c.knots) s 3 (s - 3 + r) t * (nth c.cps (s - 3 + r)).raw.y = 0 := by
    intro r hr
    refine (Finset.sum_eq_zero_iff_of_nonpos ?_).mp hy r (Finset.mem_range.mpr hr)
    intro r hr
    have := Finset.mem_range.mp hr
    exact mul_nonpos_of_nonneg_of_nonpos (Nspan_nonneg hM q4 ht' 3 _ (by omega)) (hle _ (by omega))
  have hin : ∀ r, r < 4 → 0 < Nspan (nth c.knots) s 3 (s - 3 + r) t → s - 3 + r = 5 ∨ s - 3 + r = 6 ∨ s - 3 + r = 7 := by
    intro r hr hpos
    by_contra hn
    have h1 := hneg (s - 3 + r) (by omega) hn
    have h2 := hterm r hr
    nlinarith
  rcases q5 with q5 | ⟨q5, q6⟩
  · have g0 := hin 0 (by omega) (Nspan_first_pos hM q5 q3 (by omega) 3 q1)
    rcases q4.lt_or_eq with q4 | q4
    · have g3 := hin 3 (by omega) (by rw [Nat.sub_add_cancel q1]; exact Nspan_last_pos hM q4 q3 3 (by omega))
      omega
    · have hst : nth c.knots (s - 1) < nth c.knots s := by
        have := f3 (s - 1) (by omega) (by omega)
        rw [Nat.sub_add_cancel (by omega)] at this
        rw [this]
        norm_num
      have g2 := hin 2 (by omega) (by
        have := Nspan_prev_pos hM q3 hst (by omega) 2 (by omega)
        rw [← q4, show s - 3 + 2 = s - 1 by omega]
        exact this)
      obtain rfl : s = 8 := by omega
      have hU : ∀ i, i ≤ 10 → nth c.knots (3 + i) = i / 10 := fun i hi => by rw [hk.inner i (by omega)]; norm_num
      have u6 := hU 3 (by omega)
      have u7 := hU 4 (by omega)
      have u8 := hU 5 (by omega)
      have u9 := hU 6 (by omega)
      have u10 := hU 7 (by omega)
      norm_num at u6 u7 u8 u9 u10
      have htv : t = 1 / 2 := by rw [← q4, u8]
      obtain ⟨b0, b1, b2, b3⟩ := uniform_knot_cubic (U := nth c.knots) (r := 5) (t := t) (d := 1 / 10) (by norm_num) (by rw [u6, htv]; norm_num) (by rw [u7, htv]; norm_num)
        (by rw [u8, htv]) (by rw [u9, htv]; norm_num) (by rw [u10, htv]; norm_num)
      norm_num at b0 b1 b2 b3
      have := congrArg XYZ.x hx
      simp only [sum_range_succ, sum_range_zero, Nat.reduceSub, Nat.reduceAdd, b0, b1, b2, b3, p5, p6, p7, raw1, c1, c2, hT2, show nth bumpPoints 2 = ⟨0, 0, 0⟩ from rfl] at this
      norm_num at this
      linarith
  · have h12 : s = 12 := by
      by_contra hne
      have h1 := f3 (s + 1) (by omega) (by omega)
      have h2 := hM (s + 1 + 1) 13 (by omega) (by omega)
      rw [h1, q6] at h2
      norm_num at h2
    have g3 := hin 3 (by omega) (by rw [Nat.sub_add_cancel q1]; exact Nspan_last_pos hM (by rw [q5]; exact q3) q3 3 (by omega))
    omega

/-- a staircase of unit steps, for which the curve passes through all the points -/
noncomputable def stairPoints : List (XYZ ℝ) := [⟨0, 0, 0⟩, ⟨1, 0, 0⟩, ⟨1, 1, 0⟩, ⟨2, 1, 0⟩, ⟨2, 2, 0⟩]

/-- the hypotheses of `C135_equal_chords_partial` are met -/
example : ∃ c t, cubicLocalInterpolation stairPoints = ok (some c) ∧ NurbsCurve.pointOnCurve c t = ok ⟨1, 1, 0⟩ := by
  have hb : ∀ k, k < 7 → bend stairPoints k = 1 := by
    intro k hk
    interval_cases k <;>
    · simp only [bend, extDiff, XYZ.cross, XYZ.length, nth, List.length_cons, List.length_nil, stairPoints]
      norm_num
  have hh : ∀ i, i < 4 → chord stairPoints i = 1 := by
    intro k hk
    interval_cases k <;>
    · simp only [chord, XYZ.length, nth, stairPoints]
      norm_num
  obtain ⟨T, c, t, -, h1, -, -, -, h2⟩ := C135_equal_chords_partial (pts := stairPoints) (m := 4) rfl le_rfl (by norm_num) hh (by norm_num) (by
    intro k hk
    have : k < 5 := hk
    rw [hb k (by omega), hb (k + 2) (by omega)]
    norm_num)
  exact ⟨c, t 2, h1, (h2 2 (by omega)).1⟩

end LNLib.Props
