import Verif.Model.Warp
import Verif.Props.Reshape
import Verif.Props.BasisDers
import Verif.Props.Nearest

/-!
# C115-C117: warping, flattening and bending
-/

namespace LNLib.Props
open LNLib Res Spec Finset

/-- the rational basis function of the control point `i` -/
noncomputable def ratBasis (c : NurbsCurve ℝ) (p n i : ℕ) (u : ℝ) : ℝ :=
  N (nth c.knots) (nth c.knots (n + 1)) p i u * (nth c.cps i).w / weightFn (nth c.knots) p n (nth c.cps) u

/-- Moving every control point `i` by `v i` and keeping the weights moves the curve point by the sum of the `v i` weighted by the rational basis functions. -/
theorem moved_eval {c c' : NurbsCurve ℝ} {p n : ℕ} {v : ℕ → XYZ ℝ} (w : WellFormed c p n) (he : EndsSeparated (nth c.knots) p n)
    (hw : ∀ i, i ≤ n → 1 / 500000 ≤ (nth c.cps i).w) (w' : WellFormed c' p n) (hk : c'.knots = c.knots) (hw' : ∀ i, i ≤ n → (nth c'.cps i).w = (nth c.cps i).w)
    (hr : ∀ i, i ≤ n → (nth c'.cps i).raw = (nth c.cps i).raw + (nth c.cps i).w • v i) {u : ℝ} (h0 : nth c.knots p ≤ u) (h1 : u ≤ nth c.knots (n + 1)) :
    ∃ P, NurbsCurve.pointOnCurve c u = ok P ∧ NurbsCurve.pointOnCurve c' u = ok (P + ∑ i ∈ range (n + 1), ratBasis c p n i u • v i) := by
  have hW : weightFn (nth c.knots) p n (nth c'.cps) u = weightFn (nth c.knots) p n (nth c.cps) u := by
    unfold weightFn
    refine sum_congr rfl fun i hi => ?_
    rw [hw' i (by have := mem_range.mp hi; omega)]
  have hge := weightFn_ge w he h0 h1 hw
  have ht := notTiny_of_ge hge
  refine ⟨_, C05_eval_rational w he h0 h1 ht, ?_⟩
  rw [C05_eval_rational (c := c') w' (by rw [hk]; exact he) (by rw [hk]; exact h0) (by rw [hk]; exact h1) (by rw [hk, hW]; exact ht), hk,
    rationalPoint_raw, rationalPoint_raw, hW]
  have : ∑ i ∈ range (n + 1), N (nth c.knots) (nth c.knots (n + 1)) p i u • (nth c'.cps i).raw =
      (∑ i ∈ range (n + 1), N (nth c.knots) (nth c.knots (n + 1)) p i u • (nth c.cps i).raw) +
      ∑ i ∈ range (n + 1), (N (nth c.knots) (nth c.knots (n + 1)) p i u * (nth c.cps i).w) • v i := by
    rw [← sum_add_distrib]
    refine sum_congr rfl fun i hi => ?_
    rw [hr i (by have := mem_range.mp hi; omega), smul_add, smul_smul]
  rw [this, smul_add]
  congr 2
  rw [smul_sum]
  refine sum_congr rfl fun i hi => ?_
  rw [smul_smul]
  congr 1
  unfold ratBasis
  ring

/-- the rational basis functions are non-negative, sum up to one, and vanish outside `s - p .. s` -/
theorem ratBasis_convex {c : NurbsCurve ℝ} {p n s : ℕ} (w : WellFormed c p n) (he : EndsSeparated (nth c.knots) p n)
    (hw : ∀ i, i ≤ n → 1 / 500000 ≤ (nth c.cps i).w) {u : ℝ} (h0 : nth c.knots p ≤ u) (h1 : u ≤ nth c.knots (n + 1)) (hs : IsSpan (nth c.knots) p n u s) :
    (∀ i, i ≤ n → 0 ≤ ratBasis c p n i u) ∧ ∑ i ∈ range (n + 1), ratBasis c p n i u = 1 ∧ ∀ i, i ≤ n → s < i ∨ i + p < s → ratBasis c p n i u = 0 := by
  have hge := weightFn_ge w he h0 h1 hw
  obtain ⟨hb, -⟩ := basis_convex (wf_monoTo w) hs
  refine ⟨fun i hi => ?_, ?_, fun i hi h => ?_⟩
  · have := hw i hi
    exact div_nonneg (mul_nonneg (hb i hi) (by linarith)) (by linarith)
  · unfold ratBasis
    rw [← sum_div]
    exact div_self (by linarith : weightFn (nth c.knots) p n (nth c.cps) u ≠ 0)
  · unfold ratBasis
    rw [N_eq_Nspan (wf_monoTo w) (by have := w.pos; omega) hs p i (by omega), Nspan_zero _ _ _ _ _ h, zero_mul, zero_div]

theorem normalize_neg (v : XYZ ℝ) : (-v).normalize = -v.normalize := by
  have hl : (-v).length = v.length := by unfold XYZ.length; congr 1; simp
  unfold XYZ.normalize
  rw [hl]
  split_ifs
  · ext <;> simp
  · rfl

theorem normalize_perp {v x : XYZ ℝ} (h : v.dot x = 0) : v.normalize.dot x = 0 := by
  unfold XYZ.normalize
  split_ifs
  · have : (⟨v.x * (1 / v.length), v.y * (1 / v.length), v.z * (1 / v.length)⟩ : XYZ ℝ).dot x = (1 / v.length) * v.dot x := by simp [XYZ.dot]; ring
    rw [this, h, mul_zero]
  · exact h

/-- appending loop -/
theorem appendLoop_run {α β : Type} [Zero α] {l : List β} {f : ℤ → List α → Res (List α)} {n : ℕ} {g : ℕ → α} (hn : l.length = n)
    (hf : ∀ i acc, i < n → f (i : ℤ) acc = ok (acc ++ [g i])) : forI 0 (l.length : ℤ) ([] : List α) f = ok ((List.range n).map g) := by
  apply Runs.eq
  refine (Runs.forN (m := 0) (n := n) (fun i acc => acc = (List.range i).map g) rfl (by omega) (by omega) rfl ?_).mono (fun _ h => h)
  rintro i acc - hi rfl
  rw [hf i _ hi]
  exact Runs.ok (by rw [List.range_succ, List.map_append]; rfl)

/-- C115: for every valid curve (weights at least 2e-6), every warp shape with one value per control point, every non-zero warp distance and plane normal and every
parameter interval of the domain, `Warping` returns a valid curve with the same knots and weights. Every point of the curve moves along one direction, by the warp
distance times the average of the warp shape with the rational basis functions. The direction is orthogonal to the plane normal and to the tangent at the middle of
the interval, and has length one unless the two are parallel. -/
theorem C115_warp {c : NurbsCurve ℝ} {p n : ℕ} {f : List ℝ} {d t0 t1 : ℝ} {nrm : XYZ ℝ} (w : WellFormed c p n) (he : EndsSeparated (nth c.knots) p n)
    (hw : ∀ i, i ≤ n → 1 / 500000 ≤ (nth c.cps i).w) (hf : f.length = n + 1) (hd : NotTiny d) (hnrm : nrm.isZero = false)
    (h0 : nth c.knots p ≤ t0) (h01 : isGreaterThan t1 t0 = true) (h1 : t1 ≤ nth c.knots (n + 1)) :
    ∃ c' C T dir, warping c f d nrm t0 t1 = ok c' ∧ WellFormed c' p n ∧ c'.knots = c.knots ∧ (∀ i, i ≤ n → (nth c'.cps i).w = (nth c.cps i).w) ∧
      NurbsCurve.rationalDerivatives c 1 ((t0 + t1) / 2) = ok [C, T] ∧ dir.dot T = 0 ∧ dir.dot nrm = 0 ∧
      (T.cross nrm ≠ 0 → dir.length = 1 ∧ T.cross nrm = (T.cross nrm).length • dir) ∧ (T.cross nrm = 0 → dir = 0) ∧
      ∀ u, nth c.knots p ≤ u → u ≤ nth c.knots (n + 1) → ∃ P, NurbsCurve.pointOnCurve c u = ok P ∧
        NurbsCurve.pointOnCurve c' u = ok (P + (d * ∑ i ∈ range (n + 1), ratBasis c p n i u * nth f i) • dir) := by
  have hl := w.knots
  have hc := w.cps
  have hm := wf_monoTo w
  have hpn := w.pn
  have hlt : t0 < t1 := by
    have := tolOf_pos (a := t1) (b := t0) (doubleEps_pos (K := ℝ))
    simp only [isGreaterThan, decide_eq_true_eq] at h01
    linarith
  obtain ⟨s, -, hs⟩ := getKnotSpanIndex_isSpan w.knots w.pn w.sorted he (t := (t0 + t1) / 2) (by linarith) (by linarith)
  have hW := weightFn_ge w he (t := (t0 + t1) / 2) (by linarith) (by linarith) hw
  obtain ⟨l, el, hl2, -⟩ := C20_leibniz w he (t := (t0 + t1) / 2) (by linarith) (by linarith) hs (d := 1) (by decide) (by linarith)
  have hl' : l = [nth l 0, nth l 1] := by
    refine ext_nth (by rw [hl2]; rfl) fun i hi => ?_
    rw [hl2] at hi
    interval_cases i <;> rfl
  obtain ⟨C, hC⟩ : ∃ C, nth l 0 = C := ⟨_, rfl⟩
  obtain ⟨T, hT⟩ : ∃ C, nth l 1 = C := ⟨_, rfl⟩
  rw [hC, hT] at hl'
  rw [hl'] at el
  obtain ⟨D, hD⟩ : ∃ D, (T.cross nrm).normalize = D := ⟨_, rfl⟩
  -- the signed displacement
  have hsign : ∀ x : ℝ, (x * |d|) • (if isGreaterThan d 0 then T.cross nrm else -T.cross nrm).normalize = (d * x) • D := by
    intro x
    by_cases hg : isGreaterThan d 0 = true
    · rw [if_pos hg, hD]
      have : 0 < d := by
        have := tolOf_pos (a := d) (b := 0) (doubleEps_pos (K := ℝ))
        simp only [isGreaterThan, decide_eq_true_eq] at hg
        linarith
      rw [abs_of_pos this, mul_comm]
    · rw [if_neg hg, normalize_neg, hD]
      have : d < 0 := by
        have h2 := hd.ne
        rcases lt_or_gt_of_ne h2 with h | h
        · exact h
        · exfalso
          apply hg
          have hd' := hd
          unfold NotTiny at hd'
          rw [abs_of_pos h] at hd'
          simp only [isGreaterThan, decide_eq_true_eq, tolOf, doubleEps, sub_zero, abs_zero]
          rw [abs_of_pos h, max_eq_left h.le]
          linarith
      rw [abs_of_neg this, smul_neg, ← neg_smul]
      congr 1
      ring
  refine ⟨{ degree := c.degree, knots := c.knots, cps := (List.range (n + 1)).map (fun i => XYZW.ofXYZ ((nth c.cps i).toXYZ + (d * nth f i) • D) (nth c.cps i).w) },
    C, T, D, ?_, ?_, rfl, ?_, el, ?_, ?_, ?_, ?_, ?_⟩
  · unfold warping
    rw [validate_of (by rw [decide_eq_true_eq]; omega), ok_bind, notTiny_iff.mpr hd, Bool.not_false, validate_true, ok_bind, hnrm, Bool.not_false, validate_true, ok_bind,
      vget_nth (i := 0) (k := 0) rfl (by omega), ok_bind, vget_nth (k := n + p + 1) (by omega) (by omega), ok_bind,
      validateRange_in (le_trans (hm _ _ (by omega) (by omega)) h0) (by have := hm (n + 1) (n + p + 1) (by omega) (by omega); linarith), ok_bind,
      validateRange_in hlt.le (by have := hm (n + 1) (n + p + 1) (by omega) (by omega); linarith), ok_bind, h01, validate_true, ok_bind]
    dsimp only
    rw [show (1 / 2 * (t0 + t1) : ℝ) = (t0 + t1) / 2 by ring, show (1 : ℤ) = ((1 : ℕ) : ℤ) from rfl, el, ok_bind]
    have m1 : vget [C, T] ((1 : ℕ) : ℤ) = ok T := vget_of (k := 1) rfl (by simp)
    rw [m1, ok_bind, appendLoop_run (n := n + 1) (g := fun i => XYZW.ofXYZ ((nth c.cps i).toXYZ + (d * nth f i) • D) (nth c.cps i).w) hc, ok_bind]
    intro i acc hi
    rw [vget_nth (k := i) rfl (by omega), ok_bind, vget_nth (k := i) rfl (by omega), ok_bind, hsign]
  · exact { degree := w.degree, pos := w.pos, le7 := w.le7, cps := by simp, pn := w.pn, knots := hl, sorted := w.sorted }
  · intro i hi
    dsimp only
    rw [nth_mapRange (by omega)]
    rfl
  · rw [← hD]; exact normalize_perp (by simp [XYZ.dot, XYZ.cross]; ring)
  · rw [← hD]; exact normalize_perp (by simp [XYZ.dot, XYZ.cross]; ring)
  · intro hne
    obtain ⟨v, hv⟩ : ∃ v, T.cross nrm = v := ⟨_, rfl⟩
    rw [hv] at hne hD ⊢
    have hlen : 0 < v.length := by
      apply Real.sqrt_pos.mpr
      by_contra hneg
      apply hne
      have q1 := mul_self_nonneg v.x
      have q2 := mul_self_nonneg v.y
      have q3 := mul_self_nonneg v.z
      ext
      · exact mul_self_eq_zero.mp (by linarith)
      · exact mul_self_eq_zero.mp (by linarith)
      · exact mul_self_eq_zero.mp (by linarith)
    have hDv : D = (1 / v.length) • v := by
      rw [← hD]
      unfold XYZ.normalize
      rw [if_pos hlen]
      ext <;> simp [mul_comm]
    constructor
    · have h2 := length_sq v
      obtain ⟨L, hL⟩ : ∃ L, v.length = L := ⟨_, rfl⟩
      rw [hL] at h2 hlen hDv
      rw [hDv]
      unfold XYZ.length
      rw [Real.sqrt_eq_one]
      have hsum : ((1 / L) • v).x * ((1 / L) • v).x + ((1 / L) • v).y * ((1 / L) • v).y + ((1 / L) • v).z * ((1 / L) • v).z =
          (1 / L) ^ 2 * (v.x * v.x + v.y * v.y + v.z * v.z) := by simp only [XYZ.smul_x, XYZ.smul_y, XYZ.smul_z]; ring
      rw [hsum, ← h2, ← mul_pow, one_div_mul_cancel hlen.ne', one_pow]
    · rw [hDv, smul_smul, mul_one_div_cancel hlen.ne', one_smul]
  · intro h
    rw [← hD, h]
    unfold XYZ.normalize
    have : (0 : XYZ ℝ).length = 0 := by unfold XYZ.length; simp
    rw [this, if_neg (lt_irrefl _)]
  · intro u u0 u1
    obtain ⟨P, e1, e2⟩ := moved_eval
      (c' := { degree := c.degree, knots := c.knots, cps := (List.range (n + 1)).map (fun i => XYZW.ofXYZ ((nth c.cps i).toXYZ + (d * nth f i) • D) (nth c.cps i).w) }) (v := fun i => (d * nth f i) • D) w he hw
      { degree := w.degree, pos := w.pos, le7 := w.le7, cps := by simp, pn := w.pn, knots := hl, sorted := w.sorted } rfl (by
        intro i hi
        dsimp only
        rw [nth_mapRange (by omega)]
        rfl) (by
        intro i hi
        dsimp only
        rw [nth_mapRange (by omega), raw_ofXYZ, smul_add, smul_toXYZ (notTiny_of_ge (hw i hi))]) u0 u1
    refine ⟨P, e1, ?_⟩
    rw [e2]
    congr 2
    rw [mul_sum, sum_smul]
    refine sum_congr rfl fun i _ => ?_
    rw [smul_smul]
    congr 1
    ring

theorem distance_move (P v : XYZ ℝ) (k : ℝ) : P.distance (P + k • v) = |k| * v.length := by
  unfold XYZ.distance XYZ.length
  have : (P + k • v).x - P.x = k * v.x ∧ (P + k • v).y - P.y = k * v.y ∧ (P + k • v).z - P.z = k * v.z := by simp
  rw [this.1, this.2.1, this.2.2, show (k * v.x) ^ 2 + (k * v.y) ^ 2 + (k * v.z) ^ 2 = k ^ 2 * (v.x * v.x + v.y * v.y + v.z * v.z) by ring,
    Real.sqrt_mul (sq_nonneg k), Real.sqrt_sq_eq_abs]

/-- C115: no point of the curve moves further than the warp distance times the largest value of the warp shape. -/
theorem C115_bounded {c : NurbsCurve ℝ} {p n : ℕ} {f : List ℝ} {d t0 t1 M : ℝ} {nrm : XYZ ℝ} (w : WellFormed c p n) (he : EndsSeparated (nth c.knots) p n)
    (hw : ∀ i, i ≤ n → 1 / 500000 ≤ (nth c.cps i).w) (hf : f.length = n + 1) (hd : NotTiny d) (hnrm : nrm.isZero = false)
    (h0 : nth c.knots p ≤ t0) (h01 : isGreaterThan t1 t0 = true) (h1 : t1 ≤ nth c.knots (n + 1)) (hM : ∀ i, i ≤ n → |nth f i| ≤ M) :
    ∃ c', warping c f d nrm t0 t1 = ok c' ∧ ∀ u, nth c.knots p ≤ u → u ≤ nth c.knots (n + 1) → ∃ P P', NurbsCurve.pointOnCurve c u = ok P ∧
      NurbsCurve.pointOnCurve c' u = ok P' ∧ P.distance P' ≤ |d| * M := by
  obtain ⟨c', C, T, dir, e, -, -, -, -, -, -, hl1, hl0, hu⟩ := C115_warp w he hw hf hd hnrm h0 h01 h1
  refine ⟨c', e, fun u u0 u1 => ?_⟩
  obtain ⟨P, e1, e2⟩ := hu u u0 u1
  refine ⟨P, _, e1, e2, ?_⟩
  have hlen : dir.length ≤ 1 := by
    by_cases h : T.cross nrm = 0
    · rw [hl0 h]
      have : (0 : XYZ ℝ).length = 0 := by unfold XYZ.length; simp
      rw [this]; norm_num
    · exact (hl1 h).1.le
  obtain ⟨s, -, hs⟩ := getKnotSpanIndex_isSpan w.knots w.pn w.sorted he u0 u1
  obtain ⟨b0, b1, -⟩ := ratBasis_convex w he hw u0 u1 hs
  have hsum : |∑ i ∈ range (n + 1), ratBasis c p n i u * nth f i| ≤ M := by
    calc |∑ i ∈ range (n + 1), ratBasis c p n i u * nth f i| ≤ ∑ i ∈ range (n + 1), |ratBasis c p n i u * nth f i| := abs_sum_le_sum_abs _ _
      _ ≤ ∑ i ∈ range (n + 1), ratBasis c p n i u * M := by
        refine sum_le_sum fun i hi => ?_
        have hi : i ≤ n := by have := mem_range.mp hi; omega
        rw [abs_mul, abs_of_nonneg (b0 i hi)]
        exact mul_le_mul_of_nonneg_left (hM i hi) (b0 i hi)
      _ = M := by rw [← sum_mul, b1, one_mul]
  rw [distance_move, abs_mul]
  have hl0 : 0 ≤ dir.length := Real.sqrt_nonneg _
  have : |d| * |∑ i ∈ range (n + 1), ratBasis c p n i u * nth f i| ≤ |d| * M := mul_le_mul_of_nonneg_left hsum (abs_nonneg d)
  have : 0 ≤ |d| * |∑ i ∈ range (n + 1), ratBasis c p n i u * nth f i| := by positivity
  nlinarith

/-- C115: a wrong number of warp values, a zero distance, a zero plane normal and a parameter before the first knot are rejected. -/
theorem C115_rejects {c : NurbsCurve ℝ} {f : List ℝ} {d t0 t1 : ℝ} {nrm : XYZ ℝ} :
    (c.cps.length ≠ f.length → warping c f d nrm t0 t1 = invalidArg) ∧
    (isAlmostEqualTo d 0 = true → warping c f d nrm t0 t1 = invalidArg) ∧
    (nrm.isZero = true → warping c f d nrm t0 t1 = invalidArg) := by
  refine ⟨fun h => ?_, fun h => ?_, fun h => ?_⟩ <;> unfold warping
  · rw [decide_eq_false h]; rfl
  · rw [h]
    by_cases h' : c.cps.length = f.length
    · rw [decide_eq_true h']; rfl
    · rw [decide_eq_false h']; rfl
  · rw [h]
    by_cases h' : c.cps.length = f.length
    · rw [decide_eq_true h']
      cases isAlmostEqualTo d 0 <;> rfl
    · rw [decide_eq_false h']; rfl

/-! ## C116 -/

/-- the curve point is the average of the control points with the rational basis functions -/
theorem ratPoint {c : NurbsCurve ℝ} {p n : ℕ} (w : WellFormed c p n) (he : EndsSeparated (nth c.knots) p n)
    (hw : ∀ i, i ≤ n → 1 / 500000 ≤ (nth c.cps i).w) {u : ℝ} (h0 : nth c.knots p ≤ u) (h1 : u ≤ nth c.knots (n + 1)) :
    NurbsCurve.pointOnCurve c u = ok (∑ i ∈ range (n + 1), ratBasis c p n i u • (nth c.cps i).toXYZ) := by
  have hge := weightFn_ge w he h0 h1 hw
  rw [C05_eval_rational w he h0 h1 (notTiny_of_ge hge), rationalPoint_raw, smul_sum]
  congr 1
  refine sum_congr rfl fun i hi => ?_
  rw [← smul_toXYZ (notTiny_of_ge (hw i (by have := mem_range.mp hi; omega))), smul_smul, smul_smul]
  congr 1
  unfold ratBasis
  ring

theorem length_normalize' {v : XYZ ℝ} (h : 0 < v.length) : v.normalize.length = 1 := by
  have h2 := length_sq v
  unfold XYZ.normalize
  rw [if_pos h]
  obtain ⟨L, hL⟩ : ∃ L, v.length = L := ⟨_, rfl⟩
  rw [hL] at h2 h ⊢
  unfold XYZ.length
  rw [Real.sqrt_eq_one]
  have : v.x * (1 / L) * (v.x * (1 / L)) + v.y * (1 / L) * (v.y * (1 / L)) + v.z * (1 / L) * (v.z * (1 / L)) = (1 / L) ^ 2 * (v.x * v.x + v.y * v.y + v.z * v.z) := by ring
  dsimp only
  rw [this, ← h2, ← mul_pow, one_div_mul_cancel h.ne', one_pow]

/-- the rational basis functions depend only on the knots and the weights -/
theorem ratBasis_congr {c c' : NurbsCurve ℝ} {p n i : ℕ} (hk : c'.knots = c.knots) (hw : ∀ i, i ≤ n → (nth c'.cps i).w = (nth c.cps i).w) (hi : i ≤ n) (u : ℝ) :
    ratBasis c' p n i u = ratBasis c p n i u := by
  unfold ratBasis weightFn
  rw [hk, hw i hi, sum_congr rfl fun j hj => by rw [hw j (by have := mem_range.mp hj; omega)]]

/-- a loop over a range of indices that writes at its own index -/
theorem rangeLoop {α : Type} [Zero α] {l : List α} {a b n : ℕ} {body : ℤ → List α → Res (List α)} {g : ℕ → α} (hl : l.length = n + 1) (hb : b ≤ n + 1)
    (hbody : ∀ i st, a ≤ i → i < b → st.length = n + 1 → body (i : ℤ) st = ok (st.set i (g i))) :
    ∃ l', forI (a : ℤ) (b : ℤ) l body = ok l' ∧ l'.length = n + 1 ∧ ∀ i, i ≤ n → nth l' i = if a ≤ i ∧ i < b then g i else nth l i := by
  by_cases hab : a ≤ b
  · refine Runs.forN (m := a) (n := b) (fun k (st : List α) => st.length = n + 1 ∧ ∀ i, i ≤ n → nth st i = if a ≤ i ∧ i < k then g i else nth l i) rfl rfl hab
      ⟨hl, fun i hi => by rw [if_neg (by omega)]⟩ ?_
    rintro k st hk1 hk2 ⟨g1, g2⟩
    rw [hbody k st hk1 hk2 g1]
    refine Runs.ok ⟨by simpa using g1, fun i hi => ?_⟩
    rw [nth_set (by omega)]
    by_cases hik : i = k
    · subst hik
      rw [if_pos rfl, if_pos (by omega)]
    · rw [if_neg hik, g2 i hi]
      by_cases h : a ≤ i ∧ i < k
      · rw [if_pos h, if_pos (by omega)]
      · rw [if_neg h, if_neg (by omega)]
  · exact ⟨l, forI_empty (by omega), hl, fun i hi => by rw [if_neg (by omega)]⟩

/-- `Q` is the foot of the perpendicular from `P` on the line through `a` and `b`, and it lies between `a` and `b` up to the comparison tolerance. -/
def FootOf (a b P Q : XYZ ℝ) : Prop :=
  ∃ x : ℝ, isLessThan x 0 = false ∧ isGreaterThan x 1 = false ∧ Q = a + x • (b - a) ∧ (P - Q).dot (b - a) = 0

theorem footOf_unique {a b P Q Q' : XYZ ℝ} (hv : (b - a).dot (b - a) ≠ 0) (h : FootOf a b P Q) (h' : FootOf a b P Q') : Q = Q' := by
  obtain ⟨x, -, -, rfl, hx⟩ := h
  obtain ⟨y, -, -, rfl, hy⟩ := h'
  have : (x - y) * (b - a).dot (b - a) = 0 := by
    have e : (x - y) * (b - a).dot (b - a) = (P - (a + y • (b - a))).dot (b - a) - (P - (a + x • (b - a))).dot (b - a) := by simp [XYZ.dot]; ring
    rw [e, hx, hy, sub_zero]
  rcases mul_eq_zero.mp this with h | h
  · rw [sub_eq_zero.mp h]
  · exact absurd h hv

theorem pointToLine_cases {a b P : XYZ ℝ} (hv : isAlmostEqualTo ((b - a).dot (b - a)) 0 = false) :
    (∃ Q, pointToLine a b P 0 = ok (true, Q) ∧ FootOf a b P Q) ∨ (pointToLine a b P 0 = ok (false, 0) ∧ ∀ Q, ¬ FootOf a b P Q) := by
  have hv0 : (b - a).dot (b - a) ≠ 0 := by
    intro h; rw [h] at hv
    rw [isAlmostEqualTo_self doubleEps_pos] at hv
    exact absurd hv (by decide)
  unfold pointToLine
  dsimp only
  rw [hv, if_neg (by decide), fdiv_ok hv0, ok_bind]
  obtain ⟨x, hx⟩ : ∃ x, (P - a).dot (b - a) / (b - a).dot (b - a) = x := ⟨_, rfl⟩
  have hx' : (P - a).dot (b - a) = x * (b - a).dot (b - a) := by rw [← hx, div_mul_cancel₀ _ hv0]
  rw [hx]
  have hfoot : ∀ y, (P - (a + y • (b - a))).dot (b - a) = (x - y) * (b - a).dot (b - a) := by
    intro y
    have : (P - (a + y • (b - a))).dot (b - a) = (P - a).dot (b - a) - y * (b - a).dot (b - a) := by simp [XYZ.dot]; ring
    rw [this, hx']; ring
  by_cases h : (isLessThan x 0 || isGreaterThan x 1) = true
  · rw [if_pos h]
    refine Or.inr ⟨rfl, ?_⟩
    rintro Q ⟨y, h1, h2, rfl, h3⟩
    rw [hfoot] at h3
    rcases mul_eq_zero.mp h3 with h4 | h4
    · rw [sub_eq_zero.mp h4, h1, h2] at h
      exact absurd h (by decide)
    · exact hv0 h4
  · rw [if_neg h]
    rw [Bool.or_eq_true, not_or, Bool.not_eq_true, Bool.not_eq_true] at h
    refine Or.inl ⟨_, rfl, x, h.1, h.2, rfl, ?_⟩
    rw [hfoot, sub_self, zero_mul]

open Classical in
/-- C116 (what the code does): for every valid curve, segment and parameter interval of the domain, with `s0` and `s1` the spans of the two parameters, `Flattening`
returns a valid curve with the same knots and weights in which exactly the control points `s0 ≤ i < s1 - p` whose foot on the line lies on the segment are replaced
by that foot; it answers `true` exactly if there are at least `p + 1` of these. -/
theorem C116_flatten {c : NurbsCurve ℝ} {p n : ℕ} {a b : XYZ ℝ} {t0 t1 : ℝ} (w : WellFormed c p n) (he : EndsSeparated (nth c.knots) p n)
    (hab : a.almostEq b = false) (hv : isAlmostEqualTo ((b - a).dot (b - a)) 0 = false)
    (h0 : nth c.knots p ≤ t0) (h01 : isGreaterThan t1 t0 = true) (h1 : t1 ≤ nth c.knots (n + 1)) :
    ∃ ans c' s0 s1, flattening c a b t0 t1 = ok (ans, c') ∧ IsSpan (nth c.knots) p n t0 s0 ∧ IsSpan (nth c.knots) p n t1 s1 ∧ WellFormed c' p n ∧ c'.knots = c.knots ∧
      (∀ i, i ≤ n → (nth c'.cps i).w = (nth c.cps i).w) ∧
      (∀ i, i ≤ n → ¬ (s0 ≤ i ∧ i + p < s1) → nth c'.cps i = nth c.cps i) ∧
      (∀ i, s0 ≤ i → i + p < s1 → (∃ Q, FootOf a b (nth c.cps i).toXYZ Q ∧ nth c'.cps i = XYZW.ofXYZ Q (nth c.cps i).w) ∨
        ((∀ Q, ¬ FootOf a b (nth c.cps i).toXYZ Q) ∧ nth c'.cps i = nth c.cps i)) ∧
      (ans = true ↔ p + 1 ≤ ((Finset.range (n + 1)).filter (fun i => s0 ≤ i ∧ i + p < s1 ∧ ∃ Q, FootOf a b (nth c.cps i).toXYZ Q)).card) := by
  have hl := w.knots
  have hc := w.cps
  have hm := wf_monoTo w
  have hpn := w.pn
  have hlt : t0 < t1 := by
    have := tolOf_pos (a := t1) (b := t0) (doubleEps_pos (K := ℝ))
    simp only [isGreaterThan, decide_eq_true_eq] at h01
    linarith
  obtain ⟨s0, e0, hs0⟩ := getKnotSpanIndex_isSpan w.knots w.pn w.sorted he h0 (by linarith)
  obtain ⟨s1, e1, hs1⟩ := getKnotSpanIndex_isSpan w.knots w.pn w.sorted he (t := t1) (by linarith) h1
  have hs1p := hs1.1
  have hs1n := hs1.2.1
  have hs0n := hs0.2.1
  -- the new control points
  let g : ℕ → XYZW ℝ := fun i => if h : ∃ Q, FootOf a b (nth c.cps i).toXYZ Q then XYZW.ofXYZ h.choose (nth c.cps i).w else nth c.cps i
  have hg : ∀ i, (∃ Q, FootOf a b (nth c.cps i).toXYZ Q ∧ g i = XYZW.ofXYZ Q (nth c.cps i).w) ∨
      ((∀ Q, ¬ FootOf a b (nth c.cps i).toXYZ Q) ∧ g i = nth c.cps i) := by
    intro i
    by_cases h : ∃ Q, FootOf a b (nth c.cps i).toXYZ Q
    · exact Or.inl ⟨h.choose, h.choose_spec, dif_pos h⟩
    · exact Or.inr ⟨fun Q hQ => h ⟨Q, hQ⟩, dif_neg h⟩
  have hv0 : (b - a).dot (b - a) ≠ 0 := by
    intro h; rw [h] at hv
    rw [isAlmostEqualTo_self doubleEps_pos] at hv
    exact absurd hv (by decide)
  have hloop : Runs (forI (s0 : ℤ) ((s1 - p : ℕ) : ℤ) ((0 : ℤ), c.cps) fun i st => do
      let P ← vget c.cps i
      let (isProjection, project) ← pointToLine a b P.toXYZ 0
      if isProjection then do
        let cps ← vset st.2 i (XYZW.ofXYZ project P.w)
        ok (st.1 + 1, cps)
      else ok st) (fun st => st.2.length = n + 1 ∧ (∀ i, i ≤ n → nth st.2 i = if s0 ≤ i ∧ i + p < s1 then g i else nth c.cps i) ∧
      st.1 = ((Finset.range (n + 1)).filter (fun i => s0 ≤ i ∧ i + p < s1 ∧ ∃ Q, FootOf a b (nth c.cps i).toXYZ Q)).card) := by
    by_cases hle : s0 ≤ s1 - p
    · refine (Runs.forN (m := s0) (n := s1 - p) (fun k (st : ℤ × List (XYZW ℝ)) => st.2.length = n + 1 ∧ (∀ i, i ≤ n → nth st.2 i = if s0 ≤ i ∧ i < k then g i else nth c.cps i) ∧
        st.1 = ((Finset.range (n + 1)).filter (fun i => s0 ≤ i ∧ i < k ∧ ∃ Q, FootOf a b (nth c.cps i).toXYZ Q)).card) rfl rfl hle
        ⟨hc, fun i hi => by rw [if_neg (by omega)], ?_⟩ ?_).mono ?_
      · dsimp only
        rw [Finset.filter_false_of_mem (fun i _ h => by omega)]
        rfl
      · rintro k ⟨cnt, st⟩ hk1 hk2 ⟨g1, g2, g3⟩
        dsimp only at g1 g2 g3 ⊢
        rw [vget_nth (k := k) rfl (by omega), ok_bind]
        rcases pointToLine_cases (P := (nth c.cps k).toXYZ) hv with ⟨Q, eQ, hQ⟩ | ⟨eQ, hQ⟩
        · rw [eQ, ok_bind]
          dsimp only
          rw [if_pos rfl, vset_of rfl (by omega), ok_bind]
          have hgk : g k = XYZW.ofXYZ Q (nth c.cps k).w := by
            rcases hg k with ⟨Q', h1, h2⟩ | ⟨h1, -⟩
            · rw [h2, footOf_unique hv0 hQ h1]
            · exact absurd hQ (h1 Q)
          refine Runs.ok ⟨by simpa using g1, fun i hi => ?_, ?_⟩
          · dsimp only
            rw [nth_set (by omega)]
            by_cases hik : i = k
            · subst hik
              rw [if_pos rfl, if_pos (by omega), hgk]
            · rw [if_neg hik, g2 i hi]
              by_cases h : s0 ≤ i ∧ i < k
              · rw [if_pos h, if_pos (by omega)]
              · rw [if_neg h, if_neg (by omega)]
          · dsimp only
            rw [g3]
            have : (Finset.range (n + 1)).filter (fun i => s0 ≤ i ∧ i < k + 1 ∧ ∃ Q, FootOf a b (nth c.cps i).toXYZ Q) =
                insert k ((Finset.range (n + 1)).filter (fun i => s0 ≤ i ∧ i < k ∧ ∃ Q, FootOf a b (nth c.cps i).toXYZ Q)) := by
              ext i
              simp only [Finset.mem_filter, Finset.mem_insert, Finset.mem_range]
              constructor
              · rintro ⟨h1, h2, h3, h4⟩
                by_cases hik : i = k
                · exact Or.inl hik
                · exact Or.inr ⟨h1, h2, by omega, h4⟩
              · rintro (rfl | ⟨h1, h2, h3, h4⟩)
                · exact ⟨by omega, hk1, by omega, Q, hQ⟩
                · exact ⟨h1, h2, by omega, h4⟩
            rw [this, Finset.card_insert_of_notMem (by simp)]
            push_cast
            ring
        · rw [eQ, ok_bind]
          dsimp only
          rw [if_neg (by decide)]
          have hgk : g k = nth c.cps k := by
            rcases hg k with ⟨Q', h1, h2⟩ | ⟨-, h2⟩
            · exact absurd h1 (hQ Q')
            · exact h2
          refine Runs.ok ⟨g1, fun i hi => ?_, ?_⟩
          · dsimp only
            rw [g2 i hi]
            by_cases h : s0 ≤ i ∧ i < k
            · rw [if_pos h, if_pos (by omega)]
            · rw [if_neg h]
              by_cases hik : i = k
              · subst hik; rw [hgk, ite_self]
              · rw [if_neg (by omega)]
          · dsimp only
            rw [g3]
            congr 2
            ext i
            simp only [Finset.mem_filter, Finset.mem_range]
            constructor
            · rintro ⟨h1, h2, h3, h4⟩; exact ⟨h1, h2, by omega, h4⟩
            · rintro ⟨h1, h2, h3, h4⟩
              refine ⟨h1, h2, ?_, h4⟩
              by_contra hik
              have : i = k := by omega
              subst this
              obtain ⟨Q, hQ'⟩ := h4
              exact hQ Q hQ'
      · rintro st ⟨g1, g2, g3⟩
        refine ⟨g1, fun i hi => ?_, ?_⟩
        · rw [g2 i hi]
          by_cases h : s0 ≤ i ∧ i + p < s1
          · rw [if_pos h, if_pos (by omega)]
          · rw [if_neg h, if_neg (by omega)]
        · rw [g3]
          congr 2
          ext i
          simp only [Finset.mem_filter, Finset.mem_range]
          constructor
          · rintro ⟨h1, h2, h3, h4⟩; exact ⟨h1, h2, by omega, h4⟩
          · rintro ⟨h1, h2, h3, h4⟩; exact ⟨h1, h2, by omega, h4⟩
    · refine ⟨(0, c.cps), forI_empty (by omega), hc, fun i hi => by rw [if_neg (by omega)], ?_⟩
      dsimp only
      rw [Finset.filter_false_of_mem (fun i _ h => by omega)]
      rfl
  obtain ⟨⟨cnt, l⟩, el, g1, g2, g3⟩ := hloop
  dsimp only at g1 g2 g3
  have hw' : ∀ i, i ≤ n → (nth l i).w = (nth c.cps i).w := by
    intro i hi
    rw [g2 i hi]
    split_ifs
    · rcases hg i with ⟨Q, -, h⟩ | ⟨-, h⟩
      · rw [h]; rfl
      · rw [h]
    · rfl
  refine ⟨decide (cnt ≥ c.degree + 1), { degree := c.degree, knots := c.knots, cps := l }, s0, s1, ?_, hs0, hs1, ?_, rfl, hw', ?_, ?_, ?_⟩
  · unfold flattening
    rw [hab, Bool.not_false, validate_true, ok_bind, vget_nth (i := 0) (k := 0) rfl (by omega), ok_bind, vget_nth (k := n + p + 1) (by omega) (by omega), ok_bind,
      validateRange_in (le_trans (hm _ _ (by omega) (by omega)) h0) (by have := hm (n + 1) (n + p + 1) (by omega) (by omega); linarith), ok_bind,
      validateRange_in hlt.le (by have := hm (n + 1) (n + p + 1) (by omega) (by omega); linarith), ok_bind, h01, validate_true, ok_bind, w.degree, e0, ok_bind, e1, ok_bind,
      show (s1 : ℤ) - (p : ℤ) = ((s1 - p : ℕ) : ℤ) by omega, el, ok_bind]
  · exact { degree := w.degree, pos := w.pos, le7 := w.le7, cps := g1, pn := w.pn, knots := hl, sorted := w.sorted }
  · intro i hi h
    dsimp only
    rw [g2 i hi, if_neg h]
  · intro i hi1 hi2
    dsimp only
    rw [g2 i (by omega), if_pos ⟨hi1, hi2⟩]
    exact hg i
  · rw [decide_eq_true_eq, w.degree, g3, ge_iff_le]
    norm_cast

/-- the span of a parameter against the spans of two others -/
theorem span_before {U : ℕ → ℝ} {p n s k : ℕ} {u : ℝ} (hm : MonoTo U (n + p + 1)) (hs : IsSpan U p n u s) (hk : k ≤ n + p + 1) (h : u < U k) : s < k := by
  by_contra hc
  have := hm k s (by omega) (by have := hs.2.1; omega)
  linarith [hs.2.2.2.1]

theorem span_after {U : ℕ → ℝ} {p n s k : ℕ} {u : ℝ} (hm : MonoTo U (n + p + 1)) (hs : IsSpan U p n u s) (hk : U k < U (n + 1)) (hkn : k ≤ n) (h : U k ≤ u) : k ≤ s := by
  by_contra hc
  have h1 := hm (s + 1) k (by omega) (by omega)
  rcases hs.2.2.2.2 with h2 | ⟨h2, h3⟩
  · linarith
  · linarith

theorem foot_range {x : ℝ} (h0 : isLessThan x 0 = false) (h1 : isGreaterThan x 1 = false) : -(1 / 100000) ≤ x ∧ x ≤ 1 + 1 / 100000 := by
  simp only [isLessThan, isGreaterThan, decide_eq_false_iff_not, not_lt, tolOf, doubleEps, gt_iff_lt, abs_zero, abs_one] at h0 h1
  constructor
  · by_contra h
    rw [not_le] at h
    rw [max_eq_left (abs_nonneg x), abs_of_neg (by linarith)] at h0
    linarith
  · by_contra h
    rw [not_le] at h
    rw [abs_of_pos (by linarith), max_eq_left (by linarith)] at h1
    linarith

/-- an edit of the control points selected by the spans of two parameters does not move the points after the second one or before the last knot that is not after the
first one -/
theorem outside_same {c c' : NurbsCurve ℝ} {p n s0 s1 : ℕ} {t0 t1 : ℝ} (w : WellFormed c p n) (he : EndsSeparated (nth c.knots) p n)
    (hw : ∀ i, i ≤ n → 1 / 500000 ≤ (nth c.cps i).w) (hs0 : IsSpan (nth c.knots) p n t0 s0) (hs1 : IsSpan (nth c.knots) p n t1 s1) (hlt : t0 < t1) (h1 : t1 ≤ nth c.knots (n + 1))
    (w' : WellFormed c' p n) (hk : c'.knots = c.knots) (hw' : ∀ i, i ≤ n → (nth c'.cps i).w = (nth c.cps i).w)
    (hsame : ∀ i, i ≤ n → ¬ (s0 ≤ i ∧ i + p < s1) → nth c'.cps i = nth c.cps i) {u : ℝ} (u0 : nth c.knots p ≤ u) (u1 : u ≤ nth c.knots (n + 1))
    (hu : t1 ≤ u ∨ ∃ k, k ≤ n + p + 1 ∧ u < nth c.knots k ∧ nth c.knots k ≤ t0) :
    ∃ P, NurbsCurve.pointOnCurve c u = ok P ∧ NurbsCurve.pointOnCurve c' u = ok P := by
  have hm := wf_monoTo w
  obtain ⟨s, -, hs⟩ := getKnotSpanIndex_isSpan w.knots w.pn w.sorted he u0 u1
  obtain ⟨-, -, bz⟩ := ratBasis_convex w he hw u0 u1 hs
  refine ⟨_, ratPoint w he hw u0 u1, ?_⟩
  rw [ratPoint w' (by rw [hk]; exact he) (fun i hi => by rw [hw' i hi]; exact hw i hi) (by rw [hk]; exact u0) (by rw [hk]; exact u1)]
  congr 1
  refine sum_congr rfl fun i hi => ?_
  have hi : i ≤ n := by have := mem_range.mp hi; omega
  rw [ratBasis_congr hk hw' hi]
  by_cases hch : s0 ≤ i ∧ i + p < s1
  · rw [bz i hi ?_, zero_smul, zero_smul]
    rcases hu with hu | ⟨k, k1, k2, k3⟩
    · right
      have : s1 ≤ s := by
        refine span_after hm hs ?_ hs1.2.1 (le_trans hs1.2.2.2.1 hu)
        have := hm (s1 + 1) (n + 1) (by have := hs1.2.1; omega) (by have := w.pos; omega)
        linarith [hs1.2.2.1]
      omega
    · left
      have h2 := span_before hm hs k1 k2
      have h3 : k ≤ s0 := by
        by_contra hc
        have h4 := hm (s0 + 1) k (by omega) k1
        rcases hs0.2.2.2.2 with h5 | ⟨h5, h6⟩ <;> linarith
      omega
  · rw [hsame i hi hch]

/-- C116 (partial): the points of the curve after the end parameter, and those before the last knot that is not after the start parameter, do not move. -/
theorem C116_outside_partial {c : NurbsCurve ℝ} {p n : ℕ} {a b : XYZ ℝ} {t0 t1 : ℝ} (w : WellFormed c p n) (he : EndsSeparated (nth c.knots) p n)
    (hw : ∀ i, i ≤ n → 1 / 500000 ≤ (nth c.cps i).w) (hab : a.almostEq b = false) (hv : isAlmostEqualTo ((b - a).dot (b - a)) 0 = false)
    (h0 : nth c.knots p ≤ t0) (h01 : isGreaterThan t1 t0 = true) (h1 : t1 ≤ nth c.knots (n + 1)) :
    ∃ ans c', flattening c a b t0 t1 = ok (ans, c') ∧ ∀ u, nth c.knots p ≤ u → u ≤ nth c.knots (n + 1) →
      (t1 ≤ u ∨ ∃ k, k ≤ n + p + 1 ∧ u < nth c.knots k ∧ nth c.knots k ≤ t0) → ∃ P, NurbsCurve.pointOnCurve c u = ok P ∧ NurbsCurve.pointOnCurve c' u = ok P := by
  obtain ⟨ans, c', s0, s1, e, hs0, hs1, w', hk, hw', hsame, -, -⟩ := C116_flatten w he hab hv h0 h01 h1
  refine ⟨ans, c', e, fun u u0 u1 hu => ?_⟩
  have hlt : t0 < t1 := by
    have := tolOf_pos (a := t1) (b := t0) (doubleEps_pos (K := ℝ))
    simp only [isGreaterThan, decide_eq_true_eq] at h01
    linarith
  exact outside_same w he hw hs0 hs1 hlt h1 w' hk hw' hsame u0 u1 hu

open Classical in
/-- C116 (partial): when the feet of all the selected control points lie on the segment, the curve is on the line for all parameters whose span is governed by selected
control points only. -/
theorem C116_straight_partial {c : NurbsCurve ℝ} {p n : ℕ} {a b : XYZ ℝ} {t0 t1 : ℝ} (w : WellFormed c p n) (he : EndsSeparated (nth c.knots) p n)
    (hw : ∀ i, i ≤ n → 1 / 500000 ≤ (nth c.cps i).w) (hab : a.almostEq b = false) (hv : isAlmostEqualTo ((b - a).dot (b - a)) 0 = false)
    (h0 : nth c.knots p ≤ t0) (h01 : isGreaterThan t1 t0 = true) (h1 : t1 ≤ nth c.knots (n + 1)) :
    ∃ ans c' s0 s1, flattening c a b t0 t1 = ok (ans, c') ∧ IsSpan (nth c.knots) p n t0 s0 ∧ IsSpan (nth c.knots) p n t1 s1 ∧
      ((∀ i, s0 ≤ i → i + p < s1 → ∃ Q, FootOf a b (nth c.cps i).toXYZ Q) → (ans = true ↔ s0 + 2 * p < s1) ∧
        ∀ u, nth c.knots (s0 + p) ≤ u → u < nth c.knots (s1 - p) → ∃ x : ℝ, -(1 / 100000) ≤ x ∧ x ≤ 1 + 1 / 100000 ∧
          NurbsCurve.pointOnCurve c' u = ok (a + x • (b - a))) := by
  obtain ⟨ans, c', s0, s1, e, hs0, hs1, w', hk, hw', hsame, hfeet, hans⟩ := C116_flatten w he hab hv h0 h01 h1
  have hm := wf_monoTo w
  have a0 := hs0.1
  have a1 := hs1.1
  have a2 := hs1.2.1
  refine ⟨ans, c', s0, s1, e, hs0, hs1, fun hall => ⟨?_, fun u u0 u1 => ?_⟩⟩
  · rw [hans]
    have : (Finset.range (n + 1)).filter (fun i => s0 ≤ i ∧ i + p < s1 ∧ ∃ Q, FootOf a b (nth c.cps i).toXYZ Q) = Finset.Ico s0 (s1 - p) := by
      ext i
      simp only [Finset.mem_filter, Finset.mem_range, Finset.mem_Ico]
      constructor
      · rintro ⟨-, h2, h3, -⟩; omega
      · rintro ⟨h2, h3⟩; exact ⟨by omega, h2, by omega, hall i h2 (by omega)⟩
    rw [this, Nat.card_Ico]
    omega
  · have hlt : s0 + p < s1 - p := by
      by_contra hc
      have := hm (s1 - p) (s0 + p) (by omega) (by have := hs0.2.1; omega)
      linarith
    have ud0 : nth c.knots p ≤ u := le_trans (hm _ _ (by omega) (by omega)) u0
    have ud1 : u ≤ nth c.knots (n + 1) := le_trans u1.le (hm _ _ (by omega) (by omega))
    have he' : EndsSeparated (nth c'.knots) p n := by rw [hk]; exact he
    have hwn : ∀ i, i ≤ n → 1 / 500000 ≤ (nth c'.cps i).w := fun i hi => by rw [hw' i hi]; exact hw i hi
    obtain ⟨s, -, hs⟩ := getKnotSpanIndex_isSpan w.knots w.pn w.sorted he ud0 ud1
    obtain ⟨b0, b1, bz⟩ := ratBasis_convex w' he' hwn (u := u) (by rw [hk]; exact ud0) (by rw [hk]; exact ud1) (s := s) (by rw [hk]; exact hs)
    have s_hi := span_before hm hs (by omega) u1
    have s_lo : s0 + p ≤ s := by
      refine span_after hm hs ?_ (by omega) u0
      have := hm (s1 - p) (n + 1) (by omega) (by omega)
      linarith
    rw [ratPoint w' he' hwn (by rw [hk]; exact ud0) (by rw [hk]; exact ud1)]
    have hx : ∀ i, ∃ x : ℝ, -(1 / 100000) ≤ x ∧ x ≤ 1 + 1 / 100000 ∧ (i ≤ n → ratBasis c' p n i u • (nth c'.cps i).toXYZ = ratBasis c' p n i u • (a + x • (b - a))) := by
      intro i
      by_cases hi : s0 ≤ i ∧ i + p < s1
      · rcases hfeet i hi.1 hi.2 with ⟨Q, ⟨x, x0, x1, rfl, -⟩, hQ⟩ | ⟨hno, -⟩
        · obtain ⟨y0, y1⟩ := foot_range x0 x1
          refine ⟨x, y0, y1, fun _ => ?_⟩
          have ht := notTiny_of_ge (hw i (by omega))
          rw [hQ, XYZW.toXYZ_eq (by exact ht)]
          congr 1
          have := raw_ofXYZ (a + x • (b - a)) (nth c.cps i).w
          change ((nth c.cps i).w)⁻¹ • (XYZW.ofXYZ (a + x • (b - a)) (nth c.cps i).w).raw = _
          rw [this, smul_smul, inv_mul_cancel₀ ht.ne, one_smul]
        · obtain ⟨Q, hQ⟩ := hall i hi.1 hi.2
          exact absurd hQ (hno Q)
      · refine ⟨0, by norm_num, by norm_num, fun hin => ?_⟩
        rw [bz i hin (by omega), zero_smul, zero_smul]
    choose x x0 x1 x2 using hx
    refine ⟨∑ i ∈ range (n + 1), ratBasis c' p n i u * x i, ?_, ?_, ?_⟩
    · calc -(1 / 100000 : ℝ) = ∑ i ∈ range (n + 1), ratBasis c' p n i u * (-(1 / 100000)) := by rw [← sum_mul, b1, one_mul]
        _ ≤ _ := sum_le_sum fun i hi => mul_le_mul_of_nonneg_left (x0 i) (b0 i (by have := mem_range.mp hi; omega))
    · calc _ ≤ ∑ i ∈ range (n + 1), ratBasis c' p n i u * (1 + 1 / 100000) :=
            sum_le_sum fun i hi => mul_le_mul_of_nonneg_left (x1 i) (b0 i (by have := mem_range.mp hi; omega))
        _ = 1 + 1 / 100000 := by rw [← sum_mul, b1, one_mul]
    · congr 1
      rw [sum_congr rfl fun i hi => x2 i (by have := mem_range.mp hi; omega)]
      simp only [smul_add, smul_smul]
      rw [sum_add_distrib, ← sum_smul, ← sum_smul, b1, one_smul]

/-- a polyline with six vertices -/
noncomputable def exFlat : NurbsCurve ℝ :=
  { degree := 1, knots := [0, 0, 1, 2, 3, 4, 5, 5], cps := [⟨0, 5, 0, 1⟩, ⟨1, 1, 0, 1⟩, ⟨20, 1, 0, 1⟩, ⟨2, 1, 0, 1⟩, ⟨3, 5, 0, 1⟩, ⟨9, 5, 0, 1⟩] }

theorem exFlat_wf : WellFormed exFlat 1 5 ∧ EndsSeparated (nth exFlat.knots) 1 5 ∧ ∀ i, i ≤ 5 → 1 / 500000 ≤ (nth exFlat.cps i).w := by
  refine ⟨⟨rfl, by omega, by omega, rfl, by omega, rfl, isValidKnotVector_nth.mp (by norm_num [exFlat, isValidKnotVector])⟩, ?_, ?_⟩
  · constructor <;> norm_num [exFlat, nth, doubleEps]
  · intro i hi
    interval_cases i <;> norm_num [exFlat, nth]

/-- the two basis functions of a span of a curve with the knots and weights of `exFlat` -/
theorem exFlat_basis {c : NurbsCurve ℝ} {s : ℕ} {u : ℝ} (hk : c.knots = exFlat.knots) (hw : ∀ i, i ≤ 5 → (nth c.cps i).w = (nth exFlat.cps i).w)
    (hs : IsSpan (nth exFlat.knots) 1 5 u s) :
    ratBasis c 1 5 (s - 1) u = s - u ∧ ratBasis c 1 5 s u = u - (s - 1) ∧ ∀ i, i ≤ 5 → i ≠ s → i + 1 ≠ s → ratBasis c 1 5 i u = 0 := by
  obtain ⟨w, he, hw0⟩ := exFlat_wf
  have hw1 : ∀ i, i ≤ 5 → (nth exFlat.cps i).w = 1 := by
    intro i hi
    interval_cases i <;> rfl
  have hW : weightFn (nth exFlat.knots) 1 5 (nth exFlat.cps) u = 1 := by
    unfold weightFn
    rw [← (basis_convex (wf_monoTo w) hs).2]
    refine sum_congr rfl fun i hi => ?_
    rw [hw1 i (by have := mem_range.mp hi; omega), mul_one]
  have hR : ∀ i, i ≤ 5 → ratBasis c 1 5 i u = Nspan (nth exFlat.knots) s 1 i u := by
    intro i hi
    rw [ratBasis_congr hk hw hi]
    unfold ratBasis
    rw [hW, hw1 i hi, N_eq_Nspan (wf_monoTo w) (by omega) hs 1 i (by omega), mul_one, div_one]
  have s1 := hs.1
  have s2 := hs.2.1
  refine ⟨?_, ?_, ?_⟩
  · rw [hR (s - 1) (by omega)]
    interval_cases s <;> simp [Nspan, exFlat, nth] <;> norm_num
  · rw [hR s (by omega)]
    interval_cases s <;> simp [Nspan, exFlat, nth] <;> norm_num
  · intro i hi h1 h2
    rw [hR i hi, Nspan_zero _ _ _ _ _ (by omega)]

theorem exFlat_span {u : ℝ} {s : ℕ} (h1 : 1 ≤ s) (h5 : s ≤ 5) (h0 : (s : ℝ) - 1 ≤ u) (h : u < s ∨ u = 5 ∧ s = 5) : IsSpan (nth exFlat.knots) 1 5 u s := by
  have hk : ∀ j, 1 ≤ j → j ≤ 6 → nth exFlat.knots j = (j : ℝ) - 1 := by
    intro j j1 j2
    interval_cases j <;> norm_num [exFlat, nth]
  refine ⟨h1, h5, ?_, ?_, ?_⟩
  · rw [hk s h1 (by omega), hk (s + 1) (by omega) (by omega)]; push_cast; linarith
  · rw [hk s h1 (by omega)]; exact h0
  · rw [hk (s + 1) (by omega) (by omega), hk (5 + 1) (by omega) (by omega)]
    rcases h with h | ⟨h, rfl⟩
    · left; push_cast; linarith
    · right; push_cast; exact ⟨by linarith, by norm_num⟩

open Classical in
/-- the flattened `exFlat` -/
theorem exFlat_run {t0 : ℝ} (h0 : 0 ≤ t0) (h1 : t0 < 1) : ∃ c', flattening exFlat 0 ⟨10, 0, 0⟩ t0 5 = ok (true, c') ∧ WellFormed c' 1 5 ∧ c'.knots = exFlat.knots ∧
    (∀ i, i ≤ 5 → (nth c'.cps i).w = (nth exFlat.cps i).w) ∧ (nth c'.cps 0).toXYZ = ⟨0, 5, 0⟩ ∧ (nth c'.cps 1).toXYZ = ⟨1, 0, 0⟩ ∧
    (nth c'.cps 2).toXYZ = ⟨20, 1, 0⟩ ∧ (nth c'.cps 3).toXYZ = ⟨2, 0, 0⟩ ∧ (nth c'.cps 4).toXYZ = ⟨3, 5, 0⟩ ∧ (nth c'.cps 5).toXYZ = ⟨9, 5, 0⟩ := by
  obtain ⟨w, he, hw0⟩ := exFlat_wf
  have k1 : nth exFlat.knots 1 = 0 := by norm_num [exFlat, nth]
  have k6 : nth exFlat.knots (5 + 1) = 5 := by norm_num [exFlat, nth]
  have hv : (⟨10, 0, 0⟩ - 0 : XYZ ℝ).dot (⟨10, 0, 0⟩ - 0) = 100 := by norm_num [XYZ.dot]
  obtain ⟨ans, c', s0, s1, e, hs0, hs1, w', hk, hw', hsame, hfeet, hans⟩ := C116_flatten (a := 0) (b := ⟨10, 0, 0⟩) (t0 := t0) (t1 := 5) w he
    (by norm_num [XYZ.almostEq, isAlmostEqualTo, tolOf, doubleEps]) (by rw [hv]; norm_num [isAlmostEqualTo, tolOf, doubleEps]) (by rw [k1]; exact h0)
    (by unfold isGreaterThan; rw [decide_eq_true_eq]; unfold tolOf doubleEps; rw [abs_of_pos (by norm_num : (0 : ℝ) < 5), abs_of_nonneg h0, max_eq_left (by linarith)]; linarith)
    (by rw [k6])
  have e0 : s0 = 1 := isSpan_unique (wf_monoTo w) (by omega) hs0 (exFlat_span (by omega) (by omega) (by norm_num; exact h0) (Or.inl (by norm_num; exact h1)))
  have e1 : s1 = 5 := isSpan_unique (wf_monoTo w) (by omega) hs1 (exFlat_span (by omega) (by omega) (by norm_num) (Or.inr ⟨rfl, rfl⟩))
  subst e0 e1
  have hp : ∀ x y z : ℝ, (⟨x, y, z, 1⟩ : XYZW ℝ).toXYZ = ⟨x, y, z⟩ := fun x y z => toXYZ_one x y z
  have hfoot : ∀ x y : ℝ, 0 ≤ x → x ≤ 10 → FootOf 0 ⟨10, 0, 0⟩ ⟨x, y, 0⟩ ⟨x, 0, 0⟩ := by
    intro x y x0 x1
    refine ⟨x / 10, ?_, ?_, ?_, ?_⟩
    · unfold isLessThan
      rw [decide_eq_false_iff_not, gt_iff_lt, not_lt]
      unfold tolOf doubleEps
      have : (0 : ℝ) ≤ 1 / 1000000 * (1 + max |x / 10| |0|) := by positivity
      linarith
    · unfold isGreaterThan
      rw [decide_eq_false_iff_not, gt_iff_lt, not_lt]
      unfold tolOf doubleEps
      have : (0 : ℝ) ≤ 1 / 1000000 * (1 + max |x / 10| |1|) := by positivity
      linarith
    · ext <;> simp
    · simp [XYZ.dot]
  have hv0 : (⟨10, 0, 0⟩ - 0 : XYZ ℝ).dot (⟨10, 0, 0⟩ - 0) ≠ 0 := by rw [hv]; norm_num
  have c1 : (nth exFlat.cps 1).toXYZ = ⟨1, 1, 0⟩ := hp _ _ _
  have c2 : (nth exFlat.cps 2).toXYZ = ⟨20, 1, 0⟩ := hp _ _ _
  have c3 : (nth exFlat.cps 3).toXYZ = ⟨2, 1, 0⟩ := hp _ _ _
  have f1 := hfoot 1 1 (by norm_num) (by norm_num)
  have f3 := hfoot 2 1 (by norm_num) (by norm_num)
  have hone : ∀ Q : XYZ ℝ, (XYZW.ofXYZ Q 1).toXYZ = Q := ofXYZ_one_toXYZ
  have hans' : ans = true := by
    rw [hans]
    have : ({1, 3} : Finset ℕ) ⊆ (Finset.range (5 + 1)).filter (fun i => 1 ≤ i ∧ i + 1 < 5 ∧ ∃ Q, FootOf 0 ⟨10, 0, 0⟩ (nth exFlat.cps i).toXYZ Q) := by
      intro i hi
      rw [Finset.mem_filter]
      simp only [Finset.mem_insert, Finset.mem_singleton] at hi
      rcases hi with rfl | rfl
      · exact ⟨by simp, by omega, by omega, _, by rw [c1]; exact f1⟩
      · exact ⟨by simp, by omega, by omega, _, by rw [c3]; exact f3⟩
    calc 1 + 1 = ({1, 3} : Finset ℕ).card := rfl
      _ ≤ _ := Finset.card_le_card this
  rw [hans'] at e
  refine ⟨c', e, w', hk, hw', ?_, ?_, ?_, ?_, ?_, ?_⟩
  · rw [hsame 0 (by omega) (by omega)]; exact hp _ _ _
  · rcases hfeet 1 (by omega) (by omega) with ⟨Q, hQ, e'⟩ | ⟨hno, -⟩
    · rw [e', show (nth exFlat.cps 1).w = 1 from rfl, hone]
      rw [c1] at hQ
      exact footOf_unique hv0 hQ f1
    · rw [c1] at hno
      exact absurd f1 (hno _)
  · rcases hfeet 2 (by omega) (by omega) with ⟨Q, ⟨x, x0, x1, rfl, hx⟩, e'⟩ | ⟨-, e'⟩
    · exfalso
      obtain ⟨-, y1⟩ := foot_range x0 x1
      rw [c2] at hx
      simp [XYZ.dot] at hx
      linarith
    · rw [e', c2]
  · rcases hfeet 3 (by omega) (by omega) with ⟨Q, hQ, e'⟩ | ⟨hno, -⟩
    · rw [e', show (nth exFlat.cps 3).w = 1 from rfl, hone]
      rw [c3] at hQ
      exact footOf_unique hv0 hQ f3
    · rw [c3] at hno
      exact absurd f3 (hno _)
  · rw [hsame 4 (by omega) (by omega)]; exact hp _ _ _
  · rw [hsame 5 (by omega) (by omega)]; exact hp _ _ _

/-- C116 is violated: the answer `true` does not mean that a part of the curve is on the line. The flattened polyline is on the line at two isolated parameters only. -/
theorem C116_answer_violated : ∃ c', flattening exFlat 0 ⟨10, 0, 0⟩ 0 5 = ok (true, c') ∧
    ∀ u, 0 ≤ u → u ≤ 5 → u ≠ 1 → u ≠ 3 → ∃ P, NurbsCurve.pointOnCurve c' u = ok P ∧ P.y ≠ 0 := by
  obtain ⟨c', e, w', hk, hw', p0, p1, p2, p3, p4, p5⟩ := exFlat_run (t0 := 0) (le_refl _) (by norm_num)
  obtain ⟨w, he, hw0⟩ := exFlat_wf
  refine ⟨c', e, fun u u0 u5 n1 n3 => ?_⟩
  have k1 : nth exFlat.knots 1 = 0 := by norm_num [exFlat, nth]
  have k6 : nth exFlat.knots (5 + 1) = 5 := by norm_num [exFlat, nth]
  obtain ⟨s, -, hs⟩ := getKnotSpanIndex_isSpan w.knots w.pn w.sorted he (t := u) (by rw [k1]; exact u0) (by rw [k6]; exact u5)
  obtain ⟨b0, b1, bz⟩ := exFlat_basis hk hw' hs
  refine ⟨_, ratPoint w' (by rw [hk]; exact he) (fun i hi => by rw [hw' i hi]; exact hw0 i hi) (by rw [hk, k1]; exact u0) (by rw [hk, k6]; exact u5), ?_⟩
  simp only [sum_range_succ, sum_range_zero, zero_add, XYZ.add_y, XYZ.smul_y, p0, p1, p2, p3, p4, p5]
  have hk' : ∀ j, 1 ≤ j → j ≤ 6 → nth exFlat.knots j = (j : ℝ) - 1 := by
    intro j j1 j2
    interval_cases j <;> norm_num [exFlat, nth]
  have s1 := hs.1
  have s2 := hs.2.1
  have s3 := hs.2.2.2.1
  have s4 : u ≤ nth exFlat.knots (s + 1) := by
    rcases hs.2.2.2.2 with h | ⟨h, -⟩
    · exact h.le
    · exact h.le
  rw [hk' s s1 (by omega)] at s3
  rw [hk' (s + 1) (by omega) (by omega)] at s4
  interval_cases s
  · rw [show (1 - 1 : ℕ) = 0 from rfl] at b0
    rw [b0, b1, bz 2 (by omega) (by omega) (by omega), bz 3 (by omega) (by omega) (by omega), bz 4 (by omega) (by omega) (by omega), bz 5 (by omega) (by omega) (by omega)]
    intro h
    apply n1
    push_cast at h
    linarith
  · rw [show (2 - 1 : ℕ) = 1 from rfl] at b0
    rw [b0, b1, bz 0 (by omega) (by omega) (by omega), bz 3 (by omega) (by omega) (by omega), bz 4 (by omega) (by omega) (by omega), bz 5 (by omega) (by omega) (by omega)]
    intro h
    apply n1
    push_cast at h
    linarith
  · rw [show (3 - 1 : ℕ) = 2 from rfl] at b0
    rw [b0, b1, bz 0 (by omega) (by omega) (by omega), bz 1 (by omega) (by omega) (by omega), bz 4 (by omega) (by omega) (by omega), bz 5 (by omega) (by omega) (by omega)]
    intro h
    apply n3
    push_cast at h
    linarith
  · rw [show (4 - 1 : ℕ) = 3 from rfl] at b0
    rw [b0, b1, bz 0 (by omega) (by omega) (by omega), bz 1 (by omega) (by omega) (by omega), bz 2 (by omega) (by omega) (by omega), bz 5 (by omega) (by omega) (by omega)]
    intro h
    apply n3
    push_cast at h
    linarith
  · rw [show (5 - 1 : ℕ) = 4 from rfl] at b0
    rw [b0, b1, bz 0 (by omega) (by omega) (by omega), bz 1 (by omega) (by omega) (by omega), bz 2 (by omega) (by omega) (by omega), bz 3 (by omega) (by omega) (by omega)]
    intro h
    push_cast at h
    linarith

/-- C116 is violated: a point of the curve before the start parameter moves. -/
theorem C116_before_violated : ∃ c', flattening exFlat 0 ⟨10, 0, 0⟩ (1 / 2) 5 = ok (true, c') ∧
    NurbsCurve.pointOnCurve exFlat (1 / 4) = ok ⟨1 / 4, 4, 0⟩ ∧ NurbsCurve.pointOnCurve c' (1 / 4) = ok ⟨1 / 4, 15 / 4, 0⟩ := by
  obtain ⟨c', e, w', hk, hw', p0, p1, -⟩ := exFlat_run (t0 := 1 / 2) (by norm_num) (by norm_num)
  obtain ⟨w, he, hw0⟩ := exFlat_wf
  have hs := exFlat_span (u := 1 / 4) (s := 1) (by omega) (by omega) (by norm_num) (by norm_num)
  have k1 : nth exFlat.knots 1 ≤ 1 / 4 := by norm_num [exFlat, nth]
  have k6 : 1 / 4 ≤ nth exFlat.knots (5 + 1) := by norm_num [exFlat, nth]
  refine ⟨c', e, ?_, ?_⟩
  · obtain ⟨b0, b1, bz⟩ := exFlat_basis (c := exFlat) rfl (fun _ _ => rfl) hs
    rw [ratPoint w he hw0 k1 k6]
    simp only [sum_range_succ, sum_range_zero, zero_add]
    rw [show (1 - 1 : ℕ) = 0 from rfl] at b0
    rw [b0, b1, bz 2 (by omega) (by omega) (by omega), bz 3 (by omega) (by omega) (by omega), bz 4 (by omega) (by omega) (by omega), bz 5 (by omega) (by omega) (by omega),
      show (nth exFlat.cps 0).toXYZ = ⟨0, 5, 0⟩ from toXYZ_one _ _ _, show (nth exFlat.cps 1).toXYZ = ⟨1, 1, 0⟩ from toXYZ_one _ _ _]
    congr 1
    ext <;> simp <;> norm_num
  · obtain ⟨b0, b1, bz⟩ := exFlat_basis hk hw' hs
    rw [ratPoint w' (by rw [hk]; exact he) (fun i hi => by rw [hw' i hi]; exact hw0 i hi) (by rw [hk]; exact k1) (by rw [hk]; exact k6)]
    simp only [sum_range_succ, sum_range_zero, zero_add]
    rw [show (1 - 1 : ℕ) = 0 from rfl] at b0
    rw [b0, b1, bz 2 (by omega) (by omega) (by omega), bz 3 (by omega) (by omega) (by omega), bz 4 (by omega) (by omega) (by omega), bz 5 (by omega) (by omega) (by omega), p0, p1]
    congr 1
    ext <;> simp <;> norm_num

/-! ## C117 -/

/-- C117 (what the code does): for every valid curve and parameter interval of the domain, with `s0` and `s1` the spans of the two parameters, if the selected control
points `s0 ≤ i < s1 - p` do not make a division by zero, `Bending` returns a valid curve with the same knots and weights in which exactly the selected control points
move, each on its ray from the centre `C`. With `D` the distance of the control point from the centre and `D'` the (signed) distance afterwards,
`D'/D · (D - |r|) = cr · |r| · (1 - D'/D)`: the cross ratio is the given one. In particular, for the cross ratio one the control points move on the circle, and
those that are on the circle do not move. -/
theorem C117_bend {c : NurbsCurve ℝ} {p n s0 s1 : ℕ} {C : XYZ ℝ} {r cr t0 t1 : ℝ} (w : WellFormed c p n) (he : EndsSeparated (nth c.knots) p n)
    (h0 : nth c.knots p ≤ t0) (h01 : isGreaterThan t1 t0 = true) (h1 : t1 ≤ nth c.knots (n + 1))
    (hs0 : IsSpan (nth c.knots) p n t0 s0) (hs1 : IsSpan (nth c.knots) p n t1 s1)
    (hD : ∀ i, s0 ≤ i → i + p < s1 → C.distance (nth c.cps i).toXYZ ≠ 0 ∧ C.distance (nth c.cps i).toXYZ + (cr - 1) * |r| ≠ 0) :
    ∃ c', bending c t0 t1 C r cr = ok c' ∧ WellFormed c' p n ∧ c'.knots = c.knots ∧ (∀ i, i ≤ n → (nth c'.cps i).w = (nth c.cps i).w) ∧
      (∀ i, i ≤ n → ¬ (s0 ≤ i ∧ i + p < s1) → nth c'.cps i = nth c.cps i) ∧
      (∀ i, s0 ≤ i → i + p < s1 → ∃ x Q, nth c'.cps i = XYZW.ofXYZ Q (nth c.cps i).w ∧ Q = C + x • ((nth c.cps i).toXYZ - C) ∧
        x * (C.distance (nth c.cps i).toXYZ - |r|) = cr * |r| * (1 - x) ∧
        (cr = 1 → C.distance Q = |r|) ∧ (C.distance (nth c.cps i).toXYZ = |r| → cr ≠ 0 → Q = (nth c.cps i).toXYZ)) := by
  have hl := w.knots
  have hc := w.cps
  have hm := wf_monoTo w
  have hpn := w.pn
  have hlt : t0 < t1 := by
    have := tolOf_pos (a := t1) (b := t0) (doubleEps_pos (K := ℝ))
    simp only [isGreaterThan, decide_eq_true_eq] at h01
    linarith
  obtain ⟨s0', e0, hs0'⟩ := getKnotSpanIndex_isSpan w.knots w.pn w.sorted he h0 (by linarith)
  obtain ⟨s1', e1, hs1'⟩ := getKnotSpanIndex_isSpan w.knots w.pn w.sorted he (t := t1) (by linarith) h1
  obtain rfl := isSpan_unique hm (by have := w.pos; omega) hs0 hs0'
  obtain rfl := isSpan_unique hm (by have := w.pos; omega) hs1 hs1'
  have hs1p := hs1.1
  have hs1n := hs1.2.1
  obtain ⟨x, hx⟩ : ∃ x : ℕ → ℝ, ∀ i, x i = cr * (|r| / C.distance (nth c.cps i).toXYZ) / (1 + (cr - 1) * (|r| / C.distance (nth c.cps i).toXYZ)) := ⟨_, fun _ => rfl⟩
  obtain ⟨l, el, g1, g2⟩ := rangeLoop (l := c.cps) (a := s0) (b := s1 - p) (n := n)
    (body := fun i st => do
      let P ← vget c.cps i
      let current := P.toXYZ
      let pointOnBendCurve := C + r • (current - C).normalize
      let si ← fdiv (C.distance pointOnBendCurve) (C.distance current)
      let ti ← fdiv (cr * si) (1 + (cr - 1) * si)
      let project := C + ti • (current - C)
      vset st i (XYZW.ofXYZ project P.w)) (g := fun i => XYZW.ofXYZ (C + x i • ((nth c.cps i).toXYZ - C)) (nth c.cps i).w) hc (by omega) (by
      intro i st hi1 hi2 hst
      obtain ⟨d1, d2⟩ := hD i hi1 (by omega)
      have hdl : C.distance (nth c.cps i).toXYZ = ((nth c.cps i).toXYZ - C).length := by
        unfold XYZ.distance XYZ.length; congr 1; simp; ring
      have hpos : 0 < ((nth c.cps i).toXYZ - C).length := lt_of_le_of_ne (Real.sqrt_nonneg _) (by rw [← hdl]; exact d1.symm)
      have hnl : ((nth c.cps i).toXYZ - C).normalize.length = 1 := length_normalize' hpos
      rw [vget_nth (k := i) rfl (by omega), ok_bind]
      dsimp only
      rw [distance_move, hnl, mul_one, fdiv_ok d1, ok_bind, fdiv_ok ?_, ok_bind, vset_of rfl (by omega), hx i]
      intro h
      apply d2
      field_simp at h
      linarith)
  have hw' : ∀ i, i ≤ n → (nth l i).w = (nth c.cps i).w := by
    intro i hi
    rw [g2 i hi]
    split_ifs <;> rfl
  refine ⟨{ degree := c.degree, knots := c.knots, cps := l }, ?_, ?_, rfl, hw', ?_, ?_⟩
  · unfold bending
    rw [vget_nth (i := 0) (k := 0) rfl (by omega), ok_bind, vget_nth (k := n + p + 1) (by omega) (by omega), ok_bind,
      validateRange_in (le_trans (hm _ _ (by omega) (by omega)) h0) (by have := hm (n + 1) (n + p + 1) (by omega) (by omega); linarith), ok_bind,
      validateRange_in (by have := hm 0 p (by omega) (by omega); linarith) (by have := hm (n + 1) (n + p + 1) (by omega) (by omega); linarith), ok_bind, h01, validate_true,
      ok_bind, w.degree, e0, ok_bind, e1, ok_bind, show (s1 : ℤ) - (p : ℤ) = ((s1 - p : ℕ) : ℤ) by omega, el, ok_bind]
  · exact { degree := w.degree, pos := w.pos, le7 := w.le7, cps := g1, pn := w.pn, knots := hl, sorted := w.sorted }
  · intro i hi h
    dsimp only
    rw [g2 i hi, if_neg (by omega)]
  · intro i hi1 hi2
    dsimp only
    obtain ⟨d1, d2⟩ := hD i hi1 hi2
    have hxD : x i * (C.distance (nth c.cps i).toXYZ + (cr - 1) * |r|) = cr * |r| := by
      rw [hx i]
      have : 1 + (cr - 1) * (|r| / C.distance (nth c.cps i).toXYZ) ≠ 0 := by
        intro h
        apply d2
        field_simp at h
        linarith
      rw [div_mul_eq_mul_div, div_eq_iff this]
      field_simp
    refine ⟨x i, _, by rw [g2 i (by omega), if_pos ⟨hi1, by omega⟩], rfl, by linarith, ?_, ?_⟩
    · rintro rfl
      rw [sub_self, zero_mul, add_zero, one_mul] at hxD
      rw [distance_move]
      have hdl : C.distance (nth c.cps i).toXYZ = ((nth c.cps i).toXYZ - C).length := by
        unfold XYZ.distance XYZ.length; congr 1; simp; ring
      rw [← hdl]
      have hnn : 0 ≤ C.distance (nth c.cps i).toXYZ := Real.sqrt_nonneg _
      rw [← abs_of_nonneg hnn, ← abs_mul, hxD, abs_abs]
    · intro hr hcr
      rw [hr] at hxD d1
      have : x i = 1 := by
        have h2 : (x i - 1) * (cr * |r|) = 0 := by linarith
        rcases mul_eq_zero.mp h2 with h3 | h3
        · linarith
        · rcases mul_eq_zero.mp h3 with h4 | h4
          · exact absurd h4 hcr
          · exact absurd h4 d1
      rw [this, one_smul]
      abel

/-- C117 (partial): the points of the curve after the end parameter, and those before the last knot that is not after the start parameter, do not move. -/
theorem C117_outside_partial {c : NurbsCurve ℝ} {p n s0 s1 : ℕ} {C : XYZ ℝ} {r cr t0 t1 : ℝ} (w : WellFormed c p n) (he : EndsSeparated (nth c.knots) p n)
    (hw : ∀ i, i ≤ n → 1 / 500000 ≤ (nth c.cps i).w)
    (h0 : nth c.knots p ≤ t0) (h01 : isGreaterThan t1 t0 = true) (h1 : t1 ≤ nth c.knots (n + 1))
    (hs0 : IsSpan (nth c.knots) p n t0 s0) (hs1 : IsSpan (nth c.knots) p n t1 s1)
    (hD : ∀ i, s0 ≤ i → i + p < s1 → C.distance (nth c.cps i).toXYZ ≠ 0 ∧ C.distance (nth c.cps i).toXYZ + (cr - 1) * |r| ≠ 0) :
    ∃ c', bending c t0 t1 C r cr = ok c' ∧ ∀ u, nth c.knots p ≤ u → u ≤ nth c.knots (n + 1) →
      (t1 ≤ u ∨ ∃ k, k ≤ n + p + 1 ∧ u < nth c.knots k ∧ nth c.knots k ≤ t0) → ∃ P, NurbsCurve.pointOnCurve c u = ok P ∧ NurbsCurve.pointOnCurve c' u = ok P := by
  obtain ⟨c', e, w', hk, hw', hsame, -⟩ := C117_bend w he h0 h01 h1 hs0 hs1 hD
  refine ⟨c', e, fun u u0 u1 hu => ?_⟩
  have hlt : t0 < t1 := by
    have := tolOf_pos (a := t1) (b := t0) (doubleEps_pos (K := ℝ))
    simp only [isGreaterThan, decide_eq_true_eq] at h01
    linarith
  exact outside_same w he hw hs0 hs1 hlt h1 w' hk hw' hsame u0 u1 hu

/-- C117: an interval that leaves the knots by more than the tolerance, or whose end is not after its start, is rejected. -/
theorem C117_rejects {c : NurbsCurve ℝ} {p n : ℕ} {C : XYZ ℝ} {r cr t0 t1 : ℝ} (w : WellFormed c p n) :
    (t0 < nth c.knots 0 - doubleEps ∨ nth c.knots (n + p + 1) + doubleEps < t0 → bending c t0 t1 C r cr = outOfRange) ∧
    (nth c.knots 0 ≤ t0 → t0 ≤ nth c.knots (n + p + 1) → t1 < nth c.knots 0 - doubleEps ∨ nth c.knots (n + p + 1) + doubleEps < t1 →
      bending c t0 t1 C r cr = outOfRange) ∧
    (nth c.knots 0 ≤ t0 → t0 ≤ nth c.knots (n + p + 1) → nth c.knots 0 ≤ t1 → t1 ≤ nth c.knots (n + p + 1) → isGreaterThan t1 t0 = false →
      bending c t0 t1 C r cr = invalidArg) := by
  have hl := w.knots
  have hpre : ∀ f : ℝ → ℝ → Res (NurbsCurve ℝ), (do
      let u0 ← vget c.knots 0
      let uN ← vget c.knots ((c.knots.length : ℤ) - 1)
      f u0 uN) = f (nth c.knots 0) (nth c.knots (n + p + 1)) := by
    intro f
    rw [vget_nth (i := 0) (k := 0) rfl (by omega), ok_bind, vget_nth (k := n + p + 1) (by omega) (by omega), ok_bind]
  have hm0 := wf_monoTo w 0 (n + p + 1) (by omega) le_rfl
  have hbad : ∀ x : ℝ, x < nth c.knots 0 - doubleEps ∨ nth c.knots (n + p + 1) + doubleEps < x →
      validateRange x (nth c.knots 0) (nth c.knots (n + p + 1)) = outOfRange := by
    intro x hx
    have := doubleEps_pos (K := ℝ)
    unfold validateRange
    rcases hx with hx | hx
    · rw [if_pos (Or.inl ⟨by linarith, by rw [gt_iff_lt, lt_abs]; right; linarith⟩)]
    · rw [if_pos (Or.inr ⟨by linarith, by rw [gt_iff_lt, lt_abs]; left; linarith⟩)]
  unfold bending
  refine ⟨fun h => ?_, fun a b h => ?_, fun a b a' b' h => ?_⟩
  · rw [hpre, hbad _ h]; rfl
  · rw [hpre, validateRange_in a b, ok_bind, hbad _ h]; rfl
  · rw [hpre, validateRange_in a b, ok_bind, validateRange_in a' b', ok_bind, h]; rfl

/-- the bent `exFlat`: bending it about `(1, 0, 0)` moves the second vertex from `(1, 1, 0)` to the circle -/
theorem exBend_run : ∃ c', bending exFlat (1 / 2) 5 ⟨1, 0, 0⟩ 2 1 = ok c' ∧ WellFormed c' 1 5 ∧ c'.knots = exFlat.knots ∧
    (∀ i, i ≤ 5 → (nth c'.cps i).w = (nth exFlat.cps i).w) ∧ (nth c'.cps 0).toXYZ = ⟨0, 5, 0⟩ ∧ (nth c'.cps 1).toXYZ = ⟨1, 2, 0⟩ := by
  obtain ⟨w, he, hw0⟩ := exFlat_wf
  have k1 : nth exFlat.knots 1 = 0 := by norm_num [exFlat, nth]
  have k6 : nth exFlat.knots (5 + 1) = 5 := by norm_num [exFlat, nth]
  have hp : ∀ x y z : ℝ, (⟨x, y, z, 1⟩ : XYZW ℝ).toXYZ = ⟨x, y, z⟩ := fun x y z => toXYZ_one x y z
  have c1 : (nth exFlat.cps 1).toXYZ = ⟨1, 1, 0⟩ := hp _ _ _
  have c2 : (nth exFlat.cps 2).toXYZ = ⟨20, 1, 0⟩ := hp _ _ _
  have c3 : (nth exFlat.cps 3).toXYZ = ⟨2, 1, 0⟩ := hp _ _ _
  have hd : ∀ x y z : ℝ, 0 < (x - 1) ^ 2 + (y - 0) ^ 2 + (z - 0) ^ 2 → (⟨1, 0, 0⟩ : XYZ ℝ).distance ⟨x, y, z⟩ ≠ 0 := by
    intro x y z h
    exact (Real.sqrt_pos.mpr h).ne'
  have d1 : (⟨1, 0, 0⟩ : XYZ ℝ).distance ⟨1, 1, 0⟩ = 1 := by
    unfold XYZ.distance; rw [Real.sqrt_eq_one]; norm_num
  obtain ⟨c', e, w', hk, hw', hsame, hmove⟩ := C117_bend (C := ⟨1, 0, 0⟩) (r := 2) (cr := 1) (t0 := 1 / 2) (t1 := 5) (s0 := 1) (s1 := 5) w he (by rw [k1]; norm_num)
    (by unfold isGreaterThan; rw [decide_eq_true_eq]; unfold tolOf doubleEps; norm_num) (by rw [k6])
    (exFlat_span (by omega) (by omega) (by norm_num) (Or.inl (by norm_num))) (exFlat_span (by omega) (by omega) (by norm_num) (Or.inr ⟨rfl, rfl⟩)) (by
      intro i h1 h2
      rw [sub_self, zero_mul, add_zero, and_self]
      have : i < 4 := by omega
      interval_cases i
      · rw [c1]; exact hd _ _ _ (by norm_num)
      · rw [c2]; exact hd _ _ _ (by norm_num)
      · rw [c3]; exact hd _ _ _ (by norm_num))
  refine ⟨c', e, w', hk, hw', ?_, ?_⟩
  · rw [hsame 0 (by omega) (by omega)]; exact hp _ _ _
  · obtain ⟨x, Q, e1, rfl, hx, -, -⟩ := hmove 1 (by omega) (by omega)
    rw [c1, d1] at hx
    have : x = 2 := by norm_num at hx; linarith
    rw [e1, show (nth exFlat.cps 1).w = 1 from rfl, ofXYZ_one_toXYZ, c1, this]
    ext <;> simp

/-- C117 is violated: a point of the curve before the start parameter moves. -/
theorem C117_before_violated : ∃ c', bending exFlat (1 / 2) 5 ⟨1, 0, 0⟩ 2 1 = ok c' ∧
    NurbsCurve.pointOnCurve exFlat (1 / 4) = ok ⟨1 / 4, 4, 0⟩ ∧ NurbsCurve.pointOnCurve c' (1 / 4) = ok ⟨1 / 4, 17 / 4, 0⟩ := by
  obtain ⟨c', e, w', hk, hw', p0, p1⟩ := exBend_run
  obtain ⟨-, -, e0, -⟩ := C116_before_violated
  obtain ⟨w, he, hw0⟩ := exFlat_wf
  have hs := exFlat_span (u := 1 / 4) (s := 1) (by omega) (by omega) (by norm_num) (by norm_num)
  have k1 : nth exFlat.knots 1 ≤ 1 / 4 := by norm_num [exFlat, nth]
  have k6 : 1 / 4 ≤ nth exFlat.knots (5 + 1) := by norm_num [exFlat, nth]
  refine ⟨c', e, e0, ?_⟩
  obtain ⟨b0, b1, bz⟩ := exFlat_basis hk hw' hs
  rw [ratPoint w' (by rw [hk]; exact he) (fun i hi => by rw [hw' i hi]; exact hw0 i hi) (by rw [hk]; exact k1) (by rw [hk]; exact k6)]
  simp only [sum_range_succ, sum_range_zero, zero_add]
  rw [show (1 - 1 : ℕ) = 0 from rfl] at b0
  rw [b0, b1, bz 2 (by omega) (by omega) (by omega), bz 3 (by omega) (by omega) (by omega), bz 4 (by omega) (by omega) (by omega), bz 5 (by omega) (by omega) (by omega), p0, p1]
  congr 1
  ext <;> norm_num

/-- C117 is violated: for every valid curve, when the first selected control point is the centre the bend divides by zero and the new control point is not a number. -/
theorem C117_centre_violated {c : NurbsCurve ℝ} {p n s0 s1 : ℕ} {r cr t0 t1 : ℝ} (w : WellFormed c p n) (he : EndsSeparated (nth c.knots) p n)
    (h0 : nth c.knots p ≤ t0) (h01 : isGreaterThan t1 t0 = true) (h1 : t1 ≤ nth c.knots (n + 1))
    (hs0 : IsSpan (nth c.knots) p n t0 s0) (hs1 : IsSpan (nth c.knots) p n t1 s1) (hne : s0 + p < s1) :
    bending c t0 t1 (nth c.cps s0).toXYZ r cr = nonfinite := by
  have hl := w.knots
  have hc := w.cps
  have hm := wf_monoTo w
  have hpn := w.pn
  have hlt : t0 < t1 := by
    have := tolOf_pos (a := t1) (b := t0) (doubleEps_pos (K := ℝ))
    simp only [isGreaterThan, decide_eq_true_eq] at h01
    linarith
  obtain ⟨s0', e0, hs0'⟩ := getKnotSpanIndex_isSpan w.knots w.pn w.sorted he h0 (by linarith)
  obtain ⟨s1', e1, hs1'⟩ := getKnotSpanIndex_isSpan w.knots w.pn w.sorted he (t := t1) (by linarith) h1
  obtain rfl := isSpan_unique hm (by have := w.pos; omega) hs0 hs0'
  obtain rfl := isSpan_unique hm (by have := w.pos; omega) hs1 hs1'
  have hs1n := hs1.2.1
  have hself : ∀ P : XYZ ℝ, P.distance P = 0 := by intro P; simp [XYZ.distance]
  unfold bending
  rw [vget_nth (i := 0) (k := 0) rfl (by omega), ok_bind, vget_nth (k := n + p + 1) (by omega) (by omega), ok_bind,
    validateRange_in (le_trans (hm _ _ (by omega) (by omega)) h0) (by have := hm (n + 1) (n + p + 1) (by omega) (by omega); linarith), ok_bind,
    validateRange_in (by have := hm 0 p (by omega) (by omega); linarith) (by have := hm (n + 1) (n + p + 1) (by omega) (by omega); linarith), ok_bind, h01, validate_true,
    ok_bind, w.degree, e0, ok_bind, e1, ok_bind, forI_head (by omega), vget_nth (k := s0) rfl (by omega), ok_bind]
  dsimp only
  rw [hself, fdiv_zero]
  rfl

/-- C115 speaks about actual calls. -/
example : ∃ c', warping exFlat [0, 1, 1, 0, 0, 0] 1 ⟨0, 0, 1⟩ 0 5 = ok c' ∧ ∀ u, 0 ≤ u → u ≤ 5 → ∃ P P', NurbsCurve.pointOnCurve exFlat u = ok P ∧
    NurbsCurve.pointOnCurve c' u = ok P' ∧ P.distance P' ≤ 1 := by
  obtain ⟨w, he, hw0⟩ := exFlat_wf
  have k1 : nth exFlat.knots 1 = 0 := by norm_num [exFlat, nth]
  have k6 : nth exFlat.knots (5 + 1) = 5 := by norm_num [exFlat, nth]
  obtain ⟨c', e, h⟩ := C115_bounded (f := [0, 1, 1, 0, 0, 0]) (d := 1) (t0 := 0) (t1 := 5) (M := 1) (nrm := ⟨0, 0, 1⟩) w he hw0 rfl (notTiny_of_ge (by norm_num))
    (by norm_num [XYZ.isZero, XYZ.sqrLength, doubleEps]) (by rw [k1])
    (by unfold isGreaterThan; rw [decide_eq_true_eq]; unfold tolOf doubleEps; norm_num) (by rw [k6])
    (by intro i hi; interval_cases i <;> norm_num [nth])
  refine ⟨c', e, fun u u0 u5 => ?_⟩
  obtain ⟨P, P', a, b, d⟩ := h u (by rw [k1]; exact u0) (by rw [k6]; exact u5)
  exact ⟨P, P', a, b, by simpa using d⟩

/-- C116 (all control points have feet): flattening the first three spans of `exFlat` on a long segment. -/
example : ∃ c', flattening exFlat 0 ⟨30, 0, 0⟩ 0 5 = ok (true, c') ∧ ∀ u, 1 ≤ u → u < 3 → ∃ x : ℝ, NurbsCurve.pointOnCurve c' u = ok ⟨30 * x, 0, 0⟩ := by
  obtain ⟨w, he, hw0⟩ := exFlat_wf
  have k1 : nth exFlat.knots 1 = 0 := by norm_num [exFlat, nth]
  have k6 : nth exFlat.knots (5 + 1) = 5 := by norm_num [exFlat, nth]
  have hv : (⟨30, 0, 0⟩ - 0 : XYZ ℝ).dot (⟨30, 0, 0⟩ - 0) = 900 := by norm_num [XYZ.dot]
  obtain ⟨ans, c', s0, s1, e, hs0, hs1, h⟩ := C116_straight_partial (a := 0) (b := ⟨30, 0, 0⟩) (t0 := 0) (t1 := 5) w he hw0
    (by norm_num [XYZ.almostEq, isAlmostEqualTo, tolOf, doubleEps]) (by rw [hv]; norm_num [isAlmostEqualTo, tolOf, doubleEps]) (by rw [k1])
    (by unfold isGreaterThan; rw [decide_eq_true_eq]; unfold tolOf doubleEps; norm_num) (by rw [k6])
  have e0 : s0 = 1 := isSpan_unique (wf_monoTo w) (by omega) hs0 (exFlat_span (by omega) (by omega) (by norm_num) (Or.inl (by norm_num)))
  have e1 : s1 = 5 := isSpan_unique (wf_monoTo w) (by omega) hs1 (exFlat_span (by omega) (by omega) (by norm_num) (Or.inr ⟨rfl, rfl⟩))
  subst e0 e1
  have hfoot : ∀ x y : ℝ, 0 ≤ x → x ≤ 30 → FootOf 0 ⟨30, 0, 0⟩ ⟨x, y, 0⟩ ⟨x, 0, 0⟩ := by
    intro x y x0 x1
    refine ⟨x / 30, ?_, ?_, ?_, ?_⟩
    · unfold isLessThan
      rw [decide_eq_false_iff_not, gt_iff_lt, not_lt]
      unfold tolOf doubleEps
      have : (0 : ℝ) ≤ 1 / 1000000 * (1 + max |x / 30| |0|) := by positivity
      linarith
    · unfold isGreaterThan
      rw [decide_eq_false_iff_not, gt_iff_lt, not_lt]
      unfold tolOf doubleEps
      have : (0 : ℝ) ≤ 1 / 1000000 * (1 + max |x / 30| |1|) := by positivity
      linarith
    · ext <;> simp
    · simp [XYZ.dot]
  obtain ⟨hans, hu⟩ := h (by
    intro i h1 h2
    have : i < 4 := by omega
    interval_cases i
    · exact ⟨_, by rw [show (nth exFlat.cps 1).toXYZ = ⟨1, 1, 0⟩ from toXYZ_one _ _ _]; exact hfoot 1 1 (by norm_num) (by norm_num)⟩
    · exact ⟨_, by rw [show (nth exFlat.cps 2).toXYZ = ⟨20, 1, 0⟩ from toXYZ_one _ _ _]; exact hfoot 20 1 (by norm_num) (by norm_num)⟩
    · exact ⟨_, by rw [show (nth exFlat.cps 3).toXYZ = ⟨2, 1, 0⟩ from toXYZ_one _ _ _]; exact hfoot 2 1 (by norm_num) (by norm_num)⟩)
  rw [hans.mpr (by norm_num)] at e
  refine ⟨c', e, fun u u0 u1 => ?_⟩
  obtain ⟨x, -, -, hx⟩ := hu u (by norm_num [exFlat, nth]; exact u0) (by norm_num [exFlat, nth]; exact u1)
  refine ⟨x, ?_⟩
  rw [hx]
  congr 1
  ext <;> simp [mul_comm]

end LNLib.Props
