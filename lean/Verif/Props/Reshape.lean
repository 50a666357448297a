import Verif.Model.Reshape
import Verif.Props.Sweep
import Verif.Props.Tangent

/-!
# C108, C109: shape modification of curves (Geometry/Curve/NurbsCurve.cpp)
-/

namespace LNLib.Props
open LNLib Res Spec Finset

/-- `basis[0]` is the value of the first basis function that does not vanish on the span of the parameter -/
theorem firstBasis_run {c : NurbsCurve ℝ} {p n : ℕ} {t : ℝ} (w : WellFormed c p n) (he : EndsSeparated (nth c.knots) p n)
    (h0 : nth c.knots p ≤ t) (h1 : t ≤ nth c.knots (n + 1)) :
    ∃ s, IsSpan (nth c.knots) p n t s ∧ firstBasis c t = ok (N (nth c.knots) (nth c.knots (n + 1)) p (s - p) t) := by
  have hl := w.knots
  have hpn := w.pn
  have hm : MonoTo (nth c.knots) (n + p + 1) := fun i j h h' => w.sorted i j h (by omega)
  obtain ⟨s, es, hs⟩ := getKnotSpanIndex_isSpan hl hpn w.sorted he h0 h1
  have a1 := hs.1
  have a2 := hs.2.1
  have heps := doubleEps_pos (K := ℝ)
  have b0 : nth c.knots 0 ≤ t := le_trans (hm _ _ (by omega) (by omega)) h0
  have b1 : t ≤ nth c.knots (c.knots.length - 1) := le_trans h1 (by rw [hl]; exact hm _ _ (by omega) (by omega))
  obtain ⟨out, eo, -, ho⟩ := basisFunctions_span (U := c.knots) (s := s) (p := p) (t := t) (out := uninit ℝ 8) w.le7 a1 (by omega) (by omega)
        (by have := w.le7; simp [uninit]; omega) (isValidKnotVector_nth.mpr w.sorted) hs.2.2.1 (by linarith) (by linarith)
  refine ⟨s, hs, ?_⟩
  unfold firstBasis
  rw [w.degree, es, ok_bind, eo, ok_bind]
  have := ho 0 (by omega)
  rw [Nat.add_zero] at this
  rw [N_eq_Nspan hm (by omega) hs p (s - p) (by omega)]
  exact this

theorem validateRange_in {t a b : ℝ} (h0 : a ≤ t) (h1 : t ≤ b) : validateRange t a b = ok () := by
  unfold validateRange
  rw [if_neg]
  rintro (h | h)
  · exact absurd h.1 (not_lt.mpr h0)
  · exact absurd h.1 (not_lt.mpr h1)

theorem validateIndex_in {k n : ℕ} (h : k < n) : validateIndex (k : ℤ) n = ok () := by
  unfold validateIndex
  rw [if_neg]
  omega

/-- replacing one weighted control point: the weight function -/
theorem weightFn_set {U : ℕ → ℝ} {p n k : ℕ} {l : List (XYZW ℝ)} (hk : k ≤ n) (hl : l.length = n + 1) (Q : XYZW ℝ) (t : ℝ) :
    weightFn U p n (nth (l.set k Q)) t = weightFn U p n (nth l) t + N U (U (n + 1)) p k t * (Q.w - (nth l k).w) := by
  unfold weightFn
  have : ∀ i ∈ range (n + 1), N U (U (n + 1)) p i t * (nth (l.set k Q) i).w =
      N U (U (n + 1)) p i t * (nth l i).w + if i = k then N U (U (n + 1)) p k t * (Q.w - (nth l k).w) else 0 := by
    intro i hi
    rw [nth_set (by omega)]
    split_ifs with h
    · rw [h]; ring
    · ring
  rw [sum_congr rfl this, sum_add_distrib, sum_ite_eq', if_pos (mem_range.mpr (by omega))]

/-- replacing one weighted control point: the weighted sum of the points -/
theorem rawSum_set {U : ℕ → ℝ} {p n k : ℕ} {l : List (XYZW ℝ)} (hk : k ≤ n) (hl : l.length = n + 1) (Q : XYZW ℝ) (t : ℝ) :
    ∑ i ∈ range (n + 1), N U (U (n + 1)) p i t • (nth (l.set k Q) i).raw =
      (∑ i ∈ range (n + 1), N U (U (n + 1)) p i t • (nth l i).raw) + N U (U (n + 1)) p k t • (Q.raw - (nth l k).raw) := by
  have : ∀ i ∈ range (n + 1), N U (U (n + 1)) p i t • (nth (l.set k Q) i).raw =
      N U (U (n + 1)) p i t • (nth l i).raw + if i = k then N U (U (n + 1)) p k t • (Q.raw - (nth l k).raw) else 0 := by
    intro i hi
    rw [nth_set (by omega)]
    split_ifs with h
    · rw [h, smul_sub]; abel
    · rw [add_zero]
  rw [sum_congr rfl this, sum_add_distrib, sum_ite_eq', if_pos (mem_range.mpr (by omega))]

theorem rationalPoint_raw {U : ℕ → ℝ} {p n : ℕ} {P : ℕ → XYZW ℝ} (t : ℝ) : rationalPoint U p n P t =
    (weightFn U p n P t)⁻¹ • ∑ i ∈ range (n + 1), N U (U (n + 1)) p i t • (P i).raw := rfl

/-- the first basis function on a span is positive before the end of the span and zero at it -/
theorem Nspan_first {U : ℕ → ℝ} {s m : ℕ} {t : ℝ} (hm : MonoTo U m) (hsm : s + 1 ≤ m) (hs : U s < U (s + 1)) :
    ∀ q, q ≤ s → (t < U (s + 1) → 0 < Nspan U s q (s - q) t) ∧ (0 < q → t = U (s + 1) → Nspan U s q (s - q) t = 0) := by
  intro q
  induction q with
  | zero => intro _; simp [Nspan]
  | succ q ih =>
    intro hq
    have ih := ih (by omega)
    have hz : Nspan U s q (s - (q + 1)) t = 0 := Nspan_zero U s q _ t (Or.inr (by omega))
    have e : Nspan U s (q + 1) (s - (q + 1)) t = (U (s + 1) - t) / (U (s + 1) - U (s - q)) * Nspan U s q (s - q) t := by
      rw [Nspan, hz, mul_zero, zero_add, show s - (q + 1) + q + 2 = s + 1 by omega, show s - (q + 1) + 1 = s - q by omega]
    have hd : 0 < U (s + 1) - U (s - q) := by
      have := hm (s - q) s (by omega) (by omega)
      linarith
    rw [e]
    constructor
    · intro h
      exact mul_pos (div_pos (by linarith) hd) (ih.1 h)
    · intro _ h
      rw [h, sub_self, zero_div, zero_mul]

theorem length_pos_of_isZero {d : XYZ ℝ} (h : d.isZero = false) : 0 < d.length := by
  unfold XYZ.isZero at h
  rw [decide_eq_false_iff_not, not_le] at h
  apply Real.sqrt_pos.mpr
  have : (0 : ℝ) ≤ doubleEps * doubleEps := mul_self_nonneg _
  unfold XYZ.sqrLength at h
  linarith

theorem notTiny_iff {x : ℝ} : isAlmostEqualTo x 0 = false ↔ NotTiny x := by
  rw [← Bool.not_eq_true, isAlmostZero_iff, not_le]
  rfl

/-- C108 (what the code does): `ControlPointReposition` changes only the control point `k`, keeps its weight, and moves the curve point at every
parameter `u` along `moveDirection`; at the given parameter `t`, in span `s`, the distance is
`moveDistance · (N_k(t) w_k / w(t)) / N_{s-p}(t)`. -/
theorem C108_moves_partial {c : NurbsCurve ℝ} {p n k : ℕ} {t d : ℝ} {dir : XYZ ℝ} (w : WellFormed c p n) (he : EndsSeparated (nth c.knots) p n)
    (h0 : nth c.knots p ≤ t) (h1 : t < nth c.knots (n + 1)) (hk : k ≤ n) (hw : NotTiny (nth c.cps k).w) (hdir : dir.isZero = false) (hd : NotTiny d) :
    ∃ c' s, controlPointReposition c t k dir d = ok (some c') ∧ IsSpan (nth c.knots) p n t s ∧ WellFormed c' p n ∧ c'.knots = c.knots ∧
      (∀ i, i ≤ n → i ≠ k → nth c'.cps i = nth c.cps i) ∧ (nth c'.cps k).w = (nth c.cps k).w ∧
      ∀ u, weightFn (nth c.knots) p n (nth c'.cps) u = weightFn (nth c.knots) p n (nth c.cps) u ∧
       rationalPoint (nth c.knots) p n (nth c'.cps) u = rationalPoint (nth c.knots) p n (nth c.cps) u +
        (d * (N (nth c.knots) (nth c.knots (n + 1)) p k u * (nth c.cps k).w / weightFn (nth c.knots) p n (nth c.cps) u) /
          N (nth c.knots) (nth c.knots (n + 1)) p (s - p) t) • dir.normalize := by
  have hl := w.knots
  have hpn := w.pn
  have hc := w.cps
  have hm : MonoTo (nth c.knots) (n + p + 1) := fun i j h h' => w.sorted i j h (by omega)
  obtain ⟨s, hs, hb⟩ := firstBasis_run w he h0 h1.le
  have a1 := hs.1
  have a2 := hs.2.1
  have ht : t < nth c.knots (s + 1) := by
    rcases hs.2.2.2.2 with h | ⟨h, h'⟩
    · exact h
    · rw [h, h'] at h1; exact absurd h1 (lt_irrefl _)
  have hpos : 0 < N (nth c.knots) (nth c.knots (n + 1)) p (s - p) t := by
    rw [N_eq_Nspan hm (by omega) hs p (s - p) (by omega)]
    exact (Nspan_first hm (by omega) hs.2.2.1 p a1).1 ht
  have hdl := length_pos_of_isZero hdir
  obtain ⟨B, hB⟩ : ∃ B, N (nth c.knots) (nth c.knots (n + 1)) p (s - p) t = B := ⟨_, rfl⟩
  rw [hB] at hb hpos
  set Q : XYZW ℝ := XYZW.ofXYZ ((nth c.cps k).toXYZ + (d / (dir.length * B)) • dir) (nth c.cps k).w with hQ
  refine ⟨{ degree := c.degree, knots := c.knots, cps := c.cps.set k Q }, s, ?_, hs, ?_, rfl, ?_, ?_, ?_⟩
  · unfold controlPointReposition
    rw [vget_nth (i := 0) (k := 0) rfl (by omega), ok_bind, vget_nth (k := n + p + 1) (by omega) (by omega), ok_bind,
      validateRange_in (le_trans (hm _ _ (by omega) (by omega)) h0) (le_trans h1.le (hm _ _ (by omega) (by omega))), ok_bind,
      validateIndex_in (by omega), ok_bind, hdir, notTiny_iff.mpr hd]
    simp only [Bool.not_false, validate_true, ok_bind]
    rw [hb, ok_bind, if_neg, vget_nth (k := k) rfl (by omega), ok_bind, fdiv_ok (mul_pos hdl hpos).ne', ok_bind, vset_of rfl (by omega), ok_bind]
    unfold isLessThan
    rw [decide_eq_true_eq, not_lt]
    have := tolOf_pos (a := B) (b := 0) (doubleEps_pos (K := ℝ))
    linarith
  · exact { degree := w.degree, pos := w.pos, le7 := w.le7, cps := by simpa using hc, pn := hpn, knots := hl, sorted := w.sorted }
  · intro i hi hne
    dsimp only
    rw [nth_set (by omega), if_neg hne]
  · dsimp only
    rw [nth_set (by omega), if_pos rfl, hQ]
    rfl
  · intro u
    dsimp only
    have hwu : weightFn (nth c.knots) p n (nth (c.cps.set k Q)) u = weightFn (nth c.knots) p n (nth c.cps) u := by
      rw [weightFn_set hk hc]
      simp [hQ, XYZW.ofXYZ]
    refine ⟨hwu, ?_⟩
    rw [rationalPoint_raw, rationalPoint_raw, hwu, rawSum_set hk hc, smul_add]
    congr 1
    rw [hQ, raw_ofXYZ, smul_add, smul_toXYZ hw, add_sub_cancel_left]
    unfold XYZ.normalize
    rw [if_pos hdl, hB]
    apply XYZ.ext
    all_goals
      simp only [XYZ.smul_x, XYZ.smul_y, XYZ.smul_z]
      field_simp

/-- C108, the case in which the code does what it promises: all weights equal and `k` the first control point that acts on the span of `t`.
Then the point of the curve at `t` moves exactly by `moveDistance` along `moveDirection`. -/
theorem C108_exact_partial {c : NurbsCurve ℝ} {p n k : ℕ} {t d wt : ℝ} {dir : XYZ ℝ} (w : WellFormed c p n) (he : EndsSeparated (nth c.knots) p n)
    (h0 : nth c.knots p ≤ t) (h1 : t < nth c.knots (n + 1)) (hwt : NotTiny wt) (hw : ∀ i, i ≤ n → (nth c.cps i).w = wt)
    (hdir : dir.isZero = false) (hd : NotTiny d) (hk : IsSpan (nth c.knots) p n t (k + p)) :
    ∃ c' P, controlPointReposition c t k dir d = ok (some c') ∧ NurbsCurve.pointOnCurve c t = ok P ∧
      NurbsCurve.pointOnCurve c' t = ok (P + d • dir.normalize) := by
  have hkn : k ≤ n := by have := hk.2.1; omega
  have hm : MonoTo (nth c.knots) (n + p + 1) := fun i j h h' => w.sorted i j h (by have := w.knots; omega)
  obtain ⟨c', s, e, hs, w', ek, -, -, hr⟩ := C108_moves_partial w he h0 h1 hkn (by rw [hw k hkn]; exact hwt) hdir hd
  have hsu : s = k + p := isSpan_unique hm (by omega) hs hk
  have hsum : ∑ i ∈ range (n + 1), N (nth c.knots) (nth c.knots (n + 1)) p i t = 1 := (basis_convex hm hs).2
  have hW : weightFn (nth c.knots) p n (nth c.cps) t = wt := by
    unfold weightFn
    rw [sum_congr rfl fun i hi => by rw [hw i (by rw [mem_range] at hi; omega)], ← sum_mul, hsum, one_mul]
  have ht : t < nth c.knots (k + p + 1) := by
    rcases hk.2.2.2.2 with h | ⟨h, h'⟩
    · exact h
    · rw [h, h'] at h1; exact absurd h1 (lt_irrefl _)
  have hpos : 0 < N (nth c.knots) (nth c.knots (n + 1)) p k t := by
    rw [N_eq_Nspan hm (by omega) hk p k (by omega)]
    have := (Nspan_first hm (by have := hk.2.1; omega) hk.2.2.1 p (by omega)).1 ht
    rwa [Nat.add_sub_cancel] at this
  refine ⟨c', _, e, C05_eval_rational w he h0 h1.le (by rw [hW]; exact hwt), ?_⟩
  rw [C05_eval_rational w' (by rw [ek]; exact he) (by rw [ek]; exact h0) (by rw [ek]; exact h1.le) (by rw [ek, (hr t).1, hW]; exact hwt), ek, (hr t).2, hW,
    hw k hkn, hsu, Nat.add_sub_cancel, mul_div_cancel_right₀ _ hwt.ne, mul_div_cancel_right₀ _ hpos.ne']

/-- C108 is false at the end of the domain: there the code divides by zero, for every curve, control point, direction and distance. -/
theorem C108_end_violated {c : NurbsCurve ℝ} {p n k : ℕ} {d : ℝ} {dir : XYZ ℝ} (w : WellFormed c p n) (he : EndsSeparated (nth c.knots) p n)
    (hk : k ≤ n) (hdir : dir.isZero = false) (hd : NotTiny d) : controlPointReposition c (nth c.knots (n + 1)) k dir d = nonfinite := by
  have hl := w.knots
  have hpn := w.pn
  have hc := w.cps
  have hm : MonoTo (nth c.knots) (n + p + 1) := fun i j h h' => w.sorted i j h (by omega)
  obtain ⟨s, hs, hb⟩ := firstBasis_run w he (hm p (n + 1) (by omega) (by omega)) (le_refl _)
  have a1 := hs.1
  have a2 := hs.2.1
  have hz : N (nth c.knots) (nth c.knots (n + 1)) p (s - p) (nth c.knots (n + 1)) = 0 := by
    rw [N_eq_Nspan hm (by omega) hs p (s - p) (by omega)]
    apply (Nspan_first hm (by omega) hs.2.2.1 p a1).2 w.pos
    rcases hs.2.2.2.2 with h | ⟨h, h'⟩
    · exact absurd h (not_lt.mpr (hm _ _ (by omega) (by omega)))
    · exact h
  unfold controlPointReposition
  rw [vget_nth (i := 0) (k := 0) rfl (by omega), ok_bind, vget_nth (k := n + p + 1) (by omega) (by omega), ok_bind,
    validateRange_in (hm _ _ (by omega) (by omega)) (hm _ _ (by omega) (by omega)), ok_bind,
    validateIndex_in (by omega), ok_bind, hdir, notTiny_iff.mpr hd]
  simp only [Bool.not_false, validate_true, ok_bind]
  rw [hb, hz, ok_bind, if_neg, vget_nth (k := k) rfl (by omega), ok_bind, mul_zero, fdiv_zero]
  · rfl
  · unfold isLessThan
    rw [decide_eq_true_eq, not_lt]
    have := tolOf_pos (a := (0 : ℝ)) (b := 0) (doubleEps_pos (K := ℝ))
    linarith

/-- a straight segment from (0,0,0) to (1,0,0) -/
def exSegment : NurbsCurve ℝ := { degree := 1, knots := [0, 0, 1, 1], cps := [⟨0, 0, 0, 1⟩, ⟨1, 0, 0, 1⟩] }

theorem exSegment_wf : WellFormed exSegment 1 1 :=
  { degree := rfl, pos := by decide, le7 := by decide, cps := rfl, pn := by decide, knots := rfl,
    sorted := by
      intro i j hij hj
      simp only [exSegment, List.length_cons, List.length_nil] at hj
      interval_cases j <;> interval_cases i <;> simp [exSegment, nth] }

theorem exSegment_ends : EndsSeparated (nth exSegment.knots) 1 1 := by
  constructor <;> (simp [exSegment, nth]; norm_num)

theorem exSegment_span {t : ℝ} (h0 : 0 ≤ t) (h1 : t < 1) : IsSpan (nth exSegment.knots) 1 1 t 1 := by
  refine ⟨le_refl _, le_refl _, ?_, ?_, Or.inl ?_⟩ <;> simp [exSegment, nth, h0, h1]

theorem exSegment_basis {t : ℝ} (h0 : 0 ≤ t) (h1 : t < 1) :
    N (nth exSegment.knots) (nth exSegment.knots 2) 1 0 t = 1 - t ∧ N (nth exSegment.knots) (nth exSegment.knots 2) 1 1 t = t := by
  have hm : MonoTo (nth exSegment.knots) 3 := fun i j h h' => exSegment_wf.sorted i j h (by simp [exSegment]; omega)
  rw [N_eq_Nspan (n := 1) hm (by omega) (exSegment_span h0 h1) 1 0 (by omega), N_eq_Nspan (n := 1) hm (by omega) (exSegment_span h0 h1) 1 1 (by omega)]
  constructor <;> simp [Nspan, exSegment, nth]

theorem exSegment_point {t : ℝ} (h0 : 0 ≤ t) (h1 : t < 1) : weightFn (nth exSegment.knots) 1 1 (nth exSegment.cps) t = 1 ∧
    rationalPoint (nth exSegment.knots) 1 1 (nth exSegment.cps) t = ⟨t, 0, 0⟩ := by
  obtain ⟨b0, b1⟩ := exSegment_basis h0 h1
  have hw : weightFn (nth exSegment.knots) 1 1 (nth exSegment.cps) t = 1 := by
    unfold weightFn
    rw [sum_range_succ, sum_range_one, b0, b1]
    simp [exSegment, nth]
  refine ⟨hw, ?_⟩
  rw [rationalPoint_raw, hw, sum_range_succ, sum_range_one, b0, b1]
  apply XYZ.ext <;> simp [exSegment, nth, XYZW.raw]

/-- C108 is false in general: moving the point of a straight segment at 1/4 by the distance 3 through its second control point moves
it by the distance 1. -/
theorem C108_distance_violated : ∃ c', controlPointReposition exSegment (1 / 4) 1 ⟨0, 1, 0⟩ 3 = ok (some c') ∧
    NurbsCurve.pointOnCurve exSegment (1 / 4) = ok ⟨1 / 4, 0, 0⟩ ∧ NurbsCurve.pointOnCurve c' (1 / 4) = ok ⟨1 / 4, 1, 0⟩ := by
  have n1 : NotTiny (1 : ℝ) := notTiny_of_ge (by norm_num)
  have k1 : nth exSegment.knots 1 ≤ 1 / 4 := by simp [exSegment, nth]
  have k2 : (1 : ℝ) / 4 < nth exSegment.knots 2 := by simp [exSegment, nth]; norm_num
  obtain ⟨hw, hp⟩ := exSegment_point (t := 1 / 4) (by norm_num) (by norm_num)
  obtain ⟨b0, b1⟩ := exSegment_basis (t := 1 / 4) (by norm_num) (by norm_num)
  obtain ⟨c', s, e, hs, w', ek, -, -, hr⟩ := C108_moves_partial (k := 1) (t := 1 / 4) (d := 3) (dir := ⟨0, 1, 0⟩) exSegment_wf exSegment_ends k1 k2 (le_refl _)
    n1 (by unfold XYZ.isZero XYZ.sqrLength doubleEps; norm_num) (notTiny_of_ge (by norm_num))
  have : s = 1 := le_antisymm hs.2.1 hs.1
  subst this
  refine ⟨c', e, ?_, ?_⟩
  · rw [C05_eval_rational exSegment_wf exSegment_ends k1 k2.le (by rw [hw]; exact n1), hp]
  · rw [C05_eval_rational w' (by rw [ek]; exact exSegment_ends) (by rw [ek]; exact k1) (by rw [ek]; exact k2.le) (by rw [ek, (hr _).1, hw]; exact n1), ek,
      (hr _).2, hp, hw, b1, Nat.sub_self, b0]
    have hl : (⟨0, 1, 0⟩ : XYZ ℝ).normalize = ⟨0, 1, 0⟩ := by simp [XYZ.normalize, XYZ.length]
    rw [hl]
    congr 1
    apply XYZ.ext <;> simp [exSegment, nth]
    norm_num

/-- C108: the segment and its first control point meet the hypotheses of `C108_exact_partial`. -/
example : ∃ c' P, controlPointReposition exSegment (1 / 4) 0 ⟨0, 1, 0⟩ 3 = ok (some c') ∧ NurbsCurve.pointOnCurve exSegment (1 / 4) = ok P ∧
      NurbsCurve.pointOnCurve c' (1 / 4) = ok (P + (3 : ℝ) • (⟨0, 1, 0⟩ : XYZ ℝ).normalize) :=
  C108_exact_partial (k := 0) (wt := 1) exSegment_wf exSegment_ends (by simp [exSegment, nth]) (by simp [exSegment, nth]; norm_num) (notTiny_of_ge (by norm_num))
    (by intro i hi; interval_cases i <;> rfl) (by unfold XYZ.isZero XYZ.sqrLength doubleEps; norm_num) (notTiny_of_ge (by norm_num))
    (exSegment_span (by norm_num) (by norm_num))

/-! ## C109: changing one weight -/

/-- C109 (what the code does): `WeightModification` keeps every control point, multiplies the weight `k` by
`β = 1 + d / (N_{s-p}(t) (D - d))`, `D` the distance from the curve point at `t` to the control point, and so moves every point of the curve
towards the control point by the part `(β - 1) R / (1 + (β - 1) R)` of their distance, `R = N_k w_k / w` the rational basis function there. -/
theorem C109_moves_partial {c : NurbsCurve ℝ} {p n k : ℕ} {t d : ℝ} {P : XYZ ℝ} (w : WellFormed c p n) (he : EndsSeparated (nth c.knots) p n)
    (h0 : nth c.knots p ≤ t) (h1 : t < nth c.knots (n + 1)) (hk : k ≤ n) (hw : NotTiny (nth c.cps k).w) (hd : NotTiny d)
    (hP : NurbsCurve.pointOnCurve c t = ok P) (hD : P.distance (nth c.cps k).toXYZ ≠ d) :
    ∃ c' s β, weightModification c t k d = ok c' ∧ IsSpan (nth c.knots) p n t s ∧ WellFormed c' p n ∧ c'.knots = c.knots ∧
      β = 1 + d / (N (nth c.knots) (nth c.knots (n + 1)) p (s - p) t * (P.distance (nth c.cps k).toXYZ - d)) ∧
      (∀ i, i ≤ n → i ≠ k → nth c'.cps i = nth c.cps i) ∧ (nth c'.cps k) = XYZW.ofXYZ (nth c.cps k).toXYZ ((nth c.cps k).w * β) ∧
      ∀ u R, weightFn (nth c.knots) p n (nth c.cps) u ≠ 0 →
       R = N (nth c.knots) (nth c.knots (n + 1)) p k u * (nth c.cps k).w / weightFn (nth c.knots) p n (nth c.cps) u →
       weightFn (nth c.knots) p n (nth c'.cps) u = weightFn (nth c.knots) p n (nth c.cps) u * (1 + (β - 1) * R) ∧
       (1 + (β - 1) * R ≠ 0 → rationalPoint (nth c.knots) p n (nth c'.cps) u = rationalPoint (nth c.knots) p n (nth c.cps) u +
        ((β - 1) * R / (1 + (β - 1) * R)) • ((nth c.cps k).toXYZ - rationalPoint (nth c.knots) p n (nth c.cps) u)) := by
  have hl := w.knots
  have hpn := w.pn
  have hc := w.cps
  have hm : MonoTo (nth c.knots) (n + p + 1) := fun i j h h' => w.sorted i j h (by omega)
  obtain ⟨s, hs, hb⟩ := firstBasis_run w he h0 h1.le
  have a1 := hs.1
  have a2 := hs.2.1
  have ht : t < nth c.knots (s + 1) := by
    rcases hs.2.2.2.2 with h | ⟨h, h'⟩
    · exact h
    · rw [h, h'] at h1; exact absurd h1 (lt_irrefl _)
  have hpos : 0 < N (nth c.knots) (nth c.knots (n + 1)) p (s - p) t := by
    rw [N_eq_Nspan hm (by omega) hs p (s - p) (by omega)]
    exact (Nspan_first hm (by omega) hs.2.2.1 p a1).1 ht
  obtain ⟨β, hβ⟩ : ∃ β, β = 1 + d / (N (nth c.knots) (nth c.knots (n + 1)) p (s - p) t * (P.distance (nth c.cps k).toXYZ - d)) := ⟨_, rfl⟩
  obtain ⟨Q, hQ⟩ : ∃ Q, Q = XYZW.ofXYZ (nth c.cps k).toXYZ ((nth c.cps k).w * β) := ⟨_, rfl⟩
  refine ⟨{ degree := c.degree, knots := c.knots, cps := c.cps.set k Q }, s, β, ?_, hs, ?_, rfl, hβ, ?_, ?_, ?_⟩
  · unfold weightModification
    rw [vget_nth (i := 0) (k := 0) rfl (by omega), ok_bind, vget_nth (k := n + p + 1) (by omega) (by omega), ok_bind,
      validateRange_in (le_trans (hm _ _ (by omega) (by omega)) h0) (le_trans h1.le (hm _ _ (by omega) (by omega))), ok_bind,
      validateIndex_in (by omega), ok_bind, notTiny_iff.mpr hd]
    simp only [Bool.not_false, validate_true, ok_bind]
    rw [hP, ok_bind, vget_nth (k := k) rfl (by omega), ok_bind, hb, ok_bind, fdiv_ok (mul_ne_zero hpos.ne' (sub_ne_zero.mpr hD)), ok_bind, ← hβ, ← hQ,
      vset_of rfl (by omega), ok_bind]
  · exact { degree := w.degree, pos := w.pos, le7 := w.le7, cps := by simpa using hc, pn := hpn, knots := hl, sorted := w.sorted }
  · intro i hi hne
    dsimp only
    rw [nth_set (by omega), if_neg hne]
  · dsimp only
    rw [nth_set (by omega), if_pos rfl, hQ]
  · rintro u R hW rfl
    dsimp only
    have hwu : weightFn (nth c.knots) p n (nth (c.cps.set k Q)) u = weightFn (nth c.knots) p n (nth c.cps) u *
        (1 + (β - 1) * (N (nth c.knots) (nth c.knots (n + 1)) p k u * (nth c.cps k).w / weightFn (nth c.knots) p n (nth c.cps) u)) := by
      rw [weightFn_set hk hc, hQ]
      simp only [XYZW.ofXYZ]
      field_simp
      try ring
    refine ⟨hwu, fun hne => ?_⟩
    have hraw : Q.raw - (nth c.cps k).raw = ((nth c.cps k).w * (β - 1)) • (nth c.cps k).toXYZ := by
      rw [hQ, raw_ofXYZ, ← smul_toXYZ hw, ← sub_smul]
      congr 1
      ring
    rw [rationalPoint_raw, rationalPoint_raw, hwu, rawSum_set hk hc, hraw]
    generalize weightFn (nth c.knots) p n (nth c.cps) u = W at *
    generalize N (nth c.knots) (nth c.knots (n + 1)) p k u = B at *
    generalize ∑ i ∈ range (n + 1), N (nth c.knots) (nth c.knots (n + 1)) p i u • (nth c.cps i).raw = S at *
    generalize (nth c.cps k).toXYZ = X at *
    generalize (nth c.cps k).w = v at *
    apply XYZ.ext
    all_goals
      simp only [XYZ.add_x, XYZ.add_y, XYZ.add_z, XYZ.sub_x, XYZ.sub_y, XYZ.sub_z, XYZ.smul_x, XYZ.smul_y, XYZ.smul_z]
      have hne' : W + (β - 1) * (B * v) ≠ 0 := by
        intro h
        apply hne
        field_simp
        linear_combination h
      have e1 : W * (1 + (β - 1) * (B * v / W)) = W + (β - 1) * (B * v) := by field_simp
      have e2 : (β - 1) * (B * v / W) / (1 + (β - 1) * (B * v / W)) = (β - 1) * (B * v) / (W + (β - 1) * (B * v)) := by
        rw [← e1]; field_simp
      rw [e1, e2]
      obtain ⟨D, hDD⟩ : ∃ D, D = W + (β - 1) * (B * v) := ⟨_, rfl⟩
      rw [← hDD] at hne' ⊢
      field_simp
      rw [hDD]
      ring

/-- C109 for curves whose weights are all equal, the first control point that acts at `t`, and a distance smaller than the one to that
control point: the curve point moves on the straight line to the control point by exactly the requested distance. -/
theorem C109_exact_partial {c : NurbsCurve ℝ} {p n k : ℕ} {t d wt : ℝ} {P : XYZ ℝ} (w : WellFormed c p n) (he : EndsSeparated (nth c.knots) p n)
    (h0 : nth c.knots p ≤ t) (h1 : t < nth c.knots (n + 1)) (hwt : 1 / 500000 ≤ wt) (hw : ∀ i, i ≤ n → (nth c.cps i).w = wt) (hd : NotTiny d) (hd0 : 0 < d)
    (hP : NurbsCurve.pointOnCurve c t = ok P) (hD : d < P.distance (nth c.cps k).toXYZ) (hk : IsSpan (nth c.knots) p n t (k + p)) :
    ∃ c' P', weightModification c t k d = ok c' ∧ NurbsCurve.pointOnCurve c' t = ok P' ∧ P.distance P' = d ∧
      P' = P + (d / P.distance (nth c.cps k).toXYZ) • ((nth c.cps k).toXYZ - P) := by
  have hkn : k ≤ n := by have := hk.2.1; omega
  have hl := w.knots
  have hm : MonoTo (nth c.knots) (n + p + 1) := fun i j h h' => w.sorted i j h (by omega)
  have hwt0 : 0 < wt := lt_of_lt_of_le (by norm_num) hwt
  obtain ⟨c', s, β, e, hs, w', ek, hβ, -, -, hr⟩ := C109_moves_partial w he h0 h1 hkn (by rw [hw k hkn]; exact notTiny_of_ge hwt) hd hP hD.ne'
  have hsu := isSpan_unique hm (by omega) hs hk
  rw [hsu, Nat.add_sub_cancel] at hβ
  have hW : weightFn (nth c.knots) p n (nth c.cps) t = wt := by
    unfold weightFn
    rw [sum_congr rfl fun i hi => by rw [hw i (by rw [mem_range] at hi; omega)], ← sum_mul, (basis_convex hm hs).2, one_mul]
  have ht : t < nth c.knots (k + p + 1) := by
    rcases hk.2.2.2.2 with h | ⟨h, h'⟩
    · exact h
    · rw [h, h'] at h1; exact absurd h1 (lt_irrefl _)
  have hpos : 0 < N (nth c.knots) (nth c.knots (n + 1)) p k t := by
    rw [N_eq_Nspan hm (by omega) hk p k (by omega)]
    have := (Nspan_first hm (by have := hk.2.1; omega) hk.2.2.1 p (by omega)).1 ht
    rwa [Nat.add_sub_cancel] at this
  have hPe : P = rationalPoint (nth c.knots) p n (nth c.cps) t := by
    rw [C05_eval_rational w he h0 h1.le (by rw [hW]; exact notTiny_of_ge hwt)] at hP
    exact (Res.ok.inj hP).symm
  obtain ⟨hwu, hpt⟩ := hr t _ (by rw [hW]; exact hwt0.ne') rfl
  rw [hW, hw k hkn, mul_div_cancel_right₀ _ hwt0.ne'] at hwu hpt
  generalize hB : N (nth c.knots) (nth c.knots (n + 1)) p k t = B at *
  obtain ⟨D, hDD⟩ : ∃ D, P.distance (nth c.cps k).toXYZ = D := ⟨_, rfl⟩
  rw [hDD] at hD hβ ⊢
  have hgap : 0 < D - d := sub_pos.mpr hD
  have hD0 : 0 < D := lt_trans hd0 hD
  have hβ2 : (β - 1) * B = d / (D - d) := by
    have hg := hgap.ne'
    rw [hβ, add_sub_cancel_left]
    field_simp
  have hβ1 : 1 + (β - 1) * B = D / (D - d) := by
    have hg := hgap.ne'
    rw [hβ2]
    field_simp
    ring
  have hge : 1 ≤ D / (D - d) := by rw [le_div_iff₀ hgap]; linarith
  rw [hβ1] at hwu hpt
  have hpt' := hpt (by linarith)
  rw [hβ2, div_div_div_cancel_right₀ hgap.ne', ← hPe] at hpt'
  refine ⟨c', _, e, ?_, ?_, rfl⟩
  · rw [C05_eval_rational w' (by rw [ek]; exact he) (by rw [ek]; exact h0) (by rw [ek]; exact h1.le)
      (by rw [ek, hwu]; exact notTiny_of_ge (le_trans hwt (le_mul_of_one_le_right hwt0.le hge))), ek, hpt']
  · have := distance_on_line P ((nth c.cps k).toXYZ - P) 0 (d / D)
    rw [zero_smul, add_zero] at this
    rw [this, zero_sub, abs_neg, abs_of_pos (div_pos hd0 hD0)]
    have hlen : ((nth c.cps k).toXYZ - P).length = D := by
      rw [← hDD]
      unfold XYZ.distance XYZ.length
      congr 1
      simp only [XYZ.sub_x, XYZ.sub_y, XYZ.sub_z]
      try ring
    rw [hlen, div_mul_cancel₀ _ hD0.ne']

/-- C109: the segment and its first control point meet the hypotheses of `C109_exact_partial`: the point at 3/4 moves to 1/2. -/
example : ∃ c' P', weightModification exSegment (3 / 4) 0 (1 / 4) = ok c' ∧ NurbsCurve.pointOnCurve c' (3 / 4) = ok P' ∧
    (⟨3 / 4, 0, 0⟩ : XYZ ℝ).distance P' = 1 / 4 := by
  obtain ⟨hw, hp⟩ := exSegment_point (t := 3 / 4) (by norm_num) (by norm_num)
  have n1 : NotTiny (1 : ℝ) := notTiny_of_ge (by norm_num)
  have h0 : nth exSegment.knots 1 ≤ 3 / 4 := by simp [exSegment, nth]; norm_num
  have h1 : (3 : ℝ) / 4 < nth exSegment.knots 2 := by simp [exSegment, nth]; norm_num
  have he := C05_eval_rational exSegment_wf exSegment_ends h0 h1.le (by rw [hw]; exact n1)
  rw [hp] at he
  have hz : (nth exSegment.cps 0).toXYZ = ⟨0, 0, 0⟩ := by
    have := smul_toXYZ (a := nth exSegment.cps 0) n1
    simpa [exSegment, nth, XYZW.raw] using this
  have hdist : (⟨3 / 4, 0, 0⟩ : XYZ ℝ).distance (nth exSegment.cps 0).toXYZ = 3 / 4 := by
    rw [hz]
    unfold XYZ.distance
    rw [show (((0 : ℝ) - 3 / 4) ^ 2 + (0 - 0) ^ 2 + (0 - 0) ^ 2) = (3 / 4) ^ 2 by norm_num]
    exact Real.sqrt_sq (by norm_num)
  obtain ⟨c', P', a, b, d, -⟩ := C109_exact_partial (k := 0) (wt := 1) (d := 1 / 4) exSegment_wf exSegment_ends h0 h1 (by norm_num)
    (by intro i hi; interval_cases i <;> rfl) (notTiny_of_ge (by norm_num)) (by norm_num) he (by rw [hdist]; norm_num)
    (exSegment_span (by norm_num) (by norm_num))
  exact ⟨c', P', a, b, d⟩

/-- C109 is false in general: asked to pull the point of a straight segment at 1/4 by 1/4 towards its second control point (that is to
1/2), the code produces a curve whose point there is 5/14. -/
theorem C109_distance_violated : ∃ c', weightModification exSegment (1 / 4) 1 (1 / 4) = ok c' ∧
    NurbsCurve.pointOnCurve exSegment (1 / 4) = ok ⟨1 / 4, 0, 0⟩ ∧ NurbsCurve.pointOnCurve c' (1 / 4) = ok ⟨5 / 14, 0, 0⟩ := by
  obtain ⟨hw, hp⟩ := exSegment_point (t := 1 / 4) (by norm_num) (by norm_num)
  obtain ⟨b0, b1⟩ := exSegment_basis (t := 1 / 4) (by norm_num) (by norm_num)
  have n1 : NotTiny (1 : ℝ) := notTiny_of_ge (by norm_num)
  have h0 : nth exSegment.knots 1 ≤ 1 / 4 := by simp [exSegment, nth]
  have h1 : (1 : ℝ) / 4 < nth exSegment.knots 2 := by simp [exSegment, nth]; norm_num
  have he := C05_eval_rational exSegment_wf exSegment_ends h0 h1.le (by rw [hw]; exact n1)
  rw [hp] at he
  have hz : (nth exSegment.cps 1).toXYZ = ⟨1, 0, 0⟩ := by
    have := smul_toXYZ (a := nth exSegment.cps 1) n1
    simpa [exSegment, nth, XYZW.raw] using this
  have hdist : (⟨1 / 4, 0, 0⟩ : XYZ ℝ).distance (nth exSegment.cps 1).toXYZ = 3 / 4 := by
    rw [hz]
    unfold XYZ.distance
    rw [show ((1 - (1 : ℝ) / 4) ^ 2 + (0 - 0) ^ 2 + (0 - 0) ^ 2) = (3 / 4) ^ 2 by norm_num]
    exact Real.sqrt_sq (by norm_num)
  obtain ⟨c', s, β, e, hs, w', ek, hβ, -, -, hr⟩ := C109_moves_partial (k := 1) (d := 1 / 4) exSegment_wf exSegment_ends h0 h1 (le_refl _) n1
    (notTiny_of_ge (by norm_num)) he (by rw [hdist]; norm_num)
  have : s = 1 := le_antisymm hs.2.1 hs.1
  subst this
  rw [hdist, Nat.sub_self, b0] at hβ
  have hb : β = 5 / 3 := by rw [hβ]; norm_num
  obtain ⟨hwu, hpt⟩ := hr (1 / 4) (1 / 4) (by rw [hw]; norm_num) (by rw [hw, b1]; simp [exSegment, nth])
  rw [hb, hw] at hwu
  rw [hb, hp, hz] at hpt
  refine ⟨c', e, he, ?_⟩
  rw [C05_eval_rational w' (by rw [ek]; exact exSegment_ends) (by rw [ek]; exact h0) (by rw [ek]; exact h1.le)
      (by rw [ek, hwu]; exact notTiny_of_ge (by norm_num)), ek, hpt (by norm_num)]
  congr 1
  apply XYZ.ext <;> simp
  norm_num

/-- C109 is false at the end of the domain: there the code divides by zero, for every curve, control point and distance. -/
theorem C109_end_violated {c : NurbsCurve ℝ} {p n k : ℕ} {d : ℝ} (w : WellFormed c p n) (he : EndsSeparated (nth c.knots) p n)
    (hW : NotTiny (weightFn (nth c.knots) p n (nth c.cps) (nth c.knots (n + 1)))) (hk : k ≤ n) (hd : NotTiny d) :
    weightModification c (nth c.knots (n + 1)) k d = nonfinite := by
  have hl := w.knots
  have hpn := w.pn
  have hc := w.cps
  have hm : MonoTo (nth c.knots) (n + p + 1) := fun i j h h' => w.sorted i j h (by omega)
  obtain ⟨s, hs, hb⟩ := firstBasis_run w he (hm p (n + 1) (by omega) (by omega)) (le_refl _)
  have a1 := hs.1
  have a2 := hs.2.1
  have hz : N (nth c.knots) (nth c.knots (n + 1)) p (s - p) (nth c.knots (n + 1)) = 0 := by
    rw [N_eq_Nspan hm (by omega) hs p (s - p) (by omega)]
    apply (Nspan_first hm (by omega) hs.2.2.1 p a1).2 w.pos
    rcases hs.2.2.2.2 with h | ⟨h, h'⟩
    · exact absurd h (not_lt.mpr (hm _ _ (by omega) (by omega)))
    · exact h
  unfold weightModification
  rw [vget_nth (i := 0) (k := 0) rfl (by omega), ok_bind, vget_nth (k := n + p + 1) (by omega) (by omega), ok_bind,
    validateRange_in (hm _ _ (by omega) (by omega)) (hm _ _ (by omega) (by omega)), ok_bind,
    validateIndex_in (by omega), ok_bind, notTiny_iff.mpr hd]
  simp only [Bool.not_false, validate_true, ok_bind]
  rw [C05_eval_rational w he (hm p (n + 1) (by omega) (by omega)) (le_refl _) hW, ok_bind, vget_nth (k := k) rfl (by omega), ok_bind, hb, hz, ok_bind,
    zero_mul, fdiv_zero]
  rfl

/-- C108, C109: a parameter inside the knots with a control point index that does not exist is rejected as out of range, by both
functions. -/
theorem C109_index_rejected {c : NurbsCurve ℝ} {p n : ℕ} {i : ℤ} {t d : ℝ} {dir : XYZ ℝ} (w : WellFormed c p n)
    (h0 : nth c.knots 0 ≤ t) (h1 : t ≤ nth c.knots (n + p + 1)) (hi : i < 0 ∨ (n : ℤ) < i) :
    controlPointReposition c t i dir d = outOfRange ∧ weightModification c t i d = outOfRange := by
  have hl := w.knots
  have hc := w.cps
  have hx : validateIndex i c.cps.length = outOfRange := by
    unfold validateIndex
    rw [if_pos (by omega)]
  unfold controlPointReposition weightModification
  rw [vget_nth (i := 0) (k := 0) rfl (by omega), ok_bind, vget_nth (k := n + p + 1) (by omega) (by omega), ok_bind, ok_bind, ok_bind,
    validateRange_in h0 h1, ok_bind, ok_bind, hx]
  exact ⟨rfl, rfl⟩

example : controlPointReposition exSegment (1 / 4) 2 ⟨0, 1, 0⟩ 3 = outOfRange ∧ weightModification exSegment (1 / 4) 2 3 = outOfRange :=
  C109_index_rejected exSegment_wf (by simp [exSegment, nth]) (by simp [exSegment, nth]; norm_num) (by decide)

end LNLib.Props
