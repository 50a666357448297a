import Verif.Model.Nearest
import Verif.Props.Closed
import Verif.Props.Tessellate
import Verif.Props.DiffGeom
import Verif.Props.Sweep

/-!
# C114: the parameter of the point of a curve nearest to a given point
-/

namespace LNLib.Props
open LNLib Res Spec Finset

theorem whileF_up {lo r : ℝ} (hr : 0 < r) : ∀ (n : ℕ) (t : ℝ), (lo - t) / r ≤ n →
    ∃ t', whileF (fun t => ok (decide (t < lo))) (fun t => ok (t + r)) n t = ok t' ∧ lo ≤ t' ∧ (t' = t ∨ t' < lo + r) := by
  intro n
  induction n with
  | zero =>
    intro t h
    have h : lo - t ≤ 0 := by rw [div_le_iff₀ hr] at h; simpa using h
    refine ⟨t, ?_, by linarith, Or.inl rfl⟩
    unfold whileF
    rw [ok_bind, decide_eq_false (by linarith)]
    rfl
  | succ n ih =>
    intro t h
    unfold whileF
    rw [ok_bind]
    by_cases hlt : t < lo
    · rw [decide_eq_true hlt, if_pos rfl, ok_bind]
      obtain ⟨t', e, h1, h2⟩ := ih (t + r) (by
        rw [div_le_iff₀ hr] at h ⊢
        push_cast at h
        nlinarith)
      refine ⟨t', e, h1, Or.inr ?_⟩
      rcases h2 with h2 | h2 <;> linarith
    · rw [decide_eq_false hlt]
      exact ⟨t, rfl, not_lt.mp hlt, Or.inl rfl⟩

theorem whileF_down {hi r : ℝ} (hr : 0 < r) : ∀ (n : ℕ) (t : ℝ), (t - hi) / r ≤ n →
    ∃ t', whileF (fun t => ok (decide (t > hi))) (fun t => ok (t - r)) n t = ok t' ∧ t' ≤ hi ∧ (t' = t ∨ hi - r < t') := by
  intro n
  induction n with
  | zero =>
    intro t h
    have h : t - hi ≤ 0 := by rw [div_le_iff₀ hr] at h; simpa using h
    refine ⟨t, ?_, by linarith, Or.inl rfl⟩
    unfold whileF
    rw [ok_bind, decide_eq_false (by linarith)]
    rfl
  | succ n ih =>
    intro t h
    unfold whileF
    rw [ok_bind]
    by_cases hlt : t > hi
    · rw [decide_eq_true hlt, if_pos rfl, ok_bind]
      obtain ⟨t', e, h1, h2⟩ := ih (t - r) (by
        rw [div_le_iff₀ hr] at h ⊢
        push_cast at h
        nlinarith)
      refine ⟨t', e, h1, Or.inr ?_⟩
      rcases h2 with h2 | h2 <;> linarith
    · rw [decide_eq_false hlt]
      exact ⟨t, rfl, not_lt.mp hlt, Or.inl rfl⟩

/-- the wrapping ends in the domain -/
theorem wrapParam_run {lo hi : ℝ} (h : lo < hi) (t : ℝ) : Runs (wrapParam lo hi t) (fun t' => lo ≤ t' ∧ t' ≤ hi) := by
  unfold wrapParam
  dsimp only
  obtain ⟨a, e1, g1, g2⟩ := whileF_up (lo := lo) (r := hi - lo) (by linarith) ⌈(lo - t) / (hi - lo)⌉₊ t (Nat.le_ceil _)
  obtain ⟨b, e2, g3, g4⟩ := whileF_down (hi := hi) (r := hi - lo) (by linarith) ⌈(a - hi) / (hi - lo)⌉₊ a (Nat.le_ceil _)
  rw [e1, ok_bind, e2]
  refine ⟨b, rfl, ?_, g3⟩
  rcases g4 with rfl | g4
  · exact g1
  · linarith

/-- the start value is in the domain if the samples are -/
theorem nearestStart_run {pts : List (XYZ ℝ)} {params : List ℝ} {P : XYZ ℝ} {lo hi : ℝ} (hlen : pts.length = params.length) (hpos : 0 < params.length)
    (hle : lo ≤ hi) (hdom : ∀ k, k < params.length → lo ≤ nth params k ∧ nth params k ≤ hi) :
    Runs (nearestStart pts params P lo) (fun t => lo ≤ t ∧ t ≤ hi) := by
  unfold nearestStart
  rw [if_neg (by omega)]
  refine Runs.bind (Q := fun st => lo ≤ st.2 ∧ st.2 ≤ hi) ?_ (fun st h => Runs.ok h)
  refine (Runs.forN (m := 0) (n := params.length - 1) (fun _ (st : Option ℝ × ℝ) => lo ≤ st.2 ∧ st.2 ≤ hi) rfl (by omega) (by omega) ⟨le_refl _, hle⟩ ?_).mono (fun _ h => h)
  rintro i st - hi' h
  unfold nearestRound
  rw [vget_nth (k := i) rfl (by omega), ok_bind, vget_nth (k := i + 1) (by push_cast; ring) (by omega), ok_bind, vget_nth (k := i) rfl (by omega), ok_bind,
    vget_nth (k := i + 1) (by push_cast; ring) (by omega), ok_bind]
  dsimp only
  obtain ⟨a0, a1⟩ := hdom i (by omega)
  obtain ⟨b0, b1⟩ := hdom (i + 1) (by omega)
  refine Runs.bind (Q := fun u => 0 ≤ u ∧ u ≤ 1) ?_ ?_
  · split_ifs with h
    · have := doubleEps_pos (K := ℝ)
      rw [fdiv_ok (by linarith), ok_bind]
      exact Runs.ok ⟨le_max_left _ _, max_le (by norm_num) (min_le_left _ _)⟩
    · exact Runs.ok ⟨by norm_num, by norm_num⟩
  · rintro u ⟨u0, u1⟩
    have c0 : lo ≤ nth params i + (nth params (i + 1) - nth params i) * u := by nlinarith
    have c1 : nth params i + (nth params (i + 1) - nth params i) * u ≤ hi := by nlinarith
    split
    · exact Runs.ok ⟨c0, c1⟩
    · split_ifs
      · exact Runs.ok ⟨c0, c1⟩
      · exact Runs.ok h

/-- `T` is the result of an unclamped Newton step of less than `1e-4` (measured in space) from `T0` -/
def SmallStep (c : NurbsCurve ℝ) (P : XYZ ℝ) (T0 T : ℝ) : Prop :=
  ∃ C C1 C2 : XYZ ℝ, NurbsCurve.rationalDerivatives c 2 T0 = ok [C, C1, C2] ∧
    T = T0 - C1.dot (C - P) / (C1.dot C1 + (C - P).dot C2) ∧ |(T0 - T) * C1.length| < 1 / 10000

theorem newtonRound_run {c : NurbsCurve ℝ} {P : XYZ ℝ} {b : Bool} {lo hi t : ℝ} {l : List (XYZ ℝ)} (h : lo < hi) (ht : lo ≤ t ∧ t ≤ hi)
    (e : NurbsCurve.rationalDerivatives c 2 t = ok l) (hl : l.length = 3) :
    Runs (newtonRound c P b lo hi t) (fun r => (lo ≤ r.1 ∧ r.1 ≤ hi) ∨ (r.2 = true ∧ SmallStep c P t r.1)) := by
  unfold newtonRound
  rw [e, ok_bind, vget_nth (i := 0) (k := 0) rfl (by omega), ok_bind, vget_nth (i := 1) (k := 1) rfl (by omega), ok_bind,
    vget_nth (i := 2) (k := 2) rfl (by omega), ok_bind]
  dsimp only
  have hl3 : l = [nth l 0, nth l 1, nth l 2] := by
    refine ext_nth (by rw [hl]; rfl) fun i hi => ?_
    rw [hl] at hi
    interval_cases i <;> rfl
  obtain ⟨C, hC⟩ : ∃ C, nth l 0 = C := ⟨_, rfl⟩
  obtain ⟨C1, hC1⟩ : ∃ C, nth l 1 = C := ⟨_, rfl⟩
  obtain ⟨C2, hC2⟩ : ∃ C, nth l 2 = C := ⟨_, rfl⟩
  rw [hC, hC1, hC2] at hl3 ⊢
  by_cases h1 : (C - P).length < distEps
  · rw [if_pos h1]; exact Runs.ok (Or.inl ht)
  by_cases h2 : |C1.dot C1 + (C - P).dot C2| < doubleEps
  · rw [if_neg h1, if_pos h2]; exact Runs.ok (Or.inl ht)
  · rw [if_neg h1, if_neg h2]
    have := doubleEps_pos (K := ℝ)
    have hdf : C1.dot C1 + (C - P).dot C2 ≠ 0 := by
      intro h0
      rw [h0, abs_zero] at h2
      exact h2 this
    rw [fdiv_ok hdf, ok_bind]
    split_ifs with h3 h4
    · refine Runs.ok (Or.inr ⟨rfl, C, C1, C2, by rw [e, hl3], rfl, ?_⟩)
      rw [sub_sub_cancel]
      exact h3
    · exact Runs.ok (Or.inl ⟨le_max_left _ _, max_le h.le (min_le_left _ _)⟩)
    · obtain ⟨t', e', g⟩ := wrapParam_run h (t - C1.dot (C - P) / (C1.dot C1 + (C - P).dot C2))
      rw [e', ok_bind]
      exact Runs.ok (Or.inl g)

theorem clamped_lt {c : NurbsCurve ℝ} {p n : ℕ} (w : WellFormed c p n) (he : EndsSeparated (nth c.knots) p n) : nth c.knots p < nth c.knots (n + 1) := by
  have hm := wf_monoTo w
  have hpn := w.pn
  have h1 := he.first
  have h2 := hm (p + 1) (n + 1) (by omega) (by omega)
  have : (0 : ℝ) ≤ 1 / 1000000 * (1 + max |nth c.knots p| |nth c.knots (p + 1)|) := by
    have : 0 ≤ max |nth c.knots p| |nth c.knots (p + 1)| := le_max_of_le_left (abs_nonneg _)
    positivity
  linarith

/-- C114 (partial): for every valid clamped curve with positive weights and every point, the search ends without an error; the parameter it returns is in
the domain, or it is the result of a last Newton step of less than 1e-4 from a parameter of the domain, which is not clamped. -/
theorem C114_domain_partial {c : NurbsCurve ℝ} {p n : ℕ} (w : WellFormed c p n) (he : EndsSeparated (nth c.knots) p n) (hc : ClampedEnds (nth c.knots) p n)
    (hw : ∀ i, i ≤ n → 0 < (nth c.cps i).w) (P : XYZ ℝ) :
    ∃ T, getParamOnCurve c P = ok T ∧ ((nth c.knots p ≤ T ∧ T ≤ nth c.knots (n + 1)) ∨
      ∃ T0, nth c.knots p ≤ T0 ∧ T0 ≤ nth c.knots (n + 1) ∧ SmallStep c P T0 T) := by
  have hl := w.knots
  have hm := wf_monoTo w
  have hlt := clamped_lt w he
  unfold getParamOnCurve
  rw [vget_nth (i := 0) (k := 0) rfl (by omega), ok_bind, vget_nth (k := n + p + 1) (by omega) (by omega), ok_bind, hc.first, ← hc.last]
  obtain ⟨-, -, b, eb, -⟩ := isClosed_run w he hc
  obtain ⟨pts, params, et, l1, l2, hd, -⟩ := C90_tessellate w he hc
  rw [eb, ok_bind, et, ok_bind]
  dsimp only
  obtain ⟨t0, e0, h0⟩ := nearestStart_run (P := P) l1 l2 hlt.le (fun k hk => ⟨(hd k hk).1, (hd k hk).2.1⟩)
  rw [e0, ok_bind]
  have hloop : Runs (newtonLoop c P b (nth c.knots p) (nth c.knots (n + 1)) t0) (fun r => (nth c.knots p ≤ r.1 ∧ r.1 ≤ nth c.knots (n + 1)) ∨
      (r.2 = true ∧ ∃ T0, nth c.knots p ≤ T0 ∧ T0 ≤ nth c.knots (n + 1) ∧ SmallStep c P T0 r.1)) := by
    unfold newtonLoop
    refine (Runs.forN (m := 0) (n := 20) (fun _ (r : ℝ × Bool) => (nth c.knots p ≤ r.1 ∧ r.1 ≤ nth c.knots (n + 1)) ∨
      (r.2 = true ∧ ∃ T0, nth c.knots p ≤ T0 ∧ T0 ≤ nth c.knots (n + 1) ∧ SmallStep c P T0 r.1)) rfl rfl (by omega) (Or.inl h0) ?_).mono (fun _ h => h)
    rintro i ⟨t, d⟩ - - h
    dsimp only at h ⊢
    split_ifs with hdn
    · exact Runs.ok h
    · have ht : nth c.knots p ≤ t ∧ t ≤ nth c.knots (n + 1) := by
        rcases h with h | h
        · exact h
        · exact absurd h.1 hdn
      obtain ⟨s, -, hs⟩ := getKnotSpanIndex_isSpan w.knots w.pn w.sorted he ht.1 ht.2
      have hwt : weightFn (nth c.knots) p n (nth c.cps) t ≠ 0 := by
        obtain ⟨x, hx, hmin⟩ := (range (n + 1)).exists_min_image (fun i => (nth c.cps i).w) ⟨0, by simp⟩
        have hx := mem_range.mp hx
        have := weightFn_ge w he ht.1 ht.2 (fun i hi => hmin i (mem_range.mpr (by omega)))
        have h2 := hw x (by omega)
        linarith
      obtain ⟨l, e, hl3, -⟩ := C20_leibniz w he ht.1 ht.2 hs (d := 2) (by decide) hwt
      refine (newtonRound_run hlt ht e hl3).mono ?_
      rintro r (h | ⟨h1, h2⟩)
      · exact Or.inl h
      · exact Or.inr ⟨h1, t, ht.1, ht.2, h2⟩
  obtain ⟨⟨t, d⟩, el, h⟩ := hloop
  rw [el, ok_bind]
  refine ⟨t, rfl, ?_⟩
  rcases h with h | h
  · exact Or.inl h
  · exact Or.inr h.2

/-! ### Segments -/

/-- the curve `CreateLine` returns -/
noncomputable def segCurve (a b : XYZ ℝ) : NurbsCurve ℝ := { degree := 1, knots := [0, 0, 1, 1], cps := [XYZW.ofXYZ a 1, XYZW.ofXYZ b 1] }

theorem segCurve_wf (a b : XYZ ℝ) : WellFormed (segCurve a b) 1 1 ∧ EndsSeparated (nth (segCurve a b).knots) 1 1 ∧ ClampedEnds (nth (segCurve a b).knots) 1 1 := by
  refine ⟨⟨rfl, by omega, by omega, rfl, by omega, rfl, isValidKnotVector_nth.mp (by simp [segCurve, isValidKnotVector])⟩, ?_, ⟨rfl, rfl⟩⟩
  constructor <;> norm_num [segCurve, nth, doubleEps]

theorem segCurve_point {a b : XYZ ℝ} {t : ℝ} (h0 : 0 ≤ t) (h1 : t ≤ 1) :
    (curvePoint (nth (segCurve a b).knots) 1 1 (nth (segCurve a b).cps) t).toXYZ = a + t • (b - a) := by
  obtain ⟨w, he, hc⟩ := segCurve_wf a b
  have hs : IsSpan (nth (segCurve a b).knots) 1 1 t 1 := by
    refine ⟨le_refl _, le_refl _, ?_, h0, ?_⟩
    · norm_num [segCurve, nth]
    · rcases h1.lt_or_eq with h | h
      · exact Or.inl h
      · exact Or.inr ⟨h, rfl⟩
  unfold curvePoint
  rw [sum_range_succ, sum_range_succ, sum_range_zero, zero_add, N_eq_Nspan (wf_monoTo w) (by omega) hs 1 0 (by omega),
    N_eq_Nspan (wf_monoTo w) (by omega) hs 1 1 (by omega)]
  have c0 : nth (segCurve a b).cps 0 = XYZW.ofXYZ a 1 := rfl
  have c1 : nth (segCurve a b).cps 1 = XYZW.ofXYZ b 1 := rfl
  rw [c0, c1]
  have e0 : Nspan (nth (segCurve a b).knots) 1 1 0 t = 1 - t := by
    simp [Nspan, segCurve, nth]
  have e1 : Nspan (nth (segCurve a b).knots) 1 1 1 t = t := by
    simp [Nspan, segCurve, nth]
  rw [e0, e1]
  have e : (1 - t) • XYZW.ofXYZ a 1 + t • XYZW.ofXYZ b 1 = (⟨a.x + t * (b.x - a.x), a.y + t * (b.y - a.y), a.z + t * (b.z - a.z), 1⟩ : XYZW ℝ) := by
    ext <;> simp [XYZW.ofXYZ] <;> ring
  rw [e, toXYZ_one]
  rfl

theorem segCurve_ders {a b : XYZ ℝ} {t : ℝ} (h0 : 0 ≤ t) (h1 : t ≤ 1) :
    NurbsCurve.rationalDerivatives (segCurve a b) 2 t = ok [a + t • (b - a), b - a, 0] := by
  obtain ⟨w, he, hc⟩ := segCurve_wf a b
  have hs : IsSpan (nth (segCurve a b).knots) 1 1 t 1 := by
    refine ⟨le_refl _, le_refl _, ?_, h0, ?_⟩
    · norm_num [segCurve, nth]
    · rcases h1.lt_or_eq with h | h
      · exact Or.inl h
      · exact Or.inr ⟨h, rfl⟩
  have d0 : ∀ k, k ≤ 2 → curveDeriv (nth (segCurve a b).knots) 1 1 1 (nth (segCurve a b).cps) k t =
      if k = 0 then (1 - t) • XYZW.ofXYZ a 1 + t • XYZW.ofXYZ b 1 else if k = 1 then XYZW.ofXYZ b 1 - XYZW.ofXYZ a 1 else 0 := by
    intro k hk
    unfold curveDeriv
    have e0 : NspanP (nth (segCurve a b).knots) 1 1 0 = 1 - Polynomial.X := by
      simp [NspanP, segCurve, nth]
    have e1 : NspanP (nth (segCurve a b).knots) 1 1 1 = Polynomial.X := by
      simp [NspanP, segCurve, nth]
    rw [sum_range_succ, sum_range_succ, sum_range_zero, zero_add]
    unfold dN
    rw [e0, e1]
    have c0 : nth (segCurve a b).cps 0 = XYZW.ofXYZ a 1 := rfl
    have c1 : nth (segCurve a b).cps 1 = XYZW.ofXYZ b 1 := rfl
    rw [c0, c1]
    interval_cases k
    · simp
    · simp [neg_add_eq_sub]
    · simp
  have hw : weightFn (nth (segCurve a b).knots) 1 1 (nth (segCurve a b).cps) t ≠ 0 := by
    have := weightFn_ge (x := 1) w he (t := t) h0 h1 (by intro i hi; interval_cases i <;> exact le_refl _)
    linarith
  obtain ⟨l, e, hl, hk⟩ := C20_leibniz w he (t := t) h0 h1 hs (d := 2) (by decide) hw
  have k0 := hk 0 (by omega)
  have k1 := hk 1 (by omega)
  have k2 := hk 2 (by omega)
  simp only [sum_range_succ, sum_range_zero, zero_add, d0 0 (by omega), d0 1 (by omega), d0 2 (by omega)] at k0 k1 k2
  rw [show (2 : ℤ) = ((2 : ℕ) : ℤ) from rfl, e]
  have m0 : nth l 0 = a + t • (b - a) := by
    ext
    · have := congrArg XYZ.x k0
      simp [XYZW.ofXYZ, XYZW.raw] at this ⊢
      linarith
    · have := congrArg XYZ.y k0
      simp [XYZW.ofXYZ, XYZW.raw] at this ⊢
      linarith
    · have := congrArg XYZ.z k0
      simp [XYZW.ofXYZ, XYZW.raw] at this ⊢
      linarith
  have m1 : nth l 1 = b - a := by
    ext
    · have := congrArg XYZ.x k1
      simpa [XYZW.ofXYZ, XYZW.raw] using this
    · have := congrArg XYZ.y k1
      simpa [XYZW.ofXYZ, XYZW.raw] using this
    · have := congrArg XYZ.z k1
      simpa [XYZW.ofXYZ, XYZW.raw] using this
  have m2 : nth l 2 = 0 := by
    ext
    · have := congrArg XYZ.x k2
      simpa [XYZW.ofXYZ, XYZW.raw] using this
    · have := congrArg XYZ.y k2
      simpa [XYZW.ofXYZ, XYZW.raw] using this
    · have := congrArg XYZ.z k2
      simpa [XYZW.ofXYZ, XYZW.raw] using this
  rw [← m0, ← m1, ← m2]
  congr 1
  refine ext_nth (by rw [hl]; rfl) fun i hi => ?_
  rw [hl] at hi
  interval_cases i <;> rfl

/-- squared distance from a point of a line -/
theorem line_dist (a v P : XYZ ℝ) {s : ℝ} (hs : (P - a).dot v = s * v.dot v) (t : ℝ) :
    (P - (a + t • v)).dot (P - (a + t • v)) = ((P - a).dot (P - a) - s ^ 2 * v.dot v) + (t - s) ^ 2 * v.dot v := by
  have h : (P - (a + t • v)).dot (P - (a + t • v)) = (P - a).dot (P - a) - 2 * t * (P - a).dot v + t ^ 2 * v.dot v := by
    simp [XYZ.dot]; ring
  rw [h, hs]
  ring

/-- The search along the samples of a segment finds the nearest point of the segment, if the samples are not too close to each other. -/
theorem segStart_run {a v P : XYZ ℝ} {s : ℝ} (hv : 99 ^ 2 / 1000000 < v.dot v) (hs : (P - a).dot v = s * v.dot v) {pts : List (XYZ ℝ)} {params : List ℝ}
    (l1 : pts.length = 100) (l2 : params.length = 100) (h1 : ∀ k, k < 100 → nth pts k = a + ((k : ℝ) / 99) • v) (h2 : ∀ k, k < 100 → nth params k = (k : ℝ) / 99) :
    nearestStart pts params P 0 = ok (max 0 (min 1 s)) := by
  have hvp : 0 < v.dot v := by linarith
  unfold nearestStart
  rw [if_neg (by omega)]
  have hrun : Runs (forI 0 ((pts.length : ℤ) - 1) ((none : Option ℝ), (0 : ℝ)) (nearestRound pts params P)) (fun st => st.2 = max 0 (min 1 s)) := by
    refine (Runs.forN (m := 0) (n := 99) (fun i (st : Option ℝ × ℝ) => (i = 0 ∧ st = (none, 0)) ∨ (0 < i ∧ st.2 = max 0 (min ((i : ℝ) / 99) s) ∧
      st.1 = some ((P - (a + st.2 • v)).dot (P - (a + st.2 • v))))) rfl (by omega) (by omega) (Or.inl ⟨rfl, rfl⟩) ?_).mono ?_
    · rintro i st - hi h
      unfold nearestRound
      rw [vget_nth (k := i) rfl (by omega), ok_bind, vget_nth (k := i + 1) (by push_cast; ring) (by omega), ok_bind, vget_nth (k := i) rfl (by omega), ok_bind,
        vget_nth (k := i + 1) (by push_cast; ring) (by omega), ok_bind, h1 i (by omega), h1 (i + 1) (by omega), h2 i (by omega), h2 (i + 1) (by omega)]
      dsimp only
      have eseg : a + (((i + 1 : ℕ) : ℝ) / 99) • v - (a + ((i : ℝ) / 99) • v) = (1 / 99 : ℝ) • v := by
        ext <;> simp <;> ring
      rw [eseg]
      have elen : ((1 / 99 : ℝ) • v).dot ((1 / 99 : ℝ) • v) = v.dot v / 99 ^ 2 := by simp [XYZ.dot]; ring
      have edot : (P - (a + ((i : ℝ) / 99) • v)).dot ((1 / 99 : ℝ) • v) = (99 * s - i) * (v.dot v / 99 ^ 2) := by
        have : (P - (a + ((i : ℝ) / 99) • v)).dot ((1 / 99 : ℝ) • v) = 1 / 99 * ((P - a).dot v - (i : ℝ) / 99 * v.dot v) := by simp [XYZ.dot]; ring
        rw [this, hs]; ring
      rw [elen, edot, if_pos (by unfold doubleEps; rw [gt_iff_lt, lt_div_iff₀ (by norm_num)]; linarith), fdiv_ok (by positivity), ok_bind, ok_bind,
        mul_div_cancel_right₀ _ (by positivity)]
      obtain ⟨u, hu⟩ : ∃ u : ℝ, max 0 (min 1 (99 * s - i)) = u := ⟨_, rfl⟩
      rw [hu]
      obtain ⟨τ, hτ⟩ : ∃ τ : ℝ, (i : ℝ) / 99 + (((i + 1 : ℕ) : ℝ) / 99 - (i : ℝ) / 99) * u = τ := ⟨_, rfl⟩
      have hp : a + ((i : ℝ) / 99) • v + u • (1 / 99 : ℝ) • v = a + τ • v := by
        rw [← hτ]
        push_cast
        ext <;> simp <;> ring
      rw [hτ, hp]
      have hτ' : τ = ((i : ℝ) + u) / 99 := by rw [← hτ]; push_cast; ring
      have i0 : (0 : ℝ) ≤ (i : ℝ) := Nat.cast_nonneg i
      -- the two cases
      by_cases hsi : 99 * s ≤ i
      · have hu0 : u = 0 := by rw [← hu, max_eq_left]; exact (min_le_right _ _).trans (by linarith)
        have hcl : max 0 (min (((i + 1 : ℕ) : ℝ) / 99) s) = max 0 s := by
          rw [min_eq_right]; push_cast; linarith
        rcases h with ⟨rfl, rfl⟩ | ⟨g0, g1, g2⟩
        · refine Runs.ok (Or.inr ⟨by omega, ?_, rfl⟩)
          dsimp only
          rw [hcl, hτ', hu0]
          have hsi : 99 * s ≤ 0 := by simpa using hsi
          rw [max_eq_left (by linarith)]
          simp
        · rw [g2]
          have hcl0 : max 0 (min ((i : ℝ) / 99) s) = max 0 s := by
            rw [min_eq_right]; linarith
          rw [hcl0] at g1
          dsimp only
          rw [if_neg]
          · exact Runs.ok (Or.inr ⟨by omega, by rw [g1, hcl], g2⟩)
          · rw [line_dist a v P hs, line_dist a v P hs, not_lt]
            have b1 : 0 ≤ st.2 - s := by rw [g1]; linarith [le_max_right 0 s]
            have b2 : st.2 - s ≤ τ - s := by
              rw [hτ', hu0, g1]
              have : max 0 s ≤ ((i : ℝ) + 0) / 99 := max_le (by positivity) (by linarith)
              linarith
            have : (st.2 - s) ^ 2 ≤ (τ - s) ^ 2 := pow_le_pow_left₀ b1 b2 2
            nlinarith
      · rw [not_le] at hsi
        have hcl : τ = max 0 (min (((i + 1 : ℕ) : ℝ) / 99) s) := by
          have : 0 ≤ min (((i + 1 : ℕ) : ℝ) / 99) s := le_min (by positivity) (by linarith)
          rw [max_eq_right this, hτ', ← hu]
          have : 0 ≤ min 1 (99 * s - (i : ℝ)) := le_min (by norm_num) (by linarith)
          rw [max_eq_right this]
          rcases le_total 1 (99 * s - (i : ℝ)) with h' | h'
          · rw [min_eq_left h', min_eq_left (by push_cast; linarith)]; push_cast; ring
          · rw [min_eq_right h', min_eq_right (by push_cast; linarith)]; ring
        rcases h with ⟨rfl, rfl⟩ | ⟨g0, g1, g2⟩
        · exact Runs.ok (Or.inr ⟨by omega, hcl, rfl⟩)
        · rw [g2]
          dsimp only
          rw [if_pos]
          · exact Runs.ok (Or.inr ⟨by omega, hcl, rfl⟩)
          · rw [line_dist a v P hs, line_dist a v P hs]
            have b0 : st.2 = (i : ℝ) / 99 := by rw [g1, min_eq_left (by linarith), max_eq_right (by positivity)]
            have u0 : 0 < u := by rw [← hu]; exact lt_max_of_lt_right (lt_min (by norm_num) (by linarith))
            have u1 : u ≤ 99 * s - i := by
              rw [← hu, max_eq_right (le_min (by norm_num) (by linarith))]; exact min_le_right _ _
            have b1 : 0 ≤ s - τ := by rw [hτ']; linarith
            have b2 : s - τ < s - st.2 := by rw [hτ', b0]; linarith
            have : (s - τ) ^ 2 < (s - st.2) ^ 2 := pow_lt_pow_left₀ b2 b1 (by norm_num)
            nlinarith
    · rintro st (⟨h, -⟩ | ⟨-, h, -⟩)
      · omega
      · rw [h]; norm_num
  obtain ⟨st, e, h⟩ := hrun
  rw [e, ok_bind, h]

theorem length_dot (v : XYZ ℝ) : v.length * v.length = v.dot v := by
  have := length_sq v
  unfold XYZ.dot
  linarith

theorem ofXYZ_one_toXYZ (a : XYZ ℝ) : (XYZW.ofXYZ a 1).toXYZ = a := by
  have : XYZW.ofXYZ a 1 = ⟨a.x, a.y, a.z, 1⟩ := by ext <;> simp [XYZW.ofXYZ]
  rw [this, toXYZ_one]

/-- What the search returns for a segment: the parameter `T0` of the nearest point, unless the foot of the perpendicular is outside the segment and less than 1e-4
away from `T0`. -/
theorem segment_run {a b P : XYZ ℝ} {s : ℝ} (hn : ¬ Near b a) (hlen : 1 / 10 ≤ (b - a).length) (hs : (P - a).dot (b - a) = s * (b - a).dot (b - a)) :
    getParamOnCurve (segCurve a b) P = ok (if 1 / 10000 ≤ (a + max 0 (min 1 s) • (b - a) - P).length ∧ |(max 0 (min 1 s) - s) * (b - a).length| < 1 / 10000
      then s else max 0 (min 1 s)) := by
  obtain ⟨w, he, hc⟩ := segCurve_wf a b
  have hvv : 1 / 100 ≤ (b - a).dot (b - a) := by rw [← length_dot]; nlinarith
  unfold getParamOnCurve
  have g0 : vget (segCurve a b).knots 0 = ok (0 : ℝ) := vget_of (i := 0) (k := 0) rfl (by simp [segCurve])
  have g1 : vget (segCurve a b).knots (((segCurve a b).knots.length : ℤ) - 1) = ok (1 : ℝ) := vget_of (k := 3) (by simp [segCurve]) (by simp [segCurve])
  rw [g0, ok_bind, g1, ok_bind]
  obtain ⟨-, -, cl, ecl, hcl⟩ := isClosed_run w he hc
  have ha : (nth (segCurve a b).cps 0).toXYZ = a := by
    exact ofXYZ_one_toXYZ a
  have hb : (nth (segCurve a b).cps 1).toXYZ = b := by
    exact ofXYZ_one_toXYZ b
  have hclosed : cl = false := by
    rw [Bool.eq_false_iff]
    intro h
    rcases hcl.mp h with h | ⟨k, hk, -, h⟩
    · rw [ha, hb] at h
      have hd : a.distance b = (b - a).length := by
        unfold XYZ.distance
        unfold XYZ.length
        congr 1
        simp
        try ring
      rw [hd] at h
      linarith
    · have hk0 : k = 0 := by omega
      subst hk0
      have := h 0 (le_refl _)
      rw [show 1 - 0 + 0 = 1 from rfl, ha, hb] at this
      exact hn this
  rw [ecl, ok_bind, hclosed]
  have hW : stdUnique (segCurve a b).knots = [0, 1] := by simp [segCurve, stdUnique]
  rw [tessellate_run (s := 0) hW w he rfl (by
      intro i j hij hj
      have hi : i = 0 := by omega
      have hj : j = 1 := by omega
      subst hi hj
      norm_num [nth]) (le_refl _) (le_refl _), ok_bind]
  dsimp only
  have hsam : ∀ k, k < 100 → sampleAt (nth ([0, 1] : List ℝ)) 99 k = (k : ℝ) / 99 := by
    intro k hk
    have := sampleAt_eq (nth ([0, 1] : List ℝ)) 99 (i := 0) hk
    rw [mul_zero, zero_add] at this
    rw [this]
    norm_num [nth]
    ring
  have hk1 : ∀ k : ℕ, k < 100 → (0 : ℝ) ≤ (k : ℝ) / 99 ∧ (k : ℝ) / 99 ≤ 1 := by
    intro k hk
    have : (k : ℝ) ≤ 99 := by exact_mod_cast (by omega : k ≤ 99)
    exact ⟨by positivity, by rw [div_le_one (by norm_num)]; exact this⟩
  rw [segStart_run (a := a) (v := b - a) (s := s) (by linarith) hs (by simp) (by simp) (by
      intro k hk
      rw [nth_mapRange (by simpa using hk), hsam k hk, segCurve_point (hk1 k hk).1 (hk1 k hk).2]) (by
      intro k hk
      rw [nth_mapRange (by simpa using hk), hsam k hk]), ok_bind]
  obtain ⟨T0, hT⟩ : ∃ T, max 0 (min 1 s) = T := ⟨_, rfl⟩
  have ht0 : 0 ≤ T0 := by rw [← hT]; exact le_max_left _ _
  have ht1 : T0 ≤ 1 := by rw [← hT]; exact max_le (by norm_num) (min_le_left _ _)
  rw [hT]
  have hf : (b - a).dot (a + T0 • (b - a) - P) = (T0 - s) * (b - a).dot (b - a) := by
    have : (b - a).dot (a + T0 • (b - a) - P) = T0 * (b - a).dot (b - a) - (P - a).dot (b - a) := by simp [XYZ.dot]; ring
    rw [this, hs]; ring
  have hround : newtonRound (segCurve a b) P false 0 1 T0 = ok (if (a + T0 • (b - a) - P).length < 1 / 10000 then (T0, true)
      else if |(T0 - s) * (b - a).length| < 1 / 10000 then (s, true) else (T0, false)) := by
    unfold newtonRound
    rw [segCurve_ders ht0 ht1, ok_bind, vget_nth (i := 0) (k := 0) rfl (by simp), ok_bind, vget_nth (i := 1) (k := 1) rfl (by simp), ok_bind,
      vget_nth (i := 2) (k := 2) rfl (by simp), ok_bind]
    have m0 : nth [a + T0 • (b - a), b - a, 0] 0 = a + T0 • (b - a) := rfl
    have m1 : nth [a + T0 • (b - a), b - a, 0] 1 = b - a := rfl
    have m2 : nth [a + T0 • (b - a), b - a, 0] 2 = 0 := rfl
    rw [m0, m1, m2]
    dsimp only
    rw [show (distEps : ℝ) = 1 / 10000 from rfl]
    by_cases h1 : (a + T0 • (b - a) - P).length < 1 / 10000
    · rw [if_pos h1, if_pos h1]
    · rw [if_neg h1, if_neg h1]
      have hz : (a + T0 • (b - a) - P).dot (0 : XYZ ℝ) = 0 := by simp [XYZ.dot]
      rw [hz, add_zero, hf, abs_of_pos (by linarith), if_neg (by unfold doubleEps; rw [not_lt]; linarith), fdiv_ok (by linarith), ok_bind,
        mul_div_cancel_right₀ _ (by linarith)]
      by_cases h2 : |(T0 - s) * (b - a).length| < 1 / 10000
      · rw [if_pos h2, if_pos h2, sub_sub_cancel]
      · rw [if_neg h2, if_neg h2, if_pos (by rfl), sub_sub_cancel, hT]
  obtain ⟨R, hR⟩ : ∃ R, (if (a + T0 • (b - a) - P).length < 1 / 10000 then (T0, true)
      else if |(T0 - s) * (b - a).length| < 1 / 10000 then (s, true) else (T0, false)) = R := ⟨_, rfl⟩
  rw [hR] at hround
  have hRf : R.2 = false → R = (T0, false) := by
    rw [← hR]
    split_ifs <;> simp
  have hloop : newtonLoop (segCurve a b) P false 0 1 T0 = ok R := by
    apply Runs.eq
    unfold newtonLoop
    refine (Runs.forN (m := 0) (n := 20) (fun i (r : ℝ × Bool) => (i = 0 ∧ r = (T0, false)) ∨ r = R) rfl rfl (by omega) (Or.inl ⟨rfl, rfl⟩) ?_).mono ?_
    · rintro i r - - h
      have step : ∀ r, r = (T0, false) ∨ r = R → (if r.2 then ok r else newtonRound (segCurve a b) P false 0 1 r.1) = ok R := by
        rintro r (rfl | rfl)
        · simpa using hround
        · split_ifs with h'
          · rfl
          · rw [hRf (by simpa using h')] at hround ⊢
            exact hround
      refine ⟨R, step r (h.imp (fun h => h.2) id), Or.inr rfl⟩
    · rintro r (⟨h, -⟩ | h)
      · omega
      · exact h
  rw [hloop, ok_bind, ← hR]
  by_cases h1 : (a + T0 • (b - a) - P).length < 1 / 10000
  · rw [if_pos h1, if_neg (fun h => absurd h.1 (not_le.mpr h1))]
  · by_cases h2 : |(T0 - s) * (b - a).length| < 1 / 10000
    · rw [if_neg h1, if_pos h2, if_pos ⟨not_lt.mp h1, h2⟩]
    · rw [if_neg h1, if_neg h2, if_neg (fun h => h2 h.2)]

/-- the curve is the segment -/
theorem segCurve_pointOnCurve {a b : XYZ ℝ} {t : ℝ} (h0 : 0 ≤ t) (h1 : t ≤ 1) :
    NurbsCurve.pointOnCurve (segCurve a b) t = ok (a + t • (b - a)) := by
  obtain ⟨w, he, hc⟩ := segCurve_wf a b
  unfold NurbsCurve.pointOnCurve
  rw [C05_eval w he h0 h1, ok_bind, segCurve_point h0 h1]

theorem distance_length (a b : XYZ ℝ) : a.distance b = (a - b).length := by
  unfold XYZ.distance XYZ.length
  congr 1
  simp
  ring

/-- C114 (segments): for every segment of length at least 1/10 whose ends the library distinguishes, and every point, the search returns a parameter whose point
on the line is at least as near as every point of the segment; the parameter is in the domain, or it is outside by less than 1e-4 in space, in which case it is
the foot of the perpendicular. -/
theorem C114_segment {a b : XYZ ℝ} (hn : ¬ Near b a) (hlen : 1 / 10 ≤ a.distance b) (P : XYZ ℝ) :
    ∃ T, getParamOnCurve (segCurve a b) P = ok T ∧
      (∀ t, 0 ≤ t → t ≤ 1 → ∃ Q, NurbsCurve.pointOnCurve (segCurve a b) t = ok Q ∧ P.distance (a + T • (b - a)) ≤ P.distance Q) ∧
      ((0 ≤ T ∧ T ≤ 1) ∨ ((P - (a + T • (b - a))).dot (b - a) = 0 ∧ -(1 / 10000) < T * a.distance b ∧ (T - 1) * a.distance b < 1 / 10000)) := by
  rw [distance_length] at hlen
  have hab : (a - b).length = (b - a).length := by
    unfold XYZ.length; congr 1; simp; ring
  rw [hab] at hlen
  have hvv : 0 < (b - a).dot (b - a) := by rw [← length_dot]; nlinarith
  obtain ⟨s, hs⟩ : ∃ s, (P - a).dot (b - a) = s * (b - a).dot (b - a) := ⟨(P - a).dot (b - a) / (b - a).dot (b - a), by rw [div_mul_cancel₀]; exact ne_of_gt hvv⟩
  have hd : ∀ t, P.distance (a + t • (b - a)) = Real.sqrt ((P - a).dot (P - a) - s ^ 2 * (b - a).dot (b - a) + (t - s) ^ 2 * (b - a).dot (b - a)) := by
    intro t
    rw [← line_dist a (b - a) P hs t, distance_length]
    rfl
  refine ⟨_, segment_run hn hlen hs, ?_, ?_⟩
  · intro t t0 t1
    refine ⟨_, segCurve_pointOnCurve t0 t1, ?_⟩
    rw [hd, hd]
    apply Real.sqrt_le_sqrt
    split_ifs with h
    · nlinarith [mul_nonneg (sq_nonneg (t - s)) hvv.le]
    · have : (max 0 (min 1 s) - s) ^ 2 ≤ (t - s) ^ 2 := by
        rcases le_total s 0 with h0 | h0
        · rw [min_eq_right (by linarith), max_eq_left h0]
          nlinarith
        · rcases le_total 1 s with h1 | h1
          · rw [min_eq_left h1, max_eq_right (by norm_num)]
            nlinarith
          · rw [min_eq_right h1, max_eq_right h0]
            nlinarith
      nlinarith
  · split_ifs with h
    · refine Or.inr ⟨?_, ?_, ?_⟩
      · have : (P - (a + s • (b - a))).dot (b - a) = (P - a).dot (b - a) - s * (b - a).dot (b - a) := by simp [XYZ.dot]; ring
        rw [this, hs, sub_self]
      · rw [distance_length, hab]
        have h1 := (abs_lt.mp h.2).2
        have h2 : 0 ≤ max 0 (min 1 s) := le_max_left _ _
        nlinarith
      · rw [distance_length, hab]
        have h1 := (abs_lt.mp h.2).1
        have h2 : max 0 (min 1 s) ≤ 1 := max_le (by norm_num) (min_le_left _ _)
        nlinarith
    · exact Or.inl ⟨le_max_left _ _, max_le (by norm_num) (min_le_left _ _)⟩

/-- C114 is violated as stated: for every point that projects onto the line of the unit segment just before its start (by less than 1e-4), the search returns
that negative parameter, and if it is more than 1e-6 before the start, the curve cannot be evaluated there. -/
theorem C114_outside_violated {x : ℝ} (h0 : 0 < x) (h1 : x < 1 / 10000) :
    getParamOnCurve (segCurve ⟨0, 0, 0⟩ ⟨1, 0, 0⟩) ⟨-x, 1, 0⟩ = ok (-x) ∧
    (1 / 1000000 < x → NurbsCurve.pointOnCurve (segCurve ⟨0, 0, 0⟩ ⟨1, 0, 0⟩) (-x) = outOfRange) := by
  have hlen : (((⟨1, 0, 0⟩ : XYZ ℝ)) - ⟨0, 0, 0⟩).length = 1 := by
    unfold XYZ.length; simp
  constructor
  · rw [segment_run (s := -x) ?_ (by rw [hlen]; norm_num) ?_, if_pos]
    · rw [hlen, min_eq_right (by linarith), max_eq_left (by linarith)]
      constructor
      · unfold XYZ.length
        rw [Real.le_sqrt (by norm_num) (by simp; nlinarith)]
        simp
        nlinarith
      · rw [abs_lt]
        constructor <;> linarith
    · unfold Near
      norm_num
    · simp [XYZ.dot]
  · intro h
    unfold NurbsCurve.pointOnCurve
    rw [C06_out_of_range (by simp [segCurve])]
    · rfl
    · left
      norm_num [segCurve, nth]
      linarith

/-- the hypotheses of `C114_segment` are met by a slanted segment; the parameter is that of the nearest point -/
example : (∃ T, getParamOnCurve (segCurve ⟨1, 2, 3⟩ ⟨4, 6, 3⟩) ⟨2, 2, 5⟩ = ok T) ∧ getParamOnCurve (segCurve ⟨1, 2, 3⟩ ⟨4, 6, 3⟩) ⟨2, 2, 5⟩ = ok (3 / 25) := by
  have hn : ¬ Near (⟨4, 6, 3⟩ : XYZ ℝ) ⟨1, 2, 3⟩ := by unfold Near; norm_num
  have hd : 1 / 10 ≤ (⟨1, 2, 3⟩ : XYZ ℝ).distance ⟨4, 6, 3⟩ := by
    unfold XYZ.distance
    rw [Real.le_sqrt (by norm_num) (by norm_num)]
    norm_num
  obtain ⟨T, h, -⟩ := C114_segment hn hd ⟨2, 2, 5⟩
  refine ⟨⟨T, h⟩, ?_⟩
  rw [segment_run (s := 3 / 25) hn ?_ ?_]
  · rw [min_eq_right (by norm_num), max_eq_right (by norm_num), ite_self]
  · unfold XYZ.length
    rw [Real.le_sqrt (by norm_num) (by norm_num)]
    norm_num
  · norm_num [XYZ.dot]

/-- the hypotheses of `C114_domain_partial` are met by a rational quadratic with an interior knot -/
example : ∃ T, getParamOnCurve ({ degree := 2, knots := [0, 0, 0, 1, 3, 3, 3], cps := [⟨0, 0, 0, 1⟩, ⟨1, 1, 0, 1⟩, ⟨2, 0, 0, 2⟩, ⟨3, 0, 1, 1⟩] } : NurbsCurve ℝ) ⟨1, 1, 1⟩ = ok T := by
  obtain ⟨T, h, -⟩ := C114_domain_partial (c := ({ degree := 2, knots := [0, 0, 0, 1, 3, 3, 3], cps := [⟨0, 0, 0, 1⟩, ⟨1, 1, 0, 1⟩, ⟨2, 0, 0, 2⟩, ⟨3, 0, 1, 1⟩] } : NurbsCurve ℝ))
    (p := 2) (n := 3) ⟨rfl, by omega, by omega, rfl, by omega, rfl, isValidKnotVector_nth.mp (by norm_num [isValidKnotVector])⟩
    (by constructor <;> norm_num [nth, doubleEps]) ⟨rfl, rfl⟩ (by intro i hi; interval_cases i <;> norm_num [nth]) ⟨1, 1, 1⟩
  exact ⟨T, h⟩

end LNLib.Props
