import Verif.Model.ErrorBound
import Verif.Props.KnotsByBound
import Verif.Props.Elevate
import Verif.Props.Interp

/-!
# Approximation of points within an error bound (C156)
-/

namespace LNLib.Props
open LNLib Res LNLib.Spec Finset

section
variable {K : Type} [Field K] [LinearOrder K] [IsStrictOrderedRing K]

theorem nth_mem' {l : List K} {i : ℕ} (h : i < l.length) : nth l i ∈ l := by
  rw [nth_eq_getElem h]; exact List.getElem_mem h

theorem pairwise_nth {l : List K} (h : l.Pairwise (· < ·)) {i j : ℕ} (hij : i < j) (hj : j < l.length) : nth l i < nth l j := by
  rw [nth_eq_getElem hj, nth_eq_getElem (by omega)]
  exact List.pairwise_iff_getElem.mp h i j (by omega) hj hij

/-- The knots of the polyline, one by one. -/
theorem polyline_knot (uk : List K) (i : ℕ) : nth (0 :: (uk ++ [1])) (i + 1) = if i < uk.length then nth uk i else if i = uk.length then 1 else 0 := by
  have e : nth (0 :: (uk ++ [1])) (i + 1) = nth (uk ++ [1]) i := by simp [nth]
  rw [e]
  split_ifs with h h'
  · exact nth_append_left h
  · subst h'; simp [nth]
  · have : (uk ++ [1]).length ≤ i := by simp; omega
    simp [nth, List.getElem?_eq_none this]

theorem polyline_facts {uk : List K} {pts : List (XYZ K)} {m : ℕ} (hm : 1 ≤ m) (h1 : pts.length = m + 1) (h2 : uk.length = m + 1) (h3 : nth uk 0 = 0) (h4 : nth uk m = 1)
    (hlt : uk.Pairwise (· < ·)) (hs : WellSeparated uk) :
    WellFormed (polylineCurve uk pts) 1 m ∧ EndsSeparated (nth (polylineCurve uk pts).knots) 1 m ∧ ClampedEnds (nth (polylineCurve uk pts).knots) 1 m ∧
      WellSeparated (polylineCurve uk pts).knots ∧ (∀ s, 1 ≤ s → s ≤ m → nth (polylineCurve uk pts).knots s < nth (polylineCurve uk pts).knots (s + 1)) ∧
      ∀ x, nth (polylineCurve uk pts).knots 1 < x → x < nth (polylineCurve uk pts).knots (m + 1) → (polylineCurve uk pts).knots.count x ≤ 1 := by
  have k : ∀ i, nth (polylineCurve uk pts).knots (i + 1) = if i < uk.length then nth uk i else if i = uk.length then 1 else 0 := polyline_knot uk
  have k0 : nth (polylineCurve uk pts).knots 0 = 0 := rfl
  have kin : ∀ i, i ≤ m → nth (polylineCurve uk pts).knots (i + 1) = nth uk i := fun i hi => by rw [k, if_pos (by omega)]
  have klast : nth (polylineCurve uk pts).knots (m + 2) = 1 := by rw [k, if_neg (by omega), if_pos (by omega)]
  have hl : (polylineCurve uk pts).knots.length = m + 3 := by simp [polylineCurve, h2]
  have le1 : ∀ i j, i ≤ j → j ≤ m → nth uk i ≤ nth uk j := fun i j hij hj => by
    rcases hij.eq_or_lt with rfl | h
    · exact le_rfl
    · exact (pairwise_nth hlt h (by omega)).le
  have m0 : (0 : K) ∈ uk := by rw [← h3]; exact nth_mem' (by omega)
  have m1 : (1 : K) ∈ uk := by rw [← h4]; exact nth_mem' (by omega)
  have mem : ∀ x, x ∈ (polylineCurve uk pts).knots → x ∈ uk := by
    intro x hx
    simp only [polylineCurve, List.mem_cons, List.mem_append, List.not_mem_nil, or_false] at hx
    rcases hx with rfl | hx | rfl
    · exact m0
    · exact hx
    · exact m1
  have gap : ∀ i, i < m → nth uk (i + 1) - nth uk i > 1 / 1000000 * (1 + max |nth uk i| |nth uk (i + 1)|) := by
    intro i hi
    have l := pairwise_nth hlt (Nat.lt_succ_self i) (by omega)
    rcases hs _ (nth_mem' (show i < uk.length by omega)) _ (nth_mem' (show i + 1 < uk.length by omega)) with h | h
    · exact absurd h l.ne
    · rw [abs_sub_comm, abs_of_pos (sub_pos.mpr l)] at h
      have : (0 : K) ≤ max |nth uk i| |nth uk (i + 1)| := le_max_of_le_left (abs_nonneg _)
      linarith
  refine ⟨⟨rfl, by omega, by omega, by simp [polylineCurve, h1], hm, by rw [hl], ?_⟩, ⟨?_, ?_⟩, ⟨?_, ?_⟩, ?_, ?_, ?_⟩
  · intro i j hij hj
    rw [hl] at hj
    have all : ∀ j, j < m + 3 → (0 ≤ nth (polylineCurve uk pts).knots j ∧ nth (polylineCurve uk pts).knots j ≤ 1) := by
      intro j hj
      rcases j with _ | j
      · rw [k0]; exact ⟨le_rfl, zero_le_one⟩
      · rcases Nat.lt_or_ge j (m + 1) with h | h
        · rw [kin j (by omega)]
          exact ⟨h3 ▸ le1 0 j (by omega) (by omega), h4 ▸ le1 j m (by omega) le_rfl⟩
        · obtain rfl : j = m + 1 := by omega
          rw [klast]; exact ⟨zero_le_one, le_rfl⟩
    rcases i with _ | i
    · rw [k0]; exact (all j hj).1
    · rcases Nat.lt_or_ge j (m + 2) with h | h
      · obtain ⟨j, rfl⟩ : ∃ j', j = j' + 1 := ⟨j - 1, by omega⟩
        rw [kin i (by omega), kin j (by omega)]
        exact le1 i j (by omega) (by omega)
      · obtain rfl : j = m + 2 := by omega
        rw [klast]; exact (all (i + 1) (by omega)).2
  · rw [kin 1 hm, kin 0 (by omega)]; exact gap 0 (by omega)
  · obtain ⟨m, rfl⟩ : ∃ m', m = m' + 1 := ⟨m - 1, by omega⟩
    rw [kin (m + 1) le_rfl, kin m (by omega)]; exact gap m (by omega)
  · rw [k0, kin 0 (by omega), h3]
  · rw [kin m le_rfl, klast, h4]
  · intro x hx y hy
    exact hs x (mem x hx) y (mem y hy)
  · intro s hs1 hs2
    obtain ⟨s, rfl⟩ : ∃ s', s = s' + 1 := ⟨s - 1, by omega⟩
    rw [kin s (by omega), kin (s + 1) hs2]
    exact pairwise_nth hlt (Nat.lt_succ_self s) (by omega)
  · intro x hx0 hx1
    rw [kin 0 (by omega), h3] at hx0
    rw [kin m le_rfl, h4] at hx1
    have : (polylineCurve uk pts).knots.count x = uk.count x := by
      simp [polylineCurve, List.count_cons, List.count_append, hx0.ne, hx1.ne']
    rw [this]
    exact List.nodup_iff_count_le_one.mp (hlt.imp ne_of_lt) x

/-- C156 (violated): with degree one the approximation never succeeds, whatever the points and the bound. -/
theorem C156_linear_violated (chord : List (XYZ K) → Res (List K)) (dist : XYZW K → XYZW K → K) (tol : List (XYZW K) → K) (fuel : ℕ) (pts : List (XYZ K)) (maxError : K)
    (d : NurbsCurve K) : approximateByErrorBound chord dist tol fuel 1 pts maxError ≠ ok d := by
  intro h
  unfold approximateByErrorBound at h
  obtain ⟨_, _, h⟩ := bind_eq_ok.mp h
  obtain ⟨_, _, h⟩ := bind_eq_ok.mp h
  obtain ⟨_, _, h⟩ := bind_eq_ok.mp h
  obtain ⟨_, _, h⟩ := bind_eq_ok.mp h
  rw [C42_elevate_rejects _ (by norm_num)] at h
  cases h

/-- C156 for any parametrization that rises from 0 to 1. -/
theorem approx_removals {chord : List (XYZ K) → Res (List K)} {dist : XYZW K → XYZW K → K} {tol : List (XYZW K) → K} {fuel t : ℕ} {pts : List (XYZ K)} {maxError : K}
    {uk : List K} {d : NurbsCurve K} (ht : 1 ≤ t) (h7 : t + 1 ≤ 7) (hu : chord pts = ok uk) (h2 : uk.length = pts.length) (h3 : nth uk 0 = 0) (h4 : nth uk (pts.length - 1) = 1)
    (hlt : uk.Pairwise (· < ·)) (hs : WellSeparated uk) (h : approximateByErrorBound chord dist tol fuel ((t + 1 : ℕ) : ℤ) pts maxError = ok d) :
    ∃ e : NurbsCurve K, WellFormed e (t + 1) ((pts.length - 1) * (t + 1)) ∧ (∀ x, 0 ≤ x → x ≤ 1 → NurbsCurve.pointOnCurve e x = NurbsCurve.pointOnCurve (polylineCurve uk pts) x) ∧
      Removals dist tol e d ∧ d.degree = ((t + 1 : ℕ) : ℤ) ∧ t + 3 ≤ d.cps.length := by
  unfold approximateByErrorBound at h
  obtain ⟨_, _, h⟩ := bind_eq_ok.mp h
  obtain ⟨_, hv, h⟩ := bind_eq_ok.mp h
  obtain ⟨_, hp, h⟩ := bind_eq_ok.mp h
  rw [hu, ok_bind] at h
  have hsize : t + 1 < pts.length := by
    have : decide ((pts.length : ℤ) > ((t + 1 : ℕ) : ℤ)) = true := by
      by_contra hc
      rw [Bool.not_eq_true] at hc
      rw [hc] at hv
      cases hv
    have := of_decide_eq_true this
    omega
  obtain ⟨m, hm⟩ : ∃ m, pts.length = m + 1 := ⟨pts.length - 1, by omega⟩
  have hmm : pts.length - 1 = m := by omega
  rw [hmm] at h4 ⊢
  obtain ⟨w, a1, a2, a3, a4, a5⟩ := polyline_facts (m := m) (by omega) hm (by omega) h3 h4 hlt hs
  obtain ⟨e, q1, q2, q3⟩ := C42_elevate_rational_partial w a1 a2 a3 a4 a5 (show 0 < t by omega) (by omega)
  have ht' : (((t + 1 : ℕ) : ℤ) - 1) = (t : ℤ) := by push_cast; ring
  rw [ht', q1, ok_bind] at h
  obtain ⟨⟨r, es⟩, h5, h6⟩ := bind_eq_ok.mp h
  cases h6
  have hz : ∀ x ∈ List.replicate pts.length (0 : K), isGreaterThan x maxError = false := by
    intro x hx
    rw [List.eq_of_mem_replicate hx]
    have hp' : isGreaterThan maxError 0 = true := by
      by_contra hc
      rw [Bool.not_eq_true] at hc
      rw [hc] at hp
      cases hp
    have hpos := of_decide_eq_true (show decide (maxError - 0 > tolOf maxError 0 doubleEps) = true from hp')
    have t1 : (0 : K) ≤ tolOf maxError 0 doubleEps := by unfold tolOf doubleEps; positivity
    have t2 : (0 : K) ≤ tolOf 0 maxError doubleEps := by unfold tolOf doubleEps; positivity
    exact decide_eq_false (by rw [not_lt]; linarith)
  have hR := (C155_removals_partial (by rw [q2.degree]; positivity) hz h5).1
  have hn : m + (m + 1 - 1) * t = m * (t + 1) := by rw [Nat.add_sub_cancel]; ring
  rw [hn, Nat.add_comm 1 t] at q2
  refine ⟨e, q2, ?_, hR, ?_, ?_⟩
  · intro x hx0 hx1
    refine q3 x ?_ ?_
    · have : nth (polylineCurve uk pts).knots 1 = nth uk 0 := (polyline_knot uk 0).trans (if_pos (by omega))
      rw [this, h3]; exact hx0
    · have : nth (polylineCurve uk pts).knots (m + 1) = nth uk m := (polyline_knot uk m).trans (if_pos (by omega))
      rw [this, h4]; exact hx1
  · rw [hR.degree, q2.degree]
  · rcases hR.count with h | ⟨h, -⟩
    · rw [h, q2.cps]
      nlinarith
    · rw [q2.degree] at h
      push_cast at h
      omega

/-- The sum of the absolute differences: the distance of two control points that differ in one coordinate only. -/
def lineDistance (a b : XYZW ℚ) : ℚ := |a.wx - b.wx| + |a.wy - b.wy| + |a.wz - b.wz| + |a.w - b.w|

/-- The hypotheses of `approx_removals` are met: three points of a line. -/
example : approximateByErrorBound (fun _ => ok [0, 1 / 2, 1]) lineDistance (fun _ => 1 / 10000) 9 2 [⟨0, 0, 0⟩, ⟨1, 0, 0⟩, ⟨2, 0, 0⟩] (1 / 100) =
    ok ⟨2, [0, 0, 0, 1 / 2, 1, 1, 1], [⟨0, 0, 0, 1⟩, ⟨1 / 2, 0, 0, 1⟩, ⟨3 / 2, 0, 0, 1⟩, ⟨2, 0, 0, 1⟩]⟩ := by decide +kernel

/-- C156 (violated), with the parameters and distances that the library computes for four equally spaced points of a line and a positive tolerance: the curve misses the second point by a quarter, 25 times
the bound. -/
theorem C156_shape_violated : ∃ d : NurbsCurve ℚ, approximateByErrorBound (fun _ => ok [0, 1 / 3, 2 / 3, 1]) lineDistance (fun _ => 1 / 10000) 20 2
      [⟨0, 0, 0⟩, ⟨1, 0, 0⟩, ⟨2, 0, 0⟩, ⟨3, 0, 0⟩] (1 / 100) = ok d ∧ NurbsCurve.pointOnCurve d (1 / 3) = ok ⟨5 / 4, 0, 0⟩ := by
  refine ⟨⟨2, [0, 0, 0, 2 / 3, 2 / 3, 1, 1, 1], [⟨0, 0, 0, 1⟩, ⟨3 / 2, 0, 0, 1⟩, ⟨2, 0, 0, 1⟩, ⟨5 / 2, 0, 0, 1⟩, ⟨3, 0, 0, 1⟩]⟩, ?_, ?_⟩ <;> decide +kernel

end

/-- C156 (part): whenever the library's approximation of degree 2 to 7 returns, and the chord length parameters of the points are all different (further apart than the tolerance), the result
has come about from the polyline through the points, raised to the degree, by successful calls of `RemoveKnot` with one copy each; it has at least `degree + 2` control points, so at least
one interior knot is left, whatever the bound. -/
theorem C156_removals_partial {fuel t : ℕ} {pts : List (XYZ ℝ)} {maxError : ℝ} {uk : List ℝ} {d : NurbsCurve ℝ} (ht : 1 ≤ t) (h7 : t + 1 ≤ 7) (h0 : 2 ≤ pts.length)
    (hu : getChordParameterization pts = ok uk) (hlt : uk.Pairwise (· < ·)) (hs : WellSeparated uk)
    (h : NurbsCurve.globalApproximationByErrorBound fuel ((t + 1 : ℕ) : ℤ) pts maxError = ok d) :
    ∃ e : NurbsCurve ℝ, WellFormed e (t + 1) ((pts.length - 1) * (t + 1)) ∧ (∀ x, 0 ≤ x → x ≤ 1 → NurbsCurve.pointOnCurve e x = NurbsCurve.pointOnCurve (polylineCurve uk pts) x) ∧
      Removals XYZW.distance (fun P => curveModifyTolerance P) e d ∧ d.degree = ((t + 1 : ℕ) : ℤ) ∧ t + 3 ≤ d.cps.length := by
  obtain ⟨uk', e, q1, q2, q3, -, -⟩ := C46_chord pts h0
  rw [hu] at e
  cases e
  exact approx_removals ht h7 hu q1 q2 q3 hlt hs h

end LNLib.Props
