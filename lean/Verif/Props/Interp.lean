import Verif.Model.Interp
import Verif.Spec.Solver
import Verif.Props.Curve
import Verif.Props.Geom
import Verif.Props.Surface
import Verif.Core.Hoare
import Mathlib.Analysis.SpecialFunctions.Integrals.Basic

/-!
# C46, C48, C73, C74: quadrature, parametrisation, knot placement and global interpolation
-/

set_option linter.unusedSectionVars false

namespace LNLib.Props
open LNLib Res LNLib.Spec Finset

variable {K : Type} [Field K] [LinearOrder K] [IsStrictOrderedRing K]

/-! ## C48 -/

/-- a polynomial function of degree at most three -/
def IsCubic (g : ℝ → ℝ) : Prop := ∃ c0 c1 c2 c3 : ℝ, ∀ x, g x = c0 + c1 * x + c2 * x ^ 2 + c3 * x ^ 3

/-- C48: Simpson's rule is exact for all polynomials of degree at most three on all intervals. -/
theorem C48_exact {g : ℝ → ℝ} (h : IsCubic g) (a b : ℝ) : simpson g a b = ∫ x in a..b, g x := by
  obtain ⟨c0, c1, c2, c3, h⟩ := h
  have e : (∫ x in a..b, g x) = c0 * (b - a) + c1 * ((b ^ 2 - a ^ 2) / 2) + c2 * ((b ^ 3 - a ^ 3) / 3) + c3 * ((b ^ 4 - a ^ 4) / 4) := by
    have : g = fun x => c0 + c1 * x + c2 * x ^ 2 + c3 * x ^ 3 := funext h
    rw [this, intervalIntegral.integral_add, intervalIntegral.integral_add, intervalIntegral.integral_add]
    · rw [intervalIntegral.integral_const_mul c1 (fun x => x), intervalIntegral.integral_const_mul c2 (fun x => x ^ 2),
        intervalIntegral.integral_const_mul c3 (fun x => x ^ 3)]
      simp only [intervalIntegral.integral_const, integral_id, integral_pow, smul_eq_mul]
      norm_num
      ring
    all_goals exact Continuous.intervalIntegrable (by fun_prop) _ _
  rw [e]
  unfold simpson
  simp only [h]
  ring

/-- C48: Simpson's rule is linear in the integrand (any field). -/
theorem C48_linear (f g : K → K) (k a b : K) : simpson (fun x => f x + k * g x) a b = simpson f a b + k * simpson g a b := by
  unfold simpson; ring

/-- the two-dimensional rule is the product rule -/
theorem simpson2_eq (f : K → K → K) (a b c d : K) : simpson2 f a b c d = simpson (fun u => simpson (f u) c d) a b := by
  unfold simpson2 simpson
  have e1 : a + 1 / 2 * (b - a) = (a + b) / 2 := by ring
  have e2 : c + 1 / 2 * (d - c) = (c + d) / 2 := by ring
  simp only [List.foldl_cons, List.foldl_nil, e1, e2]
  ring

/-- C48: the two-dimensional rule is exact for all functions that are polynomials of degree at most three in each variable. -/
theorem C48_exact2 {f : ℝ → ℝ → ℝ} (hu : ∀ v, IsCubic fun u => f u v) (hv : ∀ u, IsCubic (f u)) (a b c d : ℝ) :
    simpson2 f a b c d = ∫ u in a..b, ∫ v in c..d, f u v := by
  rw [simpson2_eq]
  have : (fun u => ∫ v in c..d, f u v) = fun u => simpson (f u) c d := funext fun u => (C48_exact (hv u) c d).symm
  rw [this]
  apply C48_exact
  obtain ⟨p0, p1, p2, p3, hp⟩ := hu c
  obtain ⟨q0, q1, q2, q3, hq⟩ := hu ((c + d) / 2)
  obtain ⟨r0, r1, r2, r3, hr⟩ := hu d
  refine ⟨(d - c) / 6 * (p0 + 4 * q0 + r0), (d - c) / 6 * (p1 + 4 * q1 + r1), (d - c) / 6 * (p2 + 4 * q2 + r2), (d - c) / 6 * (p3 + 4 * q3 + r3), ?_⟩
  intro x
  unfold simpson
  have hp := hp x
  have hq := hq x
  have hr := hr x
  dsimp only at hp hq hr ⊢
  rw [hp, hq, hr]
  ring

/-- C48 is not vacuous -/
example : IsCubic (fun x => 1 + 2 * x ^ 3) := ⟨1, 0, 0, 2, fun x => by ring⟩

/-! ## C46: parameters -/

theorem foldl_sum : ∀ (l : List K) (a : K), l.foldl (fun (s : K) x => s + x) a = a + ∑ i ∈ range l.length, nth l i
  | [], a => by simp
  | x :: l, a => by
    rw [List.foldl_cons, foldl_sum l, List.length_cons, Finset.sum_range_succ']
    simp only [nth_cons_succ, nth_cons_zero]
    ring

/-- the parameters of a polyline with the given segment lengths -/
theorem parameterization_run {segs : List K} (hpos : ∀ i, i < segs.length → 0 ≤ nth segs i) :
    Runs (parameterization segs) (fun uk => uk.length = segs.length + 1 ∧ nth uk 0 = 0 ∧ (0 < segs.length → nth uk segs.length = 1) ∧
      (∀ i j, i ≤ j → j < uk.length → nth uk i ≤ nth uk j) ∧
      (1 / 1000000 * (1 + ∑ j ∈ range segs.length, nth segs j) < ∑ j ∈ range segs.length, nth segs j →
        ∀ i, i ≤ segs.length → nth uk i = (∑ j ∈ range i, nth segs j) / ∑ j ∈ range segs.length, nth segs j) ∧
      (∑ j ∈ range segs.length, nth segs j ≤ 1 / 1000000 * (1 + ∑ j ∈ range segs.length, nth segs j) →
        ∀ i, i ≤ segs.length → nth uk i = (i : K) / segs.length)) := by
  have hnn : 0 ≤ ∑ j ∈ range segs.length, nth segs j := Finset.sum_nonneg fun i hi => hpos i (Finset.mem_range.mp hi)
  have hae : isAlmostEqualTo (∑ j ∈ range segs.length, nth segs j) 0 = true ↔
      ∑ j ∈ range segs.length, nth segs j ≤ 1 / 1000000 * (1 + ∑ j ∈ range segs.length, nth segs j) := by
    unfold isAlmostEqualTo
    rw [decide_eq_true_eq]
    unfold tolOf doubleEps
    rw [sub_zero, abs_zero, abs_of_nonneg hnn, max_eq_left hnn]
  unfold parameterization
  dsimp only
  split
  · rename_i h
    refine Runs.ok ⟨by simp only [List.length_cons, List.length_nil]; omega, rfl, by omega, ?_, ?_, ?_⟩
    · intro i j hij hj
      simp at hj
      have : i = 0 := by omega
      subst this; subst hj; exact le_refl _
    · intro _ i hi
      have : i = 0 := by omega
      subst this; simp [nth]
    · intro _ i hi
      have : i = 0 := by omega
      subst this; simp [nth]
  split
  · rename_i h1 h
    have hl : segs.length = 1 := by omega
    refine Runs.ok ⟨by simp; omega, rfl, ?_, ?_, ?_, ?_⟩
    · intro _; rw [hl]; rfl
    rotate_left
    · intro hc i hi
      have hne : ∑ j ∈ range segs.length, nth segs j ≠ 0 := by
        intro h0; rw [h0] at hc; norm_num at hc
      rw [hl] at hi
      rcases i with _ | _ | i
      · simp [nth]
      · rw [hl] at hne ⊢; rw [zero_add, div_self hne]; rfl
      · omega
    · intro hc i hi
      rw [hl] at hi ⊢
      rcases i with _ | _ | i
      · simp [nth]
      · simp [nth]
      · omega
    rotate_left
    · intro i j hij hj
      simp at hj
      rcases i with _ | _ | i
      · rcases j with _ | _ | j
        · exact le_refl _
        · exact zero_le_one
        · omega
      · rcases j with _ | _ | j
        · omega
        · exact le_refl _
        · omega
      · omega
  rename_i h1 h2
  set L := segs.length with hL
  rw [foldl_sum, zero_add]
  set total := ∑ i ∈ range L, nth segs i with ht
  split
  · rename_i hz
    have hLK : (((L + 1 : ℕ) : ℤ) - 1 : ℤ) = (L : ℤ) := by push_cast; ring
    have hL0 : ((L : ℤ) : K) ≠ 0 := by
      have : (L : K) ≠ 0 := Nat.cast_ne_zero.mpr (by omega)
      exact_mod_cast this
    have hL1 : (0 : K) < (L : K) := Nat.cast_pos.mpr (by omega)
    refine (Runs.forN (fun n (uk : List K) => uk.length = L + 1 ∧ ∀ i, i < n → nth uk i = (i : K) / (L : K)) rfl rfl (Nat.zero_le _)
      ⟨by simp, by intro i hi; omega⟩ ?_).mono ?_
    · rintro i uk - hi ⟨h3, h4⟩
      rw [hLK, fdiv_ok hL0, ok_bind, vset_of (k := i) rfl (by omega)]
      refine Runs.ok ⟨by simp [h3], ?_⟩
      intro j hj
      rw [nth_set (by omega)]
      split
      · rename_i hji; subst hji; push_cast; rfl
      · exact h4 j (by omega)
    · rintro uk ⟨h3, h4⟩
      refine ⟨h3, by rw [h4 0 (by omega)]; simp, fun _ => by rw [h4 L (by omega)]; exact div_self hL1.ne', ?_, ?_, ?_⟩
      · intro i j hij hj
        rw [h4 i (by omega), h4 j (by omega)]
        gcongr
      · intro hc
        exact absurd (hae.mp hz) (not_le.mpr hc)
      · intro _ i hi
        exact h4 i (by omega)
  · rename_i h3
    have ht0 : 0 < total := by
      have : 0 ≤ total := Finset.sum_nonneg fun i hi => hpos i (Finset.mem_range.mp hi)
      rcases this.lt_or_eq with h | h
      · exact h
      · exfalso
        rw [← h] at h3
        exact h3 (isAlmostEqualTo_self doubleEps_pos)
    rw [vset_of (k := 0) (i := 0) rfl (by simp), ok_bind, vset_of (k := L) (by push_cast; ring) (by simp), ok_bind]
    refine Runs.bind (Q := fun st : List K × K => st.1.length = L + 1 ∧ nth st.1 L = 1 ∧ ∀ i, i < L → nth st.1 i = (∑ j ∈ range i, nth segs j) / total) ?_ ?_
    · refine (Runs.forN (m := 1) (n := L) (fun n (st : List K × K) => st.1.length = L + 1 ∧ nth st.1 L = 1 ∧ st.2 = ∑ j ∈ range (n - 1), nth segs j ∧
        ∀ i, i < n → nth st.1 i = (∑ j ∈ range i, nth segs j) / total) rfl (by push_cast; ring) (by omega) ?_ ?_).mono ?_
      · dsimp only
        refine ⟨by simp, by rw [nth_set (by simp), if_pos rfl], by simp, ?_⟩
        intro i hi
        have : i = 0 := by omega
        subst this
        rw [nth_set (by simp), if_neg (by omega), nth_set (by simp), if_pos rfl]
        simp
      · rintro i ⟨uk, acc⟩ h5 hi ⟨g1, g2, g3, g4⟩
        dsimp only at g1 g2 g3 g4 ⊢
        rw [vget_nth (k := i - 1) (by omega) (by omega), ok_bind, fdiv_ok ht0.ne', ok_bind, vset_of (k := i) rfl (by omega), ok_bind]
        have hs : acc + nth segs (i - 1) = ∑ j ∈ range i, nth segs j := by
          rw [g3]
          obtain ⟨k, rfl⟩ : ∃ k, i = k + 1 := ⟨i - 1, by omega⟩
          simp only [Nat.add_sub_cancel]
          rw [Finset.sum_range_succ _ k]
        refine Runs.ok ⟨by simp [g1], ?_, by dsimp only; rw [hs]; rfl, ?_⟩
        · dsimp only
          rw [nth_set (by omega), if_neg (by omega), g2]
        · intro j hj
          dsimp only
          rw [nth_set (by omega)]
          split
          · rename_i hji; rw [hs, hji]
          · exact g4 j (by omega)
      · rintro ⟨uk, acc⟩ ⟨g1, g2, -, g4⟩
        exact ⟨g1, g2, g4⟩
    · rintro ⟨uk, acc⟩ ⟨g1, g2, g4⟩
      dsimp only at g1 g2 g4 ⊢
      have hval : ∀ i, i ≤ L → nth uk i = (∑ j ∈ range i, nth segs j) / total := by
        intro i hi
        rcases Nat.lt_or_ge i L with h | h
        · exact g4 i h
        · have : i = L := by omega
          rw [this, g2, ← ht, div_self ht0.ne']
      refine Runs.ok ⟨g1, by rw [hval 0 (by omega)]; simp, fun _ => g2, ?_, fun _ => hval, fun hc => absurd (hae.mpr hc) h3⟩
      intro i j hij hj
      rw [hval i (by omega), hval j (by omega)]
      apply div_le_div_of_nonneg_right _ ht0.le
      apply Finset.sum_le_sum_of_subset_of_nonneg
      · intro x hx
        simp only [Finset.mem_range] at *
        omega
      · intro x hx _
        simp only [Finset.mem_range] at hx
        exact hpos x (by omega)

theorem segmentLengths_run (pts : List (XYZ ℝ)) (h : pts ≠ []) : Runs (segmentLengths pts) (fun segs => segs.length = pts.length - 1 ∧
    ∀ i, i < segs.length → nth segs i = (nth pts (i + 1)).distance (nth pts i)) := by
  have hl : 0 < pts.length := List.length_pos_iff.mpr h
  unfold segmentLengths
  refine (Runs.forN (m := 1) (n := pts.length) (fun n (segs : List ℝ) => segs.length = n - 1 ∧ ∀ i, i < segs.length → nth segs i = (nth pts (i + 1)).distance (nth pts i))
    rfl rfl (by omega) ⟨rfl, by simp⟩ ?_).mono (fun _ h => h)
  rintro i segs h1 hi ⟨h2, h3⟩
  rw [vget_nth (k := i) rfl hi, ok_bind, vget_nth (k := i - 1) (by omega) (by omega), ok_bind]
  refine Runs.ok ⟨by simp; omega, ?_⟩
  intro j hj
  simp only [List.length_append, List.length_singleton] at hj
  rcases Nat.lt_or_ge j segs.length with h4 | h4
  · rw [nth_append_left h4, h3 j h4]
  · have : j = segs.length := by omega
    subst this
    rw [nth_append_right (le_refl _), Nat.sub_self]
    have e : segs.length + 1 = i := by omega
    rw [e, show segs.length = i - 1 by omega]
    rfl

/-- C46: `GetChordParameterization` returns, for every sequence of at least two points (repeated points included), as many
parameters as points, from 0 to 1 and nondecreasing; unless the whole polyline is shorter than the tolerance, the parameter of a point
is the length of the polyline up to it divided by the total length. -/
theorem C46_chord (pts : List (XYZ ℝ)) (h : 2 ≤ pts.length) : ∃ uk, getChordParameterization pts = ok uk ∧ uk.length = pts.length ∧
    nth uk 0 = 0 ∧ nth uk (pts.length - 1) = 1 ∧ (∀ i j, i ≤ j → j < pts.length → nth uk i ≤ nth uk j) ∧
    ∀ total, total = ∑ j ∈ range (pts.length - 1), (nth pts (j + 1)).distance (nth pts j) → 1 / 1000000 * (1 + total) < total →
      ∀ i, i < pts.length → nth uk i = (∑ j ∈ range i, (nth pts (j + 1)).distance (nth pts j)) / total := by
  have hne : pts ≠ [] := by rintro rfl; simp at h
  unfold getChordParameterization
  rw [if_neg (by omega)]
  obtain ⟨segs, e, h1, h2⟩ := segmentLengths_run pts hne
  rw [e, ok_bind]
  obtain ⟨uk, e', g1, g2, g3, g4, g5, -⟩ := parameterization_run (segs := segs) (fun i hi => by rw [h2 i hi]; exact distance_nonneg _ _)
  refine ⟨uk, e', by omega, g2, by rw [← h1]; exact g3 (by omega), fun i j hij hj => g4 i j hij (by omega), ?_⟩
  have hsum : ∀ k, k ≤ segs.length → ∑ j ∈ range k, nth segs j = ∑ j ∈ range k, (nth pts (j + 1)).distance (nth pts j) := fun k hk =>
    sum_congr rfl fun j hj => h2 j (by rw [mem_range] at hj; omega)
  rw [hsum _ (le_refl _), h1] at g5
  rintro total rfl hc i hi
  rw [g5 hc i (by omega), hsum i (by omega)]

/-- C46: the same for `GetCentripetalParameterization`, with the square roots of the segment lengths. -/
theorem C46_centripetal (pts : List (XYZ ℝ)) (h : 2 ≤ pts.length) : ∃ uk, getCentripetalParameterization pts = ok uk ∧ uk.length = pts.length ∧
    nth uk 0 = 0 ∧ nth uk (pts.length - 1) = 1 ∧ (∀ i j, i ≤ j → j < pts.length → nth uk i ≤ nth uk j) ∧
    ∀ total, total = ∑ j ∈ range (pts.length - 1), Real.sqrt ((nth pts (j + 1)).distance (nth pts j)) → 1 / 1000000 * (1 + total) < total →
      ∀ i, i < pts.length → nth uk i = (∑ j ∈ range i, Real.sqrt ((nth pts (j + 1)).distance (nth pts j))) / total := by
  have hne : pts ≠ [] := by rintro rfl; simp at h
  unfold getCentripetalParameterization
  rw [if_neg (by omega)]
  obtain ⟨segs, e, h1, h2⟩ := segmentLengths_run pts hne
  rw [e, ok_bind]
  have hnth : ∀ i, i < segs.length → nth (segs.map Real.sqrt) i = Real.sqrt ((nth pts (i + 1)).distance (nth pts i)) := fun i hi => by
    rw [nth_eq_getElem (by simpa using hi), List.getElem_map, ← h2 i hi, nth_eq_getElem hi]
  obtain ⟨uk, e', g1, g2, g3, g4, g5, -⟩ := parameterization_run (segs := segs.map Real.sqrt) (fun i hi => by
    rw [nth_eq_getElem hi, List.getElem_map]; exact Real.sqrt_nonneg _)
  simp only [List.length_map] at g1 g3 g5
  refine ⟨uk, e', by omega, g2, by rw [← h1]; exact g3 (by omega), fun i j hij hj => g4 i j hij (by omega), ?_⟩
  have hsum : ∀ k, k ≤ segs.length → ∑ j ∈ range k, nth (segs.map Real.sqrt) j = ∑ j ∈ range k, Real.sqrt ((nth pts (j + 1)).distance (nth pts j)) := fun k hk =>
    sum_congr rfl fun j hj => hnth j (by rw [mem_range] at hj; omega)
  rw [hsum _ (le_refl _), h1] at g5
  rintro total rfl hc i hi
  rw [g5 hc i (by omega), hsum i (by omega)]

/-- C46 on concrete segment lengths -/
example : parameterization ([1, 0, 2, 1] : List ℚ) = ok [0, 1/4, 1/4, 3/4, 1] := by decide +kernel

/-! ## C46: averaged knots -/

/-- sum of a window of parameters -/
def windowSum (params : List K) (p j : ℕ) : K := ∑ i ∈ range p, nth params (j + i)

/-- `AverageKnotVector` computes the averages of `p` consecutive parameters (The NURBS Book, eq. 9.8). -/
theorem averageKnotVector_run {params : List K} {p n : ℕ} (hp : 0 < p) (hpn : p ≤ n) (hl : params.length = n + 1) :
    Runs (averageKnotVector p params) (fun kv => kv.length = n + p + 2 ∧ (∀ i, i ≤ p → nth kv i = 0) ∧
      (∀ i, n + 1 ≤ i → i ≤ n + p + 1 → nth kv i = 1) ∧ ∀ j, 1 ≤ j → j + p ≤ n → nth kv (p + j) = windowSum params p j / p) := by
  unfold averageKnotVector
  dsimp only
  have hn : ((params.length : ℤ) - 1) = n := by omega
  rw [hn]
  have hp0 : ((p : ℤ) : K) ≠ 0 := by
    have : (p : K) ≠ 0 := Nat.cast_ne_zero.mpr (by omega)
    exact_mod_cast this
  have hm : (((n : ℤ) + p + 1 + 1).toNat) = n + p + 2 := by omega
  rw [hm]
  refine Runs.bind (Q := fun kv : List K => kv.length = n + p + 2 ∧ ∀ i, nth kv i = if n + 1 ≤ i ∧ i < n + p + 2 then 1 else 0) ?_ ?_
  · refine (Runs.forN (m := n + 1) (n := n + p + 2) (fun k (kv : List K) => kv.length = n + p + 2 ∧ ∀ i, nth kv i = if n + 1 ≤ i ∧ i < k then 1 else 0)
      (by push_cast; ring) (by push_cast; ring) (by omega) ⟨by simp, ?_⟩ ?_).mono (fun _ h => h)
    · intro i
      rw [if_neg (by omega), nth_replicate_zero]
    · rintro i kv h1 hi ⟨h2, h3⟩
      rw [vset_of (k := i) rfl (by omega)]
      refine Runs.ok ⟨by simp [h2], ?_⟩
      intro j
      rw [nth_set (by omega)]
      split
      · rename_i h; rw [if_pos (by omega)]
      · rw [h3 j]
        by_cases hc : n + 1 ≤ j ∧ j < i
        · rw [if_pos hc, if_pos (by omega)]
        · rw [if_neg hc, if_neg (by omega)]
  · rintro kv ⟨h1, h2⟩
    split
    · rename_i hle
      have : n = p := by omega
      subst this
      refine Runs.ok ⟨h1, fun i hi => by rw [h2, if_neg (by omega)], fun i h3 h4 => by rw [h2, if_pos (by omega)], fun j h3 h4 => by omega⟩
    · rename_i hlt
      have hlt' : p < n := by omega
      refine Runs.bind (Q := fun s : K => s = windowSum params p 1) ?_ ?_
      · refine (Runs.forN (m := 1) (n := p + 1) (fun k (s : K) => s = ∑ i ∈ range (k - 1), nth params (1 + i)) rfl (by push_cast; ring) (by omega) (by simp) ?_).mono ?_
        · rintro i s h3 hi rfl
          rw [vget_nth (k := i) rfl (by omega), ok_bind]
          refine Runs.ok ?_
          obtain ⟨k, rfl⟩ : ∃ k, i = k + 1 := ⟨i - 1, by omega⟩
          simp only [Nat.add_sub_cancel]
          rw [Finset.sum_range_succ _ k, Nat.add_comm k 1]
        · rintro s rfl; rfl
      · rintro s rfl
        rw [fdiv_ok hp0, ok_bind, vset_of (k := p + 1) (by push_cast; ring) (by omega), ok_bind]
        refine Runs.bind (Q := fun st : List K × K => st.1.length = n + p + 2 ∧ ∀ i, nth st.1 i = if p + 1 ≤ i ∧ i ≤ n then windowSum params p (i - p) / p else
            if n + 1 ≤ i ∧ i < n + p + 2 then 1 else 0) ?_ ?_
        · refine (Runs.forN (m := 2) (n := n - p + 1) (fun k (st : List K × K) => st.1.length = n + p + 2 ∧ st.2 = windowSum params p (k - 1) ∧
            ∀ i, nth st.1 i = if p + 1 ≤ i ∧ i < p + k then windowSum params p (i - p) / p else
            if n + 1 ≤ i ∧ i < n + p + 2 then 1 else 0) rfl (by omega) (by omega) ?_ ?_).mono ?_
          · refine ⟨by simp [h1], rfl, ?_⟩
            intro i
            dsimp only
            rw [nth_set (by omega), h2 i]
            by_cases hi : i = p + 1
            · rw [if_pos hi, if_pos (by omega), hi, Nat.add_sub_cancel_left]
              push_cast; rfl
            · rw [if_neg hi]
              have hn : ¬ (p + 1 ≤ i ∧ i < p + 2) := by omega
              rw [if_neg hn]
          · rintro j ⟨kv', s⟩ h3 hj ⟨g1, g2, g3⟩
            dsimp only at g1 g2 g3 ⊢
            rw [vget_nth (k := j - 1) (by omega) (by omega), ok_bind, vget_nth (k := j + p - 1) (by omega) (by omega), ok_bind, fdiv_ok hp0, ok_bind,
              vset_of (k := p + j) (by push_cast; ring) (by omega), ok_bind]
            have hs : s - nth params (j - 1) + nth params (j + p - 1) = windowSum params p j := by
              rw [g2]
              unfold windowSum
              obtain ⟨q, rfl⟩ : ∃ q, p = q + 1 := ⟨p - 1, by omega⟩
              obtain ⟨k, rfl⟩ : ∃ k, j = k + 1 := ⟨j - 1, by omega⟩
              rw [Finset.sum_range_succ' _ q, Finset.sum_range_succ _ q]
              simp only [Nat.add_sub_cancel, Nat.add_zero]
              have e1 : k + 1 + (q + 1) - 1 = k + 1 + q := by omega
              have e2 : ∑ i ∈ range q, nth params (k + (i + 1)) = ∑ i ∈ range q, nth params (k + 1 + i) :=
                Finset.sum_congr rfl fun i _ => by rw [show k + (i + 1) = k + 1 + i by omega]
              rw [e1, e2]
              ring
            refine Runs.ok ⟨by simp [g1], by dsimp only; rw [hs]; rfl, ?_⟩
            intro i
            dsimp only
            rw [nth_set (by omega), g3 i, hs]
            by_cases hi : i = p + j
            · rw [if_pos hi, if_pos (by omega), hi, Nat.add_sub_cancel_left]
              push_cast; rfl
            · rw [if_neg hi]
              have hiff : (p + 1 ≤ i ∧ i < p + (j + 1)) ↔ (p + 1 ≤ i ∧ i < p + j) := by omega
              simp only [hiff]
          · rintro ⟨kv', s⟩ ⟨g1, -, g3⟩
            refine ⟨g1, fun i => ?_⟩
            rw [g3 i]
            have : (p + 1 ≤ i ∧ i < p + (n - p + 1)) ↔ (p + 1 ≤ i ∧ i ≤ n) := by omega
            simp only [this]
        · rintro ⟨kv', s⟩ ⟨g1, g3⟩
          dsimp only at g1 g3 ⊢
          refine Runs.ok ⟨g1, ?_, ?_, ?_⟩
          · intro i hi; rw [g3 i, if_neg (by omega), if_neg (by omega)]
          · intro i h3 h4; rw [g3 i, if_neg (by omega), if_pos (by omega)]
          · intro j h3 h4; rw [g3 _, if_pos (by omega), Nat.add_sub_cancel_left]

/-- C46: for nondecreasing parameters between 0 and 1 and `1 ≤ p ≤ n`, `AverageKnotVector` returns a nondecreasing clamped knot
vector with `n + p + 2` knots: `p+1` zeros, averages of `p` consecutive parameters, `p+1` ones. -/
theorem C46_average_partial {params : List K} {p n : ℕ} (hp : 0 < p) (hpn : p ≤ n) (hl : params.length = n + 1)
    (h0 : nth params 0 = 0) (h1 : nth params n = 1) (hmono : ∀ i j, i ≤ j → j ≤ n → nth params i ≤ nth params j) :
    ∃ kv, averageKnotVector p params = ok kv ∧ kv.length = n + p + 2 ∧ (∀ i, i ≤ p → nth kv i = 0) ∧
      (∀ i, n + 1 ≤ i → i ≤ n + p + 1 → nth kv i = 1) ∧ (∀ j, 1 ≤ j → j + p ≤ n → nth kv (p + j) = (∑ i ∈ range p, nth params (j + i)) / p) ∧
      ∀ i j, i ≤ j → j < kv.length → nth kv i ≤ nth kv j := by
  obtain ⟨kv, e, g1, g2, g3, g4⟩ := averageKnotVector_run hp hpn hl
  refine ⟨kv, e, g1, g2, g3, g4, ?_⟩
  have hpK : (0 : K) < p := Nat.cast_pos.mpr hp
  have hlo : ∀ j, 1 ≤ j → j + p ≤ n → 0 ≤ nth kv (p + j) := by
    intro j hj1 hj2
    rw [g4 j hj1 hj2]
    apply div_nonneg _ hpK.le
    apply Finset.sum_nonneg
    intro i hi
    rw [← h0]
    exact hmono _ _ (by omega) (by have := Finset.mem_range.mp hi; omega)
  have hhi : ∀ j, 1 ≤ j → j + p ≤ n → nth kv (p + j) ≤ 1 := by
    intro j hj1 hj2
    rw [g4 j hj1 hj2, div_le_one hpK]
    calc windowSum params p j ≤ ∑ i ∈ range p, (1 : K) := by
          apply Finset.sum_le_sum
          intro i hi
          rw [← h1]
          exact hmono _ _ (by have := Finset.mem_range.mp hi; omega) (le_refl _)
      _ = p := by simp
  intro i j hij hj
  rcases Nat.lt_or_ge p j with hj1 | hj1
  · rcases Nat.lt_or_ge n j with hj2 | hj2
    · rw [g3 j (by omega) (by omega)]
      rcases Nat.lt_or_ge p i with hi1 | hi1
      · rcases Nat.lt_or_ge n i with hi2 | hi2
        · rw [g3 i (by omega) (by omega)]
        · have := hhi (i - p) (by omega) (by omega)
          rwa [show p + (i - p) = i by omega] at this
      · rw [g2 i hi1]; exact zero_le_one
    · rcases Nat.lt_or_ge p i with hi1 | hi1
      · have e1 := g4 (i - p) (by omega) (by omega)
        have e2 := g4 (j - p) (by omega) (by omega)
        rw [show p + (i - p) = i by omega] at e1
        rw [show p + (j - p) = j by omega] at e2
        rw [e1, e2]
        apply div_le_div_of_nonneg_right _ hpK.le
        apply Finset.sum_le_sum
        intro k hk
        exact hmono _ _ (by omega) (by have := Finset.mem_range.mp hk; omega)
      · rw [g2 i hi1]
        have := hlo (j - p) (by omega) (by omega)
        rwa [show p + (j - p) = j by omega] at this
  · rw [g2 i (by omega), g2 j hj1]

/-- C46 is not vacuous -/
example : averageKnotVector 2 ([0, 1/4, 1/2, 3/4, 1] : List ℚ) = ok [0, 0, 0, 3/8, 5/8, 1, 1, 1] := by decide +kernel

/-- C46 (violated): `AverageKnotVector` divides by the degree, so degree 0 (which `GlobalInterpolation` accepts) with at least two
parameters gives an invalid division. -/
theorem C46_degree_zero_nonfinite {params : List K} (h : 2 ≤ params.length) : averageKnotVector 0 params = nonfinite := by
  unfold averageKnotVector
  dsimp only
  rw [forI_head (by omega), vset_of (k := params.length) (by omega) (by simp), ok_bind, forI_empty (by omega), ok_bind, if_neg (by omega),
    forI_empty (by omega), ok_bind]
  simp [fdiv]

/-! ## C74: knots for least squares -/

/-- linear interpolation between neighbouring parameters at position `s` (`1 ≤ s`) -/
theorem lerp_mono [FloorRing K] {params : List K} {m : ℕ} (hmono : ∀ i j, i ≤ j → j ≤ m → nth params i ≤ nth params j) {s s' : K} (h1 : 1 ≤ s)
    (hs : s ≤ s') (hm : s' < m + 1) :
    (1 - (s - (⌊s⌋ : K))) * nth params (⌊s⌋.toNat - 1) + (s - (⌊s⌋ : K)) * nth params ⌊s⌋.toNat ≤
    (1 - (s' - (⌊s'⌋ : K))) * nth params (⌊s'⌋.toNat - 1) + (s' - (⌊s'⌋ : K)) * nth params ⌊s'⌋.toNat := by
  have hf1 : 1 ≤ ⌊s⌋ := Int.le_floor.mpr (by exact_mod_cast h1)
  have hff : ⌊s⌋ ≤ ⌊s'⌋ := Int.floor_le_floor hs
  have hfm : ⌊s'⌋ < (m : ℤ) + 1 := Int.floor_lt.mpr (by push_cast; exact hm)
  have a1 := Int.floor_le s
  have a2 := Int.lt_floor_add_one s
  have b1 := Int.floor_le s'
  have b2 := Int.lt_floor_add_one s'
  obtain ⟨k, hk⟩ := Int.eq_ofNat_of_zero_le (show 0 ≤ ⌊s⌋ by omega)
  obtain ⟨k', hk'⟩ := Int.eq_ofNat_of_zero_le (show 0 ≤ ⌊s'⌋ by omega)
  rw [hk] at a1 a2 hf1 hff ⊢
  rw [hk'] at b1 b2 hfm hff ⊢
  simp only [Int.toNat_natCast] at *
  rcases hff.lt_or_eq with h | h
  · have c1 := hmono (k - 1) k (by omega) (by omega)
    have c2 := hmono k (k' - 1) (by omega) (by omega)
    have c3 := hmono (k' - 1) k' (by omega) (by omega)
    push_cast at *
    have d1 : (1 - (s - (k : K))) * nth params (k - 1) + (s - (k : K)) * nth params k ≤ nth params k := by nlinarith
    have d2 : nth params (k' - 1) ≤ (1 - (s' - (k' : K))) * nth params (k' - 1) + (s' - (k' : K)) * nth params k' := by nlinarith
    linarith
  · have : k = k' := by omega
    subst this
    have c1 := hmono (k - 1) k (by omega) (by omega)
    nlinarith

/-- C74: for nondecreasing parameters `0 = u_0 ≤ … ≤ u_m = 1`, `1 ≤ p`, at least `p+1` control points and no more inner knots than
parameters (`n - p ≤ m`), `ComputeKnotVector` returns a nondecreasing clamped knot vector of length `n + p + 2`. -/
theorem C74_compute_knots [FloorRing K] {params : List K} {p n m : ℕ} (hp : 0 < p) (hpn : p ≤ n) (hl : params.length = m + 1) (hm : n ≤ m + p)
    (h0 : nth params 0 = 0) (h1 : nth params m = 1) (hmono : ∀ i j, i ≤ j → j ≤ m → nth params i ≤ nth params j) :
    ∃ kv, computeKnotVector p ((n : ℤ) + 1) params = ok kv ∧ kv.length = n + p + 2 ∧ (∀ i, i ≤ p → nth kv i = 0) ∧
      (∀ i, n + 1 ≤ i → i ≤ n + p + 1 → nth kv i = 1) ∧ ∀ i j, i ≤ j → j < kv.length → nth kv i ≤ nth kv j := by
  have hN : (0 : K) < ((n - p + 1 : ℕ) : K) := Nat.cast_pos.mpr (by omega)
  set d : K := ((m + 1 : ℕ) : K) / ((n - p + 1 : ℕ) : K) with hd
  have hd1 : 1 ≤ d := by
    rw [hd, one_le_div hN]
    exact_mod_cast (by omega : n - p + 1 ≤ m + 1)
  set f : ℕ → K := fun j => (1 - ((j : K) * d - (⌊(j : K) * d⌋ : K))) * nth params (⌊(j : K) * d⌋.toNat - 1) +
    ((j : K) * d - (⌊(j : K) * d⌋ : K)) * nth params ⌊(j : K) * d⌋.toNat with hf
  have hjd : ∀ j : ℕ, 1 ≤ j → j ≤ n - p → 1 ≤ (j : K) * d ∧ (j : K) * d < (m : K) + 1 := by
    intro j hj1 hj2
    have hjK : (1 : K) ≤ j := by exact_mod_cast hj1
    refine ⟨by nlinarith, ?_⟩
    have : (j : K) < ((n - p + 1 : ℕ) : K) := by exact_mod_cast (by omega : j < n - p + 1)
    have hd0 : 0 < d := by linarith
    calc (j : K) * d < ((n - p + 1 : ℕ) : K) * d := mul_lt_mul_of_pos_right this hd0
      _ = (m : K) + 1 := by rw [hd, mul_div_cancel₀ _ hN.ne']; push_cast; ring
  have hfloor : ∀ j : ℕ, 1 ≤ j → j ≤ n - p → ∃ k : ℕ, ⌊(j : K) * d⌋ = k ∧ 1 ≤ k ∧ k ≤ m := by
    intro j hj1 hj2
    obtain ⟨a, b⟩ := hjd j hj1 hj2
    have c1 : 1 ≤ ⌊(j : K) * d⌋ := Int.le_floor.mpr (by exact_mod_cast a)
    have c2 : ⌊(j : K) * d⌋ < (m : ℤ) + 1 := Int.floor_lt.mpr (by push_cast; exact b)
    obtain ⟨k, hk⟩ := Int.eq_ofNat_of_zero_le (show 0 ≤ ⌊(j : K) * d⌋ by omega)
    exact ⟨k, hk, by omega, by omega⟩
  have hrun : Runs (computeKnotVector p ((n : ℤ) + 1) params) (fun kv => kv.length = n + p + 2 ∧
      ∀ i, nth kv i = if i ≤ p then 0 else if n + 1 ≤ i ∧ i < n + p + 2 then 1 else if i ≤ n then f (i - p) else 0) := by
    unfold computeKnotVector
    dsimp only
    have e1 : ((((params.length : ℤ) - 1 + 1 : ℤ)) : K) = ((m + 1 : ℕ) : K) := by rw [hl]; push_cast; ring
    have e2 : (((n : ℤ) + 1 - 1 - p + 1 : ℤ) : K) = ((n - p + 1 : ℕ) : K) := by
      rw [show ((n : ℤ) + 1 - 1 - p + 1 : ℤ) = ((n - p + 1 : ℕ) : ℤ) by omega]; push_cast; rfl
    rw [e1, e2, fdiv_ok hN.ne', ok_bind, show ((n : ℤ) + 1 - 1 + p + 2).toNat = n + p + 2 by omega]
    refine Runs.bind (Q := fun kv : List K => kv.length = n + p + 2 ∧ ∀ i, nth kv i = if p + 1 ≤ i ∧ i ≤ n then f (i - p) else 0) ?_ ?_
    · refine (Runs.forN (m := 1) (n := n - p + 1) (fun k (kv : List K) => kv.length = n + p + 2 ∧ ∀ i, nth kv i = if p + 1 ≤ i ∧ i < p + k then f (i - p) else 0)
        rfl (by omega) (by omega) ⟨by simp, ?_⟩ ?_).mono ?_
      · intro i; rw [if_neg (by omega), nth_replicate_zero]
      · rintro j kv hj1 hj ⟨g1, g2⟩
        obtain ⟨k, hk, k1, k2⟩ := hfloor j hj1 (by omega)
        have hfj : f j = (1 - ((j : K) * d - (k : K))) * nth params (k - 1) + ((j : K) * d - (k : K)) * nth params k := by
          rw [hf]; dsimp only; rw [hk]; simp
        simp only [Int.cast_natCast]
        rw [← hd, hk, vget_nth (k := k - 1) (by omega) (by omega), ok_bind, vget_nth (k := k) rfl (by omega), ok_bind, vset_of (k := p + j) (by push_cast; ring) (by omega)]
        refine Runs.ok ⟨by simp [g1], ?_⟩
        intro i
        rw [nth_set (by omega), g2 i]
        by_cases hi : i = p + j
        · rw [if_pos hi, if_pos (by omega), hi, Nat.add_sub_cancel_left, hfj]
          simp
        · rw [if_neg hi]
          by_cases hc : p + 1 ≤ i ∧ i < p + j
          · rw [if_pos hc, if_pos (by omega)]
          · rw [if_neg hc, if_neg (by omega)]
      · rintro kv ⟨g1, g2⟩
        refine ⟨g1, fun i => ?_⟩
        rw [g2 i]
        have : (p + 1 ≤ i ∧ i < p + (n - p + 1)) ↔ (p + 1 ≤ i ∧ i ≤ n) := by omega
        simp only [this]
    · rintro kv ⟨g1, g2⟩
      refine (Runs.forN (m := 0) (n := n + p + 2) (fun k (kv' : List K) => kv'.length = n + p + 2 ∧
        ∀ i, nth kv' i = if i < k then (if i ≤ p then 0 else if n + 1 ≤ i ∧ i < n + p + 2 then 1 else nth kv i) else nth kv i) rfl (by push_cast; ring) (by omega) ⟨g1, by intro i; rw [if_neg (by omega)]⟩ ?_).mono ?_
      · rintro i kv' - hi ⟨q1, q2⟩
        split
        · rename_i hle
          rw [vset_of (k := i) rfl (by omega)]
          refine Runs.ok ⟨by simp [q1], ?_⟩
          intro j
          rw [nth_set (by omega), q2 j]
          split_ifs <;> first | rfl | omega
        · rename_i hle
          split
          · rename_i hge
            rw [vset_of (k := i) rfl (by omega)]
            refine Runs.ok ⟨by simp [q1], ?_⟩
            intro j
            rw [nth_set (by omega), q2 j]
            split_ifs <;> first | rfl | omega
          · rename_i hge
            refine Runs.ok ⟨q1, ?_⟩
            intro j
            rw [q2 j]
            split_ifs <;> first | rfl | omega
      · rintro kv' ⟨q1, q2⟩
        refine ⟨q1, fun i => ?_⟩
        rw [q2 i, g2 i]
        split_ifs <;> first | rfl | omega
  obtain ⟨kv, e, g1, g2⟩ := hrun
  refine ⟨kv, e, g1, fun i hi => by rw [g2, if_pos hi], fun i hi hi' => by rw [g2, if_neg (by omega), if_pos (by omega)], ?_⟩
  have hbound : ∀ j : ℕ, 1 ≤ j → j ≤ n - p → 0 ≤ f j ∧ f j ≤ 1 := by
    intro j hj1 hj2
    obtain ⟨k, hk, k1, k2⟩ := hfloor j hj1 hj2
    have hfj : f j = (1 - ((j : K) * d - (k : K))) * nth params (k - 1) + ((j : K) * d - (k : K)) * nth params k := by
      rw [hf]; dsimp only; rw [hk]; simp
    have a1 := Int.floor_le ((j : K) * d)
    have a2 := Int.lt_floor_add_one ((j : K) * d)
    rw [hk] at a1 a2
    push_cast at a1 a2
    have c1 := hmono 0 (k - 1) (by omega) (by omega)
    have c2 := hmono (k - 1) k (by omega) k2
    have c3 := hmono k m k2 (le_refl _)
    rw [h0] at c1
    rw [h1] at c3
    rw [hfj]
    constructor
    · have := mul_nonneg (by linarith : 0 ≤ 1 - ((j : K) * d - (k : K))) c1
      have := mul_nonneg (by linarith : 0 ≤ (j : K) * d - (k : K)) (c1.trans c2)
      linarith
    · have b1 := mul_le_mul_of_nonneg_left (c2.trans c3) (by linarith : 0 ≤ 1 - ((j : K) * d - (k : K)))
      have b2 := mul_le_mul_of_nonneg_left c3 (by linarith : 0 ≤ (j : K) * d - (k : K))
      linarith
  intro i j hij hj
  rw [g2 i, g2 j]
  by_cases a1 : i ≤ p
  · rw [if_pos a1]
    by_cases b1 : j ≤ p
    · rw [if_pos b1]
    · rw [if_neg b1]
      by_cases b2 : n + 1 ≤ j ∧ j < n + p + 2
      · rw [if_pos b2]; exact zero_le_one
      · rw [if_neg b2, if_pos (by omega)]
        exact (hbound _ (by omega) (by omega)).1
  · have b1 : ¬ j ≤ p := by omega
    rw [if_neg a1, if_neg b1]
    by_cases b2 : n + 1 ≤ j ∧ j < n + p + 2
    · rw [if_pos b2]
      by_cases a2 : n + 1 ≤ i ∧ i < n + p + 2
      · rw [if_pos a2]
      · rw [if_neg a2, if_pos (by omega)]
        exact (hbound _ (by omega) (by omega)).2
    · have a2 : ¬ (n + 1 ≤ i ∧ i < n + p + 2) := by omega
      have a3 : i ≤ n := by omega
      have b3 : j ≤ n := by omega
      rw [if_neg b2, if_neg a2, if_pos a3, if_pos b3]
      obtain ⟨x1, x2⟩ := hjd (i - p) (by omega) (by omega)
      obtain ⟨y1, y2⟩ := hjd (j - p) (by omega) (by omega)
      refine lerp_mono hmono x1 ?_ y2
      apply mul_le_mul_of_nonneg_right _ (by linarith)
      exact_mod_cast (by omega : i - p ≤ j - p)

/-- C74 is not vacuous -/
example : computeKnotVector 2 5 ([0, 1/8, 1/4, 1/2, 3/4, 7/8, 1] : List ℚ) = ok [0, 0, 0, 1/6, 2/3, 1, 1, 1] := by decide +kernel


/-! ## C73: global interpolation -/

/-- the matrix of the interpolation system holds the B-spline basis functions at the parameters -/
theorem interpolationMatrix_run {kv params : List K} {p n : ℕ} (hp : 0 < p) (hp7 : p ≤ 7) (hpn : p ≤ n) (hl : params.length = n + 1)
    (hk : kv.length = n + p + 2) (hz : ∀ i, i ≤ p → nth kv i = 0) (ho : ∀ i, n + 1 ≤ i → i ≤ n + p + 1 → nth kv i = 1)
    (hsort : ∀ i j, i ≤ j → j < kv.length → nth kv i ≤ nth kv j) (he : EndsSeparated (nth kv) p n)
    (h0 : nth params 0 = 0) (h1 : nth params n = 1) (hmono : ∀ i j, i ≤ j → j ≤ n → nth params i ≤ nth params j) :
    Runs (interpolationMatrix p (n + 1) kv params) (fun A => IsMat A (n + 1) (n + 1) ∧
      ∀ i j, i ≤ n → j ≤ n → ent A i j = N (nth kv) (nth kv (n + 1)) p j (nth params i)) := by
  have hm : MonoTo (nth kv) (n + p + 1) := fun i j h h' => hsort i j h (by omega)
  have hspan : ∀ i, i ≤ n → ∃ s : ℕ, getKnotSpanIndex p kv (nth params i) = ok (s : ℤ) ∧ IsSpan (nth kv) p n (nth params i) s := by
    intro i hi
    apply getKnotSpanIndex_isSpan hk hpn hsort he
    · rw [hz p (le_refl _), ← h0]; exact hmono 0 i (by omega) hi
    · rw [ho (n + 1) (le_refl _) (by omega), ← h1]; exact hmono i n hi (le_refl _)
  have hpos1 : nth kv p < nth kv (p + 1) := by
    have := he.first
    have h2 : 0 ≤ max |nth kv p| |nth kv (p + 1)| := le_max_of_le_left (abs_nonneg _)
    nlinarith
  have hpos2 : nth kv n < nth kv (n + 1) := by
    have := he.last
    have h2 : 0 ≤ max |nth kv n| |nth kv (n + 1)| := le_max_of_le_left (abs_nonneg _)
    nlinarith
  have hs0 : IsSpan (nth kv) p n (nth params 0) p := ⟨le_refl _, hpn, hpos1, by rw [h0, hz p (le_refl _)], Or.inl (by rw [h0, ← hz p (le_refl _)]; exact hpos1)⟩
  have hsn : IsSpan (nth kv) p n (nth params n) n :=
    ⟨hpn, le_refl _, hpos2, by rw [h1, ← ho (n + 1) (le_refl _) (by omega)]; exact hpos2.le, Or.inr ⟨by rw [h1, ho (n + 1) (le_refl _) (by omega)], rfl⟩⟩
  have hN0 : ∀ j, j ≤ n → N (nth kv) (nth kv (n + 1)) p j (nth params 0) = if j = 0 then 1 else 0 := by
    intro j hj
    rw [N_eq_Nspan hm (by omega) hs0 p j (by omega), h0, ← hz p (le_refl _), Nspan_start (fun i _ hi => by rw [hz i hi, hz p (le_refl _)]) hpos1 p (le_refl _) j,
      Nat.sub_self, hz p (le_refl _)]
  have hNn : ∀ j, j ≤ n → N (nth kv) (nth kv (n + 1)) p j (nth params n) = if j = n then 1 else 0 := by
    intro j hj
    rw [N_eq_Nspan hm (by omega) hsn p j (by omega), h1, ← ho (n + 1) (le_refl _) (by omega),
      Nspan_end (p := p) (fun i h2 h3 => by rw [ho i h2 (by omega), ho (n + 1) (le_refl _) (by omega)]) hpos2 p (le_refl _) j, ho (n + 1) (le_refl _) (by omega)]
  unfold interpolationMatrix
  dsimp only
  refine Runs.bind (Q := fun A : List (List K) => IsMat A (n + 1) (n + 1) ∧
      ∀ i j, j ≤ n → ent A i j = if 1 ≤ i ∧ i < n then N (nth kv) (nth kv (n + 1)) p j (nth params i) else 0) ?_ ?_
  · refine (Runs.forN (m := 1) (n := n) (fun k (A : List (List K)) => IsMat A (n + 1) (n + 1) ∧
      ∀ i j, j ≤ n → ent A i j = if 1 ≤ i ∧ i < k then N (nth kv) (nth kv (n + 1)) p j (nth params i) else 0)
      rfl (by push_cast; ring) (by omega) ⟨isMat_replicate, ?_⟩ ?_).mono (fun _ h => h)
    · intro i j _
      rw [if_neg (by omega), ent_replicate_zero]
    · rintro i A hi1 hi ⟨g1, g2⟩
      obtain ⟨s, es, hs⟩ := hspan i (by omega)
      have a1 := hs.1
      have a2 := hs.2.1
      rw [vget_nth (k := i) rfl (by omega), ok_bind, es, ok_bind]
      have b0 : nth kv 0 ≤ nth params i := by rw [hz 0 (by omega), ← h0]; exact hmono _ _ (by omega) (by omega)
      have b1 : nth params i ≤ nth kv (kv.length - 1) := by
        rw [hk, show n + p + 2 - 1 = n + p + 1 by omega, ho _ (by omega) (le_refl _), ← h1]; exact hmono _ _ (by omega) (by omega)
      have heps := doubleEps_pos (K := K)
      obtain ⟨out, eo, -, ho'⟩ := basisFunctions_span (U := kv) (s := s) (p := p) (t := nth params i) (out := uninit K 8) hp7 a1 (by omega) (by omega)
        (by simp [uninit]; omega) (isValidKnotVector_nth.mpr hsort) hs.2.2.1 (by linarith) (by linarith)
      rw [eo, ok_bind]
      refine (Runs.forN (m := 0) (n := p + 1) (fun r (B : List (List K)) => IsMat B (n + 1) (n + 1) ∧
        ∀ a b, b ≤ n → ent B a b = if a = i ∧ s - p ≤ b ∧ b < s - p + r then Nspan (nth kv) s p b (nth params i) else ent A a b)
        rfl (by push_cast; ring) (by omega) ⟨g1, by intro a b _; rw [if_neg (by omega)]⟩ ?_).mono ?_
      · rintro r B - hr ⟨q1, q2⟩
        rw [ho' r (by omega), ok_bind]
        obtain ⟨B', eB, q3, q4⟩ := mset_ok q1 (i := (i : ℤ)) (j := (s : ℤ) - p + r) (a := i) (b := s - p + r) (x := Nspan (nth kv) s p (s - p + r) (nth params i))
          rfl (by omega) (by omega) (by omega)
        refine ⟨B', eB, q3, ?_⟩
        intro a b hb
        rw [q4 a b, q2 a b hb]
        by_cases hc : a = i ∧ b = s - p + r
        · rw [if_pos hc, if_pos (by omega), hc.2]
        · rw [if_neg hc]
          have : (a = i ∧ s - p ≤ b ∧ b < s - p + (r + 1)) ↔ (a = i ∧ s - p ≤ b ∧ b < s - p + r) := by omega
          simp only [this]
      · rintro B ⟨q1, q2⟩
        refine ⟨q1, ?_⟩
        intro a b hb
        rw [q2 a b hb]
        by_cases ha : a = i
        · subst ha
          rw [g2 a b hb, N_eq_Nspan hm (by omega) hs p b (by omega)]
          have c1 : ¬ (1 ≤ a ∧ a < a) := by omega
          have c2 : 1 ≤ a ∧ a < a + 1 := by omega
          rw [if_neg c1, if_pos c2]
          by_cases hc : s - p ≤ b ∧ b < s - p + (p + 1)
          · rw [if_pos ⟨rfl, hc⟩]
          · rw [if_neg (fun h => hc h.2), Nspan_zero _ _ _ _ _ (by omega)]
        · rw [if_neg (fun h => ha h.1), g2 a b hb]
          have : (1 ≤ a ∧ a < i + 1) ↔ (1 ≤ a ∧ a < i) := by omega
          simp only [this]
  · rintro A ⟨g1, g2⟩
    obtain ⟨B, eB, q1, q2⟩ := mset_ok g1 (i := 0) (j := 0) (a := 0) (b := 0) (x := (1 : K)) rfl rfl (by omega) (by omega)
    rw [eB, ok_bind]
    obtain ⟨C, eC, r1, r2⟩ := mset_ok q1 (i := ((n + 1 : ℕ) : ℤ) - 1) (j := ((n + 1 : ℕ) : ℤ) - 1) (a := n) (b := n) (x := (1 : K)) (by omega) (by omega) (by omega) (by omega)
    refine ⟨C, eC, r1, ?_⟩
    intro i j hi hj
    rw [r2 i j, q2 i j, g2 i j hj]
    by_cases hin : i = n
    · subst hin
      rw [hNn j hj]
      split_ifs <;> first | rfl | omega
    · by_cases hi0 : i = 0
      · subst hi0
        rw [hN0 j hj]
        split_ifs <;> first | rfl | omega
      · split_ifs <;> first | rfl | omega

/-- what global interpolation returns: averaged knots, unit weights, and control points that solve the collocation equations -/
theorem interp_run {solve : List (List K) → List (List K) → Res (List (List K))} {p n : ℕ} {pts : List (XYZ K)} {params : List K}
    {c : NurbsCurve K} (hsolve : SoundSolver solve)
    (hp : 0 < p) (hpn : p ≤ n) (hpts : pts.length = n + 1)
    (h0 : nth params 0 = 0) (h1 : nth params n = 1) (hmono : ∀ i j, i ≤ j → j ≤ n → nth params i ≤ nth params j)
    (hc : globalInterpolation solve p pts params = ok c) (he : EndsSeparated (nth c.knots) p n) :
    WellFormed c p n ∧ averageKnotVector p params = ok c.knots ∧
      (∀ i, i ≤ p → nth c.knots i = 0) ∧ (∀ i, n + 1 ≤ i → i ≤ n + p + 1 → nth c.knots i = 1) ∧ (∀ i, i ≤ n → (nth c.cps i).w = 1) ∧
      ∀ i, i ≤ n → ∑ j ∈ range (n + 1), N (nth c.knots) (nth c.knots (n + 1)) p j (nth params i) •
        (⟨(nth c.cps j).wx, (nth c.cps j).wy, (nth c.cps j).wz⟩ : XYZ K) = nth pts i := by
  unfold globalInterpolation at hc
  by_cases hp7 : p ≤ 7
  swap
  · rw [show (decide ((p : ℤ) ≥ 0) && decide ((p : ℤ) ≤ nurbsMaxDegree)) = false by simp [nurbsMaxDegree]; omega] at hc
    simp [validate] at hc
  by_cases hl : params.length = pts.length
  swap
  · rw [validate_of (by simp [nurbsMaxDegree]; omega), ok_bind, validate_of (by simp; omega), ok_bind, show decide (params.length = pts.length) = false by simp [hl]] at hc
    simp [validate] at hc
  rw [validate_of (by simp [nurbsMaxDegree]; omega), ok_bind, validate_of (by simp; omega), ok_bind, validate_of (by simp [hl]), ok_bind] at hc
  dsimp only at hc
  obtain ⟨kv, ekv, k1, k2, k3, -, k5⟩ := C46_average_partial (params := params) hp hpn (by omega) h0 h1 hmono
  rw [ekv, ok_bind, hpts] at hc
  have heq : c.knots = kv := by
    cases hA : interpolationMatrix p (n + 1) kv params <;> rw [hA] at hc <;> try (simp at hc)
    rename_i A
    cases hX : solve A (pts.map fun q => [q.x, q.y, q.z]) <;> rw [hX] at hc <;> try (simp at hc)
    rename_i X
    revert hc
    generalize hg : (forI _ _ _ _ : Res (List (XYZW K))) = r
    cases r <;> intro hc <;> simp at hc
    rw [← hc]
  rw [heq] at he
  obtain ⟨A, eA, a1, a2⟩ := interpolationMatrix_run hp hp7 hpn (by omega) k1 k2 k3 k5 he h0 h1 hmono
  rw [eA, ok_bind] at hc
  cases hX : solve A (pts.map fun q => [q.x, q.y, q.z]) <;> rw [hX] at hc <;> try (simp at hc; done)
  rename_i X
  rw [ok_bind] at hc
  have hB : IsMat (pts.map fun q => [q.x, q.y, q.z]) (n + 1) 3 := by
    refine ⟨by simp [hpts], fun i hi => ?_⟩
    have hip : i < pts.length := by omega
    simp [row, hip]
  obtain ⟨x1, x2⟩ := hsolve _ _ _ _ _ a1 hB hX
  have hrun : Runs (forI 0 (X.length : ℤ) (List.replicate (n + 1) (⟨0, 0, 0, 0⟩ : XYZW K)) fun i cps => do
      let x ← mget X i 0
      let y ← mget X i 1
      let z ← mget X i 2
      vset cps i ⟨x * 1, y * 1, z * 1, 1⟩) (fun cps => cps.length = n + 1 ∧ ∀ i, i ≤ n → nth cps i = ⟨ent X i 0, ent X i 1, ent X i 2, 1⟩) := by
    refine (Runs.forN (m := 0) (n := n + 1) (fun k (cps : List (XYZW K)) => cps.length = n + 1 ∧ ∀ i, i < k → nth cps i = ⟨ent X i 0, ent X i 1, ent X i 2, 1⟩)
      rfl (by rw [x1.1]) (by omega) ⟨by simp, by intro i hi; omega⟩ ?_).mono ?_
    · rintro i cps - hi ⟨q1, q2⟩
      rw [mget_ent (a := i) (b := 0) (j := 0) x1 rfl rfl hi (by omega), ok_bind, mget_ent (a := i) (b := 1) (j := 1) x1 rfl rfl hi (by omega), ok_bind,
        mget_ent (a := i) (b := 2) (j := 2) x1 rfl rfl hi (by omega), ok_bind, vset_of (k := i) rfl (by omega)]
      refine Runs.ok ⟨by simp [q1], ?_⟩
      intro j hj
      rw [nth_set (by omega)]
      split
      · rename_i hji; rw [hji]; simp
      · exact q2 j (by omega)
    · rintro cps ⟨q1, q2⟩
      exact ⟨q1, fun i hi => q2 i (by omega)⟩
  obtain ⟨cps, ec, c1, c2⟩ := hrun
  rw [ec, ok_bind] at hc
  have hc' : c = { degree := p, knots := kv, cps := cps } := (Res.ok.inj hc).symm
  have w : WellFormed c p n := by
    rw [hc']
    exact ⟨rfl, hp, hp7, c1, hpn, k1, k5⟩
  have hcp : c.cps = cps := by rw [hc']
  refine ⟨w, by rw [heq]; exact ekv, by rw [heq]; exact k2, by rw [heq]; exact k3, fun i hi => by rw [hcp, c2 i hi], ?_⟩
  intro i hi
  rw [heq, hcp]
  have hrow : row (pts.map fun q => [q.x, q.y, q.z]) i = [(nth pts i).x, (nth pts i).y, (nth pts i).z] := by
    have hip : i < pts.length := by omega
    simp [row, hip, nth_eq_getElem hip]
  have comp : ∀ d, d < 3 → ∑ j ∈ range (n + 1), N (nth kv) (nth kv (n + 1)) p j (nth params i) * ent X j d = nth [(nth pts i).x, (nth pts i).y, (nth pts i).z] d := by
    intro d hd
    rw [← hrow, ← ent, ← x2 i d (by omega) hd]
    refine Finset.sum_congr rfl fun j hj => ?_
    rw [a2 i j hi (by have := Finset.mem_range.mp hj; omega)]
  ext
  · rw [XYZ.sum_x]
    refine (Finset.sum_congr rfl fun j hj => ?_).trans (comp 0 (by omega))
    rw [c2 j (by have := Finset.mem_range.mp hj; omega)]
  · rw [XYZ.sum_y]
    refine (Finset.sum_congr rfl fun j hj => ?_).trans (comp 1 (by omega))
    rw [c2 j (by have := Finset.mem_range.mp hj; omega)]
  · rw [XYZ.sum_z]
    refine (Finset.sum_congr rfl fun j hj => ?_).trans (comp 2 (by omega))
    rw [c2 j (by have := Finset.mem_range.mp hj; omega)]

/-- C73: `GlobalInterpolation` of degree `1 ≤ p ≤ 7` through `n + 1 > p` points with nondecreasing parameters from 0 to 1: if the
linear solver (Eigen, not modelled) only returns solutions of the system it is given, then every curve returned is a valid clamped
curve that passes through the `i`-th point at the `i`-th parameter, for every `i`. The only separation needed is that the first
and the last averaged knot are not within tolerance of 0 and 1. -/
theorem C73_interpolates {solve : List (List K) → List (List K) → Res (List (List K))} {p n : ℕ} {pts : List (XYZ K)} {params : List K}
    {c : NurbsCurve K} (hsolve : SoundSolver solve)
    (hp : 0 < p) (hpn : p ≤ n) (hpts : pts.length = n + 1)
    (h0 : nth params 0 = 0) (h1 : nth params n = 1) (hmono : ∀ i j, i ≤ j → j ≤ n → nth params i ≤ nth params j)
    (hc : globalInterpolation solve p pts params = ok c) (he : EndsSeparated (nth c.knots) p n) :
    WellFormed c p n ∧ (∀ i, i ≤ p → nth c.knots i = 0) ∧ (∀ i, n + 1 ≤ i → i ≤ n + p + 1 → nth c.knots i = 1) ∧
      ∀ i, i ≤ n → NurbsCurve.pointOnCurve c (nth params i) = ok (nth pts i) := by
  obtain ⟨w, -, k2, k3, hw1, hsum⟩ := interp_run hsolve hp hpn hpts h0 h1 hmono hc he
  refine ⟨w, k2, k3, ?_⟩
  intro i hi
  have g0 : nth c.knots p ≤ nth params i := by rw [k2 p (le_refl _), ← h0]; exact hmono 0 i (by omega) hi
  have g1 : nth params i ≤ nth c.knots (n + 1) := by rw [k3 (n + 1) (le_refl _) (by omega), ← h1]; exact hmono i n hi (le_refl _)
  obtain ⟨s, -, hs⟩ := getKnotSpanIndex_isSpan w.knots hpn w.sorted he g0 g1
  obtain ⟨-, hone⟩ := basis_convex (fun i j h h' => w.sorted i j h (by rw [w.knots]; omega)) hs
  have hw : weightFn (nth c.knots) p n (nth c.cps) (nth params i) = 1 := by
    unfold weightFn
    rw [← hone]
    refine Finset.sum_congr rfl fun j hj => ?_
    rw [hw1 j (by have := Finset.mem_range.mp hj; omega), mul_one]
  rw [C05_eval_rational w he g0 g1 (by rw [hw, abs_one]; norm_num)]
  refine congrArg ok ?_
  unfold rationalPoint
  unfold weightFn at hw
  rw [hw, inv_one, one_smul]
  exact hsum i hi

/-- a solver for one system, for the examples -/
def exSolve (A B : List (List ℚ)) : Res (List (List ℚ)) :=
  if A = [[1, 0, 0], [1/4, 1/2, 1/4], [0, 0, 1]] ∧ B = [[0, 0, 0], [1, 1, 0], [2, 0, 0]] then ok [[0, 0, 0], [1, 2, 0], [2, 0, 0]] else invalidArg

theorem exSolve_sound : SoundSolver exSolve := by
  intro s d A B X hA hB h
  unfold exSolve at h
  split at h
  · rename_i hAB
    obtain ⟨rfl, rfl⟩ := hAB
    have := Res.ok.inj h
    subst this
    have hs : s = 3 := hA.1.symm
    subst hs
    have hd : d = 3 := (hB.2 0 (by omega)).symm
    subst hd
    refine ⟨by unfold IsMat; decide +kernel, ?_⟩
    intro i d hi hd
    interval_cases i <;> interval_cases d <;> decide +kernel
  · simp at h

/-- C73 is not vacuous -/
example : SoundSolver exSolve ∧
    globalInterpolation exSolve 2 [⟨0, 0, 0⟩, ⟨1, 1, 0⟩, ⟨2, 0, 0⟩] [0, 1/2, 1] =
      ok { degree := 2, knots := [0, 0, 0, 1, 1, 1], cps := [⟨0, 0, 0, 1⟩, ⟨1, 2, 0, 1⟩, ⟨2, 0, 0, 1⟩] } :=
  ⟨exSolve_sound, by decide +kernel⟩

end LNLib.Props
