import Verif.Model.FitCubic
import Verif.Lemmas.Tolerance
import Mathlib.Algebra.Order.Archimedean.Basic
import Mathlib.Data.Real.Archimedean

/-!
# C141: solving a cubic equation by Newton's method (Mathematics/Utils/MathUtils.cpp:124-135)
-/
set_option linter.unusedSectionVars false

namespace LNLib.Props
open LNLib Res

section
variable {K : Type} [Field K] [LinearOrder K] [IsStrictOrderedRing K]

/-- the polynomial and its derivative -/
def cubicValue (c q l k x : K) : K := c * x ^ 3 + q * x ^ 2 + l * x + k
def cubicSlope (c q l x : K) : K := 3 * c * x ^ 2 + 2 * q * x + l

theorem cubicStep_run {c q l k x : K} (h : cubicSlope c q l x ≠ 0) : cubicStep c q l k x = ok (x - cubicValue c q l k x / cubicSlope c q l x) := by
  unfold cubicStep
  rw [fdiv_ok (show 3 * c * x ^ 2 + 2 * q * x + l ≠ 0 from h), ok_bind]
  rfl

theorem cubicStep_inv {c q l k x r : K} (h : cubicStep c q l k x = ok r) : cubicSlope c q l x ≠ 0 ∧ r = x - cubicValue c q l k x / cubicSlope c q l x := by
  have hs : cubicSlope c q l x ≠ 0 := by
    intro h0
    unfold cubicStep at h
    rw [show 3 * c * x ^ 2 + 2 * q * x + l = 0 from h0, fdiv_zero] at h
    cases h
  rw [cubicStep_run hs] at h
  cases h
  exact ⟨hs, rfl⟩

/-- the condition of the loop -/
theorem far_iff (a b : K) : isGreaterThan |b - a| (doubleEps : K) = true ↔ 1 / 1000000 + 1 / 1000000 * (1 + max |b - a| (1 / 1000000)) < |b - a| := by
  unfold isGreaterThan tolOf doubleEps
  rw [decide_eq_true_eq, abs_abs, abs_of_pos (by norm_num : (0 : K) < 1 / 1000000)]
  constructor <;> intro h <;> linarith

/-- an invariant of a loop that stopped, and the condition is false at the end -/
theorem whileF_post {σ : Type} {cond : σ → Res Bool} {body : σ → Res σ} {Inv : σ → Prop} (step : ∀ s s', Inv s → cond s = ok true → body s = ok s' → Inv s') :
    ∀ (fuel : ℕ) (s r : σ), Inv s → whileF cond body fuel s = ok r → Inv r ∧ cond r = ok false := by
  intro fuel
  induction fuel with
  | zero =>
    intro s r hs h
    unfold whileF at h
    obtain ⟨c, hc, h⟩ := bind_eq_ok.mp h
    cases c with
    | true => simp at h
    | false => simp at h; subst h; exact ⟨hs, hc⟩
  | succ n ih =>
    intro s r hs h
    unfold whileF at h
    obtain ⟨c, hc, h⟩ := bind_eq_ok.mp h
    cases c with
    | true =>
      simp only [if_true] at h
      obtain ⟨s', hb, h⟩ := bind_eq_ok.mp h
      exact ih s' r (step s s' hs hc hb) h
    | false => simp at h; subst h; exact ⟨hs, hc⟩

/-- C141 (part): when the search stops, the answer was reached by a Newton step of length at most 0.000003: there is a point that near at which the value of the polynomial is the slope times the
length of the step. -/
theorem C141_last_step {fuel : ℕ} {c q l k r : K} (h : cubicEquation fuel c q l k = ok r) :
    ∃ x, cubicSlope c q l x ≠ 0 ∧ |x - r| ≤ 3 / 1000000 ∧ cubicValue c q l k x = cubicSlope c q l x * (x - r) := by
  unfold cubicEquation at h
  obtain ⟨r0, h0, h⟩ := bind_eq_ok.mp h
  obtain ⟨st, hl, h⟩ := bind_eq_ok.mp h
  cases h
  obtain ⟨⟨hs, hv⟩, hc⟩ := whileF_post (Inv := fun st : K × K => cubicSlope c q l st.1 ≠ 0 ∧ st.2 = st.1 - cubicValue c q l k st.1 / cubicSlope c q l st.1) (by
      rintro s s' - - hb
      obtain ⟨x, hx, hb⟩ := bind_eq_ok.mp hb
      cases hb
      exact cubicStep_inv hx) fuel _ _ (cubicStep_inv h0) hl
  refine ⟨st.1, hs, ?_, ?_⟩
  · rw [ok.injEq, ← Bool.not_eq_true, far_iff, not_lt] at hc
    rw [abs_sub_comm]
    rcases le_total |st.2 - st.1| (1 / 1000000) with h | h
    · linarith
    · rw [max_eq_left h] at hc
      linarith
  · rw [hv]
    field_simp
    ring

/-- C141 (part): linear equations are solved exactly, in at most one round of the loop. -/
theorem C141_linear {fuel : ℕ} {l k : K} (hl : l ≠ 0) : cubicEquation (fuel + 1) 0 0 l k = ok (-(k / l)) := by
  have hs : ∀ x, cubicStep 0 0 l k x = ok (-(k / l)) := by
    intro x
    have : cubicSlope 0 0 l x = l := by unfold cubicSlope; ring
    rw [cubicStep_run (by rw [this]; exact hl), this]
    unfold cubicValue
    congr 1
    field_simp
    ring
  unfold cubicEquation
  dsimp only
  rw [hs, ok_bind]
  have stop : ∀ n : ℕ, whileF (fun st : K × K => ok (isGreaterThan |st.2 - st.1| doubleEps)) (fun st => do
      let r ← cubicStep 0 0 l k st.2
      ok (st.2, r)) n (-(k / l), -(k / l)) = ok (-(k / l), -(k / l)) := by
    intro n
    have : isGreaterThan |-(k / l) - -(k / l)| (doubleEps : K) = false := by
      rw [← Bool.not_eq_true, far_iff, sub_self, abs_zero, not_lt]
      have := le_max_left (0 : K) (1 / 1000000)
      linarith
    cases n <;> (unfold whileF; rw [ok_bind]; dsimp only; rw [this, if_neg (by simp)])
  unfold whileF
  rw [ok_bind]
  by_cases hc : isGreaterThan |-(k / l) - 1 / 1000| (doubleEps : K) = true
  · rw [if_pos hc, hs, ok_bind, ok_bind, stop, ok_bind]
  · rw [if_neg hc, ok_bind]

/-- C141 is violated by cycles: on `(x - 1/1000)³ - 2 (x - 1/1000) + 2 = 0`, which has a root, the search goes on forever. -/
theorem C141_cycle_violated (fuel : ℕ) : cubicEquation fuel (1 : K) (-3 / 1000) (3 / 1000000 - 2) (-1 / 1000000000 + 2 / 1000 + 2) = diverge := by
  have s0 : cubicStep (1 : K) (-3 / 1000) (3 / 1000000 - 2) (-1 / 1000000000 + 2 / 1000 + 2) (1 / 1000) = ok (1001 / 1000) := by
    rw [cubicStep_run (by unfold cubicSlope; norm_num)]
    unfold cubicSlope cubicValue
    norm_num
  have s1 : cubicStep (1 : K) (-3 / 1000) (3 / 1000000 - 2) (-1 / 1000000000 + 2 / 1000 + 2) (1001 / 1000) = ok (1 / 1000) := by
    rw [cubicStep_run (by unfold cubicSlope; norm_num)]
    unfold cubicSlope cubicValue
    norm_num
  have c0 : isGreaterThan |(1001 / 1000 : K) - 1 / 1000| (doubleEps : K) = true := by
    rw [far_iff]
    norm_num
  have c1 : isGreaterThan |(1 / 1000 : K) - 1001 / 1000| (doubleEps : K) = true := by
    rw [far_iff, abs_sub_comm]
    norm_num
  have run : ∀ n : ℕ, whileF (fun st : K × K => ok (isGreaterThan |st.2 - st.1| doubleEps)) (fun st => do
      let r ← cubicStep (1 : K) (-3 / 1000) (3 / 1000000 - 2) (-1 / 1000000000 + 2 / 1000 + 2) st.2
      ok (st.2, r)) n (1 / 1000, 1001 / 1000) = diverge ∧ whileF (fun st : K × K => ok (isGreaterThan |st.2 - st.1| doubleEps)) (fun st => do
      let r ← cubicStep (1 : K) (-3 / 1000) (3 / 1000000 - 2) (-1 / 1000000000 + 2 / 1000 + 2) st.2
      ok (st.2, r)) n (1001 / 1000, 1 / 1000) = diverge := by
    intro n
    induction n with
    | zero =>
      constructor
      · unfold whileF; rw [ok_bind, c0, if_pos rfl]
      · unfold whileF; rw [ok_bind, c1, if_pos rfl]
    | succ n ih =>
      constructor
      · unfold whileF; rw [ok_bind, c0, if_pos rfl, s1, ok_bind, ok_bind]; exact ih.2
      · unfold whileF; rw [ok_bind, c1, if_pos rfl, s0, ok_bind, ok_bind]; exact ih.1
  unfold cubicEquation
  dsimp only
  rw [s0, ok_bind, (run fuel).1]
  rfl

/-- C141 is violated where the slope vanishes at the start: on `x³ = 0.000003 x` the search divides by zero. -/
theorem C141_flat_violated (fuel : ℕ) : cubicEquation fuel (1 : K) 0 (-3 / 1000000) 0 = nonfinite := by
  unfold cubicEquation cubicStep
  dsimp only
  rw [show 3 * (1 : K) * (1 / 1000) ^ 2 + 2 * 0 * (1 / 1000) + -3 / 1000000 = 0 by norm_num, fdiv_zero]
  rfl

end

/-! ## The equation of the fitting of cubics -/

theorem blend_slope (x : ℝ) : cubicSlope 2 (-3) 0 x = 6 * x * (x - 1) := by unfold cubicSlope; ring

theorem blend_value (x d : ℝ) : cubicValue 2 (-3) 0 d x = (x - 1) ^ 2 * (2 * x + 1) + d - 1 := by unfold cubicValue; ring

/-- a Newton step from the right of 1 above the largest root goes left, stays right of 1 and above the root -/
theorem blend_step {x d : ℝ} (hd : d ≤ 1) (hx : 1 < x) (hv : 0 ≤ cubicValue 2 (-3) 0 d x) :
    ∃ y, cubicStep 2 (-3) 0 d x = ok y ∧ 1 < y ∧ y ≤ x ∧ 0 ≤ cubicValue 2 (-3) 0 d y := by
  have hs : 0 < cubicSlope 2 (-3) 0 x := by rw [blend_slope]; have : 0 < x - 1 := by linarith
                                            positivity
  refine ⟨_, cubicStep_run hs.ne', ?_, ?_, ?_⟩
  · have h1 : cubicValue 2 (-3) 0 d x / cubicSlope 2 (-3) 0 x < x - 1 := by
      rw [div_lt_iff₀ hs, blend_slope, blend_value]
      have : 0 < (x - 1) ^ 2 * (4 * x - 1) := by
        have : 0 < x - 1 := by linarith
        have : 0 < 4 * x - 1 := by linarith
        positivity
      nlinarith
    linarith
  · have := div_nonneg hv hs.le
    linarith
  · obtain ⟨q, hq⟩ : ∃ q, q = cubicValue 2 (-3) 0 d x / cubicSlope 2 (-3) 0 x := ⟨_, rfl⟩
    have hq0 : 0 ≤ q := by rw [hq]; exact div_nonneg hv hs.le
    have hqv : q * cubicSlope 2 (-3) 0 x = cubicValue 2 (-3) 0 d x := by rw [hq]; field_simp
    have hq1 : q < x - 1 := by
      rw [hq, div_lt_iff₀ hs, blend_slope, blend_value]
      have : 0 < (x - 1) ^ 2 * (4 * x - 1) := by
        have : 0 < x - 1 := by linarith
        have : 0 < 4 * x - 1 := by linarith
        positivity
      nlinarith
    rw [← hq]
    have e : cubicValue 2 (-3) 0 d (x - q) = cubicValue 2 (-3) 0 d x - q * cubicSlope 2 (-3) 0 x + q ^ 2 * (6 * x - 3 - 2 * q) := by
      unfold cubicValue cubicSlope; ring
    rw [e, hqv, sub_self, zero_add]
    have : 0 ≤ 6 * x - 3 - 2 * q := by linarith
    positivity

/-- the first step overshoots -/
theorem blend_first {d : ℝ} (h0 : 1 / 100 ≤ d) (h1 : d ≤ 1) : ∃ y, cubicStep 2 (-3) 0 d (1 / 1000) = ok y ∧ 3 / 2 < y ∧ y < 168 := by
  have hs : cubicSlope (2 : ℝ) (-3) 0 (1 / 1000) = -(5994 / 1000000) := by unfold cubicSlope; norm_num
  refine ⟨_, cubicStep_run (by rw [hs]; norm_num), ?_, ?_⟩
  · rw [hs, div_neg, sub_neg_eq_add, ← sub_lt_iff_lt_add', lt_div_iff₀ (by norm_num)]
    unfold cubicValue
    norm_num
    linarith
  · rw [hs, div_neg, sub_neg_eq_add, ← lt_sub_iff_add_lt', div_lt_iff₀ (by norm_num)]
    unfold cubicValue
    norm_num
    linarith

/-- C141 is violated on the equation that `FitWithCubic` poses, `2 x³ - 3 x² + d = 0` for `d` between 0.01 and 1: it has a root between 0 and 1, which is the one that is meant, but the search
stops and answers a value above 1, at or beyond the largest root. -/
theorem C141_wrong_root_violated {d : ℝ} (h0 : 1 / 100 ≤ d) (h1 : d ≤ 1) :
    (∃ N : ℕ, ∀ fuel, N ≤ fuel → ∃ r, cubicEquation fuel 2 (-3) 0 d = ok r ∧ 1 < r ∧ 0 ≤ cubicValue 2 (-3) 0 d r) := by
  have loop : ∀ (n : ℕ) (x y : ℝ), 1 < y → y ≤ x + 200 → 0 ≤ cubicValue 2 (-3) 0 d y → y - 1 ≤ n * (1 / 1000000) →
      ∃ st, whileF (fun st : ℝ × ℝ => ok (isGreaterThan |st.2 - st.1| doubleEps)) (fun st => do
        let r ← cubicStep 2 (-3) 0 d st.2
        ok (st.2, r)) (n + 1) (x, y) = ok st ∧ 1 < st.2 ∧ 0 ≤ cubicValue 2 (-3) 0 d st.2 := by
    intro n
    induction n with
    | zero =>
      intro x y hy _ _ hn
      norm_num at hn
      linarith
    | succ n ih =>
      intro x y hy hxy hv hn
      unfold whileF
      rw [ok_bind]
      dsimp only
      by_cases hc : isGreaterThan |y - x| (doubleEps : ℝ) = true
      · rw [if_pos hc]
        obtain ⟨z, hz, z1, z2, z3⟩ := blend_step h1 hy hv
        rw [hz, ok_bind, ok_bind]
        by_cases hzc : isGreaterThan |z - y| (doubleEps : ℝ) = true
        · refine ih y z z1 (by linarith) z3 ?_
          rw [far_iff] at hzc
          have : |z - y| = y - z := by rw [abs_sub_comm, abs_of_nonneg (by linarith)]
          rw [this] at hzc
          have := le_max_right (y - z) (1 / 1000000)
          push_cast at hn
          linarith
        · refine ⟨(y, z), ?_, z1, z3⟩
          unfold whileF
          rw [ok_bind]
          dsimp only
          rw [if_neg hzc]
      · rw [if_neg hc]
        exact ⟨(x, y), rfl, hy, hv⟩
  obtain ⟨y, hy, y1, y2⟩ := blend_first h0 h1
  obtain ⟨N, hN⟩ := exists_nat_ge (168000000 : ℝ)
  refine ⟨N + 1, fun fuel hf => ?_⟩
  obtain ⟨m, rfl⟩ : ∃ m, fuel = m + 1 := ⟨fuel - 1, by omega⟩
  have hm : (168000000 : ℝ) ≤ m := hN.trans (by exact_mod_cast (by omega : N ≤ m))
  obtain ⟨st, hst, g1, g2⟩ := loop m (1 / 1000) y (by linarith) (by linarith) (by rw [blend_value]; nlinarith [sq_nonneg (y - 1), mul_nonneg (sq_nonneg (y - 1)) (by linarith : (0 : ℝ) ≤ 2 * y + 1)])
    (by linarith)
  refine ⟨st.2, ?_, g1, g2⟩
  unfold cubicEquation
  dsimp only
  rw [hy, ok_bind, hst, ok_bind]

/-- the equation does have a root between 0 and 1, for instance 1/2 for `d = 1/2`; the hypotheses of the theorem hold for it -/
example : cubicValue (2 : ℝ) (-3) 0 (1 / 2) (1 / 2) = 0 ∧ (∃ N : ℕ, ∀ fuel, N ≤ fuel → ∃ r, cubicEquation fuel (2 : ℝ) (-3) 0 (1 / 2) = ok r ∧ 1 < r ∧ 0 ≤ cubicValue 2 (-3) 0 (1 / 2) r) :=
  ⟨by unfold cubicValue; norm_num, C141_wrong_root_violated (by norm_num) (by norm_num)⟩

/-- `C141_last_step` is met by the linear equation `2 x = 1`, solved exactly -/
example : cubicEquation 5 (0 : ℚ) 0 2 (-1) = ok (1 / 2) := by
  rw [C141_linear (by norm_num)]
  norm_num

end LNLib.Props
