import Verif.Model.CurveEdit
import Verif.Props.BasisDers
import Verif.Props.Interp
import Verif.Lemmas.CurveParam

/-!
# C76: cubic Hermite curves (Geometry/Curve/NurbsCurve.cpp, CreateCubicHermite)
-/

set_option linter.unusedSectionVars false

namespace LNLib.Props
open LNLib Res LNLib.Spec Finset

variable {K : Type} [Field K] [LinearOrder K] [IsStrictOrderedRing K]
variable {T : Type} [AddCommGroup T] [Module K T]

/-- the basis at a double knot, from the right -/
theorem basis_double_right {U : ℕ → K} {r : ℕ} {t : K} (hs : U (r + 3) < U (r + 4)) (h1 : U (r + 2) = t) (h2 : U (r + 3) = t) :
    (Nspan U (r + 3) 2 (r + 1) t = 1 ∧ Nspan U (r + 3) 2 (r + 2) t = 0 ∧ Nspan U (r + 3) 2 (r + 3) t = 0 ∧ Nspan U (r + 3) 2 r t = 0 ∧ Nspan U (r + 3) 2 (r + 4) t = 0) ∧
    Nspan U (r + 3) 3 r t = (U (r + 4) - t) / (U (r + 4) - U (r + 1)) ∧ Nspan U (r + 3) 3 (r + 1) t = (t - U (r + 1)) / (U (r + 4) - U (r + 1)) ∧
    Nspan U (r + 3) 3 (r + 2) t = 0 ∧ Nspan U (r + 3) 3 (r + 3) t = 0 := by
  rw [h2] at hs
  have hd : U (r + 4) - t ≠ 0 := by linarith
  have z1 : Nspan U (r + 3) 1 (r + 1) t = 0 := Nspan_zero U _ _ _ t (by omega)
  have z4 : Nspan U (r + 3) 2 (r + 4) t = 0 := Nspan_zero U _ _ _ t (by omega)
  have z0 : Nspan U (r + 3) 2 r t = 0 := Nspan_zero U _ _ _ t (by omega)
  have a2 : Nspan U (r + 3) 1 (r + 2) t = 1 := by simp [Nspan, h1, h2, hd]
  have a3 : Nspan U (r + 3) 1 (r + 3) t = 0 := by simp [Nspan, h2]
  have b1 : Nspan U (r + 3) 2 (r + 1) t = 1 := by
    rw [show Nspan U (r + 3) 2 (r + 1) t = (t - U (r + 1)) / (U (r + 3) - U (r + 1)) * Nspan U (r + 3) 1 (r + 1) t
      + (U (r + 4) - t) / (U (r + 4) - U (r + 2)) * Nspan U (r + 3) 1 (r + 2) t from rfl, z1, a2, h1, div_self hd]; ring
  have b2 : Nspan U (r + 3) 2 (r + 2) t = 0 := by
    rw [show Nspan U (r + 3) 2 (r + 2) t = (t - U (r + 2)) / (U (r + 4) - U (r + 2)) * Nspan U (r + 3) 1 (r + 2) t
      + (U (r + 5) - t) / (U (r + 5) - U (r + 3)) * Nspan U (r + 3) 1 (r + 3) t from rfl, a3, h1, sub_self]; ring
  have b3 : Nspan U (r + 3) 2 (r + 3) t = 0 := by
    rw [show Nspan U (r + 3) 2 (r + 3) t = (t - U (r + 3)) / (U (r + 5) - U (r + 3)) * Nspan U (r + 3) 1 (r + 3) t
      + (U (r + 6) - t) / (U (r + 6) - U (r + 4)) * Nspan U (r + 3) 1 (r + 4) t from rfl, a3, Nspan_zero U _ _ _ t (by omega)]; ring
  refine ⟨⟨b1, b2, b3, z0, z4⟩, ?_, ?_, ?_, ?_⟩
  · rw [show Nspan U (r + 3) 3 r t = (t - U r) / (U (r + 3) - U r) * Nspan U (r + 3) 2 r t
      + (U (r + 4) - t) / (U (r + 4) - U (r + 1)) * Nspan U (r + 3) 2 (r + 1) t from rfl, z0, b1]; ring
  · rw [show Nspan U (r + 3) 3 (r + 1) t = (t - U (r + 1)) / (U (r + 4) - U (r + 1)) * Nspan U (r + 3) 2 (r + 1) t
      + (U (r + 5) - t) / (U (r + 5) - U (r + 2)) * Nspan U (r + 3) 2 (r + 2) t from rfl, b1, b2]; ring
  · rw [show Nspan U (r + 3) 3 (r + 2) t = (t - U (r + 2)) / (U (r + 5) - U (r + 2)) * Nspan U (r + 3) 2 (r + 2) t
      + (U (r + 6) - t) / (U (r + 6) - U (r + 3)) * Nspan U (r + 3) 2 (r + 3) t from rfl, b2, b3]; ring
  · rw [show Nspan U (r + 3) 3 (r + 3) t = (t - U (r + 3)) / (U (r + 6) - U (r + 3)) * Nspan U (r + 3) 2 (r + 3) t
      + (U (r + 7) - t) / (U (r + 7) - U (r + 4)) * Nspan U (r + 3) 2 (r + 4) t from rfl, b3, z4]; ring

/-- the basis at a double knot, from the left -/
theorem basis_double_left {U : ℕ → K} {r : ℕ} {t : K} (hs : U (r + 3) < U (r + 4)) (h1 : U (r + 4) = t) (h2 : U (r + 5) = t) :
    (Nspan U (r + 3) 2 (r + 1) t = 0 ∧ Nspan U (r + 3) 2 (r + 2) t = 0 ∧ Nspan U (r + 3) 2 (r + 3) t = 1 ∧ Nspan U (r + 3) 2 r t = 0 ∧ Nspan U (r + 3) 2 (r + 4) t = 0) ∧
    Nspan U (r + 3) 3 r t = 0 ∧ Nspan U (r + 3) 3 (r + 1) t = 0 ∧
    Nspan U (r + 3) 3 (r + 2) t = (U (r + 6) - t) / (U (r + 6) - U (r + 3)) ∧ Nspan U (r + 3) 3 (r + 3) t = (t - U (r + 3)) / (U (r + 6) - U (r + 3)) := by
  rw [h1] at hs
  have hd : t - U (r + 3) ≠ 0 := by linarith
  have z1 : Nspan U (r + 3) 1 (r + 1) t = 0 := Nspan_zero U _ _ _ t (by omega)
  have z4 : Nspan U (r + 3) 2 (r + 4) t = 0 := Nspan_zero U _ _ _ t (by omega)
  have z0 : Nspan U (r + 3) 2 r t = 0 := Nspan_zero U _ _ _ t (by omega)
  have a2 : Nspan U (r + 3) 1 (r + 2) t = 0 := by simp [Nspan, h1]
  have a3 : Nspan U (r + 3) 1 (r + 3) t = 1 := by simp [Nspan, h1, hd]
  have b1 : Nspan U (r + 3) 2 (r + 1) t = 0 := by
    rw [show Nspan U (r + 3) 2 (r + 1) t = (t - U (r + 1)) / (U (r + 3) - U (r + 1)) * Nspan U (r + 3) 1 (r + 1) t
      + (U (r + 4) - t) / (U (r + 4) - U (r + 2)) * Nspan U (r + 3) 1 (r + 2) t from rfl, z1, a2]; ring
  have b2 : Nspan U (r + 3) 2 (r + 2) t = 0 := by
    rw [show Nspan U (r + 3) 2 (r + 2) t = (t - U (r + 2)) / (U (r + 4) - U (r + 2)) * Nspan U (r + 3) 1 (r + 2) t
      + (U (r + 5) - t) / (U (r + 5) - U (r + 3)) * Nspan U (r + 3) 1 (r + 3) t from rfl, a2, h2, sub_self]; ring
  have b3 : Nspan U (r + 3) 2 (r + 3) t = 1 := by
    rw [show Nspan U (r + 3) 2 (r + 3) t = (t - U (r + 3)) / (U (r + 5) - U (r + 3)) * Nspan U (r + 3) 1 (r + 3) t
      + (U (r + 6) - t) / (U (r + 6) - U (r + 4)) * Nspan U (r + 3) 1 (r + 4) t from rfl, a3, h2, div_self hd, Nspan_zero U _ _ _ t (by omega)]; ring
  refine ⟨⟨b1, b2, b3, z0, z4⟩, ?_, ?_, ?_, ?_⟩
  · rw [show Nspan U (r + 3) 3 r t = (t - U r) / (U (r + 3) - U r) * Nspan U (r + 3) 2 r t
      + (U (r + 4) - t) / (U (r + 4) - U (r + 1)) * Nspan U (r + 3) 2 (r + 1) t from rfl, z0, b1]; ring
  · rw [show Nspan U (r + 3) 3 (r + 1) t = (t - U (r + 1)) / (U (r + 4) - U (r + 1)) * Nspan U (r + 3) 2 (r + 1) t
      + (U (r + 5) - t) / (U (r + 5) - U (r + 2)) * Nspan U (r + 3) 2 (r + 2) t from rfl, b1, b2]; ring
  · rw [show Nspan U (r + 3) 3 (r + 2) t = (t - U (r + 2)) / (U (r + 5) - U (r + 2)) * Nspan U (r + 3) 2 (r + 2) t
      + (U (r + 6) - t) / (U (r + 6) - U (r + 3)) * Nspan U (r + 3) 2 (r + 3) t from rfl, b2, b3]; ring
  · rw [show Nspan U (r + 3) 3 (r + 3) t = (t - U (r + 3)) / (U (r + 6) - U (r + 3)) * Nspan U (r + 3) 2 (r + 3) t
      + (U (r + 7) - t) / (U (r + 7) - U (r + 4)) * Nspan U (r + 3) 2 (r + 4) t from rfl, b3, z4]; ring

/-- the first derivative of a cubic curve in terms of the degree-two basis -/
theorem cubic_deriv {U : ℕ → K} {P : ℕ → T} {n r : ℕ} {t : K} (hm : MonoTo U (n + 4)) (hn : r + 3 ≤ n) :
    curveDeriv U (r + 3) 3 n P 1 t = ∑ i ∈ range 4, (3 * ((U (r + i + 3) - U (r + i))⁻¹ * Nspan U (r + 3) 2 (r + i) t
      - (U (r + i + 4) - U (r + i + 1))⁻¹ * Nspan U (r + 3) 2 (r + i + 1) t)) • P (r + i) := by
  rw [curveDeriv_window (by omega) hn, show r + 3 - 3 = r by omega]
  apply sum_congr rfl
  intro i hi
  rw [mem_range] at hi
  rw [dN_succ hm (r + 3) 2 (r + i) 0 (by omega), dN_zero, dN_zero]
  congr 1
  push_cast
  ring

theorem hermite_point {Q D : T} {a b : K} (h : a + b ≠ 0) : (a / (a + b)) • (Q - (3 : K)⁻¹ • b • D) + (b / (a + b)) • (Q + (3 : K)⁻¹ • a • D) = Q := by
  have h1 : a / (a + b) + b / (a + b) = 1 := by rw [← add_div, div_self h]
  have : (a / (a + b)) • (Q - (3 : K)⁻¹ • b • D) + (b / (a + b)) • (Q + (3 : K)⁻¹ • a • D) = (a / (a + b) + b / (a + b)) • Q := by
    module
  rw [this, h1, one_smul]

theorem hermite_tangent {Q D : T} {a b : K} (h : a + b ≠ 0) :
    (3 * (-(a + b)⁻¹)) • (Q - (3 : K)⁻¹ • b • D) + (3 * (a + b)⁻¹) • (Q + (3 : K)⁻¹ • a • D) = D := by
  have : (3 * (-(a + b)⁻¹)) • (Q - (3 : K)⁻¹ • b • D) + (3 * (a + b)⁻¹) • (Q + (3 : K)⁻¹ • a • D) = ((a + b)⁻¹ * (a + b)) • D := by
    match_scalars <;> field_simp <;> ring
  rw [this, inv_mul_cancel₀ h, one_smul]

theorem hermite_right {U : ℕ → K} {P : ℕ → T} {n r : ℕ} {t : K} {Q D : T} (hm : MonoTo U (n + 4)) (hn : r + 3 ≤ n) (hs : IsSpan U 3 n t (r + 3))
    (h1 : U (r + 2) = t) (h2 : U (r + 3) = t) (hP0 : P r = Q - (3 : K)⁻¹ • (U (r + 3) - U (r + 1)) • D) (hP1 : P (r + 1) = Q + (3 : K)⁻¹ • (U (r + 4) - U (r + 2)) • D) :
    curvePoint U 3 n P t = Q ∧ curveDeriv U (r + 3) 3 n P 1 t = D := by
  obtain ⟨⟨c1, c2, c3, c0, c4⟩, d0, d1, d2, d3⟩ := basis_double_right hs.2.2.1 h1 h2
  have hab : (U (r + 4) - t) + (t - U (r + 1)) ≠ 0 := by
    have e1 := hs.2.2.1
    have e2 := hm (r + 1) (r + 2) (by omega) (by omega)
    rw [h1] at e2
    rw [h2] at e1
    linarith
  have e : U (r + 4) - U (r + 1) = (U (r + 4) - t) + (t - U (r + 1)) := by ring
  constructor
  · rw [curvePoint_span hm (by omega) hs, show r + 3 - 3 = r by omega]
    simp only [sum_range_succ, sum_range_zero, zero_add, add_zero]
    rw [d0, d1, d2, d3, hP0, hP1, zero_smul, zero_smul, add_zero, add_zero, h1, h2, e]
    exact hermite_point hab
  · rw [cubic_deriv hm hn]
    simp only [sum_range_succ, sum_range_zero, zero_add, add_zero, show ∀ a, r + 1 + a = r + (1 + a) from fun a => by omega, show ∀ a, r + 2 + a = r + (2 + a) from fun a => by omega,
      show ∀ a, r + 3 + a = r + (3 + a) from fun a => by omega, Nat.reduceAdd]
    rw [c0, c1, c2, c3, c4, hP0, hP1]
    simp only [mul_zero, mul_one, zero_sub, sub_zero, zero_smul, add_zero]
    rw [h1, h2, e]
    exact hermite_tangent hab

theorem hermite_left {U : ℕ → K} {P : ℕ → T} {n r : ℕ} {t : K} {Q D : T} (hm : MonoTo U (n + 4)) (hn : r + 3 ≤ n) (hs : IsSpan U 3 n t (r + 3))
    (h1 : U (r + 4) = t) (h2 : U (r + 5) = t) (hP0 : P (r + 2) = Q - (3 : K)⁻¹ • (U (r + 5) - U (r + 3)) • D) (hP1 : P (r + 3) = Q + (3 : K)⁻¹ • (U (r + 6) - U (r + 4)) • D) :
    curvePoint U 3 n P t = Q ∧ curveDeriv U (r + 3) 3 n P 1 t = D := by
  obtain ⟨⟨c1, c2, c3, c0, c4⟩, d0, d1, d2, d3⟩ := basis_double_left hs.2.2.1 h1 h2
  have hab : (U (r + 6) - t) + (t - U (r + 3)) ≠ 0 := by
    have e1 := hs.2.2.1
    have e2 := hm (r + 5) (r + 6) (by omega) (by omega)
    rw [h2] at e2
    rw [h1] at e1
    linarith
  have e : U (r + 6) - U (r + 3) = (U (r + 6) - t) + (t - U (r + 3)) := by ring
  constructor
  · rw [curvePoint_span hm (by omega) hs, show r + 3 - 3 = r by omega]
    simp only [sum_range_succ, sum_range_zero, zero_add, add_zero]
    rw [d0, d1, d2, d3, hP0, hP1, zero_smul, zero_smul, zero_add, zero_add, h1, h2, e]
    exact hermite_point hab
  · rw [cubic_deriv hm hn]
    simp only [sum_range_succ, sum_range_zero, zero_add, add_zero, show ∀ a, r + 1 + a = r + (1 + a) from fun a => by omega, show ∀ a, r + 2 + a = r + (2 + a) from fun a => by omega,
      show ∀ a, r + 3 + a = r + (3 + a) from fun a => by omega, Nat.reduceAdd]
    rw [c0, c1, c2, c3, c4, hP0, hP1]
    simp only [mul_zero, mul_one, zero_sub, sub_zero, zero_smul, zero_add]
    rw [h1, h2, e]
    exact hermite_tangent hab

/-- C76: for at least four points, as many tangents, and strictly increasing parameters, `CreateCubicHermite` returns a well-formed
cubic curve over `[u₀, uₙ₋₁]`, with weights 1, which at every parameter `uⱼ` passes through the point `Qⱼ` with first derivative
`Tⱼ` (from the right; at the last parameter from the left), whether or not the data are closed. -/
theorem C76_hermite {pts tans : List (XYZ K)} {uk : List K} {n : ℕ} (hn : 3 < n) (hp : pts.length = n) (ht : tans.length = n) (hu : uk.length = n)
    (hmono : ∀ i j, i < j → j < n → nth uk i < nth uk j) :
    ∃ c, cubicHermite pts tans uk = ok c ∧ WellFormed c 3 (2 * n - 1) ∧ (∀ q ∈ c.cps, q.w = 1) ∧
      nth c.knots 3 = nth uk 0 ∧ nth c.knots (2 * n - 1 + 1) = nth uk (n - 1) ∧
      ∀ j, j < n → curvePoint (nth c.knots) 3 (2 * n - 1) (nth c.cps) (nth uk j) = XYZW.ofXYZ (nth pts j) 1 ∧
        ∀ s, IsSpan (nth c.knots) 3 (2 * n - 1) (nth uk j) s →
          curveDeriv (nth c.knots) s 3 (2 * n - 1) (nth c.cps) 1 (nth uk j) = XYZW.ofXYZ (nth tans j) 1 - ⟨0, 0, 0, 1⟩ := by
  have hlen : (2 * (n : ℤ) + 3 + 1).toNat = 2 * n + 4 := by omega
  -- the interior knots
  obtain ⟨k1, e1, l1, v1⟩ : Runs (forI 0 (n : ℤ) (List.replicate (2 * (n : ℤ) + 3 + 1).toNat (0 : K)) fun j kv =>
      (vget uk j >>= fun u => vset kv (2 + 2 * j + 1) u >>= fun kv => vset kv (2 + 2 * j) u : Res (List K)))
      (fun kv => kv.length = 2 * n + 4 ∧ ∀ j, j < n → nth kv (2 + 2 * j) = nth uk j ∧ nth kv (3 + 2 * j) = nth uk j) := by
    refine Runs.forN (a := 0) (b := (n : ℤ)) (m := 0) (n := n) (fun i (kv : List K) => kv.length = 2 * n + 4 ∧ ∀ j, j < i → nth kv (2 + 2 * j) = nth uk j ∧ nth kv (3 + 2 * j) = nth uk j)
      (by simp) rfl (by omega) ⟨by simp [hlen], fun j hj => absurd hj (by omega)⟩ ?_
    rintro i kv - hi ⟨h1, h2⟩
    refine Runs.bind_eq (vget_nth (k := i) rfl (by omega)) (Runs.bind_eq (vset_of (k := 3 + 2 * i) (by omega) (by omega))
      (Runs.of_eq (vset_of (k := 2 + 2 * i) (by omega) (by simp; omega)) ⟨by simpa using h1, ?_⟩))
    intro j hj
    rw [nth_set (by simp; omega), nth_set (by omega), nth_set (by simp; omega), nth_set (by omega)]
    by_cases hji : j = i
    · subst hji
      constructor <;> split_ifs <;> first | rfl | omega
    · have := h2 j (by omega)
      constructor
      · rw [if_neg (by omega), if_neg (by omega)]; exact this.1
      · rw [if_neg (by omega), if_neg (by omega)]; exact this.2
  have hmono' : ∀ i j, i ≤ j → j < n → nth uk i ≤ nth uk j := fun i j h1 h2 => by
    rcases h1.lt_or_eq with h | h
    · exact (hmono i j h h2).le
    · rw [h]
  -- the end knots
  have ends : ∀ (kv : List K) (a b d e : K), a ≤ b → b ≤ nth uk 0 → nth uk (n - 1) ≤ d → d ≤ e → kv.length = 2 * n + 4 →
      (∀ i, nth kv i = if i = 0 then a else if i = 1 then b else if i = 2 * n + 2 then d else if i = 2 * n + 3 then e else nth k1 i) →
        (∀ j, j < n → nth kv (2 + 2 * j) = nth uk j ∧ nth kv (3 + 2 * j) = nth uk j) ∧ MonoTo (nth kv) (2 * n - 1 + 4) := by
    intro kv a b d e h1 h2 h3 h4 hl hval
    refine ⟨?_, ?_⟩
    · intro j hj
      have := v1 j hj
      constructor
      · rw [hval, if_neg (by omega), if_neg (by omega), if_neg (by omega), if_neg (by omega)]
        exact this.1
      · rw [hval, if_neg (by omega), if_neg (by omega), if_neg (by omega), if_neg (by omega)]
        exact this.2
    · have val : ∀ i, i ≤ 2 * n + 3 → nth kv i =
          if i = 0 then a else if i = 1 then b else if i = 2 * n + 2 then d else if i = 2 * n + 3 then e else nth uk ((i - 2) / 2) := by
        intro i hi
        rw [hval]
        split_ifs
        · rfl
        · rfl
        · rfl
        · rfl
        have := v1 ((i - 2) / 2) (by omega)
        rcases Nat.even_or_odd' i with ⟨k, hk | hk⟩
        · rw [← this.1]; congr 1; omega
        · rw [← this.2]; congr 1; omega
      intro i j hij hj
      have bj : ∀ k, 2 ≤ k → k ≤ 2 * n + 1 → nth uk 0 ≤ nth uk ((k - 2) / 2) ∧ nth uk ((k - 2) / 2) ≤ nth uk (n - 1) := fun k h1 h2 =>
        ⟨hmono' _ _ (by omega) (by omega), hmono' _ _ (by omega) (by omega)⟩
      have h01 := hmono' 0 (n - 1) (by omega) (by omega)
      rw [val i (by omega), val j (by omega)]
      by_cases ci : 2 ≤ i ∧ i ≤ 2 * n + 1
      · have qi := bj i ci.1 ci.2
        rw [if_neg (show ¬ i = 0 by omega), if_neg (show ¬ i = 1 by omega), if_neg (show ¬ i = 2 * n + 2 by omega), if_neg (show ¬ i = 2 * n + 3 by omega),
          if_neg (show ¬ j = 0 by omega), if_neg (show ¬ j = 1 by omega)]
        split_ifs
        · linarith
        · linarith
        · exact hmono' _ _ (by omega) (by omega)
      · by_cases cj : 2 ≤ j ∧ j ≤ 2 * n + 1
        · have qj := bj j cj.1 cj.2
          rw [if_neg (show ¬ j = 0 by omega), if_neg (show ¬ j = 1 by omega), if_neg (show ¬ j = 2 * n + 2 by omega), if_neg (show ¬ j = 2 * n + 3 by omega)]
          split_ifs
          all_goals first | omega | linarith
        · split_ifs
          all_goals first | omega | linarith
  have hlt1 := hmono (n - 2) (n - 1) (by omega) (by omega)
  have hlt2 := hmono 0 1 (by omega) (by omega)
  unfold cubicHermite
  dsimp only
  rw [validate_of (by simp [hp, hn]), ok_bind, validate_of (by simp [hp, ht]), ok_bind, vget_nth (i := 0) (k := 0) rfl (by omega), ok_bind,
    vget_nth (k := n - 1) (by omega) (by omega), ok_bind, vget_nth (i := 0) (k := 0) rfl (by omega), ok_bind, vget_nth (k := n - 1) (by omega) (by omega), ok_bind, hp, e1, ok_bind]
  refine Runs.bind (Q := fun kv : List K => kv.length = 2 * n + 4 ∧ (∀ j, j < n → nth kv (2 + 2 * j) = nth uk j ∧ nth kv (3 + 2 * j) = nth uk j) ∧
    MonoTo (nth kv) (2 * n - 1 + 4)) ?_ ?_
  · have k2 : nth k1 2 = nth uk 0 := (v1 0 (by omega)).1
    have ke : nth k1 (2 * n) = nth uk (n - 1) := by rw [← (v1 (n - 1) (by omega)).1]; congr 1; omega
    split
    · refine Runs.bind_eq (vget_nth (i := 0) (k := 0) rfl (by omega)) (Runs.bind_eq (vget_nth (k := n - 1) (by omega) (by omega))
        (Runs.bind_eq (vget_nth (k := n - 2) (by omega) (by omega)) ?_))
      refine Runs.bind_eq (vset_of (i := 1) (k := 1) rfl (by omega)) (Runs.bind_eq (vset_of (i := 0) (k := 0) rfl (by simp; omega))
        (Runs.bind_eq (vget_nth (i := 1) (k := 1) rfl (by omega)) (Runs.bind_eq (vset_of (k := 2 * n + 3) (by omega) (by simp; omega))
        (Runs.of_eq (vset_of (k := 2 * n + 2) (by omega) (by simp; omega)) ⟨by simpa using l1, ?_⟩))))
      refine ends _ (nth uk 0 - (nth uk (n - 1) - nth uk (n - 2))) (nth uk 0 - (nth uk (n - 1) - nth uk (n - 2))) (nth uk (n - 1) + nth uk 1 - nth uk 0)
        (nth uk (n - 1) + nth uk 1 - nth uk 0) (le_refl _) (by linarith) (by linarith) (le_refl _) (by simpa using l1) ?_
      intro i
      rw [nth_set (by simp; omega), nth_set (by simp; omega), nth_set (by simp; omega), nth_set (by omega)]
      split_ifs <;> first | rfl | omega
    · split
      · refine Runs.bind_eq (vget_nth (i := 0) (k := 0) rfl (by omega)) (Runs.bind_eq (vget_nth (k := n - 1) (by omega) (by omega))
          (Runs.bind_eq (vget_nth (k := n - 2) (by omega) (by omega)) ?_))
        refine Runs.bind_eq (vset_of (i := 0) (k := 0) rfl (by omega)) (Runs.bind_eq (vget_nth (i := 2) (k := 2) rfl (by simp; omega))
          (Runs.bind_eq (vset_of (i := 1) (k := 1) rfl (by simp; omega)) (Runs.bind_eq (vget_nth (k := 2 * n) (by omega) (by simp; omega))
          (Runs.bind_eq (vset_of (k := 2 * n + 2) (by omega) (by simp; omega)) (Runs.bind_eq (vget_nth (i := 1) (k := 1) rfl (by omega))
          (Runs.of_eq (vset_of (k := 2 * n + 3) (by omega) (by simp; omega)) ⟨by simpa using l1, ?_⟩))))))
        refine ends _ (nth uk 0 - (nth uk (n - 1) - nth uk (n - 2))) (nth uk 0) (nth uk (n - 1))
          (nth uk (n - 1) + nth uk 1 - nth uk 0) (by linarith) (le_refl _) (le_refl _) (by linarith) (by simpa using l1) ?_
        intro i
        rw [nth_set (by first | omega | (simp only [List.length_set]; omega)), nth_set (by first | omega | (simp only [List.length_set]; omega)), nth_set (by first | omega | (simp only [List.length_set]; omega)), nth_set (by first | omega | (simp only [List.length_set]; omega)), nth_set (by first | omega | (simp only [List.length_set]; omega)), nth_set (by first | omega | (simp only [List.length_set]; omega)), nth_set (by first | omega | (simp only [List.length_set]; omega))]
        rw [if_neg (show ¬ 2 * n = 1 by omega), if_neg (show ¬ 2 * n = 0 by omega), if_neg (show ¬ 2 = 0 by omega), k2, ke]
        split_ifs <;> first | rfl | omega
      · refine Runs.bind_eq (vget_nth (i := 2) (k := 2) rfl (by omega)) (Runs.bind_eq (vset_of (i := 1) (k := 1) rfl (by omega))
          (Runs.bind_eq (vset_of (i := 0) (k := 0) rfl (by simp; omega)) (Runs.bind_eq (vget_nth (k := 2 * n) (by omega) (by simp; omega))
          (Runs.bind_eq (vset_of (k := 2 * n + 3) (by omega) (by simp; omega))
          (Runs.of_eq (vset_of (k := 2 * n + 2) (by omega) (by simp; omega)) ⟨by simpa using l1, ?_⟩)))))
        refine ends _ (nth uk 0) (nth uk 0) (nth uk (n - 1)) (nth uk (n - 1)) (le_refl _) (le_refl _) (le_refl _) (le_refl _) (by simpa using l1) ?_
        intro i
        rw [nth_set (by first | omega | (simp only [List.length_set]; omega)), nth_set (by first | omega | (simp only [List.length_set]; omega)), nth_set (by first | omega | (simp only [List.length_set]; omega)), nth_set (by first | omega | (simp only [List.length_set]; omega)), nth_set (by first | omega | (simp only [List.length_set]; omega)), nth_set (by first | omega | (simp only [List.length_set]; omega))]
        rw [if_neg (show ¬ 2 * n = 1 by omega), if_neg (show ¬ 2 * n = 0 by omega), k2, ke]
        split_ifs <;> first | rfl | omega
  · rintro kv ⟨lk, vk, mk⟩
    refine Runs.bind (Q := fun cps : List (XYZW K) => cps.length = 2 * n ∧ ∀ j, j < n →
      nth cps (2 * j) = XYZW.ofXYZ (nth pts j - (3 : K)⁻¹ • (nth kv (2 * j + 3) - nth kv (2 * j + 1)) • nth tans j) 1 ∧
      nth cps (2 * j + 1) = XYZW.ofXYZ (nth pts j + (3 : K)⁻¹ • (nth kv (2 * j + 4) - nth kv (2 * j + 2)) • nth tans j) 1) ?_ ?_
    · refine Runs.forN (a := 0) (b := (n : ℤ)) (m := 0) (n := n) (fun i (cps : List (XYZW K)) => cps.length = 2 * n ∧ ∀ j, j < i →
        nth cps (2 * j) = XYZW.ofXYZ (nth pts j - (3 : K)⁻¹ • (nth kv (2 * j + 3) - nth kv (2 * j + 1)) • nth tans j) 1 ∧
        nth cps (2 * j + 1) = XYZW.ofXYZ (nth pts j + (3 : K)⁻¹ • (nth kv (2 * j + 4) - nth kv (2 * j + 2)) • nth tans j) 1) (by simp) rfl (by omega)
        ⟨by simp; omega, fun j hj => absurd hj (by omega)⟩ ?_
      rintro i cps - hi ⟨h1, h2⟩
      refine Runs.bind_eq (vget_nth (k := 2 * i + 3) (by omega) (by omega)) (Runs.bind_eq (vget_nth (k := 2 * i + 1) (by omega) (by omega))
        (Runs.bind_eq (vget_nth (k := 2 * i + 4) (by omega) (by omega)) (Runs.bind_eq (vget_nth (k := 2 * i + 2) (by omega) (by omega))
        (Runs.bind_eq (vget_nth (k := i) rfl (by omega)) (Runs.bind_eq (vget_nth (k := i) rfl (by omega)) ?_)))))
      rw [vdiv_ok (by norm_num), ok_bind, vdiv_ok (by norm_num)]
      refine Runs.bind_eq (vset_of (k := 2 * i) (by omega) (by omega)) (Runs.bind_eq rfl (Runs.of_eq (vset_of (k := 2 * i + 1) (by omega) (by simp; omega)) ⟨by simpa using h1, ?_⟩))
      intro j hj
      rw [nth_set (by simp; omega), nth_set (by omega), nth_set (by simp; omega), nth_set (by omega)]
      by_cases hji : j = i
      · subst hji
        constructor <;> split_ifs <;> first | rfl | omega
      · have := h2 j (by omega)
        constructor
        · rw [if_neg (by omega), if_neg (by omega)]; exact this.1
        · rw [if_neg (by omega), if_neg (by omega)]; exact this.2
    · rintro cps ⟨lc, vc⟩
      have hofs : ∀ x y : XYZ K, XYZW.ofXYZ (x - y) 1 = XYZW.ofXYZ x 1 - (XYZW.ofXYZ y 1 - ⟨0, 0, 0, 1⟩) := by
        intro x y; ext <;> simp [XYZW.ofXYZ]
      have hofa : ∀ x y : XYZ K, XYZW.ofXYZ (x + y) 1 = XYZW.ofXYZ x 1 + (XYZW.ofXYZ y 1 - ⟨0, 0, 0, 1⟩) := by
        intro x y; ext <;> simp [XYZW.ofXYZ]
      have hofm : ∀ (k : K) (x : XYZ K), XYZW.ofXYZ (k • x) 1 - ⟨0, 0, 0, 1⟩ = k • (XYZW.ofXYZ x 1 - (⟨0, 0, 0, 1⟩ : XYZW K)) := by
        intro k x; ext <;> simp [XYZW.ofXYZ]
      have w : WellFormed ({ degree := 3, knots := kv, cps := cps } : NurbsCurve K) 3 (2 * n - 1) :=
        ⟨rfl, by omega, by omega, by dsimp only; omega, by omega, by dsimp only; omega, fun i j h1 h2 => mk i j h1 (by dsimp only at h2; omega)⟩
      refine Runs.ok ⟨w, ?_, ?_, ?_, ?_⟩
      · intro q hq
        obtain ⟨i, hi, rfl⟩ := List.getElem_of_mem hq
        dsimp only at hi ⊢
        rw [← nth_eq_getElem hi]
        rcases Nat.even_or_odd' i with ⟨k, hk | hk⟩
        · rw [hk, (vc k (by omega)).1]; rfl
        · rw [hk, (vc k (by omega)).2]; rfl
      · exact (vk 0 (by omega)).2
      · dsimp only; rw [← (vk (n - 1) (by omega)).1]; congr 1; omega
      · intro j hj
        dsimp only
        have vj := vk j hj
        have cj := vc j hj
        rw [hofs, hofa, hofm, hofm, hofm, hofm] at cj
        have key : ∃ s, IsSpan (nth kv) 3 (2 * n - 1) (nth uk j) s ∧ curvePoint (nth kv) 3 (2 * n - 1) (nth cps) (nth uk j) = XYZW.ofXYZ (nth pts j) 1 ∧
            curveDeriv (nth kv) s 3 (2 * n - 1) (nth cps) 1 (nth uk j) = XYZW.ofXYZ (nth tans j) 1 - ⟨0, 0, 0, 1⟩ := by
          by_cases hlast : j = n - 1
          · have e4 : nth kv (2 * j - 2 + 4) = nth uk j := by rw [← vj.1]; congr 1; omega
            have e5 : nth kv (2 * j - 2 + 5) = nth uk j := by rw [← vj.2]; congr 1; omega
            have e3 : nth kv (2 * j - 2 + 3) = nth uk (j - 1) := by rw [← (vk (j - 1) (by omega)).2]; congr 1; omega
            have hs : IsSpan (nth kv) 3 (2 * n - 1) (nth uk j) (2 * j - 2 + 3) := by
              refine ⟨by omega, by omega, ?_, ?_, Or.inr ⟨e4.symm, ?_⟩⟩
              · rw [e3, e4]; exact hmono _ _ (by omega) hj
              · rw [e3]; exact hmono' _ _ (by omega) hj
              · congr 1; omega
            refine ⟨_, hs, hermite_left mk (by omega) hs e4 e5 ?_ ?_⟩
            · rw [show 2 * j - 2 + 2 = 2 * j by omega, show 2 * j - 2 + 5 = 2 * j + 3 by omega, show 2 * j - 2 + 3 = 2 * j + 1 by omega]; exact cj.1
            · rw [show 2 * j - 2 + 3 = 2 * j + 1 by omega, show 2 * j - 2 + 6 = 2 * j + 4 by omega, show 2 * j - 2 + 4 = 2 * j + 2 by omega]; exact cj.2
          · have e2 : nth kv (2 * j + 2) = nth uk j := by rw [← vj.1]; congr 1; omega
            have e3 : nth kv (2 * j + 3) = nth uk j := by rw [← vj.2]; congr 1; omega
            have e4 : nth kv (2 * j + 4) = nth uk (j + 1) := by rw [← (vk (j + 1) (by omega)).1]; congr 1; omega
            have hlt := hmono j (j + 1) (by omega) (by omega)
            have hs : IsSpan (nth kv) 3 (2 * n - 1) (nth uk j) (2 * j + 3) := by
              refine ⟨by omega, by omega, ?_, ?_, Or.inl ?_⟩
              · rw [e3, e4]; exact hlt
              · rw [e3]
              · rw [e4]; exact hlt
            exact ⟨_, hs, hermite_right mk (by omega) hs e2 e3 cj.1 cj.2⟩
        obtain ⟨s, hs, h1, h2⟩ := key
        refine ⟨h1, ?_⟩
        intro s' hs'
        rw [isSpan_unique mk (by omega) hs' hs]
        exact h2

/-- C76, in terms of the evaluation functions: at every parameter the point on the curve is `Qⱼ` and the first derivative is `Tⱼ`
(the first and the last parameter interval must be longer than the comparison tolerance). -/
theorem C76_hermite_eval {pts tans : List (XYZ K)} {uk : List K} {n : ℕ} {c : NurbsCurve K} (hn : 3 < n) (hp : pts.length = n) (ht : tans.length = n) (hu : uk.length = n)
    (hmono : ∀ i j, i < j → j < n → nth uk i < nth uk j) (hc : cubicHermite pts tans uk = ok c) (he : EndsSeparated (nth c.knots) 3 (2 * n - 1)) :
    ∀ j, j < n → NurbsCurve.pointOnCurve c (nth uk j) = ok (nth pts j) ∧
      NurbsCurve.rationalDerivatives c 1 (nth uk j) = ok [nth pts j, nth tans j] := by
  obtain ⟨c', e, w, hw, k0, k1, hj⟩ := C76_hermite hn hp ht hu hmono
  rw [hc] at e
  obtain rfl := Res.ok.inj e
  intro j hjn
  obtain ⟨p0, p1⟩ := hj j hjn
  have hle : ∀ i j, i ≤ j → j < n → nth uk i ≤ nth uk j := fun i j h1 h2 => by
    rcases h1.lt_or_eq with h | h
    · exact (hmono i j h h2).le
    · rw [h]
  have h0 : nth c.knots 3 ≤ nth uk j := by rw [k0]; exact hle 0 j (by omega) hjn
  have h1 : nth uk j ≤ nth c.knots (2 * n - 1 + 1) := by rw [k1]; exact hle j _ (by omega) (by omega)
  have hwe : weightFn (nth c.knots) 3 (2 * n - 1) (nth c.cps) (nth uk j) = 1 := by
    have := congrArg XYZW.w p0
    unfold curvePoint at this
    rw [XYZW.sum_w] at this
    exact this
  constructor
  · rw [C05_eval_rational w he h0 h1 (by rw [hwe, abs_one]; norm_num)]
    refine congrArg ok ?_
    unfold rationalPoint
    unfold weightFn at hwe
    rw [hwe, inv_one, one_smul]
    have := congrArg XYZW.raw p0
    unfold curvePoint at this
    rw [XYZW.sum_raw] at this
    rw [show nth pts j = (XYZW.ofXYZ (nth pts j) 1).raw by ext <;> simp [XYZW.ofXYZ, XYZW.raw], ← this]
    rfl
  · obtain ⟨s, -, hs⟩ := span_isSpan w he h0 h1
    obtain ⟨l, e1, e2, e3⟩ := C20_leibniz (d := 1) w he h0 h1 hs (by omega) (by rw [hwe]; exact one_ne_zero)
    have d0 : curveDeriv (nth c.knots) s 3 (2 * n - 1) (nth c.cps) 0 (nth uk j) = XYZW.ofXYZ (nth pts j) 1 := by
      rw [curveDeriv_window hs.1 hs.2.1, ← p0, curvePoint_span (m := 2 * n - 1 + 3 + 1) (wf_monoTo w) (le_refl _) hs]
      simp only [dN_zero]
    have d1 := p1 s hs
    have q0 := e3 0 (by omega)
    have q1 := e3 1 (le_refl _)
    simp only [sum_range_succ, sum_range_zero, zero_add, Nat.sub_zero, Nat.sub_self, d0, d1] at q0 q1
    have f0 : nth l 0 = nth pts j := by
      rw [show (XYZW.ofXYZ (nth pts j) (1 : K)).raw = nth pts j by ext <;> simp [XYZW.ofXYZ, XYZW.raw]] at q0
      simpa [XYZW.ofXYZ] using q0
    have f1 : nth l 1 = nth tans j := by
      rw [show (XYZW.ofXYZ (nth tans j) (1 : K) - ⟨0, 0, 0, 1⟩ : XYZW K).raw = nth tans j by ext <;> simp [XYZW.ofXYZ, XYZW.raw]] at q1
      simpa [XYZW.ofXYZ] using q1
    rw [show ((1 : ℕ) : ℤ) = 1 from rfl] at e1
    rw [e1]
    refine congrArg ok (ext_nth (by simpa using e2) ?_)
    intro i hi
    rw [e2] at hi
    rcases i with _ | _ | i
    · exact f0
    · exact f1
    · omega

/-- C76 for `CreateCubicHermite` itself: at least four points, consecutive points different, total length beyond the tolerance: the
curve exists, runs over `[0,1]`, and interpolates points and tangents at the chord length parameters. -/
theorem C76_create {pts tans : List (XYZ ℝ)} {n : ℕ} (hn : 3 < n) (hp : pts.length = n) (ht : tans.length = n)
    (hd : ∀ j, j + 1 < n → 0 < (nth pts (j + 1)).distance (nth pts j))
    (hl : ∀ total, total = ∑ j ∈ range (n - 1), (nth pts (j + 1)).distance (nth pts j) → 1 / 1000000 * (1 + total) < total) :
    ∃ c uk, createCubicHermite pts tans = ok c ∧ getChordParameterization pts = ok uk ∧ WellFormed c 3 (2 * n - 1) ∧ nth c.knots 3 = 0 ∧ nth c.knots (2 * n - 1 + 1) = 1 ∧
      (EndsSeparated (nth c.knots) 3 (2 * n - 1) → ∀ j, j < n → NurbsCurve.pointOnCurve c (nth uk j) = ok (nth pts j) ∧
        NurbsCurve.rationalDerivatives c 1 (nth uk j) = ok [nth pts j, nth tans j]) := by
  obtain ⟨uk, e, l, u0, u1, -, hval⟩ := C46_chord pts (by omega)
  rw [hp] at hval u1 l
  have hval := hval _ rfl (hl _ rfl)
  have hmono : ∀ i j, i < j → j < n → nth uk i < nth uk j := by
    intro i j hij hj
    have hpos := hl _ rfl
    have ht0 : 0 < ∑ j ∈ range (n - 1), (nth pts (j + 1)).distance (nth pts j) := by
      refine sum_pos (fun j hj => hd j (by rw [mem_range] at hj; omega)) ⟨0, by rw [mem_range]; omega⟩
    rw [hval i (by omega), hval j hj]
    refine div_lt_div_of_pos_right ?_ ht0
    obtain ⟨k, rfl⟩ := Nat.exists_eq_add_of_lt hij
    rw [show i + k + 1 = i + (k + 1) by omega, sum_range_add]
    have : 0 < ∑ x ∈ range (k + 1), (nth pts (i + x + 1)).distance (nth pts (i + x)) :=
      sum_pos (fun x hx => hd _ (by rw [mem_range] at hx; omega)) ⟨0, by rw [mem_range]; omega⟩
    linarith
  obtain ⟨c, h1, h2, -, h4, h5, -⟩ := C76_hermite hn hp ht l hmono
  refine ⟨c, uk, ?_, e, h2, by rw [h4, u0], by rw [h5, u1], ?_⟩
  · unfold createCubicHermite
    rw [validate_of (by simp [hp, hn]), ok_bind, validate_of (by simp [hp, ht]), ok_bind, e, ok_bind, h1]
  · intro he
    exact C76_hermite_eval hn hp ht l hmono h1 he

/-- C76: fewer than four points, or a different number of tangents, are rejected. -/
theorem C76_rejects {pts tans : List (XYZ ℝ)} (h : pts.length ≤ 3 ∨ pts.length ≠ tans.length) : createCubicHermite pts tans = invalidArg := by
  unfold createCubicHermite
  by_cases h3 : pts.length ≤ 3
  · rw [decide_eq_false (by omega)]; rfl
  · rw [validate_of (by rw [decide_eq_true_eq]; omega), ok_bind, decide_eq_false (by
      rcases h with h | h
      · omega
      · exact_mod_cast h)]
    rfl

/-- C76 is not vacuous: four points with parameters 0, 1, 2, 4 -/
example : cubicHermite ([⟨0, 0, 0⟩, ⟨1, 1, 0⟩, ⟨2, 0, 0⟩, ⟨3, 3, 0⟩] : List (XYZ ℚ)) [⟨1, 0, 0⟩, ⟨1, 0, 0⟩, ⟨0, 1, 0⟩, ⟨1, 1, 1⟩] [0, 1, 2, 4] =
    ok { degree := 3, knots := [0, 0, 0, 0, 1, 1, 2, 2, 4, 4, 4, 4],
         cps := [⟨0, 0, 0, 1⟩, ⟨1/3, 0, 0, 1⟩, ⟨2/3, 1, 0, 1⟩, ⟨4/3, 1, 0, 1⟩, ⟨2, -1/3, 0, 1⟩, ⟨2, 2/3, 0, 1⟩, ⟨7/3, 7/3, -2/3, 1⟩, ⟨3, 3, 0, 1⟩] } := by
  decide +kernel

example : EndsSeparated (nth ([0, 0, 0, 0, 1, 1, 2, 2, 4, 4, 4, 4] : List ℚ)) 3 7 := by
  constructor <;> decide +kernel

end LNLib.Props
