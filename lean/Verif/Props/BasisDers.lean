import Verif.Lemmas.CurveDers
import Verif.Props.Curve
import Verif.Props.Poly
import Mathlib.Analysis.Calculus.Deriv.Polynomial
import Mathlib.Analysis.Calculus.IteratedDeriv.Lemmas
import Mathlib.Analysis.Calculus.ContDiff.Polynomial
import Mathlib.Analysis.Calculus.ContDiff.Operations

/-!
# C19, C20, C65: derivatives of basis functions and curves
(Algorithm/Polynomials.cpp, include/BsplineCurve.h, Geometry/Curve/NurbsCurve.cpp)
-/
set_option linter.unusedSectionVars false

namespace LNLib.Props
open LNLib Res Spec Finset

variable {K : Type} [Field K] [LinearOrder K] [IsStrictOrderedRing K]
variable {T : Type} [AddCommGroup T] [Module K T]

theorem span_range {U : List K} {p n s : ℕ} {t : K} (hlen : U.length = n + p + 2)
    (hsorted : ∀ i j, i ≤ j → j < U.length → nth U i ≤ nth U j) (h : IsSpan (nth U) p n t s) :
    nth U 0 - doubleEps ≤ t ∧ t ≤ nth U (U.length - 1) + doubleEps := by
  obtain ⟨h1, h2, h3, h4, h5⟩ := h
  have heps := doubleEps_pos (K := K)
  have a0 := hsorted 0 s (by omega) (by omega)
  have a1 := hsorted (s + 1) (U.length - 1) (by omega) (by omega)
  have a2 : t ≤ nth U (s + 1) := by rcases h5 with h5 | h5 <;> [exact h5.le; exact h5.1.le]
  constructor <;> linarith

theorem sum_dN {U : ℕ → K} {m s p k : ℕ} {t : K} (hm : MonoTo U m) (hs : U s < U (s + 1)) (hps : p ≤ s) (hsm : s + p + 1 ≤ m)
    (hk : 0 < k) : ∑ r ∈ range (p + 1), dN U s p (s - p + r) k t = 0 := by
  unfold dN
  rw [← Polynomial.eval_finsetSum, ← Polynomial.iterate_derivative_sum, NspanP_sum hm hs hps hsm]
  obtain ⟨k, rfl⟩ : ∃ k', k = k' + 1 := ⟨k - 1, by omega⟩
  rw [Function.iterate_succ_apply, Polynomial.derivative_one, Polynomial.iterate_derivative_zero, Polynomial.eval_zero]

/-! ## C19 -/

/-- C19: for a parameter `t` of span `s`, `BasisFunctionsDerivatives` runs without undefined behaviour;
entry `[k][r]` is the `k`-th derivative at `t` of the basis polynomial with index `s-p+r`, row 0 are the
Cox–de Boor values, and every row `k ≥ 1` sums to zero. -/
theorem C19_derivatives {U : List K} {p n d s : ℕ} {t : K} (hp : p ≤ 7) (hd : d ≤ p) (hlen : U.length = n + p + 2)
    (hsorted : ∀ i j, i ≤ j → j < U.length → nth U i ≤ nth U j) (hs : IsSpan (nth U) p n t s) :
    ∃ m, basisFunctionsDerivatives s p d U t = ok m ∧ IsMat m (d + 1) (p + 1) ∧
      (∀ k ≤ d, ∀ r ≤ p, ent m k r = dN (nth U) s p (s - p + r) k t) ∧
      (∀ r ≤ p, ent m 0 r = N (nth U) (nth U (n + 1)) p (s - p + r) t) ∧
      (∀ k, 1 ≤ k → k ≤ d → ∑ r ∈ range (p + 1), ent m k r = 0) := by
  obtain ⟨b1, b2⟩ := span_range hlen hsorted hs
  have hm : MonoTo (nth U) (n + p + 1) := fun i j h1 h2 => hsorted i j h1 (by omega)
  have hs' := hs
  obtain ⟨h1, h2, h3, h4, h5⟩ := hs
  obtain ⟨m, e, hmat, hent⟩ := basisFunctionsDerivatives_run (U := U) (s := s) (p := p) (d := d) (t := t) hp hd h1 (by omega)
    (isValidKnotVector_nth.mpr hsorted) h3 b1 b2
  refine ⟨m, e, hmat, hent, ?_, ?_⟩
  · intro r hr
    rw [hent 0 (by omega) r hr, dN_zero, N_eq_Nspan (p := p) (n := n) (m := n + p + 1) (s := s) hm (by omega) hs']
    omega
  · intro k hk1 hkd
    rw [← sum_dN hm h3 h1 (by omega) (t := t) hk1]
    apply Finset.sum_congr rfl
    intro r hr
    rw [mem_range] at hr
    exact hent k hkd r (by omega)

/-- C19: a derivative order above the degree is rejected with an exception. -/
theorem C19_order_rejected {s degree d : ℤ} {U : List K} {t : K} (hs : 0 ≤ s) (h0 : 0 ≤ degree) (h7 : degree ≤ 7) (hd : degree < d) :
    basisFunctionsDerivatives s degree d U t = invalidArg := by
  unfold basisFunctionsDerivatives
  rw [validate_of (by simpa using hs), ok_bind, validate_of (by simp [nurbsMaxDegree, h0, h7]), ok_bind]
  have : validate (decide (d ≤ degree)) = invalidArg := by
    rw [decide_eq_false (by omega)]; rfl
  rw [this]; rfl

/-- C19: the specialised first order routine gives the same two rows (whatever the caller's array held). -/
theorem C19_first_order {U : List K} {p n s : ℕ} {t : K} {out : List (List (Option K))} (hout : IsMat out 2 8)
    (hp : p ≤ 7) (hp1 : 1 ≤ p) (hlen : U.length = n + p + 2)
    (hsorted : ∀ i j, i ≤ j → j < U.length → nth U i ≤ nth U j) (hs : IsSpan (nth U) p n t s) :
    ∃ m, basisFunctionsFirstOrderDerivative s p U t out = ok m ∧
      ∀ r ≤ p, aget2 m 0 r = ok (N (nth U) (nth U (n + 1)) p (s - p + r) t) ∧ aget2 m 1 r = ok (dN (nth U) s p (s - p + r) 1 t) := by
  obtain ⟨b1, b2⟩ := span_range hlen hsorted hs
  have hm : MonoTo (nth U) (n + p + 1) := fun i j h1 h2 => hsorted i j h1 (by omega)
  have hs' := hs
  obtain ⟨h1, h2, h3, h4, h5⟩ := hs
  obtain ⟨m, e, hmat, hent⟩ := basisFunctionsFirstOrderDerivative_run (U := U) (s := s) (p := p) (t := t) hout hp hp1 h1 (by omega)
    (isValidKnotVector_nth.mpr hsorted) h3 b1 b2
  refine ⟨m, e, ?_⟩
  intro r hr
  refine ⟨aget2_of (a := 0) rfl rfl ?_, aget2_of (a := 1) rfl rfl (hent 1 (le_refl _) r hr)⟩
  rw [hent 0 (by omega) r hr, dN_zero, N_eq_Nspan (p := p) (n := n) (m := n + p + 1) (s := s) hm (by omega) hs']
  omega

theorem iteratedDeriv_poly (P : Polynomial ℝ) (k : ℕ) (t : ℝ) :
    iteratedDeriv k (fun x => P.eval x) t = ((Polynomial.derivative^[k]) P).eval t := by
  induction k generalizing P with
  | zero => simp
  | succ k ih =>
    rw [iteratedDeriv_succ']
    have : deriv (fun x => P.eval x) = fun x => (Polynomial.derivative P).eval x := by
      funext x; exact P.deriv
    rw [this, ih, Function.iterate_succ_apply]

/-- C19: the derivatives are derivatives in the sense of analysis: inside a span, the `k`-th iterated
derivative of the Cox–de Boor function `N_{i,p}` is `dN`. -/
theorem C19_true_derivative {U : List ℝ} {p n s : ℕ} {t : ℝ} (hlen : U.length = n + p + 2) (hps : p ≤ s) (hsn : s ≤ n)
    (hsorted : ∀ i j, i ≤ j → j < U.length → nth U i ≤ nth U j) (h0 : nth U s < t) (h1 : t < nth U (s + 1)) (i k : ℕ) (hi : i ≤ n) :
    iteratedDeriv k (fun x => N (nth U) (nth U (n + 1)) p i x) t = dN (nth U) s p i k t := by
  have hm : MonoTo (nth U) (n + p + 1) := fun i j h1 h2 => hsorted i j h1 (by omega)
  have hev : (fun x => N (nth U) (nth U (n + 1)) p i x) =ᶠ[nhds t] fun x => (NspanP (nth U) s p i).eval x := by
    filter_upwards [Ioo_mem_nhds h0 h1] with x hx
    rw [NspanP_eval]
    exact N_eq_Nspan (p := p) (n := n) (m := n + p + 1) (s := s) hm (by omega)
      ⟨hps, hsn, h0.trans h1, hx.1.le, Or.inl hx.2⟩ _ _ (by omega)
  rw [hev.iteratedDeriv_eq]
  exact iteratedDeriv_poly _ _ _

/-- C19 is not vacuous: a cubic knot vector with an interior knot, `t = 3/4` in span 4; the model
computes the three rows. -/
example : IsSpan (nth ([0, 0, 0, 0, 1/2, 1, 1, 1, 1] : List ℚ)) 3 4 (3/4) 4 ∧
    basisFunctionsDerivatives 4 3 2 ([0, 0, 0, 0, 1/2, 1, 1, 1, 1] : List ℚ) (3/4) =
      ok [[1/32, 1/4, 19/32, 1/8], [-3/8, -3/2, 3/8, 3/2], [3, 0, -15, 12]] :=
  ⟨by unfold IsSpan; decide +kernel, by decide +kernel⟩

/-! ## C65 -/

theorem span_found {c : BsplineCurve K T} {p n s : ℕ} {t : K} (w : WellFormed c p n)
    (he : EndsSeparated (nth c.knots) p n) (h0 : nth c.knots p ≤ t) (h1 : t ≤ nth c.knots (n + 1))
    (hs : IsSpan (nth c.knots) p n t s) : getKnotSpanIndex c.degree c.knots t = ok (s : ℤ) := by
  obtain ⟨s', h, hs'⟩ := span_isSpan (t := t) w he h0 h1
  have : s = s' := C01_span_unique (fun i j h1 h2 => w.sorted i j h1 (by rw [w.knots]; omega)) hs hs'
  rw [h, this]

/-- C65: `ComputeDerivatives(curve, d, t)` returns `d+1` vectors, the `k`-th of which is
`∑ᵢ N^{(k)}_{i,p}(t) Pᵢ`, for every order `d ≥ 1` (also above the degree, where it is zero). -/
theorem C65_derivatives {c : BsplineCurve K T} {p n d s : ℕ} {t : K} (w : WellFormed c p n)
    (he : EndsSeparated (nth c.knots) p n) (h0 : nth c.knots p ≤ t) (h1 : t ≤ nth c.knots (n + 1))
    (hs : IsSpan (nth c.knots) p n t s) (hd : 0 < d) :
    ∃ l, c.computeDerivatives d t = ok l ∧ l.length = d + 1 ∧
      ∀ k ≤ d, nth l k = curveDeriv (nth c.knots) s p n (nth c.cps) k t := by
  obtain ⟨b1, b2⟩ := span_range w.knots w.sorted hs
  have el : c.knots.length - 1 = n + p + 1 := by rw [w.knots]; omega
  rw [el] at b2
  exact computeDerivatives_run w hd b1 b2 (span_found w he h0 h1 hs) hs.1 hs.2.1 hs.2.2.1

/-- C65: the zeroth entry is the point on the curve. -/
theorem C65_zeroth {c : BsplineCurve K T} {p n d : ℕ} {t : K} (w : WellFormed c p n)
    (he : EndsSeparated (nth c.knots) p n) (h0 : nth c.knots p ≤ t) (h1 : t ≤ nth c.knots (n + 1)) (hd : 0 < d) :
    ∃ l x, c.computeDerivatives d t = ok l ∧ c.pointOnCurve t = ok x ∧ vget l 0 = ok x := by
  obtain ⟨s, -, hs⟩ := span_isSpan (t := t) w he h0 h1
  obtain ⟨l, e, hl, hk⟩ := C65_derivatives w he h0 h1 hs hd
  refine ⟨l, _, e, C05_eval w he h0 h1, ?_⟩
  rw [vget_nth (k := 0) (i := 0) rfl (by omega), hk 0 (by omega), curveDeriv_window hs.1 hs.2.1,
    curvePoint_span (m := n + p + 1) (wf_monoTo w) (le_refl _) hs]
  simp only [dN_zero]

/-- C65: the alternative algorithm through the control points of the derivative curves returns the same
list. -/
theorem C65_by_control_points {c : BsplineCurve K T} {p n d : ℕ} {t : K} (w : WellFormed c p n)
    (he : EndsSeparated (nth c.knots) p n) (h0 : nth c.knots p ≤ t) (h1 : t ≤ nth c.knots (n + 1)) (hd : 0 < d) :
    ∃ l, c.computeDerivativesByAll d t = ok l ∧ c.computeDerivatives d t = ok l := by
  obtain ⟨s, -, hs⟩ := span_isSpan (t := t) w he h0 h1
  obtain ⟨l, e, hl, hk⟩ := C65_derivatives w he h0 h1 hs hd
  obtain ⟨b1, b2⟩ := span_range w.knots w.sorted hs
  have el : c.knots.length - 1 = n + p + 1 := by rw [w.knots]; omega
  rw [el] at b2
  obtain ⟨l', e', hl', hk'⟩ := computeDerivativesByAll_run w hd b1 b2 (span_found w he h0 h1 hs) hs.1 hs.2.1 hs.2.2.1
  refine ⟨l, ?_, e⟩
  rw [e']
  congr 1
  apply ext_nth (by omega)
  intro i hi
  rw [hk' i (by omega), hk i (by omega)]

/-- C65: an order below one is rejected. -/
theorem C65_order_rejected {c : BsplineCurve K T} {d : ℤ} {t : K} (hd : d ≤ 0) :
    c.computeDerivatives d t = invalidArg ∧ c.computeDerivativesByAll d t = invalidArg := by
  have : validate (decide (d > 0)) = invalidArg := by rw [decide_eq_false (by omega)]; rfl
  constructor
  · unfold BsplineCurve.computeDerivatives; rw [this]; rfl
  · unfold BsplineCurve.computeDerivativesByAll; rw [this]; rfl

/-- C65 is not vacuous -/
example : (∃ l, BsplineCurve.computeDerivativesByAll exCurve 3 (3/4) = ok l ∧ BsplineCurve.computeDerivatives exCurve 3 (3/4) = ok l) ∧
    BsplineCurve.computeDerivatives exCurve 3 (3/4) =
      ok [⟨25/8, 9/8, 9/8, 9/8⟩, ⟨3, -5, 3, -1⟩, ⟨4, 4, 4, 4⟩, 0] :=
  ⟨C65_by_control_points exCurve_wf exKnots_ends (by decide +kernel) (by decide +kernel) (by decide), by decide +kernel⟩

/-! ## C20 -/

theorem rational_loop {A : List (XYZ K)} {W : List K} {d : ℕ} (hA : A.length = d + 1) (hW : W.length = d + 1) (hw : nth W 0 ≠ 0) :
    Runs (forI 0 ((d : ℤ) + 1) (List.replicate (d + 1) (0 : XYZ K)) fun k derivatives => do
      let v ← vget A k
      let v ← forI 1 (k + 1) v fun i v => do
        let b ← (binomial k i : Res K)
        let w ← vget W i
        let d ← vget derivatives (k - i)
        ok (v - (b * w) • d)
      let w0 ← vget W 0
      let q ← vdiv v w0
      vset derivatives k q) (fun l => l.length = d + 1 ∧
        ∀ k ≤ d, ∑ i ∈ range (k + 1), ((k.choose i : K) * nth W i) • nth l (k - i) = nth A k) := by
  refine (Runs.forN (m := 0) (n := d + 1) (fun k l => l.length = d + 1 ∧
    ∀ k' < k, ∑ i ∈ range (k' + 1), ((k'.choose i : K) * nth W i) • nth l (k' - i) = nth A k')
    rfl (by push_cast; rfl) (by omega) ⟨by simp, by omega⟩ ?_).mono (fun l h => ⟨h.1, fun k hk => h.2 k (by omega)⟩)
  rintro k l - hk ⟨i1, i2⟩
  refine Runs.bind_eq (vget_nth rfl (by omega)) ?_
  refine Runs.bind (Q := fun v => v = nth A k - ∑ i ∈ range k, ((k.choose (i + 1) : K) * nth W (i + 1)) • nth l (k - (i + 1))) ?_ ?_
  · refine (Runs.forN (m := 1) (n := k + 1) (fun j v => v = nth A k - ∑ i ∈ range (j - 1), ((k.choose (i + 1) : K) * nth W (i + 1)) • nth l (k - (i + 1)))
      rfl (by push_cast; rfl) (by omega) (by simp) ?_).mono (fun v h => by simpa using h)
    rintro j v hj1 hjk hv
    refine Runs.bind_eq (C24_binomial (K := K) k j) ?_
    rw [if_neg (by omega)]
    refine Runs.bind_eq (vget_nth (k := j) rfl (by omega)) ?_
    refine Runs.bind_eq (vget_nth (k := k - j) (by omega) (by omega)) ?_
    refine Runs.ok ?_
    obtain ⟨j, rfl⟩ : ∃ j', j = j' + 1 := ⟨j - 1, by omega⟩
    rw [hv, Nat.add_sub_cancel, Nat.add_sub_cancel, Finset.sum_range_succ, sub_sub]
    rfl
  · rintro v rfl
    refine Runs.bind_eq (vget_nth (k := 0) rfl (by omega)) ?_
    refine Runs.bind_eq (vdiv_ok hw) ?_
    refine Runs.of_eq (vset_of (k := k) rfl (by omega)) ⟨by simp [i1], ?_⟩
    intro k' hk'
    by_cases hkk : k' = k
    · subst hkk
      rw [Finset.sum_range_succ']
      have h1 : ∀ i ∈ range k', ((k'.choose (i + 1) : K) * nth W (i + 1)) •
          nth (l.set k' ((nth W 0)⁻¹ • (nth A k' - ∑ i ∈ range k', ((k'.choose (i + 1) : K) * nth W (i + 1)) • nth l (k' - (i + 1))))) (k' - (i + 1)) =
          ((k'.choose (i + 1) : K) * nth W (i + 1)) • nth l (k' - (i + 1)) := by
        intro i hi
        rw [mem_range] at hi
        rw [nth_set (by omega), if_neg (by omega)]
      rw [Finset.sum_congr rfl h1, nth_set (by omega), if_pos (by omega), smul_smul]
      simp only [Nat.choose_zero_right, Nat.cast_one, one_mul, mul_inv_cancel₀ hw, one_smul]
      abel
    · rw [← i2 k' (by omega)]
      apply Finset.sum_congr rfl
      intro i hi
      rw [nth_set (by omega), if_neg (by omega)]

/-- C20: the returned vectors `C₀ … C_d` satisfy `A^{(k)} = ∑_{i≤k} binom(k,i) w^{(i)} C_{k-i}` for every
`k ≤ d`, where `A^{(k)}` and `w^{(i)}` are the derivatives of numerator and denominator of the rational
curve.  (As `w ≠ 0` this determines them.) -/
theorem C20_leibniz {c : NurbsCurve K} {p n d s : ℕ} {t : K} (w : WellFormed c p n)
    (he : EndsSeparated (nth c.knots) p n) (h0 : nth c.knots p ≤ t) (h1 : t ≤ nth c.knots (n + 1))
    (hs : IsSpan (nth c.knots) p n t s) (hd : 0 < d) (hw : weightFn (nth c.knots) p n (nth c.cps) t ≠ 0) :
    ∃ l, NurbsCurve.rationalDerivatives c d t = ok l ∧ l.length = d + 1 ∧
      ∀ k ≤ d, ∑ i ∈ range (k + 1), ((k.choose i : K) * (curveDeriv (nth c.knots) s p n (nth c.cps) i t).w) • nth l (k - i)
        = (curveDeriv (nth c.knots) s p n (nth c.cps) k t).raw := by
  obtain ⟨D, e, hD, hk⟩ := C65_derivatives w he h0 h1 hs hd
  unfold NurbsCurve.rationalDerivatives
  rw [e, ok_bind]
  dsimp only
  have ed : ((d : ℤ) + 1).toNat = d + 1 := by omega
  rw [ed]
  have hw0 : nth (D.map XYZW.w) 0 ≠ 0 := by
    rw [nth_map (by omega), hk 0 (by omega), curveDeriv_window hs.1 hs.2.1]
    simp only [dN_zero]
    have := curvePoint_span (m := n + p + 1) (P := nth c.cps) (wf_monoTo w) (le_refl _) hs
    rw [← this]
    unfold curvePoint
    rw [XYZW.sum_w]
    exact hw
  obtain ⟨l, e2, hl, hsum⟩ := rational_loop (A := D.map XYZW.raw) (W := D.map XYZW.w) (d := d) (by simp [hD]) (by simp [hD]) hw0
  refine ⟨l, e2, hl, ?_⟩
  intro k hkd
  rw [← hk k hkd, ← nth_map (f := XYZW.raw) (by omega), ← hsum k hkd]
  apply Finset.sum_congr rfl
  intro i hi
  rw [mem_range] at hi
  rw [nth_map (by omega), hk i (by omega)]

/-- a triangular system with a nonzero diagonal has one solution -/
theorem leibniz_unique {W a b : ℕ → K} (hw : W 0 ≠ 0) {d : ℕ}
    (h : ∀ k ≤ d, ∑ i ∈ range (k + 1), (k.choose i : K) * W i * a (k - i) = ∑ i ∈ range (k + 1), (k.choose i : K) * W i * b (k - i)) :
    ∀ k ≤ d, a k = b k := by
  intro k
  induction k using Nat.strong_induction_on with
  | _ k ih =>
    intro hk
    have := h k hk
    rw [Finset.sum_range_succ', Finset.sum_range_succ'] at this
    have e : ∑ i ∈ range k, (k.choose (i + 1) : K) * W (i + 1) * a (k - (i + 1)) = ∑ i ∈ range k, (k.choose (i + 1) : K) * W (i + 1) * b (k - (i + 1)) := by
      apply Finset.sum_congr rfl
      intro i hi
      rw [mem_range] at hi
      rw [ih (k - (i + 1)) (by omega) (by omega)]
    rw [e] at this
    simpa [hw] using this

theorem quotient_deriv {A W : Polynomial ℝ} {R : ℝ → ℝ} {t : ℝ} {d : ℕ} {D : ℕ → ℝ} (hw : W.eval t ≠ 0)
    (hR : R =ᶠ[nhds t] fun x => (W.eval x)⁻¹ * A.eval x)
    (hD : ∀ k ≤ d, ∑ i ∈ range (k + 1), (k.choose i : ℝ) * ((Polynomial.derivative^[i]) W).eval t * D (k - i) = ((Polynomial.derivative^[k]) A).eval t) :
    ∀ k ≤ d, D k = iteratedDeriv k R t := by
  have hWc : ∀ m : ℕ, ContDiffAt ℝ m (fun x => W.eval x) t := fun m => by
    have := (Polynomial.contDiff_aeval (R := ℝ) W (𝕜 := ℝ) m).contDiffAt (x := t)
    simpa using this
  have hAc : ∀ m : ℕ, ContDiffAt ℝ m (fun x => A.eval x) t := fun m => by
    have := (Polynomial.contDiff_aeval (R := ℝ) A (𝕜 := ℝ) m).contDiffAt (x := t)
    simpa using this
  have hRc : ∀ m : ℕ, ContDiffAt ℝ m (fun x => (W.eval x)⁻¹ * A.eval x) t := fun m => ((hWc m).inv hw).mul (hAc m)
  have hev : (fun x => A.eval x) =ᶠ[nhds t] ((fun x => W.eval x) * fun x => (W.eval x)⁻¹ * A.eval x) := by
    have : ∀ᶠ x in nhds t, W.eval x ≠ 0 := ((W.differentiableAt (x := t)).continuousAt).eventually_ne hw
    filter_upwards [this] with x hx
    simp only [Pi.mul_apply]
    rw [← mul_assoc, mul_inv_cancel₀ hx, one_mul]
  intro k hk
  rw [hR.iteratedDeriv_eq]
  refine leibniz_unique (W := fun i => ((Polynomial.derivative^[i]) W).eval t) (a := D) (b := fun k => iteratedDeriv k (fun x => (W.eval x)⁻¹ * A.eval x) t)
    (by simpa using hw) (d := d) ?_ k hk
  intro k hk
  rw [hD k hk, ← iteratedDeriv_poly A k t, hev.iteratedDeriv_eq, iteratedDeriv_mul (hWc k) (hRc k)]
  simp only [iteratedDeriv_poly]

/-- C20: for real curves, inside a span the returned vectors are the iterated derivatives of the rational
curve, coordinate by coordinate. -/
theorem C20_true_derivative {c : NurbsCurve ℝ} {p n d s : ℕ} {t : ℝ} (w : WellFormed c p n)
    (he : EndsSeparated (nth c.knots) p n) (hps : p ≤ s) (hsn : s ≤ n) (h0 : nth c.knots s < t) (h1 : t < nth c.knots (s + 1))
    (hd : 0 < d) (hw : weightFn (nth c.knots) p n (nth c.cps) t ≠ 0) :
    ∃ l, NurbsCurve.rationalDerivatives c d t = ok l ∧ l.length = d + 1 ∧ ∀ k ≤ d,
      (nth l k).x = iteratedDeriv k (fun u => (rationalPoint (nth c.knots) p n (nth c.cps) u).x) t ∧
      (nth l k).y = iteratedDeriv k (fun u => (rationalPoint (nth c.knots) p n (nth c.cps) u).y) t ∧
      (nth l k).z = iteratedDeriv k (fun u => (rationalPoint (nth c.knots) p n (nth c.cps) u).z) t := by
  have hm := wf_monoTo w
  have hs : ∀ x, x ∈ Set.Ioo (nth c.knots s) (nth c.knots (s + 1)) → IsSpan (nth c.knots) p n x s := fun x hx =>
    ⟨hps, hsn, h0.trans h1, hx.1.le, Or.inl hx.2⟩
  have hst := hs t ⟨h0, h1⟩
  have b0 := hm p s hps (by omega)
  have b1 := hm (s + 1) (n + 1) (by omega) (by omega)
  obtain ⟨l, e, hl, hL⟩ := C20_leibniz w he (by linarith) (by linarith) hst hd hw
  refine ⟨l, e, hl, ?_⟩
  -- the pieces as polynomials
  let poly : (ℕ → ℝ) → Polynomial ℝ := fun f => ∑ i ∈ range (n + 1), NspanP (nth c.knots) s p i * Polynomial.C (f i)
  have hpoly : ∀ (f : ℕ → ℝ) k u, ((Polynomial.derivative^[k]) (poly f)).eval u = ∑ i ∈ range (n + 1), dN (nth c.knots) s p i k u * f i := by
    intro f k u
    simp only [poly]
    rw [Polynomial.iterate_derivative_sum, Polynomial.eval_finsetSum]
    apply Finset.sum_congr rfl
    intro i _
    rw [mul_comm, Polynomial.iterate_derivative_C_mul, Polynomial.eval_mul, Polynomial.eval_C, mul_comm]
    rfl
  have hpoly0 : ∀ (f : ℕ → ℝ) u, u ∈ Set.Ioo (nth c.knots s) (nth c.knots (s + 1)) →
      (poly f).eval u = ∑ i ∈ range (n + 1), N (nth c.knots) (nth c.knots (n + 1)) p i u * f i := by
    intro f u hu
    have := hpoly f 0 u
    rw [Function.iterate_zero, id] at this
    rw [this]
    apply Finset.sum_congr rfl
    intro i hi
    rw [mem_range] at hi
    rw [dN_zero, N_eq_Nspan (p := p) (n := n) (m := n + p + 1) (s := s) hm (by omega) (hs u hu)]
    omega
  have hwp : (poly fun i => (nth c.cps i).w).eval t ≠ 0 := by rw [hpoly0 _ t ⟨h0, h1⟩]; exact hw
  have hwd : ∀ i, ((Polynomial.derivative^[i]) (poly fun i => (nth c.cps i).w)).eval t = (curveDeriv (nth c.knots) s p n (nth c.cps) i t).w := by
    intro i; rw [hpoly]; unfold curveDeriv; rw [XYZW.sum_w]
  have key : ∀ (f : ℕ → ℝ) (R : ℝ → ℝ) (D : ℕ → ℝ),
      (∀ u, u ∈ Set.Ioo (nth c.knots s) (nth c.knots (s + 1)) → R u = (∑ i ∈ range (n + 1), N (nth c.knots) (nth c.knots (n + 1)) p i u * (nth c.cps i).w)⁻¹ *
        ∑ i ∈ range (n + 1), N (nth c.knots) (nth c.knots (n + 1)) p i u * f i) →
      (∀ k ≤ d, ∑ i ∈ range (k + 1), (k.choose i : ℝ) * (curveDeriv (nth c.knots) s p n (nth c.cps) i t).w * D (k - i) = ∑ i ∈ range (n + 1), dN (nth c.knots) s p i k t * f i) →
      ∀ k ≤ d, D k = iteratedDeriv k R t := by
    intro f R D hR hD
    refine quotient_deriv (A := poly f) (W := poly fun i => (nth c.cps i).w) hwp ?_ ?_
    · filter_upwards [Ioo_mem_nhds h0 h1] with u hu
      rw [hR u hu, hpoly0 _ u hu, hpoly0 _ u hu]
    · intro k hk
      rw [hpoly, ← hD k hk]
      apply Finset.sum_congr rfl
      intro i _
      rw [hwd]
  have hsumx : ∀ (L : XYZ ℝ →ₗ[ℝ] ℝ), ∀ k ≤ d, ∑ i ∈ range (k + 1), (k.choose i : ℝ) * (curveDeriv (nth c.knots) s p n (nth c.cps) i t).w * L (nth l (k - i)) =
      ∑ i ∈ range (n + 1), dN (nth c.knots) s p i k t * L (nth c.cps i).raw := by
    intro L k hk
    have := congrArg L (hL k hk)
    unfold curveDeriv at this
    rw [XYZW.sum_raw, map_sum, map_sum] at this
    simp only [map_smul, smul_eq_mul] at this
    exact this
  intro k hk
  refine ⟨key (fun i => (nth c.cps i).wx) _ (fun k => (nth l k).x) ?_ (hsumx XYZ.xL) k hk,
    key (fun i => (nth c.cps i).wy) _ (fun k => (nth l k).y) ?_ (hsumx XYZ.yL) k hk,
    key (fun i => (nth c.cps i).wz) _ (fun k => (nth l k).z) ?_ (hsumx XYZ.zL) k hk⟩
  · intro u _
    unfold rationalPoint
    show _ * _ = _
    rw [XYZ.sum_x]
  · intro u _
    unfold rationalPoint
    show _ * _ = _
    rw [XYZ.sum_y]
  · intro u _
    unfold rationalPoint
    show _ * _ = _
    rw [XYZ.sum_z]

/-- C20 is not vacuous: the model computes the rational derivatives of `exCurve` at `3/4`. -/
example : IsSpan (nth exCurve.knots) 2 3 (3/4) 3 ∧ weightFn (nth exCurve.knots) 2 3 (nth exCurve.cps) (3/4) ≠ 0 ∧
    NurbsCurve.rationalDerivatives exCurve 1 (3/4) = ok [⟨25/9, 1, 1⟩, ⟨416/81, -32/9, 32/9⟩] :=
  ⟨by unfold IsSpan; decide +kernel, by decide +kernel, by decide +kernel⟩

end LNLib.Props
