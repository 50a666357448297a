import Verif.Model.CurveParam
import Verif.Lemmas.Continuity
import Verif.Props.BasisDers
import Verif.Props.KnotInsertion

/-!
# C125: the continuity of a curve at a parameter
-/
set_option linter.unusedSectionVars false

namespace LNLib.Props
open LNLib Res Spec Finset

/-- the piece of `∑ᵢ N_{i,p} fᵢ` on span `s` as a polynomial -/
noncomputable def pieceP (U : ℕ → ℝ) (s p n : ℕ) (f : ℕ → ℝ) : Polynomial ℝ :=
  ∑ i ∈ range (n + 1), NspanP U s p i * Polynomial.C (f i)

theorem pieceP_deriv (U : ℕ → ℝ) (s p n : ℕ) (f : ℕ → ℝ) (k : ℕ) (u : ℝ) :
    ((Polynomial.derivative^[k]) (pieceP U s p n f)).eval u = ∑ i ∈ range (n + 1), dN U s p i k u * f i := by
  unfold pieceP
  rw [Polynomial.iterate_derivative_sum, Polynomial.eval_finsetSum]
  apply Finset.sum_congr rfl
  intro i _
  rw [mul_comm, Polynomial.iterate_derivative_C_mul, Polynomial.eval_mul, Polynomial.eval_C, mul_comm]
  rfl

theorem pieceP_eval {U : ℕ → ℝ} {s p n : ℕ} {t : ℝ} (hm : MonoTo U (n + p + 1)) (hs : IsSpan U p n t s) (f : ℕ → ℝ) :
    (pieceP U s p n f).eval t = ∑ i ∈ range (n + 1), N U (U (n + 1)) p i t * f i := by
  have := pieceP_deriv U s p n f 0 t
  rw [Function.iterate_zero, id] at this
  rw [this]
  apply Finset.sum_congr rfl
  intro i hi
  rw [mem_range] at hi
  rw [dN_zero, N_eq_Nspan (p := p) (n := n) (m := n + p + 1) (s := s) hm (by omega) hs]
  omega

theorem piece_first {U : ℕ → ℝ} {p n b m : ℕ} {u : ℝ} (hi : InsertAt U p n b m u) (h0 : U p < u) : p ≤ b - m := by
  by_contra hc
  have h1 := hi.sp
  have h2 := hi.pk
  have := hi.eq p (by omega) hi.pk
  rw [this] at h0
  exact absurd h0 (lt_irrefl _)

/-- a sum of basis functions is as smooth at `u` as the degree minus the multiplicity of `u` -/
theorem basis_contDiff {U : ℕ → ℝ} {p n b m : ℕ} {u : ℝ} (hi : InsertAt U p n b m u) (h0 : U p < u) (f : ℕ → ℝ) :
    ContDiffAt ℝ ((p - m : ℕ) : ℕ) (fun t => ∑ i ∈ range (n + 1), N U (U (n + 1)) p i t * f i) u := by
  have hm := hi.mono
  have hpa := piece_first hi h0
  have hkn := hi.kn
  have hsp := hi.sp
  have hpk := hi.pk
  have hua : U (b - m) < u := hi.ne _ (by omega)
  have hlt : U (b - m) < U (b - m + 1) := by
    rcases Nat.eq_zero_or_pos m with h | h
    · subst h; exact lt_of_lt_of_le hua hi.hi.le
    · rw [hi.eq (b - m + 1) (by omega) (by omega)]; exact hua
  have hltb : U b < U (b + 1) := lt_of_le_of_lt hi.lo hi.hi
  have hpieces : ∀ k ≤ p - m, ((Polynomial.derivative^[k]) (pieceP U (b - m) p n f)).eval u = ((Polynomial.derivative^[k]) (pieceP U b p n f)).eval u := by
    intro k hk
    rw [pieceP_deriv, pieceP_deriv]
    apply Finset.sum_congr rfl
    intro i hin
    rw [mem_range] at hin
    rw [dN_agree hm (by omega) hi.eq hua.ne hi.hi.ne' k p i (by omega) (by omega)]
  refine ((contDiff_pieces u (p - m) _ _ hpieces).contDiffAt).congr_of_eventuallyEq ?_
  filter_upwards [Ioo_mem_nhds hua hi.hi] with t ht
  by_cases h : t < u
  · rw [if_pos h, pieceP_eval hm]
    refine ⟨hpa, by omega, hlt, ht.1.le, Or.inl ?_⟩
    rcases Nat.eq_zero_or_pos m with h' | h'
    · subst h'; exact ht.2
    · rw [hi.eq (b - m + 1) (by omega) (by omega)]; exact h
  · rw [if_neg h, pieceP_eval hm]
    exact ⟨hpk, hkn, hltb, hi.lo.trans (not_lt.mp h), Or.inl ht.2⟩

/-- C125: at every parameter `u` inside the domain, `GetContinuity` answers the degree minus the multiplicity of `u`, and
the curve is that many times continuously differentiable there; and the derivatives `ComputeRationalCurveDerivatives`
returns at `u` are the true derivatives up to that order, also when `u` is a knot. -/
theorem C125_continuity {c : NurbsCurve ℝ} {p n : ℕ} {u : ℝ} (w : WellFormed c p n) (he : EndsSeparated (nth c.knots) p n)
    (hsep : KnotSeparated c.knots u) (h0 : nth c.knots p < u) (h1 : u < nth c.knots (n + 1)) (hsp : c.knots.count u ≤ p)
    (hw : weightFn (nth c.knots) p n (nth c.cps) u ≠ 0) :
    ∃ r : ℕ, getContinuity c.degree c.knots u = ok (r : ℤ) ∧ r + c.knots.count u = p ∧
      ContDiffAt ℝ r (fun t => (rationalPoint (nth c.knots) p n (nth c.cps) t).x) u ∧
      ContDiffAt ℝ r (fun t => (rationalPoint (nth c.knots) p n (nth c.cps) t).y) u ∧
      ContDiffAt ℝ r (fun t => (rationalPoint (nth c.knots) p n (nth c.cps) t).z) u ∧
      ∀ d : ℕ, 0 < d → ∃ l, NurbsCurve.rationalDerivatives c d u = ok l ∧ ∀ k ≤ min d r,
        (nth l k).x = iteratedDeriv k (fun t => (rationalPoint (nth c.knots) p n (nth c.cps) t).x) u ∧
        (nth l k).y = iteratedDeriv k (fun t => (rationalPoint (nth c.knots) p n (nth c.cps) t).y) u ∧
        (nth l k).z = iteratedDeriv k (fun t => (rationalPoint (nth c.knots) p n (nth c.cps) t).z) u := by
  obtain ⟨b, hb, hmul, hi⟩ := insertAt_of w he hsep h0.le h1 hsp
  set m := c.knots.count u with hmdef
  set U := nth c.knots with hU
  have hmono := hi.mono
  have hkn := hi.kn
  have hpk := hi.pk
  have hspan : ∀ t, u ≤ t → t < U (b + 1) → IsSpan U p n t b := fun t h2 h3 =>
    ⟨hpk, hkn, lt_of_le_of_lt hi.lo hi.hi, hi.lo.trans h2, Or.inl h3⟩
  have hsm : ∀ f : ℕ → ℝ, ContDiffAt ℝ ((p - m : ℕ) : ℕ) (fun t => (∑ i ∈ range (n + 1), N U (U (n + 1)) p i t * (nth c.cps i).w)⁻¹ *
      ∑ i ∈ range (n + 1), N U (U (n + 1)) p i t * f i) u := fun f =>
    ((basis_contDiff hi h0 _).inv hw).mul (basis_contDiff hi h0 f)
  have ex : (fun t => (rationalPoint U p n (nth c.cps) t).x) = fun t => (∑ i ∈ range (n + 1), N U (U (n + 1)) p i t * (nth c.cps i).w)⁻¹ *
      ∑ i ∈ range (n + 1), N U (U (n + 1)) p i t * (nth c.cps i).wx := by
    funext t; unfold rationalPoint; show _ * _ = _; rw [XYZ.sum_x]
  have ey : (fun t => (rationalPoint U p n (nth c.cps) t).y) = fun t => (∑ i ∈ range (n + 1), N U (U (n + 1)) p i t * (nth c.cps i).w)⁻¹ *
      ∑ i ∈ range (n + 1), N U (U (n + 1)) p i t * (nth c.cps i).wy := by
    funext t; unfold rationalPoint; show _ * _ = _; rw [XYZ.sum_y]
  have ez : (fun t => (rationalPoint U p n (nth c.cps) t).z) = fun t => (∑ i ∈ range (n + 1), N U (U (n + 1)) p i t * (nth c.cps i).w)⁻¹ *
      ∑ i ∈ range (n + 1), N U (U (n + 1)) p i t * (nth c.cps i).wz := by
    funext t; unfold rationalPoint; show _ * _ = _; rw [XYZ.sum_z]
  have hpos := w.pos
  refine ⟨p - m, ?_, by omega, by rw [ex]; exact hsm _, by rw [ey]; exact hsm _, by rw [ez]; exact hsm _, ?_⟩
  · unfold getContinuity
    rw [validate_of (by rw [w.degree]; simpa using hpos), ok_bind, hmul, ok_bind, w.degree]
    congr 1
    omega
  · intro d hd
    obtain ⟨l, e, hl, hL⟩ := C20_leibniz w he h0.le h1.le (hspan u le_rfl hi.hi) hd hw
    refine ⟨l, e, ?_⟩
    set W := pieceP U b p n fun i => (nth c.cps i).w with hW
    have hwp : W.eval u ≠ 0 := by rw [hW, pieceP_eval hmono (hspan u le_rfl hi.hi)]; exact hw
    have key : ∀ (f : ℕ → ℝ) (D : ℕ → ℝ),
        (∀ k ≤ d, ∑ i ∈ range (k + 1), (k.choose i : ℝ) * (curveDeriv U b p n (nth c.cps) i u).w * D (k - i) = ∑ i ∈ range (n + 1), dN U b p i k u * f i) →
        ∀ k ≤ min d (p - m), D k = iteratedDeriv k (fun t => (∑ i ∈ range (n + 1), N U (U (n + 1)) p i t * (nth c.cps i).w)⁻¹ *
          ∑ i ∈ range (n + 1), N U (U (n + 1)) p i t * f i) u := by
      intro f D hD k hk
      have hq := quotient_deriv (A := pieceP U b p n f) (W := W) (R := fun x => (W.eval x)⁻¹ * (pieceP U b p n f).eval x) (d := d) (D := D) hwp
        (Filter.EventuallyEq.refl _ _) (by
          intro k hk
          rw [pieceP_deriv, ← hD k hk]
          apply Finset.sum_congr rfl
          intro i _
          rw [hW, pieceP_deriv]
          unfold curveDeriv
          rw [XYZW.sum_w]) k (by omega)
      rw [hq]
      have hmem : u ∈ Set.Ico u (U (b + 1)) := ⟨le_rfl, hi.hi⟩
      have hWc : ContDiffAt ℝ k (fun x => W.eval x) u := by
        have := (Polynomial.contDiff_aeval (R := ℝ) W (𝕜 := ℝ) k).contDiffAt (x := u)
        simpa using this
      have hAc : ContDiffAt ℝ k (fun x => (pieceP U b p n f).eval x) u := by
        have := (Polynomial.contDiff_aeval (R := ℝ) (pieceP U b p n f) (𝕜 := ℝ) k).contDiffAt (x := u)
        simpa using this
      have hGc : ContDiffAt ℝ k (fun x => (W.eval x)⁻¹ * (pieceP U b p n f).eval x) u := (hWc.inv hwp).mul hAc
      rw [← iteratedDerivWithin_eq_iteratedDeriv (uniqueDiffOn_Ico u (U (b + 1))) ((hsm f).of_le (by exact_mod_cast (by omega : k ≤ p - m))) hmem,
        ← iteratedDerivWithin_eq_iteratedDeriv (uniqueDiffOn_Ico u (U (b + 1))) hGc hmem]
      refine iteratedDerivWithin_congr ?_ hmem
      intro t ht
      show _ * _ = _ * _
      rw [hW, pieceP_eval hmono (hspan t ht.1 ht.2), pieceP_eval hmono (hspan t ht.1 ht.2)]
    have hsumx : ∀ (L : XYZ ℝ →ₗ[ℝ] ℝ), ∀ k ≤ d, ∑ i ∈ range (k + 1), (k.choose i : ℝ) * (curveDeriv U b p n (nth c.cps) i u).w * L (nth l (k - i)) =
        ∑ i ∈ range (n + 1), dN U b p i k u * L (nth c.cps i).raw := by
      intro L k hk
      have := congrArg L (hL k hk)
      unfold curveDeriv at this
      rw [XYZW.sum_raw, map_sum, map_sum] at this
      simp only [map_smul, smul_eq_mul] at this
      exact this
    intro k hk
    rw [ex, ey, ez]
    exact ⟨key (fun i => (nth c.cps i).wx) (fun k => (nth l k).x) (hsumx XYZ.xL) k hk,
      key (fun i => (nth c.cps i).wy) (fun k => (nth l k).y) (hsumx XYZ.yL) k hk,
      key (fun i => (nth c.cps i).wz) (fun k => (nth l k).z) (hsumx XYZ.zL) k hk⟩

/-- a quadratic with a simple and a double interior knot -/
noncomputable def kinkCurve : NurbsCurve ℝ :=
  { degree := 2, knots := [0, 0, 0, 1, 2, 2, 3, 3, 3], cps := [⟨0, 0, 0, 1⟩, ⟨2, 2, 0, 2⟩, ⟨2, 0, 0, 1⟩, ⟨3, 1, 0, 1⟩, ⟨4, 0, 0, 1⟩, ⟨5, 2, 0, 1⟩] }

/-- the hypotheses of C125 hold at the simple and at the double knot of `kinkCurve`: continuity 1 and 0 -/
example : WellFormed kinkCurve 2 5 ∧ EndsSeparated (nth kinkCurve.knots) 2 5 ∧
    (KnotSeparated kinkCurve.knots 1 ∧ nth kinkCurve.knots 2 < 1 ∧ (1 : ℝ) < nth kinkCurve.knots 6 ∧ kinkCurve.knots.count 1 = 1 ∧
      weightFn (nth kinkCurve.knots) 2 5 (nth kinkCurve.cps) 1 ≠ 0) ∧
    (KnotSeparated kinkCurve.knots 2 ∧ nth kinkCurve.knots 2 < 2 ∧ (2 : ℝ) < nth kinkCurve.knots 6 ∧ kinkCurve.knots.count 2 = 2 ∧
      weightFn (nth kinkCurve.knots) 2 5 (nth kinkCurve.cps) 2 ≠ 0) := by
  refine ⟨⟨rfl, by decide, by decide, rfl, by decide, rfl, ?_⟩, ?_, ⟨?_, ?_, ?_, ?_, ?_⟩, ⟨?_, ?_, ?_, ?_, ?_⟩⟩
  · apply isValidKnotVector_nth.mp
    simp [kinkCurve, isValidKnotVector]; norm_num
  · constructor <;> simp [kinkCurve, nth] <;> norm_num
  · intro x hx
    simp only [kinkCurve, List.mem_cons, List.not_mem_nil, or_false] at hx
    rcases hx with h | h | h | h | h | h | h | h | h <;> subst h <;> norm_num [abs_of_pos]
  · simp [kinkCurve, nth]
  · simp [kinkCurve, nth]
  · simp [kinkCurve, List.count_cons]
  · simp [weightFn, kinkCurve, nth, N, Finset.sum_range_succ]; norm_num
  · intro x hx
    simp only [kinkCurve, List.mem_cons, List.not_mem_nil, or_false] at hx
    rcases hx with h | h | h | h | h | h | h | h | h <;> subst h <;> norm_num [abs_of_pos]
  · simp [kinkCurve, nth]
  · simp [kinkCurve, nth]; norm_num
  · simp [kinkCurve, List.count_cons]
  · simp [weightFn, kinkCurve, nth, N, Finset.sum_range_succ]; norm_num

end LNLib.Props
