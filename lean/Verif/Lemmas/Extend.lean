import Verif.Model.Extend
import Verif.Lemmas.BezierKnots
import Verif.Lemmas.PowerBasis
import Verif.Core.Hoare

/-!
# Lemmas for the extension of a curve
-/
set_option linter.unusedSectionVars false

namespace LNLib
open Res Spec Finset

section
variable {K : Type} [Field K] [LinearOrder K] [IsStrictOrderedRing K]

/-- on span `s` a basis function of degree `q` depends on the knots `s - q + 1, …, s + q` only -/
theorem Nspan_local {U V : ℕ → K} {s p d : ℕ} (h : ∀ j, s < j + p → j ≤ s + p → V (j + d) = U j) (t : K) :
    ∀ q ≤ p, ∀ i, Nspan V (s + d) q (i + d) t = Nspan U s q i t := by
  intro q
  induction q with
  | zero =>
    intro _ i
    simp only [Nspan]
    by_cases h1 : i = s
    · rw [if_pos h1, if_pos (by omega)]
    · rw [if_neg h1, if_neg (by omega)]
  | succ q ih =>
    intro hq i
    simp only [Nspan]
    have e1 : (t - V (i + d)) / (V (i + d + q + 1) - V (i + d)) * Nspan V (s + d) q (i + d) t =
        (t - U i) / (U (i + q + 1) - U i) * Nspan U s q i t := by
      rw [ih (by omega)]
      by_cases hz : s < i ∨ i + q < s
      · rw [Nspan_zero U s q i t hz, mul_zero, mul_zero]
      · rw [h i (by omega) (by omega), show i + d + q + 1 = i + q + 1 + d by omega, h (i + q + 1) (by omega) (by omega)]
    have e2 : (V (i + d + q + 2) - t) / (V (i + d + q + 2) - V (i + d + 1)) * Nspan V (s + d) q (i + d + 1) t =
        (U (i + q + 2) - t) / (U (i + q + 2) - U (i + 1)) * Nspan U s q (i + 1) t := by
      rw [show i + d + 1 = i + 1 + d by omega, ih (by omega)]
      by_cases hz : s < i + 1 ∨ i + 1 + q < s
      · rw [Nspan_zero U s q (i + 1) t hz, mul_zero, mul_zero]
      · rw [h (i + 1) (by omega) (by omega), show i + d + q + 2 = i + q + 2 + d by omega, h (i + q + 2) (by omega) (by omega)]
    rw [e1, e2]

/-- a polynomial in Bézier form -/
theorem taylor_bezier {p : ℕ} {c : ℕ → XYZ K} {S w u : K} :
    ∑ r ∈ range (p + 1), bernsteinP p r u • XYZW.ofXYZ (∑ k ∈ range (p + 1), (S ^ k * pbG K p r k) • c k) w =
      XYZW.ofXYZ (∑ k ∈ range (p + 1), (S * u) ^ k • c k) w := by
  have key : ∑ r ∈ range (p + 1), bernsteinP p r u • (∑ k ∈ range (p + 1), (S ^ k * pbG K p r k) • c k) = ∑ k ∈ range (p + 1), (S * u) ^ k • c k := by
    simp only [Finset.smul_sum, smul_smul]
    rw [Finset.sum_comm]
    apply Finset.sum_congr rfl
    intro k hk
    rw [mem_range] at hk
    rw [← Finset.sum_smul, mul_pow, power_bernstein (show k ≤ p by omega) u, Finset.mul_sum]
    congr 1
    apply Finset.sum_congr rfl
    intro r _
    ring
  have hw : ∑ r ∈ range (p + 1), bernsteinP p r u = 1 := by
    have := power_bernstein (K := K) (p := p) (k := 0) (by omega) u
    rw [pow_zero] at this
    rw [this]
    apply Finset.sum_congr rfl
    intro r _
    simp [pbG]
  rw [← key]
  have hs : ∀ (s : Finset ℕ) (f : ℕ → K) (g : ℕ → XYZ K), ∑ r ∈ s, f r • XYZW.ofXYZ (g r) w =
      ⟨(∑ r ∈ s, f r • g r).x * w, (∑ r ∈ s, f r • g r).y * w, (∑ r ∈ s, f r • g r).z * w, (∑ r ∈ s, f r) * w⟩ := by
    intro s f g
    classical
    induction s using Finset.induction_on with
    | empty => ext <;> simp
    | insert a s ha ih =>
      rw [Finset.sum_insert ha, Finset.sum_insert ha, Finset.sum_insert ha, ih]
      ext <;> simp [XYZW.ofXYZ] <;> ring
  rw [hs, hw, one_mul]
  rfl

theorem bernsteinP_symm {p r : ℕ} (hr : r ≤ p) (u : K) : bernsteinP p r u = bernsteinP p (p - r) (1 - u) := by
  unfold bernsteinP
  rw [Nat.choose_symm hr, show p - (p - r) = r by omega]
  ring

end

theorem taylorCoeffs_run {ders : List (XYZ ℝ)} {p : ℕ} (h : ders.length = p + 1) :
    ∃ l, taylorCoeffs ders p = ok l ∧ l.length = p + 1 ∧ ∀ k, k ≤ p → nth l k = ((k.factorial : ℝ))⁻¹ • nth ders k := by
  unfold taylorCoeffs
  have := Runs.forN (m := 0) (n := p + 1) (a := 0) (b := (p : ℤ) + 1) (s := (([] : List (XYZ ℝ)), (1 : ℝ)))
    (Inv := fun i st => st.1.length = i ∧ (∀ k, k < i → nth st.1 k = ((k.factorial : ℝ))⁻¹ • nth ders k) ∧ st.2 = ((i - 1).factorial : ℝ))
    (body := fun i st => do
      let factorial := if i > 0 then st.2 * (i : ℝ) else st.2
      let d ← vget ders i
      let c ← vdiv d factorial
      ok (st.1 ++ [c], factorial)) rfl (by push_cast; rfl) (by omega) ⟨rfl, fun k hk => absurd hk (by omega), by simp⟩ (by
      intro i st _ hi ⟨h1, h2, h3⟩
      dsimp only
      have hf : (if (i : ℤ) > 0 then st.2 * ((i : ℤ) : ℝ) else st.2) = (i.factorial : ℝ) := by
        rw [h3]
        cases i with
        | zero => simp
        | succ j => rw [if_pos (by omega), Nat.factorial_succ]; rw [show j + 1 - 1 = j from rfl]; push_cast; ring
      have hne : (i.factorial : ℝ) ≠ 0 := by exact_mod_cast i.factorial_ne_zero
      rw [hf, vget_nth (k := i) rfl (by omega), ok_bind, vdiv, if_neg hne, ok_bind]
      refine Runs.ok ⟨by simp [h1], ?_, by simp⟩
      intro k hk
      by_cases hki : k < i
      · rw [nth_append_left (by omega), h2 k hki]
      · have : k = i := by omega
        subst this
        rw [nth_append_right (by omega), h1, Nat.sub_self]; rfl)
  obtain ⟨r, e, h1, h2, -⟩ := this
  rw [e, ok_bind]
  exact ⟨r.1, rfl, h1, fun k hk => h2 k (by omega)⟩

theorem taylorVelocity_ok {co : List (XYZ ℝ)} {p : ℕ} (hp : 0 < p) (h : co.length = p + 1) (t : ℝ) :
    ∃ v, taylorVelocity co p t = ok v := by
  unfold taylorVelocity
  rw [vget_nth (k := p) rfl (by omega), ok_bind]
  obtain ⟨v, e, -⟩ := forDown_inv (a := (p : ℤ) - 1) (b := 1) (s := ((p : ℤ) : ℝ) • nth co p) (body := fun k v => do
    let c ← vget co k
    ok (t • v + (k : ℝ) • c)) (fun _ _ => True) (by omega) trivial (by
      intro i s h1 h2 _
      obtain ⟨j, rfl⟩ := Int.eq_ofNat_of_zero_le (show 0 ≤ i by omega)
      rw [vget_nth (k := j) rfl (by omega), ok_bind]
      exact ⟨_, rfl, trivial⟩)
  exact ⟨v, e⟩

/-- the Newton iteration always answers -/
theorem extendParam_run {co : List (XYZ ℝ)} {p : ℕ} (hp : 0 < p) (h : co.length = p + 1) (delta sg : ℝ) :
    ∃ L, extendParam co p delta sg = ok L ∧ 0 ≤ L := by
  unfold extendParam
  obtain ⟨r, e, -⟩ := forI_inv (a := 0) (b := 50) (s := (delta * sg, false)) (body := fun _ st =>
    if st.2 then ok st else extendNewton co p delta st.1) (fun _ _ => True) (by omega) trivial (by
      intro i s _ _ _
      by_cases hs : s.2 = true
      · rw [if_pos hs]; exact ⟨_, rfl, trivial⟩
      · rw [if_neg hs]
        unfold extendNewton
        dsimp only
        obtain ⟨v1, e1⟩ := taylorVelocity_ok hp h (s.1 * 0.5 - |s.1| * 0.5 * 0.7745966692414834)
        obtain ⟨v2, e2⟩ := taylorVelocity_ok hp h (s.1 * 0.5)
        obtain ⟨v3, e3⟩ := taylorVelocity_ok hp h (s.1 * 0.5 + |s.1| * 0.5 * 0.7745966692414834)
        obtain ⟨v, e4⟩ := taylorVelocity_ok hp h s.1
        rw [e1, ok_bind, e2, ok_bind, e3, ok_bind, e4, ok_bind]
        by_cases hz : isAlmostEqualTo v.length 0 = true
        · rw [if_pos hz]; exact ⟨_, rfl, trivial⟩
        · rw [if_neg hz]
          have hne : v.length ≠ 0 := by
            intro h0
            apply hz
            rw [h0]; unfold isAlmostEqualTo tolOf doubleEps; rw [decide_eq_true_eq]; norm_num
          split
          · exact ⟨_, rfl, trivial⟩
          · rw [fdiv_ok (mul_ne_zero hne (by split <;> norm_num)), ok_bind]
            exact ⟨_, rfl, trivial⟩)
  rw [e, ok_bind]
  exact ⟨_, rfl, abs_nonneg _⟩

theorem extendPoints_run {co : List (XYZ ℝ)} {p : ℕ} (h : co.length = p + 1) (S w : ℝ) :
    ∃ l, extendPoints co p S w = ok l ∧ l.length = p + 1 ∧
      ∀ r, r ≤ p → nth l r = XYZW.ofXYZ (∑ k ∈ range (p + 1), (S ^ k * pbG ℝ p r k) • nth co k) w := by
  unfold extendPoints
  have := Runs.forN (m := 0) (n := p + 1) (a := 0) (b := (p : ℤ) + 1) (s := ([] : List (XYZW ℝ)))
    (Inv := fun i l => l.length = i ∧ ∀ r, r < i → nth l r = XYZW.ofXYZ (∑ k ∈ range (p + 1), (S ^ k * pbG ℝ p r k) • nth co k) w)
    (body := fun i cps => do
      let start ← vget co 0
      let pt ← forI 1 (i + 1) start fun k pt => do
        let a ← binomial i k
        let b ← binomial (p : ℤ) k
        let scale ← fdiv a b
        let c ← vget co k
        ok (pt + (S ^ k.toNat * scale) • c)
      ok (cps ++ [XYZW.ofXYZ pt w])) rfl (by push_cast; rfl) (by omega) ⟨rfl, fun k hk => absurd hk (by omega)⟩ (by
      intro i l _ hi ⟨h1, h2⟩
      rw [vget_nth (i := 0) (k := 0) rfl (by omega), ok_bind]
      have inner := Runs.forN (m := 1) (n := i + 1) (a := 1) (b := (i : ℤ) + 1) (s := nth co 0)
        (Inv := fun k pt => pt = ∑ j ∈ range k, (S ^ j * pbG ℝ p i j) • nth co j)
        (body := fun k pt => do
          let a ← binomial (i : ℤ) k
          let b ← binomial (p : ℤ) k
          let scale ← fdiv a b
          let c ← vget co k
          ok (pt + (S ^ k.toNat * scale) • c)) rfl (by push_cast; rfl) (by omega) (by simp [pbG]) (by
          intro k pt hk1 hk2 hpt
          have hne : ((p.choose k : ℕ) : ℝ) ≠ 0 := by
            exact_mod_cast (Nat.choose_pos (show k ≤ p by omega)).ne'
          rw [binomial_nat (n := i) (i := k) (by omega) rfl rfl, ok_bind, binomial_nat (n := p) (i := k) (by omega) rfl rfl, ok_bind,
            fdiv_ok hne, ok_bind, vget_nth (k := k) rfl (by omega), ok_bind]
          refine Runs.ok ?_
          rw [hpt, Finset.sum_range_succ, Int.toNat_natCast, pbG, if_pos (by omega)])
      obtain ⟨pt, e, hpt⟩ := inner
      rw [e, ok_bind]
      refine Runs.ok ⟨by simp [h1], ?_⟩
      intro r hr
      by_cases hri : r < i
      · rw [nth_append_left (by omega), h2 r hri]
      · have : r = i := by omega
        subst this
        rw [nth_append_right (by omega), h1, Nat.sub_self]
        change XYZW.ofXYZ pt w = _
        rw [hpt]
        congr 1
        apply Finset.sum_subset (by intro x; simp only [mem_range]; omega)
        intro x _ hx
        rw [mem_range] at hx
        rw [pbG, if_neg (by omega), mul_zero, zero_smul])
  obtain ⟨l, e, h1, h2⟩ := this
  exact ⟨l, e, h1, fun r hr => h2 r (by omega)⟩

end LNLib
