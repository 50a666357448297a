import Verif.Props.Extend

/-!
# C127: the length added by the natural extension of a polygon
-/

set_option linter.unusedSectionVars false

namespace LNLib.Props
open LNLib Res LNLib.Spec Finset

/-- the sum of the quadrature weights of the code, divided by two -/
noncomputable def gaussSum : ℝ := 1 + 5 / 100000000000000000

/-- the code takes the error `e` for zero -/
def NoError (e : ℝ) : Prop := |e| ≤ 1 / 1000000 * (1 + |e|)

theorem noError_of {e : ℝ} (h : |e| ≤ 1 / 1000000) : NoError e := by
  unfold NoError
  linarith [abs_nonneg e]

theorem noError_eq (e : ℝ) : isAlmostEqualTo |e| 0 = true ↔ NoError e := by
  unfold isAlmostEqualTo tolOf doubleEps NoError
  rw [decide_eq_true_eq, sub_zero, abs_zero, abs_abs, max_eq_left (abs_nonneg e)]

theorem linear_round_stop {co : List (XYZ ℝ)} {V : XYZ ℝ} {d x : ℝ} (hv : ∀ t, taylorVelocity co ((1 : ℕ) : ℤ) t = ok V) (hx : 0 < x)
    (h : NoError (gaussSum * V.length * x - d)) : extendNewton co ((1 : ℕ) : ℤ) d x = ok (x, true) := by
  unfold extendNewton
  simp only [hv, ok_bind]
  split
  · rfl
  · rw [if_pos]
    rw [noError_eq, abs_of_pos hx]
    have : x * 0.5 * (0.5555555555555556 * V.length + 0.8888888888888889 * V.length + 0.5555555555555556 * V.length) - d = gaussSum * V.length * x - d := by
      unfold gaussSum; ring
    rw [this]
    exact h

theorem linear_round_step {co : List (XYZ ℝ)} {V : XYZ ℝ} {d x : ℝ} (hv : ∀ t, taylorVelocity co ((1 : ℕ) : ℤ) t = ok V) (hx : 1 / 100000 ≤ x)
    (hV : NotTiny V.length) (h : ¬ NoError (gaussSum * V.length * x - d)) :
    ∃ st, extendNewton co ((1 : ℕ) : ℤ) d x = ok (x + st, false) ∧
      (|gaussSum * V.length * x - d| ≤ V.length * x / 2 → V.length * st = -(gaussSum * V.length * x - d)) ∧
      (V.length * x / 2 < gaussSum * V.length * x - d → st = -(x / 2)) ∧
      (V.length * x / 2 < -(gaussSum * V.length * x - d) → st = x / 2) := by
  have hx0 : 0 < x := by linarith
  have hl : 0 ≤ V.length := Real.sqrt_nonneg _
  have hV' : 0 < V.length := lt_of_le_of_ne hl (Ne.symm hV.ne)
  have hq : x * 0.5 * (0.5555555555555556 * V.length + 0.8888888888888889 * V.length + 0.5555555555555556 * V.length) - d = gaussSum * V.length * x - d := by
    unfold gaussSum; ring
  have hm : isAlmostEqualTo (x * 0.5) 0 = false := by
    unfold isAlmostEqualTo tolOf doubleEps
    rw [decide_eq_false_iff_not, sub_zero, abs_zero, abs_of_pos (by linarith), max_eq_left (by linarith)]
    linarith
  unfold extendNewton
  simp only [hv, ok_bind]
  rw [if_neg (by
    unfold isAlmostEqualTo tolOf doubleEps
    rw [decide_eq_true_eq, sub_zero, abs_zero, max_eq_left (abs_nonneg _)]
    have := hV
    unfold NotTiny at this
    linarith)]
  rw [abs_of_pos hx0, hq, if_neg (by rw [noError_eq]; exact h), if_pos hx0, mul_one, fdiv_ok hV.ne, ok_bind]
  simp only [hm, Bool.false_eq_true, if_false]
  generalize gaussSum * V.length * x - d = e at *
  refine ⟨_, rfl, ?_, ?_, ?_⟩
  · intro h1
    rw [if_neg]
    · field_simp
    · rw [not_lt, abs_div, abs_neg, abs_of_pos hV', div_le_iff₀ hV']
      linarith
  · intro h1
    have he : 0 < e := lt_of_le_of_lt (by positivity) h1
    have hneg : -e / V.length < 0 := div_neg_of_neg_of_pos (by linarith) hV'
    rw [if_pos, if_neg (by linarith)]
    · ring
    · rw [abs_div, abs_neg, abs_of_pos hV', abs_of_pos he, gt_iff_lt, lt_div_iff₀ hV']
      linarith
  · intro h1
    have he : 0 < -e := lt_of_le_of_lt (by positivity) h1
    have hpos : 0 < -e / V.length := div_pos he hV'
    rw [if_pos, if_pos hpos]
    · ring
    · rw [abs_of_pos hpos, gt_iff_lt, lt_div_iff₀ hV']
      linarith

/-- after a step that is not cut off, the error is zero for the code -/
theorem landed {σ d x st : ℝ} (hx : 0 < x) (hσ : 0 < σ) (hd : d ≤ 1000000000) (h : |gaussSum * σ * x - d| ≤ σ * x / 2)
    (hst : σ * st = -(gaussSum * σ * x - d)) : 0 < x + st ∧ NoError (gaussSum * σ * (x + st) - d) := by
  have hσx : 0 < σ * x := mul_pos hσ hx
  obtain ⟨h1, h2⟩ := abs_le.mp h
  have hg : gaussSum = 1 + 5 / 100000000000000000 := rfl
  constructor
  · have : 0 < σ * (x + st) := by rw [mul_add, hst]; nlinarith
    exact (mul_pos_iff_of_pos_left hσ).mp this
  · apply noError_of
    have e : gaussSum * σ * (x + st) - d = (gaussSum * σ * x - d) * (1 - gaussSum) := by
      have : gaussSum * σ * (x + st) - d = gaussSum * (σ * x) + gaussSum * (σ * st) - d := by ring
      rw [this, hst]; ring
    rw [e, abs_mul, hg, show |1 - (1 + 5 / 100000000000000000 : ℝ)| = 5 / 100000000000000000 by
      rw [show (1 - (1 + 5 / 100000000000000000 : ℝ)) = -(5 / 100000000000000000) by ring, abs_neg, abs_of_pos (by norm_num)]]
    rw [hg] at h h1 h2
    have : σ * x / 2 ≤ d := by nlinarith
    linarith

section
variable {co : List (XYZ ℝ)} {V : XYZ ℝ} {d : ℝ}

/-- the iteration arrives at the requested length, whatever the (constant) speed -/
theorem linear_extendParam (hv : ∀ t, taylorVelocity co ((1 : ℕ) : ℤ) t = ok V) (hV : NotTiny V.length) (hd0 : 1 / 100000 ≤ d)
    (hd1 : V.length / 50000 ≤ d) (hd2 : d ≤ 1000000000) :
    ∃ L, extendParam co ((1 : ℕ) : ℤ) d 1 = ok L ∧ 0 < L ∧ NoError (gaussSum * V.length * L - d) := by
  have hl : 0 ≤ V.length := Real.sqrt_nonneg _
  have hV' : 0 < V.length := lt_of_le_of_ne hl (Ne.symm hV.ne)
  have hg : gaussSum = 1 + 5 / 100000000000000000 := rfl
  have hσ6 : 1 / 1000000 < V.length := by
    have := hV
    unfold NotTiny at this
    rw [abs_of_pos hV'] at this
    linarith
  generalize hσ : V.length = σ at *
  unfold extendParam
  rw [mul_one]
  have key : ∀ (F : ℤ → ℝ → Prop), F 0 d → (∀ x, ¬ F 50 x) →
      (∀ k x, 0 ≤ k → F k x → 1 / 100000 ≤ x) →
      (∀ k x, 0 ≤ k → F k x → σ * x / 2 < gaussSum * σ * x - d → F (k + 1) (x / 2)) →
      (∀ k x, 0 ≤ k → F k x → σ * x / 2 < -(gaussSum * σ * x - d) → F (k + 1) (x * (3 / 2))) →
      ∃ r : ℝ × Bool, forI 0 50 (d, false) (fun _ st => if st.2 then ok st else extendNewton co ((1 : ℕ) : ℤ) d st.1) = ok r ∧ 0 < r.1 ∧ NoError (gaussSum * σ * r.1 - d) := by
    intro F f0 f50 fx fdown fup
    obtain ⟨r, e, hr⟩ := forI_inv (a := 0) (b := 50) (s := (d, false)) (body := fun _ st => if st.2 then ok st else extendNewton co ((1 : ℕ) : ℤ) d st.1)
      (fun i st => 0 ≤ i ∧ 0 < st.1 ∧ (NoError (gaussSum * σ * st.1 - d) ∨ (st.2 = false ∧ F i st.1))) (by omega) ⟨le_refl _, by dsimp only; linarith, Or.inr ⟨rfl, f0⟩⟩ (by
        intro i s _ _ hs
        obtain ⟨hi, hs0, hs1⟩ := hs
        by_cases h2 : s.2 = true
        · rw [if_pos h2]
          rcases hs1 with h | ⟨h, -⟩
          · exact ⟨_, rfl, by omega, hs0, Or.inl h⟩
          · rw [h2] at h; exact absurd h (by simp)
        · rw [if_neg h2]
          by_cases hn : NoError (gaussSum * σ * s.1 - d)
          · rw [linear_round_stop hv hs0 (by rw [hσ]; exact hn)]
            exact ⟨_, rfl, by omega, hs0, Or.inl hn⟩
          · have hF : F i s.1 := by
              rcases hs1 with h | h
              · exact absurd h hn
              · exact h.2
            obtain ⟨st, es, g1, g2, g3⟩ := linear_round_step (d := d) hv (fx i _ hi hF) (by rw [hσ]; exact hV) (by rw [hσ]; exact hn)
            rw [hσ] at g1 g2 g3
            rw [es]
            by_cases c1 : |gaussSum * σ * s.1 - d| ≤ σ * s.1 / 2
            · obtain ⟨q1, q2⟩ := landed hs0 hV' hd2 c1 (g1 c1)
              exact ⟨_, rfl, by omega, q1, Or.inl q2⟩
            · rw [not_le, lt_abs] at c1
              rcases c1 with c1 | c1
              · have := g2 c1
                subst this
                have e2 : s.1 + -(s.1 / 2) = s.1 / 2 := by ring
                rw [e2]
                exact ⟨_, rfl, by omega, by dsimp only; linarith, Or.inr ⟨rfl, fdown i _ hi hF c1⟩⟩
              · have := g3 c1
                subst this
                have e2 : s.1 + s.1 / 2 = s.1 * (3 / 2) := by ring
                rw [e2]
                exact ⟨_, rfl, by omega, by dsimp only; linarith, Or.inr ⟨rfl, fup i _ hi hF c1⟩⟩)
    obtain ⟨-, h1, h2⟩ := hr
    rcases h2 with h2 | ⟨-, h2⟩
    · exact ⟨r, e, h1, h2⟩
    · exact absurd h2 (f50 _)
  have fin : ∃ r : ℝ × Bool, forI 0 50 (d, false) (fun _ st => if st.2 then ok st else extendNewton co ((1 : ℕ) : ℤ) d st.1) = ok r ∧ 0 < r.1 ∧ NoError (gaussSum * σ * r.1 - d) := by
    rcases le_total 1 σ with h1 | h1
    · refine key (fun k x => x = d / 2 ^ k.toNat ∧ 99 / 100 * d ≤ σ * x) ⟨by simp, by nlinarith⟩ ?_ ?_ ?_ ?_
      · rintro x ⟨rfl, h⟩
        have : (50 : ℤ).toNat = 50 := rfl
        rw [this] at h
        have : σ * (d / 2 ^ 50) ≤ 1 / 2 * d := by
          have : σ / 2 ^ 50 ≤ 1 / 2 := by norm_num; linarith
          calc σ * (d / 2 ^ 50) = (σ / 2 ^ 50) * d := by ring
            _ ≤ 1 / 2 * d := mul_le_mul_of_nonneg_right this (by linarith)
        linarith
      · rintro k x - ⟨-, h⟩
        by_contra hcon
        rw [not_le] at hcon
        have : σ * x < σ * (1 / 100000) := mul_lt_mul_of_pos_left hcon hV'
        linarith
      · rintro k x hk ⟨rfl, h⟩ hc
        rw [hg] at hc
        refine ⟨?_, ?_⟩
        · rw [show (k + 1).toNat = k.toNat + 1 by omega, pow_succ]
          field_simp
        · nlinarith
      · rintro k x hk ⟨-, h⟩ hc
        rw [hg] at hc
        nlinarith
    · refine key (fun k x => x = d * (3 / 2) ^ k.toNat ∧ σ * x ≤ 101 / 100 * d) ⟨by simp, by nlinarith⟩ ?_ ?_ ?_ ?_
      · rintro x ⟨rfl, h⟩
        have : (50 : ℤ).toNat = 50 := rfl
        rw [this] at h
        have : 2 * d ≤ σ * (d * (3 / 2) ^ 50) := by
          have : 2 ≤ σ * (3 / 2) ^ 50 := by
            have : (1 / 1000000 : ℝ) * (3 / 2) ^ 50 ≤ σ * (3 / 2) ^ 50 := mul_le_mul_of_nonneg_right hσ6.le (by positivity)
            refine le_trans ?_ this
            norm_num
          calc 2 * d ≤ (σ * (3 / 2) ^ 50) * d := mul_le_mul_of_nonneg_right this (by linarith)
            _ = σ * (d * (3 / 2) ^ 50) := by ring
        linarith
      · rintro k x - ⟨rfl, -⟩
        have : (1 : ℝ) ≤ (3 / 2) ^ k.toNat := one_le_pow₀ (by norm_num)
        nlinarith
      · rintro k x hk ⟨-, h⟩ hc
        rw [hg] at hc
        nlinarith
      · rintro k x hk ⟨rfl, h⟩ hc
        rw [hg] at hc
        refine ⟨?_, ?_⟩
        · rw [show (k + 1).toNat = k.toNat + 1 by omega, pow_succ]
          ring
        · nlinarith
  obtain ⟨r, e, h0, h1⟩ := fin
  rw [e, ok_bind]
  refine ⟨_, rfl, ?_, ?_⟩
  · rw [abs_of_pos h0]; exact h0
  · rw [abs_of_pos h0]; exact h1

end

/-- C127 (length of the natural extension, degree one): a polygon whose last edge is traversed at a speed that is not tiny is extended along
that edge by a straight segment whose length is the requested one, up to 2/1000000. Missing from the full statement: the higher
degrees, requested lengths outside the stated range, and the other end of the curve. -/
theorem C127_polygon_length_partial {c : NurbsCurve ℝ} {n : ℕ} {d : ℝ} (w : WellFormed c 1 n) (he : EndsSeparated (nth c.knots) 1 n)
    (hc : ClampedEnds (nth c.knots) 1 n) (k0 : KnotSeparated c.knots (nth c.knots 0)) (k1 : KnotSeparated c.knots (nth c.knots (n + 2)))
    (hw : NotTiny (nth c.cps n).w) {P V : XYZ ℝ} (hders : NurbsCurve.rationalDerivatives c 1 (nth c.knots (n + 1)) = ok [P, V])
    (hV : NotTiny V.length) (hd0 : 1 / 100000 ≤ d) (hd1 : V.length / 50000 ≤ d) (hd2 : d ≤ 1000000000) :
    ∃ L, 0 < L ∧ |V.length * L - d| ≤ 2 / 1000000 ∧ (GapAfter (nth c.knots (n + 1)) (nth c.knots (n + 1) + L) →
      ∃ M, extendCurve c d false .natural = ok M ∧ WellFormed M 1 (n + 1) ∧ nth M.knots 1 = nth c.knots 1 ∧
        nth M.knots (n + 2) = nth c.knots (n + 1) + L ∧
        (∀ t, nth c.knots 1 ≤ t → t ≤ nth c.knots (n + 1) → NurbsCurve.pointOnCurve M t = NurbsCurve.pointOnCurve c t) ∧
        ∀ x, 0 ≤ x → x ≤ L → NurbsCurve.pointOnCurve M (nth c.knots (n + 1) + x) = ok (P + x • V)) := by
  have hl : 0 ≤ V.length := Real.sqrt_nonneg _
  obtain ⟨ders, co, L, e2, e3, e4, hL0, h⟩ := natural_end_core (d := d) w he hc k0 k1 (by unfold PosLength; linarith) hw
  have e2' : NurbsCurve.rationalDerivatives c 1 (nth c.knots (n + 1)) = ok ders := e2
  rw [hders] at e2'
  have q := Res.ok.inj e2'
  subst q
  obtain ⟨co', e3', hl', hco'⟩ := taylorCoeffs_run (ders := [P, V]) (p := 1) rfl
  rw [e3'] at e3
  have q := Res.ok.inj e3
  subst q
  have hv : ∀ t, taylorVelocity co' ((1 : ℕ) : ℤ) t = ok V := by
    intro t
    unfold taylorVelocity
    rw [vget_nth (k := 1) rfl (by omega), ok_bind, forDown_empty (by omega), hco' 1 le_rfl]
    congr 1
    ext <;> simp [nth]
  obtain ⟨L', e4', p1, p2⟩ := linear_extendParam hv hV hd0 hd1 hd2
  rw [e4] at e4'
  have q := Res.ok.inj e4'
  subst q
  refine ⟨L, p1, ?_, fun hgap => ?_⟩
  · unfold NoError at p2
    have hg : gaussSum = 1 + 5 / 100000000000000000 := rfl
    have q1 : |gaussSum * V.length * L - d| ≤ 11 / 10000000 := by linarith
    obtain ⟨a1, a2⟩ := abs_le.mp q1
    rw [hg] at a1 a2
    have : 0 ≤ V.length * L := mul_nonneg hl hL0
    rw [abs_le]
    constructor <;> nlinarith
  · obtain ⟨M, eM, wM, m1, m2, m3, m4⟩ := h hgap
    refine ⟨M, eM, wM, m1, m2, m3, fun x x0 x1 => ?_⟩
    rw [m4 _ (by linarith) (by linarith)]
    congr 1
    simp [Finset.sum_range_succ, nth]

/-- the polygon (0, 0, 0), (1, 0, 0), (1, 2, 0) -/
def bentPolygon : NurbsCurve ℝ := { degree := 1, knots := [0, 0, 1, 2, 2], cps := [⟨0, 0, 0, 1⟩, ⟨1, 0, 0, 1⟩, ⟨1, 2, 0, 1⟩] }

theorem bentPolygon_facts : WellFormed bentPolygon 1 2 ∧ EndsSeparated (nth bentPolygon.knots) 1 2 ∧ ClampedEnds (nth bentPolygon.knots) 1 2 ∧
    KnotSeparated bentPolygon.knots (nth bentPolygon.knots 0) ∧ KnotSeparated bentPolygon.knots (nth bentPolygon.knots 4) := by
  have hmem : ∀ x ∈ bentPolygon.knots, x = 0 ∨ x = 1 ∨ x = 2 := by
    intro x hx
    simp only [bentPolygon, List.mem_cons, List.not_mem_nil, or_false] at hx
    tauto
  refine ⟨?_, ?_, ?_, ?_, ?_⟩
  · refine ⟨rfl, by omega, by omega, rfl, by omega, rfl, ?_⟩
    apply isValidKnotVector_nth.mp
    simp [isValidKnotVector, bentPolygon]
  · constructor <;> simp [nth, bentPolygon] <;> norm_num
  · constructor <;> simp [nth, bentPolygon]
  · intro x hx
    rcases hmem x hx with rfl | rfl | rfl
    · exact Or.inl rfl
    · right; simp [nth, bentPolygon]; norm_num
    · right; simp [nth, bentPolygon]; norm_num
  · intro x hx
    rcases hmem x hx with rfl | rfl | rfl
    · right; simp [nth, bentPolygon]; norm_num
    · right; simp [nth, bentPolygon]; norm_num
    · exact Or.inl rfl

theorem bentPolygon_ders : NurbsCurve.rationalDerivatives bentPolygon 1 2 = ok [⟨1, 2, 0⟩, ⟨0, 2, 0⟩] := by
  obtain ⟨w, he, hc, -, -⟩ := bentPolygon_facts
  have hm := wf_monoTo w
  have k1 : nth bentPolygon.knots 1 = 0 := rfl
  have k3 : nth bentPolygon.knots (2 + 1) = 2 := rfl
  have hs : IsSpan (nth bentPolygon.knots) 1 2 2 2 := isSpan_end w he
  obtain ⟨l, e, hl, h0, hk⟩ := end_derivatives (t := 2) (d := 1) w he (by rw [k1]; norm_num) (by rw [k3]) hs (clamped_end_point w he hc) (by simp [bentPolygon, nth]) (by omega)
  have d0 : curveDeriv (nth bentPolygon.knots) 2 1 2 (nth bentPolygon.cps) 0 2 = ⟨1, 2, 0, 1⟩ := by
    unfold curveDeriv
    simp only [Finset.sum_range_succ, Finset.sum_range_zero, dN_zero]
    ext <;> simp [Nspan, bentPolygon, nth] <;> norm_num
  have d1 : curveDeriv (nth bentPolygon.knots) 2 1 2 (nth bentPolygon.cps) 1 2 = ⟨0, 2, 0, 0⟩ := by
    unfold curveDeriv
    simp only [Finset.sum_range_succ, Finset.sum_range_zero]
    rw [dN_succ hm 2 0 0 0 (by omega), dN_succ hm 2 0 1 0 (by omega), dN_succ hm 2 0 2 0 (by omega)]
    simp only [dN_zero]
    ext <;> simp [Nspan, bentPolygon, nth] <;> norm_num
  have e0 : nth l 0 = ⟨1, 2, 0⟩ := by rw [h0]; ext <;> simp [bentPolygon, nth, XYZW.raw]
  have q1 := hk 1 (by omega)
  simp only [Finset.sum_range_succ, Finset.sum_range_zero, d0, d1, e0] at q1
  have e1 : nth l 1 = ⟨0, 2, 0⟩ := by
    ext
    · have := congrArg XYZ.x q1; simp [XYZW.raw] at this; linarith
    · have := congrArg XYZ.y q1; simp [XYZW.raw] at this; linarith
    · have := congrArg XYZ.z q1; simp [XYZW.raw] at this; linarith
  have e' : NurbsCurve.rationalDerivatives bentPolygon 1 2 = ok l := e
  rw [e']
  congr 1
  apply ext_nth (by rw [hl]; rfl)
  intro i hi
  rw [hl] at hi
  interval_cases i
  · rw [e0]; rfl
  · rw [e1]; rfl

/-- `C127_polygon_length_partial` is not vacuous: a bent polygon, extended by length 7 at speed 2 -/
example : WellFormed bentPolygon 1 2 ∧ EndsSeparated (nth bentPolygon.knots) 1 2 ∧ ClampedEnds (nth bentPolygon.knots) 1 2 ∧
    NotTiny (nth bentPolygon.cps 2).w ∧ NurbsCurve.rationalDerivatives bentPolygon 1 (nth bentPolygon.knots (2 + 1)) = ok [⟨1, 2, 0⟩, ⟨0, 2, 0⟩] ∧
    NotTiny (⟨0, 2, 0⟩ : XYZ ℝ).length ∧ (1 / 100000 : ℝ) ≤ 7 ∧ (⟨0, 2, 0⟩ : XYZ ℝ).length / 50000 ≤ 7 ∧ (7 : ℝ) ≤ 1000000000 := by
  obtain ⟨w, he, hc, -, -⟩ := bentPolygon_facts
  have hl : (⟨0, 2, 0⟩ : XYZ ℝ).length = 2 := by
    simp only [XYZ.length, XYZ.sqrLength]
    rw [show (0 * 0 + 2 * 2 + 0 * 0 : ℝ) = 2 ^ 2 by norm_num, Real.sqrt_sq (by norm_num)]
  refine ⟨w, he, hc, ?_, bentPolygon_ders, ?_, by norm_num, by rw [hl]; norm_num, by norm_num⟩
  · simp [bentPolygon, nth, NotTiny]; norm_num
  · rw [hl]; unfold NotTiny; norm_num

end LNLib.Props
