import Verif.Model.CurveEdit
import Verif.Props.Curve
import Verif.Props.Refine
import Verif.Props.KnotVector
import Verif.Lemmas.SurfaceOps
import Verif.Lemmas.SpanExists
import Verif.Props.CurveParam
import Mathlib.Tactic.IntervalCases

/-!
# C43, C53, C55, C58, C75: extracting, merging, degree reduction, lines
-/

set_option linter.unusedSectionVars false

namespace LNLib.Props
open LNLib Res LNLib.Spec Finset

variable {K : Type} [Field K] [LinearOrder K] [IsStrictOrderedRing K]
variable {T : Type} [AddCommGroup T] [Module K T]

/-! ## C43 -/

theorem sliceR_length {α : Type} {l r : List α} {a b : ℤ} (h : sliceR l a b = ok r) : (r.length : ℤ) = b - a := by
  unfold sliceR at h
  split at h
  · rename_i hc
    have := Res.ok.inj h
    rw [← this, List.length_take, List.length_drop]
    omega
  · simp at h

theorem bind_ok {α β : Type} {x : Res α} {f : α → Res β} {y : β} (h : (x >>= f) = ok y) : ∃ a, x = ok a ∧ f a = ok y := by
  cases x <;> first | exact ⟨_, rfl, h⟩ | exact absurd h (fun e => nomatch e)

/-- C43 (violated, for every curve and every range): whatever curve of degree at least one `Extract` is called with, a result it
returns never passes `Check`: the knot range and the control point range it copies do not have matching lengths. -/
theorem C43_extract_never_valid {c r : BsplineCurve K T} {s e : K} (hd : 0 < c.degree) (h : extractCurve c s e = ok r) : r.check = invalidArg := by
  unfold extractCurve at h
  dsimp only at h
  obtain ⟨_, -, h⟩ := bind_ok h
  obtain ⟨_, -, h⟩ := bind_ok h
  obtain ⟨_, -, h⟩ := bind_ok h
  obtain ⟨_, -, h⟩ := bind_ok h
  obtain ⟨_, -, h⟩ := bind_ok h
  obtain ⟨_, -, h⟩ := bind_ok h
  obtain ⟨tmp, -, h⟩ := bind_ok h
  obtain ⟨ks, -, h⟩ := bind_ok h
  obtain ⟨ke, -, h⟩ := bind_ok h
  obtain ⟨kn, hk, h⟩ := bind_ok h
  obtain ⟨cp, hc, h⟩ := bind_ok h
  have h := Res.ok.inj h
  have l1 := sliceR_length hk
  have l2 := sliceR_length hc
  cases hch : r.check with
  | ok x =>
    obtain ⟨a1, a2, a3, a4⟩ := C61_check_iff.mp hch
    rw [← h] at a4
    dsimp only at a4
    omega
  | invalidArg => rfl
  | _ =>
    unfold BsplineCurve.check validate at hch
    repeat' split at hch
    all_goals simp at hch

/-- C43 (partial: only the argument checks hold): a start parameter outside the knot range (widened by the library's tolerance) is
rejected, and so is an empty parameter range. -/
theorem C43_rejects_partial {c : BsplineCurve K T} {s e : K} (hc : 0 < c.knots.length) :
    ((s < nth c.knots 0 - 1 / 1000000 ∨ nth c.knots (c.knots.length - 1) + 1 / 1000000 < s) → extractCurve c s e = outOfRange) ∧
    (nth c.knots 0 ≤ s → s ≤ nth c.knots (c.knots.length - 1) → nth c.knots 0 ≤ e → e ≤ s → extractCurve c s e = invalidArg) := by
  have heps := doubleEps_pos (K := K)
  have hd : (doubleEps : K) = 1 / 1000000 := rfl
  constructor
  · intro h
    unfold extractCurve
    dsimp only
    rw [vget_nth (k := 0) (i := 0) rfl hc, ok_bind, vget_nth (k := c.knots.length - 1) (by omega) (by omega), ok_bind, validateRange_out (by rw [hd]; exact h)]
    rfl
  · intro h0 h1 h2 h3
    have hl : isLessThan s e = false := by
      rw [← Bool.not_eq_true]
      intro hh
      have := lt_of_isLessThan doubleEps_pos hh
      linarith
    unfold extractCurve
    dsimp only
    rw [vget_nth (k := 0) (i := 0) rfl hc, ok_bind, vget_nth (k := c.knots.length - 1) (by omega) (by omega), ok_bind,
      validateRange_eq_ok_iff.mpr ⟨by linarith, by linarith⟩, ok_bind, validateRange_eq_ok_iff.mpr ⟨by linarith, by linarith⟩, ok_bind, hl]
    rfl

/-- C43 is not vacuous: `Extract` does return curves. -/
example : extractCurve ({ degree := 1, knots := [0, 0, 1, 2, 3, 3], cps := [0, 10, 20, 30] } : BsplineCurve ℚ ℚ) 1 2 =
    ok { degree := 1, knots := [1, 2, 2, 3], cps := [10, 20, 20, 30] } := by decide +kernel

/-! ## C55 -/

/-- C55 (partial): with three equal weights `GetPointOnQuadraticArc` is the rational quadratic Bézier point
`(Σ Bᵢ(t) Pᵢʷ) / (Σ Bᵢ(t) wᵢ)`. Missing: different weights, where the source divides all three points by the first weight. -/
theorem C55_equal_weights_partial {s m e : XYZW K} {t : K} (h0 : 0 ≤ t) (h1 : t ≤ 1) (hm : m.w = s.w) (he : e.w = s.w) (hw : s.w ≠ 0) :
    quadraticArc s m e t = ok ((bezierPoint 2 (nth [s.w, m.w, e.w]) t)⁻¹ • bezierPoint 2 (nth [s.raw, m.raw, e.raw]) t) := by
  have heps := doubleEps_pos (K := K)
  unfold quadraticArc
  rw [validateRange_eq_ok_iff.mpr ⟨by linarith, by linarith⟩, ok_bind, vdiv_ok hw, ok_bind, vdiv_ok hw, ok_bind, vdiv_ok hw, ok_bind, hm, he]
  have hD : (1 - t) * (1 - t) * s.w + 2 * t * (1 - t) * s.w + t * t * s.w = s.w := by ring
  rw [hD, vdiv_ok hw]
  refine congrArg ok ?_
  have e1 : bezierPoint 2 (nth [s.w, s.w, s.w]) t = s.w := by
    simp only [bezierPoint, Finset.sum_range_succ, Finset.sum_range_zero, bernsteinP, nth_cons_zero, smul_eq_mul, show nth [s.w, s.w, s.w] 2 = s.w from rfl,
      show nth [s.w, s.w, s.w] 1 = s.w from rfl]
    norm_num
    ring
  rw [e1]
  have c0 : nth [s.raw, m.raw, e.raw] 0 = s.raw := rfl
  have c1 : nth [s.raw, m.raw, e.raw] 1 = m.raw := rfl
  have c2 : nth [s.raw, m.raw, e.raw] 2 = e.raw := rfl
  simp only [bezierPoint, Finset.sum_range_succ, Finset.sum_range_zero, bernsteinP, c0, c1, c2]
  congr 1
  ext <;> simp <;> field_simp

/-- C55 is not vacuous -/
example : quadraticArc (⟨0, 0, 0, 2⟩ : XYZW ℚ) ⟨2, 4, 0, 2⟩ ⟨4, 0, 0, 2⟩ (1/2) = ok ⟨1, 1, 0⟩ := by decide +kernel

/-- C55 (violated): with weights `1, 1/2, 1` the point returned is not the rational Bézier point. -/
theorem C55_weights_violated : ∃ (s m e : XYZW ℚ), s.w ≠ 0 ∧ 
    quadraticArc s m e (1/2) = ok ⟨5/6, 1/6, 0⟩ ∧
    (bezierPoint 2 (nth [s.w, m.w, e.w]) (1/2 : ℚ))⁻¹ • bezierPoint 2 (nth [s.raw, m.raw, e.raw]) (1/2 : ℚ) = ⟨1, 1/3, 0⟩ := by
  refine ⟨⟨0, 0, 0, 1⟩, ⟨1/2, 1/2, 0, 1/2⟩, ⟨2, 0, 0, 1⟩, by decide +kernel, by decide +kernel, ?_⟩
  simp [bezierPoint, Finset.sum_range_succ, bernsteinP, nth, XYZW.raw, Nat.choose]
  ext <;> norm_num

/-! ## C75 -/

/-- C75: for two points that are not within tolerance of each other, `CreateLine` returns a valid curve whose point at every
`t ∈ [0,1]` is `(1-t) A + t B`. -/
theorem C75_line {a b : XYZ K} (h : a.almostEq b = false) : ∃ c, createLine a b = ok c ∧ WellFormed c 1 1 ∧ c.check = ok () ∧
    ∀ t, 0 ≤ t → t ≤ 1 → NurbsCurve.pointOnCurve c t = ok ((1 - t) • a + t • b) := by
  unfold createLine
  rw [h]
  have hv : isValidKnotVector ([0, 0, 1, 1] : List K) = true := by
    simp [isValidKnotVector]
  have w : WellFormed ({ degree := 1, knots := [0, 0, 1, 1], cps := [XYZW.ofXYZ a 1, XYZW.ofXYZ b 1] } : NurbsCurve K) 1 1 :=
    ⟨rfl, by omega, by omega, rfl, by omega, rfl, isValidKnotVector_nth.mp hv⟩
  have k0 : nth ([0, 0, 1, 1] : List K) 0 = 0 := rfl
  have k1 : nth ([0, 0, 1, 1] : List K) 1 = 0 := rfl
  have k2 : nth ([0, 0, 1, 1] : List K) 2 = 1 := rfl
  have k3 : nth ([0, 0, 1, 1] : List K) 3 = 1 := rfl
  have he : EndsSeparated (nth ([0, 0, 1, 1] : List K)) 1 1 := by
    constructor <;> · simp only [k1, k2]; norm_num
  refine ⟨_, rfl, w, C61_check_iff.mpr ⟨by simp, w.sorted, by simp, by simp⟩, ?_⟩
  intro t h0 h1
  have hN : ∀ i, i ≤ 1 → N (nth ([0, 0, 1, 1] : List K)) 1 1 i t = if i = 0 then 1 - t else t := by
    intro i hi
    have hs : IsSpan (nth ([0, 0, 1, 1] : List K)) 1 1 t 1 := by
      refine ⟨le_refl _, le_refl _, ?_, ?_, ?_⟩
      · rw [k1, k2]; exact one_pos
      · rw [k1]; exact h0
      · rw [k2]
        rcases h1.lt_or_eq with h | h
        · exact Or.inl h
        · exact Or.inr ⟨h, rfl⟩
    have hm : MonoTo (nth ([0, 0, 1, 1] : List K)) 3 := fun i j h h' => w.sorted i j h (by simp; omega)
    have := N_eq_Nspan hm (by omega) hs 1 i (by omega)
    rw [k2] at this
    rw [this]
    interval_cases i
    · simp [Nspan, k0, k1, k2]
    · simp [Nspan, k1, k2, k3]
  have hw : weightFn (nth ([0, 0, 1, 1] : List K)) 1 1 (nth [XYZW.ofXYZ a 1, XYZW.ofXYZ b 1]) t = 1 := by
    unfold weightFn
    rw [k2, Finset.sum_range_succ, Finset.sum_range_one, hN 0 (by omega), hN 1 (by omega)]
    simp [nth, XYZW.ofXYZ]
  rw [C05_eval_rational w he (by rw [k1]; exact h0) (by rw [k2]; exact h1) (by dsimp only; rw [hw, abs_one]; norm_num)]
  refine congrArg ok ?_
  dsimp only
  unfold rationalPoint
  unfold weightFn at hw
  rw [hw, inv_one, one_smul, k2, Finset.sum_range_succ, Finset.sum_range_one, hN 0 (by omega), hN 1 (by omega)]
  ext <;> simp [nth, XYZW.ofXYZ]

/-- C75: points within tolerance of each other are rejected. -/
theorem C75_rejects {a b : XYZ K} (h : a.almostEq b = true) : createLine a b = invalidArg := by
  unfold createLine; rw [h]; rfl

/-- C75 is not vacuous -/
example : (⟨0, 0, 0⟩ : XYZ ℚ).almostEq ⟨1, 2, 3⟩ = false := by decide +kernel

/-! ## C53 -/

/-- The knot range is exactly `[0,1]`, or one of its ends is further than the tolerance from `0` resp. `1`. -/
def UnitOrFar (U : List K) : Prop :=
  (nth U 0 = 0 ∧ nth U (U.length - 1) = 1) ∨ 1 / 1000000 * (1 + |nth U 0|) < |nth U 0| ∨
    1 / 1000000 * (1 + max 1 |nth U (U.length - 1)|) < |1 - nth U (U.length - 1)|

/-- the parameter `t` of a curve with knots `U₀ … Uₘ`, scaled to `[0,1]` -/
def unitParam (U : ℕ → K) (m : ℕ) (t : K) : K := (t - U 0) / (U m - U 0)

theorem ae_iff {x y : K} : isAlmostEqualTo x y = true ↔ |x - y| ≤ 1 / 1000000 * (1 + max |x| |y|) := by
  unfold isAlmostEqualTo
  rw [decide_eq_true_eq]
  rfl

theorem reparam_far {c : BsplineCurve K T} {p n : ℕ} {mn mx : K} (w : WellFormed c p n) (hc : nth c.knots p < nth c.knots (n + 1))
    (hf : isAlmostEqualTo mn (nth c.knots 0) = false ∨ isAlmostEqualTo mx (nth c.knots (n + p + 1)) = false) :
    ∃ V, reparametrizeLinear c mn mx = ok { c with knots := V } ∧ V.length = n + p + 2 ∧
      ∀ i, i ≤ n + p + 1 → nth V i = mn + (mx - mn) * unitParam (nth c.knots) (n + p + 1) (nth c.knots i) := by
  have hl := w.knots
  have hU := wf_monoTo w
  have h0p := hU 0 p (by omega) (by omega)
  have hn1 := hU (n + 1) (n + p + 1) (by omega) (by omega)
  have hne : c.knots ≠ [] := by intro h; rw [h] at hl; simp at hl
  have hlt : nth c.knots 0 ≠ nth c.knots (c.knots.length - 1) := by
    rw [show c.knots.length - 1 = n + p + 1 by omega]; exact (by linarith : nth c.knots 0 < nth c.knots (n + p + 1)).ne
  obtain ⟨V, g1, g2, g3⟩ := rescale_run (mn := mn) (mx := mx) hne hlt
  refine ⟨V, ?_, by omega, ?_⟩
  · unfold reparametrizeLinear
    rw [vget_nth (k := 0) (by simp) (by omega), ok_bind, vget_nth (k := n + p + 1) (by omega) (by omega), ok_bind, g1]
    rcases hf with h | h <;> simp [h]
  · intro i hi
    rw [g3 i (by omega), show c.knots.length - 1 = n + p + 1 by omega]
    unfold unitParam
    ring

theorem reparam_unit {c : BsplineCurve K T} {p n : ℕ} (w : WellFormed c p n) (hc : nth c.knots p < nth c.knots (n + 1)) (hu : UnitOrFar c.knots) :
    ∃ V, reparametrizeLinear c 0 1 = ok { c with knots := V } ∧ V.length = n + p + 2 ∧
      ∀ i, i ≤ n + p + 1 → nth V i = unitParam (nth c.knots) (n + p + 1) (nth c.knots i) := by
  have hl := w.knots
  have hlast : c.knots.length - 1 = n + p + 1 := by omega
  unfold UnitOrFar at hu
  rw [hlast] at hu
  have hae : ∀ x y : K, 1 / 1000000 * (1 + max |x| |y|) < |x - y| → isAlmostEqualTo x y = false := by
    intro x y h
    rw [← Bool.not_eq_true, ae_iff]
    exact not_le.mpr h
  rcases hu with ⟨u0, u1⟩ | hu
  · refine ⟨c.knots, ?_, by omega, ?_⟩
    · unfold reparametrizeLinear
      rw [vget_nth (k := 0) (by simp) (by omega), ok_bind, vget_nth (k := n + p + 1) (by omega) (by omega), ok_bind, u0, u1,
        isAlmostEqualTo_self doubleEps_pos, isAlmostEqualTo_self doubleEps_pos]
      rfl
    · intro i hi
      unfold unitParam
      rw [u0, u1]
      simp
  · obtain ⟨V, g1, g2, g3⟩ := reparam_far (mn := 0) (mx := 1) w hc (by
      rcases hu with h | h
      · left; apply hae; rw [abs_zero, max_eq_right (abs_nonneg _), zero_sub, abs_neg]; exact h
      · right; apply hae; rw [abs_one]; exact h)
    refine ⟨V, g1, g2, ?_⟩
    intro i hi
    rw [g3 i hi]; ring

theorem card_block {m a b : ℕ} {P : ℕ → Prop} [DecidablePred P] (hb : b ≤ m) (h : ∀ i, i < m → (P i ↔ a ≤ i ∧ i < b)) :
    ((range m).filter P).card = b - a := by
  have : (range m).filter P = Ico a b := by
    ext i
    simp only [mem_filter, mem_range, mem_Ico]
    constructor
    · rintro ⟨h1, h2⟩; exact (h i h1).mp h2
    · intro h1; exact ⟨by omega, (h i (by omega)).mpr h1⟩
  rw [this, Nat.card_Ico]

theorem appendLoop {xs : List K} {a : ℕ} (ha : a ≤ xs.length) (acc : List K) :
    forI (a : ℤ) xs.length acc (fun i kv => (vget xs i >>= fun x => ok (kv ++ [x]) : Res (List K))) = ok (acc ++ xs.drop a) := by
  apply Runs.eq
  refine (Runs.forN (m := a) (n := xs.length) (fun i kv => kv = acc ++ (xs.drop a).take (i - a)) rfl rfl ha (by simp) ?_).mono ?_
  · rintro i kv h1 h2 rfl
    refine Runs.of_eq (by rw [vget_nth (k := i) rfl h2, ok_bind]) ?_
    rw [List.append_assoc]
    congr 1
    rw [show i + 1 - a = (i - a) + 1 by omega, List.take_add_one, List.getElem?_drop, show a + (i - a) = i by omega, List.getElem?_eq_getElem h2,
      nth_eq_getElem h2]
    rfl
  · rintro kv rfl
    rw [List.take_of_length_le (by simp)]

/-- C53: two curves of the same degree, the left one clamped at its end and the right one at its start, whose end points agree
up to tolerance, are merged into one well-formed curve over `[0,1]`: its first half traces the left curve and its second half the
right curve.  (The spans next to the joint must be longer than twice the comparison tolerance relative to the knot range.) -/
theorem C53_merge_partial {L R : NurbsCurve K} {p nL nR : ℕ} (elevate : NurbsCurve K → ℤ → Res (NurbsCurve K)) (wL : WellFormed L p nL) (wR : WellFormed R p nR)
    (hLd : nth L.knots p < nth L.knots (nL + 1)) (hRd : nth R.knots p < nth R.knots (nR + 1))
    (hLc : nth L.knots (nL + 1) = nth L.knots (nL + p + 1)) (hRc : nth R.knots 0 = nth R.knots p)
    (hLu : UnitOrFar L.knots) (hRu : UnitOrFar R.knots)
    (hLs : 2 / 1000000 * (nth L.knots (nL + p + 1) - nth L.knots 0) < nth L.knots (nL + 1) - nth L.knots nL)
    (hRs : 2 / 1000000 * (nth R.knots (nR + p + 1) - nth R.knots 0) < nth R.knots (p + 1) - nth R.knots p)
    (hj : (nth L.cps nL).toXYZ.almostEq (nth R.cps 0).toXYZ = true) :
    ∃ M, mergeCurves elevate L R = ok (some M) ∧ WellFormed M p (nL + nR + 1) ∧ nth M.knots 0 = 0 ∧ nth M.knots (nL + nR + 1 + p + 1) = 1 ∧
      M.cps = L.cps ++ R.cps ∧ (∀ i, i ≤ nL + p + 1 → nth M.knots i = unitParam (nth L.knots) (nL + p + 1) (nth L.knots i) / 2) ∧
      (∀ i, i ≤ nR + p + 1 → nth M.knots (nL + 1 + i) = (1 + unitParam (nth R.knots) (nR + p + 1) (nth R.knots i)) / 2) ∧
      (∀ t, nth L.knots p ≤ t → t < nth L.knots (nL + 1) →
        curvePoint (nth M.knots) p (nL + nR + 1) (nth M.cps) (unitParam (nth L.knots) (nL + p + 1) t / 2) = curvePoint (nth L.knots) p nL (nth L.cps) t) ∧
      (∀ t, nth R.knots p ≤ t → t ≤ nth R.knots (nR + 1) →
        curvePoint (nth M.knots) p (nL + nR + 1) (nth M.cps) ((1 + unitParam (nth R.knots) (nR + p + 1) t) / 2) = curvePoint (nth R.knots) p nR (nth R.cps) t) := by
  have heps := doubleEps_pos (K := K)
  have lL := wL.knots
  have lR := wR.knots
  have cL := wL.cps
  have cR := wR.cps
  have pL := wL.pn
  have pR := wR.pn
  have mL := wf_monoTo wL
  have mR := wf_monoTo wR
  have hL0 := mL 0 p (by omega) (by omega)
  have hR1 := mR (nR + 1) (nR + p + 1) (by omega) (by omega)
  have dL : 0 < nth L.knots (nL + p + 1) - nth L.knots 0 := by linarith
  have dR : 0 < nth R.knots (nR + p + 1) - nth R.knots 0 := by linarith
  obtain ⟨VL, a1, a2, a3⟩ := reparam_unit wL hLd hLu
  obtain ⟨VR, b1, b2, b3⟩ := reparam_unit wR hRd hRu
  have uL : ∀ x y, x ≤ y → unitParam (nth L.knots) (nL + p + 1) x ≤ unitParam (nth L.knots) (nL + p + 1) y := fun x y h => by
    unfold unitParam; gcongr
  have uR : ∀ x y, x ≤ y → unitParam (nth R.knots) (nR + p + 1) x ≤ unitParam (nth R.knots) (nR + p + 1) y := fun x y h => by
    unfold unitParam; gcongr
  have uL1 : unitParam (nth L.knots) (nL + p + 1) (nth L.knots (nL + p + 1)) = 1 := div_self dL.ne'
  have uR1 : unitParam (nth R.knots) (nR + p + 1) (nth R.knots (nR + p + 1)) = 1 := div_self dR.ne'
  have uL0 : unitParam (nth L.knots) (nL + p + 1) (nth L.knots 0) = 0 := by unfold unitParam; rw [sub_self, zero_div]
  have uR0 : unitParam (nth R.knots) (nR + p + 1) (nth R.knots 0) = 0 := by unfold unitParam; rw [sub_self, zero_div]
  have sVL : ∀ i j, i ≤ j → j < VL.length → nth VL i ≤ nth VL j := by
    intro i j h1 h2
    rw [a3 i (by omega), a3 j (by omega)]; exact uL _ _ (mL _ _ h1 (by omega))
  have sVR : ∀ i j, i ≤ j → j < VR.length → nth VR i ≤ nth VR j := by
    intro i j h1 h2
    rw [b3 i (by omega), b3 j (by omega)]; exact uR _ _ (mR _ _ h1 (by omega))
  have wVL : WellFormed ({ L with knots := VL } : NurbsCurve K) p nL := ⟨wL.degree, wL.pos, wL.le7, wL.cps, wL.pn, a2, sVL⟩
  have wVR : WellFormed ({ R with knots := VR } : NurbsCurve K) p nR := ⟨wR.degree, wR.pos, wR.le7, wR.cps, wR.pn, b2, sVR⟩
  have vL1 : nth VL (nL + p + 1) = 1 := by rw [a3 _ (le_refl _), uL1]
  have vL0 : nth VL 0 = 0 := by rw [a3 _ (by omega), uL0]
  have vR1 : nth VR (nR + p + 1) = 1 := by rw [b3 _ (le_refl _), uR1]
  have vR0 : nth VR 0 = 0 := by rw [b3 _ (by omega), uR0]
  have gapL : ∀ i, i ≤ nL → 0 ≤ nth VL i ∧ nth VL i < 1 - 2 / 1000000 := by
    intro i hi
    refine ⟨by rw [← vL0]; exact sVL _ _ (by omega) (by omega), ?_⟩
    refine lt_of_le_of_lt (sVL i nL hi (by omega)) ?_
    rw [a3 nL (by omega)]
    have : (2 / 1000000 : K) < 1 - unitParam (nth L.knots) (nL + p + 1) (nth L.knots nL) := by
      rw [← uL1, ← hLc]
      unfold unitParam
      rw [← sub_div, lt_div_iff₀ dL]
      linarith
    linarith
  have gapR : ∀ i, p + 1 ≤ i → i ≤ nR + p + 1 → 2 / 1000000 < nth VR i ∧ nth VR i ≤ 1 := by
    intro i hi hi'
    refine ⟨?_, by rw [← vR1]; exact sVR _ _ (by omega) (by omega)⟩
    refine lt_of_lt_of_le ?_ (sVR (p + 1) i hi (by omega))
    rw [b3 (p + 1) (by omega)]
    unfold unitParam
    rw [lt_div_iff₀ dR, hRc]
    rw [hRc] at hRs
    exact hRs
  have endL : ∀ i, nL + 1 ≤ i → i ≤ nL + p + 1 → nth VL i = 1 := by
    intro i h1 h2
    refine le_antisymm ?_ ?_
    · rw [← vL1]; exact sVL _ _ h2 (by omega)
    · have := sVL (nL + 1) i h1 (by omega)
      rwa [a3 (nL + 1) (by omega), hLc, uL1] at this
  have startR : ∀ i, i ≤ p → nth VR i = 0 := by
    intro i h1
    refine le_antisymm ?_ ?_
    · have := sVR i p h1 (by omega)
      rwa [b3 p (by omega), ← hRc, uR0] at this
    · rw [← vR0]; exact sVR _ _ (by omega) (by omega)
  have lcount : getKnotMultiplicity VL (nth VL (nL + p + 1)) = ok ((p + 1 : ℕ) : ℤ) := by
    rw [getKnotMultiplicity_ok (by omega) (isValidKnotVector_nth.mpr sVL) (by linarith [sVL 0 (nL + p + 1) (by omega) (by omega)])
      (by rw [show VL.length - 1 = nL + p + 1 by omega]; linarith)]
    rw [card_block (a := nL + 1) (b := nL + p + 2) (by omega), show nL + p + 2 - (nL + 1) = p + 1 by omega]
    intro i hi
    rw [vL1]
    rcases Nat.lt_or_ge nL i with h | h
    · rw [endL i (by omega) (by omega)]
      exact ⟨fun _ => by omega, fun _ => isAlmostEqualTo_self doubleEps_pos⟩
    · obtain ⟨g1, g2⟩ := gapL i h
      refine ⟨fun hh => absurd hh ?_, fun hh => absurd hh (by omega)⟩
      rw [ae_iff, not_le, abs_one, abs_of_nonneg g1, abs_of_nonneg (by linarith), max_eq_left (by linarith)]
      linarith
  have rcount : getKnotMultiplicity VR (nth VR 0) = ok ((p + 1 : ℕ) : ℤ) := by
    rw [getKnotMultiplicity_ok (by omega) (isValidKnotVector_nth.mpr sVR) (by linarith)
      (by linarith [sVR 0 (VR.length - 1) (by omega) (by omega)])]
    rw [card_block (a := 0) (b := p + 1) (by omega), Nat.sub_zero]
    intro i hi
    rw [vR0]
    rcases Nat.lt_or_ge p i with h | h
    · obtain ⟨g1, g2⟩ := gapR i h (by omega)
      refine ⟨fun hh => absurd hh ?_, fun hh => absurd hh (by omega)⟩
      have hp : 0 ≤ nth VR i := by linarith
      rw [ae_iff, not_le, abs_zero, zero_sub, abs_neg, abs_of_nonneg hp, max_eq_right hp]
      linarith
    · rw [startR i h]
      exact ⟨fun _ => by omega, fun _ => isAlmostEqualTo_self doubleEps_pos⟩
  have hVRd : nth VR p < nth VR (nR + 1) := by
    rw [startR p (le_refl _)]
    have := (gapR (nR + 1) (by omega) (by omega)).1
    linarith
  obtain ⟨VS, c1, c2, c3⟩ := reparam_far (mn := 1) (mx := 2) wVR hVRd (by
    left
    rw [← Bool.not_eq_true, ae_iff, not_le]
    dsimp only
    rw [vR0]
    norm_num)
  have c3' : ∀ i, i ≤ nR + p + 1 → nth VS i = 1 + nth VR i := by
    intro i hi
    rw [c3 i hi]
    unfold unitParam
    dsimp only
    rw [vR0, vR1]
    ring
  set W := VL ++ VS.drop (p + 1) with hW
  have lW : W.length = nL + nR + 1 + p + 2 := by
    rw [hW, List.length_append, List.length_drop]; omega
  have W1 : ∀ i, i ≤ nL + p + 1 → nth W i = nth VL i := fun i hi => nth_append_left (by omega)
  have W2 : ∀ i, i ≤ nR + p + 1 → nth W (nL + 1 + i) = 1 + nth VR i := by
    intro i hi
    rcases Nat.lt_or_ge p i with h | h
    · rw [hW, nth_append_right (by omega), nth_drop, a2, show p + 1 + (nL + 1 + i - (nL + p + 2)) = i by omega, c3' i hi]
    · rw [W1 _ (by omega), endL _ (by omega) (by omega), startR i h, add_zero]
  have W0 : nth W 0 = 0 := by rw [W1 0 (by omega), vL0]
  have We : nth W (nL + nR + 1 + p + 1) = 2 := by
    rw [show nL + nR + 1 + p + 1 = nL + 1 + (nR + p + 1) by omega, W2 _ (le_refl _), vR1]; norm_num
  have hWne : W ≠ [] := by intro h; rw [h] at lW; simp at lW
  obtain ⟨V, d1, d2, d3⟩ := rescale_run (mn := 0) (mx := 1) hWne (by
    rw [lW, show nL + nR + 1 + p + 2 - 1 = nL + nR + 1 + p + 1 by omega, W0, We]; norm_num)
  have d3' : ∀ i, i ≤ nL + nR + 1 + p + 1 → nth V i = nth W i / 2 := by
    intro i hi
    rw [d3 i (by omega), lW, show nL + nR + 1 + p + 2 - 1 = nL + nR + 1 + p + 1 by omega, W0, We]
    ring
  have eL : ∀ i, i ≤ nL + p + 1 → nth V i = unitParam (nth L.knots) (nL + p + 1) (nth L.knots i) / 2 := by
    intro i hi
    rw [d3' i (by omega), W1 i hi, a3 i hi]
  have eR : ∀ i, i ≤ nR + p + 1 → nth V (nL + 1 + i) = (1 + unitParam (nth R.knots) (nR + p + 1) (nth R.knots i)) / 2 := by
    intro i hi
    rw [d3' _ (by omega), W2 i hi, b3 i hi]
  have sV : MonoTo (nth V) (nL + nR + 1 + p + 1) := by
    intro i j h1 h2
    rcases Nat.lt_or_ge nL i with h | h
    · obtain ⟨i', rfl⟩ := Nat.exists_eq_add_of_le (show nL + 1 ≤ i from h)
      obtain ⟨j', rfl⟩ := Nat.exists_eq_add_of_le (show nL + 1 ≤ j by omega)
      rw [eR i' (by omega), eR j' (by omega)]
      have := uR _ _ (mR i' j' (by omega) (by omega))
      linarith
    · rcases Nat.lt_or_ge nL j with h' | h'
      · obtain ⟨j', rfl⟩ := Nat.exists_eq_add_of_le (show nL + 1 ≤ j from h')
        rw [eL i (by omega), eR j' (by omega)]
        have q1 := uL _ _ (mL i (nL + p + 1) (by omega) (by omega))
        have q2 := uR _ _ (mR 0 j' (by omega) (by omega))
        linarith
      · rw [eL i (by omega), eL j (by omega)]
        have := uL _ _ (mL i j h1 (by omega))
        linarith
  have wM : WellFormed ({ degree := (p : ℤ), knots := V, cps := L.cps ++ R.cps } : NurbsCurve K) p (nL + nR + 1) :=
    ⟨rfl, wL.pos, wL.le7, by simp [cL, cR]; omega, by omega, by simp [d2, lW], fun i j h1 h2 => sV i j h1 (by simp [d2, lW] at h2; omega)⟩
  refine ⟨_, ?_, wM, ?_, ?_, rfl, eL, eR, ?_, ?_⟩
  · unfold mergeCurves
    rw [vget_nth (k := nL) (by omega) (by omega), ok_bind, vget_nth (k := 0) (by simp) (by omega), ok_bind, hj]
    simp only [Bool.not_true, Bool.false_eq_true, if_false]
    unfold mergeSide
    rw [wL.degree, wR.degree, max_self, a1, b1]
    simp only [ok_bind, gt_iff_lt, lt_irrefl, if_false]
    rw [vget_nth (k := nL + p + 1) (by simp [a2]; omega) (by omega), ok_bind, lcount, ok_bind, vget_nth (k := 0) (by simp) (by omega), ok_bind, rcount, ok_bind,
      if_neg (by push_cast; simp), c1, ok_bind]
    rw [show ((p : ℤ) + 1) = ((p + 1 : ℕ) : ℤ) by push_cast; rfl, appendLoop (by simp [c2]; omega), ok_bind, d1, ok_bind]
  · dsimp only
    rw [eL 0 (by omega), uL0, zero_div]
  · dsimp only
    rw [d3' _ (by omega), We]; norm_num
  · intro t h0 h1
    dsimp only
    obtain ⟨s, hs⟩ := exists_isSpan wL.pn hLd h0 h1.le
    have hk : (0 : K) < 1 / (nth L.knots (nL + p + 1) - nth L.knots 0) / 2 := by positivity
    have eaff : ∀ x, unitParam (nth L.knots) (nL + p + 1) x / 2 =
        1 / (nth L.knots (nL + p + 1) - nth L.knots 0) / 2 * x + (- (nth L.knots 0) * (1 / (nth L.knots (nL + p + 1) - nth L.knots 0) / 2)) := by
      intro x; unfold unitParam; ring
    rw [← curvePoint_affine hk mL (V := fun j => unitParam (nth L.knots) (nL + p + 1) (nth L.knots j) / 2) (fun j hj => eaff _) hs, ← eaff]
    have hlt : ∀ x y, x < y → unitParam (nth L.knots) (nL + p + 1) x / 2 < unitParam (nth L.knots) (nL + p + 1) y / 2 := fun x y h => by
      rw [eaff, eaff]
      have := mul_lt_mul_of_pos_left h hk
      linarith
    have hle : ∀ x y, x ≤ y → unitParam (nth L.knots) (nL + p + 1) x / 2 ≤ unitParam (nth L.knots) (nL + p + 1) y / 2 := fun x y h => by
      have := uL _ _ h
      linarith
    have hs' : IsSpan (fun j => unitParam (nth L.knots) (nL + p + 1) (nth L.knots j) / 2) p nL (unitParam (nth L.knots) (nL + p + 1) t / 2) s :=
      isSpan_map hs (fun i j _ _ h => hlt _ _ h) (fun i j _ _ h => by simp only [h]) (fun i _ h => hle _ _ h) (fun i _ h => hlt _ _ h) (fun i _ h => by rw [h])
    refine (window_curve (d := 0) (s := s) sV (by omega) (fun j hj => (eL j hj).symm) (fun j hj => (nth_append_left (by omega)).symm) ?_ hs').symm
    obtain ⟨q1, q2, q3, q4, q5⟩ := hs
    refine ⟨by omega, by omega, ?_, ?_, Or.inl ?_⟩
    · rw [eL _ (by omega), eL _ (by omega)]; exact hlt _ _ q3
    · rw [eL _ (by omega)]; exact hle _ _ q4
    · rw [eL _ (by omega)]
      refine hlt _ _ ?_
      rcases q5 with q5 | ⟨q5, q6⟩
      · exact q5
      · rw [q5, q6] at h1; exact absurd h1 (lt_irrefl _)
  · intro t h0 h1
    dsimp only
    obtain ⟨s, hs⟩ := exists_isSpan wR.pn hRd h0 h1
    have hk : (0 : K) < 1 / (nth R.knots (nR + p + 1) - nth R.knots 0) / 2 := by positivity
    have eaff : ∀ x, (1 + unitParam (nth R.knots) (nR + p + 1) x) / 2 =
        1 / (nth R.knots (nR + p + 1) - nth R.knots 0) / 2 * x + (1 / 2 - (nth R.knots 0) * (1 / (nth R.knots (nR + p + 1) - nth R.knots 0) / 2)) := by
      intro x; unfold unitParam; ring
    rw [← curvePoint_affine hk mR (V := fun j => (1 + unitParam (nth R.knots) (nR + p + 1) (nth R.knots j)) / 2) (fun j hj => eaff _) hs, ← eaff]
    have hlt : ∀ x y, x < y → (1 + unitParam (nth R.knots) (nR + p + 1) x) / 2 < (1 + unitParam (nth R.knots) (nR + p + 1) y) / 2 := fun x y h => by
      rw [eaff, eaff]
      have := mul_lt_mul_of_pos_left h hk
      linarith
    have hle : ∀ x y, x ≤ y → (1 + unitParam (nth R.knots) (nR + p + 1) x) / 2 ≤ (1 + unitParam (nth R.knots) (nR + p + 1) y) / 2 := fun x y h => by
      have := uR _ _ h
      linarith
    have hs' : IsSpan (fun j => (1 + unitParam (nth R.knots) (nR + p + 1) (nth R.knots j)) / 2) p nR ((1 + unitParam (nth R.knots) (nR + p + 1) t) / 2) s :=
      isSpan_map hs (fun i j _ _ h => hlt _ _ h) (fun i j _ _ h => by simp only [h]) (fun i _ h => hle _ _ h) (fun i _ h => hlt _ _ h) (fun i _ h => by rw [h])
    have eR' : ∀ j, j ≤ nR + p + 1 → nth V (j + (nL + 1)) = (1 + unitParam (nth R.knots) (nR + p + 1) (nth R.knots j)) / 2 := fun j hj => by
      rw [add_comm j]; exact eR j hj
    refine (window_curve (d := nL + 1) (s := s) sV (by omega) (fun j hj => (eR' j hj).symm) (fun j hj => ?_) ?_ hs').symm
    · rw [nth_append_right (by omega), cL, show j + (nL + 1) - (nL + 1) = j by omega]
    · obtain ⟨q1, q2, q3, q4, q5⟩ := hs
      refine ⟨by omega, by omega, ?_, ?_, ?_⟩
      · rw [eR' _ (by omega), show s + (nL + 1) + 1 = (s + 1) + (nL + 1) by omega, eR' _ (by omega)]; exact hlt _ _ q3
      · rw [eR' _ (by omega)]; exact hle _ _ q4
      · rw [show s + (nL + 1) + 1 = (s + 1) + (nL + 1) by omega, eR' _ (by omega), show nL + nR + 1 + 1 = (nR + 1) + (nL + 1) by omega, eR' _ (by omega)]
        rcases q5 with q5 | ⟨q5, q6⟩
        · exact Or.inl (hlt _ _ q5)
        · right; rw [q5, q6]; exact ⟨rfl, rfl⟩

/-- C53, in terms of `GetPointOnCurve`: the points of the merged curve are the points of the two curves. -/
theorem C53_merge_points_partial {L R M : NurbsCurve K} {p nL nR : ℕ} (elevate : NurbsCurve K → ℤ → Res (NurbsCurve K)) (wL : WellFormed L p nL) (wR : WellFormed R p nR)
    (hLc : nth L.knots (nL + 1) = nth L.knots (nL + p + 1)) (hRc : nth R.knots 0 = nth R.knots p)
    (hLu : UnitOrFar L.knots) (hRu : UnitOrFar R.knots)
    (hLs : 2 / 1000000 * (nth L.knots (nL + p + 1) - nth L.knots 0) < nth L.knots (nL + 1) - nth L.knots nL)
    (hRs : 2 / 1000000 * (nth R.knots (nR + p + 1) - nth R.knots 0) < nth R.knots (p + 1) - nth R.knots p)
    (hj : (nth L.cps nL).toXYZ.almostEq (nth R.cps 0).toXYZ = true)
    (eL : EndsSeparated (nth L.knots) p nL) (eR : EndsSeparated (nth R.knots) p nR)
    (hM : mergeCurves elevate L R = ok (some M)) (eM : EndsSeparated (nth M.knots) p (nL + nR + 1)) :
    (∀ t, nth L.knots p ≤ t → t < nth L.knots (nL + 1) →
      NurbsCurve.pointOnCurve M (unitParam (nth L.knots) (nL + p + 1) t / 2) = NurbsCurve.pointOnCurve L t) ∧
    (∀ t, nth R.knots p ≤ t → t ≤ nth R.knots (nR + 1) →
      NurbsCurve.pointOnCurve M ((1 + unitParam (nth R.knots) (nR + p + 1) t) / 2) = NurbsCurve.pointOnCurve R t) := by
  have hpos : ∀ (U : ℕ → K) (n : ℕ), EndsSeparated U p n → p ≤ n → MonoTo U (n + p + 1) → U p < U (n + 1) := by
    intro U n e h m
    have h1 := e.first
    have h2 := m (p + 1) (n + 1) (by omega) (by omega)
    have : (0 : K) ≤ 1 / 1000000 * (1 + max |U p| |U (p + 1)|) := by
      have : 0 ≤ max |U p| |U (p + 1)| := le_max_of_le_left (abs_nonneg _)
      positivity
    linarith
  have mL := wf_monoTo wL
  have mR := wf_monoTo wR
  have pL := wL.pn
  have pR := wR.pn
  have hLd := hpos _ _ eL pL mL
  have hRd := hpos _ _ eR pR mR
  obtain ⟨M', h1, wM, -, -, -, kL, kR, cL, cR⟩ := C53_merge_partial elevate wL wR hLd hRd hLc hRc hLu hRu hLs hRs hj
  rw [hM] at h1
  obtain rfl := Option.some.inj (Res.ok.inj h1)
  have dL : 0 < nth L.knots (nL + p + 1) - nth L.knots 0 := by linarith [mL 0 p (by omega) (by omega)]
  have dR : 0 < nth R.knots (nR + p + 1) - nth R.knots 0 := by linarith [mR (nR + 1) (nR + p + 1) (by omega) (by omega)]
  have uL : ∀ x y, x ≤ y → unitParam (nth L.knots) (nL + p + 1) x ≤ unitParam (nth L.knots) (nL + p + 1) y := fun x y h => by
    unfold unitParam; gcongr
  have uR : ∀ x y, x ≤ y → unitParam (nth R.knots) (nR + p + 1) x ≤ unitParam (nth R.knots) (nR + p + 1) y := fun x y h => by
    unfold unitParam; gcongr
  have mM := wf_monoTo wM
  constructor
  · intro t h0 h1
    unfold NurbsCurve.pointOnCurve
    rw [C05_eval wL eL h0 h1.le, C05_eval wM eM ?_ ?_, cL t h0 h1]
    · rw [kL p (by omega)]; have := uL _ _ h0; linarith
    · refine le_trans ?_ (mM (nL + 1) _ (by omega) (by omega))
      rw [kL (nL + 1) (by omega)]; have := uL _ _ h1.le; linarith
  · intro t h0 h1
    unfold NurbsCurve.pointOnCurve
    rw [C05_eval wR eR h0 h1, C05_eval wM eM ?_ ?_, cR t h0 h1]
    · refine le_trans (mM p (nL + 1 + p) (by omega) (by omega)) ?_
      rw [kR p (by omega)]; have := uR _ _ h0; linarith
    · rw [show nL + nR + 1 + 1 = nL + 1 + (nR + 1) by omega, kR (nR + 1) (by omega)]; have := uR _ _ h1; linarith

/-- C53: curves whose end points are not within tolerance of each other are never merged: the answer is `false`. -/
theorem C53_rejects {L R : NurbsCurve K} (elevate : NurbsCurve K → ℤ → Res (NurbsCurve K)) {nL nR : ℕ} (hL : L.cps.length = nL + 1) (hR : R.cps.length = nR + 1)
    (hj : (nth L.cps nL).toXYZ.almostEq (nth R.cps 0).toXYZ = false) : mergeCurves elevate L R = ok none := by
  unfold mergeCurves
  rw [vget_nth (k := nL) (by omega) (by omega), ok_bind, vget_nth (k := 0) (by simp) (by omega), ok_bind, hj]
  rfl

/-- C53: curves of the same degree are not merged when, after reparametrisation to [0,1], the last knot of the left one or the first knot of
the right one does not have multiplicity degree + 1 (one unclamped side suffices): the answer is `false`. -/
theorem C53_unclamped_rejected {L R tL tR : NurbsCurve K} (elevate : NurbsCurve K → ℤ → Res (NurbsCurve K)) {nL nR mL mR p : ℕ} (hL : L.cps.length = nL + 1)
    (hR : R.cps.length = nR + 1) (dL : L.degree = p) (dR : R.degree = p) (eL : reparametrizeLinear L 0 1 = ok tL) (eR : reparametrizeLinear R 0 1 = ok tR)
    (lL : tL.knots.length = mL + 1) (lR : tR.knots.length = mR + 1) (sL : List.Pairwise (· ≤ ·) tL.knots) (sR : List.Pairwise (· ≤ ·) tR.knots)
    (kL : KnotSeparated tL.knots (nth tL.knots mL)) (kR : KnotSeparated tR.knots (nth tR.knots 0))
    (hc : tL.knots.count (nth tL.knots mL) ≠ p + 1 ∨ tR.knots.count (nth tR.knots 0) ≠ p + 1) : mergeCurves elevate L R = ok none := by
  cases hj : (nth L.cps nL).toXYZ.almostEq (nth R.cps 0).toXYZ with
  | false => exact C53_rejects elevate hL hR hj
  | true =>
    have mono : ∀ (U : List K), List.Pairwise (· ≤ ·) U → ∀ i j, i ≤ j → j < U.length → nth U i ≤ nth U j := fun U h =>
      (isValidKnotVector_nth.mp ((isValidKnotVector_iff U).mpr h))
    have neL : tL.knots ≠ [] := by intro h; rw [h] at lL; simp at lL
    have neR : tR.knots ≠ [] := by intro h; rw [h] at lR; simp at lR
    unfold mergeCurves
    rw [vget_nth (k := nL) (by omega) (by omega), ok_bind, vget_nth (k := 0) (by simp) (by omega), ok_bind, hj]
    simp only [Bool.not_true, Bool.false_eq_true, if_false]
    unfold mergeSide
    rw [dL, dR, max_self, eL, eR]
    simp only [ok_bind, gt_iff_lt, lt_irrefl, if_false]
    rw [vget_nth (k := mL) (by omega) (by omega), ok_bind,
      C17_multiplicity_exact neL sL (mono _ sL _ _ (by omega) (by omega)) (by rw [lL]; exact le_refl _) kL, ok_bind,
      vget_nth (k := 0) (by simp) (by omega), ok_bind, C17_multiplicity_exact neR sR (le_refl _) (mono _ sR _ _ (by omega) (by omega)) kR, ok_bind,
      if_pos]
    rcases hc with h | h
    · left; exact_mod_cast h
    · right; exact_mod_cast h

/-- C53: a right curve that is not clamped at its start is in the scope of `C53_unclamped_rejected`, although its end points agree. -/
example : mergeCurves (fun c _ => ok c) ({ degree := 1, knots := [0, 0, 1, 1], cps := [⟨0, 0, 0, 1⟩, ⟨1, 1, 0, 1⟩] } : NurbsCurve ℚ)
    { degree := 1, knots := [0, 1/4, 1, 1], cps := [⟨1, 1, 0, 1⟩, ⟨3, 1, 0, 1⟩] } = ok none := by decide +kernel

/-- C53 is not vacuous: two parabolic arcs, the left one over [0,2], the right one over [1,4] with an interior knot -/
example : UnitOrFar ([0, 0, 0, 2, 2, 2] : List ℚ) ∧ UnitOrFar ([1, 1, 1, 2, 4, 4, 4] : List ℚ) ∧ UnitOrFar ([0, 0, 1/2, 1, 1] : List ℚ) := by
  unfold UnitOrFar; decide +kernel

example : mergeCurves (fun c _ => ok c) ({ degree := 2, knots := [0, 0, 0, 2, 2, 2], cps := [⟨0, 0, 0, 1⟩, ⟨1, 1, 0, 1⟩, ⟨2, 0, 0, 1⟩] } : NurbsCurve ℚ)
    { degree := 2, knots := [1, 1, 1, 2, 4, 4, 4], cps := [⟨2, 0, 0, 1⟩, ⟨3, 1, 0, 1⟩, ⟨4, 0, 0, 1⟩, ⟨4, 0, 1, 1⟩] } =
    ok (some { degree := 2, knots := [0, 0, 0, 1/2, 1/2, 1/2, 2/3, 1, 1, 1],
               cps := [⟨0, 0, 0, 1⟩, ⟨1, 1, 0, 1⟩, ⟨2, 0, 0, 1⟩, ⟨2, 0, 0, 1⟩, ⟨3, 1, 0, 1⟩, ⟨4, 0, 0, 1⟩, ⟨4, 0, 1, 1⟩] }) := by decide +kernel

end LNLib.Props
