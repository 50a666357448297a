import Verif.Lemmas.ReparamRational
import Verif.Lemmas.RefineRun
import Verif.Props.Curve

/-!
# C08, C21, C22, C44, C62: transforming, reversing and reparametrising curves
(Geometry/Curve/NurbsCurve.cpp, Algorithm/KnotVectorUtils.cpp)
-/
set_option linter.unusedSectionVars false

namespace LNLib.Props
open LNLib Res Spec Finset

variable {K : Type} [Field K] [LinearOrder K] [IsStrictOrderedRing K]
variable {T : Type} [AddCommGroup T] [Module K T]

/-! ## C44 -/

theorem rescale_run {U : List K} {mn mx : K} (hne : U ≠ []) (hc : nth U 0 ≠ nth U (U.length - 1)) :
    ∃ V, rescale U mn mx = ok V ∧ V.length = U.length ∧
      ∀ i, i < U.length → nth V i = mn + (mx - mn) / (nth U (U.length - 1) - nth U 0) * (nth U i - nth U 0) := by
  have hl : 0 < U.length := List.length_pos_iff.mpr hne
  have hd : nth U (U.length - 1) - nth U 0 ≠ 0 := fun h => hc (by linarith)
  unfold rescale
  rw [vget_nth (k := 0) (by simp) hl, ok_bind, vget_nth (k := U.length - 1) (by omega) (by omega), ok_bind, fdiv_ok hd, ok_bind]
  have hbody : (fun (i : ℤ) (result : List K) => (vget U i >>= fun u =>
      vset result i ((mx - mn) / (nth U (U.length - 1) - nth U 0) * (u - nth U 0) + mn) : Res (List K))) =
      fun i result => (vget U i >>= fun u => ok ((mx - mn) / (nth U (U.length - 1) - nth U 0) * (u - nth U 0) + mn)) >>=
        fun x => vset result i x := by
    funext i r; rw [bind_assoc']; rfl
  rw [hbody]
  obtain ⟨V, h1, h2, h3⟩ := Runs.fill (e := 0) (a := 0) (b := (U.length : ℤ)) (arr := List.replicate U.length (0 : K)) (dst := fun i => i)
    (rd := fun i => vget U i >>= fun u => ok ((mx - mn) / (nth U (U.length - 1) - nth U 0) * (u - nth U 0) + mn))
    (f := fun i => (mx - mn) / (nth U (U.length - 1) - nth U 0) * (nth U i - nth U 0) + mn)
    (by intro i; omega) (by omega) (by simp) (by omega) (by
      intro i h1 h2
      rw [vget_nth (k := (i + 0).toNat) (by omega) (by omega), ok_bind])
  refine ⟨V, h1, by rw [h2, List.length_replicate], ?_⟩
  intro i hi
  rw [h3, if_pos (by omega)]; ring

/-- C44: on every sorted non-constant knot vector and every `min < max`, `Rescale` returns a sorted knot
vector of the same length that starts at `min`, ends at `max`, is an affine image of the input, and has
exactly the same pattern of equal and increasing knots. -/
theorem C44_rescale {U : List K} {mn mx : K} (hs : U.Pairwise (· ≤ ·)) (hc : nth U 0 < nth U (U.length - 1)) (hm : mn < mx) :
    ∃ V, rescale U mn mx = ok V ∧ V.length = U.length ∧ V.Pairwise (· ≤ ·) ∧ nth V 0 = mn ∧ nth V (V.length - 1) = mx ∧
      (∀ i, i < U.length → nth V i = mn + (mx - mn) / (nth U (U.length - 1) - nth U 0) * (nth U i - nth U 0)) ∧
      (∀ i j, i < U.length → j < U.length → (nth V i < nth V j ↔ nth U i < nth U j) ∧ (nth V i = nth V j ↔ nth U i = nth U j)) := by
  have hne : U ≠ [] := by rintro rfl; simp at hc
  have hl : 0 < U.length := List.length_pos_iff.mpr hne
  obtain ⟨V, h1, h2, h3⟩ := rescale_run (mn := mn) (mx := mx) hne hc.ne
  have hd : 0 < nth U (U.length - 1) - nth U 0 := by linarith
  have hk : 0 < (mx - mn) / (nth U (U.length - 1) - nth U 0) := div_pos (by linarith) hd
  have hord : ∀ i j, i < U.length → j < U.length → (nth V i < nth V j ↔ nth U i < nth U j) := by
    intro i j hi hj
    rw [h3 i hi, h3 j hj, add_lt_add_iff_left, mul_lt_mul_iff_right₀ hk]
    constructor <;> intro h <;> linarith
  refine ⟨V, h1, h2, ?_, ?_, ?_, h3, ?_⟩
  · rw [← isValidKnotVector_iff, isValidKnotVector_nth]
    intro i j hij hj
    rw [h2] at hj
    by_contra hlt
    rw [not_le, hord j i hj (by omega)] at hlt
    exact absurd (isValidKnotVector_nth.mp ((isValidKnotVector_iff U).mpr hs) i j hij hj) (not_le.mpr hlt)
  · rw [h3 0 hl]; simp
  · rw [h2, h3 _ (by omega)]; field_simp; ring
  · intro i j hi hj
    refine ⟨hord i j hi hj, ?_⟩
    have a1 := hord i j hi hj
    have a2 := hord j i hj hi
    constructor <;> intro h
    · exact le_antisymm (not_lt.mp fun hh => by have := a2.mpr hh; exact absurd h (ne_of_gt this))
        (not_lt.mp fun hh => by have := a1.mpr hh; exact absurd h (ne_of_lt this))
    · exact le_antisymm (not_lt.mp fun hh => by have := a2.mp hh; exact absurd h (ne_of_gt this))
        (not_lt.mp fun hh => by have := a1.mp hh; exact absurd h (ne_of_lt this))

/-- C44 (outside the precondition): a constant knot vector divides by zero, an empty one is read out of bounds. -/
theorem C44_degenerate (x : K) (n : ℕ) (mn mx : K) : rescale (List.replicate (n + 1) x) mn mx = nonfinite ∧ rescale ([] : List K) mn mx = ub := by
  constructor
  · unfold rescale
    rw [vget_nth (k := 0) (by simp) (by simp), ok_bind, vget_nth (k := n) (by simp) (by simp), ok_bind,
      nth_replicate (by omega), nth_replicate (by omega), sub_self, fdiv_zero]
    rfl
  · rfl

example : rescale [0, 0, 1/2, 2, (2 : ℚ)] 1 5 = ok [1, 1, 2, 5, 5] := by decide +kernel

/-! ## C22 -/

theorem isSpan_map {U V : ℕ → K} {p n s : ℕ} {t t' : K} (hs : IsSpan U p n t s)
    (h1 : ∀ i j, i ≤ n + 1 → j ≤ n + 1 → U i < U j → V i < V j) (h1' : ∀ i j, i ≤ n + 1 → j ≤ n + 1 → U i = U j → V i = V j)
    (h2 : ∀ i, i ≤ n + 1 → (U i ≤ t → V i ≤ t')) (h3 : ∀ i, i ≤ n + 1 → (t < U i → t' < V i)) (h4 : ∀ i, i ≤ n + 1 → t = U i → t' = V i) :
    IsSpan V p n t' s := by
  obtain ⟨a1, a2, a3, a4, a5⟩ := hs
  refine ⟨a1, a2, h1 _ _ (by omega) (by omega) a3, h2 _ (by omega) a4, ?_⟩
  rcases a5 with a5 | ⟨a5, a6⟩
  · left; exact h3 _ (by omega) a5
  · right; exact ⟨h4 _ (by omega) a5, h1' _ _ (by omega) (by omega) a6⟩

/-- C22: for every well-formed curve and every `min < max`, `Reparametrize(curve,min,max)` returns either
the curve itself (when both requested ends agree with the current ones up to tolerance) or a
well-formed curve with the same control points, whose knots run from `min` to `max`, and whose point at the
affinely mapped parameter is the original point. -/
theorem C22_reparametrize {c : BsplineCurve K T} {p n : ℕ} {mn mx : K} (w : WellFormed c p n) (hm : mn < mx)
    (hc : nth c.knots p < nth c.knots (n + 1)) :
    (isAlmostEqualTo mn (nth c.knots 0) = true ∧ isAlmostEqualTo mx (nth c.knots (n + p + 1)) = true ∧ reparametrizeLinear c mn mx = ok c) ∨
    ∃ r, reparametrizeLinear c mn mx = ok r ∧ WellFormed r p n ∧ r.cps = c.cps ∧ nth r.knots 0 = mn ∧ nth r.knots (n + p + 1) = mx ∧
      (EndsSeparated (nth c.knots) p n → EndsSeparated (nth r.knots) p n → ∀ t, nth c.knots p ≤ t → t ≤ nth c.knots (n + 1) →
        r.pointOnCurve (mn + (mx - mn) / (nth c.knots (n + p + 1) - nth c.knots 0) * (t - nth c.knots 0)) = c.pointOnCurve t) := by
  have hl := w.knots
  have hpn := w.pn
  have hU := wf_monoTo w
  have h0p := hU 0 p (by omega) (by omega)
  have hn1 := hU (n + 1) (n + p + 1) (by omega) (by omega)
  have hlt : nth c.knots 0 < nth c.knots (c.knots.length - 1) := by
    rw [show c.knots.length - 1 = n + p + 1 by omega]; linarith
  obtain ⟨V, g1, g2, g3, g4, g5, g6, g7⟩ := C44_rescale (mn := mn) (mx := mx)
    ((isValidKnotVector_iff _).mp (isValidKnotVector_nth.mpr w.sorted)) hlt hm
  unfold reparametrizeLinear
  rw [vget_nth (k := 0) (by simp) (by omega), ok_bind, vget_nth (k := n + p + 1) (by omega) (by omega), ok_bind]
  by_cases hae : (isAlmostEqualTo mn (nth c.knots 0) && isAlmostEqualTo mx (nth c.knots (n + p + 1))) = true
  · left
    rw [if_pos hae]
    simp only [Bool.and_eq_true] at hae
    exact ⟨hae.1, hae.2, rfl⟩
  · right
    rw [if_neg hae, g1, ok_bind]
    rw [show c.knots.length - 1 = n + p + 1 by omega] at g6 hlt
    have w' : WellFormed ({ c with knots := V } : BsplineCurve K T) p n :=
      { degree := w.degree, pos := w.pos, le7 := w.le7, cps := w.cps, pn := w.pn, knots := by rw [g2, hl],
        sorted := isValidKnotVector_nth.mp ((isValidKnotVector_iff _).mpr g3) }
    refine ⟨_, rfl, w', rfl, g4, by rw [show n + p + 1 = V.length - 1 by omega]; exact g5, ?_⟩
    intro he he' t ht0 ht1
    set k := (mx - mn) / (nth c.knots (n + p + 1) - nth c.knots 0) with hkdef
    have hk : 0 < k := div_pos (by linarith) (by linarith)
    have e : ∀ x : K, mn + k * (x - nth c.knots 0) = k * x + (mn - k * nth c.knots 0) := fun x => by ring
    have hV : ∀ j, j ≤ n + p + 1 → nth V j = k * nth c.knots j + (mn - k * nth c.knots 0) := fun j hj => by
      rw [g6 j (by omega), e]
    have hlo : ∀ x y : K, x ≤ y → k * x + (mn - k * nth c.knots 0) ≤ k * y + (mn - k * nth c.knots 0) := fun x y h => by
      have := mul_le_mul_of_nonneg_left h hk.le
      linarith
    have hlo' : ∀ x y : K, x < y → k * x + (mn - k * nth c.knots 0) < k * y + (mn - k * nth c.knots 0) := fun x y h => by
      have := mul_lt_mul_of_pos_left h hk
      linarith
    rw [e]
    have d0 : nth V p ≤ k * t + (mn - k * nth c.knots 0) := by rw [hV p (by omega)]; exact hlo _ _ ht0
    have d1 : k * t + (mn - k * nth c.knots 0) ≤ nth V (n + 1) := by rw [hV (n + 1) (by omega)]; exact hlo _ _ ht1
    rw [C05_eval w he ht0 ht1, C05_eval w' he' d0 d1]
    obtain ⟨s, -, hs⟩ := span_isSpan w he ht0 ht1
    have hs' : IsSpan (nth V) p n (k * t + (mn - k * nth c.knots 0)) s := by
      refine isSpan_map hs ?_ ?_ ?_ ?_ ?_
      · intro i j hi hj h; rw [hV i (by omega), hV j (by omega)]; exact hlo' _ _ h
      · intro i j hi hj h; rw [hV i (by omega), hV j (by omega), h]
      · intro i hi h; rw [hV i (by omega)]; exact hlo _ _ h
      · intro i hi h; rw [hV i (by omega)]; exact hlo' _ _ h
      · intro i hi h; rw [hV i (by omega), h]
    congr 1
    rw [curvePoint_span hU (le_refl _) hs, curvePoint_span (wf_monoTo w') (le_refl _) hs']
    have := hs.2.1
    have := hs.1
    apply Finset.sum_congr rfl
    intro r hr
    simp only [mem_range] at hr
    rw [Nspan_affine hk.ne' p (s - p + r) (fun j h1 h2 => hV j (by omega))]

/-- C22: an inverted or empty target range is not rejected; the result then fails `Check`. -/
theorem C22_inverted_range_accepted :
    ∃ (c r : BsplineCurve ℚ ℚ), WellFormed c 1 1 ∧ reparametrizeLinear c 1 0 = ok r ∧ r.check = invalidArg :=
  ⟨{ degree := 1, knots := [0, 0, 1, 1], cps := [1, 2] }, { degree := 1, knots := [1, 1, 0, 0], cps := [1, 2] },
    { degree := rfl, pos := by decide, le7 := by decide, cps := rfl, pn := by decide, knots := rfl,
      sorted := isValidKnotVector_nth.mp (by decide +kernel) }, by decide +kernel, by decide +kernel⟩

example : reparametrizeLinear ({ degree := 1, knots := [0, 0, 1, 2, 2], cps := [1, 5, 7] } : BsplineCurve ℚ ℚ) 2 6 =
    ok { degree := 1, knots := [2, 2, 4, 6, 6], cps := [1, 5, 7] } := by decide +kernel

/-! ## C21 -/

theorem reverse_run {c : BsplineCurve K T} (hne : c.knots ≠ []) :
    ∃ V, reverseCurve c = ok { degree := c.degree, knots := V, cps := c.cps.reverse } ∧ V.length = c.knots.length ∧
      ∀ j, j < c.knots.length → nth V j = nth c.knots 0 + nth c.knots (c.knots.length - 1) - nth c.knots (c.knots.length - 1 - j) := by
  have hl : 0 < c.knots.length := List.length_pos_iff.mpr hne
  unfold reverseCurve
  rw [vget_nth (k := 0) (by simp) hl, ok_bind, vget_nth (k := c.knots.length - 1) (by omega) (by omega), ok_bind,
    vset_of (k := 0) (by simp) (by simpa using hl), ok_bind]
  set m := c.knots.length - 1 with hm
  have hrun : Runs (forI 1 (c.knots.length : ℤ) ((List.replicate c.knots.length (0 : K)).set 0 (nth c.knots 0)) fun i rk => do
    let a ← vget rk (i - 1)
    let b ← vget c.knots ((c.knots.length : ℤ) - i)
    let d ← vget c.knots ((c.knots.length : ℤ) - i - 1)
    vset rk i (a + (b - d))) (fun V => V.length = c.knots.length ∧ ∀ j, j < c.knots.length → nth V j = nth c.knots 0 + nth c.knots m - nth c.knots (m - j)) := by
    refine (Runs.forN (m := 1) (n := c.knots.length) (fun i V => V.length = c.knots.length ∧ ∀ j, j < i → nth V j = nth c.knots 0 + nth c.knots m - nth c.knots (m - j))
      (by simp) rfl (by omega) ⟨by simp, ?_⟩ ?_).mono (fun V h => h)
    · intro j hj
      have : j = 0 := by omega
      subst this
      rw [nth_set (by simpa using hl), if_pos rfl]; simp
    · rintro i V hi1 hi2 ⟨hV, hv⟩
      rw [vget_nth (k := i - 1) (by omega) (by omega), ok_bind, vget_nth (k := c.knots.length - i) (by omega) (by omega), ok_bind,
        vget_nth (k := c.knots.length - i - 1) (by omega) (by omega), ok_bind, vset_of (k := i) rfl (by omega)]
      refine Runs.ok ⟨by simp [hV], ?_⟩
      intro j hj
      rw [nth_set (by omega)]
      by_cases hji : j = i
      · rw [if_pos hji, hji, hv (i - 1) (by omega), show m - (i - 1) = c.knots.length - i by omega, show m - i = c.knots.length - i - 1 by omega]
        ring
      · rw [if_neg hji]; exact hv j (by omega)
  obtain ⟨V, e, h1, h2⟩ := hrun
  refine ⟨V, ?_, h1, h2⟩
  rw [e, ok_bind]

/-- C21: for every well-formed curve `Reverse` returns a well-formed curve with the same first and last
knot `a`, `b`, the control points in reverse order, and `R(a+b-t) = C(t)` for every parameter of the domain
at which the curve is continuous (end points of the domain, and interior parameters that are knots of
multiplicity at most the degree). -/
theorem C21_reverse {c : BsplineCurve K T} {p n : ℕ} (w : WellFormed c p n) :
    ∃ r, reverseCurve c = ok r ∧ WellFormed r p n ∧ nth r.knots 0 = nth c.knots 0 ∧ nth r.knots (n + p + 1) = nth c.knots (n + p + 1) ∧
      r.cps = c.cps.reverse ∧
      (EndsSeparated (nth c.knots) p n → EndsSeparated (nth r.knots) p n → ∀ t, nth c.knots p ≤ t → t ≤ nth c.knots (n + 1) →
        (nth c.knots p < t → t < nth c.knots (n + 1) → c.knots.count t ≤ p) →
        r.pointOnCurve (nth c.knots 0 + nth c.knots (n + p + 1) - t) = c.pointOnCurve t) := by
  have hl := w.knots
  have hpn := w.pn
  have hU := wf_monoTo w
  obtain ⟨V, g1, g2, g3⟩ := reverse_run (c := c) (by intro h; rw [h] at hl; simp at hl)
  rw [show c.knots.length - 1 = n + p + 1 by omega] at g3
  have hV : ∀ j, j ≤ n + p + 1 → nth V j = nth c.knots 0 + nth c.knots (n + p + 1) - nth c.knots (n + p + 1 - j) := fun j hj => g3 j (by omega)
  have w' : WellFormed ({ degree := c.degree, knots := V, cps := c.cps.reverse } : BsplineCurve K T) p n :=
    { degree := w.degree, pos := w.pos, le7 := w.le7, cps := by rw [List.length_reverse]; exact w.cps, pn := w.pn, knots := by rw [g2, hl],
      sorted := by
        intro i j hij hj
        dsimp only at hj ⊢
        rw [hV i (by omega), hV j (by omega)]
        have := hU (n + p + 1 - j) (n + p + 1 - i) (by omega) (by omega)
        linarith }
  refine ⟨_, g1, w', ?_, ?_, rfl, ?_⟩
  · dsimp only
    rw [hV 0 (by omega)]; simp
  · dsimp only
    rw [hV _ (le_refl _)]; simp
  · intro he he' t ht0 ht1 hcnt
    have d0 : nth V p ≤ nth c.knots 0 + nth c.knots (n + p + 1) - t := by
      rw [hV p (by omega), show n + p + 1 - p = n + 1 by omega]; linarith
    have d1 : nth c.knots 0 + nth c.knots (n + p + 1) - t ≤ nth V (n + 1) := by
      rw [hV _ (by omega), show n + p + 1 - (n + 1) = p by omega]; linarith
    rw [C05_eval w he ht0 ht1, C05_eval w' he' d0 d1]
    obtain ⟨s, -, hs⟩ := span_isSpan w he ht0 ht1
    obtain ⟨s2, -, hs2⟩ := span_isSpan w' he' d0 d1
    congr 1
    refine curvePoint_reverse hU hV ?_ hs hs2 ?_ w.pos
    · intro j hj
      dsimp only
      rw [nth_reverse (by rw [w.cps]; omega), w.cps]
      congr 1
    · intro hlt0 hlt1 i hi hin hit hit'
      have h1 := hcnt hlt0 hlt1
      have h2 : p + 1 ≤ c.knots.count t := by
        refine count_block (i := i) (by omega) ?_
        intro l hl'
        have m1 := hU i (i + l) (by omega) (by omega)
        have m2 := hU (i + l) (i + p) (by omega) (by omega)
        linarith
      omega

/-- C21: reversing twice gives the original curve back, for every curve with at least one knot. -/
theorem C21_involution {c : BsplineCurve K T} (hne : c.knots ≠ []) : (reverseCurve c >>= reverseCurve) = ok c := by
  have hl : 0 < c.knots.length := List.length_pos_iff.mpr hne
  obtain ⟨V, g1, g2, g3⟩ := reverse_run hne
  have hne' : V ≠ [] := by intro h; rw [h] at g2; simp at g2; omega
  rw [g1, ok_bind]
  obtain ⟨W, e1, e2, e3⟩ := reverse_run (c := ({ degree := c.degree, knots := V, cps := c.cps.reverse } : BsplineCurve K T)) hne'
  rw [e1]
  congr 1
  have : W = c.knots := by
    apply ext_nth (by rw [e2]; exact g2)
    intro i hi
    dsimp only at e2 e3
    rw [e3 i (by omega), g2, g3 _ (by omega), g3 _ (by omega), g3 _ (by omega), Nat.sub_self, Nat.sub_zero,
      show c.knots.length - 1 - (c.knots.length - 1 - i) = i by omega]
    ring
  rw [this]
  simp

/-- C21: an empty knot vector is read out of bounds. -/
theorem C21_empty_ub (d : ℤ) (P : List T) : reverseCurve (BsplineCurve.mk d ([] : List K) P) = ub := rfl

example : reverseCurve ({ degree := 1, knots := [0, 0, 1, 3, 3], cps := [1, 5, 7] } : BsplineCurve ℚ ℚ) =
    ok { degree := 1, knots := [0, 0, 2, 3, 3], cps := [7, 5, 1] } := by decide +kernel

/-- the hypotheses of C21 hold for `exCurve`, including at its interior knot `1/2` -/
example : ∃ r, reverseCurve exCurve = ok r ∧ BsplineCurve.pointOnCurve r (0 + 1 - 1/2) = BsplineCurve.pointOnCurve exCurve (1/2) := by
  obtain ⟨r, h1, -, -, -, -, h2⟩ := C21_reverse exCurve_wf
  have hr : r.knots = exKnots := by
    have h3 : (reverseCurve exCurve).bind (fun r => ok r.knots) = ok exKnots := by decide +kernel
    rw [h1] at h3
    exact Res.ok.inj h3
  refine ⟨r, h1, h2 exKnots_ends (by rw [hr]; exact exKnots_ends) (1/2) (by decide +kernel) (by decide +kernel) (by decide +kernel)⟩

/-! ## C08 -/

/-- The affine map `p ↦ A p + b` described by the first three rows of the matrix. -/
def affineImage (m : Matrix4d K) (p : XYZ K) : XYZ K :=
  ⟨m.a00 * p.x + m.a01 * p.y + m.a02 * p.z + m.a03, m.a10 * p.x + m.a11 * p.y + m.a12 * p.z + m.a13,
    m.a20 * p.x + m.a21 * p.y + m.a22 * p.z + m.a23⟩

/-- The matrix is affine: its last row is `0 0 0 1`. -/
def IsAffine (m : Matrix4d K) : Prop := m.a30 = 0 ∧ m.a31 = 0 ∧ m.a32 = 0 ∧ m.a33 = 1

theorem ofPoint_affine {m : Matrix4d K} (h : IsAffine m) (p : XYZ K) : m.ofPoint p = ok (affineImage m p) := by
  obtain ⟨h0, h1, h2, h3⟩ := h
  unfold Matrix4d.ofPoint
  rw [h0, h1, h2, h3, vdiv_ok (by simp)]
  congr 1
  ext <;> simp [affineImage]

/-- the linear map on weighted points induced by an affine matrix -/
def liftW (m : Matrix4d K) (q : XYZW K) : XYZW K :=
  ⟨m.a00 * q.wx + m.a01 * q.wy + m.a02 * q.wz + m.a03 * q.w, m.a10 * q.wx + m.a11 * q.wy + m.a12 * q.wz + m.a13 * q.w,
    m.a20 * q.wx + m.a21 * q.wy + m.a22 * q.wz + m.a23 * q.w, q.w⟩

def liftWL (m : Matrix4d K) : XYZW K →ₗ[K] XYZW K where
  toFun := liftW m
  map_add' a b := by ext <;> simp [liftW] <;> ring
  map_smul' c a := by ext <;> simp [liftW] <;> ring

theorem ofWeightedPoint_affine {m : Matrix4d K} (h : IsAffine m) {q : XYZW K} (hw : q.w ≠ 0) : m.ofWeightedPoint q = ok (liftW m q) := by
  unfold Matrix4d.ofWeightedPoint
  rw [fdiv_ok hw, ok_bind, fdiv_ok hw, ok_bind, fdiv_ok hw, ok_bind, ofPoint_affine h, ok_bind]
  congr 1
  ext <;> simp [affineImage, liftW, XYZW.ofXYZ] <;> field_simp

theorem createTransformed_run {c : NurbsCurve K} {m : Matrix4d K} (h : IsAffine m) (hw : ∀ q ∈ c.cps, q.w ≠ 0) :
    createTransformed c m = ok { c with cps := c.cps.map (liftW m) } := by
  unfold createTransformed
  have hbody : (fun (i : ℤ) (acc : List (XYZW K)) => (vget c.cps i >>= fun temp => m.ofWeightedPoint temp >>= fun q => vset acc i q : Res (List (XYZW K)))) =
      fun i acc => (vget c.cps i >>= fun temp => m.ofWeightedPoint temp) >>= fun q => vset acc i q := by
    funext i r; rw [bind_assoc']
  dsimp only
  rw [hbody]
  obtain ⟨V, h1, h2, h3⟩ := Runs.fill (e := 0) (a := 0) (b := (c.cps.length : ℤ)) (arr := List.replicate c.cps.length (0 : XYZW K)) (dst := fun i => i)
    (rd := fun i => vget c.cps i >>= fun temp => m.ofWeightedPoint temp) (f := fun i => liftW m (nth c.cps i))
    (by intro i; omega) (by omega) (by simp) (by omega) (by
      intro i h1 h2
      rw [vget_nth (k := (i + 0).toNat) (by omega) (by omega), ok_bind, ofWeightedPoint_affine h (hw _ (mem_of_nth (by omega)))])
  rw [h1, ok_bind]
  congr 2
  apply ext_nth (by rw [h2]; simp)
  intro i hi
  rw [h2, List.length_replicate] at hi
  rw [h3, if_pos (by omega), nth_map hi]

/-- C08: transforming a rational curve by an affine matrix commutes with evaluation. -/
theorem C08_affine_invariance {c : NurbsCurve K} {m : Matrix4d K} {p n : ℕ} {t : K} (hm : IsAffine m) (w : WellFormed c p n)
    (he : EndsSeparated (nth c.knots) p n) (hw : ∀ q ∈ c.cps, q.w ≠ 0) (h0 : nth c.knots p ≤ t) (h1 : t ≤ nth c.knots (n + 1))
    (hwt : 1 / 1000000 * (1 + |weightFn (nth c.knots) p n (nth c.cps) t|) < |weightFn (nth c.knots) p n (nth c.cps) t|) :
    ∃ c' q, createTransformed c m = ok c' ∧ WellFormed c' p n ∧ c'.knots = c.knots ∧ NurbsCurve.pointOnCurve c t = ok q ∧
      NurbsCurve.pointOnCurve c' t = ok (affineImage m q) ∧ m.ofPoint q = ok (affineImage m q) := by
  have w' : WellFormed ({ c with cps := c.cps.map (liftW m) } : NurbsCurve K) p n :=
    { degree := w.degree, pos := w.pos, le7 := w.le7, cps := by rw [List.length_map]; exact w.cps, pn := w.pn, knots := w.knots, sorted := w.sorted }
  refine ⟨_, rationalPoint (nth c.knots) p n (nth c.cps) t, createTransformed_run hm hw, w', rfl, C05_eval_rational w he h0 h1 hwt, ?_, ofPoint_affine hm _⟩
  unfold NurbsCurve.pointOnCurve
  rw [C05_eval w' he h0 h1, ok_bind]
  dsimp only
  have hcp : curvePoint (nth c.knots) p n (nth (c.cps.map (liftW m))) t = liftW m (curvePoint (nth c.knots) p n (nth c.cps) t) := by
    have : liftW m (curvePoint (nth c.knots) p n (nth c.cps) t) = liftWL m (curvePoint (nth c.knots) p n (nth c.cps) t) := rfl
    rw [this]
    unfold curvePoint
    rw [map_sum]
    apply Finset.sum_congr rfl
    intro i hi
    simp only [mem_range] at hi
    rw [map_smul, nth_map (by rw [w.cps]; exact hi)]
    rfl
  have hwe : (curvePoint (nth c.knots) p n (nth c.cps) t).w = weightFn (nth c.knots) p n (nth c.cps) t := by
    unfold curvePoint weightFn; rw [XYZW.sum_w]
  have hne : weightFn (nth c.knots) p n (nth c.cps) t ≠ 0 := by
    intro h0; rw [h0] at hwt; norm_num at hwt
  have hraw : rationalPoint (nth c.knots) p n (nth c.cps) t = (curvePoint (nth c.knots) p n (nth c.cps) t).w⁻¹ • (curvePoint (nth c.knots) p n (nth c.cps) t).raw := by
    rw [hwe]
    unfold rationalPoint curvePoint weightFn
    rw [XYZW.sum_raw]; rfl
  rw [hcp, XYZW.toXYZ_eq (by change 1 / 1000000 * (1 + |(curvePoint (nth c.knots) p n (nth c.cps) t).w|) < |(curvePoint (nth c.knots) p n (nth c.cps) t).w|; rw [hwe]; exact hwt), hraw]
  set q := curvePoint (nth c.knots) p n (nth c.cps) t
  rw [← hwe] at hne
  congr 1
  ext <;> simp [liftW, affineImage, XYZW.raw] <;> field_simp

/-- the hypotheses of C08 hold for `exCurve`, a shear with translation, and `t = 3/4` -/
example : ∃ c' q, createTransformed exCurve (⟨1, 2, 0, 5, 0, 1, 0, 6, 0, 3, -1, 7, 0, 0, 0, 1⟩ : Matrix4d ℚ) = ok c' ∧
    NurbsCurve.pointOnCurve exCurve (3/4) = ok q ∧
    NurbsCurve.pointOnCurve c' (3/4) = ok (affineImage ⟨1, 2, 0, 5, 0, 1, 0, 6, 0, 3, -1, 7, 0, 0, 0, 1⟩ q) := by
  obtain ⟨c', q, h1, -, -, h2, h3, -⟩ := C08_affine_invariance (m := (⟨1, 2, 0, 5, 0, 1, 0, 6, 0, 3, -1, 7, 0, 0, 0, 1⟩ : Matrix4d ℚ))
    ⟨rfl, rfl, rfl, rfl⟩ exCurve_wf exKnots_ends (by decide +kernel) (t := 3/4) (by decide +kernel) (by decide +kernel) (by decide +kernel)
  exact ⟨c', q, h1, h2, h3⟩

/-- C08 fails for matrices with a perspective part: the weights are not changed, so a projective
transform of a curve does not trace the transformed points. -/
theorem C08_projective_violated :
    ∃ (c c' : NurbsCurve ℚ) (m : Matrix4d ℚ) (q q' r : XYZ ℚ), WellFormed c 1 1 ∧ (∀ a ∈ c.cps, a.w = 1) ∧ createTransformed c m = ok c' ∧
      NurbsCurve.pointOnCurve c (1/2) = ok q ∧ m.ofPoint q = ok r ∧ NurbsCurve.pointOnCurve c' (1/2) = ok q' ∧ q' ≠ r :=
  ⟨{ degree := 1, knots := [0, 0, 1, 1], cps := [⟨0, 0, 0, 1⟩, ⟨1, 0, 0, 1⟩] },
    { degree := 1, knots := [0, 0, 1, 1], cps := [⟨0, 0, 0, 1⟩, ⟨1/2, 0, 0, 1⟩] },
    ⟨1, 0, 0, 0, 0, 1, 0, 0, 0, 0, 1, 0, 1, 0, 0, 1⟩, ⟨1/2, 0, 0⟩, ⟨1/4, 0, 0⟩, ⟨1/3, 0, 0⟩,
    { degree := rfl, pos := by decide, le7 := by decide, cps := rfl, pn := by decide, knots := rfl,
      sorted := isValidKnotVector_nth.mp (by decide +kernel) }, by decide +kernel⟩

/-! ## C62 -/

/-- C62: for every well-formed rational curve with weights above the zero tolerance and every
`t ↦ (αt+β)/(γt+δ)` with `αδ - γβ > 0` (beyond tolerance) whose denominator has one sign on the knots,
the rational `Reparametrize` returns a well-formed curve with the mapped knots and positive weights
whose point at the mapped parameter is the original point. -/
theorem C62_rational_reparametrize {c : NurbsCurve K} {p n : ℕ} {al be ga de sg : K} (w : WellFormed c p n)
    (hD : isGreaterThan (al * de) (ga * be) = true) (hsg : sg = 1 ∨ sg = -1)
    (hL : ∀ i, i ≤ n + p + 1 → 0 < sg * (ga * nth c.knots i + de)) (hw : ∀ q ∈ c.cps, 1 / 1000000 * (1 + q.w) < q.w) :
    ∃ r, reparametrizeRational c al be ga de = ok r ∧ WellFormed r p n ∧ (∀ q ∈ r.cps, 0 < q.w) ∧
      (∀ i, i ≤ n + p + 1 → nth r.knots i = (al * nth c.knots i + be) / (ga * nth c.knots i + de)) ∧
      (EndsSeparated (nth c.knots) p n → EndsSeparated (nth r.knots) p n → ∀ t, nth c.knots p ≤ t → t ≤ nth c.knots (n + 1) →
        (1 / 1000000 * (1 + |weightFn (nth r.knots) p n (nth r.cps) ((al * t + be) / (ga * t + de))|)
          < |weightFn (nth r.knots) p n (nth r.cps) ((al * t + be) / (ga * t + de))|) →
        NurbsCurve.pointOnCurve r ((al * t + be) / (ga * t + de)) = ok (rationalPoint (nth c.knots) p n (nth c.cps) t)) := by
  have hl := w.knots
  have hpn := w.pn
  have hpp := w.pos
  have hU := wf_monoTo w
  have hDpos : 0 < al * de - ga * be := by
    have h1 := tolOf_pos (a := al * de) (b := ga * be) doubleEps_pos
    simp only [isGreaterThan, decide_eq_true_eq] at hD
    linarith
  have hss : sg * sg = 1 := by rcases hsg with rfl | rfl <;> norm_num
  have hLne : ∀ i, i ≤ n + p + 1 → ga * nth c.knots i + de ≠ 0 := fun i hi h => by
    have := hL i hi; rw [h, mul_zero] at this; exact lt_irrefl _ this
  have hpos : ∀ q ∈ c.cps, 0 < q.w := fun q hq => by have := hw q hq; linarith
  have habs : ∀ q ∈ c.cps, 1 / 1000000 * (1 + |q.w|) < |q.w| := fun q hq => by rw [abs_of_pos (hpos q hq)]; exact hw q hq
  unfold reparametrizeRational
  rw [validate_of hD, ok_bind]
  have hb1 : (fun (i : ℤ) (V : List K) => (vget c.knots i >>= fun u => fdiv (al * u + be) (ga * u + de) >>= fun v => vset V i v : Res (List K))) =
      fun i V => (vget c.knots i >>= fun u => fdiv (al * u + be) (ga * u + de)) >>= fun v => vset V i v := by
    funext i r; rw [bind_assoc']
  rw [hb1]
  obtain ⟨V, h1, h2, h3⟩ := Runs.fill (e := 0) (a := 0) (b := (c.knots.length : ℤ)) (arr := List.replicate c.knots.length (0 : K)) (dst := fun i => i)
    (rd := fun i => vget c.knots i >>= fun u => fdiv (al * u + be) (ga * u + de)) (f := fun i => (al * nth c.knots i + be) / (ga * nth c.knots i + de))
    (by intro i; omega) (by omega) (by simp) (by omega) (by
      intro i h1 h2
      rw [vget_nth (k := (i + 0).toNat) (by omega) (by omega), ok_bind, fdiv_ok (hLne _ (by omega))])
  rw [h1, ok_bind]
  rw [List.length_replicate] at h2
  have hV : ∀ i, i ≤ n + p + 1 → nth V i = (al * nth c.knots i + be) / (ga * nth c.knots i + de) := fun i hi => by
    rw [h3, if_pos (by omega)]
  -- the product of the factors
  set lam : ℕ → K := fun i => ∏ j ∈ range p, (nth V (i + 1 + j) * ga - al) with hlam
  have hfac : ∀ i, i ≤ n + p + 1 → nth V i * ga - al = -((al * de - ga * be) / (ga * nth c.knots i + de)) := fun i hi => by
    rw [hV i hi]
    have := hLne i hi
    rw [div_mul_eq_mul_div, div_sub' this, ← neg_div]
    congr 1
    ring
  have habslam : ∀ i, i ≤ n → |lam i| = ∏ j ∈ range p, ((al * de - ga * be) / (sg * (ga * nth c.knots (i + 1 + j) + de))) := fun i hi => by
    rw [hlam, Finset.abs_prod]
    apply Finset.prod_congr rfl
    intro j hj
    simp only [mem_range] at hj
    have h1 := hL (i + 1 + j) (by omega)
    rw [hfac _ (by omega), abs_neg, abs_div, abs_of_pos hDpos]
    congr 1
    rcases hsg with rfl | rfl
    · rw [one_mul] at h1 ⊢; exact abs_of_pos h1
    · rw [neg_one_mul] at h1 ⊢; exact abs_of_neg (by linarith)
  have hlampos : ∀ i, i ≤ n → 0 < |lam i| := fun i hi => by
    rw [habslam i hi]
    apply Finset.prod_pos
    intro j hj
    simp only [mem_range] at hj
    exact div_pos hDpos (hL _ (by omega))
  have hb2 : (fun (i : ℤ) (Q : List (XYZW K)) => ((forI 1 (c.degree + 1) (1 : K) fun j temp => vget V (i + j) >>= fun v => ok (temp * (v * ga - al))) >>= fun temp =>
      vget c.cps i >>= fun p => vset Q i (XYZW.ofXYZ p.toXYZ |p.w * temp|) : Res (List (XYZW K)))) =
      fun i Q => ((forI 1 (c.degree + 1) (1 : K) fun j temp => vget V (i + j) >>= fun v => ok (temp * (v * ga - al))) >>= fun temp =>
      vget c.cps i >>= fun p => ok (XYZW.ofXYZ p.toXYZ |p.w * temp|)) >>= fun q => vset Q i q := by
    funext i Q
    rw [bind_assoc']
    congr 1
    funext temp
    rw [bind_assoc']
    rfl
  rw [hb2]
  obtain ⟨Q, q1, q2, q3⟩ := Runs.fill (e := 0) (a := 0) (b := (c.cps.length : ℤ)) (arr := List.replicate c.cps.length (0 : XYZW K)) (dst := fun i => i)
    (rd := fun i => (forI 1 (c.degree + 1) (1 : K) fun j temp => vget V (i + j) >>= fun v => ok (temp * (v * ga - al))) >>= fun temp =>
      vget c.cps i >>= fun p => ok (XYZW.ofXYZ p.toXYZ |p.w * temp|)) (f := fun i => |lam i| • nth c.cps i)
    (by intro i; omega) (by omega) (by simp) (by omega) (by
      intro i i1 i2
      obtain ⟨k, rfl⟩ := Int.eq_ofNat_of_zero_le i1
      have hk : k ≤ n := by have := w.cps; omega
      have hloop : (forI 1 (c.degree + 1) (1 : K) fun j temp => vget V ((k : ℤ) + j) >>= fun v => ok (temp * (v * ga - al))) = ok (lam k) := by
        apply Runs.eq
        refine (Runs.forN (m := 1) (n := p + 1) (fun j x => x = ∏ l ∈ range (j - 1), (nth V (k + 1 + l) * ga - al)) (by simp) (by rw [w.degree]; simp) (by omega) (by simp) ?_).mono ?_
        · rintro j x j1 j2 rfl
          rw [vget_nth (k := k + j) (by omega) (by omega), ok_bind]
          refine Runs.ok ?_
          obtain ⟨j', rfl⟩ : ∃ j', j = j' + 1 := ⟨j - 1, by omega⟩
          simp only [Nat.add_sub_cancel]
          rw [prod_range_succ, show k + (j' + 1) = k + 1 + j' by omega]
        · rintro x rfl; simp [hlam]
      have hmem : nth c.cps k ∈ c.cps := mem_of_nth (by omega)
      rw [hloop, ok_bind, vget_nth (k := k) rfl (by omega), ok_bind, XYZW.toXYZ_eq (habs _ hmem)]
      have hwk := hpos _ hmem
      rw [abs_mul, abs_of_pos hwk]
      congr 1
      have : (((k : ℕ) : ℤ) + 0).toNat = k := by omega
      rw [this]
      ext <;> simp [XYZW.ofXYZ, XYZW.raw] <;> field_simp)
  rw [q1, ok_bind]
  rw [List.length_replicate] at q2
  have hQ : ∀ i, i ≤ n → nth Q i = |lam i| • nth c.cps i := fun i hi => by
    have := w.cps
    rw [q3, if_pos (by omega)]
  have hlt : ∀ x y : K, 0 < sg * (ga * x + de) → 0 < sg * (ga * y + de) → ((al * x + be) / (ga * x + de) < (al * y + be) / (ga * y + de) ↔ x < y) := by
    intro x y hx hy
    apply mobius_lt hDpos
    have : (ga * x + de) * (ga * y + de) = (sg * (ga * x + de)) * (sg * (ga * y + de)) := by
      calc _ = (sg * sg) * ((ga * x + de) * (ga * y + de)) := by rw [hss, one_mul]
        _ = _ := by ring
    rw [this]; exact mul_pos hx hy
  have hle : ∀ x y : K, 0 < sg * (ga * x + de) → 0 < sg * (ga * y + de) → x ≤ y → (al * x + be) / (ga * x + de) ≤ (al * y + be) / (ga * y + de) := by
    intro x y hx hy h
    by_contra hh
    rw [not_le, hlt y x hy hx] at hh
    linarith
  have w' : WellFormed ({ degree := c.degree, knots := V, cps := Q } : NurbsCurve K) p n :=
    { degree := w.degree, pos := w.pos, le7 := w.le7, cps := by rw [q2]; exact w.cps, pn := w.pn, knots := by rw [h2, hl],
      sorted := by
        intro i j hij hj
        dsimp only at hj ⊢
        rw [hV i (by omega), hV j (by omega)]
        exact hle _ _ (hL i (by omega)) (hL j (by omega)) (hU i j hij (by omega)) }
  refine ⟨_, rfl, w', ?_, hV, ?_⟩
  · intro q hq
    dsimp only at hq
    obtain ⟨i, hi, rfl⟩ := List.getElem_of_mem hq
    rw [← nth_eq_getElem hi, hQ i (by have := w.cps; omega)]
    have hwc := w.cps
    have := hpos (nth c.cps i) (mem_of_nth (by omega))
    have h2 := hlampos i (by omega)
    simp only [XYZW.smul_w]
    positivity
  · intro he he' t ht0 ht1 hwt
    dsimp only at he' hwt ⊢
    have hLt : 0 < sg * (ga * t + de) := by
      have a1 := hL p (by omega)
      have a2 := hL (n + 1) (by omega)
      have e : ∀ x : K, sg * (ga * x + de) = sg * ga * x + sg * de := fun x => by ring
      rw [e] at a1 a2 ⊢
      rcases le_or_gt 0 (sg * ga) with h | h
      · have := mul_le_mul_of_nonneg_left ht0 h; linarith
      · have := mul_le_mul_of_nonpos_left ht1 h.le; linarith
    have hLt0 : ga * t + de ≠ 0 := fun h => by rw [h, mul_zero] at hLt; exact lt_irrefl _ hLt
    have d0 : nth V p ≤ (al * t + be) / (ga * t + de) := by rw [hV p (by omega)]; exact hle _ _ (hL p (by omega)) hLt ht0
    have d1 : (al * t + be) / (ga * t + de) ≤ nth V (n + 1) := by rw [hV (n + 1) (by omega)]; exact hle _ _ hLt (hL _ (by omega)) ht1
    obtain ⟨s, -, hs⟩ := span_isSpan w he ht0 ht1
    have hs' : IsSpan (nth V) p n ((al * t + be) / (ga * t + de)) s := by
      refine isSpan_map hs ?_ ?_ ?_ ?_ ?_
      · intro i j hi hj h; rw [hV i (by omega), hV j (by omega)]; exact (hlt _ _ (hL i (by omega)) (hL j (by omega))).mpr h
      · intro i j hi hj h; rw [hV i (by omega), hV j (by omega), h]
      · intro i hi h; rw [hV i (by omega)]; exact hle _ _ (hL i (by omega)) hLt h
      · intro i hi h; rw [hV i (by omega)]; exact (hlt _ _ hLt (hL i (by omega))).mpr h
      · intro i hi h; rw [hV i (by omega), h]
    -- the homogeneous curve is scaled
    set kap : K := ((al * de - ga * be) / (sg * (ga * t + de))) ^ p with hkap
    have hkpos : 0 < kap := by rw [hkap]; exact pow_pos (div_pos hDpos hLt) p
    have hcurve : curvePoint (nth V) p n (nth Q) ((al * t + be) / (ga * t + de)) = kap • curvePoint (nth c.knots) p n (nth c.cps) t := by
      rw [curvePoint_span hU (le_refl _) hs, curvePoint_span (wf_monoTo w') (le_refl _) hs', Finset.smul_sum]
      have s1 := hs.1
      have s2 := hs.2.1
      apply Finset.sum_congr rfl
      intro r hr
      simp only [mem_range] at hr
      rw [Nspan_mobius hDpos.ne' hLt0 p (s - p + r) (fun j h1 h2 => ⟨hV j (by omega), hLne j (by omega)⟩), hQ _ (by omega), habslam _ (by omega),
        smul_smul, smul_smul]
      congr 1
      rw [mul_right_comm, ← Finset.prod_mul_distrib]
      congr 1
      rw [hkap, ← Finset.card_range p, ← Finset.prod_const, Finset.card_range]
      apply Finset.prod_congr rfl
      intro j hj
      simp only [mem_range] at hj
      have a1 := hLne (s - p + r + 1 + j) (by omega)
      have a2 : sg ≠ 0 := by rcases hsg with rfl | rfl <;> norm_num
      field_simp
    have hwr : ∀ (U : ℕ → K) (P : ℕ → XYZW K) (x : K), weightFn U p n P x = (curvePoint U p n P x).w := by
      intro U P x; unfold curvePoint weightFn; rw [XYZW.sum_w]
    have hrp : ∀ (U : ℕ → K) (P : ℕ → XYZW K) (x : K), rationalPoint U p n P x = (curvePoint U p n P x).w⁻¹ • (curvePoint U p n P x).raw := by
      intro U P x
      rw [← hwr]
      unfold rationalPoint curvePoint weightFn
      rw [XYZW.sum_raw]; rfl
    rw [C05_eval_rational w' he' d0 d1 hwt]
    congr 1
    dsimp only
    rw [hrp, hrp, hcurve]
    have e1 : (kap • curvePoint (nth c.knots) p n (nth c.cps) t).raw = kap • (curvePoint (nth c.knots) p n (nth c.cps) t).raw := rfl
    rw [e1, XYZW.smul_w, smul_smul, mul_inv, mul_right_comm, inv_mul_cancel₀ hkpos.ne', one_mul]

/-- C62: coefficients with `αδ - γβ` not clearly positive are rejected. -/
theorem C62_rejects {c : NurbsCurve K} {al be ga de : K} (h : isGreaterThan (al * de) (ga * be) = false) :
    reparametrizeRational c al be ga de = invalidArg := by
  unfold reparametrizeRational; rw [h]; rfl

example : reparametrizeRational ({ degree := 1, knots := [0, 0, 1, 1], cps := [⟨1, 0, 0, 1⟩, ⟨2, 0, 0, 1⟩] } : NurbsCurve ℚ) 2 0 1 1 =
    ok { degree := 1, knots := [0, 0, 1, 1], cps := [⟨2, 0, 0, 2⟩, ⟨2, 0, 0, 1⟩] } := by decide +kernel

end LNLib.Props
