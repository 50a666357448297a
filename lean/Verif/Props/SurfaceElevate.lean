import Verif.Model.SurfaceElevate
import Verif.Lemmas.BezierKnots
import Verif.Props.SurfaceRefine
import Verif.Props.Elevate
import Verif.Props.ReduceDegree

/-!
# C96, C97: degree elevation and degree reduction of surfaces
-/

namespace LNLib.Props
open LNLib Res Spec Finset
set_option linter.unusedSectionVars false

section
variable {K : Type} [Field K] [LinearOrder K] [IsStrictOrderedRing K]
variable {T : Type} [AddCommGroup T] [Module K T]

/-- the loop over the fibres succeeds for every clamped direction -/
theorem elevateFibres_any {F : List (List T)} {a n p t : ℕ} {U : List K} {d : ℤ} (ha : 0 < a) (hF : IsMat F a (n + 1)) (hd : d = p) (hp0 : 0 < p) (hp7 : p ≤ 7) (hpn : p ≤ n)
    (hU : U.length = n + p + 2) (hs : ∀ i j, i ≤ j → j < U.length → nth U i ≤ nth U j) (he : EndsSeparated (nth U) p n) (hc : ClampedEnds (nth U) p n)
    (hsep : WellSeparated U) (hmul : ∀ x, nth U p < x → x < nth U (n + 1) → U.count x ≤ p) (ht : 0 < t) :
    ∃ G V, elevateFibres d U (t : ℤ) F = ok (G, V) ∧ IsMat G a (n + (n + 1 - p) * t + 1) ∧
      ∃ R : ℕ → BsplineCurve K T, (∀ i, i < a → elevateDegree { degree := d, knots := U, cps := row F i } (t : ℤ) = ok (R i) ∧ row G i = (R i).cps) ∧ V = (R (a - 1)).knots := by
  have key : ∀ i, ∃ R : BsplineCurve K T, i < a → elevateDegree { degree := d, knots := U, cps := row F i } (t : ℤ) = ok R ∧ R.cps.length = n + (n + 1 - p) * t + 1 := by
    intro i
    by_cases hi : i < a
    · have w : WellFormed ({ degree := d, knots := U, cps := row F i } : BsplineCurve K T) p n :=
        { degree := hd, pos := hp0, le7 := hp7, cps := hF.2 i hi, pn := hpn, knots := hU, sorted := hs }
      obtain ⟨c', n', k, h1, h2, h3, -⟩ := C42_elevate_result w he hc hsep hmul ht
      exact ⟨_, fun _ => ⟨h2, by simp [h1.cps]; omega⟩⟩
    · exact ⟨{ degree := d, knots := U, cps := [] }, fun h => absurd h hi⟩
  choose R hR using key
  have e := fibresLoop_run (F := F) (a := a) hF.1 (degree := d) (U := U) (op := fun c => elevateDegree c (t : ℤ)) (R := R) (fun i hi => (hR i hi).1)
  rw [if_neg (by omega)] at e
  refine ⟨_, _, e, ⟨by simp, fun i hi => ?_⟩, R, fun i hi => ⟨(hR i hi).1, row_range_map hi⟩, rfl⟩
  rw [row_range_map hi]
  exact (hR i hi).2

/-- the loop over the fibres when the interior knots are simple -/
theorem elevateFibres_run {F : List (List T)} {a n p t : ℕ} {U : List K} {d : ℤ} (ha : 0 < a) (hF : IsMat F a (n + 1)) (hd : d = p) (hp0 : 0 < p) (hp7 : p ≤ 7) (hpn : p ≤ n)
    (hU : U.length = n + p + 2) (hs : ∀ i j, i ≤ j → j < U.length → nth U i ≤ nth U j) (he : EndsSeparated (nth U) p n) (hc : ClampedEnds (nth U) p n)
    (hsep : WellSeparated U) (hmul : ∀ x, nth U p < x → x < nth U (n + 1) → U.count x ≤ p) (hsim : ∀ s, p ≤ s → s ≤ n → nth U s < nth U (s + 1)) (ht : 0 < t) :
    ∃ G V, elevateFibres d U (t : ℤ) F = ok (G, V) ∧ IsMat G a (n + (n + 1 - p) * t + 1) ∧ V.length = n + (n + 1 - p) * t + (p + t) + 2 ∧
      (∀ x, V.count x = if x ∈ U then U.count x + t else 0) ∧ (∀ i j, i ≤ j → j < V.length → nth V i ≤ nth V j) ∧
      EndsSeparated (nth V) (p + t) (n + (n + 1 - p) * t) ∧ nth V (p + t) = nth U p ∧ nth V (n + (n + 1 - p) * t + 1) = nth U (n + 1) ∧
      ClampedEnds (nth V) (p + t) (n + (n + 1 - p) * t) ∧
      ∀ i < a, ∀ x, nth U p ≤ x → x ≤ nth U (n + 1) → curvePoint (nth V) (p + t) (n + (n + 1 - p) * t) (ent G i) x = curvePoint (nth U) p n (ent F i) x := by
  obtain ⟨G, V, e, hG, R, hR, hV⟩ := elevateFibres_any ha hF hd hp0 hp7 hpn hU hs he hc hsep hmul ht
  have el : ∀ i, i < a → Elevated ({ degree := d, knots := U, cps := row F i } : BsplineCurve K T) (R i) p n t (n + (n + 1 - p) * t) := by
    intro i hi
    have w : WellFormed ({ degree := d, knots := U, cps := row F i } : BsplineCurve K T) p n :=
      { degree := hd, pos := hp0, le7 := hp7, cps := hF.2 i hi, pn := hpn, knots := hU, sorted := hs }
    obtain ⟨c', h1, h2, -⟩ := C42_elevate_partial w he hc hsep hsim hmul ht
    rw [(hR i hi).1] at h1
    cases h1
    exact h2
  have same : ∀ i, i < a → (R i).knots = V := by
    intro i hi
    refine sorted_perm_eq ?_ (el i hi).sorted ?_
    · rw [List.perm_iff_count]
      intro x
      rw [(el i hi).mult x, hV, (el (a - 1) (by omega)).mult x]
    · rw [hV]
      exact (el (a - 1) (by omega)).sorted
  have bl := (el (a - 1) (by omega))
  refine ⟨G, V, e, hG, ?_, ?_, ?_, ?_, ?_, ?_, ?_, ?_⟩
  · rw [hV]; exact bl.knots
  · rw [hV]; exact bl.mult
  · rw [hV]; exact bl.sorted
  · rw [hV]; exact bl.ends
  · rw [hV]; exact bl.start
  · rw [hV]; exact bl.stop
  · rw [hV]; exact bl.clamped
  · intro i hi x h0 h1
    have := (el i hi).points x h0 h1
    rw [same i hi] at this
    dsimp only at this
    rw [← (hR i hi).2] at this
    exact this

/-- C96, U direction: raising the U degree of a valid surface, clamped in U with simple interior U knots, by `t` gives a surface of U degree `p + t` on the
same domain, in which every U knot is repeated `t` times more, with the same points. -/
theorem C96_elevate_u_partial {c : BsplineSurface K T} {p q n m t : ℕ} (w : WellFormedS c p q n m) (he : EndsSeparatedS c p q n m) (hc : ClampedEnds (nth c.knotsU) p n)
    (hsep : WellSeparated c.knotsU) (hmul : ∀ x, nth c.knotsU p < x → x < nth c.knotsU (n + 1) → c.knotsU.count x ≤ p)
    (hsim : ∀ s, p ≤ s → s ≤ n → nth c.knotsU s < nth c.knotsU (s + 1)) (ht : 0 < t) :
    ∃ r, elevateSurface c (t : ℤ) true = ok r ∧ r.degreeU = ((p + t : ℕ) : ℤ) ∧ r.degreeV = c.degreeV ∧ r.knotsV = c.knotsV ∧ IsMat r.cps (n + (n + 1 - p) * t + 1) (m + 1) ∧
      r.knotsU.length = n + (n + 1 - p) * t + (p + t) + 2 ∧ (∀ x, r.knotsU.count x = if x ∈ c.knotsU then c.knotsU.count x + t else 0) ∧
      (∀ x y, InDomain c p q n m x y → InDomain r (p + t) q (n + (n + 1 - p) * t) m x y ∧
        surfacePoint (nth r.knotsU) (nth r.knotsV) (p + t) q (n + (n + 1 - p) * t) m (ent r.cps) x y = surfacePoint (nth c.knotsU) (nth c.knotsV) p q n m (ent c.cps) x y) ∧
      (p + t ≤ 7 → WellFormedS r (p + t) q (n + (n + 1 - p) * t) m ∧ EndsSeparatedS r (p + t) q (n + (n + 1 - p) * t) m ∧
        ∀ x y, InDomain c p q n m x y → r.pointOnSurface x y = c.pointOnSurface x y) := by
  have hpn := w.pn
  obtain ⟨G, V, e, hG, h0, h1, h2, h3, h4, h5, -, h6⟩ := elevateFibres_run (F := tab (m + 1) (n + 1) fun i j => ent c.cps j i) (a := m + 1) (by omega) isMat_tab w.degreeU w.posU w.le7U w.pn
    w.knotsU w.sortedU he.u hc hsep hmul hsim ht
  have ht' : decide ((t : ℤ) > 0) = true := by simpa using ht
  unfold elevateSurface
  rw [ht', validate_true, ok_bind, if_pos rfl, transposeM_run w.cps (by omega), ok_bind, List.nil_append, e, ok_bind]
  dsimp only
  rw [transposeM_run hG (by omega), ok_bind, List.nil_append]
  obtain ⟨M, hM⟩ : ∃ M, n + (n + 1 - p) * t = M := ⟨_, rfl⟩
  rw [hM] at h0 h3 h5 h6 hG ⊢
  have hMn : n + t ≤ M := by
    rw [← hM]
    have : 1 * t ≤ (n + 1 - p) * t := Nat.mul_le_mul_right _ (by omega)
    omega
  have pts : ∀ x y, InDomain c p q n m x y →
      surfacePoint (nth V) (nth c.knotsV) (p + t) q M m (ent (tab (M + 1) (m + 1) fun i j => ent G j i)) x y = surfacePoint (nth c.knotsU) (nth c.knotsV) p q n m (ent c.cps) x y := by
    intro x y d
    rw [surfacePoint_eq', surfacePoint_eq']
    refine curvePoint_congr fun j hj => ?_
    refine (curvePoint_congr (Q := ent G j) fun i hi => ?_).trans ((h6 j (by omega) x d.u0 d.u1).trans (curvePoint_congr fun i hi => ?_))
    · exact ent_tab (f := fun i j => ent G j i) (by omega) (by omega)
    · exact ent_tab (f := fun i j => ent c.cps j i) (by omega) (by omega)
  have dom : ∀ x y, InDomain c p q n m x y → InDomain ({ c with degreeU := c.degreeU + (t : ℤ), knotsU := V, cps := tab (M + 1) (m + 1) fun i j => ent G j i } : BsplineSurface K T) (p + t) q M m x y :=
    fun x y d => ⟨by dsimp only; rw [h4]; exact d.u0, by dsimp only; rw [h5]; exact d.u1, d.v0, d.v1⟩
  refine ⟨_, rfl, by dsimp only; rw [w.degreeU]; push_cast; rfl, rfl, rfl, isMat_tab, h0, h1, fun x y d => ⟨dom x y d, pts x y d⟩, ?_⟩
  intro h7
  have wr : WellFormedS ({ c with degreeU := c.degreeU + (t : ℤ), knotsU := V, cps := tab (M + 1) (m + 1) fun i j => ent G j i } : BsplineSurface K T) (p + t) q M m :=
    { degreeU := by dsimp only; rw [w.degreeU]; push_cast; rfl, degreeV := w.degreeV, posU := by omega, posV := w.posV, le7U := h7, le7V := w.le7V, cps := isMat_tab, pn := by omega, qm := w.qm, knotsU := h0, knotsV := w.knotsV, sortedU := h2, sortedV := w.sortedV }
  have er : EndsSeparatedS ({ c with degreeU := c.degreeU + (t : ℤ), knotsU := V, cps := tab (M + 1) (m + 1) fun i j => ent G j i } : BsplineSurface K T) (p + t) q M m := ⟨h3, he.v⟩
  refine ⟨wr, er, fun x y d => ?_⟩
  rw [C33_eval wr er (dom x y d), C33_eval w he d, pts x y d]

/-- C96, V direction. -/
theorem C96_elevate_v_partial {c : BsplineSurface K T} {p q n m t : ℕ} (w : WellFormedS c p q n m) (he : EndsSeparatedS c p q n m) (hc : ClampedEnds (nth c.knotsV) q m)
    (hsep : WellSeparated c.knotsV) (hmul : ∀ x, nth c.knotsV q < x → x < nth c.knotsV (m + 1) → c.knotsV.count x ≤ q)
    (hsim : ∀ s, q ≤ s → s ≤ m → nth c.knotsV s < nth c.knotsV (s + 1)) (ht : 0 < t) :
    ∃ r, elevateSurface c (t : ℤ) false = ok r ∧ r.degreeV = ((q + t : ℕ) : ℤ) ∧ r.degreeU = c.degreeU ∧ r.knotsU = c.knotsU ∧ IsMat r.cps (n + 1) (m + (m + 1 - q) * t + 1) ∧
      r.knotsV.length = m + (m + 1 - q) * t + (q + t) + 2 ∧ (∀ x, r.knotsV.count x = if x ∈ c.knotsV then c.knotsV.count x + t else 0) ∧
      (∀ x y, InDomain c p q n m x y → InDomain r p (q + t) n (m + (m + 1 - q) * t) x y ∧
        surfacePoint (nth r.knotsU) (nth r.knotsV) p (q + t) n (m + (m + 1 - q) * t) (ent r.cps) x y = surfacePoint (nth c.knotsU) (nth c.knotsV) p q n m (ent c.cps) x y) ∧
      (q + t ≤ 7 → WellFormedS r p (q + t) n (m + (m + 1 - q) * t) ∧ EndsSeparatedS r p (q + t) n (m + (m + 1 - q) * t) ∧
        ∀ x y, InDomain c p q n m x y → r.pointOnSurface x y = c.pointOnSurface x y) := by
  have hqm := w.qm
  obtain ⟨G, V, e, hG, h0, h1, h2, h3, h4, h5, -, h6⟩ := elevateFibres_run (F := c.cps) (a := n + 1) (by omega) w.cps w.degreeV w.posV w.le7V w.qm
    w.knotsV w.sortedV he.v hc hsep hmul hsim ht
  have ht' : decide ((t : ℤ) > 0) = true := by simpa using ht
  unfold elevateSurface
  rw [ht', validate_true, ok_bind, if_neg (by decide), e, ok_bind]
  dsimp only
  obtain ⟨M, hM⟩ : ∃ M, m + (m + 1 - q) * t = M := ⟨_, rfl⟩
  rw [hM] at h0 h3 h5 h6 hG ⊢
  have hMn : m + t ≤ M := by
    rw [← hM]
    have : 1 * t ≤ (m + 1 - q) * t := Nat.mul_le_mul_right _ (by omega)
    omega
  have pts : ∀ x y, InDomain c p q n m x y →
      surfacePoint (nth c.knotsU) (nth V) p (q + t) n M (ent G) x y = surfacePoint (nth c.knotsU) (nth c.knotsV) p q n m (ent c.cps) x y := by
    intro x y d
    rw [surfacePoint_eq, surfacePoint_eq]
    exact curvePoint_congr fun i hi => h6 i (by omega) y d.v0 d.v1
  have dom : ∀ x y, InDomain c p q n m x y → InDomain ({ c with degreeV := c.degreeV + (t : ℤ), knotsV := V, cps := G } : BsplineSurface K T) p (q + t) n M x y :=
    fun x y d => ⟨d.u0, d.u1, by dsimp only; rw [h4]; exact d.v0, by dsimp only; rw [h5]; exact d.v1⟩
  refine ⟨_, rfl, by dsimp only; rw [w.degreeV]; push_cast; rfl, rfl, rfl, hG, h0, h1, fun x y d => ⟨dom x y d, pts x y d⟩, ?_⟩
  intro h7
  have wr : WellFormedS ({ c with degreeV := c.degreeV + (t : ℤ), knotsV := V, cps := G } : BsplineSurface K T) p (q + t) n M :=
    { degreeU := w.degreeU, degreeV := by dsimp only; rw [w.degreeV]; push_cast; rfl, posU := w.posU, posV := by omega, le7U := w.le7U, le7V := h7, cps := hG, pn := w.pn, qm := by omega, knotsU := w.knotsU, knotsV := h0, sortedU := w.sortedU, sortedV := h2 }
  have er : EndsSeparatedS ({ c with degreeV := c.degreeV + (t : ℤ), knotsV := V, cps := G } : BsplineSurface K T) p (q + t) n M := ⟨he.u, h3⟩
  refine ⟨wr, er, fun x y d => ?_⟩
  rw [C33_eval wr er (dom x y d), C33_eval w he d, pts x y d]

/-- C96 is violated by every surface with a repeated interior U knot (and a positive last knot): the U knots of the result are not sorted. -/
theorem C96_repeated_violated {c : BsplineSurface K T} {p q n m t : ℕ} (w : WellFormedS c p q n m) (he : EndsSeparatedS c p q n m) (hc : ClampedEnds (nth c.knotsU) p n)
    (hsep : WellSeparated c.knotsU) (hmul : ∀ x, nth c.knotsU p < x → x < nth c.knotsU (n + 1) → c.knotsU.count x ≤ p) (ht : 0 < t)
    {s : ℕ} (hps : p ≤ s) (hsn : s ≤ n) (hrep : nth c.knotsU s = nth c.knotsU (s + 1)) (hpos : 0 < nth c.knotsU (n + 1)) :
    ∃ r, elevateSurface c (t : ℤ) true = ok r ∧ ¬ ∀ i j, i ≤ j → j < r.knotsU.length → nth r.knotsU i ≤ nth r.knotsU j := by
  obtain ⟨G, V, e, hG, R, hR, hV⟩ := elevateFibres_any (F := tab (m + 1) (n + 1) fun i j => ent c.cps j i) (a := m + 1) (by omega) isMat_tab w.degreeU w.posU w.le7U w.pn
    w.knotsU w.sortedU he.u hc hsep hmul ht
  have ht' : decide ((t : ℤ) > 0) = true := by simpa using ht
  unfold elevateSurface
  rw [ht', validate_true, ok_bind, if_pos rfl, transposeM_run w.cps (by omega), ok_bind, List.nil_append, e, ok_bind]
  dsimp only
  rw [transposeM_run hG (by omega), ok_bind, List.nil_append]
  refine ⟨_, rfl, ?_⟩
  have wc : WellFormed ({ degree := c.degreeU, knots := c.knotsU, cps := row (tab (m + 1) (n + 1) fun i j => ent c.cps j i) m } : BsplineCurve K T) p n :=
    { degree := w.degreeU, pos := w.posU, le7 := w.le7U, cps := isMat_tab.2 m (by omega), pn := w.pn, knots := w.knotsU, sorted := w.sortedU }
  obtain ⟨c', h1, h2⟩ := C42_repeated_invalid wc he.u hc hsep hmul ht hps hsn hrep hpos
  rw [(hR m (by omega)).1] at h1
  cases h1
  dsimp only
  rw [hV, Nat.add_sub_cancel]
  exact h2

/-- C96: a nonpositive count is rejected. -/
theorem C96_rejects (c : BsplineSurface K T) {t : ℤ} (ht : t ≤ 0) (b : Bool) : elevateSurface c t b = invalidArg := by
  unfold elevateSurface
  have : decide (t > 0) = false := by simpa using ht
  rw [this]
  rfl

/-- the hypotheses of the C96 theorems are met -/
example : (∃ r, elevateSurface exSurface 2 true = ok r ∧ WellFormedS r 4 1 7 2) ∧ ∃ r, elevateSurface exSurface 1 false = ok r ∧ WellFormedS r 2 2 3 4 := by
  have simU : ∀ s, 2 ≤ s → s ≤ 3 → nth exSurface.knotsU s < nth exSurface.knotsU (s + 1) := by
    intro s h1 h2
    interval_cases s <;> decide +kernel
  have simV : ∀ s, 1 ≤ s → s ≤ 2 → nth exSurface.knotsV s < nth exSurface.knotsV (s + 1) := by
    intro s h1 h2
    interval_cases s <;> decide +kernel
  have mulU : ∀ x : ℚ, nth exSurface.knotsU 2 < x → x < nth exSurface.knotsU (3 + 1) → exSurface.knotsU.count x ≤ 2 := by
    intro x h1 h2
    by_cases hx : x ∈ exSurface.knotsU
    · have : ∀ x ∈ exSurface.knotsU, nth exSurface.knotsU 2 < x → x < nth exSurface.knotsU (3 + 1) → exSurface.knotsU.count x ≤ 2 := by decide +kernel
      exact this x hx h1 h2
    · rw [List.count_eq_zero_of_not_mem hx]; omega
  have mulV : ∀ x : ℚ, nth exSurface.knotsV 1 < x → x < nth exSurface.knotsV (2 + 1) → exSurface.knotsV.count x ≤ 1 := by
    intro x h1 h2
    by_cases hx : x ∈ exSurface.knotsV
    · have : ∀ x ∈ exSurface.knotsV, nth exSurface.knotsV 1 < x → x < nth exSurface.knotsV (2 + 1) → exSurface.knotsV.count x ≤ 1 := by decide +kernel
      exact this x hx h1 h2
    · rw [List.count_eq_zero_of_not_mem hx]; omega
  constructor
  · obtain ⟨r, e, -, -, -, -, -, -, -, h⟩ := C96_elevate_u_partial (t := 2) exSurface_wf exSurface_ends ⟨rfl, rfl⟩ (by unfold WellSeparated; decide +kernel) mulU simU (by decide)
    exact ⟨r, e, (h (by decide)).1⟩
  · obtain ⟨r, e, -, -, -, -, -, -, -, h⟩ := C96_elevate_v_partial (t := 1) exSurface_wf exSurface_ends ⟨rfl, rfl⟩ (by unfold WellSeparated; decide +kernel) mulV simV (by decide)
    exact ⟨r, e, (h (by decide)).1⟩

end

/-! ## C97 -/

theorem getElem_row {α : Type} {l : List (List α)} {i : ℕ} (h : i < l.length) : l[i] = row l i := by
  have := getElem?_row h
  rw [List.getElem?_eq_getElem h] at this
  exact Option.some.inj this

/-- the loop over the fibres, when every fibre can be reduced to a curve with the same knots -/
theorem reduceFibres_run {F : List (List (XYZW ℝ))} {a : ℕ} {degree d' : ℤ} {U V : List ℝ} {R : ℕ → List (XYZW ℝ)} (ha : 0 < a) (hF : F.length = a)
    (h : ∀ i, i < a → reduceDegree { degree := degree, knots := U, cps := row F i } = ok (some { degree := d', knots := V, cps := R i })) :
    forI 0 (F.length : ℤ) (some ([], [])) (reduceFibre degree U F) = ok (some ((List.range a).map R, V)) := by
  apply Runs.eq
  refine (Runs.forN (m := 0) (n := a) (fun j st => st = some ((List.range j).map R, if j = 0 then [] else V)) rfl (by rw [hF]) (by omega) rfl ?_).mono ?_
  · rintro i st - hi rfl
    unfold reduceFibre
    dsimp only
    rw [vget_row (k := i) rfl (by omega), ok_bind, h i hi, ok_bind]
    refine Runs.ok ?_
    rw [List.range_succ, List.map_append, if_neg (Nat.succ_ne_zero i)]
    rfl
  · rintro st rfl
    rw [if_neg (by omega)]

/-- the result of the V direction -/
theorem reduceSurface_v {n p q : ℕ} (hq : 2 ≤ q) {a b : ℝ} (hab : a < b) {c : NurbsSurface ℝ} (hdeg : c.degreeV = q)
    (hknots : c.knotsV = List.replicate (q + 1) a ++ List.replicate (q + 1) b) (hP : IsMat c.cps (n + 1) (q + 1)) {Q : List (List (XYZW ℝ))} (hQ : IsMat Q (n + 1) q)
    (hel : ∀ i, i ≤ n → IsElevated (K := ℝ) q (ent c.cps i) (ent Q i)) (hw : ∀ i, i ≤ n → ∀ x ∈ row c.cps i, 0 ≤ x.w) :
    reduceSurface c false = ok (some { c with degreeV := (q : ℤ) - 1, knotsV := List.replicate q a ++ List.replicate q b, cps := Q }) ∧
    ∀ (U : ℕ → ℝ) (u t : ℝ), curvePoint U p n (fun i => bezierPoint q (ent c.cps i) t) u = curvePoint U p n (fun i => bezierPoint (q - 1) (ent Q i) t) u := by
  have red := fun i (hi : i ≤ n) => C58_reduce (P := row c.cps i) (Q := row Q i) hq hab (hP.2 i (by omega)) (hQ.2 i (by omega)) (hel i hi) (hw i hi)
  constructor
  · unfold reduceSurface
    rw [if_neg (by decide)]
    rw [hdeg, hknots, reduceFibres_run (R := fun i => row Q i) (a := n + 1) (by omega) hP.1 (fun i hi => (red i (by omega)).1), ok_bind]
    dsimp only
    congr 3
    refine List.ext_getElem (by simp [hQ.1]) ?_
    intro i h1 h2
    simp [row, h2]
  · intro U u t
    exact curvePoint_congr fun i hi => (red i hi).2 t

/-- the result of the U direction -/
theorem reduceSurface_u {p m q : ℕ} (hp : 2 ≤ p) {a b : ℝ} (hab : a < b) {c : NurbsSurface ℝ} (hdeg : c.degreeU = p)
    (hknots : c.knotsU = List.replicate (p + 1) a ++ List.replicate (p + 1) b) (hP : IsMat c.cps (p + 1) (m + 1)) {Q : List (List (XYZW ℝ))} (hQ : IsMat Q p (m + 1))
    (hel : ∀ j, j ≤ m → IsElevated (K := ℝ) p (fun i => ent c.cps i j) (fun i => ent Q i j)) (hw : ∀ i j, i ≤ p → j ≤ m → 0 ≤ (ent c.cps i j).w) :
    reduceSurface c true = ok (some { c with degreeU := (p : ℤ) - 1, knotsU := List.replicate p a ++ List.replicate p b, cps := Q }) ∧
    ∀ (V : ℕ → ℝ) (v t : ℝ), curvePoint V q m (fun j => bezierPoint p (fun i => ent c.cps i j) t) v = curvePoint V q m (fun j => bezierPoint (p - 1) (fun i => ent Q i j) t) v := by
  have hz : ∀ i j, p ≤ i → ent Q i j = 0 := by
    intro i j hi
    have : row Q i = [] := by
      unfold row
      simp [hQ.1, hi]
    unfold ent
    rw [this]
    rfl
  have red := fun j (hj : j ≤ m) => C58_reduce (P := row (tab (m + 1) (p + 1) fun i j => ent c.cps j i) j) (Q := row (tab (m + 1) p fun i j => ent Q j i) j) hp hab
    (isMat_tab.2 j (by omega)) (isMat_tab.2 j (by omega)) (by
      intro i hi
      have e1 : nth (row (tab (m + 1) (p + 1) fun i j => ent c.cps j i) j) i = ent c.cps i j := ent_tab (f := fun i j => ent c.cps j i) (by omega) (by omega)
      have e2 : ∀ k, nth (row (tab (m + 1) p fun i j => ent Q j i) j) k = ent Q k j := by
        intro k
        by_cases hk : k < p
        · exact ent_tab (f := fun i j => ent Q j i) (by omega) hk
        · rw [hz k j (by omega), nth_ge]
          rw [isMat_tab.2 j (by omega)]
          omega
      rw [e1, e2, e2]
      exact hel j hj i hi) (by
      intro x hx
      obtain ⟨k, hk, rfl⟩ := List.getElem_of_mem hx
      rw [isMat_tab.2 j (by omega)] at hk
      have e1 : nth (row (tab (m + 1) (p + 1) fun i j => ent c.cps j i) j) k = ent c.cps k j := ent_tab (f := fun i j => ent c.cps j i) (by omega) hk
      rw [← nth_eq_getElem, e1]
      exact hw k j (by omega) hj)
  constructor
  · unfold reduceSurface
    rw [if_pos rfl, transposeM_run hP (by omega), ok_bind, List.nil_append]
    rw [hdeg, hknots, reduceFibres_run (R := fun j => row (tab (m + 1) p fun i j => ent Q j i) j) (a := m + 1) (by omega) isMat_tab.1 (fun i hi => (red i (by omega)).1), ok_bind]
    dsimp only
    have hm : IsMat ((List.range (m + 1)).map fun j => row (tab (m + 1) p fun i j => ent Q j i) j) (m + 1) p := by
      refine ⟨by simp, fun i hi => ?_⟩
      rw [row_range_map hi]
      exact isMat_tab.2 i hi
    rw [transposeM_run hm (by omega), ok_bind, List.nil_append]
    congr 3
    refine List.ext_getElem (by rw [isMat_tab.1, hQ.1]) ?_
    intro i h1 h2
    have hi : i < p := by rw [hQ.1] at h2; exact h2
    have r1 : (tab p (m + 1) fun i j => ent ((List.range (m + 1)).map fun j => row (tab (m + 1) p fun i j => ent Q j i) j) j i)[i] = row (tab p (m + 1) fun i j => ent ((List.range (m + 1)).map fun j => row (tab (m + 1) p fun i j => ent Q j i) j) j i) i := getElem_row h1
    have r2 : Q[i] = row Q i := getElem_row h2
    rw [r1, r2]
    refine ext_nth (by rw [isMat_tab.2 i hi, hQ.2 i hi]) ?_
    intro j hj
    rw [isMat_tab.2 i hi] at hj
    have e1 : nth (row (tab p (m + 1) fun i j => ent ((List.range (m + 1)).map fun j => row (tab (m + 1) p fun i j => ent Q j i) j) j i) i) j =
        ent ((List.range (m + 1)).map fun j => row (tab (m + 1) p fun i j => ent Q j i) j) j i := ent_tab (f := fun i j => ent ((List.range (m + 1)).map fun j => row (tab (m + 1) p fun i j => ent Q j i) j) j i) hi hj
    rw [e1]
    unfold ent
    rw [row_range_map hj]
    exact ent_tab (f := fun i j => ent Q j i) hj hi
  · intro V v t
    refine curvePoint_congr fun j hj => ?_
    obtain ⟨k, rfl⟩ : ∃ k, p = k + 1 := ⟨p - 1, by omega⟩
    exact bezier_elevated (hel j hj) t

theorem bezier_knots_sorted {q : ℕ} {a b : ℝ} (hab : a < b) : ∀ i j, i ≤ j → j < (List.replicate (q + 1) a ++ List.replicate (q + 1) b).length →
    nth (List.replicate (q + 1) a ++ List.replicate (q + 1) b) i ≤ nth (List.replicate (q + 1) a ++ List.replicate (q + 1) b) j := by
  intro i j hij hj
  obtain ⟨h0, h1⟩ := nth_bezier_knots (p := q) a b
  simp at hj
  by_cases hj' : j ≤ q
  · rw [h0 i (by omega), h0 j hj']
  · rw [h1 j (by omega) (by omega)]
    by_cases hi : i ≤ q
    · rw [h0 i hi]; exact hab.le
    · rw [h1 i (by omega) (by omega)]

/-- the loop over the fibres fails exactly when one of the fibres cannot be reduced -/
theorem reduceFibres_none {F : List (List (XYZW ℝ))} {a : ℕ} {degree : ℤ} {U : List ℝ} (hF : F.length = a)
    (h : ∀ i, i < a → ∃ r, reduceDegree { degree := degree, knots := U, cps := row F i } = ok r) :
    ∃ st, forI 0 (F.length : ℤ) (some ([], [])) (reduceFibre degree U F) = ok st ∧
      (st = none ↔ ∃ i, i < a ∧ reduceDegree { degree := degree, knots := U, cps := row F i } = ok none) ∧ ∀ x, st = some x → x.1.length = a := by
  refine ((Runs.forN (m := 0) (n := a) (fun j (st : Option (List (List (XYZW ℝ)) × List ℝ)) => (st = none ↔ ∃ i, i < j ∧ reduceDegree { degree := degree, knots := U, cps := row F i } = ok none) ∧
    ∀ x, st = some x → x.1.length = j) rfl (by rw [hF]) (by omega) (by simp) ?_).mono (fun _ h => h))
  rintro i st - hi ⟨hst, hlen⟩
  unfold reduceFibre
  cases st with
  | none =>
    obtain ⟨k, hk, e⟩ := hst.mp rfl
    exact Runs.ok ⟨⟨fun _ => ⟨k, by omega, e⟩, fun _ => rfl⟩, by simp⟩
  | some x =>
    obtain ⟨r, hr⟩ := h i hi
    dsimp only
    rw [vget_row (k := i) rfl (by omega), ok_bind, hr, ok_bind]
    cases r with
    | none => exact Runs.ok ⟨⟨fun _ => ⟨i, by omega, hr⟩, fun _ => rfl⟩, by simp⟩
    | some tc =>
      refine Runs.ok ⟨⟨by simp, ?_⟩, ?_⟩
      · rintro ⟨k, hk, e⟩
        rcases Nat.lt_or_eq_of_le (Nat.le_of_lt_succ hk) with hk' | rfl
        · exact absurd (hst.mpr ⟨k, hk', e⟩) (by simp)
        · rw [hr] at e; cases e
      · intro y hy
        obtain rfl := Option.some.inj hy
        simp [hlen x rfl]

/-- C97, V direction: the answer is `false` exactly when one of the rows of control points cannot be reduced as a curve. -/
theorem C97_refuses_v {n m p q : ℕ} {c : NurbsSurface ℝ} (w : WellFormedS c p q n m)
    (h : ∀ i, i ≤ n → ∃ r, reduceDegree { degree := q, knots := c.knotsV, cps := row c.cps i } = ok r) :
    ∃ r, reduceSurface c false = ok r ∧ (r = none ↔ ∃ i, i ≤ n ∧ reduceDegree { degree := q, knots := c.knotsV, cps := row c.cps i } = ok none) := by
  obtain ⟨st, e, hst, -⟩ := reduceFibres_none (a := n + 1) (degree := q) (U := c.knotsV) w.cps.1 (fun i hi => h i (by omega))
  unfold reduceSurface
  rw [if_neg (by decide), w.degreeV, e, ok_bind]
  have hst' : st = none ↔ ∃ i, i ≤ n ∧ reduceDegree { degree := q, knots := c.knotsV, cps := row c.cps i } = ok none := by
    rw [hst]
    simp only [Nat.lt_succ_iff]
  cases st with
  | none => exact ⟨none, rfl, ⟨fun _ => hst'.mp rfl, fun _ => rfl⟩⟩
  | some x => exact ⟨_, rfl, ⟨by simp, fun h => absurd (hst'.mpr h) (by simp)⟩⟩

/-- C97, U direction: the answer is `false` exactly when one of the columns of control points cannot be reduced as a curve. -/
theorem C97_refuses_u {n m p q : ℕ} {c : NurbsSurface ℝ} (w : WellFormedS c p q n m)
    (h : ∀ j, j ≤ m → ∃ r, reduceDegree { degree := p, knots := c.knotsU, cps := (List.range (n + 1)).map fun i => ent c.cps i j } = ok r) :
    (∃ j, j ≤ m ∧ reduceDegree { degree := p, knots := c.knotsU, cps := (List.range (n + 1)).map fun i => ent c.cps i j } = ok none) ↔ reduceSurface c true = ok none := by
  have hrow : ∀ j, j < m + 1 → row (tab (m + 1) (n + 1) fun i j => ent c.cps j i) j = (List.range (n + 1)).map fun i => ent c.cps i j := by
    intro j hj
    unfold row tab
    simp [hj]
  have hl : (tab (m + 1) (n + 1) fun i j => ent c.cps j i).length = m + 1 := isMat_tab.1
  obtain ⟨st, e, hst, -⟩ := reduceFibres_none (a := m + 1) (degree := p) (U := c.knotsU) (F := tab (m + 1) (n + 1) fun i j => ent c.cps j i) hl
    (fun i hi => by rw [hrow i hi]; exact h i (by omega))
  have hst' : st = none ↔ ∃ j, j ≤ m ∧ reduceDegree { degree := p, knots := c.knotsU, cps := (List.range (n + 1)).map fun i => ent c.cps i j } = ok none := by
    rw [hst]
    constructor
    · rintro ⟨j, hj, h⟩
      rw [hrow j hj] at h
      exact ⟨j, by omega, h⟩
    · rintro ⟨j, hj, h⟩
      exact ⟨j, by omega, by rw [hrow j (by omega)]; exact h⟩
  rw [← hst']
  unfold reduceSurface
  rw [if_pos rfl, transposeM_run w.cps (by omega), ok_bind, List.nil_append, w.degreeU, e, ok_bind]
  cases st with
  | none => simp
  | some x =>
    dsimp only
    simp only [reduceCtorEq, false_iff]
    intro h
    obtain ⟨y, -, h⟩ := bind_eq_ok.mp h
    cases h

/-- C97: a direction that is not a single Bézier segment is refused. -/
theorem C97_refuses_spans {n m p q : ℕ} {c : NurbsSurface ℝ} (w : WellFormedS c p q n m) (hm : m ≠ q) : reduceSurface c false = ok none := by
  have hr : ∀ i, i ≤ n → reduceDegree { degree := q, knots := c.knotsV, cps := row c.cps i } = ok none := by
    intro i hi
    have hl := w.cps.2 i (by omega)
    unfold reduceDegree
    dsimp only
    rw [if_pos]
    unfold isValidBezier
    rw [hl]
    rw [Bool.not_eq_true', beq_eq_false_iff_ne]
    push_cast
    omega
  obtain ⟨r, e, h⟩ := C97_refuses_v w (fun i hi => ⟨_, hr i hi⟩)
  rw [e, h.mpr ⟨0, by omega, hr 0 (by omega)⟩]

/-- C97, V direction: a valid surface that is a single Bézier segment of degree `q ≥ 2` in V, obtained by raising the V degree of the control rows `Q`
(nonnegative weights), is reduced to exactly the surface with control rows `Q`; the result is valid, of V degree `q - 1`, on the same domain and has the
same points. -/
theorem C97_reduce_v {n p q : ℕ} (hq : 2 ≤ q) {a b : ℝ} (hab : a < b) {c : NurbsSurface ℝ} (w : WellFormedS c p q n q) (he : EndsSeparatedS c p q n q)
    (hknots : c.knotsV = List.replicate (q + 1) a ++ List.replicate (q + 1) b) {Q : List (List (XYZW ℝ))} (hQ : IsMat Q (n + 1) q)
    (hel : ∀ i, i ≤ n → IsElevated (K := ℝ) q (ent c.cps i) (ent Q i)) (hw : ∀ i, i ≤ n → ∀ x ∈ row c.cps i, 0 ≤ x.w) :
    ∃ r, reduceSurface c false = ok (some r) ∧ r.cps = Q ∧ r.knotsU = c.knotsU ∧ r.knotsV = List.replicate q a ++ List.replicate q b ∧ WellFormedS r p (q - 1) n (q - 1) ∧
      ∀ u v, InDomain c p q n q u v → InDomain r p (q - 1) n (q - 1) u v ∧ NurbsSurface.pointOnSurface r u v = NurbsSurface.pointOnSurface c u v := by
  obtain ⟨k, rfl⟩ : ∃ k, q = k + 1 := ⟨q - 1, by omega⟩
  have h1 := (reduceSurface_v (p := p) hq hab w.degreeV hknots w.cps hQ hel hw).1
  have hle := w.le7V
  obtain ⟨k0, k1⟩ := nth_bezier_knots (p := k + 1) a b
  obtain ⟨l0, l1⟩ := nth_bezier_knots (p := k) a b
  rw [Nat.add_sub_cancel]
  obtain ⟨r, hr⟩ : ∃ r : NurbsSurface ℝ, { c with degreeV := ((k + 1 : ℕ) : ℤ) - 1, knotsV := List.replicate (k + 1) a ++ List.replicate (k + 1) b, cps := Q } = r := ⟨_, rfl⟩
  rw [hr] at h1
  have wr : WellFormedS r p k n k := by
    rw [← hr]
    exact { degreeU := w.degreeU, degreeV := by push_cast; ring, posU := w.posU, posV := by omega, le7U := w.le7U, le7V := by omega, cps := hQ, pn := w.pn, qm := le_refl _, knotsU := w.knotsU, knotsV := by simp; omega, sortedU := w.sortedU, sortedV := bezier_knots_sorted hab }
  have e := he.v
  rw [hknots] at e
  have ef := e.first
  rw [k0 (k + 1) (le_refl _), k1 (k + 1 + 1) (by omega) (by omega)] at ef
  have er : EndsSeparatedS r p k n k := by
    rw [← hr]
    refine ⟨he.u, ⟨?_, ?_⟩⟩
    · dsimp only; rw [l0 k (le_refl _), l1 (k + 1) (by omega) (by omega)]; exact ef
    · dsimp only; rw [l0 k (le_refl _), l1 (k + 1) (by omega) (by omega)]; exact ef
  refine ⟨r, h1, by rw [← hr], by rw [← hr], by rw [← hr], wr, ?_⟩
  intro u v d
  have d0 := d.v0
  have d1 := d.v1
  rw [hknots, k0 (k + 1) (le_refl _)] at d0
  rw [hknots, k1 (k + 1 + 1) (by omega) (by omega)] at d1
  have dr : InDomain r p k n k u v := by
    rw [← hr]
    refine ⟨d.u0, d.u1, ?_, ?_⟩
    · dsimp only; rw [l0 k (le_refl _)]; exact d0
    · dsimp only; rw [l1 (k + 1) (by omega) (by omega)]; exact d1
  refine ⟨dr, ?_⟩
  unfold NurbsSurface.pointOnSurface
  rw [C33_eval wr er dr, C33_eval w he d, surfacePoint_eq, surfacePoint_eq]
  have : curvePoint (nth r.knotsU) p n (fun i => curvePoint (nth r.knotsV) k k (ent r.cps i) v) u =
      curvePoint (nth c.knotsU) p n (fun i => curvePoint (nth c.knotsV) (k + 1) (k + 1) (ent c.cps i) v) u := by
    rw [← hr]
    dsimp only
    refine curvePoint_congr fun i hi => ?_
    rw [hknots, curvePoint_bezier hab l0 l1 d0 d1, curvePoint_bezier hab k0 k1 d0 d1]
    exact (bezier_elevated (hel i hi) _).symm
  rw [this]

/-- C97, U direction. -/
theorem C97_reduce_u {p m q : ℕ} (hp : 2 ≤ p) {a b : ℝ} (hab : a < b) {c : NurbsSurface ℝ} (w : WellFormedS c p q p m) (he : EndsSeparatedS c p q p m)
    (hknots : c.knotsU = List.replicate (p + 1) a ++ List.replicate (p + 1) b) {Q : List (List (XYZW ℝ))} (hQ : IsMat Q p (m + 1))
    (hel : ∀ j, j ≤ m → IsElevated (K := ℝ) p (fun i => ent c.cps i j) (fun i => ent Q i j)) (hw : ∀ i j, i ≤ p → j ≤ m → 0 ≤ (ent c.cps i j).w) :
    ∃ r, reduceSurface c true = ok (some r) ∧ r.cps = Q ∧ r.knotsV = c.knotsV ∧ r.knotsU = List.replicate p a ++ List.replicate p b ∧ WellFormedS r (p - 1) q (p - 1) m ∧
      ∀ u v, InDomain c p q p m u v → InDomain r (p - 1) q (p - 1) m u v ∧ NurbsSurface.pointOnSurface r u v = NurbsSurface.pointOnSurface c u v := by
  obtain ⟨k, rfl⟩ : ∃ k, p = k + 1 := ⟨p - 1, by omega⟩
  have h1 := (reduceSurface_u (q := q) hp hab w.degreeU hknots w.cps hQ hel hw).1
  have hle := w.le7U
  obtain ⟨k0, k1⟩ := nth_bezier_knots (p := k + 1) a b
  obtain ⟨l0, l1⟩ := nth_bezier_knots (p := k) a b
  rw [Nat.add_sub_cancel]
  obtain ⟨r, hr⟩ : ∃ r : NurbsSurface ℝ, { c with degreeU := ((k + 1 : ℕ) : ℤ) - 1, knotsU := List.replicate (k + 1) a ++ List.replicate (k + 1) b, cps := Q } = r := ⟨_, rfl⟩
  rw [hr] at h1
  have wr : WellFormedS r k q k m := by
    rw [← hr]
    exact { degreeU := by push_cast; ring, degreeV := w.degreeV, posU := by omega, posV := w.posV, le7U := by omega, le7V := w.le7V, cps := hQ, pn := le_refl _, qm := w.qm, knotsU := by simp; omega, knotsV := w.knotsV, sortedU := bezier_knots_sorted hab, sortedV := w.sortedV }
  have e := he.u
  rw [hknots] at e
  have ef := e.first
  rw [k0 (k + 1) (le_refl _), k1 (k + 1 + 1) (by omega) (by omega)] at ef
  have er : EndsSeparatedS r k q k m := by
    rw [← hr]
    refine ⟨⟨?_, ?_⟩, he.v⟩
    · dsimp only; rw [l0 k (le_refl _), l1 (k + 1) (by omega) (by omega)]; exact ef
    · dsimp only; rw [l0 k (le_refl _), l1 (k + 1) (by omega) (by omega)]; exact ef
  refine ⟨r, h1, by rw [← hr], by rw [← hr], by rw [← hr], wr, ?_⟩
  intro u v d
  have d0 := d.u0
  have d1 := d.u1
  rw [hknots, k0 (k + 1) (le_refl _)] at d0
  rw [hknots, k1 (k + 1 + 1) (by omega) (by omega)] at d1
  have dr : InDomain r k q k m u v := by
    rw [← hr]
    refine ⟨?_, ?_, d.v0, d.v1⟩
    · dsimp only; rw [l0 k (le_refl _)]; exact d0
    · dsimp only; rw [l1 (k + 1) (by omega) (by omega)]; exact d1
  refine ⟨dr, ?_⟩
  unfold NurbsSurface.pointOnSurface
  rw [C33_eval wr er dr, C33_eval w he d, surfacePoint_eq', surfacePoint_eq']
  have : curvePoint (nth r.knotsV) q m (fun j => curvePoint (nth r.knotsU) k k (fun i => ent r.cps i j) u) v =
      curvePoint (nth c.knotsV) q m (fun j => curvePoint (nth c.knotsU) (k + 1) (k + 1) (fun i => ent c.cps i j) u) v := by
    rw [← hr]
    dsimp only
    refine curvePoint_congr fun i hi => ?_
    rw [hknots, curvePoint_bezier hab l0 l1 d0 d1, curvePoint_bezier hab k0 k1 d0 d1]
    exact (bezier_elevated (hel i hi) _).symm
  rw [this]

/-- C58 in terms of evaluation: the reduced curve is valid and has the same points -/
theorem C58_reduce_points {p : ℕ} (hp : 2 ≤ p) {a b : ℝ} (hab : a < b) {c : NurbsCurve ℝ} (w : WellFormed c p p) (he : EndsSeparated (nth c.knots) p p)
    (hknots : c.knots = List.replicate (p + 1) a ++ List.replicate (p + 1) b) {Q : List (XYZW ℝ)} (hQ : Q.length = p)
    (hel : IsElevated (K := ℝ) p (nth c.cps) (nth Q)) (hw : ∀ q ∈ c.cps, 0 ≤ q.w) :
    ∃ r, reduceDegree c = ok (some r) ∧ r.cps = Q ∧ r.knots = List.replicate p a ++ List.replicate p b ∧ WellFormed r (p - 1) (p - 1) ∧
      ∀ t, a ≤ t → t ≤ b → NurbsCurve.pointOnCurve r t = NurbsCurve.pointOnCurve c t := by
  obtain ⟨k, rfl⟩ : ∃ k, p = k + 1 := ⟨p - 1, by omega⟩
  have hle := w.le7
  have h1 := (C58_reduce hp hab w.cps hQ hel hw).1
  have hc : c = { degree := ((k + 1 : ℕ) : ℤ), knots := List.replicate (k + 1 + 1) a ++ List.replicate (k + 1 + 1) b, cps := c.cps } := by
    rw [← w.degree, ← hknots]
  rw [← hc] at h1
  obtain ⟨k0, k1⟩ := nth_bezier_knots (p := k + 1) a b
  obtain ⟨l0, l1⟩ := nth_bezier_knots (p := k) a b
  rw [Nat.add_sub_cancel]
  obtain ⟨r, hr⟩ : ∃ r : NurbsCurve ℝ, { degree := ((k + 1 : ℕ) : ℤ) - 1, knots := List.replicate (k + 1) a ++ List.replicate (k + 1) b, cps := Q } = r := ⟨_, rfl⟩
  rw [hr] at h1
  have wr : WellFormed r k k := by
    rw [← hr]
    exact { degree := by push_cast; ring, pos := by omega, le7 := by omega, cps := hQ, pn := le_refl _, knots := by simp; omega, sorted := bezier_knots_sorted hab }
  have e := he
  rw [hknots] at e
  have ef := e.first
  rw [k0 (k + 1) (le_refl _), k1 (k + 1 + 1) (by omega) (by omega)] at ef
  have er : EndsSeparated (nth r.knots) k k := by
    rw [← hr]
    refine ⟨?_, ?_⟩
    · dsimp only; rw [l0 k (le_refl _), l1 (k + 1) (by omega) (by omega)]; exact ef
    · dsimp only; rw [l0 k (le_refl _), l1 (k + 1) (by omega) (by omega)]; exact ef
  refine ⟨r, h1, by rw [← hr], by rw [← hr], wr, ?_⟩
  intro t t0 t1
  unfold NurbsCurve.pointOnCurve
  rw [C05_eval w he (by rw [hknots, k0 _ (le_refl _)]; exact t0) (by rw [hknots, k1 _ (by omega) (by omega)]; exact t1)]
  rw [C05_eval wr er (by rw [← hr]; dsimp only; rw [l0 _ (le_refl _)]; exact t0) (by rw [← hr]; dsimp only; rw [l1 _ (by omega) (by omega)]; exact t1)]
  rw [hknots, curvePoint_bezier hab k0 k1 t0 t1]
  have : curvePoint (nth r.knots) k k (nth r.cps) t = bezierPoint k (nth Q) ((t - a) / (b - a)) := by
    rw [← hr]
    exact curvePoint_bezier hab l0 l1 t0 t1
  rw [this, bezier_elevated hel]

/-- C97 has instances: a flat patch, quadratic in V, obtained from a bilinear patch -/
example : ∃ (c : NurbsSurface ℝ) (Q : List (List (XYZW ℝ))), WellFormedS c 1 2 1 2 ∧ EndsSeparatedS c 1 2 1 2 ∧ c.knotsV = List.replicate 3 0 ++ List.replicate 3 1 ∧
    IsMat Q 2 2 ∧ (∀ i, i ≤ 1 → IsElevated (K := ℝ) 2 (ent c.cps i) (ent Q i)) := by
  refine ⟨{ degreeU := 1, degreeV := 2, knotsU := [0, 0, 1, 1], knotsV := [0, 0, 0, 1, 1, 1], cps := [[⟨0, 0, 0, 1⟩, ⟨0, 1, 0, 1⟩, ⟨0, 2, 0, 1⟩], [⟨1, 0, 0, 1⟩, ⟨1, 2, 0, 1⟩, ⟨1, 4, 0, 1⟩]] },
    [[⟨0, 0, 0, 1⟩, ⟨0, 2, 0, 1⟩], [⟨1, 0, 0, 1⟩, ⟨1, 4, 0, 1⟩]],
    { degreeU := rfl, degreeV := rfl, posU := by decide, posV := by decide, le7U := by decide, le7V := by decide, cps := ⟨rfl, ?_⟩, pn := by decide, qm := by decide, knotsU := rfl, knotsV := rfl, sortedU := ?_, sortedV := ?_ }, ⟨⟨?_, ?_⟩, ⟨?_, ?_⟩⟩, rfl, ⟨rfl, ?_⟩, ?_⟩
  · intro i hi
    interval_cases i <;> rfl
  · exact bezier_knots_sorted (q := 1) zero_lt_one
  · exact bezier_knots_sorted (q := 2) zero_lt_one
  · norm_num [nth]
  · norm_num [nth]
  · norm_num [nth]
  · norm_num [nth]
  · intro i hi
    interval_cases i <;> rfl
  · intro i hi j hj
    interval_cases i <;> interval_cases j <;> ext <;> simp [ent, row, nth] <;> norm_num

end LNLib.Props
