import Mathlib.Tactic.IntervalCases
import Verif.Model.Query
import Verif.Props.DiffGeom
import Verif.Props.SurfaceQuery

/-!
# C94, C95: `IsClosed` for curves and surfaces
-/

namespace LNLib.Props
open LNLib Res Spec Finset

/-- "equal" up to the tolerance of the library, coordinate by coordinate -/
def Near (a b : XYZ ℝ) : Prop :=
  |a.x - b.x| ≤ 1 / 1000000 * (1 + max |a.x| |b.x|) ∧ |a.y - b.y| ≤ 1 / 1000000 * (1 + max |a.y| |b.y|) ∧
    |a.z - b.z| ≤ 1 / 1000000 * (1 + max |a.z| |b.z|)

theorem almost_iff {a b : ℝ} : isAlmostEqualTo a b = true ↔ |a - b| ≤ 1 / 1000000 * (1 + max |a| |b|) := by
  constructor
  · intro h
    by_contra h'
    rw [almost_far (not_le.mp h')] at h
    simp at h
  · exact almost_near

theorem almostEq_iff {a b : XYZ ℝ} : a.almostEq b = true ↔ Near a b := by
  unfold XYZ.almostEq Near
  rw [Bool.and_eq_true, Bool.and_eq_true, almost_iff, almost_iff, almost_iff, and_assoc]

theorem near_refl (a : XYZ ℝ) : Near a a := by
  rw [← almostEq_iff]
  unfold XYZ.almostEq
  simp [isAlmostEqualTo_self doubleEps_pos]

/-- the first loop finds the first control point that matches -/
theorem closedIndex_run {cps : List (XYZW ℝ)} {n : ℕ} {last : XYZ ℝ} (hn : n < cps.length) :
    ∃ r, closedIndex cps last (n : ℤ) = ok r ∧
      (r = none → ∀ j, j < n → ¬ Near last (nth cps j).toXYZ) ∧
      (∀ x, r = some x → ∃ k : ℕ, x = k ∧ k < n ∧ Near last (nth cps k).toXYZ ∧ ∀ j, j < k → ¬ Near last (nth cps j).toXYZ) := by
  unfold closedIndex
  refine Runs.forN (m := 0) (n := n) (s := (none : Option ℤ)) (fun i r => (r = none → ∀ j, j < i → ¬ Near last (nth cps j).toXYZ) ∧
      (∀ x, r = some x → ∃ k : ℕ, x = k ∧ k < i ∧ Near last (nth cps k).toXYZ ∧ ∀ j, j < k → ¬ Near last (nth cps j).toXYZ))
    (a := 0) (b := (n : ℤ)) rfl rfl (by omega) ⟨fun _ j hj => by omega, fun x hx => by cases hx⟩ ?_
  rintro i r - hi ⟨h1, h2⟩
  cases r with
  | some k =>
    refine Runs.ok ⟨fun h => (by cases h), fun x hx => ?_⟩
    obtain ⟨k', e, hk, h3⟩ := h2 x hx
    exact ⟨k', e, by omega, h3⟩
  | none =>
    dsimp only
    rw [vget_nth (i := (i : ℤ)) (k := i) rfl (by omega), ok_bind]
    refine Runs.ok ?_
    by_cases hc : Near last (nth cps i).toXYZ
    · rw [if_pos (almostEq_iff.mpr hc)]
      refine ⟨fun h => (by cases h), fun x hx => ?_⟩
      cases hx
      exact ⟨i, rfl, by omega, hc, fun j hj => h1 rfl j hj⟩
    · rw [if_neg (fun h => hc (almostEq_iff.mp h))]
      refine ⟨fun _ j hj => ?_, fun x hx => by cases hx⟩
      rcases Nat.lt_succ_iff_lt_or_eq.mp hj with h | rfl
      · exact h1 rfl j h
      · exact hc

/-- the second loop compares the first `k + 1` control points with the last `k + 1` -/
theorem closedOverlap_run {cps : List (XYZW ℝ)} {n k : ℕ} (hn : n < cps.length) (hk : k ≤ n) :
    ∃ b, closedOverlap cps (n : ℤ) (k : ℤ) = ok b ∧ (b = true ↔ ∀ i, i ≤ k → Near (nth cps (n - k + i)).toXYZ (nth cps i).toXYZ) := by
  unfold closedOverlap
  obtain ⟨b, e, h⟩ := forDown_inv (a := (k : ℤ)) (b := 0) (s := true) (body := fun i st =>
    if st then do
      let current ← vget cps i
      let another ← vget cps (n - k + i)
      ok (another.toXYZ.almostEq current.toXYZ)
    else ok false) (fun x b => (b = true ↔ ∀ i : ℕ, i ≤ k → x < (i : ℤ) → Near (nth cps (n - k + i)).toXYZ (nth cps i).toXYZ)) (by omega)
    (by simp; intro i h1 h2; omega) (by
      intro x b hx0 hx1 hb
      obtain ⟨i, rfl⟩ := Int.eq_ofNat_of_zero_le hx0
      cases b with
      | false =>
        refine ⟨false, rfl, ?_⟩
        simp only [Bool.false_eq_true, false_iff, not_forall] at hb ⊢
        obtain ⟨j, h1, h2, h3⟩ := hb
        exact ⟨j, h1, by omega, h3⟩
      | true =>
        rw [if_pos rfl, vget_nth (i := (i : ℤ)) (k := i) rfl (by omega), ok_bind, vget_nth (i := (n : ℤ) - k + i) (k := n - k + i) (by omega) (by omega), ok_bind]
        refine ⟨_, rfl, ?_⟩
        rw [almostEq_iff]
        constructor
        · intro h j h1 h2
          by_cases hj : j = i
          · rw [hj]; exact h
          · exact hb.mp rfl j h1 (by omega)
        · intro h
          exact h i (by omega) (by omega))
  refine ⟨b, e, h.trans ?_⟩
  constructor
  · intro h i hi
    exact h i hi (by omega)
  · intro h i hi _
    exact h i hi

theorem clamped_first {c : NurbsCurve ℝ} {p n : ℕ} (w : WellFormed c p n) (hc : ClampedEnds (nth c.knots) p n) : ∀ i, i ≤ p → nth c.knots i = nth c.knots 0 := by
  intro i hi
  have hm := wf_monoTo w
  have := w.pn
  have h1 := hm 0 i (by omega) (by omega)
  have h2 := hm i p (by omega) (by omega)
  rw [← hc.first] at h2
  exact le_antisymm h2 h1

theorem clamped_last {c : NurbsCurve ℝ} {p n : ℕ} (w : WellFormed c p n) (hc : ClampedEnds (nth c.knots) p n) :
    ∀ i, n + 1 ≤ i → i ≤ n + p + 1 → nth c.knots i = nth c.knots (n + p + 1) := by
  intro i h0 hi
  have hm := wf_monoTo w
  have h1 := hm (n + 1) i (by omega) (by omega)
  have h2 := hm i (n + p + 1) (by omega) (by omega)
  rw [hc.last] at h1
  exact le_antisymm h2 h1

/-- what `IsClosed` computes, for a valid clamped curve -/
theorem isClosed_run {c : NurbsCurve ℝ} {p n : ℕ} (w : WellFormed c p n) (he : EndsSeparated (nth c.knots) p n) (hc : ClampedEnds (nth c.knots) p n) :
    NurbsCurve.pointOnCurve c (nth c.knots 0) = ok (nth c.cps 0).toXYZ ∧
    NurbsCurve.pointOnCurve c (nth c.knots (n + p + 1)) = ok (nth c.cps n).toXYZ ∧
    ∃ b, isClosedCurve c = ok b ∧ (b = true ↔
      (nth c.cps 0).toXYZ.distance (nth c.cps n).toXYZ ≤ 1 / 1000000 * (1 + (nth c.cps 0).toXYZ.distance (nth c.cps n).toXYZ) ∨
      ∃ k, k < n ∧ (∀ j, j < k → ¬ Near (nth c.cps n).toXYZ (nth c.cps j).toXYZ) ∧ ∀ i, i ≤ k → Near (nth c.cps (n - k + i)).toXYZ (nth c.cps i).toXYZ) := by
  have hl := w.knots
  have hcl := w.cps
  have h1 : NurbsCurve.pointOnCurve c (nth c.knots 0) = ok (nth c.cps 0).toXYZ := by
    unfold NurbsCurve.pointOnCurve
    rw [C09_start w he (clamped_first w hc), ok_bind]
  have h2 : NurbsCurve.pointOnCurve c (nth c.knots (n + p + 1)) = ok (nth c.cps n).toXYZ := by
    unfold NurbsCurve.pointOnCurve
    rw [C09_end w he (clamped_last w hc), ok_bind]
  refine ⟨h1, h2, ?_⟩
  have hd : 0 ≤ (nth c.cps 0).toXYZ.distance (nth c.cps n).toXYZ := Real.sqrt_nonneg _
  unfold isClosedCurve
  rw [vget_nth (i := 0) (k := 0) rfl (by omega), ok_bind, vget_nth (i := (c.knots.length : ℤ) - 1) (k := n + p + 1) (by omega) (by omega), ok_bind, h1, ok_bind, h2, ok_bind]
  by_cases hm : (nth c.cps 0).toXYZ.distance (nth c.cps n).toXYZ ≤ 1 / 1000000 * (1 + (nth c.cps 0).toXYZ.distance (nth c.cps n).toXYZ)
  · rw [if_pos (almost_near (by rw [sub_zero, abs_zero, max_eq_left (abs_nonneg _), abs_of_nonneg hd]; exact hm))]
    exact ⟨true, rfl, fun _ => Or.inl hm, fun _ => rfl⟩
  · rw [if_neg (by rw [almost_iff, sub_zero, abs_zero, max_eq_left (abs_nonneg _), abs_of_nonneg hd]; exact hm)]
    dsimp only
    rw [hcl, show (((n + 1 : ℕ) : ℤ) - 1) = (n : ℤ) by push_cast; ring, vget_nth (i := (n : ℤ)) (k := n) rfl (by omega), ok_bind]
    obtain ⟨r, e, hn, hs⟩ := closedIndex_run (cps := c.cps) (n := n) (last := (nth c.cps n).toXYZ) (by omega)
    rw [e, ok_bind]
    cases r with
    | none =>
      refine ⟨false, rfl, ?_⟩
      simp only [Bool.false_eq_true, false_iff, not_or]
      refine ⟨hm, ?_⟩
      rintro ⟨k, hk, -, h⟩
      refine hn rfl k hk ?_
      have := h k (le_refl k)
      rwa [Nat.sub_add_cancel hk.le] at this
    | some x =>
      obtain ⟨k, rfl, hk, hk1, hk2⟩ := hs x rfl
      dsimp only
      by_cases h0 : k = 0
      · subst h0
        rw [if_pos Nat.cast_zero]
        refine ⟨true, rfl, fun _ => Or.inr ?_, fun _ => rfl⟩
        refine ⟨0, hk, fun j hj => by omega, fun i hi => ?_⟩
        rw [Nat.le_zero.mp hi]
        exact hk1
      · rw [if_neg (by exact_mod_cast h0)]
        obtain ⟨b, e, hb⟩ := closedOverlap_run (cps := c.cps) (n := n) (k := k) (by omega) hk.le
        refine ⟨b, e, hb.trans ?_⟩
        constructor
        · intro h
          exact Or.inr ⟨k, hk, hk2, h⟩
        · rintro (h | ⟨k', h1, h2, h3⟩)
          · exact absurd h hm
          · have : k' = k := by
              rcases lt_trichotomy k' k with h | h | h
              · have := h3 k' (le_refl _)
                rw [Nat.sub_add_cancel h1.le] at this
                exact absurd this (hk2 k' h)
              · exact h
              · exact absurd hk1 (h2 k h)
            rwa [this] at h3

/-- C94 for clamped valid curves: when the start and the end of the curve agree (their distance is within tolerance) `IsClosed` answers `true`; when no
inner control point coincides with the last control point, it answers `true` only if start and end agree within tolerance. -/
theorem C94_closed_partial {c : NurbsCurve ℝ} {p n : ℕ} (w : WellFormed c p n) (he : EndsSeparated (nth c.knots) p n) (hc : ClampedEnds (nth c.knots) p n) :
    ∃ s e b, NurbsCurve.pointOnCurve c (nth c.knots 0) = ok s ∧ NurbsCurve.pointOnCurve c (nth c.knots (n + p + 1)) = ok e ∧ isClosedCurve c = ok b ∧
      (s.distance e ≤ 1 / 1000000 * (1 + s.distance e) → b = true) ∧
      ((∀ i, 0 < i → i < n → ¬ Near e (nth c.cps i).toXYZ) → b = true → s.distance e ≤ 1 / 1000000 * (1 + s.distance e) ∨ Near e s) := by
  obtain ⟨h1, h2, b, h3, h4⟩ := isClosed_run w he hc
  refine ⟨_, _, b, h1, h2, h3, fun h => h4.mpr (Or.inl h), ?_⟩
  intro hi hb
  rcases h4.mp hb with h | ⟨k, hk, -, h⟩
  · exact Or.inl h
  · right
    by_cases h0 : k = 0
    · subst h0
      exact h 0 (le_refl _)
    · have := h k (le_refl _)
      rw [Nat.sub_add_cancel hk.le] at this
      exact absurd this (hi k (by omega) hk)

/-- the polyline `A B C A B` -/
noncomputable def exLoop : NurbsCurve ℝ :=
  { degree := 1, knots := [0, 0, 1, 2, 3, 4, 4], cps := [⟨0, 0, 0, 1⟩, ⟨1, 0, 0, 1⟩, ⟨1, 1, 0, 1⟩, ⟨0, 0, 0, 1⟩, ⟨1, 0, 0, 1⟩] }

theorem exLoop_wf : WellFormed exLoop 1 4 ∧ EndsSeparated (nth exLoop.knots) 1 4 ∧ ClampedEnds (nth exLoop.knots) 1 4 := by
  refine ⟨{ degree := rfl, pos := by decide, le7 := by decide, cps := rfl, pn := by decide, knots := rfl, sorted := ?_ }, ⟨?_, ?_⟩, ⟨rfl, rfl⟩⟩
  · intro i j hij hj
    have hj' : j < 7 := hj
    unfold exLoop
    dsimp only
    interval_cases j <;> interval_cases i <;> norm_num [nth]
  · norm_num [exLoop, nth]
  · norm_num [exLoop, nth]

theorem toXYZ_one (x y z : ℝ) : (⟨x, y, z, 1⟩ : XYZW ℝ).toXYZ = ⟨x, y, z⟩ := by
  unfold XYZW.toXYZ
  rw [if_neg (by rw [almost_iff]; norm_num)]
  norm_num

/-- C94 is violated: the clamped polyline `A B C A B` starts at `A`, ends at `B ≠ A`, and `IsClosed` answers `true`, because its first two control
points agree with its last two. -/
theorem C94_violated : NurbsCurve.pointOnCurve exLoop 0 = ok ⟨0, 0, 0⟩ ∧ NurbsCurve.pointOnCurve exLoop 4 = ok ⟨1, 0, 0⟩ ∧
    isClosedCurve exLoop = ok true := by
  obtain ⟨w, he, hc⟩ := exLoop_wf
  obtain ⟨h1, h2, b, h3, h4⟩ := isClosed_run w he hc
  have e0 : (nth exLoop.cps 0).toXYZ = ⟨0, 0, 0⟩ := toXYZ_one _ _ _
  have e1 : (nth exLoop.cps 1).toXYZ = ⟨1, 0, 0⟩ := toXYZ_one _ _ _
  have e3 : (nth exLoop.cps 3).toXYZ = ⟨0, 0, 0⟩ := toXYZ_one _ _ _
  have e4 : (nth exLoop.cps 4).toXYZ = ⟨1, 0, 0⟩ := toXYZ_one _ _ _
  rw [e0] at h1
  rw [e4] at h2
  refine ⟨h1, h2, ?_⟩
  rw [h3]
  congr 1
  rw [h4]
  right
  refine ⟨1, by norm_num, ?_, ?_⟩
  · intro j hj
    interval_cases j
    rw [e4, e0]
    unfold Near
    norm_num
  · intro i hi
    interval_cases i
    · rw [e0, show 4 - 1 + 0 = 3 by norm_num, e3]
      exact near_refl _
    · rw [e1, show 4 - 1 + 1 = 4 by norm_num, e4]
      exact near_refl _

/-! ## C95 -/

/-- the control points of the `j`-th curve in the first direction -/
noncomputable def column (c : NurbsSurface ℝ) (n j : ℕ) : NurbsCurve ℝ := { degree := c.degreeU, knots := c.knotsU, cps := (List.range (n + 1)).map fun i => ent c.cps i j }

/-- the control points of the `i`-th curve in the second direction -/
noncomputable def rowCurve (c : NurbsSurface ℝ) (m i : ℕ) : NurbsCurve ℝ := { degree := c.degreeV, knots := c.knotsV, cps := (List.range (m + 1)).map fun j => ent c.cps i j }

theorem nth_range {α : Type} [Zero α] {f : ℕ → α} {n i : ℕ} (h : i ≤ n) : nth ((List.range (n + 1)).map f) i = f i := by
  simp [nth, Nat.lt_succ_of_le h]

theorem column_wf {c : NurbsSurface ℝ} {p q n m j : ℕ} (w : WellFormedS c p q n m) : WellFormed (column c n j) p n :=
  { degree := w.degreeU, pos := w.posU, le7 := w.le7U, cps := by simp [column], pn := w.pn, knots := w.knotsU, sorted := w.sortedU }

theorem rowCurve_wf {c : NurbsSurface ℝ} {p q n m i : ℕ} (w : WellFormedS c p q n m) : WellFormed (rowCurve c m i) q m :=
  { degree := w.degreeV, pos := w.posV, le7 := w.le7V, cps := by simp [rowCurve], pn := w.qm, knots := w.knotsV, sorted := w.sortedV }

/-- the loop "all curves are closed" -/
theorem all_run {n : ℕ} {f : ℤ → Res Bool} {b : ℕ → Bool} (h : ∀ i, i < n → f (i : ℤ) = ok (b i)) :
    ∃ r, forI 0 (n : ℤ) true (fun i st => if st then f i else ok false) = ok r ∧ (r = true ↔ ∀ i, i < n → b i = true) := by
  refine Runs.forN (m := 0) (n := n) (s := true) (fun i r => (r = true ↔ ∀ j, j < i → b j = true)) rfl rfl (by omega) (by simp) ?_
  rintro i r - hi hr
  cases r with
  | false =>
    refine Runs.ok ?_
    simp only [Bool.false_eq_true, false_iff, not_forall] at hr ⊢
    obtain ⟨j, h1, h2⟩ := hr
    exact ⟨j, by omega, h2⟩
  | true =>
    rw [if_pos rfl, h i hi]
    refine Runs.ok ?_
    constructor
    · intro hb j hj
      rcases Nat.lt_succ_iff_lt_or_eq.mp hj with h | rfl
      · exact hr.mp rfl j h
      · exact hb
    · intro h
      exact h i (by omega)

theorem isClosedSurface_u {c : NurbsSurface ℝ} {p q n m : ℕ} {b : ℕ → Bool} (w : WellFormedS c p q n m)
    (hb : ∀ j, j ≤ m → isClosedCurve (column c n j) = ok (b j)) :
    ∃ r, isClosedSurface c true = ok r ∧ (r = true ↔ ∀ j, j ≤ m → b j = true) := by
  have hmat := w.cps
  have h0 : vget c.cps 0 = ok (row c.cps 0) := vget_row (k := 0) rfl (by rw [hmat.1]; omega)
  unfold isClosedSurface
  dsimp only
  rw [hmat.1, if_neg (by omega), h0, ok_bind, hmat.2 0 (by omega), if_pos rfl]
  obtain ⟨r, e, hr⟩ := all_run (n := m + 1) (b := b) (f := fun v => do
      let col ← forI 0 ((n + 1 : ℕ) : ℤ) [] fun u l => do
        let x ← mget c.cps u v
        ok (l ++ [x])
      isClosedCurve { degree := c.degreeU, knots := c.knotsU, cps := col }) (by
    intro j hj
    rw [collect_run (rd := fun u => mget c.cps u (j : ℤ)) (f := fun i => ent c.cps i j) (fun i hi => mget_ent (a := i) (b := j) hmat rfl rfl (by omega) (by omega)), ok_bind]
    exact hb j (by omega))
  refine ⟨r, e, hr.trans ?_⟩
  constructor
  · exact fun h j hj => h j (by omega)
  · exact fun h j hj => h j (by omega)

theorem isClosedSurface_v {c : NurbsSurface ℝ} {p q n m : ℕ} {b : ℕ → Bool} (w : WellFormedS c p q n m)
    (hb : ∀ i, i ≤ n → isClosedCurve (rowCurve c m i) = ok (b i)) :
    ∃ r, isClosedSurface c false = ok r ∧ (r = true ↔ ∀ i, i ≤ n → b i = true) := by
  have hmat := w.cps
  have h0 : vget c.cps 0 = ok (row c.cps 0) := vget_row (k := 0) rfl (by rw [hmat.1]; omega)
  unfold isClosedSurface
  dsimp only
  rw [hmat.1, if_neg (by omega), h0, ok_bind, hmat.2 0 (by omega), if_neg (by decide)]
  obtain ⟨r, e, hr⟩ := all_run (n := n + 1) (b := b) (f := fun u => do
      let rw ← forI 0 ((m + 1 : ℕ) : ℤ) [] fun v l => do
        let x ← mget c.cps u v
        ok (l ++ [x])
      isClosedCurve { degree := c.degreeV, knots := c.knotsV, cps := rw }) (by
    intro i hi
    rw [collect_run (rd := fun v => mget c.cps (i : ℤ) v) (f := fun j => ent c.cps i j) (fun j hj => mget_ent (a := i) (b := j) hmat rfl rfl (by omega) (by omega)), ok_bind]
    exact hb i (by omega))
  refine ⟨r, e, hr.trans ?_⟩
  constructor
  · exact fun h j hj => h j (by omega)
  · exact fun h j hj => h j (by omega)

/-- the two ends of a clamped curve -/
theorem ends_eq {T : Type} [AddCommGroup T] [Module ℝ T] {U : ℕ → ℝ} {p n : ℕ} {P : ℕ → T} (hpn : p ≤ n) (hm : MonoTo U (n + p + 1)) (he : EndsSeparated U p n)
    (hc : ClampedEnds U p n) : curvePoint U p n P (U p) = P 0 ∧ curvePoint U p n P (U (n + 1)) = P n := by
  have h1 : U p < U (p + 1) := by
    have h1 : (0:ℝ) < 1 / 1000000 * (1 + max |U p| |U (p + 1)|) := by
      have : 0 ≤ max |U p| |U (p + 1)| := le_max_of_le_left (abs_nonneg _)
      positivity
    have := he.first
    linarith
  have h2 : U n < U (n + 1) := by
    have h1 : (0:ℝ) < 1 / 1000000 * (1 + max |U n| |U (n + 1)|) := by
      have : 0 ≤ max |U n| |U (n + 1)| := le_max_of_le_left (abs_nonneg _)
      positivity
    have := he.last
    linarith
  constructor
  · have := curvePoint_start (P := P) (s := p) hm ⟨le_refl _, hpn, h1, le_refl _, Or.inl h1⟩ h1 (by
      intro j h3 h4
      have a := hm 0 j (by omega) (by omega)
      have b := hm j p (by omega) (by omega)
      rw [hc.first] at a
      exact le_antisymm b a)
    rwa [Nat.sub_self] at this
  · exact curvePoint_end (P := P) (s := n) hm ⟨hpn, le_refl _, h2, h2.le, Or.inr ⟨rfl, rfl⟩⟩ h2 (by
      intro j h3 h4
      have a := hm (n + 1) j (by omega) (by omega)
      have b := hm j (n + p + 1) (by omega) (by omega)
      rw [← hc.last] at b
      exact le_antisymm b a)

/-- evaluation of a surface whose weights are all one -/
theorem eval_one {c : NurbsSurface ℝ} {p q n m : ℕ} {u v : ℝ} (w : WellFormedS c p q n m) (he : EndsSeparatedS c p q n m) (d : InDomain c p q n m u v)
    (hone : ∀ i j, i ≤ n → j ≤ m → (ent c.cps i j).w = 1) :
    NurbsSurface.pointOnSurface c u v = ok (surfacePoint (nth c.knotsU) (nth c.knotsV) p q n m (fun i j => (ent c.cps i j).raw) u v) := by
  obtain ⟨s, -, hs⟩ := getKnotSpanIndex_isSpan w.knotsU w.pn w.sortedU he.u d.u0 d.u1
  obtain ⟨s2, -, hs2⟩ := getKnotSpanIndex_isSpan w.knotsV w.qm w.sortedV he.v d.v0 d.v1
  obtain ⟨-, su⟩ := basis_convex (wfS_monoU w) hs
  obtain ⟨-, sv⟩ := basis_convex (wfS_monoV w) hs2
  have hw1 : surfaceWeight (nth c.knotsU) (nth c.knotsV) p q n m (ent c.cps) u v = 1 := by
    have hsum : ∑ i ∈ range (n + 1), ∑ j ∈ range (m + 1), N (nth c.knotsU) (nth c.knotsU (n + 1)) p i u * N (nth c.knotsV) (nth c.knotsV (m + 1)) q j v = 1 := by
      rw [← sum_mul_sum, su, sv, one_mul]
    rw [← hsum]
    unfold surfaceWeight
    refine sum_congr rfl fun i hi => sum_congr rfl fun j hj => ?_
    rw [mem_range] at hi hj
    rw [hone i j (by omega) (by omega), mul_one]
  unfold NurbsSurface.pointOnSurface
  rw [C33_eval w he d, ok_bind]
  congr 1
  obtain ⟨x, hx⟩ : ∃ x, surfacePoint (nth c.knotsU) (nth c.knotsV) p q n m (ent c.cps) u v = x := ⟨_, rfl⟩
  rw [← surfacePoint_raw]
  have hxw : x.w = 1 := by rw [← hx, surfacePoint_w, hw1]
  rw [hx]
  obtain ⟨a, b, c, d⟩ := x
  simp only at hxw
  subst hxw
  rw [toXYZ_one]
  rfl

/-- closeness of the control points of two curves carries over to the curves -/
theorem near_curve {V : ℕ → ℝ} {q m s : ℕ} {v B : ℝ} {P Q : ℕ → XYZ ℝ} (hm : MonoTo V (m + q + 1)) (hs : IsSpan V q m v s)
    (h : ∀ j, j ≤ m → |(P j).x - (Q j).x| ≤ B ∧ |(P j).y - (Q j).y| ≤ B ∧ |(P j).z - (Q j).z| ≤ B) :
    |(curvePoint V q m P v).x - (curvePoint V q m Q v).x| ≤ B ∧ |(curvePoint V q m P v).y - (curvePoint V q m Q v).y| ≤ B ∧
      |(curvePoint V q m P v).z - (curvePoint V q m Q v).z| ≤ B := by
  obtain ⟨h0, h1⟩ := basis_convex hm hs
  have key : ∀ L : XYZ ℝ →ₗ[ℝ] ℝ, (∀ j, j ≤ m → |L (P j) - L (Q j)| ≤ B) → |L (curvePoint V q m P v) - L (curvePoint V q m Q v)| ≤ B := by
    intro L hL
    unfold curvePoint
    simp only [map_sum, map_smul, smul_eq_mul]
    rw [← sum_sub_distrib]
    refine (abs_sum_le_sum_abs _ _).trans ?_
    have : B = ∑ i ∈ range (m + 1), N V (V (m + 1)) q i v * B := by rw [← sum_mul, h1, one_mul]
    rw [this]
    refine sum_le_sum fun i hi => ?_
    rw [mem_range] at hi
    rw [← mul_sub, abs_mul, abs_of_nonneg (h0 i (by omega))]
    exact mul_le_mul_of_nonneg_left (hL i (by omega)) (h0 i (by omega))
  exact ⟨key XYZ.xL fun j hj => (h j hj).1, key XYZ.yL fun j hj => (h j hj).2.1, key XYZ.zL fun j hj => (h j hj).2.2⟩

/-- the coordinates of the point are at most `M` in size -/
def Bounded (M : ℝ) (a : XYZ ℝ) : Prop := |a.x| ≤ M ∧ |a.y| ≤ M ∧ |a.z| ≤ M

/-- every coordinate of the points differs by at most `B` -/
def Within (B : ℝ) (a b : XYZ ℝ) : Prop := |a.x - b.x| ≤ B ∧ |a.y - b.y| ≤ B ∧ |a.z - b.z| ≤ B

theorem within_of_near {M : ℝ} {a b : XYZ ℝ} (ha : Bounded M a) (hb : Bounded M b)
    (h : a.distance b ≤ 1 / 1000000 * (1 + a.distance b) ∨ Near b a) : Within (2 / 1000000 * (1 + M)) a b := by
  have hM : 0 ≤ M := (abs_nonneg _).trans ha.1
  rcases h with h | h
  · have hd : a.distance b ≤ 2 / 1000000 * (1 + M) := by
      have : 0 ≤ 2 / 1000000 * M := by positivity
      linarith
    have key : ∀ t : ℝ, t ^ 2 ≤ (b.x - a.x) ^ 2 + (b.y - a.y) ^ 2 + (b.z - a.z) ^ 2 → |t| ≤ 2 / 1000000 * (1 + M) := by
      intro t ht
      refine le_trans ?_ hd
      unfold XYZ.distance
      exact Real.abs_le_sqrt ht
    refine ⟨key _ ?_, key _ ?_, key _ ?_⟩
    · nlinarith [sq_nonneg (b.y - a.y), sq_nonneg (b.z - a.z)]
    · nlinarith [sq_nonneg (b.x - a.x), sq_nonneg (b.z - a.z)]
    · nlinarith [sq_nonneg (b.y - a.y), sq_nonneg (b.x - a.x)]
  · have key : ∀ s t : ℝ, |s| ≤ M → |t| ≤ M → |s - t| ≤ 1 / 1000000 * (1 + max |s| |t|) → |t - s| ≤ 2 / 1000000 * (1 + M) := by
      intro s t h1 h2 h3
      rw [abs_sub_comm]
      have := max_le h1 h2
      linarith
    exact ⟨key _ _ hb.1 ha.1 h.1, key _ _ hb.2.1 ha.2.1 h.2.1, key _ _ hb.2.2 ha.2.2 h.2.2⟩

/-- C95 for the first direction: a valid surface, clamped in that direction, whose first and last rows of control points agree is reported closed, and
its two boundary lines do agree.  For a non-rational surface (all weights one) whose coordinates are at most `M` and which has no inner control
point at the position of the last one of its column, the answer `true` means that the two boundary lines agree up to `2e-6 (1 + M)`.  The theorem
`C95_weights_violated` refutes the property for rational surfaces. -/
theorem C95_closed_u_partial {c : NurbsSurface ℝ} {p q n m : ℕ} (w : WellFormedS c p q n m) (he : EndsSeparatedS c p q n m) (hc : ClampedEnds (nth c.knotsU) p n) :
    ∃ b, isClosedSurface c true = ok b ∧
      ((∀ j, j ≤ m → ent c.cps 0 j = ent c.cps n j) → b = true ∧ ∀ v, nth c.knotsV q ≤ v → v ≤ nth c.knotsV (m + 1) →
        NurbsSurface.pointOnSurface c (nth c.knotsU p) v = NurbsSurface.pointOnSurface c (nth c.knotsU (n + 1)) v) ∧
      (∀ M, (∀ i j, i ≤ n → j ≤ m → (ent c.cps i j).w = 1 ∧ Bounded M (ent c.cps i j).raw) →
        (∀ i j, 0 < i → i < n → j ≤ m → ¬ Near (ent c.cps n j).raw (ent c.cps i j).raw) → b = true → ∀ v, nth c.knotsV q ≤ v → v ≤ nth c.knotsV (m + 1) →
        ∃ x y, NurbsSurface.pointOnSurface c (nth c.knotsU p) v = ok x ∧ NurbsSurface.pointOnSurface c (nth c.knotsU (n + 1)) v = ok y ∧
          Within (2 / 1000000 * (1 + M)) x y) := by
  have hpn := w.pn
  have run := fun j => isClosed_run (column_wf (j := j) w) he.u hc
  choose r1 r2 b hb1 hb2 using run
  obtain ⟨r, e, hr⟩ := isClosedSurface_u w (fun j _ => hb1 j)
  have c0 : ∀ i j, i ≤ n → nth (column c n j).cps i = ent c.cps i j := fun i j hi => nth_range hi
  have dom : nth c.knotsU p ≤ nth c.knotsU (n + 1) := wfS_monoU w p (n + 1) (by omega) (by omega)
  refine ⟨r, e, ?_, ?_⟩
  · intro hrow
    constructor
    · rw [hr]
      intro j hj
      rw [hb2, c0 0 j (by omega), c0 n j (le_refl _), hrow j hj]
      left
      unfold XYZ.distance
      simp
    · intro v h0 h1
      unfold NurbsSurface.pointOnSurface
      rw [C33_eval w he ⟨le_refl _, dom, h0, h1⟩, C33_eval w he ⟨dom, le_refl _, h0, h1⟩, surfacePoint_eq, surfacePoint_eq,
        (ends_eq hpn (wfS_monoU w) he.u hc).1, (ends_eq hpn (wfS_monoU w) he.u hc).2, curvePoint_congr hrow]
  · intro M hM hin hrt v h0 h1
    refine ⟨_, _, eval_one w he ⟨le_refl _, dom, h0, h1⟩ (fun i j hi hj => (hM i j hi hj).1), eval_one w he ⟨dom, le_refl _, h0, h1⟩ (fun i j hi hj => (hM i j hi hj).1), ?_⟩
    rw [surfacePoint_eq, surfacePoint_eq, (ends_eq hpn (wfS_monoU w) he.u hc).1, (ends_eq hpn (wfS_monoU w) he.u hc).2]
    obtain ⟨s, -, hs⟩ := getKnotSpanIndex_isSpan w.knotsV w.qm w.sortedV he.v h0 h1
    refine near_curve (wfS_monoV w) hs ?_
    intro j hj
    have tox : ∀ i, i ≤ n → (ent c.cps i j).toXYZ = (ent c.cps i j).raw := by
      intro i hi
      have := (hM i j hi hj).1
      obtain ⟨x, hx⟩ : ∃ x, ent c.cps i j = x := ⟨_, rfl⟩
      rw [hx] at this ⊢
      obtain ⟨x1, x2, x3, x4⟩ := x
      simp only at this
      subst this
      exact toXYZ_one _ _ _
    refine within_of_near (hM 0 j (by omega) hj).2 (hM n j (le_refl _) hj).2 ?_
    rcases (hb2 j).mp (hr.mp hrt j hj) with h | ⟨k, hk, -, h⟩
    · rw [c0 0 j (by omega), c0 n j (le_refl _), tox 0 (by omega), tox n (le_refl _)] at h
      exact Or.inl h
    · right
      have := h k (le_refl _)
      rw [Nat.sub_add_cancel hk.le, c0 n j (le_refl _), c0 k j hk.le, tox n (le_refl _), tox k hk.le] at this
      by_cases hk0 : k = 0
      · rwa [hk0] at this
      · exact absurd this (hin k j (by omega) hk hj)

/-- C95 for the second direction -/
theorem C95_closed_v_partial {c : NurbsSurface ℝ} {p q n m : ℕ} (w : WellFormedS c p q n m) (he : EndsSeparatedS c p q n m) (hc : ClampedEnds (nth c.knotsV) q m) :
    ∃ b, isClosedSurface c false = ok b ∧
      ((∀ i, i ≤ n → ent c.cps i 0 = ent c.cps i m) → b = true ∧ ∀ u, nth c.knotsU p ≤ u → u ≤ nth c.knotsU (n + 1) →
        NurbsSurface.pointOnSurface c u (nth c.knotsV q) = NurbsSurface.pointOnSurface c u (nth c.knotsV (m + 1))) ∧
      (∀ M, (∀ i j, i ≤ n → j ≤ m → (ent c.cps i j).w = 1 ∧ Bounded M (ent c.cps i j).raw) →
        (∀ i j, i ≤ n → 0 < j → j < m → ¬ Near (ent c.cps i m).raw (ent c.cps i j).raw) → b = true → ∀ u, nth c.knotsU p ≤ u → u ≤ nth c.knotsU (n + 1) →
        ∃ x y, NurbsSurface.pointOnSurface c u (nth c.knotsV q) = ok x ∧ NurbsSurface.pointOnSurface c u (nth c.knotsV (m + 1)) = ok y ∧
          Within (2 / 1000000 * (1 + M)) x y) := by
  have hqm := w.qm
  have run := fun j => isClosed_run (rowCurve_wf (i := j) w) he.v hc
  choose r1 r2 b hb1 hb2 using run
  obtain ⟨r, e, hr⟩ := isClosedSurface_v w (fun j _ => hb1 j)
  have c0 : ∀ i j, j ≤ m → nth (rowCurve c m i).cps j = ent c.cps i j := fun i j hj => nth_range hj
  have dom : nth c.knotsV q ≤ nth c.knotsV (m + 1) := wfS_monoV w q (m + 1) (by omega) (by omega)
  refine ⟨r, e, ?_, ?_⟩
  · intro hrow
    constructor
    · rw [hr]
      intro j hj
      rw [hb2, c0 j 0 (by omega), c0 j m (le_refl _), hrow j hj]
      left
      unfold XYZ.distance
      simp
    · intro v h0 h1
      unfold NurbsSurface.pointOnSurface
      rw [C33_eval w he ⟨h0, h1, le_refl _, dom⟩, C33_eval w he ⟨h0, h1, dom, le_refl _⟩, surfacePoint_eq', surfacePoint_eq',
        (ends_eq hqm (wfS_monoV w) he.v hc).1, (ends_eq hqm (wfS_monoV w) he.v hc).2, curvePoint_congr hrow]
  · intro M hM hin hrt v h0 h1
    refine ⟨_, _, eval_one w he ⟨h0, h1, le_refl _, dom⟩ (fun i j hi hj => (hM i j hi hj).1), eval_one w he ⟨h0, h1, dom, le_refl _⟩ (fun i j hi hj => (hM i j hi hj).1), ?_⟩
    rw [surfacePoint_eq', surfacePoint_eq', (ends_eq hqm (wfS_monoV w) he.v hc).1, (ends_eq hqm (wfS_monoV w) he.v hc).2]
    obtain ⟨s, -, hs⟩ := getKnotSpanIndex_isSpan w.knotsU w.pn w.sortedU he.u h0 h1
    refine near_curve (wfS_monoU w) hs ?_
    intro i hi
    have tox : ∀ j, j ≤ m → (ent c.cps i j).toXYZ = (ent c.cps i j).raw := by
      intro j hj
      have := (hM i j hi hj).1
      obtain ⟨x, hx⟩ : ∃ x, ent c.cps i j = x := ⟨_, rfl⟩
      rw [hx] at this ⊢
      obtain ⟨x1, x2, x3, x4⟩ := x
      simp only at this
      subst this
      exact toXYZ_one _ _ _
    refine within_of_near (hM i 0 hi (by omega)).2 (hM i m hi (le_refl _)).2 ?_
    rcases (hb2 i).mp (hr.mp hrt i hi) with h | ⟨k, hk, -, h⟩
    · rw [c0 i 0 (by omega), c0 i m (le_refl _), tox 0 (by omega), tox m (le_refl _)] at h
      exact Or.inl h
    · right
      have := h k (le_refl _)
      rw [Nat.sub_add_cancel hk.le, c0 i m (le_refl _), c0 i k hk.le, tox m (le_refl _), tox k hk.le] at this
      by_cases hk0 : k = 0
      · rwa [hk0] at this
      · exact absurd this (hin i k hi (by omega) hk)

/-- a surface with equal positions and different weights of the control points on two opposite sides -/
noncomputable def exWeights : NurbsSurface ℝ :=
  { degreeU := 1, degreeV := 2, knotsU := [0, 0, 1, 2, 2], knotsV := [0, 0, 0, 1, 1, 1], cps := [[⟨0, 0, 0, 1⟩, ⟨1, 1, 0, 1⟩, ⟨2, 0, 0, 1⟩], [⟨0, 0, 1, 1⟩, ⟨1, 1, 1, 1⟩, ⟨2, 0, 1, 1⟩], [⟨0, 0, 0, 1⟩, ⟨2, 2, 0, 2⟩, ⟨2, 0, 0, 1⟩]] }

theorem exWeights_wf : WellFormedS exWeights 1 2 2 2 ∧ EndsSeparatedS exWeights 1 2 2 2 ∧ ClampedEnds (nth exWeights.knotsU) 1 2 := by
  refine ⟨{ degreeU := rfl, degreeV := rfl, posU := by decide, posV := by decide, le7U := by decide, le7V := by decide, cps := ⟨rfl, ?_⟩, pn := by decide, qm := by decide, knotsU := rfl, knotsV := rfl, sortedU := ?_, sortedV := ?_ }, ⟨⟨?_, ?_⟩, ⟨?_, ?_⟩⟩, ⟨rfl, rfl⟩⟩
  · intro i hi
    interval_cases i <;> rfl
  · intro i j hij hj
    have hj' : j < 5 := hj
    unfold exWeights
    dsimp only
    interval_cases j <;> interval_cases i <;> norm_num [nth]
  · intro i j hij hj
    have hj' : j < 6 := hj
    unfold exWeights
    dsimp only
    interval_cases j <;> interval_cases i <;> norm_num [nth]
  · norm_num [exWeights, nth]
  · norm_num [exWeights, nth]
  · norm_num [exWeights, nth]
  · norm_num [exWeights, nth]

theorem exWeights_mid (P : ℕ → XYZW ℝ) : curvePoint (nth exWeights.knotsV) 2 2 P (1 / 2) = (1 / 4 : ℝ) • P 0 + (1 / 2 : ℝ) • P 1 + (1 / 4 : ℝ) • P 2 := by
  unfold curvePoint
  rw [sum_range_succ, sum_range_succ, sum_range_succ, sum_range_zero, zero_add]
  norm_num [N, exWeights, nth]

/-- C95 is violated for rational surfaces: the control points of the lines `u = 0` and `u = 2` of this surface have the same positions and different
weights.  `IsClosed` answers `true`, but the lines differ: their middle points are `(1, 1/2, 0)` and `(1, 2/3, 0)`. -/
theorem C95_weights_violated : isClosedSurface exWeights true = ok true ∧ NurbsSurface.pointOnSurface exWeights 0 (1 / 2) = ok ⟨1, 1 / 2, 0⟩ ∧
    NurbsSurface.pointOnSurface exWeights 2 (1 / 2) = ok ⟨1, 2 / 3, 0⟩ := by
  obtain ⟨w, he, hc⟩ := exWeights_wf
  have t2 : (⟨2, 2, 0, 2⟩ : XYZW ℝ).toXYZ = ⟨1, 1, 0⟩ := by
    unfold XYZW.toXYZ
    rw [if_neg (by rw [almost_iff]; norm_num)]
    norm_num
  refine ⟨?_, ?_, ?_⟩
  · have run := fun j => isClosed_run (column_wf (j := j) w) he.u hc
    choose r1 r2 b hb1 hb2 using run
    obtain ⟨r, e, hr⟩ := isClosedSurface_u w (fun j _ => hb1 j)
    rw [e]
    congr 1
    rw [hr]
    intro j hj
    rw [hb2]
    left
    have : (nth (column exWeights 2 j).cps 0).toXYZ = (nth (column exWeights 2 j).cps 2).toXYZ := by
      interval_cases j
      · rfl
      · have h1 : (nth (column exWeights 2 1).cps 0) = ⟨1, 1, 0, 1⟩ := rfl
        have h2 : (nth (column exWeights 2 1).cps 2) = ⟨2, 2, 0, 2⟩ := rfl
        rw [h1, h2, t2, toXYZ_one]
      · rfl
    rw [this]
    unfold XYZ.distance
    simp
  · have d : InDomain exWeights 1 2 2 2 0 (1 / 2) := ⟨by norm_num [exWeights, nth], by norm_num [exWeights, nth], by norm_num [exWeights, nth], by norm_num [exWeights, nth]⟩
    unfold NurbsSurface.pointOnSurface
    rw [C33_eval w he d, ok_bind, surfacePoint_eq, show (0 : ℝ) = nth exWeights.knotsU 1 from rfl, (ends_eq (by decide) (wfS_monoU w) he.u hc).1, exWeights_mid]
    have : (1 / 4 : ℝ) • ent exWeights.cps 0 0 + (1 / 2 : ℝ) • ent exWeights.cps 0 1 + (1 / 4 : ℝ) • ent exWeights.cps 0 2 = ⟨1, 1 / 2, 0, 1⟩ := by
      have h0 : ent exWeights.cps 0 0 = ⟨0, 0, 0, 1⟩ := rfl
      have h1 : ent exWeights.cps 0 1 = ⟨1, 1, 0, 1⟩ := rfl
      have h2 : ent exWeights.cps 0 2 = ⟨2, 0, 0, 1⟩ := rfl
      rw [h0, h1, h2]
      ext <;> simp <;> norm_num
    rw [this, toXYZ_one]
    rfl
  · have d : InDomain exWeights 1 2 2 2 2 (1 / 2) := ⟨by norm_num [exWeights, nth], by norm_num [exWeights, nth], by norm_num [exWeights, nth], by norm_num [exWeights, nth]⟩
    have e2 : (2 : ℝ) = nth exWeights.knotsU (2 + 1) := rfl
    unfold NurbsSurface.pointOnSurface
    rw [C33_eval w he d, ok_bind, surfacePoint_eq]
    have : curvePoint (nth exWeights.knotsU) 1 2 (fun i => curvePoint (nth exWeights.knotsV) 2 2 (ent exWeights.cps i) (1 / 2)) 2 = ⟨3 / 2, 1, 0, 3 / 2⟩ := by
      have e3 := (ends_eq (P := fun i => curvePoint (nth exWeights.knotsV) 2 2 (ent exWeights.cps i) (1 / 2)) (by decide) (wfS_monoU w) he.u hc).2
      rw [← e2] at e3
      rw [e3, exWeights_mid]
      have h0 : ent exWeights.cps 2 0 = ⟨0, 0, 0, 1⟩ := rfl
      have h1 : ent exWeights.cps 2 1 = ⟨2, 2, 0, 2⟩ := rfl
      have h2 : ent exWeights.cps 2 2 = ⟨2, 0, 0, 1⟩ := rfl
      rw [h0, h1, h2]
      ext <;> simp <;> norm_num
    rw [this]
    unfold XYZW.toXYZ
    rw [if_neg (by rw [almost_iff]; norm_num)]
    norm_num

/-- the hypotheses of the C94 and C95 theorems are met -/
example : ∃ b, isClosedCurve exLoop = ok b := by
  obtain ⟨s, e, b, -, -, h, -⟩ := C94_closed_partial exLoop_wf.1 exLoop_wf.2.1 exLoop_wf.2.2
  exact ⟨b, h⟩

example : ∃ b, isClosedSurface exWeights true = ok b := by
  obtain ⟨b, h, -⟩ := C95_closed_u_partial exWeights_wf.1 exWeights_wf.2.1 exWeights_wf.2.2
  exact ⟨b, h⟩

end LNLib.Props
