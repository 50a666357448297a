import Verif.Model.SurfaceCreate
import Verif.Props.Surface
import Verif.Props.Refine
import Verif.Props.Elevate
import Verif.Props.KnotVector
import Mathlib.Tactic.IntervalCases

/-!
# C38, C85: ruled surfaces
-/

namespace LNLib.Props
open LNLib Res Spec Finset

section
variable {K : Type} [Field K] [LinearOrder K] [IsStrictOrderedRing K]
variable {T : Type} [AddCommGroup T] [Module K T]

/-- the two basis functions of degree one on `[0, 1]` -/
theorem basis_line {v : K} (h0 : 0 ≤ v) (h1 : v ≤ 1) :
    N (nth ([0, 0, 1, 1] : List K)) (nth ([0, 0, 1, 1] : List K) 2) 1 0 v = 1 - v ∧
      N (nth ([0, 0, 1, 1] : List K)) (nth ([0, 0, 1, 1] : List K) 2) 1 1 v = v := by
  rcases h1.lt_or_eq with h | rfl
  · simp [N, nth, h0, h, not_lt.mpr h0, not_le.mpr h, h.ne]
  · simp [N, nth]

theorem ends_line : EndsSeparated (nth ([0, 0, 1, 1] : List K)) 1 1 := by
  constructor <;> simp [nth] <;> norm_num

theorem sorted_line : ∀ i j, i ≤ j → j < ([0, 0, 1, 1] : List K).length → nth ([0, 0, 1, 1] : List K) i ≤ nth ([0, 0, 1, 1] : List K) j :=
  isValidKnotVector_nth.mp (by rw [isValidKnotVector_iff]; simp)

/-- the surface put together from two compatible curves -/
theorem ruled_assemble {e0 e1 : BsplineCurve K T} {p n : ℕ} (w0 : WellFormed e0 p n) (w1 : WellFormed e1 p n) (hk : e0.knots = e1.knots)
    (he : EndsSeparated (nth e0.knots) p n) :
    Runs (forI 0 e0.cps.length (List.replicate e0.cps.length (List.replicate 2 (0 : T))) fun i cps => do
      let x ← vget e0.cps i
      let cps ← mset cps i 0 x
      let y ← vget e1.cps i
      mset cps i 1 y)
    (fun cps => WellFormedS (⟨p, 1, e0.knots, [0, 0, 1, 1], cps⟩ : BsplineSurface K T) p 1 n 1 ∧
      ∀ u v : K, nth e0.knots p ≤ u → u ≤ nth e0.knots (n + 1) → 0 ≤ v → v ≤ 1 →
        (⟨p, 1, e0.knots, [0, 0, 1, 1], cps⟩ : BsplineSurface K T).pointOnSurface u v =
          ok ((1 - v) • curvePoint (nth e0.knots) p n (nth e0.cps) u + v • curvePoint (nth e1.knots) p n (nth e1.cps) u)) := by
  have hl0 := w0.cps
  have hl1 := w1.cps
  refine (Runs.forN (m := 0) (n := n + 1) (fun k cps => IsMat cps (n + 1) 2 ∧
    ∀ i < k, ent cps i 0 = nth e0.cps i ∧ ent cps i 1 = nth e1.cps i) (by simp) (by rw [hl0]) (by omega) ?_ ?_).mono ?_
  · rw [hl0]
    exact ⟨isMat_replicate, fun i hi => absurd hi (by omega)⟩
  · rintro i cps - hi ⟨hM, hE⟩
    rw [vget_nth (k := i) rfl (by omega), ok_bind]
    obtain ⟨m1, r1, hm1, he1⟩ := mset_ok (x := nth e0.cps i) hM (i := (i : ℤ)) (j := 0) (a := i) (b := 0) rfl rfl hi (by omega)
    rw [r1, ok_bind, vget_nth (k := i) rfl (by omega), ok_bind]
    obtain ⟨m2, r2, hm2, he2⟩ := mset_ok (x := nth e1.cps i) hm1 (i := (i : ℤ)) (j := 1) (a := i) (b := 1) rfl rfl hi (by omega)
    rw [r2]
    refine Runs.ok ⟨hm2, fun k hk => ?_⟩
    rw [he2, he2, he1, he1]
    rcases Nat.lt_succ_iff_lt_or_eq.mp hk with h | rfl
    · simp [h.ne, hE k h]
    · simp
  · rintro cps ⟨hM, hE⟩
    have wS : WellFormedS (⟨p, 1, e0.knots, [0, 0, 1, 1], cps⟩ : BsplineSurface K T) p 1 n 1 :=
      { degreeU := rfl, degreeV := rfl, posU := w0.pos, posV := one_pos, le7U := w0.le7, le7V := by norm_num, cps := hM, pn := w0.pn, qm := le_refl _,
        knotsU := w0.knots, knotsV := rfl, sortedU := w0.sorted, sortedV := sorted_line }
    refine ⟨wS, ?_⟩
    intro u v u0 u1 v0 v1
    rw [C33_eval wS ⟨he, ends_line⟩ ⟨u0, u1, v0, v1⟩]
    congr 1
    obtain ⟨b0, b1⟩ := basis_line v0 v1
    unfold surfacePoint curvePoint
    dsimp only
    rw [smul_sum, smul_sum, ← sum_add_distrib, hk]
    refine sum_congr rfl fun i hi => ?_
    rw [mem_range] at hi
    rw [sum_range_succ, sum_range_one, b0, b1, (hE i hi).1, (hE i hi).2, smul_smul, smul_smul, mul_comm, mul_comm v]

theorem ruledElevate_self {c : BsplineCurve K T} {d : ℤ} (h : c.degree = d) : ruledElevate c d = ok c := by
  unfold ruledElevate
  rw [if_neg (by omega), ← h]

/-- C38: `CreateRuledSurface` of two valid curves with the same degree and knot vector is a valid surface whose (homogeneous) point at
`(u, v)` is `(1 - v) C0(u) + v C1(u)`. -/
theorem C38_ruled {c0 c1 : BsplineCurve K T} {p n : ℕ} (w0 : WellFormed c0 p n) (w1 : WellFormed c1 p n) (hk : c0.knots = c1.knots)
    (he : EndsSeparated (nth c0.knots) p n) :
    ∃ S, createRuledSurface c0 c1 = ok S ∧ WellFormedS S p 1 n 1 ∧ S.knotsU = c0.knots ∧ S.knotsV = [0, 0, 1, 1] ∧
      ∀ u v : K, nth c0.knots p ≤ u → u ≤ nth c0.knots (n + 1) → 0 ≤ v → v ≤ 1 →
        S.pointOnSurface u v = ok ((1 - v) • curvePoint (nth c0.knots) p n (nth c0.cps) u + v • curvePoint (nth c1.knots) p n (nth c1.cps) u) := by
  obtain ⟨cps, r, wS, hS⟩ := ruled_assemble w0 w1 hk he
  have hl := w0.knots
  refine ⟨⟨p, 1, c0.knots, [0, 0, 1, 1], cps⟩, ?_, wS, rfl, rfl, hS⟩
  unfold createRuledSurface
  rw [← hk, vget_nth (k := 0) (by simp) (by omega), ok_bind, ok_bind, isAlmostEqualTo_self doubleEps_pos, if_pos rfl,
    vget_nth (k := n + p + 1) (by omega) (by omega), ok_bind, ok_bind, isAlmostEqualTo_self doubleEps_pos, ok_bind, validate_true, ok_bind]
  rw [show max c0.degree c1.degree = (p : ℤ) by rw [w0.degree, w1.degree]; simp]
  dsimp only
  rw [ruledElevate_self w0.degree, ok_bind, ruledElevate_self w1.degree, ok_bind, if_pos hk, ok_bind]
  dsimp only
  rw [r, ok_bind]

/-- C38, the property itself: the isoparametric curves `v = 0` and `v = 1` of the ruled surface are the two given rational curves. -/
theorem C38_boundary {c0 c1 : NurbsCurve K} {p n : ℕ} (w0 : WellFormed c0 p n) (w1 : WellFormed c1 p n) (hk : c0.knots = c1.knots)
    (he : EndsSeparated (nth c0.knots) p n) :
    ∃ S, createRuledSurface c0 c1 = ok S ∧ ∀ u : K, nth c0.knots p ≤ u → u ≤ nth c0.knots (n + 1) →
      NurbsSurface.pointOnSurface S u 0 = NurbsCurve.pointOnCurve c0 u ∧ NurbsSurface.pointOnSurface S u 1 = NurbsCurve.pointOnCurve c1 u := by
  obtain ⟨S, r, -, -, -, hS⟩ := C38_ruled w0 w1 hk he
  refine ⟨S, r, fun u u0 u1 => ?_⟩
  unfold NurbsSurface.pointOnSurface NurbsCurve.pointOnCurve
  rw [hS u 0 u0 u1 le_rfl zero_le_one, hS u 1 u0 u1 zero_le_one le_rfl, C05_eval w0 he u0 u1,
    C05_eval w1 (by rw [← hk]; exact he) (by rw [← hk]; exact u0) (by rw [← hk]; exact u1)]
  simp

/-! ## C85: different degrees and knot vectors -/

/-- a value that occurs only at positions `a ≤ i < b` occurs at most `b - a` times -/
theorem count_between {U : List K} {x : K} {a b : ℕ} (h0 : ∀ i < a, i < U.length → nth U i ≠ x)
    (h1 : ∀ i, b ≤ i → i < U.length → nth U i ≠ x) : U.count x ≤ b - a := by
  have hz1 : (U.take a).count x = 0 := by
    rw [List.count_eq_zero]
    intro hm
    obtain ⟨i, hi, e⟩ := List.getElem_of_mem hm
    rw [List.length_take] at hi
    rw [List.getElem_take] at e
    exact h0 i (by omega) (by omega) (by rw [nth_eq_getElem (by omega)]; exact e)
  have hz2 : (U.drop b).count x = 0 := by
    rw [List.count_eq_zero]
    intro hm
    obtain ⟨i, hi, e⟩ := List.getElem_of_mem hm
    rw [List.length_drop] at hi
    rw [List.getElem_drop] at e
    exact h1 (b + i) (by omega) (by omega) (by rw [nth_eq_getElem (by omega)]; exact e)
  have e1 : U.count x = (U.take a).count x + (U.drop a).count x := by rw [← List.count_append, List.take_append_drop]
  have e2 : (U.drop a).count x = ((U.drop a).take (b - a)).count x + ((U.drop a).drop (b - a)).count x := by
    rw [← List.count_append, List.take_append_drop]
  have e3 : ((U.drop a).take (b - a)).count x ≤ b - a := List.count_le_length.trans (by simp)
  have e4 : ((U.drop a).drop (b - a)).count x = 0 := by
    rw [List.drop_drop]
    by_cases hab : a ≤ b
    · rw [show a + (b - a) = b by omega]; exact hz2
    · have : (U.drop (a + (b - a))).Sublist (U.drop b) := by
        rw [show a + (b - a) = b + (a - b) by omega, ← List.drop_drop]
        exact List.drop_sublist _ _
      have := this.count_le x
      omega
  omega

/-- in a clamped knot vector both end knots have multiplicity `p + 1` -/
theorem count_ends {c : BsplineCurve K T} {p n : ℕ} (w : WellFormed c p n) (hc : ClampedEnds (nth c.knots) p n)
    (he : EndsSeparated (nth c.knots) p n) :
    c.knots.count (nth c.knots p) = p + 1 ∧ c.knots.count (nth c.knots (n + 1)) = p + 1 := by
  have hl := w.knots
  have hpn := w.pn
  have f1 : nth c.knots p < nth c.knots (p + 1) := by
    have := he.first
    have h2 : (0 : K) ≤ 1 / 1000000 * (1 + max |nth c.knots p| |nth c.knots (p + 1)|) := by positivity
    linarith
  have f2 : nth c.knots n < nth c.knots (n + 1) := by
    have := he.last
    have h2 : (0 : K) ≤ 1 / 1000000 * (1 + max |nth c.knots n| |nth c.knots (n + 1)|) := by positivity
    linarith
  constructor
  · refine le_antisymm ?_ ?_
    · refine (count_between (a := 0) (b := p + 1) (fun i hi => absurd hi (by omega)) ?_).trans (by omega)
      intro i h1 h2
      exact (lt_of_lt_of_le f1 (w.sorted _ _ h1 h2)).ne'
    · refine count_block (i := 0) (by omega) fun l hl' => ?_
      rw [Nat.zero_add]
      exact le_antisymm (w.sorted _ _ (by omega) (by omega)) (hc.first ▸ w.sorted _ _ (by omega) (by omega))
  · refine le_antisymm ?_ ?_
    · refine (count_between (a := n + 1) (b := n + p + 2) ?_ fun i h1 h2 => absurd h1 (by omega)).trans (by omega)
      intro i h1 h2
      exact (lt_of_le_of_lt (w.sorted _ _ (by omega) (by omega)) f2).ne
    · refine count_block (i := n + 1) (by omega) fun l hl' => ?_
      exact le_antisymm (hc.last ▸ w.sorted _ _ (by omega) (by omega)) (w.sorted _ _ (by omega) (by omega))

theorem wellSep_mono {l l' : List K} (h : WellSeparated l) (hs : ∀ x ∈ l', x ∈ l) : WellSeparated l' :=
  fun x hx y hy => h x (hs x hx) y (hs y hy)

/-- one of the two curves after `RefineKnotVector` with the missing knots -/
theorem ruledRefine_run {c : BsplineCurve K T} {p n : ℕ} {X : List K} (w : WellFormed c p n) (he : EndsSeparated (nth c.knots) p n)
    (hXs : X.Pairwise (· ≤ ·)) (hX : ∀ x ∈ X, nth c.knots p < x ∧ x < nth c.knots (n + 1)) (hsep : WellSeparated (c.knots ++ X)) :
    Runs (ruledRefine c X) (fun c' => WellFormed c' p (n + X.length) ∧ EndsSeparated (nth c'.knots) p (n + X.length) ∧
      c'.knots.Perm (c.knots ++ X) ∧ nth c'.knots p = nth c.knots p ∧ nth c'.knots (n + X.length + 1) = nth c.knots (n + 1) ∧
      ∀ t, nth c.knots p ≤ t → t ≤ nth c.knots (n + 1) →
        curvePoint (nth c'.knots) p (n + X.length) (nth c'.cps) t = curvePoint (nth c.knots) p n (nth c.cps) t) := by
  unfold ruledRefine
  by_cases hne : X = []
  · subst hne
    rw [if_neg (by simp)]
    exact Runs.ok ⟨w, he, by simp, rfl, rfl, fun _ _ _ => rfl⟩
  · rw [if_pos (List.length_pos_iff.mpr hne)]
    refine (refineKnotVector_run w he hne (fun m hm => (hX _ (mem_of_nth hm)).1) (fun m hm => (hX _ (mem_of_nth hm)).2) (sorted_nth hXs) hsep).mono ?_
    rintro c' ⟨h1, h2, h3, h4, h5, h6, _⟩
    exact ⟨h1, h2, h3, h4, h5, h6⟩

theorem wf_pairwise {c : BsplineCurve K T} {p n : ℕ} (w : WellFormed c p n) : c.knots.Pairwise (· ≤ ·) :=
  (isValidKnotVector_iff _).mp (isValidKnotVector_nth.mpr w.sorted)

theorem wf_mem_range {c : BsplineCurve K T} {p n : ℕ} (w : WellFormed c p n) (hc : ClampedEnds (nth c.knots) p n) {x : K} (hx : x ∈ c.knots) :
    nth c.knots p ≤ x ∧ x ≤ nth c.knots (n + 1) := by
  obtain ⟨i, hi, e⟩ := List.getElem_of_mem hx
  rw [← nth_eq_getElem hi] at e
  have hl := w.knots
  rw [← hc.first, hc.last, ← e]
  exact ⟨w.sorted _ _ (by omega) hi, w.sorted _ _ (by omega) (by omega)⟩

/-- the two curves of equal degree brought to a common knot vector -/
theorem ruled_merge {d0 d1 : BsplineCurve K T} {p n0 n1 : ℕ} (w0 : WellFormed d0 p n0) (w1 : WellFormed d1 p n1)
    (he0 : EndsSeparated (nth d0.knots) p n0) (he1 : EndsSeparated (nth d1.knots) p n1)
    (hc0 : ClampedEnds (nth d0.knots) p n0) (hc1 : ClampedEnds (nth d1.knots) p n1)
    (ha : nth d0.knots p = nth d1.knots p) (hb : nth d0.knots (n0 + 1) = nth d1.knots (n1 + 1)) (hsep : WellSeparated (d0.knots ++ d1.knots)) :
    Runs (if d0.knots = d1.knots then ok (d0, d1)
      else do
        let ins := getInsertedKnotElement2 d0.knots d1.knots [] []
        let e0 ← ruledRefine d0 ins.1
        let e1 ← ruledRefine d1 ins.2
        ok (e0, e1))
    (fun e => ∃ n, WellFormed e.1 p n ∧ WellFormed e.2 p n ∧ e.1.knots = e.2.knots ∧ EndsSeparated (nth e.1.knots) p n ∧
      nth e.1.knots p = nth d0.knots p ∧ nth e.1.knots (n + 1) = nth d0.knots (n0 + 1) ∧
      (∀ x, e.1.knots.count x = max (d0.knots.count x) (d1.knots.count x)) ∧
      ∀ t, nth d0.knots p ≤ t → t ≤ nth d0.knots (n0 + 1) →
        curvePoint (nth e.1.knots) p n (nth e.1.cps) t = curvePoint (nth d0.knots) p n0 (nth d0.cps) t ∧
        curvePoint (nth e.2.knots) p n (nth e.2.cps) t = curvePoint (nth d1.knots) p n1 (nth d1.cps) t) := by
  split
  · rename_i hk
    have hn : n0 = n1 := by have h := w0.knots; have := w1.knots; rw [hk] at h; omega
    subst hn
    exact Runs.ok ⟨n0, w0, w1, hk, he0, rfl, rfl, fun x => by rw [hk]; simp, fun t _ _ => ⟨rfl, rfl⟩⟩
  · obtain ⟨i0, i1, ei, s0, s1, hcount⟩ := C45_merge d0.knots d1.knots
    rw [ei]
    dsimp only
    have inside : ∀ x, (x ∈ i0 ∨ x ∈ i1) → nth d0.knots p < x ∧ x < nth d0.knots (n0 + 1) ∧ x ∈ d0.knots ++ d1.knots := by
      intro x hx
      obtain ⟨q0, q1⟩ := hcount x
      rw [List.count_append] at q0 q1
      have hpos : 0 < i0.count x ∨ 0 < i1.count x := by
        rcases hx with h | h
        · exact Or.inl (List.count_pos_iff.mpr h)
        · exact Or.inr (List.count_pos_iff.mpr h)
      have hne : d0.knots.count x ≠ d1.knots.count x := by omega
      have hm : x ∈ d0.knots ∨ x ∈ d1.knots := by
        by_contra hcon
        rw [not_or] at hcon
        rw [List.count_eq_zero.mpr hcon.1, List.count_eq_zero.mpr hcon.2] at hne
        exact hne rfl
      have hr : nth d0.knots p ≤ x ∧ x ≤ nth d0.knots (n0 + 1) := by
        rcases hm with h | h
        · exact wf_mem_range w0 hc0 h
        · rw [ha, hb]; exact wf_mem_range w1 hc1 h
      obtain ⟨k1, k2⟩ := count_ends w0 hc0 he0
      obtain ⟨k3, k4⟩ := count_ends w1 hc1 he1
      rw [← ha] at k3
      rw [← hb] at k4
      refine ⟨lt_of_le_of_ne hr.1 ?_, lt_of_le_of_ne hr.2 ?_, List.mem_append.mpr hm⟩
      · rintro rfl; exact hne (k1.trans k3.symm)
      · rintro rfl; exact hne (k2.trans k4.symm)
    refine (ruledRefine_run w0 he0 s0 (fun x hx => ⟨(inside x (Or.inl hx)).1, (inside x (Or.inl hx)).2.1⟩) (wellSep_mono hsep ?_)).bind ?_
    · intro x hx
      rcases List.mem_append.mp hx with h | h
      · exact List.mem_append_left _ h
      · exact (inside x (Or.inl h)).2.2
    rintro e0 ⟨g1, g2, g3, g4, g5, g6⟩
    refine (ruledRefine_run w1 he1 s1 (fun x hx => ⟨by rw [← ha]; exact (inside x (Or.inr hx)).1, by rw [← hb]; exact (inside x (Or.inr hx)).2.1⟩)
      (wellSep_mono hsep ?_)).bind ?_
    · intro x hx
      rcases List.mem_append.mp hx with h | h
      · exact List.mem_append_right _ h
      · exact (inside x (Or.inr h)).2.2
    rintro e1 ⟨f1, f2, f3, f4, f5, f6⟩
    have hperm : e0.knots.Perm e1.knots := by
      refine g3.trans (List.Perm.trans ?_ f3.symm)
      rw [List.perm_iff_count]
      intro x
      rw [(hcount x).1, (hcount x).2]
    have hkn : e0.knots = e1.knots := hperm.eq_of_pairwise (fun a b _ _ h h' => le_antisymm h h') (wf_pairwise g1) (wf_pairwise f1)
    have hn : n0 + i0.length = n1 + i1.length := by have := g1.knots; have := f1.knots; rw [hkn] at *; omega
    refine Runs.ok ⟨n0 + i0.length, g1, hn ▸ f1, hkn, g2, g4, g5, fun x => ?_, fun t t0 t1 => ⟨g6 t t0 t1, ?_⟩⟩
    · rw [g3.count_eq, (hcount x).1]
    · dsimp only
      rw [hn]
      exact f6 t (ha ▸ t0) (hb ▸ t1)

/-- one of the two curves after `ElevateDegree` -/
theorem ruledElevate_run {c : BsplineCurve K T} {p n P : ℕ} (w : WellFormed c p n) (he : EndsSeparated (nth c.knots) p n)
    (hc : ClampedEnds (nth c.knots) p n) (hs : WellSeparated c.knots) (hP : p ≤ P) (h7 : P ≤ 7)
    (hsim : p < P → ∀ s, p ≤ s → s ≤ n → nth c.knots s < nth c.knots (s + 1)) :
    Runs (ruledElevate c P) (fun d => ∃ n', WellFormed d P n' ∧ EndsSeparated (nth d.knots) P n' ∧ ClampedEnds (nth d.knots) P n' ∧
      (∀ x, x ∈ d.knots ↔ x ∈ c.knots) ∧ nth d.knots P = nth c.knots p ∧ nth d.knots (n' + 1) = nth c.knots (n + 1) ∧
      (∀ x ∈ c.knots, d.knots.count x = c.knots.count x + (P - p)) ∧
      ∀ t, nth c.knots p ≤ t → t ≤ nth c.knots (n + 1) →
        curvePoint (nth d.knots) P n' (nth d.cps) t = curvePoint (nth c.knots) p n (nth c.cps) t) := by
  rcases hP.lt_or_eq with h | rfl
  · obtain ⟨t, rfl⟩ : ∃ t, P = p + t := ⟨P - p, by omega⟩
    have hmul : ∀ x, nth c.knots p < x → x < nth c.knots (n + 1) → c.knots.count x ≤ p := by
      intro x x0 x1
      by_cases hx : x ∈ c.knots
      · obtain ⟨s, hs', e⟩ := List.getElem_of_mem hx
        rw [← nth_eq_getElem hs'] at e
        have hl := w.knots
        have hpn := w.pn
        have g0 : p < s := by
          by_contra hcon
          have := w.sorted s p (by omega) (by omega)
          rw [e] at this
          exact absurd x0 (not_lt.mpr this)
        have g1 : s < n + 1 := by
          by_contra hcon
          have := w.sorted (n + 1) s (by omega) (by omega)
          rw [e] at this
          exact absurd x1 (not_lt.mpr this)
        refine (count_between (a := s) (b := s + 1) ?_ ?_).trans (by have := w.pos; omega)
        · intro i hi _
          have h1 := hsim h (s - 1) (by omega) (by omega)
          rw [show s - 1 + 1 = s by omega, e] at h1
          exact (lt_of_le_of_lt (w.sorted i (s - 1) (by omega) (by omega)) h1).ne
        · intro i hi hi'
          have h1 := hsim h s (by omega) (by omega)
          rw [e] at h1
          exact (lt_of_lt_of_le h1 (w.sorted _ _ hi hi')).ne'
      · rw [List.count_eq_zero.mpr hx]; omega
    obtain ⟨c', r, hE, hW⟩ := C42_elevate_partial w he hc hs (hsim h) hmul (t := t) (by omega)
    obtain ⟨hw, -⟩ := hW h7
    unfold ruledElevate
    rw [if_pos (by rw [w.degree]; omega), show ((p + t : ℕ) : ℤ) - c.degree = (t : ℤ) by rw [w.degree]; push_cast; ring, r, ok_bind, ← hE.degree]
    refine Runs.ok ⟨_, hw, hE.ends, hE.clamped, fun x => ?_, hE.start, hE.stop, fun x hx => ?_, hE.points⟩
    · have := hE.mult x
      dsimp only
      rw [← List.count_pos_iff, this]
      split <;> rename_i hx <;> simp [hx]
    · dsimp only
      rw [hE.mult x, if_pos hx]
      omega
  · rw [ruledElevate_self w.degree]
    exact Runs.ok ⟨n, w, he, hc, fun _ => Iff.rfl, rfl, rfl, fun x _ => by omega, fun _ _ _ => rfl⟩

/-- C85: `CreateRuledSurface` of two clamped curves on the same interval, of any two degrees and with any two knot vectors.  Missing from
the full statement: when the degrees differ, the curve of lower degree has simple interior knots (see `C85_repeated_violated`). -/
theorem C85_ruled_partial {c0 c1 : BsplineCurve K T} {p0 p1 n0 n1 : ℕ} (w0 : WellFormed c0 p0 n0) (w1 : WellFormed c1 p1 n1)
    (he0 : EndsSeparated (nth c0.knots) p0 n0) (he1 : EndsSeparated (nth c1.knots) p1 n1)
    (hc0 : ClampedEnds (nth c0.knots) p0 n0) (hc1 : ClampedEnds (nth c1.knots) p1 n1)
    (ha : nth c0.knots p0 = nth c1.knots p1) (hb : nth c0.knots (n0 + 1) = nth c1.knots (n1 + 1)) (hsep : WellSeparated (c0.knots ++ c1.knots))
    (hsim0 : p0 < p1 → ∀ s, p0 ≤ s → s ≤ n0 → nth c0.knots s < nth c0.knots (s + 1))
    (hsim1 : p1 < p0 → ∀ s, p1 ≤ s → s ≤ n1 → nth c1.knots s < nth c1.knots (s + 1)) :
    ∃ S n, createRuledSurface c0 c1 = ok S ∧ WellFormedS S (max p0 p1) 1 n 1 ∧ S.knotsV = [0, 0, 1, 1] ∧
      nth S.knotsU (max p0 p1) = nth c0.knots p0 ∧ nth S.knotsU (n + 1) = nth c0.knots (n0 + 1) ∧
      ∀ u v : K, nth c0.knots p0 ≤ u → u ≤ nth c0.knots (n0 + 1) → 0 ≤ v → v ≤ 1 →
        S.pointOnSurface u v = ok ((1 - v) • curvePoint (nth c0.knots) p0 n0 (nth c0.cps) u + v • curvePoint (nth c1.knots) p1 n1 (nth c1.cps) u) := by
  have hl0 := w0.knots
  have hl1 := w1.knots
  have hP7 : max p0 p1 ≤ 7 := max_le w0.le7 w1.le7
  have hend : nth c0.knots (n0 + p0 + 1) = nth c1.knots (n1 + p1 + 1) := by rw [← hc0.last, ← hc1.last]; exact hb
  have hstart : nth c0.knots 0 = nth c1.knots 0 := by rw [hc0.first, hc1.first]; exact ha
  obtain ⟨d0, r0, m0, v0, ed0, cd0, mem0, a0, b0, -, pt0⟩ := ruledElevate_run w0 he0 hc0 (wellSep_mono hsep fun x hx => List.mem_append_left _ hx)
    (le_max_left p0 p1) hP7 (fun h => hsim0 (by omega))
  obtain ⟨d1, r1, m1, v1, ed1, cd1, mem1, a1, b1, -, pt1⟩ := ruledElevate_run w1 he1 hc1 (wellSep_mono hsep fun x hx => List.mem_append_right _ hx)
    (le_max_right p0 p1) hP7 (fun h => hsim1 (by omega))
  have hsep' : WellSeparated (d0.knots ++ d1.knots) := by
    refine wellSep_mono hsep fun x hx => ?_
    rw [List.mem_append, mem0, mem1] at hx
    exact List.mem_append.mpr hx
  obtain ⟨⟨e0, e1⟩, r2, n, g0, g1, gk, ge, gs, gt, -, gp⟩ := ruled_merge v0 v1 ed0 ed1 cd0 cd1 (by rw [a0, a1, ha]) (by rw [b0, b1, hb]) hsep'
  obtain ⟨cps, r3, wS, hS⟩ := ruled_assemble g0 g1 gk ge
  dsimp only at gs gt gp
  refine ⟨⟨(max p0 p1 : ℕ), 1, e0.knots, [0, 0, 1, 1], cps⟩, n, ?_, wS, rfl, gs.trans a0, gt.trans b0, ?_⟩
  · unfold createRuledSurface
    rw [vget_nth (i := 0) (k := 0) rfl (by omega), ok_bind, vget_nth (i := 0) (k := 0) rfl (by omega), ok_bind, hstart, isAlmostEqualTo_self doubleEps_pos,
      if_pos rfl, vget_nth (k := n0 + p0 + 1) (by omega) (by omega), ok_bind, vget_nth (k := n1 + p1 + 1) (by omega) (by omega), ok_bind, hend,
      isAlmostEqualTo_self doubleEps_pos, ok_bind, validate_true, ok_bind]
    rw [show max c0.degree c1.degree = ((max p0 p1 : ℕ) : ℤ) by rw [w0.degree, w1.degree]; push_cast; rfl]
    dsimp only
    rw [r0, ok_bind, r1, ok_bind, r2, ok_bind]
    dsimp only
    rw [r3, ok_bind]
  · intro u v u0 u1 h0 h1
    rw [hS u v (by rw [gs, a0]; exact u0) (by rw [gt, b0]; exact u1) h0 h1]
    obtain ⟨q0, q1⟩ := gp u (by rw [a0]; exact u0) (by rw [b0]; exact u1)
    rw [q0, q1, pt0 u u0 u1, pt1 u (ha ▸ u0) (hb ▸ u1)]

/-- C85: curves on different parameter intervals are rejected. -/
theorem C85_interval_rejected {c0 c1 : BsplineCurve K T} (h0 : c0.knots ≠ []) (h1 : c1.knots ≠ [])
    (h : isAlmostEqualTo (nth c0.knots 0) (nth c1.knots 0) = false ∨
      isAlmostEqualTo (nth c0.knots (c0.knots.length - 1)) (nth c1.knots (c1.knots.length - 1)) = false) :
    createRuledSurface c0 c1 = invalidArg := by
  have l0 := List.length_pos_iff.mpr h0
  have l1 := List.length_pos_iff.mpr h1
  unfold createRuledSurface
  rw [vget_nth (i := 0) (k := 0) rfl (by omega), ok_bind, vget_nth (i := 0) (k := 0) rfl (by omega), ok_bind]
  by_cases g : isAlmostEqualTo (nth c0.knots 0) (nth c1.knots 0) = true
  · rcases h with h | h
    · rw [g] at h; cases h
    · rw [if_pos g, vget_nth (k := c0.knots.length - 1) (by omega) (by omega), ok_bind, vget_nth (k := c1.knots.length - 1) (by omega) (by omega), ok_bind, h]
      rfl
  · rw [if_neg g]; rfl

end

/-- a quadratic curve with simple interior knots -/
def exRuled0 : BsplineCurve ℚ ℚ := ⟨2, [0, 0, 0, 1 / 2, 3 / 2, 2, 2, 2], [1, 2, 0, 5, 3]⟩

/-- a cubic curve on the same interval -/
def exRuled1 : BsplineCurve ℚ ℚ := ⟨3, [0, 0, 0, 0, 1, 2, 2, 2, 2], [1, -1, 2, 4, 7]⟩

/-- a cubic curve with the knot vector of `exRuled1` -/
def exRuled2 : BsplineCurve ℚ ℚ := ⟨3, [0, 0, 0, 0, 1, 2, 2, 2, 2], [0, 3, 1, 1, -2]⟩

theorem exRuled0_wf : WellFormed exRuled0 2 4 := wellFormed_of_check rfl (by decide) rfl rfl (by decide +kernel)
theorem exRuled1_wf : WellFormed exRuled1 3 4 := wellFormed_of_check rfl (by decide) rfl rfl (by decide +kernel)
theorem exRuled2_wf : WellFormed exRuled2 3 4 := wellFormed_of_check rfl (by decide) rfl rfl (by decide +kernel)

/-- C38 is not vacuous -/
example : WellFormed exRuled1 3 4 ∧ WellFormed exRuled2 3 4 ∧ exRuled1.knots = exRuled2.knots ∧ EndsSeparated (nth exRuled1.knots) 3 4 ∧
    (createRuledSurface exRuled1 exRuled2).bind (fun s => s.pointOnSurface (1 / 2) 1) = exRuled2.pointOnCurve (1 / 2) :=
  ⟨exRuled1_wf, exRuled2_wf, rfl, ⟨by decide +kernel, by decide +kernel⟩, by decide +kernel⟩

/-- C85 is not vacuous -/
example : WellFormed exRuled0 2 4 ∧ WellFormed exRuled1 3 4 ∧ EndsSeparated (nth exRuled0.knots) 2 4 ∧ EndsSeparated (nth exRuled1.knots) 3 4 ∧
    ClampedEnds (nth exRuled0.knots) 2 4 ∧ ClampedEnds (nth exRuled1.knots) 3 4 ∧ nth exRuled0.knots 2 = nth exRuled1.knots 3 ∧
    nth exRuled0.knots 5 = nth exRuled1.knots 5 ∧ WellSeparated (exRuled0.knots ++ exRuled1.knots) ∧
    (∀ s, 2 ≤ s → s ≤ 4 → nth exRuled0.knots s < nth exRuled0.knots (s + 1)) ∧
    (createRuledSurface exRuled0 exRuled1).bind (fun s => s.pointOnSurface (1 / 2) 0) = exRuled0.pointOnCurve (1 / 2) := by
  refine ⟨exRuled0_wf, exRuled1_wf, ⟨by decide +kernel, by decide +kernel⟩, ⟨by decide +kernel, by decide +kernel⟩, ⟨by decide +kernel, by decide +kernel⟩,
    ⟨by decide +kernel, by decide +kernel⟩, by decide +kernel, by decide +kernel, by unfold WellSeparated; decide +kernel, ?_, by decide +kernel⟩
  intro s h1 h2
  interval_cases s <;> decide +kernel

/-- C85 (violated): a quadratic curve with a double interior knot and a cubic curve on the same interval.  Both are valid; the ruled surface made of
them has a knot vector that is not sorted, and evaluating it inside the domain throws `std::out_of_range`. -/
theorem C85_repeated_violated : ∃ (c0 c1 : BsplineCurve ℚ ℚ) (S : BsplineSurface ℚ ℚ), WellFormed c0 2 4 ∧ WellFormed c1 3 3 ∧
    ClampedEnds (nth c0.knots) 2 4 ∧ ClampedEnds (nth c1.knots) 3 3 ∧ nth c0.knots 2 = nth c1.knots 3 ∧ nth c0.knots 5 = nth c1.knots 4 ∧
    createRuledSurface c0 c1 = ok S ∧ isValidKnotVector S.knotsU = false ∧ c0.pointOnCurve (1 / 2) = ok (5 / 4) ∧ S.pointOnSurface (1 / 2) 0 = outOfRange :=
  ⟨⟨2, [0, 0, 0, 1, 1, 2, 2, 2], [1, 2, 0, 5, 3]⟩, ⟨3, [0, 0, 0, 0, 2, 2, 2, 2], [1, -1, 2, 4]⟩,
    ⟨3, 1, [0, 0, 0, 0, 1, 1, 1, 2, 2, 2, 2, 0], [0, 0, 1, 1], [[1, 1], [5 / 3, 1], [4 / 3, 0], [0, 1 / 4], [10 / 3, 1], [13 / 3, 7 / 4], [3, 3], [0, 4]]⟩,
    wellFormed_of_check rfl (by decide) rfl rfl (by decide +kernel), wellFormed_of_check rfl (by decide) rfl rfl (by decide +kernel),
    ⟨by decide +kernel, by decide +kernel⟩, ⟨by decide +kernel, by decide +kernel⟩, by decide +kernel, by decide +kernel, by decide +kernel,
    by decide +kernel, by decide +kernel, by decide +kernel⟩

/-- C85: two curves on different intervals -/
example : createRuledSurface exRuled0 (⟨1, [0, 0, 1, 1], [0, 1]⟩ : BsplineCurve ℚ ℚ) = invalidArg :=
  C85_interval_rejected (by decide) (by decide) (Or.inr (by decide +kernel))

end LNLib.Props
