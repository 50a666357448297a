import Verif.Model.VolumeQuery
import Verif.Props.Closed
import Verif.Props.Volume
import Verif.Props.VolumeDers
import Verif.Props.SurfaceNearest

/-!
# C151, C152: the queries of volumes
-/
set_option linter.unusedSectionVars false

namespace LNLib.Props
open LNLib Res LNLib.Spec Finset

/-! ### Volume points along one direction -/

theorem volumePoint_u {T : Type} [AddCommGroup T] [Module ℝ T] {U V W : ℕ → ℝ} {p q r n m l : ℕ} {P : ℕ → ℕ → ℕ → T} {u v w : ℝ} :
    volumePoint U V W p q r n m l P u v w = curvePoint U p n (fun i => surfacePoint V W q r m l (P i) v w) u := by
  unfold volumePoint curvePoint surfacePoint
  refine sum_congr rfl fun i _ => ?_
  rw [smul_sum]
  refine sum_congr rfl fun j _ => ?_
  rw [smul_sum]
  refine sum_congr rfl fun k _ => ?_
  rw [smul_smul, mul_assoc]

theorem volumePoint_v {T : Type} [AddCommGroup T] [Module ℝ T] {U V W : ℕ → ℝ} {p q r n m l : ℕ} {P : ℕ → ℕ → ℕ → T} {u v w : ℝ} :
    volumePoint U V W p q r n m l P u v w = curvePoint V q m (fun j => surfacePoint U W p r n l (fun i k => P i j k) u w) v := by
  unfold volumePoint curvePoint surfacePoint
  rw [sum_comm]
  refine sum_congr rfl fun j _ => ?_
  rw [smul_sum]
  refine sum_congr rfl fun i _ => ?_
  rw [smul_sum]
  refine sum_congr rfl fun k _ => ?_
  rw [smul_smul]
  congr 1
  ring

theorem volumePoint_w' {T : Type} [AddCommGroup T] [Module ℝ T] {U V W : ℕ → ℝ} {p q r n m l : ℕ} {P : ℕ → ℕ → ℕ → T} {u v w : ℝ} :
    volumePoint U V W p q r n m l P u v w = curvePoint W r l (fun k => surfacePoint U V p q n m (fun i j => P i j k) u v) w := by
  unfold volumePoint curvePoint surfacePoint
  have : ∀ i ∈ range (n + 1), ∑ j ∈ range (m + 1), ∑ k ∈ range (l + 1), (N U (U (n + 1)) p i u * N V (V (m + 1)) q j v * N W (W (l + 1)) r k w) • P i j k =
      ∑ k ∈ range (l + 1), ∑ j ∈ range (m + 1), (N U (U (n + 1)) p i u * N V (V (m + 1)) q j v * N W (W (l + 1)) r k w) • P i j k := fun i _ => sum_comm
  rw [sum_congr rfl this, sum_comm]
  refine sum_congr rfl fun k _ => ?_
  rw [smul_sum]
  refine sum_congr rfl fun i _ => ?_
  rw [smul_sum]
  refine sum_congr rfl fun j _ => ?_
  rw [smul_smul]
  congr 1
  ring

theorem surfacePoint_congr' {T : Type} [AddCommGroup T] [Module ℝ T] {U V : ℕ → ℝ} {p q n m : ℕ} {P Q : ℕ → ℕ → T} {u v : ℝ} (h : ∀ i j, i ≤ n → j ≤ m → P i j = Q i j) :
    surfacePoint U V p q n m P u v = surfacePoint U V p q n m Q u v := by
  rw [surfacePoint_eq, surfacePoint_eq]
  exact curvePoint_congr fun i hi => curvePoint_congr fun j hj => h i j hi hj

theorem near_surface {U V : ℕ → ℝ} {p q n m s s' : ℕ} {u v B : ℝ} {P Q : ℕ → ℕ → XYZ ℝ} (hU : MonoTo U (n + p + 1)) (hV : MonoTo V (m + q + 1)) (hs : IsSpan U p n u s) (hs' : IsSpan V q m v s')
    (h : ∀ i j, i ≤ n → j ≤ m → Within B (P i j) (Q i j)) : Within B (surfacePoint U V p q n m P u v) (surfacePoint U V p q n m Q u v) := by
  rw [surfacePoint_eq, surfacePoint_eq]
  exact near_curve hU hs fun i hi => near_curve hV hs' fun j hj => h i j hi hj

theorem goodDir_mono {d : ℤ} {U : List ℝ} {p n : ℕ} (g : GoodDir d U p n) : MonoTo (nth U) (n + p + 1) := fun i j hij hj => g.sorted i j hij (by rw [g.knots]; omega)

/-- evaluation of a volume whose weights are all one -/
theorem evalV_one {c : NurbsVolume ℝ} {p q r n m l : ℕ} {u v t : ℝ} (w : WellFormedV c p q r n m l) (he : EndsSeparatedV c p q r n m l) (d : InDomainV c p q r n m l u v t)
    (hone : ∀ i j k, i ≤ n → j ≤ m → k ≤ l → (ent3 c.cps i j k).w = 1) :
    NurbsVolume.pointOnVolume c u v t = ok (volumePoint (nth c.knotsU) (nth c.knotsV) (nth c.knotsW) p q r n m l (fun i j k => (ent3 c.cps i j k).raw) u v t) := by
  obtain ⟨s, -, hs⟩ := getKnotSpanIndex_isSpan w.u.knots w.u.pn w.u.sorted he.u d.u0 d.u1
  obtain ⟨s2, -, hs2⟩ := getKnotSpanIndex_isSpan w.v.knots w.v.pn w.v.sorted he.v d.v0 d.v1
  obtain ⟨s3, -, hs3⟩ := getKnotSpanIndex_isSpan w.w.knots w.w.pn w.w.sorted he.w d.w0 d.w1
  obtain ⟨-, su⟩ := basis_convex (goodDir_mono w.u) hs
  obtain ⟨-, sv⟩ := basis_convex (goodDir_mono w.v) hs2
  obtain ⟨-, sw⟩ := basis_convex (goodDir_mono w.w) hs3
  have hw1 : volumeWeight (nth c.knotsU) (nth c.knotsV) (nth c.knotsW) p q r n m l (ent3 c.cps) u v t = 1 := by
    have hsum : ∑ i ∈ range (n + 1), ∑ j ∈ range (m + 1), ∑ k ∈ range (l + 1), N (nth c.knotsU) (nth c.knotsU (n + 1)) p i u * N (nth c.knotsV) (nth c.knotsV (m + 1)) q j v *
        N (nth c.knotsW) (nth c.knotsW (l + 1)) r k t = 1 := by
      simp only [← mul_sum, sw, mul_one, sv, su]
    rw [← hsum]
    unfold volumeWeight
    refine sum_congr rfl fun i hi => sum_congr rfl fun j hj => sum_congr rfl fun k hk => ?_
    rw [mem_range] at hi hj hk
    rw [hone i j k (by omega) (by omega) (by omega), mul_one]
  rw [C50_eval_rational w he d (by rw [hw1]; norm_num)]
  congr 1
  unfold rationalVolumePoint volumePoint
  rw [hw1, inv_one, one_smul]
  rfl

/-! ### The loops -/

/-- the curve of one direction -/
noncomputable def fibreCurve (degree : ℤ) (U : List ℝ) (n : ℕ) (P : ℕ → XYZW ℝ) : NurbsCurve ℝ := { degree := degree, knots := U, cps := (List.range (n + 1)).map P }

theorem fibreCurve_wf {degree : ℤ} {U : List ℝ} {p n : ℕ} {P : ℕ → XYZW ℝ} (g : GoodDir degree U p n) : WellFormed (fibreCurve degree U n P) p n :=
  { degree := g.degree, pos := g.pos, le7 := g.le7, cps := by simp [fibreCurve], pn := g.pn, knots := g.knots, sorted := g.sorted }

theorem closedFibres_run {degree : ℤ} {U : List ℝ} {p n A B : ℕ} {outer inner len : ℤ} {read : ℤ → ℤ → ℤ → Res (XYZW ℝ)} {F : ℕ → ℕ → ℕ → XYZW ℝ} (ho : outer = A) (hi : inner = B) (hl : len = ((n + 1 : ℕ) : ℤ))
    (g : GoodDir degree U p n) (he : EndsSeparated (nth U) p n) (hc : ClampedEnds (nth U) p n) (hr : ∀ a b i : ℕ, a < A → b < B → i ≤ n → read a b i = ok (F a b i)) :
    ∃ r, closedFibres outer inner len degree U read = ok r ∧ (r = true ↔ ∀ a b, a < A → b < B → isClosedCurve (fibreCurve degree U n (F a b)) = ok true) := by
  subst ho hi hl
  have run := fun a b => isClosed_run (fibreCurve_wf (P := F a b) g) he hc
  choose r1 r2 bl hb1 hb2 using run
  unfold closedFibres
  have inner : ∀ a, a < A → ∃ r, (forI 0 (B : ℤ) true fun b st =>
        if st then do
          let cps ← forI 0 ((n + 1 : ℕ) : ℤ) [] fun i l => do
            let x ← read (a : ℤ) b i
            ok (l ++ [x])
          isClosedCurve { degree := degree, knots := U, cps := cps }
        else ok false) = ok r ∧ (r = true ↔ ∀ b, b < B → bl a b = true) := by
    intro a ha
    refine all_run (n := B) (b := bl a) (f := fun b => do
          let cps ← forI 0 ((n + 1 : ℕ) : ℤ) [] fun i l => do
            let x ← read (a : ℤ) b i
            ok (l ++ [x])
          isClosedCurve { degree := degree, knots := U, cps := cps }) ?_
    intro b hb
    rw [collect_run (rd := fun i => read (a : ℤ) (b : ℤ) i) (f := F a b) (fun i hi => hr a b i ha hb (by omega)), ok_bind]
    exact hb1 a b
  choose! ri hri1 hri2 using inner
  obtain ⟨r, e, h⟩ := all_run (n := A) (b := ri) (f := fun a => forI 0 (B : ℤ) true fun b st =>
        if st then do
          let cps ← forI 0 ((n + 1 : ℕ) : ℤ) [] fun i l => do
            let x ← read a b i
            ok (l ++ [x])
          isClosedCurve { degree := degree, knots := U, cps := cps }
        else ok false) hri1
  refine ⟨r, e, h.trans ?_⟩
  constructor
  · intro h a b ha hb
    rw [hb1, (hri2 a ha).mp (h a ha) b hb]
  · intro h a ha
    rw [hri2 a ha]
    intro b hb
    have := h a b ha hb
    rw [hb1] at this
    exact Res.ok.inj this

/-- what the answer for one curve says about its end points -/
theorem fibre_ends {degree : ℤ} {U : List ℝ} {p n : ℕ} {P : ℕ → XYZW ℝ} (g : GoodDir degree U p n) (he : EndsSeparated (nth U) p n) (hc : ClampedEnds (nth U) p n) :
    (P 0 = P n → isClosedCurve (fibreCurve degree U n P) = ok true) ∧
    (∀ M, (∀ i, i ≤ n → (P i).w = 1 ∧ Bounded M (P i).raw) → (∀ i, 0 < i → i < n → ¬ Near (P n).raw (P i).raw) → isClosedCurve (fibreCurve degree U n P) = ok true →
      Within (2 / 1000000 * (1 + M)) (P 0).raw (P n).raw) := by
  obtain ⟨-, -, b, e, hb⟩ := isClosed_run (fibreCurve_wf (P := P) g) he hc
  have c0 : ∀ i, i ≤ n → nth (fibreCurve degree U n P).cps i = P i := fun i hi => nth_range hi
  constructor
  · intro h
    rw [e]
    congr 1
    rw [hb, c0 0 (by omega), c0 n (le_refl _), h]
    left
    unfold XYZ.distance
    simp
  · intro M hM hin hcl
    have tox : ∀ i, i ≤ n → (P i).toXYZ = (P i).raw := by
      intro i hi
      have := (hM i hi).1
      obtain ⟨x, hx⟩ : ∃ x, P i = x := ⟨_, rfl⟩
      rw [hx] at this ⊢
      obtain ⟨x1, x2, x3, x4⟩ := x
      simp only at this
      subst this
      exact toXYZ_one _ _ _
    refine within_of_near (hM 0 (by omega)).2 (hM n (le_refl _)).2 ?_
    rw [e] at hcl
    rcases hb.mp (Res.ok.inj hcl) with h | ⟨k, hk, -, h⟩
    · rw [c0 0 (by omega), c0 n (le_refl _), tox 0 (by omega), tox n (le_refl _)] at h
      exact Or.inl h
    · right
      have := h k (le_refl _)
      rw [Nat.sub_add_cancel hk.le, c0 n (le_refl _), c0 k hk.le, tox n (le_refl _), tox k hk.le] at this
      by_cases hk0 : k = 0
      · rwa [hk0] at this
      · exact absurd this (hin k (by omega) hk)

/-- the sizes that the routine reads -/
theorem isClosedVolume_start {c : NurbsVolume ℝ} {p q r n m l : ℕ} (w : WellFormedV c p q r n m l) (d : VolumeDirection) :
    isClosedVolume c d = match d with
      | .u => closedFibres ((m + 1 : ℕ) : ℤ) ((l + 1 : ℕ) : ℤ) ((n + 1 : ℕ) : ℤ) c.degreeU c.knotsU fun v w u => cget c.cps u v w
      | .v => closedFibres ((n + 1 : ℕ) : ℤ) ((l + 1 : ℕ) : ℤ) ((m + 1 : ℕ) : ℤ) c.degreeV c.knotsV fun u w v => cget c.cps u v w
      | .w => closedFibres ((n + 1 : ℕ) : ℤ) ((m + 1 : ℕ) : ℤ) ((l + 1 : ℕ) : ℤ) c.degreeW c.knotsW fun u v w => cget c.cps u v w := by
  have hC := w.cps
  unfold isClosedVolume
  dsimp only
  rw [hC.1, if_neg (by omega), vget_row (i := 0) (k := 0) rfl (by rw [hC.1]; omega), ok_bind, (hC.2 0 (by omega)).1, if_neg (by omega),
    vget_row (i := 0) (k := 0) rfl (by rw [(hC.2 0 (by omega)).1]; omega), ok_bind, (hC.2 0 (by omega)).2 0 (by omega)]
  cases d <;> rfl

/-- C151 for the first direction: a valid volume, clamped in that direction, whose first and last layers of control points agree is reported closed, and its two boundary faces do agree.  For a non-rational volume
(all weights one) whose coordinates are at most `M` and which has no inner control point at the position of the last one of its curve, the answer `true` means that the two faces agree up to `2e-6 (1 + M)`.
`C151_overlap_violated` refutes the property without that assumption; rational volumes are missing, as for surfaces (`C95_weights_violated`). -/
theorem C151_closed_u_partial {c : NurbsVolume ℝ} {p q r n m l : ℕ} (w : WellFormedV c p q r n m l) (he : EndsSeparatedV c p q r n m l) (hc : ClampedEnds (nth c.knotsU) p n) :
    ∃ b, isClosedVolume c .u = ok b ∧
      ((∀ j k, j ≤ m → k ≤ l → ent3 c.cps 0 j k = ent3 c.cps n j k) → b = true ∧ ∀ y z, InDomainV c p q r n m l (nth c.knotsU p) y z →
        NurbsVolume.pointOnVolume c (nth c.knotsU p) y z = NurbsVolume.pointOnVolume c (nth c.knotsU (n + 1)) y z) ∧
      (∀ M, (∀ i j k, i ≤ n → j ≤ m → k ≤ l → (ent3 c.cps i j k).w = 1 ∧ Bounded M (ent3 c.cps i j k).raw) →
        (∀ i j k, 0 < i → i < n → j ≤ m → k ≤ l → ¬ Near (ent3 c.cps n j k).raw (ent3 c.cps i j k).raw) → b = true → ∀ y z, InDomainV c p q r n m l (nth c.knotsU p) y z →
        ∃ P Q, NurbsVolume.pointOnVolume c (nth c.knotsU p) y z = ok P ∧ NurbsVolume.pointOnVolume c (nth c.knotsU (n + 1)) y z = ok Q ∧ Within (2 / 1000000 * (1 + M)) P Q) := by
  obtain ⟨b, e, hb⟩ := closedFibres_run (A := m + 1) (B := l + 1) (F := fun j k i => ent3 c.cps i j k) (read := fun v w u => cget c.cps u v w) rfl rfl rfl w.u he.u hc
    (fun j k i hj hk hi => cget_ent3 w.cps rfl rfl rfl (by omega) hj hk)
  have en := fun j k => fibre_ends (P := fun i => ent3 c.cps i j k) w.u he.u hc
  have dom : nth c.knotsU p ≤ nth c.knotsU (n + 1) := goodDir_mono w.u p (n + 1) (by have := w.u.pn; omega) (by have := w.u.pos; omega)
  have ends := fun P : ℕ → XYZW ℝ => ends_eq (P := P) w.u.pn (goodDir_mono w.u) he.u hc
  have endsX := fun P : ℕ → XYZ ℝ => ends_eq (P := P) w.u.pn (goodDir_mono w.u) he.u hc
  refine ⟨b, by rw [isClosedVolume_start w]; exact e, ?_, ?_⟩
  · intro hrow
    constructor
    · rw [hb]
      exact fun j k hj hk => (en j k).1 (hrow j k (by omega) (by omega))
    · intro y z d
      have d' : InDomainV c p q r n m l (nth c.knotsU (n + 1)) y z := ⟨dom, le_refl _, d.v0, d.v1, d.w0, d.w1⟩
      unfold NurbsVolume.pointOnVolume
      rw [C50_eval w he d, C50_eval w he d', volumePoint_u, volumePoint_u, (ends _).1, (ends _).2, surfacePoint_congr' hrow]
  · intro M hM hin hbt y z d
    have d' : InDomainV c p q r n m l (nth c.knotsU (n + 1)) y z := ⟨dom, le_refl _, d.v0, d.v1, d.w0, d.w1⟩
    refine ⟨_, _, evalV_one w he d (fun i j k hi hj hk => (hM i j k hi hj hk).1), evalV_one w he d' (fun i j k hi hj hk => (hM i j k hi hj hk).1), ?_⟩
    rw [volumePoint_u, volumePoint_u, (endsX _).1, (endsX _).2]
    obtain ⟨s, -, hs⟩ := getKnotSpanIndex_isSpan w.v.knots w.v.pn w.v.sorted he.v d.v0 d.v1
    obtain ⟨s2, -, hs2⟩ := getKnotSpanIndex_isSpan w.w.knots w.w.pn w.w.sorted he.w d.w0 d.w1
    exact near_surface (goodDir_mono w.v) (goodDir_mono w.w) hs hs2 fun j k hj hk =>
      (en j k).2 M (fun i hi => hM i j k hi hj hk) (fun i h0 h1 => hin i j k h0 h1 hj hk) (hb.mp hbt j k (by omega) (by omega))

/-- C151 for the second direction -/
theorem C151_closed_v_partial {c : NurbsVolume ℝ} {p q r n m l : ℕ} (w : WellFormedV c p q r n m l) (he : EndsSeparatedV c p q r n m l) (hc : ClampedEnds (nth c.knotsV) q m) :
    ∃ b, isClosedVolume c .v = ok b ∧
      ((∀ i k, i ≤ n → k ≤ l → ent3 c.cps i 0 k = ent3 c.cps i m k) → b = true ∧ ∀ x z, InDomainV c p q r n m l x (nth c.knotsV q) z →
        NurbsVolume.pointOnVolume c x (nth c.knotsV q) z = NurbsVolume.pointOnVolume c x (nth c.knotsV (m + 1)) z) ∧
      (∀ M, (∀ i j k, i ≤ n → j ≤ m → k ≤ l → (ent3 c.cps i j k).w = 1 ∧ Bounded M (ent3 c.cps i j k).raw) →
        (∀ i j k, i ≤ n → 0 < j → j < m → k ≤ l → ¬ Near (ent3 c.cps i m k).raw (ent3 c.cps i j k).raw) → b = true → ∀ x z, InDomainV c p q r n m l x (nth c.knotsV q) z →
        ∃ P Q, NurbsVolume.pointOnVolume c x (nth c.knotsV q) z = ok P ∧ NurbsVolume.pointOnVolume c x (nth c.knotsV (m + 1)) z = ok Q ∧ Within (2 / 1000000 * (1 + M)) P Q) := by
  obtain ⟨b, e, hb⟩ := closedFibres_run (A := n + 1) (B := l + 1) (F := fun i k j => ent3 c.cps i j k) (read := fun u w v => cget c.cps u v w) rfl rfl rfl w.v he.v hc
    (fun i k j hi hk hj => cget_ent3 w.cps rfl rfl rfl hi (by omega) hk)
  have en := fun i k => fibre_ends (P := fun j => ent3 c.cps i j k) w.v he.v hc
  have dom : nth c.knotsV q ≤ nth c.knotsV (m + 1) := goodDir_mono w.v q (m + 1) (by have := w.v.pn; omega) (by have := w.v.pos; omega)
  have ends := fun P : ℕ → XYZW ℝ => ends_eq (P := P) w.v.pn (goodDir_mono w.v) he.v hc
  have endsX := fun P : ℕ → XYZ ℝ => ends_eq (P := P) w.v.pn (goodDir_mono w.v) he.v hc
  refine ⟨b, by rw [isClosedVolume_start w]; exact e, ?_, ?_⟩
  · intro hrow
    constructor
    · rw [hb]
      exact fun i k hi hk => (en i k).1 (hrow i k (by omega) (by omega))
    · intro x z d
      have d' : InDomainV c p q r n m l x (nth c.knotsV (m + 1)) z := ⟨d.u0, d.u1, dom, le_refl _, d.w0, d.w1⟩
      unfold NurbsVolume.pointOnVolume
      rw [C50_eval w he d, C50_eval w he d', volumePoint_v, volumePoint_v, (ends _).1, (ends _).2, surfacePoint_congr' hrow]
  · intro M hM hin hbt x z d
    have d' : InDomainV c p q r n m l x (nth c.knotsV (m + 1)) z := ⟨d.u0, d.u1, dom, le_refl _, d.w0, d.w1⟩
    refine ⟨_, _, evalV_one w he d (fun i j k hi hj hk => (hM i j k hi hj hk).1), evalV_one w he d' (fun i j k hi hj hk => (hM i j k hi hj hk).1), ?_⟩
    rw [volumePoint_v, volumePoint_v, (endsX _).1, (endsX _).2]
    obtain ⟨s, -, hs⟩ := getKnotSpanIndex_isSpan w.u.knots w.u.pn w.u.sorted he.u d.u0 d.u1
    obtain ⟨s2, -, hs2⟩ := getKnotSpanIndex_isSpan w.w.knots w.w.pn w.w.sorted he.w d.w0 d.w1
    exact near_surface (goodDir_mono w.u) (goodDir_mono w.w) hs hs2 fun i k hi hk =>
      (en i k).2 M (fun j hj => hM i j k hi hj hk) (fun j h0 h1 => hin i j k hi h0 h1 hk) (hb.mp hbt i k (by omega) (by omega))

/-- C151 for the third direction -/
theorem C151_closed_w_partial {c : NurbsVolume ℝ} {p q r n m l : ℕ} (w : WellFormedV c p q r n m l) (he : EndsSeparatedV c p q r n m l) (hc : ClampedEnds (nth c.knotsW) r l) :
    ∃ b, isClosedVolume c .w = ok b ∧
      ((∀ i j, i ≤ n → j ≤ m → ent3 c.cps i j 0 = ent3 c.cps i j l) → b = true ∧ ∀ x y, InDomainV c p q r n m l x y (nth c.knotsW r) →
        NurbsVolume.pointOnVolume c x y (nth c.knotsW r) = NurbsVolume.pointOnVolume c x y (nth c.knotsW (l + 1))) ∧
      (∀ M, (∀ i j k, i ≤ n → j ≤ m → k ≤ l → (ent3 c.cps i j k).w = 1 ∧ Bounded M (ent3 c.cps i j k).raw) →
        (∀ i j k, i ≤ n → j ≤ m → 0 < k → k < l → ¬ Near (ent3 c.cps i j l).raw (ent3 c.cps i j k).raw) → b = true → ∀ x y, InDomainV c p q r n m l x y (nth c.knotsW r) →
        ∃ P Q, NurbsVolume.pointOnVolume c x y (nth c.knotsW r) = ok P ∧ NurbsVolume.pointOnVolume c x y (nth c.knotsW (l + 1)) = ok Q ∧ Within (2 / 1000000 * (1 + M)) P Q) := by
  obtain ⟨b, e, hb⟩ := closedFibres_run (A := n + 1) (B := m + 1) (F := fun i j k => ent3 c.cps i j k) (read := fun u v w => cget c.cps u v w) rfl rfl rfl w.w he.w hc
    (fun i j k hi hj hk => cget_ent3 w.cps rfl rfl rfl hi hj (by omega))
  have en := fun i j => fibre_ends (P := fun k => ent3 c.cps i j k) w.w he.w hc
  have dom : nth c.knotsW r ≤ nth c.knotsW (l + 1) := goodDir_mono w.w r (l + 1) (by have := w.w.pn; omega) (by have := w.w.pos; omega)
  have ends := fun P : ℕ → XYZW ℝ => ends_eq (P := P) w.w.pn (goodDir_mono w.w) he.w hc
  have endsX := fun P : ℕ → XYZ ℝ => ends_eq (P := P) w.w.pn (goodDir_mono w.w) he.w hc
  refine ⟨b, by rw [isClosedVolume_start w]; exact e, ?_, ?_⟩
  · intro hrow
    constructor
    · rw [hb]
      exact fun i j hi hj => (en i j).1 (hrow i j (by omega) (by omega))
    · intro x y d
      have d' : InDomainV c p q r n m l x y (nth c.knotsW (l + 1)) := ⟨d.u0, d.u1, d.v0, d.v1, dom, le_refl _⟩
      unfold NurbsVolume.pointOnVolume
      rw [C50_eval w he d, C50_eval w he d', volumePoint_w', volumePoint_w', (ends _).1, (ends _).2, surfacePoint_congr' hrow]
  · intro M hM hin hbt x y d
    have d' : InDomainV c p q r n m l x y (nth c.knotsW (l + 1)) := ⟨d.u0, d.u1, d.v0, d.v1, dom, le_refl _⟩
    refine ⟨_, _, evalV_one w he d (fun i j k hi hj hk => (hM i j k hi hj hk).1), evalV_one w he d' (fun i j k hi hj hk => (hM i j k hi hj hk).1), ?_⟩
    rw [volumePoint_w', volumePoint_w', (endsX _).1, (endsX _).2]
    obtain ⟨s, -, hs⟩ := getKnotSpanIndex_isSpan w.u.knots w.u.pn w.u.sorted he.u d.u0 d.u1
    obtain ⟨s2, -, hs2⟩ := getKnotSpanIndex_isSpan w.v.knots w.v.pn w.v.sorted he.v d.v0 d.v1
    exact near_surface (goodDir_mono w.u) (goodDir_mono w.v) hs hs2 fun i j hi hj =>
      (en i j).2 M (fun k hk => hM i j k hi hj hk) (fun k h0 h1 => hin i j k hi hj h0 h1) (hb.mp hbt i j (by omega) (by omega))

/-! ### A volume that is reported closed and is not -/

/-- the polyline `A B C A B` times a unit square: the points of `exLoop` displaced by `(0, j, k)` -/
noncomputable def loopVolume : NurbsVolume ℝ :=
  { degreeU := 1, degreeV := 1, degreeW := 1, knotsU := [0, 0, 1, 2, 3, 4, 4], knotsV := [0, 0, 1, 1], knotsW := [0, 0, 1, 1]
    cps := [(0, 0), (1, 0), (1, 1), (0, 0), (1, 0)].map fun a => (List.range 2).map fun j => (List.range 2).map fun k => ⟨a.1, a.2 + j, k, 1⟩ }

theorem loopVolume_wf : WellFormedV loopVolume 1 1 1 4 1 1 ∧ EndsSeparatedV loopVolume 1 1 1 4 1 1 ∧ ClampedEnds (nth loopVolume.knotsU) 1 4 := by
  refine ⟨⟨⟨rfl, by decide, by decide, by decide, rfl, exLoop_wf.1.sorted⟩, ⟨rfl, by decide, by decide, by decide, rfl, ?_⟩, ⟨rfl, by decide, by decide, by decide, rfl, ?_⟩, ?_⟩,
    ⟨exLoop_wf.2.1, ⟨?_, ?_⟩, ⟨?_, ?_⟩⟩, ⟨rfl, rfl⟩⟩
  · exact isValidKnotVector_nth.mp (by rw [isValidKnotVector_iff]; simp [loopVolume])
  · exact isValidKnotVector_nth.mp (by rw [isValidKnotVector_iff]; simp [loopVolume])
  · refine ⟨rfl, fun i hi => ⟨?_, fun j hj => ?_⟩⟩
    · interval_cases i <;> rfl
    · interval_cases i <;> interval_cases j <;> rfl
  all_goals norm_num [loopVolume, nth]

/-- C151 is violated: the face `u = 0` of this clamped volume contains the point `(0, 0, 0)` and the face `u = 4` has the point `(1, 0, 0)` at the same parameters, but `IsClosed` answers `true`, because on each
curve the first two control points agree with the last two. -/
theorem C151_overlap_violated : isClosedVolume loopVolume .u = ok true ∧ NurbsVolume.pointOnVolume loopVolume 0 0 0 = ok ⟨0, 0, 0⟩ ∧ NurbsVolume.pointOnVolume loopVolume 4 0 0 = ok ⟨1, 0, 0⟩ := by
  obtain ⟨w, he, hc⟩ := loopVolume_wf
  refine ⟨?_, ?_, ?_⟩
  · obtain ⟨b, e, hb⟩ := closedFibres_run (A := 2) (B := 2) (F := fun j k i => ent3 loopVolume.cps i j k) (read := fun v w u => cget loopVolume.cps u v w) rfl rfl rfl w.u he.u hc
      (fun j k i hj hk hi => cget_ent3 w.cps rfl rfl rfl (by omega) hj hk)
    rw [isClosedVolume_start w]
    refine e.trans ?_
    congr 1
    rw [hb]
    intro j k hj hk
    obtain ⟨-, -, bb, h3, h4⟩ := isClosed_run (fibreCurve_wf (P := fun i => ent3 loopVolume.cps i j k) w.u) he.u hc
    rw [h3]
    congr 1
    rw [h4]
    right
    have e0 : (nth (fibreCurve loopVolume.degreeU loopVolume.knotsU 4 (fun i => ent3 loopVolume.cps i j k)).cps 0).toXYZ = ⟨0, 0 + j, k⟩ := by interval_cases j <;> interval_cases k <;> exact toXYZ_one _ _ _
    have e1 : (nth (fibreCurve loopVolume.degreeU loopVolume.knotsU 4 (fun i => ent3 loopVolume.cps i j k)).cps 1).toXYZ = ⟨1, 0 + j, k⟩ := by interval_cases j <;> interval_cases k <;> exact toXYZ_one _ _ _
    have e3 : (nth (fibreCurve loopVolume.degreeU loopVolume.knotsU 4 (fun i => ent3 loopVolume.cps i j k)).cps 3).toXYZ = ⟨0, 0 + j, k⟩ := by interval_cases j <;> interval_cases k <;> exact toXYZ_one _ _ _
    have e4 : (nth (fibreCurve loopVolume.degreeU loopVolume.knotsU 4 (fun i => ent3 loopVolume.cps i j k)).cps 4).toXYZ = ⟨1, 0 + j, k⟩ := by interval_cases j <;> interval_cases k <;> exact toXYZ_one _ _ _
    refine ⟨1, by norm_num, ?_, ?_⟩
    · intro i hi
      interval_cases i
      rw [e4, e0]
      unfold Near
      norm_num
    · intro i hi
      interval_cases i
      · rw [e0, show 4 - 1 + 0 = 3 by norm_num, e3]
        exact near_refl _
      · rw [e1, show 4 - 1 + 1 = 4 by norm_num, e4]
        exact near_refl _
  · have d : InDomainV loopVolume 1 1 1 4 1 1 0 0 0 := by constructor <;> norm_num [loopVolume, nth]
    unfold NurbsVolume.pointOnVolume
    have hu := (ends_eq (P := fun i => surfacePoint (nth loopVolume.knotsV) (nth loopVolume.knotsW) 1 1 1 1 (ent3 loopVolume.cps i) 0 0) w.u.pn (goodDir_mono w.u) he.u hc).1
    rw [C50_eval w he d, ok_bind, volumePoint_u, show curvePoint (nth loopVolume.knotsU) 1 4 _ (0 : ℝ) = _ from hu, surfacePoint_eq]
    rw [show curvePoint (nth loopVolume.knotsV) 1 1 _ (0 : ℝ) = _ from (ends_eq (by omega) (goodDir_mono w.v) he.v ⟨rfl, rfl⟩).1, show curvePoint (nth loopVolume.knotsW) 1 1 _ (0 : ℝ) = _ from (ends_eq (by omega) (goodDir_mono w.w) he.w ⟨rfl, rfl⟩).1]
    have : ent3 loopVolume.cps 0 0 0 = ⟨0, 0, 0, 1⟩ := by
      change (⟨0, 0 + ((0 : ℕ) : ℝ), ((0 : ℕ) : ℝ), 1⟩ : XYZW ℝ) = _
      norm_num
    rw [this, toXYZ_one]
  · have d : InDomainV loopVolume 1 1 1 4 1 1 4 0 0 := by constructor <;> norm_num [loopVolume, nth]
    unfold NurbsVolume.pointOnVolume
    have hu := (ends_eq (P := fun i => surfacePoint (nth loopVolume.knotsV) (nth loopVolume.knotsW) 1 1 1 1 (ent3 loopVolume.cps i) 0 0) w.u.pn (goodDir_mono w.u) he.u hc).2
    rw [C50_eval w he d, ok_bind, volumePoint_u, show curvePoint (nth loopVolume.knotsU) 1 4 _ (4 : ℝ) = _ from hu, surfacePoint_eq]
    rw [show curvePoint (nth loopVolume.knotsV) 1 1 _ (0 : ℝ) = _ from (ends_eq (by omega) (goodDir_mono w.v) he.v ⟨rfl, rfl⟩).1, show curvePoint (nth loopVolume.knotsW) 1 1 _ (0 : ℝ) = _ from (ends_eq (by omega) (goodDir_mono w.w) he.w ⟨rfl, rfl⟩).1]
    have : ent3 loopVolume.cps 4 0 0 = ⟨1, 0, 0, 1⟩ := by
      change (⟨1, 0 + ((0 : ℕ) : ℝ), ((0 : ℕ) : ℝ), 1⟩ : XYZW ℝ) = _
      norm_num
    rw [this, toXYZ_one]

example : ∃ b, isClosedVolume loopVolume .u = ok b := by
  obtain ⟨b, h, -⟩ := C151_closed_u_partial loopVolume_wf.1 loopVolume_wf.2.1 loopVolume_wf.2.2
  exact ⟨b, h⟩

example : ∃ b, isClosedVolume loopVolume .v = ok b := by
  obtain ⟨b, h, -⟩ := C151_closed_v_partial loopVolume_wf.1 loopVolume_wf.2.1 ⟨rfl, rfl⟩
  exact ⟨b, h⟩

example : ∃ b, isClosedVolume loopVolume .w = ok b := by
  obtain ⟨b, h, -⟩ := C151_closed_w_partial loopVolume_wf.1 loopVolume_wf.2.1 ⟨rfl, rfl⟩
  exact ⟨b, h⟩

end LNLib.Props
