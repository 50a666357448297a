import Verif.Lemmas.PatchRun
import Verif.Props.Decompose
import Verif.Props.Surface
import Mathlib.Data.List.ProdSigma
import Mathlib.Tactic.IntervalCases

/-!
# C130: decomposition of a surface into Bézier patches (Geometry/Surface/NurbsSurface.cpp, `DecomposeToBeziers`)
-/
set_option linter.unusedSectionVars false

namespace LNLib.Props
open LNLib Res Spec Finset

variable {K : Type} [Field K] [LinearOrder K] [IsStrictOrderedRing K]
variable {T : Type} [AddCommGroup T] [Module K T]

/-- the nonempty knot spans of a direction of degree `p` with `n + 1` control points, in increasing order -/
def nonemptySpans (U : List K) (p n : ℕ) : List ℕ := (List.range (n + 1)).filter fun s => decide (p ≤ s ∧ nth U s < nth U (s + 1))

theorem nonemptySpans_eq {U : List K} {p n : ℕ} (hpn : p ≤ n) : nonemptySpans U p n = spansFrom (nth U) p (n + 1 - p) := by
  unfold nonemptySpans
  have e : List.range (n + 1) = List.range' 0 p ++ List.range' p (n + 1 - p) := by
    have := List.range'_append_1 (s := 0) (m := p) (n := n + 1 - p)
    rw [zero_add] at this
    rw [this, List.range_eq_range']
    congr 1; omega
  rw [e, List.filter_append]
  have e1 : (List.range' 0 p).filter (fun s => decide (p ≤ s ∧ nth U s < nth U (s + 1))) = [] := by
    rw [List.filter_eq_nil_iff]
    intro s hs
    rw [List.mem_range'_1] at hs
    rw [decide_eq_true_eq]
    omega
  rw [e1, List.nil_append]
  unfold spansFrom
  apply List.filter_congr
  intro s hs
  rw [List.mem_range'_1] at hs
  simp [hs.1]

theorem nonemptySpans_mem {U : List K} {p n s : ℕ} (h : s ∈ nonemptySpans U p n) : p ≤ s ∧ s ≤ n ∧ nth U s < nth U (s + 1) := by
  unfold nonemptySpans at h
  rw [List.mem_filter, List.mem_range, decide_eq_true_eq] at h
  exact ⟨h.2.1, by omega, h.2.2⟩

theorem nonemptySpans_length {U : List K} {p n : ℕ} (hpn : p ≤ n) : (nonemptySpans U p n).length ≤ n + 1 - p := by
  rw [nonemptySpans_eq hpn]
  unfold spansFrom
  refine (List.length_filter_le _ _).trans ?_
  simp

theorem curvePoint_apply {U : ℕ → K} {p n : ℕ} {P : ℕ → ℕ → T} {t : K} {j : ℕ} :
    (curvePoint U p n P t) j = curvePoint U p n (fun i => P i j) t := by
  unfold curvePoint
  rw [Finset.sum_apply]
  rfl

/-- the Bézier piece of a span is the curve over that span -/
theorem bez_point {X : Type} [AddCommGroup X] [Module K X] {U : List K} {P row : List X} {p n q s : ℕ} (h : KnotShape U p n q) (hq : q ≤ p) (h7 : p ≤ 7)
    (s1 : p ≤ s) (s2 : s ≤ n) (s3 : nth U s < nth U (s + 1)) (hb : IsBez U P p s row) {t : K} (ht0 : 0 ≤ t) (ht1 : t ≤ 1) :
    curvePoint (nth (List.replicate (p + 1) (0 : K) ++ List.replicate (p + 1) 1)) p p (nth row) t
      = curvePoint (nth U) p n (nth P) ((1 - t) * nth U s + t * nth U (s + 1)) := by
  have hp := h.pos
  let b : BsplineCurve K X := ⟨(p : ℤ), List.replicate (p + 1) 0 ++ List.replicate (p + 1) 1, row⟩
  have wb : WellFormed b p p := bezKnots_wf hp h7 rfl rfl hb.1
  have e1 := bez_eval (b := b) (pol_polar (P := nth P) (h.piece s1 s2 s3)) hp h7 rfl rfl hb.1 hb.2 ht0 ht1
  have k0 : nth b.knots p = 0 := by show nth (_ ++ _) p = 0; rw [bezKnots_nth, if_pos (le_refl _)]
  have k1 : nth b.knots (p + 1) = 1 := by show nth (_ ++ _) (p + 1) = 1; rw [bezKnots_nth, if_neg (by omega), if_pos (by omega)]
  have e2 := C05_eval (t := t) wb bezKnots_ends (by rw [k0]; exact ht0) (by rw [k1]; exact ht1)
  have m0 : nth U s ≤ (1 - t) * nth U s + t * nth U (s + 1) := by nlinarith
  have m1 : (1 - t) * nth U s + t * nth U (s + 1) ≤ nth U (s + 1) := by nlinarith
  rw [h.curve_closed hq s1 s2 s3 m0 m1]
  rw [e1] at e2
  injection e2 with e2
  exact e2.symm

section
variable {c : BsplineSurface K T} {p q n m : ℕ}

/-- the rows of the net as vectors -/
def netRows (cps : List (List T)) (n m : ℕ) : List (ℕ → T) := (List.range (n + 1)).map fun i j => if j < m + 1 then ent cps i j else 0

/-- the columns of a strip as vectors -/
def stripColumns (strip : List (ℕ → T)) (m : ℕ) : List (ℕ → T) := (List.range (m + 1)).map fun j r => (nth strip r : ℕ → T) j

theorem netRow_ok {cps : List (List T)} (h : IsMat cps (n + 1) (m + 1)) {k : ℕ} (hk : k ≤ n) :
    netRow (m + 1) cps (k : ℤ) = ok (nth (netRows cps n m) k) := by
  unfold netRow netRows
  rw [vget_row (k := k) rfl (by have := h.1; omega), ok_bind, if_neg (by have := h.2 k (by omega); omega), nth_mapRange (by omega)]
  rfl

theorem stripColumn_ok {strip : List (ℕ → T)} {k : ℕ} (hk : k ≤ m) :
    stripColumn ((m + 1 : ℕ) : ℤ) strip (k : ℤ) = ok (nth (stripColumns strip m) k) := by
  unfold stripColumn stripColumns
  rw [if_pos (by omega), nth_mapRange (by omega)]
  rfl

theorem knotShapeU (w : WellFormedS c p q n m) (he : EndsSeparatedS c p q n m) (hc : ClampedEnds (nth c.knotsU) p n) (hs : WellSeparated c.knotsU)
    (hm : ∀ x, nth c.knotsU p < x → x < nth c.knotsU (n + 1) → c.knotsU.count x ≤ p) : KnotShape c.knotsU p n p :=
  knotShape_of (c := (⟨(p : ℤ), c.knotsU, List.replicate (n + 1) (0 : K)⟩ : BsplineCurve K K))
    ⟨rfl, w.posU, w.le7U, by simp, w.pn, w.knotsU, w.sortedU⟩ he.u hc hs hm

theorem knotShapeV (w : WellFormedS c p q n m) (he : EndsSeparatedS c p q n m) (hc : ClampedEnds (nth c.knotsV) q m) (hs : WellSeparated c.knotsV)
    (hm : ∀ x, nth c.knotsV q < x → x < nth c.knotsV (m + 1) → c.knotsV.count x ≤ q) : KnotShape c.knotsV q m q :=
  knotShape_of (c := (⟨(q : ℤ), c.knotsV, List.replicate (m + 1) (0 : K)⟩ : BsplineCurve K K))
    ⟨rfl, w.posV, w.le7V, by simp, w.qm, w.knotsV, w.sortedV⟩ he.v hc hs hm

/-- what the columns of the patch of the rectangle `s` are -/
def IsPatch (c : BsplineSurface K T) (p q n m : ℕ) (s : ℕ × ℕ) (cols : List (ℕ → T)) : Prop :=
  ∃ strip, IsBez c.knotsU (netRows c.cps n m) p s.1 strip ∧ IsBez c.knotsV (stripColumns strip m) q s.2 cols

theorem patchLoop_run (w : WellFormedS c p q n m) (hV : KnotShape c.knotsV q m q) {asize R : ℕ} (has : q ≤ asize)
    {strips rest : List (List (ℕ → T))} (hs : List.Forall₂ (IsBez c.knotsU (netRows c.cps n m) p) (nonemptySpans c.knotsU p n) strips)
    (hR : (nonemptySpans c.knotsU p n).length * (nonemptySpans c.knotsV q m).length ≤ R) :
    Runs (forI 0 (strips.length : ℤ) ((0 : ℤ), List.replicate R (List.replicate (q + 1) (0 : ℕ → T))) fun np st => do
        let strip ← vget (strips ++ rest) np
        patchPhase c.knotsV (stripColumn ((m + 1 : ℕ) : ℤ) strip) (q : ℤ) ((m + 1 : ℕ) : ℤ) (asize : ℤ) st.2 st.1)
      (fun r => ∃ pre R', r.1 = (pre.length : ℕ) ∧ r.2 = pre ++ R' ∧
        List.Forall₂ (IsPatch c p q n m) (nonemptySpans c.knotsU p n ×ˢ nonemptySpans c.knotsV q m) pre) := by
  have hlen := hs.length_eq
  refine (Runs.forN (m := 0) (n := strips.length) (fun k (st : ℤ × List (List (ℕ → T))) => ∃ pre : List (List (ℕ → T)), st.1 = (pre.length : ℕ) ∧
      st.2 = pre ++ List.replicate (R - pre.length) (List.replicate (q + 1) (0 : ℕ → T)) ∧
      List.Forall₂ (IsPatch c p q n m) ((nonemptySpans c.knotsU p n).take k ×ˢ nonemptySpans c.knotsV q m) pre)
    rfl rfl (by omega) ⟨[], by simp, by simp, by rw [List.take_zero]; exact List.Forall₂.nil⟩ ?_).mono ?_
  · rintro k ⟨nb, patches⟩ - hk ⟨pre, h1, h2, h3⟩
    dsimp only at h1 h2 ⊢
    have hpl := h3.length_eq
    rw [List.length_product, List.length_take, min_eq_left (by omega)] at hpl
    have hspl := nonemptySpans_eq (U := c.knotsV) w.qm
    have hroom : (nonemptySpans c.knotsV q m).length ≤ R - pre.length := by
      have : (k + 1) * (nonemptySpans c.knotsV q m).length ≤ R := (Nat.mul_le_mul_right _ (by omega)).trans hR
      rw [Nat.succ_mul] at this
      omega
    rw [vget_of (k := k) (x := strips[k]) rfl (by rw [List.getElem?_append_left hk]; simp [hk]), ok_bind, h2]
    refine (patchPhase_run (U := c.knotsV) (P := stripColumns strips[k] m) hV (le_refl _) (by simp [stripColumns])
      (fun j hj => stripColumn_ok hj) has (by rw [← hspl]; exact hroom) rfl h1).mono ?_
    rintro ⟨nb', patches'⟩ ⟨rows, g1, g2, g3⟩
    rw [← hspl] at g2 g3
    refine ⟨pre ++ rows, g1, ?_, ?_⟩
    · dsimp only at g2 ⊢
      rw [g2]
      congr 2
      have := g3.length_eq
      simp only [List.length_append]
      omega
    · have hku : k < (nonemptySpans c.knotsU p n).length := by omega
      have et : (nonemptySpans c.knotsU p n).take (k + 1) = (nonemptySpans c.knotsU p n).take k ++ [(nonemptySpans c.knotsU p n)[k]] := by
        rw [List.take_append_getElem hku]
      have ep : (((nonemptySpans c.knotsU p n).take (k + 1)) ×ˢ (nonemptySpans c.knotsV q m))
          = (((nonemptySpans c.knotsU p n).take k) ×ˢ (nonemptySpans c.knotsV q m))
            ++ (nonemptySpans c.knotsV q m).map (Prod.mk (nonemptySpans c.knotsU p n)[k]) := by
        rw [et]; show List.product _ _ = List.product _ _ ++ _; unfold List.product; rw [List.flatMap_append]; simp
      rw [ep]
      apply List.rel_append h3
      rw [List.forall₂_map_left_iff]
      have hk' := List.Forall₂.get hs hku (by omega)
      simp only [List.get_eq_getElem] at hk'
      exact g3.imp fun t cols ht => ⟨strips[k], hk', ht⟩
  · rintro r ⟨pre, h1, h2, h3⟩
    refine ⟨pre, _, h1, h2, ?_⟩
    rw [← hlen, List.take_length] at h3
    exact h3

theorem isPatch_eval (w : WellFormedS c p q n m) (hU : KnotShape c.knotsU p n p) (hV : KnotShape c.knotsV q m q) {s : ℕ × ℕ}
    (hsu : s.1 ∈ nonemptySpans c.knotsU p n) (hsv : s.2 ∈ nonemptySpans c.knotsV q m) {cols : List (ℕ → T)} (h : IsPatch c p q n m s cols)
    {x y : K} (hx0 : 0 ≤ x) (hx1 : x ≤ 1) (hy0 : 0 ≤ y) (hy1 : y ≤ 1) :
    surfacePoint (nth (List.replicate (p + 1) (0 : K) ++ List.replicate (p + 1) 1)) (nth (List.replicate (q + 1) (0 : K) ++ List.replicate (q + 1) 1))
        p q p q (fun i j => (nth cols j : ℕ → T) i) x y
      = surfacePoint (nth c.knotsU) (nth c.knotsV) p q n m (ent c.cps) ((1 - x) * nth c.knotsU s.1 + x * nth c.knotsU (s.1 + 1))
        ((1 - y) * nth c.knotsV s.2 + y * nth c.knotsV (s.2 + 1)) := by
  obtain ⟨strip, h1, h2⟩ := h
  obtain ⟨u1, u2, u3⟩ := nonemptySpans_mem hsu
  obtain ⟨v1, v2, v3⟩ := nonemptySpans_mem hsv
  have e2 := bez_point hV (le_refl _) w.le7V v1 v2 v3 h2 hy0 hy1
  have e1 := bez_point hU (le_refl _) w.le7U u1 u2 u3 h1 hx0 hx1
  have a2 : ∀ i, curvePoint (nth (List.replicate (q + 1) (0 : K) ++ List.replicate (q + 1) 1)) q q (fun j => (nth cols j : ℕ → T) i) y
      = curvePoint (nth c.knotsV) q m (fun j => (nth strip i : ℕ → T) j) ((1 - y) * nth c.knotsV s.2 + y * nth c.knotsV (s.2 + 1)) := by
    intro i
    rw [← curvePoint_apply, e2, curvePoint_apply]
    apply curvePoint_congr
    intro j hj
    unfold stripColumns
    rw [nth_mapRange (by omega)]
  have a1 : ∀ j, j ≤ m → curvePoint (nth (List.replicate (p + 1) (0 : K) ++ List.replicate (p + 1) 1)) p p (fun i => (nth strip i : ℕ → T) j) x
      = curvePoint (nth c.knotsU) p n (fun i => ent c.cps i j) ((1 - x) * nth c.knotsU s.1 + x * nth c.knotsU (s.1 + 1)) := by
    intro j hj
    rw [← curvePoint_apply, e1, curvePoint_apply]
    apply curvePoint_congr
    intro i hi
    unfold netRows
    rw [nth_mapRange (by omega)]
    rw [if_pos (by omega)]
  rw [surfacePoint_eq, curvePoint_congr fun i _ => a2 i, ← surfacePoint_eq (P := fun i j => (nth strip i : ℕ → T) j), surfacePoint_eq',
    curvePoint_congr fun j hj => a1 j hj, ← surfacePoint_eq']

end

section
variable {c : BsplineSurface K T} {p q n m : ℕ}

/-- C130: for every well-formed clamped surface whose knots are equal or clearly apart and whose interior knots are repeated at most
`degree` times, `DecomposeToBeziers` returns exactly one Bézier patch per nonempty knot rectangle, the rectangles ordered by their
span in `u` and then by their span in `v`; every patch is a well-formed surface on [0,1]×[0,1] that traces the surface over its
rectangle. -/
theorem C130_patches_partial (w : WellFormedS c p q n m) (he : EndsSeparatedS c p q n m) (hcu : ClampedEnds (nth c.knotsU) p n)
    (hcv : ClampedEnds (nth c.knotsV) q m) (hsu : WellSeparated c.knotsU) (hsv : WellSeparated c.knotsV)
    (hmu : ∀ x, nth c.knotsU p < x → x < nth c.knotsU (n + 1) → c.knotsU.count x ≤ p)
    (hmv : ∀ x, nth c.knotsV q < x → x < nth c.knotsV (m + 1) → c.knotsV.count x ≤ q) :
    ∃ bs, decomposeToPatches c = ok bs ∧ List.Forall₂ (fun (s : ℕ × ℕ) (b : BsplineSurface K T) => WellFormedS b p q p q ∧
        b.knotsU = List.replicate (p + 1) 0 ++ List.replicate (p + 1) 1 ∧ b.knotsV = List.replicate (q + 1) 0 ++ List.replicate (q + 1) 1 ∧
        ∀ x y, 0 ≤ x → x ≤ 1 → 0 ≤ y → y ≤ 1 → b.pointOnSurface x y
          = c.pointOnSurface ((1 - x) * nth c.knotsU s.1 + x * nth c.knotsU (s.1 + 1)) ((1 - y) * nth c.knotsV s.2 + y * nth c.knotsV (s.2 + 1)))
      (nonemptySpans c.knotsU p n ×ˢ nonemptySpans c.knotsV q m) bs := by
  have hU := knotShapeU w he hcu hsu hmu
  have hV := knotShapeV w he hcv hsv hmv
  have hpn := w.pn
  have hqm := w.qm
  obtain ⟨r1, r2⟩ := w.cps
  have hrun : Runs (decomposeToPatches c) (fun bs => ∃ pre : List (List (ℕ → T)),
      List.Forall₂ (IsPatch c p q n m) (nonemptySpans c.knotsU p n ×ˢ nonemptySpans c.knotsV q m) pre ∧
      bs = pre.map fun cols => (⟨(p : ℤ), (q : ℤ), List.replicate (p + 1) 0 ++ List.replicate (p + 1) 1, List.replicate (q + 1) 0 ++ List.replicate (q + 1) 1,
        tab (p + 1) (q + 1) fun i j => (nth cols j : ℕ → T) i⟩ : BsplineSurface K T)) := by
    unfold decomposeToPatches
    rw [vget_row (i := 0) (k := 0) rfl (by omega), ok_bind, r2 0 (by omega), w.degreeU, w.degreeV, r1]
    dsimp only
    have t1 : ((p : ℤ) + 1).toNat = p + 1 := by omega
    have t2 : ((q : ℤ) + 1).toNat = q + 1 := by omega
    have t3 : (((n + 1 : ℕ) : ℤ) - (p : ℤ)).toNat = n + 1 - p := by omega
    have t4 : (((m + 1 : ℕ) : ℤ) - (q : ℤ)).toNat = m + 1 - q := by omega
    have t5 : max (p : ℤ) (q : ℤ) + 1 = ((max p q + 1 : ℕ) : ℤ) := by push_cast; rfl
    rw [t1, t2, t3, t4, t5]
    have hph := patchPhase_run (U := c.knotsU) (P := netRows c.cps n m) (rd := netRow (m + 1) c.cps) (asize := max p q + 1) (R := n + 1 - p) (pre := [])
      hU (le_refl _) (by simp [netRows]) (fun k hk => netRow_ok ⟨r1, r2⟩ hk) (by omega)
      (by rw [← nonemptySpans_eq hpn]; exact nonemptySpans_length hpn) (size := ((n + 1 : ℕ) : ℤ)) (nb := 0) rfl rfl
    refine Runs.bind hph ?_
    rintro ⟨nbU, strips⟩ ⟨rows, g1, g2, g3⟩
    dsimp only at g1 g2 ⊢
    rw [← nonemptySpans_eq hpn] at g2 g3
    rw [List.nil_append] at g1 g2
    subst g1 g2
    refine Runs.bind (patchLoop_run w hV (asize := max p q + 1) (by omega) g3
      (Nat.mul_le_mul (nonemptySpans_length hpn) (nonemptySpans_length hqm))) ?_
    rintro ⟨nb, patches⟩ ⟨pre, R', f1, f2, f3⟩
    dsimp only at f1 f2 ⊢
    subst f1 f2
    refine Runs.ok ⟨pre, f3, ?_⟩
    rw [Int.toNat_natCast, List.take_left]
    rfl
  obtain ⟨bs, hrun, pre, hpre, hbs⟩ := hrun
  refine ⟨bs, hrun, ?_⟩
  rw [hbs, List.forall₂_map_right_iff]
  have hboth : List.Forall₂ (fun (s : ℕ × ℕ) cols => (s ∈ (nonemptySpans c.knotsU p n ×ˢ nonemptySpans c.knotsV q m)) ∧ IsPatch c p q n m s cols)
      (nonemptySpans c.knotsU p n ×ˢ nonemptySpans c.knotsV q m) pre := by
    rw [List.forall₂_and_left]
    exact ⟨fun s hs => hs, hpre⟩
  refine hboth.imp ?_
  rintro ⟨su, sv⟩ cols ⟨hmem, hp⟩
  rw [List.mem_product] at hmem
  obtain ⟨u1, u2, u3⟩ := nonemptySpans_mem hmem.1
  obtain ⟨v1, v2, v3⟩ := nonemptySpans_mem hmem.2
  set b : BsplineSurface K T := ⟨(p : ℤ), (q : ℤ), List.replicate (p + 1) 0 ++ List.replicate (p + 1) 1, List.replicate (q + 1) 0 ++ List.replicate (q + 1) 1,
        tab (p + 1) (q + 1) fun i j => (nth cols j : ℕ → T) i⟩ with hb
  have ku := bezKnots_wf (b := (⟨(p : ℤ), List.replicate (p + 1) 0 ++ List.replicate (p + 1) 1, List.replicate (p + 1) 0⟩ : BsplineCurve K K)) w.posU w.le7U rfl rfl (by simp)
  have kv := bezKnots_wf (b := (⟨(q : ℤ), List.replicate (q + 1) 0 ++ List.replicate (q + 1) 1, List.replicate (q + 1) 0⟩ : BsplineCurve K K)) w.posV w.le7V rfl rfl (by simp)
  have wb : WellFormedS b p q p q := ⟨rfl, rfl, w.posU, w.posV, w.le7U, w.le7V, isMat_tab, le_refl _, le_refl _, ku.knots, kv.knots, ku.sorted, kv.sorted⟩
  have heb : EndsSeparatedS b p q p q := ⟨bezKnots_ends, bezKnots_ends⟩
  refine ⟨wb, rfl, rfl, ?_⟩
  intro x y hx0 hx1 hy0 hy1
  have db : InDomain b p q p q x y := by
    constructor
    · show nth (_ ++ _) p ≤ x; rw [bezKnots_nth, if_pos (le_refl _)]; exact hx0
    · show x ≤ nth (_ ++ _) (p + 1); rw [bezKnots_nth, if_neg (by omega), if_pos (by omega)]; exact hx1
    · show nth (_ ++ _) q ≤ y; rw [bezKnots_nth, if_pos (le_refl _)]; exact hy0
    · show y ≤ nth (_ ++ _) (q + 1); rw [bezKnots_nth, if_neg (by omega), if_pos (by omega)]; exact hy1
  have mu0 := hU.mono p su u1 (by omega)
  have mu1 := hU.mono (su + 1) (n + 1) (by omega) (by omega)
  have mv0 := hV.mono q sv v1 (by omega)
  have mv1 := hV.mono (sv + 1) (m + 1) (by omega) (by omega)
  have dc : InDomain c p q n m ((1 - x) * nth c.knotsU su + x * nth c.knotsU (su + 1)) ((1 - y) * nth c.knotsV sv + y * nth c.knotsV (sv + 1)) :=
    ⟨by nlinarith, by nlinarith, by nlinarith, by nlinarith⟩
  rw [C33_eval wb heb db, C33_eval w he dc, ← isPatch_eval w hU hV hmem.1 hmem.2 hp hx0 hx1 hy0 hy1]
  congr 1
  unfold surfacePoint
  refine sum_congr rfl fun i hi => sum_congr rfl fun j hj => ?_
  rw [Finset.mem_range] at hi hj
  rw [ent_tab hi hj]

end

/-- a surface of degree 1×2 with an interior knot of full multiplicity in each direction: 2×2 patches -/
def brokenSheet : BsplineSurface ℚ ℚ :=
  ⟨1, 2, [0, 0, 1, 2, 2], [0, 0, 0, 1, 1, 3, 3, 3], [[0, 1, 4, 2, 5], [1, 3, 0, 2, 7], [2, 2, 6, 1, 0]]⟩

/-- every hypothesis of `C130_patches_partial` holds for it -/
example : WellFormedS brokenSheet 1 2 2 4 ∧ EndsSeparatedS brokenSheet 1 2 2 4 ∧ ClampedEnds (nth brokenSheet.knotsU) 1 2 ∧
    ClampedEnds (nth brokenSheet.knotsV) 2 4 ∧ WellSeparated brokenSheet.knotsU ∧ WellSeparated brokenSheet.knotsV ∧
    (∀ x, nth brokenSheet.knotsU 1 < x → x < nth brokenSheet.knotsU 3 → brokenSheet.knotsU.count x ≤ 1) ∧
    (∀ x, nth brokenSheet.knotsV 2 < x → x < nth brokenSheet.knotsV 5 → brokenSheet.knotsV.count x ≤ 2) := by
  refine ⟨⟨rfl, rfl, by decide, by decide, by decide, by decide, ⟨rfl, by decide +kernel⟩, by decide, by decide, rfl, rfl, ?_, ?_⟩, ⟨?_, ?_⟩, ?_, ?_, ?_, ?_, ?_, ?_⟩
  · intro i j hij hj
    have hj' : j < 5 := hj
    interval_cases j <;> interval_cases i <;> decide +kernel
  · intro i j hij hj
    have hj' : j < 8 := hj
    interval_cases j <;> interval_cases i <;> decide +kernel
  · constructor <;> decide +kernel
  · constructor <;> decide +kernel
  · constructor <;> decide +kernel
  · constructor <;> decide +kernel
  · unfold WellSeparated; decide +kernel
  · unfold WellSeparated; decide +kernel
  · intro x h1 h2
    have e1 : nth brokenSheet.knotsU 1 = 0 := by decide +kernel
    have e2 : nth brokenSheet.knotsU 3 = 2 := by decide +kernel
    rw [e1] at h1; rw [e2] at h2
    have h0 : ¬ (0 : ℚ) = x := ne_of_lt h1
    have h3 : ¬ (2 : ℚ) = x := ne_of_gt h2
    by_cases hx : (1 : ℚ) = x <;> simp [brokenSheet, List.count_cons, h0, h3, hx]
  · intro x h1 h2
    have e1 : nth brokenSheet.knotsV 2 = 0 := by decide +kernel
    have e2 : nth brokenSheet.knotsV 5 = 3 := by decide +kernel
    rw [e1] at h1; rw [e2] at h2
    have h0 : ¬ (0 : ℚ) = x := ne_of_lt h1
    have h3 : ¬ (3 : ℚ) = x := ne_of_gt h2
    by_cases hx : (1 : ℚ) = x <;> simp [brokenSheet, List.count_cons, h0, h3, hx]

/-- the four patches of the example, in order -/
theorem C130_concrete : decomposeToPatches brokenSheet = ok
    [⟨1, 2, [0, 0, 1, 1], [0, 0, 0, 1, 1, 1], [[0, 1, 4], [1, 3, 0]]⟩, ⟨1, 2, [0, 0, 1, 1], [0, 0, 0, 1, 1, 1], [[4, 2, 5], [0, 2, 7]]⟩,
     ⟨1, 2, [0, 0, 1, 1], [0, 0, 0, 1, 1, 1], [[1, 3, 0], [2, 2, 6]]⟩, ⟨1, 2, [0, 0, 1, 1], [0, 0, 0, 1, 1, 1], [[0, 2, 7], [6, 1, 0]]⟩] := by
  decide +kernel

/-- an unclamped surface of degree 1×1 that the evaluators accept -/
def looseSheet : BsplineSurface ℚ ℚ := ⟨1, 1, [0, 1, 2, 3], [0, 0, 1, 1], [[0, 1], [2, 5]]⟩

/-- C130 is violated without clamped ends: the surface is well-formed and can be evaluated, but its decomposition writes past the end
of the vector of strips (undefined behaviour) instead of returning its single patch. -/
theorem C130_unclamped_violated : WellFormedS looseSheet 1 1 1 1 ∧ EndsSeparatedS looseSheet 1 1 1 1 ∧ looseSheet.pointOnSurface (3 / 2) (1 / 2) = ok 2 ∧
    decomposeToPatches looseSheet = ub := by
  refine ⟨⟨rfl, rfl, by decide, by decide, by decide, by decide, ⟨rfl, by decide +kernel⟩, by decide, by decide, rfl, rfl, ?_, ?_⟩, ⟨?_, ?_⟩, ?_, ?_⟩
  · intro i j hij hj
    have hj' : j < 4 := hj
    interval_cases j <;> interval_cases i <;> decide +kernel
  · intro i j hij hj
    have hj' : j < 4 := hj
    interval_cases j <;> interval_cases i <;> decide +kernel
  · constructor <;> decide +kernel
  · constructor <;> decide +kernel
  · decide +kernel
  · decide +kernel

/-- a clamped surface of degree 1×1 whose interior knot is repeated `degree + 1` times: two sheets that do not touch -/
def tornSheet : BsplineSurface ℚ ℚ := ⟨1, 1, [0, 0, 1, 1, 2, 2], [0, 0, 1, 1], [[0, 0], [1, 1], [5, 5], [6, 6]]⟩

/-- C130 is violated where an interior knot is repeated `degree + 1` times: the row index `degree - multi` is negative. -/
theorem C130_torn_violated : WellFormedS tornSheet 1 1 3 1 ∧ EndsSeparatedS tornSheet 1 1 3 1 ∧ ClampedEnds (nth tornSheet.knotsU) 1 3 ∧
    ClampedEnds (nth tornSheet.knotsV) 1 1 ∧ tornSheet.pointOnSurface (1 / 2) 0 = ok (1 / 2) ∧ tornSheet.pointOnSurface (3 / 2) 0 = ok (11 / 2) ∧
    decomposeToPatches tornSheet = ub := by
  refine ⟨⟨rfl, rfl, by decide, by decide, by decide, by decide, ⟨rfl, by decide +kernel⟩, by decide, by decide, rfl, rfl, ?_, ?_⟩, ⟨?_, ?_⟩, ?_, ?_, ?_, ?_, ?_⟩
  · intro i j hij hj
    have hj' : j < 6 := hj
    interval_cases j <;> interval_cases i <;> decide +kernel
  · intro i j hij hj
    have hj' : j < 4 := hj
    interval_cases j <;> interval_cases i <;> decide +kernel
  · constructor <;> decide +kernel
  · constructor <;> decide +kernel
  · constructor <;> decide +kernel
  · constructor <;> decide +kernel
  · decide +kernel
  · decide +kernel
  · decide +kernel

end LNLib.Props
