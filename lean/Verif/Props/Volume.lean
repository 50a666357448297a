import Verif.Lemmas.VolumeFibres
import Verif.Core.Stuck
import Verif.Props.KnotInsertion
import Verif.Props.Refine
import Verif.Props.CurveParam
import Verif.Props.Surface

/-! # C50, C52, C77: volumes -/
set_option linter.unusedSectionVars false

namespace LNLib.Props
open LNLib Res Spec Finset

variable {K : Type} [Field K] [LinearOrder K] [IsStrictOrderedRing K]
variable {T : Type} [AddCommGroup T] [Module K T]

/-! ## C50 -/

/-- C50: for every well-formed volume with separated end spans and every parameter triple of its domain the evaluation runs
without undefined behaviour and returns the tensor product sum. -/
theorem C50_eval {c : BsplineVolume K T} {p q r n m l : ℕ} {u v w : K} (wf : WellFormedV c p q r n m l)
    (he : EndsSeparatedV c p q r n m l) (d : InDomainV c p q r n m l u v w) :
    c.pointOnVolume u v w = ok (volumePoint (nth c.knotsU) (nth c.knotsV) (nth c.knotsW) p q r n m l (ent3 c.cps) u v w) :=
  pointOnVolume_eq wf he d

theorem volumePoint_map {S : Type} [AddCommGroup S] [Module K S] (φ : T →ₗ[K] S) {U V W : ℕ → K} {p q r n m l : ℕ} {P : ℕ → ℕ → ℕ → T} {u v w : K} :
    φ (volumePoint U V W p q r n m l P u v w) = volumePoint U V W p q r n m l (fun i j k => φ (P i j k)) u v w := by
  unfold volumePoint
  simp only [map_sum, map_smul]

theorem volumePoint_w {U V W : ℕ → K} {p q r n m l : ℕ} {P : ℕ → ℕ → ℕ → XYZW K} {u v w : K} :
    (volumePoint U V W p q r n m l P u v w).w = volumeWeight U V W p q r n m l P u v w := by
  have : ∀ x : XYZW K, x.w = XYZW.wL x := fun _ => rfl
  rw [this, volumePoint_map]
  rfl

theorem volumePoint_raw {U V W : ℕ → K} {p q r n m l : ℕ} {P : ℕ → ℕ → ℕ → XYZW K} {u v w : K} :
    (volumePoint U V W p q r n m l P u v w).raw = volumePoint U V W p q r n m l (fun i j k => (P i j k).raw) u v w :=
  volumePoint_map XYZW.rawL

/-- C50 (rational): `NurbsVolume::GetPointOnVolume` returns the rational tensor product point whenever the weight function is
beyond the library's zero tolerance. -/
theorem C50_eval_rational {c : NurbsVolume K} {p q r n m l : ℕ} {u v w : K} (wf : WellFormedV c p q r n m l)
    (he : EndsSeparatedV c p q r n m l) (d : InDomainV c p q r n m l u v w)
    (hw : 1 / 1000000 * (1 + |volumeWeight (nth c.knotsU) (nth c.knotsV) (nth c.knotsW) p q r n m l (ent3 c.cps) u v w|) <
      |volumeWeight (nth c.knotsU) (nth c.knotsV) (nth c.knotsW) p q r n m l (ent3 c.cps) u v w|) :
    NurbsVolume.pointOnVolume c u v w = ok (rationalVolumePoint (nth c.knotsU) (nth c.knotsV) (nth c.knotsW) p q r n m l (ent3 c.cps) u v w) := by
  unfold NurbsVolume.pointOnVolume
  rw [C50_eval wf he d, ok_bind, XYZW.toXYZ_eq (by rw [volumePoint_w]; exact hw), volumePoint_w, volumePoint_raw]
  rfl

/-- a volume of degrees 2, 1, 1 used in the examples -/
def exVolume : NurbsVolume ℚ :=
  { degreeU := 2, degreeV := 1, degreeW := 1, knotsU := [0, 0, 0, 1/2, 1, 1, 1], knotsV := [0, 0, 1/3, 1, 1], knotsW := [0, 0, 2, 2]
    cps := [[[⟨0, 0, 0, 1⟩, ⟨0, 0, 1, 1⟩], [⟨0, 1, 0, 1⟩, ⟨0, 1, 1, 1⟩], [⟨0, 3, 0, 1⟩, ⟨0, 3, 1, 1⟩]],
      [[⟨1, 0, 1, 1⟩, ⟨1, 0, 2, 1⟩], [⟨2, 2, 2, 2⟩, ⟨2, 2, 4, 2⟩], [⟨1, 3, 1, 1⟩, ⟨1, 3, 2, 1⟩]],
      [[⟨2, 0, 1, 1⟩, ⟨2, 0, 2, 1⟩], [⟨2, 1, 3, 1⟩, ⟨2, 1, 4, 1⟩], [⟨2, 3, 0, 1⟩, ⟨2, 3, 1, 1⟩]],
      [[⟨3, 0, 0, 1⟩, ⟨3, 0, 1, 1⟩], [⟨3, 1, 0, 1⟩, ⟨3, 1, 1, 1⟩], [⟨3, 3, 1, 1⟩, ⟨3, 3, 5, 1⟩]]] }

theorem exVolume_wf : WellFormedV exVolume 2 1 1 3 2 1 where
  u := ⟨rfl, by decide, by decide, by decide, by decide, isValidKnotVector_nth.mp (by decide +kernel)⟩
  v := ⟨rfl, by decide, by decide, by decide, by decide, isValidKnotVector_nth.mp (by decide +kernel)⟩
  w := ⟨rfl, by decide, by decide, by decide, by decide, isValidKnotVector_nth.mp (by decide +kernel)⟩
  cps := by unfold IsCube IsMat; decide +kernel

theorem exVolume_ends : EndsSeparatedV exVolume 2 1 1 3 2 1 :=
  ⟨⟨by decide +kernel, by decide +kernel⟩, ⟨by decide +kernel, by decide +kernel⟩, ⟨by decide +kernel, by decide +kernel⟩⟩

theorem exVolume_dom : InDomainV exVolume 2 1 1 3 2 1 (3/4) (1/2) 1 :=
  ⟨by decide +kernel, by decide +kernel, by decide +kernel, by decide +kernel, by decide +kernel, by decide +kernel⟩

/-- C50 is not vacuous -/
example : ∃ x, NurbsVolume.pointOnVolume exVolume (3/4) (1/2) 1 = ok x ∧
    x = rationalVolumePoint (nth exVolume.knotsU) (nth exVolume.knotsV) (nth exVolume.knotsW) 2 1 1 3 2 1 (ent3 exVolume.cps) (3/4) (1/2) 1 :=
  ⟨_, C50_eval_rational exVolume_wf exVolume_ends exVolume_dom (by decide +kernel), rfl⟩

theorem span_out {d : ℤ} {U : List K} {p n : ℕ} {t : K} (g : GoodDir d U p n) (h : t < nth U 0 - 1 / 1000000 ∨ nth U (n + p + 1) + 1 / 1000000 < t) :
    getKnotSpanIndex d U t = outOfRange := by
  have hl := g.knots
  have e0 : vget U 0 = ok (nth U 0) := vget_nth (by simp) (by omega)
  have e1 : vget U ((U.length : ℤ) - 1) = ok (nth U (n + p + 1)) := vget_nth (by omega) (by omega)
  rw [getKnotSpanIndex_unfold, g.degree]
  simp [isValidKnotVector_nth.mpr g.sorted, e0, e1, validateRange_out h, show 0 < U.length by omega]

/-- C50: a parameter outside one of the three knot ranges by more than `1e-6` is rejected with `out_of_range` (the parameters of the directions before it being in range). -/
theorem C50_out_of_range {c : BsplineVolume K T} {p q r n m l : ℕ} {u v w : K} (wf : WellFormedV c p q r n m l) (he : EndsSeparatedV c p q r n m l)
    (h : (u < nth c.knotsU 0 - 1 / 1000000 ∨ nth c.knotsU (n + p + 1) + 1 / 1000000 < u) ∨
      ((nth c.knotsU p ≤ u ∧ u ≤ nth c.knotsU (n + 1)) ∧ (v < nth c.knotsV 0 - 1 / 1000000 ∨ nth c.knotsV (m + q + 1) + 1 / 1000000 < v)) ∨
      ((nth c.knotsU p ≤ u ∧ u ≤ nth c.knotsU (n + 1)) ∧ (nth c.knotsV q ≤ v ∧ v ≤ nth c.knotsV (m + 1)) ∧
        (w < nth c.knotsW 0 - 1 / 1000000 ∨ nth c.knotsW (l + r + 1) + 1 / 1000000 < w))) : c.pointOnVolume u v w = outOfRange := by
  unfold BsplineVolume.pointOnVolume
  rcases h with h | ⟨hu, h⟩ | ⟨hu, hv, h⟩
  · rw [span_out wf.u h]; rfl
  · obtain ⟨s1, B1, f1, hs1, f2, f3⟩ := spanBasis wf.u.le7 wf.u.knots wf.u.pn wf.u.sorted he.u hu.1 hu.2
    rw [span_out wf.v h, wf.u.degree, f1, ok_bind, f2]; rfl
  · obtain ⟨s1, B1, f1, hs1, f2, f3⟩ := spanBasis wf.u.le7 wf.u.knots wf.u.pn wf.u.sorted he.u hu.1 hu.2
    obtain ⟨s2, B2, g1, hs2, g2, g3⟩ := spanBasis wf.v.le7 wf.v.knots wf.v.pn wf.v.sorted he.v hv.1 hv.2
    rw [span_out wf.w h, wf.u.degree, wf.v.degree, f1, ok_bind, f2, ok_bind, g1, ok_bind, g2]; rfl

example : BsplineVolume.pointOnVolume exVolume (1/4) (1/2) 3 = outOfRange :=
  C50_out_of_range exVolume_wf exVolume_ends (by decide +kernel)

/-! ## C77: knot insertion -/

theorem perm_sorted_eq {a b : List K} (h : a.Perm b) (ha : ∀ i j, i ≤ j → j < a.length → nth a i ≤ nth a j)
    (hb : ∀ i j, i ≤ j → j < b.length → nth b i ≤ nth b j) : a = b :=
  List.Perm.eq_of_pairwise (fun _ _ _ _ h1 h2 => le_antisymm h1 h2) ((isValidKnotVector_iff a).mp (isValidKnotVector_nth.mpr ha))
    ((isValidKnotVector_iff b).mp (isValidKnotVector_nth.mpr hb)) h

theorem insertFibre (T : Type) [AddCommGroup T] [Module K T] {d : ℤ} {U : List K} {p n t : ℕ} {u : K} (g : GoodDir d U p n) (he : EndsSeparated (nth U) p n) (hsep : KnotSeparated U u)
    (h0 : nth U p < u) (h1 : u < nth U (n + 1)) (ht : 0 < t) (hmul : U.count u + t ≤ p + 1) :
    ∃ kv, GoodDir d kv p (n + t) ∧ kv.Perm (U ++ List.replicate t u) ∧ EndsSeparated (nth kv) p (n + t) ∧ nth kv p = nth U p ∧
      nth kv (n + t + 1) = nth U (n + 1) ∧
      ∀ f : ℕ → T, ∃ R : BsplineCurve K T, (insertKnot (fibre d U n f) u (t : ℤ) { degree := 1, knots := [], cps := [] } >>= fun x => ok x.2) = ok R ∧
        R.knots = kv ∧ R.cps.length = n + t + 1 ∧
        ∀ x, nth U p ≤ x → x ≤ nth U (n + 1) → curvePoint (nth kv) p (n + t) (nth R.cps) x = curvePoint (nth U) p n f x := by
  have key : ∀ f : ℕ → T, ∃ R : BsplineCurve K T, (insertKnot (fibre d U n f) u (t : ℤ) { degree := 1, knots := [], cps := [] } >>= fun x => ok x.2) = ok R ∧
      WellFormed R p (n + t) ∧ R.knots.Perm (U ++ List.replicate t u) ∧ EndsSeparated (nth R.knots) p (n + t) ∧ nth R.knots p = nth U p ∧
      nth R.knots (n + t + 1) = nth U (n + 1) ∧
      ∀ x, nth U p ≤ x → x ≤ nth U (n + 1) → curvePoint (nth R.knots) p (n + t) (nth R.cps) x = curvePoint (nth U) p n f x := by
    intro f
    have hi : inserted p (U.count u) (t : ℤ) = t := by unfold inserted; rw [if_pos (by omega)]
    obtain ⟨R, e, -, h⟩ := C12_insert_valid (res := { degree := 1, knots := [], cps := [] }) (r := t) (fibre_wf (f := f) g) he hsep h0 h1 (by omega)
    change _ = ok (inserted p (U.count u) (t : ℤ), R) at e
    change 0 < inserted p (U.count u) (t : ℤ) → WellFormed R p (n + (inserted p (U.count u) (t : ℤ)).toNat) ∧
      R.knots.Perm (U ++ List.replicate (inserted p (U.count u) (t : ℤ)).toNat u) ∧
      EndsSeparated (nth R.knots) p (n + (inserted p (U.count u) (t : ℤ)).toNat) ∧ nth R.knots p = nth U p ∧
      nth R.knots (n + (inserted p (U.count u) (t : ℤ)).toNat + 1) = nth U (n + 1) ∧ _ at h
    rw [hi] at e h
    obtain ⟨g1, g2, g3, g4, g5, g6⟩ := h (by omega)
    have g6' : ∀ x, nth U p ≤ x → x ≤ nth U (n + 1) →
          curvePoint (nth R.knots) p (n + (inserted p (U.count u) (t : ℤ)).toNat) (nth R.cps) x = curvePoint (nth U) p n (nth (fibre d U n f).cps) x := g6
    rw [hi] at g6'
    rw [Int.toNat_natCast] at g1 g2 g3 g5 g6'
    refine ⟨R, by rw [e]; rfl, g1, g2, g3, g4, g5, fun x h1 h2 => ?_⟩
    rw [g6' x h1 h2, fibre_curve]
  obtain ⟨R0, -, w0, p0, s0, a0, b0, -⟩ := key (fun _ => 0)
  refine ⟨R0.knots, ⟨g.degree, g.pos, g.le7, by have := g.pn; omega, w0.knots, w0.sorted⟩, p0, s0, a0, b0, fun f => ?_⟩
  obtain ⟨R, e, w, pr, -, -, -, h⟩ := key f
  have hk := perm_sorted_eq (pr.trans p0.symm) w.sorted w0.sorted
  rw [hk] at h
  exact ⟨R, e, hk, w.cps, h⟩

/-- C77 (U): inserting a knot `t` times (old multiplicity plus `t` at most degree plus one) gives a well-formed volume with the knot
added, other directions untouched, and the same point at every parameter triple. -/
theorem C77_insert_u {c : BsplineVolume K T} {p q r n m l t : ℕ} {x : K} (wf : WellFormedV c p q r n m l) (he : EndsSeparatedV c p q r n m l)
    (hsep : KnotSeparated c.knotsU x) (h0 : nth c.knotsU p < x) (h1 : x < nth c.knotsU (n + 1)) (ht : 0 < t) (hmul : c.knotsU.count x + t ≤ p + 1) :
    ∃ c', insertKnotVolume c x t .u = ok c' ∧ WellFormedV c' p q r (n + t) m l ∧ EndsSeparatedV c' p q r (n + t) m l ∧
      c'.knotsU.Perm (c.knotsU ++ List.replicate t x) ∧ c'.knotsV = c.knotsV ∧ c'.knotsW = c.knotsW ∧
      ∀ u v w, InDomainV c p q r n m l u v w → InDomainV c' p q r (n + t) m l u v w ∧ c'.pointOnVolume u v w = c.pointOnVolume u v w := by
  obtain ⟨kv, g1, g2, g3, g4, g5, hf⟩ := insertFibre T wf.u he.u hsep h0 h1 ht hmul
  choose R hR using hf
  have hgrow : grownNet (T := T) .u (n : ℤ) (m : ℤ) (l : ℤ) (t : ℤ) = newNet (((n + t : ℕ) : ℤ) + 1) ((m : ℤ) + 1) ((l : ℤ) + 1) := by
    unfold grownNet; push_cast; rfl
  obtain ⟨net, e, hn, hv⟩ := alongU_run (c := c) (n := n) (n' := n + t) (m := m) (l := l) wf.cps (kv := kv)
    (op := fun crv => insertKnot crv x (t : ℤ) { degree := 1, knots := [], cps := [] } >>= fun x => ok x.2)
    (net := newNet (((n + t : ℕ) : ℤ) + 1) ((m : ℤ) + 1) ((l : ℤ) + 1)) isCube_newNet (R := fun j k => R fun i => ent3 c.cps i j k)
    (fun j _ k _ => ⟨(hR _).1, (hR _).2.1, (hR _).2.2.1⟩)
  have w' : WellFormedV { c with knotsU := kv, cps := net } p q r (n + t) m l := ⟨g1, wf.v, wf.w, hn⟩
  have e' : EndsSeparatedV { c with knotsU := kv, cps := net } p q r (n + t) m l := ⟨g3, he.v, he.w⟩
  refine ⟨{ c with knotsU := kv, cps := net }, ?_, w', e', g2, rfl, rfl, ?_⟩
  · unfold insertKnotVolume
    rw [sizes_ok wf.cps, ok_bind]
    dsimp only
    rw [hgrow, ← e]
  · intro u v w d
    have d' : InDomainV { c with knotsU := kv, cps := net } p q r (n + t) m l u v w :=
      ⟨by dsimp only; rw [g4]; exact d.u0, by dsimp only; rw [g5]; exact d.u1, d.v0, d.v1, d.w0, d.w1⟩
    refine ⟨d', ?_⟩
    rw [C50_eval w' e' d', C50_eval wf he d]
    refine congrArg ok (volumePoint_along fun j hj k hk => ?_)
    rw [← (hR fun i => ent3 c.cps i j k).2.2.2 u d.u0 d.u1]
    exact curvePoint_congr fun i hi => hv i hi j hj k hk

/-- C77 (V) -/
theorem C77_insert_v {c : BsplineVolume K T} {p q r n m l t : ℕ} {x : K} (wf : WellFormedV c p q r n m l) (he : EndsSeparatedV c p q r n m l)
    (hsep : KnotSeparated c.knotsV x) (h0 : nth c.knotsV q < x) (h1 : x < nth c.knotsV (m + 1)) (ht : 0 < t) (hmul : c.knotsV.count x + t ≤ q + 1) :
    ∃ c', insertKnotVolume c x t .v = ok c' ∧ WellFormedV c' p q r n (m + t) l ∧ EndsSeparatedV c' p q r n (m + t) l ∧
      c'.knotsV.Perm (c.knotsV ++ List.replicate t x) ∧ c'.knotsU = c.knotsU ∧ c'.knotsW = c.knotsW ∧
      ∀ u v w, InDomainV c p q r n m l u v w → InDomainV c' p q r n (m + t) l u v w ∧ c'.pointOnVolume u v w = c.pointOnVolume u v w := by
  obtain ⟨kv, g1, g2, g3, g4, g5, hf⟩ := insertFibre T wf.v he.v hsep h0 h1 ht hmul
  choose R hR using hf
  have hgrow : grownNet (T := T) .v (n : ℤ) (m : ℤ) (l : ℤ) (t : ℤ) = newNet ((n : ℤ) + 1) (((m + t : ℕ) : ℤ) + 1) ((l : ℤ) + 1) := by
    unfold grownNet; push_cast; rfl
  obtain ⟨net, e, hn, hv⟩ := alongV_run (c := c) (n := n) (m := m) (m' := m + t) (l := l) wf.cps (kv := kv)
    (op := fun crv => insertKnot crv x (t : ℤ) { degree := 1, knots := [], cps := [] } >>= fun x => ok x.2)
    (net := newNet ((n : ℤ) + 1) (((m + t : ℕ) : ℤ) + 1) ((l : ℤ) + 1)) isCube_newNet (R := fun i k => R fun j => ent3 c.cps i j k)
    (fun i _ k _ => ⟨(hR _).1, (hR _).2.1, (hR _).2.2.1⟩)
  have w' : WellFormedV { c with knotsV := kv, cps := net } p q r n (m + t) l := ⟨wf.u, g1, wf.w, hn⟩
  have e' : EndsSeparatedV { c with knotsV := kv, cps := net } p q r n (m + t) l := ⟨he.u, g3, he.w⟩
  refine ⟨{ c with knotsV := kv, cps := net }, ?_, w', e', g2, rfl, rfl, ?_⟩
  · unfold insertKnotVolume
    rw [sizes_ok wf.cps, ok_bind]
    dsimp only
    rw [hgrow, ← e]
  · intro u v w d
    have d' : InDomainV { c with knotsV := kv, cps := net } p q r n (m + t) l u v w :=
      ⟨d.u0, d.u1, by dsimp only; rw [g4]; exact d.v0, by dsimp only; rw [g5]; exact d.v1, d.w0, d.w1⟩
    refine ⟨d', ?_⟩
    rw [C50_eval w' e' d', C50_eval wf he d]
    refine congrArg ok ?_
    rw [volumePoint_swapUV, volumePoint_swapUV (U := nth c.knotsU)]
    refine volumePoint_along fun i hi k hk => ?_
    rw [← (hR fun j => ent3 c.cps i j k).2.2.2 v d.v0 d.v1]
    exact curvePoint_congr fun j hj => hv i hi j hj k hk

/-- C77 (W) -/
theorem C77_insert_w {c : BsplineVolume K T} {p q r n m l t : ℕ} {x : K} (wf : WellFormedV c p q r n m l) (he : EndsSeparatedV c p q r n m l)
    (hsep : KnotSeparated c.knotsW x) (h0 : nth c.knotsW r < x) (h1 : x < nth c.knotsW (l + 1)) (ht : 0 < t) (hmul : c.knotsW.count x + t ≤ r + 1) :
    ∃ c', insertKnotVolume c x t .w = ok c' ∧ WellFormedV c' p q r n m (l + t) ∧ EndsSeparatedV c' p q r n m (l + t) ∧
      c'.knotsW.Perm (c.knotsW ++ List.replicate t x) ∧ c'.knotsU = c.knotsU ∧ c'.knotsV = c.knotsV ∧
      ∀ u v w, InDomainV c p q r n m l u v w → InDomainV c' p q r n m (l + t) u v w ∧ c'.pointOnVolume u v w = c.pointOnVolume u v w := by
  obtain ⟨kv, g1, g2, g3, g4, g5, hf⟩ := insertFibre T wf.w he.w hsep h0 h1 ht hmul
  choose R hR using hf
  have hgrow : grownNet (T := T) .w (n : ℤ) (m : ℤ) (l : ℤ) (t : ℤ) = newNet ((n : ℤ) + 1) ((m : ℤ) + 1) (((l + t : ℕ) : ℤ) + 1) := by
    unfold grownNet; push_cast; rfl
  obtain ⟨net, e, hn, hv⟩ := alongW_run (c := c) (n := n) (m := m) (l := l) (l' := l + t) wf.cps (kv := kv)
    (op := fun crv => insertKnot crv x (t : ℤ) { degree := 1, knots := [], cps := [] } >>= fun x => ok x.2)
    (net := newNet ((n : ℤ) + 1) ((m : ℤ) + 1) (((l + t : ℕ) : ℤ) + 1)) isCube_newNet (R := fun i j => R fun k => ent3 c.cps i j k)
    (fun i _ j _ => ⟨(hR _).1, (hR _).2.1, (hR _).2.2.1⟩)
  have w' : WellFormedV { c with knotsW := kv, cps := net } p q r n m (l + t) := ⟨wf.u, wf.v, g1, hn⟩
  have e' : EndsSeparatedV { c with knotsW := kv, cps := net } p q r n m (l + t) := ⟨he.u, he.v, g3⟩
  refine ⟨{ c with knotsW := kv, cps := net }, ?_, w', e', g2, rfl, rfl, ?_⟩
  · unfold insertKnotVolume
    rw [sizes_ok wf.cps, ok_bind]
    dsimp only
    rw [hgrow, ← e]
  · intro u v w d
    have d' : InDomainV { c with knotsW := kv, cps := net } p q r n m (l + t) u v w :=
      ⟨d.u0, d.u1, d.v0, d.v1, by dsimp only; rw [g4]; exact d.w0, by dsimp only; rw [g5]; exact d.w1⟩
    refine ⟨d', ?_⟩
    rw [C50_eval w' e' d', C50_eval wf he d]
    refine congrArg ok ?_
    rw [volumePoint_swapUW, volumePoint_swapUW (U := nth c.knotsU)]
    refine volumePoint_along fun j hj i hi => ?_
    rw [← (hR fun k => ent3 c.cps i j k).2.2.2 w d.w0 d.w1]
    exact curvePoint_congr fun k hk => hv i hi j hj k hk

/-- C77 is not vacuous: `1/2` is raised to multiplicity two in U -/
example : ∃ c', insertKnotVolume exVolume (1/2) 1 .u = ok c' ∧ c'.knotsU = [0, 0, 0, 1/2, 1/2, 1, 1, 1] ∧ BsplineVolume.pointOnVolume c' (3/4) (1/2) 1 = BsplineVolume.pointOnVolume exVolume (3/4) (1/2) 1 := by
  obtain ⟨c', e, w, -, g, -, -, h⟩ := C77_insert_u (t := 1) (x := 1/2) exVolume_wf exVolume_ends (by unfold KnotSeparated; decide +kernel) (by decide +kernel) (by decide +kernel)
    (by decide) (by decide +kernel)
  refine ⟨c', e, ?_, (h _ _ _ exVolume_dom).2⟩
  exact perm_sorted_eq (g.trans (by decide +kernel)) w.u.sorted (isValidKnotVector_nth.mp (by decide +kernel))

/-- C77 is not vacuous in the other directions -/
example : (∃ c', insertKnotVolume exVolume (1/2) 2 .v = ok c' ∧ WellFormedV c' 2 1 1 3 4 1) ∧ (∃ c', insertKnotVolume exVolume 1 1 .w = ok c' ∧ WellFormedV c' 2 1 1 3 2 2) := by
  obtain ⟨c', e, w, -⟩ := C77_insert_v (t := 2) (x := 1/2) exVolume_wf exVolume_ends (by unfold KnotSeparated; decide +kernel) (by decide +kernel) (by decide +kernel)
    (by decide) (by decide +kernel)
  obtain ⟨c'', e', w', -⟩ := C77_insert_w (t := 1) (x := 1) exVolume_wf exVolume_ends (by unfold KnotSeparated; decide +kernel) (by decide +kernel) (by decide +kernel)
    (by decide) (by decide +kernel)
  exact ⟨⟨c', e, w⟩, ⟨c'', e', w'⟩⟩

/-- C77 disagreement: an insertion that the curve operation refuses (the multiplicity would exceed degree plus one) does not leave the
volume alone; the result has an empty knot vector and zero control points. -/
theorem C77_refused_insertion_corrupts : ∃ c', insertKnotVolume exVolume (1/2) 3 .u = ok c' ∧ c'.knotsU = [] ∧ c'.cps.length = 7 ∧
    ∀ p q r n m l, ¬ WellFormedV c' p q r n m l := by
  have h : (insertKnotVolume exVolume (1/2) 3 .u).bind (fun c => ok (c.knotsU, c.cps.length)) = ok ([], 7) := by decide +kernel
  cases e : insertKnotVolume exVolume (1/2) 3 .u with
  | ok c' =>
    rw [e] at h
    change ok (c'.knotsU, c'.cps.length) = ok ([], 7) at h
    simp only [ok.injEq, Prod.mk.injEq] at h
    refine ⟨c', rfl, h.1, h.2, fun p q r n m l w => ?_⟩
    have := w.u.knots
    rw [h.1] at this
    simp at this
  | _ => rw [e] at h; cases h

/-! ## C52: Swap -/

theorem mapR_ok {α β : Type} {f : α → Res β} {g : α → β} {l : List α} (h : ∀ x ∈ l, f x = ok (g x)) : mapR f l = ok (l.map g) := by
  induction l with
  | nil => rfl
  | cons x l ih =>
    unfold mapR
    rw [h x (by simp), ok_bind, ih (fun y hy => h y (by simp [hy]))]
    rfl

theorem tabulate_ok {a b d : ℕ} {read : ℤ → ℤ → ℤ → Res T} {f : ℕ → ℕ → ℕ → T}
    (h : ∀ i < a, ∀ j < b, ∀ k < d, read (i : ℤ) (j : ℤ) (k : ℤ) = ok (f i j k)) :
    ∃ net, tabulate a b d read = ok net ∧ IsCube net a b d ∧ ∀ i < a, ∀ j < b, ∀ k < d, ent3 net i j k = f i j k := by
  refine ⟨(List.range a).map fun i => (List.range b).map fun j => (List.range d).map fun k => f i j k, ?_, ?_, ?_⟩
  · unfold tabulate
    rw [mapR_ok (g := fun i : ℤ => (List.range b).map fun j => (List.range d).map fun k => f i.toNat j k), List.map_map]
    · rfl
    · simp only [List.mem_map, List.mem_range]
      rintro _ ⟨i, hi, rfl⟩
      rw [mapR_ok (g := fun j : ℤ => (List.range d).map fun k => f i j.toNat k), List.map_map]
      · rfl
      · simp only [List.mem_map, List.mem_range]
        rintro _ ⟨j, hj, rfl⟩
        rw [mapR_ok (g := fun k : ℤ => f i j k.toNat), List.map_map]
        · rfl
        · simp only [List.mem_map, List.mem_range]
          rintro _ ⟨k, hk, rfl⟩
          exact h i hi j hj k hk
  · refine ⟨by simp, fun i hi => ?_⟩
    have : row ((List.range a).map fun i => (List.range b).map fun j => (List.range d).map fun k => f i j k) i = (List.range b).map fun j => (List.range d).map fun k => f i j k := by
      simp [row, hi]
    rw [this]
    refine ⟨by simp, fun j hj => ?_⟩
    simp [row, hj]
  · intro i hi j hj k hk
    simp [ent3, ent, row, nth, hi, hj, hk]

/-- C52 (Swap of U and V): the result is well formed and `S(v,u,w) = V(u,v,w)`. -/
theorem C52_swap_uv {c res : BsplineVolume K T} {p q r n m l : ℕ} (wf : WellFormedV c p q r n m l) :
    ∃ s, swapVolume c .u .v res = ok s ∧ WellFormedV s q p r m n l ∧
      (EndsSeparatedV c p q r n m l → ∀ u v w, InDomainV c p q r n m l u v w → s.pointOnVolume v u w = c.pointOnVolume u v w) := by
  obtain ⟨net, e, h1, h2⟩ := tabulate_ok (a := m + 1) (b := n + 1) (d := l + 1) (read := fun j i k => cget c.cps i j k) (f := fun j i k => ent3 c.cps i j k)
    (fun j hj i hi k hk => cget_ent3 wf.cps rfl rfl rfl hi hj hk)
  have h0 := wf.cps.2 0 (by omega)
  have w' : WellFormedV (BsplineVolume.mk c.degreeV c.degreeU c.degreeW c.knotsV c.knotsU c.knotsW net) q p r m n l := ⟨wf.v, wf.u, wf.w, h1⟩
  refine ⟨_, ?_, w', ?_⟩
  · unfold swapVolume
    rw [vget_row (i := 0) (k := 0) rfl (by rw [wf.cps.1]; omega), ok_bind, vget_row (i := 0) (k := 0) rfl (by rw [h0.1]; omega), ok_bind]
    dsimp only
    rw [h0.1, h0.2 0 (by omega), wf.cps.1, e]
    rfl
  · intro he u v w d
    rw [C50_eval w' ⟨he.v, he.u, he.w⟩ ⟨d.v0, d.v1, d.u0, d.u1, d.w0, d.w1⟩, C50_eval wf he d]
    refine congrArg ok ?_
    rw [volumePoint_swapUV]
    exact volumePoint_congr fun i hi j hj k hk => h2 j (by omega) i (by omega) k (by omega)

/-- C52 (Swap of U and W): `S(w,v,u) = V(u,v,w)`. -/
theorem C52_swap_uw {c res : BsplineVolume K T} {p q r n m l : ℕ} (wf : WellFormedV c p q r n m l) :
    ∃ s, swapVolume c .u .w res = ok s ∧ WellFormedV s r q p l m n ∧
      (EndsSeparatedV c p q r n m l → ∀ u v w, InDomainV c p q r n m l u v w → s.pointOnVolume w v u = c.pointOnVolume u v w) := by
  obtain ⟨net, e, h1, h2⟩ := tabulate_ok (a := l + 1) (b := m + 1) (d := n + 1) (read := fun k j i => cget c.cps i j k) (f := fun k j i => ent3 c.cps i j k)
    (fun k hk j hj i hi => cget_ent3 wf.cps rfl rfl rfl hi hj hk)
  have h0 := wf.cps.2 0 (by omega)
  have w' : WellFormedV (BsplineVolume.mk c.degreeW c.degreeV c.degreeU c.knotsW c.knotsV c.knotsU net) r q p l m n := ⟨wf.w, wf.v, wf.u, h1⟩
  refine ⟨_, ?_, w', ?_⟩
  · unfold swapVolume
    rw [vget_row (i := 0) (k := 0) rfl (by rw [wf.cps.1]; omega), ok_bind, vget_row (i := 0) (k := 0) rfl (by rw [h0.1]; omega), ok_bind]
    dsimp only
    rw [h0.1, h0.2 0 (by omega), wf.cps.1, e]
    rfl
  · intro he u v w d
    rw [C50_eval w' ⟨he.w, he.v, he.u⟩ ⟨d.w0, d.w1, d.v0, d.v1, d.u0, d.u1⟩, C50_eval wf he d]
    refine congrArg ok ?_
    rw [volumePoint_swapUW]
    exact volumePoint_congr fun i hi j hj k hk => h2 k (by omega) j (by omega) i (by omega)

/-- C52 (Swap of V and W): `S(u,w,v) = V(u,v,w)`. -/
theorem C52_swap_vw {c res : BsplineVolume K T} {p q r n m l : ℕ} (wf : WellFormedV c p q r n m l) :
    ∃ s, swapVolume c .v .w res = ok s ∧ WellFormedV s p r q n l m ∧
      (EndsSeparatedV c p q r n m l → ∀ u v w, InDomainV c p q r n m l u v w → s.pointOnVolume u w v = c.pointOnVolume u v w) := by
  obtain ⟨net, e, h1, h2⟩ := tabulate_ok (a := n + 1) (b := l + 1) (d := m + 1) (read := fun i k j => cget c.cps i j k) (f := fun i k j => ent3 c.cps i j k)
    (fun i hi k hk j hj => cget_ent3 wf.cps rfl rfl rfl hi hj hk)
  have h0 := wf.cps.2 0 (by omega)
  have w' : WellFormedV (BsplineVolume.mk c.degreeU c.degreeW c.degreeV c.knotsU c.knotsW c.knotsV net) p r q n l m := ⟨wf.u, wf.w, wf.v, h1⟩
  refine ⟨_, ?_, w', ?_⟩
  · unfold swapVolume
    rw [vget_row (i := 0) (k := 0) rfl (by rw [wf.cps.1]; omega), ok_bind, vget_row (i := 0) (k := 0) rfl (by rw [h0.1]; omega), ok_bind]
    dsimp only
    rw [h0.1, h0.2 0 (by omega), wf.cps.1, e]
    rfl
  · intro he u v w d
    rw [C50_eval w' ⟨he.u, he.w, he.v⟩ ⟨d.u0, d.u1, d.w0, d.w1, d.v0, d.v1⟩, C50_eval wf he d]
    refine congrArg ok ?_
    rw [volumePoint_swapVW]
    exact volumePoint_congr fun i hi j hj k hk => h2 i (by omega) k (by omega) j (by omega)

/-- C52 disagreement: naming the two directions in the opposite order does nothing; the caller's output object is returned as it was. -/
theorem C52_swap_order_ignored {c res : BsplineVolume K T} {p q r n m l : ℕ} (wf : WellFormedV c p q r n m l) :
    swapVolume c .v .u res = ok res ∧ swapVolume c .w .u res = ok res ∧ swapVolume c .w .v res = ok res := by
  have h0 := wf.cps.2 0 (by omega)
  unfold swapVolume
  rw [vget_row (i := 0) (k := 0) rfl (by rw [wf.cps.1]; omega), ok_bind, vget_row (i := 0) (k := 0) rfl (by rw [h0.1]; omega), ok_bind]
  exact ⟨rfl, rfl, rfl⟩

/-! ## C52: Reverse -/

theorem reverseFibre (T : Type) [AddCommGroup T] [Module K T] {d : ℤ} {U : List K} {p n : ℕ} (g : GoodDir d U p n) :
    ∃ V, GoodDir d V p n ∧ (∀ j ≤ n + p + 1, nth V j = nth U 0 + nth U (n + p + 1) - nth U (n + p + 1 - j)) ∧
      ∀ f : ℕ → T, ∃ R : BsplineCurve K T, reverseCurve (fibre d U n f) = ok R ∧ R.knots = V ∧ R.cps.length = n + 1 ∧
        (EndsSeparated (nth U) p n → EndsSeparated (nth V) p n → ∀ t, nth U p ≤ t → t ≤ nth U (n + 1) →
          (nth U p < t → t < nth U (n + 1) → U.count t ≤ p) →
          curvePoint (nth V) p n (nth R.cps) (nth U 0 + nth U (n + p + 1) - t) = curvePoint (nth U) p n f t) := by
  have hl := g.knots
  have hne : U ≠ [] := by
    intro h
    rw [h] at hl; simp at hl
  obtain ⟨V, -, r2, r3⟩ := reverse_run (c := fibre d U n (fun _ => (0 : T))) hne
  have r2' : V.length = U.length := r2
  have r3' : ∀ j, j < U.length → nth V j = nth U 0 + nth U (U.length - 1) - nth U (U.length - 1 - j) := r3
  have key : ∀ f : ℕ → T, ∃ R : BsplineCurve K T, reverseCurve (fibre d U n f) = ok R ∧ R.knots = V ∧ WellFormed R p n ∧
        (EndsSeparated (nth U) p n → EndsSeparated (nth R.knots) p n → ∀ t, nth U p ≤ t → t ≤ nth U (n + 1) →
          (nth U p < t → t < nth U (n + 1) → U.count t ≤ p) →
          R.pointOnCurve (nth U 0 + nth U (n + p + 1) - t) = (fibre d U n f).pointOnCurve t) := by
    intro f
    obtain ⟨V', e, l1, l2⟩ := reverse_run (c := fibre d U n f) hne
    obtain ⟨R, e', w, -, -, -, h⟩ := C21_reverse (fibre_wf (f := f) g)
    refine ⟨R, e', ?_, w, h⟩
    rw [e] at e'
    cases e'
    refine ext_nth (l1.trans r2'.symm) ?_
    intro i hi
    have hi' : i < U.length := l1 ▸ hi
    rw [r3' i hi']
    exact l2 i hi'
  have hV : ∀ j ≤ n + p + 1, nth V j = nth U 0 + nth U (n + p + 1) - nth U (n + p + 1 - j) := by
    intro j hj
    rw [r3' j (by omega), hl]
    rfl
  obtain ⟨R0, -, k0, w0, -⟩ := key (fun _ => 0)
  refine ⟨V, ⟨g.degree, g.pos, g.le7, g.pn, by omega, by rw [← k0]; exact w0.sorted⟩, hV, fun f => ?_⟩
  obtain ⟨R, e, k, w, h⟩ := key f
  refine ⟨R, e, k, w.cps, ?_⟩
  intro he he' t h0 h1 hc
  have hpn := g.pn
  have := h he (k ▸ he') t h0 h1 hc
  rw [C05_eval (fibre_wf g) he h0 h1, C05_eval w (k ▸ he') (by rw [k, hV p (by omega), show n + p + 1 - p = n + 1 by omega]; linarith)
    (by rw [k, hV (n + 1) (by omega), show n + p + 1 - (n + 1) = p by omega]; linarith), k] at this
  simp only [ok.injEq] at this
  rw [this]
  exact fibre_curve (d := d)

/-- C52 (Reverse in U): `R(a+b-u, v, w) = V(u, v, w)` wherever the volume is continuous in U (end points of the domain, and interior
parameters that are knots of multiplicity at most the degree). -/
theorem C52_reverse_u_partial {c : BsplineVolume K T} {p q r n m l : ℕ} (wf : WellFormedV c p q r n m l) :
    ∃ s, reverseVolume c .u = ok s ∧ WellFormedV s p q r n m l ∧ nth s.knotsU 0 = nth c.knotsU 0 ∧ nth s.knotsU (n + p + 1) = nth c.knotsU (n + p + 1) ∧
      (EndsSeparatedV c p q r n m l → EndsSeparatedV s p q r n m l → ∀ u v w, InDomainV c p q r n m l u v w →
        (nth c.knotsU p < u → u < nth c.knotsU (n + 1) → c.knotsU.count u ≤ p) →
        s.pointOnVolume (nth c.knotsU 0 + nth c.knotsU (n + p + 1) - u) v w = c.pointOnVolume u v w) := by
  obtain ⟨V, g1, g2, hf⟩ := reverseFibre T wf.u
  have hpn := wf.u.pn
  choose R hR using hf
  obtain ⟨net, e, hn, hv⟩ := alongU_run (c := c) (n := n) (n' := n) (m := m) (l := l) wf.cps (kv := V) (op := reverseCurve)
    (net := newNet ((n : ℤ) + 1) ((m : ℤ) + 1) ((l : ℤ) + 1)) isCube_newNet (R := fun j k => R fun i => ent3 c.cps i j k)
    (fun j _ k _ => ⟨(hR _).1, (hR _).2.1, (hR _).2.2.1⟩)
  have w' : WellFormedV { c with knotsU := V, cps := net } p q r n m l := ⟨g1, wf.v, wf.w, hn⟩
  refine ⟨{ c with knotsU := V, cps := net }, ?_, w', ?_, ?_, ?_⟩
  · unfold reverseVolume
    rw [sizes_ok wf.cps, ok_bind]
    dsimp only
    rw [if_pos rfl, ← e]
  · dsimp only
    rw [g2 0 (by omega), Nat.sub_zero]; ring
  · dsimp only
    rw [g2 _ (le_refl _), Nat.sub_self]; ring
  · intro he he' u v w d hc
    have d' : InDomainV { c with knotsU := V, cps := net } p q r n m l (nth c.knotsU 0 + nth c.knotsU (n + p + 1) - u) v w := by
      refine ⟨?_, ?_, d.v0, d.v1, d.w0, d.w1⟩
      · dsimp only
        rw [g2 p (by omega), show n + p + 1 - p = n + 1 by omega]
        have := d.u1
        linarith
      · dsimp only
        rw [g2 (n + 1) (by omega), show n + p + 1 - (n + 1) = p by omega]
        have := d.u0
        linarith
    rw [C50_eval w' he' d', C50_eval wf he d]
    refine congrArg ok (volumePoint_along fun j hj k hk => ?_)
    rw [← (hR fun i => ent3 c.cps i j k).2.2.2 he.u he'.u u d.u0 d.u1 hc]
    exact curvePoint_congr fun i hi => hv i hi j hj k hk

/-- C52 is not vacuous: the example volume meets the hypotheses, and so does its reversal -/
example : ∃ s, reverseVolume exVolume .u = ok s ∧ s.knotsU = [0, 0, 0, 1/2, 1, 1, 1] := by
  obtain ⟨V, g1, g2, -⟩ := reverseFibre (XYZW ℚ) exVolume_wf.u
  obtain ⟨s, e, -⟩ := C52_reverse_u_partial exVolume_wf
  have : (reverseVolume exVolume .u).bind (fun c => ok c.knotsU) = ok [0, 0, 0, 1/2, 1, 1, 1] := by decide +kernel
  rw [e] at this
  exact ⟨s, e, by simpa [Res.bind] using this⟩

/-- C52 violated: `Reverse` in V writes into an array that was never sized, for every well-formed volume. -/
theorem C52_reverse_v_violated {c : BsplineVolume K T} {p q r n m l : ℕ} (wf : WellFormedV c p q r n m l) : reverseVolume c .v = ub := by
  obtain ⟨V, g1, g2, hf⟩ := reverseFibre T wf.v
  obtain ⟨R, e, -, hl, -⟩ := hf (fun j => ent3 c.cps 0 j 0)
  unfold reverseVolume
  rw [sizes_ok wf.cps, ok_bind]
  dsimp only
  rw [if_neg (by decide)]
  unfold alongFibres
  dsimp only
  have := fibreLoop_ub (a := l + 1) (b := n + 1) (n := m) (read := fun sep row j => cget c.cps row j sep) (f := fun j => ent3 c.cps 0 j 0)
    (write := fun net sep row j x => cset net row j sep x) (degree := c.degreeV) (knots := c.knotsV) (op := reverseCurve) (net := []) (r := R) (by omega) (by omega)
    (fun k hk => cget_ent3 wf.cps rfl rfl rfl (by omega) (by omega) (by omega)) e (by
      rw [forI_head (by omega), vget_nth (i := 0) (k := 0) rfl (by omega), ok_bind, cset_ub (by simp)]; rfl)
  push_cast at this
  rw [this]
  rfl

/-- C52 violated: the same in W. -/
theorem C52_reverse_w_violated {c : BsplineVolume K T} {p q r n m l : ℕ} (wf : WellFormedV c p q r n m l) : reverseVolume c .w = ub := by
  obtain ⟨V, g1, g2, hf⟩ := reverseFibre T wf.w
  obtain ⟨R, e, -, hl, -⟩ := hf (fun k => ent3 c.cps 0 0 k)
  unfold reverseVolume
  rw [sizes_ok wf.cps, ok_bind]
  dsimp only
  rw [if_neg (by decide)]
  unfold alongFibres
  dsimp only
  have := fibreLoop_ub (a := m + 1) (b := n + 1) (n := l) (read := fun col row k => cget c.cps row col k) (f := fun k => ent3 c.cps 0 0 k)
    (write := fun net col row k x => cset net row col k x) (degree := c.degreeW) (knots := c.knotsW) (op := reverseCurve) (net := []) (r := R) (by omega) (by omega)
    (fun k hk => cget_ent3 wf.cps rfl rfl rfl (by omega) (by omega) (by omega)) e (by
      rw [forI_head (by omega), vget_nth (i := 0) (k := 0) rfl (by omega), ok_bind, cset_ub (by simp)]; rfl)
  push_cast at this
  rw [this]
  rfl

/-! ## C52: RefineKnotVector -/

/-- the array is one slice short: the first fibre does not fit -/
theorem refine_scatter_ub {a : ℕ} {pts : List T} {write : List (List (List T)) → ℤ → T → Res (List (List (List T)))} {Valid : List (List (List T)) → Prop}
    {net : List (List (List T))} (hl : pts.length = a + 1) (hnet : Valid net)
    (hstep : ∀ net k x, Valid net → k < a → ∃ net', write net (k : ℤ) x = ok net' ∧ Valid net') (hstop : ∀ net x, Valid net → write net (a : ℤ) x = ub) :
    (forI 0 pts.length net fun k net => vget pts k >>= fun x => write net k x) = ub := by
  refine forI_stops (x := ub) ub_bind (fun _ net => Valid net) (i0 := (a : ℤ)) (by omega) a 0 net (by omega) hnet ?_ ?_
  · intro i s h0 h1 hs
    obtain ⟨net', e, h⟩ := hstep s i.toNat (nth pts i.toNat) hs (by omega)
    rw [show ((i.toNat : ℕ) : ℤ) = i by omega] at e
    exact Runs.bind_eq (vget_nth (k := i.toNat) (by omega) (by omega)) (Runs.of_eq e h)
  · intro s hs
    rw [vget_nth (k := a) rfl (by omega), ok_bind, hstop s _ hs]

theorem isCube_newNet' {a b d : ℕ} {x y z : ℤ} (hx : x = a) (hy : y = b) (hz : z = d) : IsCube (newNet (T := T) x y z) a b d := by
  subst hx hy hz
  unfold newNet
  simp only [Int.toNat_natCast]
  exact isCube_replicate

/-- C52 violated: `RefineKnotVector` in U writes past the end of its array for every well-formed volume and every list of knots that the
curve operation accepts. -/
theorem C52_refine_u_violated {c : BsplineVolume K T} {p q r n m l : ℕ} {X : List K} (wf : WellFormedV c p q r n m l)
    (he : EndsSeparatedV c p q r n m l) (hne : X ≠ []) (hXs : X.Pairwise (· ≤ ·))
    (hX : ∀ x ∈ X, nth c.knotsU p < x ∧ x < nth c.knotsU (n + 1)) (hsep : WellSeparated (c.knotsU ++ X)) : refineVolume c X .u = ub := by
  obtain ⟨R, e, w, -⟩ := C57_refine (fibre_wf (f := fun i => ent3 c.cps i 0 0) wf.u) he.u hne hXs hX hsep
  have hXl : 0 < X.length := List.length_pos_iff.mpr hne
  unfold refineVolume
  rw [sizes_ok wf.cps, ok_bind]
  dsimp only
  unfold alongFibres
  dsimp only
  have := fibreLoop_ub (a := l + 1) (b := m + 1) (n := n) (read := fun sep col i => cget c.cps i col sep) (f := fun i => ent3 c.cps i 0 0)
    (write := fun net sep col i x => cset net i col sep x) (degree := c.degreeU) (knots := c.knotsU) (op := fun crv => refineKnotVector crv X)
    (net := grownNet .u (n : ℤ) (m : ℤ) (l : ℤ) ((X.length : ℤ) - 1)) (r := R) (by omega) (by omega)
    (fun k hk => cget_ent3 wf.cps rfl rfl rfl (by omega) (by omega) (by omega)) e
    (refine_scatter_ub (a := n + X.length) (pts := R.cps) (Valid := fun net => IsCube net (n + X.length) (m + 1) (l + 1)) w.cps
      (isCube_newNet' (by omega) (by omega) (by omega))
      (fun net k x h hk => by obtain ⟨net', e, h', -⟩ := cset_ok (e := x) h (i := (k : ℤ)) (j := 0) (k := 0) (y := 0) (z := 0) rfl rfl rfl hk (by omega) (by omega); exact ⟨net', e, h'⟩)
      (fun net x h => cset_ub (by rw [h.1])))
  push_cast at this
  rw [this]
  rfl

theorem mset_col_ub {α : Type} [Zero α] {m : List (List α)} {a b : ℕ} (hm : IsMat m a b) {i j : ℤ} {k : ℕ} {x : α} (hi : i = k) (hk : k < a) (hj : (b : ℤ) ≤ j) :
    mset m i j x = ub := by
  unfold mset
  rw [vget_row hi (by rw [hm.1]; exact hk), ok_bind, vset_ge (by rw [hm.2 k hk]; exact hj)]
  rfl

/-- C52 violated: the same in V. -/
theorem C52_refine_v_violated {c : BsplineVolume K T} {p q r n m l : ℕ} {X : List K} (wf : WellFormedV c p q r n m l)
    (he : EndsSeparatedV c p q r n m l) (hne : X ≠ []) (hXs : X.Pairwise (· ≤ ·))
    (hX : ∀ x ∈ X, nth c.knotsV q < x ∧ x < nth c.knotsV (m + 1)) (hsep : WellSeparated (c.knotsV ++ X)) : refineVolume c X .v = ub := by
  obtain ⟨R, e, w, -⟩ := C57_refine (fibre_wf (f := fun j => ent3 c.cps 0 j 0) wf.v) he.v hne hXs hX hsep
  have hXl : 0 < X.length := List.length_pos_iff.mpr hne
  unfold refineVolume
  rw [sizes_ok wf.cps, ok_bind]
  dsimp only
  unfold alongFibres
  dsimp only
  have := fibreLoop_ub (a := l + 1) (b := n + 1) (n := m) (read := fun sep row j => cget c.cps row j sep) (f := fun j => ent3 c.cps 0 j 0)
    (write := fun net sep row j x => cset net row j sep x) (degree := c.degreeV) (knots := c.knotsV) (op := fun crv => refineKnotVector crv X)
    (net := grownNet .v (n : ℤ) (m : ℤ) (l : ℤ) ((X.length : ℤ) - 1)) (r := R) (by omega) (by omega)
    (fun k hk => cget_ent3 wf.cps rfl rfl rfl (by omega) (by omega) (by omega)) e
    (refine_scatter_ub (a := m + X.length) (pts := R.cps) (Valid := fun net => IsCube net (n + 1) (m + X.length) (l + 1)) w.cps
      (isCube_newNet' (by omega) (by omega) (by omega))
      (fun net k x h hk => by obtain ⟨net', e, h', -⟩ := cset_ok (e := x) h (i := 0) (j := (k : ℤ)) (k := 0) (x := 0) (z := 0) rfl rfl rfl (by omega) hk (by omega); exact ⟨net', e, h'⟩)
      (fun net x h => by
        unfold cset mset
        rw [vget_row (i := 0) (k := 0) rfl (by rw [h.1]; omega), ok_bind, vget_ge (by rw [(h.2 0 (by omega)).1])]
        rfl))
  push_cast at this
  rw [this]
  rfl

/-- C52 violated: the same in W. -/
theorem C52_refine_w_violated {c : BsplineVolume K T} {p q r n m l : ℕ} {X : List K} (wf : WellFormedV c p q r n m l)
    (he : EndsSeparatedV c p q r n m l) (hne : X ≠ []) (hXs : X.Pairwise (· ≤ ·))
    (hX : ∀ x ∈ X, nth c.knotsW r < x ∧ x < nth c.knotsW (l + 1)) (hsep : WellSeparated (c.knotsW ++ X)) : refineVolume c X .w = ub := by
  obtain ⟨R, e, w, -⟩ := C57_refine (fibre_wf (f := fun k => ent3 c.cps 0 0 k) wf.w) he.w hne hXs hX hsep
  have hXl : 0 < X.length := List.length_pos_iff.mpr hne
  unfold refineVolume
  rw [sizes_ok wf.cps, ok_bind]
  dsimp only
  unfold alongFibres
  dsimp only
  have := fibreLoop_ub (a := m + 1) (b := n + 1) (n := l) (read := fun col row k => cget c.cps row col k) (f := fun k => ent3 c.cps 0 0 k)
    (write := fun net col row k x => cset net row col k x) (degree := c.degreeW) (knots := c.knotsW) (op := fun crv => refineKnotVector crv X)
    (net := grownNet .w (n : ℤ) (m : ℤ) (l : ℤ) ((X.length : ℤ) - 1)) (r := R) (by omega) (by omega)
    (fun k hk => cget_ent3 wf.cps rfl rfl rfl (by omega) (by omega) (by omega)) e
    (refine_scatter_ub (a := l + X.length) (pts := R.cps) (Valid := fun net => IsCube net (n + 1) (m + 1) (l + X.length)) w.cps
      (isCube_newNet' (by omega) (by omega) (by omega))
      (fun net k x h hk => by obtain ⟨net', e, h', -⟩ := cset_ok (e := x) h (i := 0) (j := 0) (k := (k : ℤ)) (x := 0) (y := 0) rfl rfl rfl (by omega) (by omega) hk; exact ⟨net', e, h'⟩)
      (fun net x h => by
        unfold cset
        rw [vget_row (i := 0) (k := 0) rfl (by rw [h.1]; omega), ok_bind, mset_col_ub (h.2 0 (by omega)) (i := 0) (k := 0) rfl (by omega) (by push_cast; omega)]
        rfl))
  push_cast at this
  rw [this]
  rfl

/-- the violations are about ordinary inputs -/
example : refineVolume exVolume [1/4, 3/4] .u = ub ∧ refineVolume exVolume [1/2] .v = ub ∧ refineVolume exVolume [1] .w = ub :=
  ⟨C52_refine_u_violated exVolume_wf exVolume_ends (by simp) (by decide +kernel) (by decide +kernel) (by unfold WellSeparated; decide +kernel),
   C52_refine_v_violated exVolume_wf exVolume_ends (by simp) (by decide +kernel) (by decide +kernel) (by unfold WellSeparated; decide +kernel),
   C52_refine_w_violated exVolume_wf exVolume_ends (by simp) (by decide +kernel) (by decide +kernel) (by unfold WellSeparated; decide +kernel)⟩

end LNLib.Props
