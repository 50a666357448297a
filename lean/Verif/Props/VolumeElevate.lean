import Verif.Model.VolumeElevate
import Verif.Props.Volume
import Verif.Props.Elevate
import Mathlib.Tactic.IntervalCases

/-!
# C98: degree elevation of volumes
-/

namespace LNLib.Props
open LNLib Res Spec Finset
set_option linter.unusedSectionVars false

variable {K : Type} [Field K] [LinearOrder K] [IsStrictOrderedRing K]
variable {T : Type} [AddCommGroup T] [Module K T]

/-- A knot vector of degree `p` for `n + 1` control points on which degree elevation is exact: clamped, knots apart by more than the
tolerance, simple interior knots. -/
structure SimpleKnots (U : List K) (p n : ℕ) : Prop where
  clamped : ClampedEnds (nth U) p n
  separated : WellSeparated U
  mult : ∀ x, nth U p < x → x < nth U (n + 1) → U.count x ≤ p
  simple : ∀ s, p ≤ s → s ≤ n → nth U s < nth U (s + 1)

/-- `V` is `U` with every knot repeated `t` times more: a knot vector of degree `p + t` on the same domain. -/
structure RaisedKnots (U V : List K) (p n t n' : ℕ) : Prop where
  length : V.length = n' + (p + t) + 2
  sorted : ∀ i j, i ≤ j → j < V.length → nth V i ≤ nth V j
  mult : ∀ x, V.count x = if x ∈ U then U.count x + t else 0
  ends : EndsSeparated (nth V) (p + t) n'
  start : nth V (p + t) = nth U p
  stop : nth V (n' + 1) = nth U (n + 1)

theorem elevateFibre (T : Type) [AddCommGroup T] [Module K T] {d : ℤ} {U : List K} {p n t : ℕ} (g : GoodDir d U p n) (he : EndsSeparated (nth U) p n)
    (hs : SimpleKnots U p n) (ht : 0 < t) :
    ∃ kv, RaisedKnots U kv p n t (n + (n + 1 - p) * t) ∧ ∀ f : ℕ → T, ∃ R : BsplineCurve K T, elevateDegree (fibre d U n f) (t : ℤ) = ok R ∧
        R.knots = kv ∧ R.cps.length = n + (n + 1 - p) * t + 1 ∧
        ∀ x, nth U p ≤ x → x ≤ nth U (n + 1) → curvePoint (nth kv) (p + t) (n + (n + 1 - p) * t) (nth R.cps) x = curvePoint (nth U) p n f x := by
  have key : ∀ f : ℕ → T, ∃ R : BsplineCurve K T, elevateDegree (fibre d U n f) (t : ℤ) = ok R ∧ Elevated (fibre d U n f) R p n t (n + (n + 1 - p) * t) := by
    intro f
    obtain ⟨R, e, h, -⟩ := C42_elevate_partial (fibre_wf (f := f) g) he hs.clamped hs.separated hs.simple hs.mult ht
    exact ⟨R, e, h⟩
  obtain ⟨R0, -, h0⟩ := key (fun _ => 0)
  refine ⟨R0.knots, ⟨h0.knots, h0.sorted, h0.mult, h0.ends, h0.start, h0.stop⟩, fun f => ?_⟩
  obtain ⟨R, e, h⟩ := key f
  have hk : R.knots = R0.knots := by
    refine perm_sorted_eq ?_ h.sorted h0.sorted
    rw [List.perm_iff_count]
    intro x
    rw [h.mult x, h0.mult x]
    rfl
  refine ⟨R, e, hk, h.cps, fun x h1 h2 => ?_⟩
  have := h.points x h1 h2
  rw [hk, fibre_curve] at this
  exact this

theorem growth_eq {d : ℤ} {U : List K} {p n t : ℕ} (g : GoodDir d U p n) : (interiorKnots d U + 1) * (t : ℤ) = (((n + 1 - p) * t : ℕ) : ℤ) := by
  have h1 := g.degree
  have h2 := g.knots
  have h3 := g.pn
  unfold interiorKnots
  rw [h1, h2]
  push_cast [Nat.cast_sub (show p ≤ n + 1 by omega)]
  ring

theorem raised_good {d : ℤ} {U V : List K} {p n t : ℕ} (g : GoodDir d U p n) (ht : 0 < t) (h7 : p + t ≤ 7) (r : RaisedKnots U V p n t (n + (n + 1 - p) * t)) :
    GoodDir (d + (t : ℤ)) V (p + t) (n + (n + 1 - p) * t) := by
  have hpn := g.pn
  have : 1 * t ≤ (n + 1 - p) * t := Nat.mul_le_mul_right _ (by omega)
  exact { degree := by rw [g.degree]; push_cast; rfl, pos := by omega, le7 := h7, pn := by omega, knots := r.length, sorted := r.sorted }

/-- C98, U direction: raising the U degree of a valid volume with simple interior U knots by `t` gives a volume of U degree `p + t` on the same domain, in which
every U knot is repeated `t` times more, with the same points; the other directions are untouched. -/
theorem C98_elevate_u_partial {c : BsplineVolume K T} {p q r n m l t : ℕ} (wf : WellFormedV c p q r n m l) (he : EndsSeparatedV c p q r n m l)
    (hs : SimpleKnots c.knotsU p n) (ht : 0 < t) :
    ∃ c', elevateVolume c (t : ℤ) .u = ok c' ∧ c'.degreeU = ((p + t : ℕ) : ℤ) ∧ c'.degreeV = c.degreeV ∧ c'.degreeW = c.degreeW ∧
      RaisedKnots c.knotsU c'.knotsU p n t (n + (n + 1 - p) * t) ∧ c'.knotsV = c.knotsV ∧ c'.knotsW = c.knotsW ∧
      IsCube c'.cps (n + (n + 1 - p) * t + 1) (m + 1) (l + 1) ∧
      (∀ u v w, InDomainV c p q r n m l u v w → InDomainV c' (p + t) q r (n + (n + 1 - p) * t) m l u v w ∧
        volumePoint (nth c'.knotsU) (nth c'.knotsV) (nth c'.knotsW) (p + t) q r (n + (n + 1 - p) * t) m l (ent3 c'.cps) u v w =
          volumePoint (nth c.knotsU) (nth c.knotsV) (nth c.knotsW) p q r n m l (ent3 c.cps) u v w) ∧
      (p + t ≤ 7 → WellFormedV c' (p + t) q r (n + (n + 1 - p) * t) m l ∧ EndsSeparatedV c' (p + t) q r (n + (n + 1 - p) * t) m l ∧
        ∀ u v w, InDomainV c p q r n m l u v w → c'.pointOnVolume u v w = c.pointOnVolume u v w) := by
  obtain ⟨kv, rk, hf⟩ := elevateFibre T wf.u he.u hs ht
  have hg := growth_eq (t := t) wf.u
  have good := fun h7 => raised_good wf.u ht h7 rk
  obtain ⟨N, hN⟩ : ∃ N, n + (n + 1 - p) * t = N := ⟨_, rfl⟩
  rw [hN] at rk hf good ⊢
  choose R hR using hf
  have hgrow : grownNet (T := T) .u (n : ℤ) (m : ℤ) (l : ℤ) (c.elevateGrowth .u (t : ℤ)) = newNet ((N : ℤ) + 1) ((m : ℤ) + 1) ((l : ℤ) + 1) := by
    unfold grownNet BsplineVolume.elevateGrowth
    dsimp only
    rw [hg, ← hN]; push_cast; rfl
  obtain ⟨net, e, hn, hv⟩ := alongU_run (c := c) (n := n) (n' := N) (m := m) (l := l) wf.cps (kv := kv)
    (op := fun crv => elevateDegree crv (t : ℤ))
    (net := newNet ((N : ℤ) + 1) ((m : ℤ) + 1) ((l : ℤ) + 1)) isCube_newNet (R := fun j k => R fun i => ent3 c.cps i j k)
    (fun j _ k _ => ⟨(hR _).1, (hR _).2.1, (hR _).2.2.1⟩)
  have pts : ∀ u v w, InDomainV c p q r n m l u v w → volumePoint (nth kv) (nth c.knotsV) (nth c.knotsW) (p + t) q r N m l (ent3 net) u v w =
      volumePoint (nth c.knotsU) (nth c.knotsV) (nth c.knotsW) p q r n m l (ent3 c.cps) u v w := by
    intro u v w d
    rw [volumePoint_fibre, volumePoint_fibre]
    refine surfacePoint_congr fun j hj k hk => ?_
    rw [← (hR fun i => ent3 c.cps i j k).2.2.2 u d.u0 d.u1]
    exact curvePoint_congr fun i hi => hv i hi j hj k hk
  have dom : ∀ u v w, InDomainV c p q r n m l u v w →
      InDomainV ({ c with degreeU := c.degreeU + (t : ℤ), knotsU := kv, cps := net } : BsplineVolume K T) (p + t) q r N m l u v w := fun u v w d =>
    ⟨by dsimp only; rw [rk.start]; exact d.u0, by dsimp only; rw [rk.stop]; exact d.u1, d.v0, d.v1, d.w0, d.w1⟩
  refine ⟨{ c with degreeU := c.degreeU + (t : ℤ), knotsU := kv, cps := net }, ?_, by dsimp only; rw [wf.u.degree]; push_cast; rfl, rfl, rfl, rk, rfl, rfl, hn,
    fun u v w d => ⟨dom u v w d, pts u v w d⟩, fun h7 => ?_⟩
  · unfold elevateVolume
    rw [sizes_ok wf.cps, ok_bind]
    dsimp only
    rw [hgrow, e, ok_bind]
    rfl
  · have w' : WellFormedV ({ c with degreeU := c.degreeU + (t : ℤ), knotsU := kv, cps := net } : BsplineVolume K T) (p + t) q r N m l := ⟨good h7, wf.v, wf.w, hn⟩
    have e' : EndsSeparatedV ({ c with degreeU := c.degreeU + (t : ℤ), knotsU := kv, cps := net } : BsplineVolume K T) (p + t) q r N m l := ⟨rk.ends, he.v, he.w⟩
    refine ⟨w', e', fun u v w d => ?_⟩
    rw [C50_eval w' e' (dom u v w d), C50_eval wf he d]
    exact congrArg ok (pts u v w d)

/-- C98, V direction. -/
theorem C98_elevate_v_partial {c : BsplineVolume K T} {p q r n m l t : ℕ} (wf : WellFormedV c p q r n m l) (he : EndsSeparatedV c p q r n m l)
    (hs : SimpleKnots c.knotsV q m) (ht : 0 < t) :
    ∃ c', elevateVolume c (t : ℤ) .v = ok c' ∧ c'.degreeV = ((q + t : ℕ) : ℤ) ∧ c'.degreeU = c.degreeU ∧ c'.degreeW = c.degreeW ∧
      RaisedKnots c.knotsV c'.knotsV q m t (m + (m + 1 - q) * t) ∧ c'.knotsU = c.knotsU ∧ c'.knotsW = c.knotsW ∧
      IsCube c'.cps (n + 1) (m + (m + 1 - q) * t + 1) (l + 1) ∧
      (∀ u v w, InDomainV c p q r n m l u v w → InDomainV c' p (q + t) r n (m + (m + 1 - q) * t) l u v w ∧
        volumePoint (nth c'.knotsU) (nth c'.knotsV) (nth c'.knotsW) p (q + t) r n (m + (m + 1 - q) * t) l (ent3 c'.cps) u v w =
          volumePoint (nth c.knotsU) (nth c.knotsV) (nth c.knotsW) p q r n m l (ent3 c.cps) u v w) ∧
      (q + t ≤ 7 → WellFormedV c' p (q + t) r n (m + (m + 1 - q) * t) l ∧ EndsSeparatedV c' p (q + t) r n (m + (m + 1 - q) * t) l ∧
        ∀ u v w, InDomainV c p q r n m l u v w → c'.pointOnVolume u v w = c.pointOnVolume u v w) := by
  obtain ⟨kv, rk, hf⟩ := elevateFibre T wf.v he.v hs ht
  have hg := growth_eq (t := t) wf.v
  have good := fun h7 => raised_good wf.v ht h7 rk
  obtain ⟨N, hN⟩ : ∃ N, m + (m + 1 - q) * t = N := ⟨_, rfl⟩
  rw [hN] at rk hf good ⊢
  choose R hR using hf
  have hgrow : grownNet (T := T) .v (n : ℤ) (m : ℤ) (l : ℤ) (c.elevateGrowth .v (t : ℤ)) = newNet ((n : ℤ) + 1) ((N : ℤ) + 1) ((l : ℤ) + 1) := by
    unfold grownNet BsplineVolume.elevateGrowth
    dsimp only
    rw [hg, ← hN]; push_cast; rfl
  obtain ⟨net, e, hn, hv⟩ := alongV_run (c := c) (n := n) (m' := N) (m := m) (l := l) wf.cps (kv := kv)
    (op := fun crv => elevateDegree crv (t : ℤ))
    (net := newNet ((n : ℤ) + 1) ((N : ℤ) + 1) ((l : ℤ) + 1)) isCube_newNet (R := fun i k => R fun j => ent3 c.cps i j k)
    (fun i _ k _ => ⟨(hR _).1, (hR _).2.1, (hR _).2.2.1⟩)
  have pts : ∀ u v w, InDomainV c p q r n m l u v w → volumePoint (nth c.knotsU) (nth kv) (nth c.knotsW) p (q + t) r n N l (ent3 net) u v w =
      volumePoint (nth c.knotsU) (nth c.knotsV) (nth c.knotsW) p q r n m l (ent3 c.cps) u v w := by
    intro u v w d
    rw [volumePoint_swapUV, volumePoint_swapUV (V := nth c.knotsV), volumePoint_fibre, volumePoint_fibre]
    refine surfacePoint_congr fun i hi k hk => ?_
    rw [← (hR fun j => ent3 c.cps i j k).2.2.2 v d.v0 d.v1]
    exact curvePoint_congr fun j hj => hv i hi j hj k hk
  have dom : ∀ u v w, InDomainV c p q r n m l u v w →
      InDomainV ({ c with degreeV := c.degreeV + (t : ℤ), knotsV := kv, cps := net } : BsplineVolume K T) p (q + t) r n N l u v w := fun u v w d =>
    ⟨d.u0, d.u1, by dsimp only; rw [rk.start]; exact d.v0, by dsimp only; rw [rk.stop]; exact d.v1, d.w0, d.w1⟩
  refine ⟨{ c with degreeV := c.degreeV + (t : ℤ), knotsV := kv, cps := net }, ?_, by dsimp only; rw [wf.v.degree]; push_cast; rfl, rfl, rfl, rk, rfl, rfl, hn,
    fun u v w d => ⟨dom u v w d, pts u v w d⟩, fun h7 => ?_⟩
  · unfold elevateVolume
    rw [sizes_ok wf.cps, ok_bind]
    dsimp only
    rw [hgrow, e, ok_bind]
    rfl
  · have w' : WellFormedV ({ c with degreeV := c.degreeV + (t : ℤ), knotsV := kv, cps := net } : BsplineVolume K T) p (q + t) r n N l := ⟨wf.u, good h7, wf.w, hn⟩
    have e' : EndsSeparatedV ({ c with degreeV := c.degreeV + (t : ℤ), knotsV := kv, cps := net } : BsplineVolume K T) p (q + t) r n N l := ⟨he.u, rk.ends, he.w⟩
    refine ⟨w', e', fun u v w d => ?_⟩
    rw [C50_eval w' e' (dom u v w d), C50_eval wf he d]
    exact congrArg ok (pts u v w d)

/-- C98, W direction. -/
theorem C98_elevate_w_partial {c : BsplineVolume K T} {p q r n m l t : ℕ} (wf : WellFormedV c p q r n m l) (he : EndsSeparatedV c p q r n m l)
    (hs : SimpleKnots c.knotsW r l) (ht : 0 < t) :
    ∃ c', elevateVolume c (t : ℤ) .w = ok c' ∧ c'.degreeW = ((r + t : ℕ) : ℤ) ∧ c'.degreeU = c.degreeU ∧ c'.degreeV = c.degreeV ∧
      RaisedKnots c.knotsW c'.knotsW r l t (l + (l + 1 - r) * t) ∧ c'.knotsU = c.knotsU ∧ c'.knotsV = c.knotsV ∧
      IsCube c'.cps (n + 1) (m + 1) (l + (l + 1 - r) * t + 1) ∧
      (∀ u v w, InDomainV c p q r n m l u v w → InDomainV c' p q (r + t) n m (l + (l + 1 - r) * t) u v w ∧
        volumePoint (nth c'.knotsU) (nth c'.knotsV) (nth c'.knotsW) p q (r + t) n m (l + (l + 1 - r) * t) (ent3 c'.cps) u v w =
          volumePoint (nth c.knotsU) (nth c.knotsV) (nth c.knotsW) p q r n m l (ent3 c.cps) u v w) ∧
      (r + t ≤ 7 → WellFormedV c' p q (r + t) n m (l + (l + 1 - r) * t) ∧ EndsSeparatedV c' p q (r + t) n m (l + (l + 1 - r) * t) ∧
        ∀ u v w, InDomainV c p q r n m l u v w → c'.pointOnVolume u v w = c.pointOnVolume u v w) := by
  obtain ⟨kv, rk, hf⟩ := elevateFibre T wf.w he.w hs ht
  have hg := growth_eq (t := t) wf.w
  have good := fun h7 => raised_good wf.w ht h7 rk
  obtain ⟨N, hN⟩ : ∃ N, l + (l + 1 - r) * t = N := ⟨_, rfl⟩
  rw [hN] at rk hf good ⊢
  choose R hR using hf
  have hgrow : grownNet (T := T) .w (n : ℤ) (m : ℤ) (l : ℤ) (c.elevateGrowth .w (t : ℤ)) = newNet ((n : ℤ) + 1) ((m : ℤ) + 1) ((N : ℤ) + 1) := by
    unfold grownNet BsplineVolume.elevateGrowth
    dsimp only
    rw [hg, ← hN]; push_cast; rfl
  obtain ⟨net, e, hn, hv⟩ := alongW_run (c := c) (n := n) (l' := N) (m := m) (l := l) wf.cps (kv := kv)
    (op := fun crv => elevateDegree crv (t : ℤ))
    (net := newNet ((n : ℤ) + 1) ((m : ℤ) + 1) ((N : ℤ) + 1)) isCube_newNet (R := fun i j => R fun k => ent3 c.cps i j k)
    (fun i _ j _ => ⟨(hR _).1, (hR _).2.1, (hR _).2.2.1⟩)
  have pts : ∀ u v w, InDomainV c p q r n m l u v w → volumePoint (nth c.knotsU) (nth c.knotsV) (nth kv) p q (r + t) n m N (ent3 net) u v w =
      volumePoint (nth c.knotsU) (nth c.knotsV) (nth c.knotsW) p q r n m l (ent3 c.cps) u v w := by
    intro u v w d
    rw [volumePoint_swapUW, volumePoint_swapUW (W := nth c.knotsW), volumePoint_fibre, volumePoint_fibre]
    refine surfacePoint_congr fun j hj i hi => ?_
    rw [← (hR fun k => ent3 c.cps i j k).2.2.2 w d.w0 d.w1]
    exact curvePoint_congr fun k hk => hv i hi j hj k hk
  have dom : ∀ u v w, InDomainV c p q r n m l u v w →
      InDomainV ({ c with degreeW := c.degreeW + (t : ℤ), knotsW := kv, cps := net } : BsplineVolume K T) p q (r + t) n m N u v w := fun u v w d =>
    ⟨d.u0, d.u1, d.v0, d.v1, by dsimp only; rw [rk.start]; exact d.w0, by dsimp only; rw [rk.stop]; exact d.w1⟩
  refine ⟨{ c with degreeW := c.degreeW + (t : ℤ), knotsW := kv, cps := net }, ?_, by dsimp only; rw [wf.w.degree]; push_cast; rfl, rfl, rfl, rk, rfl, rfl, hn,
    fun u v w d => ⟨dom u v w d, pts u v w d⟩, fun h7 => ?_⟩
  · unfold elevateVolume
    rw [sizes_ok wf.cps, ok_bind]
    dsimp only
    rw [hgrow, e, ok_bind]
    rfl
  · have w' : WellFormedV ({ c with degreeW := c.degreeW + (t : ℤ), knotsW := kv, cps := net } : BsplineVolume K T) p q (r + t) n m N := ⟨wf.u, wf.v, good h7, hn⟩
    have e' : EndsSeparatedV ({ c with degreeW := c.degreeW + (t : ℤ), knotsW := kv, cps := net } : BsplineVolume K T) p q (r + t) n m N := ⟨he.u, he.v, rk.ends⟩
    refine ⟨w', e', fun u v w d => ?_⟩
    rw [C50_eval w' e' (dom u v w d), C50_eval wf he d]
    exact congrArg ok (pts u v w d)

/-- the knots of `exVolume` -/
theorem exVolume_simple : SimpleKnots exVolume.knotsU 2 3 ∧ SimpleKnots exVolume.knotsV 1 2 ∧ SimpleKnots exVolume.knotsW 1 1 := by
  have mul : ∀ (U : List ℚ) (p n : ℕ), (∀ x ∈ U, nth U p < x → x < nth U (n + 1) → U.count x ≤ p) → ∀ x, nth U p < x → x < nth U (n + 1) → U.count x ≤ p := by
    intro U p n h x h1 h2
    by_cases hx : x ∈ U
    · exact h x hx h1 h2
    · rw [List.count_eq_zero_of_not_mem hx]; omega
  refine ⟨⟨⟨by decide +kernel, by decide +kernel⟩, by unfold WellSeparated; decide +kernel, mul _ _ _ (by decide +kernel), fun s h1 h2 => ?_⟩,
    ⟨⟨by decide +kernel, by decide +kernel⟩, by unfold WellSeparated; decide +kernel, mul _ _ _ (by decide +kernel), fun s h1 h2 => ?_⟩,
    ⟨⟨by decide +kernel, by decide +kernel⟩, by unfold WellSeparated; decide +kernel, mul _ _ _ (by decide +kernel), fun s h1 h2 => ?_⟩⟩
  all_goals interval_cases s <;> decide +kernel

/-- the hypotheses of the C98 theorems are met -/
example : (∃ c', elevateVolume exVolume 2 .u = ok c' ∧ WellFormedV c' 4 1 1 7 2 1) ∧ (∃ c', elevateVolume exVolume 1 .v = ok c' ∧ WellFormedV c' 2 2 1 3 4 1) ∧
    ∃ c', elevateVolume exVolume 3 .w = ok c' ∧ WellFormedV c' 2 1 4 3 2 4 := by
  obtain ⟨a, e1, -, -, -, -, -, -, -, -, h1⟩ := C98_elevate_u_partial (t := 2) exVolume_wf exVolume_ends exVolume_simple.1 (by decide)
  obtain ⟨b, e2, -, -, -, -, -, -, -, -, h2⟩ := C98_elevate_v_partial (t := 1) exVolume_wf exVolume_ends exVolume_simple.2.1 (by decide)
  obtain ⟨d, e3, -, -, -, -, -, -, -, -, h3⟩ := C98_elevate_w_partial (t := 3) exVolume_wf exVolume_ends exVolume_simple.2.2 (by decide)
  exact ⟨⟨a, e1, (h1 (by decide)).1⟩, ⟨b, e2, (h2 (by decide)).1⟩, ⟨d, e3, (h3 (by decide)).1⟩⟩

/-- C98: a nonpositive count is rejected. -/
theorem C98_rejects {c : BsplineVolume K T} {p q r n m l : ℕ} (wf : WellFormedV c p q r n m l) {t : ℤ} (ht : t ≤ 0) (dir : VolumeDirection) :
    elevateVolume c t dir = invalidArg := by
  have stop : ∀ (a b k : ℕ) (read : ℤ → ℤ → ℤ → Res T) (write : List (List (List T)) → ℤ → ℤ → ℤ → T → Res (List (List (List T)))) (d : ℤ) (U : List K)
      (net : List (List (List T))) (f : ℕ → T), (∀ i ≤ k, read 0 0 (i : ℤ) = ok (f i)) →
      fibreLoop ((a : ℤ) + 1) ((b : ℤ) + 1) ((k : ℤ) + 1) read write d U (fun crv => elevateDegree crv t) net = invalidArg := by
    intro a b k read write d U net f hread
    unfold fibreLoop
    rw [forI_head (by omega), forI_head (by omega)]
    dsimp only
    rw [gather (rd := fun k => read 0 0 k) (f := f) hread, ok_bind, C42_elevate_rejects _ ht]
    rfl
  unfold elevateVolume
  rw [sizes_ok wf.cps, ok_bind]
  dsimp only
  unfold alongFibres
  cases dir
  · dsimp only
    rw [stop l m n (fun sep col i => cget c.cps i col sep) _ _ _ _ (fun i => ent3 c.cps i 0 0) fun i hi => cget_ent3 wf.cps rfl rfl rfl (by omega) (by omega) (by omega)]
    rfl
  · dsimp only
    rw [stop l n m (fun sep row j => cget c.cps row j sep) _ _ _ _ (fun i => ent3 c.cps 0 i 0) fun i hi => cget_ent3 wf.cps rfl rfl rfl (by omega) (by omega) (by omega)]
    rfl
  · dsimp only
    rw [stop m n l (fun col row k => cget c.cps row col k) _ _ _ _ (fun i => ent3 c.cps 0 0 i) fun i hi => cget_ent3 wf.cps rfl rfl rfl (by omega) (by omega) (by omega)]
    rfl

/-- a volume with a repeated interior knot in U -/
def exRepeatVolume : BsplineVolume ℚ ℚ where
  degreeU := 2
  degreeV := 1
  degreeW := 1
  knotsU := [0, 0, 0, 1, 1, 2, 2, 2]
  knotsV := [0, 0, 1, 1]
  knotsW := [0, 0, 1, 1]
  cps := [[[1, 1], [1, 1]], [[1, 1], [1, 1]], [[1, 1], [1, 1]], [[1, 1], [1, 1]], [[1, 1], [1, 1]]]

/-- C98 is violated for a repeated interior knot: the constant volume 1 is no longer evaluable after the elevation, since the new U knots end in zero. -/
theorem C98_repeated_violated : ∃ c', elevateVolume exRepeatVolume 1 .u = ok c' ∧ exRepeatVolume.pointOnVolume (1/2) (1/2) (1/2) = ok 1 ∧
    c'.pointOnVolume (1/2) (1/2) (1/2) = invalidArg := by
  refine ⟨⟨3, 1, 1, [0, 0, 0, 0, 1, 1, 1, 2, 2, 2, 2, 0], [0, 0, 1, 1], [0, 0, 1, 1], List.replicate 7 [[1, 1], [1, 1]] ++ [[[0, 0], [0, 0]]]⟩, ?_⟩
  decide +kernel

end LNLib.Props
