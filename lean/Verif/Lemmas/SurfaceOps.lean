import Verif.Lemmas.SurfaceEval
import Verif.Props.CurveParam

/-! # Loop lemmas for iso curves, reversal and reparametrisation of surfaces -/
set_option linter.unusedSectionVars false

namespace LNLib
open Res Spec Finset

variable {K : Type} [Field K] [LinearOrder K] [IsStrictOrderedRing K]
variable {T : Type} [AddCommGroup T] [Module K T]

theorem clampR_mem {x lo hi : K} (h0 : lo ≤ x) (h1 : x ≤ hi) : clampR x lo hi = ok x := by
  unfold clampR
  rw [if_neg (by linarith), if_neg (by linarith), if_neg (by linarith)]

theorem clampR_ok {x lo hi : K} (h : lo ≤ hi) : ∃ y, clampR x lo hi = ok y ∧ lo ≤ y ∧ y ≤ hi ∧ y = max lo (min x hi) := by
  unfold clampR
  rw [if_neg (by linarith)]
  by_cases h1 : x < lo
  · exact ⟨lo, by rw [if_pos h1], le_refl _, h, by rw [min_eq_left (by linarith), max_eq_left h1.le]⟩
  · rw [if_neg h1]
    by_cases h2 : hi < x
    · exact ⟨hi, by rw [if_pos h2], h, le_refl _, by rw [min_eq_right h2.le, max_eq_right h]⟩
    · exact ⟨x, by rw [if_neg h2], by linarith, by linarith, by rw [min_eq_left (by linarith), max_eq_right (by linarith)]⟩

theorem isoCurve_u {c : BsplineSurface K T} {p q n m : ℕ} {v : K} (w : WellFormedS c p q n m)
    (he : EndsSeparated (nth c.knotsV) q m) :
    ∃ y, y = max (nth c.knotsV q) (min v (nth c.knotsV (m + 1))) ∧ nth c.knotsV q ≤ y ∧ y ≤ nth c.knotsV (m + 1) ∧
    c.isoCurve v true = ok { degree := c.degreeU, knots := c.knotsU, cps := (List.range (n + 1)).map (fun i => curvePoint (nth c.knotsV) q m (ent c.cps i) y) } := by
  have hkv := w.knotsV
  have hqm := w.qm
  have hm := wfS_monoV w
  obtain ⟨y, e0, y0, y1, hy⟩ := clampR_ok (x := v) (hm q (m + 1) (by omega) (by omega))
  refine ⟨y, hy, y0, y1, ?_⟩
  obtain ⟨s, B, e1, hs, e2, e3⟩ := spanBasis w.le7V w.knotsV w.qm w.sortedV he y0 y1
  have i1 := hs.1
  have i2 := hs.2.1
  unfold BsplineSurface.isoCurve
  rw [if_neg (by rw [w.cps.1]; omega), vget_row (k := 0) (by simp) (by rw [w.cps.1]; omega), ok_bind, if_pos rfl,
    vget_nth (k := q) w.degreeV (by omega), ok_bind, vget_nth (k := m + 1) (by rw [w.degreeV]; omega) (by omega), ok_bind,
    e0, ok_bind, w.degreeV, e1, ok_bind, e2, ok_bind]
  have hb : (fun (i : ℤ) (cps : List T) => (do
      let combined ← forI 0 ((q : ℤ) + 1) (0 : T) fun j combined => do
        let b ← aget B j
        let p ← mget c.cps i ((s : ℤ) - q + j)
        ok (combined + b • p)
      ok (cps ++ [combined]) : Res (List T))) = fun i acc => (forI 0 ((q : ℤ) + 1) (0 : T) fun j combined => do
        let b ← aget B j
        let p ← mget c.cps i ((s : ℤ) - q + j)
        ok (combined + b • p)) >>= fun x => ok (acc ++ [x]) := rfl
  rw [hb, forI_append (m := n + 1) (f := fun i => curvePoint (nth c.knotsV) q m (ent c.cps i) y) (by rw [w.cps.1])]
  · rfl
  · intro i hi
    rw [curvePoint_span hm (le_refl _) hs]
    exact sumLoop' rfl e3 fun r hr => mget_ent w.cps rfl (by omega) hi (by omega)

theorem isoCurve_v {c : BsplineSurface K T} {p q n m : ℕ} {u : K} (w : WellFormedS c p q n m)
    (he : EndsSeparated (nth c.knotsU) p n) :
    ∃ y, y = max (nth c.knotsU p) (min u (nth c.knotsU (n + 1))) ∧ nth c.knotsU p ≤ y ∧ y ≤ nth c.knotsU (n + 1) ∧
    c.isoCurve u false = ok { degree := c.degreeV, knots := c.knotsV, cps := (List.range (m + 1)).map (fun j => curvePoint (nth c.knotsU) p n (fun i => ent c.cps i j) y) } := by
  have hkv := w.knotsU
  have hqm := w.pn
  have hm := wfS_monoU w
  obtain ⟨y, e0, y0, y1, hy⟩ := clampR_ok (x := u) (hm p (n + 1) (by omega) (by omega))
  refine ⟨y, hy, y0, y1, ?_⟩
  obtain ⟨s, B, e1, hs, e2, e3⟩ := spanBasis w.le7U w.knotsU w.pn w.sortedU he y0 y1
  have i1 := hs.1
  have i2 := hs.2.1
  unfold BsplineSurface.isoCurve
  rw [if_neg (by rw [w.cps.1]; omega), vget_row (k := 0) (by simp) (by rw [w.cps.1]; omega), ok_bind, if_neg (by simp),
    vget_nth (k := p) w.degreeU (by omega), ok_bind, vget_nth (k := n + 1) (by rw [w.degreeU]; omega) (by omega), ok_bind,
    e0, ok_bind, w.degreeU, e1, ok_bind, e2, ok_bind]
  have hb : (fun (i : ℤ) (cps : List T) => (do
      let combined ← forI 0 ((p : ℤ) + 1) (0 : T) fun j combined => do
        let b ← aget B j
        let p ← mget c.cps ((s : ℤ) - p + j) i
        ok (combined + b • p)
      ok (cps ++ [combined]) : Res (List T))) = fun i acc => (forI 0 ((p : ℤ) + 1) (0 : T) fun j combined => do
        let b ← aget B j
        let p ← mget c.cps ((s : ℤ) - p + j) i
        ok (combined + b • p)) >>= fun x => ok (acc ++ [x]) := rfl
  rw [hb, forI_append (m := m + 1) (f := fun j => curvePoint (nth c.knotsU) p n (fun i => ent c.cps i j) y) (by rw [w.cps.2 0 (by omega)])]
  · rfl
  · intro j hj
    rw [curvePoint_span hm (le_refl _) hs]
    exact sumLoop' rfl e3 fun r hr => mget_ent w.cps (by omega) rfl (by omega) hj

theorem reverseKnots_run {U : List K} (hne : U ≠ []) :
    ∃ V, reverseKnots U = ok V ∧ V.length = U.length ∧
      ∀ j, j < U.length → nth V j = nth U 0 + nth U (U.length - 1) - nth U (U.length - 1 - j) := by
  obtain ⟨V, h1, h2, h3⟩ := Props.reverse_run (c := ({ degree := 0, knots := U, cps := [] } : BsplineCurve K K)) hne
  refine ⟨V, ?_, h2, h3⟩
  have : reverseCurve ({ degree := 0, knots := U, cps := [] } : BsplineCurve K K) =
      reverseKnots U >>= fun rk => ok { degree := 0, knots := rk, cps := [] } := by
    unfold reverseCurve reverseKnots
    simp only [bind_assoc']
    rfl
  rw [this] at h1
  cases hr : reverseKnots U with
  | ok W => rw [hr, ok_bind] at h1; injection h1 with h1; rw [(BsplineCurve.mk.inj h1).2.1]
  | _ => rw [hr] at h1; cases h1

/-- the column swap loop reverses the order of the rows -/
theorem reverseRows_run {cps : List (List T)} {r k : ℕ} (hm : IsMat cps r k) (hr : 0 < r) :
    forI 0 (k : ℤ) cps (fun i cps => do
      let (cps, _, _) ← whileF (fun st : List (List T) × ℤ × ℤ => ok (decide (st.2.1 < st.2.2)))
        (fun (cps, start, stop) => do
          let a ← mget cps start i
          let b ← mget cps stop i
          let cps ← mset cps start i b
          let cps ← mset cps stop i a
          ok (cps, start + 1, stop - 1)) r (cps, 0, (r : ℤ) - 1)
      ok cps) = ok (tab r k fun i j => ent cps (r - 1 - i) j) := by
  apply Runs.eq
  refine (Runs.forN (m := 0) (n := k) (fun i M => IsMat M r k ∧ ∀ a < r, ∀ b < k, ent M a b = if b < i then ent cps (r - 1 - a) b else ent cps a b)
    rfl rfl (by omega) ⟨hm, fun a _ b _ => by rw [if_neg (by omega)]⟩ ?_).mono ?_
  · rintro i M - hi ⟨hM, hv⟩
    refine Runs.bind (Q := fun st : List (List T) × ℤ × ℤ => IsMat st.1 r k ∧ ∀ a < r, ∀ b < k, ent st.1 a b = if b < i + 1 then ent cps (r - 1 - a) b else ent cps a b) ?_ ?_
    · refine Runs.whileF (Inv := fun st : List (List T) × ℤ × ℤ => IsMat st.1 r k ∧ ∃ x : ℕ, st.2.1 = x ∧ st.2.2 = (r : ℤ) - 1 - x ∧ 2 * x ≤ r ∧
        ∀ a < r, ∀ b < k, ent st.1 a b = if b < i ∨ (b = i ∧ (a < x ∨ r - 1 - x < a)) then ent cps (r - 1 - a) b else ent cps a b)
        (fun st => (r : ℤ).toNat - st.2.1.toNat) ?_ r _ ?_ (by simp)
      · rintro ⟨M', s1, s2⟩ ⟨hM', x, hx1, hx2, hx3, hv'⟩
        dsimp only at *
        by_cases hc : s1 < s2
        · right
          refine ⟨by rw [decide_eq_true hc], ?_⟩
          subst hx1
          rw [mget_ent hM' rfl rfl (by omega) hi, ok_bind, mget_ent (a := r - 1 - x) hM' (by omega) rfl (by omega) hi, ok_bind]
          obtain ⟨M1, f1, g1, k1⟩ := mset_ok (x := ent M' (r - 1 - x) i) hM' (i := (x : ℤ)) (j := (i : ℤ)) rfl rfl (by omega) hi
          rw [f1, ok_bind]
          obtain ⟨M2, f2, g2, k2⟩ := mset_ok (x := ent M' x i) g1 (i := s2) (j := (i : ℤ)) (a := r - 1 - x) (by omega) rfl (by omega) hi
          rw [f2, ok_bind]
          refine Runs.ok ⟨⟨g2, x + 1, by push_cast; rfl, by push_cast; omega, by omega, ?_⟩, by dsimp only; omega⟩
          intro a ha b hb
          dsimp only
          rw [k2, k1]
          by_cases e1 : a = r - 1 - x ∧ b = i
          · rw [if_pos e1, hv' x (by omega) i hi, if_neg (by omega), if_pos (by omega), e1.1, e1.2]
            congr 1; omega
          · rw [if_neg e1]
            by_cases e2 : a = x ∧ b = i
            · rw [if_pos e2, hv' (r - 1 - x) (by omega) i hi, if_neg (by omega), if_pos (by omega), e2.1, e2.2]
            · rw [if_neg e2, hv' a ha b hb]
              congr 1
              simp only [eq_iff_iff]
              omega
        · left
          refine ⟨by rw [decide_eq_false hc], hM', ?_⟩
          intro a ha b hb
          rw [hv' a ha b hb]
          by_cases h1 : b < i ∨ (b = i ∧ (a < x ∨ r - 1 - x < a))
          · rw [if_pos h1, if_pos (by omega)]
          · rw [if_neg h1]
            by_cases h2 : b < i + 1
            · rw [if_pos h2]
              congr 1; omega
            · rw [if_neg h2]
      · refine ⟨hM, 0, by simp, by simp, by omega, ?_⟩
        intro a ha b hb
        dsimp only
        rw [hv a ha b hb]
        congr 1
        simp only [eq_iff_iff]
        omega
    · rintro ⟨M', s1, s2⟩ h
      exact Runs.ok h
  · rintro M ⟨hM, hv⟩
    refine eq_tab hM fun i hi j hj => ?_
    rw [hv i hi j hj, if_pos hj]

theorem curvePoint_affine {U V : ℕ → K} {p n s : ℕ} {P : ℕ → T} {k b t : K} (hk : 0 < k) (hU : MonoTo U (n + p + 1))
    (hV : ∀ j, j ≤ n + p + 1 → V j = k * U j + b) (hs : IsSpan U p n t s) :
    curvePoint V p n P (k * t + b) = curvePoint U p n P t := by
  have hlo : ∀ x y : K, x ≤ y → k * x + b ≤ k * y + b := fun x y h => by
    have := mul_le_mul_of_nonneg_left h hk.le
    linarith
  have hlo' : ∀ x y : K, x < y → k * x + b < k * y + b := fun x y h => by
    have := mul_lt_mul_of_pos_left h hk
    linarith
  have hs' : IsSpan V p n (k * t + b) s := by
    refine Props.isSpan_map hs ?_ ?_ ?_ ?_ ?_
    · intro i j hi hj h; rw [hV i (by omega), hV j (by omega)]; exact hlo' _ _ h
    · intro i j hi hj h; rw [hV i (by omega), hV j (by omega), h]
    · intro i hi h; rw [hV i (by omega)]; exact hlo _ _ h
    · intro i hi h; rw [hV i (by omega)]; exact hlo' _ _ h
    · intro i hi h; rw [hV i (by omega), h]
  have hVm : MonoTo V (n + p + 1) := fun i j h1 h2 => by
    rw [hV i (by omega), hV j (by omega)]; exact hlo _ _ (hU i j h1 h2)
  rw [curvePoint_span hU (le_refl _) hs, curvePoint_span hVm (le_refl _) hs']
  have := hs.2.1
  have := hs.1
  apply Finset.sum_congr rfl
  intro r hr
  simp only [mem_range] at hr
  rw [Nspan_affine hk.ne' p (s - p + r) (fun j h1 h2 => hV j (by omega))]

end LNLib
