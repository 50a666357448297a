import Verif.Lemmas.SurfaceInsert
import Verif.Props.KnotInsertion
import Verif.Props.Surface

/-!
# C83: knot insertion into a surface
-/

namespace LNLib.Props
open LNLib Res Spec Finset
set_option linter.unusedSectionVars false

variable {K : Type} [Field K] [LinearOrder K] [IsStrictOrderedRing K]
variable {T : Type} [AddCommGroup T] [Module K T]

theorem insKnots_facts {U V : List K} {p n k s t : ℕ} {u : K} (hi : InsertAt (nth U) p n k s u) (hU : U.length = n + p + 2) (hV : V.length = n + t + p + 2)
    (g : InsKnots (nth U) (nth V) k t (n + p + 1) u) : V.Perm (U ++ List.replicate t u) ∧ (∀ i j, i ≤ j → j < V.length → nth V i ≤ nth V j) ∧
      nth V p = nth U p ∧ nth V (n + t + 1) = nth U (n + 1) ∧
      (nth U p < u → KnotSeparated U u → EndsSeparated (nth U) p n → EndsSeparated (nth V) p (n + t)) := by
  have hkn := hi.kn
  have hpk := hi.pk
  have hmono := g.mono hi
  have ep : nth V p = nth U p := g.lo p hpk
  have en : nth V (n + t + 1) = nth U (n + 1) := by
    rw [g.hi (n + t + 1) (by omega) (by omega)]; congr 1; omega
  refine ⟨?_, fun i j hij hj => hmono i j hij (by omega), ep, en, fun h0 hsep he => ⟨?_, ?_⟩⟩
  · have hsplit : V = (U.take (k + 1) ++ List.replicate t u) ++ U.drop (k + 1) := by
      apply ext_nth
      · simp; omega
      · intro i hi'
        have l1 : (U.take (k + 1)).length = k + 1 := by simp; omega
        by_cases a1 : i ≤ k
        · rw [g.lo i a1, nth_append_left (by simp; omega), nth_append_left (by omega)]
          unfold nth
          simp only [List.getD, List.getElem?_take]
          rw [if_pos (by omega)]
        · by_cases a2 : i ≤ k + t
          · rw [g.mid i (by omega) a2, nth_append_left (by simp; omega), nth_append_right (by omega), nth_replicate (by omega)]
          · rw [g.hi i (by omega) (by omega), nth_append_right (by simp; omega)]
            unfold nth
            simp only [List.getD, List.getElem?_drop]
            congr 2
            simp only [List.length_append, List.length_replicate, l1]
            omega
    rw [hsplit]
    have : U ++ List.replicate t u = U.take (k + 1) ++ (U.drop (k + 1) ++ List.replicate t u) := by
      rw [← List.append_assoc, List.take_append_drop]
    rw [this, List.append_assoc]
    exact List.Perm.append_left _ List.perm_append_comm
  · rw [ep]
    by_cases hkp : k = p
    · by_cases ht : t = 0
      · rw [show p + 1 = p + 1 + t by omega, g.hi (p + 1 + t) (by omega) (by omega), Nat.add_sub_cancel]
        exact he.first
      · rw [g.mid (p + 1) (by omega) (by omega)]
        have hmem : nth U p ∈ U := by
          rw [nth_eq_getElem (by omega)]; exact List.getElem_mem _
        rcases hsep _ hmem with h | h
        · rw [h] at h0; exact absurd h0 (lt_irrefl _)
        · rw [abs_of_pos (sub_pos.mpr h0), max_comm] at h
          exact h
    · rw [g.lo (p + 1) (by omega)]
      exact he.first
  · rw [en]
    by_cases hkn' : k = n ∧ 0 < t
    · rw [g.mid (n + t) (by omega) (by omega)]
      have hmem : nth U (n + 1) ∈ U := by
        rw [nth_eq_getElem (by omega)]; exact List.getElem_mem _
      have h1 : u < nth U (n + 1) := by rw [← hkn'.1]; exact hi.hi
      rcases hsep _ hmem with h | h
      · rw [h] at h1; exact absurd h1 (lt_irrefl _)
      · rw [abs_of_neg (sub_neg.mpr h1), neg_sub] at h
        exact h
    · by_cases hc : k = n
      · rw [show n + t = n by omega, g.lo n (by omega)]; exact he.last
      · rw [g.hi (n + t) (by omega) (by omega), Nat.add_sub_cancel]
        exact he.last

theorem insPoints_congr {U : ℕ → K} {P Q Q' : ℕ → T} {p n k s t : ℕ} {u : K} (h : InsPoints U P Q p n k s t u) (e : ∀ i, Q' i = Q i) :
    InsPoints U P Q' p n k s t u := by
  have : Q' = Q := funext e
  rw [this]; exact h

/-- all columns -/
theorem insertColumns_run {C : List (List T)} {n m t : ℕ} {U : List K} {p k s : ℕ} {u : K} {A : List (List K)} (hC : IsMat C (n + 1) (m + 1))
    (hi : InsertAt (nth U) p n k s u) (hU : U.length = n + p + 2) (ht1 : 1 ≤ t) (hst : s + t ≤ p) (hA : IsMat A (p - s) (t + 1))
    (ha : ∀ j, 1 ≤ j → j ≤ t → ∀ i, i + j + s ≤ p → ent A i j = (u - nth U (k - p + j + i)) / (nth U (k - p + i + p + 1) - nth U (k - p + j + i)))
    {M : List (List T)} {temp : List T} (hM : IsMat M (n + 1 + t) (m + 1)) (htl : temp.length = p + 1) :
    Runs (forI 0 ((m : ℤ) + 1) (M, temp) fun col st =>
          insertFibre (p : ℤ) k s t A ((n : ℤ) + 1) (fun i => mget C i col) (fun M i x => mset M i col x) st) (fun st =>
      IsMat st.1 (n + 1 + t) (m + 1) ∧ ∀ b ≤ m, InsPoints (nth U) (fun i => ent C i b) (fun i => ent st.1 i b) p n k s t u) := by
  refine (Runs.forN (m := 0) (n := m + 1) (fun j st => IsMat st.1 (n + 1 + t) (m + 1) ∧ st.2.length = p + 1 ∧
    ∀ b < j, InsPoints (nth U) (fun i => ent C i b) (fun i => ent st.1 i b) p n k s t u) rfl (by push_cast; ring) (by omega) ⟨hM, htl, by omega⟩ ?_).mono
    (fun st h => ⟨h.1, fun b hb => h.2.2 b (by omega)⟩)
  rintro col ⟨M, temp⟩ - hcol ⟨hM, htl, hp⟩
  dsimp only at hM htl hp ⊢
  have hv : FibreView (T := T) (fun M i x => mset M i (col : ℤ) x) (fun M' => IsMat M' (n + 1 + t) (m + 1) ∧ ∀ a b, b ≠ col → ent M' a b = ent M a b)
      (fun M' i => ent M' i col) (n + 1 + t) := by
    constructor
    rintro M' i x ⟨h1, h2⟩ hi'
    obtain ⟨M2, f1, f2, f3⟩ := mset_ok (x := x) h1 (i := (i : ℤ)) (j := (col : ℤ)) rfl rfl hi' (by omega)
    refine ⟨M2, f1, ⟨f2, fun a b hb => by rw [f3, if_neg (by simp [hb]), h2 a b hb]⟩, fun j => ?_⟩
    rw [f3]; simp
  refine (insertFibre_run hv (P := fun i => ent C i col) (rd := fun i => mget C i (col : ℤ)) hi hU ht1 hst hA ha (fun i hi' => mget_ent hC rfl rfl (by omega) hcol) ⟨hM, fun _ _ _ => rfl⟩ htl).mono ?_
  rintro ⟨M', temp'⟩ ⟨⟨h1, h2⟩, h3, h4⟩
  refine ⟨h1, h3, fun b hb => ?_⟩
  by_cases h : b = col
  · subst h; exact h4
  · exact insPoints_congr (hp b (by omega)) fun i => h2 i b h

/-- all rows -/
theorem insertRows_run {C : List (List T)} {n m t : ℕ} {V : List K} {q k s : ℕ} {v : K} {A : List (List K)} (hC : IsMat C (n + 1) (m + 1))
    (hi : InsertAt (nth V) q m k s v) (hV : V.length = m + q + 2) (ht1 : 1 ≤ t) (hst : s + t ≤ q) (hA : IsMat A (q - s) (t + 1))
    (ha : ∀ j, 1 ≤ j → j ≤ t → ∀ i, i + j + s ≤ q → ent A i j = (v - nth V (k - q + j + i)) / (nth V (k - q + i + q + 1) - nth V (k - q + j + i)))
    {M : List (List T)} {temp : List T} (hM : IsMat M (n + 1) (m + 1 + t)) (htl : temp.length = q + 1) :
    Runs (forI 0 ((n : ℤ) + 1) (M, temp) fun row st =>
          insertFibre (q : ℤ) k s t A ((m : ℤ) + 1) (fun i => mget C row i) (fun M i x => mset M row i x) st) (fun st =>
      IsMat st.1 (n + 1) (m + 1 + t) ∧ ∀ a ≤ n, InsPoints (nth V) (ent C a) (ent st.1 a) q m k s t v) := by
  refine (Runs.forN (m := 0) (n := n + 1) (fun j st => IsMat st.1 (n + 1) (m + 1 + t) ∧ st.2.length = q + 1 ∧
    ∀ a < j, InsPoints (nth V) (ent C a) (ent st.1 a) q m k s t v) rfl (by push_cast; ring) (by omega) ⟨hM, htl, by omega⟩ ?_).mono
    (fun st h => ⟨h.1, fun b hb => h.2.2 b (by omega)⟩)
  rintro row ⟨M, temp⟩ - hrow ⟨hM, htl, hp⟩
  dsimp only at hM htl hp ⊢
  have hv : FibreView (T := T) (fun M i x => mset M (row : ℤ) i x) (fun M' => IsMat M' (n + 1) (m + 1 + t) ∧ ∀ a b, a ≠ row → ent M' a b = ent M a b)
      (fun M' i => ent M' row i) (m + 1 + t) := by
    constructor
    rintro M' i x ⟨h1, h2⟩ hi'
    obtain ⟨M2, f1, f2, f3⟩ := mset_ok (x := x) h1 (i := (row : ℤ)) (j := (i : ℤ)) rfl rfl hrow hi'
    refine ⟨M2, f1, ⟨f2, fun a b hb => by rw [f3, if_neg (by simp [hb]), h2 a b hb]⟩, fun j => ?_⟩
    rw [f3]; simp
  refine (insertFibre_run hv (P := ent C row) (rd := fun i => mget C (row : ℤ) i) hi hV ht1 hst hA ha (fun i hi' => mget_ent hC rfl rfl hrow (by omega)) ⟨hM, fun _ _ _ => rfl⟩ htl).mono ?_
  rintro ⟨M', temp'⟩ ⟨⟨h1, h2⟩, h3, h4⟩
  refine ⟨h1, h3, fun b hb => ?_⟩
  by_cases h : b = row
  · subst h; exact h4
  · exact insPoints_congr (hp b (by omega)) fun i => h2 b i h

theorem min_times {p s : ℕ} {times : ℤ} (hs : s < p) (ht : 0 < times) : ∃ t : ℕ, (if times + s > (p : ℤ) then (p : ℤ) - s else times) = t ∧ 1 ≤ t ∧ s + t ≤ p ∧
    (min times ((p : ℤ) - s)).toNat = t := by
  split_ifs with h
  · exact ⟨p - s, by omega, by omega, by omega, by omega⟩
  · exact ⟨times.toNat, by omega, by omega, by omega, by omega⟩

/-- C83, U direction: for every well-formed surface, every value strictly inside the U range whose multiplicity is at most the degree, and every positive
number of insertions, `InsertKnot` returns a well-formed surface.  Its U knots are the old ones together with `t` copies of the value, `t` being the
requested number capped by degree minus multiplicity; the V direction is untouched; every parameter pair has the same point. -/
theorem C83_insert_u {c : BsplineSurface K T} {p q n m : ℕ} {u : K} {times : ℤ} (w : WellFormedS c p q n m) (he : EndsSeparatedS c p q n m)
    (hsep : KnotSeparated c.knotsU u) (h0 : nth c.knotsU p < u) (h1 : u < nth c.knotsU (n + 1)) (hs : c.knotsU.count u ≤ p) (ht : 0 < times) :
    ∃ r, insertKnotSurface c u times true = ok r ∧
      WellFormedS r p q (n + (min times ((p : ℤ) - c.knotsU.count u)).toNat) m ∧ EndsSeparatedS r p q (n + (min times ((p : ℤ) - c.knotsU.count u)).toNat) m ∧
      r.knotsU.Perm (c.knotsU ++ List.replicate (min times ((p : ℤ) - c.knotsU.count u)).toNat u) ∧ r.knotsV = c.knotsV ∧
      ∀ x y, InDomain c p q n m x y → InDomain r p q (n + (min times ((p : ℤ) - c.knotsU.count u)).toNat) m x y ∧ r.pointOnSurface x y = c.pointOnSurface x y := by
  have hpn := w.pn
  have hku := w.knotsU
  let cu : BsplineCurve K T := { degree := c.degreeU, knots := c.knotsU, cps := (List.range (n + 1)).map fun i => ent c.cps i 0 }
  have wc : WellFormed cu p n := { degree := w.degreeU, pos := w.posU, le7 := w.le7U, cps := by simp [cu], pn := w.pn, knots := w.knotsU, sorted := w.sortedU }
  obtain ⟨k, hk, hm, hi⟩ := insertAt_of wc he.u hsep h0.le h1 hs
  replace hk : getKnotSpanIndex c.degreeU c.knotsU u = ok (k : ℤ) := hk
  replace hm : getKnotMultiplicity c.knotsU u = ok ((c.knotsU.count u : ℕ) : ℤ) := hm
  replace hi : InsertAt (nth c.knotsU) p n k (c.knotsU.count u) u := hi
  rw [w.degreeU] at hk
  have hval : isValidBspline (p : ℤ) c.knotsU.length c.cps.length = true := by
    unfold isValidBspline
    rw [w.knotsU, w.cps.1]
    simp; ring
  unfold insertKnotSurface
  simp only [if_true, hval, validate_true, ok_bind, hk, hm, w.degreeU]
  by_cases hsp : c.knotsU.count u = p
  · rw [if_pos (show ((c.knotsU.count u : ℕ) : ℤ) = (p : ℤ) by rw [hsp])]
    refine ⟨c, rfl, ?_⟩
    rw [show (min times ((p : ℤ) - c.knotsU.count u)).toNat = 0 by omega]
    exact ⟨w, he, by simp, rfl, fun x y d => ⟨d, rfl⟩⟩
  · rw [if_neg (show ¬ ((c.knotsU.count u : ℕ) : ℤ) = (p : ℤ) by omega)]
    obtain ⟨t, et, ht1, hst, em⟩ := min_times (p := p) (s := c.knotsU.count u) (by omega) ht
    rw [et, em]
    obtain ⟨V, eV, lV, gV⟩ := insertedKnots_run (t := t) hi hku
    obtain ⟨A, eA, mA, hA⟩ := insertAlpha_run (t := t) hi hku hst
    rw [eV, ok_bind, eA, ok_bind, vget_row (k := 0) (by simp) (by rw [w.cps.1]; omega), ok_bind, w.cps.2 0 (by omega), w.cps.1, if_neg (by omega)]
    obtain ⟨⟨M, temp⟩, eM, hM, hP⟩ := insertColumns_run (A := A) (M := List.replicate (n + 1 + t) (List.replicate (m + 1) (0 : T))) (temp := List.replicate (p + 1) (0 : T))
      w.cps hi hku ht1 hst mA hA isMat_replicate (by simp)
    rw [show (((n + 1 : ℕ) : ℤ) + t).toNat = n + 1 + t by omega, show (((m + 1 : ℕ) : ℤ)).toNat = m + 1 by omega, show ((p : ℤ) + 1).toNat = p + 1 by omega]
    push_cast at eM ⊢
    rw [eM, ok_bind]
    dsimp only at hM hP ⊢
    obtain ⟨k1, k2, k3, k4, k5⟩ := insKnots_facts hi hku lV gV
    have wr : WellFormedS ({ degreeU := p, degreeV := c.degreeV, knotsU := V, knotsV := c.knotsV, cps := M } : BsplineSurface K T) p q (n + t) m :=
      { degreeU := rfl, degreeV := w.degreeV, posU := w.posU, posV := w.posV, le7U := w.le7U, le7V := w.le7V,
        cps := by rw [show n + t + 1 = n + 1 + t by omega]; exact hM, pn := by omega, qm := w.qm, knotsU := lV, knotsV := w.knotsV, sortedU := k2, sortedV := w.sortedV }
    have er : EndsSeparatedS ({ degreeU := p, degreeV := c.degreeV, knotsU := V, knotsV := c.knotsV, cps := M } : BsplineSurface K T) p q (n + t) m := ⟨k5 h0 hsep he.u, he.v⟩
    refine ⟨_, rfl, wr, er, k1, rfl, fun x y d => ?_⟩
    have d' : InDomain ({ degreeU := p, degreeV := c.degreeV, knotsU := V, knotsV := c.knotsV, cps := M } : BsplineSurface K T) p q (n + t) m x y := ⟨by dsimp only; rw [k3]; exact d.u0, by dsimp only; rw [k4]; exact d.u1, d.v0, d.v1⟩
    refine ⟨d', ?_⟩
    rw [C33_eval wr er d', C33_eval w he d]
    dsimp only
    rw [surfacePoint_eq', surfacePoint_eq']
    obtain ⟨σ, -, hσ⟩ := span_isSpan wc he.u d.u0 d.u1
    exact congrArg ok (curvePoint_congr fun j hj => insert_curve hi gV ht1 (by omega) (hP j hj) hσ)

/-- C83, V direction. -/
theorem C83_insert_v {c : BsplineSurface K T} {p q n m : ℕ} {v : K} {times : ℤ} (w : WellFormedS c p q n m) (he : EndsSeparatedS c p q n m)
    (hsep : KnotSeparated c.knotsV v) (h0 : nth c.knotsV q < v) (h1 : v < nth c.knotsV (m + 1)) (hs : c.knotsV.count v ≤ q) (ht : 0 < times) :
    ∃ r, insertKnotSurface c v times false = ok r ∧
      WellFormedS r p q n (m + (min times ((q : ℤ) - c.knotsV.count v)).toNat) ∧ EndsSeparatedS r p q n (m + (min times ((q : ℤ) - c.knotsV.count v)).toNat) ∧
      r.knotsV.Perm (c.knotsV ++ List.replicate (min times ((q : ℤ) - c.knotsV.count v)).toNat v) ∧ r.knotsU = c.knotsU ∧
      ∀ x y, InDomain c p q n m x y → InDomain r p q n (m + (min times ((q : ℤ) - c.knotsV.count v)).toNat) x y ∧ r.pointOnSurface x y = c.pointOnSurface x y := by
  have hpn := w.qm
  have hku := w.knotsV
  let cu : BsplineCurve K T := { degree := c.degreeV, knots := c.knotsV, cps := (List.range (m + 1)).map fun i => ent c.cps 0 i }
  have wc : WellFormed cu q m := { degree := w.degreeV, pos := w.posV, le7 := w.le7V, cps := by simp [cu], pn := w.qm, knots := w.knotsV, sorted := w.sortedV }
  obtain ⟨k, hk, hm, hi⟩ := insertAt_of wc he.v hsep h0.le h1 hs
  replace hk : getKnotSpanIndex c.degreeV c.knotsV v = ok (k : ℤ) := hk
  replace hm : getKnotMultiplicity c.knotsV v = ok ((c.knotsV.count v : ℕ) : ℤ) := hm
  replace hi : InsertAt (nth c.knotsV) q m k (c.knotsV.count v) v := hi
  have hval : isValidBspline (q : ℤ) (c.knotsV.length) ((m + 1 : ℕ) : ℤ) = true := by
    unfold isValidBspline
    rw [w.knotsV]
    simp; ring
  have hrow : vget c.cps 0 = ok (row c.cps 0) := vget_row (k := 0) (by simp) (by rw [w.cps.1]; omega)
  rw [w.degreeV] at hk
  unfold insertKnotSurface
  simp only [Bool.false_eq_true, if_false, hrow, ok_bind, w.cps.2 0 (by omega), hval, validate_true, hk, hm, w.degreeV, w.cps.1]
  by_cases hsp : c.knotsV.count v = q
  · rw [if_pos (show ((c.knotsV.count v : ℕ) : ℤ) = (q : ℤ) by rw [hsp])]
    refine ⟨c, rfl, ?_⟩
    rw [show (min times ((q : ℤ) - c.knotsV.count v)).toNat = 0 by omega]
    exact ⟨w, he, by simp, rfl, fun x y d => ⟨d, rfl⟩⟩
  · rw [if_neg (show ¬ ((c.knotsV.count v : ℕ) : ℤ) = (q : ℤ) by omega)]
    obtain ⟨t, et, ht1, hst, em⟩ := min_times (p := q) (s := c.knotsV.count v) (by omega) ht
    rw [et, em]
    obtain ⟨V, eV, lV, gV⟩ := insertedKnots_run (t := t) hi hku
    obtain ⟨A, eA, mA, hA⟩ := insertAlpha_run (t := t) hi hku hst
    rw [eV, ok_bind, eA, ok_bind, if_neg (by omega)]
    obtain ⟨⟨M, temp⟩, eM, hM, hP⟩ := insertRows_run (A := A) (M := List.replicate (n + 1) (List.replicate (m + 1 + t) (0 : T))) (temp := List.replicate (q + 1) (0 : T))
      w.cps hi hku ht1 hst mA hA isMat_replicate (by simp)
    rw [show (((m + 1 : ℕ) : ℤ) + t).toNat = m + 1 + t by omega, show (((n + 1 : ℕ) : ℤ)).toNat = n + 1 by omega, show ((q : ℤ) + 1).toNat = q + 1 by omega]
    push_cast at eM ⊢
    rw [eM, ok_bind]
    dsimp only at hM hP ⊢
    obtain ⟨k1, k2, k3, k4, k5⟩ := insKnots_facts hi hku lV gV
    have wr : WellFormedS ({ degreeU := c.degreeU, degreeV := q, knotsU := c.knotsU, knotsV := V, cps := M } : BsplineSurface K T) p q n (m + t) :=
      { degreeU := w.degreeU, degreeV := rfl, posU := w.posU, posV := w.posV, le7U := w.le7U, le7V := w.le7V,
        cps := by rw [show m + t + 1 = m + 1 + t by omega]; exact hM, pn := w.pn, qm := by omega, knotsV := lV, knotsU := w.knotsU, sortedV := k2, sortedU := w.sortedU }
    have er : EndsSeparatedS ({ degreeU := c.degreeU, degreeV := q, knotsU := c.knotsU, knotsV := V, cps := M } : BsplineSurface K T) p q n (m + t) := ⟨he.u, k5 h0 hsep he.v⟩
    refine ⟨_, rfl, wr, er, k1, rfl, fun x y d => ?_⟩
    have d' : InDomain ({ degreeU := c.degreeU, degreeV := q, knotsU := c.knotsU, knotsV := V, cps := M } : BsplineSurface K T) p q n (m + t) x y := ⟨d.u0, d.u1, by dsimp only; rw [k3]; exact d.v0, by dsimp only; rw [k4]; exact d.v1⟩
    refine ⟨d', ?_⟩
    rw [C33_eval wr er d', C33_eval w he d]
    dsimp only
    rw [surfacePoint_eq, surfacePoint_eq]
    obtain ⟨σ, -, hσ⟩ := span_isSpan wc he.v d.v0 d.v1
    exact congrArg ok (curvePoint_congr fun j hj => insert_curve hi gV ht1 (by omega) (hP j hj) hσ)

/-- C83 for rational surfaces: the projected points agree. -/
theorem C83_insert_rational_u {c : NurbsSurface K} {p q n m : ℕ} {u : K} {times : ℤ} (w : WellFormedS c p q n m) (he : EndsSeparatedS c p q n m)
    (hsep : KnotSeparated c.knotsU u) (h0 : nth c.knotsU p < u) (h1 : u < nth c.knotsU (n + 1)) (hs : c.knotsU.count u ≤ p) (ht : 0 < times) {r : NurbsSurface K}
    (hr : insertKnotSurface c u times true = ok r) {x y : K} (d : InDomain c p q n m x y) : NurbsSurface.pointOnSurface r x y = NurbsSurface.pointOnSurface c x y := by
  obtain ⟨r', e, -, -, -, -, h⟩ := C83_insert_u w he hsep h0 h1 hs ht
  rw [hr] at e
  cases e
  unfold NurbsSurface.pointOnSurface
  rw [(h x y d).2]

/-- C83 for rational surfaces, V direction. -/
theorem C83_insert_rational_v {c : NurbsSurface K} {p q n m : ℕ} {v : K} {times : ℤ} (w : WellFormedS c p q n m) (he : EndsSeparatedS c p q n m)
    (hsep : KnotSeparated c.knotsV v) (h0 : nth c.knotsV q < v) (h1 : v < nth c.knotsV (m + 1)) (hs : c.knotsV.count v ≤ q) (ht : 0 < times) {r : NurbsSurface K}
    (hr : insertKnotSurface c v times false = ok r) {x y : K} (d : InDomain c p q n m x y) : NurbsSurface.pointOnSurface r x y = NurbsSurface.pointOnSurface c x y := by
  obtain ⟨r', e, -, -, -, -, h⟩ := C83_insert_v w he hsep h0 h1 hs ht
  rw [hr] at e
  cases e
  unfold NurbsSurface.pointOnSurface
  rw [(h x y d).2]

/-- the hypotheses are met: two insertions at a new value and one at an existing knot of multiplicity one -/
example : (∃ r, insertKnotSurface exSurface (1 / 4) 2 true = ok r ∧ WellFormedS r 2 1 5 2) ∧ (∃ r, insertKnotSurface exSurface (1 / 2) 5 true = ok r ∧ WellFormedS r 2 1 4 2) ∧
    ∃ r, insertKnotSurface exSurface (1 / 2) 1 false = ok r ∧ WellFormedS r 2 1 3 3 := by
  refine ⟨?_, ?_, ?_⟩
  · obtain ⟨r, e, h, -⟩ := C83_insert_u (times := 2) exSurface_wf exSurface_ends (u := 1 / 4) (by unfold KnotSeparated; decide +kernel) (by decide +kernel) (by decide +kernel) (by decide +kernel) (by norm_num)
    rw [show exSurface.knotsU.count (1 / 4) = 0 by decide +kernel] at h
    exact ⟨r, e, by exact h⟩
  · obtain ⟨r, e, h, -⟩ := C83_insert_u (times := 5) exSurface_wf exSurface_ends (u := 1 / 2) (by unfold KnotSeparated; decide +kernel) (by decide +kernel) (by decide +kernel) (by decide +kernel) (by norm_num)
    rw [show exSurface.knotsU.count (1 / 2) = 1 by decide +kernel] at h
    exact ⟨r, e, by exact h⟩
  · obtain ⟨r, e, h, -⟩ := C83_insert_v (times := 1) exSurface_wf exSurface_ends (v := 1 / 2) (by unfold KnotSeparated; decide +kernel) (by decide +kernel) (by decide +kernel) (by decide +kernel) (by norm_num)
    rw [show exSurface.knotsV.count (1 / 2) = 0 by decide +kernel] at h
    exact ⟨r, e, by exact h⟩

/-- C83 disagreement: with zero insertions, which are not rejected, the middle loop copies unset control points: the surface changes. -/
theorem C83_times_zero_violated : ∃ r, insertKnotSurface exSurface (3 / 4) 0 true = ok r ∧ r ≠ exSurface ∧ NurbsSurface.pointOnSurface r (1 / 4) 0 ≠ NurbsSurface.pointOnSurface exSurface (1 / 4) 0 := by
  refine ⟨(match insertKnotSurface exSurface (3 / 4) 0 true with | ok r => r | _ => exSurface), ?_, ?_, ?_⟩ <;> decide +kernel

/-- C83: a value of multiplicity above the degree (such as the end of a clamped range) makes the size of the ratio table negative. -/
theorem C83_end_knot_ub : insertKnotSurface exSurface 1 1 true = ub := by decide +kernel

end LNLib.Props
