import Verif.Model.Coons
import Verif.Props.SurfaceCreate
import Verif.Props.SurfaceElevate
import Verif.Props.CurveParam

/-!
# C120: the Coons patch
-/

namespace LNLib.Props
open LNLib Res Spec Finset
set_option linter.unusedSectionVars false

section
variable {K : Type} [Field K] [LinearOrder K] [IsStrictOrderedRing K]
variable {T : Type} [AddCommGroup T] [Module K T]

/-! ## merging any number of knot vectors gives sorted lists -/

theorem fold_sorted (g : K × ℤ → ℕ) : ∀ (m : KnotMap K) (l : List K), SortedMap m → l.Pairwise (· ≤ ·) → (∀ x ∈ l, ∀ e ∈ m, x ≤ e.1) →
    (m.foldl (fun l e => l ++ List.replicate (g e) e.1) l).Pairwise (· ≤ ·)
  | [], l, _, hl, _ => hl
  | e :: m, l, h, hl, hx => by
    obtain ⟨h1, h2⟩ := sorted_cons.mp h
    rw [List.foldl_cons]
    refine fold_sorted g m _ h2 ?_ ?_
    · rw [List.pairwise_append]
      refine ⟨hl, List.pairwise_replicate.mpr (Or.inr le_rfl), fun x h3 y h4 => ?_⟩
      rw [List.eq_of_mem_replicate h4]
      exact hx x h3 e (by simp)
    · intro x h3 d hd
      rcases List.mem_append.mp h3 with h3 | h3
      · exact hx x h3 d (List.mem_cons_of_mem _ hd)
      · rw [List.eq_of_mem_replicate h3]
        exact (h1 d hd).le

/-- C45: the lists returned for any number of knot vectors are sorted. -/
theorem C45_merge_all_sorted (Us : List (List K)) : ∀ I ∈ getInsertedKnotElementsAll Us, I.Pairwise (· ≤ ·) := by
  intro I hI
  have hfold : ∀ (Vs : List (List K)) (fm : KnotMap K), SortedMap fm →
      SortedMap (Vs.foldl (fun fm U => (getKnotMultiplicityMap U).foldl finalStep fm) fm) := by
    intro Vs
    induction Vs with
    | nil => intro fm h; exact h
    | cons U Vs ih => intro fm h; exact ih _ (final_fold (getKnotMultiplicityMap U) fm (map_sorted U) h).1
  unfold getInsertedKnotElementsAll at hI
  obtain ⟨U, hU, rfl⟩ := List.mem_map.mp hI
  have hm : ∀ (m : KnotMap K) (l : List K), m.foldl (missingStep (getKnotMultiplicityMap U)) l =
      m.foldl (fun l e => l ++ List.replicate (match (getKnotMultiplicityMap U).find e.1 with | none => e.2.toNat | some c => (e.2 - c).toNat) e.1) l := by
    intro m
    induction m with
    | nil => intro l; rfl
    | cons e m ih =>
      intro l
      simp only [List.foldl_cons]
      rw [ih]
      unfold missingStep
      cases (getKnotMultiplicityMap U).find e.1 <;> simp
  rw [hm]
  exact fold_sorted _ _ _ (hfold Us [] (by simp [SortedMap])) List.Pairwise.nil (by simp)

/-! ## surfaces on the unit square -/

/-- a well-formed surface whose knots lie in `[0, 1]`, whose domain is the unit square and whose point at `(u, v)` is `F u v` -/
structure Patch (S : BsplineSurface K T) (p q n m : ℕ) (F : K → K → T) : Prop where
  wf : WellFormedS S p q n m
  ends : EndsSeparatedS S p q n m
  rangeU : ∀ x ∈ S.knotsU, 0 ≤ x ∧ x ≤ 1
  rangeV : ∀ x ∈ S.knotsV, 0 ≤ x ∧ x ≤ 1
  lo : InDomain S p q n m 0 0
  hi : InDomain S p q n m 1 1
  eval : ∀ u v, 0 ≤ u → u ≤ 1 → 0 ≤ v → v ≤ 1 → S.pointOnSurface u v = ok (F u v)

theorem knots_unit {U : List K} {p n : ℕ} (hl : U.length = n + p + 2) (hs : ∀ i j, i ≤ j → j < U.length → nth U i ≤ nth U j)
    (hr : ∀ x ∈ U, 0 ≤ x ∧ x ≤ 1) (h0 : nth U p ≤ 0) (h1 : 1 ≤ nth U (n + 1)) :
    nth U p = 0 ∧ nth U (n + 1) = 1 ∧ ClampedEnds (nth U) p n := by
  have e0 : nth U p = 0 := le_antisymm h0 (hr _ (mem_of_nth (by omega))).1
  have e1 : nth U (n + 1) = 1 := le_antisymm (hr _ (mem_of_nth (by omega))).2 h1
  refine ⟨e0, e1, ⟨le_antisymm (hs _ _ (by omega) (by omega)) ?_, le_antisymm (hs _ _ (by omega) (by omega)) ?_⟩⟩
  · rw [e0]; exact (hr _ (mem_of_nth (by omega))).1
  · rw [e1]; exact (hr _ (mem_of_nth (by omega))).2

theorem count_unit {U : List K} {p n : ℕ} (hp : 0 < p) (h7 : p ≤ 7) (hpn : p ≤ n) (hl : U.length = n + p + 2) (hs : ∀ i j, i ≤ j → j < U.length → nth U i ≤ nth U j)
    (he : EndsSeparated (nth U) p n) (hr : ∀ x ∈ U, 0 ≤ x ∧ x ≤ 1) (h0 : nth U p ≤ 0) (h1 : 1 ≤ nth U (n + 1)) :
    U.count 0 = p + 1 ∧ U.count 1 = p + 1 := by
  obtain ⟨e0, e1, hc⟩ := knots_unit hl hs hr h0 h1
  have w : WellFormed (⟨p, U, List.replicate (n + 1) 0⟩ : BsplineCurve K K) p n :=
    { degree := rfl, pos := hp, le7 := h7, cps := by simp, pn := hpn, knots := hl, sorted := hs }
  have := count_ends w hc he
  dsimp only at this
  rwa [e0, e1] at this

namespace Patch
variable {S : BsplineSurface K T} {p q n m : ℕ} {F : K → K → T}

theorem unitU (h : Patch S p q n m F) : nth S.knotsU p = 0 ∧ nth S.knotsU (n + 1) = 1 ∧ ClampedEnds (nth S.knotsU) p n :=
  knots_unit h.wf.knotsU h.wf.sortedU h.rangeU h.lo.u0 h.hi.u1

theorem unitV (h : Patch S p q n m F) : nth S.knotsV q = 0 ∧ nth S.knotsV (m + 1) = 1 ∧ ClampedEnds (nth S.knotsV) q m :=
  knots_unit h.wf.knotsV h.wf.sortedV h.rangeV h.lo.v0 h.hi.v1

theorem dom (h : Patch S p q n m F) {u v : K} (u0 : 0 ≤ u) (u1 : u ≤ 1) (v0 : 0 ≤ v) (v1 : v ≤ 1) : InDomain S p q n m u v :=
  ⟨by rw [h.unitU.1]; exact u0, by rw [h.unitU.2.1]; exact u1, by rw [h.unitV.1]; exact v0, by rw [h.unitV.2.1]; exact v1⟩

/-- moving to another representation of the same surface -/
theorem move {S' : BsplineSurface K T} {p' q' n' m' : ℕ} (h : Patch S p q n m F) (w : WellFormedS S' p' q' n' m') (e : EndsSeparatedS S' p' q' n' m')
    (rU : ∀ x ∈ S'.knotsU, x ∈ S.knotsU ∨ 0 ≤ x ∧ x ≤ 1) (rV : ∀ x ∈ S'.knotsV, x ∈ S.knotsV ∨ 0 ≤ x ∧ x ≤ 1)
    (hd : ∀ x y, InDomain S p q n m x y → InDomain S' p' q' n' m' x y ∧ S'.pointOnSurface x y = S.pointOnSurface x y) :
    Patch S' p' q' n' m' F :=
  { wf := w, ends := e
    rangeU := fun x hx => (rU x hx).elim (h.rangeU x) id
    rangeV := fun x hx => (rV x hx).elim (h.rangeV x) id
    lo := (hd _ _ h.lo).1
    hi := (hd _ _ h.hi).1
    eval := fun u v u0 u1 v0 v1 => by rw [(hd _ _ (h.dom u0 u1 v0 v1)).2, h.eval u v u0 u1 v0 v1] }

end Patch

theorem mult_of_simple {U : List K} {p n : ℕ} (hp : 0 < p) (hpn : p ≤ n) (hl : U.length = n + p + 2) (hs : ∀ i j, i ≤ j → j < U.length → nth U i ≤ nth U j)
    (hsim : ∀ s, p ≤ s → s ≤ n → nth U s < nth U (s + 1)) : ∀ x, nth U p < x → x < nth U (n + 1) → U.count x ≤ p := by
  intro x x0 x1
  by_cases hx : x ∈ U
  · obtain ⟨s, hs', e⟩ := List.getElem_of_mem hx
    rw [← nth_eq_getElem hs'] at e
    have g0 : p < s := by
      by_contra hcon
      have := hs s p (by omega) (by omega)
      rw [e] at this
      exact absurd x0 (not_lt.mpr this)
    have g1 : s < n + 1 := by
      by_contra hcon
      have := hs (n + 1) s (by omega) (by omega)
      rw [e] at this
      exact absurd x1 (not_lt.mpr this)
    refine (count_between (a := s) (b := s + 1) ?_ ?_).trans (by omega)
    · intro i hi _
      have h1 := hsim (s - 1) (by omega) (by omega)
      rw [show s - 1 + 1 = s by omega, e] at h1
      exact (lt_of_le_of_lt (hs i (s - 1) (by omega) (by omega)) h1).ne
    · intro i hi hi'
      have h1 := hsim s (by omega) (by omega)
      rw [e] at h1
      exact (lt_of_lt_of_le h1 (hs _ _ hi hi')).ne'
  · rw [List.count_eq_zero.mpr hx]; omega

/-- the knots strictly between the clamped ends are simple -/
def Simple (U : List K) (p n : ℕ) : Prop := ∀ s, p ≤ s → s ≤ n → nth U s < nth U (s + 1)

variable {S : NurbsSurface K} {p q n m : ℕ} {F : K → K → XYZW K}

theorem coons_raise_u (h : Patch S p q n m F) {P : ℕ} (hP : p ≤ P) (h7 : P ≤ 7) (hs : WellSeparated S.knotsU) (hsim : p < P → Simple S.knotsU p n) :
    ∃ S' n', raiseTo S P true = ok S' ∧ Patch S' P q n' m F ∧ S'.knotsV = S.knotsV ∧ ∀ x, x ∈ S'.knotsU ↔ x ∈ S.knotsU := by
  unfold raiseTo
  simp only [if_true, h.wf.degreeU]
  rcases hP.lt_or_eq with hlt | rfl
  · obtain ⟨t, rfl⟩ : ∃ t, P = p + t := ⟨P - p, by omega⟩
    rw [if_pos (by omega), show ((p + t : ℕ) : ℤ) - p = (t : ℤ) by push_cast; ring]
    obtain ⟨r, e, -, -, hV, -, -, hc, hd, hw⟩ := C96_elevate_u_partial h.wf h.ends h.unitU.2.2 hs
      (mult_of_simple h.wf.posU h.wf.pn h.wf.knotsU h.wf.sortedU (hsim hlt)) (hsim hlt) (t := t) (by omega)
    obtain ⟨w, es, hp⟩ := hw h7
    have hm : ∀ x, x ∈ r.knotsU ↔ x ∈ S.knotsU := by
      intro x
      rw [← List.count_pos_iff, hc x]
      split <;> rename_i hx <;> simp [hx]
    exact ⟨r, _, e, h.move w es (fun x hx => Or.inl ((hm x).mp hx)) (fun x hx => Or.inl (by rw [← hV]; exact hx))
      (fun x y d => ⟨(hd x y d).1, hp x y d⟩), hV, hm⟩
  · rw [if_neg (by omega)]
    exact ⟨S, n, rfl, h, rfl, fun _ => Iff.rfl⟩

theorem coons_raise_v (h : Patch S p q n m F) {Q : ℕ} (hQ : q ≤ Q) (h7 : Q ≤ 7) (hs : WellSeparated S.knotsV) (hsim : q < Q → Simple S.knotsV q m) :
    ∃ S' m', raiseTo S Q false = ok S' ∧ Patch S' p Q n m' F ∧ S'.knotsU = S.knotsU ∧ ∀ x, x ∈ S'.knotsV ↔ x ∈ S.knotsV := by
  unfold raiseTo
  simp only [Bool.false_eq_true, if_false, h.wf.degreeV]
  rcases hQ.lt_or_eq with hlt | rfl
  · obtain ⟨t, rfl⟩ : ∃ t, Q = q + t := ⟨Q - q, by omega⟩
    rw [if_pos (by omega), show ((q + t : ℕ) : ℤ) - q = (t : ℤ) by push_cast; ring]
    obtain ⟨r, e, -, -, hV, -, -, hc, hd, hw⟩ := C96_elevate_v_partial h.wf h.ends h.unitV.2.2 hs
      (mult_of_simple h.wf.posV h.wf.qm h.wf.knotsV h.wf.sortedV (hsim hlt)) (hsim hlt) (t := t) (by omega)
    obtain ⟨w, es, hp⟩ := hw h7
    have hm : ∀ x, x ∈ r.knotsV ↔ x ∈ S.knotsV := by
      intro x
      rw [← List.count_pos_iff, hc x]
      split <;> rename_i hx <;> simp [hx]
    exact ⟨r, _, e, h.move w es (fun x hx => Or.inl (by rw [← hV]; exact hx)) (fun x hx => Or.inl ((hm x).mp hx))
      (fun x y d => ⟨(hd x y d).1, hp x y d⟩), hV, hm⟩
  · rw [if_neg (by omega)]
    exact ⟨S, m, rfl, h, rfl, fun _ => Iff.rfl⟩

theorem coons_refine_u (h : Patch S p q n m F) {X : List K} (hXs : X.Pairwise (· ≤ ·)) (hX : ∀ x ∈ X, 0 < x ∧ x < 1) (hsep : WellSeparated (S.knotsU ++ X)) :
    ∃ S', refineTo S X true = ok S' ∧ Patch S' p q (n + X.length) m F ∧ S'.knotsV = S.knotsV ∧ S'.knotsU.Perm (S.knotsU ++ X) := by
  unfold refineTo
  by_cases hne : X = []
  · subst hne
    rw [if_neg (by simp)]
    exact ⟨S, rfl, h, rfl, by simp⟩
  · rw [if_pos (List.length_pos_iff.mpr hne)]
    obtain ⟨r, e, w, es, hp, hV, hd⟩ := C84_refine_u h.wf h.ends hne hXs (fun x hx => by rw [h.unitU.1, h.unitU.2.1]; exact hX x hx) hsep
    refine ⟨r, e, h.move w es (fun x hx => ?_) (fun x hx => Or.inl (by rw [← hV]; exact hx)) hd, hV, hp⟩
    rcases List.mem_append.mp (hp.mem_iff.mp hx) with hx | hx
    · exact Or.inl hx
    · exact Or.inr ⟨(hX x hx).1.le, (hX x hx).2.le⟩

theorem coons_refine_v (h : Patch S p q n m F) {X : List K} (hXs : X.Pairwise (· ≤ ·)) (hX : ∀ x ∈ X, 0 < x ∧ x < 1) (hsep : WellSeparated (S.knotsV ++ X)) :
    ∃ S', refineTo S X false = ok S' ∧ Patch S' p q n (m + X.length) F ∧ S'.knotsU = S.knotsU ∧ S'.knotsV.Perm (S.knotsV ++ X) := by
  unfold refineTo
  by_cases hne : X = []
  · subst hne
    rw [if_neg (by simp)]
    exact ⟨S, rfl, h, rfl, by simp⟩
  · rw [if_pos (List.length_pos_iff.mpr hne)]
    obtain ⟨r, e, w, es, hp, hV, hd⟩ := C84_refine_v h.wf h.ends hne hXs (fun x hx => by rw [h.unitV.1, h.unitV.2.1]; exact hX x hx) hsep
    refine ⟨r, e, h.move w es (fun x hx => Or.inl (by rw [← hV]; exact hx)) (fun x hx => ?_) hd, hV, hp⟩
    rcases List.mem_append.mp (hp.mem_iff.mp hx) with hx | hx
    · exact Or.inl hx
    · exact Or.inr ⟨(hX x hx).1.le, (hX x hx).2.le⟩

/-- the three lists of missing knots -/
theorem merge_three {A B C : List K} {k : ℕ} (hA : ∀ x ∈ A, 0 ≤ x ∧ x ≤ 1) (hB : ∀ x ∈ B, 0 ≤ x ∧ x ≤ 1) (hC : ∀ x ∈ C, 0 ≤ x ∧ x ≤ 1)
    (cA : A.count 0 = k ∧ A.count 1 = k) (cB : B.count 0 = k ∧ B.count 1 = k) (cC : C.count 0 = k ∧ C.count 1 = k) :
    ∃ I J L, getInsertedKnotElementsAll [A, B, C] = [I, J, L] ∧ (I.Pairwise (· ≤ ·) ∧ J.Pairwise (· ≤ ·) ∧ L.Pairwise (· ≤ ·)) ∧
      (A ++ I).Perm (B ++ J) ∧ (A ++ I).Perm (C ++ L) ∧
      (∀ x, x ∈ I ∨ x ∈ J ∨ x ∈ L → 0 < x ∧ x < 1 ∧ x ∈ A ++ (B ++ C)) := by
  obtain ⟨hlen, hcount⟩ := C45_merge_all [A, B, C]
  have hsort := C45_merge_all_sorted [A, B, C]
  match hG : getInsertedKnotElementsAll [A, B, C], hlen with
  | [I, J, L], _ =>
    rw [hG] at hcount hsort
    have cI := hcount 0 A I rfl rfl
    have cJ := hcount 1 B J rfl rfl
    have cL := hcount 2 C L rfl rfl
    refine ⟨I, J, L, rfl, ⟨hsort I (by simp), hsort J (by simp), hsort L (by simp)⟩, ?_, ?_, ?_⟩
    · rw [List.perm_iff_count]; intro x; rw [cI, cJ]
    · rw [List.perm_iff_count]; intro x; rw [cI, cL]
    · intro x hx
      have h1 := cI x
      have h2 := cJ x
      have h3 := cL x
      rw [List.count_append] at h1 h2 h3
      simp only [List.map_cons, List.map_nil, List.foldr_cons, List.foldr_nil] at h1 h2 h3
      have hpos : 0 < I.count x ∨ 0 < J.count x ∨ 0 < L.count x := by
        simpa only [List.count_pos_iff] using hx
      have hne : ¬ (A.count x = B.count x ∧ A.count x = C.count x) := by omega
      have hm : x ∈ A ∨ x ∈ B ∨ x ∈ C := by
        by_contra hcon
        rw [not_or, not_or] at hcon
        apply hne
        rw [List.count_eq_zero.mpr hcon.1, List.count_eq_zero.mpr hcon.2.1, List.count_eq_zero.mpr hcon.2.2]
        exact ⟨rfl, rfl⟩
      have hr : 0 ≤ x ∧ x ≤ 1 := by rcases hm with h | h | h; exacts [hA x h, hB x h, hC x h]
      refine ⟨lt_of_le_of_ne hr.1 ?_, lt_of_le_of_ne hr.2 ?_, by simpa only [List.mem_append] using hm⟩
      · rintro rfl; exact hne ⟨cA.1.trans cB.1.symm, cA.1.trans cC.1.symm⟩
      · rintro rfl; exact hne ⟨cA.2.trans cB.2.symm, cA.2.trans cC.2.symm⟩

variable {a b c : NurbsSurface K} {pa pb pc qa qb qc na nb nc ma mb mc P : ℕ} {Fa Fb Fc : K → K → XYZW K}

theorem commonDegree_u (ha : Patch a pa qa na ma Fa) (hb : Patch b pb qb nb mb Fb) (hc : Patch c pc qc nc mc Fc)
    (hP : P = max pa (max pb pc)) (sa : WellSeparated a.knotsU) (sb : WellSeparated b.knotsU) (sc : WellSeparated c.knotsU)
    (ia : pa < P → Simple a.knotsU pa na) (ib : pb < P → Simple b.knotsU pb nb) (ic : pc < P → Simple c.knotsU pc nc) :
    ∃ a' b' c' na' nb' nc', commonDegree a b c true = ok (a', b', c') ∧ Patch a' P qa na' ma Fa ∧ Patch b' P qb nb' mb Fb ∧ Patch c' P qc nc' mc Fc ∧
      (a'.knotsV = a.knotsV ∧ b'.knotsV = b.knotsV ∧ c'.knotsV = c.knotsV) ∧
      (∀ x, x ∈ a'.knotsU ↔ x ∈ a.knotsU) ∧ (∀ x, x ∈ b'.knotsU ↔ x ∈ b.knotsU) ∧ (∀ x, x ∈ c'.knotsU ↔ x ∈ c.knotsU) := by
  have h7 : P ≤ 7 := by have := ha.wf.le7U; have := hb.wf.le7U; have := hc.wf.le7U; omega
  obtain ⟨a', na', ra, pa', va, ea⟩ := coons_raise_u ha (P := P) (by omega) h7 sa ia
  obtain ⟨b', nb', rb, pb', vb, eb⟩ := coons_raise_u hb (P := P) (by omega) h7 sb ib
  obtain ⟨c', nc', rc, pc', vc, ec⟩ := coons_raise_u hc (P := P) (by omega) h7 sc ic
  refine ⟨a', b', c', na', nb', nc', ?_, pa', pb', pc', ⟨va, vb, vc⟩, ea, eb, ec⟩
  unfold commonDegree
  have hd : max a.degreeU (max b.degreeU c.degreeU) = (P : ℤ) := by rw [ha.wf.degreeU, hb.wf.degreeU, hc.wf.degreeU, hP]; push_cast; rfl
  simp only [if_true, hd, ra, rb, rc, ok_bind]

theorem commonDegree_v (ha : Patch a pa qa na ma Fa) (hb : Patch b pb qb nb mb Fb) (hc : Patch c pc qc nc mc Fc)
    (hP : P = max qa (max qb qc)) (sa : WellSeparated a.knotsV) (sb : WellSeparated b.knotsV) (sc : WellSeparated c.knotsV)
    (ia : qa < P → Simple a.knotsV qa ma) (ib : qb < P → Simple b.knotsV qb mb) (ic : qc < P → Simple c.knotsV qc mc) :
    ∃ a' b' c' ma' mb' mc', commonDegree a b c false = ok (a', b', c') ∧ Patch a' pa P na ma' Fa ∧ Patch b' pb P nb mb' Fb ∧ Patch c' pc P nc mc' Fc ∧
      (a'.knotsU = a.knotsU ∧ b'.knotsU = b.knotsU ∧ c'.knotsU = c.knotsU) ∧
      (∀ x, x ∈ a'.knotsV ↔ x ∈ a.knotsV) ∧ (∀ x, x ∈ b'.knotsV ↔ x ∈ b.knotsV) ∧ (∀ x, x ∈ c'.knotsV ↔ x ∈ c.knotsV) := by
  have h7 : P ≤ 7 := by have := ha.wf.le7V; have := hb.wf.le7V; have := hc.wf.le7V; omega
  obtain ⟨a', na', ra, pa', va, ea⟩ := coons_raise_v ha (Q := P) (by omega) h7 sa ia
  obtain ⟨b', nb', rb, pb', vb, eb⟩ := coons_raise_v hb (Q := P) (by omega) h7 sb ib
  obtain ⟨c', nc', rc, pc', vc, ec⟩ := coons_raise_v hc (Q := P) (by omega) h7 sc ic
  refine ⟨a', b', c', na', nb', nc', ?_, pa', pb', pc', ⟨va, vb, vc⟩, ea, eb, ec⟩
  unfold commonDegree
  have hd : max a.degreeV (max b.degreeV c.degreeV) = (P : ℤ) := by rw [ha.wf.degreeV, hb.wf.degreeV, hc.wf.degreeV, hP]; push_cast; rfl
  simp only [Bool.false_eq_true, if_false, hd, ra, rb, rc, ok_bind]

theorem Patch.countU (h : Patch S p q n m F) : S.knotsU.count 0 = p + 1 ∧ S.knotsU.count 1 = p + 1 :=
  count_unit h.wf.posU h.wf.le7U h.wf.pn h.wf.knotsU h.wf.sortedU h.ends.u h.rangeU h.lo.u0 h.hi.u1

theorem Patch.countV (h : Patch S p q n m F) : S.knotsV.count 0 = q + 1 ∧ S.knotsV.count 1 = q + 1 :=
  count_unit h.wf.posV h.wf.le7V h.wf.qm h.wf.knotsV h.wf.sortedV h.ends.v h.rangeV h.lo.v0 h.hi.v1

theorem knots_perm_eq {U V : List K} (hU : ∀ i j, i ≤ j → j < U.length → nth U i ≤ nth U j) (hV : ∀ i j, i ≤ j → j < V.length → nth V i ≤ nth V j)
    (h : U.Perm V) : U = V :=
  h.eq_of_pairwise (fun _ _ _ _ h h' => le_antisymm h h') ((isValidKnotVector_iff _).mp (isValidKnotVector_nth.mpr hU))
    ((isValidKnotVector_iff _).mp (isValidKnotVector_nth.mpr hV))

theorem commonKnots_u (ha : Patch a P qa na ma Fa) (hb : Patch b P qb nb mb Fb) (hc : Patch c P qc nc mc Fc)
    (hsep : WellSeparated (a.knotsU ++ (b.knotsU ++ c.knotsU))) :
    ∃ a' b' c' n', commonKnots a b c true = ok (a', b', c') ∧ Patch a' P qa n' ma Fa ∧ Patch b' P qb n' mb Fb ∧ Patch c' P qc n' mc Fc ∧
      (a'.knotsV = a.knotsV ∧ b'.knotsV = b.knotsV ∧ c'.knotsV = c.knotsV) ∧ a'.knotsU = b'.knotsU ∧ a'.knotsU = c'.knotsU := by
  obtain ⟨I, J, L, eI, ⟨sI, sJ, sL⟩, pJ, pL, hin⟩ := merge_three ha.rangeU hb.rangeU hc.rangeU ha.countU hb.countU hc.countU
  obtain ⟨a', ra, Pa, va, qa'⟩ := coons_refine_u ha sI (fun x hx => ⟨(hin x (Or.inl hx)).1, (hin x (Or.inl hx)).2.1⟩) (wellSep_mono hsep fun x hx => by
    rcases List.mem_append.mp hx with h | h
    · exact List.mem_append_left _ h
    · exact (hin x (Or.inl h)).2.2)
  obtain ⟨b', rb, Pb, vb, qb'⟩ := coons_refine_u hb sJ (fun x hx => ⟨(hin x (Or.inr (Or.inl hx))).1, (hin x (Or.inr (Or.inl hx))).2.1⟩) (wellSep_mono hsep fun x hx => by
    rcases List.mem_append.mp hx with h | h
    · exact List.mem_append_right _ (List.mem_append_left _ h)
    · exact (hin x (Or.inr (Or.inl h))).2.2)
  obtain ⟨c', rc, Pc, vc, qc'⟩ := coons_refine_u hc sL (fun x hx => ⟨(hin x (Or.inr (Or.inr hx))).1, (hin x (Or.inr (Or.inr hx))).2.1⟩) (wellSep_mono hsep fun x hx => by
    rcases List.mem_append.mp hx with h | h
    · exact List.mem_append_right _ (List.mem_append_right _ h)
    · exact (hin x (Or.inr (Or.inr h))).2.2)
  have kb : a'.knotsU = b'.knotsU := knots_perm_eq Pa.wf.sortedU Pb.wf.sortedU (qa'.trans (pJ.trans qb'.symm))
  have kc : a'.knotsU = c'.knotsU := knots_perm_eq Pa.wf.sortedU Pc.wf.sortedU (qa'.trans (pL.trans qc'.symm))
  have nb' : nb + J.length = na + I.length := by have h1 := Pa.wf.knotsU; have h2 := Pb.wf.knotsU; rw [kb] at h1; omega
  have nc' : nc + L.length = na + I.length := by have h1 := Pa.wf.knotsU; have h2 := Pc.wf.knotsU; rw [kc] at h1; omega
  refine ⟨a', b', c', na + I.length, ?_, Pa, nb' ▸ Pb, nc' ▸ Pc, ⟨va, vb, vc⟩, kb, kc⟩
  unfold commonKnots
  simp only [if_true, eI]
  rw [vget_of (i := 0) (k := 0) rfl rfl, ok_bind, ra, ok_bind, vget_of (i := 1) (k := 1) rfl rfl, ok_bind, rb, ok_bind,
    vget_of (i := 2) (k := 2) rfl rfl, ok_bind, rc, ok_bind]

theorem commonKnots_v (ha : Patch a pa P na ma Fa) (hb : Patch b pb P nb mb Fb) (hc : Patch c pc P nc mc Fc)
    (hsep : WellSeparated (a.knotsV ++ (b.knotsV ++ c.knotsV))) :
    ∃ a' b' c' m', commonKnots a b c false = ok (a', b', c') ∧ Patch a' pa P na m' Fa ∧ Patch b' pb P nb m' Fb ∧ Patch c' pc P nc m' Fc ∧
      (a'.knotsU = a.knotsU ∧ b'.knotsU = b.knotsU ∧ c'.knotsU = c.knotsU) ∧ a'.knotsV = b'.knotsV ∧ a'.knotsV = c'.knotsV := by
  obtain ⟨I, J, L, eI, ⟨sI, sJ, sL⟩, pJ, pL, hin⟩ := merge_three ha.rangeV hb.rangeV hc.rangeV ha.countV hb.countV hc.countV
  obtain ⟨a', ra, Pa, va, qa'⟩ := coons_refine_v ha sI (fun x hx => ⟨(hin x (Or.inl hx)).1, (hin x (Or.inl hx)).2.1⟩) (wellSep_mono hsep fun x hx => by
    rcases List.mem_append.mp hx with h | h
    · exact List.mem_append_left _ h
    · exact (hin x (Or.inl h)).2.2)
  obtain ⟨b', rb, Pb, vb, qb'⟩ := coons_refine_v hb sJ (fun x hx => ⟨(hin x (Or.inr (Or.inl hx))).1, (hin x (Or.inr (Or.inl hx))).2.1⟩) (wellSep_mono hsep fun x hx => by
    rcases List.mem_append.mp hx with h | h
    · exact List.mem_append_right _ (List.mem_append_left _ h)
    · exact (hin x (Or.inr (Or.inl h))).2.2)
  obtain ⟨c', rc, Pc, vc, qc'⟩ := coons_refine_v hc sL (fun x hx => ⟨(hin x (Or.inr (Or.inr hx))).1, (hin x (Or.inr (Or.inr hx))).2.1⟩) (wellSep_mono hsep fun x hx => by
    rcases List.mem_append.mp hx with h | h
    · exact List.mem_append_right _ (List.mem_append_right _ h)
    · exact (hin x (Or.inr (Or.inr h))).2.2)
  have kb : a'.knotsV = b'.knotsV := knots_perm_eq Pa.wf.sortedV Pb.wf.sortedV (qa'.trans (pJ.trans qb'.symm))
  have kc : a'.knotsV = c'.knotsV := knots_perm_eq Pa.wf.sortedV Pc.wf.sortedV (qa'.trans (pL.trans qc'.symm))
  have nb' : mb + J.length = ma + I.length := by have h1 := Pa.wf.knotsV; have h2 := Pb.wf.knotsV; rw [kb] at h1; omega
  have nc' : mc + L.length = ma + I.length := by have h1 := Pa.wf.knotsV; have h2 := Pc.wf.knotsV; rw [kc] at h1; omega
  refine ⟨a', b', c', ma + I.length, ?_, Pa, nb' ▸ Pb, nc' ▸ Pc, ⟨va, vb, vc⟩, kb, kc⟩
  unfold commonKnots
  simp only [Bool.false_eq_true, if_false, eI]
  rw [vget_of (i := 0) (k := 0) rfl rfl, ok_bind, ra, ok_bind, vget_of (i := 1) (k := 1) rfl rfl, ok_bind, rb, ok_bind,
    vget_of (i := 2) (k := 2) rfl rfl, ok_bind, rc, ok_bind]

theorem sumNet_run {x y z : List (List (XYZW K))} {r s : ℕ} (hx : IsMat x r s) (hy : IsMat y r s) (hz : IsMat z r s) (hr : 0 < r) :
    sumNet x y z = ok (tab r s fun i j => ent x i j + ent y i j - ent z i j) := by
  apply Runs.eq
  unfold sumNet
  rw [vget_row (k := 0) (by simp) (by rw [hx.1]; exact hr), ok_bind]
  have e1 := hx.2 0 hr
  have e3 := hx.1
  simp only [e1, e3]
  refine (Runs.forN (m := 0) (n := r) (fun i M => IsMat M r s ∧ ∀ k l, k < r → l < s → ent M k l = if k < i then ent x k l + ent y k l - ent z k l else 0)
    (by simp) rfl (by omega) ⟨isMat_replicate, fun k l _ _ => by rw [ent_replicate_zero, if_neg (by omega)]⟩ ?_).mono ?_
  · rintro i M _ hi ⟨hM, hv⟩
    refine (Runs.forN (m := 0) (n := s) (fun j M => IsMat M r s ∧ ∀ k l, k < r → l < s → ent M k l =
        if k < i ∨ (k = i ∧ l < j) then ent x k l + ent y k l - ent z k l else 0) (by simp) rfl (by omega)
        ⟨hM, fun k l hk hl => by rw [hv k l hk hl]; congr 1; simp⟩ ?_).mono ?_
    · rintro j M _ hj ⟨hM, hv⟩
      rw [mget_ent hx rfl rfl hi hj, ok_bind, mget_ent hy rfl rfl hi hj, ok_bind, mget_ent hz rfl rfl hi hj, ok_bind]
      obtain ⟨M', e, hM', hv'⟩ := mset_ok (x := ent x i j + ent y i j - ent z i j) hM (i := (i : ℤ)) (j := (j : ℤ)) rfl rfl hi hj
      rw [e]
      refine Runs.ok ⟨hM', fun k l hk hl => ?_⟩
      rw [hv']
      by_cases h : k = i ∧ l = j
      · rw [if_pos h, if_pos (by omega), h.1, h.2]
      · rw [if_neg h, hv k l hk hl]
        congr 1
        simp only [eq_iff_iff]
        omega
    · rintro M ⟨hM, hv⟩
      refine ⟨hM, fun k l hk hl => ?_⟩
      rw [hv k l hk hl]
      congr 1
      simp only [eq_iff_iff]
      omega
  · rintro M ⟨hM, hv⟩
    exact eq_tab hM fun i hi j hj => by rw [hv i j hi hj, if_pos hi]

theorem surfacePoint_lin {U V : ℕ → K} {p q n m : ℕ} {A B C : ℕ → ℕ → XYZW K} {u v : K} :
    surfacePoint U V p q n m (fun i j => A i j + B i j - C i j) u v =
      surfacePoint U V p q n m A u v + surfacePoint U V p q n m B u v - surfacePoint U V p q n m C u v := by
  unfold surfacePoint
  rw [← sum_add_distrib, ← sum_sub_distrib]
  refine sum_congr rfl fun i _ => ?_
  rw [← sum_add_distrib, ← sum_sub_distrib]
  exact sum_congr rfl fun j _ => by rw [smul_sub, smul_add]

/-- the sum of three surfaces over the same knots -/
theorem sum_patch {P Q n m : ℕ} (ha : Patch a P Q n m Fa) (hb : Patch b P Q n m Fb) (hc : Patch c P Q n m Fc)
    (kb : a.knotsU = b.knotsU) (kc : a.knotsU = c.knotsU) (lb : a.knotsV = b.knotsV) (lc : a.knotsV = c.knotsV) :
    ∃ net, sumNet a.cps b.cps c.cps = ok net ∧
      Patch ({ degreeU := a.degreeU, degreeV := a.degreeV, knotsU := a.knotsU, knotsV := a.knotsV, cps := net } : NurbsSurface K) P Q n m
        (fun u v => Fa u v + Fb u v - Fc u v) := by
  refine ⟨_, sumNet_run ha.wf.cps hb.wf.cps hc.wf.cps (by omega), ?_⟩
  have w : WellFormedS ({ degreeU := a.degreeU, degreeV := a.degreeV, knotsU := a.knotsU, knotsV := a.knotsV, cps := tab (n + 1) (m + 1) fun i j => ent a.cps i j + ent b.cps i j - ent c.cps i j } : NurbsSurface K) P Q n m :=
    { degreeU := ha.wf.degreeU, degreeV := ha.wf.degreeV, posU := ha.wf.posU, posV := ha.wf.posV, le7U := ha.wf.le7U, le7V := ha.wf.le7V, cps := isMat_tab,
      pn := ha.wf.pn, qm := ha.wf.qm, knotsU := ha.wf.knotsU, knotsV := ha.wf.knotsV, sortedU := ha.wf.sortedU, sortedV := ha.wf.sortedV }
  have e : EndsSeparatedS ({ degreeU := a.degreeU, degreeV := a.degreeV, knotsU := a.knotsU, knotsV := a.knotsV, cps := tab (n + 1) (m + 1) fun i j => ent a.cps i j + ent b.cps i j - ent c.cps i j } : NurbsSurface K) P Q n m :=
    ⟨ha.ends.u, ha.ends.v⟩
  refine { wf := w, ends := e, rangeU := ha.rangeU, rangeV := ha.rangeV, lo := ⟨ha.lo.u0, ha.lo.u1, ha.lo.v0, ha.lo.v1⟩, hi := ⟨ha.hi.u0, ha.hi.u1, ha.hi.v0, ha.hi.v1⟩, eval := ?_ }
  intro u v u0 u1 v0 v1
  have da := ha.dom u0 u1 v0 v1
  have xa := ha.eval u v u0 u1 v0 v1
  have xb := hb.eval u v u0 u1 v0 v1
  have xc := hc.eval u v u0 u1 v0 v1
  rw [C33_eval ha.wf ha.ends da] at xa
  rw [C33_eval hb.wf hb.ends (hb.dom u0 u1 v0 v1), ← kb, ← lb] at xb
  rw [C33_eval hc.wf hc.ends (hc.dom u0 u1 v0 v1), ← kc, ← lc] at xc
  rw [C33_eval w e ⟨da.u0, da.u1, da.v0, da.v1⟩]
  dsimp only
  rw [surfacePoint_congr (Q := fun i j => ent a.cps i j + ent b.cps i j - ent c.cps i j) (fun i hi j hj => ent_tab (by omega) (by omega)), surfacePoint_lin,
    Res.ok.inj xa, Res.ok.inj xb, Res.ok.inj xc]

/-! ## the four curves -/

/-- a well-formed clamped curve on the interval `[0, 1]` -/
structure UnitCurve (c : NurbsCurve K) (p n : ℕ) : Prop where
  wf : WellFormed c p n
  ends : EndsSeparated (nth c.knots) p n
  clamped : ClampedEnds (nth c.knots) p n
  start : nth c.knots p = 0
  stop : nth c.knots (n + 1) = 1

/-- every knot strictly between 0 and 1 occurs at most `k` times -/
def MultLE (U : List K) (k : ℕ) : Prop := ∀ x, 0 < x → x < 1 → U.count x ≤ k

theorem simple_of_mult {U : List K} {p n : ℕ} (hpn : p ≤ n) (hl : U.length = n + p + 2) (hs : ∀ i j, i ≤ j → j < U.length → nth U i ≤ nth U j)
    (he : EndsSeparated (nth U) p n) (h0 : nth U p = 0) (h1 : nth U (n + 1) = 1) (hm : MultLE U 1) : Simple U p n := by
  intro s hps hsn
  have f1 : 0 < nth U (p + 1) := by
    have := he.first
    have h2 : (0 : K) ≤ 1 / 1000000 * (1 + max |nth U p| |nth U (p + 1)|) := by positivity
    linarith
  have f2 : nth U n < 1 := by
    have := he.last
    have h2 : (0 : K) ≤ 1 / 1000000 * (1 + max |nth U n| |nth U (n + 1)|) := by positivity
    linarith
  rcases (hs s (s + 1) (by omega) (by omega)).lt_or_eq with h | h
  · exact h
  exfalso
  have hp : p < s := by
    by_contra hc
    obtain rfl : s = p := by omega
    linarith
  have hn : s < n := by
    by_contra hc
    obtain rfl : s = n := by omega
    linarith
  have hx0 : 0 < nth U s := lt_of_lt_of_le f1 (hs _ _ (by omega) (by omega))
  have hx1 : nth U s < 1 := lt_of_le_of_lt (hs s n (by omega) (by omega)) f2
  have h2 : 2 ≤ U.count (nth U s) := by
    refine count_block (i := s) (by omega) fun l hl' => ?_
    interval_cases l
    · rfl
    · exact h.symm
  have := hm _ hx0 hx1
  omega

theorem UnitCurve.reverse {c : NurbsCurve K} {p n : ℕ} (h : UnitCurve c p n) (hs : WellSeparated (c.knots.map (1 - ·))) (hm : MultLE c.knots p) :
    ∃ r, reverseCurve c = ok r ∧ UnitCurve r p n ∧ r.knots = (c.knots.map (1 - ·)).reverse ∧
      ∀ t, 0 ≤ t → t ≤ 1 → curvePoint (nth r.knots) p n (nth r.cps) t = curvePoint (nth c.knots) p n (nth c.cps) (1 - t) := by
  have hl := h.wf.knots
  have hpn := h.wf.pn
  have z0 : nth c.knots 0 = 0 := by rw [h.clamped.first, h.start]
  have z1 : nth c.knots (n + p + 1) = 1 := by rw [← h.clamped.last, h.stop]
  obtain ⟨V, g1, g2, g3⟩ := reverse_run (c := c) (by intro h'; rw [h'] at hl; simp at hl)
  rw [show c.knots.length - 1 = n + p + 1 by omega] at g3
  obtain ⟨r, e, w, -, -, -, hev⟩ := C21_reverse h.wf
  rw [g1] at e
  obtain rfl := Res.ok.inj e
  dsimp only at hev
  have hV : ∀ j, j < n + p + 2 → nth V j = 1 - nth c.knots (n + p + 1 - j) := fun j hj => by rw [g3 j (by omega), z0, z1, zero_add]
  have hk : V = (c.knots.map (1 - ·)).reverse := by
    apply ext_nth (by simp [g2])
    intro i hi
    have hi' : i < (c.knots.map (1 - ·)).reverse.length := by rw [List.length_reverse, List.length_map]; omega
    rw [hV i (by omega), nth_eq_getElem hi', List.getElem_reverse, List.getElem_map, nth_eq_getElem (by omega)]
    congr 2
    rw [List.length_map]
    omega
  have vp : nth V p = 0 := by rw [hV p (by omega), show n + p + 1 - p = n + 1 by omega, h.stop, sub_self]
  have vn : nth V (n + 1) = 1 := by rw [hV (n + 1) (by omega), show n + p + 1 - (n + 1) = p by omega, h.start, sub_zero]
  have f1 : nth c.knots p < nth c.knots (p + 1) := by
    have := h.ends.first
    have h2 : (0 : K) ≤ 1 / 1000000 * (1 + max |nth c.knots p| |nth c.knots (p + 1)|) := by positivity
    linarith
  have f2 : nth c.knots n < nth c.knots (n + 1) := by
    have := h.ends.last
    have h2 : (0 : K) ≤ 1 / 1000000 * (1 + max |nth c.knots n| |nth c.knots (n + 1)|) := by positivity
    linarith
  have hVm : ∀ j, j < n + p + 2 → nth V j ∈ c.knots.map (1 - ·) := fun j hj => by
    rw [← List.mem_reverse, ← hk]; exact mem_of_nth (by omega)
  have sep : ∀ i j, i < n + p + 2 → j < n + p + 2 → nth V i < nth V j → nth V j - nth V i > 1 / 1000000 * (1 + max |nth V i| |nth V j|) := by
    intro i j hi hj hlt
    rcases hs _ (hVm i hi) _ (hVm j hj) with h' | h'
    · exact absurd h' hlt.ne
    · rw [abs_sub_comm, abs_of_pos (sub_pos.mpr hlt)] at h'
      refine lt_of_le_of_lt ?_ h'
      have : (0 : K) ≤ 1 + max |nth V i| |nth V j| := by positivity
      nlinarith
  have he : EndsSeparated (nth V) p n := by
    constructor
    · refine sep p (p + 1) (by omega) (by omega) ?_
      rw [hV p (by omega), hV (p + 1) (by omega), show n + p + 1 - p = n + 1 by omega, show n + p + 1 - (p + 1) = n by omega]
      linarith
    · refine sep n (n + 1) (by omega) (by omega) ?_
      rw [hV n (by omega), hV (n + 1) (by omega), show n + p + 1 - n = p + 1 by omega, show n + p + 1 - (n + 1) = p by omega]
      linarith
  have hu : UnitCurve (⟨c.degree, V, c.cps.reverse⟩ : NurbsCurve K) p n :=
    { wf := w, ends := he, start := vp, stop := vn
      clamped := ⟨by dsimp only; rw [vp, hV 0 (by omega), Nat.sub_zero, z1, sub_self], by dsimp only; rw [vn, hV (n + p + 1) (by omega), Nat.sub_self, z0, sub_zero]⟩ }
  refine ⟨_, g1, hu, hk, fun t t0 t1 => ?_⟩
  have := hev h.ends he (1 - t) (by rw [h.start]; linarith) (by rw [h.stop]; linarith) (fun a b => hm _ (by rw [h.start] at a; exact a) (by rw [h.stop] at b; exact b))
  rw [z0, z1, show (0 : K) + 1 - (1 - t) = t by ring, C05_eval h.wf h.ends (by rw [h.start]; linarith) (by rw [h.stop]; linarith),
    C05_eval w he (by dsimp only; rw [vp]; exact t0) (by dsimp only; rw [vn]; exact t1)] at this
  exact Res.ok.inj this

theorem UnitCurve.reparametrize {c : NurbsCurve K} {p n : ℕ} (h : UnitCurve c p n) : reparametrizeLinear c 0 1 = ok c := by
  have hl := h.wf.knots
  unfold reparametrizeLinear
  rw [vget_nth (k := 0) (by simp) (by omega), ok_bind, vget_nth (k := n + p + 1) (by omega) (by omega), ok_bind, h.clamped.first, h.start, ← h.clamped.last, h.stop,
    isAlmostEqualTo_self doubleEps_pos, isAlmostEqualTo_self doubleEps_pos]
  rfl

theorem UnitCurve.point {c : NurbsCurve K} {p n : ℕ} (h : UnitCurve c p n) {t : K} (t0 : 0 ≤ t) (t1 : t ≤ 1) :
    NurbsCurve.pointOnCurve c t = ok (curvePoint (nth c.knots) p n (nth c.cps) t).toXYZ := by
  unfold NurbsCurve.pointOnCurve
  rw [C05_eval h.wf h.ends (by rw [h.start]; exact t0) (by rw [h.stop]; exact t1), ok_bind]

/-- `ElevateDegree` sets the degree, so that the ruled surface's own text and the text here are the same computation -/
theorem elevate_same {c : NurbsCurve K} {p n P : ℕ} (h : UnitCurve c p n) (hs : WellSeparated c.knots) (hP : p < P → MultLE c.knots 1) {d : ℤ} (hd : max d p = P) :
    (if d > c.degree then elevateDegree c (d - c.degree) else ok c : Res (NurbsCurve K)) = ruledElevate c (P : ℤ) := by
  unfold ruledElevate
  rw [h.wf.degree]
  by_cases hlt : p < P
  · have hsim := simple_of_mult h.wf.pn h.wf.knots h.wf.sorted h.ends h.start h.stop (hP hlt)
    obtain ⟨t, rfl⟩ : ∃ t, P = p + t := ⟨P - p, by omega⟩
    obtain ⟨c', r, hE, -⟩ := C42_elevate_partial h.wf h.ends h.clamped hs hsim (mult_of_simple h.wf.pos h.wf.pn h.wf.knots h.wf.sorted hsim) (t := t) (by omega)
    have hd' : d = ((p + t : ℕ) : ℤ) := by omega
    rw [hd', if_pos (by omega), if_pos (by omega), show ((p + t : ℕ) : ℤ) - p = (t : ℤ) by push_cast; ring, r, ok_bind, ← hE.degree]
  · obtain rfl : P = p := by omega
    rw [if_neg (by omega), if_neg (by omega), ← h.wf.degree]

/-- two opposite curves after the preparation -/
theorem coonsPair_run {c0 c1 : NurbsCurve K} {p0 p1 n0 n1 : ℕ} (h0 : UnitCurve c0 p0 n0) (h1 : UnitCurve c1 p1 n1) (hsep : WellSeparated (c0.knots ++ c1.knots))
    (hs0 : p0 < p1 → MultLE c0.knots 1) (hs1 : p1 < p0 → MultLE c1.knots 1) :
    ∃ d0 d1 n, coonsPair c0 c1 = ok (d0, d1) ∧ UnitCurve d0 (max p0 p1) n ∧ UnitCurve d1 (max p0 p1) n ∧ d0.knots = d1.knots ∧
      (∀ x ∈ d0.knots, x ∈ c0.knots ++ c1.knots) ∧ (p0 = p1 → MultLE c0.knots 1 → MultLE c1.knots 1 → MultLE d0.knots 1) ∧
      ∀ t, 0 ≤ t → t ≤ 1 → curvePoint (nth d0.knots) (max p0 p1) n (nth d0.cps) t = curvePoint (nth c0.knots) p0 n0 (nth c0.cps) t ∧
        curvePoint (nth d1.knots) (max p0 p1) n (nth d1.cps) t = curvePoint (nth c1.knots) p1 n1 (nth c1.cps) t := by
  have hP7 : max p0 p1 ≤ 7 := max_le h0.wf.le7 h1.wf.le7
  obtain ⟨e0, r0, m0, v0, ed0, cd0, mem0, a0, b0, k0, pt0⟩ := ruledElevate_run h0.wf h0.ends h0.clamped (wellSep_mono hsep fun x hx => List.mem_append_left _ hx)
    (le_max_left p0 p1) hP7 (fun h => simple_of_mult h0.wf.pn h0.wf.knots h0.wf.sorted h0.ends h0.start h0.stop (hs0 (by omega)))
  obtain ⟨e1, r1, m1, v1, ed1, cd1, mem1, a1, b1, k1, pt1⟩ := ruledElevate_run h1.wf h1.ends h1.clamped (wellSep_mono hsep fun x hx => List.mem_append_right _ hx)
    (le_max_right p0 p1) hP7 (fun h => simple_of_mult h1.wf.pn h1.wf.knots h1.wf.sorted h1.ends h1.start h1.stop (hs1 (by omega)))
  have hsep' : WellSeparated (e0.knots ++ e1.knots) := by
    refine wellSep_mono hsep fun x hx => ?_
    rw [List.mem_append, mem0, mem1] at hx
    exact List.mem_append.mpr hx
  rw [h0.start] at a0; rw [h1.start] at a1; rw [h0.stop] at b0; rw [h1.stop] at b1
  obtain ⟨⟨d0, d1⟩, r2, n, g0, g1, gk, ge, gs, gt, gc, gp⟩ := ruled_merge v0 v1 ed0 ed1 cd0 cd1 (by rw [a0, a1]) (by rw [b0, b1]) hsep'
  dsimp only at g0 g1 gk ge gs gt gc gp
  rw [a0] at gs
  rw [b0] at gt
  have hmem : ∀ x ∈ d0.knots, x ∈ c0.knots ++ c1.knots := by
    intro x hx
    have hpos := List.count_pos_iff.mpr hx
    rw [gc x] at hpos
    rw [List.mem_append, ← mem0, ← mem1, ← List.count_pos_iff, ← List.count_pos_iff]
    omega
  have hrange : ∀ x ∈ d0.knots, 0 ≤ x ∧ x ≤ 1 := by
    intro x hx
    rcases List.mem_append.mp (hmem x hx) with h | h
    · have := wf_mem_range h0.wf h0.clamped h; rwa [h0.start, h0.stop] at this
    · have := wf_mem_range h1.wf h1.clamped h; rwa [h1.start, h1.stop] at this
  have hcl := (knots_unit g0.knots g0.sorted hrange gs.le gt.ge).2.2
  refine ⟨d0, d1, n, ?_, ⟨g0, ge, hcl, gs, gt⟩, ⟨g1, gk ▸ ge, gk ▸ hcl, gk ▸ gs, gk ▸ gt⟩, gk, hmem, ?_, ?_⟩
  · unfold coonsPair
    rw [elevate_same h1 (P := max p0 p1) (wellSep_mono hsep fun x hx => List.mem_append_right _ hx) (fun h => hs1 (by omega)) (by rw [h0.wf.degree]; push_cast; rfl),
      elevate_same h0 (P := max p0 p1) (wellSep_mono hsep fun x hx => List.mem_append_left _ hx) (fun h => hs0 (by omega)) (by rw [h1.wf.degree, max_comm]; push_cast; rfl),
      r0, r1, ok_bind, ok_bind]
    exact r2
  · rintro rfl s0 s1 x x0 x1
    rw [gc x]
    have t0 := s0 x x0 x1
    have t1 := s1 x x0 x1
    have u0 : e0.knots.count x ≤ 1 := by
      by_cases hx : x ∈ c0.knots
      · rw [k0 x hx]; omega
      · rw [List.count_eq_zero.mpr (fun h => hx ((mem0 x).mp h))]; omega
    have u1 : e1.knots.count x ≤ 1 := by
      by_cases hx : x ∈ c1.knots
      · rw [k1 x hx]; omega
      · rw [List.count_eq_zero.mpr (fun h => hx ((mem1 x).mp h))]; omega
    omega
  · intro t t0 t1
    obtain ⟨z0, z1⟩ := gp t (by rw [a0]; exact t0) (by rw [b0]; exact t1)
    rw [z0, z1, pt0 t (by rw [h0.start]; exact t0) (by rw [h0.stop]; exact t1), pt1 t (by rw [h1.start]; exact t0) (by rw [h1.stop]; exact t1)]
    exact ⟨rfl, rfl⟩

/-! ## the three surfaces -/

theorem range_line : ∀ x ∈ ([0, 0, 1, 1] : List K), 0 ≤ x ∧ x ≤ 1 := by
  intro x hx
  simp only [List.mem_cons, List.not_mem_nil, or_false] at hx
  rcases hx with rfl | rfl | rfl | rfl <;> norm_num

theorem UnitCurve.range {c : NurbsCurve K} {p n : ℕ} (h : UnitCurve c p n) : ∀ x ∈ c.knots, 0 ≤ x ∧ x ≤ 1 := by
  intro x hx
  have := wf_mem_range h.wf h.clamped hx
  rwa [h.start, h.stop] at this

theorem ruled_patch {d0 d1 : NurbsCurve K} {p n : ℕ} (h0 : UnitCurve d0 p n) (h1 : UnitCurve d1 p n) (hk : d0.knots = d1.knots) :
    ∃ S, createRuledSurface d0 d1 = ok S ∧ S.knotsU = d0.knots ∧ S.knotsV = [0, 0, 1, 1] ∧
      Patch S p 1 n 1 (fun u v => (1 - v) • curvePoint (nth d0.knots) p n (nth d0.cps) u + v • curvePoint (nth d1.knots) p n (nth d1.cps) u) := by
  obtain ⟨S, r, w, kU, kV, hS⟩ := C38_ruled h0.wf h1.wf hk h0.ends
  refine ⟨S, r, kU, kV, { wf := w, ends := ⟨by rw [kU]; exact h0.ends, by rw [kV]; exact ends_line⟩, rangeU := by rw [kU]; exact h0.range, rangeV := by rw [kV]; exact range_line, lo := ?_, hi := ?_, eval := ?_ }⟩
  · refine ⟨by rw [kU, h0.start], by rw [kU, h0.stop]; exact zero_le_one, by rw [kV]; simp [nth], by rw [kV]; simp [nth]⟩
  · refine ⟨by rw [kU, h0.start]; exact zero_le_one, by rw [kU, h0.stop], by rw [kV]; simp [nth], by rw [kV]; simp [nth]⟩
  · intro u v u0 u1 v0 v1
    exact hS u v (by rw [h0.start]; exact u0) (by rw [h0.stop]; exact u1) v0 v1

theorem swap_patch (h : Patch S p q n m F) :
    ∃ r, swapSurface S = ok r ∧ r.knotsU = S.knotsV ∧ r.knotsV = S.knotsU ∧ Patch r q p m n (fun u v => F v u) := by
  obtain ⟨r, e, w, hev, -⟩ := C32_swap h.wf
  have e' := e
  unfold swapSurface at e'
  rw [transposeM_run h.wf.cps (by omega), ok_bind] at e'
  have kU : r.knotsU = S.knotsV := by rw [← Res.ok.inj e']
  have kV : r.knotsV = S.knotsU := by rw [← Res.ok.inj e']
  refine ⟨r, e, kU, kV, { wf := w, ends := ⟨by rw [kU]; exact h.ends.v, by rw [kV]; exact h.ends.u⟩, rangeU := by rw [kU]; exact h.rangeV, rangeV := by rw [kV]; exact h.rangeU, lo := ?_, hi := ?_, eval := ?_ }⟩
  · exact ⟨by rw [kU]; exact h.lo.v0, by rw [kU]; exact h.lo.v1, by rw [kV]; exact h.lo.u0, by rw [kV]; exact h.lo.u1⟩
  · exact ⟨by rw [kU]; exact h.hi.v0, by rw [kU]; exact h.hi.v1, by rw [kV]; exact h.hi.u0, by rw [kV]; exact h.hi.u1⟩
  · intro u v u0 u1 v0 v1
    rw [hev h.ends v u (h.dom v0 v1 u0 u1), h.eval v u v0 v1 u0 u1]

theorem bilinear_patch (x00 x01 x10 x11 : XYZ K) :
    ∃ s, createBilinearSurface x00 x01 x10 x11 = ok s ∧ s.knotsU = [0, 0, 0, 0, 1, 1, 1, 1] ∧ s.knotsV = [0, 0, 0, 0, 1, 1, 1, 1] ∧
      Patch s 3 3 3 3 (fun u v => XYZW.ofXYZ (bilinear x00 x01 x10 x11 u v) 1) := by
  set f : ℕ → ℕ → XYZW K := fun i j => XYZW.ofXYZ ((1 - ((j : ℤ) : K) / 3) • ((1 - ((i : ℤ) : K) / 3) • x00 + (1 - (1 - ((i : ℤ) : K) / 3)) • x10)
    + (((j : ℤ) : K) / 3) • ((1 - ((i : ℤ) : K) / 3) • x01 + (1 - (1 - ((i : ℤ) : K) / 3)) • x11)) 1 with hf
  have run : createBilinearSurface x00 x01 x10 x11 = ok { degreeU := 3, degreeV := 3, knotsU := [0, 0, 0, 0, 1, 1, 1, 1], knotsV := [0, 0, 0, 0, 1, 1, 1, 1], cps := tab 4 4 f } := rfl
  obtain ⟨s, e, wf, -, -⟩ := C39_bilinear x00 x01 x10 x11
  rw [run] at e
  obtain rfl := Res.ok.inj e
  have ends : EndsSeparated (nth ([0, 0, 0, 0, 1, 1, 1, 1] : List K)) 3 3 := by
    constructor <;> simp [nth] <;> norm_num
  have rng : ∀ x ∈ ([0, 0, 0, 0, 1, 1, 1, 1] : List K), 0 ≤ x ∧ x ≤ 1 := by
    intro x hx
    simp only [List.mem_cons, List.not_mem_nil, or_false] at hx
    rcases hx with rfl | rfl | rfl | rfl | rfl | rfl | rfl | rfl <;> norm_num
  refine ⟨_, run, rfl, rfl, { wf := wf, ends := ⟨ends, ends⟩, rangeU := rng, rangeV := rng, lo := ?_, hi := ?_, eval := ?_ }⟩
  · constructor <;> simp [nth]
  · constructor <;> simp [nth]
  · intro u v u0 u1 v0 v1
    rw [C33_eval wf ⟨ends, ends⟩ ⟨u0, u1, v0, v1⟩]
    congr 1
    dsimp only
    rw [surfacePoint_eq, cubic_bezier u0 u1]
    simp only [cubic_bezier v0 v1]
    simp only [ent_tab (show 0 < 4 by decide), ent_tab (show 1 < 4 by decide), ent_tab (show 2 < 4 by decide), ent_tab (show 3 < 4 by decide),
      show 0 < 4 by decide, show 1 < 4 by decide, show 2 < 4 by decide, show 3 < 4 by decide, hf, bilinear]
    ext <;> simp [XYZW.ofXYZ] <;> ring

theorem simple_line : Simple ([0, 0, 1, 1] : List K) 1 1 := by
  intro s h1 h2
  obtain rfl : s = 1 := by omega
  simp [nth]

theorem simple_cubic : Simple ([0, 0, 0, 0, 1, 1, 1, 1] : List K) 3 3 := by
  intro s h1 h2
  obtain rfl : s = 3 := by omega
  simp [nth]

theorem sep_unit : ∀ x y : K, (x = 0 ∨ x = 1) → (y = 0 ∨ y = 1) → x = y ∨ 2 / 1000000 * (1 + max |x| |y|) < |x - y| := by
  rintro x y (rfl | rfl) (rfl | rfl)
  · exact Or.inl rfl
  · right; norm_num
  · right; norm_num
  · exact Or.inl rfl

theorem UnitCurve.ends_mem {c : NurbsCurve K} {p n : ℕ} (h : UnitCurve c p n) : (0 : K) ∈ c.knots ∧ (1 : K) ∈ c.knots := by
  have hl := h.wf.knots
  have hpn := h.wf.pn
  constructor
  · rw [← h.start]; exact mem_of_nth (by omega)
  · rw [← h.stop]; exact mem_of_nth (by omega)

theorem wellSep_bits {U : List K} (h : ∀ x ∈ U, x = 0 ∨ x = 1) : WellSeparated U := fun x hx y hy => sep_unit x y (h x hx) (h y hy)

theorem bits_line : ∀ x ∈ ([0, 0, 1, 1] : List K), x = 0 ∨ x = 1 := by
  intro x hx
  simpa using hx

theorem bits_cubic : ∀ x ∈ ([0, 0, 0, 0, 1, 1, 1, 1] : List K), x = 0 ∨ x = 1 := by
  intro x hx
  simpa using hx

/-- everything after the preparation of the curves -/
theorem coonsFrom_run {d0 d1 d2 d3 : NurbsCurve K} {p q n m : ℕ} (h0 : UnitCurve d0 p n) (h2 : UnitCurve d2 p n) (h1 : UnitCurve d1 q m) (h3 : UnitCurve d3 q m)
    (k02 : d0.knots = d2.knots) (k13 : d1.knots = d3.knots) (hs0 : WellSeparated d0.knots) (hs1 : WellSeparated d1.knots)
    (hm0 : p < 3 → MultLE d0.knots 1) (hm1 : q < 3 → MultLE d1.knots 1) :
    ∃ S n' m', coonsFrom d0 d1 d2 d3 = ok S ∧ Patch S (max p 3) (max q 3) n' m' (fun u v =>
      ((1 - v) • curvePoint (nth d0.knots) p n (nth d0.cps) u + v • curvePoint (nth d2.knots) p n (nth d2.cps) u) +
      ((1 - u) • curvePoint (nth d1.knots) q m (nth d1.cps) v + u • curvePoint (nth d3.knots) q m (nth d3.cps) v) -
      XYZW.ofXYZ (bilinear (curvePoint (nth d0.knots) p n (nth d0.cps) 0).toXYZ (curvePoint (nth d2.knots) p n (nth d2.cps) 0).toXYZ
        (curvePoint (nth d0.knots) p n (nth d0.cps) 1).toXYZ (curvePoint (nth d2.knots) p n (nth d2.cps) 1).toXYZ u v) 1) := by
  have hl0 := h0.wf.knots
  have hl2 := h2.wf.knots
  have hp := h0.wf.pos
  have hq := h1.wf.pos
  obtain ⟨R0, r0, aU, aV, Pa⟩ := ruled_patch h0 h2 k02
  obtain ⟨ts, rt, tU, tV, Pt⟩ := ruled_patch h1 h3 k13
  obtain ⟨R1, r1, bU, bV, Pb⟩ := swap_patch Pt
  rw [tV] at bU
  rw [tU] at bV
  obtain ⟨B, rB, cU, cV, Pc⟩ := bilinear_patch (curvePoint (nth d0.knots) p n (nth d0.cps) 0).toXYZ (curvePoint (nth d2.knots) p n (nth d2.cps) 0).toXYZ
        (curvePoint (nth d0.knots) p n (nth d0.cps) 1).toXYZ (curvePoint (nth d2.knots) p n (nth d2.cps) 1).toXYZ
  have sim0 : p < 3 → Simple d0.knots p n := fun h => simple_of_mult h0.wf.pn h0.wf.knots h0.wf.sorted h0.ends h0.start h0.stop (hm0 h)
  have sim1 : q < 3 → Simple d1.knots q m := fun h => simple_of_mult h1.wf.pn h1.wf.knots h1.wf.sorted h1.ends h1.start h1.stop (hm1 h)
  obtain ⟨A1, B1, C1, na, nb, nc, e1, Pa1, Pb1, Pc1, ⟨va1, vb1, vc1⟩, ma1, mb1, mc1⟩ := commonDegree_u Pa Pb Pc (P := max p 3) (by omega)
    (by rw [aU]; exact hs0) (by rw [bU]; exact wellSep_bits bits_line) (by rw [cU]; exact wellSep_bits bits_cubic)
    (fun h => by rw [aU]; exact sim0 (by omega)) (fun _ => by rw [bU]; exact simple_line) (fun _ => by rw [cU]; exact simple_cubic)
  obtain ⟨A2, B2, C2, ma, mb, mc, e2, Pa2, Pb2, Pc2, ⟨va2, vb2, vc2⟩, ma2, mb2, mc2⟩ := commonDegree_v Pa1 Pb1 Pc1 (P := max q 3) (by omega)
    (by rw [va1, aV]; exact wellSep_bits bits_line) (by rw [vb1, bV]; exact hs1) (by rw [vc1, cV]; exact wellSep_bits bits_cubic)
    (fun _ => by rw [va1, aV]; exact simple_line) (fun h => by rw [vb1, bV]; exact sim1 (by omega)) (fun _ => by rw [vc1, cV]; exact simple_cubic)
  obtain ⟨A3, B3, C3, n', e3, Pa3, Pb3, Pc3, ⟨va3, vb3, vc3⟩, kb, kc⟩ := commonKnots_u Pa2 Pb2 Pc2 (wellSep_mono hs0 (by
    intro x hx
    have h01 := h0.ends_mem
    rw [va2, vb2, vc2, List.mem_append, List.mem_append, ma1, mb1, mc1, aU, bU, cU] at hx
    rcases hx with hx | hx | hx
    · exact hx
    · rcases bits_line x hx with rfl | rfl; exacts [h01.1, h01.2]
    · rcases bits_cubic x hx with rfl | rfl; exacts [h01.1, h01.2]))
  obtain ⟨A4, B4, C4, m', e4, Pa4, Pb4, Pc4, ⟨va4, vb4, vc4⟩, lb, lc⟩ := commonKnots_v Pa3 Pb3 Pc3 (wellSep_mono hs1 (by
    intro x hx
    have h01 := h1.ends_mem
    rw [va3, vb3, vc3, List.mem_append, List.mem_append, ma2, mb2, mc2, va1, vb1, vc1, aV, bV, cV] at hx
    rcases hx with hx | hx | hx
    · rcases bits_line x hx with rfl | rfl; exacts [h01.1, h01.2]
    · exact hx
    · rcases bits_cubic x hx with rfl | rfl; exacts [h01.1, h01.2]))
  obtain ⟨net, e5, PS⟩ := sum_patch Pa4 Pb4 Pc4 (by rw [va4, vb4, kb]) (by rw [va4, vc4, kc]) lb lc
  refine ⟨_, n', m', ?_, PS⟩
  unfold coonsFrom
  rw [r0, ok_bind, rt, ok_bind, r1, ok_bind, vget_nth (k := 0) (by simp) (by omega), ok_bind, h0.clamped.first, h0.start, h0.point le_rfl zero_le_one, ok_bind,
    vget_nth (k := 0) (by simp) (by omega), ok_bind, h2.clamped.first, h2.start, h2.point le_rfl zero_le_one, ok_bind,
    vget_nth (k := n + p + 1) (by omega) (by omega), ok_bind, ← h0.clamped.last, h0.stop, h0.point zero_le_one le_rfl, ok_bind,
    vget_nth (k := n + p + 1) (by omega) (by omega), ok_bind, ← h2.clamped.last, h2.stop, h2.point zero_le_one le_rfl, ok_bind, rB, ok_bind, e1, ok_bind]
  dsimp only
  rw [e2, ok_bind]
  dsimp only
  rw [e3, ok_bind]
  dsimp only
  rw [e4, ok_bind]
  dsimp only
  rw [e5, ok_bind]

/-! ## C120 -/

/-- what `CreateCoonsSurface` computes, in homogeneous coordinates, from the four curves: the two pairs of opposite curves are blended, and the
blended corners are subtracted once -/
def crossedSum (left bottom right top : K → XYZW K) (u v : K) : XYZW K :=
  ((1 - v) • left u + v • right (1 - u)) + ((1 - u) • bottom v + u • top (1 - v)) -
    XYZW.ofXYZ (bilinear (left 0).toXYZ (right 1).toXYZ (left 1).toXYZ (right 0).toXYZ u v) 1

/-- the hypotheses of C120: four well-formed clamped curves on `[0, 1]`, with knots that the library's tolerance tells apart -/
structure CoonsInput (left bottom right top : NurbsCurve K) (p0 n0 p1 n1 p2 n2 p3 n3 : ℕ) : Prop where
  unitL : UnitCurve left p0 n0
  unitB : UnitCurve bottom p1 n1
  unitR : UnitCurve right p2 n2
  unitT : UnitCurve top p3 n3
  sepU : WellSeparated (left.knots ++ right.knots.map (1 - ·))
  sepV : WellSeparated (bottom.knots ++ top.knots.map (1 - ·))
  multR : MultLE right.knots p2
  multT : MultLE top.knots p3
  /-- the curve of lower degree of an opposite pair has simple interior knots -/
  simL : p0 < p2 → MultLE left.knots 1
  simR : p2 < p0 → MultLE right.knots 1
  simB : p1 < p3 → MultLE bottom.knots 1
  simT : p3 < p1 → MultLE top.knots 1
  /-- a pair of curves of degree less than three has one degree and simple interior knots -/
  lowU : max p0 p2 < 3 → p0 = p2 ∧ MultLE left.knots 1 ∧ MultLE right.knots 1
  lowV : max p1 p3 < 3 → p1 = p3 ∧ MultLE bottom.knots 1 ∧ MultLE top.knots 1

/-- the four tests of `CreateCoonsSurface`: the end points of neighbouring curves agree up to the tolerance -/
def Connected (left bottom right top : K → XYZW K) : Prop :=
  (left 0).toXYZ.almostEq (top 1).toXYZ = true ∧ (right 1).toXYZ.almostEq (top 0).toXYZ = true ∧
    (left 1).toXYZ.almostEq (bottom 0).toXYZ = true ∧ (right 0).toXYZ.almostEq (bottom 1).toXYZ = true

theorem mult_map {U : List K} {k : ℕ} (h : MultLE U k) : MultLE ((U.map (1 - ·)).reverse) k := by
  intro x x0 x1
  rw [List.count_reverse]
  have hx : x = 1 - (1 - x) := by ring
  rw [hx, List.count_map_of_injective _ (fun y : K => 1 - y) (fun a b hab => by simpa using hab)]
  exact h (1 - x) (by linarith) (by linarith)

variable {left bottom right top : NurbsCurve K} {p0 n0 p1 n1 p2 n2 p3 n3 : ℕ}

theorem coons_prepare (h : CoonsInput left bottom right top p0 n0 p1 n1 p2 n2 p3 n3) :
    ∃ r t, reverseCurve right = ok r ∧ reverseCurve top = ok t ∧ UnitCurve r p2 n2 ∧ UnitCurve t p3 n3 ∧
      r.knots = (right.knots.map (1 - ·)).reverse ∧ t.knots = (top.knots.map (1 - ·)).reverse ∧
      (∀ x, 0 ≤ x → x ≤ 1 → curvePoint (nth r.knots) p2 n2 (nth r.cps) x = curvePoint (nth right.knots) p2 n2 (nth right.cps) (1 - x)) ∧
      (∀ x, 0 ≤ x → x ≤ 1 → curvePoint (nth t.knots) p3 n3 (nth t.cps) x = curvePoint (nth top.knots) p3 n3 (nth top.cps) (1 - x)) ∧
      coonsCorners left bottom r t = ok (
        (curvePoint (nth left.knots) p0 n0 (nth left.cps) 0).toXYZ.almostEq (curvePoint (nth top.knots) p3 n3 (nth top.cps) 1).toXYZ &&
        (curvePoint (nth right.knots) p2 n2 (nth right.cps) 1).toXYZ.almostEq (curvePoint (nth top.knots) p3 n3 (nth top.cps) 0).toXYZ &&
        (curvePoint (nth left.knots) p0 n0 (nth left.cps) 1).toXYZ.almostEq (curvePoint (nth bottom.knots) p1 n1 (nth bottom.cps) 0).toXYZ &&
        (curvePoint (nth right.knots) p2 n2 (nth right.cps) 0).toXYZ.almostEq (curvePoint (nth bottom.knots) p1 n1 (nth bottom.cps) 1).toXYZ) := by
  obtain ⟨r, er, hr, kr, pr⟩ := h.unitR.reverse (wellSep_mono h.sepU fun x hx => List.mem_append_right _ hx) h.multR
  obtain ⟨t, et, ht, kt, pt⟩ := h.unitT.reverse (wellSep_mono h.sepV fun x hx => List.mem_append_right _ hx) h.multT
  refine ⟨r, t, er, et, hr, ht, kr, kt, pr, pt, ?_⟩
  unfold coonsCorners
  rw [h.unitL.point le_rfl zero_le_one, ok_bind, ht.point le_rfl zero_le_one, ok_bind, hr.point le_rfl zero_le_one, ok_bind, ht.point zero_le_one le_rfl, ok_bind,
    h.unitL.point zero_le_one le_rfl, ok_bind, h.unitB.point le_rfl zero_le_one, ok_bind, hr.point zero_le_one le_rfl, ok_bind, h.unitB.point zero_le_one le_rfl, ok_bind,
    pr 0 le_rfl zero_le_one, pr 1 zero_le_one le_rfl, pt 0 le_rfl zero_le_one, pt 1 zero_le_one le_rfl, sub_zero, sub_self]

/-- C120 (part): for four connected curves the result is a well-formed surface on the unit square, of degree at least three in both directions, and its point at `(u, v)` is
`crossedSum`.  Missing from the full statement: the boundary of this surface is not made of the four curves (`C120_boundary_violated`), because the blend of
bottom and top runs in the opposite direction to the one the subtracted corners belong to. -/
theorem C120_formula_partial (h : CoonsInput left bottom right top p0 n0 p1 n1 p2 n2 p3 n3)
    (hc : Connected (curvePoint (nth left.knots) p0 n0 (nth left.cps)) (curvePoint (nth bottom.knots) p1 n1 (nth bottom.cps))
      (curvePoint (nth right.knots) p2 n2 (nth right.cps)) (curvePoint (nth top.knots) p3 n3 (nth top.cps))) :
    ∃ S n m, createCoonsSurface left bottom right top = ok S ∧ WellFormedS S (max (max p0 p2) 3) (max (max p1 p3) 3) n m ∧
      ∀ u v : K, 0 ≤ u → u ≤ 1 → 0 ≤ v → v ≤ 1 → BsplineSurface.pointOnSurface S u v =
        ok (crossedSum (curvePoint (nth left.knots) p0 n0 (nth left.cps)) (curvePoint (nth bottom.knots) p1 n1 (nth bottom.cps))
          (curvePoint (nth right.knots) p2 n2 (nth right.cps)) (curvePoint (nth top.knots) p3 n3 (nth top.cps)) u v) := by
  obtain ⟨r, t, er, et, hr, ht, kr, kt, pr, pt, ec⟩ := coons_prepare h
  obtain ⟨c1, c2, c3, c4⟩ := hc
  rw [c1, c2, c3, c4] at ec
  have sU : WellSeparated (left.knots ++ r.knots) := by
    rw [kr]
    exact wellSep_mono h.sepU fun x hx => by rwa [List.mem_append, List.mem_reverse, ← List.mem_append] at hx
  have sV : WellSeparated (bottom.knots ++ t.knots) := by
    rw [kt]
    exact wellSep_mono h.sepV fun x hx => by rwa [List.mem_append, List.mem_reverse, ← List.mem_append] at hx
  obtain ⟨d0, d2, n, e02, hd0, hd2, k02, m02, s02, v02⟩ := coonsPair_run h.unitL hr sU h.simL (fun hlt => by rw [kr]; exact mult_map (h.simR hlt))
  obtain ⟨d1, d3, m, e13, hd1, hd3, k13, m13, s13, v13⟩ := coonsPair_run h.unitB ht sV h.simB (fun hlt => by rw [kt]; exact mult_map (h.simT hlt))
  obtain ⟨S, n', m', eS, PS⟩ := coonsFrom_run hd0 hd2 hd1 hd3 k02 k13 (wellSep_mono sU m02) (wellSep_mono sV m13)
    (fun hlt => s02 (h.lowU hlt).1 (h.lowU hlt).2.1 (by rw [kr]; exact mult_map (h.lowU hlt).2.2))
    (fun hlt => s13 (h.lowV hlt).1 (h.lowV hlt).2.1 (by rw [kt]; exact mult_map (h.lowV hlt).2.2))
  refine ⟨S, n', m', ?_, PS.wf, fun u v u0 u1 v0 v1 => ?_⟩
  · unfold createCoonsSurface
    rw [er, ok_bind, et, ok_bind, h.unitL.reparametrize, ok_bind, h.unitB.reparametrize, ok_bind, hr.reparametrize, ok_bind, ht.reparametrize, ok_bind, ec, ok_bind]
    change (do
      validate true
      let (n0, n2) ← coonsPair left r
      let (n1, n3) ← coonsPair bottom t
      coonsFrom n0 n1 n2 n3) = ok S
    rw [validate_true, ok_bind, e02, ok_bind]
    dsimp only
    rw [e13, ok_bind]
    dsimp only
    exact eS
  · rw [PS.eval u v u0 u1 v0 v1]
    congr 1
    unfold crossedSum
    rw [(v02 u u0 u1).1, (v02 u u0 u1).2, (v13 v v0 v1).1, (v13 v v0 v1).2, (v02 0 le_rfl zero_le_one).1, (v02 0 le_rfl zero_le_one).2,
      (v02 1 zero_le_one le_rfl).1, (v02 1 zero_le_one le_rfl).2, pr u u0 u1, pr 0 le_rfl zero_le_one, pr 1 zero_le_one le_rfl, pt v v0 v1, sub_zero, sub_self]

/-- C120: curves whose corners do not meet are rejected. -/
theorem C120_unconnected_rejected (h : CoonsInput left bottom right top p0 n0 p1 n1 p2 n2 p3 n3)
    (hc : ¬ Connected (curvePoint (nth left.knots) p0 n0 (nth left.cps)) (curvePoint (nth bottom.knots) p1 n1 (nth bottom.cps))
      (curvePoint (nth right.knots) p2 n2 (nth right.cps)) (curvePoint (nth top.knots) p3 n3 (nth top.cps))) :
    createCoonsSurface left bottom right top = invalidArg := by
  obtain ⟨r, t, er, et, hr, ht, kr, kt, pr, pt, ec⟩ := coons_prepare h
  unfold createCoonsSurface
  rw [er, ok_bind, et, ok_bind, h.unitL.reparametrize, ok_bind, h.unitB.reparametrize, ok_bind, hr.reparametrize, ok_bind, ht.reparametrize, ok_bind, ec, ok_bind]
  have : ∀ b : Bool, b = false → validate b = invalidArg := by rintro _ rfl; rfl
  rw [this _ (by
    rw [← Bool.not_eq_true]
    intro hb
    apply hc
    unfold Connected
    simpa only [Bool.and_eq_true, and_assoc] using hb)]
  rfl

/-- C120 (part): when the end points of the curves carry the weight one, the corners of the surface are the ends of bottom and top (and so, for connected curves, also the ends
of left and right). -/
theorem C120_corners_partial {l b r t : K → XYZW K} (l0 : (l 0).w = 1) (l1 : (l 1).w = 1) (r0 : (r 0).w = 1) (r1 : (r 1).w = 1) :
    crossedSum l b r t 0 0 = b 0 ∧ crossedSum l b r t 0 1 = b 1 ∧ crossedSum l b r t 1 0 = t 1 ∧ crossedSum l b r t 1 1 = t 0 := by
  have one : ∀ x : XYZW K, x.w = 1 → XYZW.ofXYZ x.toXYZ 1 = x := by
    intro x hx
    rw [XYZW.toXYZ_eq (by rw [hx, abs_one]; norm_num), hx]
    ext <;> simp [XYZW.ofXYZ, XYZW.raw, hx]
  refine ⟨?_, ?_, ?_, ?_⟩ <;> unfold crossedSum bilinear <;> simp [one, l0, l1, r0, r1]

/-- C120 (part): the side `v = 0` when the corners meet exactly and the left curve ends with weight one: the left curve plus a multiple of its chord, hence
the left curve itself only where `u = 1/2` or if the curve is closed. -/
theorem C120_side_partial {l b r t : K → XYZW K} (l0 : (l 0).w = 1) (l1 : (l 1).w = 1) (hb : b 0 = l 1) (ht : t 1 = l 0) (u : K) :
    crossedSum l b r t u 0 = l u + (1 - 2 * u) • (l 1 - l 0) := by
  have one : ∀ x : XYZW K, x.w = 1 → ∀ c : K, XYZW.ofXYZ x.toXYZ 1 = x := by
    intro x hx _
    rw [XYZW.toXYZ_eq (by rw [hx, abs_one]; norm_num), hx]
    ext <;> simp [XYZW.ofXYZ, XYZW.raw, hx]
  have hbil : XYZW.ofXYZ (bilinear (l 0).toXYZ (r 1).toXYZ (l 1).toXYZ (r 0).toXYZ u 0) 1 = (1 - u) • l 0 + u • l 1 := by
    conv_rhs => rw [← one (l 0) l0 0, ← one (l 1) l1 0]
    unfold bilinear
    ext <;> simp [XYZW.ofXYZ]
  unfold crossedSum
  rw [hbil, hb, sub_zero, ht]
  ext <;> simp <;> ring

end

/-- the four curves of the library's own test, tests/T_AdvancedSurface.cpp -/
def coonsLeft : NurbsCurve ℚ := ⟨3, [0, 0, 0, 0, 1, 1, 1, 1], [⟨0, 100, 10, 1⟩, ⟨0, 70, 20, 1⟩, ⟨0, 40, -10, 1⟩, ⟨0, 0, 0, 1⟩]⟩
def coonsBottom : NurbsCurve ℚ := ⟨3, [0, 0, 0, 0, 1, 1, 1, 1], [⟨0, 0, 0, 1⟩, ⟨20, 0, 10, 1⟩, ⟨40, 0, 30, 1⟩, ⟨60, 0, 50, 1⟩]⟩
def coonsRight : NurbsCurve ℚ := ⟨3, [0, 0, 0, 0, 1, 1, 1, 1], [⟨60, 0, 50, 1⟩, ⟨60, 40, 10, 1⟩, ⟨60, 70, 50, 1⟩, ⟨60, 100, 30, 1⟩]⟩
def coonsTop : NurbsCurve ℚ := ⟨3, [0, 0, 0, 0, 1, 1, 1, 1], [⟨60, 100, 30, 1⟩, ⟨40, 100, 10, 1⟩, ⟨20, 100, 20, 1⟩, ⟨0, 100, 10, 1⟩]⟩

theorem unitCurve_bezier3 {P : List (XYZW ℚ)} (h : P.length = 4) : UnitCurve (⟨3, [0, 0, 0, 0, 1, 1, 1, 1], P⟩ : NurbsCurve ℚ) 3 3 :=
  { wf := { degree := rfl, pos := by decide, le7 := by decide, cps := h, pn := le_rfl, knots := rfl, sorted := isValidKnotVector_nth.mp (by dsimp only; decide +kernel) }
    ends := ⟨by dsimp only; decide +kernel, by dsimp only; decide +kernel⟩
    clamped := ⟨by dsimp only; decide +kernel, by dsimp only; decide +kernel⟩
    start := by dsimp only; decide +kernel
    stop := by dsimp only; decide +kernel }

theorem coons_input : CoonsInput coonsLeft coonsBottom coonsRight coonsTop 3 3 3 3 3 3 3 3 := by
  have hm : ∀ k, MultLE ([0, 0, 0, 0, 1, 1, 1, 1] : List ℚ) k := by
    intro k x x0 x1
    rw [List.count_eq_zero.mpr]
    · omega
    · intro hx
      rcases bits_cubic x hx with rfl | rfl
      · exact lt_irrefl _ x0
      · exact lt_irrefl _ x1
  have hs : WellSeparated (([0, 0, 0, 0, 1, 1, 1, 1] : List ℚ) ++ ([0, 0, 0, 0, 1, 1, 1, 1] : List ℚ).map (1 - ·)) := by
    apply wellSep_bits
    intro x hx
    rw [List.mem_append, List.mem_map] at hx
    rcases hx with hx | ⟨y, hy, rfl⟩
    · exact bits_cubic x hx
    · rcases bits_cubic y hy with rfl | rfl
      · right; norm_num
      · left; norm_num
  exact { unitL := unitCurve_bezier3 rfl, unitB := unitCurve_bezier3 rfl, unitR := unitCurve_bezier3 rfl, unitT := unitCurve_bezier3 rfl, sepU := hs, sepV := hs, multR := hm 3, multT := hm 3,
          simL := fun h => absurd h (by decide), simR := fun h => absurd h (by decide), simB := fun h => absurd h (by decide), simT := fun h => absurd h (by decide),
          lowU := fun h => absurd h (by decide), lowV := fun h => absurd h (by decide) }

/-- C120 is violated, for the four curves of the library's own test, which checks only the corners: the point of the surface at `(1/3, 0)`, on a side of the surface,
lies on none of the four curves. -/
theorem C120_boundary_violated : ∃ S Q, createCoonsSurface coonsLeft coonsBottom coonsRight coonsTop = ok S ∧ NurbsSurface.pointOnSurface S (1 / 3) 0 = ok Q ∧
    ∀ c ∈ [coonsLeft, coonsBottom, coonsRight, coonsTop], ∀ t : ℚ, 0 ≤ t → t ≤ 1 → NurbsCurve.pointOnCurve c t ≠ ok Q := by
  have run : (createCoonsSurface coonsLeft coonsBottom coonsRight coonsTop >>= fun S => NurbsSurface.pointOnSurface S (1 / 3) 0) = ok ⟨0, 980 / 27, 170 / 27⟩ := by decide +kernel
  obtain ⟨S, e1, e2⟩ := bind_eq_ok.mp run
  refine ⟨S, _, e1, e2, fun c hc t t0 t1 he => ?_⟩
  have ev : ∀ P : List (XYZW ℚ), P.length = 4 → (nth P 0).w = 1 → (nth P 1).w = 1 → (nth P 2).w = 1 → (nth P 3).w = 1 →
      NurbsCurve.pointOnCurve (⟨3, [0, 0, 0, 0, 1, 1, 1, 1], P⟩ : NurbsCurve ℚ) t =
      ok ((1 - t) ^ 3 • (nth P 0).raw + (3 * t * (1 - t) ^ 2) • (nth P 1).raw + (3 * t ^ 2 * (1 - t)) • (nth P 2).raw + t ^ 3 • (nth P 3).raw) := by
    intro P hP w0 w1 w2 w3
    rw [(unitCurve_bezier3 hP).point t0 t1]
    dsimp only
    rw [cubic_bezier t0 t1]
    have hw : ((1 - t) ^ 3 • nth P 0 + (3 * t * (1 - t) ^ 2) • nth P 1 + (3 * t ^ 2 * (1 - t)) • nth P 2 + t ^ 3 • nth P 3).w = 1 := by
      simp [w0, w1, w2, w3]; ring
    rw [XYZW.toXYZ_eq (by rw [hw, abs_one]; norm_num), hw, inv_one, one_smul]
    congr 1
  simp only [List.mem_cons, List.not_mem_nil, or_false] at hc
  rcases hc with rfl | rfl | rfl | rfl
  · unfold coonsLeft at he
    rw [ev _ rfl rfl rfl rfl rfl] at he
    have h2 := congrArg XYZ.y (Res.ok.inj he)
    have h3 := congrArg XYZ.z (Res.ok.inj he)
    simp [nth, XYZW.raw] at h2 h3
    have hq : (t - 2 / 3) * (120 * t + 770) = 0 := by linarith
    rcases mul_eq_zero.mp hq with h | h
    · obtain rfl : t = 2 / 3 := by linarith
      norm_num at h2
    · linarith
  · unfold coonsBottom at he
    rw [ev _ rfl rfl rfl rfl rfl] at he
    have h2 := congrArg XYZ.y (Res.ok.inj he)
    simp [nth, XYZW.raw] at h2
    norm_num at h2
  · unfold coonsRight at he
    rw [ev _ rfl rfl rfl rfl rfl] at he
    have h2 := congrArg XYZ.x (Res.ok.inj he)
    simp [nth, XYZW.raw] at h2
    linarith
  · unfold coonsTop at he
    rw [ev _ rfl rfl rfl rfl rfl] at he
    have h2 := congrArg XYZ.y (Res.ok.inj he)
    simp [nth, XYZW.raw] at h2
    nlinarith

/-- C120 is not vacuous: the curves of the library's test satisfy the hypotheses and are connected -/
example : CoonsInput coonsLeft coonsBottom coonsRight coonsTop 3 3 3 3 3 3 3 3 ∧
    Connected (curvePoint (nth coonsLeft.knots) 3 3 (nth coonsLeft.cps)) (curvePoint (nth coonsBottom.knots) 3 3 (nth coonsBottom.cps))
      (curvePoint (nth coonsRight.knots) 3 3 (nth coonsRight.cps)) (curvePoint (nth coonsTop.knots) 3 3 (nth coonsTop.cps)) := by
  refine ⟨coons_input, ?_⟩
  refine ⟨?_, ?_, ?_, ?_⟩ <;> · simp only [coonsLeft, coonsBottom, coonsRight, coonsTop]; rw [cubic_bezier (by norm_num) (by norm_num), cubic_bezier (by norm_num) (by norm_num)]; decide +kernel

end LNLib.Props
