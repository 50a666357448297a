import Verif.Model.ExcessiveKnots
import Verif.Props.RemoveKnot
import Verif.Props.KnotVector

/-!
# C124: removal of excessive knots
-/
set_option linter.unusedSectionVars false

namespace LNLib.Props
open LNLib Res Spec Finset

section
variable {K : Type} [Field K] [LinearOrder K] [IsStrictOrderedRing K]
variable {T : Type} [AddCommGroup T] [Module K T]

/-- The curves the property ranges over: a valid clamped curve of degree `p` with `n + 1` control points, different
knots further apart than the comparison tolerance, interior knots of multiplicity at most the degree. -/
structure TidyCurve (c : BsplineCurve K T) (p n : ℕ) : Prop where
  wf : WellFormed c p n
  ends : EndsSeparated (nth c.knots) p n
  clamped : ClampedEnds (nth c.knots) p n
  sep : ∀ x ∈ c.knots, KnotSeparated c.knots x
  mult : ∀ x, nth c.knots p < x → x < nth c.knots (n + 1) → c.knots.count x ≤ p

/-- `x` is a knot strictly inside the domain. -/
def InteriorKnot (c : BsplineCurve K T) (p n : ℕ) (x : K) : Prop :=
  x ∈ c.knots ∧ nth c.knots p < x ∧ x < nth c.knots (n + 1)

theorem tidy_lt {c : BsplineCurve K T} {p n : ℕ} (h : TidyCurve c p n) : nth c.knots p < nth c.knots (n + 1) := by
  have h1 := h.ends.first
  have h2 := h.wf.pn
  have h3 := h.wf.knots
  have h4 : nth c.knots (p + 1) ≤ nth c.knots (n + 1) := h.wf.sorted _ _ (by omega) (by omega)
  have h5 : 0 ≤ max |nth c.knots p| |nth c.knots (p + 1)| := (abs_nonneg _).trans (le_max_left _ _)
  have h6 : (0 : K) < 1 / 1000000 * (1 + max |nth c.knots p| |nth c.knots (p + 1)|) := by positivity
  linarith

theorem tidy_range {c : BsplineCurve K T} {p n : ℕ} (h : TidyCurve c p n) {x : K} (hx : x ∈ c.knots) :
    nth c.knots p ≤ x ∧ x ≤ nth c.knots (n + 1) := by
  obtain ⟨i, hi, rfl⟩ := List.getElem_of_mem hx
  rw [← nth_eq_getElem hi]
  have h3 := h.wf.knots
  rw [← h.clamped.first, h.clamped.last]
  exact ⟨h.wf.sorted _ _ (by omega) (by omega), h.wf.sorted _ _ (by omega) (by omega)⟩

/-- the interior entries of the multiplicity map are the interior knots -/
theorem internal_map {c : BsplineCurve K T} {p n : ℕ} (h : TidyCurve c p n) :
    ∃ m, getInternalKnotMultiplicityMap c.knots = ok m ∧
      ∀ e : K × ℤ, e ∈ m ↔ InteriorKnot c p n e.1 ∧ e.2 = (c.knots.count e.1 : ℤ) := by
  have h3 := h.wf.knots
  have hlt := tidy_lt h
  have hmem : ∀ i, i < c.knots.length → nth c.knots i ∈ c.knots := by
    intro i hi
    rw [nth_eq_getElem hi]
    exact List.getElem_mem hi
  have hA := hmem p (by omega)
  have hB := hmem (n + 1) (by omega)
  have hs := map_sorted c.knots
  have hiff := mem_map_iff c.knots
  have hcount : ∀ e ∈ getKnotMultiplicityMap c.knots, e.2 = (c.knots.count e.1 : ℤ) := by
    intro e he
    have := find_of_mem hs he
    rw [map_find] at this
    split at this
    · exact nomatch this
    · exact (Option.some.inj this).symm
  unfold getInternalKnotMultiplicityMap
  generalize getKnotMultiplicityMap c.knots = M at *
  rcases M with _ | ⟨e0, M⟩
  · exact absurd ((hiff _).mpr hA) (by simp)
  have hs' : (e0.1 :: M.map Prod.fst).Pairwise (· < ·) := hs
  rw [List.pairwise_cons] at hs'
  have he0 : e0.1 = nth c.knots p := by
    have h1 := (tidy_range h ((hiff _).mp (by simp : e0.1 ∈ List.map Prod.fst (e0 :: M)))).1
    rcases List.mem_cons.mp (by simpa using (hiff _).mpr hA : nth c.knots p ∈ e0.1 :: M.map Prod.fst) with h2 | h2
    · exact h2.symm
    · exact absurd (hs'.1 _ h2) (not_lt.mpr h1)
  have hBM : nth c.knots (n + 1) ∈ M.map Prod.fst := by
    rcases List.mem_cons.mp (by simpa using (hiff _).mpr hB : nth c.knots (n + 1) ∈ e0.1 :: M.map Prod.fst) with h2 | h2
    · rw [h2, he0] at hlt; exact absurd hlt (lt_irrefl _)
    · exact h2
  have hne : M ≠ [] := by rintro rfl; simp at hBM
  refine ⟨M.dropLast, ?_, ?_⟩
  · have : M.isEmpty = false := by simpa using hne
    simp [this]
  have hsplit := List.dropLast_append_getLast hne
  set L := M.getLast hne with hL
  have hsM : ((M.dropLast).map Prod.fst ++ [L.1]).Pairwise (· < ·) := by
    have := hs'.2
    rw [← hsplit, List.map_append] at this
    simpa using this
  rw [List.pairwise_append] at hsM
  have hLB : L.1 = nth c.knots (n + 1) := by
    have hLM : L ∈ e0 :: M := List.mem_cons_of_mem _ (List.getLast_mem hne)
    have h1 := (tidy_range h ((hiff _).mp (List.mem_map_of_mem (f := Prod.fst) hLM))).2
    rw [← hsplit, List.map_append, List.mem_append] at hBM
    rcases hBM with h2 | h2
    · exact absurd (hsM.2.2 _ h2 L.1 (by simp)) (not_lt.mpr h1)
    · have : nth c.knots (n + 1) = L.1 := by simpa using h2
      exact this.symm
  intro e
  constructor
  · intro he
    have heM : e ∈ M := List.mem_of_mem_dropLast he
    refine ⟨⟨(hiff _).mp (List.mem_map_of_mem (f := Prod.fst) (List.mem_cons_of_mem _ heM)), ?_, ?_⟩, hcount e (List.mem_cons_of_mem _ heM)⟩
    · rw [← he0]; exact hs'.1 _ (List.mem_map_of_mem (f := Prod.fst) heM)
    · rw [← hLB]; exact hsM.2.2 _ (List.mem_map_of_mem (f := Prod.fst) he) L.1 (by simp)
  · rintro ⟨⟨h1, h2, h4⟩, h5⟩
    obtain ⟨e', he', hee⟩ := List.mem_map.mp ((hiff _).mpr h1)
    have : e' = e := Prod.ext hee (by rw [hcount e' he', h5, hee])
    subst this
    rcases List.mem_cons.mp he' with h6 | h6
    · rw [h6, he0] at h2; exact absurd h2 (lt_irrefl _)
    · rw [← hsplit, List.mem_append] at h6
      rcases h6 with h6 | h6
      · exact h6
      · have h7 : e' = L := by simpa using h6
        rw [h7, hLB] at h4; exact absurd h4 (lt_irrefl _)

/-- one accepted removal of a repeated interior knot -/
theorem tidy_remove (close : T → T → Bool) {c : BsplineCurve K T} {p n : ℕ} (h : TidyCurve c p n) {u : K}
    (hu : InteriorKnot c p n u) (h2 : 2 ≤ c.knots.count u) :
    removeKnot close c u 1 = ok none ∨ ∃ c' : BsplineCurve K T, removeKnot close c u 1 = ok (some c') ∧ 1 ≤ n ∧ TidyCurve c' p (n - 1) ∧
      (u :: c'.knots).Perm c.knots ∧ nth c'.knots p = nth c.knots p ∧ nth c'.knots (n - 1 + 1) = nth c.knots (n + 1) := by
  have w := h.wf
  have hsp := h.mult u hu.2.1 hu.2.2
  obtain ⟨r, hr, hm, hi⟩ := insertAt_of w h.ends (h.sep u hu.1) hu.2.1.le hu.2.2 hsp
  have hkn := hi.kn
  have hur : nth c.knots r = u := hi.eq r (by omega) le_rfl
  have hU := w.knots
  have hpn := w.pn
  have hpos := w.pos
  have hur1 : nth c.knots (r - 1) = u := hi.eq (r - 1) (by omega) (by omega)
  have hpr : p + 1 < r := by
    by_contra hc
    have h1 := hu.2.1
    have : u ≤ nth c.knots p := by
      rw [← hur1]; exact w.sorted _ _ (by omega) (by omega)
    exact absurd h1 (not_lt.mpr this)
  obtain ⟨a, b⟩ := removeKnot_run close w hr hm hi (by omega) (by omega)
  rcases hb : remOk close c.knots c.cps p r (c.knots.count u) u with _ | _
  · exact Or.inl (a hb)
  · obtain ⟨c', k1, k2, k3, k4, _⟩ := b hb
    have hn : 1 ≤ n := by omega
    have hperm : (u :: c'.knots).Perm c.knots := by
      rw [k3, ← hur, nth_eq_getElem (by omega : r < c.knots.length)]
      exact List.getElem_cons_eraseIdx_perm (by omega)
    have hsub : ∀ x ∈ c'.knots, x ∈ c.knots := fun x hx => hperm.mem_iff.mp (List.mem_cons_of_mem _ hx)
    have e1 : nth c'.knots p = nth c.knots p := by rw [k3, eraseIdx_nth, if_pos (by omega)]
    have e2 : nth c'.knots (n - 1 + 1) = nth c.knots (n + 1) := by
      rw [k3, eraseIdx_nth, if_neg (by omega)]; congr 1; omega
    have hlen : c'.knots.length = n + p + 1 := by rw [k3, List.length_eraseIdx_of_lt (by omega)]; omega
    refine Or.inr ⟨c', k1, hn, ⟨⟨k2, w.pos, w.le7, by omega, by omega, by omega, ?_⟩, ?_, ?_, ?_, ?_⟩, hperm, e1, e2⟩
    · intro i j hij hj
      rw [hlen] at hj
      rw [k3, eraseIdx_nth, eraseIdx_nth]
      split <;> split <;> first | exact w.sorted _ _ (by omega) (by omega) | omega
    · constructor
      · rw [e1, k3, eraseIdx_nth, if_pos hpr]; exact h.ends.first
      · rw [e2]
        have : nth c'.knots (n - 1) = nth c.knots n := by
          rw [k3, eraseIdx_nth]
          split
          · have : r = n := by omega
            rw [← this, hur1, hur]
          · congr 1; omega
        rw [this]; exact h.ends.last
    · constructor
      · rw [e1, k3, eraseIdx_nth, if_pos (by omega)]; exact h.clamped.first
      · rw [e2, k3, eraseIdx_nth, if_neg (by omega), h.clamped.last]; congr 1; omega
    · intro x hx y hy
      exact h.sep x (hsub x hx) y (hsub y hy)
    · intro x hx1 hx2
      rw [e1] at hx1
      rw [e2] at hx2
      refine le_trans ?_ (h.mult x hx1 hx2)
      rw [← hperm.count_eq]
      exact List.count_le_count_cons

/-- the inner loop -/
theorem scan_run (test : List T → T → T → Bool) {c : BsplineCurve K T} :
    ∀ m : KnotMap K, (∀ e ∈ m, ¬ e.2 ≤ 1 → removeKnot (test c.cps) c e.1 1 = ok none ∨ ∃ c', removeKnot (test c.cps) c e.1 1 = ok (some c')) →
      (excessiveScan test c m = ok none ∧ ∀ e ∈ m, ¬ e.2 ≤ 1 → removeKnot (test c.cps) c e.1 1 = ok none) ∨
      ∃ e ∈ m, ¬ e.2 ≤ 1 ∧ ∃ c', removeKnot (test c.cps) c e.1 1 = ok (some c') ∧ excessiveScan test c m = ok (some c')
  | [], _ => Or.inl ⟨rfl, by simp⟩
  | e :: m, h => by
    have ih := scan_run test m (fun e' he' => h e' (List.mem_cons_of_mem _ he'))
    by_cases h1 : e.2 ≤ 1
    · have : excessiveScan test c (e :: m) = excessiveScan test c m := by rw [excessiveScan.eq_2, if_pos h1]
      rw [this]
      rcases ih with ⟨a, b⟩ | ⟨e', he', a⟩
      · refine Or.inl ⟨a, fun e' he' hn => ?_⟩
        rcases List.mem_cons.mp he' with h2 | h2
        · rw [h2] at hn; exact absurd h1 hn
        · exact b e' h2 hn
      · exact Or.inr ⟨e', List.mem_cons_of_mem _ he', a⟩
    · rcases h e (by simp) h1 with h2 | ⟨c', h2⟩
      · have : excessiveScan test c (e :: m) = excessiveScan test c m := by
          rw [excessiveScan.eq_2, if_neg h1, h2, ok_bind]
        rw [this]
        rcases ih with ⟨a, b⟩ | ⟨e', he', a⟩
        · refine Or.inl ⟨a, fun e' he' hn => ?_⟩
          rcases List.mem_cons.mp he' with h3 | h3
          · rw [h3]; exact h2
          · exact b e' h3 hn
        · exact Or.inr ⟨e', List.mem_cons_of_mem _ he', a⟩
      · exact Or.inr ⟨e, by simp, h1, c', h2, by rw [excessiveScan.eq_2, if_neg h1, h2, ok_bind]⟩

/-- C124 (part): on a valid clamped curve the removal of excessive knots terminates (within as many rounds as there are
control points); the result is a valid clamped curve of the same degree and domain, every knot of the input is still there,
end knots keep their multiplicity, no knot is added, and on the result `RemoveKnot` answers `false` for every interior knot
that still has more than one copy.  Missing: that the curve does not change, which is false
(`C124_corner_violated`). -/
theorem C124_terminates_partial (test : List T → T → T → Bool) {c : BsplineCurve K T} {p n : ℕ} (h : TidyCurve c p n) :
    ∃ (c' : BsplineCurve K T) (n' : ℕ), (∀ fuel, c.cps.length ≤ fuel → removeExcessiveKnots test fuel c = ok c') ∧
      TidyCurve c' p n' ∧ n' ≤ n ∧ nth c'.knots p = nth c.knots p ∧ nth c'.knots (n' + 1) = nth c.knots (n + 1) ∧
      (∀ x, c'.knots.count x ≤ c.knots.count x) ∧ (∀ x ∈ c.knots, x ∈ c'.knots) ∧
      c'.knots.count (nth c.knots p) = c.knots.count (nth c.knots p) ∧
      c'.knots.count (nth c.knots (n + 1)) = c.knots.count (nth c.knots (n + 1)) ∧
      ∀ x, InteriorKnot c' p n' x → 2 ≤ c'.knots.count x → removeKnot (test c'.cps) c' x 1 = ok none := by
  suffices H : ∀ (n : ℕ) (c : BsplineCurve K T), TidyCurve c p n → ∃ (c' : BsplineCurve K T) (n' : ℕ),
      (∀ fuel, n + 1 ≤ fuel → whileF (fun (st : BsplineCurve K T × Bool) => ok st.2) (excessiveRound test) fuel (c, true) = ok (c', false)) ∧
      TidyCurve c' p n' ∧ n' ≤ n ∧ nth c'.knots p = nth c.knots p ∧ nth c'.knots (n' + 1) = nth c.knots (n + 1) ∧
      (∀ x, c'.knots.count x ≤ c.knots.count x) ∧ (∀ x ∈ c.knots, x ∈ c'.knots) ∧
      c'.knots.count (nth c.knots p) = c.knots.count (nth c.knots p) ∧
      c'.knots.count (nth c.knots (n + 1)) = c.knots.count (nth c.knots (n + 1)) ∧
      ∀ x, InteriorKnot c' p n' x → 2 ≤ c'.knots.count x → removeKnot (test c'.cps) c' x 1 = ok none by
    obtain ⟨c', n', h1, h2⟩ := H n c h
    refine ⟨c', n', fun fuel hf => ?_, h2⟩
    rw [h.wf.cps] at hf
    unfold removeExcessiveKnots
    rw [h1 fuel hf, ok_bind]
  clear h
  intro n
  induction n with
  | zero =>
    intro c h
    have := h.wf.pn
    have := h.wf.pos
    omega
  | succ n ih =>
    intro c h
    obtain ⟨m, hm, hmem⟩ := internal_map h
    have hgood : ∀ e ∈ m, ¬ e.2 ≤ 1 → removeKnot (test c.cps) c e.1 1 = ok none ∨ ∃ c', removeKnot (test c.cps) c e.1 1 = ok (some c') := by
      intro e he h1
      obtain ⟨h2, h3⟩ := (hmem e).mp he
      rcases tidy_remove (test c.cps) h h2 (by omega) with h4 | ⟨c', h4, _⟩
      · exact Or.inl h4
      · exact Or.inr ⟨c', h4⟩
    rcases scan_run test m hgood with ⟨a, b⟩ | ⟨e, he, h1, c', a, b⟩
    · refine ⟨c, n + 1, fun fuel hf => ?_, h, le_rfl, rfl, rfl, fun _ => le_rfl, fun _ hx => hx, rfl, rfl, ?_⟩
      · obtain ⟨f, rfl⟩ : ∃ f, fuel = f + 2 := ⟨fuel - 2, by omega⟩
        have : excessiveRound test (c, true) = ok (c, false) := by simp [excessiveRound, hm, a]
        rw [whileF, ok_bind, if_pos rfl, this, ok_bind, whileF, ok_bind]
        rfl
      · intro x hx h2
        have := b (x, (c.knots.count x : ℤ)) ((hmem _).mpr ⟨hx, rfl⟩)
        exact this (by show ¬ (c.knots.count x : ℤ) ≤ 1; omega)
    · obtain ⟨h2, h3⟩ := (hmem e).mp he
      rcases tidy_remove (test c.cps) h h2 (by omega) with h4 | ⟨d, h4, _, ht, hp, e1, e2⟩
      · rw [a] at h4; exact nomatch h4
      rw [a] at h4
      have hd : c' = d := Option.some.inj (Res.ok.inj h4)
      subst hd
      rw [Nat.add_sub_cancel] at ht e2
      have hcnt : ∀ x, c.knots.count x = c'.knots.count x + if x = e.1 then 1 else 0 := by
        intro x
        rw [← hp.count_eq, List.count_cons]
        congr 1
        by_cases hx : e.1 = x
        · rw [if_pos (by simpa using hx), if_pos hx.symm]
        · rw [if_neg (by simpa using hx), if_neg (Ne.symm hx)]
      obtain ⟨c'', n'', g1, g2, g3, g4, g5, g6, g7, g8, g9, g10⟩ := ih c' ht
      refine ⟨c'', n'', fun fuel hf => ?_, g2, by omega, g4.trans e1, g5.trans e2, fun x => ?_, fun x hx => ?_, ?_, ?_, g10⟩
      · obtain ⟨f, rfl⟩ : ∃ f, fuel = f + 1 := ⟨fuel - 1, by omega⟩
        have : excessiveRound test (c, true) = ok (c', true) := by
          simp [excessiveRound, hm, b]
        rw [whileF, ok_bind, if_pos rfl, this, ok_bind]
        exact g1 f (by omega)
      · exact (g6 x).trans (by rw [hcnt x]; omega)
      · apply g7
        have h5 : 0 < c.knots.count x := List.count_pos_iff.mpr hx
        rw [← List.count_pos_iff]
        have h6 := hcnt x
        split at h6
        · rename_i h7; rw [h7] at h6 ⊢; omega
        · omega
      · rw [e1] at g8
        rw [g8, hcnt, if_neg (ne_of_lt h2.2.1)]; rfl
      · rw [e2] at g9
        rw [g9, hcnt, if_neg (ne_of_gt h2.2.2)]; rfl

end

/-! ## The curve changes -/

/-- two parabolic arcs through `(1, h)`: a corner there when `h ≠ 0` -/
noncomputable def cornerCurve (h : ℝ) : NurbsCurve ℝ :=
  { degree := 2, knots := [0, 0, 0, 1, 1, 2, 2, 2], cps := [⟨-1, 0, 0, 1⟩, ⟨0, 0, 0, 1⟩, ⟨1, h, 0, 1⟩, ⟨2, 0, 0, 1⟩, ⟨3, 0, 0, 1⟩] }

/-- what `RemoveExcessiveKnots` makes of it -/
noncomputable def flatCurve : NurbsCurve ℝ :=
  { degree := 2, knots := [0, 0, 0, 1, 2, 2, 2], cps := [⟨-1, 0, 0, 1⟩, ⟨0, 0, 0, 1⟩, ⟨2, 0, 0, 1⟩, ⟨3, 0, 0, 1⟩] }

theorem corner_tidy (h : ℝ) : TidyCurve (cornerCurve h) 2 4 where
  wf := by
    refine ⟨rfl, by decide, by decide, rfl, by decide, rfl, ?_⟩
    apply isValidKnotVector_nth.mp
    simp [cornerCurve, isValidKnotVector]
  ends := by constructor <;> simp [cornerCurve, nth] <;> norm_num
  clamped := ⟨rfl, rfl⟩
  sep := by
    intro x hx y hy
    simp only [cornerCurve, List.mem_cons, List.not_mem_nil, or_false] at hx hy
    rcases hx with h | h | h | h | h | h | h | h <;> subst h <;>
      rcases hy with h | h | h | h | h | h | h | h <;> subst h <;> norm_num [abs_of_pos]
  mult := by
    intro x h1 h2
    simp only [cornerCurve, nth] at h1 h2
    have h1' : (0 : ℝ) < x := by simpa using h1
    have h2' : x < 2 := by simpa using h2
    have e0 : (0 : ℝ) ≠ x := h1'.ne
    have e2 : (2 : ℝ) ≠ x := h2'.ne'
    simp only [cornerCurve, List.count_cons, List.count_nil]
    simp only [beq_iff_eq, e0, e2, if_false]
    split <;> omega

theorem corner_removed (h : ℝ) : removeKnot (libraryTest (cornerCurve h).cps) (cornerCurve h) 1 1 = ok (some flatCurve) := by
  have t := corner_tidy h
  have w := t.wf
  have hcount : (cornerCurve h).knots.count (1 : ℝ) = 2 := by simp [cornerCurve, List.count_cons]
  have hsep : KnotSeparated (cornerCurve h).knots (1 : ℝ) := t.sep 1 (by simp [cornerCurve])
  obtain ⟨r, hr, hm, hi⟩ := insertAt_of w t.ends hsep (by simp [cornerCurve, nth]) (by simp [cornerCurve, nth]) (by rw [hcount])
  rw [hcount] at hm hi
  have hr4 : r = 4 := by
    have h1 := hi.eq r (by omega) le_rfl
    have h2 := hi.kn
    have h3 := hi.pk
    have h4 := hi.hi
    interval_cases r
    · simp [cornerCurve, nth] at h1
    · simp [cornerCurve, nth] at h4
    · rfl
  subst hr4
  have hq : ∀ q ∈ (cornerCurve h).cps, 0 ≤ q.w := by
    intro q hq
    simp only [cornerCurve, List.mem_cons, List.not_mem_nil, or_false] at hq
    rcases hq with h | h | h | h | h <;> subst h <;> norm_num
  obtain ⟨c', a1, a2, a3, a4, a5⟩ := (removeKnot_run (libraryTest (cornerCurve h).cps)
    w hr hm hi (by omega) (by omega)).2 (by
      unfold remOk; rw [if_pos (by omega)]; exact closeTest_refl hq _)
  rw [a1]
  have hcps : c'.cps = flatCurve.cps := by
    apply ext_nth (by rw [a4]; rfl)
    intro i hi'
    rw [a4] at hi'
    rw [a5 i hi']
    interval_cases i <;> simp [cornerCurve, flatCurve, nth]
  have hk : c'.knots = flatCurve.knots := by rw [a3]; rfl
  have : c' = flatCurve := by
    cases c'
    simp only at a2 hk hcps
    simp only [a2, hk, hcps]
    rfl
  rw [this]

theorem flat_ends : WellFormed flatCurve 2 3 ∧ EndsSeparated (nth flatCurve.knots) 2 3 := by
  refine ⟨⟨rfl, by decide, by decide, rfl, by decide, rfl, ?_⟩, ?_⟩
  · apply isValidKnotVector_nth.mp
    simp [flatCurve, isValidKnotVector]
  · constructor <;> simp [flatCurve, nth] <;> norm_num

/-- C124 (violated): a curve with a corner at `(1, h)`, however large `h` is, is replaced by one that passes through
`(1, 0)` at the same parameter; the tolerance of the removal is at most 1/10000. -/
theorem C124_corner_violated (h : ℝ) : TidyCurve (cornerCurve h) 2 4 ∧
    (∀ fuel, 2 ≤ fuel → NurbsCurve.removeExcessiveKnots fuel (cornerCurve h) = ok flatCurve) ∧
    curveModifyTolerance (cornerCurve h).cps ≤ 1 / 10000 ∧
    NurbsCurve.pointOnCurve (cornerCurve h) 1 = ok ⟨1, h, 0⟩ ∧ NurbsCurve.pointOnCurve flatCurve 1 = ok ⟨1, 0, 0⟩ := by
  have t := corner_tidy h
  obtain ⟨w', he'⟩ := flat_ends
  have e1 : weightFn (nth (cornerCurve h).knots) 2 4 (nth (cornerCurve h).cps) 1 = 1 := by
    simp [weightFn, cornerCurve, nth, N, Finset.sum_range_succ]; norm_num
  have e2 : weightFn (nth flatCurve.knots) 2 3 (nth flatCurve.cps) 1 = 1 := by
    simp [weightFn, flatCurve, nth, N, Finset.sum_range_succ]; norm_num
  refine ⟨t, ?_, ?_, ?_, ?_⟩
  · intro fuel hf
    obtain ⟨f, rfl⟩ : ∃ f, fuel = f + 2 := ⟨fuel - 2, by omega⟩
    have m1 : getInternalKnotMultiplicityMap (cornerCurve h).knots = ok [(1, 2)] := by
      simp [getInternalKnotMultiplicityMap, getKnotMultiplicityMap, cornerCurve, KnotMap.incr, show ¬ (1 : ℝ) < 0 by norm_num, show ¬ (2 : ℝ) < 1 by norm_num, show ¬ (2 : ℝ) < 0 by norm_num]
    have m2 : getInternalKnotMultiplicityMap flatCurve.knots = ok [((1 : ℝ), 1)] := by
      simp [getInternalKnotMultiplicityMap, getKnotMultiplicityMap, flatCurve, KnotMap.incr, show ¬ (1 : ℝ) < 0 by norm_num, show ¬ (2 : ℝ) < 1 by norm_num, show ¬ (2 : ℝ) < 0 by norm_num]
    have r1 : excessiveRound libraryTest (cornerCurve h, true) = ok (flatCurve, true) := by
      simp [excessiveRound, m1, excessiveScan, corner_removed]
    have r2 : excessiveRound libraryTest (flatCurve, true) = ok (flatCurve, false) := by
      simp [excessiveRound, m2, excessiveScan]
    unfold NurbsCurve.removeExcessiveKnots removeExcessiveKnots
    rw [whileF, ok_bind, if_pos rfl, r1, ok_bind, whileF, ok_bind, if_pos rfl, r2, ok_bind]
    cases f <;> simp [whileF]
  · unfold curveModifyTolerance
    dsimp only
    set st := (cornerCurve h).cps.foldl (fun (st : ℝ × ℝ) (q : XYZW ℝ) => (min st.1 q.w, max st.2 q.toXYZ.length)) (1, 0) with hst
    have h1 : st.1 = 1 := by rw [hst]; simp [cornerCurve]
    rw [h1, mul_one]
    unfold distEps
    exact div_le_self (by norm_num) (by have := abs_nonneg st.2; linarith)
  · rw [C05_eval_rational t.wf t.ends (by simp [cornerCurve, nth]) (by simp [cornerCurve, nth]) (by rw [e1]; norm_num)]
    unfold rationalPoint
    change ok ((weightFn (nth (cornerCurve h).knots) 2 4 (nth (cornerCurve h).cps) 1)⁻¹ • _) = _
    rw [e1]
    congr 1
    ext <;> simp [cornerCurve, nth, N, Finset.sum_range_succ] <;> norm_num
  · rw [C05_eval_rational w' he' (by simp [flatCurve, nth]) (by simp [flatCurve, nth]) (by rw [e2]; norm_num)]
    unfold rationalPoint
    change ok ((weightFn (nth flatCurve.knots) 2 3 (nth flatCurve.cps) 1)⁻¹ • _) = _
    rw [e2]
    congr 1
    ext <;> simp [flatCurve, nth, N, Finset.sum_range_succ] <;> norm_num

/-- two copies of a triple knot of a cubic are removed (the exact result has `3` for `4`, see C41) -/
example : removeExcessiveKnots (fun _ a b => decide (a = b)) 20
    ({ degree := 3, knots := [0, 0, 0, 0, 1, 1, 1, 2, 2, 2, 2], cps := [0, 1, 2, 3, 4, 5, 6] } : BsplineCurve ℚ ℚ) =
      ok { degree := 3, knots := [0, 0, 0, 0, 1, 2, 2, 2, 2], cps := [0, 1, 4, 5, 6] } := by decide +kernel

/-- the second removal is refused: a double knot stays -/
example : removeExcessiveKnots (fun _ a b => decide (a = b)) 20
    ({ degree := 3, knots := [0, 0, 0, 0, 1, 1, 1, 2, 2, 2, 2], cps := [0, 1, 2, 9, 7, 5, 6] } : BsplineCurve ℚ ℚ) =
      ok { degree := 3, knots := [0, 0, 0, 0, 1, 1, 2, 2, 2, 2], cps := [0, 1, 2, 7, 5, 6] } := by decide +kernel

end LNLib.Props
