import Verif.Model.CApi
import Verif.Props.Refine
import Verif.Props.Decompose
import Verif.Props.Delaunay

/-!
# C165: curves and surfaces across the C interface (/repo/dotnet/CAPI)

In the statements `m` is what the buffers of the thread hold, from whatever calls went before, and `fromCapi m h` is what a handle `h` stands for at that moment: what every function of the interface
that gets `h` works with, and what the caller reads through its pointers.
-/
set_option linter.unusedSectionVars false

namespace LNLib.Props
open LNLib Res LNLib.Spec Finset

section
variable {K : Type}

theorem assign_data {α : Type} (b : Buffer α) (l : List α) : (b.assign l).data = l := by
  unfold Buffer.assign
  split <;> rfl

theorem assign_cap {α : Type} (b : Buffer α) (l : List α) : l.length ≤ (b.assign l).cap := by
  unfold Buffer.assign
  split
  · assumption
  · exact le_refl _

theorem assign_fits {α : Type} {b : Buffer α} {l : List α} (h : l.length ≤ b.cap) : (b.assign l).gen = b.gen ∧ (b.assign l).cap = b.cap := by
  unfold Buffer.assign
  rw [if_pos h]
  exact ⟨rfl, rfl⟩

theorem assign_full {α : Type} {b : Buffer α} {l : List α} (h : ¬ l.length ≤ b.cap) : (b.assign l).gen = b.gen + 1 := by
  unfold Buffer.assign
  rw [if_neg h]

theorem readN_assign {α : Type} (b : Buffer α) (l : List α) : readN (b.assign l) (.buffer (b.assign l).gen) l.length = ok l := by
  unfold readN
  simp [assign_data]

/-- C165: what a function of the C interface returns stands for the curve that the function of the library made, whatever the buffers held before. -/
theorem C165_return (m : CurveBuffers K) (s : NurbsCurve K) : fromCapi (toCapi m s).1 (toCapi m s).2 = ok s := by
  simp only [fromCapi, toCapi, readN_assign, ok_bind]

/-- C165: any number of functions, one after the other, each on what the one before returned, give what the functions of the library give one after the other. -/
theorem C165_chain (fs : List (NurbsCurve K → Res (NurbsCurve K))) (m : CurveBuffers K) (h : CurveC K) :
    (fs.foldlM (fun st f => capiCall f st.1 st.2) (m, h) >>= fun st => fromCapi st.1 st.2) = (fromCapi m h >>= fun c => fs.foldlM (fun c f => f c) c) := by
  induction fs generalizing m h with
  | nil => simp only [List.foldlM_nil, pure_def, ok_bind, bind_ok_right]
  | cons f fs ih =>
    simp only [List.foldlM_cons]
    rw [bind_assoc']
    show (capiCall f m h >>= _) = _
    rw [show capiCall f m h = (fromCapi m h >>= fun c => f c >>= fun r => ok (toCapi m r)) from rfl]
    cases hc : fromCapi m h with
    | ok c =>
      simp only [ok_bind]
      cases hr : f c with
      | ok r =>
        simp only [ok_bind]
        have := ih (toCapi m r).1 (toCapi m r).2
        rw [C165_return] at this
        simpa using this
      | invalidArg => rfl
      | outOfRange => rfl
      | ub => rfl
      | nonfinite => rfl
      | diverge => rfl
    | invalidArg => rfl
    | outOfRange => rfl
    | ub => rfl
    | nonfinite => rfl
    | diverge => rfl

/-- C165: a handle whose pointers lead to memory of the caller stands for the same curve at any time. -/
theorem C165_caller (m m' : CurveBuffers K) (d k n : ℤ) (U : List K) (P : List (XYZW K)) :
    fromCapi m' ⟨d, .caller U, k, .caller P, n⟩ = fromCapi m ⟨d, .caller U, k, .caller P, n⟩ := rfl

theorem readN_over {α : Type} (b : Buffer α) (l l' : List α) :
    readN ((b.assign l).assign l') (.buffer (b.assign l).gen) l.length = if l'.length ≤ (b.assign l).cap ∧ l.length ≤ l'.length then ok (l'.take l.length) else ub := by
  unfold readN
  by_cases h : l'.length ≤ (b.assign l).cap
  · simp [assign_data, (assign_fits h).1, h]
  · have := assign_full h
    simp [this, h]

/-- C165 (violated): what the handle of a curve `a` stands for after the next function of the same thread has returned a curve `b`: if it still is `a`, then only because `b` begins with the same
knots and the same control points. -/
theorem C165_earlier_violated (m : CurveBuffers K) (a b : NurbsCurve K) (h : fromCapi (toCapi (toCapi m a).1 b).1 (toCapi m a).2 = ok a) : a.knots <+: b.knots ∧ a.cps <+: b.cps := by
  simp only [fromCapi, toCapi, readN_over] at h
  obtain ⟨U, hU, h⟩ := bind_eq_ok.mp h
  obtain ⟨P, hP, h⟩ := bind_eq_ok.mp h
  injection h with h
  split_ifs at hU with c1
  split_ifs at hP with c2
  injection hU with hU
  injection hP with hP
  have e1 : U = a.knots := by rw [← h]
  have e2 : P = a.cps := by rw [← h]
  rw [← hU] at e1
  rw [← hP] at e2
  exact ⟨by rw [← e1]; exact List.take_prefix _ _, by rw [← e2]; exact List.take_prefix _ _⟩

/-- C165 (violated): if `b` has as many knots and control points as `a`, the handle of `a` stands for `b` (with the degree of `a`). -/
theorem C165_replaced_violated (m : CurveBuffers K) (a b : NurbsCurve K) (hk : b.knots.length = a.knots.length) (hc : b.cps.length = a.cps.length) :
    fromCapi (toCapi (toCapi m a).1 b).1 (toCapi m a).2 = ok { b with degree := a.degree } := by
  have f1 : b.knots.length ≤ (m.knots.assign a.knots).cap := by rw [hk]; exact assign_cap _ _
  have f2 : b.cps.length ≤ (m.cps.assign a.cps).cap := by rw [hc]; exact assign_cap _ _
  simp only [fromCapi, toCapi, readN_over]
  rw [if_pos ⟨f1, by omega⟩, if_pos ⟨f2, by omega⟩, ← hk, ← hc, List.take_length, List.take_length]
  rfl

/-- C165 (violated): if `b` has fewer knots or fewer control points than `a`, reading the handle of `a` is undefined behaviour, and the same if `b` does not fit into the buffers. -/
theorem C165_dangling_violated (m : CurveBuffers K) (a b : NurbsCurve K)
    (h : b.knots.length < a.knots.length ∨ b.cps.length < a.cps.length ∨ max m.knots.cap a.knots.length < b.knots.length ∨ max m.cps.cap a.cps.length < b.cps.length) :
    fromCapi (toCapi (toCapi m a).1 b).1 (toCapi m a).2 = ub := by
  have cap : ∀ {α : Type} (b : Buffer α) (l : List α), (b.assign l).cap = max b.cap l.length := by
    intro α b l
    unfold Buffer.assign
    split_ifs with h
    · exact (max_eq_left h).symm
    · exact (max_eq_right (not_le.mp h).le).symm
  simp only [fromCapi, toCapi, readN_over, cap]
  by_cases c1 : b.knots.length ≤ max m.knots.cap a.knots.length ∧ a.knots.length ≤ b.knots.length
  · rw [if_pos c1, if_neg (by omega)]
    rfl
  · rw [if_neg c1]
    rfl

/-- Two segments with the same number of points: after the second call the first handle stands for the second segment. -/
example (m : CurveBuffers ℚ) : fromCapi (toCapi (toCapi m ⟨1, [0, 0, 1, 1], [⟨0, 0, 0, 1⟩, ⟨1, 0, 0, 1⟩]⟩).1 ⟨1, [0, 0, 2, 2], [⟨5, 5, 0, 1⟩, ⟨6, 5, 0, 1⟩]⟩).1
    (toCapi m ⟨1, [0, 0, 1, 1], [⟨0, 0, 0, 1⟩, ⟨1, 0, 0, 1⟩]⟩).2 = ok ⟨1, [0, 0, 2, 2], [⟨5, 5, 0, 1⟩, ⟨6, 5, 0, 1⟩]⟩ :=
  C165_replaced_violated m _ _ rfl rfl

/-- An arc of degree two, then a segment: the handle of the arc cannot be read any more. -/
example (m : CurveBuffers ℚ) : fromCapi (toCapi (toCapi m ⟨2, [0, 0, 0, 1, 1, 1], [⟨0, 0, 0, 1⟩, ⟨1, 1, 0, 1⟩, ⟨2, 0, 0, 1⟩]⟩).1 ⟨1, [0, 0, 1, 1], [⟨0, 0, 0, 1⟩, ⟨1, 0, 0, 1⟩]⟩).1
    (toCapi m ⟨2, [0, 0, 0, 1, 1, 1], [⟨0, 0, 0, 1⟩, ⟨1, 1, 0, 1⟩, ⟨2, 0, 0, 1⟩]⟩).2 = ub :=
  C165_dangling_violated m _ _ (Or.inl (by decide))

theorem toCapi_fits {m : CurveBuffers K} {s : NurbsCurve K} {d : ℤ} {x y : ℕ} (hd : s.degree = d) (hk : s.knots.length = x) (hc : s.cps.length = y) (h1 : x ≤ m.knots.cap) (h2 : y ≤ m.cps.cap) :
    toCapi m s = (⟨⟨m.knots.gen, m.knots.cap, s.knots⟩, ⟨m.cps.gen, m.cps.cap, s.cps⟩⟩, ⟨d, .buffer m.knots.gen, x, .buffer m.cps.gen, y⟩) := by
  unfold toCapi Buffer.assign
  rw [if_pos (by omega), if_pos (by omega), hd, hk, hc]

theorem toCapiAll_fits {d : ℤ} {x y : ℕ} (l : List (NurbsCurve K)) : ∀ (m : CurveBuffers K), (∀ s ∈ l, s.degree = d ∧ s.knots.length = x ∧ s.cps.length = y) → x ≤ m.knots.cap → y ≤ m.cps.cap →
    (toCapiAll m l).2 = List.replicate l.length ⟨d, .buffer m.knots.gen, x, .buffer m.cps.gen, y⟩ ∧
    (toCapiAll m l).1 = match l.getLast? with
      | none => m
      | some s => ⟨⟨m.knots.gen, m.knots.cap, s.knots⟩, ⟨m.cps.gen, m.cps.cap, s.cps⟩⟩ := by
  induction l with
  | nil => intro m _ _ _; exact ⟨rfl, rfl⟩
  | cons s rest ih =>
    intro m hl h1 h2
    obtain ⟨a1, a2, a3⟩ := hl s (by simp)
    have e := toCapi_fits a1 a2 a3 h1 h2
    obtain ⟨b1, b2⟩ := ih (toCapi m s).1 (fun t ht => hl t (by simp [ht])) (by rw [e]; exact h1) (by rw [e]; exact h2)
    unfold toCapiAll
    simp only
    rw [b1, b2, e]
    refine ⟨rfl, ?_⟩
    cases rest with
    | nil => rfl
    | cons t rest =>
      rw [List.getLast?_cons_cons]
      rfl

theorem toCapiAll_last {d : ℤ} {x y : ℕ} {l : List (NurbsCurve K)} (hl : ∀ s ∈ l, s.degree = d ∧ s.knots.length = x ∧ s.cps.length = y) (m : CurveBuffers K) :
    (toCapiAll m l).2.length = l.length ∧ ∀ h ∈ (toCapiAll m l).2, ∃ s, l.getLast? = some s ∧ fromCapi (toCapiAll m l).1 h = ok s := by
  cases l with
  | nil => exact ⟨rfl, by simp [toCapiAll]⟩
  | cons s rest =>
    obtain ⟨a1, a2, a3⟩ := hl s (by simp)
    have c1 : x ≤ (toCapi m s).1.knots.cap := by rw [← a2]; exact assign_cap _ _
    have c2 : y ≤ (toCapi m s).1.cps.cap := by rw [← a3]; exact assign_cap _ _
    obtain ⟨b1, b2⟩ := toCapiAll_fits rest (toCapi m s).1 (fun t ht => hl t (by simp [ht])) c1 c2
    have e2 : (toCapi m s).2 = ⟨d, .buffer (toCapi m s).1.knots.gen, x, .buffer (toCapi m s).1.cps.gen, y⟩ := by
      unfold toCapi
      simp only [a1, a2, a3]
    have all : (toCapiAll m (s :: rest)).2 = List.replicate (rest.length + 1) ⟨d, .buffer (toCapi m s).1.knots.gen, x, .buffer (toCapi m s).1.cps.gen, y⟩ := by
      unfold toCapiAll
      simp only
      rw [b1, e2]
      rfl
    rw [all]
    refine ⟨by simp, ?_⟩
    intro h hh
    rw [List.eq_of_mem_replicate hh]
    have e1 : (toCapiAll m (s :: rest)).1 = (toCapiAll (toCapi m s).1 rest).1 := rfl
    rw [e1, b2]
    cases hr : rest.getLast? with
    | none =>
      rw [List.getLast?_eq_none_iff] at hr
      subst hr
      refine ⟨s, rfl, ?_⟩
      simp only
      rw [← e2]
      exact C165_return m s
    | some t =>
      have ht : t ∈ rest := List.mem_of_getLast? hr
      obtain ⟨t1, t2, t3⟩ := hl t (by simp [ht])
      refine ⟨t, ?_, ?_⟩
      · cases rest with
        | nil => simp at hr
        | cons r rest => rw [List.getLast?_cons_cons]; exact hr
      · unfold fromCapi readN
        simp [t2, t3, ← t1]
        rw [List.take_of_length_le (by omega), List.take_of_length_le (by omega)]

theorem threads_own (t : ℕ) (later : List (ℕ × NurbsCurve K)) : ∀ M : ℕ → CurveBuffers K,
    (later.foldl threadReturn M) t = (toCapiAll (M t) ((later.filter fun e => decide (e.1 = t)).map Prod.snd)).1 := by
  induction later with
  | nil => intro M; rfl
  | cons e later ih =>
    intro M
    rw [List.foldl_cons, ih]
    by_cases h : e.1 = t
    · rw [List.filter_cons_of_pos (by simpa using h), List.map_cons]
      unfold threadReturn
      rw [if_pos h.symm]
      rfl
    · rw [List.filter_cons_of_neg (by simpa using h)]
      unfold threadReturn
      rw [if_neg (fun h' => h h'.symm)]

/-- C165: threads. After any interleaving of returned curves, the handle of a curve `a` that the thread `t` returned still stands for `a`, if all the later ones were returned by other threads. -/
theorem C165_threads (M : ℕ → CurveBuffers K) (t : ℕ) (a : NurbsCurve K) (later : List (ℕ × NurbsCurve K)) (h : ∀ e ∈ later, e.1 ≠ t) :
    fromCapi ((later.foldl threadReturn (threadReturn M (t, a))) t) (toCapi (M t) a).2 = ok a := by
  have : (later.filter fun e => decide (e.1 = t)) = [] := by
    rw [List.filter_eq_nil_iff]
    intro e he
    simpa using h e he
  rw [threads_own, this]
  unfold threadReturn
  rw [if_pos rfl]
  exact C165_return _ _

/-- C165 (violated): histories. After any interleaving of returned curves in which all those of the thread `t` have as many knots and control points as `a`, and its degree, the handle of `a` stands for
the latest one of them. -/
theorem C165_history_violated (M : ℕ → CurveBuffers K) (t : ℕ) (a : NurbsCurve K) (later : List (ℕ × NurbsCurve K))
    (h : ∀ e ∈ later, e.1 = t → e.2.degree = a.degree ∧ e.2.knots.length = a.knots.length ∧ e.2.cps.length = a.cps.length) :
    ∃ b, (a :: (later.filter fun e => decide (e.1 = t)).map Prod.snd).getLast? = some b ∧ fromCapi ((later.foldl threadReturn (threadReturn M (t, a))) t) (toCapi (M t) a).2 = ok b := by
  have hl : ∀ s ∈ a :: (later.filter fun e => decide (e.1 = t)).map Prod.snd, s.degree = a.degree ∧ s.knots.length = a.knots.length ∧ s.cps.length = a.cps.length := by
    intro s hs
    rw [List.mem_cons] at hs
    rcases hs with rfl | hs
    · exact ⟨rfl, rfl, rfl⟩
    · rw [List.mem_map] at hs
      obtain ⟨e, he, rfl⟩ := hs
      rw [List.mem_filter] at he
      exact h e he.1 (by simpa using he.2)
  have e1 : (later.foldl threadReturn (threadReturn M (t, a))) t = (toCapiAll (M t) (a :: (later.filter fun e => decide (e.1 = t)).map Prod.snd)).1 := by
    rw [threads_own]
    unfold threadReturn
    rw [if_pos rfl]
    rfl
  rw [e1]
  exact (toCapiAll_last hl (M t)).2 _ (by unfold toCapiAll; simp)

/-- The hypotheses are met: two threads; the first one returns two segments, the other one a curve in between. The handle of the first segment stands for the second one. -/
example (M : ℕ → CurveBuffers ℚ) : fromCapi (([(1, ⟨2, [0, 0, 0, 1, 1, 1], [⟨0, 0, 0, 1⟩, ⟨1, 1, 0, 1⟩, ⟨2, 0, 0, 1⟩]⟩), (0, ⟨1, [0, 0, 2, 2], [⟨5, 5, 0, 1⟩, ⟨6, 5, 0, 1⟩]⟩)].foldl threadReturn
    (threadReturn M (0, ⟨1, [0, 0, 1, 1], [⟨0, 0, 0, 1⟩, ⟨1, 0, 0, 1⟩]⟩))) 0) (toCapi (M 0) ⟨1, [0, 0, 1, 1], [⟨0, 0, 0, 1⟩, ⟨1, 0, 0, 1⟩]⟩).2 = ok ⟨1, [0, 0, 2, 2], [⟨5, 5, 0, 1⟩, ⟨6, 5, 0, 1⟩]⟩ := by
  obtain ⟨b, h1, h2⟩ := C165_history_violated M 0 ⟨1, [0, 0, 1, 1], [⟨0, 0, 0, 1⟩, ⟨1, 0, 0, 1⟩]⟩
    [(1, ⟨2, [0, 0, 0, 1, 1, 1], [⟨0, 0, 0, 1⟩, ⟨1, 1, 0, 1⟩, ⟨2, 0, 0, 1⟩]⟩), (0, ⟨1, [0, 0, 2, 2], [⟨5, 5, 0, 1⟩, ⟨6, 5, 0, 1⟩]⟩)] (by simp)
  have : b = ⟨1, [0, 0, 2, 2], [⟨5, 5, 0, 1⟩, ⟨6, 5, 0, 1⟩]⟩ := by simpa using h1.symm
  rw [this] at h2
  exact h2

end

section
variable {K : Type} [Field K] [LinearOrder K] [IsStrictOrderedRing K]

/-- C165 (violated): splitting a curve. For every well-formed curve and every value strictly inside its domain, under the hypotheses of `C23_split`: the library gives a left and a right part, the
function of the C interface answers 1, the handle of the right part stands for the right part, and the handle of the left part does not stand for the left part. -/
theorem C165_split_violated {m : CurveBuffers K} {h : CurveC K} {c : NurbsCurve K} (hc : fromCapi m h = ok c) {p n : ℕ} {u : K} (w : WellFormed c p n)
    (he : EndsSeparated (nth c.knots) p n) (hsep : WellSeparated (c.knots ++ [u]))
    (h0 : nth c.knots p < u) (h1 : u < nth c.knots (n + 1)) (hmul : c.knots.count u ≤ p + 1) :
    ∃ l r m' hl hr, splitAt c u = ok (some (l, r)) ∧ capiSplitAt m h u = ok (some (m', hl, hr)) ∧ fromCapi m' hr = ok r ∧ fromCapi m' hl ≠ ok l := by
  obtain ⟨l, r, nl, nr, hs, wl, wr, e1, _, e3, _⟩ := C23_split w he hsep h0 h1 hmul
  refine ⟨l, r, (toCapi (toCapi m l).1 r).1, (toCapi m l).2, (toCapi (toCapi m l).1 r).2, hs, ?_, C165_return _ _, ?_⟩
  · unfold capiSplitAt
    rw [hc, ok_bind, hs, ok_bind]
  · intro hl
    obtain ⟨⟨t, ht⟩, _⟩ := C165_earlier_violated m l r hl
    have hp : p < l.knots.length := by rw [wl.knots]; omega
    have : nth r.knots p = nth l.knots p := by
      rw [← ht]
      unfold nth
      simp [List.getD, List.getElem?_append_left hp]
    rw [this, e1] at e3
    exact absurd e3 h0.ne

/-- The hypotheses are met: a curve of degree two, its knots and control points in memory of the caller. -/
example (m : CurveBuffers ℚ) : ∃ l r m' hl hr, splitAt exCurve (1/3) = ok (some (l, r)) ∧
    capiSplitAt m ⟨2, .caller exCurve.knots, exCurve.knots.length, .caller exCurve.cps, exCurve.cps.length⟩ (1/3) = ok (some (m', hl, hr)) ∧ fromCapi m' hr = ok r ∧ fromCapi m' hl ≠ ok l :=
  C165_split_violated (c := exCurve) (by simp [fromCapi, readN, exCurve]) exCurve_wf exKnots_ends (by unfold WellSeparated; decide +kernel) (by decide +kernel) (by decide +kernel) (by decide +kernel)

/-- C165 (violated): decomposing a curve. For every well-formed clamped curve without interior knots of full multiplicity (the hypotheses of `C40_decompose_partial`): the library gives the pieces
`bs`, one per span; the function of the C interface returns as many handles as there are pieces and places, and all of them stand for one and the same piece, the last one that was returned. -/
theorem C165_decompose_violated {m : CurveBuffers K} {h : CurveC K} {c : NurbsCurve K} (hread : fromCapi m h = ok c) {p n fuel : ℕ} (w : WellFormed c p n) (he : EndsSeparated (nth c.knots) p n)
    (hc : ClampedEnds (nth c.knots) p n) (hs : WellSeparated c.knots)
    (hmul : ∀ x, nth c.knots p < x → x < nth c.knots (n + 1) → c.knots.count x < p) (hf : c.knots.length ≤ fuel) (places : ℕ) :
    ∃ bs m' hs, decomposeToBeziers fuel c = ok bs ∧ bs.length = ((List.range (n + 1)).filter fun s => decide (p ≤ s ∧ nth c.knots s < nth c.knots (s + 1))).length ∧
      capiDecompose fuel m h places = ok (m', hs) ∧ hs.length = min places bs.length ∧ ∀ h' ∈ hs, ∃ b, (bs.take places).getLast? = some b ∧ fromCapi m' h' = ok b := by
  obtain ⟨bs, h1, h2⟩ := C40_decompose_partial w he hc hs hmul hf
  have shape : ∀ b ∈ bs, b.degree = (p : ℤ) ∧ b.knots.length = 2 * p + 2 ∧ b.cps.length = p + 1 := by
    intro b hb
    obtain ⟨i, hi, rfl⟩ := List.getElem_of_mem hb
    have := (List.forall₂_iff_get.mp h2).2 i (by rw [h2.length_eq]; exact hi) hi
    obtain ⟨wb, _, _⟩ := this
    exact ⟨wb.degree, by rw [List.get_eq_getElem] at wb; rw [wb.knots]; omega, wb.cps⟩
  obtain ⟨a1, a2⟩ := toCapiAll_last (l := bs.take places) (fun b hb => shape b (List.mem_of_mem_take hb)) m
  refine ⟨bs, (toCapiAll m (bs.take places)).1, (toCapiAll m (bs.take places)).2, h1, h2.length_eq.symm, ?_, by rw [a1, List.length_take], a2⟩
  unfold capiDecompose
  rw [hread, ok_bind, h1, ok_bind, Int.toNat_natCast]

/-- a curve of degree two with two spans -/
def twoSpans : NurbsCurve ℚ := ⟨2, [0, 0, 0, 1, 2, 2, 2], [⟨0, 0, 0, 1⟩, ⟨1, 2, 0, 1⟩, ⟨3, 2, 0, 1⟩, ⟨4, 0, 0, 1⟩]⟩

/-- The hypotheses are met, by a curve of two spans: the two handles stand for the same piece. -/
example (m : CurveBuffers ℚ) : ∃ m' h1 h2 b, capiDecompose 7 m ⟨2, .caller twoSpans.knots, 7, .caller twoSpans.cps, 4⟩ 2 = ok (m', [h1, h2]) ∧ fromCapi m' h1 = ok b ∧ fromCapi m' h2 = ok b := by
  obtain ⟨bs, m', hs, _, h2, h3, h4, h5⟩ := C165_decompose_violated (m := m) (h := ⟨2, .caller twoSpans.knots, 7, .caller twoSpans.cps, 4⟩) (c := twoSpans) (p := 2) (n := 3) (fuel := 7)
    (by simp [fromCapi, readN, twoSpans]) (wellFormed_of_check rfl (by decide) rfl rfl (by decide +kernel)) ⟨by decide +kernel, by decide +kernel⟩ ⟨by decide +kernel, by decide +kernel⟩
    (by unfold WellSeparated; decide +kernel) (count_of_mem (by decide) (by decide +kernel)) (by decide) 2
  have hb : bs.length = 2 := by rw [h2]; decide +kernel
  rw [hb] at h4
  match hs, h4 with
  | [x, y], _ =>
    obtain ⟨b, g1, g2⟩ := h5 x (by simp)
    obtain ⟨b', g3, g4⟩ := h5 y (by simp)
    rw [g1] at g3
    injection g3 with g3
    subst g3
    exact ⟨m', x, y, b, h3, g2, g4⟩

theorem flatten_get {α : Type} {c : ℕ} (l : List (List α)) (h : ∀ r ∈ l, r.length = c) : ∀ i j, i < l.length → j < c → l.flatten[i * c + j]? = (row l i)[j]? := by
  induction l with
  | nil => intro i j hi; simp at hi
  | cons a l ih =>
    intro i j hi hj
    have ha := h a (by simp)
    rw [List.flatten_cons]
    cases i with
    | zero => rw [List.getElem?_append_left (by omega)]; simp [row]
    | succ i =>
      have e : (i + 1) * c + j = a.length + (i * c + j) := by rw [ha]; ring
      rw [e, List.getElem?_append_right (by omega), Nat.add_sub_cancel_left, ih (fun r hr => h r (by simp [hr])) i j (by simpa using hi) hj]
      simp [row]

/-- all rows of a net have `c` points -/
def Rectangular (s : NurbsSurface K) (c : ℕ) : Prop := ∀ r ∈ s.cps, r.length = c

theorem isMat_rect {s : NurbsSurface K} {c : ℕ} (h : Rectangular s c) : IsMat s.cps s.cps.length c := by
  refine ⟨rfl, fun i hi => ?_⟩
  have : row s.cps i = s.cps[i] := by simp [row, hi]
  rw [this]
  exact h _ (List.getElem_mem hi)

/-- the width that `ToCAPI` uses -/
theorem toCapiS_ok {m : SurfaceBuffers K} {s : NurbsSurface K} {c : ℕ} (h : Rectangular s c) (hne : s.cps ≠ []) :
    toCapiS m s = ok (⟨m.knotsU.assign s.knotsU, m.knotsV.assign s.knotsV, m.cps.assign s.cps.flatten⟩,
      ⟨s.degreeU, s.degreeV, .buffer (m.knotsU.assign s.knotsU).gen, s.knotsU.length, .buffer (m.knotsV.assign s.knotsV).gen, s.knotsV.length, .buffer (m.cps.assign s.cps.flatten).gen,
        s.cps.length, c⟩) := by
  have hw : (s.cps.headD []).length = c := by
    cases hs : s.cps with
    | nil => exact absurd hs hne
    | cons a l => exact h a (by rw [hs]; simp)
  unfold toCapiS
  simp only
  rw [hw, gridR_ok (g := ent s.cps) (fun i j hi hj => mget_ent (isMat_rect h) rfl rfl hi hj), ok_bind, ← eq_tab (isMat_rect h) (fun i _ j _ => rfl)]

theorem fromCapiS_ok {M : SurfaceBuffers K} {H : SurfaceC K} {s : NurbsSurface K} {c : ℕ} (h : Rectangular s c) (h1 : readN M.knotsU H.knotVectorU H.knotVectorCountU = ok s.knotsU)
    (h2 : readN M.knotsV H.knotVectorV H.knotVectorCountV = ok s.knotsV) (h3 : H.controlPoints = .buffer M.cps.gen) (h4 : M.cps.data = s.cps.flatten) (hr : H.rows = s.cps.length) (hcl : H.cols = c) :
    fromCapiS M H = ok { s with degreeU := H.degreeU, degreeV := H.degreeV } := by
  unfold fromCapiS
  rw [h1, ok_bind, h2, ok_bind, if_neg (by omega), hr, hcl, Int.toNat_natCast, Int.toNat_natCast, gridR_ok (g := ent s.cps), ok_bind, ← eq_tab (isMat_rect h) (fun i _ j _ => rfl)]
  intro i j hi hj
  unfold readAt
  rw [h3]
  simp only [if_true]
  refine vget_of (k := i * c + j) (by push_cast; rfl) ?_
  rw [h4, flatten_get _ h i j hi hj]
  have : j < (row s.cps i).length := by rw [(isMat_rect h).2 i hi]; exact hj
  simp [ent, nth, this]

/-- C165: what a function of the C interface returns stands for the surface that the function of the library made, for every rectangular net with at least one row, whatever the buffers held. -/
theorem C165_surface_return {s : NurbsSurface K} {c : ℕ} (h : Rectangular s c) (hne : s.cps ≠ []) (m : SurfaceBuffers K) :
    ∃ m' H, toCapiS m s = ok (m', H) ∧ fromCapiS m' H = ok s :=
  ⟨_, _, toCapiS_ok h hne, fromCapiS_ok (s := s) h (readN_assign _ _) (readN_assign _ _) rfl (assign_data _ _) rfl rfl⟩

/-- C165 (violated): once a second surface with as many knots and control points has been returned in the same thread (for example the next patch of a decomposition), the handle of the first one
stands for the second one. -/
theorem C165_surface_replaced_violated {a b : NurbsSurface K} {c : ℕ} (ha : Rectangular a c) (hb : Rectangular b c) (hne : a.cps ≠ []) (hl : b.cps.length = a.cps.length)
    (hu : b.knotsU.length = a.knotsU.length) (hv : b.knotsV.length = a.knotsV.length) (m : SurfaceBuffers K) :
    ∃ m1 m2 H H', toCapiS m a = ok (m1, H) ∧ toCapiS m1 b = ok (m2, H') ∧ fromCapiS m2 H = ok { b with degreeU := a.degreeU, degreeV := a.degreeV } := by
  have hne' : b.cps ≠ [] := by
    intro e
    rw [e] at hl
    exact hne (List.length_eq_zero_iff.mp hl.symm)
  have hfl : ∀ {s : NurbsSurface K}, Rectangular s c → s.cps.flatten.length = s.cps.length * c := by
    intro s hs
    rw [List.length_flatten, List.map_congr_left (g := fun _ => c) hs, List.map_const', List.sum_replicate, smul_eq_mul]
  refine ⟨_, _, _, _, toCapiS_ok ha hne, toCapiS_ok hb hne', ?_⟩
  have read : ∀ (B : Buffer K) (l l' : List K), l'.length = l.length → readN ((B.assign l).assign l') (.buffer (B.assign l).gen) l.length = ok l' := by
    intro B l l' e
    rw [readN_over, if_pos ⟨by rw [e]; exact assign_cap _ _, by omega⟩, ← e, List.take_length]
  refine fromCapiS_ok (s := b) hb (read _ _ _ hu) (read _ _ _ hv) ?_ (assign_data _ _) (by simp only; rw [hl]) rfl
  simp only
  rw [(assign_fits (b := m.cps.assign a.cps.flatten) (l := b.cps.flatten) ?_).1]
  rw [hfl hb, hl, ← hfl ha]
  exact assign_cap _ _

/-- The hypotheses are met: two squares, one above the other. -/
example (m : SurfaceBuffers ℚ) : ∃ m1 m2 H H', toCapiS m (⟨1, 1, [0, 0, 1, 1], [0, 0, 1, 1], [[⟨0, 0, 0, 1⟩, ⟨0, 1, 0, 1⟩], [⟨1, 0, 0, 1⟩, ⟨1, 1, 0, 1⟩]]⟩ : NurbsSurface ℚ) = ok (m1, H) ∧
    toCapiS m1 ⟨1, 1, [0, 0, 1, 1], [0, 0, 1, 1], [[⟨0, 0, 5, 1⟩, ⟨0, 1, 5, 1⟩], [⟨1, 0, 5, 1⟩, ⟨1, 1, 5, 1⟩]]⟩ = ok (m2, H') ∧
    fromCapiS m2 H = ok ⟨1, 1, [0, 0, 1, 1], [0, 0, 1, 1], [[⟨0, 0, 5, 1⟩, ⟨0, 1, 5, 1⟩], [⟨1, 0, 5, 1⟩, ⟨1, 1, 5, 1⟩]]⟩ :=
  C165_surface_replaced_violated (a := ⟨1, 1, [0, 0, 1, 1], [0, 0, 1, 1], [[⟨0, 0, 0, 1⟩, ⟨0, 1, 0, 1⟩], [⟨1, 0, 0, 1⟩, ⟨1, 1, 0, 1⟩]]⟩)
    (b := ⟨1, 1, [0, 0, 1, 1], [0, 0, 1, 1], [[⟨0, 0, 5, 1⟩, ⟨0, 1, 5, 1⟩], [⟨1, 0, 5, 1⟩, ⟨1, 1, 5, 1⟩]]⟩) (c := 2) (by simp [Rectangular]) (by simp [Rectangular]) (by simp) rfl rfl rfl m

end
end LNLib.Props
