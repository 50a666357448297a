import Verif.Lemmas.Unclamp
import Verif.Lemmas.SpanExists
import Verif.Props.Curve
import Verif.Props.KnotInsertion

/-!
# C100: unclamping (Geometry/Curve/NurbsCurve.cpp, `ToUnclampCurve`)
-/
set_option linter.unusedSectionVars false

namespace LNLib.Props
open LNLib Res Spec Finset

variable {K : Type} [Field K] [LinearOrder K] [IsStrictOrderedRing K]
variable {T : Type} [AddCommGroup T] [Module K T]

theorem tolPos (a b : K) : 0 < 1 / 1000000 * (1 + max |a| |b|) := by
  have := le_max_left |a| |b|
  have := abs_nonneg a
  apply mul_pos <;> [norm_num; linarith]

/-- The knots repeat with the period of the domain: shifting the index by the number of spans
shifts the knot by the length of the domain. -/
def PeriodicKnots (U : ℕ → K) (p n : ℕ) : Prop :=
  ∀ i, i ≤ 2 * p → U (i + (n - p + 1)) = U i + (U (n + 1) - U p)

theorem periodic_of_spacing {U : ℕ → K} {p n : ℕ} (hpn : p ≤ n)
    (h1 : ∀ t, t < p → U (p - t) - U (p - t - 1) = U (n - t + 1) - U (n - t))
    (h2 : ∀ t, t < p → U (n + t + 2) - U (n + t + 1) = U (p + t + 1) - U (p + t)) : PeriodicKnots U p n := by
  have down : ∀ t, t ≤ p → U (n - t + 1) = U (p - t) + (U (n + 1) - U p) := by
    intro t
    induction t with
    | zero => intro _; rw [Nat.sub_zero, Nat.sub_zero]; ring
    | succ t ih =>
      intro ht
      have a := ih (by omega)
      have b := h1 t (by omega)
      have e1 : n - (t + 1) + 1 = n - t := by omega
      have e2 : p - (t + 1) = p - t - 1 := by omega
      rw [e1, e2]; linear_combination a + b
  have up : ∀ t, t ≤ p → U (n + t + 1) = U (p + t) + (U (n + 1) - U p) := by
    intro t
    induction t with
    | zero => intro _; rw [Nat.add_zero, Nat.add_zero]; exact (add_sub_cancel _ _).symm
    | succ t ih =>
      intro ht
      have a := ih (by omega)
      have b := h2 t (by omega)
      have e1 : n + (t + 1) + 1 = n + t + 2 := by omega
      have e2 : p + (t + 1) = p + t + 1 := by omega
      rw [e1, e2]; linear_combination a + b
  intro i hi
  rcases Nat.le_total i p with h | h
  · have := down (p - i) (by omega)
    have e1 : n - (p - i) + 1 = i + (n - p + 1) := by omega
    have e2 : p - (p - i) = i := by omega
    rwa [e1, e2] at this
  · have := up (i - p) (by omega)
    have e1 : n + (i - p) + 1 = i + (n - p + 1) := by omega
    have e2 : p + (i - p) = i := by omega
    rwa [e1, e2] at this

/-- every span of the domain has the same polar form before and after the loop at the start -/
theorem start_pieces {U V : ℕ → K} {P Q : ℕ → T} {p n : ℕ} (hU : MonoTo U (n + p + 1))
    (hV : MonoTo V (n + p + 1)) (hk : ∀ x, p ≤ x → V x = U x) (hlt : U p < U (p + 1))
    (hnew : ∀ x, x + 1 ≤ p → Q x = pol U p P p (kms V (x + 1) p)) (hrest : ∀ x, p ≤ x + 1 → Q x = P x)
    {s : ℕ} (hp : p ≤ s) (hs : s ≤ n) (hl : U s < U (s + 1)) {m : Multiset K} (hm : m.card = p) : pol V p Q s m = pol U p P s m := by
  have hUs : Piece U p s := ⟨hp, fun i j hij hj => hU i j hij (by omega), hl⟩
  have hUp : Piece U p p := ⟨le_refl _, fun i j hij hj => hU i j hij (by omega), hlt⟩
  have hVs : Piece V p s := ⟨hp, fun i j hij hj => hV i j hij (by omega), by rw [hk _ hp, hk _ (by omega)]; exact hl⟩
  refine pol_unique hVs (pol_polar hUs) ?_ hm
  intro j h1 h2
  rcases Nat.lt_or_ge (j + 1) p with h | h
  · rw [hnew j (by omega)]
    have e : p = (p - j) + ((s - p) + (j + p - s)) := by omega
    have e1 : kms V (j + 1) p = kms U (p + 1) (s - p) + (kms V (j + 1) (p - j) + kms V (s + 1) (j + p - s)) := by
      conv_lhs => arg 3; rw [e]
      rw [kms_add, kms_add]
      have e2 : j + 1 + (p - j) = p + 1 := by omega
      have e3 : p + 1 + (s - p) = s + 1 := by omega
      rw [e2, e3, kms_congr (U := V) (V := U) (a := p + 1) (b := p + 1) (fun i _ => hk _ (by omega))]
      abel
    rw [e1]
    exact pol_span hUp hUs (by omega) (by simp; omega)
  · rw [hrest j h, kms_congr (U := V) (V := U) (a := j + 1) (b := j + 1) (fun i _ => hk _ (by omega)), pol_kms hUs h1 h2]

/-- every span of the domain has the same polar form before and after the loop at the end -/
theorem end_pieces {V W : ℕ → K} {Q R : ℕ → T} {p n : ℕ} (hV : MonoTo V (n + p + 1))
    (hW : MonoTo W (n + p + 1)) (hk : ∀ x, x ≤ n + 1 → W x = V x) (hlt : V n < V (n + 1))
    (hnew : ∀ j, j ≤ n → n + 1 ≤ j + p → R j = pol V p Q n (kms W (j + 1) p)) (hrest : ∀ j, j + p ≤ n + 1 → R j = Q j)
    {s : ℕ} (hp : p ≤ s) (hs : s ≤ n) (hl : V s < V (s + 1)) {m : Multiset K} (hm : m.card = p) : pol W p R s m = pol V p Q s m := by
  have hVs : Piece V p s := ⟨hp, fun i j hij hj => hV i j hij (by omega), hl⟩
  have hVn : Piece V p n := ⟨by omega, fun i j hij hj => hV i j hij (by omega), hlt⟩
  have hWs : Piece W p s := ⟨hp, fun i j hij hj => hW i j hij (by omega), by rw [hk _ (by omega), hk _ (by omega)]; exact hl⟩
  refine pol_unique hWs (pol_polar hVs) ?_ hm
  intro j h1 h2
  rcases Nat.lt_or_ge (n + 1) (j + p) with h | h
  · rw [hnew j (by omega) (by omega)]
    have e : p = (s - j) + ((n - s) + (j + p - n)) := by omega
    have e1 : kms W (j + 1) p = kms V (s + 1) (n - s) + (kms W (j + 1) (s - j) + kms W (n + 1) (j + p - n)) := by
      conv_lhs => arg 3; rw [e]
      rw [kms_add, kms_add]
      have e2 : j + 1 + (s - j) = s + 1 := by omega
      have e3 : s + 1 + (n - s) = n + 1 := by omega
      rw [e2, e3, kms_congr (U := W) (V := V) (a := s + 1) (b := s + 1) (fun i _ => hk _ (by omega))]
      abel
    rw [e1]
    exact (pol_span hVs hVn (by omega) (by simp; omega)).symm
  · rw [hrest j h, kms_congr (U := W) (V := V) (a := j + 1) (b := j + 1) (fun i _ => hk _ (by omega)), pol_kms hVs h1 h2]

/-- C100: unclamping a clamped curve succeeds and gives a valid curve over the same domain, with the
same knots inside the domain, knots that repeat periodically outside, and the same points. -/
theorem C100_unclamp {c : BsplineCurve K T} {p n : ℕ} (w : WellFormed c p n) (he : EndsSeparated (nth c.knots) p n)
    (hc : ClampedEnds (nth c.knots) p n) :
    ∃ c' : BsplineCurve K T, toUnclampCurve c = ok c' ∧ WellFormed c' p n ∧ EndsSeparated (nth c'.knots) p n ∧
      (∀ i, p ≤ i → i ≤ n + 1 → nth c'.knots i = nth c.knots i) ∧ PeriodicKnots (nth c'.knots) p n ∧
      ∀ x, nth c.knots p ≤ x → x ≤ nth c.knots (n + 1) →
        curvePoint (nth c'.knots) p n (nth c'.cps) x = curvePoint (nth c.knots) p n (nth c.cps) x := by
  have hpn := w.pn
  have hp := w.pos
  have hm := wf_monoTo w
  have hfirst : nth c.knots p < nth c.knots (p + 1) := by
    have := he.first; have := tolPos (nth c.knots p) (nth c.knots (p + 1)); linarith
  have hlast : nth c.knots n < nth c.knots (n + 1) := by
    have := he.last; have := tolPos (nth c.knots n) (nth c.knots (n + 1)); linarith
  obtain ⟨⟨U1, Q⟩, r1, s1⟩ := unclampStart_run hp hpn w.knots w.cps hm hfirst hc.first
  dsimp only at s1
  have hl1 := s1.lenU
  have en : (c.cps.length : ℤ) - 1 = n := by rw [w.cps]; push_cast; ring
  -- the first knot
  obtain ⟨V, hV⟩ : ∃ V, U1.set 0 (nth U1 1 - (nth U1 (n - p + 2) - nth U1 (n - p + 1))) = V := ⟨_, rfl⟩
  have hVl : V.length = n + p + 2 := by rw [← hV]; simpa using hl1
  have hVn : ∀ x, nth V x = if x = 0 then nth U1 1 - (nth U1 (n - p + 2) - nth U1 (n - p + 1)) else nth U1 x := by
    intro x; rw [← hV, nth_set (by omega)]
  have hVk : ∀ x, x ≠ 0 → nth V x = nth U1 x := fun x hx => by rw [hVn, if_neg hx]
  have hVkeep : ∀ x, p ≤ x → nth V x = nth c.knots x := fun x hx => by rw [hVk x (by omega), s1.keep x hx]
  have hVm : MonoTo (nth V) (n + p + 1) := by
    intro i j hij hj
    rcases Nat.eq_zero_or_pos i with e | e
    · subst e
      rcases Nat.eq_zero_or_pos j with e' | e'
      · subst e'; exact le_refl _
      · have a1 := s1.mono 1 j (by omega) (by omega) (by omega)
        have a2 := s1.mono (n - p + 1) (n - p + 2) (by omega) (by omega) (by omega)
        rw [hVn 0, if_pos rfl, hVk j (by omega)]; linarith
    · rw [hVk i (by omega), hVk j (by omega)]
      exact s1.mono i j (by omega) hij hj
  have hVspace : ∀ t, t < p → nth V (p - t) - nth V (p - t - 1) = nth V (n - t + 1) - nth V (n - t) := by
    intro t ht
    rcases Nat.lt_or_ge t (p - 1) with h | h
    · rw [hVk _ (by omega), hVk _ (by omega), hVk _ (by omega), hVk _ (by omega)]
      exact s1.space t h
    · have e : t = p - 1 := by omega
      have e1 : p - t - 1 = 0 := by omega
      have e2 : p - t = 1 := by omega
      have e3 : n - t + 1 = n - p + 2 := by omega
      have e4 : n - t = n - p + 1 := by omega
      rw [e1, e2, e3, e4, hVn 0, if_pos rfl, hVk _ (by omega), hVk _ (by omega), hVk _ (by omega)]
      ring
  have hnewQ : ∀ x, x + 1 ≤ p → nth Q x = pol (nth c.knots) p (nth c.cps) p (kms (nth V) (x + 1) p) := by
    intro x hx
    rw [s1.new x (by omega)]
    congr 1
    unfold startArgs
    have e : p = (p - 1 - x) + (1 + x) := by omega
    conv_rhs => arg 3; rw [e]
    rw [kms_add, kms_add]
    have e1 : x + 1 + (p - 1 - x) = p := by omega
    have e2 : p - (p - 1) = 1 := by omega
    have e3 : 1 + x = x + 1 := by omega
    rw [e1, e2, e3, kms_congr (U := nth V) (V := nth U1) (a := x + 1) (b := x + 1) (fun i _ => hVk _ (by omega)),
      kms_congr (U := nth V) (V := nth U1) (a := p) (b := p) (fun i _ => hVk _ (by omega)),
      kms_congr (U := nth V) (V := nth U1) (a := p + 1) (b := p + 1) (fun i _ => hVk _ (by omega))]
    have e4 : kms (nth U1) p 1 = Multiset.replicate 1 (nth U1 p) := kms_const (fun i hi => by
      have : i = 0 := by omega
      subst this; rfl)
    rw [e4]
    abel
  have hVlast : nth V n < nth V (n + 1) := by rw [hVkeep n hpn, hVkeep (n + 1) (by omega)]; exact hlast
  -- the loop at the end
  obtain ⟨⟨W1, R⟩, r2, s2⟩ := unclampEnd_run (V := V) (Q := Q) hp hpn hVl s1.lenP hVm hVlast (by
    rw [hVkeep _ (by omega), hVkeep _ (by omega), hc.last])
  dsimp only at s2
  have hl2 := s2.lenW
  obtain ⟨W, hW⟩ : ∃ W, W1.set (n + p + 1) (nth W1 (n + p) + (nth W1 (2 * p) - nth W1 (2 * p - 1))) = W := ⟨_, rfl⟩
  have hWl : W.length = n + p + 2 := by rw [← hW]; simpa using hl2
  have hWn : ∀ x, nth W x = if x = n + p + 1 then nth W1 (n + p) + (nth W1 (2 * p) - nth W1 (2 * p - 1)) else nth W1 x := by
    intro x; rw [← hW, nth_set (by omega)]
  have hWk : ∀ x, x ≠ n + p + 1 → nth W x = nth W1 x := fun x hx => by rw [hWn, if_neg hx]
  have hWkeep : ∀ x, x ≤ n + 1 → nth W x = nth V x := fun x hx => by rw [hWk x (by omega), s2.keep x hx]
  have hWm : MonoTo (nth W) (n + p + 1) := by
    intro i j hij hj
    rcases Nat.lt_or_ge j (n + p + 1) with e | e
    · rw [hWk i (by omega), hWk j (by omega)]
      exact s2.mono i j hij (by omega)
    · have ej : j = n + p + 1 := by omega
      subst ej
      rcases Nat.eq_or_lt_of_le hij with e' | e'
      · rw [e']
      · have a1 := s2.mono i (n + p) (by omega) (by omega)
        have a2 := s2.mono (2 * p - 1) (2 * p) (by omega) (by omega)
        rw [hWn (n + p + 1), if_pos rfl, hWk i (by omega)]; linarith
  have hWspace : ∀ t, t < p → nth W (n + t + 2) - nth W (n + t + 1) = nth W (p + t + 1) - nth W (p + t) := by
    intro t ht
    rcases Nat.lt_or_ge t (p - 1) with h | h
    · rw [hWk _ (by omega), hWk _ (by omega), hWk _ (by omega), hWk _ (by omega)]
      exact s2.space t h
    · have e1 : n + t + 2 = n + p + 1 := by omega
      have e2 : n + t + 1 = n + p := by omega
      have e3 : p + t + 1 = 2 * p := by omega
      have e4 : p + t = 2 * p - 1 := by omega
      rw [e1, e2, e3, e4, hWn (n + p + 1), if_pos rfl, hWk (n + p) (by omega), hWk _ (by omega), hWk _ (by omega)]
      ring
  have hnewR : ∀ j, j ≤ n → n + 1 ≤ j + p → nth R j = pol (nth V) p (nth Q) n (kms (nth W) (j + 1) p) := by
    intro j hj hj'
    have := s2.new (n - j) (by omega)
    have e0 : n - (n - j) = j := by omega
    rw [e0] at this
    rw [this]
    congr 1
    unfold endArgs
    have e : p = (n - j) + (1 + (p - 1 - (n - j))) := by omega
    conv_rhs => arg 3; rw [e]
    rw [kms_add, kms_add]
    have e1 : j + 1 + (n - j) = n + 1 := by omega
    have e2 : p - (p - 1) = 1 := by omega
    have e3 : n + 1 + 1 = n + 2 := by omega
    rw [e0, e1, e2, e3, kms_congr (U := nth W) (V := nth W1) (a := j + 1) (b := j + 1) (fun i _ => hWk _ (by omega)),
      kms_congr (U := nth W) (V := nth W1) (a := n + 1) (b := n + 1) (fun i _ => hWk _ (by omega)),
      kms_congr (U := nth W) (V := nth W1) (a := n + 2) (b := n + 2) (fun i _ => hWk _ (by omega))]
    have e4 : kms (nth W1) (n + 1) 1 = Multiset.replicate 1 (nth W1 (n + 1)) := kms_const (fun i hi => by
      have : i = 0 := by omega
      subst this; rfl)
    rw [e4]
    abel
  have hkeep : ∀ i, p ≤ i → i ≤ n + 1 → nth W i = nth c.knots i := fun i h1 h2 => by rw [hWkeep i h2, hVkeep i h1]
  refine ⟨⟨p, W, R⟩, ?_, ?_, ?_, hkeep, ?_, ?_⟩
  · unfold toUnclampCurve
    dsimp only
    rw [en, w.degree, r1, ok_bind]
    dsimp only
    rw [vget_nth (i := 1) (k := 1) rfl (by omega), ok_bind, vget_nth (k := n - p + 2) (by omega) (by omega), ok_bind,
      vget_nth (k := n - p + 1) (by omega) (by omega), ok_bind, vset_of (i := 0) (k := 0) rfl (by omega), ok_bind, hV, r2, ok_bind]
    dsimp only
    rw [vget_nth (k := n + p) (by omega) (by omega), ok_bind, vget_nth (k := 2 * p) (by omega) (by omega), ok_bind,
      vget_nth (k := 2 * p - 1) (by omega) (by omega), ok_bind, vset_of (k := n + p + 1) (by omega) (by omega), ok_bind, hW]
  · exact ⟨rfl, w.pos, w.le7, s2.lenR, w.pn, hWl, fun i j hij hj => hWm i j hij (by dsimp only at hj; omega)⟩
  · dsimp only
    refine ⟨?_, ?_⟩
    · rw [hkeep p (by omega) (by omega), hkeep (p + 1) (by omega) (by omega)]; exact he.first
    · rw [hkeep n (by omega) (by omega), hkeep (n + 1) (by omega) (by omega)]; exact he.last
  · refine periodic_of_spacing hpn ?_ hWspace
    intro t ht
    dsimp only
    rw [hWkeep _ (by omega), hWkeep _ (by omega), hWkeep _ (by omega), hWkeep _ (by omega)]
    exact hVspace t ht
  · intro x hx0 hx1
    dsimp only
    have hlt : nth c.knots p < nth c.knots (n + 1) := lt_of_lt_of_le hfirst (hm _ _ (by omega) (by omega))
    obtain ⟨s, hs⟩ := exists_isSpan hpn hlt hx0 hx1
    obtain ⟨q1, q2, q3, q4, q5⟩ := hs
    have hsW : IsSpan (nth W) p n x s := by
      refine ⟨q1, q2, ?_, ?_, ?_⟩
      · rw [hkeep s q1 (by omega), hkeep (s + 1) (by omega) (by omega)]; exact q3
      · rw [hkeep s q1 (by omega)]; exact q4
      · rw [hkeep (s + 1) (by omega) (by omega), hkeep (n + 1) (by omega) (by omega)]; exact q5
    have pU : Piece (nth c.knots) p s := ⟨q1, fun i j hij hj => hm i j hij (by omega), q3⟩
    have pW : Piece (nth W) p s := ⟨q1, fun i j hij hj => hWm i j hij (by omega), hsW.2.2.1⟩
    have lV : nth V s < nth V (s + 1) := by rw [hVkeep s q1, hVkeep (s + 1) (by omega)]; exact q3
    rw [curvePoint_span hWm (le_refl _) hsW, pol_diag pW, curvePoint_span hm (le_refl _) ⟨q1, q2, q3, q4, q5⟩, pol_diag pU]
    rw [end_pieces hVm hWm hWkeep hVlast hnewR (fun j hj => s2.rest j (by omega)) q1 q2 lV (by simp),
      start_pieces hm hVm hVkeep hfirst hnewQ (fun j hj => s1.rest j (by omega)) q1 q2 q3 (by simp)]

/-- C100, through the evaluation functions of the library. -/
theorem C100_unclamp_eval {c : BsplineCurve K T} {p n : ℕ} (w : WellFormed c p n) (he : EndsSeparated (nth c.knots) p n)
    (hc : ClampedEnds (nth c.knots) p n) :
    ∃ c' : BsplineCurve K T, toUnclampCurve c = ok c' ∧
      ∀ x, nth c.knots p ≤ x → x ≤ nth c.knots (n + 1) → c'.pointOnCurve x = c.pointOnCurve x := by
  obtain ⟨c', h1, h2, h3, h4, _, h5⟩ := C100_unclamp w he hc
  have hpn := w.pn
  refine ⟨c', h1, fun x hx0 hx1 => ?_⟩
  rw [C05_eval w he hx0 hx1, C05_eval h2 h3 (by rw [h4 p (le_refl _) (by omega)]; exact hx0)
    (by rw [h4 (n + 1) (by omega) (le_refl _)]; exact hx1), h5 x hx0 hx1]

/-- C100, for rational curves. -/
theorem C100_unclamp_rational {c : NurbsCurve K} {p n : ℕ} (w : WellFormed c p n) (he : EndsSeparated (nth c.knots) p n)
    (hc : ClampedEnds (nth c.knots) p n) :
    ∃ c' : NurbsCurve K, toUnclampCurve c = ok c' ∧
      ∀ x, nth c.knots p ≤ x → x ≤ nth c.knots (n + 1) → NurbsCurve.pointOnCurve c' x = NurbsCurve.pointOnCurve c x := by
  obtain ⟨c', h1, h2⟩ := C100_unclamp_eval w he hc
  exact ⟨c', h1, fun x hx0 hx1 => by unfold NurbsCurve.pointOnCurve; rw [h2 x hx0 hx1]⟩

/-- C100: the result is clamped at neither end. -/
theorem C100_not_clamped {c c' : BsplineCurve K T} {p n : ℕ} (w : WellFormed c p n) (he : EndsSeparated (nth c.knots) p n)
    (hc : ClampedEnds (nth c.knots) p n) (h : toUnclampCurve c = ok c') :
    nth c'.knots 0 < nth c'.knots p ∧ nth c'.knots (n + 1) < nth c'.knots (n + p + 1) := by
  obtain ⟨c'', h1, h2, h3, h4, h5, _⟩ := C100_unclamp w he hc
  rw [h1] at h
  cases h
  have hpn := w.pn
  have hp := w.pos
  have hm := wf_monoTo h2
  have f1 : nth c'.knots p < nth c'.knots (p + 1) := by
    have := h3.first; have := tolPos (nth c'.knots p) (nth c'.knots (p + 1)); linarith
  have f2 : nth c'.knots n < nth c'.knots (n + 1) := by
    have := h3.last; have := tolPos (nth c'.knots n) (nth c'.knots (n + 1)); linarith
  have a := h5 0 (by omega)
  have b := h5 (2 * p) (by omega)
  have e1 : 2 * p + (n - p + 1) = n + p + 1 := by omega
  rw [e1] at b
  rw [Nat.zero_add] at a
  have m1 := hm (n - p + 1) n (by omega) (by omega)
  have m2 := hm (p + 1) (2 * p) (by omega) (by omega)
  constructor <;> linarith

/-- A cubic curve with interior knots 1 and 2. -/
def exClamped : BsplineCurve ℚ ℚ := { degree := 3, knots := [0, 0, 0, 0, 1, 2, 3, 3, 3, 3], cps := [1, 5, 2, -3, 4, 7] }

/-- The hypotheses of C100 are met, and the result is not the input. -/
example : WellFormed exClamped 3 5 ∧ EndsSeparated (nth exClamped.knots) 3 5 ∧ ClampedEnds (nth exClamped.knots) 3 5 ∧
    toUnclampCurve exClamped
      = ok { degree := 3, knots := [-3, -2, -1, 0, 1, 2, 3, 4, 5, 6], cps := [-22, 13/2, 2, -3, 15/2, 15] } :=
  ⟨{ degree := rfl, pos := by decide, le7 := by decide, cps := rfl, pn := by decide, knots := rfl,
      sorted := isValidKnotVector_nth.mp (by decide +kernel) }, ⟨by decide +kernel, by decide +kernel⟩,
    ⟨by decide +kernel, by decide +kernel⟩, by decide +kernel⟩

/-! ## C102: the clamp test -/

theorem count_filter (U : List K) (x : K) : U.count x = ((range U.length).filter (fun i => nth U i = x)).card := by
  have h := card_filter_nth U (fun y => decide (y = x))
  rw [List.count]
  simp only [decide_eq_true_eq] at h
  rw [h]
  apply List.countP_congr
  intro y _
  simp [beq_iff_eq]

/-- the number of copies of the first knot -/
theorem count_first {U : List K} {p n : ℕ} (hl : U.length = n + p + 2) (hm : MonoTo (nth U) (n + p + 1)) (hpn : p ≤ n) (hlt : nth U p < nth U (p + 1)) :
    U.count (nth U 0) = p + 1 ↔ nth U 0 = nth U p := by
  rw [count_filter, hl]
  constructor
  · intro h
    by_contra hne
    have hlt0 : nth U 0 < nth U p := lt_of_le_of_ne (hm _ _ (by omega) (by omega)) hne
    have hsub : ((range (n + p + 2)).filter (fun i => nth U i = nth U 0)) ⊆ range p := by
      intro i hi
      rw [mem_filter, mem_range] at hi
      rw [mem_range]
      by_contra hc
      have := hm p i (by omega) (by omega)
      rw [hi.2] at this
      exact absurd this (not_le.mpr hlt0)
    have := card_le_card hsub
    rw [card_range] at this
    omega
  · intro h
    have : ((range (n + p + 2)).filter (fun i => nth U i = nth U 0)) = range (p + 1) := by
      ext i
      rw [mem_filter, mem_range, mem_range]
      constructor
      · rintro ⟨h1, h2⟩
        by_contra hc
        have := hm (p + 1) i (by omega) (by omega)
        rw [h2, h] at this
        exact absurd this (not_le.mpr hlt)
      · intro hi
        refine ⟨by omega, le_antisymm ?_ (hm _ _ (by omega) (by omega))⟩
        rw [h]; exact hm _ _ (by omega) (by omega)
    rw [this, card_range]

/-- the number of copies of the last knot -/
theorem count_last {U : List K} {p n : ℕ} (hl : U.length = n + p + 2) (hm : MonoTo (nth U) (n + p + 1)) (hlt : nth U n < nth U (n + 1)) :
    U.count (nth U (n + p + 1)) = p + 1 ↔ nth U (n + 1) = nth U (n + p + 1) := by
  rw [count_filter, hl]
  constructor
  · intro h
    by_contra hne
    have hlt0 : nth U (n + 1) < nth U (n + p + 1) := lt_of_le_of_ne (hm _ _ (by omega) (by omega)) hne
    have hsub : ((range (n + p + 2)).filter (fun i => nth U i = nth U (n + p + 1))) ⊆ Ico (n + 2) (n + p + 2) := by
      intro i hi
      rw [mem_filter, mem_range] at hi
      rw [mem_Ico]
      refine ⟨?_, hi.1⟩
      by_contra hc
      have := hm i (n + 1) (by omega) (by omega)
      rw [hi.2] at this
      exact absurd this (not_le.mpr hlt0)
    have := card_le_card hsub
    rw [Nat.card_Ico] at this
    omega
  · intro h
    have : ((range (n + p + 2)).filter (fun i => nth U i = nth U (n + p + 1))) = Ico (n + 1) (n + p + 2) := by
      ext i
      rw [mem_filter, mem_range, mem_Ico]
      constructor
      · rintro ⟨h1, h2⟩
        refine ⟨?_, h1⟩
        by_contra hc
        have := hm i n (by omega) (by omega)
        rw [h2, ← h] at this
        exact absurd this (not_le.mpr hlt)
      · rintro ⟨h1, h2⟩
        refine ⟨h2, le_antisymm (hm _ _ (by omega) (by omega)) ?_⟩
        rw [← h]; exact hm _ _ (by omega) (by omega)
    rw [this, Nat.card_Ico]; omega

/-- C102: for every valid curve whose end knots are separated from the other knots by more than the tolerance, `IsClamp` answers whether
the first and the last `degree + 1` knots are equal. -/
theorem C102_isClamp {c : BsplineCurve K T} {p n : ℕ} (w : WellFormed c p n) (he : EndsSeparated (nth c.knots) p n)
    (h0 : KnotSeparated c.knots (nth c.knots 0)) (h1 : KnotSeparated c.knots (nth c.knots (n + p + 1))) :
    ∃ b, isClamp c = ok b ∧ (b = true ↔ ClampedEnds (nth c.knots) p n) := by
  have hl := w.knots
  have hpn := w.pn
  have hm := wf_monoTo w
  have f1 : nth c.knots p < nth c.knots (p + 1) := by
    have := he.first; have := tolPos (nth c.knots p) (nth c.knots (p + 1)); linarith
  have f2 : nth c.knots n < nth c.knots (n + 1) := by
    have := he.last; have := tolPos (nth c.knots n) (nth c.knots (n + 1)); linarith
  have hne : c.knots ≠ [] := by intro h; rw [h] at hl; simp at hl
  have hpw := (isValidKnotVector_iff c.knots).mp (isValidKnotVector_nth.mpr w.sorted)
  have el : c.knots.length - 1 = n + p + 1 := by omega
  have hrun : isClamp c = ok (decide (((c.knots.count (nth c.knots 0) : ℕ) : ℤ) = (p : ℤ) + 1 ∧
      ((c.knots.count (nth c.knots (n + p + 1)) : ℕ) : ℤ) = (p : ℤ) + 1)) := by
    unfold isClamp
    rw [vget_nth (i := 0) (k := 0) rfl (by omega), ok_bind, vget_nth (k := n + p + 1) (by omega) (by omega), ok_bind,
      C17_multiplicity_exact hne hpw (le_refl _) (by rw [el]; exact hm _ _ (by omega) (by omega)) h0, ok_bind,
      C17_multiplicity_exact hne hpw (hm _ _ (by omega) (by omega)) (by rw [el]) h1, ok_bind, w.degree]
  refine ⟨_, hrun, ?_⟩
  · rw [decide_eq_true_eq]
    have a := count_first hl hm hpn f1
    have b := count_last hl hm f2
    constructor
    · rintro ⟨g1, g2⟩
      exact ⟨a.mp (by exact_mod_cast g1), b.mp (by exact_mod_cast g2)⟩
    · rintro ⟨g1, g2⟩
      exact ⟨by exact_mod_cast a.mpr g1, by exact_mod_cast b.mpr g2⟩

/-- C102: the separation is needed: a clamped curve with an interior knot closer than the tolerance to its start is reported as not clamped. -/
theorem C102_close_knots_violated : ∃ c : BsplineCurve ℚ ℚ, WellFormed c 2 3 ∧ ClampedEnds (nth c.knots) 2 3 ∧ isClamp c = ok false :=
  ⟨{ degree := 2, knots := [0, 0, 0, 1/2000000, 1, 1, 1], cps := [0, 1, 4, 5] },
   { degree := rfl, pos := by decide, le7 := by decide, cps := rfl, pn := by decide, knots := rfl,
      sorted := isValidKnotVector_nth.mp (by decide +kernel) }, ⟨by decide +kernel, by decide +kernel⟩, by decide +kernel⟩

/-- C102: the hypotheses are met by a clamped and by an unclamped curve, with opposite answers. -/
example : isClamp exClamped = ok true ∧ KnotSeparated exClamped.knots 0 ∧ KnotSeparated exClamped.knots 3 ∧
    isClamp ({ degree := 2, knots := [0, 1, 2, 3, 4, 5], cps := [0, 1, 4] } : BsplineCurve ℚ ℚ) = ok false :=
  ⟨by decide +kernel, by unfold KnotSeparated; decide +kernel, by unfold KnotSeparated; decide +kernel, by decide +kernel⟩

/-! ## C103: clamping -/

/-- C103 is false: `ToClampCurve` rejects every clamped curve (with separated end knots), because it asks `InsertKnot` for zero insertions. -/
theorem C103_clamped_violated {c : BsplineCurve K T} {p n : ℕ} (w : WellFormed c p n) (he : EndsSeparated (nth c.knots) p n)
    (hc : ClampedEnds (nth c.knots) p n) (h0 : KnotSeparated c.knots (nth c.knots 0)) (h1 : KnotSeparated c.knots (nth c.knots (n + p + 1))) :
    toClampCurve c = invalidArg := by
  have hl := w.knots
  have hpn := w.pn
  have hm := wf_monoTo w
  have f1 : nth c.knots p < nth c.knots (p + 1) := by
    have := he.first; have := tolPos (nth c.knots p) (nth c.knots (p + 1)); linarith
  have hne : c.knots ≠ [] := by intro h; rw [h] at hl; simp at hl
  have hpw := (isValidKnotVector_iff c.knots).mp (isValidKnotVector_nth.mpr w.sorted)
  have el : c.knots.length - 1 = n + p + 1 := by omega
  have a := (count_first hl hm hpn f1).mpr hc.first
  unfold toClampCurve
  dsimp only
  rw [w.degree, vget_nth (k := p) rfl (by omega), ok_bind, vget_nth (k := n + 1) (by omega) (by omega), ok_bind, ← hc.first,
    C17_multiplicity_exact hne hpw (le_refl _) (by rw [el]; exact hm _ _ (by omega) (by omega)) h0, ok_bind, hc.last,
    C17_multiplicity_exact hne hpw (hm _ _ (by omega) (by omega)) (by rw [el]) h1, ok_bind, a]
  rw [C12_times_rejected _ _ _ (by push_cast; omega)]
  rfl

/-- C103 is false also for unclamped curves: clamping the periodic form of the cubic `exClamped` gives back its knots, but not its last
control point, so the end point moves from 7 to 4. -/
theorem C103_end_violated : ∃ c c' : BsplineCurve ℚ ℚ, toUnclampCurve exClamped = ok c ∧ WellFormed c 3 5 ∧ EndsSeparated (nth c.knots) 3 5 ∧
    toClampCurve c = ok c' ∧ c.pointOnCurve 3 = ok 7 ∧ c'.pointOnCurve 3 = ok 4 :=
  ⟨{ degree := 3, knots := [-3, -2, -1, 0, 1, 2, 3, 4, 5, 6], cps := [-22, 13/2, 2, -3, 15/2, 15] },
   { degree := 3, knots := [0, 0, 0, 0, 1, 2, 3, 3, 3, 3], cps := [1, 5, 2, -3, 4, 4] }, by decide +kernel,
   { degree := rfl, pos := by decide, le7 := by decide, cps := rfl, pn := by decide, knots := rfl,
      sorted := isValidKnotVector_nth.mp (by decide +kernel) }, ⟨by decide +kernel, by decide +kernel⟩,
   by decide +kernel, by decide +kernel, by decide +kernel⟩

end LNLib.Props
