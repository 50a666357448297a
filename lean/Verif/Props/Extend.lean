import Verif.Lemmas.Extend
import Verif.Props.Periodic
import Verif.Props.Merge
import Mathlib.Algebra.Polynomial.Taylor

/-!
# C127: extension of a curve
-/
set_option linter.unusedSectionVars false

namespace LNLib.Props
open LNLib Res Spec Finset

/-- two consecutive values are further apart than the comparison tolerance -/
def GapAfter (a b : ℝ) : Prop := 1 / 1000000 * (1 + max |a| |b|) < b - a

theorem GapAfter.lt {a b : ℝ} (h : GapAfter a b) : a < b := by
  unfold GapAfter at h
  have : (0 : ℝ) ≤ 1 / 1000000 * (1 + max |a| |b|) := by positivity
  linarith

theorem ofXYZ_raw {q : XYZW ℝ} (h : q.w ≠ 0) : XYZW.ofXYZ (q.w⁻¹ • q.raw) q.w = q := by
  ext <;> simp [XYZW.ofXYZ, XYZW.raw] <;> field_simp

theorem append_loop {α : Type} [Zero α] {l m : List α} {p : ℕ} (hm : m.length = p + 1) :
    forI 1 ((p : ℤ) + 1) l (fun i acc => vget m i >>= fun q => ok (acc ++ [q])) = ok (l ++ m.tail) := by
  have := Runs.forN (m := 1) (n := p + 1) (a := 1) (b := (p : ℤ) + 1) (s := l) (Inv := fun i acc => acc = l ++ (m.take i).tail)
    (body := fun i acc => vget m i >>= fun q => ok (acc ++ [q])) rfl (by push_cast; rfl) (by omega) (by
      cases m with
      | nil => simp
      | cons a m => simp) (by
      intro i acc h1 h2 h3
      rw [vget_nth (k := i) rfl (by omega), ok_bind]
      refine Runs.ok ?_
      rw [h3, List.append_assoc]
      congr 1
      cases m with
      | nil => simp at hm
      | cons a m =>
        cases i with
        | zero => omega
        | succ i =>
          have hi : i < m.length := by simp at hm; omega
          simp only [List.take_succ_cons, List.tail_cons, nth_cons_succ]
          rw [List.take_succ_eq_append_getElem hi, nth_eq_getElem hi])
  obtain ⟨r, e, h⟩ := this
  rw [e, h, List.take_of_length_le (by omega)]

theorem cons_loop {α : Type} [Zero α] {l m : List α} {p : ℕ} (hm : m.length = p + 1) :
    forI 1 ((p : ℤ) + 1) l (fun i acc => vget m i >>= fun q => ok (q :: acc)) = ok (m.tail.reverse ++ l) := by
  have := Runs.forN (m := 1) (n := p + 1) (a := 1) (b := (p : ℤ) + 1) (s := l) (Inv := fun i acc => acc = (m.take i).tail.reverse ++ l)
    (body := fun i acc => vget m i >>= fun q => ok (q :: acc)) rfl (by push_cast; rfl) (by omega) (by
      cases m with
      | nil => simp
      | cons a m => simp) (by
      intro i acc h1 h2 h3
      rw [vget_nth (k := i) rfl (by omega), ok_bind]
      refine Runs.ok ?_
      rw [h3]
      cases m with
      | nil => simp at hm
      | cons a m =>
        cases i with
        | zero => omega
        | succ i =>
          have hi : i < m.length := by simp at hm; omega
          simp only [List.take_succ_cons, List.tail_cons, nth_cons_succ]
          rw [List.take_succ_eq_append_getElem hi, nth_eq_getElem hi, List.reverse_append]
          rfl)
  obtain ⟨r, e, h⟩ := this
  rw [e, h, List.take_of_length_le (by omega)]

theorem nth_tail' {α : Type} [Zero α] {l : List α} (i : ℕ) : nth l.tail i = nth l (i + 1) := by
  cases l with
  | nil => rfl
  | cons a l => rfl

theorem nth_dropLast' {α : Type} [Zero α] {l : List α} {i : ℕ} (h : i + 1 < l.length) : nth l.dropLast i = nth l i := by
  rw [nth_eq_getElem (by simp; omega), nth_eq_getElem (by omega), List.getElem_dropLast]

theorem nth_reverse' {α : Type} [Zero α] {l : List α} {i : ℕ} (h : i < l.length) : nth l.reverse i = nth l (l.length - 1 - i) := by
  rw [nth_eq_getElem (by simp; omega), nth_eq_getElem (by omega), List.getElem_reverse]

/-- the natural extension at the end -/
theorem extendEnd_run {c : NurbsCurve ℝ} {p n : ℕ} (w : WellFormed c p n) (he : EndsSeparated (nth c.knots) p n) (hc : ClampedEnds (nth c.knots) p n)
    {co : List (XYZ ℝ)} (hco : co.length = p + 1) (hw : (nth c.cps n).w ≠ 0) (h0 : nth co 0 = (nth c.cps n).w⁻¹ • (nth c.cps n).raw) {L : ℝ}
    (hL : GapAfter (nth c.knots (n + 1)) (nth c.knots (n + 1) + L)) :
    ∃ M, extendEnd c co (nth c.knots (n + 1)) L = ok M ∧ WellFormed M p (n + p) ∧ EndsSeparated (nth M.knots) p (n + p) ∧ ClampedEnds (nth M.knots) p (n + p) ∧
      nth M.knots p = nth c.knots p ∧ nth M.knots (n + p + 1) = nth c.knots (n + 1) + L ∧
      (∀ t, nth c.knots p ≤ t → t < nth c.knots (n + 1) → curvePoint (nth M.knots) p (n + p) (nth M.cps) t = curvePoint (nth c.knots) p n (nth c.cps) t) ∧
      (∀ t, nth c.knots (n + 1) ≤ t → t ≤ nth c.knots (n + 1) + L → curvePoint (nth M.knots) p (n + p) (nth M.cps) t =
        XYZW.ofXYZ (∑ k ∈ range (p + 1), (t - nth c.knots (n + 1)) ^ k • nth co k) (nth c.cps n).w) := by
  have hl := w.knots
  have hcp := w.cps
  have hpn := w.pn
  have hpos := w.pos
  have hm := wf_monoTo w
  have hT := clamped_last w hc
  have hT1 := hT (n + 1) le_rfl (by omega)
  generalize hTT : nth c.knots (n + 1) = T at *
  have hLpos : 0 < L := by have := hL.lt; linarith
  obtain ⟨l, e, hlen, hn⟩ := extendPoints_run hco L (nth c.cps n).w
  have hn0 : nth l 0 = nth c.cps n := by
    rw [hn 0 (by omega), Finset.sum_eq_single 0]
    · rw [h0, pow_zero, pbG, if_pos le_rfl]
      simp only [Nat.choose_self, Nat.choose_zero_right, Nat.cast_one, div_one, one_mul, one_smul]
      exact ofXYZ_raw hw
    · intro b _ hb
      rw [pbG, if_neg (by omega), mul_zero, zero_smul]
    · intro h; exact absurd (mem_range.mpr (by omega)) h
  set V := c.knots.dropLast ++ List.replicate (p + 1) (T + L) with hV
  have hVl : V.length = n + p + p + 2 := by rw [hV]; simp; omega
  have v0 : ∀ i, i ≤ n + p → nth V i = nth c.knots i := by
    intro i hi
    rw [hV, nth_append_left (by simp; omega), nth_dropLast' (by omega)]
  have v1 : ∀ i, n + p < i → i ≤ n + p + p + 1 → nth V i = T + L := by
    intro i h1 h2
    rw [hV, nth_append_right (by simp; omega), nth_replicate (by simp; omega)]
  have vm : MonoTo (nth V) (n + p + p + 1) := by
    intro i j hij hj
    by_cases h1 : j ≤ n + p
    · rw [v0 i (by omega), v0 j h1]; exact hm i j hij (by omega)
    · rw [v1 j (by omega) hj]
      by_cases h2 : i ≤ n + p
      · rw [v0 i h2]
        have := hm i (n + p + 1) (by omega) (by omega)
        rw [← hT1] at this
        linarith
      · rw [v1 i (by omega) (by omega)]
  have q0 : ∀ i, i ≤ n → nth (c.cps ++ l.tail) i = nth c.cps i := by
    intro i hi; rw [nth_append_left (by omega)]
  have q1 : ∀ r, r ≤ p → nth (c.cps ++ l.tail) (n + r) = nth l r := by
    intro r hr
    cases r with
    | zero => rw [Nat.add_zero, q0 n le_rfl, hn0]
    | succ r => rw [nth_append_right (by omega), nth_tail', hcp, show n + (r + 1) - (n + 1) + 1 = r + 1 by omega]
  have hvT : ∀ i, n + 1 ≤ i → i ≤ n + p → nth V i = T := by
    intro i h1 h2; rw [v0 i h2, hT i h1 (by omega), hT1]
  refine ⟨⟨p, V, c.cps ++ l.tail⟩, ?_, ⟨rfl, hpos, w.le7, ?_, by omega, hVl, ?_⟩, ?_, ?_, v0 p (by omega), ?_, ?_, ?_⟩
  · unfold extendEnd
    rw [vget_nth (k := n) (by rw [hcp]; push_cast; ring) (by omega), ok_bind, w.degree, e, ok_bind, append_loop hlen, ok_bind, if_pos (by rw [hl]; push_cast; omega)]
    rfl
  · simp [hcp, hlen]; omega
  · intro i j hij hj
    exact vm i j hij (by dsimp only at hj; omega)
  · constructor
    · dsimp only
      rw [v0 p (by omega), v0 (p + 1) (by omega)]; exact he.first
    · dsimp only
      rw [hvT (n + p) (by omega) le_rfl, v1 (n + p + 1) (by omega) (by omega)]; exact hL
  · constructor
    · dsimp only
      rw [v0 0 (by omega), v0 p (by omega)]; exact hc.first
    · dsimp only
      rw [v1 (n + p + 1) (by omega) (by omega), v1 (n + p + p + 1) (by omega) (by omega)]
  · exact v1 (n + p + 1) (by omega) (by omega)
  · intro t ht0 ht1
    obtain ⟨s, -, hs⟩ := span_isSpan w he ht0 (by rw [hTT]; exact ht1.le)
    have hs2 := hs.2.1
    have hs1 := hs.1
    have hsV : IsSpan (nth V) p (n + p) t s := by
      refine ⟨hs.1, by omega, ?_, ?_, ?_⟩
      · rw [v0 s (by omega), v0 (s + 1) (by omega)]; exact hs.2.2.1
      · rw [v0 s (by omega)]; exact hs.2.2.2.1
      · rw [v0 (s + 1) (by omega)]
        rcases hs.2.2.2.2 with h | ⟨h1, h2⟩
        · exact Or.inl h
        · exfalso; rw [h2, hTT] at h1; linarith
    dsimp only
    rw [curvePoint_span vm le_rfl hsV, curvePoint_span hm le_rfl hs]
    apply Finset.sum_congr rfl
    intro r hr
    rw [mem_range] at hr
    rw [q0 _ (by omega)]
    congr 1
    have := Nspan_local (U := nth c.knots) (V := nth V) (s := s) (p := p) (d := 0) (fun j h1 h2 => by rw [Nat.add_zero, v0 j (by omega)]) t p le_rfl (s - p + r)
    rwa [Nat.add_zero, Nat.add_zero] at this
  · intro t ht0 ht1
    have hsV : IsSpan (nth V) p (n + p) t (n + p) := by
      refine ⟨by omega, le_rfl, ?_, ?_, ?_⟩
      · rw [hvT (n + p) (by omega) le_rfl, v1 (n + p + 1) (by omega) (by omega)]; linarith
      · rw [hvT (n + p) (by omega) le_rfl]; exact ht0
      · rw [v1 (n + p + 1) (by omega) (by omega)]
        rcases lt_or_eq_of_le ht1 with h | h
        · exact Or.inl h
        · exact Or.inr ⟨h, rfl⟩
    dsimp only
    rw [curvePoint_span vm le_rfl hsV, show t - T = L * ((t - T) / L) by field_simp, ← taylor_bezier]
    apply Finset.sum_congr rfl
    intro r hr
    rw [mem_range] at hr
    rw [show n + p - p + r = n + r by omega, q1 r (by omega), hn r (by omega)]
    congr 1
    have h1 := Nspan_local (U := fun i => if i ≤ p then T else T + L) (V := nth V) (s := p) (p := p) (d := n) (fun j h1 h2 => by
      by_cases hj : j ≤ p
      · rw [if_pos hj, hvT (j + n) (by omega) (by omega)]
      · rw [if_neg hj, v1 (j + n) (by omega) (by omega)]) t p le_rfl r
    have h2 := Nspan_bezier (U := fun i => if i ≤ p then T else T + L) (p := p) (a := T) (b := T + L) (t := t) (by linarith)
      (fun i hi => if_pos hi) (fun i hi _ => if_neg (by omega)) p le_rfl r (by omega)
    rw [show p - p + r = r by omega] at h2
    rw [show n + p = p + n by omega, show n + r = r + n by omega, h1, h2, add_sub_cancel_left]

/-- the natural extension at the start -/
theorem extendStart_run {c : NurbsCurve ℝ} {p n : ℕ} (w : WellFormed c p n) (he : EndsSeparated (nth c.knots) p n) (hc : ClampedEnds (nth c.knots) p n)
    {co : List (XYZ ℝ)} (hco : co.length = p + 1) (hw : (nth c.cps 0).w ≠ 0) (h0 : nth co 0 = (nth c.cps 0).w⁻¹ • (nth c.cps 0).raw) {L : ℝ}
    (hL : GapAfter (nth c.knots p - L) (nth c.knots p)) :
    ∃ M, extendStart c co (nth c.knots p) L = ok M ∧ WellFormed M p (n + p) ∧ EndsSeparated (nth M.knots) p (n + p) ∧ ClampedEnds (nth M.knots) p (n + p) ∧
      nth M.knots p = nth c.knots p - L ∧ nth M.knots (n + p + 1) = nth c.knots (n + 1) ∧
      (∀ t, nth c.knots p ≤ t → t ≤ nth c.knots (n + 1) → curvePoint (nth M.knots) p (n + p) (nth M.cps) t = curvePoint (nth c.knots) p n (nth c.cps) t) ∧
      (∀ t, nth c.knots p - L ≤ t → t < nth c.knots p → curvePoint (nth M.knots) p (n + p) (nth M.cps) t =
        XYZW.ofXYZ (∑ k ∈ range (p + 1), (t - nth c.knots p) ^ k • nth co k) (nth c.cps 0).w) := by
  have hl := w.knots
  have hcp := w.cps
  have hpn := w.pn
  have hpos := w.pos
  have hm := wf_monoTo w
  have hT := clamped_first w hc
  have hT1 := hT p le_rfl
  generalize hTT : nth c.knots p = T at *
  have hLpos : 0 < L := by have := hL.lt; linarith
  obtain ⟨l, e, hlen, hn⟩ := extendPoints_run hco (-L) (nth c.cps 0).w
  have hn0 : nth l 0 = nth c.cps 0 := by
    rw [hn 0 (by omega), Finset.sum_eq_single 0]
    · rw [h0, pow_zero, pbG, if_pos le_rfl]
      simp only [Nat.choose_self, Nat.choose_zero_right, Nat.cast_one, div_one, one_mul, one_smul]
      exact ofXYZ_raw hw
    · intro b _ hb
      rw [pbG, if_neg (by omega), mul_zero, zero_smul]
    · intro h; exact absurd (mem_range.mpr (by omega)) h
  set V := List.replicate (p + 1) (T - L) ++ c.knots.tail with hV
  have hVl : V.length = n + p + p + 2 := by rw [hV]; simp; omega
  have v0 : ∀ i, i ≤ p → nth V i = T - L := by
    intro i hi
    rw [hV, nth_append_left (by simp; omega), nth_replicate (by omega)]
  have v1 : ∀ i, 1 ≤ i → nth V (i + p) = nth c.knots i := by
    intro i h1
    rw [hV, nth_append_right (by simp; omega), nth_tail', List.length_replicate, show i + p - (p + 1) + 1 = i by omega]
  have vm : MonoTo (nth V) (n + p + p + 1) := by
    intro i j hij hj
    by_cases h1 : i ≤ p
    · rw [v0 i h1]
      by_cases h2 : j ≤ p
      · rw [v0 j h2]
      · rw [show j = j - p + p by omega, v1 (j - p) (by omega)]
        have := hm 0 (j - p) (by omega) (by omega)
        rw [← hT1] at this
        linarith
    · rw [show j = j - p + p by omega, v1 (j - p) (by omega), show i = i - p + p by omega, v1 (i - p) (by omega)]
      exact hm _ _ (by omega) (by omega)
  have hrl : l.tail.reverse.length = p := by simp; omega
  have q0 : ∀ i, i ≤ n → nth (l.tail.reverse ++ c.cps) (i + p) = nth c.cps i := by
    intro i hi; rw [nth_append_right (by omega), hrl, show i + p - p = i by omega]
  have q1 : ∀ r, r ≤ p → nth (l.tail.reverse ++ c.cps) r = nth l (p - r) := by
    intro r hr
    by_cases h : r = p
    · subst h
      have := q0 0 (by omega)
      rw [Nat.zero_add] at this
      rw [this, Nat.sub_self, hn0]
    · rw [nth_append_left (by omega), nth_reverse' (by simp; omega), nth_tail', List.length_tail, hlen, show p + 1 - 1 - 1 - r + 1 = p - r by omega]
  have hvT : ∀ i, p + 1 ≤ i → i ≤ p + p → nth V i = T := by
    intro i h1 h2
    rw [show i = i - p + p by omega, v1 (i - p) (by omega), hT (i - p) (by omega), hT1]
  refine ⟨⟨p, V, l.tail.reverse ++ c.cps⟩, ?_, ⟨rfl, hpos, w.le7, ?_, by omega, hVl, ?_⟩, ?_, ?_, v0 p le_rfl, ?_, ?_, ?_⟩
  · unfold extendStart
    rw [vget_nth (i := 0) (k := 0) rfl (by omega), ok_bind, w.degree, e, ok_bind, cons_loop hlen, ok_bind, if_pos (by rw [hl]; push_cast; omega)]
    rfl
  · simp [hcp, hlen]; omega
  · intro i j hij hj
    exact vm i j hij (by dsimp only at hj; omega)
  · constructor
    · dsimp only
      rw [v0 p le_rfl, hvT (p + 1) le_rfl (by omega)]; exact hL
    · dsimp only
      rw [v1 n (by omega), show n + p + 1 = n + 1 + p by omega, v1 (n + 1) (by omega)]; exact he.last
  · constructor
    · dsimp only
      rw [v0 0 (by omega), v0 p le_rfl]
    · dsimp only
      rw [show n + p + 1 = n + 1 + p by omega, v1 (n + 1) (by omega), show n + p + p + 1 = n + p + 1 + p by omega, v1 (n + p + 1) (by omega)]
      exact hc.last
  · dsimp only
    rw [show n + p + 1 = n + 1 + p by omega, v1 (n + 1) (by omega)]
  · intro t ht0 ht1
    obtain ⟨s, -, hs⟩ := span_isSpan w he (by rw [hTT]; exact ht0) ht1
    have hs2 := hs.2.1
    have hs1 := hs.1
    have hsV : IsSpan (nth V) p (n + p) t (s + p) := by
      refine ⟨by omega, by omega, ?_, ?_, ?_⟩
      · rw [v1 s (by omega), show s + p + 1 = s + 1 + p by omega, v1 (s + 1) (by omega)]; exact hs.2.2.1
      · rw [v1 s (by omega)]; exact hs.2.2.2.1
      · rw [show s + p + 1 = s + 1 + p by omega, v1 (s + 1) (by omega), show n + p + 1 = n + 1 + p by omega, v1 (n + 1) (by omega)]
        exact hs.2.2.2.2
    dsimp only
    rw [curvePoint_span vm le_rfl hsV, curvePoint_span hm le_rfl hs]
    apply Finset.sum_congr rfl
    intro r hr
    rw [mem_range] at hr
    rw [show s + p - p + r = s - p + r + p by omega, q0 _ (by omega)]
    congr 1
    exact Nspan_local (U := nth c.knots) (V := nth V) (s := s) (p := p) (d := p) (fun j h1 h2 => v1 j (by omega)) t p le_rfl (s - p + r)
  · intro t ht0 ht1
    have hsV : IsSpan (nth V) p (n + p) t p := by
      refine ⟨le_rfl, by omega, ?_, ?_, ?_⟩
      · rw [hvT (p + 1) le_rfl (by omega), v0 p le_rfl]; linarith
      · rw [v0 p le_rfl]; exact ht0
      · rw [hvT (p + 1) le_rfl (by omega)]
        exact Or.inl ht1
    dsimp only
    rw [curvePoint_span vm le_rfl hsV, show t - T = -L * (1 - (t - (T - L)) / L) by field_simp; ring, ← taylor_bezier, ← Finset.sum_range_reflect]
    apply Finset.sum_congr rfl
    intro r hr
    rw [mem_range] at hr
    rw [show p + 1 - 1 - r = p - r by omega, show p - p + (p - r) = p - r by omega, q1 (p - r) (by omega), show p - (p - r) = r by omega, hn r (by omega)]
    congr 1
    have h1 := Nspan_local (U := fun i => if i ≤ p then T - L else T) (V := nth V) (s := p) (p := p) (d := 0) (fun j h1 h2 => by
      by_cases hj : j ≤ p
      · rw [if_pos hj, Nat.add_zero, v0 j hj]
      · rw [if_neg hj, Nat.add_zero, hvT j (by omega) (by omega)]) t p le_rfl (p - r)
    have h2 := Nspan_bezier (U := fun i => if i ≤ p then T - L else T) (p := p) (a := T - L) (b := T) (t := t) (by linarith)
      (fun i hi => if_pos hi) (fun i hi _ => if_neg (by omega)) p le_rfl (p - r) (by omega)
    rw [show p - p + (p - r) = p - r by omega] at h2
    rw [Nat.add_zero, Nat.add_zero] at h1
    rw [h1, h2, sub_sub_cancel, bernsteinP_symm (by omega), show p - (p - r) = r by omega]

/-! ## The two ends of a clamped curve -/

theorem clamped_end_point {c : NurbsCurve ℝ} {p n : ℕ} (w : WellFormed c p n) (he : EndsSeparated (nth c.knots) p n) (hc : ClampedEnds (nth c.knots) p n) :
    curvePoint (nth c.knots) p n (nth c.cps) (nth c.knots (n + 1)) = nth c.cps n := by
  have h := C09_end w he (clamped_last w hc)
  rw [← hc.last, C05_eval w he (wf_monoTo w _ _ (by have := w.pn; omega) (by have := w.pos; omega)) le_rfl] at h
  exact Res.ok.inj h

theorem clamped_start_point {c : NurbsCurve ℝ} {p n : ℕ} (w : WellFormed c p n) (he : EndsSeparated (nth c.knots) p n) (hc : ClampedEnds (nth c.knots) p n) :
    curvePoint (nth c.knots) p n (nth c.cps) (nth c.knots p) = nth c.cps 0 := by
  have h := C09_start w he (clamped_first w hc)
  rw [hc.first, C05_eval w he le_rfl (wf_monoTo w _ _ (by have := w.pn; omega) (by have := w.pos; omega))] at h
  exact Res.ok.inj h

theorem isSpan_end {c : NurbsCurve ℝ} {p n : ℕ} (w : WellFormed c p n) (he : EndsSeparated (nth c.knots) p n) : IsSpan (nth c.knots) p n (nth c.knots (n + 1)) n := by
  have : GapAfter (nth c.knots n) (nth c.knots (n + 1)) := he.last
  exact ⟨w.pn, le_rfl, this.lt, this.lt.le, Or.inr ⟨rfl, rfl⟩⟩

theorem isSpan_start {c : NurbsCurve ℝ} {p n : ℕ} (w : WellFormed c p n) (he : EndsSeparated (nth c.knots) p n) : IsSpan (nth c.knots) p n (nth c.knots p) p := by
  have : GapAfter (nth c.knots p) (nth c.knots (p + 1)) := he.first
  exact ⟨le_rfl, w.pn, this.lt, le_rfl, Or.inl this.lt⟩

/-- derivatives at an end where the curve passes through the control point `q` -/
theorem end_derivatives {c : NurbsCurve ℝ} {p n s d : ℕ} {t : ℝ} {q : XYZW ℝ} (w : WellFormed c p n) (he : EndsSeparated (nth c.knots) p n)
    (h0 : nth c.knots p ≤ t) (h1 : t ≤ nth c.knots (n + 1)) (hs : IsSpan (nth c.knots) p n t s)
    (hq : curvePoint (nth c.knots) p n (nth c.cps) t = q) (hw : q.w ≠ 0) (hd : 0 < d) :
    ∃ l, NurbsCurve.rationalDerivatives c d t = ok l ∧ l.length = d + 1 ∧ nth l 0 = q.w⁻¹ • q.raw ∧
      ∀ k ≤ d, ∑ i ∈ range (k + 1), ((k.choose i : ℝ) * (curveDeriv (nth c.knots) s p n (nth c.cps) i t).w) • nth l (k - i)
        = (curveDeriv (nth c.knots) s p n (nth c.cps) k t).raw := by
  have hwf : weightFn (nth c.knots) p n (nth c.cps) t = q.w := by
    rw [← hq]; unfold weightFn curvePoint; rw [XYZW.sum_w]
  obtain ⟨l, e, hl, hk⟩ := C20_leibniz w he h0 h1 hs hd (by rw [hwf]; exact hw)
  refine ⟨l, e, hl, ?_, hk⟩
  have hz := hk 0 (by omega)
  have hD : curveDeriv (nth c.knots) s p n (nth c.cps) 0 t = q := by
    rw [curveDeriv_window hs.1 hs.2.1, ← hq, curvePoint_span (wf_monoTo w) le_rfl hs]
    simp only [dN_zero]
  rw [Finset.sum_range_one, hD] at hz
  simp only [Nat.choose_self, Nat.cast_one, one_mul, Nat.sub_zero] at hz
  rw [← hz, inv_smul_smul₀ hw]

/-- the length is more than the tolerance -/
def PosLength (d : ℝ) : Prop := 1 / 1000000 * (1 + d) < d

theorem PosLength.pos {d : ℝ} (h : PosLength d) : 0 < d := by
  unfold PosLength at h; linarith

theorem PosLength.gate {d : ℝ} (h : PosLength d) : isLessThanOrEqual d 0 = false := by
  have := h.pos
  unfold PosLength at h
  rw [isLessThanOrEqual_eq_not]
  unfold isLessThan tolOf doubleEps
  rw [abs_zero, sub_zero, max_eq_right (abs_nonneg d), abs_of_pos this, decide_eq_true (by linarith)]
  rfl

theorem extendAt_end {c : NurbsCurve ℝ} {p n : ℕ} (w : WellFormed c p n) (hc : ClampedEnds (nth c.knots) p n) :
    extendAt c false = ok (nth c.knots (n + 1)) := by
  have hl := w.knots
  unfold extendAt
  rw [if_neg (by simp), vget_nth (k := n + p + 1) (by rw [hl]; push_cast; ring) (by omega), hc.last]

theorem extendAt_start {c : NurbsCurve ℝ} {p n : ℕ} (w : WellFormed c p n) (hc : ClampedEnds (nth c.knots) p n) :
    extendAt c true = ok (nth c.knots p) := by
  have hl := w.knots
  unfold extendAt
  rw [if_pos rfl, vget_nth (i := 0) (k := 0) rfl (by omega), hc.first]

/-- C127: nothing happens for a length that is not positive. -/
theorem C127_no_length (c : NurbsCurve ℝ) {d : ℝ} (h : d ≤ 0) (isFromStart : Bool) (type : ExtensionType) : extendCurve c d isFromStart type = ok c := by
  unfold extendCurve
  rw [if_pos]
  rw [isLessThanOrEqual_eq_not, isLessThan]
  have := tolOf_pos (a := 0) (b := d) (doubleEps_pos (K := ℝ))
  rw [decide_eq_false (by linarith)]
  rfl

/-- C127: nothing happens to a curve that counts as periodic. -/
theorem C127_periodic {c : NurbsCurve ℝ} (h : isPeriodic c = ok true) (d : ℝ) (isFromStart : Bool) (type : ExtensionType) :
    extendCurve c d isFromStart type = ok c := by
  unfold extendCurve
  split
  · rfl
  · rw [h, ok_bind, if_pos rfl]

theorem taylor_sum {co ders : List (XYZ ℝ)} {p : ℕ} (h : ∀ k, k ≤ p → nth co k = ((k.factorial : ℝ))⁻¹ • nth ders k) (x : ℝ) :
    ∑ k ∈ range (p + 1), x ^ k • nth co k = ∑ k ∈ range (p + 1), (x ^ k / (k.factorial : ℝ)) • nth ders k := by
  apply Finset.sum_congr rfl
  intro k hk
  rw [mem_range] at hk
  rw [h k (by omega), smul_smul, div_eq_mul_inv]

/-- the natural extension at the end, with the result of the Newton iteration exposed -/
theorem natural_end_core {c : NurbsCurve ℝ} {p n : ℕ} {d : ℝ} (w : WellFormed c p n) (he : EndsSeparated (nth c.knots) p n)
    (hc : ClampedEnds (nth c.knots) p n) (k0 : KnotSeparated c.knots (nth c.knots 0)) (k1 : KnotSeparated c.knots (nth c.knots (n + p + 1)))
    (hd : PosLength d) (hw : NotTiny (nth c.cps n).w) :
    ∃ ders co L, NurbsCurve.rationalDerivatives c p (nth c.knots (n + 1)) = ok ders ∧ taylorCoeffs ders p = ok co ∧ extendParam co p d 1 = ok L ∧ 0 ≤ L ∧
      (GapAfter (nth c.knots (n + 1)) (nth c.knots (n + 1) + L) → ∃ M, extendCurve c d false .natural = ok M ∧
        WellFormed M p (n + p) ∧ nth M.knots p = nth c.knots p ∧ nth M.knots (n + p + 1) = nth c.knots (n + 1) + L ∧
        (∀ t, nth c.knots p ≤ t → t ≤ nth c.knots (n + 1) → NurbsCurve.pointOnCurve M t = NurbsCurve.pointOnCurve c t) ∧
        (∀ t, nth c.knots (n + 1) ≤ t → t ≤ nth c.knots (n + 1) + L → NurbsCurve.pointOnCurve M t =
          ok (∑ k ∈ range (p + 1), ((t - nth c.knots (n + 1)) ^ k / (k.factorial : ℝ)) • nth ders k))) := by
  have hm := wf_monoTo w
  have hpn := w.pn
  have hpos := w.pos
  have hpp : nth c.knots p ≤ nth c.knots (n + 1) := hm _ _ (by omega) (by omega)
  have hq := clamped_end_point w he hc
  obtain ⟨l1, e1, hl1, -, -⟩ := end_derivatives w he hpp le_rfl (isSpan_end w he) hq hw.ne one_pos
  obtain ⟨ders, e2, hl2, hd0, -⟩ := end_derivatives w he hpp le_rfl (isSpan_end w he) hq hw.ne hpos
  obtain ⟨co, e3, hl3, hco⟩ := taylorCoeffs_run hl2
  obtain ⟨L, e4, hL0⟩ := extendParam_run hpos hl3 d 1
  refine ⟨ders, co, L, e2, e3, e4, hL0, ?_⟩
  intro hL
  have hT1 := clamped_last w hc (n + 1) le_rfl (by omega)
  have hco0 : nth co 0 = (nth c.cps n).w⁻¹ • (nth c.cps n).raw := by rw [hco 0 (by omega), hd0]; simp
  obtain ⟨M, eM, wM, heM, hcM, hMp, hMT, hM1, hM2⟩ := extendEnd_run w he hc hl3 hw.ne hco0 hL
  have hLpos : 0 < L := by have := hL.lt; linarith
  have hproj : ∀ v, (XYZW.ofXYZ v (nth c.cps n).w).toXYZ = v := by
    intro v
    rw [XYZW.toXYZ_eq (by exact hw)]
    have := hw.ne
    ext <;> simp [XYZW.ofXYZ, XYZW.raw] <;> field_simp
  have hnew : ∀ t, nth c.knots (n + 1) ≤ t → t ≤ nth c.knots (n + 1) + L → NurbsCurve.pointOnCurve M t =
          ok (∑ k ∈ range (p + 1), ((t - nth c.knots (n + 1)) ^ k / (k.factorial : ℝ)) • nth ders k) := by
    intro t h0 h1
    unfold NurbsCurve.pointOnCurve
    rw [C05_eval wM heM (by rw [hMp]; linarith) (by rw [hMT]; exact h1), ok_bind, hM2 t h0 h1, hproj, taylor_sum hco]
  refine ⟨M, ?_, wM, hMp, hMT, ?_, hnew⟩
  · unfold extendCurve
    have e1' : NurbsCurve.rationalDerivatives c 1 (nth c.knots (n + 1)) = ok l1 := e1
    rw [hd.gate, if_neg (by simp), C126_clamped w he k0 k1 hc, ok_bind, if_neg (by simp), extendAt_end w hc, ok_bind, e1', ok_bind,
      vget_nth (i := 0) (k := 0) rfl (by omega), ok_bind, vget_nth (i := 1) (k := 1) rfl (by omega), ok_bind]
    dsimp only
    unfold naturalExtend
    rw [w.degree, e2, ok_bind, e3, ok_bind, if_neg (by simp), e4, ok_bind, if_neg (by simp), eM]
  · intro t h0 h1
    rcases lt_or_eq_of_le h1 with h | h
    · unfold NurbsCurve.pointOnCurve
      rw [C05_eval wM heM (by rw [hMp]; exact h0) (by rw [hMT]; linarith), C05_eval w he h0 h1, hM1 t h0 h]
    · rw [hnew t h.ge (by rw [h]; linarith), h, sub_self, Finset.sum_eq_single 0]
      · unfold NurbsCurve.pointOnCurve
        rw [C05_eval w he hpp le_rfl, ok_bind, hq, XYZW.toXYZ_eq hw, hd0]
        simp
      · intro k _ hk
        rw [zero_pow hk, zero_div, zero_smul]
      · intro h'; exact absurd (mem_range.mpr (by omega)) h'

/-- C127 (natural extension at the end): the extended curve has the points of the given curve on its domain `[a, T]`, and on
`[T, T + L]` those of the Taylor polynomial, of the degree of the curve, of the rational curve at `T`. Here `L` is the parameter
length the Newton iteration arrives at. -/
theorem C127_natural_end_partial {c : NurbsCurve ℝ} {p n : ℕ} {d : ℝ} (w : WellFormed c p n) (he : EndsSeparated (nth c.knots) p n)
    (hc : ClampedEnds (nth c.knots) p n) (k0 : KnotSeparated c.knots (nth c.knots 0)) (k1 : KnotSeparated c.knots (nth c.knots (n + p + 1)))
    (hd : PosLength d) (hw : NotTiny (nth c.cps n).w) :
    ∃ ders L, NurbsCurve.rationalDerivatives c p (nth c.knots (n + 1)) = ok ders ∧ 0 ≤ L ∧
      (GapAfter (nth c.knots (n + 1)) (nth c.knots (n + 1) + L) → ∃ M, extendCurve c d false .natural = ok M ∧
        WellFormed M p (n + p) ∧ nth M.knots p = nth c.knots p ∧ nth M.knots (n + p + 1) = nth c.knots (n + 1) + L ∧
        (∀ t, nth c.knots p ≤ t → t ≤ nth c.knots (n + 1) → NurbsCurve.pointOnCurve M t = NurbsCurve.pointOnCurve c t) ∧
        (∀ t, nth c.knots (n + 1) ≤ t → t ≤ nth c.knots (n + 1) + L → NurbsCurve.pointOnCurve M t =
          ok (∑ k ∈ range (p + 1), ((t - nth c.knots (n + 1)) ^ k / (k.factorial : ℝ)) • nth ders k))) := by
  obtain ⟨ders, co, L, e2, -, -, hL0, h⟩ := natural_end_core w he hc k0 k1 hd hw
  exact ⟨ders, L, e2, hL0, h⟩

/-- C127 (natural extension at the start). -/
theorem C127_natural_start_partial {c : NurbsCurve ℝ} {p n : ℕ} {d : ℝ} (w : WellFormed c p n) (he : EndsSeparated (nth c.knots) p n)
    (hc : ClampedEnds (nth c.knots) p n) (k0 : KnotSeparated c.knots (nth c.knots 0)) (k1 : KnotSeparated c.knots (nth c.knots (n + p + 1)))
    (hd : PosLength d) (hw : NotTiny (nth c.cps 0).w) :
    ∃ ders L, NurbsCurve.rationalDerivatives c p (nth c.knots p) = ok ders ∧ 0 ≤ L ∧
      (GapAfter (nth c.knots p - L) (nth c.knots p) → ∃ M, extendCurve c d true .natural = ok M ∧
        WellFormed M p (n + p) ∧ nth M.knots p = nth c.knots p - L ∧ nth M.knots (n + p + 1) = nth c.knots (n + 1) ∧
        (∀ t, nth c.knots p ≤ t → t ≤ nth c.knots (n + 1) → NurbsCurve.pointOnCurve M t = NurbsCurve.pointOnCurve c t) ∧
        (∀ t, nth c.knots p - L ≤ t → t ≤ nth c.knots p → NurbsCurve.pointOnCurve M t =
          ok (∑ k ∈ range (p + 1), ((t - nth c.knots p) ^ k / (k.factorial : ℝ)) • nth ders k))) := by
  have hm := wf_monoTo w
  have hpn := w.pn
  have hpos := w.pos
  have hpp : nth c.knots p ≤ nth c.knots (n + 1) := hm _ _ (by omega) (by omega)
  have hq := clamped_start_point w he hc
  obtain ⟨l1, e1, hl1, -, -⟩ := end_derivatives w he le_rfl hpp (isSpan_start w he) hq hw.ne one_pos
  obtain ⟨ders, e2, hl2, hd0, -⟩ := end_derivatives w he le_rfl hpp (isSpan_start w he) hq hw.ne hpos
  obtain ⟨co, e3, hl3, hco⟩ := taylorCoeffs_run hl2
  obtain ⟨L, e4, hL0⟩ := extendParam_run hpos hl3 d (-1)
  refine ⟨ders, L, e2, hL0, ?_⟩
  intro hL
  have hco0 : nth co 0 = (nth c.cps 0).w⁻¹ • (nth c.cps 0).raw := by rw [hco 0 (by omega), hd0]; simp
  obtain ⟨M, eM, wM, heM, hcM, hMp, hMT, hM1, hM2⟩ := extendStart_run w he hc hl3 hw.ne hco0 hL
  have hLpos : 0 < L := by have := hL.lt; linarith
  have hproj : ∀ v, (XYZW.ofXYZ v (nth c.cps 0).w).toXYZ = v := by
    intro v
    rw [XYZW.toXYZ_eq (by exact hw)]
    have := hw.ne
    ext <;> simp [XYZW.ofXYZ, XYZW.raw] <;> field_simp
  have hold : ∀ t, nth c.knots p ≤ t → t ≤ nth c.knots (n + 1) → NurbsCurve.pointOnCurve M t = NurbsCurve.pointOnCurve c t := by
    intro t h0 h1
    unfold NurbsCurve.pointOnCurve
    rw [C05_eval wM heM (by rw [hMp]; linarith) (by rw [hMT]; exact h1), C05_eval w he h0 h1, hM1 t h0 h1]
  refine ⟨M, ?_, wM, hMp, hMT, hold, ?_⟩
  · unfold extendCurve
    have e1' : NurbsCurve.rationalDerivatives c 1 (nth c.knots p) = ok l1 := e1
    rw [hd.gate, if_neg (by simp), C126_clamped w he k0 k1 hc, ok_bind, if_neg (by simp), extendAt_start w hc, ok_bind, e1', ok_bind,
      vget_nth (i := 0) (k := 0) rfl (by omega), ok_bind, vget_nth (i := 1) (k := 1) rfl (by omega), ok_bind]
    dsimp only
    unfold naturalExtend
    rw [w.degree, e2, ok_bind, e3, ok_bind, if_pos rfl, e4, ok_bind, if_pos rfl, eM]
  · intro t h0 h1
    rcases lt_or_eq_of_le h1 with h | h
    · unfold NurbsCurve.pointOnCurve
      rw [C05_eval wM heM (by rw [hMp]; exact h0) (by rw [hMT]; linarith), ok_bind, hM2 t h0 h, hproj, taylor_sum hco]
    · rw [hold t h.ge (by rw [h]; exact hpp), h, sub_self, Finset.sum_eq_single 0]
      · unfold NurbsCurve.pointOnCurve
        rw [C05_eval w he le_rfl hpp, ok_bind, hq, XYZW.toXYZ_eq hw, hd0]
        simp
      · intro k _ hk
        rw [zero_pow hk, zero_div, zero_smul]
      · intro h'; exact absurd (mem_range.mpr (by omega)) h'

/-! ## Curves of constant weight -/

theorem taylor_poly {f : Polynomial ℝ} {p : ℕ} (hf : f.natDegree ≤ p) (a t : ℝ) :
    ∑ k ∈ range (p + 1), (t - a) ^ k / (k.factorial : ℝ) * ((Polynomial.derivative^[k]) f).eval a = f.eval t := by
  have h := Polynomial.taylor_eval a f (t - a)
  rw [sub_add_cancel] at h
  rw [← h, Polynomial.eval_eq_sum_range' (n := p + 1) (by rw [Polynomial.natDegree_taylor]; omega)]
  apply Finset.sum_congr rfl
  intro k _
  have hne : (k.factorial : ℝ) ≠ 0 := by exact_mod_cast k.factorial_ne_zero
  rw [Polynomial.taylor_coeff, ← Polynomial.factorial_smul_hasseDeriv]
  rw [LinearMap.smul_apply, Polynomial.eval_smul, nsmul_eq_mul]
  field_simp

/-- when all weights are the same, the Taylor polynomial of the curve is the polynomial of its span -/
theorem taylor_piece {c : NurbsCurve ℝ} {p n s : ℕ} {a W : ℝ} (w : WellFormed c p n) (hs : IsSpan (nth c.knots) p n a s) (hW : W ≠ 0)
    (hw : ∀ i, i ≤ n → (nth c.cps i).w = W) {ders : List (XYZ ℝ)}
    (hl : ∀ k ≤ p, ∑ i ∈ range (k + 1), ((k.choose i : ℝ) * (curveDeriv (nth c.knots) s p n (nth c.cps) i a).w) • nth ders (k - i)
        = (curveDeriv (nth c.knots) s p n (nth c.cps) k a).raw) (t : ℝ) :
    ∑ k ∈ range (p + 1), ((t - a) ^ k / (k.factorial : ℝ)) • nth ders k =
      W⁻¹ • ∑ i ∈ range (n + 1), Nspan (nth c.knots) s p i t • (nth c.cps i).raw := by
  have hm := wf_monoTo w
  have hsum : ∀ k, ∑ i ∈ range (n + 1), dN (nth c.knots) s p i k a = if k = 0 then 1 else 0 := by
    intro k
    have h1 := sum_window (T := ℝ) hs.1 hs.2.1 (f := fun i => dN (nth c.knots) s p i k a) (fun i hi => dN_out _ s p i k a hi)
    rw [h1]
    split
    · next h =>
      subst h
      have h2 := congrArg (Polynomial.eval a) (NspanP_sum hm hs.2.2.1 hs.1 (by have := hs.2.1; omega))
      rw [Polynomial.eval_finsetSum, Polynomial.eval_one] at h2
      exact h2
    · exact sum_dN hm hs.2.2.1 hs.1 (by have := hs.2.1; omega) (by omega)
  have hwk : ∀ k, (curveDeriv (nth c.knots) s p n (nth c.cps) k a).w = if k = 0 then W else 0 := by
    intro k
    unfold curveDeriv
    rw [XYZW.sum_w]
    have : ∀ i ∈ range (n + 1), dN (nth c.knots) s p i k a * (nth c.cps i).w = dN (nth c.knots) s p i k a * W := by
      intro i hi
      rw [hw i (by have := mem_range.mp hi; omega)]
    rw [Finset.sum_congr rfl this, ← Finset.sum_mul, hsum k]
    split <;> simp
  have hder : ∀ k ≤ p, nth ders k = W⁻¹ • (curveDeriv (nth c.knots) s p n (nth c.cps) k a).raw := by
    intro k hk
    have h := hl k hk
    rw [Finset.sum_eq_single 0] at h
    · rw [hwk 0, if_pos rfl] at h
      simp only [Nat.choose_zero_right, Nat.cast_one, one_mul, Nat.sub_zero] at h
      rw [← h, inv_smul_smul₀ hW]
    · intro i _ hi
      rw [hwk i, if_neg hi, mul_zero, zero_smul]
    · intro h'; exact absurd (mem_range.mpr (by omega)) h'
  have hraw : ∀ k, (curveDeriv (nth c.knots) s p n (nth c.cps) k a).raw = ∑ i ∈ range (n + 1), dN (nth c.knots) s p i k a • (nth c.cps i).raw := by
    intro k
    unfold curveDeriv
    rw [XYZW.sum_raw]
  have h1 : ∀ k ∈ range (p + 1), ((t - a) ^ k / (k.factorial : ℝ)) • nth ders k =
      W⁻¹ • ∑ i ∈ range (n + 1), ((t - a) ^ k / (k.factorial : ℝ) * dN (nth c.knots) s p i k a) • (nth c.cps i).raw := by
    intro k hk
    rw [hder k (by have := mem_range.mp hk; omega), hraw, smul_comm, Finset.smul_sum]
    simp only [smul_smul]
  rw [Finset.sum_congr rfl h1, ← Finset.smul_sum, Finset.sum_comm]
  congr 1
  apply Finset.sum_congr rfl
  intro i _
  rw [← Finset.sum_smul]
  congr 1
  rw [← NspanP_eval]
  exact taylor_poly (NspanP_natDegree _ s p i) a t

/-- C127 (natural extension at the end, constant weights): the extension keeps the equation of the curve; on `[T, T + L]` the result
has the points of the last polynomial piece of the given curve, continued beyond its end. -/
theorem C127_equation_end_partial {c : NurbsCurve ℝ} {p n : ℕ} {d W : ℝ} (w : WellFormed c p n) (he : EndsSeparated (nth c.knots) p n)
    (hc : ClampedEnds (nth c.knots) p n) (k0 : KnotSeparated c.knots (nth c.knots 0)) (k1 : KnotSeparated c.knots (nth c.knots (n + p + 1)))
    (hd : PosLength d) (hW : NotTiny W) (hw : ∀ i, i ≤ n → (nth c.cps i).w = W) :
    ∃ L, 0 ≤ L ∧ (GapAfter (nth c.knots (n + 1)) (nth c.knots (n + 1) + L) → ∃ M, extendCurve c d false .natural = ok M ∧
        WellFormed M p (n + p) ∧ nth M.knots p = nth c.knots p ∧ nth M.knots (n + p + 1) = nth c.knots (n + 1) + L ∧
        (∀ t, nth c.knots p ≤ t → t ≤ nth c.knots (n + 1) → NurbsCurve.pointOnCurve M t = NurbsCurve.pointOnCurve c t) ∧
        (∀ t, nth c.knots (n + 1) ≤ t → t ≤ nth c.knots (n + 1) + L → NurbsCurve.pointOnCurve M t =
          ok (W⁻¹ • ∑ i ∈ range (n + 1), Nspan (nth c.knots) n p i t • (nth c.cps i).raw))) := by
  have hpn := w.pn
  have hpos := w.pos
  have hpp : nth c.knots p ≤ nth c.knots (n + 1) := wf_monoTo w _ _ (by omega) (by omega)
  have hWn : (nth c.cps n).w = W := hw n le_rfl
  obtain ⟨ders, L, e, hL, h⟩ := C127_natural_end_partial w he hc k0 k1 hd (by rw [hWn]; exact hW)
  obtain ⟨l, e', -, -, hk⟩ := end_derivatives w he hpp le_rfl (isSpan_end w he) (clamped_end_point w he hc) (by rw [hWn]; exact hW.ne) hpos
  rw [e] at e'
  have el := Res.ok.inj e'
  subst el
  refine ⟨L, hL, fun g => ?_⟩
  obtain ⟨M, eM, wM, h1, h2, h3, h4⟩ := h g
  refine ⟨M, eM, wM, h1, h2, h3, fun t t0 t1 => ?_⟩
  rw [h4 t t0 t1, taylor_piece w (isSpan_end w he) hW.ne hw hk]

/-- C127 (natural extension at the start, constant weights). -/
theorem C127_equation_start_partial {c : NurbsCurve ℝ} {p n : ℕ} {d W : ℝ} (w : WellFormed c p n) (he : EndsSeparated (nth c.knots) p n)
    (hc : ClampedEnds (nth c.knots) p n) (k0 : KnotSeparated c.knots (nth c.knots 0)) (k1 : KnotSeparated c.knots (nth c.knots (n + p + 1)))
    (hd : PosLength d) (hW : NotTiny W) (hw : ∀ i, i ≤ n → (nth c.cps i).w = W) :
    ∃ L, 0 ≤ L ∧ (GapAfter (nth c.knots p - L) (nth c.knots p) → ∃ M, extendCurve c d true .natural = ok M ∧
        WellFormed M p (n + p) ∧ nth M.knots p = nth c.knots p - L ∧ nth M.knots (n + p + 1) = nth c.knots (n + 1) ∧
        (∀ t, nth c.knots p ≤ t → t ≤ nth c.knots (n + 1) → NurbsCurve.pointOnCurve M t = NurbsCurve.pointOnCurve c t) ∧
        (∀ t, nth c.knots p - L ≤ t → t ≤ nth c.knots p → NurbsCurve.pointOnCurve M t =
          ok (W⁻¹ • ∑ i ∈ range (n + 1), Nspan (nth c.knots) p p i t • (nth c.cps i).raw))) := by
  have hpn := w.pn
  have hpos := w.pos
  have hpp : nth c.knots p ≤ nth c.knots (n + 1) := wf_monoTo w _ _ (by omega) (by omega)
  have hWn : (nth c.cps 0).w = W := hw 0 (by omega)
  obtain ⟨ders, L, e, hL, h⟩ := C127_natural_start_partial w he hc k0 k1 hd (by rw [hWn]; exact hW)
  obtain ⟨l, e', -, -, hk⟩ := end_derivatives w he le_rfl hpp (isSpan_start w he) (clamped_start_point w he hc) (by rw [hWn]; exact hW.ne) hpos
  rw [e] at e'
  have el := Res.ok.inj e'
  subst el
  refine ⟨L, hL, fun g => ?_⟩
  obtain ⟨M, eM, wM, h1, h2, h3, h4⟩ := h g
  refine ⟨M, eM, wM, h1, h2, h3, fun t t0 t1 => ?_⟩
  rw [h4 t t0 t1, taylor_piece w (isSpan_start w he) hW.ne hw hk]

/-! ## The tangent extension -/

/-- the line segment `CreateLine` makes -/
theorem line_facts {P Q : XYZ ℝ} {l : NurbsCurve ℝ} (h : createLine P Q = ok l) :
    WellFormed l 1 1 ∧ EndsSeparated (nth l.knots) 1 1 ∧ ClampedEnds (nth l.knots) 1 1 ∧ WellSeparated l.knots ∧ UnitOrFar l.knots ∧ Spaced l.knots ∧
      (∀ s, 1 ≤ s → s ≤ 1 → nth l.knots s < nth l.knots (s + 1)) ∧ (nth l.cps 0).toXYZ = P ∧ (nth l.cps 1).toXYZ = Q ∧
      nth l.knots 1 = 0 ∧ nth l.knots 2 = 1 ∧ nth l.knots 0 = 0 ∧ nth l.knots 3 = 1 ∧
      ∀ u, 0 ≤ u → u ≤ 1 → NurbsCurve.pointOnCurve l u = ok (P + u • (Q - P)) := by
  unfold createLine at h
  obtain ⟨u, -, h⟩ := bind_eq_ok.mp h
  have hl := Res.ok.inj h
  have w : WellFormed l 1 1 := by
    rw [← hl]
    refine ⟨rfl, by omega, by omega, rfl, le_rfl, rfl, ?_⟩
    apply isValidKnotVector_nth.mp
    simp [isValidKnotVector]
  have he : EndsSeparated (nth l.knots) 1 1 := by
    rw [← hl]
    constructor <;> simp [nth] <;> norm_num
  have hp : ∀ v : XYZ ℝ, (XYZW.ofXYZ v 1).toXYZ = v := by
    intro v
    rw [XYZW.toXYZ_eq (by simp [XYZW.ofXYZ]; norm_num)]
    ext <;> simp [XYZW.ofXYZ, XYZW.raw]
  have hmem : ∀ x ∈ l.knots, x = 0 ∨ x = 1 := by
    intro x hx
    rw [← hl] at hx
    simp only [List.mem_cons, List.not_mem_nil, or_false] at hx
    tauto
  refine ⟨w, he, ?_, ?_, ?_, ?_, ?_, ?_, ?_, ?_, ?_, ?_, ?_, ?_⟩
  · rw [← hl]; constructor <;> simp [nth]
  · intro x hx y hy
    rcases hmem x hx with rfl | rfl <;> rcases hmem y hy with rfl | rfl <;> norm_num
  · rw [← hl]; exact Or.inl ⟨rfl, rfl⟩
  · intro x hx y hy
    have e : nth l.knots (l.knots.length - 1) - nth l.knots 0 = 1 := by rw [← hl]; simp [nth]
    rw [e]
    rcases hmem x hx with rfl | rfl <;> rcases hmem y hy with rfl | rfl <;> norm_num
  · intro s h1 h2
    have : s = 1 := by omega
    subst this
    rw [← hl]; simp [nth]
  · rw [← hl]; exact hp P
  · rw [← hl]; exact hp Q
  · rw [← hl]; rfl
  · rw [← hl]; rfl
  · rw [← hl]; rfl
  · rw [← hl]; rfl
  · intro u h0 h1
    have k1 : nth l.knots 1 = 0 := by rw [← hl]; rfl
    have k2 : nth l.knots (1 + 1) = 1 := by rw [← hl]; rfl
    unfold NurbsCurve.pointOnCurve
    rw [C05_eval w he (by rw [k1]; exact h0) (by rw [k2]; exact h1), ok_bind,
      curvePoint_bezier (a := 0) (b := 1) one_pos (by intro i hi; rw [← hl]; interval_cases i <;> rfl) (by intro i h1 h2; rw [← hl]; interval_cases i <;> rfl) h0 h1]
    congr 1
    have e : bezierPoint 1 (nth l.cps) ((u - 0) / (1 - 0)) = XYZW.ofXYZ (P + u • (Q - P)) 1 := by
      rw [← hl]
      unfold bezierPoint
      rw [Finset.sum_range_succ, Finset.sum_range_one]
      ext <;> simp [bernsteinP, XYZW.ofXYZ, nth] <;> ring
    rw [e, hp]

/-- C127 (tangent extension at the end): the result is a curve over `[0, 1]`, of the degree of the given curve; its first half has the
points of the given curve and its second half is the line segment of length `d` along the unit tangent at the end of the curve.
Missing from the full statement: the knots of the curve are not closer to each other than the tolerances, and the segment is not so
short that its ends count as equal. -/
theorem C127_tangent_end_partial {c : NurbsCurve ℝ} {p n : ℕ} {d : ℝ} (w : WellFormed c p n) (he : EndsSeparated (nth c.knots) p n)
    (hc : ClampedEnds (nth c.knots) p n) (k0 : KnotSeparated c.knots (nth c.knots 0)) (k1 : KnotSeparated c.knots (nth c.knots (n + p + 1)))
    (hws : WellSeparated c.knots) (hu : UnitOrFar c.knots) (hsp : Spaced c.knots) (hd : PosLength d) (hw : NotTiny (nth c.cps n).w)
    {ders : List (XYZ ℝ)} (hders : NurbsCurve.rationalDerivatives c 1 (nth c.knots (n + 1)) = ok ders)
    (hne : (nth ders 0).almostEq (nth ders 0 + d • (nth ders 1).normalize) = false) :
    ∃ M m, extendCurve c d false .tangent = ok M ∧ WellFormed M p m ∧ nth M.knots 0 = 0 ∧ nth M.knots (m + p + 1) = 1 ∧
      (∀ t, nth c.knots p ≤ t → t < nth c.knots (n + 1) →
        NurbsCurve.pointOnCurve M (unitParam (nth c.knots) (n + p + 1) t / 2) = NurbsCurve.pointOnCurve c t) ∧
      (∀ u, 0 ≤ u → u ≤ 1 → NurbsCurve.pointOnCurve M ((1 + u) / 2) = ok (nth ders 0 + (u * d) • (nth ders 1).normalize)) := by
  have hm := wf_monoTo w
  have hpn := w.pn
  have hpos := w.pos
  have hpp : nth c.knots p ≤ nth c.knots (n + 1) := hm _ _ (by omega) (by omega)
  obtain ⟨l1, e1, hl1, hd0, -⟩ := end_derivatives w he hpp le_rfl (isSpan_end w he) (clamped_end_point w he hc) hw.ne one_pos
  have e1' : NurbsCurve.rationalDerivatives c 1 (nth c.knots (n + 1)) = ok l1 := e1
  rw [hders] at e1'
  have el := Res.ok.inj e1'
  subst el
  obtain ⟨l, hline⟩ : ∃ l, createLine (nth ders 0) (nth ders 0 + d • (nth ders 1).normalize) = ok l := by
    unfold createLine; rw [hne]; exact ⟨_, rfl⟩
  obtain ⟨wl, hel, hcl, sl, ul, gl, siml, p0, p1, a1, a2, a0, a3, pl⟩ := line_facts hline
  obtain ⟨M, m, eM, wM, m0, m1, hL, hR⟩ := C53_merge_degrees_partial w wl he hel hc hcl hws sl (fun h => absurd h (by omega)) (fun _ => siml) hu ul hsp gl
    (by rw [p0, hd0, XYZW.toXYZ_eq hw]; exact almostEq_self _)
  rw [max_eq_left (show 1 ≤ p by omega)] at wM m1
  refine ⟨M, m, ?_, wM, m0, m1, hL, ?_⟩
  · unfold extendCurve
    rw [hd.gate, if_neg (by simp), C126_clamped w he k0 k1 hc, ok_bind, if_neg (by simp), extendAt_end w hc, ok_bind, hders, ok_bind,
      vget_nth (i := 0) (k := 0) rfl (by omega), ok_bind, vget_nth (i := 1) (k := 1) rfl (by omega), ok_bind]
    dsimp only
    unfold tangentLine
    rw [if_neg (by simp), hline, ok_bind]
    unfold extendMerge
    rw [if_neg (by simp), if_neg (by simp), eM]
    rfl
  · intro u h0 h1
    have h := hR u (by rw [a1]; exact h0) (by rw [show (1 + 1 : ℕ) = 2 from rfl, a2]; exact h1)
    have e : unitParam (nth l.knots) (1 + 1 + 1) u = u := by
      unfold unitParam; rw [a0, show (1 + 1 + 1 : ℕ) = 3 from rfl, a3]; simp
    rw [e, pl u h0 h1, add_sub_cancel_left, smul_smul] at h
    exact h

/-- C127 (tangent extension at the start). -/
theorem C127_tangent_start_partial {c : NurbsCurve ℝ} {p n : ℕ} {d : ℝ} (w : WellFormed c p n) (he : EndsSeparated (nth c.knots) p n)
    (hc : ClampedEnds (nth c.knots) p n) (k0 : KnotSeparated c.knots (nth c.knots 0)) (k1 : KnotSeparated c.knots (nth c.knots (n + p + 1)))
    (hws : WellSeparated c.knots) (hu : UnitOrFar c.knots) (hsp : Spaced c.knots) (hd : PosLength d) (hw : NotTiny (nth c.cps 0).w)
    {ders : List (XYZ ℝ)} (hders : NurbsCurve.rationalDerivatives c 1 (nth c.knots p) = ok ders)
    (hne : (nth ders 0 - d • (nth ders 1).normalize).almostEq (nth ders 0) = false) :
    ∃ M m, extendCurve c d true .tangent = ok M ∧ WellFormed M p m ∧ nth M.knots 0 = 0 ∧ nth M.knots (m + p + 1) = 1 ∧
      (∀ t, nth c.knots p ≤ t → t ≤ nth c.knots (n + 1) →
        NurbsCurve.pointOnCurve M ((1 + unitParam (nth c.knots) (n + p + 1) t) / 2) = NurbsCurve.pointOnCurve c t) ∧
      (∀ u, 0 ≤ u → u < 1 → NurbsCurve.pointOnCurve M (u / 2) = ok (nth ders 0 - ((1 - u) * d) • (nth ders 1).normalize)) := by
  have hm := wf_monoTo w
  have hpn := w.pn
  have hpos := w.pos
  have hpp : nth c.knots p ≤ nth c.knots (n + 1) := hm _ _ (by omega) (by omega)
  obtain ⟨l1, e1, hl1, hd0, -⟩ := end_derivatives w he le_rfl hpp (isSpan_start w he) (clamped_start_point w he hc) hw.ne one_pos
  have e1' : NurbsCurve.rationalDerivatives c 1 (nth c.knots p) = ok l1 := e1
  rw [hders] at e1'
  have el := Res.ok.inj e1'
  subst el
  obtain ⟨l, hline⟩ : ∃ l, createLine (nth ders 0 - d • (nth ders 1).normalize) (nth ders 0) = ok l := by
    unfold createLine; rw [hne]; exact ⟨_, rfl⟩
  obtain ⟨wl, hel, hcl, sl, ul, gl, siml, p0, p1, a1, a2, a0, a3, pl⟩ := line_facts hline
  obtain ⟨M, m, eM, wM, m0, m1, hL, hR⟩ := C53_merge_degrees_partial wl w hel he hcl hc sl hws (fun _ => siml) (fun h => absurd h (by omega)) ul hu gl hsp
    (by rw [p1, hd0, XYZW.toXYZ_eq hw]; exact almostEq_self _)
  rw [max_eq_right (show 1 ≤ p by omega)] at wM m1
  refine ⟨M, m, ?_, wM, m0, m1, hR, ?_⟩
  · unfold extendCurve
    rw [hd.gate, if_neg (by simp), C126_clamped w he k0 k1 hc, ok_bind, if_neg (by simp), extendAt_start w hc, ok_bind, hders, ok_bind,
      vget_nth (i := 0) (k := 0) rfl (by omega), ok_bind, vget_nth (i := 1) (k := 1) rfl (by omega), ok_bind]
    dsimp only
    unfold tangentLine
    rw [if_pos rfl, hline, ok_bind]
    unfold extendMerge
    rw [if_pos rfl, if_pos rfl, eM]
    rfl
  · intro u h0 h1
    have h := hL u (by rw [a1]; exact h0) (by rw [show (1 + 1 : ℕ) = 2 from rfl, a2]; exact h1)
    have e : unitParam (nth l.knots) (1 + 1 + 1) u = u := by
      unfold unitParam; rw [a0, show (1 + 1 + 1 : ℕ) = 3 from rfl, a3]; simp
    rw [e, pl u h0 h1.le] at h
    rw [h]
    congr 1
    ext <;> simp <;> ring

/-- C127: the tangent extension by a length below the coordinate tolerance of the end point throws instead of extending. -/
theorem C127_tangent_rejected {c : NurbsCurve ℝ} {p n : ℕ} {d : ℝ} (w : WellFormed c p n) (he : EndsSeparated (nth c.knots) p n)
    (hc : ClampedEnds (nth c.knots) p n) (k0 : KnotSeparated c.knots (nth c.knots 0)) (k1 : KnotSeparated c.knots (nth c.knots (n + p + 1)))
    (hd : PosLength d) {ders : List (XYZ ℝ)} (hders : NurbsCurve.rationalDerivatives c 1 (nth c.knots (n + 1)) = ok ders) (hl : ders.length = 2)
    (hne : (nth ders 0).almostEq (nth ders 0 + d • (nth ders 1).normalize) = true) :
    extendCurve c d false .tangent = invalidArg := by
  unfold extendCurve
  rw [hd.gate, if_neg (by simp), C126_clamped w he k0 k1 hc, ok_bind, if_neg (by simp), extendAt_end w hc, ok_bind, hders, ok_bind,
    vget_nth (i := 0) (k := 0) rfl (by omega), ok_bind, vget_nth (i := 1) (k := 1) rfl (by omega), ok_bind]
  dsimp only
  unfold tangentLine createLine
  rw [if_neg (by simp), hne]
  rfl

/-! ## Concrete curves -/

/-- a quarter of the unit circle -/
def quarterArc : NurbsCurve ℝ := { degree := 2, knots := [0, 0, 0, 1, 1, 1], cps := [⟨1, 0, 0, 1⟩, ⟨1, 1, 0, 1⟩, ⟨0, 2, 0, 2⟩] }

theorem quarterArc_facts : WellFormed quarterArc 2 2 ∧ EndsSeparated (nth quarterArc.knots) 2 2 ∧ ClampedEnds (nth quarterArc.knots) 2 2 ∧
    KnotSeparated quarterArc.knots (nth quarterArc.knots 0) ∧ KnotSeparated quarterArc.knots (nth quarterArc.knots 5) := by
  have hmem : ∀ x ∈ quarterArc.knots, x = 0 ∨ x = 1 := by
    intro x hx
    simp only [quarterArc, List.mem_cons, List.not_mem_nil, or_false] at hx
    tauto
  refine ⟨?_, ?_, ?_, ?_, ?_⟩
  · refine ⟨rfl, by omega, by omega, rfl, le_rfl, rfl, ?_⟩
    apply isValidKnotVector_nth.mp
    simp [isValidKnotVector, quarterArc]
  · constructor <;> simp [nth, quarterArc] <;> norm_num
  · constructor <;> simp [nth, quarterArc]
  · intro x hx
    rcases hmem x hx with rfl | rfl
    · exact Or.inl rfl
    · right; simp [nth, quarterArc]; norm_num
  · intro x hx
    rcases hmem x hx with rfl | rfl
    · right; simp [nth, quarterArc]; norm_num
    · exact Or.inl rfl

theorem quarterArc_ders : ∃ l, NurbsCurve.rationalDerivatives quarterArc 2 1 = ok l ∧ l = [⟨0, 1, 0⟩, ⟨-1, 0, 0⟩, ⟨1, -1, 0⟩] := by
  obtain ⟨w, he, hc, -, -⟩ := quarterArc_facts
  have k2 : nth quarterArc.knots 2 = 0 := rfl
  have k3 : nth quarterArc.knots (2 + 1) = 1 := rfl
  have hm := wf_monoTo w
  have hs : IsSpan (nth quarterArc.knots) 2 2 1 2 := isSpan_end w he
  obtain ⟨l, e, hl, h0, hk⟩ := end_derivatives (t := 1) (d := 2) w he (by rw [k2]; norm_num) (by rw [k3]) hs (clamped_end_point w he hc) (by simp [quarterArc, nth]) (by omega)
  refine ⟨l, e, ?_⟩
  have d0 : curveDeriv (nth quarterArc.knots) 2 2 2 (nth quarterArc.cps) 0 1 = ⟨0, 2, 0, 2⟩ := by
    unfold curveDeriv
    simp only [Finset.sum_range_succ, Finset.sum_range_zero, dN_zero]
    ext <;> simp [Nspan, quarterArc, nth]
  have d1 : curveDeriv (nth quarterArc.knots) 2 2 2 (nth quarterArc.cps) 1 1 = ⟨-2, 2, 0, 2⟩ := by
    unfold curveDeriv
    simp only [Finset.sum_range_succ, Finset.sum_range_zero]
    rw [dN_succ hm 2 1 0 0 (by omega), dN_succ hm 2 1 1 0 (by omega), dN_succ hm 2 1 2 0 (by omega)]
    simp only [dN_zero]
    ext <;> simp [Nspan, quarterArc, nth] <;> norm_num
  have d2 : curveDeriv (nth quarterArc.knots) 2 2 2 (nth quarterArc.cps) 2 1 = ⟨-2, 0, 0, 2⟩ := by
    unfold curveDeriv
    simp only [Finset.sum_range_succ, Finset.sum_range_zero]
    rw [dN_succ hm 2 1 0 1 (by omega), dN_succ hm 2 1 1 1 (by omega), dN_succ hm 2 1 2 1 (by omega),
      dN_succ hm 2 0 0 0 (by omega), dN_succ hm 2 0 1 0 (by omega), dN_succ hm 2 0 2 0 (by omega), dN_succ hm 2 0 (2 + 1) 0 (by omega)]
    simp only [dN_zero]
    ext <;> simp [Nspan, quarterArc, nth] <;> norm_num
  have e0 : nth l 0 = ⟨0, 1, 0⟩ := by rw [h0]; ext <;> simp [quarterArc, nth, XYZW.raw]
  have q1 := hk 1 (by omega)
  have q2 := hk 2 (by omega)
  simp only [Finset.sum_range_succ, Finset.sum_range_zero, d0, d1, d2, e0] at q1 q2
  have e1 : nth l 1 = ⟨-1, 0, 0⟩ := by
    ext
    · have := congrArg XYZ.x q1; simp [XYZW.raw] at this; linarith
    · have := congrArg XYZ.y q1; simp [XYZW.raw] at this; linarith
    · have := congrArg XYZ.z q1; simp [XYZW.raw] at this; linarith
  have e2 : nth l 2 = ⟨1, -1, 0⟩ := by
    ext
    · have := congrArg XYZ.x q2; simp [XYZW.raw] at this; simp [e0, e1] at this; linarith
    · have := congrArg XYZ.y q2; simp [XYZW.raw] at this; simp [e0, e1] at this; linarith
    · have := congrArg XYZ.z q2; simp [XYZW.raw] at this; simp [e0, e1] at this; linarith
  apply ext_nth (by rw [hl]; rfl)
  intro i hi
  rw [hl] at hi
  interval_cases i
  · rw [e0]; rfl
  · rw [e1]; rfl
  · rw [e2]; rfl

/-- the first round of the Newton iteration stops -/
theorem extendParam_stop {co : List (XYZ ℝ)} {p : ℕ} {d : ℝ} (h : extendNewton co p d d = ok (d, true)) (hd : 0 ≤ d) : extendParam co p d 1 = ok d := by
  unfold extendParam
  obtain ⟨r, e, hr⟩ := forI_inv (a := 0) (b := 50) (s := (d * 1, false)) (body := fun _ st =>
    if st.2 then ok st else extendNewton co p d st.1) (fun i st => st.1 = d ∧ (0 < i → st.2 = true)) (by omega) ⟨by ring, fun h => absurd h (by omega)⟩ (by
      intro i s _ _ hs
      by_cases h2 : s.2 = true
      · rw [if_pos h2]; exact ⟨_, rfl, hs.1, fun _ => h2⟩
      · rw [if_neg h2, hs.1, h]; exact ⟨_, rfl, rfl, fun _ => rfl⟩)
  rw [e, ok_bind, hr.1, abs_of_nonneg hd]

theorem quarter_velocity (t : ℝ) : taylorVelocity [⟨0, 1, 0⟩, ⟨-1, 0, 0⟩, ⟨1 / 2, -1 / 2, 0⟩] (2 : ℕ) t = ok ⟨t - 1, -t, 0⟩ := by
  unfold taylorVelocity
  rw [vget_nth (k := 2) rfl (by simp), ok_bind]
  rw [show (((2 : ℕ) : ℤ) - 1) = 1 from rfl]
  have hone : (1 - 1 + 1 : ℤ).toNat = 1 := rfl
  unfold forDown
  rw [hone]
  unfold loopDown
  rw [vget_nth (i := 1) (k := 1) rfl (by simp), ok_bind, ok_bind]
  unfold loopDown
  congr 1
  ext <;> simp [nth] <;> ring

theorem quarter_coeffs : taylorCoeffs [⟨0, 1, 0⟩, ⟨-1, 0, 0⟩, ⟨1, -1, 0⟩] (2 : ℕ) = ok [⟨0, 1, 0⟩, ⟨-1, 0, 0⟩, ⟨1 / 2, -1 / 2, 0⟩] := by
  obtain ⟨l, e, hl, h⟩ := taylorCoeffs_run (ders := [⟨0, 1, 0⟩, ⟨-1, 0, 0⟩, ⟨1, -1, 0⟩]) (p := 2) rfl
  rw [e]
  congr 1
  apply ext_nth (by rw [hl]; rfl)
  intro i hi
  rw [hl] at hi
  rw [h i (by omega)]
  interval_cases i <;> ext <;> simp [nth, Nat.factorial] <;> norm_num

theorem quarter_speed {t : ℝ} (h0 : 0 ≤ t) (h1 : t ≤ 1 / 2000) : 1 - 1 / 2000 ≤ (⟨t - 1, -t, 0⟩ : XYZ ℝ).length ∧ (⟨t - 1, -t, 0⟩ : XYZ ℝ).length ≤ 1 := by
  have e : (⟨t - 1, -t, 0⟩ : XYZ ℝ).length = √((t - 1) ^ 2 + t ^ 2) := by
    simp only [XYZ.length, XYZ.sqrLength]
    congr 1
    ring
  rw [e]
  constructor
  · apply Real.le_sqrt_of_sq_le
    nlinarith
  · exact Real.sqrt_le_iff.mpr ⟨zero_le_one, by nlinarith⟩

theorem quarter_newton : extendNewton [⟨0, 1, 0⟩, ⟨-1, 0, 0⟩, ⟨1 / 2, -1 / 2, 0⟩] (2 : ℕ) (1 / 2000) (1 / 2000) = ok (1 / 2000, true) := by
  unfold extendNewton
  dsimp only
  have hab : |(1 / 2000 : ℝ)| = 1 / 2000 := abs_of_pos (by norm_num)
  rw [hab]
  simp only [quarter_velocity, ok_bind]
  obtain ⟨a1, b1⟩ := quarter_speed (t := 1 / 2000 * 0.5 - 1 / 2000 * 0.5 * 0.7745966692414834) (by norm_num) (by norm_num)
  obtain ⟨a2, b2⟩ := quarter_speed (t := 1 / 2000 * 0.5) (by norm_num) (by norm_num)
  obtain ⟨a3, b3⟩ := quarter_speed (t := 1 / 2000 * 0.5 + 1 / 2000 * 0.5 * 0.7745966692414834) (by norm_num) (by norm_num)
  generalize (⟨1 / 2000 * 0.5 - 1 / 2000 * 0.5 * 0.7745966692414834 - 1, -(1 / 2000 * 0.5 - 1 / 2000 * 0.5 * 0.7745966692414834), 0⟩ : XYZ ℝ).length = x1 at *
  generalize (⟨1 / 2000 * 0.5 - 1, -(1 / 2000 * 0.5), 0⟩ : XYZ ℝ).length = x2 at *
  generalize (⟨1 / 2000 * 0.5 + 1 / 2000 * 0.5 * 0.7745966692414834 - 1, -(1 / 2000 * 0.5 + 1 / 2000 * 0.5 * 0.7745966692414834), 0⟩ : XYZ ℝ).length = x3 at *
  split
  · rfl
  · rw [if_pos]
    unfold isAlmostEqualTo tolOf doubleEps
    rw [decide_eq_true_eq]
    have hx : |1 / 2000 * 0.5 * (0.5555555555555556 * x1 + 0.8888888888888889 * x2 + 0.5555555555555556 * x3) - 1 / 2000| ≤ 1 / 1000000 := by
      rw [abs_le]
      constructor <;> norm_num at * <;> linarith
    rw [sub_zero, abs_abs, abs_zero, max_eq_left (abs_nonneg _)]
    have := abs_nonneg (1 / 2000 * 0.5 * (0.5555555555555556 * x1 + 0.8888888888888889 * x2 + 0.5555555555555556 * x3) - 1 / 2000)
    linarith

/-- C127 (violated): the natural extension is documented to keep the equation of the curve and to change only the range of the
parameter. All points of this quarter circle are on the unit circle; the extended curve leaves it. -/
theorem C127_natural_rational_violated : ∃ (c M : NurbsCurve ℝ) (v : XYZ ℝ), WellFormed c 2 2 ∧
    (∀ t q, 0 ≤ t → t ≤ 1 → NurbsCurve.pointOnCurve c t = ok q → q.x ^ 2 + q.y ^ 2 = 1 ∧ q.z = 0) ∧
    extendCurve c (1 / 2000) false .natural = ok M ∧ nth M.knots 5 = 1 + 1 / 2000 ∧
    NurbsCurve.pointOnCurve M (1 + 1 / 2000) = ok v ∧ v.x ^ 2 + v.y ^ 2 ≠ 1 := by
  obtain ⟨w, he, hc, k0, k1⟩ := quarterArc_facts
  obtain ⟨l, e, hl⟩ := quarterArc_ders
  subst hl
  obtain ⟨ders, co, L, e2, e3, e4, hL0, h⟩ := natural_end_core (d := 1 / 2000) w he hc k0 k1 (by unfold PosLength; norm_num) (by simp [quarterArc, nth, NotTiny]; norm_num)
  have kn : nth quarterArc.knots (2 + 1) = 1 := rfl
  rw [kn] at e2 h
  have e' : NurbsCurve.rationalDerivatives quarterArc ((2 : ℕ) : ℤ) 1 = ok [⟨0, 1, 0⟩, ⟨-1, 0, 0⟩, ⟨1, -1, 0⟩] := e
  rw [e'] at e2
  have q := Res.ok.inj e2
  subst q
  rw [quarter_coeffs] at e3
  have q := Res.ok.inj e3
  subst q
  rw [extendParam_stop quarter_newton (by norm_num)] at e4
  have q := Res.ok.inj e4
  subst q
  obtain ⟨M, eM, wM, m1, m2, m3, m4⟩ := h (by unfold GapAfter; rw [abs_of_pos, abs_of_pos] <;> norm_num)
  refine ⟨quarterArc, M, _, w, ?_, eM, m2, m4 _ (by norm_num) le_rfl, ?_⟩
  · intro t q t0 t1 hq
    have hb := C05_eval w he (t := t) (by exact t0) (by exact t1)
    unfold NurbsCurve.pointOnCurve at hq
    rw [hb, ok_bind, curvePoint_bezier (a := 0) (b := 1) one_pos (by intro i hi; interval_cases i <;> rfl) (by intro i h1 h2; interval_cases i <;> rfl) t0 t1] at hq
    have hv : bezierPoint 2 (nth quarterArc.cps) ((t - 0) / (1 - 0)) = ⟨1 - t ^ 2, 2 * t, 0, 1 + t ^ 2⟩ := by
      unfold bezierPoint
      simp only [Finset.sum_range_succ, Finset.sum_range_zero]
      ext <;> simp [bernsteinP, quarterArc, nth] <;> ring
    have hpos : (0 : ℝ) < 1 + t ^ 2 := by positivity
    rw [hv, XYZW.toXYZ_eq (by dsimp only; rw [abs_of_pos hpos]; nlinarith [sq_nonneg t])] at hq
    have := Res.ok.inj hq
    subst this
    constructor
    · simp [XYZW.raw]; field_simp; ring
    · simp [XYZW.raw]
  · simp [Finset.sum_range_succ, nth, Nat.factorial]
    norm_num

/-- a segment with a repeated last control point -/
def stoppedSegment : NurbsCurve ℝ := { degree := 1, knots := [0, 0, 1, 2, 2], cps := [⟨0, 0, 0, 1⟩, ⟨1, 0, 0, 1⟩, ⟨1, 0, 0, 1⟩] }

theorem stoppedSegment_facts : WellFormed stoppedSegment 1 2 ∧ EndsSeparated (nth stoppedSegment.knots) 1 2 ∧ ClampedEnds (nth stoppedSegment.knots) 1 2 ∧
    KnotSeparated stoppedSegment.knots (nth stoppedSegment.knots 0) ∧ KnotSeparated stoppedSegment.knots (nth stoppedSegment.knots 4) := by
  have hmem : ∀ x ∈ stoppedSegment.knots, x = 0 ∨ x = 1 ∨ x = 2 := by
    intro x hx
    simp only [stoppedSegment, List.mem_cons, List.not_mem_nil, or_false] at hx
    tauto
  refine ⟨?_, ?_, ?_, ?_, ?_⟩
  · refine ⟨rfl, by omega, by omega, rfl, by omega, rfl, ?_⟩
    apply isValidKnotVector_nth.mp
    simp [isValidKnotVector, stoppedSegment]
  · constructor <;> simp [nth, stoppedSegment] <;> norm_num
  · constructor <;> simp [nth, stoppedSegment]
  · intro x hx
    rcases hmem x hx with rfl | rfl | rfl
    · exact Or.inl rfl
    · right; simp [nth, stoppedSegment]; norm_num
    · right; simp [nth, stoppedSegment]; norm_num
  · intro x hx
    rcases hmem x hx with rfl | rfl | rfl
    · right; simp [nth, stoppedSegment]; norm_num
    · right; simp [nth, stoppedSegment]; norm_num
    · exact Or.inl rfl

theorem stoppedSegment_ders : NurbsCurve.rationalDerivatives stoppedSegment 1 2 = ok [⟨1, 0, 0⟩, ⟨0, 0, 0⟩] := by
  obtain ⟨w, he, hc, -, -⟩ := stoppedSegment_facts
  have hm := wf_monoTo w
  have k1 : nth stoppedSegment.knots 1 = 0 := rfl
  have k3 : nth stoppedSegment.knots (2 + 1) = 2 := rfl
  have hs : IsSpan (nth stoppedSegment.knots) 1 2 2 2 := isSpan_end w he
  obtain ⟨l, e, hl, h0, hk⟩ := end_derivatives (t := 2) (d := 1) w he (by rw [k1]; norm_num) (by rw [k3]) hs (clamped_end_point w he hc) (by simp [stoppedSegment, nth]) (by omega)
  have d0 : curveDeriv (nth stoppedSegment.knots) 2 1 2 (nth stoppedSegment.cps) 0 2 = ⟨1, 0, 0, 1⟩ := by
    unfold curveDeriv
    simp only [Finset.sum_range_succ, Finset.sum_range_zero, dN_zero]
    ext <;> simp [Nspan, stoppedSegment, nth] <;> norm_num
  have d1 : curveDeriv (nth stoppedSegment.knots) 2 1 2 (nth stoppedSegment.cps) 1 2 = ⟨0, 0, 0, 0⟩ := by
    unfold curveDeriv
    simp only [Finset.sum_range_succ, Finset.sum_range_zero]
    rw [dN_succ hm 2 0 0 0 (by omega), dN_succ hm 2 0 1 0 (by omega), dN_succ hm 2 0 2 0 (by omega)]
    simp only [dN_zero]
    ext <;> simp [Nspan, stoppedSegment, nth] <;> norm_num
  have e0 : nth l 0 = ⟨1, 0, 0⟩ := by rw [h0]; ext <;> simp [stoppedSegment, nth, XYZW.raw]
  have q1 := hk 1 (by omega)
  simp only [Finset.sum_range_succ, Finset.sum_range_zero, d0, d1, e0] at q1
  have e1 : nth l 1 = ⟨0, 0, 0⟩ := by
    ext
    · have := congrArg XYZ.x q1; simp [XYZW.raw] at this; linarith
    · have := congrArg XYZ.y q1; simp [XYZW.raw] at this; linarith
    · have := congrArg XYZ.z q1; simp [XYZW.raw] at this; linarith
  have e' : NurbsCurve.rationalDerivatives stoppedSegment 1 2 = ok l := e
  rw [e']
  congr 1
  apply ext_nth (by rw [hl]; rfl)
  intro i hi
  rw [hl] at hi
  interval_cases i
  · rw [e0]; rfl
  · rw [e1]; rfl

/-- C127 (violated): the natural extension by length 1 of a curve that stands still at its end answers, but adds no length: all
points of the extension are the end point. -/
theorem C127_natural_length_violated : ∃ c M : NurbsCurve ℝ, WellFormed c 1 2 ∧ nth c.knots 3 = 2 ∧ extendCurve c 1 false .natural = ok M ∧
    nth M.knots 4 = 3 ∧ ∀ t, 2 ≤ t → t ≤ 3 → NurbsCurve.pointOnCurve M t = ok ⟨1, 0, 0⟩ := by
  obtain ⟨w, he, hc, k0, k1⟩ := stoppedSegment_facts
  obtain ⟨ders, co, L, e2, e3, e4, hL0, h⟩ := natural_end_core (d := 1) w he hc k0 k1 (by unfold PosLength; norm_num) (by simp [stoppedSegment, nth, NotTiny]; norm_num)
  have kn : nth stoppedSegment.knots (2 + 1) = 2 := rfl
  rw [kn] at e2 h
  have e' : NurbsCurve.rationalDerivatives stoppedSegment ((1 : ℕ) : ℤ) 2 = ok [⟨1, 0, 0⟩, ⟨0, 0, 0⟩] := stoppedSegment_ders
  rw [e'] at e2
  have q := Res.ok.inj e2
  subst q
  obtain ⟨co', e3', hl', hco'⟩ := taylorCoeffs_run (ders := [⟨1, 0, 0⟩, ⟨0, 0, 0⟩]) (p := 1) rfl
  rw [e3'] at e3
  have q := Res.ok.inj e3
  subst q
  have hv : ∀ t, taylorVelocity co' ((1 : ℕ) : ℤ) t = ok ⟨0, 0, 0⟩ := by
    intro t
    unfold taylorVelocity
    rw [vget_nth (k := 1) rfl (by omega), ok_bind, forDown_empty (by omega), hco' 1 le_rfl]
    congr 1
    ext <;> simp [nth]
  have hn : extendNewton co' ((1 : ℕ) : ℤ) 1 1 = ok (1, true) := by
    unfold extendNewton
    simp only [hv, ok_bind]
    rw [if_pos]
    have : (⟨0, 0, 0⟩ : XYZ ℝ).length = 0 := by simp [XYZ.length, XYZ.sqrLength]
    rw [this]
    unfold isAlmostEqualTo tolOf doubleEps
    rw [decide_eq_true_eq]
    norm_num
  rw [extendParam_stop hn (by norm_num)] at e4
  have q := Res.ok.inj e4
  subst q
  obtain ⟨M, eM, wM, m1, m2, m3, m4⟩ := h (by unfold GapAfter; rw [abs_of_pos, abs_of_pos] <;> norm_num)
  refine ⟨stoppedSegment, M, w, rfl, eM, by rw [show (4 : ℕ) = 2 + 1 + 1 from rfl, m2]; norm_num, ?_⟩
  intro t t0 t1
  rw [m4 t t0 (by linarith)]
  congr 1
  ext <;> simp [Finset.sum_range_succ, nth]

/-- the straight segment from the origin to `(a, 0, 0)` -/
theorem xSegment {a : ℝ} (ha : 1 ≤ a) : ∃ (c : NurbsCurve ℝ) (ders : List (XYZ ℝ)), createLine ⟨0, 0, 0⟩ ⟨a, 0, 0⟩ = ok c ∧
    KnotSeparated c.knots (nth c.knots 0) ∧ KnotSeparated c.knots (nth c.knots 3) ∧ NotTiny (nth c.cps 1).w ∧
    NurbsCurve.rationalDerivatives c 1 (nth c.knots 2) = ok ders ∧ ders.length = 2 ∧ nth ders 0 = ⟨a, 0, 0⟩ ∧ (nth ders 1).normalize = ⟨1, 0, 0⟩ := by
  have hl : createLine (⟨0, 0, 0⟩ : XYZ ℝ) ⟨a, 0, 0⟩ = ok { degree := 1, knots := [0, 0, 1, 1], cps := [XYZW.ofXYZ ⟨0, 0, 0⟩ 1, XYZW.ofXYZ ⟨a, 0, 0⟩ 1] } := by
    unfold createLine
    rw [validate_of, ok_bind]
    have : isAlmostEqualTo (0 : ℝ) a = false := by
      unfold isAlmostEqualTo tolOf doubleEps
      rw [decide_eq_false_iff_not, zero_sub, abs_neg, abs_zero, max_eq_right (abs_nonneg a), abs_of_pos (by linarith)]
      linarith
    simp [XYZ.almostEq, this]
  obtain ⟨w, he, hc, sl, ul, gl, -, -, -, -, -, -, -, -⟩ := line_facts hl
  have hm := wf_monoTo w
  have hs := isSpan_end w he
  obtain ⟨l, e, hll, h0, hk⟩ := end_derivatives (d := 1) w he (hm _ _ (by omega) (by omega)) le_rfl hs (clamped_end_point w he hc) (by simp [nth, XYZW.ofXYZ]) (by omega)
  have hsep : ∀ i, KnotSeparated [(0 : ℝ), 0, 1, 1] (nth [(0 : ℝ), 0, 1, 1] i) ∨ 4 ≤ i := by
    intro i
    by_cases hi : 4 ≤ i
    · exact Or.inr hi
    · left
      intro x hx
      rcases sl x hx (nth [(0 : ℝ), 0, 1, 1] i) (by interval_cases i <;> simp [nth]) with h | h
      · exact Or.inl h
      · right
        rw [max_comm, abs_sub_comm]
        have : (0 : ℝ) ≤ max |x| |nth [(0 : ℝ), 0, 1, 1] i| := le_max_of_le_left (abs_nonneg x)
        linarith
  refine ⟨_, l, hl, (hsep 0).resolve_right (by omega), (hsep 3).resolve_right (by omega), by simp [nth, XYZW.ofXYZ, NotTiny]; norm_num, e, hll, ?_, ?_⟩
  · rw [h0]; ext <;> simp [nth, XYZW.raw, XYZW.ofXYZ]
  have q1 := hk 1 (by omega)
  have d0 : (curveDeriv (nth [(0 : ℝ), 0, 1, 1]) 1 1 1 (nth [XYZW.ofXYZ (⟨0, 0, 0⟩ : XYZ ℝ) 1, XYZW.ofXYZ ⟨a, 0, 0⟩ 1]) 0 1) = ⟨a, 0, 0, 1⟩ := by
    unfold curveDeriv
    simp only [Finset.sum_range_succ, Finset.sum_range_zero, dN_zero]
    ext <;> simp [Nspan, nth, XYZW.ofXYZ]
  have d1 : (curveDeriv (nth [(0 : ℝ), 0, 1, 1]) 1 1 1 (nth [XYZW.ofXYZ (⟨0, 0, 0⟩ : XYZ ℝ) 1, XYZW.ofXYZ ⟨a, 0, 0⟩ 1]) 1 1) = ⟨a, 0, 0, 0⟩ := by
    unfold curveDeriv
    simp only [Finset.sum_range_succ, Finset.sum_range_zero]
    rw [dN_succ hm 1 0 0 0 (by omega), dN_succ hm 1 0 1 0 (by omega)]
    simp only [dN_zero]
    ext <;> simp [Nspan, nth, XYZW.ofXYZ]
  have hkn : nth [(0 : ℝ), 0, 1, 1] (1 + 1) = 1 := rfl
  dsimp only at q1 h0
  rw [hkn] at q1
  simp only [Finset.sum_range_succ, Finset.sum_range_zero, d0, d1] at q1
  have e1 : nth l 1 = ⟨a, 0, 0⟩ := by
    ext
    · have := congrArg XYZ.x q1; simp [XYZW.raw] at this; linarith
    · have := congrArg XYZ.y q1; simp [XYZW.raw] at this; linarith
    · have := congrArg XYZ.z q1; simp [XYZW.raw] at this; linarith
  have hlen : (⟨a, 0, 0⟩ : XYZ ℝ).length = a := by
    simp only [XYZ.length, XYZ.sqrLength]
    rw [show a * a + 0 * 0 + 0 * 0 = a ^ 2 by ring, Real.sqrt_sq (by linarith)]
  have hane : a ≠ 0 := by linarith
  rw [e1]
  simp [XYZ.normalize, hlen, hane]
  intro h; linarith

/-- the hypotheses of `C127_tangent_end_partial` are met by a straight segment of length 1 and `d = 1` -/
example : ∃ (c : NurbsCurve ℝ) (ders : List (XYZ ℝ)), WellFormed c 1 1 ∧ EndsSeparated (nth c.knots) 1 1 ∧ ClampedEnds (nth c.knots) 1 1 ∧
    WellSeparated c.knots ∧ UnitOrFar c.knots ∧ Spaced c.knots ∧ PosLength 1 ∧ NotTiny (nth c.cps 1).w ∧
    NurbsCurve.rationalDerivatives c 1 (nth c.knots 2) = ok ders ∧ (nth ders 0).almostEq (nth ders 0 + (1 : ℝ) • (nth ders 1).normalize) = false := by
  obtain ⟨c, l, hl, -, -, nt, e, -, e0, e1⟩ := xSegment (le_refl (1 : ℝ))
  obtain ⟨w, he, hc, sl, ul, gl, -, -, -, -, -, -, -, -⟩ := line_facts hl
  refine ⟨c, l, w, he, hc, sl, ul, gl, by unfold PosLength; norm_num, nt, e, ?_⟩
  rw [e0, e1]
  simp [XYZ.almostEq, isAlmostEqualTo, tolOf, doubleEps]
  norm_num

/-- C127 (violated): the segment from the origin to `(10000, 0, 0)` cannot be extended by 1/200 along its tangent. -/
theorem C127_tangent_violated : ∃ c : NurbsCurve ℝ, WellFormed c 1 1 ∧ EndsSeparated (nth c.knots) 1 1 ∧ ClampedEnds (nth c.knots) 1 1 ∧
    extendCurve c (1 / 200) false .tangent = invalidArg := by
  obtain ⟨c, l, hl, k0, k1, nt, e, hll, e0, e1⟩ := xSegment (show (1 : ℝ) ≤ 10000 by norm_num)
  obtain ⟨w, he, hc, sl, ul, gl, -, -, -, -, -, -, -, -⟩ := line_facts hl
  refine ⟨c, w, he, hc, C127_tangent_rejected w he hc k0 k1 (by unfold PosLength; norm_num) e hll ?_⟩
  rw [e0, e1]
  simp [XYZ.almostEq, isAlmostEqualTo, tolOf, doubleEps]
  norm_num

end LNLib.Props
