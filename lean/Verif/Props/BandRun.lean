import Verif.Model.LeastSquares
import Verif.Props.BasisDers
import Verif.Lemmas.Matrix
import Mathlib.Algebra.BigOperators.Intervals

/-! # The arrays of the least squares approximation hold the normal equations -/
set_option linter.unusedSectionVars false

namespace LNLib.Props
open LNLib Res Spec Finset

variable {K : Type} [Field K] [LinearOrder K] [IsStrictOrderedRing K]

/-- the counters and the two arrays of the inner loop -/
theorem bandShift_run {n p rj i c : ℕ} {start stop : List ℤ} (h1 : start.length = n - 1) (h2 : stop.length = n - 1) (hp : p ≤ rj) (hj : rj + c ≤ n) (hn : 2 ≤ n) :
    Runs (bandShift n i c (start, stop, (rj : ℤ) - 1, (rj : ℤ) - p - 2)) (fun r => r.1.length = n - 1 ∧ r.2.1.length = n - 1 ∧
      r.2.2.1 = (rj : ℤ) + c - 1 ∧ r.2.2.2 = (rj : ℤ) + c - p - 2 ∧
      (∀ a, a < n - 1 → nth r.1 a = if rj ≤ a ∧ a < rj + c then (i : ℤ) - 1 else nth start a) ∧
      ∀ a, a < n - 1 → nth r.2.1 a = if rj ≤ a + p + 1 ∧ a + p + 1 < rj + c then (i : ℤ) - 2 else nth stop a) := by
  unfold bandShift
  refine (Runs.forN (m := 1) (n := c + 1) (fun t (r : List ℤ × List ℤ × ℤ × ℤ) => r.1.length = n - 1 ∧ r.2.1.length = n - 1 ∧
      r.2.2.1 = (rj : ℤ) + t - 2 ∧ r.2.2.2 = (rj : ℤ) + t - p - 3 ∧
      (∀ a, a < n - 1 → nth r.1 a = if rj ≤ a ∧ a + 1 < rj + t then (i : ℤ) - 1 else nth start a) ∧
      ∀ a, a < n - 1 → nth r.2.1 a = if rj ≤ a + p + 1 ∧ a + p + 2 < rj + t then (i : ℤ) - 2 else nth stop a) rfl (by push_cast; ring) (by omega)
      ⟨h1, h2, by dsimp only; push_cast; ring, by dsimp only; push_cast; ring, fun a _ => by dsimp only; rw [if_neg (by omega)], fun a _ => by dsimp only; rw [if_neg (by omega)]⟩ ?_).mono ?_
  · rintro t ⟨sa, so, sj, ej⟩ ht htc ⟨g1, g2, g3, g4, g5, g6⟩
    dsimp only at g1 g2 g3 g4 g5 g6 ⊢
    subst g3 g4
    refine Runs.bind (Q := fun (sa' : List ℤ) => sa'.length = n - 1 ∧ ∀ a, a < n - 1 → nth sa' a = if rj ≤ a ∧ a + 1 < rj + (t + 1) then (i : ℤ) - 1 else nth start a) ?_ ?_
    · unfold setIf
      split
      · rename_i hle
        rw [decide_eq_true_eq] at hle
        rw [vset_of (k := rj + t - 1) (by omega) (by omega)]
        refine Runs.ok ⟨by simp [g1], fun a ha => ?_⟩
        rw [nth_set (by omega), g5 a ha]
        split_ifs <;> first | rfl | omega
      · rename_i hle
        rw [decide_eq_true_eq] at hle
        refine Runs.ok ⟨g1, fun a ha => ?_⟩
        rw [g5 a ha]
        split_ifs <;> first | rfl | omega
    · rintro sa' ⟨q1, q2⟩
      refine Runs.bind (Q := fun (so' : List ℤ) => so'.length = n - 1 ∧ ∀ a, a < n - 1 → nth so' a = if rj ≤ a + p + 1 ∧ a + p + 2 < rj + (t + 1) then (i : ℤ) - 2 else nth stop a) ?_ ?_
      · unfold setIf
        split
        · rename_i hle
          rw [decide_eq_true_eq] at hle
          rw [vset_of (k := rj + t - p - 2) (by omega) (by omega)]
          refine Runs.ok ⟨by simp [g2], fun a ha => ?_⟩
          rw [nth_set (by omega), g6 a ha]
          split_ifs <;> first | rfl | omega
        · rename_i hle
          rw [decide_eq_true_eq] at hle
          refine Runs.ok ⟨g2, fun a ha => ?_⟩
          rw [g6 a ha]
          split_ifs <;> first | rfl | omega
      · rintro so' ⟨q3, q4⟩
        refine Runs.ok ⟨q1, q3, by dsimp only; push_cast; ring, by dsimp only; push_cast; ring, q2, q4⟩
  · rintro r ⟨g1, g2, g3, g4, g5, g6⟩
    refine ⟨g1, g2, by rw [g3]; push_cast; ring, by rw [g4]; push_cast; ring, fun a ha => ?_, fun a ha => ?_⟩
    · rw [g5 a ha]
      split_ifs <;> first | rfl | omega
    · rw [g6 a ha]
      split_ifs <;> first | rfl | omega

section
variable {kv uk : List K} {p n m : ℕ} {s : ℕ → ℕ}

/-- the span before row `r` -/
def curSpan (p : ℕ) (s : ℕ → ℕ) (r : ℕ) : ℕ := if r = 0 then p else s (r - 1)

/-- what holds before row `r` -/
structure BandInv (kv uk : List K) (p n m : ℕ) (s : ℕ → ℕ) (r : ℕ) (st : BandState K) : Prop where
  lstart : st.start.length = n - 1
  lstop : st.stop.length = n - 1
  lindex : st.index.length = m - 1
  lB : IsMat st.B (m - 1) (p + 1)
  rj : st.rj = curSpan p s r
  sj : st.sj = (curSpan p s r : ℤ) - 1
  ej : st.ej = (curSpan p s r : ℤ) - p - 2
  start : ∀ a, a < n - 1 → a < curSpan p s r → ∃ v : ℕ, nth st.start a = v ∧ v ≤ r ∧ ∀ k, k < r → (v ≤ k ↔ a + 1 ≤ s k)
  stop : ∀ a, a < n - 1 → a + p + 2 ≤ curSpan p s r → nth st.stop a < r ∧ -1 ≤ nth st.stop a ∧ ∀ k : ℕ, k < r → ((k : ℤ) ≤ nth st.stop a ↔ s k ≤ a + p + 1)
  index : ∀ k, k < r → nth st.index k = ((s k - p - 1 : ℕ) : ℤ)
  B : ∀ k, k < r → ∀ a, a < n - 1 → a + 1 ≤ s k → s k ≤ a + p + 1 → ent st.B k (a - (s k - p - 1)) = Nspan (nth kv) (s k) p (a + 1) (nth uk (k + 1))

/-- what the arrays are used for -/
structure BandReady (kv uk : List K) (p n m : ℕ) (s : ℕ → ℕ) (st : BandState K) (stop : List ℤ) : Prop where
  lstart : st.start.length = n - 1
  lstop : stop.length = n - 1
  lindex : st.index.length = m - 1
  lB : IsMat st.B (m - 1) (p + 1)
  start : ∀ a, a < n - 1 → ∃ v : ℕ, nth st.start a = v ∧ ∀ k, k < m - 1 → (v ≤ k ↔ a + 1 ≤ s k)
  stop : ∀ a, a < n - 1 → nth stop a < ((m - 1 : ℕ) : ℤ) ∧ ∀ k : ℕ, k < m - 1 → ((k : ℤ) ≤ nth stop a ↔ s k ≤ a + p + 1)
  index : ∀ k, k < m - 1 → nth st.index k = ((s k - p - 1 : ℕ) : ℤ)
  B : ∀ k, k < m - 1 → ∀ a, a < n - 1 → a + 1 ≤ s k → s k ≤ a + p + 1 → ent st.B k (a - (s k - p - 1)) = Nspan (nth kv) (s k) p (a + 1) (nth uk (k + 1))

variable (hp : 0 < p) (hp7 : p ≤ 7) (hpn : p ≤ n) (hn : 2 ≤ n) (hm : 1 ≤ m) (hl : uk.length = m + 1)
  (hk : kv.length = n + p + 2) (hsort : ∀ i j, i ≤ j → j < kv.length → nth kv i ≤ nth kv j)
  (hspan : ∀ k, k < m - 1 → getKnotSpanIndex p kv (nth uk (k + 1)) = ok (s k : ℤ) ∧ IsSpan (nth kv) p n (nth uk (k + 1)) (s k))
  (hmono : ∀ k l, k ≤ l → l < m - 1 → s k ≤ s l)

include hp hp7 hpn hn hm hl hk hsort hspan hmono

theorem bandRound_run {r : ℕ} (hr : r < m - 1) {st : BandState K} (inv : BandInv kv uk p n m s r st) :
    Runs (bandRound p n kv uk ((r + 1 : ℕ) : ℤ) st) (BandInv kv uk p n m s (r + 1)) := by
  obtain ⟨es, hs⟩ := hspan r hr
  have hs' := hs
  obtain ⟨a1, a2, a3, a4, a5⟩ := hs'
  unfold bandRound
  rw [vget_nth (k := r + 1) rfl (by omega), ok_bind, es, ok_bind]
  obtain ⟨b0, b1⟩ := span_range hk hsort hs
  obtain ⟨out, eo, -, ho⟩ := basisFunctions_span (U := kv) (s := s r) (p := p) (t := nth uk (r + 1)) (out := List.replicate ((p : ℤ) + 1).toNat (some 0)) hp7 a1 (by omega) (by omega)
    (by simp) (isValidKnotVector_nth.mpr hsort) a3 b0 b1
  rw [eo, ok_bind]
  dsimp only
  obtain ⟨l, hl'⟩ : ∃ l : ℕ, (if (s r : ℤ) = p then (1 : ℤ) else 0) = l ∧ l = if s r = p then 1 else 0 := by
    by_cases h : s r = p
    · exact ⟨1, by rw [if_pos (by omega)]; rfl, by rw [if_pos h]⟩
    · exact ⟨0, by rw [if_neg (by omega)]; rfl, by rw [if_neg h]⟩
  obtain ⟨hk', hhk⟩ : ∃ h : ℕ, (if (s r : ℤ) = p ∨ (s r : ℤ) = n then (p : ℤ) - 1 else p) + 1 = h ∧ h = if s r = p ∨ s r = n then p else p + 1 := by
    by_cases h : s r = p ∨ s r = n
    · exact ⟨p, by rw [if_pos (by omega)]; ring, by rw [if_pos h]⟩
    · exact ⟨p + 1, by rw [if_neg (by omega)]; push_cast; ring, by rw [if_neg h]⟩
  rw [hl'.1, hhk.1]
  have hlk : l + hk' ≤ p + 1 := by
    rw [hl'.2, hhk.2]
    split_ifs <;> omega
  refine Runs.bind (Q := fun (B : List (List K)) => IsMat B (m - 1) (p + 1) ∧ ∀ a b, ent B a b =
    if a = r ∧ b < hk' then Nspan (nth kv) (s r) p (s r - p + (l + b)) (nth uk (r + 1)) else ent st.B a b) ?_ ?_
  · refine (Runs.forN (m := 0) (n := hk') (fun t (B : List (List K)) => IsMat B (m - 1) (p + 1) ∧ ∀ a b, ent B a b =
      if a = r ∧ b < t then Nspan (nth kv) (s r) p (s r - p + (l + b)) (nth uk (r + 1)) else ent st.B a b) rfl rfl (by omega)
      ⟨inv.lB, fun a b => by rw [if_neg (by omega)]⟩ ?_)
    rintro t B - ht ⟨q1, q2⟩
    rw [show (l : ℤ) + t = ((l + t : ℕ) : ℤ) by push_cast; ring, ho (l + t) (by omega), ok_bind]
    obtain ⟨B', eB, q3, q4⟩ := mset_ok q1 (i := ((r + 1 : ℕ) : ℤ) - 1) (j := (t : ℤ)) (a := r) (b := t)
      (x := Nspan (nth kv) (s r) p (s r - p + (l + t)) (nth uk (r + 1))) (by push_cast; ring) rfl hr (by omega)
    rw [eB]
    refine Runs.ok ⟨q3, fun a b => ?_⟩
    rw [q4 a b, q2 a b]
    by_cases h : a = r ∧ b = t
    · rw [if_pos h, if_pos ⟨h.1, by omega⟩, h.2]
    · rw [if_neg h]
      by_cases h' : a = r ∧ b < t
      · rw [if_pos h', if_pos ⟨h'.1, by omega⟩]
      · rw [if_neg h', if_neg (by omega)]
  · rintro B ⟨B1, B2⟩
    have hidx : max 0 ((s r : ℤ) - p - 1) = ((s r - p - 1 : ℕ) : ℤ) := by
      by_cases h : p + 1 ≤ s r
      · rw [max_eq_right (by omega)]; omega
      · rw [max_eq_left (by omega)]; omega
    rw [hidx, vset_of (k := r) (by push_cast; ring) (by rw [inv.lindex]; exact hr), ok_bind]
    have hix : ∀ k, k < r + 1 → nth (st.index.set r ((s r - p - 1 : ℕ) : ℤ)) k = ((s k - p - 1 : ℕ) : ℤ) := by
      intro k hk
      rw [nth_set (by rw [inv.lindex]; exact hr)]
      split
      · rename_i h; rw [h]
      · exact inv.index k (by omega)
    have hB : ∀ k, k < r + 1 → ∀ a, a < n - 1 → a + 1 ≤ s k → s k ≤ a + p + 1 → ent B k (a - (s k - p - 1)) = Nspan (nth kv) (s k) p (a + 1) (nth uk (k + 1)) := by
      intro k hk a ha h1 h2
      rw [B2]
      by_cases hkr : k = r
      · subst hkr
        have : a - (s k - p - 1) < hk' := by
          rw [hhk.2]; split_ifs <;> omega
        rw [if_pos ⟨rfl, this⟩]
        congr 1
        rw [hl'.2]
        split_ifs <;> omega
      · rw [if_neg (by omega)]
        exact inv.B k (by omega) a ha h1 h2
    have hcur : curSpan p s (r + 1) = s r := by unfold curSpan; rw [if_neg (by omega)]; rfl
    have hle : curSpan p s r ≤ s r := by
      unfold curSpan
      split
      · exact a1
      · exact hmono _ _ (by omega) hr
    have hbelow : ∀ k, k < r → s k ≤ curSpan p s r := by
      intro k hk
      unfold curSpan
      rw [if_neg (by omega)]
      exact hmono k (r - 1) (by omega) (by omega)
    have hpc : p ≤ curSpan p s r := by
      unfold curSpan
      split
      · exact le_refl _
      · exact (hspan (r - 1) (by omega)).2.1
    generalize hC : curSpan p s r = C at *
    obtain ⟨i1, i2, i3, i4, i5, i6, i7, i8, i9, i10, i11⟩ := inv
    rw [hC] at i5 i6 i7 i8 i9
    by_cases hj : C < s r
    · rw [if_pos (by rw [i5]; omega)]
      rw [i6, i7, i5, show (s r : ℤ) - C = ((s r - C : ℕ) : ℤ) by omega]
      refine Runs.bind (bandShift_run (i := r + 1) i1 i2 hpc (by omega) hn) ?_
      rintro ⟨sa, so, sj, ej⟩ ⟨g1, g2, g3, g4, g5, g6⟩
      dsimp only at g1 g2 g3 g4 g5 g6 ⊢
      refine Runs.ok ⟨g1, g2, by simp [i3], B1, by rw [hcur], by rw [hcur]; dsimp only; omega, by rw [hcur]; dsimp only; omega, ?_, ?_, hix, hB⟩
      · intro a ha ha'
        rw [hcur] at ha'
        dsimp only
        rw [g5 a ha]
        by_cases hac : C ≤ a
        · rw [if_pos (by omega)]
          refine ⟨r, by push_cast; ring, by omega, ?_⟩
          intro k hk
          by_cases hkr : k = r
          · subst hkr
            exact ⟨fun _ => by omega, fun _ => le_refl _⟩
          · have := hbelow k (by omega)
            constructor <;> intro h <;> omega
        · rw [if_neg (by omega)]
          obtain ⟨v, e1, e2, e3⟩ := i8 a ha (by omega)
          refine ⟨v, e1, by omega, ?_⟩
          intro k hk
          by_cases hkr : k = r
          · subst hkr
            exact ⟨fun _ => by omega, fun _ => e2⟩
          · exact e3 k (by omega)
      · intro a ha ha'
        rw [hcur] at ha'
        dsimp only
        rw [g6 a ha]
        by_cases hac : C ≤ a + p + 1
        · rw [if_pos (by omega)]
          refine ⟨by push_cast; omega, by push_cast; omega, ?_⟩
          intro k hk
          by_cases hkr : k = r
          · subst hkr
            constructor <;> intro h <;> omega
          · have := hbelow k (by omega)
            constructor <;> intro h <;> omega
        · rw [if_neg (by omega)]
          obtain ⟨e1, e2, e3⟩ := i9 a ha (by omega)
          refine ⟨by omega, e2, ?_⟩
          intro k hk
          by_cases hkr : k = r
          · subst hkr
            constructor <;> intro h <;> omega
          · exact e3 k (by omega)
    · have hCe : s r = C := by omega
      rw [if_neg (by rw [i5]; omega)]
      refine Runs.ok ⟨i1, i2, by simp [i3], B1, by rw [hcur, hCe]; exact i5, by rw [hcur, hCe]; exact i6, by rw [hcur, hCe]; exact i7, ?_, ?_, hix, hB⟩
      · intro a ha ha'
        rw [hcur, hCe] at ha'
        obtain ⟨v, e1, e2, e3⟩ := i8 a ha ha'
        refine ⟨v, e1, by omega, ?_⟩
        intro k hk
        by_cases hkr : k = r
        · subst hkr
          exact ⟨fun _ => by omega, fun _ => e2⟩
        · exact e3 k (by omega)
      · intro a ha ha'
        rw [hcur, hCe] at ha'
        obtain ⟨e1, e2, e3⟩ := i9 a ha ha'
        refine ⟨by dsimp only; omega, e2, ?_⟩
        intro k hk
        by_cases hkr : k = r
        · subst hkr
          dsimp only
          constructor <;> intro h <;> omega
        · exact e3 k (by omega)

theorem bandArrays_run : Runs (bandArrays p n m kv uk) (BandInv kv uk p n m s (m - 1)) := by
  unfold bandArrays
  have e1 : ((n : ℤ) - 1).toNat = n - 1 := by omega
  have e2 : ((m : ℤ) - 1).toNat = m - 1 := by omega
  rw [e1, e2]
  refine Runs.bind (Q := fun (start : List ℤ) => start.length = n - 1 ∧ ∀ a, nth start a = 0) ?_ ?_
  · refine (Runs.forN (m := 0) (n := min p (n - 1)) (fun k (start : List ℤ) => start.length = n - 1 ∧ ∀ a, nth start a = 0) rfl (by omega) (by omega)
      ⟨by simp, fun a => nth_replicate_zero⟩ ?_)
    rintro i l - hi ⟨q1, q2⟩
    rw [vset_of (k := i) rfl (by omega)]
    refine Runs.ok ⟨by simp [q1], fun a => ?_⟩
    rw [nth_set (by omega), q2 a, ite_self]
  · rintro start ⟨s1, s2⟩
    rw [vset_of (i := 0) (k := 0) rfl (by rw [List.length_replicate]; omega), ok_bind]
    dsimp only
    refine (Runs.forN (m := 1) (n := m) (fun k (st : BandState K) => BandInv kv uk p n m s (k - 1) st) rfl (by ring) hm ?_ ?_)
    · have hc : curSpan p s (1 - 1) = p := rfl
      refine ⟨s1, by simp, by simp, ?_, by rw [hc], by rw [hc], by rw [hc]; dsimp only; ring, ?_, ?_, ?_, ?_⟩
      · show IsMat (List.replicate (m - 1) (List.replicate ((p : ℤ) + 1).toNat (0 : K))) (m - 1) (p + 1)
        rw [show ((p : ℤ) + 1).toNat = p + 1 by omega]
        exact isMat_replicate
      · intro a _ _
        exact ⟨0, s2 a, by omega, fun k hk => absurd hk (by omega)⟩
      · intro a ha h
        rw [hc] at h
        omega
      · intro k hk; omega
      · intro k hk; omega
    · rintro i st hi1 him inv
      have := bandRound_run hp hp7 hpn hn hm hl hk hsort hspan hmono (r := i - 1) (by omega) inv
      rw [show i - 1 + 1 = i by omega] at this
      exact this

/-- after the last loop over `end` the arrays are complete -/
theorem bandStop_run {st : BandState K} (inv : BandInv kv uk p n m s (m - 1) st) (hsj : ¬ st.sj < (n : ℤ) - 2) :
    Runs (forI (max 0 (st.ej + 1)) ((n : ℤ) - 2 + 1) st.stop fun i stop => vset stop i ((m : ℤ) - 2)) (BandReady kv uk p n m s st) := by
  obtain ⟨i1, i2, i3, i4, i5, i6, i7, i8, i9, i10, i11⟩ := inv
  have hbelow : ∀ k, k < m - 1 → s k ≤ curSpan p s (m - 1) := by
    intro k hk
    unfold curSpan
    rw [if_neg (by omega)]
    exact hmono k (m - 1 - 1) (by omega) (by omega)
  have hCn : curSpan p s (m - 1) ≤ n := by
    unfold curSpan
    split
    · exact hpn
    · exact (hspan (m - 1 - 1) (by omega)).2.2.1
  generalize curSpan p s (m - 1) = C at *
  obtain ⟨e, he⟩ : ∃ e : ℕ, max 0 (st.ej + 1) = (e : ℤ) ∧ e = C - p - 1 := ⟨C - p - 1, by rw [i7]; omega, rfl⟩
  rw [he.1]
  refine (Runs.forN (m := e) (n := n - 1) (fun k (stop : List ℤ) => stop.length = n - 1 ∧ ∀ a, nth stop a = if e ≤ a ∧ a < k then (m : ℤ) - 2 else nth st.stop a) rfl
    (by omega) (by omega) ⟨i2, fun a => by rw [if_neg (by omega)]⟩ ?_).mono ?_
  · rintro i l hi0 hi ⟨q1, q2⟩
    rw [vset_of (k := i) rfl (by omega)]
    refine Runs.ok ⟨by simp [q1], fun a => ?_⟩
    rw [nth_set (by omega), q2 a]
    split_ifs <;> first | rfl | omega
  · rintro stop ⟨q1, q2⟩
    refine ⟨i1, q1, i3, i4, ?_, ?_, i10, i11⟩
    · intro a ha
      obtain ⟨v, e1, -, e3⟩ := i8 a ha (by omega)
      exact ⟨v, e1, e3⟩
    · intro a ha
      rw [q2 a]
      by_cases h : e ≤ a
      · rw [if_pos ⟨h, ha⟩]
        refine ⟨by omega, ?_⟩
        intro k hk
        have := hbelow k hk
        constructor <;> intro _ <;> omega
      · rw [if_neg (by omega)]
        obtain ⟨e1, -, e3⟩ := i9 a ha (by omega)
        exact ⟨e1, e3⟩

end

end LNLib.Props
