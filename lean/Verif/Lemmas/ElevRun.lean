import Verif.Lemmas.ElevRound

/-! # The run of `ElevateDegree` -/
set_option linter.unusedSectionVars false

namespace LNLib
open Res Spec Finset Multiset KnotShape

variable {K : Type} [Field K] [LinearOrder K] [IsStrictOrderedRing K]
variable {T : Type} [AddCommGroup T] [Module K T]
variable {U : List K} {P : List T} {p n q t N : ℕ}

theorem settled_of (h : KnotShape U p n q) {Q : List T} {i a : ℕ} (hpa : p ≤ a) (han : a ≤ n) (hlt : nth U a < nth U (a + 1))
    (h1 : i ≤ sig (nth U) p t a) (h2 : sig (nth U) p t a ≤ i + (p + t))
    (hQ : nth Q i = G U P p a (kms (elevKnot (nth U) p n t) (i + 1) (p + t))) : ElevSettled U P p n t Q i := by
  intro x x1 x2 x3 x4 x5
  rw [hQ]
  rcases le_total a x with hax | hxa
  · exact h.G_chain hpa hlt h1 x hax x2 x3 x5
  · exact (h.G_chain x1 x3 x4 a hxa han hlt h2).symm

/-- what holds when the main loop has ended -/
structure ElevDone (U : List K) (P : List T) (p n t N : ℕ) (st : ElevateState K T) : Prop where
  lenQ : st.Q.length = N + 1
  lenV : st.V.length = N + (p + t) + 2
  V1 : ∀ j ≤ sig (nth U) p t n + (p + t) + 1, nth st.V j = elevKnot (nth U) p n t j
  V0 : ∀ j, sig (nth U) p t n + (p + t) + 1 < j → nth st.V j = 0
  set : ∀ i ≤ sig (nth U) p t n, ElevSettled U P p n t st.Q i
  Q0 : ∀ i, sig (nth U) p t n < i → nth st.Q i = 0

def ElevInv (U : List K) (P : List T) (p n t N : ℕ) (st : ElevateState K T) : Prop :=
  (∃ a ρ k0 cind kk : ℕ, EmitPre U P p n t N a ρ k0 cind kk st ∧ st.b = ((a + 1 : ℕ) : ℤ) ∧ IsStart U P p a st.bpts ∧ st.nextbpts.length = p - 1) ∨
  (st.b = ((n + p + 1 : ℕ) : ℤ) ∧ ElevDone U P p n t N st)

set_option maxHeartbeats 1000000 in
-- many index side conditions
theorem elevateRound_run (h : KnotShape U p n q) (hq : q ≤ p) (ht : 0 < t) (h7 : p ≤ 7) {st : ElevateState K T} {B : List (List K)}
    (hB : IsMat B (p + t + 1) (p + 1)) (hBv : ∀ i j, i ≤ p + t → j ≤ p → ent B i j = elevCoeff K p t i j)
    (hP : P.length = n + 1) (hN : sig (nth U) p t n ≤ N) (hi : ElevInv U P p n t N st) (hb : st.b < ((n + p + 1 : ℕ) : ℤ)) :
    Runs (elevateRound U P (p : ℤ) (t : ℤ) ((n + p + 1 : ℕ) : ℤ) B st) (fun st' => ElevInv U P p n t N st' ∧ st.b < st'.b) := by
  rcases hi with ⟨a, ρ, k0, cind, kk, hst, s2, hcur, hnx⟩ | ⟨h1, _⟩
  swap
  · omega
  have hpa := hst.pa
  have han := hst.an
  have hlt := hst.lt
  have hk0e := hst.k0e
  have hρp := hst.ρp
  have hpt : p + t ≤ sig (nth U) p t a := by rw [← h.sig_first (t := t)]; exact sig_le (le_refl _) hpa
  have hσn := sig_le (U := nth U) (t := t) hpa han
  unfold elevateRound
  have hlen := h.len
  have hlbz : (if st.r > 0 then (st.r + 2) / 2 else 1) = ((ρ / 2 + 1 : ℕ) : ℤ) := by
    rcases hst.cases with ⟨_, h2, h3, _⟩ | ⟨_, h2, _⟩
    · rw [if_neg (by omega)]; omega
    · by_cases h3 : st.r > 0
      · rw [if_pos h3]; omega
      · rw [if_neg h3]; omega
  rcases Nat.lt_or_ge a n with hn | hge
  · obtain ⟨μ, hblk⟩ := exists_block (U := nth U) (m := n + p + 1) (a := a) h.mono (by omega)
    obtain ⟨i1, i2, i3⟩ := h.inner hpa hn hlt hblk
    have hpos := hblk.pos
    have hval := h.block_val hpa hn hlt hblk (by omega)
    have hσ := sig_block (t := t) hpa hblk i2
    rw [s2, skipEqual_block (by omega) h.sep hblk, ok_bind]
    have em : ((a + μ : ℕ) : ℤ) - ((a + 1 : ℕ) : ℤ) + 1 = (μ : ℤ) := by push_cast; ring
    rw [em]
    dsimp only
    rw [vget_nth (k := a + μ) rfl (by omega), ok_bind, hlbz]
    have hrbz : (if (p : ℤ) - μ > 0 then (p : ℤ) + t - ((p : ℤ) - μ + 1) / 2 else (p : ℤ) + t) = ((p + t - (p - μ + 1) / 2 : ℕ) : ℤ) := by
      by_cases h3 : (p : ℤ) - μ > 0
      · rw [if_pos h3]; omega
      · rw [if_neg h3]; omega
    rw [hrbz, hval, hst.ha, hst.ua]
    have hden : ∀ k, μ < k → k ≤ p → nth U (a + k) - nth U a ≠ 0 := by
      intro k hk1 hk2
      exact (h.piece hpa han hlt).den (le_refl _) (by omega) (by omega)
    refine Runs.bind (Q := fun (r : List T × List T) => IsBez U P p a r.1 ∧ r.2.length = p - 1 ∧
      ∀ i, i < p - μ → nth r.2 i = pol (nth U) p (nth P) a (Multiset.replicate (p - μ - i) (nth U (a + 1)) + kms (nth U) (a + 1) (μ + i))) ?_ ?_
    · by_cases h3 : (p : ℤ) - μ > 0
      · rw [if_pos h3]
        refine Runs.bind (splitAlphas_run (by omega) (by omega) (by simp; omega) hden) ?_
        rintro alfs ⟨ha1, ha2⟩
        rw [List.length_replicate] at ha1
        refine (splitPiece_run (f := pol (nth U) p (nth P) a) (pol_polar (h.piece hpa han hlt)) hpos (by omega) hblk.eq
          (by omega) ha2 hden true hcur.1 (fun _ => by omega) hcur.2).mono ?_
        rintro ⟨cur', nxt'⟩ ⟨g1, g2, g3, g4⟩
        dsimp only at g1 g2 g3 g4 ⊢
        refine ⟨⟨g1, g3⟩, by omega, ?_⟩
        intro i hi
        rw [g4, if_pos ⟨rfl, hi⟩]
      · rw [if_neg h3]
        refine Runs.ok ⟨⟨hcur.1, ?_⟩, hnx, fun i hi => by omega⟩
        intro i hi
        dsimp only
        rw [hcur.2 i hi, kms_const (fun k hk => hblk.eq k (by omega))]
    rintro ⟨cur', nxt'⟩ ⟨g1, g2, g3⟩
    dsimp only at g1 g2 g3 ⊢
    refine Runs.bind (elevateEmit_run h ht h7 hB hBv hN hst g1 rfl (by omega) (by omega)) ?_
    rintro ⟨Q', V', kd', cd'⟩ ⟨r1, r2, r3, r4, r5, r6, r7, r8, r9⟩
    dsimp only at r1 r2 r3 r4 r5 r6 r7 r8 r9 ⊢
    rw [if_pos (by omega)]
    refine Runs.bind (Runs.fill (e := 0) (f := fun i => nth nxt' i) (rd := fun i => vget nxt' i)
      (dst := fun i => i) (fun i => by ring) (by omega) (by have := g1.1; omega) (by omega) (fun i hi1 hi2 => vget_nth (by omega) (by omega))) ?_
    rintro bp1 ⟨f1, f2⟩
    refine Runs.bind (Runs.fill (e := 0) (f := fun i => nth P (a + μ - p + i)) (rd := fun i => vget P (((a + μ : ℕ) : ℤ) - p + i))
      (dst := fun i => i) (fun i => by ring) (by omega) (by have := g1.1; omega) (by omega) (fun i hi1 hi2 => vget_nth (by omega) (by omega))) ?_
    rintro bp2 ⟨f3, f4⟩
    refine Runs.ok ⟨Or.inl ⟨a + μ, p - μ, sig (nth U) p t a + 1, k0 + (p + t - (p - μ + 1) / 2) - ρ, sig (nth U) p t a + 1, ?_, by dsimp only; push_cast; ring, ?_, g2⟩,
      by dsimp only; push_cast; omega⟩
    · refine ⟨rfl, by omega, i1, i2, hval.symm, Or.inr ⟨by omega, by dsimp only; omega, rfl, by omega, ?_, ?_⟩, r3, by omega, by omega, r4, by omega, r1, r2, ?_, ?_, ?_, ?_, ?_, r9⟩
      · intro j hj
        rw [hval]
        exact lt_of_le_of_lt (h.ek_le hpa han hlt (by omega)) hlt
      · intro e he
        rw [h.ek_at hpa han hlt _ (by omega) (by omega), h.ek_at hpa han hlt _ (by omega) (by omega)]
      · intro j hj; exact r5 j (by omega)
      · intro j hj; exact r6 j (by omega)
      · intro j hj1 hj2
        rw [hval]
        exact h.ek_block hpa hn hlt hblk (by omega) hj2
      · intro i hi
        by_cases hold : i + 1 + ρ < k0
        · exact r7 i hold
        · refine settled_of h hpa han hlt (by omega) (by omega) ?_
          dsimp only
          rw [r8 i (by omega) (by omega)]
          congr 1
          have e : p + t = (sig (nth U) p t a - i) + (p + t - (sig (nth U) p t a - i)) := by omega
          conv_rhs => rw [e, kms_add]
          rw [kms_const (a := i + 1 + (sig (nth U) p t a - i)) (x := nth U (a + 1))]
          intro k hk
          exact h.ek_block hpa hn hlt hblk (by omega) (by omega)
      · intro d hd1 hd2
        dsimp only
        rw [r8 _ (by omega) (by omega), hval]
        have e1 : sig (nth U) p t a + 1 - 1 - d + 1 = sig (nth U) p t a + 1 - d := by omega
        have e2 : sig (nth U) p t a - (sig (nth U) p t a + 1 - 1 - d) = d := by omega
        rw [e1, e2]
        apply h.G_cross (t := t) hpa hn hlt hblk
        · simp; omega
        · rw [Multiset.count_add, Multiset.count_replicate_self]; omega
    · have hl1 := g1.1
      refine ⟨by dsimp only; omega, ?_⟩
      intro i hi
      dsimp only
      rw [f4 i]
      by_cases hip : i < p - μ
      · rw [if_neg (by omega), f2 i, if_pos (by omega), g3 i hip]
        exact h.start_saved hpa hn hlt hblk (by omega) hip
      · rw [if_pos (by omega)]
        exact h.start_copied hpa hn hlt hblk (by omega) (by omega) hi
  · obtain rfl : a = n := by omega
    rw [s2, skipEqual_block (by omega) h.sep h.outer, ok_bind]
    have em : ((a + (p + 1) : ℕ) : ℤ) - ((a + 1 : ℕ) : ℤ) + 1 = (p : ℤ) + 1 := by push_cast; ring
    rw [em]
    dsimp only
    have hval : nth U (a + (p + 1)) = nth U (a + 1) := by
      have e := h.outer.eq p (by omega)
      rwa [show a + 1 + p = a + (p + 1) by omega] at e
    rw [vget_nth (k := a + (p + 1)) rfl (by omega), ok_bind, hlbz, hval, if_neg (by omega), if_neg (by omega), ok_bind]
    dsimp only
    have e0 : (p : ℤ) + t = ((p + t : ℕ) : ℤ) := by push_cast; rfl
    rw [e0]
    refine Runs.bind (elevateEmit_run h ht h7 hB hBv hN hst (h.end_bez hcur) rfl (by omega) (le_refl _)) ?_
    rintro ⟨Q', V', kd', cd'⟩ ⟨r1, r2, r3, r4, r5, r6, r7, r8, r9⟩
    dsimp only at r1 r2 r3 r4 r5 r6 r7 r8 r9 ⊢
    rw [if_neg (by omega)]
    refine Runs.bind (Q := fun (V : List K) => V.length = N + (p + t) + 2 ∧
      (∀ j < sig (nth U) p t a + 1 + (p + t + 1), nth V j = elevKnot (nth U) p a t j) ∧
      (∀ j, sig (nth U) p t a + 1 + (p + t + 1) ≤ j → nth V j = 0)) ?_ ?_
    · refine Runs.forN (m := 0) (n := p + t + 1) (fun k (V : List K) => V.length = N + (p + t) + 2 ∧
        (∀ j < sig (nth U) p t a + 1 + k, nth V j = elevKnot (nth U) p a t j) ∧
        (∀ j, sig (nth U) p t a + 1 + k ≤ j → nth V j = 0)) rfl (by push_cast; ring) (by omega)
        ⟨r2, fun j hj => r5 j (by omega), fun j hj => r6 j (by omega)⟩ ?_
      rintro k V _ hk ⟨v1, v2, v3⟩
      rw [r3, vset_of (k := sig (nth U) p t a + 1 + k) (by push_cast; ring) (by omega)]
      refine Runs.ok ⟨by simpa using v1, ?_, ?_⟩
      · intro j hj
        rw [nth_set (by omega)]
        by_cases hjk : j = sig (nth U) p t a + 1 + k
        · rw [if_pos hjk, h.ek_last (by omega)]
        · rw [if_neg hjk, v2 j (by omega)]
      · intro j hj
        rw [nth_set (by omega), if_neg (by omega), v3 j (by omega)]
    · rintro V ⟨v1, v2, v3⟩
      refine Runs.ok ⟨Or.inr ⟨by dsimp only; omega, r1, v1, fun j hj => v2 j (by omega), fun j hj => v3 j (by omega), ?_, fun i hi => r9 i (by omega)⟩, by dsimp only; omega⟩
      intro i hi
      by_cases hold : i + 1 + ρ < k0
      · exact r7 i hold
      · refine settled_of h hpa han hlt hi (by omega) ?_
        dsimp only
        rw [r8 i (by omega) (by omega)]
        congr 1
        have e : p + t = (sig (nth U) p t a - i) + (p + t - (sig (nth U) p t a - i)) := by omega
        conv_rhs => rw [e, kms_add]
        rw [kms_const (a := i + 1 + (sig (nth U) p t a - i)) (x := nth U (a + 1))]
        intro k hk
        exact h.ek_last (by omega)

theorem sig_bound (U : List K) (p n t : ℕ) : sig (nth U) p t n ≤ n + (n + 1 - p) * t := by
  unfold sig
  have : (spansFrom (nth U) p (n + 1 - p)).length ≤ n + 1 - p := by
    unfold spansFrom
    exact (List.length_filter_le _ _).trans (by simp)
  have := Nat.mul_le_mul_left t this
  rw [Nat.mul_comm (n + 1 - p) t]
  omega

/-- The result of `ElevateDegree`: the elevated curve, followed by `t` zeros per excess repetition of
an interior knot. -/
theorem elevateDegree_run {c : BsplineCurve K T} (hU : c.knots = U) (hPc : c.cps = P) (hdeg : c.degree = p)
    (h : KnotShape U p n q) (hq : q ≤ p) (h7 : p ≤ 7) (ht : 0 < t) (hP : P.length = n + 1) :
    ∃ st : ElevateState K T, ElevDone U P p n t (n + (n + 1 - p) * t) st ∧
      elevateDegree c (t : ℤ) = ok { degree := ((p + t : ℕ) : ℤ), knots := st.V, cps := st.Q } := by
  have hlen := h.len
  have hpn := h.pn
  have hpos := h.pos
  have hmain : Runs (elevateDegree c (t : ℤ)) (fun r => ∃ st : ElevateState K T, ElevDone U P p n t (n + (n + 1 - p) * t) st ∧
      r = { degree := ((p + t : ℕ) : ℤ), knots := st.V, cps := st.Q }) := by
    unfold elevateDegree
    rw [hU, hPc, hdeg]
    dsimp only
    rw [validate_of (by simpa using ht), ok_bind]
    refine Runs.bind (bezierElevation_run hpos ht) ?_
    rintro B ⟨hB, hBv⟩
    rw [vget_nth (i := 0) (k := 0) rfl (by omega), ok_bind, vget_nth (i := 0) (k := 0) rfl (by omega), ok_bind]
    have en : ((P.length : ℤ) - 1) = (n : ℤ) := by omega
    have enh : (n : ℤ) + ((U.length : ℤ) - ((p : ℤ) + 1) - ((p : ℤ) + 1) + 1) * t = ((n + (n + 1 - p) * t : ℕ) : ℤ) := by
      rw [hlen]
      push_cast
      rw [Nat.cast_sub (by omega)]
      push_cast
      ring
    rw [en, enh]
    set N := n + (n + 1 - p) * t with hNdef
    have hσN : sig (nth U) p t n ≤ N := sig_bound U p n t
    have e1 : ((N : ℤ) + 1).toNat = N + 1 := by omega
    have e2 : ((N : ℤ) + 1 + ((p : ℤ) + t) + 1).toNat = N + (p + t) + 2 := by omega
    rw [e1, e2, vset_of (i := (0 : ℤ)) (k := 0) (by simp) (by simp), ok_bind]
    refine Runs.bind (Q := fun (V : List K) => V.length = N + (p + t) + 2 ∧ (∀ j < p + t + 1, nth V j = nth U p) ∧ ∀ j, p + t + 1 ≤ j → nth V j = 0) ?_ ?_
    · refine Runs.forN (m := 0) (n := p + t + 1) (fun k (V : List K) => V.length = N + (p + t) + 2 ∧ (∀ j < k, nth V j = nth U p) ∧ ∀ j, k ≤ j → nth V j = 0)
        rfl (by push_cast; ring) (by omega) ⟨by simp, fun j hj => by omega, fun j _ => nth_replicate_zero⟩ ?_
      rintro k V _ hk ⟨v1, v2, v3⟩
      rw [vset_of (k := k) rfl (by omega)]
      refine Runs.ok ⟨by simpa using v1, ?_, ?_⟩
      · intro j hj
        rw [nth_set (by omega)]
        by_cases hjk : j = k
        · rw [if_pos hjk, h.first]
        · rw [if_neg hjk, v2 j (by omega)]
      · intro j hj
        rw [nth_set (by omega), if_neg (by omega), v3 j (by omega)]
    rintro V ⟨v1, v2, v3⟩
    have e3 : ((p : ℤ) + 1).toNat = p + 1 := by omega
    rw [e3]
    refine Runs.bind (Runs.fill (e := 0) (f := fun i => nth P i) (rd := fun i => vget P i)
      (dst := fun i => i) (fun i => by ring) (by omega) (by simp) (by omega) (fun i hi1 hi2 => vget_nth (by omega) (by omega))) ?_
    rintro bp ⟨b1, b2⟩
    rw [List.length_replicate] at b1
    refine Runs.bind (Runs.whileF (μ := fun st => (((n + p + 1 : ℕ) : ℤ) - st.b).toNat) (Inv := ElevInv U P p n t N)
      (Post := ElevDone U P p n t N) ?_ _ _ ?_ ?_) ?_
    · intro st hst
      have em : (n : ℤ) + p + 1 = ((n + p + 1 : ℕ) : ℤ) := by push_cast; ring
      by_cases hb : st.b < ((n + p + 1 : ℕ) : ℤ)
      · right
        refine ⟨by rw [em]; simpa using hb, ?_⟩
        rw [em]
        refine (elevateRound_run h hq ht h7 hB hBv hP hσN hst hb).mono ?_
        rintro st' ⟨g1, g2⟩
        exact ⟨g1, by omega⟩
      · left
        refine ⟨by rw [em]; simpa using hb, ?_⟩
        rcases hst with ⟨a, _, _, _, _, hst, s2, _⟩ | ⟨_, h2⟩
        · have := hst.an
          omega
        · exact h2
    · refine Or.inl ⟨p, 0, 1, 1, p + t + 1, ?_, by dsimp only; push_cast; ring, ⟨b1, ?_⟩, by simp⟩
      · refine ⟨rfl, le_refl _, hpn, h.lo, h.first, Or.inl ⟨rfl, rfl, rfl, rfl, rfl⟩, by dsimp only; push_cast; ring, by rw [h.sig_first]; omega, hpos,
          rfl, rfl, by simp, v1, ?_, v3, ?_, fun i hi => by omega, ?_, ?_⟩
        · intro j hj
          dsimp only
          rw [v2 j hj, ek_first (by omega)]
        · intro j _ hj
          rw [h.sig_first] at hj
          exact ek_first hj
        · intro d hd _
          obtain rfl : d = 0 := by omega
          have hs := h.start_first (P := P) (i := 0) (by omega)
          dsimp only
          rw [nth_set (by simp), if_pos (by omega), hs]
          unfold G
          rw [kms_zero, kms_zero, zero_add, add_zero, Nat.sub_zero, Nat.sub_zero, elev_diag (by omega)]
        · intro i hi
          dsimp only
          rw [nth_set (by simp), if_neg (by omega), nth_replicate_zero]
      · intro i hi
        dsimp only
        rw [b2 i, if_pos (by omega)]
        exact h.start_first hi
    · dsimp only
      omega
    · intro st hst
      exact Runs.ok ⟨st, hst, by simp⟩
  obtain ⟨r, hr, st, h1, rfl⟩ := hmain
  exact ⟨st, h1, hr⟩

end LNLib
