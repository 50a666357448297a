import Verif.Lemmas.DecompRun
import Verif.Model.SurfaceDecompose

/-! # The surface version of the decomposition produces the Bézier points of every nonempty span -/
set_option linter.unusedSectionVars false

namespace LNLib
open Res Spec Finset

variable {K : Type} [Field K] [LinearOrder K] [IsStrictOrderedRing K]
variable {X : Type} [AddCommGroup X] [Module K X]
variable {U : List K} {P : List X} {p n q : ℕ}

/-- on sorted knots the two ways of recognising a repeated knot agree -/
theorem skipLessEqual_eq {m : ℕ} (hm : m < U.length) (hmono : MonoTo (nth U) m) {b : ℕ} :
    skipLessEqual U (m : ℤ) (b : ℤ) = skipEqual U (m : ℤ) (b : ℤ) := by
  unfold skipLessEqual skipEqual
  have key : ∀ (fuel b : ℕ), whileF (fun b => if b < (m : ℤ) then do
      let x ← vget U (b + 1)
      let y ← vget U b
      ok (isLessThanOrEqual x y)
    else ok false) (fun b => ok (b + 1)) fuel (b : ℤ) = whileF (fun b => if b < (m : ℤ) then do
      let x ← vget U (b + 1)
      let y ← vget U b
      ok (isAlmostEqualTo x y)
    else ok false) (fun b => ok (b + 1)) fuel (b : ℤ) := by
    intro fuel
    have hc : ∀ b : ℕ, (if (b : ℤ) < (m : ℤ) then do
        let x ← vget U ((b : ℤ) + 1)
        let y ← vget U (b : ℤ)
        ok (isLessThanOrEqual x y)
      else ok false) = (if (b : ℤ) < (m : ℤ) then do
        let x ← vget U ((b : ℤ) + 1)
        let y ← vget U (b : ℤ)
        ok (isAlmostEqualTo x y)
      else ok false : Res Bool) := by
      intro b
      by_cases hb : (b : ℤ) < m
      · rw [if_pos hb, if_pos hb, vget_nth (k := b + 1) (by omega) (by omega), ok_bind, ok_bind, vget_nth (k := b) rfl (by omega), ok_bind, ok_bind]
        congr 1
        have := hmono b (b + 1) (by omega) (by omega)
        unfold isLessThanOrEqual isAlmostEqualTo
        rw [abs_of_nonneg (by linarith)]
      · rw [if_neg hb, if_neg hb]
    induction fuel with
    | zero => intro b; simp only [whileF]; rw [hc]
    | succ k ih =>
      intro b
      simp only [whileF]
      rw [hc]
      congr 1
      funext t
      cases t
      · rfl
      · simp only [if_true, ok_bind]
        have := ih (b + 1)
        push_cast at this
        exact this
  exact key _ _

/-- what holds before every round: finished pieces, the current one, and unused ones -/
def PatchInv (U : List K) (P : List X) (p n L : ℕ) (pre : List (List X)) (st : DecompState X) : Prop :=
  st.pieces.length = L ∧
  ((∃ (a : ℕ) (dn : List ℕ) (rows : List (List X)) (cur : List X) (R : ℕ), st.a = a ∧ st.b = (a + 1 : ℕ) ∧ st.nb = ((pre ++ rows).length : ℕ) ∧
    p ≤ a ∧ a ≤ n ∧ nth U a < nth U (a + 1) ∧
    spansFrom (nth U) p (n + 1 - p) = dn ++ a :: spansFrom (nth U) (a + 1) (n - a) ∧
    st.pieces = (pre ++ rows) ++ cur :: List.replicate R (List.replicate (p + 1) 0) ∧ (spansFrom (nth U) (a + 1) (n - a)).length ≤ R ∧
    List.Forall₂ (IsBez U P p) dn rows ∧ IsStart U P p a cur) ∨
  (st.b = (n + p + 1 : ℕ) ∧ ∃ (rows : List (List X)) (R : ℕ), st.nb = ((pre ++ rows).length : ℕ) ∧
    st.pieces = (pre ++ rows) ++ List.replicate R (List.replicate (p + 1) 0) ∧ List.Forall₂ (IsBez U P p) (spansFrom (nth U) p (n + 1 - p)) rows))

theorem block_bez {a μ : ℕ} {row : List X} (hb : Block (nth U) (n + p + 1) a μ) (hμ : p ≤ μ) (hr : IsStart U P p a row) : IsBez U P p a row := by
  refine ⟨hr.1, ?_⟩
  intro i hi
  rw [hr.2 i hi, kms_const (fun k hk => hb.eq k (by omega))]

theorem patchRound_run (h : KnotShape U p n q) (hq : q ≤ p) (hP : P.length = n + 1) {rd : ℤ → Res X} (hrd : ∀ k : ℕ, k ≤ n → rd k = ok (nth P k))
    {asize L : ℕ} (has : p ≤ asize) {pre : List (List X)} {st : DecompState X} (hi : PatchInv U P p n L pre st) (hb : st.b < (n + p + 1 : ℕ)) :
    Runs (patchRound U rd (p : ℤ) ((n + p + 1 : ℕ) : ℤ) (asize : ℤ) st) (fun st' => PatchInv U P p n L pre st' ∧ st.b < st'.b) := by
  obtain ⟨hL, ⟨a, dn, rows, cur, R, s1, s2, s3, hpa, han, hlt, hspans, hpieces, hR, hdone, hcur⟩ | ⟨h1, _⟩⟩ := hi
  swap
  · omega
  unfold patchRound
  have hlen := h.len
  rcases Nat.lt_or_ge a n with hn | hge
  · obtain ⟨μ, hblk⟩ := exists_block (U := nth U) (m := n + p + 1) (a := a) h.mono (by omega)
    obtain ⟨i1, i2, i3⟩ := h.inner hpa hn hlt hblk
    have hpos := hblk.pos
    have hval := h.block_val hpa hn hlt hblk (by omega)
    rw [s2, skipLessEqual_eq (by omega) h.mono, skipEqual_block (by omega) h.sep hblk, ok_bind]
    have em : ((a + μ : ℕ) : ℤ) - ((a + 1 : ℕ) : ℤ) + 1 = (μ : ℤ) := by push_cast; ring
    rw [em]
    dsimp only
    have hden : ∀ k, μ < k → k ≤ p → nth U (a + k) - nth U a ≠ 0 := by
      intro k hk1 hk2
      exact (h.piece hpa han hlt).den (le_refl _) (by omega) (by omega)
    have hnext := spansFrom_block (n := n) hblk i1 i2
    rw [hnext, List.length_cons] at hR
    obtain ⟨R', rfl⟩ : ∃ R', R = R' + 1 := ⟨R - 1, by omega⟩
    have hsplit : Runs (patchSplit U (p : ℤ) ((n + p + 1 : ℕ) : ℤ) (asize : ℤ) st.a ((a + μ : ℕ) : ℤ) st.nb (μ : ℤ) st.pieces)
        (fun r => ∃ cur' nxt', r = (pre ++ rows) ++ cur' :: nxt' :: List.replicate R' (List.replicate (p + 1) 0) ∧ IsBez U P p a cur' ∧
          nxt'.length = p + 1 ∧ ∀ i, i < p - μ → nth nxt' i = pol (nth U) p (nth P) a (Multiset.replicate (p - μ - i) (nth U (a + 1)) + kms (nth U) (a + 1) (μ + i))) := by
      unfold patchSplit
      rcases Nat.lt_or_ge μ p with hμ | hμ
      · rw [if_pos (by omega), vget_nth (k := a + μ) rfl (by omega), ok_bind, s1, vget_nth (k := a) rfl (by omega), ok_bind]
        refine Runs.bind (splitAlphas_run (by omega) (by omega) (by simp; omega) hden) ?_
        rintro alfs ⟨ha1, ha2⟩
        rw [hval] at ha2
        rw [List.length_replicate] at ha1
        rw [hpieces, vget_mid s3, ok_bind, if_pos (by omega), List.replicate_succ, vget_mid1 (by omega), ok_bind]
        refine Runs.bind (splitPiece_run (f := pol (nth U) p (nth P) a) (pol_polar (h.piece hpa han hlt)) hpos (by omega) hblk.eq
          (by omega) ha2 hden true hcur.1 (fun _ => by simp; omega) hcur.2) ?_
        rintro ⟨cur', nxt'⟩ ⟨g1, g2, g3, g4⟩
        dsimp only at g1 g2 g3 g4 ⊢
        rw [List.length_replicate] at g2
        simp only [true_and] at g4
        rw [vset_mid s3, ok_bind, vset_mid1 (by omega)]
        exact Runs.ok ⟨cur', nxt', rfl, ⟨g1, g3⟩, g2, fun i hi => by rw [g4, if_pos hi]⟩
      · rw [if_neg (by omega)]
        exact Runs.ok ⟨cur, List.replicate (p + 1) 0, by rw [hpieces, List.replicate_succ], block_bez hblk hμ hcur, by simp, fun i hi => by omega⟩
    refine Runs.bind hsplit ?_
    rintro _ ⟨cur', nxt', rfl, g1, g2, g4⟩
    rw [if_pos (by omega), vget_mid1 (by omega), ok_bind]
    refine Runs.bind (Runs.fill (e := 0) (f := fun i => nth P (a + μ - p + i)) (rd := fun i => rd (((a + μ : ℕ) : ℤ) - p + i))
      (dst := fun i => i) (fun i => by ring) (by omega) (by omega) (by omega) (fun i hi1 hi2 => ?_)) ?_
    · rw [show ((a + μ : ℕ) : ℤ) - p + i = ((a + μ - p + (i + 0).toNat : ℕ) : ℤ) by omega]
      exact hrd _ (by omega)
    rintro nxt'' ⟨f1, f2⟩
    rw [vset_mid1 (by omega), ok_bind]
    refine Runs.ok ⟨⟨?_, Or.inl ⟨a + μ, dn ++ [a], rows ++ [cur'], nxt'', R', rfl, by push_cast; ring, by rw [s3]; simp; ring, by omega, i1, i2, ?_, ?_, by omega, ?_, ?_⟩⟩,
      by show ((a + 1 : ℕ) : ℤ) < _; push_cast; omega⟩
    · rw [← hL, hpieces]; simp
    · rw [hspans, hnext]; simp
    · simp
    · apply List.rel_append hdone
      exact List.Forall₂.cons g1 List.Forall₂.nil
    · refine ⟨by omega, ?_⟩
      intro i hi
      rw [f2 i]
      by_cases hip : i < p - μ
      · rw [if_neg (by omega), g4 i hip]
        exact h.start_saved hpa hn hlt hblk (by omega) hip
      · rw [if_pos (by omega)]
        exact h.start_copied hpa hn hlt hblk (by omega) (by omega) hi
  · obtain rfl : a = n := by omega
    rw [s2, skipLessEqual_eq (by omega) h.mono, skipEqual_block (by omega) h.sep h.outer, ok_bind]
    have em : ((a + (p + 1) : ℕ) : ℤ) - ((a + 1 : ℕ) : ℤ) + 1 = (p : ℤ) + 1 := by push_cast; ring
    rw [em]
    dsimp only
    unfold patchSplit
    rw [if_neg (by omega), ok_bind, if_neg (by omega)]
    refine Runs.ok ⟨⟨hL, Or.inr ⟨by dsimp only; omega, rows ++ [cur], R, by rw [s3]; simp; ring, by rw [hpieces]; simp, ?_⟩⟩, by dsimp only; omega⟩
    rw [hspans, Nat.sub_self]
    apply List.rel_append hdone
    exact List.Forall₂.cons (h.end_bez hcur) List.Forall₂.nil

theorem patchPhase_run (h : KnotShape U p n q) (hq : q ≤ p) (hP : P.length = n + 1) {rd : ℤ → Res X} (hrd : ∀ k : ℕ, k ≤ n → rd k = ok (nth P k))
    {asize R : ℕ} (has : p ≤ asize) {pre : List (List X)} (hR : (spansFrom (nth U) p (n + 1 - p)).length ≤ R) {size nb : ℤ} (hsize : size = (n + 1 : ℕ))
    (hnb : nb = (pre.length : ℕ)) :
    Runs (patchPhase U rd (p : ℤ) size (asize : ℤ) (pre ++ List.replicate R (List.replicate (p + 1) 0)) nb) (fun r => ∃ (rows : List (List X)),
      r.1 = ((pre ++ rows).length : ℕ) ∧
      r.2 = (pre ++ rows) ++ List.replicate (R - (spansFrom (nth U) p (n + 1 - p)).length) (List.replicate (p + 1) 0) ∧
      List.Forall₂ (IsBez U P p) (spansFrom (nth U) p (n + 1 - p)) rows) := by
  have hpn := h.pn
  have hpos := h.pos
  have hsp : spansFrom (nth U) p (n + 1 - p) = [] ++ p :: spansFrom (nth U) (p + 1) (n - p) := by
    rw [show n + 1 - p = n - p + 1 by omega, spansFrom_cons h.lo]; rfl
  have hR' := hR
  rw [hsp, List.nil_append, List.length_cons] at hR'
  obtain ⟨R', rfl⟩ : ∃ R', R = R' + 1 := ⟨R - 1, by omega⟩
  unfold patchPhase
  dsimp only
  rw [List.replicate_succ, vget_mid hnb, ok_bind]
  refine Runs.bind (Runs.fill (arr := List.replicate (p + 1) (0 : X)) (a := 0) (b := (p : ℤ) + 1) (e := 0)
      (f := fun i => nth P i) (rd := fun i => rd i) (dst := fun i => i) (fun i => by ring) (by omega) (by simp) (by omega) (fun i hi1 hi2 => ?_)) ?_
  · have := hrd i.toNat (by omega)
    rw [show ((i.toNat : ℕ) : ℤ) = i by omega] at this
    rw [this, add_zero]
  rintro row0 ⟨r1, r2⟩
  rw [List.length_replicate] at r1
  rw [vset_mid hnb, ok_bind, hsize, show ((n + 1 : ℕ) : ℤ) + (p : ℤ) = ((n + p + 1 : ℕ) : ℤ) by push_cast; ring]
  refine Runs.bind (Q := fun (st : DecompState X) => ∃ (rows : List (List X)) (R : ℕ), st.pieces.length = pre.length + (R' + 1) ∧ st.nb = ((pre ++ rows).length : ℕ) ∧
    st.pieces = (pre ++ rows) ++ List.replicate R (List.replicate (p + 1) 0) ∧ List.Forall₂ (IsBez U P p) (spansFrom (nth U) p (n + 1 - p)) rows)
    (Runs.whileF (Inv := PatchInv U P p n (pre.length + (R' + 1)) pre) (fun st => (((n + p + 1 : ℕ) : ℤ) - st.b).toNat) ?_ _ _ ?_ ?_) ?_
  · intro st hst
    by_cases hlt : st.b < ((n + p + 1 : ℕ) : ℤ)
    · right
      refine ⟨by simpa using hlt, (patchRound_run h hq hP hrd has hst hlt).mono ?_⟩
      rintro st' ⟨g1, g2⟩
      exact ⟨g1, by omega⟩
    · left
      refine ⟨by simpa using hlt, ?_⟩
      obtain ⟨hL, ⟨a, _, _, _, _, _, s2, _, _, han, _⟩ | ⟨_, rows, R, h2, h3, h4⟩⟩ := hst
      · omega
      · exact ⟨rows, R, hL, h2, h3, h4⟩
  · refine ⟨by simp, Or.inl ⟨p, [], [], row0, R', rfl, by push_cast; rfl, by rw [hnb]; simp, le_refl _, hpn, h.lo, hsp, by simp, by omega, List.Forall₂.nil, r1, ?_⟩⟩
    intro i hi
    rw [r2 i, if_pos (by omega)]
    exact h.start_first hi
  · dsimp only; omega
  · rintro st ⟨rows, R, g1, g2, g3, g4⟩
    refine Runs.ok ⟨rows, g2, ?_, g4⟩
    dsimp only
    rw [g3] at g1 ⊢
    have := g4.length_eq
    simp only [List.length_append, List.length_replicate] at g1
    congr 2
    omega

end LNLib
