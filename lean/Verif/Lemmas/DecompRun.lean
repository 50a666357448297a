import Verif.Lemmas.Blocks
import Verif.Lemmas.Multiplicity

/-! # `DecomposeToBeziers` produces the Bézier points of every nonempty span -/
set_option linter.unusedSectionVars false

namespace LNLib
open Res Spec Finset

section
variable {α : Type}

theorem vget_mid {l r : List α} {x : α} {i : ℤ} (hi : i = l.length) : vget (l ++ x :: r) i = ok x :=
  vget_of (k := l.length) hi (by simp)

theorem vget_mid1 {l r : List α} {x y : α} {i : ℤ} (hi : i = l.length + 1) : vget (l ++ x :: y :: r) i = ok y :=
  vget_of (k := l.length + 1) (by omega) (by simp)

theorem vset_mid {l r : List α} {x y : α} {i : ℤ} (hi : i = l.length) : vset (l ++ x :: r) i y = ok (l ++ y :: r) := by
  rw [vset_of (k := l.length) hi (by simp)]
  simp

theorem vset_mid1 {l r : List α} {x y z : α} {i : ℤ} (hi : i = l.length + 1) :
    vset (l ++ x :: y :: r) i z = ok (l ++ x :: z :: r) := by
  rw [vset_of (k := l.length + 1) (by omega) (by simp)]
  simp

end

variable {K : Type} [Field K] [LinearOrder K] [IsStrictOrderedRing K]
variable {T : Type} [AddCommGroup T] [Module K T]
variable {U : List K} {P : List T} {p n q : ℕ}

/-- control points over the knots `U_s, …, U_s, U_{s+1}, U_{s+2}, …` -/
def IsStart (U : List K) (P : List T) (p s : ℕ) (row : List T) : Prop :=
  row.length = p + 1 ∧ ∀ i, i ≤ p → nth row i = pol (nth U) p (nth P) s (Multiset.replicate (p - i) (nth U s) + kms (nth U) (s + 1) i)

/-- Bézier points of the span `s` -/
def IsBez (U : List K) (P : List T) (p s : ℕ) (row : List T) : Prop :=
  row.length = p + 1 ∧ ∀ i, i ≤ p → nth row i = pol (nth U) p (nth P) s (Multiset.replicate (p - i) (nth U s) + Multiset.replicate i (nth U (s + 1)))

theorem KnotShape.start_first (h : KnotShape U p n q) {i : ℕ} (hi : i ≤ p) :
    nth P i = pol (nth U) p (nth P) p (Multiset.replicate (p - i) (nth U p) + kms (nth U) (p + 1) i) := by
  have hpn := h.pn
  rw [← pol_kms (P := nth P) (h.piece (le_refl p) h.pn h.lo) (j := i) (by omega) hi]
  congr 1
  have e : p = (p - i) + i := by omega
  conv_lhs => rw [e]
  rw [kms_add, kms_const (x := nth U p)]
  · rw [show i + 1 + (p - i) = p - i + i + 1 by omega]
    congr 2
    omega
  · intro k hk
    apply le_antisymm
    · exact h.mono _ _ (by omega) (by omega)
    · rw [← h.first]; exact h.mono _ _ (by omega) (by omega)

section
variable {a μ : ℕ} (h : KnotShape U p n q) (hp : p ≤ a) (hn : a < n) (hs : nth U a < nth U (a + 1))
  (hb : Block (nth U) (n + p + 1) a μ) (hμ : μ ≤ p)
include h hp hn hs hb hμ

theorem KnotShape.block_val : nth U (a + μ) = nth U (a + 1) := by
  have hpos := hb.pos
  have e := hb.eq (μ - 1) (by omega)
  rwa [show a + 1 + (μ - 1) = a + μ by omega] at e

theorem KnotShape.start_saved {i : ℕ} (hi : i < p - μ) :
    pol (nth U) p (nth P) a (Multiset.replicate (p - μ - i) (nth U (a + 1)) + kms (nth U) (a + 1) (μ + i))
      = pol (nth U) p (nth P) (a + μ) (Multiset.replicate (p - i) (nth U (a + μ)) + kms (nth U) (a + μ + 1) i) := by
  obtain ⟨i1, i2, _⟩ := h.inner hp hn hs hb
  rw [h.block_val hp hn hs hb hμ]
  have e1 : Multiset.replicate (p - μ - i) (nth U (a + 1)) + kms (nth U) (a + 1) (μ + i)
      = Multiset.replicate (p - i) (nth U (a + 1)) + kms (nth U) (a + μ + 1) i := by
    rw [kms_add, kms_const hb.eq, ← add_assoc, ← Multiset.replicate_add]
    congr 2
    · omega
    · omega
  rw [e1]
  apply pol_cross' (h.piece hp hn.le hs) (h.piece (by omega) i1 i2) rfl hb.eq
  · simp; omega
  · rw [Multiset.count_add, Multiset.count_replicate_self]; omega

theorem KnotShape.start_copied {i : ℕ} (hi : p - μ ≤ i) (hip : i ≤ p) :
    nth P (a + μ - p + i) = pol (nth U) p (nth P) (a + μ) (Multiset.replicate (p - i) (nth U (a + μ)) + kms (nth U) (a + μ + 1) i) := by
  obtain ⟨i1, i2, _⟩ := h.inner hp hn hs hb
  have hpos := hb.pos
  rw [← pol_kms (P := nth P) (h.piece (by omega) i1 i2) (j := a + μ - p + i) (by omega) (by omega)]
  congr 1
  have e : p = (p - i) + i := by omega
  conv_lhs => rw [e]
  rw [kms_add, kms_const (x := nth U (a + μ))]
  · rw [show a + μ - (p - i + i) + i + 1 + (p - i) = a + μ + 1 by omega]
  · intro k hk
    have := hb.eq (a + μ - p + i + k - a) (by omega)
    rw [h.block_val hp hn hs hb hμ, ← this]
    congr 1
    omega

end

theorem KnotShape.end_bez (h : KnotShape U p n q) {row : List T} (hr : IsStart U P p n row) : IsBez U P p n row := by
  refine ⟨hr.1, ?_⟩
  intro i hi
  rw [hr.2 i hi, kms_const (fun k hk => h.outer.eq k (by omega))]

/-- what holds before every round: the rows of the finished pieces, the row of the current one -/
def DecompInv (U : List K) (P : List T) (p n : ℕ) (st : DecompState T) : Prop :=
  (∃ (a : ℕ) (dn : List ℕ) (rows : List (List T)) (cur : List T), st.a = a ∧ st.b = (a + 1 : ℕ) ∧ st.nb = rows.length ∧
    p ≤ a ∧ a ≤ n ∧ nth U a < nth U (a + 1) ∧
    spansFrom (nth U) p (n + 1 - p) = dn ++ a :: spansFrom (nth U) (a + 1) (n - a) ∧
    st.pieces = rows ++ cur :: List.replicate (spansFrom (nth U) (a + 1) (n - a)).length (List.replicate (p + 1) 0) ∧
    List.Forall₂ (IsBez U P p) dn rows ∧ IsStart U P p a cur) ∨
  (st.b = (n + p + 1 : ℕ) ∧ List.Forall₂ (IsBez U P p) (spansFrom (nth U) p (n + 1 - p)) st.pieces)

theorem decompRound_run (h : KnotShape U p n q) (hq : q < p) (hP : P.length = n + 1) {st : DecompState T}
    (hi : DecompInv U P p n st) (hb : st.b < (n + p + 1 : ℕ)) :
    Runs (decompRound U P (p : ℤ) ((n + p + 1 : ℕ) : ℤ) st) (fun st' => DecompInv U P p n st' ∧ st.b < st'.b) := by
  rcases hi with ⟨a, dn, rows, cur, s1, s2, s3, hpa, han, hlt, hspans, hpieces, hdone, hcur⟩ | ⟨h1, _⟩
  swap
  · omega
  unfold decompRound
  have hlen := h.len
  rcases Nat.lt_or_ge a n with hn | hge
  · obtain ⟨μ, hblk⟩ := exists_block (U := nth U) (m := n + p + 1) (a := a) h.mono (by omega)
    obtain ⟨i1, i2, i3⟩ := h.inner hpa hn hlt hblk
    have hpos := hblk.pos
    have hval := h.block_val hpa hn hlt hblk (by omega)
    rw [s2, skipEqual_block (by omega) h.sep hblk, ok_bind]
    have em : ((a + μ : ℕ) : ℤ) - ((a + 1 : ℕ) : ℤ) + 1 = (μ : ℤ) := by push_cast; ring
    rw [em]
    dsimp only
    rw [if_pos (by omega), vget_nth (k := a + μ) rfl (by omega), ok_bind, s1, vget_nth (k := a) rfl (by omega), ok_bind]
    have hden : ∀ k, μ < k → k ≤ p → nth U (a + k) - nth U a ≠ 0 := by
      intro k hk1 hk2
      exact (h.piece hpa han hlt).den (le_refl _) (by omega) (by omega)
    refine Runs.bind (splitAlphas_run (by omega) (by omega) (by simp; omega) hden) ?_
    rintro alfs ⟨ha1, ha2⟩
    rw [hval] at ha2
    rw [List.length_replicate] at ha1
    have hnext := spansFrom_block (n := n) hblk i1 i2
    rw [hpieces, vget_mid s3, ok_bind, if_pos (by omega), hnext, List.length_cons, List.replicate_succ, vget_mid1 (by omega), ok_bind]
    refine Runs.bind (splitPiece_run (f := pol (nth U) p (nth P) a) (pol_polar (h.piece hpa han hlt)) hpos (by omega) hblk.eq
      (by omega) ha2 hden true hcur.1 (fun _ => by simp; omega) hcur.2) ?_
    rintro ⟨cur', nxt'⟩ ⟨g1, g2, g3, g4⟩
    dsimp only at g1 g2 g3 g4 ⊢
    rw [List.length_replicate] at g2
    simp only [true_and] at g4
    refine Runs.bind (Runs.fill (e := 0) (f := fun i => nth P (a + μ - p + i)) (rd := fun i => vget P (((a + μ : ℕ) : ℤ) - p + i))
      (dst := fun i => i) (fun i => by ring) (by omega) (by omega) (by omega) (fun i hi1 hi2 => vget_nth (by omega) (by omega))) ?_
    rintro nxt'' ⟨f1, f2⟩
    rw [vset_mid s3, ok_bind, vset_mid1 (by omega), ok_bind]
    refine Runs.ok ⟨Or.inl ⟨a + μ, dn ++ [a], rows ++ [cur'], nxt'', rfl, by push_cast; ring, by rw [s3]; simp, by omega, i1, i2, ?_, ?_, ?_, ?_⟩,
      by show ((a + 1 : ℕ) : ℤ) < _; push_cast; omega⟩
    · rw [hspans, hnext]; simp
    · simp
    · apply List.rel_append hdone
      exact List.Forall₂.cons ⟨g1, g3⟩ List.Forall₂.nil
    · refine ⟨by omega, ?_⟩
      intro i hi
      rw [f2 i]
      by_cases hip : i < p - μ
      · rw [if_neg (by omega), g4, if_pos hip]
        exact h.start_saved hpa hn hlt hblk (by omega) hip
      · rw [if_pos (by omega)]
        exact h.start_copied hpa hn hlt hblk (by omega) (by omega) hi
  · obtain rfl : a = n := by omega
    rw [s2, skipEqual_block (by omega) h.sep h.outer, ok_bind]
    have em : ((a + (p + 1) : ℕ) : ℤ) - ((a + 1 : ℕ) : ℤ) + 1 = (p : ℤ) + 1 := by push_cast; ring
    rw [em]
    dsimp only
    rw [if_neg (by omega)]
    refine Runs.ok ⟨Or.inr ⟨by dsimp only; omega, ?_⟩, by dsimp only; omega⟩
    rw [hspans, hpieces, Nat.sub_self]
    apply List.rel_append hdone
    exact List.Forall₂.cons (h.end_bez hcur) List.Forall₂.nil

theorem decompose_prefix {c : BsplineCurve K T} {fuel : ℕ} (hU : c.knots = U) (hPc : c.cps = P) (hdeg : c.degree = p)
    (h : KnotShape U p n q) (hq : q ≤ p + 1) (hP : P.length = n + 1) :
    ∃ row0 : List T, IsStart U P p p row0 ∧ decomposeToBeziers fuel c =
      (whileF (fun st => ok (decide (st.b < ((n + p + 1 : ℕ) : ℤ)))) (decompRound U P (p : ℤ) ((n + p + 1 : ℕ) : ℤ)) fuel
        (⟨(p : ℤ), (p : ℤ) + 1, 0, row0 :: List.replicate (spansFrom (nth U) (p + 1) (n - p)).length (List.replicate (p + 1) 0)⟩ : DecompState T)
      >>= fun st => ok (st.pieces.map fun cps =>
        { degree := (p : ℤ), knots := List.replicate (p + 1) 0 ++ List.replicate (p + 1) 1, cps := cps })) := by
  unfold decomposeToBeziers
  rw [hU, hPc, hdeg]
  have hlen := h.len
  have hpn := h.pn
  have hvalid : isValidKnotVector U = true := isValidKnotVector_nth.mpr (fun i j hij hj => h.mono i j hij (by omega))
  have heps := doubleEps_pos (K := K)
  have step1 : Runs (forI 0 (U.length : ℤ) () fun i _ => do
      let x ← vget U i
      let multi ← getKnotMultiplicity U x
      validate (decide (multi ≤ (p : ℤ) + 1))) (fun _ => True) := by
    refine Runs.forN (m := 0) (n := U.length) (fun _ _ => True) rfl rfl (by omega) trivial ?_
    intro i _ _ hi _
    have m1 := h.mono 0 i (by omega) (by omega)
    have m2 := h.mono i (U.length - 1) (by omega) (by omega)
    rw [vget_nth (k := i) rfl hi, ok_bind, getKnotMultiplicity_ok (by omega) hvalid (by linarith) (by linarith), ok_bind]
    have hcard := h.card_le hq (nth U i)
    have hset : (range U.length).filter (fun j => isAlmostEqualTo (nth U i) (nth U j) = true)
        = (range U.length).filter (fun j => nth U j = nth U i) := by
      apply Finset.filter_congr
      intro j hj
      rw [wellSep_almost h.sep (mem_of_nth hi) (mem_of_nth (by simpa using hj)), decide_eq_true_eq]
      exact eq_comm
    rw [hset, validate_of (by rw [decide_eq_true_eq]; omega)]
    exact Runs.ok trivial
  obtain ⟨_, hs1, -⟩ := step1
  dsimp only
  rw [hs1, ok_bind]
  have em : ((P.length : ℤ) - 1 + p + 1) = ((n + p + 1 : ℕ) : ℤ) := by rw [hP]; push_cast; ring
  rw [em]
  have step2 : Runs (forI 0 (((n + p + 1 : ℕ) : ℤ) + 1) (0 : ℤ) fun i breaks =>
      if i = 0 then ok (breaks + 1)
      else do
        let x ← vget U i
        let y ← vget U (i - 1)
        ok (if !isAlmostEqualTo x y then breaks + 1 else breaks)) (fun r => r = ((spansFrom (nth U) 0 (n + p + 1)).length : ℤ) + 1) := by
    refine (Runs.forN (m := 0) (n := n + p + 2) (fun j (r : ℤ) => r = if j = 0 then 0 else ((spansFrom (nth U) 0 (j - 1)).length : ℤ) + 1)
      rfl (by push_cast; ring) (by omega) (by simp) ?_).mono ?_
    · intro j r _ hj hr
      by_cases hj0 : j = 0
      · subst hj0
        rw [if_pos (by simp)]
        refine Runs.ok ?_
        rw [hr]; simp [spansFrom]
      · rw [if_neg (by omega), vget_nth (k := j) rfl (by omega), ok_bind, vget_nth (k := j - 1) (by omega) (by omega), ok_bind]
        refine Runs.ok ?_
        rw [if_neg hj0] at hr
        rw [wellSep_almost h.sep (mem_of_nth (by omega)) (mem_of_nth (by omega)), hr, if_neg (show ¬ j + 1 = 0 by omega)]
        have e : j + 1 - 1 = (j - 1) + 1 := by omega
        rw [e, spansFrom_add, List.length_append, zero_add]
        have hmono := h.mono (j - 1) j (by omega) (by omega)
        by_cases heq : nth U j = nth U (j - 1)
        · rw [spansFrom_empty (x := j - 1) (k := 1)]
          · simp [heq]
          · intro i hi
            have : i = 0 := by omega
            subst this
            rw [add_zero, show j - 1 + 1 = j by omega, heq]
            exact lt_irrefl _
        · rw [spansFrom_cons (x := j - 1) (k := 0)]
          · simp only [heq, decide_false, Bool.not_false, if_true, List.length_cons]
            simp [spansFrom]
          · rw [show j - 1 + 1 = j by omega]
            exact lt_of_le_of_ne hmono (Ne.symm heq)
    · intro r hr
      rw [hr, if_neg (by omega)]
      rfl
  rw [step2.eq, ok_bind, h.spans_all]
  have e1 : (((spansFrom (nth U) p (n + 1 - p)).length : ℤ) + 1 - 1).toNat = (spansFrom (nth U) (p + 1) (n - p)).length + 1 := by
    rw [show n + 1 - p = n - p + 1 by omega, spansFrom_cons h.lo]; simp
  have e2 : ((p : ℤ) + 1).toNat = p + 1 := by omega
  rw [e1, e2, List.replicate_succ (n := (spansFrom (nth U) (p + 1) (n - p)).length)]
  have v0 : ∀ (x : List T) (l : List (List T)), vget (x :: l) 0 = ok x := fun x l => vget_of (k := 0) rfl rfl
  rw [v0, ok_bind]
  obtain ⟨row0, hrow, r1, r2⟩ := Runs.fill (arr := List.replicate (p + 1) (0 : T)) (a := 0) (b := (p : ℤ) + 1) (e := 0)
      (f := fun i => nth P i) (rd := fun i => vget P i)
      (dst := fun i => i) (fun i => by ring) (by omega) (by simp) (by omega) (fun i hi1 hi2 => vget_nth (by omega) (by omega))
  have v1 : ∀ (x y : List T) (l : List (List T)), vset (x :: l) 0 y = ok (y :: l) := fun x y l => by
    rw [vset_of (i := (0 : ℤ)) (k := 0) (by simp) (by simp)]; rfl
  rw [hrow, ok_bind, v1, ok_bind]
  refine ⟨row0, ⟨?_, ?_⟩, rfl⟩
  · rw [r1, List.length_replicate]
  · intro i hi
    rw [r2 i, if_pos (by omega)]
    exact h.start_first hi

theorem decomposeToBeziers_run {c : BsplineCurve K T} {fuel : ℕ} (hU : c.knots = U) (hPc : c.cps = P) (hdeg : c.degree = p)
    (h : KnotShape U p n q) (hq : q < p) (hP : P.length = n + 1) (hf : n + p + 1 ≤ fuel) :
    Runs (decomposeToBeziers fuel c) (fun bs => List.Forall₂ (fun s (b : BsplineCurve K T) => b.degree = p ∧
      b.knots = List.replicate (p + 1) 0 ++ List.replicate (p + 1) 1 ∧ IsBez U P p s b.cps) (spansFrom (nth U) p (n + 1 - p)) bs) := by
  have hpn := h.pn
  obtain ⟨row0, hrow, heq⟩ := decompose_prefix (fuel := fuel) hU hPc hdeg h (by omega) hP
  rw [heq]
  have hsp : spansFrom (nth U) p (n + 1 - p) = [] ++ p :: spansFrom (nth U) (p + 1) (n - p) := by
    rw [show n + 1 - p = n - p + 1 by omega, spansFrom_cons h.lo]; rfl
  refine Runs.bind (Q := fun st => List.Forall₂ (IsBez U P p) (spansFrom (nth U) p (n + 1 - p)) st.pieces)
    (Runs.whileF (Inv := DecompInv U P p n) (fun st => (((n + p + 1 : ℕ) : ℤ) - st.b).toNat) ?_ _ _ ?_ ?_) ?_
  · intro st hst
    by_cases hlt : st.b < ((n + p + 1 : ℕ) : ℤ)
    · right
      refine ⟨by simpa using hlt, (decompRound_run h hq hP hst hlt).mono ?_⟩
      rintro st' ⟨g1, g2⟩
      exact ⟨g1, by omega⟩
    · left
      refine ⟨by simpa using hlt, ?_⟩
      rcases hst with ⟨a, _, _, _, _, s2, _, _, han, _⟩ | ⟨_, h2⟩
      · have := h.pos; omega
      · exact h2
  · exact Or.inl ⟨p, [], [], row0, rfl, by push_cast; rfl, rfl, le_refl _, hpn, h.lo, hsp, rfl, List.Forall₂.nil, hrow⟩
  · dsimp only; omega
  · intro st hst
    refine Runs.ok ?_
    rw [List.forall₂_map_right_iff]
    exact hst.imp (fun s row hr => ⟨rfl, rfl, hr⟩)

theorem whileF_diverge {σ : Type} {cond : σ → Res Bool} {body : σ → Res σ} {Inv : σ → Prop}
    (step : ∀ s, Inv s → cond s = ok true ∧ Runs (body s) Inv) : ∀ (fuel : ℕ) (s : σ), Inv s → whileF cond body fuel s = diverge := by
  intro fuel
  induction fuel with
  | zero => intro s hs; simp [whileF, (step s hs).1]
  | succ k ih =>
    intro s hs
    obtain ⟨h1, s', h2, h3⟩ := step s hs
    simp only [whileF, h1, ok_bind, if_true, h2]
    exact ih s' h3

/-- with degree one the main loop never gets past the first interior knot -/
theorem decompose_linear_diverges {c : BsplineCurve K T} (fuel : ℕ) (hU : c.knots = U) (hPc : c.cps = P) (hdeg : c.degree = (1 : ℕ))
    (h : KnotShape U 1 n q) (hq : q ≤ 2) (hn : 1 < n) (hP : P.length = n + 1) : decomposeToBeziers fuel c = diverge := by
  obtain ⟨row0, -, heq⟩ := decompose_prefix (fuel := fuel) hU hPc hdeg h (by omega) hP
  have hlen := h.len
  obtain ⟨μ, hblk⟩ := exists_block (U := nth U) (m := n + 1 + 1) (a := 1) h.mono (by omega)
  obtain ⟨i1, i2, i3⟩ := h.inner (le_refl _) hn h.lo hblk
  have hpos := hblk.pos
  rw [heq, whileF_diverge (Inv := fun st => st.b = 2 ∨ st.b = ((1 + μ : ℕ) : ℤ))]
  · rfl
  · intro st hst
    have hlt : st.b < ((n + 1 + 1 : ℕ) : ℤ) := by omega
    refine ⟨by simpa using hlt, ?_⟩
    have hskip : skipEqual U ((n + 1 + 1 : ℕ) : ℤ) st.b = ok ((1 + μ : ℕ) : ℤ) := by
      rcases hst with hst | hst
      · rw [hst]
        exact skipEqual_block (by omega) h.sep hblk
      · rw [hst]
        apply skipEqual_run (b := 1 + μ) (k := 0) (by omega) (by omega) (fun i hi => by omega)
        right
        rw [wellSep_almost h.sep (mem_of_nth (by omega)) (mem_of_nth (by omega)), decide_eq_false_iff_not]
        exact ne_of_gt i2
    unfold decompRound
    rw [hskip, ok_bind]
    dsimp only
    rw [if_neg (by omega)]
    exact Runs.ok (Or.inr rfl)
  · left; rfl

end LNLib
