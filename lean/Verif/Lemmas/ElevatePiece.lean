import Verif.Lemmas.DecompRun
import Verif.Lemmas.PowerBasis

/-! # The coefficients of Bézier degree elevation and the elevated points -/
set_option linter.unusedSectionVars false

namespace LNLib
open Res Spec Finset

variable {K : Type} [Field K] [LinearOrder K] [IsStrictOrderedRing K]
variable {T : Type} [AddCommGroup T] [Module K T]

theorem elevCoeff_out {p t i j : ℕ} (h : ¬ (j ≤ i ∧ i ≤ j + t)) : elevCoeff K p t i j = 0 := by
  unfold elevCoeff; rw [if_neg h]

theorem elevCoeff_symm {p t i j : ℕ} (hi : i ≤ p + t) (hj : j ≤ p) : elevCoeff K p t (p + t - i) (p - j) = elevCoeff K p t i j := by
  by_cases h : j ≤ i ∧ i ≤ j + t
  · unfold elevCoeff
    rw [if_pos h, if_pos (by omega), Nat.choose_symm hj, Nat.choose_symm hi]
    have e : p + t - i - (p - j) = t - (i - j) := by omega
    rw [e, Nat.choose_symm (by omega)]
  · rw [elevCoeff_out h, elevCoeff_out (by omega)]

theorem elevCoeff_first (p t j : ℕ) : elevCoeff K p t 0 j = if j = 0 then 1 else 0 := by
  by_cases h : j = 0
  · subst h; simp [elevCoeff]
  · rw [elevCoeff_out (by omega), if_neg h]

theorem elevCoeff_last {p t j : ℕ} (hj : j ≤ p) : elevCoeff K p t (p + t) j = if j = p then 1 else 0 := by
  rw [← elevCoeff_symm (le_refl _) hj, Nat.sub_self, elevCoeff_first]
  by_cases h : j = p
  · rw [if_pos h, if_pos (by omega)]
  · rw [if_neg h, if_neg (by omega)]

/-- one row of the table -/
theorem elevRow_run {p t i : ℕ} {B : List (List K)} {rd : ℤ → Res K} (hi : i ≤ p + t) (hB : IsMat B (p + t + 1) (p + 1))
    (hz : ∀ j, ent B i j = 0)
    (hrd : ∀ j : ℕ, j ≤ p → j ≤ i → i ≤ j + t → rd j = ok (elevCoeff K p t i j)) :
    Runs (forI (max 0 ((i : ℤ) - t)) (min (p : ℤ) i + 1) B fun j B => rd j >>= fun x => mset B (i : ℤ) j x)
      (fun r => IsMat r (p + t + 1) (p + 1) ∧ ∀ a b, b ≤ p → ent r a b = if a = i then elevCoeff K p t i b else ent B a b) := by
  refine (Runs.forN (m := i - t) (n := min p i + 1) (fun j (r : List (List K)) => IsMat r (p + t + 1) (p + 1) ∧
    ∀ a b, b ≤ p → ent r a b = if a = i ∧ b < j then elevCoeff K p t i b else ent B a b) (by omega) (by omega) (by omega) ⟨hB, ?_⟩ ?_).mono ?_
  · intro a b hb
    by_cases h : a = i ∧ b < i - t
    · rw [if_pos h, elevCoeff_out (by omega), h.1, hz]
    · rw [if_neg h]
  · rintro j r h1 h2 ⟨hr1, hr2⟩
    rw [hrd j (by omega) (by omega) (by omega), ok_bind]
    obtain ⟨r', e1, e2, e3⟩ := mset_ok (x := elevCoeff K p t i j) hr1 (i := (i : ℤ)) (j := (j : ℤ)) rfl rfl (by omega) (by omega)
    rw [e1]
    refine Runs.ok ⟨e2, ?_⟩
    intro a b hb
    rw [e3 a b]
    by_cases h : a = i ∧ b = j
    · rw [if_pos h, if_pos (by omega), h.2]
    · rw [if_neg h, hr2 a b hb]
      by_cases h' : a = i ∧ b < j
      · rw [if_pos h', if_pos (by omega)]
      · rw [if_neg h', if_neg (by omega)]
  · rintro r ⟨hr1, hr2⟩
    refine ⟨hr1, ?_⟩
    intro a b hb
    rw [hr2 a b hb]
    by_cases h : a = i
    · rw [if_pos h]
      by_cases hb' : b < min p i + 1
      · rw [if_pos ⟨h, hb'⟩]
      · rw [if_neg (by omega), elevCoeff_out (by omega), h, hz]
    · rw [if_neg h, if_neg (by tauto)]

theorem bezierElevation_run {p t : ℕ} (hp : 0 < p) (ht : 0 < t) :
    Runs (bezierElevation (p : ℤ) (t : ℤ) : Res (List (List K))) (fun B => IsMat B (p + t + 1) (p + 1) ∧
      ∀ i j, i ≤ p + t → j ≤ p → ent B i j = elevCoeff K p t i j) := by
  unfold bezierElevation
  dsimp only
  have e1 : ((p : ℤ) + t + 1).toNat = p + t + 1 := by omega
  have e2 : ((p : ℤ) + 1).toNat = p + 1 := by omega
  rw [e1, e2]
  obtain ⟨B1, f1, f2, f3⟩ := mset_ok (x := (1 : K)) (isMat_replicate (r := p + t + 1) (c := p + 1) (x := (0 : K)))
    (i := (p : ℤ) + t) (j := (p : ℤ)) (a := p + t) (b := p) (by push_cast; ring) rfl (by omega) (by omega)
  obtain ⟨B2, g1, g2, g3⟩ := mset_ok (x := (1 : K)) f2 (i := (0 : ℤ)) (j := (0 : ℤ)) (a := 0) (b := 0) rfl rfl (by omega) (by omega)
  rw [f1, ok_bind, g1, ok_bind]
  have hinit : ∀ a b, b ≤ p → ent B2 a b = if a < 1 ∨ a = p + t then elevCoeff K p t a b else 0 := by
    intro a b hb
    rw [g3, f3, ent_replicate_zero]
    by_cases h0 : a = 0
    · subst h0
      rw [if_pos (Or.inl (by omega)), elevCoeff_first]
      by_cases hb0 : b = 0
      · rw [if_pos ⟨rfl, hb0⟩, if_pos hb0]
      · rw [if_neg (by tauto), if_neg (by omega), if_neg hb0]
    · by_cases h1 : a = p + t
      · subst h1
        rw [if_neg (by omega), if_pos (Or.inr rfl), elevCoeff_last hb]
        by_cases hbp : b = p
        · rw [if_pos ⟨rfl, hbp⟩, if_pos hbp]
        · rw [if_neg (by tauto), if_neg hbp]
      · rw [if_neg (by omega), if_neg (by omega), if_neg (by omega)]
  refine Runs.bind (Q := fun B => IsMat B (p + t + 1) (p + 1) ∧
    ∀ a b, b ≤ p → ent B a b = if a < (p + t) / 2 + 1 ∨ a = p + t then elevCoeff K p t a b else 0) ?_ ?_
  · refine Runs.forN (m := 1) (n := (p + t) / 2 + 1) (fun k B => IsMat B (p + t + 1) (p + 1) ∧
      ∀ a b, b ≤ p → ent B a b = if a < k ∨ a = p + t then elevCoeff K p t a b else 0) (by simp) (by omega) (by omega) ⟨g2, hinit⟩ ?_
    rintro i B h1 h2 ⟨hB, hv⟩
    have hc : (((p + t).choose i : ℕ) : K) ≠ 0 := by exact_mod_cast (Nat.choose_pos (by omega)).ne'
    rw [binomial_nat (K := K) (n := p + t) (i := i) (by omega) (by push_cast; rfl) rfl, ok_bind, fdiv_ok hc, ok_bind]
    have hz : ∀ j, ent B i j = 0 := by
      intro j
      by_cases hj : j ≤ p
      · rw [hv i j hj, if_neg (by omega)]
      · unfold ent
        rw [nth_ge (by rw [hB.2 i (by omega)]; omega)]
    have hrow := elevRow_run (p := p) (t := t) (i := i) (B := B) (rd := fun j => do
      let b1 ← (binomial p j : Res K)
      let b2 ← (binomial t ((i : ℤ) - j) : Res K)
      ok (1 / (((p + t).choose i : ℕ) : K) * b1 * b2)) (by omega) hB hz (by
        intro j hj1 hj2 hj3
        rw [binomial_nat (K := K) (n := p) (i := j) hj1 rfl rfl, ok_bind, binomial_nat (K := K) (n := t) (i := i - j) (by omega) rfl (by omega), ok_bind]
        unfold elevCoeff
        rw [if_pos ⟨hj2, hj3⟩]
        congr 1
        field_simp)
    simp only [bind_assoc', ok_bind] at hrow
    refine hrow.mono ?_
    rintro r ⟨hr1, hr2⟩
    refine ⟨hr1, ?_⟩
    intro a b hb
    rw [hr2 a b hb]
    by_cases h : a = i
    · rw [if_pos h, if_pos (by omega), h]
    · rw [if_neg h, hv a b hb]
      by_cases h' : a < i ∨ a = p + t
      · rw [if_pos h', if_pos (by omega)]
      · rw [if_neg h', if_neg (by omega)]
  · rintro B ⟨hB, hv⟩
    refine (Runs.forN (m := (p + t) / 2 + 1) (n := p + t) (fun k B => IsMat B (p + t + 1) (p + 1) ∧
      ∀ a b, b ≤ p → ent B a b = if a < k ∨ a = p + t then elevCoeff K p t a b else 0) (by omega) (by omega) (by omega) ⟨hB, hv⟩ ?_).mono ?_
    · rintro i B h1 h2 ⟨hB, hv⟩
      have hz : ∀ j, ent B i j = 0 := by
        intro j
        by_cases hj : j ≤ p
        · rw [hv i j hj, if_neg (by omega)]
        · unfold ent
          rw [nth_ge (by rw [hB.2 i (by omega)]; omega)]
      -- the rows that are read do not change while row `i` is written
      refine (Runs.forN (m := i - t) (n := min p i + 1) (fun j (r : List (List K)) => IsMat r (p + t + 1) (p + 1) ∧
        ∀ a b, b ≤ p → ent r a b = if a = i ∧ b < j then elevCoeff K p t i b else ent B a b) (by omega) (by omega) (by omega) ⟨hB, ?_⟩ ?_).mono ?_
      · intro a b hb
        by_cases h : a = i ∧ b < i - t
        · rw [if_pos h, elevCoeff_out (by omega), h.1, hz]
        · rw [if_neg h]
      · rintro j r h3 h4 ⟨hr1, hr2⟩
        rw [mget_ent hr1 (a := p + t - i) (b := p - j) (by omega) (by omega) (by omega) (by omega), ok_bind,
          hr2 _ _ (by omega), if_neg (by omega), hv _ _ (by omega), if_pos (by omega), elevCoeff_symm (by omega) (by omega)]
        obtain ⟨r', e1, e2, e3⟩ := mset_ok (x := elevCoeff K p t i j) hr1 (i := (i : ℤ)) (j := (j : ℤ)) rfl rfl (by omega) (by omega)
        rw [e1]
        refine Runs.ok ⟨e2, ?_⟩
        intro a b hb
        rw [e3 a b]
        by_cases h : a = i ∧ b = j
        · rw [if_pos h, if_pos (by omega), h.2]
        · rw [if_neg h, hr2 a b hb]
          by_cases h' : a = i ∧ b < j
          · rw [if_pos h', if_pos (by omega)]
          · rw [if_neg h', if_neg (by omega)]
      · rintro r ⟨hr1, hr2⟩
        refine ⟨hr1, ?_⟩
        intro a b hb
        rw [hr2 a b hb]
        by_cases h : a = i
        · subst h
          rw [if_pos (show a < a + 1 ∨ a = p + t by omega)]
          by_cases hb' : b < min p a + 1
          · rw [if_pos ⟨rfl, hb'⟩]
          · rw [if_neg (by omega), elevCoeff_out (by omega), hz]
        · rw [if_neg (by tauto), hv a b hb]
          by_cases h' : a < i ∨ a = p + t
          · rw [if_pos h', if_pos (by omega)]
          · rw [if_neg h', if_neg (by omega)]
    · rintro r ⟨hr1, hr2⟩
      refine ⟨hr1, ?_⟩
      intro i j hi hj
      rw [hr2 i j hj, if_pos (by omega)]

theorem elevatePiece_run {p t l : ℕ} {B : List (List K)} {bpts : List T} {f : Multiset K → T} {ua ub : K}
    (hB : IsMat B (p + t + 1) (p + 1)) (hv : ∀ i j, i ≤ p + t → j ≤ p → ent B i j = elevCoeff K p t i j)
    (hb : bpts.length = p + 1) (hl : l ≤ p + t)
    (hbv : ∀ j, j ≤ p → nth bpts j = f (Multiset.replicate (p - j) ua + Multiset.replicate j ub)) :
    Runs (elevatePiece B (p : ℤ) (t : ℤ) (l : ℤ) bpts) (fun e => e.length = p + t + 1 ∧
      ∀ i, l ≤ i → i ≤ p + t → nth e i = elev p f (Multiset.replicate (p + t - i) ua + Multiset.replicate i ub)) := by
  unfold elevatePiece
  refine (Runs.forN (m := l) (n := p + t + 1) (fun k (e : List T) => e.length = p + t + 1 ∧
    ∀ i, l ≤ i → i < k → nth e i = elev p f (Multiset.replicate (p + t - i) ua + Multiset.replicate i ub)) rfl (by push_cast; ring)
    (by omega) ⟨by simp; omega, fun i h1 h2 => by omega⟩ ?_).mono ?_
  · rintro i e h1 h2 ⟨he1, he2⟩
    rw [vset_of (k := i) rfl (by omega), ok_bind]
    refine (Runs.forN (m := i - t) (n := min p i + 1) (fun j (r : List T) => r.length = p + t + 1 ∧
      (∀ a, a ≠ i → nth r a = nth e a) ∧
      nth r i = ∑ b ∈ range j, elevCoeff K p t i b • f (Multiset.replicate (p - b) ua + Multiset.replicate b ub)) (by omega) (by omega) (by omega)
      ⟨by simpa using he1, ?_, ?_⟩ ?_).mono ?_
    · intro a ha
      rw [nth_set (by omega), if_neg ha]
    · rw [nth_set (by omega), if_pos rfl]
      symm
      apply Finset.sum_eq_zero
      intro b hb
      simp only [mem_range] at hb
      rw [elevCoeff_out (by omega), zero_smul]
    · rintro j r h3 h4 ⟨hr1, hr2, hr3⟩
      rw [vget_nth (k := i) rfl (by omega), ok_bind, mget_ent hB (a := i) (b := j) rfl rfl (by omega) (by omega), ok_bind,
        vget_nth (k := j) rfl (by omega), ok_bind, vset_of (k := i) rfl (by omega)]
      refine Runs.ok ⟨by simpa using hr1, ?_, ?_⟩
      · intro a ha
        rw [nth_set (by omega), if_neg ha, hr2 a ha]
      · rw [nth_set (by omega), if_pos rfl, Finset.sum_range_succ, hr3, hv i j (by omega) (by omega), hbv j (by omega)]
    · rintro r ⟨hr1, hr2, hr3⟩
      refine ⟨hr1, ?_⟩
      intro a ha1 ha2
      by_cases h : a = i
      · subst h
        rw [hr3, elev_bezier (by omega)]
        apply Finset.sum_subset
        · intro b hb
          simp only [mem_range] at hb ⊢
          omega
        · intro b hb1 hb2
          simp only [mem_range] at hb1 hb2
          rw [elevCoeff_out (by omega), zero_smul]
      · rw [hr2 a h, he2 a ha1 (by omega)]
  · rintro e ⟨he1, he2⟩
    exact ⟨he1, fun i h1 h2 => he2 i h1 (by omega)⟩

end LNLib
