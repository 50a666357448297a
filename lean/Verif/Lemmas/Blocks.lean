import Verif.Lemmas.BezierSplit
import Verif.Lemmas.ReparamRational
import Mathlib.Data.Nat.Find
import Mathlib.Data.List.Forall2

/-! # Runs of equal knots and the nonempty spans between them -/
set_option linter.unusedSectionVars false

namespace LNLib
open Res Spec Finset

variable {K : Type} [Field K] [LinearOrder K] [IsStrictOrderedRing K]
variable {T : Type} [AddCommGroup T] [Module K T]

/-- the knots `a + 1, …, a + μ` are equal, and they are all the knots with this value after `a` -/
structure Block (U : ℕ → K) (m a μ : ℕ) : Prop where
  pos : 1 ≤ μ
  le : a + μ ≤ m
  eq : ∀ i < μ, U (a + 1 + i) = U (a + 1)
  stop : a + μ = m ∨ U (a + μ) < U (a + μ + 1)

theorem exists_block {U : ℕ → K} {m a : ℕ} (hm : MonoTo U m) (ha : a + 1 ≤ m) : ∃ μ, Block U m a μ := by
  classical
  let S : ℕ → Prop := fun j => U (a + 1 + j) = U (a + 1) ∧ a + 1 + j ≤ m
  have h0 : S 0 := ⟨rfl, by omega⟩
  have h1 := Nat.findGreatest_spec (P := S) (n := m) (Nat.zero_le _) h0
  set k := Nat.findGreatest S m with hk
  have h2 : ∀ j, k < j → j ≤ m → ¬ S j := fun j => Nat.findGreatest_is_greatest
  have hup : ∀ i, i ≤ k → U (a + 1 + i) = U (a + 1) := by
    intro i hi
    apply le_antisymm
    · rw [← h1.1]; exact hm _ _ (by omega) h1.2
    · exact hm _ _ (by omega) (by have := h1.2; omega)
  refine ⟨k + 1, by omega, by have := h1.2; omega, fun i hi => hup i (by omega), ?_⟩
  by_cases hkm : a + (k + 1) = m
  · exact Or.inl hkm
  · right
    have hle : a + 1 + k ≤ m := h1.2
    have := h2 (k + 1) (by omega) (by omega)
    have h3 : U (a + 1 + (k + 1)) ≠ U (a + 1) := fun h => this ⟨h, by omega⟩
    have e1 : a + (k + 1) = a + 1 + k := by omega
    have e2 : a + 1 + k + 1 = a + 1 + (k + 1) := by omega
    rw [e1, e2, hup k (le_refl _)]
    exact lt_of_le_of_ne (hm _ _ (by omega) (by omega)) (Ne.symm h3)

/-- distinct knots are told apart by the tolerance comparison -/
theorem wellSep_almost {l : List K} (h : WellSeparated l) {x y : K} (hx : x ∈ l) (hy : y ∈ l) :
    isAlmostEqualTo x y = decide (x = y) := by
  by_cases hxy : x = y
  · rw [hxy, isAlmostEqualTo_self doubleEps_pos]; simp
  · rcases h x hx y hy with h1 | h1
    · exact absurd h1 hxy
    · rw [decide_eq_false hxy]
      simp only [isAlmostEqualTo, decide_eq_false_iff_not]
      simp only [tolOf, doubleEps]
      have : (0 : K) < 1 / 1000000 * (1 + max |x| |y|) := by
        have : 0 ≤ max |x| |y| := le_max_of_le_left (abs_nonneg x)
        positivity
      have e : (2 : K) / 1000000 * (1 + max |x| |y|) = 1 / 1000000 * (1 + max |x| |y|) + 1 / 1000000 * (1 + max |x| |y|) := by ring
      intro hc
      linarith

theorem skipEqual_block {U : List K} {m a μ : ℕ} (hm : m < U.length) (hs : WellSeparated U) (hb : Block (nth U) m a μ) :
    skipEqual U (m : ℤ) ((a + 1 : ℕ) : ℤ) = ok ((a + μ : ℕ) : ℤ) := by
  have hle := hb.le
  have hpos := hb.pos
  have e : a + μ = a + 1 + (μ - 1) := by omega
  rw [e]
  apply skipEqual_run hm (by omega)
  · intro i hi
    rw [wellSep_almost hs (mem_of_nth (by omega)) (mem_of_nth (by omega)), decide_eq_true_eq]
    have e1 : a + 1 + i + 1 = a + 1 + (i + 1) := by omega
    rw [e1, hb.eq (i + 1) (by omega), hb.eq i (by omega)]
  · rcases hb.stop with h | h
    · left; omega
    · by_cases hlt : a + μ < m
      · right
        rw [wellSep_almost hs (mem_of_nth (by omega)) (mem_of_nth (by omega)), ← e, decide_eq_false_iff_not]
        exact (ne_of_gt h)
      · left; omega

/-- the nonempty spans among the `k` spans from `x` on -/
def spansFrom (U : ℕ → K) (x k : ℕ) : List ℕ := (List.range' x k).filter fun s => decide (U s < U (s + 1))

theorem spansFrom_add (U : ℕ → K) (x k l : ℕ) : spansFrom U x (k + l) = spansFrom U x k ++ spansFrom U (x + k) l := by
  unfold spansFrom
  rw [← List.filter_append, List.range'_append_1]

theorem spansFrom_empty {U : ℕ → K} {x k : ℕ} (h : ∀ i < k, ¬ U (x + i) < U (x + i + 1)) : spansFrom U x k = [] := by
  unfold spansFrom
  rw [List.filter_eq_nil_iff]
  intro s hs
  rw [List.mem_range'_1] at hs
  have := h (s - x) (by omega)
  rw [show x + (s - x) = s by omega] at this
  simpa using this

theorem spansFrom_cons {U : ℕ → K} {x k : ℕ} (h : U x < U (x + 1)) : spansFrom U x (k + 1) = x :: spansFrom U (x + 1) k := by
  unfold spansFrom
  rw [List.range'_succ, List.filter_cons, if_pos (by simpa using h)]

/-- the next nonempty span after `a` is at the end of the block of knots after `a` -/
theorem spansFrom_block {U : ℕ → K} {n a μ m : ℕ} (hb : Block U m a μ) (hn : a + μ ≤ n) (hlt : U (a + μ) < U (a + μ + 1)) :
    spansFrom U (a + 1) (n - a) = (a + μ) :: spansFrom U (a + μ + 1) (n - (a + μ)) := by
  have hpos := hb.pos
  have e : n - a = (μ - 1) + (n - (a + μ) + 1) := by omega
  rw [e, spansFrom_add, spansFrom_empty, List.nil_append, show a + 1 + (μ - 1) = a + μ by omega, spansFrom_cons hlt]
  intro i hi
  have e1 : a + 1 + i + 1 = a + 1 + (i + 1) := by omega
  rw [e1, hb.eq (i + 1) (by omega), hb.eq i (by omega)]
  exact lt_irrefl _

/-- the requirements on the knots of a clamped curve in the form the algorithms use them; no interior
knot is repeated more than `q` times -/
structure KnotShape (U : List K) (p n q : ℕ) : Prop where
  pos : 0 < p
  pn : p ≤ n
  len : U.length = n + p + 2
  mono : MonoTo (nth U) (n + p + 1)
  first : nth U 0 = nth U p
  last : nth U (n + 1) = nth U (n + p + 1)
  lo : nth U p < nth U (p + 1)
  hi : nth U n < nth U (n + 1)
  sep : WellSeparated U
  mul : ∀ x, nth U p < x → x < nth U (n + 1) → U.count x ≤ q

theorem knotShape_of {c : BsplineCurve K T} {p n q : ℕ} (w : WellFormed c p n) (he : EndsSeparated (nth c.knots) p n)
    (hc : ClampedEnds (nth c.knots) p n) (hs : WellSeparated c.knots)
    (hmul : ∀ x, nth c.knots p < x → x < nth c.knots (n + 1) → c.knots.count x ≤ q) : KnotShape c.knots p n q := by
  have aux : ∀ x y : K, 0 ≤ 1 / 1000000 * (1 + max |x| |y|) := by
    intro x y
    have : 0 ≤ max |x| |y| := le_max_of_le_left (abs_nonneg x)
    positivity
  refine ⟨w.pos, w.pn, w.knots, wf_monoTo w, hc.first, hc.last, ?_, ?_, hs, hmul⟩
  · have := he.first; have := aux (nth c.knots p) (nth c.knots (p + 1)); linarith
  · have := he.last; have := aux (nth c.knots n) (nth c.knots (n + 1)); linarith

namespace KnotShape
variable {U : List K} {p n q : ℕ}

theorem piece (h : KnotShape U p n q) {s : ℕ} (hp : p ≤ s) (hn : s ≤ n) (hs : nth U s < nth U (s + 1)) : Piece (nth U) p s :=
  ⟨hp, fun i j hij hj => h.mono i j hij (by omega), hs⟩

theorem inner (h : KnotShape U p n q) {a μ : ℕ} (hp : p ≤ a) (hn : a < n) (hs : nth U a < nth U (a + 1)) (hb : Block (nth U) (n + p + 1) a μ) :
    a + μ ≤ n ∧ nth U (a + μ) < nth U (a + μ + 1) ∧ μ ≤ q := by
  have hpos := hb.pos
  have hle := hb.le
  have h1 : nth U (a + 1) < nth U (n + 1) := lt_of_le_of_lt (h.mono _ _ (by omega) (by omega)) h.hi
  have h2 : a + μ ≤ n := by
    by_contra hcon
    have := h.mono (n + 1) (a + μ) (by omega) (by omega)
    have e := hb.eq (μ - 1) (by omega)
    rw [show a + 1 + (μ - 1) = a + μ by omega] at e
    rw [e] at this
    exact absurd h1 (not_lt.mpr this)
  refine ⟨h2, ?_, ?_⟩
  · rcases hb.stop with h3 | h3
    · omega
    · exact h3
  · have h3 := count_block (U := U) (i := a + 1) (k := μ) (t := nth U (a + 1)) (by rw [h.len]; omega) hb.eq
    have h4 := h.mul (nth U (a + 1)) (lt_of_le_of_lt (h.mono p a hp (by omega)) hs) h1
    omega

theorem outer (h : KnotShape U p n q) : Block (nth U) (n + p + 1) n (p + 1) := by
  refine ⟨by omega, by omega, ?_, Or.inl (by omega)⟩
  intro i hi
  apply le_antisymm
  · rw [h.last]; exact h.mono _ _ (by omega) (by omega)
  · exact h.mono _ _ (by omega) (by omega)

/-- no value is repeated more than `p + 1` times -/
theorem card_le (h : KnotShape U p n q) (hq : q ≤ p + 1) (x : K) : ((range U.length).filter (fun i => nth U i = x)).card ≤ p + 1 := by
  classical
  by_cases he : ((range U.length).filter (fun i => nth U i = x)).Nonempty
  · set S := (range U.length).filter (fun i => nth U i = x) with hS
    set a := S.min' he with ha
    have hamem := S.min'_mem he
    rw [← ha] at hamem
    have hlen := h.len
    have hsub : S ⊆ Icc a (a + p) := by
      intro j hj
      have h1 := S.min'_le j hj
      rw [← ha] at h1
      rw [mem_Icc]
      refine ⟨h1, ?_⟩
      by_contra hcon
      simp only [hS, mem_filter, mem_range] at hj hamem
      have heq : ∀ i, a ≤ i → i ≤ j → nth U i = x := by
        intro i hi1 hi2
        apply le_antisymm
        · rw [← hj.2]; exact h.mono _ _ hi2 (by omega)
        · rw [← hamem.2]; exact h.mono _ _ hi1 (by omega)
      by_cases hap : a ≤ p
      · have := h.lo
        rw [heq p hap (by omega), heq (p + 1) (by omega) (by omega)] at this
        exact lt_irrefl _ this
      · by_cases hjn : j ≤ n
        · have h2 := count_block (U := U) (i := a) (k := p + 2) (t := x) (by omega) (fun l hl => heq _ (by omega) (by omega))
          have h3 := h.mul x (by
            rw [← heq a (le_refl _) (by omega)]
            exact lt_of_lt_of_le h.lo (h.mono _ _ (by omega) (by omega))) (by
            rw [← heq j (by omega) (le_refl _)]
            exact lt_of_le_of_lt (h.mono _ _ hjn (by omega)) h.hi)
          omega
        · have := h.hi
          rw [heq n (by omega) (by omega), heq (n + 1) (by omega) (by omega)] at this
          exact lt_irrefl _ this
    have := Finset.card_le_card hsub
    rw [Nat.card_Icc] at this
    omega
  · rw [Finset.not_nonempty_iff_eq_empty.mp he]; simp

/-- all nonempty spans of the knot vector lie in the domain -/
theorem spans_all (h : KnotShape U p n q) : spansFrom (nth U) 0 (n + p + 1) = spansFrom (nth U) p (n + 1 - p) := by
  have hpn := h.pn
  have e : n + p + 1 = p + ((n + 1 - p) + p) := by omega
  rw [e, spansFrom_add, spansFrom_add, zero_add, spansFrom_empty (k := p) (x := 0),
    spansFrom_empty (x := p + (n + 1 - p)), List.append_nil, List.nil_append]
  · intro i hi
    apply not_lt.mpr
    have h1 := h.mono (p + (n + 1 - p) + i + 1) (n + p + 1) (by omega) (by omega)
    have h2 := h.mono (n + 1) (p + (n + 1 - p) + i) (by omega) (by omega)
    rw [← h.last] at h1
    exact h1.trans h2
  · intro i hi
    apply not_lt.mpr
    have h1 := h.mono (0 + i + 1) p (by omega) (by omega)
    have h2 := h.mono 0 (0 + i) (by omega) (by omega)
    rw [← h.first] at h1
    exact h1.trans h2

/-- the curve on a closed span is given by the polar form of that span -/
theorem curve_closed (h : KnotShape U p n q) (hq : q ≤ p) {P : ℕ → T} {s : ℕ} {x : K} (hp : p ≤ s) (hn : s ≤ n) (hs : nth U s < nth U (s + 1))
    (h0 : nth U s ≤ x) (h1 : x ≤ nth U (s + 1)) : curvePoint (nth U) p n P x = pol (nth U) p P s (Multiset.replicate p x) := by
  rcases h1.lt_or_eq with h1 | h1
  · rw [curvePoint_span h.mono (le_refl _) ⟨hp, hn, hs, h0, Or.inl h1⟩, pol_diag (h.piece hp hn hs)]
  · rcases Nat.lt_or_ge s n with hlt | hge
    · obtain ⟨μ, hb⟩ := exists_block (U := nth U) (m := n + p + 1) (a := s) h.mono (by omega)
      obtain ⟨i1, i2, i3⟩ := h.inner hp hlt hs hb
      have hpos := hb.pos
      have e := hb.eq (μ - 1) (by omega)
      rw [show s + 1 + (μ - 1) = s + μ by omega] at e
      rw [curvePoint_span h.mono (le_refl _) ⟨(by omega : p ≤ s + μ), i1, i2, by rw [e, h1], Or.inl (by rw [h1, ← e]; exact i2)⟩,
        pol_diag (h.piece (by omega) i1 i2)]
      symm
      apply pol_cross' (h.piece hp hn hs) (h.piece (by omega) i1 i2) rfl (x := x) (fun i hi => by rw [hb.eq i hi, h1]) (by simp)
      rw [Multiset.count_replicate_self]; omega
    · have : s = n := by omega
      subst this
      rw [curvePoint_span h.mono (le_refl _) ⟨hp, hn, hs, h0, Or.inr ⟨h1, rfl⟩⟩, pol_diag (h.piece hp hn hs)]

end KnotShape

end LNLib
