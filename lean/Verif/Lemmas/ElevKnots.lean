import Verif.Lemmas.DecompRun

/-! # The knots of the degree elevated curve

`sig U p t x` is the new index of the span `x`, `elevKnot` the new knots: every distinct knot is
repeated `t` times more. -/
set_option linter.unusedSectionVars false

namespace LNLib
open Res Spec Finset

variable {K : Type} [Field K] [LinearOrder K] [IsStrictOrderedRing K]
variable {T : Type} [AddCommGroup T] [Module K T]

/-- the index of the span `x` after elevation by `t` -/
def sig (U : ℕ → K) (p t x : ℕ) : ℕ := x + t * (spansFrom U p (x + 1 - p)).length

/-- the knots after elevation by `t` -/
def elevKnot (U : ℕ → K) (p n t j : ℕ) : K :=
  if j ≤ p + t then U p else U (Nat.findGreatest (fun x => p ≤ x ∧ U x < U (x + 1) ∧ sig U p t x < j) n + 1)

theorem sig_lt {U : ℕ → K} {p t x y : ℕ} (hp : p ≤ x) (h : x < y) : sig U p t x < sig U p t y := by
  unfold sig
  have e : y + 1 - p = (x + 1 - p) + (y - x) := by omega
  rw [e, spansFrom_add, List.length_append, Nat.mul_add]
  omega

theorem sig_le {U : ℕ → K} {p t x y : ℕ} (hp : p ≤ x) (h : x ≤ y) : sig U p t x ≤ sig U p t y := by
  rcases h.lt_or_eq with h | rfl
  · exact (sig_lt hp h).le
  · exact le_refl _

theorem sig_block {U : ℕ → K} {p t a μ m : ℕ} (hp : p ≤ a) (hb : Block U m a μ) (hlt : U (a + μ) < U (a + μ + 1)) :
    sig U p t (a + μ) = sig U p t a + μ + t := by
  have h1 := spansFrom_block (n := a + μ) hb (le_refl _) hlt
  rw [Nat.sub_self, show a + μ - a = μ by omega] at h1
  unfold sig
  have e : a + μ + 1 - p = (a + 1 - p) + μ := by omega
  rw [e, spansFrom_add, show p + (a + 1 - p) = a + 1 by omega, h1, List.length_append]
  simp only [spansFrom, List.range'_zero, List.filter_nil, List.length_cons, List.length_nil]
  ring

/-- the simple case: every span is nonempty -/
theorem sig_simple {U : ℕ → K} {p n t : ℕ} (hpn : p ≤ n) (h : ∀ x, p ≤ x → x ≤ n → U x < U (x + 1)) : sig U p t n = n + (n + 1 - p) * t := by
  unfold sig spansFrom
  rw [List.filter_eq_self.mpr]
  · simp; ring
  · intro s hs
    rw [List.mem_range'_1] at hs
    simpa using h s (by omega) (by omega)

namespace KnotShape
variable {U : List K} {P : List T} {p n q t : ℕ}

theorem next_le (_h : KnotShape U p n q) {x y μ : ℕ} (hb : Block (nth U) (n + p + 1) x μ) (hxy : x < y) (hs : nth U y < nth U (y + 1)) :
    x + μ ≤ y := by
  by_contra hcon
  have h1 := hb.eq (y - x - 1) (by omega)
  have h2 := hb.eq (y - x) (by omega)
  rw [show x + 1 + (y - x - 1) = y by omega] at h1
  rw [show x + 1 + (y - x) = y + 1 by omega] at h2
  rw [h1, h2] at hs
  exact lt_irrefl _ hs

/-- induction along the nonempty spans -/
theorem span_ind (h : KnotShape U p n q) {Q : ℕ → Prop} {x : ℕ} (hpx : p ≤ x) (hx : nth U x < nth U (x + 1)) (h0 : Q x)
    (step : ∀ a μ, x ≤ a → a < n → nth U a < nth U (a + 1) → Block (nth U) (n + p + 1) a μ → a + μ ≤ n →
      nth U (a + μ) < nth U (a + μ + 1) → nth U (a + μ) = nth U (a + 1) → 0 < μ → μ ≤ q → Q a → Q (a + μ)) :
    ∀ y, x ≤ y → y ≤ n → nth U y < nth U (y + 1) → Q y := by
  suffices hk : ∀ (k z y : ℕ), y - z ≤ k → x ≤ z → nth U z < nth U (z + 1) → Q z → z ≤ y → y ≤ n → nth U y < nth U (y + 1) → Q y from
    fun y h1 h2 h3 => hk (y - x) x y (le_refl _) (le_refl _) hx h0 h1 h2 h3
  intro k
  induction k with
  | zero =>
    intro z y hk _ _ hQ hzy _ _
    have : y = z := by omega
    exact this ▸ hQ
  | succ k ih =>
    intro z y hk hxz hz hQ hzy hyn hy
    rcases hzy.lt_or_eq with hlt | rfl
    · obtain ⟨μ, hb⟩ := exists_block (U := nth U) (m := n + p + 1) (a := z) h.mono (by omega)
      obtain ⟨i1, i2, i3⟩ := h.inner (by omega) (by omega) hz hb
      have hle := h.next_le hb hlt hy
      have hpos := hb.pos
      have e := hb.eq (μ - 1) (by omega)
      rw [show z + 1 + (μ - 1) = z + μ by omega] at e
      exact ih (z + μ) y (by omega) (by omega) i2 (step z μ hxz (by omega) hz hb i1 i2 e hpos i3 hQ) hle hyn hy
    · exact hQ

theorem sig_first (h : KnotShape U p n q) : sig (nth U) p t p = p + t := by
  unfold sig
  rw [show p + 1 - p = 0 + 1 by omega, spansFrom_cons h.lo]
  simp [spansFrom]

theorem ek_first {j : ℕ} (hj : j ≤ p + t) : elevKnot (nth U) p n t j = nth U p := by
  unfold elevKnot; rw [if_pos hj]

theorem ek_block (h : KnotShape U p n q) {a μ j : ℕ} (hp : p ≤ a) (hn : a < n) (hs : nth U a < nth U (a + 1))
    (hb : Block (nth U) (n + p + 1) a μ) (h1 : sig (nth U) p t a < j) (h2 : j ≤ sig (nth U) p t (a + μ)) :
    elevKnot (nth U) p n t j = nth U (a + 1) := by
  have h0 : p + t ≤ sig (nth U) p t a := by rw [← h.sig_first (t := t)]; exact sig_le (le_refl _) hp
  unfold elevKnot
  rw [if_neg (by omega)]
  have : Nat.findGreatest (fun x => p ≤ x ∧ nth U x < nth U (x + 1) ∧ sig (nth U) p t x < j) n = a := by
    rw [Nat.findGreatest_eq_iff]
    refine ⟨hn.le, fun _ => ⟨hp, hs, h1⟩, ?_⟩
    rintro y hy1 hy2 ⟨hy3, hy4, hy5⟩
    have hle := h.next_le hb hy1 hy4
    have := sig_le (U := nth U) (p := p) (t := t) (x := a + μ) (y := y) (by omega) hle
    omega
  rw [this]

theorem ek_last (h : KnotShape U p n q) {j : ℕ} (h1 : sig (nth U) p t n < j) : elevKnot (nth U) p n t j = nth U (n + 1) := by
  have h0 : p + t ≤ sig (nth U) p t n := by rw [← h.sig_first (t := t)]; exact sig_le (le_refl _) h.pn
  unfold elevKnot
  rw [if_neg (by omega)]
  have : Nat.findGreatest (fun x => p ≤ x ∧ nth U x < nth U (x + 1) ∧ sig (nth U) p t x < j) n = n := by
    rw [Nat.findGreatest_eq_iff]
    exact ⟨le_refl _, fun _ => ⟨h.pn, h.hi, h1⟩, fun y hy1 hy2 => by omega⟩
  rw [this]

theorem ek_at (h : KnotShape U p n q) {a : ℕ} (hp : p ≤ a) (hn : a ≤ n) (hs : nth U a < nth U (a + 1)) :
    ∀ j, j ≤ sig (nth U) p t a → sig (nth U) p t a ≤ j + t → elevKnot (nth U) p n t j = nth U a := by
  refine h.span_ind (Q := fun a => ∀ j, j ≤ sig (nth U) p t a → sig (nth U) p t a ≤ j + t → elevKnot (nth U) p n t j = nth U a)
    (le_refl p) h.lo ?_ ?_ a hp hn hs
  · intro j h1 _
    rw [h.sig_first] at h1
    exact ek_first h1
  · intro a μ hpa han hsa hb i1 i2 e hpos _ _ j h1 h2
    have hσ := sig_block (t := t) hpa hb i2
    rw [h.ek_block hpa han hsa hb (by omega) h1, e]

theorem ek_mono (h : KnotShape U p n q) {N : ℕ} : MonoTo (elevKnot (nth U) p n t) N := by
  intro i j hij _
  have hb : ∀ j, Nat.findGreatest (fun x => p ≤ x ∧ nth U x < nth U (x + 1) ∧ sig (nth U) p t x < j) n ≤ n := fun j => Nat.findGreatest_le n
  unfold elevKnot
  have hpn := h.pn
  have := h.pos
  by_cases hi : i ≤ p + t
  · rw [if_pos hi]
    by_cases hj : j ≤ p + t
    · rw [if_pos hj]
    · rw [if_neg hj]
      apply h.mono _ _ _ (by have := hb j; omega)
      have h1 : p ≤ Nat.findGreatest (fun x => p ≤ x ∧ nth U x < nth U (x + 1) ∧ sig (nth U) p t x < j) n :=
        Nat.le_findGreatest hpn ⟨le_refl _, h.lo, by rw [h.sig_first]; omega⟩
      omega
  · rw [if_neg hi, if_neg (by omega)]
    apply h.mono _ _ _ (by have := hb j; omega)
    have : Nat.findGreatest (fun x => p ≤ x ∧ nth U x < nth U (x + 1) ∧ sig (nth U) p t x < i) n ≤
        Nat.findGreatest (fun x => p ≤ x ∧ nth U x < nth U (x + 1) ∧ sig (nth U) p t x < j) n :=
      Nat.findGreatest_mono_left (fun x hx => ⟨hx.1, hx.2.1, by omega⟩) n
    omega

theorem ek_le (h : KnotShape U p n q) {a j : ℕ} (hp : p ≤ a) (hn : a ≤ n) (hs : nth U a < nth U (a + 1)) (hj : j ≤ sig (nth U) p t a) :
    elevKnot (nth U) p n t j ≤ nth U a := by
  rw [← h.ek_at (t := t) hp hn hs (sig (nth U) p t a) (le_refl _) (by omega)]
  exact h.ek_mono (N := sig (nth U) p t a) _ _ hj (le_refl _)

/-- the span `x` of the old knots is the span `sig x` of the new ones -/
theorem ek_next (h : KnotShape U p n q) {a : ℕ} (hp : p ≤ a) (hn : a ≤ n) (hs : nth U a < nth U (a + 1)) :
    elevKnot (nth U) p n t (sig (nth U) p t a + 1) = nth U (a + 1) := by
  rcases Nat.lt_or_ge a n with hlt | hge
  · obtain ⟨μ, hb⟩ := exists_block (U := nth U) (m := n + p + 1) (a := a) h.mono (by omega)
    obtain ⟨i1, i2, i3⟩ := h.inner hp hlt hs hb
    have hσ := sig_block (t := t) hp hb i2
    have := hb.pos
    exact h.ek_block hp hlt hs hb (by omega) (by omega)
  · obtain rfl : a = n := by omega
    exact h.ek_last (by omega)

theorem ek_piece (h : KnotShape U p n q) {a : ℕ} (hp : p ≤ a) (hn : a ≤ n) (hs : nth U a < nth U (a + 1)) :
    Piece (elevKnot (nth U) p n t) (p + t) (sig (nth U) p t a) := by
  refine ⟨?_, fun i j hij hj => h.ek_mono (N := j) i j hij (le_refl _), ?_⟩
  · rw [← h.sig_first (t := t)]; exact sig_le (le_refl _) hp
  · rw [h.ek_next hp hn hs, h.ek_at hp hn hs _ (le_refl _) (by omega)]; exact hs

/-- the elevated polar form of the span `x` -/
noncomputable def G (U : List K) (P : List T) (p x : ℕ) : Multiset K → T := elev p (pol (nth U) p (nth P) x)

theorem G_polar (h : KnotShape U p n q) {a : ℕ} (hp : p ≤ a) (hn : a ≤ n) (hs : nth U a < nth U (a + 1)) : Polar (p + t) (G U P p a) :=
  elev_polar (pol_polar (h.piece hp hn hs)) (by omega)

theorem G_cross (h : KnotShape U p n q) {a μ : ℕ} (hp : p ≤ a) (hn : a < n) (hs : nth U a < nth U (a + 1))
    (hb : Block (nth U) (n + p + 1) a μ) {m : Multiset K} (hm : m.card = p + t) (hc : μ + t ≤ m.count (nth U (a + 1))) :
    G U P p a m = G U P p (a + μ) m := by
  obtain ⟨i1, i2, i3⟩ := h.inner hp hn hs hb
  exact elev_agree (fun m hm hc => pol_cross' (h.piece hp hn.le hs) (h.piece (by omega) i1 i2) rfl hb.eq hm hc) hm hc

/-- the polar forms of all spans in the support of a new control point agree at its knots -/
theorem G_chain (h : KnotShape U p n q) {i x : ℕ} (hpx : p ≤ x) (hx : nth U x < nth U (x + 1)) (hi : i ≤ sig (nth U) p t x) :
    ∀ y, x ≤ y → y ≤ n → nth U y < nth U (y + 1) → sig (nth U) p t y ≤ i + (p + t) →
      G U P p x (kms (elevKnot (nth U) p n t) (i + 1) (p + t)) = G U P p y (kms (elevKnot (nth U) p n t) (i + 1) (p + t)) := by
  refine h.span_ind (Q := fun y => sig (nth U) p t y ≤ i + (p + t) →
      G U P p x (kms (elevKnot (nth U) p n t) (i + 1) (p + t)) = G U P p y (kms (elevKnot (nth U) p n t) (i + 1) (p + t))) hpx hx (fun _ => rfl) ?_
  intro a μ hxa han hsa hb i1 i2 e hpos _ ih hle
  have hσ := sig_block (t := t) (by omega : p ≤ a) hb i2
  have hσ2 := sig_le (U := nth U) (t := t) hpx hxa
  rw [ih (by omega)]
  apply h.G_cross (t := t) (by omega) han hsa hb (by simp)
  have e1 : p + t = (sig (nth U) p t a - i) + ((μ + t) + (i + (p + t) - sig (nth U) p t (a + μ))) := by omega
  rw [e1, kms_add, kms_add, kms_const (a := i + 1 + (sig (nth U) p t a - i)) (k := μ + t) (x := nth U (a + 1)), Multiset.count_add,
    Multiset.count_add, Multiset.count_replicate_self]
  · omega
  · intro k hk
    exact h.ek_block (by omega) han hsa hb (by omega) (by omega)

end KnotShape

end LNLib
