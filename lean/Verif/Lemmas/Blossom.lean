import Verif.Lemmas.CurveEval
import Mathlib.Tactic.Module
import Mathlib.Data.List.Perm.Basic

/-!
# Blossoms (polar forms) of B-spline pieces

`E U p P xs j` is the de Boor point obtained from the control points by one affine step per
argument in `xs`.  It is symmetric in `xs`, affine in every argument, and reproduces the control
points at consecutive knots.  Two control polygons describe the same polynomial piece as soon as
one of them consists of the blossom values of the other at its own consecutive knots.
-/
set_option linter.unusedSectionVars false

namespace LNLib
open Res Spec Finset

section
variable {K : Type} [Field K]
variable {T : Type} [AddCommGroup T] [Module K T]

/-- de Boor points -/
def E (U : ℕ → K) (p : ℕ) (P : ℕ → T) : List K → ℕ → T
  | [], j => P j
  | x :: xs, j =>
    ((U (j + p + 1) - x) / (U (j + p + 1) - U (j + xs.length + 1))) • E U p P xs j
      + ((x - U (j + xs.length + 1)) / (U (j + p + 1) - U (j + xs.length + 1))) • E U p P xs (j + 1)

/-- `k` consecutive knots from index `a` -/
def kn (U : ℕ → K) : ℕ → ℕ → List K
  | _, 0 => []
  | a, k + 1 => U a :: kn U (a + 1) k

@[simp] theorem kn_length (U : ℕ → K) : ∀ (k a : ℕ), (kn U a k).length = k := by
  intro k
  induction k with
  | zero => intro a; rfl
  | succ k ih => intro a; simp [kn, ih]

theorem kn_add (U : ℕ → K) : ∀ (k a l : ℕ), kn U a (k + l) = kn U a k ++ kn U (a + k) l := by
  intro k
  induction k with
  | zero => intro a l; simp [kn]
  | succ k ih =>
    intro a l
    have e : k + 1 + l = k + l + 1 := by omega
    have e2 : a + (k + 1) = a + 1 + k := by omega
    rw [e, e2]
    simp only [kn, ih, List.cons_append]

theorem kn_congr {U V : ℕ → K} : ∀ (k a b : ℕ), (∀ i < k, U (a + i) = V (b + i)) → kn U a k = kn V b k := by
  intro k
  induction k with
  | zero => intro a b _; rfl
  | succ k ih =>
    intro a b h
    simp only [kn]
    rw [ih (a + 1) (b + 1) (by
      intro i hi
      have := h (i + 1) (by omega)
      have e1 : a + 1 + i = a + (i + 1) := by omega
      have e2 : b + 1 + i = b + (i + 1) := by omega
      rw [e1, e2]; exact this)]
    have := h 0 (by omega)
    simp only [add_zero] at this
    rw [this]

theorem kn_const {U : ℕ → K} {x : K} : ∀ (k a : ℕ), (∀ i < k, U (a + i) = x) → kn U a k = List.replicate k x := by
  intro k
  induction k with
  | zero => intro a _; rfl
  | succ k ih =>
    intro a h
    simp only [kn, List.replicate_succ]
    rw [ih (a + 1) (by
      intro i hi
      have := h (i + 1) (by omega)
      have e1 : a + 1 + i = a + (i + 1) := by omega
      rw [e1]; exact this)]
    have := h 0 (by omega)
    simp only [add_zero] at this
    rw [this]

theorem kn_snoc (U : ℕ → K) (a k : ℕ) : kn U a (k + 1) = kn U a k ++ [U (a + k)] := by
  rw [kn_add]; rfl

end

variable {K : Type} [Field K] [LinearOrder K] [IsStrictOrderedRing K]
variable {T : Type} [AddCommGroup T] [Module K T]

/-- the knots around the nonempty span `s` that a degree `p` piece uses are in order -/
structure Piece (U : ℕ → K) (p s : ℕ) : Prop where
  le : p ≤ s
  mono : MonoTo U (s + p)
  lt : U s < U (s + 1)

theorem Piece.den {U : ℕ → K} {p s : ℕ} (h : Piece U p s) {a b : ℕ} (ha : a ≤ s) (hb : s + 1 ≤ b) (hb' : b ≤ s + p) :
    U b - U a ≠ 0 := by
  have h1 := h.mono a s ha (by omega)
  have h2 := h.mono (s + 1) b hb hb'
  exact sub_ne_zero.mpr (ne_of_gt (lt_of_le_of_lt h1 (lt_of_lt_of_le h.lt h2)))

theorem E_swap {U : ℕ → K} {p s : ℕ} {P : ℕ → T} (h : Piece U p s) {x y : K} {xs : List K} {j : ℕ}
    (h1 : s ≤ j + p) (h2 : j + xs.length + 2 ≤ s) : E U p P (x :: y :: xs) j = E U p P (y :: x :: xs) j := by
  simp only [E, List.length_cons]
  set r := xs.length
  have d1 : U (j + p + 1) - U (j + r + 1) ≠ 0 := h.den (by omega) (by omega) (by omega)
  have d2 : U (j + 1 + p + 1) - U (j + 1 + r + 1) ≠ 0 := h.den (by omega) (by omega) (by omega)
  have e : j + 1 + r + 1 = j + (r + 1) + 1 := by omega
  rw [e] at d2 ⊢
  have d3 : U (j + p + 1) - U (j + (r + 1) + 1) ≠ 0 := h.den (by omega) (by omega) (by omega)
  generalize U (j + p + 1) = c at *
  generalize U (j + r + 1) = a at *
  generalize U (j + 1 + p + 1) = d at *
  generalize U (j + (r + 1) + 1) = b at *
  generalize E U p P xs j = A
  generalize E U p P xs (j + 1) = B
  generalize E U p P xs (j + 1 + 1) = C
  match_scalars
  · field_simp
  · field_simp
    ring
  · field_simp

theorem E_perm {U : ℕ → K} {p s : ℕ} {P : ℕ → T} (h : Piece U p s) {xs ys : List K} (hp : xs.Perm ys) :
    ∀ {j : ℕ}, s ≤ j + p → j + xs.length ≤ s → E U p P xs j = E U p P ys j := by
  induction hp with
  | nil => intros; rfl
  | cons x hp ih =>
    intro j h1 h2
    simp only [List.length_cons] at h2
    simp only [E]
    rw [ih h1 (by omega), ih (j := j + 1) (by omega) (by omega), hp.length_eq]
  | swap x y l =>
    intro j h1 h2
    simp only [List.length_cons] at h2
    exact E_swap h h1 (by omega)
  | trans hp1 hp2 ih1 ih2 =>
    intro j h1 h2
    rw [ih1 h1 h2, ih2 h1 (by rw [← hp1.length_eq]; exact h2)]

theorem E_affine {U : ℕ → K} {p s : ℕ} {P : ℕ → T} (h : Piece U p s) {a b x y : K} (hab : a + b = 1) {xs : List K} {j : ℕ}
    (h1 : s ≤ j + p) (h2 : j + xs.length + 1 ≤ s) :
    E U p P ((a * x + b * y) :: xs) j = a • E U p P (x :: xs) j + b • E U p P (y :: xs) j := by
  simp only [E]
  have d1 : U (j + p + 1) - U (j + xs.length + 1) ≠ 0 := h.den (by omega) (by omega) (by omega)
  generalize U (j + p + 1) = c at *
  generalize U (j + xs.length + 1) = d at *
  generalize E U p P xs j = A
  generalize E U p P xs (j + 1) = B
  obtain rfl : b = 1 - a := by rw [← hab]; ring
  match_scalars
  · field_simp
    ring
  · field_simp
    ring

theorem E_left {U : ℕ → K} {p s : ℕ} {P : ℕ → T} (h : Piece U p s) {xs : List K} {j : ℕ}
    (h1 : s ≤ j + p) (h2 : j + xs.length + 1 ≤ s) : E U p P (U (j + xs.length + 1) :: xs) j = E U p P xs j := by
  simp only [E]
  have d1 : U (j + p + 1) - U (j + xs.length + 1) ≠ 0 := h.den (by omega) (by omega) (by omega)
  rw [div_self d1]
  simp

theorem E_right {U : ℕ → K} {p s : ℕ} {P : ℕ → T} (h : Piece U p s) {xs : List K} {j : ℕ}
    (h1 : s ≤ j + p) (h2 : j + xs.length + 1 ≤ s) : E U p P (U (j + p + 1) :: xs) j = E U p P xs (j + 1) := by
  simp only [E]
  have d1 : U (j + p + 1) - U (j + xs.length + 1) ≠ 0 := h.den (by omega) (by omega) (by omega)
  rw [div_self d1]
  simp

/-- a partial de Boor point is the full blossom with the missing arguments filled by knots -/
theorem E_full {U : ℕ → K} {p s : ℕ} {P : ℕ → T} (h : Piece U p s) :
    ∀ (k : ℕ) (xs : List K) (j : ℕ), xs.length + k = p → s ≤ j + p → j + xs.length ≤ s →
      E U p P xs j = E U p P (xs ++ kn U (j + xs.length + 1) k) (s - p) := by
  intro k
  induction k with
  | zero =>
    intro xs j hk h1 h2
    have : j = s - p := by omega
    simp [kn, this]
  | succ k ih =>
    intro xs j hk h1 h2
    have hle := h.le
    by_cases hj : j = s - p
    · rw [← E_left h h1 (by omega), ih _ j (by simp; omega) h1 (by simp; omega)]
      apply E_perm h _ (by omega) (by simp; omega)
      simp only [kn, List.length_cons, List.cons_append]
      have e : j + (xs.length + 1) + 1 = j + xs.length + 1 + 1 := by omega
      rw [e]
      exact List.perm_middle.symm
    · obtain ⟨i, rfl⟩ : ∃ i, j = i + 1 := ⟨j - 1, by omega⟩
      rw [← E_right h (j := i) (by omega) (by omega), ih _ i (by simp; omega) (by omega) (by simp; omega)]
      apply E_perm h _ (by omega) (by simp; omega)
      rw [kn_snoc]
      simp only [List.length_cons, List.cons_append]
      have e : i + (xs.length + 1) + 1 = i + 1 + xs.length + 1 := by omega
      have e2 : i + 1 + xs.length + 1 + k = i + p + 1 := by omega
      rw [e, e2, ← List.append_assoc]
      exact (List.perm_append_singleton _ _).symm

/-- The blossom of one polygon evaluated by another: if every control point `Q_j` of the second
polygon is a symmetric, affine function `F` at its own knots, then the de Boor points of the second
polygon are the values of `F`. -/
theorem E_unique {V : ℕ → K} {p s : ℕ} {Q : ℕ → T} (h : Piece V p s) {F : List K → T}
    (Fperm : ∀ xs ys : List K, xs.length = p → xs.Perm ys → F xs = F ys)
    (Faff : ∀ (a b x y : K) (xs : List K), a + b = 1 → xs.length + 1 = p →
      F ((a * x + b * y) :: xs) = a • F (x :: xs) + b • F (y :: xs))
    (hQ : ∀ j, s ≤ j + p → j ≤ s → Q j = F (kn V (j + 1) p)) :
    ∀ (xs : List K) (k j : ℕ), xs.length + k = p → s ≤ j + p → j + xs.length ≤ s →
      E V p Q xs j = F (xs ++ kn V (j + xs.length + 1) k) := by
  intro xs
  induction xs with
  | nil =>
    intro k j hk h1 h2
    simp only [List.length_nil, zero_add] at hk
    subst hk
    simpa [E] using hQ j h1 (by simpa using h2)
  | cons x xs ih =>
    intro k j hk h1 h2
    simp only [List.length_cons] at hk h2
    simp only [E, List.length_cons, List.cons_append]
    rw [ih (k + 1) j (by omega) h1 (by omega), ih (k + 1) (j + 1) (by omega) (by omega) (by omega)]
    have d1 : V (j + p + 1) - V (j + xs.length + 1) ≠ 0 := h.den (by omega) (by omega) (by omega)
    have e0 : j + (xs.length + 1) + 1 = j + xs.length + 1 + 1 := by omega
    have e3 : j + 1 + xs.length + 1 = j + xs.length + 1 + 1 := by omega
    have p1 : F (xs ++ kn V (j + xs.length + 1) (k + 1))
        = F (V (j + xs.length + 1) :: (xs ++ kn V (j + xs.length + 1 + 1) k)) := by
      apply Fperm _ _ (by simp; omega)
      exact List.perm_middle
    have p2 : F (xs ++ kn V (j + 1 + xs.length + 1) (k + 1))
        = F (V (j + p + 1) :: (xs ++ kn V (j + xs.length + 1 + 1) k)) := by
      apply Fperm _ _ (by simp; omega)
      rw [kn_snoc, e3]
      have e2 : j + xs.length + 1 + 1 + k = j + p + 1 := by omega
      rw [e2, ← List.append_assoc]
      exact List.perm_append_singleton _ _
    rw [p1, p2, ← Faff _ _ _ _ _ _ (by simp; omega), e0]
    · congr 2
      field_simp
      ring
    · field_simp
      ring

/-- de Boor's algorithm: the blossom on the diagonal is the curve piece -/
theorem E_eval {U : ℕ → K} {p s : ℕ} {P : ℕ → T} (h : Piece U p s) (t : K) :
    ∑ r ∈ range (p + 1), Nspan U s p (s - p + r) t • P (s - p + r) = E U p P (List.replicate p t) (s - p) := by
  have hle := h.le
  have key : ∀ r, r ≤ p → ∑ r ∈ range (p + 1), Nspan U s p (s - p + r) t • P (s - p + r)
      = ∑ k ∈ range (p - r + 1), Nspan U s (p - r) (s - p + k + r) t • E U p P (List.replicate r t) (s - p + k) := by
    intro r
    induction r with
    | zero => intro _; simp [E]
    | succ r ih =>
      intro hr
      rw [ih (by omega)]
      obtain ⟨q, hq⟩ : ∃ q, p - r = q + 1 := ⟨p - r - 1, by omega⟩
      have hq' : p - (r + 1) = q := by omega
      rw [hq, hq']
      simp only [Nspan, add_smul, Finset.sum_add_distrib, List.replicate_succ, E, List.length_replicate, smul_add]
      rw [Finset.sum_range_succ', Finset.sum_range_succ (fun k => _ • _) (q + 1)]
      rw [Nspan_zero U s q (s - p + 0 + r) t (by omega), Nspan_zero U s q (s - p + (q + 1) + r + 1) t (by omega)]
      simp only [mul_zero, zero_smul, add_zero]
      rw [add_comm]
      congr 1
      · apply Finset.sum_congr rfl
        intro k _
        rw [smul_smul]
        have e1 : s - p + k + r + q + 2 = s - p + k + p + 1 := by omega
        have e2 : s - p + k + r + 1 = s - p + k + (r + 1) := by omega
        rw [e1, e2]
        rw [mul_comm]
      · apply Finset.sum_congr rfl
        intro k _
        rw [smul_smul]
        have e1 : s - p + (k + 1) + r + q + 1 = s - p + k + p + 1 := by omega
        have e2 : s - p + (k + 1) + r = s - p + k + r + 1 := by omega
        have e3 : s - p + (k + 1) = s - p + k + 1 := by omega
        have e4 : s - p + k + (r + 1) = s - p + k + r + 1 := by omega
        rw [e1, e2, e3, e4]
        rw [mul_comm]
  rw [key p (le_refl _)]
  simp only [Nat.sub_self, zero_add, Finset.sum_range_one, Nspan]
  rw [if_pos (by omega)]
  simp

/-- Two polygons with the same blossom values describe the same polynomial piece. -/
theorem piece_eq {U V : ℕ → K} {p s s' : ℕ} {P Q : ℕ → T} (hU : Piece U p s) (hV : Piece V p s')
    (hQ : ∀ j, s' ≤ j + p → j ≤ s' → Q j = E U p P (kn V (j + 1) p) (s - p)) (t : K) :
    ∑ r ∈ range (p + 1), Nspan V s' p (s' - p + r) t • Q (s' - p + r)
      = ∑ r ∈ range (p + 1), Nspan U s p (s - p + r) t • P (s - p + r) := by
  have hle := hU.le
  have hle' := hV.le
  rw [E_eval hU, E_eval hV]
  have := E_unique (V := V) (Q := Q) hV (F := fun xs => E U p P xs (s - p))
    (fun xs ys hx hp => E_perm hU hp (by omega) (by omega))
    (fun a b x y xs hab hx => E_affine hU hab (by omega) (by omega)) hQ (List.replicate p t) 0 (s' - p)
    (by simp) (by omega) (by simp; omega)
  simpa [kn] using this

end LNLib
