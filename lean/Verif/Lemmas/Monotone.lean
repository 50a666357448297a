import Verif.Lemmas.InsertOne
import Verif.Lemmas.SpanExists

/-! # Curves whose control points are in order are monotone

A pair `(a, w)` stands for the number `a / w`; `Before` orders the pairs by these numbers. -/

namespace LNLib
open Res Spec Finset

variable {K : Type} [Field K] [LinearOrder K] [IsStrictOrderedRing K]

/-- `x.1 / x.2 ≤ y.1 / y.2` for positive denominators -/
def Before (x y : K × K) : Prop := x.1 * y.2 ≤ y.1 * x.2

theorem Before.comb {x y z : K × K} {a b : K} (ha : 0 ≤ a) (hb : 0 ≤ b) (h1 : Before x z) (h2 : Before y z) : Before (a • x + b • y) z := by
  unfold Before at *
  simp only [Prod.fst_add, Prod.snd_add, Prod.smul_fst, Prod.smul_snd, smul_eq_mul]
  nlinarith [mul_le_mul_of_nonneg_left h1 ha, mul_le_mul_of_nonneg_left h2 hb]

theorem Before.comb' {x y z : K × K} {a b : K} (ha : 0 ≤ a) (hb : 0 ≤ b) (h1 : Before z x) (h2 : Before z y) : Before z (a • x + b • y) := by
  unfold Before at *
  simp only [Prod.fst_add, Prod.snd_add, Prod.smul_fst, Prod.smul_snd, smul_eq_mul]
  nlinarith [mul_le_mul_of_nonneg_left h1 ha, mul_le_mul_of_nonneg_left h2 hb]

theorem Before.sum {ι : Type} {z : K × K} (s : Finset ι) {b : ι → K} {Q : ι → K × K} (hb : ∀ i ∈ s, 0 ≤ b i) (h : ∀ i ∈ s, Before z (Q i)) :
    Before z (∑ i ∈ s, b i • Q i) := by
  classical
  induction s using Finset.induction_on with
  | empty => simp [Before]
  | insert a s ha ih =>
    rw [sum_insert ha]
    have := Before.comb' (hb a (mem_insert_self _ _)) zero_le_one (h a (mem_insert_self _ _))
      (ih (fun i hi => hb i (mem_insert_of_mem hi)) fun i hi => h i (mem_insert_of_mem hi))
    rwa [one_smul] at this

/-- the knots with one more knot `t` after the span `σ` -/
def insKnot (W : ℕ → K) (σ : ℕ) (t : K) (l : ℕ) : K := if l ≤ σ then W l else if l = σ + 1 then t else W (l - 1)

/-- the control points for `insKnot` -/
def insPoint (W : ℕ → K) (Q : ℕ → K × K) (p σ : ℕ) (t : K) (j : ℕ) : K × K :=
  if j + p ≤ σ then Q j
  else if j ≤ σ then ((W (j + p) - t) / (W (j + p) - W j)) • Q (j - 1) + ((t - W j) / (W (j + p) - W j)) • Q j
  else Q (j - 1)

theorem ins_oneIns {W : ℕ → K} {Q : ℕ → K × K} {p n σ : ℕ} {t : K} (hm : MonoTo W (n + p + 1)) (hs : IsSpan W p n t σ) (ht : t < W (n + 1)) :
    OneIns W (insKnot W σ t) Q (insPoint W Q p σ t) p n σ t := by
  obtain ⟨s1, s2, s3, s4, s5⟩ := hs
  have h5 : t ≤ W (σ + 1) := by
    rcases s5 with h | ⟨h, -⟩ <;> exact h.le
  refine ⟨hm, s1, s4, h5, ht, ?_, ?_, ?_, ?_, ?_, ?_⟩
  · intro l hl
    unfold insKnot
    rw [if_pos hl]
  · unfold insKnot
    rw [if_neg (by omega), if_pos rfl]
  · intro l hl _
    unfold insKnot
    rw [if_neg (by omega), if_neg (by omega)]
  · intro j hj
    unfold insPoint
    rw [if_pos hj]
  · intro j h1 h2 _
    unfold insPoint
    rw [if_neg (by omega), if_pos h2]
  · intro j h1 _
    unfold insPoint
    by_cases h : j + p ≤ σ
    · omega
    · rw [if_neg h, if_neg (by omega)]

/-- every new control point is a non-negative combination of two neighbouring old ones, with sum of coefficients one -/
theorem insPoint_comb {W : ℕ → K} {Q : ℕ → K × K} {p n σ : ℕ} {t : K} (hm : MonoTo W (n + p + 1)) (hs : IsSpan W p n t σ) {j : ℕ}
    (hj : j ≤ n + 1) : (j ≤ n ∧ insPoint W Q p σ t j = Q j) ∨ (1 ≤ j ∧ insPoint W Q p σ t j = Q (j - 1)) ∨
      (1 ≤ j ∧ j ≤ n ∧ ∃ a b : K, 0 ≤ a ∧ 0 ≤ b ∧ a + b = 1 ∧ insPoint W Q p σ t j = a • Q (j - 1) + b • Q j) := by
  obtain ⟨s1, s2, s3, s4, s5⟩ := hs
  have h5 : t ≤ W (σ + 1) := by
    rcases s5 with h | ⟨h, -⟩ <;> exact h.le
  unfold insPoint
  by_cases h1 : j + p ≤ σ
  · left
    rw [if_pos h1]
    exact ⟨by omega, rfl⟩
  · rw [if_neg h1]
    by_cases h2 : j ≤ σ
    · rw [if_pos h2]
      right; right
      have a1 := hm j σ h2 (by omega)
      have a2 := hm (σ + 1) (j + p) (by omega) (by omega)
      have hlt : 0 < W (j + p) - W j := sub_pos.mpr (lt_of_le_of_lt a1 (lt_of_lt_of_le s3 a2))
      refine ⟨by omega, by omega, _, _, div_nonneg (sub_nonneg.mpr (h5.trans a2)) hlt.le, div_nonneg (sub_nonneg.mpr (a1.trans s4)) hlt.le, ?_, rfl⟩
      rw [← add_div, div_eq_one_iff_eq hlt.ne']
      ring
    · rw [if_neg h2]
      right; left
      exact ⟨by omega, rfl⟩

theorem ins_sorted {W : ℕ → K} {Q : ℕ → K × K} {p n σ : ℕ} {t : K} (hm : MonoTo W (n + p + 1)) (hs : IsSpan W p n t σ)
    (hq : ∀ i j, i ≤ j → j ≤ n → Before (Q i) (Q j)) {i j : ℕ} (hij : i ≤ j) (hj : j ≤ n + 1) :
    Before (insPoint W Q p σ t i) (insPoint W Q p σ t j) := by
  rcases Nat.eq_or_lt_of_le hij with rfl | hlt
  · exact le_refl _
  have key : ∀ k, (k = i ∨ k + 1 = i) → k ≤ n → Before (Q k) (insPoint W Q p σ t j) := by
    intro k hk hkn
    rcases insPoint_comb (Q := Q) hm hs hj with ⟨h1, e⟩ | ⟨h1, e⟩ | ⟨h1, h2, a, b, ha, hb, -, e⟩
    · rw [e]; exact hq _ _ (by omega) h1
    · rw [e]; exact hq _ _ (by omega) (by omega)
    · rw [e]; exact Before.comb' ha hb (hq _ _ (by omega) (by omega)) (hq _ _ (by omega) (by omega))
  rcases insPoint_comb (Q := Q) (j := i) hm hs (by omega) with ⟨h1, e⟩ | ⟨h1, e⟩ | ⟨h1, h2, a, b, ha, hb, -, e⟩
  · rw [e]; exact key i (Or.inl rfl) h1
  · rw [e]; exact key (i - 1) (Or.inr (by omega)) (by omega)
  · rw [e]; exact Before.comb ha hb (key _ (Or.inr (by omega)) (by omega)) (key _ (Or.inl rfl) h2)

/-- The value at a parameter precedes the value at every later parameter: induction on the number of copies of `t` missing in the knots. -/
theorem curve_before {p : ℕ} (hp : 1 ≤ p) (d : ℕ) : ∀ {W : ℕ → K} {Q : ℕ → K × K} {n σ σ' m : ℕ} {t t' : K}, MonoTo W (n + p + 1) → IsSpan W p n t σ →
    IsSpan W p n t' σ' → t ≤ t' → t < W (n + 1) → (∀ i j, i ≤ j → j ≤ n → Before (Q i) (Q j)) → (∀ l, l < m → W (σ - l) = t) → m + d = p →
    Before (curvePoint W p n Q t) (curvePoint W p n Q t') := by
  induction d with
  | zero =>
    intro W Q n σ σ' m t t' hm hs hs' htt ht hq hk hmd
    have hle : σ ≤ σ' := by
      by_contra h
      have h1 := hm (σ' + 1) σ (by omega) (by have := hs.2.1; omega)
      have h2 := hs.2.2.2.1
      rcases hs'.2.2.2.2 with h3 | ⟨h3, h4⟩
      · linarith
      · rw [h4] at h3
        have := hs.2.1
        have h5 := hm (σ' + 1) (n + 1) (by omega) (by omega)
        rw [← h4] at h3
        linarith
    have hP : Piece W p σ := ⟨hs.1, fun a b h1 h2 => hm a b h1 (by have := hs.2.1; omega), hs.2.2.1⟩
    have s1 := hs.1
    have e1 : curvePoint W p n Q t = Q (σ - p) := by
      rw [curvePoint_span hm (le_refl _) hs, E_eval hP t]
      have := E_full (P := Q) hP p [] (σ - p) (by simp) (by omega) (by simp)
      rw [List.nil_append, kn_const (x := t)] at this
      · rw [← this]; rfl
      · intro i hi
        simp only [List.length_nil, Nat.add_zero]
        rw [← hk (p - 1 - i) (by omega)]
        congr 1
        omega
    rw [e1, curvePoint_span hm (le_refl _) hs']
    have s2 := hs'.2.1
    have s3 := hs'.1
    have h5 : t' ≤ W (σ' + 1) := by
      rcases hs'.2.2.2.2 with h | ⟨h, -⟩ <;> exact h.le
    apply Before.sum
    · intro r hr
      rw [mem_range] at hr
      exact Nspan_nonneg hm hs'.2.2.2.1 h5 p _ (by omega)
    · intro r hr
      rw [mem_range] at hr
      exact hq _ _ (by omega) (by omega)
  | succ d ih =>
    intro W Q n σ σ' m t t' hm hs hs' htt ht hq hk hmd
    have h := ins_oneIns (Q := Q) hm hs ht
    have hin := hs.2.1
    obtain ⟨τ', hτ', e'⟩ := h.curve hin hp hs'
    have hnew : IsSpan (insKnot W σ t) p (n + 1) t (σ + 1) := by
      have hlt : t < W (σ + 1) := by
        rcases hs.2.2.2.2 with h | ⟨h, h'⟩
        · exact h
        · rw [h, h'] at ht; exact absurd ht (lt_irrefl _)
      have k1 := h.kx
      have k2 := h.khi (σ + 2) (by omega) (by omega)
      refine ⟨by have := hs.1; omega, by omega, ?_, ?_, Or.inl ?_⟩
      · rw [k1, show σ + 1 + 1 = σ + 2 from rfl, k2]; exact hlt
      · rw [k1]
      · rw [show σ + 1 + 1 = σ + 2 from rfl, k2]; exact hlt
    obtain ⟨τ, hτ, e⟩ := h.curve hin hp hs
    rw [← e, ← e']
    refine ih (m := m + 1) (h.mono' hin) hnew hτ' htt ?_ (fun i j hij hj => ins_sorted hm hs hq hij hj) ?_ (by omega)
    · rw [h.khi (n + 1 + 1) (by omega) (by omega)]
      exact ht
    · intro l hl
      rcases Nat.eq_zero_or_pos l with rfl | hl0
      · exact h.kx
      · rw [show σ + 1 - l = σ - (l - 1) by have := hs.1; omega, h.klo _ (by omega)]
        exact hk _ (by omega)

end LNLib
