import Verif.Props.BandRun
import Mathlib.Tactic.Ring
import Mathlib.Tactic.LinearCombination

/-! # The band matrix and the right-hand side of the least squares approximation are the normal equations -/
set_option linter.unusedSectionVars false

namespace LNLib.Props
open LNLib Res Spec Finset

variable {K : Type} [Field K] [LinearOrder K] [IsStrictOrderedRing K]

/-- the value of the inner basis function `a + 1` at the inner parameter `k + 1` -/
def bandG (kv uk : List K) (p : ℕ) (s : ℕ → ℕ) (k a : ℕ) : K := Nspan (nth kv) (s k) p (a + 1) (nth uk (k + 1))

section
variable {kv uk : List K} {p n m : ℕ} {s : ℕ → ℕ}

theorem BandReady.outside {st : BandState K} {stop : List ℤ} (h : BandReady kv uk p n m s st stop) {a k v : ℕ} (ha : a < n - 1) (hk : k < m - 1) (hv : nth st.start a = v)
    (ho : k < v ∨ nth stop a < k) : bandG kv uk p s k a = 0 := by
  obtain ⟨v', e, h1⟩ := h.start a ha
  obtain ⟨-, h2⟩ := h.stop a ha
  have : v' = v := by omega
  subst this
  refine Nspan_zero _ _ _ _ _ ?_
  have g1 := h1 k hk
  have g2 := h2 k hk
  rcases ho with ho | ho
  · left
    by_contra hc
    have := g1.mpr (by omega)
    omega
  · right
    by_contra hc
    have := g2.mpr (by omega)
    omega

theorem BandReady.inside {st : BandState K} {stop : List ℤ} (h : BandReady kv uk p n m s st stop) {a k v : ℕ} (ha : a < n - 1) (hk : k < m - 1) (hv : nth st.start a = v)
    (h1 : v ≤ k) (h2 : (k : ℤ) ≤ nth stop a) : ∃ ix : ℕ, vget st.index k = ok (ix : ℤ) ∧ ix ≤ a ∧ a - ix < p + 1 ∧ ent st.B k (a - ix) = bandG kv uk p s k a := by
  obtain ⟨v', e, g1⟩ := h.start a ha
  obtain ⟨-, g2⟩ := h.stop a ha
  have : v' = v := by omega
  subst this
  have q1 := (g1 k hk).mp h1
  have q2 := (g2 k hk).mp h2
  refine ⟨s k - p - 1, ?_, by omega, by omega, h.B k hk a ha q1 q2⟩
  rw [vget_nth (k := k) rfl (by rw [h.lindex]; exact hk), h.index k hk]

/-- a sum over the rows between `start` and `end` is a sum over all rows -/
theorem bandSum_all {E : Type} [AddCommMonoid E] {f : ℕ → E} {a b N : ℕ} (hb : b ≤ N) (h : ∀ k, k < N → (k < a ∨ b ≤ k) → f k = 0) :
    ∑ k ∈ Ico a b, f k = ∑ k ∈ range N, f k := by
  refine sum_subset ?_ ?_
  · intro k hk
    rw [mem_Ico] at hk
    exact mem_range.mpr (by omega)
  · intro k hk hk'
    rw [mem_range] at hk
    rw [mem_Ico] at hk'
    exact h k hk (by omega)

theorem bandMatrix_run (hn : 2 ≤ n) {st : BandState K} {stop : List ℤ} (h : BandReady kv uk p n m s st stop) :
    Runs (bandMatrix p n st stop) (fun M => IsMat M (n - 1) (2 * p + 1) ∧ ∀ i k, i < n - 1 → k < 2 * p + 1 → p ≤ i + k → i + k - p < n - 1 →
      ent M i k = ∑ r ∈ range (m - 1), bandG kv uk p s r i * bandG kv uk p s r (i + k - p)) := by
  unfold bandMatrix
  rw [show ((n : ℤ) - 1).toNat = n - 1 by omega, show (2 * (p : ℤ) + 1).toNat = 2 * p + 1 by omega]
  refine (Runs.forN (m := 0) (n := n - 1) (fun I (M : List (List K)) => IsMat M (n - 1) (2 * p + 1) ∧ (∀ i k, I ≤ i → ent M i k = 0) ∧
      ∀ i k, i < I → k < 2 * p + 1 → p ≤ i + k → i + k - p < n - 1 →
      ent M i k = ∑ r ∈ range (m - 1), bandG kv uk p s r i * bandG kv uk p s r (i + k - p)) rfl (by omega) (by omega)
      ⟨isMat_replicate, fun i k _ => ent_replicate_zero, fun i k hi => absurd hi (by omega)⟩ ?_).mono ?_
  · rintro i M - hi ⟨q1, q2, q3⟩
    refine (Runs.forN (m := i - p) (n := min (n - 1) (i + p + 1)) (fun J (M' : List (List K)) => IsMat M' (n - 1) (2 * p + 1) ∧
      (∀ a k, a ≠ i → ent M' a k = ent M a k) ∧ (∀ k, J + p ≤ i + k → ent M' i k = 0) ∧
      ∀ k, k < 2 * p + 1 → p ≤ i + k → i + k - p < J →
        ent M' i k = ∑ r ∈ range (m - 1), bandG kv uk p s r i * bandG kv uk p s r (i + k - p)) (by omega) (by omega) (by omega)
      ⟨q1, fun _ _ _ => rfl, fun k _ => q2 i k (le_refl _), fun k hk h1 h2 => by omega⟩ ?_).mono ?_
    · rintro j M' hj hj' ⟨g1, g2, g3, g4⟩
      have hjn : j < n - 1 := by omega
      obtain ⟨vi, ei, -⟩ := h.start i hi
      obtain ⟨vj, ej, -⟩ := h.start j hjn
      rw [vget_nth (k := i) rfl (by rw [h.lstart]; exact hi), ok_bind, vget_nth (k := j) rfl (by rw [h.lstart]; exact hjn), ok_bind,
        vget_nth (k := i) rfl (by rw [h.lstop]; exact hi), ok_bind, vget_nth (k := j) rfl (by rw [h.lstop]; exact hjn), ok_bind, ei, ej]
      have hsi := (h.stop i hi).1
      have hsj := (h.stop j hjn).1
      have hval : ∀ b : ℕ, (b : ℤ) = min (nth stop i) (nth stop j) + 1 ∨ (b = 0 ∧ min (nth stop i) (nth stop j) + 1 ≤ 0) →
          ∑ r ∈ Ico (max vi vj) b, bandG kv uk p s r i * bandG kv uk p s r j = ∑ r ∈ range (m - 1), bandG kv uk p s r i * bandG kv uk p s r j := by
        intro b hb
        refine bandSum_all (by omega) ?_
        intro r hr ho
        by_cases c1 : r < vi ∨ nth stop i < r
        · rw [h.outside hi hr ei c1, zero_mul]
        · rw [h.outside hjn hr ej (by omega), mul_zero]
      have fin : ∀ M'' : List (List K), IsMat M'' (n - 1) (2 * p + 1) →
          (∀ a k, ent M'' a k = if a = i ∧ k = j + p - i then ∑ r ∈ range (m - 1), bandG kv uk p s r i * bandG kv uk p s r j else ent M' a k) →
          IsMat M'' (n - 1) (2 * p + 1) ∧ (∀ a k, a ≠ i → ent M'' a k = ent M a k) ∧ (∀ k, j + 1 + p ≤ i + k → ent M'' i k = 0) ∧
          ∀ k, k < 2 * p + 1 → p ≤ i + k → i + k - p < j + 1 →
            ent M'' i k = ∑ r ∈ range (m - 1), bandG kv uk p s r i * bandG kv uk p s r (i + k - p) := by
        intro M'' x1 x2
        refine ⟨x1, fun a k ha => by rw [x2, if_neg (fun c => ha c.1), g2 a k ha], fun k hk => by rw [x2, if_neg (by omega), g3 k (by omega)], ?_⟩
        intro k hk1 hk2 hk3
        rw [x2]
        by_cases hc : k = j + p - i
        · rw [if_pos ⟨rfl, hc⟩, show i + k - p = j by omega]
        · rw [if_neg (fun c => hc c.2), g4 k hk1 hk2 (by omega)]
      by_cases hemp : min (nth stop i) (nth stop j) + 1 ≤ max (vi : ℤ) vj
      · rw [forI_empty hemp]
        refine Runs.ok (fin M' g1 ?_)
        intro a k
        by_cases hc : a = i ∧ k = j + p - i
        · rw [if_pos hc, hc.1, hc.2, g3 _ (by omega)]
          by_cases hz : 0 ≤ min (nth stop i) (nth stop j) + 1
          · obtain ⟨b, hb⟩ := Int.eq_ofNat_of_zero_le hz
            rw [← hval b (Or.inl hb.symm), Ico_eq_empty (by omega), sum_empty]
          · rw [← hval 0 (Or.inr ⟨rfl, by omega⟩), Ico_eq_empty (by omega), sum_empty]
        · rw [if_neg hc]
      · obtain ⟨b, hb⟩ := Int.eq_ofNat_of_zero_le (show 0 ≤ min (nth stop i) (nth stop j) + 1 by omega)
        refine (Runs.forN (m := max vi vj) (n := b) (fun t (M'' : List (List K)) => IsMat M'' (n - 1) (2 * p + 1) ∧
          ∀ a k, ent M'' a k = if a = i ∧ k = j + p - i then ∑ r ∈ Ico (max vi vj) t, bandG kv uk p s r i * bandG kv uk p s r j else ent M' a k)
          (by push_cast; rfl) hb (by omega) ⟨g1, ?_⟩ ?_).mono ?_
        · intro a k
          by_cases hc : a = i ∧ k = j + p - i
          · rw [if_pos hc, hc.1, hc.2, g3 _ (by omega), Ico_self, sum_empty]
          · rw [if_neg hc]
        · rintro t M'' ht htb ⟨x1, x2⟩
          have htm : t < m - 1 := by omega
          obtain ⟨ix, y1, y2, y3, y4⟩ := h.inside hi htm ei (by omega) (by omega)
          obtain ⟨ix', z1, z2, z3, z4⟩ := h.inside hjn htm ej (by omega) (by omega)
          have hxx : ix' = ix := by rw [y1] at z1; have := Res.ok.inj z1; omega
          subst hxx
          rw [y1, ok_bind, mget_ent (a := t) (b := i - ix') h.lB rfl (by omega) htm y3, ok_bind,
            mget_ent (a := t) (b := j - ix') h.lB rfl (by omega) htm z3, ok_bind,
            mget_ent (a := i) (b := j + p - i) x1 rfl (by omega) hi (by omega), ok_bind]
          obtain ⟨M3, w1, w2, w3⟩ := mset_ok x1 (i := (i : ℤ)) (j := (j : ℤ) - i + p) (a := i) (b := j + p - i)
            (x := ent M'' i (j + p - i) + ent st.B t (i - ix') * ent st.B t (j - ix')) rfl (by omega) hi (by omega)
          rw [w1]
          refine Runs.ok ⟨w2, fun a k => ?_⟩
          rw [w3 a k]
          by_cases hc : a = i ∧ k = j + p - i
          · rw [if_pos hc, if_pos hc, x2, if_pos ⟨rfl, rfl⟩, y4, z4, sum_Ico_succ_top (by omega)]
          · rw [if_neg hc, if_neg hc, x2, if_neg hc]
        · rintro M'' ⟨x1, x2⟩
          refine fin M'' x1 fun a k => ?_
          rw [x2, hval b (Or.inl hb.symm)]
    · rintro M' ⟨g1, g2, g3, g4⟩
      refine ⟨g1, fun a k ha => by rw [g2 a k (by omega), q2 a k (by omega)], ?_⟩
      intro a k ha hk h1 h2
      by_cases hai : a = i
      · subst hai
        exact g4 k hk h1 (by omega)
      · rw [g2 a k hai, q3 a k (by omega) hk h1 h2]
  · rintro M ⟨q1, -, q3⟩
    exact ⟨q1, q3⟩

theorem bandRight_run (hn : 2 ≤ n) {st : BandState K} {stop : List ℤ} (h : BandReady kv uk p n m s st stop) {Rk : List (XYZ K)} (hR : Rk.length = m - 1) :
    Runs (bandRight n st stop Rk) (fun R => R.length = n - 1 ∧ ∀ a, a < n - 1 → nth R a = ∑ r ∈ range (m - 1), bandG kv uk p s r a • nth Rk r) := by
  unfold bandRight
  rw [show ((n : ℤ) - 1).toNat = n - 1 by omega]
  refine (Runs.forN (m := 1) (n := n) (fun I (R : List (XYZ K)) => R.length = n - 1 ∧ ∀ a, a + 1 < I → nth R a = ∑ r ∈ range (m - 1), bandG kv uk p s r a • nth Rk r)
    rfl (by ring) (by omega) ⟨by simp, fun a ha => by omega⟩ ?_).mono ?_
  · rintro i R hi1 hi ⟨q1, q2⟩
    have hin : i - 1 < n - 1 := by omega
    obtain ⟨v, ev, -⟩ := h.start (i - 1) hin
    have hs := (h.stop (i - 1) hin).1
    rw [vset_of (k := i - 1) (by omega) (by omega), ok_bind, vget_nth (k := i - 1) (by omega) (by rw [h.lstart]; exact hin), ok_bind,
      vget_nth (k := i - 1) (by omega) (by rw [h.lstop]; exact hin), ok_bind, ev]
    have hval : ∀ b : ℕ, (b : ℤ) = nth stop (i - 1) + 1 ∨ (b = 0 ∧ nth stop (i - 1) + 1 ≤ 0) →
        ∑ r ∈ Ico v b, bandG kv uk p s r (i - 1) • nth Rk r = ∑ r ∈ range (m - 1), bandG kv uk p s r (i - 1) • nth Rk r := by
      intro b hb
      refine bandSum_all (by omega) ?_
      intro r hr ho
      rw [h.outside hin hr ev (by omega), zero_smul]
    have hz : (⟨0, 0, 0⟩ : XYZ K) = 0 := rfl
    have fin : ∀ R' : List (XYZ K), R'.length = n - 1 → (∀ a, nth R' a = if a = i - 1 then ∑ r ∈ range (m - 1), bandG kv uk p s r (i - 1) • nth Rk r else nth R a) →
        R'.length = n - 1 ∧ ∀ a, a + 1 < i + 1 → nth R' a = ∑ r ∈ range (m - 1), bandG kv uk p s r a • nth Rk r := by
      intro R' x1 x2
      refine ⟨x1, fun a ha => ?_⟩
      rw [x2]
      by_cases hc : a = i - 1
      · rw [if_pos hc, hc]
      · rw [if_neg hc, q2 a (by omega)]
    by_cases hemp : nth stop (i - 1) + 1 ≤ (v : ℤ)
    · rw [forI_empty hemp]
      refine Runs.ok (fin _ (by simp [q1]) ?_)
      intro a
      rw [nth_set (by omega)]
      by_cases hc : a = i - 1
      · rw [if_pos hc, if_pos hc]
        by_cases hz' : 0 ≤ nth stop (i - 1) + 1
        · obtain ⟨b, hb⟩ := Int.eq_ofNat_of_zero_le hz'
          rw [← hval b (Or.inl hb.symm), Ico_eq_empty (by omega), sum_empty, hz]
        · rw [← hval 0 (Or.inr ⟨rfl, by omega⟩), Ico_eq_empty (by omega), sum_empty, hz]
      · rw [if_neg hc, if_neg hc]
    · obtain ⟨b, hb⟩ := Int.eq_ofNat_of_zero_le (show 0 ≤ nth stop (i - 1) + 1 by omega)
      refine (Runs.forN (m := v) (n := b) (fun t (R' : List (XYZ K)) => R'.length = n - 1 ∧
        ∀ a, nth R' a = if a = i - 1 then ∑ r ∈ Ico v t, bandG kv uk p s r (i - 1) • nth Rk r else nth R a) rfl hb (by omega) ⟨by simp [q1], ?_⟩ ?_).mono ?_
      · intro a
        rw [nth_set (by omega)]
        by_cases hc : a = i - 1
        · rw [if_pos hc, if_pos hc, Ico_self, sum_empty, hz]
        · rw [if_neg hc, if_neg hc]
      · rintro t R' ht htb ⟨x1, x2⟩
        have htm : t < m - 1 := by omega
        obtain ⟨ix, y1, y2, y3, y4⟩ := h.inside hin htm ev (by omega) (by omega)
        rw [vget_nth (k := t) rfl (by omega), ok_bind, y1, ok_bind, mget_ent (a := t) (b := i - 1 - ix) h.lB rfl (by omega) htm y3, ok_bind,
          vget_nth (k := i - 1) (by omega) (by omega), ok_bind, vset_of (k := i - 1) (by omega) (by omega)]
        refine Runs.ok ⟨by simp [x1], fun a => ?_⟩
        rw [nth_set (by omega)]
        by_cases hc : a = i - 1
        · rw [if_pos hc, if_pos hc, x2, if_pos rfl, y4, sum_Ico_succ_top (by omega)]
        · rw [if_neg hc, if_neg hc, x2, if_neg hc]
      · rintro R' ⟨x1, x2⟩
        refine fin R' x1 fun a => ?_
        rw [x2, hval b (Or.inl hb.symm)]
  · rintro R ⟨q1, q2⟩
    exact ⟨q1, fun a ha => q2 a (by omega)⟩

end

/-- a solution of the normal equations minimises the sum of squares -/
theorem normal_minimises {R N : ℕ} {G : ℕ → ℕ → K} {r x : ℕ → K}
    (h : ∀ i, i < N → ∑ b ∈ range N, (∑ k ∈ range R, G k i * G k b) * x b = ∑ k ∈ range R, G k i * r k) (y : ℕ → K) :
    ∑ k ∈ range R, (∑ b ∈ range N, G k b * x b - r k) ^ 2 ≤ ∑ k ∈ range R, (∑ b ∈ range N, G k b * y b - r k) ^ 2 := by
  have horth : ∀ i, i < N → ∑ k ∈ range R, G k i * (∑ b ∈ range N, G k b * x b - r k) = 0 := by
    intro i hi
    have := h i hi
    simp only [mul_sub, sum_sub_distrib]
    rw [← this, sub_eq_zero]
    simp only [mul_sum, sum_mul]
    rw [sum_comm]
    exact sum_congr rfl fun b _ => sum_congr rfl fun k _ => by ring
  have hcross : ∑ k ∈ range R, (∑ b ∈ range N, G k b * (y b - x b)) * (∑ b ∈ range N, G k b * x b - r k) = 0 := by
    simp only [sum_mul]
    rw [sum_comm]
    refine sum_eq_zero fun i hi => ?_
    have := horth i (mem_range.mp hi)
    calc ∑ k ∈ range R, G k i * (y i - x i) * (∑ b ∈ range N, G k b * x b - r k)
        = (y i - x i) * ∑ k ∈ range R, G k i * (∑ b ∈ range N, G k b * x b - r k) := by
          rw [mul_sum]; exact sum_congr rfl fun k _ => by ring
      _ = 0 := by rw [this, mul_zero]
  have hexp : ∑ k ∈ range R, (∑ b ∈ range N, G k b * y b - r k) ^ 2 = ∑ k ∈ range R, (∑ b ∈ range N, G k b * x b - r k) ^ 2 +
      2 * ∑ k ∈ range R, (∑ b ∈ range N, G k b * (y b - x b)) * (∑ b ∈ range N, G k b * x b - r k) +
      ∑ k ∈ range R, (∑ b ∈ range N, G k b * (y b - x b)) ^ 2 := by
    rw [mul_sum, ← sum_add_distrib, ← sum_add_distrib]
    refine sum_congr rfl fun k _ => ?_
    have : ∑ b ∈ range N, G k b * (y b - x b) = ∑ b ∈ range N, G k b * y b - ∑ b ∈ range N, G k b * x b := by
      rw [← sum_sub_distrib]; exact sum_congr rfl fun b _ => by ring
    rw [this]
    ring
  rw [hexp, hcross, mul_zero, add_zero]
  have : 0 ≤ ∑ k ∈ range R, (∑ b ∈ range N, G k b * (y b - x b)) ^ 2 := sum_nonneg fun k _ => sq_nonneg _
  linarith

/-- the band of a square table: a sum along the row of the band is a sum over the columns -/
theorem bandRow_sum {w N i : ℕ} (hi : i < N) {A : ℕ → K} {f : ℕ → K} (hA : ∀ k, k < 2 * w + 1 → w ≤ i + k → i + k - w < N → A k = f (i + k - w))
    (hf : ∀ b, b < N → (b + w < i ∨ i + w < b) → f b = 0) (x : ℕ → K) :
    ∑ k ∈ range (2 * w + 1), (if w ≤ i + k ∧ i + k - w < N then A k * x (i + k - w) else 0) = ∑ b ∈ range N, f b * x b := by
  rw [← sum_filter, ← sum_filter_of_ne (s := range N) (p := fun b => i ≤ b + w ∧ b ≤ i + w)]
  · refine sum_bij' (fun k _ => i + k - w) (fun b _ => b + w - i) ?_ ?_ ?_ ?_ ?_
    · intro k hk
      rw [mem_filter, mem_range] at hk ⊢
      omega
    · intro b hb
      rw [mem_filter, mem_range] at hb ⊢
      omega
    · intro k hk
      rw [mem_filter, mem_range] at hk
      omega
    · intro b hb
      rw [mem_filter, mem_range] at hb
      omega
    · intro k hk
      rw [mem_filter, mem_range] at hk
      rw [hA k hk.1 hk.2.1 hk.2.2]
  · intro b hb hne
    by_contra hc
    exact hne (by rw [hf b (mem_range.mp hb) (by omega), zero_mul])

end LNLib.Props
