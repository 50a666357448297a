import Verif.Model.PowerBasis
import Verif.Core.Hoare
import Verif.Props.Poly
import Mathlib.Data.Nat.Choose.Sum
import Mathlib.Tactic.LinearCombination

/-! # The power basis conversion matrices -/
set_option linter.unusedSectionVars false

namespace LNLib
open Res Spec Finset

variable {K : Type} [Field K] [LinearOrder K] [IsStrictOrderedRing K]

/-- entry of the Bézier to power matrix -/
def bpF (K : Type) [Field K] (p j k : ℕ) : K := if k ≤ j then (-1) ^ (j - k) * (p.choose k : K) * ((p - k).choose (j - k) : K) else 0

/-- entry of the power to Bézier matrix -/
def pbG (K : Type) [Field K] (p j k : ℕ) : K := if k ≤ j then (j.choose k : K) / (p.choose k : K) else 0

theorem choose_sym {p j k : ℕ} (hkj : k ≤ j) (hj : j ≤ p) :
    p.choose k * (p - k).choose (j - k) = p.choose (p - j) * (j).choose (j - k) := by
  have h1 := Nat.choose_mul (n := p) (k := j) (s := k) hkj
  rw [← h1, Nat.choose_symm hj, Nat.choose_symm hkj]

theorem bpF_sym {p j k : ℕ} (hkj : k ≤ j) (hj : j ≤ p) : bpF K p (p - k) (p - j) = bpF K p j k := by
  unfold bpF
  rw [if_pos (by omega), if_pos hkj]
  have e1 : p - k - (p - j) = j - k := by omega
  have e2 : p - (p - j) = j := by omega
  rw [e1, e2, mul_assoc, mul_assoc]
  congr 1
  have := choose_sym hkj hj
  exact_mod_cast this.symm

theorem choose_ne {p k : ℕ} (h : k ≤ p) : (p.choose k : K) ≠ 0 := by
  have := Nat.choose_pos h
  exact_mod_cast this.ne'

theorem pbG_sym {p j k : ℕ} (hkj : k ≤ j) (hj : j ≤ p) : pbG K p (p - k) (p - j) = pbG K p j k := by
  unfold pbG
  rw [if_pos (by omega), if_pos hkj, div_eq_div_iff (choose_ne (by omega)) (choose_ne (by omega))]
  have h := choose_sym hkj hj
  have h2 : (p - k).choose (j - k) = (p - k).choose (p - j) := by
    rw [← Nat.choose_symm (by omega : j - k ≤ p - k)]
    congr 1; omega
  rw [h2, Nat.choose_symm hkj] at h
  have h' : (p.choose k : K) * ((p - k).choose (p - j) : K) = (p.choose (p - j) : K) * (j.choose k : K) := by exact_mod_cast h
  linear_combination h'

/-- sums over a triangular row start at the diagonal -/
theorem sum_from {p k : ℕ} (hk : k ≤ p) (f : ℕ → K) (hf : ∀ j < k, f j = 0) :
    ∑ j ∈ range (p + 1), f j = ∑ r ∈ range (p - k + 1), f (k + r) := by
  have e : p + 1 = k + (p - k + 1) := by omega
  conv_lhs => rw [e, Finset.sum_range_add]
  rw [Finset.sum_eq_zero (fun j hj => hf j (by simpa using hj)), zero_add]

theorem bernstein_power {p k : ℕ} (hk : k ≤ p) (t : K) : bernsteinP p k t = ∑ j ∈ range (p + 1), bpF K p j k * t ^ j := by
  rw [sum_from hk _ (fun j hj => by simp [bpF, not_le.mpr hj])]
  unfold bernsteinP
  rw [show (1 - t) = -t + 1 by ring, add_pow, Finset.mul_sum]
  apply Finset.sum_congr rfl
  intro r hr
  simp only [bpF, le_add_iff_nonneg_right, zero_le, if_true, Nat.add_sub_cancel_left, one_pow]
  rw [pow_add, neg_pow]
  ring

theorem power_bernstein {p k : ℕ} (hk : k ≤ p) (t : K) : t ^ k = ∑ j ∈ range (p + 1), pbG K p j k * bernsteinP p j t := by
  rw [sum_from hk _ (fun j hj => by simp [pbG, not_le.mpr hj])]
  have h : ∀ r ∈ range (p - k + 1), pbG K p (k + r) k * bernsteinP p (k + r) t = t ^ k * (t ^ r * (1 - t) ^ (p - k - r) * ((p - k).choose r : K)) := by
    intro r hr
    simp only [mem_range] at hr
    have hc := Nat.choose_mul (n := p) (k := k + r) (s := k) (by omega)
    rw [Nat.add_sub_cancel_left] at hc
    have hc' : (p.choose (k + r) : K) * ((k + r).choose k : K) = (p.choose k : K) * ((p - k).choose r : K) := by exact_mod_cast hc
    have hne := choose_ne (K := K) hk
    simp only [pbG, le_add_iff_nonneg_right, zero_le, if_true, bernsteinP]
    rw [show p - (k + r) = p - k - r by omega, pow_add, div_mul_eq_mul_div, div_eq_iff hne]
    linear_combination (t ^ k * t ^ r * (1 - t) ^ (p - k - r)) * hc'
  rw [Finset.sum_congr rfl h, ← Finset.mul_sum, ← add_pow]
  simp

/-- the two matrices are inverse to each other -/
theorem bp_pb {p j k : ℕ} (hk : k ≤ j) (hj : j ≤ p) :
    ∑ i ∈ range (j - k + 1), bpF K p j (k + i) * pbG K p (k + i) k = if j = k then 1 else 0 := by
  have hne := choose_ne (K := K) (show k ≤ p by omega)
  have h : ∀ r ∈ range (j - k + 1), bpF K p j (k + r) * pbG K p (k + r) k =
      ((p.choose j : K) * (j.choose k : K) / (p.choose k : K)) * (1 ^ r * (-1) ^ (j - k - r) * ((j - k).choose r : K)) := by
    intro r hr
    simp only [mem_range] at hr
    simp only [bpF, pbG, if_pos (show k + r ≤ j by omega), le_add_iff_nonneg_right, zero_le, if_true]
    have h1 := Nat.choose_mul (n := p) (k := j) (s := k + r) (by omega)
    have h2 := Nat.choose_mul (n := j) (k := k + r) (s := k) (by omega)
    rw [Nat.add_sub_cancel_left] at h2
    have h1' : (p.choose j : K) * (j.choose (k + r) : K) = (p.choose (k + r) : K) * ((p - (k + r)).choose (j - (k + r)) : K) := by exact_mod_cast h1
    have h2' : (j.choose (k + r) : K) * ((k + r).choose k : K) = (j.choose k : K) * ((j - k).choose r : K) := by exact_mod_cast h2
    rw [show j - k - r = j - (k + r) by omega, one_pow, one_mul]
    rw [div_mul_eq_mul_div, mul_div_assoc', div_eq_div_iff hne hne]
    linear_combination ((-1) ^ (j - (k + r)) * (p.choose k : K)) * ((p.choose j : K) * h2' - ((k + r).choose k : K) * h1')
  rw [Finset.sum_congr rfl h, ← Finset.mul_sum, ← add_pow]
  by_cases hjk : j = k
  · subst hjk
    simp [div_self hne]
  · rw [if_neg hjk, show (1 : K) + -1 = 0 by ring, zero_pow (by omega), mul_zero]

/-- all entries of the set `S` have their final value -/
def Good (f : ℕ → ℕ → K) (p : ℕ) (m : List (List K)) (S : ℕ → ℕ → Prop) : Prop :=
  IsMat m (p + 1) (p + 1) ∧ ∀ a ≤ p, ∀ b ≤ p, S a b → ent m a b = f a b

theorem Good.write {f : ℕ → ℕ → K} {p : ℕ} {m : List (List K)} {S : ℕ → ℕ → Prop} (h : Good f p m S)
    {i j : ℤ} {a b : ℕ} {x : K} (hi : i = a) (hj : j = b) (ha : a ≤ p) (hb : b ≤ p) (hx : x = f a b) :
    ∃ m', mset m i j x = ok m' ∧ Good f p m' (fun a' b' => S a' b' ∨ (a' = a ∧ b' = b)) := by
  obtain ⟨m', e', hm', hc'⟩ := mset_ok h.1 (x := x) hi hj (by omega) (by omega)
  refine ⟨m', e', hm', ?_⟩
  intro a' ha' b' hb' hS
  rw [hc']
  by_cases c : a' = a ∧ b' = b
  · rw [if_pos c, c.1, c.2, hx]
  · rw [if_neg c]
    exact h.2 a' ha' b' hb' (hS.resolve_right c)

theorem Good.get {f : ℕ → ℕ → K} {p : ℕ} {m : List (List K)} {S : ℕ → ℕ → Prop} (h : Good f p m S)
    {i j : ℤ} {a b : ℕ} (hi : i = a) (hj : j = b) (ha : a ≤ p) (hb : b ≤ p) (hS : S a b) : mget m i j = ok (f a b) := by
  rw [mget_ent h.1 hi hj (by omega) (by omega), h.2 a ha b hb hS]

theorem Good.weaken {f : ℕ → ℕ → K} {p : ℕ} {m : List (List K)} {S S' : ℕ → ℕ → Prop} (h : Good f p m S)
    (hS : ∀ a ≤ p, ∀ b ≤ p, S' a b → S a b) : Good f p m S' :=
  ⟨h.1, fun a ha b hb h' => h.2 a ha b hb (hS a ha b hb h')⟩

/-- the first loop: the part above the diagonal -/
theorem zeroUpper_run {f : ℕ → ℕ → K} {p : ℕ} (hf : ∀ a b, a < b → f a b = 0) :
    Runs (forI 0 (p : ℤ) (List.replicate (p + 1) (List.replicate (p + 1) (0 : K))) fun i matrix =>
      forI (i + 1) ((p : ℤ) + 1) matrix fun j matrix => mset matrix i j 0) (fun m => Good f p m (fun a b => a < b)) := by
  have h0 : Good f p (List.replicate (p + 1) (List.replicate (p + 1) (0 : K))) (fun a b => a < b) :=
    ⟨isMat_replicate, fun a _ b _ h => by rw [ent_replicate_zero, hf a b h]⟩
  refine Runs.forN (m := 0) (n := p) (fun _ m => Good f p m (fun a b => a < b)) rfl rfl (by omega) h0 ?_
  intro i m _ hi hm
  refine Runs.forN (m := i + 1) (n := p + 1) (fun _ m => Good f p m (fun a b => a < b)) (by push_cast; rfl) (by push_cast; rfl) (by omega) hm ?_
  intro j m hj1 hj2 hm
  obtain ⟨m', e', g'⟩ := hm.write (i := (i : ℤ)) (j := (j : ℤ)) rfl rfl (by omega) (by omega) (hf i j (by omega)).symm
  exact Runs.of_eq e' (g'.weaken (fun a _ b _ h => Or.inl h))

theorem neg_one_even {p : ℕ} : ((-1 : K)) ^ p = if (p : ℤ) % 2 ≠ 0 then -1 else 1 := by
  rcases Nat.even_or_odd p with h | h
  · rw [h.neg_one_pow, if_neg]
    obtain ⟨k, rfl⟩ := h
    push_cast; omega
  · rw [h.neg_one_pow, if_pos]
    obtain ⟨k, rfl⟩ := h
    push_cast; omega

theorem binomial_nat {n i : ℕ} (h : i ≤ n) {a b : ℤ} (ha : a = n) (hb : b = i) : binomial a b = ok ((n.choose i : ℕ) : K) := by
  subst ha hb
  rw [Props.C24_binomial, if_neg (by omega)]
  simp

theorem bezierToPowerMatrix_run (p : ℕ) :
    Runs (bezierToPowerMatrix (K := K) p) (fun m => Good (bpF K p) p m (fun _ _ => True)) := by
  unfold bezierToPowerMatrix
  have ep : ((p : ℤ) + 1).toNat = p + 1 := by omega
  dsimp only
  rw [ep]
  refine Runs.bind (zeroUpper_run (f := bpF K p) (fun a b h => by simp [bpF, not_le.mpr h])) ?_
  intro m1 g1
  obtain ⟨m2, e2, g2⟩ := g1.write (i := (p : ℤ)) (j := (p : ℤ)) (x := 1) rfl rfl (le_refl _) (le_refl _) (by simp [bpF])
  refine Runs.bind_eq e2 ?_
  obtain ⟨m3, e3, g3⟩ := g2.write (i := 0) (j := 0) (a := 0) (b := 0) (x := 1) rfl rfl (by omega) (by omega) (by simp [bpF])
  refine Runs.bind_eq e3 ?_
  obtain ⟨m4, e4, g4⟩ := g3.write (i := (p : ℤ)) (j := 0) (a := p) (b := 0) (x := (-1) ^ p) rfl rfl (by omega) (by omega) (by simp [bpF])
  refine Runs.bind_eq (a := m4) ?_ ?_
  · rw [neg_one_even] at e4
    rw [← e4]
    split <;> rfl
  refine Runs.bind (Q := fun st : List (List K) × K => Good (bpF K p) p st.1 (fun a b => a < b ∨ a = b ∨ b = 0 ∨ a = p)) ?_ ?_
  · by_cases hp0 : p = 0
    · subst hp0
      rw [forI_empty (by simp)]
      refine Runs.ok (g4.weaken ?_)
      intro a ha b hb h
      omega
    refine (Runs.forN (m := 1) (n := p) (fun i (st : List (List K) × K) => Good (bpF K p) p st.1
      (fun a b => a < b ∨ (a = b ∧ a < i) ∨ (b = 0 ∧ a < i) ∨ (a = p ∧ p < b + i) ∨ (a = p ∧ b = 0)) ∧ st.2 = (-1) ^ i) rfl rfl (by omega)
      ⟨g4.weaken ?_, by simp⟩ ?_).mono (fun st h => h.1.weaken ?_)
    · intro a ha b hb h; omega
    · rintro i ⟨m, sign⟩ hi1 hip ⟨g, hs⟩
      dsimp only at g hs ⊢
      subst hs
      refine Runs.bind_eq (binomial_nat (n := p) (i := i) (by omega) rfl rfl) ?_
      obtain ⟨m5, e5, g5⟩ := g.write (i := (i : ℤ)) (j := (i : ℤ)) (x := ((p.choose i : ℕ) : K)) rfl rfl (by omega) (by omega) (by simp [bpF])
      refine Runs.bind_eq e5 ?_
      refine Runs.bind_eq (g5.get (i := (i : ℤ)) (j := (i : ℤ)) rfl rfl (by omega) (by omega) (Or.inr ⟨rfl, rfl⟩)) ?_
      obtain ⟨m6, e6, g6⟩ := g5.write (i := (p : ℤ)) (j := (p : ℤ) - i) (a := p) (b := p - i) (x := (-1) ^ i * bpF K p i i) rfl (by omega) (by omega) (by omega) (by
        have := bpF_sym (K := K) (p := p) (j := i) (k := 0) (by omega) (by omega)
        rw [Nat.sub_zero] at this
        rw [this]
        simp [bpF])
      refine Runs.bind_eq e6 ?_
      obtain ⟨m7, e7, g7⟩ := g6.write (i := (i : ℤ)) (j := 0) (a := i) (b := 0) (x := (-1) ^ i * bpF K p i i) rfl rfl (by omega) (by omega) (by simp [bpF])
      refine Runs.bind_eq e7 ?_
      refine Runs.ok ⟨g7.weaken ?_, by rw [pow_succ]; ring⟩
      intro a ha b hb h; omega
    · intro a ha b hb h; omega
  rintro ⟨m, sg⟩ g
  dsimp only at g ⊢
  refine Runs.bind (Q := fun st : List (List K) × ℤ => Good (bpF K p) p st.1 (fun _ _ => True)) ?_ (fun st h => Runs.ok h)
  by_cases hp0 : p = 0
  · subst hp0
    rw [forI_empty (by simp)]
    refine Runs.ok (g.weaken ?_)
    intro a ha b hb h
    omega
  refine (Runs.forN (m := 1) (n := (p + 1) / 2) (fun k (st : List (List K) × ℤ) => Good (bpF K p) p st.1
      (fun a b => (a < b ∨ a = b ∨ b = 0 ∨ a = p) ∨ (b < k ∧ a + b ≤ p) ∨ (p < a + k ∧ p ≤ a + b)) ∧ st.2 = (p : ℤ) - k) rfl (by push_cast; rfl) (by omega)
      ⟨g.weaken ?_, by simp⟩ ?_).mono (fun st h => h.1.weaken ?_)
  · intro a ha b hb h; omega
  · rintro k ⟨m, pk⟩ hk1 hk2 ⟨g, hpk⟩
    dsimp only at g hpk ⊢
    subst hpk
    refine Runs.bind (Q := fun st : List (List K) × K => Good (bpF K p) p st.1
      (fun a b => (a < b ∨ a = b ∨ b = 0 ∨ a = p) ∨ (b < k + 1 ∧ a + b ≤ p) ∨ (p < a + (k + 1) ∧ p ≤ a + b))) ?_ ?_
    · refine (Runs.forN (m := k + 1) (n := p - k + 1) (fun j (st : List (List K) × K) => Good (bpF K p) p st.1
        (fun a b => (a < b ∨ a = b ∨ b = 0 ∨ a = p) ∨ (b < k ∧ a + b ≤ p) ∨ (p < a + k ∧ p ≤ a + b) ∨ (b = k ∧ a < j) ∨ (a + k = p ∧ p < b + j)) ∧ st.2 = (-1) ^ (j - k)) (by push_cast; rfl) (by push_cast; omega) (by omega)
        ⟨g.weaken ?_, ?_⟩ ?_).mono (fun st h => h.1.weaken ?_)
      · intro a ha b hb h; omega
      · rw [Nat.add_sub_cancel_left, pow_one]
      · rintro j ⟨m, sign⟩ hj1 hj2 ⟨g, hs⟩
        dsimp only at g hs ⊢
        subst hs
        refine Runs.bind_eq (binomial_nat (n := p) (i := k) (by omega) rfl rfl) ?_
        refine Runs.bind_eq (binomial_nat (n := p - k) (i := j - k) (by omega) (by omega) (by omega)) ?_
        have hv : (-1 : K) ^ (j - k) * ((p.choose k : ℕ) : K) * (((p - k).choose (j - k) : ℕ) : K) = bpF K p j k := by
          simp [bpF, show k ≤ j by omega]
        rw [hv]
        obtain ⟨m6, e6, g6⟩ := g.write (i := (p : ℤ) - k) (j := (p : ℤ) - j) (a := p - k) (b := p - j) (x := bpF K p j k) (by omega) (by omega) (by omega) (by omega)
          (bpF_sym (by omega) (by omega)).symm
        refine Runs.bind_eq e6 ?_
        obtain ⟨m7, e7, g7⟩ := g6.write (i := (j : ℤ)) (j := (k : ℤ)) (a := j) (b := k) (x := bpF K p j k) rfl rfl (by omega) (by omega) rfl
        refine Runs.bind_eq e7 ?_
        refine Runs.ok ⟨g7.weaken ?_, by dsimp only; rw [show j + 1 - k = (j - k) + 1 by omega, pow_succ]; ring⟩
        intro a ha b hb h; omega
      · intro a ha b hb h; omega
    · rintro ⟨m, sg⟩ g
      refine Runs.ok ⟨g, ?_⟩
      push_cast; ring
  · intro a ha b hb h; omega

theorem powerToBezierMatrix_run {p : ℕ} {M : List (List K)} (hM : Good (bpF K p) p M (fun _ _ => True)) :
    Runs (powerToBezierMatrix (K := K) p M) (fun m => Good (pbG K p) p m (fun _ _ => True)) := by
  unfold powerToBezierMatrix
  have ep : ((p : ℤ) + 1).toNat = p + 1 := by omega
  have hdiag : ∀ i ≤ p, bpF K p i i = (p.choose i : K) := by intro i _; simp [bpF]
  dsimp only
  rw [ep]
  refine Runs.bind (zeroUpper_run (f := pbG K p) (fun a b h => by simp [pbG, not_le.mpr h])) ?_
  intro m1 g1
  refine Runs.bind (Q := fun st : List (List K) => Good (pbG K p) p st (fun a b => a < b ∨ a = b ∨ b = 0 ∨ a = p)) ?_ ?_
  · refine (Runs.forN (m := 0) (n := p + 1) (fun i (st : List (List K)) => Good (pbG K p) p st
      (fun a b => a < b ∨ (a = b ∧ a < i) ∨ (b = 0 ∧ a < i) ∨ (a = p ∧ b < i))) rfl (by push_cast; rfl) (by omega)
      (g1.weaken ?_) ?_).mono (fun st h => h.weaken ?_)
    · intro a ha b hb h; omega
    · rintro i m - hip g
      obtain ⟨m5, e5, g5⟩ := g.write (i := (p : ℤ)) (j := (i : ℤ)) (a := p) (b := i) (x := 1) rfl rfl (by omega) (by omega) (by
        simp only [pbG, show i ≤ p by omega, if_true]; rw [div_self (choose_ne (by omega))])
      refine Runs.bind_eq e5 ?_
      obtain ⟨m6, e6, g6⟩ := g5.write (i := (i : ℤ)) (j := 0) (a := i) (b := 0) (x := 1) rfl rfl (by omega) (by omega) (by simp [pbG])
      refine Runs.bind_eq e6 ?_
      refine Runs.bind_eq (hM.get (i := (i : ℤ)) (j := (i : ℤ)) rfl rfl (by omega) (by omega) trivial) ?_
      rw [hdiag i (by omega)]
      refine Runs.bind_eq (fdiv_ok (choose_ne (by omega))) ?_
      obtain ⟨m7, e7, g7⟩ := g6.write (i := (i : ℤ)) (j := (i : ℤ)) (a := i) (b := i) (x := 1 / (p.choose i : K)) rfl rfl (by omega) (by omega) (by simp [pbG])
      refine Runs.of_eq e7 (g7.weaken ?_)
      intro a ha b hb h; omega
    · intro a ha b hb h; omega
  intro m g
  refine Runs.bind (Q := fun st : List (List K) × ℤ => Good (pbG K p) p st.1 (fun _ _ => True)) ?_ (fun st h => Runs.ok h)
  by_cases hp0 : p = 0
  · subst hp0
    rw [forI_empty (by simp)]
    refine Runs.ok (g.weaken ?_)
    intro a ha b hb h
    omega
  refine (Runs.forN (m := 1) (n := (p + 1) / 2) (fun k (st : List (List K) × ℤ) => Good (pbG K p) p st.1
      (fun a b => (a < b ∨ a = b ∨ b = 0 ∨ a = p) ∨ (b < k ∧ a + b ≤ p) ∨ (p < a + k ∧ p ≤ a + b)) ∧ st.2 = (p : ℤ) - k) rfl (by push_cast; rfl) (by omega)
      ⟨g.weaken ?_, by simp⟩ ?_).mono (fun st h => h.1.weaken ?_)
  · intro a ha b hb h; omega
  · rintro k ⟨m, pk⟩ hk1 hk2 ⟨g, hpk⟩
    dsimp only at g hpk ⊢
    subst hpk
    refine Runs.bind (Q := fun st : List (List K) => Good (pbG K p) p st
      (fun a b => (a < b ∨ a = b ∨ b = 0 ∨ a = p) ∨ (b < k + 1 ∧ a + b ≤ p) ∨ (p < a + (k + 1) ∧ p ≤ a + b))) ?_ ?_
    · refine (Runs.forN (m := k + 1) (n := p - k + 1) (fun j (st : List (List K)) => Good (pbG K p) p st
        (fun a b => (a < b ∨ a = b ∨ b = 0 ∨ a = p) ∨ (b < k ∧ a + b ≤ p) ∨ (p < a + k ∧ p ≤ a + b) ∨ (b = k ∧ a < j) ∨ (a + k = p ∧ p < b + j))) (by push_cast; rfl) (by push_cast; omega) (by omega)
        (g.weaken ?_) ?_).mono (fun st h => h.weaken ?_)
      · intro a ha b hb h; omega
      · rintro j m hj1 hj2 g
        have hsum := bp_pb (K := K) (p := p) (j := j) (k := k) (by omega) (by omega)
        rw [Finset.sum_range_succ, if_neg (by omega), show k + (j - k) = j by omega, hdiag j (by omega)] at hsum
        refine Runs.bind (Q := fun d => d = -∑ i ∈ range (j - k), bpF K p j (k + i) * pbG K p (k + i) k) ?_ ?_
        · refine (Runs.forN (m := k) (n := j) (fun i d => d = -∑ i ∈ range (i - k), bpF K p j (k + i) * pbG K p (k + i) k) rfl rfl (by omega) (by simp) ?_)
          rintro i d hi1 hi2 hd
          refine Runs.bind_eq (hM.get (i := (j : ℤ)) (j := (i : ℤ)) rfl rfl (by omega) (by omega) trivial) ?_
          refine Runs.bind_eq (g.get (i := (i : ℤ)) (j := (k : ℤ)) rfl rfl (by omega) (by omega) (by omega)) ?_
          refine Runs.ok ?_
          rw [show i + 1 - k = (i - k) + 1 by omega, Finset.sum_range_succ, show k + (i - k) = i by omega, hd]
          ring
        · rintro d hd
          refine Runs.bind_eq (hM.get (i := (j : ℤ)) (j := (j : ℤ)) rfl rfl (by omega) (by omega) trivial) ?_
          rw [hdiag j (by omega)]
          refine Runs.bind_eq (fdiv_ok (choose_ne (by omega))) ?_
          have hv : d / (p.choose j : K) = pbG K p j k := by
            rw [div_eq_iff (choose_ne (by omega)), hd]
            linear_combination -hsum
          rw [hv]
          obtain ⟨m7, e7, g7⟩ := g.write (i := (j : ℤ)) (j := (k : ℤ)) (a := j) (b := k) (x := pbG K p j k) rfl rfl (by omega) (by omega) rfl
          refine Runs.bind_eq e7 ?_
          refine Runs.bind_eq (g7.get (i := (j : ℤ)) (j := (k : ℤ)) rfl rfl (by omega) (by omega) (Or.inr ⟨rfl, rfl⟩)) ?_
          obtain ⟨m6, e6, g6⟩ := g7.write (i := (p : ℤ) - k) (j := (p : ℤ) - j) (a := p - k) (b := p - j) (x := pbG K p j k) (by omega) (by omega) (by omega) (by omega)
            (pbG_sym (by omega) (by omega)).symm
          refine Runs.of_eq e6 (g6.weaken ?_)
          intro a ha b hb h; omega
      · intro a ha b hb h; omega
    · rintro m g
      refine Runs.ok ⟨g, ?_⟩
      push_cast; ring
  · intro a ha b hb h; omega

end LNLib
