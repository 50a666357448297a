import Verif.Model.CurveEdit
import Verif.Props.KnotVector
import Verif.Lemmas.PowerBasis
import Mathlib.Algebra.Module.BigOperators
import Mathlib.Tactic.IntervalCases

/-!
# C58: degree reduction of a Bézier curve
-/

set_option linter.unusedSectionVars false

namespace LNLib.Props
open LNLib Res LNLib.Spec Finset

section
variable {K : Type} [Field K] [LinearOrder K] [IsStrictOrderedRing K]
variable {T : Type} [AddCommGroup T] [Module K T]

/-- `P` is the control polygon of the degree elevated curve of `Q` (The NURBS Book, eq. 5.32): `Pᵢ = (i/p) Qᵢ₋₁ + (1 - i/p) Qᵢ`. -/
def IsElevated (p : ℕ) (P Q : ℕ → T) : Prop := ∀ i, i ≤ p → P i = ((i : K) / p) • Q (i - 1) + (1 - (i : K) / p) • Q i

/-- degree elevation does not change the Bézier curve -/
theorem bezier_elevated {q : ℕ} {P Q : ℕ → T} (h : IsElevated (K := K) (q + 1) P Q) (t : K) : bezierPoint (q + 1) P t = bezierPoint q Q t := by
  unfold bezierPoint
  have hq : ((q + 1 : ℕ) : K) ≠ 0 := by exact_mod_cast Nat.succ_ne_zero q
  have e : ∀ i ∈ range (q + 1 + 1), bernsteinP (q + 1) i t • P i =
      (bernsteinP (q + 1) i t * ((i : K) / (q + 1 : ℕ))) • Q (i - 1) + (bernsteinP (q + 1) i t * (1 - (i : K) / (q + 1 : ℕ))) • Q i := by
    intro i hi
    rw [mem_range] at hi
    rw [h i (by omega), smul_add, smul_smul, smul_smul]
  rw [sum_congr rfl e, sum_add_distrib]
  have e1 : ∑ i ∈ range (q + 1 + 1), (bernsteinP (q + 1) i t * ((i : K) / (q + 1 : ℕ))) • Q (i - 1) = ∑ i ∈ range (q + 1), (t * bernsteinP q i t) • Q i := by
    rw [sum_range_succ']
    simp only [Nat.cast_zero, zero_div, mul_zero, zero_smul, add_zero, Nat.add_sub_cancel]
    apply sum_congr rfl
    intro i hi
    congr 1
    unfold bernsteinP
    have := Nat.add_one_mul_choose_eq q i
    have h2 : ((q + 1 : ℕ) : K) * (q.choose i : K) = ((q + 1).choose (i + 1) : K) * ((i + 1 : ℕ) : K) := by exact_mod_cast this
    rw [show q + 1 - (i + 1) = q - i by omega]
    field_simp
    linear_combination (-(t ^ (i + 1) * (1 - t) ^ (q - i))) * h2
  have e2 : ∑ i ∈ range (q + 1 + 1), (bernsteinP (q + 1) i t * (1 - (i : K) / (q + 1 : ℕ))) • Q i = ∑ i ∈ range (q + 1), ((1 - t) * bernsteinP q i t) • Q i := by
    rw [sum_range_succ]
    have : (1 : K) - ((q + 1 : ℕ) : K) / (q + 1 : ℕ) = 0 := by rw [div_self hq, sub_self]
    rw [this, mul_zero, zero_smul, add_zero]
    apply sum_congr rfl
    intro i hi
    rw [mem_range] at hi
    congr 1
    unfold bernsteinP
    have := Nat.choose_mul_succ_eq q i
    have h2 : (q.choose i : K) * ((q + 1 : ℕ) : K) = ((q + 1).choose i : K) * (((q + 1 : ℕ) : K) - (i : K)) := by
      rw [← Nat.cast_sub (by omega)]; exact_mod_cast this
    rw [show q + 1 - i = (q - i) + 1 by omega]
    field_simp
    rw [pow_succ]
    linear_combination (-(t ^ i * (1 - t) ^ (q - i) * (1 - t))) * h2
  rw [e1, e2, ← sum_add_distrib]
  apply sum_congr rfl
  intro i hi
  rw [← add_smul]
  congr 1
  ring

/-- the two steps of the reduction recover the control points -/
theorem lower_eq {p i : ℕ} {P Q : ℕ → T} (h : IsElevated (K := K) p P Q) (hi : i < p) : (1 - (i : K) / p)⁻¹ • (P i - ((i : K) / p) • Q (i - 1)) = Q i := by
  have hp : (p : K) ≠ 0 := by exact_mod_cast (by omega : p ≠ 0)
  have h1 : (1 - (i : K) / p) ≠ 0 := by
    have : (i : K) < p := by exact_mod_cast hi
    intro hh
    field_simp at hh
    linarith
  rw [h i (by omega), add_sub_cancel_left, smul_smul, inv_mul_cancel₀ h1, one_smul]

theorem upper_eq {p i : ℕ} {P Q : ℕ → T} (h : IsElevated (K := K) p P Q) (hi : i + 1 ≤ p) :
    (((i + 1 : ℕ) : K) / p)⁻¹ • (P (i + 1) - (1 - ((i + 1 : ℕ) : K) / p) • Q (i + 1)) = Q i := by
  have hp : (p : K) ≠ 0 := by exact_mod_cast (by omega : p ≠ 0)
  have h1 : (((i + 1 : ℕ) : K) / p) ≠ 0 := div_ne_zero (by exact_mod_cast Nat.succ_ne_zero i) hp
  rw [h (i + 1) hi, add_sub_cancel_right, smul_smul, inv_mul_cancel₀ h1, one_smul, Nat.add_sub_cancel]

theorem bezier_map {p : ℕ} {a b : K} (hab : a < b) :
    getKnotMultiplicityMap (List.replicate (p + 1) a ++ List.replicate (p + 1) b) = [(a, ((p + 1 : ℕ) : ℤ)), (b, ((p + 1 : ℕ) : ℤ))] := by
  have hs : [a, b].Pairwise (· < ·) := by simp [hab]
  have hm : ∀ x, x ∈ [a, b] ↔ x ∈ List.replicate (p + 1) a ++ List.replicate (p + 1) b := by
    intro x; simp [List.mem_replicate]
  have k := map_keys hs hm
  have c := map_counts hs hm
  have ca : (List.replicate (p + 1) a ++ List.replicate (p + 1) b).count a = p + 1 := by
    rw [List.count_append, List.count_replicate_self, List.count_replicate]; simp [hab.ne']
  have cb : (List.replicate (p + 1) a ++ List.replicate (p + 1) b).count b = p + 1 := by
    rw [List.count_append, List.count_replicate_self, List.count_replicate]; simp [hab.ne]
  simp only [List.map_cons, List.map_nil, ca, cb] at c
  generalize getKnotMultiplicityMap (List.replicate (p + 1) a ++ List.replicate (p + 1) b) = m at k c
  match m, k, c with
  | [(x, u), (y, v)], k, c =>
    simp only [List.map_cons, List.map_nil, List.cons.injEq, and_true] at k c
    obtain ⟨rfl, rfl⟩ := k
    obtain ⟨rfl, rfl⟩ := c
    rfl

end

theorem modifyTol_nonneg {l : List (XYZW ℝ)} (h : ∀ q ∈ l, 0 ≤ q.w) : 0 ≤ curveModifyTolerance l := by
  have : ∀ (l : List (XYZW ℝ)) (st : ℝ × ℝ), 0 ≤ st.1 → (∀ q ∈ l, 0 ≤ q.w) →
      0 ≤ (l.foldl (fun (st : ℝ × ℝ) (q : XYZW ℝ) => (min st.1 q.w, max st.2 q.toXYZ.length)) st).1 := by
    intro l
    induction l with
    | nil => intro st h _; exact h
    | cons q l ih =>
      intro st h hq
      rw [List.foldl_cons]
      exact ih _ (le_min h (hq q (by simp))) (fun r hr => hq r (by simp [hr]))
  have h1 := this l (1, 0) zero_le_one h
  unfold curveModifyTolerance
  dsimp only
  have : (0 : ℝ) ≤ distEps := by unfold distEps; norm_num
  positivity

theorem distance_self (a : XYZW ℝ) : a.distance a = 0 := by
  unfold XYZW.distance; simp

/-- C58: a Bézier curve of degree `p ≥ 2` whose control points are those of a degree-elevated curve of degree `p - 1` (with
nonnegative weights) is reduced to exactly that curve: the answer is `true`, the control points are the original ones, the knots
are the Bézier knots of degree `p - 1`, and the curve is the same. -/
theorem C58_reduce {p : ℕ} (hp : 2 ≤ p) {a b : ℝ} (hab : a < b) {P Q : List (XYZW ℝ)} (hP : P.length = p + 1) (hQ : Q.length = p)
    (hel : IsElevated (K := ℝ) p (nth P) (nth Q)) (hw : ∀ q ∈ P, 0 ≤ q.w) :
    reduceDegree { degree := p, knots := List.replicate (p + 1) a ++ List.replicate (p + 1) b, cps := P } =
      ok (some { degree := (p : ℤ) - 1, knots := List.replicate p a ++ List.replicate p b, cps := Q }) ∧
    ∀ t : ℝ, bezierPoint p (nth P) t = bezierPoint (p - 1) (nth Q) t := by
  constructor
  swap
  · intro t
    obtain ⟨q, rfl⟩ : ∃ q, p = q + 1 := ⟨p - 1, by omega⟩
    exact bezier_elevated hel t
  have hpR : ((p : ℕ) : ℝ) ≠ 0 := by exact_mod_cast (by omega : p ≠ 0)
  have htol := modifyTol_nonneg hw
  unfold reduceDegree
  dsimp only
  have hv : isValidBezier (p : ℤ) P.length = true := by
    unfold isValidBezier; simp [hP]
  rw [hv]
  simp only [Bool.not_true, Bool.false_eq_true, if_false]
  rw [vget_nth (k := 0) (i := 0) rfl (by omega), ok_bind, vset_of (i := 0) (k := 0) rfl (by simp; omega), ok_bind, vget_nth (k := p) rfl (by omega), ok_bind,
    vset_of (k := p - 1) (by omega) (by simp; omega), ok_bind]
  have hal : ∃ alpha : List ℝ, (forI 0 (p : ℤ) (List.replicate (p : ℤ).toNat (0 : ℝ)) fun i alpha => (fdiv ((i : ℤ) : ℝ) ((p : ℤ) : ℝ) >>= fun q => vset alpha i q : Res (List ℝ))) = ok alpha ∧
      alpha.length = p ∧ ∀ i, i < p → nth alpha i = (i : ℝ) / p := by
    obtain ⟨A, h1, h2, h3⟩ := Runs.fill (e := 0) (a := 0) (b := (p : ℤ)) (arr := List.replicate (p : ℤ).toNat (0 : ℝ)) (dst := fun i => i)
      (rd := fun i => fdiv ((i : ℤ) : ℝ) ((p : ℤ) : ℝ)) (f := fun i => (i : ℝ) / p) (by simp) (by simp) (by simp) (by omega)
      (by
        intro i h0 h1
        rw [fdiv_ok (by exact_mod_cast hpR)]
        obtain ⟨k, rfl⟩ := Int.eq_ofNat_of_zero_le h0
        simp)
    refine ⟨A, h1, by simpa using h2, ?_⟩
    intro i hi
    rw [h3 i, if_pos (by omega)]
  obtain ⟨alpha, ha1, ha2, ha3⟩ := hal
  rw [ha1, ok_bind]
  set Q0 := ((List.replicate (p : ℤ).toNat (0 : XYZW ℝ)).set 0 (nth P 0)).set (p - 1) (nth P p) with hQ0
  have lQ0 : Q0.length = p := by simp [hQ0]
  have hP0 : nth P 0 = nth Q 0 := by rw [hel 0 (by omega)]; simp
  have hPp : nth P p = nth Q (p - 1) := by rw [hel p (le_refl _), div_self hpR]; simp
  have q00 : nth Q0 0 = nth Q 0 := by
    rw [hQ0, nth_set (by simp; omega), if_neg (by omega), nth_set (by simp; omega), if_pos rfl, hP0]
  have q0p : nth Q0 (p - 1) = nth Q (p - 1) := by
    rw [hQ0, nth_set (by simp; omega), if_pos rfl, hPp]
  have hlow : ∀ (i : ℕ) (R : List (XYZW ℝ)), 1 ≤ i → i < p → R.length = p → nth R (i - 1) = nth Q (i - 1) →
      (vget P (i : ℤ) >>= fun x => vget alpha (i : ℤ) >>= fun y => vget R ((i : ℤ) - 1) >>= fun z => vdiv (x - y • z) (1 - y) : Res (XYZW ℝ)) = ok (nth Q i) := by
    intro i R h1 h2 h3 h4
    rw [vget_nth (k := i) rfl (by omega), ok_bind, vget_nth (k := i) rfl (by omega), ok_bind, vget_nth (k := i - 1) (by omega) (by omega), ok_bind, ha3 i h2, h4]
    rw [vdiv_ok, lower_eq hel h2]
    have : (i : ℝ) < p := by exact_mod_cast h2
    intro hh
    field_simp at hh
    linarith
  have hupp : ∀ (i : ℕ) (R : List (XYZW ℝ)), i + 1 < p → R.length = p → nth R (i + 1) = nth Q (i + 1) →
      (vget P ((i : ℤ) + 1) >>= fun x => vget alpha ((i : ℤ) + 1) >>= fun y => vget R ((i : ℤ) + 1) >>= fun z => vdiv (x - (1 - y) • z) y : Res (XYZW ℝ)) = ok (nth Q i) := by
    intro i R h2 h3 h4
    rw [vget_nth (k := i + 1) (by omega) (by omega), ok_bind, vget_nth (k := i + 1) (by omega) (by omega), ok_bind, vget_nth (k := i + 1) (by omega) (by omega), ok_bind,
      ha3 (i + 1) h2, h4]
    rw [vdiv_ok, upper_eq hel h2.le]
    exact div_ne_zero (by exact_mod_cast Nat.succ_ne_zero i) hpR
  -- the two loops
  have loops : ∀ (r₁ r₂ : ℕ), r₁ ≤ r₂ → r₂ + 1 ≤ p → 1 ≤ r₁ → ∃ Q1 Q2 : List (XYZW ℝ),
      (forI 1 (r₁ : ℤ) Q0 fun i Q => (vget P (i : ℤ) >>= fun x => vget alpha (i : ℤ) >>= fun y => vget Q ((i : ℤ) - 1) >>= fun z => vdiv (x - y • z) (1 - y)) >>=
        fun x => vset Q i x : Res (List (XYZW ℝ))) = ok Q1 ∧
      (forDown ((p : ℤ) - 2) (r₂ : ℤ) Q1 fun i Q => (vget P ((i : ℤ) + 1) >>= fun x => vget alpha ((i : ℤ) + 1) >>= fun y => vget Q ((i : ℤ) + 1) >>= fun z =>
        vdiv (x - (1 - y) • z) y) >>= fun x => vset Q i x : Res (List (XYZW ℝ))) = ok Q2 ∧ Q2.length = p ∧
      ∀ i, i < p → (i < r₁ ∨ r₂ ≤ i) → nth Q2 i = nth Q i := by
    intro r₁ r₂ h12 h2p h1
    obtain ⟨Q1, e1, l1, v1⟩ := Runs.forN (m := 1) (n := r₁) (s := Q0) (body := fun i Q => (vget P (i : ℤ) >>= fun x => vget alpha (i : ℤ) >>= fun y => vget Q ((i : ℤ) - 1) >>= fun z => vdiv (x - y • z) (1 - y)) >>=
        fun x => vset Q i x) (fun i R => R.length = p ∧ ∀ j, j < p → (j < i ∨ j = p - 1) → nth R j = nth Q j) rfl rfl h1
      ⟨lQ0, fun j hj h => by
        rcases h with h | h
        · have : j = 0 := by omega
          subst this; exact q00
        · subst h; exact q0p⟩
      (by
        rintro i R h3 h4 ⟨h5, h6⟩
        refine Runs.bind_eq (hlow i R h3 (by omega) h5 (h6 _ (by omega) (Or.inl (by omega)))) (Runs.of_eq (vset_of (k := i) rfl (by omega)) ⟨by simpa using h5, ?_⟩)
        intro j hj h
        rw [nth_set (by omega)]
        split_ifs with hh
        · rw [hh]
        · exact h6 j hj (by omega))
    obtain ⟨Q2, e2, l2, v2⟩ := Runs.forDown (a := (p : ℤ) - 2) (b := r₂) (s := Q1) (body := fun i Q => (vget P ((i : ℤ) + 1) >>= fun x => vget alpha ((i : ℤ) + 1) >>= fun y => vget Q ((i : ℤ) + 1) >>= fun z =>
        vdiv (x - (1 - y) • z) y) >>= fun x => vset Q i x) (fun i R => R.length = p ∧ ∀ j, j < p → (j < r₁ ∨ i < (j : ℤ)) → nth R j = nth Q j) (by omega)
      ⟨l1, fun j hj h => v1 j hj (by omega)⟩
      (by
        rintro i R h3 h4 ⟨h5, h6⟩
        obtain ⟨k, rfl⟩ := Int.eq_ofNat_of_zero_le (by omega : 0 ≤ i)
        refine Runs.bind_eq (hupp k R (by omega) h5 (h6 _ (by omega) (Or.inr (by push_cast; omega)))) (Runs.of_eq (vset_of (k := k) rfl (by omega)) ⟨by simpa using h5, ?_⟩)
        intro j hj h
        rw [nth_set (by omega)]
        split_ifs with hh
        · rw [hh]
        · exact h6 j hj (by omega))
    exact ⟨Q1, Q2, e1, e2, l2, fun i hi h => v2 i hi (by omega)⟩
  have fin : ∀ R : List (XYZW ℝ), R.length = p → (∀ i, i < p → nth R i = nth Q i) → R = Q := fun R h1 h2 =>
    ext_nth (by omega) (fun i hi => h2 i (by omega))
  rw [bezier_map hab]
  have hkn : ([(a, ((p + 1 : ℕ) : ℤ)), (b, ((p + 1 : ℕ) : ℤ))].foldl (fun (kv : List ℝ) (e : ℝ × ℤ) => kv ++ List.replicate (e.2 - 1).toNat e.1) []) =
      List.replicate p a ++ List.replicate p b := by
    simp
  simp only [hkn]
  rcases Nat.even_or_odd' p with ⟨k, hk | hk⟩
  · -- even
    have hr : ((p : ℤ) - 1) / 2 = (k : ℤ) - 1 := by omega
    obtain ⟨Q1, Q2, e1, e2, l2, v2⟩ := loops k k (le_refl _) (by omega) (by omega)
    rw [if_pos (by omega), hr]
    rw [show (k : ℤ) - 1 + 1 = k by ring]
    have hmid : nth P k = (1 / 2 : ℝ) • (nth Q (k - 1) + nth Q k) := by
      rw [hel k (by omega)]
      have : (k : ℝ) / p = 1 / 2 := by
        have hk0 : (k : ℝ) ≠ 0 := by exact_mod_cast (by omega : k ≠ 0)
        rw [hk]; push_cast; field_simp
      rw [this, smul_add]; norm_num
    simp only [e1, e2, ok_bind]
    rw [vget_nth (k := k) rfl (by omega), ok_bind, vget_nth (k := k - 1) (by omega) (by omega), ok_bind, vget_nth (k := k) rfl (by omega), ok_bind,
      v2 (k - 1) (by omega) (Or.inl (by omega)), v2 k (by omega) (Or.inr (le_refl _)), hmid, distance_self, binomial_nat (n := p) (i := k) (by omega) rfl rfl, ok_bind]
    simp only [ok_bind, zero_mul]
    rw [if_neg (not_lt.mpr htol), fin Q2 l2 (fun i hi => v2 i hi (by omega))]
  · have hr : ((p : ℤ) - 1) / 2 = (k : ℤ) := by omega
    obtain ⟨Q1, Q2, e1, e2, l2, v2⟩ := loops k (k + 1) (by omega) (by omega) (by omega)
    rw [if_neg (by omega), hr]
    rw [show (k : ℤ) + 1 = ((k + 1 : ℕ) : ℤ) by push_cast; rfl]
    simp only [e1, e2, ok_bind]
    have lo := hlow k Q2 (by omega) (by omega) l2 (v2 _ (by omega) (Or.inl (by omega)))
    have up := hupp k Q2 (by omega) l2 (v2 _ (by omega) (Or.inr (le_refl _)))
    rw [show (k : ℤ) + 1 = ((k + 1 : ℕ) : ℤ) by push_cast; rfl] at up
    simp only [lo, up, ok_bind]
    rw [vset_of (k := k) rfl (by omega), ok_bind, fdiv_ok (by simpa using hpR), ok_bind, vget_nth (k := k) rfl (by omega), ok_bind,
      binomial_nat (n := p) (i := k) (by omega) rfl rfl, ok_bind, distance_self]
    simp only [ok_bind, zero_mul]
    rw [if_neg (not_lt.mpr htol)]
    rw [fin (Q2.set k ((1 / 2 : ℝ) • (nth Q k + nth Q k))) (by simpa using l2) ?_]
    intro i hi
    rw [nth_set (by omega)]
    split_ifs with hh
    · rw [hh, ← two_smul ℝ (nth Q k), smul_smul]; norm_num
    · exact v2 i hi (by omega)

/-- C58 is not vacuous: the parabola `(0,0), (1,2), (2,0)` elevated to degree three -/
example : IsElevated (K := ℝ) 3 (nth ([⟨0, 0, 0, 1⟩, ⟨2/3, 4/3, 0, 1⟩, ⟨4/3, 4/3, 0, 1⟩, ⟨2, 0, 0, 1⟩] : List (XYZW ℝ)))
    (nth ([⟨0, 0, 0, 1⟩, ⟨1, 2, 0, 1⟩, ⟨2, 0, 0, 1⟩] : List (XYZW ℝ))) := by
  intro i hi
  interval_cases i <;> ext <;> simp [nth] <;> norm_num

/-- C58: for degree one the code reads an array element before the first one. -/
theorem C58_degree_one_ub {U : List ℝ} {a b : XYZW ℝ} : reduceDegree { degree := 1, knots := U, cps := [a, b] } = ub := by
  have h0 : fdiv (((0 : ℤ) : ℝ)) (((1 : ℤ) : ℝ)) = ok 0 := by rw [fdiv_ok (by norm_num)]; simp
  unfold reduceDegree
  dsimp only
  rw [show isValidBezier (1 : ℤ) ([a, b].length : ℕ) = true from rfl]
  simp only [Bool.not_true, Bool.false_eq_true, if_false]
  rw [vget_nth (i := 0) (k := 0) rfl (by simp), ok_bind, vset_of (i := 0) (k := 0) rfl (by simp), ok_bind, vget_nth (i := 1) (k := 1) rfl (by simp), ok_bind,
    vset_of (i := 1 - 1) (k := 0) rfl (by simp), ok_bind, forI_head (by norm_num), h0]
  rw [ok_bind, vset_of (i := 0) (k := 0) rfl (by simp), ok_bind, forI_empty (by norm_num), ok_bind, if_neg (by norm_num), forI_empty (by norm_num), ok_bind,
    show forDown ((1 : ℤ) - 2) ((1 - 1) / 2 + 1) _ _ = ok _ from rfl]
  rfl

end LNLib.Props
