import Verif.Lemmas.InsertOne
import Verif.Lemmas.CurveEval

/-! # `RefineKnotVector` inserts the knots one after the other -/
set_option linter.unusedSectionVars false

namespace LNLib
open Res Spec Finset

section
variable {α : Type} [Zero α]

theorem nth_take {l : List α} {m i : ℕ} (h : i < m) : nth (l.take m) i = nth l i := by
  unfold nth
  simp only [List.getD, List.getElem?_take]
  rw [if_pos h]

theorem nth_drop {l : List α} {m i : ℕ} : nth (l.drop m) i = nth l (m + i) := by
  unfold nth
  simp only [List.getD, List.getElem?_drop]

/-- `a` up to index `i`, then `b` shifted by `j` -/
def glue (a b : List α) (i j : ℕ) : List α := a.take i ++ b.drop (i + j)

theorem glue_lt {a b : List α} {i j l : ℕ} (h : l < i) (ha : i ≤ a.length) : nth (glue a b i j) l = nth a l := by
  unfold glue
  rw [nth_append_left (by simp; omega), nth_take h]

theorem glue_ge {a b : List α} {i j l : ℕ} (h : i ≤ l) (ha : i ≤ a.length) : nth (glue a b i j) l = nth b (l + j) := by
  unfold glue
  rw [nth_append_right (by simp; omega), nth_drop]
  congr 1
  simp
  omega

theorem glue_length {a b : List α} {i j : ℕ} (ha : i ≤ a.length) (hb : i + j ≤ b.length) :
    (glue a b i j).length + j = b.length := by
  unfold glue
  simp
  omega

end

variable {K : Type} [Field K] [LinearOrder K] [IsStrictOrderedRing K]
variable {T : Type} [AddCommGroup T] [Module K T]

/-- invariant of `RefineKnotVector`: `i`, `k = i + j`, `j` knots still to insert -/
structure RInv (U : List K) (P : List T) (X : List K) (p n a i j : ℕ) (V : List K) (Q : List T) : Prop where
  pa : p ≤ a
  ai : a ≤ i
  inp : i ≤ n + p
  lenV : V.length = n + p + 2 + X.length
  lenQ : Q.length = n + 1 + X.length
  jle : j ≤ X.length
  preV : ∀ l, l ≤ a → nth V l = nth U l
  preQ : ∀ l, l + p ≤ a → nth Q l = nth P l
  atQ : nth Q (i + j - p) = nth P (i - p)
  mono : MonoTo (nth (glue U V (i + 1) j)) (n + (X.length - j) + p + 1)
  curve : ∀ t σ, IsSpan (nth U) p n t σ → ∃ σ', IsSpan (nth (glue U V (i + 1) j)) p (n + (X.length - j)) t σ' ∧
    curvePoint (nth (glue U V (i + 1) j)) p (n + (X.length - j)) (nth (glue P Q (i - p) j)) t
      = curvePoint (nth U) p n (nth P) t
  perm : (glue U V (i + 1) j).Perm (X.drop j ++ U)
  lastEq : nth (glue U V (i + 1) j) (n + (X.length - j) + 1) = nth U (n + 1)
  lastLt : nth (glue U V (i + 1) j) (n + (X.length - j)) < nth U (n + 1)
  firstLt : ∀ l, i < l → l ≤ n + (X.length - j) + p + 1 → nth U p < nth (glue U V (i + 1) j) l
  ahead : ∀ m, m < j → ∀ l, i < l → l ≤ n + (X.length - j) + p + 1 → nth X m ≤ nth (glue U V (i + 1) j) l
  prev : j < X.length → ∃ (W : ℕ → K) (A : ℕ → T) (i0 : ℕ), i0 ≤ n + (X.length - j) - 1 ∧
    OneIns W (nth (glue U V (i + 1) j)) A (nth (glue P Q (i - p) j)) p (n + (X.length - j) - 1) i0 (nth X j)

section
variable {U : List K} {P : List T} {X : List K} {p n a i j : ℕ} {V : List K} {Q : List T}

theorem drop_set_self {α : Type} {l : List α} {k : ℕ} {x : α} (h : k < l.length) :
    (l.set k x).drop k = x :: l.drop (k + 1) := by
  rw [List.drop_set]
  simp only [lt_irrefl, if_false, Nat.sub_self]
  rw [List.drop_eq_getElem_cons h]
  rfl

theorem glue_set {α : Type} [Zero α] {a b : List α} {i j : ℕ} {x : α} (hi : i + j < b.length) (hx : x = nth a i) (ha : i < a.length) :
    glue a (b.set (i + j) x) i j = glue a b (i + 1) j := by
  unfold glue
  rw [drop_set_self hi]
  have : List.take (i + 1) a = List.take i a ++ [x] := by
    rw [List.take_add_one, List.getElem?_eq_getElem ha, hx, nth_eq_getElem ha]
    rfl
  rw [this]
  have e : i + 1 + j = i + j + 1 := by omega
  rw [e]
  simp

/-- one round of the `while` loop does not change the represented curve -/
theorem RInv.shift (h : RInv U P X p n a i j V Q) (hU : U.length = n + p + 2) (hP : P.length = n + 1) (hia : a < i) (hj : 1 ≤ j)
    (hx : ∀ m, m < j → nth X m ≤ nth U i) (hp1 : nth U p < nth U i) :
    RInv U P X p n a (i - 1) j (V.set (i + j) (nth U i)) (Q.set (i + j - p - 1) (nth P (i - p - 1))) := by
  obtain ⟨i', rfl⟩ : ∃ i', i = i' + 1 := ⟨i - 1, by omega⟩
  have e1 : i' + 1 - 1 = i' := by omega
  rw [e1]
  have hpa := h.pa
  have hinp := h.inp
  have hjle := h.jle
  have hlV := h.lenV
  have hlQ := h.lenQ
  have gV : glue U (V.set (i' + 1 + j) (nth U (i' + 1))) (i' + 1) j = glue U V (i' + 1 + 1) j :=
    glue_set (by omega) rfl (by omega)
  have gQ : glue P (Q.set (i' + 1 + j - p - 1) (nth P (i' + 1 - p - 1))) (i' - p) j = glue P Q (i' + 1 - p) j := by
    have e2 : i' + 1 + j - p - 1 = i' - p + j := by omega
    have e3 : i' + 1 - p - 1 = i' - p := by omega
    have e4 : i' + 1 - p = i' - p + 1 := by omega
    rw [e2, e3, e4]
    exact glue_set (by omega) rfl (by omega)
  refine ⟨hpa, by omega, by omega, by simpa using hlV, by simpa using hlQ, hjle, ?_, ?_, ?_, ?_, ?_, ?_, ?_, ?_, ?_, ?_, ?_⟩
  · intro l hl
    rw [nth_set (by omega), if_neg (by omega)]; exact h.preV l hl
  · intro l hl
    rw [nth_set (by omega), if_neg (by omega)]; exact h.preQ l hl
  · rw [nth_set (by omega), if_pos (by omega)]
    congr 1; omega
  · rw [gV]; exact h.mono
  · rw [gV, gQ]; exact h.curve
  · rw [gV]; exact h.perm
  · rw [gV]; exact h.lastEq
  · rw [gV]; exact h.lastLt
  · intro l h1 h2
    by_cases hl : l = i' + 1
    · rw [hl, gV, glue_lt (by omega) (by omega)]; exact hp1
    · rw [gV]; exact h.firstLt l (by omega) h2
  · intro m hm l h1 h2
    by_cases hl : l = i' + 1
    · rw [hl, gV, glue_lt (by omega) (by omega)]; exact hx m hm
    · rw [gV]; exact h.ahead m hm l (by omega) h2
  · rw [gV, gQ]; exact h.prev

/-- the insertion step -/
theorem RInv.insert (h : RInv U P X p n a i (j + 1) V Q) (hU : U.length = n + p + 2) (hP : P.length = n + 1) (hp : 1 ≤ p)
    (hXs : ∀ b c, b ≤ c → c < X.length → nth X b ≤ nth X c)
    (hlo : nth U i ≤ nth X j) (hx0 : nth U p < nth X j) (hx1 : nth X j < nth U (n + 1)) {Q' : List T} (hQ'l : Q'.length = Q.length)
    (hQ0 : nth Q' (i + j - p) = nth Q (i + (j + 1) - p))
    (hQmid : ∀ l, 1 ≤ l → l ≤ p → nth U (i - p + l) < nth V (i + (j + 1) + l) →
      nth Q' (i + j - p + l) = ((nth V (i + (j + 1) + l) - nth X j) / (nth V (i + (j + 1) + l) - nth U (i - p + l))) • nth Q (i + j - p + l)
        + ((nth X j - nth U (i - p + l)) / (nth V (i + (j + 1) + l) - nth U (i - p + l))) • nth Q (i + j - p + l + 1))
    (hQout : ∀ m, m < i + j - p ∨ i + j < m → nth Q' m = nth Q m) :
    RInv U P X p n a i j (V.set (i + (j + 1)) (nth X j)) Q' := by
  have hpa := h.pa
  have hai := h.ai
  have hinp := h.inp
  have hjle := h.jle
  have hlV := h.lenV
  have hlQ := h.lenQ
  set R := X.length with hR
  set V' := V.set (i + (j + 1)) (nth X j) with hV'
  have hN : n + (R - j) = n + (R - (j + 1)) + 1 := by omega
  set N := n + (R - (j + 1)) with hNdef
  set W := glue U V (i + 1) (j + 1) with hW
  set W' := glue U V' (i + 1) j with hW'
  set A := glue P Q (i - p) (j + 1) with hA
  set A' := glue P Q' (i - p) j with hA'
  -- knots
  have wlo : ∀ l, l ≤ i → nth W l = nth U l := fun l hl => glue_lt (by omega) (by omega)
  have whi : ∀ l, i < l → nth W l = nth V (l + (j + 1)) := fun l hl => glue_ge (by omega) (by omega)
  have wlo' : ∀ l, l ≤ i → nth W' l = nth U l := fun l hl => glue_lt (by omega) (by omega)
  have wx' : nth W' (i + 1) = nth X j := by
    rw [hW', glue_ge (by omega) (by omega), hV', nth_set (by omega), if_pos (by omega)]
  have whi' : ∀ l, i + 1 < l → nth W' l = nth W (l - 1) := by
    intro l hl
    rw [hW', glue_ge (by omega) (by omega), hV', nth_set (by omega), if_neg (by omega), whi (l - 1) (by omega)]
    congr 1; omega
  -- i is inside
  have hiN : i ≤ N := by
    by_contra hcon
    have := h.mono (N + 1) i (by omega) (by omega)
    rw [wlo i (le_refl _), h.lastEq] at this
    exact absurd (lt_of_lt_of_le hx1 (this.trans hlo)) (lt_irrefl _)
  have hone : OneIns (nth W) (nth W') (nth A) (nth A') p N i (nth X j) := by
    refine ⟨h.mono, by omega, by rw [wlo i (le_refl _)]; exact hlo, h.ahead j (by omega) (i + 1) (by omega) (by omega),
      by rw [h.lastEq]; exact hx1, ?_, wx', fun l h1 _ => whi' l h1, ?_, ?_, ?_⟩
    · intro l hl; rw [wlo l hl, wlo' l hl]
    · intro l hl
      by_cases hl' : l < i - p
      · rw [hA, hA', glue_lt hl' (by omega), glue_lt hl' (by omega)]
      · have : l = i - p := by omega
        subst this
        rw [hA, hA', glue_ge (by omega) (by omega), glue_ge (by omega) (by omega)]
        have e1 : i - p + j = i + j - p := by omega
        have e2 : i - p + (j + 1) = i + (j + 1) - p := by omega
        rw [e1, e2, hQ0]
    · intro l h1 h2 h3
      have hlt : nth U (i - p + (l - (i - p))) < nth V (i + (j + 1) + (l - (i - p))) := by
        rw [wlo l h2, whi (l + p) (by omega)] at h3
        have e1 : i - p + (l - (i - p)) = l := by omega
        have e2 : i + (j + 1) + (l - (i - p)) = l + p + (j + 1) := by omega
        rw [e1, e2]; exact h3
      have := hQmid (l - (i - p)) (by omega) (by omega) hlt
      rw [wlo l h2, whi (l + p) (by omega)]
      rw [hA, hA', glue_ge (by omega) (by omega), glue_ge (by omega) (by omega), glue_ge (by omega) (by omega)]
      have e1 : i - p + (l - (i - p)) = l := by omega
      have e2 : i + (j + 1) + (l - (i - p)) = l + p + (j + 1) := by omega
      have e3 : i + j - p + (l - (i - p)) = l + j := by omega
      rw [e1, e2, e3] at this
      rw [this]
      have e4 : l - 1 + (j + 1) = l + j := by omega
      have e5 : l + j + 1 = l + (j + 1) := by omega
      rw [e4, e5]
    · intro l h1 h2
      rw [hA, hA', glue_ge (by omega) (by omega), glue_ge (by omega) (by omega), hQout _ (by omega)]
      congr 1; omega
  refine ⟨hpa, hai, hinp, by rw [hV', List.length_set]; exact hlV, by rw [hQ'l]; exact hlQ, by omega, ?_, ?_, ?_, ?_, ?_, ?_, ?_, ?_, ?_, ?_, ?_⟩
  · intro l hl
    rw [hV', nth_set (by omega), if_neg (by omega)]; exact h.preV l hl
  · intro l hl
    by_cases hc : l = i + j - p
    · rw [hc, hQ0, h.atQ]
      congr 1; omega
    · rw [hQout l (by omega)]; exact h.preQ l hl
  · rw [hQ0, h.atQ]
  · rw [hN]
    exact hone.mono' hiN
  · intro t σ hσ
    obtain ⟨σ1, hσ1, hc1⟩ := h.curve t σ hσ
    obtain ⟨σ2, hσ2, hc2⟩ := hone.curve hiN hp hσ1
    rw [hN]
    exact ⟨σ2, hσ2, by rw [hc2, hc1]⟩
  · have hdrop : X.drop j = nth X j :: X.drop (j + 1) := by
      rw [nth_eq_getElem (by omega)]
      exact List.drop_eq_getElem_cons (by omega)
    have hW'l : W' = U.take (i + 1) ++ nth X j :: V.drop (i + 1 + (j + 1)) := by
      rw [hW', glue, hV']
      have e : i + 1 + j = i + (j + 1) := by omega
      rw [e, drop_set_self (by omega)]
      have e2 : i + (j + 1) + 1 = i + 1 + (j + 1) := by omega
      rw [e2]
    change W'.Perm _
    rw [hW'l, hdrop]
    refine List.perm_middle.trans ?_
    rw [List.cons_append]
    exact List.Perm.cons _ h.perm
  · rw [hN, whi' _ (by omega)]
    exact h.lastEq
  · rw [hN]
    by_cases hc : i = N
    · rw [← hc, wx']; exact hx1
    · rw [whi' _ (by omega)]; exact h.lastLt
  · intro l h1 h2
    by_cases hc : l = i + 1
    · rw [hc, wx']; exact hx0
    · rw [whi' l (by omega)]; exact h.firstLt (l - 1) (by omega) (by omega)
  · intro m hm l h1 h2
    by_cases hc : l = i + 1
    · rw [hc, wx']; exact hXs m j (by omega) (by omega)
    · rw [whi' l (by omega)]; exact h.ahead m (by omega) (l - 1) (by omega) (by omega)
  · intro _
    have e : n + (R - j) - 1 = N := by omega
    rw [e]
    exact ⟨nth W, nth A, i, hiN, hone⟩

end


theorem wellSep_zero {l : List K} (h : WellSeparated l) {x y : K} (hx : x ∈ l) (hy : y ∈ l)
    (ha : isAlmostEqualTo (x - y) 0 = true) : x = y := by
  rcases h x hx y hy with h1 | h1
  · exact h1
  · exfalso
    simp only [isAlmostEqualTo, decide_eq_true_eq] at ha
    simp only [tolOf, doubleEps, sub_zero, abs_zero] at ha
    rw [max_eq_left (abs_nonneg _)] at ha
    have h2 : |x - y| ≤ 2 * max |x| |y| := by
      calc |x - y| ≤ |x| + |y| := abs_sub _ _
        _ ≤ max |x| |y| + max |x| |y| := add_le_add (le_max_left _ _) (le_max_right _ _)
        _ = 2 * max |x| |y| := by ring
    have h3 : 1 / 1000000 * (1 + |x - y|) ≤ 1 / 1000000 * (1 + 2 * max |x| |y|) := by
      apply mul_le_mul_of_nonneg_left _ (by positivity)
      linarith
    have h4 : (1 : K) / 1000000 * (1 + 2 * max |x| |y|) ≤ 2 / 1000000 * (1 + max |x| |y|) := by
      have : (0 : K) < 1 / 1000000 := by positivity
      have e : (2 : K) / 1000000 * (1 + max |x| |y|) = 1 / 1000000 * (1 + 2 * max |x| |y|) + 1 / 1000000 := by ring
      linarith
    linarith

theorem wellSep_tol {l : List K} (h : WellSeparated l) {x y : K} (hx : x ∈ l) (hy : y ∈ l) (hlt : x < y) :
    y - x > 1 / 1000000 * (1 + max |x| |y|) := by
  rcases h x hx y hy with h1 | h1
  · exact absurd hlt (by rw [h1]; exact lt_irrefl _)
  · rw [abs_sub_comm, abs_of_pos (sub_pos.mpr hlt)] at h1
    have : 0 ≤ max |x| |y| := le_max_of_le_left (abs_nonneg _)
    have e : (2 : K) / 1000000 * (1 + max |x| |y|) = 1 / 1000000 * (1 + max |x| |y|) + 1 / 1000000 * (1 + max |x| |y|) := by ring
    have : (0 : K) < 1 / 1000000 * (1 + max |x| |y|) := by positivity
    linarith

theorem mem_of_nth {α : Type} [Zero α] {l : List α} {i : ℕ} (h : i < l.length) : nth l i ∈ l := by
  rw [nth_eq_getElem h]; exact List.getElem_mem _

section
variable {U : List K} {P : List T} {X : List K} {p n a i j : ℕ} {V : List K} {Q : List T}

/-- the state of the loop -/
def RSt (U : List K) (P : List T) (X : List K) (p n a j : ℕ) (st : RefineState K T) : Prop :=
  ∃ i : ℕ, st.i = i ∧ st.k = (i : ℤ) + j ∧ RInv U P X p n a i j st.V st.Q

theorem refineShift_run (hU : U.length = n + p + 2) (hP : P.length = n + 1)
    (hX : ∀ m, m < X.length → nth U p < nth X m) (hXs : ∀ b c, b ≤ c → c < X.length → nth X b ≤ nth X c)
    (hax : nth U a ≤ nth X j) {st : RefineState K T} (hst : RSt U P X p n a (j + 1) st) :
    Runs (refineShift (p : ℤ) U P (a : ℤ) (nth X j) st)
      (fun st' => ∃ i : ℕ, st'.i = i ∧ st'.k = (i : ℤ) + (j + 1 : ℕ) ∧ RInv U P X p n a i (j + 1) st'.V st'.Q ∧ nth U i ≤ nth X j) := by
  unfold refineShift
  refine Runs.whileF (Inv := fun st => RSt U P X p n a (j + 1) st) (fun st => (st.i - a).toNat) ?_ _ _ hst ?_
  · rintro ⟨si, sk, sV, sQ⟩ ⟨i, rfl, hk, h⟩
    dsimp only at hk h ⊢
    subst hk
    have hinp := h.inp
    have hpa := h.pa
    have hai := h.ai
    have hjle := h.jle
    have hlV := h.lenV
    have hlQ := h.lenQ
    have e1 : vget U (i : ℤ) = ok (nth U i) := vget_nth rfl (by omega)
    simp only [e1, ok_bind]
    by_cases hc : nth X j ≤ nth U i ∧ (i : ℤ) > a
    · right
      refine ⟨by rw [decide_eq_true hc], ?_⟩
      have hia : a < i := by omega
      have e2 : vget P ((i : ℤ) - p - 1) = ok (nth P (i - p - 1)) := vget_nth (by omega) (by omega)
      rw [e2, ok_bind, vset_of (k := i + (j + 1) - p - 1) (by omega) (by omega), ok_bind, vset_of (k := i + (j + 1)) (by omega) (by omega), ok_bind]
      refine Runs.ok ⟨⟨i - 1, ?_, ?_, ?_⟩, ?_⟩
      · dsimp only; omega
      · dsimp only; omega
      · exact h.shift hU hP hia (by omega) (fun m hm => (hXs m j (by omega) (by omega)).trans hc.1)
          (lt_of_lt_of_le (hX j (by omega)) hc.1)
      · dsimp only; omega
    · left
      refine ⟨by rw [decide_eq_false hc], i, rfl, rfl, h, ?_⟩
      by_cases h1 : nth X j ≤ nth U i
      · have : i = a := by
          by_contra hne
          exact hc ⟨h1, by omega⟩
        rw [this]; exact hax
      · exact (not_le.mp h1).le
  · obtain ⟨i, h1, _, h⟩ := hst
    have := h.inp
    rw [h1]
    omega

theorem refineInsert_run (hU : U.length = n + p + 2) (hP : P.length = n + 1) (hp : 1 ≤ p)
    (hX : ∀ m, m < X.length → nth U p < nth X m) (hX1 : ∀ m, m < X.length → nth X m < nth U (n + 1))
    (hXs : ∀ b c, b ≤ c → c < X.length → nth X b ≤ nth X c) (hsep : WellSeparated (U ++ X))
    {V : List K} {Q : List T} (h : RInv U P X p n a i (j + 1) V Q) (hlo : nth U i ≤ nth X j) :
    Runs (refineInsert (p : ℤ) U (nth X j) (⟨(i : ℤ), (i : ℤ) + (j + 1 : ℕ), V, Q⟩ : RefineState K T)) (fun st => st.i = i ∧ RSt U P X p n a j st) := by
  have hinp := h.inp
  have hpa := h.pa
  have hai := h.ai
  have hjle := h.jle
  have hlV := h.lenV
  have hlQ := h.lenQ
  have hiN : i ≤ n + (X.length - (j + 1)) := by
    by_contra hcon
    have h1 := h.mono (n + (X.length - (j + 1)) + 1) i (by omega) (by omega)
    rw [glue_lt (l := i) (by omega) (by omega), h.lastEq] at h1
    exact absurd (lt_of_lt_of_le (hX1 j (by omega)) (h1.trans hlo)) (lt_irrefl _)
  have hmemX : nth X j ∈ U ++ X := List.mem_append_right _ (mem_of_nth (by omega))
  have hlenW : (glue U V (i + 1) (j + 1)).length + (j + 1) = n + p + 2 + X.length := by
    rw [glue_length (by omega) (by omega), hlV]
  have hmemV : ∀ l, 1 ≤ l → l ≤ p → nth V (i + (j + 1) + l) ∈ U ++ X := by
    intro l h1 h2
    have e : nth V (i + (j + 1) + l) = nth (glue U V (i + 1) (j + 1)) (i + l) := by
      rw [glue_ge (by omega) (by omega)]; congr 1; omega
    rw [e]
    have := h.perm.mem_iff.mp (mem_of_nth (l := glue U V (i + 1) (j + 1)) (i := i + l) (by omega))
    rcases List.mem_append.mp this with h3 | h3
    · exact List.mem_append_right _ (List.mem_of_mem_drop h3)
    · exact List.mem_append_left _ h3
  have hmemU : ∀ l, l ≤ p → nth U (i - p + l) ∈ U ++ X := fun l h2 => List.mem_append_left _ (mem_of_nth (by omega))
  unfold refineInsert
  dsimp only
  rw [vget_nth (k := i + (j + 1) - p) (by omega) (by omega), ok_bind, vset_of (k := i + j - p) (by omega) (by omega), ok_bind]
  refine Runs.bind (Runs.forN (m := 1) (n := p + 1) (fun l Q' => Q'.length = Q.length ∧
      nth Q' (i + j - p) = nth Q (i + (j + 1) - p) ∧
      (∀ l', 1 ≤ l' → l' < l → nth U (i - p + l') < nth V (i + (j + 1) + l') →
        nth Q' (i + j - p + l') = ((nth V (i + (j + 1) + l') - nth X j) / (nth V (i + (j + 1) + l') - nth U (i - p + l'))) • nth Q (i + j - p + l')
        + ((nth X j - nth U (i - p + l')) / (nth V (i + (j + 1) + l') - nth U (i - p + l'))) • nth Q (i + j - p + l' + 1)) ∧
      (∀ m, m < i + j - p ∨ i + j - p + l ≤ m → nth Q' m = nth Q m)) (by simp) (by simp) (by omega) ?_ ?_) ?_
  · refine ⟨by simp, ?_, fun l' h1 h2 => by omega, ?_⟩
    · rw [nth_set (by omega), if_pos rfl]
    · intro m hm
      rw [nth_set (by omega), if_neg (by omega)]
  · rintro l Q' hl1 hl2 ⟨q1, q2, q3, q4⟩
    have e1 : vget V ((i : ℤ) + (j + 1 : ℕ) + l) = ok (nth V (i + (j + 1) + l)) := vget_nth (by omega) (by omega)
    have e2 : vget U ((i : ℤ) - p + l) = ok (nth U (i - p + l)) := vget_nth (by omega) (by omega)
    have e3 : vget Q' ((i : ℤ) + (j + 1 : ℕ) - p + l) = ok (nth Q (i + j - p + l + 1)) := by
      rw [vget_nth (k := i + j - p + l + 1) (by omega) (by omega), q4 _ (by omega)]
    have e4 : vget Q' ((i : ℤ) + (j + 1 : ℕ) - p + l - 1) = ok (nth Q (i + j - p + l)) := by
      rw [vget_nth (k := i + j - p + l) (by omega) (by omega), q4 _ (by omega)]
    rw [e1, ok_bind, e2, ok_bind, e3, ok_bind]
    set x := nth X j
    set vk := nth V (i + (j + 1) + l) with hvk
    set ui := nth U (i - p + l) with hui
    have key : ∀ pt : T, (ui < vk → pt = ((vk - x) / (vk - ui)) • nth Q (i + j - p + l) + ((x - ui) / (vk - ui)) • nth Q (i + j - p + l + 1)) →
        Runs (vset Q' ((i : ℤ) + (j + 1 : ℕ) - p + l - 1) pt) (fun Q' => Q'.length = Q.length ∧
      nth Q' (i + j - p) = nth Q (i + (j + 1) - p) ∧
      (∀ l', 1 ≤ l' → l' < l + 1 → nth U (i - p + l') < nth V (i + (j + 1) + l') →
        nth Q' (i + j - p + l') = ((nth V (i + (j + 1) + l') - x) / (nth V (i + (j + 1) + l') - nth U (i - p + l'))) • nth Q (i + j - p + l')
        + ((x - nth U (i - p + l')) / (nth V (i + (j + 1) + l') - nth U (i - p + l'))) • nth Q (i + j - p + l' + 1)) ∧
      (∀ m, m < i + j - p ∨ i + j - p + (l + 1) ≤ m → nth Q' m = nth Q m)) := by
      intro pt hpt
      rw [vset_of (k := i + j - p + l) (by omega) (by omega)]
      refine Runs.ok ⟨by simp [q1], ?_, ?_, ?_⟩
      · rw [nth_set (by omega), if_neg (by omega)]; exact q2
      · intro l' h1 h2 h3
        by_cases hc : l' = l
        · rw [hc] at h3 ⊢
          rw [nth_set (by omega), if_pos rfl, hpt h3]
        · rw [nth_set (by omega), if_neg (by omega)]
          exact q3 l' h1 (by omega) h3
      · intro m hm
        rw [nth_set (by omega), if_neg (by omega)]
        exact q4 m (by omega)
    by_cases hn : isAlmostEqualTo (vk - x) 0 = true
    · rw [if_pos (by simp [hn])]
      apply key
      intro hlt
      have := wellSep_zero hsep (hmemV l hl1 (by omega)) hmemX hn
      rw [← hvk] at this
      rw [this, sub_self, zero_div, zero_smul, zero_add, div_self (sub_ne_zero.mpr (by rw [← this]; exact hlt.ne')), one_smul]
    · by_cases hd : isAlmostEqualTo (vk - ui) 0 = true
      · rw [if_pos (by simp [hd])]
        apply key
        intro hlt
        have := wellSep_zero hsep (hmemV l hl1 (by omega)) (hmemU l (by omega)) hd
        exact absurd this hlt.ne'
      · rw [if_neg (by simp [hn, hd])]
        have hne : vk - ui ≠ 0 := by
          intro h0
          rw [h0] at hd
          exact hd (isAlmostEqualTo_self doubleEps_pos)
        rw [fdiv_ok hne, ok_bind, e4, ok_bind]
        apply key
        intro _
        congr 2
        field_simp
        ring
  · rintro Q' ⟨q1, q2, q3, q4⟩
    rw [vset_of (k := i + (j + 1)) (by omega) (by omega), ok_bind]
    refine Runs.ok ⟨rfl, i, rfl, ?_, ?_⟩
    · dsimp only; omega
    · exact h.insert hU hP hp hXs hlo (hX j (by omega)) (hX1 j (by omega)) q1 q2 (fun l h1 h2 => q3 l h1 (by omega)) (fun m hm => q4 m (by omega))

end

/-- a run of `RefineKnotVector` -/
theorem refineKnotVector_run {c : BsplineCurve K T} {p n : ℕ} {X : List K} (w : WellFormed c p n)
    (he : EndsSeparated (nth c.knots) p n) (hne : X ≠ [])
    (hX : ∀ m, m < X.length → nth c.knots p < nth X m) (hX1 : ∀ m, m < X.length → nth X m < nth c.knots (n + 1))
    (hXs : ∀ b c, b ≤ c → c < X.length → nth X b ≤ nth X c) (hsep : WellSeparated (c.knots ++ X)) :
    Runs (refineKnotVector c X) (fun c' => WellFormed c' p (n + X.length) ∧ EndsSeparated (nth c'.knots) p (n + X.length) ∧
      c'.knots.Perm (c.knots ++ X) ∧ nth c'.knots p = nth c.knots p ∧ nth c'.knots (n + X.length + 1) = nth c.knots (n + 1) ∧
      (∀ t, nth c.knots p ≤ t → t ≤ nth c.knots (n + 1) →
        curvePoint (nth c'.knots) p (n + X.length) (nth c'.cps) t = curvePoint (nth c.knots) p n (nth c.cps) t) ∧
      ∃ (W : ℕ → K) (A : ℕ → T) (i0 : ℕ), i0 ≤ n + X.length - 1 ∧
        OneIns W (nth c'.knots) A (nth c'.cps) p (n + X.length - 1) i0 (nth X 0)) := by
  obtain ⟨deg, U, P⟩ := c
  have hU : U.length = n + p + 2 := w.knots
  have hP : P.length = n + 1 := w.cps
  have hm : MonoTo (nth U) (n + p + 1) := wf_monoTo w
  have hp := w.pos
  have hpn := w.pn
  have hR : 0 < X.length := List.length_pos_iff.mpr hne
  have hd : deg = p := w.degree
  subst hd
  dsimp only at he hX hX1 hsep ⊢
  obtain ⟨R, hRe⟩ : ∃ R, X.length = R + 1 := ⟨X.length - 1, by omega⟩
  obtain ⟨a, ha, hsa⟩ := span_isSpan (t := nth X 0) w he (hX 0 hR).le (hX1 0 hR).le
  obtain ⟨b, hb, hsb⟩ := span_isSpan (t := nth X R) w he (hX R (by omega)).le (hX1 R (by omega)).le
  dsimp only at ha hb hsa hsb
  have hab : a ≤ b := by
    by_contra hcon
    have h1 := hm (b + 1) a (by omega) (by have := hsa.2.1; omega)
    have h2 : nth X R < nth U (b + 1) := by
      rcases hsb.2.2.2.2 with h | ⟨h, h'⟩
      · exact h
      · have := hX1 R (by omega); rw [h, h'] at this; exact absurd this (lt_irrefl _)
    have h3 := hXs 0 R (by omega) (by omega)
    exact absurd (lt_of_lt_of_le h2 (h1.trans (hsa.2.2.2.1.trans h3))) (lt_irrefl _)
  have hbn := hsb.2.1
  have hpa := hsa.1
  have hXR : nth X R < nth U (b + 1) := by
    rcases hsb.2.2.2.2 with h | ⟨h, h'⟩
    · exact h
    · have := hX1 R (by omega); rw [h, h'] at this; exact absurd this (lt_irrefl _)
  unfold refineKnotVector
  dsimp only
  have v1 : validate (X.length > 0) = ok () := validate_of (by simpa using hR)
  have x0 : vget X 0 = ok (nth X 0) := vget_nth (by simp) hR
  have xr : vget X ((X.length : ℤ) - 1) = ok (nth X R) := vget_nth (by omega) (by omega)
  rw [v1, ok_bind, x0, ok_bind, ha, ok_bind, xr, ok_bind, hb, ok_bind]
  refine Runs.bind (Runs.fill (e := 0) (f := fun m => nth U m) (dst := fun i => i) (rd := fun i => vget U i)
    (by intro i; omega) (by omega) (by simp; omega) (by omega) (fun i h1 h2 => vget_nth (by omega) (by omega))) ?_
  rintro V1 ⟨hV1l, hV1⟩
  refine Runs.bind (Runs.fill (e := (X.length : ℤ)) (f := fun m => nth U (m - X.length)) (dst := fun i => i + ((X.length : ℤ) - 1) + 1) (rd := fun i => vget U i)
    (by intro i; omega) (by omega) (by rw [hV1l]; simp; omega) (by omega) (fun i h1 h2 => vget_nth (by omega) (by omega))) ?_
  rintro V2 ⟨hV2l, hV2⟩
  refine Runs.bind (Runs.fill (e := 0) (f := fun m => nth P m) (dst := fun i => i) (rd := fun i => vget P i)
    (by intro i; omega) (by omega) (by simp; omega) (by omega) (fun i h1 h2 => vget_nth (by omega) (by omega))) ?_
  rintro Q1 ⟨hQ1l, hQ1⟩
  refine Runs.bind (Runs.fill (e := (X.length : ℤ)) (f := fun m => nth P (m - X.length)) (dst := fun i => i + ((X.length : ℤ) - 1) + 1) (rd := fun i => vget P i)
    (by intro i; omega) (by omega) (by rw [hQ1l]; simp; omega) (by omega) (fun i h1 h2 => vget_nth (by omega) (by omega))) ?_
  rintro Q2 ⟨hQ2l, hQ2⟩
  have hlV : V2.length = n + p + 2 + X.length := by
    rw [hV2l, hV1l, List.length_replicate]; omega
  have hlQ : Q2.length = n + 1 + X.length := by
    rw [hQ2l, hQ1l, List.length_replicate]; omega
  have gV : glue U V2 (b + p + 1) X.length = U := by
    apply ext_nth
    · have := glue_length (a := U) (b := V2) (i := b + p + 1) (j := X.length) (by omega) (by omega)
      omega
    · intro l hl
      have hl' := glue_length (a := U) (b := V2) (i := b + p + 1) (j := X.length) (by omega) (by omega)
      by_cases hc : l < b + p + 1
      · exact glue_lt hc (by omega)
      · rw [glue_ge (by omega) (by omega), hV2, if_pos (by omega)]
        congr 1; omega
  have gQ : glue P Q2 (b + p - p) X.length = P := by
    apply ext_nth
    · have := glue_length (a := P) (b := Q2) (i := b + p - p) (j := X.length) (by omega) (by omega)
      omega
    · intro l hl
      have hl' := glue_length (a := P) (b := Q2) (i := b + p - p) (j := X.length) (by omega) (by omega)
      by_cases hc : l < b + p - p
      · exact glue_lt hc (by omega)
      · rw [glue_ge (by omega) (by omega), hQ2, if_pos (by omega)]
        congr 1; omega
  have h0 : RSt U P X p n a X.length (⟨(b : ℤ) + 1 + p - 1, (b : ℤ) + 1 + p + ((X.length : ℤ) - 1), V2, Q2⟩ : RefineState K T) := by
    refine ⟨b + p, by dsimp only; omega, by dsimp only; omega, ?_⟩
    dsimp only
    refine ⟨hpa, by omega, by omega, hlV, hlQ, le_refl _, ?_, ?_, ?_, ?_, ?_, ?_, ?_, ?_, ?_, ?_, fun h => absurd h (lt_irrefl _)⟩
    · intro l hl
      rw [hV2, if_neg (by omega), hV1, if_pos (by omega)]
    · intro l hl
      rw [hQ2, if_neg (by omega), hQ1, if_pos (by omega)]
    · rw [hQ2, if_pos (by omega)]
      congr 1; omega
    · rw [gV]; simpa using hm
    · rw [gV, gQ]
      intro t σ hσ
      exact ⟨σ, by simpa using hσ, by simp⟩
    · rw [gV]; simp
    · rw [gV]; simp
    · rw [gV]
      simp only [Nat.sub_self, add_zero]
      exact lt_of_le_of_ne (hm n (n + 1) (by omega) (by omega)) (by
        intro h
        have h5 := he.last
        rw [h, sub_self] at h5
        have : 0 ≤ max |nth U (n + 1)| |nth U (n + 1)| := le_max_of_le_left (abs_nonneg _)
        have : (0 : K) < 1 / 1000000 * (1 + max |nth U (n + 1)| |nth U (n + 1)|) := by positivity
        linarith)
    · intro l h1 h2
      rw [gV]
      refine lt_of_lt_of_le (lt_of_le_of_lt (hm p b (by omega) (by omega)) hsb.2.2.1) (hm (b + 1) l (by omega) (by omega))
    · intro m hm' l h1 h2
      rw [gV]
      exact (hXs m R (by omega) (by omega)).trans (hXR.le.trans (hm (b + 1) l (by omega) (by omega)))
  refine Runs.bind (Runs.forDown (fun j st => ∃ jn : ℕ, j + 1 = jn ∧ RSt U P X p n a jn st ∧ (jn < X.length → nth U st.i.toNat ≤ nth X jn)) (by omega)
    ⟨X.length, by omega, h0, fun h => absurd h (lt_irrefl _)⟩ ?_) ?_
  · rintro j st hj1 hj2 ⟨jn, hjn, hst, _⟩
    obtain ⟨j', rfl⟩ : ∃ j', jn = j' + 1 := ⟨jn - 1, by omega⟩
    have ej : j = j' := by omega
    subst ej
    have hjl : j' < X.length := by omega
    rw [vget_nth (k := j') rfl hjl, ok_bind]
    refine Runs.bind (refineShift_run hU hP hX hXs (hsa.2.2.2.1.trans (hXs 0 j' (by omega) hjl)) hst) ?_
    rintro ⟨si, sk, sV, sQ⟩ ⟨i, h1, h2, h3, h4⟩
    dsimp only at h1 h2 h3
    subst h1 h2
    refine (refineInsert_run hU hP hp hX hX1 hXs hsep h3 h4).mono ?_
    rintro st' ⟨hi', hst'⟩
    refine ⟨j', by omega, hst', fun _ => ?_⟩
    rw [hi']
    simpa using h4
  · rintro ⟨si, sk, sV, sQ⟩ ⟨jn, hjn, ⟨i, h1, h2, h⟩, hx⟩
    obtain rfl : jn = 0 := by omega
    dsimp only at h1 h2 h hx ⊢
    subst h1
    have hai := h.ai
    have hinp := h.inp
    have hlV := h.lenV
    have hlQ := h.lenQ
    apply Runs.ok
    have hia : i = a := by
      by_contra hcon
      have h5 : nth U i ≤ nth X 0 := by simpa using hx hR
      have h6 : nth X 0 < nth U (a + 1) := by
        rcases hsa.2.2.2.2 with h | ⟨h, h'⟩
        · exact h
        · have := hX1 0 (by omega); rw [h, h'] at this; exact absurd this (lt_irrefl _)
      exact absurd (lt_of_lt_of_le h6 ((hm (a + 1) i (by omega) (by omega)).trans h5)) (lt_irrefl _)
    subst hia
    have fV : glue U sV (i + 1) 0 = sV := by
      have hl' := glue_length (a := U) (b := sV) (i := i + 1) (j := 0) (by omega) (by omega)
      apply ext_nth (by omega)
      intro l hl
      by_cases hc : l < i + 1
      · rw [glue_lt hc (by omega), h.preV l (by omega)]
      · rw [glue_ge (by omega) (by omega), add_zero]
    have fQ : glue P sQ (i - p) 0 = sQ := by
      have hl' := glue_length (a := P) (b := sQ) (i := i - p) (j := 0) (by omega) (by omega)
      apply ext_nth (by omega)
      intro l hl
      by_cases hc : l < i - p
      · rw [glue_lt hc (by omega), h.preQ l (by omega)]
      · rw [glue_ge (by omega) (by omega), add_zero]
    obtain ⟨_, _, _, _, _, _, preV, preQ, _, mono, curve, perm, lastEq, lastLt, firstLt, _, prev⟩ := h
    rw [fV] at mono perm lastEq lastLt firstLt curve prev
    rw [fQ] at curve prev
    simp only [Nat.sub_zero, List.drop_zero] at mono curve perm lastEq lastLt firstLt prev
    have hmem : ∀ l, l < sV.length → nth sV l ∈ U ++ X := by
      intro l hl
      have := perm.mem_iff.mp (mem_of_nth hl)
      rw [List.mem_append] at this ⊢
      exact this.symm
    have ep : nth sV p = nth U p := preV p hpa
    refine ⟨⟨rfl, hp, w.le7, by dsimp only; omega, by omega, by dsimp only; omega, ?_⟩, ⟨?_, ?_⟩, perm.trans List.perm_append_comm, ep, lastEq, ?_, prev hR⟩
    · intro x y hxy hy
      dsimp only at hy ⊢
      exact mono x y hxy (by omega)
    · apply wellSep_tol hsep (hmem _ (by omega)) (hmem _ (by omega))
      rw [ep]
      by_cases hc : p + 1 ≤ i
      · rw [preV _ hc]
        have := he.first
        have h7 : 0 ≤ max |nth U p| |nth U (p + 1)| := le_max_of_le_left (abs_nonneg _)
        have h8 : (0 : K) < 1 / 1000000 * (1 + max |nth U p| |nth U (p + 1)|) := by positivity
        linarith
      · exact firstLt (p + 1) (by omega) (by omega)
    · apply wellSep_tol hsep (hmem _ (by omega)) (hmem _ (by omega))
      rw [lastEq]; exact lastLt
    · intro t ht0 ht1
      obtain ⟨σ, _, hσ⟩ := span_isSpan w he ht0 ht1
      obtain ⟨σ', _, h9⟩ := curve t σ hσ
      exact h9


/-- inserting the last copy of a knot of multiplicity `p` duplicates a control point -/
theorem OneIns.double {W W' : ℕ → K} {Q Q' : ℕ → T} {p n i j : ℕ} {x : K} (h : OneIns W W' Q Q' p n i x) (hp : 1 ≤ p)
    (hji : j ≤ i) (hij : i ≤ j + p) (hjn : j ≤ n) (hblk : ∀ l, 1 ≤ l → l ≤ p → W (j + l) = x) (hlo : W j < x) (hhi : x < W (j + p + 1)) :
    Q' j = Q' (j + 1) := by
  have h1 : Q' (j + 1) = Q j := by
    by_cases hc : j + 1 ≤ i
    · rw [h.qmid (j + 1) (by omega) hc (by
        rw [hblk 1 (le_refl _) hp]
        have e : j + 1 + p = j + p + 1 := by omega
        rw [e]; exact hhi)]
      have e : j + 1 + p = j + p + 1 := by omega
      rw [e, hblk 1 (le_refl _) hp, sub_self, zero_div, zero_smul, add_zero, div_self (sub_ne_zero.mpr hhi.ne'), one_smul]
      rfl
    · rw [h.qhi (j + 1) (by omega) (by omega)]; rfl
  rw [h1]
  by_cases hc : j + p ≤ i
  · exact h.qlo j hc
  · rw [h.qmid j (by omega) hji (by rw [hblk p hp (le_refl _)]; exact hlo), hblk p hp (le_refl _), sub_self, zero_div, zero_smul, zero_add,
      div_self (sub_ne_zero.mpr hlo.ne'), one_smul]

/-! ## Windows of a curve -/

theorem nspan_shift {R V : ℕ → K} {d s : ℕ} {t : K} : ∀ (p i : ℕ), (∀ j, i ≤ j → j ≤ i + p + 1 → R j = V (j + d)) →
    Nspan R s p i t = Nspan V (s + d) p (i + d) t := by
  intro p
  induction p with
  | zero =>
    intro i _
    simp only [Nspan]
    by_cases h : i = s
    · rw [if_pos h, if_pos (by omega)]
    · rw [if_neg h, if_neg (by omega)]
  | succ p ih =>
    intro i h
    simp only [Nspan]
    rw [ih i (fun j h1 h2 => h j h1 (by omega)), ih (i + 1) (fun j h1 h2 => h j (by omega) (by omega)),
      h i (by omega) (by omega), h (i + p + 1) (by omega) (by omega), h (i + p + 2) (by omega) (by omega), h (i + 1) (by omega) (by omega)]
    have e1 : i + p + 1 + d = i + d + p + 1 := by omega
    have e2 : i + p + 2 + d = i + d + p + 2 := by omega
    have e3 : i + 1 + d = i + d + 1 := by omega
    rw [e1, e2, e3]

/-- a curve cut out of another one -/
theorem window_curve {R V : ℕ → K} {Q P : ℕ → T} {d p n n' s : ℕ} {t : K} (hV : MonoTo V (n + p + 1)) (hn : n' + d ≤ n)
    (hR : ∀ j, j ≤ n' + p + 1 → R j = V (j + d)) (hQ : ∀ j, j ≤ n' → Q j = P (j + d))
    (hs : IsSpan V p n t (s + d)) (hs' : IsSpan R p n' t s) : curvePoint R p n' Q t = curvePoint V p n P t := by
  have hR' : MonoTo R (n' + p + 1) := by
    intro a b h1 h2
    rw [hR a (by omega), hR b h2]
    exact hV _ _ (by omega) (by omega)
  have h1 := hs'.1
  have h2 := hs'.2.1
  rw [curvePoint_span hV (le_refl _) hs, curvePoint_span hR' (le_refl _) hs']
  apply Finset.sum_congr rfl
  intro r hr
  simp only [mem_range] at hr
  have e : s + d - p + r = s - p + r + d := by omega
  rw [e, nspan_shift (d := d) p (s - p + r) (fun j h3 h4 => hR j (by omega)), hQ _ (by omega)]

end LNLib
