import Verif.Lemmas.Span

/-! # The basis function loop computes the Cox–de Boor values -/
set_option linter.unusedSectionVars false

namespace LNLib
open Res Spec

variable {K : Type} [Field K] [LinearOrder K] [IsStrictOrderedRing K]

/-- `a` holds `f` at the indices in `[lo, hi)` -/
def Holds (a : List (Option K)) (lo hi : ℕ) (f : ℕ → K) : Prop :=
  ∀ r, lo ≤ r → r < hi → a[r]? = some (some (f r))

theorem Holds.aget {a : List (Option K)} {lo hi : ℕ} {f : ℕ → K} (h : Holds a lo hi f) {i : ℤ} {r : ℕ}
    (hi' : i = r) (h1 : lo ≤ r) (h2 : r < hi) : aget a i = ok (f r) := aget_of hi' (h r h1 h2)

theorem Holds.mono {a : List (Option K)} {lo hi lo' hi' : ℕ} {f g : ℕ → K} (h : Holds a lo hi f)
    (h1 : lo ≤ lo') (h2 : hi' ≤ hi) (hfg : ∀ r, lo' ≤ r → r < hi' → f r = g r) : Holds a lo' hi' g := by
  intro r h3 h4
  rw [← hfg r h3 h4]
  exact h r (by omega) (by omega)

theorem Holds.set_of_ne {a : List (Option K)} {lo hi k : ℕ} {f : ℕ → K} {x : Option K} (h : Holds a lo hi f)
    (hk : k < lo ∨ hi ≤ k) : Holds (a.set k x) lo hi f := by
  intro r h3 h4
  rw [List.getElem?_set_ne (by omega)]
  exact h r h3 h4

theorem Holds.snoc {a : List (Option K)} {lo hi : ℕ} {f : ℕ → K} {x : K} (h : Holds a lo hi f)
    (hlen : hi < a.length) (hx : x = f hi) : Holds (a.set hi (some x)) lo (hi + 1) f := by
  intro r h3 h4
  rcases Nat.lt_or_ge r hi with h5 | h5
  · rw [List.getElem?_set_ne (by omega)]
    exact h r h3 h5
  · have : r = hi := by omega
    subst this
    rw [List.getElem?_set_self hlen, hx]

theorem Holds.empty {a : List (Option K)} {lo hi : ℕ} {f : ℕ → K} (h : hi ≤ lo) : Holds a lo hi f := by
  intro r h1 h2; omega

/-- the inner loop body of `basisFunctions` -/
def basisInner (left right : List (Option K)) (j : ℤ) : ℤ → List (Option K) × K → Res (List (Option K) × K) :=
  fun r (out, saved) => do
      let br ← aget out r
      let rr ← aget right (r + 1)
      let lr ← aget left (j - r)
      let temp ← fdiv br (rr + lr)
      let out ← aset out r (saved + rr * temp)
      ok (out, lr * temp)

/-- the outer loop body of `basisFunctions` -/
def basisOuter (spanIndex : ℤ) (U : List K) (t : K) :
    ℤ → List (Option K) × List (Option K) × List (Option K) →
      Res (List (Option K) × List (Option K) × List (Option K)) :=
  fun j (out, left, right) => do
    let ul ← vget U (spanIndex + 1 - j)
    let left ← aset left j (t - ul)
    let ur ← vget U (spanIndex + j)
    let right ← aset right j (ur - t)
    let (out, saved) ← forI 0 j (out, (0 : K)) (basisInner left right j)
    let out ← aset out j saved
    ok (out, left, right)

theorem basisFunctions_unfold (spanIndex degree : ℤ) (U : List K) (t : K) (out : List (Option K)) :
    basisFunctions spanIndex degree U t out = (do
      validate (spanIndex ≥ 0)
      validate (degree ≥ 0 ∧ degree ≤ nurbsMaxDegree)
      validate (U.length > 0)
      validate (isValidKnotVector U)
      let first ← vget U 0
      let last ← vget U ((U.length : ℤ) - 1)
      validateRange t first last
      let out ← aset out 0 1
      let (out, _, _) ← forI 1 (degree + 1) (out, uninit K 8, uninit K 8) (basisOuter spanIndex U t)
      ok out) := rfl

/-- The "saved" value before round `r` of inner loop `j`. -/
def savedVal (U : ℕ → K) (s : ℕ) (t : K) (j r : ℕ) : K :=
  if r = 0 then 0 else (t - U (s - j + r)) * (Nspan U s (j - 1) (s - j + r) t / (U (s + r) - U (s - j + r)))

theorem basisInner_spec {U : ℕ → K} {s j : ℕ} {t : K} {out left right : List (Option K)}
    (hj : 1 ≤ j) (hjs : j ≤ s) (hlen : j < out.length)
    (hout : Holds out 0 j (fun r => Nspan U s (j - 1) (s - (j - 1) + r) t))
    (hl : Holds left 1 (j + 1) (fun i => t - U (s + 1 - i)))
    (hr : Holds right 1 (j + 1) (fun i => U (s + i) - t))
    (hden : ∀ r < j, U (s + r + 1) - U (s + 1 - j + r) ≠ 0) :
    ∃ out', forI 0 (j : ℤ) (out, (0 : K)) (basisInner left right j) = ok (out', savedVal U s t j j) ∧
      out'.length = out.length ∧ Holds out' 0 j (fun r => Nspan U s j (s - j + r) t) := by
  obtain ⟨st, hst, hinv⟩ := forI_invN (a := 0) (b := j) (s := (out, (0 : K))) (body := basisInner left right j)
    (fun r st => st.1.length = out.length ∧ st.2 = savedVal U s t j r ∧
      Holds st.1 0 r (fun r => Nspan U s j (s - j + r) t) ∧
      Holds st.1 r j (fun r => Nspan U s (j - 1) (s - (j - 1) + r) t))
    (by omega) ⟨rfl, by simp [savedVal], Holds.empty (le_refl _), hout⟩ (by
      rintro r ⟨o, sv⟩ h0 hrj ⟨hlen', hsv, hold, hnew⟩
      simp only at hlen' hsv hold hnew
      have g1 := hnew.aget (i := (r : ℤ)) rfl (le_refl r) hrj
      have g2 := hr.aget (i := (r : ℤ) + 1) (r := r + 1) (by push_cast; rfl) (by omega) (by omega)
      have g3 := hl.aget (i := (j : ℤ) - r) (r := j - r) (by omega) (by omega) (by omega)
      have hd := hden r hrj
      have e1 : s + 1 - (j - r) = s + 1 - j + r := by omega
      have e2 : s - (j - 1) + r = s + 1 - j + r := by omega
      have hdd : (U (s + (r + 1)) - t) + (t - U (s + 1 - (j - r))) ≠ 0 := by
        rw [e1]; rw [← add_assoc]; intro hc; apply hd; rw [← hc]; ring
      simp only [basisInner, g1, g2, g3, ok_bind, fdiv_ok hdd]
      rw [aset_of (k := r) rfl (by omega), ok_bind]
      refine ⟨_, rfl, by simp [hlen'], ?_, ?_, ?_⟩
      · simp only [savedVal]
        rw [if_neg (by omega)]
        have e3 : s - j + (r + 1) = s + 1 - j + r := by omega
        have e4 : U (s + (r + 1)) - t + (t - U (s + 1 - j + r)) = U (s + (r + 1)) - U (s + 1 - j + r) := by ring
        rw [e3, e1, e2, e4]
      · apply hold.snoc (by omega)
        rw [hsv]
        obtain ⟨q, rfl⟩ : ∃ q, j = q + 1 := ⟨j - 1, by omega⟩
        simp only [Nspan, savedVal]
        have a1 : s + 1 - (q + 1) + r = s - (q + 1) + r + 1 := by omega
        have a2 : s - (q + 1 - 1) + r = s - (q + 1) + r + 1 := by omega
        have a3 : s + (r + 1) = s - (q + 1) + r + q + 2 := by omega
        have a4 : s - (q + 1) + r + q + 1 = s + r := by omega
        rw [e1, a1, a2, a3, a4]
        have e4 : ∀ a b : K, a - t + (t - b) = a - b := by intros; ring
        rw [e4]
        have hq : q + 1 - 1 = q := by omega
        rw [hq]
        by_cases hr0 : r = 0
        · subst hr0
          simp only [if_true]
          rw [Nspan_zero U s q (s - (q + 1) + 0) t (by omega)]
          ring
        · rw [if_neg hr0]; ring
      · exact (hnew.mono (Nat.le_succ r) (le_refl _) (fun _ _ _ => rfl)).set_of_ne (Or.inl (by omega)))
  obtain ⟨o, sv⟩ := st
  simp only at hinv
  refine ⟨o, ?_, hinv.1, hinv.2.2.1⟩
  rw [← hinv.2.1]
  exact_mod_cast hst

theorem basisOuter_spec {U : List K} {s p : ℕ} {t : K} {out : List (Option K)}
    (hp : p ≤ 7) (hps : p ≤ s) (hlen : s + p < U.length) (holen : p < out.length)
    (h0 : out[0]? = some (some 1))
    (hU : isValidKnotVector U = true) (hs : nth U s < nth U (s + 1)) :
    ∃ out' l r, forI 1 ((p : ℤ) + 1) (out, uninit K 8, uninit K 8) (basisOuter s U t) = ok (out', l, r) ∧
      out'.length = out.length ∧ Holds out' 0 (p + 1) (fun r => Nspan (nth U) s p (s - p + r) t) := by
  have hmono := isValidKnotVector_nth.mp hU
  obtain ⟨st, hst, hinv⟩ := forI_invN (a := 1) (b := p + 1) (s := (out, uninit K 8, uninit K 8)) (body := basisOuter s U t)
    (fun j st => st.1.length = out.length ∧ st.2.1.length = 8 ∧ st.2.2.length = 8 ∧
      Holds st.1 0 j (fun r => Nspan (nth U) s (j - 1) (s - (j - 1) + r) t) ∧
      Holds st.2.1 1 j (fun i => t - nth U (s + 1 - i)) ∧
      Holds st.2.2 1 j (fun i => nth U (s + i) - t))
    (by omega) ⟨rfl, by simp, by simp, by
        intro r h1 h2
        have : r = 0 := by omega
        subst this
        simp [h0, Nspan], Holds.empty (le_refl _), Holds.empty (le_refl _)⟩ (by
      rintro j ⟨o, l, r⟩ hj1 hjp ⟨i1, i2, i3, i4, i5, i6⟩
      simp only at i1 i2 i3 i4 i5 i6
      have gl : vget U ((s : ℤ) + 1 - j) = ok (nth U (s + 1 - j)) := vget_nth (by omega) (by omega)
      have gr : vget U ((s : ℤ) + j) = ok (nth U (s + j)) := vget_nth (by push_cast; rfl) (by omega)
      have hl' := i5.snoc (x := t - nth U (s + 1 - j)) (by omega) rfl
      have hr' := i6.snoc (x := nth U (s + j) - t) (by omega) rfl
      obtain ⟨o', e1, e2, e3⟩ := basisInner_spec (U := nth U) (s := s) (j := j) (t := t) (out := o) (left := l.set j (some (t - nth U (s + 1 - j))))
        (right := r.set j (some (nth U (s + j) - t))) hj1 (by omega) (by omega) i4 hl' hr' (by
          intro r hr
          have b1 := hmono (s + 1) (s + r + 1) (by omega) (by omega)
          have b2 := hmono (s + 1 - j + r) s (by omega) (by omega)
          exact sub_ne_zero.mpr (ne_of_gt (lt_of_le_of_lt b2 (lt_of_lt_of_le hs b1))))
      simp only [basisOuter, gl, gr, ok_bind]
      rw [aset_of (k := j) rfl (by omega), ok_bind, aset_of (k := j) rfl (by omega), ok_bind, e1]
      simp only [ok_bind]
      rw [aset_of (k := j) rfl (by omega), ok_bind]
      refine ⟨_, rfl, by simp [e2, i1], by simp [i2], by simp [i3], ?_, hl', hr'⟩
      apply Holds.snoc
      · exact e3.mono (le_refl _) (le_refl _) (fun _ _ _ => rfl)
      · rw [e2]; omega
      · simp only [Nat.add_sub_cancel]
        obtain ⟨q, rfl⟩ : ∃ q, j = q + 1 := ⟨j - 1, by omega⟩
        simp only [savedVal, Nspan, Nat.add_sub_cancel]
        rw [if_neg (by omega)]
        have a1 : s - (q + 1) + (q + 1) = s := by omega
        rw [a1]
        rw [Nspan_zero (nth U) s q (s + 1) t (by omega)]
        have a2 : s + (q + 1) = s + q + 1 := by omega
        rw [a2]
        ring)
  obtain ⟨o, l, r⟩ := st
  refine ⟨o, l, r, ?_, hinv.1, ?_⟩
  · have : ((p : ℤ) + 1) = ((p + 1 : ℕ) : ℤ) := by push_cast; rfl
    rw [this]
    exact_mod_cast hst
  · simpa using hinv.2.2.2.1

/-- `basisFunctions` writes the Cox–de Boor values of the span to the first `p+1` cells. -/
theorem basisFunctions_span {U : List K} {s p : ℕ} {t : K} {out : List (Option K)}
    (hp : p ≤ 7) (hps : p ≤ s) (hlen : s + p < U.length) (hlen1 : s + 1 < U.length) (holen : p < out.length)
    (hU : isValidKnotVector U = true) (hs : nth U s < nth U (s + 1))
    (h0 : nth U 0 - doubleEps ≤ t) (h1 : t ≤ nth U (U.length - 1) + doubleEps) :
    ∃ out', basisFunctions s p U t out = ok out' ∧ out'.length = out.length ∧
      ∀ r ≤ p, aget out' (r : ℤ) = ok (Nspan (nth U) s p (s - p + r) t) := by
  rw [basisFunctions_unfold]
  have e0 : vget U 0 = ok (nth U 0) := vget_nth (by simp) (by omega)
  have e1 : vget U ((U.length : ℤ) - 1) = ok (nth U (U.length - 1)) := vget_nth (by omega) (by omega)
  have hv : validateRange t (nth U 0) (nth U (U.length - 1)) = ok () := validateRange_eq_ok_iff.mpr ⟨h0, h1⟩
  have hpos : U.length > 0 := by omega
  have hp' : (p : ℤ) ≤ nurbsMaxDegree := by unfold nurbsMaxDegree; omega
  simp only [hU, e0, e1, hv, ok_bind, ge_iff_le, Int.natCast_nonneg, hpos, hp', and_self, decide_true, validate_true]
  rw [aset_of (k := 0) (by simp) (by omega), ok_bind]
  obtain ⟨o, l, r, e, hl, hh⟩ := basisOuter_spec (U := U) (s := s) (p := p) (t := t) (out := out.set 0 (some 1)) hp hps hlen (by simpa using holen)
    (by rw [List.getElem?_set_self (by omega)]) hU hs
  rw [e]
  refine ⟨o, rfl, by simpa using hl, ?_⟩
  intro r hr
  exact hh.aget rfl (by omega) (by omega)

end LNLib
