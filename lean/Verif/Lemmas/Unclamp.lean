import Verif.Model.Clamp
import Verif.Lemmas.Polar
import Verif.Lemmas.CurveEval
import Verif.Core.Hoare
import Mathlib.Tactic.LinearCombination

/-!
# The two loops of `ToUnclampCurve`
-/
set_option linter.unusedSectionVars false

namespace LNLib
open Res Spec Finset

variable {K : Type} [Field K] [LinearOrder K] [IsStrictOrderedRing K]
variable {T : Type} [AddCommGroup T] [Module K T]

section
variable {U : ℕ → K} {p s : ℕ} {P : ℕ → T}

theorem E_rightKnots (h : Piece U p s) : ∀ (μ : ℕ) (xs : List K) (j : ℕ), s ≤ j + p → j + xs.length + μ ≤ s →
    E U p P (kn U (j + p + 1) μ ++ xs) j = E U p P xs (j + μ) := by
  intro μ
  induction μ with
  | zero => intro xs j _ _; rfl
  | succ μ ih =>
    intro xs j h1 h2
    rw [kn, List.cons_append, E_right h h1 (by simp; omega)]
    have e : j + p + 1 + 1 = (j + 1) + p + 1 := by omega
    rw [e, ih xs (j + 1) (by omega) (by omega)]
    congr 1; omega

theorem E_leftKnots (h : Piece U p s) : ∀ (μ : ℕ) (xs : List K) (j : ℕ), s ≤ j + p → j + xs.length + μ ≤ s →
    E U p P (kn U (j + xs.length + 1) μ ++ xs) j = E U p P xs j := by
  intro μ
  induction μ with
  | zero => intro xs j _ _; rfl
  | succ μ ih =>
    intro xs j h1 h2
    have hp : (kn U (j + xs.length + 1) (μ + 1) ++ xs).Perm
        (U (j + (kn U (j + xs.length + 1) μ ++ xs).length + 1) :: (kn U (j + xs.length + 1) μ ++ xs)) := by
      have e : j + (kn U (j + xs.length + 1) μ ++ xs).length + 1 = j + xs.length + 1 + μ := by simp; omega
      rw [e, kn_snoc, List.append_assoc]
      exact List.perm_middle
    rw [E_perm h hp h1 (by simp; omega), E_left h h1 (by simp; omega), ih xs j h1 (by omega)]

/-- Two pieces have the same polar form value as soon as the knots between them are among the
arguments. -/
theorem pol_span {μ s' : ℕ} (h : Piece U p s) (h' : Piece U p s') (hs : s' = s + μ) {m : Multiset K} (hm : m.card + μ = p) :
    pol U p P s (kms U (s + 1) μ + m) = pol U p P s' (kms U (s + 1) μ + m) := by
  have e : kms U (s + 1) μ + m = ((kn U (s + 1) μ ++ m.toList : List K) : Multiset K) := by
    rw [← Multiset.coe_add, Multiset.coe_toList]; rfl
  have hle := h.le
  rw [e, pol_coe h (by simp; omega), pol_coe h' (by simp; omega)]
  have e1 : s + 1 = (s - p) + p + 1 := by omega
  have e2 : s + 1 = (s' - p) + m.toList.length + 1 := by simp; omega
  have r1 : E U p P (kn U (s + 1) μ ++ m.toList) (s - p) = E U p P m.toList (s - p + μ) := by
    rw [e1]; exact E_rightKnots h μ _ _ (by omega) (by simp; omega)
  have r2 : E U p P (kn U (s + 1) μ ++ m.toList) (s' - p) = E U p P m.toList (s' - p) := by
    rw [e2]; exact E_leftKnots h' μ _ _ (by omega) (by simp; omega)
  rw [r1, r2]
  congr 1; omega

end

section
variable {p : ℕ} {f : Multiset K → T}

/-- the affine step of the loop at the start -/
theorem unclamp_start_step (hf : Polar p f) {a b d : K} {m : Multiset K} (hm : m.card + 1 = p) (hbd : b ≠ d) (had : a ≠ d) :
    vdiv (f (a ::ₘ m) - ((a - b) / (d - b)) • f (d ::ₘ m)) (1 - (a - b) / (d - b)) = ok (f (b ::ₘ m)) := by
  have h1 : d - b ≠ 0 := sub_ne_zero.mpr hbd.symm
  have h2 : 1 - (a - b) / (d - b) ≠ 0 := by
    rw [sub_ne_zero]
    intro e
    rw [eq_div_iff h1] at e
    apply had; linear_combination -e
  rw [vdiv_ok h2, hf.mix hm hbd.symm (z := a), add_sub_cancel_left, smul_smul, inv_mul_cancel₀ h2, one_smul]

/-- the affine step of the loop at the end -/
theorem unclamp_end_step (hf : Polar p f) {a b d : K} {m : Multiset K} (hm : m.card + 1 = p) (hbd : b ≠ d) (hab : a ≠ b) :
    vdiv (f (a ::ₘ m) - (1 - (a - b) / (d - b)) • f (b ::ₘ m)) ((a - b) / (d - b)) = ok (f (d ::ₘ m)) := by
  have h1 : d - b ≠ 0 := sub_ne_zero.mpr hbd.symm
  have h2 : (a - b) / (d - b) ≠ 0 := div_ne_zero (sub_ne_zero.mpr hab) h1
  rw [vdiv_ok h2, hf.mix hm hbd.symm (z := a), add_sub_cancel_right, smul_smul, inv_mul_cancel₀ h2, one_smul]

/-- arguments of the control point `x` after `i` stages at the start -/
def startArgs (u : ℕ → K) (p i x : ℕ) : Multiset K :=
  Multiset.replicate (p - i) (u p) + kms u (p - i + x) (i - x) + kms u (p + 1) x

def startRest (u : ℕ → K) (p i x : ℕ) : Multiset K :=
  Multiset.replicate (p - 1 - i) (u p) + kms u (p - i + x) (i - x) + kms u (p + 1) x

theorem startRest_card (u : ℕ → K) {p i x : ℕ} (hx : x ≤ i) (hi : i < p) : (startRest u p i x).card + 1 = p := by
  unfold startRest; simp; omega

theorem startArgs_old (u : ℕ → K) {p i x : ℕ} (hi : i < p) : startArgs u p i x = u p ::ₘ startRest u p i x := by
  unfold startArgs startRest
  have e : p - i = (p - 1 - i) + 1 := by omega
  conv_lhs => arg 1; arg 1; rw [e, Multiset.replicate_succ]
  rw [Multiset.cons_add, Multiset.cons_add]

theorem startArgs_next (u : ℕ → K) {p i x : ℕ} (hx : x ≤ i) (hi : i < p) :
    startArgs u p (i + 1) (x + 1) = u (p + x + 1) ::ₘ startRest u p i x := by
  unfold startArgs startRest
  have e1 : p - (i + 1) = p - 1 - i := by omega
  have e2 : p - (i + 1) + (x + 1) = p - i + x := by omega
  have e3 : i + 1 - (x + 1) = i - x := by omega
  have e4 : p + x + 1 = p + 1 + x := by omega
  rw [e2, e3, kms_succ, Multiset.add_cons, e1, e4]

theorem startArgs_new (u : ℕ → K) {p i x : ℕ} (hx : x ≤ i) (hi : i < p) :
    startArgs u p (i + 1) x = u (p - 1 - i + x) ::ₘ startRest u p i x := by
  unfold startArgs startRest
  have e1 : p - (i + 1) = p - 1 - i := by omega
  have e3 : i + 1 - x = i - x + 1 := by omega
  have e4 : p - 1 - i + x + 1 = p - i + x := by omega
  rw [e1, e3, kms_cons, e4, Multiset.add_cons, Multiset.cons_add]

/-- the inner loop at the start -/
theorem unclampStartInner_run (hf : Polar p f) {U : List K} {P : List T} {i : ℕ} (hi : i + 1 < p)
    (hP : i + 1 < P.length) (hU : 2 * p ≤ U.length)
    (hle : ∀ x, x < p → p - 1 - i ≤ x → nth U x ≤ nth U p) (hlt : ∀ x, p < x → x < U.length → nth U p < nth U x)
    (h1 : ∀ x, x ≤ i → nth P x = f (startArgs (nth U) p i x)) (h2 : nth P (i + 1) = f (startArgs (nth U) p (i + 1) (i + 1))) :
    Runs (unclampStartInner (p : ℤ) (i : ℤ) U P) (fun r => r.1.length = P.length ∧
      (∀ x, x ≤ i + 1 → nth r.1 x = f (startArgs (nth U) p (i + 1) x)) ∧ (∀ x, i < x → nth r.1 x = nth P x)) := by
  unfold unclampStartInner
  refine (Runs.forDown (fun j (st : List T × ℤ) => st.2 = (p : ℤ) - 1 - i + j ∧ st.1.length = P.length ∧
      (∀ x : ℕ, (x : ℤ) ≤ j → nth st.1 x = nth P x) ∧
      (∀ x : ℕ, j < (x : ℤ) → x ≤ i + 1 → nth st.1 x = f (startArgs (nth U) p (i + 1) x)) ∧
      (∀ x : ℕ, i < x → nth st.1 x = nth P x)) (by omega) ?_ ?_).mono ?_
  · refine ⟨by dsimp only; omega, rfl, fun _ _ => rfl, fun x hx hx' => ?_, fun _ _ => rfl⟩
    have : x = i + 1 := by omega
    subst this; exact h2
  · rintro j' ⟨Q, k⟩ hj0 hji ⟨g1, g2, g3, g4, g5⟩
    dsimp only at g1 g2 g3 g4 g5
    obtain ⟨j, rfl⟩ := Int.eq_ofNat_of_zero_le hj0
    have hj : j ≤ i := by omega
    dsimp only
    have ek : k = ((p - 1 - i + j : ℕ) : ℤ) := by omega
    rw [vget_nth (k := p) rfl (by omega), ok_bind, vget_nth (k := p - 1 - i + j) ek (by omega), ok_bind,
      vget_nth (k := p + j + 1) (by omega) (by omega), ok_bind]
    have l1 : nth U p < nth U (p + j + 1) := hlt _ (by omega) (by omega)
    have l2 : nth U (p - 1 - i + j) ≤ nth U p := by
      rcases Nat.lt_or_ge (p - 1 - i + j) p with h | h
      · exact hle _ h (by omega)
      · have : p - 1 - i + j = p := by omega
        rw [this]
    have l3 : nth U (p - 1 - i + j) < nth U (p + j + 1) := lt_of_le_of_lt l2 l1
    rw [fdiv_ok (sub_ne_zero.mpr l3.ne'), ok_bind, vget_nth (k := j) rfl (by omega), ok_bind,
      vget_nth (k := j + 1) (by omega) (by omega), ok_bind]
    rw [g3 j (le_refl _), g4 (j + 1) (by omega) (by omega), h1 j hj, startArgs_old _ (by omega), startArgs_next _ hj (by omega),
      unclamp_start_step hf (startRest_card _ hj (by omega)) l3.ne l1.ne, ok_bind, vset_of (k := j) rfl (by omega), ok_bind]
    refine Runs.ok ⟨by dsimp only; omega, by simpa using g2, ?_, ?_, ?_⟩
    · intro x hx
      dsimp only
      rw [nth_set (by omega), if_neg (by omega)]
      exact g3 x (by omega)
    · intro x hx hx'
      dsimp only
      rw [nth_set (by omega)]
      split
      · rename_i e; subst e; rw [startArgs_new _ hj (by omega)]
      · exact g4 x (by omega) hx'
    · intro x hx
      dsimp only
      rw [nth_set (by omega), if_neg (by omega)]
      exact g5 x hx
  · rintro ⟨Q, k⟩ ⟨_, g2, _, g4, g5⟩
    exact ⟨g2, fun x hx => g4 x (by omega) hx, g5⟩

/-- arguments of the control point `n - x` after `i` stages at the end -/
def endArgs (w : ℕ → K) (p n i x : ℕ) : Multiset K :=
  kms w (n - x + 1) x + Multiset.replicate (p - i) (w (n + 1)) + kms w (n + 2) (i - x)

def endRest (w : ℕ → K) (p n i x : ℕ) : Multiset K :=
  kms w (n - x + 1) x + Multiset.replicate (p - 1 - i) (w (n + 1)) + kms w (n + 2) (i - x)

theorem endRest_card (w : ℕ → K) {p n i x : ℕ} (hx : x ≤ i) (hi : i < p) : (endRest w p n i x).card + 1 = p := by
  unfold endRest; simp; omega

theorem endArgs_old (w : ℕ → K) {p n i x : ℕ} (hi : i < p) : endArgs w p n i x = w (n + 1) ::ₘ endRest w p n i x := by
  unfold endArgs endRest
  have e : p - i = (p - 1 - i) + 1 := by omega
  rw [e, Multiset.replicate_succ, Multiset.add_cons, Multiset.cons_add]

theorem endArgs_next (w : ℕ → K) {p n i x : ℕ} (hx : x ≤ i) (hi : i < p) (hn : x < n) :
    endArgs w p n (i + 1) (x + 1) = w (n - x) ::ₘ endRest w p n i x := by
  unfold endArgs endRest
  have e1 : p - (i + 1) = p - 1 - i := by omega
  have e2 : n - (x + 1) + 1 = n - x := by omega
  have e3 : i + 1 - (x + 1) = i - x := by omega
  rw [e1, e2, e3, kms_cons, Multiset.cons_add, Multiset.cons_add]

theorem endArgs_new (w : ℕ → K) {p n i x : ℕ} (hx : x ≤ i) (hi : i < p) :
    endArgs w p n (i + 1) x = w (n + 2 + (i - x)) ::ₘ endRest w p n i x := by
  unfold endArgs endRest
  have e1 : p - (i + 1) = p - 1 - i := by omega
  have e3 : i + 1 - x = i - x + 1 := by omega
  rw [e1, e3, kms_succ, Multiset.add_cons]

/-- the inner loop at the end -/
theorem unclampEndInner_run (hf : Polar p f) {U : List K} {P : List T} {n i : ℕ} (hi : i + 1 < p) (hpn : p ≤ n)
    (hP : P.length = n + 1) (hU : U.length = n + p + 2)
    (hlt : ∀ x, x ≤ n → nth U x < nth U (n + 1)) (hle : ∀ x, n + 1 ≤ x → x ≤ n + i + 2 → nth U (n + 1) ≤ nth U x)
    (h1 : ∀ x, x ≤ i → nth P (n - x) = f (endArgs (nth U) p n i x)) (h2 : nth P (n - (i + 1)) = f (endArgs (nth U) p n (i + 1) (i + 1))) :
    Runs (unclampEndInner (n : ℤ) (i : ℤ) U P) (fun r => r.length = P.length ∧
      (∀ x, x ≤ i + 1 → nth r (n - x) = f (endArgs (nth U) p n (i + 1) x)) ∧ (∀ y, y + i < n → nth r y = nth P y)) := by
  unfold unclampEndInner
  refine (Runs.forDown (fun j (r : List T) => r.length = P.length ∧
      (∀ x : ℕ, (x : ℤ) ≤ j → nth r (n - x) = nth P (n - x)) ∧
      (∀ x : ℕ, j < (x : ℤ) → x ≤ i + 1 → nth r (n - x) = f (endArgs (nth U) p n (i + 1) x)) ∧
      (∀ y : ℕ, y + i < n → nth r y = nth P y)) (by omega) ?_ ?_).mono ?_
  · refine ⟨rfl, fun _ _ => rfl, fun x hx hx' => ?_, fun _ _ => rfl⟩
    have : x = i + 1 := by omega
    subst this; exact h2
  · rintro j' Q hj0 hji ⟨g2, g3, g4, g5⟩
    obtain ⟨j, rfl⟩ := Int.eq_ofNat_of_zero_le hj0
    have hj : j ≤ i := by omega
    rw [vget_nth (k := n + 1) (by omega) (by omega), ok_bind, vget_nth (k := n - j) (by omega) (by omega), ok_bind,
      vget_nth (k := n + 2 + (i - j)) (by omega) (by omega), ok_bind]
    have l1 : nth U (n - j) < nth U (n + 1) := hlt _ (by omega)
    have l2 : nth U (n + 1) ≤ nth U (n + 2 + (i - j)) := hle _ (by omega) (by omega)
    have l3 : nth U (n - j) < nth U (n + 2 + (i - j)) := lt_of_lt_of_le l1 l2
    rw [fdiv_ok (sub_ne_zero.mpr l3.ne'), ok_bind, vget_nth (k := n - j) (by omega) (by omega), ok_bind,
      vget_nth (k := n - (j + 1)) (by omega) (by omega), ok_bind]
    rw [g3 j (le_refl _), g4 (j + 1) (by omega) (by omega), h1 j hj, endArgs_old _ (by omega), endArgs_next _ hj (by omega) (by omega),
      unclamp_end_step hf (endRest_card _ hj (by omega)) l3.ne l1.ne', ok_bind, vset_of (k := n - j) (by omega) (by omega)]
    refine Runs.ok ⟨by simpa using g2, ?_, ?_, ?_⟩
    · intro x hx
      rw [nth_set (by omega), if_neg (by omega)]
      exact g3 x (by omega)
    · intro x hx hx'
      rw [nth_set (by omega)]
      split
      · have e : x = j := by omega
        subst e; rw [endArgs_new _ hj (by omega)]
      · exact g4 x (by omega) hx'
    · intro x hx
      rw [nth_set (by omega), if_neg (by omega)]
      exact g5 x hx
  · rintro Q ⟨g2, _, g4, g5⟩
    exact ⟨g2, fun x hx => g4 x (by omega) hx, g5⟩

/-- the values reached by `i` stages of the loop at the start -/
structure StartInv (U0 : List K) (P0 : List T) (f : Multiset K → T) (p n i : ℕ) (U : List K) (P : List T) : Prop where
  lenU : U.length = n + p + 2
  lenP : P.length = n + 1
  keep : ∀ x, p ≤ x → nth U x = nth U0 x
  zero : nth U 0 = nth U0 0
  space : ∀ t, t < i → nth U (p - t) - nth U (p - t - 1) = nth U (n - t + 1) - nth U (n - t)
  mono : ∀ x y, p - i ≤ x → x ≤ y → y ≤ n + p + 1 → nth U x ≤ nth U y
  new : ∀ x, x ≤ i → nth P x = f (startArgs (nth U) p i x)
  rest : ∀ x, i ≤ x → nth P x = nth P0 x

theorem startArgs_congr {u v : ℕ → K} {p i x : ℕ} (hx : x ≤ i) (hi : i ≤ p) (h : ∀ y, p - i ≤ y → u y = v y) : startArgs u p i x = startArgs v p i x := by
  unfold startArgs
  rw [h p (by omega), kms_congr (V := v) (b := p - i + x) (fun y _ => h _ (by omega)),
    kms_congr (U := u) (V := v) (a := p + 1) (b := p + 1) (fun y _ => h _ (by omega))]

/-- the loop at the start -/
theorem unclampStart_run {U0 : List K} {P0 : List T} {p n : ℕ} (hp : 0 < p) (hpn : p ≤ n) (hU : U0.length = n + p + 2)
    (hP : P0.length = n + 1) (hm : MonoTo (nth U0) (n + p + 1)) (hlt : nth U0 p < nth U0 (p + 1)) (hc : nth U0 0 = nth U0 p) :
    Runs (unclampStart (p : ℤ) (n : ℤ) U0 P0) (fun r => StartInv U0 P0 (pol (nth U0) p (nth P0) p) p n (p - 1) r.1 r.2) := by
  have hpc : Piece (nth U0) p p := ⟨le_refl _, fun i j hij hj => hm i j hij (by omega), hlt⟩
  have hconst : ∀ x, x ≤ p → nth U0 x = nth U0 p := fun x hx =>
    le_antisymm (hm _ _ hx (by omega)) (by rw [← hc]; exact hm _ _ (by omega) (by omega))
  have hP0 : ∀ x, x ≤ p → nth P0 x = pol (nth U0) p (nth P0) p (startArgs (nth U0) p x x) := by
    intro x hx
    rw [← pol_kms (P := nth P0) hpc (j := x) (by omega) hx]
    congr 1
    have e : p = (p - x) + x := by omega
    conv_lhs => arg 3; rw [e]
    rw [kms_add, kms_const (x := nth U0 p) (fun i hi => hconst _ (by omega))]
    unfold startArgs
    have e2 : x + 1 + (p - x) = p + 1 := by omega
    simp [e2]
  unfold unclampStart
  refine Runs.forN (a := 0) (b := (p : ℤ) - 1) (m := 0) (n := p - 1) (fun i (st : List K × List T) => StartInv U0 P0 (pol (nth U0) p (nth P0) p) p n i st.1 st.2) rfl (by omega) (by omega) ?_ ?_
  · refine ⟨hU, hP, fun _ _ => rfl, rfl, fun t ht => absurd ht (by omega), fun x y _ h1 h2 => hm x y h1 h2, ?_, fun _ _ => rfl⟩
    intro x hx
    have : x = 0 := by omega
    subst this
    exact hP0 0 (by omega)
  · rintro i ⟨U, P⟩ _ hi h
    dsimp only at h ⊢
    have hlU := h.lenU
    have hlP := h.lenP
    rw [vget_nth (k := p - i) (by omega) (by omega), ok_bind, vget_nth (k := n - i + 1) (by omega) (by omega), ok_bind,
      vget_nth (k := n - i) (by omega) (by omega), ok_bind, vset_of (k := p - i - 1) (by omega) (by omega), ok_bind]
    obtain ⟨V, hV⟩ : ∃ V, U.set (p - i - 1) (nth U (p - i) - (nth U (n - i + 1) - nth U (n - i))) = V := ⟨_, rfl⟩
    rw [hV]
    have hVl : V.length = n + p + 2 := by rw [← hV]; simpa using hlU
    have hVn : ∀ x, nth V x = if x = p - i - 1 then nth U (p - i) - (nth U (n - i + 1) - nth U (n - i)) else nth U x := by
      intro x; rw [← hV, nth_set (by omega)]
    have hVk : ∀ x, x ≠ p - i - 1 → nth V x = nth U x := fun x hx => by rw [hVn, if_neg hx]
    have hV1 : nth V (p - i - 1) = nth V (p - i) - (nth V (n - i + 1) - nth V (n - i)) := by
      rw [hVn, if_pos rfl, hVk _ (by omega), hVk _ (by omega), hVk _ (by omega)]
    have hmono : ∀ x y, p - i - 1 ≤ x → x ≤ y → y ≤ n + p + 1 → nth V x ≤ nth V y := by
      intro x y h1 h2 h3
      rcases Nat.eq_or_lt_of_le h1 with e | e
      · subst e
        rcases Nat.eq_or_lt_of_le h2 with e' | e'
        · rw [e']
        · have a1 := h.mono (p - i) y (le_refl _) (by omega) h3
          have a2 := h.mono (n - i) (n - i + 1) (by omega) (by omega) (by omega)
          rw [hVn (p - i - 1), if_pos rfl, hVk y (by omega)]
          linarith
      · rw [hVk _ (by omega), hVk _ (by omega)]
        exact h.mono x y (by omega) h2 h3
    refine Runs.bind (unclampStartInner_run (pol_polar (P := nth P0) hpc) (i := i) (by omega) (by omega) (by omega) ?_ ?_ ?_ ?_) ?_
    · intro x h1 h2
      exact hmono _ _ (by omega) (by omega) (by omega)
    · intro x h1 h2
      have : nth V p < nth V (p + 1) := by
        rw [hVk _ (by omega), hVk _ (by omega), h.keep _ (by omega), h.keep _ (by omega)]; exact hlt
      exact lt_of_lt_of_le this (hmono _ _ (by omega) (by omega) (by omega))
    · intro x hx
      rw [h.new x hx]
      congr 1
      exact startArgs_congr hx (by omega) (fun y hy => (hVk y (by omega)).symm)
    · rw [h.rest _ (by omega), hP0 _ (by omega)]
      congr 1
      unfold startArgs
      rw [Nat.sub_self, kms_zero, kms_zero, hVk p (by omega), h.keep p (le_refl _)]
      congr 1
      exact kms_congr (fun y _ => by rw [hVk _ (by omega), h.keep _ (by omega)])
    · rintro ⟨Q, k⟩ ⟨g1, g2, g3⟩
      dsimp only at g1 g2 g3
      refine Runs.ok ⟨hVl, by dsimp only; omega, ?_, ?_, ?_, ?_, g2, ?_⟩
      · intro x hx
        dsimp only
        rw [hVk x (by omega), h.keep x hx]
      · dsimp only
        rw [hVk 0 (by omega), h.zero]
      · intro t ht
        dsimp only
        rcases Nat.eq_or_lt_of_le (Nat.le_of_lt_succ ht) with e | e
        · subst e; rw [hV1]; ring
        · rw [hVk _ (by omega), hVk _ (by omega), hVk _ (by omega), hVk _ (by omega)]
          exact h.space t e
      · intro x y h1 h2 h3
        exact hmono x y (by omega) h2 h3
      · intro x hx
        dsimp only
        rw [g3 x (by omega), h.rest x (by omega)]

/-- the values reached by `i` stages of the loop at the end -/
structure EndInv (V : List K) (Q : List T) (g : Multiset K → T) (p n i : ℕ) (W : List K) (R : List T) : Prop where
  lenW : W.length = n + p + 2
  lenR : R.length = n + 1
  keep : ∀ x, x ≤ n + 1 → nth W x = nth V x
  space : ∀ t, t < i → nth W (n + t + 2) - nth W (n + t + 1) = nth W (p + t + 1) - nth W (p + t)
  mono : ∀ x y, x ≤ y → y ≤ n + 1 + i → nth W x ≤ nth W y
  new : ∀ x, x ≤ i → nth R (n - x) = g (endArgs (nth W) p n i x)
  rest : ∀ y, y + i ≤ n → nth R y = nth Q y

theorem endArgs_congr {u v : ℕ → K} {p n i x : ℕ} (hx : x ≤ i) (hn : x ≤ n) (h : ∀ y, y ≤ n + 1 + i → u y = v y) :
    endArgs u p n i x = endArgs v p n i x := by
  unfold endArgs
  rw [h (n + 1) (by omega), kms_congr (V := v) (b := n - x + 1) (fun y _ => h _ (by omega)),
    kms_congr (U := u) (V := v) (a := n + 2) (b := n + 2) (fun y _ => h _ (by omega))]

/-- the loop at the end -/
theorem unclampEnd_run {V : List K} {Q : List T} {p n : ℕ} (hp : 0 < p) (hpn : p ≤ n) (hV : V.length = n + p + 2)
    (hQ : Q.length = n + 1) (hm : MonoTo (nth V) (n + p + 1)) (hlt : nth V n < nth V (n + 1))
    (hc : nth V (n + p + 1) = nth V (n + 1)) :
    Runs (unclampEnd (p : ℤ) (n : ℤ) V Q) (fun r => EndInv V Q (pol (nth V) p (nth Q) n) p n (p - 1) r.1 r.2) := by
  have hpc : Piece (nth V) p n := ⟨hpn, fun i j hij hj => hm i j hij (by omega), hlt⟩
  have hconst : ∀ x, n + 1 ≤ x → x ≤ n + p + 1 → nth V x = nth V (n + 1) := fun x hx hx' =>
    le_antisymm (by rw [← hc]; exact hm _ _ hx' (by omega)) (hm _ _ hx (by omega))
  have hQ0 : ∀ x, x ≤ p → nth Q (n - x) = pol (nth V) p (nth Q) n (endArgs (nth V) p n x x) := by
    intro x hx
    rw [← pol_kms (P := nth Q) hpc (j := n - x) (by omega) (by omega)]
    congr 1
    have e : p = x + (p - x) := by omega
    conv_lhs => arg 3; rw [e]
    rw [kms_add, kms_const (x := nth V (n + 1)) (k := p - x) (fun i hi => hconst _ (by omega) (by omega))]
    unfold endArgs
    simp
  unfold unclampEnd
  refine Runs.forN (a := 0) (b := (p : ℤ) - 1) (m := 0) (n := p - 1) (fun i (st : List K × List T) => EndInv V Q (pol (nth V) p (nth Q) n) p n i st.1 st.2) rfl (by omega) (by omega) ?_ ?_
  · refine ⟨hV, hQ, fun _ _ => rfl, fun t ht => absurd ht (by omega), fun x y h1 h2 => hm x y h1 (by omega), ?_, fun _ _ => rfl⟩
    intro x hx
    have : x = 0 := by omega
    subst this
    exact hQ0 0 (by omega)
  · rintro i ⟨U, P⟩ _ hi h
    dsimp only at h ⊢
    have hlU := h.lenW
    have hlP := h.lenR
    rw [vget_nth (k := n + i + 1) (by omega) (by omega), ok_bind, vget_nth (k := p + i + 1) (by omega) (by omega), ok_bind,
      vget_nth (k := p + i) (by omega) (by omega), ok_bind, vset_of (k := n + i + 2) (by omega) (by omega), ok_bind]
    obtain ⟨W, hW⟩ : ∃ W, U.set (n + i + 2) (nth U (n + i + 1) + (nth U (p + i + 1) - nth U (p + i))) = W := ⟨_, rfl⟩
    rw [hW]
    have hWl : W.length = n + p + 2 := by rw [← hW]; simpa using hlU
    have hWn : ∀ x, nth W x = if x = n + i + 2 then nth U (n + i + 1) + (nth U (p + i + 1) - nth U (p + i)) else nth U x := by
      intro x; rw [← hW, nth_set (by omega)]
    have hWk : ∀ x, x ≠ n + i + 2 → nth W x = nth U x := fun x hx => by rw [hWn, if_neg hx]
    have hW1 : nth W (n + i + 2) = nth W (n + i + 1) + (nth W (p + i + 1) - nth W (p + i)) := by
      rw [hWn, if_pos rfl, hWk _ (by omega), hWk _ (by omega), hWk _ (by omega)]
    have hmono : ∀ x y, x ≤ y → y ≤ n + 1 + (i + 1) → nth W x ≤ nth W y := by
      intro x y h2 h3
      rcases Nat.lt_or_ge y (n + i + 2) with e | e
      · rw [hWk _ (by omega), hWk _ (by omega)]
        exact h.mono x y h2 (by omega)
      · have ey : y = n + i + 2 := by omega
        subst ey
        rcases Nat.eq_or_lt_of_le h2 with e' | e'
        · rw [e']
        · have a1 := h.mono x (n + i + 1) (by omega) (by omega)
          have a2 := h.mono (p + i) (p + i + 1) (by omega) (by omega)
          rw [hWn (n + i + 2), if_pos rfl, hWk x (by omega)]
          linarith
    refine Runs.bind (unclampEndInner_run (pol_polar (P := nth Q) hpc) (i := i) (n := n) (by omega) hpn hlP hWl ?_ ?_ ?_ ?_) ?_
    · intro x h1
      have : nth W n < nth W (n + 1) := by
        rw [hWk _ (by omega), hWk _ (by omega), h.keep _ (by omega), h.keep _ (by omega)]; exact hlt
      exact lt_of_le_of_lt (hmono _ _ h1 (by omega)) this
    · intro x h1 h2
      exact hmono _ _ h1 (by omega)
    · intro x hx
      rw [h.new x hx]
      congr 1
      exact endArgs_congr hx (by omega) (fun y hy => (hWk y (by omega)).symm)
    · rw [h.rest _ (by omega), hQ0 _ (by omega)]
      congr 1
      unfold endArgs
      rw [Nat.sub_self, kms_zero, kms_zero, hWk (n + 1) (by omega), h.keep (n + 1) (le_refl _)]
      congr 2
      exact kms_congr (fun y _ => by rw [hWk _ (by omega), h.keep _ (by omega)])
    · rintro R ⟨g1, g2, g3⟩
      refine Runs.ok ⟨hWl, by dsimp only; omega, ?_, ?_, ?_, g2, ?_⟩
      · intro x hx
        dsimp only
        rw [hWk x (by omega), h.keep x hx]
      · intro t ht
        dsimp only
        rcases Nat.eq_or_lt_of_le (Nat.le_of_lt_succ ht) with e | e
        · subst e; rw [hW1]; ring
        · rw [hWk _ (by omega), hWk _ (by omega), hWk _ (by omega), hWk _ (by omega)]
          exact h.space t e
      · intro x y h1 h2
        exact hmono x y h1 h2
      · intro y hy
        dsimp only
        rw [g3 y (by omega), h.rest y (by omega)]

end
end LNLib
