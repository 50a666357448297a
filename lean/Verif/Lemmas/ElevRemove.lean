import Verif.Lemmas.ElevKnots
import Verif.Lemmas.ElevatePiece

/-! # The knot removal inside degree elevation -/
set_option linter.unusedSectionVars false

namespace LNLib
open Res Spec Finset Multiset

variable {K : Type} [Field K] [LinearOrder K] [IsStrictOrderedRing K]
variable {T : Type} [AddCommGroup T] [Module K T]

/-- the control points left of the junction and the points of the new piece while knots are being
removed; `ε d` counts the arguments replaced so far at distance `d` from the junction -/
structure RS (f : Multiset K → T) (W : ℕ → K) (k0 cind ph ρ l : ℕ) (ua ub : K) (Q0 : List T) (ε : ℕ → ℕ) (Q eb : List T) : Prop where
  lenQ : Q.length = Q0.length
  lenE : eb.length = ph + 1
  frame : ∀ i, i + ρ < k0 ∨ cind ≤ i → nth Q i = nth Q0 i
  left : ∀ d, d ≤ ρ → k0 ≤ cind + d → nth Q (k0 - 1 - d) = f (kms W (k0 - d) d + replicate (ph - d - ε d) ua + replicate (ε d) ub)
  right : ∀ k, l ≤ k → k ≤ ph → nth eb k = f (kms W (k0 - ε k) (ε k) + replicate (ph - k - ε k) ua + replicate k ub)

variable {f : Multiset K → T} {W : ℕ → K} {k0 cind ph ρ l : ℕ} {ua ub : K} {Q0 : List T}

theorem RS.congr {ε ε' : ℕ → ℕ} {Q eb : List T} (h : RS f W k0 cind ph ρ l ua ub Q0 ε Q eb) (he : ∀ d, d ≤ ph → ε d = ε' d) (hρ : ρ ≤ ph) :
    RS f W k0 cind ph ρ l ua ub Q0 ε' Q eb :=
  ⟨h.lenQ, h.lenE, h.frame, fun d h1 h2 => by rw [← he d (by omega)]; exact h.left d h1 h2,
    fun k h1 h2 => by rw [← he k h2]; exact h.right k h1 h2⟩

section step
variable {V : List K} {ε : ℕ → ℕ} {Q eb : List T} {d tr : ℕ}

theorem leftUpd_run (hf : Polar ph f) (hρ : ρ < ph) (hk : ρ < k0) (hc : cind ≤ k0) (hcQ : cind ≤ Q0.length) (hV : k0 ≤ V.length)
    (hW : ∀ j < k0, nth V j = W j) (hWlt : ∀ j < k0, W j < ua)
    (h : RS f W k0 cind ph ρ l ua ub Q0 ε Q eb) (hd : 0 < d) (hdt : d ≤ tr) (htr : tr < ρ) (e1 : ε d = tr - d) (e2 : ε (d + 1) = tr - d) :
    Runs (if ((k0 : ℤ) - 1 - d) < (cind : ℤ) then do
          let v ← vget V ((k0 : ℤ) - 1 - d)
          let alf ← fdiv (ub - v) (ua - v)
          let x ← vget Q ((k0 : ℤ) - 1 - d)
          let y ← vget Q ((k0 : ℤ) - 1 - d - 1)
          vset Q ((k0 : ℤ) - 1 - d) (alf • x + (1 - alf) • y)
        else ok Q : Res (List T)) (fun Q' => Q'.length = Q0.length ∧ (∀ i, i + ρ < k0 ∨ cind ≤ i → nth Q' i = nth Q0 i) ∧
      ∀ d', d' ≤ ρ → k0 ≤ cind + d' → nth Q' (k0 - 1 - d') =
        f (kms W (k0 - d') d' + replicate (ph - d' - Function.update ε d (tr - d + 1) d') ua + replicate (Function.update ε d (tr - d + 1) d') ub)) := by
  have hlen := h.lenQ
  by_cases hlt : k0 ≤ cind + d
  · rw [if_pos (by omega), vget_nth (k := k0 - 1 - d) (by omega) (by omega), ok_bind, hW _ (by omega)]
    have hne : ua - W (k0 - 1 - d) ≠ 0 := by have := hWlt (k0 - 1 - d) (by omega); exact (sub_pos.mpr this).ne'
    rw [fdiv_ok hne, ok_bind, vget_nth (k := k0 - 1 - d) (by omega) (by omega), ok_bind,
      vget_nth (k := k0 - 1 - (d + 1)) (by omega) (by omega), ok_bind, vset_of (k := k0 - 1 - d) (by omega) (by omega)]
    refine Runs.ok ⟨by simpa using hlen, ?_, ?_⟩
    · intro i hi
      rw [nth_set (by omega), if_neg (by omega), h.frame i hi]
    · intro d' h1 h2
      rw [nth_set (by omega)]
      by_cases hdd : d' = d
      · subst hdd
        rw [if_pos rfl, Function.update_self, h.left d' h1 h2, h.left (d' + 1) (by omega) (by omega), e1, e2]
        have r1 : replicate (ph - d' - (tr - d')) ua = ua ::ₘ replicate (ph - d' - (tr - d' + 1)) ua := by
          rw [← replicate_succ]; congr 1; omega
        have r2 : kms W (k0 - (d' + 1)) (d' + 1) = W (k0 - 1 - d') ::ₘ kms W (k0 - d') d' := by
          rw [kms_cons]; congr 2 <;> omega
        have r3 : replicate (ph - (d' + 1) - (tr - d')) ua = replicate (ph - d' - (tr - d' + 1)) ua := by congr 1; omega
        rw [r1, r2, r3, replicate_succ, add_cons, cons_add, cons_add, cons_add, add_cons,
          hf.mix (x := W (k0 - 1 - d')) (y := ua) (z := ub) (by simp; omega) (by intro hcon; rw [hcon, sub_self] at hne; exact hne rfl)]
      · rw [if_neg (by omega), Function.update_of_ne hdd, h.left d' h1 h2]
  · rw [if_neg (by omega)]
    refine Runs.ok ⟨hlen, h.frame, ?_⟩
    intro d' h1 h2
    rw [Function.update_of_ne (by omega), h.left d' h1 h2]

theorem rightUpd_run (hf : Polar ph f) (hρ : ρ < ph) (hk : ρ < k0) (hV : k0 ≤ V.length)
    (hW : ∀ j < k0, nth V j = W j) (hab : ua < ub) (hl : l ≤ k0)
    (h : RS f W k0 cind ph ρ l ua ub Q0 ε Q eb) (hd : 0 < d) (hdt : d ≤ tr) (htr : tr < ρ) (e1 : ε d = tr - d) (e2 : ε (d + 1) = tr - d)
    (hbet : tr - d + ρ + 1 < ph → W (k0 - 1 - (tr - d)) = W (k0 - 1)) :
    Runs (if ((k0 : ℤ) - 1 + d) ≥ (l : ℤ) then do
          if (k0 : ℤ) - 1 + d - tr ≤ (k0 : ℤ) - ph + ρ then do
            let v ← vget V ((k0 : ℤ) - 1 + d - tr)
            let gam ← fdiv (ub - v) (ub - ua)
            let x ← vget eb ((k0 : ℤ) - 1 + d - k0 + 1)
            let y ← vget eb ((k0 : ℤ) - 1 + d - k0 + 1 + 1)
            vset eb ((k0 : ℤ) - 1 + d - k0 + 1) (gam • x + (1 - gam) • y)
          else do
            let x ← vget eb ((k0 : ℤ) - 1 + d - k0 + 1)
            let y ← vget eb ((k0 : ℤ) - 1 + d - k0 + 1 + 1)
            vset eb ((k0 : ℤ) - 1 + d - k0 + 1) (((ub - W (k0 - 1)) / (ub - ua)) • x + (1 - (ub - W (k0 - 1)) / (ub - ua)) • y)
        else ok eb : Res (List T)) (fun eb' => eb'.length = ph + 1 ∧
      ∀ k, l ≤ k → k ≤ ph → nth eb' k =
        f (kms W (k0 - Function.update ε d (tr - d + 1) k) (Function.update ε d (tr - d + 1) k) +
          replicate (ph - k - Function.update ε d (tr - d + 1) k) ua + replicate k ub)) := by
  have hlen := h.lenE
  have hne : ub - ua ≠ 0 := (sub_pos.mpr hab).ne'
  have key : Runs (do
            let x ← vget eb ((k0 : ℤ) - 1 + d - k0 + 1)
            let y ← vget eb ((k0 : ℤ) - 1 + d - k0 + 1 + 1)
            vset eb ((k0 : ℤ) - 1 + d - k0 + 1) (((ub - W (k0 - 1 - (tr - d))) / (ub - ua)) • x + (1 - (ub - W (k0 - 1 - (tr - d))) / (ub - ua)) • y) : Res (List T))
      (fun eb' => eb'.length = ph + 1 ∧
      ∀ k, l ≤ k → k ≤ ph → nth eb' k =
        f (kms W (k0 - Function.update ε d (tr - d + 1) k) (Function.update ε d (tr - d + 1) k) +
          replicate (ph - k - Function.update ε d (tr - d + 1) k) ua + replicate k ub)) := by
    rw [vget_nth (k := d) (by omega) (by omega), ok_bind, vget_nth (k := d + 1) (by omega) (by omega), ok_bind, vset_of (k := d) (by omega) (by omega)]
    refine Runs.ok ⟨by simpa using hlen, ?_⟩
    intro k h1 h2
    rw [nth_set (by omega)]
    by_cases hdd : k = d
    · subst hdd
      rw [if_pos rfl, Function.update_self, h.right k h1 h2, h.right (k + 1) (by omega) (by omega), e1, e2]
      have r1 : replicate (ph - k - (tr - k)) ua = ua ::ₘ replicate (ph - k - (tr - k + 1)) ua := by
        rw [← replicate_succ]; congr 1; omega
      have r2 : kms W (k0 - (tr - k + 1)) (tr - k + 1) = W (k0 - 1 - (tr - k)) ::ₘ kms W (k0 - (tr - k)) (tr - k) := by
        rw [kms_cons]; congr 2 <;> omega
      have r3 : replicate (ph - (k + 1) - (tr - k)) ua = replicate (ph - k - (tr - k + 1)) ua := by congr 1; omega
      have r4 : (ub - W (k0 - 1 - (tr - k))) / (ub - ua) = (W (k0 - 1 - (tr - k)) - ub) / (ua - ub) := by
        rw [← neg_sub, ← neg_sub ua ub, neg_div_neg_eq]
      rw [r1, r2, r3, r4, replicate_succ, add_cons, cons_add, cons_add, cons_add, add_cons,
        hf.mix (x := ub) (y := ua) (z := W (k0 - 1 - (tr - k))) (by simp; omega) hab.ne]
    · rw [if_neg (by omega), Function.update_of_ne hdd, h.right k h1 h2]
  rw [if_pos (by omega)]
  by_cases hb : (k0 : ℤ) - 1 + d - tr ≤ (k0 : ℤ) - ph + ρ
  · rw [if_pos hb, vget_nth (k := k0 - 1 - (tr - d)) (by omega) (by omega), ok_bind, hW _ (by omega), fdiv_ok hne, ok_bind]
    exact key
  · rw [if_neg hb, ← hbet (by omega)]
    exact key

end step

/-- arguments replaced before pass `tr` -/
def remE (tr d : ℕ) : ℕ := min tr (2 * d) - d

theorem elevateRemovePass_run {V : List K} {Q eb : List T} {tr : ℕ} (hf : Polar ph f) (hρ : ρ < ph) (hk : ρ < k0) (hc : cind ≤ k0) (hcQ : cind ≤ Q0.length)
    (hV : k0 ≤ V.length) (hW : ∀ j < k0, nth V j = W j) (hWlt : ∀ j < k0, W j < ua) (hab : ua < ub) (hl : l ≤ k0)
    (hbet : ∀ e, 2 * e + 2 ≤ ρ → e + ρ + 1 < ph → W (k0 - 1 - e) = W (k0 - 1)) (htr : tr < ρ)
    (h : RS f W k0 cind ph ρ l ua ub Q0 (remE tr) Q eb) :
    Runs (elevateRemovePass (k0 : ℤ) (ph : ℤ) (ρ : ℤ) (cind : ℤ) (l : ℤ) (tr : ℤ) ua ub (ub - ua) ((ub - W (k0 - 1)) / (ub - ua)) V
      ((k0 : ℤ) - 1 - tr) ((k0 : ℤ) - 1 + tr) Q eb) (fun r => RS f W k0 cind ph ρ l ua ub Q0 (remE (tr + 1)) r.1 r.2) := by
  unfold elevateRemovePass
  refine Runs.bind (Q := fun st => RS f W k0 cind ph ρ l ua ub Q0 (remE (tr + 1)) st.2.2.1 st.2.2.2) ?_ ?_
  swap
  · rintro ⟨_, _, Q', eb'⟩ hr
    exact Runs.ok hr
  refine Runs.whileF (μ := fun st => (st.2.1 - st.1).toNat) (Inv := fun st => ∃ d : ℕ, d ≤ tr ∧ st.1 = (k0 : ℤ) - 1 - d ∧ st.2.1 = (k0 : ℤ) - 1 + d ∧
    RS f W k0 cind ph ρ l ua ub Q0 (fun d' => if d < d' then remE (tr + 1) d' else remE tr d') st.2.2.1 st.2.2.2) ?_ _ _ ?_ ?_
  · rintro ⟨i, j, Q, eb⟩ ⟨d, hdt, hi, hj, hr⟩
    dsimp only at hi hj hr ⊢
    by_cases hcond : tr < 2 * d
    · right
      refine ⟨by simp; omega, ?_⟩
      have e1 : (if d < d then remE (tr + 1) d else remE tr d) = tr - d := by
        rw [if_neg (by omega)]; unfold remE; omega
      have e2 : (if d < d + 1 then remE (tr + 1) (d + 1) else remE tr (d + 1)) = tr - d := by
        rw [if_pos (by omega)]; unfold remE; omega
      rw [hi, hj]
      refine Runs.bind (leftUpd_run hf hρ hk hc hcQ hV hW hWlt hr (by omega) hdt htr e1 e2) ?_
      rintro Q' ⟨q1, q2, q3⟩
      refine Runs.bind (rightUpd_run hf hρ hk hV hW hab hl hr (by omega) hdt htr e1 e2 (hbet (tr - d) (by omega))) ?_
      rintro eb' ⟨b1, b2⟩
      refine Runs.ok ⟨⟨d - 1, by omega, by dsimp only; omega, by dsimp only; omega, ?_⟩, by dsimp only; omega⟩
      refine RS.congr ⟨q1, b1, q2, q3, b2⟩ ?_ hρ.le
      intro d' _
      by_cases hdd : d' = d
      · subst hdd
        rw [Function.update_self, if_pos (by omega)]
        unfold remE; omega
      · rw [Function.update_of_ne hdd]
        by_cases h1 : d < d'
        · rw [if_pos h1, if_pos (by omega)]
        · rw [if_neg h1, if_neg (by omega)]
    · left
      refine ⟨by simp; omega, ?_⟩
      refine hr.congr ?_ hρ.le
      intro d' _
      by_cases h1 : d < d'
      · rw [if_pos h1]
      · rw [if_neg h1]
        unfold remE; omega
  · refine ⟨tr, le_refl _, rfl, rfl, h.congr ?_ hρ.le⟩
    intro d' _
    by_cases h1 : tr < d'
    · rw [if_pos h1]
      unfold remE; omega
    · rw [if_neg h1]
  · dsimp only
    omega

/-- After the removal the control points left of the junction no longer see the junction with too
high a multiplicity. -/
theorem elevateRemove_run {V : List K} {Q eb : List T} {oldr : ℤ} (hf : Polar ph f) (hρ : ρ < ph) (hc : cind ≤ k0) (hcQ : cind ≤ Q.length)
    (hold : oldr = ρ ∨ (oldr = -1 ∧ ρ = 0)) (hk : ρ < k0)
    (hV : k0 ≤ V.length) (hW : 1 < ρ → ∀ j < k0, nth V j = W j) (hWlt : 1 < ρ → ∀ j < k0, W j < ua) (hab : ua < ub) (hl : l ≤ k0) (hl2 : ρ ≤ 2 * l)
    (hcρ : cind + (ρ + 1) / 2 = k0)
    (hbet : 1 < ρ → ∀ e, 2 * e + 2 ≤ ρ → e + ρ + 1 < ph → W (k0 - 1 - e) = W (k0 - 1))
    (hE : eb.length = ph + 1)
    (hleft : ∀ d, d ≤ ρ → k0 ≤ cind + d → nth Q (k0 - 1 - d) = f (kms W (k0 - d) d + replicate (ph - d) ua))
    (hright : ∀ k, l ≤ k → k ≤ ph → nth eb k = f (replicate (ph - k) ua + replicate k ub)) (kk : ℤ) (hkk : 1 < ρ → kk = k0) :
    Runs (elevateRemove kk (ph : ℤ) oldr (cind : ℤ) (l : ℤ) ua ub V Q eb) (fun r => RS f W k0 cind ph ρ l ua ub Q (fun d => ρ - d) r.1 r.2) := by
  unfold elevateRemove
  have h0 : ∀ ε : ℕ → ℕ, (∀ d, ε d = 0) → RS f W k0 cind ph ρ l ua ub Q ε Q eb := by
    intro ε hε
    refine ⟨rfl, hE, fun _ _ => rfl, ?_, ?_⟩
    · intro d h1 h2
      rw [hε, hleft d h1 h2]; simp
    · intro k h1 h2
      rw [hε, hright k h1 h2]; simp
  by_cases h1 : 1 < ρ
  · have hoρ : oldr = ρ := by omega
    rw [hoρ, if_pos (by omega), hkk h1]
    dsimp only
    have hne : ub - ua ≠ 0 := (sub_pos.mpr hab).ne'
    rw [vget_nth (k := k0 - 1) (by omega) (by omega), ok_bind, hW h1 _ (by omega), fdiv_ok hne, ok_bind]
    refine Runs.bind (Q := fun st => RS f W k0 cind ph ρ l ua ub Q (remE ρ) st.2.2.1 st.2.2.2) ?_ ?_
    · refine (Runs.forN (m := 1) (n := ρ) (fun tr (st : ℤ × ℤ × List T × List T) => st.1 = (k0 : ℤ) - 1 - tr ∧ st.2.1 = (k0 : ℤ) - 1 + tr ∧
        RS f W k0 cind ph ρ l ua ub Q (remE tr) st.2.2.1 st.2.2.2) (by simp) rfl (by omega) ⟨by dsimp only; push_cast; ring, by dsimp only; push_cast; ring, h0 _ (fun d => by unfold remE; omega)⟩ ?_).mono ?_
      · rintro tr ⟨i, j, Q', eb'⟩ t1 t2 ⟨hi, hj, hr⟩
        dsimp only at hi hj hr ⊢
        rw [hi, hj]
        refine Runs.bind (elevateRemovePass_run hf hρ hk hc hcQ hV (hW h1) (hWlt h1) hab hl (hbet h1) t2 hr) ?_
        rintro ⟨Q'', eb''⟩ hr'
        exact Runs.ok ⟨by dsimp only; push_cast; ring, by dsimp only; push_cast; ring, hr'⟩
      · rintro st ⟨_, _, hr⟩
        exact hr
    · rintro ⟨_, _, Q', eb'⟩ hr
      dsimp only at hr
      refine Runs.ok ⟨hr.lenQ, hr.lenE, hr.frame, ?_, ?_⟩
      · intro d d1 d2
        have e : remE ρ d = ρ - d := by unfold remE; omega
        rw [hr.left d d1 d2, e]
      · intro k k1 k2
        have e : remE ρ k = ρ - k := by unfold remE; omega
        rw [hr.right k k1 k2, e]
  · rw [if_neg (by omega)]
    refine Runs.ok ⟨rfl, hE, fun _ _ => rfl, ?_, ?_⟩
    · intro d d1 d2
      have e : ρ - d = 0 := by omega
      rw [e, hleft d d1 d2]; simp
    · intro k k1 k2
      have e : ρ - k = 0 := by omega
      rw [e, hright k k1 k2]; simp

end LNLib
