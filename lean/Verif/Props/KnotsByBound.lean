import Verif.Model.KnotsByBound
import Verif.Props.KnotErrorBound

/-!
# Removing knots within an error bound (C155)
-/

namespace LNLib.Props
open LNLib Res LNLib.Spec Finset

section
variable {K : Type} [Field K] [LinearOrder K]

theorem forI_ok_post {σ : Type} {body : ℤ → σ → Res σ} {b : ℤ} (Inv : ℤ → σ → Prop) : ∀ (d : ℕ) (a : ℤ) (s s' : σ), b - a ≤ d →
    (∀ i s s', a ≤ i → i < b → Inv i s → body i s = ok s' → Inv (i + 1) s') → Inv a s → forI a b s body = ok s' → Inv (max a b) s' := by
  intro d
  induction d with
  | zero =>
    intro a s s' hd _ h0 h
    rw [forI_empty (by push_cast at hd; omega)] at h
    cases h
    rwa [max_eq_left (by push_cast at hd; omega)]
  | succ d ih =>
    intro a s s' hd step h0 h
    rcases lt_or_ge a b with hab | hab
    · rw [forI_head hab] at h
      obtain ⟨s1, h1, h2⟩ := bind_eq_ok.mp h
      have := ih (a + 1) s1 s' (by push_cast at hd ⊢; omega) (fun i s s' hi hb => step i s s' (by omega) hb) (step a s s1 le_rfl hab h0 h1) h2
      rwa [max_eq_right (by omega), ← max_eq_right (show a ≤ b by omega)] at this
    · rw [forI_empty hab] at h
      cases h
      rwa [max_eq_left hab]

theorem forI_ok_inv {σ : Type} {body : ℤ → σ → Res σ} {a b : ℤ} {s s' : σ} (Inv : σ → Prop)
    (step : ∀ i s s', Inv s → body i s = ok s' → Inv s') (h0 : Inv s) (h : forI a b s body = ok s') : Inv s' :=
  forI_ok_post (fun _ => Inv) (b - a).toNat a s s' (by omega) (fun i s s' _ _ => step i s s') h0 h

theorem whileF_ok_post {σ : Type} {cond : σ → Res Bool} {body : σ → Res σ} (Inv : σ → Prop)
    (step : ∀ s s', Inv s → cond s = ok true → body s = ok s' → Inv s') : ∀ (fuel : ℕ) (s s' : σ), Inv s → whileF cond body fuel s = ok s' → Inv s' ∧ cond s' = ok false := by
  intro fuel
  induction fuel with
  | zero =>
    intro s s' hs h
    unfold whileF at h
    obtain ⟨b, hb, h⟩ := bind_eq_ok.mp h
    cases b with
    | true => simp at h
    | false =>
      have := Res.ok.inj h
      subst this
      exact ⟨hs, hb⟩
  | succ k ih =>
    intro s s' hs h
    unfold whileF at h
    obtain ⟨b, hb, h⟩ := bind_eq_ok.mp h
    cases b with
    | true =>
      obtain ⟨s1, h1, h2⟩ := bind_eq_ok.mp h
      exact ih s1 s' (step s s1 hs hb h1) h2
    | false =>
      have := Res.ok.inj h
      subst this
      exact ⟨hs, hb⟩

/-- A loop whose body decreases a measure does the same with all larger numbers of rounds. -/
theorem whileF_fuel {σ : Type} {cond : σ → Res Bool} {body : σ → Res σ} (Inv : σ → Prop) (μ : σ → ℕ) (h0 : ∀ s, Inv s → μ s = 0 → cond s ≠ ok true)
    (step : ∀ s s', Inv s → cond s = ok true → body s = ok s' → Inv s' ∧ μ s' < μ s) :
    ∀ (a b : ℕ) (s : σ), Inv s → μ s ≤ a → μ s ≤ b → whileF cond body a s = whileF cond body b s := by
  have hz : ∀ (b : ℕ) (s : σ), cond s ≠ ok true → whileF cond body b s = (cond s >>= fun _ => ok s) := by
    intro b s hs
    cases b <;> unfold whileF <;> cases hc : cond s <;> try rfl
    all_goals
      rename_i x
      cases x with
      | true => exact absurd hc hs
      | false => rfl
  intro a
  induction a with
  | zero =>
    intro b s hs ha _
    have := h0 s hs (by omega)
    rw [hz 0 s this, hz b s this]
  | succ a ih =>
    intro b s hs ha hb
    by_cases hc : cond s = ok true
    · have hpos : μ s ≠ 0 := fun h => h0 s hs h hc
      cases b with
      | zero => omega
      | succ b =>
        unfold whileF
        rw [hc, ok_bind, ok_bind, if_pos rfl, if_pos rfl]
        cases hbody : body s <;> try rfl
        rename_i s1
        rw [ok_bind, ok_bind]
        obtain ⟨h1, h2⟩ := step s s1 hs hc hbody
        exact ih b s1 h1 (by omega) (by omega)
    · rw [hz _ s hc, hz _ s hc]

theorem vset_length {α : Type} {l l' : List α} {i : ℤ} {x : α} (h : vset l i x = ok l') : l'.length = l.length := by
  unfold vset at h
  split at h
  · cases h; simp
  · cases h

theorem shiftFrom_length {α : Type} {l l' : List α} {i : ℤ} (h : shiftFrom l i = ok l') : l'.length = l.length := by
  unfold shiftFrom at h
  split at h
  · cases h; rfl
  · refine forI_ok_inv (fun m : List α => m.length = l.length) ?_ rfl h
    intro i s s' hs hb
    obtain ⟨x, _, h2⟩ := bind_eq_ok.mp hb
    rw [vset_length h2, hs]

theorem updateBounds_length {dist : XYZW K → XYZW K → K} {newc : NurbsCurve K} {Br Br' : List K} {S S' : List ℤ} {s a b : ℤ}
    (h : updateBounds dist newc Br S s a b = ok (Br', S')) : Br'.length = Br.length := by
  unfold updateBounds at h
  obtain ⟨⟨B, S1, s1⟩, h1, h2⟩ := bind_eq_ok.mp h
  cases h2
  refine forI_ok_inv (fun x : List K × List ℤ × ℤ => x.1.length = Br.length) ?_ rfl h1
  intro i x x' hx hb
  obtain ⟨a, _, hb⟩ := bind_eq_ok.mp hb
  obtain ⟨b, _, hb⟩ := bind_eq_ok.mp hb
  split at hb
  · obtain ⟨e, _, hb⟩ := bind_eq_ok.mp hb
    obtain ⟨B', h3, hb⟩ := bind_eq_ok.mp hb
    obtain ⟨S', _, hb⟩ := bind_eq_ok.mp hb
    cases hb
    exact (vset_length h3).trans hx
  · obtain ⟨B', h3, hb⟩ := bind_eq_ok.mp hb
    obtain ⟨S', _, hb⟩ := bind_eq_ok.mp hb
    cases hb
    exact (vset_length h3).trans hx

/-- The curve that the loop works on. -/
def BoundState.curve (st : BoundState K) (degree : ℤ) : NurbsCurve K := { degree := degree, knots := st.U, cps := st.P }

/-- What one successful removal leaves behind: either the loop is over, with the curve as it was; or the curve is the result of a removal, has more than `degree + 1` control points, and there is one
bound less. -/
theorem removeChosen_post {dist : XYZW K → XYZW K → K} {tol : List (XYZW K) → K} {degree : ℤ} {uk : List K} {st st' : BoundState K} {r Rs Re : ℤ} (hd : 0 ≤ degree)
    (h : removeChosen dist tol degree uk st r Rs Re = ok st') :
    acceptErrors st.errors st.temp Rs Re = ok st'.errors ∧
    ((st'.stop = true ∧ st'.updU = st.U ∧ st'.updP = st.P ∧ st'.U = st.U ∧ st'.P = st.P ∧ st'.Br = st.Br) ∨
     (st'.stop = st.stop ∧ st'.Br.length = st.Br.length - 1 ∧ degree + 1 < (st'.P.length : ℤ) ∧
      ∃ u c, removeKnot (fun a b => isLessThanOrEqual (dist a b) (tol st.P)) (BoundState.curve st degree) u 1 = ok (some c) ∧ st'.U = c.knots ∧ st'.P = c.cps)) := by
  unfold removeChosen at h
  obtain ⟨u, hu, h⟩ := bind_eq_ok.mp h
  obtain ⟨new, hnew, h⟩ := bind_eq_ok.mp h
  obtain ⟨errors, he, h⟩ := bind_eq_ok.mp h
  dsimp only at h
  split at h
  · cases h
    exact ⟨he, Or.inl ⟨rfl, rfl, rfl, rfl, rfl, rfl⟩⟩
  · rename_i hlen
    obtain ⟨x1, _, h⟩ := bind_eq_ok.mp h
    obtain ⟨x2, _, h⟩ := bind_eq_ok.mp h
    obtain ⟨x3, _, h⟩ := bind_eq_ok.mp h
    obtain ⟨⟨Nl, Nr⟩, _, h⟩ := bind_eq_ok.mp h
    obtain ⟨x4, _, h⟩ := bind_eq_ok.mp h
    obtain ⟨x5, _, h⟩ := bind_eq_ok.mp h
    obtain ⟨x6, _, h⟩ := bind_eq_ok.mp h
    obtain ⟨⟨Br, S⟩, h7, h⟩ := bind_eq_ok.mp h
    obtain ⟨x8, _, h⟩ := bind_eq_ok.mp h
    obtain ⟨x9, h9, h⟩ := bind_eq_ok.mp h
    cases h
    refine ⟨he, Or.inr ⟨rfl, ?_, ?_, ?_⟩⟩
    · simp only [List.length_dropLast]
      rw [shiftFrom_length h9, updateBounds_length h7]
    · exact not_le.mp hlen
    · cases new with
      | none =>
        exfalso
        simp only [Option.getD_none, List.length_nil, Nat.cast_zero, not_le] at hlen
        omega
      | some c => exact ⟨u, c, hnew, rfl, rfl⟩

/-- The errors that are accepted are within the bound. -/
theorem errorsStay_post {degree : ℤ} {uk : List K} {maxError : K} {st : BoundState K} {r s : ℤ} {bound : K} {Rs Re : ℤ} {temp : List K}
    (h : errorsStay degree uk maxError st r s bound Rs Re = ok (temp, true)) :
    ∀ j, Rs ≤ j → j ≤ Re → ∃ v, vget temp j = ok v ∧ isGreaterThan v maxError = false := by
  have := forI_ok_post (b := Re + 1) (fun i (x : List K × Bool) => x.2 = true → ∀ j, Rs ≤ j → j < i → ∃ v, vget x.1 j = ok v ∧ isGreaterThan v maxError = false)
    (Re + 1 - Rs).toNat Rs _ _ (by omega) ?_ (by intro _ j h1 h2; omega) h rfl
  · intro j h1 h2
    exact this j h1 (lt_of_lt_of_le (by omega) (le_max_right _ _))
  · rintro i ⟨l, f⟩ ⟨l', f'⟩ _ _ hinv hb hf
    dsimp only at hinv hb hf ⊢
    split at hb
    · rename_i hft
      obtain ⟨u, _, hb⟩ := bind_eq_ok.mp hb
      obtain ⟨e, _, hb⟩ := bind_eq_ok.mp hb
      obtain ⟨old, _, hb⟩ := bind_eq_ok.mp hb
      obtain ⟨t, ht, hb⟩ := bind_eq_ok.mp hb
      cases hb
      simp only [Bool.not_eq_true'] at hf
      obtain ⟨hk, hkl, rfl⟩ := vset_eq_ok_iff.mp ht
      intro j h1 h2
      rcases eq_or_ne j i with he | he
      · subst he
        exact ⟨e + old, vget_eq_ok_iff.mpr ⟨hk, by simp [hkl]⟩, hf⟩
      · obtain ⟨v, hv, hv'⟩ := hinv hft j h1 (by omega)
        refine ⟨v, ?_, hv'⟩
        obtain ⟨hm, hmv⟩ := vget_eq_ok_iff.mp hv
        refine vget_eq_ok_iff.mpr ⟨hm, ?_⟩
        rw [List.getElem?_set_ne (by omega)]
        exact hmv
    · rename_i hft
      cases hb
      exact absurd hf hft

omit [Field K] [LinearOrder K] in
theorem acceptErrors_post {errors errors' temp : List K} {Rs Re : ℤ} {Q : K → Prop} (hq : ∀ x ∈ errors, Q x)
    (ht : ∀ j, Rs ≤ j → j ≤ Re → ∃ v, vget temp j = ok v ∧ Q v) (h : acceptErrors errors temp Rs Re = ok errors') :
    errors'.length = errors.length ∧ ∀ x ∈ errors', Q x := by
  have := forI_ok_post (b := Re + 1) (fun _ (l : List K) => l.length = errors.length ∧ ∀ x ∈ l, Q x)
    (Re + 1 - Rs).toNat Rs _ _ (by omega) ?_ ⟨rfl, hq⟩ h
  · exact this
  · rintro i l l' h1 h2 ⟨hl, hQ⟩ hb
    obtain ⟨x, hx, hb⟩ := bind_eq_ok.mp hb
    obtain ⟨v, hv, hv'⟩ := ht i h1 (by omega)
    rw [hx] at hv
    cases hv
    refine ⟨(vset_length hb).trans hl, ?_⟩
    obtain ⟨_, _, rfl⟩ := vset_eq_ok_iff.mp hb
    intro y hy
    rcases List.mem_or_eq_of_mem_set hy with h | h
    · exact hQ y h
    · rw [h]; exact hv'

/-- The number of bounds that are still candidates. -/
def liveBounds (l : List K) : ℕ := l.countP fun x => decide (x ≠ maxDistance)

/-- What one round leaves behind. -/
theorem boundRound_post {dist : XYZW K → XYZW K → K} {tol : List (XYZW K) → K} {degree n : ℤ} {uk : List K} {maxError : K} {st st' : BoundState K} (hd : 0 ≤ degree)
    (h : boundRound dist tol degree n uk maxError st = ok st') :
    ((st'.stop = true ∧ st'.Br.length ≤ st.Br.length) ∨ (st'.stop = st.stop ∧ (st'.Br.length + 1 = st.Br.length ∨ (st'.Br.length = st.Br.length ∧ liveBounds st'.Br < liveBounds st.Br)))) ∧
    ((st'.U = st.U ∧ st'.P = st.P) ∨ (degree + 1 < (st'.P.length : ℤ) ∧
      ∃ u c, removeKnot (fun a b => isLessThanOrEqual (dist a b) (tol st.P)) (BoundState.curve st degree) u 1 = ok (some c) ∧ st'.U = c.knots ∧ st'.P = c.cps)) ∧
    (st.stop = false → st'.stop = true → st'.updU = st'.U ∧ st'.updP = st'.P) ∧
    ((∀ e ∈ st.errors, isGreaterThan e maxError = false) → st'.errors.length = st.errors.length ∧ ∀ e ∈ st'.errors, isGreaterThan e maxError = false) := by
  unfold boundRound at h
  obtain ⟨best, _, h⟩ := bind_eq_ok.mp h
  obtain ⟨m, hm, h⟩ := bind_eq_ok.mp h
  dsimp only at h
  obtain ⟨hk, hkm⟩ := vget_eq_ok_iff.mp hm
  have hpos : best.toNat < st.Br.length := (List.getElem?_eq_some_iff.mp hkm).1
  split at h
  · cases h
    exact ⟨Or.inl ⟨rfl, le_rfl⟩, Or.inl ⟨rfl, rfl⟩, fun _ _ => ⟨rfl, rfl⟩, fun he => ⟨rfl, he⟩⟩
  · rename_i hne
    obtain ⟨s, _, h⟩ := bind_eq_ok.mp h
    obtain ⟨sd, _, h⟩ := bind_eq_ok.mp h
    obtain ⟨Rs, _, h⟩ := bind_eq_ok.mp h
    obtain ⟨Re, _, h⟩ := bind_eq_ok.mp h
    obtain ⟨⟨temp, rem⟩, hst, h⟩ := bind_eq_ok.mp h
    dsimp only at h
    split at h
    · rename_i hrem
      subst hrem
      obtain ⟨he, hcase⟩ := removeChosen_post hd h
      have herr : (∀ e ∈ st.errors, isGreaterThan e maxError = false) →
          st'.errors.length = st.errors.length ∧ ∀ e ∈ st'.errors, isGreaterThan e maxError = false :=
        fun hq => acceptErrors_post (Q := fun e => isGreaterThan e maxError = false) hq (errorsStay_post hst) he
      rcases hcase with ⟨h1, h2, h3, h4, h5, h6⟩ | ⟨h1, h2, h3, h4⟩
      · exact ⟨Or.inl ⟨h1, by rw [h6]⟩, Or.inl ⟨h4, h5⟩, fun _ _ => ⟨h2.trans h4.symm, h3.trans h5.symm⟩, herr⟩
      · refine ⟨Or.inr ⟨h1, Or.inl ?_⟩, Or.inr ⟨h3, h4⟩, ?_, herr⟩
        · dsimp only at h2; omega
        · intro hs hs'
          dsimp only at h1
          rw [h1, hs] at hs'
          cases hs'
    · obtain ⟨Br, hBr, h⟩ := bind_eq_ok.mp h
      cases h
      obtain ⟨_, _, rfl⟩ := vset_eq_ok_iff.mp hBr
      refine ⟨Or.inr ⟨rfl, Or.inr ⟨by simp, ?_⟩⟩, Or.inl ⟨rfl, rfl⟩, ?_, fun he => ⟨rfl, he⟩⟩
      · dsimp only
        unfold liveBounds
        rw [List.countP_set (by exact hpos)]
        have hv : st.Br[best.toNat] = m := (List.getElem?_eq_some_iff.mp hkm).2
        have : 0 < st.Br.countP fun x => decide (x ≠ maxDistance) :=
          List.countP_pos_iff.mpr ⟨m, hv ▸ List.getElem_mem hpos, by simpa using hne⟩
        simp [hv, hne]
        simpa using this
      · intro hs hs'
        dsimp only at hs'
        rw [hs] at hs'
        cases hs'

/-- `Removals dist tol c d`: the curve `d` is `c` after some removals of one copy of a knot each, accepted by `RemoveKnot`; every one of them leaves more than `degree + 1` control points. -/
inductive Removals (dist : XYZW K → XYZW K → K) (tol : List (XYZW K) → K) : NurbsCurve K → NurbsCurve K → Prop
  | none (c) : Removals dist tol c c
  | more {c d e u} : Removals dist tol c d → removeKnot (fun a b => isLessThanOrEqual (dist a b) (tol d.cps)) d u 1 = ok (some e) →
      d.degree + 1 < (e.cps.length : ℤ) → Removals dist tol c e

theorem removeKnot_degree {close : XYZW K → XYZW K → Bool} {c d : NurbsCurve K} {u : K} {k : ℤ} (h : removeKnot close c u k = ok (some d)) : d.degree = c.degree := by
  unfold removeKnot at h
  obtain ⟨_, _, h⟩ := bind_eq_ok.mp h
  obtain ⟨_, _, h⟩ := bind_eq_ok.mp h
  obtain ⟨_, _, h⟩ := bind_eq_ok.mp h
  obtain ⟨_, _, h⟩ := bind_eq_ok.mp h
  dsimp only at h
  obtain ⟨_, _, h⟩ := bind_eq_ok.mp h
  obtain ⟨_, _, h⟩ := bind_eq_ok.mp h
  obtain ⟨_, _, h⟩ := bind_eq_ok.mp h
  split at h
  · cases h
  · obtain ⟨_, _, h⟩ := bind_eq_ok.mp h
    split at h
    · cases h
    · obtain ⟨_, _, h⟩ := bind_eq_ok.mp h
      cases h
      rfl

/-- One copy less: the number of control points decreases by one. -/
theorem removeKnot_count {close : XYZW K → XYZW K → Bool} {c d : NurbsCurve K} {u : K} (h : removeKnot close c u 1 = ok (some d)) : d.cps.length + 1 = c.cps.length := by
  unfold removeKnot at h
  obtain ⟨_, _, h⟩ := bind_eq_ok.mp h
  obtain ⟨_, _, h⟩ := bind_eq_ok.mp h
  obtain ⟨_, _, h⟩ := bind_eq_ok.mp h
  obtain ⟨_, _, h⟩ := bind_eq_ok.mp h
  dsimp only at h
  obtain ⟨s, _, h⟩ := bind_eq_ok.mp h
  obtain ⟨r, _, h⟩ := bind_eq_ok.mp h
  obtain ⟨V, _, h⟩ := bind_eq_ok.mp h
  split at h
  · cases h
  · obtain ⟨st, hst, h⟩ := bind_eq_ok.mp h
    split at h
    · cases h
    · rename_i ht
      obtain ⟨Q, hQ, h⟩ := bind_eq_ok.mp h
      cases h
      have hinv : (st.t = 0 ∨ st.t = 1) ∧ st.Q.length = c.cps.length := by
        rw [show (1 : ℤ).toNat = 0 + 1 from rfl, whileF, ok_bind] at hst
        simp only [zero_lt_one, decide_true, Bool.not_false, Bool.and_true, if_true] at hst
        obtain ⟨s1, h1, hst⟩ := bind_eq_ok.mp hst
        have hs1 : (s1.t = 0 ∨ s1.t = 1) ∧ s1.Q.length = c.cps.length := by
          unfold removeRound at h1
          obtain ⟨sw, _, h1⟩ := bind_eq_ok.mp h1
          obtain ⟨fl, _, h1⟩ := bind_eq_ok.mp h1
          split at h1
          · cases h1
            exact ⟨Or.inl rfl, rfl⟩
          · obtain ⟨Q1, hQ1, h1⟩ := bind_eq_ok.mp h1
            cases h1
            refine ⟨Or.inr rfl, ?_⟩
            unfold removeSave at hQ1
            obtain ⟨⟨a, b, Q2⟩, hw, hQ1⟩ := bind_eq_ok.mp hQ1
            cases hQ1
            refine (whileF_ok_post (fun x : ℤ × ℤ × List (XYZW K) => x.2.2.length = c.cps.length) ?_ _ _ _ rfl hw).1
            rintro ⟨a, b, Q⟩ ⟨a', b', Q'⟩ hl _ hb
            dsimp only at hl hb ⊢
            obtain ⟨x, _, hb⟩ := bind_eq_ok.mp hb
            obtain ⟨Q3, h3, hb⟩ := bind_eq_ok.mp hb
            obtain ⟨y, _, hb⟩ := bind_eq_ok.mp hb
            obtain ⟨Q4, h4, hb⟩ := bind_eq_ok.mp hb
            cases hb
            rw [vset_length h4, vset_length h3, hl]
        unfold whileF at hst
        rw [ok_bind] at hst
        split at hst
        · cases hst
        · cases hst
          exact hs1
      have ht1 : st.t = 1 := by rcases hinv.1 with h | h; exacts [absurd h ht, h]
      unfold removeCompact at hQ
      obtain ⟨⟨a, b⟩, _, hQ⟩ := bind_eq_ok.mp hQ
      obtain ⟨⟨Q1, j1⟩, h1, hQ⟩ := bind_eq_ok.mp hQ
      dsimp only at hQ
      rw [ht1] at hQ
      split at hQ
      · rename_i hle
        cases hQ
        have hl : Q1.length = c.cps.length := by
          refine (forI_ok_inv (fun x : List (XYZW K) × ℤ => x.1.length = c.cps.length) ?_ hinv.2 h1 : (Q1, j1).1.length = _)
          rintro i ⟨x, j⟩ ⟨x', j'⟩ hx hb
          dsimp only at hx hb ⊢
          obtain ⟨y, _, hb⟩ := bind_eq_ok.mp hb
          obtain ⟨Q3, h3, hb⟩ := bind_eq_ok.mp hb
          cases hb
          rw [vset_length h3, hx]
        simp only [List.length_take]
        have : (1 : ℤ).toNat = 1 := rfl
        omega
      · cases hQ

section
variable {dist : XYZW K → XYZW K → K} {tol : List (XYZW K) → K}

theorem Removals.degree {c d : NurbsCurve K} (h : Removals dist tol c d) : d.degree = c.degree := by
  induction h with
  | none => rfl
  | more _ h2 _ ih => rw [removeKnot_degree h2, ih]

theorem Removals.count {c d : NurbsCurve K} (h : Removals dist tol c d) : d = c ∨ (c.degree + 1 < (d.cps.length : ℤ) ∧ d.cps.length < c.cps.length) := by
  induction h with
  | none => exact Or.inl rfl
  | more h1 h2 h3 ih =>
    right
    rw [h1.degree] at h3
    refine ⟨h3, ?_⟩
    have := removeKnot_count h2
    rcases ih with h | ⟨_, h⟩
    · rw [← h]; omega
    · omega

/-- C155 (part): whenever the call returns, the new curve has come about from the curve given by successful calls of `RemoveKnot` with one copy each, and every reported error is at most the
bound (up to the tolerance of the comparison), provided that this was so before. -/
theorem C155_removals_partial {fuel : ℕ} {c d : NurbsCurve K} {params errors errors' : List K} {maxError : K} (hd : 0 ≤ c.degree)
    (he : ∀ e ∈ errors, isGreaterThan e maxError = false) (h : removeKnotsByBound dist tol fuel c params errors maxError = ok (d, errors')) :
    Removals dist tol c d ∧ errors'.length = params.length ∧ ∀ e ∈ errors', isGreaterThan e maxError = false := by
  unfold removeKnotsByBound at h
  obtain ⟨_, _, h⟩ := bind_eq_ok.mp h
  obtain ⟨_, hlen, h⟩ := bind_eq_ok.mp h
  obtain ⟨_, _, h⟩ := bind_eq_ok.mp h
  obtain ⟨⟨Br, S⟩, _, h⟩ := bind_eq_ok.mp h
  obtain ⟨⟨Nl, Nr⟩, _, h⟩ := bind_eq_ok.mp h
  obtain ⟨st, hst, h⟩ := bind_eq_ok.mp h
  cases h
  have hl : params.length = errors.length := by
    by_contra hne
    simp [hne] at hlen
  have hpost := whileF_ok_post (fun st : BoundState K => Removals dist tol c (BoundState.curve st c.degree) ∧
      (st.stop = true → st.updU = st.U ∧ st.updP = st.P) ∧ st.errors.length = errors.length ∧ ∀ e ∈ st.errors, isGreaterThan e maxError = false) ?_ _ _ _
    ⟨Removals.none c, (by intro h; cases h), rfl, he⟩ hst
  · obtain ⟨⟨h1, h2, h3, h4⟩, h5⟩ := hpost
    have hs : st.stop = true := by simpa using h5
    obtain ⟨a, b⟩ := h2 hs
    refine ⟨?_, h3.trans hl.symm, h4⟩
    rw [a, b]
    exact h1
  · rintro s s' ⟨h1, h2, h3, h4⟩ hc hb
    have hs : s.stop = false := by simpa using hc
    obtain ⟨_, k2, k3, k4⟩ := boundRound_post hd hb
    refine ⟨?_, k3 hs, (k4 h4).1.trans h3, (k4 h4).2⟩
    rcases k2 with ⟨a, b⟩ | ⟨a, u, e, b1, b2, b3⟩
    · unfold BoundState.curve
      rw [a, b]
      exact h1
    · have hr := Removals.more h1 b1 (by rw [← b3]; exact a)
      have hdeg := removeKnot_degree b1
      have : BoundState.curve s' c.degree = e := by
        unfold BoundState.curve
        rw [b2, b3]
        cases e
        simp only [BoundState.curve] at hdeg
        simp only [hdeg]
      rw [this]
      exact hr

/-- C155 (violated): the last removable knot is never removed, whatever the bound: a curve with one interior knot comes back as it is. -/
theorem C155_single_violated {fuel : ℕ} {c d : NurbsCurve K} {params errors errors' : List K} {maxError : K} (hd : 0 ≤ c.degree)
    (he : ∀ e ∈ errors, isGreaterThan e maxError = false) (hn : (c.cps.length : ℤ) ≤ c.degree + 2)
    (h : removeKnotsByBound dist tol fuel c params errors maxError = ok (d, errors')) : d = c := by
  rcases (C155_removals_partial hd he h).1.count with h | ⟨h1, h2⟩
  · exact h
  · omega

/-- C155: the number of rounds is at most the square of the number of knots plus one: with more rounds allowed, nothing changes. -/
theorem C155_rounds {fuel : ℕ} {c : NurbsCurve K} {params errors : List K} {maxError : K} (hd : 0 ≤ c.degree) (hf : (c.knots.length + 1) ^ 2 ≤ fuel) :
    removeKnotsByBound dist tol fuel c params errors maxError = removeKnotsByBound dist tol ((c.knots.length + 1) ^ 2) c params errors maxError := by
  unfold removeKnotsByBound
  congr 1; funext _
  congr 1; funext _
  congr 1; funext _
  cases hB : initialBounds dist c <;> try rfl
  rename_i BS
  obtain ⟨Br, S⟩ := BS
  rw [ok_bind, ok_bind]
  have hBl : Br.length = c.knots.length := by
    unfold initialBounds at hB
    refine (forI_ok_inv (fun x : List K × List ℤ => x.1.length = c.knots.length) ?_ (by simp) hB : (Br, S).1.length = _)
    rintro i ⟨x, y⟩ ⟨x', y'⟩ hx hb
    dsimp only at hx hb ⊢
    obtain ⟨a, _, hb⟩ := bind_eq_ok.mp hb
    obtain ⟨b, _, hb⟩ := bind_eq_ok.mp hb
    split at hb
    · obtain ⟨e, _, hb⟩ := bind_eq_ok.mp hb
      obtain ⟨B', h3, hb⟩ := bind_eq_ok.mp hb
      obtain ⟨e, _, hb⟩ := bind_eq_ok.mp hb
      obtain ⟨e, _, hb⟩ := bind_eq_ok.mp hb
      cases hb
      rw [vset_length h3, hx]
    · obtain ⟨B', h3, hb⟩ := bind_eq_ok.mp hb
      obtain ⟨e, _, hb⟩ := bind_eq_ok.mp hb
      cases hb
      rw [vset_length h3, hx]
  dsimp only
  congr 1; funext NN
  congr 1
  set L := c.knots.length with hL
  have hlive : ∀ l : List K, liveBounds l ≤ l.length := fun l => List.countP_le_length
  refine whileF_fuel (fun st : BoundState K => st.Br.length ≤ L) (fun st => if st.stop then 0 else 1 + st.Br.length * (L + 1) + liveBounds st.Br) ?_ ?_ _ _ _ hBl.le ?_ ?_
  · intro s _ h0 h1
    have : s.stop = false := by simpa using h1
    simp [this] at h0
  · intro s s' hs hc hb
    have hstop : s.stop = false := by simpa using hc
    obtain ⟨k1, _, _, _⟩ := boundRound_post hd hb
    have e1 := hlive s'.Br
    rcases k1 with ⟨k, kl⟩ | ⟨k, kl | ⟨ka, kb⟩⟩
    · refine ⟨by omega, ?_⟩
      simp only [k, hstop, Bool.false_eq_true, if_false, if_true]
      omega
    · rw [hstop] at k
      refine ⟨by omega, ?_⟩
      simp only [k, hstop, Bool.false_eq_true, if_false]
      rw [← kl]
      nlinarith
    · rw [hstop] at k
      refine ⟨by omega, ?_⟩
      simp only [k, hstop, Bool.false_eq_true, if_false]
      rw [ka]; omega
  · have := hlive Br
    simp only [Bool.false_eq_true, if_false]
    rw [hBl] at this ⊢
    nlinarith
  · have := hlive Br
    simp only [Bool.false_eq_true, if_false]
    rw [hBl] at this ⊢
    nlinarith

end

end
end LNLib.Props
