import Verif.Model.ProjectNormal
import Verif.Props.Closed
import Verif.Props.Extend
import Verif.Props.Geom
import Verif.Props.Warp

/-!
# C129: normal vectors along a curve
-/
set_option linter.unusedSectionVars false

namespace LNLib.Props
open LNLib Res Spec Finset

/-- `D i` is the first derivative of the curve at its `i`-th knot. -/
def HasTangents (c : NurbsCurve ℝ) (D : ℕ → XYZ ℝ) : Prop :=
  ∀ i < c.knots.length, ∃ x, NurbsCurve.rationalDerivatives c 1 (nth c.knots i) = ok [x, D i]

theorem tangentAt_of {c : NurbsCurve ℝ} {D : ℕ → XYZ ℝ} (h : HasTangents c D) {i : ℕ} (hi : i < c.knots.length) :
    tangentAt c (i : ℤ) = ok (D i).normalize := by
  obtain ⟨x, hx⟩ := h i hi
  unfold tangentAt
  rw [vget_nth (k := i) rfl hi, ok_bind, hx, ok_bind, vget_nth (i := 1) (k := 1) rfl (by simp), ok_bind]
  rfl

theorem whileF_post {σ : Type} {cond : σ → Res Bool} {body : σ → Res σ} {Inv : σ → Prop}
    (step : ∀ s s', Inv s → cond s = ok true → body s = ok s' → Inv s') : ∀ (fuel : ℕ) (s s' : σ), Inv s → whileF cond body fuel s = ok s' → Inv s' ∧ cond s' = ok false := by
  intro fuel
  induction fuel with
  | zero =>
    intro s s' hs h
    unfold whileF at h
    obtain ⟨b, hb, h⟩ := bind_eq_ok.mp h
    cases b with
    | true => simp at h
    | false =>
      have := Res.ok.inj h
      subst this
      exact ⟨hs, hb⟩
  | succ k ih =>
    intro s s' hs h
    unfold whileF at h
    obtain ⟨b, hb, h⟩ := bind_eq_ok.mp h
    cases b with
    | true =>
      obtain ⟨s1, h1, h⟩ := bind_eq_ok.mp h
      exact ih s1 s' (step s s1 hs hb h1) h
    | false =>
      have := Res.ok.inj h
      subst this
      exact ⟨hs, hb⟩

theorem loopUp_post {σ : Type} {body : ℤ → σ → Res σ} {Inv : ℤ → σ → Prop} : ∀ (n : ℕ) (a : ℤ) (s r : σ), Inv a s →
    (∀ i s s', a ≤ i → i < a + n → Inv i s → body i s = ok s' → Inv (i + 1) s') → loopUp body n a s = ok r → Inv (a + n) r := by
  intro n
  induction n with
  | zero =>
    intro a s r h _ hr
    have := Res.ok.inj hr
    subst this
    simpa using h
  | succ n ih =>
    intro a s r h step hr
    unfold loopUp at hr
    obtain ⟨s1, h1, hr⟩ := bind_eq_ok.mp hr
    have := ih (a + 1) s1 r (step a s s1 le_rfl (by push_cast; omega) h h1) (fun i s s' ha hb => step i s s' (by omega) (by push_cast; omega)) hr
    rw [show a + ((n + 1 : ℕ) : ℤ) = a + 1 + n by push_cast; ring]
    exact this

/-- an invariant of a loop that ran to its end -/
theorem forI_post {σ : Type} {body : ℤ → σ → Res σ} {Inv : ℤ → σ → Prop} {a b : ℤ} {s r : σ} (hab : a ≤ b) (h0 : Inv a s)
    (step : ∀ i s s', a ≤ i → i < b → Inv i s → body i s = ok s' → Inv (i + 1) s') (hr : forI a b s body = ok r) : Inv b r := by
  unfold forI at hr
  have := loopUp_post (b - a).toNat a s r h0 (fun i s s' ha hb => step i s s' ha (by omega)) hr
  rwa [show a + ((b - a).toNat : ℤ) = b by omega] at this

theorem isZero_of_zero : (0 : XYZ ℝ).isZero = true := by
  simp [XYZ.isZero, XYZ.sqrLength, doubleEps]

/-- a unit normal of the curve at its `i`-th knot -/
def NormalAt (c : NurbsCurve ℝ) (i : ℕ) (b : XYZ ℝ) : Prop :=
  ∃ l, NurbsCurve.rationalDerivatives c 1 (nth c.knots i) = ok l ∧ nth l 1 ≠ 0 ∧ b.length = 1 ∧ b.dot (nth l 1) = 0

theorem tangentAt_inv {c : NurbsCurve ℝ} {i : ℕ} {t : XYZ ℝ} (hi : i < c.knots.length) (h : tangentAt c (i : ℤ) = ok t) :
    ∃ l, NurbsCurve.rationalDerivatives c 1 (nth c.knots i) = ok l ∧ t = (nth l 1).normalize := by
  unfold tangentAt at h
  rw [vget_nth (k := i) rfl hi, ok_bind] at h
  obtain ⟨l, hl, h⟩ := bind_eq_ok.mp h
  obtain ⟨x, hx, h⟩ := bind_eq_ok.mp h
  have hlen : 1 < l.length := by
    by_contra hh
    unfold vget at hx
    rw [show (1 : ℤ).toNat = 1 from rfl, show l[1]? = none by simp; omega] at hx
    simp at hx
  rw [vget_nth (i := 1) (k := 1) rfl hlen] at hx
  exact ⟨l, hl, by rw [← Res.ok.inj h, Res.ok.inj hx]⟩

theorem perp_of_normalize {b v : XYZ ℝ} (h : b.dot v.normalize = 0) : b.dot v = 0 := by
  by_cases hv : v = 0
  · subst hv; simp [XYZ.dot]
  · obtain ⟨k, hk, e⟩ := ((C29_normalize v).1 hv).2
    rw [e] at h
    have : b.dot (k • v) = k * b.dot v := by simp [XYZ.dot]; ring
    rw [this] at h
    rcases mul_eq_zero.mp h with h | h
    · exact absurd h hk.ne'
    · exact h

theorem dot_self_of_length {t : XYZ ℝ} (h : t.length = 1) : t.dot t = 1 := by
  have := Real.sq_sqrt (show 0 ≤ t.x * t.x + t.y * t.y + t.z * t.z by nlinarith [mul_self_nonneg t.x, mul_self_nonneg t.y, mul_self_nonneg t.z])
  unfold XYZ.length at h
  rw [h] at this
  unfold XYZ.dot
  linarith

/-- the residue of a vector that is not parallel to the unit tangent -/
theorem residue_normal {t b : XYZ ℝ} (ht : t.length = 1) (hz : (t.cross b).isZero = false) :
    ((b - (b.dot t) • t).normalize).length = 1 ∧ ((b - (b.dot t) • t).normalize).dot t = 0 := by
  have htt := dot_self_of_length ht
  have hne : b - (b.dot t) • t ≠ 0 := by
    intro h
    have hb : b = (b.dot t) • t := sub_eq_zero.mp h
    have : t.cross b = 0 := by
      rw [hb]; ext <;> simp [XYZ.cross] <;> ring
    rw [this, isZero_of_zero] at hz
    exact absurd hz (by simp)
  refine ⟨((C29_normalize _).1 hne).1, ?_⟩
  have hp : (b - (b.dot t) • t).dot t = 0 := by
    have : (b - (b.dot t) • t).dot t = b.dot t - (b.dot t) * t.dot t := by simp [XYZ.dot]; ring
    rw [this, htt]; ring
  exact normalize_perp hp

/-- a run of one round of the `while` loop that needed no break -/
theorem projectTry_post {angle : ℕ → ℝ} {c : NurbsCurve ℝ} {t0 : XYZ ℝ} {m : ℕ} (hl : c.knots.length = m + 1) (hm : 1 ≤ m) (h0 : tangentAt c ((0 : ℕ) : ℤ) = ok t0)
    {st st' : List (XYZ ℝ) × Bool × ℕ} (hst : st.1.length = m + 1) (hf : st.2.1 = true) (h : projectTry angle c t0 m st = ok st') :
    st'.1.length = m + 1 ∧ (st'.2.1 = false → ∀ i ≤ m, NormalAt c i (nth st'.1 i)) := by
  unfold projectTry at h
  rw [vset_of (k := 0) (by simp) (by omega), ok_bind] at h
  obtain ⟨r, hr, h⟩ := bind_eq_ok.mp h
  have h' := Res.ok.inj h
  obtain ⟨l0, hl0, ht0⟩ := tangentAt_inv (by omega) h0
  have key := forI_post (Inv := fun i (s : List (XYZ ℝ) × Bool) => s.1.length = m + 1 ∧ nth s.1 0 = createRandomOrthogonal t0 (angle st.2.2) ∧
      (s.2 = false → (1 < i → nth s.1 0 ≠ 0) ∧ ∀ j : ℕ, 1 ≤ j → (j : ℤ) < i → NormalAt c j (nth s.1 j))) (by omega)
    ⟨by simp [hst], by rw [nth_set (by omega)]; simp, fun _ => ⟨fun h => absurd h (by omega), fun j h1 h2 => absurd h2 (by omega)⟩⟩ ?_ hr
  · obtain ⟨k1, k2, k3⟩ := key
    rw [← h']
    refine ⟨k1, fun hfl => ?_⟩
    have hr2 : r.2 = false := by
      cases hh : r.2 with
      | false => rfl
      | true => rw [hh] at hfl; simp [hf] at hfl
    obtain ⟨k4, k5⟩ := k3 hr2
    intro i hi
    by_cases hi0 : i = 0
    · subst hi0
      have hne := k4 (by omega)
      rw [k2] at hne
      have c64 := C64_random_orthogonal_partial t0 (angle st.2.2)
      have hT : ¬ (t0.z = t0.x ∧ t0.y = -t0.x) := by
        rintro ⟨e1, e2⟩
        apply hne
        have : t0 = ⟨t0.x, -t0.x, t0.x⟩ := by ext <;> simp [e1, e2]
        rw [this]
        exact C64_random_orthogonal_violated _ _
      refine ⟨l0, hl0, ?_, ?_, ?_⟩
      · intro hz
        rw [hz, (C29_normalize 0).2] at ht0
        exact hT (by rw [ht0]; simp)
      · dsimp only; rw [k2]; exact c64.2 hT
      · dsimp only
        rw [k2]
        apply perp_of_normalize
        rw [← ht0]
        exact c64.1
    · exact k5 i (by omega) (by omega)
  · rintro i ⟨l, fl⟩ ⟨l', fl'⟩ hi1 hi2 ⟨k1, k2, k3⟩ hstep
    obtain ⟨n, rfl⟩ : ∃ n : ℕ, i = n := ⟨i.toNat, by omega⟩
    unfold projectStep at hstep
    dsimp only at k1 k2 k3 hstep ⊢
    cases fl with
    | true =>
      rw [if_pos rfl] at hstep
      cases hstep
      exact ⟨k1, k2, fun h => absurd h (by simp)⟩
    | false =>
      rw [if_neg (by simp)] at hstep
      obtain ⟨k4, k5⟩ := k3 rfl
      obtain ⟨t, ht, hstep⟩ := bind_eq_ok.mp hstep
      rw [vget_nth (k := n - 1) (by omega) (by omega), ok_bind] at hstep
      obtain ⟨li, hli, hti⟩ := tangentAt_inv (by omega) ht
      cases hz : (t.cross (nth l (n - 1))).isZero with
      | true =>
        rw [hz, if_pos rfl] at hstep
        cases hstep
        exact ⟨k1, k2, fun h => absurd h (by simp)⟩
      | false =>
        rw [hz, if_neg (by simp), vset_of (k := n) (by simp) (by omega), ok_bind] at hstep
        cases hstep
        have hD : nth li 1 ≠ 0 := by
          intro h
          rw [h, (C29_normalize 0).2] at hti
          have : t.cross (nth l (n - 1)) = 0 := by rw [hti]; ext <;> simp [XYZ.cross]
          rw [this, isZero_of_zero] at hz
          exact absurd hz (by simp)
        have ht1 : t.length = 1 := by rw [hti]; exact ((C29_normalize _).1 hD).1
        obtain ⟨r1, r2⟩ := residue_normal ht1 hz
        refine ⟨by simp [k1], by rw [nth_set (by omega), if_neg (by omega)]; exact k2, fun _ => ⟨fun _ => ?_, fun j h1 h2 => ?_⟩⟩
        · rw [nth_set (by omega), if_neg (by omega)]
          by_cases hn : n = 1
          · subst hn
            intro h
            have : t.cross (nth l (1 - 1)) = 0 := by rw [show (1 - 1 : ℕ) = 0 from rfl, h]; ext <;> simp [XYZ.cross]
            rw [this, isZero_of_zero] at hz
            exact absurd hz (by simp)
          · exact k4 (by omega)
        · rw [nth_set (by omega)]
          by_cases hj : j = n
          · subst hj
            rw [if_pos rfl]
            exact ⟨li, hli, hD, r1, perp_of_normalize (by rw [← hti]; exact r2)⟩
          · rw [if_neg hj]
            exact k5 j h1 (by omega)

/-- C129: whatever angles are drawn, when the function returns it has found, for every knot, a unit vector orthogonal to the first
derivative of the curve at that knot, and that derivative is not zero. -/
theorem C129_normals {fuel : ℕ} {angle : ℕ → ℝ} {c : NurbsCurve ℝ} {B : List (XYZ ℝ)} (hl : 2 ≤ c.knots.length) (h : projectNormal fuel angle c = ok B) :
    B.length = c.knots.length ∧ ∀ i < c.knots.length, ∃ l, NurbsCurve.rationalDerivatives c 1 (nth c.knots i) = ok l ∧ nth l 1 ≠ 0 ∧
      (nth B i).length = 1 ∧ (nth B i).dot (nth l 1) = 0 := by
  obtain ⟨m, hm⟩ : ∃ m, c.knots.length = m + 1 := ⟨c.knots.length - 1, by omega⟩
  unfold projectNormal at h
  dsimp only at h
  rw [hm, show (((m + 1 : ℕ) : ℤ) - 1) = (m : ℤ) by push_cast; ring] at h
  rw [vget_nth (i := 0) (k := 0) rfl (by omega), ok_bind, vget_nth (k := m) rfl (by omega), ok_bind] at h
  obtain ⟨t0, ht0, h⟩ := bind_eq_ok.mp h
  obtain ⟨st, hst, h⟩ := bind_eq_ok.mp h
  have key := whileF_post (Inv := fun st : List (XYZ ℝ) × Bool × ℕ => st.1.length = m + 1 ∧ (st.2.1 = false → ∀ i ≤ m, NormalAt c i (nth st.1 i))) ?_ fuel _ _ ⟨by simp, by simp⟩ hst
  · obtain ⟨⟨k1, k2⟩, k3⟩ := key
    have hno := k2 (Res.ok.inj k3)
    obtain ⟨b, -, h⟩ := bind_eq_ok.mp h
    cases b with
    | false =>
      rw [if_neg (by simp)] at h
      have := Res.ok.inj h
      subst this
      exact ⟨by omega, fun i hi => hno i (by omega)⟩
    | true =>
      rw [if_pos rfl] at h
      unfold projectClosed at h
      rw [vget_nth (i := 0) (k := 0) rfl (by omega), ok_bind, vset_of (k := m) rfl (by omega), ok_bind] at h
      have : vset (List.replicate (m : ℤ).toNat (0 : XYZ ℝ)) (m : ℤ) (nth st.1 0) = ub := by
        unfold vset; simp
      rw [this] at h
      cases h
  · rintro s s' ⟨i1, i2⟩ hc hs
    exact projectTry_post hm (by omega) ht0 i1 (Res.ok.inj hc) hs

/-- the run of one round of the `for` loop -/
theorem projectStep_run {c : NurbsCurve ℝ} {D : ℕ → XYZ ℝ} (h : HasTangents c D) {m i : ℕ} (hm : c.knots.length = m + 1) (hi : i ≤ m) (h1 : 1 ≤ i) {l : List (XYZ ℝ)} {fl : Bool} (hl : l.length = m + 1) :
    projectStep c (i : ℤ) (l, fl) = ok (if fl then (l, true) else if (((D i).normalize).cross (nth l (i - 1))).isZero then (l, true)
      else (l.set i (nth l (i - 1) - ((nth l (i - 1)).dot (D i).normalize) • (D i).normalize).normalize, false)) := by
  unfold projectStep
  cases fl with
  | true => rfl
  | false =>
    rw [if_neg (by simp), if_neg (by simp), tangentAt_of h (by omega), ok_bind, vget_nth (k := i - 1) (by omega) (by dsimp only; omega), ok_bind]
    dsimp only
    split
    · rfl
    · rw [vset_of (k := i) rfl (by omega), ok_bind]

/-- once the tangent at some later knot has no direction, or the first vector is zero, every round breaks -/
theorem projectTry_stuck {angle : ℕ → ℝ} {c : NurbsCurve ℝ} {D : ℕ → XYZ ℝ} (h : HasTangents c D) {m : ℕ} (hm : c.knots.length = m + 1)
    {st : List (XYZ ℝ) × Bool × ℕ} (hst : st.1.length = m + 1)
    (hbad : (∃ k, (D 0) = ⟨k, -k, k⟩ ∧ 1 ≤ m) ∨ ∃ i, 1 ≤ i ∧ i ≤ m ∧ D i = 0) :
    ∃ st', projectTry angle c (D 0).normalize m st = ok st' ∧ st'.1.length = m + 1 ∧ st'.2.1 = st.2.1 := by
  unfold projectTry
  rw [vset_of (k := 0) (by simp) (by omega), ok_bind]
  obtain ⟨j, hj1, hjm, hj⟩ : ∃ j : ℕ, 1 ≤ j ∧ j ≤ m ∧ ((j = 1 ∧ ∃ k, (D 0) = ⟨k, -k, k⟩) ∨ D j = 0) := by
    rcases hbad with ⟨k, hk, h1⟩ | ⟨i, h1, h2, h3⟩
    · exact ⟨1, le_rfl, h1, Or.inl ⟨rfl, k, hk⟩⟩
    · exact ⟨i, h1, h2, Or.inr h3⟩
  have hrun : Runs (forI 1 ((m : ℤ) + 1) (st.1.set 0 (createRandomOrthogonal (D 0).normalize (angle st.2.2)), false) (projectStep c))
      (fun r => r.1.length = m + 1 ∧ nth r.1 0 = createRandomOrthogonal (D 0).normalize (angle st.2.2) ∧ r.2 = true) := by
    refine (Runs.forN (m := 1) (n := m + 1) (fun i r => r.1.length = m + 1 ∧ nth r.1 0 = createRandomOrthogonal (D 0).normalize (angle st.2.2) ∧ (j < i → r.2 = true)) rfl (by push_cast; ring) (by omega)
      ⟨by simp [hst], by rw [nth_set (by omega)]; simp, fun h => absurd h (by omega)⟩ ?_).mono (fun r h => ⟨h.1, h.2.1, h.2.2 (by omega)⟩)
    rintro i ⟨l, fl⟩ h1 h2 ⟨k1, k2, k3⟩
    dsimp only at k1 k2 k3
    rw [projectStep_run h hm (by omega) h1 k1]
    refine Runs.ok ?_
    cases fl with
    | true => simp [k1, k2]
    | false =>
      have hij : ¬ j < i := fun h => by simpa using k3 h
      rw [if_neg (by simp)]
      by_cases e : j = i
      · subst e
        have hz : (((D j).normalize).cross (nth l (j - 1))).isZero = true := by
          rcases hj with ⟨rfl, k, hk⟩ | hj
          · have hn : ∃ x : ℝ, (D 0).normalize = ⟨x, -x, x⟩ := by
              rw [hk]
              by_cases h : (⟨k, -k, k⟩ : XYZ ℝ) = 0
              · exact ⟨0, by rw [h, (C29_normalize 0).2]; ext <;> simp⟩
              · refine ⟨(⟨k, -k, k⟩ : XYZ ℝ).length⁻¹ * k, ?_⟩
                rw [normalize_eq h]; ext <;> simp
            obtain ⟨x, hx⟩ := hn
            rw [show (1 - 1 : ℕ) = 0 from rfl, k2, hx, C64_random_orthogonal_violated]
            convert isZero_of_zero
            ext <;> simp [XYZ.cross]
          · rw [hj, (C29_normalize 0).2]
            convert isZero_of_zero
            ext <;> simp [XYZ.cross]
        rw [if_pos hz]
        exact ⟨k1, k2, fun _ => rfl⟩
      · split
        · exact ⟨k1, k2, fun _ => rfl⟩
        · exact ⟨by simp [k1], by dsimp only; rw [nth_set (by omega), if_neg (by omega)]; exact k2, fun h => absurd h (by omega)⟩
  obtain ⟨r, hr, h1, h2, h3⟩ := hrun
  rw [hr, ok_bind, h3]
  exact ⟨_, rfl, h1, by simp⟩

theorem project_start {c : NurbsCurve ℝ} {D : ℕ → XYZ ℝ} (h : HasTangents c D) {m : ℕ} (hm : c.knots.length = m + 1) (fuel : ℕ) (angle : ℕ → ℝ) :
    projectNormal fuel angle c = (do
      let st ← whileF (fun st => ok st.2.1) (projectTry angle c (D 0).normalize m) fuel (List.replicate (m + 1) 0, true, 0)
      let closed ← isClosedCurve c
      if closed then projectClosed c m st.1 else ok st.1) := by
  unfold projectNormal
  dsimp only
  rw [hm, show (((m + 1 : ℕ) : ℤ) - 1) = (m : ℤ) by push_cast; ring]
  rw [vget_nth (i := 0) (k := 0) rfl (by omega), ok_bind, vget_nth (k := m) rfl (by omega), ok_bind]
  have := tangentAt_of h (i := 0) (by omega)
  rw [show ((0 : ℕ) : ℤ) = 0 from rfl] at this
  rw [this, ok_bind]

/-- C129 (violated): the function never returns, whatever angles are drawn, when the first derivative at the first knot is a multiple of
`(1, -1, 1)`, or when the first derivative vanishes at a later knot. -/
theorem C129_stuck_violated {c : NurbsCurve ℝ} {D : ℕ → XYZ ℝ} (h : HasTangents c D) (hl : 2 ≤ c.knots.length)
    (hbad : (∃ k, D 0 = ⟨k, -k, k⟩) ∨ ∃ i, 1 ≤ i ∧ i < c.knots.length ∧ D i = 0) (fuel : ℕ) (angle : ℕ → ℝ) : projectNormal fuel angle c = diverge := by
  obtain ⟨m, hm⟩ : ∃ m, c.knots.length = m + 1 := ⟨c.knots.length - 1, by omega⟩
  rw [project_start h hm, whileF_diverge (Inv := fun st : List (XYZ ℝ) × Bool × ℕ => st.1.length = m + 1 ∧ st.2.1 = true) ?_ fuel _ ⟨by simp, rfl⟩]
  · rfl
  · rintro st ⟨h1, h2⟩
    refine ⟨by rw [h2], ?_⟩
    obtain ⟨st', e, e1, e2⟩ := projectTry_stuck (angle := angle) h hm h1 (by
      rcases hbad with ⟨k, hk⟩ | ⟨i, i1, i2, i3⟩
      · exact Or.inl ⟨k, hk, by omega⟩
      · exact Or.inr ⟨i, i1, by omega, i3⟩)
    exact ⟨st', e, e1, by rw [e2, h2]⟩

theorem whileF_total {σ : Type} {cond : σ → Res Bool} {body : σ → Res σ} {Inv : σ → Prop}
    (step : ∀ s, Inv s → (∃ b, cond s = ok b) ∧ Runs (body s) Inv) : ∀ (fuel : ℕ) (s : σ), Inv s →
      whileF cond body fuel s = diverge ∨ Runs (whileF cond body fuel s) Inv := by
  intro fuel
  induction fuel with
  | zero =>
    intro s hs
    obtain ⟨⟨b, hb⟩, -⟩ := step s hs
    cases b with
    | true => left; simp [whileF, hb]
    | false => right; exact ⟨s, by simp [whileF, hb], hs⟩
  | succ k ih =>
    intro s hs
    obtain ⟨⟨b, hb⟩, s1, h1, h2⟩ := step s hs
    cases b with
    | true =>
      have e : whileF cond body (k + 1) s = whileF cond body k s1 := by simp [whileF, hb, h1]
      rw [e]
      exact ih s1 h2
    | false => right; exact ⟨s, by simp [whileF, hb], hs⟩

theorem projectTry_runs {angle : ℕ → ℝ} {c : NurbsCurve ℝ} {D : ℕ → XYZ ℝ} (h : HasTangents c D) {m : ℕ} (hm : c.knots.length = m + 1)
    {st : List (XYZ ℝ) × Bool × ℕ} (hst : st.1.length = m + 1) (t0 : XYZ ℝ) : Runs (projectTry angle c t0 m st) fun st' => st'.1.length = m + 1 := by
  unfold projectTry
  rw [vset_of (k := 0) (by simp) (by omega), ok_bind]
  refine Runs.bind (Runs.forN (m := 1) (n := m + 1) (fun i r => r.1.length = m + 1) rfl (by push_cast; ring) (by omega) (by simp [hst]) ?_) (fun r hr => Runs.ok hr)
  rintro i ⟨l, fl⟩ h1 h2 k1
  dsimp only at k1
  rw [projectStep_run h hm (by omega) h1 k1]
  refine Runs.ok ?_
  split
  · exact k1
  · split
    · exact k1
    · simp [k1]

theorem projectClosed_ub {c : NurbsCurve ℝ} {m : ℕ} {l : List (XYZ ℝ)} (hl : l.length = m + 1) : projectClosed c m l = ub := by
  unfold projectClosed
  rw [vget_nth (i := 0) (k := 0) rfl (by omega), ok_bind, vset_of (k := m) rfl (by omega), ok_bind]
  have : vset (List.replicate (m : ℤ).toNat (0 : XYZ ℝ)) (m : ℤ) (nth l 0) = ub := by
    unfold vset; simp
  rw [this]
  rfl

/-- C129 (violated): for a closed curve nothing is ever returned: the array of averaged vectors is one element too short and is
written past its end, unless the search for the vectors does not end. -/
theorem C129_closed_violated {c : NurbsCurve ℝ} {D : ℕ → XYZ ℝ} (h : HasTangents c D) (hl : 2 ≤ c.knots.length) (hc : isClosedCurve c = ok true) (fuel : ℕ) (angle : ℕ → ℝ) :
    projectNormal fuel angle c = ub ∨ projectNormal fuel angle c = diverge := by
  obtain ⟨m, hm⟩ : ∃ m, c.knots.length = m + 1 := ⟨c.knots.length - 1, by omega⟩
  rw [project_start h hm]
  rcases whileF_total (Inv := fun st : List (XYZ ℝ) × Bool × ℕ => st.1.length = m + 1) (cond := fun st => ok st.2.1) (body := projectTry angle c (D 0).normalize m)
    (fun s hs => ⟨⟨_, rfl⟩, projectTry_runs h hm hs _⟩) fuel (List.replicate (m + 1) 0, true, 0) (by simp) with e | ⟨st, e, hst⟩
  · right; rw [e]; rfl
  · left
    rw [e, ok_bind, hc, ok_bind, if_pos rfl, projectClosed_ub hst]

/-- the straight case: no round is needed twice -/
theorem projectTry_straight {angle : ℕ → ℝ} {c : NurbsCurve ℝ} {D : ℕ → XYZ ℝ} (h : HasTangents c D) {m : ℕ} (hm : c.knots.length = m + 1) {d : XYZ ℝ} (hd : ¬ (d.z = d.x ∧ d.y = -d.x))
    (hD : ∀ i ≤ m, ∃ k : ℝ, k ≠ 0 ∧ D i = k • d) {st : List (XYZ ℝ) × Bool × ℕ} (hst : st.1.length = m + 1) :
    ∃ b : XYZ ℝ, b = createRandomOrthogonal (D 0).normalize (angle st.2.2) ∧ projectTry angle c (D 0).normalize m st = ok (List.replicate (m + 1) b, false, st.2.2 + 1) := by
  refine ⟨_, rfl, ?_⟩
  set b := createRandomOrthogonal (D 0).normalize (angle st.2.2) with hb
  have hd0 : d ≠ 0 := by
    rintro rfl
    exact hd (by simp)
  obtain ⟨k0, hk0, e0⟩ := hD 0 (by omega)
  have hN : ∀ i ≤ m, ∃ k : ℝ, (D i).normalize = k • d ∧ (D i).normalize.length = 1 := by
    intro i hi
    obtain ⟨k, hk, e⟩ := hD i hi
    have hne : D i ≠ 0 := by
      rw [e]
      intro hz
      exact hd0 (by rw [← inv_smul_smul₀ hk d, hz, smul_zero])
    obtain ⟨h1, k', -, h2⟩ := (C29_normalize (D i)).1 hne
    exact ⟨k' * k, by rw [h2, e, smul_smul], h1⟩
  obtain ⟨k1, e1, l1⟩ := hN 0 (by omega)
  have hk1 : k1 ≠ 0 := by
    rintro rfl
    rw [e1, zero_smul] at l1
    simp [XYZ.length] at l1
  obtain ⟨c1, c2⟩ := C64_random_orthogonal_partial (D 0).normalize (angle st.2.2)
  have hb1 : b.length = 1 := by
    apply c2
    rintro ⟨z1, z2⟩
    rw [e1] at z1 z2
    simp at z1 z2
    exact hd ⟨z1.resolve_right hk1, by
      have : k1 * (d.y + d.x) = 0 := by linarith
      have := (mul_eq_zero.mp this).resolve_left hk1
      linarith⟩
  have hbd : b.dot d = 0 := by
    have h2 : b.dot (D 0).normalize = 0 := c1
    rw [e1] at h2
    have h3 : b.dot (k1 • d) = k1 * b.dot d := by simp [XYZ.dot]; ring
    rw [h3] at h2
    exact (mul_eq_zero.mp h2).resolve_left hk1
  have hbb := dot_self_of_length hb1
  have hnorm : b.normalize = b := by
    unfold XYZ.normalize
    rw [hb1, if_pos one_pos]
    ext <;> simp
  unfold projectTry
  rw [vset_of (k := 0) (by simp) (by omega), ok_bind, ← hb]
  have hrun : Runs (forI 1 ((m : ℤ) + 1) (st.1.set 0 b, false) (projectStep c)) (fun r => r = (List.replicate (m + 1) b, false)) := by
    refine (Runs.forN (m := 1) (n := m + 1) (fun i r => r.1.length = m + 1 ∧ r.2 = false ∧ ∀ j < i, nth r.1 j = b) rfl (by push_cast; ring) (by omega)
      ⟨by simp [hst], rfl, fun j hj => by rw [nth_set (by omega), if_pos (by omega)]⟩ ?_).mono ?_
    · rintro i ⟨l, fl⟩ h1 h2 ⟨k1, k2, k3⟩
      dsimp only at k1 k2 k3
      subst k2
      rw [projectStep_run h hm (by omega) h1 k1, if_neg (by simp), k3 (i - 1) (by omega)]
      obtain ⟨k, ek, lk⟩ := hN i (by omega)
      have ht := dot_self_of_length lk
      have hdot : b.dot (D i).normalize = 0 := by
        rw [ek]
        have : b.dot (k • d) = k * b.dot d := by simp [XYZ.dot]; ring
        rw [this, hbd, mul_zero]
      have hz : (((D i).normalize).cross b).isZero = false := by
        have e : (((D i).normalize).cross b).sqrLength = ((D i).normalize).dot ((D i).normalize) * b.dot b - b.dot (D i).normalize * b.dot (D i).normalize := by
          simp [XYZ.cross, XYZ.sqrLength, XYZ.dot]; ring
        unfold XYZ.isZero
        rw [e, ht, hbb, hdot]
        unfold doubleEps
        norm_num
      rw [hz, if_neg (by simp), hdot, zero_smul, sub_zero, hnorm]
      refine Runs.ok ⟨by simp [k1], rfl, fun j hj => ?_⟩
      dsimp only
      rw [nth_set (by omega)]
      split
      · rfl
      · exact k3 j (by omega)
    · rintro ⟨l, fl⟩ ⟨k1, k2, k3⟩
      dsimp only at k1 k2 k3
      subst k2
      congr 1
      apply ext_nth (by simp [k1])
      intro j hj
      rw [k3 j (by omega), nth_replicate (by omega)]
  obtain ⟨r, hr, rfl⟩ := hrun
  rw [hr, ok_bind]
  rfl

/-- C129: an open curve whose derivatives at the knots are all multiples of one direction gets, at the first attempt, the same normal at
every knot; the direction must not be a multiple of `(1, -1, 1)`. -/
theorem C129_straight_partial {c : NurbsCurve ℝ} {D : ℕ → XYZ ℝ} (h : HasTangents c D) (hl : 1 ≤ c.knots.length) (hc : isClosedCurve c = ok false)
    {d : XYZ ℝ} (hd : ¬ (d.z = d.x ∧ d.y = -d.x)) (hD : ∀ i < c.knots.length, ∃ k : ℝ, k ≠ 0 ∧ D i = k • d) (fuel : ℕ) (angle : ℕ → ℝ) :
    projectNormal (fuel + 1) angle c = ok (List.replicate c.knots.length (createRandomOrthogonal (D 0).normalize (angle 0))) := by
  obtain ⟨m, hm⟩ : ∃ m, c.knots.length = m + 1 := ⟨c.knots.length - 1, by omega⟩
  rw [project_start h hm]
  obtain ⟨b, hb, e⟩ := projectTry_straight (angle := angle) h hm hd (fun i hi => hD i (by omega)) (st := (List.replicate (m + 1) 0, true, 0)) (by simp)
  have hw : whileF (fun st : List (XYZ ℝ) × Bool × ℕ => ok st.2.1) (projectTry angle c (D 0).normalize m) (fuel + 1) (List.replicate (m + 1) 0, true, 0) = ok (List.replicate (m + 1) b, false, 0 + 1) := by
    rw [whileF.eq_2, ok_bind, if_pos rfl, e, ok_bind]
    cases fuel <;> simp [whileF]
  rw [hw, ok_bind, hc, ok_bind, if_neg (by simp), hm, hb]

/-- C129 (violated): on a closed curve of that kind the write past the end does happen. -/
theorem C129_closed_ub_violated {c : NurbsCurve ℝ} {D : ℕ → XYZ ℝ} (h : HasTangents c D) (hl : 1 ≤ c.knots.length) (hc : isClosedCurve c = ok true)
    {d : XYZ ℝ} (hd : ¬ (d.z = d.x ∧ d.y = -d.x)) (hD : ∀ i < c.knots.length, ∃ k : ℝ, k ≠ 0 ∧ D i = k • d) (fuel : ℕ) (angle : ℕ → ℝ) :
    projectNormal (fuel + 1) angle c = ub := by
  obtain ⟨m, hm⟩ : ∃ m, c.knots.length = m + 1 := ⟨c.knots.length - 1, by omega⟩
  rw [project_start h hm]
  obtain ⟨b, hb, e⟩ := projectTry_straight (angle := angle) h hm hd (fun i hi => hD i (by omega)) (st := (List.replicate (m + 1) 0, true, 0)) (by simp)
  have hw : whileF (fun st : List (XYZ ℝ) × Bool × ℕ => ok st.2.1) (projectTry angle c (D 0).normalize m) (fuel + 1) (List.replicate (m + 1) 0, true, 0) = ok (List.replicate (m + 1) b, false, 0 + 1) := by
    rw [whileF.eq_2, ok_bind, if_pos rfl, e, ok_bind]
    cases fuel <;> simp [whileF]
  rw [hw, ok_bind, hc, ok_bind, if_pos rfl, projectClosed_ub (by simp)]

/-! ## The derivatives are defined -/

/-- every clamped curve with positive weights has first derivatives at its knots -/
theorem hasTangents_of {c : NurbsCurve ℝ} {p n : ℕ} (w : WellFormed c p n) (he : EndsSeparated (nth c.knots) p n) (hc : ClampedEnds (nth c.knots) p n)
    (hw : ∀ t, nth c.knots p ≤ t → t ≤ nth c.knots (n + 1) → weightFn (nth c.knots) p n (nth c.cps) t ≠ 0) : ∃ D, HasTangents c D := by
  have key : ∀ i, ∃ d : XYZ ℝ, i < c.knots.length → ∃ x, NurbsCurve.rationalDerivatives c 1 (nth c.knots i) = ok [x, d] := by
    intro i
    by_cases hi : i < c.knots.length
    · have hk := w.knots
      have hpn := w.pn
      have h0 : nth c.knots p ≤ nth c.knots i := by
        by_cases hip : p ≤ i
        · exact w.sorted p i hip hi
        · rw [clamped_first w hc p le_rfl, ← clamped_first w hc i (by omega)]
      have h1 : nth c.knots i ≤ nth c.knots (n + 1) := by
        by_cases hip : i ≤ n + 1
        · exact w.sorted i (n + 1) hip (by omega)
        · rw [clamped_last w hc i (by omega) (by omega), ← clamped_last w hc (n + 1) le_rfl (by omega)]
      obtain ⟨s, -, hs⟩ := span_isSpan w he h0 h1
      obtain ⟨l, e, hl, -⟩ := C20_leibniz (d := 1) w he h0 h1 hs (by omega) (hw _ h0 h1)
      have e2 : l = [nth l 0, nth l 1] := by
        apply ext_nth (by rw [hl]; rfl)
        intro j hj
        rw [hl] at hj
        interval_cases j <;> rfl
      refine ⟨nth l 1, fun _ => ⟨nth l 0, ?_⟩⟩
      rw [← e2]
      exact e
    · exact ⟨0, fun h => absurd h hi⟩
  choose D hD using key
  exact ⟨D, fun i hi => hD i hi⟩

/-- C129: on an open clamped curve whose weight function does not vanish no other outcome is possible: the function returns unit normals for
all knots, or it goes on for ever. -/
theorem C129_open_partial {c : NurbsCurve ℝ} {p n : ℕ} (w : WellFormed c p n) (he : EndsSeparated (nth c.knots) p n) (hc : ClampedEnds (nth c.knots) p n)
    (hw : ∀ t, nth c.knots p ≤ t → t ≤ nth c.knots (n + 1) → weightFn (nth c.knots) p n (nth c.cps) t ≠ 0) (ho : isClosedCurve c = ok false) (fuel : ℕ) (angle : ℕ → ℝ) :
    projectNormal fuel angle c = diverge ∨ ∃ B, projectNormal fuel angle c = ok B ∧ B.length = n + p + 2 ∧ ∀ i < n + p + 2, ∃ l,
      NurbsCurve.rationalDerivatives c 1 (nth c.knots i) = ok l ∧ nth l 1 ≠ 0 ∧ (nth B i).length = 1 ∧ (nth B i).dot (nth l 1) = 0 := by
  obtain ⟨D, h⟩ := hasTangents_of w he hc hw
  have hk := w.knots
  have hm : c.knots.length = (n + p + 1) + 1 := by omega
  rcases whileF_total (Inv := fun st : List (XYZ ℝ) × Bool × ℕ => st.1.length = n + p + 1 + 1) (cond := fun st => ok st.2.1) (body := projectTry angle c (D 0).normalize ((n + p + 1 : ℕ) : ℤ))
    (fun s hs => ⟨⟨_, rfl⟩, projectTry_runs h hm hs _⟩) fuel (List.replicate (n + p + 1 + 1) 0, true, 0) (by simp) with e | ⟨st, e, hst⟩
  · left
    rw [project_start h hm, e]; rfl
  · right
    have e2 : projectNormal fuel angle c = ok st.1 := by
      rw [project_start h hm, e, ok_bind, ho, ok_bind, if_neg (by simp)]
    obtain ⟨b1, b2⟩ := C129_normals (by omega) e2
    exact ⟨st.1, e2, by rw [b1, hk], fun i hi => b2 i (by omega)⟩

/-! ## Concrete curves -/

/-- the segment from `P` to `Q` -/
def plainSegment (P Q : XYZ ℝ) : NurbsCurve ℝ := { degree := 1, knots := [0, 0, 1, 1], cps := [⟨P.x, P.y, P.z, 1⟩, ⟨Q.x, Q.y, Q.z, 1⟩] }

theorem plainSegment_facts (P Q : XYZ ℝ) : WellFormed (plainSegment P Q) 1 1 ∧ EndsSeparated (nth (plainSegment P Q).knots) 1 1 ∧ ClampedEnds (nth (plainSegment P Q).knots) 1 1 := by
  refine ⟨?_, ?_, ?_⟩
  · refine ⟨rfl, by omega, by omega, rfl, le_rfl, rfl, ?_⟩
    apply isValidKnotVector_nth.mp
    simp [isValidKnotVector, plainSegment]
  · constructor <;> simp [nth, plainSegment] <;> norm_num
  · constructor <;> simp [nth, plainSegment]

theorem plainSegment_tangents (P Q : XYZ ℝ) : HasTangents (plainSegment P Q) fun _ => Q - P := by
  obtain ⟨w, he, hc⟩ := plainSegment_facts P Q
  have hm := wf_monoTo w
  have key : ∀ t : ℝ, 0 ≤ t → t ≤ 1 → ∃ x, NurbsCurve.rationalDerivatives (plainSegment P Q) 1 t = ok [x, Q - P] := by
    intro t h0 h1
    have k1 : nth (plainSegment P Q).knots 1 = 0 := rfl
    have k2 : nth (plainSegment P Q).knots (1 + 1) = 1 := rfl
    obtain ⟨s, -, hs⟩ := span_isSpan (t := t) w he (by rw [k1]; exact h0) (by rw [k2]; exact h1)
    have es : s = 1 := by have := hs.1; have := hs.2.1; omega
    subst es
    have hpt : curvePoint (nth (plainSegment P Q).knots) 1 1 (nth (plainSegment P Q).cps) t = ⟨(1 - t) * P.x + t * Q.x, (1 - t) * P.y + t * Q.y, (1 - t) * P.z + t * Q.z, 1⟩ := by
      rw [curvePoint_span hm le_rfl hs]
      simp only [Finset.sum_range_succ, Finset.sum_range_zero]
      ext <;> simp [Nspan, plainSegment, nth]
    obtain ⟨l, e, hl, e0, hk⟩ := end_derivatives (d := 1) w he (by rw [k1]; exact h0) (by rw [k2]; exact h1) hs hpt one_ne_zero (by omega)
    have d0 : (curveDeriv (nth (plainSegment P Q).knots) 1 1 1 (nth (plainSegment P Q).cps) 0 t).w = 1 := by
      rw [curveDeriv_window hs.1 hs.2.1]
      simp only [dN_zero]
      rw [← curvePoint_span hm le_rfl hs, hpt]
    have d1 : curveDeriv (nth (plainSegment P Q).knots) 1 1 1 (nth (plainSegment P Q).cps) 1 t = ⟨Q.x - P.x, Q.y - P.y, Q.z - P.z, 0⟩ := by
      unfold curveDeriv
      simp only [Finset.sum_range_succ, Finset.sum_range_zero]
      rw [dN_succ hm 1 0 0 0 (by omega), dN_succ hm 1 0 1 0 (by omega)]
      simp only [dN_zero]
      ext <;> simp [Nspan, plainSegment, nth] <;> ring
    have q1 := hk 1 le_rfl
    simp only [Finset.sum_range_succ, Finset.sum_range_zero, d0, d1] at q1
    have e1 : nth l 1 = Q - P := by
      ext
      · have := congrArg XYZ.x q1; simp [XYZW.raw] at this; simp [this]
      · have := congrArg XYZ.y q1; simp [XYZW.raw] at this; simp [this]
      · have := congrArg XYZ.z q1; simp [XYZW.raw] at this; simp [this]
    refine ⟨nth l 0, ?_⟩
    rw [← e1]
    have e' : NurbsCurve.rationalDerivatives (plainSegment P Q) 1 t = ok l := e
    rw [e']
    congr 1
    apply ext_nth (by rw [hl]; rfl)
    intro j hj
    rw [hl] at hj
    interval_cases j <;> rfl
  intro i hi
  have hi' : i < 4 := hi
  interval_cases i
  · exact key 0 le_rfl zero_le_one
  · exact key 0 le_rfl zero_le_one
  · exact key 1 zero_le_one le_rfl
  · exact key 1 zero_le_one le_rfl

/-- there and back along one line -/
def foldedSegment : NurbsCurve ℝ := { degree := 2, knots := [0, 0, 0, 1, 1, 1], cps := [⟨0, 0, 0, 1⟩, ⟨1, 0, 0, 1⟩, ⟨0, 0, 0, 1⟩] }

theorem foldedSegment_facts : WellFormed foldedSegment 2 2 ∧ EndsSeparated (nth foldedSegment.knots) 2 2 ∧ ClampedEnds (nth foldedSegment.knots) 2 2 := by
  refine ⟨?_, ?_, ?_⟩
  · refine ⟨rfl, by omega, by omega, rfl, le_rfl, rfl, ?_⟩
    apply isValidKnotVector_nth.mp
    simp [isValidKnotVector, foldedSegment]
  · constructor <;> simp [nth, foldedSegment] <;> norm_num
  · constructor <;> simp [nth, foldedSegment]

theorem foldedSegment_tangents : HasTangents foldedSegment fun i => if i < 3 then ⟨2, 0, 0⟩ else ⟨-2, 0, 0⟩ := by
  obtain ⟨w, he, hc⟩ := foldedSegment_facts
  have hm := wf_monoTo w
  have key : ∀ t : ℝ, 0 ≤ t → t ≤ 1 → ∃ x, NurbsCurve.rationalDerivatives foldedSegment 1 t = ok [x, ⟨2 - 4 * t, 0, 0⟩] := by
    intro t h0 h1
    have k1 : nth foldedSegment.knots 2 = 0 := rfl
    have k2 : nth foldedSegment.knots (2 + 1) = 1 := rfl
    obtain ⟨s, -, hs⟩ := span_isSpan (t := t) w he (by rw [k1]; exact h0) (by rw [k2]; exact h1)
    have es : s = 2 := by have := hs.1; have := hs.2.1; omega
    subst es
    have hpt : curvePoint (nth foldedSegment.knots) 2 2 (nth foldedSegment.cps) t = ⟨2 * t * (1 - t), 0, 0, 1⟩ := by
      rw [curvePoint_span hm le_rfl hs]
      simp only [Finset.sum_range_succ, Finset.sum_range_zero]
      ext <;> simp [Nspan, foldedSegment, nth] <;> ring
    obtain ⟨l, e, hl, e0, hk⟩ := end_derivatives (d := 1) w he (by rw [k1]; exact h0) (by rw [k2]; exact h1) hs hpt one_ne_zero (by omega)
    have d0 : (curveDeriv (nth foldedSegment.knots) 2 2 2 (nth foldedSegment.cps) 0 t).w = 1 := by
      rw [curveDeriv_window hs.1 hs.2.1]
      simp only [dN_zero]
      rw [← curvePoint_span hm le_rfl hs, hpt]
    have d1 : curveDeriv (nth foldedSegment.knots) 2 2 2 (nth foldedSegment.cps) 1 t = ⟨2 - 4 * t, 0, 0, 0⟩ := by
      unfold curveDeriv
      simp only [Finset.sum_range_succ, Finset.sum_range_zero]
      rw [dN_succ hm 2 1 0 0 (by omega), dN_succ hm 2 1 1 0 (by omega), dN_succ hm 2 1 2 0 (by omega)]
      simp only [dN_zero]
      ext <;> simp [Nspan, foldedSegment, nth] <;> ring
    have q1 := hk 1 le_rfl
    simp only [Finset.sum_range_succ, Finset.sum_range_zero, d0, d1] at q1
    have e1 : nth l 1 = ⟨2 - 4 * t, 0, 0⟩ := by
      ext
      · have := congrArg XYZ.x q1; simp [XYZW.raw] at this; simp [this]
      · have := congrArg XYZ.y q1; simp [XYZW.raw] at this; simp [this]
      · have := congrArg XYZ.z q1; simp [XYZW.raw] at this; simp [this]
    refine ⟨nth l 0, ?_⟩
    rw [← e1]
    have e' : NurbsCurve.rationalDerivatives foldedSegment 1 t = ok l := e
    rw [e']
    congr 1
    apply ext_nth (by rw [hl]; rfl)
    intro j hj
    rw [hl] at hj
    interval_cases j <;> rfl
  have a0 := key 0 le_rfl zero_le_one
  have a1 := key 1 zero_le_one le_rfl
  norm_num at a0 a1
  intro i hi
  have hi' : i < 6 := hi
  interval_cases i
  · exact a0
  · exact a0
  · exact a0
  · exact a1
  · exact a1
  · exact a1

/-- C129, concretely: a segment along x gets its normals at the first attempt; a segment along `(1, -1, 1)` never does; on the closed curve
that runs along a segment and back the array is written past its end. -/
theorem C129_concrete : (∀ fuel angle, projectNormal (fuel + 1) angle (plainSegment ⟨0, 0, 0⟩ ⟨2, 0, 0⟩) = ok (List.replicate 4 (createRandomOrthogonal (XYZ.normalize ⟨2, 0, 0⟩) (angle 0)))) ∧
    (∀ fuel angle, projectNormal fuel angle (plainSegment ⟨0, 0, 0⟩ ⟨1, -1, 1⟩) = diverge) ∧
    ∀ fuel angle, projectNormal (fuel + 1) angle foldedSegment = ub := by
  refine ⟨fun fuel angle => ?_, fun fuel angle => ?_, fun fuel angle => ?_⟩
  · have e : (⟨2, 0, 0⟩ : XYZ ℝ) - ⟨0, 0, 0⟩ = ⟨2, 0, 0⟩ := by ext <;> simp
    have h := plainSegment_tangents ⟨0, 0, 0⟩ ⟨2, 0, 0⟩
    rw [e] at h
    obtain ⟨w, he, hc⟩ := plainSegment_facts ⟨0, 0, 0⟩ ⟨2, 0, 0⟩
    obtain ⟨-, -, b, hb, hb'⟩ := isClosed_run w he hc
    have hP0 : (nth (plainSegment ⟨0, 0, 0⟩ ⟨2, 0, 0⟩).cps 0).toXYZ = ⟨0, 0, 0⟩ := by simp [plainSegment, nth, XYZW.toXYZ, XYZW.raw]
    have hP1 : (nth (plainSegment ⟨0, 0, 0⟩ ⟨2, 0, 0⟩).cps 1).toXYZ = ⟨2, 0, 0⟩ := by simp [plainSegment, nth, XYZW.toXYZ, XYZW.raw]
    have hfalse : b = false := by
      cases b with
      | false => rfl
      | true =>
        exfalso
        rcases hb'.mp rfl with h | ⟨k, k1, -, k3⟩
        · rw [hP0, hP1] at h
          simp [XYZ.distance] at h
          norm_num at h
        · have hk : k = 0 := by omega
          subst hk
          have := k3 0 le_rfl
          rw [show 1 - 0 + 0 = 1 from rfl, hP0, hP1] at this
          simp [Near] at this
          norm_num at this
    rw [hfalse] at hb
    exact C129_straight_partial h (by simp [plainSegment]) hb (d := ⟨2, 0, 0⟩) (by simp) (fun i _ => ⟨1, one_ne_zero, (one_smul ℝ _).symm⟩) fuel angle
  · exact C129_stuck_violated (plainSegment_tangents _ _) (by simp [plainSegment]) (Or.inl ⟨1, by ext <;> simp⟩) fuel angle
  · obtain ⟨w, he, hc⟩ := foldedSegment_facts
    obtain ⟨-, -, b, hb, hb'⟩ := isClosed_run w he hc
    have htrue : b = true := by
      apply hb'.mpr
      left
      simp [foldedSegment, nth, XYZ.distance]
    rw [htrue] at hb
    refine C129_closed_ub_violated foldedSegment_tangents (by simp [foldedSegment]) hb (d := ⟨2, 0, 0⟩) (by simp) (fun i _ => ?_) fuel angle
    by_cases hi : i < 3
    · exact ⟨1, one_ne_zero, by rw [if_pos hi, one_smul]⟩
    · exact ⟨-1, by norm_num, by rw [if_neg hi]; ext <;> simp⟩

/-- the normals of the segment along x are unit vectors orthogonal to it -/
example (angle : ℕ → ℝ) : ∃ B, projectNormal 1 angle (plainSegment ⟨0, 0, 0⟩ ⟨2, 0, 0⟩) = ok B ∧ B.length = 4 ∧ ∀ i < 4, (nth B i).length = 1 := by
  have h := C129_concrete.1 0 angle
  refine ⟨_, h, by simp, fun i hi => ?_⟩
  obtain ⟨l, -, -, hl, -⟩ := (C129_normals (by simp [plainSegment]) h).2 i hi
  exact hl

end LNLib.Props
