import Mathlib.Tactic.Positivity
import Verif.Model.LengthParam
import Verif.Props.Refine
import Verif.Props.Linear

/-!
# C145: parameters at a given length
-/

namespace LNLib.Props
open LNLib Res LNLib.Spec Finset

/-- "the part of `c` in front of `t` has the length `L`": `SplitAt` splits `c` at `t`, and the length of the first part is `L` -/
def LengthTo (len : NurbsCurve ℝ → Res ℝ) (c : NurbsCurve ℝ) (t L : ℝ) : Prop :=
  ∃ left right, splitAt c t = ok (some (left, right)) ∧ len left = ok L

/-- "the part of `c` in front of `t` has the length `given`", up to the tolerance `1e-4` for lengths -/
def AtLength (len : NurbsCurve ℝ → Res ℝ) (c : NurbsCurve ℝ) (given t : ℝ) : Prop :=
  ∃ L, LengthTo len c t L ∧ |L - given| ≤ 1 / 10000 * (1 + max |L| |given|)

/-- "the length `given` is not reached at `t`" (`t` may be the start `a` of the curve) -/
def NotReached (len : NurbsCurve ℝ → Res ℝ) (c : NurbsCurve ℝ) (given a t : ℝ) : Prop :=
  t = a ∨ ∃ L, LengthTo len c t L ∧ L < given

/-- "the length `given` is exceeded at `t`" (`t` may be the end `b` of the curve) -/
def Exceeded (len : NurbsCurve ℝ → Res ℝ) (c : NurbsCurve ℝ) (given b t : ℝ) : Prop :=
  t = b ∨ ∃ L, LengthTo len c t L ∧ given < L

theorem greater_imp {a b tol : ℝ} (ht : 0 < tol) (h : isGreaterThan a b tol = true) : b < a := by
  have h := of_decide_eq_true h
  unfold tolOf at h
  have : 0 < tol * (1 + max |a| |b|) := by positivity
  linarith

theorem less_imp {a b tol : ℝ} (ht : 0 < tol) (h : isLessThan a b tol = true) : a < b := by
  have h := of_decide_eq_true h
  unfold tolOf at h
  have : 0 < tol * (1 + max |a| |b|) := by positivity
  linarith

theorem distanceEps_pos : (0 : ℝ) < distanceEps := by unfold distanceEps; norm_num

theorem almost_dist {a b : ℝ} (h : isAlmostEqualTo a b distanceEps = true) : |a - b| ≤ 1 / 10000 * (1 + max |a| |b|) := by
  have h := of_decide_eq_true h
  simpa only [tolOf, distanceEps] using h

/-- one of the three comparisons holds -/
theorem compare_cases (a b tol : ℝ) : isAlmostEqualTo a b tol = true ∨ isGreaterThan a b tol = true ∨ isLessThan a b tol = true := by
  simp only [isAlmostEqualTo, isGreaterThan, isLessThan, decide_eq_true_eq]
  rcases le_or_gt |a - b| (tolOf a b tol) with h | h
  · exact Or.inl h
  · rcases lt_abs.mp h with h | h
    · exact Or.inr (Or.inl h)
    · exact Or.inr (Or.inr (by linarith))

/-- `SplitAt` refuses only values at or beyond the ends, up to the tolerance -/
theorem split_none {c : NurbsCurve ℝ} {p n : ℕ} (w : WellFormed c p n) {m : ℝ} (h : splitAt c m = ok none) :
    m - nth c.knots p ≤ 1 / 1000000 * (1 + max |m| |nth c.knots p|) ∨ nth c.knots (n + 1) - m ≤ 1 / 1000000 * (1 + max |m| |nth c.knots (n + 1)|) := by
  have hU := w.knots
  have hpn := w.pn
  have e1 : vget c.knots c.degree = ok (nth c.knots p) := vget_nth w.degree (by omega)
  have e2 : vget c.knots ((c.knots.length : ℤ) - c.degree - 1) = ok (nth c.knots (n + 1)) :=
    vget_nth (by rw [w.degree]; omega) (by omega)
  unfold splitAt at h
  dsimp only at h
  rw [e1, ok_bind] at h
  by_cases b1 : isLessThanOrEqual m (nth c.knots p) = true
  · left
    have b1 := of_decide_eq_true b1
    simpa only [tolOf, doubleEps] using b1
  · right
    rw [if_neg b1, e2, ok_bind, ok_bind] at h
    by_cases b2 : isGreaterThanOrEqual m (nth c.knots (n + 1)) = true
    · have b2 := of_decide_eq_true b2
      simp only [tolOf, doubleEps] at b2
      linarith
    · rw [if_neg b2] at h
      obtain ⟨x, -, h⟩ := bind_eq_ok.mp h
      obtain ⟨y, -, h⟩ := bind_eq_ok.mp h
      obtain ⟨z, -, h⟩ := bind_eq_ok.mp h
      simp at h

/-- the bisection keeps its bracket -/
theorem byLength_sound {len : NurbsCurve ℝ → Res ℝ} {c : NurbsCurve ℝ} {given a b : ℝ} {t : ℝ} :
    ∀ (fuel : ℕ) (s e : ℝ), a ≤ s → s ≤ e → e ≤ b → NotReached len c given a s → Exceeded len c given b e →
      getParamByLength len c given fuel s e = ok t →
      a ≤ t ∧ t ≤ b ∧ (AtLength len c given t ∨
        ∃ e', t ≤ e' ∧ e' ≤ b ∧ splitAt c ((t + e') / 2) = ok none ∧ NotReached len c given a t ∧ Exceeded len c given b e') := by
  intro fuel
  induction fuel with
  | zero => intro s e _ _ _ _ _ h; simp [getParamByLength] at h
  | succ fuel ih =>
    intro s e h1 h2 h3 hs he h
    unfold getParamByLength at h
    dsimp only at h
    obtain ⟨sp, hsp, h⟩ := bind_eq_ok.mp h
    match sp, hsp, h with
    | none, hsp, h =>
      have h : ok s = ok t := h
      cases h
      exact ⟨h1, h2.trans h3, Or.inr ⟨e, h2, h3, hsp, hs, he⟩⟩
    | some (left, right), hsp, h =>
      obtain ⟨L, hL, h⟩ := bind_eq_ok.mp h
      have hto : LengthTo len c ((s + e) / 2) L := ⟨left, right, hsp, hL⟩
      have m1 : s ≤ (s + e) / 2 := by linarith
      have m2 : (s + e) / 2 ≤ e := by linarith
      split_ifs at h with b1 b2 b3
      · cases h
        exact ⟨h1.trans m1, m2.trans h3, Or.inl ⟨L, hto, almost_dist b1⟩⟩
      · exact ih s _ h1 m1 (m2.trans h3) hs (Or.inr ⟨L, hto, greater_imp distanceEps_pos b2⟩) h
      · exact ih _ e (h1.trans m1) m2 h3 (Or.inr ⟨L, hto, less_imp distanceEps_pos b3⟩) he h
      · rcases compare_cases L given distanceEps with h' | h' | h'
        · exact absurd h' b1
        · exact absurd h' b2
        · exact absurd h' b3

/-- what the loop over the knots finds -/
theorem knotScan_sound {len : NurbsCurve ℝ → Res ℝ} {c : NurbsCurve ℝ} {given b : ℝ} : ∀ (ks : List ℝ) (r : KnotScan), knotScan len c given b ks = ok r →
    (∀ k, r = .found k → k ∈ ks ∧ AtLength len c given k) ∧
    (∀ e, r = .bracket e → (e = b ∨ e ∈ ks) ∧ Exceeded len c given b e) := by
  intro ks
  induction ks with
  | nil =>
    intro r h
    unfold knotScan at h
    cases h
    refine ⟨fun k hk => (by cases hk), fun e he => ?_⟩
    cases he
    exact ⟨Or.inl rfl, Or.inl rfl⟩
  | cons knot rest ih =>
    intro r h
    have widen : ∀ r, knotScan len c given b rest = ok r →
        (∀ k, r = .found k → k ∈ knot :: rest ∧ AtLength len c given k) ∧
        (∀ e, r = .bracket e → (e = b ∨ e ∈ knot :: rest) ∧ Exceeded len c given b e) := by
      intro r hr
      obtain ⟨i1, i2⟩ := ih r hr
      exact ⟨fun k hk => ⟨List.mem_cons_of_mem _ (i1 k hk).1, (i1 k hk).2⟩,
        fun e he => ⟨(i2 e he).1.imp id (List.mem_cons_of_mem _), (i2 e he).2⟩⟩
    unfold knotScan at h
    obtain ⟨sp, hsp, h⟩ := bind_eq_ok.mp h
    match sp, hsp, h with
    | none, hsp, h => exact widen r h
    | some (left, right), hsp, h =>
      obtain ⟨L, hL, h⟩ := bind_eq_ok.mp h
      have hto : LengthTo len c knot L := ⟨left, right, hsp, hL⟩
      split_ifs at h with b1 b2
      · cases h
        refine ⟨fun k hk => ?_, fun e he => (by cases he)⟩
        cases hk
        refine ⟨List.mem_cons_self, L, hto, (almost_iff.mp b1).trans ?_⟩
        have : 0 ≤ 1 + max |L| |given| := by positivity
        nlinarith
      · cases h
        refine ⟨fun k hk => (by cases hk), fun e he => ?_⟩
        cases he
        exact ⟨Or.inr List.mem_cons_self, Or.inr ⟨L, hto, greater_imp doubleEps_pos b2⟩⟩
      · exact widen r h

theorem knots_ends {c : NurbsCurve ℝ} {p n : ℕ} (w : WellFormed c p n) :
    vget c.knots 0 = ok (nth c.knots 0) ∧ vget c.knots ((c.knots.length : ℤ) - 1) = ok (nth c.knots (n + p + 1)) ∧
      ∀ k ∈ c.knots, nth c.knots 0 ≤ k ∧ k ≤ nth c.knots (n + p + 1) := by
  have hU := w.knots
  refine ⟨vget_nth (by rfl) (by omega), vget_nth (by omega) (by omega), fun k hk => ?_⟩
  obtain ⟨i, hi, rfl⟩ := List.mem_iff_getElem.mp hk
  have e : c.knots[i] = nth c.knots i := by unfold nth; simp [hi]
  rw [e]
  exact ⟨w.sorted 0 i (by omega) hi, w.sorted i _ (by omega) (by omega)⟩

/-- C145: for every well-formed curve with clamped ends, every length and every way of measuring lengths, a parameter returned by
`GetParamOnCurve(curve, length)` lies in the domain, and either the part of the curve in front of it has the wanted length (up to `1e-4`), or
it is the end of a curve that is too short, or it is the start of a bracket of width at most `2e-6 (1 + max(|a|,|b|))` in which the length is
passed. -/
theorem C145_sound {len : NurbsCurve ℝ → Res ℝ} {c : NurbsCurve ℝ} {p n : ℕ} {given t : ℝ} {fuel : ℕ} (w : WellFormed c p n)
    (hcl : ClampedEnds (nth c.knots) p n) (h : getParamAtLength fuel len c given = ok t) :
    nth c.knots p ≤ t ∧ t ≤ nth c.knots (n + 1) ∧
      (AtLength len c given t ∨
        (t = nth c.knots (n + 1) ∧ ∃ total, len c = ok total ∧ total < given) ∨
        ∃ e, t ≤ e ∧ e ≤ nth c.knots (n + 1) ∧ e - t ≤ 2 / 1000000 * (1 + max |nth c.knots p| |nth c.knots (n + 1)|) ∧
          NotReached len c given (nth c.knots p) t ∧ Exceeded len c given (nth c.knots (n + 1)) e) := by
  obtain ⟨k1, k2, k3⟩ := knots_ends w
  rw [hcl.first, ← hcl.last] at k3
  rw [hcl.first] at k1
  rw [← hcl.last] at k2
  set a := nth c.knots p
  set b := nth c.knots (n + 1)
  have hab : a ≤ b := w.sorted p (n + 1) (by have := w.pn; omega) (by have := w.knots; have := w.pos; omega)
  unfold getParamAtLength at h
  rw [k1, ok_bind, k2, ok_bind] at h
  obtain ⟨total, ht, h⟩ := bind_eq_ok.mp h
  split_ifs at h with b1
  · have h : t = b := by injection h with h; exact h.symm
    subst h
    exact ⟨hab, le_refl _, Or.inr (Or.inl ⟨rfl, total, ht, less_imp distanceEps_pos b1⟩)⟩
  obtain ⟨sc, hsc, h⟩ := bind_eq_ok.mp h
  obtain ⟨f1, f2⟩ := knotScan_sound _ _ hsc
  match sc, f1, f2, h with
  | .found k, f1, f2, h =>
    have h : k = t := by injection h
    subst h
    obtain ⟨g1, g2⟩ := f1 k rfl
    exact ⟨(k3 k g1).1, (k3 k g1).2, Or.inl g2⟩
  | .bracket e, f1, f2, h =>
    obtain ⟨g1, g2⟩ := f2 e rfl
    have he : a ≤ e ∧ e ≤ b := by
      rcases g1 with rfl | g1
      · exact ⟨hab, le_refl _⟩
      · exact k3 e g1
    obtain ⟨r1, r2, r3⟩ := byLength_sound (a := a) (b := b) fuel a e (le_refl _) he.1 he.2 (Or.inl rfl) g2 h
    refine ⟨r1, r2, r3.imp id fun ⟨e', q1, q2, q3, q4, q5⟩ => Or.inr ⟨e', q1, q2, ?_, q4, q5⟩⟩
    have hM : max |(t + e') / 2| |a| ≤ max |a| |b| ∧ max |(t + e') / 2| |b| ≤ max |a| |b| := by
      have : |(t + e') / 2| ≤ max |a| |b| := by
        rw [abs_le]
        constructor
        · have := neg_abs_le a; have := le_max_left |a| |b|; linarith
        · have := le_abs_self b; have := le_max_right |a| |b|; linarith
      exact ⟨max_le this (le_max_left _ _), max_le this (le_max_right _ _)⟩
    rcases split_none w q3 with h | h
    · have h : (t + e') / 2 - a ≤ 1 / 1000000 * (1 + max |(t + e') / 2| |a|) := h
      linarith [hM.1]
    · have h : b - (t + e') / 2 ≤ 1 / 1000000 * (1 + max |(t + e') / 2| |b|) := h
      linarith [hM.2]

/-- C145: for a length beyond the length of the curve the end of the domain is returned. -/
theorem C145_too_long {len : NurbsCurve ℝ → Res ℝ} {c : NurbsCurve ℝ} {p n : ℕ} {given total : ℝ} (fuel : ℕ) (w : WellFormed c p n)
    (hl : len c = ok total) (h : 1 / 10000 * (1 + max |total| |given|) < given - total) :
    getParamAtLength fuel len c given = ok (nth c.knots (n + p + 1)) := by
  obtain ⟨k1, k2, -⟩ := knots_ends w
  unfold getParamAtLength
  rw [k1, ok_bind, k2, ok_bind, hl, ok_bind, if_pos]
  exact decide_eq_true (by simpa only [tolOf, distanceEps] using h)

/-- the bisection comes to an end -/
theorem byLength_returns {len : NurbsCurve ℝ → Res ℝ} {c : NurbsCurve ℝ} {given a b t0 Lip : ℝ} {F : ℝ → ℝ} (hF0 : F t0 = given)
    (hF : ∀ m, (a + t0) / 2 ≤ m → m ≤ (b + t0) / 2 → LengthTo len c m (F m))
    (hmono : ∀ x y, (a + t0) / 2 ≤ x → x ≤ y → y ≤ (b + t0) / 2 → F x ≤ F y)
    (hLip : ∀ x y, (a + t0) / 2 ≤ x → x ≤ y → y ≤ (b + t0) / 2 → F y - F x ≤ Lip * (y - x)) (hL : 0 ≤ Lip) :
    ∀ (fuel : ℕ) (s e : ℝ), a ≤ s → s ≤ t0 → t0 ≤ e → e ≤ b → Lip * (e - s) ≤ 2 ^ fuel * (1 / 10000) →
      ∃ t, getParamByLength len c given (fuel + 1) s e = ok t := by
  intro fuel
  induction fuel with
  | zero =>
    intro s e h1 h2 h3 h4 hw
    have m1 : (a + t0) / 2 ≤ (s + e) / 2 := by linarith
    have m2 : (s + e) / 2 ≤ (b + t0) / 2 := by linarith
    obtain ⟨left, right, hsp, hlen⟩ := hF _ m1 m2
    refine ⟨(s + e) / 2, ?_⟩
    unfold getParamByLength
    dsimp only
    rw [hsp, ok_bind]
    dsimp only
    rw [hlen, ok_bind, if_pos]
    apply decide_eq_true
    simp only [tolOf, distanceEps]
    have hd : |F ((s + e) / 2) - given| ≤ Lip * (e - s) := by
      rw [← hF0]
      rcases le_total t0 ((s + e) / 2) with h | h
      · have k1 := hmono t0 _ (by linarith) h m2
        have k2 := hLip t0 _ (by linarith) h m2
        rw [abs_of_nonneg (by linarith)]
        nlinarith
      · have k1 := hmono _ t0 m1 h (by linarith)
        have k2 := hLip _ t0 m1 h (by linarith)
        rw [abs_of_nonpos (by linarith)]
        nlinarith
    have : 0 ≤ max |F ((s + e) / 2)| |given| := le_max_of_le_left (abs_nonneg _)
    simp only [pow_zero, one_mul] at hw
    linarith
  | succ fuel ih =>
    intro s e h1 h2 h3 h4 hw
    have m1 : (a + t0) / 2 ≤ (s + e) / 2 := by linarith
    have m2 : (s + e) / 2 ≤ (b + t0) / 2 := by linarith
    obtain ⟨left, right, hsp, hlen⟩ := hF _ m1 m2
    unfold getParamByLength
    dsimp only
    rw [hsp, ok_bind]
    dsimp only
    rw [hlen, ok_bind]
    rw [pow_succ] at hw
    split_ifs with b1 b2 b3
    · exact ⟨_, rfl⟩
    · have hgt := greater_imp distanceEps_pos b2
      refine ih s _ h1 h2 ?_ (by linarith) (by nlinarith)
      by_contra hcon
      have := hmono _ t0 m1 (not_le.mp hcon).le (by linarith)
      linarith
    · have hlt := less_imp distanceEps_pos b3
      refine ih _ e (by linarith) ?_ h3 h4 (by nlinarith)
      by_contra hcon
      have := hmono t0 _ (by linarith) (not_le.mp hcon).le m2
      linarith
    · exact ⟨_, rfl⟩

/-- the loop over the knots comes to an end, with a bracket around `t0` -/
theorem knotScan_returns {len : NurbsCurve ℝ → Res ℝ} {c : NurbsCurve ℝ} {given b t0 : ℝ} : ∀ ks : List ℝ,
    (∀ k ∈ ks, splitAt c k = ok none ∨ ∃ L, LengthTo len c k L ∧ (given < L → t0 ≤ k)) →
    (∃ k ∈ ks, knotScan len c given b ks = ok (.found k)) ∨ knotScan len c given b ks = ok (.bracket b) ∨
      ∃ k ∈ ks, t0 ≤ k ∧ knotScan len c given b ks = ok (.bracket k) := by
  intro ks
  induction ks with
  | nil => intro _; exact Or.inr (Or.inl rfl)
  | cons knot rest ih =>
    intro h
    have ih' := ih fun k hk => h k (List.mem_cons_of_mem _ hk)
    have widen : knotScan len c given b (knot :: rest) = knotScan len c given b rest →
        (∃ k ∈ knot :: rest, knotScan len c given b (knot :: rest) = ok (.found k)) ∨ knotScan len c given b (knot :: rest) = ok (.bracket b) ∨
          ∃ k ∈ knot :: rest, t0 ≤ k ∧ knotScan len c given b (knot :: rest) = ok (.bracket k) := by
      intro e
      rw [e]
      rcases ih' with ⟨k, h1, h2⟩ | h1 | ⟨k, h1, h2, h3⟩
      · exact Or.inl ⟨k, List.mem_cons_of_mem _ h1, h2⟩
      · exact Or.inr (Or.inl h1)
      · exact Or.inr (Or.inr ⟨k, List.mem_cons_of_mem _ h1, h2, h3⟩)
    rcases h knot List.mem_cons_self with h0 | ⟨L, ⟨left, right, hsp, hL⟩, h0⟩
    · apply widen
      conv_lhs => unfold knotScan
      rw [h0, ok_bind]
    · have e : knotScan len c given b (knot :: rest) = (if isAlmostEqualTo L given then ok (.found knot)
          else if isGreaterThan L given then ok (.bracket knot) else knotScan len c given b rest) := by
        conv_lhs => unfold knotScan
        rw [hsp, ok_bind]
        dsimp only
        rw [hL, ok_bind]
      by_cases b1 : isAlmostEqualTo L given = true
      · rw [if_pos b1] at e
        exact Or.inl ⟨knot, List.mem_cons_self, e⟩
      · rw [if_neg b1] at e
        by_cases b2 : isGreaterThan L given = true
        · rw [if_pos b2] at e
          exact Or.inr (Or.inr ⟨knot, List.mem_cons_self, h0 (greater_imp doubleEps_pos b2), e⟩)
        · rw [if_neg b2] at e
          exact widen e

/-- C145, partial: the search ends when the length in front of `t`, as measured, is a monotone Lipschitz function `F` of `t` that takes the
wanted value at `t0`. -/
theorem C145_returns_partial {len : NurbsCurve ℝ → Res ℝ} {c : NurbsCurve ℝ} {p n : ℕ} {given total t0 Lip : ℝ} {F : ℝ → ℝ} (w : WellFormed c p n)
    (hcl : ClampedEnds (nth c.knots) p n) (hlen : len c = ok total) (hle : given ≤ total) (h0 : nth c.knots p ≤ t0) (h1 : t0 ≤ nth c.knots (n + 1))
    (hF0 : F t0 = given)
    (hF : ∀ m, (nth c.knots p + t0) / 2 ≤ m → m ≤ (nth c.knots (n + 1) + t0) / 2 → LengthTo len c m (F m))
    (hmono : ∀ x y, (nth c.knots p + t0) / 2 ≤ x → x ≤ y → y ≤ (nth c.knots (n + 1) + t0) / 2 → F x ≤ F y)
    (hLip : ∀ x y, (nth c.knots p + t0) / 2 ≤ x → x ≤ y → y ≤ (nth c.knots (n + 1) + t0) / 2 → F y - F x ≤ Lip * (y - x)) (hL : 0 ≤ Lip)
    (hk : ∀ k ∈ c.knots, splitAt c k = ok none ∨ ∃ L, LengthTo len c k L ∧ (given < L → t0 ≤ k)) :
    ∃ N, ∀ fuel, N ≤ fuel → ∃ t, getParamAtLength fuel len c given = ok t := by
  obtain ⟨k1, k2, k3⟩ := knots_ends w
  rw [hcl.first, ← hcl.last] at k3
  rw [hcl.first] at k1
  rw [← hcl.last] at k2
  set a := nth c.knots p
  set b := nth c.knots (n + 1)
  obtain ⟨N, hN⟩ : ∃ N : ℕ, Lip * (b - a) * 10000 ≤ 2 ^ N := by
    obtain ⟨N, hN⟩ := pow_unbounded_of_one_lt (Lip * (b - a) * 10000) (by norm_num : (1 : ℝ) < 2)
    exact ⟨N, hN.le⟩
  refine ⟨N + 1, fun fuel hf => ?_⟩
  obtain ⟨f, rfl⟩ : ∃ f, fuel = f + 1 := ⟨fuel - 1, by omega⟩
  have hpow : (2 : ℝ) ^ N ≤ 2 ^ f := pow_le_pow_right₀ (by norm_num) (by omega)
  have hb : isLessThan total given distanceEps = false := by
    by_contra hcon
    have := less_imp distanceEps_pos (by simpa using hcon)
    linarith
  have run : ∀ e, t0 ≤ e → e ≤ b → ∃ t, getParamByLength len c given (f + 1) a e = ok t := by
    intro e he1 he2
    refine byLength_returns hF0 hF hmono hLip hL f a e (le_refl _) h0 he1 he2 ?_
    have : Lip * (e - a) ≤ Lip * (b - a) := by nlinarith
    linarith
  unfold getParamAtLength
  rw [k1, ok_bind, k2, ok_bind, hlen, ok_bind, hb]
  simp only [Bool.false_eq_true, if_false]
  rcases knotScan_returns (b := b) c.knots hk with ⟨k, _, h⟩ | h | ⟨k, h2, h3, h⟩
  · exact ⟨k, by rw [h]; rfl⟩
  · rw [h, ok_bind]; exact run b h1 (le_refl _)
  · rw [h, ok_bind]; exact run k h3 (k3 k h2).2

/-- the segment from `P` to `Q`, as `CreateLine` makes it -/
noncomputable def segment (P Q : XYZW ℝ) : NurbsCurve ℝ := ⟨1, [0, 0, 1, 1], [P, Q]⟩

/-- `SplitAt` on a segment -/
theorem segment_split {P Q : XYZW ℝ} {u : ℝ} (h0 : 1/1000000 * (1 + u) < u) (h1 : 2/1000000 < 1 - u) :
    splitAt (segment P Q) u = ok (some (⟨1, [0, 0, u, u], [P, (1-u) • P + u • Q]⟩, ⟨1, [u, u, 1, 1], [(1-u) • P + u • Q, Q]⟩)) := by
  have hu0 : 0 < u := by linarith
  have hu1 : u < 1 := by linarith
  have a1 : isLessThanOrEqual u 0 = false := by
    simp [isLessThanOrEqual, tolOf, doubleEps, abs_of_pos hu0, max_eq_left hu0.le]; linarith
  have a2 : isGreaterThanOrEqual u 1 = false := by
    simp [isGreaterThanOrEqual, tolOf, doubleEps, abs_of_pos hu0, max_eq_right hu1.le]; linarith
  have b1 : isAlmostEqualTo u 0 = false := by
    simp [isAlmostEqualTo, tolOf, doubleEps, abs_of_pos hu0, max_eq_left hu0.le]; linarith
  have b2 : isAlmostEqualTo u 1 = false := by
    simp [isAlmostEqualTo, tolOf, doubleEps, abs_of_pos hu0, max_eq_right hu1.le, abs_of_neg (sub_neg.mpr hu1)]; linarith
  have b3 : isAlmostEqualTo (1 - u) 0 = false := by
    simp [isAlmostEqualTo, tolOf, doubleEps, abs_of_pos (sub_pos.mpr hu1), max_eq_left (sub_pos.mpr hu1).le]; linarith
  have b4 : isAlmostEqualTo (1 : ℝ) 0 = false := by
    simp [isAlmostEqualTo, tolOf, doubleEps]; norm_num
  have b5 : isAlmostEqualTo (0 : ℝ) 0 = true := isAlmostEqualTo_self doubleEps_pos
  have k1 : isValidKnotVector [0, 0, 1, (1 : ℝ)] = true := by
    rw [isValidKnotVector_iff]; simp
  have k2 : isValidKnotVector [0, 0, u, u, 1, (1 : ℝ)] = true := by
    rw [isValidKnotVector_iff]; simp [hu0.le, hu1.le]
  have r1 : validateRange u 0 1 = ok () := by
    simp [validateRange, not_lt.mpr hu0.le, not_lt.mpr hu1.le]
  have hm : getKnotMultiplicity [0, 0, 1, 1] u = ok 0 := by
    simp [getKnotMultiplicity, validate, k1, vget, r1, forI, loopUp, b1, b2]
  have hs : getKnotSpanIndex 1 [0, 0, 1, 1] u = ok 1 := by
    simp [getKnotSpanIndex, validate, k1, vget, r1, whileF, not_lt.mpr hu0.le, not_le.mpr hu1]
  have hs2 : getKnotSpanIndex 1 [0, 0, u, u, 1, 1] u = ok 3 := by
    simp [getKnotSpanIndex, validate, k2, vget, r1, a1, whileF, not_le.mpr hu1]
  have hr : refineKnotVector (segment P Q) [u, u] = ok ⟨1, [0, 0, u, u, 1, 1], [P, (1-u) • P + u • Q, (1-u) • P + u • Q, Q]⟩ := by
    simp [refineKnotVector, segment, validate, vget, hs, forI, loopUp, vset, forDown, loopDown, refineShift, refineInsert, whileF, b3, b4, b5, hu1.le, fdiv]
  have ht : splitTail 1 (⟨1, [0, 0, u, u, 1, 1], [P, (1-u) • P + u • Q, (1-u) • P + u • Q, Q]⟩ : NurbsCurve ℝ) u
      = ok (⟨1, [0, 0, u, u], [P, (1-u) • P + u • Q]⟩, ⟨1, [u, u, 1, 1], [(1-u) • P + u • Q, Q]⟩) := by
    simp [splitTail, hs2, forDown, loopDown, vget, vset]
  have hd : (segment P Q).degree = 1 := rfl
  have hk : (segment P Q).knots = [0, 0, 1, 1] := rfl
  unfold splitAt
  simp [hd, hk, vget, a1, a2, hm, hr, ht]

theorem segment_wf (P Q : XYZW ℝ) : WellFormed (segment P Q) 1 1 := by
  refine ⟨rfl, by omega, by omega, rfl, le_refl _, rfl, ?_⟩
  intro i j hij hj
  have hj : j < 4 := hj
  interval_cases j <;> interval_cases i <;> simp [segment, nth]

/-- `SplitAt` refuses values close to the start of a segment, and the ends -/
theorem segment_refuse {P Q : XYZW ℝ} {u : ℝ} (h : u ≤ 1/1000000 * (1 + u)) (h0 : 0 ≤ u) : splitAt (segment P Q) u = ok none := by
  have a1 : isLessThanOrEqual u 0 = true := by
    simp [isLessThanOrEqual, tolOf, doubleEps, abs_of_nonneg h0, max_eq_left h0]; linarith
  have hd : (segment P Q).degree = 1 := rfl
  have hk : (segment P Q).knots = [0, 0, 1, 1] := rfl
  unfold splitAt
  simp [hd, hk, vget, a1]

/-- a weighted point with weight one -/
def onePoint (x : XYZ ℝ) : XYZW ℝ := ⟨x.x, x.y, x.z, 1⟩

theorem onePoint_xyz (x : XYZ ℝ) : (onePoint x).toXYZ = x := toXYZ_one x.x x.y x.z

theorem onePoint_mix (x y : XYZ ℝ) (u : ℝ) : (1 - u) • onePoint x + u • onePoint y = onePoint (x + u • (y - x)) := by
  apply XYZW.ext <;> simp [onePoint] <;> ring

theorem dist_mix (x y : XYZ ℝ) {u : ℝ} (hu : 0 ≤ u) : x.distance (x + u • (y - x)) = u * x.distance y := by
  rw [distance_eq_length, distance_eq_length]
  have : x + u • (y - x) - x = u • (y - x) := by abel
  rw [this, length_smul hu]

/-- the measured length of the first part of a segment -/
theorem segment_length (quadrature : NurbsCurve ℝ → Res ℝ) {x y : XYZ ℝ} {u : ℝ} (h0 : 1/1000000 * (1 + u) < u) (h1 : 2/1000000 < 1 - u) :
    LengthTo (approximateLength quadrature) (segment (onePoint x) (onePoint y)) u (u * x.distance y) := by
  refine ⟨_, _, segment_split h0 h1, ?_⟩
  rw [onePoint_mix]
  unfold approximateLength
  rw [if_pos (by rfl)]
  simp [vget, onePoint_xyz]
  exact dist_mix x y (by linarith)

theorem segment_refuse_end {P Q : XYZW ℝ} {u : ℝ} (h : 1 - u ≤ 2/1000000) (h1 : u ≤ 1) : splitAt (segment P Q) u = ok none := by
  have h0 : 0 ≤ u := by linarith
  have a2 : isGreaterThanOrEqual u 1 = true := by
    simp [isGreaterThanOrEqual, tolOf, doubleEps, abs_of_nonneg h0, max_eq_right h1]; linarith
  have hd : (segment P Q).degree = 1 := rfl
  have hk : (segment P Q).knots = [0, 0, 1, 1] := rfl
  unfold splitAt
  by_cases a1 : isLessThanOrEqual u 0 = true
  · simp [hd, hk, vget, a1]
  · simp [hd, hk, vget, a2]

/-- the measured length in front of a parameter of a segment is the distance of the point from the start -/
theorem segment_lengthTo (quadrature : NurbsCurve ℝ → Res ℝ) {x y : XYZ ℝ} {u L : ℝ} (h0 : 0 ≤ u) (h1 : u ≤ 1)
    (h : LengthTo (approximateLength quadrature) (segment (onePoint x) (onePoint y)) u L) : L = u * x.distance y ∧ 1/1000000 * (1 + u) < u := by
  by_cases k0 : 1/1000000 * (1 + u) < u
  · by_cases k1 : 2/1000000 < 1 - u
    · obtain ⟨l, r, e1, e2⟩ := segment_length quadrature (x := x) (y := y) k0 k1
      obtain ⟨l', r', e1', e2'⟩ := h
      rw [e1] at e1'
      cases e1'
      rw [e2] at e2'
      cases e2'
      exact ⟨rfl, k0⟩
    · obtain ⟨l', r', e1', e2'⟩ := h
      rw [segment_refuse_end (not_lt.mp k1) h1] at e1'
      cases e1'
  · obtain ⟨l', r', e1', e2'⟩ := h
    rw [segment_refuse (not_lt.mp k0) h0] at e1'
    cases e1'

theorem segment_total (quadrature : NurbsCurve ℝ → Res ℝ) (x y : XYZ ℝ) :
    approximateLength quadrature (segment (onePoint x) (onePoint y)) = ok (x.distance y) := by
  unfold approximateLength
  rw [if_pos (by rfl)]
  simp [vget, segment, onePoint_xyz]

theorem segment_clamped (P Q : XYZW ℝ) : ClampedEnds (nth (segment P Q).knots) 1 1 := ⟨rfl, rfl⟩

/-- C145: on every segment, for every parameter `t0` not within `1e-5` of the ends, the search for the length of the part in front of `t0` ends,
and the parameter it returns has the wanted length up to `1e-4`, or is within `4e-6` of `t0`. -/
theorem C145_segment (quadrature : NurbsCurve ℝ → Res ℝ) (x y : XYZ ℝ) {t0 : ℝ} (h0 : 1/100000 ≤ t0) (h1 : t0 ≤ 1 - 1/100000) :
    ∃ N, ∀ fuel, N ≤ fuel → ∃ t, getParamAtLength fuel (approximateLength quadrature) (segment (onePoint x) (onePoint y)) (t0 * x.distance y) = ok t ∧
      0 ≤ t ∧ t ≤ 1 ∧ (|t * x.distance y - t0 * x.distance y| ≤ 1/10000 * (1 + max |t * x.distance y| |t0 * x.distance y|) ∨ |t - t0| ≤ 4/1000000) := by
  have hD := distance_nonneg x y
  have w := segment_wf (onePoint x) (onePoint y)
  have ea : nth (segment (onePoint x) (onePoint y)).knots 1 = 0 := rfl
  have eb : nth (segment (onePoint x) (onePoint y)).knots (1 + 1) = 1 := rfl
  obtain ⟨N, hN⟩ := C145_returns_partial (len := approximateLength quadrature) (given := t0 * x.distance y) (t0 := t0) (Lip := x.distance y)
    (F := fun u => u * x.distance y) w (segment_clamped _ _) (segment_total quadrature x y) (by nlinarith)
    (by rw [ea]; linarith) (by rw [eb]; linarith) rfl
    (by
      intro m m1 m2
      rw [ea] at m1
      rw [eb] at m2
      exact segment_length quadrature (by linarith) (by linarith))
    (by intro u v _ h _; nlinarith) (by intro u v _ h _; linarith) hD
    (by
      intro k hk
      left
      have : k = 0 ∨ k = 1 := by simpa [segment] using hk
      rcases this with rfl | rfl
      · exact segment_refuse (by norm_num) (le_refl _)
      · exact segment_refuse_end (by norm_num) (le_refl _))
  refine ⟨N, fun fuel hf => ?_⟩
  obtain ⟨t, ht⟩ := hN fuel hf
  obtain ⟨s1, s2, s3⟩ := C145_sound w (segment_clamped _ _) ht
  rw [ea] at s1 s3
  rw [eb] at s2 s3
  refine ⟨t, ht, s1, s2, ?_⟩
  rcases s3 with ⟨L, hL, hd⟩ | ⟨rfl, total, ht, hlt⟩ | ⟨e, q1, q2, q3, q4, q5⟩
  · rw [(segment_lengthTo quadrature s1 s2 hL).1] at hd
    exact Or.inl hd
  · rw [segment_total] at ht
    cases ht
    nlinarith
  · have q3 : e - t ≤ 4/1000000 := by
      simp at q3
      linarith
    rcases hD.eq_or_lt with hD0 | hD0
    · left
      rw [← hD0]
      simp
    · right
      have c1 : t ≤ t0 := by
        rcases q4 with rfl | ⟨L, hL, hlt⟩
        · linarith
        · rw [(segment_lengthTo quadrature s1 s2 hL).1] at hlt
          exact (lt_of_mul_lt_mul_right hlt hD0.le).le
      have c2 : t0 ≤ e := by
        rcases q5 with rfl | ⟨L, hL, hlt⟩
        · linarith
        · rw [(segment_lengthTo quadrature (s1.trans q1) q2 hL).1] at hlt
          exact (lt_of_mul_lt_mul_right hlt hD0.le).le
      rw [abs_of_nonpos (by linarith)]
      linarith

/-- "`q :: …` divides the curve": `q` is (almost) the end, and no parameter is left; or the curve is split at `q`, the search in the part behind `q`
gives `q'`, and the remaining parameters start with `q'` -/
inductive Division (fuel : ℕ) (len : NurbsCurve ℝ → Res ℝ) (c : NurbsCurve ℝ) (given e : ℝ) : ℝ → List ℝ → Prop
  | done {q : ℝ} : |q - e| ≤ 1 / 1000000 * (1 + max |q| |e|) → Division fuel len c given e q []
  | step {q q' : ℝ} {ps : List ℝ} {left right : NurbsCurve ℝ} : ¬ |q - e| ≤ 1 / 1000000 * (1 + max |q| |e|) →
      splitAt c q = ok (some (left, right)) → getParamAtLength fuel len right given = ok q' → Division fuel len c given e q' ps →
      Division fuel len c given e q (q :: ps)

theorem paramsLoop_sound {fuel : ℕ} {len : NurbsCurve ℝ → Res ℝ} {c : NurbsCurve ℝ} {given e : ℝ} : ∀ (rounds : ℕ) (res : List ℝ) (q : ℝ) (out : List ℝ × ℝ),
    paramsLoop fuel len c given e rounds (res, q) = ok out → ∃ ps, out.1 = res ++ ps ∧ Division fuel len c given e q ps := by
  intro rounds
  induction rounds with
  | zero =>
    intro res q out h
    unfold paramsLoop whileF at h
    rw [ok_bind] at h
    by_cases b : isAlmostEqualTo q e = true
    · simp only [b, Bool.not_true, Bool.false_eq_true, if_false] at h
      cases h
      exact ⟨[], by simp, .done (almost_iff.mp b)⟩
    · simp [b] at h
  | succ rounds ih =>
    intro res q out h
    unfold paramsLoop whileF at h
    rw [ok_bind] at h
    by_cases b : isAlmostEqualTo q e = true
    · simp only [b, Bool.not_true, Bool.false_eq_true, if_false] at h
      cases h
      exact ⟨[], by simp, .done (almost_iff.mp b)⟩
    · have b' : isAlmostEqualTo q e = false := by simpa using b
      have hne : ¬ |q - e| ≤ 1 / 1000000 * (1 + max |q| |e|) := fun hc => b (almost_iff.mpr hc)
      simp only [b', Bool.not_false, if_true] at h
      obtain ⟨st, hst, h⟩ := bind_eq_ok.mp h
      obtain ⟨sp, hsp, hst⟩ := bind_eq_ok.mp hst
      match sp, hsp, hst with
      | none, hsp, hst =>
        have hst : ok (res ++ [q], q) = ok st := hst
        cases hst
        obtain ⟨ps, -, hd⟩ := ih _ _ _ h
        exfalso
        cases hd with
        | done hn => exact hne hn
        | step _ hs _ _ => rw [hsp] at hs; cases hs
      | some (left, right), hsp, hst =>
        obtain ⟨q', hq', hst⟩ := bind_eq_ok.mp hst
        cases hst
        obtain ⟨ps, hps, hd⟩ := ih _ _ _ h
        exact ⟨q :: ps, by rw [hps]; simp, .step hne hsp hq' hd⟩

/-- C145: parameters returned by `GetParamsOnCurve` divide the curve: each one is found by the search for the length in the part of the curve behind
the one before it, and the search behind the last one leads to the end. -/
theorem C145_params {len : NurbsCurve ℝ → Res ℝ} {c : NurbsCurve ℝ} {p n : ℕ} {given : ℝ} {fuel rounds : ℕ} {ps : List ℝ} (w : WellFormed c p n)
    (h : getParamsAtLength fuel rounds len c given = ok ps) :
    ∃ q, getParamAtLength fuel len c given = ok q ∧ Division fuel len c given (nth c.knots (n + p + 1)) q ps := by
  obtain ⟨-, k2, -⟩ := knots_ends w
  unfold getParamsAtLength at h
  rw [k2, ok_bind] at h
  obtain ⟨q, hq, h⟩ := bind_eq_ok.mp h
  obtain ⟨st, hst, h⟩ := bind_eq_ok.mp h
  cases h
  obtain ⟨ps, h1, h2⟩ := paramsLoop_sound _ _ _ _ hst
  rw [List.nil_append] at h1
  exact ⟨q, hq, by rw [h1]; exact h2⟩

/-- C145 fails: `GetParamsOnCurve` never returns when every measurable part of the curve is longer than the wanted length: it asks for the parameter
at that length, gets the start of the curve, at which the curve cannot be split, and tries again for ever. -/
theorem C145_params_violated {len : NurbsCurve ℝ → Res ℝ} {c : NurbsCurve ℝ} {p n : ℕ} {given : ℝ} (fuel rounds : ℕ) (ps : List ℝ) (w : WellFormed c p n)
    (hcl : ClampedEnds (nth c.knots) p n)
    (hab : 1 / 1000000 * (1 + max |nth c.knots p| |nth c.knots (n + 1)|) < nth c.knots (n + 1) - nth c.knots p)
    (hl : ∀ t L, LengthTo len c t L → 1 / 10000 * (1 + max |L| |given|) < L - given) (ht : ∀ L, len c = ok L → given ≤ L) :
    getParamsAtLength fuel rounds len c given ≠ ok ps := by
  intro h
  obtain ⟨q, hq, hd⟩ := C145_params w h
  have hM : ∀ L, 0 < 1 / 10000 * (1 + max |L| |given|) := fun L => by positivity
  obtain ⟨-, -, hs⟩ := C145_sound w hcl hq
  have hqa : q = nth c.knots p := by
    rcases hs with ⟨L, hL, h'⟩ | ⟨-, total, h1, h2⟩ | ⟨e, -, -, -, h', -⟩
    · have := hl q L hL
      have := le_abs_self (L - given)
      linarith
    · have := ht total h1
      linarith
    · rcases h' with h' | ⟨L, hL, h'⟩
      · exact h'
      · have := hl q L hL
        have := hM L
        linarith
  subst hqa
  rw [← hcl.last] at hd
  cases hd with
  | done hn =>
    rw [abs_sub_comm] at hn
    have := le_abs_self (nth c.knots (n + 1) - nth c.knots p)
    linarith
  | step _ hsp _ _ =>
    rw [C23_refuses w (Or.inl (le_refl _))] at hsp
    cases hsp

/-- the bisection on a segment runs down to the start when the wanted length is never reached -/
theorem segment_toStart {quadrature : NurbsCurve ℝ → Res ℝ} {x y : XYZ ℝ} {given : ℝ}
    (hg : ∀ u, 1/1000000 < u → u ≤ 1 → 1 / 10000 * (1 + max |u * x.distance y| |given|) < u * x.distance y - given) :
    ∀ (fuel : ℕ) (e : ℝ), 0 ≤ e → e ≤ 1 → e ≤ 2 ^ fuel * (1/1000000) →
      getParamByLength (approximateLength quadrature) (segment (onePoint x) (onePoint y)) given (fuel + 1) 0 e = ok 0 := by
  have stop : ∀ (fuel : ℕ) (e : ℝ), 0 ≤ e → e / 2 ≤ 1/1000000 * (1 + e / 2) →
      getParamByLength (approximateLength quadrature) (segment (onePoint x) (onePoint y)) given (fuel + 1) 0 e = ok 0 := by
    intro fuel e h0 h
    unfold getParamByLength
    simp only [zero_add]
    rw [segment_refuse h (by linarith), ok_bind]
  intro fuel
  induction fuel with
  | zero =>
    intro e h0 h1 h2
    exact stop 0 e h0 (by linarith)
  | succ fuel ih =>
    intro e h0 h1 h2
    by_cases hs : e / 2 ≤ 1/1000000 * (1 + e / 2)
    · exact stop _ e h0 hs
    · obtain ⟨l, r, e1, e2⟩ := segment_length quadrature (x := x) (y := y) (u := e / 2) (not_le.mp hs) (by linarith)
      unfold getParamByLength
      simp only [zero_add]
      rw [e1, ok_bind]
      dsimp only
      rw [e2, ok_bind]
      have hu := hg (e / 2) (by linarith [not_le.mp hs]) (by linarith)
      have hpos : 0 < 1 / 10000 * (1 + max |e / 2 * x.distance y| |given|) := by positivity
      rw [if_neg, if_pos]
      · rw [pow_succ] at h2
        exact ih _ (by linarith) (by linarith) (by linarith)
      · exact decide_eq_true (by simpa only [tolOf, distanceEps] using hu)
      · intro hc
        have := almost_dist hc
        have := le_abs_self (e / 2 * x.distance y - given)
        linarith

/-- C145 fails on segments: for a negative length, and for the length zero on a segment of length at least 1000, `GetParamsOnCurve` loops for ever. -/
theorem C145_segment_violated (quadrature : NurbsCurve ℝ → Res ℝ) (x y : XYZ ℝ) {given : ℝ}
    (hg : given ≤ -(1/1000) ∨ given = 0 ∧ 1000 ≤ x.distance y) (fuel rounds : ℕ) (hf : 21 ≤ fuel) :
    getParamsAtLength fuel rounds (approximateLength quadrature) (segment (onePoint x) (onePoint y)) given = diverge := by
  have hD := distance_nonneg x y
  have hu : ∀ u, 1/1000000 < u → u ≤ 1 → 1 / 10000 * (1 + max |u * x.distance y| |given|) < u * x.distance y - given := by
    intro u u0 u1
    have hp : 0 ≤ u * x.distance y := by positivity
    rw [abs_of_nonneg hp]
    rcases hg with hg | ⟨rfl, hg⟩
    · rw [abs_of_nonpos (by linarith)]
      rcases max_cases (u * x.distance y) (-given) with ⟨h, -⟩ | ⟨h, -⟩ <;> rw [h] <;> linarith
    · rw [abs_zero, max_eq_left hp]
      nlinarith
  have htot : isLessThan (x.distance y) given distanceEps = false := by
    by_contra hc
    have := less_imp distanceEps_pos (by simpa using hc)
    rcases hg with hg | ⟨rfl, hg⟩ <;> linarith
  have hscan : knotScan (approximateLength quadrature) (segment (onePoint x) (onePoint y)) given 1 [0, 0, 1, 1] = ok (.bracket 1) := by
    have r0 := segment_refuse (P := onePoint x) (Q := onePoint y) (u := 0) (by norm_num) (le_refl _)
    have r1 := segment_refuse_end (P := onePoint x) (Q := onePoint y) (u := 1) (by norm_num) (le_refl _)
    simp [knotScan, r0, r1]
  have hq : getParamAtLength fuel (approximateLength quadrature) (segment (onePoint x) (onePoint y)) given = ok 0 := by
    obtain ⟨f, rfl⟩ : ∃ f, fuel = f + 1 := ⟨fuel - 1, by omega⟩
    have hk : (segment (onePoint x) (onePoint y)).knots = [0, 0, 1, 1] := rfl
    unfold getParamAtLength
    have v0 : vget ([0, 0, 1, 1] : List ℝ) 0 = ok 0 := rfl
    have v1 : vget ([0, 0, 1, 1] : List ℝ) ((([0, 0, 1, 1] : List ℝ).length : ℤ) - 1) = ok 1 := rfl
    rw [hk, v0, ok_bind, v1, ok_bind, segment_total, ok_bind, htot]
    simp only [Bool.false_eq_true, if_false]
    rw [hscan, ok_bind]
    refine segment_toStart hu f 1 (by norm_num) (le_refl _) ?_
    have : (2 : ℝ) ^ 20 ≤ 2 ^ f := pow_le_pow_right₀ (by norm_num) (by omega)
    norm_num at this
    linarith
  have hne : isAlmostEqualTo (0 : ℝ) 1 = false := by
    simp [isAlmostEqualTo, tolOf, doubleEps]; norm_num
  have loop : ∀ (rounds : ℕ) (res : List ℝ),
      paramsLoop fuel (approximateLength quadrature) (segment (onePoint x) (onePoint y)) given 1 rounds (res, 0) = diverge := by
    intro rounds
    induction rounds with
    | zero => intro res; unfold paramsLoop whileF; simp [hne]
    | succ rounds ih =>
      intro res
      unfold paramsLoop whileF
      rw [ok_bind]
      simp only [hne, Bool.not_false, if_true]
      rw [segment_refuse (by norm_num) (le_refl _), ok_bind]
      exact ih _
  unfold getParamsAtLength
  have v1 : vget (segment (onePoint x) (onePoint y)).knots (((segment (onePoint x) (onePoint y)).knots.length : ℤ) - 1) = ok 1 := rfl
  rw [v1, ok_bind, hq, ok_bind, loop]
  rfl

/-- the hypotheses are met: the segment from the origin to `(1, 0, 0)` at half its length -/
example (quadrature : NurbsCurve ℝ → Res ℝ) : ∃ N, ∀ fuel, N ≤ fuel → ∃ t,
    getParamAtLength fuel (approximateLength quadrature) (segment (onePoint ⟨0, 0, 0⟩) (onePoint ⟨1, 0, 0⟩)) (1 / 2) = ok t := by
  have hd : (⟨0, 0, 0⟩ : XYZ ℝ).distance ⟨1, 0, 0⟩ = 1 := by simp [XYZ.distance]
  obtain ⟨N, hN⟩ := C145_segment quadrature ⟨0, 0, 0⟩ ⟨1, 0, 0⟩ (t0 := 1 / 2) (by norm_num) (by norm_num)
  rw [hd, mul_one] at hN
  exact ⟨N, fun fuel hf => by obtain ⟨t, ht, -⟩ := hN fuel hf; exact ⟨t, ht⟩⟩

example (quadrature : NurbsCurve ℝ → Res ℝ) : getParamAtLength 5 (approximateLength quadrature) (segment (onePoint ⟨0, 0, 0⟩) (onePoint ⟨1, 0, 0⟩)) 3 = ok 1 := by
  have hd : (⟨0, 0, 0⟩ : XYZ ℝ).distance ⟨1, 0, 0⟩ = 1 := by simp [XYZ.distance]
  exact C145_too_long 5 (segment_wf _ _) (segment_total quadrature _ _) (by rw [hd]; norm_num)

example (quadrature : NurbsCurve ℝ → Res ℝ) (rounds : ℕ) :
    getParamsAtLength 30 rounds (approximateLength quadrature) (segment (onePoint ⟨0, 0, 0⟩) (onePoint ⟨1, 0, 0⟩)) (-1) = diverge :=
  C145_segment_violated quadrature _ _ (Or.inl (by norm_num)) 30 rounds (by omega)

/-- the hypotheses of `C145_params_violated` are met by every segment for negative lengths -/
example (quadrature : NurbsCurve ℝ → Res ℝ) (x y : XYZ ℝ) (fuel rounds : ℕ) (ps : List ℝ) :
    getParamsAtLength fuel rounds (approximateLength quadrature) (segment (onePoint x) (onePoint y)) (-1) ≠ ok ps := by
  have hD := distance_nonneg x y
  have w := segment_wf (onePoint x) (onePoint y)
  have ea : nth (segment (onePoint x) (onePoint y)).knots 1 = 0 := rfl
  have eb : nth (segment (onePoint x) (onePoint y)).knots (1 + 1) = 1 := rfl
  refine C145_params_violated fuel rounds ps w (segment_clamped _ _) (by rw [ea, eb]; norm_num) ?_ ?_
  · intro t L h
    have ht : 0 ≤ t ∧ t ≤ 1 := by
      by_contra hc
      obtain ⟨l, r, e, -⟩ := h
      rw [C23_refuses w (by
        rw [ea, eb]
        by_contra hc'
        push Not at hc'
        exact hc ⟨hc'.1.le, hc'.2.le⟩)] at e
      cases e
    rw [(segment_lengthTo quadrature ht.1 ht.2 h).1]
    have hp : 0 ≤ t * x.distance y := mul_nonneg ht.1 hD
    rw [abs_of_nonneg hp, abs_neg, abs_one]
    rcases max_cases (t * x.distance y) 1 with ⟨h, -⟩ | ⟨h, -⟩ <;> rw [h] <;> linarith
  · intro L h
    rw [segment_total] at h
    cases h
    linarith

example (quadrature : NurbsCurve ℝ → Res ℝ) (fuel rounds : ℕ) :
    getParamsAtLength fuel rounds (approximateLength quadrature) (segment (onePoint ⟨0, 0, 0⟩) (onePoint ⟨1, 0, 0⟩)) 3 = ok [] := by
  have hd : (⟨0, 0, 0⟩ : XYZ ℝ).distance ⟨1, 0, 0⟩ = 1 := by simp [XYZ.distance]
  have hq := C145_too_long fuel (segment_wf (onePoint ⟨0, 0, 0⟩) (onePoint ⟨1, 0, 0⟩)) (segment_total quadrature _ _) (given := 3) (by rw [hd]; norm_num)
  have v1 : vget (segment (onePoint ⟨0, 0, 0⟩) (onePoint ⟨1, 0, 0⟩)).knots (((segment (onePoint ⟨0, 0, 0⟩) (onePoint ⟨1, 0, 0⟩)).knots.length : ℤ) - 1) = ok 1 := rfl
  have e : nth (segment (onePoint ⟨0, 0, 0⟩) (onePoint ⟨1, 0, 0⟩)).knots (1 + 1 + 1) = 1 := rfl
  have b : isAlmostEqualTo (1 : ℝ) 1 = true := isAlmostEqualTo_self doubleEps_pos
  unfold getParamsAtLength
  rw [v1, ok_bind, hq, ok_bind, e]
  cases rounds <;> simp [paramsLoop, whileF, b]

end LNLib.Props
