import Verif.Props.BandSystem
import Verif.Props.LsqKnots
import Verif.Props.OneBasis
import Verif.Props.Surface
import Verif.Spec.LeastSquares
import Mathlib.Tactic.IntervalCases

/-!
# C132: least squares approximation (Geometry/Curve/NurbsCurve.cpp:2284-2432)
-/
set_option linter.unusedSectionVars false

namespace LNLib.Props
open LNLib Res LNLib.Spec Finset

section
variable {K : Type} [Field K] [LinearOrder K] [IsStrictOrderedRing K]

/-- a curve with weights one is the sum of its control points times the basis functions -/
theorem unit_weight_point {c : NurbsCurve K} {p n : ℕ} {t : K} (w : WellFormed c p n) (he : EndsSeparated (nth c.knots) p n)
    (h0 : nth c.knots p ≤ t) (h1 : t ≤ nth c.knots (n + 1)) (hw : ∀ i, i ≤ n → (nth c.cps i).w = 1) :
    NurbsCurve.pointOnCurve c t = ok (∑ j ∈ range (n + 1), N (nth c.knots) (nth c.knots (n + 1)) p j t • (nth c.cps j).raw) := by
  obtain ⟨s, -, hs⟩ := getKnotSpanIndex_isSpan w.knots w.pn w.sorted he h0 h1
  obtain ⟨-, hone⟩ := basis_convex (fun i j h h' => w.sorted i j h (by rw [w.knots]; omega)) hs
  have hw : weightFn (nth c.knots) p n (nth c.cps) t = 1 := by
    unfold weightFn
    rw [← hone]
    refine Finset.sum_congr rfl fun j hj => ?_
    rw [hw j (by have := Finset.mem_range.mp hj; omega), mul_one]
  rw [C05_eval_rational w he h0 h1 (by rw [hw, abs_one]; norm_num)]
  refine congrArg ok ?_
  unfold rationalPoint
  unfold weightFn at hw
  rw [hw, inv_one, one_smul]
  rfl

/-- spans of nondecreasing parameters do not decrease -/
theorem isSpan_le {U : ℕ → K} {p n s s' : ℕ} {t t' : K} (hm : MonoTo U (n + p + 1)) (hs : IsSpan U p n t s) (hs' : IsSpan U p n t' s') (h : t ≤ t') : s ≤ s' := by
  by_contra hc
  obtain ⟨a1, a2, a3, a4, a5⟩ := hs
  obtain ⟨b1, b2, b3, b4, b5⟩ := hs'
  have g := hm (s' + 1) s (by omega) (by omega)
  rcases b5 with b5 | ⟨b5, b6⟩
  · linarith
  · have := hm (s + 1) (n + 1) (by omega) (by omega)
    linarith

/-- `Rk` -/
theorem residualPoints_run {p n m : ℕ} {kv uk : List K} {pts : List (XYZ K)} {f g : ℕ → K} (hm : 1 ≤ m) (hu : uk.length = m + 1) (hpts : pts.length = m + 1)
    (h0 : ∀ k, k < m - 1 → oneBasisFunction 0 p kv (nth uk (k + 1)) = ok (f k)) (hn : ∀ k, k < m - 1 → oneBasisFunction n p kv (nth uk (k + 1)) = ok (g k)) :
    Runs (residualPoints p n m kv uk pts) (fun R => R.length = m - 1 ∧ ∀ k, k < m - 1 → nth R k = nth pts (k + 1) - f k • nth pts 0 - g k • nth pts m) := by
  unfold residualPoints
  rw [show ((m : ℤ) - 1).toNat = m - 1 by omega]
  refine (Runs.forN (m := 1) (n := m) (fun k (R : List (XYZ K)) => R.length = m - 1 ∧ ∀ a, a + 1 < k → nth R a = nth pts (a + 1) - f a • nth pts 0 - g a • nth pts m)
    rfl (by ring) hm ⟨by simp, fun a ha => by omega⟩ ?_).mono ?_
  · rintro k R h1 hk ⟨q1, q2⟩
    have e0 := h0 (k - 1) (by omega)
    have en := hn (k - 1) (by omega)
    rw [show k - 1 + 1 = k by omega] at e0 en
    rw [vget_nth (k := k) rfl (by omega), ok_bind, e0, ok_bind, en, ok_bind, vget_nth (k := k) rfl (by omega), ok_bind, vget_nth (i := 0) (k := 0) rfl (by omega), ok_bind,
      vget_nth (k := m) rfl (by omega), ok_bind, vset_of (k := k - 1) (by omega) (by omega)]
    refine Runs.ok ⟨by simp [q1], fun a ha => ?_⟩
    rw [nth_set (by omega)]
    by_cases hc : a = k - 1
    · rw [if_pos hc, hc, show k - 1 + 1 = k by omega]
    · rw [if_neg hc, q2 a (by omega)]
  · rintro R ⟨q1, q2⟩
    exact ⟨q1, fun k hk => q2 k (by omega)⟩

/-- the control points -/
theorem leastSquaresPoints_run {n m : ℕ} {pts : List (XYZ K)} {X : List (List K)} (hn : 2 ≤ n) (hpts : pts.length = m + 1) (hX : IsMat X (n - 1) 3) :
    Runs (leastSquaresPoints n m pts X) (fun cps => cps.length = n + 1 ∧ nth cps 0 = XYZW.ofXYZ (nth pts 0) 1 ∧ nth cps n = XYZW.ofXYZ (nth pts m) 1 ∧
      ∀ a, a < n - 1 → nth cps (a + 1) = XYZW.ofXYZ ⟨ent X a 0, ent X a 1, ent X a 2⟩ 1) := by
  unfold leastSquaresPoints
  rw [show ((n : ℤ) + 1).toNat = n + 1 by omega]
  refine Runs.bind (Q := fun (cps : List (XYZW K)) => cps.length = n + 1 ∧ ∀ a, a < n - 1 → nth cps (a + 1) = XYZW.ofXYZ ⟨ent X a 0, ent X a 1, ent X a 2⟩ 1) ?_ ?_
  · refine (Runs.forN (m := 1) (n := n) (fun k (cps : List (XYZW K)) => cps.length = n + 1 ∧ ∀ a, a + 1 < k → nth cps (a + 1) = XYZW.ofXYZ ⟨ent X a 0, ent X a 1, ent X a 2⟩ 1)
      rfl rfl (by omega) ⟨by simp, fun a ha => by omega⟩ ?_).mono ?_
    · rintro i cps h1 hi ⟨q1, q2⟩
      rw [mget_ent (i := (i : ℤ) - 1) (a := i - 1) (b := 0) (j := 0) hX (by omega) rfl (by omega) (by omega), ok_bind,
        mget_ent (i := (i : ℤ) - 1) (a := i - 1) (b := 1) (j := 1) hX (by omega) rfl (by omega) (by omega), ok_bind,
        mget_ent (i := (i : ℤ) - 1) (a := i - 1) (b := 2) (j := 2) hX (by omega) rfl (by omega) (by omega), ok_bind, vset_of (k := i) rfl (by omega)]
      refine Runs.ok ⟨by simp [q1], fun a ha => ?_⟩
      rw [nth_set (by omega)]
      by_cases hc : a + 1 = i
      · rw [if_pos hc, show i - 1 = a by omega]
      · rw [if_neg hc, q2 a (by omega)]
    · rintro cps ⟨q1, q2⟩
      exact ⟨q1, fun a ha => q2 a (by omega)⟩
  · rintro cps ⟨q1, q2⟩
    rw [vget_nth (i := 0) (k := 0) rfl (by omega), ok_bind, vset_of (i := 0) (k := 0) rfl (by omega), ok_bind, vget_nth (k := m) rfl (by omega), ok_bind,
      vset_of (k := n) rfl (by simp; omega)]
    refine Runs.ok ⟨by simp [q1], ?_, ?_, ?_⟩
    · rw [nth_set (by simp; omega), if_neg (by omega), nth_set (by omega), if_pos rfl]
    · rw [nth_set (by simp; omega), if_pos rfl]
    · intro a ha
      rw [nth_set (by simp; omega), if_neg (by omega), nth_set (by omega), if_neg (by omega), q2 a ha]

/-- the parameters are used exactly: no knot is mistaken for another one and no basis function takes a value that `OneBasisFunction` takes for zero -/
structure ExactParams (kv uk : List K) (p n m : ℕ) : Prop where
  ends : EndsSeparated (nth kv) p n
  sep : ∀ k, k < m - 1 → KnotSeparated kv (nth uk (k + 1))
  big : ∀ k, k < m - 1 → ∀ q < p, ∀ j, j + q ≤ n + p →
    N (nth kv) (nth kv (n + 1)) q j (nth uk (k + 1)) = 0 ∨ 2 / 1000000 < N (nth kv) (nth kv (n + 1)) q j (nth uk (k + 1))

variable [FloorRing K] {solve : List (List K) → ℤ → List (List K) → Res (Option (List (List K)))} {p n m : ℕ} {pts : List (XYZ K)} {uk : List K}

/-- what the run computes -/
theorem leastSquares_run (hsolve : SoundBandSolver solve) (hp : 0 < p) (hp7 : p ≤ 7) (hpn : p ≤ n) (hn : 2 ≤ n) (hnm : n ≤ m + p) (hm1 : 1 ≤ m)
    (hpts : pts.length = m + 1) (hu : uk.length = m + 1) (h0 : nth uk 0 = 0) (h1 : nth uk m = 1) (hmono : ∀ i j, i ≤ j → j ≤ m → nth uk i ≤ nth uk j)
    {kv : List K} (hkv : leastSquaresKnots p n m uk = ok kv) (hx : ExactParams kv uk p n m) {r : Option (NurbsCurve K)}
    (hr : leastSquares solve p pts ((n : ℤ) + 1) uk = ok r) :
    (kv.length = n + p + 2 ∧ (∀ i, i ≤ p → nth kv i = 0) ∧ (∀ i, n + 1 ≤ i → i ≤ n + p + 1 → nth kv i = 1) ∧ ∀ i j, i ≤ j → j < kv.length → nth kv i ≤ nth kv j) ∧
    ∀ c, r = some c → c.degree = p ∧ c.knots = kv ∧ c.cps.length = n + 1 ∧ nth c.cps 0 = XYZW.ofXYZ (nth pts 0) 1 ∧ nth c.cps n = XYZW.ofXYZ (nth pts m) 1 ∧
      (∀ i, i ≤ n → (nth c.cps i).w = 1) ∧
      ∀ (y : ℕ → XYZ K),
        ∑ k ∈ range (m - 1), (∑ b ∈ range (n - 1), N (nth kv) (nth kv (n + 1)) p (b + 1) (nth uk (k + 1)) • (nth c.cps (b + 1)).raw +
            N (nth kv) (nth kv (n + 1)) p 0 (nth uk (k + 1)) • nth pts 0 + N (nth kv) (nth kv (n + 1)) p n (nth uk (k + 1)) • nth pts m - nth pts (k + 1)).sqrLength ≤
        ∑ k ∈ range (m - 1), (∑ b ∈ range (n - 1), N (nth kv) (nth kv (n + 1)) p (b + 1) (nth uk (k + 1)) • y b +
            N (nth kv) (nth kv (n + 1)) p 0 (nth uk (k + 1)) • nth pts 0 + N (nth kv) (nth kv (n + 1)) p n (nth uk (k + 1)) • nth pts m - nth pts (k + 1)).sqrLength := by
  obtain ⟨kv', e1, e2⟩ := leastSquaresKnots_eq (params := uk) hp hpn hu hnm
  rw [hkv] at e1
  cases e1
  obtain ⟨kv', e3, k1, k2, k3, k4⟩ := C74_compute_knots hp hpn hu hnm h0 h1 hmono
  rw [e2] at e3
  cases e3
  refine ⟨⟨k1, k2, k3, k4⟩, ?_⟩
  have hM : MonoTo (nth kv) (n + p + 1) := fun i j h h' => k4 i j h (by omega)
  have hb0 : ∀ k, k < m - 1 → nth kv p ≤ nth uk (k + 1) := fun k hk => by rw [k2 p (le_refl _), ← h0]; exact hmono 0 _ (by omega) (by omega)
  have hb1 : ∀ k, k < m - 1 → nth uk (k + 1) ≤ nth kv (n + 1) := fun k hk => by rw [k3 (n + 1) (le_refl _) (by omega), ← h1]; exact hmono _ m (by omega) (by omega)
  have hspan' : ∀ k, ∃ s : ℕ, k < m - 1 → getKnotSpanIndex p kv (nth uk (k + 1)) = ok (s : ℤ) ∧ IsSpan (nth kv) p n (nth uk (k + 1)) s := by
    intro k
    by_cases hk : k < m - 1
    · obtain ⟨s, a, b⟩ := getKnotSpanIndex_isSpan k1 hpn k4 hx.ends (hb0 k hk) (hb1 k hk)
      exact ⟨s, fun _ => ⟨a, b⟩⟩
    · exact ⟨0, fun h => absurd h hk⟩
  choose s hspan using hspan'
  have hsm : ∀ k l, k ≤ l → l < m - 1 → s k ≤ s l := fun k l hkl hl =>
    isSpan_le hM (hspan k (by omega)).2 (hspan l hl).2 (hmono _ _ (by omega) (by omega))
  have hcl : Clamped kv p n := ⟨k1, hp, hpn, (isValidKnotVector_iff kv).mp (isValidKnotVector_nth.mpr k4), fun i hi => by rw [k2 i hi, k2 0 (by omega)],
    fun i hi hi' => by rw [k3 i hi hi', k3 (n + 1) (le_refl _) (by omega)]⟩
  have hone : ∀ i, i ≤ n → ∀ k, k < m - 1 → oneBasisFunction i p kv (nth uk (k + 1)) = ok (N (nth kv) (nth kv (n + 1)) p i (nth uk (k + 1))) := fun i hi k hk =>
    C18_exact_partial hcl hx.ends (hx.sep k hk) hi (by rw [k2 0 (by omega), ← k2 p (le_refl _)]; exact hb0 k hk) (hb1 k hk) (hx.big k hk)
  have hG : ∀ k, k < m - 1 → ∀ a, a < n - 1 → bandG kv uk p s k a = N (nth kv) (nth kv (n + 1)) p (a + 1) (nth uk (k + 1)) := fun k hk a ha =>
    (N_eq_Nspan hM (by omega) (hspan k hk).2 p (a + 1) (by omega)).symm
  intro c hc
  subst hc
  unfold leastSquares at hr
  rw [validate_of (by rw [decide_eq_true_eq]; unfold nurbsMaxDegree; omega), ok_bind, validate_of (by rw [decide_eq_true_eq]; omega), ok_bind] at hr
  dsimp only at hr
  rw [show (n : ℤ) + 1 - 1 = n by ring, show (pts.length : ℤ) - 1 = m by rw [hpts]; push_cast; ring, hkv, ok_bind] at hr
  obtain ⟨st, est, inv⟩ := bandArrays_run hp hp7 hpn hn hm1 hu k1 k4 hspan hsm
  rw [est, ok_bind] at hr
  obtain ⟨e0, -, hr⟩ := bind_eq_ok.mp hr
  split at hr
  · cases hr
  · rename_i hsj
    obtain ⟨stop, estop, rdy⟩ := bandStop_run hp hp7 hpn hn hm1 hu k1 k4 hspan hsm inv (fun h => hsj (Or.inl h))
    obtain ⟨M, eM, M1, M2⟩ := bandMatrix_run hn rdy
    obtain ⟨Rk, eR, R1, R2⟩ := residualPoints_run (p := p) (n := n) hm1 hu hpts (hone 0 (by omega)) (hone n (le_refl _))
    obtain ⟨R, eQ, Q1, Q2⟩ := bandRight_run hn rdy R1
    rw [estop, ok_bind, eM, ok_bind, eR, ok_bind, eQ, ok_bind] at hr
    obtain ⟨temp, es, hr⟩ := bind_eq_ok.mp hr
    split at hr
    · cases hr
    · rename_i X
      have hB : IsMat (R.map fun q => [q.x, q.y, q.z]) (n - 1) 3 := by
        refine ⟨by simp [Q1], fun a ha => ?_⟩
        simp [row, Q1, ha]
      have hent : ∀ a, a < n - 1 → ent (R.map fun q => [q.x, q.y, q.z]) a 0 = (nth R a).x ∧ ent (R.map fun q => [q.x, q.y, q.z]) a 1 = (nth R a).y ∧
          ent (R.map fun q => [q.x, q.y, q.z]) a 2 = (nth R a).z := by
        intro a ha
        have : row (R.map fun q => [q.x, q.y, q.z]) a = [(nth R a).x, (nth R a).y, (nth R a).z] := by
          simp [row, Q1, ha, nth]
        simp [ent, this, nth]
      obtain ⟨X1, X2⟩ := hsolve (n - 1) p 3 M _ X M1 hB es
      obtain ⟨cps, ec, c1, c2, c3, c4⟩ := leastSquaresPoints_run hn hpts X1
      rw [ec, ok_bind] at hr
      cases hr
      refine ⟨rfl, rfl, c1, c2, c3, ?_, ?_⟩
      · intro i hi
        dsimp only
        rcases Nat.eq_zero_or_pos i with rfl | hpos
        · rw [c2]; rfl
        · by_cases hin : i = n
          · rw [hin, c3]; rfl
          · rw [show i = i - 1 + 1 by omega, c4 (i - 1) (by omega)]; rfl
      · intro y
        dsimp only
        have key : ∀ (φ : XYZ K →ₗ[K] K) (j : ℕ), j < 3 → (∀ a, a < n - 1 → ent (R.map fun q => [q.x, q.y, q.z]) a j = φ (nth R a)) →
            (∀ b, b < n - 1 → φ (nth cps (b + 1)).raw = ent X b j) →
            ∑ k ∈ range (m - 1), (φ (∑ b ∈ range (n - 1), N (nth kv) (nth kv (n + 1)) p (b + 1) (nth uk (k + 1)) • (nth cps (b + 1)).raw +
              N (nth kv) (nth kv (n + 1)) p 0 (nth uk (k + 1)) • nth pts 0 + N (nth kv) (nth kv (n + 1)) p n (nth uk (k + 1)) • nth pts m - nth pts (k + 1))) ^ 2 ≤
            ∑ k ∈ range (m - 1), (φ (∑ b ∈ range (n - 1), N (nth kv) (nth kv (n + 1)) p (b + 1) (nth uk (k + 1)) • y b +
              N (nth kv) (nth kv (n + 1)) p 0 (nth uk (k + 1)) • nth pts 0 + N (nth kv) (nth kv (n + 1)) p n (nth uk (k + 1)) • nth pts m - nth pts (k + 1))) ^ 2 := by
          intro φ j hj hφ hX
          have hnorm : ∀ i, i < n - 1 → ∑ b ∈ range (n - 1), (∑ k ∈ range (m - 1), bandG kv uk p s k i * bandG kv uk p s k b) * ent X b j =
              ∑ k ∈ range (m - 1), bandG kv uk p s k i * φ (nth Rk k) := by
            intro i hi
            have a1 := X2 i j hi hj
            rw [bandRow_sum hi (f := fun b => ∑ k ∈ range (m - 1), bandG kv uk p s k i * bandG kv uk p s k b) (fun k hk hk1 hk2 => M2 i k hi hk hk1 hk2) ?_ (fun b => ent X b j), hφ i hi, Q2 i hi, map_sum] at a1
            · rw [a1]
              exact sum_congr rfl fun k _ => by rw [map_smul, smul_eq_mul]
            · intro b hb hfar
              refine sum_eq_zero fun k _ => ?_
              by_cases hc : s k < i + 1 ∨ i + 1 + p < s k
              · unfold bandG
                rw [Nspan_zero _ _ _ (i + 1) _ hc, zero_mul]
              · unfold bandG
                rw [Nspan_zero _ _ _ (b + 1) _ (by omega), mul_zero]
          have hmin := normal_minimises hnorm (fun b => φ (y b))
          have conv : ∀ (z : ℕ → XYZ K) (q : ℕ → K), (∀ b, b < n - 1 → φ (z b) = q b) → ∑ k ∈ range (m - 1), (φ (∑ b ∈ range (n - 1), N (nth kv) (nth kv (n + 1)) p (b + 1) (nth uk (k + 1)) • z b +
              N (nth kv) (nth kv (n + 1)) p 0 (nth uk (k + 1)) • nth pts 0 + N (nth kv) (nth kv (n + 1)) p n (nth uk (k + 1)) • nth pts m - nth pts (k + 1))) ^ 2 =
              ∑ k ∈ range (m - 1), (∑ b ∈ range (n - 1), bandG kv uk p s k b * q b - φ (nth Rk k)) ^ 2 := by
            intro z q hz
            refine sum_congr rfl fun k hk => ?_
            have hk := mem_range.mp hk
            rw [R2 k hk]
            simp only [map_sub, map_add, map_sum, map_smul, smul_eq_mul]
            have : ∑ b ∈ range (n - 1), N (nth kv) (nth kv (n + 1)) p (b + 1) (nth uk (k + 1)) * φ (z b) = ∑ b ∈ range (n - 1), bandG kv uk p s k b * q b :=
              sum_congr rfl fun b hb => by rw [hG k hk b (mem_range.mp hb), hz b (mem_range.mp hb)]
            rw [this]
            congr 1
            ring
          rw [conv (fun b => (nth cps (b + 1)).raw) (fun b => ent X b j) hX, conv y (fun b => φ (y b)) fun b _ => rfl]
          exact hmin
        have split : ∀ f : ℕ → XYZ K, ∑ k ∈ range (m - 1), (f k).sqrLength = ∑ k ∈ range (m - 1), (XYZ.xL (f k)) ^ 2 + ∑ k ∈ range (m - 1), (XYZ.yL (f k)) ^ 2 +
            ∑ k ∈ range (m - 1), (XYZ.zL (f k)) ^ 2 := by
          intro f
          rw [← sum_add_distrib, ← sum_add_distrib]
          refine sum_congr rfl fun k _ => ?_
          simp only [XYZ.xL_apply, XYZ.yL_apply, XYZ.zL_apply, XYZ.sqrLength]
          ring
        rw [split, split]
        have kx := key XYZ.xL 0 (by omega) (fun a ha => (hent a ha).1) (fun b hb => by rw [c4 b hb]; simp [XYZW.ofXYZ, XYZW.raw])
        have ky := key XYZ.yL 1 (by omega) (fun a ha => (hent a ha).2.1) (fun b hb => by rw [c4 b hb]; simp [XYZW.ofXYZ, XYZW.raw])
        have kz := key XYZ.zL 2 (by omega) (fun a ha => (hent a ha).2.2) (fun b hb => by rw [c4 b hb]; simp [XYZW.ofXYZ, XYZW.raw])
        exact add_le_add (add_le_add kx ky) kz

/-- the knot vector of the answer -/
theorem leastSquares_knots {c : NurbsCurve K} (hp7 : p ≤ 7) (hpts : pts.length = m + 1) (hc : leastSquares solve p pts ((n : ℤ) + 1) uk = ok (some c)) :
    leastSquaresKnots p n m uk = ok c.knots := by
  unfold leastSquares at hc
  rw [validate_of (by rw [decide_eq_true_eq]; unfold nurbsMaxDegree; omega), ok_bind, validate_of (by rw [decide_eq_true_eq]; omega), ok_bind] at hc
  dsimp only at hc
  rw [show (n : ℤ) + 1 - 1 = n by ring, show (pts.length : ℤ) - 1 = m by rw [hpts]; push_cast; ring] at hc
  obtain ⟨kv, e, hc⟩ := bind_eq_ok.mp hc
  rw [e]
  obtain ⟨st, -, hc⟩ := bind_eq_ok.mp hc
  obtain ⟨e0, -, hc⟩ := bind_eq_ok.mp hc
  split at hc
  · cases hc
  · obtain ⟨_, -, hc⟩ := bind_eq_ok.mp hc
    obtain ⟨_, -, hc⟩ := bind_eq_ok.mp hc
    obtain ⟨_, -, hc⟩ := bind_eq_ok.mp hc
    obtain ⟨_, -, hc⟩ := bind_eq_ok.mp hc
    obtain ⟨_, -, hc⟩ := bind_eq_ok.mp hc
    split at hc
    · cases hc
    · obtain ⟨_, -, hc⟩ := bind_eq_ok.mp hc
      cases hc
      rfl

/-- C132 (partial): whenever the approximation of `m + 1` points by a curve of degree `p` with `n + 1 ≥ 3` control points answers with a
curve, this is a valid clamped curve over `[0, 1]` with weights one that starts at the first and ends at the last data point, and no other
curve of the same degree with the same knots and weights one that starts and ends there has a smaller sum of squared distances to the
inner data points at their parameters. Assumed: the band solver is sound, `1 ≤ p ≤ 7`, at most `m + p + 1` control points, parameters
that do not decrease from 0 to 1, and parameters and knots that the library's tolerances do not confuse. Missing: two control points and
more than `m + p + 1` control points (see the refutations), parameters at which a basis function takes a tiny value (`OneBasisFunction`
takes it for zero). -/
theorem C132_minimises_partial (hsolve : SoundBandSolver solve) (hp : 0 < p) (hp7 : p ≤ 7) (hpn : p ≤ n) (hn : 2 ≤ n) (hnm : n ≤ m + p) (hm1 : 1 ≤ m)
    (hpts : pts.length = m + 1) (hu : uk.length = m + 1) (h0 : nth uk 0 = 0) (h1 : nth uk m = 1) (hmono : ∀ i j, i ≤ j → j ≤ m → nth uk i ≤ nth uk j)
    {c : NurbsCurve K} (hc : leastSquares solve p pts ((n : ℤ) + 1) uk = ok (some c)) (hx : ExactParams c.knots uk p n m) :
    WellFormed c p n ∧ (∀ i, i ≤ p → nth c.knots i = 0) ∧ (∀ i, n + 1 ≤ i → i ≤ n + p + 1 → nth c.knots i = 1) ∧ (∀ i, i ≤ n → (nth c.cps i).w = 1) ∧
    NurbsCurve.pointOnCurve c 0 = ok (nth pts 0) ∧ NurbsCurve.pointOnCurve c 1 = ok (nth pts m) ∧
    ∃ x : ℕ → XYZ K, (∀ k, k ≤ m → NurbsCurve.pointOnCurve c (nth uk k) = ok (x k)) ∧
      ∀ (d : NurbsCurve K) (y : ℕ → XYZ K), WellFormed d p n → d.knots = c.knots → (∀ i, i ≤ n → (nth d.cps i).w = 1) →
        NurbsCurve.pointOnCurve d 0 = ok (nth pts 0) → NurbsCurve.pointOnCurve d 1 = ok (nth pts m) →
        (∀ k, k ≤ m → NurbsCurve.pointOnCurve d (nth uk k) = ok (y k)) → squaredDeviation m pts x ≤ squaredDeviation m pts y := by
  have hkv := leastSquares_knots (m := m) hp7 hpts hc
  obtain ⟨⟨k1, k2, k3, k4⟩, hall⟩ := leastSquares_run hsolve hp hp7 hpn hn hnm hm1 hpts hu h0 h1 hmono hkv hx hc
  obtain ⟨a1, -, a3, a4, a5, a6, a7⟩ := hall c rfl
  have wc : WellFormed c p n := ⟨a1, hp, hp7, a3, hpn, k1, k4⟩
  have hends : ∀ d : NurbsCurve K, WellFormed d p n → d.knots = c.knots → (∀ i, i ≤ n → (nth d.cps i).w = 1) →
      NurbsCurve.pointOnCurve d 0 = ok (nth d.cps 0).raw ∧ NurbsCurve.pointOnCurve d 1 = ok (nth d.cps n).raw := by
    intro d wd hdk hdw
    have hraw : ∀ i, i ≤ n → (nth d.cps i).toXYZ = (nth d.cps i).raw := by
      intro i hi
      rw [XYZW.toXYZ_eq (by rw [hdw i hi, abs_one]; norm_num), hdw i hi, inv_one, one_smul]
    have e0 := C09_start wd (by rw [hdk]; exact hx.ends) (by rw [hdk]; intro i hi; rw [k2 i hi, k2 0 (by omega)])
    have e1 := C09_end wd (by rw [hdk]; exact hx.ends) (by rw [hdk]; intro i hi hi'; rw [k3 i hi hi', k3 (n + p + 1) (by omega) (le_refl _)])
    rw [hdk, k2 0 (by omega)] at e0
    rw [hdk, k3 (n + p + 1) (by omega) (le_refl _)] at e1
    unfold NurbsCurve.pointOnCurve
    rw [e0, e1, ok_bind, ok_bind, hraw 0 (by omega), hraw n (le_refl _)]
    exact ⟨rfl, rfl⟩
  have hof : ∀ q : XYZ K, (XYZW.ofXYZ q 1).raw = q := fun q => by ext <;> simp [XYZW.ofXYZ, XYZW.raw]
  have hval : ∀ d : NurbsCurve K, WellFormed d p n → d.knots = c.knots → (∀ i, i ≤ n → (nth d.cps i).w = 1) → (nth d.cps 0).raw = nth pts 0 → (nth d.cps n).raw = nth pts m →
      ∀ k, k ≤ m → NurbsCurve.pointOnCurve d (nth uk k) = ok (∑ b ∈ range (n - 1), N (nth c.knots) (nth c.knots (n + 1)) p (b + 1) (nth uk k) • (nth d.cps (b + 1)).raw +
        N (nth c.knots) (nth c.knots (n + 1)) p 0 (nth uk k) • nth pts 0 + N (nth c.knots) (nth c.knots (n + 1)) p n (nth uk k) • nth pts m) := by
    intro d wd hdk hdw hd0 hdn k hk
    rw [unit_weight_point wd (by rw [hdk]; exact hx.ends) (by rw [hdk, k2 p (le_refl _), ← h0]; exact hmono 0 k (by omega) hk)
      (by rw [hdk, k3 (n + 1) (le_refl _) (by omega), ← h1]; exact hmono k m hk (le_refl _)) hdw, hdk, sum_range_succ, hdn]
    obtain ⟨n', rfl⟩ : ∃ n', n = n' + 1 := ⟨n - 1, by omega⟩
    rw [sum_range_succ', hd0]
    rfl
  obtain ⟨p0, p1⟩ := hends c wc rfl a6
  rw [a4, hof] at p0
  rw [a5, hof] at p1
  refine ⟨wc, k2, k3, a6, p0, p1, _, hval c wc rfl a6 (by rw [a4, hof]) (by rw [a5, hof]), ?_⟩
  intro d y wd hdk hdw hd0 hd1 hy
  obtain ⟨q0, q1⟩ := hends d wd hdk hdw
  rw [hd0] at q0
  rw [hd1] at q1
  have hvd := hval d wd hdk hdw (Res.ok.inj q0).symm (Res.ok.inj q1).symm
  have hmin := a7 (fun b => (nth d.cps (b + 1)).raw)
  unfold squaredDeviation
  rw [sum_Ico_eq_sum_range, sum_Ico_eq_sum_range]
  refine le_trans (le_of_eq (sum_congr rfl fun k _ => by rw [Nat.add_comm 1 k])) (le_trans hmin (le_of_eq (sum_congr rfl fun k hk => ?_)))
  have hk := mem_range.mp hk
  have := hvd (k + 1) (by omega)
  rw [hy (k + 1) (by omega)] at this
  rw [Nat.add_comm 1 k, Res.ok.inj this]

/-- C132 (partial): the approximation does not leave its arrays: if the solver always answers, so does the approximation. -/
theorem C132_answers_partial (hsolve : SoundBandSolver solve) (htotal : ∀ A w B, ∃ r, solve A w B = ok r) (hp : 0 < p) (hp7 : p ≤ 7) (hpn : p ≤ n) (hn : 2 ≤ n) (hnm : n ≤ m + p)
    (hm1 : 1 ≤ m) (hpts : pts.length = m + 1) (hu : uk.length = m + 1) (h0 : nth uk 0 = 0) (h1 : nth uk m = 1) (hmono : ∀ i j, i ≤ j → j ≤ m → nth uk i ≤ nth uk j)
    (hx : ∀ kv, leastSquaresKnots p n m uk = ok kv → ExactParams kv uk p n m) : ∃ r, leastSquares solve p pts ((n : ℤ) + 1) uk = ok r := by
  obtain ⟨kv, hkv, e2⟩ := leastSquaresKnots_eq (params := uk) hp hpn hu hnm
  have hx := hx kv hkv
  obtain ⟨kv', e3, k1, k2, k3, k4⟩ := C74_compute_knots hp hpn hu hnm h0 h1 hmono
  rw [e2] at e3
  cases e3
  have hM : MonoTo (nth kv) (n + p + 1) := fun i j h h' => k4 i j h (by omega)
  have hb0 : ∀ k, k < m - 1 → nth kv p ≤ nth uk (k + 1) := fun k hk => by rw [k2 p (le_refl _), ← h0]; exact hmono 0 _ (by omega) (by omega)
  have hb1 : ∀ k, k < m - 1 → nth uk (k + 1) ≤ nth kv (n + 1) := fun k hk => by rw [k3 (n + 1) (le_refl _) (by omega), ← h1]; exact hmono _ m (by omega) (by omega)
  have hspan' : ∀ k, ∃ s : ℕ, k < m - 1 → getKnotSpanIndex p kv (nth uk (k + 1)) = ok (s : ℤ) ∧ IsSpan (nth kv) p n (nth uk (k + 1)) s := by
    intro k
    by_cases hk : k < m - 1
    · obtain ⟨s, a, b⟩ := getKnotSpanIndex_isSpan k1 hpn k4 hx.ends (hb0 k hk) (hb1 k hk)
      exact ⟨s, fun _ => ⟨a, b⟩⟩
    · exact ⟨0, fun h => absurd h hk⟩
  choose s hspan using hspan'
  have hsm : ∀ k l, k ≤ l → l < m - 1 → s k ≤ s l := fun k l hkl hl =>
    isSpan_le hM (hspan k (by omega)).2 (hspan l hl).2 (hmono _ _ (by omega) (by omega))
  have hcl : Clamped kv p n := ⟨k1, hp, hpn, (isValidKnotVector_iff kv).mp (isValidKnotVector_nth.mpr k4), fun i hi => by rw [k2 i hi, k2 0 (by omega)],
    fun i hi hi' => by rw [k3 i hi hi', k3 (n + 1) (le_refl _) (by omega)]⟩
  have hone : ∀ i, i ≤ n → ∀ k, k < m - 1 → oneBasisFunction i p kv (nth uk (k + 1)) = ok (N (nth kv) (nth kv (n + 1)) p i (nth uk (k + 1))) := fun i hi k hk =>
    C18_exact_partial hcl hx.ends (hx.sep k hk) hi (by rw [k2 0 (by omega), ← k2 p (le_refl _)]; exact hb0 k hk) (hb1 k hk) (hx.big k hk)
  unfold leastSquares
  rw [validate_of (by rw [decide_eq_true_eq]; unfold nurbsMaxDegree; omega), ok_bind, validate_of (by rw [decide_eq_true_eq]; omega), ok_bind]
  dsimp only
  rw [show (n : ℤ) + 1 - 1 = n by ring, show (pts.length : ℤ) - 1 = m by rw [hpts]; push_cast; ring, hkv, ok_bind]
  obtain ⟨st, est, inv⟩ := bandArrays_run hp hp7 hpn hn hm1 hu k1 k4 hspan hsm
  rw [est, ok_bind, vget_nth (i := 0) (k := 0) rfl (by rw [inv.lstop]; omega), ok_bind]
  split
  · exact ⟨_, rfl⟩
  · rename_i hsj
    obtain ⟨stop, estop, rdy⟩ := bandStop_run hp hp7 hpn hn hm1 hu k1 k4 hspan hsm inv (fun h => hsj (Or.inl h))
    obtain ⟨M, eM, M1, M2⟩ := bandMatrix_run hn rdy
    obtain ⟨Rk, eR, R1, R2⟩ := residualPoints_run (p := p) (n := n) hm1 hu hpts (hone 0 (by omega)) (hone n (le_refl _))
    obtain ⟨R, eQ, Q1, Q2⟩ := bandRight_run hn rdy R1
    obtain ⟨X, eX⟩ := htotal M (2 * p + 1) (R.map fun q => [q.x, q.y, q.z])
    rw [estop, ok_bind, eM, ok_bind, eR, ok_bind, eQ, ok_bind, eX, ok_bind]
    rcases X with _ | X
    · exact ⟨_, rfl⟩
    · dsimp only
      obtain ⟨X1, -⟩ := hsolve (n - 1) p 3 M _ X M1 ⟨by simp [Q1], fun a ha => by simp [row, Q1, ha]⟩ eX
      obtain ⟨cps, ec, -⟩ := leastSquaresPoints_run hn hpts X1
      rw [ec, ok_bind]
      exact ⟨_, rfl⟩

/-- C132, refuted for two control points: fitting a line to any data writes to an element of an empty array, although a line through the
first and the last data point is the answer. -/
theorem C132_two_control_points_violated (solve : List (List K) → ℤ → List (List K) → Res (Option (List (List K)))) (pts : List (XYZ K)) (uk : List K) :
    leastSquares solve 1 pts 2 uk = ub := by
  unfold leastSquares
  rw [validate_of (by decide), ok_bind, validate_of (by decide), ok_bind]
  dsimp only
  unfold leastSquaresKnots
  rw [show (((2 : ℤ) - 1 - 1 + 1 : ℤ) : K) = 1 by norm_num, fdiv_ok one_ne_zero, ok_bind]
  have : (forI 0 (1 + 1) (List.replicate ((2 : ℤ) - 1 + 1 + 2).toNat (1 : K)) fun j kv => vset kv j 0) = ok [0, 0, 1, 1] := by
    simp [forI, loopUp, vset, List.replicate]
  rw [this, ok_bind, forI_empty (by norm_num), ok_bind]
  unfold bandArrays
  rw [forI_empty (by norm_num), ok_bind]
  rfl

/-- C132, refuted for too many control points: with more than `m + p + 1` of them the function reads the parameter before the first one. -/
theorem C132_too_many_violated (solve : List (List K) → ℤ → List (List K) → Res (Option (List (List K)))) (hp7 : p ≤ 7) (hnm : m + p < n) (hpts : pts.length = m + 1) :
    leastSquares solve p pts ((n : ℤ) + 1) uk = ub := by
  unfold leastSquares
  rw [validate_of (by rw [decide_eq_true_eq]; unfold nurbsMaxDegree; omega), ok_bind, validate_of (by rw [decide_eq_true_eq]; omega), ok_bind]
  dsimp only
  rw [show (n : ℤ) + 1 - 1 = n by ring, show (pts.length : ℤ) - 1 = m by rw [hpts]; push_cast; ring]
  have hub : leastSquaresKnots (K := K) p n m uk = ub := by
    unfold leastSquaresKnots
    have hN : (0 : K) < ((n : ℤ) - p + 1 : ℤ) := by exact_mod_cast (by omega : (0 : ℤ) < (n : ℤ) - p + 1)
    rw [fdiv_ok hN.ne', ok_bind]
    obtain ⟨kv, e, -⟩ := Runs.forN (m := 0) (n := p + 1) (a := 0) (b := (p : ℤ) + 1) (s := List.replicate ((n : ℤ) + p + 2).toNat (1 : K)) (body := fun j kv => vset kv j 0)
      (fun _ kv => kv.length = n + p + 2) rfl (by push_cast; ring) (by omega) (by simp; omega) (by
        rintro i l - hi q
        rw [vset_of (k := i) rfl (by omega)]
        exact Runs.ok (by simp [q]))
    rw [e, ok_bind, forI_head (by omega)]
    have hfl : ⌊((1 : ℤ) : K) * (((m : ℤ) + 1 : ℤ) / ((n : ℤ) - p + 1 : ℤ) : K)⌋ = 0 := by
      rw [Int.floor_eq_zero_iff]
      constructor
      · rw [Int.cast_one, one_mul]
        exact div_nonneg (by exact_mod_cast (by omega : (0 : ℤ) ≤ (m : ℤ) + 1)) hN.le
      · rw [Int.cast_one, one_mul, div_lt_one hN]
        exact_mod_cast (by omega : (m : ℤ) + 1 < (n : ℤ) - p + 1)
    dsimp only
    rw [hfl]
    rfl
  rw [hub]
  rfl

end

/-- C132: for at least two data points the function with its own parameters is the one above, with parameters as many as points that do
not decrease from 0 to 1. -/
theorem C132_chord_partial (solve : List (List ℝ) → ℤ → List (List ℝ) → Res (Option (List (List ℝ)))) {pts : List (XYZ ℝ)} {m : ℕ} (degree count : ℤ) (hm : 1 ≤ m)
    (hpts : pts.length = m + 1) (hd : 0 ≤ degree ∧ degree ≤ 7) (hc : 0 < count) :
    ∃ uk, leastSquaresChord solve degree pts count = leastSquares solve degree pts count uk ∧ uk.length = m + 1 ∧ nth uk 0 = 0 ∧ nth uk m = 1 ∧
      ∀ i j, i ≤ j → j ≤ m → nth uk i ≤ nth uk j := by
  obtain ⟨uk, e, g1, g2, g3, g4, -⟩ := C46_chord pts (by omega)
  rw [hpts, Nat.add_sub_cancel] at g3
  refine ⟨uk, ?_, by omega, g2, g3, fun i j h h' => g4 i j h (by omega)⟩
  unfold leastSquaresChord
  rw [validate_of (by rw [decide_eq_true_eq]; unfold nurbsMaxDegree; omega), ok_bind, validate_of (by rw [decide_eq_true_eq]; omega), ok_bind, e, ok_bind]

/-- C132: a degree outside `0 … 7` and a count that is not positive are rejected, whatever the parameters. -/
theorem C132_rejects (solve : List (List ℝ) → ℤ → List (List ℝ) → Res (Option (List (List ℝ)))) (pts : List (XYZ ℝ)) (degree count : ℤ)
    (h : degree < 0 ∨ 7 < degree ∨ count ≤ 0) : leastSquaresChord solve degree pts count = invalidArg ∧ ∀ uk, leastSquares solve degree pts count uk = invalidArg := by
  unfold leastSquaresChord leastSquares
  by_cases hd : degree ≥ 0 ∧ degree ≤ nurbsMaxDegree
  · rw [validate_of (by rw [decide_eq_true_eq]; exact hd), ok_bind]
    unfold nurbsMaxDegree at hd
    rw [show decide (count > 0) = false by rw [decide_eq_false_iff_not]; omega]
    exact ⟨rfl, fun _ => rfl⟩
  · rw [show decide (degree ≥ 0 ∧ degree ≤ nurbsMaxDegree) = false by rw [decide_eq_false_iff_not]; exact hd]
    exact ⟨rfl, fun _ => rfl⟩

/-! ### Examples -/

/-- a solver for one system, for the example -/
def fitSolve (A : List (List ℚ)) (w : ℤ) (B : List (List ℚ)) : Res (Option (List (List ℚ))) :=
  if w = 5 ∧ A = [[0, 0, 3089/3600, 2719/5400, 0], [0, 2719/5400, 6449/8100, 0, 0]] ∧ B = [[283/108, 2719/540, 2/3], [533/162, 6449/810, 8/9]]
  then ok (some [[1, 0, 337/1740], [7/2, 10, 1153/1160]]) else ok none

theorem fitSolve_sound : SoundBandSolver fitSolve := by
  intro s w d A B X hA hB h
  unfold fitSolve at h
  split at h
  · rename_i hAB
    obtain ⟨hw, rfl, rfl⟩ := hAB
    have hw : w = 2 := by omega
    subst hw
    have := Option.some.inj (Res.ok.inj h)
    subst this
    have hs : s = 2 := hA.1.symm
    subst hs
    have hd : d = 3 := (hB.2 0 (by omega)).symm
    subst hd
    refine ⟨by unfold IsMat; decide +kernel, ?_⟩
    intro i j hi hj
    interval_cases i <;> interval_cases j <;> decide +kernel
  · simp at h

/-- six points -/
def fitData : List (XYZ ℚ) := [⟨0, 0, 0⟩, ⟨1, 1, 0⟩, ⟨2, 4, 1⟩, ⟨3, 9, 0⟩, ⟨4, 16, 1⟩, ⟨5, 25, 0⟩]

/-- their approximation by a quadratic curve with four control points -/
def fitCurve : NurbsCurve ℚ := { degree := 2, knots := [0, 0, 0, 2/5, 1, 1, 1], cps := [⟨0, 0, 0, 1⟩, ⟨1, 0, 337/1740, 1⟩, ⟨7/2, 10, 1153/1160, 1⟩, ⟨5, 25, 0, 1⟩] }

theorem fitData_run : leastSquares fitSolve 2 fitData 4 [0, 1/5, 2/5, 3/5, 4/5, 1] = ok (some fitCurve) := by decide +kernel

theorem fitData_exact : ExactParams fitCurve.knots [0, 1/5, 2/5, 3/5, 4/5, 1] 2 3 5 := by
  refine ⟨⟨by decide +kernel, by decide +kernel⟩, ?_, ?_⟩
  · intro k hk
    have hk : k < 4 := hk
    unfold KnotSeparated
    interval_cases k <;> decide +kernel
  · intro k hk q hq j hj
    have hk : k < 4 := hk
    have hj' : j ≤ 5 - q := by omega
    clear hj
    obtain rfl | rfl : q = 0 ∨ q = 1 := by omega
    · have : j ≤ 5 := hj'
      interval_cases k <;> interval_cases j <;> decide +kernel
    · have : j ≤ 4 := hj'
      interval_cases k <;> interval_cases j <;> decide +kernel

/-- `C132_minimises_partial` is not vacuous -/
example : WellFormed fitCurve 2 3 ∧ NurbsCurve.pointOnCurve fitCurve 1 = ok ⟨5, 25, 0⟩ ∧ ∃ x : ℕ → XYZ ℚ,
    (∀ k, k ≤ 5 → NurbsCurve.pointOnCurve fitCurve (nth [0, 1/5, 2/5, 3/5, 4/5, 1] k) = ok (x k)) ∧
    ∀ (d : NurbsCurve ℚ) (y : ℕ → XYZ ℚ), WellFormed d 2 3 → d.knots = fitCurve.knots → (∀ i, i ≤ 3 → (nth d.cps i).w = 1) →
      NurbsCurve.pointOnCurve d 0 = ok ⟨0, 0, 0⟩ → NurbsCurve.pointOnCurve d 1 = ok ⟨5, 25, 0⟩ →
      (∀ k, k ≤ 5 → NurbsCurve.pointOnCurve d (nth [0, 1/5, 2/5, 3/5, 4/5, 1] k) = ok (y k)) → squaredDeviation 5 fitData x ≤ squaredDeviation 5 fitData y := by
  obtain ⟨a, -, -, -, -, b, c⟩ := C132_minimises_partial (p := 2) (n := 3) (m := 5) fitSolve_sound (by omega) (by omega) (by omega) (by omega) (by omega) (by omega) rfl rfl rfl rfl
    (by intro i j hij hj; interval_cases j <;> interval_cases i <;> decide +kernel) fitData_run fitData_exact
  exact ⟨a, b, c⟩

/-- `C132_answers_partial` is not vacuous -/
example : ∃ r, leastSquares fitSolve 2 fitData 4 [0, 1/5, 2/5, 3/5, 4/5, 1] = ok r :=
  C132_answers_partial (p := 2) (n := 3) (m := 5) fitSolve_sound (by intro A w B; unfold fitSolve; split <;> exact ⟨_, rfl⟩) (by omega) (by omega) (by omega) (by omega) (by omega)
    (by omega) rfl rfl rfl rfl (by intro i j hij hj; interval_cases j <;> interval_cases i <;> decide +kernel)
    (fun kv hkv => by rw [leastSquares_knots (p := 2) (n := 3) (m := 5) (by omega) rfl fitData_run] at hkv; cases hkv; exact fitData_exact)

end LNLib.Props
