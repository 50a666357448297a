import Verif.Model.InterpTangents
import Verif.Props.Hermite
import Verif.Props.Loft

/-!
# C131: interpolation of points and tangents (Geometry/Curve/NurbsCurve.cpp, the second `GlobalInterpolation`)
-/

set_option linter.unusedSectionVars false

namespace LNLib.Props
open LNLib Res LNLib.Spec Finset

variable {K : Type} [Field K] [LinearOrder K] [IsStrictOrderedRing K]

/-- a curve with point `(Q, 1)` and derivative `(T, 0)` in homogeneous coordinates has the point `Q` and the derivative `T` -/
theorem unit_weight_eval {c : NurbsCurve K} {p n s : ℕ} {t : K} {Q T : XYZ K} (w : WellFormed c p n) (he : EndsSeparated (nth c.knots) p n)
    (h0 : nth c.knots p ≤ t) (h1 : t ≤ nth c.knots (n + 1)) (hs : IsSpan (nth c.knots) p n t s)
    (p0 : curvePoint (nth c.knots) p n (nth c.cps) t = XYZW.ofXYZ Q 1)
    (p1 : curveDeriv (nth c.knots) s p n (nth c.cps) 1 t = XYZW.ofXYZ T 1 - ⟨0, 0, 0, 1⟩) :
    NurbsCurve.pointOnCurve c t = ok Q ∧ NurbsCurve.rationalDerivatives c 1 t = ok [Q, T] := by
  have hwe : weightFn (nth c.knots) p n (nth c.cps) t = 1 := by
    have := congrArg XYZW.w p0
    unfold curvePoint at this
    rw [XYZW.sum_w] at this
    exact this
  constructor
  · rw [C05_eval_rational w he h0 h1 (by rw [hwe, abs_one]; norm_num)]
    refine congrArg ok ?_
    unfold rationalPoint
    unfold weightFn at hwe
    rw [hwe, inv_one, one_smul]
    have := congrArg XYZW.raw p0
    unfold curvePoint at this
    rw [XYZW.sum_raw] at this
    rw [show Q = (XYZW.ofXYZ Q 1).raw by ext <;> simp [XYZW.ofXYZ, XYZW.raw], ← this]
    rfl
  · obtain ⟨l, e1, e2, e3⟩ := C20_leibniz (d := 1) w he h0 h1 hs (by omega) (by rw [hwe]; exact one_ne_zero)
    have d0 : curveDeriv (nth c.knots) s p n (nth c.cps) 0 t = XYZW.ofXYZ Q 1 := by
      rw [curveDeriv_window hs.1 hs.2.1, ← p0, curvePoint_span (m := n + p + 1) (wf_monoTo w) (le_refl _) hs]
      simp only [dN_zero]
    have q0 := e3 0 (by omega)
    have q1 := e3 1 (le_refl _)
    simp only [sum_range_succ, sum_range_zero, zero_add, Nat.sub_zero, Nat.sub_self, d0, p1] at q0 q1
    have f0 : nth l 0 = Q := by
      rw [show (XYZW.ofXYZ Q (1 : K)).raw = Q by ext <;> simp [XYZW.ofXYZ, XYZW.raw]] at q0
      simpa [XYZW.ofXYZ] using q0
    have f1 : nth l 1 = T := by
      rw [show (XYZW.ofXYZ T (1 : K) - ⟨0, 0, 0, 1⟩ : XYZW K).raw = T by ext <;> simp [XYZW.ofXYZ, XYZW.raw]] at q1
      simpa [XYZW.ofXYZ] using q1
    rw [show ((1 : ℕ) : ℤ) = 1 from rfl] at e1
    rw [e1]
    refine congrArg ok (ext_nth (by simpa using e2) ?_)
    intro i hi
    rw [e2] at hi
    rcases i with _ | _ | i
    · exact f0
    · exact f1
    · omega

theorem XYZW.sum_raw_x {ι : Type} (s : Finset ι) (b : ι → K) (P : ι → XYZW K) : (∑ i ∈ s, b i • P i).wx = ∑ i ∈ s, b i * (P i).wx := by
  have := congrArg XYZ.x (XYZW.sum_raw s b P)
  rw [XYZ.sum_x] at this
  exact this
theorem XYZW.sum_raw_y {ι : Type} (s : Finset ι) (b : ι → K) (P : ι → XYZW K) : (∑ i ∈ s, b i • P i).wy = ∑ i ∈ s, b i * (P i).wy := by
  have := congrArg XYZ.y (XYZW.sum_raw s b P)
  rw [XYZ.sum_y] at this
  exact this
theorem XYZW.sum_raw_z {ι : Type} (s : Finset ι) (b : ι → K) (P : ι → XYZW K) : (∑ i ∈ s, b i • P i).wz = ∑ i ∈ s, b i * (P i).wz := by
  have := congrArg XYZ.z (XYZW.sum_raw s b P)
  rw [XYZ.sum_z] at this
  exact this

section
variable {kv params : List K} {p s : ℕ}

/-- the matrix holds the basis functions in its even rows and their derivatives in its odd rows -/
theorem tangentMatrix_run {n : ℕ} (hn : n + 1 = 2 * s) (hp : 0 < p) (hp7 : p ≤ 7) (hpn : p ≤ n) (hl : s ≤ params.length)
    (hk : kv.length = n + p + 2) (hsort : ∀ i j, i ≤ j → j < kv.length → nth kv i ≤ nth kv j) {sp : ℕ → ℕ}
    (hspan : ∀ i, i < s → getKnotSpanIndex p kv (nth params i) = ok (sp i : ℤ) ∧ IsSpan (nth kv) p n (nth params i) (sp i)) :
    Runs (tangentMatrix p s kv params) (fun A => IsMat A (2 * s) (2 * s) ∧ ∀ i j, i < s → j < 2 * s →
      ent A (2 * i) j = N (nth kv) (nth kv (n + 1)) p j (nth params i) ∧ ent A (2 * i + 1) j = dN (nth kv) (sp i) p j 1 (nth params i)) := by
  have hm : MonoTo (nth kv) (n + p + 1) := fun i j h h' => hsort i j h (by omega)
  unfold tangentMatrix
  refine (Runs.forN (m := 0) (n := s) (fun k (A : List (List K)) => IsMat A (2 * s) (2 * s) ∧
      (∀ i j, i < k → j < 2 * s →
        ent A (2 * i) j = N (nth kv) (nth kv (n + 1)) p j (nth params i) ∧ ent A (2 * i + 1) j = dN (nth kv) (sp i) p j 1 (nth params i)) ∧
      ∀ a j, 2 * k ≤ a → ent A a j = 0) rfl rfl (by omega) ⟨isMat_replicate, fun i j hi => by omega, fun a j _ => ent_replicate_zero⟩ ?_).mono ?_
  · rintro i A - hi ⟨g1, g2, g3⟩
    obtain ⟨es, hs⟩ := hspan i hi
    have hs' := hs
    obtain ⟨a1, a2, a3, a4, a5⟩ := hs'
    unfold tangentRows
    rw [vget_nth (k := i) rfl (by omega), ok_bind, es, ok_bind]
    obtain ⟨b0, b1⟩ := span_range hk hsort hs
    have heps := doubleEps_pos (K := K)
    obtain ⟨out, eo, -, ho'⟩ := basisFunctions_span (U := kv) (s := sp i) (p := p) (t := nth params i) (out := uninit K 8) hp7 a1 (by omega) (by omega)
      (by simp [uninit]; omega) (isValidKnotVector_nth.mpr hsort) a3 (by linarith) (by linarith)
    rw [eo, ok_bind]
    obtain ⟨der, ed, hdm, hder, -, -⟩ := C19_derivatives (d := 1) hp7 hp hk hsort hs
    rw [show ((1 : ℕ) : ℤ) = 1 from rfl] at ed
    rw [ed, ok_bind]
    refine (Runs.forN (m := 0) (n := p + 1) (fun r (B : List (List K)) => IsMat B (2 * s) (2 * s) ∧
      ∀ a b, ent B a b = if a = 2 * i ∧ sp i - p ≤ b ∧ b < sp i - p + r then Nspan (nth kv) (sp i) p b (nth params i)
        else if a = 2 * i + 1 ∧ sp i - p ≤ b ∧ b < sp i - p + r then dN (nth kv) (sp i) p b 1 (nth params i) else ent A a b)
      rfl (by push_cast; ring) (by omega) ⟨g1, by intro a b; rw [if_neg (by omega), if_neg (by omega)]⟩ ?_).mono ?_
    · rintro r B - hr ⟨q1, q2⟩
      dsimp only
      rw [if_pos (by omega), ho' r (by omega), ok_bind]
      obtain ⟨B', eB, q3, q4⟩ := mset_ok q1 (i := 2 * (i : ℤ)) (j := (sp i : ℤ) - p + r) (a := 2 * i) (b := sp i - p + r)
        (x := Nspan (nth kv) (sp i) p (sp i - p + r) (nth params i)) (by push_cast; ring) (by omega) (by omega) (by omega)
      rw [eB, ok_bind, mget_ent (i := 1) (a := 1) (b := r) hdm rfl rfl (by omega) (by omega), ok_bind, hder 1 (le_refl _) r (by omega)]
      obtain ⟨B'', eB'', q5, q6⟩ := mset_ok q3 (i := 2 * (i : ℤ) + 1) (j := (sp i : ℤ) - p + r) (a := 2 * i + 1) (b := sp i - p + r)
        (x := dN (nth kv) (sp i) p (sp i - p + r) 1 (nth params i)) (by push_cast; ring) (by omega) (by omega) (by omega)
      refine ⟨B'', eB'', q5, ?_⟩
      intro a b
      rw [q6 a b, q4 a b, q2 a b]
      by_cases hb : b = sp i - p + r
      · subst hb
        by_cases ha : a = 2 * i
        · subst ha
          rw [if_neg (by omega), if_pos ⟨rfl, rfl⟩, if_pos ⟨rfl, by omega, by omega⟩]
        · by_cases ha' : a = 2 * i + 1
          · subst ha'
            rw [if_pos ⟨rfl, rfl⟩, if_neg (by omega), if_pos ⟨rfl, by omega, by omega⟩]
          · simp only [ha, ha', false_and, if_false]
      · have e : (sp i - p ≤ b ∧ b < sp i - p + (r + 1)) ↔ (sp i - p ≤ b ∧ b < sp i - p + r) := by omega
        simp only [hb, and_false, if_false, e]
    · rintro B ⟨q1, q2⟩
      refine ⟨q1, ?_, ?_⟩
      · intro i' j hi' hj
        rw [q2, q2]
        by_cases hii : i' = i
        · subst hii
          rw [if_neg (show ¬ (2 * i' + 1 = 2 * i' ∧ _) by omega), N_eq_Nspan hm (by omega) hs p j (by omega)]
          by_cases hc : sp i' - p ≤ j ∧ j < sp i' - p + (p + 1)
          · rw [if_pos ⟨rfl, hc⟩, if_pos ⟨rfl, hc⟩]
            exact ⟨rfl, rfl⟩
          · rw [if_neg (fun h => hc h.2), if_neg (by omega), if_neg (fun h => hc h.2), g3 _ _ (by omega), g3 _ _ (by omega),
              Nspan_zero _ _ _ _ _ (by omega), dN_out _ _ _ _ _ _ (by omega)]
            exact ⟨rfl, rfl⟩
        · rw [if_neg (by omega), if_neg (by omega), if_neg (by omega), if_neg (by omega)]
          exact g2 i' j (by omega) hj
      · intro a j ha
        rw [q2, if_neg (by omega), if_neg (by omega)]
        exact g3 a j (by omega)
  · rintro A ⟨g1, g2, -⟩
    exact ⟨g1, g2⟩

end

section
variable {solve : List (List K) → List (List K) → Res (List (List K))} {p s : ℕ} {pts tans : List (XYZ K)} {params : List K} {factor : K}

theorem tangentRow_eq {α : Type} {c i : ℕ} {f : ℕ → List α} (h : i < c) : row ((List.range c).map f) i = f i := by
  unfold row
  simp [h]

theorem tangentRight_mat : IsMat (tangentRight s pts tans factor) (2 * s) 3 := by
  refine ⟨by simp [tangentRight], fun i hi => ?_⟩
  unfold tangentRight
  rw [tangentRow_eq hi]
  dsimp only
  split <;> rfl

theorem tangentRight_even {i : ℕ} (hi : i < s) : row (tangentRight s pts tans factor) (2 * i) = [(nth pts i).x, (nth pts i).y, (nth pts i).z] := by
  unfold tangentRight
  rw [tangentRow_eq (by omega)]
  dsimp only
  rw [if_pos (by omega), if_pos (by omega), show 2 * i / 2 = i by omega]

theorem tangentRight_odd {i : ℕ} (hi : i < s) :
    row (tangentRight s pts tans factor) (2 * i + 1) = [(nth tans i).x * factor, (nth tans i).y * factor, (nth tans i).z * factor] := by
  unfold tangentRight
  rw [tangentRow_eq (by omega)]
  dsimp only
  rw [if_neg (by omega), if_neg (by omega), show (2 * i + 1) / 2 = i by omega]

/-- C131, the part that holds: whatever the degree `p`, if the linear solver (Eigen, not modelled) only returns solutions of the system it
is given, the parameters run from 0 to 1, and the knots chosen are nondecreasing, with the domain [0, 1] and with first and last
knot span longer than the tolerance, then every curve returned is valid, passes through the `i`-th point at the `i`-th parameter and has
there the first derivative `tangentFactor` times the `i`-th tangent. -/
theorem C131_interpolates_partial {c : NurbsCurve K} (hsolve : SoundSolver solve) (hp : 0 < p) (hpts : pts.length = s)
    (hl : s ≤ params.length) (h0 : ∀ i, i < s → 0 ≤ nth params i) (h1 : ∀ i, i < s → nth params i ≤ 1)
    (hc : globalInterpolationTangents solve p pts tans factor params = ok c)
    (hk : c.knots.length = 2 * s + p + 1) (hsort : ∀ i j, i ≤ j → j < c.knots.length → nth c.knots i ≤ nth c.knots j)
    (k0 : nth c.knots p = 0) (k1 : nth c.knots (2 * s) = 1) (he : EndsSeparated (nth c.knots) p (2 * s - 1)) :
    WellFormed c p (2 * s - 1) ∧ ∀ i, i < s → NurbsCurve.pointOnCurve c (nth params i) = ok (nth pts i) ∧
      NurbsCurve.rationalDerivatives c 1 (nth params i) = ok [nth pts i, factor • nth tans i] := by
  unfold globalInterpolationTangents at hc
  rw [hpts] at hc
  obtain ⟨_, v1, hc⟩ := bind_eq_ok.mp hc
  obtain ⟨_, v2, hc⟩ := bind_eq_ok.mp hc
  obtain ⟨_, v3, hc⟩ := bind_eq_ok.mp hc
  obtain ⟨_, v4, hc⟩ := bind_eq_ok.mp hc
  have hps : p < s := by
    by_contra hcon
    rw [show decide ((s : ℤ) > (p : ℤ)) = false by rw [decide_eq_false_iff_not]; omega] at v3
    simp [validate] at v3
  obtain ⟨n, hn⟩ : ∃ n, n + 1 = 2 * s := ⟨2 * s - 1, by omega⟩
  have hn' : 2 * s - 1 = n := by omega
  obtain ⟨kv, ekv, hc⟩ := bind_eq_ok.mp hc
  obtain ⟨A, eA, hc⟩ := bind_eq_ok.mp hc
  obtain ⟨X, eX, hc⟩ := bind_eq_ok.mp hc
  obtain ⟨_, v5, hc⟩ := bind_eq_ok.mp hc
  obtain ⟨cps, ecps, hc⟩ := bind_eq_ok.mp hc
  have hc' : c = { degree := p, knots := kv, cps := cps } := (Res.ok.inj hc).symm
  have hkv : c.knots = kv := by rw [hc']
  have hcp : c.cps = cps := by rw [hc']
  rw [hkv] at hk hsort k0 k1 he
  rw [hn'] at he
  have hp7 : p ≤ 7 := by
    by_contra h7
    unfold tangentMatrix at eA
    rw [forI_head (by omega)] at eA
    obtain ⟨A0, eA0, -⟩ := bind_eq_ok.mp eA
    unfold tangentRows at eA0
    obtain ⟨u, -, eA0⟩ := bind_eq_ok.mp eA0
    obtain ⟨sp, -, eA0⟩ := bind_eq_ok.mp eA0
    obtain ⟨b, eb, -⟩ := bind_eq_ok.mp eA0
    unfold basisFunctions at eb
    obtain ⟨_, -, eb⟩ := bind_eq_ok.mp eb
    obtain ⟨_, eb, -⟩ := bind_eq_ok.mp eb
    rw [show decide ((p : ℤ) ≥ 0 ∧ (p : ℤ) ≤ nurbsMaxDegree) = false by rw [decide_eq_false_iff_not]; unfold nurbsMaxDegree; omega] at eb
    simp [validate] at eb
  have k1' : nth kv (n + 1) = 1 := by rw [hn]; exact k1
  have hspan : ∀ i, ∃ sp : ℕ, i < s → getKnotSpanIndex p kv (nth params i) = ok (sp : ℤ) ∧ IsSpan (nth kv) p n (nth params i) sp := by
    intro i
    by_cases hi : i < s
    · obtain ⟨sp, h⟩ := getKnotSpanIndex_isSpan (t := nth params i) (by omega) (by omega) hsort he (by rw [k0]; exact h0 i hi) (by rw [k1']; exact h1 i hi)
      exact ⟨sp, fun _ => h⟩
    · exact ⟨0, fun h => absurd h hi⟩
  choose sp hsp using hspan
  obtain ⟨A', eA', a1, a2⟩ := tangentMatrix_run hn hp hp7 (by omega) hl (by omega) hsort hsp
  rw [eA] at eA'
  obtain rfl := Res.ok.inj eA'
  obtain ⟨x1, x2⟩ := hsolve _ _ _ _ _ a1 (tangentRight_mat (pts := pts) (tans := tans) (factor := factor)) eX
  have hrun : Runs (forI 0 (2 * (s : ℤ)) (List.replicate (2 * s) (⟨0, 0, 0, 0⟩ : XYZW K)) fun i cps => do
      let x ← mget X i 0
      let y ← mget X i 1
      let z ← mget X i 2
      vset cps i ⟨x * 1, y * 1, z * 1, 1⟩) (fun cps => cps.length = 2 * s ∧ ∀ i, i < 2 * s → nth cps i = ⟨ent X i 0, ent X i 1, ent X i 2, 1⟩) := by
    refine (Runs.forN (m := 0) (n := 2 * s) (fun k (cps : List (XYZW K)) => cps.length = 2 * s ∧ ∀ i, i < k → nth cps i = ⟨ent X i 0, ent X i 1, ent X i 2, 1⟩)
      rfl (by push_cast; ring) (by omega) ⟨by simp, by intro i hi; omega⟩ ?_).mono ?_
    · rintro i cps - hi ⟨q1, q2⟩
      rw [mget_ent (a := i) (b := 0) (j := 0) x1 rfl rfl hi (by omega), ok_bind, mget_ent (a := i) (b := 1) (j := 1) x1 rfl rfl hi (by omega), ok_bind,
        mget_ent (a := i) (b := 2) (j := 2) x1 rfl rfl hi (by omega), ok_bind, vset_of (k := i) rfl (by omega)]
      refine Runs.ok ⟨by simp [q1], ?_⟩
      intro j hj
      rw [nth_set (by omega)]
      split
      · rename_i hji; rw [hji]; simp
      · exact q2 j (by omega)
    · rintro cps ⟨q1, q2⟩
      exact ⟨q1, fun i hi => q2 i (by omega)⟩
  obtain ⟨cps', ec, c1, c2⟩ := hrun
  rw [ecps] at ec
  obtain rfl := Res.ok.inj ec
  have w : WellFormed c p n := by
    rw [hc']
    exact ⟨rfl, hp, hp7, by dsimp only; omega, by omega, by dsimp only; omega, hsort⟩
  rw [hn']
  refine ⟨w, ?_⟩
  intro i hi
  obtain ⟨-, hs⟩ := hsp i hi
  have hm : MonoTo (nth kv) (n + p + 1) := fun i j h h' => hsort i j h (by omega)
  obtain ⟨-, hone⟩ := basis_convex hm hs
  have hzero : ∑ j ∈ range (n + 1), dN (nth kv) (sp i) p j 1 (nth params i) = 0 := by
    rw [sum_window hs.1 hs.2.1 (f := fun j => dN (nth kv) (sp i) p j 1 (nth params i)) (fun j hj => dN_out _ _ _ _ _ _ hj)]
    exact sum_dN hm hs.2.2.1 hs.1 (by have := hs.2.1; omega) (by omega)
  have c2' : ∀ j ∈ range (n + 1), nth c.cps j = ⟨ent X j 0, ent X j 1, ent X j 2, 1⟩ := fun j hj => by
    rw [hcp]; exact c2 j (by have := Finset.mem_range.mp hj; omega)
  have ev : ∀ d, d < 3 → ∑ j ∈ range (n + 1), N (nth kv) (nth kv (n + 1)) p j (nth params i) * ent X j d = nth [(nth pts i).x, (nth pts i).y, (nth pts i).z] d := by
    intro d hd
    rw [← tangentRight_even (s := s) (tans := tans) (factor := factor) hi, ← ent, ← x2 (2 * i) d (by omega) hd, hn]
    refine Finset.sum_congr rfl fun j hj => ?_
    rw [(a2 i j hi (by have := Finset.mem_range.mp hj; omega)).1, hn]
  have od : ∀ d, d < 3 → ∑ j ∈ range (n + 1), dN (nth kv) (sp i) p j 1 (nth params i) * ent X j d
      = nth [(nth tans i).x * factor, (nth tans i).y * factor, (nth tans i).z * factor] d := by
    intro d hd
    rw [← tangentRight_odd (s := s) (pts := pts) (factor := factor) hi, ← ent, ← x2 (2 * i + 1) d (by omega) hd, hn]
    refine Finset.sum_congr rfl fun j hj => ?_
    rw [(a2 i j hi (by have := Finset.mem_range.mp hj; omega)).2]
  have e0 : nth c.knots p ≤ nth params i := by rw [hkv, k0]; exact h0 i hi
  have e1 : nth params i ≤ nth c.knots (n + 1) := by rw [hkv, k1']; exact h1 i hi
  refine unit_weight_eval w (by rw [hkv]; exact he) e0 e1 (by rw [hkv]; exact hs) ?_ ?_
  · rw [hkv]
    unfold curvePoint
    rw [Finset.sum_congr rfl fun j hj => by rw [c2' j hj]]
    ext
    · rw [XYZW.sum_raw_x]; simpa [XYZW.ofXYZ] using ev 0 (by omega)
    · rw [XYZW.sum_raw_y]; simpa [XYZW.ofXYZ] using ev 1 (by omega)
    · rw [XYZW.sum_raw_z]; simpa [XYZW.ofXYZ] using ev 2 (by omega)
    · rw [XYZW.sum_w]; simpa [XYZW.ofXYZ] using hone
  · rw [hkv]
    unfold curveDeriv
    rw [Finset.sum_congr rfl fun j hj => by rw [c2' j hj]]
    have comm : ∀ x, factor * x = x * factor := fun x => mul_comm _ _
    ext
    · rw [XYZW.sum_raw_x]; simpa [XYZW.ofXYZ, comm] using od 0 (by omega)
    · rw [XYZW.sum_raw_y]; simpa [XYZW.ofXYZ, comm] using od 1 (by omega)
    · rw [XYZW.sum_raw_z]; simpa [XYZW.ofXYZ, comm] using od 2 (by omega)
    · rw [XYZW.sum_w]; simpa [XYZW.ofXYZ] using hzero

end

/-! ## The knots -/

section
variable {p s : ℕ} {params : List K}

/-- the extended parameters: the parameters, the midpoints between them and the last one once more -/
theorem extendedParams_run (hs : 0 < s) (hl : params.length = s) :
    Runs (extendedParams s (2 * s) params) (fun e => e.length = 2 * s ∧ (∀ i, i < s → nth e (2 * i) = nth params i) ∧
      (∀ i, i + 1 < s → nth e (2 * i + 1) = (nth params i + nth params (i + 1)) / 2) ∧ nth e (2 * s - 1) = nth params (s - 1)) := by
  unfold extendedParams
  refine Runs.bind (Q := fun (e : List K) => e.length = 2 * s - 1 ∧ (∀ i, i < s → nth e (2 * i) = nth params i) ∧
      (∀ i, i + 1 < s → nth e (2 * i + 1) = (nth params i + nth params (i + 1)) / 2)) ?_ ?_
  · refine (Runs.forN (m := 0) (n := s) (fun k (e : List K) => (e.length = if k < s then 2 * k else 2 * s - 1) ∧ (∀ i, i < k → nth e (2 * i) = nth params i) ∧
      (∀ i, i < k → i + 1 < s → nth e (2 * i + 1) = (nth params i + nth params (i + 1)) / 2)) rfl rfl (by omega)
      ⟨by rw [if_pos hs]; rfl, by intro i hi; omega, by intro i hi; omega⟩ ?_).mono ?_
    · rintro i e - hi ⟨q1, q2, q3⟩
      rw [if_pos hi] at q1
      rw [vget_nth (k := i) rfl (by omega), ok_bind]
      by_cases hl' : i + 1 < s
      · rw [if_pos (by omega), vget_nth (k := i + 1) (by push_cast; ring) (by omega), ok_bind]
        refine Runs.ok ⟨by rw [if_pos hl']; simp [q1]; omega, ?_, ?_⟩
        · intro j hj
          by_cases hji : j = i
          · subst hji
            rw [nth_append_left (by simp [q1]), nth_append_right (by omega), q1, Nat.sub_self]; rfl
          · rw [nth_append_left (by simp [q1]; omega), nth_append_left (by omega)]
            exact q2 j (by omega)
        · intro j hj hj'
          by_cases hji : j = i
          · subst hji
            rw [nth_append_right (by simp [q1])]
            simp [q1]
          · rw [nth_append_left (by simp [q1]; omega), nth_append_left (by omega)]
            exact q3 j (by omega) hj'
      · rw [if_neg (by omega)]
        refine Runs.ok ⟨by rw [if_neg hl']; simp [q1]; omega, ?_, ?_⟩
        · intro j hj
          by_cases hji : j = i
          · subst hji
            rw [nth_append_right (by omega), q1, Nat.sub_self]; rfl
          · rw [nth_append_left (by omega)]
            exact q2 j (by omega)
        · intro j hj hj'
          rw [nth_append_left (by omega)]
          exact q3 j (by omega) hj'
    · rintro e ⟨q1, q2, q3⟩
      rw [if_neg (by omega)] at q1
      exact ⟨q1, q2, fun i hi => q3 i (by omega) hi⟩
  · rintro e ⟨q1, q2, q3⟩
    rw [vget_nth (k := s - 1) (by omega) (by omega), ok_bind, show 2 * s - e.length = 1 by omega]
    refine Runs.ok ⟨by simp [q1]; omega, ?_, ?_, ?_⟩
    · intro i hi
      rw [nth_append_left (by omega)]
      exact q2 i hi
    · intro i hi
      rw [nth_append_left (by omega)]
      exact q3 i hi
    · rw [nth_append_right (by omega), show 2 * s - 1 - e.length = 0 by omega]
      rfl

theorem extended_mono {e : List K} (hs : 0 < s) (hmono : ∀ i j, i ≤ j → j < s → nth params i ≤ nth params j)
    (e0 : ∀ i, i < s → nth e (2 * i) = nth params i) (e1 : ∀ i, i + 1 < s → nth e (2 * i + 1) = (nth params i + nth params (i + 1)) / 2)
    (e2 : nth e (2 * s - 1) = nth params (s - 1)) : ∀ i j, i ≤ j → j ≤ 2 * s - 1 → nth e i ≤ nth e j := by
  have step : ∀ i, i + 1 ≤ 2 * s - 1 → nth e i ≤ nth e (i + 1) := by
    intro i hi
    obtain ⟨k, rfl | rfl⟩ : ∃ k, i = 2 * k ∨ i = 2 * k + 1 := ⟨i / 2, by omega⟩
    · rw [e0 k (by omega)]
      by_cases hk : k + 1 < s
      · rw [e1 k hk]
        have := hmono k (k + 1) (by omega) hk
        linarith
      · rw [show 2 * k + 1 = 2 * s - 1 by omega, e2, show s - 1 = k by omega]
    · rw [e1 k (by omega), show 2 * k + 1 + 1 = 2 * (k + 1) by ring, e0 (k + 1) (by omega)]
      have := hmono k (k + 1) (by omega) (by omega)
      linarith
  intro i j hij hj
  induction j, hij using Nat.le_induction with
  | base => exact le_refl _
  | succ j h ih => exact (ih (by omega)).trans (step j (by omega))

variable {solve : List (List K) → List (List K) → Res (List (List K))} {pts tans : List (XYZ K)} {factor : K}

/-- what every returned curve has been through -/
theorem tangents_inv {c : NurbsCurve K} {d : ℤ} (hc : globalInterpolationTangents solve d pts tans factor params = ok c) :
    d < pts.length ∧ tangentKnots d pts.length params = ok c.knots ∧ ∃ A, tangentMatrix d pts.length c.knots params = ok A ∧
      ∃ X, solve A (tangentRight pts.length pts tans factor) = ok X := by
  unfold globalInterpolationTangents at hc
  obtain ⟨_, v1, hc⟩ := bind_eq_ok.mp hc
  obtain ⟨_, v2, hc⟩ := bind_eq_ok.mp hc
  obtain ⟨_, v3, hc⟩ := bind_eq_ok.mp hc
  obtain ⟨_, v4, hc⟩ := bind_eq_ok.mp hc
  obtain ⟨kv, ekv, hc⟩ := bind_eq_ok.mp hc
  obtain ⟨A, eA, hc⟩ := bind_eq_ok.mp hc
  obtain ⟨X, eX, hc⟩ := bind_eq_ok.mp hc
  obtain ⟨_, v5, hc⟩ := bind_eq_ok.mp hc
  obtain ⟨cps, ecps, hc⟩ := bind_eq_ok.mp hc
  have hc' : c = { degree := d, knots := kv, cps := cps } := (Res.ok.inj hc).symm
  have hkv : c.knots = kv := by rw [hc']
  refine ⟨?_, by rw [hkv]; exact ekv, A, by rw [hkv]; exact eA, X, eX⟩
  by_contra hcon
  rw [show decide ((pts.length : ℤ) > d) = false by rw [decide_eq_false_iff_not]; omega] at v3
  simp [validate] at v3

/-- C131 for the degrees of at least four: with parameters from 0 to 1 in nondecreasing order, a sound solver and end spans longer than
the tolerance, every curve returned is valid, passes through the `i`-th point at the `i`-th parameter and has there the first derivative
`tangentFactor` times the `i`-th tangent. -/
theorem C131_high_degree_partial {c : NurbsCurve K} (hsolve : SoundSolver solve) (hp : 4 ≤ p) (hpts : pts.length = s) (hl : params.length = s)
    (h0 : nth params 0 = 0) (h1 : nth params (s - 1) = 1) (hmono : ∀ i j, i ≤ j → j < s → nth params i ≤ nth params j)
    (hc : globalInterpolationTangents solve p pts tans factor params = ok c) (he : EndsSeparated (nth c.knots) p (2 * s - 1)) :
    WellFormed c p (2 * s - 1) ∧ ∀ i, i < s → NurbsCurve.pointOnCurve c (nth params i) = ok (nth pts i) ∧
      NurbsCurve.rationalDerivatives c 1 (nth params i) = ok [nth pts i, factor • nth tans i] := by
  obtain ⟨hps, ekv, -⟩ := tangents_inv hc
  rw [hpts] at hps ekv
  have hps' : p < s := by omega
  unfold tangentKnots at ekv
  rw [if_neg (by omega), if_neg (by omega)] at ekv
  obtain ⟨e, ee, l, e0, e1, e2⟩ := extendedParams_run (s := s) (by omega) hl
  rw [ee, ok_bind] at ekv
  obtain ⟨kv, ek, g1, g2, g3, -, g5⟩ := C46_average_partial (params := e) (p := p) (n := 2 * s - 1) (by omega) (by omega) (by omega)
    (by rw [show (0 : ℕ) = 2 * 0 from rfl, e0 0 (by omega), h0]) (by rw [e2, h1]) (extended_mono (by omega) hmono e0 e1 e2)
  rw [ek] at ekv
  have hkv := Res.ok.inj ekv
  refine C131_interpolates_partial hsolve (by omega) hpts (by omega) (fun i hi => ?_) (fun i hi => ?_) hc (by rw [← hkv]; omega) (by rw [← hkv]; exact g5)
    (by rw [← hkv]; exact g2 p (le_refl _)) (by rw [← hkv]; exact g3 (2 * s) (by omega) (by omega)) he
  · rw [← h0]; exact hmono 0 i (by omega) hi
  · rw [← h1]; exact hmono i (s - 1) (by omega) (by omega)

theorem tangentKnots_four (u v : K) : tangentKnots 3 4 [0, u, v, 1] = ok [0, 0, 0, 0, u, v, v, v, 1, 1, 1, 1] := by
  simp [tangentKnots, tangentKnots3, clampKnots, forI, loopUp, vset, vget, List.replicate]

/-- C131 for four points and degree three: the curve returned is valid and meets all points and tangents -/
theorem C131_cubic_four_partial {c : NurbsCurve K} {u v : K} (hsolve : SoundSolver solve) (hpts : pts.length = 4)
    (h0 : 1 / 500000 < u) (h1 : u ≤ v) (h2 : v < 1 - 1 / 500000)
    (hc : globalInterpolationTangents solve 3 pts tans factor [0, u, v, 1] = ok c) :
    WellFormed c 3 7 ∧ ∀ i, i < 4 → NurbsCurve.pointOnCurve c (nth [0, u, v, 1] i) = ok (nth pts i) ∧
      NurbsCurve.rationalDerivatives c 1 (nth [0, u, v, 1] i) = ok [nth pts i, factor • nth tans i] := by
  obtain ⟨-, ekv, -⟩ := tangents_inv hc
  rw [hpts] at ekv
  have hkv : [0, 0, 0, 0, u, v, v, v, 1, 1, 1, 1] = c.knots := Res.ok.inj ((tangentKnots_four u v).symm.trans ekv)
  have hu : (0 : K) ≤ u := by linarith [show (0 : K) < 1 / 500000 by norm_num]
  have hv : v ≤ (1 : K) := by linarith [show (0 : K) < 1 / 500000 by norm_num]
  have ends : EndsSeparated (nth [0, 0, 0, 0, u, v, v, v, 1, 1, 1, (1 : K)]) 3 7 := by
    constructor
    · show u - 0 > 1 / 1000000 * (1 + max |(0 : K)| |u|)
      rw [abs_zero, abs_of_nonneg hu, max_eq_right hu]
      linarith
    · show 1 - v > 1 / 1000000 * (1 + max |v| |(1 : K)|)
      rw [abs_one, abs_of_nonneg (hu.trans h1), max_eq_right hv]
      linarith
  have hsort : ∀ i j, i ≤ j → j < c.knots.length → nth c.knots i ≤ nth c.knots j := by
    rw [← hkv]
    intro i j hij hj
    have hj' : j < 12 := hj
    have step : ∀ i, i + 1 < 12 → nth [0, 0, 0, 0, u, v, v, v, 1, 1, 1, (1 : K)] i ≤ nth [0, 0, 0, 0, u, v, v, v, 1, 1, 1, 1] (i + 1) := by
      intro i hi
      have : i < 11 := by omega
      interval_cases i
      all_goals first | exact le_refl _ | exact h1 | (show (0 : K) ≤ u; linarith) | (show v ≤ (1 : K); linarith)
    induction j, hij using Nat.le_induction with
    | base => exact le_refl _
    | succ j h ih => exact (ih (by omega) (by omega)).trans (step j (by omega))
  refine C131_interpolates_partial (s := 4) (p := 3) hsolve (by omega) hpts (by simp) (fun i hi => ?_) (fun i hi => ?_) hc (by rw [← hkv]; rfl) hsort
    (by rw [← hkv]; rfl) (by rw [← hkv]; rfl) (by rw [← hkv]; exact ends)
  · interval_cases i
    · exact le_refl _
    · show (0 : K) ≤ u; linarith
    · show (0 : K) ≤ v; linarith
    · show (0 : K) ≤ 1; exact zero_le_one
  · interval_cases i
    · show (0 : K) ≤ 1; exact zero_le_one
    · show u ≤ (1 : K); linarith
    · show v ≤ (1 : K); linarith
    · exact le_refl _

end

/-! ## The degrees for which nothing is ever returned -/

section
variable {solve : List (List K) → List (List K) → Res (List (List K))} {p s : ℕ} {pts tans : List (XYZ K)} {params : List K} {factor : K}

/-- if the last knot span is empty the matrix cannot be formed: a basis function divides zero by zero -/
theorem tangentMatrix_fails {kv : List K} (hp : 0 < p) (hs : 0 < s) (hk : kv.length = 2 * s + p + 1) (hl : s ≤ params.length)
    (k0 : nth kv (2 * s - 1) = 1) (k1 : nth kv (2 * s) = 1) (hu : nth params (s - 1) = 1) (A : List (List K)) :
    tangentMatrix p s kv params ≠ ok A := by
  intro h
  obtain ⟨r, rfl⟩ : ∃ r, s = r + 1 := ⟨s - 1, by omega⟩
  unfold tangentMatrix at h
  rw [show ((r + 1 : ℕ) : ℤ) = (r : ℤ) + 1 by push_cast; ring, forI_last (by omega)] at h
  obtain ⟨A0, -, h⟩ := bind_eq_ok.mp h
  unfold tangentRows at h
  rw [vget_nth (k := r) rfl (by omega), ok_bind] at h
  rw [show r + 1 - 1 = r by omega] at hu
  rw [hu] at h
  obtain ⟨sp, esp, h⟩ := bind_eq_ok.mp h
  obtain ⟨b, eb, -⟩ := bind_eq_ok.mp h
  have hsp : sp = ((2 * (r + 1) - 1 : ℕ) : ℤ) := by
    unfold getKnotSpanIndex at esp
    obtain ⟨_, -, esp⟩ := bind_eq_ok.mp esp
    obtain ⟨_, -, esp⟩ := bind_eq_ok.mp esp
    obtain ⟨_, -, esp⟩ := bind_eq_ok.mp esp
    obtain ⟨_, -, esp⟩ := bind_eq_ok.mp esp
    obtain ⟨_, -, esp⟩ := bind_eq_ok.mp esp
    obtain ⟨_, -, esp⟩ := bind_eq_ok.mp esp
    dsimp only at esp
    rw [vget_nth (k := 2 * (r + 1)) (by omega) (by omega), ok_bind, k1, if_pos (by
      rw [isGreaterThanOrEqual_eq_not]
      simp only [isLessThan, sub_self, Bool.not_eq_true', decide_eq_false_iff_not, not_lt]
      have := tolOf_pos (a := (1 : K)) (b := 1) (tol := doubleEps) doubleEps_pos
      linarith)] at esp
    have := Res.ok.inj esp
    omega
  subst hsp
  unfold basisFunctions at eb
  obtain ⟨_, -, eb⟩ := bind_eq_ok.mp eb
  obtain ⟨_, -, eb⟩ := bind_eq_ok.mp eb
  obtain ⟨_, -, eb⟩ := bind_eq_ok.mp eb
  obtain ⟨_, -, eb⟩ := bind_eq_ok.mp eb
  obtain ⟨_, -, eb⟩ := bind_eq_ok.mp eb
  obtain ⟨_, -, eb⟩ := bind_eq_ok.mp eb
  obtain ⟨_, -, eb⟩ := bind_eq_ok.mp eb
  obtain ⟨o, -, eb⟩ := bind_eq_ok.mp eb
  obtain ⟨_, eb, -⟩ := bind_eq_ok.mp eb
  rw [forI_head (by omega)] at eb
  obtain ⟨_, eb, -⟩ := bind_eq_ok.mp eb
  dsimp only at eb
  rw [vget_nth (k := 2 * (r + 1) - 1) (by omega) (by omega), ok_bind, k0, sub_self] at eb
  obtain ⟨lf, el, eb⟩ := bind_eq_ok.mp eb
  rw [vget_nth (k := 2 * (r + 1)) (by omega) (by omega), ok_bind, k1, sub_self] at eb
  obtain ⟨rt, er, eb⟩ := bind_eq_ok.mp eb
  obtain ⟨_, eb, -⟩ := bind_eq_ok.mp eb
  rw [forI_head (by omega)] at eb
  obtain ⟨_, eb, -⟩ := bind_eq_ok.mp eb
  dsimp only at eb
  obtain ⟨br, -, eb⟩ := bind_eq_ok.mp eb
  rw [← Res.ok.inj (show aset (uninit K 8) 1 (0 : K) = ok lf from el), ← Res.ok.inj (show aset (uninit K 8) 1 (0 : K) = ok rt from er)] at eb
  simp [uninit, aget, fdiv] at eb

/-- C131 refuted for degree two: whatever the points, the tangents and the solver, nothing is ever returned -/
theorem C131_quadratic_violated (hl : params.length = pts.length) (h1 : nth params (pts.length - 1) = 1) (c : NurbsCurve K) :
    globalInterpolationTangents solve 2 pts tans factor params ≠ ok c := by
  intro hc
  obtain ⟨hps, ekv, A, eA, -⟩ := tangents_inv hc
  generalize hs : pts.length = s at *
  have hps' : 2 < s := by omega
  unfold tangentKnots at ekv
  rw [if_pos rfl] at ekv
  have hrun : Runs (tangentKnots2 (s : ℤ) params (List.replicate (2 * s + 3) 0)) (fun kv => kv.length = 2 * s + 3 ∧ nth kv (2 * s) = 1 ∧ nth kv (2 * s - 1) = nth params (s - 1)) := by
    unfold tangentKnots2
    refine Runs.bind (Q := fun (kv : List K) => kv.length = 2 * s + 3 ∧ nth kv (2 * s) = 1) ?_ ?_
    · unfold clampKnots
      refine (Runs.forN (m := 0) (n := 3) (fun k (kv : List K) => kv.length = 2 * s + 3 ∧ (3 ≤ k → nth kv (2 * s) = 1)) rfl rfl (by omega)
        ⟨by simp, by intro h; omega⟩ ?_).mono (fun kv h => ⟨h.1, h.2 (le_refl _)⟩)
      rintro i kv - hi ⟨q1, q2⟩
      rw [vset_of (k := i) rfl (by omega), ok_bind, vset_of (k := 2 * s + 2 - i) (by simp [q1]; omega) (by simp [q1]; omega)]
      refine Runs.ok ⟨by simp [q1], ?_⟩
      intro h
      rw [nth_set (by simp [q1]; omega), if_pos (by omega)]
    · rintro kv ⟨q1, q2⟩
      refine (Runs.forN (m := 0) (n := s - 1) (fun k (kv : List K) => kv.length = 2 * s + 3 ∧ nth kv (2 * s) = 1 ∧ (0 < k → nth kv (2 * k + 1) = nth params k)) rfl
        (by omega) (by omega) ⟨q1, q2, by intro h; omega⟩ ?_).mono ?_
      · rintro i kv - hi ⟨q1, q2, -⟩
        rw [vget_nth (k := i) rfl (by omega), ok_bind, vset_of (k := 2 + 2 * i) (by push_cast; ring) (by omega), ok_bind,
          vget_nth (k := i + 1) (by push_cast; ring) (by omega), ok_bind, vset_of (k := 2 + 2 * i + 1) (by push_cast; ring) (by simp; omega)]
        refine Runs.ok ⟨by simp [q1], ?_, ?_⟩
        · rw [nth_set (by simp; omega), if_neg (by omega), nth_set (by omega), if_neg (by omega), q2]
        · intro _
          rw [nth_set (by simp; omega), if_pos (by ring)]
      · rintro kv ⟨q1, q2, q3⟩
        have := q3 (by omega)
        rw [show 2 * (s - 1) + 1 = 2 * s - 1 by omega] at this
        exact ⟨q1, q2, this⟩
  obtain ⟨kv, ek, g1, g2, g3⟩ := hrun
  rw [ekv] at ek
  obtain rfl := Res.ok.inj ek
  exact tangentMatrix_fails (p := 2) (by omega) (by omega) (by omega) (by omega) (by rw [g3, h1]) g2 h1 A eA

/-- C131 refuted for degree one: whatever the points, the tangents and the solver, nothing is ever returned -/
theorem C131_linear_violated (hl : params.length = pts.length) (h1 : nth params (pts.length - 1) = 1) (c : NurbsCurve K) :
    globalInterpolationTangents solve 1 pts tans factor params ≠ ok c := by
  intro hc
  obtain ⟨hps, ekv, A, eA, -⟩ := tangents_inv hc
  generalize hs : pts.length = s at *
  have hps' : 1 < s := by omega
  unfold tangentKnots at ekv
  rw [if_neg (by omega), if_neg (by omega)] at ekv
  obtain ⟨e, ee, l, e0, e1, e2⟩ := extendedParams_run (s := s) (by omega) hl
  rw [ee, ok_bind] at ekv
  obtain ⟨kv, ek, g1, g2, g3, g4⟩ := averageKnotVector_run (params := e) (p := 1) (n := 2 * s - 1) (by omega) (by omega) (by omega)
  rw [show ((1 : ℕ) : ℤ) = 1 from rfl, ekv] at ek
  obtain rfl := Res.ok.inj ek
  have := g4 (2 * s - 2) (by omega) (by omega)
  rw [show 1 + (2 * s - 2) = 2 * s - 1 by omega] at this
  refine tangentMatrix_fails (p := 1) (by omega) (by omega) (by omega) (by omega) ?_ (g3 (2 * s) (by omega) (by omega)) h1 A eA
  rw [this]
  have := e0 (s - 1) (by omega)
  rw [show 2 * (s - 1) = 2 * s - 2 by omega, h1] at this
  simp [windowSum, this]

end

/-! ## Degree three and five points -/

def lineMatrix : List (List ℚ) := [[1, 0, 0, 0, 0, 0, 0, 0, 0, 0], [-12, 12, 0, 0, 0, 0, 0, 0, 0, 0], [0, 1/4, 1/2, 1/4, 0, 0, 0, 0, 0, 0],
  [0, -3, 0, 3, 0, 0, 0, 0, 0, 0], [0, 0, 0, 1/2, 1/2, 0, 0, 0, 0, 0], [0, 0, 0, -6, 6, 0, 0, 0, 0, 0], [0, 0, 0, 0, 0, 0, 1, 0, 0, 0],
  [0, 0, 0, 0, 0, 0, -12, 12, 0, 0], [0, 0, 0, 0, 0, 0, 0, 0, 0, 1], [0, 0, 0, 0, 0, 0, 0, 0, -12, 12]]

/-- C131 refuted for degree three: for five evenly spaced points of a line with unit tangents the knots chosen make the system singular and
without a solution, so no sound solver lets the function return -/
theorem C131_cubic_violated {solve : List (List ℚ) → List (List ℚ) → Res (List (List ℚ))} (hsolve : SoundSolver solve) (c : NurbsCurve ℚ) :
    globalInterpolationTangents solve 3 [⟨0, 0, 0⟩, ⟨1, 0, 0⟩, ⟨2, 0, 0⟩, ⟨3, 0, 0⟩, ⟨4, 0, 0⟩]
      [⟨1, 0, 0⟩, ⟨1, 0, 0⟩, ⟨1, 0, 0⟩, ⟨1, 0, 0⟩, ⟨1, 0, 0⟩] 1 [0, 1/4, 1/2, 3/4, 1] ≠ ok c := by
  intro hc
  obtain ⟨-, ekv, A, eA, X, eX⟩ := tangents_inv hc
  have ek : tangentKnots 3 5 [0, 1/4, 1/2, 3/4, (1 : ℚ)] = ok [0, 0, 0, 0, 1/4, 1/2, 1/2, 3/4, 3/4, 3/4, 1, 1, 1, 1] := by decide +kernel
  have hk : c.knots = [0, 0, 0, 0, 1/4, 1/2, 1/2, 3/4, 3/4, 3/4, 1, 1, 1, 1] := Res.ok.inj (ekv.symm.trans ek)
  rw [hk] at eA
  have eA' : tangentMatrix 3 5 [0, 0, 0, 0, 1/4, 1/2, 1/2, 3/4, 3/4, 3/4, 1, 1, 1, (1 : ℚ)] [0, 1/4, 1/2, 3/4, 1] = ok lineMatrix := by decide +kernel
  have hA : A = lineMatrix := Res.ok.inj (eA.symm.trans eA')
  subst hA
  obtain ⟨-, x2⟩ := hsolve 10 3 _ _ _ (by unfold IsMat; decide +kernel) (tangentRight_mat (s := 5)) eX
  have r0 := x2 0 0 (by omega) (by omega)
  have r1 := x2 1 0 (by omega) (by omega)
  have r3 := x2 3 0 (by omega) (by omega)
  have r4 := x2 4 0 (by omega) (by omega)
  have r5 := x2 5 0 (by omega) (by omega)
  simp only [sum_range_succ, sum_range_zero] at r0 r1 r3 r4 r5
  simp [lineMatrix, ent, row, nth, tangentRight, List.range_succ] at r0 r1 r3 r4 r5
  linarith

/-! ## Rejections, examples -/

/-- C131, the documented rejections -/
theorem C131_rejects {solve : List (List K) → List (List K) → Res (List (List K))} {d : ℤ} {pts tans : List (XYZ K)} {factor : K} {params : List K}
    (h : d ≤ 0 ∨ pts.length ≠ tans.length ∨ (pts.length : ℤ) ≤ d ∨ factor ≤ 0) :
    globalInterpolationTangents solve d pts tans factor params = invalidArg := by
  unfold globalInterpolationTangents
  by_cases a : d > 0
  · rw [validate_of (by simpa using a), ok_bind]
    by_cases b : pts.length = tans.length
    · rw [validate_of (by simpa using b), ok_bind]
      by_cases e : (pts.length : ℤ) > d
      · rw [validate_of (by simpa using e), ok_bind]
        have : isGreaterThan factor 0 = false := by
          have hf : factor ≤ 0 := by
            rcases h with h | h | h | h
            · omega
            · exact absurd b h
            · omega
            · exact h
          simp only [isGreaterThan, decide_eq_false_iff_not, not_lt]
          have := tolOf_pos (a := factor) (b := 0) (tol := doubleEps) doubleEps_pos
          linarith
        rw [this]; rfl
      · rw [show decide ((pts.length : ℤ) > d) = false by simpa using e]; rfl
    · rw [show decide (pts.length = tans.length) = false by simpa using b]; rfl
  · rw [show decide (d > 0) = false by simpa using a]; rfl

/-- a solver for one system, for the examples -/
def tanSolve (A B : List (List ℚ)) : Res (List (List ℚ)) :=
  if A = [[1, 0, 0, 0, 0, 0, 0, 0], [-9, 9, 0, 0, 0, 0, 0, 0], [0, 1/4, 1/2, 1/4, 0, 0, 0, 0], [0, -9/4, 0, 9/4, 0, 0, 0, 0], [0, 0, 0, 0, 1, 0, 0, 0],
      [0, 0, 0, 0, -9, 9, 0, 0], [0, 0, 0, 0, 0, 0, 0, 1], [0, 0, 0, 0, 0, 0, -9, 9]] ∧
    B = [[0, 0, 0], [3, 0, 0], [1, 1, 0], [3, 0, 1], [2, 4, 0], [3, 0, 2], [3, 4, 0], [3, 0, 3]]
  then ok [[0, 0, 0], [1/3, 0, 0], [1, 2, -2/9], [5/3, 0, 4/9], [2, 4, 0], [7/3, 4, 2/9], [8/3, 4, -1/3], [3, 4, 0]] else invalidArg

theorem tanSolve_sound : SoundSolver tanSolve := by
  intro s d A B X hA hB h
  unfold tanSolve at h
  split at h
  · rename_i hAB
    obtain ⟨rfl, rfl⟩ := hAB
    have := Res.ok.inj h
    subst this
    have hs : s = 8 := hA.1.symm
    subst hs
    have hd : d = 3 := (hB.2 0 (by omega)).symm
    subst hd
    refine ⟨by unfold IsMat; decide +kernel, ?_⟩
    intro i d hi hd
    interval_cases i <;> interval_cases d <;> decide +kernel
  · simp at h

/-- `C131_cubic_four_partial` is not vacuous -/
example : SoundSolver tanSolve ∧
    globalInterpolationTangents tanSolve 3 [⟨0, 0, 0⟩, ⟨1, 1, 0⟩, ⟨2, 4, 0⟩, ⟨3, 4, 0⟩] [⟨3, 0, 0⟩, ⟨3, 0, 1⟩, ⟨3, 0, 2⟩, ⟨3, 0, 3⟩] 1 [0, 1/3, 2/3, 1] =
      ok { degree := 3, knots := [0, 0, 0, 0, 1/3, 2/3, 2/3, 2/3, 1, 1, 1, 1], cps := [⟨0, 0, 0, 1⟩, ⟨1/3, 0, 0, 1⟩, ⟨1, 2, -2/9, 1⟩, ⟨5/3, 0, 4/9, 1⟩,
        ⟨2, 4, 0, 1⟩, ⟨7/3, 4, 2/9, 1⟩, ⟨8/3, 4, -1/3, 1⟩, ⟨3, 4, 0, 1⟩] } :=
  ⟨tanSolve_sound, by decide +kernel⟩

/-- another one -/
def tanSolve4 (A B : List (List ℚ)) : Res (List (List ℚ)) :=
  if A = [[1, 0, 0, 0, 0, 0, 0, 0, 0, 0], [-64/5, 64/5, 0, 0, 0, 0, 0, 0, 0, 0], [1/625, 24112/214375, 1535584/3472875, 403712/1091475, 256/3465, 0, 0, 0, 0, 0], [-64/625, -463168/214375, -5509376/3472875, 2911232/1091475, 4096/3465, 0, 0, 0, 0, 0], [0, 0, 1/648, 1033/7128, 8275/12672, 685/3456, 1/432, 0, 0, 0], [0, 0, -8/81, -2432/891, -199/198, 199/54, 4/27, 0, 0, 0], [0, 0, 0, 0, 1/384, 31613/120960, 285457/529200, 9439/49000, 1/250, 0], [0, 0, 0, 0, -1/6, -7037/1890, 4028/33075, 21512/6125, 32/125, 0], [0, 0, 0, 0, 0, 0, 0, 0, 0, 1], [0, 0, 0, 0, 0, 0, 0, 0, -64/3, 64/3]] ∧
    B = [[0, 0, 0], [1, 0, 0], [1/4, 1/16, 0], [1, 1/2, 0], [1/2, 1/4, 0], [1, 1, 0], [3/4, 9/16, 0], [1, 3/2, 0], [1, 1, 0], [1, 2, 0]]
  then ok [[0, 0, 0], [5/64, 0, 0], [3/16, 35/1536, 0], [21/64, 143/1536, 0], [1/2, 187/768, 0], [5/8, 295/768, 0], [49/64, 887/1536, 0], [7/8, 389/512, 0], [61/64, 29/32, 0], [1, 1, 0]] else invalidArg

theorem tanSolve4_sound : SoundSolver tanSolve4 := by
  intro s d A B X hA hB h
  unfold tanSolve4 at h
  split at h
  · rename_i hAB
    obtain ⟨rfl, rfl⟩ := hAB
    have := Res.ok.inj h
    subst this
    have hs : s = 10 := hA.1.symm
    subst hs
    have hd : d = 3 := (hB.2 0 (by omega)).symm
    subst hd
    refine ⟨by unfold IsMat; decide +kernel, ?_⟩
    intro i d hi hd
    interval_cases i <;> interval_cases d <;> decide +kernel
  · simp at h

/-- `C131_high_degree_partial` is not vacuous: five points of a parabola with their tangents -/
example : SoundSolver tanSolve4 ∧
    globalInterpolationTangents tanSolve4 4 [⟨0, 0, 0⟩, ⟨1/4, 1/16, 0⟩, ⟨1/2, 1/4, 0⟩, ⟨3/4, 9/16, 0⟩, ⟨1, 1, 0⟩] [⟨1, 0, 0⟩, ⟨1, 1/2, 0⟩, ⟨1, 1, 0⟩, ⟨1, 3/2, 0⟩, ⟨1, 2, 0⟩] 1 [0, 1/4, 1/2, 3/4, 1] =
      ok { degree := 4, knots := [0, 0, 0, 0, 0, 5/16, 7/16, 9/16, 11/16, 13/16, 1, 1, 1, 1, 1], cps := [⟨0, 0, 0, 1⟩, ⟨5/64, 0, 0, 1⟩, ⟨3/16, 35/1536, 0, 1⟩, ⟨21/64, 143/1536, 0, 1⟩, ⟨1/2, 187/768, 0, 1⟩, ⟨5/8, 295/768, 0, 1⟩, ⟨49/64, 887/1536, 0, 1⟩, ⟨7/8, 389/512, 0, 1⟩, ⟨61/64, 29/32, 0, 1⟩, ⟨1, 1, 0, 1⟩] } ∧
    EndsSeparated (nth [0, 0, 0, 0, 0, 5/16, 7/16, 9/16, 11/16, 13/16, (1 : ℚ), (1 : ℚ), (1 : ℚ), (1 : ℚ), (1 : ℚ)]) 4 9 :=
  ⟨tanSolve4_sound, by decide +kernel, ⟨by decide +kernel, by decide +kernel⟩⟩

end LNLib.Props
