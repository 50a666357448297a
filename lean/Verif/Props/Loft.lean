import Verif.Model.Loft
import Verif.Spec.Loft
import Verif.Props.Interp
import Verif.Props.Sweep
import Verif.Props.Tangent
import Verif.Props.Surface

/-!
# C112: lofted surfaces
-/

namespace LNLib.Props
open LNLib Res Spec Finset

/-- the last round of a loop split off -/
theorem forI_last {σ : Type} {a b : ℤ} {s : σ} {body : ℤ → σ → Res σ} (h : a ≤ b) :
    forI a (b + 1) s body = forI a b s body >>= body b := by
  obtain ⟨d, hd⟩ : ∃ d : ℕ, b = a + d := ⟨(b - a).toNat, by omega⟩
  subst hd
  clear h
  induction d generalizing a s with
  | zero =>
    rw [forI_head (by omega), forI_empty (a := a) (b := a + (0 : ℕ)) (by omega), ok_bind]
    simp only [Nat.cast_zero, add_zero]
    cases body a s with
    | ok x => rw [ok_bind, forI_empty (by omega)]
    | _ => rfl
  | succ d ih =>
    rw [forI_head (a := a) (by omega), forI_head (a := a) (b := a + (d + 1 : ℕ)) (by omega)]
    cases body a s with
    | ok x =>
      rw [ok_bind, ok_bind]
      have := ih (a := a + 1) (s := x)
      rw [show a + 1 + (d : ℤ) = a + ((d + 1 : ℕ) : ℤ) by push_cast; ring] at this
      exact this
    | _ => rfl

section
variable {K : Type} [Field K] [LinearOrder K] [IsStrictOrderedRing K]

/-- the points and weights collected for one column -/
theorem loftGather_run {nets : List (List (XYZW K))} {m n c : ℕ} (hn : IsMat nets (m + 1) (n + 1)) (hc : c ≤ n)
    (hw : ∀ k, k ≤ m → (ent nets k c).w ≠ 0) :
    Runs (forI 0 nets.length (List.replicate nets.length (0 : K), List.replicate nets.length (0 : XYZ K)) fun k (weightCache, temp) => do
      let cp ← mget nets k (c : ℤ)
      let weightCache ← vset weightCache k cp.w
      let x ← fdiv cp.wx cp.w
      let y ← fdiv cp.wy cp.w
      let z ← fdiv cp.wz cp.w
      let temp ← vset temp k ⟨x, y, z⟩
      ok (weightCache, temp)) (fun s => s.1.length = m + 1 ∧ s.2.length = m + 1 ∧
        ∀ k, k ≤ m → nth s.1 k = (ent nets k c).w ∧ nth s.2 k = (ent nets k c).w⁻¹ • (ent nets k c).raw) := by
  have hl := hn.1
  refine (Runs.forN (m := 0) (n := m + 1) (fun i (s : List K × List (XYZ K)) => s.1.length = m + 1 ∧ s.2.length = m + 1 ∧
        ∀ k, k < i → nth s.1 k = (ent nets k c).w ∧ nth s.2 k = (ent nets k c).w⁻¹ • (ent nets k c).raw)
        rfl (by rw [hl]) (by omega) ⟨by simp [hl], by simp [hl], by intro k hk; omega⟩ ?_).mono ?_
  · rintro i ⟨wc, tm⟩ - hi ⟨g1, g2, g3⟩
    dsimp only at g1 g2 g3 ⊢
    have hne := hw i (by omega)
    rw [mget_ent hn rfl rfl hi (by omega), ok_bind, vset_of (k := i) rfl (by omega), ok_bind, fdiv_ok hne, ok_bind, fdiv_ok hne, ok_bind, fdiv_ok hne, ok_bind,
      vset_of (k := i) rfl (by omega), ok_bind]
    refine Runs.ok ⟨by simp [g1], by simp [g2], ?_⟩
    intro k hk
    dsimp only
    rw [nth_set (by omega), nth_set (by omega)]
    split_ifs with hki
    · subst hki
      refine ⟨rfl, ?_⟩
      ext <;> simp [XYZW.raw, div_eq_inv_mul]
    · exact g3 k (by omega)
  · rintro ⟨wc, tm⟩ ⟨g1, g2, g3⟩
    exact ⟨g1, g2, fun k hk => g3 k (by omega)⟩

/-- one column of the loft: control points of the interpolating curve with the weights of the sections -/
theorem loftColumn_of_ok {solve : List (List K) → List (List K) → Res (List (List K))} {nets : List (List (XYZW K))} {m n c q : ℕ} {vl kv : List K}
    {col : List (XYZW K)} (hsolve : SoundSolver solve) (hn : IsMat nets (m + 1) (n + 1)) (hc : c ≤ n)
    (hw : ∀ k, k ≤ m → (ent nets k c).w ≠ 0) (hq : 0 < q) (hqm : q ≤ m)
    (h0 : nth vl 0 = 0) (h1 : nth vl m = 1) (hmono : ∀ i j, i ≤ j → j ≤ m → nth vl i ≤ nth vl j)
    (hkv : averageKnotVector q vl = ok kv) (he : EndsSeparated (nth kv) q m)
    (hcol : loftColumn solve q nets vl c = ok col) :
    col.length = m + 1 ∧ (∀ k, k ≤ m → (nth col k).w = (ent nets k c).w) ∧ ∃ P : ℕ → XYZ K, (∀ k, k ≤ m → (nth col k).raw = (ent nets k c).w • P k) ∧
      ∀ k, k ≤ m → ∑ j ∈ range (m + 1), N (nth kv) (nth kv (m + 1)) q j (nth vl k) • P j = (ent nets k c).w⁻¹ • (ent nets k c).raw := by
  unfold loftColumn at hcol
  dsimp only at hcol
  obtain ⟨⟨wc, tm⟩, es, g1, g2, g3⟩ := loftGather_run hn hc hw
  rw [es, ok_bind] at hcol
  dsimp only at hcol g1 g2 g3
  obtain ⟨tc, htc, hcol⟩ := bind_eq_ok.mp hcol
  have hkn : tc.knots = kv := by
    have h2 := htc
    unfold globalInterpolation at h2
    obtain ⟨_, -, h2⟩ := bind_eq_ok.mp h2
    obtain ⟨_, -, h2⟩ := bind_eq_ok.mp h2
    obtain ⟨_, -, h2⟩ := bind_eq_ok.mp h2
    dsimp only at h2
    rw [hkv, ok_bind] at h2
    obtain ⟨_, -, h2⟩ := bind_eq_ok.mp h2
    obtain ⟨_, -, h2⟩ := bind_eq_ok.mp h2
    obtain ⟨_, -, h2⟩ := bind_eq_ok.mp h2
    rw [← Res.ok.inj h2]
  obtain ⟨w, -, -, -, k4, k5⟩ := interp_run hsolve hq hqm g2 h0 h1 hmono htc (by rw [hkn]; exact he)
  rw [hkn] at k5
  have hlen := w.cps
  have hrun : Runs (forI 0 tc.cps.length tc.cps fun i cps => do
      let cp ← vget cps i
      let x ← fdiv cp.wx cp.w
      let y ← fdiv cp.wy cp.w
      let z ← fdiv cp.wz cp.w
      let w ← vget wc i
      vset cps i (XYZW.ofXYZ ⟨x, y, z⟩ w)) (fun cps => cps.length = m + 1 ∧
        ∀ k, k ≤ m → nth cps k = XYZW.ofXYZ (nth tc.cps k).raw (ent nets k c).w) := by
    refine (Runs.forN (m := 0) (n := m + 1) (fun i (cps : List (XYZW K)) => cps.length = m + 1 ∧
        ∀ k, k ≤ m → nth cps k = if k < i then XYZW.ofXYZ (nth tc.cps k).raw (ent nets k c).w else nth tc.cps k)
        rfl (by rw [hlen]) (by omega) ⟨hlen, by intro k hk; rw [if_neg (by omega)]⟩ ?_).mono ?_
    · rintro i cps - hi ⟨r1, r2⟩
      have e : nth cps i = nth tc.cps i := by rw [r2 i (by omega), if_neg (by omega)]
      have hone := k4 i (by omega)
      rw [vget_nth (k := i) rfl (by omega), ok_bind, e, hone, fdiv_ok one_ne_zero, ok_bind, fdiv_ok one_ne_zero, ok_bind, fdiv_ok one_ne_zero, ok_bind,
        vget_nth (k := i) rfl (by omega), ok_bind, vset_of (k := i) rfl (by omega)]
      refine Runs.ok ⟨by simp [r1], ?_⟩
      intro k hk
      rw [nth_set (by omega)]
      split_ifs with h1 h2 h2
      · subst h1
        rw [(g3 k hk).1]
        simp [XYZW.ofXYZ, XYZW.raw]
      · omega
      · rw [r2 k hk, if_pos (by omega)]
      · rw [r2 k hk, if_neg (by omega)]
    · rintro cps ⟨r1, r2⟩
      exact ⟨r1, fun k hk => by rw [r2 k hk, if_pos (by omega)]⟩
  obtain ⟨cps, ec, c1, c2⟩ := hrun
  rw [ec] at hcol
  have := Res.ok.inj hcol
  subst this
  refine ⟨c1, fun k hk => by rw [c2 k hk]; rfl, fun k => (nth tc.cps k).raw, fun k hk => by rw [c2 k hk, raw_ofXYZ], ?_⟩
  intro k hk
  rw [← (g3 k hk).2]
  exact k5 k hk

/-- the control net of the loft, column by column -/
theorem loftSurface_of_ok {solve : List (List K) → List (List K) → Res (List (List K))} {dU dV : ℤ} {internals : List (NurbsCurve K)} {m n : ℕ} {vl : List K}
    {S : NurbsSurface K} (hm : internals.length = m + 1) (hn : ∀ k, k ≤ m → ∃ c, internals[k]? = some c ∧ c.cps.length = n + 1)
    (hS : loftSurface solve dU dV internals vl = ok S) :
    S.degreeU = dU ∧ S.degreeV = dV ∧ averageKnotVector dV vl = ok S.knotsV ∧ (∃ c, internals[0]? = some c ∧ S.knotsU = c.knots) ∧
      S.cps.length = n + 1 ∧ ∀ c : ℕ, c ≤ n → loftColumn solve dV (internals.map fun c => c.cps) vl c = ok (row S.cps c) := by
  unfold loftSurface at hS
  dsimp only at hS
  obtain ⟨kv, hkv, hS⟩ := bind_eq_ok.mp hS
  obtain ⟨first, hf, hfl⟩ := hn 0 (by omega)
  rw [vget_of (i := 0) (k := 0) rfl hf, ok_bind, hfl] at hS
  obtain ⟨cps, hcps, hS⟩ := bind_eq_ok.mp hS
  have hS := Res.ok.inj hS
  subst hS
  refine ⟨rfl, rfl, hkv, ⟨first, hf, rfl⟩, ?_⟩
  dsimp only
  -- run the loop backwards
  have key : ∀ r : ℕ, ∀ cps, forI 0 (r : ℤ) [] (fun c cps => do
      let col ← loftColumn solve dV (internals.map fun c => c.cps) vl c
      ok (cps ++ [col])) = ok cps → cps.length = r ∧ ∀ c : ℕ, c < r → loftColumn solve dV (internals.map fun c => c.cps) vl c = ok (row cps c) := by
    intro r
    induction r with
    | zero =>
      intro cps h
      rw [forI_empty (by norm_num)] at h
      have := Res.ok.inj h
      subst this
      exact ⟨rfl, by intro c hc; omega⟩
    | succ r ih =>
      intro cps h
      rw [show ((r + 1 : ℕ) : ℤ) = (r : ℤ) + 1 by push_cast; ring, forI_last (by omega)] at h
      obtain ⟨cps', h1, h2⟩ := bind_eq_ok.mp h
      obtain ⟨col, h3, h4⟩ := bind_eq_ok.mp h2
      have h4 := Res.ok.inj h4
      subst h4
      obtain ⟨i1, i2⟩ := ih cps' h1
      refine ⟨by simp [i1], ?_⟩
      intro c hc
      by_cases hcr : c = r
      · subst hcr
        rw [h3]
        simp [row, List.getD, i1]
      · rw [i2 c (by omega)]
        have : c < cps'.length := by omega
        simp [row, List.getD, List.getElem?_append_left this]
  obtain ⟨k1, k2⟩ := key (n + 1) cps hcps
  exact ⟨k1, fun c hc => k2 c (by omega)⟩

/-- sections of one degree are not changed -/
theorem loftRaise_same {p : ℤ} : ∀ {l : List (NurbsCurve K)}, (∀ c ∈ l, c.degree = p) → loftRaise p l = ok l := by
  intro l
  induction l with
  | nil => intro _; rfl
  | cons c rest ih =>
    intro h
    unfold loftRaise
    rw [if_neg (by rw [h c (by simp)]; omega), ih (fun d hd => h d (by simp [hd])), ok_bind]

theorem loftDegree_same {p : ℤ} (hp : 0 ≤ p) {l : List (NurbsCurve K)} (hl : 0 < l.length) (h : ∀ c ∈ l, c.degree = p) : loftDegree l = p := by
  have key : ∀ (l : List (NurbsCurve K)) (a : ℤ), (∀ c ∈ l, c.degree = p) → a ≤ p →
      l.foldl (fun (m : ℤ) c => if m < c.degree then c.degree else m) a = if l.length = 0 then a else p := by
    intro l
    induction l with
    | nil => intro a _ _; rfl
    | cons c rest ih =>
      intro a h ha
      rw [List.foldl_cons, h c (by simp), ih _ (fun d hd => h d (by simp [hd])) (by split_ifs <;> omega)]
      rw [List.length_cons, if_neg (Nat.succ_ne_zero _)]
      by_cases h1 : a < p
      · rw [if_pos h1, ite_self]
      · rw [if_neg h1, show a = p by omega, ite_self]
  unfold loftDegree
  rw [key l 0 h hp, if_neg (by omega)]

/-- the sections of a loft as a list of `m + 1` curves -/
theorem sections_get {m k : ℕ} {c : ℕ → NurbsCurve K} (hk : k ≤ m) : ((List.range (m + 1)).map c)[k]? = some (c k) := by
  rw [List.getElem?_map, List.getElem?_range (by omega)]
  rfl

theorem nets_ent {m : ℕ} {c : ℕ → NurbsCurve K} {k i : ℕ} (hk : k ≤ m) :
    ent (((List.range (m + 1)).map c).map fun c => c.cps) k i = nth (c k).cps i := by
  have : row (((List.range (m + 1)).map c).map fun c => c.cps) k = (c k).cps := by
    simp [row, List.getD, show k < m + 1 by omega]
  rw [ent, this]

theorem nets_isMat {m n : ℕ} {c : ℕ → NurbsCurve K} (h : ∀ k, k ≤ m → (c k).cps.length = n + 1) :
    IsMat (((List.range (m + 1)).map c).map fun c => c.cps) (m + 1) (n + 1) := by
  refine ⟨by simp, fun k hk => ?_⟩
  have : row (((List.range (m + 1)).map c).map fun c => c.cps) k = (c k).cps := by
    simp [row, List.getD, show k < m + 1 by omega]
  rw [this, h k (by omega)]

/-- the surface through the sections at given parameters -/
theorem loft_contains {solve : List (List K) → List (List K) → Res (List (List K))} {c : ℕ → NurbsCurve K} {p q n m : ℕ} {vl : List K}
    {S : NurbsSurface K} (hsolve : SoundSolver solve) (w : ∀ k, k ≤ m → WellFormed (c k) p n)
    (hU : ∀ k, k ≤ m → (c k).knots = (c 0).knots) (he : EndsSeparated (nth (c 0).knots) p n)
    (hw : ∀ k i, k ≤ m → i ≤ n → (nth (c k).cps i).w = (nth (c 0).cps i).w) (hpos : ∀ i, i ≤ n → 1 / 500000 ≤ (nth (c 0).cps i).w)
    (hq : 0 < q) (hqm : q ≤ m) (hl : vl.length = m + 1)
    (h0 : nth vl 0 = 0) (h1 : nth vl m = 1) (hmono : ∀ i j, i ≤ j → j ≤ m → nth vl i ≤ nth vl j)
    (hS : loftSurface solve p q ((List.range (m + 1)).map c) vl = ok S) (heV : EndsSeparated (nth S.knotsV) q m) :
    WellFormedS S p q n m ∧ S.knotsU = (c 0).knots ∧ ∀ k u, k ≤ m → nth (c 0).knots p ≤ u → u ≤ nth (c 0).knots (n + 1) →
      ∃ x, NurbsCurve.pointOnCurve (c k) u = ok x ∧ NurbsSurface.pointOnSurface S u (nth vl k) = ok x := by
  obtain ⟨d1, d2, hkv, ⟨c0, hc0, hkU⟩, hlen, hcols⟩ := loftSurface_of_ok (n := n) (by simp) (fun k hk => ⟨c k, sections_get hk, (w k hk).cps⟩) hS
  rw [sections_get (Nat.zero_le _)] at hc0
  have hc0 := Option.some.inj hc0
  subst hc0
  have hM := nets_isMat (fun k hk => (w k hk).cps)
  have hne : ∀ i, i ≤ n → (nth (c 0).cps i).w ≠ 0 := fun i hi => by
    have := hpos i hi
    have h' : (0 : K) < 1 / 500000 := by norm_num
    exact ne_of_gt (by linarith)
  have hcol : ∀ i, i ≤ n → _ := fun i hi => loftColumn_of_ok hsolve hM hi
    (fun k hk => by rw [nets_ent hk, hw k i hk hi]; exact hne i hi) hq hqm h0 h1 hmono hkv heV (hcols i hi)
  have hq7 : q ≤ 7 := by
    have := hcols 0 (Nat.zero_le _)
    unfold loftColumn at this
    dsimp only at this
    obtain ⟨s, -, this⟩ := bind_eq_ok.mp this
    obtain ⟨tc, htc, -⟩ := bind_eq_ok.mp this
    unfold globalInterpolation at htc
    by_contra h7
    rw [show (decide ((q : ℤ) ≥ 0) && decide ((q : ℤ) ≤ nurbsMaxDegree)) = false by simp [nurbsMaxDegree]; omega] at htc
    simp [validate] at htc
  obtain ⟨kv, ekv, k1, k2, k3, -, k5⟩ := C46_average_partial (params := vl) hq hqm hl h0 h1 hmono
  have hkve : S.knotsV = kv := Res.ok.inj (hkv.symm.trans ekv)
  have w0 := w 0 (Nat.zero_le _)
  have hgrid : IsMat S.cps (n + 1) (m + 1) := ⟨hlen, fun i hi => (hcol i (by omega)).1⟩
  have wS : WellFormedS S p q n m :=
    { degreeU := d1, degreeV := d2, posU := w0.pos, posV := hq, le7U := w0.le7, le7V := hq7, cps := hgrid, pn := w0.pn, qm := hqm,
      knotsU := by rw [hkU]; exact w0.knots, knotsV := by rw [hkve]; exact k1, sortedU := by rw [hkU]; exact w0.sorted,
      sortedV := by rw [hkve]; exact k5 }
  refine ⟨wS, hkU, ?_⟩
  intro k u hk u0 u1
  have v0 : nth S.knotsV q ≤ nth vl k := by rw [hkve, k2 q (le_refl _), ← h0]; exact hmono 0 k (by omega) hk
  have v1 : nth vl k ≤ nth S.knotsV (m + 1) := by rw [hkve, k3 (m + 1) (le_refl _) (by omega), ← h1]; exact hmono k m hk (le_refl _)
  obtain ⟨s, -, hs⟩ := getKnotSpanIndex_isSpan wS.knotsV hqm wS.sortedV heV v0 v1
  obtain ⟨-, hone⟩ := basis_convex (fun i j h h' => wS.sortedV i j h (by rw [wS.knotsV]; omega)) hs
  have eW : surfaceWeight (nth S.knotsU) (nth S.knotsV) p q n m (ent S.cps) u (nth vl k) = weightFn (nth (c k).knots) p n (nth (c k).cps) u := by
    unfold surfaceWeight weightFn
    rw [hkU, hU k hk]
    refine sum_congr rfl fun i hi => ?_
    rw [mem_range] at hi
    obtain ⟨-, g2, -⟩ := hcol i (by omega)
    have e1 : N (nth (c 0).knots) (nth (c 0).knots (n + 1)) p i u * (nth (c 0).cps i).w = ∑ j ∈ range (m + 1),
        (N (nth (c 0).knots) (nth (c 0).knots (n + 1)) p i u * N (nth S.knotsV) (nth S.knotsV (m + 1)) q j (nth vl k)) * (nth (c 0).cps i).w := by
      rw [← sum_mul, ← mul_sum, hone, mul_one]
    rw [hw k i hk (by omega), e1]
    refine sum_congr rfl fun j hj => ?_
    rw [mem_range] at hj
    rw [ent, g2 j (by omega), nets_ent (by omega), hw j i (by omega) (by omega)]
  have hbig : 1 / 500000 ≤ weightFn (nth (c k).knots) p n (nth (c k).cps) u :=
    weightFn_ge (w k hk) (by rw [hU k hk]; exact he) (by rw [hU k hk]; exact u0) (by rw [hU k hk]; exact u1) (fun i hi => by rw [hw k i hk hi]; exact hpos i hi)
  refine ⟨_, C05_eval_rational (w k hk) (by rw [hU k hk]; exact he) (by rw [hU k hk]; exact u0) (by rw [hU k hk]; exact u1) (notTiny_of_ge hbig), ?_⟩
  rw [C33_eval_rational wS ⟨by rw [hkU]; exact he, heV⟩ ⟨by rw [hkU]; exact u0, by rw [hkU]; exact u1, v0, v1⟩ (by rw [eW]; exact notTiny_of_ge hbig)]
  congr 1
  unfold rationalSurfacePoint rationalPoint
  rw [eW]
  unfold weightFn
  congr 1
  rw [hkU, hU k hk]
  refine sum_congr rfl fun i hi => ?_
  rw [mem_range] at hi
  obtain ⟨-, -, P, g3, g4⟩ := hcol i (by omega)
  have e4 := g4 k hk
  rw [nets_ent hk, hw k i hk (by omega)] at e4
  have e5 : (⟨(nth (c k).cps i).wx, (nth (c k).cps i).wy, (nth (c k).cps i).wz⟩ : XYZ K) = (nth (c 0).cps i).w • ((nth (c 0).cps i).w⁻¹ • (nth (c k).cps i).raw) := by
    rw [smul_smul, mul_inv_cancel₀ (hne i (by omega)), one_smul]; rfl
  rw [e5, ← e4, smul_sum, smul_sum]
  refine sum_congr rfl fun j hj => ?_
  rw [mem_range] at hj
  have e6 : (⟨(ent S.cps i j).wx, (ent S.cps i j).wy, (ent S.cps i j).wz⟩ : XYZ K) = (ent S.cps i j).raw := rfl
  rw [e6, ent, g3 j (by omega), nets_ent (by omega), hw j i (by omega) (by omega)]
  simp only [smul_smul]
  congr 1
  ring

/-- C112 (partial: sections of one degree over one knot vector whose weights agree in every column): with given parameters, one per section,
rising from 0 to 1, every surface `CreateLoftSurface` returns is valid and has section `k` as its curve `v = v_k`, for every section. The linear
solver (Eigen, not modelled) is only assumed to return solutions. -/
theorem C112_custom_partial {solve : List (List K) → List (List K) → Res (List (List K))} {c : ℕ → NurbsCurve K} {p q n m : ℕ} {vl : List K}
    {S : NurbsSurface K} (hsolve : SoundSolver solve) (w : ∀ k, k ≤ m → WellFormed (c k) p n)
    (hU : ∀ k, k ≤ m → (c k).knots = (c 0).knots) (he : EndsSeparated (nth (c 0).knots) p n)
    (hw : ∀ k i, k ≤ m → i ≤ n → (nth (c k).cps i).w = (nth (c 0).cps i).w) (hpos : ∀ i, i ≤ n → 1 / 500000 ≤ (nth (c 0).cps i).w)
    (hq : 0 < q) (hqm : q ≤ m) (hl : vl.length = m + 1)
    (h0 : nth vl 0 = 0) (h1 : nth vl m = 1) (hmono : ∀ i j, i ≤ j → j ≤ m → nth vl i ≤ nth vl j)
    (hS : createLoftCustom solve ((List.range (m + 1)).map c) q vl = ok S) (heV : EndsSeparated (nth S.knotsV) q m) :
    WellFormedS S p q n m ∧ S.knotsU = (c 0).knots ∧ ∀ k u, k ≤ m → nth (c 0).knots p ≤ u → u ≤ nth (c 0).knots (n + 1) →
      ∃ x, NurbsCurve.pointOnCurve (c k) u = ok x ∧ NurbsSurface.pointOnSurface S u (nth vl k) = ok x := by
  have hdeg : ∀ d ∈ (List.range (m + 1)).map c, d.degree = p := by
    intro d hd
    obtain ⟨k, hk, rfl⟩ := List.mem_map.mp hd
    exact (w k (by have := List.mem_range.mp hk; omega)).degree
  unfold createLoftCustom at hS
  rw [loftDegree_same (p := p) (by omega) (by simp) hdeg, loftRaise_same hdeg, ok_bind] at hS
  exact loft_contains hsolve w hU he hw hpos hq hqm hl h0 h1 hmono hS heV

end

/-! ## the default parameters -/

/-- distance between neighbouring control points of a column -/
noncomputable def netStep (nets : List (List (XYZW ℝ))) (i j : ℕ) : ℝ := (ent nets (j + 1) i).toXYZ.distance (ent nets j i).toXYZ

/-- the polygon length of a column -/
theorem columnTotal_run {nets : List (List (XYZW ℝ))} {m n i : ℕ} (hn : IsMat nets (m + 1) (n + 1)) (hi : i ≤ n) :
    ∃ t, (forI 0 ((nets.length : ℤ) - 1 + 1) (List.replicate nets.length (0 : XYZ ℝ)) fun j t => do
        let q ← mget nets j (i : ℤ)
        vset t j q.toXYZ) = ok t ∧ getTotalChordLength t = ok (∑ j ∈ range m, netStep nets i j) := by
  have hl := hn.1
  have hrun : Runs (forI 0 ((nets.length : ℤ) - 1 + 1) (List.replicate nets.length (0 : XYZ ℝ)) fun j t => do
        let q ← mget nets j (i : ℤ)
        vset t j q.toXYZ) (fun t => t.length = m + 1 ∧ ∀ j, j ≤ m → nth t j = (ent nets j i).toXYZ) := by
    refine (Runs.forN (m := 0) (n := m + 1) (fun r (t : List (XYZ ℝ)) => t.length = m + 1 ∧ ∀ j, j < r → nth t j = (ent nets j i).toXYZ)
      rfl (by omega) (by omega) ⟨by simp [hl], by intro j hj; omega⟩ ?_).mono (fun t h => ⟨h.1, fun j hj => h.2 j (by omega)⟩)
    rintro j t - hj ⟨g1, g2⟩
    rw [mget_ent hn rfl rfl hj (by omega), ok_bind, vset_of (k := j) rfl (by omega)]
    refine Runs.ok ⟨by simp [g1], ?_⟩
    intro k hk
    rw [nth_set (by omega)]
    split_ifs with h
    · rw [h]
    · exact g2 k (by omega)
  obtain ⟨t, e, g1, g2⟩ := hrun
  refine ⟨t, e, ?_⟩
  rw [C104_total, g1, Nat.add_sub_cancel]
  congr 1
  refine sum_congr rfl fun j hj => ?_
  rw [mem_range] at hj
  rw [g2 (j + 1) (by omega), g2 j (by omega)]
  rfl

/-- the parameters of the sections -/
theorem loftParams_run {nets : List (List (XYZW ℝ))} {m n : ℕ} (hn : IsMat nets (m + 1) (n + 1)) (hm : 1 ≤ m)
    (hL : ∀ i, i ≤ n → ∑ j ∈ range m, netStep nets i j ≠ 0) :
    Runs (loftParams nets) (fun vl => vl.length = m + 1 ∧
      ∀ k, k ≤ m → nth vl k = 1 / ((n : ℝ) + 1) * ∑ i ∈ range (n + 1), (∑ j ∈ range k, netStep nets i j) / ∑ j ∈ range m, netStep nets i j) := by
  have hl := hn.1
  have hn1 : ((n : ℝ) + 1) ≠ 0 := by positivity
  unfold loftParams
  dsimp only
  rw [vset_of (i := 0) (k := 0) rfl (by simp [hl]), ok_bind, vset_of (k := m) (by omega) (by simp [hl]), ok_bind]
  refine (Runs.forN (m := 1) (n := m) (fun r (vl : List ℝ) => vl.length = m + 1 ∧ nth vl m = 1 ∧
      ∀ k, k < r → nth vl k = 1 / ((n : ℝ) + 1) * ∑ i ∈ range (n + 1), (∑ j ∈ range k, netStep nets i j) / ∑ j ∈ range m, netStep nets i j)
      rfl (by omega) hm ⟨by simp [hl], ?_, ?_⟩ ?_).mono ?_
  · rw [nth_set (by simp [hl]), if_pos rfl]
  · intro k hk
    have : k = 0 := by omega
    subst this
    rw [nth_set (by simp [hl]), if_neg (by omega), nth_set (by simp [hl]), if_pos rfl]
    simp
  · rintro k vl hk1 hk ⟨g1, g2, g3⟩
    have hrow : (row nets k).length = n + 1 := hn.2 k (by omega)
    rw [vget_row (k := k) rfl (by omega), ok_bind, hrow]
    refine Runs.bind (Q := fun s => s = ∑ i ∈ range (n + 1), netStep nets i (k - 1) / ∑ j ∈ range m, netStep nets i j) ?_ ?_
    · refine (Runs.forN (m := 0) (n := n + 1) (fun r (s : ℝ) => s = ∑ i ∈ range r, netStep nets i (k - 1) / ∑ j ∈ range m, netStep nets i j)
        rfl (by push_cast; ring) (by omega) rfl ?_).mono (fun _ h => h)
      rintro i s - hi rfl
      obtain ⟨t, e1, e2⟩ := columnTotal_run (i := i) hn (by omega)
      rw [mget_ent hn rfl rfl (by omega) hi, ok_bind, mget_ent hn (a := k - 1) (by omega) rfl (by omega) hi, ok_bind, e1, ok_bind, e2, ok_bind,
        fdiv_ok (hL i (by omega)), ok_bind]
      refine Runs.ok ?_
      rw [sum_range_succ, netStep, Nat.sub_add_cancel hk1]
    · rintro s rfl
      rw [vget_nth (k := k - 1) (by omega) (by omega), ok_bind, show (((((n + 1 : ℕ) : ℤ) - 1 + 1 : ℤ)) : ℝ) = (n : ℝ) + 1 by push_cast; ring, fdiv_ok hn1, ok_bind,
        vset_of (k := k) rfl (by omega)]
      refine Runs.ok ⟨by simp [g1], ?_, ?_⟩
      · rw [nth_set (by omega), if_neg (by omega), g2]
      · intro r hr
        rw [nth_set (by omega)]
        split_ifs with h
        · subst h
          rw [g3 (r - 1) (by omega), ← mul_add, ← sum_add_distrib]
          congr 1
          refine sum_congr rfl fun i _ => ?_
          obtain ⟨r, rfl⟩ : ∃ r', r = r' + 1 := ⟨r - 1, by omega⟩
          rw [Nat.add_sub_cancel, sum_range_succ, add_div]
        · exact g3 r (by omega)
  · rintro vl ⟨g1, g2, g3⟩
    refine ⟨g1, fun k hk => ?_⟩
    by_cases h : k = m
    · subst h
      rw [g2, sum_congr rfl (g := fun _ => (1 : ℝ)) (fun i hi => div_self (hL i (by have := mem_range.mp hi; omega)))]
      rw [sum_const, card_range, nsmul_eq_mul, mul_one]
      push_cast
      field_simp
    · exact g3 k (by omega)

theorem netStep_nonneg (nets : List (List (XYZW ℝ))) (i j : ℕ) : 0 ≤ netStep nets i j := distance_nonneg _ _

/-- C112 (partial: sections of one degree over one knot vector whose weights agree in every column; no column of control points stands still):
when there are more sections than the degree, every surface `CreateLoftSurface` returns with default arguments is valid, has the degree of the
sections in both directions, and has section `k` as its curve `v = v_k`, where `v_k` is the averaged chord-length parameter, for every
section. The linear solver (Eigen, not modelled) is only assumed to return solutions. -/
theorem C112_default_partial {solve : List (List ℝ) → List (List ℝ) → Res (List (List ℝ))} {c : ℕ → NurbsCurve ℝ} {p n m : ℕ} {d : ℤ}
    {S : NurbsSurface ℝ} (hsolve : SoundSolver solve) (w : ∀ k, k ≤ m → WellFormed (c k) p n)
    (hU : ∀ k, k ≤ m → (c k).knots = (c 0).knots) (he : EndsSeparated (nth (c 0).knots) p n)
    (hw : ∀ k i, k ≤ m → i ≤ n → (nth (c k).cps i).w = (nth (c 0).cps i).w) (hpos : ∀ i, i ≤ n → 1 / 500000 ≤ (nth (c 0).cps i).w)
    (hpm : p ≤ m) (hL : ∀ i, i ≤ n → columnChord c i m ≠ 0)
    (hS : createLoft solve ((List.range (m + 1)).map c) d [] = ok S) (heV : EndsSeparated (nth S.knotsV) p m) :
    WellFormedS S p p n m ∧ S.knotsU = (c 0).knots ∧
      loftParameter c m n 0 = 0 ∧ loftParameter c m n m = 1 ∧ (∀ j k, j ≤ k → k ≤ m → loftParameter c m n j ≤ loftParameter c m n k) ∧
      ∀ k u, k ≤ m → nth (c 0).knots p ≤ u → u ≤ nth (c 0).knots (n + 1) →
        ∃ x, NurbsCurve.pointOnCurve (c k) u = ok x ∧ NurbsSurface.pointOnSurface S u (loftParameter c m n k) = ok x := by
  have hdeg : ∀ d ∈ (List.range (m + 1)).map c, d.degree = p := by
    intro d hd
    obtain ⟨k, hk, rfl⟩ := List.mem_map.mp hd
    exact (w k (by have := List.mem_range.mp hk; omega)).degree
  have hp := (w 0 (Nat.zero_le _)).pos
  unfold createLoft at hS
  rw [if_pos List.length_nil, loftDegree_same (p := p) (by omega) (by simp) hdeg, loftRaise_same hdeg, ok_bind] at hS
  have hM := nets_isMat (fun k hk => (w k hk).cps)
  have hchord : ∀ i k, i ≤ n → k ≤ m → ∑ j ∈ range k, netStep (((List.range (m + 1)).map c).map fun c => c.cps) i j = columnChord c i k := by
    intro i k hi hk
    unfold columnChord
    refine sum_congr rfl fun j hj => ?_
    have hj := mem_range.mp hj
    unfold netStep
    have ht : ∀ r, r ≤ m → (nth (c r).cps i).toXYZ = proj (nth (c r).cps i) := by
      intro r hr
      have := hpos i hi
      exact toXYZ_proj (by rw [hw r i hr hi]; linarith)
    rw [nets_ent (by omega), nets_ent (by omega), ht _ (by omega), ht _ (by omega)]
  obtain ⟨vl, ev, g1, g2⟩ := loftParams_run hM (by omega) (fun i hi => by rw [hchord i m hi (le_refl _)]; exact hL i hi)
  have g3 : ∀ k, k ≤ m → nth vl k = loftParameter c m n k := by
    intro k hk
    rw [g2 k hk]
    unfold loftParameter
    congr 1
    refine sum_congr rfl fun i hi => ?_
    have hi := mem_range.mp hi
    rw [hchord i k (by omega) hk, hchord i m (by omega) (le_refl _)]
  rw [ev, ok_bind] at hS
  have hnn : ∀ i k, 0 ≤ columnChord c i k := fun i k => sum_nonneg fun _ _ => distance_nonneg _ _
  have p0 : loftParameter c m n 0 = 0 := by simp [loftParameter, columnChord]
  have p1 : loftParameter c m n m = 1 := by
    unfold loftParameter
    rw [sum_congr rfl (g := fun _ => (1 : ℝ)) (fun i hi => div_self (hL i (by have := mem_range.mp hi; omega))), sum_const, card_range, nsmul_eq_mul, mul_one]
    have : ((n : ℝ) + 1) ≠ 0 := by positivity
    push_cast
    field_simp
  have p2 : ∀ j k, j ≤ k → k ≤ m → loftParameter c m n j ≤ loftParameter c m n k := by
    intro j k hjk hk
    unfold loftParameter
    refine mul_le_mul_of_nonneg_left (sum_le_sum fun i _ => ?_) (by positivity)
    refine div_le_div_of_nonneg_right ?_ (hnn _ _)
    exact sum_le_sum_of_subset_of_nonneg (range_mono hjk) fun _ _ _ => distance_nonneg _ _
  obtain ⟨wS, kU, hpt⟩ := loft_contains hsolve w hU he hw hpos hp hpm g1 (by rw [g3 0 (by omega), p0]) (by rw [g3 m (le_refl _), p1])
    (fun i j h h' => by rw [g3 i (by omega), g3 j h']; exact p2 i j h h') hS heV
  refine ⟨wS, kU, p0, p1, p2, ?_⟩
  intro k u hk u0 u1
  rw [← g3 k hk]
  exact hpt k u hk u0 u1


/-! ## a solver for the examples -/

/-- `X` solves `A X = B` and has the shape of `B` -/
def Solves (A B X : List (List ℚ)) : Prop :=
  X.length = B.length ∧ (∀ i < X.length, (row X i).length = (row B i).length) ∧
    ∀ i < A.length, ∀ j < (row B i).length, ∑ k ∈ range X.length, ent A i k * ent X k j = ent B i j

instance (A B X : List (List ℚ)) : Decidable (Solves A B X) := by unfold Solves; infer_instance

/-- a solver that knows a few solutions -/
def tableSolve (table : List (List (List ℚ))) (A B : List (List ℚ)) : Res (List (List ℚ)) :=
  match table.find? (fun X => decide (Solves A B X)) with
  | some X => ok X
  | none => invalidArg

theorem tableSolve_sound (table : List (List (List ℚ))) : SoundSolver (tableSolve table) := by
  intro s d A B X hA hB h
  unfold tableSolve at h
  split at h
  · rename_i Y hY
    have hXY := Res.ok.inj h
    subst hXY
    obtain ⟨h1, h2, h3⟩ : Solves A B Y := of_decide_eq_true (by have := List.find?_some hY; exact this)
    have hl : Y.length = s := h1.trans hB.1
    refine ⟨⟨hl, fun i hi => by rw [h2 i (by omega), hB.2 i hi]⟩, fun i j hi hj => ?_⟩
    rw [← h3 i (by rw [hA.1]; exact hi) j (by rw [hB.2 i hi]; exact hj), hl]
  · simp at h

/-! ## C112 refuted -/

/-- C112 refuted: two sections of degree 2 or more, the most common loft, are always rejected with an exception when the defaults are used,
because the degree across the sections is the degree of the sections. -/
theorem C112_two_sections_violated (solve : List (List ℝ) → List (List ℝ) → Res (List (List ℝ))) (d : ℤ) {c₀ c₁ : NurbsCurve ℝ} {p n₀ n₁ : ℕ}
    (w₀ : WellFormed c₀ p n₀) (w₁ : WellFormed c₁ p n₁) (hp : 2 ≤ p) (h₀ : (nth c₀.cps 0).w ≠ 0) (h₁ : (nth c₁.cps 0).w ≠ 0) :
    createLoft solve [c₀, c₁] d [] = invalidArg := by
  have hdeg : ∀ d ∈ [c₀, c₁], d.degree = p := by
    intro d hd
    simp only [List.mem_cons, List.not_mem_nil, or_false] at hd
    rcases hd with rfl | rfl
    · exact w₀.degree
    · exact w₁.degree
  unfold createLoft
  rw [if_pos List.length_nil, loftDegree_same (p := p) (by omega) (by simp) hdeg, loftRaise_same hdeg, ok_bind]
  have hv : loftParams ([c₀, c₁].map fun c => c.cps) = ok [0, 1] := by
    unfold loftParams
    simp only [List.map_cons, List.map_nil, List.length_cons, List.length_nil]
    rfl
  rw [hv, ok_bind]
  have hk : Runs (averageKnotVector (p : ℤ) ([0, 1] : List ℝ)) (fun _ => True) := by
    unfold averageKnotVector
    dsimp only
    refine Runs.bind (Q := fun _ => True) ?_ (fun kv _ => ?_)
    · refine (Runs.forN (m := 2) (n := p + 3) (fun _ (l : List ℝ) => l.length = p + 3) (by simp; ring) (by simp; ring) (by omega) (by simp; omega) ?_).mono (fun _ _ => trivial)
      rintro i l h1 h2 h3
      rw [vset_of (k := i) rfl (by omega)]
      exact Runs.ok (by simp [h3])
    · rw [if_pos (by simp; omega)]
      exact Runs.ok trivial
  obtain ⟨kv, ek, -⟩ := hk
  unfold loftSurface
  dsimp only
  rw [ek, ok_bind, vget_of (i := 0) (k := 0) (x := c₀) rfl rfl, ok_bind, forI_head (by rw [w₀.cps]; push_cast; omega)]
  have hcol : loftColumn solve p ([c₀, c₁].map fun c => c.cps) [0, 1] 0 = invalidArg := by
    have l₀ := w₀.cps
    have l₁ := w₁.cps
    unfold loftColumn
    dsimp only
    have hg : Runs (forI 0 (([c₀, c₁].map fun c => c.cps).length : ℤ) (List.replicate ([c₀, c₁].map fun c => c.cps).length (0 : ℝ), List.replicate ([c₀, c₁].map fun c => c.cps).length (0 : XYZ ℝ)) fun k (weightCache, temp) => do
        let cp ← mget ([c₀, c₁].map fun c => c.cps) k 0
        let weightCache ← vset weightCache k cp.w
        let x ← fdiv cp.wx cp.w
        let y ← fdiv cp.wy cp.w
        let z ← fdiv cp.wz cp.w
        let temp ← vset temp k ⟨x, y, z⟩
        ok (weightCache, temp)) (fun s => s.2.length = 2) := by
      refine (Runs.forN (m := 0) (n := 2) (fun _ (s : List ℝ × List (XYZ ℝ)) => s.1.length = 2 ∧ s.2.length = 2) rfl rfl (by omega) ⟨rfl, rfl⟩ ?_).mono (fun _ h => h.2)
      rintro i ⟨wc, tm⟩ - hi ⟨g1, g2⟩
      dsimp only at g1 g2 ⊢
      obtain ⟨q, hq, hne⟩ : ∃ q, mget ([c₀, c₁].map fun c => c.cps) (i : ℤ) 0 = ok q ∧ q.w ≠ 0 := by
        have h2 : i = 0 ∨ i = 1 := by omega
        rcases h2 with rfl | rfl
        · refine ⟨nth c₀.cps 0, ?_, h₀⟩
          unfold mget
          rw [vget_of (k := 0) (x := c₀.cps) rfl rfl, ok_bind, vget_nth (i := 0) (k := 0) rfl (by omega)]
        · refine ⟨nth c₁.cps 0, ?_, h₁⟩
          unfold mget
          rw [vget_of (k := 1) (x := c₁.cps) rfl rfl, ok_bind, vget_nth (i := 0) (k := 0) rfl (by omega)]
      rw [hq, ok_bind, vset_of (k := i) rfl (by omega), ok_bind, fdiv_ok hne, ok_bind, fdiv_ok hne, ok_bind, fdiv_ok hne, ok_bind, vset_of (k := i) rfl (by omega), ok_bind]
      exact Runs.ok ⟨by simp [g1], by simp [g2]⟩
    obtain ⟨⟨wc, tm⟩, eg, hlen⟩ := hg
    rw [eg, ok_bind]
    dsimp only at hlen ⊢
    have hg : globalInterpolation solve p tm [0, 1] = invalidArg := by
      unfold globalInterpolation
      have := w₀.le7
      rw [validate_of (by simp [nurbsMaxDegree]; omega), ok_bind, hlen, show decide (((2 : ℕ) : ℤ) > p) = false by simp; omega]
      rfl
    rw [hg]
    rfl
  rw [hcol]
  rfl

/-- C112 refuted: when at least three sections share a control point (arcs through common poles, for example), the default parameters divide
by the length of a column of length zero, and the surface consists of NaN. -/
theorem C112_pole_violated (solve : List (List ℝ) → List (List ℝ) → Res (List (List ℝ))) (d : ℤ) {c : ℕ → NurbsCurve ℝ} {p n m i₀ : ℕ}
    (w : ∀ k, k ≤ m → WellFormed (c k) p n) (hm : 2 ≤ m) (hi₀ : i₀ ≤ n) (hpole : ∀ k, k ≤ m → (nth (c k).cps i₀).toXYZ = (nth (c 0).cps i₀).toXYZ) :
    createLoft solve ((List.range (m + 1)).map c) d [] = nonfinite := by
  have hdeg : ∀ d ∈ (List.range (m + 1)).map c, d.degree = p := by
    intro d hd
    obtain ⟨k, hk, rfl⟩ := List.mem_map.mp hd
    exact (w k (by have := List.mem_range.mp hk; omega)).degree
  unfold createLoft
  rw [if_pos List.length_nil, loftDegree_same (p := p) (by omega) (by simp) hdeg, loftRaise_same hdeg, ok_bind]
  have hM := nets_isMat (fun k hk => (w k hk).cps)
  have hz : ∑ j ∈ range m, netStep (((List.range (m + 1)).map c).map fun c => c.cps) i₀ j = 0 := by
    refine sum_eq_zero fun j hj => ?_
    have hj := mem_range.mp hj
    unfold netStep
    rw [nets_ent (by omega), nets_ent (by omega), hpole _ (by omega), hpole j (by omega)]
    simp [XYZ.distance]
  have hne : 1 + (c 0).cps.length = 1 + (n + 1) := by rw [(w 0 (by omega)).cps]
  generalize hN : (((List.range (m + 1)).map c).map fun c => c.cps) = nets at hM hz ⊢
  have hl := hM.1
  have hp : loftParams nets = nonfinite := by
    unfold loftParams
    dsimp only
    rw [vset_of (i := 0) (k := 0) rfl (by simp [hl]), ok_bind, vset_of (k := m) (by omega) (by simp [hl]), ok_bind, forI_head (by omega)]
    rw [vget_row (i := 1) (k := 1) rfl (by omega), ok_bind, hM.2 1 (by omega)]
    have hsum : (forI 0 (((n + 1 : ℕ) : ℤ) - 1 + 1) (0 : ℝ) fun i sum => do
        let a ← mget nets 1 i
        let b ← mget nets (1 - 1) i
        let tempPoints ← forI 0 ((nets.length : ℤ) - 1 + 1) (List.replicate nets.length (0 : XYZ ℝ)) fun j t => do
          let q ← mget nets j i
          vset t j q.toXYZ
        let di ← getTotalChordLength tempPoints
        let q ← fdiv (a.toXYZ.distance b.toXYZ) di
        ok (sum + q)) = nonfinite := by
      refine forI_nonfinite (fun _ => True) (i0 := i₀) (by omega) i₀ 0 0 (by simp) trivial ?_ ?_
      · intro i s h1 h2 _
        obtain ⟨i, rfl⟩ := Int.eq_ofNat_of_zero_le h1
        have h2 : i < i₀ := by omega
        obtain ⟨t, e1, e2⟩ := columnTotal_run (i := i) hM (by omega)
        rw [mget_ent hM (i := 1) (a := 1) (b := i) rfl rfl (by omega) (by omega), ok_bind, mget_ent hM (i := 1 - 1) (a := 0) (b := i) rfl rfl (by omega) (by omega), ok_bind, e1, ok_bind, e2, ok_bind]
        by_cases hD : ∑ j ∈ range m, netStep nets i j = 0
        · left; rw [hD, fdiv_zero]; rfl
        · right; rw [fdiv_ok hD]; exact Runs.ok trivial
      · intro s _
        obtain ⟨t, e1, e2⟩ := columnTotal_run (i := i₀) hM (by omega)
        rw [mget_ent hM (i := 1) (a := 1) (b := i₀) rfl rfl (by omega) (by omega), ok_bind, mget_ent hM (i := 1 - 1) (a := 0) (b := i₀) rfl rfl (by omega) (by omega), ok_bind, e1, ok_bind, e2, ok_bind,
          hz, fdiv_zero]
        rfl
    rw [hsum]
    rfl
  rw [hp]
  rfl


/-- three parabolas over one knot vector, the middle one with another weight -/
def exLoft (w : ℚ) (k : ℕ) : NurbsCurve ℚ :=
  { degree := 2, knots := [0, 0, 0, 1, 1, 1], cps := [⟨0, k, 0, 1⟩, if k = 1 then XYZW.ofXYZ ⟨1, k, 0⟩ w else ⟨1, k, 0, 1⟩, ⟨2, k, 0, 1⟩] }

/-- the solutions of the three column systems -/
def exLoftTable : List (List (List ℚ)) :=
  [[[0, 0, 0], [0, 1, 0], [0, 2, 0]], [[1, 0, 0], [1, 1, 0], [1, 2, 0]], [[2, 0, 0], [2, 1, 0], [2, 2, 0]]]

theorem exLoft_wf (w : ℚ) (k : ℕ) : WellFormed (exLoft w k) 2 2 :=
  ⟨rfl, by norm_num, by norm_num, rfl, le_refl _, rfl, by
    show ∀ i j, i ≤ j → j < 6 → nth ([0, 0, 0, 1, 1, 1] : List ℚ) i ≤ nth [0, 0, 0, 1, 1, 1] j
    intro i j hij hj
    interval_cases j <;> interval_cases i <;> decide +kernel⟩

/-- C112 refuted: when the weights of a column differ between the sections, the surface misses the inner sections: three parabolas with equal
knots, the middle one with weight 2 on its second control point. The given parameters are 0, 1/2, 1; the curve `v = 1/2` is not the
middle section. -/
theorem C112_weights_violated : ∃ S, createLoftCustom (tableSolve exLoftTable) ((List.range 3).map (exLoft 2)) 2 [0, 1/2, 1] = ok S ∧
    (∀ k, WellFormed (exLoft 2 k) 2 2) ∧ WellFormedS S 2 2 2 2 ∧
    NurbsCurve.pointOnCurve (exLoft 2 1) (1/4) = ok ⟨7/11, 1, 0⟩ ∧ NurbsSurface.pointOnSurface S (1/4) (1/2) = ok ⟨11/19, 1, 0⟩ := by
  have hs : ∀ i j, i ≤ j → j < 6 → nth ([0, 0, 0, 1, 1, 1] : List ℚ) i ≤ nth [0, 0, 0, 1, 1, 1] j := by
    intro i j hij hj
    interval_cases j <;> interval_cases i <;> decide +kernel
  refine ⟨⟨2, 2, [0, 0, 0, 1, 1, 1], [0, 0, 0, 1, 1, 1], [[⟨0, 0, 0, 1⟩, ⟨0, 1, 0, 1⟩, ⟨0, 2, 0, 1⟩], [⟨1, 0, 0, 1⟩, ⟨2, 2, 0, 2⟩, ⟨1, 2, 0, 1⟩],
    [⟨2, 0, 0, 1⟩, ⟨2, 1, 0, 1⟩, ⟨2, 2, 0, 1⟩]]⟩, by decide +kernel, exLoft_wf 2, ?_, by decide +kernel, by decide +kernel⟩
  exact ⟨rfl, rfl, by norm_num, by norm_num, by norm_num, by norm_num, by unfold IsMat; decide +kernel, le_refl _, le_refl _, rfl, rfl, hs, hs⟩

/-- two polylines of three points whose middle knots differ -/
def exLoftKnots (k : ℕ) : NurbsCurve ℚ :=
  { degree := 1, knots := [0, 0, if k = 0 then 1/2 else 1/4, 1, 1], cps := [⟨0, k, 0, 1⟩, ⟨1, k, 0, 1⟩, ⟨2, k, 0, 1⟩] }

/-- C112 refuted: sections are not brought to a common knot vector. All of them are read with the knots of the first, so that two polylines
of degree 1 with different middle knots give a surface whose edge `v = 1` is not the second section as a parametrised curve. -/
theorem C112_knots_violated : ∃ S,
    createLoftCustom (tableSolve [[[0, 0, 0], [0, 1, 0]], [[1, 0, 0], [1, 1, 0]], [[2, 0, 0], [2, 1, 0]]]) ((List.range 2).map exLoftKnots) 1 [0, 1] = ok S ∧
    (∀ k, k ≤ 1 → WellFormed (exLoftKnots k) 1 2) ∧
    NurbsCurve.pointOnCurve (exLoftKnots 1) (1/4) = ok ⟨1, 1, 0⟩ ∧ NurbsSurface.pointOnSurface S (1/4) 1 = ok ⟨1/2, 1, 0⟩ := by
  refine ⟨⟨1, 1, [0, 0, 1/2, 1, 1], [0, 0, 1, 1], [[⟨0, 0, 0, 1⟩, ⟨0, 1, 0, 1⟩], [⟨1, 0, 0, 1⟩, ⟨1, 1, 0, 1⟩], [⟨2, 0, 0, 1⟩, ⟨2, 1, 0, 1⟩]]⟩,
    by decide +kernel, ?_, by decide +kernel, by decide +kernel⟩
  intro k hk
  refine ⟨rfl, by norm_num, by norm_num, rfl, by norm_num, rfl, ?_⟩
  interval_cases k
  · show ∀ i j, i ≤ j → j < 5 → nth ([0, 0, 1/2, 1, 1] : List ℚ) i ≤ nth [0, 0, 1/2, 1, 1] j
    intro i j hij hj
    interval_cases j <;> interval_cases i <;> decide +kernel
  · show ∀ i j, i ≤ j → j < 5 → nth ([0, 0, 1/4, 1, 1] : List ℚ) i ≤ nth [0, 0, 1/4, 1, 1] j
    intro i j hij hj
    interval_cases j <;> interval_cases i <;> decide +kernel

/-- C112_custom_partial is not vacuous: three parabolas with equal weights and a bump in the middle -/
example : SoundSolver (tableSolve exLoftTable) ∧ (∀ k, WellFormed (exLoft 1 k) 2 2) ∧
    ∃ S, createLoftCustom (tableSolve exLoftTable) ((List.range 3).map (exLoft 1)) 2 [0, 1/2, 1] = ok S ∧
      NurbsSurface.pointOnSurface S (1/4) (1/2) = ok ⟨1/2, 1, 0⟩ ∧ NurbsCurve.pointOnCurve (exLoft 1 1) (1/4) = ok ⟨1/2, 1, 0⟩ :=
  ⟨tableSolve_sound _, exLoft_wf 1, ⟨2, 2, [0, 0, 0, 1, 1, 1], [0, 0, 0, 1, 1, 1], [[⟨0, 0, 0, 1⟩, ⟨0, 1, 0, 1⟩, ⟨0, 2, 0, 1⟩], [⟨1, 0, 0, 1⟩, ⟨1, 1, 0, 1⟩, ⟨1, 2, 0, 1⟩],
    [⟨2, 0, 0, 1⟩, ⟨2, 1, 0, 1⟩, ⟨2, 2, 0, 1⟩]]⟩, by decide +kernel, by decide +kernel, by decide +kernel⟩

/-- two parallel segments -/
noncomputable def exLoftLine (k : ℕ) : NurbsCurve ℝ := { degree := 1, knots := [0, 0, 1, 1], cps := [⟨0, k, 0, 1⟩, ⟨1, k, 0, 1⟩] }

open Classical in
/-- a solver for the identity matrix of size 2 -/
noncomputable def exIdSolve (A B : List (List ℝ)) : Res (List (List ℝ)) := if A = [[1, 0], [0, 1]] then ok B else invalidArg

/-- C112_default_partial is not vacuous: two parallel segments -/
example : SoundSolver exIdSolve ∧ (∀ k, WellFormed (exLoftLine k) 1 1) ∧ (∀ i, i ≤ 1 → columnChord exLoftLine i 1 ≠ 0) ∧
    createLoft exIdSolve ((List.range 2).map exLoftLine) 0 [] =
      ok ⟨1, 1, [0, 0, 1, 1], [0, 0, 1, 1], [[⟨0, 0, 0, 1⟩, ⟨0, 1, 0, 1⟩], [⟨1, 0, 0, 1⟩, ⟨1, 1, 0, 1⟩]]⟩ := by
  refine ⟨?_, ?_, ?_, ?_⟩
  · intro s d A B X hA hB h
    unfold exIdSolve at h
    split at h
    · rename_i hA'
      have := Res.ok.inj h
      subst this hA'
      have hs : s = 2 := hA.1.symm
      subst hs
      refine ⟨hB, fun i j hi hj => ?_⟩
      have h2 : i = 0 ∨ i = 1 := by omega
      rcases h2 with rfl | rfl <;> simp [sum_range_succ, ent, row, nth]
    · simp at h
  · intro k
    refine ⟨rfl, by norm_num, by norm_num, rfl, le_refl _, rfl, ?_⟩
    show ∀ i j, i ≤ j → j < 4 → nth ([0, 0, 1, 1] : List ℝ) i ≤ nth [0, 0, 1, 1] j
    intro i j hij hj
    interval_cases j <;> interval_cases i <;> simp [nth]
  · intro i hi
    have h2 : i = 0 ∨ i = 1 := by omega
    rcases h2 with rfl | rfl <;> simp [columnChord, exLoftLine, nth, proj, XYZ.distance]
  · have hv : loftParams (((List.range 2).map exLoftLine).map fun c => c.cps) = ok [0, 1] := rfl
    have hr : loftRaise (loftDegree ((List.range 2).map exLoftLine)) ((List.range 2).map exLoftLine) = ok ((List.range 2).map exLoftLine) := rfl
    unfold createLoft
    rw [if_pos List.length_nil, hr, ok_bind, hv, ok_bind]
    have hd : loftDegree ((List.range 2).map exLoftLine) = 1 := rfl
    have hk : averageKnotVector 1 ([0, 1] : List ℝ) = ok [0, 0, 1, 1] := rfl
    have hA : interpolationMatrix 1 2 ([0, 0, 1, 1] : List ℝ) [0, 1] = ok [[1, 0], [0, 1]] := rfl
    have hg : ∀ a b : XYZ ℝ, globalInterpolation exIdSolve 1 [a, b] [0, 1] = ok ⟨1, [0, 0, 1, 1], [⟨a.x * 1, a.y * 1, a.z * 1, 1⟩, ⟨b.x * 1, b.y * 1, b.z * 1, 1⟩]⟩ := by
      intro a b
      unfold globalInterpolation
      rw [validate_of (by decide), ok_bind, validate_of (by simp), ok_bind, validate_of (by simp), ok_bind]
      dsimp only [List.length_cons, List.length_nil]
      rw [hk, ok_bind, hA, ok_bind]
      unfold exIdSolve
      rw [if_pos rfl]
      rfl
    have hc : ∀ i : ℕ, i < 2 → loftColumn exIdSolve 1 (((List.range 2).map exLoftLine).map fun c => c.cps) [0, 1] i = ok [⟨i, 0, 0, 1⟩, ⟨i, 1, 0, 1⟩] := by
      intro i hi
      unfold loftColumn
      dsimp only
      have hgather := loftGather_run (nets := (((List.range 2).map exLoftLine).map fun c => c.cps)) (m := 1) (n := 1) (c := i)
        (nets_isMat (m := 1) (c := exLoftLine) (fun _ _ => rfl)) (by omega) (by
          intro k hk
          rw [nets_ent (m := 1) hk]
          have h2 : i = 0 ∨ i = 1 := by omega
          rcases h2 with rfl | rfl <;> simp [exLoftLine, nth])
      obtain ⟨⟨wc, tm⟩, e, l1, l2, l3⟩ := hgather
      rw [e, ok_bind]
      dsimp only at l1 l2 l3 ⊢
      have h0 := l3 0 (by omega)
      have h1 := l3 1 (by omega)
      rw [nets_ent (m := 1) (by omega)] at h0 h1
      have hi2 : i = 0 ∨ i = 1 := by omega
      have etm : tm = [⟨i, 0, 0⟩, ⟨i, 1, 0⟩] := by
        refine ext_nth l2 (fun k hk => ?_)
        have h2 : k = 0 ∨ k = 1 := by omega
        rcases h2 with rfl | rfl
        · rw [h0.2]
          rcases hi2 with rfl | rfl <;> (ext <;> simp [exLoftLine, nth, XYZW.raw])
        · rw [h1.2]
          rcases hi2 with rfl | rfl <;> (ext <;> simp [exLoftLine, nth, XYZW.raw])
      have ewc : wc = [1, 1] := by
        refine ext_nth l1 (fun k hk => ?_)
        have h2 : k = 0 ∨ k = 1 := by omega
        rcases h2 with rfl | rfl
        · rw [h0.1]
          rcases hi2 with rfl | rfl <;> simp [exLoftLine, nth]
        · rw [h1.1]
          rcases hi2 with rfl | rfl <;> simp [exLoftLine, nth]
      rw [etm, ewc, hg, ok_bind]
      apply Runs.eq
      refine (Runs.forN (m := 0) (n := 2) (fun r (l : List (XYZW ℝ)) => l = [⟨i, 0, 0, 1⟩, ⟨i, 1, 0, 1⟩]) rfl rfl (by omega) (by simp) ?_).mono (fun _ h => h)
      rintro r l - hr rfl
      have h2 : r = 0 ∨ r = 1 := by omega
      rcases h2 with rfl | rfl
      · rw [vget_nth (k := 0) rfl (by simp), ok_bind]
        simp only [nth_cons_zero]
        simp only [fdiv_ok (one_ne_zero (α := ℝ)), ok_bind]
        rw [vget_nth (k := 0) rfl (by simp), ok_bind, vset_of (k := 0) rfl (by simp)]
        exact Runs.ok (by simp [XYZW.ofXYZ, nth])
      · rw [vget_nth (k := 1) rfl (by simp), ok_bind]
        simp only [nth_cons_zero, nth_cons_succ]
        simp only [fdiv_ok (one_ne_zero (α := ℝ)), ok_bind]
        rw [vget_nth (k := 1) rfl (by simp), ok_bind, vset_of (k := 1) rfl (by simp)]
        exact Runs.ok (by simp [XYZW.ofXYZ, nth])
    rw [hd]
    unfold loftSurface
    dsimp only
    rw [hk, ok_bind, vget_of (i := 0) (k := 0) (x := exLoftLine 0) rfl rfl, ok_bind,
      forI_append (rd := loftColumn exIdSolve 1 (((List.range 2).map exLoftLine).map fun c => c.cps) [0, 1]) (m := 2)
        (f := fun i => [(⟨i, 0, 0, 1⟩ : XYZW ℝ), ⟨i, 1, 0, 1⟩]) (n := ((exLoftLine 0).cps.length : ℤ)) rfl hc, ok_bind]
    simp [exLoftLine, List.range_succ]

end LNLib.Props
