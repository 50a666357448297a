import Verif.Model.SurfaceApprox
import Verif.Props.LeastSquares
import Verif.Props.ProjectNormal
import Verif.Props.Matrix
import Verif.Props.Interp
import Mathlib.Tactic.IntervalCases

/-!
# C136: approximation of a grid of points by a surface (Geometry/Surface/NurbsSurface.cpp:2447-2509)
-/
set_option linter.unusedSectionVars false

namespace LNLib.Props
open LNLib Res LNLib.Spec Finset

section
variable {K : Type} [Field K] [LinearOrder K] [IsStrictOrderedRing K]

/-- a parametrisation of points by rising parameters from 0 to 1 -/
def RisingParams (params : List (XYZ K) → Res (List K)) : Prop :=
  ∀ pts m uk, pts.length = m + 1 → 1 ≤ m → params pts = ok uk → uk.length = m + 1 ∧ nth uk 0 = 0 ∧ nth uk m = 1 ∧ ∀ i j, i ≤ j → j ≤ m → nth uk i ≤ nth uk j

theorem leastSquaresPoints_post {n m : ℕ} {pts : List (XYZ K)} {temp : List (List K)} {cps : List (XYZW K)} (hn : 1 ≤ n) (hpts : pts.length = m + 1)
    (h : leastSquaresPoints (n : ℤ) m pts temp = ok cps) :
    cps.length = n + 1 ∧ nth cps 0 = XYZW.ofXYZ (nth pts 0) 1 ∧ nth cps n = XYZW.ofXYZ (nth pts m) 1 ∧ ∀ i, i ≤ n → (nth cps i).w = 1 := by
  unfold leastSquaresPoints at h
  obtain ⟨c1, h1, h⟩ := bind_eq_ok.mp h
  rw [show ((n : ℤ) + 1).toNat = n + 1 by omega] at h1
  have hinv := forI_post (Inv := fun i (c : List (XYZW K)) => c.length = n + 1 ∧ ∀ j : ℕ, 1 ≤ j → (j : ℤ) < i → (nth c j).w = 1) (by omega)
    ⟨by simp, fun j h1 h2 => by omega⟩ (by
      rintro i s s' hi1 hi2 ⟨g1, g2⟩ hb
      obtain ⟨x, -, hb⟩ := bind_eq_ok.mp hb
      obtain ⟨y, -, hb⟩ := bind_eq_ok.mp hb
      obtain ⟨z, -, hb⟩ := bind_eq_ok.mp hb
      obtain ⟨-, b2, rfl⟩ := vset_eq_ok_iff.mp hb
      refine ⟨by simp [g1], fun j j1 j2 => ?_⟩
      rw [nth_set (by omega)]
      split_ifs with c
      · rfl
      · exact g2 j j1 (by omega)) h1
  obtain ⟨g1, g2⟩ := hinv
  rw [vget_nth (i := 0) (k := 0) rfl (by omega), ok_bind, vset_of (i := 0) (k := 0) rfl (by omega), ok_bind, vget_nth (k := m) rfl (by omega), ok_bind,
    vset_of (k := n) rfl (by simp; omega)] at h
  cases h
  refine ⟨by simp [g1], ?_, ?_, fun i hi => ?_⟩
  · rw [nth_set (by simp; omega), if_neg (by omega), nth_set (by omega), if_pos rfl]
  · rw [nth_set (by simp; omega), if_pos rfl]
  · rw [nth_set (by simp; omega)]
    split_ifs with c
    · rfl
    · rw [nth_set (by omega)]
      split_ifs with c'
      · rfl
      · exact g2 i (by omega) (by omega)

variable [FloorRing K] {solve : List (List K) → ℤ → List (List K) → Res (Option (List (List K)))} {params : List (XYZ K) → Res (List K)}

/-- the shape of every curve that the least squares approximation returns, whatever the solver does -/
theorem leastSquaresBy_shape (hpar : RisingParams params) {pts : List (XYZ K)} {p n m : ℕ} {c : NurbsCurve K} (hp : 0 < p) (hp7 : p ≤ 7) (hpn : p ≤ n)
    (hpts : pts.length = m + 1) (hm : 1 ≤ m) (h : leastSquaresBy solve params p pts ((n : ℤ) + 1) = ok (some c)) :
    WellFormed c p n ∧ (∀ i, i ≤ p → nth c.knots i = 0) ∧ (∀ i, n + 1 ≤ i → i ≤ n + p + 1 → nth c.knots i = 1) ∧
      nth c.cps 0 = XYZW.ofXYZ (nth pts 0) 1 ∧ nth c.cps n = XYZW.ofXYZ (nth pts m) 1 ∧ ∀ i, i ≤ n → (nth c.cps i).w = 1 := by
  unfold leastSquaresBy at h
  rw [validate_of (by rw [decide_eq_true_eq]; unfold nurbsMaxDegree; omega), ok_bind, validate_of (by rw [decide_eq_true_eq]; omega), ok_bind] at h
  obtain ⟨uk, hu, h⟩ := bind_eq_ok.mp h
  obtain ⟨u1, u2, u3, u4⟩ := hpar pts m uk hpts hm hu
  have hnm : n ≤ m + p := by
    by_contra hc
    rw [C132_too_many_violated solve hp7 (by omega) hpts] at h
    cases h
  have hkv := leastSquares_knots hp7 hpts h
  obtain ⟨kv, e1, e2⟩ := leastSquaresKnots_eq (params := uk) hp hpn u1 hnm
  rw [hkv] at e1
  cases e1
  obtain ⟨kv, e3, k1, k2, k3, k4⟩ := C74_compute_knots hp hpn u1 hnm u2 u3 u4
  rw [e2] at e3
  cases e3
  have hc : c.degree = p ∧ ∃ temp, leastSquaresPoints (n : ℤ) m pts temp = ok c.cps := by
    unfold leastSquares at h
    rw [validate_of (by rw [decide_eq_true_eq]; unfold nurbsMaxDegree; omega), ok_bind, validate_of (by rw [decide_eq_true_eq]; omega), ok_bind] at h
    dsimp only at h
    rw [show (n : ℤ) + 1 - 1 = n by ring, show (pts.length : ℤ) - 1 = m by rw [hpts]; push_cast; ring] at h
    obtain ⟨_, -, h⟩ := bind_eq_ok.mp h
    obtain ⟨_, -, h⟩ := bind_eq_ok.mp h
    obtain ⟨_, -, h⟩ := bind_eq_ok.mp h
    split at h
    · cases h
    · obtain ⟨_, -, h⟩ := bind_eq_ok.mp h
      obtain ⟨_, -, h⟩ := bind_eq_ok.mp h
      obtain ⟨_, -, h⟩ := bind_eq_ok.mp h
      obtain ⟨_, -, h⟩ := bind_eq_ok.mp h
      obtain ⟨temp, -, h⟩ := bind_eq_ok.mp h
      cases temp with
      | none => cases h
      | some temp =>
        obtain ⟨cps, e, h⟩ := bind_eq_ok.mp h
        cases h
        exact ⟨rfl, temp, e⟩
  obtain ⟨c1, temp, c2⟩ := hc
  obtain ⟨q1, q2, q3, q4⟩ := leastSquaresPoints_post (by omega) hpts c2
  exact ⟨⟨c1, hp, hp7, q1, hpn, k1, k4⟩, k2, k3, q2, q3, q4⟩

/-- what the loop over the rows returns -/
theorem approximateRows_post {fit : List (XYZ K) → Res (Option (NurbsCurve K))} {rows temp : List (List (XYZ K))} {kn : List K}
    (h : approximateRows fit rows = ok (some (temp, kn))) :
    temp.length = rows.length ∧ ∀ i, i < rows.length → ∃ c, fit (row rows i) = ok (some c) ∧ row temp i = c.cps.map XYZW.toXYZ ∧ (i = 0 → kn = c.knots) := by
  unfold approximateRows at h
  have hinv := forI_post (Inv := fun (k : ℤ) (st : Option (List (List (XYZ K)) × List K)) => ∀ temp kn, st = some (temp, kn) → (temp.length : ℤ) = k ∧
    ∀ i : ℕ, (i : ℤ) < k → ∃ c, fit (row rows i) = ok (some c) ∧ row temp i = c.cps.map XYZW.toXYZ ∧ (i = 0 → kn = c.knots)) (by omega)
    (by rintro temp kn hst; cases hst; exact ⟨rfl, fun i hi => by omega⟩) (by
      rintro k st st' hk0 hk hst hb temp' kn' rfl
      cases st with
      | none => cases hb
      | some st =>
        obtain ⟨temp, kn⟩ := st
        obtain ⟨g1, g2⟩ := hst temp kn rfl
        dsimp only at hb
        rw [vget_row (k := k.toNat) (by omega) (by omega), ok_bind] at hb
        obtain ⟨r, e, hb⟩ := bind_eq_ok.mp hb
        cases r with
        | none => cases hb
        | some c =>
          cases hb
          refine ⟨by simp; omega, fun i hi => ?_⟩
          by_cases hc : i = k.toNat
          · subst hc
            refine ⟨c, e, ?_, fun h0 => by rw [if_pos (by omega)]⟩
            unfold row
            rw [List.getD_eq_getElem?_getD, List.getElem?_append_right (by omega), show k.toNat - temp.length = 0 by omega]
            rfl
          · obtain ⟨c', q1, q2, q3⟩ := g2 i (by omega)
            refine ⟨c', q1, ?_, fun h0 => ?_⟩
            · rw [← q2]
              unfold row
              rw [List.getD_eq_getElem?_getD, List.getD_eq_getElem?_getD, List.getElem?_append_left (by omega)]
            · rw [if_neg (by omega)]
              exact q3 h0) h
  obtain ⟨g1, g2⟩ := hinv temp kn rfl
  exact ⟨by omega, fun i hi => g2 i (by omega)⟩

omit [FloorRing K] in
theorem netToXYZW_run {P : List (List (XYZ K))} {r c : ℕ} (hP : IsMat P r c) (hr : 0 < r) :
    Runs (netToXYZW P) (fun net => IsMat net r c ∧ ∀ i j, i < r → j < c → ent net i j = XYZW.ofXYZ (ent P i j) 1) := by
  unfold netToXYZW
  rw [vget_row (i := 0) (k := 0) rfl (by rw [hP.1]; exact hr), ok_bind, hP.2 0 hr, hP.1]
  refine (Runs.forN (m := 0) (n := r) (fun k (net : List (List (XYZW K))) => IsMat net r c ∧ ∀ i j, i < k → j < c → ent net i j = XYZW.ofXYZ (ent P i j) 1)
    rfl rfl (by omega) ⟨isMat_replicate, fun i j hi hj => by omega⟩ ?_).mono (fun _ h => h)
  rintro k net - hk ⟨g1, g2⟩
  refine (Runs.forN (m := 0) (n := c) (fun l (net : List (List (XYZW K))) => IsMat net r c ∧ (∀ i j, i < k → j < c → ent net i j = XYZW.ofXYZ (ent P i j) 1) ∧
    ∀ j, j < l → ent net k j = XYZW.ofXYZ (ent P k j) 1) rfl rfl (by omega) ⟨g1, g2, fun j hj => by omega⟩ ?_).mono ?_
  · rintro l net - hl ⟨g1, g2, g3⟩
    rw [mget_ent (a := k) (b := l) hP rfl rfl hk hl, ok_bind]
    obtain ⟨net', e, q1, q2⟩ := mset_ok (x := XYZW.ofXYZ (ent P k l) 1) g1 (i := k) (j := l) rfl rfl hk hl
    refine ⟨net', e, q1, fun i j hi hj => ?_, fun j hj => ?_⟩
    · rw [q2, if_neg (by omega), g2 i j hi hj]
    · rw [q2]
      split_ifs with hc
      · rw [hc.2]
      · exact g3 j (by omega)
  · rintro net ⟨g1, g2, g3⟩
    refine ⟨g1, fun i j hi hj => ?_⟩
    by_cases hc : i = k
    · subst hc; exact g3 j hj
    · exact g2 i j (by omega) hj

theorem ofXYZ_toXYZ_one {x : XYZW K} (hx : x.w = 1) : XYZW.ofXYZ x.toXYZ 1 = x := by
  rw [XYZW.toXYZ_eq (by rw [hx, abs_one]; norm_num), hx]
  ext <;> simp [XYZW.ofXYZ, XYZW.raw, hx]

theorem toXYZ_ofXYZ_one {x : XYZ K} : (XYZW.ofXYZ x 1).toXYZ = x := by
  rw [XYZW.toXYZ_eq (by simp [XYZW.ofXYZ]; norm_num)]
  ext <;> simp [XYZW.ofXYZ, XYZW.raw]

/-- C136 (part): the surface that the approximation of a grid of `R + 1` times `C + 1` points returns with `n + 1` rows and `m + 1` columns of control
points: it has the requested degrees and the requested net, all its weights are 1, the four corner control points are the corner data points, and the first and
the last row of control points are those of the least squares curves of the first and the last row of data.  Its first knot vector fits the number of COLUMNS of
the net and the second one the number of ROWS.  This holds whatever the linear solver returns. -/
theorem C136_shape_partial (hpar : RisingParams params) {pts : List (List (XYZ K))} {pU pV n m R C : ℕ} {S : NurbsSurface K} (hU : 0 < pU) (hU7 : pU ≤ 7) (hV : 0 < pV)
    (hV7 : pV ≤ 7) (hUm : pU ≤ m) (hVn : pV ≤ n) (hpts : IsMat pts (R + 1) (C + 1)) (hR : 1 ≤ R) (hC : 1 ≤ C)
    (h : globalApproximationBy (leastSquaresBy solve params) pts pU pV ((n : ℤ) + 1) ((m : ℤ) + 1) = ok (some S)) :
    (S.degreeU = pU ∧ S.degreeV = pV ∧ IsMat S.cps (n + 1) (m + 1) ∧ S.knotsU.length = (m + 1) + pU + 1 ∧ S.knotsV.length = (n + 1) + pV + 1) ∧
    (∀ i j, i ≤ n → j ≤ m → (ent S.cps i j).w = 1) ∧
    (ent S.cps 0 0 = XYZW.ofXYZ (ent pts 0 0) 1 ∧ ent S.cps 0 m = XYZW.ofXYZ (ent pts 0 C) 1 ∧
      ent S.cps n 0 = XYZW.ofXYZ (ent pts R 0) 1 ∧ ent S.cps n m = XYZW.ofXYZ (ent pts R C) 1) ∧
    ((∀ i j, i ≤ j → j < S.knotsU.length → nth S.knotsU i ≤ nth S.knotsU j) ∧ (∀ i, i ≤ pU → nth S.knotsU i = 0) ∧
      ∀ i, m + 1 ≤ i → i ≤ m + pU + 1 → nth S.knotsU i = 1) ∧
    ((∀ i j, i ≤ j → j < S.knotsV.length → nth S.knotsV i ≤ nth S.knotsV j) ∧ (∀ i, i ≤ pV → nth S.knotsV i = 0) ∧
      ∀ i, n + 1 ≤ i → i ≤ n + pV + 1 → nth S.knotsV i = 1) ∧
    (∃ c, leastSquaresBy solve params pU (row pts 0) ((m : ℤ) + 1) = ok (some c) ∧ c.knots = S.knotsU ∧ ∀ j, j ≤ m → nth c.cps j = ent S.cps 0 j) ∧
    ∃ c, leastSquaresBy solve params pU (row pts R) ((m : ℤ) + 1) = ok (some c) ∧ ∀ j, j ≤ m → nth c.cps j = ent S.cps n j := by
  unfold globalApproximationBy at h
  rw [validate_of (by rw [decide_eq_true_eq, hpts.1]; omega), ok_bind, vget_row (i := 0) (k := 0) rfl (by rw [hpts.1]; omega), ok_bind,
    validate_of (by rw [decide_eq_true_eq, hpts.2 0 (by omega)]; omega), ok_bind, validate_of (by rw [decide_eq_true_eq]; unfold nurbsMaxDegree; omega), ok_bind,
    validate_of (by rw [decide_eq_true_eq]; unfold nurbsMaxDegree; omega), ok_bind, validate_of (by rw [decide_eq_true_eq]; omega), ok_bind,
    validate_of (by rw [decide_eq_true_eq]; omega), ok_bind] at h
  obtain ⟨t, ht, h⟩ := bind_eq_ok.mp h
  cases t with
  | none => cases h
  | some t =>
  obtain ⟨temp, kU⟩ := t
  obtain ⟨t1, t2⟩ := approximateRows_post ht
  rw [hpts.1] at t1 t2
  have hfit : ∀ i, i ≤ R → ∃ c : NurbsCurve K, leastSquaresBy solve params pU (row pts i) ((m : ℤ) + 1) = ok (some c) ∧ row temp i = c.cps.map XYZW.toXYZ ∧ (i = 0 → kU = c.knots) ∧
      (WellFormed c pU m ∧ (∀ i, i ≤ pU → nth c.knots i = 0) ∧ (∀ i, m + 1 ≤ i → i ≤ m + pU + 1 → nth c.knots i = 1) ∧
      nth c.cps 0 = XYZW.ofXYZ (ent pts i 0) 1 ∧ nth c.cps m = XYZW.ofXYZ (ent pts i C) 1 ∧ ∀ j, j ≤ m → (nth c.cps j).w = 1) := by
    intro i hi
    obtain ⟨c, q1, q2, q3⟩ := t2 i (by omega)
    exact ⟨c, q1, q2, q3, leastSquaresBy_shape hpar hU hU7 hUm (hpts.2 i (by omega)) hC q1⟩
  have htemp : IsMat temp (R + 1) (m + 1) := ⟨t1, fun i hi => by
    obtain ⟨c, q1, q2, q3, q4, -⟩ := hfit i (by omega)
    rw [q2, List.length_map, q4.cps]⟩
  dsimp only at h
  rw [transposeM_run htemp (by omega), ok_bind, List.nil_append] at h
  obtain ⟨f, hf, h⟩ := bind_eq_ok.mp h
  cases f with
  | none => cases h
  | some f =>
  obtain ⟨final, kV⟩ := f
  obtain ⟨f1, f2⟩ := approximateRows_post hf
  have hT := isMat_tab (r := m + 1) (c := R + 1) (f := fun i j => ent temp j i)
  rw [hT.1] at f1 f2
  have hcol : ∀ j, j ≤ m → ∃ d : NurbsCurve K, row final j = d.cps.map XYZW.toXYZ ∧ (j = 0 → kV = d.knots) ∧
      (WellFormed d pV n ∧ (∀ i, i ≤ pV → nth d.knots i = 0) ∧ (∀ i, n + 1 ≤ i → i ≤ n + pV + 1 → nth d.knots i = 1) ∧
      nth d.cps 0 = XYZW.ofXYZ (ent temp 0 j) 1 ∧ nth d.cps n = XYZW.ofXYZ (ent temp R j) 1 ∧ ∀ i, i ≤ n → (nth d.cps i).w = 1) := by
    intro j hj
    obtain ⟨d, q1, q2, q3⟩ := f2 j (by omega)
    refine ⟨d, q2, q3, ?_⟩
    have := leastSquaresBy_shape hpar hV hV7 hVn (hT.2 j (by omega)) hR q1
    rw [row_tab (by omega), nth_mapRange (by omega), nth_mapRange (by omega)] at this
    exact this
  have hfinal : IsMat final (m + 1) (n + 1) := ⟨f1, fun j hj => by
    obtain ⟨d, q1, -, q4, -⟩ := hcol j (by omega)
    rw [q1, List.length_map, q4.cps]⟩
  dsimp only at h
  rw [transposeM_run hfinal (by omega), ok_bind, List.nil_append] at h
  obtain ⟨cps, e, g1, g2⟩ := netToXYZW_run (isMat_tab (r := n + 1) (c := m + 1) (f := fun i j => ent final j i)) (by omega)
  rw [e, ok_bind] at h
  cases h
  have hent : ∀ i j, i ≤ n → j ≤ m → ent cps i j = XYZW.ofXYZ (ent final j i) 1 := by
    intro i j hi hj
    rw [g2 i j (by omega) (by omega), ent_tab (by omega) (by omega)]
  have htent : ∀ i j (c : NurbsCurve K), j ≤ m → row temp i = c.cps.map XYZW.toXYZ → c.cps.length = m + 1 → ent temp i j = (nth c.cps j).toXYZ := by
    intro i j c hj q1 q2
    unfold ent
    rw [q1, nth_map (by omega)]
  have hfirst : ∀ j, j ≤ m → ent cps 0 j = XYZW.ofXYZ (ent temp 0 j) 1 := by
    intro j hj
    obtain ⟨d, q1, -, q4, -, -, q5, -⟩ := hcol j hj
    rw [hent 0 j (by omega) hj]
    congr 1
    unfold ent
    rw [q1, nth_map (by rw [q4.cps]; omega), q5, toXYZ_ofXYZ_one]
    rfl
  have hlast : ∀ j, j ≤ m → ent cps n j = XYZW.ofXYZ (ent temp R j) 1 := by
    intro j hj
    obtain ⟨d, q1, -, q4, -, -, -, q5, -⟩ := hcol j hj
    rw [hent n j (by omega) hj]
    congr 1
    unfold ent
    rw [q1, nth_map (by rw [q4.cps]; omega), q5, toXYZ_ofXYZ_one]
    rfl
  obtain ⟨c, a1, a2, a3, a4, a5, a6, a7, a8, a9⟩ := hfit 0 (by omega)
  obtain ⟨c', b1, b2, b3, b4, b5, b6, b7, b8, b9⟩ := hfit R (by omega)
  obtain ⟨d, d1, d2, d3, d4, d5, -⟩ := hcol 0 (by omega)
  have ka := a3 rfl
  have kd := d2 rfl
  have ea : ∀ j, j ≤ m → ent cps 0 j = nth c.cps j := fun j hj => by
    rw [hfirst j hj, htent 0 j c hj a2 a4.cps, ofXYZ_toXYZ_one (a9 j hj)]
  have eb : ∀ j, j ≤ m → ent cps n j = nth c'.cps j := fun j hj => by
    rw [hlast j hj, htent R j c' hj b2 b4.cps, ofXYZ_toXYZ_one (b9 j hj)]
  refine ⟨⟨rfl, rfl, g1, by rw [ka, a4.knots]; omega, by rw [kd, d3.knots]; omega⟩, fun i j hi hj => by rw [hent i j hi hj]; rfl, ⟨?_, ?_, ?_, ?_⟩, ?_, ?_,
    ⟨c, a1, ka.symm, fun j hj => (ea j hj).symm⟩, c', b1, fun j hj => (eb j hj).symm⟩
  · rw [ea 0 (by omega), a7]
  · rw [ea m le_rfl, a8]
  · rw [eb 0 (by omega), b7]
  · rw [eb m le_rfl, b8]
  · rw [ka]; exact ⟨a4.sorted, a5, a6⟩
  · rw [kd]; exact ⟨d3.sorted, d4, d5⟩

omit [FloorRing K] in
theorem mget_cases {α : Type} (m : List (List α)) (i j : ℤ) : mget m i j = ub ∨ ∃ x, mget m i j = ok x := by
  have key : ∀ {β : Type} (v : List β) (i : ℤ), vget v i = ub ∨ ∃ x, vget v i = ok x := by
    intro β v i
    by_cases h : i < 0
    · exact Or.inl (vget_neg h)
    · by_cases h' : (v.length : ℤ) ≤ i
      · exact Or.inl (vget_ge h')
      · exact Or.inr ⟨v[i.toNat]'(by omega), vget_eq_ok_iff.mpr ⟨by omega, by rw [List.getElem?_eq_getElem]⟩⟩
  unfold mget
  rcases key m i with h | ⟨r, h⟩
  · rw [h]; exact Or.inl rfl
  · rw [h]; exact key r j

omit [FloorRing K] [IsStrictOrderedRing K] [LinearOrder K] [Field K] in
theorem forI_ok_or_ub {σ : Type} {body : ℤ → σ → Res σ} {b : ℤ} : ∀ (d : ℕ) (a : ℤ) (s : σ), b - a ≤ d → (∀ i s, a ≤ i → i < b → body i s = ub ∨ ∃ s', body i s = ok s') →
    forI a b s body = ub ∨ ∃ s', forI a b s body = ok s' := by
  intro d
  induction d with
  | zero => intro a s h _; exact Or.inr ⟨s, forI_empty (by omega)⟩
  | succ d ih =>
    intro a s h hall
    by_cases hc : a < b
    · rw [forI_head hc]
      rcases hall a s le_rfl hc with h' | ⟨s', h'⟩
      · rw [h']; exact Or.inl rfl
      · rw [h', ok_bind]; exact ih (a + 1) s' (by omega) fun i s h1 h2 => hall i s (by omega) h2
    · exact Or.inr ⟨s, forI_empty (by omega)⟩

omit [FloorRing K] [IsStrictOrderedRing K] [LinearOrder K] [Field K] in
/-- a loop each of whose rounds runs or has undefined behaviour, and one of which always has, has undefined behaviour -/
theorem forI_ub {σ : Type} {body : ℤ → σ → Res σ} {i0 b : ℤ} (hb : i0 < b) (hub : ∀ s, body i0 s = ub) :
    ∀ (d : ℕ) (a : ℤ) (s : σ), a + d = i0 → (∀ i s, a ≤ i → i < b → body i s = ub ∨ ∃ s', body i s = ok s') → forI a b s body = ub := by
  intro d
  induction d with
  | zero =>
    intro a s ha _
    rw [forI_head (by omega), show a = i0 by omega, hub]
    rfl
  | succ d ih =>
    intro a s ha hall
    rw [forI_head (by omega)]
    rcases hall a s le_rfl (by omega) with h | ⟨s', h⟩
    · rw [h]; rfl
    · rw [h, ok_bind]; exact ih (a + 1) s' (by omega) fun i s h1 h2 => hall i s (by omega) h2

omit [FloorRing K] in
/-- the span at the last knot -/
theorem span_at_end {U : ℕ → K} {p n s : ℕ} (hm : MonoTo U (n + p + 1)) (he : EndsSeparated U p n) (hs : IsSpan U p n (U (n + 1)) s) : s = n := by
  obtain ⟨h1, h2, h3, h4, h5⟩ := hs
  by_contra hc
  have hlt : U n < U (n + 1) := by
    have : 0 ≤ max |U n| |U (n + 1)| := le_max_of_le_left (abs_nonneg _)
    have := he.last
    linarith
  have a := hm (s + 1) n (by omega) (by omega)
  have b := hm (s + 1) (n + 1) (by omega) (by omega)
  rcases h5 with h5 | ⟨h5, -⟩ <;> linarith

omit [FloorRing K] in
/-- evaluating at the last knots a surface whose knots ask for more control points than there are in one of the directions -/
theorem surface_oob {S : NurbsSurface K} {p q n m a b : ℕ} (hp7 : p ≤ 7) (hq7 : q ≤ 7) (hpa : p ≤ a) (hqb : q ≤ b) (dU : S.degreeU = p) (dV : S.degreeV = q) (hcps : IsMat S.cps (n + 1) (m + 1))
    (kU : S.knotsU.length = a + p + 2) (kV : S.knotsV.length = b + q + 2) (sU : ∀ i j, i ≤ j → j < S.knotsU.length → nth S.knotsU i ≤ nth S.knotsU j)
    (sV : ∀ i j, i ≤ j → j < S.knotsV.length → nth S.knotsV i ≤ nth S.knotsV j) (eU : EndsSeparated (nth S.knotsU) p a) (eV : EndsSeparated (nth S.knotsV) q b)
    (hoob : n < a ∨ m < b) : NurbsSurface.pointOnSurface S (nth S.knotsU (a + 1)) (nth S.knotsV (b + 1)) = ub := by
  have mU : MonoTo (nth S.knotsU) (a + p + 1) := fun i j h1 h2 => sU i j h1 (by omega)
  have mV : MonoTo (nth S.knotsV) (b + q + 1) := fun i j h1 h2 => sV i j h1 (by omega)
  obtain ⟨s, B, e1, hs, e2, e3⟩ := spanBasis hp7 kU hpa sU eU (sU _ _ (by omega) (by omega)) le_rfl
  obtain ⟨s', B', e1', hs', e2', e3'⟩ := spanBasis hq7 kV hqb sV eV (sV _ _ (by omega) (by omega)) le_rfl
  cases span_at_end mU eU hs
  cases span_at_end mV eV hs'
  have heps := doubleEps_pos (K := K)
  have a0 := mU 0 (a + 1) (by omega) (by omega)
  have a1 := mU (a + 1) (a + p + 1) (by omega) (by omega)
  have b0 := mV 0 (b + 1) (by omega) (by omega)
  have b1 := mV (b + 1) (b + q + 1) (by omega) (by omega)
  have hval : BsplineSurface.validateUV S (nth S.knotsU (a + 1)) (nth S.knotsV (b + 1)) = ok () := by
    unfold BsplineSurface.validateUV
    rw [vget_nth (k := 0) (by simp) (by omega), ok_bind, vget_nth (k := a + p + 1) (by omega) (by omega), ok_bind,
      validateRange_eq_ok_iff.mpr ⟨by linarith, by linarith⟩, ok_bind,
      vget_nth (k := 0) (by simp) (by omega), ok_bind, vget_nth (k := b + q + 1) (by omega) (by omega), ok_bind,
      validateRange_eq_ok_iff.mpr ⟨by linarith, by linarith⟩]
  have hB : ∀ k : ℤ, 0 ≤ k → k ≤ p → ∃ x, aget B k = ok x := fun k h1 h2 => ⟨_, by
    have := e3 k.toNat (by omega)
    rw [show (k.toNat : ℤ) = k by omega] at this
    exact this⟩
  have hB' : ∀ k : ℤ, 0 ≤ k → k ≤ q → ∃ x, aget B' k = ok x := fun k h1 h2 => ⟨_, by
    have := e3' k.toNat (by omega)
    rw [show (k.toNat : ℤ) = k by omega] at this
    exact this⟩
  have hinner : ∀ (l k : ℤ) (temp : XYZW K), 0 ≤ k → k < (p : ℤ) + 1 →
      (aget B k >>= fun x => mget S.cps ((a : ℤ) - p + k) ((b : ℤ) - q + l) >>= fun y => ok (temp + x • y)) = ub ∨
      ∃ t, (aget B k >>= fun x => mget S.cps ((a : ℤ) - p + k) ((b : ℤ) - q + l) >>= fun y => ok (temp + x • y)) = ok t := by
    intro l k temp h1 h2
    obtain ⟨x, hx⟩ := hB k h1 (by omega)
    rw [hx, ok_bind]
    rcases mget_cases S.cps ((a : ℤ) - p + k) ((b : ℤ) - q + l) with h | ⟨x, h⟩ <;> rw [h]
    · exact Or.inl rfl
    · exact Or.inr ⟨_, rfl⟩
  have hbad : ∀ k l : ℤ, 0 ≤ k → k ≤ p → ((n : ℤ) < a - p + k ∨ (m : ℤ) < b - q + l) → ∀ temp : XYZW K,
      (aget B k >>= fun x => mget S.cps ((a : ℤ) - p + k) ((b : ℤ) - q + l) >>= fun y => ok (temp + x • y)) = ub := by
    intro k l h1 h2 h3 temp
    obtain ⟨x, hx⟩ := hB k h1 h2
    rw [hx, ok_bind]
    have : mget S.cps ((a : ℤ) - p + k) ((b : ℤ) - q + l) = ub := by
      unfold mget
      by_cases hc : (n : ℤ) < a - p + k
      · rw [vget_ge (by rw [hcps.1]; push_cast; omega)]; rfl
      · rw [vget_row (k := ((a : ℤ) - p + k).toNat) (by omega) (by rw [hcps.1]; omega), ok_bind, vget_ge (by rw [hcps.2 _ (by omega)]; push_cast; omega)]
    rw [this]; rfl
  have houter : ∀ (l : ℤ) (pt : XYZW K), 0 ≤ l → l < (q : ℤ) + 1 →
      ((forI 0 ((p : ℤ) + 1) (0 : XYZW K) fun k temp => aget B k >>= fun x => mget S.cps ((a : ℤ) - p + k) ((b : ℤ) - q + l) >>= fun y => ok (temp + x • y)) >>= fun t =>
        aget B' l >>= fun x => ok (pt + x • t)) = ub ∨
      ∃ t, ((forI 0 ((p : ℤ) + 1) (0 : XYZW K) fun k temp => aget B k >>= fun x => mget S.cps ((a : ℤ) - p + k) ((b : ℤ) - q + l) >>= fun y => ok (temp + x • y)) >>= fun t =>
        aget B' l >>= fun x => ok (pt + x • t)) = ok t := by
    intro l pt h1 h2
    rcases forI_ok_or_ub (p + 1) 0 (0 : XYZW K) (by omega) (hinner l) with h | ⟨t, h⟩
    · rw [h]; exact Or.inl rfl
    · obtain ⟨x, hx⟩ := hB' l h1 (by omega)
      rw [h, ok_bind, hx]
      exact Or.inr ⟨_, rfl⟩
  unfold NurbsSurface.pointOnSurface BsplineSurface.pointOnSurface
  rw [hval, ok_bind, dU, dV, e1, ok_bind, e2, ok_bind, e1', ok_bind, e2', ok_bind]
  dsimp only
  rw [forI_ub (i0 := q) (by omega) (fun pt => ?_) q 0 0 (by omega) houter]
  · rfl
  · rw [forI_ub (i0 := p) (by omega) (hbad p q (by omega) le_rfl (by omega)) p 0 0 (by omega) (hinner q)]
    rfl

/-- C136 (violated): whenever different numbers of rows and columns of control points are asked for, the returned surface is not a valid one: `Check` rejects it,
and evaluating it at the end of its parameter range reads outside the control points. -/
theorem C136_unequal_violated (hpar : RisingParams params) {pts : List (List (XYZ K))} {pU pV n m R C : ℕ} {S : NurbsSurface K} (hU : 0 < pU) (hU7 : pU ≤ 7) (hV : 0 < pV)
    (hV7 : pV ≤ 7) (hUm : pU ≤ m) (hVn : pV ≤ n) (hpts : IsMat pts (R + 1) (C + 1)) (hR : 1 ≤ R) (hC : 1 ≤ C) (hne : n ≠ m)
    (h : globalApproximationBy (leastSquaresBy solve params) pts pU pV ((n : ℤ) + 1) ((m : ℤ) + 1) = ok (some S)) :
    BsplineSurface.check S = invalidArg ∧ (∀ p q a b, ¬ WellFormedS S p q a b) ∧
      (EndsSeparated (nth S.knotsU) pU m → EndsSeparated (nth S.knotsV) pV n → NurbsSurface.pointOnSurface S 1 1 = ub) := by
  obtain ⟨⟨dU, dV, hcps, kU, kV⟩, -, -, ⟨sU, -, oU⟩, ⟨sV, -, oV⟩, -, -⟩ := C136_shape_partial hpar hU hU7 hV hV7 hUm hVn hpts hR hC h
  refine ⟨?_, ?_, fun eU eV => ?_⟩
  · unfold BsplineSurface.check
    rw [validate_of (by rw [decide_eq_true_eq, dU]; omega), ok_bind, validate_of (by rw [decide_eq_true_eq, dV]; omega), ok_bind,
      validate_of (by rw [decide_eq_true_eq, kU]; omega), ok_bind, validate_of (isValidKnotVector_nth.mpr sU), ok_bind,
      validate_of (by rw [decide_eq_true_eq, kV]; omega), ok_bind, validate_of (isValidKnotVector_nth.mpr sV), ok_bind,
      validate_of (by rw [decide_eq_true_eq, hcps.1]; omega), ok_bind]
    have : isValidBspline S.degreeU S.knotsU.length S.cps.length = false := by
      unfold isValidBspline
      rw [dU, kU, hcps.1, beq_eq_false_iff_ne]
      push_cast
      omega
    rw [this]
    rfl
  · intro p q a b w
    have h1 := w.cps.1
    have h2 := w.knotsU
    have h3 := w.degreeU
    rw [hcps.1] at h1
    rw [dU] at h3
    rw [kU] at h2
    omega
  · have := surface_oob hU7 hV7 hUm hVn dU dV hcps (by omega) (by omega) sU sV eU eV (by omega)
    rwa [oU (m + 1) le_rfl (by omega), oV (n + 1) le_rfl (by omega)] at this

omit [FloorRing K] in
/-- a point of a surface with weights 1 -/
theorem unit_weight_surface' {S : NurbsSurface K} {p q n m : ℕ} {u v : K} (w : WellFormedS S p q n m) (he : EndsSeparatedS S p q n m) (d : InDomain S p q n m u v)
    (hw : ∀ i j, i ≤ n → j ≤ m → (ent S.cps i j).w = 1) :
    NurbsSurface.pointOnSurface S u v = ok (surfacePoint (nth S.knotsU) (nth S.knotsV) p q n m (fun i j => (ent S.cps i j).raw) u v) := by
  obtain ⟨s, -, hs⟩ := getKnotSpanIndex_isSpan w.knotsU w.pn w.sortedU he.u d.u0 d.u1
  obtain ⟨t, -, ht⟩ := getKnotSpanIndex_isSpan w.knotsV w.qm w.sortedV he.v d.v0 d.v1
  have sU := (basis_convex (fun i j h h' => w.sortedU i j h (by rw [w.knotsU]; omega)) hs).2
  have sV := (basis_convex (fun i j h h' => w.sortedV i j h (by rw [w.knotsV]; omega)) ht).2
  have eW : surfaceWeight (nth S.knotsU) (nth S.knotsV) p q n m (ent S.cps) u v = 1 := by
    unfold surfaceWeight
    rw [← one_mul (1 : K)]
    nth_rewrite 1 [← sU]
    rw [← sV, sum_mul_sum]
    refine sum_congr rfl fun i hi => sum_congr rfl fun j hj => ?_
    have hi := mem_range.mp hi
    have hj := mem_range.mp hj
    rw [hw i j (by omega) (by omega), mul_one]
  rw [C33_eval_rational w he d (by rw [eW, abs_one]; norm_num)]
  congr 1
  unfold rationalSurfacePoint
  rw [eW, inv_one, one_smul]
  rfl

/-- C136 (part): with as many rows as columns of control points the returned surface is valid, passes through the four corners of the data, and if both knot
vectors agree, its sides at `u = 0` and `u = 1` are the least squares curves of the first row of data and, if the last row is fitted with the same knots, of the last. -/
theorem C136_square_partial (hpar : RisingParams params) {pts : List (List (XYZ K))} {pU pV n R C : ℕ} {S : NurbsSurface K} (hU : 0 < pU) (hU7 : pU ≤ 7) (hV : 0 < pV)
    (hV7 : pV ≤ 7) (hUn : pU ≤ n) (hVn : pV ≤ n) (hpts : IsMat pts (R + 1) (C + 1)) (hR : 1 ≤ R) (hC : 1 ≤ C)
    (h : globalApproximationBy (leastSquaresBy solve params) pts pU pV ((n : ℤ) + 1) ((n : ℤ) + 1) = ok (some S)) :
    WellFormedS S pU pV n n ∧ (EndsSeparatedS S pU pV n n →
      (NurbsSurface.pointOnSurface S 0 0 = ok (ent pts 0 0) ∧ NurbsSurface.pointOnSurface S 0 1 = ok (ent pts 0 C) ∧
        NurbsSurface.pointOnSurface S 1 0 = ok (ent pts R 0) ∧ NurbsSurface.pointOnSurface S 1 1 = ok (ent pts R C)) ∧
      (∃ c : NurbsCurve K, leastSquaresBy solve params pU (row pts 0) ((n : ℤ) + 1) = ok (some c) ∧ c.knots = S.knotsU ∧
        (S.knotsV = S.knotsU → ∀ v, 0 ≤ v → v ≤ 1 → NurbsSurface.pointOnSurface S 0 v = NurbsCurve.pointOnCurve c v)) ∧
      ∃ c : NurbsCurve K, leastSquaresBy solve params pU (row pts R) ((n : ℤ) + 1) = ok (some c) ∧
        (S.knotsV = c.knots → ∀ v, 0 ≤ v → v ≤ 1 → NurbsSurface.pointOnSurface S 1 v = NurbsCurve.pointOnCurve c v)) := by
  obtain ⟨⟨dU, dV, hcps, kU, kV⟩, hw, ⟨c1, c2, c3, c4⟩, ⟨sU, zU, oU⟩, ⟨sV, zV, oV⟩, ⟨c, f1, f2, f3⟩, c', g1, g3⟩ := C136_shape_partial hpar hU hU7 hV hV7 hUn hVn hpts hR hC h
  have w : WellFormedS S pU pV n n := ⟨dU, dV, hU, hV, hU7, hV7, hcps, hUn, hVn, by omega, by omega, sU, sV⟩
  refine ⟨w, fun he => ?_⟩
  have hlt : ∀ {a b : K}, b - a > 1 / 1000000 * (1 + max |a| |b|) → a < b := by
    intro a b hab
    have : 0 ≤ max |a| |b| := le_max_of_le_left (abs_nonneg _)
    linarith
  have hs0 : ∀ {U : List K} {p : ℕ}, p ≤ n → EndsSeparated (nth U) p n → (∀ i, i ≤ p → nth U i = 0) → IsSpan (nth U) p n 0 p := by
    intro U p hp e z
    have := hlt e.first
    exact ⟨le_rfl, hp, this, (z p le_rfl).le, Or.inl (by rw [← z p le_rfl]; exact this)⟩
  have hs1 : ∀ {U : List K} {p : ℕ}, p ≤ n → EndsSeparated (nth U) p n → (∀ i, n + 1 ≤ i → i ≤ n + p + 1 → nth U i = 1) → IsSpan (nth U) p n 1 n := by
    intro U p hp e o
    have := hlt e.last
    exact ⟨hp, le_rfl, this, by rw [← o (n + 1) le_rfl (by omega)]; exact this.le, Or.inr ⟨(o (n + 1) le_rfl (by omega)).symm, rfl⟩⟩
  have e0 : ∀ {U : List K} {p : ℕ} (P : ℕ → XYZ K), p ≤ n → MonoTo (nth U) (n + p + 1) → EndsSeparated (nth U) p n → (∀ i, i ≤ p → nth U i = 0) → curvePoint (nth U) p n P 0 = P 0 := by
    intro U p P hp hm e z
    have := hlt e.first
    rw [curvePoint_start hm (hs0 hp e z) (by rw [← z p le_rfl]; exact this) fun j _ hj => z j hj, Nat.sub_self]
  have e1 : ∀ {U : List K} {p : ℕ} (P : ℕ → XYZ K), p ≤ n → MonoTo (nth U) (n + p + 1) → EndsSeparated (nth U) p n → (∀ i, n + 1 ≤ i → i ≤ n + p + 1 → nth U i = 1) →
      curvePoint (nth U) p n P 1 = P n := by
    intro U p P hp hm e o
    have := hlt e.last
    exact curvePoint_end hm (hs1 hp e o) (by rw [← o (n + 1) le_rfl (by omega)]; exact this) fun j h1 h2 => o j h1 (by omega)
  have mU := wfS_monoU w
  have mV := wfS_monoV w
  have dom : ∀ u v : K, 0 ≤ u → u ≤ 1 → 0 ≤ v → v ≤ 1 → InDomain S pU pV n n u v := fun u v h1 h2 h3 h4 =>
    ⟨by rw [zU pU le_rfl]; exact h1, by rw [oU (n + 1) le_rfl (by omega)]; exact h2, by rw [zV pV le_rfl]; exact h3, by rw [oV (n + 1) le_rfl (by omega)]; exact h4⟩
  have ev0 : ∀ v : K, 0 ≤ v → v ≤ 1 → NurbsSurface.pointOnSurface S 0 v = ok (curvePoint (nth S.knotsV) pV n (fun j => (ent S.cps 0 j).raw) v) := by
    intro v h1 h2
    rw [unit_weight_surface' w he (dom 0 v le_rfl zero_le_one h1 h2) hw, surfacePoint_eq, e0 _ hUn mU he.u zU]
  have ev1 : ∀ v : K, 0 ≤ v → v ≤ 1 → NurbsSurface.pointOnSurface S 1 v = ok (curvePoint (nth S.knotsV) pV n (fun j => (ent S.cps n j).raw) v) := by
    intro v h1 h2
    rw [unit_weight_surface' w he (dom 1 v zero_le_one le_rfl h1 h2) hw, surfacePoint_eq, e1 _ hUn mU he.u oU]
  have raw1 : ∀ x : XYZ K, (XYZW.ofXYZ x 1).raw = x := by intro x; ext <;> simp [XYZW.ofXYZ, XYZW.raw]
  have edge : ∀ (c : NurbsCurve K) (k : ℕ), WellFormed c pU n → (∀ i, i ≤ pU → nth c.knots i = 0) → (∀ i, n + 1 ≤ i → i ≤ n + pU + 1 → nth c.knots i = 1) →
      (∀ i, i ≤ n → (nth c.cps i).w = 1) → (∀ j, j ≤ n → nth c.cps j = ent S.cps k j) → S.knotsV = c.knots → ∀ v, 0 ≤ v → v ≤ 1 →
      ok (curvePoint (nth S.knotsV) pV n (fun j => (ent S.cps k j).raw) v) = NurbsCurve.pointOnCurve c v := by
    intro c k wc zc oc hwc hc hk v h1 h2
    have hp : pV = pU := by have := wc.knots; rw [← hk] at this; omega
    have ec : EndsSeparated (nth c.knots) pU n := by rw [← hk, ← hp]; exact he.v
    rw [unit_weight_point wc ec (by rw [zc pU le_rfl]; exact h1) (by rw [oc (n + 1) le_rfl (by omega)]; exact h2) hwc, hk, hp]
    congr 1
    unfold curvePoint
    refine sum_congr rfl fun j hj => ?_
    rw [hc j (by have := mem_range.mp hj; omega)]
  have l0 := leastSquaresBy_shape hpar hU hU7 hUn (hpts.2 0 (by omega)) hC f1
  have lR := leastSquaresBy_shape hpar hU hU7 hUn (hpts.2 R (by omega)) hC g1
  refine ⟨⟨?_, ?_, ?_, ?_⟩, ⟨c, f1, f2, fun hk v h1 h2 => ?_⟩, c', g1, fun hk v h1 h2 => ?_⟩
  · rw [ev0 0 le_rfl zero_le_one, e0 _ hVn mV he.v zV, c1, raw1]
  · rw [ev0 1 zero_le_one le_rfl, e1 _ hVn mV he.v oV, c2, raw1]
  · rw [ev1 0 le_rfl zero_le_one, e0 _ hVn mV he.v zV, c3, raw1]
  · rw [ev1 1 zero_le_one le_rfl, e1 _ hVn mV he.v oV, c4, raw1]
  · rw [ev0 v h1 h2]
    exact edge c 0 l0.1 l0.2.1 l0.2.2.1 l0.2.2.2.2.2 f3 (by rw [hk, f2]) v h1 h2
  · rw [ev1 v h1 h2]
    exact edge c' n lR.1 lR.2.1 lR.2.2.1 lR.2.2.2.2.2 g3 hk v h1 h2

/-- C136: invalid arguments are rejected before anything is computed -/
theorem C136_rejects (fit : ℤ → List (XYZ K) → ℤ → Res (Option (NurbsCurve K))) {pts : List (List (XYZ K))} {pU pV rows columns : ℤ} (hne : 0 < (row pts 0).length)
    (h : pU ≤ 0 ∨ 7 < pU ∨ pV ≤ 0 ∨ 7 < pV ∨ rows ≤ pV ∨ columns ≤ pU) : globalApproximationBy fit pts pU pV rows columns = invalidArg := by
  have hl : 0 < pts.length := by
    by_contra hc
    have : pts = [] := List.length_eq_zero_iff.mp (by omega)
    subst this
    simp [row] at hne
  unfold globalApproximationBy
  rw [validate_of (by rw [decide_eq_true_eq]; exact hl), ok_bind, vget_row (i := 0) (k := 0) rfl hl, ok_bind, validate_of (by rw [decide_eq_true_eq]; exact hne), ok_bind]
  unfold nurbsMaxDegree
  by_cases h1 : pU > 0 ∧ pU ≤ 7
  · rw [validate_of (by rw [decide_eq_true_eq]; exact h1), ok_bind]
    by_cases h2 : pV > 0 ∧ pV ≤ 7
    · rw [validate_of (by rw [decide_eq_true_eq]; exact h2), ok_bind]
      by_cases h3 : rows > pV
      · rw [validate_of (by rw [decide_eq_true_eq]; exact h3), ok_bind, decide_eq_false (by omega)]; rfl
      · rw [decide_eq_false h3]; rfl
    · rw [decide_eq_false h2]; rfl
  · rw [decide_eq_false h1]; rfl

theorem C136_empty (fit : ℤ → List (XYZ K) → ℤ → Res (Option (NurbsCurve K))) (pts : List (List (XYZ K))) (pU pV rows columns : ℤ) :
    globalApproximationBy fit [] pU pV rows columns = invalidArg ∧ globalApproximationBy fit ([] :: pts) pU pV rows columns = invalidArg := ⟨rfl, rfl⟩

end

/-- the chord parameters rise from 0 to 1 -/
theorem chord_rising : RisingParams getChordParameterization := by
  intro pts m uk h1 h2 h3
  obtain ⟨uk', e, q1, q2, q3, q4, -⟩ := C46_chord pts (by omega)
  rw [h3] at e
  cases e
  rw [h1] at q1 q3 q4
  exact ⟨q1, q2, q3, fun i j hi hj => q4 i j hi (by omega)⟩

/-- C136 (violated): with the chord parameters that the library uses, a surface with different numbers of rows and columns of control points is never valid. -/
theorem C136_chord_unequal_violated {solve : List (List ℝ) → ℤ → List (List ℝ) → Res (Option (List (List ℝ)))} {pts : List (List (XYZ ℝ))} {pU pV n m R C : ℕ} {S : NurbsSurface ℝ}
    (hU : 0 < pU) (hU7 : pU ≤ 7) (hV : 0 < pV) (hV7 : pV ≤ 7) (hUm : pU ≤ m) (hVn : pV ≤ n) (hpts : IsMat pts (R + 1) (C + 1)) (hR : 1 ≤ R) (hC : 1 ≤ C) (hne : n ≠ m)
    (h : surfaceApproximation solve pts pU pV ((n : ℤ) + 1) ((m : ℤ) + 1) = ok (some S)) : BsplineSurface.check S = invalidArg :=
  (C136_unequal_violated chord_rising hU hU7 hV hV7 hUm hVn hpts hR hC hne h).1

/-- C136 (part): with the chord parameters that the library uses, a surface with as many rows as columns of control points is valid and passes through the corners of the data. -/
theorem C136_chord_square_partial {solve : List (List ℝ) → ℤ → List (List ℝ) → Res (Option (List (List ℝ)))} {pts : List (List (XYZ ℝ))} {pU pV n R C : ℕ} {S : NurbsSurface ℝ}
    (hU : 0 < pU) (hU7 : pU ≤ 7) (hV : 0 < pV) (hV7 : pV ≤ 7) (hUn : pU ≤ n) (hVn : pV ≤ n) (hpts : IsMat pts (R + 1) (C + 1)) (hR : 1 ≤ R) (hC : 1 ≤ C)
    (h : surfaceApproximation solve pts pU pV ((n : ℤ) + 1) ((n : ℤ) + 1) = ok (some S)) :
    WellFormedS S pU pV n n ∧ (EndsSeparatedS S pU pV n n →
      NurbsSurface.pointOnSurface S 0 0 = ok (ent pts 0 0) ∧ NurbsSurface.pointOnSurface S 0 1 = ok (ent pts 0 C) ∧
        NurbsSurface.pointOnSurface S 1 0 = ok (ent pts R 0) ∧ NurbsSurface.pointOnSurface S 1 1 = ok (ent pts R C)) := by
  obtain ⟨w, q⟩ := C136_square_partial chord_rising hU hU7 hV hV7 hUn hVn hpts hR hC h
  exact ⟨w, fun he => (q he).1⟩

/-! ### Examples -/

/-- a solver for one or two unknowns, by Cramer's rule -/
def smallSolve (A : List (List ℚ)) (w : ℤ) (B : List (List ℚ)) : Res (Option (List (List ℚ))) :=
  match A, B with
  | [a], [b] => if nth a (w / 2).toNat = 0 then ok none else ok (some [b.map (· / nth a (w / 2).toNat)])
  | [a, a'], [b, b'] =>
    let d := nth a (w / 2).toNat * nth a' (w / 2).toNat - nth a ((w / 2).toNat + 1) * nth a' ((w / 2).toNat - 1)
    if d = 0 ∨ w < 3 then ok none else
      ok (some [(b.zip b').map fun x => (x.1 * nth a' (w / 2).toNat - x.2 * nth a ((w / 2).toNat + 1)) / d,
        (b.zip b').map fun x => (x.2 * nth a (w / 2).toNat - x.1 * nth a' ((w / 2).toNat - 1)) / d])
  | _, _ => ok none

/-- the parameters of three or four points at equal distances -/
def evenParams (pts : List (XYZ ℚ)) : Res (List ℚ) := if pts.length = 3 then ok [0, 1/2, 1] else if pts.length = 4 then ok [0, 1/3, 2/3, 1] else nonfinite

theorem evenParams_rising : RisingParams evenParams := by
  intro pts m uk h1 h2 h3
  unfold evenParams at h3
  split at h3
  · obtain rfl : m = 2 := by omega
    cases h3
    exact ⟨rfl, rfl, rfl, fun i j hi hj => by interval_cases j <;> interval_cases i <;> decide +kernel⟩
  · split at h3
    · obtain rfl : m = 3 := by omega
      cases h3
      exact ⟨rfl, rfl, rfl, fun i j hi hj => by interval_cases j <;> interval_cases i <;> decide +kernel⟩
    · cases h3

/-- three copies, one above the other, of a path of two unit steps with a right angle: neighbours in the grid have distance one, so the chord parameters are
those of `evenParams` -/
def angleGrid : List (List (XYZ ℚ)) := [[⟨0, 0, 0⟩, ⟨1, 0, 0⟩, ⟨1, 1, 0⟩], [⟨0, 0, 1⟩, ⟨1, 0, 1⟩, ⟨1, 1, 1⟩], [⟨0, 0, 2⟩, ⟨1, 0, 2⟩, ⟨1, 1, 2⟩]]

def angleSurface : NurbsSurface ℚ :=
  { degreeU := 1, degreeV := 2, knotsU := [0, 0, 1/4, 1, 1], knotsV := [0, 0, 0, 1, 1, 1],
    cps := [[⟨0, 0, 0, 1⟩, ⟨1, -1/2, 0, 1⟩, ⟨1, 1, 0, 1⟩], [⟨0, 0, 1, 1⟩, ⟨1, -1/2, 1, 1⟩, ⟨1, 1, 1, 1⟩], [⟨0, 0, 2, 1⟩, ⟨1, -1/2, 2, 1⟩, ⟨1, 1, 2, 1⟩]] }

theorem angle_run : globalApproximationBy (leastSquaresBy smallSolve evenParams) angleGrid 1 2 3 3 = ok (some angleSurface) := by decide +kernel

/-- `C136_square_partial` is not vacuous -/
example : WellFormedS angleSurface 1 2 2 2 ∧ EndsSeparatedS angleSurface 1 2 2 2 ∧ NurbsSurface.pointOnSurface angleSurface 1 0 = ok ⟨0, 0, 2⟩ := by
  obtain ⟨w, q⟩ := C136_square_partial (pU := 1) (pV := 2) (n := 2) (R := 2) (C := 2) evenParams_rising (by omega) (by omega) (by omega) (by omega) (by omega) (by omega)
    (by unfold IsMat; decide +kernel) (by omega) (by omega) angle_run
  have e : EndsSeparatedS angleSurface 1 2 2 2 := ⟨⟨by decide +kernel, by decide +kernel⟩, ⟨by decide +kernel, by decide +kernel⟩⟩
  exact ⟨w, e, (q e).1.2.2.1⟩

/-- C136 (violated): even with as many control points as data points in both directions, the degrees and knots of the two directions are exchanged: a grid of three rows that turn
at a right angle, approximated with degree 1 along the rows (whose least squares curves pass through all the points) and degree 2 across: the middle points of the rows
are not on the surface. -/
theorem C136_exchanged_violated :
    (∃ c, leastSquaresBy smallSolve evenParams 1 (row angleGrid 0) 3 = ok (some c) ∧ NurbsCurve.pointOnCurve c (1/2) = ok ⟨1, 0, 0⟩) ∧
    globalApproximationBy (leastSquaresBy smallSolve evenParams) angleGrid 1 2 3 3 = ok (some angleSurface) ∧
    ∀ u v : ℚ, 0 ≤ u → u ≤ 1 → 0 ≤ v → v ≤ 1 → ∀ z, NurbsSurface.pointOnSurface angleSurface u v ≠ ok ⟨1, 0, z⟩ := by
  refine ⟨⟨{ degree := 1, knots := [0, 0, 1/4, 1, 1], cps := [⟨0, 0, 0, 1⟩, ⟨1, -1/2, 0, 1⟩, ⟨1, 1, 0, 1⟩] }, by decide +kernel, by decide +kernel⟩, angle_run, ?_⟩
  intro u v u0 u1 v0 v1 z hz
  obtain ⟨w, -⟩ := C136_square_partial (pU := 1) (pV := 2) (n := 2) (R := 2) (C := 2) evenParams_rising (by omega) (by omega) (by omega) (by omega) (by omega) (by omega)
    (by unfold IsMat; decide +kernel) (by omega) (by omega) angle_run
  have e : EndsSeparatedS angleSurface 1 2 2 2 := ⟨⟨by decide +kernel, by decide +kernel⟩, ⟨by decide +kernel, by decide +kernel⟩⟩
  have d : InDomain angleSurface 1 2 2 2 u v := ⟨u0, u1, v0, v1⟩
  rw [unit_weight_surface' w e d (by intro i j hi hj; interval_cases i <;> interval_cases j <;> decide +kernel)] at hz
  obtain ⟨s, -, hs⟩ := getKnotSpanIndex_isSpan w.knotsU w.pn w.sortedU e.u d.u0 d.u1
  have sU := (basis_convex (fun i j h h' => w.sortedU i j h (by rw [w.knotsU]; omega)) hs).2
  obtain ⟨t, -, ht⟩ := getKnotSpanIndex_isSpan w.knotsV w.qm w.sortedV e.v d.v0 d.v1
  have sV := (basis_convex (fun i j h h' => w.sortedV i j h (by rw [w.knotsV]; omega)) ht).2
  have hz := Res.ok.inj hz
  rw [surfacePoint_eq'] at hz
  have hin : ∀ j, j ≤ 2 → (curvePoint (nth angleSurface.knotsU) 1 2 (fun i => (ent angleSurface.cps i j).raw) u).x = (ent angleSurface.cps 0 j).wx ∧
      (curvePoint (nth angleSurface.knotsU) 1 2 (fun i => (ent angleSurface.cps i j).raw) u).y = (ent angleSurface.cps 0 j).wy := by
    intro j hj
    unfold curvePoint
    rw [XYZ.sum_x, XYZ.sum_y]
    constructor
    · rw [sum_congr rfl (g := fun i => N (nth angleSurface.knotsU) (nth angleSurface.knotsU (2 + 1)) 1 i u * (ent angleSurface.cps 0 j).wx), ← sum_mul, sU, one_mul]
      intro i hi
      have hi := mem_range.mp hi
      congr 1
      interval_cases i <;> interval_cases j <;> rfl
    · rw [sum_congr rfl (g := fun i => N (nth angleSurface.knotsU) (nth angleSurface.knotsU (2 + 1)) 1 i u * (ent angleSurface.cps 0 j).wy), ← sum_mul, sU, one_mul]
      intro i hi
      have hi := mem_range.mp hi
      congr 1
      interval_cases i <;> interval_cases j <;> rfl
  obtain ⟨Q, hQ⟩ : ∃ Q : ℕ → XYZ ℚ, Q = fun j => curvePoint (nth angleSurface.knotsU) 1 2 (fun i => (ent angleSurface.cps i j).raw) u := ⟨_, rfl⟩
  rw [← hQ] at hz
  have hin : ∀ j, j ≤ 2 → (Q j).x = (ent angleSurface.cps 0 j).wx ∧ (Q j).y = (ent angleSurface.cps 0 j).wy := by rw [hQ]; exact hin
  have hx := congrArg XYZ.x hz
  have hy := congrArg XYZ.y hz
  unfold curvePoint at hx hy
  rw [XYZ.sum_x] at hx
  rw [XYZ.sum_y] at hy
  simp only [sum_range_succ, sum_range_zero, zero_add] at hx hy sV
  rw [(hin 0 (by omega)).1, (hin 1 (by omega)).1, (hin 2 le_rfl).1] at hx
  rw [(hin 0 (by omega)).2, (hin 1 (by omega)).2, (hin 2 le_rfl).2] at hy
  have k0 : nth angleSurface.knotsV 0 = 0 := rfl
  have k1 : nth angleSurface.knotsV 1 = 0 := rfl
  have k2 : nth angleSurface.knotsV 2 = 0 := rfl
  have k3 : nth angleSurface.knotsV 3 = 1 := rfl
  have k4 : nth angleSurface.knotsV 4 = 1 := rfl
  have k5 : nth angleSurface.knotsV 5 = 1 := rfl
  have n0 : N (nth angleSurface.knotsV) (nth angleSurface.knotsV (2 + 1)) 2 0 v = (1 - v) ^ 2 := by
    rcases v1.lt_or_eq with h | rfl
    · simp [N, k0, k1, k2, k3, v0, h, h.ne, not_le.mpr h]; ring
    · simp [N, k0, k1, k2, k3]
  have n1 : N (nth angleSurface.knotsV) (nth angleSurface.knotsV (2 + 1)) 2 1 v = 2 * v * (1 - v) := by
    rcases v1.lt_or_eq with h | rfl
    · simp [N, k0, k1, k2, k3, k4, v0, h, h.ne, not_le.mpr h]; ring
    · simp [N, k0, k1, k2, k3, k4]
  have q0 : ent angleSurface.cps 0 0 = ⟨0, 0, 0, 1⟩ := rfl
  have q1 : ent angleSurface.cps 0 1 = ⟨1, -1/2, 0, 1⟩ := rfl
  have q2 : ent angleSurface.cps 0 2 = ⟨1, 1, 0, 1⟩ := rfl
  rw [q0, q1, q2] at hx hy
  dsimp only at hx hy
  rw [n1] at hx hy
  rw [n0, n1] at sV
  have h1 : (1 - v) ^ 2 = 0 := by linarith
  have h2 : v = 1 := by
    have := pow_eq_zero_iff (two_ne_zero) |>.mp h1
    linarith
  subst h2
  linarith

/-- three rows of four points -/
def stripGrid : List (List (XYZ ℚ)) :=
  [[⟨0, 0, 0⟩, ⟨1, 0, 0⟩, ⟨2, 0, 0⟩, ⟨3, 0, 0⟩], [⟨0, 1, 0⟩, ⟨1, 1, 0⟩, ⟨2, 1, 0⟩, ⟨3, 1, 0⟩], [⟨0, 2, 0⟩, ⟨1, 2, 0⟩, ⟨2, 2, 0⟩, ⟨3, 2, 0⟩]]

/-- `C136_unequal_violated` is not vacuous: three rows of four points approximated with three rows of four control points -/
example : ∃ S : NurbsSurface ℚ, globalApproximationBy (leastSquaresBy smallSolve evenParams) stripGrid 1 1 3 4 = ok (some S) ∧
    BsplineSurface.check S = invalidArg ∧ NurbsSurface.pointOnSurface S 1 1 = ub := by
  let S : NurbsSurface ℚ := { degreeU := 1, degreeV := 1, knotsU := [0, 0, 1/9, 5/9, 1, 1], knotsV := [0, 0, 1/4, 1, 1], cps :=
    [[⟨0, 0, 0, 1⟩, ⟨1/3, 0, 0, 1⟩, ⟨5/3, 0, 0, 1⟩, ⟨3, 0, 0, 1⟩], [⟨0, 1/2, 0, 1⟩, ⟨1/3, 1/2, 0, 1⟩, ⟨5/3, 1/2, 0, 1⟩, ⟨3, 1/2, 0, 1⟩],
      [⟨0, 2, 0, 1⟩, ⟨1/3, 2, 0, 1⟩, ⟨5/3, 2, 0, 1⟩, ⟨3, 2, 0, 1⟩]] }
  have hrun : globalApproximationBy (leastSquaresBy smallSolve evenParams) stripGrid 1 1 3 4 = ok (some S) := by decide +kernel
  obtain ⟨q1, -, q3⟩ := C136_unequal_violated (pU := 1) (pV := 1) (n := 2) (m := 3) (R := 2) (C := 3) evenParams_rising (by omega) (by omega) (by omega) (by omega) (by omega) (by omega)
    (by unfold IsMat; decide +kernel) (by omega) (by omega) (by omega) hrun
  exact ⟨S, hrun, q1, q3 ⟨by decide +kernel, by decide +kernel⟩ ⟨by decide +kernel, by decide +kernel⟩⟩

/-- the sides of `C136_square_partial` are not vacuous: the same grid with degree 1 in both directions -/
example : ∃ S : NurbsSurface ℚ, globalApproximationBy (leastSquaresBy smallSolve evenParams) angleGrid 1 1 3 3 = ok (some S) ∧ EndsSeparatedS S 1 1 2 2 ∧ S.knotsV = S.knotsU ∧
    NurbsSurface.pointOnSurface S 0 (1/2) = ok ⟨1, 0, 0⟩ :=
  ⟨{ degreeU := 1, degreeV := 1, knotsU := [0, 0, 1/4, 1, 1], knotsV := [0, 0, 1/4, 1, 1], cps :=
      [[⟨0, 0, 0, 1⟩, ⟨1, -1/2, 0, 1⟩, ⟨1, 1, 0, 1⟩], [⟨0, 0, 1/2, 1⟩, ⟨1, -1/2, 1/2, 1⟩, ⟨1, 1, 1/2, 1⟩], [⟨0, 0, 2, 1⟩, ⟨1, -1/2, 2, 1⟩, ⟨1, 1, 2, 1⟩]] },
    by decide +kernel, ⟨⟨by decide +kernel, by decide +kernel⟩, ⟨by decide +kernel, by decide +kernel⟩⟩, rfl, by decide +kernel⟩

/-- `C136_rejects` is not vacuous: as many rows as the degree -/
example (fit : ℤ → List (XYZ ℚ) → ℤ → Res (Option (NurbsCurve ℚ))) : globalApproximationBy fit angleGrid 1 2 2 3 = invalidArg :=
  C136_rejects fit (by decide) (by omega)

end LNLib.Props
