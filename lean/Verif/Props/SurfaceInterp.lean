import Verif.Lemmas.SurfaceSystem
import Verif.Props.Loft
import Verif.Props.Tangent

/-!
# C113: global interpolation of a grid of points
-/

namespace LNLib.Props
open LNLib Res Spec Finset

/-- if a loop finishes, so does each of its rounds -/
theorem forI_round {σ : Type} {body : ℤ → σ → Res σ} {b : ℤ} : ∀ (d : ℕ) (a : ℤ) (s r : σ), b - a = d → forI a b s body = ok r →
    ∀ i, a ≤ i → i < b → ∃ s' r', body i s' = ok r' := by
  intro d
  induction d with
  | zero => intro a s r hd _ i h1 h2; omega
  | succ d ih =>
    intro a s r hd h i h1 h2
    rw [forI_head (by omega)] at h
    obtain ⟨s', e1, e2⟩ := bind_eq_ok.mp h
    by_cases hi : i = a
    · subst hi; exact ⟨s, s', e1⟩
    · exact ih (a + 1) s' r (by omega) e2 i (by omega) h2

section
variable {K : Type} [Field K] [LinearOrder K] [IsStrictOrderedRing K]

/-- the right-hand side of the system -/
theorem surfaceRight_run {pts : List (List (XYZ K))} {a b : ℕ} (hp : IsMat pts (a + 1) (b + 1)) :
    Runs (forI 0 ((a + 1 : ℕ) : ℤ) (List.replicate ((a + 1) * (b + 1)) (List.replicate 3 (0 : K))) fun i right =>
      forI 0 ((b + 1 : ℕ) : ℤ) right fun j right => do
        let q ← mget pts i j
        vset right (i * ((b + 1 : ℕ) : ℤ) + j) [q.x, q.y, q.z]) (fun right => IsMat right ((a + 1) * (b + 1)) 3 ∧
        ∀ i j, i ≤ a → j ≤ b → row right (i * (b + 1) + j) = [(ent pts i j).x, (ent pts i j).y, (ent pts i j).z]) := by
  obtain ⟨T, hT⟩ : ∃ T, (a + 1) * (b + 1) = T := ⟨_, rfl⟩
  rw [hT]
  have hlt : ∀ {i j : ℕ}, i ≤ a → j ≤ b → i * (b + 1) + j < T := fun hi hj => by rw [← hT]; exact idx_lt (by omega) (by omega)
  refine (Runs.forN (m := 0) (n := a + 1) (fun i' (R : List (List K)) => IsMat R T 3 ∧
      ∀ i j, i ≤ a → j ≤ b → i < i' → row R (i * (b + 1) + j) = [(ent pts i j).x, (ent pts i j).y, (ent pts i j).z])
      rfl rfl (by omega) ⟨isMat_replicate, by intro i j _ _ h; omega⟩ ?_).mono (fun R h => ⟨h.1, fun i j hi hj => h.2 i j hi hj (by omega)⟩)
  rintro i R - hi ⟨g1, g2⟩
  refine (Runs.forN (m := 0) (n := b + 1) (fun j' (R : List (List K)) => IsMat R T 3 ∧
      ∀ i' j, i' ≤ a → j ≤ b → (i' < i ∨ (i' = i ∧ j < j')) → row R (i' * (b + 1) + j) = [(ent pts i' j).x, (ent pts i' j).y, (ent pts i' j).z])
      rfl rfl (by omega) ⟨g1, fun i' j h1 h2 h => g2 i' j h1 h2 (by omega)⟩ ?_).mono (fun R h => ⟨h.1, fun i' j h1 h2 h3 => h.2 i' j h1 h2 (by omega)⟩)
  rintro j R - hj ⟨g1, g2⟩
  have hidx := hlt (i := i) (j := j) (by omega) (by omega)
  rw [mget_ent hp rfl rfl hi hj, ok_bind, vset_of (k := i * (b + 1) + j) (by push_cast; ring) (by rw [g1.1]; exact hidx)]
  refine Runs.ok ⟨⟨by simp [g1.1], fun k hk => ?_⟩, ?_⟩
  · rw [row_set (by rw [g1.1]; exact hidx)]
    split_ifs
    · rfl
    · exact g1.2 k hk
  · intro i' j' h1 h2 h3
    rw [row_set (by rw [g1.1]; exact hidx)]
    simp only [idx_inj (C := b + 1) (i := i') (j := j') (i' := i) (j' := j) (by omega) (by omega)]
    split_ifs with hx
    · obtain ⟨rfl, rfl⟩ := hx; rfl
    · exact g2 i' j' h1 h2 (by omega)

/-- the control points are read off the solution -/
theorem surfaceCollect_run {X : List (List K)} {a b : ℕ} (x1 : IsMat X ((a + 1) * (b + 1)) 3) : Runs (forI 0 ((a + 1 : ℕ) : ℤ) (List.replicate (a + 1) (List.replicate (b + 1) (0 : XYZW K))) fun i cps =>
    forI 0 ((b + 1 : ℕ) : ℤ) cps fun j cps => do
      let x ← mget X (i * ((b + 1 : ℕ) : ℤ) + j) 0
      let y ← mget X (i * ((b + 1 : ℕ) : ℤ) + j) 1
      let z ← mget X (i * ((b + 1 : ℕ) : ℤ) + j) 2
      mset cps i j (XYZW.ofXYZ ⟨x, y, z⟩ 1)) (fun cps => IsMat cps (a + 1) (b + 1) ∧
      ∀ i j, i ≤ a → j ≤ b → ent cps i j = ⟨ent X (i * (b + 1) + j) 0, ent X (i * (b + 1) + j) 1, ent X (i * (b + 1) + j) 2, 1⟩) := by
  refine (Runs.forN (m := 0) (n := a + 1) (fun i' (cps : List (List (XYZW K))) => IsMat cps (a + 1) (b + 1) ∧
    ∀ i j, i ≤ a → j ≤ b → i < i' → ent cps i j = ⟨ent X (i * (b + 1) + j) 0, ent X (i * (b + 1) + j) 1, ent X (i * (b + 1) + j) 2, 1⟩)
    rfl rfl (by omega) ⟨isMat_replicate, by intro i j _ _ h; omega⟩ ?_).mono (fun R h => ⟨h.1, fun i j hi hj => h.2 i j hi hj (by omega)⟩)
  rintro i R - hi ⟨g1, g2⟩
  refine (Runs.forN (m := 0) (n := b + 1) (fun j' (cps : List (List (XYZW K))) => IsMat cps (a + 1) (b + 1) ∧
    ∀ i' j, i' ≤ a → j ≤ b → (i' < i ∨ (i' = i ∧ j < j')) → ent cps i' j = ⟨ent X (i' * (b + 1) + j) 0, ent X (i' * (b + 1) + j) 1, ent X (i' * (b + 1) + j) 2, 1⟩)
    rfl rfl (by omega) ⟨g1, fun i' j h1 h2 h => g2 i' j h1 h2 (by omega)⟩ ?_).mono (fun R h => ⟨h.1, fun i' j h1 h2 h3 => h.2 i' j h1 h2 (by omega)⟩)
  rintro j R - hj ⟨g1, g2⟩
  have hidx : i * (b + 1) + j < (a + 1) * (b + 1) := idx_lt (by omega) (by omega)
  have ei : (i : ℤ) * ((b + 1 : ℕ) : ℤ) + j = ((i * (b + 1) + j : ℕ) : ℤ) := by push_cast; ring
  rw [mget_ent (j := 0) x1 ei (b := 0) rfl hidx (by omega), ok_bind, mget_ent (j := 1) x1 ei (b := 1) rfl hidx (by omega), ok_bind,
    mget_ent (j := 2) x1 ei (b := 2) rfl hidx (by omega), ok_bind]
  obtain ⟨B, eB, q1, q2⟩ := mset_ok g1 (i := (i : ℤ)) (j := (j : ℤ)) (a := i) (b := j)
    (x := XYZW.ofXYZ ⟨ent X (i * (b + 1) + j) 0, ent X (i * (b + 1) + j) 1, ent X (i * (b + 1) + j) 2⟩ 1) rfl rfl hi hj
  refine ⟨B, eB, q1, ?_⟩
  intro i' j' h1 h2 h3
  rw [q2]
  split_ifs with hx
  · obtain ⟨rfl, rfl⟩ := hx; simp [XYZW.ofXYZ]
  · exact g2 i' j' h1 h2 (by omega)

/-- What the function returns when the parameter lists fit its loops: unit weights and control points that solve
`∑ N_r^V(vl_i) N_c^U(uk_j) P_rc = Q_ij`. -/
theorem surfaceWith_of_ok {solve : List (List K) → List (List K) → Res (List (List K))} {pts : List (List (XYZ K))} {kU kV uk vl : List K} {p q a b : ℕ}
    {S : NurbsSurface K} (hsolve : SoundSolver solve) (hp : IsMat pts (a + 1) (b + 1)) (ekU : averageKnotVector p uk = ok kU) (ekV : averageKnotVector q vl = ok kV)
    (hU : Colloc kU uk p b) (hV : Colloc kV vl q a) (hS : surfaceInterpolationWith solve pts (a + 1) (b + 1) p q uk vl = ok S) :
    S.degreeU = p ∧ S.degreeV = q ∧ S.knotsU = kU ∧ S.knotsV = kV ∧ IsMat S.cps (a + 1) (b + 1) ∧ (∀ i j, i ≤ a → j ≤ b → (ent S.cps i j).w = 1) ∧
      ∀ i j, i ≤ a → j ≤ b → ∑ r ∈ range (a + 1), ∑ c ∈ range (b + 1),
        (N (nth kV) (nth kV (a + 1)) q r (nth vl i) * N (nth kU) (nth kU (b + 1)) p c (nth uk j)) • (ent S.cps r c).raw = ent pts i j := by
  unfold surfaceInterpolationWith at hS
  obtain ⟨A, eA, a1, a2⟩ := surfaceSystem_run hU hV
  obtain ⟨B, eB, b1, b2⟩ := surfaceRight_run hp
  rw [ekU, ok_bind, ekV, ok_bind, eA, ok_bind, eB, ok_bind] at hS
  obtain ⟨X, hX, hS⟩ := bind_eq_ok.mp hS
  obtain ⟨x1, x2⟩ := hsolve _ _ _ _ _ a1 b1 hX
  obtain ⟨cps, ec, c1, c2⟩ := surfaceCollect_run x1
  rw [ec, ok_bind] at hS
  have hS := Res.ok.inj hS
  subst hS
  refine ⟨rfl, rfl, rfl, rfl, c1, fun i j hi hj => by dsimp only; rw [c2 i j hi hj], ?_⟩
  intro i j hi hj
  dsimp only
  have key : ∀ d, d < 3 → ∑ r ∈ range (a + 1), ∑ c ∈ range (b + 1),
      (N (nth kV) (nth kV (a + 1)) q r (nth vl i) * N (nth kU) (nth kU (b + 1)) p c (nth uk j)) * ent X (r * (b + 1) + c) d =
      nth [(ent pts i j).x, (ent pts i j).y, (ent pts i j).z] d := by
    intro d hd
    rw [← b2 i j hi hj, ← ent, ← x2 (i * (b + 1) + j) d (idx_lt (by omega) (by omega)) hd, sum_idx]
    refine sum_congr rfl fun r hr => sum_congr rfl fun c hc => ?_
    have hr := mem_range.mp hr
    have hc := mem_range.mp hc
    rw [a2 i j r c hi hj (by omega) (by omega)]
  have hsum : ∑ r ∈ range (a + 1), ∑ c ∈ range (b + 1),
        (N (nth kV) (nth kV (a + 1)) q r (nth vl i) * N (nth kU) (nth kU (b + 1)) p c (nth uk j)) • (ent cps r c).raw =
      ∑ r ∈ range (a + 1), ∑ c ∈ range (b + 1),
        (N (nth kV) (nth kV (a + 1)) q r (nth vl i) * N (nth kU) (nth kU (b + 1)) p c (nth uk j)) •
          (⟨ent X (r * (b + 1) + c) 0, ent X (r * (b + 1) + c) 1, ent X (r * (b + 1) + c) 2⟩ : XYZ K) := by
    refine sum_congr rfl fun r hr => sum_congr rfl fun c hc => ?_
    have hr := mem_range.mp hr
    have hc := mem_range.mp hc
    rw [c2 r c (by omega) (by omega)]
    rfl
  rw [hsum]
  ext
  · refine Eq.trans ?_ (key 0 (by omega))
    refine (map_sum (XYZ.xL (K := K)) _ _).trans (sum_congr rfl fun r _ => ?_)
    exact XYZ.sum_x _ _ _
  · refine Eq.trans ?_ (key 1 (by omega))
    refine (map_sum (XYZ.yL (K := K)) _ _).trans (sum_congr rfl fun r _ => ?_)
    exact XYZ.sum_y _ _ _
  · refine Eq.trans ?_ (key 2 (by omega))
    refine (map_sum (XYZ.zL (K := K)) _ _).trans (sum_congr rfl fun r _ => ?_)
    exact XYZ.sum_z _ _ _

end

/-- The equations a square grid is interpolated with. -/
theorem square_of_ok {solve : List (List ℝ) → List (List ℝ) → Res (List (List ℝ))} {pts : List (List (XYZ ℝ))} {p q n : ℕ} {S : NurbsSurface ℝ}
    (hsolve : SoundSolver solve) (hpts : IsMat pts (n + 1) (n + 1)) (hp : 0 < p) (hq : 0 < q)
    (hS : surfaceInterpolation solve pts p q = ok S) (he : EndsSeparatedS S p q n n)
    {uk vl : List ℝ} (hpar : getSurfaceMeshParameterization pts [] [] = ok (true, uk, vl)) :
    Colloc S.knotsU uk p n ∧ Colloc S.knotsV vl q n ∧ WellFormedS S p q n n ∧ (∀ i j, i ≤ n → j ≤ n → (ent S.cps i j).w = 1) ∧
      ∀ i j, i ≤ n → j ≤ n → ∑ r ∈ range (n + 1), ∑ c ∈ range (n + 1),
        (N (nth S.knotsV) (nth S.knotsV (n + 1)) q r (nth vl i) * N (nth S.knotsU) (nth S.knotsU (n + 1)) p c (nth uk j)) • (ent S.cps r c).raw = ent pts i j := by
  obtain ⟨b, U, V, e, -, hgood⟩ := C105_mesh hpts (by omega) (by omega)
  rw [hpar] at e
  cases e
  obtain ⟨l1, l2, -, -, u0, u1, v0, v1, um, vm⟩ := hgood rfl
  rw [Nat.add_sub_cancel] at u1 v1
  unfold surfaceInterpolation at hS
  obtain ⟨_, -, hS⟩ := bind_eq_ok.mp hS
  rw [vget_row (i := 0) (k := 0) rfl (by rw [hpts.1]; omega), ok_bind, hpts.2 0 (by omega), hpts.1] at hS
  obtain ⟨_, -, hS⟩ := bind_eq_ok.mp hS
  obtain ⟨_, h1, hS⟩ := bind_eq_ok.mp hS
  obtain ⟨_, h2, hS⟩ := bind_eq_ok.mp hS
  dsimp only at hS
  obtain ⟨_, h3, hS⟩ := bind_eq_ok.mp hS
  obtain ⟨_, h4, hS⟩ := bind_eq_ok.mp hS
  rw [hpar, ok_bind] at hS
  dsimp only at hS
  have g1 : p ≤ 7 := by
    by_contra h
    rw [show (decide ((p : ℤ) ≥ 0) && decide ((p : ℤ) ≤ nurbsMaxDegree)) = false by simp [nurbsMaxDegree]; omega] at h1
    simp [validate] at h1
  have g2 : q ≤ 7 := by
    by_contra h
    rw [show (decide ((q : ℤ) ≥ 0) && decide ((q : ℤ) ≤ nurbsMaxDegree)) = false by simp [nurbsMaxDegree]; omega] at h2
    simp [validate] at h2
  have g3 : p ≤ n := by
    by_contra h
    rw [show decide (((n + 1 : ℕ) : ℤ) > p) = false by simp; omega] at h3
    simp [validate] at h3
  have g4 : q ≤ n := by
    by_contra h
    rw [show decide (((n + 1 : ℕ) : ℤ) > q) = false by simp; omega] at h4
    simp [validate] at h4
  obtain ⟨kU, ekU, a1, a2, a3, -, a5⟩ := C46_average_partial (params := uk) hp g3 l1 u0 u1 (fun i j h h' => um i j h (by omega))
  obtain ⟨kV, ekV, b1, b2, b3, -, b5⟩ := C46_average_partial (params := vl) hq g4 l2 v0 v1 (fun i j h h' => vm i j h (by omega))
  have hkU : S.knotsU = kU ∧ S.knotsV = kV := by
    have h := hS
    unfold surfaceInterpolationWith at h
    rw [ekU, ok_bind, ekV, ok_bind] at h
    obtain ⟨_, -, h⟩ := bind_eq_ok.mp h
    obtain ⟨_, -, h⟩ := bind_eq_ok.mp h
    obtain ⟨_, -, h⟩ := bind_eq_ok.mp h
    obtain ⟨_, -, h⟩ := bind_eq_ok.mp h
    have := Res.ok.inj h
    subst this
    exact ⟨rfl, rfl⟩
  have heU := he.u
  have heV := he.v
  rw [hkU.1] at heU
  rw [hkU.2] at heV
  have cU : Colloc kU uk p n := ⟨hp, g1, g3, l1, a1, a2, a3, a5, heU, u0, u1, fun i j h h' => um i j h (by omega)⟩
  have cV : Colloc kV vl q n := ⟨hq, g2, g4, l2, b1, b2, b3, b5, heV, v0, v1, fun i j h h' => vm i j h (by omega)⟩
  obtain ⟨d1, d2, k1, k2, hM, hw, heq⟩ := surfaceWith_of_ok hsolve hpts ekU ekV cU cV hS
  rw [k1, k2]
  refine ⟨cU, cV, ?_, hw, heq⟩
  exact { degreeU := d1, degreeV := d2, posU := hp, posV := hq, le7U := g1, le7V := g2, cps := hM, pn := g3, qm := g4,
          knotsU := by rw [k1]; exact a1, knotsV := by rw [k2]; exact b1, sortedU := by rw [k1]; exact a5, sortedV := by rw [k2]; exact b5 }

/-- the point of a surface with unit weights -/
theorem unit_point {S : NurbsSurface ℝ} {p q n : ℕ} {u v : ℝ} {uk vl : List ℝ} (w : WellFormedS S p q n n) (he : EndsSeparatedS S p q n n)
    (cU : Colloc S.knotsU uk p n) (cV : Colloc S.knotsV vl q n) (hw : ∀ i j, i ≤ n → j ≤ n → (ent S.cps i j).w = 1)
    (u0 : 0 ≤ u) (u1 : u ≤ 1) (v0 : 0 ≤ v) (v1 : v ≤ 1) :
    NurbsSurface.pointOnSurface S u v = ok (∑ r ∈ range (n + 1), ∑ c ∈ range (n + 1),
      (N (nth S.knotsU) (nth S.knotsU (n + 1)) p r u * N (nth S.knotsV) (nth S.knotsV (n + 1)) q c v) • (ent S.cps r c).raw) := by
  have x0 : nth S.knotsU p ≤ u := by rw [cU.zeros p (le_refl _)]; exact u0
  have x1 : u ≤ nth S.knotsU (n + 1) := by rw [cU.ones (n + 1) (le_refl _) (by omega)]; exact u1
  have y0 : nth S.knotsV q ≤ v := by rw [cV.zeros q (le_refl _)]; exact v0
  have y1 : v ≤ nth S.knotsV (n + 1) := by rw [cV.ones (n + 1) (le_refl _) (by omega)]; exact v1
  obtain ⟨s, -, hs⟩ := getKnotSpanIndex_isSpan cU.knots cU.pn cU.sorted cU.ends x0 x1
  obtain ⟨t, -, ht⟩ := getKnotSpanIndex_isSpan cV.knots cV.pn cV.sorted cV.ends y0 y1
  have sU := (basis_convex (fun i j h h' => cU.sorted i j h (by rw [cU.knots]; omega)) hs).2
  have sV := (basis_convex (fun i j h h' => cV.sorted i j h (by rw [cV.knots]; omega)) ht).2
  have eW : surfaceWeight (nth S.knotsU) (nth S.knotsV) p q n n (ent S.cps) u v = 1 := by
    unfold surfaceWeight
    rw [← one_mul (1 : ℝ)]
    nth_rewrite 1 [← sU]
    rw [← sV, sum_mul_sum]
    refine sum_congr rfl fun i hi => sum_congr rfl fun j hj => ?_
    have hi := mem_range.mp hi
    have hj := mem_range.mp hj
    rw [hw i j (by omega) (by omega), mul_one]
  rw [C33_eval_rational w he ⟨x0, x1, y0, y1⟩ (by rw [eW, abs_one]; norm_num)]
  congr 1
  unfold rationalSurfacePoint
  rw [eW, inv_one, one_smul]
  rfl

/-- C113 (partial: square grids of points, equal degrees, and equal parameters in both directions): every surface the global interpolation of a
grid returns is valid and passes through the point `Q_ij` at `(u_i, u_j)`, for every point of the grid. The linear solver (Eigen, not modelled) is
only assumed to return solutions. -/
theorem C113_symmetric_partial {solve : List (List ℝ) → List (List ℝ) → Res (List (List ℝ))} {pts : List (List (XYZ ℝ))} {p n : ℕ} {S : NurbsSurface ℝ}
    (hsolve : SoundSolver solve) (hpts : IsMat pts (n + 1) (n + 1)) (hp : 0 < p)
    (hS : surfaceInterpolation solve pts p p = ok S) (he : EndsSeparatedS S p p n n)
    {uk : List ℝ} (hpar : getSurfaceMeshParameterization pts [] [] = ok (true, uk, uk)) :
    WellFormedS S p p n n ∧ ∀ i j, i ≤ n → j ≤ n → NurbsSurface.pointOnSurface S (nth uk i) (nth uk j) = ok (ent pts i j) := by
  obtain ⟨cU, cV, w, hw, heq⟩ := square_of_ok hsolve hpts hp hp hS he hpar
  refine ⟨w, fun i j hi hj => ?_⟩
  have hk : S.knotsU = S.knotsV := by
    have h := hS
    unfold surfaceInterpolation at h
    obtain ⟨_, -, h⟩ := bind_eq_ok.mp h
    obtain ⟨_, -, h⟩ := bind_eq_ok.mp h
    obtain ⟨_, -, h⟩ := bind_eq_ok.mp h
    obtain ⟨_, -, h⟩ := bind_eq_ok.mp h
    obtain ⟨_, -, h⟩ := bind_eq_ok.mp h
    dsimp only at h
    obtain ⟨_, -, h⟩ := bind_eq_ok.mp h
    obtain ⟨_, -, h⟩ := bind_eq_ok.mp h
    rw [hpar, ok_bind] at h
    dsimp only at h
    unfold surfaceInterpolationWith at h
    obtain ⟨k1, e1, h⟩ := bind_eq_ok.mp h
    rw [e1, ok_bind] at h
    obtain ⟨_, -, h⟩ := bind_eq_ok.mp h
    obtain ⟨_, -, h⟩ := bind_eq_ok.mp h
    obtain ⟨_, -, h⟩ := bind_eq_ok.mp h
    obtain ⟨_, -, h⟩ := bind_eq_ok.mp h
    have := Res.ok.inj h
    subst this
    rfl
  have lo : ∀ k, k ≤ n → 0 ≤ nth uk k := fun k hk => by rw [← cU.first]; exact cU.mono 0 k (by omega) hk
  have hi1 : ∀ k, k ≤ n → nth uk k ≤ 1 := fun k hk => by rw [← cU.last]; exact cU.mono k n hk (le_refl _)
  rw [unit_point w he cU cV hw (lo i hi) (hi1 i hi) (lo j hj) (hi1 j hj), ← heq i j hi hj, hk]

/-- C113 refuted: a grid with at least three rows and three columns, and not as many rows as columns, is never interpolated: the parameters of
the rows are read with column numbers and those of the columns with row numbers, and one of these reads is outside its vector, whatever
the degrees and the solver. -/
theorem C113_rectangular_violated {solve : List (List ℝ) → List (List ℝ) → Res (List (List ℝ))} {pts : List (List (XYZ ℝ))} {rows cols : ℕ} {dU dV : ℤ}
    (hpts : IsMat pts rows cols) (hr : 3 ≤ rows) (hc : 3 ≤ cols) (hne : rows ≠ cols)
    (hcols : goodColumns pts rows cols ≠ ∅) (hrows : goodRows pts rows cols ≠ ∅) (S : NurbsSurface ℝ) :
    surfaceInterpolation solve pts dU dV ≠ ok S := by
  intro hS
  obtain ⟨b, uk, vl, hpar, hb, hgood⟩ := C105_mesh hpts (by omega) (by omega)
  have hb := hb.mpr ⟨hcols, hrows⟩
  subst hb
  obtain ⟨l1, l2, -⟩ := hgood rfl
  unfold surfaceInterpolation at hS
  obtain ⟨_, -, hS⟩ := bind_eq_ok.mp hS
  rw [vget_row (i := 0) (k := 0) rfl (by rw [hpts.1]; omega), ok_bind, hpts.2 0 (by omega), hpts.1] at hS
  obtain ⟨_, -, hS⟩ := bind_eq_ok.mp hS
  obtain ⟨_, -, hS⟩ := bind_eq_ok.mp hS
  obtain ⟨_, -, hS⟩ := bind_eq_ok.mp hS
  dsimp only at hS
  obtain ⟨_, -, hS⟩ := bind_eq_ok.mp hS
  obtain ⟨_, -, hS⟩ := bind_eq_ok.mp hS
  rw [hpar, ok_bind] at hS
  dsimp only at hS
  unfold surfaceInterpolationWith at hS
  obtain ⟨kU, -, hS⟩ := bind_eq_ok.mp hS
  obtain ⟨kV, -, hS⟩ := bind_eq_ok.mp hS
  obtain ⟨A, hA, hS⟩ := bind_eq_ok.mp hS
  unfold surfaceSystem at hA
  dsimp only at hA
  have key : ∀ i j : ℕ, i < rows → j < cols → ¬ (((i : ℤ) = 0 ∨ (i : ℤ) = (rows : ℤ) - 1) ∧ ((j : ℤ) = 0 ∨ (j : ℤ) = (cols : ℤ) - 1)) → j < rows ∧ i < cols := by
    intro i j hi hj hn
    obtain ⟨A1, A2, h1⟩ := forI_round rows 0 _ _ (by omega) hA (i : ℤ) (by omega) (by omega)
    obtain ⟨A3, A4, h2⟩ := forI_round cols 0 _ _ (by omega) h1 (j : ℤ) (by omega) (by omega)
    rw [if_neg hn] at h2
    obtain ⟨u, h3, h2⟩ := bind_eq_ok.mp h2
    obtain ⟨v, h4, h2⟩ := bind_eq_ok.mp h2
    constructor
    · by_contra h
      rw [vget_ge (by omega)] at h3
      cases h3
    · by_contra h
      rw [vget_ge (by omega)] at h4
      cases h4
  rcases Nat.lt_or_gt_of_ne hne with h | h
  · have := (key 1 rows (by omega) h (by omega)).1
    omega
  · have := (key cols 1 h (by omega) (by omega)).2
    omega

/-- the solver that returns a solution whenever there is one -/
noncomputable def anySolve (A B : List (List ℝ)) : Res (List (List ℝ)) :=
  open Classical in
  if h : ∃ X, IsMat X A.length (row B 0).length ∧ ∀ i j, i < A.length → j < (row B 0).length → ∑ k ∈ range A.length, ent A i k * ent X k j = ent B i j then ok h.choose
  else invalidArg

theorem anySolve_sound : SoundSolver anySolve := by
  intro s d A B X hA hB h
  unfold anySolve at h
  split at h
  · rename_i hex
    obtain ⟨h1, h2⟩ := hex.choose_spec
    rw [Res.ok.inj h] at h1 h2
    rcases Nat.eq_zero_or_pos s with h0 | h0
    · subst h0
      rw [hA.1] at h1
      exact ⟨⟨h1.1, fun i hi => by omega⟩, fun i j hi => by omega⟩
    · rw [hA.1, hB.2 0 h0] at h1 h2
      exact ⟨h1, h2⟩
  · cases h

theorem anySolve_of {A B X : List (List ℝ)} {s d : ℕ} (hs : 0 < s) (hA : IsMat A s s) (hB : IsMat B s d) (hX : IsMat X s d)
    (h : ∀ i j, i < s → j < d → ∑ k ∈ range s, ent A i k * ent X k j = ent B i j) : ∃ Y, anySolve A B = ok Y := by
  unfold anySolve
  rw [dif_pos]
  · exact ⟨_, rfl⟩
  · rw [hA.1, hB.2 0 hs]
    exact ⟨X, hX, h⟩

/-- a surface is returned when the system has a solution -/
theorem surfaceWith_exists {pts : List (List (XYZ ℝ))} {kU kV uk vl : List ℝ} {p q a b : ℕ}
    (hp : IsMat pts (a + 1) (b + 1)) (ekU : averageKnotVector p uk = ok kU) (ekV : averageKnotVector q vl = ok kV)
    (hU : Colloc kU uk p b) (hV : Colloc kV vl q a) {X : List (List ℝ)} (hX : IsMat X ((a + 1) * (b + 1)) 3)
    (h : ∀ i j d, i ≤ a → j ≤ b → d < 3 → ∑ r ∈ range (a + 1), ∑ c ∈ range (b + 1),
        (N (nth kV) (nth kV (a + 1)) q r (nth vl i) * N (nth kU) (nth kU (b + 1)) p c (nth uk j)) * ent X (r * (b + 1) + c) d =
        nth [(ent pts i j).x, (ent pts i j).y, (ent pts i j).z] d) :
    ∃ S, surfaceInterpolationWith anySolve pts (a + 1) (b + 1) p q uk vl = ok S := by
  unfold surfaceInterpolationWith
  obtain ⟨A, eA, a1, a2⟩ := surfaceSystem_run hU hV
  obtain ⟨B, eB, b1, b2⟩ := surfaceRight_run hp
  rw [ekU, ok_bind, ekV, ok_bind, eA, ok_bind, eB, ok_bind]
  obtain ⟨Y, hY⟩ := anySolve_of (Nat.mul_pos (by omega) (by omega)) a1 b1 hX (by
    intro k d hk hd
    obtain ⟨i, j, hi, hj, rfl⟩ : ∃ i j, i ≤ a ∧ j ≤ b ∧ k = i * (b + 1) + j := by
      refine ⟨k / (b + 1), k % (b + 1), ?_, ?_, ?_⟩
      · have := Nat.div_lt_of_lt_mul (by rw [mul_comm] at hk; exact hk : k < (b + 1) * (a + 1)); omega
      · have := Nat.mod_lt k (by omega : b + 1 > 0); omega
      · rw [mul_comm]; exact (Nat.div_add_mod k (b + 1)).symm
    rw [sum_idx, ent, b2 i j hi hj, ← h i j d hi hj hd]
    refine sum_congr rfl fun r hr => sum_congr rfl fun c hc => ?_
    have hr := mem_range.mp hr
    have hc := mem_range.mp hc
    rw [a2 i j r c hi hj (by omega) (by omega)])
  obtain ⟨y1, -⟩ := anySolve_sound _ _ _ _ _ a1 b1 hY
  obtain ⟨cps, ec, -⟩ := surfaceCollect_run y1
  rw [hY, ok_bind, ec, ok_bind]
  exact ⟨_, rfl⟩

/-! ### A square grid with different spacings -/

/-- nine points of the plane: `x = 0, 1, 2` along the rows, `y = 0, 1, c` along the columns -/
def exGrid (c : ℝ) : List (List (XYZ ℝ)) := [[⟨0, 0, 0⟩, ⟨0, 1, 0⟩, ⟨0, c, 0⟩], [⟨1, 0, 0⟩, ⟨1, 1, 0⟩, ⟨1, c, 0⟩], [⟨2, 0, 0⟩, ⟨2, 1, 0⟩, ⟨2, c, 0⟩]]

theorem exGrid_mat (c : ℝ) : IsMat (exGrid c) 3 3 := by
  refine ⟨rfl, ?_⟩
  intro i hi
  interval_cases i <;> rfl

theorem exGrid_columns (c : ℝ) : goodColumns (exGrid c) 3 3 = {0, 1, 2} ∧ (∀ l, l < 3 → columnLength (exGrid c) l 1 = 1) ∧ ∀ l, l < 3 → columnLength (exGrid c) l 2 = 2 := by
  have c1 : ∀ l, l < 3 → columnLength (exGrid c) l 1 = 1 := by
    intro l hl
    interval_cases l <;> simp only [columnLength, sum_range_succ, exGrid, ent, row, nth, XYZ.distance, sum_range_zero] <;> norm_num
  have c2 : ∀ l, l < 3 → columnLength (exGrid c) l 2 = 2 := by
    intro l hl
    interval_cases l <;> simp only [columnLength, sum_range_succ, exGrid, ent, row, nth, XYZ.distance, sum_range_zero] <;> norm_num
  refine ⟨?_, c1, c2⟩
  unfold goodColumns
  ext l
  rw [mem_filter, mem_range]
  simp only [mem_insert, mem_singleton]
  constructor
  · rintro ⟨h, -⟩; omega
  · intro h
    refine ⟨by omega, ?_⟩
    rw [c2 l (by omega)]; unfold Long; norm_num

theorem exGrid_rows {c : ℝ} (hc : 1 < c) : goodRows (exGrid c) 3 3 = {0, 1, 2} ∧ (∀ l, l < 3 → rowLength (exGrid c) l 1 = 1) ∧ ∀ l, l < 3 → rowLength (exGrid c) l 2 = c := by
  have s9 : Real.sqrt ((1 - c) ^ 2) = c - 1 := by rw [← neg_sub c 1, neg_sq]; exact Real.sqrt_sq (by linarith)
  have c1 : ∀ l, l < 3 → rowLength (exGrid c) l 1 = 1 := by
    intro l hl
    interval_cases l <;> simp only [rowLength, sum_range_succ, exGrid, ent, row, nth, XYZ.distance, sum_range_zero] <;> norm_num
  have c2 : ∀ l, l < 3 → rowLength (exGrid c) l 2 = c := by
    intro l hl
    interval_cases l <;> simp only [rowLength, sum_range_succ, exGrid, ent, row, nth, XYZ.distance, sum_range_zero] <;> simp [← sq, s9]
  refine ⟨?_, c1, c2⟩
  unfold goodRows
  ext l
  rw [mem_filter, mem_range]
  simp only [mem_insert, mem_singleton]
  constructor
  · rintro ⟨h, -⟩; omega
  · intro h
    refine ⟨by omega, ?_⟩
    rw [c2 l (by omega), Long]
    linarith

/-- the parameters of the grid: those of the rows, then those of the columns -/
theorem exGrid_params {c : ℝ} (hc : 1 < c) : getSurfaceMeshParameterization (exGrid c) [] [] = ok (true, [0, 1/2, 1], [0, 1/c, 1]) := by
  obtain ⟨g1, g2, g3⟩ := exGrid_columns c
  obtain ⟨r1, r2, r3⟩ := exGrid_rows hc
  obtain ⟨b, U, V, e, h1, h2⟩ := C105_mesh (exGrid_mat c) (by norm_num) (by norm_num)
  have hb : b = true := h1.mpr ⟨by rw [g1]; simp, by rw [r1]; simp⟩
  subst hb
  obtain ⟨l1, l2, u, v, u0, u1, v0, v1, -⟩ := h2 rfl
  have eu : nth U 1 = 1 / 2 := by
    rw [u 1 (by norm_num), g1]
    norm_num [g2, g3]
  have ev : nth V 1 = 1 / c := by
    rw [v 1 (by norm_num), r1]
    norm_num [r2, r3]
    ring
  rw [e]
  congr 3
  · refine ext_nth (by rw [l1]; rfl) fun i hi => ?_
    rw [l1] at hi
    interval_cases i
    · rw [u0]; rfl
    · rw [eu]; rfl
    · rw [u1]; rfl
  · refine ext_nth (by rw [l2]; rfl) fun i hi => ?_
    rw [l2] at hi
    interval_cases i
    · rw [v0]; rfl
    · rw [ev]; rfl
    · rw [v1]; rfl

/-- the quadratic basis functions without interior knots -/
theorem quad_basis {t : ℝ} (h0 : 0 ≤ t) (h1 : t < 1) : N (nth [0, 0, 0, 1, 1, 1]) 1 2 0 t = (1 - t) ^ 2 ∧
    N (nth [0, 0, 0, 1, 1, 1]) 1 2 1 t = 2 * t * (1 - t) ∧ N (nth [0, 0, 0, 1, 1, 1]) 1 2 2 t = t ^ 2 := by
  refine ⟨?_, ?_, ?_⟩ <;> simp [N, nth, h0, h1, h1.ne] <;> ring

/-- the knots of a quadratic with three parameters -/
theorem quad_knots {x : ℝ} (h0 : 0 ≤ x) (h1 : x ≤ 1) : averageKnotVector 2 [0, x, 1] = ok [0, 0, 0, 1, 1, 1] := by
  obtain ⟨k, ek, a1, a2, a3, -, -⟩ := C46_average_partial (params := ([0, x, 1] : List ℝ)) (p := 2) (n := 2) (by norm_num) (by norm_num) rfl rfl rfl
    (by intro i j h h'; have : i ≤ 2 := by omega
        interval_cases j <;> interval_cases i <;> norm_num [nth, h0, h1])
  have : k = [0, 0, 0, 1, 1, 1] := by
    refine ext_nth (by rw [a1]; rfl) fun i hi => ?_
    rw [a1] at hi
    by_cases h : i ≤ 2
    · rw [a2 i h]; interval_cases i <;> rfl
    · rw [a3 i (by omega) (by omega)]
      interval_cases i
      · rfl
      · rfl
      · rfl
  rw [← this]
  exact ek

theorem quad_colloc {x : ℝ} (h0 : 0 ≤ x) (h1 : x ≤ 1) : Colloc ([0, 0, 0, 1, 1, 1] : List ℝ) [0, x, 1] 2 2 := by
  refine ⟨by norm_num, by norm_num, le_refl _, rfl, rfl, ?_, ?_, ?_, ?_, rfl, rfl, ?_⟩
  · intro i hi; interval_cases i <;> rfl
  · intro i hi hi'; interval_cases i <;> rfl
  · exact isValidKnotVector_nth.mp (by simp [isValidKnotVector])
  · constructor <;> norm_num [nth, doubleEps]
  · intro i j h h'
    have : i ≤ 2 := by omega
    interval_cases j <;> interval_cases i <;> norm_num [nth, h0, h1]

theorem exGrid_knots {solve : List (List ℝ) → List (List ℝ) → Res (List (List ℝ))} {S : NurbsSurface ℝ} {c : ℝ} (hc : 1 < c)
    (hS : surfaceInterpolation solve (exGrid c) 2 2 = ok S) : S.knotsU = [0, 0, 0, 1, 1, 1] ∧ S.knotsV = [0, 0, 0, 1, 1, 1] := by
  have c0 : 0 < c := by linarith
  have i0 : (0 : ℝ) ≤ 1 / c := by positivity
  have i1 : 1 / c ≤ 1 := by rw [div_le_one c0]; exact hc.le
  have h := hS
  unfold surfaceInterpolation at h
  obtain ⟨_, -, h⟩ := bind_eq_ok.mp h
  obtain ⟨_, -, h⟩ := bind_eq_ok.mp h
  obtain ⟨_, -, h⟩ := bind_eq_ok.mp h
  obtain ⟨_, -, h⟩ := bind_eq_ok.mp h
  obtain ⟨_, -, h⟩ := bind_eq_ok.mp h
  dsimp only at h
  obtain ⟨_, -, h⟩ := bind_eq_ok.mp h
  obtain ⟨_, -, h⟩ := bind_eq_ok.mp h
  rw [exGrid_params hc, ok_bind] at h
  dsimp only at h
  unfold surfaceInterpolationWith at h
  rw [quad_knots (by norm_num) (by norm_num), ok_bind, quad_knots i0 i1, ok_bind] at h
  obtain ⟨_, -, h⟩ := bind_eq_ok.mp h
  obtain ⟨_, -, h⟩ := bind_eq_ok.mp h
  obtain ⟨_, -, h⟩ := bind_eq_ok.mp h
  obtain ⟨_, -, h⟩ := bind_eq_ok.mp h
  have := Res.ok.inj h
  subst this
  exact ⟨rfl, rfl⟩

/-- C113 refuted for square grids too: nine points with different spacings in the two directions. Whatever sound solver is used, the surface
returned for degrees 2 and 2 passes through `(0, 1/4, 0)` at the parameters `(u_0, v_1) = (0, 1/4)` of the point `(0, 1, 0)`. -/
theorem C113_swapped_violated {solve : List (List ℝ) → List (List ℝ) → Res (List (List ℝ))} (hsolve : SoundSolver solve) {S : NurbsSurface ℝ}
    (hS : surfaceInterpolation solve (exGrid 4) 2 2 = ok S) :
    getSurfaceMeshParameterization (exGrid 4) [] [] = ok (true, [0, 1/2, 1], [0, 1/4, 1]) ∧ ent (exGrid 4) 0 1 = ⟨0, 1, 0⟩ ∧
      NurbsSurface.pointOnSurface S 0 (1 / 4) = ok ⟨0, 1 / 4, 0⟩ := by
  refine ⟨(exGrid_params (c := 4) (by norm_num)), rfl, ?_⟩
  have hk := exGrid_knots (c := 4) (by norm_num) hS
  have hEnds : EndsSeparated (nth ([0, 0, 0, 1, 1, 1] : List ℝ)) 2 2 := by
    constructor <;> norm_num [nth, doubleEps]
  have he : EndsSeparatedS S 2 2 2 2 := ⟨by rw [hk.1]; exact hEnds, by rw [hk.2]; exact hEnds⟩
  obtain ⟨cU, cV, w, hw, heq⟩ := square_of_ok (p := 2) (q := 2) (n := 2) hsolve (exGrid_mat 4) (by norm_num) (by norm_num) hS he (exGrid_params (c := 4) (by norm_num))
  rw [unit_point w he cU cV hw (le_refl _) (by norm_num) (by norm_num) (by norm_num)]
  have cor := cV.corner.1
  have q0 := quad_basis (t := 0) (le_refl _) (by norm_num)
  have q1 := quad_basis (t := 1 / 2) (by norm_num) (by norm_num)
  have q2 := quad_basis (t := 1 / 4) (by norm_num) (by norm_num)
  have cor' := cU.corner.2
  have e0 := heq 0 0 (by norm_num) (by norm_num)
  have e1 := heq 0 1 (by norm_num) (by norm_num)
  have e2 := heq 0 2 (by norm_num) (by norm_num)
  have r2 : ∀ j, j ≤ 2 → N (nth [0, 0, 0, 1, 1, 1]) 1 2 j (1 : ℝ) = if j = 2 then 1 else 0 := by
    intro j hj
    have := cor' j hj
    rwa [hk.1] at this
  have r20 := r2 0 (by norm_num)
  have r21 := r2 1 (by norm_num)
  have r22 := r2 2 (by norm_num)
  have n3 : nth ([0, 0, 0, 1, 1, 1] : List ℝ) (2 + 1) = 1 := rfl
  have p0 : nth ([0, 1/2, 1] : List ℝ) 0 = 0 := rfl
  have p1 : nth ([0, 1/2, 1] : List ℝ) 1 = 1/2 := rfl
  have p2 : nth ([0, 1/2, 1] : List ℝ) 2 = 1 := rfl
  have p3 : nth ([0, 1/4, 1] : List ℝ) 0 = 0 := rfl
  simp only [hk.1, hk.2, n3, p0, p1, p2, p3, sum_range_succ, sum_range_zero, zero_add, q0.1, q0.2.1, q0.2.2, q1.1, q1.2.1, q1.2.2, q2.1, q2.2.1, q2.2.2, r20, r21, r22] at e0 e1 e2 ⊢
  have x0 : (ent S.cps 0 0).raw = ⟨0, 0, 0⟩ := by
    have : ent (exGrid 4) 0 0 = ⟨0, 0, 0⟩ := rfl
    rw [this] at e0
    rw [← e0]
    norm_num
  have x2 : (ent S.cps 0 2).raw = ⟨0, 4, 0⟩ := by
    have : ent (exGrid 4) 0 2 = ⟨0, 4, 0⟩ := rfl
    rw [this] at e2
    rw [← e2]
    norm_num
  have x1 : (ent S.cps 0 1).raw = ⟨0, 0, 0⟩ := by
    have : ent (exGrid 4) 0 1 = ⟨0, 1, 0⟩ := rfl
    rw [this, x0, x2] at e1
    have hx := congrArg XYZ.x e1
    have hy := congrArg XYZ.y e1
    have hz := congrArg XYZ.z e1
    norm_num at hx hy hz
    ext
    · simpa using hx
    · simpa using hy
    · simpa using hz
  rw [x0, x1, x2]
  norm_num
  ext <;> norm_num

/-- the grids are interpolated with quadratics: there is a solution of the system -/
theorem exGrid_ok {c : ℝ} (hc : 1 < c) : ∃ S, surfaceInterpolation anySolve (exGrid c) 2 2 = ok S := by
  have c0 : 0 < c := by linarith
  have i0 : (0 : ℝ) ≤ 1 / c := by positivity
  have i1 : 1 / c < 1 := by rw [div_lt_one c0]; exact hc
  unfold surfaceInterpolation
  rw [validate_of (by simp [exGrid]), ok_bind, vget_row (i := 0) (k := 0) rfl (by rw [(exGrid_mat c).1]; omega), ok_bind, (exGrid_mat c).2 0 (by omega),
    (exGrid_mat c).1, validate_of (by simp), ok_bind, validate_of (by simp [nurbsMaxDegree]), ok_bind, ok_bind]
  dsimp only
  rw [validate_of (by simp), ok_bind, ok_bind, exGrid_params hc, ok_bind]
  dsimp only
  obtain ⟨x, hx⟩ : ∃ x : ℝ, 2 * (1 / c) * (1 - 1 / c) * x + (1 / c) ^ 2 * 2 = 1 := by
    refine ⟨(1 - (1 / c) ^ 2 * 2) / (2 * (1 / c) * (1 - 1 / c)), ?_⟩
    have : (2 * (1 / c) * (1 - 1 / c)) ≠ 0 := by
      exact mul_ne_zero (mul_ne_zero two_ne_zero (one_div_ne_zero c0.ne')) (by linarith)
    rw [mul_div_cancel₀ _ this]
    ring
  obtain ⟨y, hy⟩ : ∃ y : ℝ, y = 2 * (1 - 1 / 4 * c) := ⟨_, rfl⟩
  obtain ⟨v, hv⟩ : ∃ v : ℝ, 1 / c = v := ⟨_, rfl⟩
  rw [hv] at hx i0 i1 ⊢
  refine surfaceWith_exists (a := 2) (b := 2) (p := 2) (q := 2) (exGrid_mat c) (quad_knots (by norm_num) (by norm_num)) (quad_knots i0 i1.le)
    (quad_colloc (by norm_num) (by norm_num)) (quad_colloc i0 i1.le)
    (X := [[0, 0, 0], [0, y, 0], [0, c, 0], [x, 0, 0], [x, y, 0], [x, c, 0], [2, 0, 0], [2, y, 0], [2, c, 0]])
    ⟨rfl, fun i hi => by have hi : i < 9 := hi; interval_cases i <;> rfl⟩ ?_
  have cor := (quad_colloc (x := 1 / 2) (by norm_num) (by norm_num)).corner.2
  have q0 := quad_basis (t := 0) (le_refl _) (by norm_num)
  have q1 := quad_basis (t := 1 / 2) (by norm_num) (by norm_num)
  have q2 := quad_basis (t := v) i0 i1
  have r20 := cor 0 (by norm_num)
  have r21 := cor 1 (by norm_num)
  have r22 := cor 2 (by norm_num)
  have n3 : nth ([0, 0, 0, 1, 1, 1] : List ℝ) (2 + 1) = 1 := rfl
  have p0 : ∀ x : ℝ, nth ([0, x, 1] : List ℝ) 0 = 0 := fun _ => rfl
  have p1 : ∀ x : ℝ, nth ([0, x, 1] : List ℝ) 1 = x := fun _ => rfl
  have p2 : ∀ x : ℝ, nth ([0, x, 1] : List ℝ) 2 = 1 := fun _ => rfl
  simp only [n3, p2] at r20 r21 r22
  intro i j d hi hj hd
  interval_cases i <;> interval_cases j <;>
    simp only [n3, p0, p1, p2, sum_range_succ, sum_range_zero, zero_add, q0.1, q0.2.1, q0.2.2, q1.1, q1.2.1, q1.2.2, q2.1, q2.2.1, q2.2.2, r20, r21, r22] <;>
    interval_cases d <;> simp [ent, row, nth, exGrid, hy] <;> first | done | ring1 | linear_combination hx

/-- C113_symmetric_partial and C113_swapped_violated are not vacuous: a sound solver, an equally spaced grid with equal parameters in both directions,
and the grid of the refutation; both are interpolated. -/
example : SoundSolver anySolve ∧
    (∃ S, surfaceInterpolation anySolve (exGrid 2) 2 2 = ok S ∧ getSurfaceMeshParameterization (exGrid 2) [] [] = ok (true, [0, 1/2, 1], [0, 1/2, 1]) ∧
      EndsSeparatedS S 2 2 2 2) ∧
    ∃ S, surfaceInterpolation anySolve (exGrid 4) 2 2 = ok S := by
  refine ⟨anySolve_sound, ?_, exGrid_ok (by norm_num)⟩
  obtain ⟨S, hS⟩ := exGrid_ok (c := 2) (by norm_num)
  refine ⟨S, hS, exGrid_params (by norm_num), ?_⟩
  obtain ⟨k1, k2⟩ := exGrid_knots (c := 2) (by norm_num) hS
  have e := (quad_colloc (x := 0) (le_refl _) (by norm_num)).ends
  exact ⟨by rw [k1]; exact e, by rw [k2]; exact e⟩

/-- C113_rectangular_violated is not vacuous: a grid with three rows and four columns -/
example : let pts : List (List (XYZ ℝ)) := (exGrid 4).map fun r => r ++ [⟨0, 5, 0⟩]
    IsMat pts 3 4 ∧ goodColumns pts 3 4 ≠ ∅ ∧ goodRows pts 3 4 ≠ ∅ := by
  intro pts
  refine ⟨⟨rfl, fun i hi => by interval_cases i <;> rfl⟩, ?_, ?_⟩
  · rw [Ne, ← not_nonempty_iff_eq_empty, not_not]
    refine ⟨0, ?_⟩
    unfold goodColumns
    rw [mem_filter]
    refine ⟨by decide, ?_⟩
    have c : columnLength pts 0 2 = 2 := by
      simp only [columnLength, sum_range_succ, pts, exGrid, List.map, List.cons_append, List.nil_append, ent, row, nth, XYZ.distance, sum_range_zero]; norm_num
    rw [c]; unfold Long; norm_num
  · rw [Ne, ← not_nonempty_iff_eq_empty, not_not]
    refine ⟨0, ?_⟩
    unfold goodRows
    rw [mem_filter]
    refine ⟨by decide, ?_⟩
    have s9 : Real.sqrt 9 = 3 := by rw [show (9 : ℝ) = 3 ^ 2 by norm_num]; exact Real.sqrt_sq (by norm_num)
    have c : rowLength pts 0 3 = 5 := by
      simp only [rowLength, sum_range_succ, pts, exGrid, List.map, List.cons_append, List.nil_append, ent, row, nth, XYZ.distance, sum_range_zero]; norm_num [s9]
    rw [c]; unfold Long; norm_num

end LNLib.Props
