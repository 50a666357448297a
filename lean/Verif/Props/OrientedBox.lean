import Verif.Model.OrientedBox
import Verif.Props.Surface
import Verif.Props.DiffGeom
import Mathlib.Analysis.Matrix.Spectrum

/-!
# C122: the oriented bounding box of a surface
(Geometry/Surface/NurbsSurface.cpp, Mathematics/Utils/MathUtils.cpp)
-/
set_option linter.unusedSectionVars false

namespace LNLib.Spec
open Finset

variable {K : Type} [Field K] [LinearOrder K]

/-- three mutually orthogonal unit vectors -/
def OrthonormalAxes (A : Fin 3 → XYZ K) : Prop := ∀ i j, (A i).dot (A j) = if i = j then 1 else 0

/-- the point lies in the box with the given centre, axes and half extents -/
def InOrientedBox (b : OrientedBox K) (x : XYZ K) : Prop := ∀ i, |(x - b.center).dot (b.axes i)| ≤ b.half i

/-- the arithmetic mean of a list of points -/
def meanPoint (l : List (XYZ K)) : XYZ K := (l.length : K)⁻¹ • l.sum

/-- `eigen` returns, for every symmetric matrix, a matrix whose columns are orthonormal eigenvectors of it -/
def SoundEigen (eigen : (Fin 3 → Fin 3 → ℝ) → Fin 3 → Fin 3 → ℝ) : Prop :=
  ∀ M : Fin 3 → Fin 3 → ℝ, (∀ a b, M a b = M b a) →
    (∀ i j, ∑ k, eigen M k i * eigen M k j = if i = j then 1 else 0) ∧
    ∃ l : Fin 3 → ℝ, ∀ i a, ∑ b, M a b * eigen M b i = l i * eigen M a i

end LNLib.Spec

namespace LNLib.Props
open LNLib Res Spec Finset

variable {K : Type} [Field K] [LinearOrder K] [IsStrictOrderedRing K]

/-- The spectral theorem: a sound eigenvector solver exists. -/
theorem soundEigen_exists : ∃ e, SoundEigen e := by
  classical
  have h : ∀ M : Fin 3 → Fin 3 → ℝ, ∃ V : Fin 3 → Fin 3 → ℝ, (∀ a b, M a b = M b a) →
      (∀ i j, ∑ k, V k i * V k j = if i = j then 1 else 0) ∧ ∃ l : Fin 3 → ℝ, ∀ i a, ∑ b, M a b * V b i = l i * V a i := by
    intro M
    by_cases hs : ∀ a b, M a b = M b a
    · have hA : (Matrix.of M).IsHermitian := by
        ext a b
        simp [Matrix.conjTranspose_apply, hs b a]
      refine ⟨fun a j => hA.eigenvectorBasis j a, fun _ => ⟨fun i j => ?_, hA.eigenvalues, fun i a => ?_⟩⟩
      · have := (orthonormal_iff_ite.mp hA.eigenvectorBasis.orthonormal) j i
        rw [PiLp.inner_apply] at this
        simp only [RCLike.inner_apply, conj_trivial] at this
        rw [this]
        simp [eq_comm]
      · have := congrFun (hA.mulVec_eigenvectorBasis i) a
        simpa [Matrix.mulVec, dotProduct] using this
    · exact ⟨fun _ _ => 0, fun h => absurd h hs⟩
  choose e he using h
  exact ⟨e, he⟩

/-! ### the run of the program -/

theorem foldl_centroid (l : List (XYZW K)) (a : XYZ K) (k : ℤ) :
    l.foldl (fun (s : XYZ K × ℤ) (q : XYZW K) => (s.1 + q.toXYZ, s.2 + 1)) (a, k) = (a + (l.map XYZW.toXYZ).sum, k + l.length) := by
  induction l generalizing a k with
  | nil => simp
  | cons x l ih =>
    rw [List.foldl_cons, ih, List.map_cons, List.sum_cons, add_assoc]
    simp
    ring

theorem foldl_points (l : List (XYZW K)) (a : List (XYZ K)) :
    l.foldl (fun (l : List (XYZ K)) (q : XYZW K) => l ++ [q.toXYZ]) a = a ++ l.map XYZW.toXYZ := by
  induction l generalizing a with
  | nil => simp
  | cons x l ih => rw [List.foldl_cons, ih]; simp

/-- the two loops over minima and maxima of a list of numbers -/
theorem foldl_extent {ι : Type} (f : ι → Fin 3 → K) (l : List ι) (lo hi : Fin 3 → K) (i : Fin 3) :
    let r := l.foldl (fun (s : (Fin 3 → K) × (Fin 3 → K)) q => ((fun i => min (s.1 i) (f q i)), (fun i => max (s.2 i) (f q i)))) (lo, hi)
    (r.1 i ≤ lo i ∧ hi i ≤ r.2 i ∧ ∀ q ∈ l, r.1 i ≤ f q i ∧ f q i ≤ r.2 i) ∧
    ((r.1 i = lo i ∨ ∃ q ∈ l, r.1 i = f q i) ∧ (r.2 i = hi i ∨ ∃ q ∈ l, r.2 i = f q i)) := by
  induction l generalizing lo hi with
  | nil => simp
  | cons x l ih =>
    intro r
    obtain ⟨⟨h1, h2, h3⟩, h4, h5⟩ := ih (fun i => min (lo i) (f x i)) (fun i => max (hi i) (f x i))
    have hr : r = l.foldl (fun (s : (Fin 3 → K) × (Fin 3 → K)) q => ((fun i => min (s.1 i) (f q i)), (fun i => max (s.2 i) (f q i))))
      ((fun i => min (lo i) (f x i)), (fun i => max (hi i) (f x i))) := rfl
    rw [← hr] at h1 h2 h3 h4 h5
    refine ⟨⟨h1.trans (min_le_left _ _), (le_max_left _ _).trans h2, ?_⟩, ?_, ?_⟩
    · intro q hq
      rcases List.mem_cons.mp hq with rfl | hq
      · exact ⟨h1.trans (min_le_right _ _), (le_max_right _ _).trans h2⟩
      · exact h3 q hq
    · rcases h4 with h | ⟨q, hq, h⟩
      · rcases min_choice (lo i) (f x i) with e | e
        · exact Or.inl (h.trans e)
        · exact Or.inr ⟨x, by simp, h.trans e⟩
      · exact Or.inr ⟨q, by simp [hq], h⟩
    · rcases h5 with h | ⟨q, hq, h⟩
      · rcases max_choice (hi i) (f x i) with e | e
        · exact Or.inl (h.trans e)
        · exact Or.inr ⟨x, by simp, h.trans e⟩
      · exact Or.inr ⟨q, by simp [hq], h⟩

theorem covariance_eq (pts : List (XYZ K)) (c : XYZ K) (a b : Fin 3) :
    covariance pts c a b = (pts.map fun p => (p.coord a - c.coord a) * (p.coord b - c.coord b)).sum / (pts.length : K) := by
  have h : ∀ (l : List (XYZ K)) (S : Fin 3 → Fin 3 → K),
      l.foldl (fun (S : Fin 3 → Fin 3 → K) pt => fun a b => S a b + (pt.coord a - c.coord a) * (pt.coord b - c.coord b)) S a b =
        S a b + (l.map fun p => (p.coord a - c.coord a) * (p.coord b - c.coord b)).sum := by
    intro l
    induction l with
    | nil => simp
    | cons x l ih => intro S; rw [List.foldl_cons, ih, List.map_cons, List.sum_cons, add_assoc]
  unfold covariance
  simp only [h, zero_add]

/-- The box as computed, in terms of the projected control points. -/
theorem orientedBox_run {eigen : (Fin 3 → Fin 3 → K) → Fin 3 → Fin 3 → K} {big : K} {c : NurbsSurface K} {pts : List (XYZ K)}
    (hpts : pts = c.cps.flatten.map XYZW.toXYZ) (h0 : 0 < c.cps.length) (h1 : 0 < (row c.cps 0).length) :
    ∃ b : OrientedBox K, NurbsSurface.orientedBox eigen big c = ok b ∧ b.axes = obbAxes eigen pts (meanPoint pts) ∧
      ∃ lo hi : Fin 3 → K, b.center = meanPoint pts + ((hi 0 + lo 0) / 2) • b.axes 0 + ((hi 1 + lo 1) / 2) • b.axes 1 + ((hi 2 + lo 2) / 2) • b.axes 2 ∧
        (∀ i, b.half i = (hi i - lo i) / 2) ∧
        ∀ i, (lo i ≤ big ∧ -big ≤ hi i ∧ ∀ x ∈ pts, lo i ≤ (x - meanPoint pts).dot (b.axes i) ∧ (x - meanPoint pts).dot (b.axes i) ≤ hi i) ∧
          (lo i = big ∨ ∃ x ∈ pts, lo i = (x - meanPoint pts).dot (b.axes i)) ∧ (hi i = -big ∨ ∃ x ∈ pts, hi i = (x - meanPoint pts).dot (b.axes i)) := by
  have hne : 0 < pts.length := by
    rw [hpts, List.length_map]
    rcases hc : c.cps with _ | ⟨r, rs⟩
    · rw [hc] at h0; simp at h0
    · rw [hc] at h1
      simp [row] at h1
      simp
      omega
  have hlen : c.cps.flatten.length = pts.length := by rw [hpts, List.length_map]
  have e0 : vget c.cps 0 = ok (row c.cps 0) := vget_row (k := 0) rfl h0
  unfold NurbsSurface.orientedBox
  rw [if_neg (by omega), e0, ok_bind, if_neg (by omega)]
  simp only [← List.foldl_flatten]
  rw [foldl_centroid, foldl_points, ← hpts, zero_add, List.nil_append]
  have hk : (((0 + (c.cps.flatten.length : ℤ) : ℤ)) : K) = (pts.length : K) := by rw [hlen]; push_cast; ring
  have hv : vdiv pts.sum (((0 + (c.cps.flatten.length : ℤ) : ℤ)) : K) = ok (meanPoint pts) := by
    rw [hk]
    unfold vdiv
    rw [if_neg (by exact_mod_cast (by omega : pts.length ≠ 0))]
    rfl
  dsimp only
  rw [hv, ok_bind]
  refine ⟨_, rfl, rfl, _, _, rfl, fun i => rfl, fun i => ?_⟩
  obtain ⟨⟨a1, a2, a3⟩, a4, a5⟩ := foldl_extent (fun (q : XYZW K) i => (q.toXYZ - meanPoint pts).dot (obbAxes eigen pts (meanPoint pts) i)) c.cps.flatten
    (fun _ => big) (fun _ => -big) i
  refine ⟨⟨a1, a2, ?_⟩, ?_, ?_⟩
  · intro x hx
    rw [hpts, List.mem_map] at hx
    obtain ⟨q, hq, rfl⟩ := hx
    exact a3 q hq
  · rcases a4 with h | ⟨q, hq, h⟩
    · exact Or.inl h
    · exact Or.inr ⟨q.toXYZ, by rw [hpts]; exact List.mem_map_of_mem hq, h⟩
  · rcases a5 with h | ⟨q, hq, h⟩
    · exact Or.inl h
    · exact Or.inr ⟨q.toXYZ, by rw [hpts]; exact List.mem_map_of_mem hq, h⟩

/-! ### linear functionals of rational points -/

/-- the dot product with a fixed vector -/
def dotL (d : XYZ K) : XYZ K →ₗ[K] K where
  toFun x := x.dot d
  map_add' a b := by simp [XYZ.dot]; ring
  map_smul' k a := by simp [XYZ.dot]; ring

/-- weighted points with convex coefficients stay in every slab that contains the projected points -/
theorem rational_slab {ι : Type} {S : Finset ι} {b : ι → K} {P : ι → XYZW K} {d : XYZ K} {lo hi : K}
    (hb : ∀ i ∈ S, 0 ≤ b i) (hsum : ∑ i ∈ S, b i = 1) (hw : ∀ i ∈ S, 1 / 1000000 * (1 + (P i).w) < (P i).w)
    (hbox : ∀ i ∈ S, lo ≤ (proj (P i)).dot d ∧ (proj (P i)).dot d ≤ hi) :
    lo ≤ (∑ i ∈ S, b i • P i).toXYZ.dot d ∧ (∑ i ∈ S, b i • P i).toXYZ.dot d ≤ hi := by
  have hwpos : ∀ i ∈ S, 0 < (P i).w := fun i hi => by have := hw i hi; linarith
  set W := ∑ i ∈ S, b i * (P i).w with hW
  have hWw : (∑ i ∈ S, b i • P i).w = W := by
    have : ∀ x : XYZW K, x.w = XYZW.wL x := fun _ => rfl
    rw [this, map_sum]
    exact sum_congr rfl fun i _ => by rw [map_smul]; rfl
  have hWt : 1 / 1000000 * (1 + W) < W := by
    obtain ⟨r0, hr0, hr0pos⟩ : ∃ r ∈ S, 0 < b r := by
      by_contra hcon
      push Not at hcon
      have := Finset.sum_nonpos hcon
      linarith
    have hstrict : ∑ r ∈ S, b r * (1 / 1000000 * (1 + (P r).w)) < ∑ r ∈ S, b r * (P r).w :=
      Finset.sum_lt_sum (fun r hr => mul_le_mul_of_nonneg_left (hw r hr).le (hb r hr)) ⟨r0, hr0, mul_lt_mul_of_pos_left (hw r0 hr0) hr0pos⟩
    have e : ∑ r ∈ S, b r * (1 / 1000000 * (1 + (P r).w)) = 1 / 1000000 * (1 + W) := by
      have : ∀ r ∈ S, b r * (1 / 1000000 * (1 + (P r).w)) = 1 / 1000000 * b r + 1 / 1000000 * (b r * (P r).w) := by
        intros; ring
      rw [Finset.sum_congr rfl this, Finset.sum_add_distrib, ← Finset.mul_sum, ← Finset.mul_sum, hsum]
      ring
    rwa [e] at hstrict
  have hWpos : 0 < W := by linarith
  have hpr : ∀ i ∈ S, (proj (P i)).dot d = dotL d (P i).raw / (P i).w := by
    intro i hi
    have := (hwpos i hi).ne'
    simp only [proj, XYZ.dot, dotL, XYZW.raw, LinearMap.coe_mk, AddHom.coe_mk]
    field_simp
  have e1 : dotL d (∑ i ∈ S, b i • P i).raw = ∑ i ∈ S, b i * dotL d (P i).raw := by
    have : ∀ x : XYZW K, x.raw = XYZW.rawL x := fun _ => rfl
    rw [this, map_sum, map_sum]
    exact sum_congr rfl fun i _ => by rw [map_smul, map_smul]; rfl
  have lower : lo * W ≤ ∑ i ∈ S, b i * dotL d (P i).raw := by
    rw [hW, Finset.mul_sum]
    refine Finset.sum_le_sum fun i hi => ?_
    have := (le_div_iff₀ (hwpos i hi)).mp ((hbox i hi).1.trans_eq (hpr i hi))
    have := mul_le_mul_of_nonneg_left this (hb i hi)
    linarith
  have upper : ∑ i ∈ S, b i * dotL d (P i).raw ≤ hi * W := by
    rw [hW, Finset.mul_sum]
    refine Finset.sum_le_sum fun i hi' => ?_
    have := (div_le_iff₀ (hwpos i hi')).mp ((hpr i hi').symm.trans_le (hbox i hi').2)
    have := mul_le_mul_of_nonneg_left this (hb i hi')
    linarith
  rw [XYZW.toXYZ_eq (by rw [hWw, abs_of_pos hWpos]; exact hWt), hWw]
  have e2 : (W⁻¹ • (∑ i ∈ S, b i • P i).raw).dot d = W⁻¹ * dotL d (∑ i ∈ S, b i • P i).raw := (dotL d).map_smul _ _
  rw [e2, e1, inv_mul_eq_div]
  exact ⟨(le_div_iff₀ hWpos).mpr lower, (div_le_iff₀ hWpos).mpr upper⟩

/-- every evaluated point of a rational surface with weights above the library's zero tolerance lies in every slab
that contains the projected control points -/
theorem surface_slab {c : NurbsSurface K} {p q n m : ℕ} {u v : K} {A : Fin 3 → XYZ K} {lo hi : Fin 3 → K} (w : WellFormedS c p q n m)
    (he : EndsSeparatedS c p q n m) (d : InDomain c p q n m u v)
    (hw : ∀ row ∈ c.cps, ∀ x ∈ row, 1 / 1000000 * (1 + x.w) < x.w)
    (hbox : ∀ i, ∀ row ∈ c.cps, ∀ x ∈ row, lo i ≤ (proj x).dot (A i) ∧ (proj x).dot (A i) ≤ hi i) :
    ∃ x, NurbsSurface.pointOnSurface c u v = ok x ∧ ∀ i, lo i ≤ x.dot (A i) ∧ x.dot (A i) ≤ hi i := by
  obtain ⟨s, -, hs⟩ := getKnotSpanIndex_isSpan w.knotsU w.pn w.sortedU he.u d.u0 d.u1
  obtain ⟨s2, -, hs2⟩ := getKnotSpanIndex_isSpan w.knotsV w.qm w.sortedV he.v d.v0 d.v1
  obtain ⟨bu, su⟩ := basis_convex (wfS_monoU w) hs
  obtain ⟨bv, sv⟩ := basis_convex (wfS_monoV w) hs2
  have hmem : ∀ i ≤ n, ∀ j ≤ m, ∃ row ∈ c.cps, ent c.cps i j ∈ row := by
    intro i hi j hj
    have h1 : i < c.cps.length := by rw [w.cps.1]; omega
    have h2 : j < (row c.cps i).length := by rw [w.cps.2 i (by omega)]; omega
    refine ⟨row c.cps i, ?_, ?_⟩
    · have : row c.cps i = c.cps[i] := by simp [row, h1]
      rw [this]; exact List.getElem_mem _
    · unfold ent
      rw [nth_eq_getElem h2]; exact List.getElem_mem _
  unfold NurbsSurface.pointOnSurface
  rw [C33_eval w he d, ok_bind]
  refine ⟨_, rfl, fun i0 => ?_⟩
  unfold surfacePoint
  rw [← Finset.sum_product']
  refine rational_slab (S := range (n + 1) ×ˢ range (m + 1))
    (b := fun x => N (nth c.knotsU) (nth c.knotsU (n + 1)) p x.1 u * N (nth c.knotsV) (nth c.knotsV (m + 1)) q x.2 v)
    (P := fun x => ent c.cps x.1 x.2) ?_ ?_ ?_ ?_
  · rintro ⟨i, j⟩ hi
    simp only [mem_product, mem_range] at hi
    exact mul_nonneg (bu i (by omega)) (bv j (by omega))
  · rw [Finset.sum_product' (f := fun i j => N (nth c.knotsU) (nth c.knotsU (n + 1)) p i u * N (nth c.knotsV) (nth c.knotsV (m + 1)) q j v)]
    simp only [← Finset.mul_sum, sv, mul_one, su]
  · rintro ⟨i, j⟩ hi
    simp only [mem_product, mem_range] at hi
    obtain ⟨r, hr, hx⟩ := hmem i (by omega) j (by omega)
    exact hw r hr _ hx
  · rintro ⟨i, j⟩ hi
    simp only [mem_product, mem_range] at hi
    obtain ⟨r, hr, hx⟩ := hmem i (by omega) j (by omega)
    exact hbox i0 r hr _ hx

/-! ## C122 -/

theorem cauchy_dot {a d : XYZ ℝ} (hd : d.dot d = 1) : |a.dot d| ≤ a.length := by
  have e : (a.cross d).sqrLength + a.dot d ^ 2 = a.sqrLength * d.sqrLength := C29_lagrange a d
  have e2 : d.sqrLength = 1 := hd
  have e3 : a.length ^ 2 = a.sqrLength := length_sq a
  have e4 : 0 ≤ (a.cross d).sqrLength := by unfold XYZ.sqrLength; nlinarith [mul_self_nonneg (a.cross d).x, mul_self_nonneg (a.cross d).y, mul_self_nonneg (a.cross d).z]
  have e5 : 0 ≤ a.length := Real.sqrt_nonneg _
  apply abs_le_of_sq_le_sq _ e5
  rw [e3]
  rw [e2] at e
  linarith

theorem orthonormal_center {A : Fin 3 → XYZ K} (h : OrthonormalAxes A) (x g : XYZ K) (o : Fin 3 → K) (i : Fin 3) :
    (x - (g + o 0 • A 0 + o 1 • A 1 + o 2 • A 2)).dot (A i) = (x - g).dot (A i) - o i := by
  have h0 := h 0 i
  have h1 := h 1 i
  have h2 := h 2 i
  have e : (x - (g + o 0 • A 0 + o 1 • A 1 + o 2 • A 2)).dot (A i) =
      (x - g).dot (A i) - o 0 * (A 0).dot (A i) - o 1 * (A 1).dot (A i) - o 2 * (A 2).dot (A i) := by
    simp [XYZ.dot]; ring
  rw [e, h0, h1, h2]
  fin_cases i <;> simp

theorem cov_symm (pts : List (XYZ K)) (c : XYZ K) (a b : Fin 3) : covariance pts c a b = covariance pts c b a := by
  rw [covariance_eq, covariance_eq]
  congr 2
  apply List.map_congr_left
  intro p _
  ring

theorem axes_orthonormal {eigen : (Fin 3 → Fin 3 → ℝ) → Fin 3 → Fin 3 → ℝ} (hE : SoundEigen eigen) (pts : List (XYZ ℝ)) (g : XYZ ℝ) :
    OrthonormalAxes (obbAxes eigen pts g) := by
  intro i j
  unfold obbAxes
  split_ifs with h0 h1 h1
  · subst h1; fin_cases i <;> simp [XYZ.dot]
  · fin_cases i <;> fin_cases j <;> simp [XYZ.dot] at h1 ⊢
  · have := (hE (covariance pts g) (cov_symm pts g)).1 i j
    rw [Fin.sum_univ_three, if_pos h1] at this
    exact this
  · have := (hE (covariance pts g) (cov_symm pts g)).1 i j
    rw [Fin.sum_univ_three, if_neg h1] at this
    exact this

/-- What the theorems of C122 assume: a non-empty net with weights above the library's zero tolerance, a sound
eigenvector solver, and no overflow (no projected control point is farther from their mean than the largest
`double`, `big`). -/
structure BoxInput (eigen : (Fin 3 → Fin 3 → ℝ) → Fin 3 → Fin 3 → ℝ) (big : ℝ) (c : NurbsSurface ℝ) : Prop where
  rows : 0 < c.cps.length
  cols : 0 < (row c.cps 0).length
  weights : ∀ row ∈ c.cps, ∀ x ∈ row, 1 / 1000000 * (1 + x.w) < x.w
  solver : SoundEigen eigen
  finite : ∀ x ∈ c.cps.flatten.map proj, (x - meanPoint (c.cps.flatten.map proj)).length ≤ big

theorem flatten_proj {c : NurbsSurface K} (h : ∀ row ∈ c.cps, ∀ x ∈ row, 1 / 1000000 * (1 + x.w) < x.w) :
    c.cps.flatten.map proj = c.cps.flatten.map XYZW.toXYZ := by
  apply List.map_congr_left
  intro q hq
  rw [List.mem_flatten] at hq
  obtain ⟨r, hr, hx⟩ := hq
  exact (toXYZ_proj (h r hr q hx)).symm

/-- The box in terms of the extreme projections. -/
theorem box_facts {eigen : (Fin 3 → Fin 3 → ℝ) → Fin 3 → Fin 3 → ℝ} {big : ℝ} {c : NurbsSurface ℝ} (H : BoxInput eigen big c) :
    ∃ b : OrientedBox ℝ, NurbsSurface.orientedBox eigen big c = ok b ∧ OrthonormalAxes b.axes ∧
      b.axes = obbAxes eigen (c.cps.flatten.map proj) (meanPoint (c.cps.flatten.map proj)) ∧
      (∀ i, ∀ x ∈ c.cps.flatten.map proj, |(x - b.center).dot (b.axes i)| ≤ b.half i) ∧
      (∀ i, (∃ x ∈ c.cps.flatten.map proj, (x - b.center).dot (b.axes i) = b.half i) ∧
        ∃ x ∈ c.cps.flatten.map proj, (x - b.center).dot (b.axes i) = -b.half i) := by
  have hp := flatten_proj H.weights
  obtain ⟨b, e, ax, lo, hi, ce, ha, ext⟩ := orientedBox_run (eigen := eigen) (big := big) (c := c) hp H.rows H.cols
  set pts := c.cps.flatten.map proj
  have ho : OrthonormalAxes b.axes := by rw [ax]; exact axes_orthonormal H.solver _ _
  have hc : ∀ x i, (x - b.center).dot (b.axes i) = (x - meanPoint pts).dot (b.axes i) - (hi i + lo i) / 2 := by
    intro x i
    rw [ce]
    exact orthonormal_center ho x (meanPoint pts) (fun i => (hi i + lo i) / 2) i
  have hne : ∃ x, x ∈ pts := by
    have h0 := H.rows
    have h1 := H.cols
    rcases hcp : c.cps with _ | ⟨r, rs⟩
    · rw [hcp] at h0; simp at h0
    · rw [hcp] at h1
      rcases r with _ | ⟨q, r⟩
      · simp [row] at h1
      · exact ⟨proj q, by simp only [pts, hcp]; simp⟩
  have hbig : ∀ i, ∀ x ∈ pts, |(x - meanPoint pts).dot (b.axes i)| ≤ big := fun i x hx =>
    (cauchy_dot (by rw [ho i i, if_pos rfl])).trans (H.finite x hx)
  refine ⟨b, e, ho, ax, fun i x hx => ?_, fun i => ⟨?_, ?_⟩⟩
  · obtain ⟨⟨-, -, h3⟩, -, -⟩ := ext i
    obtain ⟨h1, h2⟩ := h3 x hx
    rw [hc, ha i, abs_le]
    constructor <;> linarith
  · obtain ⟨⟨h1, h2, h3⟩, -, h5⟩ := ext i
    obtain ⟨x, hx, h⟩ : ∃ x ∈ pts, hi i = (x - meanPoint pts).dot (b.axes i) := by
      rcases h5 with h | h
      · obtain ⟨x, hx⟩ := hne
        have hb := abs_le.mp (hbig i x hx)
        exact ⟨x, hx, le_antisymm (by rw [h]; exact hb.1) (h3 x hx).2⟩
      · exact h
    exact ⟨x, hx, by rw [hc, ha i, ← h]; ring⟩
  · obtain ⟨⟨h1, h2, h3⟩, h4, -⟩ := ext i
    obtain ⟨x, hx, h⟩ : ∃ x ∈ pts, lo i = (x - meanPoint pts).dot (b.axes i) := by
      rcases h4 with h | h
      · obtain ⟨x, hx⟩ := hne
        have hb := abs_le.mp (hbig i x hx)
        exact ⟨x, hx, le_antisymm (h3 x hx).1 (by rw [h]; exact hb.2)⟩
      · exact h
    exact ⟨x, hx, by rw [hc, ha i, ← h]; ring⟩

/-- C122: the axes of the box are orthonormal, the box contains every projected control point, and it is the smallest
box with these axes: each of its six faces is touched by a control point. -/
theorem C122_control_points {eigen : (Fin 3 → Fin 3 → ℝ) → Fin 3 → Fin 3 → ℝ} {big : ℝ} {c : NurbsSurface ℝ} (H : BoxInput eigen big c) :
    ∃ b : OrientedBox ℝ, NurbsSurface.orientedBox eigen big c = ok b ∧ OrthonormalAxes b.axes ∧
      (∀ x ∈ c.cps.flatten.map proj, InOrientedBox b x) ∧
      ∀ i, (∃ x ∈ c.cps.flatten.map proj, (x - b.center).dot (b.axes i) = b.half i) ∧
        ∃ x ∈ c.cps.flatten.map proj, (x - b.center).dot (b.axes i) = -b.half i := by
  obtain ⟨b, e, ho, -, h1, h2⟩ := box_facts H
  exact ⟨b, e, ho, fun x hx i => h1 i x hx, h2⟩

/-- C122: the box contains every point of the surface. -/
theorem C122_contains_surface {eigen : (Fin 3 → Fin 3 → ℝ) → Fin 3 → Fin 3 → ℝ} {big : ℝ} {c : NurbsSurface ℝ} {p q n m : ℕ}
    (H : BoxInput eigen big c) (w : WellFormedS c p q n m) (he : EndsSeparatedS c p q n m) :
    ∃ b : OrientedBox ℝ, NurbsSurface.orientedBox eigen big c = ok b ∧
      ∀ u v, InDomain c p q n m u v → ∃ x, NurbsSurface.pointOnSurface c u v = ok x ∧ InOrientedBox b x := by
  obtain ⟨b, e, -, -, h1, -⟩ := box_facts H
  refine ⟨b, e, fun u v d => ?_⟩
  have hd : ∀ (x : XYZ ℝ) i, (x - b.center).dot (b.axes i) = x.dot (b.axes i) - b.center.dot (b.axes i) := by
    intro x i; simp [XYZ.dot]; ring
  obtain ⟨x, ex, hx⟩ := surface_slab (A := b.axes) (lo := fun i => b.center.dot (b.axes i) - b.half i)
    (hi := fun i => b.center.dot (b.axes i) + b.half i) w he d H.weights (by
      intro i r hr y hy
      have := h1 i (proj y) (List.mem_map_of_mem (List.mem_flatten.mpr ⟨r, hr, hy⟩))
      rw [hd, abs_le] at this
      constructor <;> linarith [this.1, this.2])
  refine ⟨x, ex, fun i => ?_⟩
  rw [hd, abs_le]
  constructor <;> linarith [(hx i).1, (hx i).2]

/-- C122: the axes are the principal axes of the projected control points: each is an eigenvector of their scatter
matrix about their mean. -/
theorem C122_principal_axes {eigen : (Fin 3 → Fin 3 → ℝ) → Fin 3 → Fin 3 → ℝ} {big : ℝ} {c : NurbsSurface ℝ} (H : BoxInput eigen big c) :
    ∃ b : OrientedBox ℝ, NurbsSurface.orientedBox eigen big c = ok b ∧
      ∀ i, ∃ k : ℝ, ((c.cps.flatten.map proj).map fun x => (x - meanPoint (c.cps.flatten.map proj)).dot (b.axes i) •
        (x - meanPoint (c.cps.flatten.map proj))).sum = k • b.axes i := by
  obtain ⟨b, e, -, ax, h1, h2⟩ := box_facts H
  refine ⟨b, e, fun i => ?_⟩
  set pts := c.cps.flatten.map proj
  set g := meanPoint pts
  obtain ⟨⟨y, hy, -⟩, -⟩ := h2 i
  have hne : pts.length ≠ 0 := by
    intro h
    rw [List.length_eq_zero_iff] at h
    rw [h] at hy
    simp at hy
  have hn : (pts.length : ℝ) ≠ 0 := by exact_mod_cast hne
  obtain ⟨-, l, hl⟩ := H.solver (covariance pts g) (cov_symm pts g)
  have hax : b.axes i = ⟨eigen (covariance pts g) 0 i, eigen (covariance pts g) 1 i, eigen (covariance pts g) 2 i⟩ := by
    rw [ax]; unfold obbAxes; rw [if_neg hne]
  refine ⟨(pts.length : ℝ) * l i, ?_⟩
  have key : ∀ a : Fin 3, (pts.map fun x => (x - g).dot (b.axes i) * (x - g).coord a).sum = pts.length * l i * (b.axes i).coord a := by
    intro a
    have h := hl i a
    rw [Fin.sum_univ_three, covariance_eq, covariance_eq, covariance_eq] at h
    have h' : (pts.map fun x => (x - g).dot (b.axes i) * (x - g).coord a).sum =
        (pts.map fun p => (p.coord a - g.coord a) * (p.coord 0 - g.coord 0)).sum * eigen (covariance pts g) 0 i +
        (pts.map fun p => (p.coord a - g.coord a) * (p.coord 1 - g.coord 1)).sum * eigen (covariance pts g) 1 i +
        (pts.map fun p => (p.coord a - g.coord a) * (p.coord 2 - g.coord 2)).sum * eigen (covariance pts g) 2 i := by
      rw [← List.sum_map_mul_right, ← List.sum_map_mul_right, ← List.sum_map_mul_right, ← List.sum_map_add, ← List.sum_map_add]
      congr 1
      apply List.map_congr_left
      intro x _
      rw [hax]
      fin_cases a <;> simp [XYZ.dot, XYZ.coord] <;> ring
    have h2 : (b.axes i).coord a = eigen (covariance pts g) a i := by
      rw [hax]; fin_cases a <;> rfl
    rw [h', h2]
    field_simp at h
    linear_combination h
  have s : ∀ (L : XYZ ℝ →ₗ[ℝ] ℝ) (l : List (XYZ ℝ)), L l.sum = (l.map L).sum := fun L l => map_list_sum L l
  ext
  · have := key 0
    rw [show ∀ x : XYZ ℝ, x.x = XYZ.xL x from fun _ => rfl, s, List.map_map]
    exact this
  · have := key 1
    rw [show ∀ x : XYZ ℝ, x.y = XYZ.yL x from fun _ => rfl, s, List.map_map]
    exact this
  · have := key 2
    rw [show ∀ x : XYZ ℝ, x.z = XYZ.zL x from fun _ => rfl, s, List.map_map]
    exact this

/-- a bilinear patch with four distinct corners, one weight 2 -/
noncomputable def boxSurface : NurbsSurface ℝ :=
  { degreeU := 1, degreeV := 1, knotsU := [0, 0, 1, 1], knotsV := [0, 0, 1, 1],
    cps := [[⟨0, 0, 0, 1⟩, ⟨0, 2, 1, 1⟩], [⟨3, 0, 1, 1⟩, ⟨6, 4, 2, 2⟩]] }

theorem boxSurface_wf : WellFormedS boxSurface 1 1 1 1 where
  degreeU := rfl
  degreeV := rfl
  posU := by decide
  posV := by decide
  le7U := by decide
  le7V := by decide
  cps := ⟨rfl, by intro i hi; interval_cases i <;> rfl⟩
  pn := le_refl _
  qm := le_refl _
  knotsU := rfl
  knotsV := rfl
  sortedU := isValidKnotVector_nth.mp (by rw [isValidKnotVector_iff]; simp [boxSurface])
  sortedV := isValidKnotVector_nth.mp (by rw [isValidKnotVector_iff]; simp [boxSurface])

/-- C122 is not vacuous. -/
example : ∃ eigen big, BoxInput eigen big boxSurface ∧ WellFormedS boxSurface 1 1 1 1 ∧ EndsSeparatedS boxSurface 1 1 1 1 ∧
    InDomain boxSurface 1 1 1 1 (1/3) (1/2) := by
  obtain ⟨e, he⟩ := soundEigen_exists
  have hw : ∀ row ∈ boxSurface.cps, ∀ x ∈ row, (1 : ℝ) / 1000000 * (1 + x.w) < x.w := by
    intro r hr x hx
    simp only [boxSurface, List.mem_cons, List.not_mem_nil, or_false] at hr
    rcases hr with rfl | rfl <;> simp only [List.mem_cons, List.not_mem_nil, or_false] at hx <;> rcases hx with rfl | rfl <;> norm_num
  obtain ⟨big, hbig⟩ : ∃ big : ℝ, ∀ x ∈ boxSurface.cps.flatten.map proj, (x - meanPoint (boxSurface.cps.flatten.map proj)).length ≤ big := by
    have : ∀ l : List (XYZ ℝ), ∀ g : XYZ ℝ, ∃ big : ℝ, ∀ x ∈ l, (x - g).length ≤ big := by
      intro l g
      induction l with
      | nil => exact ⟨0, by simp⟩
      | cons y l ih =>
        obtain ⟨B, hB⟩ := ih
        refine ⟨max B (y - g).length, fun x hx => ?_⟩
        rcases List.mem_cons.mp hx with rfl | hx
        · exact le_max_right _ _
        · exact (hB x hx).trans (le_max_left _ _)
    exact this _ _
  refine ⟨e, big, ⟨by simp [boxSurface], by simp [boxSurface, row], hw, he, hbig⟩, ?_, ?_, ?_⟩
  · exact boxSurface_wf
  · constructor <;> constructor <;> simp [boxSurface, nth] <;> norm_num
  · constructor <;> simp [boxSurface, nth] <;> norm_num

end LNLib.Props
