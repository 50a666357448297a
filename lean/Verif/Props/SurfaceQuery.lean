import Mathlib.Tactic.IntervalCases
import Verif.Model.Query
import Verif.Props.DiffGeom
import Verif.Props.Tessellate

/-!
# C92, C93: tangents in parameter space and scaling of a control net
-/

namespace LNLib.Props
open LNLib Res Spec Finset

/-! ## C92 -/

/-- C92: inside a pair of spans of a valid surface, `GetUVTangent` decomposes the given vector `T` along the partial derivatives: unless `S_u` and
`S_v` are (numerically) dependent it returns `(a, b)` such that `T - a S_u - b S_v` is orthogonal to the tangent plane, `a S_u + b S_v` is the closest
vector to `T` in that plane, and `(a, b)` are the exact coordinates of `T` when `T` lies in the plane.  Otherwise it answers `false`. -/
theorem C92_tangent_partial {c : NurbsSurface ℝ} {p q n m su sv : ℕ} {u v : ℝ} (w : WellFormedS c p q n m)
    (he : EndsSeparatedS c p q n m) (hpu : p ≤ su) (hun : su ≤ n) (hqv : q ≤ sv) (hvm : sv ≤ m)
    (hu0 : nth c.knotsU su < u) (hu1 : u < nth c.knotsU (su + 1)) (hv0 : nth c.knotsV sv < v) (hv1 : v < nth c.knotsV (sv + 1))
    (hw : surfaceWeight (nth c.knotsU) (nth c.knotsV) p q n m (ent c.cps) u v ≠ 0)
    (S : ℝ → ℝ → XYZ ℝ) (hS : S = rationalSurfacePoint (nth c.knotsU) (nth c.knotsV) p q n m (ent c.cps)) (T : XYZ ℝ) (A B D : ℝ)
    (hA : A = (surfD S 1 0 u v).dot (surfD S 1 0 u v)) (hB : B = (surfD S 1 0 u v).dot (surfD S 0 1 u v))
    (hD : D = (surfD S 0 1 u v).dot (surfD S 0 1 u v)) :
    (|A * D - B * B| ≤ 1 / 1000000 * (1 + max |A * D| |B * B|) → getUVTangent c u v T = ok none) ∧
    (1 / 1000000 * (1 + max |A * D| |B * B|) < |A * D - B * B| → ∃ a b, getUVTangent c u v T = ok (some (a, b)) ∧
      (T - (a • surfD S 1 0 u v + b • surfD S 0 1 u v)).dot (surfD S 1 0 u v) = 0 ∧
      (T - (a • surfD S 1 0 u v + b • surfD S 0 1 u v)).dot (surfD S 0 1 u v) = 0 ∧
      (∀ x y : ℝ, (T - (a • surfD S 1 0 u v + b • surfD S 0 1 u v)).length ≤ (T - (x • surfD S 1 0 u v + y • surfD S 0 1 u v)).length) ∧
      (∀ x y : ℝ, T = x • surfD S 1 0 u v + y • surfD S 0 1 u v → a = x ∧ b = y)) := by
  subst hS
  have hp := w.posU
  have hq := w.posV
  obtain ⟨M, e, hM, hk⟩ := C67_true_derivative w he hpu hun hqv hvm hu0 hu1 hv0 hv1 (d := 1) (by decide) (by omega) (by omega) hw
  have e' : NurbsSurface.rationalDerivatives c 1 u v = ok M := e
  obtain ⟨S, hS⟩ : ∃ S, rationalSurfacePoint (nth c.knotsU) (nth c.knotsV) p q n m (ent c.cps) = S := ⟨_, rfl⟩
  rw [hS] at hA hB hD hk ⊢
  have f : ∀ k l, k + l ≤ 1 → ent M k l = surfD S k l u v := fun k l h => XYZ.ext (hk k l h).1 (hk k l h).2.1 (hk k l h).2.2
  obtain ⟨X, hX⟩ : ∃ X, surfD S 1 0 u v = X := ⟨_, rfl⟩
  obtain ⟨Y, hY⟩ : ∃ Y, surfD S 0 1 u v = Y := ⟨_, rfl⟩
  have g : getUVTangent c u v T = (if isAlmostEqualTo (A * D) (B * B) then ok none else do
      let a ← fdiv (X.dot T * D - B * Y.dot T) (A * D - B * B)
      let b ← fdiv (A * Y.dot T - X.dot T * B) (A * D - B * B)
      ok (some (a, b))) := by
    unfold getUVTangent
    rw [e', ok_bind, mget_ent (a := 1) (b := 0) (i := 1) (j := 0) hM rfl rfl (by omega) (by omega), ok_bind,
      mget_ent (a := 0) (b := 1) (i := 0) (j := 1) hM rfl rfl (by omega) (by omega), ok_bind, f 1 0 (by omega), f 0 1 (by omega)]
    dsimp only
    rw [← hA, ← hB, ← hD, hX, hY]
  rw [g]
  rw [hX] at hA hB ⊢
  rw [hY] at hB hD ⊢
  constructor
  · intro h
    rw [almost_near h]
    rfl
  · intro h
    rw [almost_far h]
    have hdet : A * D - B * B ≠ 0 := by
      intro h0
      rw [h0, abs_zero] at h
      have : 0 ≤ max |A * D| |B * B| := le_max_of_le_left (abs_nonneg _)
      linarith [mul_nonneg (by norm_num : (0 : ℝ) ≤ 1 / 1000000) (by linarith : 0 ≤ 1 + max |A * D| |B * B|)]
    rw [fdiv_ok hdet, ok_bind, fdiv_ok hdet, ok_bind]
    obtain ⟨a, ha⟩ : ∃ a, (X.dot T * D - B * Y.dot T) / (A * D - B * B) = a := ⟨_, rfl⟩
    obtain ⟨b, hb⟩ : ∃ b, (A * Y.dot T - X.dot T * B) / (A * D - B * B) = b := ⟨_, rfl⟩
    rw [ha, hb]
    have e1 : a * A + b * B = X.dot T := by rw [← ha, ← hb, div_mul_eq_mul_div, div_mul_eq_mul_div, ← add_div, div_eq_iff hdet]; ring
    have e2 : a * B + b * D = Y.dot T := by rw [← ha, ← hb, div_mul_eq_mul_div, div_mul_eq_mul_div, ← add_div, div_eq_iff hdet]; ring
    have o1 : (T - (a • X + b • Y)).dot X = 0 := by
      have : (T - (a • X + b • Y)).dot X = X.dot T - (a * A + b * B) := by rw [hA, hB]; simp [XYZ.dot]; ring
      rw [this, e1, sub_self]
    have o2 : (T - (a • X + b • Y)).dot Y = 0 := by
      have : (T - (a • X + b • Y)).dot Y = Y.dot T - (a * B + b * D) := by rw [hB, hD]; simp [XYZ.dot]; ring
      rw [this, e2, sub_self]
    refine ⟨a, b, rfl, o1, o2, ?_, ?_⟩
    · intro x y
      unfold XYZ.length
      apply Real.sqrt_le_sqrt
      have key : (T - (x • X + y • Y)).dot (T - (x • X + y • Y)) = (T - (a • X + b • Y)).dot (T - (a • X + b • Y)) +
          2 * ((a - x) * (T - (a • X + b • Y)).dot X + (b - y) * (T - (a • X + b • Y)).dot Y) +
          ((a - x) • X + (b - y) • Y).dot ((a - x) • X + (b - y) • Y) := by simp [XYZ.dot]; ring
      rw [o1, o2] at key
      have : 0 ≤ ((a - x) • X + (b - y) • Y).dot ((a - x) • X + (b - y) • Y) := by unfold XYZ.dot; nlinarith [mul_self_nonneg ((a - x) • X + (b - y) • Y).x, mul_self_nonneg ((a - x) • X + (b - y) • Y).y, mul_self_nonneg ((a - x) • X + (b - y) • Y).z]
      unfold XYZ.dot at key this
      linarith
    · intro x y hT
      have t1 : X.dot T = x * A + y * B := by rw [hT, hA, hB]; simp [XYZ.dot]; ring
      have t2 : Y.dot T = x * B + y * D := by rw [hT, hB, hD]; simp [XYZ.dot]; ring
      rw [← ha, ← hb, t1, t2, div_eq_iff hdet, div_eq_iff hdet]
      constructor <;> ring

/-- a flat square with side `1 / 50` -/
def exSmall : NurbsSurface ℚ :=
  { degreeU := 1, degreeV := 1, knotsU := [0, 0, 1, 1], knotsV := [0, 0, 1, 1], cps := [[⟨0, 0, 0, 1⟩, ⟨0, 1/50, 0, 1⟩], [⟨1/50, 0, 0, 1⟩, ⟨1/50, 1/50, 0, 1⟩]] }

/-- a flat square with side `1` -/
def exSquare : NurbsSurface ℚ :=
  { degreeU := 1, degreeV := 1, knotsU := [0, 0, 1, 1], knotsV := [0, 0, 1, 1], cps := [[⟨0, 0, 0, 1⟩, ⟨0, 1, 0, 1⟩], [⟨1, 0, 0, 1⟩, ⟨1, 1, 0, 1⟩]] }

/-- C92 is violated for small surfaces: on a flat square patch with sides 1/50, which is regular with orthogonal partial derivatives, `GetUVTangent`
answers `false` for every vector. -/
theorem C92_small_violated (T : XYZ ℚ) : ∃ c : NurbsSurface ℚ, WellFormedS c 1 1 1 1 ∧ EndsSeparatedS c 1 1 1 1 ∧ (∀ row ∈ c.cps, ∀ x ∈ row, x.w = 1) ∧
    NurbsSurface.rationalDerivatives c 1 (1 / 2) (1 / 2) = ok [[⟨1 / 100, 1 / 100, 0⟩, ⟨0, 1 / 50, 0⟩], [⟨1 / 50, 0, 0⟩, ⟨0, 0, 0⟩]] ∧
    getUVTangent c (1 / 2) (1 / 2) T = ok none := by
  have h : NurbsSurface.rationalDerivatives exSmall 1 (1 / 2) (1 / 2) =
      ok [[⟨1 / 100, 1 / 100, 0⟩, ⟨0, 1 / 50, 0⟩], [⟨1 / 50, 0, 0⟩, ⟨0, 0, 0⟩]] := by decide +kernel
  refine ⟨_, ?_, ⟨⟨?_, ?_⟩, ⟨?_, ?_⟩⟩, ?_, h, ?_⟩
  · exact { degreeU := rfl, degreeV := rfl, posU := by decide, posV := by decide, le7U := by decide, le7V := by decide, cps := by unfold IsMat; decide, pn := by decide, qm := by decide, knotsU := rfl, knotsV := rfl, sortedU := isValidKnotVector_nth.mp (by decide +kernel), sortedV := isValidKnotVector_nth.mp (by decide +kernel) }
  · decide +kernel
  · decide +kernel
  · decide +kernel
  · decide +kernel
  · decide +kernel
  · unfold getUVTangent
    rw [h, ok_bind]
    have m1 : mget ([[⟨1 / 100, 1 / 100, 0⟩, ⟨0, 1 / 50, 0⟩], [⟨1 / 50, 0, 0⟩, ⟨0, 0, 0⟩]] : List (List (XYZ ℚ))) 1 0 = ok ⟨1 / 50, 0, 0⟩ := by decide +kernel
    have m2 : mget ([[⟨1 / 100, 1 / 100, 0⟩, ⟨0, 1 / 50, 0⟩], [⟨1 / 50, 0, 0⟩, ⟨0, 0, 0⟩]] : List (List (XYZ ℚ))) 0 1 = ok ⟨0, 1 / 50, 0⟩ := by decide +kernel
    rw [m1, ok_bind, m2, ok_bind]
    dsimp only
    rw [if_pos (by decide +kernel)]

/-- on a unit patch the same vector is decomposed -/
example : getUVTangent exSquare (1 / 2) (1 / 2) ⟨3, -2, 7⟩ = ok (some (3, -2)) := by
  decide +kernel

/-! ## C93 -/

section
variable {K : Type} [Field K] [LinearOrder K] [IsStrictOrderedRing K]

/-- scaling by three factors along the axes, with fixed point `o` -/
def scaleAbout (o : XYZ K) (fx fy fz : K) (p : XYZ K) : XYZ K :=
  ⟨o.x + fx * (p.x - o.x), o.y + fy * (p.y - o.y), o.z + fz * (p.z - o.z)⟩

theorem collect_run {α : Type} {n : ℕ} {rd : ℤ → Res α} {f : ℕ → α} (h : ∀ i, i < n → rd (i : ℤ) = ok (f i)) :
    forI 0 (n : ℤ) ([] : List α) (fun i l => rd i >>= fun x => ok (l ++ [x])) = ok ((List.range n).map f) := by
  apply Runs.eq
  refine (Runs.forN (m := 0) (n := n) (fun i l => l = (List.range i).map f) (by simp) rfl (by omega) (by simp) ?_).mono (fun _ h => h)
  rintro i l - hi rfl
  rw [h i hi, ok_bind]
  refine Runs.ok ?_
  rw [List.range_succ, List.map_append]
  rfl

/-- the scaled control point, for a control point of weight one -/
theorem scalePoint_one {o : XYZ K} {fx fy fz : K} {x : XYZW K} (ho : o = 0 ∨ o.almostEq ⟨0, 0, 0⟩ = false) (hw : x.w = 1) :
    scalePoint (o.almostEq ⟨0, 0, 0⟩) fx fy fz o x = ok (XYZW.ofXYZ (scaleAbout o fx fy fz x.raw) 1) := by
  have e : ∀ y : K, fdiv y 1 = ok y := fun y => by rw [fdiv_ok one_ne_zero, div_one]
  unfold scalePoint
  dsimp only
  rw [hw, e, ok_bind, e, ok_bind, e, ok_bind]
  unfold scaleAbout XYZW.ofXYZ XYZW.raw
  rcases ho with rfl | h
  · have : ((0 : XYZ K)).almostEq ⟨0, 0, 0⟩ = true := by
      unfold XYZ.almostEq
      simp [isAlmostEqualTo_self doubleEps_pos]
    rw [this, if_pos rfl]
    congr 1
    ext <;> simp <;> ring
  · rw [h, if_neg (by simp)]
    congr 1
    ext <;> simp <;> ring

/-- C93: `NonUniformScaling` of the control net of a valid non-rational surface (all weights one): every point of the surface is moved to its image
under the scaling with fixed point `o`.  Missing from the full statement: weights other than one (`C93_rational_violated`), and reference points that
are within tolerance of the origin without being the origin, which are replaced by the origin. -/
theorem C93_scaling_partial {c : NurbsSurface K} {p q n m : ℕ} {o : XYZ K} {fx fy fz : K} (w : WellFormedS c p q n m) (he : EndsSeparatedS c p q n m)
    (hone : ∀ i j, i ≤ n → j ≤ m → (ent c.cps i j).w = 1) (ho : o = 0 ∨ o.almostEq ⟨0, 0, 0⟩ = false) :
    ∃ cps', nonUniformScaling c.cps fx fy fz o = ok cps' ∧ WellFormedS ({ c with cps := cps' } : NurbsSurface K) p q n m ∧
      ∀ u v, InDomain c p q n m u v → ∃ x, NurbsSurface.pointOnSurface c u v = ok x ∧
        NurbsSurface.pointOnSurface { c with cps := cps' } u v = ok (scaleAbout o fx fy fz x) := by
  have hmat := w.cps
  obtain ⟨g, hg⟩ : ∃ g : ℕ → ℕ → XYZW K, g = fun i j => XYZW.ofXYZ (scaleAbout o fx fy fz (ent c.cps i j).raw) 1 := ⟨_, rfl⟩
  have run : nonUniformScaling c.cps fx fy fz o = ok ((List.range (n + 1)).map fun i => (List.range (m + 1)).map (g i)) := by
    have h0 : vget c.cps 0 = ok (row c.cps 0) := vget_row (k := 0) rfl (by rw [hmat.1]; omega)
    unfold nonUniformScaling
    rw [h0, ok_bind]
    dsimp only
    rw [hmat.1, hmat.2 0 (by omega)]
    refine collect_run (rd := fun i => forI 0 ((m + 1 : ℕ) : ℤ) [] fun j row => do
      let current ← mget c.cps i j
      let x ← scalePoint (o.almostEq ⟨0, 0, 0⟩) fx fy fz o current
      ok (row ++ [x])) ?_
    intro i hi
    have := collect_run (n := m + 1) (rd := fun j => mget c.cps (i : ℤ) j >>= fun current => scalePoint (o.almostEq ⟨0, 0, 0⟩) fx fy fz o current) (f := g i) (by
      intro j hj
      rw [mget_ent (a := i) (b := j) hmat rfl rfl (by omega) (by omega), ok_bind, scalePoint_one ho (hone i j (by omega) (by omega)), hg])
    simpa only [bind_assoc'] using this
  have hm' : IsMat ((List.range (n + 1)).map fun i => (List.range (m + 1)).map (g i)) (n + 1) (m + 1) := by
    refine ⟨by simp, ?_⟩
    intro i hi
    simp [row, hi]
  have hent : ∀ i j, i ≤ n → j ≤ m → ent ((List.range (n + 1)).map fun i => (List.range (m + 1)).map (g i)) i j = g i j := by
    intro i j hi hj
    simp [ent, row, nth, Nat.lt_succ_of_le hi, Nat.lt_succ_of_le hj]
  have w' : WellFormedS ({ c with cps := (List.range (n + 1)).map fun i => (List.range (m + 1)).map (g i) } : NurbsSurface K) p q n m :=
    { degreeU := w.degreeU, degreeV := w.degreeV, posU := w.posU, posV := w.posV, le7U := w.le7U, le7V := w.le7V, cps := hm', pn := w.pn, qm := w.qm, knotsU := w.knotsU, knotsV := w.knotsV, sortedU := w.sortedU, sortedV := w.sortedV }
  refine ⟨_, run, w', ?_⟩
  intro u v d
  obtain ⟨s, -, hs⟩ := getKnotSpanIndex_isSpan w.knotsU w.pn w.sortedU he.u d.u0 d.u1
  obtain ⟨s2, -, hs2⟩ := getKnotSpanIndex_isSpan w.knotsV w.qm w.sortedV he.v d.v0 d.v1
  obtain ⟨-, su⟩ := basis_convex (wfS_monoU w) hs
  obtain ⟨-, sv⟩ := basis_convex (wfS_monoV w) hs2
  have hsum : ∑ i ∈ range (n + 1), ∑ j ∈ range (m + 1), N (nth c.knotsU) (nth c.knotsU (n + 1)) p i u * N (nth c.knotsV) (nth c.knotsV (m + 1)) q j v = 1 := by
    rw [← sum_mul_sum, su, sv, one_mul]
  have hev : ∀ {c' : NurbsSurface K} {f : ℕ → ℕ → XYZ K}, WellFormedS c' p q n m → c'.knotsU = c.knotsU → c'.knotsV = c.knotsV →
      (∀ i j, i ≤ n → j ≤ m → ent c'.cps i j = XYZW.ofXYZ (f i j) 1) →
      NurbsSurface.pointOnSurface c' u v = ok (surfacePoint (nth c.knotsU) (nth c.knotsV) p q n m f u v) := by
    intro c' f wc kU kV hf
    have hw1 : surfaceWeight (nth c.knotsU) (nth c.knotsV) p q n m (ent c'.cps) u v = 1 := by
      rw [← hsum]
      unfold surfaceWeight
      refine sum_congr rfl fun i hi => sum_congr rfl fun j hj => ?_
      rw [mem_range] at hi hj
      rw [hf i j (by omega) (by omega)]
      simp [XYZW.ofXYZ]
    have := C33_eval_rational (u := u) (v := v) wc ⟨by rw [kU]; exact he.u, by rw [kV]; exact he.v⟩ ⟨by rw [kU]; exact d.u0, by rw [kU]; exact d.u1, by rw [kV]; exact d.v0, by rw [kV]; exact d.v1⟩ (by rw [kU, kV, hw1]; norm_num)
    rw [this, kU, kV]
    unfold rationalSurfacePoint surfacePoint
    rw [hw1, inv_one, one_smul]
    congr 1
    refine sum_congr rfl fun i hi => sum_congr rfl fun j hj => ?_
    rw [mem_range] at hi hj
    rw [hf i j (by omega) (by omega)]
    congr 1
    ext <;> simp [XYZW.ofXYZ]
  refine ⟨_, hev (f := fun i j => (ent c.cps i j).raw) w rfl rfl ?_, ?_⟩
  · intro i j hi hj
    have := hone i j hi hj
    ext <;> simp [XYZW.ofXYZ, XYZW.raw, this]
  rw [hev (f := fun i j => scaleAbout o fx fy fz (ent c.cps i j).raw) w' rfl rfl (fun i j hi hj => by rw [hent i j hi hj, hg])]
  congr 1
  have comp : ∀ (L : XYZ K →ₗ[K] K) (f : ℕ → ℕ → XYZ K), L (surfacePoint (nth c.knotsU) (nth c.knotsV) p q n m f u v) =
      ∑ i ∈ range (n + 1), ∑ j ∈ range (m + 1), N (nth c.knotsU) (nth c.knotsU (n + 1)) p i u * N (nth c.knotsV) (nth c.knotsV (m + 1)) q j v * L (f i j) := by
    intro L f
    unfold surfacePoint
    simp only [map_sum, map_smul, smul_eq_mul]
  have aff : ∀ (L : XYZ K →ₗ[K] K) (a k : K), (∀ x, L (scaleAbout o fx fy fz x) = a + k * (L x - a)) →
      L (surfacePoint (nth c.knotsU) (nth c.knotsV) p q n m (fun i j => scaleAbout o fx fy fz (ent c.cps i j).raw) u v) =
      a + k * (L (surfacePoint (nth c.knotsU) (nth c.knotsV) p q n m (fun i j => (ent c.cps i j).raw) u v) - a) := by
    intro L a k hL
    rw [comp, comp]
    have h1 : a * (1 - k) = ∑ i ∈ range (n + 1), ∑ j ∈ range (m + 1), N (nth c.knotsU) (nth c.knotsU (n + 1)) p i u * N (nth c.knotsV) (nth c.knotsV (m + 1)) q j v * (a * (1 - k)) := by
      simp only [← sum_mul]
      rw [hsum, one_mul]
    have h2 : ∀ x : K, a + k * (x - a) = a * (1 - k) + k * x := fun x => by ring
    rw [h2]
    conv_rhs => rw [h1]
    rw [mul_sum, ← sum_add_distrib]
    refine sum_congr rfl fun i _ => ?_
    rw [mul_sum, ← sum_add_distrib]
    refine sum_congr rfl fun j _ => ?_
    rw [hL]
    ring
  refine XYZ.ext ?_ ?_ ?_
  · exact aff XYZ.xL o.x fx (fun x => rfl)
  · exact aff XYZ.yL o.y fy (fun x => rfl)
  · exact aff XYZ.zL o.z fz (fun x => rfl)

/-- C93 is violated for rational surfaces: scaling a patch with corner weights `1, 1, 2, 2` by the factors `1, 1, 1` should leave it unchanged, but moves
its corner from `(1, 0, 0)` to `(1/2, 0, 0)`, because the new control points keep the weights and lose the multiplication by them. -/
theorem C93_rational_violated : ∃ (c : NurbsSurface ℚ) (cps' : List (List (XYZW ℚ))), c.check = ok () ∧
    nonUniformScaling c.cps 1 1 1 ⟨0, 0, 0⟩ = ok cps' ∧
    NurbsSurface.pointOnSurface c 1 0 = ok ⟨1, 0, 0⟩ ∧ NurbsSurface.pointOnSurface { c with cps := cps' } 1 0 = ok ⟨1/2, 0, 0⟩ := by
  refine ⟨{ degreeU := 1, degreeV := 1, knotsU := [0, 0, 1, 1], knotsV := [0, 0, 1, 1], cps := [[⟨0, 0, 0, 1⟩, ⟨0, 1, 0, 1⟩], [⟨2, 0, 0, 2⟩, ⟨2, 2, 0, 2⟩]] },
    [[⟨0, 0, 0, 1⟩, ⟨0, 1, 0, 1⟩], [⟨1, 0, 0, 2⟩, ⟨1, 1, 0, 2⟩]], ?_, ?_, ?_, ?_⟩ <;> decide +kernel

/-- C93 has instances: `exSquare` scaled by `2, 3, 1` about `(1, 1, 0)`. -/
example : nonUniformScaling exSquare.cps 2 3 1 ⟨1, 1, 0⟩ = ok [[⟨-1, -2, 0, 1⟩, ⟨-1, 1, 0, 1⟩], [⟨1, -2, 0, 1⟩, ⟨1, 1, 0, 1⟩]] ∧
    (⟨1, 1, 0⟩ : XYZ ℚ).almostEq ⟨0, 0, 0⟩ = false := by
  constructor <;> decide +kernel

example : WellFormedS exSquare 1 1 1 1 ∧ EndsSeparatedS exSquare 1 1 1 1 ∧ (∀ i j, i ≤ 1 → j ≤ 1 → (ent exSquare.cps i j).w = 1) := by
  refine ⟨?_, ⟨⟨by decide +kernel, by decide +kernel⟩, ⟨by decide +kernel, by decide +kernel⟩⟩, ?_⟩
  · exact { degreeU := rfl, degreeV := rfl, posU := by decide, posV := by decide, le7U := by decide, le7V := by decide, cps := by unfold IsMat; decide, pn := by decide, qm := by decide, knotsU := rfl, knotsV := rfl, sortedU := isValidKnotVector_nth.mp (by decide +kernel), sortedV := isValidKnotVector_nth.mp (by decide +kernel) }
  · intro i j hi hj
    interval_cases i <;> interval_cases j <;> rfl

end

end LNLib.Props
