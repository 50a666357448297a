import Verif.Lemmas.ArcRun
import Verif.Model.SurfaceArc
import Verif.Spec.Rotation
import Verif.Lemmas.SurfaceEval

/-!
# The run of `CreateRevolvedSurface` for a unit axis
-/

namespace LNLib
open Res Spec Finset

/-! ### Rotation in homogeneous coordinates -/

/-- the rotation, as a linear map of weighted points -/
noncomputable def rotHom (o k : XYZ ℝ) (θ : ℝ) : XYZW ℝ →ₗ[ℝ] XYZW ℝ where
  toFun a :=
    let q : XYZ ℝ := a.raw - a.w • o
    let b : XYZ ℝ := a.w • o + Real.cos θ • q + Real.sin θ • k.cross q + ((1 - Real.cos θ) * k.dot q) • k
    ⟨b.x, b.y, b.z, a.w⟩
  map_add' a b := by
    ext <;> simp only [XYZW.raw, XYZ.cross, XYZ.dot, XYZW.add_wx, XYZW.add_wy, XYZW.add_wz, XYZW.add_w, XYZ.add_x, XYZ.add_y, XYZ.add_z,
      XYZ.sub_x, XYZ.sub_y, XYZ.sub_z, XYZ.smul_x, XYZ.smul_y, XYZ.smul_z] <;> ring
  map_smul' c a := by
    ext <;> simp only [XYZW.raw, XYZ.cross, XYZ.dot, XYZW.smul_wx, XYZW.smul_wy, XYZW.smul_wz, XYZW.smul_w, XYZ.add_x, XYZ.add_y, XYZ.add_z,
      XYZ.sub_x, XYZ.sub_y, XYZ.sub_z, XYZ.smul_x, XYZ.smul_y, XYZ.smul_z, RingHom.id_apply] <;> ring

theorem rotHom_ofXYZ (o k p : XYZ ℝ) (θ w : ℝ) : rotHom o k θ (XYZW.ofXYZ p w) = XYZW.ofXYZ (rotateAbout o k θ p) w := by
  ext <;> simp only [rotHom, rotateAbout, LinearMap.coe_mk, AddHom.coe_mk, XYZW.ofXYZ, XYZW.raw, XYZ.cross, XYZ.dot, XYZ.add_x, XYZ.add_y, XYZ.add_z,
      XYZ.sub_x, XYZ.sub_y, XYZ.sub_z, XYZ.smul_x, XYZ.smul_y, XYZ.smul_z] <;> ring

theorem ofXYZ_toXYZ {a : XYZW ℝ} (h : 1 / 1000000 * (1 + |a.w|) < |a.w|) : XYZW.ofXYZ a.toXYZ a.w = a := by
  have hne : a.w ≠ 0 := by
    intro e; rw [e] at h; norm_num at h
  rw [XYZW.toXYZ_eq h]
  cases a with
  | mk x y z w =>
    simp only at hne
    ext <;> simp only [XYZW.ofXYZ, XYZW.raw, XYZ.smul_x, XYZ.smul_y, XYZ.smul_z] <;> field_simp

theorem ofXYZ_smul (p : XYZ ℝ) (w W : ℝ) : XYZW.ofXYZ p (w * W) = W • XYZW.ofXYZ p w := by
  ext <;> simp only [XYZW.ofXYZ, XYZW.smul_wx, XYZW.smul_wy, XYZW.smul_wz, XYZW.smul_w] <;> ring

/-! ### The frame of a profile point -/

theorem radial_dot (o p : XYZ ℝ) {k : XYZ ℝ} (hk : k.dot k = 1) : k.dot (radial o k p) = 0 := by
  have : k.dot (radial o k p) = k.dot (p - o) - k.dot (p - o) * k.dot k := by
    simp only [radial, XYZ.dot, XYZ.sub_x, XYZ.sub_y, XYZ.sub_z, XYZ.smul_x, XYZ.smul_y, XYZ.smul_z]; ring
  rw [this, hk]; ring

theorem frame_dot {k X : XYZ ℝ} (hk : k.dot k = 1) (h : k.dot X = 0) : X.dot (k.cross X) = 0 ∧ (k.cross X).dot (k.cross X) = X.dot X := by
  constructor
  · simp only [XYZ.dot, XYZ.cross]; ring
  · have : (k.cross X).dot (k.cross X) = k.dot k * X.dot X - k.dot X ^ 2 := by simp only [XYZ.dot, XYZ.cross]; ring
    rw [this, hk, h]; ring

theorem arcPoint_rotate (o p : XYZ ℝ) {k : XYZ ℝ} (θ : ℝ) :
    arcPoint (o + k.dot (p - o) • k) (radial o k p) (k.cross (radial o k p)) 1 1 θ = rotateAbout o k θ p := by
  ext <;> simp only [arcPoint, rotateAbout, radial, XYZ.cross, XYZ.dot, XYZ.add_x, XYZ.add_y, XYZ.add_z,
      XYZ.sub_x, XYZ.sub_y, XYZ.sub_z, XYZ.smul_x, XYZ.smul_y, XYZ.smul_z] <;> ring

/-- the arcs of one column start at the profile point -/
theorem arcPoint_zero_angle (o p : XYZ ℝ) {k : XYZ ℝ} : arcPoint (o + k.dot (p - o) • k) (radial o k p) (k.cross (radial o k p)) 1 1 0 = p := by
  rw [arcPoint_rotate]
  ext <;> simp [rotateAbout]

/-! ### The knots and the table of angles -/

theorem revKnots_run (m : ℕ) (h0 : 0 < m) (h4 : m ≤ 4) :
    ∃ k1 k2 : List ℝ, arcKnots m (List.replicate (2 * (m : ℤ) + 3 + 1).toNat (0 : ℝ)) = ok k1 ∧ (forI 0 3 k1 fun i k => do
      let k ← vset k i (0 : ℝ)
      vset k (3 + 2 * ((m : ℤ) - 1) + i) (1 : ℝ)) = ok k2 ∧ k2.length = 2 * m + 4 ∧ ChainKnots (nth k2) m := by
  have hm : m = 1 ∨ m = 2 ∨ m = 3 ∨ m = 4 := by omega
  rcases hm with rfl | rfl | rfl | rfl
  · refine ⟨[0, 0, 0, 0, 0, 0], [0, 0, 0, 1, 1, 1], rfl, ?_, rfl, rfl, ?_, ?_, ?_⟩
    · simp [forI, loopUp, vset]
    · intro k hk; interval_cases k <;> norm_num [nth]
    · intro k hk; interval_cases k <;> norm_num [nth]
    · norm_num [nth]
  · refine ⟨[0, 0, 0, 1 / 2, 1 / 2, 0, 0, 0], [0, 0, 0, 1 / 2, 1 / 2, 1, 1, 1], ?_, ?_, rfl, rfl, ?_, ?_, ?_⟩
    · norm_num [arcKnots, vset]; rfl
    · simp [forI, loopUp, vset]
    · intro k hk; interval_cases k <;> norm_num [nth]
    · intro k hk; interval_cases k <;> norm_num [nth]
    · norm_num [nth]
  · refine ⟨[0, 0, 0, 1 / 3, 1 / 3, 2 / 3, 2 / 3, 0, 0, 0], [0, 0, 0, 1 / 3, 1 / 3, 2 / 3, 2 / 3, 1, 1, 1], ?_, ?_, rfl, rfl, ?_, ?_, ?_⟩
    · norm_num [arcKnots, vset]; rfl
    · simp [forI, loopUp, vset]
    · intro k hk; interval_cases k <;> norm_num [nth]
    · intro k hk; interval_cases k <;> norm_num [nth]
    · norm_num [nth]
  · refine ⟨[0, 0, 0, 1 / 4, 1 / 4, 1 / 2, 1 / 2, 3 / 4, 3 / 4, 0, 0, 0], [0, 0, 0, 1 / 4, 1 / 4, 1 / 2, 1 / 2, 3 / 4, 3 / 4, 1, 1, 1], ?_, ?_, rfl, rfl, ?_, ?_, ?_⟩
    · norm_num [arcKnots, vset]; rfl
    · simp [forI, loopUp, vset]
    · intro k hk; interval_cases k <;> norm_num [nth]
    · intro k hk; interval_cases k <;> norm_num [nth]
    · norm_num [nth]

/-- the table of the angles of the segment ends -/
structure AngleTable (δ : ℝ) (m : ℕ) (cosines sines : List ℝ) : Prop where
  lenC : cosines.length = m + 1
  lenS : sines.length = m + 1
  cos : ∀ i, 1 ≤ i → i ≤ m → nth cosines i = Real.cos (i * δ)
  sin : ∀ i, 1 ≤ i → i ≤ m → nth sines i = Real.sin (i * δ)

theorem angles_run (δ : ℝ) (m : ℕ) (hm : 0 < m) :
    Runs (forI 1 ((m : ℤ) + 1) (⟨0, List.replicate ((m : ℤ) + 1).toNat 0, List.replicate ((m : ℤ) + 1).toNat 0⟩ : AngleState) fun i a => do
      let angle := a.angle + δ
      let cosines ← vset a.cosines i (Real.cos angle)
      let sines ← vset a.sines i (Real.sin angle)
      ok ⟨angle, cosines, sines⟩) (fun a => AngleTable δ m a.cosines a.sines) := by
  refine (Runs.forN (m := 1) (n := m + 1) (fun i a => a.angle = ((i - 1 : ℕ) : ℝ) * δ ∧ a.cosines.length = m + 1 ∧ a.sines.length = m + 1 ∧
    ∀ k, 1 ≤ k → k < i → nth a.cosines k = Real.cos (k * δ) ∧ nth a.sines k = Real.sin (k * δ)) rfl (by push_cast; rfl) (by omega) ?_ ?_).mono ?_
  · refine ⟨by simp, by simp, by simp, fun k h1 h2 => by omega⟩
  · rintro i a h1 h2 ⟨ha, hc, hs, h⟩
    have hang : a.angle + δ = (i : ℝ) * δ := by
      rw [ha, Nat.cast_sub h1]; push_cast; ring
    dsimp only
    rw [hang, vset_of (k := i) rfl (by omega), ok_bind, vset_of (k := i) rfl (by omega), ok_bind]
    refine Runs.ok ⟨by rw [show i + 1 - 1 = i by omega], by rw [List.length_set, hc], by rw [List.length_set, hs], fun k k1 k2 => ?_⟩
    dsimp only
    rw [nth_set (by omega), nth_set (by omega)]
    by_cases e : k = i
    · subst e; simp
    · rw [if_neg e, if_neg e]; exact h k k1 (by omega)
  · rintro a ⟨-, hc, hs, h⟩
    exact ⟨hc, hs, fun i h1 h2 => (h i h1 (by omega)).1, fun i h1 h2 => (h i h1 (by omega)).2⟩

/-! ### One column -/

/-- the state of the inner loop after `i` segments of column `j` -/
structure RevInv (cps0 : List (List (XYZW ℝ))) (O X Y : XYZ ℝ) (δ w : ℝ) (m n j i : ℕ) (s : RevState) : Prop where
  mat : IsMat s.cps (2 * m + 1) (n + 1)
  index : s.index = 2 * i
  p0 : i < m → s.P0 = arcPoint O X Y 1 1 (0 + i * δ)
  t0 : i < m → s.T0 = arcTangent X Y (0 + i * δ)
  even : ∀ k, k ≤ i → ent s.cps (2 * k) j = XYZW.ofXYZ (arcPoint O X Y 1 1 (0 + k * δ)) w
  odd : ∀ k, k < i → ent s.cps (2 * k + 1) j = XYZW.ofXYZ (arcCorner O X Y 1 δ (0 + k * δ)) (w * Real.cos (δ / 2))
  other : ∀ a b, b ≠ j → ent s.cps a b = ent cps0 a b

/-- the frame is either the one of a point on the axis, with the radius 0, or far enough from the axis, with the radius 1 -/
def GoodFrame (X Y : XYZ ℝ) (r : ℝ) : Prop :=
  (X = 0 ∧ Y = 0 ∧ r = 0) ∨ (r = 1 ∧ X.dot Y = 0 ∧ Y.dot Y = X.dot X ∧ 1 / 4 ≤ X.dot X)

theorem revRound_run {cps0 : List (List (XYZW ℝ))} {O X Y : XYZ ℝ} {δ w r : ℝ} {m n j i : ℕ} {s : RevState} {cosines sines : List ℝ}
    (hi : i < m) (hj : j ≤ n) (h : RevInv cps0 O X Y δ w m n j i s) (ht : AngleTable δ m cosines sines) (hf : GoodFrame X Y r)
    (hc : 0 < Real.cos (δ / 2)) (hs : 7 / 1000 ≤ Real.sin δ) :
    Runs (revRound O X Y r cosines sines (Real.cos (δ / 2)) w m j ((i + 1 : ℕ) : ℤ) s)
      (fun st => ∃ s', st = some s' ∧ RevInv cps0 O X Y δ w m n j (i + 1) s') := by
  have hang : 0 + i * δ + δ = 0 + ((i + 1 : ℕ) : ℝ) * δ := by push_cast; ring
  have hang0 : ((i + 1 : ℕ) : ℝ) * δ = 0 + i * δ + δ := by push_cast; ring
  have hP2 : (if isAlmostEqualTo r 0 = true then O else O + (r * Real.cos (((i + 1 : ℕ) : ℝ) * δ)) • X + (r * Real.sin (((i + 1 : ℕ) : ℝ) * δ)) • Y)
      = arcPoint O X Y 1 1 (0 + i * δ + δ) := by
    rcases hf with ⟨rfl, rfl, rfl⟩ | ⟨rfl, -, -, -⟩
    · rw [if_pos (isAlmostEqualTo_self doubleEps_pos)]
      simp [arcPoint]
    · rw [if_neg (by rw [isAlmostZero_iff]; norm_num), hang0]; rfl
  have hT2 : (-Real.sin (((i + 1 : ℕ) : ℝ) * δ)) • X + Real.cos (((i + 1 : ℕ) : ℝ) * δ) • Y = arcTangent X Y (0 + i * δ + δ) := by rw [hang0]; rfl
  unfold revRound
  rw [vget_nth (k := i + 1) rfl (by rw [ht.lenC]; omega), ok_bind, vget_nth (k := i + 1) rfl (by rw [ht.lenS]; omega), ok_bind,
    ht.cos _ (by omega) (by omega), ht.sin _ (by omega) (by omega)]
  dsimp only
  rw [hP2, hT2]
  obtain ⟨m1, r1, M1, E1⟩ := mset_ok h.mat (i := s.index + 2) (j := (j : ℤ)) (a := 2 * i + 2) (b := j)
    (x := XYZW.ofXYZ (arcPoint O X Y 1 1 (0 + i * δ + δ)) w) (by rw [h.index]; push_cast; ring) rfl (by omega) (by omega)
  rw [r1, ok_bind]
  obtain ⟨m2, r2, M2, E2⟩ := mset_ok M1 (i := s.index + 1) (j := (j : ℤ)) (a := 2 * i + 1) (b := j)
    (x := XYZW.ofXYZ (arcCorner O X Y 1 δ (0 + i * δ)) (Real.cos (δ / 2) * w)) (by rw [h.index]; push_cast; ring) rfl (by omega) (by omega)
  have heven : ∀ k, k ≤ i + 1 → ent m2 (2 * k) j = XYZW.ofXYZ (arcPoint O X Y 1 1 (0 + k * δ)) w := by
    intro k hk
    rw [E2, if_neg (by omega), E1]
    by_cases e : k = i + 1
    · subst e; rw [if_pos ⟨by ring, rfl⟩, hang]
    · rw [if_neg (by omega), h.even k (by omega)]
  have hodd : ∀ k, k < i + 1 → ent m2 (2 * k + 1) j = XYZW.ofXYZ (arcCorner O X Y 1 δ (0 + k * δ)) (w * Real.cos (δ / 2)) := by
    intro k hk
    rw [E2]
    by_cases e : k = i
    · subst e; rw [if_pos ⟨rfl, rfl⟩, mul_comm w]
    · rw [if_neg (by omega), E1, if_neg (by omega), h.odd k (by omega)]
  have hother : ∀ a b, b ≠ j → ent m2 a b = ent cps0 a b := by
    intro a b hb
    rw [E2, if_neg (by tauto), E1, if_neg (by tauto), h.other a b hb]
  have fin : Runs (if ((i + 1 : ℕ) : ℤ) < (m : ℤ) then ok (some ⟨m2, s.index + 2, arcPoint O X Y 1 1 (0 + i * δ + δ), arcTangent X Y (0 + i * δ + δ)⟩)
      else ok (some (⟨m2, s.index + 2, s.P0, s.T0⟩ : RevState))) (fun st => ∃ s', st = some s' ∧ RevInv cps0 O X Y δ w m n j (i + 1) s') := by
    split
    · refine Runs.ok ⟨_, rfl, ⟨M2, ?_, ?_, ?_, heven, hodd, hother⟩⟩
      · dsimp only; rw [h.index]; push_cast; ring
      · intro _; dsimp only; rw [hang]
      · intro _; dsimp only; rw [hang]
    · rename_i hge
      have hge' : ¬ i + 1 < m := by intro hh; exact hge (by exact_mod_cast hh)
      refine Runs.ok ⟨_, rfl, ⟨M2, ?_, fun hh => absurd hh hge', fun hh => absurd hh hge', heven, hodd, hother⟩⟩
      dsimp only; rw [h.index]; push_cast; ring
  rcases hf with ⟨rfl, rfl, rfl⟩ | ⟨rfl, f1, f2, f3⟩
  · rw [if_pos (isAlmostEqualTo_self doubleEps_pos)]
    have : arcCorner O 0 0 1 δ (0 + i * δ) = O := by simp [arcCorner]
    rw [this] at r2
    rw [r2, ok_bind]
    exact fin
  · rw [if_neg (by rw [isAlmostZero_iff]; norm_num), h.p0 hi, h.t0 hi]
    have hs1 := Real.sin_le_one δ
    have hnp : 1 / 1000000 * (1 + Real.sin δ ^ 2 * X.dot X ^ 2) < Real.sin δ ^ 2 * X.dot X ^ 2 := by
      have h1 : (7 / 1000) ^ 2 ≤ Real.sin δ ^ 2 := by nlinarith
      have h2 : (1 / 4) ^ 2 ≤ X.dot X ^ 2 := by nlinarith
      have h3 : (7 / 1000 : ℝ) ^ 2 * (1 / 4) ^ 2 ≤ Real.sin δ ^ 2 * X.dot X ^ 2 := mul_le_mul h1 h2 (by positivity) (by positivity)
      norm_num at h3 ⊢
      linarith
    rw [rays_circle f1 rfl f2 hc (by linarith) hnp, ok_bind]
    dsimp only
    rw [if_pos rfl]
    have : XYZW.ofXYZ (O + ((1 : ℝ) / Real.cos (δ / 2)) • (Real.cos (0 + i * δ + δ / 2) • X + Real.sin (0 + i * δ + δ / 2) • Y)) (Real.cos (δ / 2) * w)
        = XYZW.ofXYZ (arcCorner O X Y 1 δ (0 + i * δ)) (Real.cos (δ / 2) * w) := rfl
    rw [this, r2, ok_bind, ← h.p0 hi, ← h.t0 hi]
    exact fin

theorem revColumn_run {cps : List (List (XYZW ℝ))} {o k : XYZ ℝ} {δ : ℝ} {m n j : ℕ} {gp : XYZW ℝ} {cosines sines : List ℝ} (hm : 0 < m) (hj : j ≤ n)
    (hmat : IsMat cps (2 * m + 1) (n + 1)) (ht : AngleTable δ m cosines sines) (hk : k.dot k = 1)
    (hd : radial o k gp.toXYZ = 0 ∨ 1 / 4 ≤ (radial o k gp.toXYZ).dot (radial o k gp.toXYZ))
    (hc : 0 < Real.cos (δ / 2)) (hs : 7 / 1000 ≤ Real.sin δ) :
    Runs (revColumn o k cosines sines (Real.cos (δ / 2)) m j gp cps) (fun st => ∃ cps', st = some cps' ∧ IsMat cps' (2 * m + 1) (n + 1) ∧
      ArcPolygon (fun i => ent cps' i j) (o + k.dot (gp.toXYZ - o) • k) (radial o k gp.toXYZ) (k.cross (radial o k gp.toXYZ)) 1 0 δ gp.w m ∧
      ∀ a b, b ≠ j → ent cps' a b = ent cps a b) := by
  set p := gp.toXYZ with hp
  set X := radial o k p with hX
  have hO : pointToRay o k p = ok (o + k.dot (p - o) • k) := by
    unfold pointToRay
    dsimp only
    rw [hk, fdiv_ok one_ne_zero, ok_bind, div_one]
    congr 3
    simp only [XYZ.dot, XYZ.sub_x, XYZ.sub_y, XYZ.sub_z]; ring
  have hXe : p - (o + k.dot (p - o) • k) = X := by
    rw [hX]; unfold radial; abel
  have hf : ∃ r, X.normalize.length = r ∧ GoodFrame X (k.cross X) r ∧
      (if isGreaterThan r 0 then vdiv X r else ok X : Res (XYZ ℝ)) = ok X ∧ (if isGreaterThan r 0 then vdiv (k.cross X) r else ok (k.cross X) : Res (XYZ ℝ)) = ok (k.cross X) := by
    rcases hd with h0 | h1
    · refine ⟨0, ?_, Or.inl ⟨h0, ?_, rfl⟩, ?_, ?_⟩
      · rw [h0, (Props.C29_normalize 0).2]; simp [XYZ.length]
      · rw [h0]; ext <;> simp [XYZ.cross]
      · rw [if_neg]; simp [isGreaterThan, tolOf_pos doubleEps_pos |>.le]
      · rw [if_neg]; simp [isGreaterThan, tolOf_pos doubleEps_pos |>.le]
    · have hne : X ≠ 0 := by
        intro e; rw [e] at h1; norm_num [XYZ.dot] at h1
      have hgt : isGreaterThan (1 : ℝ) 0 = true := by
        unfold isGreaterThan tolOf doubleEps
        exact decide_eq_true (by norm_num)
      obtain ⟨e1, e2⟩ := frame_dot hk (radial_dot o p hk)
      refine ⟨1, ((Props.C29_normalize X).1 hne).1, Or.inr ⟨rfl, e1, e2, h1⟩, ?_, ?_⟩
      · rw [if_pos hgt, vdiv_ok one_ne_zero, inv_one, one_smul]
      · rw [if_pos hgt, vdiv_ok one_ne_zero, inv_one, one_smul]
  obtain ⟨r, hr, hgf, hX', hY'⟩ := hf
  unfold revColumn
  dsimp only
  rw [← hp, hO, ok_bind, hXe, hr, hX', ok_bind, hY', ok_bind]
  obtain ⟨m1, r1, M1, E1⟩ := mset_ok hmat (i := 0) (j := (j : ℤ)) (a := 0) (b := j) (x := XYZW.ofXYZ p gp.w) rfl rfl (by omega) (by omega)
  rw [r1, ok_bind]
  have hz : arcPoint (o + k.dot (p - o) • k) X (k.cross X) 1 1 0 = p := arcPoint_zero_angle o p
  have hT : arcTangent X (k.cross X) 0 = k.cross X := by
    unfold arcTangent; simp
  have hloop : Runs (forI 1 ((m : ℤ) + 1) (some (⟨m1, 0, p, k.cross X⟩ : RevState)) fun i st =>
      revStep (o + k.dot (p - o) • k) X (k.cross X) r cosines sines (Real.cos (δ / 2)) gp.w m j i st)
      (fun st => ∃ s, st = some s ∧ RevInv cps (o + k.dot (p - o) • k) X (k.cross X) δ gp.w m n j m s) := by
    refine (Runs.forN (m := 1) (n := m + 1) (fun i st => ∃ s, st = some s ∧ RevInv cps (o + k.dot (p - o) • k) X (k.cross X) δ gp.w m n j (i - 1) s)
      rfl (by push_cast; rfl) (by omega) ?_ ?_).mono ?_
    · refine ⟨_, rfl, ⟨M1, by simp, fun _ => by simp [hz], fun _ => by simp [hT], ?_, fun k hk => by omega, ?_⟩⟩
      · intro i hi
        have : i = 0 := by omega
        subst this
        dsimp only
        rw [E1]
        simp [hz]
      · intro a b hb
        dsimp only
        rw [E1, if_neg (by tauto)]
    · rintro i st h1 h2 ⟨s, rfl, hinv⟩
      obtain ⟨i, rfl⟩ : ∃ j, i = j + 1 := ⟨i - 1, by omega⟩
      exact revRound_run (by omega) hj hinv ht hgf hc hs
    · rintro st ⟨s, rfl, hinv⟩
      exact ⟨s, rfl, hinv⟩
  obtain ⟨st, hrun, s, rfl, hinv⟩ := hloop
  rw [hrun, ok_bind]
  exact Runs.ok ⟨_, rfl, hinv.mat, ⟨hinv.even, hinv.odd⟩, hinv.other⟩

/-- the run of `CreateRevolvedSurface` -/
theorem createRevolved_run {o k : XYZ ℝ} {rad : ℝ} {c : NurbsCurve ℝ} {n : ℕ} (hk : k.dot k = 1) (hl : c.cps.length = n + 1)
    (hmin : 1 / 100 ≤ rad) (hmax : rad ≤ 2 * Real.pi)
    (hd : ∀ j, j ≤ n → radial o k (nth c.cps j).toXYZ = 0 ∨ 1 / 4 ≤ (radial o k (nth c.cps j).toXYZ).dot (radial o k (nth c.cps j).toXYZ)) :
    ∃ (m : ℕ) (U : List ℝ) (cps : List (List (XYZW ℝ))), createRevolvedSurface o k rad c = ok (some ⟨2, c.degree, U, c.knots, cps⟩) ∧
      0 < m ∧ m ≤ 4 ∧ U.length = 2 * m + 4 ∧ ChainKnots (nth U) m ∧ 0 < rad / m ∧ rad / m < Real.pi ∧ IsMat cps (2 * m + 1) (n + 1) ∧
      ∀ j, j ≤ n → ArcPolygon (fun i => ent cps i j) (o + k.dot ((nth c.cps j).toXYZ - o) • k) (radial o k (nth c.cps j).toXYZ)
        (k.cross (radial o k (nth c.cps j).toXYZ)) 1 0 (rad / m) (nth c.cps j).w m := by
  obtain ⟨m, hm, hm0, hm4, hδ0, hδ1⟩ := arcCount_spec hmin hmax
  have hpi := Real.pi_gt_three
  set δ := rad / m with hδ
  have hc : 0 < Real.cos (δ / 2) := cos_half_pos (by linarith) (by linarith)
  have hs := sin_ge_small hδ0 hδ1
  have hm' : (m : ℝ) ≠ 0 := by positivity
  obtain ⟨k1, U, hk1, hU, hUl, hUc⟩ := revKnots_run m hm0 hm4
  obtain ⟨a, ha, htab⟩ := angles_run δ m hm0
  have hz : k.isZero = false := by
    have := isZero_smul_unit (a := 1) (by norm_num) hk
    rwa [one_smul] at this
  have hloop : Runs (forI 0 ((n : ℤ) + 1) (some (List.replicate (2 * m + 1) (List.replicate (n + 1) (0 : XYZW ℝ)))) fun j cps => do
      let gp ← vget c.cps j
      revColumnStep o k a.cosines a.sines (Real.cos (δ / 2)) m j gp cps) (fun st => ∃ cps, st = some cps ∧ IsMat cps (2 * m + 1) (n + 1) ∧
      ∀ j, j ≤ n → ArcPolygon (fun i => ent cps i j) (o + k.dot ((nth c.cps j).toXYZ - o) • k) (radial o k (nth c.cps j).toXYZ)
        (k.cross (radial o k (nth c.cps j).toXYZ)) 1 0 δ (nth c.cps j).w m) := by
    refine (Runs.forN (m := 0) (n := n + 1) (fun J st => ∃ cps, st = some cps ∧ IsMat cps (2 * m + 1) (n + 1) ∧
      ∀ j, j < J → ArcPolygon (fun i => ent cps i j) (o + k.dot ((nth c.cps j).toXYZ - o) • k) (radial o k (nth c.cps j).toXYZ)
        (k.cross (radial o k (nth c.cps j).toXYZ)) 1 0 δ (nth c.cps j).w m) rfl (by push_cast; rfl) (by omega) ?_ ?_).mono ?_
    · exact ⟨_, rfl, isMat_replicate, fun j hj => absurd hj (by omega)⟩
    · rintro J st - hJ ⟨cps, rfl, hmat, h⟩
      rw [vget_nth rfl (by omega), ok_bind]
      refine (revColumn_run (n := n) hm0 (by omega) hmat htab hk (hd J (by omega)) hc hs).mono ?_
      rintro st ⟨cps', rfl, hmat', hpoly, hoth⟩
      refine ⟨cps', rfl, hmat', fun j hj => ?_⟩
      by_cases e : j = J
      · subst e; exact hpoly
      · have := h j (by omega)
        refine ⟨fun i hi => ?_, fun i hi => ?_⟩
        · rw [hoth _ _ e]; exact this.even i hi
        · rw [hoth _ _ e]; exact this.odd i hi
    · rintro st ⟨cps, rfl, hmat, h⟩
      exact ⟨cps, rfl, hmat, fun j hj => h j (by omega)⟩
  obtain ⟨st, hrun, cps, rfl, hmat, hpoly⟩ := hloop
  refine ⟨m, U, cps, ?_, hm0, hm4, hUl, hUc, by linarith, by linarith, hmat, hpoly⟩
  unfold createRevolvedSurface
  rw [hz]
  dsimp only
  rw [hm, hk1, fdiv_ok (by exact_mod_cast hm')]
  simp only [Bool.not_false, validate_true, ok_bind]
  rw [hU, ok_bind, show rad / ((m : ℤ) : ℝ) = δ by rw [hδ]; push_cast; rfl, ha, ok_bind, hl]
  rw [show ((n + 1 : ℕ) : ℤ) - 1 + 1 = (n : ℤ) + 1 by push_cast; ring, show (2 * (m : ℤ) + 1).toNat = 2 * m + 1 by omega,
    show ((n : ℤ) + 1).toNat = n + 1 by omega, hrun, ok_bind]
  rfl

end LNLib
