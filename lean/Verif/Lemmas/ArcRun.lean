import Verif.Lemmas.ArcCurve
import Verif.Core.Hoare
import Mathlib.Tactic.IntervalCases
import Verif.Lemmas.RefineRun

/-!
# The run of `CreateArc` for equal radii and perpendicular axes
-/

namespace LNLib
open Res Spec Finset

/-! ### Arc control polygons -/

/-- The corner of the `k`-th segment. -/
noncomputable def arcCorner (O X Y : XYZ ℝ) (r δ a : ℝ) : XYZ ℝ :=
  O + (r / Real.cos (δ / 2)) • (Real.cos (a + δ / 2) • X + Real.sin (a + δ / 2) • Y)

/-- The control points of an arc of `m` segments of angle `δ` starting at the angle `α`, all weights times `w`. -/
structure ArcPolygon (P : ℕ → XYZW ℝ) (O X Y : XYZ ℝ) (r α δ w : ℝ) (m : ℕ) : Prop where
  even : ∀ k, k ≤ m → P (2 * k) = XYZW.ofXYZ (arcPoint O X Y r r (α + k * δ)) w
  odd : ∀ k, k < m → P (2 * k + 1) = XYZW.ofXYZ (arcCorner O X Y r δ (α + k * δ)) (w * Real.cos (δ / 2))

theorem bez2_arc {O X Y : XYZ ℝ} {r δ w a s : ℝ} (h0 : 0 < δ) (h1 : δ < Real.pi) (hs0 : 0 ≤ s) (hs1 : s ≤ 1) :
    bez2 (XYZW.ofXYZ (arcPoint O X Y r r a) w) (XYZW.ofXYZ (arcCorner O X Y r δ a) (w * Real.cos (δ / 2)))
      (XYZW.ofXYZ (arcPoint O X Y r r (a + δ)) w) s = XYZW.ofXYZ (arcPoint O X Y r r (a + arcPhi δ s)) (w * arcW δ s) := by
  have hc := cos_half_pos h0 h1
  obtain ⟨e1, e2⟩ := arc_conic h0 h1 hs0 hs1 a
  have e3 : ∀ o x y : ℝ, (o + r / Real.cos (δ / 2) * (Real.cos (a + δ / 2) * x + Real.sin (a + δ / 2) * y)) * (w * Real.cos (δ / 2))
      = w * (o * Real.cos (δ / 2) + r * (Real.cos (a + δ / 2) * x + Real.sin (a + δ / 2) * y)) := by
    intro o x y; field_simp
  have comp : ∀ o x y : ℝ, (1 - s) ^ 2 * ((o + r * Real.cos a * x + r * Real.sin a * y) * w)
      + 2 * s * (1 - s) * ((o + r / Real.cos (δ / 2) * (Real.cos (a + δ / 2) * x + Real.sin (a + δ / 2) * y)) * (w * Real.cos (δ / 2)))
      + s ^ 2 * ((o + r * Real.cos (a + δ) * x + r * Real.sin (a + δ) * y) * w)
      = (o + r * Real.cos (a + arcPhi δ s) * x + r * Real.sin (a + arcPhi δ s) * y) * (w * arcW δ s) := by
    intro o x y
    have e4 : arcW δ s = (1 - s) ^ 2 + 2 * s * (1 - s) * Real.cos (δ / 2) + s ^ 2 := rfl
    rw [e3]
    linear_combination w * r * x * e1 + w * r * y * e2 - w * o * e4
  have hw : (1 - s) ^ 2 * w + 2 * s * (1 - s) * (w * Real.cos (δ / 2)) + s ^ 2 * w = w * arcW δ s := by unfold arcW; ring
  ext
  · exact comp O.x X.x Y.x
  · exact comp O.y X.y Y.y
  · exact comp O.z X.z Y.z
  · exact hw

namespace ArcPolygon
variable {U : ℕ → ℝ} {m : ℕ} {P : ℕ → XYZW ℝ} {O X Y : XYZ ℝ} {r α δ w : ℝ}

/-- the homogeneous point of the arc at every parameter -/
theorem point (h : ArcPolygon P O X Y r α δ w m) (hU : ChainKnots U m) (h0 : 0 < δ) (h1 : δ < Real.pi) {k : ℕ} (hk : k < m) {u : ℝ}
    (hu0 : (k : ℝ) / m ≤ u) (hu1 : u ≤ ((k + 1 : ℕ) : ℝ) / m) :
    curvePoint U 2 (2 * m) P u = XYZW.ofXYZ (arcPoint O X Y r r (α + k * δ + arcPhi δ (u * m - k))) (w * arcW δ (u * m - k)) := by
  obtain ⟨l0, l1⟩ := ChainKnots.local_mem (by omega) hu0 hu1
  have := h.even (k + 1) (by omega)
  rw [show 2 * (k + 1) = 2 * k + 2 by ring, show α + ((k + 1 : ℕ) : ℝ) * δ = α + k * δ + δ by push_cast; ring] at this
  rw [hU.seg hk hu0 hu1, h.even k hk.le, h.odd k hk, this, bez2_arc h0 h1 l0 l1]

/-- the angle reached at the parameter `u` does not depend on the data of the arc other than the angles -/
theorem exists_angle (m : ℕ) {δ : ℝ} (α : ℝ) (hm : 0 < m) (h0 : 0 < δ) (h1 : δ < Real.pi) {u : ℝ} (hu0 : 0 ≤ u) (hu1 : u ≤ 1) :
    ∃ θ W : ℝ, α ≤ θ ∧ θ ≤ α + m * δ ∧ 1 / 2 ≤ W ∧ (u = 0 → θ = α) ∧ (u = 1 → θ = α + m * δ) ∧
      ∀ (U : ℕ → ℝ) (P : ℕ → XYZW ℝ) (O X Y : XYZ ℝ) (r w : ℝ), ChainKnots U m → ArcPolygon P O X Y r α δ w m →
        curvePoint U 2 (2 * m) P u = XYZW.ofXYZ (arcPoint O X Y r r θ) (w * W) := by
  have hm' : (0 : ℝ) < m := by positivity
  obtain ⟨k, hk, hk0, hk1⟩ := ChainKnots.exists_seg m hm hu0 hu1
  obtain ⟨l0, l1⟩ := ChainKnots.local_mem hm hk0 hk1
  obtain ⟨p0, p1⟩ := arcPhi_mem h0 h1 l0 l1
  have hkm : ((k : ℝ) + 1) ≤ m := by exact_mod_cast hk
  have hk0' : (0 : ℝ) ≤ k := by positivity
  refine ⟨α + k * δ + arcPhi δ (u * m - k), arcW δ (u * m - k), by nlinarith, by nlinarith, arcW_ge (cos_half_pos h0 h1).le l0 l1, ?_, ?_,
    fun U P O X Y r w hU hP => hP.point hU h0 h1 hk hk0 hk1⟩
  · intro hu
    subst hu
    have hkz : (k : ℝ) = 0 := by
      rw [div_le_iff₀ hm', zero_mul] at hk0; linarith
    rw [hkz, show (0 : ℝ) * m - 0 = 0 by ring, arcPhi_zero h0 h1]; ring
  · intro hu
    subst hu
    have : (m : ℝ) = k + 1 := by
      rw [le_div_iff₀ hm'] at hk1; push_cast at hk1; linarith
    rw [this, show (1 : ℝ) * (k + 1) - k = 1 by ring, arcPhi_one h0 h1]; ring

/-- every angle is reached -/
theorem exists_param (m : ℕ) {δ : ℝ} (α : ℝ) (hm : 0 < m) (h0 : 0 < δ) (h1 : δ < Real.pi) {θ : ℝ} (hθ0 : α ≤ θ) (hθ1 : θ ≤ α + m * δ) :
    ∃ u W : ℝ, 0 ≤ u ∧ u ≤ 1 ∧ 1 / 2 ≤ W ∧
      ∀ (U : ℕ → ℝ) (P : ℕ → XYZW ℝ) (O X Y : XYZ ℝ) (r w : ℝ), ChainKnots U m → ArcPolygon P O X Y r α δ w m →
        curvePoint U 2 (2 * m) P u = XYZW.ofXYZ (arcPoint O X Y r r θ) (w * W) := by
  have hm' : (0 : ℝ) < m := by positivity
  obtain ⟨k, hk, hk0, hk1⟩ := ChainKnots.exists_seg m (u := (θ - α) / (m * δ)) hm (div_nonneg (by linarith) (by positivity))
    (by rw [div_le_one (by positivity)]; linarith)
  rw [div_le_div_iff₀ hm' (by positivity)] at hk0
  rw [div_le_div_iff₀ (by positivity) hm'] at hk1
  push_cast at hk1
  have a0 : k * δ ≤ θ - α := by
    have : m * (k * δ) ≤ m * (θ - α) := by linarith
    exact le_of_mul_le_mul_left this hm'
  have a1 : θ - α ≤ k * δ + δ := by
    have : m * (θ - α) ≤ m * (k * δ + δ) := by linarith
    exact le_of_mul_le_mul_left this hm'
  obtain ⟨s, s0, s1, hs⟩ := arcPhi_surj h0 h1 (φ := θ - α - k * δ) (by linarith) (by linarith)
  have hkm : ((k : ℝ) + 1) ≤ m := by exact_mod_cast hk
  have hk0' : (0 : ℝ) ≤ k := by positivity
  have e : (k + s) / m * m - k = s := by field_simp; ring
  refine ⟨(k + s) / m, arcW δ s, by positivity, by rw [div_le_one hm']; linarith, arcW_ge (cos_half_pos h0 h1).le s0 s1, ?_⟩
  intro U P O X Y r w hU hP
  rw [hP.point hU h0 h1 hk (by rw [div_le_div_iff_of_pos_right hm']; linarith) (by rw [div_le_div_iff_of_pos_right hm']; push_cast; linarith), e, hs]
  congr 2; ring

end ArcPolygon

/-! ### The number of segments -/

theorem constPi_lt : constPi < Real.pi := by unfold constPi; exact Real.pi_gt_d20
theorem constPi_bounds : 3.1415926 < constPi ∧ constPi < 3.1415927 := by unfold constPi; norm_num

theorem arcCount_spec {θ : ℝ} (h0 : 1 / 100 ≤ θ) (h1 : θ ≤ 2 * Real.pi) :
    ∃ m : ℕ, arcCount θ = m ∧ 0 < m ∧ m ≤ 4 ∧ 1 / 100 ≤ θ / m ∧ θ / m ≤ 1.6 := by
  have hb := constPi_bounds
  have hp := Real.pi_lt_d6
  have hb' := hb.1; have hb'' := hb.2
  have tol : ∀ a : ℝ, 0 ≤ a → a ≤ 10 → θ ≤ 10 → tolOf θ a doubleEps ≤ 0.000011 ∧ 0 ≤ tolOf θ a doubleEps := by
    intro a ha0 ha hθ
    unfold tolOf doubleEps
    rw [abs_of_nonneg (by linarith), abs_of_nonneg ha0]
    have := max_le hθ ha
    have := le_max_right θ a
    constructor <;> linarith
  have t1 := tol (constPi / 2) (by linarith) (by linarith) (by linarith)
  have t2 := tol constPi (by linarith) (by linarith) (by linarith)
  have t3 := tol (3 * constPi / 2) (by linarith) (by linarith) (by linarith)
  unfold arcCount isLessThanOrEqual
  by_cases c1 : θ - constPi / 2 ≤ tolOf θ (constPi / 2) doubleEps
  · rw [if_pos (by simpa using c1)]
    exact ⟨1, rfl, by omega, by omega, by push_cast; linarith, by push_cast; linarith⟩
  · rw [if_neg (by simpa using c1)]
    push Not at c1
    by_cases c2 : θ - constPi ≤ tolOf θ constPi doubleEps
    · rw [if_pos (by simpa using c2)]
      exact ⟨2, rfl, by omega, by omega, by push_cast; linarith, by push_cast; linarith⟩
    · rw [if_neg (by simpa using c2)]
      push Not at c2
      by_cases c3 : θ - 3 * constPi / 2 ≤ tolOf θ (3 * constPi / 2) doubleEps
      · rw [if_pos (by simpa using c3)]
        exact ⟨3, rfl, by omega, by omega, by push_cast; linarith, by push_cast; linarith⟩
      · rw [if_neg (by simpa using c3)]
        push Not at c3
        exact ⟨4, rfl, by omega, by omega, by push_cast; linarith, by push_cast; linarith⟩

theorem sin_ge_small {δ : ℝ} (h0 : 1 / 100 ≤ δ) (h1 : δ ≤ 1.6) : 7 / 1000 ≤ Real.sin δ := by
  rcases le_or_gt δ 1 with h | h
  · have h2 := Real.sin_gt_sub_cube (by linarith : 0 < δ)
    nlinarith [mul_nonneg (by linarith : 0 ≤ δ) (by nlinarith : 0 ≤ 1 - δ ^ 2)]
  · have hp := Real.pi_gt_d6
    have hp' := Real.pi_lt_d6
    rw [← Real.cos_pi_div_two_sub]
    have := Real.one_sub_sq_div_two_le_cos (x := Real.pi / 2 - δ)
    nlinarith

/-! ### The loop -/

theorem arcKnots_run (m : ℕ) (h0 : 0 < m) (h4 : m ≤ 4) :
    ∃ k1 k2 : List ℝ, (forI 0 3 (List.replicate (2 * (m : ℤ) + 2 + 1 + 1).toNat (0 : ℝ)) fun i k => do
      let k ← vset k i (0 : ℝ)
      vset k (i + (2 * (m : ℤ) + 1)) (1 : ℝ)) = ok k1 ∧ arcKnots m k1 = ok k2 ∧ k2.length = 2 * m + 4 ∧ ChainKnots (nth k2) m := by
  have hm : m = 1 ∨ m = 2 ∨ m = 3 ∨ m = 4 := by omega
  rcases hm with rfl | rfl | rfl | rfl
  · refine ⟨[0, 0, 0, 1, 1, 1], [0, 0, 0, 1, 1, 1], ?_, rfl, rfl, rfl, ?_, ?_, ?_⟩
    · simp [forI, loopUp, vset]
    · intro k hk; interval_cases k <;> norm_num [nth]
    · intro k hk; interval_cases k <;> norm_num [nth]
    · norm_num [nth]
  · refine ⟨[0, 0, 0, 0, 0, 1, 1, 1], [0, 0, 0, 1 / 2, 1 / 2, 1, 1, 1], ?_, ?_, rfl, rfl, ?_, ?_, ?_⟩
    · simp [forI, loopUp, vset]
    · norm_num [arcKnots, vset]; rfl
    · intro k hk; interval_cases k <;> norm_num [nth]
    · intro k hk; interval_cases k <;> norm_num [nth]
    · norm_num [nth]
  · refine ⟨[0, 0, 0, 0, 0, 0, 0, 1, 1, 1], [0, 0, 0, 1 / 3, 1 / 3, 2 / 3, 2 / 3, 1, 1, 1], ?_, ?_, rfl, rfl, ?_, ?_, ?_⟩
    · simp [forI, loopUp, vset]
    · norm_num [arcKnots, vset]; rfl
    · intro k hk; interval_cases k <;> norm_num [nth]
    · intro k hk; interval_cases k <;> norm_num [nth]
    · norm_num [nth]
  · refine ⟨[0, 0, 0, 0, 0, 0, 0, 0, 0, 1, 1, 1], [0, 0, 0, 1 / 4, 1 / 4, 1 / 2, 1 / 2, 3 / 4, 3 / 4, 1, 1, 1], ?_, ?_, rfl, rfl, ?_, ?_, ?_⟩
    · simp [forI, loopUp, vset]
    · norm_num [arcKnots, vset]; rfl
    · intro k hk; interval_cases k <;> norm_num [nth]
    · intro k hk; interval_cases k <;> norm_num [nth]
    · norm_num [nth]

/-- the state of the arc loop after `i` segments -/
structure ArcInv (O X Y : XYZ ℝ) (r α δ : ℝ) (m i : ℕ) (s : ArcState) : Prop where
  len : s.cps.length = 2 * m + 1
  angle : s.angle = α + i * δ
  index : s.index = 2 * i
  p0 : i < m → s.P0 = arcPoint O X Y r r (α + i * δ)
  t0 : i < m → s.T0 = arcTangent X Y (α + i * δ)
  even : ∀ k, k ≤ i → nth s.cps (2 * k) = XYZW.ofXYZ (arcPoint O X Y r r (α + k * δ)) 1
  odd : ∀ k, k < i → nth s.cps (2 * k + 1) = XYZW.ofXYZ (arcCorner O X Y r δ (α + k * δ)) (Real.cos (δ / 2))

theorem arcRound_run {O X Y : XYZ ℝ} {r α δ : ℝ} {m i : ℕ} {s : ArcState} (hi : i < m) (h : ArcInv O X Y r α δ m i s)
    (hXY : X.dot Y = 0) (hX : X.dot X = 1) (hY : Y.dot Y = 1) (hc : 0 < Real.cos (δ / 2)) (hs : 7 / 1000 ≤ Real.sin δ) :
    Runs (arcRound O X Y r r δ (Real.cos (δ / 2)) m ((i + 1 : ℕ) : ℤ) s) (fun st => ∃ s', st = some s' ∧ ArcInv O X Y r α δ m (i + 1) s') := by
  have hang : s.angle + δ = α + i * δ + δ := by rw [h.angle]
  have hang' : α + i * δ + δ = α + ((i + 1 : ℕ) : ℝ) * δ := by push_cast; ring
  have hs1 := Real.sin_le_one δ
  have hrays := rays_circle (O := O) (X := X) (Y := Y) (ρ := 1) (α := α + i * δ) (δ := δ) (r := r) (old := (0, 0, 0)) hXY hX hY hc (by linarith) (by nlinarith)
  unfold arcRound
  dsimp only
  rw [hang, vset_of (k := 2 * i + 2) (by rw [h.index]; push_cast; ring) (by rw [h.len]; omega), ok_bind, h.p0 hi, h.t0 hi, hrays, ok_bind]
  dsimp only
  rw [if_pos rfl, vset_of (k := 2 * i + 1) (by rw [h.index]; push_cast; ring) (by rw [List.length_set, h.len]; omega), ok_bind]
  have hl : (s.cps.set (2 * i + 2) (XYZW.ofXYZ (arcPoint O X Y r r (α + i * δ + δ)) 1)).length = 2 * m + 1 := by
    rw [List.length_set, h.len]
  have hcps : ∀ j, nth ((s.cps.set (2 * i + 2) (XYZW.ofXYZ (arcPoint O X Y r r (α + i * δ + δ)) 1)).set (2 * i + 1)
      (XYZW.ofXYZ (O + (r / Real.cos (δ / 2)) • (Real.cos (α + i * δ + δ / 2) • X + Real.sin (α + i * δ + δ / 2) • Y)) (Real.cos (δ / 2)))) j
      = if j = 2 * i + 1 then XYZW.ofXYZ (arcCorner O X Y r δ (α + i * δ)) (Real.cos (δ / 2))
        else if j = 2 * i + 2 then XYZW.ofXYZ (arcPoint O X Y r r (α + i * δ + δ)) 1 else nth s.cps j := by
    intro j
    rw [nth_set (by rw [hl]; omega), nth_set (by rw [h.len]; omega)]; rfl
  have heven : ∀ k, k ≤ i + 1 → (if 2 * k = 2 * i + 1 then XYZW.ofXYZ (arcCorner O X Y r δ (α + i * δ)) (Real.cos (δ / 2))
        else if 2 * k = 2 * i + 2 then XYZW.ofXYZ (arcPoint O X Y r r (α + i * δ + δ)) 1 else nth s.cps (2 * k))
      = XYZW.ofXYZ (arcPoint O X Y r r (α + k * δ)) 1 := by
    intro k hk
    rw [if_neg (by omega)]
    by_cases e : k = i + 1
    · subst e; rw [if_pos (by ring), hang']
    · rw [if_neg (by omega), h.even k (by omega)]
  have hodd : ∀ k, k < i + 1 → (if 2 * k + 1 = 2 * i + 1 then XYZW.ofXYZ (arcCorner O X Y r δ (α + i * δ)) (Real.cos (δ / 2))
        else if 2 * k + 1 = 2 * i + 2 then XYZW.ofXYZ (arcPoint O X Y r r (α + i * δ + δ)) 1 else nth s.cps (2 * k + 1))
      = XYZW.ofXYZ (arcCorner O X Y r δ (α + k * δ)) (Real.cos (δ / 2)) := by
    intro k hk
    by_cases e : k = i
    · subst e; rw [if_pos rfl]
    · rw [if_neg (by omega), if_neg (by omega), h.odd k (by omega)]
  split
  · rename_i hlt
    refine Runs.ok ⟨_, rfl, ⟨by dsimp only; rw [List.length_set, hl], by dsimp only; exact hang', by dsimp only; rw [h.index]; push_cast; ring,
      fun _ => by dsimp only; rw [hang'], fun _ => by dsimp only; rw [hang'], ?_, ?_⟩⟩
    · intro k hk; dsimp only; rw [hcps]; exact heven k hk
    · intro k hk; dsimp only; rw [hcps]; exact hodd k hk
  · rename_i hge
    have hge' : ¬ i + 1 < m := by intro hh; exact hge (by exact_mod_cast hh)
    refine Runs.ok ⟨_, rfl, ⟨by dsimp only; rw [List.length_set, hl], by dsimp only; exact hang', by dsimp only; rw [h.index]; push_cast; ring,
      fun hh => absurd hh hge', fun hh => absurd hh hge', ?_, ?_⟩⟩
    · intro k hk; dsimp only; rw [hcps]; exact heven k hk
    · intro k hk; dsimp only; rw [hcps]; exact hodd k hk

theorem normalize_unit {e : XYZ ℝ} {a : ℝ} (ha : 0 < a) (he : e.dot e = 1) : (a • e).normalize = e := by
  simp only [XYZ.dot] at he
  have hl : (a • e).length = a := by
    unfold XYZ.length
    rw [show (a • e).x * (a • e).x + (a • e).y * (a • e).y + (a • e).z * (a • e).z = a ^ 2 by
      simp only [XYZ.smul_x, XYZ.smul_y, XYZ.smul_z]; linear_combination a ^ 2 * he]
    exact Real.sqrt_sq ha.le
  unfold XYZ.normalize
  rw [if_pos (by rw [hl]; exact ha), hl]
  ext <;> simp only [XYZ.smul_x, XYZ.smul_y, XYZ.smul_z] <;> field_simp

theorem isZero_smul_unit {e : XYZ ℝ} {a : ℝ} (ha : 1 / 1000000 < a) (he : e.dot e = 1) : (a • e).isZero = false := by
  simp only [XYZ.dot] at he
  have h1 : (a • e).sqrLength = a * a := by
    simp only [XYZ.sqrLength, XYZ.smul_x, XYZ.smul_y, XYZ.smul_z]; linear_combination a ^ 2 * he
  unfold XYZ.isZero doubleEps
  rw [h1]
  exact decide_eq_false (by nlinarith)

/-- the run of `CreateArc` -/
theorem createArc_run {O ex ey : XYZ ℝ} {a b α β r : ℝ} (ha : 1 / 1000000 < a) (hb : 1 / 1000000 < b)
    (hX : ex.dot ex = 1) (hY : ey.dot ey = 1) (hXY : ex.dot ey = 0) (hr : 1 / 1000000 * (1 + |r|) < r)
    (hlt : 1 / 1000000 * (1 + max |β| |α|) < β - α) (hmin : 1 / 100 ≤ β - α) (hmax : β - α ≤ 2 * Real.pi) :
    ∃ (m : ℕ) (c : NurbsCurve ℝ), createArc O (a • ex) (b • ey) α β r r = ok (some c) ∧ 0 < m ∧ m ≤ 4 ∧ c.degree = 2 ∧ c.knots.length = 2 * m + 4 ∧
      c.cps.length = 2 * m + 1 ∧ ChainKnots (nth c.knots) m ∧ 0 < (β - α) / m ∧ (β - α) / m < Real.pi ∧ (β - α) / m ≤ 1.6 ∧
      ArcPolygon (nth c.cps) O ex ey r α ((β - α) / m) 1 m := by
  obtain ⟨m, hm, hm0, hm4, hδ0, hδ1⟩ := arcCount_spec hmin hmax
  have hpi := Real.pi_gt_three
  have hp6 := Real.pi_lt_d6
  have hbd := constPi_bounds
  have hbd1 := hbd.1
  set δ := (β - α) / m with hδ
  have hc : 0 < Real.cos (δ / 2) := cos_half_pos (by linarith) (by linarith)
  have hs := sin_ge_small hδ0 hδ1
  obtain ⟨k1, k2, hk1, hk2, hkl, hkc⟩ := arcKnots_run m hm0 hm4
  have hm' : (m : ℝ) ≠ 0 := by positivity
  have hrr : isGreaterThan r 0 = true := by
    unfold isGreaterThan tolOf doubleEps
    rw [abs_zero, sub_zero, max_eq_left (abs_nonneg r)]; exact decide_eq_true hr
  have hβ : isGreaterThan β α = true := by
    unfold isGreaterThan tolOf doubleEps; exact decide_eq_true hlt
  have hrange : validateRange (β - α) 0 (2 * constPi) = ok () := by
    unfold validateRange
    rw [if_neg]
    push Not
    refine ⟨fun h => by linarith, fun h => ?_⟩
    rw [abs_of_pos (by linarith)]
    unfold doubleEps constPi
    have := Real.pi_lt_d20
    linarith
  have hloop : Runs (forI 1 ((m : ℤ) + 1) (some (⟨(List.replicate (2 * m + 1) (0 : XYZW ℝ)).set 0 (XYZW.ofXYZ (arcPoint O ex ey r r α) 1), α,
      arcPoint O ex ey r r α, arcTangent ex ey α, 0⟩ : ArcState)) fun i st =>
        arcStep O ex ey r r δ (Real.cos (δ / 2)) m i st) (fun st => ∃ s, st = some s ∧ ArcInv O ex ey r α δ m m s) := by
    refine (Runs.forN (m := 1) (n := m + 1) (fun i st => ∃ s, st = some s ∧ ArcInv O ex ey r α δ m (i - 1) s) rfl (by push_cast; rfl) (by omega) ?_ ?_).mono ?_
    · refine ⟨_, rfl, ⟨by simp, by simp, by simp, fun _ => by simp, fun _ => by simp, ?_, fun k hk => by omega⟩⟩
      intro k hk
      have : k = 0 := by omega
      subst this
      dsimp only
      rw [nth_set (by simp)]
      simp
    · rintro i st h1 h2 ⟨s, rfl, hinv⟩
      obtain ⟨i, rfl⟩ : ∃ j, i = j + 1 := ⟨i - 1, by omega⟩
      exact arcRound_run (by omega) hinv hXY hX hY hc hs
    · rintro st ⟨s, rfl, hinv⟩
      exact ⟨s, rfl, hinv⟩
  obtain ⟨st, hrun, s, rfl, hinv⟩ := hloop
  refine ⟨m, { degree := 2, knots := k2, cps := s.cps }, ?_, hm0, hm4, rfl, hkl, hinv.len, hkc, by linarith, by linarith, hδ1, ⟨hinv.even, fun k hk => ?_⟩⟩
  · unfold createArc
    rw [isZero_smul_unit ha hX, isZero_smul_unit hb hY, hβ, hrr]
    dsimp only
    simp only [Bool.not_false, validate_true, ok_bind]
    rw [hrange, ok_bind, hm, fdiv_ok (by exact_mod_cast hm'), ok_bind, normalize_unit (by linarith) hX, normalize_unit (by linarith) hY]
    rw [show (2 * (m : ℤ) + 1).toNat = 2 * m + 1 by omega, vset_of (i := 0) (k := 0) rfl (by simp), ok_bind]
    rw [show (β - α) / ((m : ℤ) : ℝ) = δ by rw [hδ]; push_cast; rfl, hrun, ok_bind]
    dsimp only
    rw [hk1, ok_bind, hk2, ok_bind]
  · rw [one_mul]; exact hinv.odd k hk

end LNLib
