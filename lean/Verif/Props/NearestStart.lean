import Verif.Props.SurfaceNearest

/-!
# C114 and C149: where the searches for the nearest point start
-/

namespace LNLib.Props
open LNLib Res LNLib.Spec Finset

/-- the foot of the perpendicular, clamped, is the nearest point of a segment -/
theorem clamped_foot {A d P : XYZ ℝ} (hL : 0 < d.dot d) {r : ℝ} (h0 : 0 ≤ r) (h1 : r ≤ 1) :
    (P - (A + (max 0 (min 1 ((P - A).dot d / d.dot d))) • d)).dot (P - (A + (max 0 (min 1 ((P - A).dot d / d.dot d))) • d)) ≤ (P - (A + r • d)).dot (P - (A + r • d)) := by
  have expand : ∀ t : ℝ, (P - (A + t • d)).dot (P - (A + t • d)) = (P - A).dot (P - A) - 2 * t * (P - A).dot d + t ^ 2 * d.dot d := by
    intro t
    obtain ⟨a1, a2, a3⟩ := A
    obtain ⟨d1, d2, d3⟩ := d
    obtain ⟨p1, p2, p3⟩ := P
    change (p1 - (a1 + t * d1)) * (p1 - (a1 + t * d1)) + (p2 - (a2 + t * d2)) * (p2 - (a2 + t * d2)) + (p3 - (a3 + t * d3)) * (p3 - (a3 + t * d3)) =
      ((p1 - a1) * (p1 - a1) + (p2 - a2) * (p2 - a2) + (p3 - a3) * (p3 - a3)) - 2 * t * ((p1 - a1) * d1 + (p2 - a2) * d2 + (p3 - a3) * d3) + t ^ 2 * (d1 * d1 + d2 * d2 + d3 * d3)
    ring
  rw [expand, expand]
  set L := d.dot d
  set k := (P - A).dot d
  set c := k / L with hc
  have hk : k = c * L := by rw [hc]; field_simp
  rw [hk]
  rcases le_total c 0 with g | g
  · rw [min_eq_right (g.trans zero_le_one), max_eq_left g]
    nlinarith [mul_nonneg h0 hL.le, mul_nonneg (mul_nonneg h0 hL.le) (neg_nonneg.mpr g), mul_nonneg (mul_nonneg h0 hL.le) h0]
  · rcases le_total c 1 with g' | g'
    · rw [min_eq_right g', max_eq_right g]
      nlinarith [mul_nonneg hL.le (sq_nonneg (r - c))]
    · rw [min_eq_left g', max_eq_right zero_le_one]
      nlinarith [mul_nonneg hL.le (mul_nonneg (sub_nonneg.mpr h1) (sub_nonneg.mpr g')), mul_nonneg hL.le (sq_nonneg (1 - r))]

/-- on a segment of length zero all points are the same -/
theorem null_segment {A d P : XYZ ℝ} (hd : d.dot d = 0) (s r : ℝ) : (P - (A + s • d)) = (P - (A + r • d)) := by
  obtain ⟨d1, d2, d3⟩ := d
  have h : d1 * d1 + d2 * d2 + d3 * d3 = 0 := hd
  have e1 : d1 = 0 := by nlinarith [mul_self_nonneg d1, mul_self_nonneg d2, mul_self_nonneg d3]
  have e2 : d2 = 0 := by nlinarith [mul_self_nonneg d1, mul_self_nonneg d2, mul_self_nonneg d3]
  have e3 : d3 = 0 := by nlinarith [mul_self_nonneg d1, mul_self_nonneg d2, mul_self_nonneg d3]
  subst e1 e2 e3
  ext
  · change P.x - (A.x + s * 0) = P.x - (A.x + r * 0); ring
  · change P.y - (A.y + s * 0) = P.y - (A.y + r * 0); ring
  · change P.z - (A.z + s * 0) = P.z - (A.z + r * 0); ring

/-- the point at the fraction `s` of segment `i` of a polygon -/
noncomputable def onPolygon (pts : List (XYZ ℝ)) (i : ℕ) (s : ℝ) : XYZ ℝ := nth pts i + s • (nth pts (i + 1) - nth pts i)

/-- the square of the distance of two points -/
noncomputable def sqDistance (a b : XYZ ℝ) : ℝ := (a - b).dot (a - b)

/-- C114 (start of the search): for every polygon of at least two points none of whose segments is shorter than the tolerance unless its ends are the same, the start of the search is the
parameter, interpolated between the parameters at the ends of a segment, of a point of the polygon that is nearest to the given point. -/
theorem C114_start {pts : List (XYZ ℝ)} {params : List ℝ} (P : XYZ ℝ) (lo : ℝ) (hlen : pts.length = params.length) (h2 : 2 ≤ pts.length)
    (hseg : ∀ i, i + 1 < pts.length → sqDistance (nth pts (i + 1)) (nth pts i) = 0 ∨ 1 / 1000000 < sqDistance (nth pts (i + 1)) (nth pts i)) :
    ∃ i s, i + 1 < pts.length ∧ 0 ≤ s ∧ s ≤ 1 ∧ nearestStart pts params P lo = ok (nth params i + (nth params (i + 1) - nth params i) * s) ∧
      ∀ j r, j + 1 < pts.length → 0 ≤ r → r ≤ 1 → sqDistance P (onPolygon pts i s) ≤ sqDistance P (onPolygon pts j r) := by
  unfold nearestStart
  rw [if_neg (by omega)]
  have hrun := Runs.forN (m := 0) (n := pts.length - 1) (a := 0) (b := (pts.length : ℤ) - 1) (s := ((none : Option ℝ), lo)) (body := nearestRound pts params P)
    (fun k st => (k = 0 ∧ st.1 = none) ∨ ∃ i s, i < k ∧ 0 ≤ s ∧ s ≤ 1 ∧ st.1 = some (sqDistance P (onPolygon pts i s)) ∧ st.2 = nth params i + (nth params (i + 1) - nth params i) * s ∧
      ∀ j r, j < k → 0 ≤ r → r ≤ 1 → sqDistance P (onPolygon pts i s) ≤ sqDistance P (onPolygon pts j r))
    rfl (by omega) (by omega) (Or.inl ⟨rfl, rfl⟩) ?_
  · obtain ⟨st, e, h⟩ := hrun
    rcases h with h | ⟨i, s, hi, s0, s1, -, e2, h⟩
    · omega
    · refine ⟨i, s, by omega, s0, s1, ?_, fun j r hj => h j r (by omega)⟩
      rw [e, ok_bind, e2]
  · rintro k st - hk h
    unfold nearestRound
    rw [vget_nth (k := k) rfl (by omega), ok_bind, vget_nth (k := k + 1) (by push_cast; rfl) (by omega), ok_bind, vget_nth (k := k) rfl (by omega), ok_bind,
      vget_nth (k := k + 1) (by push_cast; rfl) (by omega), ok_bind]
    dsimp only
    have hu : Runs (if (nth pts (k + 1) - nth pts k).dot (nth pts (k + 1) - nth pts k) > doubleEps then do
          let t ← fdiv ((P - nth pts k).dot (nth pts (k + 1) - nth pts k)) ((nth pts (k + 1) - nth pts k).dot (nth pts (k + 1) - nth pts k))
          ok (max 0 (min 1 t))
        else ok (1 / 2) : Res ℝ) (fun u => 0 ≤ u ∧ u ≤ 1 ∧ ∀ r, 0 ≤ r → r ≤ 1 → sqDistance P (onPolygon pts k u) ≤ sqDistance P (onPolygon pts k r)) := by
      have hd : (doubleEps : ℝ) = 1 / 1000000 := by norm_num [doubleEps]
      rcases hseg k (by omega) with g | g
      · change (nth pts (k + 1) - nth pts k).dot (nth pts (k + 1) - nth pts k) = 0 at g
        rw [if_neg (by rw [g, hd]; norm_num)]
        refine Runs.ok ⟨by norm_num, by norm_num, fun r _ _ => ?_⟩
        unfold sqDistance onPolygon
        rw [null_segment g (1 / 2) r]
      · change 1 / 1000000 < (nth pts (k + 1) - nth pts k).dot (nth pts (k + 1) - nth pts k) at g
        have hpos : 0 < (nth pts (k + 1) - nth pts k).dot (nth pts (k + 1) - nth pts k) := lt_trans (by norm_num) g
        rw [if_pos (by rw [hd]; exact g), fdiv_ok hpos.ne', ok_bind]
        exact Runs.ok ⟨le_max_left _ _, max_le zero_le_one (min_le_left _ _), fun r r0 r1 => clamped_foot hpos r0 r1⟩
    obtain ⟨u, eu, u0, u1, hu⟩ := hu
    rw [eu, ok_bind]
    rcases st with ⟨_ | d, t⟩
    · rcases h with h | ⟨i, s, -, -, -, h, -⟩
      · refine Runs.ok (Or.inr ⟨k, u, by omega, u0, u1, rfl, rfl, fun j r hj r0 r1 => ?_⟩)
        obtain rfl : j = k := by omega
        exact hu r r0 r1
      · cases h
    · rcases h with h | ⟨i, s, hi, s0, s1, e1, e2, h⟩
      · cases h.2
      · dsimp only at e1 e2 ⊢
        have e1 : d = sqDistance P (onPolygon pts i s) := Option.some.inj e1
        split_ifs with hlt
        · change sqDistance P (onPolygon pts k u) < d at hlt
          refine Runs.ok (Or.inr ⟨k, u, by omega, u0, u1, rfl, rfl, fun j r hj r0 r1 => ?_⟩)
          rcases Nat.lt_succ_iff_lt_or_eq.mp hj with g | rfl
          · exact (hlt.le.trans_eq e1).trans (h j r g r0 r1)
          · exact hu r r0 r1
        · change ¬ sqDistance P (onPolygon pts k u) < d at hlt
          refine Runs.ok (Or.inr ⟨i, s, by omega, s0, s1, by rw [e1], e2, fun j r hj r0 r1 => ?_⟩)
          rcases Nat.lt_succ_iff_lt_or_eq.mp hj with g | rfl
          · exact h j r g r0 r1
          · exact (e1.symm.le.trans (not_lt.mp hlt)).trans (hu r r0 r1)

/-- C149 (start of the search): the same for the chain of points of the tessellation of a surface; its test for short segments is relative. -/
theorem C149_start {pts : List (XYZ ℝ)} {params : List (ℝ × ℝ)} (P : XYZ ℝ) (hlen : pts.length = params.length) (h2 : 2 ≤ pts.length)
    (hseg : ∀ i, i + 1 < pts.length → sqDistance (nth pts (i + 1)) (nth pts i) = 0 ∨ 2 / 1000000 < sqDistance (nth pts (i + 1)) (nth pts i)) :
    ∃ i s, i + 1 < pts.length ∧ 0 ≤ s ∧ s ≤ 1 ∧
      nearestStartS pts params P = ok ((nth params i).1 + ((nth params (i + 1)).1 - (nth params i).1) * s, (nth params i).2 + ((nth params (i + 1)).2 - (nth params i).2) * s) ∧
      ∀ j r, j + 1 < pts.length → 0 ≤ r → r ≤ 1 → sqDistance P (onPolygon pts i s) ≤ sqDistance P (onPolygon pts j r) := by
  unfold nearestStartS
  rw [if_neg (by omega)]
  have hrun := Runs.forN (m := 0) (n := pts.length - 1) (a := 0) (b := (pts.length : ℤ) - 1) (s := ((none : Option ℝ), ((doubleEps, doubleEps) : ℝ × ℝ))) (body := nearestRoundS pts params P)
    (fun k st => (k = 0 ∧ st.1 = none) ∨ ∃ i s, i < k ∧ 0 ≤ s ∧ s ≤ 1 ∧ st.1 = some (sqDistance P (onPolygon pts i s)) ∧
      st.2 = ((nth params i).1 + ((nth params (i + 1)).1 - (nth params i).1) * s, (nth params i).2 + ((nth params (i + 1)).2 - (nth params i).2) * s) ∧
      ∀ j r, j < k → 0 ≤ r → r ≤ 1 → sqDistance P (onPolygon pts i s) ≤ sqDistance P (onPolygon pts j r))
    rfl (by omega) (by omega) (Or.inl ⟨rfl, rfl⟩) ?_
  · obtain ⟨st, e, h⟩ := hrun
    rcases h with h | ⟨i, s, hi, s0, s1, -, e2, h⟩
    · omega
    · refine ⟨i, s, by omega, s0, s1, ?_, fun j r hj => h j r (by omega)⟩
      rw [e, ok_bind, e2]
  · rintro k st - hk h
    unfold nearestRoundS
    rw [vget_nth (k := k) rfl (by omega), ok_bind, vget_nth (k := k + 1) (by push_cast; rfl) (by omega), ok_bind, vget_nth (k := k) rfl (by omega), ok_bind,
      vget_nth (k := k + 1) (by push_cast; rfl) (by omega), ok_bind]
    dsimp only
    have hu : Runs (if isGreaterThan ((nth pts (k + 1) - nth pts k).dot (nth pts (k + 1) - nth pts k)) 0 = true then do
          let t ← fdiv ((P - nth pts k).dot (nth pts (k + 1) - nth pts k)) ((nth pts (k + 1) - nth pts k).dot (nth pts (k + 1) - nth pts k))
          ok (max 0 (min 1 t))
        else ok (1 / 2) : Res ℝ) (fun u => 0 ≤ u ∧ u ≤ 1 ∧ ∀ r, 0 ≤ r → r ≤ 1 → sqDistance P (onPolygon pts k u) ≤ sqDistance P (onPolygon pts k r)) := by
      have hd : (doubleEps : ℝ) = 1 / 1000000 := by norm_num [doubleEps]
      have gt : ∀ x : ℝ, 0 ≤ x → (isGreaterThan x 0 = true ↔ 1 / 1000000 * (1 + x) < x) := by
        intro x hx
        unfold isGreaterThan tolOf
        rw [decide_eq_true_iff, hd, abs_zero, abs_of_nonneg hx, max_eq_left hx, sub_zero]
      rcases hseg k (by omega) with g | g
      · change (nth pts (k + 1) - nth pts k).dot (nth pts (k + 1) - nth pts k) = 0 at g
        rw [if_neg (by rw [g, gt 0 le_rfl]; norm_num)]
        refine Runs.ok ⟨by norm_num, by norm_num, fun r _ _ => ?_⟩
        unfold sqDistance onPolygon
        rw [null_segment g (1 / 2) r]
      · change 2 / 1000000 < (nth pts (k + 1) - nth pts k).dot (nth pts (k + 1) - nth pts k) at g
        have hpos : 0 < (nth pts (k + 1) - nth pts k).dot (nth pts (k + 1) - nth pts k) := lt_trans (by norm_num) g
        rw [if_pos ((gt _ hpos.le).mpr (by linarith)), fdiv_ok hpos.ne', ok_bind]
        exact Runs.ok ⟨le_max_left _ _, max_le zero_le_one (min_le_left _ _), fun r r0 r1 => clamped_foot hpos r0 r1⟩
    obtain ⟨u, eu, u0, u1, hu⟩ := hu
    rw [eu, ok_bind]
    rcases st with ⟨_ | d, t⟩
    · rcases h with h | ⟨i, s, -, -, -, h, -⟩
      · refine Runs.ok (Or.inr ⟨k, u, by omega, u0, u1, rfl, rfl, fun j r hj r0 r1 => ?_⟩)
        obtain rfl : j = k := by omega
        exact hu r r0 r1
      · cases h
    · rcases h with h | ⟨i, s, hi, s0, s1, e1, e2, h⟩
      · cases h.2
      · dsimp only at e1 e2 ⊢
        have e1 : d = sqDistance P (onPolygon pts i s) := Option.some.inj e1
        split_ifs with hlt
        · change sqDistance P (onPolygon pts k u) < d at hlt
          refine Runs.ok (Or.inr ⟨k, u, by omega, u0, u1, rfl, rfl, fun j r hj r0 r1 => ?_⟩)
          rcases Nat.lt_succ_iff_lt_or_eq.mp hj with g | rfl
          · exact (hlt.le.trans_eq e1).trans (h j r g r0 r1)
          · exact hu r r0 r1
        · change ¬ sqDistance P (onPolygon pts k u) < d at hlt
          refine Runs.ok (Or.inr ⟨i, s, by omega, s0, s1, by rw [e1], e2, fun j r hj r0 r1 => ?_⟩)
          rcases Nat.lt_succ_iff_lt_or_eq.mp hj with g | rfl
          · exact h j r g r0 r1
          · exact (e1.symm.le.trans (not_lt.mp hlt)).trans (hu r r0 r1)

/-- The hypotheses are met: an angle with a point that occurs twice. -/
example (P : XYZ ℝ) : (∃ i s, i + 1 < 4 ∧ 0 ≤ s ∧ s ≤ 1 ∧ nearestStart [⟨0, 0, 0⟩, ⟨1, 0, 0⟩, ⟨1, 0, 0⟩, ⟨1, 2, 0⟩] [0, 1 / 3, 2 / 3, 1] P 0 =
      ok (nth [0, 1 / 3, 2 / 3, 1] i + (nth [0, 1 / 3, 2 / 3, 1] (i + 1) - nth [0, 1 / 3, 2 / 3, 1] i) * s)) ∧
    ∃ t, nearestStartS [⟨0, 0, 0⟩, ⟨1, 0, 0⟩, ⟨1, 0, 0⟩, ⟨1, 2, 0⟩] [(0, 0), (0, 1), (1, 0), (1, 1)] P = ok t := by
  have hseg : ∀ i, i + 1 < [(⟨0, 0, 0⟩ : XYZ ℝ), ⟨1, 0, 0⟩, ⟨1, 0, 0⟩, ⟨1, 2, 0⟩].length →
      sqDistance (nth [(⟨0, 0, 0⟩ : XYZ ℝ), ⟨1, 0, 0⟩, ⟨1, 0, 0⟩, ⟨1, 2, 0⟩] (i + 1)) (nth [(⟨0, 0, 0⟩ : XYZ ℝ), ⟨1, 0, 0⟩, ⟨1, 0, 0⟩, ⟨1, 2, 0⟩] i) = 0 ∨
      2 / 1000000 < sqDistance (nth [(⟨0, 0, 0⟩ : XYZ ℝ), ⟨1, 0, 0⟩, ⟨1, 0, 0⟩, ⟨1, 2, 0⟩] (i + 1)) (nth [(⟨0, 0, 0⟩ : XYZ ℝ), ⟨1, 0, 0⟩, ⟨1, 0, 0⟩, ⟨1, 2, 0⟩] i) := by
    intro i hi
    have : i = 0 ∨ i = 1 ∨ i = 2 := by simp at hi; omega
    rcases this with rfl | rfl | rfl
    · right
      change (2 : ℝ) / 1000000 < (1 - 0) * (1 - 0) + (0 - 0) * (0 - 0) + (0 - 0) * (0 - 0)
      norm_num
    · left
      change ((1 : ℝ) - 1) * (1 - 1) + (0 - 0) * (0 - 0) + (0 - 0) * (0 - 0) = 0
      norm_num
    · right
      change (2 : ℝ) / 1000000 < (1 - 1) * (1 - 1) + (2 - 0) * (2 - 0) + (0 - 0) * (0 - 0)
      norm_num
  obtain ⟨i, s, hi, s0, s1, e, -⟩ := C114_start (params := [0, 1 / 3, 2 / 3, 1]) P 0 rfl (by simp) (fun i hi => (hseg i hi).imp_right fun h => lt_trans (by norm_num) h)
  obtain ⟨i', s', -, -, -, e', -⟩ := C149_start (params := [(0, 0), (0, 1), (1, 0), (1, 1)]) P rfl (by simp) hseg
  exact ⟨⟨i, s, hi, s0, s1, e⟩, _, e'⟩

end LNLib.Props
