import Verif.Props.Offset

/-!
# C147: what the second offset method interpolates
-/

namespace LNLib.Props
open LNLib Res LNLib.Spec Finset

/-- C147: the second method interpolates the points of the curve at equal steps over its whole domain, each moved by the offset along the normal of the curve there, and removes the knots that
are not needed. -/
theorem C147_samples {c : NurbsCurve ℝ} {p n : ℕ} (w : WellFormed c p n) {offset : ℝ} (hne : ¬ |offset| ≤ 1 / 1000000 * (1 + |offset|)) {count : ℕ} (hcount : offsetSamples c = ok (count : ℤ))
    (h2 : 2 ≤ count) {C N : ℕ → XYZ ℝ}
    (hC : ∀ j < count, NurbsCurve.pointOnCurve c (nth c.knots 0 + (nth c.knots (n + p + 1) - nth c.knots 0) / ((count : ℝ) - 1) * j) = ok (C j))
    (hN : ∀ j < count, NurbsCurve.normal c .normal (nth c.knots 0 + (nth c.knots (n + p + 1) - nth c.knots 0) / ((count : ℝ) - 1) * j) = ok (N j))
    (solve : List (List ℝ) → List (List ℝ) → Res (List (List ℝ))) (test : List (XYZW ℝ) → XYZW ℝ → XYZW ℝ → Bool) (fuel : ℕ) :
    offsetPieglTiller solve test fuel c offset =
      (globalInterpolationChord solve c.degree ((List.range count).map fun j => C j + offset • N j) >>= fun temp => removeExcessiveKnots test fuel temp) := by
  have hl := w.knots
  have hb : ¬ isAlmostEqualTo offset 0 = true := by
    intro hc
    have := almost_iff.mp hc
    rw [sub_zero, abs_zero, max_eq_left (abs_nonneg _)] at this
    exact hne this
  have hc1 : (((count : ℤ) : ℝ)) - 1 ≠ 0 := by
    have : (2 : ℝ) ≤ count := by exact_mod_cast h2
    push_cast
    linarith
  unfold offsetPieglTiller
  rw [if_neg hb, vget_nth (i := 0) (k := 0) rfl (by omega), ok_bind, vget_nth (k := n + p + 1) (by omega) (by omega), ok_bind, hcount, ok_bind, fdiv_ok hc1, ok_bind]
  dsimp only
  have key : (forI 0 (count : ℤ) ([] : List (XYZ ℝ)) fun j samples => do
      let point ← NurbsCurve.pointOnCurve c (nth c.knots 0 + (nth c.knots (n + p + 1) - nth c.knots 0) / (((count : ℤ) : ℝ) - 1) * j)
      let normal ← NurbsCurve.normal c .normal (nth c.knots 0 + (nth c.knots (n + p + 1) - nth c.knots 0) / (((count : ℤ) : ℝ) - 1) * j)
      ok (samples ++ [point + offset • normal])) = ok ((List.range count).map fun j => C j + offset • N j) := by
    apply Runs.eq
    refine (Runs.forN (m := 0) (n := count) (fun i acc => acc = (List.range i).map fun j => C j + offset • N j) rfl rfl (by omega) rfl ?_).mono (fun _ h => h)
    rintro i acc - hi rfl
    have e1 := hC i hi
    have e2 := hN i hi
    push_cast
    rw [e1, ok_bind, e2, ok_bind]
    refine Runs.ok ?_
    rw [List.range_succ, List.map_append]
    rfl
  rw [key, ok_bind]

/-- the parabola is sampled fifty times -/
theorem parabola_samples : offsetSamples parabola = ok 50 := by
  have s1 : Real.sqrt (1 / (1 / 10000)) = 100 := by
    rw [Real.sqrt_eq_iff_mul_self_eq (by norm_num) (by norm_num)]; norm_num
  have s2 : Real.sqrt ((⟨0, 2, 0⟩ : XYZ ℝ).length / 8) = 1 / 2 := by
    have : (⟨0, 2, 0⟩ : XYZ ℝ).length = 2 := by
      unfold XYZ.length
      rw [Real.sqrt_eq_iff_mul_self_eq (by positivity) (by norm_num)]; norm_num
    rw [this, Real.sqrt_eq_iff_mul_self_eq (by norm_num) (by norm_num)]; norm_num
  have d0 := (parabola_all (t := 0) (by norm_num) (by norm_num)).1
  have d1 := (parabola_all (t := 1) (by norm_num) (by norm_num)).1
  have fl : ⌊(100 : ℝ) * (1 / 2)⌋ = 50 := by norm_num
  have step : ∀ i : ℤ, 0 ≤ i → i < 6 → ∃ u D1 D0, vget parabola.knots i = ok u ∧ NurbsCurve.rationalDerivatives parabola 2 u = ok [D0, D1, ⟨0, 2, 0⟩] := by
    intro i h0 h6
    interval_cases i
    · exact ⟨0, _, _, rfl, d0⟩
    · exact ⟨0, _, _, rfl, d0⟩
    · exact ⟨0, _, _, rfl, d0⟩
    · exact ⟨1, _, _, rfl, d1⟩
    · exact ⟨1, _, _, rfl, d1⟩
    · exact ⟨1, _, _, rfl, d1⟩
  unfold offsetSamples
  obtain ⟨m, e, hm⟩ : Runs (forI 0 (parabola.knots.length : ℤ) (0 : ℤ) fun i n => do
      let u ← vget parabola.knots i
      let ders ← NurbsCurve.rationalDerivatives parabola 2 u
      let d2 ← vget ders 2
      let l := ⌊Real.sqrt (1 / (1 / 10000)) * Real.sqrt (d2.length / 8)⌋
      ok (if l > n then l else n)) (fun m => m = 50) := by
    refine (Runs.forN (m := 0) (n := 6) (fun i m => m = if i = 0 then 0 else 50) rfl rfl (by omega) rfl ?_).mono (fun m h => h)
    rintro i m - hi rfl
    obtain ⟨u, D1, D0, e1, e2⟩ := step i (by omega) (by omega)
    rw [e1, ok_bind, e2, ok_bind, vget_nth (i := 2) (k := 2) rfl (by simp), ok_bind]
    dsimp only
    rw [show nth [D0, D1, (⟨0, 2, 0⟩ : XYZ ℝ)] 2 = ⟨0, 2, 0⟩ from rfl, s1, s2, fl]
    refine Runs.ok ?_
    by_cases hi0 : i = 0 <;> simp [hi0]
  rw [e, ok_bind, hm]
  rfl

/-- the parabola, moved by 1/100 -/
example (solve : List (List ℝ) → List (List ℝ) → Res (List (List ℝ))) (test : List (XYZW ℝ) → XYZW ℝ → XYZW ℝ → Bool) (fuel : ℕ) :
    ∃ N : ℕ → XYZ ℝ, offsetPieglTiller solve test fuel parabola (1 / 100) =
      (globalInterpolationChord solve 2 ((List.range 50).map fun (j : ℕ) => (⟨2 * ((j : ℝ) / 49), ((j : ℝ) / 49) ^ 2, 0⟩ : XYZ ℝ) + (1 / 100 : ℝ) • N j) >>= fun temp => removeExcessiveKnots test fuel temp) := by
  have par : ∀ j : ℕ, nth parabola.knots 0 + (nth parabola.knots (2 + 2 + 1) - nth parabola.knots 0) / (((50 : ℕ) : ℝ) - 1) * (j : ℝ) = j / 49 := by
    intro j
    show (0 : ℝ) + (1 - 0) / (((50 : ℕ) : ℝ) - 1) * (j : ℝ) = j / 49
    norm_num
    ring
  have hj : ∀ j : ℕ, j < 50 → (0 : ℝ) ≤ (j : ℝ) / 49 ∧ (j : ℝ) / 49 ≤ 1 := by
    intro j hj
    have : (j : ℝ) ≤ 49 := by exact_mod_cast (by omega : j ≤ 49)
    exact ⟨by positivity, by rw [div_le_one (by norm_num)]; exact this⟩
  choose! N hN using fun (j : ℕ) (h : j < 50) => parabola_normal (hj j h).1 (hj j h).2
  exact ⟨N, C147_samples (count := 50) parabola_wf (by norm_num) parabola_samples (by norm_num) (fun j h => by rw [par]; exact (parabola_all (hj j h).1 (hj j h).2).2)
    (fun j h => by rw [par]; exact (hN j h).1) solve test fuel⟩

end LNLib.Props
