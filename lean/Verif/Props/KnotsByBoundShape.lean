import Verif.Props.FastLine

/-!
# Removing knots within an error bound changes the shape (C155)
-/

namespace LNLib.Props
open LNLib Res LNLib.Spec Finset

noncomputable section

/-- The states of the loop. -/
def fl0 : BoundState ℝ := ⟨[M9, M9, M9, 0, 0, M9, M9, M9], [0, 0, 0, 1, 1, 0, 0, 0], List.replicate 8 0, List.replicate 8 0, 0, [0], [0], fastLine.knots, fastLine.cps, [], [], false⟩
def fl1 : BoundState ℝ := ⟨[M9, M9, M9, 3 / 2, M9, M9, M9], [0, 0, 0, 1, 1, 0, 0, 0], List.replicate 7 0, List.replicate 7 0, 3, [0], [0], fastLine'.knots, fastLine'.cps, [], [], false⟩
def fl2 : BoundState ℝ := ⟨[M9, M9, M9, M9, M9, M9, M9], [0, 0, 0, 1, 1, 0, 0, 0], List.replicate 7 0, List.replicate 7 0, 3, [0], [1 / 12], fastLine'.knots, fastLine'.cps,
  fastLine'.knots, fastLine'.cps, false⟩
def fl3 : BoundState ℝ := { fl2 with stop := true }

theorem fl_round0 {tol : List (XYZW ℝ) → ℝ} (ht : 0 ≤ tol fastLine.cps) : boundRound XYZW.distance tol 2 4 [1] (1 / 100) fl0 = ok fl1 := by
  have hk : fastLine.knots = [0, 0, 0, 1, 2, 3, 3, (3:ℝ)] := rfl
  have hk' : fastLine'.knots = [0, 0, 0, 2, 3, 3, (3:ℝ)] := rfl
  have hc : ∀ x, isLessThanOrEqual (XYZW.distance x x) (tol fastLine.cps) = true := by
    intro x
    rw [dist_self4]
    unfold isLessThanOrEqual
    rw [decide_eq_true_eq]
    have := tolOf_pos (K := ℝ) (a := 0) (b := tol fastLine.cps) (tol := doubleEps) doubleEps_pos
    linarith
  have hr := fl_remove (close := fun a b => isLessThanOrEqual (XYZW.distance a b) (tol fastLine.cps)) hc
  have hr' : removeKnot (fun a b => isLessThanOrEqual (XYZW.distance a b) (tol fastLine.cps)) { degree := 2, knots := fastLine.knots, cps := fastLine.cps } 1 1 = ok (some fastLine') := hr
  have g : isGreaterThan (0 : ℝ) (1 / 100) = false := by norm_num [isGreaterThan, tolOf, doubleEps]
  have k3 : knotBound XYZW.distance fastLine' 3 = ok (3 / 2) := by
    unfold knotBound; rw [fl_b3', ok_bind]; dsimp only; rw [dist_row]; norm_num
  have l2 : isLessThan (2 : ℝ) 3 = true := by norm_num [isLessThan, tolOf, doubleEps]
  have l3 : isLessThan (3 : ℝ) 3 = false := by norm_num [isLessThan, tolOf, doubleEps]
  have he : errorsStay 2 [1] (1 / 100) { fl0 with best := 3 } 3 1 0 0 0 = ok ([0], true) := by
    simp [errorsStay, forI, loopUp, vget, vset, removalError, fl0, hk, fl_basis, fdiv]
    simpa using g
  have hlen : fastLine'.cps.length = 4 := rfl
  have hu : updateRanges 2 [1] fastLine'.knots (List.replicate 8 0) (List.replicate 8 0) 0 0 = ok (List.replicate 8 0, List.replicate 8 0) := by
    simp [updateRanges, forI, loopUp, vget, vset, hk', fl_span', List.replicate]
  have hb : updateBounds XYZW.distance fastLine' [M9, M9, M9, 0, 0, M9, M9, M9] [0, 0, 0, 1, 1, 0, 0, 0] 1 3 4 = ok ([M9, M9, M9, 3 / 2, M9, M9, M9, M9], [0, 0, 0, 1, 1, 0, 0, 0]) := by
    simp [updateBounds, forI, loopUp, vget, vset, hk', l2, l3, k3]
  unfold boundRound
  dsimp only [fl0]
  rw [fl_least, ok_bind]
  have v1 : vget [M9, M9, M9, 0, 0, M9, M9, M9] 3 = ok 0 := rfl
  rw [v1, ok_bind, if_neg m9_ne]
  have v2 : vget [0, 0, 0, 1, 1, 0, 0, (0 : ℤ)] 3 = ok 1 := rfl
  have v3 : vget [0, 0, 0, 1, 1, 0, 0, (0 : ℤ)] (3 + 2) = ok 0 := rfl
  have v4 : vget (List.replicate 8 (0 : ℤ)) (max (3 - 2) (2 + 1)) = ok 0 := rfl
  have v5 : vget (List.replicate 8 (0 : ℤ)) (min (3 + 2 - 0 + 1) 4) = ok 0 := rfl
  rw [v2, ok_bind, v3, ok_bind, v4, ok_bind, v5, ok_bind]
  dsimp only [fl0] at he
  rw [he, ok_bind]
  dsimp only
  rw [if_pos rfl]
  unfold removeChosen
  have v6 : vget fastLine.knots 3 = ok 1 := rfl
  dsimp only
  rw [v6, ok_bind, hr', ok_bind]
  have v7 : acceptErrors [(0 : ℝ)] [0] 0 0 = ok [0] := by simp [acceptErrors, forI, loopUp, vget, vset]
  rw [v7, ok_bind]
  simp only [Option.getD_some]
  rw [if_neg (by rw [hlen]; decide)]
  have v8 : vget (List.replicate 8 (0 : ℤ)) (3 - 2 - 1) = ok 0 := rfl
  have v9 : vget (List.replicate 8 (0 : ℤ)) (3 - 1) = ok 0 := rfl
  rw [v8, ok_bind, v2, ok_bind, v9, ok_bind, hu, ok_bind]
  dsimp only
  have v10 : shiftFrom (List.replicate 8 (0 : ℤ)) (3 - 1 + 1) = ok (List.replicate 8 0) := by rfl
  rw [v10, ok_bind, ok_bind]
  have v11 : vget [0, 0, 0, 1, 1, 0, 0, (0 : ℤ)] (max (3 - 2) (2 + 1)) = ok 1 := rfl
  rw [v11, ok_bind, hlen]
  rw [show updateBounds XYZW.distance fastLine' [M9, M9, M9, 0, 0, M9, M9, M9] [0, 0, 0, 1, 1, 0, 0, 0] 1 (max (3 - 2) (2 + 1)) (min (3 + 2 - 1 + 1) ((4 : ℕ) : ℤ)) = _ from hb, ok_bind]
  rfl

theorem fl_round1 {tol : List (XYZW ℝ) → ℝ} : boundRound XYZW.distance tol 2 4 [1] (1 / 100) fl1 = ok fl2 := by
  have hk' : fastLine'.knots = [0, 0, 0, 2, 3, 3, (3:ℝ)] := rfl
  have g : isGreaterThan (1 / 12 : ℝ) (1 / 100) = true := by norm_num [isGreaterThan, tolOf, doubleEps]
  have he : errorsStay 2 [1] (1 / 100) fl1 3 1 (3 / 2) 0 0 = ok ([1 / 12], false) := by
    simp [errorsStay, forI, loopUp, vget, vset, removalError, fl1, hk', fl_basis', fdiv]
    norm_num
    exact g
  have hne : (3 / 2 : ℝ) ≠ maxDistance := by norm_num [maxDistance]
  unfold boundRound
  dsimp only [fl1]
  rw [fl_least1, ok_bind]
  have v1 : vget [M9, M9, M9, 3 / 2, M9, M9, M9] 3 = ok (3 / 2) := rfl
  rw [v1, ok_bind, if_neg hne]
  have v2 : vget [0, 0, 0, 1, 1, 0, 0, (0 : ℤ)] 3 = ok 1 := rfl
  have v3 : vget [0, 0, 0, 1, 1, 0, 0, (0 : ℤ)] (3 + 2) = ok 0 := rfl
  have v4 : vget (List.replicate 7 (0 : ℤ)) (max (3 - 2) (2 + 1)) = ok 0 := rfl
  have v5 : vget (List.replicate 7 (0 : ℤ)) (min (3 + 2 - 0 + 1) 4) = ok 0 := rfl
  rw [v2, ok_bind, v3, ok_bind, v4, ok_bind, v5, ok_bind]
  dsimp only [fl1] at he
  rw [he, ok_bind]
  rfl

theorem fl_round2 {tol : List (XYZW ℝ) → ℝ} : boundRound XYZW.distance tol 2 4 [1] (1 / 100) fl2 = ok fl3 := by
  unfold boundRound
  dsimp only [fl2]
  rw [fl_least2, ok_bind]
  have v1 : vget [M9, M9, M9, M9, M9, M9, M9] 3 = ok M9 := rfl
  rw [v1, ok_bind, if_pos rfl]
  rfl

theorem fl_run {fuel : ℕ} (hf : 3 ≤ fuel) : NurbsCurve.removeKnotsByGivenBound fuel fastLine [1] [0] (1 / 100) = ok (fastLine', [0]) := by
  have ht : (0 : ℝ) ≤ curveModifyTolerance fastLine.cps := by
    apply tolerance_nonneg
    intro q hq
    simp only [fastLine, List.mem_cons, List.not_mem_nil, or_false] at hq
    rcases hq with h | h | h | h | h <;> subst h <;> norm_num [rowPt]
  have g : isGreaterThan (1 / 100 : ℝ) 0 = true := by norm_num [isGreaterThan, tolOf, doubleEps]
  unfold NurbsCurve.removeKnotsByGivenBound removeKnotsByBound
  rw [validate_of (by simp), ok_bind, validate_of (by simp), ok_bind, validate_of g, ok_bind, fl_bounds, ok_bind]
  dsimp only
  rw [fl_ranges, ok_bind]
  dsimp only
  obtain ⟨k, rfl⟩ : ∃ k, fuel = k + 1 + 1 + 1 := ⟨fuel - 3, by omega⟩
  have h0 := fl_round0 (tol := fun P => curveModifyTolerance P) ht
  have hw : whileF (fun (st : BoundState ℝ) => ok (!st.stop)) (boundRound XYZW.distance (fun P => curveModifyTolerance P) 2 4 [1] (1 / 100)) (k + 1 + 1 + 1) fl0 = ok fl3 := by
    rw [whileF, ok_bind, show (!fl0.stop) = true from rfl, if_pos rfl, h0, ok_bind]
    rw [whileF, ok_bind, show (!fl1.stop) = true from rfl, if_pos rfl, fl_round1, ok_bind]
    rw [whileF, ok_bind, show (!fl2.stop) = true from rfl, if_pos rfl, fl_round2, ok_bind]
    cases k <;> rfl
  have hw' : whileF (fun (st : BoundState ℝ) => ok (!st.stop)) (boundRound XYZW.distance (fun P => curveModifyTolerance P) fastLine.degree ((fastLine.cps.length : ℤ) - 1) [1] (1 / 100)) (k + 1 + 1 + 1)
      ⟨[M9, M9, M9, 0, 0, M9, M9, M9], [0, 0, 0, 1, 1, 0, 0, 0], List.replicate 8 0, List.replicate 8 0, 0, [0], List.replicate [(1 : ℝ)].length 0, fastLine.knots, fastLine.cps, [], [], false⟩ = ok fl3 := hw
  rw [hw', ok_bind]
  rfl

/-- C155 (violated): the curve returned can be much farther from the curve given than the bound, and the error reported is zero. The curve given is the line `t ↦ 2 t` with the interior knots 1 and 2,
which are both redundant. -/
theorem C155_shape_violated {fuel : ℕ} (hf : 3 ≤ fuel) : ∃ d : NurbsCurve ℝ, NurbsCurve.removeKnotsByGivenBound fuel fastLine [1] [0] (1 / 100) = ok (d, [0]) ∧
    NurbsCurve.pointOnCurve fastLine 1 = ok ⟨2, 0, 0⟩ ∧ NurbsCurve.pointOnCurve d 1 = ok ⟨31 / 12, 0, 0⟩ := by
  exact ⟨fastLine', fl_run hf, fl_pt, fl_pt'⟩

/-- The hypotheses of `C155_removals_partial` are met, and a knot is removed. -/
example : Removals XYZW.distance (fun P => curveModifyTolerance P) fastLine fastLine' :=
  (C155_removals_partial (fuel := 3) (by decide : (0 : ℤ) ≤ 2) (by intro e he; rw [List.mem_singleton.mp he]; norm_num [isGreaterThan, tolOf, doubleEps]) (fl_run le_rfl)).1

/-- The hypotheses of `C155_single_violated` are met by a line with one redundant knot, which is returned as it is. -/
example : removeKnotsByBound (K := ℚ) (fun a b => if a = b then 0 else 1) (fun _ => 1 / 10000) 9 ⟨1, [0, 0, 1 / 2, 1, 1], [⟨0, 0, 0, 1⟩, ⟨1, 0, 0, 1⟩, ⟨2, 0, 0, 1⟩]⟩ [0, 1 / 2, 1] [0, 0, 0] 1 =
    ok (⟨1, [0, 0, 1 / 2, 1, 1], [⟨0, 0, 0, 1⟩, ⟨1, 0, 0, 1⟩, ⟨2, 0, 0, 1⟩]⟩, [0, 0, 0]) := by decide +kernel

end
end LNLib.Props
