import Verif.Props.KnotVector
import Verif.Spec.Curve

/-!
# C99: the knots that make both ends of a range full, and the interior part of C45
-/

namespace LNLib.Props
open LNLib Res Spec
set_option linter.unusedSectionVars false

variable {K : Type} [Field K] [LinearOrder K] [IsStrictOrderedRing K]

theorem map_eq {U ks : List K} (hs : ks.Pairwise (· < ·)) (hmem : ∀ x, x ∈ ks ↔ x ∈ U) :
    getKnotMultiplicityMap U = ks.map fun x => (x, (U.count x : ℤ)) := by
  have h1 := map_keys hs hmem
  have h2 := map_counts hs hmem
  refine List.ext_getElem ?_ fun i hi hj => ?_
  · rw [List.length_map, ← h1, List.length_map]
  · have e1 : ((getKnotMultiplicityMap U).map Prod.fst)[i]'(by simpa using hi) = ks[i]'(by simpa using hj) := by simp only [h1]
    have e2 : ((getKnotMultiplicityMap U).map Prod.snd)[i]'(by simpa using hi) = (ks.map fun x => (U.count x : ℤ))[i]'(by simpa using hj) := by simp only [h2]
    rw [List.getElem_map] at e1 e2 ⊢
    rw [List.getElem_map] at e2
    exact Prod.ext e1 e2

/-- C45: `GetInternalKnotMultiplicityMap` lists the distinct knots except the smallest and the largest, in ascending order, with
their multiplicities. -/
theorem C45_internal_map {U mid : List K} {a b : K} (hs : (a :: (mid ++ [b])).Pairwise (· < ·)) (hmem : ∀ x, x ∈ a :: (mid ++ [b]) ↔ x ∈ U) :
    getInternalKnotMultiplicityMap U = ok (mid.map fun x => (x, (U.count x : ℤ))) := by
  unfold getInternalKnotMultiplicityMap
  rw [map_eq hs hmem]
  simp

example : getInternalKnotMultiplicityMap ([0, 0, 1, 2, 2, 3] : List ℚ) = ok [(1, 1), (2, 2)] :=
  C45_internal_map (a := 0) (b := 3) (mid := [1, 2]) (by decide +kernel) (by intro x; simp)

/-! ## C99 -/

theorem near_of_separated {x s : K} (h : x = s ∨ 1 / 1000000 * (1 + max |s| |x|) < |s - x|) : isAlmostEqualTo x s = decide (x = s) := by
  rw [Bool.eq_iff_iff, decide_eq_true_eq]
  constructor
  · intro hh
    rcases h with h | h
    · exact h
    · have : |x - s| ≤ 1 / 1000000 * (1 + max |x| |s|) := by
        unfold isAlmostEqualTo at hh
        rw [decide_eq_true_eq] at hh
        exact hh
      rw [abs_sub_comm, max_comm] at this
      exact absurd h (not_lt.mpr this)
  · rintro rfl
    exact isAlmostEqualTo_self doubleEps_pos

theorem leadingMulti_count {s : K} : ∀ {l : List K}, (∀ x ∈ l, x = s ∨ 1 / 1000000 * (1 + max |s| |x|) < |s - x|) →
    l.Pairwise (fun a b => b = s → a = s) → leadingMulti s l = (l.count s : ℤ)
  | [], _, _ => by simp [leadingMulti]
  | k :: l, h, hp => by
    rw [leadingMulti, near_of_separated (h k (by simp))]
    rw [List.pairwise_cons] at hp
    by_cases hk : k = s
    · simp only [hk, decide_true, if_true]
      rw [leadingMulti_count (fun x hx => h x (by simp [hx])) hp.2, List.count_cons_self]
      push_cast; ring
    · simp only [hk, decide_false]
      rw [List.count_eq_zero_of_not_mem]
      · simp
      · rintro hm
        rcases List.mem_cons.mp hm with h1 | h1
        · exact hk h1.symm
        · exact hk (hp.1 s h1 rfl)

theorem count_rep (x s : K) (n : ℕ) : (List.replicate n s).count x = if x = s then n else 0 := by
  rw [List.count_replicate]
  by_cases h : x = s
  · simp [h]
  · simp [h, Ne.symm h]

/-- C99: when each end of the range is an end knot or no knot at all, adding the returned elements raises the multiplicity of the two ends
to degree plus one (or leaves it, if it is larger), and of no other knot. -/
theorem C99_fill_partial {U : List K} {d : ℕ} {s e : K} (hne : U ≠ []) (hU : U.Pairwise (· ≤ ·)) (hse : s < e) (hs : KnotSeparated U s) (he : KnotSeparated U e)
    (hs0 : (∀ x ∈ U, s ≤ x) ∨ s ∉ U) (he0 : (∀ x ∈ U, x ≤ e) ∨ e ∉ U) :
    ∃ r, getInsertedKnotElementEnds (d : ℤ) U s e = ok r ∧
      ∀ x, (U ++ r).count x = if x = s ∨ x = e then max (U.count x) (d + 1) else U.count x := by
  have l1 : leadingMulti s U = (U.count s : ℤ) := by
    refine leadingMulti_count hs ?_
    refine List.Pairwise.imp_of_mem ?_ hU
    intro a b ha hb hab hbs
    subst hbs
    rcases hs0 with h | h
    · exact le_antisymm hab (h a ha)
    · exact absurd hb h
  have l2 : leadingMulti e U.reverse = (U.count e : ℤ) := by
    rw [← List.count_reverse]
    refine leadingMulti_count (fun x hx => he x (List.mem_reverse.mp hx)) ?_
    rw [List.pairwise_reverse]
    refine List.Pairwise.imp_of_mem ?_ hU
    intro a b ha hb hab hae
    subst hae
    rcases he0 with h | h
    · exact le_antisymm (h b hb) hab
    · exact absurd ha h
  unfold getInsertedKnotElementEnds
  have h1 : decide ((d : ℤ) ≥ 0) = true := by simp
  have h2 : (!U.isEmpty) = true := by simpa using hne
  have h3 : decide (s ≤ e) = true := by simpa using hse.le
  have h4 : isValidKnotVector U = true := (isValidKnotVector_iff U).mpr hU
  rw [h1, h2, h3, h4, validate_true, ok_bind, ok_bind, ok_bind, ok_bind]
  dsimp only
  rw [l1, l2]
  refine ⟨_, rfl, ?_⟩
  · intro x
    have hne' : s ≠ e := hse.ne
    have g1 : (List.count x (if (U.count s : ℤ) < (d : ℤ) + 1 then List.replicate ((d : ℤ) + 1 - (U.count s : ℤ)).toNat s else [])) =
        if x = s then d + 1 - U.count s else 0 := by
      by_cases h : (U.count s : ℤ) < (d : ℤ) + 1
      · rw [if_pos h, count_rep]
        split <;> omega
      · rw [if_neg h]
        simp; omega
    have g2 : List.count x (if (U.count e : ℤ) < (d : ℤ) + 1 then
        (if (U.count s : ℤ) < (d : ℤ) + 1 then List.replicate ((d : ℤ) + 1 - (U.count s : ℤ)).toNat s else []) ++ List.replicate ((d : ℤ) + 1 - (U.count e : ℤ)).toNat e
        else (if (U.count s : ℤ) < (d : ℤ) + 1 then List.replicate ((d : ℤ) + 1 - (U.count s : ℤ)).toNat s else [])) =
        (if x = s then d + 1 - U.count s else 0) + if x = e then d + 1 - U.count e else 0 := by
      by_cases h : (U.count e : ℤ) < (d : ℤ) + 1
      · rw [if_pos h, List.count_append, g1, count_rep]
        congr 1
        split <;> omega
      · rw [if_neg h, g1]
        split <;> split <;> omega
    rw [List.count_append, g2]
    by_cases h1 : x = s
    · subst h1
      rw [if_pos rfl, if_neg hne', if_pos (Or.inl rfl)]
      omega
    · by_cases h2 : x = e
      · subst h2
        rw [if_neg h1, if_pos rfl, if_pos (Or.inr rfl)]
        omega
      · rw [if_neg h1, if_neg h2, if_neg (by tauto)]
        rfl

/-- the hypotheses of `C99_fill_partial` are met, at an end knot and between knots -/
example : ∃ r, getInsertedKnotElementEnds 2 ([0, 0, 1, 3] : List ℚ) 0 2 = ok r ∧ r = [0, 2, 2, 2] ∧ r.count 2 = 3 := by
  obtain ⟨r, e, h⟩ := C99_fill_partial (d := 2) (U := ([0, 0, 1, 3] : List ℚ)) (s := 0) (e := 2) (by decide) (by decide +kernel) (by decide +kernel)
    (by unfold KnotSeparated; decide +kernel) (by unfold KnotSeparated; decide +kernel) (Or.inl (by decide +kernel)) (Or.inr (by decide +kernel))
  have e2 : getInsertedKnotElementEnds 2 ([0, 0, 1, 3] : List ℚ) 0 2 = ok [0, 2, 2, 2] := by decide +kernel
  have : r = [0, 2, 2, 2] := by
    have := e.symm.trans e2
    exact Res.ok.inj this
  exact ⟨r, e, this, by subst this; decide +kernel⟩

/-- C99 is violated when an end of the range is an interior knot: its multiplicity is taken to be zero, so the knot of multiplicity two gets
multiplicity five instead of three. -/
theorem C99_interior_violated : ∃ r, getInsertedKnotElementEnds 2 ([0, 0, 0, 1, 1, 2, 2, 2] : List ℚ) 1 2 = ok r ∧
    (([0, 0, 0, 1, 1, 2, 2, 2] : List ℚ) ++ r).count 1 = 5 := ⟨[1, 1, 1], by decide +kernel⟩

/-- C99: bad arguments are refused. -/
theorem C99_rejects {U : List K} {d : ℤ} {s e : K} (h : d < 0 ∨ U = [] ∨ e < s ∨ ¬ U.Pairwise (· ≤ ·)) : getInsertedKnotElementEnds d U s e = invalidArg := by
  unfold getInsertedKnotElementEnds
  by_cases h1 : d < 0
  · have : decide (d ≥ 0) = false := by simpa using h1
    rw [this]; rfl
  · have e1 : decide (d ≥ 0) = true := by simpa using h1
    rw [e1, validate_true, ok_bind]
    by_cases h2 : U = []
    · subst h2; rfl
    · have e2 : (!U.isEmpty) = true := by simpa using h2
      rw [e2, validate_true, ok_bind]
      by_cases h3 : e < s
      · have : decide (s ≤ e) = false := by simpa using h3
        rw [this]; rfl
      · have e3 : decide (s ≤ e) = true := by simpa using h3
        rw [e3, validate_true, ok_bind]
        have h4 : ¬ U.Pairwise (· ≤ ·) := by tauto
        have : isValidKnotVector U = false := by
          by_contra hc
          exact h4 ((isValidKnotVector_iff U).mp (by simpa using hc))
        rw [this]; rfl

example : getInsertedKnotElementEnds 2 ([0, 1, 3, 2] : List ℚ) 0 2 = invalidArg := C99_rejects (Or.inr (Or.inr (Or.inr (by decide +kernel))))

end LNLib.Props
