import Verif.Model.Tangent
import Verif.Props.Interp
import Verif.Lemmas.Geom
import Verif.Core.Stuck
import Mathlib.Tactic.LinearCombination

/-!
# Chord lengths, surface parameters and tangent estimates (C104-C107)
-/

namespace LNLib.Props
open LNLib Res Spec Finset

/-! ## C104: polyline lengths -/

/-- C104: `GetTotalChordLength` is, for every list of points (empty and one-point lists included), the sum of the distances between
consecutive points. -/
theorem C104_total (pts : List (XYZ ℝ)) :
    getTotalChordLength pts = ok (∑ j ∈ range (pts.length - 1), (nth pts (j + 1)).distance (nth pts j)) := by
  unfold getTotalChordLength
  rcases Nat.eq_zero_or_pos pts.length with h0 | h0
  · rw [forI_empty (by omega), h0]; rfl
  apply Runs.eq
  refine (Runs.forN (m := 1) (n := pts.length) (fun k (s : ℝ) => s = ∑ j ∈ range (k - 1), (nth pts (j + 1)).distance (nth pts j))
    rfl (by omega) (by omega) rfl ?_).mono (fun _ h => h)
  rintro i s h1 hi rfl
  rw [vget_nth (k := i) rfl hi, ok_bind, vget_nth (k := i - 1) (by omega) (by omega), ok_bind]
  refine Runs.ok ?_
  obtain ⟨i, rfl⟩ : ∃ j, i = j + 1 := ⟨i - 1, by omega⟩
  rw [show i + 1 + 1 - 1 = i + 1 by omega, sum_range_succ, Nat.add_sub_cancel]

/-- C104: `GetCentripetalLength` is the sum of the square roots of the distances. -/
theorem C104_centripetal (pts : List (XYZ ℝ)) :
    getCentripetalLength pts = ok (∑ j ∈ range (pts.length - 1), Real.sqrt ((nth pts (j + 1)).distance (nth pts j))) := by
  unfold getCentripetalLength
  split_ifs with h0
  · rw [show pts.length - 1 = 0 by omega]; rfl
  apply Runs.eq
  refine (Runs.forN (m := 1) (n := pts.length) (fun k (s : ℝ) => s = ∑ j ∈ range (k - 1), Real.sqrt ((nth pts (j + 1)).distance (nth pts j)))
    rfl (by omega) (by omega) rfl ?_).mono (fun _ h => h)
  rintro i s h1 hi rfl
  rw [vget_nth (k := i) rfl hi, ok_bind, vget_nth (k := i - 1) (by omega) (by omega), ok_bind]
  refine Runs.ok ?_
  obtain ⟨i, rfl⟩ : ∃ j, i = j + 1 := ⟨i - 1, by omega⟩
  rw [show i + 1 + 1 - 1 = i + 1 by omega, sum_range_succ, Nat.add_sub_cancel]

/-- C104 on a concrete polyline: segments of length 5, 0 and 9. -/
example : getTotalChordLength [⟨0, 0, 0⟩, ⟨3, 4, 0⟩, ⟨3, 4, 0⟩, ⟨3, 4, 9⟩] = ok 14 ∧
    getCentripetalLength [⟨0, 0, 0⟩, ⟨0, 0, 4⟩, ⟨0, 9, 4⟩] = ok 5 := by
  have s4 : Real.sqrt 4 = 2 := by rw [show (4 : ℝ) = 2 ^ 2 by norm_num]; exact Real.sqrt_sq (by norm_num)
  have s9 : Real.sqrt 9 = 3 := by rw [show (9 : ℝ) = 3 ^ 2 by norm_num]; exact Real.sqrt_sq (by norm_num)
  have s16 : Real.sqrt 16 = 4 := by rw [show (16 : ℝ) = 4 ^ 2 by norm_num]; exact Real.sqrt_sq (by norm_num)
  have s25 : Real.sqrt 25 = 5 := by rw [show (25 : ℝ) = 5 ^ 2 by norm_num]; exact Real.sqrt_sq (by norm_num)
  have s81 : Real.sqrt 81 = 9 := by rw [show (81 : ℝ) = 9 ^ 2 by norm_num]; exact Real.sqrt_sq (by norm_num)
  constructor
  · rw [C104_total]
    simp only [List.length_cons, List.length_nil, sum_range_succ, sum_range_zero, nth_cons_succ, nth_cons_zero, XYZ.distance]
    norm_num [s25, s81]
  · rw [C104_centripetal]
    simp only [List.length_cons, List.length_nil, sum_range_succ, sum_range_zero, nth_cons_succ, nth_cons_zero, XYZ.distance]
    norm_num [s16, s81, s4, s9]

/-! ## C105: parameters for a mesh of points -/

section
variable {K : Type} [Field K] [LinearOrder K] [IsStrictOrderedRing K]

/-- longer than the comparison tolerance -/
def Long (x : K) : Prop := 1 / 1000000 * (1 + x) < x

instance (x : K) : Decidable (Long x) := inferInstanceAs (Decidable (_ < _))

theorem not_long {x : K} (hx : 0 ≤ x) : isAlmostEqualTo x 0 = true ↔ ¬ Long x := by
  rw [isAlmostZero_iff, abs_of_nonneg hx]
  exact not_lt.symm

theorem Long.pos {x : K} (hx : 0 ≤ x) (h : Long x) : 0 < x := by unfold Long at h; linarith

/-- the partial lengths of a line of points with segment lengths `D 1, D 2, …` -/
def accum (D : ℕ → K) (k : ℕ) : K := ∑ j ∈ range k, D (j + 1)

theorem accum_succ (D : ℕ → K) (k : ℕ) : accum D (k + 1) = accum D k + D (k + 1) := sum_range_succ _ _

theorem accum_nonneg {D : ℕ → K} (hD : ∀ k, 0 ≤ D k) (k : ℕ) : 0 ≤ accum D k := sum_nonneg fun _ _ => hD _

theorem accum_mono {D : ℕ → K} (hD : ∀ k, 0 ≤ D k) {k k' : ℕ} (h : k ≤ k') : accum D k ≤ accum D k' :=
  sum_le_sum_of_subset_of_nonneg (range_mono h) fun _ _ _ => hD _

theorem meshLine_run {len : ℕ} {dist : ℤ → Res K} {D : ℕ → K} (hD : ∀ k, 0 ≤ D k) (hd : ∀ k : ℕ, 1 ≤ k → k < len → dist k = ok (D k))
    (hlen : 1 ≤ len) {cds params : List K} (hc : len ≤ cds.length) (hp : params.length = len) (num : ℤ) :
    Runs (meshLine len dist (cds, params, num)) (fun st => st.1.length = cds.length ∧ st.2.1.length = len ∧
      (∀ k, k < len → nth st.2.1 k = nth params k + if Long (accum D (len - 1)) then accum D k / accum D (len - 1) else 0) ∧
      st.2.2 = if Long (accum D (len - 1)) then num else num - 1) := by
  unfold meshLine
  dsimp only
  refine Runs.bind (Q := fun (st : List K × K) => st.1.length = cds.length ∧ (∀ k, 1 ≤ k → k < len → nth st.1 k = D k) ∧ st.2 = accum D (len - 1)) ?_ ?_
  · refine (Runs.forN (m := 1) (n := len) (fun i (st : List K × K) => st.1.length = cds.length ∧ (∀ k, 1 ≤ k → k < i → nth st.1 k = D k) ∧
      st.2 = accum D (i - 1)) rfl rfl hlen ⟨rfl, fun k h1 h2 => by omega, rfl⟩ ?_).mono (fun _ h => h)
    rintro i ⟨cs, tot⟩ h1 hi ⟨g1, g2, g3⟩
    dsimp only at *
    rw [hd i h1 hi, ok_bind, vset_of rfl (by omega), ok_bind, vget_nth (k := i) rfl (by rw [List.length_set]; omega), ok_bind]
    refine Runs.ok ⟨by rw [List.length_set]; exact g1, ?_, ?_⟩
    · intro k hk1 hk
      dsimp only
      rw [nth_set (by omega)]
      split_ifs with e
      · rw [e]
      · exact g2 k hk1 (by omega)
    · dsimp only
      rw [g3, nth_set (by omega), if_pos rfl]
      obtain ⟨j, rfl⟩ : ∃ j, i = j + 1 := ⟨i - 1, by omega⟩
      rw [show j + 1 + 1 - 1 = j + 1 by omega, accum_succ, Nat.add_sub_cancel]
  · rintro ⟨cs, tot⟩ ⟨g1, g2, rfl⟩
    dsimp only at *
    have htn := accum_nonneg hD (len - 1)
    by_cases hl : Long (accum D (len - 1))
    · rw [if_neg (by rw [not_long htn]; exact not_not.mpr hl)]
      have ht := hl.pos htn
      refine Runs.bind (Q := fun (st : List K × K) => st.1.length = len ∧ ∀ k, k < len → nth st.1 k = nth params k + accum D k / accum D (len - 1)) ?_ ?_
      · refine (Runs.forN (m := 1) (n := len) (fun i (st : List K × K) => st.1.length = len ∧ st.2 = accum D (i - 1) ∧
          ∀ k, k < len → nth st.1 k = if k < i then nth params k + accum D k / accum D (len - 1) else nth params k) rfl rfl hlen
          ⟨hp, rfl, ?_⟩ ?_).mono ?_
        · intro k hk
          dsimp only
          split_ifs with h
          · rw [show k = 0 by omega]; simp [accum]
          · rfl
        · rintro i ⟨ps, d⟩ h1 hi ⟨e1, e2, e3⟩
          dsimp only at *
          obtain ⟨j, rfl⟩ : ∃ j, i = j + 1 := ⟨i - 1, by omega⟩
          rw [vget_nth (k := j + 1) rfl (by omega), ok_bind, vget_nth (k := j + 1) rfl (by omega), ok_bind, fdiv_ok ht.ne', ok_bind,
            vset_of rfl (by omega), ok_bind]
          have hdd : d + nth cs (j + 1) = accum D (j + 1) := by rw [e2, g2 _ h1 hi, Nat.add_sub_cancel, accum_succ]
          refine Runs.ok ⟨by rw [List.length_set]; exact e1, ?_, ?_⟩
          · dsimp only
            rw [hdd, Nat.add_sub_cancel]
          · intro k hk
            dsimp only
            rw [nth_set (by omega), hdd]
            split_ifs with c1 c2 c2
            · rw [c1, e3 _ hi, if_neg (by omega)]
            · omega
            · rw [e3 k hk, if_pos (by omega)]
            · rw [e3 k hk, if_neg (by omega)]
        · rintro ⟨ps, d⟩ ⟨e1, -, e3⟩
          refine ⟨e1, fun k hk => ?_⟩
          rw [e3 k hk, if_pos hk]
      · rintro ⟨ps, d⟩ ⟨e1, e2⟩
        refine Runs.ok ⟨g1, e1, fun k hk => ?_, ?_⟩
        · rw [if_pos hl]; exact e2 k hk
        · rw [if_pos hl]
    · rw [if_pos ((not_long htn).mpr hl)]
      refine Runs.ok ⟨g1, hp, fun k hk => ?_, ?_⟩
      · rw [if_neg hl, add_zero]
      · rw [if_neg hl]

/-- the lines of a direction that are longer than the tolerance -/
def longLines (D : ℕ → ℕ → K) (lines len : ℕ) : Finset ℕ := (range lines).filter fun l => Long (accum (D l) (len - 1))

theorem longLines_succ (D : ℕ → ℕ → K) (l len : ℕ) : longLines D (l + 1) len =
    if Long (accum (D l) (len - 1)) then insert l (longLines D l len) else longLines D l len := by
  unfold longLines
  rw [range_add_one, filter_insert]

theorem not_mem_longLines (D : ℕ → ℕ → K) (l len : ℕ) : l ∉ longLines D l len := by
  unfold longLines
  rw [mem_filter, mem_range]
  omega

theorem meshDirection_run {lines len : ℕ} {dist : ℤ → ℤ → Res K} {D : ℕ → ℕ → K} (hD : ∀ l k, 0 ≤ D l k)
    (hd : ∀ l k : ℕ, l < lines → 1 ≤ k → k < len → dist l k = ok (D l k)) (hlen : 1 ≤ len) {cds params : List K} (hc : len ≤ cds.length)
    (hp : params.length = len) :
    Runs (meshDirection lines len dist cds params) (fun st => st.2.1.length = cds.length ∧ st.2.2.length = len ∧
      (st.1 = true ↔ longLines D lines len ≠ ∅) ∧
      (longLines D lines len ≠ ∅ → nth st.2.2 (len - 1) = 1 ∧ (2 ≤ len → nth st.2.2 0 = nth params 0) ∧
        ∀ k, 1 ≤ k → k < len - 1 → nth st.2.2 k =
          (nth params k + ∑ l ∈ longLines D lines len, accum (D l) k / accum (D l) (len - 1)) / (longLines D lines len).card)) := by
  unfold meshDirection
  refine Runs.bind (Q := fun (st : List K × List K × ℤ) => st.1.length = cds.length ∧ st.2.1.length = len ∧
      (∀ k, k < len → nth st.2.1 k = nth params k + ∑ l ∈ longLines D lines len, accum (D l) k / accum (D l) (len - 1)) ∧
      st.2.2 = (longLines D lines len).card) ?_ ?_
  · refine (Runs.forN (m := 0) (n := lines) (fun i (st : List K × List K × ℤ) => st.1.length = cds.length ∧ st.2.1.length = len ∧
      (∀ k, k < len → nth st.2.1 k = nth params k + ∑ l ∈ longLines D i len, accum (D l) k / accum (D l) (len - 1)) ∧
      st.2.2 = (longLines D i len).card + ((lines : ℤ) - i)) rfl rfl (Nat.zero_le _) ⟨rfl, hp, ?_, ?_⟩ ?_).mono ?_
    · intro k hk; simp [longLines]
    · simp [longLines]
    · rintro i ⟨cs, ps, num⟩ - hi ⟨g1, g2, g3, g4⟩
      dsimp only at *
      refine (meshLine_run (hD i) (fun k h1 h2 => hd i k hi h1 h2) hlen (by omega) g2 num).mono ?_
      rintro ⟨cs', ps', num'⟩ ⟨e1, e2, e3, e4⟩
      dsimp only at *
      refine ⟨by omega, e2, fun k hk => ?_, ?_⟩
      · rw [e3 k hk, g3 k hk, longLines_succ]
        split_ifs with hl
        · rw [sum_insert (not_mem_longLines _ _ _)]; ring
        · rw [add_zero]
      · rw [e4, g4, longLines_succ]
        split_ifs with hl
        · rw [card_insert_of_notMem (not_mem_longLines _ _ _)]; push_cast; ring
        · push_cast; ring
    · rintro ⟨cs, ps, num⟩ ⟨g1, g2, g3, g4⟩
      exact ⟨g1, g2, g3, by rw [g4]; ring⟩
  · rintro ⟨cs, ps, num⟩ ⟨g1, g2, g3, g4⟩
    dsimp only at *
    by_cases h0 : longLines D lines len = ∅
    · rw [if_pos (by rw [g4, h0]; rfl)]
      exact Runs.ok ⟨g1, g2, by simp [h0], fun h => absurd h0 h⟩
    · have hcard : (longLines D lines len).card ≠ 0 := by rwa [Ne, card_eq_zero]
      have hcK : ((num : ℤ) : K) = ((longLines D lines len).card : K) := by rw [g4]; push_cast; rfl
      have hcK0 : ((longLines D lines len).card : K) ≠ 0 := by exact_mod_cast hcard
      rw [if_neg (by rw [g4]; exact_mod_cast hcard)]
      have hlong : 2 ≤ len := by
        by_contra hlt
        obtain ⟨l, hl⟩ := nonempty_iff_ne_empty.mpr h0
        unfold longLines at hl
        rw [mem_filter, show len - 1 = 0 by omega] at hl
        have := hl.2
        unfold Long accum at this
        rw [sum_range_zero] at this
        norm_num at this
      refine Runs.bind (Q := fun (qs : List K) => qs.length = len ∧ nth qs 0 = nth ps 0 ∧ ∀ k, 1 ≤ k → k < len - 1 → nth qs k = nth ps k / (longLines D lines len).card) ?_ ?_
      · refine (Runs.forN (m := 1) (n := len - 1) (fun i (qs : List K) => qs.length = len ∧ nth qs 0 = nth ps 0 ∧
          (∀ k, 1 ≤ k → k < i → nth qs k = nth ps k / (longLines D lines len).card) ∧ ∀ k, i ≤ k → nth qs k = nth ps k) rfl (by omega) (by omega)
          ⟨g2, rfl, fun k h1 h2 => by omega, fun k _ => rfl⟩ ?_).mono ?_
        · rintro i qs h1 hi ⟨e1, e2, e3, e4⟩
          rw [vget_nth (k := i) rfl (by omega), ok_bind, fdiv_ok (by rw [hcK]; exact hcK0), ok_bind, vset_of rfl (by omega)]
          refine Runs.ok ⟨by rw [List.length_set]; exact e1, ?_, ?_, ?_⟩
          · rw [nth_set (by omega), if_neg (by omega), e2]
          · intro k hk1 hk
            rw [nth_set (by omega)]
            split_ifs with c
            · rw [c, e4 i (le_refl _), hcK]
            · exact e3 k hk1 (by omega)
          · intro k hk
            rw [nth_set (by omega), if_neg (by omega), e4 k (by omega)]
        · rintro qs ⟨e1, e2, e3, -⟩
          exact ⟨e1, e2, e3⟩
      · rintro qs ⟨e1, e2, e3⟩
        rw [vset_of (k := len - 1) (by omega) (by omega), ok_bind]
        refine Runs.ok ⟨g1, by rw [List.length_set]; exact e1, by simp [h0], fun _ => ⟨?_, ?_, ?_⟩⟩
        · dsimp only
          rw [nth_set (by omega), if_pos rfl]
        · intro _
          dsimp only
          rw [nth_set (by omega), if_neg (by omega), e2, g3 0 (by omega)]
          simp [accum]
        · intro k h1 h2
          dsimp only
          rw [nth_set (by omega), if_neg (by omega), e3 k h1 h2, g3 k (by omega)]

end

/-- length of column `l` of a mesh of points from its first point to its point `k` -/
noncomputable def columnLength (pts : List (List (XYZ ℝ))) (l k : ℕ) : ℝ := ∑ j ∈ range k, (ent pts (j + 1) l).distance (ent pts j l)

/-- length of row `k` of a mesh of points from its first point to its point `l` -/
noncomputable def rowLength (pts : List (List (XYZ ℝ))) (k l : ℕ) : ℝ := ∑ j ∈ range l, (ent pts k (j + 1)).distance (ent pts k j)

open Classical in
/-- the columns of a mesh with `n` rows and `m` columns that are longer than the tolerance -/
noncomputable def goodColumns (pts : List (List (XYZ ℝ))) (n m : ℕ) : Finset ℕ := (range m).filter fun l => Long (columnLength pts l (n - 1))

open Classical in
/-- the rows of a mesh with `n` rows and `m` columns that are longer than the tolerance -/
noncomputable def goodRows (pts : List (List (XYZ ℝ))) (n m : ℕ) : Finset ℕ := (range n).filter fun k => Long (rowLength pts k (m - 1))

theorem meshParam_run {pts : List (List (XYZ ℝ))} {n m : ℕ} (hm : IsMat pts n m) (hn : 1 ≤ n) (hm1 : 1 ≤ m) (U0 V0 : List ℝ) :
    Runs (getSurfaceMeshParameterization pts U0 V0) (fun r => (r.1 = true ↔ goodColumns pts n m ≠ ∅ ∧ goodRows pts n m ≠ ∅) ∧ (r.1 = true →
      r.2.1.length = n ∧ r.2.2.length = m ∧ 2 ≤ n ∧ 2 ≤ m ∧
      nth r.2.1 0 = nth (resizeZero U0 n) 0 ∧ nth r.2.1 (n - 1) = 1 ∧ nth r.2.2 0 = nth (resizeZero V0 m) 0 ∧ nth r.2.2 (m - 1) = 1 ∧
      (∀ k, 1 ≤ k → k < n - 1 → nth r.2.1 k = (nth (resizeZero U0 n) k + ∑ l ∈ goodColumns pts n m, columnLength pts l k / columnLength pts l (n - 1)) /
        (goodColumns pts n m).card) ∧
      (∀ l, 1 ≤ l → l < m - 1 → nth r.2.2 l = (nth (resizeZero V0 m) l + ∑ k ∈ goodRows pts n m, rowLength pts k l / rowLength pts k (m - 1)) /
        (goodRows pts n m).card))) := by
  have hrl : ∀ (l : List ℝ) (k : ℕ), (resizeZero l k).length = k := by
    intro l k
    unfold resizeZero
    rw [List.length_append, List.length_take, List.length_replicate]
    omega
  have two : ∀ {D : ℕ → ℕ → ℝ} {lines len : ℕ}, longLines D lines len ≠ ∅ → 2 ≤ len := by
    intro D lines len h
    by_contra hlt
    obtain ⟨l, hl⟩ := nonempty_iff_ne_empty.mpr h
    unfold longLines at hl
    rw [mem_filter, show len - 1 = 0 by omega] at hl
    have := hl.2
    unfold Long accum at this
    rw [sum_range_zero] at this
    norm_num at this
  unfold getSurfaceMeshParameterization
  dsimp only
  rw [vget_row (i := 0) (k := 0) rfl (by rw [hm.1]; omega), ok_bind, hm.2 0 (by omega), hm.1]
  have hC : ∀ l k, accum (fun k => (ent pts k l).distance (ent pts (k - 1) l)) k = columnLength pts l k := fun l k => rfl
  have hR : ∀ k l, accum (fun l => (ent pts k l).distance (ent pts k (l - 1))) l = rowLength pts k l := fun l k => rfl
  have hgc : longLines (fun l k => (ent pts k l).distance (ent pts (k - 1) l)) m n = goodColumns pts n m := by
    unfold longLines goodColumns
    ext l
    simp only [mem_filter, hC]
  have hgr : longLines (fun k l => (ent pts k l).distance (ent pts k (l - 1))) n m = goodRows pts n m := by
    unfold longLines goodRows
    ext l
    simp only [mem_filter, hR]
  refine Runs.bind (meshDirection_run (D := fun l k => (ent pts k l).distance (ent pts (k - 1) l)) (fun _ _ => distance_nonneg _ _) ?_ hn
    (by rw [List.length_replicate]; exact le_max_left _ _) (hrl _ _)) ?_
  · intro l k hl h1 hk
    rw [mget_ent hm rfl rfl hk hl, ok_bind, mget_ent hm (a := k - 1) (by omega) rfl (by omega) hl, ok_bind]
  rintro ⟨good, cds, PU⟩ ⟨a1, a2, a3, a4⟩
  dsimp only at *
  rw [hgc] at a3 a4
  simp only [hC] at a4
  by_cases hg : goodColumns pts n m = ∅
  · have : good = false := by
      cases good
      · rfl
      · exact absurd hg (a3.mp rfl)
    rw [if_pos this]
    exact Runs.ok ⟨by simp [hg], by simp⟩
  · rw [if_neg (by rw [a3.mpr hg]; simp)]
    refine Runs.bind (meshDirection_run (D := fun k l => (ent pts k l).distance (ent pts k (l - 1))) (fun _ _ => distance_nonneg _ _) ?_ hm1
      (by rw [a1, List.length_replicate]; exact le_max_right _ _) (hrl _ _)) ?_
    · intro k l hk h1 hl
      rw [mget_ent hm rfl rfl hk hl, ok_bind, mget_ent hm (b := l - 1) rfl (by omega) hk (by omega), ok_bind]
    rintro ⟨good', cds', PV⟩ ⟨b1, b2, b3, b4⟩
    dsimp only at *
    rw [hgr] at b3 b4
    simp only [hR] at b4
    refine Runs.ok ⟨?_, ?_⟩
    · dsimp only
      rw [b3]
      exact ⟨fun h => ⟨hg, h⟩, fun h => h.2⟩
    · intro h
      dsimp only at h ⊢
      have hr := b3.mp h
      have h2n : 2 ≤ n := two (hgc ▸ hg)
      have h2m : 2 ≤ m := two (hgr ▸ hr)
      exact ⟨a2, b2, h2n, h2m, (a4 hg).2.1 h2n, (a4 hg).1, (b4 hr).2.1 h2m, (b4 hr).1, (a4 hg).2.2, (b4 hr).2.2⟩

theorem nth_resizeZero_nil (n k : ℕ) : nth (resizeZero ([] : List ℝ) n) k = 0 := by
  unfold resizeZero
  rw [List.take_nil, List.nil_append]
  rcases Nat.lt_or_ge k (n - ([] : List ℝ).length) with h | h
  · exact nth_replicate h
  · exact nth_ge (by rwa [List.length_replicate])

theorem sum_div_self {s : Finset ℕ} {f : ℕ → ℝ} (hs : s ≠ ∅) (hf : ∀ l ∈ s, f l ≠ 0) : (∑ l ∈ s, f l / f l) / s.card = 1 := by
  rw [sum_congr rfl fun l hl => div_self (hf l hl), sum_const, nsmul_eq_mul, mul_one, div_self]
  exact_mod_cast (card_eq_zero (s := s)).not.mpr hs

/-- C105: for every non-empty rectangular mesh of points and empty output vectors, `GetSurfaceMeshParameterization` returns true exactly when
some column and some row are longer than the tolerance, and then the parameter of row `k` is the average over these columns of
(length up to point `k`) / (total length), and the parameter of column `l` the same average over the rows; in particular both lists start
at 0, end at 1 and are nondecreasing. -/
theorem C105_mesh {pts : List (List (XYZ ℝ))} {n m : ℕ} (hm : IsMat pts n m) (hn : 1 ≤ n) (hm1 : 1 ≤ m) :
    ∃ b U V, getSurfaceMeshParameterization pts [] [] = ok (b, U, V) ∧ (b = true ↔ goodColumns pts n m ≠ ∅ ∧ goodRows pts n m ≠ ∅) ∧
      (b = true → U.length = n ∧ V.length = m ∧
        (∀ k, k < n → nth U k = (∑ l ∈ goodColumns pts n m, columnLength pts l k / columnLength pts l (n - 1)) / (goodColumns pts n m).card) ∧
        (∀ l, l < m → nth V l = (∑ k ∈ goodRows pts n m, rowLength pts k l / rowLength pts k (m - 1)) / (goodRows pts n m).card) ∧
        nth U 0 = 0 ∧ nth U (n - 1) = 1 ∧ nth V 0 = 0 ∧ nth V (m - 1) = 1 ∧
        (∀ i j, i ≤ j → j < n → nth U i ≤ nth U j) ∧ ∀ i j, i ≤ j → j < m → nth V i ≤ nth V j) := by
  obtain ⟨⟨b, U, V⟩, e, h1, h2⟩ := meshParam_run hm hn hm1 [] []
  refine ⟨b, U, V, e, h1, fun hb => ?_⟩
  dsimp only at h1 h2
  obtain ⟨g1, g2, g3, g4, g5, g6, g7, g8, g9, g10⟩ := h2 hb
  obtain ⟨hc, hr⟩ := h1.mp hb
  simp only [nth_resizeZero_nil, zero_add] at g5 g7 g9 g10
  have hcn : ∀ l k, 0 ≤ columnLength pts l k := fun l k => sum_nonneg fun _ _ => distance_nonneg _ _
  have hrn : ∀ l k, 0 ≤ rowLength pts l k := fun l k => sum_nonneg fun _ _ => distance_nonneg _ _
  have hcp : ∀ l ∈ goodColumns pts n m, columnLength pts l (n - 1) ≠ 0 := by
    intro l hl
    unfold goodColumns at hl
    rw [mem_filter] at hl
    exact (hl.2.pos (hcn _ _)).ne'
  have hrp : ∀ l ∈ goodRows pts n m, rowLength pts l (m - 1) ≠ 0 := by
    intro l hl
    unfold goodRows at hl
    rw [mem_filter] at hl
    exact (hl.2.pos (hrn _ _)).ne'
  have hU : ∀ k, k < n → nth U k = (∑ l ∈ goodColumns pts n m, columnLength pts l k / columnLength pts l (n - 1)) / (goodColumns pts n m).card := by
    intro k hk
    rcases Nat.eq_zero_or_pos k with rfl | h0
    · rw [g5, sum_eq_zero, zero_div]
      intro l _
      rw [columnLength, sum_range_zero, zero_div]
    · rcases Nat.lt_or_ge k (n - 1) with h | h
      · exact g9 k h0 h
      · rw [show k = n - 1 by omega, g6]
        exact (sum_div_self hc hcp).symm
  have hV : ∀ l, l < m → nth V l = (∑ k ∈ goodRows pts n m, rowLength pts k l / rowLength pts k (m - 1)) / (goodRows pts n m).card := by
    intro k hk
    rcases Nat.eq_zero_or_pos k with rfl | h0
    · rw [g7, sum_eq_zero, zero_div]
      intro l _
      rw [rowLength, sum_range_zero, zero_div]
    · rcases Nat.lt_or_ge k (m - 1) with h | h
      · exact g10 k h0 h
      · rw [show k = m - 1 by omega, g8]
        exact (sum_div_self hr hrp).symm
  refine ⟨g1, g2, hU, hV, g5, g6, g7, g8, ?_, ?_⟩
  · intro i j hij hj
    rw [hU i (by omega), hU j hj]
    apply div_le_div_of_nonneg_right _ (Nat.cast_nonneg _)
    apply sum_le_sum
    intro l _
    apply div_le_div_of_nonneg_right _ (hcn _ _)
    exact sum_le_sum_of_subset_of_nonneg (range_mono hij) fun _ _ _ => distance_nonneg _ _
  · intro i j hij hj
    rw [hV i (by omega), hV j hj]
    apply div_le_div_of_nonneg_right _ (Nat.cast_nonneg _)
    apply sum_le_sum
    intro l _
    apply div_le_div_of_nonneg_right _ (hrn _ _)
    exact sum_le_sum_of_subset_of_nonneg (range_mono hij) fun _ _ _ => distance_nonneg _ _

/-- C105: the output vectors must be empty (or zero) on entry: with the vectors of an earlier call for a mesh of the same size, every interior
parameter is off by the old parameter divided by the number of columns averaged. -/
theorem C105_reuse_violated {pts : List (List (XYZ ℝ))} {n m : ℕ} (hm : IsMat pts n m) (hn : 1 ≤ n) (hm1 : 1 ≤ m)
    (hc : goodColumns pts n m ≠ ∅) (hr : goodRows pts n m ≠ ∅) {U0 V0 U V : List ℝ} (h0 : U0.length = n)
    (hfresh : getSurfaceMeshParameterization pts [] [] = ok (true, U, V)) :
    ∃ U' V', getSurfaceMeshParameterization pts U0 V0 = ok (true, U', V') ∧
      ∀ k, 1 ≤ k → k < n - 1 → nth U' k = nth U k + nth U0 k / (goodColumns pts n m).card := by
  obtain ⟨⟨b, U', V'⟩, e, h1, h2⟩ := meshParam_run hm hn hm1 U0 V0
  obtain ⟨⟨b2, U2, V2⟩, e2, h3, h4⟩ := meshParam_run hm hn hm1 [] []
  rw [hfresh] at e2
  cases e2
  dsimp only at *
  have hb : b = true := h1.mpr ⟨hc, hr⟩
  subst hb
  refine ⟨U', V', e, fun k hk1 hk => ?_⟩
  obtain ⟨-, -, -, -, -, -, -, -, g9, -⟩ := h2 rfl
  obtain ⟨-, -, -, -, -, -, -, -, g9', -⟩ := h4 rfl
  rw [g9 k hk1 hk, g9' k hk1 hk, nth_resizeZero_nil, zero_add, ← add_div, add_comm]
  congr 2
  unfold resizeZero
  rw [h0, Nat.sub_self, List.replicate_zero, List.append_nil, List.take_of_length_le h0.le]

/-- a mesh of three rows and two columns; the first column is a single point -/
def exMesh : List (List (XYZ ℝ)) := [[⟨0, 0, 0⟩, ⟨0, 1, 0⟩], [⟨0, 0, 0⟩, ⟨1, 1, 0⟩], [⟨0, 0, 0⟩, ⟨4, 1, 0⟩]]

theorem exMesh_columns : goodColumns exMesh 3 2 = {1} := by
  have s9 : Real.sqrt 9 = 3 := by rw [show (9 : ℝ) = 3 ^ 2 by norm_num]; exact Real.sqrt_sq (by norm_num)
  unfold goodColumns
  ext l
  rw [mem_filter, mem_range, mem_singleton]
  have c0 : columnLength exMesh 0 2 = 0 := by
    simp [columnLength, sum_range_succ, exMesh, ent, row, nth, XYZ.distance]
  have c1 : columnLength exMesh 1 2 = 4 := by
    simp only [columnLength, sum_range_succ, exMesh, ent, row, nth, XYZ.distance, sum_range_zero]
    norm_num [s9]
  constructor
  · rintro ⟨h1, h2⟩
    interval_cases l
    · rw [c0] at h2; unfold Long at h2; norm_num at h2
    · rfl
  · rintro rfl
    refine ⟨by norm_num, ?_⟩
    rw [c1]; unfold Long; norm_num

theorem exMesh_rows : goodRows exMesh 3 2 ≠ ∅ := by
  rw [Ne, ← not_nonempty_iff_eq_empty, not_not]
  refine ⟨0, ?_⟩
  unfold goodRows
  rw [mem_filter]
  refine ⟨by decide, ?_⟩
  have c : rowLength exMesh 0 1 = 1 := by
    simp [rowLength, sum_range_succ, exMesh, ent, row, nth, XYZ.distance]
  rw [c]; unfold Long; norm_num

/-- C105 on the concrete mesh: the middle row gets the parameter 1/4, and 1/2 when the output vectors are used again. -/
example : (∃ U V, getSurfaceMeshParameterization exMesh [] [] = ok (true, U, V) ∧ nth U 1 = 1 / 4) ∧
    ∃ U V, getSurfaceMeshParameterization exMesh [0, 1/4, 1] [0, 1] = ok (true, U, V) ∧ nth U 1 = 1 / 2 := by
  have hM : IsMat exMesh 3 2 := by
    refine ⟨rfl, ?_⟩
    intro i hi
    interval_cases i <;> rfl
  have hc : goodColumns exMesh 3 2 ≠ ∅ := by rw [exMesh_columns]; simp
  have v : columnLength exMesh 1 1 = 1 ∧ columnLength exMesh 1 2 = 4 := by
    have s9 : Real.sqrt 9 = 3 := by rw [show (9 : ℝ) = 3 ^ 2 by norm_num]; exact Real.sqrt_sq (by norm_num)
    constructor <;> simp only [columnLength, sum_range_succ, exMesh, ent, row, nth, XYZ.distance, sum_range_zero] <;> norm_num [s9]
  obtain ⟨b, U, V, e, h1, h2⟩ := C105_mesh hM (by norm_num) (by norm_num)
  have hb : b = true := h1.mpr ⟨hc, exMesh_rows⟩
  subst hb
  have hU : nth U 1 = 1 / 4 := by
    rw [(h2 rfl).2.2.1 1 (by norm_num), exMesh_columns]
    simp [v.1, v.2]
  obtain ⟨U', V', e', h'⟩ := C105_reuse_violated hM (by norm_num) (by norm_num) hc exMesh_rows (U0 := [0, 1/4, 1]) (V0 := [0, 1]) rfl e
  refine ⟨⟨U, V, e, hU⟩, U', V', e', ?_⟩
  rw [h' 1 (by norm_num) (by norm_num), hU, exMesh_columns]
  norm_num [nth]

/-! ## C106: tangents from five points -/

/-- The differences of consecutive points, extended by two on each side (The NURBS Book, eqs. 9.31-9.33): entry `k + 1` is `q_k`, so
`q_k = P_k - P_{k-1}` for `1 ≤ k ≤ n`, `q_0 = 2 q_1 - q_2`, `q_{-1} = 2 q_0 - q_1`, `q_{n+1} = 2 q_n - q_{n-1}`, `q_{n+2} = 2 q_{n+1} - q_n`. -/
noncomputable def extDiff (pts : List (XYZ ℝ)) (j : ℕ) : XYZ ℝ :=
  let q := fun k => nth pts k - nth pts (k - 1)
  let n := pts.length - 1
  if j = 0 then (2 : ℝ) • ((2 : ℝ) • q 1 - q 2) - q 1
  else if j = 1 then (2 : ℝ) • q 1 - q 2
  else if j ≤ n + 1 then q (j - 1)
  else if j = n + 2 then (2 : ℝ) • q n - q (n - 1)
  else (2 : ℝ) • ((2 : ℝ) • q n - q (n - 1)) - q n

/-- `|q_{k-1} × q_k|` -/
noncomputable def bend (pts : List (XYZ ℝ)) (k : ℕ) : ℝ := ((extDiff pts k).cross (extDiff pts (k + 1))).length

theorem getqk_ok {pts : List (XYZ ℝ)} {i : ℤ} {k : ℕ} (hi : i = k) (h1 : 1 ≤ k) (hk : k < pts.length) : getqk pts i = ok (extDiff pts (k + 1)) := by
  unfold getqk
  rw [vget_nth hi hk, ok_bind, vget_nth (k := k - 1) (by omega) (by omega), ok_bind]
  unfold extDiff
  dsimp only
  rw [if_neg (by omega), if_neg (by omega), if_pos (by omega), Nat.add_sub_cancel]

theorem getTk_ok {pts : List (XYZ ℝ)} {k : ℕ} (h : bend pts k + bend pts (k + 2) ≠ 0) :
    getTk (extDiff pts k) (extDiff pts (k + 1)) (extDiff pts (k + 2)) (extDiff pts (k + 3)) =
      ok ((1 - bend pts k / (bend pts k + bend pts (k + 2))) • extDiff pts (k + 1) +
        (bend pts k / (bend pts k + bend pts (k + 2))) • extDiff pts (k + 2)).normalize := by
  unfold getTk getak
  rw [fdiv_ok (by exact h), ok_bind]
  rfl

theorem getTk_bad {pts : List (XYZ ℝ)} {k : ℕ} (h : bend pts k + bend pts (k + 2) = 0) :
    getTk (extDiff pts k) (extDiff pts (k + 1)) (extDiff pts (k + 2)) (extDiff pts (k + 3)) = nonfinite := by
  unfold getTk getak
  have : ((extDiff pts k).cross (extDiff pts (k + 1))).length + ((extDiff pts (k + 2)).cross (extDiff pts (k + 3))).length = 0 := h
  rw [this, fdiv_zero]
  rfl

/-- C106: for every list of at least five points for which no formula divides by zero, `ComputeTangent(throughPoints, tangents)` returns
true and, at every point, the normalised combination `(1 - α) q_k + α q_{k+1}` with `α = |q_{k-1} × q_k| / (|q_{k-1} × q_k| + |q_{k+1} × q_{k+2}|)`
(The NURBS Book, eqs. 9.29-9.33), where `0 ≤ α ≤ 1`. -/
theorem C106_tangents_partial {pts : List (XYZ ℝ)} (h5 : 5 ≤ pts.length) (hb : ∀ k, k < pts.length → bend pts k + bend pts (k + 2) ≠ 0) :
    ∃ T, computeTangentFive pts = ok (true, T) ∧ T.length = pts.length ∧ ∀ k, k < pts.length → ∃ α, 0 ≤ α ∧ α ≤ 1 ∧
      α * (bend pts k + bend pts (k + 2)) = bend pts k ∧ nth T k = ((1 - α) • extDiff pts (k + 1) + α • extDiff pts (k + 2)).normalize := by
  obtain ⟨N, hN⟩ : ∃ N, pts.length = N + 1 := ⟨pts.length - 1, by omega⟩
  let G : ℕ → XYZ ℝ := fun k => ((1 - bend pts k / (bend pts k + bend pts (k + 2))) • extDiff pts (k + 1) +
        (bend pts k / (bend pts k + bend pts (k + 2))) • extDiff pts (k + 2)).normalize
  have hG : ∀ k, k < pts.length → getTk (extDiff pts k) (extDiff pts (k + 1)) (extDiff pts (k + 2)) (extDiff pts (k + 3)) = ok (G k) :=
    fun k hk => getTk_ok (hb k hk)
  have e0 : extDiff pts 1 = (2 : ℝ) • extDiff pts 2 - extDiff pts 3 := by
    unfold extDiff
    dsimp only
    rw [if_neg (by omega), if_pos (by omega), if_neg (by omega), if_neg (by omega), if_pos (by omega), if_neg (by omega), if_neg (by omega),
      if_pos (by omega)]
  have e1 : extDiff pts 0 = (2 : ℝ) • extDiff pts 1 - extDiff pts 2 := by
    rw [e0]
    unfold extDiff
    dsimp only
    rw [if_pos (by omega), if_neg (by omega), if_neg (by omega), if_pos (by omega), if_neg (by omega), if_neg (by omega),
      if_pos (by omega)]
  have e2 : extDiff pts (N + 2) = (2 : ℝ) • extDiff pts (N + 1) - extDiff pts N := by
    unfold extDiff
    dsimp only
    rw [if_neg (by omega), if_neg (by omega), if_neg (by omega), if_pos (by omega), if_neg (by omega), if_neg (by omega), if_pos (by omega),
      if_neg (by omega), if_neg (by omega), if_pos (by omega), hN]
    rfl
  have e3 : extDiff pts (N + 3) = (2 : ℝ) • extDiff pts (N + 2) - extDiff pts (N + 1) := by
    rw [e2]
    unfold extDiff
    dsimp only
    rw [if_neg (by omega), if_neg (by omega), if_neg (by omega), if_neg (by omega), if_neg (by omega), if_neg (by omega), if_pos (by omega),
      if_neg (by omega), if_neg (by omega), if_pos (by omega), hN]
    rfl
  have hrun : Runs (computeTangentFive pts) (fun r => r.1 = true ∧ r.2.length = pts.length ∧ ∀ k, k < pts.length → nth r.2 k = G k) := by
    unfold computeTangentFive
    rw [if_neg (by omega)]
    dsimp only
    refine Runs.bind (Q := fun (T : List (XYZ ℝ)) => T.length = pts.length ∧ ∀ k, 2 ≤ k → k < pts.length - 2 → nth T k = G k) ?_ ?_
    · refine (Runs.forN (m := 2) (n := pts.length - 2) (fun i (T : List (XYZ ℝ)) => T.length = pts.length ∧ ∀ k, 2 ≤ k → k < i → nth T k = G k)
        rfl (by omega) (by omega) ⟨List.length_replicate, fun k h1 h2 => by omega⟩ ?_).mono (fun _ h => h)
      rintro i T h1 hi ⟨g1, g2⟩
      obtain ⟨j, rfl⟩ : ∃ j, i = j + 2 := ⟨i - 2, by omega⟩
      rw [getqk_ok (k := j + 1) (by omega) (by omega) (by omega), ok_bind, getqk_ok (k := j + 2) (by omega) (by omega) (by omega), ok_bind,
        getqk_ok (k := j + 3) (by omega) (by omega) (by omega), ok_bind, getqk_ok (k := j + 4) (by omega) (by omega) (by omega), ok_bind]
      rw [hG (j + 2) (by omega), ok_bind, vset_of rfl (by omega)]
      refine Runs.ok ⟨by rw [List.length_set]; exact g1, fun k h2 hk => ?_⟩
      rw [nth_set (by omega)]
      split_ifs with c
      · rw [c]
      · exact g2 k h2 (by omega)
    · rintro T ⟨g1, g2⟩
      rw [getqk_ok (i := 1) (k := 1) rfl (by omega) (by omega), ok_bind, getqk_ok (i := 2) (k := 2) rfl (by omega) (by omega), ok_bind,
        getqk_ok (k := N) (by omega) (by omega) (by omega), ok_bind, getqk_ok (k := N - 1) (by omega) (by omega) (by omega), ok_bind,
        Nat.sub_add_cancel (by omega), show 1 + 1 = 2 from rfl, show 2 + 1 = 3 from rfl, ← e0, ← e1, ← e2, ← e3]
      rw [hG 0 (by omega), ok_bind, vset_of (i := 0) (k := 0) rfl (by omega), ok_bind,
        getqk_ok (i := 3) (k := 3) rfl (by omega) (by omega), ok_bind]
      rw [show 3 + 1 = 4 from rfl, hG 1 (by omega), ok_bind, vset_of (i := 1) (k := 1) rfl (by rw [List.length_set]; omega), ok_bind,
        getqk_ok (k := N - 2) (by omega) (by omega) (by omega), ok_bind]
      obtain ⟨M, rfl⟩ : ∃ M, N = M + 4 := ⟨N - 4, by omega⟩
      rw [show M + 4 - 2 + 1 = M + 3 by omega]
      rw [hG (M + 3) (by omega), ok_bind, vset_of (k := M + 3) (by omega) (by simp only [List.length_set]; omega), ok_bind]
      rw [hG (M + 4) (by omega), ok_bind, vset_of (k := M + 4) (by omega) (by simp only [List.length_set]; omega), ok_bind]
      refine Runs.ok ⟨rfl, by simp only [List.length_set]; exact g1, fun k hk => ?_⟩
      dsimp only
      rw [nth_set (by simp only [List.length_set]; omega)]
      split_ifs with c1
      · rw [c1]
      rw [nth_set (by simp only [List.length_set]; omega)]
      split_ifs with c2
      · rw [c2]
      rw [nth_set (by simp only [List.length_set]; omega)]
      split_ifs with c3
      · rw [c3]
      rw [nth_set (by omega)]
      split_ifs with c4
      · rw [c4]
      exact g2 k (by omega) (by omega)
  obtain ⟨⟨b, T⟩, e, rfl, h2, h3⟩ := hrun
  refine ⟨T, e, h2, fun k hk => ⟨bend pts k / (bend pts k + bend pts (k + 2)), ?_, ?_, ?_, h3 k hk⟩⟩
  · exact div_nonneg (Real.sqrt_nonneg _) (add_nonneg (Real.sqrt_nonneg _) (Real.sqrt_nonneg _))
  · apply div_le_one_of_le₀
    · have : 0 ≤ bend pts (k + 2) := Real.sqrt_nonneg _
      linarith
    · exact add_nonneg (Real.sqrt_nonneg _) (Real.sqrt_nonneg _)
  · exact div_mul_cancel₀ _ (hb k hk)

/-- C106: fewer than five points are reported as an error by the returned boolean. -/
theorem C106_too_few {pts : List (XYZ ℝ)} (h : pts.length < 5) : computeTangentFive pts = ok (false, []) := by
  unfold computeTangentFive
  rw [if_pos h]

/-- C106 is false for points with a straight stretch: whenever `q_1 ∥ q_2` and `q_3 ∥ q_4`, in particular when the first five points are on a line,
the third tangent is `0 / 0`. -/
theorem C106_straight_violated {pts : List (XYZ ℝ)} (h5 : 5 ≤ pts.length)
    (h1 : (nth pts 1 - nth pts 0).cross (nth pts 2 - nth pts 1) = 0) (h2 : (nth pts 3 - nth pts 2).cross (nth pts 4 - nth pts 3) = 0) :
    computeTangentFive pts = nonfinite := by
  have hd : ∀ k, 1 ≤ k → k < pts.length → extDiff pts (k + 1) = nth pts k - nth pts (k - 1) := by
    intro k hk hk'
    unfold extDiff
    dsimp only
    rw [if_neg (by omega), if_neg (by omega), if_pos (by omega), Nat.add_sub_cancel]
  have hl0 : (0 : XYZ ℝ).length = 0 := by
    show Real.sqrt (0 * 0 + 0 * 0 + 0 * 0) = 0
    norm_num
  have hbad : bend pts 2 + bend pts (2 + 2) = 0 := by
    unfold bend
    rw [hd 1 (by omega) (by omega), hd 2 (by omega) (by omega), hd 3 (by omega) (by omega), hd 4 (by omega) (by omega), h1, h2, hl0, add_zero]
  unfold computeTangentFive
  rw [if_neg (by omega)]
  dsimp only
  rw [forI_head (by omega), getqk_ok (k := 1) (by omega) (by omega) (by omega), ok_bind, getqk_ok (i := 2) (k := 2) (by omega) (by omega) (by omega), ok_bind,
    getqk_ok (k := 3) (by omega) (by omega) (by omega), ok_bind, getqk_ok (k := 4) (by omega) (by omega) (by omega), ok_bind]
  rw [getTk_bad (k := 2) hbad]
  rfl

/-- C106: every list of at least five points on a line is in the scope of `C106_straight_violated`. -/
theorem C106_line_violated {pts : List (XYZ ℝ)} (h5 : 5 ≤ pts.length) {A D : XYZ ℝ} {t : ℕ → ℝ} (hl : ∀ k, k < pts.length → nth pts k = A + t k • D) :
    computeTangentFive pts = nonfinite := by
  have key : ∀ i j k, i < pts.length → j < pts.length → k < pts.length → (nth pts j - nth pts i).cross (nth pts k - nth pts j) = 0 := by
    intro i j k hi hj hk
    rw [hl i hi, hl j hj, hl k hk]
    apply XYZ.ext
    all_goals
      show _ = (0 : ℝ)
      simp only [XYZ.cross, XYZ.sub_x, XYZ.sub_y, XYZ.sub_z, XYZ.add_x, XYZ.add_y, XYZ.add_z, XYZ.smul_x, XYZ.smul_y, XYZ.smul_z]
      ring
  exact C106_straight_violated h5 (key 0 1 2 (by omega) (by omega) (by omega)) (key 2 3 4 (by omega) (by omega) (by omega))

/-- C106: five points on a bent polyline meet the hypotheses of `C106_tangents_partial`. -/
example : ∃ T, computeTangentFive [⟨0, 0, 0⟩, ⟨1, 0, 0⟩, ⟨2, 1, 0⟩, ⟨2, 2, 0⟩, ⟨1, 3, 0⟩] = ok (true, T) ∧ T.length = 5 := by
  have hp : ∀ k, 2 ≤ k → k ≤ 4 → bend [⟨0, 0, 0⟩, ⟨1, 0, 0⟩, ⟨2, 1, 0⟩, ⟨2, 2, 0⟩, ⟨1, 3, 0⟩] k = 1 := by
    intro k h1 h2
    interval_cases k <;>
    · simp only [bend, extDiff, XYZ.cross, XYZ.length, nth, List.length_cons, List.length_nil]
      norm_num
  have hn : ∀ k, 0 ≤ bend [⟨0, 0, 0⟩, ⟨1, 0, 0⟩, ⟨2, 1, 0⟩, ⟨2, 2, 0⟩, ⟨1, 3, 0⟩] k := fun k => Real.sqrt_nonneg _
  obtain ⟨T, e, h, -⟩ := C106_tangents_partial (pts := [⟨0, 0, 0⟩, ⟨1, 0, 0⟩, ⟨2, 1, 0⟩, ⟨2, 2, 0⟩, ⟨1, 3, 0⟩]) (by simp) (by
    intro k hk
    simp only [List.length_cons, List.length_nil] at hk
    interval_cases k
    · have := hn 0; have := hp 2 (by norm_num) (by norm_num); linarith
    · have := hn 1; have := hp 3 (by norm_num) (by norm_num); linarith
    · have := hn 2; have := hp 4 (by norm_num) (by norm_num); linarith
    · have := hn 5; have := hp 3 (by norm_num) (by norm_num); linarith
    · have := hn 6; have := hp 4 (by norm_num) (by norm_num); linarith)
  exact ⟨T, e, h⟩

/-! ## C107: tangents from three points -/

theorem posGap {x : ℝ} (h : 1 / 500000 ≤ x) : isAlmostEqualTo x 0 = false ∧ isGreaterThan x 0 = true := by
  have hx : 0 ≤ x := by linarith
  have h1 : isAlmostEqualTo x 0 = false := by
    rw [← Bool.not_eq_true, isAlmostZero_iff, abs_of_nonneg hx, not_le]
    linarith
  refine ⟨h1, ?_⟩
  unfold isGreaterThan
  rw [decide_eq_true_eq]
  unfold tolOf doubleEps
  rw [sub_zero, abs_zero, abs_of_nonneg hx, max_eq_left hx]
  linarith

/-- the differences of parameters and points that `ComputeTangent(throughPoints)` works with -/
theorem tangent_diffs {pts : List (XYZ ℝ)} {uk : List ℝ} (h3 : 3 ≤ pts.length) (hu : uk.length = pts.length) :
    Runs (forI 0 ((pts.length : ℤ) - 1) (List.replicate (pts.length - 1) (0 : ℝ), List.replicate (pts.length - 1) (0 : XYZ ℝ)) fun i (du, dP) => do
      let u1 ← vget uk (i + 1)
      let u0 ← vget uk i
      let du ← vset du i (u1 - u0)
      let p1 ← vget pts (i + 1)
      let p0 ← vget pts i
      let dP ← vset dP i (p1 - p0)
      ok (du, dP)) (fun st => st.1.length = pts.length - 1 ∧ st.2.length = pts.length - 1 ∧
        (∀ k, k < pts.length - 1 → nth st.1 k = nth uk (k + 1) - nth uk k) ∧ ∀ k, k < pts.length - 1 → nth st.2 k = nth pts (k + 1) - nth pts k) := by
  refine (Runs.forN (m := 0) (n := pts.length - 1) (fun i (st : List ℝ × List (XYZ ℝ)) => st.1.length = pts.length - 1 ∧ st.2.length = pts.length - 1 ∧
    (∀ k, k < i → nth st.1 k = nth uk (k + 1) - nth uk k) ∧ ∀ k, k < i → nth st.2 k = nth pts (k + 1) - nth pts k) rfl (by omega) (by omega)
    ⟨List.length_replicate, List.length_replicate, fun k h => by omega, fun k h => by omega⟩ ?_).mono (fun _ h => h)
  rintro i ⟨du, dP⟩ - hi ⟨g1, g2, g3, g4⟩
  dsimp only at *
  rw [vget_nth (k := i + 1) (by omega) (by omega), ok_bind, vget_nth (k := i) rfl (by omega), ok_bind, vset_of rfl (by omega), ok_bind,
    vget_nth (k := i + 1) (by omega) (by omega), ok_bind, vget_nth (k := i) rfl (by omega), ok_bind, vset_of rfl (by omega), ok_bind]
  refine Runs.ok ⟨by rw [List.length_set]; exact g1, by rw [List.length_set]; exact g2, fun k hk => ?_, fun k hk => ?_⟩
  · dsimp only
    rw [nth_set (by omega)]
    split_ifs with c
    · rw [c]
    · exact g3 k (by omega)
  · dsimp only
    rw [nth_set (by omega)]
    split_ifs with c
    · rw [c]
    · exact g4 k (by omega)

/-- slope of segment `k` -/
noncomputable def slope' (pts : List (XYZ ℝ)) (uk : List ℝ) (k : ℕ) : XYZ ℝ := (nth uk (k + 1) - nth uk k)⁻¹ • (nth pts (k + 1) - nth pts k)

theorem computeTangent_run {pts : List (XYZ ℝ)} {uk : List ℝ} (h3 : 3 ≤ pts.length) (hc : getChordParameterization pts = ok uk)
    (hu : uk.length = pts.length) (hgap : ∀ k, k < pts.length - 1 → 1 / 500000 ≤ nth uk (k + 1) - nth uk k) :
    Runs (computeTangent pts) (fun T => T.length = pts.length ∧
      (∀ i, 1 ≤ i → i < pts.length - 1 → nth T i =
        ((nth uk i - nth uk (i - 1)) / (nth uk (i + 1) - nth uk i + (nth uk i - nth uk (i - 1)))) • slope' pts uk (i - 1) +
        (1 - (nth uk i - nth uk (i - 1)) / (nth uk (i + 1) - nth uk i + (nth uk i - nth uk (i - 1)))) • slope' pts uk i) ∧
      nth T 0 = (2 : ℝ) • slope' pts uk 0 - nth T 1 ∧
      nth T (pts.length - 1) = (2 : ℝ) • slope' pts uk (pts.length - 2) - nth T (pts.length - 2)) := by
  obtain ⟨N, hN⟩ : ∃ N, pts.length = N + 2 := ⟨pts.length - 2, by omega⟩
  unfold computeTangent
  rw [if_neg (by omega), if_neg (by omega), if_neg (by omega)]
  dsimp only
  rw [hc, ok_bind]
  refine Runs.bind (tangent_diffs h3 hu) ?_
  rintro ⟨du, dP⟩ ⟨g1, g2, g3, g4⟩
  dsimp only at *
  have hpos : ∀ k, k < pts.length - 1 → 0 < nth uk (k + 1) - nth uk k := fun k hk => by have := hgap k hk; linarith
  refine Runs.bind (Q := fun (T : List (XYZ ℝ)) => T.length = pts.length ∧ ∀ i, 1 ≤ i → i < pts.length - 1 → nth T i =
        ((nth uk i - nth uk (i - 1)) / (nth uk (i + 1) - nth uk i + (nth uk i - nth uk (i - 1)))) • slope' pts uk (i - 1) +
        (1 - (nth uk i - nth uk (i - 1)) / (nth uk (i + 1) - nth uk i + (nth uk i - nth uk (i - 1)))) • slope' pts uk i) ?_ ?_
  · refine (Runs.forN (m := 1) (n := pts.length - 1) (fun j (T : List (XYZ ℝ)) => T.length = pts.length ∧ ∀ i, 1 ≤ i → i < j → nth T i =
        ((nth uk i - nth uk (i - 1)) / (nth uk (i + 1) - nth uk i + (nth uk i - nth uk (i - 1)))) • slope' pts uk (i - 1) +
        (1 - (nth uk i - nth uk (i - 1)) / (nth uk (i + 1) - nth uk i + (nth uk i - nth uk (i - 1)))) • slope' pts uk i) rfl (by omega) (by omega)
        ⟨List.length_replicate, fun i h1 h2 => by omega⟩ ?_).mono (fun _ h => h)
    rintro i T h1 hi ⟨e1, e2⟩
    obtain ⟨j, rfl⟩ : ∃ j, i = j + 1 := ⟨i - 1, by omega⟩
    unfold tangentInner
    rw [vget_nth (k := j + 1) rfl (by omega), ok_bind, vget_nth (k := j) (by omega) (by omega), ok_bind,
      vget_nth (k := j + 1) rfl (by omega), ok_bind, vget_nth (k := j) (by omega) (by omega), ok_bind,
      g3 _ hi, g3 j (by omega), g4 _ hi, g4 j (by omega), (posGap (hgap _ hi)).1, (posGap (hgap j (by omega))).1,
      if_neg (by simp), if_neg (by simp), if_neg (by simp)]
    have p1 := hpos (j + 1) hi
    have p0 := hpos j (by omega)
    rw [fdiv_ok (by linarith), ok_bind, vdiv_ok p0.ne', ok_bind, vdiv_ok p1.ne', ok_bind, vset_of rfl (by omega)]
    refine Runs.ok ⟨by rw [List.length_set]; exact e1, fun k hk1 hk => ?_⟩
    rw [nth_set (by omega)]
    split_ifs with c
    · subst c
      rw [Nat.add_sub_cancel]
      rfl
    · exact e2 k hk1 (by omega)
  · rintro T ⟨e1, e2⟩
    unfold tangentEnd
    rw [vget_nth (i := 0) (k := 0) rfl (by omega), ok_bind, vget_nth (i := 1) (k := 1) rfl (by omega), ok_bind, g3 0 (by omega),
      if_pos (posGap (hgap 0 (by omega))).2, vget_nth (i := 0) (k := 0) rfl (by omega), ok_bind, g4 0 (by omega),
      vdiv_ok (hpos 0 (by omega)).ne', ok_bind, vset_of (i := 0) (k := 0) rfl (by omega), ok_bind]
    rw [vget_nth (k := N) (by omega) (by omega), ok_bind, vget_nth (k := N) (by omega) (by rw [List.length_set]; omega), ok_bind, g3 N (by omega),
      if_pos (posGap (hgap N (by omega))).2, vget_nth (k := N) (by omega) (by omega), ok_bind, g4 N (by omega),
      vdiv_ok (hpos N (by omega)).ne', ok_bind, vset_of (k := N + 1) (by omega) (by rw [List.length_set]; omega)]
    have s0 : ∀ k x y, 1 ≤ k → k < N + 1 → nth (((T.set 0 x).set (N + 1) y) : List (XYZ ℝ)) k = nth T k := by
      intro k x y h1 h2
      rw [nth_set (by rw [List.length_set]; omega), if_neg (by omega), nth_set (by omega), if_neg (by omega)]
    refine Runs.ok ⟨by simp only [List.length_set]; exact e1, fun i h1 hi => ?_, ?_, ?_⟩
    · rw [s0 i _ _ h1 (by omega)]
      exact e2 i h1 hi
    · rw [s0 1 _ _ (by omega) (by omega), nth_set (by rw [List.length_set]; omega), if_neg (by omega), nth_set (by omega), if_pos rfl]
      rfl
    · rw [show pts.length - 1 = N + 1 by omega, show pts.length - 2 = N by omega, s0 N _ _ (by omega) (by omega),
        nth_set (by rw [List.length_set]; omega), if_pos rfl, nth_set (by omega), if_neg (by omega)]
      rfl

/-- C107 (exact error): let the chord parameters `uk` of at least three points be more than the tolerance apart.  At an interior point `i`,
let `A + t B + t² C` be the parabola through the points `i - 1`, `i`, `i + 1` at their parameters.  The tangent that `ComputeTangent` returns is
the derivative `B + 2 uᵢ C` of that parabola plus `((u_{i+1} - uᵢ) - (uᵢ - u_{i-1})) C`: it is the wanted three-point tangent only
when the two neighbouring segments have the same length or the three points are on a line. -/
theorem C107_inner_partial {pts : List (XYZ ℝ)} {uk : List ℝ} (h3 : 3 ≤ pts.length) (hc : getChordParameterization pts = ok uk)
    (hgap : ∀ k, k < pts.length - 1 → 1 / 500000 ≤ nth uk (k + 1) - nth uk k) :
    ∃ T, computeTangent pts = ok T ∧ T.length = pts.length ∧ ∀ i, 1 ≤ i → i < pts.length - 1 → ∀ A B C : XYZ ℝ,
      (∀ j, i - 1 ≤ j → j ≤ i + 1 → nth pts j = A + nth uk j • B + (nth uk j) ^ 2 • C) →
      nth T i = B + (2 * nth uk i) • C + ((nth uk (i + 1) - nth uk i) - (nth uk i - nth uk (i - 1))) • C := by
  have hu : uk.length = pts.length := by
    obtain ⟨uk', e, g, -⟩ := C46_chord pts (by omega)
    rw [hc] at e; cases e; exact g
  obtain ⟨T, e, h1, h2, -, -⟩ := computeTangent_run h3 hc hu hgap
  refine ⟨T, e, h1, fun i hi1 hi A B C hP => ?_⟩
  rw [h2 i hi1 hi]
  obtain ⟨j, rfl⟩ : ∃ j, i = j + 1 := ⟨i - 1, by omega⟩
  rw [Nat.add_sub_cancel] at *
  have d0 : nth uk (j + 1) - nth uk j ≠ 0 := by have := hgap j (by omega); linarith
  have d1 : nth uk (j + 1 + 1) - nth uk (j + 1) ≠ 0 := by have := hgap (j + 1) hi; linarith
  have d2 : nth uk (j + 1 + 1) - nth uk (j + 1) + (nth uk (j + 1) - nth uk j) ≠ 0 := by
    have := hgap j (by omega); have := hgap (j + 1) hi; linarith
  unfold slope'
  rw [hP j (by omega) (by omega), hP (j + 1) (by omega) (by omega), hP (j + 1 + 1) (by omega) (by omega)]
  generalize nth uk j = a at *
  generalize nth uk (j + 1) = b at *
  generalize nth uk (j + 1 + 1) = c at *
  apply XYZ.ext
  all_goals
    simp only [XYZ.add_x, XYZ.add_y, XYZ.add_z, XYZ.smul_x, XYZ.smul_y, XYZ.smul_z, XYZ.sub_x, XYZ.sub_y, XYZ.sub_z]
    field_simp
    ring

theorem distance_on_line (A D : XYZ ℝ) (s t : ℝ) : (A + s • D).distance (A + t • D) = |s - t| * D.length := by
  unfold XYZ.distance XYZ.length
  rw [← Real.sqrt_sq_eq_abs, ← Real.sqrt_mul (sq_nonneg _)]
  congr 1
  simp only [XYZ.add_x, XYZ.add_y, XYZ.add_z, XYZ.smul_x, XYZ.smul_y, XYZ.smul_z]
  ring

/-- C107: for points on a line, traversed in one direction with every step a noticeable part of the whole, all tangents (those at the ends
included) are the derivative of the chord-length parametrisation of that line: the vector from the first to the last point. -/
theorem C107_line {pts : List (XYZ ℝ)} (h3 : 3 ≤ pts.length) {A D : XYZ ℝ} {t : ℕ → ℝ} (hl : ∀ k, k < pts.length → nth pts k = A + t k • D)
    (hD : D.length = 1) (hlong : Long (t (pts.length - 1) - t 0))
    (hstep : ∀ k, k < pts.length - 1 → 1 / 500000 * (t (pts.length - 1) - t 0) ≤ t (k + 1) - t k) :
    ∃ T, computeTangent pts = ok T ∧ T.length = pts.length ∧ ∀ i, i < pts.length → nth T i = nth pts (pts.length - 1) - nth pts 0 := by
  obtain ⟨uk, hc, hu, -, -, -, hform⟩ := C46_chord pts (by omega)
  have hL : 0 < t (pts.length - 1) - t 0 := by unfold Long at hlong; linarith
  have hseg : ∀ k, k < pts.length - 1 → (nth pts (k + 1)).distance (nth pts k) = t (k + 1) - t k := by
    intro k hk
    have := hstep k hk
    rw [hl k (by omega), hl (k + 1) (by omega), distance_on_line, hD, mul_one, abs_of_nonneg]
    linarith [mul_pos (show (0 : ℝ) < 1 / 500000 by norm_num) hL]
  have hsum : ∀ k, k ≤ pts.length - 1 → ∑ j ∈ range k, (nth pts (j + 1)).distance (nth pts j) = t k - t 0 := by
    intro k hk
    rw [sum_congr rfl fun j hj => hseg j (by rw [mem_range] at hj; omega)]
    exact sum_range_sub t k
  have huk : ∀ k, k < pts.length → nth uk k = (t k - t 0) / (t (pts.length - 1) - t 0) := by
    intro k hk
    rw [hform _ (hsum _ (le_refl _)).symm hlong k hk, hsum k (by omega)]
  have hdiff : ∀ k, k < pts.length - 1 → nth uk (k + 1) - nth uk k = (t (k + 1) - t k) / (t (pts.length - 1) - t 0) := by
    intro k hk
    rw [huk k (by omega), huk (k + 1) (by omega)]
    ring
  have hgap : ∀ k, k < pts.length - 1 → 1 / 500000 ≤ nth uk (k + 1) - nth uk k := by
    intro k hk
    rw [hdiff k hk, le_div_iff₀ hL]
    exact hstep k hk
  have hslope : ∀ k, k < pts.length - 1 → slope' pts uk k = (t (pts.length - 1) - t 0) • D := by
    intro k hk
    have h1 : t (k + 1) - t k ≠ 0 := by
      have := hstep k hk
      have := mul_pos (show (0 : ℝ) < 1 / 500000 by norm_num) hL
      linarith
    unfold slope'
    rw [hdiff k hk, hl k (by omega), hl (k + 1) (by omega), add_sub_add_left_eq_sub, ← sub_smul, smul_smul, inv_div, div_mul_cancel₀ _ h1]
  obtain ⟨T, e, g1, g2, g3, g4⟩ := computeTangent_run h3 hc hu hgap
  have hin : ∀ i, 1 ≤ i → i < pts.length - 1 → nth T i = (t (pts.length - 1) - t 0) • D := by
    intro i h1 hi
    rw [g2 i h1 hi, hslope i hi, hslope (i - 1) (by omega), ← add_smul, add_sub_cancel, one_smul]
  have htwo : ∀ v : XYZ ℝ, (2 : ℝ) • v - v = v := fun v => by rw [two_smul]; abel
  refine ⟨T, e, g1, fun i hi => ?_⟩
  rw [hl _ (by omega : pts.length - 1 < pts.length), hl 0 (by omega), add_sub_add_left_eq_sub, ← sub_smul]
  rcases Nat.eq_zero_or_pos i with rfl | h0
  · rw [g3, hslope 0 (by omega), hin 1 (by omega) (by omega), htwo]
  · rcases Nat.lt_or_ge i (pts.length - 1) with h | h
    · exact hin i h0 h
    · rw [show i = pts.length - 1 by omega, g4, hslope _ (by omega), hin _ (by omega) (by omega), htwo]

/-- three points with segments of length 5 and 10 -/
def exBend : List (XYZ ℝ) := [⟨0, 0, 0⟩, ⟨3, 4, 0⟩, ⟨3, 14, 0⟩]

theorem exBend_chord : ∃ uk, getChordParameterization exBend = ok uk ∧ nth uk 0 = 0 ∧ nth uk 1 = 1 / 3 ∧ nth uk 2 = 1 := by
  have s25 : Real.sqrt 25 = 5 := by rw [show (25 : ℝ) = 5 ^ 2 by norm_num]; exact Real.sqrt_sq (by norm_num)
  have s100 : Real.sqrt 100 = 10 := by rw [show (100 : ℝ) = 10 ^ 2 by norm_num]; exact Real.sqrt_sq (by norm_num)
  obtain ⟨uk, e, -, h0, h1, -, hf⟩ := C46_chord exBend (by simp [exBend])
  refine ⟨uk, e, h0, ?_, h1⟩
  have d0 : (nth exBend 1).distance (nth exBend 0) = 5 := by
    simp only [exBend, nth, XYZ.distance]
    norm_num [s25]
  have d1 : (nth exBend 2).distance (nth exBend 1) = 10 := by
    simp only [exBend, nth, XYZ.distance]
    norm_num [s100]
  have := hf 15 (by simp only [exBend, List.length_cons, List.length_nil] at d0 d1 ⊢; simp only [sum_range_succ, sum_range_zero]; rw [d0, d1]; norm_num) (by norm_num) 1 (by simp [exBend])
  rw [this, sum_range_one, d0]
  norm_num

/-- C107 is false in general: for three points with segments of length 5 and 10 the parabola through them at their chord parameters has the
derivative (6, 13, 0) at the middle point, `ComputeTangent` returns (3, 14, 0) (the two weights are exchanged). -/
theorem C107_parabola_violated : ∃ (uk : List ℝ) (T : List (XYZ ℝ)) (A B C : XYZ ℝ), getChordParameterization exBend = ok uk ∧
    computeTangent exBend = ok T ∧ (∀ j, j < 3 → nth exBend j = A + nth uk j • B + (nth uk j) ^ 2 • C) ∧
    B + (2 * nth uk 1) • C = ⟨6, 13, 0⟩ ∧ nth T 1 = ⟨3, 14, 0⟩ := by
  obtain ⟨uk, e, h0, h1, h2⟩ := exBend_chord
  have hgap : ∀ k, k < exBend.length - 1 → 1 / 500000 ≤ nth uk (k + 1) - nth uk k := by
    intro k hk
    simp only [exBend, List.length_cons, List.length_nil] at hk
    interval_cases k
    · rw [h0, h1]; norm_num
    · rw [h1, h2]; norm_num
  have hP : ∀ j, j < 3 → nth exBend j = (⟨0, 0, 0⟩ : XYZ ℝ) + nth uk j • (⟨12, 11, 0⟩ : XYZ ℝ) + (nth uk j) ^ 2 • (⟨-9, 3, 0⟩ : XYZ ℝ) := by
    intro j hj
    interval_cases j
    · rw [h0]; apply XYZ.ext <;> simp [exBend, nth]
    · rw [h1]; apply XYZ.ext <;> simp [exBend, nth] <;> norm_num
    · rw [h2]; apply XYZ.ext <;> simp [exBend, nth] <;> norm_num
  obtain ⟨T, eT, -, hT⟩ := C107_inner_partial (by simp [exBend]) e hgap
  refine ⟨uk, T, _, _, _, e, eT, hP, ?_, ?_⟩
  · rw [h1]; apply XYZ.ext <;> simp <;> norm_num
  · rw [hT 1 (le_refl _) (by simp [exBend]) _ _ _ (fun j _ hj => hP j (by omega)), h1, h2, h0]
    apply XYZ.ext <;> simp <;> norm_num

theorem forI_nonfinite {σ : Type} {body : ℤ → σ → Res σ} (Inv : σ → Prop) {b i0 : ℤ} (hb : i0 < b) :
    ∀ (d : ℕ) (a : ℤ) (s : σ), a + d = i0 → Inv s → (∀ i s, a ≤ i → i < i0 → Inv s → body i s = nonfinite ∨ Runs (body i s) Inv) →
      (∀ s, Inv s → body i0 s = nonfinite) → forI a b s body = nonfinite := by
  intro d
  induction d with
  | zero =>
    intro a s ha h _ hstop
    have : a = i0 := by omega
    subst this
    rw [forI_head hb, hstop s h]
    rfl
  | succ d ih =>
    intro a s ha h hstep hstop
    rw [forI_head (by omega)]
    rcases hstep a s (le_refl _) (by omega) h with h' | ⟨s', e, h'⟩
    · rw [h']; rfl
    · rw [e, ok_bind]
      exact ih (a + 1) s' (by omega) h' (fun i s h1 h2 h3 => hstep i s (by omega) h2 h3) hstop

theorem tangentInner_cases {du : List ℝ} {dP T : List (XYZ ℝ)} {i : ℕ} (h1 : 1 ≤ i) (hd : i < du.length) (hp : i < dP.length) (hT : i < T.length) :
    tangentInner du dP i T = nonfinite ∨ Runs (tangentInner du dP i T) (fun T' => T'.length = T.length) := by
  have key : ∀ x, Runs (vset T (i : ℤ) x) (fun T' => T'.length = T.length) := fun x => by
    rw [vset_of rfl hT]; exact Runs.ok (List.length_set ..)
  have vd : ∀ (v : XYZ ℝ) (x : ℝ), vdiv v x = nonfinite ∨ vdiv v x = ok (x⁻¹ • v) := by
    intro v x
    by_cases h : x = 0
    · left; rw [h]; exact vdiv_zero v
    · right; exact vdiv_ok h
  have fd : ∀ (v : ℝ) (x : ℝ), fdiv v x = nonfinite ∨ fdiv v x = ok (v / x) := by
    intro v x
    by_cases h : x = 0
    · left; rw [h]; exact fdiv_zero v
    · right; exact fdiv_ok h
  unfold tangentInner
  rw [vget_nth (k := i) rfl hd, ok_bind, vget_nth (k := i - 1) (by omega) (by omega), ok_bind,
      vget_nth (k := i) rfl hp, ok_bind, vget_nth (k := i - 1) (by omega) (by omega), ok_bind]
  split_ifs
  · right; exact key _
  · rcases vd (nth dP i) (nth du i) with h | h
    · left; rw [h]; rfl
    · right; rw [h, ok_bind]; exact key _
  · rcases vd (nth dP (i - 1)) (nth du (i - 1)) with h | h
    · left; rw [h]; rfl
    · right; rw [h, ok_bind]; exact key _
  · rcases fd (nth du (i - 1)) (nth du i + nth du (i - 1)) with h | h
    · left; rw [h]; rfl
    rw [h, ok_bind]
    rcases vd (nth dP (i - 1)) (nth du (i - 1)) with h | h
    · left; rw [h]; rfl
    rw [h, ok_bind]
    rcases vd (nth dP i) (nth du i) with h | h
    · left; rw [h]; rfl
    right; rw [h, ok_bind]; exact key _

/-- C107 is false for repeated points: if an interior point is followed by a copy of itself and the step before it is a noticeable part
of the whole, `ComputeTangent` divides zero by zero (the two special branches are exchanged). -/
theorem C107_repeated_violated {pts : List (XYZ ℝ)} {uk : List ℝ} (hc : getChordParameterization pts = ok uk)
    (hlong : Long (∑ j ∈ range (pts.length - 1), (nth pts (j + 1)).distance (nth pts j))) {i : ℕ} (h1 : 1 ≤ i) (hi : i < pts.length - 1)
    (hrep : nth pts (i + 1) = nth pts i) (hgap : 1 / 500000 ≤ nth uk i - nth uk (i - 1)) : computeTangent pts = nonfinite := by
  obtain ⟨uk', e, hu, -, -, -, hform⟩ := C46_chord pts (by omega)
  rw [hc] at e
  cases e
  have hform := hform _ rfl hlong
  have hd0 : nth uk (i + 1) - nth uk i = 0 := by
    rw [hform i (by omega), hform (i + 1) (by omega), sum_range_succ, hrep]
    have : (nth pts i).distance (nth pts i) = 0 := by
      unfold XYZ.distance
      simp
    rw [this, add_zero, sub_self]
  unfold computeTangent
  rw [if_neg (by omega), if_neg (by omega), if_neg (by omega)]
  dsimp only
  rw [hc, ok_bind]
  obtain ⟨⟨du, dP⟩, e2, g1, g2, g3, g4⟩ := tangent_diffs (pts := pts) (by omega) hu
  have e2 : (forI 0 ((pts.length : ℤ) - 1) (List.replicate (pts.length - 1) (0 : ℝ), List.replicate (pts.length - 1) (0 : XYZ ℝ)) fun i x => do
      let u1 ← vget uk (i + 1)
      let u0 ← vget uk i
      let du ← vset x.1 i (u1 - u0)
      let p1 ← vget pts (i + 1)
      let p0 ← vget pts i
      let dP ← vset x.2 i (p1 - p0)
      ok (du, dP)) = ok (du, dP) := e2
  rw [e2, ok_bind]
  dsimp only at *
  rw [forI_nonfinite (fun (T : List (XYZ ℝ)) => T.length = pts.length) (i0 := (i : ℤ)) (by omega) (i - 1) 1 _ (by omega) List.length_replicate]
  · rfl
  · intro k T hk1 hk hT
    obtain ⟨k, rfl⟩ : ∃ m : ℕ, k = m := ⟨k.toNat, by omega⟩
    rcases tangentInner_cases (du := du) (dP := dP) (T := T) (i := k) (by omega) (by omega) (by omega) (by omega) with h | h
    · exact Or.inl h
    · exact Or.inr (h.mono fun T' h' => by rw [h', hT])
  · intro T hT
    unfold tangentInner
    rw [vget_nth (k := i) rfl (by omega), ok_bind, vget_nth (k := i - 1) (by omega) (by omega), ok_bind,
      vget_nth (k := i) rfl (by omega), ok_bind, vget_nth (k := i - 1) (by omega) (by omega), ok_bind, g3 i (by omega), hd0,
      g3 (i - 1) (by omega), Nat.sub_add_cancel h1, (posGap hgap).1, isAlmostEqualTo_self doubleEps_pos]
    rw [if_neg (by simp), if_pos rfl, vdiv_zero]
    rfl

/-- C107: collinear points at 0, 1, 4, 10 meet the hypotheses of `C107_line`, and the bent points those of `C107_inner_partial`. -/
example : ∃ T, computeTangent [⟨0, 0, 0⟩, ⟨1, 0, 0⟩, ⟨4, 0, 0⟩, ⟨10, 0, 0⟩] = ok T ∧ nth T 2 = ⟨10, 0, 0⟩ := by
  obtain ⟨T, e, -, h⟩ := C107_line (pts := [⟨0, 0, 0⟩, ⟨1, 0, 0⟩, ⟨4, 0, 0⟩, ⟨10, 0, 0⟩]) (A := 0) (D := ⟨1, 0, 0⟩) (t := fun k => nth [0, 1, 4, 10] k)
    (by simp) (by
      intro k hk
      simp only [List.length_cons, List.length_nil] at hk
      interval_cases k <;> (apply XYZ.ext <;> simp [nth])) (by simp [XYZ.length]) (by unfold Long; simp [nth]; norm_num) (by
      intro k hk
      simp only [List.length_cons, List.length_nil] at hk
      interval_cases k <;> (simp [nth]; norm_num))
  refine ⟨T, e, ?_⟩
  rw [h 2 (by simp)]
  apply XYZ.ext <;> simp [nth]

/-- C107: a polyline with a repeated point meets the hypotheses of `C107_repeated_violated`. -/
example : computeTangent [⟨0, 0, 0⟩, ⟨5, 0, 0⟩, ⟨5, 0, 0⟩, ⟨15, 0, 0⟩] = nonfinite := by
  obtain ⟨uk, e, -, h0, -, -, hf⟩ := C46_chord [⟨0, 0, 0⟩, ⟨5, 0, 0⟩, ⟨5, 0, 0⟩, ⟨15, 0, 0⟩] (by simp)
  have hs : ∑ j ∈ range (List.length [(⟨0, 0, 0⟩ : XYZ ℝ), ⟨5, 0, 0⟩, ⟨5, 0, 0⟩, ⟨15, 0, 0⟩] - 1),
      (nth [(⟨0, 0, 0⟩ : XYZ ℝ), ⟨5, 0, 0⟩, ⟨5, 0, 0⟩, ⟨15, 0, 0⟩] (j + 1)).distance (nth [⟨0, 0, 0⟩, ⟨5, 0, 0⟩, ⟨5, 0, 0⟩, ⟨15, 0, 0⟩] j) = 15 := by
    have s100 : Real.sqrt 100 = 10 := by rw [show (100 : ℝ) = 10 ^ 2 by norm_num]; exact Real.sqrt_sq (by norm_num)
    simp [sum_range_succ, nth, XYZ.distance]
    norm_num [s100]
  have hl : Long (15 : ℝ) := by unfold Long; norm_num
  refine C107_repeated_violated e (by rw [hs]; exact hl) (i := 1) (le_refl _) (by simp) rfl ?_
  rw [hf 15 hs.symm hl 1 (by simp), h0]
  simp [nth, XYZ.distance]
  norm_num

end LNLib.Props
