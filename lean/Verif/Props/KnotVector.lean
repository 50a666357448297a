import Verif.Model.KnotVector
import Verif.Lemmas.Tolerance
import Verif.Core.Hoare
import Verif.Props.KnotInsertion

/-!
# C45, C71, C72: knot vector utilities
-/

set_option linter.unusedSectionVars false

namespace LNLib.Props
open LNLib Res

variable {K : Type} [Field K] [LinearOrder K] [IsStrictOrderedRing K]

/-! ### the map -/

/-- keys in strictly ascending order -/
def SortedMap (m : KnotMap K) : Prop := (m.map Prod.fst).Pairwise (· < ·)

theorem find_none_of_lt {x : K} : ∀ {m : KnotMap K}, (∀ e ∈ m, x < e.1) → m.find x = none
  | [], _ => rfl
  | (k, c) :: m, h => by
    have h1 : x < k := h (k, c) (by simp)
    simp only [KnotMap.find]
    rw [if_neg h1.ne', find_none_of_lt fun e he => h e (by simp [he])]

theorem sorted_cons {k : K} {c : ℤ} {m : KnotMap K} : SortedMap ((k, c) :: m) ↔ (∀ e ∈ m, k < e.1) ∧ SortedMap m := by
  unfold SortedMap
  simp only [List.map_cons, List.pairwise_cons, List.mem_map, forall_exists_index, and_imp]
  constructor
  · rintro ⟨h1, h2⟩; exact ⟨fun e he => h1 e.1 e he rfl, h2⟩
  · rintro ⟨h1, h2⟩; exact ⟨fun a e he hea => hea ▸ h1 e he, h2⟩

theorem mem_incr {x : K} : ∀ {m : KnotMap K} {e : K × ℤ}, e ∈ m.incr x → e.1 = x ∨ ∃ e' ∈ m, e'.1 = e.1
  | [], e, h => by simp [KnotMap.incr] at h; subst h; exact Or.inl rfl
  | (k, c) :: m, e, h => by
    simp only [KnotMap.incr] at h
    split at h
    · rcases List.mem_cons.mp h with rfl | h
      · exact Or.inl rfl
      · exact Or.inr ⟨e, h, rfl⟩
    · split at h
      · rcases List.mem_cons.mp h with rfl | h
        · exact Or.inr ⟨(k, c), by simp, rfl⟩
        · exact Or.inr ⟨e, by simp [h], rfl⟩
      · rcases List.mem_cons.mp h with rfl | h
        · exact Or.inr ⟨(k, c), by simp, rfl⟩
        · rcases mem_incr h with h | ⟨e', h1, h2⟩
          · exact Or.inl h
          · exact Or.inr ⟨e', by simp [h1], h2⟩

theorem sorted_incr {x : K} : ∀ {m : KnotMap K}, SortedMap m → SortedMap (m.incr x)
  | [], _ => by simp [KnotMap.incr, SortedMap]
  | (k, c) :: m, h => by
    obtain ⟨h1, h2⟩ := sorted_cons.mp h
    simp only [KnotMap.incr]
    split
    · rename_i hlt
      rw [sorted_cons]
      refine ⟨?_, h⟩
      intro e he
      rcases List.mem_cons.mp he with rfl | he
      · exact hlt
      · exact hlt.trans (h1 e he)
    · split
      · exact sorted_cons.mpr ⟨h1, h2⟩
      · rename_i h3 h4
        rw [sorted_cons]
        refine ⟨?_, sorted_incr h2⟩
        intro e he
        rcases mem_incr he with h | ⟨e', h5, h6⟩
        · rw [h]; exact lt_of_le_of_ne (not_lt.mp h3) (Ne.symm h4)
        · rw [← h6]; exact h1 e' h5

theorem find_incr {x y : K} : ∀ {m : KnotMap K}, SortedMap m →
    (m.incr x).find y = if y = x then some ((m.find x).getD 0 + 1) else m.find y
  | [], _ => by
    by_cases h : y = x
    · simp [KnotMap.incr, KnotMap.find, h]
    · simp [KnotMap.incr, KnotMap.find, h, Ne.symm h]
  | (k, c) :: m, h => by
    obtain ⟨h1, h2⟩ := sorted_cons.mp h
    simp only [KnotMap.incr]
    split
    · rename_i hlt
      have hn : KnotMap.find x ((k, c) :: m) = none := by
        apply find_none_of_lt
        intro e he
        rcases List.mem_cons.mp he with rfl | he
        · exact hlt
        · exact hlt.trans (h1 e he)
      rw [hn]
      by_cases h : y = x
      · simp [KnotMap.find, h]
      · simp only [KnotMap.find, if_neg h, if_neg (Ne.symm h)]
    · split
      · rename_i h3 h4
        subst h4
        by_cases h : y = x
        · simp [KnotMap.find, h]
        · simp only [KnotMap.find, if_neg h, if_neg (Ne.symm h)]
      · rename_i h3 h4
        by_cases h : y = x
        · subst h
          simp only [KnotMap.find, if_neg (Ne.symm h4), if_true]
          rw [find_incr h2, if_pos rfl]
        · simp only [KnotMap.find, if_neg (Ne.symm h4)]
          rw [find_incr h2, if_neg h, if_neg h]

theorem foldl_incr (U : List K) : ∀ m : KnotMap K, SortedMap m → SortedMap (U.foldl (fun m k => m.incr k) m) ∧
    ∀ x, (U.foldl (fun m k => m.incr k) m).find x = if U.count x = 0 then m.find x else some ((m.find x).getD 0 + U.count x) := by
  induction U with
  | nil => intro m h; exact ⟨h, fun x => by simp⟩
  | cons k U ih =>
    intro m h
    obtain ⟨h1, h2⟩ := ih (m.incr k) (sorted_incr h)
    refine ⟨h1, fun x => ?_⟩
    rw [List.foldl_cons, h2 x, find_incr h]
    by_cases hx : x = k
    · subst hx
      rw [if_pos rfl, List.count_cons_self]
      simp only [Option.getD_some, Nat.add_eq_zero_iff, one_ne_zero, and_false, if_false]
      split
      · rename_i h0; simp [h0]
      · congr 1; push_cast; ring
    · rw [if_neg hx, List.count_cons_of_ne (Ne.symm hx)]

/-- the map holds the multiplicities -/
theorem map_find (U : List K) (x : K) : (getKnotMultiplicityMap U).find x = if U.count x = 0 then none else some (U.count x : ℤ) := by
  have := (foldl_incr U [] (by simp [SortedMap])).2 x
  unfold getKnotMultiplicityMap
  rw [this]
  simp [KnotMap.find]

theorem map_sorted (U : List K) : SortedMap (getKnotMultiplicityMap U) := (foldl_incr U [] (by simp [SortedMap])).1

theorem find_of_mem : ∀ {m : KnotMap K} {e : K × ℤ}, SortedMap m → e ∈ m → m.find e.1 = some e.2
  | (k, c) :: m, e, h, he => by
    obtain ⟨h1, h2⟩ := sorted_cons.mp h
    rcases List.mem_cons.mp he with rfl | he
    · simp [KnotMap.find]
    · simp only [KnotMap.find]
      rw [if_neg (h1 e he).ne, find_of_mem h2 he]

/-- counting in a loop over the map that appends copies of the key -/
theorem count_foldl (g : K × ℤ → ℕ) (x : K) : ∀ (m : KnotMap K) (l : List K), SortedMap m →
    (m.foldl (fun l e => l ++ List.replicate (g e) e.1) l).count x = l.count x + (match m.find x with | none => 0 | some c => g (x, c))
  | [], l, _ => by simp [KnotMap.find]
  | (k, c) :: m, l, h => by
    obtain ⟨h1, h2⟩ := sorted_cons.mp h
    rw [List.foldl_cons, count_foldl g x m _ h2, List.count_append, List.count_replicate]
    by_cases hx : k = x
    · subst hx
      rw [find_none_of_lt h1]
      simp [KnotMap.find]
    · simp [KnotMap.find, hx]

theorem stdSort_perm (l : List K) : (stdSort l).Perm l := List.perm_insertionSort _ l

theorem stdSort_sorted (l : List K) : (stdSort l).Pairwise (· ≤ ·) := List.pairwise_insertionSort _ l

theorem fst_fold0 (map1 : KnotMap K) : ∀ (m : KnotMap K) (st : List K × List K),
    m.foldl (insertedStep0 map1) st =
      (m.foldl (fun l e => l ++ List.replicate (match map1.find e.1 with | none => 0 | some c => (c - e.2).toNat) e.1) st.1,
       m.foldl (fun l e => l ++ List.replicate (match map1.find e.1 with | none => e.2.toNat | some c => (e.2 - c).toNat) e.1) st.2)
  | [], st => rfl
  | e :: m, st => by
    simp only [List.foldl_cons]
    rw [fst_fold0 map1 m]
    unfold insertedStep0
    cases hf : map1.find e.1 with
    | none => simp
    | some c =>
      simp only
      split
      · have : (c - e.2).toNat = 0 := by omega
        simp [this]
      · have : (e.2 - c).toNat = 0 := by omega
        simp [this]

theorem fold1 (map0 : KnotMap K) : ∀ (m : KnotMap K) (l : List K),
    m.foldl (insertedStep1 map0) l = m.foldl (fun l e => l ++ List.replicate (match map0.find e.1 with | none => e.2.toNat | some _ => 0) e.1) l
  | [], _ => rfl
  | e :: m, l => by
    simp only [List.foldl_cons]
    rw [fold1 map0 m]
    unfold insertedStep1
    cases hf : map0.find e.1 <;> simp

/-! ## C45 -/

/-- C45: `GetInsertedKnotElement(k0, k1)` appends to the (empty) outputs sorted lists; adding them to the two knot
vectors gives every knot the larger of its two multiplicities in both.  Holds for all lists. -/
theorem C45_merge (U0 U1 : List K) : ∃ i0 i1, getInsertedKnotElement2 U0 U1 [] [] = (i0, i1) ∧
    i0.Pairwise (· ≤ ·) ∧ i1.Pairwise (· ≤ ·) ∧
    ∀ x, (U0 ++ i0).count x = max (U0.count x) (U1.count x) ∧ (U1 ++ i1).count x = max (U0.count x) (U1.count x) := by
  refine ⟨_, _, rfl, stdSort_sorted _, stdSort_sorted _, ?_⟩
  intro x
  rw [List.count_append, List.count_append, (stdSort_perm _).count_eq, (stdSort_perm _).count_eq, fst_fold0, fold1,
    count_foldl _ _ _ _ (map_sorted _), count_foldl _ _ _ _ (map_sorted _), count_foldl _ _ _ _ (map_sorted _)]
  simp only [map_find]
  by_cases h0 : U0.count x = 0 <;> by_cases h1 : U1.count x = 0 <;> simp only [h0, h1, if_true, if_false, List.count_nil]
  · simp
  · simp
  · simp
  · generalize U0.count x = a
    generalize U1.count x = b
    have e1 : ((a : ℤ) - b).toNat = a - b := Int.toNat_sub a b
    have e2 : ((b : ℤ) - a).toNat = b - a := Int.toNat_sub b a
    rw [e1, e2]
    omega

/-- C45: consequently both merged knot vectors are the same multiset. -/
theorem C45_same_multiset (U0 U1 : List K) :
    (U0 ++ (getInsertedKnotElement2 U0 U1 [] []).1).Perm (U1 ++ (getInsertedKnotElement2 U0 U1 [] []).2) := by
  obtain ⟨i0, i1, e, -, -, h⟩ := C45_merge U0 U1
  rw [e, List.perm_iff_count]
  intro x
  rw [(h x).1, (h x).2]

/-- C45 on concrete data -/
example : getInsertedKnotElement2 ([0, 0, 1, 2, 2] : List ℚ) [0, 0, 1, 1, 3/2, 2, 2] [] [] = ([1, 3/2], []) := by decide +kernel

theorem put_sorted_find (x : K) (c : ℤ) : ∀ {m : KnotMap K}, SortedMap m → SortedMap (m.put x c) ∧
    ∀ y, (m.put x c).find y = if y = x then some c else m.find y
  | [], _ => ⟨by simp [KnotMap.put, SortedMap], fun y => by
      by_cases h : y = x
      · simp [KnotMap.put, KnotMap.find, h]
      · simp [KnotMap.put, KnotMap.find, h, Ne.symm h]⟩
  | (k, d) :: m, h => by
    obtain ⟨h1, h2⟩ := sorted_cons.mp h
    obtain ⟨ih1, ih2⟩ := put_sorted_find x c h2
    simp only [KnotMap.put]
    split
    · rename_i hlt
      refine ⟨sorted_cons.mpr ⟨?_, h⟩, fun y => ?_⟩
      · intro e he
        rcases List.mem_cons.mp he with rfl | he
        · exact hlt
        · exact hlt.trans (h1 e he)
      · by_cases hy : y = x
        · simp [KnotMap.find, hy]
        · simp only [KnotMap.find, if_neg hy, if_neg (Ne.symm hy)]
    · split
      · rename_i h3 h4
        subst h4
        refine ⟨sorted_cons.mpr ⟨h1, h2⟩, fun y => ?_⟩
        by_cases hy : y = x
        · simp [KnotMap.find, hy]
        · simp only [KnotMap.find, if_neg hy, if_neg (Ne.symm hy)]
      · rename_i h3 h4
        refine ⟨sorted_cons.mpr ⟨?_, ih1⟩, fun y => ?_⟩
        · intro e he
          have hs : (KnotMap.put x c m).find e.1 = some e.2 := find_of_mem ih1 he
          by_cases hy : e.1 = x
          · rw [hy]; exact lt_of_le_of_ne (not_lt.mp h3) (Ne.symm h4)
          · rw [ih2, if_neg hy] at hs
            by_contra hc
            have : KnotMap.find e.1 m = none := find_none_of_lt fun e' he' => lt_of_le_of_lt (not_lt.mp hc) (h1 e' he')
            rw [this] at hs; exact nomatch hs
        · by_cases hy : y = x
          · subst hy
            simp only [KnotMap.find, if_neg (Ne.symm h4), if_true]
            rw [ih2, if_pos rfl]
          · simp only [KnotMap.find, ih2, if_neg hy]

/-- the larger of two optional counts -/
def optMax (a b : Option ℤ) : Option ℤ :=
  match a, b with
  | none, b => b
  | a, none => a
  | some a, some b => some (max a b)

theorem final_fold : ∀ (m fm : KnotMap K), SortedMap m → SortedMap fm → SortedMap (m.foldl finalStep fm) ∧
    ∀ x, (m.foldl finalStep fm).find x = optMax (fm.find x) (m.find x)
  | [], fm, _, h => ⟨h, fun x => by simp only [List.foldl_nil, KnotMap.find]; cases fm.find x <;> rfl⟩
  | (k, c) :: m, fm, h, hf => by
    obtain ⟨h1, h2⟩ := sorted_cons.mp h
    have hs : SortedMap (finalStep fm (k, c)) ∧ ∀ x, (finalStep fm (k, c)).find x = if x = k then optMax (fm.find x) (some c) else fm.find x := by
      unfold finalStep
      simp only
      cases hk : fm.find k with
      | none =>
        obtain ⟨p1, p2⟩ := put_sorted_find k c hf
        refine ⟨p1, fun x => ?_⟩
        simp only [p2]
        split
        · rename_i hx; rw [hx, hk]; rfl
        · rfl
      | some cc =>
        simp only
        split
        · rename_i hlt
          obtain ⟨p1, p2⟩ := put_sorted_find k c hf
          refine ⟨p1, fun x => ?_⟩
          simp only [p2]
          split
          · rename_i hx; rw [hx, hk]; simp only [optMax]; rw [max_eq_right hlt.le]
          · rfl
        · rename_i hlt
          refine ⟨hf, fun x => ?_⟩
          split
          · rename_i hx; rw [hx, hk]; simp only [optMax]; rw [max_eq_left (not_lt.mp hlt)]
          · rfl
    obtain ⟨i1, i2⟩ := final_fold m (finalStep fm (k, c)) h2 hs.1
    refine ⟨i1, fun x => ?_⟩
    rw [List.foldl_cons, i2, hs.2]
    by_cases hx : x = k
    · subst hx
      rw [if_pos rfl, find_none_of_lt h1]
      simp only [KnotMap.find, if_true]
      cases fm.find x <;> rfl
    · simp only [KnotMap.find, if_neg hx, if_neg (Ne.symm hx)]

/-- C45: the variant for any number of knot vectors returns one sorted list per knot vector; adding it gives every
knot the largest of its multiplicities. -/
theorem C45_merge_all (Us : List (List K)) : (getInsertedKnotElementsAll Us).length = Us.length ∧
    ∀ (i : ℕ) (U I : List K), Us[i]? = some U → (getInsertedKnotElementsAll Us)[i]? = some I →
      ∀ x, (U ++ I).count x = (Us.map (List.count x)).foldr max 0 := by
  have hfold : ∀ (Vs : List (List K)) (fm : KnotMap K), SortedMap fm →
      SortedMap (Vs.foldl (fun fm U => (getKnotMultiplicityMap U).foldl finalStep fm) fm) ∧
      ∀ x, ((Vs.foldl (fun fm U => (getKnotMultiplicityMap U).foldl finalStep fm) fm).find x).getD 0 =
        max ((fm.find x).getD 0) (((Vs.map (List.count x)).foldr max 0 : ℕ) : ℤ) ∨ (fm.find x).getD 0 < 0 := by
    intro Vs
    induction Vs with
    | nil =>
      intro fm h
      refine ⟨h, fun x => ?_⟩
      simp only [List.foldl_nil, List.map_nil, List.foldr_nil]
      rcases lt_or_ge ((fm.find x).getD 0) 0 with h | h
      · exact Or.inr h
      · left; simp [h]
    | cons U Vs ih =>
      intro fm h
      obtain ⟨f1, f2⟩ := final_fold (getKnotMultiplicityMap U) fm (map_sorted U) h
      obtain ⟨i1, i2⟩ := ih _ f1
      refine ⟨i1, fun x => ?_⟩
      rcases lt_or_ge ((fm.find x).getD 0) 0 with hneg | hge
      · exact Or.inr hneg
      left
      have hopt : (((getKnotMultiplicityMap U).foldl finalStep fm).find x).getD 0 = max ((fm.find x).getD 0) (U.count x : ℤ) := by
        rw [f2, map_find]
        cases hf : fm.find x with
        | none =>
          by_cases h0 : U.count x = 0
          · simp [h0, optMax]
          · simp [h0, optMax]
        | some c =>
          rw [hf] at hge
          simp only [Option.getD_some] at hge
          by_cases h0 : U.count x = 0
          · simp [h0, optMax, hge]
          · simp [h0, optMax]
      rcases i2 x with h3 | h3
      · rw [List.foldl_cons, h3, hopt]
        simp only [List.map_cons, List.foldr_cons]
        push_cast
        rw [max_assoc]
      · rw [hopt] at h3
        have := le_max_left ((fm.find x).getD 0) (U.count x : ℤ)
        omega
  refine ⟨by simp [getInsertedKnotElementsAll], ?_⟩
  intro i U I hi hI x
  obtain ⟨f1, f2⟩ := hfold Us [] (by simp [SortedMap])
  have hx := f2 x
  simp only [KnotMap.find, Option.getD_none, lt_self_iff_false, or_false] at hx
  unfold getInsertedKnotElementsAll at hI
  simp only [List.getElem?_map, hi, Option.map_some, Option.some.injEq] at hI
  subst hI
  have hU : U ∈ Us := List.mem_of_getElem? hi
  have hle : U.count x ≤ (Us.map (List.count x)).foldr max 0 := by
    have : ∀ l : List ℕ, ∀ a ∈ l, a ≤ l.foldr max 0 := by
      intro l
      induction l with
      | nil => intro a h; exact absurd h (by simp)
      | cons b l ih =>
        intro a h
        rcases List.mem_cons.mp h with rfl | h
        · exact le_max_left _ _
        · exact (ih a h).trans (le_max_right _ _)
    exact this _ _ (List.mem_map.mpr ⟨U, hU, rfl⟩)
  have hm : ∀ (m : KnotMap K) (l : List K), m.foldl (missingStep (getKnotMultiplicityMap U)) l =
      m.foldl (fun l e => l ++ List.replicate (match (getKnotMultiplicityMap U).find e.1 with | none => e.2.toNat | some c => (e.2 - c).toNat) e.1) l := by
    intro m
    induction m with
    | nil => intro l; rfl
    | cons e m ih =>
      intro l
      simp only [List.foldl_cons]
      rw [ih]
      unfold missingStep
      cases (getKnotMultiplicityMap U).find e.1 <;> simp
  rw [List.count_append, hm, count_foldl _ _ _ _ f1]
  simp only [map_find]
  cases hf : KnotMap.find x (Us.foldl (fun fm U => (getKnotMultiplicityMap U).foldl finalStep fm) []) with
  | none =>
    rw [hf] at hx
    simp only [Option.getD_none] at hx
    simp only [List.count_nil]
    omega
  | some c =>
    rw [hf] at hx
    simp only [Option.getD_some] at hx
    by_cases h0 : U.count x = 0
    · simp only [h0, if_true, List.count_nil]
      rw [hx, max_eq_right (by positivity)]
      simp
    · simp only [h0, if_false, List.count_nil]
      rw [hx, max_eq_right (by positivity), Int.toNat_sub]
      omega

/-- C45 on concrete data -/
example : getInsertedKnotElementsAll ([[0, 1], [0, 0, 2], [1, 1]] : List (List ℚ)) = [[0, 1, 2], [1, 1], [0, 0, 2]] := by decide +kernel

/-- C45 (violated): `GetInternalKnotMultiplicityMap` of a knot vector with one distinct knot runs into undefined
behaviour. -/
theorem C45_internal_map_ub (k : K) (n : ℕ) : getInternalKnotMultiplicityMap (List.replicate (n + 1) k) = ub := by
  have hm : ∀ j : ℕ, ∀ c : ℤ, (List.replicate j k).foldl (fun (m : KnotMap K) x => m.incr x) [(k, c)] = [(k, c + j)] := by
    intro j
    induction j with
    | zero => intro c; simp
    | succ j ih =>
      intro c
      rw [List.replicate_succ, List.foldl_cons]
      simp only [KnotMap.incr, lt_self_iff_false, if_false, if_true]
      rw [ih]
      congr 2
      push_cast; ring
  unfold getInternalKnotMultiplicityMap getKnotMultiplicityMap
  rw [List.replicate_succ, List.foldl_cons]
  simp only [KnotMap.incr]
  rw [hm]
  rfl

/-! ## C71 -/

theorem mem_map_iff (U : List K) (x : K) : x ∈ (getKnotMultiplicityMap U).map Prod.fst ↔ x ∈ U := by
  rw [← List.count_pos_iff (l := U)]
  constructor
  · intro h
    obtain ⟨e, he, rfl⟩ := List.mem_map.mp h
    have := find_of_mem (map_sorted U) he
    rw [map_find] at this
    by_contra hc
    rw [if_pos (by omega)] at this
    exact nomatch this
  · intro h
    by_contra hc
    have hnone : ∀ m : KnotMap K, x ∉ m.map Prod.fst → m.find x = none := by
      intro m
      induction m with
      | nil => intro _; rfl
      | cons e m ih =>
        intro h
        simp only [List.map_cons, List.mem_cons, not_or] at h
        simp only [KnotMap.find]
        rw [if_neg (Ne.symm h.1), ih h.2]
    have := hnone _ hc
    rw [map_find, if_neg (by omega)] at this
    exact nomatch this

theorem map_keys {U ks : List K} (hs : ks.Pairwise (· < ·)) (hmem : ∀ x, x ∈ ks ↔ x ∈ U) :
    (getKnotMultiplicityMap U).map Prod.fst = ks := by
  have h1 : ((getKnotMultiplicityMap U).map Prod.fst).Pairwise (· < ·) := map_sorted U
  refine List.Perm.eq_of_pairwise (fun a b _ _ hab hba => absurd (lt_trans hab hba) (lt_irrefl _)) h1 hs ?_
  rw [List.perm_ext_iff_of_nodup (h1.imp fun h => h.ne) (hs.imp fun h => h.ne)]
  intro x
  rw [mem_map_iff, hmem]

theorem map_counts {U ks : List K} (hs : ks.Pairwise (· < ·)) (hmem : ∀ x, x ∈ ks ↔ x ∈ U) :
    (getKnotMultiplicityMap U).map Prod.snd = ks.map fun x => (U.count x : ℤ) := by
  rw [← map_keys hs hmem, List.map_map]
  apply List.map_congr_left
  intro e he
  have := find_of_mem (map_sorted U) he
  rw [map_find] at this
  simp only [Function.comp]
  split at this
  · exact nomatch this
  · exact (Option.some.inj this).symm

/-- C71: with at least two distinct knots `ks`, `IsUniform` answers whether all gaps equal the first gap (up to the
comparison tolerance), all interior knots have the same multiplicity, and so have the two end knots. -/
theorem C71_uniform_partial {U ks : List K} (hs : ks.Pairwise (· < ·)) (hmem : ∀ x, x ∈ ks ↔ x ∈ U) (h2 : 2 ≤ ks.length) :
    ∃ b, isUniform U = ok b ∧ (b = true ↔
      (U.count (nth ks 0) = U.count (nth ks (ks.length - 1)) ∧
        (∀ j, 1 ≤ j → j + 1 < ks.length → isAlmostEqualTo (nth ks (j + 1) - nth ks j) (nth ks 1 - nth ks 0) = true) ∧
        ∀ j, 1 ≤ j → j + 2 < ks.length → U.count (nth ks j) = U.count (nth ks (j + 1)))) := by
  have hk := map_keys hs hmem
  have hc := map_counts hs hmem
  have hL : (ks.map fun x => (U.count x : ℤ)).length = ks.length := by simp
  have hn : ∀ j < ks.length, nth (ks.map fun x => (U.count x : ℤ)) j = U.count (nth ks j) := by
    intro j hj
    rw [nth_eq_getElem (by simpa using hj), nth_eq_getElem hj, List.getElem_map]
  unfold isUniform
  dsimp only
  have hne : (getKnotMultiplicityMap U).isEmpty = false := by
    cases hm : getKnotMultiplicityMap U with
    | nil => rw [hm] at hk; simp at hk; rw [hk] at h2; simp at h2
    | cons a l => rfl
  rw [hne, hk, hc]
  simp only [Bool.false_eq_true, if_false]
  rw [vget_nth (k := 0) (i := 0) rfl (by omega), ok_bind, vget_nth (k := ks.length - 1) (by rw [hL]; omega) (by omega), ok_bind,
    hn 0 (by omega), hn (ks.length - 1) (by omega)]
  by_cases h0 : U.count (nth ks 0) = U.count (nth ks (ks.length - 1))
  · rw [if_neg (by rw [h0]; simp), vget_nth (k := 1) (i := 1) rfl (by omega), ok_bind, vget_nth (k := 0) (i := 0) rfl (by omega), ok_bind]
    unfold isUniformLoop
    have hloop := Runs.forN (a := 1) (b := (ks.length : ℤ) - 1) (m := 1) (n := ks.length - 1) (s := true)
      (body := fun i st =>
        if st then do
          let current ← vget ks i
          let next ← vget ks (i + 1)
          if !isAlmostEqualTo (next - current) (nth ks 1 - nth ks 0) then ok false
          else do
            let currentCounts ← vget (ks.map fun x => (U.count x : ℤ)) i
            let nextCounts ← vget (ks.map fun x => (U.count x : ℤ)) (i + 1)
            ok (decide (currentCounts = nextCounts) || decide (i + 1 = (ks.length : ℤ) - 1))
        else ok false)
      (fun i b => b = true ↔ ∀ j, 1 ≤ j → j < i → isAlmostEqualTo (nth ks (j + 1) - nth ks j) (nth ks 1 - nth ks 0) = true ∧
        (j + 2 < ks.length → U.count (nth ks j) = U.count (nth ks (j + 1)))) rfl (by omega) (by omega) (by simp; omega) ?_
    · obtain ⟨b, e, hb⟩ := hloop
      refine ⟨b, e, hb.trans ?_⟩
      constructor
      · intro h
        exact ⟨h0, fun j h1 h3 => (h j h1 (by omega)).1, fun j h1 h3 => (h j h1 (by omega)).2 h3⟩
      · rintro ⟨-, h1, h3⟩ j h4 h5
        exact ⟨h1 j h4 (by omega), h3 j h4⟩
    · rintro i b h1 hi hb
      cases b with
      | false =>
        refine Runs.ok ?_
        constructor
        · intro h; exact nomatch h
        · intro h
          exact hb.mpr fun j h3 h4 => h j h3 (by omega)
      | true =>
        simp only [if_true]
        rw [vget_nth (k := i) rfl (by omega), ok_bind, vget_nth (k := i + 1) (by push_cast; rfl) (by omega), ok_bind]
        have hb' := hb.mp rfl
        cases ha : isAlmostEqualTo (nth ks (i + 1) - nth ks i) (nth ks 1 - nth ks 0) with
        | false =>
          simp only [Bool.not_false, if_true]
          refine Runs.ok ?_
          constructor
          · intro h; exact nomatch h
          · intro h
            have := (h i h1 (by omega)).1
            rw [ha] at this; exact this
        | true =>
          simp only [Bool.not_true, Bool.false_eq_true, if_false]
          rw [vget_nth (k := i) rfl (by omega), ok_bind, vget_nth (k := i + 1) (by push_cast; rfl) (by omega), ok_bind, hn i (by omega), hn (i + 1) (by omega)]
          refine Runs.ok ?_
          simp only [Bool.or_eq_true, decide_eq_true_eq]
          constructor
          · intro h j h3 h4
            rcases Nat.lt_succ_iff_lt_or_eq.mp h4 with h5 | rfl
            · exact hb' j h3 h5
            · exact ⟨ha, fun h6 => by rcases h with h | h <;> omega⟩
          · intro h
            by_cases h6 : i + 2 < ks.length
            · left; exact_mod_cast (h i h1 (by omega)).2 h6
            · right; omega
  · rw [if_pos (by simpa using h0)]
    refine ⟨false, rfl, ?_⟩
    constructor
    · intro h; exact nomatch h
    · intro h; exact absurd h.1 h0

/-- C71 is not vacuous, and both answers occur -/
example : isUniform ([0, 0, 1, 2, 3, 3] : List ℚ) = ok true ∧ isUniform ([0, 0, 1, 5/2, 3, 3] : List ℚ) = ok false ∧
    isUniform ([0, 0, 1, 1, 2, 3, 3] : List ℚ) = ok false := by decide +kernel

/-- C71 (violated): a knot vector whose knots are all the same makes `IsUniform` read past the end of a vector. -/
theorem C71_single_ub (k : K) (n : ℕ) : isUniform (List.replicate (n + 1) k) = ub := by
  have hk := map_keys (U := List.replicate (n + 1) k) (ks := [k]) (by simp) (by intro x; simp)
  have hc := map_counts (U := List.replicate (n + 1) k) (ks := [k]) (by simp) (by intro x; simp)
  unfold isUniform
  dsimp only
  have hne : (getKnotMultiplicityMap (List.replicate (n + 1) k)).isEmpty = false := by
    cases hm : getKnotMultiplicityMap (List.replicate (n + 1) k) with
    | nil => rw [hm] at hk; simp at hk
    | cons a l => rfl
  rw [hne, hk, hc]
  simp [vget]

/-! ## C72 -/

theorem stdUnique_sorted : ∀ {U : List K}, U.Pairwise (· ≤ ·) → (stdUnique U).Pairwise (· < ·) ∧ ∀ x, x ∈ stdUnique U ↔ x ∈ U
  | [], _ => by simp [stdUnique]
  | [a], _ => by simp [stdUnique]
  | a :: b :: l, h => by
    have hab : a ≤ b := (List.pairwise_cons.mp h).1 b (by simp)
    obtain ⟨ih1, ih2⟩ := stdUnique_sorted (List.pairwise_cons.mp h).2
    simp only [stdUnique]
    split
    · rename_i he
      subst he
      refine ⟨ih1, fun x => ?_⟩
      rw [ih2]; simp
    · rename_i he
      have hlt := lt_of_le_of_ne hab he
      refine ⟨List.pairwise_cons.mpr ⟨?_, ih1⟩, fun x => ?_⟩
      · intro x hx
        rw [ih2] at hx
        rcases List.mem_cons.mp hx with rfl | hx
        · exact hlt
        · exact lt_of_lt_of_le hlt ((List.pairwise_cons.mp (List.pairwise_cons.mp h).2).1 x hx)
      · rw [List.mem_cons, ih2, List.mem_cons (l := b :: l)]

/-- what the scan returns: either nothing was long enough, or an index with the length of its span -/
theorem longestSpan_run (l : List K) (hl : l ≠ []) : ∃ st, longestSpan l = ok st ∧
    ((st = (doubleEps, -1) ∧ ∀ j, j + 1 < l.length → isGreaterThan (nth l (j + 1) - nth l j) doubleEps = false) ∨
      ∃ i : ℕ, st.2 = i ∧ i + 1 < l.length ∧ st.1 = nth l (i + 1) - nth l i ∧ 0 < st.1 ∧
        ∀ j, j + 1 < l.length → isGreaterThan (nth l (j + 1) - nth l j) st.1 = false) := by
  have hpos : 0 < l.length := List.length_pos_iff.mpr hl
  unfold longestSpan
  have h := Runs.forN (a := 0) (b := (l.length : ℤ) - 1) (m := 0) (n := l.length - 1) (s := ((doubleEps : K), (-1 : ℤ)))
    (body := fun i st => do
      let a ← vget l (i + 1)
      let b ← vget l i
      let delta := a - b
      ok (if isGreaterThan delta st.1 then (delta, i) else st))
    (fun n st => (st = (doubleEps, -1) ∧ ∀ j, j < n → isGreaterThan (nth l (j + 1) - nth l j) doubleEps = false) ∨
      ∃ i : ℕ, st.2 = i ∧ i < n ∧ st.1 = nth l (i + 1) - nth l i ∧ 0 < st.1 ∧ ∀ j, j < n → isGreaterThan (nth l (j + 1) - nth l j) st.1 = false)
    rfl (by omega) (by omega) (Or.inl ⟨rfl, by intro j hj; omega⟩) ?_
  · obtain ⟨st, e, hst⟩ := h
    refine ⟨st, e, ?_⟩
    rcases hst with ⟨h1, h2⟩ | ⟨i, h1, h2, h3, h4, h5⟩
    · exact Or.inl ⟨h1, fun j hj => h2 j (by omega)⟩
    · exact Or.inr ⟨i, h1, by omega, h3, h4, fun j hj => h5 j (by omega)⟩
  · rintro n st - hn hst
    dsimp only
    rw [vget_nth (k := n + 1) (by push_cast; rfl) (by omega), ok_bind, vget_nth (k := n) rfl (by omega), ok_bind]
    cases hg : isGreaterThan (nth l (n + 1) - nth l n) st.1 with
    | true =>
      rw [if_pos rfl]
      refine Runs.ok (Or.inr ⟨n, rfl, by omega, rfl, ?_, ?_⟩)
      · have hs1 : 0 < st.1 := by
          rcases hst with ⟨h1, -⟩ | ⟨i, -, -, -, h4, -⟩
          · rw [h1]; exact doubleEps_pos
          · exact h4
        simp only [isGreaterThan, decide_eq_true_eq] at hg
        have := tolOf_pos (a := nth l (n + 1) - nth l n) (b := st.1) doubleEps_pos
        dsimp only
        linarith
      · intro j hj
        dsimp only
        rcases Nat.lt_succ_iff_lt_or_eq.mp hj with h | rfl
        · by_contra hc
          simp only [Bool.not_eq_false] at hc
          have hlt : st.1 ≤ nth l (n + 1) - nth l n := by
            simp only [isGreaterThan, decide_eq_true_eq] at hg
            have := tolOf_pos (a := nth l (n + 1) - nth l n) (b := st.1) doubleEps_pos
            linarith
          have hgt : isGreaterThan (nth l (j + 1) - nth l j) st.1 = true := by
            have : ∀ a b : K, isGreaterThan a b = isLessThan b a := by
              intro a b; unfold isGreaterThan isLessThan; rw [tolOf_comm]
            rw [this] at hc ⊢
            exact isLessThan_mono_left doubleEps_pos doubleEps_lt_one hc hlt
          rcases hst with ⟨h1, h2⟩ | ⟨i, -, -, -, -, h5⟩
          · rw [h1] at hgt; rw [h2 j h] at hgt; exact nomatch hgt
          · rw [h5 j h] at hgt; exact nomatch hgt
        · simp only [isGreaterThan, sub_self, decide_eq_false_iff_not, not_lt, gt_iff_lt]
          exact (tolOf_pos doubleEps_pos).le
    | false =>
      rw [if_neg (by simp)]
      refine Runs.ok ?_
      rcases hst with ⟨h1, h2⟩ | ⟨i, h1, h2, h3, h4, h5⟩
      · refine Or.inl ⟨h1, fun j hj => ?_⟩
        rcases Nat.lt_succ_iff_lt_or_eq.mp hj with h | rfl
        · exact h2 j h
        · rw [h1] at hg; exact hg
      · refine Or.inr ⟨i, h1, by omega, h3, h4, fun j hj => ?_⟩
        rcases Nat.lt_succ_iff_lt_or_eq.mp hj with h | rfl
        · exact h5 j h
        · exact hg

theorem kv_sorted_nth {l : List K} (h : l.Pairwise (· < ·)) {i j : ℕ} (hij : i < j) (hj : j < l.length) : nth l i < nth l j := by
  rw [nth_eq_getElem (by omega), nth_eq_getElem hj]
  exact List.pairwise_iff_getElem.mp h i j (by omega) hj hij

theorem nth_mem' {l : List K} {i : ℕ} (hi : i < l.length) : nth l i ∈ l := by
  rw [nth_eq_getElem hi]; exact List.getElem_mem hi

theorem telescope (l : List K) {d : K} (h : ∀ j, j + 1 < l.length → nth l (j + 1) - nth l j ≤ d) :
    ∀ n, n < l.length → nth l n - nth l 0 ≤ n * d := by
  intro n
  induction n with
  | zero => intro _; simp
  | succ n ih =>
    intro hn
    have h1 := ih (by omega)
    have h2 := h n hn
    push_cast
    linarith

/-- the state of the recursion: `uniq` is strictly sorted with `m` knots, from `a` to `b` -/
theorem insertMid_run {a b : K} (U : List K) : ∀ (rounds : ℕ) (uniq insert : List K), uniq.Pairwise (· < ·) → 2 ≤ uniq.length →
    nth uniq 0 = a → nth uniq (uniq.length - 1) = b →
    (∀ x, x ∈ uniq ↔ x ∈ U ∨ x ∈ insert) → (∀ x ∈ insert, a < x ∧ x < b ∧ x ∉ U) → insert.Nodup →
    isGreaterThan ((b - a) / ((uniq.length + rounds : ℕ) : K)) doubleEps = true →
    Runs (insertMidKnotCore rounds uniq insert) (fun r => r.length = insert.length + rounds ∧ r.Nodup ∧ ∀ x ∈ r, a < x ∧ x < b ∧ x ∉ U)
  | 0, uniq, insert, _, _, _, _, _, h1, h2, _ => Runs.ok ⟨rfl, h2, h1⟩
  | rounds + 1, uniq, insert, hs, h2, ha, hb, hmem, hin, hnd, hgt => by
    have hne : uniq ≠ [] := by rintro rfl; simp at h2
    simp only [insertMidKnotCore]
    rw [if_neg (by simpa using hne)]
    obtain ⟨st, e, hst⟩ := longestSpan_run uniq hne
    have hflip : ∀ a b : K, isGreaterThan a b = isLessThan b a := by
      intro a b; unfold isGreaterThan isLessThan; rw [tolOf_comm]
    have hab : a < b := by rw [← ha, ← hb]; exact kv_sorted_nth hs (by omega) (by omega)
    have hd0 : 0 < (b - a) / ((uniq.length + (rounds + 1) : ℕ) : K) := by
      have : (0 : K) < ((uniq.length + (rounds + 1) : ℕ) : K) := by exact_mod_cast (by omega : 0 < uniq.length + (rounds + 1))
      exact div_pos (by linarith) this
    have hlong : ∃ j, j + 1 < uniq.length ∧ (b - a) / ((uniq.length + (rounds + 1) : ℕ) : K) ≤ nth uniq (j + 1) - nth uniq j := by
      by_contra hc
      push Not at hc
      have h3 := telescope uniq (fun j hj => (hc j hj).le) (uniq.length - 1) (by omega)
      rw [ha, hb] at h3
      have hpos : (0 : K) < ((uniq.length + (rounds + 1) : ℕ) : K) := by exact_mod_cast (by omega : 0 < uniq.length + (rounds + 1))
      have h4 : ((uniq.length - 1 : ℕ) : K) * ((b - a) / ((uniq.length + (rounds + 1) : ℕ) : K)) < ((uniq.length + (rounds + 1) : ℕ) : K) * ((b - a) / ((uniq.length + (rounds + 1) : ℕ) : K)) := by
        apply mul_lt_mul_of_pos_right _ hd0
        exact_mod_cast (by omega : uniq.length - 1 < uniq.length + (rounds + 1))
      rw [mul_div_cancel₀ _ hpos.ne'] at h4
      linarith
    obtain ⟨j0, hj0, hj0'⟩ := hlong
    rcases hst with ⟨-, h3⟩ | ⟨i, h3, h4, h5, h6, -⟩
    · exfalso
      have := h3 j0 hj0
      rw [hflip] at this hgt
      rw [isLessThan_mono_right doubleEps_pos doubleEps_lt_one hgt hj0'] at this
      exact nomatch this
    · rw [e, ok_bind, h3, vget_nth (k := i) rfl (by omega), ok_bind]
      set c := nth uniq i + st.1 / 2 with hc
      have hlo : nth uniq i < c := by rw [hc]; linarith
      have hhi : c < nth uniq (i + 1) := by rw [hc, h5]; rw [h5] at h6; linarith
      have hcu : c ∉ uniq := by
        intro h
        obtain ⟨k, hk, hk'⟩ := List.getElem_of_mem h
        rw [← nth_eq_getElem hk] at hk'
        rcases lt_or_ge i k with h7 | h7
        · rcases Nat.lt_or_ge (i + 1) k with h8 | h8
          · have := kv_sorted_nth hs h8 hk; linarith [hk' ▸ this]
          · have : k = i + 1 := by omega
            rw [this] at hk'; linarith
        · rcases Nat.lt_or_ge k i with h8 | h8
          · have := kv_sorted_nth hs h8 (by omega : i < uniq.length); rw [hk'] at this; linarith
          · have : k = i := by omega
            rw [this] at hk'; linarith
      have hac : a < c := by
        rw [← ha]
        rcases Nat.eq_zero_or_pos i with h7 | h7
        · rw [← h7]; exact hlo
        · exact (kv_sorted_nth hs h7 (by omega)).trans hlo
      have hcb : c < b := by
        rw [← hb]
        rcases Nat.lt_or_ge (i + 1) (uniq.length - 1) with h7 | h7
        · exact hhi.trans (kv_sorted_nth hs h7 (by omega))
        · have : uniq.length - 1 = i + 1 := by omega
          rw [this]; exact hhi
      have hp := stdSort_perm (uniq ++ [c])
      have hsl : (stdSort (uniq ++ [c])).length = uniq.length + 1 := by rw [hp.length_eq]; simp
      have hss : (stdSort (uniq ++ [c])).Pairwise (· < ·) := by
        have hnd' : (stdSort (uniq ++ [c])).Nodup := by
          rw [hp.nodup_iff, List.nodup_append]
          refine ⟨hs.imp fun h => h.ne, by simp, ?_⟩
          intro x hx y hy
          simp only [List.mem_singleton] at hy
          subst hy
          rintro rfl
          exact hcu hx
        exact ((stdSort_sorted (uniq ++ [c])).and hnd').imp fun h => lt_of_le_of_ne h.1 h.2
      have hmm : ∀ x, x ∈ stdSort (uniq ++ [c]) ↔ x ∈ uniq ∨ x = c := by
        intro x; rw [hp.mem_iff]; simp
      have hends : ∀ x ∈ stdSort (uniq ++ [c]), a ≤ x ∧ x ≤ b := by
        intro x hx
        rcases (hmm x).mp hx with h | rfl
        · obtain ⟨k, hk, hk'⟩ := List.getElem_of_mem h
          rw [← nth_eq_getElem hk] at hk'
          constructor
          · rw [← ha, ← hk']
            rcases Nat.eq_zero_or_pos k with h7 | h7
            · rw [h7]
            · exact (kv_sorted_nth hs h7 hk).le
          · rw [← hb, ← hk']
            rcases Nat.lt_or_ge k (uniq.length - 1) with h7 | h7
            · exact (kv_sorted_nth hs h7 (by omega)).le
            · have : k = uniq.length - 1 := by omega
              rw [this]
        · exact ⟨hac.le, hcb.le⟩
      have hfirst : nth (stdSort (uniq ++ [c])) 0 = a := by
        have h1 := (hends _ (nth_mem' (by omega : 0 < (stdSort (uniq ++ [c])).length))).1
        have : a ∈ stdSort (uniq ++ [c]) := (hmm a).mpr (Or.inl (by rw [← ha]; exact nth_mem' (by omega)))
        obtain ⟨k, hk, hk'⟩ := List.getElem_of_mem this
        rw [← nth_eq_getElem hk] at hk'
        rcases Nat.eq_zero_or_pos k with h7 | h7
        · rw [← h7]; exact hk'
        · have := kv_sorted_nth hss h7 hk; rw [hk'] at this; linarith
      have hlast : nth (stdSort (uniq ++ [c])) ((stdSort (uniq ++ [c])).length - 1) = b := by
        have h1 := (hends _ (nth_mem' (by omega : (stdSort (uniq ++ [c])).length - 1 < (stdSort (uniq ++ [c])).length))).2
        have : b ∈ stdSort (uniq ++ [c]) := (hmm b).mpr (Or.inl (by rw [← hb]; exact nth_mem' (by omega)))
        obtain ⟨k, hk, hk'⟩ := List.getElem_of_mem this
        rw [← nth_eq_getElem hk] at hk'
        rcases Nat.lt_or_ge k ((stdSort (uniq ++ [c])).length - 1) with h7 | h7
        · have := kv_sorted_nth hss h7 (by omega); rw [hk'] at this; linarith
        · have h8 : k = (stdSort (uniq ++ [c])).length - 1 := by omega
          rw [← h8]; exact hk'
      have hcU : c ∉ U := fun h => hcu ((hmem c).mpr (Or.inl h))
      have hci : c ∉ insert := fun h => hcu ((hmem c).mpr (Or.inr h))
      refine (insertMid_run U rounds (stdSort (uniq ++ [c])) (insert ++ [c]) hss (by omega) hfirst hlast ?_ ?_ ?_ ?_).mono ?_
      · intro x
        rw [hmm, hmem, List.mem_append, List.mem_singleton, or_assoc]
      · intro x hx
        rcases List.mem_append.mp hx with hx | hx
        · exact hin x hx
        · rw [List.mem_singleton] at hx; subst hx; exact ⟨hac, hcb, hcU⟩
      · rw [List.nodup_append]
        refine ⟨hnd, by simp, ?_⟩
        intro x hx y hy
        simp only [List.mem_singleton] at hy
        subst hy
        rintro rfl
        exact hci hx
      · rw [hsl]
        have : uniq.length + 1 + rounds = uniq.length + (rounds + 1) := by omega
        rw [this]; exact hgt
      · rintro r ⟨r1, r2, r3⟩
        refine ⟨?_, r2, r3⟩
        rw [r1, List.length_append, List.length_singleton]
        omega

/-- C72: `GetInsertedKnotElements(n, U)` of a sorted knot vector with at least two distinct knots returns `n` different
new knots in ascending order, all strictly inside the knot range and none of them a knot of `U`, provided that the
range divided by the final number of knots exceeds the comparison tolerance. -/
theorem C72_insert_mid_partial {U ks : List K} {n : ℕ} (hU : U.Pairwise (· ≤ ·)) (hs : ks.Pairwise (· < ·)) (hmem : ∀ x, x ∈ ks ↔ x ∈ U)
    (h2 : 2 ≤ ks.length)
    (hgt : isGreaterThan ((nth ks (ks.length - 1) - nth ks 0) / ((ks.length + n : ℕ) : K)) doubleEps = true) :
    ∃ r, getInsertedKnotElementsMid n U = ok r ∧ r.length = n ∧ r.Pairwise (· < ·) ∧
      ∀ x ∈ r, nth ks 0 < x ∧ x < nth ks (ks.length - 1) ∧ x ∉ U := by
  obtain ⟨u1, u2⟩ := stdUnique_sorted hU
  have huk : stdUnique U = ks := by
    refine List.Perm.eq_of_pairwise (fun a b _ _ hab hba => absurd (lt_trans hab hba) (lt_irrefl _)) u1 hs ?_
    rw [List.perm_ext_iff_of_nodup (u1.imp fun h => h.ne) (hs.imp fun h => h.ne)]
    intro x
    rw [u2, hmem]
  obtain ⟨r, e, h3, h4, h5⟩ := insertMid_run U n ks [] hs h2 rfl rfl (by intro x; rw [hmem]; simp) (by simp) (by simp) hgt
  unfold getInsertedKnotElementsMid
  rw [if_neg (by omega), Int.toNat_natCast, huk, e, ok_bind]
  refine ⟨_, rfl, ?_, ?_, ?_⟩
  · rw [(stdSort_perm r).length_eq, h3]; simp
  · have hnd : (stdSort r).Nodup := (stdSort_perm r).nodup_iff.mpr h4
    exact ((stdSort_sorted r).and hnd).imp fun h => lt_of_le_of_ne h.1 h.2
  · intro x hx
    exact h5 x ((stdSort_perm r).mem_iff.mp hx)

/-- C72 is not vacuous -/
example : getInsertedKnotElementsMid 3 ([0, 0, 1, 3, 3] : List ℚ) = ok [1/2, 3/2, 2] := by decide +kernel

example : ∃ r, getInsertedKnotElementsMid ((3 : ℕ) : ℤ) ([0, 0, 1, 3, 3] : List ℚ) = ok r ∧ r.length = 3 ∧ r.Pairwise (· < ·) ∧
    ∀ x ∈ r, 0 < x ∧ x < 3 ∧ x ∉ ([0, 0, 1, 3, 3] : List ℚ) :=
  C72_insert_mid_partial (ks := [0, 1, 3]) (by decide +kernel) (by decide +kernel) (by intro x; simp) (by decide) (by decide +kernel)

/-- C72 (violated): when no span is longer than the tolerance (for instance a knot vector with one distinct knot), asking
for a knot reads the element with index -1. -/
theorem C72_no_span_ub {U : List K} {n : ℕ} (hn : 0 < n)
    (h : ∀ j, j + 1 < (stdUnique U).length → isGreaterThan (nth (stdUnique U) (j + 1) - nth (stdUnique U) j) doubleEps = false) :
    getInsertedKnotElementsMid n U = ub := by
  unfold getInsertedKnotElementsMid
  obtain ⟨m, rfl⟩ : ∃ m, n = m + 1 := ⟨n - 1, by omega⟩
  rw [if_neg (by omega), Int.toNat_natCast]
  simp only [insertMidKnotCore]
  by_cases he : stdUnique U = []
  · rw [he]; rfl
  · rw [if_neg (by simpa using he)]
    obtain ⟨st, e, hst⟩ := longestSpan_run _ he
    rcases hst with ⟨h1, -⟩ | ⟨i, h3, h4, h5, h6, h7⟩
    · rw [e, h1, ok_bind]
      dsimp only
      rw [vget_neg (by omega)]
      rfl
    · exfalso
      unfold longestSpan at e
      have hloop := Runs.forN (a := 0) (b := ((stdUnique U).length : ℤ) - 1) (m := 0) (n := (stdUnique U).length - 1) (s := ((doubleEps : K), (-1 : ℤ)))
        (body := fun i st => do
          let a ← vget (stdUnique U) (i + 1)
          let b ← vget (stdUnique U) i
          let delta := a - b
          ok (if isGreaterThan delta st.1 then (delta, i) else st))
        (fun n st => st = (doubleEps, -1)) rfl (by omega) (by omega) rfl ?_
      · obtain ⟨st', e', rfl⟩ := hloop
        rw [e] at e'
        have := Res.ok.inj e'
        rw [this] at h3
        simp at h3
      · rintro n st - hn rfl
        dsimp only
        rw [vget_nth (k := n + 1) (by push_cast; rfl) (by omega), ok_bind, vget_nth (k := n) rfl (by omega), ok_bind, h n (by omega), if_neg (by simp)]
        exact Runs.ok rfl

example : getInsertedKnotElementsMid 1 ([1, 1, 1] : List ℚ) = ub := by decide +kernel

end LNLib.Props
