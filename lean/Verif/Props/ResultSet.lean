import Verif.Model.Octree
import Verif.Lemmas.Tolerance
import Verif.Core.Hoare
import Verif.Core.Lawful
import Mathlib.Data.List.Sort
import Mathlib.Data.List.Perm.Basic

/-!
# C47: the result sets of the nearest neighbour searches
-/

namespace LNLib.Props
open LNLib Res
set_option linter.unusedSectionVars false
variable {K : Type} [Field K] [LinearOrder K] [IsStrictOrderedRing K]

/-! ## Specification -/

/-- any two distances are equal or differ by more than the tolerance of the library's comparisons -/
def EqOrApart (l : List K) : Prop := ∀ x ∈ l, ∀ y ∈ l, x = y ∨ 1 / 1000000 * (1 + max |x| |y|) < |x - y|

/-- `kept` holds `min k n` of the `n` entries of `hist`, in ascending order of distance, and no other entry is closer than a kept one -/
def IsKNearest (k : ℕ) (hist kept : List (DistIndex K)) : Prop :=
  kept.length = min k hist.length ∧ kept.Pairwise (fun x y => x.distance ≤ y.distance) ∧
    ∃ rest, hist.Perm (kept ++ rest) ∧ ∀ x ∈ kept, ∀ y ∈ rest, x.distance ≤ y.distance

/-- feed a history of calls of `AddPoint` to a result set -/
def _root_.LNLib.KnnResultSet.feed (s : KnnResultSet K) (hist : List (DistIndex K)) : Res (KnnResultSet K) :=
  hist.foldlM (fun s x => s.addPoint x.distance x.index) s

/-- feed a history of calls of `AddPoint` to a radius result set -/
def _root_.LNLib.RadiusNnResultSet.feed (s : RadiusNnResultSet K) (hist : List (DistIndex K)) : Res (RadiusNnResultSet K) :=
  hist.foldlM (fun s x => s.addPoint x.distance x.index) s

/-! ## Comparisons -/

theorem greater_iff {x y : K} (h : x = y ∨ 1 / 1000000 * (1 + max |x| |y|) < |x - y|) : isGreaterThan x y = true ↔ y < x := by
  have e : (doubleEps : K) = 1 / 1000000 := rfl
  have h0 : (0 : K) < 1 / 1000000 * (1 + max |x| |y|) := by
    have := abs_nonneg x
    have := le_max_left |x| |y|
    have : (0 : K) < 1 + max |x| |y| := by linarith
    positivity
  unfold isGreaterThan tolOf
  rw [decide_eq_true_eq, e]
  constructor
  · intro g; linarith
  · intro g
    rcases h with rfl | h
    · exact absurd g (lt_irrefl _)
    · rwa [abs_of_pos (show 0 < x - y by linarith)] at h

theorem greater_le {x y : K} (h : x ≤ y) : isGreaterThan x y = false := by
  have e : (doubleEps : K) = 1 / 1000000 := rfl
  have h0 : (0 : K) < 1 / 1000000 * (1 + max |x| |y|) := by
    have := abs_nonneg x
    have := le_max_left |x| |y|
    have : (0 : K) < 1 + max |x| |y| := by linarith
    positivity
  unfold isGreaterThan tolOf
  rw [decide_eq_false_iff_not, e]
  intro g; linarith

/-! ## One insertion -/

/-- insertion from the end of a list given in reverse -/
def rins (x : DistIndex K) : List (DistIndex K) → List (DistIndex K)
  | [] => [x]
  | y :: ys => if isGreaterThan y.distance x.distance then y :: rins x ys else x :: y :: ys

theorem rins_perm (x : DistIndex K) (l : List (DistIndex K)) : (rins x l).Perm (x :: l) := by
  induction l with
  | nil => exact List.Perm.refl _
  | cons y ys ih =>
    unfold rins
    split
    · exact (ih.cons y).trans (List.Perm.swap x y ys)
    · exact List.Perm.refl _

theorem rins_length (x : DistIndex K) (l : List (DistIndex K)) : (rins x l).length = l.length + 1 := by
  rw [(rins_perm x l).length_eq]; rfl

/-- the loop of `AddPoint` followed by the write -/
theorem shift_run (x : DistIndex K) : ∀ (A : List (DistIndex K)) (j : DistIndex K) (B : List (DistIndex K)) (n : ℕ), A.length ≤ n →
    ∃ l i, whileF (KnnResultSet.shiftCond x.distance) KnnResultSet.shiftBody n (A.reverse ++ j :: B, (A.length : ℤ)) = ok (l, i) ∧
      vset l i x = ok ((rins x A).reverse ++ B) := by
  intro A
  induction A with
  | nil =>
    intro j B n _
    refine ⟨j :: B, 0, ?_, ?_⟩
    · cases n <;> simp [whileF, KnnResultSet.shiftCond]
    · simp [vset, rins]
  | cons y ys ih =>
    intro j B n hn
    obtain ⟨n, rfl⟩ : ∃ k, n = k + 1 := ⟨n - 1, by simp at hn; omega⟩
    have hget : vget ((y :: ys).reverse ++ j :: B) (((y :: ys).length : ℤ) - 1) = ok y := by
      have : ((y :: ys).reverse ++ j :: B)[ys.length]? = some y := by simp
      rw [vget, if_pos (by simp), show (((y :: ys).length : ℤ) - 1).toNat = ys.length by simp, this]
    have hc : KnnResultSet.shiftCond x.distance ((y :: ys).reverse ++ j :: B, ((y :: ys).length : ℤ)) = ok (isGreaterThan y.distance x.distance) := by
      unfold KnnResultSet.shiftCond
      rw [if_pos (by simp)]
      dsimp only
      rw [hget, ok_bind]
    by_cases h : isGreaterThan y.distance x.distance = true
    · obtain ⟨l, i, e, g⟩ := ih y (y :: B) n (by simp at hn; omega)
      refine ⟨l, i, ?_, ?_⟩
      · rw [whileF, hc, ok_bind, if_pos h]
        unfold KnnResultSet.shiftBody
        dsimp only
        rw [hget, ok_bind, vset_of (k := ys.length + 1) (by simp) (by simp), ok_bind, ok_bind]
        have e1 : ((y :: ys).reverse ++ j :: B).set (ys.length + 1) y = ys.reverse ++ y :: y :: B := by
          simp
        have e2 : ((y :: ys).length : ℤ) - 1 = ys.length := by simp
        rw [e1, e2]
        exact e
      · rw [g, rins, if_pos h]; simp
    · refine ⟨(y :: ys).reverse ++ j :: B, ((y :: ys).length : ℤ), ?_, ?_⟩
      · rw [whileF, hc, ok_bind, if_neg h]
      · rw [vset_of (k := ys.length + 1) (by simp) (by simp), rins, if_neg h]
        simp

/-- the sentinel entries of a fresh result set -/
def pad : DistIndex K := ⟨10 ^ 10, 0⟩

theorem rins_sorted (x : DistIndex K) (l : List (DistIndex K)) (hs : ∀ y ∈ l, y.distance = x.distance ∨ 1 / 1000000 * (1 + max |y.distance| |x.distance|) < |y.distance - x.distance|)
    (h : l.Pairwise (fun a b => b.distance ≤ a.distance)) : (rins x l).Pairwise (fun a b => b.distance ≤ a.distance) := by
  induction l with
  | nil => simp [rins]
  | cons y ys ih =>
    have hy := greater_iff (hs y (by simp))
    rw [List.pairwise_cons] at h
    unfold rins
    split
    · next g =>
      rw [hy] at g
      rw [List.pairwise_cons]
      refine ⟨fun a ha => ?_, ih (fun y hy => hs y (by simp [hy])) h.2⟩
      rcases List.mem_cons.mp ((rins_perm x ys).subset ha) with rfl | ha
      · exact g.le
      · exact h.1 a ha
    · next g =>
      rw [hy, not_lt] at g
      rw [List.pairwise_cons, List.pairwise_cons]
      refine ⟨fun a ha => ?_, h⟩
      rcases List.mem_cons.mp ha with rfl | ha
      · exact g
      · exact (h.1 a ha).trans g

/-- the state of a result set of capacity `k` after the history `hist` -/
structure KnnInv (k : ℕ) (hist : List (DistIndex K)) (s : KnnResultSet K) (kept : List (DistIndex K)) : Prop where
  near : IsKNearest k hist kept
  cap : s.capacity = k
  cnt : s.count = kept.length
  lst : s.list = kept ++ List.replicate (k - kept.length) pad
  part : kept.length < k → s.worst = 10 ^ 10
  full : ∀ A y, kept = A ++ [y] → kept.length = k → s.worst = y.distance

theorem knn_step {k : ℕ} (hk : 0 < k) {hist kept : List (DistIndex K)} {s : KnnResultSet K} (inv : KnnInv k hist s kept) {x : DistIndex K} (hb : ∀ y ∈ hist, y.distance ≤ 10 ^ 10) (hx : x.distance ≤ 10 ^ 10)
    (hs : ∀ y ∈ hist, y.distance = x.distance ∨ 1 / 1000000 * (1 + max |y.distance| |x.distance|) < |y.distance - x.distance|) :
    ∃ s' kept', s.addPoint x.distance x.index = ok s' ∧ KnnInv k (hist ++ [x]) s' kept' ∧ s'.worst ≤ s.worst := by
  obtain ⟨⟨hlen, hsort, rest, hperm, hrest⟩, hcap, hcnt, hlst, hpart, hfull⟩ := inv
  have hkeptsub : ∀ y ∈ kept, y ∈ hist := fun y hy => hperm.symm.subset (by simp [hy])
  have hrestsub : ∀ y ∈ rest, y ∈ hist := fun y hy => hperm.symm.subset (by simp [hy])
  have hplen := hperm.length_eq
  rw [List.length_append] at hplen
  rcases Nat.lt_or_ge kept.length k with hlt | hge
  · -- not full
    have hrest0 : rest = [] := by
      have : rest.length = 0 := by omega
      exact List.length_eq_zero_iff.mp this
    subst hrest0
    rw [List.append_nil] at hperm
    obtain ⟨m, hm⟩ : ∃ m, k - kept.length = m + 1 := ⟨k - kept.length - 1, by omega⟩
    obtain ⟨l, i, e, g⟩ := shift_run x kept.reverse pad (List.replicate m pad) (kept.length) (by simp)
    rw [List.reverse_reverse, List.length_reverse] at e
    set kept' := (rins x kept.reverse).reverse with hk'
    have hp' : kept'.Perm (kept ++ [x]) := by
      refine (List.reverse_perm _).trans ((rins_perm x _).trans ?_)
      refine ((List.reverse_perm kept).cons x).trans ?_
      exact (List.perm_append_singleton x kept).symm
    have hl' : kept'.length = kept.length + 1 := by rw [hp'.length_eq]; simp
    have hsort' : kept'.Pairwise (fun x y => x.distance ≤ y.distance) := by
      rw [hk', List.pairwise_reverse]
      refine rins_sorted x _ (fun y hy => hs y (hkeptsub y (by simpa using hy))) ?_
      rw [List.pairwise_reverse]
      exact hsort
    obtain ⟨last, hlast, hl1, hl2⟩ : ∃ last, vget (kept' ++ List.replicate m pad) ((k : ℤ) - 1) = ok last ∧ (kept'.length < k → last.distance = 10 ^ 10) ∧
        (∀ A y, kept' = A ++ [y] → kept'.length = k → last.distance = y.distance) := by
      rcases Nat.lt_or_ge kept'.length k with h | h
      · refine ⟨pad, ?_, fun _ => rfl, fun _ _ _ h2 => by omega⟩
        rw [vget, if_pos (by omega), show ((k : ℤ) - 1).toNat = k - 1 by omega, List.getElem?_append_right (by omega), List.getElem?_replicate_of_lt (by omega)]
      · obtain ⟨A, y, hA⟩ : ∃ A y, kept' = A ++ [y] := by
          have hne : kept' ≠ [] := by intro h0; rw [h0] at hl'; simp at hl'
          exact ⟨kept'.dropLast, kept'.getLast hne, (List.dropLast_append_getLast hne).symm⟩
        refine ⟨y, ?_, fun _ => by omega, ?_⟩
        · have : A.length = k - 1 := by have := congrArg List.length hA; simp at this; omega
          rw [vget, if_pos (by omega), show ((k : ℤ) - 1).toNat = k - 1 by omega, List.getElem?_append_left (by omega), hA, List.getElem?_append_right (by omega), this]
          simp
        · intro A' y' h1 _
          rw [hA] at h1
          have := (List.append_inj' h1 rfl).2
          simp at this
          rw [this]
    refine ⟨⟨k, kept.length + 1, last.distance, kept' ++ List.replicate m pad, s.comparisons + 1⟩, kept', ?_, ⟨⟨?_, hsort', [], ?_, by simp⟩, rfl, by push_cast [hl']; rfl, ?_, hl1, hl2⟩, ?_⟩
    · unfold KnnResultSet.addPoint
      rw [hpart hlt, if_neg (by rw [greater_le hx]; simp)]
      dsimp only
      rw [hcap, hcnt, if_pos (by omega), if_pos (by omega), hlst, hm, List.replicate_succ, show ((kept.length : ℤ) + 1 - 1) = kept.length by ring, Int.toNat_natCast, e, ok_bind]
      dsimp only
      rw [g, ok_bind, hlast, ok_bind]
    · rw [hl', List.length_append]; simp only [List.length_singleton]; omega
    · rw [List.append_nil]
      exact (hperm.append_right [x]).trans hp'.symm
    · dsimp only
      rw [show k - kept'.length = m by omega]
    · dsimp only
      rw [hpart hlt]
      rcases Nat.lt_or_ge kept'.length k with h | h
      · exact (hl1 h).le
      · obtain ⟨A, y, hA⟩ : ∃ A y, kept' = A ++ [y] := by
          have hne : kept' ≠ [] := by intro h0; rw [h0] at hl'; simp at hl'
          exact ⟨kept'.dropLast, kept'.getLast hne, (List.dropLast_append_getLast hne).symm⟩
        rw [hl2 A y hA (by omega)]
        rcases List.mem_append.mp (hp'.subset (show y ∈ kept' by rw [hA]; simp)) with h | h
        · exact hb y (hkeptsub y h)
        · rw [List.mem_singleton] at h; rw [h]; exact hx
  · -- full
    have hkl : kept.length = k := by omega
    obtain ⟨A, y, hA⟩ : ∃ A y, kept = A ++ [y] := by
      have hne : kept ≠ [] := by intro h0; rw [h0] at hkl; simp at hkl; omega
      exact ⟨kept.dropLast, kept.getLast hne, (List.dropLast_append_getLast hne).symm⟩
    have hw := hfull A y hA hkl
    have hAl : A.length + 1 = k := by rw [← hkl, hA]; simp
    have hyk : y ∈ kept := by rw [hA]; simp
    have hAy : ∀ a ∈ A, a.distance ≤ y.distance := by
      intro a ha
      rw [hA, List.pairwise_append] at hsort
      exact hsort.2.2 a ha y (by simp)
    have hxy := hs y (hkeptsub y hyk)
    have hgt : isGreaterThan x.distance y.distance = true ↔ y.distance < x.distance := greater_iff (by
      rcases hxy with h | h
      · exact Or.inl h.symm
      · right; rwa [max_comm, abs_sub_comm])
    rcases lt_or_ge y.distance x.distance with hc | hc
    · refine ⟨{ s with comparisons := s.comparisons + 1 }, kept, ?_, ⟨⟨?_, hsort, rest ++ [x], ?_, ?_⟩, hcap, hcnt, hlst, hpart, hfull⟩, le_refl _⟩
      · unfold KnnResultSet.addPoint
        rw [hw, if_pos (hgt.mpr hc)]
      · rw [List.length_append]; simp only [List.length_singleton]; omega
      · rw [← List.append_assoc]
        exact hperm.append_right [x]
      · intro a ha b hb
        rcases List.mem_append.mp hb with hb | hb
        · exact hrest a ha b hb
        · rw [List.mem_singleton] at hb
          subst hb
          rw [hA] at ha
          rcases List.mem_append.mp ha with ha | ha
          · exact (hAy a ha).trans hc.le
          · rw [List.mem_singleton] at ha; rw [ha]; exact hc.le
    · obtain ⟨l, i, e, g⟩ := shift_run x A.reverse y [] (k - 1) (by simp; omega)
      rw [List.reverse_reverse, List.length_reverse] at e
      set kept' := (rins x A.reverse).reverse with hk'
      have hp' : kept'.Perm (A ++ [x]) := by
        refine (List.reverse_perm _).trans ((rins_perm x _).trans ?_)
        refine ((List.reverse_perm A).cons x).trans ?_
        exact (List.perm_append_singleton x A).symm
      have hl' : kept'.length = k := by rw [hp'.length_eq]; simp; omega
      have hsort' : kept'.Pairwise (fun x y => x.distance ≤ y.distance) := by
        rw [hk', List.pairwise_reverse]
        refine rins_sorted x _ (fun z hz => hs z (hkeptsub z (by rw [hA]; simp at hz; simp [hz]))) ?_
        rw [List.pairwise_reverse]
        rw [hA, List.pairwise_append] at hsort
        exact hsort.1
      obtain ⟨A', y', hA'⟩ : ∃ A y, kept' = A ++ [y] := by
        have hne : kept' ≠ [] := by intro h0; rw [h0] at hl'; simp at hl'; omega
        exact ⟨kept'.dropLast, kept'.getLast hne, (List.dropLast_append_getLast hne).symm⟩
      have hlast : vget kept' ((k : ℤ) - 1) = ok y' := by
        have : A'.length = k - 1 := by have := congrArg List.length hA'; simp at this; omega
        rw [vget, if_pos (by omega), show ((k : ℤ) - 1).toNat = k - 1 by omega, hA', List.getElem?_append_right (by omega), this]
        simp
      rw [List.append_nil] at g
      refine ⟨⟨k, k, y'.distance, kept', s.comparisons + 1⟩, kept', ?_, ⟨⟨?_, hsort', y :: rest, ?_, ?_⟩, rfl, by rw [hl'], ?_, fun h => by omega, ?_⟩, ?_⟩
      · unfold KnnResultSet.addPoint
        rw [hw, if_neg (by rw [hgt]; exact not_lt.mpr hc)]
        dsimp only
        rw [hcap, hcnt, if_neg (by omega), if_neg (by omega), hlst, hkl, Nat.sub_self, List.replicate_zero, List.append_nil, hA,
          show ((k : ℤ) - 1) = A.length by omega, show ((A.length : ℤ)).toNat = k - 1 by omega]
        rw [show A ++ [y] = A ++ y :: [] from rfl, e, ok_bind]
        dsimp only
        rw [g, ok_bind, show (A.length : ℤ) = k - 1 by omega, hlast, ok_bind]
      · rw [hl', List.length_append]; simp only [List.length_singleton]; omega
      · -- permutation
        refine (hperm.append_right [x]).trans ?_
        rw [hA]
        refine List.Perm.trans ?_ (hp'.symm.append_right (y :: rest))
        rw [List.append_assoc, List.append_assoc, List.append_assoc]
        refine List.Perm.append_left A ?_
        simp only [List.singleton_append]
        exact List.perm_append_singleton x (y :: rest)
      · intro a ha b hb
        have ha' := hp'.subset ha
        have h1 : a.distance ≤ y.distance := by
          rcases List.mem_append.mp ha' with h | h
          · exact hAy a h
          · rw [List.mem_singleton] at h; rw [h]; exact hc
        rcases List.mem_cons.mp hb with rfl | hb
        · exact h1
        · exact h1.trans (hrest y hyk b hb)
      · dsimp only
        rw [hl', Nat.sub_self]; simp
      · intro A2 y2 h1 _
        rw [hA'] at h1
        have := (List.append_inj' h1 rfl).2
        simp at this
        rw [this]
      · dsimp only
        rw [hw]
        rcases List.mem_append.mp (hp'.subset (show y' ∈ kept' by rw [hA']; simp)) with h | h
        · exact hAy _ h
        · rw [List.mem_singleton] at h; rw [h]; exact hc

theorem knn_init {k : ℕ} : ∃ s, (KnnResultSet.new (k : ℤ) : Res (KnnResultSet K)) = ok s ∧ KnnInv k [] s [] := by
  refine ⟨_, by unfold KnnResultSet.new; rw [if_neg (by omega)], ⟨⟨by simp, by simp, [], by simp, by simp⟩, rfl, rfl, by simp [pad], fun _ => rfl, by simp⟩⟩

/-- every history leads to a state with the invariant -/
theorem knn_feed {k : ℕ} (hk : 0 < k) (h2 : List (DistIndex K)) : ∀ {hist kept : List (DistIndex K)} {s : KnnResultSet K}, KnnInv k hist s kept → (∀ x ∈ hist, x.distance ≤ 10 ^ 10) →
    (∀ x ∈ h2, x.distance ≤ 10 ^ 10) → EqOrApart ((hist ++ h2).map DistIndex.distance) → ∃ s' kept', s.feed h2 = ok s' ∧ KnnInv k (hist ++ h2) s' kept' ∧ s'.worst ≤ s.worst := by
  induction h2 with
  | nil => intro hist kept s inv _ _ _; exact ⟨s, kept, rfl, by simpa using inv, le_refl _⟩
  | cons x t ih =>
    intro hist kept s inv h1 hb hs
    obtain ⟨s1, k1, e1, i1, w1⟩ := knn_step hk inv h1 (hb x (by simp)) (fun y hy => hs _ (List.mem_map_of_mem (by simp [hy])) _ (List.mem_map_of_mem (by simp)))
    obtain ⟨s2, k2, e2, i2, w2⟩ := ih i1 (fun y hy => by
      rcases List.mem_append.mp hy with hy | hy
      · exact h1 y hy
      · rw [List.mem_singleton] at hy; rw [hy]; exact hb x (by simp)) (fun y hy => hb y (by simp [hy])) (by simpa using hs)
    refine ⟨s2, k2, ?_, by simpa using i2, w2.trans w1⟩
    unfold KnnResultSet.feed
    rw [List.foldlM_cons, e1, ok_bind]
    exact e2

/-- C47, k nearest: after any history of additions (distances at most 1e10, any two equal or apart by more than the comparison tolerance) the result set
holds the `min k n` smallest distances in ascending order; `Size` is their number, `Full` says whether there are `k`, and `WorstDist` is the largest kept
distance once the set is full (1e10 before). -/
theorem C47_knn_partial {k : ℕ} (hk : 0 < k) (hist : List (DistIndex K)) (hb : ∀ x ∈ hist, x.distance ≤ 10 ^ 10) (hs : EqOrApart (hist.map DistIndex.distance)) :
    ∃ s0 s kept, KnnResultSet.new k = ok s0 ∧ s0.feed hist = ok s ∧ IsKNearest k hist kept ∧ s.list.take kept.length = kept ∧ s.count = kept.length ∧
      (s.full = true ↔ k ≤ hist.length) ∧ (hist.length < k → s.worst = 10 ^ 10) ∧ (k ≤ hist.length → kept.getLast?.map DistIndex.distance = some s.worst) := by
  obtain ⟨s0, e0, i0⟩ := knn_init (K := K) (k := k)
  obtain ⟨s, kept, e, i, -⟩ := knn_feed hk hist i0 (by simp) hb (by simpa using hs)
  rw [List.nil_append] at i
  have hl := i.near.1
  refine ⟨s0, s, kept, e0, e, i.near, by rw [i.lst]; simp, i.cnt, ?_, fun h => i.part (by omega), fun h => ?_⟩
  · unfold KnnResultSet.full
    rw [i.cap, i.cnt, beq_iff_eq]; omega
  · have hne : kept ≠ [] := by intro h0; rw [h0] at hl; simp at hl; omega
    rw [i.full _ _ (List.dropLast_append_getLast hne).symm (by omega), List.getLast?_eq_some_getLast hne]
    rfl

/-- C47_knn_partial is not vacuous -/
example : ∃ s0 s : KnnResultSet ℚ, KnnResultSet.new 2 = ok s0 ∧ s0.feed [⟨5, 0⟩, ⟨3, 1⟩, ⟨4, 2⟩, ⟨3, 3⟩] = ok s ∧ s.list = [⟨3, 1⟩, ⟨3, 3⟩] ∧ s.worst = 3 := by
  refine ⟨⟨2, 0, 10 ^ 10, [⟨10 ^ 10, 0⟩, ⟨10 ^ 10, 0⟩], 0⟩, ⟨2, 2, 3, [⟨3, 1⟩, ⟨3, 3⟩], 4⟩, ?_, ?_, rfl, rfl⟩ <;> decide +kernel
example : EqOrApart ([5, 3, 4, 3] : List ℚ) := by unfold EqOrApart; decide +kernel

/-- C47, radius: after any history the radius result set holds exactly the entries that are not greater than the radius (with the library's tolerance), in
the order they came, and `Size` is their number. -/
theorem C47_radius (r : K) (hist : List (DistIndex K)) : ∃ s, (RadiusNnResultSet.new r).feed hist = ok s ∧ s.radius = r ∧
    s.list = hist.filter (fun x => decide (x.distance - r ≤ 1 / 1000000 * (1 + max |x.distance| |r|))) ∧ s.count = s.list.length := by
  have key : ∀ (h2 : List (DistIndex K)) (s : RadiusNnResultSet K), s.radius = r → s.count = s.list.length → ∃ s', s.feed h2 = ok s' ∧ s'.radius = r ∧
      s'.list = s.list ++ h2.filter (fun x => decide (x.distance - r ≤ 1 / 1000000 * (1 + max |x.distance| |r|))) ∧ s'.count = s'.list.length := by
    intro h2
    induction h2 with
    | nil => intro s hr hc; exact ⟨s, rfl, hr, by simp, hc⟩
    | cons x t ih =>
      intro s hr hc
      have e : isGreaterThan x.distance r = !decide (x.distance - r ≤ 1 / 1000000 * (1 + max |x.distance| |r|)) := by
        unfold isGreaterThan
        rw [← decide_not]
        congr 1
        rw [gt_iff_lt, not_le]; rfl
      unfold RadiusNnResultSet.feed
      rw [List.foldlM_cons]
      unfold RadiusNnResultSet.addPoint
      rw [hr, e]
      by_cases h : x.distance - r ≤ 1 / 1000000 * (1 + max |x.distance| |r|)
      · rw [decide_eq_true h, if_neg (by simp), ok_bind]
        obtain ⟨s', a, b, c, d⟩ := ih ⟨r, s.count + 1, s.list ++ [⟨x.distance, x.index⟩], s.comparisons + 1⟩ rfl (by simp [hc])
        refine ⟨s', a, b, ?_, d⟩
        rw [c, List.filter_cons_of_pos (by simpa using h)]
        simp
      · rw [decide_eq_false h, if_pos (by simp), ok_bind]
        obtain ⟨s', a, b, c, d⟩ := ih ⟨r, s.count, s.list, s.comparisons + 1⟩ rfl hc
        refine ⟨s', a, b, ?_, d⟩
        rw [c, List.filter_cons_of_neg (by simpa using h)]
  obtain ⟨s, a, b, c, d⟩ := key hist (RadiusNnResultSet.new r) rfl rfl
  exact ⟨s, a, b, by rw [c]; rfl, d⟩

/-- C47_radius on a concrete history -/
example : ∃ s : RadiusNnResultSet ℚ, (RadiusNnResultSet.new 4).feed [⟨5, 0⟩, ⟨3, 1⟩, ⟨4, 2⟩] = ok s ∧ s.list = [⟨3, 1⟩, ⟨4, 2⟩] := by
  refine ⟨⟨4, 2, [⟨3, 1⟩, ⟨4, 2⟩], 3⟩, ?_, rfl⟩; decide +kernel

/-! ## Where the code departs from the property -/

/-- C47 disagreement: distances closer than the tolerance are not sorted. -/
theorem C47_order_violated : ∃ s0 s : KnnResultSet ℚ, KnnResultSet.new 2 = ok s0 ∧ s0.feed [⟨1, 0⟩, ⟨1 - 1 / 10000000, 1⟩] = ok s ∧
    s.list = [⟨1, 0⟩, ⟨1 - 1 / 10000000, 1⟩] :=
  ⟨⟨2, 0, 10 ^ 10, [⟨10 ^ 10, 0⟩, ⟨10 ^ 10, 0⟩], 0⟩, ⟨2, 2, 1 - 1 / 10000000, [⟨1, 0⟩, ⟨1 - 1 / 10000000, 1⟩], 2⟩, by decide +kernel, by decide +kernel, rfl⟩

/-- C47 disagreement: a distance slightly above the worst one replaces it, so a slowly growing sequence pushes the kept distance away from the minimum
without limit: after `n + 1` additions of `1, 1 + 1e-6, 1 + 2e-6, …` to a set of capacity one the kept distance is the largest of all. -/
theorem C47_drift_violated (n : ℕ) : ∃ s0 s : KnnResultSet ℚ, KnnResultSet.new 1 = ok s0 ∧
    s0.feed ((List.range (n + 1)).map fun i : ℕ => ⟨1 + (i : ℚ) / 1000000, (i : ℤ)⟩) = ok s ∧ s.list = [⟨1 + n / 1000000, n⟩] := by
  refine ⟨⟨1, 0, 10 ^ 10, [⟨10 ^ 10, 0⟩], 0⟩, ⟨1, 1, 1 + n / 1000000, [⟨1 + n / 1000000, n⟩], n + 1⟩, by decide +kernel, ?_, rfl⟩
  induction n with
  | zero => decide +kernel
  | succ n ih =>
    have hg : isGreaterThan (1 + (n + 1 : ℕ) / 1000000 : ℚ) (1 + n / 1000000) = false := by
      have e : (doubleEps : ℚ) = 1 / 1000000 := rfl
      unfold isGreaterThan tolOf
      rw [decide_eq_false_iff_not, e, not_lt]
      have h1 := abs_nonneg (1 + (n + 1 : ℕ) / 1000000 : ℚ)
      have h2 := le_max_left |(1 + (n + 1 : ℕ) / 1000000 : ℚ)| |(1 + n / 1000000 : ℚ)|
      push_cast at *
      linarith
    rw [List.range_succ, List.map_append, KnnResultSet.feed, List.foldlM_append]
    rw [KnnResultSet.feed] at ih
    rw [ih, ok_bind]
    simp only [List.map_cons, List.map_nil, List.foldlM_cons, List.foldlM_nil]
    unfold KnnResultSet.addPoint
    dsimp only
    rw [hg]
    simp [whileF, KnnResultSet.shiftCond, vset, vget]

/-- C47 disagreement: entries farther than 1e10 are dropped although the set is empty. -/
theorem C47_far_violated : ∃ s0 s : KnnResultSet ℚ, KnnResultSet.new 1 = ok s0 ∧ s0.feed [⟨2 * 10 ^ 10, 7⟩] = ok s ∧ s.count = 0 :=
  ⟨⟨1, 0, 10 ^ 10, [⟨10 ^ 10, 0⟩], 0⟩, ⟨1, 0, 10 ^ 10, [⟨10 ^ 10, 0⟩], 1⟩, by decide +kernel, by decide +kernel, rfl⟩

/-- C47 disagreement: with capacity zero the first addition writes outside the list. -/
theorem C47_capacity_zero_violated {d : K} (hd : d ≤ 10 ^ 10) (i : ℤ) : ∃ s0 : KnnResultSet K, KnnResultSet.new 0 = ok s0 ∧ s0.addPoint d i = ub := by
  refine ⟨⟨0, 0, 10 ^ 10, [], 0⟩, rfl, ?_⟩
  unfold KnnResultSet.addPoint
  rw [if_neg (by rw [greater_le hd]; simp)]
  simp [whileF, KnnResultSet.shiftCond, vset]

end LNLib.Props
