import Verif.Lemmas.Octree
import Mathlib.Data.List.Nodup

/-!
# C80-C82: octree construction, radius search, nearest neighbour search
-/

namespace LNLib.Props
open LNLib Res
set_option linter.unusedSectionVars false

/-! ## Specification -/

/-- the indices stored in the leaves, from left to right -/
def leafIndices : Octant → List ℤ
  | .null => []
  | .node _ _ idx leaf ch => if leaf then idx else (List.finRange 8).flatMap fun k => leafIndices (ch k)

/-- a node is split exactly when it has more than `leafSize` points and is larger than `minExtent`; children have half the extent -/
def Sized (leafSize : ℤ) (minExtent : ℝ) : Octant → Prop
  | .null => True
  | .node _ e idx leaf ch => (leaf = true ↔ (idx.length : ℤ) ≤ leafSize ∨ e ≤ minExtent) ∧
      (leaf = false → ∀ k, Sized leafSize minExtent (ch k) ∧ ∀ c' e' i' l' ch', ch k = .node c' e' i' l' ch' → e' = 1 / 2 * e)

/-- every point of a leaf lies in the cube of the leaf, enlarged by `δ` -/
def LeavesHold (db : List (XYZ ℝ)) (δ : ℝ) : Octant → Prop
  | .null => True
  | .node c e idx leaf ch => if leaf then ∀ i ∈ idx, InCube (nth db i.toNat) c (e + δ) else ∀ k, LeavesHold db δ (ch k)

/-! ## C80 -/

theorem leafIndices_ok {db : List (XYZ ℝ)} {τ : ℝ} : ∀ t : Octant, TreeOK db τ t → (leafIndices t).Nodup ∧ ∀ i, i ∈ leafIndices t ↔ i ∈ t.indices := by
  intro t
  induction t with
  | null => intro _; simp [leafIndices, Octant.indices]
  | node c e idx leaf ch ih =>
    intro h
    obtain ⟨hne, hnd, hbox, hreg, hin⟩ := h
    cases leaf with
    | true => simp [leafIndices, Octant.indices, hnd]
    | false =>
      obtain ⟨hcov, hsub, hdj, hch⟩ := hin rfl
      simp only [leafIndices, Octant.indices, Bool.false_eq_true, if_false]
      refine ⟨?_, fun i => ?_⟩
      · rw [List.nodup_flatMap]
        refine ⟨fun k _ => (ih k (hch k)).1, ?_⟩
        refine (List.nodup_finRange 8).imp_of_mem ?_
        intro a b _ _ hab i ha hb
        exact hab (hdj a b i (((ih a (hch a)).2 i).mp ha) (((ih b (hch b)).2 i).mp hb))
      · rw [List.mem_flatMap]
        constructor
        · rintro ⟨k, _, hk⟩
          exact hsub k i (((ih k (hch k)).2 i).mp hk)
        · intro hi
          obtain ⟨k, hk⟩ := hcov i hi
          exact ⟨k, by simp, ((ih k (hch k)).2 i).mpr hk⟩

theorem leavesHold_ok {db : List (XYZ ℝ)} {τ : ℝ} : ∀ t : Octant, TreeOK db τ t → LeavesHold db τ t := by
  intro t
  induction t with
  | null => intro _; trivial
  | node c e idx leaf ch ih =>
    intro h
    obtain ⟨hne, hnd, hbox, hreg, hin⟩ := h
    cases leaf with
    | true =>
      simp only [LeavesHold, if_true]
      intro i hi
      obtain ⟨p, hp, hc⟩ := hbox i hi
      rw [vget_nth' hp]
      exact hc
    | false =>
      simp only [LeavesHold, Bool.false_eq_true, if_false]
      exact fun k => ih k ((hin rfl).2.2.2 k)

theorem build_sized {db : List (XYZ ℝ)} {minExtent : ℝ} {leafSize : ℤ} : ∀ (fuel : ℕ) (c : XYZ ℝ) (e : ℝ) (idx : List ℤ) (t : Octant),
    octreeBuild db leafSize minExtent fuel c e idx = ok t → Sized leafSize minExtent t ∧ ∀ c' e' i' l' ch', t = .node c' e' i' l' ch' → e' = e := by
  intro fuel
  induction fuel with
  | zero =>
    intro c e idx t h
    rw [octreeBuild] at h
    split at h
    · cases h; exact ⟨trivial, by simp⟩
    · split at h
      · next h1 => cases h; exact ⟨⟨by simpa using h1, by simp⟩, by rintro _ _ _ _ _ ⟨⟩; rfl⟩
      · cases h
  | succ fuel ih =>
    intro c e idx t h
    rw [octreeBuild] at h
    split at h
    · cases h; exact ⟨trivial, by simp⟩
    · split at h
      · next h1 => cases h; exact ⟨⟨by simpa using h1, by simp⟩, by rintro _ _ _ _ _ ⟨⟩; rfl⟩
      · next h1 =>
        rw [bind_eq_ok] at h
        obtain ⟨b, -, h⟩ := h
        rw [bind_eq_ok] at h
        obtain ⟨ch, h2, h3⟩ := h
        cases h3
        obtain ⟨hch, -⟩ := children_ok _ _ _ (List.nodup_finRange 8) h2
        exact ⟨⟨by simpa using h1, fun _ k => ih _ _ _ _ (hch k (by simp))⟩, by rintro _ _ _ _ _ ⟨⟩; rfl⟩

theorem build_mono {db : List (XYZ ℝ)} {minExtent : ℝ} {leafSize : ℤ} : ∀ (fuel : ℕ) (c : XYZ ℝ) (e : ℝ) (idx : List ℤ) (t : Octant),
    octreeBuild db leafSize minExtent fuel c e idx = ok t → octreeBuild db leafSize minExtent (fuel + 1) c e idx = ok t := by
  have fold_eq : ∀ (f g : Fin 8 → Res Octant) (l : List (Fin 8)) (ch0 ch : Fin 8 → Octant), (∀ i t, f i = ok t → g i = ok t) → l.foldlM (fun ch i => do
      let c ← f i
      ok (Function.update ch i c)) ch0 = ok ch → l.foldlM (fun ch i => do
      let c ← g i
      ok (Function.update ch i c)) ch0 = ok ch := by
    intro f g l
    induction l with
    | nil => intro ch0 ch _ h; exact h
    | cons k l ih =>
      intro ch0 ch hfg h
      rw [List.foldlM_cons, bind_eq_ok] at h
      obtain ⟨ch1, h1, h2⟩ := h
      rw [bind_eq_ok] at h1
      obtain ⟨c, h3, h4⟩ := h1
      cases h4
      rw [List.foldlM_cons, hfg k c h3, ok_bind, ok_bind]
      exact ih _ _ hfg h2
  intro fuel
  induction fuel with
  | zero =>
    intro c e idx t h
    rw [octreeBuild] at h
    unfold octreeBuild
    split at h
    · next h0 => rw [if_pos h0]; exact h
    · next h0 =>
      rw [if_neg h0]
      split at h
      · next h1 => rw [if_pos h1]; exact h
      · cases h
  | succ fuel ih =>
    intro c e idx t h
    rw [octreeBuild] at h ⊢
    split at h
    · next h0 => rw [if_pos h0]; exact h
    · next h0 =>
      rw [if_neg h0]
      split at h
      · next h1 => rw [if_pos h1]; exact h
      · next h1 =>
        rw [if_neg h1]
        rw [bind_eq_ok] at h
        obtain ⟨b, hb, h⟩ := h
        rw [bind_eq_ok] at h
        obtain ⟨ch, h2, h3⟩ := h
        rw [hb, ok_bind, fold_eq _ _ _ _ _ (fun i t => ih _ _ _ t) h2, ok_bind]
        exact h3

/-- C80: with a positive minimal extent the construction terminates on every list of points (coordinates at most `R ≤ 1e300`).  The leaves hold every
index exactly once; a node is split exactly when it has more than `leafSize` points and its extent exceeds `minExtent`; and every point lies in the
cube of its leaf up to the comparison tolerance. -/
theorem C80_construction {R : ℝ} (hR : R ≤ 10 ^ 300) {db : List (XYZ ℝ)} (hdb : ∀ p ∈ db, CoordLe R p) (leafSize : ℤ) {minExtent : ℝ} (hm : 0 < minExtent) :
    ∃ t N, (∀ fuel ≥ N, octreeConstruction fuel db leafSize minExtent = ok t) ∧ (leafIndices t).Perm ((List.range db.length).map Int.ofNat) ∧
      Sized leafSize minExtent t ∧ LeavesHold db (1 / 1000000 * (2 + 3 * R)) t := by
  by_cases hne : db = []
  · subst hne
    exact ⟨.null, 0, fun fuel _ => by unfold octreeConstruction; rw [if_pos rfl], by simp [leafIndices], trivial, trivial⟩
  · obtain ⟨c, e, e0, e1, hc, -, -⟩ := root_facts hR hne hdb
    obtain ⟨N, hN⟩ := pow_unbounded_of_one_lt (e / minExtent) (one_lt_two : (1 : ℝ) < 2)
    have hN' : e ≤ minExtent * 2 ^ N := by
      rw [div_lt_iff₀ hm] at hN; linarith
    obtain ⟨t, ht⟩ := build_terminates (leafSize := leafSize) N c e ((List.range db.length).map Int.ofNat) (fun i hi => vget_valid.mpr hi) hN'
    have hall : ∀ fuel ≥ N, octreeBuild db leafSize minExtent fuel c e ((List.range db.length).map Int.ofNat) = ok t := by
      intro fuel hf
      induction fuel, hf using Nat.le_induction with
      | base => exact ht
      | succ k _ ih => exact build_mono _ _ _ _ _ ih
    have hcon : octreeConstruction N db leafSize minExtent = ok t := by rw [hc]; exact ht
    obtain ⟨hT, hidx⟩ := construction_tree hR hdb hcon
    obtain ⟨nd, hmem⟩ := leafIndices_ok t hT
    refine ⟨t, N, fun fuel hf => by rw [hc]; exact hall fuel hf, ?_, (build_sized _ _ _ _ _ ht).1, leavesHold_ok t hT⟩
    rw [List.perm_ext_iff_of_nodup nd (List.Nodup.map Int.ofNat_injective List.nodup_range)]
    intro i
    rw [hmem i, hidx]

/-- C80 is not vacuous: three points -/
example : ∃ t N, (∀ fuel ≥ N, octreeConstruction fuel [⟨0, 0, 0⟩, ⟨1, 0, 0⟩, ⟨1, 2, 0⟩] 1 (1 / 10) = ok t) ∧ (leafIndices t).Perm [0, 1, 2] := by
  obtain ⟨t, N, h1, h2, -⟩ := C80_construction (R := 2) (hR := by
      have : (1 : ℝ) ≤ 10 ^ 299 := one_le_pow₀ (by norm_num)
      rw [pow_succ]; generalize (10 : ℝ) ^ 299 = B at *; linarith) (db := [⟨0, 0, 0⟩, ⟨1, 0, 0⟩, ⟨1, 2, 0⟩]) (by
      intro p hp
      simp only [List.mem_cons, List.not_mem_nil, or_false] at hp
      rcases hp with rfl | rfl | rfl <;> norm_num [CoordLe]) 1 (minExtent := 1 / 10) (by norm_num)
  exact ⟨t, N, h1, h2⟩

theorem children_diverge {f : Fin 8 → Res Octant} : ∀ (l : List (Fin 8)) (ch0 : Fin 8 → Octant), (∀ i, f i = diverge ∨ ∃ c, f i = ok c) → (∃ i ∈ l, f i = diverge) →
    l.foldlM (fun ch i => do
      let c ← f i
      ok (Function.update ch i c)) ch0 = diverge := by
  intro l
  induction l with
  | nil => rintro ch0 _ ⟨i, hi, _⟩; simp at hi
  | cons k l ih =>
    rintro ch0 h ⟨i, hi, hd⟩
    rw [List.foldlM_cons]
    rcases h k with hk | ⟨c, hk⟩
    · rw [hk]; rfl
    · rw [hk, ok_bind, ok_bind]
      refine ih _ h ⟨i, ?_, hd⟩
      rcases List.mem_cons.mp hi with rfl | hi
      · rw [hd] at hk; cases hk
      · exact hi

/-- C80 disagreement: with a negative minimal extent the construction does not terminate when more than `leafSize` points coincide. -/
theorem C80_negative_extent_diverges {p : XYZ ℝ} (hp : CoordLe (10 ^ 300) p) {n : ℕ} {leafSize : ℤ} (hn : leafSize < n) (h0 : 0 < n) {minExtent : ℝ} (hm : minExtent < 0) (fuel : ℕ) :
    octreeConstruction fuel (List.replicate n p) leafSize minExtent = diverge := by
  have hne : List.replicate n p ≠ [] := by
    intro h
    have := congrArg List.length h
    simp at this; omega
  obtain ⟨c, e, e0, -, hc, -, -⟩ := root_facts (le_refl _) hne (fun x hx => by rw [List.eq_of_mem_replicate hx]; exact hp)
  rw [hc]
  clear hc
  set idx := (List.range (List.replicate n p).length).map Int.ofNat with hidx
  have hlen : idx.length = n := by simp [hidx]
  have hval : ∀ i ∈ idx, ∃ p', vget (List.replicate n p) i = ok p' := fun i hi => vget_valid.mpr hi
  induction fuel generalizing c e with
  | zero =>
    rw [octreeBuild, if_neg (by intro h; rw [h] at hlen; simp at hlen; omega), if_neg (by rw [hlen, not_or]; exact ⟨by omega, by linarith⟩)]
  | succ fuel ih =>
    rw [octreeBuild, if_neg (by intro h; rw [h] at hlen; simp at hlen; omega), if_neg (by rw [hlen, not_or]; exact ⟨by omega, by linarith⟩)]
    rw [distribute_run hval, ok_bind]
    have hcode : ∀ i ∈ idx, codeOf (List.replicate n p) c i = mortonCode p c := by
      intro i hi
      obtain ⟨p', hp'⟩ := hval i hi
      unfold codeOf
      rw [vget_nth' hp']
      have : p' ∈ List.replicate n p := by
        unfold vget at hp'
        split at hp'
        · split at hp'
          · next e => cases hp'; exact List.mem_of_getElem? e
          · cases hp'
        · cases hp'
      rw [List.eq_of_mem_replicate this]
    have hfil : ∀ k, idx.filter (fun i => decide (codeOf (List.replicate n p) c i = k)) = if mortonCode p c = k then idx else [] := by
      intro k
      by_cases hk : mortonCode p c = k
      · rw [if_pos hk, List.filter_eq_self]
        intro i hi
        simp [hcode i hi, hk]
      · rw [if_neg hk, List.filter_eq_nil_iff]
        intro i hi
        simp [hcode i hi, hk]
    rw [children_diverge]
    · rfl
    · intro k
      dsimp only
      rw [hfil k]
      by_cases hk : mortonCode p c = k
      · rw [if_pos hk]; exact Or.inl (ih _ _ (by linarith))
      · rw [if_neg hk]
        exact Or.inr ⟨.null, by rw [octreeBuild.eq_def]; simp⟩
    · refine ⟨mortonCode p c, by simp, ?_⟩
      dsimp only
      rw [hfil, if_pos rfl]
      exact ih _ _ (by linarith)

/-! ## C81: radius search -/

/-- the entry reported for index `i` -/
noncomputable def entry (db : List (XYZ ℝ)) (q : XYZ ℝ) (i : ℤ) : DistIndex ℝ := ⟨q.distance (nth db i.toNat), i⟩

theorem addAll_entries {S : Type} {add : S → ℝ → ℤ → Res S} {db : List (XYZ ℝ)} {q : XYZ ℝ} : ∀ (V : List ℤ) (s : S), (∀ i ∈ V, ∃ p, vget db i = ok p) →
    addAll add db q s V = (V.map (entry db q)).foldlM (fun s x => add s x.distance x.index) s := by
  intro V
  unfold addAll
  induction V with
  | nil => intro s _; rfl
  | cons i V ih =>
    intro s h
    obtain ⟨p, hp⟩ := h i (by simp)
    rw [List.foldlM_cons, List.map_cons, List.foldlM_cons, hp, ok_bind, entry, vget_nth' hp]
    dsimp only
    cases add s (q.distance p) i with
    | ok s' => rw [ok_bind, ok_bind]; exact ih s' (fun j hj => h j (by simp [hj]))
    | _ => rfl

/-- a correct answer to a radius query, for points with coordinates at most `R`: every reported entry carries the true distance of a point of the list,
which is at most the radius up to the comparison tolerance; no point is reported twice; every point whose distance is less than the radius by a
margin is reported.  The margin is `2e-6 (2 + 3 R) + μ` with any `μ` such that `1e-6 (1 + r²) < μ r`. -/
def RadiusAnswer (db : List (XYZ ℝ)) (R : ℝ) (q : XYZ ℝ) (r : ℝ) (s : RadiusNnResultSet ℝ) : Prop :=
  s.count = s.list.length ∧ (s.list.map DistIndex.index).Nodup ∧
  (∀ x ∈ s.list, ∃ j < db.length, x.index = (j : ℤ) ∧ x.distance = q.distance (nth db j) ∧ x.distance - r ≤ 1 / 1000000 * (1 + max |x.distance| |r|)) ∧
  ∀ j < db.length, ∀ μ, 0 < μ → μ ≤ r → 1 / 1000000 * (1 + r * r) < μ * r → q.distance (nth db j) + 2 * (1 / 1000000 * (2 + 3 * R)) + μ ≤ r →
    ∃ x ∈ s.list, x.index = (j : ℤ)

theorem radius_post {db : List (XYZ ℝ)} {R : ℝ} (hdb : ∀ p ∈ db, CoordLe R p) {q : XYZ ℝ} {r : ℝ} {t : Octant} (hidx : t.indices = (List.range db.length).map Int.ofNat) {b : Bool} {s : RadiusNnResultSet ℝ}
    (h : SearchPost RadiusNnResultSet.addPoint RadiusNnResultSet.radius db q (1 / 1000000 * (2 + 3 * R)) (RadiusNnResultSet.new r) t [] (b, s)) : RadiusAnswer db R q r s := by
  obtain ⟨V, e, nd, hV, hset, -⟩ := h
  dsimp only at e
  rw [List.nil_append] at e nd hset
  have hval : ∀ i ∈ V, ∃ p, vget db i = ok p := fun i hi => vget_valid.mpr (hidx ▸ hV i hi)
  rw [addAll_entries V _ hval] at e
  obtain ⟨s', a1, a2, a3, a4⟩ := C47_radius r (V.map (entry db q))
  unfold RadiusNnResultSet.feed at a1
  rw [a1] at e
  cases e
  refine ⟨a4, ?_, ?_, ?_⟩
  · rw [a3]
    have h1 : ((V.map (entry db q)).filter (fun x => decide (x.distance - r ≤ 1 / 1000000 * (1 + max |x.distance| |r|)))).Sublist (V.map (entry db q)) := List.filter_sublist
    refine (h1.map DistIndex.index).nodup ?_
    rw [List.map_map]
    have : DistIndex.index ∘ entry db q = id := rfl
    rw [this, List.map_id]
    exact nd
  · intro x hx
    rw [a3, List.mem_filter, decide_eq_true_eq, List.mem_map] at hx
    obtain ⟨⟨i, hi, rfl⟩, hd⟩ := hx
    have := hidx ▸ hV i hi
    rw [List.mem_map] at this
    obtain ⟨j, hj, rfl⟩ := this
    exact ⟨j, List.mem_range.mp hj, rfl, rfl, hd⟩
  · intro j hj μ h0 h1 h2 h3
    have hmem : (j : ℤ) ∈ t.indices := by rw [hidx, List.mem_map]; exact ⟨j, List.mem_range.mpr hj, rfl⟩
    have hp : vget db (j : ℤ) = ok (nth db j) := vget_nth rfl hj
    have hnear : Near (1 / 1000000 * (2 + 3 * R)) (q.distance (nth db j)) r := ⟨μ, h0, h1, h2, h3⟩
    have hin : (j : ℤ) ∈ V := by
      rcases hset (j : ℤ) hmem with h | ⟨p, W, s1, g1, g2, g3, g4⟩
      · exact h
      · rw [hp] at g1
        cases g1
        have hW : ∀ i ∈ W, ∃ p, vget db i = ok p := fun i hi => hval i (g2.subset hi)
        rw [addAll_entries W _ hW] at g3
        obtain ⟨s2, b1, b2, -⟩ := C47_radius r (W.map (entry db q))
        unfold RadiusNnResultSet.feed at b1
        rw [b1] at g3
        cases g3
        rw [b2] at g4
        exact absurd hnear g4
    refine ⟨entry db q j, ?_, rfl⟩
    rw [a3, List.mem_filter, decide_eq_true_eq]
    refine ⟨List.mem_map_of_mem hin, ?_⟩
    have hd := distance_nonneg' q (nth db j)
    have : (0 : ℝ) ≤ 1 / 1000000 * (1 + max |(entry db q j).distance| |r|) := by
      have := (abs_nonneg r).trans (le_max_right |(entry db q j).distance| |r|)
      linarith
    have e1 : (entry db q j).distance = q.distance (nth db j) := rfl
    have hR0 : 0 ≤ R := (abs_nonneg _).trans (hdb (nth db j) (by rw [nth_eq_getElem hj]; exact List.getElem_mem hj)).1
    rw [e1] at this ⊢
    linarith

theorem radius_adds (db : List (XYZ ℝ)) (q : XYZ ℝ) (r : ℝ) : AddsOK RadiusNnResultSet.addPoint db q (RadiusNnResultSet.new r) := by
  intro V _ hV
  obtain ⟨s, a, -⟩ := C47_radius r (V.map (entry db q))
  exact ⟨s, by rw [addAll_entries V _ hV]; exact a⟩

theorem slack_nonneg {db : List (XYZ ℝ)} {R : ℝ} (hdb : ∀ p ∈ db, CoordLe R p) : db = [] ∨ 0 ≤ 1 / 1000000 * (2 + 3 * R) := by
  cases db with
  | nil => exact Or.inl rfl
  | cons p l =>
    right
    have := (abs_nonneg _).trans (hdb p (by simp)).1
    linarith

/-- C81: `OctreeRadiusSearch` on the tree built from the points answers every radius query correctly. -/
theorem C81_radius_search_partial {R : ℝ} (hR : R ≤ 10 ^ 300) {db : List (XYZ ℝ)} (hdb : ∀ p ∈ db, CoordLe R p) {fuel : ℕ} {leafSize : ℤ} {minExtent : ℝ} {t : Octant}
    (h : octreeConstruction fuel db leafSize minExtent = ok t) (q : XYZ ℝ) (r : ℝ) : ∃ b s, octreeRadiusSearch t db r q = ok (b, s) ∧ RadiusAnswer db R q r s := by
  obtain ⟨hT, hidx⟩ := construction_tree hR hdb h
  rcases slack_nonneg hdb with rfl | h0
  · unfold octreeConstruction at h
    rw [if_pos rfl] at h
    cases h
    exact ⟨false, _, rfl, by simp [RadiusAnswer, RadiusNnResultSet.new]⟩
  · obtain ⟨⟨b, s⟩, e, hp⟩ := search_run (worst := RadiusNnResultSet.radius) h0 (radius_adds db q r) t hT [] _ rfl List.nodup_nil (by simp) (by simp)
    exact ⟨b, s, e, radius_post hdb hidx hp⟩

/-- C81 for `OctreeRadiusSearchFast` -/
theorem C81_radius_search_fast_partial {R : ℝ} (hR : R ≤ 10 ^ 300) {db : List (XYZ ℝ)} (hdb : ∀ p ∈ db, CoordLe R p) {fuel : ℕ} {leafSize : ℤ} {minExtent : ℝ} {t : Octant}
    (h : octreeConstruction fuel db leafSize minExtent = ok t) (q : XYZ ℝ) (r : ℝ) : ∃ b s, octreeRadiusSearchFast t db r q = ok (b, s) ∧ RadiusAnswer db R q r s := by
  obtain ⟨hT, hidx⟩ := construction_tree hR hdb h
  rcases slack_nonneg hdb with rfl | h0
  · unfold octreeConstruction at h
    rw [if_pos rfl] at h
    cases h
    exact ⟨false, _, rfl, by simp [RadiusAnswer, RadiusNnResultSet.new]⟩
  · obtain ⟨⟨b, s⟩, e, hp⟩ := searchFast_run (worst := RadiusNnResultSet.radius) h0 (radius_adds db q r) t hT [] _ rfl List.nodup_nil (by simp) (by simp)
    exact ⟨b, s, e, radius_post hdb hidx hp⟩

/-- three points used in examples -/
noncomputable def exCloud : List (XYZ ℝ) := [⟨0, 0, 0⟩, ⟨1, 0, 0⟩, ⟨1, 2, 0⟩]

theorem exCloud_coord : ∀ p ∈ exCloud, CoordLe 2 p := by
  intro p hp
  simp only [exCloud, List.mem_cons, List.not_mem_nil, or_false] at hp
  rcases hp with rfl | rfl | rfl <;> norm_num [CoordLe]

theorem two_le_big : (2 : ℝ) ≤ 10 ^ 300 := by
  have : (1 : ℝ) ≤ 10 ^ 299 := one_le_pow₀ (by norm_num)
  rw [pow_succ]; generalize (10 : ℝ) ^ 299 = B at *; linarith

/-- C81 is not vacuous: the tree exists and a query with radius 3/2 round the origin reports the points 0 and 1 -/
example : ∃ fuel t, octreeConstruction fuel exCloud 1 (1 / 10) = ok t ∧ ∃ b s, octreeRadiusSearch t exCloud (3 / 2) ⟨0, 0, 0⟩ = ok (b, s) ∧
    (∃ x ∈ s.list, x.index = 0) ∧ (∃ x ∈ s.list, x.index = 1) := by
  obtain ⟨t, N, h1, -⟩ := C80_construction two_le_big exCloud_coord 1 (minExtent := 1 / 10) (by norm_num)
  obtain ⟨b, s, e, -, -, -, hc⟩ := C81_radius_search_partial two_le_big exCloud_coord (h1 N (le_refl _)) ⟨0, 0, 0⟩ (3 / 2)
  refine ⟨N, t, h1 N (le_refl _), b, s, e, hc 0 (by simp [exCloud]) (1 / 10) (by norm_num) (by norm_num) (by norm_num) ?_, hc 1 (by simp [exCloud]) (1 / 10) (by norm_num) (by norm_num) (by norm_num) ?_⟩
  · have : XYZ.distance ⟨0, 0, 0⟩ (nth exCloud 0) = 0 := by simp [exCloud, nth, XYZ.distance]
    rw [this]; norm_num
  · have : XYZ.distance ⟨0, 0, 0⟩ (nth exCloud 1) = 1 := by simp [exCloud, nth, XYZ.distance]
    rw [this]; norm_num

theorem dbl_cmp {p : ℝ} (hp : |p| ≤ 1) : isLessThan p dblMax = true ∧ isGreaterThan p (-dblMax) = true := by
  have h := axis_first (R := 1) (p := p) (by exact one_le_pow₀ (by norm_num)) hp
  have hD : (1 : ℝ) < dblMax := by
    unfold dblMax
    have : (1 : ℝ) ≤ 2 ^ 971 := one_le_pow₀ (by norm_num)
    generalize (2 : ℝ) ^ 971 = B at *
    norm_num
    linarith
  refine ⟨?_, ?_⟩
  · by_contra hc
    have := h.1
    rw [if_neg hc, abs_of_pos (by linarith)] at this
    linarith
  · by_contra hc
    have := h.2.1
    rw [if_neg hc, abs_neg, abs_of_pos (by linarith)] at this
    linarith

/-- three points on a line -/
noncomputable def smallCloud : List (XYZ ℝ) := [⟨0, 0, 0⟩, ⟨1, 0, 0⟩, ⟨50001 / 100000, 0, 0⟩]

theorem smallCloud_bounds : octreeBounds smallCloud = (⟨0, 0, 0⟩, ⟨1, 0, 0⟩) := by
  obtain ⟨a, b⟩ := dbl_cmp (p := 0) (by norm_num)
  unfold octreeBounds smallCloud
  simp only [List.foldl_cons, List.foldl_nil, a, b, if_true]
  norm_num [isLessThan, isGreaterThan, tolOf, doubleEps]

/-- C81 disagreement: for small radii the pruning test compares squared lengths with an absolute tolerance of 1e-6, so a point five times closer than the
radius is missed: the query `(0.49999, 0, 0)` with radius 1e-4 reports nothing although the point `(0.50001, 0, 0)` is at distance 2e-5. -/
theorem C81_small_radius_violated : ∃ t, octreeConstruction 1 smallCloud 2 (1 / 10) = ok t ∧
    octreeRadiusSearch t smallCloud (1 / 10000) ⟨49999 / 100000, 0, 0⟩ = ok (false, ⟨1 / 10000, 0, [], 1⟩) ∧
    XYZ.distance ⟨49999 / 100000, 0, 0⟩ (nth smallCloud 2) = 2 / 100000 := by
  have c0 : codeOf smallCloud ⟨1/2, 1/2, 1/2⟩ 0 = 0 := by
    norm_num [codeOf, mortonCode, smallCloud, nth, isGreaterThan, tolOf, doubleEps]
  have c1 : codeOf smallCloud ⟨1/2, 1/2, 1/2⟩ 1 = 1 := by
    norm_num [codeOf, mortonCode, smallCloud, nth, isGreaterThan, tolOf, doubleEps]
  have c2 : codeOf smallCloud ⟨1/2, 1/2, 1/2⟩ 2 = 1 := by
    have e : nth smallCloud (Int.toNat 2) = ⟨50001 / 100000, 0, 0⟩ := by rw [show Int.toNat 2 = 2 from rfl]; simp [smallCloud, nth]
    rw [codeOf, e]
    norm_num [mortonCode, isGreaterThan, tolOf, doubleEps]
  have hq : mortonCode ⟨49999 / 100000, 0, 0⟩ ⟨1/2, 1/2, 1/2⟩ = 0 := by
    norm_num [mortonCode, isGreaterThan, tolOf, doubleEps]
  have fr : List.finRange 8 = [0, 1, 2, 3, 4, 5, 6, 7] := by decide
  refine ⟨.node ⟨1/2, 1/2, 1/2⟩ (1/2) [0, 1, 2] false (fun k => if k = 0 then .node ⟨1/4, 1/4, 1/4⟩ (1/4) [0] true (fun _ => .null)
    else if k = 1 then .node ⟨3/4, 1/4, 1/4⟩ (1/4) [1, 2] true (fun _ => .null) else .null), ?_, ?_, ?_⟩
  · unfold octreeConstruction
    rw [if_neg (by simp [smallCloud])]
    dsimp only
    rw [smallCloud_bounds]
    norm_num
    have hl : List.map Int.ofNat (List.range smallCloud.length) = [0, 1, 2] := by simp [smallCloud]; rfl
    rw [hl, octreeBuild, if_neg (by simp), if_neg (by norm_num), distribute_run (fun i hi => vget_valid.mpr (by rw [hl]; exact hi)), ok_bind]
    have f0 : ([0, 1, 2] : List ℤ).filter (fun i => decide (codeOf smallCloud ⟨1/2, 1/2, 1/2⟩ i = 0)) = [0] := by
      simp only [List.filter_cons, List.filter_nil, c0, c1, c2]; decide
    have f1 : ([0, 1, 2] : List ℤ).filter (fun i => decide (codeOf smallCloud ⟨1/2, 1/2, 1/2⟩ i = 1)) = [1, 2] := by
      simp only [List.filter_cons, List.filter_nil, c0, c1, c2]; decide
    have fn : ∀ k : Fin 8, k ≠ 0 → k ≠ 1 → ([0, 1, 2] : List ℤ).filter (fun i => decide (codeOf smallCloud ⟨1/2, 1/2, 1/2⟩ i = k)) = [] := by
      intro k h0 h1
      simp only [List.filter_cons, List.filter_nil, c0, c1, c2, h0.symm, h1.symm]; simp
    rw [fr]
    simp only [List.foldlM_cons, List.foldlM_nil]
    rw [f0, f1, fn 2 (by decide) (by decide), fn 3 (by decide) (by decide), fn 4 (by decide) (by decide), fn 5 (by decide) (by decide), fn 6 (by decide) (by decide), fn 7 (by decide) (by decide)]
    simp [octreeBuild]
    funext k
    have t1 : Nat.testBit 1 1 = false := by decide
    have t2 : Nat.testBit 1 2 = false := by decide
    fin_cases k <;> simp [Function.update, childCenter] <;> norm_num [t1, t2]
  · unfold octreeRadiusSearch
    rw [octreeSearch, if_neg (by simp)]
    dsimp only
    rw [hq]
    simp [octreeSearch, fr, addAll, smallCloud, vget]
    have hd : XYZ.distance ⟨49999 / 100000, 0, 0⟩ ⟨0, 0, 0⟩ = 49999 / 100000 := by
      unfold XYZ.distance
      rw [show ((0 : ℝ) - 49999 / 100000) ^ 2 + (0 - 0) ^ 2 + (0 - 0) ^ 2 = (49999 / 100000) ^ 2 by norm_num]
      exact Real.sqrt_sq (by norm_num)
    have ha : (RadiusNnResultSet.new (10000⁻¹ : ℝ)).addPoint (XYZ.distance ⟨49999 / 100000, 0, 0⟩ ⟨0, 0, 0⟩) 0 = ok ⟨10000⁻¹, 0, [], 1⟩ := by
      rw [hd]
      unfold RadiusNnResultSet.addPoint RadiusNnResultSet.new
      rw [if_pos (by norm_num [isGreaterThan, tolOf, doubleEps])]
      rfl
    have i1 : octInside ⟨49999 / 100000, 0, 0⟩ 10000⁻¹ ⟨4⁻¹, 4⁻¹, 4⁻¹⟩ 4⁻¹ = false := by
      norm_num [octInside, isLessThan, tolOf, doubleEps, abs_of_pos]
    have i2 : octInside ⟨49999 / 100000, 0, 0⟩ 10000⁻¹ ⟨2⁻¹, 2⁻¹, 2⁻¹⟩ 2⁻¹ = false := by
      norm_num [octInside, isLessThan, tolOf, doubleEps, abs_of_pos]
    have ax : |(49999 / 100000 - 3 / 4 : ℝ)| = 25001 / 100000 := by rw [abs_of_neg (by norm_num)]; norm_num
    have ay : |(0 - 4⁻¹ : ℝ)| = 1 / 4 := by rw [abs_of_neg (by norm_num)]; norm_num
    have o1 : octOverlapsBox ⟨49999 / 100000, 0, 0⟩ 10000⁻¹ ⟨3 / 4, 4⁻¹, 4⁻¹⟩ 4⁻¹ = false := by
      unfold octOverlapsBox
      dsimp only
      rw [ax, ay]
      norm_num [isLessThan, isGreaterThan, tolOf, doubleEps, XYZ.sqrLength]
    rw [ha]
    simp [i1, i2, octOverlaps, o1, Octant.isNull]
  · unfold XYZ.distance
    rw [show nth smallCloud 2 = ⟨50001 / 100000, 0, 0⟩ by simp [smallCloud, nth]]
    dsimp only
    rw [show ((50001 / 100000 : ℝ) - 49999 / 100000) ^ 2 + (0 - 0) ^ 2 + (0 - 0) ^ 2 = (2 / 100000) ^ 2 by norm_num]
    exact Real.sqrt_sq (by norm_num)

/-! ## C82: nearest neighbour search -/

theorem near_mono {τ d W w : ℝ} (h : Near τ d W) (hw : W ≤ w) : Near τ d w := by
  obtain ⟨μ, h0, h1, h2, h3⟩ := h
  refine ⟨μ + (w - W), by linarith, by linarith, ?_, by linarith⟩
  nlinarith [mul_nonneg (sub_nonneg.mpr hw) (show (0 : ℝ) ≤ w by linarith), mul_nonneg (sub_nonneg.mpr hw) (show (0 : ℝ) ≤ W by linarith), mul_nonneg (sub_nonneg.mpr hw) h0.le]

theorem near_lt {τ d W : ℝ} (hτ : 0 ≤ τ) (h : Near τ d W) : d < W := by
  obtain ⟨μ, h0, h1, h2, h3⟩ := h
  linarith

theorem eqOrApart_sub {l m : List ℝ} (h : EqOrApart m) (hs : ∀ x ∈ l, x ∈ m) : EqOrApart l := fun x hx y hy => h x (hs x hx) y (hs y hy)

/-- C82: `OctreeKnnSearch` on the tree built from the points (coordinates at most `R ≤ 1e15`, distances to the query at most 1e9 and any two equal or apart by
more than the comparison tolerance) reports `min k n` different points with their true distances in ascending order; a point it does not report is not
nearer than the last reported distance by the margin of `Near`. -/
theorem C82_knn_search_partial {R : ℝ} (hR : R ≤ 10 ^ 15) {db : List (XYZ ℝ)} (hdb : ∀ p ∈ db, CoordLe R p) {fuel : ℕ} {leafSize : ℤ} {minExtent : ℝ} {t : Octant}
    (h : octreeConstruction fuel db leafSize minExtent = ok t) {k : ℕ} (hk : 0 < k) (q : XYZ ℝ) (hd : ∀ p ∈ db, q.distance p ≤ 10 ^ 9)
    (hs : EqOrApart (db.map q.distance)) :
    ∃ b s kept, octreeKnnSearch t db k q = ok (b, s) ∧ s.list.take kept.length = kept ∧ s.count = kept.length ∧ kept.length = min k db.length ∧
      kept.Pairwise (fun x y => x.distance ≤ y.distance) ∧ (kept.map DistIndex.index).Nodup ∧ (∀ x ∈ kept, ∃ j < db.length, x = ⟨q.distance (nth db j), j⟩) ∧
      ∀ j < db.length, (∃ x ∈ kept, x.index = (j : ℤ)) ∨ ∀ y, kept.getLast? = some y → ¬ Near (1 / 1000000 * (2 + 3 * R)) (q.distance (nth db j)) y.distance := by
  have hR' : R ≤ 10 ^ 300 := hR.trans (pow_le_pow_right₀ (by norm_num) (by norm_num))
  obtain ⟨hT, hidx⟩ := construction_tree hR' hdb h
  obtain ⟨s0, e0, i0⟩ := knn_init (K := ℝ) (k := k)
  rcases slack_nonneg hdb with rfl | h0
  · unfold octreeConstruction at h
    rw [if_pos rfl] at h
    cases h
    refine ⟨false, s0, [], ?_, by simp, i0.cnt, by simp, by simp, by simp, by simp, by simp⟩
    unfold octreeKnnSearch
    rw [e0, ok_bind]; rfl
  · have hmemdb : ∀ {j}, j < db.length → nth db j ∈ db := fun {j} hj => by rw [nth_eq_getElem hj]; exact List.getElem_mem hj
    have hentry : ∀ V : List ℤ, (∀ i ∈ V, ∃ p, vget db i = ok p) → ∀ x ∈ V.map (entry db q), ∃ j < db.length, x = ⟨q.distance (nth db j), j⟩ := by
      intro V hV x hx
      rw [List.mem_map] at hx
      obtain ⟨i, hi, rfl⟩ := hx
      have := vget_valid.mp (hV i hi)
      rw [List.mem_map] at this
      obtain ⟨j, hj, rfl⟩ := this
      exact ⟨j, List.mem_range.mp hj, rfl⟩
    have hbound : ∀ V : List ℤ, (∀ i ∈ V, ∃ p, vget db i = ok p) → ∀ x ∈ V.map (entry db q), x.distance ≤ 10 ^ 10 := by
      intro V hV x hx
      obtain ⟨j, hj, rfl⟩ := hentry V hV x hx
      exact (hd _ (hmemdb hj)).trans (by norm_num)
    have hapart : ∀ V : List ℤ, (∀ i ∈ V, ∃ p, vget db i = ok p) → EqOrApart ((V.map (entry db q)).map DistIndex.distance) := by
      intro V hV
      refine eqOrApart_sub hs fun d hd => ?_
      rw [List.mem_map] at hd
      obtain ⟨x, hx, rfl⟩ := hd
      obtain ⟨j, hj, rfl⟩ := hentry V hV x hx
      exact List.mem_map_of_mem (hmemdb hj)
    have run : ∀ V : List ℤ, (∀ i ∈ V, ∃ p, vget db i = ok p) → ∃ s kept, addAll KnnResultSet.addPoint db q s0 V = ok s ∧ KnnInv k (V.map (entry db q)) s kept := by
      intro V hV
      obtain ⟨s, kept, e, i, -⟩ := knn_feed hk (V.map (entry db q)) i0 (by simp) (hbound V hV) (by simpa using hapart V hV)
      exact ⟨s, kept, by rw [addAll_entries V _ hV]; exact e, by simpa using i⟩
    have hadds : AddsOK KnnResultSet.addPoint db q s0 := fun V _ hV => by
      obtain ⟨s, _, e, _⟩ := run V hV
      exact ⟨s, e⟩
    obtain ⟨⟨b, s⟩, e, V, eV, nd, hV, hset, -⟩ := search_run (worst := KnnResultSet.worst) h0 hadds t hT [] _ rfl List.nodup_nil (by simp) (by simp)
    dsimp only at eV
    rw [List.nil_append] at eV nd hset
    have hval : ∀ i ∈ V, ∃ p, vget db i = ok p := fun i hi => vget_valid.mpr (hidx ▸ hV i hi)
    obtain ⟨s', kept, e', inv⟩ := run V hval
    rw [e'] at eV
    cases eV
    have hVlen : V.length ≤ db.length := by
      have := (nd.subperm (fun i hi => vget_valid.mp (hval i hi))).length_le
      simpa using this
    -- indices that were not visited
    have skipped : ∀ j < db.length, (j : ℤ) ∉ V → k ≤ V.length ∧ ¬ Near (1 / 1000000 * (2 + 3 * R)) (q.distance (nth db j)) s.worst := by
      intro j hj hjV
      have hmem : (j : ℤ) ∈ t.indices := by rw [hidx, List.mem_map]; exact ⟨j, List.mem_range.mpr hj, rfl⟩
      have hp : vget db (j : ℤ) = ok (nth db j) := vget_nth rfl hj
      rcases hset (j : ℤ) hmem with h | ⟨p, W, s1, g1, ⟨W', g2⟩, g3, g4⟩
      · exact absurd h hjV
      · rw [hp] at g1
        cases g1
        have hW : ∀ i ∈ W, ∃ p, vget db i = ok p := fun i hi => hval i (g2 ▸ List.mem_append_left W' hi)
        have hW' : ∀ i ∈ W', ∃ p, vget db i = ok p := fun i hi => hval i (g2 ▸ List.mem_append_right W hi)
        obtain ⟨s2, kept2, e2, inv2⟩ := run W hW
        rw [e2] at g3
        cases g3
        have hfull : k ≤ W.length := by
          by_contra hlt
          have hl := inv2.near.1
          have hw := inv2.part (by rw [hl]; simp; omega)
          rw [hw] at g4
          refine g4 ⟨10 ^ 9, by norm_num, by norm_num, by norm_num, ?_⟩
          have := hd _ (hmemdb hj)
          norm_num at hR this ⊢
          linarith
        refine ⟨hfull.trans (by rw [← g2]; simp), fun hn => g4 (near_mono hn ?_)⟩
        obtain ⟨s3, kept3, e3, i3, w3⟩ := knn_feed hk (W'.map (entry db q)) inv2 (hbound W hW) (hbound W' hW') (by rw [← List.map_append, g2]; exact hapart V hval)
        have : s3 = s := by
          rw [← g2, addAll_append, e2, ok_bind, addAll_entries W' _ hW'] at e'
          unfold KnnResultSet.feed at e3
          rw [e3] at e'
          cases e'; rfl
        rw [← this]
        exact w3
    have hlen : kept.length = min k db.length := by
      have hl := inv.near.1
      rw [List.length_map] at hl
      rcases Nat.lt_or_ge V.length k with hlt | hge
      · have hall : db.length ≤ V.length := by
          have hsub : ((List.range db.length).map Int.ofNat) ⊆ V := by
            intro i hi
            rw [List.mem_map] at hi
            obtain ⟨j, hj, rfl⟩ := hi
            by_contra hc
            have := (skipped j (List.mem_range.mp hj) hc).1
            omega
          have := ((List.Nodup.map Int.ofNat_injective List.nodup_range).subperm hsub).length_le
          simpa using this
        omega
      · omega
    obtain ⟨-, hsorted, rest, hperm, hrest⟩ := inv.near
    have hkeptV : ∀ x ∈ kept, x ∈ V.map (entry db q) := fun x hx => hperm.symm.subset (by simp [hx])
    refine ⟨b, s, kept, ?_, by rw [inv.lst]; simp, inv.cnt, hlen, hsorted, ?_, fun x hx => hentry V hval x (hkeptV x hx), ?_⟩
    · unfold octreeKnnSearch
      rw [e0, ok_bind]; exact e
    · have : ((kept ++ rest).map DistIndex.index).Nodup := by
        rw [← (hperm.map DistIndex.index).nodup_iff, List.map_map]
        have : DistIndex.index ∘ entry db q = id := rfl
        rw [this, List.map_id]
        exact nd
      rw [List.map_append] at this
      exact (List.nodup_append.mp this).1
    · intro j hj
      by_cases hr : ∃ x ∈ kept, x.index = (j : ℤ)
      · exact Or.inl hr
      · refine Or.inr fun y hy hn => ?_
        have hyk : y ∈ kept := List.mem_of_getLast? hy
        by_cases hjV : (j : ℤ) ∈ V
        · have hm := hperm.subset (List.mem_map_of_mem (f := entry db q) hjV)
          rcases List.mem_append.mp hm with hm | hm
          · exact hr ⟨_, hm, rfl⟩
          · have := hrest y hyk _ hm
            have h2 := near_lt h0 hn
            have e1 : (entry db q j).distance = q.distance (nth db j) := rfl
            rw [e1] at this
            linarith
        · obtain ⟨hkV, hnn⟩ := skipped j hj hjV
          have hl := inv.near.1
          rw [List.length_map] at hl
          have hne : kept ≠ [] := fun h => by rw [h] at hyk; simp at hyk
          rw [List.getLast?_eq_some_getLast hne] at hy
          cases hy
          rw [inv.full _ _ (List.dropLast_append_getLast hne).symm (by omega)] at hnn
          exact hnn hn

/-- C82, exact form: when of any two different distances the smaller is smaller by the margin of `Near`, the reported entries are exactly the `min k n`
nearest points. -/
theorem C82_knn_exact_partial {R : ℝ} (hR : R ≤ 10 ^ 15) {db : List (XYZ ℝ)} (hdb : ∀ p ∈ db, CoordLe R p) {fuel : ℕ} {leafSize : ℤ} {minExtent : ℝ} {t : Octant}
    (h : octreeConstruction fuel db leafSize minExtent = ok t) {k : ℕ} (hk : 0 < k) (q : XYZ ℝ) (hd : ∀ p ∈ db, q.distance p ≤ 10 ^ 9)
    (hs : ∀ p ∈ db, ∀ p' ∈ db, q.distance p < q.distance p' → Near (1 / 1000000 * (2 + 3 * R)) (q.distance p) (q.distance p')) :
    ∃ b s kept, octreeKnnSearch t db k q = ok (b, s) ∧ s.list.take kept.length = kept ∧ s.count = kept.length ∧
      IsKNearest k ((List.range db.length).map fun j => ⟨q.distance (nth db j), j⟩) kept := by
  have hmemdb : ∀ {j}, j < db.length → nth db j ∈ db := fun {j} hj => by rw [nth_eq_getElem hj]; exact List.getElem_mem hj
  have hap : EqOrApart (db.map q.distance) := by
    have key : ∀ p ∈ db, ∀ p' ∈ db, q.distance p < q.distance p' → 1 / 1000000 * (1 + q.distance p') < q.distance p' - q.distance p := by
      intro p hp p' hp' hlt
      obtain ⟨μ, h0, h1, h2, h3⟩ := hs p hp p' hp' hlt
      have hR0 : 0 ≤ R := (abs_nonneg _).trans (hdb p hp).1
      have hw : 0 < q.distance p' := lt_of_le_of_lt (distance_nonneg' q p) hlt
      have : 1 / 1000000 * q.distance p' < μ := by
        by_contra hc
        rw [not_lt] at hc
        have := mul_le_mul_of_nonneg_right hc hw.le
        linarith
      linarith
    intro x hx y hy
    rw [List.mem_map] at hx hy
    obtain ⟨p, hp, rfl⟩ := hx
    obtain ⟨p', hp', rfl⟩ := hy
    rw [abs_of_nonneg (distance_nonneg' q p), abs_of_nonneg (distance_nonneg' q p')]
    rcases lt_trichotomy (q.distance p) (q.distance p') with hlt | heq | hgt
    · right
      rw [max_eq_right hlt.le, abs_sub_comm, abs_of_pos (by linarith)]
      exact key p hp p' hp' hlt
    · exact Or.inl heq
    · right
      rw [max_eq_left hgt.le, abs_of_pos (by linarith)]
      exact key p' hp' p hp hgt
  obtain ⟨b, s, kept, e, ht, hc, hlen, hsort, hnd, htrue, hmiss⟩ := C82_knn_search_partial hR hdb h hk q hd hap
  refine ⟨b, s, kept, e, ht, hc, by simpa using hlen, hsort, ?_⟩
  set all : List (DistIndex ℝ) := (List.range db.length).map fun j => ⟨q.distance (nth db j), j⟩ with hall
  have hallnd : (all.map DistIndex.index).Nodup := by
    rw [hall, List.map_map]
    exact List.Nodup.map Int.ofNat_injective List.nodup_range
  refine ⟨all.filter (fun x => decide (x ∉ kept)), ?_, ?_⟩
  · have h1 : all.Perm (all.filter (fun x => decide (x ∈ kept)) ++ all.filter (fun x => !decide (x ∈ kept))) := (List.filter_append_perm _ _).symm
    have h2 : (all.filter (fun x => decide (x ∈ kept))).Perm kept := by
      rw [List.perm_ext_iff_of_nodup (hallnd.of_map.filter _) hnd.of_map]
      intro x
      rw [List.mem_filter, decide_eq_true_eq]
      refine ⟨fun h => h.2, fun h => ⟨?_, h⟩⟩
      obtain ⟨j, hj, rfl⟩ := htrue x h
      exact List.mem_map.mpr ⟨j, List.mem_range.mpr hj, rfl⟩
    refine h1.trans ((h2.append_right _).trans ?_)
    simp
  · intro x hx y hy
    rw [List.mem_filter, decide_eq_true_eq] at hy
    obtain ⟨hya, hyk⟩ := hy
    obtain ⟨j, hj, rfl⟩ := List.mem_map.mp hya
    rw [List.mem_range] at hj
    by_contra hlt
    rw [not_le] at hlt
    have hne : kept ≠ [] := fun h => by rw [h] at hx; simp at hx
    have hlast : x.distance ≤ (kept.getLast hne).distance := by
      have hsplit := List.dropLast_append_getLast hne
      rw [← hsplit] at hx
      rcases List.mem_append.mp hx with hx | hx
      · rw [← hsplit, List.pairwise_append] at hsort
        exact hsort.2.2 x hx _ (by simp)
      · rw [List.mem_singleton] at hx
        rw [← hx]
    rcases hmiss j hj with ⟨z, hz, hzj⟩ | hnot
    · obtain ⟨i, hi, rfl⟩ := htrue z hz
      have : i = j := by simpa using hzj
      subst this
      exact hyk hz
    · obtain ⟨i, hi, hil⟩ := htrue _ (List.getLast_mem hne)
      refine hnot _ (List.getLast?_eq_some_getLast hne) ?_
      rw [hil] at hlast ⊢
      exact hs _ (hmemdb hj) _ (hmemdb hi) (by dsimp only at *; linarith)

/-- the hypotheses of C82_knn_exact_partial hold for three points and the query at the origin -/
example : ∃ fuel t, octreeConstruction fuel exCloud 1 (1 / 10) = ok t ∧ ∃ b s kept, octreeKnnSearch t exCloud 2 ⟨0, 0, 0⟩ = ok (b, s) ∧ s.list.take kept.length = kept ∧
    s.count = kept.length ∧ IsKNearest 2 ((List.range exCloud.length).map fun j => ⟨XYZ.distance ⟨0, 0, 0⟩ (nth exCloud j), j⟩) kept := by
  obtain ⟨t, N, h1, -⟩ := C80_construction two_le_big exCloud_coord 1 (minExtent := 1 / 10) (by norm_num)
  have d0 : XYZ.distance ⟨0, 0, 0⟩ ⟨0, 0, 0⟩ = 0 := by simp [XYZ.distance]
  have d1 : XYZ.distance ⟨0, 0, 0⟩ ⟨1, 0, 0⟩ = 1 := by simp [XYZ.distance]
  have d2 : 2 ≤ XYZ.distance ⟨0, 0, 0⟩ ⟨1, 2, 0⟩ ∧ XYZ.distance ⟨0, 0, 0⟩ ⟨1, 2, 0⟩ ≤ 3 := by
    unfold XYZ.distance
    constructor
    · exact Real.le_sqrt_of_sq_le (by norm_num)
    · rw [Real.sqrt_le_left (by norm_num)]; norm_num
  refine ⟨N, t, h1 N (le_refl _), C82_knn_exact_partial (R := 2) (by norm_num) exCloud_coord (h1 N (le_refl _)) (by norm_num) _ ?_ ?_⟩
  · intro p hp
    simp only [exCloud, List.mem_cons, List.not_mem_nil, or_false] at hp
    rcases hp with rfl | rfl | rfl
    · rw [d0]; norm_num
    · rw [d1]; norm_num
    · linarith [d2.2]
  · intro p hp p' hp' hlt
    have nr : ∀ d w : ℝ, 1 ≤ w → w ≤ 3 → d + 1 ≤ w → Near (1 / 1000000 * (2 + 3 * 2)) d w := fun d w h1 h3 hd => ⟨1 / 10, by norm_num, by linarith, by nlinarith, by linarith⟩
    simp only [exCloud, List.mem_cons, List.not_mem_nil, or_false] at hp hp'
    rcases hp with rfl | rfl | rfl <;> rcases hp' with rfl | rfl | rfl <;> first | exact absurd hlt (lt_irrefl _) | skip
    · rw [d0, d1]; exact nr _ _ (by norm_num) (by norm_num) (by norm_num)
    · rw [d0]; exact nr _ _ (by linarith [d2.1]) d2.2 (by linarith [d2.1])
    · rw [d0, d1] at hlt; norm_num at hlt
    · rw [d1]; exact nr _ _ (by linarith [d2.1]) d2.2 (by linarith [d2.1])
    · rw [d0] at hlt; linarith [d2.1]
    · rw [d1] at hlt; linarith [d2.1]

end LNLib.Props
