import Verif.Model.Octree
import Verif.Props.ResultSet

/-!
# Invariants of the octree and of its searches
-/

namespace LNLib
open Res
set_option linter.unusedSectionVars false

/-- the indices stored in the root of a tree -/
def Octant.indices : Octant → List ℤ
  | .null => []
  | .node _ _ idx _ _ => idx

/-- `p` is in the closed cube of half width `h` round `c` -/
def InCube (p c : XYZ ℝ) (h : ℝ) : Prop := |p.x - c.x| ≤ h ∧ |p.y - c.y| ≤ h ∧ |p.z - c.z| ≤ h

/-- the invariant of a tree over the points `db`, with slack `τ` -/
def TreeOK (db : List (XYZ ℝ)) (τ : ℝ) : Octant → Prop
  | .null => True
  | .node c e idx leaf ch => idx ≠ [] ∧ idx.Nodup ∧ (∀ i ∈ idx, ∃ p, vget db i = ok p ∧ InCube p c (e + τ)) ∧
      (∀ i p, vget db i = ok p → InCube p c (e - τ) → i ∈ idx) ∧
      (leaf = false → (∀ i ∈ idx, ∃ k, i ∈ (ch k).indices) ∧ (∀ k, ∀ i ∈ (ch k).indices, i ∈ idx) ∧
        (∀ k l i, i ∈ (ch k).indices → i ∈ (ch l).indices → k = l) ∧ ∀ k, TreeOK db τ (ch k))

/-- a distance `d` is within `w` by a margin that the comparisons of the search resolve -/
def Near (τ d w : ℝ) : Prop := ∃ μ, 0 < μ ∧ μ ≤ w ∧ 1 / 1000000 * (1 + w * w) < μ * w ∧ d + 2 * τ + μ ≤ w

theorem abs_le_distance (q p : XYZ ℝ) : |q.x - p.x| ≤ q.distance p ∧ |q.y - p.y| ≤ q.distance p ∧ |q.z - p.z| ≤ q.distance p := by
  unfold XYZ.distance
  refine ⟨?_, ?_, ?_⟩ <;> apply Real.abs_le_sqrt
  · nlinarith [sq_nonneg (p.y - q.y), sq_nonneg (p.z - q.z)]
  · nlinarith [sq_nonneg (p.x - q.x), sq_nonneg (p.z - q.z)]
  · nlinarith [sq_nonneg (p.x - q.x), sq_nonneg (p.y - q.y)]

theorem distance_sq (q p : XYZ ℝ) : q.distance p * q.distance p = (q.x - p.x) ^ 2 + (q.y - p.y) ^ 2 + (q.z - p.z) ^ 2 := by
  unfold XYZ.distance
  rw [Real.mul_self_sqrt (by positivity)]
  ring

theorem distance_nonneg' (q p : XYZ ℝ) : 0 ≤ q.distance p := Real.sqrt_nonneg _

/-- the early exit is justified: what is near the query is well inside the octant -/
theorem inside_near {q c p : XYZ ℝ} {w e τ : ℝ} (ht : 0 ≤ τ) (h : octInside q w c e = true) (hn : Near τ (q.distance p) w) : InCube p c (e - τ) := by
  obtain ⟨μ, h0, h1, h2, h3⟩ := hn
  unfold octInside at h
  rw [Bool.and_eq_true, Bool.and_eq_true] at h
  obtain ⟨⟨hx, hy⟩, hz⟩ := h
  have gx := lt_of_isLessThan doubleEps_pos hx
  have gy := lt_of_isLessThan doubleEps_pos hy
  have gz := lt_of_isLessThan doubleEps_pos hz
  obtain ⟨dx, dy, dz⟩ := abs_le_distance q p
  have d0 := distance_nonneg' q p
  have tx : |p.x - c.x| ≤ |q.x - p.x| + |q.x - c.x| := by
    rw [abs_sub_comm q.x p.x]; exact abs_sub_le _ _ _
  have ty : |p.y - c.y| ≤ |q.y - p.y| + |q.y - c.y| := by
    rw [abs_sub_comm q.y p.y]; exact abs_sub_le _ _ _
  have tz : |p.z - c.z| ≤ |q.z - p.z| + |q.z - c.z| := by
    rw [abs_sub_comm q.z p.z]; exact abs_sub_le _ _ _
  exact ⟨by linarith, by linarith, by linarith⟩

/-- the pruning is justified: an octant holding a point near the query overlaps the ball -/
theorem overlaps_near {q c p : XYZ ℝ} {w e τ : ℝ} (ht : 0 ≤ τ) (hp : InCube p c (e + τ)) (hn : Near τ (q.distance p) w) : octOverlapsBox q w c e = true := by
  obtain ⟨μ, h0, h1, h2, h3⟩ := hn
  obtain ⟨px, py, pz⟩ := hp
  obtain ⟨dx, dy, dz⟩ := abs_le_distance q p
  have d0 := distance_nonneg' q p
  have dd := distance_sq q p
  have tx : |q.x - c.x| ≤ |q.x - p.x| + |p.x - c.x| := abs_sub_le _ _ _
  have ty : |q.y - c.y| ≤ |q.y - p.y| + |p.y - c.y| := abs_sub_le _ _ _
  have tz : |q.z - c.z| ≤ |q.z - p.z| + |p.z - c.z| := abs_sub_le _ _ _
  unfold octOverlapsBox
  dsimp only
  rw [Props.greater_le (show |q.x - c.x| ≤ w + e by linarith), Props.greater_le (show |q.y - c.y| ≤ w + e by linarith),
    Props.greater_le (show |q.z - c.z| ≤ w + e by linarith), if_neg (by simp)]
  rw [ite_eq_left_iff]
  intro _
  have bound : ∀ a b : ℝ, a ≤ b + (e + τ) → 0 ≤ b → 0 ≤ max (a - e) 0 ∧ max (a - e) 0 ≤ b + τ := fun a b h hb =>
    ⟨le_max_right _ _, max_le (by linarith) (by linarith)⟩
  obtain ⟨x0, x1⟩ := bound |q.x - c.x| |q.x - p.x| (by linarith) (abs_nonneg _)
  obtain ⟨y0, y1⟩ := bound |q.y - c.y| |q.y - p.y| (by linarith) (abs_nonneg _)
  obtain ⟨z0, z1⟩ := bound |q.z - c.z| |q.z - p.z| (by linarith) (abs_nonneg _)
  set X := max (|q.x - c.x| - e) 0
  set Y := max (|q.y - c.y| - e) 0
  set Z := max (|q.z - c.z| - e) 0
  rw [← sq_abs (q.x - p.x), ← sq_abs (q.y - p.y), ← sq_abs (q.z - p.z)] at dd
  have a0 := abs_nonneg (q.x - p.x)
  have b0 := abs_nonneg (q.y - p.y)
  have c0 := abs_nonneg (q.z - p.z)
  set A := |q.x - p.x|
  set B := |q.y - p.y|
  set C := |q.z - p.z|
  set d := q.distance p
  have hsum : A + B + C ≤ 2 * d := by
    refine abs_le_of_sq_le_sq' ?_ (by linarith) |>.2
    nlinarith [sq_nonneg (A - B), sq_nonneg (B - C), sq_nonneg (A - C)]
  have hX : X * X ≤ (A + τ) * (A + τ) := mul_self_le_mul_self x0 x1
  have hY : Y * Y ≤ (B + τ) * (B + τ) := mul_self_le_mul_self y0 y1
  have hZ : Z * Z ≤ (C + τ) * (C + τ) := mul_self_le_mul_self z0 z1
  have hS : X * X + Y * Y + Z * Z ≤ (d + 2 * τ) * (d + 2 * τ) := by nlinarith [mul_le_mul_of_nonneg_left hsum ht, mul_self_nonneg τ]
  have hW : (d + 2 * τ) * (d + 2 * τ) ≤ (w - μ) * (w - μ) := mul_self_le_mul_self (by linarith) (by linarith)
  have hW2 : X * X + Y * Y + Z * Z + μ * w ≤ w * w := by nlinarith
  have e1 : (doubleEps : ℝ) = 1 / 1000000 := rfl
  unfold isLessThan tolOf XYZ.sqrLength
  rw [decide_eq_true_eq, e1]
  have hS0 : 0 ≤ X * X + Y * Y + Z * Z := by positivity
  have hw0 : 0 ≤ w * w := mul_self_nonneg w
  have hμw : 0 < μ * w := by
    have : 0 < w := by linarith
    positivity
  rw [abs_of_nonneg hS0, abs_of_nonneg hw0, max_eq_right (by linarith)]
  linarith

section search
variable {S : Type} {add : S → ℝ → ℤ → Res S} {worst : S → ℝ} {db : List (XYZ ℝ)} {q : XYZ ℝ} {τ : ℝ}

theorem addAll_append (s : S) (U V : List ℤ) : addAll add db q s (U ++ V) = addAll add db q s U >>= fun s => addAll add db q s V := by
  unfold addAll
  rw [List.foldlM_append]

/-- index `i` was added, or it was skipped when it was not near -/
def Settled (add : S → ℝ → ℤ → Res S) (worst : S → ℝ) (db : List (XYZ ℝ)) (q : XYZ ℝ) (τ : ℝ) (s0 : S) (U : List ℤ) (i : ℤ) : Prop :=
  i ∈ U ∨ ∃ p V s, vget db i = ok p ∧ V <+: U ∧ addAll add db q s0 V = ok s ∧ ¬ Near τ (q.distance p) (worst s)

theorem Settled.mono {s0 : S} {U V : List ℤ} {i : ℤ} (h : Settled add worst db q τ s0 U i) : Settled add worst db q τ s0 (U ++ V) i := by
  rcases h with h | ⟨p, W, s, h1, h2, h3⟩
  · exact Or.inl (by simp [h])
  · exact Or.inr ⟨p, W, s, h1, h2.trans (List.prefix_append _ _), h3⟩

/-- what a search of the tree `t` achieves, started after the indices `U` were added to `s0` -/
def SearchPost (add : S → ℝ → ℤ → Res S) (worst : S → ℝ) (db : List (XYZ ℝ)) (q : XYZ ℝ) (τ : ℝ) (s0 : S) (t : Octant) (U : List ℤ) (r : Bool × S) : Prop :=
  ∃ V, addAll add db q s0 (U ++ V) = ok r.2 ∧ (U ++ V).Nodup ∧ (∀ i ∈ V, i ∈ t.indices) ∧ (∀ i ∈ t.indices, Settled add worst db q τ s0 (U ++ V) i) ∧
    (r.1 = true → ∀ i p, vget db i = ok p → Settled add worst db q τ s0 (U ++ V) i)

/-- adding is possible for every list of distinct valid indices -/
def AddsOK (add : S → ℝ → ℤ → Res S) (db : List (XYZ ℝ)) (q : XYZ ℝ) (s0 : S) : Prop :=
  ∀ V : List ℤ, V.Nodup → (∀ i ∈ V, ∃ p, vget db i = ok p) → ∃ s, addAll add db q s0 V = ok s

/-- the invariant of the loop over the children: those in `P` are done -/
def LoopInv (add : S → ℝ → ℤ → Res S) (worst : S → ℝ) (db : List (XYZ ℝ)) (q : XYZ ℝ) (τ : ℝ) (s0 : S) (ch : Fin 8 → Octant) (P : List (Fin 8)) (U : List ℤ)
    (r : Bool × S) : Prop :=
  ∃ V, addAll add db q s0 (U ++ V) = ok r.2 ∧ (U ++ V).Nodup ∧ (∀ i ∈ V, ∃ c ∈ P, i ∈ (ch c).indices) ∧
    (r.1 = false → ∀ c ∈ P, ∀ i ∈ (ch c).indices, Settled add worst db q τ s0 (U ++ V) i) ∧
    (r.1 = true → ∀ i p, vget db i = ok p → Settled add worst db q τ s0 (U ++ V) i)

theorem loop_run {s0 : S} (ht : 0 ≤ τ) {ch : Fin 8 → Octant} (hch : ∀ k, TreeOK db τ (ch k)) (hdis : ∀ k l i, i ∈ (ch k).indices → i ∈ (ch l).indices → k = l)
    {skip : Fin 8 → Prop} [DecidablePred skip] {srch : Octant → S → Res (Bool × S)} {U0 : List ℤ} (hU0 : ∀ k, ∀ i ∈ (ch k).indices, i ∉ U0)
    (hUv : ∀ i ∈ U0, ∃ p, vget db i = ok p) (hcv : ∀ k, ∀ i ∈ (ch k).indices, ∃ p, vget db i = ok p)
    (ih : ∀ k U s, addAll add db q s0 U = ok s → U.Nodup → (∀ i ∈ U, ∃ p, vget db i = ok p) → (∀ i ∈ U, i ∉ (ch k).indices) → Runs (srch (ch k) s) (SearchPost add worst db q τ s0 (ch k) U)) :
    ∀ (l P : List (Fin 8)), l.Nodup → (∀ c ∈ l, skip c → c ∈ P ∨ (ch c).indices = []) → (∀ c ∈ l, ¬ skip c → c ∉ P) → ∀ st, LoopInv add worst db q τ s0 ch P U0 st →
      Runs (l.foldlM (fun (st : Bool × S) c => if st.1 then ok st else if skip c then ok st
          else if !octOverlaps q (worst st.2) (ch c) then ok st else srch (ch c) st.2) st)
        (LoopInv add worst db q τ s0 ch (P ++ l) U0) := by
  intro l
  induction l with
  | nil =>
    intro P _ _ _ st h
    exact Runs.ok (by simpa using h)
  | cons c l ihl =>
    intro P hnd hs1 hs2 st inv
    rw [List.foldlM_cons]
    rw [List.nodup_cons] at hnd
    have hlast : P ++ c :: l = (P ++ [c]) ++ l := by simp
    rw [hlast]
    refine Runs.bind (Q := LoopInv add worst db q τ s0 ch (P ++ [c]) U0) ?_ (fun st' inv' => ihl (P ++ [c]) hnd.2 ?_ ?_ st' inv')
    · obtain ⟨b, s⟩ := st
      obtain ⟨V, e, nd, hV, hf, htr⟩ := inv
      dsimp only at *
      have hV' : ∀ i ∈ V, ∃ c' ∈ P ++ [c], i ∈ (ch c').indices := fun i hi => by
        obtain ⟨k, hk, hi⟩ := hV i hi
        exact ⟨k, by simp [hk], hi⟩
      cases b with
      | true =>
        rw [if_pos rfl]
        exact Runs.ok ⟨V, e, nd, hV', fun h => by simp at h, htr⟩
      | false =>
        rw [if_neg (by simp)]
        by_cases hsk : skip c
        · rw [if_pos hsk]
          refine Runs.ok ⟨V, e, nd, hV', fun _ k hk i hi => ?_, fun h => by simp at h⟩
          rcases List.mem_append.mp hk with hk | hk
          · exact hf rfl k hk i hi
          · rw [List.mem_singleton] at hk
            subst hk
            rcases hs1 k (by simp) hsk with h | h
            · exact hf rfl k h i hi
            · rw [h] at hi; simp at hi
        · rw [if_neg hsk]
          have hcP := hs2 c (by simp) hsk
          by_cases ho : octOverlaps q (worst s) (ch c) = true
          · rw [if_neg (by simp [ho])]
            have hdisj : ∀ i ∈ U0 ++ V, i ∉ (ch c).indices := by
              intro i hi hic
              rcases List.mem_append.mp hi with hi | hi
              · exact hU0 c i hic hi
              · obtain ⟨k, hk, hi⟩ := hV i hi
                exact hcP (hdis c k i hic hi ▸ hk)
            have hval : ∀ i ∈ U0 ++ V, ∃ p, vget db i = ok p := by
              intro i hi
              rcases List.mem_append.mp hi with hi | hi
              · exact hUv i hi
              · obtain ⟨k, hk, hi⟩ := hV i hi
                exact hcv k i hi
            refine (ih c (U0 ++ V) s e nd hval hdisj).mono ?_
            rintro ⟨b', s'⟩ ⟨V', e', nd', hVc, hset, htr'⟩
            dsimp only at *
            rw [List.append_assoc] at e' nd' hset htr'
            refine ⟨V ++ V', e', nd', ?_, ?_, htr'⟩
            · intro i hi
              rcases List.mem_append.mp hi with hi | hi
              · exact hV' i hi
              · exact ⟨c, by simp, hVc i hi⟩
            · intro _ k hk i hi
              rcases List.mem_append.mp hk with hk | hk
              · rw [← List.append_assoc]
                exact (hf rfl k hk i hi).mono
              · rw [List.mem_singleton] at hk
                subst hk
                exact hset i hi
          · rw [if_pos (by simpa using ho)]
            refine Runs.ok ⟨V, e, nd, hV', fun _ k hk i hi => ?_, fun h => by simp at h⟩
            rcases List.mem_append.mp hk with hk | hk
            · exact hf rfl k hk i hi
            · rw [List.mem_singleton] at hk
              subst hk
              have hT := hch k
              cases hck : ch k with
              | null => rw [hck] at hi; simp [Octant.indices] at hi
              | node cc ee idx leaf chh =>
                rw [hck] at hi hT ho
                obtain ⟨-, -, hbox, -⟩ := hT
                obtain ⟨p, hp, hcube⟩ := hbox i hi
                refine Or.inr ⟨p, U0 ++ V, s, hp, List.prefix_rfl, e, fun hn => ho ?_⟩
                exact overlaps_near ht hcube hn
    · intro c' hc' hsk
      rcases hs1 c' (by simp [hc']) hsk with h | h
      · exact Or.inl (by simp [h])
      · exact Or.inr h
    · intro c' hc' hsk hmem
      rcases List.mem_append.mp hmem with h | h
      · exact hs2 c' (by simp [hc']) hsk h
      · rw [List.mem_singleton] at h
        subst h
        exact hnd.1 hc'

theorem isNull_indices {t : Octant} (h : t.isNull = true) : t.indices = [] := by
  cases t with
  | null => rfl
  | node => simp [Octant.isNull] at h

/-- `OctreeRadiusSearch` / `OctreeKnnSearch` -/
theorem search_run {s0 : S} (ht : 0 ≤ τ) (hadd : AddsOK add db q s0) : ∀ (t : Octant), TreeOK db τ t → ∀ U s, addAll add db q s0 U = ok s → U.Nodup →
    (∀ i ∈ U, ∃ p, vget db i = ok p) → (∀ i ∈ U, i ∉ t.indices) → Runs (octreeSearch add worst db q t s) (SearchPost add worst db q τ s0 t U) := by
  intro t
  induction t with
  | null =>
    intro _ U s hs nd _ _
    rw [octreeSearch]
    exact Runs.ok ⟨[], by simpa using hs, by simpa using nd, by simp, by simp [Octant.indices], by simp⟩
  | node c e idx leaf ch ih =>
    intro hT U s hs nd hval hdis
    obtain ⟨hne, hnd, hbox, hreg, hin⟩ := hT
    rw [octreeSearch]
    have final : ∀ V s', addAll add db q s0 (U ++ V) = ok s' → (∀ i ∈ idx, Settled add worst db q τ s0 (U ++ V) i) → octInside q (worst s') c e = true →
        ∀ i p, vget db i = ok p → Settled add worst db q τ s0 (U ++ V) i := by
      intro V s' h1 h2 h3 i p hp
      by_cases hn : Near τ (q.distance p) (worst s')
      · exact h2 i (hreg i p hp (inside_near ht h3 hn))
      · exact Or.inr ⟨p, U ++ V, s', hp, List.prefix_rfl, h1, hn⟩
    cases leaf with
    | true =>
      rw [if_pos ⟨rfl, hne⟩]
      have nd' : (U ++ idx).Nodup := List.Nodup.append nd hnd (fun i hi hj => hdis i hi hj)
      obtain ⟨s', hs'⟩ := hadd (U ++ idx) nd' (fun i hi => by
        rcases List.mem_append.mp hi with hi | hi
        · exact hval i hi
        · obtain ⟨p, hp, _⟩ := hbox i hi; exact ⟨p, hp⟩)
      have e1 := hs'
      rw [addAll_append, hs, ok_bind] at e1
      rw [e1, ok_bind]
      have hset : ∀ i ∈ idx, Settled add worst db q τ s0 (U ++ idx) i := fun i hi => Or.inl (by simp [hi])
      exact Runs.ok ⟨idx, hs', nd', fun i hi => hi, hset, fun h => final idx s' hs' hset h⟩
    | false =>
      rw [if_neg (by simp)]
      obtain ⟨hcov, hsub, hdj, hch⟩ := hin rfl
      dsimp only
      set m := mortonCode q c with hm
      have hvalc : ∀ k, ∀ i ∈ (ch k).indices, ∃ p, vget db i = ok p := fun k i hi => by
        obtain ⟨p, hp, _⟩ := hbox i (hsub k i hi); exact ⟨p, hp⟩
      refine Runs.bind (ih m (hch m) U s hs nd hval (fun i hi hi' => hdis i hi (hsub m i hi'))) ?_
      rintro ⟨b, s1⟩ ⟨V, e1, nd1, hV, hset, htr⟩
      dsimp only at *
      have hV' : ∀ i ∈ U ++ V, ∃ p, vget db i = ok p := fun i hi => by
        rcases List.mem_append.mp hi with hi | hi
        · exact hval i hi
        · exact hvalc m i (hV i hi)
      cases b with
      | true =>
        rw [if_pos rfl]
        refine Runs.ok ⟨V, e1, nd1, fun i hi => hsub m i (hV i hi), fun i hi => ?_, htr⟩
        obtain ⟨p, hp, _⟩ := hbox i hi
        exact htr rfl i p hp
      | false =>
        rw [if_neg (by simp)]
        have hl := loop_run (add := add) (worst := worst) (q := q) (s0 := s0) ht hch hdj (skip := fun k => k = m ∨ (ch k).isNull = true)
          (srch := fun t s => octreeSearch add worst db q t s) (U0 := U) (fun k i hi hu => hdis i hu (hsub k i hi)) hval hvalc
          (fun k U' s' h1 h2 h3 h4 => ih k (hch k) U' s' h1 h2 h3 h4)
          (List.finRange 8) [m] (List.nodup_finRange 8)
          (fun k _ h => by
            rcases h with h | h
            · exact Or.inl (by simp [h])
            · exact Or.inr (isNull_indices h))
          (fun k _ h => by
            rw [not_or] at h
            simp [h.1])
          (false, s1) ⟨V, e1, nd1, fun i hi => ⟨m, by simp, hV i hi⟩, fun _ k hk i hi => by
            rw [List.mem_singleton] at hk; subst hk; exact hset i hi, fun h => by simp at h⟩
        refine Runs.bind hl ?_
        rintro ⟨b2, s2⟩ ⟨V2, e2, nd2, hV2, hf2, htr2⟩
        dsimp only at *
        have hsub2 : ∀ i ∈ V2, i ∈ idx := fun i hi => by
          obtain ⟨k, _, hk⟩ := hV2 i hi
          exact hsub k i hk
        cases b2 with
        | true =>
          rw [if_pos rfl]
          refine Runs.ok ⟨V2, e2, nd2, hsub2, fun i hi => ?_, htr2⟩
          obtain ⟨p, hp, _⟩ := hbox i hi
          exact htr2 rfl i p hp
        | false =>
          rw [if_neg (by simp)]
          have hset2 : ∀ i ∈ idx, Settled add worst db q τ s0 (U ++ V2) i := fun i hi => by
            obtain ⟨k, hk⟩ := hcov i hi
            exact hf2 rfl k (by simp) i hk
          exact Runs.ok ⟨V2, e2, nd2, hsub2, hset2, fun h => final V2 s2 e2 hset2 h⟩

/-- `OctreeRadiusSearchFast` -/
theorem searchFast_run {s0 : S} (ht : 0 ≤ τ) (hadd : AddsOK add db q s0) : ∀ (t : Octant), TreeOK db τ t → ∀ U s, addAll add db q s0 U = ok s → U.Nodup →
    (∀ i ∈ U, ∃ p, vget db i = ok p) → (∀ i ∈ U, i ∉ t.indices) → Runs (octreeSearchFast add worst db q t s) (SearchPost add worst db q τ s0 t U) := by
  intro t
  induction t with
  | null =>
    intro _ U s hs nd _ _
    rw [octreeSearchFast]
    exact Runs.ok ⟨[], by simpa using hs, by simpa using nd, by simp, by simp [Octant.indices], by simp⟩
  | node c e idx leaf ch ih =>
    intro hT U s hs nd hval hdis
    obtain ⟨hne, hnd, hbox, hreg, hin⟩ := hT
    rw [octreeSearchFast]
    have final : ∀ V s', addAll add db q s0 (U ++ V) = ok s' → (∀ i ∈ idx, Settled add worst db q τ s0 (U ++ V) i) → octInside q (worst s') c e = true →
        ∀ i p, vget db i = ok p → Settled add worst db q τ s0 (U ++ V) i := by
      intro V s' h1 h2 h3 i p hp
      by_cases hn : Near τ (q.distance p) (worst s')
      · exact h2 i (hreg i p hp (inside_near ht h3 hn))
      · exact Or.inr ⟨p, U ++ V, s', hp, List.prefix_rfl, h1, hn⟩
    have nd' : (U ++ idx).Nodup := List.Nodup.append nd hnd (fun i hi hj => hdis i hi hj)
    obtain ⟨s', hs'⟩ := hadd (U ++ idx) nd' (fun i hi => by
      rcases List.mem_append.mp hi with hi | hi
      · exact hval i hi
      · obtain ⟨p, hp, _⟩ := hbox i hi; exact ⟨p, hp⟩)
    have e1 := hs'
    rw [addAll_append, hs, ok_bind] at e1
    have hset : ∀ i ∈ idx, Settled add worst db q τ s0 (U ++ idx) i := fun i hi => Or.inl (by simp [hi])
    by_cases hc : octContains q (worst s) c e = true
    · rw [if_pos hc, e1, ok_bind]
      exact Runs.ok ⟨idx, hs', nd', fun i hi => hi, hset, fun h => by simp at h⟩
    rw [if_neg hc]
    cases leaf with
    | true =>
      rw [if_pos ⟨rfl, hne⟩, e1, ok_bind]
      exact Runs.ok ⟨idx, hs', nd', fun i hi => hi, hset, fun h => final idx s' hs' hset h⟩
    | false =>
      rw [if_neg (by simp)]
      obtain ⟨hcov, hsub, hdj, hch⟩ := hin rfl
      have hvalc : ∀ k, ∀ i ∈ (ch k).indices, ∃ p, vget db i = ok p := fun k i hi => by
        obtain ⟨p, hp, _⟩ := hbox i (hsub k i hi); exact ⟨p, hp⟩
      have hl := loop_run (add := add) (worst := worst) (q := q) (s0 := s0) ht hch hdj (skip := fun k => (ch k).isNull = true)
        (srch := fun t s => octreeSearchFast add worst db q t s) (U0 := U) (fun k i hi hu => hdis i hu (hsub k i hi)) hval hvalc
        (fun k U' s' h1 h2 h3 h4 => ih k (hch k) U' s' h1 h2 h3 h4)
        (List.finRange 8) [] (List.nodup_finRange 8) (fun k _ h => Or.inr (isNull_indices h)) (by simp)
        (false, s) ⟨[], by simpa using hs, by simpa using nd, by simp, by simp, fun h => by simp at h⟩
      refine Runs.bind hl ?_
      rintro ⟨b2, s2⟩ ⟨V2, e2, nd2, hV2, hf2, htr2⟩
      dsimp only at *
      have hsub2 : ∀ i ∈ V2, i ∈ idx := fun i hi => by
        obtain ⟨k, _, hk⟩ := hV2 i hi
        exact hsub k i hk
      cases b2 with
      | true =>
        rw [if_pos rfl]
        refine Runs.ok ⟨V2, e2, nd2, hsub2, fun i hi => ?_, htr2⟩
        obtain ⟨p, hp, _⟩ := hbox i hi
        exact htr2 rfl i p hp
      | false =>
        rw [if_neg (by simp)]
        have hset2 : ∀ i ∈ idx, Settled add worst db q τ s0 (U ++ V2) i := fun i hi => by
          obtain ⟨k, hk⟩ := hcov i hi
          exact hf2 rfl k (by simp) i hk
        exact Runs.ok ⟨V2, e2, nd2, hsub2, hset2, fun h => final V2 s2 e2 hset2 h⟩

end search

/-! ## Construction -/

/-- every coordinate is at most `M` in absolute value -/
def CoordLe (M : ℝ) (p : XYZ ℝ) : Prop := |p.x| ≤ M ∧ |p.y| ≤ M ∧ |p.z| ≤ M

theorem morton_bits (p c : XYZ ℝ) : (mortonCode p c).val.testBit 0 = isGreaterThan p.x c.x ∧ (mortonCode p c).val.testBit 1 = isGreaterThan p.y c.y ∧
    (mortonCode p c).val.testBit 2 = isGreaterThan p.z c.z := by
  unfold mortonCode
  cases isGreaterThan p.x c.x <;> cases isGreaterThan p.y c.y <;> cases isGreaterThan p.z c.z <;> decide

theorem bits_inj : ∀ i j : Fin 8, i.val.testBit 0 = j.val.testBit 0 → i.val.testBit 1 = j.val.testBit 1 → i.val.testBit 2 = j.val.testBit 2 → i = j := by decide

/-- the Morton code of the point with index `i` -/
noncomputable def codeOf (db : List (XYZ ℝ)) (c : XYZ ℝ) (i : ℤ) : Fin 8 := mortonCode (nth db i.toNat) c

theorem vget_nth' {db : List (XYZ ℝ)} {i : ℤ} {p : XYZ ℝ} (h : vget db i = ok p) : nth db i.toNat = p := by
  unfold vget at h
  split at h
  · split at h
    · next e => cases h; rw [nth_eq_getElem (List.getElem?_eq_some_iff.mp e).1]; exact (List.getElem?_eq_some_iff.mp e).2
    · cases h
  · cases h

theorem distribute_run {db : List (XYZ ℝ)} {c : XYZ ℝ} {idx : List ℤ} (hv : ∀ i ∈ idx, ∃ p, vget db i = ok p) :
    distribute db c idx = ok (fun k => idx.filter fun i => decide (codeOf db c i = k)) := by
  have key : ∀ (l : List ℤ) (b : Fin 8 → List ℤ), (∀ i ∈ l, ∃ p, vget db i = ok p) → l.foldlM (fun b i => do
      let p ← vget db i
      ok (Function.update b (mortonCode p c) (b (mortonCode p c) ++ [i]))) b = ok (fun k => b k ++ l.filter fun i => decide (codeOf db c i = k)) := by
    intro l
    induction l with
    | nil => intro b _; simp
    | cons i l ih =>
      intro b hl
      obtain ⟨p, hp⟩ := hl i (by simp)
      rw [List.foldlM_cons, hp, ok_bind, ok_bind, ih _ (fun j hj => hl j (by simp [hj]))]
      refine congrArg Res.ok (funext fun k => ?_)
      have hc : codeOf db c i = mortonCode p c := by unfold codeOf; rw [vget_nth' hp]
      by_cases hk : mortonCode p c = k
      · subst hk
        rw [Function.update_self, List.filter_cons_of_pos (by simp [hc])]
        simp
      · rw [Function.update_of_ne (Ne.symm hk), List.filter_cons_of_neg (by simp [hc, hk])]
  unfold distribute
  rw [key idx _ hv]
  simp

theorem children_ok {f : Fin 8 → Res Octant} : ∀ (l : List (Fin 8)) (ch0 ch : Fin 8 → Octant), l.Nodup → l.foldlM (fun ch i => do
      let c ← f i
      ok (Function.update ch i c)) ch0 = ok ch → (∀ i ∈ l, f i = ok (ch i)) ∧ ∀ i, i ∉ l → ch i = ch0 i := by
  intro l
  induction l with
  | nil => intro ch0 ch _ h; cases h; simp
  | cons k l ih =>
    intro ch0 ch hnd h
    rw [List.nodup_cons] at hnd
    rw [List.foldlM_cons, bind_eq_ok] at h
    obtain ⟨ch1, h1, h2⟩ := h
    rw [bind_eq_ok] at h1
    obtain ⟨c, h3, h4⟩ := h1
    cases h4
    obtain ⟨g1, g2⟩ := ih _ _ hnd.2 h2
    refine ⟨fun i hi => ?_, fun i hi => ?_⟩
    · rcases List.mem_cons.mp hi with rfl | hi
      · rw [g2 i hnd.1, Function.update_self]; exact h3
      · exact g1 i hi
    · rw [List.mem_cons, not_or] at hi
      rw [g2 i hi.2, Function.update_of_ne hi.1]

theorem children_run {f : Fin 8 → Res Octant} : ∀ (l : List (Fin 8)) (ch0 : Fin 8 → Octant), (∀ i, ∃ c, f i = ok c) → ∃ ch, l.foldlM (fun ch i => do
      let c ← f i
      ok (Function.update ch i c)) ch0 = ok ch := by
  intro l
  induction l with
  | nil => intro ch0 _; exact ⟨ch0, rfl⟩
  | cons k l ih =>
    intro ch0 h
    obtain ⟨c, hc⟩ := h k
    obtain ⟨ch, hch⟩ := ih (Function.update ch0 k c) h
    exact ⟨ch, by rw [List.foldlM_cons, hc, ok_bind, ok_bind]; exact hch⟩

section axis
variable {M τ p c e : ℝ}

theorem tol_le (hp : |p| ≤ M) (hc : |c| ≤ M) : tolOf p c doubleEps ≤ 1 / 1000000 * (1 + M) := by
  have e1 : (doubleEps : ℝ) = 1 / 1000000 := rfl
  unfold tolOf
  rw [e1]
  have := max_le hp hc
  linarith

theorem tol_pos : 0 < tolOf p c doubleEps := by
  have e1 : (doubleEps : ℝ) = 1 / 1000000 := rfl
  unfold tolOf
  rw [e1]
  have := (abs_nonneg p).trans (le_max_left _ |c|)
  linarith

theorem axis_box (hτ : 1 / 1000000 * (1 + M) < τ) (hp : |p| ≤ M) (hc : |c| ≤ M) {b : Bool} (hb : b = isGreaterThan p c) (h : |p - c| ≤ e + τ) :
    |p - (c + (if b then 1 / 2 else -(1 / 2)) * e)| ≤ 1 / 2 * e + τ := by
  have h1 := tol_le hp hc
  have h2 := tol_pos (p := p) (c := c)
  obtain ⟨a1, a2⟩ := abs_le.mp h
  subst hb
  unfold isGreaterThan
  by_cases g : p - c > tolOf p c doubleEps
  · simp only [g, decide_true, if_true]
    rw [abs_le]
    constructor <;> linarith
  · simp only [g, decide_false, Bool.false_eq_true, if_false]
    rw [abs_le]
    constructor <;> linarith

theorem axis_region (hτ : 1 / 1000000 * (1 + M) < τ) (hp : |p| ≤ M) (hc : |c| ≤ M) {b : Bool} (h : |p - (c + (if b then 1 / 2 else -(1 / 2)) * e)| ≤ 1 / 2 * e - τ) :
    b = isGreaterThan p c ∧ |p - c| ≤ e - τ := by
  have h1 := tol_le hp hc
  have h2 := tol_pos (p := p) (c := c)
  obtain ⟨a1, a2⟩ := abs_le.mp h
  unfold isGreaterThan
  cases b with
  | true =>
    simp only [if_true] at a1 a2
    refine ⟨?_, ?_⟩
    · symm; rw [decide_eq_true_eq]; linarith
    · rw [abs_le]; constructor <;> linarith
  | false =>
    simp only [Bool.false_eq_true, if_false] at a1 a2
    refine ⟨?_, ?_⟩
    · symm; rw [decide_eq_false_iff_not]; linarith
    · rw [abs_le]; constructor <;> linarith

theorem axis_center (he : 0 ≤ e) (h : |c| + e ≤ M) (b : Bool) : |c + (if b then 1 / 2 else -(1 / 2)) * e| + 1 / 2 * e ≤ M := by
  have : |c + (if b then 1 / 2 else -(1 / 2)) * e| ≤ |c| + |(if b then 1 / 2 else -(1 / 2)) * e| := abs_add_le _ _
  have h2 : |(if b then 1 / 2 else -(1 / 2) : ℝ) * e| = 1 / 2 * e := by
    rw [abs_mul, abs_of_nonneg he]
    cases b <;> norm_num
  linarith

end axis

/-- the octant with centre `c` and half width `e` stays within `M` -/
def CubeLe (M : ℝ) (c : XYZ ℝ) (e : ℝ) : Prop := |c.x| + e ≤ M ∧ |c.y| + e ≤ M ∧ |c.z| + e ≤ M

theorem build_tree {db : List (XYZ ℝ)} {M τ minExtent : ℝ} {leafSize : ℤ} (hτ : 1 / 1000000 * (1 + M) < τ) (hdb : ∀ p ∈ db, CoordLe M p) :
    ∀ (fuel : ℕ) (c : XYZ ℝ) (e : ℝ) (idx : List ℤ) (t : Octant), octreeBuild db leafSize minExtent fuel c e idx = ok t → 0 ≤ e → CubeLe M c e → idx.Nodup →
      (∀ i ∈ idx, ∃ p, vget db i = ok p ∧ InCube p c (e + τ)) → (∀ i p, vget db i = ok p → InCube p c (e - τ) → i ∈ idx) → TreeOK db τ t ∧ t.indices = idx := by
  have hmem : ∀ {i p}, vget db i = ok p → p ∈ db := by
    intro i p h
    unfold vget at h
    split at h
    · split at h
      · next e => cases h; exact List.mem_of_getElem? e
      · cases h
    · cases h
  intro fuel
  induction fuel with
  | zero =>
    intro c e idx t h he hM hnd hbox hreg
    rw [octreeBuild] at h
    split at h
    · next h0 => cases h; exact ⟨trivial, by simp [Octant.indices, h0]⟩
    · next h0 =>
      split at h
      · cases h; exact ⟨⟨h0, hnd, hbox, hreg, by simp⟩, rfl⟩
      · cases h
  | succ fuel ih =>
    intro c e idx t h he hM hnd hbox hreg
    rw [octreeBuild] at h
    split at h
    · next h0 => cases h; exact ⟨trivial, by simp [Octant.indices, h0]⟩
    · next h0 =>
      split at h
      · cases h; exact ⟨⟨h0, hnd, hbox, hreg, by simp⟩, rfl⟩
      · rw [distribute_run (fun i hi => by obtain ⟨p, hp, _⟩ := hbox i hi; exact ⟨p, hp⟩), ok_bind, bind_eq_ok] at h
        obtain ⟨ch, h1, h2⟩ := h
        cases h2
        obtain ⟨hch, -⟩ := children_ok _ _ _ (List.nodup_finRange 8) h1
        have habs : |c.x| ≤ M ∧ |c.y| ≤ M ∧ |c.z| ≤ M := ⟨by linarith [hM.1], by linarith [hM.2.1], by linarith [hM.2.2]⟩
        have sub : ∀ k, TreeOK db τ (ch k) ∧ (ch k).indices = idx.filter fun i => decide (codeOf db c i = k) := by
          intro k
          refine ih _ _ _ _ (hch k (by simp)) (by linarith) ⟨axis_center he hM.1 _, axis_center he hM.2.1 _, axis_center he hM.2.2 _⟩ (hnd.filter _) ?_ ?_
          · intro i hi
            rw [List.mem_filter, decide_eq_true_eq] at hi
            obtain ⟨p, hp, bx, byy, bz⟩ := hbox i hi.1
            have hk : mortonCode p c = k := by rw [← hi.2, codeOf, vget_nth' hp]
            obtain ⟨m0, m1, m2⟩ := morton_bits p c
            rw [hk] at m0 m1 m2
            obtain ⟨px, py, pz⟩ := hdb p (hmem hp)
            exact ⟨p, hp, axis_box hτ px habs.1 m0 bx, axis_box hτ py habs.2.1 m1 byy, axis_box hτ pz habs.2.2 m2 bz⟩
          · intro i p hp hcube
            obtain ⟨px, py, pz⟩ := hdb p (hmem hp)
            obtain ⟨x1, x2⟩ := axis_region hτ px habs.1 hcube.1
            obtain ⟨y1, y2⟩ := axis_region hτ py habs.2.1 hcube.2.1
            obtain ⟨z1, z2⟩ := axis_region hτ pz habs.2.2 hcube.2.2
            rw [List.mem_filter, decide_eq_true_eq, codeOf, vget_nth' hp]
            refine ⟨hreg i p hp ⟨x2, y2, z2⟩, ?_⟩
            obtain ⟨m0, m1, m2⟩ := morton_bits p c
            exact bits_inj _ _ (m0.trans x1.symm) (m1.trans y1.symm) (m2.trans z1.symm)
        refine ⟨⟨h0, hnd, hbox, hreg, fun _ => ⟨?_, ?_, ?_, fun k => (sub k).1⟩⟩, rfl⟩
        · intro i hi
          exact ⟨codeOf db c i, by rw [(sub _).2, List.mem_filter]; exact ⟨hi, by simp⟩⟩
        · intro k i hi
          rw [(sub k).2] at hi
          exact (List.mem_filter.mp hi).1
        · intro k l i hk hl
          rw [(sub k).2, List.mem_filter, decide_eq_true_eq] at hk
          rw [(sub l).2, List.mem_filter, decide_eq_true_eq] at hl
          exact hk.2.symm.trans hl.2

/-- enough fuel exists -/
theorem build_terminates {db : List (XYZ ℝ)} {minExtent : ℝ} {leafSize : ℤ} : ∀ (fuel : ℕ) (c : XYZ ℝ) (e : ℝ) (idx : List ℤ),
    (∀ i ∈ idx, ∃ p, vget db i = ok p) → e ≤ minExtent * 2 ^ fuel → ∃ t, octreeBuild db leafSize minExtent fuel c e idx = ok t := by
  intro fuel
  induction fuel with
  | zero =>
    intro c e idx hv he
    rw [octreeBuild]
    split
    · exact ⟨_, rfl⟩
    · rw [if_pos (Or.inr (by simpa using he))]
      exact ⟨_, rfl⟩
  | succ fuel ih =>
    intro c e idx hv he
    rw [octreeBuild]
    split
    · exact ⟨_, rfl⟩
    · split
      · exact ⟨_, rfl⟩
      · rw [distribute_run hv, ok_bind]
        obtain ⟨ch, hch⟩ := children_run (f := fun i => octreeBuild db leafSize minExtent fuel (childCenter c e i) (1 / 2 * e) (idx.filter fun j => decide (codeOf db c j = i)))
          (List.finRange 8) (fun _ => Octant.null) (fun i => ih _ _ _ (fun j hj => hv j (List.mem_filter.mp hj).1) (by rw [pow_succ] at he; linarith))
        rw [hch, ok_bind]
        exact ⟨_, rfl⟩

/-! ## Bounds -/

/-- running minimum and maximum of one coordinate over the points `ps` -/
def AxisOK (R : ℝ) (ps : List ℝ) (mn mx : ℝ) : Prop :=
  |mn| ≤ R ∧ |mx| ≤ R ∧ mn ≤ mx ∧ ∀ p ∈ ps, mn - 1 / 1000000 * (1 + R) ≤ p ∧ p ≤ mx + 1 / 1000000 * (1 + R)

theorem axis_first {R p : ℝ} (hR : R ≤ 10 ^ 300) (hp : |p| ≤ R) :
    AxisOK R [p] (if isLessThan p dblMax then p else dblMax) (if isGreaterThan p (-dblMax) then p else -dblMax) := by
  have e1 : (doubleEps : ℝ) = 1 / 1000000 := rfl
  have hp' := abs_le.mp hp
  have hR0 : 0 ≤ R := (abs_nonneg p).trans hp
  have hD : (10 : ℝ) ^ 301 < dblMax := by
    unfold dblMax
    have : (10 : ℕ) ^ 301 < (2 ^ 53 - 1) * 2 ^ 971 := by decide +kernel
    have h2 : ((10 ^ 301 : ℕ) : ℝ) < (((2 ^ 53 - 1) * 2 ^ 971 : ℕ) : ℝ) := Nat.cast_lt.mpr this
    rw [Nat.cast_mul, Nat.cast_sub (by norm_num)] at h2
    simpa only [Nat.cast_pow, Nat.cast_ofNat, Nat.cast_one] using h2
  have h300 : (10 : ℝ) ^ 301 = 10 * 10 ^ 300 := pow_succ' 10 300
  have h1 : (1 : ℝ) ≤ 10 ^ 300 := one_le_pow₀ (by norm_num)
  generalize (10 : ℝ) ^ 301 = A at *
  generalize (10 : ℝ) ^ 300 = B at *
  have l1 : isLessThan p dblMax = true := by
    unfold isLessThan tolOf
    rw [decide_eq_true_eq, e1, abs_of_pos (show (0 : ℝ) < dblMax by linarith), max_eq_right (by linarith)]
    linarith [hp'.2]
  have l2 : isGreaterThan p (-dblMax) = true := by
    unfold isGreaterThan tolOf
    rw [decide_eq_true_eq, e1, abs_neg, abs_of_pos (show (0 : ℝ) < dblMax by linarith), max_eq_right (by linarith)]
    linarith [hp'.1]
  rw [if_pos l1, if_pos l2]
  refine ⟨hp, hp, le_refl _, fun x hx => ?_⟩
  rw [List.mem_singleton] at hx
  subst hx
  constructor <;> linarith

theorem axis_step {R p mn mx : ℝ} {ps : List ℝ} (hp : |p| ≤ R) (h : AxisOK R ps mn mx) :
    AxisOK R (ps ++ [p]) (if isLessThan p mn then p else mn) (if isGreaterThan p mx then p else mx) := by
  have e1 : (doubleEps : ℝ) = 1 / 1000000 := rfl
  obtain ⟨h1, h2, h3, h4⟩ := h
  have t1 := tol_le hp h1
  have t2 := tol_le hp h2
  have t3 := tol_pos (p := p) (c := mn)
  have t4 := tol_pos (p := p) (c := mx)
  have a : (if isLessThan p mn then p else mn) ≤ mn ∧ |if isLessThan p mn then p else mn| ≤ R ∧ (if isLessThan p mn then p else mn) - 1 / 1000000 * (1 + R) ≤ p ∧
      (if isLessThan p mn then p else mn) ≤ mn := by
    unfold isLessThan
    by_cases g : mn - p > tolOf p mn doubleEps
    · simp only [g, decide_true, if_true]
      exact ⟨by linarith, hp, by linarith, by linarith⟩
    · simp only [g, decide_false, Bool.false_eq_true, if_false]
      exact ⟨le_refl _, h1, by linarith, le_refl _⟩
  have b : mx ≤ (if isGreaterThan p mx then p else mx) ∧ |if isGreaterThan p mx then p else mx| ≤ R ∧ p ≤ (if isGreaterThan p mx then p else mx) + 1 / 1000000 * (1 + R) := by
    unfold isGreaterThan
    by_cases g : p - mx > tolOf p mx doubleEps
    · simp only [g, decide_true, if_true]
      exact ⟨by linarith, hp, by linarith⟩
    · simp only [g, decide_false, Bool.false_eq_true, if_false]
      exact ⟨le_refl _, h2, by linarith⟩
  refine ⟨a.2.1, b.2.1, by linarith [a.1, b.1], fun x hx => ?_⟩
  rcases List.mem_append.mp hx with hx | hx
  · have := h4 x hx
    constructor <;> linarith [a.1, b.1]
  · rw [List.mem_singleton] at hx
    subst hx
    exact ⟨a.2.2.1, b.2.2⟩

/-- the computed bounds enclose the points up to the tolerance -/
theorem bounds_ok {R : ℝ} (hR : R ≤ 10 ^ 300) {db : List (XYZ ℝ)} (hne : db ≠ []) (hdb : ∀ p ∈ db, CoordLe R p) :
    AxisOK R (db.map XYZ.x) (octreeBounds db).1.x (octreeBounds db).2.x ∧ AxisOK R (db.map XYZ.y) (octreeBounds db).1.y (octreeBounds db).2.y ∧
      AxisOK R (db.map XYZ.z) (octreeBounds db).1.z (octreeBounds db).2.z := by
  have key : ∀ (l ps : List (XYZ ℝ)) (st : XYZ ℝ × XYZ ℝ), (∀ p ∈ l, CoordLe R p) → AxisOK R (ps.map XYZ.x) st.1.x st.2.x ∧ AxisOK R (ps.map XYZ.y) st.1.y st.2.y ∧
      AxisOK R (ps.map XYZ.z) st.1.z st.2.z → ∀ r, r = l.foldl (fun (st : XYZ ℝ × XYZ ℝ) p =>
    ((⟨if isLessThan p.x st.1.x then p.x else st.1.x, if isLessThan p.y st.1.y then p.y else st.1.y, if isLessThan p.z st.1.z then p.z else st.1.z⟩ : XYZ ℝ),
     (⟨if isGreaterThan p.x st.2.x then p.x else st.2.x, if isGreaterThan p.y st.2.y then p.y else st.2.y, if isGreaterThan p.z st.2.z then p.z else st.2.z⟩ : XYZ ℝ))) st →
      AxisOK R ((ps ++ l).map XYZ.x) r.1.x r.2.x ∧ AxisOK R ((ps ++ l).map XYZ.y) r.1.y r.2.y ∧ AxisOK R ((ps ++ l).map XYZ.z) r.1.z r.2.z := by
    intro l
    induction l with
    | nil => rintro ps st _ h r rfl; simpa using h
    | cons p l ih =>
      rintro ps st hl ⟨hx, hy, hz⟩ r rfl
      obtain ⟨px, py, pz⟩ := hl p (by simp)
      rw [List.foldl_cons]
      have := ih (ps ++ [p]) (⟨if isLessThan p.x st.1.x then p.x else st.1.x, if isLessThan p.y st.1.y then p.y else st.1.y, if isLessThan p.z st.1.z then p.z else st.1.z⟩,
        ⟨if isGreaterThan p.x st.2.x then p.x else st.2.x, if isGreaterThan p.y st.2.y then p.y else st.2.y, if isGreaterThan p.z st.2.z then p.z else st.2.z⟩)
        (fun q hq => hl q (by simp [hq])) (by
        simp only [List.map_append, List.map_cons, List.map_nil]
        exact ⟨axis_step px hx, axis_step py hy, axis_step pz hz⟩) _ rfl
      simpa using this
  obtain ⟨p, l, rfl⟩ := List.exists_cons_of_ne_nil hne
  obtain ⟨px, py, pz⟩ := hdb p (by simp)
  have := key l [p] (⟨if isLessThan p.x dblMax then p.x else dblMax, if isLessThan p.y dblMax then p.y else dblMax, if isLessThan p.z dblMax then p.z else dblMax⟩,
     ⟨if isGreaterThan p.x (-dblMax) then p.x else -dblMax, if isGreaterThan p.y (-dblMax) then p.y else -dblMax, if isGreaterThan p.z (-dblMax) then p.z else -dblMax⟩)
    (fun q hq => hdb q (by simp [hq])) ⟨axis_first hR px, axis_first hR py, axis_first hR pz⟩ (octreeBounds (p :: l)) (by unfold octreeBounds; rw [List.foldl_cons])
  simpa using this

theorem root_axis {R mn mx e x : ℝ} {ps : List ℝ} (h : AxisOK R ps mn mx) (he0 : mx - mn ≤ 2 * e) (he1 : e ≤ R) (he : 0 ≤ e) :
    |mn + e| + e ≤ 3 * R ∧ (x ∈ ps → |x - (mn + e)| ≤ e + 1 / 1000000 * (1 + R)) := by
  obtain ⟨h1, h2, h3, h4⟩ := h
  have h1' := abs_le.mp h1
  refine ⟨?_, fun hx => ?_⟩
  · have : |mn + e| ≤ 3 * R - e := by rw [abs_le]; constructor <;> linarith
    linarith
  · obtain ⟨a, b⟩ := h4 x hx
    rw [abs_le]; constructor <;> linarith

/-- facts about the arguments of the first recursive call -/
theorem root_facts {R : ℝ} (hR : R ≤ 10 ^ 300) {db : List (XYZ ℝ)} (hne : db ≠ []) (hdb : ∀ p ∈ db, CoordLe R p) :
    ∃ (c : XYZ ℝ) (e : ℝ), 0 ≤ e ∧ e ≤ R ∧ (∀ fuel leafSize minExtent, octreeConstruction fuel db leafSize minExtent =
      octreeBuild db leafSize minExtent fuel c e ((List.range db.length).map Int.ofNat)) ∧ CubeLe (3 * R) c e ∧ ∀ p ∈ db, InCube p c (e + 1 / 1000000 * (1 + R)) := by
  obtain ⟨bx, byy, bz⟩ := bounds_ok hR hne hdb
  set mn := (octreeBounds db).1 with hmn
  set mx := (octreeBounds db).2 with hmx
  set e := max (max (mx.x - mn.x) (mx.y - mn.y)) (mx.z - mn.z) * (1 / 2) with he
  have ex : mx.x - mn.x ≤ 2 * e := by
    have : mx.x - mn.x ≤ max (max (mx.x - mn.x) (mx.y - mn.y)) (mx.z - mn.z) := (le_max_left _ _).trans (le_max_left _ _)
    linarith
  have ey : mx.y - mn.y ≤ 2 * e := by
    have : mx.y - mn.y ≤ max (max (mx.x - mn.x) (mx.y - mn.y)) (mx.z - mn.z) := (le_max_right _ _).trans (le_max_left _ _)
    linarith
  have ez : mx.z - mn.z ≤ 2 * e := by
    have : mx.z - mn.z ≤ max (max (mx.x - mn.x) (mx.y - mn.y)) (mx.z - mn.z) := le_max_right _ _
    linarith
  have e0 : 0 ≤ e := by linarith [bx.2.2.1]
  have d1 : ∀ a b : ℝ, |a| ≤ R → |b| ≤ R → a - b ≤ 2 * R := fun a b ha hb => by linarith [(abs_le.mp ha).2, (abs_le.mp hb).1]
  have e1 : e ≤ R := by
    have : max (max (mx.x - mn.x) (mx.y - mn.y)) (mx.z - mn.z) ≤ 2 * R :=
      max_le (max_le (d1 _ _ bx.2.1 bx.1) (d1 _ _ byy.2.1 byy.1)) (d1 _ _ bz.2.1 bz.1)
    linarith
  refine ⟨⟨mn.x + e, mn.y + e, mn.z + e⟩, e, e0, e1, fun fuel ls me => ?_, ?_, fun p hp => ?_⟩
  · unfold octreeConstruction
    rw [if_neg hne]
  · exact ⟨(root_axis (x := 0) bx ex e1 e0).1, (root_axis (x := 0) byy ey e1 e0).1, (root_axis (x := 0) bz ez e1 e0).1⟩
  · exact ⟨(root_axis bx ex e1 e0).2 (List.mem_map_of_mem hp), (root_axis byy ey e1 e0).2 (List.mem_map_of_mem hp), (root_axis bz ez e1 e0).2 (List.mem_map_of_mem hp)⟩

theorem vget_valid {db : List (XYZ ℝ)} {i : ℤ} : (∃ p, vget db i = ok p) ↔ i ∈ (List.range db.length).map Int.ofNat := by
  rw [List.mem_map]
  constructor
  · rintro ⟨p, h⟩
    unfold vget at h
    split at h
    · next h0 =>
      split at h
      · next e => exact ⟨i.toNat, by simpa using (List.getElem?_eq_some_iff.mp e).1, by simpa using Int.toNat_of_nonneg h0⟩
      · cases h
    · cases h
  · rintro ⟨j, hj, rfl⟩
    rw [List.mem_range] at hj
    exact ⟨_, vget_of (k := j) rfl (List.getElem?_eq_getElem hj)⟩

/-- the tree of a construction satisfies the invariant -/
theorem construction_tree {R : ℝ} (hR : R ≤ 10 ^ 300) {db : List (XYZ ℝ)} (hdb : ∀ p ∈ db, CoordLe R p) {fuel : ℕ} {leafSize : ℤ} {minExtent : ℝ} {t : Octant}
    (h : octreeConstruction fuel db leafSize minExtent = ok t) : TreeOK db (1 / 1000000 * (2 + 3 * R)) t ∧ t.indices = (List.range db.length).map Int.ofNat := by
  by_cases hne : db = []
  · subst hne
    unfold octreeConstruction at h
    rw [if_pos rfl] at h
    cases h
    exact ⟨trivial, rfl⟩
  · obtain ⟨c, e, e0, e1, hc, hcube, hbox⟩ := root_facts hR hne hdb
    rw [hc] at h
    have hR0 : 0 ≤ R := e0.trans e1
    refine build_tree (M := 3 * R) (by linarith) (fun p hp => ?_) fuel c e _ t h e0 hcube ?_ ?_ ?_
    · obtain ⟨a, b, c⟩ := hdb p hp
      exact ⟨by linarith, by linarith, by linarith⟩
    · exact List.Nodup.map Int.ofNat_injective List.nodup_range
    · intro i hi
      obtain ⟨p, hp⟩ := vget_valid.mpr hi
      refine ⟨p, hp, ?_⟩
      have hpm : p ∈ db := by
        unfold vget at hp
        split at hp
        · split at hp
          · next e => cases hp; exact List.mem_of_getElem? e
          · cases hp
        · cases hp
      obtain ⟨a, b, c⟩ := hbox p hpm
      exact ⟨by linarith, by linarith, by linarith⟩
    · intro i p hp _
      exact vget_valid.mp ⟨p, hp⟩

end LNLib
