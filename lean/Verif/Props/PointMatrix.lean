import Verif.Model.PointMatrix
import Verif.Props.Matrix
import Verif.Props.SurfaceApprox

/-!
# C160: matrices of weighted points
-/
set_option linter.unusedSectionVars false

namespace LNLib.Props
open LNLib Res Spec Finset

/-- The three loops of a product, for entries that are multiplied by `op`. -/
theorem product_run {α β γ : Type} [Zero α] [Zero β] [AddCommMonoid γ] (op : α → β → γ) {a : List (List α)} {b : List (List β)} {m n p : ℕ} (ha : IsMat a m n) (hb : IsMat b n p) :
    (forI 0 (m : ℤ) (List.replicate m (List.replicate p (0 : γ))) fun i result => forI 0 (p : ℤ) result fun j result => forI 0 (n : ℤ) result fun k result =>
      (mget result i j >>= fun old => mget a i k >>= fun x => mget b k j >>= fun y => mset result i j (old + op x y))) =
    ok (tab m p fun i j => ∑ k ∈ range n, op (ent a i k) (ent b k j)) := by
  apply Runs.eq
  set S : ℕ → ℕ → γ := fun i j => ∑ k ∈ range n, op (ent a i k) (ent b k j) with hS
  refine (Runs.forN (m := 0) (n := m) (fun i r => IsMat r m p ∧ ∀ x y, ent r x y = if x < i ∧ y < p then S x y else 0)
    (by simp) rfl (by omega) ⟨isMat_replicate, fun x y => by rw [ent_replicate_zero, if_neg (by omega)]⟩ ?_).mono ?_
  · rintro i r _ hi ⟨hr, hv⟩
    refine (Runs.forN (m := 0) (n := p) (fun j r => IsMat r m p ∧ ∀ x y, ent r x y =
        if (x < i ∧ y < p) ∨ (x = i ∧ y < j) then S x y else 0) (by simp) rfl (by omega) ⟨hr, fun x y => by rw [hv]; congr 1; simp⟩ ?_).mono ?_
    · rintro j r _ hj ⟨hr, hv⟩
      refine (Runs.forN (m := 0) (n := n) (fun k r => IsMat r m p ∧ ∀ x y, ent r x y =
          if (x < i ∧ y < p) ∨ (x = i ∧ y < j) then S x y else if x = i ∧ y = j then ∑ k ∈ range k, op (ent a i k) (ent b k j) else 0)
          (by simp) rfl (by omega) ⟨hr, fun x y => by rw [hv]; simp⟩ ?_).mono ?_
      · rintro k r _ hk ⟨hr, hv⟩
        rw [mget_ent hr rfl rfl hi hj, ok_bind, mget_ent ha rfl rfl hi hk, ok_bind, mget_ent hb rfl rfl hk hj, ok_bind]
        obtain ⟨r', e, hr', hv'⟩ := mset_ok (x := ent r i j + op (ent a i k) (ent b k j)) hr (i := (i : ℤ)) (j := (j : ℤ)) rfl rfl hi hj
        rw [e]
        refine Runs.ok ⟨hr', fun x y => ?_⟩
        rw [hv']
        by_cases h : x = i ∧ y = j
        · rw [if_pos h, if_neg (by omega), if_pos h, hv, if_neg (by omega), if_pos ⟨rfl, rfl⟩, sum_range_succ]
        · rw [if_neg h, if_neg h, hv, if_neg h]
      · rintro r ⟨hr, hv⟩
        refine ⟨hr, fun x y => ?_⟩
        rw [hv]
        by_cases h : x = i ∧ y = j
        · rw [if_neg (by omega), if_pos h, if_pos (by omega), h.1, h.2]
        · rw [if_neg h]
          congr 1
          simp only [eq_iff_iff]
          omega
    · rintro r ⟨hr, hv⟩
      refine ⟨hr, fun x y => ?_⟩
      rw [hv]
      congr 1
      simp only [eq_iff_iff]
      omega
  · rintro r ⟨hr, hv⟩
    exact eq_tab hr fun i hi j hj => by rw [hv, if_pos ⟨hi, hj⟩]

variable {K : Type} [Field K] [LinearOrder K] [IsStrictOrderedRing K]

theorem pointsMultiply_run {P : List (List (XYZW K))} {C : List (List K)} {m n p : ℕ} (hP : IsMat P m n) (hC : IsMat C n p) (hm : 0 < m) (hn : 0 < n) :
    pointsMultiply P C = ok (tab m p fun i j => ∑ k ∈ range n, ent C k j • ent P i k) := by
  unfold pointsMultiply
  rw [vget_row (k := 0) (by simp) (by rw [hP.1]; exact hm), ok_bind, vget_row (k := 0) (by simp) (by rw [hC.1]; exact hn), ok_bind, hP.2 0 hm, hC.2 0 hn, hP.1]
  exact product_run (fun (x : XYZW K) (y : K) => y • x) hP hC

theorem multiplyPoints_run {C : List (List K)} {P : List (List (XYZW K))} {m n p : ℕ} (hC : IsMat C m n) (hP : IsMat P n p) (hm : 0 < m) (hn : 0 < n) :
    multiplyPoints C P = ok (tab m p fun i j => ∑ k ∈ range n, ent C i k • ent P k j) := by
  unfold multiplyPoints
  rw [vget_row (k := 0) (by simp) (by rw [hC.1]; exact hm), ok_bind, vget_row (k := 0) (by simp) (by rw [hP.1]; exact hn), ok_bind, hC.2 0 hm, hP.2 0 hn, hC.1]
  exact product_run (fun (x : K) (y : XYZW K) => x • y) hC hP

/-- C160: both versions of `Multiply` are products of a matrix of numbers and a matrix of weighted points, for all sizes. -/
theorem C160_product {P : List (List (XYZW K))} {C D : List (List K)} {l m n p : ℕ} (hP : IsMat P m n) (hC : IsMat C n p) (hD : IsMat D l m) (hl : 0 < l) (hm : 0 < m) (hn : 0 < n) :
    (∃ R, pointsMultiply P C = ok R ∧ IsMat R m p ∧ ∀ i < m, ∀ j < p, ent R i j = ∑ k ∈ range n, ent C k j • ent P i k) ∧
    ∃ R, multiplyPoints D P = ok R ∧ IsMat R l n ∧ ∀ i < l, ∀ j < n, ent R i j = ∑ k ∈ range m, ent D i k • ent P k j :=
  ⟨⟨_, pointsMultiply_run hP hC hm hn, isMat_tab, fun _ hi _ hj => ent_tab hi hj⟩,
    ⟨_, multiplyPoints_run hD hP hl hm, isMat_tab, fun _ hi _ hj => ent_tab hi hj⟩⟩

/-- C160: it does not matter whether a net is multiplied from the left or from the right first. -/
theorem C160_sides {P : List (List (XYZW K))} {C D : List (List K)} {l m n p : ℕ} (hP : IsMat P m n) (hC : IsMat C n p) (hD : IsMat D l m) (hl : 0 < l) (hm : 0 < m) (hn : 0 < n) :
    ∃ R, (multiplyPoints D P >>= fun Q => pointsMultiply Q C) = ok R ∧ (pointsMultiply P C >>= fun Q => multiplyPoints D Q) = ok R := by
  rw [multiplyPoints_run hD hP hl hm, ok_bind, pointsMultiply_run isMat_tab hC hl hn, pointsMultiply_run hP hC hm hn, ok_bind, multiplyPoints_run hD isMat_tab hl hm]
  refine ⟨_, rfl, ?_⟩
  congr 1
  apply mat_ext isMat_tab isMat_tab
  intro i hi j hj
  rw [ent_tab hi hj, ent_tab hi hj]
  rw [sum_congr rfl fun k hk => by rw [ent_tab (mem_range.mp hk) hj, smul_sum], sum_congr (s₂ := range n) rfl fun k hk => by rw [ent_tab hi (mem_range.mp hk), smul_sum], sum_comm]
  exact sum_congr rfl fun k _ => sum_congr rfl fun k' _ => smul_comm _ _ _

/-- C160: multiplying by two matrices one after the other is multiplying by their product. -/
theorem C160_assoc {P : List (List (XYZW K))} {C D : List (List K)} {l m n p : ℕ} (hP : IsMat P n p) (hC : IsMat C m n) (hD : IsMat D l m) (hl : 0 < l) (hm : 0 < m) (hn : 0 < n) :
    ∃ R, (multiplyPoints C P >>= fun Q => multiplyPoints D Q) = ok R ∧ (matrixMultiply D C >>= fun E => multiplyPoints E P) = ok R := by
  rw [multiplyPoints_run hC hP hm hn, ok_bind, multiplyPoints_run hD isMat_tab hl hm, matrixMultiply_run hD hC hl hm, ok_bind, multiplyPoints_run isMat_tab hP hl hn]
  refine ⟨_, rfl, ?_⟩
  congr 1
  apply mat_ext isMat_tab isMat_tab
  intro i hi j hj
  rw [ent_tab hi hj, ent_tab hi hj]
  rw [sum_congr rfl fun k hk => by rw [ent_tab hi (mem_range.mp hk), sum_smul], sum_congr (s₂ := range m) rfl fun k hk => by rw [ent_tab (mem_range.mp hk) hj, smul_sum], sum_comm]
  exact sum_congr rfl fun k _ => sum_congr rfl fun k' _ => mul_smul _ _ _

/-- C160: a product with an empty matrix on either side reads out of bounds. -/
theorem C160_empty (P : List (List (XYZW K))) (C : List (List K)) :
    pointsMultiply [] C = ub ∧ multiplyPoints [] P = ub ∧ (P ≠ [] → pointsMultiply P [] = ub) ∧ (C ≠ [] → multiplyPoints C [] = ub) := by
  refine ⟨rfl, rfl, fun h => ?_, fun h => ?_⟩
  · cases P with
    | nil => exact absurd rfl h
    | cons a l => rfl
  · cases C with
    | nil => exact absurd rfl h
    | cons a l => rfl

theorem netToXYZ_run {P : List (List (XYZW K))} {r c : ℕ} (hP : IsMat P r c) (hr : 0 < r) :
    Runs (netToXYZ P) (fun net => IsMat net r c ∧ ∀ i j, i < r → j < c → ent net i j = (ent P i j).toXYZ) := by
  unfold netToXYZ
  rw [vget_row (i := 0) (k := 0) rfl (by rw [hP.1]; exact hr), ok_bind, hP.2 0 hr, hP.1]
  refine (Runs.forN (m := 0) (n := r) (fun k (net : List (List (XYZ K))) => IsMat net r c ∧ ∀ i j, i < k → j < c → ent net i j = (ent P i j).toXYZ)
    rfl rfl (by omega) ⟨isMat_replicate, fun i j hi hj => by omega⟩ ?_).mono (fun _ h => h)
  rintro k net - hk ⟨g1, g2⟩
  refine (Runs.forN (m := 0) (n := c) (fun l (net : List (List (XYZ K))) => IsMat net r c ∧ (∀ i j, i < k → j < c → ent net i j = (ent P i j).toXYZ) ∧
    ∀ j, j < l → ent net k j = (ent P k j).toXYZ) rfl rfl (by omega) ⟨g1, g2, fun j hj => by omega⟩ ?_).mono ?_
  · rintro l net - hl ⟨g1, g2, g3⟩
    rw [mget_ent (a := k) (b := l) hP rfl rfl hk hl, ok_bind]
    obtain ⟨net', e, q1, q2⟩ := mset_ok (x := (ent P k l).toXYZ) g1 (i := k) (j := l) rfl rfl hk hl
    refine ⟨net', e, q1, fun i j hi hj => ?_, fun j hj => ?_⟩
    · rw [q2, if_neg (by omega), g2 i j hi hj]
    · rw [q2]
      split_ifs with hc
      · rw [hc.2]
      · exact g3 j (by omega)
  · rintro net ⟨g1, g2, g3⟩
    refine ⟨g1, fun i j hi hj => ?_⟩
    by_cases hc : i = k
    · subst hc; exact g3 j hj
    · exact g2 i j (by omega) hj

theorem weight_one_point {x : XYZW K} (hx : x.w = 1) : XYZW.ofXYZ x.toXYZ 1 = x := by
  rw [XYZW.toXYZ_eq (by rw [hx, abs_one]; norm_num), hx]
  ext <;> simp [XYZW.ofXYZ, XYZW.raw, hx]

theorem point_weight_one {x : XYZ K} : (XYZW.ofXYZ x 1).toXYZ = x := by
  rw [XYZW.toXYZ_eq (by simp [XYZW.ofXYZ]; norm_num)]
  ext <;> simp [XYZW.ofXYZ, XYZW.raw]

/-- C160: giving the points of a net the weight one and taking the weights away gives the net back. -/
theorem C160_weights {P : List (List (XYZ K))} {r c : ℕ} (hP : IsMat P r c) (hr : 0 < r) : (netToXYZW P >>= fun Q => netToXYZ Q) = ok P := by
  obtain ⟨Q, e, q1, q2⟩ := netToXYZW_run hP hr
  rw [e, ok_bind]
  obtain ⟨R, e', r1, r2⟩ := netToXYZ_run q1 hr
  rw [e']
  congr 1
  apply mat_ext r1 hP
  intro i hi j hj
  rw [r2 i j hi hj, q2 i j hi hj, point_weight_one]

/-- C160: the other way round it holds exactly for nets with weights one; in general the result is the net with its weights replaced by one. -/
theorem C160_weights_back {P : List (List (XYZW K))} {r c : ℕ} (hP : IsMat P r c) (hr : 0 < r) :
    (netToXYZ P >>= fun Q => netToXYZW Q) = ok P ↔ ∀ i < r, ∀ j < c, (ent P i j).w = 1 := by
  obtain ⟨Q, e, q1, q2⟩ := netToXYZ_run hP hr
  rw [e, ok_bind]
  obtain ⟨R, e', r1, r2⟩ := netToXYZW_run q1 hr
  rw [e']
  constructor
  · intro h i hi j hj
    have h := Res.ok.inj h
    rw [← h, r2 i j hi hj]
    rfl
  · intro h
    congr 1
    apply mat_ext r1 hP
    intro i hi j hj
    rw [r2 i j hi hj, q2 i j hi hj, weight_one_point (h i hi j hj)]

/-- non-vacuity: a net of two by two points, multiplied from both sides -/
example : IsMat ([[⟨0, 0, 0, 1⟩, ⟨1, 0, 0, 1⟩], [⟨0, 1, 0, 1⟩, ⟨2, 2, 0, 2⟩]] : List (List (XYZW ℚ))) 2 2 ∧ IsMat ([[1, 2, 3], [0, 1, 1]] : List (List ℚ)) 2 3 ∧
    multiplyPoints [[1, -1]] ([[⟨0, 0, 0, 1⟩, ⟨1, 0, 0, 1⟩], [⟨0, 1, 0, 1⟩, ⟨2, 2, 0, 2⟩]] : List (List (XYZW ℚ))) = ok [[⟨0, -1, 0, 0⟩, ⟨-1, -2, 0, -1⟩]] := by
  refine ⟨⟨rfl, ?_⟩, ⟨rfl, ?_⟩, by decide +kernel⟩
  · intro i hi; interval_cases i <;> rfl
  · intro i hi; interval_cases i <;> rfl

end LNLib.Props
