import Verif.Model.Mesh
import Verif.Props.Surface
import Mathlib.Tactic.FieldSimp

/-!
# C54: grid triangulation
(Geometry/Surface/NurbsSurface.cpp)
-/
set_option linter.unusedSectionVars false

namespace LNLib.Spec

variable {K : Type} [Field K] [LinearOrder K]

/-- twice the signed area of a triangle in the parameter plane -/
def signedArea2 (a b c : UV K) : K := (b.u - a.u) * (c.v - a.v) - (b.v - a.v) * (c.u - a.u)

/-- the point `(s, t)` lies in the closed triangle `a b c` -/
def InTriangle (a b c : UV K) (s t : K) : Prop :=
  ∃ α β γ : K, 0 ≤ α ∧ 0 ≤ β ∧ 0 ≤ γ ∧ α + β + γ = 1 ∧ s = α * a.u + β * b.u + γ * c.u ∧ t = α * a.v + β * b.v + γ * c.v

end LNLib.Spec

namespace LNLib.Props
open LNLib Res Spec Finset

variable {K : Type} [Field K] [LinearOrder K] [IsStrictOrderedRing K]

/-- the two faces of the cell `(i, j)` of a grid with `b` columns -/
def cellFaces (b i j : ℕ) : List (List ℤ) :=
  [[(i : ℤ) * b + j, (i : ℤ) * b + j + 1, ((i : ℤ) + 1) * b + j], [(i : ℤ) * b + j + 1, ((i : ℤ) + 1) * b + j + 1, ((i : ℤ) + 1) * b + j]]

theorem grid_index {a b i j : ℕ} (hi : i < a) (hj : j < b) : i * b + j < a * b := by
  calc i * b + j < i * b + b := by omega
    _ = (i + 1) * b := by ring
    _ ≤ a * b := Nat.mul_le_mul_right b hi

theorem grid_index_inj {b i j i' j' : ℕ} (hj : j < b) (hj' : j' < b) (h : i * b + j = i' * b + j') : i = i' ∧ j = j' := by
  rcases Nat.lt_trichotomy i i' with hlt | rfl | hlt
  · have := grid_index hlt hj; omega
  · omega
  · have := grid_index hlt hj'; omega

/-- the loop that fills the tables of points and parameters -/
theorem sample_run {c : NurbsSurface K} {a b : ℕ} {P : ℕ → ℕ → XYZ K} (ha : 2 ≤ a) (hb : 2 ≤ b)
    (hP : ∀ i < a, ∀ j < b, NurbsSurface.pointOnSurface c ((i : K) / ((a : K) - 1)) ((j : K) / ((b : K) - 1)) = ok (P i j)) :
    Runs (forI 0 (a : ℤ) (List.replicate a (List.replicate b (0 : XYZ K)), List.replicate a (List.replicate b (0 : UV K))) fun i x => do
      let u ← fdiv (i : K) (((a : ℤ) - 1 : ℤ) : K)
      forI 0 (b : ℤ) (x.1, x.2) fun j x => do
        let v ← fdiv (j : K) (((b : ℤ) - 1 : ℤ) : K)
        let p ← NurbsSurface.pointOnSurface c u v
        let points ← mset x.1 i j p
        let uvs ← mset x.2 i j ⟨u, v⟩
        ok (points, uvs)) (fun x : List (List (XYZ K)) × List (List (UV K)) => IsMat x.1 a b ∧ IsMat x.2 a b ∧
          ∀ i < a, ∀ j < b, ent x.1 i j = P i j ∧ ent x.2 i j = ⟨(i : K) / ((a : K) - 1), (j : K) / ((b : K) - 1)⟩) := by
  have ha0 : (((a : ℤ) - 1 : ℤ) : K) ≠ 0 := by
    rw [Int.cast_ne_zero]; omega
  have hb0 : (((b : ℤ) - 1 : ℤ) : K) ≠ 0 := by
    rw [Int.cast_ne_zero]; omega
  have ea : (((a : ℤ) - 1 : ℤ) : K) = (a : K) - 1 := by push_cast; rfl
  have eb : (((b : ℤ) - 1 : ℤ) : K) = (b : K) - 1 := by push_cast; rfl
  refine Runs.forN (m := 0) (n := a) (fun I (x : List (List (XYZ K)) × List (List (UV K))) => IsMat x.1 a b ∧ IsMat x.2 a b ∧
          ∀ i < I, ∀ j < b, ent x.1 i j = P i j ∧ ent x.2 i j = ⟨(i : K) / ((a : K) - 1), (j : K) / ((b : K) - 1)⟩) rfl rfl (by omega)
    ⟨isMat_replicate, isMat_replicate, by omega⟩ ?_
  rintro i ⟨p0, u0⟩ - hi ⟨h1, h2, h3⟩
  dsimp only at h1 h2 h3 ⊢
  refine Runs.bind_eq (fdiv_ok ha0) ?_
  refine (Runs.forN (m := 0) (n := b) (fun J (x : List (List (XYZ K)) × List (List (UV K))) => IsMat x.1 a b ∧ IsMat x.2 a b ∧
          (∀ i' < i, ∀ j < b, ent x.1 i' j = P i' j ∧ ent x.2 i' j = ⟨(i' : K) / ((a : K) - 1), (j : K) / ((b : K) - 1)⟩) ∧
          ∀ j < J, ent x.1 i j = P i j ∧ ent x.2 i j = ⟨(i : K) / ((a : K) - 1), (j : K) / ((b : K) - 1)⟩) rfl rfl (by omega)
    ⟨h1, h2, h3, by omega⟩ ?_).mono ?_
  · rintro j ⟨p, u⟩ - hj ⟨g1, g2, g3, g4⟩
    dsimp only at g1 g2 g3 g4 ⊢
    refine Runs.bind_eq (fdiv_ok hb0) ?_
    refine Runs.bind_eq (by rw [ea, eb]; simpa using hP i hi j hj) ?_
    obtain ⟨m', e1, e2, e3⟩ := mset_ok (x := P i j) g1 (i := i) (j := j) rfl rfl hi hj
    refine Runs.bind_eq e1 ?_
    obtain ⟨m'', e4, e5, e6⟩ := mset_ok (x := (⟨((i : ℤ) : K) / (((a : ℤ) - 1 : ℤ) : K), ((j : ℤ) : K) / (((b : ℤ) - 1 : ℤ) : K)⟩ : UV K)) g2 (i := i) (j := j) rfl rfl hi hj
    refine Runs.bind_eq e4 (Runs.ok ⟨e2, e5, ?_, ?_⟩)
    · intro i' hi' j' hj'
      dsimp only
      rw [e3, e6, if_neg (by omega), if_neg (by omega)]
      exact g3 i' hi' j' hj'
    · intro j' hj'
      dsimp only
      rw [e3, e6]
      rcases Nat.lt_succ_iff_lt_or_eq.mp hj' with h | rfl
      · rw [if_neg (by omega), if_neg (by omega)]; exact g4 j' h
      · rw [if_pos ⟨rfl, rfl⟩, if_pos ⟨rfl, rfl⟩, ea, eb]
        exact ⟨rfl, by simp⟩
  · rintro ⟨p, u⟩ ⟨g1, g2, g3, g4⟩
    refine ⟨g1, g2, fun i' hi' j hj => ?_⟩
    rcases Nat.lt_succ_iff_lt_or_eq.mp hi' with h | rfl
    · exact g3 i' h j hj
    · exact g4 j hj

/-- the loop that pushes the tables row by row -/
theorem push_run {α β : Type} [Zero α] [Zero β] {A : List (List α)} {B : List (List β)} {a b : ℕ} (hA : IsMat A a b) (hB : IsMat B a b) :
    Runs (forI 0 (a : ℤ) (([] : List α), ([] : List β)) fun i st =>
      forI 0 (b : ℤ) st fun j x => do
        let p ← mget A i j
        let y ← mget B i j
        ok (x.1 ++ [p], x.2 ++ [y])) (fun x : List α × List β => x.1.length = a * b ∧ x.2.length = a * b ∧
          ∀ i < a, ∀ j < b, nth x.1 (i * b + j) = ent A i j ∧ nth x.2 (i * b + j) = ent B i j) := by
  refine Runs.forN (m := 0) (n := a) (fun I (x : List α × List β) => x.1.length = I * b ∧ x.2.length = I * b ∧
          ∀ i < I, ∀ j < b, nth x.1 (i * b + j) = ent A i j ∧ nth x.2 (i * b + j) = ent B i j) rfl rfl (by omega) ⟨by simp, by simp, by omega⟩ ?_
  rintro i x - hi ⟨h1, h2, h3⟩
  refine (Runs.forN (m := 0) (n := b) (fun J (x : List α × List β) => x.1.length = i * b + J ∧ x.2.length = i * b + J ∧
          (∀ i' < i, ∀ j < b, nth x.1 (i' * b + j) = ent A i' j ∧ nth x.2 (i' * b + j) = ent B i' j) ∧
          ∀ j < J, nth x.1 (i * b + j) = ent A i j ∧ nth x.2 (i * b + j) = ent B i j) rfl rfl (by omega) ⟨h1, h2, h3, by omega⟩ ?_).mono ?_
  · rintro j x - hj ⟨g1, g2, g3, g4⟩
    refine Runs.bind_eq (mget_ent hA rfl rfl hi hj) ?_
    refine Runs.bind_eq (mget_ent hB rfl rfl hi hj) (Runs.ok ⟨by simp [g1]; omega, by simp [g2]; omega, ?_, ?_⟩)
    · intro i' hi' j' hj'
      have := grid_index hi' hj'
      dsimp only
      rw [nth_append_left (by omega), nth_append_left (by omega)]
      exact g3 i' hi' j' hj'
    · intro j' hj'
      dsimp only
      rcases Nat.lt_succ_iff_lt_or_eq.mp hj' with h | rfl
      · rw [nth_append_left (by omega), nth_append_left (by omega)]
        exact g4 j' h
      · rw [nth_append_right (by omega), nth_append_right (by omega), g1, g2, Nat.sub_self]
        exact ⟨rfl, rfl⟩
  · rintro x ⟨g1, g2, g3, g4⟩
    refine ⟨by rw [g1]; ring, by rw [g2]; ring, fun i' hi' j hj => ?_⟩
    rcases Nat.lt_succ_iff_lt_or_eq.mp hi' with h | rfl
    · exact g3 i' h j hj
    · exact g4 j hj

/-- the loop that writes the faces -/
theorem faces_run {a b : ℕ} (ha : 2 ≤ a) (hb : 2 ≤ b) :
    Runs (forI 0 ((a : ℤ) - 1) (([] : List (List ℤ)), ([] : List ℤ)) fun i st =>
      forI 0 ((b : ℤ) - 1) st fun j x =>
        ok (x.1 ++ [[i * (b : ℤ) + j, i * (b : ℤ) + j + 1, (i + 1) * (b : ℤ) + j]] ++ [[i * (b : ℤ) + j + 1, (i + 1) * (b : ℤ) + j + 1, (i + 1) * (b : ℤ) + j]],
          x.2 ++ [i * (b : ℤ) + j] ++ [i * (b : ℤ) + j + 1] ++ [(i + 1) * (b : ℤ) + j] ++ [i * (b : ℤ) + j + 1] ++ [(i + 1) * (b : ℤ) + j + 1] ++ [(i + 1) * (b : ℤ) + j]))
      (fun x : List (List ℤ) × List ℤ => x.1.length = 2 * (a - 1) * (b - 1) ∧ x.2 = x.1.flatten ∧
        ∀ f, f ∈ x.1 ↔ ∃ i < a - 1, ∃ j < b - 1, f ∈ cellFaces b i j) := by
  refine Runs.forN (m := 0) (n := a - 1) (fun I (x : List (List ℤ) × List ℤ) => x.1.length = 2 * I * (b - 1) ∧ x.2 = x.1.flatten ∧
        ∀ f, f ∈ x.1 ↔ ∃ i < I, ∃ j < b - 1, f ∈ cellFaces b i j) rfl (by omega) (by omega) ⟨by simp, by simp, by simp⟩ ?_
  rintro i x - hi ⟨h1, h2, h3⟩
  refine (Runs.forN (m := 0) (n := b - 1) (fun J (x : List (List ℤ) × List ℤ) => x.1.length = 2 * i * (b - 1) + 2 * J ∧ x.2 = x.1.flatten ∧
        ∀ f, f ∈ x.1 ↔ (∃ i' < i, ∃ j < b - 1, f ∈ cellFaces b i' j) ∨ ∃ j < J, f ∈ cellFaces b i j) rfl (by omega) (by omega) ⟨h1, h2, by simpa using h3⟩ ?_).mono ?_
  · rintro j x - hj ⟨g1, g2, g3⟩
    refine Runs.ok ⟨by simp [g1]; omega, by simp [g2], fun f => ?_⟩
    dsimp only
    rw [List.append_assoc, List.mem_append, g3]
    have : f ∈ [[(i : ℤ) * b + j, (i : ℤ) * b + j + 1, ((i : ℤ) + 1) * b + j]] ++ [[(i : ℤ) * b + j + 1, ((i : ℤ) + 1) * b + j + 1, ((i : ℤ) + 1) * b + j]] ↔ f ∈ cellFaces b i j := by
      simp [cellFaces]
    rw [this]
    constructor
    · rintro ((h | ⟨j', hj', h⟩) | h)
      · exact Or.inl h
      · exact Or.inr ⟨j', by omega, h⟩
      · exact Or.inr ⟨j, by omega, h⟩
    · rintro (h | ⟨j', hj', h⟩)
      · exact Or.inl (Or.inl h)
      · rcases Nat.lt_succ_iff_lt_or_eq.mp hj' with h' | rfl
        · exact Or.inl (Or.inr ⟨j', h', h⟩)
        · exact Or.inr h
  · rintro x ⟨g1, g2, g3⟩
    refine ⟨by rw [g1]; ring, g2, fun f => ?_⟩
    rw [g3]
    constructor
    · rintro (⟨i', hi', h⟩ | h)
      · exact ⟨i', by omega, h⟩
      · exact ⟨i, by omega, h⟩
    · rintro ⟨i', hi', h⟩
      rcases Nat.lt_succ_iff_lt_or_eq.mp hi' with h' | rfl
      · exact Or.inl ⟨i', h', h⟩
      · exact Or.inr h

/-- a number between `0` and `k` lies in a unit cell -/
theorem unit_cell {k : ℕ} (hk : 1 ≤ k) {x : K} (h0 : 0 ≤ x) (h1 : x ≤ k) : ∃ i < k, (i : K) ≤ x ∧ x ≤ i + 1 := by
  induction k, hk using Nat.le_induction with
  | base => exact ⟨0, by omega, by simpa using h0, by simpa using h1⟩
  | succ k hk ih =>
    by_cases h : x ≤ k
    · obtain ⟨i, hi, g⟩ := ih h
      exact ⟨i, by omega, g⟩
    · exact ⟨k, by omega, (not_le.mp h).le, by push_cast at h1; exact h1⟩

/-- C54: for a surface whose domain contains the unit square, and resolutions of at least two, the grid triangulation succeeds.  The mesh has `a * b` vertices, vertex `i*b + j` being the
surface point at the parameters `(i/(a-1), j/(b-1))`, which are recorded in `UVs`; it has `2(a-1)(b-1)` faces, each a triangle with vertex indices in
range; all faces have the same signed area in the parameter plane (hence the same orientation, and they are not degenerate); every point of the unit square lies in a
face; the texture indices repeat the faces. -/
theorem C54_grid_partial {c : NurbsSurface K} {p q n m a b : ℕ} (w : WellFormedS c p q n m) (he : EndsSeparatedS c p q n m) (ha : 2 ≤ a) (hb : 2 ≤ b)
    (hu0 : nth c.knotsU p ≤ 0) (hu1 : 1 ≤ nth c.knotsU (n + 1)) (hv0 : nth c.knotsV q ≤ 0) (hv1 : 1 ≤ nth c.knotsV (m + 1)) :
    ∃ M, triangulateGrid c a b = ok M ∧ M.vertices.length = a * b ∧ M.uvs.length = a * b ∧
      (∀ i < a, ∀ j < b, nth M.uvs (i * b + j) = ⟨(i : K) / ((a : K) - 1), (j : K) / ((b : K) - 1)⟩ ∧
        NurbsSurface.pointOnSurface c ((i : K) / ((a : K) - 1)) ((j : K) / ((b : K) - 1)) = ok (nth M.vertices (i * b + j))) ∧
      M.faces.length = 2 * (a - 1) * (b - 1) ∧ M.uvIndices = M.faces.flatten ∧
      (∀ f ∈ M.faces, ∃ x y z : ℕ, f = [(x : ℤ), (y : ℤ), (z : ℤ)] ∧ x < a * b ∧ y < a * b ∧ z < a * b ∧
        signedArea2 (nth M.uvs x) (nth M.uvs y) (nth M.uvs z) = - (1 / (((a : K) - 1) * ((b : K) - 1)))) ∧
      (∀ s t : K, 0 ≤ s → s ≤ 1 → 0 ≤ t → t ≤ 1 → ∃ x y z : ℕ, [(x : ℤ), (y : ℤ), (z : ℤ)] ∈ M.faces ∧
        InTriangle (nth M.uvs x) (nth M.uvs y) (nth M.uvs z) s t) := by
  have ha1 : (0 : K) < (a : K) - 1 := by
    have : (2 : K) ≤ a := by exact_mod_cast ha
    linarith
  have hb1 : (0 : K) < (b : K) - 1 := by
    have : (2 : K) ≤ b := by exact_mod_cast hb
    linarith
  have dom : ∀ i < a, ∀ j < b, InDomain c p q n m ((i : K) / ((a : K) - 1)) ((j : K) / ((b : K) - 1)) := by
    intro i hi j hj
    have e1 : (0 : K) ≤ (i : K) / ((a : K) - 1) := div_nonneg (Nat.cast_nonneg _) ha1.le
    have e2 : (0 : K) ≤ (j : K) / ((b : K) - 1) := div_nonneg (Nat.cast_nonneg _) hb1.le
    have e3 : (i : K) / ((a : K) - 1) ≤ 1 := by
      rw [div_le_one ha1]
      have : (i : K) + 1 ≤ a := by exact_mod_cast hi
      linarith
    have e4 : (j : K) / ((b : K) - 1) ≤ 1 := by
      rw [div_le_one hb1]
      have : (j : K) + 1 ≤ b := by exact_mod_cast hj
      linarith
    exact ⟨hu0.trans e1, e3.trans hu1, hv0.trans e2, e4.trans hv1⟩
  set P : ℕ → ℕ → XYZ K := fun i j => (surfacePoint (nth c.knotsU) (nth c.knotsV) p q n m (ent c.cps) ((i : K) / ((a : K) - 1)) ((j : K) / ((b : K) - 1))).toXYZ with hPdef
  have hP : ∀ i < a, ∀ j < b, NurbsSurface.pointOnSurface c ((i : K) / ((a : K) - 1)) ((j : K) / ((b : K) - 1)) = ok (P i j) := by
    intro i hi j hj
    unfold NurbsSurface.pointOnSurface
    rw [C33_eval w he (dom i hi j hj), ok_bind]
  obtain ⟨⟨A, B⟩, e1, hA, hB, hAB⟩ := sample_run ha hb hP
  dsimp only at hA hB hAB
  obtain ⟨⟨vs, us⟩, e2, l1, l2, hvu⟩ := push_run hA hB
  dsimp only at l1 l2 hvu
  obtain ⟨⟨fs, ui⟩, e3, l3, hui, hmem⟩ := faces_run ha hb
  dsimp only at l3 hui hmem
  have huv : ∀ i < a, ∀ j < b, nth us (i * b + j) = ⟨(i : K) / ((a : K) - 1), (j : K) / ((b : K) - 1)⟩ := fun i hi j hj => by
    rw [(hvu i hi j hj).2, (hAB i hi j hj).2]
  refine ⟨⟨vs, fs, us, ui⟩, ?_, l1, l2, ?_, l3, hui, ?_, ?_⟩
  · unfold triangulateGrid
    rw [if_neg (by omega), Int.toNat_natCast, Int.toNat_natCast]
    dsimp only
    rw [e1, ok_bind]
    dsimp only
    rw [e2, ok_bind]
    dsimp only
    rw [e3, ok_bind]
  · intro i hi j hj
    exact ⟨huv i hi j hj, by rw [hP i hi j hj, (hvu i hi j hj).1, (hAB i hi j hj).1]⟩
  · intro f hf
    obtain ⟨i, hi, j, hj, hf⟩ := (hmem f).mp hf
    have q0 := grid_index (show i < a by omega) (show j < b by omega)
    have q1 := grid_index (show i < a by omega) (show j + 1 < b by omega)
    have q2 := grid_index (show i + 1 < a by omega) (show j < b by omega)
    have q3 := grid_index (show i + 1 < a by omega) (show j + 1 < b by omega)
    simp only [cellFaces, List.mem_cons, List.not_mem_nil, or_false] at hf
    rcases hf with rfl | rfl
    · refine ⟨i * b + j, i * b + (j + 1), (i + 1) * b + j, by push_cast; rfl, q0, q1, q2, ?_⟩
      dsimp only
      rw [huv i (by omega) j (by omega), huv i (by omega) (j + 1) (by omega), huv (i + 1) (by omega) j (by omega)]
      unfold signedArea2
      have := ha1.ne'
      have := hb1.ne'
      push_cast
      field_simp
      ring
    · refine ⟨i * b + (j + 1), (i + 1) * b + (j + 1), (i + 1) * b + j, by push_cast; rfl, q1, q3, q2, ?_⟩
      dsimp only
      rw [huv (i + 1) (by omega) (j + 1) (by omega), huv i (by omega) (j + 1) (by omega), huv (i + 1) (by omega) j (by omega)]
      unfold signedArea2
      have := ha1.ne'
      have := hb1.ne'
      push_cast
      field_simp
      ring
  · intro s t hs0 hs1 ht0 ht1
    have ca : ((a - 1 : ℕ) : K) = (a : K) - 1 := by
      rw [Nat.cast_sub (by omega)]; simp
    have cb : ((b - 1 : ℕ) : K) = (b : K) - 1 := by
      rw [Nat.cast_sub (by omega)]; simp
    obtain ⟨i, hi, i1, i2⟩ := unit_cell (k := a - 1) (x := s * ((a : K) - 1)) (by omega) (mul_nonneg hs0 ha1.le) (by rw [ca]; nlinarith)
    obtain ⟨j, hj, j1, j2⟩ := unit_cell (k := b - 1) (x := t * ((b : K) - 1)) (by omega) (mul_nonneg ht0 hb1.le) (by rw [cb]; nlinarith)
    have na := ha1.ne'
    have nb := hb1.ne'
    by_cases hc : s * ((a : K) - 1) - i + (t * ((b : K) - 1) - j) ≤ 1
    · refine ⟨i * b + j, i * b + (j + 1), (i + 1) * b + j, (hmem _).mpr ⟨i, hi, j, hj, by simp [cellFaces, add_assoc]⟩, ?_⟩
      dsimp only
      rw [huv i (by omega) j (by omega), huv i (by omega) (j + 1) (by omega), huv (i + 1) (by omega) j (by omega)]
      refine ⟨1 - (s * ((a : K) - 1) - i) - (t * ((b : K) - 1) - j), t * ((b : K) - 1) - j, s * ((a : K) - 1) - i, by linarith, by linarith, by linarith, by ring, ?_, ?_⟩
      · push_cast; field_simp; ring
      · push_cast; field_simp; ring
    · refine ⟨i * b + (j + 1), (i + 1) * b + (j + 1), (i + 1) * b + j, (hmem _).mpr ⟨i, hi, j, hj, by simp [cellFaces, add_assoc]⟩, ?_⟩
      dsimp only
      rw [huv (i + 1) (by omega) (j + 1) (by omega), huv i (by omega) (j + 1) (by omega), huv (i + 1) (by omega) j (by omega)]
      refine ⟨1 - (s * ((a : K) - 1) - i), (s * ((a : K) - 1) - i) + (t * ((b : K) - 1) - j) - 1, 1 - (t * ((b : K) - 1) - j), by linarith, by linarith, by linarith, by ring, ?_, ?_⟩
      · push_cast; field_simp; ring
      · push_cast; field_simp; ring

/-- C54 is not vacuous -/
example : ∃ M, triangulateGrid exSurface 3 4 = ok M ∧ M.vertices.length = 12 ∧ M.faces.length = 12 := by
  obtain ⟨M, e, h1, -, -, h2, -⟩ := C54_grid_partial (a := 3) (b := 4) exSurface_wf exSurface_ends (by decide) (by decide) (by decide +kernel) (by decide +kernel) (by decide +kernel) (by decide +kernel)
  exact ⟨M, e, h1, h2⟩

/-- C54 disagreement: the parameters always run over the unit square, whatever the domain of the surface.  On a domain `[0, 1/2]` in U the triangulation throws. -/
theorem C54_small_domain_violated : WellFormedS ({ exSurface with knotsU := [0, 0, 0, 1/4, 1/2, 1/2, 1/2] } : NurbsSurface ℚ) 2 1 3 2 ∧
    triangulateGrid ({ exSurface with knotsU := [0, 0, 0, 1/4, 1/2, 1/2, 1/2] } : NurbsSurface ℚ) 2 2 = outOfRange :=
  ⟨{ exSurface_wf with knotsU := rfl, sortedU := isValidKnotVector_nth.mp (by decide +kernel) }, by decide +kernel⟩

/-- C54 disagreement: on a domain `[0, 2]` in U the mesh stops half way: every recorded parameter is at most one and the end of the surface is
not among the vertices. -/
theorem C54_large_domain_violated : WellFormedS ({ exSurface with knotsU := [0, 0, 0, 1, 2, 2, 2] } : NurbsSurface ℚ) 2 1 3 2 ∧
    ∃ M, triangulateGrid ({ exSurface with knotsU := [0, 0, 0, 1, 2, 2, 2] } : NurbsSurface ℚ) 2 2 = ok M ∧ (∀ x ∈ M.uvs, x.u ≤ 1) ∧
      ∃ x, NurbsSurface.pointOnSurface ({ exSurface with knotsU := [0, 0, 0, 1, 2, 2, 2] } : NurbsSurface ℚ) 2 0 = ok x ∧ x ∉ M.vertices := by
  refine ⟨{ exSurface_wf with knotsU := rfl, sortedU := isValidKnotVector_nth.mp (by decide +kernel) }, ?_⟩
  exact ⟨⟨[⟨0, 0, 0⟩, ⟨0, 3, 0⟩, ⟨3/2, 0, 1⟩, ⟨3/2, 3, 1/2⟩], [[0, 1, 2], [1, 3, 2]], [⟨0, 0⟩, ⟨0, 1⟩, ⟨1, 0⟩, ⟨1, 1⟩], [0, 1, 2, 1, 3, 2]⟩, by decide +kernel,
    by decide +kernel, ⟨3, 0, 0⟩, by decide +kernel, by decide +kernel⟩

/-- C54: a resolution of one divides zero by zero. -/
theorem C54_resolution_one (c : NurbsSurface K) {b : ℤ} (hb : 0 ≤ b) : triangulateGrid c 1 b = nonfinite := by
  unfold triangulateGrid
  rw [if_neg (by omega)]
  dsimp only
  rw [forI_head (by omega), show (((1 : ℤ) - 1 : ℤ) : K) = 0 by simp, fdiv_zero]
  rfl

end LNLib.Props
