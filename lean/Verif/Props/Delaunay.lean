import Verif.Model.Delaunay
import Verif.Props.SignedDistance
import Verif.Props.KnotsByBound
import Verif.Props.Volume
import Verif.Props.IsArc

/-!
# C164: triangulation by random samples
-/

namespace LNLib.Props
open LNLib Res LNLib.Spec Finset

theorem mapR_post {α β : Type} {f : α → Res β} : ∀ {l : List α} {r : List β}, mapR f l = ok r → (∀ y ∈ r, ∃ x ∈ l, f x = ok y) ∧ (∀ x ∈ l, ∃ y ∈ r, f x = ok y) ∧ r.length = l.length := by
  intro l
  induction l with
  | nil =>
    intro r h
    cases h
    simp
  | cons a l ih =>
    intro r h
    unfold mapR at h
    obtain ⟨y, e1, h⟩ := bind_eq_ok.mp h
    obtain ⟨r', e2, h⟩ := bind_eq_ok.mp h
    cases h
    obtain ⟨h1, h2, h3⟩ := ih e2
    refine ⟨?_, ?_, by simp [h3]⟩
    · intro z hz
      rcases List.mem_cons.mp hz with rfl | hz
      · exact ⟨a, List.mem_cons_self, e1⟩
      · obtain ⟨x, hx, e⟩ := h1 z hz
        exact ⟨x, List.mem_cons_of_mem _ hx, e⟩
    · intro x hx
      rcases List.mem_cons.mp hx with rfl | hx
      · exact ⟨y, List.mem_cons_self, e1⟩
      · obtain ⟨z, hz, e⟩ := h2 x hx
        exact ⟨z, List.mem_cons_of_mem _ hz, e⟩

theorem gridR_ok {α : Type} {n m : ℕ} {f : ℕ → ℕ → Res α} {g : ℕ → ℕ → α} (h : ∀ i j, i < n → j < m → f i j = ok (g i j)) : gridR n m f = ok (tab n m g) := by
  unfold gridR
  exact mapR_ok fun i hi => mapR_ok fun j hj => h i j (List.mem_range.mp hi) (List.mem_range.mp hj)

theorem gridR_first {α : Type} {n m : ℕ} {f : ℕ → ℕ → Res α} (hn : 0 < n) (hm : 0 < m) (h : f 0 0 = invalidArg) : gridR n m f = invalidArg := by
  obtain ⟨n, rfl⟩ : ∃ k, n = k + 1 := ⟨n - 1, by omega⟩
  obtain ⟨m, rfl⟩ : ∃ k, m = k + 1 := ⟨m - 1, by omega⟩
  unfold gridR
  rw [List.range_succ_eq_map, List.range_succ_eq_map]
  unfold mapR
  unfold mapR
  rw [h]
  rfl

/-- a parameter inside a cell of the grid is inside the domain and not at its end -/
theorem cell_bounds {lo hi x : ℝ} {n i : ℕ} (hlt : lo < hi) (hi' : i + 1 < n) (h0 : 0 ≤ x) (h1 : x < 1) :
    lo ≤ lo + i * ((hi - lo) / ((n : ℝ) - 1)) + (lo + (i + 1 : ℕ) * ((hi - lo) / ((n : ℝ) - 1)) - (lo + i * ((hi - lo) / ((n : ℝ) - 1)))) * x ∧
      lo + i * ((hi - lo) / ((n : ℝ) - 1)) + (lo + (i + 1 : ℕ) * ((hi - lo) / ((n : ℝ) - 1)) - (lo + i * ((hi - lo) / ((n : ℝ) - 1)))) * x < hi := by
  have hn : (i : ℝ) + 1 ≤ (n : ℝ) - 1 := by
    have : ((i + 1 + 1 : ℕ) : ℝ) ≤ n := by exact_mod_cast hi'
    push_cast at this
    linarith
  have i0 : (0 : ℝ) ≤ i := Nat.cast_nonneg i
  have hN : (0 : ℝ) < (n : ℝ) - 1 := by linarith
  set k := (hi - lo) / ((n : ℝ) - 1) with hk
  have k0 : 0 < k := div_pos (by linarith) hN
  have e : k * ((n : ℝ) - 1) = hi - lo := by rw [hk]; field_simp
  push_cast
  constructor
  · nlinarith [mul_nonneg i0 k0.le, mul_nonneg k0.le h0]
  · nlinarith [mul_le_mul_of_nonneg_left hn k0.le, mul_pos k0 (sub_pos.mpr h1)]

/-- the samples are in the domain, not at its far ends, and the lower corners of all cells are among them -/
theorem samples_post {random : ℕ → ℝ} (hr : ∀ k, 0 ≤ random k ∧ random k < 1) {n m : ℕ} {lo hi lo' hi' : ℝ} (hlt : lo < hi) (hlt' : lo' < hi') (hn : 2 ≤ n) (hm : 2 ≤ m)
    {F : List (List ℝ)} {r : List (ℝ × ℝ) × ℕ}
    (h : delaunaySamples random n m (fun i => lo + i * ((hi - lo) / ((n : ℝ) - 1))) (fun i => lo' + i * ((hi' - lo') / ((m : ℝ) - 1))) F = ok r) :
    (∀ x ∈ r.1, (lo ≤ x.1 ∧ x.1 < hi) ∧ lo' ≤ x.2 ∧ x.2 < hi') ∧
      ∀ i j : ℕ, i + 1 < n → j + 1 < m → (lo + i * ((hi - lo) / ((n : ℝ) - 1)), lo' + j * ((hi' - lo') / ((m : ℝ) - 1))) ∈ r.1 := by
  unfold delaunaySamples at h
  have key := forI_ok_post (fun i (st : List (ℝ × ℝ) × ℕ) => (∀ x ∈ st.1, (lo ≤ x.1 ∧ x.1 < hi) ∧ lo' ≤ x.2 ∧ x.2 < hi') ∧
      ∀ a b : ℕ, (a : ℤ) < i → b + 1 < m → (lo + a * ((hi - lo) / ((n : ℝ) - 1)), lo' + b * ((hi' - lo') / ((m : ℝ) - 1))) ∈ st.1) n 0 _ _ (by omega) ?_ ?_ h
  · refine ⟨key.1, fun i j hi hj => key.2 i j ?_ hj⟩
    rw [max_eq_right (by omega)]
    omega
  · intro i st st' i0 i1 hst h
    have inner := forI_ok_post (fun j (st : List (ℝ × ℝ) × ℕ) => (∀ x ∈ st.1, (lo ≤ x.1 ∧ x.1 < hi) ∧ lo' ≤ x.2 ∧ x.2 < hi') ∧
      ∀ a b : ℕ, ((a : ℤ) < i ∧ b + 1 < m) ∨ ((a : ℤ) = i ∧ (b : ℤ) < j) → (lo + a * ((hi - lo) / ((n : ℝ) - 1)), lo' + b * ((hi' - lo') / ((m : ℝ) - 1))) ∈ st.1) m 0 _ _ (by omega) ?_ ?_ h
    · refine ⟨inner.1, fun a b ha hb => inner.2 a b ?_⟩
      rw [max_eq_right (by omega)]
      omega
    · intro j st st' j0 j1 hst h
      dsimp only at h
      obtain ⟨f, -, h⟩ := bind_eq_ok.mp h
      obtain ⟨i', rfl⟩ : ∃ k : ℕ, i = k := ⟨i.toNat, by omega⟩
      obtain ⟨j', rfl⟩ : ∃ k : ℕ, j = k := ⟨j.toNat, by omega⟩
      simp only [Int.toNat_natCast] at h
      have hb := fun x h0 h1 => cell_bounds (x := x) hlt (show i' + 1 < n by omega) h0 h1
      have hb' := fun x h0 h1 => cell_bounds (x := x) hlt' (show j' + 1 < m by omega) h0 h1
      refine forI_ok_inv (fun st : List (ℝ × ℝ) × ℕ => (∀ x ∈ st.1, (lo ≤ x.1 ∧ x.1 < hi) ∧ lo' ≤ x.2 ∧ x.2 < hi') ∧
        ∀ a b : ℕ, ((a : ℤ) < i' ∧ b + 1 < m) ∨ ((a : ℤ) = i' ∧ (b : ℤ) < j' + 1) → (lo + a * ((hi - lo) / ((n : ℝ) - 1)), lo' + b * ((hi' - lo') / ((m : ℝ) - 1))) ∈ st.1) ?_ ?_ h
      · rintro _ s s' ⟨s1, s2⟩ e
        cases e
        refine ⟨fun x hx => ?_, fun a b hab => List.mem_append_left _ (s2 a b hab)⟩
        rcases List.mem_append.mp hx with hx | hx
        · exact s1 x hx
        · rw [List.mem_singleton.mp hx]
          exact ⟨hb _ (hr _).1 (hr _).2, hb' _ (hr _).1 (hr _).2⟩
      · refine ⟨fun x hx => ?_, fun a b hab => ?_⟩
        · rcases List.mem_append.mp hx with hx | hx
          · exact hst.1 x hx
          · rw [List.mem_singleton.mp hx]
            have g := hb 0 le_rfl zero_lt_one
            have g' := hb' 0 le_rfl zero_lt_one
            rw [mul_zero, add_zero] at g g'
            exact ⟨g, g'⟩
        · rcases hab with hab | ⟨h1, h2⟩
          · exact List.mem_append_left _ (hst.2 a b (Or.inl hab))
          · rcases (show b < j' ∨ b = j' by omega) with g | rfl
            · exact List.mem_append_left _ (hst.2 a b (Or.inr ⟨h1, by omega⟩))
            · obtain rfl : a = i' := by omega
              exact List.mem_append_right _ (List.mem_singleton.mpr rfl)
    · refine ⟨hst.1, fun a b hab => ?_⟩
      rcases hab with hab | hab
      · exact hst.2 a b hab.1 hab.2
      · omega
  · exact ⟨fun x hx => by simp at hx, fun a b ha => by omega⟩

/-- C164 (partial): whatever the random numbers and the planar triangulation are, every vertex of the returned mesh is a point of the surface, at parameters of the domain; the lower corner of every cell of the
grid is a vertex. Missing from the full statement: the far edges, which the mesh never reaches (`C164_edges_violated`): the parameters of the vertices are strictly below the ends of the domain; and the planar
triangulation, which is not modelled. -/
theorem C164_vertices_partial {random : ℕ → ℝ} (hr : ∀ k, 0 ≤ random k ∧ random k < 1) {triangles : List (ℝ × ℝ) → List (List ℤ)} {c : NurbsSurface ℝ} {n m : ℕ} {mesh : Mesh ℝ}
    (hU : nth c.knotsU 0 < nth c.knotsU (c.knotsU.length - 1)) (hV : nth c.knotsV 0 < nth c.knotsV (c.knotsV.length - 1)) (h : triangulateDelaunay random triangles c n m = ok mesh) :
    (∀ Q ∈ mesh.vertices, ∃ u v, nth c.knotsU 0 ≤ u ∧ u < nth c.knotsU (c.knotsU.length - 1) ∧ nth c.knotsV 0 ≤ v ∧ v < nth c.knotsV (c.knotsV.length - 1) ∧ NurbsSurface.pointOnSurface c u v = ok Q) ∧
    ∀ i j : ℕ, i + 1 < n → j + 1 < m → ∃ Q ∈ mesh.vertices,
      NurbsSurface.pointOnSurface c (nth c.knotsU 0 + i * ((nth c.knotsU (c.knotsU.length - 1) - nth c.knotsU 0) / ((n : ℝ) - 1)))
        (nth c.knotsV 0 + j * ((nth c.knotsV (c.knotsV.length - 1) - nth c.knotsV 0) / ((m : ℝ) - 1))) = ok Q := by
  unfold triangulateDelaunay at h
  split_ifs at h with hnm
  have lU : 0 < c.knotsU.length := by
    rcases Nat.eq_zero_or_pos c.knotsU.length with g | g
    · rw [g] at hU; exact absurd hU (lt_irrefl _)
    · exact g
  have lV : 0 < c.knotsV.length := by
    rcases Nat.eq_zero_or_pos c.knotsV.length with g | g
    · rw [g] at hV; exact absurd hV (lt_irrefl _)
    · exact g
  rw [vget_nth (i := 0) (k := 0) rfl lU, ok_bind, vget_nth (k := c.knotsU.length - 1) (by omega) (by omega), ok_bind, vget_nth (i := 0) (k := 0) rfl lV, ok_bind,
    vget_nth (k := c.knotsV.length - 1) (by omega) (by omega), ok_bind] at h
  dsimp only at h
  obtain ⟨F, -, h⟩ := bind_eq_ok.mp h
  obtain ⟨⟨S, k⟩, eS, h⟩ := bind_eq_ok.mp h
  obtain ⟨V, eV, h⟩ := bind_eq_ok.mp h
  cases h
  obtain ⟨h1, h2⟩ := samples_post hr hU hV (by omega) (by omega) eS
  obtain ⟨g1, g2, -⟩ := mapR_post eV
  refine ⟨fun Q hQ => ?_, fun i j hi hj => ?_⟩
  · obtain ⟨x, hx, e⟩ := g1 Q hQ
    obtain ⟨⟨a1, a2⟩, a3, a4⟩ := h1 x hx
    exact ⟨x.1, x.2, a1, a2, a3, a4, e⟩
  · obtain ⟨Q, hQ, e⟩ := g2 _ (h2 i j hi hj)
    exact ⟨Q, hQ, e⟩

/-- C164 is violated by every surface of degree one in a direction (planes, cylinders, ruled surfaces): an exception is thrown, for all resolutions from two on. -/
theorem C164_linear_violated {random : ℕ → ℝ} {triangles : List (ℝ × ℝ) → List (List ℤ)} {c : NurbsSurface ℝ} {p q n m k l : ℕ} (w : WellFormedS c p q n m) (he : EndsSeparatedS c p q n m)
    (hcU : ClampedEnds (nth c.knotsU) p n) (hcV : ClampedEnds (nth c.knotsV) q m) (h : p = 1 ∨ q = 1) (hk : 2 ≤ k) (hl : 2 ≤ l) : triangulateDelaunay random triangles c k l = invalidArg := by
  have lU := w.knotsU
  have lV := w.knotsV
  unfold triangulateDelaunay
  rw [if_neg (by omega), vget_nth (i := 0) (k := 0) rfl (by omega), ok_bind, vget_nth (k := c.knotsU.length - 1) (by omega) (by omega), ok_bind, vget_nth (i := 0) (k := 0) rfl (by omega), ok_bind,
    vget_nth (k := c.knotsV.length - 1) (by omega) (by omega), ok_bind]
  dsimp only
  unfold delaunayFactors
  have dom : InDomain c p q n m (nth c.knotsU 0) (nth c.knotsV 0) := by
    rw [hcU.first, hcV.first]
    exact ⟨le_rfl, (dirLt w.pn (wfS_monoU w) he.u).le, le_rfl, (dirLt w.qm (wfS_monoV w) he.v).le⟩
  rw [gridR_first (by omega) (by omega)]
  · rfl
  · dsimp only
    rw [Nat.cast_zero, zero_mul, add_zero, zero_mul, add_zero]
    unfold NurbsSurface.curvature
    rw [validateUV_ok w dom, ok_bind, order2_rejected w he dom h]
    rfl

/-! ### Plane patches -/

/-- the Gaussian curvature of a plane patch -/
theorem planePatch_curvature {a b c : XYZ ℝ} (hne : b.cross c ≠ 0) {u v : ℝ} (hu : 0 ≤ u ∧ u ≤ 1) (hv : 0 ≤ v ∧ v ≤ 1) : NurbsSurface.curvature (planePatch a b c) .gauss u v = ok 0 := by
  have w := planePatch_wf a b c
  have dom : InDomain (planePatch a b c) 2 2 2 2 u v := planePatch_dom.mpr ⟨hu, hv⟩
  obtain ⟨M, e, hM, -, d10, d01, d20, d02, d11⟩ := planePatch_ders a b c hu hv
  have z : ∀ x : XYZ ℝ, (0 : XYZ ℝ).dot x = 0 := by intro x; simp [XYZ.dot]
  unfold NurbsSurface.curvature
  rw [validateUV_ok w dom, ok_bind, e, ok_bind,
    mget_ent (a := 2) (b := 0) (i := 2) (j := 0) hM rfl rfl (by omega) (by omega), ok_bind, mget_ent (a := 0) (b := 2) (i := 0) (j := 2) hM rfl rfl (by omega) (by omega), ok_bind,
    mget_ent (a := 1) (b := 1) (i := 1) (j := 1) hM rfl rfl (by omega) (by omega), ok_bind, mget_ent (a := 1) (b := 0) (i := 1) (j := 0) hM rfl rfl (by omega) (by omega), ok_bind,
    mget_ent (a := 0) (b := 1) (i := 0) (j := 1) hM rfl rfl (by omega) (by omega), ok_bind, planePatch_normal hne hu hv, ok_bind, d10, d01, d20, d02, d11, z]
  dsimp only
  split_ifs with g
  · rfl
  · have hne0 : b.dot b * c.dot c - b.dot c * b.dot c ≠ 0 := by
      intro h0
      rw [h0] at g
      exact g (almost_self 0)
    rw [fdiv_ok hne0, ok_bind, fdiv_ok (mul_ne_zero two_ne_zero hne0), ok_bind]
    norm_num

theorem foldl_zero {α : Type} (P : α → Prop) (pick : α → α → α) (hp : ∀ a b, P a → P b → P (pick a b)) : ∀ (l : List α) (a : α), P a → (∀ x ∈ l, P x) → P (l.foldl pick a) := by
  intro l
  induction l with
  | nil => intro a h _; exact h
  | cons x l ih => intro a h hl; exact ih _ (hp a x h (hl x List.mem_cons_self)) fun y hy => hl y (List.mem_cons_of_mem _ hy)

/-- largest and smallest element are elements -/
theorem extreme_mem {α : Type} (less : α → α → Bool) (P : α → Prop) {l : List α} (hl : l ≠ []) (h : ∀ x ∈ l, P x) : (∃ a, maxElement less l = ok a ∧ P a) ∧ ∃ a, minElement less l = ok a ∧ P a := by
  cases l with
  | nil => exact absurd rfl hl
  | cons a l =>
    refine ⟨⟨_, rfl, foldl_zero P _ ?_ l a (h a List.mem_cons_self) fun x hx => h x (List.mem_cons_of_mem _ hx)⟩, _, rfl, foldl_zero P _ ?_ l a (h a List.mem_cons_self) fun x hx => h x (List.mem_cons_of_mem _ hx)⟩
    · intro a b ha hb; split_ifs <;> assumption
    · intro a b ha hb; split_ifs <;> assumption

theorem extremes_tab {n m : ℕ} (hn : 0 < n) (hm : 0 < m) {g : ℕ → ℕ → ℝ} (P : ℝ → Prop) (h : ∀ i j, P (g i j)) : ∃ x y, gridExtremes (tab n m g) = ok (x, y) ∧ P x ∧ P y := by
  have hrow : ∀ r ∈ tab n m g, r ≠ [] ∧ ∀ x ∈ r, P x := by
    intro r hr
    obtain ⟨i, -, rfl⟩ := List.mem_map.mp hr
    refine ⟨fun h0 => ?_, fun x hx => ?_⟩
    · have := congrArg List.length h0
      simp at this
      omega
    · obtain ⟨j, -, rfl⟩ := List.mem_map.mp hx
      exact h i j
  have hne : tab n m g ≠ [] := by
    intro h0
    have := congrArg List.length h0
    simp [tab] at this
    omega
  obtain ⟨⟨r, e1, p1, q1⟩, r', e2, p2, q2⟩ := extreme_mem rowLess (fun r => r ≠ [] ∧ ∀ x ∈ r, P x) hne hrow
  obtain ⟨x, e3, q3⟩ := (extreme_mem (fun a b : ℝ => decide (a < b)) P p1 q1).1
  obtain ⟨y, e4, q4⟩ := (extreme_mem (fun a b : ℝ => decide (a < b)) P p2 q2).2
  refine ⟨x, y, ?_, q3, q4⟩
  unfold gridExtremes
  rw [e1, ok_bind, e3, ok_bind, e2, ok_bind, e4, ok_bind]

theorem replicate_tab {n m : ℕ} : (List.replicate n (List.replicate m 0) : List (List ℝ)) = tab n m fun _ _ => 0 := by
  unfold tab
  simp

/-- on a plane patch all factors are zero -/
theorem planePatch_factors {a b c : XYZ ℝ} (hne : b.cross c ≠ 0) {n m : ℕ} (hn : 2 ≤ n) (hm : 2 ≤ m) {us vs : ℕ → ℝ} {x y : ℝ} (hx : 0 < x) (hy : 0 < y)
    (hu : ∀ i, i < n → 0 ≤ us i ∧ us i ≤ 1) (hv : ∀ i, i < m → 0 ≤ vs i ∧ vs i ≤ 1) : delaunayFactors (planePatch a b c) n m us vs x y = ok (tab (n - 1) (m - 1) fun _ _ => 0) := by
  have hz : ∀ {k l : ℕ}, 0 < k → 0 < l → gridExtremes (tab k l fun _ _ => 0) = ok (0, 0) := by
    intro k l hk hl
    obtain ⟨x, y, e, rfl, rfl⟩ := extremes_tab hk hl (g := fun _ _ => 0) (fun x => x = 0) (fun _ _ => rfl)
    exact e
  have z0 : isAlmostEqualTo ((0 : ℝ) - 0) 0 = true := by rw [sub_self]; exact almost_self 0
  unfold delaunayFactors
  rw [gridR_ok (g := fun _ _ => 0) (fun i j hi hj => planePatch_curvature hne (hu i hi) (hv j hj)), ok_bind, gridR_ok (g := fun _ _ => 0), ok_bind, hz (by omega) (by omega), ok_bind]
  · dsimp only
    rw [if_pos z0, ok_bind, gridR_ok (g := fun i j => a + us i • b + vs j • c) (fun i j hi hj => planePatch_point a b c (hu i hi) (hv j hj)), ok_bind]
    generalize hP : tab n m (fun i j => a + us i • b + vs j • c) = P
    have hM : IsMat P n m := by rw [← hP]; exact isMat_tab
    rw [gridR_ok (g := fun i j => ((((ent P (i + 1) (j + 1) - ent P i j).cross (ent P (i + 1) j - ent P i j)).length / 2 + ((ent P i (j + 1) - ent P i j).cross (ent P (i + 1) (j + 1) - ent P i j)).length / 2)) / (x * y)), ok_bind]
    · obtain ⟨A, B, e, -, -⟩ := extremes_tab (n := n - 1) (m := m - 1) (by omega) (by omega) (g := fun i j => ((((ent P (i + 1) (j + 1) - ent P i j).cross (ent P (i + 1) j - ent P i j)).length / 2 +
        ((ent P i (j + 1) - ent P i j).cross (ent P (i + 1) (j + 1) - ent P i j)).length / 2)) / (x * y)) (fun _ => True) (fun _ _ => trivial)
      rw [e, ok_bind]
      dsimp only
      rw [if_pos z0, ok_bind, gridR_ok (g := fun _ _ => 0), ok_bind, hz (by omega) (by omega), ok_bind]
      · dsimp only
        rw [if_pos (almost_self 0)]
      · intro i j hi hj
        rw [replicate_tab, mget_ent (a := i) (b := j) isMat_tab rfl rfl hi hj, ok_bind, ent_tab hi hj, ok_bind]
        norm_num
    · intro i j hi hj
      rw [mget_ent (a := i) (b := j) hM rfl rfl (by omega) (by omega), ok_bind, mget_ent (a := i + 1) (b := j) hM (by push_cast; rfl) rfl (by omega) (by omega), ok_bind,
        mget_ent (a := i) (b := j + 1) hM rfl (by push_cast; rfl) (by omega) (by omega), ok_bind, mget_ent (a := i + 1) (b := j + 1) hM (by push_cast; rfl) (by push_cast; rfl) (by omega) (by omega), ok_bind]
      exact fdiv_ok (mul_pos hx hy).ne'
  · intro i j hi hj
    rw [mget_ent (a := i) (b := j) isMat_tab rfl rfl (by omega) (by omega), ok_bind, mget_ent (a := i + 1) (b := j) isMat_tab (by push_cast; rfl) rfl (by omega) (by omega), ok_bind,
      mget_ent (a := i) (b := j + 1) isMat_tab rfl (by push_cast; rfl) (by omega) (by omega), ok_bind, mget_ent (a := i + 1) (b := j + 1) isMat_tab (by push_cast; rfl) (by push_cast; rfl) (by omega) (by omega), ok_bind,
      ent_tab (by omega) (by omega), ent_tab (by omega) (by omega), ent_tab (by omega) (by omega), ent_tab (by omega) (by omega), max_self, max_self, max_self]

/-- with factors zero each cell gets four samples -/
theorem samples_zero (random : ℕ → ℝ) {n m : ℕ} (us vs : ℕ → ℝ) (hn : 2 ≤ n) (hm : 2 ≤ m) :
    Runs (delaunaySamples random n m us vs (tab (n - 1) (m - 1) fun _ _ => 0)) (fun r => r.1.length = 4 * ((n - 1) * (m - 1))) := by
  unfold delaunaySamples
  refine (Runs.forN (m := 0) (n := n - 1) (fun i (st : List (ℝ × ℝ) × ℕ) => st.1.length = 4 * (i * (m - 1))) rfl (by omega) (by omega) (by simp) ?_)
  rintro i st - hi hst
  refine (Runs.forN (m := 0) (n := m - 1) (fun j (st : List (ℝ × ℝ) × ℕ) => st.1.length = 4 * (i * (m - 1) + j)) rfl (by omega) (by omega) (by simpa using hst) ?_).mono (fun st h => by rw [h]; ring)
  rintro j st - hj hst
  dsimp only
  rw [mget_ent (a := i) (b := j) isMat_tab rfl rfl hi hj, ok_bind, ent_tab hi hj, if_pos (almost_self 0)]
  refine (Runs.forN (m := 0) (n := 3) (fun k (s : List (ℝ × ℝ) × ℕ) => s.1.length = 4 * (i * (m - 1) + j) + 1 + k) rfl rfl (by omega) (by simp [hst]) ?_).mono (fun st h => by rw [h]; ring)
  rintro k s - - hs
  refine Runs.ok ?_
  simp [hs]
  ring

/-- C164 is violated by every parallelogram (the square of its area is at least 1/1000): for all resolutions from two on the mesh has four vertices per cell, and none of them is on the far edges `u = 1` and `v = 1`, whatever the
random numbers of the half-open unit interval are. -/
theorem C164_edges_violated {random : ℕ → ℝ} (hr : ∀ k, 0 ≤ random k ∧ random k < 1) (triangles : List (ℝ × ℝ) → List (List ℤ)) {a b c : XYZ ℝ} (hD : 1 / 1000 ≤ b.dot b * c.dot c - b.dot c * b.dot c)
    {n m : ℕ} (hn : 2 ≤ n) (hm : 2 ≤ m) : ∃ mesh, triangulateDelaunay random triangles (planePatch a b c) n m = ok mesh ∧ mesh.vertices.length = 4 * ((n - 1) * (m - 1)) ∧
      (∀ i j : ℕ, i + 1 < n → j + 1 < m → a + ((i : ℝ) / ((n : ℝ) - 1)) • b + ((j : ℝ) / ((m : ℝ) - 1)) • c ∈ mesh.vertices) ∧
      ∀ Q ∈ mesh.vertices, ∀ t : ℝ, Q ≠ a + b + t • c ∧ Q ≠ a + t • b + c := by
  have hne := planePatch_cross hD
  have k0 : nth (planePatch a b c).knotsU 0 = 0 ∧ nth (planePatch a b c).knotsU ((planePatch a b c).knotsU.length - 1) = 1 ∧ nth (planePatch a b c).knotsV 0 = 0 ∧
    nth (planePatch a b c).knotsV ((planePatch a b c).knotsV.length - 1) = 1 := ⟨rfl, rfl, rfl, rfl⟩
  have frac : ∀ {k : ℕ}, 2 ≤ k → ∀ i, i < k → (0 : ℝ) ≤ 0 + i * ((1 - 0) / ((k : ℝ) - 1)) ∧ (0 : ℝ) + i * ((1 - 0) / ((k : ℝ) - 1)) ≤ 1 := by
    intro k hk i hi
    have h1 : (2 : ℝ) ≤ k := by exact_mod_cast hk
    have h2 : (i : ℝ) + 1 ≤ k := by exact_mod_cast hi
    have h3 : (0 : ℝ) ≤ i := Nat.cast_nonneg i
    have h4 : (0 : ℝ) < (k : ℝ) - 1 := by linarith
    rw [sub_zero, zero_add, mul_one_div]
    exact ⟨div_nonneg h3 h4.le, (div_le_one h4).mpr (by linarith)⟩
  have pos : ∀ {k : ℕ}, 2 ≤ k → (0 : ℝ) < (1 - 0) / ((k : ℝ) - 1) := by
    intro k hk
    have h1 : (2 : ℝ) ≤ k := by exact_mod_cast hk
    exact div_pos (by norm_num) (by linarith)
  have run : ∃ mesh, triangulateDelaunay random triangles (planePatch a b c) n m = ok mesh ∧ mesh.vertices.length = 4 * ((n - 1) * (m - 1)) := by
    unfold triangulateDelaunay
    have lU : (planePatch a b c).knotsU.length = 6 := rfl
    have lV : (planePatch a b c).knotsV.length = 6 := rfl
    rw [if_neg (by omega), vget_nth (i := 0) (k := 0) rfl (by omega), ok_bind, vget_nth (k := (planePatch a b c).knotsU.length - 1) (by omega) (by omega), ok_bind,
      vget_nth (i := 0) (k := 0) rfl (by omega), ok_bind, vget_nth (k := (planePatch a b c).knotsV.length - 1) (by omega) (by omega), ok_bind, k0.1, k0.2.1, k0.2.2.1, k0.2.2.2]
    dsimp only
    rw [planePatch_factors hne hn hm (pos hn) (pos hm) (frac hn) (frac hm), ok_bind]
    obtain ⟨⟨S, k⟩, e, hS⟩ := samples_zero random (fun i : ℕ => (0 : ℝ) + i * ((1 - 0) / ((n : ℝ) - 1))) (fun i : ℕ => (0 : ℝ) + i * ((1 - 0) / ((m : ℝ) - 1))) hn hm
    have hb := (samples_post hr zero_lt_one zero_lt_one hn hm e).1
    rw [e, ok_bind]
    dsimp only
    rw [mapR_ok (g := fun x : ℝ × ℝ => a + x.1 • b + x.2 • c), ok_bind]
    · exact ⟨_, rfl, by simpa using hS⟩
    · intro x hx
      obtain ⟨⟨a1, a2⟩, a3, a4⟩ := hb x hx
      exact planePatch_point a b c ⟨a1, a2.le⟩ ⟨a3, a4.le⟩
  obtain ⟨mesh, e, hl⟩ := run
  obtain ⟨h1, h2⟩ := C164_vertices_partial hr (by rw [k0.1, k0.2.1]; exact zero_lt_one) (by rw [k0.2.2.1, k0.2.2.2]; exact zero_lt_one) e
  rw [k0.1, k0.2.1, k0.2.2.1, k0.2.2.2] at h1 h2
  refine ⟨mesh, e, hl, ?_, ?_⟩
  · intro i j hi hj
    obtain ⟨Q, hQ, eQ⟩ := h2 i j hi hj
    rw [planePatch_point a b c (frac hn i (by omega)) (frac hm j (by omega))] at eQ
    have eQ := Res.ok.inj eQ
    rw [sub_zero, zero_add, zero_add, mul_one_div, mul_one_div] at eQ
    rw [eQ]
    exact hQ
  · have indep : ∀ x y : ℝ, x • b + y • c = 0 → x = 0 ∧ y = 0 := by
      intro x y h
      have e1 : x * b.x + y * c.x = 0 := congrArg XYZ.x h
      have e2 : x * b.y + y * c.y = 0 := congrArg XYZ.y h
      have e3 : x * b.z + y * c.z = 0 := congrArg XYZ.z h
      have f1 : x * b.dot b + y * b.dot c = 0 := by
        unfold XYZ.dot
        linear_combination b.x * e1 + b.y * e2 + b.z * e3
      have f2 : x * b.dot c + y * c.dot c = 0 := by
        unfold XYZ.dot
        linear_combination c.x * e1 + c.y * e2 + c.z * e3
      have hpos : b.dot b * c.dot c - b.dot c * b.dot c ≠ 0 := by
        exact ne_of_gt (lt_of_lt_of_le (by norm_num) hD)
      constructor
      · have : x * (b.dot b * c.dot c - b.dot c * b.dot c) = 0 := by linear_combination c.dot c * f1 - b.dot c * f2
        exact (mul_eq_zero.mp this).resolve_right hpos
      · have : y * (b.dot b * c.dot c - b.dot c * b.dot c) = 0 := by linear_combination b.dot b * f2 - b.dot c * f1
        exact (mul_eq_zero.mp this).resolve_right hpos
    intro Q hQ t
    obtain ⟨u, v, u0, u1, v0, v1, eQ⟩ := h1 Q hQ
    rw [planePatch_point a b c ⟨u0, u1.le⟩ ⟨v0, v1.le⟩] at eQ
    have eQ := Res.ok.inj eQ
    constructor
    · intro h
      have : (u - 1) • b + (v - t) • c = 0 := by
        have : a + u • b + v • c - (a + b + t • c) = 0 := by rw [eQ, h, sub_self]
        rw [← this]
        module
      linarith [(indep _ _ this).1]
    · intro h
      have : (u - t) • b + (v - 1) • c = 0 := by
        have : a + u • b + v • c - (a + t • b + c) = 0 := by rw [eQ, h, sub_self]
        rw [← this]
        module
      linarith [(indep _ _ this).2]

/-- C164 is violated: the range of the curvatures, and of the areas, that the density of the samples is scaled with is not their range. The rows of the grid are compared by their first entries, so whenever `x < y` the
second row alone gives the largest value and the first row alone the smallest, however large `z` and however small `t` are. -/
theorem C164_range_violated {x y : ℝ} (h : x < y) (z t : ℝ) : gridExtremes [[x, z], [y, t]] = ok (max y t, min x z) := by
  have h1 : rowLess [x, z] [y, t] = true := by unfold rowLess; rw [if_pos h]
  have h2 : rowLess [y, t] [x, z] = false := by unfold rowLess; rw [if_neg (not_lt.mpr h.le), if_pos h]
  unfold gridExtremes maxElement minElement
  simp only [List.foldl_cons, List.foldl_nil, h1, h2, ok_bind, if_true, Bool.false_eq_true, if_false, decide_eq_true_eq]
  have e1 : (if y < t then t else y) = max y t := by
    split_ifs with g
    · rw [max_eq_right g.le]
    · rw [max_eq_left (not_lt.mp g)]
  have e2 : (if z < x then z else x) = min x z := by
    split_ifs with g
    · rw [min_eq_right g.le]
    · rw [min_eq_left (not_lt.mp g)]
  rw [e1, e2]

/-- A concrete case: the largest of the four entries is 100, the smallest -50. -/
example : gridExtremes [[1, 100], [2, -50]] = ok (2, 1) := by
  rw [C164_range_violated (by norm_num)]
  norm_num

/-- The hypotheses are met: the sheared square with 3 by 4 samples, and the bilinear unit square. -/
example (triangles : List (ℝ × ℝ) → List (List ℤ)) : ∃ mesh, triangulateDelaunay (fun k => 1 / ((k : ℝ) + 2)) triangles shearPatch 3 4 = ok mesh ∧ mesh.vertices.length = 24 := by
  obtain ⟨mesh, e, h, -⟩ := C164_edges_violated (random := fun k => 1 / ((k : ℝ) + 2)) (fun k => by
    have : (0 : ℝ) ≤ k := Nat.cast_nonneg k
    exact ⟨by positivity, by rw [div_lt_one (by linarith)]; linarith⟩) triangles (a := 0) (b := ⟨1, 0, 0⟩) (c := ⟨1, 1, 0⟩) (by norm_num [XYZ.dot]) (n := 3) (m := 4) (by omega) (by omega)
  exact ⟨mesh, e, h⟩

example (random : ℕ → ℝ) (triangles : List (ℝ × ℝ) → List (List ℤ)) : triangulateDelaunay random triangles unitSquare 10 10 = invalidArg :=
  C164_linear_violated unitSquare_wf.1 unitSquare_wf.2 ⟨rfl, rfl⟩ ⟨rfl, rfl⟩ (Or.inl rfl) (by omega) (by omega)

end LNLib.Props
