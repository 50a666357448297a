import Verif.Model.SurfaceInterp
import Verif.Spec.Solver
import Verif.Props.Interp

/-!
# The linear system of the surface interpolation
-/

namespace LNLib.Props
open LNLib Res Spec Finset

variable {K : Type} [Field K] [LinearOrder K] [IsStrictOrderedRing K]

theorem idx_inj {C i j i' j' : ℕ} (hj : j < C) (hj' : j' < C) : i * C + j = i' * C + j' ↔ i = i' ∧ j = j' := by
  constructor
  · intro h
    have h1 := congrArg (· / C) h
    have h2 := congrArg (· % C) h
    simp only [mul_comm _ C, Nat.mul_add_div (by omega : C > 0), Nat.div_eq_of_lt hj, Nat.div_eq_of_lt hj', Nat.mul_add_mod, Nat.mod_eq_of_lt hj,
      Nat.mod_eq_of_lt hj'] at h1 h2
    omega
  · rintro ⟨rfl, rfl⟩; rfl

theorem idx_lt {R C i j : ℕ} (hi : i < R) (hj : j < C) : i * C + j < R * C := by
  have : (i + 1) * C ≤ R * C := Nat.mul_le_mul_right C (by omega)
  nlinarith

theorem sum_idx {M : Type} [AddCommMonoid M] (R C : ℕ) (f : ℕ → M) : ∑ k ∈ range (R * C), f k = ∑ r ∈ range R, ∑ c ∈ range C, f (r * C + c) := by
  induction R with
  | zero => simp
  | succ R ih => rw [Nat.succ_mul, sum_range_add, ih, sum_range_succ]

/-- what is known about the knots and parameters of one direction -/
structure Colloc (kv params : List K) (p n : ℕ) : Prop where
  pos : 0 < p
  le7 : p ≤ 7
  pn : p ≤ n
  len : params.length = n + 1
  knots : kv.length = n + p + 2
  zeros : ∀ i, i ≤ p → nth kv i = 0
  ones : ∀ i, n + 1 ≤ i → i ≤ n + p + 1 → nth kv i = 1
  sorted : ∀ i j, i ≤ j → j < kv.length → nth kv i ≤ nth kv j
  ends : EndsSeparated (nth kv) p n
  first : nth params 0 = 0
  last : nth params n = 1
  mono : ∀ i j, i ≤ j → j ≤ n → nth params i ≤ nth params j

/-- the basis functions at a parameter, as the code computes them -/
theorem Colloc.basis {kv params : List K} {p n : ℕ} (h : Colloc kv params p n) {i : ℕ} (hi : i ≤ n) :
    ∃ (s : ℕ) (out : List (Option K)), p ≤ s ∧ s ≤ n ∧ getKnotSpanIndex p kv (nth params i) = ok (s : ℤ) ∧
      basisFunctions s p kv (nth params i) (uninit K 8) = ok out ∧
      (∀ r, r ≤ p → aget out (r : ℤ) = ok (N (nth kv) (nth kv (n + 1)) p (s - p + r) (nth params i))) ∧
      ∀ j, j ≤ n → (j < s - p ∨ s < j) → N (nth kv) (nth kv (n + 1)) p j (nth params i) = 0 := by
  have hm : MonoTo (nth kv) (n + p + 1) := fun i j h1 h2 => h.sorted i j h1 (by rw [h.knots]; omega)
  have hpn := h.pn
  have hk := h.knots
  obtain ⟨s, es, hs⟩ := getKnotSpanIndex_isSpan (t := nth params i) h.knots hpn h.sorted h.ends
    (by rw [h.zeros p (le_refl _), ← h.first]; exact h.mono 0 i (by omega) hi)
    (by rw [h.ones (n + 1) (le_refl _) (by omega), ← h.last]; exact h.mono i n hi (le_refl _))
  have b0 : nth kv 0 ≤ nth params i := by rw [h.zeros 0 (by omega), ← h.first]; exact h.mono _ _ (by omega) (by omega)
  have b1 : nth params i ≤ nth kv (kv.length - 1) := by
    rw [hk, show n + p + 2 - 1 = n + p + 1 by omega, h.ones _ (by omega) (le_refl _), ← h.last]; exact h.mono _ _ (by omega) (by omega)
  have heps := doubleEps_pos (K := K)
  have a1 := hs.1
  have a2 := hs.2.1
  have hlp := h.pos
  have hle7 := h.le7
  obtain ⟨out, eo, -, ho'⟩ := basisFunctions_span (U := kv) (s := s) (p := p) (t := nth params i) (out := uninit K 8) h.le7 a1 (by omega) (by omega)
    (by simp [uninit]; omega) (isValidKnotVector_nth.mpr h.sorted) hs.2.2.1 (by linarith) (by linarith)
  refine ⟨s, out, a1, a2, es, eo, ?_, ?_⟩
  · intro r hr
    rw [ho' r hr, N_eq_Nspan hm (by omega) hs p (s - p + r) (by omega)]
  · intro j hj hout
    rw [N_eq_Nspan hm (by omega) hs p j (by omega), Nspan_zero _ _ _ _ _ (by omega)]

/-- the basis functions at the first and the last parameter -/
theorem Colloc.corner {kv params : List K} {p n : ℕ} (h : Colloc kv params p n) :
    (∀ j, j ≤ n → N (nth kv) (nth kv (n + 1)) p j (nth params 0) = if j = 0 then 1 else 0) ∧
      ∀ j, j ≤ n → N (nth kv) (nth kv (n + 1)) p j (nth params n) = if j = n then 1 else 0 := by
  have hm : MonoTo (nth kv) (n + p + 1) := fun i j h1 h2 => h.sorted i j h1 (by rw [h.knots]; omega)
  have hz := h.zeros
  have ho := h.ones
  have hpn := h.pn
  have hpp := h.pos
  have hpos1 : nth kv p < nth kv (p + 1) := by
    have := h.ends.first
    have h2 : 0 ≤ max |nth kv p| |nth kv (p + 1)| := le_max_of_le_left (abs_nonneg _)
    nlinarith
  have hpos2 : nth kv n < nth kv (n + 1) := by
    have := h.ends.last
    have h2 : 0 ≤ max |nth kv n| |nth kv (n + 1)| := le_max_of_le_left (abs_nonneg _)
    nlinarith
  have h0 := h.first
  have h1 := h.last
  have hs0 : IsSpan (nth kv) p n (nth params 0) p := ⟨le_refl _, hpn, hpos1, by rw [h0, hz p (le_refl _)], Or.inl (by rw [h0, ← hz p (le_refl _)]; exact hpos1)⟩
  have hsn : IsSpan (nth kv) p n (nth params n) n :=
    ⟨hpn, le_refl _, hpos2, by rw [h1, ← ho (n + 1) (le_refl _) (by omega)]; exact hpos2.le, Or.inr ⟨by rw [h1, ho (n + 1) (le_refl _) (by omega)], rfl⟩⟩
  constructor
  · intro j hj
    rw [N_eq_Nspan hm (by omega) hs0 p j (by omega), h0, ← hz p (le_refl _), Nspan_start (fun i _ hi => by rw [hz i hi, hz p (le_refl _)]) hpos1 p (le_refl _) j,
      Nat.sub_self, hz p (le_refl _)]
  · intro j hj
    rw [N_eq_Nspan hm (by omega) hsn p j (by omega), h1, ← ho (n + 1) (le_refl _) (by omega),
      Nspan_end (p := p) (fun i h2 h3 => by rw [ho i h2 (by omega), ho (n + 1) (le_refl _) (by omega)]) hpos2 p (le_refl _) j, ho (n + 1) (le_refl _) (by omega)]

/-- the sum of the basis functions at a parameter -/
theorem Colloc.sum_one {kv params : List K} {p n : ℕ} (h : Colloc kv params p n) {i : ℕ} (hi : i ≤ n) :
    ∑ j ∈ range (n + 1), N (nth kv) (nth kv (n + 1)) p j (nth params i) = 1 := by
  have hm : MonoTo (nth kv) (n + p + 1) := fun i j h1 h2 => h.sorted i j h1 (by rw [h.knots]; omega)
  obtain ⟨s, -, hs⟩ := getKnotSpanIndex_isSpan (t := nth params i) h.knots h.pn h.sorted h.ends
    (by rw [h.zeros p (le_refl _), ← h.first]; exact h.mono 0 i (by omega) hi)
    (by rw [h.ones (n + 1) (le_refl _) (by omega), ← h.last]; exact h.mono i n hi (le_refl _))
  exact (basis_convex hm hs).2

/-- The matrix of the system. `kU`, `uk` have to fit the columns of the grid and `kV`, `vl` its rows. -/
theorem surfaceSystem_run {kU kV uk vl : List K} {p q a b : ℕ} (hU : Colloc kU uk p b) (hV : Colloc kV vl q a) :
    Runs (surfaceSystem (a + 1) (b + 1) p q kU kV uk vl) (fun A => IsMat A ((a + 1) * (b + 1)) ((a + 1) * (b + 1)) ∧
      ∀ i j r c, i ≤ a → j ≤ b → r ≤ a → c ≤ b → ent A (i * (b + 1) + j) (r * (b + 1) + c) =
        N (nth kV) (nth kV (a + 1)) q r (nth vl i) * N (nth kU) (nth kU (b + 1)) p c (nth uk j)) := by
  unfold surfaceSystem
  dsimp only
  obtain ⟨T, hT⟩ : ∃ T, (a + 1) * (b + 1) = T := ⟨_, rfl⟩
  rw [hT]
  have hlt : ∀ {i j : ℕ}, i ≤ a → j ≤ b → i * (b + 1) + j < T := fun hi hj => by rw [← hT]; exact idx_lt (by omega) (by omega)
  have cols_pos : (0 : ℤ) ≤ ((b + 1 : ℕ) : ℤ) := by positivity
  refine (Runs.forN (m := 0) (n := a + 1) (fun i' (A : List (List K)) => IsMat A T T ∧
      ∀ i j r c, i ≤ a → j ≤ b → r ≤ a → c ≤ b → ent A (i * (b + 1) + j) (r * (b + 1) + c) =
        if i < i' then N (nth kV) (nth kV (a + 1)) q r (nth vl i) * N (nth kU) (nth kU (b + 1)) p c (nth uk j) else 0)
      rfl rfl (by omega) ⟨isMat_replicate, ?_⟩ ?_).mono ?_
  · intro i j r c _ _ _ _
    rw [if_neg (by omega), ent_replicate_zero]
  · rintro i A - hi ⟨g1, g2⟩
    refine (Runs.forN (m := 0) (n := b + 1) (fun j' (A : List (List K)) => IsMat A T T ∧
      ∀ i' j r c, i' ≤ a → j ≤ b → r ≤ a → c ≤ b → ent A (i' * (b + 1) + j) (r * (b + 1) + c) =
        if i' < i ∨ (i' = i ∧ j < j') then N (nth kV) (nth kV (a + 1)) q r (nth vl i') * N (nth kU) (nth kU (b + 1)) p c (nth uk j) else 0)
      rfl rfl (by omega) ⟨g1, ?_⟩ ?_).mono ?_
    · intro i' j r c h1 h2 h3 h4
      rw [g2 i' j r c h1 h2 h3 h4]
      have : (i' < i ∨ (i' = i ∧ j < 0)) ↔ i' < i := by omega
      simp only [this]
    · rintro j A - hj ⟨g1, g2⟩
      by_cases hcorner : ((i : ℤ) = 0 ∨ (i : ℤ) = ((a + 1 : ℕ) : ℤ) - 1) ∧ ((j : ℤ) = 0 ∨ (j : ℤ) = ((b + 1 : ℕ) : ℤ) - 1)
      · rw [if_pos hcorner]
        have hv : ∀ r, r ≤ a → N (nth kV) (nth kV (a + 1)) q r (nth vl i) = if r = i then 1 else 0 := by
          intro r hr
          obtain ⟨h1 | h1, -⟩ := hcorner
          · have : i = 0 := by omega
            subst this
            exact hV.corner.1 r hr
          · have : i = a := by omega
            subst this
            exact hV.corner.2 r hr
        have hu : ∀ c, c ≤ b → N (nth kU) (nth kU (b + 1)) p c (nth uk j) = if c = j then 1 else 0 := by
          intro c hc
          obtain ⟨-, h1 | h1⟩ := hcorner
          · have : j = 0 := by omega
            subst this
            exact hU.corner.1 c hc
          · have : j = b := by omega
            subst this
            exact hU.corner.2 c hc
        obtain ⟨B, eB, q1, q2⟩ := mset_ok g1 (i := (i : ℤ) * ((b + 1 : ℕ) : ℤ) + j) (j := (i : ℤ) * ((b + 1 : ℕ) : ℤ) + j) (a := i * (b + 1) + j) (b := i * (b + 1) + j) (x := (1 : K))
          (by push_cast; ring) (by push_cast; ring) (hlt (by omega) (by omega)) (hlt (by omega) (by omega))
        refine ⟨B, eB, q1, ?_⟩
        intro i' j' r c h1 h2 h3 h4
        rw [q2, g2 i' j' r c h1 h2 h3 h4]
        simp only [idx_inj (C := b + 1) (i := i') (j := j') (i' := i) (j' := j) (by omega) (by omega), idx_inj (C := b + 1) (i := r) (j := c) (i' := i) (j' := j) (by omega) (by omega)]
        by_cases hij : i' = i ∧ j' = j
        · obtain ⟨rfl, rfl⟩ := hij
          rw [hv r h3, hu c h4]
          have c2 : i' < i' ∨ (i' = i' ∧ j' < j' + 1) := Or.inr ⟨rfl, by omega⟩
          have c3 : ¬ (i' < i' ∨ (i' = i' ∧ j' < j')) := by omega
          rw [if_pos c2, if_neg c3]
          by_cases hr : r = i' <;> by_cases hc : c = j' <;> simp [hr, hc]
        · rw [if_neg (fun h => hij h.1)]
          have : (i' < i ∨ (i' = i ∧ j' < j + 1)) ↔ (i' < i ∨ (i' = i ∧ j' < j)) := by omega
          simp only [this]
      · rw [if_neg hcorner, vget_nth (k := j) rfl (by rw [hU.len]; omega), ok_bind, vget_nth (k := i) rfl (by rw [hV.len]; omega), ok_bind]
        obtain ⟨sU, oU, u1, u2, u3, u4, u5, u6⟩ := hU.basis (i := j) (by omega)
        obtain ⟨sV, oV, v1, v2, v3, v4, v5, v6⟩ := hV.basis (i := i) (by omega)
        rw [u3, ok_bind, v3, ok_bind, u4, ok_bind, v4, ok_bind]
        refine (Runs.forN (m := 0) (n := q + 1) (fun l (B : List (List K)) => IsMat B T T ∧
          ∀ i' j' r c, i' ≤ a → j' ≤ b → r ≤ a → c ≤ b → ent B (i' * (b + 1) + j') (r * (b + 1) + c) =
            if (i' = i ∧ j' = j) ∧ (sV - q ≤ r ∧ r < sV - q + l) ∧ (sU - p ≤ c ∧ c ≤ sU) then
              N (nth kV) (nth kV (a + 1)) q r (nth vl i) * N (nth kU) (nth kU (b + 1)) p c (nth uk j) else ent A (i' * (b + 1) + j') (r * (b + 1) + c))
          rfl (by push_cast; ring) (by omega) ⟨g1, by intro i' j' r c _ _ _ _; rw [if_neg (by omega)]⟩ ?_).mono ?_
        · rintro l B - hl ⟨b1, b2⟩
          rw [if_neg (by push_cast; omega)]
          refine (Runs.forN (m := 0) (n := p + 1) (fun k (D : List (List K)) => IsMat D T T ∧
            ∀ i' j' r c, i' ≤ a → j' ≤ b → r ≤ a → c ≤ b → ent D (i' * (b + 1) + j') (r * (b + 1) + c) =
              if (i' = i ∧ j' = j) ∧ r = sV - q + l ∧ (sU - p ≤ c ∧ c < sU - p + k) then
                N (nth kV) (nth kV (a + 1)) q r (nth vl i) * N (nth kU) (nth kU (b + 1)) p c (nth uk j) else ent B (i' * (b + 1) + j') (r * (b + 1) + c))
            rfl (by push_cast; ring) (by omega) ⟨b1, by intro i' j' r c _ _ _ _; rw [if_neg (by omega)]⟩ ?_).mono ?_
          · rintro k D - hk ⟨d1, d2⟩
            rw [if_neg (by push_cast; omega), v5 l (by omega), ok_bind, u5 k (by omega), ok_bind]
            have er : (sV : ℤ) - q + l = ((sV - q + l : ℕ) : ℤ) := by push_cast; omega
            have ec : (sU : ℤ) - p + k = ((sU - p + k : ℕ) : ℤ) := by push_cast; omega
            obtain ⟨E, eE, q1, q2⟩ := mset_ok d1 (i := (i : ℤ) * ((b + 1 : ℕ) : ℤ) + j) (j := ((sV : ℤ) - q + l) * ((b + 1 : ℕ) : ℤ) + ((sU : ℤ) - p + k))
              (a := i * (b + 1) + j) (b := (sV - q + l) * (b + 1) + (sU - p + k))
              (x := N (nth kV) (nth kV (a + 1)) q (sV - q + l) (nth vl i) * N (nth kU) (nth kU (b + 1)) p (sU - p + k) (nth uk j))
              (by push_cast; ring) (by rw [er, ec]; push_cast; ring) (hlt (by omega) (by omega)) (hlt (by omega) (by omega))
            refine ⟨E, eE, q1, ?_⟩
            intro i' j' r c h1 h2 h3 h4
            rw [q2, d2 i' j' r c h1 h2 h3 h4]
            simp only [idx_inj (C := b + 1) (i := i') (j := j') (i' := i) (j' := j) (by omega) (by omega),
              idx_inj (C := b + 1) (i := r) (j := c) (i' := sV - q + l) (j' := sU - p + k) (by omega) (by omega)]
            by_cases hx : (i' = i ∧ j' = j) ∧ r = sV - q + l ∧ c = sU - p + k
            · obtain ⟨hx1, rfl, rfl⟩ := hx
              have y1 : (i' = i ∧ j' = j) ∧ sV - q + l = sV - q + l ∧ sU - p ≤ sU - p + k ∧ sU - p + k < sU - p + (k + 1) := ⟨hx1, rfl, by omega, by omega⟩
              rw [if_pos ⟨hx1, rfl, rfl⟩, if_pos y1]
            · rw [if_neg hx]
              have : ((i' = i ∧ j' = j) ∧ r = sV - q + l ∧ sU - p ≤ c ∧ c < sU - p + (k + 1)) ↔ ((i' = i ∧ j' = j) ∧ r = sV - q + l ∧ sU - p ≤ c ∧ c < sU - p + k) := by omega
              simp only [this]
          · rintro D ⟨d1, d2⟩
            refine ⟨d1, ?_⟩
            intro i' j' r c h1 h2 h3 h4
            rw [d2 i' j' r c h1 h2 h3 h4, b2 i' j' r c h1 h2 h3 h4]
            by_cases hx : (i' = i ∧ j' = j) ∧ r = sV - q + l ∧ (sU - p ≤ c ∧ c ≤ sU)
            · have y1 : (i' = i ∧ j' = j) ∧ r = sV - q + l ∧ sU - p ≤ c ∧ c < sU - p + (p + 1) := by omega
              have y2 : (i' = i ∧ j' = j) ∧ (sV - q ≤ r ∧ r < sV - q + (l + 1)) ∧ (sU - p ≤ c ∧ c ≤ sU) := by omega
              rw [if_pos y1, if_pos y2]
            · have y1 : ¬ ((i' = i ∧ j' = j) ∧ r = sV - q + l ∧ sU - p ≤ c ∧ c < sU - p + (p + 1)) := by omega
              rw [if_neg y1]
              have : ((i' = i ∧ j' = j) ∧ (sV - q ≤ r ∧ r < sV - q + (l + 1)) ∧ (sU - p ≤ c ∧ c ≤ sU)) ↔
                  ((i' = i ∧ j' = j) ∧ (sV - q ≤ r ∧ r < sV - q + l) ∧ (sU - p ≤ c ∧ c ≤ sU)) := by omega
              simp only [this]
        · rintro B ⟨b1, b2⟩
          refine ⟨b1, ?_⟩
          intro i' j' r c h1 h2 h3 h4
          rw [b2 i' j' r c h1 h2 h3 h4, g2 i' j' r c h1 h2 h3 h4]
          by_cases hij : i' = i ∧ j' = j
          · obtain ⟨rfl, rfl⟩ := hij
            have c2 : i' < i' ∨ (i' = i' ∧ j' < j' + 1) := Or.inr ⟨rfl, by omega⟩
            have c3 : ¬ (i' < i' ∨ (i' = i' ∧ j' < j')) := by omega
            rw [if_pos c2, if_neg c3]
            split_ifs with hx
            · rfl
            · by_cases hr : sV - q ≤ r ∧ r < sV - q + (q + 1)
              · rw [u6 c h4 (by omega), mul_zero]
              · rw [v6 r h3 (by omega), zero_mul]
          · rw [if_neg (fun h => hij h.1)]
            have : (i' < i ∨ (i' = i ∧ j' < j + 1)) ↔ (i' < i ∨ (i' = i ∧ j' < j)) := by omega
            simp only [this]
    · rintro A ⟨g1, g2⟩
      refine ⟨g1, ?_⟩
      intro i' j r c h1 h2 h3 h4
      rw [g2 i' j r c h1 h2 h3 h4]
      have : (i' < i ∨ (i' = i ∧ j < b + 1)) ↔ i' < i + 1 := by omega
      simp only [this]
  · rintro A ⟨g1, g2⟩
    refine ⟨g1, ?_⟩
    intro i j r c h1 h2 h3 h4
    rw [g2 i j r c h1 h2 h3 h4, if_pos (by omega)]

end LNLib.Props
