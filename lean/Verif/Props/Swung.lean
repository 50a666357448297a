import Verif.Model.Swung
import Verif.Spec.Swung
import Verif.Props.SweepFrames
import Verif.Props.LeastSquares
import Verif.Lemmas.SurfaceSystem

/-!
# C134: swung surfaces
-/
set_option linter.unusedSectionVars false

namespace LNLib.Props
open LNLib Res LNLib.Spec Finset

/-! ## Two runs side by side -/

/-- both runs stop in the same way, or both end in related states -/
def Both {σ : Type} (R : σ → σ → Prop) (x y : Res σ) : Prop := (∃ a b, x = ok a ∧ y = ok b ∧ R a b) ∨ (x = y ∧ ∀ a, x ≠ ok a)

theorem Both.bind {σ τ : Type} {R : σ → σ → Prop} {Q : τ → τ → Prop} {x y : Res σ} {f g : σ → Res τ} (h : Both R x y)
    (hf : ∀ a b, x = ok a → R a b → Both Q (f a) (g b)) : Both Q (x >>= f) (y >>= g) := by
  rcases h with ⟨a, b, rfl, rfl, hr⟩ | ⟨rfl, h⟩
  · exact hf a b rfl hr
  · right
    cases x with
    | ok a => exact absurd rfl (h a)
    | _ => exact ⟨rfl, fun a h => by cases h⟩

theorem Both.same {σ τ : Type} {Q : τ → τ → Prop} {x : Res σ} {f g : σ → Res τ} (hf : ∀ a, x = ok a → Both Q (f a) (g a)) : Both Q (x >>= f) (x >>= g) := by
  refine Both.bind (R := fun a b => a = b) ?_ fun a b h e => by subst e; exact hf a h
  cases x with
  | ok a => exact Or.inl ⟨a, a, rfl, rfl, rfl⟩
  | _ => exact Or.inr ⟨rfl, fun a h => by cases h⟩

theorem Both.ok {σ : Type} {R : σ → σ → Prop} {a b : σ} (h : R a b) : Both R (ok a) (ok b) := Or.inl ⟨a, b, rfl, rfl, h⟩

theorem Both.eq {σ : Type} {x y : Res σ} (h : Both (fun a b => a = b) x y) : x = y := by
  rcases h with ⟨a, b, rfl, rfl, rfl⟩ | ⟨h, -⟩
  · rfl
  · exact h

theorem Both.forI {σ : Type} {body body' : ℤ → σ → Res σ} (R : ℤ → σ → σ → Prop) {b : ℤ} : ∀ (n : ℕ) (a : ℤ) (s s' : σ), b - a = n → R a s s' →
    (∀ i s s', a ≤ i → i < b → R i s s' → Both (R (i + 1)) (body i s) (body' i s')) → Both (R b) (LNLib.forI a b s body) (LNLib.forI a b s' body') := by
  intro n
  induction n with
  | zero =>
    intro a s s' h h0 _
    rw [forI_empty (by omega), forI_empty (by omega)]
    rw [show b = a by omega]
    exact Both.ok h0
  | succ n ih =>
    intro a s s' h h0 step
    rw [forI_head (by omega), forI_head (by omega)]
    refine Both.bind (step a s s' le_rfl (by omega) h0) fun x y _ hxy => ?_
    exact ih (a + 1) x y (by omega) hxy fun i s s' h1 h2 => step i s s' (by omega) h2

/-! ## The parts -/

/-- the parameters of the positions -/
theorem swungParams_run {K : Type} [Field K] [LinearOrder K] [IsStrictOrderedRing K] {U : List K} {q m : ℕ} (hq : 0 < q) (hm : 1 ≤ m) (hl : U.length = m + q + 2)
    (hs : ∀ i j, i ≤ j → j < U.length → nth U i ≤ nth U j) (hc : ClampedEnds (nth U) q m) :
    ∃ vl, swungParams (q : ℤ) ((m : ℤ) + 1) U = ok vl ∧ vl.length = m + 1 ∧ ∀ k ≤ m, nth vl k = greville (nth U) q k := by
  have hqK : ((q : ℤ) : K) ≠ 0 := by
    have : (q : K) ≠ 0 := by simpa using hq.ne'
    exact_mod_cast this
  have hqp : (0 : K) < q := by exact_mod_cast hq
  have g0 : greville (nth U) q 0 = nth U q := by
    obtain ⟨g0, -⟩ := greville_range hq hl hs hc (k := 0) (by omega)
    refine le_antisymm ?_ g0
    unfold greville
    rw [div_le_iff₀ hqp]
    calc _ ≤ ∑ _i ∈ range q, nth U q := sum_le_sum fun i hi => hs _ _ (by have := mem_range.mp hi; omega) (by omega)
      _ = _ := by rw [sum_const, card_range, nsmul_eq_mul]; ring
  have gm : greville (nth U) q m = nth U (m + 1) := by
    obtain ⟨-, g1⟩ := greville_range hq hl hs hc (k := m) (by omega)
    refine le_antisymm g1 ?_
    unfold greville
    rw [le_div_iff₀ hqp]
    calc _ = ∑ _i ∈ range q, nth U (m + 1) := by rw [sum_const, card_range, nsmul_eq_mul]; ring
      _ ≤ _ := sum_le_sum fun i hi => hs _ _ (by omega) (by have := mem_range.mp hi; omega)
  change Runs (swungParams (q : ℤ) ((m : ℤ) + 1) U) (fun vk => vk.length = m + 1 ∧ ∀ k ≤ m, nth vk k = greville (nth U) q k)
  unfold swungParams
  rw [vget_nth (k := q) rfl (by omega), ok_bind, vset_of (i := 0) (k := 0) rfl (by simp), ok_bind, vget_nth (k := m + 1) (by omega) (by omega), ok_bind,
    vset_of (k := m) (by ring) (by simp), ok_bind]
  refine (Runs.forN (m := 1) (n := m) (fun k (vk : List K) => vk.length = m + 1 ∧ nth vk 0 = nth U q ∧ nth vk m = nth U (m + 1) ∧
    ∀ j, 1 ≤ j → j < k → nth vk j = greville (nth U) q j) rfl (by ring) hm ⟨by simp, ?_, ?_, fun j h1 h2 => by omega⟩ ?_).mono ?_
  · rw [nth_set (by simp), if_neg (by omega), nth_set (by simp), if_pos rfl]
  · rw [nth_set (by simp), if_pos rfl]
  · rintro k vk h1 h2 ⟨i1, i2, i3, i4⟩
    rw [vset_of (k := k) rfl (by omega), ok_bind]
    refine Runs.bind (Q := fun l : List K => l.length = m + 1 ∧ nth l k = ∑ i ∈ range q, nth U (k + 1 + i) ∧ ∀ j, j ≠ k → nth l j = nth vk j) ?_ ?_
    · refine (Runs.forN (m := k + 1) (n := k + q + 1) (fun i (l : List K) => l.length = m + 1 ∧ nth l k = ∑ i ∈ range (i - (k + 1)), nth U (k + 1 + i) ∧ ∀ j, j ≠ k → nth l j = nth vk j)
        (by push_cast; ring) (by push_cast; ring) (by omega) ⟨by simp [i1], ?_, fun j hj => ?_⟩ ?_).mono ?_
      · rw [nth_set (by omega), if_pos rfl]; simp
      · rw [nth_set (by omega), if_neg hj]
      · rintro i l hi1 hi2 ⟨j1, j2, j3⟩
        rw [vget_nth (k := k) rfl (by omega), ok_bind, vget_nth (k := i) rfl (by omega), ok_bind, vset_of (k := k) rfl (by omega)]
        refine Runs.ok ⟨by simp [j1], ?_, fun j hj => ?_⟩
        · rw [nth_set (by omega), if_pos rfl, show i + 1 - (k + 1) = i - (k + 1) + 1 by omega, sum_range_succ, j2, show k + 1 + (i - (k + 1)) = i by omega]
        · rw [nth_set (by omega), if_neg hj]; exact j3 j hj
      · rintro l ⟨j1, j2, j3⟩
        refine ⟨j1, ?_, j3⟩
        rw [j2, show k + q + 1 - (k + 1) = q by omega]
    · rintro l ⟨j1, j2, j3⟩
      rw [vget_nth (k := k) rfl (by omega), ok_bind, fdiv_ok hqK, ok_bind, vset_of (k := k) rfl (by omega)]
      refine Runs.ok ⟨by simp [j1], ?_, ?_, fun j hj1 hj2 => ?_⟩
      · rw [nth_set (by omega), if_neg (by omega), j3 0 (by omega)]; exact i2
      · rw [nth_set (by omega), if_neg (by omega), j3 m (by omega)]; exact i3
      · rw [nth_set (by omega)]
        by_cases e : j = k
        · subst e
          rw [if_pos rfl, j2]
          unfold greville
          norm_cast
        · rw [if_neg e, j3 j e]; exact i4 j hj1 (by omega)
  · rintro vk ⟨i1, i2, i3, i4⟩
    refine ⟨i1, fun k hk => ?_⟩
    rcases Nat.eq_zero_or_pos k with e | e
    · subst e; rw [i2, g0]
    · by_cases e' : k = m
      · subst e'; rw [i3, gm]
      · exact i4 k e (by omega)

/-- the matrix of a position is affine -/
theorem swungMatrix_of_ok {T Bv : NurbsCurve ℝ} {v : ℝ} {A : Matrix4d ℝ} (h : swungMatrix T Bv v = ok A) :
    IsAffine A ∧ ∃ l b o, NurbsCurve.rationalDerivatives T 1 v = ok l ∧ NurbsCurve.pointOnCurve Bv v = ok b ∧ NurbsCurve.pointOnCurve T v = ok o ∧
      ∀ a, affineImage A a = framePoint (o + ⟨0, 0, 1⟩) (b.normalize.cross (nth l 1).normalize) (nth l 1).normalize b.normalize a := by
  unfold swungMatrix at h
  obtain ⟨l, hl, h⟩ := bind_eq_ok.mp h
  obtain ⟨d, hd, h⟩ := bind_eq_ok.mp h
  obtain ⟨b, hb, h⟩ := bind_eq_ok.mp h
  obtain ⟨o, ho, h⟩ := bind_eq_ok.mp h
  dsimp only at h
  have hlen : 1 < l.length := by
    by_contra hh
    rw [vget_ge (by omega)] at hd
    cases hd
  rw [vget_nth (i := 1) (k := 1) rfl hlen] at hd
  have hd := Res.ok.inj hd
  subst hd
  have h := Res.ok.inj h
  subst h
  refine ⟨⟨?_, ?_, ?_, ?_⟩, l, b, o, hl, hb, ho, fun a => ?_⟩
  · simp [Matrix4d.multiply, Matrix4d.createTranslation, Matrix4d.ofBasis]
  · simp [Matrix4d.multiply, Matrix4d.createTranslation, Matrix4d.ofBasis]
  · simp [Matrix4d.multiply, Matrix4d.createTranslation, Matrix4d.ofBasis]
  · simp [Matrix4d.multiply, Matrix4d.createTranslation, Matrix4d.ofBasis]
  · ext <;> simp [affineImage, Matrix4d.multiply, Matrix4d.createTranslation, Matrix4d.ofBasis, framePoint] <;> ring

/-- the net of the placed points -/
theorem swungPlace_of_ok {profile T Bv : NurbsCurve ℝ} {scale : ℝ} {vl : List ℝ} {n m : ℕ} {net : List (List (XYZW ℝ))} (hn : profile.cps.length = n + 1) (hvl : vl.length = m + 1)
    (hw : ∀ a ∈ profile.cps, scale * a.w ≠ 0) (h : swungPlace profile T Bv scale ((m : ℤ) + 1) vl = ok net) :
    IsMat net (n + 1) (m + 1) ∧ ∃ A : ℕ → Matrix4d ℝ, ∀ k ≤ m, swungMatrix T Bv (nth vl k) = ok (A k) ∧ ∀ i ≤ n, ent net i k = liftW (A k) (scale • nth profile.cps i) := by
  unfold swungPlace at h
  have key := forI_post (Inv := fun i (s : List (List (XYZW ℝ))) => IsMat s (n + 1) (m + 1) ∧ ∃ A : ℕ → Matrix4d ℝ, ∀ k : ℕ, (k : ℤ) < i →
    swungMatrix T Bv (nth vl k) = ok (A k) ∧ ∀ i ≤ n, ent s i k = liftW (A k) (scale • nth profile.cps i)) (by omega)
    ⟨?_, fun _ => Matrix4d.identity, fun k hk => by omega⟩ ?_ h
  · obtain ⟨h1, A, hA⟩ := key
    exact ⟨h1, A, fun k hk => hA k (by omega)⟩
  · rw [hn, show ((m : ℤ) + 1).toNat = m + 1 by omega]
    exact isMat_replicate
  · rintro k s s' h0 h1 ⟨hM, A, hA⟩ hs
    obtain ⟨k, rfl⟩ := Int.eq_ofNat_of_zero_le h0
    rw [vget_nth (k := k) rfl (by omega), ok_bind] at hs
    obtain ⟨Ak, hAk, hs⟩ := bind_eq_ok.mp hs
    have haff := (swungMatrix_of_ok hAk).1
    have hrun : Runs (LNLib.forI 0 (profile.cps.length : ℤ) s fun i net => do
        let a ← vget profile.cps i
        let x ← Ak.ofWeightedPoint (scale • a)
        mset net i k x) (fun r => IsMat r (n + 1) (m + 1) ∧ ∀ a b, ent r a b = if b = k ∧ a ≤ n then liftW Ak (scale • nth profile.cps a) else ent s a b) := by
      refine (Runs.forN (m := 0) (n := n + 1) (fun i (r : List (List (XYZW ℝ))) => IsMat r (n + 1) (m + 1) ∧ ∀ a b, ent r a b = if b = k ∧ a < i then liftW Ak (scale • nth profile.cps a) else ent s a b)
        rfl (by rw [hn]) (by omega) ⟨hM, fun a b => by rw [if_neg (by omega)]⟩ ?_).mono fun r h => ⟨h.1, fun a b => by rw [h.2]; simp⟩
      rintro i r - hi ⟨r1, r2⟩
      rw [vget_nth (k := i) rfl (by omega), ok_bind, ofWeightedPoint_affine haff (hw _ (mem_of_nth (by omega))), ok_bind]
      obtain ⟨r', e1, e2, e3⟩ := mset_ok (x := liftW Ak (scale • nth profile.cps i)) r1 (i := (i : ℤ)) (j := (k : ℤ)) rfl rfl hi (by omega)
      refine ⟨r', e1, e2, fun a b => ?_⟩
      rw [e3, r2]
      by_cases c1 : a = i ∧ b = k
      · rw [if_pos c1, if_pos (by omega), c1.1]
      · rw [if_neg c1]
        by_cases c2 : b = k ∧ a < i
        · rw [if_pos c2, if_pos (by omega)]
        · rw [if_neg c2, if_neg (by omega)]
    obtain ⟨r, er, r1, r2⟩ := hrun
    rw [er] at hs
    have hs := Res.ok.inj hs
    subst hs
    refine ⟨r1, fun j => if j = k then Ak else A j, fun j hj => ?_⟩
    by_cases e : j = k
    · subst e
      dsimp only
      rw [if_pos rfl]
      exact ⟨hAk, fun i hi => by rw [r2, if_pos ⟨rfl, hi⟩]⟩
    · dsimp only
      rw [if_neg e]
      obtain ⟨a1, a2⟩ := hA j (by omega)
      exact ⟨a1, fun i hi => by rw [r2, if_neg (by omega)]; exact a2 i hi⟩

/-- the points a row is interpolated through -/
theorem swungThrough_run {net : List (List (XYZW ℝ))} {n m i : ℕ} (hM : IsMat net (n + 1) (m + 1)) (hi : i ≤ n) (hr : (row net 0).length = m + 1) :
    (LNLib.forI 0 ((row net 0).length : ℤ) (List.replicate (row net 0).length (0 : XYZ ℝ)) fun k t => do
      let x ← mget net (i : ℤ) k
      vset t k x.toXYZ) = ok ((List.range (m + 1)).map fun k => (ent net i k).toXYZ) := by
  have hrun : Runs (LNLib.forI 0 ((row net 0).length : ℤ) (List.replicate (row net 0).length (0 : XYZ ℝ)) fun k t => do
      let x ← mget net (i : ℤ) k
      vset t k x.toXYZ) (fun t => t.length = m + 1 ∧ ∀ k < m + 1, nth t k = (ent net i k).toXYZ) := by
    rw [hr]
    refine (Runs.forN (m := 0) (n := m + 1) (fun k (t : List (XYZ ℝ)) => t.length = m + 1 ∧ ∀ j < k, nth t j = (ent net i j).toXYZ) rfl rfl (by omega)
      ⟨by simp, fun j hj => by omega⟩ ?_).mono fun _ h => h
    rintro k t - hk ⟨t1, t2⟩
    rw [mget_ent hM rfl rfl (by omega) hk, ok_bind, vset_of (k := k) rfl (by omega)]
    refine Runs.ok ⟨by simp [t1], fun j hj => ?_⟩
    rw [nth_set (by omega)]
    by_cases e : j = k
    · rw [if_pos e, e]
    · rw [if_neg e]; exact t2 j (by omega)
  obtain ⟨t, e, t1, t2⟩ := hrun
  rw [e]
  congr 1
  apply ext_nth (by simp [t1])
  intro k hk
  rw [t2 k (by omega), nth_map (by simp; omega)]
  congr 2
  rw [nth_eq_getElem (by simp; omega)]
  simp

/-- the rows are replaced one after the other -/
theorem swungRows_of_ok {solve : List (List ℝ) → List (List ℝ) → Res (List (List ℝ))} {q : ℤ} {vl : List ℝ} {net net' : List (List (XYZW ℝ))} {n m : ℕ} (hM : IsMat net (n + 1) (m + 1))
    (h : swungRows solve q vl net = ok net') :
    IsMat net' (n + 1) (m + 1) ∧ ∀ i ≤ n, ∃ R, globalInterpolation solve q ((List.range (m + 1)).map fun k => (ent net i k).toXYZ) vl = ok R ∧ ∀ k ≤ m, ent net' i k = nth R.cps k := by
  unfold swungRows at h
  have key := forI_post (Inv := fun (i : ℤ) (s : List (List (XYZW ℝ))) => IsMat s (n + 1) (m + 1) ∧ (∀ a b : ℕ, i ≤ (a : ℤ) → ent s a b = ent net a b) ∧
    ∀ j : ℕ, (j : ℤ) < i → ∃ R, globalInterpolation solve q ((List.range (m + 1)).map fun k => (ent net j k).toXYZ) vl = ok R ∧ ∀ k ≤ m, ent s j k = nth R.cps k) (by omega)
    ⟨hM, fun _ _ _ => rfl, fun k hk => by omega⟩ ?_ h
  · obtain ⟨h1, -, h2⟩ := key
    exact ⟨h1, fun i hi => h2 i (by rw [hM.1]; omega)⟩
  · rintro i s s' h0 h1 ⟨s1, s2, s3⟩ hs
    obtain ⟨i, rfl⟩ := Int.eq_ofNat_of_zero_le h0
    rw [hM.1] at h1
    have hr := s1.2 0 (by omega)
    rw [vget_row (i := 0) (k := 0) rfl (by rw [s1.1]; omega), ok_bind, swungThrough_run s1 (by omega) hr, ok_bind] at hs
    obtain ⟨R, hR, hs⟩ := bind_eq_ok.mp hs
    rw [hr] at hs
    have hin := forI_post (Inv := fun (k : ℤ) (r : List (List (XYZW ℝ))) => IsMat r (n + 1) (m + 1) ∧ ∀ a b : ℕ, ent r a b = if a = i ∧ (b : ℤ) < k then nth R.cps b else ent s a b) (by omega)
      ⟨s1, fun a b => by rw [if_neg (by omega)]⟩ (by
        rintro k r r' k0 k1 ⟨r1, r2⟩ hk
        obtain ⟨k, rfl⟩ := Int.eq_ofNat_of_zero_le k0
        obtain ⟨x, hx, hk⟩ := bind_eq_ok.mp hk
        have hkl : k < R.cps.length := by
          by_contra hh
          rw [vget_ge (by omega)] at hx
          cases hx
        rw [vget_nth (k := k) rfl hkl] at hx
        have hx := Res.ok.inj hx
        subst hx
        obtain ⟨r'', e1, e2, e3⟩ := mset_ok (x := nth R.cps k) r1 (i := (i : ℤ)) (j := (k : ℤ)) rfl rfl (by omega) (by omega)
        rw [e1] at hk
        have hk := Res.ok.inj hk
        subst hk
        refine ⟨e2, fun a b => ?_⟩
        rw [e3, r2]
        by_cases c1 : a = i ∧ b = k
        · rw [if_pos c1, if_pos (by omega), c1.2]
        · rw [if_neg c1]
          by_cases c2 : a = i ∧ (b : ℤ) < k
          · rw [if_pos c2, if_pos (by omega)]
          · rw [if_neg c2, if_neg (by omega)]) hs
    obtain ⟨r1, r2⟩ := hin
    refine ⟨r1, fun a b hab => ?_, fun j hj => ?_⟩
    · rw [r2, if_neg (by omega)]; exact s2 a b (by omega)
    · by_cases e : j = i
      · subst e
        refine ⟨R, ?_, fun k hk => by rw [r2, if_pos (by omega)]⟩
        rw [← hR]
        congr 1
        refine List.map_congr_left fun k _ => ?_
        rw [s2 j k le_rfl]
      · obtain ⟨R', g1, g2⟩ := s3 j (by omega)
        exact ⟨R', g1, fun k hk => by rw [r2, if_neg (by omega)]; exact g2 k hk⟩

/-- the rows only depend on the points -/
theorem swungRows_congr {solve : List (List ℝ) → List (List ℝ) → Res (List (List ℝ))} {q : ℤ} {vl : List ℝ} {net net' : List (List (XYZW ℝ))} {n m : ℕ} (hM : IsMat net (n + 1) (m + 1))
    (hM' : IsMat net' (n + 1) (m + 1)) (h : ∀ i k, i ≤ n → k ≤ m → (ent net i k).toXYZ = (ent net' i k).toXYZ) : swungRows solve q vl net = swungRows solve q vl net' := by
  unfold swungRows
  rw [hM.1, hM'.1]
  have key := Both.forI (b := ((n + 1 : ℕ) : ℤ)) (fun (i : ℤ) (s s' : List (List (XYZW ℝ))) => IsMat s (n + 1) (m + 1) ∧ IsMat s' (n + 1) (m + 1) ∧
    (∀ a b : ℕ, (a : ℤ) < i → a ≤ n → b ≤ m → ent s a b = ent s' a b) ∧ ∀ a b, a ≤ n → b ≤ m → (ent s a b).toXYZ = (ent s' a b).toXYZ) (n + 1) 0 net net' (by omega)
    ⟨hM, hM', fun a b h => by omega, h⟩
    (body := fun i net => vget net 0 >>= fun row0 => (forI 0 row0.length (List.replicate row0.length (0 : XYZ ℝ)) fun k t => mget net i k >>= fun x => vset t k x.toXYZ) >>= fun through =>
      globalInterpolation solve q through vl >>= fun R => forI 0 row0.length net fun k net => vget R.cps k >>= fun x => mset net i k x)
    (body' := fun i net => vget net 0 >>= fun row0 => (forI 0 row0.length (List.replicate row0.length (0 : XYZ ℝ)) fun k t => mget net i k >>= fun x => vset t k x.toXYZ) >>= fun through =>
      globalInterpolation solve q through vl >>= fun R => forI 0 row0.length net fun k net => vget R.cps k >>= fun x => mset net i k x) ?_
  · apply Both.eq
    rcases key with ⟨a, b, e1, e2, g1, g2, g3, -⟩ | key
    · refine Or.inl ⟨a, b, e1, e2, mat_ext g1 g2 fun i hi j hj => g3 i j (by omega) (by omega) (by omega)⟩
    · exact Or.inr key
  · rintro i s s' h0 h1 ⟨s1, s2, s3, s4⟩
    obtain ⟨i, rfl⟩ := Int.eq_ofNat_of_zero_le h0
    have hr := s1.2 0 (by omega)
    have hr' := s2.2 0 (by omega)
    rw [vget_row (i := 0) (k := 0) rfl (by rw [s1.1]; omega), ok_bind, vget_row (i := 0) (k := 0) rfl (by rw [s2.1]; omega), ok_bind]
    have e1 := swungThrough_run s1 (i := i) (by omega) hr
    have e2 := swungThrough_run s2 (i := i) (by omega) hr'
    rw [e1, e2, ok_bind, ok_bind]
    have e : (List.range (m + 1)).map (fun k => (ent s i k).toXYZ) = (List.range (m + 1)).map (fun k => (ent s' i k).toXYZ) :=
      List.map_congr_left fun k hk => s4 i k (by omega) (by have := List.mem_range.mp hk; omega)
    rw [e]
    refine Both.same fun R _ => ?_
    rw [hr, hr']
    have hin := Both.forI (b := ((m + 1 : ℕ) : ℤ)) (fun (k : ℤ) (r r' : List (List (XYZW ℝ))) => IsMat r (n + 1) (m + 1) ∧ IsMat r' (n + 1) (m + 1) ∧
      (∀ a b : ℕ, ((a : ℤ) < i ∨ (a = i ∧ (b : ℤ) < k)) → a ≤ n → b ≤ m → ent r a b = ent r' a b) ∧ ∀ a b, a ≤ n → b ≤ m → (ent r a b).toXYZ = (ent r' a b).toXYZ) (m + 1) 0 s s' (by omega)
      ⟨s1, s2, fun a b h => by rcases h with h | h; exacts [s3 a b h, by omega], s4⟩
      (body := fun k net => vget R.cps k >>= fun x => mset net i k x) (body' := fun k net => vget R.cps k >>= fun x => mset net i k x) ?_
    · rcases hin with ⟨a, b, e1, e2, g1, g2, g3, g4⟩ | hin
      · exact Or.inl ⟨a, b, e1, e2, g1, g2, fun x y h1 h2 h3 => g3 x y (by omega) h2 h3, g4⟩
      · exact Or.inr hin
    · rintro k r r' k0 k1 ⟨r1, r2, r3, r4⟩
      obtain ⟨k, rfl⟩ := Int.eq_ofNat_of_zero_le k0
      refine Both.same fun x _ => ?_
      obtain ⟨t, a1, a2, a3⟩ := mset_ok (x := x) r1 (i := (i : ℤ)) (j := (k : ℤ)) rfl rfl (by omega) (by omega)
      obtain ⟨t', b1, b2, b3⟩ := mset_ok (x := x) r2 (i := (i : ℤ)) (j := (k : ℤ)) rfl rfl (by omega) (by omega)
      rw [a1, b1]
      refine Both.ok ⟨a2, b2, fun a b h h1 h2 => ?_, fun a b h1 h2 => ?_⟩
      · rw [a3, b3]
        by_cases c : a = i ∧ b = k
        · rw [if_pos c, if_pos c]
        · rw [if_neg c, if_neg c]; exact r3 a b (by omega) h1 h2
      · rw [a3, b3]
        by_cases c : a = i ∧ b = k
        · rw [if_pos c, if_pos c]
        · rw [if_neg c, if_neg c]; exact r4 a b h1 h2

/-! ## The scale -/

theorem liftW_smul_toXYZ {A : Matrix4d ℝ} {s : ℝ} {a : XYZW ℝ} (h : 1 / 1000000 * (1 + |s * a.w|) < |s * a.w|) (h1 : 1 / 1000000 * (1 + |a.w|) < |a.w|) :
    (liftW A (s • a)).toXYZ = (liftW A ((1 : ℝ) • a)).toXYZ := by
  have hs : s * a.w ≠ 0 := by
    intro h0
    rw [h0] at h
    norm_num at h
  have hs0 : s ≠ 0 := left_ne_zero_of_mul hs
  have hw0 : a.w ≠ 0 := right_ne_zero_of_mul hs
  rw [XYZW.toXYZ_eq (by simpa [liftW] using h), XYZW.toXYZ_eq (by simpa [liftW] using h1)]
  ext <;> simp [liftW, XYZW.raw] <;> field_simp

/-- two runs of the placement with different scales -/
theorem swungPlace_scale {profile T Bv : NurbsCurve ℝ} {s : ℝ} {vl : List ℝ} {n m : ℕ} (hn : profile.cps.length = n + 1)
    (hw : ∀ a ∈ profile.cps, 1 / 1000000 * (1 + |a.w|) < |a.w|) (hs : ∀ a ∈ profile.cps, 1 / 1000000 * (1 + |s * a.w|) < |s * a.w|) :
    Both (fun x y : List (List (XYZW ℝ)) => IsMat x (n + 1) (m + 1) ∧ IsMat y (n + 1) (m + 1) ∧ ∀ i k, i ≤ n → k ≤ m → (ent x i k).toXYZ = (ent y i k).toXYZ)
      (swungPlace profile T Bv s ((m : ℤ) + 1) vl) (swungPlace profile T Bv 1 ((m : ℤ) + 1) vl) := by
  have hne : ∀ a ∈ profile.cps, s * a.w ≠ 0 ∧ 1 * a.w ≠ 0 := by
    intro a ha
    have h1 := hs a ha
    have h2 := hw a ha
    constructor <;> intro h0
    · rw [h0] at h1; norm_num at h1
    · rw [one_mul] at h0; rw [h0] at h2; norm_num at h2
  unfold swungPlace
  refine Both.forI (b := (m : ℤ) + 1) (fun (_ : ℤ) (x y : List (List (XYZW ℝ))) => IsMat x (n + 1) (m + 1) ∧ IsMat y (n + 1) (m + 1) ∧
    ∀ i k, i ≤ n → k ≤ m → (ent x i k).toXYZ = (ent y i k).toXYZ) (m + 1) 0 _ _ (by omega) ?_ ?_
  · rw [hn, show ((m : ℤ) + 1).toNat = m + 1 by omega]
    exact ⟨isMat_replicate, isMat_replicate, fun _ _ _ _ => rfl⟩
  · rintro k x y k0 k1 hxy
    obtain ⟨k, rfl⟩ := Int.eq_ofNat_of_zero_le k0
    refine Both.same fun v _ => Both.same fun A hA => ?_
    have haff := (swungMatrix_of_ok hA).1
    refine Both.forI (b := (profile.cps.length : ℤ)) (fun (_ : ℤ) (x y : List (List (XYZW ℝ))) => IsMat x (n + 1) (m + 1) ∧ IsMat y (n + 1) (m + 1) ∧
      ∀ i k, i ≤ n → k ≤ m → (ent x i k).toXYZ = (ent y i k).toXYZ) (n + 1) 0 _ _ (by omega) hxy ?_
    rintro i x y i0 i1 ⟨g1, g2, g3⟩
    obtain ⟨i, rfl⟩ := Int.eq_ofNat_of_zero_le i0
    have hi : i < profile.cps.length := by omega
    obtain ⟨w1, w2⟩ := hne _ (mem_of_nth hi)
    rw [vget_nth (k := i) rfl hi, ok_bind, ok_bind, ofWeightedPoint_affine haff w1, ok_bind, ofWeightedPoint_affine haff w2, ok_bind]
    obtain ⟨t, a1, a2, a3⟩ := mset_ok (x := liftW A (s • nth profile.cps i)) g1 (i := (i : ℤ)) (j := (k : ℤ)) rfl rfl (by omega) (by omega)
    obtain ⟨t', b1, b2, b3⟩ := mset_ok (x := liftW A ((1 : ℝ) • nth profile.cps i)) g2 (i := (i : ℤ)) (j := (k : ℤ)) rfl rfl (by omega) (by omega)
    rw [a1, b1]
    refine Both.ok ⟨a2, b2, fun a b h1 h2 => ?_⟩
    rw [a3, b3]
    by_cases c : a = i ∧ b = k
    · rw [if_pos c, if_pos c, liftW_smul_toXYZ (hs _ (mem_of_nth hi)) (hw _ (mem_of_nth hi))]
    · rw [if_neg c, if_neg c]; exact g3 a b h1 h2

/-- C134 (violated): the scale has no effect. Whatever the profile and the trajectory, the result for the scale `s` is the result for the scale
1, as long as no product of a weight with `s` is taken for zero. -/
theorem C134_scale_violated (solve : List (List ℝ) → List (List ℝ) → Res (List (List ℝ))) (profile trajectory : NurbsCurve ℝ) (s : ℝ)
    (hw : ∀ a ∈ profile.cps, 1 / 1000000 * (1 + |a.w|) < |a.w|) (hs : ∀ a ∈ profile.cps, 1 / 1000000 * (1 + |s * a.w|) < |s * a.w|) :
    createSwung solve profile trajectory s = createSwung solve profile trajectory 1 := by
  unfold createSwung
  dsimp only
  apply Both.eq
  refine Both.same fun vl _ => Both.same fun tempB _ => Both.same fun Bv _ => ?_
  by_cases hn : profile.cps.length = 0
  · have e : profile.cps = [] := List.length_eq_zero_iff.mp hn
    have : swungPlace profile trajectory Bv s (trajectory.cps.length : ℤ) vl = swungPlace profile trajectory Bv 1 (trajectory.cps.length : ℤ) vl := by
      unfold swungPlace
      rw [e]
      rfl
    rw [this]
    refine Both.same fun net _ => Both.same fun net _ => Both.ok rfl
  · obtain ⟨n, hn⟩ : ∃ n, profile.cps.length = n + 1 := ⟨profile.cps.length - 1, by omega⟩
    by_cases hm : trajectory.cps.length = 0
    · rw [hm]
      unfold swungPlace
      rw [forI_empty (by simp), forI_empty (by simp)]
      refine Both.same fun net _ => Both.same fun net _ => Both.ok rfl
    · obtain ⟨m, hm⟩ : ∃ m, trajectory.cps.length = m + 1 := ⟨trajectory.cps.length - 1, by omega⟩
      rw [hm]
      refine Both.bind (swungPlace_scale hn hw hs) fun x y _ h => ?_
      rw [swungRows_congr h.1 h.2.1 h.2.2]
      exact Both.same fun net _ => Both.ok rfl

/-! ## The positions -/

theorem residue_perp (b d : XYZ ℝ) : ((b - (b.dot d.normalize) • d.normalize).normalize).dot d = 0 := by
  apply normalize_perp
  by_cases h : d = 0
  · subst h; simp [XYZ.dot]
  · apply perp_of_normalize
    have ht := dot_self_of_length ((C29_normalize d).1 h).1
    have : (b - (b.dot d.normalize) • d.normalize).dot d.normalize = b.dot d.normalize - (b.dot d.normalize) * d.normalize.dot d.normalize := by
      simp [XYZ.dot]; ring
    rw [this, ht]; ring

/-- the axes are orthogonal to the tangents -/
theorem swungAxis_perp (d : ℕ → XYZ ℝ) (k : ℕ) : (swungAxis d k).dot (d k) = 0 ∧ (swungAxis d k).normalize = swungAxis d k := by
  cases k with
  | zero =>
    unfold swungAxis firstAxis
    split
    · exact ⟨normalize_perp (by simp [XYZ.cross, XYZ.dot]; ring), normalize_idem _⟩
    · exact ⟨normalize_perp (by simp [XYZ.cross, XYZ.dot]; ring), normalize_idem _⟩
  | succ k => exact ⟨residue_perp _ _, normalize_idem _⟩

/-- the tangents exist, and the vectors that turn the profile are the axes of the specification -/
theorem swungNormals_of_ok {T : NurbsCurve ℝ} {vl : List ℝ} {B : List (XYZ ℝ)} {m : ℕ} (hvl : vl.length = m + 1) (h : swungNormals T vl = ok B) :
    B.length = m + 1 ∧ ∃ d : ℕ → XYZ ℝ, ∀ k ≤ m, (∃ l, NurbsCurve.rationalDerivatives T 1 (nth vl k) = ok l ∧ nth l 1 = d k) ∧ nth B k = swungAxis d k := by
  set d : ℕ → XYZ ℝ := fun k => match NurbsCurve.rationalDerivatives T 1 (nth vl k) with | ok l => nth l 1 | _ => 0 with hdef
  have hdk : ∀ {k l}, NurbsCurve.rationalDerivatives T 1 (nth vl k) = ok l → nth l 1 = d k := by
    intro k l h
    rw [hdef]
    dsimp only
    rw [h]
  unfold swungNormals at h
  rw [vget_nth (i := 0) (k := 0) rfl (by omega), ok_bind] at h
  obtain ⟨l0, hl0, h⟩ := bind_eq_ok.mp h
  obtain ⟨d0, hd, h⟩ := bind_eq_ok.mp h
  have hlen : ∀ {l : List (XYZ ℝ)} {d}, vget l 1 = ok d → nth l 1 = d := by
    intro l d h
    have hl : 1 < l.length := by
      by_contra hh
      rw [vget_ge (by omega)] at h
      cases h
    rw [vget_nth (i := 1) (k := 1) rfl hl] at h
    exact Res.ok.inj h
  rw [vset_of (i := 0) (k := 0) rfl (by simp; omega), ok_bind, hvl] at h
  have key := forI_post (Inv := fun (i : ℤ) (s : List (XYZ ℝ)) => s.length = m + 1 ∧ ∀ k : ℕ, (k : ℤ) < i →
    (∃ l, NurbsCurve.rationalDerivatives T 1 (nth vl k) = ok l ∧ nth l 1 = d k) ∧ nth s k = swungAxis d k) (by omega)
    ⟨by simp, fun k hk => by
      have : k = 0 := by omega
      subst this
      refine ⟨⟨l0, hl0, hdk hl0⟩, ?_⟩
      rw [nth_set (by simp), if_pos rfl, ← hlen hd, hdk hl0]
      rfl⟩ (by
    rintro i s s' i0 i1 ⟨s1, s2⟩ hs
    obtain ⟨i, rfl⟩ := Int.eq_ofNat_of_zero_le (by omega : 0 ≤ i)
    rw [vget_nth (k := i) rfl (by omega), ok_bind] at hs
    obtain ⟨l, hl, hs⟩ := bind_eq_ok.mp hs
    obtain ⟨d1, hd, hs⟩ := bind_eq_ok.mp hs
    rw [vget_nth (k := i - 1) (by omega) (by omega), ok_bind, vset_of (k := i) rfl (by omega)] at hs
    have hs := Res.ok.inj hs
    rw [← hs]
    refine ⟨by simp [s1], fun k hk => ?_⟩
    rw [nth_set (by omega)]
    by_cases e : k = i
    · subst e
      rw [if_pos rfl]
      refine ⟨⟨l, hl, hdk hl⟩, ?_⟩
      rw [(s2 (k - 1) (by omega)).2, ← hlen hd, hdk hl]
      obtain ⟨k', rfl⟩ : ∃ k', k = k' + 1 := ⟨k - 1, by omega⟩
      rfl
    · rw [if_neg e]
      exact s2 k (by omega)) h
  obtain ⟨g1, g2⟩ := key
  exact ⟨g1, d, fun k hk => g2 k (by omega)⟩

/-- a point of a surface whose weights are all 1 -/
theorem unit_weight_surface {S : NurbsSurface ℝ} {p q n m : ℕ} {u v : ℝ} (w : WellFormedS S p q n m) (he : EndsSeparatedS S p q n m) (d : InDomain S p q n m u v)
    (hw : ∀ i j, i ≤ n → j ≤ m → (ent S.cps i j).w = 1) :
    (∑ i ∈ range (n + 1), N (nth S.knotsU) (nth S.knotsU (n + 1)) p i u = 1) ∧
    NurbsSurface.pointOnSurface S u v = ok (∑ r ∈ range (n + 1), ∑ c ∈ range (m + 1),
      (N (nth S.knotsU) (nth S.knotsU (n + 1)) p r u * N (nth S.knotsV) (nth S.knotsV (m + 1)) q c v) • (ent S.cps r c).raw) := by
  obtain ⟨s, -, hs⟩ := getKnotSpanIndex_isSpan w.knotsU w.pn w.sortedU he.u d.u0 d.u1
  obtain ⟨t, -, ht⟩ := getKnotSpanIndex_isSpan w.knotsV w.qm w.sortedV he.v d.v0 d.v1
  have sU := (basis_convex (fun i j h h' => w.sortedU i j h (by rw [w.knotsU]; omega)) hs).2
  have sV := (basis_convex (fun i j h h' => w.sortedV i j h (by rw [w.knotsV]; omega)) ht).2
  have eW : surfaceWeight (nth S.knotsU) (nth S.knotsV) p q n m (ent S.cps) u v = 1 := by
    unfold surfaceWeight
    rw [← one_mul (1 : ℝ)]
    nth_rewrite 1 [← sU]
    rw [← sV, sum_mul_sum]
    refine sum_congr rfl fun i hi => sum_congr rfl fun j hj => ?_
    have hi := mem_range.mp hi
    have hj := mem_range.mp hj
    rw [hw i j (by omega) (by omega), mul_one]
  refine ⟨sU, ?_⟩
  rw [C33_eval_rational w he d (by rw [eW, abs_one]; norm_num)]
  congr 1
  unfold rationalSurfacePoint
  rw [eW, inv_one, one_smul]
  rfl

/-- an affine combination of placed points -/
theorem framePoint_sum {o x y z : XYZ ℝ} {n : ℕ} {c : ℕ → ℝ} {P : ℕ → XYZ ℝ} (h : ∑ i ∈ range (n + 1), c i = 1) :
    ∑ i ∈ range (n + 1), c i • framePoint o x y z (P i) = framePoint o x y z (∑ i ∈ range (n + 1), c i • P i) := by
  unfold framePoint
  have e : ∀ i, c i • (o + (P i).x • x + (P i).y • y + (P i).z • z) = c i • o + (c i • P i).x • x + (c i • P i).y • y + (c i • P i).z • z := by
    intro i
    simp only [smul_add, smul_smul, XYZ.smul_x, XYZ.smul_y, XYZ.smul_z]
  simp only [e, sum_add_distrib]
  rw [← sum_smul, ← sum_smul, ← sum_smul, ← sum_smul, h, one_smul, XYZ.sum_x, XYZ.sum_y, XYZ.sum_z]
  simp only [XYZ.smul_x, XYZ.smul_y, XYZ.smul_z]

/-- the parameters of the placed profiles -/
noncomputable def grevilles (U : List ℝ) (q m : ℕ) : List ℝ := (List.range (m + 1)).map (greville (nth U) q)

theorem nth_grevilles {U : List ℝ} {q m k : ℕ} (hk : k ≤ m) : nth (grevilles U q m) k = greville (nth U) q k := by
  unfold grevilles
  rw [nth_map (by simp; omega)]
  congr 1
  rw [nth_eq_getElem (by simp; omega)]
  simp

theorem grevilles_colloc {T : NurbsCurve ℝ} {q m : ℕ} (wT : WellFormed T q m) (hcT : ClampedEnds (nth T.knots) q m) (h0 : nth T.knots 0 = 0) (h1 : nth T.knots (m + q + 1) = 1)
    {kv : List ℝ} {r : ℕ} (hr : 0 < r) (hr7 : r ≤ 7) (hrm : r ≤ m) (hkv : averageKnotVector r (grevilles T.knots q m) = ok kv) (he : EndsSeparated (nth kv) r m) :
    Colloc kv (grevilles T.knots q m) r m := by
  have hlen : (grevilles T.knots q m).length = m + 1 := by simp [grevilles]
  have hm : 1 ≤ m := le_trans hr hrm
  have hconst : ∀ (k : ℕ) (b : ℝ), (∀ i < q, nth T.knots (k + 1 + i) = b) → greville (nth T.knots) q k = b := by
    intro k b h
    have hqK : (q : ℝ) ≠ 0 := by simpa using wT.pos.ne'
    unfold greville
    rw [sum_congr rfl (fun i hi => h i (mem_range.mp hi)), sum_const, card_range, nsmul_eq_mul]
    field_simp
  have e0 : nth (grevilles T.knots q m) 0 = 0 := by
    rw [nth_grevilles (by omega)]
    refine hconst 0 0 fun i hi => ?_
    rw [clamped_first wT hcT _ (by omega), h0]
  have e1 : nth (grevilles T.knots q m) m = 1 := by
    rw [nth_grevilles le_rfl]
    refine hconst m 1 fun i hi => ?_
    rw [clamped_last wT hcT _ (by omega) (by omega), h1]
  have emono : ∀ i j, i ≤ j → j ≤ m → nth (grevilles T.knots q m) i ≤ nth (grevilles T.knots q m) j := by
    intro i j hij hj
    rw [nth_grevilles (by omega), nth_grevilles hj]
    exact greville_mono wT.knots wT.sorted hij hj
  obtain ⟨kv', ek, a1, a2, a3, -, a4⟩ := C46_average_partial (params := grevilles T.knots q m) hr hrm hlen e0 e1 emono
  rw [hkv] at ek
  have ek := Res.ok.inj ek
  subst ek
  exact ⟨hr, hr7, hrm, hlen, a1, a2, a3, a4, he, e0, e1, emono⟩

theorem liftW_toXYZ_frame {A : Matrix4d ℝ} {s : ℝ} {a : XYZW ℝ} (h : 1 / 1000000 * (1 + |s * a.w|) < |s * a.w|) : (liftW A (s • a)).toXYZ = affineImage A (proj a) := by
  have hs : s * a.w ≠ 0 := by
    intro h0
    rw [h0] at h
    norm_num at h
  have hs0 : s ≠ 0 := left_ne_zero_of_mul hs
  have hw0 : a.w ≠ 0 := right_ne_zero_of_mul hs
  rw [XYZW.toXYZ_eq (by simpa [liftW] using h)]
  ext <;> simp [liftW, XYZW.raw, affineImage, proj] <;> field_simp

section
variable {solve : List (List ℝ) → List (List ℝ) → Res (List (List ℝ))} {profile T : NurbsCurve ℝ} {scale : ℝ} {p n q m : ℕ} {S : NurbsSurface ℝ}

/-- what the rows of the net interpolate -/
theorem swung_core (hsolve : SoundSolver solve) (wP : WellFormed profile p n) (hpos : ∀ a ∈ profile.cps, 1 / 1000000 * (1 + |scale * a.w|) < |scale * a.w|)
    (wT : WellFormed T q m) (hcT : ClampedEnds (nth T.knots) q m) (h0 : nth T.knots 0 = 0) (h1 : nth T.knots (m + q + 1) = 1)
    (heB : ∀ kv, averageKnotVector ((min 3 m : ℕ) : ℤ) (grevilles T.knots q m) = ok kv → EndsSeparated (nth kv) (min 3 m) m)
    (heR : ∀ kv, averageKnotVector q (grevilles T.knots q m) = ok kv → EndsSeparated (nth kv) q m)
    (hS : createSwung solve profile T scale = ok S) :
    WellFormedS S p q n m ∧ S.knotsU = profile.knots ∧ S.knotsV = T.knots ∧ (∀ i j, i ≤ n → j ≤ m → (ent S.cps i j).w = 1) ∧
    ∃ kv, Colloc kv (grevilles T.knots q m) q m ∧ averageKnotVector q (grevilles T.knots q m) = ok kv ∧ ∃ d : ℕ → XYZ ℝ,
      ∀ k ≤ m, (∃ l, NurbsCurve.rationalDerivatives T 1 (greville (nth T.knots) q k) = ok l ∧ nth l 1 = d k) ∧ ∃ o : XYZ ℝ, NurbsCurve.pointOnCurve T (greville (nth T.knots) q k) = ok o ∧
        ∀ i ≤ n, ∑ j ∈ range (m + 1), N (nth kv) (nth kv (m + 1)) q j (greville (nth T.knots) q k) • (ent S.cps i j).raw =
          framePoint (o + ⟨0, 0, 1⟩) ((swungAxis d k).cross (d k).normalize) (d k).normalize (swungAxis d k) (proj (nth profile.cps i)) := by
  have hm : 1 ≤ m := le_trans wT.pos wT.pn
  have hlT := wT.cps
  unfold createSwung at hS
  dsimp only at hS
  obtain ⟨vl, hvl, hvlen, hv⟩ := swungParams_run wT.pos hm wT.knots wT.sorted hcT
  have evl : vl = grevilles T.knots q m := by
    refine ext_nth (by rw [hvlen]; simp [grevilles]) fun i hi => ?_
    rw [hv i (by omega), nth_grevilles (by omega)]
  subst evl
  rw [wT.degree, hlT, show ((m + 1 : ℕ) : ℤ) = (m : ℤ) + 1 by push_cast; ring, hvl, ok_bind] at hS
  obtain ⟨B, hB, hS⟩ := bind_eq_ok.mp hS
  obtain ⟨hBl, d, hBn⟩ := swungNormals_of_ok hvlen hB
  obtain ⟨Bv, hBv, hS⟩ := bind_eq_ok.mp hS
  obtain ⟨net, hnet, hS⟩ := bind_eq_ok.mp hS
  obtain ⟨net', hnet', hS⟩ := bind_eq_ok.mp hS
  have hS := Res.ok.inj hS
  subst hS
  rw [hBl, show min 3 (((m + 1 : ℕ) : ℤ) - 1) = ((min 3 m : ℕ) : ℤ) by push_cast; omega] at hBv
  obtain ⟨hM, A, hA⟩ := swungPlace_of_ok wP.cps hvlen (fun a ha h => by have := hpos a ha; rw [h] at this; norm_num at this) hnet
  obtain ⟨hM', hrow⟩ := swungRows_of_ok hM hnet'
  -- the knots of the rows
  obtain ⟨kv, hkv⟩ : ∃ kv, averageKnotVector (q : ℤ) (grevilles T.knots q m) = ok kv := by
    obtain ⟨R, hR, -⟩ := hrow 0 (by omega)
    unfold globalInterpolation at hR
    obtain ⟨_, -, hR⟩ := bind_eq_ok.mp hR
    obtain ⟨_, -, hR⟩ := bind_eq_ok.mp hR
    obtain ⟨_, -, hR⟩ := bind_eq_ok.mp hR
    obtain ⟨kv, hkv, -⟩ := bind_eq_ok.mp hR
    exact ⟨kv, hkv⟩
  have hcol := grevilles_colloc wT hcT h0 h1 wT.pos wT.le7 wT.pn hkv (heR kv hkv)
  have hBk : averageKnotVector ((min 3 m : ℕ) : ℤ) (grevilles T.knots q m) = ok Bv.knots := by
    unfold globalInterpolation at hBv
    obtain ⟨_, -, hR⟩ := bind_eq_ok.mp hBv
    obtain ⟨_, -, hR⟩ := bind_eq_ok.mp hR
    obtain ⟨_, -, hR⟩ := bind_eq_ok.mp hR
    obtain ⟨kv, hkv, hR⟩ := bind_eq_ok.mp hR
    obtain ⟨_, -, hR⟩ := bind_eq_ok.mp hR
    obtain ⟨_, -, hR⟩ := bind_eq_ok.mp hR
    obtain ⟨_, -, hR⟩ := bind_eq_ok.mp hR
    rw [hkv, ← Res.ok.inj hR]
  obtain ⟨-, -, -, hBpt⟩ := C73_interpolates hsolve (by omega) (by omega) hBl hcol.first hcol.last hcol.mono hBv (heB _ hBk)
  have hRk : ∀ i ≤ n, ∀ R, globalInterpolation solve q ((List.range (m + 1)).map fun k => (ent net i k).toXYZ) (grevilles T.knots q m) = ok R → EndsSeparated (nth R.knots) q m ∧ R.knots = kv := by
    intro i hi R hR
    have : R.knots = kv := by
      unfold globalInterpolation at hR
      obtain ⟨_, -, hR⟩ := bind_eq_ok.mp hR
      obtain ⟨_, -, hR⟩ := bind_eq_ok.mp hR
      obtain ⟨_, -, hR⟩ := bind_eq_ok.mp hR
      rw [hkv, ok_bind] at hR
      obtain ⟨_, -, hR⟩ := bind_eq_ok.mp hR
      obtain ⟨_, -, hR⟩ := bind_eq_ok.mp hR
      obtain ⟨_, -, hR⟩ := bind_eq_ok.mp hR
      rw [← Res.ok.inj hR]
    rw [this]
    exact ⟨heR kv hkv, rfl⟩
  have hlP := wP.cps
  refine ⟨?_, rfl, rfl, ?_, kv, hcol, hkv, d, fun k hk => ?_⟩
  · exact { degreeU := wP.degree, degreeV := rfl, posU := wP.pos, posV := wT.pos, le7U := wP.le7, le7V := wT.le7, cps := hM', pn := wP.pn, qm := wT.pn,
            knotsU := wP.knots, knotsV := wT.knots, sortedU := wP.sorted, sortedV := wT.sorted }
  · intro i j hi hj
    obtain ⟨R, hR, e⟩ := hrow i hi
    obtain ⟨-, -, -, -, hw1, -⟩ := interp_run hsolve wT.pos wT.pn (by simp) hcol.first hcol.last hcol.mono hR (hRk i hi R hR).1
    dsimp only
    rw [e j hj, hw1 j hj]
  · obtain ⟨hAk, hnk⟩ := hA k hk
    obtain ⟨haff, l, b, o, el, eb, eo, ea⟩ := swungMatrix_of_ok hAk
    rw [nth_grevilles hk] at el eo
    obtain ⟨⟨l', el', ed⟩, eB⟩ := hBn k hk
    rw [nth_grevilles hk, el] at el'
    have el' := Res.ok.inj el'
    subst el'
    rw [hBpt k hk] at eb
    have eb := Res.ok.inj eb
    subst eb
    rw [eB, (swungAxis_perp d k).2, ed] at ea
    refine ⟨⟨l, el, ed⟩, o, eo, fun i hi => ?_⟩
    · obtain ⟨R, hR, e⟩ := hrow i hi
      obtain ⟨he, hk'⟩ := hRk i hi R hR
      obtain ⟨-, -, -, -, -, hsum⟩ := interp_run hsolve wT.pos wT.pn (by simp) hcol.first hcol.last hcol.mono hR he
      have := hsum k hk
      have en : nth ((List.range (m + 1)).map fun k => (ent net i k).toXYZ) k = (ent net i k).toXYZ := by
        rw [nth_map (by simp; omega), nth_eq_getElem (by simp; omega)]
        simp
      rw [hk', nth_grevilles hk, en] at this
      rw [hnk i hi, liftW_toXYZ_frame (hpos _ (mem_of_nth (by omega))), ea] at this
      rw [← this]
      refine sum_congr rfl fun j hj => ?_
      rw [e j (by have := mem_range.mp hj; omega)]
      rfl

/-- C134 (partial: a clamped trajectory over [0, 1], averaged knots with clear ends, a sound solver, and only the two edges of the surface
unless the trajectory is a single Bézier segment): a surface that `CreateSwungSurface` returns is valid, and its isoparametric curve at the
`k`-th Greville abscissa of the trajectory is the profile *without its weights*, placed with the frame `z × x`, `x`, `z` at the point of the
trajectory *moved by one along the z axis*, where `x` is the unit tangent of the trajectory and `z` is the axis carried along it. -/
theorem C134_placed_partial (hsolve : SoundSolver solve) (wP : WellFormed profile p n) (heP : EndsSeparated (nth profile.knots) p n)
    (hpos : ∀ a ∈ profile.cps, 1 / 1000000 * (1 + |scale * a.w|) < |scale * a.w|)
    (wT : WellFormed T q m) (heT : EndsSeparated (nth T.knots) q m) (hcT : ClampedEnds (nth T.knots) q m) (h0 : nth T.knots 0 = 0) (h1 : nth T.knots (m + q + 1) = 1)
    (heB : ∀ kv, averageKnotVector ((min 3 m : ℕ) : ℤ) (grevilles T.knots q m) = ok kv → EndsSeparated (nth kv) (min 3 m) m)
    (heR : ∀ kv, averageKnotVector q (grevilles T.knots q m) = ok kv → EndsSeparated (nth kv) q m)
    (hS : createSwung solve profile T scale = ok S) :
    WellFormedS S p q n m ∧ S.knotsU = profile.knots ∧ S.knotsV = T.knots ∧
    ∃ d : ℕ → XYZ ℝ, (∀ k ≤ m, ∃ l, NurbsCurve.rationalDerivatives T 1 (greville (nth T.knots) q k) = ok l ∧ nth l 1 = d k) ∧
      ∀ k ≤ m, k = 0 ∨ k = m ∨ m = q → ∃ o : XYZ ℝ, NurbsCurve.pointOnCurve T (greville (nth T.knots) q k) = ok o ∧
      ∀ u, nth profile.knots p ≤ u → u ≤ nth profile.knots (n + 1) → ∃ a, NurbsCurve.pointOnCurve (unweighted profile) u = ok a ∧
        NurbsSurface.pointOnSurface S u (greville (nth T.knots) q k) =
          ok (framePoint (o + ⟨0, 0, 1⟩) ((swungAxis d k).cross (d k).normalize) (d k).normalize (swungAxis d k) a) := by
  obtain ⟨wS, eU, eV, hw1, kv, hcol, hkv, d, hcore⟩ := swung_core hsolve wP hpos wT hcT h0 h1 heB heR hS
  refine ⟨wS, eU, eV, d, fun k hk => (hcore k hk).1, fun k hk hkm => ?_⟩
  obtain ⟨-, o, eo, esum⟩ := hcore k hk
  refine ⟨o, eo, fun u u0 u1 => ?_⟩
  have hlP := wP.cps
  have colT : Colloc T.knots (grevilles T.knots q m) q m := ⟨wT.pos, wT.le7, wT.pn, hcol.len, wT.knots,
    fun i hi => by rw [clamped_first wT hcT i hi, h0], fun i hi hi' => by rw [clamped_last wT hcT i hi hi', h1], wT.sorted, heT, hcol.first, hcol.last, hcol.mono⟩
  have hN : ∀ j ≤ m, N (nth T.knots) (nth T.knots (m + 1)) q j (greville (nth T.knots) q k) = N (nth kv) (nth kv (m + 1)) q j (greville (nth T.knots) q k) := by
    intro j hj
    rcases hkm with e | e | e
    · subst e
      have a1 := colT.corner.1 j hj
      have a2 := hcol.corner.1 j hj
      rw [nth_grevilles hk] at a1 a2
      rw [a1, a2]
    · subst e
      have a1 := colT.corner.2 j hj
      have a2 := hcol.corner.2 j hj
      rw [nth_grevilles hk] at a1 a2
      rw [a1, a2]
    · have : kv = T.knots := by
        refine ext_nth (by rw [hcol.knots, wT.knots]) fun i hi => ?_
        rw [hcol.knots] at hi
        by_cases hi' : i ≤ q
        · rw [hcol.zeros i hi', colT.zeros i hi']
        · rw [hcol.ones i (by omega) (by omega), colT.ones i (by omega) (by omega)]
      rw [this]
  have hdom := greville_range wT.pos wT.knots wT.sorted hcT hk
  obtain ⟨sU, hpt⟩ := unit_weight_surface (u := u) (v := greville (nth T.knots) q k) wS ⟨by rw [eU]; exact heP, by rw [eV]; exact heT⟩
    ⟨by rw [eU]; exact u0, by rw [eU]; exact u1, by rw [eV]; exact hdom.1, by rw [eV]; exact hdom.2⟩ hw1
  have wW : WellFormed (unweighted profile) p n :=
    { degree := wP.degree, pos := wP.pos, le7 := wP.le7, cps := by unfold unweighted; dsimp only; rw [List.length_map]; exact wP.cps, pn := wP.pn, knots := wP.knots, sorted := wP.sorted }
  have hWn : ∀ i ≤ n, nth (unweighted profile).cps i = ⟨(proj (nth profile.cps i)).x, (proj (nth profile.cps i)).y, (proj (nth profile.cps i)).z, 1⟩ := by
    intro i hi
    unfold unweighted
    dsimp only
    rw [nth_map (by omega)]
    rfl
  have ha := unit_weight_point (t := u) wW heP u0 u1 (fun i hi => by rw [hWn i hi])
  refine ⟨_, ha, ?_⟩
  rw [hpt]
  congr 1
  have eN : ∀ i ∈ range (n + 1), N (nth (unweighted profile).knots) (nth (unweighted profile).knots (n + 1)) p i u • (nth (unweighted profile).cps i).raw =
      N (nth S.knotsU) (nth S.knotsU (n + 1)) p i u • proj (nth profile.cps i) := by
    intro i hi
    rw [hWn i (by have := mem_range.mp hi; omega), eU]
    rfl
  rw [sum_congr rfl eN, ← framePoint_sum sU]
  refine sum_congr rfl fun i hi => ?_
  have hi := mem_range.mp hi
  rw [← esum i (by omega), smul_sum]
  refine sum_congr rfl fun j hj => ?_
  have hj := mem_range.mp hj
  rw [← hN j (by omega), smul_smul, eV]

end

theorem cross_unit {x z : XYZ ℝ} (hx : x.length = 1) (hz : z.length = 1) (h : z.dot x = 0) (a b : XYZ ℝ) (o : XYZ ℝ) :
    (framePoint o (z.cross x) x z a).distance (framePoint o (z.cross x) x z b) = a.distance b := by
  have ex := dot_self_of_length hx
  have ez := dot_self_of_length hz
  unfold XYZ.distance
  congr 1
  simp only [framePoint, XYZ.add_x, XYZ.add_y, XYZ.add_z, XYZ.smul_x, XYZ.smul_y, XYZ.smul_z, XYZ.cross]
  simp only [XYZ.dot] at ex ez h
  have ec : (z.y * x.z - z.z * x.y) ^ 2 + (z.z * x.x - z.x * x.z) ^ 2 + (z.x * x.y - z.y * x.x) ^ 2 = 1 := by
    have : (z.y * x.z - z.z * x.y) ^ 2 + (z.z * x.x - z.x * x.z) ^ 2 + (z.x * x.y - z.y * x.x) ^ 2 =
      (z.x * z.x + z.y * z.y + z.z * z.z) * (x.x * x.x + x.y * x.y + x.z * x.z) - (z.x * x.x + z.y * x.y + z.z * x.z) ^ 2 := by ring
    rw [this, ex, ez, h]; norm_num
  have key : ∀ d e f : ℝ, ((d * (z.y * x.z - z.z * x.y) + e * x.x + f * z.x) ^ 2 + (d * (z.z * x.x - z.x * x.z) + e * x.y + f * z.y) ^ 2 +
      (d * (z.x * x.y - z.y * x.x) + e * x.z + f * z.z) ^ 2) = d ^ 2 + e ^ 2 + f ^ 2 := by
    intro d e f
    have : ((d * (z.y * x.z - z.z * x.y) + e * x.x + f * z.x) ^ 2 + (d * (z.z * x.x - z.x * x.z) + e * x.y + f * z.y) ^ 2 +
      (d * (z.x * x.y - z.y * x.x) + e * x.z + f * z.z) ^ 2) =
      d ^ 2 * ((z.y * x.z - z.z * x.y) ^ 2 + (z.z * x.x - z.x * x.z) ^ 2 + (z.x * x.y - z.y * x.x) ^ 2) + e ^ 2 * (x.x * x.x + x.y * x.y + x.z * x.z) +
      f ^ 2 * (z.x * z.x + z.y * z.y + z.z * z.z) + 2 * e * f * (z.x * x.x + z.y * x.y + z.z * x.z) := by ring
    rw [this, ex, ez, h, ec]; ring
  have := key (b.x - a.x) (b.y - a.y) (b.z - a.z)
  rw [← this]
  ring

section
variable {solve : List (List ℝ) → List (List ℝ) → Res (List (List ℝ))} {profile T : NurbsCurve ℝ} {scale : ℝ} {p n q m : ℕ} {S : NurbsSurface ℝ}

/-- C134 (violated): a point of the profile in the origin of its coordinates is not placed on the trajectory but one above it; and where the
tangent and the axis do not vanish, the edge is congruent to the profile without its weights, so that a point of the profile that the weights
move is not placed on the surface point at its parameter. -/
theorem C134_profile_violated (hsolve : SoundSolver solve) (wP : WellFormed profile p n) (heP : EndsSeparated (nth profile.knots) p n)
    (hpos : ∀ a ∈ profile.cps, 1 / 1000000 * (1 + |scale * a.w|) < |scale * a.w|)
    (wT : WellFormed T q m) (heT : EndsSeparated (nth T.knots) q m) (hcT : ClampedEnds (nth T.knots) q m) (h0 : nth T.knots 0 = 0) (h1 : nth T.knots (m + q + 1) = 1)
    (heB : ∀ kv, averageKnotVector ((min 3 m : ℕ) : ℤ) (grevilles T.knots q m) = ok kv → EndsSeparated (nth kv) (min 3 m) m)
    (heR : ∀ kv, averageKnotVector q (grevilles T.knots q m) = ok kv → EndsSeparated (nth kv) q m)
    (hS : createSwung solve profile T scale = ok S) {d : ℕ → XYZ ℝ} (hd : ∀ k ≤ m, ∃ l, NurbsCurve.rationalDerivatives T 1 (greville (nth T.knots) q k) = ok l ∧ nth l 1 = d k)
    {k : ℕ} (hk : k ≤ m) (hkm : k = 0 ∨ k = m ∨ m = q) {u : ℝ} {a o s : XYZ ℝ}
    (u0 : nth profile.knots p ≤ u) (u1 : u ≤ nth profile.knots (n + 1)) (ha : NurbsCurve.pointOnCurve (unweighted profile) u = ok a)
    (ho : NurbsCurve.pointOnCurve T (greville (nth T.knots) q k) = ok o) (hs : NurbsSurface.pointOnSurface S u (greville (nth T.knots) q k) = ok s) :
    (a = 0 → s = o + ⟨0, 0, 1⟩ ∧ s ≠ o) ∧
      (swungAxis d k ≠ 0 → d k ≠ 0 → ∀ b, s = framePoint (o + ⟨0, 0, 1⟩) ((swungAxis d k).cross (d k).normalize) (d k).normalize (swungAxis d k) b ↔ b = a) := by
  obtain ⟨-, -, -, d', hd', h⟩ := C134_placed_partial hsolve wP heP hpos wT heT hcT h0 h1 heB heR hS
  have hdd : ∀ j ≤ m, d' j = d j := by
    intro j hj
    obtain ⟨l, e1, e2⟩ := hd j hj
    obtain ⟨l', f1, f2⟩ := hd' j hj
    rw [e1] at f1
    rw [← f2, ← Res.ok.inj f1, e2]
  have hax : ∀ j ≤ m, swungAxis d' j = swungAxis d j := by
    intro j
    induction j with
    | zero => intro _; unfold swungAxis; rw [hdd 0 (by omega)]
    | succ j ih => intro hj; unfold swungAxis; rw [hdd (j + 1) hj, ih (by omega)]
  obtain ⟨o', eo, h⟩ := h k hk hkm
  obtain ⟨a', ea, es⟩ := h u u0 u1
  rw [ha] at ea
  rw [ho] at eo
  rw [hs] at es
  have ea := Res.ok.inj ea
  have eo := Res.ok.inj eo
  have es := Res.ok.inj es
  subst ea eo
  rw [hdd k hk, hax k hk] at es
  obtain ⟨ez, en⟩ := swungAxis_perp d k
  generalize swungAxis d k = z at es ez en ⊢
  subst es
  refine ⟨?_, ?_⟩
  · rintro rfl
    have e : framePoint (o + ⟨0, 0, 1⟩) (z.cross (d k).normalize) (d k).normalize z 0 = o + ⟨0, 0, 1⟩ := by
      unfold framePoint; simp
    refine ⟨e, fun h => ?_⟩
    rw [e] at h
    have := congrArg XYZ.z h
    simp at this
  · intro hz hl b
    have hz1 : z.length = 1 := by
      have := ((C29_normalize _).1 hz).1
      rwa [en] at this
    constructor
    · intro e
      have hd := cross_unit ((C29_normalize _).1 hl).1 hz1 (by
        obtain ⟨c, hc, e⟩ := ((C29_normalize _).1 hl).2
        rw [e]
        have : z.dot (c • d k) = c * z.dot (d k) := by simp [XYZ.dot]; ring
        rw [this, ez, mul_zero]) a b (o + ⟨0, 0, 1⟩)
      rw [← e, show ∀ s : XYZ ℝ, s.distance s = 0 by intro s; simp [XYZ.distance]] at hd
      exact (distance_zero hd.symm).symm
    · rintro rfl; rfl

end

/-- C134 (violated): with the scale zero the result is never a surface, because every weight becomes zero and is divided by. -/
theorem C134_zero_scale_violated (solve : List (List ℝ) → List (List ℝ) → Res (List (List ℝ))) (profile T : NurbsCurve ℝ) (hP : profile.cps ≠ []) (hT : T.cps ≠ []) (S : NurbsSurface ℝ) :
    createSwung solve profile T 0 ≠ ok S := by
  intro hS
  have hP : 0 < profile.cps.length := List.length_pos_iff.mpr hP
  have hT : 0 < T.cps.length := List.length_pos_iff.mpr hT
  unfold createSwung at hS
  dsimp only at hS
  obtain ⟨vl, -, hS⟩ := bind_eq_ok.mp hS
  obtain ⟨B, -, hS⟩ := bind_eq_ok.mp hS
  obtain ⟨Bv, -, hS⟩ := bind_eq_ok.mp hS
  obtain ⟨net, hnet, -⟩ := bind_eq_ok.mp hS
  unfold swungPlace at hnet
  rw [forI_head (by omega)] at hnet
  obtain ⟨s, hs, -⟩ := bind_eq_ok.mp hnet
  obtain ⟨v, -, hs⟩ := bind_eq_ok.mp hs
  obtain ⟨A, -, hs⟩ := bind_eq_ok.mp hs
  rw [forI_head (by omega)] at hs
  obtain ⟨s, hs, -⟩ := bind_eq_ok.mp hs
  obtain ⟨a, -, hs⟩ := bind_eq_ok.mp hs
  obtain ⟨x, hx, -⟩ := bind_eq_ok.mp hs
  unfold Matrix4d.ofWeightedPoint at hx
  rw [show ((0 : ℝ) • a).w = 0 by simp, fdiv_zero] at hx
  cases hx

end LNLib.Props
