import Verif.Lemmas.BasisDersRun
import Verif.Lemmas.Geom

/-! # Curve derivatives -/
set_option linter.unusedSectionVars false

namespace LNLib
open Res Spec Polynomial Finset

section
variable {K : Type} [Field K]

theorem NspanP_natDegree (U : ℕ → K) (s : ℕ) : ∀ p i, (NspanP U s p i).natDegree ≤ p := by
  intro p
  induction p with
  | zero => intro i; simp only [NspanP]; split <;> simp
  | succ p ih =>
    intro i
    simp only [NspanP]
    have h1 : ∀ c a : K, (C c * (X - C a)).natDegree ≤ 1 := by
      intro c a
      exact (natDegree_C_mul_le _ _).trans (natDegree_X_sub_C_le _)
    have h2 : ∀ c a : K, (C c * (C a - X)).natDegree ≤ 1 := by
      intro c a
      refine (natDegree_C_mul_le _ _).trans ?_
      have : (C a - X : K[X]) = -(X - C a) := by ring
      rw [this, natDegree_neg]
      exact natDegree_X_sub_C_le _
    apply natDegree_add_le_of_degree_le
    · refine natDegree_mul_le.trans ?_
      have := h1 ((U (i + p + 1) - U i)⁻¹) (U i)
      have := ih i
      omega
    · refine natDegree_mul_le.trans ?_
      have := h2 ((U (i + p + 2) - U (i + 1))⁻¹) (U (i + p + 2))
      have := ih (i + 1)
      omega

theorem dN_gt (U : ℕ → K) (s p i k : ℕ) (t : K) (h : p < k) : dN U s p i k t = 0 := by
  unfold dN
  rw [iterate_derivative_eq_zero (lt_of_le_of_lt (NspanP_natDegree U s p i) h), eval_zero]

theorem dN_out (U : ℕ → K) (s p i k : ℕ) (t : K) (h : s < i ∨ i + p < s) : dN U s p i k t = 0 := by
  unfold dN
  rw [NspanP_zero U s p i h, iterate_derivative_zero, eval_zero]

variable [LinearOrder K] [IsStrictOrderedRing K]
variable {T : Type} [AddCommGroup T] [Module K T]

theorem curveDeriv_window {U : ℕ → K} {s p n k : ℕ} {P : ℕ → T} {t : K} (hps : p ≤ s) (hsn : s ≤ n) :
    curveDeriv U s p n P k t = ∑ r ∈ range (p + 1), dN U s p (s - p + r) k t • P (s - p + r) := by
  unfold curveDeriv
  exact sum_window hps hsn (f := fun i => dN U s p i k t • P i) (fun i hi => by rw [dN_out U s p i k t hi, zero_smul])

theorem dN_succ {U : ℕ → K} {m : ℕ} (hm : MonoTo U m) (s q i l : ℕ) (hi : i + q + 2 ≤ m) (t : K) :
    dN U s (q + 1) i (l + 1) t = ((q : K) + 1) * ((U (i + q + 1) - U i)⁻¹ * dN U s q i l t
      - (U (i + q + 2) - U (i + 1))⁻¹ * dN U s q (i + 1) l t) := by
  unfold dN
  rw [Function.iterate_succ_apply, NspanP_derivative hm s q i hi]
  simp only [iterate_derivative_C_mul, iterate_derivative_sub, eval_mul, eval_C, eval_sub]

/-- control points of the derivatives, indexed by the basis function they multiply -/
def Qk (U : ℕ → K) (p : ℕ) (P : ℕ → T) : ℕ → ℕ → T
  | 0, i => P i
  | k + 1, i => (((p - k : ℕ) : K) / (U (i + p - k) - U i)) • (Qk U p P k i - Qk U p P k (i - 1))

theorem sum_lower {U : ℕ → K} {s q l : ℕ} {t : K} {R : ℕ → T} (hm : MonoTo U (s + q + 2)) (hq : q < s) :
    ∑ i ∈ range (s + 1), dN U s (q + 1) i (l + 1) t • R i =
      ∑ i ∈ range (s + 1), dN U s q i l t • ((((q : K) + 1) / (U (i + q + 1) - U i)) • (R i - R (i - 1))) := by
  have h1 : ∀ i ∈ range (s + 1), dN U s (q + 1) i (l + 1) t • R i =
      (((q : K) + 1) * (U (i + q + 1) - U i)⁻¹ * dN U s q i l t) • R i
      - (((q : K) + 1) * (U (i + 1 + q + 1) - U (i + 1))⁻¹ * dN U s q (i + 1) l t) • R (i + 1 - 1) := by
    intro i hi
    rw [mem_range] at hi
    rw [dN_succ hm s q i l (by omega), Nat.add_sub_cancel, ← sub_smul]
    congr 1
    have e : i + 1 + q + 1 = i + q + 2 := by omega
    rw [e]; ring
  have h2 : ∀ i ∈ range (s + 1), dN U s q i l t • ((((q : K) + 1) / (U (i + q + 1) - U i)) • (R i - R (i - 1))) =
      (((q : K) + 1) * (U (i + q + 1) - U i)⁻¹ * dN U s q i l t) • R i
      - (((q : K) + 1) * (U (i + q + 1) - U i)⁻¹ * dN U s q i l t) • R (i - 1) := by
    intro i hi
    rw [smul_smul, smul_sub]
    congr 2
    · ring
    · ring
  rw [Finset.sum_congr rfl h1, Finset.sum_congr rfl h2, Finset.sum_sub_distrib, Finset.sum_sub_distrib]
  congr 1
  have := Finset.sum_range_succ' (fun i => (((q : K) + 1) * (U (i + q + 1) - U i)⁻¹ * dN U s q i l t) • R (i - 1)) (s + 1)
  rw [Finset.sum_range_succ] at this
  rw [dN_out U s q (s + 1) l t (Or.inl (by omega)), dN_out U s q 0 l t (Or.inr (by omega))] at this
  simpa using this.symm

theorem sum_Qk {U : ℕ → K} {s p : ℕ} {t : K} {P : ℕ → T} (hm : MonoTo U (s + p + 1)) (hps : p ≤ s) :
    ∀ k, k ≤ p → ∀ l, ∑ i ∈ range (s + 1), dN U s p i (k + l) t • P i =
      ∑ i ∈ range (s + 1), dN U s (p - k) i l t • Qk U p P k i := by
  intro k
  induction k with
  | zero => intro _ l; simp [Qk]
  | succ k ih =>
    intro hk l
    have e : k + 1 + l = k + (l + 1) := by omega
    rw [e, ih (by omega) (l + 1)]
    obtain ⟨q, hq⟩ : ∃ q, p - k = q + 1 := ⟨p - k - 1, by omega⟩
    have hq' : p - (k + 1) = q := by omega
    rw [hq, hq', sum_lower (fun i j h1 h2 => hm i j h1 (by omega)) (by omega)]
    apply Finset.sum_congr rfl
    intro i _
    congr 1
    simp only [Qk]
    have e1 : i + p - k = i + q + 1 := by omega
    rw [e1, hq]; push_cast; rfl

/-- `∑ᵢ N^{(k)}_{i,p} Pᵢ = ∑ᵢ N_{i,p-k} P^{(k)}ᵢ` -/
theorem curveDeriv_Qk {U : ℕ → K} {s p n k : ℕ} {t : K} {P : ℕ → T} (hm : MonoTo U (s + p + 1)) (hps : p ≤ s) (hsn : s ≤ n)
    (hk : k ≤ p) : curveDeriv U s p n P k t =
      ∑ r ∈ range (p - k + 1), Nspan U s (p - k) (s - (p - k) + r) t • Qk U p P k (s - (p - k) + r) := by
  have h := sum_Qk (t := t) (P := P) hm hps k hk 0
  rw [add_zero] at h
  rw [curveDeriv_window hps hsn, ← sum_window hps (le_refl s) (f := fun i => dN U s p i k t • P i)
    (fun i hi => by rw [dN_out U s p i k t hi, zero_smul]), h]
  simp only [dN_zero]
  exact sum_window (by omega) (le_refl s) (f := fun i => Nspan U s (p - k) i t • Qk U p P k i)
    (fun i hi => by rw [Nspan_zero U s _ i t hi, zero_smul])

/-- accumulating `acc[k] += f(j)` for `j = 0 … m` -/
theorem accLoop {acc : List T} {k m : ℕ} {kk : ℤ} {b : ℤ} {f : ℕ → T} {rd : ℤ → Res T} (hk : k < acc.length) (hkk : kk = k) (hb : b = (m : ℤ))
    (h0 : nth acc k = 0) (hrd : ∀ j : ℕ, j < m → rd j = ok (f j)) :
    Runs (forI 0 b acc fun j acc => vget acc kk >>= fun old => rd j >>= fun x => vset acc kk (old + x))
      (fun r => r.length = acc.length ∧ nth r k = ∑ j ∈ range m, f j ∧ ∀ i, i ≠ k → nth r i = nth acc i) := by
  refine Runs.forN (m := 0) (n := m) (fun j r => r.length = acc.length ∧ nth r k = ∑ j' ∈ range j, f j' ∧ ∀ i, i ≠ k → nth r i = nth acc i)
    rfl hb (by omega) ⟨rfl, by simp [h0], fun _ _ => rfl⟩ ?_
  rintro j r - hj ⟨i1, i2, i3⟩
  refine Runs.bind_eq (vget_nth hkk (by omega)) ?_
  refine Runs.bind_eq (hrd j hj) ?_
  refine Runs.of_eq (vset_of hkk (by omega)) ⟨by simp [i1], ?_, ?_⟩
  · rw [nth_set (by omega), if_pos rfl, Finset.sum_range_succ, i2]
  · intro i hi
    rw [nth_set (by omega), if_neg hi]; exact i3 i hi

theorem computeDerivatives_run {c : BsplineCurve K T} {p n d s : ℕ} {t : K} (w : WellFormed c p n) (hd : 0 < d)
    (h0 : nth c.knots 0 - doubleEps ≤ t) (h1 : t ≤ nth c.knots (n + p + 1) + doubleEps)
    (hs : getKnotSpanIndex c.degree c.knots t = ok (s : ℤ)) (hps : p ≤ s) (hsn : s ≤ n)
    (hlt : nth c.knots s < nth c.knots (s + 1)) :
    Runs (c.computeDerivatives d t) (fun l => l.length = d + 1 ∧
      ∀ k ≤ d, nth l k = curveDeriv (nth c.knots) s p n (nth c.cps) k t) := by
  unfold BsplineCurve.computeDerivatives
  have hk := w.knots
  have hcp := w.cps
  have hU := isValidKnotVector_nth.mpr w.sorted
  have e0 : vget c.knots 0 = ok (nth c.knots 0) := vget_nth (by simp) (by omega)
  have el : c.knots.length - 1 = n + p + 1 := by omega
  have e1 : vget c.knots ((c.knots.length : ℤ) - 1) = ok (nth c.knots (n + p + 1)) := vget_nth (by omega) (by omega)
  rw [validate_of (by simpa using hd), ok_bind, e0, ok_bind, e1, ok_bind, validateRange_eq_ok_iff.mpr ⟨h0, h1⟩, ok_bind]
  dsimp only
  rw [hs, ok_bind, w.degree]
  have emin : min (d : ℤ) (p : ℤ) = ((min d p : ℕ) : ℤ) := by omega
  have ed : ((d : ℤ) + 1).toNat = d + 1 := by omega
  rw [emin, ed]
  refine Runs.bind (basisFunctionsDerivatives_run (d := min d p) w.le7 (by omega) hps (by omega) hU hlt h0 (by rw [el]; exact h1)) ?_
  rintro m ⟨hm, hent⟩
  refine (Runs.forN (m := 0) (n := min d p + 1) (fun k l => l.length = d + 1 ∧
    (∀ k' < k, nth l k' = curveDeriv (nth c.knots) s p n (nth c.cps) k' t) ∧ ∀ k', k ≤ k' → nth l k' = 0)
    rfl (by push_cast; rfl) (by omega) ⟨by simp, by omega, fun k' _ => nth_replicate_zero⟩ ?_).mono ?_
  · rintro k l - hk' ⟨i1, i2, i3⟩
    have hb : (fun (j : ℤ) (derivatives : List T) => (do
      let old ← vget derivatives (k : ℤ)
      let x ← mget m (k : ℤ) j
      let p ← vget c.cps ((s : ℤ) - (p : ℤ) + j)
      vset derivatives (k : ℤ) (old + x • p) : Res (List T))) = fun j acc => vget acc (k : ℤ) >>= fun old =>
        (mget m (k : ℤ) j >>= fun x => vget c.cps ((s : ℤ) - (p : ℤ) + j) >>= fun q => ok (x • q)) >>= fun x => vset acc (k : ℤ) (old + x) := by
      funext j acc
      simp only [bind_assoc', ok_bind]
    rw [hb]
    refine (accLoop (m := p + 1) (f := fun j => dN (nth c.knots) s p (s - p + j) k t • nth c.cps (s - p + j)) (by omega) rfl
      (by push_cast; rfl) (i3 k (le_refl _)) ?_).mono ?_
    · intro j hj
      rw [mget_ent hm rfl rfl (by omega) (by omega), ok_bind, vget_nth (k := s - p + j) (by omega) (by omega), ok_bind,
        hent k (by omega) j (by omega)]
    · rintro r ⟨j1, j2, j3⟩
      refine ⟨by rw [j1, i1], ?_, ?_⟩
      · intro k' hk''
        by_cases hkk : k' = k
        · rw [hkk, j2, curveDeriv_window hps hsn]
        · rw [j3 k' hkk]; exact i2 k' (by omega)
      · intro k' hk''
        rw [j3 k' (by omega)]; exact i3 k' (by omega)
  · rintro l ⟨i1, i2, i3⟩
    refine ⟨i1, ?_⟩
    intro k hk'
    by_cases hkp : k ≤ p
    · exact i2 k (by omega)
    · rw [i3 k (by omega)]
      unfold curveDeriv
      rw [Finset.sum_eq_zero]
      intro i _
      rw [dN_gt _ _ _ _ _ _ (by omega), zero_smul]

theorem mulCast_smul (k : ℕ) {a : K} {x : T} : a⁻¹ • ((k : K) • x) = ((k : K) / a) • x := by
  rw [smul_smul]; congr 1; ring

theorem controlPointsOfDerivatives_run {c : BsplineCurve K T} {p n d s : ℕ} (w : WellFormed c p n) (hd : 0 < d) (hdp : d ≤ p)
    (hps : p ≤ s) (hsn : s ≤ n) (hlt : nth c.knots s < nth c.knots (s + 1)) :
    Runs (c.controlPointsOfDerivatives d ((s : ℤ) - p) s) (fun m => IsMat m (d + 1) (p + 1) ∧
      ∀ k ≤ d, ∀ j, j + k ≤ p → ent m k j = Qk (nth c.knots) p (nth c.cps) k (s - (p - k) + j)) := by
  unfold BsplineCurve.controlPointsOfDerivatives
  have hk := w.knots
  have hcp := w.cps
  have hU := isValidKnotVector_nth.mpr w.sorted
  have hden := den_ne hps (by omega) hU hlt
  have hmono := w.sorted
  rw [validate_of (by simpa using hd), ok_bind]
  have hv : validateRange ((((s : ℤ) - p : ℤ)) : K) 0 (((s : ℤ)) : K) = ok () := by
    have heps := doubleEps_pos (K := K)
    have h1 : (0 : K) ≤ (((s : ℤ) - p : ℤ) : K) := by exact_mod_cast (show (0 : ℤ) ≤ (s : ℤ) - p by omega)
    have h2 : (((s : ℤ) - p : ℤ) : K) ≤ (((s : ℤ)) : K) := by exact_mod_cast (show (s : ℤ) - p ≤ s by omega)
    exact validateRange_eq_ok_iff.mpr ⟨by linarith, by linarith⟩
  rw [hv, ok_bind]
  dsimp only
  have er : (s : ℤ) - ((s : ℤ) - p) = p := by ring
  have ed : ((d : ℤ) + 1).toNat = d + 1 := by omega
  have ep : ((p : ℤ) + 1).toNat = p + 1 := by omega
  rw [er, ed, ep, w.degree]
  refine Runs.bind (Q := fun m => IsMat m (d + 1) (p + 1) ∧ ∀ j ≤ p, ent m 0 j = nth c.cps (s - p + j)) ?_ ?_
  · refine (Runs.forN (m := 0) (n := p + 1) (fun i m => IsMat m (d + 1) (p + 1) ∧ ∀ j < i, ent m 0 j = nth c.cps (s - p + j))
      rfl (by push_cast; rfl) (by omega) ⟨isMat_replicate, by omega⟩ ?_).mono (fun m h => ⟨h.1, fun j hj => h.2 j (by omega)⟩)
    rintro i m - hi ⟨i1, i2⟩
    refine Runs.bind_eq (vget_nth (k := s - p + i) (by omega) (by omega)) ?_
    obtain ⟨m', e', hm', hc'⟩ := mset_ok i1 (i := 0) (j := (i : ℤ)) (a := 0) (b := i) (x := nth c.cps (s - p + i)) rfl rfl (by omega) (by omega)
    refine Runs.of_eq e' ⟨hm', ?_⟩
    intro j hj
    rw [hc']
    by_cases hji : j = i
    · rw [if_pos ⟨rfl, hji⟩, hji]
    · rw [if_neg (by omega)]; exact i2 j (by omega)
  · rintro m0 ⟨hm0, hr0⟩
    refine (Runs.forN (m := 1) (n := d + 1) (fun k m => IsMat m (d + 1) (p + 1) ∧
      ∀ k' < k, ∀ j, j + k' ≤ p → ent m k' j = Qk (nth c.knots) p (nth c.cps) k' (s - (p - k') + j))
      rfl (by push_cast; rfl) (by omega) ⟨hm0, ?_⟩ ?_).mono (fun m h => ⟨h.1, fun k hk => h.2 k (by omega)⟩)
    · intro k' hk' j hj
      obtain rfl : k' = 0 := by omega
      rw [hr0 j (by omega)]; simp [Qk]
    · rintro k m hk1 hkd ⟨i1, i2⟩
      refine (Runs.forN (m := 0) (n := p - k + 1) (fun i m => IsMat m (d + 1) (p + 1) ∧
        (∀ k' < k, ∀ j, j + k' ≤ p → ent m k' j = Qk (nth c.knots) p (nth c.cps) k' (s - (p - k') + j)) ∧
        ∀ j < i, ent m k j = Qk (nth c.knots) p (nth c.cps) k (s - (p - k) + j)) rfl (by omega) (by omega) ⟨i1, i2, by omega⟩ ?_).mono ?_
      · rintro i m - hi ⟨j1, j2, j3⟩
        obtain ⟨k, rfl⟩ : ∃ k', k = k' + 1 := ⟨k - 1, by omega⟩
        refine Runs.bind_eq (mget_ent j1 (a := k) (b := i + 1) (by push_cast; omega) (by push_cast; omega) (by omega) (by omega)) ?_
        refine Runs.bind_eq (mget_ent j1 (a := k) (b := i) (by push_cast; omega) rfl (by omega) (by omega)) ?_
        refine Runs.bind_eq (vget_nth (k := s - p + i + p + 1) (by omega) (by omega)) ?_
        refine Runs.bind_eq (vget_nth (k := s - p + i + (k + 1)) (by push_cast; omega) (by omega)) ?_
        have hd1 : nth c.knots (s - p + i + p + 1) - nth c.knots (s - p + i + (k + 1)) ≠ 0 := by
          have := hden (p - k) (by omega) i (by omega)
          have e1 : s - p + i + p + 1 = s + i + 1 := by omega
          have e2 : s - p + i + (k + 1) = s + 1 - (p - k) + i := by omega
          rwa [e1, e2]
        refine Runs.bind_eq (vdiv_ok hd1) ?_
        have ecast : (((p : ℤ) - ((k + 1 : ℕ) : ℤ) + 1 : ℤ) : K) = ((p - k : ℕ) : K) := by
          have : ((p : ℤ) - ((k + 1 : ℕ) : ℤ) + 1 : ℤ) = ((p - k : ℕ) : ℤ) := by push_cast; omega
          rw [this, Int.cast_natCast]
        rw [ecast, mulCast_smul]
        obtain ⟨m', e', hm', hc'⟩ := mset_ok j1 (i := ((k + 1 : ℕ) : ℤ)) (j := (i : ℤ)) (a := k + 1) (b := i)
          (x := (((p - k : ℕ) : K) / (nth c.knots (s - p + i + p + 1) - nth c.knots (s - p + i + (k + 1)))) • (ent m k (i + 1) - ent m k i)) rfl rfl (by omega) (by omega)
        refine Runs.of_eq e' ⟨hm', ?_, ?_⟩
        · intro k' hk' j hj
          rw [hc', if_neg (by omega)]; exact j2 k' hk' j hj
        · intro j hj
          rw [hc']
          by_cases hji : j = i
          · subst hji
            rw [if_pos ⟨rfl, rfl⟩, j2 k (by omega) (j + 1) (by omega), j2 k (by omega) j (by omega)]
            simp only [Qk]
            have e1 : s - (p - (k + 1)) + j + p - k = s - p + j + p + 1 := by omega
            have e2 : s - (p - (k + 1)) + j = s - p + j + (k + 1) := by omega
            have e3 : s - (p - k) + (j + 1) = s - p + j + (k + 1) := by omega
            have e4 : s - (p - k) + j = s - p + j + (k + 1) - 1 := by omega
            rw [e1, e2, e3, e4]
          · rw [if_neg (by omega)]; exact j3 j (by omega)
      · rintro m ⟨j1, j2, j3⟩
        refine ⟨j1, ?_⟩
        intro k' hk' j hj
        by_cases hkk : k' = k
        · rw [hkk]; exact j3 j (by omega)
        · exact j2 k' (by omega) j hj

theorem computeDerivativesByAll_run {c : BsplineCurve K T} {p n d s : ℕ} {t : K} (w : WellFormed c p n) (hd : 0 < d)
    (h0 : nth c.knots 0 - doubleEps ≤ t) (h1 : t ≤ nth c.knots (n + p + 1) + doubleEps)
    (hs : getKnotSpanIndex c.degree c.knots t = ok (s : ℤ)) (hps : p ≤ s) (hsn : s ≤ n)
    (hlt : nth c.knots s < nth c.knots (s + 1)) :
    Runs (c.computeDerivativesByAll d t) (fun l => l.length = d + 1 ∧
      ∀ k ≤ d, nth l k = curveDeriv (nth c.knots) s p n (nth c.cps) k t) := by
  unfold BsplineCurve.computeDerivativesByAll
  have hk := w.knots
  have hcp := w.cps
  have hU := isValidKnotVector_nth.mpr w.sorted
  have hmm : MonoTo (nth c.knots) (s + p + 1) := fun i j h1 h2 => w.sorted i j h1 (by omega)
  have e0 : vget c.knots 0 = ok (nth c.knots 0) := vget_nth (by simp) (by omega)
  have el : c.knots.length - 1 = n + p + 1 := by omega
  have e1 : vget c.knots ((c.knots.length : ℤ) - 1) = ok (nth c.knots (n + p + 1)) := vget_nth (by omega) (by omega)
  rw [validate_of (by simpa using hd), ok_bind, e0, ok_bind, e1, ok_bind, validateRange_eq_ok_iff.mpr ⟨h0, h1⟩, ok_bind]
  rw [hs, ok_bind, w.degree]
  refine Runs.bind (allBasisFunctions_run w.le7 hps (by omega) hU hlt h0 (by rw [el]; exact h1)) ?_
  rintro N ⟨hN, hNdu⟩
  dsimp only
  have emin : min (d : ℤ) (p : ℤ) = ((min d p : ℕ) : ℤ) := by omega
  have ed : ((d : ℤ) + 1).toNat = d + 1 := by omega
  rw [emin, ed]
  have hpos := w.pos
  refine Runs.bind (controlPointsOfDerivatives_run (d := min d p) w (by omega) (by omega) hps hsn hlt) ?_
  rintro m ⟨hm, hent⟩
  refine (Runs.forN (m := 0) (n := min d p + 1) (fun k l => l.length = d + 1 ∧
    (∀ k' < k, nth l k' = curveDeriv (nth c.knots) s p n (nth c.cps) k' t) ∧ ∀ k', k ≤ k' → nth l k' = 0)
    rfl (by push_cast; rfl) (by omega) ⟨by simp, by omega, fun k' _ => nth_replicate_zero⟩ ?_).mono ?_
  · rintro k l - hk' ⟨i1, i2, i3⟩
    have hb : (fun (j : ℤ) (derivatives : List T) => (do
      let old ← vget derivatives (k : ℤ)
      let x ← aget2 N j ((p : ℤ) - (k : ℤ))
      let p ← mget m (k : ℤ) j
      vset derivatives (k : ℤ) (old + x • p) : Res (List T))) = fun j acc => vget acc (k : ℤ) >>= fun old =>
        (aget2 N j ((p : ℤ) - (k : ℤ)) >>= fun x => mget m (k : ℤ) j >>= fun q => ok (x • q)) >>= fun x => vset acc (k : ℤ) (old + x) := by
      funext j acc
      simp only [bind_assoc', ok_bind]
    rw [hb]
    refine (accLoop (m := p - k + 1) (f := fun j => Nspan (nth c.knots) s (p - k) (s - (p - k) + j) t • Qk (nth c.knots) p (nth c.cps) k (s - (p - k) + j)) (by omega) rfl
      (by omega) (i3 k (le_refl _)) ?_).mono ?_
    · intro j hj
      rw [aget2_of (a := j) (b := p - k) rfl (by omega) (hNdu.up (p - k) (by omega) j (by omega)), ok_bind,
        mget_ent hm rfl rfl (by omega) (by omega), ok_bind, hent k (by omega) j (by omega)]
    · rintro r ⟨j1, j2, j3⟩
      refine ⟨by rw [j1, i1], ?_, ?_⟩
      · intro k' hk''
        by_cases hkk : k' = k
        · rw [hkk, j2, curveDeriv_Qk hmm hps hsn (by omega)]
        · rw [j3 k' hkk]; exact i2 k' (by omega)
      · intro k' hk''
        rw [j3 k' (by omega)]; exact i3 k' (by omega)
  · rintro l ⟨i1, i2, i3⟩
    refine ⟨i1, ?_⟩
    intro k hk'
    by_cases hkp : k ≤ p
    · exact i2 k (by omega)
    · rw [i3 k (by omega)]
      unfold curveDeriv
      rw [Finset.sum_eq_zero]
      intro i _
      rw [dN_gt _ _ _ _ _ _ (by omega), zero_smul]

end

end LNLib
