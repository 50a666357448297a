import Verif.Lemmas.SurfaceDers
import Verif.Props.Surface

/-!
# C67: surface derivatives
(include/BsplineSurface.h, Geometry/Surface/NurbsSurface.cpp)
-/
set_option linter.unusedSectionVars false

namespace LNLib.Props
open LNLib Res Spec Finset

variable {K : Type} [Field K] [LinearOrder K] [IsStrictOrderedRing K]
variable {T : Type} [AddCommGroup T] [Module K T]

/-- C67: for an order `d` up to the smaller degree, `ComputeDerivatives` returns a `(d+1)×(d+1)` table whose entry
`[k][l]` is `∑ᵢⱼ N^{(k)}_{i,p}(u) N^{(l)}_{j,q}(v) Pᵢⱼ`. -/
theorem C67_derivatives {c : BsplineSurface K T} {p q n m d : ℕ} {u v : K} (w : WellFormedS c p q n m)
    (he : EndsSeparatedS c p q n m) (dom : InDomain c p q n m u v) (hd : 0 < d) (hdp : d ≤ p) (hdq : d ≤ q) {su sv : ℕ}
    (hsu : IsSpan (nth c.knotsU) p n u su) (hsv : IsSpan (nth c.knotsV) q m v sv) :
    ∃ r, c.computeDerivatives d u v = ok r ∧ IsMat r (d + 1) (d + 1) ∧
      ∀ k ≤ d, ∀ l ≤ d, ent r k l = surfaceDeriv (nth c.knotsU) (nth c.knotsV) su sv p q n m (ent c.cps) k l u v :=
  surfaceDers_run w he dom hd hdp hdq hsu hsv

/-- C67: the entry `[0][0]` is the point on the surface. -/
theorem C67_zeroth {U V : ℕ → K} {su sv p q n m : ℕ} {P : ℕ → ℕ → T} {u v : K} (hU : MonoTo U (n + p + 1)) (hV : MonoTo V (m + q + 1))
    (hsu : IsSpan U p n u su) (hsv : IsSpan V q m v sv) :
    surfaceDeriv U V su sv p q n m P 0 0 u v = surfacePoint U V p q n m P u v := by
  unfold surfaceDeriv surfacePoint
  refine sum_congr rfl fun i hi => sum_congr rfl fun j hj => ?_
  rw [mem_range] at hi hj
  have := hsu.1
  have := hsv.1
  rw [dN_zero, dN_zero, N_eq_Nspan hU (by omega) hsu _ _ (by omega), N_eq_Nspan hV (by omega) hsv _ _ (by omega)]

/-- C67: unlike for curves, an order above either degree is rejected with an exception (this makes the
curvature queries, which ask for order 2, fail on every surface that is linear in one direction). -/
theorem C67_order_rejected {c : BsplineSurface K T} {p q n m d : ℕ} {u v : K} (w : WellFormedS c p q n m)
    (he : EndsSeparatedS c p q n m) (dom : InDomain c p q n m u v) (hd : p < d ∨ (q < d ∧ d ≤ p)) :
    c.computeDerivatives d u v = invalidArg := by
  obtain ⟨su, e1, hsu⟩ := getKnotSpanIndex_isSpan w.knotsU w.pn w.sortedU he.u dom.u0 dom.u1
  obtain ⟨sv, e2, hsv⟩ := getKnotSpanIndex_isSpan w.knotsV w.qm w.sortedV he.v dom.v0 dom.v1
  have hp := w.posU
  have hq := w.posV
  unfold BsplineSurface.computeDerivatives
  rw [validate_of (by simp; omega), ok_bind, validateUV_ok w dom, ok_bind, w.degreeU, w.degreeV, e1, ok_bind]
  have h7 := w.le7U
  have h7' := w.le7V
  rcases hd with hd | ⟨hd, hdp⟩
  · rw [C19_order_rejected (by omega) (by omega) (by omega) (by omega)]
    rfl
  · obtain ⟨Nu, f1, -⟩ := C19_derivatives w.le7U hdp w.knotsU w.sortedU hsu
    rw [f1, ok_bind, e2, ok_bind, C19_order_rejected (by omega) (by omega) (by omega) (by omega)]
    rfl

/-! ### the rational table -/

theorem binom_nat (k j : ℕ) : (binomial (k : ℤ) (j : ℤ) : Res K) = ok (k.choose j : K) := by
  rw [C24_binomial]
  split
  · rw [Nat.choose_eq_zero_of_lt (by omega), Nat.cast_zero]
  · rfl

theorem ent_map {α β : Type} [Zero α] [Zero β] {M : List (List α)} {r c : ℕ} {f : α → β} (hM : IsMat M r c) {i j : ℕ} (hi : i < r) (hj : j < c) :
    ent (M.map (List.map f)) i j = f (ent M i j) := by
  unfold ent
  have h1 : i < M.length := by rw [hM.1]; exact hi
  have : row (M.map (List.map f)) i = (row M i).map f := by simp [row, h1]
  rw [this, nth_map (by rw [hM.2 i hi]; exact hj)]

theorem isMat_map {α β : Type} {M : List (List α)} {r c : ℕ} {f : α → β} (hM : IsMat M r c) : IsMat (M.map (List.map f)) r c := by
  refine ⟨by simp [hM.1], fun i hi => ?_⟩
  have h1 : i < M.length := by rw [hM.1]; exact hi
  have : row (M.map (List.map f)) i = (row M i).map f := by simp [row, h1]
  rw [this, List.length_map, hM.2 i hi]

theorem rational_loop2 {A : List (List (XYZ K))} {W : List (List K)} {d : ℕ} (hA : IsMat A (d + 1) (d + 1)) (hW : IsMat W (d + 1) (d + 1))
    (hw : ent W 0 0 ≠ 0) :
    Runs (forI 0 ((d : ℤ) + 1) (List.replicate (d + 1) (List.replicate (d + 1) (0 : XYZ K))) fun k derivatives =>
    forI 0 ((d : ℤ) - k + 1) derivatives fun l derivatives => do
      let x ← mget A k l
      let x ← forI 1 (l + 1) x fun j x => do
        let b ← (binomial l j : Res K)
        let w ← mget W 0 j
        let d ← mget derivatives k (l - j)
        ok (x - (b * w) • d)
      let x ← forI 1 (k + 1) x fun i x => do
        let b ← (binomial k i : Res K)
        let w ← mget W i 0
        let d ← mget derivatives (k - i) l
        let x := x - (b * w) • d
        let v2 ← forI 1 (l + 1) (0 : XYZ K) fun j v2 => do
          let b ← (binomial l j : Res K)
          let w ← mget W i j
          let d ← mget derivatives (k - i) (l - j)
          ok (v2 + (b * w) • d)
        ok (x - b • v2)
      let w0 ← mget W 0 0
      let q ← vdiv x w0
      mset derivatives k l q) (fun M => IsMat M (d + 1) (d + 1) ∧ ∀ k l, k + l ≤ d →
        ∑ i ∈ range (k + 1), ∑ j ∈ range (l + 1), ((k.choose i : K) * (l.choose j : K) * ent W i j) • ent M (k - i) (l - j) = ent A k l) := by
  -- the equation for an entry only involves entries up to it
  set Eqn : List (List (XYZ K)) → ℕ → ℕ → Prop := fun M k l =>
    ∑ i ∈ range (k + 1), ∑ j ∈ range (l + 1), ((k.choose i : K) * (l.choose j : K) * ent W i j) • ent M (k - i) (l - j) = ent A k l with hE
  refine (Runs.forN (m := 0) (n := d + 1) (fun k M => IsMat M (d + 1) (d + 1) ∧ ∀ k' < k, ∀ l, k' + l ≤ d → Eqn M k' l)
    rfl (by push_cast; rfl) (by omega) ⟨isMat_replicate, by omega⟩ ?_).mono (fun M h => ⟨h.1, fun k l hkl => h.2 k (by omega) l hkl⟩)
  rintro k M - hk ⟨hM, hEq⟩
  refine (Runs.forN (m := 0) (n := d - k + 1) (fun l M => IsMat M (d + 1) (d + 1) ∧ (∀ k' < k, ∀ l, k' + l ≤ d → Eqn M k' l) ∧ ∀ l' < l, Eqn M k l')
    rfl (by omega) (by omega) ⟨hM, hEq, by omega⟩ ?_).mono ?_
  · rintro l M - hl ⟨hM, h1, h2⟩
    refine Runs.bind_eq (mget_ent hA rfl rfl (by omega) (by omega)) ?_
    refine Runs.bind (Q := fun x => x = ent A k l - ∑ j ∈ range l, ((l.choose (j + 1) : K) * ent W 0 (j + 1)) • ent M k (l - (j + 1))) ?_ ?_
    · refine (Runs.forN (m := 1) (n := l + 1) (fun J x => x = ent A k l - ∑ j ∈ range (J - 1), ((l.choose (j + 1) : K) * ent W 0 (j + 1)) • ent M k (l - (j + 1)))
        rfl (by push_cast; rfl) (by omega) (by simp) ?_).mono (fun v h => by simpa using h)
      rintro j x hj1 hjl hx
      refine Runs.bind_eq (binom_nat l j) ?_
      refine Runs.bind_eq (mget_ent (a := 0) (b := j) hW rfl rfl (by omega) (by omega)) ?_
      refine Runs.bind_eq (mget_ent (a := k) (b := l - j) hM rfl (by omega) (by omega) (by omega)) ?_
      refine Runs.ok ?_
      obtain ⟨j, rfl⟩ : ∃ j', j = j' + 1 := ⟨j - 1, by omega⟩
      rw [hx, Nat.add_sub_cancel, Nat.add_sub_cancel, Finset.sum_range_succ, sub_sub]
    rintro x hx
    refine Runs.bind (Q := fun y => y = x - ∑ i ∈ range k, ∑ j ∈ range (l + 1), ((k.choose (i + 1) : K) * (l.choose j : K) * ent W (i + 1) j) • ent M (k - (i + 1)) (l - j)) ?_ ?_
    · refine (Runs.forN (m := 1) (n := k + 1) (fun I y => y = x - ∑ i ∈ range (I - 1), ∑ j ∈ range (l + 1), ((k.choose (i + 1) : K) * (l.choose j : K) * ent W (i + 1) j) • ent M (k - (i + 1)) (l - j))
        rfl (by push_cast; rfl) (by omega) (by simp) ?_).mono (fun v h => by simpa using h)
      rintro i y hi1 hik hy
      refine Runs.bind_eq (binom_nat k i) ?_
      refine Runs.bind_eq (mget_ent (a := i) (b := 0) hW rfl rfl (by omega) (by omega)) ?_
      refine Runs.bind_eq (mget_ent (a := k - i) (b := l) hM (by omega) rfl (by omega) (by omega)) ?_
      refine Runs.bind (Q := fun z => z = ∑ j ∈ range l, ((l.choose (j + 1) : K) * ent W i (j + 1)) • ent M (k - i) (l - (j + 1))) ?_ ?_
      · refine (Runs.forN (m := 1) (n := l + 1) (fun J z => z = ∑ j ∈ range (J - 1), ((l.choose (j + 1) : K) * ent W i (j + 1)) • ent M (k - i) (l - (j + 1)))
          rfl (by push_cast; rfl) (by omega) (by simp) ?_).mono (fun v h => by simpa using h)
        rintro j z hj1 hjl hz
        refine Runs.bind_eq (binom_nat l j) ?_
        refine Runs.bind_eq (mget_ent (a := i) (b := j) hW rfl rfl (by omega) (by omega)) ?_
        refine Runs.bind_eq (mget_ent (a := k - i) (b := l - j) hM (by omega) (by omega) (by omega) (by omega)) ?_
        refine Runs.ok ?_
        obtain ⟨j, rfl⟩ : ∃ j', j = j' + 1 := ⟨j - 1, by omega⟩
        rw [hz, Nat.add_sub_cancel, Nat.add_sub_cancel, Finset.sum_range_succ]
      · rintro z rfl
        refine Runs.ok ?_
        obtain ⟨i, rfl⟩ : ∃ i', i = i' + 1 := ⟨i - 1, by omega⟩
        rw [hy, Nat.add_sub_cancel, Nat.add_sub_cancel, Finset.sum_range_succ _ i, Finset.sum_range_succ' _ l, smul_sum, sub_sub, sub_sub]
        congr 1
        rw [Nat.choose_zero_right, Nat.cast_one, mul_one, Nat.sub_zero]
        congr 1
        rw [add_comm]
        congr 1
        refine sum_congr rfl fun j _ => ?_
        rw [smul_smul, mul_assoc]
    rintro y hy
    refine Runs.bind_eq (mget_ent (a := 0) (b := 0) hW rfl rfl (by omega) (by omega)) ?_
    refine Runs.bind_eq (vdiv_ok hw) ?_
    obtain ⟨M', em, hM', hent⟩ := mset_ok (x := (ent W 0 0)⁻¹ • y) hM (i := k) (j := l) rfl rfl (by omega) (by omega)
    refine Runs.of_eq em ⟨hM', ?_, ?_⟩
    · intro k' hk' l' hl'
      have := h1 k' hk' l' hl'
      simp only [hE] at this ⊢
      rw [← this]
      refine sum_congr rfl fun i _ => sum_congr rfl fun j _ => ?_
      rw [hent, if_neg (by omega)]
    · intro l' hl'
      rcases Nat.lt_succ_iff_lt_or_eq.mp hl' with h | rfl
      · have := h2 l' h
        simp only [hE] at this ⊢
        rw [← this]
        refine sum_congr rfl fun i _ => sum_congr rfl fun j _ => ?_
        rw [hent, if_neg (by omega)]
      · simp only [hE]
        rw [Finset.sum_range_succ' _ k, Finset.sum_range_succ' _ l']
        have e1 : ∑ i ∈ range k, ∑ j ∈ range (l' + 1), ((k.choose (i + 1) : K) * (l'.choose j : K) * ent W (i + 1) j) • ent M' (k - (i + 1)) (l' - j) =
            ∑ i ∈ range k, ∑ j ∈ range (l' + 1), ((k.choose (i + 1) : K) * (l'.choose j : K) * ent W (i + 1) j) • ent M (k - (i + 1)) (l' - j) := by
          refine sum_congr rfl fun i hi => sum_congr rfl fun j _ => ?_
          rw [mem_range] at hi
          rw [hent, if_neg (by omega)]
        have e2 : ∑ j ∈ range l', ((k.choose 0 : K) * (l'.choose (j + 1) : K) * ent W 0 (j + 1)) • ent M' (k - 0) (l' - (j + 1)) =
            ∑ j ∈ range l', ((l'.choose (j + 1) : K) * ent W 0 (j + 1)) • ent M k (l' - (j + 1)) := by
          refine sum_congr rfl fun j hj => ?_
          rw [mem_range] at hj
          rw [hent, if_neg (by omega)]
          simp
        rw [e1, e2, hent, if_pos (by simp), smul_smul]
        simp only [Nat.choose_zero_right, Nat.cast_one, one_mul, mul_inv_cancel₀ hw, one_smul]
        rw [hy, hx]
        abel
  · rintro M ⟨g1, g2, g3⟩
    refine ⟨g1, fun k' hk' l hl => ?_⟩
    rcases Nat.lt_succ_iff_lt_or_eq.mp hk' with h | rfl
    · exact g2 k' h l hl
    · exact g3 l (by omega)

/-- C67 (rational): the table `S_{kl}` returned by `ComputeRationalSurfaceDerivatives` satisfies, for all `k + l ≤ d`,
`A^{(k,l)} = ∑_{i≤k} ∑_{j≤l} binom(k,i) binom(l,j) w^{(i,j)} S_{k-i,l-j}`, where `A` and `w` are numerator and
denominator of the surface. -/
theorem C67_leibniz {c : NurbsSurface K} {p q n m d : ℕ} {u v : K} (w : WellFormedS c p q n m)
    (he : EndsSeparatedS c p q n m) (dom : InDomain c p q n m u v) (hd : 0 < d) (hdp : d ≤ p) (hdq : d ≤ q) {su sv : ℕ}
    (hsu : IsSpan (nth c.knotsU) p n u su) (hsv : IsSpan (nth c.knotsV) q m v sv)
    (hw : surfaceWeight (nth c.knotsU) (nth c.knotsV) p q n m (ent c.cps) u v ≠ 0) :
    ∃ M, NurbsSurface.rationalDerivatives c d u v = ok M ∧ IsMat M (d + 1) (d + 1) ∧ ∀ k l, k + l ≤ d →
      ∑ i ∈ range (k + 1), ∑ j ∈ range (l + 1), ((k.choose i : K) * (l.choose j : K) *
          (surfaceDeriv (nth c.knotsU) (nth c.knotsV) su sv p q n m (ent c.cps) i j u v).w) • ent M (k - i) (l - j)
        = (surfaceDeriv (nth c.knotsU) (nth c.knotsV) su sv p q n m (ent c.cps) k l u v).raw := by
  obtain ⟨D, e, hD, hent⟩ := C67_derivatives w he dom hd hdp hdq hsu hsv
  unfold NurbsSurface.rationalDerivatives
  rw [validate_of (by simpa using hd), ok_bind, validateUV_ok w dom, ok_bind, e, ok_bind]
  dsimp only
  have ed : ((d : ℤ) + 1).toNat = d + 1 := by omega
  rw [ed]
  have hw0 : ent (D.map (List.map XYZW.w)) 0 0 ≠ 0 := by
    rw [ent_map hD (by omega) (by omega), hent 0 (by omega) 0 (by omega), C67_zeroth (wfS_monoU w) (wfS_monoV w) hsu hsv, surfacePoint_w]
    exact hw
  obtain ⟨M, e2, hM, hsum⟩ := rational_loop2 (isMat_map (f := XYZW.raw) hD) (isMat_map (f := XYZW.w) hD) hw0
  refine ⟨M, e2, hM, ?_⟩
  intro k l hkl
  rw [← hent k (by omega) l (by omega), ← ent_map (f := XYZW.raw) hD (by omega) (by omega), ← hsum k l hkl]
  refine sum_congr rfl fun i hi => sum_congr rfl fun j hj => ?_
  rw [mem_range] at hi hj
  rw [ent_map hD (by omega) (by omega), hent i (by omega) j (by omega)]

/-! ### true partial derivatives -/

/-- Leibniz' rule for `A = W * R` -/
theorem quotient_leibniz {A W : Polynomial ℝ} {R : ℝ → ℝ} {t : ℝ} (hw : W.eval t ≠ 0)
    (hR : R =ᶠ[nhds t] fun x => (W.eval x)⁻¹ * A.eval x) (k : ℕ) :
    ∑ i ∈ range (k + 1), (k.choose i : ℝ) * ((Polynomial.derivative^[i]) W).eval t * iteratedDeriv (k - i) R t = ((Polynomial.derivative^[k]) A).eval t := by
  have hWc : ∀ m : ℕ, ContDiffAt ℝ m (fun x => W.eval x) t := fun m => by
    have := (Polynomial.contDiff_aeval (R := ℝ) W (𝕜 := ℝ) m).contDiffAt (x := t)
    simpa using this
  have hAc : ∀ m : ℕ, ContDiffAt ℝ m (fun x => A.eval x) t := fun m => by
    have := (Polynomial.contDiff_aeval (R := ℝ) A (𝕜 := ℝ) m).contDiffAt (x := t)
    simpa using this
  have hRc : ∀ m : ℕ, ContDiffAt ℝ m (fun x => (W.eval x)⁻¹ * A.eval x) t := fun m => ((hWc m).inv hw).mul (hAc m)
  have hev : (fun x => A.eval x) =ᶠ[nhds t] ((fun x => W.eval x) * fun x => (W.eval x)⁻¹ * A.eval x) := by
    have : ∀ᶠ x in nhds t, W.eval x ≠ 0 := ((W.differentiableAt (x := t)).continuousAt).eventually_ne hw
    filter_upwards [this] with x hx
    simp only [Pi.mul_apply]
    rw [← mul_assoc, mul_inv_cancel₀ hx, one_mul]
  rw [← iteratedDeriv_poly A k t, hev.iteratedDeriv_eq, iteratedDeriv_mul (hWc k) (hRc k)]
  refine sum_congr rfl fun i _ => ?_
  rw [iteratedDeriv_poly, hR.iteratedDeriv_eq]

/-- Differentiating the Leibniz relations in the second variable. -/
theorem mixed_leibniz {A W : ℕ → Polynomial ℝ} {B : ℕ → ℝ → ℝ} {u : ℝ} (hw : (W 0).eval u ≠ 0)
    (hB : ∀ l, ∀ᶠ x in nhds u, ∑ j ∈ range (l + 1), (l.choose j : ℝ) * (W j).eval x * B (l - j) x = (A l).eval x) :
    ∀ l, (∀ m : ℕ, ContDiffAt ℝ m (B l) u) ∧ ∀ k, ∑ i ∈ range (k + 1), ∑ j ∈ range (l + 1),
      (k.choose i : ℝ) * (l.choose j : ℝ) * ((Polynomial.derivative^[i]) (W j)).eval u * iteratedDeriv (k - i) (B (l - j)) u = ((Polynomial.derivative^[k]) (A l)).eval u := by
  have hPc : ∀ (P : Polynomial ℝ) (m : ℕ), ContDiffAt ℝ m (fun x => P.eval x) u := fun P m => by
    have := (Polynomial.contDiff_aeval (R := ℝ) P (𝕜 := ℝ) m).contDiffAt (x := u)
    simpa using this
  have hne : ∀ᶠ x in nhds u, (W 0).eval x ≠ 0 := (((W 0).differentiableAt (x := u)).continuousAt).eventually_ne hw
  have smooth : ∀ l, ∀ m : ℕ, ContDiffAt ℝ m (B l) u := by
    intro l
    induction l using Nat.strong_induction_on with
    | _ l ih =>
      intro m
      have hev : B l =ᶠ[nhds u] fun x => ((W 0).eval x)⁻¹ * ((A l).eval x - ∑ j ∈ range l, (l.choose (j + 1) : ℝ) * (W (j + 1)).eval x * B (l - (j + 1)) x) := by
        filter_upwards [hne, hB l] with x hx hx2
        rw [Finset.sum_range_succ'] at hx2
        rw [← hx2]
        simp only [Nat.choose_zero_right, Nat.cast_one, one_mul, Nat.sub_zero, add_sub_cancel_left]
        rw [← mul_assoc, inv_mul_cancel₀ hx, one_mul]
      refine ContDiffAt.congr_of_eventuallyEq ?_ hev
      refine ((hPc _ m).inv hw).mul ((hPc _ m).sub (ContDiffAt.sum fun j hj => ?_))
      rw [mem_range] at hj
      exact (contDiffAt_const.mul (hPc _ m)).mul (ih (l - (j + 1)) (by omega) m)
  intro l
  refine ⟨smooth l, fun k => ?_⟩
  have hev : (fun x => (A l).eval x) =ᶠ[nhds u] fun x => ∑ j ∈ range (l + 1), (l.choose j : ℝ) * ((fun x => (W j).eval x) * B (l - j)) x := by
    filter_upwards [hB l] with x hx
    rw [← hx]
    exact sum_congr rfl fun j _ => by rw [Pi.mul_apply, mul_assoc]
  rw [← iteratedDeriv_poly, hev.iteratedDeriv_eq, iteratedDeriv_fun_sum (f := fun j x => (l.choose j : ℝ) * ((fun x => (W j).eval x) * B (l - j)) x) (fun j _ => contDiffAt_const.mul ((hPc _ k).mul (smooth _ k))), sum_comm]
  refine sum_congr rfl fun j _ => ?_
  rw [iteratedDeriv_const_mul_field, iteratedDeriv_mul (hPc _ k) (smooth _ k), mul_sum]
  refine sum_congr rfl fun i _ => ?_
  rw [iteratedDeriv_poly]
  ring

/-- a triangular system in two indices with a nonzero diagonal has one solution -/
theorem leibniz_unique2 {W a b : ℕ → ℕ → K} (hw : W 0 0 ≠ 0) {d : ℕ}
    (h : ∀ k l, k + l ≤ d → ∑ i ∈ range (k + 1), ∑ j ∈ range (l + 1), (k.choose i : K) * (l.choose j : K) * W i j * a (k - i) (l - j) =
      ∑ i ∈ range (k + 1), ∑ j ∈ range (l + 1), (k.choose i : K) * (l.choose j : K) * W i j * b (k - i) (l - j)) :
    ∀ N k l, k + l = N → N ≤ d → a k l = b k l := by
  intro N
  induction N using Nat.strong_induction_on with
  | _ N ih =>
    intro k l hN hd
    have := h k l (by omega)
    rw [Finset.sum_range_succ', Finset.sum_range_succ' _ k, Finset.sum_range_succ' _ l, Finset.sum_range_succ' _ l] at this
    have e1 : ∑ i ∈ range k, ∑ j ∈ range (l + 1), (k.choose (i + 1) : K) * (l.choose j : K) * W (i + 1) j * a (k - (i + 1)) (l - j) =
        ∑ i ∈ range k, ∑ j ∈ range (l + 1), (k.choose (i + 1) : K) * (l.choose j : K) * W (i + 1) j * b (k - (i + 1)) (l - j) := by
      refine sum_congr rfl fun i hi => sum_congr rfl fun j hj => ?_
      rw [mem_range] at hi hj
      rw [ih (k - (i + 1) + (l - j)) (by omega) _ _ rfl (by omega)]
    have e2 : ∑ j ∈ range l, (k.choose 0 : K) * (l.choose (j + 1) : K) * W 0 (j + 1) * a (k - 0) (l - (j + 1)) =
        ∑ j ∈ range l, (k.choose 0 : K) * (l.choose (j + 1) : K) * W 0 (j + 1) * b (k - 0) (l - (j + 1)) := by
      refine sum_congr rfl fun j hj => ?_
      rw [mem_range] at hj
      rw [ih (k - 0 + (l - (j + 1))) (by omega) _ _ rfl (by omega)]
    rw [e1, e2] at this
    simpa [hw] using this

/-- C67: for real surfaces, inside a pair of spans the returned entries are the mixed partial derivatives
`∂ᵏ/∂uᵏ ∂ˡ/∂vˡ` of the rational surface for all `k + l ≤ d`, coordinate by coordinate. -/
theorem C67_true_derivative {c : NurbsSurface ℝ} {p q n m d su sv : ℕ} {u v : ℝ} (w : WellFormedS c p q n m)
    (he : EndsSeparatedS c p q n m) (hpu : p ≤ su) (hun : su ≤ n) (hqv : q ≤ sv) (hvm : sv ≤ m)
    (hu0 : nth c.knotsU su < u) (hu1 : u < nth c.knotsU (su + 1)) (hv0 : nth c.knotsV sv < v) (hv1 : v < nth c.knotsV (sv + 1))
    (hd : 0 < d) (hdp : d ≤ p) (hdq : d ≤ q)
    (hw : surfaceWeight (nth c.knotsU) (nth c.knotsV) p q n m (ent c.cps) u v ≠ 0) :
    ∃ M, NurbsSurface.rationalDerivatives c d u v = ok M ∧ IsMat M (d + 1) (d + 1) ∧ ∀ k l, k + l ≤ d →
      (ent M k l).x = iteratedDeriv k (fun a => iteratedDeriv l (fun b => (rationalSurfacePoint (nth c.knotsU) (nth c.knotsV) p q n m (ent c.cps) a b).x) v) u ∧
      (ent M k l).y = iteratedDeriv k (fun a => iteratedDeriv l (fun b => (rationalSurfacePoint (nth c.knotsU) (nth c.knotsV) p q n m (ent c.cps) a b).y) v) u ∧
      (ent M k l).z = iteratedDeriv k (fun a => iteratedDeriv l (fun b => (rationalSurfacePoint (nth c.knotsU) (nth c.knotsV) p q n m (ent c.cps) a b).z) v) u := by
  have hU := wfS_monoU w
  have hV := wfS_monoV w
  have hsU : ∀ x, x ∈ Set.Ioo (nth c.knotsU su) (nth c.knotsU (su + 1)) → IsSpan (nth c.knotsU) p n x su := fun x hx =>
    ⟨hpu, hun, hu0.trans hu1, hx.1.le, Or.inl hx.2⟩
  have hsV : ∀ x, x ∈ Set.Ioo (nth c.knotsV sv) (nth c.knotsV (sv + 1)) → IsSpan (nth c.knotsV) q m x sv := fun x hx =>
    ⟨hqv, hvm, hv0.trans hv1, hx.1.le, Or.inl hx.2⟩
  have b0 := hU p su hpu (by omega)
  have b1 := hU (su + 1) (n + 1) (by omega) (by omega)
  have b2 := hV q sv hqv (by omega)
  have b3 := hV (sv + 1) (m + 1) (by omega) (by omega)
  obtain ⟨M, e, hM, hL⟩ := C67_leibniz w he ⟨by linarith, by linarith, by linarith, by linarith⟩ hd hdp hdq (hsU u ⟨hu0, hu1⟩) (hsV v ⟨hv0, hv1⟩) hw
  refine ⟨M, e, hM, ?_⟩
  set U := nth c.knotsU
  set V := nth c.knotsV
  -- scalar surfaces as polynomials in `b` (for fixed `a`) and, after `l` derivatives in `b`, in `a`
  let polyV : (ℕ → ℕ → ℝ) → ℝ → Polynomial ℝ := fun f a => ∑ j ∈ range (m + 1), Polynomial.C (∑ i ∈ range (n + 1), Nspan U su p i a * f i j) * NspanP V sv q j
  let polyU : (ℕ → ℕ → ℝ) → ℕ → Polynomial ℝ := fun f l => ∑ i ∈ range (n + 1), Polynomial.C (∑ j ∈ range (m + 1), dN V sv q j l v * f i j) * NspanP U su p i
  let sc : (ℕ → ℕ → ℝ) → ℝ → ℝ → ℝ := fun f a b => ∑ i ∈ range (n + 1), ∑ j ∈ range (m + 1), N U (U (n + 1)) p i a * N V (V (m + 1)) q j b * f i j
  have hV0 : ∀ f a b, a ∈ Set.Ioo (U su) (U (su + 1)) → b ∈ Set.Ioo (V sv) (V (sv + 1)) → (polyV f a).eval b = sc f a b := by
    intro f a b ha hb
    simp only [polyV, sc]
    rw [Polynomial.eval_finsetSum, sum_comm]
    refine sum_congr rfl fun j hj => ?_
    rw [mem_range] at hj
    rw [Polynomial.eval_mul, Polynomial.eval_C, NspanP_eval, sum_mul]
    refine sum_congr rfl fun i hi => ?_
    rw [mem_range] at hi
    rw [N_eq_Nspan (p := p) (n := n) (m := n + p + 1) hU (by omega) (hsU a ha) _ _ (by omega), N_eq_Nspan (p := q) (n := m) (m := m + q + 1) hV (by omega) (hsV b hb) _ _ (by omega)]
    ring
  have hVU : ∀ f a l, ((Polynomial.derivative^[l]) (polyV f a)).eval v = (polyU f l).eval a := by
    intro f a l
    simp only [polyV, polyU]
    rw [Polynomial.iterate_derivative_sum, Polynomial.eval_finsetSum, Polynomial.eval_finsetSum]
    simp only [Polynomial.iterate_derivative_C_mul, Polynomial.eval_mul, Polynomial.eval_C, NspanP_eval, sum_mul]
    rw [sum_comm]
    refine sum_congr rfl fun i _ => sum_congr rfl fun j _ => ?_
    unfold dN
    ring
  have hUk : ∀ f k l, ((Polynomial.derivative^[k]) (polyU f l)).eval u = ∑ i ∈ range (n + 1), ∑ j ∈ range (m + 1), dN U su p i k u * dN V sv q j l v * f i j := by
    intro f k l
    simp only [polyU]
    rw [Polynomial.iterate_derivative_sum, Polynomial.eval_finsetSum]
    simp only [Polynomial.iterate_derivative_C_mul, Polynomial.eval_mul, Polynomial.eval_C, sum_mul]
    refine sum_congr rfl fun i _ => sum_congr rfl fun j _ => ?_
    rw [mul_right_comm]
    unfold dN
    ring
  set ω : ℕ → ℕ → ℝ := fun i j => (ent c.cps i j).w with hω
  have hwne : (polyU ω 0).eval u ≠ 0 := by
    rw [← hVU ω u 0]
    show (polyV ω u).eval v ≠ 0
    rw [hV0 ω u v ⟨hu0, hu1⟩ ⟨hv0, hv1⟩]
    exact hw
  have hnear : ∀ᶠ a in nhds u, (polyV ω a).eval v ≠ 0 := by
    have h1 : ∀ᶠ a in nhds u, (polyU ω 0).eval a ≠ 0 := (((polyU ω 0).differentiableAt (x := u)).continuousAt).eventually_ne hwne
    filter_upwards [h1] with a ha
    have := hVU ω a 0
    rw [Function.iterate_zero, id] at this
    rwa [this]
  have key : ∀ (f : ℕ → ℕ → ℝ) (R : ℝ → ℝ → ℝ) (D : ℕ → ℕ → ℝ),
      (∀ a b, a ∈ Set.Ioo (U su) (U (su + 1)) → b ∈ Set.Ioo (V sv) (V (sv + 1)) → R a b = (sc ω a b)⁻¹ * sc f a b) →
      (∀ k l, k + l ≤ d → ∑ i ∈ range (k + 1), ∑ j ∈ range (l + 1), (k.choose i : ℝ) * (l.choose j : ℝ) *
        (surfaceDeriv U V su sv p q n m (ent c.cps) i j u v).w * D (k - i) (l - j) = ∑ i ∈ range (n + 1), ∑ j ∈ range (m + 1), dN U su p i k u * dN V sv q j l v * f i j) →
      ∀ k l, k + l ≤ d → D k l = iteratedDeriv k (fun a => iteratedDeriv l (fun b => R a b) v) u := by
    intro f R D hR hD
    have hB : ∀ l, ∀ᶠ a in nhds u, ∑ j ∈ range (l + 1), (l.choose j : ℝ) * (polyU ω j).eval a * iteratedDeriv (l - j) (fun b => R a b) v = (polyU f l).eval a := by
      intro l
      filter_upwards [hnear, Ioo_mem_nhds hu0 hu1] with a ha ha2
      have := quotient_leibniz (A := polyV f a) (W := polyV ω a) (R := fun b => R a b) (t := v) ha (by
        filter_upwards [Ioo_mem_nhds hv0 hv1] with b hb
        rw [hR a b ha2 hb, hV0 _ a b ha2 hb, hV0 _ a b ha2 hb]) l
      simpa only [hVU] using this
    have hmix := mixed_leibniz (A := polyU f) (W := polyU ω) (B := fun l a => iteratedDeriv l (fun b => R a b) v) hwne hB
    have hsd : ∀ i j, ((Polynomial.derivative^[i]) (polyU ω j)).eval u = (surfaceDeriv U V su sv p q n m (ent c.cps) i j u v).w := by
      intro i j
      rw [hUk]
      unfold surfaceDeriv
      have : ∀ x : XYZW ℝ, x.w = XYZW.wL x := fun _ => rfl
      rw [this, map_sum]
      refine sum_congr rfl fun i _ => ?_
      rw [map_sum]
      exact sum_congr rfl fun j _ => by rw [map_smul]; rfl
    intro k l hkl
    refine leibniz_unique2 (W := fun i j => (surfaceDeriv U V su sv p q n m (ent c.cps) i j u v).w) (a := D)
      (b := fun k l => iteratedDeriv k (fun a => iteratedDeriv l (fun b => R a b) v) u) ?_ (d := d) ?_ (k + l) k l rfl hkl
    · rw [← hsd 0 0]
      exact hwne
    · intro k l hkl
      have h1 := (hmix l).2 k
      rw [hD k l hkl, ← hUk, ← h1]
      refine sum_congr rfl fun i _ => sum_congr rfl fun j _ => ?_
      rw [hsd]
  have hsumx : ∀ (L : XYZ ℝ →ₗ[ℝ] ℝ), ∀ k l, k + l ≤ d → ∑ i ∈ range (k + 1), ∑ j ∈ range (l + 1), (k.choose i : ℝ) * (l.choose j : ℝ) *
        (surfaceDeriv U V su sv p q n m (ent c.cps) i j u v).w * L (ent M (k - i) (l - j)) =
      ∑ i ∈ range (n + 1), ∑ j ∈ range (m + 1), dN U su p i k u * dN V sv q j l v * L (ent c.cps i j).raw := by
    intro L k l hkl
    have h1 := congrArg L (hL k l hkl)
    have h2 : (surfaceDeriv U V su sv p q n m (ent c.cps) k l u v).raw = ∑ i ∈ range (n + 1), ∑ j ∈ range (m + 1), (dN U su p i k u * dN V sv q j l v) • (ent c.cps i j).raw := by
      unfold surfaceDeriv
      have : ∀ x : XYZW ℝ, x.raw = XYZW.rawL x := fun _ => rfl
      rw [this, map_sum]
      refine sum_congr rfl fun i _ => ?_
      rw [map_sum]
      exact sum_congr rfl fun j _ => by rw [map_smul]; rfl
    rw [h2] at h1
    simpa only [map_sum, map_smul, smul_eq_mul] using h1
  have hR : ∀ (L : XYZ ℝ →ₗ[ℝ] ℝ) a b, L (rationalSurfacePoint U V p q n m (ent c.cps) a b) = (sc ω a b)⁻¹ * sc (fun i j => L (ent c.cps i j).raw) a b := by
    intro L a b
    unfold rationalSurfacePoint
    simp only [map_smul, map_sum, smul_eq_mul, sc]
    rfl
  intro k l hkl
  exact ⟨key (fun i j => (ent c.cps i j).wx) _ (fun k l => (ent M k l).x) (fun a b _ _ => hR XYZ.xL a b) (hsumx XYZ.xL) k l hkl,
    key (fun i j => (ent c.cps i j).wy) _ (fun k l => (ent M k l).y) (fun a b _ _ => hR XYZ.yL a b) (hsumx XYZ.yL) k l hkl,
    key (fun i j => (ent c.cps i j).wz) _ (fun k l => (ent M k l).z) (fun a b _ _ => hR XYZ.zL a b) (hsumx XYZ.zL) k l hkl⟩

/-- C67 is not vacuous: first derivatives of `exSurface` at `(3/4, 1/2)`. -/
example : IsSpan (nth exSurface.knotsU) 2 3 (3/4) 3 ∧ IsSpan (nth exSurface.knotsV) 1 2 (1/2) 2 ∧
    surfaceWeight (nth exSurface.knotsU) (nth exSurface.knotsV) 2 1 3 2 (ent exSurface.cps) (3/4) (1/2) ≠ 0 ∧
    BsplineSurface.computeDerivatives exSurface 1 (3/4) (1/2) =
      ok [[⟨71/32, 51/32, 27/16, 35/32⟩, ⟨-3/16, 45/16, -21/8, -3/16⟩], [⟨9/4, -3/4, -7/2, -3/4⟩, ⟨3/2, 3/2, 9, 3/2⟩]] ∧
    BsplineSurface.computeDerivatives exSurface 2 (3/4) (1/2) = invalidArg :=
  ⟨by unfold IsSpan; decide +kernel, by unfold IsSpan; decide +kernel, by decide +kernel, by decide +kernel, by decide +kernel⟩

end LNLib.Props
