import Verif.Props.Volume
import Verif.Props.SurfaceDers
import Verif.Core.Stuck

/-!
# C51: volume derivatives
(Geometry/Volume/NurbsVolume.cpp)
-/
set_option linter.unusedSectionVars false

namespace LNLib.Props
open LNLib Res Spec Finset

variable {K : Type} [Field K] [LinearOrder K] [IsStrictOrderedRing K]
variable {T : Type} [AddCommGroup T] [Module K T]

/-! ### the homogeneous table -/

/-- the loops that compute `temp1` succeed (their result is never used) -/
theorem temp1_run {cps : List (List (List T))} {Nu : List (List K)} {p q n m l d su sv sw a z : ℕ} (hc : IsCube cps (n + 1) (m + 1) (l + 1))
    (hN : IsMat Nu (d + 1) (p + 1)) (ha : a ≤ d) (h1 : p ≤ su) (h2 : su ≤ n) (h3 : q ≤ sv) (h4 : sv ≤ m) {r : ℕ} (h5 : r ≤ sw) (h6 : sw ≤ l) (hz : z ≤ r) :
    Runs (forI 0 ((q : ℤ) + 1) (List.replicate (q + 1) (0 : T)) fun y temp1 =>
          forI 0 ((p : ℤ) + 1) temp1 fun x temp1 => do
            let old ← vget temp1 y
            let b ← mget Nu (a : ℤ) x
            let pt ← cget cps ((su : ℤ) - p + x) ((sv : ℤ) - q + y) ((sw : ℤ) - r + (z : ℤ))
            vset temp1 y (old + b • pt)) (fun _ => True) := by
  refine (Runs.forN (m := 0) (n := q + 1) (fun _ (s : List T) => s.length = q + 1) rfl (by push_cast; rfl) (by omega) (by simp) ?_).mono (fun _ _ => trivial)
  rintro y s - hy hs
  refine Runs.forN (m := 0) (n := p + 1) (fun _ (s : List T) => s.length = q + 1) rfl (by push_cast; rfl) (by omega) hs ?_
  rintro x s - hx hs
  refine Runs.bind_eq (vget_nth (k := y) rfl (by omega)) ?_
  refine Runs.bind_eq (mget_ent hN rfl rfl (by omega) (by omega)) ?_
  refine Runs.bind_eq (cget_ent3 (x := su - p + x) (y := sv - q + y) (z := sw - r + z) hc (by omega) (by omega) (by omega) (by omega) (by omega) (by omega)) ?_
  exact Runs.of_eq (vset_of (k := y) rfl (by omega)) (by simp [hs])

/-- with `q ≤ r` the accumulation that reads `temp2` instead of `temp1` leaves it zero -/
theorem temp2_zero {Nv : List (List K)} {q r d b z : ℕ} (hN : IsMat Nv (d + 1) (q + 1)) (hb : b ≤ d) (hqr : q ≤ r) (hz : z ≤ r) {t2 : List T}
    (ht : t2.length = r + 1 ∧ ∀ i, nth t2 i = 0) :
    Runs (forI 0 ((q : ℤ) + 1) t2 fun y temp2 => do
          let old ← vget temp2 (z : ℤ)
          let bb ← mget Nv (b : ℤ) y
          let x ← vget temp2 y
          vset temp2 z (old + bb • x)) (fun t => t.length = r + 1 ∧ ∀ i, nth t i = 0) := by
  refine Runs.forN (m := 0) (n := q + 1) (fun _ (t : List T) => t.length = r + 1 ∧ ∀ i, nth t i = 0) rfl (by push_cast; rfl) (by omega) ht ?_
  rintro y t - hy ⟨h1, h2⟩
  refine Runs.bind_eq (vget_nth (k := z) rfl (by omega)) ?_
  refine Runs.bind_eq (mget_ent hN rfl rfl (by omega) (by omega)) ?_
  refine Runs.bind_eq (vget_nth (k := y) rfl (by omega)) ?_
  refine Runs.of_eq (vset_of (k := z) rfl (by omega)) ⟨by simp [h1], fun i => ?_⟩
  rw [nth_set (by omega), h2, h2, smul_zero, add_zero]
  split
  · rfl
  · exact h2 i

/-- with `r < q` the same accumulation reads past the end of `temp2` -/
theorem temp2_ub {Nv : List (List K)} {q r d : ℕ} (hN : IsMat Nv (d + 1) (q + 1)) (hqr : r < q) {t2 : List T} (ht : t2.length = r + 1) :
    (forI 0 ((q : ℤ) + 1) t2 fun y temp2 => do
          let old ← vget temp2 (0 : ℤ)
          let bb ← mget Nv (0 : ℤ) y
          let x ← vget temp2 y
          vset temp2 0 (old + bb • x)) = ub := by
  refine forI_stops ub_bind (fun _ t => t.length = r + 1) (i0 := (r : ℤ) + 1) (by omega) (r + 1) 0 t2 (by push_cast; omega) ht ?_ ?_
  · rintro y t h0 h1 ht
    obtain ⟨y, rfl⟩ := Int.eq_ofNat_of_zero_le h0
    refine Runs.bind_eq (vget_nth (i := 0) (k := 0) rfl (by omega)) ?_
    refine Runs.bind_eq (mget_ent (a := 0) (b := y) (i := 0) hN rfl rfl (by omega) (by omega)) ?_
    refine Runs.bind_eq (vget_nth (k := y) rfl (by omega)) ?_
    exact Runs.of_eq (vset_of (i := 0) (k := 0) rfl (by omega)) (by simp [ht])
  · rintro t ht
    rw [vget_nth (i := 0) (k := 0) rfl (by omega), ok_bind, mget_ent (a := 0) (b := r + 1) (i := 0) (j := (r : ℤ) + 1) hN rfl (by push_cast; rfl) (by omega) (by omega), ok_bind,
      vget_ge (by omega)]
    rfl

/-- the homogeneous derivatives come out as zero, or as undefined behaviour -/
theorem homogeneous_run {c : BsplineVolume K T} {p q r n m l d : ℕ} {u v w : K} (wf : WellFormedV c p q r n m l) (he : EndsSeparatedV c p q r n m l)
    (dom : InDomainV c p q r n m l u v w) (hdp : d ≤ p) (hdq : d ≤ q) (hdr : d ≤ r) :
    (q ≤ r → ∃ D, c.homogeneousDerivatives d u v w = ok D ∧ IsCube D (d + 1) (d + 1) (d + 1) ∧ ∀ i j k, ent3 D i j k = 0) ∧
    (r < q → c.homogeneousDerivatives d u v w = ub) := by
  obtain ⟨su, e1, hsu⟩ := getKnotSpanIndex_isSpan wf.u.knots wf.u.pn wf.u.sorted he.u dom.u0 dom.u1
  obtain ⟨sv, e2, hsv⟩ := getKnotSpanIndex_isSpan wf.v.knots wf.v.pn wf.v.sorted he.v dom.v0 dom.v1
  obtain ⟨sw, e3, hsw⟩ := getKnotSpanIndex_isSpan wf.w.knots wf.w.pn wf.w.sorted he.w dom.w0 dom.w1
  obtain ⟨Nu, f1, hNu, -⟩ := C19_derivatives wf.u.le7 hdp wf.u.knots wf.u.sorted hsu
  obtain ⟨Nv, f2, hNv, -⟩ := C19_derivatives wf.v.le7 hdq wf.v.knots wf.v.sorted hsv
  obtain ⟨Nw, f3, hNw, -⟩ := C19_derivatives wf.w.le7 hdr wf.w.knots wf.w.sorted hsw
  have t1 := fun z a ha hz => temp1_run (z := z) (a := a) (r := r) wf.cps hNu ha hsu.1 hsu.2.1 hsv.1 hsv.2.1 hsw.1 hsw.2.1 hz
  have m1 : min (d : ℤ) (p : ℤ) = d := by omega
  have m2 : min (d : ℤ) (q : ℤ) = d := by omega
  have m3 : min (d : ℤ) (r : ℤ) = d := by omega
  have n1 : ((d : ℤ) + 1).toNat = d + 1 := by omega
  have n2 : ((q : ℤ) + 1).toNat = q + 1 := by omega
  have n3 : ((r : ℤ) + 1).toNat = r + 1 := by omega
  unfold BsplineVolume.homogeneousDerivatives
  dsimp only
  rw [wf.u.degree, wf.v.degree, wf.w.degree, e1, ok_bind, f1, ok_bind, e2, ok_bind, f2, ok_bind, e3, ok_bind, f3, ok_bind, m1, m2, m3, n1, n2, n3]
  constructor
  · intro hqr
    refine Runs.forN (m := 0) (n := d + 1) (fun _ (D : List (List (List T))) => IsCube D (d + 1) (d + 1) (d + 1) ∧ ∀ i j k, ent3 D i j k = 0)
      rfl (by push_cast; rfl) (by omega) ⟨isCube_replicate, fun i j k => ent3_replicate_zero⟩ ?_
    rintro a D - ha hD
    refine Runs.forN (m := 0) (n := d - a + 1) (fun _ (D : List (List (List T))) => IsCube D (d + 1) (d + 1) (d + 1) ∧ ∀ i j k, ent3 D i j k = 0)
      rfl (by omega) (by omega) hD ?_
    rintro b D - hb hD
    refine Runs.bind (Q := fun t2 : List T => t2.length = r + 1 ∧ ∀ i, nth t2 i = 0) ?_ ?_
    · refine Runs.forN (m := 0) (n := r + 1) (fun _ (t : List T) => t.length = r + 1 ∧ ∀ i, nth t i = 0) rfl (by push_cast; rfl) (by omega)
        ⟨by simp, fun i => nth_replicate_zero⟩ ?_
      rintro z t - hz ht
      refine Runs.bind (t1 z a (by omega) (by omega)) ?_
      rintro x -
      exact temp2_zero hNv (by omega) hqr (by omega) ht
    · rintro t2 ⟨g1, g2⟩
      refine Runs.forN (m := 0) (n := d - a - b + 1) (fun _ (D : List (List (List T))) => IsCube D (d + 1) (d + 1) (d + 1) ∧ ∀ i j k, ent3 D i j k = 0)
        rfl (by omega) (by omega) hD ?_
      rintro cc D - hcc hD
      refine Runs.forN (m := 0) (n := r + 1) (fun _ (D : List (List (List T))) => IsCube D (d + 1) (d + 1) (d + 1) ∧ ∀ i j k, ent3 D i j k = 0)
        rfl (by push_cast; rfl) (by omega) hD ?_
      rintro z D - hz ⟨hD, hD0⟩
      refine Runs.bind_eq (cget_ent3 hD rfl rfl rfl (by omega) (by omega) (by omega)) ?_
      refine Runs.bind_eq (mget_ent hNw rfl rfl (by omega) (by omega)) ?_
      refine Runs.bind_eq (vget_nth (k := z) rfl (by omega)) ?_
      obtain ⟨D', eD, hD', hent⟩ := cset_ok (e := ent3 D a b cc + ent Nw cc z • nth t2 z) hD (x := a) (y := b) (z := cc) rfl rfl rfl (by omega) (by omega) (by omega)
      refine Runs.of_eq eD ⟨hD', fun i j k => ?_⟩
      rw [hent, hD0, g2, smul_zero, add_zero]
      split
      · rfl
      · exact hD0 i j k
  · intro hqr
    have hz0 : (0 : ℤ) = ((0 : ℕ) : ℤ) := rfl
    rw [forI_head (by omega), forI_head (by omega), forI_head (by omega)]
    obtain ⟨x, ex, -⟩ := t1 0 0 (by omega) (by omega)
    simp only [Nat.cast_zero] at ex
    rw [ex, ok_bind, temp2_ub hNv hqr (by simp)]
    rfl

theorem isCube_map {α β : Type} {M : List (List (List α))} {a b c : ℕ} {f : α → β} (hM : IsCube M a b c) : IsCube (M.map (List.map (List.map f))) a b c := by
  refine ⟨by simp [hM.1], fun i hi => ?_⟩
  have h1 : i < M.length := by rw [hM.1]; exact hi
  have : row (M.map (List.map (List.map f))) i = (row M i).map (List.map f) := by simp [row, h1]
  rw [this]
  exact isMat_map (hM.2 i hi)

theorem ent3_map {α β : Type} [Zero α] [Zero β] {M : List (List (List α))} {a b c : ℕ} {f : α → β} (hM : IsCube M a b c) {i j k : ℕ} (hi : i < a) (hj : j < b) (hk : k < c) :
    ent3 (M.map (List.map (List.map f))) i j k = f (ent3 M i j k) := by
  unfold ent3
  have h1 : i < M.length := by rw [hM.1]; exact hi
  have : row (M.map (List.map (List.map f))) i = (row M i).map (List.map f) := by simp [row, h1]
  rw [this]
  exact ent_map (hM.2 i hi) hj hk

/-- C51 disagreement: no volume whatsoever gets its derivatives from `ComputeVolumeRationalDerivatives`.  For every well-formed volume, every
parameter in its domain and every order up to the three degrees the routine divides by zero (all homogeneous derivatives are computed
as zero), or, when the V degree exceeds the W degree, reads past the end of an array. -/
theorem C51_derivatives_violated {c : NurbsVolume K} {p q r n m l d : ℕ} {u v w : K} (wf : WellFormedV c p q r n m l) (he : EndsSeparatedV c p q r n m l)
    (dom : InDomainV c p q r n m l u v w) (hdp : d ≤ p) (hdq : d ≤ q) (hdr : d ≤ r) :
    NurbsVolume.rationalDerivatives c d u v w = if q ≤ r then nonfinite else ub := by
  obtain ⟨h1, h2⟩ := homogeneous_run wf he dom hdp hdq hdr
  unfold NurbsVolume.rationalDerivatives
  split
  · rename_i h
    obtain ⟨D, e, hD, h0⟩ := h1 h
    rw [e, ok_bind]
    have hW := isCube_map (f := XYZW.w) hD
    have hA := isCube_map (f := XYZW.raw) hD
    unfold volumeRational
    dsimp only
    rw [forI_head (by omega), forI_head (by omega), forI_head (by omega), cget_ent3 (i := 0) (j := 0) (k := 0) (x := 0) (y := 0) (z := 0) hA rfl rfl rfl (by omega) (by omega) (by omega), ok_bind,
      forI_empty (by omega), ok_bind, forI_empty (by omega), ok_bind, forI_empty (by omega), ok_bind,
      cget_ent3 (i := 0) (j := 0) (k := 0) (x := 0) (y := 0) (z := 0) hW rfl rfl rfl (by omega) (by omega) (by omega), ok_bind, ent3_map (f := XYZW.w) hD (by omega) (by omega) (by omega), h0,
      show (0 : XYZW K).w = 0 from rfl, vdiv_zero]
    rfl
  · rename_i h
    rw [h2 (by omega)]
    rfl

/-- C51: an order above one of the degrees is rejected with an exception. -/
theorem C51_order_rejected {c : NurbsVolume K} {p q r n m l d : ℕ} {u v w : K} (wf : WellFormedV c p q r n m l) (he : EndsSeparatedV c p q r n m l)
    (dom : InDomainV c p q r n m l u v w) (hd : p < d ∨ q < d ∨ r < d) : NurbsVolume.rationalDerivatives c d u v w = invalidArg := by
  obtain ⟨su, e1, hsu⟩ := getKnotSpanIndex_isSpan wf.u.knots wf.u.pn wf.u.sorted he.u dom.u0 dom.u1
  obtain ⟨sv, e2, hsv⟩ := getKnotSpanIndex_isSpan wf.v.knots wf.v.pn wf.v.sorted he.v dom.v0 dom.v1
  obtain ⟨sw, e3, hsw⟩ := getKnotSpanIndex_isSpan wf.w.knots wf.w.pn wf.w.sorted he.w dom.w0 dom.w1
  have u7 := wf.u.le7
  have v7 := wf.v.le7
  have w7 := wf.w.le7
  unfold NurbsVolume.rationalDerivatives BsplineVolume.homogeneousDerivatives
  dsimp only
  rw [wf.u.degree, wf.v.degree, wf.w.degree, e1, ok_bind]
  by_cases hp : p < d
  · rw [C19_order_rejected (by omega) (by omega) (by omega) (by omega)]
    rfl
  obtain ⟨Nu, f1, hNu, -⟩ := C19_derivatives wf.u.le7 (Nat.le_of_not_lt hp) wf.u.knots wf.u.sorted hsu
  rw [f1, ok_bind, e2, ok_bind]
  by_cases hq : q < d
  · rw [C19_order_rejected (by omega) (by omega) (by omega) (by omega)]
    rfl
  obtain ⟨Nv, f2, hNv, -⟩ := C19_derivatives wf.v.le7 (Nat.le_of_not_lt hq) wf.v.knots wf.v.sorted hsv
  rw [f2, ok_bind, e3, ok_bind, C19_order_rejected (by omega) (by omega) (by omega) (by omega)]
  rfl

/-- C51 is not vacuous: the example volume, order 1 -/
example : NurbsVolume.rationalDerivatives exVolume (1 : ℕ) (3/4) (1/2) 1 = nonfinite := by
  rw [C51_derivatives_violated exVolume_wf exVolume_ends exVolume_dom (by decide) (by decide) (by decide), if_pos (by decide)]

example : NurbsVolume.rationalDerivatives exVolume (2 : ℕ) (3/4) (1/2) 1 = invalidArg :=
  C51_order_rejected exVolume_wf exVolume_ends exVolume_dom (by decide)

/-! ### the rational part on its own -/

/-- C51 (partial: the second half of the routine): given the right homogeneous derivatives `D`, with a non-zero weight, the remaining steps do compute the table `S` that
satisfies Leibniz' rule `D^{(a,b,c)} = ∑ binom(a,i) binom(b,j) binom(c,k) w^{(i,j,k)} S_{a-i,b-j,c-k}` for all `a + b + c ≤ d`. -/
theorem C51_rational_partial {D : List (List (List (XYZW K)))} {d : ℕ} (hD : IsCube D (d + 1) (d + 1) (d + 1)) (hw : (ent3 D 0 0 0).w ≠ 0) :
    ∃ S, volumeRational D d = ok S ∧ IsCube S (d + 1) (d + 1) (d + 1) ∧ ∀ a b c, a + b + c ≤ d →
      ∑ i ∈ range (a + 1), ∑ j ∈ range (b + 1), ∑ k ∈ range (c + 1),
        ((a.choose i : K) * (b.choose j : K) * (c.choose k : K) * (ent3 D i j k).w) • ent3 S (a - i) (b - j) (c - k) = (ent3 D a b c).raw := by
  set A := D.map (List.map (List.map XYZW.raw)) with hA0
  set W := D.map (List.map (List.map XYZW.w)) with hW0
  have hA : IsCube A (d + 1) (d + 1) (d + 1) := isCube_map hD
  have hW : IsCube W (d + 1) (d + 1) (d + 1) := isCube_map hD
  have n1 : ((d : ℤ) + 1).toNat = d + 1 := by omega
  have hw0 : ent3 W 0 0 0 ≠ 0 := by rw [ent3_map hD (by omega) (by omega) (by omega)]; exact hw
  set term : List (List (List (XYZ K))) → ℕ → ℕ → ℕ → ℕ → ℕ → ℕ → XYZ K := fun M a b c i j k =>
    ((a.choose i : K) * (b.choose j : K) * (c.choose k : K) * ent3 W i j k) • ent3 M (a - i) (b - j) (c - k) with hterm
  set Eqn : List (List (List (XYZ K))) → ℕ → ℕ → ℕ → Prop := fun M a b c =>
    ∑ i ∈ range (a + 1), ∑ j ∈ range (b + 1), ∑ k ∈ range (c + 1), term M a b c i j k = ent3 A a b c with hE
  suffices h : Runs (volumeRational D d) (fun S => IsCube S (d + 1) (d + 1) (d + 1) ∧ ∀ a b c, a + b + c ≤ d → Eqn S a b c) by
    obtain ⟨S, e, hS, hs⟩ := h
    refine ⟨S, e, hS, fun a b c habc => ?_⟩
    rw [← ent3_map (f := XYZW.raw) hD (by omega) (by omega) (by omega), ← hs a b c habc]
    refine sum_congr rfl fun i hi => sum_congr rfl fun j hj => sum_congr rfl fun k hk => ?_
    rw [mem_range] at hi hj hk
    simp only [hterm]
    rw [ent3_map hD (by omega) (by omega) (by omega)]
  unfold volumeRational
  dsimp only
  rw [n1]
  refine (Runs.forN (m := 0) (n := d + 1) (fun a M => IsCube M (d + 1) (d + 1) (d + 1) ∧ ∀ a' < a, ∀ b c, a' + b + c ≤ d → Eqn M a' b c)
    rfl (by push_cast; rfl) (by omega) ⟨isCube_replicate, by omega⟩ ?_).mono (fun M h => ⟨h.1, fun a b c habc => h.2 a (by omega) b c habc⟩)
  rintro a M - ha ⟨hM, h1⟩
  refine (Runs.forN (m := 0) (n := d - a + 1) (fun b M => IsCube M (d + 1) (d + 1) (d + 1) ∧ (∀ a' < a, ∀ b c, a' + b + c ≤ d → Eqn M a' b c) ∧
      ∀ b' < b, ∀ c, a + b' + c ≤ d → Eqn M a b' c)
    rfl (by omega) (by omega) ⟨hM, h1, by omega⟩ ?_).mono ?_
  · rintro b M - hb ⟨hM, h1, h2⟩
    refine (Runs.forN (m := 0) (n := d - a - b + 1) (fun c M => IsCube M (d + 1) (d + 1) (d + 1) ∧ (∀ a' < a, ∀ b c, a' + b + c ≤ d → Eqn M a' b c) ∧
        (∀ b' < b, ∀ c, a + b' + c ≤ d → Eqn M a b' c) ∧ ∀ c' < c, Eqn M a b c')
      rfl (by omega) (by omega) ⟨hM, h1, h2, by omega⟩ ?_).mono ?_
    · rintro c M - hc ⟨hM, h1, h2, h3⟩
      refine Runs.bind_eq (cget_ent3 hA rfl rfl rfl (by omega) (by omega) (by omega)) ?_
      refine Runs.bind (Q := fun g => g = ent3 A a b c - ∑ k ∈ range c, term M a b c 0 0 (k + 1)) ?_ ?_
      · refine (Runs.forN (m := 1) (n := c + 1) (fun s g => g = ent3 A a b c - ∑ k ∈ range (s - 1), term M a b c 0 0 (k + 1))
          rfl (by push_cast; rfl) (by omega) (by simp) ?_).mono (fun v h => by simpa using h)
        rintro s g hs1 hs hg
        refine Runs.bind_eq (binom_nat c s) ?_
        refine Runs.bind_eq (cget_ent3 (x := 0) (y := 0) (z := s) hW rfl rfl rfl (by omega) (by omega) (by omega)) ?_
        refine Runs.bind_eq (cget_ent3 (x := a) (y := b) (z := c - s) hM rfl rfl (by omega) (by omega) (by omega) (by omega)) ?_
        refine Runs.ok ?_
        obtain ⟨s, rfl⟩ : ∃ s', s = s' + 1 := ⟨s - 1, by omega⟩
        rw [hg, Nat.add_sub_cancel, Nat.add_sub_cancel, Finset.sum_range_succ, sub_sub]
        simp [hterm]
      rintro g hg
      refine Runs.bind (Q := fun g' => g' = g - ∑ j ∈ range b, ∑ k ∈ range (c + 1), term M a b c 0 (j + 1) k) ?_ ?_
      · refine (Runs.forN (m := 1) (n := b + 1) (fun J g' => g' = g - ∑ j ∈ range (J - 1), ∑ k ∈ range (c + 1), term M a b c 0 (j + 1) k)
          rfl (by push_cast; rfl) (by omega) (by simp) ?_).mono (fun v h => by simpa using h)
        rintro j g' hj1 hj hg'
        refine (Runs.forN (m := 0) (n := c + 1) (fun s x => x = g' - ∑ k ∈ range s, term M a b c 0 j k)
          rfl (by push_cast; rfl) (by omega) (by simp) ?_).mono ?_
        · rintro s x - hs hx
          refine Runs.bind_eq (binom_nat b j) ?_
          refine Runs.bind_eq (binom_nat c s) ?_
          refine Runs.bind_eq (cget_ent3 (x := 0) (y := j) (z := s) hW rfl rfl rfl (by omega) (by omega) (by omega)) ?_
          refine Runs.bind_eq (cget_ent3 (x := a) (y := b - j) (z := c - s) hM rfl (by omega) (by omega) (by omega) (by omega) (by omega)) ?_
          refine Runs.ok ?_
          rw [hx, Finset.sum_range_succ, sub_sub]
          simp [hterm]
        · rintro x rfl
          obtain ⟨j, rfl⟩ : ∃ j', j = j' + 1 := ⟨j - 1, by omega⟩
          rw [hg', Nat.add_sub_cancel, Nat.add_sub_cancel, Finset.sum_range_succ _ j, sub_sub]
      rintro g' hg'
      refine Runs.bind (Q := fun y => y = g' - ∑ i ∈ range a, ∑ j ∈ range (b + 1), ∑ k ∈ range (c + 1), term M a b c (i + 1) j k) ?_ ?_
      · refine (Runs.forN (m := 1) (n := a + 1) (fun I y => y = g' - ∑ i ∈ range (I - 1), ∑ j ∈ range (b + 1), ∑ k ∈ range (c + 1), term M a b c (i + 1) j k)
          rfl (by push_cast; rfl) (by omega) (by simp) ?_).mono (fun v h => by simpa using h)
        rintro i y hi1 hi hy
        refine (Runs.forN (m := 0) (n := b + 1) (fun J x => x = y - ∑ j ∈ range J, ∑ k ∈ range (c + 1), term M a b c i j k)
          rfl (by push_cast; rfl) (by omega) (by simp) ?_).mono ?_
        · rintro j x0 - hj hx0
          refine (Runs.forN (m := 0) (n := c + 1) (fun s x => x = x0 - ∑ k ∈ range s, term M a b c i j k)
            rfl (by push_cast; rfl) (by omega) (by simp) ?_).mono ?_
          · rintro s x - hs hx
            refine Runs.bind_eq (binom_nat a i) ?_
            refine Runs.bind_eq (binom_nat b j) ?_
            refine Runs.bind_eq (binom_nat c s) ?_
            refine Runs.bind_eq (cget_ent3 (x := i) (y := j) (z := s) hW rfl rfl rfl (by omega) (by omega) (by omega)) ?_
            refine Runs.bind_eq (cget_ent3 (x := a - i) (y := b - j) (z := c - s) hM (by omega) (by omega) (by omega) (by omega) (by omega) (by omega)) ?_
            refine Runs.ok ?_
            rw [hx, Finset.sum_range_succ, sub_sub]
          · rintro x rfl
            rw [hx0, Finset.sum_range_succ _ j, sub_sub]
        · rintro x rfl
          obtain ⟨i, rfl⟩ : ∃ i', i = i' + 1 := ⟨i - 1, by omega⟩
          rw [hy, Nat.add_sub_cancel, Nat.add_sub_cancel, Finset.sum_range_succ _ i, sub_sub]
      rintro y hy
      refine Runs.bind_eq (cget_ent3 (x := 0) (y := 0) (z := 0) hW rfl rfl rfl (by omega) (by omega) (by omega)) ?_
      refine Runs.bind_eq (vdiv_ok hw0) ?_
      obtain ⟨M', em, hM', hent⟩ := cset_ok (e := (ent3 W 0 0 0)⁻¹ • y) hM (x := a) (y := b) (z := c) rfl rfl rfl (by omega) (by omega) (by omega)
      have keep : ∀ a' b' c', (a' < a ∨ (a' = a ∧ b' < b) ∨ (a' = a ∧ b' = b ∧ c' < c)) → Eqn M a' b' c' → Eqn M' a' b' c' := by
        intro a' b' c' hlt h
        simp only [hE] at h ⊢
        rw [← h]
        refine sum_congr rfl fun i _ => sum_congr rfl fun j _ => sum_congr rfl fun k _ => ?_
        simp only [hterm]
        rw [hent, if_neg (by omega)]
      refine Runs.of_eq em ⟨hM', ?_, ?_, ?_⟩
      · exact fun a' ha' b' c' h => keep a' b' c' (by omega) (h1 a' ha' b' c' h)
      · exact fun b' hb' c' h => keep a b' c' (by omega) (h2 b' hb' c' h)
      · intro c' hc'
        rcases Nat.lt_succ_iff_lt_or_eq.mp hc' with h | rfl
        · exact keep a b c' (by omega) (h3 c' h)
        · simp only [hE]
          have same : ∀ i j k, i ≤ a → j ≤ b → k ≤ c' → i + j + k ≠ 0 → term M' a b c' i j k = term M a b c' i j k := by
            intro i j k hi hj hk hne
            simp only [hterm]
            rw [hent, if_neg (by omega)]
          rw [Finset.sum_range_succ' _ a, Finset.sum_range_succ' _ b, Finset.sum_range_succ' _ c']
          have e1 : ∑ i ∈ range a, ∑ j ∈ range (b + 1), ∑ k ∈ range (c' + 1), term M' a b c' (i + 1) j k =
              ∑ i ∈ range a, ∑ j ∈ range (b + 1), ∑ k ∈ range (c' + 1), term M a b c' (i + 1) j k := by
            refine sum_congr rfl fun i hi => sum_congr rfl fun j hj => sum_congr rfl fun k hk => ?_
            rw [mem_range] at hi hj hk
            exact same _ _ _ (by omega) (by omega) (by omega) (by omega)
          have e2 : ∑ j ∈ range b, ∑ k ∈ range (c' + 1), term M' a b c' 0 (j + 1) k = ∑ j ∈ range b, ∑ k ∈ range (c' + 1), term M a b c' 0 (j + 1) k := by
            refine sum_congr rfl fun j hj => sum_congr rfl fun k hk => ?_
            rw [mem_range] at hj hk
            exact same _ _ _ (by omega) (by omega) (by omega) (by omega)
          have e3 : ∑ k ∈ range c', term M' a b c' 0 0 (k + 1) = ∑ k ∈ range c', term M a b c' 0 0 (k + 1) := by
            refine sum_congr rfl fun k hk => ?_
            rw [mem_range] at hk
            exact same _ _ _ (by omega) (by omega) (by omega) (by omega)
          have e4 : term M' a b c' 0 0 0 = y := by
            simp only [hterm]
            rw [hent, if_pos (by simp), smul_smul]
            simp [mul_inv_cancel₀ hw0]
          rw [e1, e2, e3, e4, hy, hg', hg]
          abel
    · rintro M ⟨g1, g2, g3, g4⟩
      refine ⟨g1, g2, fun b' hb' c hc => ?_⟩
      rcases Nat.lt_succ_iff_lt_or_eq.mp hb' with h | rfl
      · exact g3 b' h c hc
      · exact g4 c (by omega)
  · rintro M ⟨g1, g2, g3⟩
    refine ⟨g1, fun a' ha' b c hc => ?_⟩
    rcases Nat.lt_succ_iff_lt_or_eq.mp ha' with h | rfl
    · exact g2 a' h b c hc
    · exact g3 b (by omega) c hc

/-- and satisfiable: a table of order one -/
example : ∃ S, volumeRational ([[[⟨1, 2, 3, 2⟩, ⟨1, 0, 0, 1⟩], [⟨0, 1, 0, 1⟩, ⟨0, 0, 0, 0⟩]], [[⟨5, 0, 0, 3⟩, ⟨0, 0, 0, 0⟩], [⟨0, 0, 0, 0⟩, ⟨0, 0, 0, 0⟩]]] : List (List (List (XYZW ℚ)))) 1 = ok S ∧ IsCube S 2 2 2 := by
  obtain ⟨S, e, h, -⟩ := C51_rational_partial (d := 1) (D := ([[[⟨1, 2, 3, 2⟩, ⟨1, 0, 0, 1⟩], [⟨0, 1, 0, 1⟩, ⟨0, 0, 0, 0⟩]], [[⟨5, 0, 0, 3⟩, ⟨0, 0, 0, 0⟩], [⟨0, 0, 0, 0⟩, ⟨0, 0, 0, 0⟩]]] : List (List (List (XYZW ℚ)))))
    (by unfold IsCube IsMat; decide +kernel) (by decide +kernel)
  exact ⟨S, e, h⟩

end LNLib.Props
