import Verif.Model.SurfaceFirst
import Verif.Props.SurfaceDers

/-!
# C148: the first order surface derivatives
-/
set_option linter.unusedSectionVars false

namespace LNLib.Props
open LNLib Res LNLib.Spec Finset

variable {K : Type} [Field K] [LinearOrder K] [IsStrictOrderedRing K]
variable {T : Type} [AddCommGroup T] [Module K T]

/-- C148: the routine adds to the caller's array the point and the first partial derivatives of the surface (the entry `[k][l]` is `∑ᵢⱼ N^{(k)}_{i,p}(u) N^{(l)}_{j,q}(v) Pᵢⱼ`), as
`ComputeDerivatives` of order 1 does. -/
theorem C148_adds {c : BsplineSurface K T} {p q n m : ℕ} {u v : K} (w : WellFormedS c p q n m)
    (he : EndsSeparatedS c p q n m) (dom : InDomain c p q n m u v) {su sv : ℕ}
    (hsu : IsSpan (nth c.knotsU) p n u su) (hsv : IsSpan (nth c.knotsV) q m v sv) {old : List (List T)} (hold : IsMat old 2 2) :
    ∃ r, c.firstOrder u v old = ok r ∧ IsMat r 2 2 ∧
      ∀ k ≤ 1, ∀ l ≤ 1, ent r k l = ent old k l + surfaceDeriv (nth c.knotsU) (nth c.knotsV) su sv p q n m (ent c.cps) k l u v := by
  obtain ⟨s0, e1, hs0⟩ := getKnotSpanIndex_isSpan w.knotsU w.pn w.sortedU he.u dom.u0 dom.u1
  obtain rfl : su = s0 := Props.C01_span_unique (fun i j h1 h2 => wfS_monoU w i j h1 (by omega)) hsu hs0
  obtain ⟨s1, e2, hs1⟩ := getKnotSpanIndex_isSpan w.knotsV w.qm w.sortedV he.v dom.v0 dom.v1
  obtain rfl : sv = s1 := Props.C01_span_unique (fun i j h1 h2 => wfS_monoV w i j h1 (by omega)) hsv hs1
  have hp := w.posU
  have hq := w.posV
  have h7 := w.le7U
  have h7' := w.le7V
  have hNd : ∀ (U : List K) (p n s : ℕ) (t : K), p ≤ 7 → 1 ≤ p → U.length = n + p + 2 → (∀ i j, i ≤ j → j < U.length → nth U i ≤ nth U j) → IsSpan (nth U) p n t s →
      ∃ m, basisFunctionsFirstOrderDerivative s p U t (uninit2 K 2 8) = ok m ∧ ∀ k : ℕ, k ≤ 1 → ∀ r : ℕ, r ≤ p → aget2 m k r = ok (dN (nth U) s p (s - p + r) k t) := by
    intro U p n s t hp hp1 hlen hsorted hs
    obtain ⟨b1, b2⟩ := span_range hlen hsorted hs
    obtain ⟨m, e, hmat, hent⟩ := basisFunctionsFirstOrderDerivative_run (U := U) (s := s) (p := p) (t := t) isMat_uninit2 hp hp1 hs.1 (by have := hs.2.1; omega)
      (isValidKnotVector_nth.mpr hsorted) hs.2.2.1 b1 b2
    exact ⟨m, e, fun k hk r hr => aget2_of rfl rfl (hent k hk r hr)⟩
  obtain ⟨Nu, f1, eNu⟩ := hNd _ _ _ _ _ w.le7U hp w.knotsU w.sortedU hsu
  obtain ⟨Nv, f2, eNv⟩ := hNd _ _ _ _ _ w.le7V hq w.knotsV w.sortedV hsv
  have a1 := hsu.1
  have a2 := hsu.2.1
  have b1 := hsv.1
  have b2 := hsv.2.1
  unfold BsplineSurface.firstOrder
  rw [validateUV_ok w dom, ok_bind, w.degreeU, w.degreeV, e1, ok_bind, f1, ok_bind, e2, ok_bind, f2, ok_bind]
  have m1 : min (1 : ℤ) (p : ℤ) = 1 := by omega
  have m2 : min (1 : ℤ) (q : ℤ) = 1 := by omega
  rw [m1, m2]
  simp only [min_self]
  set S : ℕ → ℕ → T := fun k s => ∑ r ∈ range (p + 1), dN (nth c.knotsU) su p (su - p + r) k u • ent c.cps (su - p + r) (sv - q + s) with hS
  set D : ℕ → ℕ → T := fun k l => ∑ s ∈ range (q + 1), dN (nth c.knotsV) sv q (sv - q + s) l v • S k s with hD
  have hfin : ∀ k l, D k l = surfaceDeriv (nth c.knotsU) (nth c.knotsV) su sv p q n m (ent c.cps) k l u v := fun k l => by
    rw [surfaceDeriv_window a1 a2 b1 b2]
  have main : Runs (forI 0 ((1 : ℤ) + 1) (old, List.replicate 8 (0 : T))
    fun k x => do
      let temp ← forI 0 ((q : ℤ) + 1) x.2 fun s temp => do
        let temp ← vset temp s 0
        forI 0 ((p : ℤ) + 1) temp fun r temp => do
          let old ← vget temp s
          let b ← aget2 Nu k r
          let y ← mget c.cps ((su : ℤ) - p + r) ((sv : ℤ) - q + s)
          vset temp s (old + b • y)
      let derivatives ← forI 0 ((1 : ℤ) + 1) x.1 fun l derivatives =>
        forI 0 ((q : ℤ) + 1) derivatives fun s derivatives => do
          let old ← mget derivatives k l
          let b ← aget2 Nv l s
          let x ← vget temp s
          mset derivatives k l (old + b • x)
      ok (derivatives, temp)) (fun x : List (List T) × List T => IsMat x.1 2 2 ∧ ∀ k ≤ 1, ∀ l ≤ 1, ent x.1 k l = ent old k l + D k l) := by
    refine (Runs.forN (m := 0) (n := 2) (fun k (x : List (List T) × List T) => x.2.length = 8 ∧ IsMat x.1 2 2 ∧
      ∀ k' ≤ 1, ∀ l ≤ 1, ent x.1 k' l = ent old k' l + if k' < k then D k' l else 0) rfl (by norm_num) (by omega)
      ⟨by simp, hold, fun k' _ l _ => by rw [if_neg (by omega), add_zero]⟩ ?_).mono ?_
    · rintro k ⟨der, temp⟩ - hk ⟨ht, hm, hval⟩
      dsimp only at ht hm hval ⊢
      refine Runs.bind (Q := fun temp : List T => temp.length = 8 ∧ ∀ s ≤ q, nth temp s = S k s) ?_ ?_
      · refine (Runs.forN (m := 0) (n := q + 1) (fun s (temp : List T) => temp.length = 8 ∧ ∀ s' < s, nth temp s' = S k s')
          rfl (by push_cast; rfl) (by omega) ⟨ht, by omega⟩ ?_).mono (fun x h => ⟨h.1, fun s hs => h.2 s (by omega)⟩)
        rintro s temp - hs ⟨h1, h2⟩
        refine Runs.bind_eq (vset_of (k := s) rfl (by omega)) ?_
        refine (Runs.forN (m := 0) (n := p + 1) (fun r (temp' : List T) => temp'.length = 8 ∧ (∀ s' < s, nth temp' s' = S k s') ∧
            nth temp' s = ∑ r' ∈ range r, dN (nth c.knotsU) su p (su - p + r') k u • ent c.cps (su - p + r') (sv - q + s))
          rfl (by push_cast; rfl) (by omega) ⟨by simp [h1], fun s' hs' => by rw [nth_set (by omega), if_neg (by omega)]; exact h2 s' hs', by rw [nth_set (by omega), if_pos rfl]; simp⟩ ?_).mono ?_
        · rintro r temp' - hr ⟨g1, g2, g3⟩
          refine Runs.bind_eq (vget_nth (k := s) rfl (by omega)) ?_
          refine Runs.bind_eq (eNu k (by omega) r (by omega)) ?_
          refine Runs.bind_eq (mget_ent (a := su - p + r) (b := sv - q + s) w.cps (by omega) (by omega) (by omega) (by omega)) ?_
          refine Runs.of_eq (vset_of (k := s) rfl (by omega)) ⟨by simp [g1], ?_, ?_⟩
          · intro s' hs'
            rw [nth_set (by omega), if_neg (by omega)]; exact g2 s' hs'
          · rw [nth_set (by omega), if_pos rfl, sum_range_succ, g3]
        · rintro temp' ⟨g1, g2, g3⟩
          refine ⟨g1, fun s' hs' => ?_⟩
          rcases Nat.lt_succ_iff_lt_or_eq.mp hs' with h | rfl
          · exact g2 s' h
          · exact g3
      · rintro temp ⟨ht, hS'⟩
        refine Runs.bind (Q := fun der : List (List T) => IsMat der 2 2 ∧
          ∀ k' ≤ 1, ∀ l ≤ 1, ent der k' l = ent old k' l + if k' < k + 1 then D k' l else 0) ?_ (fun der h => Runs.ok ⟨ht, h⟩)
        refine (Runs.forN (m := 0) (n := 2) (fun L (der : List (List T)) => IsMat der 2 2 ∧
          ∀ k' ≤ 1, ∀ l ≤ 1, ent der k' l = ent old k' l + if k' < k ∨ (k' = k ∧ l < L) then D k' l else 0) rfl (by norm_num) (by omega)
          ⟨hm, fun k' hk' l hl => by rw [hval k' hk' l hl]; congr 2; simp⟩ ?_).mono ?_
        · rintro L der - hL ⟨g1, g2⟩
          refine (Runs.forN (m := 0) (n := q + 1) (fun s (der' : List (List T)) => IsMat der' 2 2 ∧
            ∀ k' ≤ 1, ∀ l ≤ 1, ent der' k' l = if k' = k ∧ l = L then ent old k L + ∑ s' ∈ range s, dN (nth c.knotsV) sv q (sv - q + s') L v • S k s' else ent der k' l)
            rfl (by push_cast; rfl) (by omega) ⟨g1, fun k' hk' l hl => ?_⟩ ?_).mono ?_
          · split
            · rename_i h
              rw [h.1, h.2, g2 k (by omega) L (by omega), if_neg (by omega)]; simp
            · rfl
          · rintro s der' - hs ⟨i1, i2⟩
            refine Runs.bind_eq (mget_ent i1 rfl rfl (by omega) (by omega)) ?_
            refine Runs.bind_eq (eNv L (by omega) s (by omega)) ?_
            refine Runs.bind_eq (vget_nth (k := s) rfl (by omega)) ?_
            obtain ⟨m', em, hm', hent⟩ := mset_ok (x := ent der' k L + dN (nth c.knotsV) sv q (sv - q + s) L v • nth temp s) i1 (i := k) (j := L) rfl rfl (by omega) (by omega)
            refine Runs.of_eq em ⟨hm', fun k' hk' l hl => ?_⟩
            rw [hent]
            split
            · rename_i h
              rw [i2 k (by omega) L (by omega), if_pos ⟨rfl, rfl⟩, sum_range_succ, hS' s (by omega), add_assoc]
            · rename_i h
              rw [i2 k' hk' l hl, if_neg h]
          · rintro der' ⟨i1, i2⟩
            refine ⟨i1, fun k' hk' l hl => ?_⟩
            rw [i2 k' hk' l hl]
            by_cases h : k' = k ∧ l = L
            · rw [if_pos h, if_pos (Or.inr ⟨h.1, by omega⟩), h.1, h.2]
            · rw [if_neg h, g2 k' hk' l hl]
              congr 1
              by_cases h' : k' < k ∨ (k' = k ∧ l < L)
              · rw [if_pos h', if_pos (by omega)]
              · rw [if_neg h', if_neg (by omega)]
        · rintro der' ⟨i1, i2⟩
          refine ⟨i1, fun k' hk' l hl => ?_⟩
          rw [i2 k' hk' l hl]
          congr 1
          by_cases h' : k' < k + 1
          · rw [if_pos h', if_pos (by omega)]
          · rw [if_neg h', if_neg (by omega)]
    · rintro x ⟨-, h2, h3⟩
      refine ⟨h2, fun k hk l hl => ?_⟩
      rw [h3 k hk l hl, if_pos (by omega)]
  obtain ⟨x, e, h1, h2⟩ := main
  refine ⟨x.1, ?_, h1, fun k hk l hl => by rw [h2 k hk l hl, hfin]⟩
  rw [e]
  rfl

/-- C148: on every valid surface and at every parameter at which the weight function is not zero, the first order routine returns the entries `[0][0]`, `[1][0]` and `[0][1]` of the table that the
general routine `ComputeRationalSurfaceDerivatives` computes for order 1. -/
theorem C148_first_order {c : NurbsSurface K} {p q n m : ℕ} {u v : K} (w : WellFormedS c p q n m) (he : EndsSeparatedS c p q n m) (dom : InDomain c p q n m u v)
    (hw : surfaceWeight (nth c.knotsU) (nth c.knotsV) p q n m (ent c.cps) u v ≠ 0) :
    ∃ M, NurbsSurface.rationalDerivatives c 1 u v = ok M ∧ c.rationalFirstOrder u v = ok (ent M 0 0, ent M 1 0, ent M 0 1) := by
  obtain ⟨su, -, hsu⟩ := getKnotSpanIndex_isSpan w.knotsU w.pn w.sortedU he.u dom.u0 dom.u1
  obtain ⟨sv, -, hsv⟩ := getKnotSpanIndex_isSpan w.knotsV w.qm w.sortedV he.v dom.v0 dom.v1
  obtain ⟨M, e, -, hk⟩ := C67_leibniz w he dom (d := 1) (by omega) w.posU w.posV hsu hsv hw
  refine ⟨M, e, ?_⟩
  obtain ⟨r, er, hr, hent⟩ := C148_adds w he dom hsu hsv (old := [[0, 0], [0, 0]]) (by
    refine ⟨rfl, fun i hi => ?_⟩
    rcases (by omega : i = 0 ∨ i = 1) with rfl | rfl <;> rfl)
  have z : ∀ k ≤ 1, ∀ l ≤ 1, ent ([[0, 0], [0, 0]] : List (List (XYZW K))) k l = 0 := by
    intro k hk l hl
    rcases Nat.le_one_iff_eq_zero_or_eq_one.mp hk with rfl | rfl <;> rcases Nat.le_one_iff_eq_zero_or_eq_one.mp hl with rfl | rfl <;> rfl
  have hent : ∀ k ≤ 1, ∀ l ≤ 1, ent r k l = surfaceDeriv (nth c.knotsU) (nth c.knotsV) su sv p q n m (ent c.cps) k l u v := by
    intro k hk l hl
    rw [hent k hk l hl, z k hk l hl, zero_add]
  have hw0 : (ent r 0 0).w ≠ 0 := by
    rw [hent 0 (by omega) 0 (by omega), C67_zeroth (wfS_monoU w) (wfS_monoV w) hsu hsv, surfacePoint_w]
    exact hw
  have k00 := hk 0 0 (by omega)
  have k10 := hk 1 0 (by omega)
  have k01 := hk 0 1 (by omega)
  simp only [sum_range_succ, sum_range_zero, zero_add, ← hent 0 (by omega) 0 (by omega), ← hent 1 (by omega) 0 (by omega), ← hent 0 (by omega) 1 (by omega),
    Nat.choose_zero_right, Nat.choose_self, Nat.cast_one, one_mul, Nat.sub_zero, Nat.sub_self] at k00 k10 k01
  unfold NurbsSurface.rationalFirstOrder
  have g00 : mget r 0 0 = ok (ent r 0 0) := mget_ent (a := 0) (b := 0) hr rfl rfl (by omega) (by omega)
  have g01 : mget r 0 1 = ok (ent r 0 1) := mget_ent (a := 0) (b := 1) hr rfl rfl (by omega) (by omega)
  have g10 : mget r 1 0 = ok (ent r 1 0) := mget_ent (a := 1) (b := 0) hr rfl rfl (by omega) (by omega)
  rw [validateUV_ok w dom, ok_bind, er, ok_bind, g00, ok_bind, g01, ok_bind, g10, ok_bind, fdiv_ok hw0, ok_bind]
  have s0 : (1 / (ent r 0 0).w) • (ent r 0 0).raw = ent M 0 0 := by
    rw [← k00, smul_smul, one_div, inv_mul_cancel₀ hw0, one_smul]
  dsimp only
  rw [s0, ← k10, ← k01, add_sub_cancel_right, add_sub_cancel_right, smul_smul, smul_smul, one_div, inv_mul_cancel₀ hw0, one_smul, one_smul]

/-- C148: in the interior of a pair of knot spans, what the first order routine returns is the point of the surface and its two partial derivatives. -/
theorem C148_true_derivative {c : NurbsSurface ℝ} {p q n m su sv : ℕ} {u v : ℝ} (w : WellFormedS c p q n m)
    (he : EndsSeparatedS c p q n m) (hpu : p ≤ su) (hun : su ≤ n) (hqv : q ≤ sv) (hvm : sv ≤ m)
    (hu0 : nth c.knotsU su < u) (hu1 : u < nth c.knotsU (su + 1)) (hv0 : nth c.knotsV sv < v) (hv1 : v < nth c.knotsV (sv + 1))
    (hw : surfaceWeight (nth c.knotsU) (nth c.knotsV) p q n m (ent c.cps) u v ≠ 0) :
    ∃ S Su Sv : XYZ ℝ, c.rationalFirstOrder u v = ok (S, Su, Sv) ∧
      S = rationalSurfacePoint (nth c.knotsU) (nth c.knotsV) p q n m (ent c.cps) u v ∧
      ∀ f : XYZ ℝ → ℝ, f = XYZ.x ∨ f = XYZ.y ∨ f = XYZ.z →
        f Su = deriv (fun a => f (rationalSurfacePoint (nth c.knotsU) (nth c.knotsV) p q n m (ent c.cps) a v)) u ∧
        f Sv = deriv (fun b => f (rationalSurfacePoint (nth c.knotsU) (nth c.knotsV) p q n m (ent c.cps) u b)) v := by
  have mU := wfS_monoU w
  have mV := wfS_monoV w
  have dom : InDomain c p q n m u v := ⟨(mU p su hpu (by omega)).trans hu0.le, hu1.le.trans (mU (su + 1) (n + 1) (by omega) (by omega)),
    (mV q sv hqv (by omega)).trans hv0.le, hv1.le.trans (mV (sv + 1) (m + 1) (by omega) (by omega))⟩
  obtain ⟨M, e, e1⟩ := C148_first_order w he dom hw
  obtain ⟨M', e', -, hk⟩ := C67_true_derivative (d := 1) w he hpu hun hqv hvm hu0 hu1 hv0 hv1 (by omega) w.posU w.posV hw
  have : M' = M := Res.ok.inj (e'.symm.trans e)
  subst this
  refine ⟨_, _, _, e1, ?_, ?_⟩
  · obtain ⟨h1, h2, h3⟩ := hk 0 0 (by omega)
    simp only [iteratedDeriv_zero] at h1 h2 h3
    exact XYZ.ext h1 h2 h3
  · obtain ⟨a1, a2, a3⟩ := hk 1 0 (by omega)
    obtain ⟨b1, b2, b3⟩ := hk 0 1 (by omega)
    simp only [iteratedDeriv_zero, iteratedDeriv_one] at a1 a2 a3 b1 b2 b3
    rintro f (rfl | rfl | rfl)
    exacts [⟨a1, b1⟩, ⟨a2, b2⟩, ⟨a3, b3⟩]

/-- C148: where the weight function vanishes the division by it is not finite, and parameters further than the tolerance outside the knots are rejected. -/
theorem C148_zero_weight {c : NurbsSurface K} {p q n m : ℕ} {u v : K} (w : WellFormedS c p q n m) (he : EndsSeparatedS c p q n m) (dom : InDomain c p q n m u v)
    (hw : surfaceWeight (nth c.knotsU) (nth c.knotsV) p q n m (ent c.cps) u v = 0) : c.rationalFirstOrder u v = nonfinite := by
  obtain ⟨su, -, hsu⟩ := getKnotSpanIndex_isSpan w.knotsU w.pn w.sortedU he.u dom.u0 dom.u1
  obtain ⟨sv, -, hsv⟩ := getKnotSpanIndex_isSpan w.knotsV w.qm w.sortedV he.v dom.v0 dom.v1
  obtain ⟨r, er, hr, hent⟩ := C148_adds w he dom hsu hsv (old := [[0, 0], [0, 0]]) (by
    refine ⟨rfl, fun i hi => ?_⟩
    rcases (by omega : i = 0 ∨ i = 1) with rfl | rfl <;> rfl)
  have hw0 : (ent r 0 0).w = 0 := by
    rw [hent 0 (by omega) 0 (by omega), C67_zeroth (wfS_monoU w) (wfS_monoV w) hsu hsv]
    rw [show ent ([[0, 0], [0, 0]] : List (List (XYZW K))) 0 0 = 0 from rfl, zero_add, surfacePoint_w]
    exact hw
  have g00 : mget r 0 0 = ok (ent r 0 0) := mget_ent (a := 0) (b := 0) hr rfl rfl (by omega) (by omega)
  have g01 : mget r 0 1 = ok (ent r 0 1) := mget_ent (a := 0) (b := 1) hr rfl rfl (by omega) (by omega)
  have g10 : mget r 1 0 = ok (ent r 1 0) := mget_ent (a := 1) (b := 0) hr rfl rfl (by omega) (by omega)
  unfold NurbsSurface.rationalFirstOrder
  rw [validateUV_ok w dom, ok_bind, er, ok_bind, g00, ok_bind, g01, ok_bind, g10, ok_bind, hw0]
  unfold fdiv
  simp

/-- C148 is not vacuous: a surface of degrees 2 and 1 with weights; and an array that is not zero keeps what it held. -/
example : IsSpan (nth exSurface.knotsU) 2 3 (3/4) 3 ∧ IsSpan (nth exSurface.knotsV) 1 2 (1/2) 2 ∧
    surfaceWeight (nth exSurface.knotsU) (nth exSurface.knotsV) 2 1 3 2 (ent exSurface.cps) (3/4) (1/2) ≠ 0 ∧
    BsplineSurface.firstOrder exSurface (3/4) (1/2) [[0, 0], [0, 0]] =
      ok [[⟨71/32, 51/32, 27/16, 35/32⟩, ⟨-3/16, 45/16, -21/8, -3/16⟩], [⟨9/4, -3/4, -7/2, -3/4⟩, ⟨3/2, 3/2, 9, 3/2⟩]] ∧
    BsplineSurface.firstOrder exSurface (3/4) (1/2) [[⟨1, 0, 0, 0⟩, 0], [0, 0]] =
      ok [[⟨103/32, 51/32, 27/16, 35/32⟩, ⟨-3/16, 45/16, -21/8, -3/16⟩], [⟨9/4, -3/4, -7/2, -3/4⟩, ⟨3/2, 3/2, 9, 3/2⟩]] ∧
    NurbsSurface.rationalFirstOrder exSurface (3/4) (1/2) = ok (⟨71/35, 51/35, 54/35⟩, ⟨4224/1225, 384/1225, -2624/1225⟩, ⟨216/1225, 3456/1225, -2616/1225⟩) :=
  ⟨by unfold IsSpan; decide +kernel, by unfold IsSpan; decide +kernel, by decide +kernel, by decide +kernel, by decide +kernel, by decide +kernel⟩

end LNLib.Props
