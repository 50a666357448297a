import Verif.Lemmas.CurveEval
import Verif.Lemmas.Matrix
import Verif.Lemmas.CurveDers
import Verif.Model.Surface
import Verif.Spec.Surface

/-! # Surface evaluation and iso curves -/
set_option linter.unusedSectionVars false

namespace LNLib
open Res Spec Finset

variable {K : Type} [Field K] [LinearOrder K] [IsStrictOrderedRing K]
variable {T : Type} [AddCommGroup T] [Module K T]

/-- a surface point is a curve point of curve points -/
theorem surfacePoint_eq {U V : ℕ → K} {p q n m : ℕ} {P : ℕ → ℕ → T} {u v : K} :
    surfacePoint U V p q n m P u v = curvePoint U p n (fun i => curvePoint V q m (P i) v) u := by
  unfold surfacePoint curvePoint
  refine sum_congr rfl fun i _ => ?_
  rw [smul_sum]
  exact sum_congr rfl fun j _ => by rw [mul_smul]

theorem surfacePoint_swap {U V : ℕ → K} {p q n m : ℕ} {P : ℕ → ℕ → T} {u v : K} :
    surfacePoint U V p q n m P u v = surfacePoint V U q p m n (fun j i => P i j) v u := by
  unfold surfacePoint
  rw [sum_comm]
  exact sum_congr rfl fun i _ => sum_congr rfl fun j _ => by rw [mul_comm]

theorem surfacePoint_eq' {U V : ℕ → K} {p q n m : ℕ} {P : ℕ → ℕ → T} {u v : K} :
    surfacePoint U V p q n m P u v = curvePoint V q m (fun j => curvePoint U p n (fun i => P i j) u) v := by
  rw [surfacePoint_swap, surfacePoint_eq]

theorem curvePoint_congr {U : ℕ → K} {p n : ℕ} {P Q : ℕ → T} {t : K} (h : ∀ i ≤ n, P i = Q i) :
    curvePoint U p n P t = curvePoint U p n Q t := by
  unfold curvePoint
  exact sum_congr rfl fun i hi => by rw [h i (by rw [mem_range] at hi; omega)]

theorem surfacePoint_congr {U V : ℕ → K} {p q n m : ℕ} {P Q : ℕ → ℕ → T} {u v : K} (h : ∀ i ≤ n, ∀ j ≤ m, P i j = Q i j) :
    surfacePoint U V p q n m P u v = surfacePoint U V p q n m Q u v := by
  rw [surfacePoint_eq, surfacePoint_eq]
  exact curvePoint_congr fun i hi => curvePoint_congr fun j hj => h i hi j hj

theorem wfS_monoU {c : BsplineSurface K T} {p q n m : ℕ} (w : WellFormedS c p q n m) : MonoTo (nth c.knotsU) (n + p + 1) := by
  intro i j h1 h2
  exact w.sortedU i j h1 (by rw [w.knotsU]; omega)

theorem wfS_monoV {c : BsplineSurface K T} {p q n m : ℕ} (w : WellFormedS c p q n m) : MonoTo (nth c.knotsV) (m + q + 1) := by
  intro i j h1 h2
  exact w.sortedV i j h1 (by rw [w.knotsV]; omega)

theorem validateUV_ok {c : BsplineSurface K T} {p q n m : ℕ} {u v : K} (w : WellFormedS c p q n m) (d : InDomain c p q n m u v) :
    c.validateUV u v = ok () := by
  have hU := wfS_monoU w
  have hV := wfS_monoV w
  have := w.pn
  have := w.qm
  have := w.knotsU
  have := w.knotsV
  have heps := doubleEps_pos (K := K)
  have a0 := hU 0 p (by omega) (by omega)
  have a1 := hU (n + 1) (n + p + 1) (by omega) (by omega)
  have b0 := hV 0 q (by omega) (by omega)
  have b1 := hV (m + 1) (m + q + 1) (by omega) (by omega)
  have := d.u0
  have := d.u1
  have := d.v0
  have := d.v1
  unfold BsplineSurface.validateUV
  rw [vget_nth (k := 0) (by simp) (by omega), ok_bind, vget_nth (k := n + p + 1) (by omega) (by omega), ok_bind,
    validateRange_eq_ok_iff.mpr ⟨by linarith, by linarith⟩, ok_bind,
    vget_nth (k := 0) (by simp) (by omega), ok_bind, vget_nth (k := m + q + 1) (by omega) (by omega), ok_bind,
    validateRange_eq_ok_iff.mpr ⟨by linarith, by linarith⟩]

/-- span search and basis functions together, for a parameter in the domain -/
theorem spanBasis {U : List K} {p n : ℕ} {t : K} (hp7 : p ≤ 7) (hlen : U.length = n + p + 2) (hpn : p ≤ n)
    (hsorted : ∀ i j, i ≤ j → j < U.length → nth U i ≤ nth U j)
    (he : EndsSeparated (nth U) p n) (h0 : nth U p ≤ t) (h1 : t ≤ nth U (n + 1)) :
    ∃ (s : ℕ) (B : List (Option K)), getKnotSpanIndex p U t = ok (s : ℤ) ∧ IsSpan (nth U) p n t s ∧
      basisFunctions (s : ℤ) p U t (uninit K 8) = ok B ∧ ∀ r ≤ p, aget B (r : ℤ) = ok (Nspan (nth U) s p (s - p + r) t) := by
  obtain ⟨s, hs, hspan⟩ := getKnotSpanIndex_isSpan hlen hpn hsorted he h0 h1
  have heps := doubleEps_pos (K := K)
  have a0 := hsorted 0 p (by omega) (by omega)
  have a1 := hsorted (n + 1) (n + p + 1) (by omega) (by omega)
  have h1s := hspan.1
  have h2s := hspan.2.1
  obtain ⟨N, hN, _, hNr⟩ := basisFunctions_span (U := U) (s := s) (p := p) (t := t) (out := uninit K 8) hp7 hspan.1
    (by omega) (by omega) (by simp; omega) (isValidKnotVector_nth.mpr hsorted) hspan.2.2.1 (by linarith)
    (by rw [show U.length - 1 = n + p + 1 by omega]; linarith)
  exact ⟨s, N, hs, hspan, hN, hNr⟩

/-- a summation loop `acc += b(i) * P(i)` -/
theorem sumLoop' {p : ℕ} {e : ℤ} {rb : ℤ → Res K} {rp : ℤ → Res T} {b : ℕ → K} {P : ℕ → T} (he : e = (p : ℤ) + 1)
    (hb : ∀ r ≤ p, rb (r : ℤ) = ok (b r)) (hP : ∀ r ≤ p, rp (r : ℤ) = ok (P r)) :
    forI 0 e (0 : T) (fun i acc => rb i >>= fun x => rp i >>= fun y => ok (acc + x • y)) = ok (∑ r ∈ range (p + 1), b r • P r) := by
  subst he
  apply Runs.eq
  refine (Runs.forN (m := 0) (n := p + 1) (fun i acc => acc = ∑ r ∈ range i, b r • P r) rfl (by push_cast; rfl) (by omega) (by simp) ?_).mono (fun _ h => h)
  rintro i acc - hi rfl
  rw [hb i (by omega), ok_bind, hP i (by omega), ok_bind]
  exact Runs.ok (by rw [sum_range_succ])

theorem pointOnSurface_eq {c : BsplineSurface K T} {p q n m : ℕ} {u v : K} (w : WellFormedS c p q n m)
    (he : EndsSeparatedS c p q n m) (d : InDomain c p q n m u v) :
    c.pointOnSurface u v = ok (surfacePoint (nth c.knotsU) (nth c.knotsV) p q n m (ent c.cps) u v) := by
  obtain ⟨s, B, e1, hs, e2, e3⟩ := spanBasis w.le7U w.knotsU w.pn w.sortedU he.u d.u0 d.u1
  obtain ⟨s', B', e1', hs', e2', e3'⟩ := spanBasis w.le7V w.knotsV w.qm w.sortedV he.v d.v0 d.v1
  unfold BsplineSurface.pointOnSurface
  rw [validateUV_ok w d, ok_bind, w.degreeU, w.degreeV, e1, ok_bind, e2, ok_bind, e1', ok_bind, e2', ok_bind]
  have i1 := hs.1
  have i2 := hs.2.1
  have i3 := hs'.1
  have i4 := hs'.2.1
  have hin : ∀ l ≤ q, forI 0 ((p : ℤ) + 1) (0 : T) (fun k temp => aget B k >>= fun b =>
      mget c.cps ((s : ℤ) - p + k) ((s' : ℤ) - q + (l : ℤ)) >>= fun x => ok (temp + b • x)) =
      ok (∑ r ∈ range (p + 1), Nspan (nth c.knotsU) s p (s - p + r) u • ent c.cps (s - p + r) (s' - q + l)) := by
    intro l hl
    exact sumLoop' rfl e3 fun r hr => mget_ent w.cps (by omega) (by omega) (by omega) (by omega)
  have : surfacePoint (nth c.knotsU) (nth c.knotsV) p q n m (ent c.cps) u v =
      ∑ l ∈ range (q + 1), Nspan (nth c.knotsV) s' q (s' - q + l) v •
        ∑ r ∈ range (p + 1), Nspan (nth c.knotsU) s p (s - p + r) u • ent c.cps (s - p + r) (s' - q + l) := by
    rw [surfacePoint_eq', curvePoint_span (wfS_monoV w) (le_refl _) hs']
    refine sum_congr rfl fun l _ => ?_
    rw [curvePoint_span (wfS_monoU w) (le_refl _) hs]
  rw [this]
  apply Runs.eq
  refine (Runs.forN (m := 0) (n := q + 1) (fun i acc => acc = ∑ l ∈ range i, Nspan (nth c.knotsV) s' q (s' - q + l) v •
        ∑ r ∈ range (p + 1), Nspan (nth c.knotsU) s p (s - p + r) u • ent c.cps (s - p + r) (s' - q + l)) rfl (by push_cast; rfl)
        (by omega) (by simp) ?_).mono (fun _ h => h)
  rintro l acc - hl rfl
  dsimp only
  rw [hin l (by omega), ok_bind, e3' l (by omega), ok_bind]
  exact Runs.ok (by rw [sum_range_succ _ l])

end LNLib
