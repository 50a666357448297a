import Verif.Lemmas.SurfaceEval
import Verif.Lemmas.CurveDers
import Verif.Props.BasisDers

/-! # Surface derivatives -/
set_option linter.unusedSectionVars false

namespace LNLib
open Res Spec Finset

variable {K : Type} [Field K] [LinearOrder K] [IsStrictOrderedRing K]
variable {T : Type} [AddCommGroup T] [Module K T]

theorem surfaceDeriv_window {U V : ℕ → K} {su sv p q n m k l : ℕ} {P : ℕ → ℕ → T} {u v : K} (h1 : p ≤ su) (h2 : su ≤ n)
    (h3 : q ≤ sv) (h4 : sv ≤ m) :
    surfaceDeriv U V su sv p q n m P k l u v = ∑ s ∈ range (q + 1), dN V sv q (sv - q + s) l v •
      ∑ r ∈ range (p + 1), dN U su p (su - p + r) k u • P (su - p + r) (sv - q + s) := by
  unfold surfaceDeriv
  rw [sum_comm]
  have e : ∀ j, ∑ i ∈ range (n + 1), (dN U su p i k u * dN V sv q j l v) • P i j = dN V sv q j l v • curveDeriv U su p n (fun i => P i j) k u := by
    intro j
    unfold curveDeriv
    rw [smul_sum]
    exact sum_congr rfl fun i _ => by rw [smul_smul, mul_comm]
  simp only [e]
  rw [sum_window h3 h4 (f := fun j => dN V sv q j l v • curveDeriv U su p n (fun i => P i j) k u) (fun i hi => by rw [dN_out V sv q i l v hi, zero_smul])]
  exact sum_congr rfl fun s _ => by rw [curveDeriv_window h1 h2]

theorem surfaceDers_run {c : BsplineSurface K T} {p q n m d : ℕ} {u v : K} (w : WellFormedS c p q n m)
    (he : EndsSeparatedS c p q n m) (dom : InDomain c p q n m u v) (hd : 0 < d) (hdp : d ≤ p) (hdq : d ≤ q) {su sv : ℕ}
    (hsu : IsSpan (nth c.knotsU) p n u su) (hsv : IsSpan (nth c.knotsV) q m v sv) :
    ∃ r, c.computeDerivatives d u v = ok r ∧ IsMat r (d + 1) (d + 1) ∧
      ∀ k ≤ d, ∀ l ≤ d, ent r k l = surfaceDeriv (nth c.knotsU) (nth c.knotsV) su sv p q n m (ent c.cps) k l u v := by
  obtain ⟨s0, e1, hs0⟩ := getKnotSpanIndex_isSpan w.knotsU w.pn w.sortedU he.u dom.u0 dom.u1
  obtain rfl : su = s0 := Props.C01_span_unique (fun i j h1 h2 => wfS_monoU w i j h1 (by omega)) hsu hs0
  obtain ⟨s1, e2, hs1⟩ := getKnotSpanIndex_isSpan w.knotsV w.qm w.sortedV he.v dom.v0 dom.v1
  obtain rfl : sv = s1 := Props.C01_span_unique (fun i j h1 h2 => wfS_monoV w i j h1 (by omega)) hsv hs1
  obtain ⟨Nu, f1, hNu, eNu, -⟩ := Props.C19_derivatives w.le7U hdp w.knotsU w.sortedU hsu
  obtain ⟨Nv, f2, hNv, eNv, -⟩ := Props.C19_derivatives w.le7V hdq w.knotsV w.sortedV hsv
  have a1 := hsu.1
  have a2 := hsu.2.1
  have b1 := hsv.1
  have b2 := hsv.2.1
  have hp := w.posU
  have hq := w.posV
  unfold BsplineSurface.computeDerivatives
  rw [validate_of (by simpa using hd), ok_bind, validateUV_ok w dom, ok_bind, w.degreeU, w.degreeV, e1, ok_bind, f1, ok_bind, e2, ok_bind, f2, ok_bind]
  have m1 : min (d : ℤ) (p : ℤ) = d := by omega
  have m2 : min (d : ℤ) (q : ℤ) = d := by omega
  have m3 : min (d : ℤ) (d : ℤ) = d := by omega
  rw [m1, m2]
  simp only [m3]
  have t1 : ((d : ℤ) + 1).toNat = d + 1 := by omega
  have t2 : ((q : ℤ) + 1).toNat = q + 1 := by omega
  rw [t1, t2]
  set S : ℕ → ℕ → T := fun k s => ∑ r ∈ range (p + 1), dN (nth c.knotsU) su p (su - p + r) k u • ent c.cps (su - p + r) (sv - q + s) with hS
  set D : ℕ → ℕ → T := fun k l => ∑ s ∈ range (q + 1), dN (nth c.knotsV) sv q (sv - q + s) l v • S k s with hD
  have hfin : ∀ k l, D k l = surfaceDeriv (nth c.knotsU) (nth c.knotsV) su sv p q n m (ent c.cps) k l u v := fun k l => by
    rw [surfaceDeriv_window a1 a2 b1 b2]
  have main : Runs (forI 0 ((d : ℤ) + 1) (List.replicate (d + 1) (List.replicate (d + 1) (0 : T)), List.replicate (q + 1) (0 : T))
    fun k x => do
      let temp ← forI 0 ((q : ℤ) + 1) x.2 fun s temp => do
        let temp ← vset temp s 0
        forI 0 ((p : ℤ) + 1) temp fun r temp => do
          let old ← vget temp s
          let b ← mget Nu k r
          let y ← mget c.cps ((su : ℤ) - p + r) ((sv : ℤ) - q + s)
          vset temp s (old + b • y)
      let derivatives ← forI 0 ((d : ℤ) + 1) x.1 fun l derivatives =>
        forI 0 ((q : ℤ) + 1) derivatives fun s derivatives => do
          let old ← mget derivatives k l
          let b ← mget Nv l s
          let x ← vget temp s
          mset derivatives k l (old + b • x)
      ok (derivatives, temp)) (fun x : List (List T) × List T => IsMat x.1 (d + 1) (d + 1) ∧ ∀ k ≤ d, ∀ l ≤ d, ent x.1 k l = D k l) := by
    refine (Runs.forN (m := 0) (n := d + 1) (fun k (x : List (List T) × List T) => x.2.length = q + 1 ∧ IsMat x.1 (d + 1) (d + 1) ∧
      ∀ k' ≤ d, ∀ l ≤ d, ent x.1 k' l = if k' < k then D k' l else 0) rfl (by push_cast; rfl) (by omega)
      ⟨by simp, isMat_replicate, fun k' _ l _ => by rw [if_neg (by omega)]; exact ent_replicate_zero⟩ ?_).mono ?_
    · rintro k ⟨der, temp⟩ - hk ⟨ht, hm, hval⟩
      dsimp only at ht hm hval ⊢
      refine Runs.bind (Q := fun temp : List T => temp.length = q + 1 ∧ ∀ s ≤ q, nth temp s = S k s) ?_ ?_
      · refine (Runs.forN (m := 0) (n := q + 1) (fun s (temp : List T) => temp.length = q + 1 ∧ ∀ s' < s, nth temp s' = S k s')
          rfl (by push_cast; rfl) (by omega) ⟨ht, by omega⟩ ?_).mono (fun x h => ⟨h.1, fun s hs => h.2 s (by omega)⟩)
        rintro s temp - hs ⟨h1, h2⟩
        refine Runs.bind_eq (vset_of (k := s) rfl (by omega)) ?_
        refine (Runs.forN (m := 0) (n := p + 1) (fun r (temp' : List T) => temp'.length = q + 1 ∧ (∀ s' < s, nth temp' s' = S k s') ∧
            nth temp' s = ∑ r' ∈ range r, dN (nth c.knotsU) su p (su - p + r') k u • ent c.cps (su - p + r') (sv - q + s))
          rfl (by push_cast; rfl) (by omega) ⟨by simp [h1], fun s' hs' => by rw [nth_set (by omega), if_neg (by omega)]; exact h2 s' hs', by rw [nth_set (by omega), if_pos rfl]; simp⟩ ?_).mono ?_
        · rintro r temp' - hr ⟨g1, g2, g3⟩
          refine Runs.bind_eq (vget_nth (k := s) rfl (by omega)) ?_
          refine Runs.bind_eq (mget_ent hNu rfl rfl (by omega) (by omega)) ?_
          refine Runs.bind_eq (mget_ent (a := su - p + r) (b := sv - q + s) w.cps (by omega) (by omega) (by omega) (by omega)) ?_
          refine Runs.of_eq (vset_of (k := s) rfl (by omega)) ⟨by simp [g1], ?_, ?_⟩
          · intro s' hs'
            rw [nth_set (by omega), if_neg (by omega)]; exact g2 s' hs'
          · rw [nth_set (by omega), if_pos rfl, sum_range_succ, g3, eNu k (by omega) r (by omega)]
        · rintro temp' ⟨g1, g2, g3⟩
          refine ⟨g1, fun s' hs' => ?_⟩
          rcases Nat.lt_succ_iff_lt_or_eq.mp hs' with h | rfl
          · exact g2 s' h
          · exact g3
      · rintro temp ⟨ht, hS'⟩
        refine Runs.bind (Q := fun der : List (List T) => IsMat der (d + 1) (d + 1) ∧
          ∀ k' ≤ d, ∀ l ≤ d, ent der k' l = if k' < k + 1 then D k' l else 0) ?_ (fun der h => Runs.ok ⟨ht, h⟩)
        refine (Runs.forN (m := 0) (n := d + 1) (fun L (der : List (List T)) => IsMat der (d + 1) (d + 1) ∧
          ∀ k' ≤ d, ∀ l ≤ d, ent der k' l = if k' < k ∨ (k' = k ∧ l < L) then D k' l else 0) rfl (by push_cast; rfl) (by omega)
          ⟨hm, fun k' hk' l hl => by rw [hval k' hk' l hl]; congr 1; simp⟩ ?_).mono ?_
        · rintro L der - hL ⟨g1, g2⟩
          refine (Runs.forN (m := 0) (n := q + 1) (fun s (der' : List (List T)) => IsMat der' (d + 1) (d + 1) ∧
            ∀ k' ≤ d, ∀ l ≤ d, ent der' k' l = if k' = k ∧ l = L then ∑ s' ∈ range s, dN (nth c.knotsV) sv q (sv - q + s') L v • S k s' else ent der k' l)
            rfl (by push_cast; rfl) (by omega) ⟨g1, fun k' hk' l hl => ?_⟩ ?_).mono ?_
          · split
            · rename_i h
              rw [h.1, h.2, g2 k (by omega) L (by omega), if_neg (by omega)]; simp
            · rfl
          · rintro s der' - hs ⟨i1, i2⟩
            refine Runs.bind_eq (mget_ent i1 rfl rfl (by omega) (by omega)) ?_
            refine Runs.bind_eq (mget_ent hNv rfl rfl (by omega) (by omega)) ?_
            refine Runs.bind_eq (vget_nth (k := s) rfl (by omega)) ?_
            obtain ⟨m', em, hm', hent⟩ := mset_ok (x := ent der' k L + ent Nv L s • nth temp s) i1 (i := k) (j := L) rfl rfl (by omega) (by omega)
            refine Runs.of_eq em ⟨hm', fun k' hk' l hl => ?_⟩
            rw [hent]
            split
            · rename_i h
              rw [i2 k (by omega) L (by omega), if_pos ⟨rfl, rfl⟩, sum_range_succ, eNv L (by omega) s (by omega), hS' s (by omega)]
            · rename_i h
              rw [i2 k' hk' l hl, if_neg h]
          · rintro der' ⟨i1, i2⟩
            refine ⟨i1, fun k' hk' l hl => ?_⟩
            rw [i2 k' hk' l hl]
            by_cases h : k' = k ∧ l = L
            · rw [if_pos h, if_pos (by omega), h.1, h.2]
            · rw [if_neg h, g2 k' hk' l hl]
              congr 1
              apply propext
              omega
        · rintro der ⟨g1, g2⟩
          refine ⟨g1, fun k' hk' l hl => ?_⟩
          rw [g2 k' hk' l hl]
          congr 1
          apply propext
          omega
    · rintro ⟨der, temp⟩ ⟨-, h1, h2⟩
      refine ⟨h1, fun k hk l hl => ?_⟩
      dsimp only at h2 ⊢
      rw [h2 k hk l hl, if_pos (by omega)]
  obtain ⟨x, e, h1, h2⟩ := main
  refine ⟨x.1, ?_, h1, fun k hk l hl => by rw [h2 k hk l hl, hfin]⟩
  rw [e, ok_bind]

end LNLib
