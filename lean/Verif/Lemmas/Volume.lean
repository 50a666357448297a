import Verif.Model.Volume
import Verif.Lemmas.SurfaceEval
import Verif.Lemmas.SurfaceDers

/-! # Volumes -/
set_option linter.unusedSectionVars false

namespace LNLib
open Res Spec Finset

variable {K : Type} [Field K] [LinearOrder K] [IsStrictOrderedRing K]
variable {T : Type} [AddCommGroup T] [Module K T]

/-! ## reordering the triple sum -/

theorem volumePoint_eq {U V W : ℕ → K} {p q r n m l : ℕ} {P : ℕ → ℕ → ℕ → T} {u v w : K} :
    volumePoint U V W p q r n m l P u v w = curvePoint U p n (fun i => surfacePoint V W q r m l (P i) v w) u := by
  unfold volumePoint curvePoint surfacePoint
  refine sum_congr rfl fun i _ => ?_
  simp only [smul_sum]
  exact sum_congr rfl fun j _ => sum_congr rfl fun k _ => by rw [smul_smul, mul_assoc]

theorem volumePoint_swapUV {U V W : ℕ → K} {p q r n m l : ℕ} {P : ℕ → ℕ → ℕ → T} {u v w : K} :
    volumePoint U V W p q r n m l P u v w = volumePoint V U W q p r m n l (fun j i k => P i j k) v u w := by
  unfold volumePoint
  rw [sum_comm]
  exact sum_congr rfl fun i _ => sum_congr rfl fun j _ => sum_congr rfl fun k _ => by
    rw [mul_comm (N U _ _ _ _)]

theorem volumePoint_swapVW {U V W : ℕ → K} {p q r n m l : ℕ} {P : ℕ → ℕ → ℕ → T} {u v w : K} :
    volumePoint U V W p q r n m l P u v w = volumePoint U W V p r q n l m (fun i k j => P i j k) u w v := by
  unfold volumePoint
  refine sum_congr rfl fun i _ => ?_
  rw [sum_comm]
  exact sum_congr rfl fun j _ => sum_congr rfl fun k _ => by
    rw [mul_right_comm]

theorem volumePoint_swapUW {U V W : ℕ → K} {p q r n m l : ℕ} {P : ℕ → ℕ → ℕ → T} {u v w : K} :
    volumePoint U V W p q r n m l P u v w = volumePoint W V U r q p l m n (fun k j i => P i j k) w v u := by
  rw [volumePoint_swapUV, volumePoint_swapVW, volumePoint_swapUV]

theorem volumePoint_congr {U V W : ℕ → K} {p q r n m l : ℕ} {P Q : ℕ → ℕ → ℕ → T} {u v w : K} (h : ∀ i ≤ n, ∀ j ≤ m, ∀ k ≤ l, P i j k = Q i j k) :
    volumePoint U V W p q r n m l P u v w = volumePoint U V W p q r n m l Q u v w := by
  rw [volumePoint_eq, volumePoint_eq]
  exact curvePoint_congr fun i hi => surfacePoint_congr fun j hj k hk => h i hi j hj k hk

theorem volumePoint_fibre {U V W : ℕ → K} {p q r n m l : ℕ} {P : ℕ → ℕ → ℕ → T} {u v w : K} :
    volumePoint U V W p q r n m l P u v w =
      surfacePoint V W q r m l (fun j k => curvePoint U p n (fun i => P i j k) u) v w := by
  unfold volumePoint surfacePoint curvePoint
  rw [sum_comm]
  refine sum_congr rfl fun j _ => ?_
  rw [sum_comm]
  refine sum_congr rfl fun k _ => ?_
  rw [smul_sum]
  exact sum_congr rfl fun i _ => by rw [smul_smul]; congr 1; ring

/-- changing one direction fibre by fibre -/
theorem volumePoint_along {U V W U' : ℕ → K} {p q r n n' m l : ℕ} {P P' : ℕ → ℕ → ℕ → T} {u u' v w : K}
    (h : ∀ j ≤ m, ∀ k ≤ l, curvePoint U' p n' (fun i => P' i j k) u' = curvePoint U p n (fun i => P i j k) u) :
    volumePoint U' V W p q r n' m l P' u' v w = volumePoint U V W p q r n m l P u v w := by
  rw [volumePoint_fibre, volumePoint_fibre]
  exact surfacePoint_congr fun j hj k hk => h j hj k hk

/-! ## accumulation loops -/

/-- `for (k …) arr[l] += b(k) * P(k);` -/
theorem cellAcc {p d : ℕ} {e : ℤ} {arr : List T} {rb : ℤ → Res K} {rp : ℤ → Res T} {b : ℕ → K} {P : ℕ → T} (he : e = (p : ℤ) + 1)
    (hd : d < arr.length) (hb : ∀ r ≤ p, rb (r : ℤ) = ok (b r)) (hP : ∀ r ≤ p, rp (r : ℤ) = ok (P r)) :
    forI 0 e arr (fun i arr => vget arr (d : ℤ) >>= fun old => rb i >>= fun x => rp i >>= fun y => vset arr (d : ℤ) (old + x • y))
      = ok (arr.set d (nth arr d + ∑ r ∈ range (p + 1), b r • P r)) := by
  subst he
  apply Runs.eq
  refine (Runs.forN (m := 0) (n := p + 1) (fun i (a : List T) => a = arr.set d (nth arr d + ∑ r ∈ range i, b r • P r)) rfl (by push_cast; rfl) (by omega) ?_ ?_).mono (fun _ h => h)
  · simp only [range_zero, sum_empty, add_zero]
    rw [nth_eq_getElem hd, List.set_getElem_self]
  · rintro i a - hi rfl
    rw [vget_nth (k := d) rfl (by simpa using hd), ok_bind, hb i (by omega), ok_bind, hP i (by omega), ok_bind, vset_of (k := d) rfl (by simpa using hd)]
    refine Runs.ok ?_
    rw [List.set_set, nth_set hd, if_pos rfl, sum_range_succ]
    simp only [add_assoc]

/-- filling a zeroed array cell by cell -/
theorem accFill {q : ℕ} {e : ℤ} {body : ℤ → List T → Res (List T)} {S : ℕ → T} (he : e = (q : ℤ) + 1)
    (hbody : ∀ (s : ℕ) (arr : List T), s ≤ q → arr.length = q + 1 → nth arr s = 0 → body (s : ℤ) arr = ok (arr.set s (S s))) :
    ∃ arr, forI 0 e (List.replicate (q + 1) (0 : T)) body = ok arr ∧ arr.length = q + 1 ∧ ∀ s ≤ q, nth arr s = S s := by
  subst he
  have : Runs (forI 0 ((q : ℤ) + 1) (List.replicate (q + 1) (0 : T)) body) (fun arr => arr.length = q + 1 ∧ ∀ s ≤ q, nth arr s = S s) := by
    refine (Runs.forN (m := 0) (n := q + 1) (fun i (a : List T) => a.length = q + 1 ∧ ∀ s ≤ q, nth a s = if s < i then S s else 0) rfl (by push_cast; rfl) (by omega) ?_ ?_).mono ?_
    · exact ⟨by simp, fun s hs => by rw [if_neg (by omega), nth_replicate_zero]⟩
    · rintro i a - hi ⟨h1, h2⟩
      refine Runs.of_eq (hbody i a (by omega) h1 (by rw [h2 i (by omega), if_neg (by omega)])) ⟨by simp [h1], ?_⟩
      intro s hs
      rw [nth_set (by omega)]
      by_cases h : s = i
      · rw [if_pos h, h, if_pos (by omega)]
      · rw [if_neg h, h2 s hs]
        split_ifs <;> first | rfl | omega
    · rintro a ⟨h1, h2⟩
      exact ⟨h1, fun s hs => by rw [h2 s hs, if_pos (by omega)]⟩
  exact this

/-! ## evaluation -/

theorem goodDir_mono {d : ℤ} {U : List K} {p n : ℕ} (g : GoodDir d U p n) : MonoTo (nth U) (n + p + 1) := by
  intro i j h1 h2
  exact g.sorted i j h1 (by rw [g.knots]; omega)

theorem volumePoint_window {U V W : ℕ → K} {p q r n m l su sv sw : ℕ} {P : ℕ → ℕ → ℕ → T} {u v w : K} (hU : MonoTo U (n + p + 1))
    (hV : MonoTo V (m + q + 1)) (hW : MonoTo W (l + r + 1)) (hsu : IsSpan U p n u su) (hsv : IsSpan V q m v sv) (hsw : IsSpan W r l w sw) :
    volumePoint U V W p q r n m l P u v w = ∑ k ∈ range (r + 1), Nspan W sw r (sw - r + k) w • ∑ j ∈ range (q + 1), Nspan V sv q (sv - q + j) v •
      ∑ i ∈ range (p + 1), Nspan U su p (su - p + i) u • P (su - p + i) (sv - q + j) (sw - r + k) := by
  rw [volumePoint_swapUW, volumePoint_eq, curvePoint_span hW (by omega) hsw]
  refine sum_congr rfl fun k _ => ?_
  rw [surfacePoint_eq, curvePoint_span hV (by omega) hsv]
  congr 1
  refine sum_congr rfl fun j _ => ?_
  rw [curvePoint_span hU (by omega) hsu]

theorem pointOnVolume_eq {c : BsplineVolume K T} {p q r n m l : ℕ} {u v w : K} (wf : WellFormedV c p q r n m l)
    (he : EndsSeparatedV c p q r n m l) (d : InDomainV c p q r n m l u v w) :
    c.pointOnVolume u v w = ok (volumePoint (nth c.knotsU) (nth c.knotsV) (nth c.knotsW) p q r n m l (ent3 c.cps) u v w) := by
  obtain ⟨su, Bu, e1, hsu, e2, e3⟩ := spanBasis wf.u.le7 wf.u.knots wf.u.pn wf.u.sorted he.u d.u0 d.u1
  obtain ⟨sv, Bv, f1, hsv, f2, f3⟩ := spanBasis wf.v.le7 wf.v.knots wf.v.pn wf.v.sorted he.v d.v0 d.v1
  obtain ⟨sw, Bw, g1, hsw, g2, g3⟩ := spanBasis wf.w.le7 wf.w.knots wf.w.pn wf.w.sorted he.w d.w0 d.w1
  have a1 := hsu.1
  have a2 := hsu.2.1
  have b1 := hsv.1
  have b2 := hsv.2.1
  have c1 := hsw.1
  have c2 := hsw.2.1
  rw [volumePoint_window (goodDir_mono wf.u) (goodDir_mono wf.v) (goodDir_mono wf.w) hsu hsv hsw]
  unfold BsplineVolume.pointOnVolume
  rw [wf.u.degree, wf.v.degree, wf.w.degree, e1, ok_bind, e2, ok_bind, f1, ok_bind, f2, ok_bind, g1, ok_bind, g2, ok_bind]
  have t1 : ((q : ℤ) + 1).toNat = q + 1 := by omega
  have t2 : ((r : ℤ) + 1).toNat = r + 1 := by omega
  dsimp only
  rw [t1, t2]
  set A : ℕ → ℕ → T := fun k j => ∑ i ∈ range (p + 1), Nspan (nth c.knotsU) su p (su - p + i) u • ent3 c.cps (su - p + i) (sv - q + j) (sw - r + k) with hA
  set B : ℕ → T := fun k => ∑ j ∈ range (q + 1), Nspan (nth c.knotsV) sv q (sv - q + j) v • A k j with hB
  obtain ⟨t, h1, h2, h3⟩ := accFill (q := r) (S := B) (e := (r : ℤ) + 1) rfl (body := fun j temp2 => do
    let temp1 ← forI 0 ((q : ℤ) + 1) (List.replicate (q + 1) (0 : T)) fun l temp1 =>
      forI 0 ((p : ℤ) + 1) temp1 fun k temp1 => do
        let old ← vget temp1 l
        let b ← aget Bu k
        let x ← cget c.cps ((su : ℤ) - p + k) ((sv : ℤ) - q + l) ((sw : ℤ) - r + j)
        vset temp1 l (old + b • x)
    forI 0 ((q : ℤ) + 1) temp2 fun l temp2 => do
      let old ← vget temp2 j
      let b ← aget Bv l
      let x ← vget temp1 l
      vset temp2 j (old + b • x)) (by
    intro k arr hk harr h0
    obtain ⟨t1, i1, i2, i3⟩ := accFill (q := q) (S := A k) (e := (q : ℤ) + 1) rfl (body := fun l temp1 =>
      forI 0 ((p : ℤ) + 1) temp1 fun x temp1 => do
        let old ← vget temp1 l
        let b ← aget Bu x
        let y ← cget c.cps ((su : ℤ) - p + x) ((sv : ℤ) - q + l) ((sw : ℤ) - r + (k : ℤ))
        vset temp1 l (old + b • y)) (by
      intro j arr hj harr h0
      refine (cellAcc (p := p) (e := (p : ℤ) + 1) (d := j) rfl (by omega) e3 (P := fun i => ent3 c.cps (su - p + i) (sv - q + j) (sw - r + k)) ?_).trans ?_
      · intro i hi
        exact cget_ent3 wf.cps (by omega) (by omega) (by omega) (by omega) (by omega) (by omega)
      · rw [h0, zero_add])
    rw [i1, ok_bind]
    refine (cellAcc (p := q) (e := (q : ℤ) + 1) (d := k) rfl (by omega) f3 (P := A k) ?_).trans ?_
    · intro j hj
      rw [vget_nth (k := j) rfl (by omega), i3 j hj]
    · rw [h0, zero_add])
  rw [h1, ok_bind]
  exact sumLoop' (p := r) rfl g3 (fun k hk => by rw [vget_nth (k := k) rfl (by omega), h3 k hk])

end LNLib
