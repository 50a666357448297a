import Verif.Lemmas.Constrain
import Verif.Spec.Solver
import Verif.Props.Surface
import Mathlib.Tactic.IntervalCases
import Mathlib.Tactic.NormNum

/-! # C118: the constraint-based modification of curves -/

namespace LNLib.Props
open LNLib Res Spec Finset

variable {K : Type} [Field K] [LinearOrder K] [IsStrictOrderedRing K]

/-- A request for derivative constraints that the documentation allows: constraint `i` asks the `k i`-th derivative at the parameter `u i` (in the knot span `s i`) to
change by `D i`; `r i` is the index of its parameter, and `f i` are the control points that must stay. -/
structure Constraints (c : NurbsCurve K) (p n m : ℕ) (ur : List K) (D : List (XYZ K)) (Dr Dk fixed : List ℤ) (r k s f : ℕ → ℕ) : Prop where
  pos : 0 < m
  countD : D.length = m
  countR : Dr.length = m
  countK : Dk.length = m
  param : ∀ i, i < m → nth Dr i = r i ∧ r i < ur.length
  order : ∀ i, i < m → nth Dk i = k i ∧ k i ≤ p
  span : ∀ i, i < m → IsSpan (nth c.knots) p n (nth ur (r i)) (s i)
  fixed : ∀ i, i < fixed.length → nth fixed i = f i ∧ f i ≤ n

/-- A control point that the code may move: it is not fixed and acts on one of the constraints (its coefficient is above the tolerance). -/
def Movable (c : NurbsCurve K) (p m : ℕ) (ur : List K) (fixed : List ℤ) (r k s f : ℕ → ℕ) (j : ℕ) : Prop :=
  (∀ i, i < fixed.length → f i ≠ j) ∧ ∃ i, i < m ∧ isGreaterThan (dN (nth c.knots) (s i) p j (k i) (nth ur (r i)) * dN (nth c.knots) (s i) p j (k i) (nth ur (r i))) 0 = true

theorem entD {D : List (XYZ K)} {m : ℕ} (h : D.length = m) : IsMat (D.map fun d => [d.x, d.y, d.z]) m 3 ∧ ∀ i, i < m →
    ent (D.map fun d => [d.x, d.y, d.z]) i 0 = (nth D i).x ∧ ent (D.map fun d => [d.x, d.y, d.z]) i 1 = (nth D i).y ∧ ent (D.map fun d => [d.x, d.y, d.z]) i 2 = (nth D i).z := by
  have hr : ∀ i, i < m → row (D.map fun d => [d.x, d.y, d.z]) i = [(nth D i).x, (nth D i).y, (nth D i).z] := by
    intro i hi
    have hi' : i < D.length := by omega
    simp [row, nth, hi']
  refine ⟨⟨by simp [h], fun i hi => by rw [hr i hi]; rfl⟩, fun i hi => ?_⟩
  unfold ent
  rw [hr i hi]
  exact ⟨rfl, rfl, rfl⟩

/-- C118 (what the code computes, for all weights): whenever the modification returns a curve, the knots and weights are the old ones, every control point is displaced by
some `dP j`, which is zero for all control points that are not movable, and the displacements satisfy the constraints `∑ⱼ N_j^{(kᵢ)}(uᵢ) dP j = Dᵢ`. They are the
shortest displacements of the movable control points with that property. -/
theorem C118_displacements {inverse : List (List K) → Res (List (List K))} {c c' : NurbsCurve K} {p n m : ℕ} {ur : List K} {D : List (XYZ K)} {Dr Dk fixed : List ℤ}
    {r k s f : ℕ → ℕ} (w : WellFormed c p n) (he : EndsSeparated (nth c.knots) p n) (hI : SoundInverse inverse)
    (q : Constraints c p n m ur D Dr Dk fixed r k s f) (hrun : constraintBasedModification inverse c ur D Dr Dk fixed = ok c') :
    WellFormed c' p n ∧ c'.knots = c.knots ∧ ∃ dP : ℕ → XYZ K,
      (∀ j, j ≤ n → (nth c'.cps j).w = (nth c.cps j).w ∧ (nth c'.cps j).raw = (nth c.cps j).raw + (nth c.cps j).w • dP j) ∧
      (∀ j, j ≤ n → ¬ Movable c p m ur fixed r k s f j → dP j = 0 ∧ nth c'.cps j = nth c.cps j) ∧
      (∀ i, i < m → ∑ j ∈ range (n + 1), dN (nth c.knots) (s i) p j (k i) (nth ur (r i)) • dP j = nth D i) ∧
      ∀ e : ℕ → XYZ K, (∀ j, j ≤ n → ¬ Movable c p m ur fixed r k s f j → e j = 0) →
        (∀ i, i < m → ∑ j ∈ range (n + 1), dN (nth c.knots) (s i) p j (k i) (nth ur (r i)) • e j = nth D i) →
        ∑ j ∈ range (n + 1), (dP j).dot (dP j) ≤ ∑ j ∈ range (n + 1), (e j).dot (e j) := by
  have hm0 := q.pos
  have hur : 0 < ur.length := lt_of_le_of_lt (Nat.zero_le _) (q.param 0 hm0).2
  unfold constraintBasedModification at hrun
  rw [validate_of (by simpa using hur), ok_bind, validate_of (by rw [decide_eq_true_eq, q.countD]; exact hm0), ok_bind, validate_of (by rw [decide_eq_true_eq, q.countD, q.countR]),
    ok_bind, validate_of (by rw [decide_eq_true_eq, q.countK, q.countR]), ok_bind, q.countD] at hrun
  obtain ⟨B, eB, hB, hBe⟩ := constraintRows_run w he q.countR q.countK q.param q.order q.span
  rw [eB, ok_bind, w.cps] at hrun
  obtain ⟨rm, erm, hrm, hrm0⟩ := removeFlags_run (fixed := fixed) (f := f) hB (fun i hi => ⟨(q.fixed i hi).1, by have := (q.fixed i hi).2; omega⟩)
  rw [erm, ok_bind, keptIndices_run hrm, ok_bind] at hrun
  obtain ⟨l, hl⟩ : ∃ l, (List.range (n + 1)).filter (fun j => decide (nth rm j = 0)) = l := ⟨_, rfl⟩
  rw [hl] at hrun
  have hnd : l.Nodup := by rw [← hl]; exact List.Nodup.filter _ List.nodup_range
  have hmem : ∀ j, j ∈ l ↔ j ≤ n ∧ Movable c p m ur fixed r k s f j := by
    intro j
    rw [← hl, List.mem_filter, List.mem_range, decide_eq_true_eq]
    constructor
    · rintro ⟨h1, h2⟩
      obtain ⟨g1, i, hi, g2⟩ := (hrm0 j h1).mp h2
      rw [hBe i hi j (by omega)] at g2
      exact ⟨by omega, g1, i, hi, g2⟩
    · rintro ⟨h1, g1, i, hi, g2⟩
      refine ⟨by omega, (hrm0 j (by omega)).mpr ⟨g1, i, hi, ?_⟩⟩
      rw [hBe i hi j h1]
      exact g2
  have hln : ∀ j ∈ l, j < n + 1 := fun j hj => by have := ((hmem j).mp hj).1; omega
  rw [keptColumns_run hB hln, ok_bind] at hrun
  obtain ⟨b, hb⟩ : ∃ b : ℕ → ℕ → K, b = fun i a => ent B i (nth l a) := ⟨_, rfl⟩
  rw [← hb] at hrun
  rw [transposeM_run isMat_tab hm0, ok_bind, List.nil_append] at hrun
  rcases Nat.eq_zero_or_pos l.length with hz | hpos
  · exfalso
    rw [hz] at hrun
    have : matrixMultiply (tab m 0 b) (tab 0 m fun i j => ent (tab m 0 b) j i) = ub := by
      unfold matrixMultiply
      rw [vget_row (k := 0) (by simp) (by rw [isMat_tab.1]; exact hm0), ok_bind]
      rfl
    rw [this] at hrun
    cases hrun
  · rw [matrixMultiply_run isMat_tab isMat_tab hm0 hpos, ok_bind] at hrun
    obtain ⟨X, eX, hrun⟩ := bind_eq_ok.mp hrun
    obtain ⟨hX, hXe⟩ := hI m _ X isMat_tab eX
    rw [matrixMultiply_run isMat_tab hX hpos hm0, ok_bind] at hrun
    dsimp only at hrun
    obtain ⟨hd, hde⟩ := entD q.countD
    rw [matrixMultiply_run isMat_tab hd hpos hm0, ok_bind] at hrun
    obtain ⟨cps, eC, hC1, hC2, hC3⟩ := moveKept_run (dP := tab l.length 3 fun i j => ∑ k ∈ range m, ent (tab l.length m fun i j => ∑ k ∈ range m, ent (tab l.length m fun i j => ent (tab m l.length b) j i) i k * ent X k j) i k *
      ent (D.map fun d => [d.x, d.y, d.z]) k j) w.cps hln hnd rfl isMat_tab
    rw [eC, ok_bind] at hrun
    obtain rfl : _ = c' := by injection hrun
    obtain ⟨x, hx⟩ : ∃ x : ℕ → ℕ → K, ∀ t a, x t a = ∑ j ∈ range m, (∑ k ∈ range m, b k a * ent X k j) * ent (D.map fun d => [d.x, d.y, d.z]) j t := ⟨_, fun _ _ => rfl⟩
    have hxe : ∀ t a, t < 3 → a < l.length → ent (tab l.length 3 fun i j => ∑ k ∈ range m, ent (tab l.length m fun i j => ∑ k ∈ range m, ent (tab l.length m fun i j => ent (tab m l.length b) j i) i k * ent X k j) i k *
      ent (D.map fun d => [d.x, d.y, d.z]) k j) a t = x t a := by
      intro t a ht ha
      rw [ent_tab ha ht, hx]
      refine sum_congr rfl fun j hj => ?_
      rw [ent_tab ha (mem_range.mp hj)]
      congr 1
      refine sum_congr rfl fun i hi => ?_
      rw [ent_tab ha (mem_range.mp hi), ent_tab (mem_range.mp hi) ha]
    have hXb : ∀ i j, i < m → j < m → ∑ k ∈ range m, (∑ a ∈ range l.length, b i a * b k a) * ent X k j = if i = j then 1 else 0 := by
      intro i j hi hj
      rw [← hXe i j hi hj]
      refine sum_congr rfl fun t ht => ?_
      rw [ent_tab hi (mem_range.mp ht)]
      congr 1
      refine sum_congr rfl fun a ha => ?_
      rw [ent_tab hi (mem_range.mp ha), ent_tab (mem_range.mp ha) (mem_range.mp ht), ent_tab (mem_range.mp ht) (mem_range.mp ha)]
    have hsol := fun t => least_norm (d := fun j => ent (D.map fun d => [d.x, d.y, d.z]) j t) hXb (fun a _ => hx t a)
    obtain ⟨dP, hdP⟩ : ∃ dP : ℕ → XYZ K, ∀ j, dP j = if j ∈ l then ⟨x 0 (l.idxOf j), x 1 (l.idxOf j), x 2 (l.idxOf j)⟩ else 0 := ⟨_, fun _ => rfl⟩
    have hnl : ∀ a, a < l.length → nth l a ∈ l ∧ l.idxOf (nth l a) = a := by
      intro a ha
      have h1 : nth l a = l[a] := by simp [nth, ha]
      rw [h1]
      exact ⟨List.getElem_mem ha, List.Nodup.idxOf_getElem hnd a ha⟩
    have hidx : ∀ j, j ∈ l → ∃ a, a < l.length ∧ nth l a = j := by
      intro j hj
      obtain ⟨a, ha, h⟩ := List.getElem_of_mem hj
      exact ⟨a, ha, by simp [nth, ha, h]⟩
    have hdPa : ∀ a, a < l.length → dP (nth l a) = ⟨x 0 a, x 1 a, x 2 a⟩ := by
      intro a ha
      obtain ⟨h1, h2⟩ := hnl a ha
      rw [hdP, if_pos h1, h2]
    have hcps : ∀ j, j ≤ n → (nth cps j).w = (nth c.cps j).w ∧ (nth cps j).raw = (nth c.cps j).raw + (nth c.cps j).w • dP j := by
      intro j hj
      by_cases hjl : j ∈ l
      · obtain ⟨a, ha, rfl⟩ := hidx j hjl
        rw [hC3 a ha, hdPa a ha, hxe 0 a (by omega) ha, hxe 1 a (by omega) ha, hxe 2 a (by omega) ha]
        refine ⟨rfl, ?_⟩
        ext <;> simp [XYZW.raw]
      · rw [hC2 j hjl, hdP, if_neg hjl, smul_zero, add_zero]
        exact ⟨rfl, rfl⟩
    have hsum : ∀ (i : ℕ), i < m → ∀ g : ℕ → XYZ K, (∀ j, j ≤ n → j ∉ l → g j = 0) →
        ∑ j ∈ range (n + 1), dN (nth c.knots) (s i) p j (k i) (nth ur (r i)) • g j = ∑ a ∈ range l.length, b i a • g (nth l a) := by
      intro i hi g hg
      rw [hb]
      rw [sum_nth_list hnd hln (fun j => ent B i j • g j)]
      refine sum_congr rfl fun j hj => ?_
      have hj : j ≤ n := by have := mem_range.mp hj; omega
      by_cases hjl : j ∈ l
      · rw [if_pos hjl, hBe i hi j hj]
      · rw [if_neg hjl, hg j hj hjl, smul_zero]
    have hnorm : ∀ g : ℕ → XYZ K, (∀ j, j ≤ n → j ∉ l → g j = 0) → ∑ j ∈ range (n + 1), (g j).dot (g j) = ∑ a ∈ range l.length, (g (nth l a)).dot (g (nth l a)) := by
      intro g hg
      rw [sum_nth_list hnd hln (fun j => (g j).dot (g j))]
      refine sum_congr rfl fun j hj => ?_
      by_cases hjl : j ∈ l
      · rw [if_pos hjl]
      · rw [if_neg hjl, hg j (by have := mem_range.mp hj; omega) hjl]
        simp [XYZ.dot]
    have hout : ∀ j, j ≤ n → j ∉ l → dP j = 0 := fun j _ hjl => by rw [hdP, if_neg hjl]
    have hsx : ∀ (S : Finset ℕ) (g : ℕ → XYZ K), (∑ a ∈ S, g a).x = ∑ a ∈ S, (g a).x ∧ (∑ a ∈ S, g a).y = ∑ a ∈ S, (g a).y ∧ (∑ a ∈ S, g a).z = ∑ a ∈ S, (g a).z := by
      intro S g
      induction S using Finset.cons_induction with
      | empty => simp
      | cons a S ha ih => simp only [sum_cons, XYZ.add_x, XYZ.add_y, XYZ.add_z, ih.1, ih.2.1, ih.2.2, and_self]
    refine ⟨{ degree := w.degree, pos := w.pos, le7 := w.le7, cps := hC1, pn := w.pn, knots := w.knots, sorted := w.sorted }, rfl, dP, hcps, ?_, ?_, ?_⟩
    · intro j hj hmv
      have hjl : j ∉ l := fun h => hmv ((hmem j).mp h).2
      exact ⟨hout j hj hjl, hC2 j hjl⟩
    · intro i hi
      rw [hsum i hi dP hout, sum_congr rfl fun a ha => by rw [hdPa a (mem_range.mp ha)]]
      obtain ⟨d0, d1, d2⟩ := hde i hi
      obtain ⟨u0, u1, u2⟩ := hsx (range l.length) (fun a => b i a • (⟨x 0 a, x 1 a, x 2 a⟩ : XYZ K))
      ext
      · rw [u0, ← d0]; exact (hsol 0).1 i hi
      · rw [u1, ← d1]; exact (hsol 1).1 i hi
      · rw [u2, ← d2]; exact (hsol 2).1 i hi
    · intro e he0 he1
      have he0' : ∀ j, j ≤ n → j ∉ l → e j = 0 := fun j hj hjl => he0 j hj fun hmv => hjl ((hmem j).mpr ⟨hj, hmv⟩)
      rw [hnorm dP hout, hnorm e he0', sum_congr rfl fun a ha => by rw [hdPa a (mem_range.mp ha)]]
      have hc : ∀ i, i < m → ∑ a ∈ range l.length, b i a • e (nth l a) = nth D i := fun i hi => by rw [← hsum i hi e he0']; exact he1 i hi
      have h0 := (hsol 0).2 (fun a => (e (nth l a)).x) (fun i hi => by
        obtain ⟨u0, -, -⟩ := hsx (range l.length) (fun a => b i a • e (nth l a))
        rw [hc i hi] at u0
        rw [(hde i hi).1, u0]; rfl)
      have h1 := (hsol 1).2 (fun a => (e (nth l a)).y) (fun i hi => by
        obtain ⟨-, u0, -⟩ := hsx (range l.length) (fun a => b i a • e (nth l a))
        rw [hc i hi] at u0
        rw [(hde i hi).2.1, u0]; rfl)
      have h2 := (hsol 2).2 (fun a => (e (nth l a)).z) (fun i hi => by
        obtain ⟨-, -, u0⟩ := hsx (range l.length) (fun a => b i a • e (nth l a))
        rw [hc i hi] at u0
        rw [(hde i hi).2.2, u0]; rfl)
      calc ∑ a ∈ range l.length, (⟨x 0 a, x 1 a, x 2 a⟩ : XYZ K).dot ⟨x 0 a, x 1 a, x 2 a⟩
          = ∑ a ∈ range l.length, x 0 a ^ 2 + ∑ a ∈ range l.length, x 1 a ^ 2 + ∑ a ∈ range l.length, x 2 a ^ 2 := by
            rw [← sum_add_distrib, ← sum_add_distrib]
            exact sum_congr rfl fun a _ => by simp only [XYZ.dot]; ring
        _ ≤ ∑ a ∈ range l.length, (e (nth l a)).x ^ 2 + ∑ a ∈ range l.length, (e (nth l a)).y ^ 2 + ∑ a ∈ range l.length, (e (nth l a)).z ^ 2 := by linarith
        _ = _ := by
            rw [← sum_add_distrib, ← sum_add_distrib]
            exact sum_congr rfl fun a _ => by simp only [XYZ.dot]; ring

theorem sum_raw_w (S : Finset ℕ) (g : ℕ → XYZW K) : (∑ j ∈ S, g j).raw = ∑ j ∈ S, (g j).raw ∧ (∑ j ∈ S, g j).w = ∑ j ∈ S, (g j).w := by
  induction S using Finset.cons_induction with
  | empty => exact ⟨rfl, rfl⟩
  | cons a S ha ih => rw [sum_cons, sum_cons, sum_cons, ← ih.1, ← ih.2]; exact ⟨rfl, rfl⟩

/-- for equal weights the derivatives of the rational curve are those of the polynomial curve -/
theorem derivs_equal {c : NurbsCurve K} {p n s : ℕ} {u w0 : K} (w : WellFormed c p n) (he : EndsSeparated (nth c.knots) p n) (h0 : nth c.knots p ≤ u) (h1 : u ≤ nth c.knots (n + 1))
    (hs : IsSpan (nth c.knots) p n u s) (hw0 : w0 ≠ 0) (hw : ∀ j, j ≤ n → (nth c.cps j).w = w0) :
    ∃ l, NurbsCurve.rationalDerivatives c p u = ok l ∧ l.length = p + 1 ∧ ∀ k, k ≤ p → w0 • nth l k = ∑ j ∈ range (n + 1), dN (nth c.knots) s p j k u • (nth c.cps j).raw := by
  have hm := wf_monoTo w
  have hW : weightFn (nth c.knots) p n (nth c.cps) u = w0 := by
    unfold weightFn
    rw [sum_congr rfl fun j hj => by rw [hw j (by have := mem_range.mp hj; omega)], ← sum_mul, (basis_convex hm hs).2, one_mul]
  obtain ⟨l, e, hl, hk⟩ := C20_leibniz w he h0 h1 hs w.pos (by rw [hW]; exact hw0)
  refine ⟨l, e, hl, fun k hkp => ?_⟩
  have hcw : ∀ i, (curveDeriv (nth c.knots) s p n (nth c.cps) i u).w = if i = 0 then w0 else 0 := by
    intro i
    unfold curveDeriv
    rw [(sum_raw_w _ _).2]
    have : ∀ j ∈ range (n + 1), (dN (nth c.knots) s p j i u • nth c.cps j).w = dN (nth c.knots) s p j i u * w0 := by
      intro j hj
      rw [XYZW.smul_w, hw j (by have := mem_range.mp hj; omega)]
    rw [sum_congr rfl this, ← sum_mul]
    by_cases hi : i = 0
    · subst hi
      rw [if_pos rfl]
      conv_rhs => rw [← one_mul w0, ← (basis_convex hm hs).2]
      congr 1
      refine sum_congr rfl fun j hj => ?_
      rw [dN_zero, N_eq_Nspan hm (by omega) hs p j (by have := mem_range.mp hj; omega)]
    · rw [if_neg hi, sum_window hs.1 hs.2.1 (f := fun j => dN (nth c.knots) s p j i u) (fun j hj => dN_out _ _ _ _ _ _ hj)]
      rw [sum_dN hm hs.2.2.1 hs.1 (by have := hs.2.1; omega) (by omega), zero_mul]
  have h := hk k hkp
  rw [sum_eq_single 0] at h
  · rw [hcw, if_pos rfl, Nat.choose_zero_right, Nat.cast_one, one_mul, Nat.sub_zero] at h
    rw [h]
    unfold curveDeriv
    rw [(sum_raw_w _ _).1]
    rfl
  · intro i _ hi
    rw [hcw, if_neg hi, mul_zero, zero_smul]
  · intro h0; exact absurd (mem_range.mpr (by omega)) h0

/-- C118 (partial): for curves with equal weights, whenever the modification returns a curve, every constraint is met exactly: the `kᵢ`-th derivative at the parameter
`uᵢ`, as the library evaluates it, changes by `Dᵢ`. The fixed control points stay. -/
theorem C118_constraints_partial {inverse : List (List K) → Res (List (List K))} {c c' : NurbsCurve K} {p n m : ℕ} {ur : List K} {D : List (XYZ K)} {Dr Dk fixed : List ℤ}
    {r k s f : ℕ → ℕ} {w0 : K} (w : WellFormed c p n) (he : EndsSeparated (nth c.knots) p n) (hI : SoundInverse inverse) (hw0 : w0 ≠ 0) (hw : ∀ j, j ≤ n → (nth c.cps j).w = w0)
    (q : Constraints c p n m ur D Dr Dk fixed r k s f) (hrun : constraintBasedModification inverse c ur D Dr Dk fixed = ok c') :
    (∀ i, i < fixed.length → nth c'.cps (f i) = nth c.cps (f i)) ∧
    ∀ i, i < m → ∃ l l', NurbsCurve.rationalDerivatives c p (nth ur (r i)) = ok l ∧ NurbsCurve.rationalDerivatives c' p (nth ur (r i)) = ok l' ∧
      l.length = p + 1 ∧ l'.length = p + 1 ∧ nth l' (k i) = nth l (k i) + nth D i := by
  obtain ⟨w', hk, dP, h1, h2, h3, -⟩ := C118_displacements w he hI q hrun
  refine ⟨fun i hi => (h2 (f i) (q.fixed i hi).2 fun h => h.1 i hi rfl).2, fun i hi => ?_⟩
  have hm := wf_monoTo w
  have hsi := q.span i hi
  have a0 : nth c.knots p ≤ nth ur (r i) := le_trans (hm _ _ hsi.1 (by have := hsi.2.1; omega)) hsi.2.2.2.1
  have a1 : nth ur (r i) ≤ nth c.knots (n + 1) := by
    rcases hsi.2.2.2.2 with h | ⟨h, h'⟩
    · exact le_trans h.le (hm _ _ (by have := hsi.2.1; omega) (by omega))
    · rw [h, h']
  obtain ⟨l, e, hl, hlk⟩ := derivs_equal w he a0 a1 hsi hw0 hw
  obtain ⟨l', e', hl', hlk'⟩ := derivs_equal (u := nth ur (r i)) (s := s i) w' (by rw [hk]; exact he) (by rw [hk]; exact a0) (by rw [hk]; exact a1) (by rw [hk]; exact hsi) hw0 (fun j hj => by rw [(h1 j hj).1]; exact hw j hj)
  refine ⟨l, l', e, e', hl, hl', ?_⟩
  have hko := (q.order i hi).2
  have hinj : Function.Injective fun v : XYZ K => w0 • v := smul_right_injective _ hw0
  apply hinj
  dsimp only
  rw [smul_add, hlk _ hko, hlk' _ hko, ← h3 i hi, smul_sum, ← sum_add_distrib, hk]
  refine sum_congr rfl fun j hj => ?_
  have hj : j ≤ n := by have := mem_range.mp hj; omega
  rw [(h1 j hj).2, hw j hj, smul_add, smul_comm]

/-- C118: missing parameters or constraints and lists of different lengths are rejected. -/
theorem C118_rejects (inverse : List (List K) → Res (List (List K))) (c : NurbsCurve K) (ur : List K) (D : List (XYZ K)) (Dr Dk fixed : List ℤ)
    (h : ur = [] ∨ D = [] ∨ Dr.length ≠ D.length ∨ Dk.length ≠ Dr.length) : constraintBasedModification inverse c ur D Dr Dk fixed = invalidArg := by
  have hv : ∀ b : Bool, validate b = ok () ∨ validate b = invalidArg := fun b => by cases b; exacts [Or.inr rfl, Or.inl rfl]
  unfold constraintBasedModification
  rcases hv (decide (ur.length > 0)) with e1 | e1
  · rcases hv (decide (D.length > 0)) with e2 | e2
    · rcases hv (decide (Dr.length = D.length)) with e3 | e3
      · rcases hv (decide (Dk.length = Dr.length)) with e4 | e4
        · exfalso
          have t : ∀ {P : Prop} [Decidable P], validate (decide P) = ok () → P := by
            intro P _ h
            by_contra hP
            rw [decide_eq_false hP] at h
            cases h
          have := t e1; have := t e2; have := t e3; have := t e4
          rcases h with rfl | rfl | h | h
          · simp at *
          · simp at *
          · exact h ‹_›
          · exact h ‹_›
        · rw [e1, e2, e3, e4]; rfl
      · rw [e1, e2, e3]; rfl
    · rw [e1, e2]; rfl
  · rw [e1]; rfl

/-- C118 is violated: when all control points that act on the constraints are fixed the code reads from an empty matrix. -/
theorem C118_all_fixed_ub {inverse : List (List K) → Res (List (List K))} {c : NurbsCurve K} {p n m : ℕ} {ur : List K} {D : List (XYZ K)} {Dr Dk fixed : List ℤ}
    {r k s f : ℕ → ℕ} (w : WellFormed c p n) (he : EndsSeparated (nth c.knots) p n) (q : Constraints c p n m ur D Dr Dk fixed r k s f)
    (hfix : ∀ j, j ≤ n → ¬ Movable c p m ur fixed r k s f j) : constraintBasedModification inverse c ur D Dr Dk fixed = ub := by
  have hm0 := q.pos
  have hur : 0 < ur.length := lt_of_le_of_lt (Nat.zero_le _) (q.param 0 hm0).2
  unfold constraintBasedModification
  rw [validate_of (by simpa using hur), ok_bind, validate_of (by rw [decide_eq_true_eq, q.countD]; exact hm0), ok_bind, validate_of (by rw [decide_eq_true_eq, q.countD, q.countR]),
    ok_bind, validate_of (by rw [decide_eq_true_eq, q.countK, q.countR]), ok_bind, q.countD]
  obtain ⟨B, eB, hB, hBe⟩ := constraintRows_run w he q.countR q.countK q.param q.order q.span
  rw [eB, ok_bind, w.cps]
  obtain ⟨rm, erm, hrm, hrm0⟩ := removeFlags_run (fixed := fixed) (f := f) hB (fun i hi => ⟨(q.fixed i hi).1, by have := (q.fixed i hi).2; omega⟩)
  rw [erm, ok_bind, keptIndices_run hrm, ok_bind]
  have hl : (List.range (n + 1)).filter (fun j => decide (nth rm j = 0)) = [] := by
    rw [List.filter_eq_nil_iff]
    intro j hj h
    have hj := List.mem_range.mp hj
    obtain ⟨g1, i, hi, g2⟩ := (hrm0 j hj).mp (by simpa using h)
    rw [hBe i hi j (by omega)] at g2
    exact hfix j (by omega) ⟨g1, i, hi, g2⟩
  rw [hl, keptColumns_run (l := []) hB (by simp), ok_bind, transposeM_run isMat_tab hm0, ok_bind, List.nil_append]
  have : matrixMultiply (tab m 0 fun i a => ent B i (nth [] a)) (tab 0 m fun i j => ent (tab m 0 fun i a => ent B i (nth [] a)) j i) = ub := by
    unfold matrixMultiply
    rw [vget_row (k := 0) (by simp) (by rw [isMat_tab.1]; exact hm0), ok_bind]
    rfl
  change (matrixMultiply (tab m 0 fun i a => ent B i (nth [] a)) (tab 0 m fun i j => ent (tab m 0 fun i a => ent B i (nth [] a)) j i) >>= _) = ub
  rw [this]
  rfl

/-- C118 is violated for different weights: the segment with weights 1 and 2 is asked to move by (1, 0, 0) at 1/2 with its second end fixed, and moves by (2/3, 0, 0). -/
theorem C118_weights_violated (inverse : List (List ℚ) → Res (List (List ℚ))) (h : inverse [[1 / 4]] = ok [[4]]) :
    ∃ c', constraintBasedModification inverse { degree := 1, knots := [0, 0, 1, 1], cps := [⟨0, 0, 0, 1⟩, ⟨2, 0, 0, 2⟩] } [1 / 2] [⟨1, 0, 0⟩] [0] [0] [1] = ok c' ∧
      NurbsCurve.pointOnCurve ({ degree := 1, knots := [0, 0, 1, 1], cps := [⟨0, 0, 0, 1⟩, ⟨2, 0, 0, 2⟩] } : NurbsCurve ℚ) (1 / 2) = ok ⟨2 / 3, 0, 0⟩ ∧
      NurbsCurve.pointOnCurve c' (1 / 2) = ok ⟨4 / 3, 0, 0⟩ := by
  refine ⟨{ degree := 1, knots := [0, 0, 1, 1], cps := [⟨2, 0, 0, 1⟩, ⟨2, 0, 0, 2⟩] }, ?_, by decide +kernel, by decide +kernel⟩
  unfold constraintBasedModification
  have e1 : constraintRows ({ degree := 1, knots := [0, 0, 1, 1], cps := [⟨0, 0, 0, 1⟩, ⟨2, 0, 0, 2⟩] } : NurbsCurve ℚ) [1 / 2] [0] [0] 1 = ok [[(1 / 2 : ℚ), 1 / 2]] := by decide +kernel
  have e2 : removeFlags 2 [[(1 / 2 : ℚ), 1 / 2]] [1] = ok [0, 1] := by decide +kernel
  have e3 : keptIndices 2 [0, 1] = ok [0] := by decide +kernel
  have e4 : keptColumns 1 [[(1 / 2 : ℚ), 1 / 2]] [0] = ok [[1 / 2]] := by decide +kernel
  have e5 : transposeM [[(1 / 2 : ℚ)]] [] = ok [[1 / 2]] := by decide +kernel
  have e6 : matrixMultiply [[(1 / 2 : ℚ)]] [[1 / 2]] = ok [[1 / 4]] := by decide +kernel
  have e7 : matrixMultiply [[(1 / 2 : ℚ)]] [[4]] = ok [[2]] := by decide +kernel
  have e8 : matrixMultiply [[(2 : ℚ)]] [[1, 0, 0]] = ok [[2, 0, 0]] := by decide +kernel
  have e9 : moveKept [⟨0, 0, 0, 1⟩, ⟨2, 0, 0, 2⟩] [0] [[(2 : ℚ), 0, 0]] = ok [⟨2, 0, 0, 1⟩, ⟨2, 0, 0, 2⟩] := by decide +kernel
  simp only [List.length_cons, List.length_nil, zero_add, Nat.reduceAdd, gt_iff_lt, Nat.zero_lt_one, decide_true, validate_true, ok_bind, List.map_cons, List.map_nil,
    e1, e2, e3, e4, e5, e6, h, e7, e8, e9]

/-- The hypotheses of C118 are met: a quadratic with weights one; the point at 1/2 and the first derivative at 0 are prescribed, and the last control point is fixed. -/
example : Constraints ({ degree := 2, knots := [0, 0, 0, 1, 1, 1], cps := [⟨0, 0, 0, 1⟩, ⟨1, 2, 0, 1⟩, ⟨2, 0, 0, 1⟩] } : NurbsCurve ℚ) 2 2 2 [1 / 2, 0] [⟨1, 0, 0⟩, ⟨0, 1, 0⟩] [0, 1] [0, 1] [2]
    (fun i => i) (fun i => i) (fun _ => 2) (fun _ => 2) := by
  refine ⟨by omega, rfl, rfl, rfl, ?_, ?_, ?_, ?_⟩
  · intro i hi; interval_cases i <;> exact ⟨rfl, by decide⟩
  · intro i hi; interval_cases i <;> exact ⟨rfl, by decide⟩
  · intro i hi
    interval_cases i <;> exact ⟨by omega, by omega, by norm_num [nth], by norm_num [nth], Or.inl (by norm_num [nth])⟩
  · intro i hi
    have : i = 0 := by simpa using hi
    subst this
    exact ⟨rfl, by omega⟩

/-- … and the modification of that quadratic returns a curve for an inverse that knows the matrix. -/
example : ∃ X c', constraintBasedModification (fun _ => ok X) ({ degree := 2, knots := [0, 0, 0, 1, 1, 1], cps := [⟨0, 0, 0, 1⟩, ⟨1, 2, 0, 1⟩, ⟨2, 0, 0, 1⟩] } : NurbsCurve ℚ)
    [1 / 2, 0] [⟨1, 0, 0⟩, ⟨0, 1, 0⟩] [0, 1] [0, 1] [2] = ok c' ∧ NurbsCurve.pointOnCurve c' (1 / 2) = ok ⟨2, 1, 0⟩ ∧
    NurbsCurve.rationalDerivatives c' 1 0 = ok [⟨4 / 3, -1 / 3, 0⟩, ⟨2, 5, 0⟩] := by
  refine ⟨[[32 / 9, -2 / 9], [-2 / 9, 5 / 36]], { degree := 2, knots := [0, 0, 0, 1, 1, 1], cps := [⟨4 / 3, -1 / 3, 0, 1⟩, ⟨7 / 3, 13 / 6, 0, 1⟩, ⟨2, 0, 0, 1⟩] }, ?_, ?_, ?_⟩ <;> decide +kernel

end LNLib.Props
