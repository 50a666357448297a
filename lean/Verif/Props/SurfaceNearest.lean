import Verif.Model.SurfaceNearest
import Verif.Props.Nearest
import Verif.Props.Tessellate
import Verif.Props.SurfaceDers
import Verif.Props.Closed

/-!
# C149: the parameter of the nearest point of a surface
-/
set_option linter.unusedSectionVars false

namespace LNLib.Props
open LNLib Res LNLib.Spec Finset

/-! ### General facts -/

theorem surfaceWeight_ge {c : NurbsSurface ℝ} {p q n m : ℕ} {u v x : ℝ} (w : WellFormedS c p q n m) (he : EndsSeparatedS c p q n m) (dom : InDomain c p q n m u v)
    (hw : ∀ i j, i ≤ n → j ≤ m → x ≤ (ent c.cps i j).w) : x ≤ surfaceWeight (nth c.knotsU) (nth c.knotsV) p q n m (ent c.cps) u v := by
  have h1 : ∀ i, i ≤ n → x ≤ weightFn (nth c.knotsV) q m (nth (rowCurve c m i).cps) v := fun i hi =>
    weightFn_ge (rowCurve_wf (i := i) w) he.v dom.v0 dom.v1 (fun j hj => by
      rw [show nth (rowCurve c m i).cps j = ent c.cps i j from nth_range hj]; exact hw i j hi hj)
  have wf : WellFormed (K := ℝ) (T := XYZW ℝ) { degree := c.degreeU, knots := c.knotsU, cps := (List.range (n + 1)).map fun i => (⟨0, 0, 0, weightFn (nth c.knotsV) q m (nth (rowCurve c m i).cps) v⟩ : XYZW ℝ) } p n :=
    { degree := w.degreeU, pos := w.posU, le7 := w.le7U, cps := by simp, pn := w.pn, knots := w.knotsU, sorted := w.sortedU }
  have h2 := weightFn_ge wf he.u dom.u0 dom.u1 (x := x) (fun i hi => by
    rw [show nth ((List.range (n + 1)).map fun i => (⟨0, 0, 0, weightFn (nth c.knotsV) q m (nth (rowCurve c m i).cps) v⟩ : XYZW ℝ)) i =
      ⟨0, 0, 0, weightFn (nth c.knotsV) q m (nth (rowCurve c m i).cps) v⟩ from nth_range hi]
    exact h1 i hi)
  refine h2.trans (le_of_eq ?_)
  unfold weightFn surfaceWeight
  refine sum_congr rfl fun i hi => ?_
  rw [nth_range (by have := mem_range.mp hi; omega), mul_sum]
  refine sum_congr rfl fun j hj => ?_
  rw [show nth (rowCurve c m i).cps j = ent c.cps i j from nth_range (by have := mem_range.mp hj; omega), mul_assoc]

theorem surfaceWeight_pos {c : NurbsSurface ℝ} {p q n m : ℕ} {u v : ℝ} (w : WellFormedS c p q n m) (he : EndsSeparatedS c p q n m) (dom : InDomain c p q n m u v)
    (hw : ∀ i j, i ≤ n → j ≤ m → 0 < (ent c.cps i j).w) : 0 < surfaceWeight (nth c.knotsU) (nth c.knotsV) p q n m (ent c.cps) u v := by
  obtain ⟨y, hy, hmin⟩ := ((range (n + 1)) ×ˢ (range (m + 1))).exists_min_image (fun x => (ent c.cps x.1 x.2).w) ⟨(0, 0), by simp⟩
  have hy := mem_product.mp hy
  have h := surfaceWeight_ge w he dom (x := (ent c.cps y.1 y.2).w) (fun i j hi hj => hmin (i, j) (mem_product.mpr ⟨mem_range.mpr (by simp; omega), mem_range.mpr (by simp; omega)⟩))
  exact (hw y.1 y.2 (by have := mem_range.mp hy.1; omega) (by have := mem_range.mp hy.2; omega)).trans_le h

/-- the order 2 is rejected on surfaces of degree one in a direction -/
theorem order2_rejected {c : NurbsSurface ℝ} {p q n m : ℕ} {u v : ℝ} (w : WellFormedS c p q n m) (he : EndsSeparatedS c p q n m) (dom : InDomain c p q n m u v)
    (h : p = 1 ∨ q = 1) : NurbsSurface.rationalDerivatives c 2 u v = invalidArg := by
  unfold NurbsSurface.rationalDerivatives
  have := C67_order_rejected (d := 2) w he dom (by omega)
  rw [validate_of (by norm_num), ok_bind, validateUV_ok w dom, ok_bind]
  rw [show ((2 : ℕ) : ℤ) = 2 from rfl] at this
  rw [this]
  rfl

theorem isClosedSurface_runs {c : NurbsSurface ℝ} {p q n m : ℕ} (w : WellFormedS c p q n m) (he : EndsSeparatedS c p q n m)
    (hcU : ClampedEnds (nth c.knotsU) p n) (hcV : ClampedEnds (nth c.knotsV) q m) :
    (∃ b, isClosedSurface c true = ok b) ∧ ∃ b, isClosedSurface c false = ok b := by
  obtain ⟨b, e, -⟩ := C95_closed_u_partial w he hcU
  obtain ⟨b', e', -⟩ := C95_closed_v_partial w he hcV
  exact ⟨⟨b, e⟩, b', e'⟩

theorem dirLt {U : ℕ → ℝ} {p n : ℕ} (hpn : p ≤ n) (hU : MonoTo U (n + p + 1)) (he : EndsSeparated U p n) : U p < U (n + 1) := by
  have h1 := he.first
  have h2 := hU (p + 1) (n + 1) (by omega) (by omega)
  have : (0 : ℝ) ≤ 1 / 1000000 * (1 + max |U p| |U (p + 1)|) := by
    have : 0 ≤ max |U p| |U (p + 1)| := le_max_of_le_left (abs_nonneg _)
    positivity
  linarith

/-- the search along the tessellation stays in the domain -/
theorem nearestStartS_run {pts : List (XYZ ℝ)} {params : List (ℝ × ℝ)} {P : XYZ ℝ} {a b a' b' : ℝ} (hlen : pts.length = params.length) (hpos : 2 ≤ params.length)
    (hdom : ∀ k, k < params.length → (a ≤ (nth params k).1 ∧ (nth params k).1 ≤ b) ∧ a' ≤ (nth params k).2 ∧ (nth params k).2 ≤ b') :
    Runs (nearestStartS pts params P) (fun t => (a ≤ t.1 ∧ t.1 ≤ b) ∧ a' ≤ t.2 ∧ t.2 ≤ b') := by
  unfold nearestStartS
  rw [if_neg (by omega)]
  refine Runs.bind (Q := fun st => (a ≤ st.2.1 ∧ st.2.1 ≤ b) ∧ a' ≤ st.2.2 ∧ st.2.2 ≤ b') ?_ (fun st h => Runs.ok h)
  refine (Runs.forN (m := 0) (n := params.length - 1) (fun i (st : Option ℝ × (ℝ × ℝ)) => (i = 0 ∧ st.1 = none) ∨ (a ≤ st.2.1 ∧ st.2.1 ≤ b) ∧ a' ≤ st.2.2 ∧ st.2.2 ≤ b')
    rfl (by omega) (by omega) (Or.inl ⟨rfl, rfl⟩) ?_).mono (fun st h => h.resolve_left (by omega))
  rintro i st - hi' h
  unfold nearestRoundS
  rw [vget_nth (k := i) rfl (by omega), ok_bind, vget_nth (k := i + 1) (by push_cast; rfl) (by omega), ok_bind, vget_nth (k := i) rfl (by omega), ok_bind,
    vget_nth (k := i + 1) (by push_cast; rfl) (by omega), ok_bind]
  dsimp only
  obtain ⟨⟨h1, h2⟩, h3, h4⟩ := hdom i (by omega)
  obtain ⟨⟨h5, h6⟩, h7, h8⟩ := hdom (i + 1) (by omega)
  have hu : Runs (if isGreaterThan ((nth pts (i + 1) - nth pts i).dot (nth pts (i + 1) - nth pts i)) 0 = true then do
        let t ← fdiv ((P - nth pts i).dot (nth pts (i + 1) - nth pts i)) ((nth pts (i + 1) - nth pts i).dot (nth pts (i + 1) - nth pts i))
        ok (max 0 (min 1 t))
      else ok (1 / 2) : Res ℝ) (fun u => 0 ≤ u ∧ u ≤ 1) := by
    split_ifs with hseg
    · rw [fdiv_ok, ok_bind]
      · exact Runs.ok ⟨le_max_left _ _, max_le zero_le_one (min_le_left _ _)⟩
      · intro h0
        rw [h0] at hseg
        unfold isGreaterThan tolOf at hseg
        have := doubleEps_pos (K := ℝ)
        simp at hseg
        linarith
    · exact Runs.ok ⟨by norm_num, by norm_num⟩
  obtain ⟨u, eu, u0, u1⟩ := hu
  rw [eu, ok_bind]
  have key : ∀ x y lo hi : ℝ, lo ≤ x → x ≤ hi → lo ≤ y → y ≤ hi → lo ≤ x + (y - x) * u ∧ x + (y - x) * u ≤ hi := by
    intro x y lo hi a1 a2 a3 a4
    constructor <;> nlinarith
  have g := key _ _ _ _ h1 h2 h5 h6
  have g' := key _ _ _ _ h3 h4 h7 h8
  rcases st with ⟨_ | d, t⟩
  · exact Runs.ok (Or.inr ⟨g, g'⟩)
  · dsimp only
    split_ifs
    · exact Runs.ok (Or.inr ⟨g, g'⟩)
    · rcases h with h | h
      · cases h.2
      · exact Runs.ok (Or.inr h)

/-! ### The Newton rounds -/

/-- `T` is the next Newton iterate after `T0` for the two equations `Sᵤ·(S - P) = 0`, `Sᵥ·(S - P) = 0`, and the step between them, measured in space along the tangents, is at most 1e-6
(relative to one plus itself). -/
def SmallStepS (c : NurbsSurface ℝ) (P : XYZ ℝ) (T0 T : ℝ × ℝ) : Prop :=
  ∃ M, NurbsSurface.rationalDerivatives c 2 T0.1 T0.2 = ok M ∧
    ((ent M 1 0).dot (ent M 1 0) + (ent M 0 0 - P).dot (ent M 2 0)) * (T.1 - T0.1) + ((ent M 1 0).dot (ent M 0 1) + (ent M 0 0 - P).dot (ent M 1 1)) * (T.2 - T0.2) = -(ent M 1 0).dot (ent M 0 0 - P) ∧
    ((ent M 1 0).dot (ent M 0 1) + (ent M 0 0 - P).dot (ent M 1 1)) * (T.1 - T0.1) + ((ent M 0 1).dot (ent M 0 1) + (ent M 0 0 - P).dot (ent M 0 2)) * (T.2 - T0.2) = -(ent M 0 1).dot (ent M 0 0 - P) ∧
    ((T.1 - T0.1) • ent M 1 0 + (T.2 - T0.2) • ent M 0 1).length ≤ 1 / 1000000 * (1 + ((T.1 - T0.1) • ent M 1 0 + (T.2 - T0.2) • ent M 0 1).length)

theorem length_nonneg' (a : XYZ ℝ) : 0 ≤ a.length := Real.sqrt_nonneg _

theorem almost_zero_iff {a : ℝ} (h : 0 ≤ a) : isAlmostEqualTo a 0 = true ↔ a ≤ 1 / 1000000 * (1 + a) := by
  rw [almost_iff, sub_zero, abs_zero, abs_of_nonneg h, max_eq_left h]

theorem newtonRoundS_run {c : NurbsSurface ℝ} {P : XYZ ℝ} {wU wV : ℝ → Res ℝ} {a b a' b' : ℝ} {t : ℝ × ℝ} {M : List (List (XYZ ℝ))}
    (hU : ∀ x, Runs (wU x) (fun t => a ≤ t ∧ t ≤ b)) (hV : ∀ x, Runs (wV x) (fun t => a' ≤ t ∧ t ≤ b')) (ht : (a ≤ t.1 ∧ t.1 ≤ b) ∧ a' ≤ t.2 ∧ t.2 ≤ b')
    (e : NurbsSurface.rationalDerivatives c 2 t.1 t.2 = ok M) (hM : IsMat M 3 3) :
    Runs (newtonRoundS c P wU wV t) (fun r => ((a ≤ r.1.1 ∧ r.1.1 ≤ b) ∧ a' ≤ r.1.2 ∧ r.1.2 ≤ b') ∨ (r.2 = true ∧ SmallStepS c P t r.1)) := by
  unfold newtonRoundS
  have g : ∀ (i j : ℕ), i < 3 → j < 3 → mget M (i : ℤ) (j : ℤ) = ok (ent M i j) := fun i j hi hj => mget_ent hM rfl rfl hi hj
  have g00 := g 0 0 (by omega) (by omega)
  have g10 := g 1 0 (by omega) (by omega)
  have g01 := g 0 1 (by omega) (by omega)
  have g20 := g 2 0 (by omega) (by omega)
  have g02 := g 0 2 (by omega) (by omega)
  have g11 := g 1 1 (by omega) (by omega)
  norm_cast at g00 g10 g01 g20 g02 g11
  rw [e, ok_bind, g00, ok_bind, g10, ok_bind, g01, ok_bind, g20, ok_bind, g02, ok_bind, g11, ok_bind]
  dsimp only
  obtain ⟨S, hS⟩ : ∃ S, ent M 0 0 = S := ⟨_, rfl⟩
  obtain ⟨Su, hSu⟩ : ∃ S, ent M 1 0 = S := ⟨_, rfl⟩
  obtain ⟨Sv, hSv⟩ : ∃ S, ent M 0 1 = S := ⟨_, rfl⟩
  obtain ⟨Suu, hSuu⟩ : ∃ S, ent M 2 0 = S := ⟨_, rfl⟩
  obtain ⟨Svv, hSvv⟩ : ∃ S, ent M 0 2 = S := ⟨_, rfl⟩
  obtain ⟨Suv, hSuv⟩ : ∃ S, ent M 1 1 = S := ⟨_, rfl⟩
  rw [hS, hSu, hSv, hSuu, hSvv, hSuv]
  obtain ⟨J00, h00⟩ : ∃ x, Su.dot Su + (S - P).dot Suu = x := ⟨_, rfl⟩
  obtain ⟨J01, h01⟩ : ∃ x, Su.dot Sv + (S - P).dot Suv = x := ⟨_, rfl⟩
  obtain ⟨J11, h11⟩ : ∃ x, Sv.dot Sv + (S - P).dot Svv = x := ⟨_, rfl⟩
  obtain ⟨K0, hK0⟩ : ∃ x, Su.dot (S - P) = x := ⟨_, rfl⟩
  obtain ⟨K1, hK1⟩ : ∃ x, Sv.dot (S - P) = x := ⟨_, rfl⟩
  rw [h00, h01, h11, hK0, hK1]
  split_ifs with h1 h2
  · exact Runs.ok (Or.inl ht)
  · exact Runs.ok (Or.inl ht)
  · have hd : J00 * J11 - J01 * J01 ≠ 0 := by
      intro h0
      rw [h0, abs_zero] at h2
      exact h2 ((almost_zero_iff (le_refl _)).mpr (by norm_num))
    rw [fdiv_ok hd, ok_bind, fdiv_ok hd, ok_bind]
    split_ifs with h3
    · refine Runs.ok (Or.inr ⟨rfl, M, e, ?_⟩)
      rw [hS, hSu, hSv, hSuu, hSvv, hSuv, h00, h01, h11, hK0, hK1]
      simp only [add_sub_cancel_left]
      refine ⟨?_, ?_, (almost_zero_iff (length_nonneg' _)).mp h3⟩
      · rw [← mul_div_assoc, ← mul_div_assoc, ← add_div, div_eq_iff hd]; ring
      · rw [← mul_div_assoc, ← mul_div_assoc, ← add_div, div_eq_iff hd]; ring
    · obtain ⟨x, ex, hx⟩ := hU (t.1 + (J01 * K1 - J11 * K0) / (J00 * J11 - J01 * J01))
      obtain ⟨y, ey, hy⟩ := hV (t.2 + (J01 * K0 - J00 * K1) / (J00 * J11 - J01 * J01))
      rw [ex, ok_bind, ey, ok_bind]
      exact Runs.ok (Or.inl ⟨hx, hy⟩)

theorem backInto_run {a b : ℝ} (h : a < b) (cl : Bool) (x : ℝ) : Runs (backInto cl a b x) (fun t => a ≤ t ∧ t ≤ b) := by
  unfold backInto
  cases cl
  · exact Runs.ok ⟨le_max_left _ _, max_le h.le (min_le_left _ _)⟩
  · exact wrapParam_run h x

/-- the Newton loop on a surface of degree at least two with positive weights -/
theorem newtonLoopS_run {c : NurbsSurface ℝ} {p q n m : ℕ} (w : WellFormedS c p q n m) (he : EndsSeparatedS c p q n m)
    (hw : ∀ i j, i ≤ n → j ≤ m → 0 < (ent c.cps i j).w) (hp : 2 ≤ p) (hq : 2 ≤ q) (P : XYZ ℝ) {wU wV : ℝ → Res ℝ}
    (hU : ∀ x, Runs (wU x) (fun t => nth c.knotsU p ≤ t ∧ t ≤ nth c.knotsU (n + 1))) (hV : ∀ x, Runs (wV x) (fun t => nth c.knotsV q ≤ t ∧ t ≤ nth c.knotsV (m + 1)))
    {t0 : ℝ × ℝ} (h0 : InDomain c p q n m t0.1 t0.2) :
    Runs (newtonLoopS c P wU wV t0) (fun r => InDomain c p q n m r.1.1 r.1.2 ∨ ∃ T0 : ℝ × ℝ, InDomain c p q n m T0.1 T0.2 ∧ SmallStepS c P T0 r.1) := by
  unfold newtonLoopS
  refine (Runs.forN (m := 0) (n := 20) (fun _ (r : (ℝ × ℝ) × Bool) => InDomain c p q n m r.1.1 r.1.2 ∨
    (r.2 = true ∧ ∃ T0 : ℝ × ℝ, InDomain c p q n m T0.1 T0.2 ∧ SmallStepS c P T0 r.1)) rfl rfl (by omega) (Or.inl h0) ?_).mono (fun _ h => h.imp_right (fun h => h.2))
  rintro i ⟨t, d⟩ - - h
  dsimp only at h ⊢
  split_ifs with hdn
  · exact Runs.ok h
  · have ht : InDomain c p q n m t.1 t.2 := h.resolve_right (fun h => hdn h.1)
    obtain ⟨su, -, hsu⟩ := getKnotSpanIndex_isSpan w.knotsU w.pn w.sortedU he.u ht.u0 ht.u1
    obtain ⟨sv, -, hsv⟩ := getKnotSpanIndex_isSpan w.knotsV w.qm w.sortedV he.v ht.v0 ht.v1
    obtain ⟨M, e, hM, -⟩ := C67_leibniz w he ht (d := 2) (by omega) hp hq hsu hsv (surfaceWeight_pos w he ht hw).ne'
    refine (newtonRoundS_run (M := M) hU hV ⟨⟨ht.u0, ht.u1⟩, ht.v0, ht.v1⟩ e hM).mono ?_
    rintro r (h | ⟨h1, h2⟩)
    · exact Or.inl ⟨h.1.1, h.1.2, h.2.1, h.2.2⟩
    · exact Or.inr ⟨h1, t, ht, h2⟩

/-- everything before the Newton loop -/
theorem getParamOnSurface_start {c : NurbsSurface ℝ} {p q n m : ℕ} (w : WellFormedS c p q n m) (he : EndsSeparatedS c p q n m)
    (hcU : ClampedEnds (nth c.knotsU) p n) (hcV : ClampedEnds (nth c.knotsV) q m) (P : XYZ ℝ) :
    ∃ bU bV t0, isClosedSurface c true = ok bU ∧ isClosedSurface c false = ok bV ∧ InDomain c p q n m t0.1 t0.2 ∧
      getParamOnSurface c P = (newtonLoopS c P (backInto bU (nth c.knotsU p) (nth c.knotsU (n + 1))) (backInto bV (nth c.knotsV q) (nth c.knotsV (m + 1))) t0) >>= fun r => ok r.1 := by
  have lU := w.knotsU
  have lV := w.knotsV
  have hpn := w.pn
  have hqm := w.qm
  obtain ⟨⟨bU, eU⟩, bV, eV⟩ := isClosedSurface_runs w he hcU hcV
  obtain ⟨pts, params, et, l1, hd, hcov, hlast⟩ := C91_tessellate_partial w he hcU hcV
  have ltU := dirLt hpn (wfS_monoU w) he.u
  have ltV := dirLt hqm (wfS_monoV w) he.v
  obtain ⟨x, hx, hx1, -⟩ := hcov (nth c.knotsU p) (nth c.knotsV q) ⟨le_refl _, ltU.le, le_refl _, ltV.le⟩
  have h2 : 2 ≤ params.length := by
    rcases params with _ | ⟨a, _ | ⟨b, l⟩⟩
    · cases hx
    · rw [List.mem_singleton] at hx hlast
      rw [← hlast] at hx
      rw [hx] at hx1
      exact absurd hx1 (not_le.mpr ltU)
    · simp
  obtain ⟨t0, e0, h0⟩ := nearestStartS_run (P := P) l1 h2 (fun k hk => ⟨⟨(hd k hk).1.u0, (hd k hk).1.u1⟩, (hd k hk).1.v0, (hd k hk).1.v1⟩)
  refine ⟨bU, bV, t0, eU, eV, ⟨h0.1.1, h0.1.2, h0.2.1, h0.2.2⟩, ?_⟩
  unfold getParamOnSurface
  rw [vget_nth (i := 0) (k := 0) rfl (by omega), ok_bind, vget_nth (k := n + p + 1) (by omega) (by omega), ok_bind, vget_nth (i := 0) (k := 0) rfl (by omega), ok_bind,
    vget_nth (k := m + q + 1) (by omega) (by omega), ok_bind, hcU.first, ← hcU.last, hcV.first, ← hcV.last, eU, ok_bind, eV, ok_bind, et, ok_bind]
  dsimp only
  rw [e0, ok_bind]

/-- C149 (partial): on every valid surface of degree at least two in both directions with positive weights, clamped at both ends, the search ends and returns a pair of parameters for every
point; the pair is in the domain, or it is the result of one last Newton step of at most about 1e-6 that left it.  Missing from the full statement: that the point is the nearest, which is
false (`C149_nearest_violated`). -/
theorem C149_domain_partial {c : NurbsSurface ℝ} {p q n m : ℕ} (w : WellFormedS c p q n m) (he : EndsSeparatedS c p q n m)
    (hcU : ClampedEnds (nth c.knotsU) p n) (hcV : ClampedEnds (nth c.knotsV) q m)
    (hw : ∀ i j, i ≤ n → j ≤ m → 0 < (ent c.cps i j).w) (hp : 2 ≤ p) (hq : 2 ≤ q) (P : XYZ ℝ) :
    ∃ T, getParamOnSurface c P = ok T ∧ (InDomain c p q n m T.1 T.2 ∨ ∃ T0 : ℝ × ℝ, InDomain c p q n m T0.1 T0.2 ∧ SmallStepS c P T0 T) := by
  obtain ⟨bU, bV, t0, -, -, h0, e⟩ := getParamOnSurface_start w he hcU hcV P
  have ltU := dirLt w.pn (wfS_monoU w) he.u
  have ltV := dirLt w.qm (wfS_monoV w) he.v
  obtain ⟨r, er, hr⟩ := newtonLoopS_run w he hw hp hq P (backInto_run ltU bU) (backInto_run ltV bV) h0
  rw [e, er]
  exact ⟨r.1, rfl, hr⟩

/-- C149 is violated by every surface that is of degree one in a direction (planes, cylinders, ruled surfaces): the search throws an exception, whatever the point. -/
theorem C149_linear_violated {c : NurbsSurface ℝ} {p q n m : ℕ} (w : WellFormedS c p q n m) (he : EndsSeparatedS c p q n m)
    (hcU : ClampedEnds (nth c.knotsU) p n) (hcV : ClampedEnds (nth c.knotsV) q m) (h : p = 1 ∨ q = 1) (P : XYZ ℝ) :
    getParamOnSurface c P = invalidArg := by
  obtain ⟨bU, bV, t0, -, -, h0, e⟩ := getParamOnSurface_start w he hcU hcV P
  rw [e]
  unfold newtonLoopS
  rw [forI_head (by omega), if_neg (by simp)]
  unfold newtonRoundS
  rw [order2_rejected w he h0 h]
  rfl

/-! ### Plane patches -/

/-- the parallelogram `a + u b + v c`, `0 ≤ u, v ≤ 1`, as a biquadratic surface -/
noncomputable def planePatch (a b c : XYZ ℝ) : NurbsSurface ℝ :=
  { degreeU := 2, degreeV := 2, knotsU := [0, 0, 0, 1, 1, 1], knotsV := [0, 0, 0, 1, 1, 1]
    cps := (List.range 3).map fun i => (List.range 3).map fun j => XYZW.ofXYZ (a + ((i : ℝ) / 2) • b + ((j : ℝ) / 2) • c) 1 }

theorem planePatch_wf (a b c : XYZ ℝ) : WellFormedS (planePatch a b c) 2 2 2 2 where
  degreeU := rfl
  degreeV := rfl
  posU := by decide
  posV := by decide
  le7U := by decide
  le7V := by decide
  cps := ⟨rfl, fun i hi => by have : i < 3 := hi; interval_cases i <;> rfl⟩
  pn := by decide
  qm := by decide
  knotsU := rfl
  knotsV := rfl
  sortedU := isValidKnotVector_nth.mp (by rw [isValidKnotVector_iff]; simp [planePatch])
  sortedV := isValidKnotVector_nth.mp (by rw [isValidKnotVector_iff]; simp [planePatch])

theorem planePatch_ends (a b c : XYZ ℝ) : EndsSeparatedS (planePatch a b c) 2 2 2 2 := ⟨bez2_ends, bez2_ends⟩

theorem planePatch_clamped (a b c : XYZ ℝ) : ClampedEnds (nth (planePatch a b c).knotsU) 2 2 ∧ ClampedEnds (nth (planePatch a b c).knotsV) 2 2 := ⟨⟨rfl, rfl⟩, rfl, rfl⟩

theorem planePatch_ent (a b c : XYZ ℝ) {i j : ℕ} (hi : i ≤ 2) (hj : j ≤ 2) : ent (planePatch a b c).cps i j = XYZW.ofXYZ (a + ((i : ℝ) / 2) • b + ((j : ℝ) / 2) • c) 1 := by
  interval_cases i <;> interval_cases j <;> rfl

theorem planePatch_span {t : ℝ} (h0 : 0 ≤ t) (h1 : t ≤ 1) : IsSpan (nth ([0, 0, 0, 1, 1, 1] : List ℝ)) 2 2 t 2 :=
  ⟨le_refl _, le_refl _, zero_lt_one, h0, h1.lt_or_eq.imp id (fun h => ⟨h, rfl⟩)⟩

theorem planePatch_dom {a b c : XYZ ℝ} {u v : ℝ} : InDomain (planePatch a b c) 2 2 2 2 u v ↔ (0 ≤ u ∧ u ≤ 1) ∧ 0 ≤ v ∧ v ≤ 1 :=
  ⟨fun h => ⟨⟨h.u0, h.u1⟩, h.v0, h.v1⟩, fun h => ⟨h.1.1, h.1.2, h.2.1, h.2.2⟩⟩

theorem planePatch_weights (a b c : XYZ ℝ) : ∀ i j, i ≤ 2 → j ≤ 2 → 0 < (ent (planePatch a b c).cps i j).w := by
  intro i j hi hj
  rw [planePatch_ent a b c hi hj]
  exact zero_lt_one

theorem planePatch_deriv (a b c : XYZ ℝ) (k l : ℕ) (hkl : k + l ≤ 2) (u v : ℝ) :
    surfaceDeriv (nth (planePatch a b c).knotsU) (nth (planePatch a b c).knotsV) 2 2 2 2 2 2 (ent (planePatch a b c).cps) k l u v =
      if k = 0 ∧ l = 0 then XYZW.ofXYZ (a + u • b + v • c) 1 else if k = 1 ∧ l = 0 then ⟨b.x, b.y, b.z, 0⟩ else if k = 0 ∧ l = 1 then ⟨c.x, c.y, c.z, 0⟩ else 0 := by
  unfold surfaceDeriv
  simp only [sum_range_succ, sum_range_zero, planePatch_ent a b c (show 0 ≤ 2 by omega) (show 0 ≤ 2 by omega), planePatch_ent a b c (show 0 ≤ 2 by omega) (show 1 ≤ 2 by omega),
    planePatch_ent a b c (show 0 ≤ 2 by omega) (show 2 ≤ 2 by omega), planePatch_ent a b c (show 1 ≤ 2 by omega) (show 0 ≤ 2 by omega), planePatch_ent a b c (show 1 ≤ 2 by omega) (show 1 ≤ 2 by omega),
    planePatch_ent a b c (show 1 ≤ 2 by omega) (show 2 ≤ 2 by omega), planePatch_ent a b c (show 2 ≤ 2 by omega) (show 0 ≤ 2 by omega), planePatch_ent a b c (show 2 ≤ 2 by omega) (show 1 ≤ 2 by omega),
    planePatch_ent a b c (show 2 ≤ 2 by omega) (show 2 ≤ 2 by omega)]
  simp only [planePatch, (bez2_dN _).1, (bez2_dN _).2.1, (bez2_dN _).2.2]
  have : (k = 0 ∧ l = 0) ∨ (k = 1 ∧ l = 0) ∨ (k = 0 ∧ l = 1) ∨ (k = 2 ∧ l = 0) ∨ (k = 1 ∧ l = 1) ∨ (k = 0 ∧ l = 2) := by omega
  rcases this with ⟨rfl, rfl⟩ | ⟨rfl, rfl⟩ | ⟨rfl, rfl⟩ | ⟨rfl, rfl⟩ | ⟨rfl, rfl⟩ | ⟨rfl, rfl⟩ <;> ext <;> simp [XYZW.ofXYZ] <;> ring

/-- the derivatives of a plane patch -/
theorem planePatch_ders (a b c : XYZ ℝ) {u v : ℝ} (hu : 0 ≤ u ∧ u ≤ 1) (hv : 0 ≤ v ∧ v ≤ 1) :
    ∃ M, NurbsSurface.rationalDerivatives (planePatch a b c) 2 u v = ok M ∧ IsMat M 3 3 ∧ ent M 0 0 = a + u • b + v • c ∧ ent M 1 0 = b ∧ ent M 0 1 = c ∧ ent M 2 0 = 0 ∧ ent M 0 2 = 0 ∧ ent M 1 1 = 0 := by
  have w := planePatch_wf a b c
  have he := planePatch_ends a b c
  have dom : InDomain (planePatch a b c) 2 2 2 2 u v := planePatch_dom.mpr ⟨hu, hv⟩
  have hsu := planePatch_span hu.1 hu.2
  have hsv := planePatch_span hv.1 hv.2
  obtain ⟨M, e, hM, hk⟩ := C67_leibniz w he dom (d := 2) (by omega) (by omega) (by omega) hsu hsv (surfaceWeight_pos w he dom (planePatch_weights a b c)).ne'
  have k00 := hk 0 0 (by omega)
  have k10 := hk 1 0 (by omega)
  have k01 := hk 0 1 (by omega)
  have k20 := hk 2 0 (by omega)
  have k02 := hk 0 2 (by omega)
  have k11 := hk 1 1 (by omega)
  have rw0 : ∀ x : XYZ ℝ, (XYZW.ofXYZ x 1).w = 1 := fun x => rfl
  have rw1 : ∀ x : XYZ ℝ, (XYZW.ofXYZ x 1).raw = x := fun x => by ext <;> simp [XYZW.ofXYZ, XYZW.raw]
  have d00 := planePatch_deriv a b c 0 0 (by omega) u v
  have d10 := planePatch_deriv a b c 1 0 (by omega) u v
  have d01 := planePatch_deriv a b c 0 1 (by omega) u v
  have d20 := planePatch_deriv a b c 2 0 (by omega) u v
  have d02 := planePatch_deriv a b c 0 2 (by omega) u v
  have d11 := planePatch_deriv a b c 1 1 (by omega) u v
  norm_num at d00 d10 d01 d20 d02 d11
  simp only [sum_range_succ, sum_range_zero, d00, d10, d01, d20, d02, d11, rw0, rw1] at k00 k10 k01 k20 k02 k11
  simp [XYZW.raw] at k00 k10 k01 k20 k02 k11
  refine ⟨M, e, hM, k00, k10, k01, ?_, ?_, ?_⟩
  · rw [k20]; rfl
  · rw [k02]; rfl
  · rw [k11]; rfl

theorem planePatch_point (a b c : XYZ ℝ) {u v : ℝ} (hu : 0 ≤ u ∧ u ≤ 1) (hv : 0 ≤ v ∧ v ≤ 1) :
    NurbsSurface.pointOnSurface (planePatch a b c) u v = ok (a + u • b + v • c) := by
  have w := planePatch_wf a b c
  have he := planePatch_ends a b c
  have dom : InDomain (planePatch a b c) 2 2 2 2 u v := planePatch_dom.mpr ⟨hu, hv⟩
  have d00 := planePatch_deriv a b c 0 0 (by omega) u v
  rw [if_pos ⟨rfl, rfl⟩, C67_zeroth (wfS_monoU w) (wfS_monoV w) (planePatch_span hu.1 hu.2) (planePatch_span hv.1 hv.2)] at d00
  unfold NurbsSurface.pointOnSurface
  rw [C33_eval w he dom, ok_bind, d00, ofXYZ_one_toXYZ]

/-- one Newton round on a plane patch leads to the foot of the perpendicular, whose parameters are `(s, r)` -/
theorem planePatch_round {a b c P : XYZ ℝ} {s r : ℝ} (hD : 1 / 1000 ≤ b.dot b * c.dot c - b.dot c * b.dot c) (h1 : b.dot (a + s • b + r • c - P) = 0) (h2 : c.dot (a + s • b + r • c - P) = 0)
    {t : ℝ × ℝ} (hu : 0 ≤ t.1 ∧ t.1 ≤ 1) (hv : 0 ≤ t.2 ∧ t.2 ≤ 1) (wU wV : ℝ → Res ℝ) :
    newtonRoundS (planePatch a b c) P wU wV t =
      if isAlmostEqualTo (a + t.1 • b + t.2 • c - P).length 0 then ok (t, true)
      else if isAlmostEqualTo ((s - t.1) • b + (r - t.2) • c).length 0 then ok ((s, r), true)
      else (do
        let x ← wU s
        let y ← wV r
        ok ((x, y), false)) := by
  obtain ⟨M, e, hM, m00, m10, m01, m20, m02, m11⟩ := planePatch_ders a b c hu hv
  have g : ∀ (i j : ℕ), i < 3 → j < 3 → mget M (i : ℤ) (j : ℤ) = ok (ent M i j) := fun i j hi hj => mget_ent hM rfl rfl hi hj
  have g00 := g 0 0 (by omega) (by omega)
  have g10 := g 1 0 (by omega) (by omega)
  have g01 := g 0 1 (by omega) (by omega)
  have g20 := g 2 0 (by omega) (by omega)
  have g02 := g 0 2 (by omega) (by omega)
  have g11 := g 1 1 (by omega) (by omega)
  norm_cast at g00 g10 g01 g20 g02 g11
  unfold newtonRoundS
  rw [e, ok_bind, g00, ok_bind, g10, ok_bind, g01, ok_bind, g20, ok_bind, g02, ok_bind, g11, ok_bind, m00, m10, m01, m20, m02, m11]
  dsimp only
  have z : ∀ x : XYZ ℝ, x.dot 0 = 0 := fun x => by simp [XYZ.dot]
  simp only [z, add_zero]
  have k0 : b.dot (a + t.1 • b + t.2 • c - P) = (t.1 - s) * b.dot b + (t.2 - r) * b.dot c := by
    have : b.dot (a + t.1 • b + t.2 • c - P) = b.dot (a + s • b + r • c - P) + ((t.1 - s) * b.dot b + (t.2 - r) * b.dot c) := by simp [XYZ.dot]; ring
    rw [this, h1, zero_add]
  have k1 : c.dot (a + t.1 • b + t.2 • c - P) = (t.1 - s) * b.dot c + (t.2 - r) * c.dot c := by
    have : c.dot (a + t.1 • b + t.2 • c - P) = c.dot (a + s • b + r • c - P) + ((t.1 - s) * b.dot c + (t.2 - r) * c.dot c) := by simp [XYZ.dot]; ring
    rw [this, h2, zero_add]
  rw [k0, k1]
  obtain ⟨E, hE⟩ : ∃ x, b.dot b = x := ⟨_, rfl⟩
  obtain ⟨F, hF⟩ : ∃ x, b.dot c = x := ⟨_, rfl⟩
  obtain ⟨G, hG⟩ : ∃ x, c.dot c = x := ⟨_, rfl⟩
  rw [hE, hF, hG] at hD ⊢
  have hd : E * G - F * F ≠ 0 := by linarith
  have hna : ¬ isAlmostEqualTo |E * G - F * F| 0 = true := by
    rw [almost_zero_iff (abs_nonneg _), abs_of_nonneg (by linarith)]
    linarith
  have d1 : (F * ((t.1 - s) * F + (t.2 - r) * G) - G * ((t.1 - s) * E + (t.2 - r) * F)) / (E * G - F * F) = s - t.1 := by
    rw [div_eq_iff hd]; ring
  have d2 : (F * ((t.1 - s) * E + (t.2 - r) * F) - E * ((t.1 - s) * F + (t.2 - r) * G)) / (E * G - F * F) = r - t.2 := by
    rw [div_eq_iff hd]; ring
  rw [fdiv_ok hd, ok_bind, fdiv_ok hd, ok_bind, d1, d2, if_neg hna, add_sub_cancel, add_sub_cancel]

theorem backInto_id {lo hi x : ℝ} (cl : Bool) (h0 : lo ≤ x) (h1 : x ≤ hi) : backInto cl lo hi x = ok x := by
  unfold backInto
  cases cl
  · simp [h0, h1]
  · rw [if_pos rfl]
    unfold wrapParam
    have e1 : ∀ k, whileF (fun t => ok (decide (t < lo))) (fun t => ok (t + (hi - lo))) k x = ok x := by
      intro k
      cases k <;> simp [whileF, not_lt.mpr h0]
    have e2 : ∀ k, whileF (fun t => ok (decide (t > hi))) (fun t => ok (t - (hi - lo))) k x = ok x := by
      intro k
      cases k <;> simp [whileF, not_lt.mpr h1]
    dsimp only
    rw [e1, ok_bind, e2]

/-- C149 (plane patches): for every parallelogram whose sides are not parallel (the square of its area is at least 1/1000) and every point whose perpendicular meets the parallelogram, the search
returns the parameters of the foot of the perpendicular, or parameters at which the surface is at the point itself, up to about 1e-6. -/
theorem C149_plane {a b c P : XYZ ℝ} {s r : ℝ} (hD : 1 / 1000 ≤ b.dot b * c.dot c - b.dot c * b.dot c) (h1 : b.dot (a + s • b + r • c - P) = 0) (h2 : c.dot (a + s • b + r • c - P) = 0)
    (hs : 0 ≤ s ∧ s ≤ 1) (hr : 0 ≤ r ∧ r ≤ 1) :
    ∃ T : ℝ × ℝ, getParamOnSurface (planePatch a b c) P = ok T ∧ (0 ≤ T.1 ∧ T.1 ≤ 1) ∧ (0 ≤ T.2 ∧ T.2 ≤ 1) ∧
      (T = (s, r) ∨ (a + T.1 • b + T.2 • c - P).length ≤ 1 / 1000000 * (1 + (a + T.1 • b + T.2 • c - P).length)) := by
  obtain ⟨bU, bV, t0, -, -, h0, e⟩ := getParamOnSurface_start (planePatch_wf a b c) (planePatch_ends a b c) (planePatch_clamped a b c).1 (planePatch_clamped a b c).2 P
  rw [planePatch_dom] at h0
  have kn : nth (planePatch a b c).knotsU 2 = 0 ∧ nth (planePatch a b c).knotsU (2 + 1) = 1 ∧ nth (planePatch a b c).knotsV 2 = 0 ∧ nth (planePatch a b c).knotsV (2 + 1) = 1 := ⟨rfl, rfl, rfl, rfl⟩
  rw [kn.1, kn.2.1, kn.2.2.1, kn.2.2.2] at e
  obtain ⟨Good, hG⟩ : ∃ Good : ℝ × ℝ → Prop, Good = fun T => T = (s, r) ∨ (a + T.1 • b + T.2 • c - P).length ≤ 1 / 1000000 * (1 + (a + T.1 • b + T.2 • c - P).length) := ⟨_, rfl⟩
  have hloop : Runs (newtonLoopS (planePatch a b c) P (backInto bU 0 1) (backInto bV 0 1) t0) (fun x => ((0 ≤ x.1.1 ∧ x.1.1 ≤ 1) ∧ 0 ≤ x.1.2 ∧ x.1.2 ≤ 1) ∧ Good x.1) := by
    unfold newtonLoopS
    refine (Runs.forN (m := 0) (n := 20) (fun i (x : (ℝ × ℝ) × Bool) => ((0 ≤ x.1.1 ∧ x.1.1 ≤ 1) ∧ 0 ≤ x.1.2 ∧ x.1.2 ≤ 1) ∧ (i = 0 ∧ x.2 = false ∨ x.1 = (s, r) ∨ x.2 = true ∧ Good x.1))
      rfl rfl (by omega) ⟨h0, Or.inl ⟨rfl, rfl⟩⟩ ?_).mono ?_
    · rintro i ⟨t, d⟩ - - ⟨ht, h⟩
      dsimp only at ht h ⊢
      split_ifs with hdn
      · refine Runs.ok ⟨ht, ?_⟩
        rcases h with h | h | h
        · rw [h.2] at hdn; cases hdn
        · exact Or.inr (Or.inl h)
        · exact Or.inr (Or.inr h)
      · rw [planePatch_round hD h1 h2 ht.1 ht.2]
        split_ifs with g1 g2
        · refine Runs.ok ⟨ht, Or.inr (Or.inr ⟨rfl, ?_⟩)⟩
          rw [hG]
          exact Or.inr ((almost_zero_iff (length_nonneg' _)).mp g1)
        · exact Runs.ok ⟨⟨hs, hr⟩, Or.inr (Or.inl rfl)⟩
        · rw [backInto_id bU hs.1 hs.2, ok_bind, backInto_id bV hr.1 hr.2, ok_bind]
          exact Runs.ok ⟨⟨hs, hr⟩, Or.inr (Or.inl rfl)⟩
    · rintro x ⟨h1, h | h | h⟩
      · omega
      · exact ⟨h1, by rw [hG]; exact Or.inl h⟩
      · exact ⟨h1, h.2⟩
  obtain ⟨x, ex, hx1, hx2⟩ := hloop
  rw [hG] at hx2
  exact ⟨x.1, by rw [e, ex]; rfl, hx1.1, hx1.2, hx2⟩

theorem threePoints_open {c : NurbsCurve ℝ} {p : ℕ} {x0 : ℝ} (w : WellFormed c p 2) (he : EndsSeparated (nth c.knots) p 2) (hc : ClampedEnds (nth c.knots) p 2)
    (h0 : 0 ≤ x0) (h1 : x0 ≤ 1) (hx : ∀ i, i ≤ 2 → (nth c.cps i).toXYZ.x = x0 + (i : ℝ) / 2) : isClosedCurve c = ok false := by
  obtain ⟨-, -, b, e, hb⟩ := isClosed_run w he hc
  rw [e]
  congr 1
  rw [← Bool.not_eq_true, hb]
  have x0' := hx 0 (by omega)
  have x1 := hx 1 (by omega)
  have x2 := hx 2 (by omega)
  norm_num at x0' x1 x2
  have far : ∀ a b : XYZ ℝ, 0 ≤ a.x → a.x ≤ 2 → 0 ≤ b.x → b.x ≤ 2 → 1 / 2 ≤ a.x - b.x → ¬ Near a b := by
    intro a b h1 h2 h3 h4 h5 h
    have h := h.1
    rw [abs_of_nonneg h1, abs_of_nonneg h3, abs_of_nonneg (by linarith)] at h
    have := max_le h2 h4
    linarith
  rintro (h | ⟨k, hk, -, h⟩)
  · have hd : 1 ≤ (nth c.cps 0).toXYZ.distance (nth c.cps 2).toXYZ := by
      unfold XYZ.distance
      apply Real.le_sqrt_of_sq_le
      rw [x0', x2]
      nlinarith [sq_nonneg ((nth c.cps 0).toXYZ.y - (nth c.cps 2).toXYZ.y), sq_nonneg ((nth c.cps 0).toXYZ.z - (nth c.cps 2).toXYZ.z)]
    linarith
  · have h := h 0 (by omega)
    rcases (by omega : k = 0 ∨ k = 1) with rfl | rfl
    · exact far _ _ (by norm_num [x2]; linarith) (by norm_num [x2]; linarith) (by norm_num [x0']; linarith) (by norm_num [x0']; linarith) (by norm_num [x2, x0']) h
    · exact far _ _ (by norm_num [x1]; linarith) (by norm_num [x1]; linarith) (by norm_num [x0']; linarith) (by norm_num [x0']; linarith) (by norm_num [x1, x0']) h

/-- a sheared square: the points `(u + v, v, 0)` -/
noncomputable def shearPatch : NurbsSurface ℝ := planePatch 0 ⟨1, 0, 0⟩ ⟨1, 1, 0⟩

theorem shear_open : isClosedSurface shearPatch true = ok false ∧ isClosedSurface shearPatch false = ok false := by
  have w := planePatch_wf 0 ⟨1, 0, 0⟩ ⟨1, 1, 0⟩
  have he := planePatch_ends 0 ⟨1, 0, 0⟩ ⟨1, 1, 0⟩
  constructor
  · have run : ∀ j, j ≤ 2 → isClosedCurve (column shearPatch 2 j) = ok false := by
      intro j hj
      refine threePoints_open (x0 := (j : ℝ) / 2) (column_wf (j := j) w) he.u (planePatch_clamped 0 ⟨1, 0, 0⟩ ⟨1, 1, 0⟩).1 (by positivity) ?_ ?_
      · have : (j : ℝ) ≤ 2 := by exact_mod_cast hj
        linarith
      · intro i hi
        rw [show nth (column shearPatch 2 j).cps i = ent shearPatch.cps i j from nth_range hi]
        unfold shearPatch
        rw [planePatch_ent _ _ _ hi hj, ofXYZ_one_toXYZ]
        simp
        ring
    obtain ⟨r, e, hr⟩ := isClosedSurface_u w (b := fun _ => false) run
    unfold shearPatch
    rw [e]
    congr 1
    rw [← Bool.not_eq_true, hr]
    intro h
    exact absurd (h 0 (by omega)) (by simp)
  · have run : ∀ j, j ≤ 2 → isClosedCurve (rowCurve shearPatch 2 j) = ok false := by
      intro j hj
      refine threePoints_open (x0 := (j : ℝ) / 2) (rowCurve_wf (i := j) w) he.v (planePatch_clamped 0 ⟨1, 0, 0⟩ ⟨1, 1, 0⟩).2 (by positivity) ?_ ?_
      · have : (j : ℝ) ≤ 2 := by exact_mod_cast hj
        linarith
      · intro i hi
        rw [show nth (rowCurve shearPatch 2 j).cps i = ent shearPatch.cps j i from nth_range hi]
        unfold shearPatch
        rw [planePatch_ent _ _ _ hj hi, ofXYZ_one_toXYZ]
        simp
    obtain ⟨r, e, hr⟩ := isClosedSurface_v w (b := fun _ => false) run
    unfold shearPatch
    rw [e]
    congr 1
    rw [← Bool.not_eq_true, hr]
    intro h
    exact absurd (h 0 (by omega)) (by simp)

theorem length_ge_y {a : XYZ ℝ} (h : 1 ≤ a.y * a.y) : ¬ isAlmostEqualTo a.length 0 = true := by
  rw [almost_zero_iff (length_nonneg' _)]
  have : 1 ≤ a.length := by
    unfold XYZ.length
    apply Real.le_sqrt_of_sq_le
    nlinarith [sq_nonneg a.x, sq_nonneg a.z]
  linarith

/-- C149 is violated: on a sheared square, for the point `(1/2, -1, 0)`, the search returns the corner `(1, 0)`, at the distance `√5/2`, although the point of the surface at `(1/2, 0)` is at the distance 1: the
Newton iterates are clamped in each parameter separately, whatever the start. -/
theorem C149_nearest_violated : getParamOnSurface shearPatch ⟨1 / 2, -1, 0⟩ = ok (1, 0) ∧
    NurbsSurface.pointOnSurface shearPatch 1 0 = ok ⟨1, 0, 0⟩ ∧ NurbsSurface.pointOnSurface shearPatch (1 / 2) 0 = ok ⟨1 / 2, 0, 0⟩ ∧
    (⟨1 / 2, 0, 0⟩ : XYZ ℝ).distance ⟨1 / 2, -1, 0⟩ = 1 ∧ (1 : ℝ) < (⟨1, 0, 0⟩ : XYZ ℝ).distance ⟨1 / 2, -1, 0⟩ := by
  refine ⟨?_, ?_, ?_, ?_, ?_⟩
  · obtain ⟨bU, bV, t0, eU, eV, h0, e⟩ := getParamOnSurface_start (planePatch_wf 0 ⟨1, 0, 0⟩ ⟨1, 1, 0⟩) (planePatch_ends 0 ⟨1, 0, 0⟩ ⟨1, 1, 0⟩) (planePatch_clamped 0 ⟨1, 0, 0⟩ ⟨1, 1, 0⟩).1
      (planePatch_clamped 0 ⟨1, 0, 0⟩ ⟨1, 1, 0⟩).2 ⟨1 / 2, -1, 0⟩
    obtain rfl : false = bU := Res.ok.inj (shear_open.1.symm.trans eU)
    obtain rfl : false = bV := Res.ok.inj (shear_open.2.symm.trans eV)
    rw [planePatch_dom] at h0
    have kn : nth (planePatch 0 ⟨1, 0, 0⟩ ⟨1, 1, 0⟩).knotsU 2 = 0 ∧ nth (planePatch 0 ⟨1, 0, 0⟩ ⟨1, 1, 0⟩).knotsU (2 + 1) = 1 ∧
      nth (planePatch 0 ⟨1, 0, 0⟩ ⟨1, 1, 0⟩).knotsV 2 = 0 ∧ nth (planePatch 0 ⟨1, 0, 0⟩ ⟨1, 1, 0⟩).knotsV (2 + 1) = 1 := ⟨rfl, rfl, rfl, rfl⟩
    rw [kn.1, kn.2.1, kn.2.2.1, kn.2.2.2] at e
    have hloop : Runs (newtonLoopS (planePatch 0 ⟨1, 0, 0⟩ ⟨1, 1, 0⟩) ⟨1 / 2, -1, 0⟩ (backInto false 0 1) (backInto false 0 1) t0) (fun x => x.1 = (1, 0)) := by
      unfold newtonLoopS
      refine (Runs.forN (m := 0) (n := 20) (fun i (x : (ℝ × ℝ) × Bool) => x.2 = false ∧ ((0 ≤ x.1.1 ∧ x.1.1 ≤ 1) ∧ 0 ≤ x.1.2 ∧ x.1.2 ≤ 1) ∧ (i = 0 ∨ x.1 = (1, 0)))
        rfl rfl (by omega) ⟨rfl, h0, Or.inl rfl⟩ ?_).mono ?_
      · rintro i ⟨t, d⟩ - - ⟨hd, ht, -⟩
        dsimp only at ht hd ⊢
        rw [hd, if_neg (by simp), planePatch_round (s := 3 / 2) (r := -1) (by norm_num [XYZ.dot]) (by norm_num [XYZ.dot]) (by norm_num [XYZ.dot]) ht.1 ht.2]
        have n1 : ¬ isAlmostEqualTo ((0 : XYZ ℝ) + t.1 • (⟨1, 0, 0⟩ : XYZ ℝ) + t.2 • (⟨1, 1, 0⟩ : XYZ ℝ) - ⟨1 / 2, -1, 0⟩).length 0 = true :=
          length_ge_y (by simp; nlinarith [ht.2.1])
        have n2 : ¬ isAlmostEqualTo ((3 / 2 - t.1) • (⟨1, 0, 0⟩ : XYZ ℝ) + (-1 - t.2) • (⟨1, 1, 0⟩ : XYZ ℝ)).length 0 = true :=
          length_ge_y (by simp; nlinarith [ht.2.1])
        rw [if_neg n1, if_neg n2]
        have b1 : backInto false 0 1 (3 / 2) = ok 1 := by unfold backInto; norm_num
        have b2 : backInto false 0 1 (-1) = ok 0 := by unfold backInto; norm_num
        rw [b1, ok_bind, b2, ok_bind]
        exact Runs.ok ⟨rfl, by norm_num, Or.inr rfl⟩
      · rintro x ⟨-, -, h⟩
        exact h.resolve_left (by omega)
    obtain ⟨x, ex, hx⟩ := hloop
    unfold shearPatch
    rw [e, ex, ok_bind, hx]
  · unfold shearPatch
    rw [planePatch_point _ _ _ (by norm_num) (by norm_num)]
    congr 1
    ext <;> simp
  · unfold shearPatch
    rw [planePatch_point _ _ _ (by norm_num) (by norm_num)]
    congr 1
    ext <;> simp
  · norm_num [XYZ.distance]
  · unfold XYZ.distance
    rw [Real.lt_sqrt (by norm_num)]
    norm_num

/-- C149 is not vacuous: a sheared square, and a point above it -/
example : ∃ T : ℝ × ℝ, getParamOnSurface shearPatch ⟨1, 1 / 2, 3⟩ = ok T ∧ T = (1 / 2, 1 / 2) := by
  obtain ⟨T, e, h0, h1, h⟩ := C149_plane (a := 0) (b := ⟨1, 0, 0⟩) (c := ⟨1, 1, 0⟩) (P := ⟨1, 1 / 2, 3⟩) (s := 1 / 2) (r := 1 / 2) (by norm_num [XYZ.dot]) (by norm_num [XYZ.dot]) (by norm_num [XYZ.dot])
    (by norm_num) (by norm_num)
  refine ⟨T, e, h.resolve_right ?_⟩
  have : 3 ≤ ((0 : XYZ ℝ) + T.1 • (⟨1, 0, 0⟩ : XYZ ℝ) + T.2 • (⟨1, 1, 0⟩ : XYZ ℝ) - ⟨1, 1 / 2, 3⟩).length := by
    unfold XYZ.length
    apply Real.le_sqrt_of_sq_le
    simp
    nlinarith [mul_self_nonneg (T.1 + T.2 - 1), mul_self_nonneg (T.2 - 2⁻¹)]
  intro h
  linarith

example : ∃ T, getParamOnSurface (saddle 1) ⟨1, 2, 3⟩ = ok T := by
  obtain ⟨T, e, -⟩ := C149_domain_partial (saddle_wf 1) (saddle_ends 1) ⟨rfl, rfl⟩ ⟨rfl, rfl⟩ (fun i j hi hj => by
    interval_cases i <;> interval_cases j <;> exact zero_lt_one) (le_refl _) (le_refl _) ⟨1, 2, 3⟩
  exact ⟨T, e⟩

/-- the unit square as a bilinear surface -/
noncomputable def unitSquare : NurbsSurface ℝ :=
  { degreeU := 1, degreeV := 1, knotsU := [0, 0, 1, 1], knotsV := [0, 0, 1, 1], cps := [[⟨0, 0, 0, 1⟩, ⟨0, 1, 0, 1⟩], [⟨1, 0, 0, 1⟩, ⟨1, 1, 0, 1⟩]] }

theorem unitSquare_wf : WellFormedS unitSquare 1 1 1 1 ∧ EndsSeparatedS unitSquare 1 1 1 1 :=
  ⟨{ degreeU := rfl, degreeV := rfl, posU := by decide, posV := by decide, le7U := by decide, le7V := by decide,
     cps := ⟨rfl, fun i hi => by have : i < 2 := hi; interval_cases i <;> rfl⟩, pn := by decide, qm := by decide, knotsU := rfl, knotsV := rfl,
     sortedU := isValidKnotVector_nth.mp (by rw [isValidKnotVector_iff]; simp [unitSquare]), sortedV := isValidKnotVector_nth.mp (by rw [isValidKnotVector_iff]; simp [unitSquare]) },
   ⟨(segCurve_wf 0 0).2.1, (segCurve_wf 0 0).2.1⟩⟩

example (P : XYZ ℝ) : getParamOnSurface unitSquare P = invalidArg :=
  C149_linear_violated unitSquare_wf.1 unitSquare_wf.2 ⟨rfl, rfl⟩ ⟨rfl, rfl⟩ (Or.inl rfl) P

end LNLib.Props
