import Verif.Model.Periodic
import Verif.Lemmas.Continuity
import Verif.Props.BasisDers
import Verif.Props.Clamp
import Verif.Props.Closed
import Verif.Props.IsArc
import Verif.Props.KnotVector

/-!
# C126: the periodicity query
-/
set_option linter.unusedSectionVars false

namespace LNLib.Props
open LNLib Res Spec Finset

section
variable {K : Type} [Field K]

theorem Nspan_shift {U : ℕ → K} {d M : ℕ} {δ : K} (h : ∀ j, j ≤ M → U (j + d) = U j + δ) (s : ℕ) (t : K) :
    ∀ q i, i + q + 1 ≤ M → Nspan U (s + d) q (i + d) (t + δ) = Nspan U s q i t := by
  intro q
  induction q with
  | zero =>
    intro i _
    simp only [Nspan]
    by_cases h1 : i = s
    · rw [if_pos h1, if_pos (by omega)]
    · rw [if_neg h1, if_neg (by omega)]
  | succ q ih =>
    intro i hi
    simp only [Nspan]
    rw [show i + d + 1 = i + 1 + d by omega, ih i (by omega), ih (i + 1) (by omega), h i (by omega), h (i + 1) (by omega),
      show i + d + q + 1 = (i + q + 1) + d by omega, h (i + q + 1) (by omega),
      show i + d + q + 2 = (i + q + 2) + d by omega, h (i + q + 2) (by omega)]
    congr 2
    · congr 1 <;> ring
    · congr 1 <;> ring

theorem dN_shift [LinearOrder K] [IsStrictOrderedRing K] {U : ℕ → K} {d M N : ℕ} {δ : K} (hm : MonoTo U N) (hMN : M + d ≤ N)
    (h : ∀ j, j ≤ M → U (j + d) = U j + δ) (s : ℕ) (t : K) :
    ∀ k p i, k ≤ p → i + p + 1 ≤ M → dN U (s + d) p (i + d) k (t + δ) = dN U s p i k t := by
  intro k
  induction k with
  | zero =>
    intro p i _ hi
    rw [dN_zero, dN_zero, Nspan_shift h s t p i hi]
  | succ k ih =>
    intro p i hp hi
    obtain ⟨q, rfl⟩ : ∃ q, p = q + 1 := ⟨p - 1, by omega⟩
    rw [dN_succ hm _ _ _ _ (by omega), dN_succ hm _ _ _ _ (by omega), ih q i (by omega) (by omega),
      show i + d + 1 = i + 1 + d by omega, ih q (i + 1) (by omega) (by omega), h i (by omega), h (i + 1) (by omega),
      show i + d + q + 1 = (i + q + 1) + d by omega, h (i + q + 1) (by omega),
      show i + d + q + 2 = (i + q + 2) + d by omega, h (i + q + 2) (by omega)]
    congr 2
    · congr 2; ring
    · congr 2; ring

end

/-- `knots` are `a, a + h, a + 2h, …` with `h > 0`. -/
def EquallySpaced (U : List ℝ) (a h : ℝ) : Prop := 0 < h ∧ ∀ i, i < U.length → nth U i = a + i * h

/-- The last `p` control points repeat the first `p`. -/
def WrappedPoints (cps : List (XYZW ℝ)) (p n : ℕ) : Prop := 2 * p ≤ n + 1 ∧ ∀ i, i < p → nth cps (n + 1 - p + i) = nth cps i

theorem equally_lt {U : List ℝ} {a h : ℝ} (he : EquallySpaced U a h) {i j : ℕ} (hij : i < j) (hj : j < U.length) : nth U i < nth U j := by
  rw [he.2 i (by omega), he.2 j hj]
  have : (i : ℝ) < j := by exact_mod_cast hij
  have := mul_lt_mul_of_pos_right this he.1
  linarith

/-- the homogeneous derivatives at the two ends of the domain agree below the degree -/
theorem wrapped_ders {c : NurbsCurve ℝ} {p n : ℕ} {a h : ℝ} (w : WellFormed c p n) (hu : EquallySpaced c.knots a h)
    (hp : WrappedPoints c.cps p n) {k : ℕ} (hk : k < p) :
    curveDeriv (nth c.knots) p p n (nth c.cps) k (nth c.knots p) = curveDeriv (nth c.knots) n p n (nth c.cps) k (nth c.knots (n + 1)) := by
  have hl := w.knots
  have hpn := w.pn
  have hm := wf_monoTo w
  rw [curveDeriv_window le_rfl hpn, curveDeriv_window hpn le_rfl, Finset.sum_range_succ, Finset.sum_range_succ']
  have z1 : dN (nth c.knots) p p (p - p + p) k (nth c.knots p) = 0 := by
    rw [← dN_agree (m := 1) hm (by omega) (u := nth c.knots p) (fun i h1 h2 => by rw [show i = p by omega]) (equally_lt hu (by omega) (by omega)).ne
      (equally_lt hu (by omega) (by omega)).ne' k p _ (by omega) (by omega)]
    exact dN_out _ _ _ _ _ _ (Or.inl (by omega))
  have agree : ∀ i ≤ n, dN (nth c.knots) n p i k (nth c.knots (n + 1)) = dN (nth c.knots) (n + 1) p i k (nth c.knots (n + 1)) := by
    intro i hi
    exact dN_agree (b := n + 1) (m := 1) hm (by omega) (u := nth c.knots (n + 1)) (fun i h1 h2 => by rw [show i = n + 1 by omega])
      (equally_lt hu (by omega) (by omega)).ne (equally_lt hu (by omega) (by omega)).ne' k p i (by omega) (by omega)
  have z2 : dN (nth c.knots) n p (n - p + 0) k (nth c.knots (n + 1)) = 0 := by
    rw [agree _ (by omega)]
    exact dN_out _ _ _ _ _ _ (Or.inr (by omega))
  rw [z1, z2, zero_smul, zero_smul, add_zero, add_zero]
  apply Finset.sum_congr rfl
  intro r hr
  rw [mem_range] at hr
  rw [show n - p + (r + 1) = r + (n + 1 - p) by omega, show p - p + r = r by omega, agree _ (by omega),
    show r + (n + 1 - p) = n + 1 - p + r by omega, hp.2 r hr]
  congr 1
  have hsh : ∀ j, j ≤ 2 * p → nth c.knots (j + (n + 1 - p)) = nth c.knots j + ((n + 1 - p : ℕ) : ℝ) * h := by
    intro j hj
    rw [hu.2 _ (by omega), hu.2 j (by omega)]
    push_cast
    ring
  have := dN_shift (M := 2 * p) (N := n + p + 1) (d := n + 1 - p) hm (by omega) hsh p (nth c.knots p) k p r (by omega) (by omega)
  rw [← this, ← hsh p (by omega), show p + (n + 1 - p) = n + 1 by omega, show r + (n + 1 - p) = n + 1 - p + r by omega]

theorem almostEq_self (a : XYZ ℝ) : a.almostEq a = true := by
  unfold XYZ.almostEq
  simp [almost_self]

theorem wrapped_run {cps : List (XYZW ℝ)} {p n : ℕ} (hl : cps.length = n + 1) (hpn : p ≤ n)
    (h : ∀ i, i < p → (nth cps i).toXYZ.almostEq (nth cps (n + 1 - p + i)).toXYZ = true) :
    wrappedTest cps p ((n : ℤ) + 1) = ok true := by
  unfold wrappedTest
  have := Runs.forN (m := 0) (n := p) (Inv := fun _ (b : Bool) => b = true) (a := 0) (b := (p : ℤ))
    (body := fun i flag => if flag then do
      let a ← vget cps i
      let b ← vget cps ((n : ℤ) + 1 - p + i)
      ok (a.toXYZ.almostEq b.toXYZ)
    else ok false) rfl rfl (by omega) (s := true) rfl (by
      intro i b _ hi hb
      rw [hb, if_pos rfl, vget_nth (k := i) (by simp) (by omega), ok_bind, vget_nth (k := n + 1 - p + i) (by omega) (by omega), ok_bind, h i hi]
      exact Runs.ok rfl)
  obtain ⟨b, h1, h2⟩ := this
  rw [h1, h2]

/-- an unclamped equally spaced curve passes the first two tests -/
theorem periodic_gate {c : NurbsCurve ℝ} {p n : ℕ} {a h : ℝ} (w : WellFormed c p n) (hu : EquallySpaced c.knots a h)
    (hsep : KnotSeparated c.knots (nth c.knots 0)) (hsep' : KnotSeparated c.knots (nth c.knots (n + p + 1))) :
    isClamp c = ok false ∧ isUniform c.knots = ok true ∧ getKnotMultiplicity c.knots (nth c.knots 0) = ok 1 ∧
      getKnotMultiplicity c.knots (nth c.knots (n + p + 1)) = ok 1 := by
  have hl := w.knots
  have hpn := w.pn
  have hpos := w.pos
  have hm := wf_monoTo w
  have hst : c.knots.Pairwise (· < ·) := by
    rw [List.pairwise_iff_getElem]
    intro i j h1 h2 h3
    have := equally_lt hu h3 h2
    rwa [nth_eq_getElem h1, nth_eq_getElem h2] at this
  have hnd : c.knots.Nodup := hst.imp fun h => h.ne
  have hne : c.knots ≠ [] := by intro h; rw [h] at hl; simp at hl
  have hpw : c.knots.Pairwise (· ≤ ·) := hst.imp fun h => h.le
  have el : c.knots.length - 1 = n + p + 1 := by omega
  have hmem : ∀ i, i < c.knots.length → c.knots.count (nth c.knots i) = 1 := by
    intro i hi
    rw [nth_eq_getElem hi]
    exact List.count_eq_one_of_mem hnd (List.getElem_mem hi)
  have m1 : getKnotMultiplicity c.knots (nth c.knots 0) = ok 1 := by
    rw [C17_multiplicity_exact hne hpw (le_refl _) (by rw [el]; exact hm _ _ (by omega) (by omega)) hsep, hmem 0 (by omega)]; rfl
  have m2 : getKnotMultiplicity c.knots (nth c.knots (n + p + 1)) = ok 1 := by
    rw [C17_multiplicity_exact hne hpw (hm _ _ (by omega) (by omega)) (by rw [el]) hsep', hmem (n + p + 1) (by omega)]; rfl
  refine ⟨?_, ?_, m1, m2⟩
  · unfold isClamp
    rw [vget_nth (i := 0) (k := 0) rfl (by omega), ok_bind, vget_nth (k := n + p + 1) (by omega) (by omega), ok_bind, m1, ok_bind, m2, ok_bind, w.degree]
    congr 1
    rw [decide_eq_false_iff_not]
    omega
  · obtain ⟨b, h1, h2⟩ := C71_uniform_partial (U := c.knots) (ks := c.knots) hst (fun _ => Iff.rfl) (by omega)
    rw [h1]
    congr 1
    rw [h2]
    refine ⟨by rw [hmem 0 (by omega), hmem _ (by omega)], ?_, ?_⟩
    · intro j h3 h4
      have : nth c.knots (j + 1) - nth c.knots j = nth c.knots 1 - nth c.knots 0 := by
        rw [hu.2 _ h4, hu.2 j (by omega), hu.2 1 (by omega), hu.2 0 (by omega)]; push_cast; ring
      rw [this]
      exact almost_self _
    · intro j h3 h4
      rw [hmem j (by omega), hmem _ (by omega)]

/-- C126: `IsPeriodic` answers `false` for every clamped curve (whose end knots are separated from the others by the
comparison tolerance). -/
theorem C126_clamped {c : NurbsCurve ℝ} {p n : ℕ} (w : WellFormed c p n) (he : EndsSeparated (nth c.knots) p n)
    (h0 : KnotSeparated c.knots (nth c.knots 0)) (h1 : KnotSeparated c.knots (nth c.knots (n + p + 1)))
    (hc : ClampedEnds (nth c.knots) p n) : isPeriodic c = ok false := by
  obtain ⟨b, hb, hb'⟩ := C102_isClamp w he h0 h1
  unfold isPeriodic
  dsimp only
  rw [hb, ok_bind, hb'.mpr hc, if_pos rfl]

/-- C126 (part): on equally spaced simple knots with the last `p` control points repeating the first `p`, `IsPeriodic`
answers `true`, and the curve is periodic: it returns to its start point and all derivatives below the degree agree at the
two ends of its domain.  Missing: the converse, which is false (`C126_weights_violated`, `C126_segment_violated`). -/
theorem C126_wrapped_partial {c : NurbsCurve ℝ} {p n : ℕ} {a h : ℝ} (w : WellFormed c p n) (hu : EquallySpaced c.knots a h)
    (hsep : ∀ x ∈ c.knots, KnotSeparated c.knots x) (hp : WrappedPoints c.cps p n)
    (hw : weightFn (nth c.knots) p n (nth c.cps) (nth c.knots p) ≠ 0) :
    isPeriodic c = ok true ∧ NurbsCurve.pointOnCurve c (nth c.knots p) = NurbsCurve.pointOnCurve c (nth c.knots (n + 1)) ∧
      ∀ d : ℕ, 0 < d → ∃ l l', NurbsCurve.rationalDerivatives c d (nth c.knots p) = ok l ∧
        NurbsCurve.rationalDerivatives c d (nth c.knots (n + 1)) = ok l' ∧ ∀ k, k ≤ d → k < p → nth l k = nth l' k := by
  have hl := w.knots
  have hcp := w.cps
  have hpn := w.pn
  have hpos := w.pos
  have hm := wf_monoTo w
  have hmem : ∀ i, i < c.knots.length → nth c.knots i ∈ c.knots := by
    intro i hi
    rw [nth_eq_getElem hi]; exact List.getElem_mem hi
  have he : EndsSeparated (nth c.knots) p n := by
    constructor
    · have h1 := equally_lt hu (show p < p + 1 by omega) (by omega)
      rcases hsep _ (hmem p (by omega)) _ (hmem (p + 1) (by omega)) with h2 | h2
      · exact absurd h2 h1.ne'
      · rw [abs_sub_comm, abs_of_pos (sub_pos.mpr h1)] at h2; exact h2
    · have h1 := equally_lt hu (show n < n + 1 by omega) (by omega)
      rcases hsep _ (hmem n (by omega)) _ (hmem (n + 1) (by omega)) with h2 | h2
      · exact absurd h2 h1.ne'
      · rw [abs_sub_comm, abs_of_pos (sub_pos.mpr h1)] at h2; exact h2
  obtain ⟨g1, g2, -, -⟩ := periodic_gate w hu (hsep _ (hmem 0 (by omega))) (hsep _ (hmem (n + p + 1) (by omega)))
  have sp : IsSpan (nth c.knots) p n (nth c.knots p) p :=
    ⟨le_rfl, hpn, equally_lt hu (by omega) (by omega), le_rfl, Or.inl (equally_lt hu (by omega) (by omega))⟩
  have sn : IsSpan (nth c.knots) p n (nth c.knots (n + 1)) n :=
    ⟨hpn, le_rfl, equally_lt hu (by omega) (by omega), hm _ _ (by omega) (by omega), Or.inr ⟨rfl, rfl⟩⟩
  have pt : ∀ {s : ℕ} {t : ℝ}, IsSpan (nth c.knots) p n t s → curvePoint (nth c.knots) p n (nth c.cps) t = curveDeriv (nth c.knots) s p n (nth c.cps) 0 t := by
    intro s t hs
    rw [curveDeriv_window hs.1 hs.2.1, curvePoint_span hm le_rfl hs]
    simp only [dN_zero]
  have h0 := wrapped_ders w hu hp (k := 0) hpos
  have hpt : curvePoint (nth c.knots) p n (nth c.cps) (nth c.knots p) = curvePoint (nth c.knots) p n (nth c.cps) (nth c.knots (n + 1)) := by
    rw [pt sp, pt sn, h0]
  have hwf : ∀ t, weightFn (nth c.knots) p n (nth c.cps) t = (curvePoint (nth c.knots) p n (nth c.cps) t).w := by
    intro t; unfold weightFn curvePoint; rw [XYZW.sum_w]
  have hpp : nth c.knots p ≤ nth c.knots (n + 1) := hm _ _ (by omega) (by omega)
  refine ⟨?_, ?_, ?_⟩
  · unfold isPeriodic
    dsimp only
    rw [g1, ok_bind, if_neg (by simp), g2, ok_bind, if_neg (by simp), if_pos (by rw [hcp, w.degree]; have := hp.1; push_cast; omega), w.degree, hcp,
      show (((n + 1 : ℕ)) : ℤ) = (n : ℤ) + 1 by push_cast; rfl,
      wrapped_run hcp hpn (fun i hi => by rw [hp.2 i hi]; exact almostEq_self _), ok_bind, if_pos rfl]
  · unfold NurbsCurve.pointOnCurve
    rw [C05_eval w he le_rfl hpp, C05_eval w he hpp le_rfl, hpt]
  · intro d hd
    obtain ⟨l, e, hlen, hL⟩ := C20_leibniz w he le_rfl hpp sp hd hw
    obtain ⟨l', e', hlen', hL'⟩ := C20_leibniz w he hpp le_rfl sn hd (by rw [hwf, ← hpt, ← hwf]; exact hw)
    refine ⟨l, l', e, e', ?_⟩
    intro k
    induction k using Nat.strong_induction_on with
    | _ k ih =>
      intro hkd hkp
      have a1 := hL k hkd
      have a2 := hL' k hkd
      rw [← wrapped_ders w hu hp hkp, ← a1, Finset.sum_range_succ', Finset.sum_range_succ'] at a2
      have e1 : ∑ i ∈ range k, ((k.choose (i + 1) : ℝ) * (curveDeriv (nth c.knots) n p n (nth c.cps) (i + 1) (nth c.knots (n + 1))).w) • nth l' (k - (i + 1)) =
          ∑ i ∈ range k, ((k.choose (i + 1) : ℝ) * (curveDeriv (nth c.knots) p p n (nth c.cps) (i + 1) (nth c.knots p)).w) • nth l (k - (i + 1)) := by
        apply Finset.sum_congr rfl
        intro i hi
        rw [mem_range] at hi
        rw [wrapped_ders w hu hp (show i + 1 < p by omega), ih (k - (i + 1)) (by omega) (by omega) (by omega)]
      rw [e1] at a2
      have a3 := add_left_cancel a2
      rw [← h0, ← pt sp, ← hwf] at a3
      have hne : ((k.choose 0 : ℕ) : ℝ) * weightFn (nth c.knots) p n (nth c.cps) (nth c.knots p) ≠ 0 := by simpa using hw
      exact (smul_right_injective _ hne a3).symm

/-! ## Counterexamples to the converse -/

/-- an unclamped quadratic over `0, 1, …, 6` -/
noncomputable def uniQuad (a b d e : XYZW ℝ) : NurbsCurve ℝ := { degree := 2, knots := [0, 1, 2, 3, 4, 5, 6], cps := [a, b, d, e] }

theorem uniQuad_wf (a b d e : XYZW ℝ) : WellFormed (uniQuad a b d e) 2 3 ∧ EquallySpaced (uniQuad a b d e).knots 0 1 ∧
    (∀ x ∈ (uniQuad a b d e).knots, KnotSeparated (uniQuad a b d e).knots x) ∧ EndsSeparated (nth (uniQuad a b d e).knots) 2 3 := by
  refine ⟨⟨rfl, by decide, by decide, rfl, by decide, rfl, ?_⟩, ⟨one_pos, ?_⟩, ?_, ?_⟩
  · apply isValidKnotVector_nth.mp
    simp [uniQuad, isValidKnotVector]; norm_num
  · intro i hi
    have hi' : i < 7 := hi
    interval_cases i <;> simp [uniQuad, nth]
  · intro x hx y hy
    simp only [uniQuad, List.mem_cons, List.not_mem_nil, or_false] at hx hy
    rcases hx with h | h | h | h | h | h | h <;> subst h <;>
      rcases hy with h | h | h | h | h | h | h <;> subst h <;> norm_num [abs_of_pos, abs_of_neg]
  · constructor <;> simp [uniQuad, nth] <;> norm_num

/-- the hypotheses of `C126_wrapped_partial` hold for a closed quadratic with two alternating control points of weights 1 and 2 -/
example : WrappedPoints (uniQuad ⟨0, 0, 0, 1⟩ ⟨2, 4, 0, 2⟩ ⟨0, 0, 0, 1⟩ ⟨2, 4, 0, 2⟩).cps 2 3 ∧
    weightFn (nth (uniQuad ⟨0, 0, 0, 1⟩ ⟨2, 4, 0, 2⟩ ⟨0, 0, 0, 1⟩ ⟨2, 4, 0, 2⟩).knots) 2 3 (nth (uniQuad ⟨0, 0, 0, 1⟩ ⟨2, 4, 0, 2⟩ ⟨0, 0, 0, 1⟩ ⟨2, 4, 0, 2⟩).cps) 2 ≠ 0 := by
  refine ⟨⟨by decide, ?_⟩, ?_⟩
  · intro i hi
    interval_cases i <;> rfl
  · simp [weightFn, uniQuad, nth, N, Finset.sum_range_succ]; norm_num

/-- C126 (violated): the weights are not compared; `IsPeriodic` answers `true` for a curve that starts at `(1/2, 0, 0)` and
ends at `(3/4, 0, 0)`. -/
theorem C126_weights_violated : ∃ c : NurbsCurve ℝ, WellFormed c 2 3 ∧ (∀ q ∈ c.cps, 0 < q.w) ∧ isPeriodic c = ok true ∧
    nth c.knots 2 = 2 ∧ nth c.knots 4 = 4 ∧
    NurbsCurve.pointOnCurve c 2 = ok ⟨1 / 2, 0, 0⟩ ∧ NurbsCurve.pointOnCurve c 4 = ok ⟨3 / 4, 0, 0⟩ := by
  obtain ⟨c, hc⟩ : ∃ c, c = uniQuad ⟨0, 0, 0, 1⟩ ⟨1, 0, 0, 1⟩ ⟨0, 0, 0, 1⟩ ⟨3, 0, 0, 3⟩ := ⟨_, rfl⟩
  obtain ⟨w, hu, hs, he⟩ := uniQuad_wf ⟨0, 0, 0, 1⟩ ⟨1, 0, 0, 1⟩ ⟨0, 0, 0, 1⟩ ⟨3, 0, 0, 3⟩
  rw [← hc] at w hu hs he
  obtain ⟨g1, g2, -, -⟩ := periodic_gate w hu (hs _ (by rw [hc]; simp [uniQuad, nth])) (hs _ (by rw [hc]; simp [uniQuad, nth]))
  have t3 : XYZW.toXYZ (⟨3, 0, 0, 3⟩ : XYZW ℝ) = ⟨1, 0, 0⟩ := by
    rw [XYZW.toXYZ_eq (by norm_num)]; ext <;> simp [XYZW.raw]
  have t1 : XYZW.toXYZ (⟨1, 0, 0, 1⟩ : XYZW ℝ) = ⟨1, 0, 0⟩ := by
    rw [XYZW.toXYZ_eq (by norm_num)]; ext <;> simp [XYZW.raw]
  have e2 : weightFn (nth c.knots) 2 3 (nth c.cps) 2 = 1 := by
    rw [hc]; simp [weightFn, uniQuad, nth, N, Finset.sum_range_succ]; norm_num
  have e4 : weightFn (nth c.knots) 2 3 (nth c.cps) 4 = 2 := by
    rw [hc]; simp [weightFn, uniQuad, nth, N, Finset.sum_range_succ]; norm_num
  have k2 : nth c.knots 2 = 2 := by rw [hc]; rfl
  have k4 : nth c.knots (3 + 1) = 4 := by rw [hc]; rfl
  refine ⟨c, w, ?_, ?_, k2, k4, ?_, ?_⟩
  · intro q hq
    rw [hc] at hq
    simp only [uniQuad, List.mem_cons, List.not_mem_nil, or_false] at hq
    rcases hq with h | h | h | h <;> subst h <;> norm_num
  · unfold isPeriodic
    dsimp only
    have hcp := w.cps
    rw [g1, ok_bind, if_neg (by simp), g2, ok_bind, if_neg (by simp), if_pos (by rw [hcp, w.degree]; decide), w.degree, hcp,
      show (((3 + 1 : ℕ)) : ℤ) = ((3 : ℕ) : ℤ) + 1 from rfl,
      wrapped_run hcp (by omega) (fun i hi => by
        interval_cases i
        · rw [hc]; exact almostEq_self _
        · rw [hc]; simp only [uniQuad, nth]; change (XYZW.toXYZ ⟨1, 0, 0, 1⟩).almostEq (XYZW.toXYZ ⟨3, 0, 0, 3⟩) = true; rw [t1, t3]; exact almostEq_self _), ok_bind, if_pos rfl]
  · rw [C05_eval_rational w he (by rw [k2]) (by rw [k4]; norm_num) (by rw [e2]; norm_num)]
    unfold rationalPoint
    change ok ((weightFn (nth c.knots) 2 3 (nth c.cps) 2)⁻¹ • _) = _
    rw [e2, hc]
    congr 1
    ext <;> simp [uniQuad, nth, N, Finset.sum_range_succ] <;> norm_num
  · rw [C05_eval_rational w he (by rw [k2]; norm_num) (by rw [k4]) (by rw [e4]; norm_num)]
    unfold rationalPoint
    change ok ((weightFn (nth c.knots) 2 3 (nth c.cps) 4)⁻¹ • _) = _
    rw [e4, hc]
    congr 1
    ext <;> simp [uniQuad, nth, N, Finset.sum_range_succ] <;> norm_num

/-- the span found for the first and the last knot, which are outside the domain -/
theorem uniQuad_span (a b d e : XYZW ℝ) : getKnotSpanIndex (uniQuad a b d e).degree (uniQuad a b d e).knots 0 = ok 2 ∧
    getKnotSpanIndex (uniQuad a b d e).degree (uniQuad a b d e).knots 6 = ok 3 := by
  have hv : isValidKnotVector (uniQuad a b d e).knots = true := isValidKnotVector_nth.mpr (uniQuad_wf a b d e).1.sorted
  have h0 : validateRange (0 : ℝ) 0 6 = ok () := validateRange_eq_ok_iff.mpr ⟨by have := doubleEps_pos (K := ℝ); linarith, by have := doubleEps_pos (K := ℝ); linarith⟩
  have h6 : validateRange (6 : ℝ) 0 6 = ok () := validateRange_eq_ok_iff.mpr ⟨by have := doubleEps_pos (K := ℝ); linarith, by have := doubleEps_pos (K := ℝ); linarith⟩
  have c1 : isGreaterThanOrEqual (0 : ℝ) 4 = false := by
    unfold isGreaterThanOrEqual; rw [decide_eq_false_iff_not]; unfold tolOf doubleEps; norm_num [abs_of_neg]
  have c2 : isGreaterThanOrEqual (6 : ℝ) 4 = true := by
    unfold isGreaterThanOrEqual; rw [decide_eq_true_eq]; unfold tolOf doubleEps; norm_num
  have c3 : isLessThanOrEqual (0 : ℝ) 2 = true := by
    unfold isLessThanOrEqual; rw [decide_eq_true_eq]; unfold tolOf doubleEps; norm_num
  have hk : (uniQuad a b d e).knots = [0, 1, 2, 3, 4, 5, 6] := rfl
  have hd : (uniQuad a b d e).degree = 2 := rfl
  rw [hk] at hv
  constructor
  · unfold getKnotSpanIndex
    rw [hd, hk]
    simp [validate, vget, h0, hv, c1, c3]
  · unfold getKnotSpanIndex
    rw [hd, hk]
    simp [validate, vget, h6, hv, c2]

/-- C126 (violated): without wrapped control points the query compares the curve at the first and the last *knot*. These lie
outside the domain of an unclamped curve, where the polynomials of the first and the last span are extrapolated. `IsPeriodic`
answers `true` for a piece of a straight line that runs from `(1/2, 0, 0)` to `(9/2, 0, 0)`. -/
theorem C126_segment_violated : ∃ c : NurbsCurve ℝ, WellFormed c 2 3 ∧ (∀ q ∈ c.cps, q.w = 1 ∧ q.wy = 0 ∧ q.wz = 0) ∧ isPeriodic c = ok true ∧
    nth c.knots 2 = 2 ∧ nth c.knots 4 = 4 ∧
    NurbsCurve.pointOnCurve c 2 = ok ⟨1 / 2, 0, 0⟩ ∧ NurbsCurve.pointOnCurve c 4 = ok ⟨9 / 2, 0, 0⟩ := by
  obtain ⟨c, hc⟩ : ∃ c, c = uniQuad ⟨0, 0, 0, 1⟩ ⟨1, 0, 0, 1⟩ ⟨4, 0, 0, 1⟩ ⟨5, 0, 0, 1⟩ := ⟨_, rfl⟩
  obtain ⟨w, hu, hs, he⟩ := uniQuad_wf ⟨0, 0, 0, 1⟩ ⟨1, 0, 0, 1⟩ ⟨4, 0, 0, 1⟩ ⟨5, 0, 0, 1⟩
  obtain ⟨s0, s6⟩ := uniQuad_span ⟨0, 0, 0, 1⟩ ⟨1, 0, 0, 1⟩ ⟨4, 0, 0, 1⟩ ⟨5, 0, 0, 1⟩
  rw [← hc] at w hu hs he s0 s6
  obtain ⟨g1, g2, g3, g4⟩ := periodic_gate w hu (hs _ (by rw [hc]; simp [uniQuad, nth])) (hs _ (by rw [hc]; simp [uniQuad, nth]))
  have hm := wf_monoTo w
  have kn : ∀ i, nth c.knots i = nth [(0 : ℝ), 1, 2, 3, 4, 5, 6] i := by intro i; rw [hc]; rfl
  have cp : ∀ i, nth c.cps i = nth [(⟨0, 0, 0, 1⟩ : XYZW ℝ), ⟨1, 0, 0, 1⟩, ⟨4, 0, 0, 1⟩, ⟨5, 0, 0, 1⟩] i := by intro i; rw [hc]; rfl
  have hk' : c.knots = [0, 1, 2, 3, 4, 5, 6] := by rw [hc]; rfl
  have hc' : c.cps = [⟨0, 0, 0, 1⟩, ⟨1, 0, 0, 1⟩, ⟨4, 0, 0, 1⟩, ⟨5, 0, 0, 1⟩] := by rw [hc]; rfl
  have hd := doubleEps_pos (K := ℝ)
  have k0 : nth c.knots 0 = 0 := by rw [kn]; rfl
  have k2 : nth c.knots 2 = 2 := by rw [kn]; rfl
  have k4 : nth c.knots (3 + 1) = 4 := by rw [kn]; rfl
  have k6 : nth c.knots (3 + 2 + 1) = 6 := by rw [kn]; rfl
  have e2 : weightFn (nth c.knots) 2 3 (nth c.cps) 2 = 1 := by
    rw [hc]; simp [weightFn, uniQuad, nth, N, Finset.sum_range_succ]; norm_num
  have e4 : weightFn (nth c.knots) 2 3 (nth c.cps) 4 = 1 := by
    rw [hc]; simp [weightFn, uniQuad, nth, N, Finset.sum_range_succ]; norm_num
  have l2 : nth c.knots 2 < nth c.knots (2 + 1) := by rw [kn, kn]; simp [nth]; norm_num
  have l3 : nth c.knots 3 < nth c.knots (3 + 1) := by rw [kn, kn]; simp [nth]; norm_num
  have d0 : curveDeriv (nth c.knots) 2 2 3 (nth c.cps) 0 0 = ⟨5 / 2, 0, 0, 1⟩ := by
    rw [curveDeriv_window (by omega) (by omega)]
    simp only [dN_zero]
    ext <;> simp [Finset.sum_range_succ, Nspan, hk', hc', nth] <;> norm_num
  have d6 : curveDeriv (nth c.knots) 3 2 3 (nth c.cps) 0 6 = ⟨5 / 2, 0, 0, 1⟩ := by
    rw [curveDeriv_window (by omega) (by omega)]
    simp only [dN_zero]
    ext <;> simp [Finset.sum_range_succ, Nspan, hk', hc', nth] <;> norm_num
  have d01 : curveDeriv (nth c.knots) 2 2 3 (nth c.cps) 1 0 = ⟨-3, 0, 0, 0⟩ := by
    rw [curveDeriv_window (by omega) (by omega), Finset.sum_range_succ, Finset.sum_range_succ, Finset.sum_range_one]
    rw [dN_succ hm 2 1 _ 0 (by omega), dN_succ hm 2 1 _ 0 (by omega), dN_succ hm 2 1 _ 0 (by omega)]
    simp only [dN_zero]
    ext <;> simp [Nspan, hk', hc', nth] <;> norm_num
  have d61 : curveDeriv (nth c.knots) 3 2 3 (nth c.cps) 1 6 = ⟨-3, 0, 0, 0⟩ := by
    rw [curveDeriv_window (by omega) (by omega), Finset.sum_range_succ, Finset.sum_range_succ, Finset.sum_range_one]
    rw [dN_succ hm 3 1 _ 0 (by omega), dN_succ hm 3 1 _ 0 (by omega), dN_succ hm 3 1 _ 0 (by omega)]
    simp only [dN_zero]
    ext <;> simp [Nspan, hk', hc', nth] <;> norm_num
  have p0 : BsplineCurve.pointOnCurve c 0 = ok ⟨5 / 2, 0, 0, 1⟩ := by
    rw [pointOnCurve_span w (by rw [k0]; linarith) (by rw [k6]; linarith) (s := 2) s0 (by omega) (by omega) l2, ← d0, curveDeriv_window (by omega) (by omega)]
    simp only [dN_zero]
  have p6 : BsplineCurve.pointOnCurve c 6 = ok ⟨5 / 2, 0, 0, 1⟩ := by
    rw [pointOnCurve_span w (by rw [k0]; linarith) (by rw [k6]; linarith) (s := 3) s6 (by omega) (by omega) l3, ← d6, curveDeriv_window (by omega) (by omega)]
    simp only [dN_zero]
  have r0 : BsplineCurve.computeDerivatives c 1 0 = ok [⟨5 / 2, 0, 0, 1⟩, ⟨-3, 0, 0, 0⟩] := by
    obtain ⟨l, e, hl, hk⟩ := computeDerivatives_run (d := 1) w one_pos (by rw [k0]; linarith) (by rw [k6]; linarith) (s := 2) s0 (by omega) (by omega) l2
    have e' : BsplineCurve.computeDerivatives c 1 0 = ok l := e
    rw [e']
    congr 1
    apply ext_nth (by rw [hl]; rfl)
    intro i hi
    have : i < 2 := by omega
    interval_cases i
    · rw [hk 0 (by omega), d0]; rfl
    · rw [hk 1 (by omega), d01]; rfl
  have r6 : BsplineCurve.computeDerivatives c 1 6 = ok [⟨5 / 2, 0, 0, 1⟩, ⟨-3, 0, 0, 0⟩] := by
    obtain ⟨l, e, hl, hk⟩ := computeDerivatives_run (d := 1) w one_pos (by rw [k0]; linarith) (by rw [k6]; linarith) (s := 3) s6 (by omega) (by omega) l3
    have e' : BsplineCurve.computeDerivatives c 1 6 = ok l := e
    rw [e']
    congr 1
    apply ext_nth (by rw [hl]; rfl)
    intro i hi
    have : i < 2 := by omega
    interval_cases i
    · rw [hk 0 (by omega), d6]; rfl
    · rw [hk 1 (by omega), d61]; rfl
  obtain ⟨L, eL, hL, -⟩ := rational_loop (A := [(⟨5 / 2, 0, 0, 1⟩ : XYZW ℝ), ⟨-3, 0, 0, 0⟩].map XYZW.raw)
    (W := [(⟨5 / 2, 0, 0, 1⟩ : XYZW ℝ), ⟨-3, 0, 0, 0⟩].map XYZW.w) (d := 1) rfl rfl (by simp [nth])
  have q0 : NurbsCurve.rationalDerivatives c 1 0 = ok L := by
    unfold NurbsCurve.rationalDerivatives
    rw [r0, ok_bind]
    exact eL
  have q6 : NurbsCurve.rationalDerivatives c 1 6 = ok L := by
    unfold NurbsCurve.rationalDerivatives
    rw [r6, ok_bind]
    exact eL
  have hcp := w.cps
  have hlen := w.knots
  have v0 : vget c.knots 0 = ok 0 := by rw [vget_nth (i := 0) (k := 0) rfl (by omega), k0]
  have v6 : vget c.knots ((c.knots.length : ℤ) - 1) = ok 6 := by rw [vget_nth (k := 6) (by omega) (by omega), kn]; rfl
  have hclosed : isClosedCurve c = ok true := by
    unfold isClosedCurve
    rw [v0, ok_bind, v6, ok_bind]
    unfold NurbsCurve.pointOnCurve
    rw [p0, p6]
    simp only [ok_bind]
    rw [if_pos]
    rw [show ∀ a : XYZ ℝ, a.distance a = 0 by intro a; simp [XYZ.distance, XYZ.length, XYZ.dot]]
    exact almost_self _
  have hsame : sameDerivatives L L 1 = ok true := by
    unfold sameDerivatives
    rw [forI_head (by decide), if_pos rfl, vget_nth (i := 0) (k := 0) rfl (by omega)]
    simp only [ok_bind]
    rw [almostEq_self, almost_self, forI_head (by decide)]
    simp only [Bool.and_self, if_true]
    rw [vget_nth (i := 0 + 1) (k := 1) rfl (by omega)]
    simp only [ok_bind]
    rw [almostEq_self, almost_self, forI_empty (by decide)]
    rfl
  have hwrap : wrappedTest c.cps 2 4 = ok false := by
    unfold wrappedTest
    rw [forI_head (by decide), if_pos rfl, vget_nth (i := 0) (k := 0) rfl (by omega)]
    simp only [ok_bind]
    rw [vget_nth (i := 4 - 2 + 0) (k := 2) rfl (by omega)]
    simp only [ok_bind]
    rw [show (nth c.cps 0).toXYZ.almostEq (nth c.cps 2).toXYZ = false by
      rw [cp, cp]; simp only [nth]
      change (XYZW.toXYZ ⟨0, 0, 0, 1⟩).almostEq (XYZW.toXYZ ⟨4, 0, 0, 1⟩) = false
      rw [XYZW.toXYZ_eq (by norm_num), XYZW.toXYZ_eq (by norm_num)]
      simp [XYZ.almostEq, isAlmostEqualTo, XYZW.raw, tolOf, doubleEps]; norm_num]
    rw [forI_head (by decide)]
    simp only [Bool.false_eq_true, if_false, ok_bind]
    rw [forI_empty (by decide)]
  rw [k0] at g3
  rw [k6] at g4
  refine ⟨c, w, ?_, ?_, k2, k4, ?_, ?_⟩
  · intro q hq
    rw [hc] at hq
    simp only [uniQuad, List.mem_cons, List.not_mem_nil, or_false] at hq
    rcases hq with h | h | h | h <;> subst h <;> simp
  · unfold isPeriodic
    dsimp only
    rw [g1, ok_bind, if_neg (by simp), g2, ok_bind, if_neg (by simp), if_pos (by rw [hcp, w.degree]; decide), w.degree, hcp]
    rw [show (((3 + 1 : ℕ)) : ℤ) = 4 from rfl, show (((2 : ℕ)) : ℤ) = 2 from rfl, hwrap, ok_bind, if_neg (by simp), hclosed, ok_bind, if_neg (by simp), v0, ok_bind, v6, ok_bind]
    unfold getContinuity
    rw [validate_of (by decide), ok_bind, g3, ok_bind, g4]
    simp only [ok_bind]
    rw [if_neg (by simp), show (2 : ℤ) - 1 = 1 from rfl, q0, ok_bind, q6, ok_bind, hsame]
  · rw [C05_eval_rational w he (by rw [k2]) (by rw [k4]; norm_num) (by rw [e2]; norm_num)]
    unfold rationalPoint
    change ok ((weightFn (nth c.knots) 2 3 (nth c.cps) 2)⁻¹ • _) = _
    rw [e2, hc]
    congr 1
    ext <;> simp [uniQuad, nth, N, Finset.sum_range_succ] <;> norm_num
  · rw [C05_eval_rational w he (by rw [k2]; norm_num) (by rw [k4]) (by rw [e4]; norm_num)]
    unfold rationalPoint
    change ok ((weightFn (nth c.knots) 2 3 (nth c.cps) 4)⁻¹ • _) = _
    rw [e4, hc]
    congr 1
    ext <;> simp [uniQuad, nth, N, Finset.sum_range_succ] <;> norm_num

end LNLib.Props
