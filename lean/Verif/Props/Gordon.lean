import Verif.Model.Gordon
import Verif.Props.Coons
import Verif.Props.Loft
import Verif.Props.SurfaceInterp
import Verif.Props.KnotsByBound

/-!
# C157: Gordon surfaces
-/

namespace LNLib.Props
open LNLib Res Spec Finset
set_option linter.unusedSectionVars false

section
variable {K : Type} [Field K] [LinearOrder K] [IsStrictOrderedRing K]
variable {a b c : NurbsSurface K} {pa pb pc qa qb qc na nb nc ma mb mc : ℕ} {Fa Fb Fc : K → K → XYZW K}

theorem gordonNet_eq {x y z : List (List (XYZW K))} {r s : ℕ} (hx : IsMat x r s) (hz : IsMat z r s) (hr : 0 < r) : gordonNet x y z = sumNet x y z := by
  unfold gordonNet sumNet
  rw [vget_row (k := 0) (by simp) (by rw [hz.1]; exact hr), vget_row (k := 0) (by simp) (by rw [hx.1]; exact hr), ok_bind, ok_bind]
  have e1 := hx.2 0 hr
  have e2 := hz.2 0 hr
  simp only [e1, e2, hx.1, hz.1]

/-- C157 (part): whatever the three surfaces over the unit square (the loft through the curves of one direction, the loft through those of the other, the surface through the crossings) are,
the combination returns, is defined over the unit square, and its point in homogeneous coordinates is the sum of the first two minus the third. The surfaces that need their degree raised
have simple interior knots. -/
theorem C157_sum_partial (ha : Patch a pa qa na ma Fa) (hb : Patch b pb qb nb mb Fb) (hc : Patch c pc qc nc mc Fc)
    (sU : WellSeparated (a.knotsU ++ (b.knotsU ++ c.knotsU))) (sV : WellSeparated (a.knotsV ++ (b.knotsV ++ c.knotsV)))
    (iaU : pa < max pa (max pb pc) → Simple a.knotsU pa na) (ibU : pb < max pa (max pb pc) → Simple b.knotsU pb nb) (icU : pc < max pa (max pb pc) → Simple c.knotsU pc nc)
    (iaV : qa < max qa (max qb qc) → Simple a.knotsV qa ma) (ibV : qb < max qa (max qb qc) → Simple b.knotsV qb mb) (icV : qc < max qa (max qb qc) → Simple c.knotsV qc mc) :
    ∃ S n m, gordonSum a b c = ok S ∧ Patch S (max pa (max pb pc)) (max qa (max qb qc)) n m (fun u v => Fa u v + Fb u v - Fc u v) := by
  obtain ⟨A1, B1, C1, na, nb, nc, e1, Pa1, Pb1, Pc1, ⟨va1, vb1, vc1⟩, ma1, mb1, mc1⟩ := commonDegree_u ha hb hc rfl
    (wellSep_mono sU fun x hx => by simp [hx]) (wellSep_mono sU fun x hx => by simp [hx]) (wellSep_mono sU fun x hx => by simp [hx]) iaU ibU icU
  obtain ⟨A2, B2, C2, ma, mb, mc, e2, Pa2, Pb2, Pc2, ⟨va2, vb2, vc2⟩, ma2, mb2, mc2⟩ := commonDegree_v Pa1 Pb1 Pc1 rfl
    (by rw [va1]; exact wellSep_mono sV fun x hx => by simp [hx]) (by rw [vb1]; exact wellSep_mono sV fun x hx => by simp [hx])
    (by rw [vc1]; exact wellSep_mono sV fun x hx => by simp [hx]) (by rw [va1]; exact iaV) (by rw [vb1]; exact ibV) (by rw [vc1]; exact icV)
  obtain ⟨A3, B3, C3, n', e3, Pa3, Pb3, Pc3, ⟨va3, vb3, vc3⟩, kb, kc⟩ := commonKnots_u Pa2 Pb2 Pc2 (wellSep_mono sU (by
    intro x hx
    rwa [va2, vb2, vc2, List.mem_append, List.mem_append, ma1, mb1, mc1, ← List.mem_append, ← List.mem_append] at hx))
  obtain ⟨A4, B4, C4, m', e4, Pa4, Pb4, Pc4, ⟨va4, vb4, vc4⟩, lb, lc⟩ := commonKnots_v Pa3 Pb3 Pc3 (wellSep_mono sV (by
    intro x hx
    rwa [va3, vb3, vc3, List.mem_append, List.mem_append, ma2, mb2, mc2, va1, vb1, vc1, ← List.mem_append, ← List.mem_append] at hx))
  have kbU : A4.knotsU = B4.knotsU := by rw [va4, vb4, kb]
  have kcU : A4.knotsU = C4.knotsU := by rw [va4, vc4, kc]
  obtain ⟨net, e5, PS⟩ := sum_patch Pa4 Pb4 Pc4 kbU kcU lb lc
  refine ⟨{ degreeU := C4.degreeU, degreeV := C4.degreeV, knotsU := C4.knotsU, knotsV := C4.knotsV, cps := net }, n', m', ?_, ?_⟩
  · unfold gordonSum
    rw [e1, ok_bind]
    dsimp only
    rw [e2, ok_bind]
    dsimp only
    rw [e3, ok_bind]
    dsimp only
    rw [e4, ok_bind]
    dsimp only
    rw [gordonNet_eq Pa4.wf.cps Pc4.wf.cps (by omega), e5, ok_bind]
  · have d1 : C4.degreeU = A4.degreeU := by rw [Pc4.wf.degreeU, Pa4.wf.degreeU]
    have d2 : C4.degreeV = A4.degreeV := by rw [Pc4.wf.degreeV, Pa4.wf.degreeV]
    rw [d1, d2, ← kcU, ← lc]
    exact PS

/-- C157 (part): where one loft and the surface through the crossings agree (in homogeneous coordinates) along a line of constant parameter, the result is the other loft, so it contains the curve that this loft contains
there. -/
theorem C157_curve_partial (ha : Patch a pa qa na ma Fa) (hb : Patch b pb qb nb mb Fb) (hc : Patch c pc qc nc mc Fc)
    (sU : WellSeparated (a.knotsU ++ (b.knotsU ++ c.knotsU))) (sV : WellSeparated (a.knotsV ++ (b.knotsV ++ c.knotsV)))
    (iaU : pa < max pa (max pb pc) → Simple a.knotsU pa na) (ibU : pb < max pa (max pb pc) → Simple b.knotsU pb nb) (icU : pc < max pa (max pb pc) → Simple c.knotsU pc nc)
    (iaV : qa < max qa (max qb qc) → Simple a.knotsV qa ma) (ibV : qb < max qa (max qb qc) → Simple b.knotsV qb mb) (icV : qc < max qa (max qb qc) → Simple c.knotsV qc mc)
    {v : K} (v0 : 0 ≤ v) (v1 : v ≤ 1) (hagree : ∀ u, 0 ≤ u → u ≤ 1 → BsplineSurface.pointOnSurface a u v = BsplineSurface.pointOnSurface c u v) :
    ∃ S, gordonSum a b c = ok S ∧ ∀ u, 0 ≤ u → u ≤ 1 → NurbsSurface.pointOnSurface S u v = NurbsSurface.pointOnSurface b u v := by
  obtain ⟨S, n, m, h, P⟩ := C157_sum_partial ha hb hc sU sV iaU ibU icU iaV ibV icV
  refine ⟨S, h, fun u u0 u1 => ?_⟩
  have g := hagree u u0 u1
  rw [ha.eval u v u0 u1 v0 v1, hc.eval u v u0 u1 v0 v1] at g
  unfold NurbsSurface.pointOnSurface
  rw [P.eval u v u0 u1 v0 v1, hb.eval u v u0 u1 v0 v1, Res.ok.inj g, add_sub_cancel_left]

/-- The hypotheses are met by three bilinear patches. -/
example (x : Fin 12 → XYZ ℚ) : ∃ s t r S, createBilinearSurface (x 0) (x 1) (x 2) (x 3) = ok s ∧ createBilinearSurface (x 4) (x 5) (x 6) (x 7) = ok t ∧
    createBilinearSurface (x 8) (x 9) (x 10) (x 11) = ok r ∧ gordonSum s t r = ok S := by
  obtain ⟨s, h1, k1, l1, p1⟩ := bilinear_patch (x 0) (x 1) (x 2) (x 3)
  obtain ⟨t, h2, k2, l2, p2⟩ := bilinear_patch (x 4) (x 5) (x 6) (x 7)
  obtain ⟨r, h3, k3, l3, p3⟩ := bilinear_patch (x 8) (x 9) (x 10) (x 11)
  have hb : WellSeparated ([0, 0, 0, 0, 1, 1, 1, 1] ++ ([0, 0, 0, 0, 1, 1, 1, 1] ++ [0, 0, 0, 0, 1, 1, 1, 1]) : List ℚ) := wellSep_bits (by
    intro x hx
    simp only [List.mem_append] at hx
    rcases hx with hx | hx | hx <;> exact bits_cubic x hx)
  obtain ⟨S, n, m, h, -⟩ := C157_sum_partial p1 p2 p3 (by rw [k1, k2, k3]; exact hb) (by rw [l1, l2, l3]; exact hb) (by simp) (by simp) (by simp) (by simp) (by simp) (by simp)
  exact ⟨s, t, r, S, h1, h2, h3, h⟩

theorem forDown_ok_inv {σ : Type} {body : ℤ → σ → Res σ} {a b : ℤ} {s s' : σ} (Inv : σ → Prop)
    (step : ∀ i s s', Inv s → body i s = ok s' → Inv s') (h0 : Inv s) (h : forDown a b s body = ok s') : Inv s' := by
  have key : ∀ (n : ℕ) (i : ℤ) (s : σ), Inv s → loopDown body n i s = ok s' → Inv s' := by
    intro n
    induction n with
    | zero => intro i s hs h; cases h; exact hs
    | succ n ih =>
      intro i s hs h
      obtain ⟨s1, h1, h2⟩ := bind_eq_ok.mp h
      exact ih _ s1 (step _ _ _ hs h1) h2
  exact key _ _ s h0 h

/-- Refining the knots keeps the degree and leaves the control points at least as many. -/
theorem refine_size {T : Type} [AddCommGroup T] [Module K T] {c d : BsplineCurve K T} {X : List K} (h : refineKnotVector c X = ok d) : d.degree = c.degree ∧ c.cps.length ≤ d.cps.length := by
  unfold refineKnotVector at h
  obtain ⟨_, hv, h⟩ := bind_eq_ok.mp h
  obtain ⟨_, _, h⟩ := bind_eq_ok.mp h
  obtain ⟨_, _, h⟩ := bind_eq_ok.mp h
  obtain ⟨_, _, h⟩ := bind_eq_ok.mp h
  obtain ⟨_, _, h⟩ := bind_eq_ok.mp h
  obtain ⟨V1, _, h⟩ := bind_eq_ok.mp h
  obtain ⟨V2, _, h⟩ := bind_eq_ok.mp h
  obtain ⟨Q1, hQ1, h⟩ := bind_eq_ok.mp h
  obtain ⟨Q2, hQ2, h⟩ := bind_eq_ok.mp h
  obtain ⟨st, hst, h⟩ := bind_eq_ok.mp h
  cases h
  refine ⟨rfl, ?_⟩
  have l1 := forI_ok_inv (fun Q : List T => Q.length = (((c.cps.length : ℤ) - 1) + ((X.length : ℤ) - 1) + 2).toNat) (by
    intro i s s' hs hb
    obtain ⟨_, _, hb⟩ := bind_eq_ok.mp hb
    rw [vset_length hb, hs]) (by simp) hQ1
  have l2 := forI_ok_inv (fun Q : List T => Q.length = (((c.cps.length : ℤ) - 1) + ((X.length : ℤ) - 1) + 2).toNat) (by
    intro i s s' hs hb
    obtain ⟨_, _, hb⟩ := bind_eq_ok.mp hb
    rw [vset_length hb, hs]) l1 hQ2
  have l3 := forDown_ok_inv (fun st : RefineState K T => st.Q.length = (((c.cps.length : ℤ) - 1) + ((X.length : ℤ) - 1) + 2).toNat) (by
    intro i s s' hs hb
    obtain ⟨_, _, hb⟩ := bind_eq_ok.mp hb
    obtain ⟨s1, h1, hb⟩ := bind_eq_ok.mp hb
    have g1 := (whileF_ok_post (fun st : RefineState K T => st.Q.length = (((c.cps.length : ℤ) - 1) + ((X.length : ℤ) - 1) + 2).toNat) (by
      intro s s' hs _ hb
      obtain ⟨_, _, hb⟩ := bind_eq_ok.mp hb
      obtain ⟨_, hq, hb⟩ := bind_eq_ok.mp hb
      obtain ⟨_, _, hb⟩ := bind_eq_ok.mp hb
      obtain ⟨_, _, hb⟩ := bind_eq_ok.mp hb
      cases hb
      dsimp only
      rw [vset_length hq, hs]) _ _ _ hs h1).1
    unfold refineInsert at hb
    obtain ⟨_, _, hb⟩ := bind_eq_ok.mp hb
    obtain ⟨q1, hq1, hb⟩ := bind_eq_ok.mp hb
    obtain ⟨q2, hq2, hb⟩ := bind_eq_ok.mp hb
    obtain ⟨_, _, hb⟩ := bind_eq_ok.mp hb
    cases hb
    dsimp only
    refine forI_ok_inv (fun Q : List T => Q.length = _) ?_ (by rw [vset_length hq1, g1]) hq2
    intro i s s' hs hb
    obtain ⟨_, _, hb⟩ := bind_eq_ok.mp hb
    obtain ⟨_, _, hb⟩ := bind_eq_ok.mp hb
    obtain ⟨_, _, hb⟩ := bind_eq_ok.mp hb
    split at hb
    · rw [vset_length hb, hs]
    · obtain ⟨_, _, hb⟩ := bind_eq_ok.mp hb
      obtain ⟨_, _, hb⟩ := bind_eq_ok.mp hb
      rw [vset_length hb, hs]) l2 hst
  rw [l3]
  have : 0 < X.length := by
    by_contra hc
    obtain rfl : X = [] := List.length_eq_zero_iff.mp (by omega)
    cases hv
  omega

theorem gordonRaise_same {p : ℤ} : ∀ {l l' : List (NurbsCurve K)}, (∀ c ∈ l, c.degree = p ∧ 0 < c.cps.length) → gordonRaise p l = ok l' →
    l'.length = l.length ∧ ∀ c ∈ l', c.degree = p ∧ 0 < c.cps.length := by
  intro l
  induction l with
  | nil => intro l' _ h; cases h; simp
  | cons c rest ih =>
    intro l' hl h
    unfold gordonRaise at h
    obtain ⟨d, hd, h⟩ := bind_eq_ok.mp h
    obtain ⟨e, he, h⟩ := bind_eq_ok.mp h
    obtain ⟨r, hr, h⟩ := bind_eq_ok.mp h
    cases h
    have hd' : d.degree = p ∧ 0 < d.cps.length := by
      have := hl c (by simp)
      unfold reparametrizeLinear at hd
      obtain ⟨_, _, hd⟩ := bind_eq_ok.mp hd
      obtain ⟨_, _, hd⟩ := bind_eq_ok.mp hd
      split at hd
      · cases hd; exact this
      · obtain ⟨_, _, hd⟩ := bind_eq_ok.mp hd
        cases hd
        exact this
    rw [if_neg (by omega)] at he
    cases he
    obtain ⟨h1, h2⟩ := ih (fun c hc => hl c (by simp [hc])) hr
    refine ⟨by simp [h1], fun c hc => ?_⟩
    rcases List.mem_cons.mp hc with rfl | hc
    · exact hd'
    · exact h2 c hc

theorem gordonRefine_same {p : ℤ} : ∀ {l l' : List (NurbsCurve K)} {ins : List (List K)}, (∀ c ∈ l, c.degree = p ∧ 0 < c.cps.length) → gordonRefine l ins = ok l' →
    l'.length = l.length ∧ ∀ c ∈ l', c.degree = p ∧ 0 < c.cps.length := by
  intro l
  induction l with
  | nil => intro l' ins _ h; cases h; simp
  | cons c rest ih =>
    intro l' ins hl h
    cases ins with
    | nil => cases h
    | cons x more =>
      unfold gordonRefine at h
      obtain ⟨e, he, h⟩ := bind_eq_ok.mp h
      obtain ⟨r, hr, h⟩ := bind_eq_ok.mp h
      cases h
      have hc0 := hl c (by simp)
      have hd' : e.degree = p ∧ 0 < e.cps.length := by
        unfold ruledRefine at he
        split at he
        · obtain ⟨h1, h2⟩ := refine_size he
          exact ⟨by rw [h1]; exact hc0.1, by omega⟩
        · cases he; exact hc0
      obtain ⟨h1, h2⟩ := ih (fun c hc => hl c (by simp [hc])) hr
      refine ⟨by simp [h1], fun c hc => ?_⟩
      rcases List.mem_cons.mp hc with rfl | hc
      · exact hd'
      · exact h2 c hc

end

/-- A loft through at most as many sections as their degree is never made. -/
theorem loft_few {solve : List (List ℝ) → List (List ℝ) → Res (List (List ℝ))} {d : ℤ} {p : ℕ} {l : List (NurbsCurve ℝ)} (h0 : 0 < l.length) (hp : l.length ≤ p)
    (hl : ∀ c ∈ l, c.degree = (p : ℤ) ∧ 0 < c.cps.length) (S : NurbsSurface ℝ) : createLoft solve l d [] ≠ ok S := by
  intro h
  unfold createLoft at h
  rw [if_pos List.length_nil, loftDegree_same (p := p) (by omega) h0 (fun c hc => (hl c hc).1), loftRaise_same (fun c hc => (hl c hc).1), ok_bind] at h
  obtain ⟨vl, _, h⟩ := bind_eq_ok.mp h
  unfold loftSurface at h
  obtain ⟨_, _, h⟩ := bind_eq_ok.mp h
  obtain ⟨c, hc, h⟩ := bind_eq_ok.mp h
  have hmem : c ∈ l := by
    obtain ⟨-, h⟩ := vget_eq_ok_iff.mp hc
    exact List.mem_of_getElem? h
  obtain ⟨cps, hcps, h⟩ := bind_eq_ok.mp h
  rw [forI_head (by have := (hl c hmem).2; omega)] at hcps
  obtain ⟨_, hcol, _⟩ := bind_eq_ok.mp hcps
  obtain ⟨_, hcol, _⟩ := bind_eq_ok.mp hcol
  unfold loftColumn at hcol
  obtain ⟨⟨wc, tm⟩, htm, hcol⟩ := bind_eq_ok.mp hcol
  have hlen := forI_ok_inv (fun s : List ℝ × List (XYZ ℝ) => s.2.length = l.length) (by
    rintro i ⟨w, t⟩ s' hs hb
    dsimp only at hb
    obtain ⟨_, _, hb⟩ := bind_eq_ok.mp hb
    obtain ⟨_, _, hb⟩ := bind_eq_ok.mp hb
    obtain ⟨_, _, hb⟩ := bind_eq_ok.mp hb
    obtain ⟨_, _, hb⟩ := bind_eq_ok.mp hb
    obtain ⟨_, _, hb⟩ := bind_eq_ok.mp hb
    obtain ⟨_, ht, hb⟩ := bind_eq_ok.mp hb
    cases hb
    dsimp only
    rw [vset_length ht, hs]) (by simp) htm
  obtain ⟨tc, htc, _⟩ := bind_eq_ok.mp hcol
  unfold globalInterpolation at htc
  obtain ⟨_, _, htc⟩ := bind_eq_ok.mp htc
  obtain ⟨_, hv, _⟩ := bind_eq_ok.mp htc
  dsimp only at hlen hv
  rw [hlen, show decide ((l.length : ℤ) > (p : ℤ)) = false by simp; exact_mod_cast hp] at hv
  cases hv

/-- C157 (violated): a network with no more curves in one direction than the degree of these curves is always rejected, for example every network of two curves of degree two by any number
of other curves. -/
theorem C157_few_violated {solve : List (List ℝ) → List (List ℝ) → Res (List (List ℝ))} {p : ℕ} {uCurves vCurves : List (NurbsCurve ℝ)} {pts : List (List (XYZ ℝ))}
    (h : (0 < uCurves.length ∧ uCurves.length ≤ p ∧ ∀ c ∈ uCurves, c.degree = (p : ℤ) ∧ 0 < c.cps.length) ∨
      (0 < vCurves.length ∧ vCurves.length ≤ p ∧ ∀ c ∈ vCurves, c.degree = (p : ℤ) ∧ 0 < c.cps.length)) (S : NurbsSurface ℝ) :
    createGordonSurface solve uCurves vCurves pts ≠ ok S := by
  intro hS
  unfold createGordonSurface at hS
  obtain ⟨us, hu, hS⟩ := bind_eq_ok.mp hS
  obtain ⟨vs, hv, hS⟩ := bind_eq_ok.mp hS
  obtain ⟨_, _, hS⟩ := bind_eq_ok.mp hS
  obtain ⟨sv, hsv, hS⟩ := bind_eq_ok.mp hS
  obtain ⟨su, hsu, hS⟩ := bind_eq_ok.mp hS
  have key : ∀ {l l' : List (NurbsCurve ℝ)}, 0 < l.length → (∀ c ∈ l, c.degree = (p : ℤ) ∧ 0 < c.cps.length) → gordonCurves l = ok l' →
      l'.length = l.length ∧ ∀ c ∈ l', c.degree = (p : ℤ) ∧ 0 < c.cps.length := by
    intro l l' h0 hl h
    unfold gordonCurves at h
    rw [loftDegree_same (p := p) (by omega) h0 (fun c hc => (hl c hc).1)] at h
    obtain ⟨r, hr, h⟩ := bind_eq_ok.mp h
    obtain ⟨a1, a2⟩ := gordonRaise_same hl hr
    obtain ⟨b1, b2⟩ := gordonRefine_same a2 h
    exact ⟨by omega, b2⟩
  rcases h with ⟨h1, h2, h3⟩ | ⟨h1, h2, h3⟩
  · obtain ⟨a1, a2⟩ := key h1 h3 hu
    exact loft_few (by omega) (by omega) a2 _ hsv
  · obtain ⟨a1, a2⟩ := key h1 h3 hv
    exact loft_few (by omega) (by omega) a2 _ hsu

/-- The hypotheses are met: two arcs of degree two. -/
example {solve : List (List ℝ) → List (List ℝ) → Res (List (List ℝ))} (vCurves : List (NurbsCurve ℝ)) (pts : List (List (XYZ ℝ))) (S : NurbsSurface ℝ) :
    createGordonSurface solve [⟨2, [0, 0, 0, 1, 1, 1], [⟨0, 0, 0, 1⟩, ⟨1, 1, 0, 1⟩, ⟨2, 0, 0, 1⟩]⟩, ⟨2, [0, 0, 0, 1, 1, 1], [⟨0, 0, 1, 1⟩, ⟨1, 1, 1, 1⟩, ⟨2, 0, 1, 1⟩]⟩] vCurves pts ≠ ok S :=
  C157_few_violated (p := 2) (Or.inl ⟨by simp, by simp, by simp⟩) S

/-- C157 (violated): a network of at least three by at least three curves, not as many in one direction as in the other, is never made, whatever the curves are, provided that the grid of the
crossings has a row and a column of positive length. (A grid that meets the hypotheses is shown beside `C113_rectangular_violated`.) -/
theorem C157_rectangular_violated {solve : List (List ℝ) → List (List ℝ) → Res (List (List ℝ))} {uCurves vCurves : List (NurbsCurve ℝ)} {pts : List (List (XYZ ℝ))} {rows cols : ℕ}
    (hpts : IsMat pts rows cols) (hr : 3 ≤ rows) (hc : 3 ≤ cols) (hne : rows ≠ cols) (hcols : goodColumns pts rows cols ≠ ∅) (hrows : goodRows pts rows cols ≠ ∅)
    (S : NurbsSurface ℝ) : createGordonSurface solve uCurves vCurves pts ≠ ok S := by
  intro hS
  unfold createGordonSurface at hS
  obtain ⟨_, _, hS⟩ := bind_eq_ok.mp hS
  obtain ⟨_, _, hS⟩ := bind_eq_ok.mp hS
  obtain ⟨_, _, hS⟩ := bind_eq_ok.mp hS
  obtain ⟨_, _, hS⟩ := bind_eq_ok.mp hS
  obtain ⟨_, _, hS⟩ := bind_eq_ok.mp hS
  obtain ⟨_, _, hS⟩ := bind_eq_ok.mp hS
  obtain ⟨T, hT, _⟩ := bind_eq_ok.mp hS
  exact C113_rectangular_violated hpts hr hc hne hcols hrows T hT

end LNLib.Props
