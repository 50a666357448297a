import Verif.Props.SurfaceNearest

/-!
# C150: all parameters of a point on a surface
-/
set_option linter.unusedSectionVars false

namespace LNLib.Props
open LNLib Res LNLib.Spec Finset

theorem flatMap_length {α β : Type} (f : α → List β) (L : ℕ) : ∀ A : List α, (∀ x ∈ A, (f x).length = L) → (A.flatMap f).length = A.length * L := by
  intro A
  induction A with
  | nil => intro _; simp
  | cons a A ih =>
    intro h
    rw [List.flatMap_cons, List.length_append, h a (by simp), ih (fun x hx => h x (by simp [hx])), List.length_cons]
    ring

theorem knots_unique {U : List ℝ} {p n : ℕ} (hl : U.length = n + p + 2) (hpn : p ≤ n)
    (hs : ∀ i j, i ≤ j → j < U.length → nth U i ≤ nth U j) (he : EndsSeparated (nth U) p n) : ∃ s, (stdUnique U).length = s + 2 := by
  have hlt : nth U 0 < nth U (n + p + 1) := by
    have h1 := he.first
    have h2 := hs (p + 1) (n + p + 1) (by omega) (by omega)
    have : (0 : ℝ) ≤ 1 / 1000000 * (1 + max |nth U p| |nth U (p + 1)|) := by
      have : 0 ≤ max |nth U p| |nth U (p + 1)| := le_max_of_le_left (abs_nonneg _)
      positivity
    have h3 := hs 0 p (by omega) (by omega)
    linarith
  obtain ⟨s, us, -⟩ := unique_knots (m := n + p + 1) (by omega) hs hlt
  exact ⟨s, us⟩

/-- the number of samples of a surface -/
theorem tessellate_sizes {c : NurbsSurface ℝ} {p q n m : ℕ} (w : WellFormedS c p q n m) (he : EndsSeparatedS c p q n m)
    (hcU : ClampedEnds (nth c.knotsU) p n) (hcV : ClampedEnds (nth c.knotsV) q m) :
    ∃ pts params s r, (stdUnique c.knotsU).length = s + 2 ∧ (stdUnique c.knotsV).length = r + 2 ∧ equallyTessellateSurface c = ok (pts, params) ∧ pts.length = params.length ∧
      params.length = (100 * (s + 1)) * (100 * (r + 1)) + 1 ∧ ∀ x ∈ params, InDomain c p q n m x.1 x.2 := by
  obtain ⟨s, us⟩ := knots_unique w.knotsU w.pn w.sortedU he.u
  obtain ⟨r, ur⟩ := knots_unique w.knotsV w.qm w.sortedV he.v
  obtain ⟨A, rA, dA, -⟩ := tessellateDirection_clamped w.knotsU w.pn w.sortedU he.u hcU
  obtain ⟨B, rB, dB, -⟩ := tessellateDirection_clamped w.knotsV w.qm w.sortedV he.v hcV
  have lA : A.length = 100 * (s + 1) := by
    rw [Res.ok.inj (rA.symm.trans (tessellateDirection_run rfl us))]; simp
  have lB : B.length = 100 * (r + 1) := by
    rw [Res.ok.inj (rB.symm.trans (tessellateDirection_run rfl ur))]; simp
  obtain ⟨pts, params, run, hpar, hpts⟩ := tessellateSurface_run rA rB w he hcU hcV (fun x hx => ⟨(dA x hx).1, (dA x hx).2.le⟩)
    (fun x hx => ⟨(dB x hx).1, (dB x hx).2.le⟩)
  refine ⟨pts, params, s, r, us, ur, run, by rw [hpts, List.length_map], ?_, ?_⟩
  · rw [hpar, List.length_append, flatMap_length _ (100 * (r + 1)) A (fun x _ => by rw [List.length_map, lB]), lA, List.length_singleton]
  · intro x hx
    rw [hpar, List.mem_append, List.mem_flatMap, List.mem_singleton] at hx
    rcases hx with ⟨u, hu, hx⟩ | rfl
    · obtain ⟨v, hv, rfl⟩ := List.mem_map.mp hx
      exact ⟨(dA u hu).1, (dA u hu).2.le, (dB v hv).1, (dB v hv).2.le⟩
    · exact ⟨w.sortedU _ _ (by have := w.pn; omega) (by rw [w.knotsU]; omega), le_refl _,
        w.sortedV _ _ (by have := w.qm; omega) (by rw [w.knotsV]; omega), le_refl _⟩

/-- the starting points are samples, and the last sample is among them -/
theorem initialGuesses_run {pts : List (XYZ ℝ)} {params : List (ℝ × ℝ)} {a b : ℕ} {P : XYZ ℝ} (hl : pts.length = params.length) (hp : params.length = a * b + 1) (ha : 2 ≤ a) (hb : 2 ≤ b) :
    Runs (initialGuesses pts params P a b) (fun g => (∃ g', g = g' ++ [nth params (a * b)]) ∧ ∀ x ∈ g, x ∈ params) := by
  unfold initialGuesses
  have mem : ∀ k, k < params.length → nth params k ∈ params := fun k hk => by rw [nth_eq_getElem hk]; exact List.getElem_mem _
  have dl : ∀ k, k < params.length → vget (pts.map fun x => (P - x).dot (P - x)) (k : ℤ) = ok ((P - nth pts k).dot (P - nth pts k)) := by
    intro k hk
    rw [vget_nth (k := k) rfl (by simp; omega), nth_map (by omega)]
  dsimp only
  refine Runs.bind (Q := fun g => ∀ x ∈ g, x ∈ params) ?_ ?_
  · refine (Runs.forN (m := 1) (n := a - 1) (fun _ (g : List (ℝ × ℝ)) => ∀ x ∈ g, x ∈ params) rfl (by omega) (by omega) (by simp) ?_).mono (fun _ h => h)
    rintro i g hi1 hi hg
    refine (Runs.forN (m := 1) (n := b - 1) (fun _ (g : List (ℝ × ℝ)) => ∀ x ∈ g, x ∈ params) rfl (by omega) (by omega) hg ?_).mono (fun _ h => h)
    rintro j g hj1 hj hg
    have key : ∀ i' j', i' < a → j' < b → i' * b + j' < params.length := by
      intro i' j' h1 h2
      have : (i' + 1) * b ≤ a * b := Nat.mul_le_mul_right b h1
      rw [hp]
      nlinarith
    have e1 : ((i : ℤ) * (b : ℤ) + j) = ((i * b + j : ℕ) : ℤ) := by push_cast; ring
    have e2 : (((i : ℤ) - 1) * (b : ℤ) + j) = (((i - 1) * b + j : ℕ) : ℤ) := by push_cast [Nat.cast_sub hi1]; ring
    have e3 : (((i : ℤ) + 1) * (b : ℤ) + j) = (((i + 1) * b + j : ℕ) : ℤ) := by push_cast; ring
    have e4 : ((i : ℤ) * (b : ℤ) + (j - 1)) = ((i * b + (j - 1) : ℕ) : ℤ) := by push_cast [Nat.cast_sub hj1]; ring
    have e5 : ((i : ℤ) * (b : ℤ) + (j + 1)) = ((i * b + (j + 1) : ℕ) : ℤ) := by push_cast; ring
    rw [e1, e2, e3, e4, e5]
    rw [dl _ (key i j (by omega) (by omega)), ok_bind, dl _ (key (i - 1) j (by omega) (by omega)), ok_bind, dl _ (key (i + 1) j (by omega) (by omega)), ok_bind,
      dl _ (key i (j - 1) (by omega) (by omega)), ok_bind, dl _ (key i (j + 1) (by omega) (by omega)), ok_bind]
    split_ifs
    · rw [vget_nth (k := i * b + j) rfl (key i j (by omega) (by omega)), ok_bind]
      refine Runs.ok fun x hx => ?_
      rw [List.mem_append, List.mem_singleton] at hx
      rcases hx with hx | rfl
      · exact hg x hx
      · exact mem _ (key i j (by omega) (by omega))
    · exact Runs.ok hg
  · intro g hg
    rw [if_pos (by omega), vget_nth (k := a * b) (by rw [hp]; push_cast; ring) (by omega), ok_bind]
    refine Runs.ok ⟨⟨g, rfl⟩, fun x hx => ?_⟩
    rw [List.mem_append, List.mem_singleton] at hx
    rcases hx with hx | rfl
    · exact hg x hx
    · exact mem _ (by omega)

/-- The two pairs differ in a parameter by more than the comparison tolerance. -/
def Distinct (x y : ℝ × ℝ) : Prop := 1 / 1000000 * (1 + |x.1 - y.1|) < |x.1 - y.1| ∨ 1 / 1000000 * (1 + |x.2 - y.2|) < |x.2 - y.2|

theorem sameParam_distinct {bU bV : Bool} {a b c d : ℝ} {x y : ℝ × ℝ} (h : ¬ sameParam bU bV a b c d x y = true) : Distinct x y := by
  by_contra hn
  unfold Distinct at hn
  rw [not_or, not_lt, not_lt] at hn
  apply h
  unfold sameParam
  have key : ∀ (e : ℝ) (B : Bool) (z : ℝ), 0 ≤ e → e ≤ 1 / 1000000 * (1 + e) → isAlmostEqualTo (if B = true then min e |z| else e) 0 = true := by
    intro e B z h0 h1
    split_ifs
    · rw [almost_zero_iff (le_min h0 (abs_nonneg _))]
      have := min_le_left e |z|
      linarith
    · rw [almost_zero_iff h0]; exact h1
  dsimp only
  rw [Bool.and_eq_true]
  exact ⟨key _ _ _ (abs_nonneg _) hn.1, key _ _ _ (abs_nonneg _) hn.2⟩

/-- everything before the loop over the starting points -/
theorem getAllParams_start {c : NurbsSurface ℝ} {p q n m : ℕ} (w : WellFormedS c p q n m) (he : EndsSeparatedS c p q n m)
    (hcU : ClampedEnds (nth c.knotsU) p n) (hcV : ClampedEnds (nth c.knotsV) q m) (P : XYZ ℝ) :
    ∃ bU bV guesses pts params, isClosedSurface c true = ok bU ∧ isClosedSurface c false = ok bV ∧ guesses ≠ [] ∧ (∀ x ∈ guesses, InDomain c p q n m x.1 x.2) ∧
      equallyTessellateSurface c = ok (pts, params) ∧ initialGuesses pts params P (((stdUnique c.knotsU).length - 1) * 100) (((stdUnique c.knotsV).length - 1) * 100) = ok guesses ∧
      getAllParamsOnSurface c P = forI 0 (guesses.length : ℤ) ([] : List (ℝ × ℝ)) (fun i result => do
        let guess ← vget guesses i
        let (param, _) ← newtonLoopS c P (backIntoTol bU (nth c.knotsU p) (nth c.knotsU (n + 1))) (backInto bV (nth c.knotsV q) (nth c.knotsV (m + 1))) guess
        if result.any (fun e => sameParam bU bV (nth c.knotsU p) (nth c.knotsU (n + 1)) (nth c.knotsV q) (nth c.knotsV (m + 1)) e param) then ok result
        else ok (result ++ [param])) := by
  have lU := w.knotsU
  have lV := w.knotsV
  obtain ⟨⟨bU, eU⟩, bV, eV⟩ := isClosedSurface_runs w he hcU hcV
  obtain ⟨pts, params, s, r, us, ur, et, l1, l2, hd⟩ := tessellate_sizes w he hcU hcV
  obtain ⟨g, eg, ⟨g', hg'⟩, hg⟩ := initialGuesses_run (P := P) l1 l2 (by omega) (by omega)
  have n1 : (((stdUnique c.knotsU).length : ℤ) - 1) * 100 = ((100 * (s + 1) : ℕ) : ℤ) := by rw [us]; push_cast; ring
  have n2 : (((stdUnique c.knotsV).length : ℤ) - 1) * 100 = ((100 * (r + 1) : ℕ) : ℤ) := by rw [ur]; push_cast; ring
  refine ⟨bU, bV, g, pts, params, eU, eV, by rw [hg']; simp, fun x hx => hd x (hg x hx), et, by rw [n1, n2, eg], ?_⟩
  unfold getAllParamsOnSurface
  rw [vget_nth (i := 0) (k := 0) rfl (by omega), ok_bind, vget_nth (k := n + p + 1) (by omega) (by omega), ok_bind, vget_nth (i := 0) (k := 0) rfl (by omega), ok_bind,
    vget_nth (k := m + q + 1) (by omega) (by omega), ok_bind, hcU.first, ← hcU.last, hcV.first, ← hcV.last, eU, ok_bind, eV, ok_bind, et, ok_bind]
  dsimp only
  rw [n1, n2, eg, ok_bind]

/-- C150 (partial): on every valid clamped surface of degree at least two in both directions, with positive weights, that is not closed in the first direction, the search returns at least one
pair of parameters for every point; each of them is in the domain (up to a last Newton step of about 1e-6), and no two of them coincide up to the tolerance.  Missing from the full statement: surfaces closed
in the first direction, whose parameters are brought back into the domain up to a tolerance only; and that all parameters are found, which is false (`C150_all_violated`). -/
theorem C150_distinct_partial {c : NurbsSurface ℝ} {p q n m : ℕ} (w : WellFormedS c p q n m) (he : EndsSeparatedS c p q n m)
    (hcU : ClampedEnds (nth c.knotsU) p n) (hcV : ClampedEnds (nth c.knotsV) q m)
    (hw : ∀ i j, i ≤ n → j ≤ m → 0 < (ent c.cps i j).w) (hp : 2 ≤ p) (hq : 2 ≤ q) (hopen : isClosedSurface c true = ok false) (P : XYZ ℝ) :
    ∃ l, getAllParamsOnSurface c P = ok l ∧ l ≠ [] ∧ l.Pairwise Distinct ∧
      ∀ T ∈ l, InDomain c p q n m T.1 T.2 ∨ ∃ T0 : ℝ × ℝ, InDomain c p q n m T0.1 T0.2 ∧ SmallStepS c P T0 T := by
  obtain ⟨bU, bV, g, -, -, eU, -, hne, hd, -, -, e⟩ := getAllParams_start w he hcU hcV P
  obtain rfl : false = bU := Res.ok.inj (hopen.symm.trans eU)
  have ltU := dirLt w.pn (wfS_monoU w) he.u
  have ltV := dirLt w.qm (wfS_monoV w) he.v
  rw [e]
  have hpos : 0 < g.length := List.length_pos_iff.mpr hne
  refine (Runs.forN (m := 0) (n := g.length) (fun i (l : List (ℝ × ℝ)) => (0 < i → l ≠ []) ∧ l.Pairwise Distinct ∧
    ∀ T ∈ l, InDomain c p q n m T.1 T.2 ∨ ∃ T0 : ℝ × ℝ, InDomain c p q n m T0.1 T0.2 ∧ SmallStepS c P T0 T) rfl rfl (by omega) ⟨fun h => absurd h (by omega), List.Pairwise.nil, by simp⟩ ?_).mono
    (fun l h => ⟨h.1 hpos, h.2⟩)
  rintro i l - hi ⟨h1, h2, h3⟩
  rw [vget_nth (k := i) rfl hi, ok_bind]
  obtain ⟨x, ex, hx⟩ := newtonLoopS_run w he hw hp hq P (wU := backIntoTol false (nth c.knotsU p) (nth c.knotsU (n + 1))) (fun x => by
    unfold backIntoTol
    exact Runs.ok ⟨le_max_left _ _, max_le ltU.le (min_le_left _ _)⟩) (backInto_run ltV bV) (t0 := nth g i) (hd _ (by rw [nth_eq_getElem hi]; exact List.getElem_mem _))
  obtain ⟨T1, d1⟩ := x
  rw [ex, ok_bind]
  dsimp only at hx ⊢
  split_ifs with hany
  · refine Runs.ok ⟨fun _ hl => ?_, h2, h3⟩
    rw [hl] at hany
    simp at hany
  · refine Runs.ok ⟨fun _ => by simp, ?_, ?_⟩
    · rw [List.pairwise_append]
      refine ⟨h2, List.pairwise_singleton _ _, fun a ha b hb => ?_⟩
      rw [List.mem_singleton] at hb
      rw [hb]
      apply sameParam_distinct
      intro hs
      exact hany (List.any_eq_true.mpr ⟨a, ha, hs⟩)
    · intro T hT
      rw [List.mem_append, List.mem_singleton] at hT
      rcases hT with hT | rfl
      · exact h3 T hT
      · exact hx

/-- C150 is violated by every surface of degree one in a direction: the search throws an exception, whatever the point. -/
theorem C150_linear_violated {c : NurbsSurface ℝ} {p q n m : ℕ} (w : WellFormedS c p q n m) (he : EndsSeparatedS c p q n m)
    (hcU : ClampedEnds (nth c.knotsU) p n) (hcV : ClampedEnds (nth c.knotsV) q m) (h : p = 1 ∨ q = 1) (P : XYZ ℝ) :
    getAllParamsOnSurface c P = invalidArg := by
  obtain ⟨bU, bV, g, -, -, -, -, hne, hd, -, -, e⟩ := getAllParams_start w he hcU hcV P
  have hpos : 0 < g.length := List.length_pos_iff.mpr hne
  rw [e, forI_head (by omega), vget_nth (i := 0) (k := 0) rfl hpos, ok_bind]
  unfold newtonLoopS
  rw [forI_head (by omega), if_neg (by simp)]
  unfold newtonRoundS
  rw [order2_rejected w he (hd _ (by rw [nth_eq_getElem hpos]; exact List.getElem_mem _)) h]
  rfl

/-! ### A folded strip -/

theorem nth_flatMap {α β : Type} [Zero α] [Zero β] (f : α → List β) (L : ℕ) : ∀ (A : List α) (i j : ℕ), (∀ x ∈ A, (f x).length = L) → i < A.length → j < L →
    nth (A.flatMap f) (i * L + j) = nth (f (nth A i)) j := by
  intro A
  induction A with
  | nil => intro i j _ h; simp at h
  | cons a A ih =>
    intro i j h hi hj
    rw [List.flatMap_cons]
    cases i with
    | zero =>
      rw [Nat.zero_mul, Nat.zero_add, nth_append_left (by rw [h a (by simp)]; exact hj)]
      rfl
    | succ i =>
      have e : (i + 1) * L + j = (f a).length + (i * L + j) := by rw [h a (by simp)]; ring
      rw [e, nth_append_right (by omega), Nat.add_sub_cancel_left, ih i j (fun x hx => h x (by simp [hx])) (by simpa using hi) hj]
      rfl

/-- the starting points when no inner sample is strictly nearer than its neighbours -/
theorem initialGuesses_only {pts : List (XYZ ℝ)} {params : List (ℝ × ℝ)} {a b : ℕ} {P : XYZ ℝ} (hl : pts.length = params.length) (hp : params.length = a * b + 1) (ha : 2 ≤ a) (hb : 2 ≤ b)
    {d : ℕ → ℕ → ℝ} (hd : ∀ i j, i < a → j < b → (P - nth pts (i * b + j)).dot (P - nth pts (i * b + j)) = d i j)
    (h : ∀ i j, 1 ≤ i → i + 1 < a → 1 ≤ j → j + 1 < b → d (i - 1) j ≤ d i j ∨ d (i + 1) j ≤ d i j ∨ d i (j - 1) ≤ d i j ∨ d i (j + 1) ≤ d i j) :
    initialGuesses pts params P a b = ok [nth params (a * b)] := by
  unfold initialGuesses
  have key : ∀ i' j', i' < a → j' < b → i' * b + j' < params.length := by
    intro i' j' h1 h2
    have : (i' + 1) * b ≤ a * b := Nat.mul_le_mul_right b h1
    rw [hp]
    nlinarith
  have dl : ∀ i j, i < a → j < b → vget (pts.map fun x => (P - x).dot (P - x)) ((i * b + j : ℕ) : ℤ) = ok (d i j) := by
    intro i j hi hj
    have := key i j hi hj
    rw [vget_nth (k := i * b + j) rfl (by simp; omega), nth_map (by omega), hd i j hi hj]
  have lt : ∀ x y : ℝ, y ≤ x → isLessThan x y = false := by
    intro x y hxy
    unfold isLessThan
    rw [decide_eq_false_iff_not, gt_iff_lt, not_lt]
    have : 0 ≤ tolOf x y (doubleEps : ℝ) := by
      unfold tolOf doubleEps
      have : 0 ≤ max |x| |y| := le_max_of_le_left (abs_nonneg _)
      positivity
    linarith
  dsimp only
  apply Runs.eq
  refine Runs.bind (Q := fun g => g = []) ?_ ?_
  · refine (Runs.forN (m := 1) (n := a - 1) (fun _ (g : List (ℝ × ℝ)) => g = []) rfl (by omega) (by omega) rfl ?_).mono (fun _ h => h)
    rintro i g hi1 hi rfl
    refine (Runs.forN (m := 1) (n := b - 1) (fun _ (g : List (ℝ × ℝ)) => g = []) rfl (by omega) (by omega) rfl ?_).mono (fun _ h => h)
    rintro j g hj1 hj rfl
    have e1 : ((i : ℤ) * (b : ℤ) + j) = ((i * b + j : ℕ) : ℤ) := by push_cast; ring
    have e2 : (((i : ℤ) - 1) * (b : ℤ) + j) = (((i - 1) * b + j : ℕ) : ℤ) := by push_cast [Nat.cast_sub hi1]; ring
    have e3 : (((i : ℤ) + 1) * (b : ℤ) + j) = (((i + 1) * b + j : ℕ) : ℤ) := by push_cast; ring
    have e4 : ((i : ℤ) * (b : ℤ) + (j - 1)) = ((i * b + (j - 1) : ℕ) : ℤ) := by push_cast [Nat.cast_sub hj1]; ring
    have e5 : ((i : ℤ) * (b : ℤ) + (j + 1)) = ((i * b + (j + 1) : ℕ) : ℤ) := by push_cast; ring
    rw [e1, e2, e3, e4, e5]
    rw [dl i j (by omega) (by omega), ok_bind, dl (i - 1) j (by omega) (by omega), ok_bind, dl (i + 1) j (by omega) (by omega), ok_bind,
      dl i (j - 1) (by omega) (by omega), ok_bind, dl i (j + 1) (by omega) (by omega), ok_bind]
    rw [if_neg]
    · exact Runs.ok rfl
    · rcases h i j hi1 (by omega) hj1 (by omega) with h | h | h | h <;> simp [lt _ _ h]
  · rintro g rfl
    rw [if_pos (by omega), vget_nth (k := a * b) (by rw [hp]; push_cast; ring) (by omega), ok_bind]
    exact Runs.ok rfl

/-- a folded strip: the points `(u + v, (2u - 1)², 0)`, `0 ≤ u, v ≤ 1` -/
noncomputable def foldPatch : NurbsSurface ℝ :=
  { degreeU := 2, degreeV := 2, knotsU := [0, 0, 0, 1, 1, 1], knotsV := [0, 0, 0, 1, 1, 1]
    cps := (List.range 3).map fun i => (List.range 3).map fun j => XYZW.ofXYZ ⟨(i : ℝ) / 2 + (j : ℝ) / 2, 1 - 2 * (i : ℝ) * (2 - (i : ℝ)), 0⟩ 1 }

theorem foldPatch_wf : WellFormedS foldPatch 2 2 2 2 where
  degreeU := rfl
  degreeV := rfl
  posU := by decide
  posV := by decide
  le7U := by decide
  le7V := by decide
  cps := ⟨rfl, fun i hi => by have : i < 3 := hi; interval_cases i <;> rfl⟩
  pn := by decide
  qm := by decide
  knotsU := rfl
  knotsV := rfl
  sortedU := isValidKnotVector_nth.mp (by rw [isValidKnotVector_iff]; simp [foldPatch])
  sortedV := isValidKnotVector_nth.mp (by rw [isValidKnotVector_iff]; simp [foldPatch])

theorem foldPatch_ends : EndsSeparatedS foldPatch 2 2 2 2 := ⟨bez2_ends, bez2_ends⟩

theorem foldPatch_clamped : ClampedEnds (nth foldPatch.knotsU) 2 2 ∧ ClampedEnds (nth foldPatch.knotsV) 2 2 := ⟨⟨rfl, rfl⟩, rfl, rfl⟩

theorem foldPatch_ent {i j : ℕ} (hi : i ≤ 2) (hj : j ≤ 2) : ent foldPatch.cps i j = XYZW.ofXYZ ⟨(i : ℝ) / 2 + (j : ℝ) / 2, 1 - 2 * (i : ℝ) * (2 - (i : ℝ)), 0⟩ 1 := by
  interval_cases i <;> interval_cases j <;> rfl

theorem foldPatch_weights : ∀ i j, i ≤ 2 → j ≤ 2 → 0 < (ent foldPatch.cps i j).w := by
  intro i j hi hj
  rw [foldPatch_ent hi hj]
  exact zero_lt_one

theorem foldPatch_point {u v : ℝ} (hu : 0 ≤ u ∧ u ≤ 1) (hv : 0 ≤ v ∧ v ≤ 1) :
    surfacePoint (nth foldPatch.knotsU) (nth foldPatch.knotsV) 2 2 2 2 (ent foldPatch.cps) u v = XYZW.ofXYZ ⟨u + v, (2 * u - 1) * (2 * u - 1), 0⟩ 1 := by
  rw [← C67_zeroth (wfS_monoU foldPatch_wf) (wfS_monoV foldPatch_wf) (planePatch_span hu.1 hu.2) (planePatch_span hv.1 hv.2)]
  unfold surfaceDeriv
  simp only [sum_range_succ, sum_range_zero, foldPatch_ent (show 0 ≤ 2 by omega) (show 0 ≤ 2 by omega), foldPatch_ent (show 0 ≤ 2 by omega) (show 1 ≤ 2 by omega),
    foldPatch_ent (show 0 ≤ 2 by omega) (show 2 ≤ 2 by omega), foldPatch_ent (show 1 ≤ 2 by omega) (show 0 ≤ 2 by omega), foldPatch_ent (show 1 ≤ 2 by omega) (show 1 ≤ 2 by omega),
    foldPatch_ent (show 1 ≤ 2 by omega) (show 2 ≤ 2 by omega), foldPatch_ent (show 2 ≤ 2 by omega) (show 0 ≤ 2 by omega), foldPatch_ent (show 2 ≤ 2 by omega) (show 1 ≤ 2 by omega),
    foldPatch_ent (show 2 ≤ 2 by omega) (show 2 ≤ 2 by omega)]
  simp only [foldPatch, (bez2_dN _).1, (bez2_dN _).2.1, (bez2_dN _).2.2]
  ext <;> simp [XYZW.ofXYZ] <;> ring

theorem foldPatch_open : isClosedSurface foldPatch true = ok false := by
  have run : ∀ j, j ≤ 2 → isClosedCurve (column foldPatch 2 j) = ok false := by
    intro j hj
    refine threePoints_open (x0 := (j : ℝ) / 2) (column_wf (j := j) foldPatch_wf) foldPatch_ends.u foldPatch_clamped.1 (by positivity) ?_ ?_
    · have : (j : ℝ) ≤ 2 := by exact_mod_cast hj
      linarith
    · intro i hi
      rw [show nth (column foldPatch 2 j).cps i = ent foldPatch.cps i j from nth_range hi]
      rw [foldPatch_ent hi hj, ofXYZ_one_toXYZ]
      simp
      ring
  obtain ⟨r, e, hr⟩ := isClosedSurface_u foldPatch_wf (b := fun _ => false) run
  rw [e]
  congr 1
  rw [← Bool.not_eq_true, hr]
  intro h
  exact absurd (h 0 (by omega)) (by simp)

/-- the squared distance of the sample `(i/100, j/100)` from the point `(1, 1, 0)` -/
noncomputable def foldDist (i j : ℕ) : ℝ := (1 - ((i : ℝ) / 100 + (j : ℝ) / 100)) ^ 2 + (1 - (2 * ((i : ℝ) / 100) - 1) ^ 2) ^ 2

theorem foldDist_step {x e : ℝ} (h0 : 1 / 100 ≤ x) (h1 : x ≤ 1 / 2) (he : e < 1 / 200) : (e + 1 / 100) ^ 2 + (1 - (2 * (x - 1 / 100) - 1) ^ 2) ^ 2 ≤ e ^ 2 + (1 - (2 * x - 1) ^ 2) ^ 2 := by
  have k1 : 1 / 200 ≤ (101 / 100 - 2 * x) * x := by nlinarith [mul_nonneg (sub_nonneg.mpr h0) (sub_nonneg.mpr h1)]
  have k2 : 1 / 400 ≤ (101 / 100 - 2 * x) * x * (1 - x) := by nlinarith
  have k3 : 0 ≤ (101 / 100 - 2 * x) * ((x - 1 / 100) * (1 - (x - 1 / 100))) := mul_nonneg (by linarith) (mul_nonneg (by linarith) (by linarith))
  have id : (1 - (2 * x - 1) ^ 2) ^ 2 - (1 - (2 * (x - 1 / 100) - 1) ^ 2) ^ 2 = 4 / 25 * ((101 / 100 - 2 * x) * x * (1 - x) + (101 / 100 - 2 * x) * ((x - 1 / 100) * (1 - (x - 1 / 100)))) := by ring
  nlinarith

theorem foldDist_min (i j : ℕ) (hi : 1 ≤ i) (hi2 : i + 1 < 100) (hj : 1 ≤ j) (_hj2 : j + 1 < 100) :
    foldDist (i - 1) j ≤ foldDist i j ∨ foldDist (i + 1) j ≤ foldDist i j ∨ foldDist i (j - 1) ≤ foldDist i j ∨ foldDist i (j + 1) ≤ foldDist i j := by
  unfold foldDist
  push_cast [Nat.cast_sub hi, Nat.cast_sub hj]
  have x0 : (1 : ℝ) ≤ i := by exact_mod_cast hi
  have x1 : (i : ℝ) ≤ 98 := by exact_mod_cast (by omega : i ≤ 98)
  obtain ⟨x, hx⟩ : ∃ x : ℝ, (i : ℝ) / 100 = x := ⟨_, rfl⟩
  obtain ⟨y, hy⟩ : ∃ y : ℝ, (j : ℝ) / 100 = y := ⟨_, rfl⟩
  rw [show ((j : ℝ) - 1) / 100 = y - 1 / 100 by rw [← hy]; ring, show ((j : ℝ) + 1) / 100 = y + 1 / 100 by rw [← hy]; ring,
    show ((i : ℝ) - 1) / 100 = x - 1 / 100 by rw [← hx]; ring, show ((i : ℝ) + 1) / 100 = x + 1 / 100 by rw [← hx]; ring, hy, hx]
  by_contra hn
  rw [not_or, not_or, not_or, not_le, not_le, not_le, not_le] at hn
  obtain ⟨h1, h2, h3, h4⟩ := hn
  have a1 : 1 - (x + y) < 1 / 200 := by nlinarith
  have a2 : -(1 / 200) < 1 - (x + y) := by nlinarith
  rcases le_total x (1 / 2) with h | h
  · have := foldDist_step (x := x) (by linarith) h a1
    have id : 1 - (x + y) + 1 / 100 = 1 - (x - 1 / 100 + y) := by ring
    rw [id] at this
    linarith
  · have := foldDist_step (x := 1 - x) (e := -(1 - (x + y))) (by linarith) (by linarith) (by linarith)
    have id1 : (-(1 - (x + y)) + 1 / 100) ^ 2 = (1 - (x + 1 / 100 + y)) ^ 2 := by ring
    have id2 : (1 - (2 * (1 - x - 1 / 100) - 1) ^ 2) ^ 2 = (1 - (2 * (x + 1 / 100) - 1) ^ 2) ^ 2 := by ring
    have id3 : (1 - (2 * (1 - x) - 1) ^ 2) ^ 2 = (1 - (2 * x - 1) ^ 2) ^ 2 := by ring
    rw [id1, id2, id3, neg_sq] at this
    linarith

/-- C150 is violated: the point `(1, 1, 0)` is on the folded strip at the parameters `(0, 1)` and `(1, 0)`, and the strip is not closed, but the search returns one pair of parameters only: it looks at the inner
samples and at the last corner, so that the parameters on the border are not searched for. -/
theorem C150_all_violated : NurbsSurface.pointOnSurface foldPatch 0 1 = ok ⟨1, 1, 0⟩ ∧ NurbsSurface.pointOnSurface foldPatch 1 0 = ok ⟨1, 1, 0⟩ ∧ isClosedSurface foldPatch true = ok false ∧
    ∃ T, getAllParamsOnSurface foldPatch ⟨1, 1, 0⟩ = ok [T] := by
  have w := foldPatch_wf
  have he := foldPatch_ends
  have hc := foldPatch_clamped
  have hpt : ∀ u v : ℝ, 0 ≤ u ∧ u ≤ 1 → 0 ≤ v ∧ v ≤ 1 → NurbsSurface.pointOnSurface foldPatch u v = ok ⟨u + v, (2 * u - 1) * (2 * u - 1), 0⟩ := by
    intro u v hu hv
    unfold NurbsSurface.pointOnSurface
    rw [C33_eval w he ⟨hu.1, hu.2, hv.1, hv.2⟩, ok_bind, foldPatch_point hu hv, ofXYZ_one_toXYZ]
  refine ⟨by rw [hpt 0 1 (by norm_num) (by norm_num)]; norm_num, by rw [hpt 1 0 (by norm_num) (by norm_num)]; norm_num, foldPatch_open, ?_⟩
  obtain ⟨bU, bV, g, pts, params, eU, -, hne, hd, et, eg, e⟩ := getAllParams_start w he hc.1 hc.2 ⟨1, 1, 0⟩
  obtain rfl : false = bU := Res.ok.inj (foldPatch_open.symm.trans eU)
  have hW : stdUnique ([0, 0, 0, 1, 1, 1] : List ℝ) = [0, 1] := by simp [stdUnique]
  have hU : stdUnique foldPatch.knotsU = [0, 1] := hW
  have hV : stdUnique foldPatch.knotsV = [0, 1] := hW
  have hsam : ∀ k, k < 100 → sampleAt (nth ([0, 1] : List ℝ)) 100 k = (k : ℝ) / 100 := by
    intro k hk
    have := sampleAt_eq (nth ([0, 1] : List ℝ)) 100 (i := 0) hk
    rw [mul_zero, zero_add] at this
    rw [this]
    norm_num [nth]
    ring
  obtain ⟨A, hA⟩ : ∃ A : List ℝ, A = (List.range (100 * (0 + 1))).map (sampleAt (nth ([0, 1] : List ℝ)) 100) := ⟨_, rfl⟩
  have lA : A.length = 100 := by rw [hA]; simp
  have nA : ∀ k, k < 100 → nth A k = (k : ℝ) / 100 := by
    intro k hk
    rw [hA, nth_map (by simpa using hk), nth_eq_getElem (by simpa using hk), List.getElem_range, hsam k hk]
  have dA : ∀ x ∈ A, 0 ≤ x ∧ x ≤ 1 := by
    intro x hx
    obtain ⟨k, hk, rfl⟩ := List.mem_iff_getElem.mp hx
    rw [← nth_eq_getElem hk, nA k (by omega)]
    have : (k : ℝ) ≤ 99 := by exact_mod_cast (by omega : k ≤ 99)
    exact ⟨by positivity, by linarith⟩
  obtain ⟨pts', params', et', hpar, hpts⟩ := tessellateSurface_run (A := A) (B := A) (by rw [hA]; exact tessellateDirection_run hU rfl) (by rw [hA]; exact tessellateDirection_run hV rfl) w he hc.1 hc.2 dA dA
  obtain ⟨rfl, rfl⟩ := Prod.mk.inj (Res.ok.inj (et.symm.trans et'))
  have lp : params.length = 100 * 100 + 1 := by
    rw [hpar, List.length_append, flatMap_length _ 100 A (fun x _ => by rw [List.length_map, lA]), lA, List.length_singleton]
  have hnp : ∀ i j, i < 100 → j < 100 → nth params (i * 100 + j) = ((i : ℝ) / 100, (j : ℝ) / 100) := by
    intro i j hi hj
    rw [hpar, nth_append_left (by rw [flatMap_length _ 100 A (fun x _ => by rw [List.length_map, lA]), lA]; omega),
      nth_flatMap _ 100 A i j (fun x _ => by rw [List.length_map, lA]) (by omega) hj, nth_map (by omega), nA i hi, nA j hj]
  have eg2 := initialGuesses_only (pts := pts) (params := params) (P := ⟨1, 1, 0⟩) (d := foldDist) (by rw [hpts, List.length_map]) lp (by norm_num) (by norm_num) (by
    intro i j hi hj
    have hi' : (i : ℝ) ≤ 99 := by exact_mod_cast (by omega : i ≤ 99)
    have hj' : (j : ℝ) ≤ 99 := by exact_mod_cast (by omega : j ≤ 99)
    rw [hpts, nth_map (by omega), hnp i j hi hj]
    dsimp only
    rw [foldPatch_point ⟨by positivity, by linarith⟩ ⟨by positivity, by linarith⟩, ofXYZ_one_toXYZ]
    unfold foldDist
    simp [XYZ.dot]
    ring) foldDist_min
  have hg : g = [nth params (100 * 100)] := by
    rw [hU, hV] at eg
    exact Res.ok.inj (eg.symm.trans eg2)
  obtain ⟨x, ex, hx⟩ := newtonLoopS_run w he foldPatch_weights (le_refl _) (le_refl _) ⟨1, 1, 0⟩ (wU := backIntoTol false (nth foldPatch.knotsU 2) (nth foldPatch.knotsU (2 + 1))) (fun x => by
    unfold backIntoTol
    exact Runs.ok ⟨le_max_left _ _, max_le (dirLt w.pn (wfS_monoU w) he.u).le (min_le_left _ _)⟩) (backInto_run (dirLt w.qm (wfS_monoV w) he.v) bV) (t0 := nth params (100 * 100))
    (hd _ (by rw [hg]; simp))
  obtain ⟨T, dd⟩ := x
  refine ⟨T, ?_⟩
  rw [e, hg]
  rw [forI_head (by simp), vget_nth (i := 0) (k := 0) rfl (by simp), ok_bind, show nth [nth params (100 * 100)] 0 = nth params (100 * 100) from rfl, ex, ok_bind]
  dsimp only
  rw [if_neg (by simp), ok_bind, forI_empty (by simp)]
  rfl

/-! ### Examples -/

example : ∃ l, getAllParamsOnSurface foldPatch ⟨1 / 2, 1 / 3, 2⟩ = ok l ∧ l ≠ [] ∧ l.Pairwise Distinct ∧
      ∀ T ∈ l, InDomain foldPatch 2 2 2 2 T.1 T.2 ∨ ∃ T0 : ℝ × ℝ, InDomain foldPatch 2 2 2 2 T0.1 T0.2 ∧ SmallStepS foldPatch ⟨1 / 2, 1 / 3, 2⟩ T0 T :=
  C150_distinct_partial foldPatch_wf foldPatch_ends foldPatch_clamped.1 foldPatch_clamped.2 foldPatch_weights (le_refl _) (le_refl _) foldPatch_open _

example (P : XYZ ℝ) : getAllParamsOnSurface unitSquare P = invalidArg :=
  C150_linear_violated unitSquare_wf.1 unitSquare_wf.2 ⟨rfl, rfl⟩ ⟨rfl, rfl⟩ (Or.inl rfl) P

end LNLib.Props
