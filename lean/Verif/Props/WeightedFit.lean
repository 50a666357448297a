import Verif.Model.WeightedFit
import Verif.Props.LeastSquares
import Verif.Props.Volume
import Verif.Spec.Solver

/-!
# C167: weighted least squares approximation (Geometry/Curve/NurbsCurve.cpp:2432-2636)
-/
set_option linter.unusedSectionVars false

namespace LNLib.Props
open LNLib Res LNLib.Spec Finset

section
variable {K : Type} [Field K] [LinearOrder K] [IsStrictOrderedRing K]

/-- a row of `N` holds the basis functions -/
theorem fitRow_run {kv : List K} {p n s : ℕ} {t : K} (hp7 : p ≤ 7) (hk : kv.length = n + p + 2)
    (hsort : ∀ i j, i ≤ j → j < kv.length → nth kv i ≤ nth kv j) (hs : IsSpan (nth kv) p n t s) (b0 : nth kv 0 ≤ t) (b1 : t ≤ nth kv (kv.length - 1)) :
    (do
      let basis ← basisFunctions s p kv t (List.replicate ((p : ℤ) + 1).toNat (some 0))
      fitRow p ((s : ℤ) - p) ((n : ℤ) + 1) fun k => aget basis k) =
    ok ((List.range (n + 1)).map fun j => N (nth kv) (nth kv (n + 1)) p j t) := by
  have hm : MonoTo (nth kv) (n + p + 1) := fun i j h h' => hsort i j h (by omega)
  have a1 := hs.1
  have a2 := hs.2.1
  have heps := doubleEps_pos (K := K)
  obtain ⟨out, eo, -, ho'⟩ := basisFunctions_span (U := kv) (s := s) (p := p) (t := t) (out := List.replicate ((p : ℤ) + 1).toNat (some 0)) hp7 a1 (by omega) (by omega)
    (by simp) (isValidKnotVector_nth.mpr hsort) hs.2.2.1 (by linarith) (by linarith)
  rw [eo, ok_bind]
  apply Runs.eq
  unfold fitRow
  refine (Runs.forN (m := 0) (n := p + 1) (fun r (B : List K) => B.length = n + 1 ∧
    ∀ b, b ≤ n → nth B b = if s - p ≤ b ∧ b < s - p + r then Nspan (nth kv) s p b t else 0)
    rfl (by push_cast; ring) (by omega) ⟨by simp, ?_⟩ ?_).mono ?_
  · intro b hb
    rw [if_neg (by omega), nth_eq_getElem (by simp; omega)]
    simp
  · rintro r B - hr ⟨q1, q2⟩
    rw [if_pos (by omega)]
    show Runs (aget out (r : ℤ) >>= fun b => vset B ((s : ℤ) - p + r) b) _
    rw [ho' r (by omega), ok_bind, vset_of (k := s - p + r) (by omega) (by omega)]
    refine Runs.ok ⟨by simp [q1], ?_⟩
    intro b hb
    rw [nth_set (by omega), q2 b hb]
    by_cases hc : b = s - p + r
    · rw [if_pos hc, if_pos (by omega), hc]
    · rw [if_neg hc]
      have : (s - p ≤ b ∧ b < s - p + (r + 1)) ↔ (s - p ≤ b ∧ b < s - p + r) := by omega
      simp only [this]
  · rintro B ⟨q1, q2⟩
    apply ext_nth (by simp [q1])
    intro b hb
    rw [q1] at hb
    rw [q2 b (by omega), nth_eq_getElem (by simp; omega), List.getElem_map, List.getElem_range, N_eq_Nspan hm (by omega) hs p b (by omega)]
    by_cases hc : s - p ≤ b ∧ b < s - p + (p + 1)
    · rw [if_pos hc]
    · rw [if_neg hc, Nspan_zero _ _ _ _ _ (by omega)]

variable {p n m : ℕ} {pts : List (XYZ K)} {ws uk : List K}

/-- the rows when all weights are positive and there are no tangents -/
theorem fitLoop_run {kv : List K} (hp7 : p ≤ 7) (hpn : p ≤ n) (hpts : pts.length = m + 1) (hws : ws.length = m + 1) (hu : uk.length = m + 1)
    (hk : kv.length = n + p + 2) (hz : ∀ i, i ≤ p → nth kv i = 0) (ho : ∀ i, n + 1 ≤ i → i ≤ n + p + 1 → nth kv i = 1)
    (hsort : ∀ i j, i ≤ j → j < kv.length → nth kv i ≤ nth kv j) (he : EndsSeparated (nth kv) p n)
    (h0 : nth uk 0 = 0) (h1 : nth uk m = 1) (hmono : ∀ i j, i ≤ j → j ≤ m → nth uk i ≤ nth uk j) (hw : ∀ i, i ≤ m → isGreaterThan (nth ws i) 0 = true) :
    fitLoop p ((n : ℤ) + 1) pts ws [] [] [] [] kv uk =
      ok (⟨tab (m + 1) (n + 1) fun i j => N (nth kv) (nth kv (n + 1)) p j (nth uk i), (List.range (m + 1)).map (nth ws),
        (List.range (m + 1)).map fun i => nth ws i • nth pts i, [], []⟩, 0) := by
  apply Runs.eq
  unfold fitLoop
  refine (Runs.forN (m := 0) (n := m + 1) (fun k (st : FitRows K × ℤ) => st =
    (⟨tab k (n + 1) fun i j => N (nth kv) (nth kv (n + 1)) p j (nth uk i), (List.range k).map (nth ws),
        (List.range k).map fun i => nth ws i • nth pts i, [], []⟩, 0)) rfl (by rw [hpts]) (by omega) rfl ?_).mono (fun _ h => h)
  rintro i st - hi rfl
  have c0 : nth kv p ≤ nth uk i := by rw [hz p (le_refl _), ← h0]; exact hmono 0 i (by omega) (by omega)
  have c1 : nth uk i ≤ nth kv (n + 1) := by rw [ho (n + 1) (le_refl _) (by omega), ← h1]; exact hmono i m (by omega) (le_refl _)
  obtain ⟨s, es, hs⟩ := getKnotSpanIndex_isSpan hk hpn hsort he c0 c1
  have b0 : nth kv 0 ≤ nth uk i := by rw [hz 0 (by omega), ← hz p (le_refl _)]; exact c0
  have b1 : nth uk i ≤ nth kv (kv.length - 1) := by
    rw [hk, show n + p + 2 - 1 = n + p + 1 by omega, ho _ (by omega) (le_refl _), ← ho (n + 1) (le_refl _) (by omega)]; exact c1
  have hno : fitHasTangent ([] : List (XYZ K)) [] [] (i : ℤ) 0 = ok false := by simp [fitHasTangent]
  dsimp only
  rw [hno, ok_bind, vget_nth (k := i) rfl (by omega), ok_bind, es, ok_bind, vget_nth (k := i) rfl (by omega), ok_bind, vget_nth (k := i) rfl (by omega), ok_bind,
    fitRow_run hp7 hk hsort hs b0 b1]
  unfold fitAdd
  rw [if_pos (hw i (by omega)), ok_bind, ok_bind, if_neg (by simp)]
  refine Runs.ok ?_
  simp only [tab, List.range_succ, List.map_append, List.map_cons, List.map_nil]

/-- the matrix of the weights -/
theorem fitDiagonal_eq {k : ℕ} (f : ℕ → K) : fitDiagonal ((List.range k).map f) = tab k k fun i j => if i = j then f i else 0 := by
  unfold fitDiagonal
  apply mat_ext (r := k) (c := k)
  · simpa [tab] using (isMat_tab (r := k) (c := k) (f := fun i j => if i = j then ((List.range k).map f).getD i 0 else 0))
  · exact isMat_tab
  · intro i hi j hj
    have := ent_tab (f := fun i j => if i = j then ((List.range k).map f).getD i 0 else 0) hi hj
    simp only [tab, List.length_map, List.length_range] at this ⊢
    rw [this]
    have h2 := ent_tab (f := fun i j => if i = j then f i else 0) hi hj
    simp only [tab] at h2
    rw [h2]
    simp [hi]

/-- the transpose -/
theorem fitTranspose_eq {r c : ℕ} (f : ℕ → ℕ → K) : fitTranspose c (tab r c f) = tab c r fun i j => f j i := by
  unfold fitTranspose
  have hl : (tab r c f).length = r := isMat_tab.1
  rw [hl]
  unfold tab
  refine List.map_congr_left fun i hi => List.map_congr_left fun j hj => ?_
  have h1 := List.mem_range.mp hi
  have h2 := List.mem_range.mp hj
  simp [h1, h2]

/-- the table of points -/
theorem fitPoints_isMat {S : List (XYZ K)} {k : ℕ} (h : S.length = k) : IsMat (fitPoints S) k 3 := by
  refine ⟨by simp [fitPoints, h], fun i hi => ?_⟩
  have : i < S.length := by omega
  simp [fitPoints, row, this]

theorem fitPoints_ent {S : List (XYZ K)} {i : ℕ} (h : i < S.length) (d : ℕ) : ent (fitPoints S) i d = nth [(nth S i).x, (nth S i).y, (nth S i).z] d := by
  unfold ent
  congr 1
  simp [fitPoints, row, h, nth_eq_getElem h]

theorem isGreaterThan_pos {a : K} (h : isGreaterThan a 0 = true) : 0 < a := by
  unfold isGreaterThan at h
  rw [decide_eq_true_eq] at h
  have := tolOf_pos (K := K) (a := a) (b := 0) doubleEps_pos
  linarith

theorem isGreaterThan_not_less {a : K} (h : isGreaterThan a 0 = true) : isLessThan a 0 = false := by
  have h0 := isGreaterThan_pos h
  unfold isLessThan
  rw [decide_eq_false_iff_not]
  have := tolOf_pos (K := K) (a := a) (b := 0) doubleEps_pos
  intro h2
  linarith

variable [FloorRing K] {solve : List (List K) → List (List K) → Res (List (List K))}

/-- C167: with positive weights `w` and no tangents, the curve returned satisfies the equations of the weighted approximation of the points `w • Q` instead of `Q`. -/
theorem C167_equations (hsolve : SoundSolver solve) (hp : 0 < p) (hp7 : p ≤ 7) (hpn : p ≤ n) (hnm : n ≤ m + p)
    (hpts : pts.length = m + 1) (hws : ws.length = m + 1) (hu : uk.length = m + 1) (h0 : nth uk 0 = 0) (h1 : nth uk m = 1)
    (hmono : ∀ i j, i ≤ j → j ≤ m → nth uk i ≤ nth uk j) (hw : ∀ i, i ≤ m → isGreaterThan (nth ws i) 0 = true) {c : NurbsCurve K}
    (hc : weightedFit solve p pts ws [] [] [] [] ((n : ℤ) + 1) uk = ok (some c)) (he : EndsSeparated (nth c.knots) p n) :
    WellFormed c p n ∧ computeKnotVector p ((n : ℤ) + 1) uk = ok c.knots ∧ (∀ i, i ≤ n → (nth c.cps i).w = 1) ∧ ∃ x : ℕ → XYZ K, (∀ i, i ≤ m → NurbsCurve.pointOnCurve c (nth uk i) = ok (x i)) ∧
      ∀ a, a ≤ n → ∑ i ∈ range (m + 1), (nth ws i * N (nth c.knots) (nth c.knots (n + 1)) p a (nth uk i)) • (x i - nth ws i • nth pts i) = 0 := by
  obtain ⟨kv, ekv, k1, k2, k3, k4⟩ := C74_compute_knots hp hpn hu hnm h0 h1 hmono
  have hall : ∀ w ∈ ws, isGreaterThan w 0 = true := by
    intro w hmem
    obtain ⟨i, hi, rfl⟩ := List.getElem_of_mem hmem
    rw [← nth_eq_getElem hi]
    exact hw i (by omega)
  have hmu : ws.countP (fun w => isGreaterThan w 0) = m + 1 := by rw [List.countP_eq_length.mpr hall, hws]
  have hmc : ws.countP (fun w => isLessThan w 0) = 0 := List.countP_eq_zero.mpr fun w hmem => by simp [isGreaterThan_not_less (hall w hmem)]
  have hpm : p < m + 1 := by
    unfold weightedFit at hc
    by_contra hcon
    rw [validate_of (by simp; omega), ok_bind, show decide ((pts.length : ℤ) > (p : ℤ)) = false by simp; omega] at hc
    simp [validate] at hc
  unfold weightedFit at hc
  rw [validate_of (by simp; omega), ok_bind, validate_of (by simp; omega), ok_bind, validate_of (by simp [hpts, hws]), ok_bind, validate_of (by simp), ok_bind,
    validate_of (by simp), ok_bind, validate_of (by simp), ok_bind] at hc
  dsimp only at hc
  rw [hmu, hmc, List.countP_nil, List.countP_nil, if_neg (by omega), ekv, ok_bind] at hc
  have heq : c.knots = kv := by
    obtain ⟨st, -, hc⟩ := bind_eq_ok.mp hc
    split at hc
    · simp at hc
    · obtain ⟨_, -, hc⟩ := bind_eq_ok.mp hc
      obtain ⟨_, -, hc⟩ := bind_eq_ok.mp hc
      obtain ⟨_, -, hc⟩ := bind_eq_ok.mp hc
      obtain ⟨_, -, hc⟩ := bind_eq_ok.mp hc
      split at hc
      · obtain ⟨_, -, hc⟩ := bind_eq_ok.mp hc
        have := Option.some.inj (Res.ok.inj hc)
        rw [← this]
      · simp at hc
  rw [heq] at he
  rw [fitLoop_run hp7 hpn hpts hws hu k1 k2 k3 k4 he h0 h1 hmono hw, ok_bind] at hc
  dsimp only at hc
  rw [if_neg (by simp [tab]), show ((n : ℤ) + 1).toNat = n + 1 by omega, fitTranspose_eq, fitDiagonal_eq,
    matrixMultiply_run isMat_tab isMat_tab (by omega) (by omega), ok_bind, matrixMultiply_run isMat_tab isMat_tab (by omega) (by omega), ok_bind,
    matrixMultiply_run isMat_tab (fitPoints_isMat (k := m + 1) (by simp)) (by omega) (by omega), ok_bind] at hc
  obtain ⟨X, eX, hc⟩ := bind_eq_ok.mp hc
  unfold fitSystem at eX
  rw [if_pos rfl] at eX
  obtain ⟨x1, x2⟩ := hsolve _ _ _ _ _ isMat_tab isMat_tab eX
  rw [if_pos (by
    unfold fitSized
    rw [decide_eq_true_eq]
    refine ⟨x1.1, fun _ => ?_⟩
    have := x1.2 0 (by omega)
    rw [← this]
    cases X <;> simp [row])] at hc
  have hcp : fitControl (n + 1) X = ok ((List.range (n + 1)).map fun i => XYZW.ofXYZ ⟨ent X i 0, ent X i 1, ent X i 2⟩ 1) := by
    unfold fitControl
    refine mapR_ok fun i hi => ?_
    have hi := List.mem_range.mp hi
    rw [mget_ent (a := i) (b := 0) (j := 0) x1 rfl rfl hi (by omega), ok_bind, mget_ent (a := i) (b := 1) (j := 1) x1 rfl rfl hi (by omega), ok_bind,
      mget_ent (a := i) (b := 2) (j := 2) x1 rfl rfl hi (by omega), ok_bind]
  rw [hcp, ok_bind] at hc
  have hc' := (Option.some.inj (Res.ok.inj hc)).symm
  have hcn : ∀ i, i ≤ n → nth c.cps i = XYZW.ofXYZ ⟨ent X i 0, ent X i 1, ent X i 2⟩ 1 := by
    intro i hi
    rw [hc']
    dsimp only
    rw [nth_eq_getElem (by simp; omega)]
    simp
  have w : WellFormed c p n := by
    rw [hc']
    exact ⟨rfl, hp, hp7, by simp, hpn, k1, k4⟩
  have hw1 : ∀ i, i ≤ n → (nth c.cps i).w = 1 := fun i hi => by rw [hcn i hi]; rfl
  refine ⟨w, by rw [heq]; exact ekv, hw1, fun i => ∑ j ∈ range (n + 1), N (nth c.knots) (nth c.knots (n + 1)) p j (nth uk i) • (nth c.cps j).raw, ?_, ?_⟩
  · intro i hi
    refine unit_weight_point w (by rw [heq]; exact he) ?_ ?_ hw1
    · rw [heq, k2 p (le_refl _), ← h0]; exact hmono 0 i (by omega) hi
    · rw [heq, k3 (n + 1) (le_refl _) (by omega), ← h1]; exact hmono i m hi (le_refl _)
  · intro a ha
    rw [heq]
    have comp : ∀ d, d < 3 → ∑ i ∈ range (m + 1), (nth ws i * N (nth kv) (nth kv (n + 1)) p a (nth uk i)) *
        (∑ j ∈ range (n + 1), N (nth kv) (nth kv (n + 1)) p j (nth uk i) * ent X j d - nth ws i * nth [(nth pts i).x, (nth pts i).y, (nth pts i).z] d) = 0 := by
      intro d hd
      have e := x2 a d (by omega) hd
      rw [ent_tab (by omega) hd] at e
      have hdiag : ∀ i, i < m + 1 → ent (tab (n + 1) (m + 1) fun a i => ∑ k ∈ range (m + 1), ent (tab (n + 1) (m + 1) fun i j => N (nth kv) (nth kv (n + 1)) p i (nth uk j)) a k *
          ent (tab (m + 1) (m + 1) fun i j => if i = j then nth ws i else 0) k i) a i = nth ws i * N (nth kv) (nth kv (n + 1)) p a (nth uk i) := by
        intro i hi
        rw [ent_tab (by omega) hi, Finset.sum_eq_single i]
        · rw [ent_tab (by omega) hi, ent_tab hi hi, if_pos rfl, mul_comm]
        · intro k hk hki
          rw [ent_tab (Finset.mem_range.mp hk) hi, if_neg hki, mul_zero]
        · intro h; exact absurd (Finset.mem_range.mpr hi) h
      have el : ∑ k ∈ range (n + 1), ent (tab (n + 1) (n + 1) fun a b => ∑ i ∈ range (m + 1),
          ent (tab (n + 1) (m + 1) fun a i => ∑ k ∈ range (m + 1), ent (tab (n + 1) (m + 1) fun i j => N (nth kv) (nth kv (n + 1)) p i (nth uk j)) a k *
          ent (tab (m + 1) (m + 1) fun i j => if i = j then nth ws i else 0) k i) a i * ent (tab (m + 1) (n + 1) fun i j => N (nth kv) (nth kv (n + 1)) p j (nth uk i)) i b) a k * ent X k d =
          ∑ i ∈ range (m + 1), (nth ws i * N (nth kv) (nth kv (n + 1)) p a (nth uk i)) * ∑ j ∈ range (n + 1), N (nth kv) (nth kv (n + 1)) p j (nth uk i) * ent X j d := by
        simp only [Finset.mul_sum]
        rw [Finset.sum_comm]
        refine Finset.sum_congr rfl fun k hk => ?_
        have hk := Finset.mem_range.mp hk
        rw [ent_tab (by omega) hk, Finset.sum_mul]
        refine Finset.sum_congr rfl fun i hi => ?_
        have hi := Finset.mem_range.mp hi
        rw [hdiag i hi, ent_tab hi hk]
        ring
      have er : ∑ k ∈ range (m + 1), ent (tab (n + 1) (m + 1) fun a i => ∑ k ∈ range (m + 1), ent (tab (n + 1) (m + 1) fun i j => N (nth kv) (nth kv (n + 1)) p i (nth uk j)) a k *
          ent (tab (m + 1) (m + 1) fun i j => if i = j then nth ws i else 0) k i) a k * ent (fitPoints ((List.range (m + 1)).map fun i => nth ws i • nth pts i)) k d =
          ∑ i ∈ range (m + 1), (nth ws i * N (nth kv) (nth kv (n + 1)) p a (nth uk i)) * (nth ws i * nth [(nth pts i).x, (nth pts i).y, (nth pts i).z] d) := by
        refine Finset.sum_congr rfl fun i hi => ?_
        have hi := Finset.mem_range.mp hi
        rw [hdiag i hi, fitPoints_ent (by simpa using hi), nth_eq_getElem (l := (List.range (m + 1)).map fun i => nth ws i • nth pts i) (by simpa using hi)]
        congr 1
        simp only [List.getElem_map, List.getElem_range]
        interval_cases d <;> rfl
      simp only [mul_sub, Finset.sum_sub_distrib]
      rw [sub_eq_zero, ← el, ← er]
      exact e
    have cx := comp 0 (by omega)
    have cy := comp 1 (by omega)
    have cz := comp 2 (by omega)
    have hr : ∀ j, j ≤ n → (nth c.cps j).raw = ⟨ent X j 0, ent X j 1, ent X j 2⟩ := fun j hj => by rw [hcn j hj]; simp [XYZW.ofXYZ, XYZW.raw]
    ext
    · rw [XYZ.sum_x, show (0 : XYZ K).x = 0 from rfl, ← cx]
      refine Finset.sum_congr rfl fun i _ => congrArg _ ?_
      show (∑ j ∈ range (n + 1), _ • _ : XYZ K).x - _ = _
      rw [XYZ.sum_x]
      refine congrArg₂ _ (Finset.sum_congr rfl fun j hj => ?_) rfl
      rw [hr j (by have := Finset.mem_range.mp hj; omega)]
    · rw [XYZ.sum_y, show (0 : XYZ K).y = 0 from rfl, ← cy]
      refine Finset.sum_congr rfl fun i _ => congrArg _ ?_
      show (∑ j ∈ range (n + 1), _ • _ : XYZ K).y - _ = _
      rw [XYZ.sum_y]
      refine congrArg₂ _ (Finset.sum_congr rfl fun j hj => ?_) rfl
      rw [hr j (by have := Finset.mem_range.mp hj; omega)]
    · rw [XYZ.sum_z, show (0 : XYZ K).z = 0 from rfl, ← cz]
      refine Finset.sum_congr rfl fun i _ => congrArg _ ?_
      show (∑ j ∈ range (n + 1), _ • _ : XYZ K).z - _ = _
      rw [XYZ.sum_z]
      refine congrArg₂ _ (Finset.sum_congr rfl fun j hj => ?_) rfl
      rw [hr j (by have := Finset.mem_range.mp hj; omega)]

/-- C167 fails: unless `∑ w (w - 1) Q` vanishes, the curve returned does not minimise the weighted sum of squared distances: moving the whole curve makes it smaller. -/
theorem C167_minimises_violated (hsolve : SoundSolver solve) (hp : 0 < p) (hp7 : p ≤ 7) (hpn : p ≤ n) (hnm : n ≤ m + p)
    (hpts : pts.length = m + 1) (hws : ws.length = m + 1) (hu : uk.length = m + 1) (h0 : nth uk 0 = 0) (h1 : nth uk m = 1)
    (hmono : ∀ i j, i ≤ j → j ≤ m → nth uk i ≤ nth uk j) (hw : ∀ i, i ≤ m → isGreaterThan (nth ws i) 0 = true) {c : NurbsCurve K}
    (hc : weightedFit solve p pts ws [] [] [] [] ((n : ℤ) + 1) uk = ok (some c)) (he : EndsSeparated (nth c.knots) p n)
    (hne : ∑ i ∈ range (m + 1), (nth ws i * (nth ws i - 1)) • nth pts i ≠ 0) :
    ∃ (x : ℕ → XYZ K) (v : XYZ K), (∀ i, i ≤ m → NurbsCurve.pointOnCurve c (nth uk i) = ok (x i)) ∧
      ∑ i ∈ range (m + 1), nth ws i * (x i + v - nth pts i).sqrLength < ∑ i ∈ range (m + 1), nth ws i * (x i - nth pts i).sqrLength := by
  obtain ⟨kv, ekv, k1, k2, k3, k4⟩ := C74_compute_knots hp hpn hu hnm h0 h1 hmono
  obtain ⟨w, hkn, -, x, hx, hn⟩ := C167_equations hsolve hp hp7 hpn hnm hpts hws hu h0 h1 hmono hw hc he
  have hz : nth c.knots p ≤ nth uk 0 ∧ nth uk m ≤ nth c.knots (n + 1) := by
    rw [ekv] at hkn
    rw [← Res.ok.inj hkn, k2 p (le_refl _), h0, k3 (n + 1) (le_refl _) (by omega), h1]
    exact ⟨le_refl _, le_refl _⟩
  have hone : ∀ i, i ≤ m → ∑ a ∈ range (n + 1), N (nth c.knots) (nth c.knots (n + 1)) p a (nth uk i) = 1 := by
    intro i hi
    obtain ⟨s, -, hs⟩ := getKnotSpanIndex_isSpan w.knots w.pn w.sorted he (hz.1.trans (hmono 0 i (by omega) hi)) ((hmono i m hi (le_refl _)).trans hz.2)
    exact (basis_convex (fun i j h h' => w.sorted i j h (by rw [w.knots]; omega)) hs).2
  have hsum : ∑ i ∈ range (m + 1), nth ws i • (x i - nth ws i • nth pts i) = 0 := by
    have : ∑ a ∈ range (n + 1), ∑ i ∈ range (m + 1), (nth ws i * N (nth c.knots) (nth c.knots (n + 1)) p a (nth uk i)) • (x i - nth ws i • nth pts i) = 0 :=
      Finset.sum_eq_zero fun a ha => hn a (by have := Finset.mem_range.mp ha; omega)
    rw [Finset.sum_comm] at this
    rw [← this]
    refine Finset.sum_congr rfl fun i hi => ?_
    rw [← Finset.sum_smul, ← Finset.mul_sum, hone i (by have := Finset.mem_range.mp hi; omega), mul_one]
  set G : XYZ K := ∑ i ∈ range (m + 1), nth ws i • (x i - nth pts i) with hG
  have hGe : G = ∑ i ∈ range (m + 1), (nth ws i * (nth ws i - 1)) • nth pts i := by
    rw [hG, ← sub_zero (∑ i ∈ range (m + 1), nth ws i • (x i - nth pts i)), ← hsum, ← Finset.sum_sub_distrib]
    refine Finset.sum_congr rfl fun i _ => ?_
    module
  rw [← hGe] at hne
  have hW : 0 < ∑ i ∈ range (m + 1), nth ws i := Finset.sum_pos (fun i hi => isGreaterThan_pos (hw i (by have := Finset.mem_range.mp hi; omega))) ⟨0, by simp⟩
  set W := ∑ i ∈ range (m + 1), nth ws i with hWd
  refine ⟨x, (-(1 / W)) • G, hx, ?_⟩
  have hexp : ∀ v : XYZ K, ∑ i ∈ range (m + 1), nth ws i * (x i + v - nth pts i).sqrLength =
      ∑ i ∈ range (m + 1), nth ws i * (x i - nth pts i).sqrLength + 2 * (G.x * v.x + G.y * v.y + G.z * v.z) + W * v.sqrLength := by
    intro v
    rw [hG, XYZ.sum_x, XYZ.sum_y, XYZ.sum_z, hWd]
    simp only [Finset.sum_mul, Finset.mul_sum, ← Finset.sum_add_distrib]
    refine Finset.sum_congr rfl fun i _ => ?_
    simp only [XYZ.sqrLength, XYZ.sub_x, XYZ.sub_y, XYZ.sub_z, XYZ.add_x, XYZ.add_y, XYZ.add_z]
    ring
  rw [hexp]
  have hpos : 0 < G.x * G.x + G.y * G.y + G.z * G.z := by
    by_contra hcon
    apply hne
    have q1 := mul_self_nonneg G.x
    have q2 := mul_self_nonneg G.y
    have q3 := mul_self_nonneg G.z
    ext
    · exact mul_self_eq_zero.mp (by linarith)
    · exact mul_self_eq_zero.mp (by linarith)
    · exact mul_self_eq_zero.mp (by linarith)
  have hval : 2 * (G.x * ((-(1 / W)) • G).x + G.y * ((-(1 / W)) • G).y + G.z * ((-(1 / W)) • G).z) + W * ((-(1 / W)) • G).sqrLength =
      -((G.x * G.x + G.y * G.y + G.z * G.z) / W) := by
    simp only [XYZ.sqrLength, XYZ.smul_x, XYZ.smul_y, XYZ.smul_z]
    field_simp
    ring
  have := div_pos hpos hW
  linarith

/-- C167 (only for weights one and without tangents): no curve of the same degree and knots with weights one comes closer to the points. -/
theorem C167_unit_partial (hsolve : SoundSolver solve) (hp : 0 < p) (hp7 : p ≤ 7) (hpn : p ≤ n) (hnm : n ≤ m + p)
    (hpts : pts.length = m + 1) (hws : ws.length = m + 1) (hu : uk.length = m + 1) (h0 : nth uk 0 = 0) (h1 : nth uk m = 1)
    (hmono : ∀ i j, i ≤ j → j ≤ m → nth uk i ≤ nth uk j) (hw : ∀ i, i ≤ m → nth ws i = 1) {c : NurbsCurve K}
    (hc : weightedFit solve p pts ws [] [] [] [] ((n : ℤ) + 1) uk = ok (some c)) (he : EndsSeparated (nth c.knots) p n) :
    ∃ x : ℕ → XYZ K, (∀ i, i ≤ m → NurbsCurve.pointOnCurve c (nth uk i) = ok (x i)) ∧
      ∀ (d : NurbsCurve K) (y : ℕ → XYZ K), WellFormed d p n → d.knots = c.knots → (∀ i, i ≤ n → (nth d.cps i).w = 1) →
        (∀ i, i ≤ m → NurbsCurve.pointOnCurve d (nth uk i) = ok (y i)) →
        ∑ i ∈ range (m + 1), (x i - nth pts i).sqrLength ≤ ∑ i ∈ range (m + 1), (y i - nth pts i).sqrLength := by
  obtain ⟨kv, ekv, k1, k2, k3, k4⟩ := C74_compute_knots hp hpn hu hnm h0 h1 hmono
  obtain ⟨w, hkn, hcw, x, hx, hn⟩ := C167_equations hsolve hp hp7 hpn hnm hpts hws hu h0 h1 hmono (fun i hi => by
    rw [hw i hi]
    norm_num [isGreaterThan, tolOf, doubleEps]) hc he
  have hz : nth c.knots p = 0 ∧ nth c.knots (n + 1) = 1 := by
    rw [ekv] at hkn
    rw [← Res.ok.inj hkn]
    exact ⟨k2 p (le_refl _), k3 (n + 1) (le_refl _) (by omega)⟩
  refine ⟨x, hx, ?_⟩
  intro d y hd hdk hdw hy
  have lo : ∀ i, i ≤ m → nth c.knots p ≤ nth uk i := fun i hi => by rw [hz.1, ← h0]; exact hmono 0 i (by omega) hi
  have hi1 : ∀ i, i ≤ m → nth uk i ≤ nth c.knots (n + 1) := fun i hi => by rw [hz.2, ← h1]; exact hmono i m hi (le_refl _)
  have hdiff : ∀ i, i ≤ m → y i - x i = ∑ a ∈ range (n + 1), N (nth c.knots) (nth c.knots (n + 1)) p a (nth uk i) • ((nth d.cps a).raw - (nth c.cps a).raw) := by
    intro i hi
    have e1 := unit_weight_point w he (lo i hi) (hi1 i hi) hcw
    have e2 := unit_weight_point (t := nth uk i) hd (by rw [hdk]; exact he) (by rw [hdk]; exact lo i hi) (by rw [hdk]; exact hi1 i hi) hdw
    rw [hx i hi] at e1
    rw [hy i hi, hdk] at e2
    rw [Res.ok.inj e1, Res.ok.inj e2, ← Finset.sum_sub_distrib]
    exact Finset.sum_congr rfl fun a _ => (smul_sub _ _ _).symm
  have hn' : ∀ a, a ≤ n → ∑ i ∈ range (m + 1), N (nth c.knots) (nth c.knots (n + 1)) p a (nth uk i) • (x i - nth pts i) = 0 := by
    intro a ha
    rw [← hn a ha]
    refine Finset.sum_congr rfl fun i hi => ?_
    rw [hw i (by have := Finset.mem_range.mp hi; omega), one_mul, one_smul]
  have hcross : ∑ i ∈ range (m + 1), ((y i - x i).x * (x i - nth pts i).x + (y i - x i).y * (x i - nth pts i).y + (y i - x i).z * (x i - nth pts i).z) = 0 := by
    have e : ∀ i ∈ range (m + 1), (y i - x i).x * (x i - nth pts i).x + (y i - x i).y * (x i - nth pts i).y + (y i - x i).z * (x i - nth pts i).z =
        ∑ a ∈ range (n + 1), (((nth d.cps a).raw - (nth c.cps a).raw).x * (N (nth c.knots) (nth c.knots (n + 1)) p a (nth uk i) * (x i - nth pts i).x) +
          ((nth d.cps a).raw - (nth c.cps a).raw).y * (N (nth c.knots) (nth c.knots (n + 1)) p a (nth uk i) * (x i - nth pts i).y) +
          ((nth d.cps a).raw - (nth c.cps a).raw).z * (N (nth c.knots) (nth c.knots (n + 1)) p a (nth uk i) * (x i - nth pts i).z)) := by
      intro i hi
      rw [hdiff i (by have := Finset.mem_range.mp hi; omega), XYZ.sum_x, XYZ.sum_y, XYZ.sum_z]
      simp only [Finset.sum_mul, ← Finset.sum_add_distrib]
      refine Finset.sum_congr rfl fun a _ => ?_
      ring
    rw [Finset.sum_congr rfl e, Finset.sum_comm]
    refine Finset.sum_eq_zero fun a ha => ?_
    have g := hn' a (by have := Finset.mem_range.mp ha; omega)
    have gx := congrArg XYZ.x g
    have gy := congrArg XYZ.y g
    have gz := congrArg XYZ.z g
    rw [XYZ.sum_x] at gx
    rw [XYZ.sum_y] at gy
    rw [XYZ.sum_z] at gz
    rw [Finset.sum_add_distrib, Finset.sum_add_distrib, ← Finset.mul_sum, ← Finset.mul_sum, ← Finset.mul_sum, gx, gy, gz]
    show _ * (0 : K) + _ * (0 : K) + _ * (0 : K) = 0
    ring
  have hexp : ∑ i ∈ range (m + 1), (y i - nth pts i).sqrLength = ∑ i ∈ range (m + 1), (x i - nth pts i).sqrLength +
      2 * ∑ i ∈ range (m + 1), ((y i - x i).x * (x i - nth pts i).x + (y i - x i).y * (x i - nth pts i).y + (y i - x i).z * (x i - nth pts i).z) +
      ∑ i ∈ range (m + 1), (y i - x i).sqrLength := by
    rw [Finset.mul_sum, ← Finset.sum_add_distrib, ← Finset.sum_add_distrib]
    refine Finset.sum_congr rfl fun i _ => ?_
    simp only [XYZ.sqrLength, XYZ.sub_x, XYZ.sub_y, XYZ.sub_z]
    ring
  rw [hexp, hcross, mul_zero, add_zero]
  have : 0 ≤ ∑ i ∈ range (m + 1), (y i - x i).sqrLength := Finset.sum_nonneg fun i _ => by
    unfold XYZ.sqrLength
    nlinarith [mul_self_nonneg (y i - x i).x, mul_self_nonneg (y i - x i).y, mul_self_nonneg (y i - x i).z]
  linarith

end

/-! ### Examples -/

/-- a solver for two systems, for the examples -/
def weightedSolve (A B : List (List ℚ)) : Res (List (List ℚ)) :=
  if A = [[5/2, 1/2], [1/2, 5/2]] ∧ B = [[8, 0, 0], [16, 0, 0]] then ok [[2, 0, 0], [6, 0, 0]]
  else if A = [[5/4, 1/4], [1/4, 5/4]] ∧ B = [[2, 0, 0], [4, 0, 0]] then ok [[1, 0, 0], [3, 0, 0]] else nonfinite

theorem weightedSolve_sound : SoundSolver weightedSolve := by
  intro s d A B X hA hB h
  unfold weightedSolve at h
  split at h
  · rename_i hAB
    obtain ⟨rfl, rfl⟩ := hAB
    have := Res.ok.inj h
    subst this
    have hs : s = 2 := hA.1.symm
    subst hs
    have hd : d = 3 := (hB.2 0 (by omega)).symm
    subst hd
    refine ⟨by unfold IsMat; decide +kernel, ?_⟩
    intro i j hi hj
    interval_cases i <;> interval_cases j <;> decide +kernel
  · split at h
    · rename_i hAB
      obtain ⟨rfl, rfl⟩ := hAB
      have := Res.ok.inj h
      subst this
      have hs : s = 2 := hA.1.symm
      subst hs
      have hd : d = 3 := (hB.2 0 (by omega)).symm
      subst hd
      refine ⟨by unfold IsMat; decide +kernel, ?_⟩
      intro i j hi hj
      interval_cases i <;> interval_cases j <;> decide +kernel
    · simp at h

/-- three points of a line with weights two: the line returned is twice as far from the origin -/
theorem weightedFit_two : weightedFit weightedSolve 1 [⟨1, 0, 0⟩, ⟨2, 0, 0⟩, ⟨3, 0, 0⟩] [2, 2, 2] [] [] [] [] 2 [0, 1/2, 1] =
    ok (some { degree := 1, knots := [0, 0, 1, 1], cps := [⟨2, 0, 0, 1⟩, ⟨6, 0, 0, 1⟩] }) := by decide +kernel

theorem weightedFit_one : weightedFit weightedSolve 1 [⟨1, 0, 0⟩, ⟨2, 0, 0⟩, ⟨3, 0, 0⟩] [1, 1, 1] [] [] [] [] 2 [0, 1/2, 1] =
    ok (some { degree := 1, knots := [0, 0, 1, 1], cps := [⟨1, 0, 0, 1⟩, ⟨3, 0, 0, 1⟩] }) := by decide +kernel

/-- `C167_minimises_violated` and `C167_equations` are not vacuous -/
example : ∃ (x : ℕ → XYZ ℚ) (v : XYZ ℚ),
    (∀ i, i ≤ 2 → NurbsCurve.pointOnCurve ({ degree := 1, knots := [0, 0, 1, 1], cps := [⟨2, 0, 0, 1⟩, ⟨6, 0, 0, 1⟩] } : NurbsCurve ℚ) (nth [0, 1/2, 1] i) = ok (x i)) ∧
    ∑ i ∈ range 3, nth [2, 2, 2] i * (x i + v - nth [⟨1, 0, 0⟩, ⟨2, 0, 0⟩, ⟨3, 0, 0⟩] i).sqrLength <
      ∑ i ∈ range 3, nth [2, 2, 2] i * (x i - nth [⟨1, 0, 0⟩, ⟨2, 0, 0⟩, ⟨3, 0, 0⟩] i).sqrLength := by
  refine C167_minimises_violated (p := 1) (n := 1) (m := 2) weightedSolve_sound (by omega) (by omega) (by omega) (by omega) rfl rfl rfl rfl rfl ?_ ?_ weightedFit_two
    ⟨by decide +kernel, by decide +kernel⟩ ?_
  · intro i j hij hj
    interval_cases j <;> interval_cases i <;> decide +kernel
  · intro i hi
    interval_cases i <;> decide +kernel
  · intro h
    have := congrArg XYZ.x h
    revert this
    decide +kernel

/-- `C167_unit_partial` is not vacuous -/
example : ∃ x : ℕ → XYZ ℚ,
    (∀ i, i ≤ 2 → NurbsCurve.pointOnCurve ({ degree := 1, knots := [0, 0, 1, 1], cps := [⟨1, 0, 0, 1⟩, ⟨3, 0, 0, 1⟩] } : NurbsCurve ℚ) (nth [0, 1/2, 1] i) = ok (x i)) := by
  obtain ⟨x, h, -⟩ := C167_unit_partial (p := 1) (n := 1) (m := 2) weightedSolve_sound (by omega) (by omega) (by omega) (by omega) rfl rfl rfl rfl rfl (by
    intro i j hij hj
    interval_cases j <;> interval_cases i <;> decide +kernel) (by
    intro i hi
    interval_cases i <;> decide +kernel) weightedFit_one ⟨by decide +kernel, by decide +kernel⟩
  exact ⟨x, h⟩

end LNLib.Props
