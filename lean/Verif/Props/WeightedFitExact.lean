import Verif.Props.WeightedFit
import Verif.Props.ProjectNormal
import Verif.Props.KnotsByBound

/-!
# C167: points with negative weights (Geometry/Curve/NurbsCurve.cpp:2432-2636)
-/
set_option linter.unusedSectionVars false

namespace LNLib.Props
open LNLib Res LNLib.Spec Finset

section
variable {K : Type} [Field K] [LinearOrder K] [IsStrictOrderedRing K] {p n m : ℕ} {pts : List (XYZ K)} {ws uk : List K}

theorem fitRow_length {degree start : ℤ} {n : ℕ} {v : ℤ → Res K} {r : List K} (h : fitRow degree start ((n : ℤ) + 1) v = ok r) : r.length = n + 1 := by
  unfold fitRow at h
  refine forI_ok_inv (fun r : List K => r.length = n + 1) ?_ (by simp) h
  intro k s s' hs hb
  split at hb
  · obtain ⟨b, -, hb⟩ := bind_eq_ok.mp hb
    obtain ⟨-, -, rfl⟩ := vset_eq_ok_iff.mp hb
    rw [List.length_set, hs]
  · rw [← Res.ok.inj hb, hs]

/-- the sizes of the tables -/
structure FitSizes (n : ℕ) (rows : FitRows K) : Prop where
  N : ∀ r ∈ rows.N, r.length = n + 1
  M : ∀ r ∈ rows.M, r.length = n + 1
  W : rows.W.length = rows.N.length
  S : rows.S.length = rows.N.length
  T : rows.T.length = rows.M.length

theorem fitAdd_post {w : K} {q : XYZ K} {mk : Res (List K)} {rows rows' : FitRows K} (hl : ∀ r, mk = ok r → r.length = n + 1) (hs : FitSizes n rows)
    (h : fitAdd w q mk rows = ok rows') :
    FitSizes n rows' ∧ (∀ r, r < rows.M.length → r < rows'.M.length ∧ row rows'.M r = row rows.M r ∧ nth rows'.T r = nth rows.T r) ∧
      (isLessThan w 0 = true → ∃ r, r < rows'.M.length ∧ mk = ok (row rows'.M r) ∧ nth rows'.T r = q) := by
  unfold fitAdd at h
  split at h
  · rename_i hg
    obtain ⟨r, hr, h⟩ := bind_eq_ok.mp h
    have := Res.ok.inj h
    subst this
    refine ⟨⟨?_, hs.M, by simp [hs.W], by simp [hs.S], hs.T⟩, fun r hr => ⟨hr, rfl, rfl⟩, fun hlt => by rw [isGreaterThan_not_less hg] at hlt; simp at hlt⟩
    intro r' hr'
    rcases List.mem_append.mp hr' with h1 | h1
    · exact hs.N r' h1
    · rw [List.mem_singleton.mp h1]; exact hl r hr
  · split at h
    · obtain ⟨r, hr, h⟩ := bind_eq_ok.mp h
      have := Res.ok.inj h
      subst this
      refine ⟨⟨hs.N, ?_, hs.W, hs.S, by simp [hs.T]⟩, fun k hk => ⟨by simp; omega, ?_, ?_⟩, fun _ => ⟨rows.M.length, by simp, ?_, ?_⟩⟩
      · intro r' hr'
        rcases List.mem_append.mp hr' with h1 | h1
        · exact hs.M r' h1
        · rw [List.mem_singleton.mp h1]; exact hl r hr
      · simp [row, List.getElem?_append, hk]
      · exact LNLib.nth_append_left (by rw [hs.T]; exact hk)
      · rw [hr]; simp [row]
      · simp only [nth]
        rw [← hs.T]
        simp
    · rename_i hnl
      have := Res.ok.inj h
      subst this
      exact ⟨hs, fun r hr => ⟨hr, rfl, rfl⟩, fun hlt => absurd hlt hnl⟩

/-- what the loop leaves: every point with a negative weight has its row -/
theorem fitLoop_post {kv : List K} {tangents : List (XYZ K)} {indices order : List ℤ} {tangentWeights : List K} {st : FitRows K × ℤ} (hp7 : p ≤ 7) (hpn : p ≤ n)
    (hpts : pts.length = m + 1) (hws : ws.length = m + 1) (hu : uk.length = m + 1)
    (hk : kv.length = n + p + 2) (hz : ∀ i, i ≤ p → nth kv i = 0) (ho : ∀ i, n + 1 ≤ i → i ≤ n + p + 1 → nth kv i = 1)
    (hsort : ∀ i j, i ≤ j → j < kv.length → nth kv i ≤ nth kv j) (he : EndsSeparated (nth kv) p n)
    (h0 : nth uk 0 = 0) (h1 : nth uk m = 1) (hmono : ∀ i j, i ≤ j → j ≤ m → nth uk i ≤ nth uk j)
    (h : fitLoop p ((n : ℤ) + 1) pts ws tangents indices tangentWeights order kv uk = ok st) :
    FitSizes n st.1 ∧ ∀ i, i ≤ m → isLessThan (nth ws i) 0 = true →
      ∃ r, r < st.1.M.length ∧ row st.1.M r = ((List.range (n + 1)).map fun j => N (nth kv) (nth kv (n + 1)) p j (nth uk i)) ∧ nth st.1.T r = nth pts i := by
  unfold fitLoop at h
  have := forI_post (Inv := fun k (st : FitRows K × ℤ) => FitSizes n st.1 ∧ ∀ i : ℕ, (i : ℤ) < k → isLessThan (nth ws i) 0 = true →
      ∃ r, r < st.1.M.length ∧ row st.1.M r = ((List.range (n + 1)).map fun j => N (nth kv) (nth kv (n + 1)) p j (nth uk i)) ∧ nth st.1.T r = nth pts i)
    (by omega) ⟨⟨by simp, by simp, rfl, rfl, rfl⟩, fun i hi => by omega⟩ ?_ h
  · exact ⟨this.1, fun i hi => this.2 i (by rw [hpts]; push_cast; omega)⟩
  rintro k s s' hk0 hk1 ⟨g1, g2⟩ hb
  obtain ⟨i, rfl⟩ := Int.eq_ofNat_of_zero_le hk0
  have hi : i < m + 1 := by rw [hpts] at hk1; omega
  have c0 : nth kv p ≤ nth uk i := by rw [hz p (le_refl _), ← h0]; exact hmono 0 i (by omega) (by omega)
  have c1 : nth uk i ≤ nth kv (n + 1) := by rw [ho (n + 1) (le_refl _) (by omega), ← h1]; exact hmono i m (by omega) (le_refl _)
  obtain ⟨sp, es, hs⟩ := getKnotSpanIndex_isSpan hk hpn hsort he c0 c1
  have b0 : nth kv 0 ≤ nth uk i := by rw [hz 0 (by omega), ← hz p (le_refl _)]; exact c0
  have b1 : nth uk i ≤ nth kv (kv.length - 1) := by
    rw [hk, show n + p + 2 - 1 = n + p + 1 by omega, ho _ (by omega) (le_refl _), ← ho (n + 1) (le_refl _) (by omega)]; exact c1
  obtain ⟨ht, -, hb⟩ := bind_eq_ok.mp hb
  rw [vget_nth (k := i) rfl (by omega), ok_bind, es, ok_bind, vget_nth (k := i) rfl (by omega), ok_bind, vget_nth (k := i) rfl (by omega), ok_bind,
    fitRow_run hp7 hk hsort hs b0 b1] at hb
  obtain ⟨rows, ha, hb⟩ := bind_eq_ok.mp hb
  obtain ⟨p1, p2, p3⟩ := fitAdd_post (n := n) (fun r hr => by rw [← Res.ok.inj hr]; simp) g1 ha
  have q : FitSizes n rows ∧ ∀ j : ℕ, (j : ℤ) < (i : ℤ) + 1 → isLessThan (nth ws j) 0 = true →
      ∃ r, r < rows.M.length ∧ row rows.M r = ((List.range (n + 1)).map fun a => N (nth kv) (nth kv (n + 1)) p a (nth uk j)) ∧ nth rows.T r = nth pts j := by
    refine ⟨p1, fun j hj hlt => ?_⟩
    by_cases hji : j = i
    · subst hji
      obtain ⟨r, r1, r2, r3⟩ := p3 hlt
      exact ⟨r, r1, (Res.ok.inj r2).symm, r3⟩
    · obtain ⟨r, r1, r2, r3⟩ := g2 j (by omega) hlt
      obtain ⟨t1, t2, t3⟩ := p2 r r1
      exact ⟨r, t1, t2.trans r2, t3.trans r3⟩
  split at hb
  · obtain ⟨o, -, hb⟩ := bind_eq_ok.mp hb
    obtain ⟨d, -, hb⟩ := bind_eq_ok.mp hb
    obtain ⟨wt, -, hb⟩ := bind_eq_ok.mp hb
    obtain ⟨ders, -, hb⟩ := bind_eq_ok.mp hb
    obtain ⟨rows', ha', hb⟩ := bind_eq_ok.mp hb
    obtain ⟨u1, u2, -⟩ := fitAdd_post (n := n) (fun r hr => fitRow_length hr) q.1 ha'
    rw [← Res.ok.inj hb]
    refine ⟨u1, fun j hj hlt => ?_⟩
    obtain ⟨r, r1, r2, r3⟩ := q.2 j hj hlt
    obtain ⟨t1, t2, t3⟩ := u2 r r1
    exact ⟨r, t1, t2.trans r2, t3.trans r3⟩
  · rw [← Res.ok.inj hb]
    exact q

theorem isMat_of_rows {M : List (List K)} {c : ℕ} (h : ∀ r ∈ M, r.length = c) : IsMat M M.length c := by
  refine ⟨rfl, fun i hi => ?_⟩
  have : row M i = M[i] := by simp [row, hi]
  rw [this]
  exact h _ (List.getElem_mem hi)

theorem fitTranspose_isMat {M : List (List K)} {c : ℕ} : IsMat (fitTranspose c M) c M.length := by
  refine ⟨by simp [fitTranspose], fun i hi => ?_⟩
  simp [fitTranspose, row, hi]

theorem fitDiagonal_isMat {W : List K} : IsMat (fitDiagonal W) W.length W.length := by
  refine ⟨by simp [fitDiagonal], fun i hi => ?_⟩
  simp [fitDiagonal, row, hi]

theorem fitBlocks_spec {A M : List (List K)} {c : ℕ} (hA : IsMat A c c) (hM : IsMat M M.length c) :
    IsMat (fitBlocks c A M) (c + M.length) (c + M.length) ∧ ∀ r, r < M.length → row (fitBlocks c A M) (c + r) = row M r ++ List.replicate M.length 0 := by
  have hT := fitTranspose_isMat (M := M) (c := c)
  have hlen : (List.zipWith (fun a b => a ++ b) A (fitTranspose c M)).length = c := by rw [List.length_zipWith, hA.1, hT.1, min_self]
  have hlow : ∀ r, r < M.length → row (fitBlocks c A M) (c + r) = row M r ++ List.replicate M.length 0 := by
    intro r hr
    unfold fitBlocks row
    rw [List.getD_eq_getElem?_getD, List.getElem?_append_right (by omega), hlen]
    simp [hr]
  refine ⟨⟨?_, ?_⟩, hlow⟩
  · unfold fitBlocks
    rw [List.length_append, hlen, List.length_map]
  · intro i hi
    by_cases hic : i < c
    · have e : row (fitBlocks c A M) i = row A i ++ row (fitTranspose c M) i := by
        have h1 : i < A.length := by rw [hA.1]; exact hic
        have h2 : i < (fitTranspose c M).length := by rw [hT.1]; exact hic
        unfold fitBlocks row
        rw [List.getD_eq_getElem?_getD, List.getElem?_append_left (by omega)]
        simp [h1, h2]
      rw [e, List.length_append, hA.2 i hic, hT.2 i hic]
    · obtain ⟨r, rfl⟩ : ∃ r, i = c + r := ⟨i - c, by omega⟩
      rw [hlow r (by omega), List.length_append, hM.2 r (by omega), List.length_replicate]

variable [FloorRing K] {solve : List (List K) → List (List K) → Res (List (List K))}

/-- C167: whatever the weights and tangents, the curve returned passes through every point with a negative weight. -/
theorem C167_exact (hsolve : SoundSolver solve) (hp : 0 < p) (hp7 : p ≤ 7) (hpn : p ≤ n) (hnm : n ≤ m + p)
    (hpts : pts.length = m + 1) (hu : uk.length = m + 1) (h0 : nth uk 0 = 0) (h1 : nth uk m = 1)
    (hmono : ∀ i j, i ≤ j → j ≤ m → nth uk i ≤ nth uk j) {tangents : List (XYZ K)} {indices order : List ℤ} {tangentWeights : List K} {c : NurbsCurve K}
    (hc : weightedFit solve p pts ws tangents indices tangentWeights order ((n : ℤ) + 1) uk = ok (some c)) (he : EndsSeparated (nth c.knots) p n)
    {i : ℕ} (hi : i ≤ m) (hw : isLessThan (nth ws i) 0 = true) : NurbsCurve.pointOnCurve c (nth uk i) = ok (nth pts i) := by
  obtain ⟨kv, ekv, k1, k2, k3, k4⟩ := C74_compute_knots hp hpn hu hnm h0 h1 hmono
  unfold weightedFit at hc
  obtain ⟨_, -, hc⟩ := bind_eq_ok.mp hc
  obtain ⟨_, -, hc⟩ := bind_eq_ok.mp hc
  obtain ⟨_, hv, hc⟩ := bind_eq_ok.mp hc
  obtain ⟨_, -, hc⟩ := bind_eq_ok.mp hc
  obtain ⟨_, -, hc⟩ := bind_eq_ok.mp hc
  obtain ⟨_, -, hc⟩ := bind_eq_ok.mp hc
  have hws : ws.length = m + 1 := by
    by_contra hcon
    rw [show decide (ws.length = pts.length) = false by rw [decide_eq_false_iff_not]; omega] at hv
    simp [validate] at hv
  dsimp only at hc
  split at hc
  · simp at hc
  rename_i hmu
  rw [ekv, ok_bind] at hc
  obtain ⟨st, hst, hc⟩ := bind_eq_ok.mp hc
  split at hc
  · simp at hc
  rename_i hrows
  obtain ⟨tNW, e1, hc⟩ := bind_eq_ok.mp hc
  obtain ⟨tNWN, e2, hc⟩ := bind_eq_ok.mp hc
  obtain ⟨tNWS, e3, hc⟩ := bind_eq_ok.mp hc
  obtain ⟨X, eX, hc⟩ := bind_eq_ok.mp hc
  split at hc
  swap
  · simp at hc
  obtain ⟨cps, ec, hc⟩ := bind_eq_ok.mp hc
  have hc' := (Option.some.inj (Res.ok.inj hc)).symm
  have heq : c.knots = kv := by rw [hc']
  rw [heq] at he
  obtain ⟨sz, hneg⟩ := fitLoop_post hp7 hpn hpts hws hu k1 k2 k3 k4 he h0 h1 hmono hst
  obtain ⟨r, hr, er, et⟩ := hneg i hi hw
  rw [not_or, not_not, not_not] at hrows
  have hNpos : 0 < st.1.N.length := by omega
  rw [show ((n : ℤ) + 1).toNat = n + 1 by omega] at *
  have hW := fitDiagonal_isMat (W := st.1.W)
  rw [sz.W] at hW
  rw [matrixMultiply_run fitTranspose_isMat hW (by omega) hNpos] at e1
  have e1 := Res.ok.inj e1
  subst e1
  rw [matrixMultiply_run isMat_tab (isMat_of_rows sz.N) (by omega) hNpos] at e2
  have e2 := Res.ok.inj e2
  subst e2
  rw [matrixMultiply_run isMat_tab (fitPoints_isMat sz.S) (by omega) hNpos] at e3
  have e3 := Res.ok.inj e3
  subst e3
  unfold fitSystem at eX
  rw [if_neg (by omega)] at eX
  have hM := isMat_of_rows sz.M
  obtain ⟨bA, bR⟩ := fitBlocks_spec (c := n + 1) (A := tab (n + 1) (n + 1) _) isMat_tab hM
  have hT := fitPoints_isMat sz.T
  have hB : ∀ B : List (List K), IsMat B (n + 1) 3 → IsMat (B ++ fitPoints st.1.T) (n + 1 + st.1.M.length) 3 ∧
      ∀ r, r < st.1.M.length → row (B ++ fitPoints st.1.T) (n + 1 + r) = row (fitPoints st.1.T) r := by
    intro B hB
    have low : ∀ r, r < st.1.M.length → row (B ++ fitPoints st.1.T) (n + 1 + r) = row (fitPoints st.1.T) r := by
      intro r hr
      unfold row
      rw [List.getD_eq_getElem?_getD, List.getElem?_append_right (by rw [hB.1]; omega), hB.1, Nat.add_sub_cancel_left]
      rfl
    refine ⟨⟨by rw [List.length_append, hB.1, hT.1], fun i hi => ?_⟩, low⟩
    by_cases hic : i < n + 1
    · have : row (B ++ fitPoints st.1.T) i = row B i := by
        unfold row
        rw [List.getD_eq_getElem?_getD, List.getElem?_append_left (by rw [hB.1]; exact hic)]
        rfl
      rw [this, hB.2 i hic]
    · obtain ⟨r, rfl⟩ : ∃ r, i = n + 1 + r := ⟨i - (n + 1), by omega⟩
      rw [low r (by omega), hT.2 r (by omega)]
  obtain ⟨bB, bL⟩ := hB _ isMat_tab
  obtain ⟨x1, x2⟩ := hsolve _ _ _ _ _ bA bB eX
  have hcp : cps = (List.range (n + 1)).map fun i => XYZW.ofXYZ ⟨ent X i 0, ent X i 1, ent X i 2⟩ 1 := by
    have : fitControl (n + 1) X = ok ((List.range (n + 1)).map fun i => XYZW.ofXYZ ⟨ent X i 0, ent X i 1, ent X i 2⟩ 1) := by
      unfold fitControl
      refine mapR_ok fun i hi => ?_
      have hi := List.mem_range.mp hi
      rw [mget_ent (a := i) (b := 0) (j := 0) x1 rfl rfl (by omega) (by omega), ok_bind, mget_ent (a := i) (b := 1) (j := 1) x1 rfl rfl (by omega) (by omega), ok_bind,
        mget_ent (a := i) (b := 2) (j := 2) x1 rfl rfl (by omega) (by omega), ok_bind]
    rw [this] at ec
    exact (Res.ok.inj ec).symm
  have hcn : ∀ i, i ≤ n → nth c.cps i = XYZW.ofXYZ ⟨ent X i 0, ent X i 1, ent X i 2⟩ 1 := by
    intro i hi
    rw [hc', hcp]
    dsimp only
    rw [nth_eq_getElem (by simp; omega)]
    simp
  have w : WellFormed c p n := by
    rw [hc', hcp]
    exact ⟨rfl, hp, hp7, by simp, hpn, k1, k4⟩
  rw [unit_weight_point w (by rw [heq]; exact he) (by rw [heq, k2 p (le_refl _), ← h0]; exact hmono 0 i (by omega) hi)
    (by rw [heq, k3 (n + 1) (le_refl _) (by omega), ← h1]; exact hmono i m hi (le_refl _)) (fun i hi => by rw [hcn i hi]; rfl), heq]
  have comp : ∀ d, d < 3 → ∑ j ∈ range (n + 1), N (nth kv) (nth kv (n + 1)) p j (nth uk i) * ent X j d = nth [(nth pts i).x, (nth pts i).y, (nth pts i).z] d := by
    intro d hd
    have e : ∑ k ∈ range (n + 1 + st.1.M.length), nth (row st.1.M r ++ List.replicate st.1.M.length 0) k * ent X k d = nth (row (fitPoints st.1.T) r) d := by
      rw [← bL r hr, ← bR r hr]
      exact x2 (n + 1 + r) d (by omega) hd
    have hTr : ent (fitPoints st.1.T) r d = nth [(nth pts i).x, (nth pts i).y, (nth pts i).z] d := by rw [fitPoints_ent (by rw [sz.T]; exact hr), et]
    rw [← hTr]
    show _ = nth (row (fitPoints st.1.T) r) d
    rw [← e, Finset.sum_range_add (n := n + 1) (m := st.1.M.length)]
    rw [show (∑ k ∈ range st.1.M.length, nth (row st.1.M r ++ List.replicate st.1.M.length 0) (n + 1 + k) * ent X (n + 1 + k) d) = 0 from ?_, add_zero]
    · refine Finset.sum_congr rfl fun j hj => ?_
      have hj := Finset.mem_range.mp hj
      rw [LNLib.nth_append_left (by rw [hM.2 r hr]; exact hj), er, nth_eq_getElem (l := (List.range (n + 1)).map _) (by simpa using hj)]
      simp
    · refine Finset.sum_eq_zero fun k hk => ?_
      have hk := Finset.mem_range.mp hk
      rw [LNLib.nth_append_right (by rw [hM.2 r hr]; omega), hM.2 r hr, Nat.add_sub_cancel_left, nth_eq_getElem (by simpa using hk), List.getElem_replicate, zero_mul]
  have hr' : ∀ j, j ≤ n → (nth c.cps j).raw = ⟨ent X j 0, ent X j 1, ent X j 2⟩ := fun j hj => by rw [hcn j hj]; simp [XYZW.ofXYZ, XYZW.raw]
  refine congrArg ok ?_
  ext
  · rw [XYZ.sum_x]
    refine (Finset.sum_congr rfl fun j hj => ?_).trans (comp 0 (by omega))
    rw [hr' j (by have := Finset.mem_range.mp hj; omega)]
  · rw [XYZ.sum_y]
    refine (Finset.sum_congr rfl fun j hj => ?_).trans (comp 1 (by omega))
    rw [hr' j (by have := Finset.mem_range.mp hj; omega)]
  · rw [XYZ.sum_z]
    refine (Finset.sum_congr rfl fun j hj => ?_).trans (comp 2 (by omega))
    rw [hr' j (by have := Finset.mem_range.mp hj; omega)]

end

/-! ### Example -/

/-- a solver for one system, for the example -/
def exactSolve (A B : List (List ℚ)) : Res (List (List ℚ)) :=
  if A = [[5/4, 1/4, 0], [1/4, 1/4, 1], [0, 1, 0]] ∧ B = [[2, 1/2, 0], [1, 1/2, 0], [3, 0, 0]] then ok [[1, 2/5, 0], [3, 0, 0], [0, 2/5, 0]] else nonfinite

theorem exactSolve_sound : SoundSolver exactSolve := by
  intro s d A B X hA hB h
  unfold exactSolve at h
  split at h
  · rename_i hAB
    obtain ⟨rfl, rfl⟩ := hAB
    have := Res.ok.inj h
    subst this
    have hs : s = 3 := hA.1.symm
    subst hs
    have hd : d = 3 := (hB.2 0 (by omega)).symm
    subst hd
    refine ⟨by unfold IsMat; decide +kernel, ?_⟩
    intro i j hi hj
    interval_cases i <;> interval_cases j <;> decide +kernel
  · simp at h

theorem weightedFit_exact : weightedFit exactSolve 1 [⟨1, 0, 0⟩, ⟨2, 1, 0⟩, ⟨3, 0, 0⟩] [1, 1, -1] [] [] [] [] 2 [0, 1/2, 1] =
    ok (some { degree := 1, knots := [0, 0, 1, 1], cps := [⟨1, 2/5, 0, 1⟩, ⟨3, 0, 0, 1⟩] }) := by decide +kernel

/-- `C167_exact` is not vacuous -/
example : NurbsCurve.pointOnCurve ({ degree := 1, knots := [0, 0, 1, 1], cps := [⟨1, 2/5, 0, 1⟩, ⟨3, 0, 0, 1⟩] } : NurbsCurve ℚ) 1 = ok ⟨3, 0, 0⟩ :=
  C167_exact (p := 1) (n := 1) (m := 2) (i := 2) exactSolve_sound (by omega) (by omega) (by omega) (by omega) rfl rfl rfl rfl (by
    intro i j hij hj
    interval_cases j <;> interval_cases i <;> decide +kernel) weightedFit_exact ⟨by decide +kernel, by decide +kernel⟩ (le_refl _) (by decide +kernel)

end LNLib.Props
