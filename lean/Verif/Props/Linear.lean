import Verif.Model.Linear
import Verif.Spec.Length
import Verif.Lemmas.Monotone
import Verif.Props.Closed
import Verif.Props.Reshape

/-! # C110, C111: straight curves and their length -/

namespace LNLib.Props
open LNLib Res Spec Finset

theorem length_le_of_sq {a : XYZ ℝ} {r : ℝ} (hr : 0 ≤ r) (h : a.x * a.x + a.y * a.y + a.z * a.z ≤ r ^ 2) : a.length ≤ r := by
  rw [← length_sq] at h
  exact (sq_le_sq₀ (length_nonneg _) hr).mp h

theorem distance_eq_length (a b : XYZ ℝ) : a.distance b = (b - a).length := by
  unfold XYZ.distance XYZ.length
  simp only [XYZ.sub_x, XYZ.sub_y, XYZ.sub_z, pow_two]

theorem dot_le_length (a b : XYZ ℝ) : a.x * b.x + a.y * b.y + a.z * b.z ≤ a.length * b.length := by
  by_contra h
  push Not at h
  have h0 : 0 ≤ a.length * b.length := mul_nonneg (length_nonneg _) (length_nonneg _)
  have h1 := mul_self_lt_mul_self h0 h
  have h2 := length_sq a
  have h3 := length_sq b
  have h4 : a.length * b.length * (a.length * b.length) = (a.x * a.x + a.y * a.y + a.z * a.z) * (b.x * b.x + b.y * b.y + b.z * b.z) := by
    rw [← h2, ← h3]; ring
  rw [h4] at h1
  nlinarith [sq_nonneg (a.x * b.y - a.y * b.x), sq_nonneg (a.x * b.z - a.z * b.x), sq_nonneg (a.y * b.z - a.z * b.y)]

theorem length_add_le (a b : XYZ ℝ) : (a + b).length ≤ a.length + b.length := by
  apply length_le_of_sq (add_nonneg (length_nonneg _) (length_nonneg _))
  have h2 := length_sq a
  have h3 := length_sq b
  have h4 := dot_le_length a b
  simp only [XYZ.add_x, XYZ.add_y, XYZ.add_z]
  nlinarith

theorem length_sum_le {ι : Type} (s : Finset ι) {b : ι → ℝ} {v : ι → XYZ ℝ} {r : ℝ} (hb : ∀ i ∈ s, 0 ≤ b i) (h : ∀ i ∈ s, (v i).length ≤ r) :
    (∑ i ∈ s, b i • v i).length ≤ (∑ i ∈ s, b i) * r := by
  classical
  induction s using Finset.induction_on with
  | empty => simp [length_zero_iff.mpr rfl]
  | insert a s ha ih =>
    rw [sum_insert ha, sum_insert ha, add_mul]
    refine (length_add_le _ _).trans (add_le_add ?_ (ih (fun i hi => hb i (mem_insert_of_mem hi)) fun i hi => h i (mem_insert_of_mem hi)))
    rw [length_smul (hb a (mem_insert_self _ _))]
    exact mul_le_mul_of_nonneg_left (h a (mem_insert_self _ _)) (hb a (mem_insert_self _ _))

theorem dom_lt {c : NurbsCurve ℝ} {p n : ℕ} (w : WellFormed c p n) (he : EndsSeparated (nth c.knots) p n) : nth c.knots p < nth c.knots (n + 1) := by
  have h := he.first
  have hm := wf_monoTo w (p + 1) (n + 1) (by have := w.pn; omega) (by have := w.pos; omega)
  have : 0 ≤ max |nth c.knots p| |nth c.knots (p + 1)| := le_max_of_le_left (abs_nonneg _)
  linarith

/-! ## C110 -/

theorem not_greater_small {d : ℝ} (h : (!isGreaterThan d 0) = true) : d ≤ 1 / 500000 := by
  rw [Bool.not_eq_true', isGreaterThan, decide_eq_false_iff_not] at h
  unfold tolOf doubleEps at h
  rw [sub_zero, not_lt, abs_zero, max_eq_left (abs_nonneg _)] at h
  rcases le_total 0 d with h0 | h0
  · rw [abs_of_nonneg h0] at h
    linarith
  · linarith

theorem almost_zero_small {v : XYZ ℝ} (h : v.almostEq ⟨0, 0, 0⟩ = true) : v.length ≤ 1 / 500000 := by
  rw [almostEq_iff] at h
  obtain ⟨h1, h2, h3⟩ := h
  have key : ∀ {x : ℝ}, |x - 0| ≤ 1 / 1000000 * (1 + max |x| |(0 : ℝ)|) → x * x ≤ (11 / 10000000) ^ 2 := by
    intro x h
    rw [sub_zero, abs_zero, max_eq_left (abs_nonneg _)] at h
    have : |x| ≤ 11 / 10000000 := by linarith
    rw [← abs_mul_abs_self]
    nlinarith [abs_nonneg x]
  apply length_le_of_sq (by norm_num)
  have a1 := key h1
  have a2 := key h2
  have a3 := key h3
  nlinarith

/-- the distance of a point from a line through `p` with unit direction `v` is the length of a cross product -/
theorem cross_distance {v : XYZ ℝ} (hv : v.length = 1) (p q : XYZ ℝ) : q.distance (p + ((q - p).dot v) • v) = ((q - p).cross v).length := by
  have h := length_sq v
  rw [hv] at h
  unfold XYZ.distance XYZ.length
  congr 1
  simp only [XYZ.add_x, XYZ.add_y, XYZ.add_z, XYZ.smul_x, XYZ.smul_y, XYZ.smul_z, XYZ.dot, XYZ.cross, XYZ.sub_x, XYZ.sub_y, XYZ.sub_z]
  linear_combination ((q.x - p.x) ^ 2 + (q.y - p.y) ^ 2 + (q.z - p.z) ^ 2 -
    ((q.x - p.x) * v.x + (q.y - p.y) * v.y + (q.z - p.z) * v.z) ^ 2) * h

theorem normalize_length {v : XYZ ℝ} (h : 0 < v.length) : v.normalize.length = 1 := by
  have e : v.normalize = (1 / v.length) • v := by
    unfold XYZ.normalize
    rw [if_pos h]
    apply XYZ.ext <;> simp [mul_comm]
  rw [e, length_smul (by positivity), one_div_mul_cancel h.ne']

theorem normalize_smul_self (v : XYZ ℝ) : ∃ k : ℝ, v.normalize = k • v := by
  unfold XYZ.normalize
  by_cases h : v.length > 0
  · rw [if_pos h]
    refine ⟨1 / v.length, ?_⟩
    apply XYZ.ext <;> simp [mul_comm]
  · rw [if_neg h]
    exact ⟨1, (one_smul _ _).symm⟩

theorem not_almost_zero_pos {v : XYZ ℝ} (h : v.almostEq ⟨0, 0, 0⟩ = false) : 0 < v.length := by
  rcases (length_nonneg v).lt_or_eq with h' | h'
  · exact h'
  · exfalso
    rw [length_zero_iff.mp h'.symm] at h
    have : (0 : XYZ ℝ).almostEq ⟨0, 0, 0⟩ = true := almostEq_iff.mpr (near_refl _)
    rw [this] at h
    exact absurd h (by decide)

/-- the two outcomes of the search for a direction -/
theorem linearDirection_cases (p0 p1 : XYZ ℝ) (rest : List (XYZ ℝ)) :
    (linearDirection p0 p1 rest = none ∧ (p1 - p0).almostEq ⟨0, 0, 0⟩ = true ∧ ∀ q ∈ rest, (q - p0).almostEq ⟨0, 0, 0⟩ = true) ∨
    ∃ v, linearDirection p0 p1 rest = some v ∧ v.almostEq ⟨0, 0, 0⟩ = false ∧ (v = p1 - p0 ∨ ((p1 - p0).almostEq ⟨0, 0, 0⟩ = true ∧ ∃ q ∈ rest, v = q - p0)) := by
  unfold linearDirection
  by_cases h : (p1 - p0).almostEq ⟨0, 0, 0⟩ = true
  · rw [if_pos h]
    rcases hf : (rest.map (· - p0)).find? fun v => !v.almostEq ⟨0, 0, 0⟩ with _ | v
    · left
      refine ⟨hf, h, ?_⟩
      intro q hq
      have := List.find?_eq_none.mp hf (q - p0) (List.mem_map.mpr ⟨q, hq, rfl⟩)
      simpa using this
    · right
      refine ⟨v, hf, ?_, Or.inr ⟨h, ?_⟩⟩
      · have := List.find?_some hf
        simpa using this
      · obtain ⟨q, hq, e⟩ := List.mem_map.mp (List.mem_of_find?_eq_some hf)
        exact ⟨q, hq, e.symm⟩
  · rw [if_neg h]
    right
    exact ⟨_, rfl, by simpa using h, Or.inl rfl⟩

/-- C110: every curve with at least two control points whose control points lie on one straight line is recognised. -/
theorem C110_collinear {c : NurbsCurve ℝ} {A D : XYZ ℝ} (h2 : 2 ≤ c.cps.length) (hl : ∀ q ∈ c.cps, ∃ s : ℝ, q.toXYZ = A + s • D) : isLinear c = true := by
  have hl' : ∀ q ∈ c.cps.map XYZW.toXYZ, ∃ s : ℝ, q = A + s • D := by
    intro q hq
    obtain ⟨a, ha, rfl⟩ := List.mem_map.mp hq
    exact hl a ha
  have hlen : 2 ≤ (c.cps.map XYZW.toXYZ).length := by simpa using h2
  unfold isLinear
  generalize c.cps.map XYZW.toXYZ = L at hl' hlen
  match L, hlen with
  | [_, _], _ => rfl
  | p0 :: p1 :: p2 :: rest, _ =>
    obtain ⟨s0, e0⟩ := hl' p0 (by simp)
    have hdiff : ∀ q ∈ p0 :: p1 :: p2 :: rest, ∃ s : ℝ, q - p0 = s • D := by
      intro q hq
      obtain ⟨s, e⟩ := hl' q hq
      exact ⟨s - s0, by rw [e, e0, sub_smul]; abel⟩
    dsimp only
    rcases linearDirection_cases p0 p1 (p2 :: rest) with ⟨e, -, -⟩ | ⟨v, e, -, hv⟩
    · rw [e]
    · rw [e]
      have hvD : ∃ s : ℝ, v = s • D := by
        rcases hv with rfl | ⟨-, q, hq, rfl⟩
        · exact hdiff p1 (by simp)
        · exact hdiff q (by simp at hq ⊢; tauto)
      obtain ⟨s, rfl⟩ := hvD
      obtain ⟨k, ek⟩ := normalize_smul_self (s • D)
      dsimp only
      rw [List.all_eq_true]
      intro q hq
      obtain ⟨s', e'⟩ := hdiff q (by simp at hq ⊢; tauto)
      have : ((q - p0).cross (s • D).normalize).length = 0 := by
        rw [e', ek, length_zero_iff]
        apply XYZ.ext <;> simp [XYZ.cross] <;> ring
      rw [this]
      unfold isGreaterThan tolOf doubleEps
      norm_num

/-- C110: when the answer is `true`, there is one straight line that no control point is further away from than 2e-6. -/
theorem C110_sound {c : NurbsCurve ℝ} (h : isLinear c = true) :
    2 ≤ c.cps.length ∧ ∃ A D : XYZ ℝ, D.length = 1 ∧ ∀ q ∈ c.cps, ∃ s : ℝ, q.toXYZ.distance (A + s • D) ≤ 1 / 500000 := by
  have main : 2 ≤ (c.cps.map XYZW.toXYZ).length ∧ ∃ A D : XYZ ℝ, D.length = 1 ∧ ∀ q ∈ c.cps.map XYZW.toXYZ, ∃ s : ℝ, q.distance (A + s • D) ≤ 1 / 500000 := by
    unfold isLinear at h
    generalize c.cps.map XYZW.toXYZ = L at h
    have hself : ∀ (a D : XYZ ℝ), a.distance (a + (0 : ℝ) • D) ≤ 1 / 500000 := by
      intro a D
      rw [zero_smul, add_zero, distance_eq_length, sub_self, length_zero_iff.mpr rfl]
      norm_num
    have hunit : (⟨1, 0, 0⟩ : XYZ ℝ).length = 1 := by simp [XYZ.length]
    have hnear : ∀ {a b D : XYZ ℝ}, (b - a).almostEq ⟨0, 0, 0⟩ = true → b.distance (a + (0 : ℝ) • D) ≤ 1 / 500000 := by
      intro a b D hab
      have := almost_zero_small hab
      rw [zero_smul, add_zero]
      unfold XYZ.length at this
      unfold XYZ.distance
      convert this using 2
      simp only [XYZ.sub_x, XYZ.sub_y, XYZ.sub_z]
      ring
    match L, h with
    | [p0, p1], _ =>
      refine ⟨by simp, ?_⟩
      rcases (length_nonneg (p1 - p0)).lt_or_eq with h' | h'
      · refine ⟨p0, (p1 - p0).normalize, normalize_length h', ?_⟩
        intro q hq
        simp only [List.mem_cons, List.not_mem_nil, or_false] at hq
        rcases hq with rfl | rfl
        · exact ⟨0, hself _ _⟩
        · refine ⟨(q - p0).length, ?_⟩
          have : p0 + (q - p0).length • (q - p0).normalize = q := by
            unfold XYZ.normalize
            rw [if_pos h']
            apply XYZ.ext <;> simp <;> field_simp <;> ring
          rw [this, distance_eq_length, sub_self, length_zero_iff.mpr rfl]
          norm_num
      · have : p1 = p0 := sub_eq_zero.mp (length_zero_iff.mp h'.symm)
        refine ⟨p0, ⟨1, 0, 0⟩, hunit, ?_⟩
        intro q hq
        simp only [List.mem_cons, List.not_mem_nil, or_false] at hq
        refine ⟨0, ?_⟩
        rcases hq with rfl | rfl
        · exact hself _ _
        · rw [this]; exact hself _ _
    | p0 :: p1 :: p2 :: rest, h =>
      refine ⟨by simp, ?_⟩
      dsimp only at h
      rcases linearDirection_cases p0 p1 (p2 :: rest) with ⟨e, h1, h2⟩ | ⟨v, e, hv0, hv⟩
      · refine ⟨p0, ⟨1, 0, 0⟩, hunit, ?_⟩
        intro q hq
        rcases List.mem_cons.mp hq with rfl | hq
        · exact ⟨0, hself _ _⟩
        · rcases List.mem_cons.mp hq with rfl | hq
          · exact ⟨0, hnear h1⟩
          · exact ⟨0, hnear (h2 q hq)⟩
      · rw [e] at h
        dsimp only at h
        rw [List.all_eq_true] at h
        have hpos := not_almost_zero_pos hv0
        refine ⟨p0, v.normalize, normalize_length hpos, ?_⟩
        intro q hq
        rcases List.mem_cons.mp hq with rfl | hq
        · exact ⟨0, hself _ _⟩
        · rcases List.mem_cons.mp hq with rfl | hq
          · rcases hv with rfl | ⟨h1, -⟩
            · refine ⟨(q - p0).length, ?_⟩
              have : p0 + (q - p0).length • (q - p0).normalize = q := by
                unfold XYZ.normalize
                rw [if_pos hpos]
                apply XYZ.ext <;> simp <;> field_simp <;> ring
              rw [this, distance_eq_length, sub_self, length_zero_iff.mpr rfl]
              norm_num
            · exact ⟨0, hnear h1⟩
          · refine ⟨_, (cross_distance (normalize_length hpos) p0 q).trans_le ?_⟩
            exact not_greater_small (h q hq)
  obtain ⟨h2, A, D, hD, hq⟩ := main
  exact ⟨by simpa using h2, A, D, hD, fun q h => hq _ (List.mem_map.mpr ⟨q, h, rfl⟩)⟩

/-- C110: and then no point of the curve (weights at least 2e-6) is further away from that line either. -/
theorem C110_curve {c : NurbsCurve ℝ} {p n : ℕ} {A D : XYZ ℝ} {r : ℝ} (w : WellFormed c p n) (he : EndsSeparated (nth c.knots) p n)
    (hw : ∀ q ∈ c.cps, 1 / 500000 ≤ q.w) (hq : ∀ q ∈ c.cps, ∃ s : ℝ, q.toXYZ.distance (A + s • D) ≤ r) {t : ℝ}
    (h0 : nth c.knots p ≤ t) (h1 : t ≤ nth c.knots (n + 1)) :
    ∃ P, NurbsCurve.pointOnCurve c t = ok P ∧ ∃ s : ℝ, P.distance (A + s • D) ≤ r := by
  have hc := w.cps
  have hmem : ∀ i, i ≤ n → nth c.cps i ∈ c.cps := by
    intro i hi
    rw [nth_eq_getElem (by omega)]
    exact List.getElem_mem _
  have hW := weightFn_ge w he h0 h1 fun i hi => hw _ (hmem i hi)
  have hW0 : 0 < weightFn (nth c.knots) p n (nth c.cps) t := lt_of_lt_of_le (by norm_num) hW
  obtain ⟨s, hs⟩ := exists_isSpan w.pn (dom_lt w he) h0 h1
  obtain ⟨b1, b2⟩ := basis_convex (wf_monoTo w) hs
  refine ⟨_, C05_eval_rational w he h0 h1 (notTiny_of_ge hW), ?_⟩
  have hq' : ∀ i, ∃ s : ℝ, i ≤ n → (nth c.cps i).toXYZ.distance (A + s • D) ≤ r := by
    intro i
    by_cases hi : i ≤ n
    · obtain ⟨s, e⟩ := hq _ (hmem i hi)
      exact ⟨s, fun _ => e⟩
    · exact ⟨0, fun h => absurd h hi⟩
  choose σ hσ using hq'
  obtain ⟨W, eW⟩ : ∃ W, weightFn (nth c.knots) p n (nth c.cps) t = W := ⟨_, rfl⟩
  obtain ⟨l, hl⟩ : ∃ l : ℕ → ℝ, ∀ i, l i = W⁻¹ * (N (nth c.knots) (nth c.knots (n + 1)) p i t * (nth c.cps i).w) := ⟨_, fun _ => rfl⟩
  rw [eW] at hW hW0
  have hsum : ∑ i ∈ range (n + 1), l i = 1 := by
    rw [sum_congr rfl fun i _ => hl i, ← mul_sum]
    have : ∑ i ∈ range (n + 1), N (nth c.knots) (nth c.knots (n + 1)) p i t * (nth c.cps i).w = W := eW
    rw [this, inv_mul_cancel₀ hW0.ne']
  have hP : rationalPoint (nth c.knots) p n (nth c.cps) t = ∑ i ∈ range (n + 1), l i • (nth c.cps i).toXYZ := by
    rw [rationalPoint_raw, eW, smul_sum]
    refine sum_congr rfl fun i hi => ?_
    rw [mem_range] at hi
    rw [← smul_toXYZ (notTiny_of_ge (hw _ (hmem i (by omega)))), smul_smul, smul_smul, hl]
    congr 1
    ring
  refine ⟨∑ i ∈ range (n + 1), l i * σ i, ?_⟩
  have e : A + (∑ i ∈ range (n + 1), l i * σ i) • D - rationalPoint (nth c.knots) p n (nth c.cps) t =
      ∑ i ∈ range (n + 1), l i • (A + σ i • D - (nth c.cps i).toXYZ) := by
    rw [hP, sum_smul]
    simp only [smul_sub, smul_add, sum_sub_distrib, sum_add_distrib, smul_smul]
    rw [← sum_smul, ← sum_smul, hsum, one_smul]
  rw [distance_eq_length, e]
  refine (length_sum_le (r := r) _ ?_ ?_).trans ?_
  · intro i hi
    rw [mem_range] at hi
    rw [hl]
    exact mul_nonneg (inv_nonneg.mpr hW0.le) (mul_nonneg (b1 i (by omega)) (le_trans (by norm_num) (hw _ (hmem i (by omega)))))
  · intro i hi
    rw [mem_range] at hi
    rw [← distance_eq_length]
    exact hσ i (by omega)
  · rw [hsum, one_mul]

/-! ## C111 -/

/-- the point of a curve with control points on a line -/
theorem line_point {c : NurbsCurve ℝ} {p n : ℕ} {A D : XYZ ℝ} {s : ℕ → ℝ} {t : ℝ} (w : WellFormed c p n) (he : EndsSeparated (nth c.knots) p n)
    (hw : ∀ i, i ≤ n → 1 / 500000 ≤ (nth c.cps i).w) (hl : ∀ i, i ≤ n → (nth c.cps i).toXYZ = A + s i • D)
    (h0 : nth c.knots p ≤ t) (h1 : t ≤ nth c.knots (n + 1)) :
    rationalPoint (nth c.knots) p n (nth c.cps) t = A +
      ((curvePoint (nth c.knots) p n (fun i => ((nth c.cps i).w * s i, (nth c.cps i).w)) t).1 /
        (curvePoint (nth c.knots) p n (fun i => ((nth c.cps i).w * s i, (nth c.cps i).w)) t).2) • D ∧
      1 / 500000 ≤ (curvePoint (nth c.knots) p n (fun i => ((nth c.cps i).w * s i, (nth c.cps i).w)) t).2 := by
  have hW := weightFn_ge w he h0 h1 hw
  have e2 : (curvePoint (nth c.knots) p n (fun i => ((nth c.cps i).w * s i, (nth c.cps i).w)) t).2 = weightFn (nth c.knots) p n (nth c.cps) t := by
    unfold curvePoint weightFn
    rw [Prod.snd_sum]
    rfl
  have e1 : (curvePoint (nth c.knots) p n (fun i => ((nth c.cps i).w * s i, (nth c.cps i).w)) t).1 =
      ∑ i ∈ range (n + 1), N (nth c.knots) (nth c.knots (n + 1)) p i t * ((nth c.cps i).w * s i) := by
    unfold curvePoint
    rw [Prod.fst_sum]
    rfl
  rw [e1, e2]
  refine ⟨?_, hW⟩
  have hW0 : 0 < weightFn (nth c.knots) p n (nth c.cps) t := lt_of_lt_of_le (by norm_num) hW
  rw [rationalPoint_raw]
  have : ∑ i ∈ range (n + 1), N (nth c.knots) (nth c.knots (n + 1)) p i t • (nth c.cps i).raw =
      weightFn (nth c.knots) p n (nth c.cps) t • A + (∑ i ∈ range (n + 1), N (nth c.knots) (nth c.knots (n + 1)) p i t * ((nth c.cps i).w * s i)) • D := by
    unfold weightFn
    rw [sum_smul, sum_smul, ← sum_add_distrib]
    refine sum_congr rfl fun i hi => ?_
    rw [mem_range] at hi
    rw [← smul_toXYZ (notTiny_of_ge (hw i (by omega))), hl i (by omega), smul_add, smul_add, smul_smul, smul_smul, smul_smul, mul_assoc]
  rw [this, smul_add, smul_smul, inv_mul_cancel₀ hW0.ne', one_smul, smul_smul, div_eq_inv_mul]

theorem polyLength_line {f : ℝ → XYZ ℝ} {A D : XYZ ℝ} {σ : ℝ → ℝ} {a b : ℝ} (hf : ∀ t, a ≤ t → t ≤ b → f t = A + σ t • D)
    (hσ : ∀ t t', a ≤ t → t ≤ t' → t' ≤ b → σ t ≤ σ t') : ∀ (ts : List ℝ) (t : ℝ), (t :: ts).Pairwise (· ≤ ·) → (∀ t' ∈ t :: ts, a ≤ t' ∧ t' ≤ b) →
    polyLength f (t :: ts) ≤ (σ b - σ t) * D.length := by
  intro ts
  induction ts with
  | nil =>
    intro t _ h
    have := h t (by simp)
    exact mul_nonneg (sub_nonneg.mpr (hσ _ _ this.1 this.2 (le_refl _))) (length_nonneg _)
  | cons u us ih =>
    intro t hp h
    have h1 := ih u (List.Pairwise.of_cons hp) fun t' ht' => h t' (List.mem_cons_of_mem _ ht')
    have ht := h t (by simp)
    have hu := h u (by simp)
    have htu : t ≤ u := (List.pairwise_cons.mp hp).1 u (by simp)
    have hs := hσ t u ht.1 htu hu.2
    unfold polyLength
    rw [hf t ht.1 ht.2, hf u hu.1 hu.2, distance_on_line, abs_sub_comm, abs_of_nonneg (sub_nonneg.mpr hs)]
    linarith

/-- C111 for straight curves that do not turn back: for a clamped curve (weights at least 2e-6) with control points on a line, in their order
along it, the returned number is exactly the length of the curve. -/
theorem C111_straight_partial {c : NurbsCurve ℝ} {p n : ℕ} {A D : XYZ ℝ} {s : ℕ → ℝ} (quadrature : NurbsCurve ℝ → Res ℝ) (w : WellFormed c p n)
    (he : EndsSeparated (nth c.knots) p n) (hc : ClampedEnds (nth c.knots) p n)
    (hw : ∀ i, i ≤ n → 1 / 500000 ≤ (nth c.cps i).w) (hl : ∀ i, i ≤ n → (nth c.cps i).toXYZ = A + s i • D) (hs : ∀ i j, i ≤ j → j ≤ n → s i ≤ s j) :
    ∃ f L, (∀ t, nth c.knots p ≤ t → t ≤ nth c.knots (n + 1) → NurbsCurve.pointOnCurve c t = ok (f t)) ∧
      approximateLength quadrature c = ok L ∧ IsArcLength f (nth c.knots p) (nth c.knots (n + 1)) L := by
  have hcl := w.cps
  have hpn := w.pn
  have hp := w.pos
  have hm := wf_monoTo w
  have hab : nth c.knots p ≤ nth c.knots (n + 1) := (dom_lt w he).le
  obtain ⟨Q, hQ⟩ : ∃ Q : ℕ → ℝ × ℝ, Q = fun i => ((nth c.cps i).w * s i, (nth c.cps i).w) := ⟨_, rfl⟩
  obtain ⟨σ, hσ⟩ : ∃ σ : ℝ → ℝ, σ = fun t => (curvePoint (nth c.knots) p n Q t).1 / (curvePoint (nth c.knots) p n Q t).2 := ⟨_, rfl⟩
  have hpt : ∀ t, nth c.knots p ≤ t → t ≤ nth c.knots (n + 1) → rationalPoint (nth c.knots) p n (nth c.cps) t = A + σ t • D ∧
      1 / 500000 ≤ (curvePoint (nth c.knots) p n Q t).2 := by
    intro t h0 h1
    rw [hσ, hQ]
    exact line_point w he hw hl h0 h1
  have heval : ∀ t, nth c.knots p ≤ t → t ≤ nth c.knots (n + 1) → NurbsCurve.pointOnCurve c t = ok (A + σ t • D) := by
    intro t h0 h1
    rw [C05_eval_rational w he h0 h1 (notTiny_of_ge (weightFn_ge w he h0 h1 hw)), (hpt t h0 h1).1]
  have hmono : ∀ t t', nth c.knots p ≤ t → t ≤ t' → t' ≤ nth c.knots (n + 1) → σ t ≤ σ t' := by
    intro t t' h0 htt h1
    rcases htt.lt_or_eq with hlt | rfl
    · have ht : t < nth c.knots (n + 1) := lt_of_lt_of_le hlt h1
      obtain ⟨a, ha⟩ := exists_isSpan hpn (dom_lt w he) h0 ht.le
      obtain ⟨b, hb⟩ := exists_isSpan hpn (dom_lt w he) (h0.trans htt) h1
      have := curve_before (Q := Q) (m := 0) hp p hm ha hb htt ht ?_ (fun l hl => absurd hl (by omega)) (by omega)
      · unfold Before at this
        rw [hσ]
        dsimp only
        rw [div_le_div_iff₀ (lt_of_lt_of_le (by norm_num) (hpt t h0 ht.le).2) (lt_of_lt_of_le (by norm_num) (hpt t' (h0.trans htt) h1).2)]
        exact this
      · intro i j hij hj
        unfold Before
        rw [hQ]
        dsimp only
        have p1 : 0 ≤ (nth c.cps i).w := le_trans (by norm_num) (hw i (by omega))
        have p2 : 0 ≤ (nth c.cps j).w := le_trans (by norm_num) (hw j hj)
        nlinarith [mul_le_mul_of_nonneg_left (hs i j hij hj) (mul_nonneg p1 p2)]
    · exact le_refl _
  have hlin : isLinear c = true := by
    refine C110_collinear (A := A) (D := D) (by omega) ?_
    intro q hq
    obtain ⟨i, hi, rfl⟩ := List.mem_iff_getElem.mp hq
    refine ⟨s i, ?_⟩
    rw [← nth_eq_getElem hi]
    exact hl i (by omega)
  obtain ⟨e1, e2, -⟩ := isClosed_run w he hc
  have k0 : nth c.knots 0 = nth c.knots p := (clamped_first w hc p (le_refl _)).symm
  have k1 : nth c.knots (n + p + 1) = nth c.knots (n + 1) := (clamped_last w hc (n + 1) (by omega) (by omega)).symm
  rw [k0, heval _ (le_refl _) hab] at e1
  rw [k1, heval _ hab (le_refl _)] at e2
  refine ⟨fun t => A + σ t • D, (σ (nth c.knots (n + 1)) - σ (nth c.knots p)) * D.length, heval, ?_, ?_, ?_⟩
  · unfold approximateLength
    rw [if_pos hlin, vget_nth (i := 0) (k := 0) rfl (by omega), ok_bind, vget_nth (k := n) (by omega) (by omega), ok_bind, ← Res.ok.inj e1, ← Res.ok.inj e2,
      distance_on_line, abs_sub_comm, abs_of_nonneg (sub_nonneg.mpr (hmono _ _ (le_refl _) hab (le_refl _)))]
  · rintro x ⟨ts, hsort, hin, rfl⟩
    match ts, hsort, hin with
    | [], _, _ => exact mul_nonneg (sub_nonneg.mpr (hmono _ _ (le_refl _) hab (le_refl _))) (length_nonneg _)
    | t :: ts, hsort, hin =>
      refine (polyLength_line (fun _ _ _ => rfl) hmono ts t hsort hin).trans ?_
      have ht := hin t (by simp)
      exact mul_le_mul_of_nonneg_right (sub_le_sub_left (hmono _ _ (le_refl _) ht.1 ht.2) _) (length_nonneg _)
  · intro x hx
    refine hx ⟨[nth c.knots p, nth c.knots (n + 1)], by simpa using hab, ?_, ?_⟩
    · intro t ht
      simp only [List.mem_cons, List.not_mem_nil, or_false] at ht
      rcases ht with rfl | rfl
      · exact ⟨le_refl _, hab⟩
      · exact ⟨hab, le_refl _⟩
    · simp only [polyLength, add_zero]
      rw [distance_on_line, abs_sub_comm, abs_of_nonneg (sub_nonneg.mpr (hmono _ _ (le_refl _) hab (le_refl _)))]

/-- a quadratic curve that runs along a line to its turning point at 1/2 and back -/
def exBack : NurbsCurve ℝ := { degree := 2, knots := [0, 0, 0, 1, 1, 1], cps := [⟨0, 0, 0, 1⟩, ⟨1, 0, 0, 1⟩, ⟨0, 0, 0, 1⟩] }

theorem exBack_wf : WellFormed exBack 2 2 :=
  { degree := rfl, pos := by decide, le7 := by decide, cps := rfl, pn := by decide, knots := rfl,
    sorted := fun i j h h' => bez2_mono i j h (by simp [exBack] at h'; omega) }

theorem exBack_point {t : ℝ} (h0 : 0 < t) (h1 : t < 1) : NurbsCurve.pointOnCurve exBack t = ok ⟨2 * t * (1 - t), 0, 0⟩ := by
  have b0 := bez2_N h0 h1 0 (by omega)
  have b1 := bez2_N h0 h1 1 (by omega)
  have b2 := bez2_N h0 h1 2 (by omega)
  have d := bez2_dN t
  rw [d.1 0, if_pos rfl] at b0
  rw [d.2.1 0, if_pos rfl] at b1
  rw [d.2.2 0, if_pos rfl] at b2
  have hW : weightFn (nth exBack.knots) 2 2 (nth exBack.cps) t = 1 := by
    unfold weightFn
    rw [sum_range_succ, sum_range_succ, sum_range_one]
    have e : nth exBack.knots = nth [0, 0, 0, 1, 1, 1] := rfl
    rw [e, show nth ([0, 0, 0, 1, 1, 1] : List ℝ) (2 + 1) = 1 from rfl] at *
    rw [b0, b1, b2]
    simp [exBack, nth]
    ring
  rw [C05_eval_rational exBack_wf bez2_ends (by simpa [exBack, nth] using h0.le) (by simpa [exBack, nth] using h1.le) (by rw [hW]; exact notTiny_of_ge (by norm_num)),
    rationalPoint_raw, hW, sum_range_succ, sum_range_succ, sum_range_one]
  have e : nth exBack.knots = nth [0, 0, 0, 1, 1, 1] := rfl
  rw [e, show (2 + 1 : ℕ) = 3 from rfl, b0, b1, b2]
  congr 1
  apply XYZ.ext <;> simp [exBack, nth, XYZW.raw]

/-- C111 is false for straight curves that turn back: the returned length is 0 although the curve passes through (4/9,0,0) and (1/2,0,0). -/
theorem C111_turning_violated (quadrature : NurbsCurve ℝ → Res ℝ) : approximateLength quadrature exBack = ok 0 ∧
    NurbsCurve.pointOnCurve exBack (1 / 3) = ok ⟨4 / 9, 0, 0⟩ ∧ NurbsCurve.pointOnCurve exBack (1 / 2) = ok ⟨1 / 2, 0, 0⟩ ∧
    ∀ f, (∀ t, 0 ≤ t → t ≤ 1 → NurbsCurve.pointOnCurve exBack t = ok (f t)) → ¬ IsArcLength f 0 1 0 := by
  have p1 : NurbsCurve.pointOnCurve exBack (1 / 3) = ok ⟨4 / 9, 0, 0⟩ := by
    rw [exBack_point (by norm_num) (by norm_num)]; norm_num
  have p2 : NurbsCurve.pointOnCurve exBack (1 / 2) = ok ⟨1 / 2, 0, 0⟩ := by
    rw [exBack_point (by norm_num) (by norm_num)]; norm_num
  refine ⟨?_, p1, p2, ?_⟩
  · have hlin : isLinear exBack = true := by
      refine C110_collinear (A := 0) (D := ⟨1, 0, 0⟩) (by simp [exBack]) ?_
      intro q hq
      simp only [exBack, List.mem_cons, List.not_mem_nil, or_false] at hq
      rcases hq with rfl | rfl | rfl
      · exact ⟨0, by rw [toXYZ_one]; apply XYZ.ext <;> simp⟩
      · exact ⟨1, by rw [toXYZ_one]; apply XYZ.ext <;> simp⟩
      · exact ⟨0, by rw [toXYZ_one]; apply XYZ.ext <;> simp⟩
    unfold approximateLength
    rw [if_pos hlin, vget_nth (i := 0) (k := 0) rfl (by simp [exBack]), ok_bind, vget_nth (k := 2) (by simp [exBack]) (by simp [exBack]), ok_bind]
    have e0 : (nth exBack.cps 0).toXYZ = ⟨0, 0, 0⟩ := toXYZ_one _ _ _
    have e2 : (nth exBack.cps 2).toXYZ = ⟨0, 0, 0⟩ := toXYZ_one _ _ _
    rw [e0, e2]
    simp [XYZ.distance]
  · intro f hf hlen
    have := hlen.1 ⟨[1 / 3, 1 / 2], by norm_num, by norm_num, rfl⟩
    have f1 := hf (1 / 3) (by norm_num) (by norm_num)
    have f2 := hf (1 / 2) (by norm_num) (by norm_num)
    rw [p1] at f1
    rw [p2] at f2
    unfold polyLength polyLength at this
    rw [← Res.ok.inj f1, ← Res.ok.inj f2] at this
    unfold XYZ.distance at this
    rw [show ((1 : ℝ) / 2 - 4 / 9) ^ 2 + (0 - 0) ^ 2 + (0 - 0) ^ 2 = (1 / 18) ^ 2 by norm_num, Real.sqrt_sq (by norm_num)] at this
    norm_num at this

/-- a polyline with a right angle -/
def exCorner : NurbsCurve ℝ := { degree := 1, knots := [0, 0, 1, 2, 2], cps := [⟨0, 0, 0, 1⟩, ⟨1, 0, 0, 1⟩, ⟨1, 1, 0, 1⟩] }

/-- C111 is false for polylines: a valid curve of degree one that is not straight is rejected as an invalid argument instead of being measured. -/
theorem C111_polyline_violated (quadrature : NurbsCurve ℝ → Res ℝ) : WellFormed exCorner 1 2 ∧ EndsSeparated (nth exCorner.knots) 1 2 ∧
    approximateLength quadrature exCorner = invalidArg := by
  refine ⟨{ degree := rfl, pos := by decide, le7 := by decide, cps := rfl, pn := by decide, knots := rfl, sorted := ?_ }, ⟨?_, ?_⟩, ?_⟩
  · intro i j hij hj
    have hj' : j < 5 := hj
    unfold exCorner
    dsimp only
    interval_cases j <;> interval_cases i <;> norm_num [nth]
  · norm_num [exCorner, nth]
  · norm_num [exCorner, nth]
  · have hlin : isLinear exCorner = false := by
      rw [Bool.eq_false_iff]
      intro h
      unfold isLinear at h
      simp only [exCorner, List.map_cons, List.map_nil, toXYZ_one] at h
      have hd : linearDirection ⟨0, 0, 0⟩ ⟨1, 0, 0⟩ [⟨1, 1, 0⟩] = some (⟨1, 0, 0⟩ - ⟨0, 0, 0⟩ : XYZ ℝ) := by
        unfold linearDirection
        rw [if_neg]
        rw [almostEq_iff]
        unfold Near
        norm_num
      rw [hd] at h
      have hn : (⟨1, 0, 0⟩ - ⟨0, 0, 0⟩ : XYZ ℝ).normalize = ⟨1, 0, 0⟩ := by
        have : (⟨1, 0, 0⟩ - ⟨0, 0, 0⟩ : XYZ ℝ) = ⟨1, 0, 0⟩ := by apply XYZ.ext <;> simp
        rw [this]
        simp [XYZ.normalize, XYZ.length]
      simp only [hn, List.all_cons, List.all_nil, Bool.and_true] at h
      have := not_greater_small h
      have e : ((⟨1, 1, 0⟩ - ⟨0, 0, 0⟩ : XYZ ℝ).cross ⟨1, 0, 0⟩).length = 1 := by
        simp [XYZ.length, XYZ.cross]
      rw [e] at this
      norm_num at this
    unfold approximateLength
    rw [if_neg (by rw [hlin]; decide)]
    rfl

/-- C110, C111: the segment of C108 meets the hypotheses. -/
example (quadrature : NurbsCurve ℝ → Res ℝ) : isLinear exSegment = true ∧ ∃ f L, (∀ t, 0 ≤ t → t ≤ 1 → NurbsCurve.pointOnCurve exSegment t = ok (f t)) ∧
    approximateLength quadrature exSegment = ok L ∧ IsArcLength f 0 1 L :=
  ⟨rfl, C111_straight_partial (A := 0) (D := ⟨1, 0, 0⟩) (s := fun i => i) quadrature exSegment_wf exSegment_ends ⟨rfl, rfl⟩
    (by intro i hi; interval_cases i <;> norm_num [exSegment, nth])
    (by
      intro i hi
      interval_cases i
      · refine (toXYZ_one 0 0 0).trans ?_
        apply XYZ.ext <;> simp
      · refine (toXYZ_one 1 0 0).trans ?_
        apply XYZ.ext <;> simp)
    (fun i j h _ => by exact_mod_cast h)⟩

end LNLib.Props
