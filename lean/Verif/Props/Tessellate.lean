import Verif.Model.Query
import Verif.Props.Surface
import Verif.Props.KnotVector
import Verif.Props.Decompose
import Verif.Lemmas.VolumeSplit

/-!
# C90, C91: equally spaced tessellation of curves and surfaces
-/

namespace LNLib.Props
open LNLib Res Spec Finset

section
variable {K : Type} [Field K] [LinearOrder K] [IsStrictOrderedRing K]

/-- the distinct knots of a valid clamped knot vector: first, last, and all within -/
theorem unique_knots {U : List K} {m : ℕ} (hl : U.length = m + 1) (hs : ∀ i j, i ≤ j → j < U.length → nth U i ≤ nth U j) (hlt : nth U 0 < nth U m) :
    ∃ s, (stdUnique U).length = s + 2 ∧ nth (stdUnique U) 0 = nth U 0 ∧ nth (stdUnique U) (s + 1) = nth U m ∧
      (∀ i j, i < j → j < s + 2 → nth (stdUnique U) i < nth (stdUnique U) j) ∧ ∀ x, x ∈ stdUnique U ↔ x ∈ U := by
  have hp : U.Pairwise (· ≤ ·) := by
    rw [List.pairwise_iff_getElem]
    intro i j hi hj hij
    rw [← nth_eq_getElem hi, ← nth_eq_getElem hj]
    exact hs i j hij.le hj
  obtain ⟨h1, h2⟩ := stdUnique_sorted hp
  have hst : ∀ i j, i < j → j < (stdUnique U).length → nth (stdUnique U) i < nth (stdUnique U) j := by
    intro i j hij hj
    have := (List.pairwise_iff_getElem.mp h1) i j (by omega) hj hij
    rwa [← nth_eq_getElem, ← nth_eq_getElem] at this
  have mem : ∀ i, i ≤ m → ∃ j, j < (stdUnique U).length ∧ nth (stdUnique U) j = nth U i := by
    intro i hi
    have : nth U i ∈ stdUnique U := (h2 _).mpr (by rw [nth_eq_getElem (show i < U.length by omega)]; exact List.getElem_mem _)
    obtain ⟨j, hj, e⟩ := List.getElem_of_mem this
    exact ⟨j, hj, by rw [nth_eq_getElem hj, e]⟩
  have mem' : ∀ j, j < (stdUnique U).length → ∃ i, i ≤ m ∧ nth (stdUnique U) j = nth U i := by
    intro j hj
    have : nth (stdUnique U) j ∈ U := (h2 _).mp (by rw [nth_eq_getElem hj]; exact List.getElem_mem _)
    obtain ⟨i, hi, e⟩ := List.getElem_of_mem this
    exact ⟨i, by omega, by rw [nth_eq_getElem hi, e]⟩
  obtain ⟨a, ha, ea⟩ := mem 0 (by omega)
  obtain ⟨b, hb, eb⟩ := mem m (by omega)
  have hab : a ≠ b := by rintro rfl; rw [ea] at eb; exact absurd eb hlt.ne
  have ha0 : a = 0 := by
    by_contra h
    have := hst 0 a (by omega) ha
    obtain ⟨i, hi, e⟩ := mem' 0 (by omega)
    rw [ea, e] at this
    exact absurd (hs 0 i (by omega) (by omega)) (not_le.mpr this)
  have hbl : b + 1 = (stdUnique U).length := by
    by_contra h
    have := hst b (b + 1) (by omega) (by omega)
    obtain ⟨i, hi, e⟩ := mem' (b + 1) (by omega)
    rw [eb, e] at this
    exact absurd (hs i m (by omega) (by omega)) (not_le.mpr this)
  refine ⟨b - 1, by omega, ?_, ?_, fun i j h1 h2 => hst i j h1 (by omega), h2⟩
  · rw [ha0] at ea; exact ea
  · rw [show b - 1 + 1 = b by omega, eb]

/-- the `k`-th parameter: `num` samples in every span, at distance `span / den` -/
def sampleAt (W : ℕ → K) (den : K) (k : ℕ) : K := W (k / 100) + (W (k / 100 + 1) - W (k / 100)) / den * ((k % 100 : ℕ) : K)

omit [LinearOrder K] [IsStrictOrderedRing K] in
theorem sampleAt_eq (W : ℕ → K) (den : K) {i j : ℕ} (hj : j < 100) :
    sampleAt W den (100 * i + j) = W i + (W (i + 1) - W i) / den * (j : K) := by
  unfold sampleAt
  rw [show (100 * i + j) / 100 = i by omega, show (100 * i + j) % 100 = j by omega]

/-- the samples lie in their span -/
theorem sampleAt_mem {W : ℕ → K} {den : K} {i j : ℕ} (hden : 99 ≤ den) (h : W i < W (i + 1)) (hj : j < 100) :
    W i ≤ sampleAt W den (100 * i + j) ∧ sampleAt W den (100 * i + j) ≤ W (i + 1) := by
  rw [sampleAt_eq _ _ hj]
  have hd : (0 : K) < den := by linarith
  have hjK : (j : K) ≤ den := le_trans (by exact_mod_cast (show j ≤ 99 by omega)) hden
  have e : (W (i + 1) - W i) / den * (j : K) = (W (i + 1) - W i) * ((j : K) / den) := by ring
  have h0 : 0 ≤ (j : K) / den := by positivity
  have h1 : (j : K) / den ≤ 1 := (div_le_one hd).mpr hjK
  have hpos : 0 < W (i + 1) - W i := by linarith
  rw [e]
  constructor
  · have := mul_nonneg hpos.le h0; linarith
  · have := mul_le_mul_of_nonneg_left h1 hpos.le; linarith

/-- what `EquallyTessellate` computes -/
theorem tessellate_run {c : NurbsCurve K} {p n s : ℕ} {W : List K} (hW : stdUnique c.knots = W) (w : WellFormed c p n)
    (he : EndsSeparated (nth c.knots) p n) (hlen : W.length = s + 2) (hmono : ∀ i j, i < j → j < s + 2 → nth W i < nth W j)
    (h0 : nth c.knots p ≤ nth W 0) (h1 : nth W (s + 1) ≤ nth c.knots (n + 1)) :
    equallyTessellate c = ok ((List.range (100 * (s + 1))).map (fun k => (curvePoint (nth c.knots) p n (nth c.cps) (sampleAt (nth W) 99 k)).toXYZ),
      (List.range (100 * (s + 1))).map (sampleAt (nth W) 99)) := by
  unfold equallyTessellate
  dsimp only
  rw [hW]
  apply Runs.eq
  refine (Runs.forN (m := 0) (n := s + 1)
    (fun i st => st = ((List.range (100 * i)).map (fun k => (curvePoint (nth c.knots) p n (nth c.cps) (sampleAt (nth W) 99 k)).toXYZ),
      (List.range (100 * i)).map (sampleAt (nth W) 99))) (by simp) (by omega) (by omega) (by simp) ?_).mono (fun st h => h)
  rintro i st - hi rfl
  rw [vget_nth (k := i) rfl (by omega), ok_bind, vget_nth (k := i + 1) (by push_cast; ring) (by omega), ok_bind]
  refine (Runs.forN (m := 0) (n := 100)
    (fun j st => st = ((List.range (100 * i + j)).map (fun k => (curvePoint (nth c.knots) p n (nth c.cps) (sampleAt (nth W) 99 k)).toXYZ),
      (List.range (100 * i + j)).map (sampleAt (nth W) 99))) (by simp) (by simp) (by omega) (by simp) ?_).mono (fun st h => h)
  rintro j st - hj rfl
  have hle : ∀ a b, a ≤ b → b < s + 2 → nth W a ≤ nth W b := by
    intro a b hab hb
    rcases hab.lt_or_eq with h | rfl
    · exact (hmono a b h hb).le
    · exact le_refl _
  obtain ⟨g0, g1⟩ := sampleAt_mem (W := nth W) (den := 99) (le_refl _) (hmono i (i + 1) (by omega) (by omega)) hj
  have e := sampleAt_eq (nth W) 99 (i := i) hj
  have ev : NurbsCurve.pointOnCurve c (sampleAt (nth W) 99 (100 * i + j)) =
      ok (curvePoint (nth c.knots) p n (nth c.cps) (sampleAt (nth W) 99 (100 * i + j))).toXYZ := by
    unfold NurbsCurve.pointOnCurve
    rw [C05_eval w he ((h0.trans (hle 0 i (by omega) (by omega))).trans g0) (g1.trans ((hle (i + 1) (s + 1) (by omega) (by omega)).trans h1)), ok_bind]
  dsimp only
  rw [Int.cast_natCast, ← e, ev, ok_bind]
  refine Runs.ok ?_
  rw [show 100 * i + (j + 1) = (100 * i + j) + 1 by omega, List.range_succ, List.map_append, List.map_append]
  rfl

/-- C90: `EquallyTessellate` of a valid clamped curve returns as many points as parameters; every parameter is in the domain and its point is the
point of the curve at that parameter; the parameters start at the start of the domain, end at its end, do not decrease, and include every knot; and
between any two consecutive ones lies at most 1/99 of the domain, so that every parameter of the domain is that close to a sample. -/
theorem C90_tessellate {c : NurbsCurve K} {p n : ℕ} (w : WellFormed c p n) (he : EndsSeparated (nth c.knots) p n)
    (hc : ClampedEnds (nth c.knots) p n) :
    ∃ pts params, equallyTessellate c = ok (pts, params) ∧ pts.length = params.length ∧ 0 < params.length ∧
      (∀ k, k < params.length → nth c.knots p ≤ nth params k ∧ nth params k ≤ nth c.knots (n + 1) ∧
        NurbsCurve.pointOnCurve c (nth params k) = ok (nth pts k)) ∧
      nth params 0 = nth c.knots p ∧ nth params (params.length - 1) = nth c.knots (n + 1) ∧
      (∀ k, k + 1 < params.length → nth params k ≤ nth params (k + 1) ∧
        99 * (nth params (k + 1) - nth params k) ≤ nth c.knots (n + 1) - nth c.knots p) ∧
      (∀ x ∈ c.knots, x ∈ params) := by
  have hl := w.knots
  have hm := wf_monoTo w
  have hpn := w.pn
  have hlt : nth c.knots 0 < nth c.knots (n + p + 1) := by
    have h1 := he.first
    have h2 := hm (p + 1) (n + p + 1) (by omega) (by omega)
    have : (0 : K) ≤ 1 / 1000000 * (1 + max |nth c.knots p| |nth c.knots (p + 1)|) := by
      have : 0 ≤ max |nth c.knots p| |nth c.knots (p + 1)| := le_max_of_le_left (abs_nonneg _)
      positivity
    have h3 := hm 0 p (by omega) (by omega)
    linarith
  obtain ⟨s, us, u0, u1, umono, umem⟩ := unique_knots (m := n + p + 1) (by omega) w.sorted hlt
  obtain ⟨W, hW⟩ : ∃ W, stdUnique c.knots = W := ⟨_, rfl⟩
  rw [hW] at us u0 u1 umono umem
  have run := tessellate_run hW w he us umono (by rw [u0, hc.first]) (by rw [u1, hc.last])
  have hle : ∀ a b, a ≤ b → b < s + 2 → nth W a ≤ nth W b := by
    intro a b hab hb
    rcases hab.lt_or_eq with h | rfl
    · exact (umono a b h hb).le
    · exact le_refl _
  have hnth : ∀ k, k < 100 * (s + 1) → nth ((List.range (100 * (s + 1))).map (sampleAt (nth W) 99)) k = sampleAt (nth W) 99 k := by
    intro k hk
    rw [nth_eq_getElem (by simpa using hk)]
    simp
  have hnth' : ∀ k, k < 100 * (s + 1) → nth ((List.range (100 * (s + 1))).map
      (fun k => (curvePoint (nth c.knots) p n (nth c.cps) (sampleAt (nth W) 99 k)).toXYZ)) k =
      (curvePoint (nth c.knots) p n (nth c.cps) (sampleAt (nth W) 99 k)).toXYZ := by
    intro k hk
    rw [nth_eq_getElem (by simpa using hk)]
    simp
  have hdom : ∀ k, k < 100 * (s + 1) → nth c.knots p ≤ sampleAt (nth W) 99 k ∧ sampleAt (nth W) 99 k ≤ nth c.knots (n + 1) := by
    intro k hk
    obtain ⟨i, j, hj, rfl⟩ : ∃ i j, j < 100 ∧ k = 100 * i + j := ⟨k / 100, k % 100, by omega, by omega⟩
    obtain ⟨g0, g1⟩ := sampleAt_mem (W := nth W) (den := 99) (le_refl _) (umono i (i + 1) (by omega) (by omega)) hj
    exact ⟨(by rw [← hc.first, ← u0]; exact (hle 0 i (by omega) (by omega)).trans g0),
      g1.trans ((hle (i + 1) (s + 1) (by omega) (by omega)).trans (by rw [u1, hc.last]))⟩
  have hstep : ∀ i, i < s + 1 → nth W (i + 1) - nth W i ≤ nth c.knots (n + 1) - nth c.knots p := by
    intro i hi
    have a1 := hle 0 i (by omega) (by omega)
    have a2 := hle (i + 1) (s + 1) (by omega) (by omega)
    rw [hc.last, ← hc.first, ← u0, ← u1]
    linarith
  refine ⟨_, _, run, by simp, by simp, ?_, ?_, ?_, ?_, ?_⟩
  · intro k hk
    rw [List.length_map, List.length_range] at hk
    obtain ⟨d0, d1⟩ := hdom k hk
    rw [hnth k hk, hnth' k hk]
    refine ⟨d0, d1, ?_⟩
    unfold NurbsCurve.pointOnCurve
    rw [C05_eval w he d0 d1, ok_bind]
  · rw [hnth 0 (by omega), ← hc.first, ← u0]
    simp [sampleAt]
  · rw [List.length_map, List.length_range, hnth _ (by omega), show 100 * (s + 1) - 1 = 100 * s + 99 by omega, sampleAt_eq _ _ (by omega), hc.last, ← u1]
    field_simp
    push_cast
    ring
  · intro k hk
    rw [List.length_map, List.length_range] at hk
    rw [hnth k (by omega), hnth (k + 1) hk]
    obtain ⟨i, j, hj, rfl⟩ : ∃ i j, j < 100 ∧ k = 100 * i + j := ⟨k / 100, k % 100, by omega, by omega⟩
    have hi := umono i (i + 1) (by omega) (by omega)
    by_cases hj' : j = 99
    · subst hj'
      rw [show 100 * i + 99 + 1 = 100 * (i + 1) + 0 by omega, sampleAt_eq _ _ (by omega), sampleAt_eq _ _ (by omega)]
      have e : nth W i + (nth W (i + 1) - nth W i) / 99 * ((99 : ℕ) : K) = nth W (i + 1) := by push_cast; field_simp; ring
      rw [e]
      simp only [Nat.cast_zero, mul_zero, add_zero, sub_self]
      refine ⟨le_refl _, ?_⟩
      have := hstep i (by omega)
      linarith
    · rw [show 100 * i + j + 1 = 100 * i + (j + 1) by omega, sampleAt_eq _ _ (by omega), sampleAt_eq _ _ (by omega)]
      have e : nth W i + (nth W (i + 1) - nth W i) / 99 * ((j + 1 : ℕ) : K) - (nth W i + (nth W (i + 1) - nth W i) / 99 * (j : K)) =
          (nth W (i + 1) - nth W i) / 99 := by push_cast; ring
      have hpos : 0 < (nth W (i + 1) - nth W i) / 99 := by
        have : 0 < nth W (i + 1) - nth W i := by linarith
        positivity
      constructor
      · linarith
      · rw [e]
        have := hstep i (by omega)
        linarith
  · intro x hx
    obtain ⟨i, hi, e⟩ := List.getElem_of_mem ((umem x).mpr hx)
    rw [← nth_eq_getElem hi] at e
    rw [List.mem_map]
    by_cases h : i < s + 1
    · refine ⟨100 * i + 0, by rw [List.mem_range]; omega, ?_⟩
      rw [sampleAt_eq _ _ (by omega), ← e]
      simp
    · refine ⟨100 * s + 99, by rw [List.mem_range]; omega, ?_⟩
      rw [sampleAt_eq _ _ (by omega), ← e, show i = s + 1 by omega]
      field_simp
      push_cast
      ring

/-- the hypotheses of `C90_tessellate` are met by a quadratic with an interior knot, and the parameter 1 (a knot) is sampled -/
example : ∃ pts params, equallyTessellate ({ degree := 2, knots := [0, 0, 0, 1, 3, 3, 3], cps := [⟨0, 0, 0, 1⟩, ⟨1, 1, 0, 1⟩, ⟨2, 0, 0, 2⟩, ⟨3, 0, 1, 1⟩] } : NurbsCurve ℚ) =
    ok (pts, params) ∧ (1 : ℚ) ∈ params := by
  obtain ⟨pts, params, h1, -, -, -, -, -, -, h⟩ := C90_tessellate
    (c := ({ degree := 2, knots := [0, 0, 0, 1, 3, 3, 3], cps := [⟨0, 0, 0, 1⟩, ⟨1, 1, 0, 1⟩, ⟨2, 0, 0, 2⟩, ⟨3, 0, 1, 1⟩] } : NurbsCurve ℚ))
    (wellFormed_of_check (p := 2) (n := 3) rfl (by decide) rfl rfl (by decide +kernel)) ⟨by decide +kernel, by decide +kernel⟩ ⟨by decide +kernel, by decide +kernel⟩
  exact ⟨pts, params, h1, h 1 (by decide +kernel)⟩

/-! ## C91 -/

theorem tessellateDirection_run {U W : List K} {s : ℕ} (hW : stdUnique U = W) (hlen : W.length = s + 2) :
    tessellateDirection U = ok ((List.range (100 * (s + 1))).map (sampleAt (nth W) 100)) := by
  unfold tessellateDirection
  dsimp only
  rw [hW]
  apply Runs.eq
  refine (Runs.forN (m := 0) (n := s + 1) (fun i st => st = (List.range (100 * i)).map (sampleAt (nth W) 100)) (by simp) (by omega) (by omega) (by simp)
    ?_).mono (fun st h => h)
  rintro i st - hi rfl
  rw [vget_nth (k := i) rfl (by omega), ok_bind, vget_nth (k := i + 1) (by push_cast; ring) (by omega), ok_bind]
  refine (Runs.forN (m := 0) (n := 100) (fun j st => st = (List.range (100 * i + j)).map (sampleAt (nth W) 100)) (by simp) (by simp) (by omega) (by simp)
    ?_).mono (fun st h => h)
  rintro j st - hj rfl
  refine Runs.ok ?_
  rw [show 100 * i + (j + 1) = (100 * i + j) + 1 by omega, List.range_succ, List.map_append, Int.cast_natCast, ← sampleAt_eq (nth W) 100 (i := i) hj]
  rfl

/-- the samples of one direction: within the domain, never at its end, and 1/100-dense -/
theorem samples_dir {W : ℕ → K} {s : ℕ} (hmono : ∀ i j, i < j → j < s + 2 → W i < W j) :
    (∀ k, k < 100 * (s + 1) → W 0 ≤ sampleAt W 100 k ∧ sampleAt W 100 k < W (s + 1)) ∧
    (∀ t, W 0 ≤ t → t ≤ W (s + 1) → ∃ k, k < 100 * (s + 1) ∧ sampleAt W 100 k ≤ t ∧ 100 * (t - sampleAt W 100 k) ≤ W (s + 1) - W 0) := by
  have hle : ∀ a b, a ≤ b → b < s + 2 → W a ≤ W b := by
    intro a b hab hb
    rcases hab.lt_or_eq with h | rfl
    · exact (hmono a b h hb).le
    · exact le_refl _
  constructor
  · intro k hk
    obtain ⟨i, j, hj, rfl⟩ : ∃ i j, j < 100 ∧ k = 100 * i + j := ⟨k / 100, k % 100, by omega, by omega⟩
    have hi := hmono i (i + 1) (by omega) (by omega)
    obtain ⟨g0, -⟩ := sampleAt_mem (W := W) (den := 100) (by norm_num) hi hj
    refine ⟨(hle 0 i (by omega) (by omega)).trans g0, lt_of_lt_of_le ?_ (hle (i + 1) (s + 1) (by omega) (by omega))⟩
    rw [sampleAt_eq _ _ hj]
    have hjK : (j : K) < 100 := by exact_mod_cast hj
    have hpos : 0 < (W (i + 1) - W i) / 100 := by
      have : 0 < W (i + 1) - W i := by linarith
      positivity
    have := mul_lt_mul_of_pos_left hjK hpos
    linarith
  · intro t t0 t1
    -- the span that contains `t`
    obtain ⟨i, hi, ti, ti'⟩ : ∃ i, i < s + 1 ∧ W i ≤ t ∧ t ≤ W (i + 1) := by
      have : ∀ r, r ≤ s → t ≤ W (r + 1) → ∃ i, i < s + 1 ∧ W i ≤ t ∧ t ≤ W (i + 1) := by
        intro r
        induction r with
        | zero => intro _ h; exact ⟨0, by omega, t0, h⟩
        | succ r ih =>
          intro hr h
          by_cases h' : t ≤ W (r + 1)
          · exact ih (by omega) h'
          · exact ⟨r + 1, by omega, (not_le.mp h').le, h⟩
      exact this s (le_refl _) t1
    have hpos : 0 < W (i + 1) - W i := by have := hmono i (i + 1) (by omega) (by omega); linarith
    have hlen : W (i + 1) - W i ≤ W (s + 1) - W 0 := by
      have a1 := hle 0 i (by omega) (by omega)
      have a2 := hle (i + 1) (s + 1) (by omega) (by omega)
      linarith
    -- the last sample of that span that is not after `t`
    obtain ⟨j, hj, tj, tj'⟩ : ∃ j : ℕ, j < 100 ∧ W i + (W (i + 1) - W i) / 100 * (j : K) ≤ t ∧ t ≤ W i + (W (i + 1) - W i) / 100 * ((j + 1 : ℕ) : K) := by
      have : ∀ r, r ≤ 99 → t ≤ W i + (W (i + 1) - W i) / 100 * ((r + 1 : ℕ) : K) →
          ∃ j : ℕ, j < 100 ∧ W i + (W (i + 1) - W i) / 100 * (j : K) ≤ t ∧ t ≤ W i + (W (i + 1) - W i) / 100 * ((j + 1 : ℕ) : K) := by
        intro r
        induction r with
        | zero => intro _ h; exact ⟨0, by omega, by simpa using ti, h⟩
        | succ r ih =>
          intro hr h
          by_cases h' : t ≤ W i + (W (i + 1) - W i) / 100 * ((r + 1 : ℕ) : K)
          · exact ih (by omega) h'
          · exact ⟨r + 1, by omega, (not_le.mp h').le, h⟩
      refine this 99 (le_refl _) ?_
      have : W i + (W (i + 1) - W i) / 100 * ((99 + 1 : ℕ) : K) = W (i + 1) := by push_cast; field_simp; ring
      rw [this]; exact ti'
    refine ⟨100 * i + j, by omega, by rw [sampleAt_eq _ _ hj]; exact tj, ?_⟩
    rw [sampleAt_eq _ _ hj]
    push_cast at tj'
    linarith

theorem take_nth {α : Type} [Zero α] {l : List α} {i : ℕ} (h : i < l.length) : l.take (i + 1) = l.take i ++ [nth l i] := by
  rw [List.take_add_one, List.getElem?_eq_getElem h, nth_eq_getElem h]
  rfl

/-- what `EquallyTessellate` of a surface computes -/
theorem tessellateSurface_run {c : NurbsSurface K} {p q n m : ℕ} {A B : List K} (hA : tessellateDirection c.knotsU = ok A)
    (hB : tessellateDirection c.knotsV = ok B) (w : WellFormedS c p q n m) (he : EndsSeparatedS c p q n m)
    (hcU : ClampedEnds (nth c.knotsU) p n) (hcV : ClampedEnds (nth c.knotsV) q m)
    (dA : ∀ x ∈ A, nth c.knotsU p ≤ x ∧ x ≤ nth c.knotsU (n + 1)) (dB : ∀ x ∈ B, nth c.knotsV q ≤ x ∧ x ≤ nth c.knotsV (m + 1)) :
    ∃ pts params, equallyTessellateSurface c = ok (pts, params) ∧
      params = (A.flatMap fun u => B.map fun v => (u, v)) ++ [(nth c.knotsU (n + 1), nth c.knotsV (m + 1))] ∧
      pts = params.map fun x => (surfacePoint (nth c.knotsU) (nth c.knotsV) p q n m (ent c.cps) x.1 x.2).toXYZ := by
  have lU := w.knotsU
  have lV := w.knotsV
  have hmat := w.cps
  obtain ⟨F, hF⟩ : ∃ F : K → K → XYZ K, F = fun u v => (surfacePoint (nth c.knotsU) (nth c.knotsV) p q n m (ent c.cps) u v).toXYZ := ⟨_, rfl⟩
  have hFe : ∀ u v, (surfacePoint (nth c.knotsU) (nth c.knotsV) p q n m (ent c.cps) u v).toXYZ = F u v := fun u v => by rw [hF]
  have hloop : forI 0 A.length (([], []) : List (XYZ K) × List (K × K)) (fun i st =>
      forI 0 B.length st fun j (st : List (XYZ K) × List (K × K)) => do
        let u ← vget A i
        let v ← vget B j
        let x ← NurbsSurface.pointOnSurface c u v
        ok (st.1 ++ [x], st.2 ++ [(u, v)])) =
      ok (((A.flatMap fun u => B.map fun v => (u, v))).map (fun x => F x.1 x.2), A.flatMap fun u => B.map fun v => (u, v)) := by
    apply Runs.eq
    refine (Runs.forN (m := 0) (n := A.length)
      (fun i st => st = ((((A.take i).flatMap fun u => B.map fun v => (u, v))).map (fun x => F x.1 x.2), (A.take i).flatMap fun u => B.map fun v => (u, v)))
      (by simp) rfl (by omega) (by simp) ?_).mono (fun st h => by rw [h, List.take_length])
    rintro i st - hi rfl
    have hAi : nth A i ∈ A := by rw [nth_eq_getElem hi]; exact List.getElem_mem _
    refine (Runs.forN (m := 0) (n := B.length)
      (fun j st => st = ((((A.take i).flatMap fun u => B.map fun v => (u, v)) ++ (B.take j).map fun v => (nth A i, v)).map (fun x => F x.1 x.2),
        ((A.take i).flatMap fun u => B.map fun v => (u, v)) ++ (B.take j).map fun v => (nth A i, v)))
      (by simp) rfl (by omega) (by simp) ?_).mono ?_
    · rintro j st - hj rfl
      have hBj : nth B j ∈ B := by rw [nth_eq_getElem hj]; exact List.getElem_mem _
      have ev : NurbsSurface.pointOnSurface c (nth A i) (nth B j) = ok (F (nth A i) (nth B j)) := by
        unfold NurbsSurface.pointOnSurface
        rw [C33_eval w he ⟨(dA _ hAi).1, (dA _ hAi).2, (dB _ hBj).1, (dB _ hBj).2⟩, ok_bind, hFe]
      rw [vget_nth (k := i) rfl hi, ok_bind, vget_nth (k := j) rfl hj, ok_bind, ev, ok_bind]
      refine Runs.ok ?_
      rw [take_nth hj]
      simp only [List.map_append, List.append_assoc, List.map_cons, List.map_nil]
    · rintro st rfl
      rw [List.take_length, take_nth hi]
      simp only [List.flatMap_append, List.flatMap_cons, List.flatMap_nil, List.append_nil]
  have hspan : ∀ {U : ℕ → K} {p n : ℕ}, EndsSeparated U p n → p ≤ n → IsSpan U p n (U (n + 1)) n := by
    intro U p n e hpn
    have : (0 : K) ≤ 1 / 1000000 * (1 + max |U n| |U (n + 1)|) := by
      have : 0 ≤ max |U n| |U (n + 1)| := le_max_of_le_left (abs_nonneg _)
      positivity
    have h1 := e.last
    exact ⟨hpn, le_refl _, by linarith, by linarith, Or.inr ⟨rfl, rfl⟩⟩
  have mU := wfS_monoU w
  have mV := wfS_monoV w
  have sU := hspan he.u w.pn
  have sV := hspan he.v w.qm
  have corner : surfacePoint (nth c.knotsU) (nth c.knotsV) p q n m (ent c.cps) (nth c.knotsU (n + 1)) (nth c.knotsV (m + 1)) = ent c.cps n m := by
    rw [surfacePoint_eq, curvePoint_end mU sU sU.2.2.1, curvePoint_end mV sV sV.2.2.1]
    · intro j h1 h2
      exact le_antisymm ((mV j (m + q + 1) (by omega) (by omega)).trans hcV.last.ge) (mV (m + 1) j h1 (by omega))
    · intro j h1 h2
      exact le_antisymm ((mU j (n + p + 1) (by omega) (by omega)).trans hcU.last.ge) (mU (n + 1) j h1 (by omega))
  refine ⟨_, _, ?_, rfl, rfl⟩
  have h0 : vget c.cps 0 = ok (row c.cps 0) := vget_row (k := 0) rfl (by rw [hmat.1]; omega)
  unfold equallyTessellateSurface
  rw [hA, ok_bind, hB, ok_bind, hloop, ok_bind, vget_nth (k := n + p + 1) (by omega) (by omega), ok_bind, vget_nth (k := m + q + 1) (by omega) (by omega), ok_bind,
    h0, ok_bind, mget_ent hmat (a := n) (b := m) (by rw [hmat.1]; omega) (by rw [hmat.2 0 (by omega)]; omega) (by omega) (by omega),
    ok_bind, List.map_append, List.map_cons, List.map_nil, corner, ← hcU.last, ← hcV.last, hF]

/-- the parameters that `EquallyTessellate` uses in one direction -/
theorem tessellateDirection_clamped {U : List K} {p n : ℕ} (hl : U.length = n + p + 2) (hpn : p ≤ n)
    (hs : ∀ i j, i ≤ j → j < U.length → nth U i ≤ nth U j) (he : EndsSeparated (nth U) p n) (hc : ClampedEnds (nth U) p n) :
    ∃ A, tessellateDirection U = ok A ∧ (∀ x ∈ A, nth U p ≤ x ∧ x < nth U (n + 1)) ∧
      ∀ t, nth U p ≤ t → t ≤ nth U (n + 1) → ∃ x ∈ A, x ≤ t ∧ 100 * (t - x) ≤ nth U (n + 1) - nth U p := by
  have hlt : nth U 0 < nth U (n + p + 1) := by
    have h1 := he.first
    have h2 := hs (p + 1) (n + p + 1) (by omega) (by omega)
    have : (0 : K) ≤ 1 / 1000000 * (1 + max |nth U p| |nth U (p + 1)|) := by
      have : 0 ≤ max |nth U p| |nth U (p + 1)| := le_max_of_le_left (abs_nonneg _)
      positivity
    have h3 := hs 0 p (by omega) (by omega)
    linarith
  obtain ⟨s, us, u0, u1, umono, -⟩ := unique_knots (m := n + p + 1) (by omega) hs hlt
  obtain ⟨W, hW⟩ : ∃ W, stdUnique U = W := ⟨_, rfl⟩
  rw [hW] at us u0 u1 umono
  obtain ⟨d1, d2⟩ := samples_dir umono
  have e0 : nth U p = nth W 0 := by rw [u0, hc.first]
  have e1 : nth U (n + 1) = nth W (s + 1) := by rw [u1, hc.last]
  refine ⟨_, tessellateDirection_run hW us, ?_, ?_⟩
  · intro x hx
    obtain ⟨k, hk, rfl⟩ := List.mem_map.mp hx
    rw [e0, e1]
    exact d1 k (List.mem_range.mp hk)
  · intro t t0 t1
    rw [e0, e1] at *
    obtain ⟨k, hk, h1, h2⟩ := d2 t t0 t1
    exact ⟨_, List.mem_map.mpr ⟨k, List.mem_range.mpr hk, rfl⟩, h1, h2⟩

/-- C91: `EquallyTessellate` of a valid clamped surface returns as many points as parameter pairs; every pair is in the domain and its point is the
point of the surface there; every point of the domain is within 1/100 of the domain, in both directions, of a sampled pair; and the far corner of the
surface is sampled.  Missing from the full statement: the edges of the surface at the far ends of the two directions are not sampled
(`C91_edges_violated`). -/
theorem C91_tessellate_partial {c : NurbsSurface K} {p q n m : ℕ} (w : WellFormedS c p q n m) (he : EndsSeparatedS c p q n m)
    (hcU : ClampedEnds (nth c.knotsU) p n) (hcV : ClampedEnds (nth c.knotsV) q m) :
    ∃ pts params, equallyTessellateSurface c = ok (pts, params) ∧ pts.length = params.length ∧
      (∀ k, k < params.length → InDomain c p q n m (nth params k).1 (nth params k).2 ∧
        NurbsSurface.pointOnSurface c (nth params k).1 (nth params k).2 = ok (nth pts k)) ∧
      (∀ u v, InDomain c p q n m u v → ∃ x ∈ params, x.1 ≤ u ∧ 100 * (u - x.1) ≤ nth c.knotsU (n + 1) - nth c.knotsU p ∧
        x.2 ≤ v ∧ 100 * (v - x.2) ≤ nth c.knotsV (m + 1) - nth c.knotsV q) ∧
      (nth c.knotsU (n + 1), nth c.knotsV (m + 1)) ∈ params := by
  obtain ⟨A, rA, dA, cA⟩ := tessellateDirection_clamped w.knotsU w.pn w.sortedU he.u hcU
  obtain ⟨B, rB, dB, cB⟩ := tessellateDirection_clamped w.knotsV w.qm w.sortedV he.v hcV
  obtain ⟨pts, params, run, hpar, hpts⟩ := tessellateSurface_run rA rB w he hcU hcV (fun x hx => ⟨(dA x hx).1, (dA x hx).2.le⟩)
    (fun x hx => ⟨(dB x hx).1, (dB x hx).2.le⟩)
  have hdom : ∀ x ∈ params, InDomain c p q n m x.1 x.2 := by
    intro x hx
    rw [hpar, List.mem_append, List.mem_flatMap, List.mem_singleton] at hx
    rcases hx with ⟨u, hu, hx⟩ | rfl
    · obtain ⟨v, hv, rfl⟩ := List.mem_map.mp hx
      exact ⟨(dA u hu).1, (dA u hu).2.le, (dB v hv).1, (dB v hv).2.le⟩
    · exact ⟨w.sortedU _ _ (by have := w.pn; omega) (by rw [w.knotsU]; omega), le_refl _,
        w.sortedV _ _ (by have := w.qm; omega) (by rw [w.knotsV]; omega), le_refl _⟩
  refine ⟨pts, params, run, by rw [hpts, List.length_map], ?_, ?_, by rw [hpar]; simp⟩
  · intro k hk
    have hx : nth params k ∈ params := by rw [nth_eq_getElem hk]; exact List.getElem_mem _
    refine ⟨hdom _ hx, ?_⟩
    unfold NurbsSurface.pointOnSurface
    rw [C33_eval w he (hdom _ hx), ok_bind, hpts, nth_eq_getElem (show k < (params.map _).length by rw [List.length_map]; exact hk), List.getElem_map,
      nth_eq_getElem hk]
  · intro u v d
    obtain ⟨x, hx, x0, x1⟩ := cA u d.u0 d.u1
    obtain ⟨y, hy, y0, y1⟩ := cB v d.v0 d.v1
    refine ⟨(x, y), ?_, x0, x1, y0, y1⟩
    rw [hpar, List.mem_append, List.mem_flatMap]
    exact Or.inl ⟨x, hx, List.mem_map.mpr ⟨y, hy, rfl⟩⟩

/-- C91 is violated by every valid clamped surface: of its two edges at the far ends of the u and the v direction only the common corner is sampled
(while the edges at the near ends are sampled as densely as the interior). -/
theorem C91_edges_violated {c : NurbsSurface K} {p q n m : ℕ} (w : WellFormedS c p q n m) (he : EndsSeparatedS c p q n m)
    (hcU : ClampedEnds (nth c.knotsU) p n) (hcV : ClampedEnds (nth c.knotsV) q m) :
    ∃ pts params, equallyTessellateSurface c = ok (pts, params) ∧
      (∀ x ∈ params, x.1 = nth c.knotsU (n + 1) ∨ x.2 = nth c.knotsV (m + 1) → x = (nth c.knotsU (n + 1), nth c.knotsV (m + 1))) := by
  obtain ⟨A, rA, dA, -⟩ := tessellateDirection_clamped w.knotsU w.pn w.sortedU he.u hcU
  obtain ⟨B, rB, dB, -⟩ := tessellateDirection_clamped w.knotsV w.qm w.sortedV he.v hcV
  obtain ⟨pts, params, run, hpar, -⟩ := tessellateSurface_run rA rB w he hcU hcV (fun x hx => ⟨(dA x hx).1, (dA x hx).2.le⟩)
    (fun x hx => ⟨(dB x hx).1, (dB x hx).2.le⟩)
  refine ⟨pts, params, run, ?_⟩
  intro x hx h
  rw [hpar, List.mem_append, List.mem_flatMap, List.mem_singleton] at hx
  rcases hx with ⟨u, hu, hx⟩ | rfl
  · obtain ⟨v, hv, rfl⟩ := List.mem_map.mp hx
    rcases h with h | h
    · exact absurd h (dA u hu).2.ne
    · exact absurd h (dB v hv).2.ne
  · rfl

end

/-- a biquadratic-by-linear rational patch -/
def exPatch : NurbsSurface ℚ :=
  { degreeU := 1, degreeV := 2, knotsU := [0, 0, 1, 1], knotsV := [0, 0, 0, 1, 1, 1],
    cps := [[⟨0, 0, 0, 1⟩, ⟨1, 0, 1, 1⟩, ⟨2, 0, 0, 1⟩], [⟨0, 1, 0, 1⟩, ⟨2, 2, 2, 2⟩, ⟨2, 1, 0, 1⟩]] }

theorem exPatch_wf : WellFormedS exPatch 1 2 1 2 :=
  { degreeU := rfl, degreeV := rfl, posU := by decide, posV := by decide, le7U := by decide, le7V := by decide, cps := by unfold IsMat; decide,
    pn := by decide, qm := by decide, knotsU := rfl, knotsV := rfl,
    sortedU := isValidKnotVector_nth.mp (by decide +kernel), sortedV := isValidKnotVector_nth.mp (by decide +kernel) }

/-- the hypotheses of the C91 theorems are met by `exPatch` -/
example : ∃ pts params, equallyTessellateSurface exPatch = ok (pts, params) ∧ ((1 : ℚ), (1 : ℚ)) ∈ params := by
  obtain ⟨pts, params, h1, -, -, -, h⟩ := C91_tessellate_partial exPatch_wf ⟨⟨by decide +kernel, by decide +kernel⟩, ⟨by decide +kernel, by decide +kernel⟩⟩
    ⟨by decide +kernel, by decide +kernel⟩ ⟨by decide +kernel, by decide +kernel⟩
  exact ⟨pts, params, h1, h⟩

end LNLib.Props
