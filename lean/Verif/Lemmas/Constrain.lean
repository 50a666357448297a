import Verif.Model.Constrain
import Verif.Props.BasisDers
import Verif.Props.Matrix
import Verif.Lemmas.CurveParam

/-! # The loops of the constraint-based modification -/

namespace LNLib
open LNLib Res Spec Finset

variable {K : Type} [Field K] [LinearOrder K] [IsStrictOrderedRing K]

theorem constraintRows_run {c : NurbsCurve K} {p n m : ℕ} {ur : List K} {Dr Dk : List ℤ} {r k s : ℕ → ℕ} (w : WellFormed c p n) (he : EndsSeparated (nth c.knots) p n)
    (hDr : Dr.length = m) (hDk : Dk.length = m) (hr : ∀ i, i < m → nth Dr i = r i ∧ r i < ur.length) (hk : ∀ i, i < m → nth Dk i = k i ∧ k i ≤ p)
    (hs : ∀ i, i < m → IsSpan (nth c.knots) p n (nth ur (r i)) (s i)) :
    Runs (constraintRows c ur Dr Dk m) (fun B => IsMat B m (n + 1) ∧ ∀ i, i < m → ∀ j, j ≤ n → ent B i j = dN (nth c.knots) (s i) p j (k i) (nth ur (r i))) := by
  unfold constraintRows
  refine (Runs.forN (m := 0) (n := m) (fun i B => IsMat B m (n + 1) ∧ (∀ a, a < i → ∀ j, j ≤ n → ent B a j = dN (nth c.knots) (s a) p j (k a) (nth ur (r a))) ∧
      ∀ a, i ≤ a → ∀ j, ent B a j = 0) rfl rfl (by omega) ?_ ?_).mono (fun B h => ⟨h.1, h.2.1⟩)
  · refine ⟨?_, fun a ha => absurd ha (by omega), fun a _ j => ent_replicate_zero⟩
    rw [w.cps]; exact isMat_replicate
  · rintro i B - hi ⟨hB, hlo, hhi⟩
    obtain ⟨r1, r2⟩ := hr i hi
    obtain ⟨k1, k2⟩ := hk i hi
    have hsi := hs i hi
    have hm := wf_monoTo w
    have s1 := hsi.1
    have s2 := hsi.2.1
    have s4 := hsi.2.2.2.1
    have s5 := hsi.2.2.2.2
    rw [vget_nth (k := i) rfl (by omega), ok_bind, r1, vget_nth (k := r i) rfl r2, ok_bind]
    obtain ⟨s', e, hs'⟩ := getKnotSpanIndex_isSpan w.knots w.pn w.sorted he (t := nth ur (r i)) (le_trans (hm _ _ s1 (by omega)) s4) (by
      rcases s5 with h | ⟨h, h2⟩
      · exact le_trans h.le (hm _ _ (by omega) (by omega))
      · rw [h, h2])
    obtain rfl := isSpan_unique hm (by have := w.pos; omega) hsi hs'
    rw [w.degree, e, ok_bind, vget_nth (k := i) rfl (by omega), ok_bind, k1]
    obtain ⟨M, e2, hM, hent, -⟩ := Props.C19_derivatives (t := nth ur (r i)) (d := k i) w.le7 k2 w.knots w.sorted hsi
    rw [e2, ok_bind]
    refine (Runs.forN (m := 0) (n := p + 1) (fun j B' => IsMat B' m (n + 1) ∧ (∀ a, a ≠ i → ∀ b, ent B' a b = ent B a b) ∧
      ∀ b, ent B' i b = if s i - p ≤ b ∧ b < s i - p + j then dN (nth c.knots) (s i) p b (k i) (nth ur (r i)) else 0) rfl (by push_cast; ring) (by omega) ?_ ?_).mono ?_
    · refine ⟨hB, fun _ _ _ => rfl, fun b => ?_⟩
      rw [if_neg (by omega), hhi i le_rfl]
    · rintro j B' - hj ⟨h1, h2, h3⟩
      rw [mget_ent hM rfl rfl (by omega) hj, ok_bind]
      obtain ⟨B'', e3, g1, g2⟩ := mset_ok h1 (i := (i : ℤ)) (j := (s i : ℤ) - p + j) (a := i) (b := s i - p + j) (x := ent M (k i) j) rfl (by omega) hi (by omega)
      rw [e3]
      refine Runs.ok ⟨g1, fun a ha b => ?_, fun b => ?_⟩
      · rw [g2, if_neg (by tauto), h2 a ha]
      · rw [g2]
        by_cases hb : b = s i - p + j
        · rw [if_pos ⟨rfl, hb⟩, if_pos (by omega), hent _ le_rfl j (by omega), hb]
        · rw [if_neg (by tauto), h3]
          by_cases hb2 : s i - p ≤ b ∧ b < s i - p + j
          · rw [if_pos hb2, if_pos (by omega)]
          · rw [if_neg hb2, if_neg (by omega)]
    · rintro B' ⟨h1, h2, h3⟩
      refine ⟨h1, fun a ha j hj => ?_, fun a ha j => ?_⟩
      · by_cases hai : a = i
        · subst hai
          rw [h3]
          by_cases hb : s a - p ≤ j ∧ j < s a - p + (p + 1)
          · rw [if_pos hb]
          · rw [if_neg hb, dN_out _ _ _ _ _ _ (by omega)]
        · rw [h2 a hai, hlo a (by omega) j hj]
      · rw [h2 a (by omega), hhi a (by omega)]

theorem scanRows_run {j q : ℕ} (hj : j < q) : ∀ (B : List (List K)) (m : ℕ), IsMat B m q →
    ∃ b, scanRows (j : ℤ) B = ok b ∧ (b = true ↔ ∃ i, i < m ∧ isGreaterThan (ent B i j * ent B i j) 0 = true) := by
  intro B
  induction B with
  | nil =>
    intro m hm
    have : m = 0 := hm.1.symm
    subst this
    exact ⟨false, rfl, by simp⟩
  | cons x xs ih =>
    intro m hm
    obtain ⟨m', rfl⟩ : ∃ m', m = m' + 1 := ⟨xs.length, hm.1.symm⟩
    have hx : x.length = q := hm.2 0 (by omega)
    have hxs : IsMat xs m' q := ⟨by have := hm.1; simpa using this, fun i hi => hm.2 (i + 1) (by omega)⟩
    obtain ⟨b, e, hb⟩ := ih m' hxs
    unfold scanRows
    rw [vget_nth (k := j) rfl (by omega), ok_bind]
    by_cases hg : isGreaterThan (nth x j * nth x j) 0 = true
    · rw [if_pos hg]
      exact ⟨true, rfl, by simp only [true_iff]; exact ⟨0, by omega, hg⟩⟩
    · rw [if_neg hg, e]
      refine ⟨b, rfl, hb.trans ?_⟩
      constructor
      · rintro ⟨i, hi, h⟩; exact ⟨i + 1, by omega, h⟩
      · rintro ⟨i, hi, h⟩
        cases i with
        | zero => exact absurd h hg
        | succ i => exact ⟨i, by omega, h⟩

theorem removeFlags_run {B : List (List K)} {m size : ℕ} {fixed : List ℤ} {f : ℕ → ℕ} (hB : IsMat B m size)
    (hf : ∀ i, i < fixed.length → nth fixed i = f i ∧ f i < size) :
    Runs (removeFlags size B fixed) (fun rm => rm.length = size ∧ ∀ j, j < size →
      (nth rm j = 0 ↔ (∀ i, i < fixed.length → f i ≠ j) ∧ ∃ i, i < m ∧ isGreaterThan (ent B i j * ent B i j) 0 = true)) := by
  unfold removeFlags
  refine Runs.bind (Q := fun rm => rm.length = size ∧ ∀ j, j < size → (nth rm j = 0 ↔ ∃ i, i < m ∧ isGreaterThan (ent B i j * ent B i j) 0 = true)) ?_ ?_
  · refine (Runs.forN (m := 0) (n := size) (fun j rm => rm.length = size ∧ ∀ a, a < size →
      (nth rm a = 0 ↔ a < j ∧ ∃ i, i < m ∧ isGreaterThan (ent B i a * ent B i a) 0 = true)) rfl rfl (by omega) ?_ ?_).mono ?_
    · refine ⟨by simp, fun a ha => ?_⟩
      rw [show nth (List.replicate size (1 : ℤ)) a = 1 by simp [nth, ha]]
      constructor
      · intro h; exact absurd h (by norm_num)
      · rintro ⟨h, -⟩; omega
    · rintro j rm - hj ⟨h1, h2⟩
      obtain ⟨b, e, hb⟩ := scanRows_run hj B m hB
      rw [e, ok_bind]
      cases b
      · rw [if_neg (by simp)]
        refine Runs.ok ⟨h1, fun a ha => ?_⟩
        rw [h2 a ha]
        constructor
        · rintro ⟨u, v⟩; exact ⟨by omega, v⟩
        · rintro ⟨u, v⟩
          refine ⟨?_, v⟩
          by_contra hc
          have : a = j := by omega
          subst this
          exact absurd (hb.mpr v) (by simp)
      · rw [if_pos rfl, vset_of (k := j) rfl (by omega)]
        refine Runs.ok ⟨by simp [h1], fun a ha => ?_⟩
        rw [nth_set (by omega)]
        by_cases haj : a = j
        · subst haj
          rw [if_pos rfl]
          exact ⟨fun _ => ⟨by omega, hb.mp rfl⟩, fun _ => rfl⟩
        · rw [if_neg haj, h2 a ha]
          constructor
          · rintro ⟨u, v⟩; exact ⟨by omega, v⟩
          · rintro ⟨u, v⟩; exact ⟨by omega, v⟩
    · rintro rm ⟨h1, h2⟩
      refine ⟨h1, fun j hj => ?_⟩
      rw [h2 j hj]
      exact ⟨fun h => h.2, fun h => ⟨hj, h⟩⟩
  · rintro rm0 ⟨g1, g2⟩
    refine (Runs.forN (m := 0) (n := fixed.length) (fun t rm => rm.length = size ∧ ∀ j, j < size →
      (nth rm j = 0 ↔ (∀ i, i < t → f i ≠ j) ∧ ∃ i, i < m ∧ isGreaterThan (ent B i j * ent B i j) 0 = true)) rfl rfl (by omega) ?_ ?_).mono (fun _ h => h)
    · refine ⟨g1, fun j hj => ?_⟩
      rw [g2 j hj]
      exact ⟨fun h => ⟨fun i hi => absurd hi (by omega), h⟩, fun h => h.2⟩
    · rintro t rm - ht ⟨h1, h2⟩
      obtain ⟨f1, f2⟩ := hf t ht
      rw [vget_nth (k := t) rfl ht, ok_bind, f1, vset_of (k := f t) rfl (by omega)]
      refine Runs.ok ⟨by simp [h1], fun j hj => ?_⟩
      rw [nth_set (by omega)]
      by_cases hjf : j = f t
      · rw [if_pos hjf]
        constructor
        · intro h; exact absurd h (by norm_num)
        · rintro ⟨h, -⟩; exact absurd hjf.symm (h t (by omega))
      · rw [if_neg hjf, h2 j hj]
        constructor
        · rintro ⟨u, v⟩
          refine ⟨fun i hi => ?_, v⟩
          by_cases hit : i = t
          · subst hit; exact fun h => hjf h.symm
          · exact u i (by omega)
        · rintro ⟨u, v⟩; exact ⟨fun i hi => u i (by omega), v⟩

theorem keptIndices_run {size : ℕ} {rm : List ℤ} (h : rm.length = size) :
    keptIndices size rm = ok (((List.range size).filter fun j => nth rm j = 0).map fun j : ℕ => (j : ℤ)) := by
  unfold keptIndices
  apply Runs.eq
  refine Runs.forN (m := 0) (n := size) (fun i acc => acc = ((List.range i).filter fun j => nth rm j = 0).map fun j : ℕ => (j : ℤ)) rfl rfl (by omega) rfl ?_
  rintro i acc - hi rfl
  rw [vget_nth (k := i) rfl (by omega), ok_bind]
  by_cases h0 : nth rm i = 0
  · rw [if_pos h0]
    exact Runs.ok (by rw [List.range_succ, List.filter_append, List.map_append]; simp [h0])
  · rw [if_neg h0]
    exact Runs.ok (by rw [List.range_succ, List.filter_append, List.map_append]; simp [h0])

theorem keptColumns_run {m size : ℕ} {B : List (List K)} {l : List ℕ} (hB : IsMat B m size) (hl : ∀ j ∈ l, j < size) :
    keptColumns m B (l.map fun j : ℕ => (j : ℤ)) = ok (tab m l.length fun i a => ent B i (nth l a)) := by
  have hlen : (l.map fun j : ℕ => (j : ℤ)).length = l.length := by simp
  have hnl : ∀ a, a < l.length → nth (l.map fun j : ℕ => (j : ℤ)) a = (nth l a : ℕ) ∧ nth l a < size := by
    intro a ha
    have hn : nth l a = l[a] := by simp [nth, ha]
    exact ⟨by simp [nth, ha], by rw [hn]; exact hl _ (List.getElem_mem ha)⟩
  unfold keptColumns
  rw [hlen]
  obtain ⟨R, e, h1, h2⟩ := Runs.forN (a := 0) (b := (l.length : ℤ)) (m := 0) (n := l.length) (s := List.replicate m (List.replicate l.length (0 : K)))
    (body := fun j Bopt => forI 0 (B.length : ℤ) Bopt fun i Bopt => do
      let m ← vget (l.map fun j : ℕ => (j : ℤ)) j
      let x ← mget B i m
      mset Bopt i j x)
    (fun j R => IsMat R m l.length ∧ ∀ i, i < m → ∀ a, a < j → ent R i a = ent B i (nth l a)) rfl rfl (by omega)
    ⟨isMat_replicate, fun i _ a ha => absurd ha (by omega)⟩ (by
      rintro j R - hj ⟨h1, h2⟩
      refine (Runs.forN (m := 0) (n := m) (fun t R' => IsMat R' m l.length ∧ (∀ i, i < m → ∀ a, a < j → ent R' i a = ent B i (nth l a)) ∧
        ∀ i, i < t → ent R' i j = ent B i (nth l j)) rfl (by rw [hB.1]) (by omega) ⟨h1, h2, fun i hi => absurd hi (by omega)⟩ ?_).mono ?_
      · rintro t R' - ht ⟨g1, g2, g3⟩
        obtain ⟨n1, n2⟩ := hnl j hj
        rw [vget_nth (k := j) rfl (by simpa using hj), ok_bind, n1, mget_ent hB rfl rfl ht n2, ok_bind]
        obtain ⟨R'', e3, k1, k2⟩ := mset_ok g1 (i := (t : ℤ)) (j := (j : ℤ)) (a := t) (b := j) (x := ent B t (nth l j)) rfl rfl ht hj
        rw [e3]
        refine Runs.ok ⟨k1, fun i hi a ha => ?_, fun i hi => ?_⟩
        · rw [k2, if_neg (by omega), g2 i hi a ha]
        · rw [k2]
          by_cases hit : i = t
          · subst hit; rw [if_pos ⟨rfl, rfl⟩]
          · rw [if_neg (by tauto), g3 i (by omega)]
      · rintro R' ⟨g1, g2, g3⟩
        refine ⟨g1, fun i hi a ha => ?_⟩
        by_cases haj : a = j
        · subst haj; exact g3 i hi
        · exact g2 i hi a (by omega))
  rw [e]
  congr 1
  exact eq_tab h1 fun i hi j hj => h2 i hi j hj

theorem moveKept_run {size q : ℕ} {cps : List (XYZW K)} {l : List ℕ} {dP : List (List K)} (hc : cps.length = size) (hl : ∀ j ∈ l, j < size) (hnd : l.Nodup)
    (hq : l.length = q) (hd : IsMat dP q 3) :
    Runs (moveKept cps (l.map fun j : ℕ => (j : ℤ)) dP) (fun R => R.length = size ∧ (∀ j, j ∉ l → nth R j = nth cps j) ∧
      ∀ a, a < q → nth R (nth l a) = ⟨(nth cps (nth l a)).wx + (nth cps (nth l a)).w * ent dP a 0, (nth cps (nth l a)).wy + (nth cps (nth l a)).w * ent dP a 1,
        (nth cps (nth l a)).wz + (nth cps (nth l a)).w * ent dP a 2, (nth cps (nth l a)).w⟩) := by
  have hlen : (l.map fun j : ℕ => (j : ℤ)).length = l.length := by simp
  have hnl : ∀ a, a < l.length → nth (l.map fun j : ℕ => (j : ℤ)) a = (nth l a : ℕ) ∧ nth l a < size ∧ nth l a ∈ l := by
    intro a ha
    have hn : nth l a = l[a] := by simp [nth, ha]
    exact ⟨by simp [nth, ha], by rw [hn]; exact hl _ (List.getElem_mem ha), by rw [hn]; exact List.getElem_mem ha⟩
  have hinj : ∀ a b, a < l.length → b < l.length → nth l a = nth l b → a = b := by
    intro a b ha hb h
    have h1 : nth l a = l[a] := by simp [nth, ha]
    have h2 : nth l b = l[b] := by simp [nth, hb]
    rw [h1, h2] at h
    exact (List.Nodup.getElem_inj_iff hnd).mp h
  unfold moveKept
  rw [hlen, hq]
  refine (Runs.forN (m := 0) (n := q) (fun t R => R.length = size ∧ (∀ j, (∀ a, a < t → nth l a ≠ j) → nth R j = nth cps j) ∧
      ∀ a, a < t → nth R (nth l a) = ⟨(nth cps (nth l a)).wx + (nth cps (nth l a)).w * ent dP a 0, (nth cps (nth l a)).wy + (nth cps (nth l a)).w * ent dP a 1,
        (nth cps (nth l a)).wz + (nth cps (nth l a)).w * ent dP a 2, (nth cps (nth l a)).w⟩) rfl rfl (by omega) ⟨hc, fun _ _ => rfl, fun a ha => absurd ha (by omega)⟩ ?_).mono ?_
  · rintro t R - ht ⟨h1, h2, h3⟩
    obtain ⟨n1, n2, n3⟩ := hnl t (by omega)
    have hold := h2 (nth l t) (fun a ha h => by have := hinj a t (by omega) (by omega) h; omega)
    rw [vget_nth (k := t) rfl (by rw [hlen]; omega), ok_bind, n1, vget_nth (k := nth l t) rfl (by omega), ok_bind, mget_ent hd (i := (t : ℤ)) (j := 0) (a := t) (b := 0) rfl rfl ht (by omega), ok_bind,
      mget_ent hd (i := (t : ℤ)) (j := 1) (a := t) (b := 1) rfl rfl ht (by omega), ok_bind, mget_ent hd (i := (t : ℤ)) (j := 2) (a := t) (b := 2) rfl rfl ht (by omega), ok_bind, vset_of (k := nth l t) rfl (by omega), hold]
    refine Runs.ok ⟨by simp [h1], fun j hj => ?_, fun a ha => ?_⟩
    · rw [nth_set (by omega), if_neg (fun h => hj t (by omega) h.symm), h2 j (fun a ha => hj a (by omega))]
    · rw [nth_set (by omega)]
      by_cases hat : a = t
      · subst hat; rw [if_pos rfl]
      · rw [if_neg (fun h => hat (hinj a t (by omega) (by omega) h)), h3 a (by omega)]
  · rintro R ⟨h1, h2, h3⟩
    refine ⟨h1, fun j hj => h2 j fun a ha h => hj (h ▸ (hnl a (by omega)).2.2), h3⟩

/-- sums over the entries of a list of distinct indices -/
theorem sum_nth_list {M : Type} [AddCommMonoid M] {l : List ℕ} {n : ℕ} (hnd : l.Nodup) (hl : ∀ j ∈ l, j < n) (f : ℕ → M) :
    ∑ a ∈ range l.length, f (nth l a) = ∑ j ∈ range n, if j ∈ l then f j else 0 := by
  rw [← Finset.sum_filter]
  refine Finset.sum_bij (fun a _ => nth l a) ?_ ?_ ?_ (fun _ _ => rfl)
  · intro a ha
    have ha := mem_range.mp ha
    have hn : nth l a = l[a] := by simp [nth, ha]
    have : nth l a ∈ l := by rw [hn]; exact List.getElem_mem ha
    simp [this, hl _ this]
  · intro a ha b hb h
    have ha := mem_range.mp ha
    have hb := mem_range.mp hb
    have h1 : nth l a = l[a] := by simp [nth, ha]
    have h2 : nth l b = l[b] := by simp [nth, hb]
    simp only [h1, h2] at h
    exact (List.Nodup.getElem_inj_iff hnd).mp h
  · intro j hj
    rw [Finset.mem_filter] at hj
    obtain ⟨a, ha, h⟩ := List.getElem_of_mem hj.2
    exact ⟨a, mem_range.mpr ha, by simp [nth, ha, h]⟩

/-- `x = bᵀ (b bᵀ)⁻¹ d` solves `b x = d` and is the shortest solution -/
theorem least_norm {m q : ℕ} {b : ℕ → ℕ → K} {X : ℕ → ℕ → K} {d x : ℕ → K}
    (hX : ∀ i j, i < m → j < m → ∑ k ∈ range m, (∑ a ∈ range q, b i a * b k a) * X k j = if i = j then 1 else 0)
    (hx : ∀ a, a < q → x a = ∑ j ∈ range m, (∑ k ∈ range m, b k a * X k j) * d j) :
    (∀ i, i < m → ∑ a ∈ range q, b i a * x a = d i) ∧
    ∀ e : ℕ → K, (∀ i, i < m → ∑ a ∈ range q, b i a * e a = d i) → ∑ a ∈ range q, x a ^ 2 ≤ ∑ a ∈ range q, e a ^ 2 := by
  have h1 : ∀ i, i < m → ∑ a ∈ range q, b i a * x a = d i := by
    intro i hi
    calc ∑ a ∈ range q, b i a * x a = ∑ a ∈ range q, ∑ j ∈ range m, ∑ k ∈ range m, b i a * b k a * X k j * d j := by
          refine sum_congr rfl fun a ha => ?_
          rw [hx a (mem_range.mp ha), mul_sum]
          refine sum_congr rfl fun j _ => ?_
          rw [sum_mul, mul_sum]
          refine sum_congr rfl fun k _ => ?_
          ring
      _ = ∑ j ∈ range m, (∑ k ∈ range m, (∑ a ∈ range q, b i a * b k a) * X k j) * d j := by
          rw [sum_comm]
          refine sum_congr rfl fun j _ => ?_
          rw [sum_comm, sum_mul]
          refine sum_congr rfl fun k _ => ?_
          rw [sum_mul, sum_mul]
      _ = ∑ j ∈ range m, if i = j then d j else 0 := by
          refine sum_congr rfl fun j hj => ?_
          rw [hX i j hi (mem_range.mp hj)]
          split_ifs <;> simp
      _ = d i := by rw [sum_ite_eq, if_pos (mem_range.mpr hi)]
  refine ⟨h1, fun e he => ?_⟩
  obtain ⟨y, hy⟩ : ∃ y : ℕ → K, ∀ k, y k = ∑ j ∈ range m, X k j * d j := ⟨_, fun _ => rfl⟩
  have hxy : ∀ a, a < q → x a = ∑ k ∈ range m, b k a * y k := by
    intro a ha
    rw [hx a ha]
    calc ∑ j ∈ range m, (∑ k ∈ range m, b k a * X k j) * d j = ∑ j ∈ range m, ∑ k ∈ range m, b k a * (X k j * d j) := by
          refine sum_congr rfl fun j _ => ?_
          rw [sum_mul]
          exact sum_congr rfl fun k _ => by ring
      _ = _ := by
          rw [sum_comm]
          refine sum_congr rfl fun k _ => ?_
          rw [hy, mul_sum]
  have horth : ∑ a ∈ range q, x a * (e a - x a) = 0 := by
    calc ∑ a ∈ range q, x a * (e a - x a) = ∑ a ∈ range q, ∑ k ∈ range m, y k * (b k a * e a - b k a * x a) := by
          refine sum_congr rfl fun a ha => ?_
          have hz : ∀ z, x a * z = ∑ k ∈ range m, y k * (b k a * z) := by
            intro z
            rw [hxy a (mem_range.mp ha), sum_mul]
            exact sum_congr rfl fun k _ => by ring
          rw [hz]
          exact sum_congr rfl fun k _ => by ring
      _ = ∑ k ∈ range m, y k * (∑ a ∈ range q, b k a * e a - ∑ a ∈ range q, b k a * x a) := by
          rw [sum_comm]
          refine sum_congr rfl fun k _ => ?_
          rw [← mul_sum, sum_sub_distrib]
      _ = 0 := sum_eq_zero fun k hk => by rw [he k (mem_range.mp hk), h1 k (mem_range.mp hk), sub_self, mul_zero]
  have : ∑ a ∈ range q, e a ^ 2 = ∑ a ∈ range q, x a ^ 2 + 2 * ∑ a ∈ range q, x a * (e a - x a) + ∑ a ∈ range q, (e a - x a) ^ 2 := by
    rw [mul_sum, ← sum_add_distrib, ← sum_add_distrib]
    exact sum_congr rfl fun a _ => by ring
  rw [this, horth, mul_zero, add_zero]
  exact le_add_of_nonneg_right (sum_nonneg fun a _ => sq_nonneg _)

end LNLib
