import Verif.Lemmas.Volume

/-! # Operations that work fibre by fibre -/
set_option linter.unusedSectionVars false

namespace LNLib
open Res Spec Finset

variable {K : Type} [Field K] [LinearOrder K] [IsStrictOrderedRing K]
variable {T : Type} [AddCommGroup T] [Module K T]

/-- the fibre `f 0, …, f n` as a curve record -/
def fibre (degree : ℤ) (knots : List K) (n : ℕ) (f : ℕ → T) : BsplineCurve K T :=
  { degree := degree, knots := knots, cps := (List.range (n + 1)).map f }

theorem nth_range_map {n i : ℕ} {f : ℕ → T} (h : i ≤ n) : nth ((List.range (n + 1)).map f) i = f i := by
  unfold nth
  simp [List.getD, Nat.lt_succ_of_le h]

theorem fibre_wf {d : ℤ} {U : List K} {p n : ℕ} {f : ℕ → T} (g : GoodDir d U p n) : WellFormed (fibre d U n f) p n :=
  { degree := g.degree, pos := g.pos, le7 := g.le7, cps := by simp [fibre], pn := g.pn, knots := g.knots, sorted := g.sorted }

theorem fibre_curve {d : ℤ} {U : List K} {V : ℕ → K} {p n : ℕ} {f : ℕ → T} {t : K} :
    curvePoint V p n (nth (fibre d U n f).cps) t = curvePoint V p n f t :=
  curvePoint_congr fun i hi => nth_range_map hi

theorem gather {n : ℕ} {rd : ℤ → Res T} {f : ℕ → T} (h : ∀ k ≤ n, rd (k : ℤ) = ok (f k)) :
    (forI 0 ((n : ℤ) + 1) (List.replicate ((n : ℤ) + 1).toNat (0 : T)) fun k pts => rd k >>= fun x => vset pts k x)
      = ok ((List.range (n + 1)).map f) := by
  apply Runs.eq
  refine (Runs.fill (e := 0) (f := f) (by intro i; omega) (by omega) (by simp) (by omega) ?_).mono ?_
  · intro i h1 h2
    have := h i.toNat (by omega)
    rw [show ((i.toNat : ℕ) : ℤ) = i by omega] at this
    rw [this, show (i + 0).toNat = i.toNat by omega]
  · rintro r ⟨h1, h2⟩
    have hl : r.length = n + 1 := by rw [h1, List.length_replicate]; omega
    refine ext_nth (by simpa using hl) ?_
    intro i hi
    rw [h2 i, if_pos (by omega), nth_range_map (by omega)]

/-- the abstract view of `newControlPoints` while the fibres are written -/
structure NetView (write : List (List (List T)) → ℤ → ℤ → ℤ → T → Res (List (List (List T)))) (Valid : List (List (List T)) → Prop)
    (get : List (List (List T)) → ℕ → ℕ → ℕ → T) (a b d : ℕ) : Prop where
  step : ∀ net o i k x, Valid net → o < a → i < b → k < d → ∃ net', write net (o : ℤ) (i : ℤ) (k : ℤ) x = ok net' ∧ Valid net' ∧
    ∀ o' i' k', get net' o' i' k' = if o' = o ∧ i' = i ∧ k' = k then x else get net o' i' k'

theorem fibreLoop_run {a b n n' : ℕ} {read : ℤ → ℤ → ℤ → Res T} {f : ℕ → ℕ → ℕ → T}
    {write : List (List (List T)) → ℤ → ℤ → ℤ → T → Res (List (List (List T)))} {Valid : List (List (List T)) → Prop}
    {get : List (List (List T)) → ℕ → ℕ → ℕ → T} {degree : ℤ} {knots kv : List K} {op : BsplineCurve K T → Res (BsplineCurve K T)}
    {net : List (List (List T))} (ha : 0 < a) (hb : 0 < b) (hread : ∀ o < a, ∀ i < b, ∀ k ≤ n, read (o : ℤ) (i : ℤ) (k : ℤ) = ok (f o i k))
    (hv : NetView write Valid get a b (n' + 1)) (hnet : Valid net) {R : ℕ → ℕ → BsplineCurve K T}
    (hop : ∀ o < a, ∀ i < b, op (fibre degree knots n (f o i)) = ok (R o i) ∧ (R o i).knots = kv ∧ (R o i).cps.length = n' + 1) :
    ∃ net', fibreLoop (a : ℤ) (b : ℤ) ((n : ℤ) + 1) read write degree knots op net = ok (kv, net') ∧ Valid net' ∧
      ∀ o < a, ∀ i < b, ∀ k ≤ n', get net' o i k = nth (R o i).cps k := by
  have main : Runs (fibreLoop (a : ℤ) (b : ℤ) ((n : ℤ) + 1) read write degree knots op net) (fun st : List K × List (List (List T)) =>
      st.1 = kv ∧ Valid st.2 ∧ ∀ o < a, ∀ i < b, ∀ k ≤ n', get st.2 o i k = nth (R o i).cps k) := by
    unfold fibreLoop
    refine (Runs.forN (m := 0) (n := a) (fun O (st : List K × List (List (List T))) => (0 < O → st.1 = kv) ∧ Valid st.2 ∧
      ∀ o < O, ∀ i < b, ∀ k ≤ n', get st.2 o i k = nth (R o i).cps k) rfl rfl (by omega) ⟨by omega, hnet, by omega⟩ ?_).mono
      (fun st h => ⟨h.1 ha, h.2.1, h.2.2⟩)
    rintro O st - hO ⟨-, s2, s3⟩
    refine (Runs.forN (m := 0) (n := b) (fun I (st : List K × List (List (List T))) => (0 < I → st.1 = kv) ∧ Valid st.2 ∧
      (∀ o < O, ∀ i < b, ∀ k ≤ n', get st.2 o i k = nth (R o i).cps k) ∧ ∀ i < I, ∀ k ≤ n', get st.2 O i k = nth (R O i).cps k)
      rfl rfl (by omega) ⟨by omega, s2, s3, by omega⟩ ?_).mono (fun st h => ⟨fun _ => h.1 hb, h.2.1, ?_⟩)
    · rintro I ⟨kv0, net⟩ - hI ⟨-, s2, s3, s4⟩
      dsimp only at s2 s3 s4 ⊢
      rw [gather (rd := fun k => read (O : ℤ) (I : ℤ) k) (f := f O I) (fun k hk => hread O hO I hI k hk), ok_bind]
      obtain ⟨o1, o2, o3⟩ := hop O hO I hI
      unfold fibre at o1
      rw [o1, ok_bind, o3]
      refine Runs.bind (Q := fun net' : List (List (List T)) => Valid net' ∧ (∀ o i k, (o ≠ O ∨ i ≠ I) → get net' o i k = get net o i k) ∧
        ∀ k ≤ n', get net' O I k = nth (R O I).cps k) ?_ ?_
      · refine (Runs.forN (m := 0) (n := n' + 1) (fun k (net' : List (List (List T))) => Valid net' ∧ (∀ o i k, (o ≠ O ∨ i ≠ I) → get net' o i k = get net o i k) ∧
          ∀ k' < k, get net' O I k' = nth (R O I).cps k') rfl (by push_cast; rfl) (by omega) ⟨s2, fun _ _ _ _ => rfl, by omega⟩ ?_).mono
          (fun net' h => ⟨h.1, h.2.1, fun k hk => h.2.2 k (by omega)⟩)
        rintro k net' - hk ⟨v1, v2, v3⟩
        refine Runs.bind_eq (vget_nth (k := k) rfl (by omega)) ?_
        obtain ⟨net2, w1, w2, w3⟩ := hv.step net' O I k (nth (R O I).cps k) v1 hO hI (by omega)
        refine Runs.of_eq w1 ⟨w2, ?_, ?_⟩
        · intro o i k' h
          rw [w3, if_neg (by rcases h with h | h <;> simp [h]), v2 o i k' h]
        · intro k' hk'
          rw [w3]
          by_cases h : k' = k
          · rw [if_pos ⟨rfl, rfl, h⟩, h]
          · rw [if_neg (by simp [h]), v3 k' (by omega)]
      · rintro net' ⟨v1, v2, v3⟩
        refine Runs.ok ⟨fun _ => o2, v1, ?_, ?_⟩
        · intro o ho i hi k hk
          rw [v2 o i k (Or.inl (by omega)), s3 o ho i hi k hk]
        · intro i hi k hk
          by_cases h : i = I
          · rw [h, v3 k hk]
          · rw [v2 O i k (Or.inr h), s4 i (by omega) k hk]
    · intro o ho i hi k hk
      by_cases h' : o = O
      · rw [h', h.2.2.2 i hi k hk]
      · exact h.2.2.1 o (by omega) i hi k hk
  obtain ⟨⟨kv', net'⟩, e, h1, h2, h3⟩ := main
  dsimp only at h1
  subst h1
  exact ⟨net', e, h2, h3⟩

/-- the first fibre cannot be written -/
theorem fibreLoop_ub {a b n : ℕ} {read : ℤ → ℤ → ℤ → Res T} {f : ℕ → T}
    {write : List (List (List T)) → ℤ → ℤ → ℤ → T → Res (List (List (List T)))} {degree : ℤ} {knots : List K} {op : BsplineCurve K T → Res (BsplineCurve K T)}
    {net : List (List (List T))} {r : BsplineCurve K T} (ha : 0 < a) (hb : 0 < b) (hread : ∀ k ≤ n, read 0 0 (k : ℤ) = ok (f k))
    (hop : op (fibre degree knots n f) = ok r)
    (hw : (forI 0 r.cps.length net fun k net => vget r.cps k >>= fun x => write net 0 0 k x) = ub) :
    fibreLoop (a : ℤ) (b : ℤ) ((n : ℤ) + 1) read write degree knots op net = ub := by
  unfold fibreLoop
  rw [forI_head (by omega), forI_head (by omega)]
  dsimp only
  rw [gather (rd := fun k => read 0 0 k) (f := f) hread, ok_bind]
  unfold fibre at hop
  rw [hop, ok_bind, hw]
  rfl

theorem sizes_ok {c : BsplineVolume K T} {n m l : ℕ} (h : IsCube c.cps (n + 1) (m + 1) (l + 1)) : c.sizes = ok ((n : ℤ), (m : ℤ), (l : ℤ)) := by
  unfold BsplineVolume.sizes
  have h0 := h.2 0 (by omega)
  rw [vget_row (i := 0) (k := 0) rfl (by rw [h.1]; omega), ok_bind, vget_row (i := 0) (k := 0) rfl (by rw [h0.1]; omega), ok_bind, h.1, h0.1, h0.2 0 (by omega)]
  push_cast
  simp

theorem viewU {n m l : ℕ} : NetView (T := T) (fun net sep col i x => cset net i col sep x) (fun net => IsCube net (n + 1) (m + 1) (l + 1))
    (fun net sep col i => ent3 net i col sep) (l + 1) (m + 1) (n + 1) where
  step := by
    intro net o i k x hn ho hi hk
    obtain ⟨c', e, h1, h2⟩ := cset_ok (e := x) hn (i := k) (j := i) (k := o) rfl rfl rfl hk hi ho
    refine ⟨c', e, h1, ?_⟩
    intro o' i' k'
    rw [h2]
    congr 1
    apply propext
    constructor <;> (rintro ⟨h1, h2, h3⟩; exact ⟨h3, h2, h1⟩)

theorem viewV {n m l : ℕ} : NetView (T := T) (fun net sep row j x => cset net row j sep x) (fun net => IsCube net (n + 1) (m + 1) (l + 1))
    (fun net sep row j => ent3 net row j sep) (l + 1) (n + 1) (m + 1) where
  step := by
    intro net o i k x hn ho hi hk
    obtain ⟨c', e, h1, h2⟩ := cset_ok (e := x) hn (i := i) (j := k) (k := o) rfl rfl rfl hi hk ho
    refine ⟨c', e, h1, ?_⟩
    intro o' i' k'
    rw [h2]
    congr 1
    apply propext
    constructor
    · rintro ⟨h1, h2, h3⟩; exact ⟨h3, h1, h2⟩
    · rintro ⟨h1, h2, h3⟩; exact ⟨h2, h3, h1⟩

theorem viewW {n m l : ℕ} : NetView (T := T) (fun net col row k x => cset net row col k x) (fun net => IsCube net (n + 1) (m + 1) (l + 1))
    (fun net col row k => ent3 net row col k) (m + 1) (n + 1) (l + 1) where
  step := by
    intro net o i k x hn ho hi hk
    obtain ⟨c', e, h1, h2⟩ := cset_ok (e := x) hn (i := i) (j := o) (k := k) rfl rfl rfl hi ho hk
    refine ⟨c', e, h1, ?_⟩
    intro o' i' k'
    rw [h2]
    congr 1
    apply propext
    constructor
    · rintro ⟨h1, h2, h3⟩; exact ⟨h2, h1, h3⟩
    · rintro ⟨h1, h2, h3⟩; exact ⟨h2, h1, h3⟩

theorem isCube_newNet {n m l : ℕ} : IsCube (newNet (T := T) ((n : ℤ) + 1) ((m : ℤ) + 1) ((l : ℤ) + 1)) (n + 1) (m + 1) (l + 1) := by
  unfold newNet
  rw [show ((n : ℤ) + 1).toNat = n + 1 by omega, show ((m : ℤ) + 1).toNat = m + 1 by omega, show ((l : ℤ) + 1).toNat = l + 1 by omega]
  exact isCube_replicate

theorem alongU_run {c : BsplineVolume K T} {n n' m l : ℕ} (hc : IsCube c.cps (n + 1) (m + 1) (l + 1)) {kv : List K}
    {op : BsplineCurve K T → Res (BsplineCurve K T)} {net : List (List (List T))} (hnet : IsCube net (n' + 1) (m + 1) (l + 1))
    {R : ℕ → ℕ → BsplineCurve K T} (hop : ∀ j ≤ m, ∀ k ≤ l, op (fibre c.degreeU c.knotsU n (fun i => ent3 c.cps i j k)) = ok (R j k) ∧
      (R j k).knots = kv ∧ (R j k).cps.length = n' + 1) :
    ∃ net', alongFibres c .u n m l op net = ok { c with knotsU := kv, cps := net' } ∧ IsCube net' (n' + 1) (m + 1) (l + 1) ∧
      ∀ i ≤ n', ∀ j ≤ m, ∀ k ≤ l, ent3 net' i j k = nth (R j k).cps i := by
  obtain ⟨net', e, h1, h2⟩ := fibreLoop_run (a := l + 1) (b := m + 1) (n := n) (n' := n') (read := fun sep col i => cget c.cps i col sep)
    (f := fun o i k => ent3 c.cps k i o) (degree := c.degreeU) (knots := c.knotsU) (kv := kv) (op := op) (net := net) (by omega) (by omega)
    (fun o ho i hi k hk => cget_ent3 hc rfl rfl rfl (by omega) hi ho) viewU hnet (R := fun o i => R i o)
    (fun o ho i hi => hop i (by omega) o (by omega))
  refine ⟨net', ?_, h1, fun i hi j hj k hk => h2 k (by omega) j (by omega) i hi⟩
  unfold alongFibres
  dsimp only
  push_cast at e
  rw [e, ok_bind]

theorem alongV_run {c : BsplineVolume K T} {n m m' l : ℕ} (hc : IsCube c.cps (n + 1) (m + 1) (l + 1)) {kv : List K}
    {op : BsplineCurve K T → Res (BsplineCurve K T)} {net : List (List (List T))} (hnet : IsCube net (n + 1) (m' + 1) (l + 1))
    {R : ℕ → ℕ → BsplineCurve K T} (hop : ∀ i ≤ n, ∀ k ≤ l, op (fibre c.degreeV c.knotsV m (fun j => ent3 c.cps i j k)) = ok (R i k) ∧
      (R i k).knots = kv ∧ (R i k).cps.length = m' + 1) :
    ∃ net', alongFibres c .v n m l op net = ok { c with knotsV := kv, cps := net' } ∧ IsCube net' (n + 1) (m' + 1) (l + 1) ∧
      ∀ i ≤ n, ∀ j ≤ m', ∀ k ≤ l, ent3 net' i j k = nth (R i k).cps j := by
  obtain ⟨net', e, h1, h2⟩ := fibreLoop_run (a := l + 1) (b := n + 1) (n := m) (n' := m') (read := fun sep row j => cget c.cps row j sep)
    (f := fun o i k => ent3 c.cps i k o) (degree := c.degreeV) (knots := c.knotsV) (kv := kv) (op := op) (net := net) (by omega) (by omega)
    (fun o ho i hi k hk => cget_ent3 hc rfl rfl rfl hi (by omega) ho) viewV hnet (R := fun o i => R i o)
    (fun o ho i hi => hop i (by omega) o (by omega))
  refine ⟨net', ?_, h1, fun i hi j hj k hk => h2 k (by omega) i (by omega) j hj⟩
  unfold alongFibres
  dsimp only
  push_cast at e
  rw [e, ok_bind]

theorem alongW_run {c : BsplineVolume K T} {n m l l' : ℕ} (hc : IsCube c.cps (n + 1) (m + 1) (l + 1)) {kv : List K}
    {op : BsplineCurve K T → Res (BsplineCurve K T)} {net : List (List (List T))} (hnet : IsCube net (n + 1) (m + 1) (l' + 1))
    {R : ℕ → ℕ → BsplineCurve K T} (hop : ∀ i ≤ n, ∀ j ≤ m, op (fibre c.degreeW c.knotsW l (fun k => ent3 c.cps i j k)) = ok (R i j) ∧
      (R i j).knots = kv ∧ (R i j).cps.length = l' + 1) :
    ∃ net', alongFibres c .w n m l op net = ok { c with knotsW := kv, cps := net' } ∧ IsCube net' (n + 1) (m + 1) (l' + 1) ∧
      ∀ i ≤ n, ∀ j ≤ m, ∀ k ≤ l', ent3 net' i j k = nth (R i j).cps k := by
  obtain ⟨net', e, h1, h2⟩ := fibreLoop_run (a := m + 1) (b := n + 1) (n := l) (n' := l') (read := fun col row k => cget c.cps row col k)
    (f := fun o i k => ent3 c.cps i o k) (degree := c.degreeW) (knots := c.knotsW) (kv := kv) (op := op) (net := net) (by omega) (by omega)
    (fun o ho i hi k hk => cget_ent3 hc rfl rfl rfl hi ho (by omega)) viewW hnet (R := fun o i => R i o)
    (fun o ho i hi => hop i (by omega) o (by omega))
  refine ⟨net', ?_, h1, fun i hi j hj k hk => h2 j (by omega) i (by omega) k hk⟩
  unfold alongFibres
  dsimp only
  push_cast at e
  rw [e, ok_bind]

end LNLib
