import Verif.Props.WeightedFitExact

/-!
# C167: two tangents at one point (Geometry/Curve/NurbsCurve.cpp:2432-2636)
-/
set_option linter.unusedSectionVars false

namespace LNLib.Props
open LNLib Res LNLib.Spec Finset

section
variable {K : Type} [Field K] [LinearOrder K] [IsStrictOrderedRing K] {pts tangents : List (XYZ K)} {ws uk kv tangentWeights : List K} {indices order : List ℤ}

theorem fitAdd_count {w : K} {q : XYZ K} {mk : Res (List K)} {rows rows' : FitRows K} (h : fitAdd w q mk rows = ok rows') :
    rows'.N.length + rows'.M.length ≤ rows.N.length + rows.M.length + (if isGreaterThan w 0 then 1 else 0) + (if isLessThan w 0 then 1 else 0) ∧
    rows'.N.length + rows'.M.length ≤ rows.N.length + rows.M.length + 1 := by
  unfold fitAdd at h
  split at h
  · rename_i hg
    obtain ⟨r, -, h⟩ := bind_eq_ok.mp h
    rw [← Res.ok.inj h, if_pos hg]
    simp only [List.length_append, List.length_cons, List.length_nil]
    omega
  · split at h
    · rename_i hl
      obtain ⟨r, -, h⟩ := bind_eq_ok.mp h
      rw [← Res.ok.inj h, if_pos hl]
      simp only [List.length_append, List.length_cons, List.length_nil]
      omega
    · rw [← Res.ok.inj h]
      omega

/-- two tangents that follow each other in the order and belong to one point: the second one is never reached -/
theorem fitLoop_stuck {degree count : ℤ} {st : FitRows K × ℤ} {t : ℕ} {j : ℤ} (hws : ws.length = pts.length) (ht : t + 1 < tangents.length)
    (h1 : (vget order (t : ℤ) >>= fun o => vget indices o) = ok j) (h2 : (vget order ((t : ℤ) + 1) >>= fun o => vget indices o) = ok j)
    (h : fitLoop degree count pts ws tangents indices tangentWeights order kv uk = ok st) :
    ((st.1.N.length + st.1.M.length : ℕ) : ℤ) ≤ (ws.countP (fun w => isGreaterThan w 0) + ws.countP (fun w => isLessThan w 0) : ℕ) + ((t : ℤ) + 1) := by
  unfold fitLoop at h
  have hat : ∀ {i next : ℤ} {a : Bool}, (next = t ∨ next = (t : ℤ) + 1) → fitHasTangent tangents indices order i next = ok a → a = true → i = j := by
    intro i next a hn hf ha
    subst ha
    unfold fitHasTangent at hf
    rw [if_pos (by omega)] at hf
    obtain ⟨o, ho, hf⟩ := bind_eq_ok.mp hf
    obtain ⟨k, hk, hf⟩ := bind_eq_ok.mp hf
    have e := Res.ok.inj hf
    rw [decide_eq_true_eq] at e
    rcases hn with rfl | rfl
    · rw [ho, ok_bind, hk] at h1
      rw [← e]; exact Res.ok.inj h1
    · rw [ho, ok_bind, hk] at h2
      rw [← e]; exact Res.ok.inj h2
  have := forI_post (Inv := fun k (st : FitRows K × ℤ) =>
      ((st.1.N.length + st.1.M.length : ℕ) : ℤ) ≤ ((ws.take k.toNat).countP (fun w => isGreaterThan w 0) + (ws.take k.toNat).countP (fun w => isLessThan w 0) : ℕ) + st.2 ∧
      st.2 ≤ (t : ℤ) + 1 ∧ (k ≤ j → st.2 ≤ t)) (by omega) ⟨by simp, by omega, fun _ => by omega⟩ ?_ h
  · obtain ⟨g1, g2, -⟩ := this
    rw [Int.toNat_natCast, ← hws, List.take_length] at g1
    omega
  rintro k s s' hk0 hk1 ⟨g1, g2, g3⟩ hb
  obtain ⟨i, rfl⟩ := Int.eq_ofNat_of_zero_le hk0
  have hi : i < ws.length := by omega
  obtain ⟨a, ha, hb⟩ := bind_eq_ok.mp hb
  obtain ⟨u, -, hb⟩ := bind_eq_ok.mp hb
  obtain ⟨sp, -, hb⟩ := bind_eq_ok.mp hb
  rw [vget_nth (k := i) rfl hi, ok_bind] at hb
  obtain ⟨q, -, hb⟩ := bind_eq_ok.mp hb
  obtain ⟨rows, hr, hb⟩ := bind_eq_ok.mp hb
  have c1 := (fitAdd_count hr).1
  have et : ws.take (i + 1) = ws.take i ++ [nth ws i] := by rw [nth_eq_getElem hi, List.take_append_getElem hi]
  have c2 : ((ws.take (i + 1)).countP (fun w => isGreaterThan w 0) + (ws.take (i + 1)).countP (fun w => isLessThan w 0)) =
      (ws.take i).countP (fun w => isGreaterThan w 0) + (ws.take i).countP (fun w => isLessThan w 0) +
        ((if isGreaterThan (nth ws i) 0 then 1 else 0) + (if isLessThan (nth ws i) 0 then 1 else 0)) := by
    rw [et, List.countP_append, List.countP_append, List.countP_singleton, List.countP_singleton]
    omega
  rw [Int.toNat_natCast] at g1
  rw [show ((i : ℤ) + 1).toNat = i + 1 by omega, c2]
  clear c2
  generalize (if isGreaterThan (nth ws i) 0 = true then 1 else 0 : ℕ) = x at c1 ⊢
  generalize (if isLessThan (nth ws i) 0 = true then 1 else 0 : ℕ) = y at c1 ⊢
  split at hb
  · rename_i hat1
    obtain ⟨o, -, hb⟩ := bind_eq_ok.mp hb
    obtain ⟨d, -, hb⟩ := bind_eq_ok.mp hb
    obtain ⟨wt, -, hb⟩ := bind_eq_ok.mp hb
    obtain ⟨ders, -, hb⟩ := bind_eq_ok.mp hb
    obtain ⟨rows', hr', hb⟩ := bind_eq_ok.mp hb
    have c3 := (fitAdd_count hr').2
    rw [← Res.ok.inj hb]
    dsimp only
    have n1 : s.2 = t → (i : ℤ) = j := fun e => hat (Or.inl e) ha hat1
    have n2 : s.2 = (t : ℤ) + 1 → (i : ℤ) = j := fun e => hat (Or.inr e) ha hat1
    refine ⟨by omega, ?_, ?_⟩
    · by_cases e : s.2 = (t : ℤ) + 1
      · have := g3 (le_of_eq (n2 e)); omega
      · omega
    · intro hle
      have := g3 (by omega)
      by_cases e : s.2 = t
      · have := n1 e; omega
      · omega
  · rw [← Res.ok.inj hb]
    dsimp only
    exact ⟨by omega, g2, fun hle => g3 (by omega)⟩

variable [FloorRing K] {solve : List (List K) → List (List K) → Res (List (List K))}

/-- C167 fails: two tangents at one point (all tangents having weights other than zero) are never accepted, whatever the solver; `order` is any order of the tangents by their points. -/
theorem C167_same_point_violated {degree count : ℤ} {a b : ℕ} (hperm : order.Perm ((List.range tangents.length).map fun i : ℕ => (i : ℤ)))
    (hsorted : ∀ s t, s ≤ t → t < order.length → nth indices (nth order s).toNat ≤ nth indices (nth order t).toNat)
    (hnz : ∀ w ∈ tangentWeights, isGreaterThan w 0 = true ∨ isLessThan w 0 = true)
    (hab : a ≠ b) (ha : a < tangents.length) (hb : b < tangents.length) (he : nth indices a = nth indices b) (c : NurbsCurve K) :
    weightedFit solve degree pts ws tangents indices tangentWeights order count uk ≠ ok (some c) := by
  intro hc
  unfold weightedFit at hc
  obtain ⟨_, -, hc⟩ := bind_eq_ok.mp hc
  obtain ⟨_, -, hc⟩ := bind_eq_ok.mp hc
  obtain ⟨_, hv, hc⟩ := bind_eq_ok.mp hc
  obtain ⟨_, hv2, hc⟩ := bind_eq_ok.mp hc
  obtain ⟨_, hv3, hc⟩ := bind_eq_ok.mp hc
  obtain ⟨_, -, hc⟩ := bind_eq_ok.mp hc
  have hval : ∀ {q : Prop} [Decidable q] {u : Unit}, validate (decide q) = ok u → q := by
    intro q _ u hq
    by_contra hcon
    rw [show decide q = false by rw [decide_eq_false_iff_not]; exact hcon] at hq
    simp [validate] at hq
  have hws := hval hv
  have hind := hval hv2
  have htw := hval hv3
  dsimp only at hc
  split at hc
  · simp at hc
  obtain ⟨kv, -, hc⟩ := bind_eq_ok.mp hc
  obtain ⟨st, hst, hc⟩ := bind_eq_ok.mp hc
  split at hc
  · simp at hc
  rename_i hrows
  rw [not_or, not_not, not_not] at hrows
  have hol : order.length = tangents.length := by rw [hperm.length_eq]; simp
  have hpos : ∀ a, a < tangents.length → ∃ s, s < order.length ∧ nth order s = (a : ℤ) := by
    intro a ha
    have : (a : ℤ) ∈ order := hperm.mem_iff.mpr (List.mem_map.mpr ⟨a, List.mem_range.mpr ha, rfl⟩)
    obtain ⟨s, hs, e⟩ := List.getElem_of_mem this
    exact ⟨s, hs, by rw [nth_eq_getElem hs, e]⟩
  have hbnd : ∀ s, s < order.length → ∃ o : ℕ, nth order s = (o : ℤ) ∧ o < indices.length := by
    intro s hs
    have : nth order s ∈ order := by rw [nth_eq_getElem hs]; exact List.getElem_mem hs
    obtain ⟨o, ho, e⟩ := List.mem_map.mp (hperm.mem_iff.mp this)
    exact ⟨o, e.symm, by rw [hind]; exact List.mem_range.mp ho⟩
  have key : ∀ s t a b, s < t → t < order.length → nth order s = ((a : ℕ) : ℤ) → nth order t = ((b : ℕ) : ℤ) → nth indices a = nth indices b → False := by
    intro s t a b hst' ht e1 e2 he
    have m1 := hsorted s (s + 1) (by omega) (by omega)
    have m2 := hsorted (s + 1) t (by omega) ht
    rw [e1, Int.toNat_natCast] at m1
    rw [e2, Int.toNat_natCast] at m2
    obtain ⟨o, eo, ho⟩ := hbnd (s + 1) (by omega)
    obtain ⟨a', ea, ha'⟩ := hbnd s (by omega)
    have : a' = a := by rw [e1] at ea; exact_mod_cast ea.symm
    subst this
    rw [eo, Int.toNat_natCast] at m1 m2
    have hstuck := fitLoop_stuck (t := s) (j := nth indices a') hws (by omega)
      (by rw [vget_nth (k := s) rfl (by omega), ok_bind, e1, vget_nth (k := a') rfl ha'])
      (by rw [vget_nth (k := s + 1) (by push_cast; rfl) (by omega), ok_bind, eo, vget_nth (k := o) rfl ho]; exact congrArg ok (le_antisymm (he ▸ m2) m1)) hst
    have hall : tangentWeights.length ≤ tangentWeights.countP (fun w => isGreaterThan w 0) + tangentWeights.countP (fun w => isLessThan w 0) := by
      clear * - hnz
      induction tangentWeights with
      | nil => simp
      | cons x l ih =>
        have := ih fun w hw => hnz w (List.mem_cons_of_mem _ hw)
        rw [List.countP_cons, List.countP_cons, List.length_cons]
        rcases hnz x List.mem_cons_self with h | h <;> rw [h] <;> simp only [if_true] <;> omega
    push_cast at hstuck
    omega
  obtain ⟨s, hs, es⟩ := hpos a ha
  obtain ⟨t, ht, et⟩ := hpos b hb
  rcases lt_trichotomy s t with h | h | h
  · exact key s t a b h ht es et he
  · subst h
    rw [es] at et
    exact hab (by exact_mod_cast et)
  · exact key t s b a h hs et es he.symm

end

/-- `C167_same_point_violated` is not vacuous: four points, and two tangents at the second one -/
example (solve : List (List ℚ) → List (List ℚ) → Res (List (List ℚ))) (c : NurbsCurve ℚ) :
    weightedFit solve 1 [⟨0, 0, 0⟩, ⟨1, 1, 0⟩, ⟨2, 0, 0⟩, ⟨3, 0, 0⟩] [1, 1, 1, 1] [⟨1, 0, 0⟩, ⟨0, 1, 0⟩] [1, 1] [1, 1] [0, 1] 3 [0, 1/4, 1/2, 1] ≠ ok (some c) :=
  C167_same_point_violated (a := 0) (b := 1) (by decide) (by
    intro s t hst ht
    have ht : t < 2 := ht
    interval_cases t <;> interval_cases s <;> decide) (by
    intro w hw
    simp only [List.mem_cons, List.not_mem_nil, or_false, or_self] at hw
    subst hw
    decide +kernel) (by omega) (by decide) (by decide) rfl c

end LNLib.Props
