import Verif.Lemmas.ElevKnots
import Verif.Lemmas.RefineRun

/-! # Multiplicities of the elevated knots -/
set_option linter.unusedSectionVars false

namespace LNLib
open Res Spec Finset

variable {K : Type} [Field K] [LinearOrder K] [IsStrictOrderedRing K]
variable {U : List K} {p n q t : ℕ}

theorem map_range_const {f : ℕ → K} {k : ℕ} {v : K} (h : ∀ i < k, f i = v) : (List.range k).map f = List.replicate k v := by
  rw [List.eq_replicate_iff]
  refine ⟨by simp, ?_⟩
  intro b hb
  obtain ⟨i, hi, rfl⟩ := List.mem_map.mp hb
  exact h i (List.mem_range.mp hi)

theorem map_range_block {f : ℕ → K} {a k : ℕ} {v : K} (h : ∀ i < k, f (a + i) = v) :
    (List.range (a + k)).map f = (List.range a).map f ++ List.replicate k v := by
  rw [List.range_add, List.map_append, List.map_map]
  congr 1
  exact map_range_const h

theorem count_step {A B : List K} {v : K} {μ : ℕ} (hμ : 0 < μ) (hv : v ∉ B)
    (h : ∀ z, A.count z = B.count z + if z ∈ B then t else 0) (z : K) :
    (A ++ List.replicate (μ + t) v).count z = (B ++ List.replicate μ v).count z + if z ∈ B ++ List.replicate μ v then t else 0 := by
  rw [List.count_append, List.count_append, List.count_replicate, List.count_replicate, h z]
  by_cases hz : v = z
  · subst hz
    have hm : v ∈ B ++ List.replicate μ v := by simp; omega
    rw [if_neg hv, if_pos hm]
    simp
    omega
  · have hz' : ¬ z = v := fun h => hz h.symm
    have e : (z ∈ B ++ List.replicate μ v) ↔ z ∈ B := by simp [List.mem_replicate, hz']
    simp only [e]
    simp [hz]

namespace KnotShape

theorem ek_count_prefix (h : KnotShape U p n q) {a : ℕ} (hp : p ≤ a) (hn : a ≤ n) (hs : nth U a < nth U (a + 1)) :
    ∀ z, ((List.range (sig (nth U) p t a + 1)).map (elevKnot (nth U) p n t)).count z =
      ((List.range (a + 1)).map (nth U)).count z + if z ∈ (List.range (a + 1)).map (nth U) then t else 0 := by
  refine h.span_ind (Q := fun a => ∀ z, ((List.range (sig (nth U) p t a + 1)).map (elevKnot (nth U) p n t)).count z =
      ((List.range (a + 1)).map (nth U)).count z + if z ∈ (List.range (a + 1)).map (nth U) then t else 0) (le_refl p) h.lo ?_ ?_ a hp hn hs
  · intro z
    have hpn := h.pn
    rw [h.sig_first, map_range_const (v := nth U p) (fun i hi => ek_first (by omega)),
      map_range_const (v := nth U p) (fun i hi => le_antisymm (h.mono _ _ (by omega) (by omega)) (by rw [← h.first]; exact h.mono _ _ (by omega) (by omega)))]
    have := count_step (A := []) (B := []) (v := nth U p) (t := t) (μ := p + 1) (by omega) (by simp) (by simp) z
    simp only [List.nil_append] at this
    rw [show p + t + 1 = p + 1 + t by omega]
    exact this
  · intro a μ hpa han hsa hb i1 i2 e hpos _ ih z
    have hσ := sig_block (t := t) hpa hb i2
    have e1 : sig (nth U) p t (a + μ) + 1 = sig (nth U) p t a + 1 + (μ + t) := by omega
    have e2 : a + μ + 1 = a + 1 + μ := by omega
    rw [e1, map_range_block (v := nth U (a + 1)) (fun i hi => h.ek_block hpa han hsa hb (by omega) (by omega)),
      e2, map_range_block (v := nth U (a + 1)) (fun i hi => hb.eq i hi)]
    apply count_step hpos _ ih
    intro hmem
    obtain ⟨j, hj, hj2⟩ := List.mem_map.mp hmem
    have := h.mono j a (by have := List.mem_range.mp hj; omega) (by omega)
    rw [hj2] at this
    exact absurd hsa (not_lt.mpr this)

theorem ek_count (h : KnotShape U p n q) (z : K) :
    ((List.range (sig (nth U) p t n + (p + t) + 2)).map (elevKnot (nth U) p n t)).count z = U.count z + if z ∈ U then t else 0 := by
  have hU : U = (List.range (n + 1 + (p + 1))).map (nth U) := by
    apply ext_nth
    · simp [h.len]; omega
    · intro i hi
      have : i < n + 1 + (p + 1) := by rw [h.len] at hi; omega
      simp [nth, this]
  have e1 : sig (nth U) p t n + (p + t) + 2 = sig (nth U) p t n + 1 + (p + 1 + t) := by omega
  rw [e1, map_range_block (v := nth U (n + 1)) (fun i hi => h.ek_last (by omega))]
  conv_rhs => rw [hU, map_range_block (v := nth U (n + 1)) (fun i hi => h.outer.eq i hi)]
  apply count_step (by omega) _ (h.ek_count_prefix h.pn (le_refl _) h.hi)
  intro hmem
  obtain ⟨j, hj, hj2⟩ := List.mem_map.mp hmem
  have := h.mono j n (by have := List.mem_range.mp hj; omega) (by omega)
  rw [hj2] at this
  exact absurd h.hi (not_lt.mpr this)

end KnotShape

end LNLib
