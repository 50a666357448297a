import Verif.Core.Hoare

/-! # Loops that stop with an error -/

namespace LNLib
open Res

variable {σ : Type}

/-- a loop whose body runs normally before round `i0` and ends with the error `x` in round `i0` ends with that error -/
theorem forI_stops {body : ℤ → σ → Res σ} {x : Res σ} (hx : ∀ f : σ → Res σ, (x >>= f) = x) (Inv : ℤ → σ → Prop) {b i0 : ℤ} (hb : i0 < b) :
    ∀ (d : ℕ) (a : ℤ) (s : σ), a + d = i0 → Inv a s → (∀ i s, a ≤ i → i < i0 → Inv i s → Runs (body i s) (Inv (i + 1))) →
      (∀ s, Inv i0 s → body i0 s = x) → forI a b s body = x := by
  intro d
  induction d with
  | zero =>
    intro a s ha h _ hstop
    have : a = i0 := by omega
    subst this
    rw [forI_head hb, hstop s h, hx]
  | succ d ih =>
    intro a s ha h hstep hstop
    rw [forI_head (by omega)]
    obtain ⟨s', e, h'⟩ := hstep a s (le_refl _) (by omega) h
    rw [e, ok_bind]
    exact ih (a + 1) s' (by omega) h' (fun i s h1 h2 h3 => hstep i s (by omega) h2 h3) hstop

theorem ub_bind (f : σ → Res σ) : ((ub : Res σ) >>= f) = ub := rfl

theorem nonfinite_bind (f : σ → Res σ) : ((nonfinite : Res σ) >>= f) = nonfinite := rfl

end LNLib
