import Mathlib.Algebra.Order.Field.Basic
import Mathlib.Algebra.Order.Ring.Abs
import Mathlib.Algebra.Module.Basic
import Mathlib.Tactic.Ring
import Mathlib.Tactic.Linarith
import Mathlib.Tactic.FieldSimp
import Mathlib.Tactic.Positivity
import Mathlib.Tactic.Common

/-!
# Outcomes of running a piece of LNLib

`Res α` is the result type of every modelled function.  Only `ok` is a normal return; the other
constructors keep the different ways the C++ can fail apart:

* `invalidArg` : `std::invalid_argument` thrown by `VALIDATE_ARGUMENT`
  (src/LNLib/include/LNLibExceptions.h:16-19)
* `outOfRange` : `std::out_of_range` thrown by `VALIDATE_ARGUMENT_RANGE`
  (src/LNLib/include/LNLibExceptions.h:21-25)
* `ub`         : undefined behaviour: an unchecked `operator[]` outside a container or array,
  or a read of an uninitialised array element
* `nonfinite`  : a floating point division by zero (the C++ goes on with inf/NaN)
* `diverge`    : a loop ran longer than the fuel given by the model
-/

namespace LNLib

inductive Res (α : Type) where
  | ok (a : α)
  | invalidArg
  | outOfRange
  | ub
  | nonfinite
  | diverge
  deriving DecidableEq, Repr

namespace Res

variable {α β γ : Type}

def bind (x : Res α) (f : α → Res β) : Res β :=
  match x with
  | ok a => f a
  | invalidArg => invalidArg
  | outOfRange => outOfRange
  | ub => ub
  | nonfinite => nonfinite
  | diverge => diverge

instance : Monad Res where
  pure := ok
  bind := bind

section
variable {α β : Type}
@[simp] theorem pure_def (a : α) : (pure a : Res α) = ok a := rfl
@[simp] theorem ok_bind (a : α) (f : α → Res β) : (ok a >>= f) = f a := rfl
@[simp] theorem invalidArg_bind (f : α → Res β) : ((invalidArg : Res α) >>= f) = invalidArg := rfl
@[simp] theorem outOfRange_bind (f : α → Res β) : ((outOfRange : Res α) >>= f) = outOfRange := rfl
@[simp] theorem ub_bind (f : α → Res β) : ((ub : Res α) >>= f) = ub := rfl
@[simp] theorem nonfinite_bind (f : α → Res β) : ((nonfinite : Res α) >>= f) = nonfinite := rfl
@[simp] theorem diverge_bind (f : α → Res β) : ((diverge : Res α) >>= f) = diverge := rfl

theorem bind_eq_ok {x : Res α} {f : α → Res β} {b : β} :
    (x >>= f) = ok b ↔ ∃ a, x = ok a ∧ f a = ok b := by
  cases x <;> simp

theorem bind_assoc' {γ : Type} (x : Res α) (f : α → Res β) (g : β → Res γ) :
    (x >>= f) >>= g = x >>= fun a => f a >>= g := by
  cases x <;> rfl

@[simp] theorem bind_ok_right (x : Res α) : (x >>= fun a => ok a) = x := by
  cases x <;> rfl
end

/-- Did the run return normally? -/
def isOk : Res α → Bool
  | ok _ => true
  | _ => false

/-- Total projection used only in examples and witnesses. -/
def getD (d : α) : Res α → α
  | ok a => a
  | _ => d

end Res

open Res

/-! ## The validation macros -/

/-- `VALIDATE_ARGUMENT(condition, …)`, src/LNLib/include/LNLibExceptions.h:16-19. -/
def validate (c : Bool) : Res Unit := if c then ok () else invalidArg

@[simp] theorem validate_true : validate true = ok () := rfl
@[simp] theorem validate_false : validate false = invalidArg := rfl

theorem validate_of {c : Bool} (h : c = true) : validate c = ok () := by simp [h]

/-! ## Containers

`std::vector<T>` is `List T`.  Indices are `ℤ` because the C++ computes them as `int`. -/

/-- unchecked `v[i]`; out of bounds is undefined behaviour. -/
def vget {α : Type} (v : List α) (i : ℤ) : Res α :=
  if 0 ≤ i then
    match v[i.toNat]? with
    | some x => ok x
    | none => ub
  else ub

/-- unchecked `v[i] = x`; out of bounds is undefined behaviour. -/
def vset {α : Type} (v : List α) (i : ℤ) (x : α) : Res (List α) :=
  if 0 ≤ i ∧ i.toNat < v.length then ok (v.set i.toNat x) else ub

/-- A C array `double a[n]` with uninitialised contents. -/
def uninit (α : Type) (n : ℕ) : List (Option α) := List.replicate n none

/-- read of a C array element: out of bounds or uninitialised is undefined behaviour. -/
def aget {α : Type} (v : List (Option α)) (i : ℤ) : Res α :=
  if 0 ≤ i then
    match v[i.toNat]? with
    | some (some x) => ok x
    | _ => ub
  else ub

/-- write of a C array element. -/
def aset {α : Type} (v : List (Option α)) (i : ℤ) (x : α) : Res (List (Option α)) :=
  vset v i (some x)

/-- `double` division; a zero divisor is reported. -/
def fdiv {K : Type} [Field K] [DecidableEq K] (a b : K) : Res K :=
  if b = 0 then nonfinite else ok (a / b)

/-- division of a point/vector by a `double` (componentwise); a zero divisor is reported. -/
def vdiv {K T : Type} [Field K] [DecidableEq K] [AddCommGroup T] [Module K T] (v : T) (b : K) : Res T :=
  if b = 0 then nonfinite else ok (b⁻¹ • v)

section
variable {α : Type}

theorem vget_nat (v : List α) (i : ℕ) :
    vget v (i : ℤ) = match v[i]? with | some x => ok x | none => ub := by
  simp [vget]

theorem vget_ok {v : List α} {i : ℕ} {x : α} (h : v[i]? = some x) : vget v (i : ℤ) = ok x := by
  simp [vget, h]

theorem vget_eq_ok_iff {v : List α} {i : ℤ} {x : α} :
    vget v i = ok x ↔ 0 ≤ i ∧ v[i.toNat]? = some x := by
  unfold vget
  split
  · rename_i h
    cases hv : v[i.toNat]? <;> simp [h]
  · rename_i h
    simp [h]

theorem vget_of {v : List α} {i : ℤ} {k : ℕ} {x : α} (hi : i = k) (h : v[k]? = some x) :
    vget v i = ok x := by
  subst hi; exact vget_ok h

theorem vget_getD [Inhabited α] {v : List α} {i : ℤ} {k : ℕ} (d : α) (hi : i = k) (h : k < v.length) :
    vget v i = ok (v.getD k d) := by
  subst hi
  apply vget_ok
  simp [h]

theorem vget_lt {v : List α} {i : ℤ} (d : α) (h0 : 0 ≤ i) (h : i < v.length) :
    vget v i = ok (v.getD i.toNat d) := by
  have : i.toNat < v.length := by omega
  unfold vget
  simp [h0, this]

theorem vget_neg {v : List α} {i : ℤ} (h : i < 0) : vget v i = ub := by
  unfold vget; simp [not_le.mpr h]

theorem vget_ge {v : List α} {i : ℤ} (h : (v.length : ℤ) ≤ i) : vget v i = ub := by
  unfold vget
  have h0 : 0 ≤ i := by omega
  have : v[i.toNat]? = none := by
    rw [List.getElem?_eq_none_iff]; omega
  simp [h0, this]

theorem vset_ok {v : List α} {i : ℕ} {x : α} (h : i < v.length) :
    vset v (i : ℤ) x = ok (v.set i x) := by
  simp [vset, h]

theorem vset_of {v : List α} {i : ℤ} {k : ℕ} {x : α} (hi : i = k) (h : k < v.length) :
    vset v i x = ok (v.set k x) := by
  subst hi; exact vset_ok h

theorem vset_eq_ok_iff {v w : List α} {i : ℤ} {x : α} :
    vset v i x = ok w ↔ 0 ≤ i ∧ i.toNat < v.length ∧ w = v.set i.toNat x := by
  unfold vset
  split
  · rename_i h
    simp [h, eq_comm]
  · rename_i h
    simp only [reduceCtorEq, false_iff, not_and]
    intro h1 h2
    exact absurd ⟨h1, h2⟩ h

theorem vset_neg {v : List α} {i : ℤ} {x : α} (h : i < 0) : vset v i x = ub := by
  unfold vset; simp [not_le.mpr h]

theorem vset_ge {v : List α} {i : ℤ} {x : α} (h : (v.length : ℤ) ≤ i) : vset v i x = ub := by
  unfold vset
  rw [if_neg]; omega

theorem aget_ok {v : List (Option α)} {i : ℕ} {x : α} (h : v[i]? = some (some x)) :
    aget v (i : ℤ) = ok x := by
  simp [aget, h]

theorem aget_of {v : List (Option α)} {i : ℤ} {k : ℕ} {x : α} (hi : i = k)
    (h : v[k]? = some (some x)) : aget v i = ok x := by
  subst hi; exact aget_ok h

theorem aset_of {v : List (Option α)} {i : ℤ} {k : ℕ} {x : α} (hi : i = k) (h : k < v.length) :
    aset v i x = ok (v.set k (some x)) := vset_of hi h

theorem aset_ge {v : List (Option α)} {i : ℤ} {x : α} (h : (v.length : ℤ) ≤ i) :
    aset v i x = ub := vset_ge h

@[simp] theorem uninit_length (n : ℕ) : (uninit α n).length = n := by simp [uninit]
end

section
variable {K : Type} [Field K] [DecidableEq K]
theorem fdiv_ok {a b : K} (h : b ≠ 0) : fdiv a b = ok (a / b) := by simp [fdiv, h]
@[simp] theorem fdiv_zero (a : K) : fdiv a 0 = nonfinite := by simp [fdiv]
variable {T : Type} [AddCommGroup T] [Module K T]
theorem vdiv_ok {a : T} {b : K} (h : b ≠ 0) : vdiv a b = ok (b⁻¹ • a) := by simp [vdiv, h]
@[simp] theorem vdiv_zero (a : T) : vdiv a (0 : K) = nonfinite := by simp [vdiv]
end

/-! ## Loops -/

section loops

variable {σ : Type}

/-- `n` rounds of a loop body with index running `lo, lo+1, …`. -/
def loopUp (body : ℤ → σ → Res σ) : ℕ → ℤ → σ → Res σ
  | 0, _, s => ok s
  | n + 1, i, s => body i s >>= fun s' => loopUp body n (i + 1) s'

/-- `for (int i = a; i < b; i++) s = body(i, s);` -/
def forI (a b : ℤ) (s : σ) (body : ℤ → σ → Res σ) : Res σ :=
  loopUp body (b - a).toNat a s

/-- `n` rounds of a loop body with index running `hi, hi-1, …`. -/
def loopDown (body : ℤ → σ → Res σ) : ℕ → ℤ → σ → Res σ
  | 0, _, s => ok s
  | n + 1, i, s => body i s >>= fun s' => loopDown body n (i - 1) s'

/-- `for (int i = a; i >= b; i--) s = body(i, s);` -/
def forDown (a b : ℤ) (s : σ) (body : ℤ → σ → Res σ) : Res σ :=
  loopDown body (a - b + 1).toNat a s

/-- `while (cond(s)) s = body(s);` with fuel; running out of fuel is `diverge`.
`cond` may itself fail (it reads arrays). -/
def whileF (cond : σ → Res Bool) (body : σ → Res σ) : ℕ → σ → Res σ
  | 0, s => cond s >>= fun c => if c then diverge else ok s
  | n + 1, s => cond s >>= fun c => if c then body s >>= fun s' => whileF cond body n s' else ok s

theorem loopUp_inv {body : ℤ → σ → Res σ} (Inv : ℤ → σ → Prop) :
    ∀ (n : ℕ) (a : ℤ) (s : σ), Inv a s →
      (∀ i s, a ≤ i → i < a + n → Inv i s → ∃ s', body i s = ok s' ∧ Inv (i + 1) s') →
      ∃ s', loopUp body n a s = ok s' ∧ Inv (a + n) s' := by
  intro n
  induction n with
  | zero => intro a s h _; exact ⟨s, rfl, by simpa using h⟩
  | succ n ih =>
    intro a s h step
    obtain ⟨s', h1, h2⟩ := step a s (le_refl _) (by omega) h
    obtain ⟨s'', h3, h4⟩ := ih (a + 1) s' h2 (by
      intro i t hi1 hi2 ht
      exact step i t (by omega) (by push_cast; omega) ht)
    refine ⟨s'', ?_, ?_⟩
    · simp only [loopUp, h1, ok_bind, h3]
    · have : a + 1 + (n : ℤ) = a + ((n + 1 : ℕ) : ℤ) := by push_cast; ring
      rwa [this] at h4

/-- Total-correctness rule for `for (int i = a; i < b; i++)`. -/
theorem forI_inv {a b : ℤ} {s : σ} {body : ℤ → σ → Res σ} (Inv : ℤ → σ → Prop)
    (hab : a ≤ b) (h0 : Inv a s)
    (step : ∀ i s, a ≤ i → i < b → Inv i s → ∃ s', body i s = ok s' ∧ Inv (i + 1) s') :
    ∃ s', forI a b s body = ok s' ∧ Inv b s' := by
  have := loopUp_inv (body := body) Inv (b - a).toNat a s h0 (by
    intro i t h1 h2 h3
    exact step i t h1 (by omega) h3)
  have hb : a + ((b - a).toNat : ℤ) = b := by omega
  rwa [hb] at this

/-- The same rule with natural number bounds. -/
theorem forI_invN {a b : ℕ} {s : σ} {body : ℤ → σ → Res σ} (Inv : ℕ → σ → Prop)
    (hab : a ≤ b) (h0 : Inv a s)
    (step : ∀ (i : ℕ) s, a ≤ i → i < b → Inv i s → ∃ s', body (i : ℤ) s = ok s' ∧ Inv (i + 1) s') :
    ∃ s', forI (a : ℤ) (b : ℤ) s body = ok s' ∧ Inv b s' := by
  have := forI_inv (a := (a : ℤ)) (b := (b : ℤ)) (s := s) (body := body)
    (fun i t => Inv i.toNat t) (by omega) (by simpa using h0) (by
      intro i t h1 h2 h3
      obtain ⟨k, rfl⟩ := Int.eq_ofNat_of_zero_le (show 0 ≤ i by omega)
      obtain ⟨t', h4, h5⟩ := step k t (by omega) (by omega) (by simpa using h3)
      refine ⟨t', h4, ?_⟩
      have : ((k : ℤ) + 1).toNat = k + 1 := by omega
      simpa [this] using h5)
  simpa using this

theorem forI_empty {a b : ℤ} {s : σ} {body : ℤ → σ → Res σ} (h : b ≤ a) :
    forI a b s body = ok s := by
  have : (b - a).toNat = 0 := by omega
  simp [forI, this, loopUp]

theorem forI_head {a b : ℤ} {s : σ} {body : ℤ → σ → Res σ} (h : a < b) :
    forI a b s body = body a s >>= fun s' => forI (a + 1) b s' body := by
  have : (b - a).toNat = (b - (a + 1)).toNat + 1 := by omega
  simp [forI, this, loopUp]

theorem loopDown_inv {body : ℤ → σ → Res σ} (Inv : ℤ → σ → Prop) :
    ∀ (n : ℕ) (a : ℤ) (s : σ), Inv a s →
      (∀ i s, i ≤ a → a - n < i → Inv i s → ∃ s', body i s = ok s' ∧ Inv (i - 1) s') →
      ∃ s', loopDown body n a s = ok s' ∧ Inv (a - n) s' := by
  intro n
  induction n with
  | zero => intro a s h _; exact ⟨s, rfl, by simpa using h⟩
  | succ n ih =>
    intro a s h step
    obtain ⟨s', h1, h2⟩ := step a s (le_refl _) (by omega) h
    obtain ⟨s'', h3, h4⟩ := ih (a - 1) s' h2 (by
      intro i t hi1 hi2 ht
      exact step i t (by omega) (by push_cast; omega) ht)
    refine ⟨s'', ?_, ?_⟩
    · simp only [loopDown, h1, ok_bind, h3]
    · have : a - 1 - (n : ℤ) = a - ((n + 1 : ℕ) : ℤ) := by push_cast; ring
      rwa [this] at h4

/-- Total-correctness rule for `for (int i = a; i >= b; i--)`. -/
theorem forDown_inv {a b : ℤ} {s : σ} {body : ℤ → σ → Res σ} (Inv : ℤ → σ → Prop)
    (hab : b ≤ a + 1) (h0 : Inv a s)
    (step : ∀ i s, b ≤ i → i ≤ a → Inv i s → ∃ s', body i s = ok s' ∧ Inv (i - 1) s') :
    ∃ s', forDown a b s body = ok s' ∧ Inv (b - 1) s' := by
  have := loopDown_inv (body := body) Inv (a - b + 1).toNat a s h0 (by
    intro i t h1 h2 h3
    exact step i t (by omega) (by omega) h3)
  have hb : a - ((a - b + 1).toNat : ℤ) = b - 1 := by omega
  rwa [hb] at this

theorem forDown_empty {a b : ℤ} {s : σ} {body : ℤ → σ → Res σ} (h : a < b) :
    forDown a b s body = ok s := by
  have : (a - b + 1).toNat = 0 := by omega
  simp [forDown, this, loopDown]

end loops

end LNLib
