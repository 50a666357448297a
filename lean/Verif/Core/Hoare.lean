import Verif.Core.Vec

/-!
# Total-correctness rules for the model monad

`Runs x Q`: the run `x` returns normally with a value satisfying `Q`.
-/

namespace LNLib
open Res

variable {α β σ : Type}

/-- `x` returns normally and its value satisfies `Q` -/
def Runs (x : Res α) (Q : α → Prop) : Prop := ∃ a, x = ok a ∧ Q a

theorem Runs.ok {a : α} {Q : α → Prop} (h : Q a) : Runs (ok a) Q := ⟨a, rfl, h⟩

theorem Runs.bind {x : Res α} {f : α → Res β} {Q : α → Prop} {R : β → Prop} (hx : Runs x Q)
    (hf : ∀ a, Q a → Runs (f a) R) : Runs (x >>= f) R := by
  obtain ⟨a, rfl, ha⟩ := hx
  exact hf a ha

theorem Runs.bind_eq {x : Res α} {f : α → Res β} {a : α} {R : β → Prop} (hx : x = Res.ok a)
    (hf : Runs (f a) R) : Runs (x >>= f) R := by
  subst hx; exact hf

theorem Runs.mono {x : Res α} {Q R : α → Prop} (hx : Runs x Q) (h : ∀ a, Q a → R a) : Runs x R := by
  obtain ⟨a, rfl, ha⟩ := hx
  exact ⟨a, rfl, h a ha⟩

theorem Runs.eq {x : Res α} {a : α} (h : Runs x (fun b => b = a)) : x = Res.ok a := by
  obtain ⟨b, rfl, rfl⟩ := h; rfl

theorem Runs.of_eq {x : Res α} {a : α} {Q : α → Prop} (h : x = Res.ok a) (hq : Q a) : Runs x Q := ⟨a, h, hq⟩

theorem Runs.forI {a b : ℤ} {s : σ} {body : ℤ → σ → Res σ} (Inv : ℤ → σ → Prop)
    (hab : a ≤ b) (h0 : Inv a s) (step : ∀ i s, a ≤ i → i < b → Inv i s → Runs (body i s) (Inv (i + 1))) :
    Runs (forI a b s body) (Inv b) := forI_inv Inv hab h0 step

theorem Runs.forDown {a b : ℤ} {s : σ} {body : ℤ → σ → Res σ} (Inv : ℤ → σ → Prop)
    (hab : b ≤ a + 1) (h0 : Inv a s) (step : ∀ i s, b ≤ i → i ≤ a → Inv i s → Runs (body i s) (Inv (i - 1))) :
    Runs (forDown a b s body) (Inv (b - 1)) := forDown_inv Inv hab h0 step

/-- loops with natural number bounds -/
theorem Runs.forN {a b : ℤ} {m n : ℕ} {s : σ} {body : ℤ → σ → Res σ} (Inv : ℕ → σ → Prop) (ha : a = m) (hb : b = n)
    (hab : m ≤ n) (h0 : Inv m s) (step : ∀ (i : ℕ) s, m ≤ i → i < n → Inv i s → Runs (body (i : ℤ) s) (Inv (i + 1))) :
    Runs (LNLib.forI a b s body) (Inv n) := by
  subst ha hb
  exact forI_invN Inv hab h0 step

/-- `for (int i = a; i < b; i++) arr[i + e] = f(i);` -/
theorem Runs.fill [Zero α] {a b e : ℤ} {arr : List α} {rd : ℤ → Res α} {f : ℕ → α} {dst : ℤ → ℤ}
    (hd : ∀ i, dst i = i + e) (h0 : 0 ≤ a + e) (hb : b + e ≤ arr.length) (hab : a ≤ b)
    (hrd : ∀ i, a ≤ i → i < b → rd i = Res.ok (f (i + e).toNat)) :
    Runs (LNLib.forI a b arr fun i arr => rd i >>= fun x => vset arr (dst i) x)
      (fun r => r.length = arr.length ∧
        ∀ m : ℕ, nth r m = if a + e ≤ (m : ℤ) ∧ (m : ℤ) < b + e then f m else nth arr m) := by
  refine Runs.forI (fun j r => r.length = arr.length ∧
        ∀ m : ℕ, nth r m = if a + e ≤ (m : ℤ) ∧ (m : ℤ) < j + e then f m else nth arr m) hab ?_ ?_
  · refine ⟨rfl, ?_⟩
    intro m
    rw [if_neg (by omega)]
  · rintro i r h1 h2 ⟨hl, hr⟩
    rw [hrd i h1 h2, ok_bind, hd i, vset_of (k := (i + e).toNat) (by omega) (by omega)]
    refine Runs.ok ⟨by simp [hl], ?_⟩
    intro m
    rw [nth_set (by omega)]
    by_cases hm : m = (i + e).toNat
    · subst hm
      rw [if_pos rfl, if_pos (by omega)]
    · rw [if_neg hm, hr m]
      by_cases hc : a + e ≤ (m : ℤ) ∧ (m : ℤ) < i + e
      · rw [if_pos hc, if_pos (by omega)]
      · rw [if_neg hc, if_neg (by omega)]

end LNLib

namespace LNLib
open Res
variable {α σ : Type}

/-- Total-correctness rule for `while`. -/
theorem Runs.whileF {cond : σ → Res Bool} {body : σ → Res σ} {Inv Post : σ → Prop} (μ : σ → ℕ)
    (step : ∀ s, Inv s → (cond s = Res.ok false ∧ Post s) ∨
      (cond s = Res.ok true ∧ Runs (body s) (fun s' => Inv s' ∧ μ s' < μ s))) :
    ∀ (fuel : ℕ) (s : σ), Inv s → μ s ≤ fuel → Runs (whileF cond body fuel s) Post := by
  intro fuel
  induction fuel with
  | zero =>
    intro s hs hμ
    rcases step s hs with ⟨h1, h2⟩ | ⟨_, s', _, _, h3⟩
    · simp only [LNLib.whileF, h1, ok_bind, Bool.false_eq_true, if_false]
      exact Runs.ok h2
    · omega
  | succ n ih =>
    intro s hs hμ
    rcases step s hs with ⟨h1, h2⟩ | ⟨h1, s', h4, h5, h3⟩
    · simp only [LNLib.whileF, h1, ok_bind, Bool.false_eq_true, if_false]
      exact Runs.ok h2
    · simp only [LNLib.whileF, h1, ok_bind, if_true, h4]
      exact ih s' h5 (by omega)


/-- `for (int i = a; i >= b; i--) arr[i] = f(i);` -/
theorem Runs.fillDown [Zero α] {a : ℤ} {arr : List α} {rd : ℤ → Res α} {f : ℕ → α}
    (hb : a < arr.length) (ha : -1 ≤ a)
    (hrd : ∀ i, 0 ≤ i → i ≤ a → rd i = Res.ok (f i.toNat)) :
    Runs (LNLib.forDown a 0 arr fun i arr => rd i >>= fun x => vset arr i x)
      (fun r => r.length = arr.length ∧ ∀ m : ℕ, nth r m = if (m : ℤ) ≤ a then f m else nth arr m) := by
  refine (Runs.forDown (fun j r => r.length = arr.length ∧
        ∀ m : ℕ, nth r m = if j < (m : ℤ) ∧ (m : ℤ) ≤ a then f m else nth arr m) (by omega) ?_ ?_).mono ?_
  · refine ⟨rfl, ?_⟩
    intro m
    rw [if_neg (by omega)]
  · rintro i r h1 h2 ⟨hl, hr⟩
    rw [hrd i h1 h2, ok_bind, vset_of (k := i.toNat) (by omega) (by omega)]
    refine Runs.ok ⟨by simp [hl], ?_⟩
    intro m
    rw [nth_set (by omega)]
    by_cases hm : m = i.toNat
    · subst hm
      rw [if_pos rfl, if_pos (by omega)]
    · rw [if_neg hm, hr m]
      by_cases hc : i < (m : ℤ) ∧ (m : ℤ) ≤ a
      · rw [if_pos hc, if_pos (by omega)]
      · rw [if_neg hc, if_neg (by omega)]
  · rintro r ⟨h1, h2⟩
    refine ⟨h1, fun m => ?_⟩
    rw [h2 m]
    by_cases hc : (m : ℤ) ≤ a
    · rw [if_pos hc, if_pos (by omega)]
    · rw [if_neg hc, if_neg (by omega)]

end LNLib
