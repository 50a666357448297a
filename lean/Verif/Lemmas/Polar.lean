import Verif.Lemmas.Blossom
import Mathlib.Data.Multiset.Replicate
import Mathlib.Data.Multiset.Powerset
import Mathlib.Algebra.BigOperators.Group.Multiset.Basic
import Mathlib.Data.Nat.Choose.Sum

/-!
# Polar forms on multisets, and degree elevation of polar forms
-/
set_option linter.unusedSectionVars false

namespace LNLib
open Res Spec Finset

variable {K : Type} [Field K] [LinearOrder K] [IsStrictOrderedRing K]
variable {T : Type} [AddCommGroup T] [Module K T]

/-- `f`, as a function of `p` unordered arguments, is affine in each of them -/
def Polar (p : ℕ) (f : Multiset K → T) : Prop :=
  ∀ (a b x y : K) (m : Multiset K), a + b = 1 → m.card + 1 = p →
    f ((a * x + b * y) ::ₘ m) = a • f (x ::ₘ m) + b • f (y ::ₘ m)

theorem Polar.mix {p : ℕ} {f : Multiset K → T} (h : Polar p f) {x y z : K} {m : Multiset K} (hm : m.card + 1 = p) (hxy : y ≠ x) :
    f (z ::ₘ m) = ((z - x) / (y - x)) • f (y ::ₘ m) + (1 - (z - x) / (y - x)) • f (x ::ₘ m) := by
  have hd : y - x ≠ 0 := sub_ne_zero.mpr hxy
  rw [← h _ _ y x m (by ring) hm]
  congr 2
  field_simp
  ring

/-- consecutive knots as a multiset -/
def kms (U : ℕ → K) (a k : ℕ) : Multiset K := (kn U a k : Multiset K)

@[simp] theorem kms_card (U : ℕ → K) (a k : ℕ) : (kms U a k).card = k := by simp [kms]

theorem kms_add (U : ℕ → K) (a k l : ℕ) : kms U a (k + l) = kms U a k + kms U (a + k) l := by
  simp [kms, kn_add]

theorem kms_const {U : ℕ → K} {x : K} {k a : ℕ} (h : ∀ i < k, U (a + i) = x) : kms U a k = Multiset.replicate k x := by
  rw [kms, kn_const k a h, Multiset.coe_replicate]

theorem kms_congr {U V : ℕ → K} {k a b : ℕ} (h : ∀ i < k, U (a + i) = V (b + i)) : kms U a k = kms V b k := by
  rw [kms, kn_congr k a b h, kms]

theorem kms_succ (U : ℕ → K) (a k : ℕ) : kms U a (k + 1) = U (a + k) ::ₘ kms U a k := by
  rw [kms, kn_snoc, ← Multiset.coe_add, add_comm]; rfl

theorem kms_cons (U : ℕ → K) (a k : ℕ) : kms U a (k + 1) = U a ::ₘ kms U (a + 1) k := by
  simp [kms, kn]

@[simp] theorem kms_zero (U : ℕ → K) (a : ℕ) : kms U a 0 = 0 := rfl

/-- the polar form of the degree `p` B-spline piece over the span `s` -/
noncomputable def pol (U : ℕ → K) (p : ℕ) (P : ℕ → T) (s : ℕ) (m : Multiset K) : T := E U p P m.toList (s - p)

section
variable {U : ℕ → K} {p s : ℕ} {P : ℕ → T}

theorem pol_coe (h : Piece U p s) {xs : List K} (hx : xs.length = p) : pol U p P s (xs : Multiset K) = E U p P xs (s - p) := by
  have hle := h.le
  apply E_perm h _ (by omega) (by simp; omega)
  exact Multiset.coe_eq_coe.mp (Multiset.coe_toList _)

theorem pol_cons (h : Piece U p s) {x : K} {m : Multiset K} (hm : m.card + 1 = p) :
    pol U p P s (x ::ₘ m) = E U p P (x :: m.toList) (s - p) := by
  have : (x ::ₘ m) = ((x :: m.toList : List K) : Multiset K) := by simp [← Multiset.cons_coe]
  rw [this, pol_coe h (by simpa using hm)]

theorem pol_polar (h : Piece U p s) : Polar p (pol U p P s) := by
  intro a b x y m hab hm
  have hle := h.le
  rw [pol_cons h hm, pol_cons h hm, pol_cons h hm]
  exact E_affine h hab (by omega) (by simp; omega)

theorem pol_kms (h : Piece U p s) {j : ℕ} (h1 : s ≤ j + p) (h2 : j ≤ s) : pol U p P s (kms U (j + 1) p) = P j := by
  have := E_full (P := P) h p [] j (by simp) h1 (by simpa using h2)
  rw [kms, pol_coe h (by simp)]
  simpa [E] using this.symm

theorem E_rights (h : Piece U p s) {x : K} : ∀ (μ : ℕ) (xs : List K) (j : ℕ), s ≤ j + p → j + xs.length + μ ≤ s →
    (∀ i < μ, U (j + p + 1 + i) = x) → E U p P (List.replicate μ x ++ xs) j = E U p P xs (j + μ) := by
  intro μ
  induction μ with
  | zero => intro xs j _ _ _; rfl
  | succ μ ih =>
    intro xs j h1 h2 hx
    have e : List.replicate (μ + 1) x = x :: List.replicate μ x := rfl
    rw [e, List.cons_append]
    have hx0 := hx 0 (by omega)
    rw [add_zero] at hx0
    rw [← hx0, E_right h h1 (by simp; omega), hx0, ih xs (j + 1) (by omega) (by omega)]
    · congr 1; omega
    · intro i hi
      have := hx (i + 1) (by omega)
      rw [← this]; congr 1; omega

theorem E_lefts (h : Piece U p s) {x : K} : ∀ (μ : ℕ) (xs : List K) (j : ℕ), s ≤ j + p → j + xs.length + μ ≤ s →
    (∀ i < μ, U (j + xs.length + 1 + i) = x) → E U p P (List.replicate μ x ++ xs) j = E U p P xs j := by
  intro μ
  induction μ with
  | zero => intro xs j _ _ _; rfl
  | succ μ ih =>
    intro xs j h1 h2 hx
    have e : List.replicate (μ + 1) x = x :: List.replicate μ x := rfl
    rw [e, List.cons_append]
    have hx0 := hx μ (by omega)
    have e2 : j + xs.length + 1 + μ = j + (List.replicate μ x ++ xs).length + 1 := by simp; omega
    rw [e2] at hx0
    have : E U p P (x :: (List.replicate μ x ++ xs)) j
        = E U p P (U (j + (List.replicate μ x ++ xs).length + 1) :: (List.replicate μ x ++ xs)) j := by rw [hx0]
    rw [this, E_left h h1 (by simp; omega), ih xs j h1 (by omega) (fun i hi => hx i (by omega))]

/-- Pieces on the two sides of a knot of multiplicity `μ` have the same polar form values as soon as
`μ` arguments are equal to that knot. -/
theorem pol_cross {μ s' : ℕ} {x : K} (h : Piece U p s) (h' : Piece U p s') (hs : s' = s + μ) (hx : ∀ i < μ, U (s + 1 + i) = x)
    {m : Multiset K} (hm : m.card + μ = p) :
    pol U p P s (Multiset.replicate μ x + m) = pol U p P s' (Multiset.replicate μ x + m) := by
  have e : Multiset.replicate μ x + m = ((List.replicate μ x ++ m.toList : List K) : Multiset K) := by
    rw [← Multiset.coe_add, Multiset.coe_replicate, Multiset.coe_toList]
  have hle := h.le
  rw [e, pol_coe h (by simp; omega), pol_coe h' (by simp; omega)]
  rw [E_rights h μ _ _ (by omega) (by simp; omega), E_lefts h' μ _ _ (by omega) (by simp; omega)]
  · congr 1; omega
  · intro i hi
    rw [← hx i hi]; congr 1; simp; omega
  · intro i hi
    rw [← hx i hi]; congr 1; omega

theorem pol_cross' {μ s' : ℕ} {x : K} (h : Piece U p s) (h' : Piece U p s') (hs : s' = s + μ) (hx : ∀ i < μ, U (s + 1 + i) = x)
    {m : Multiset K} (hm : m.card = p) (hc : μ ≤ m.count x) : pol U p P s m = pol U p P s' m := by
  have hle : Multiset.replicate μ x ≤ m := Multiset.le_count_iff_replicate_le.mp hc
  obtain ⟨r, rfl⟩ := Multiset.le_iff_exists_add.mp hle
  rw [Multiset.card_add, Multiset.card_replicate] at hm
  exact pol_cross h h' hs hx (by omega)

/-- the polar form on the diagonal is the curve piece -/
theorem pol_diag (h : Piece U p s) (t : K) :
    ∑ r ∈ range (p + 1), Nspan U s p (s - p + r) t • P (s - p + r) = pol U p P s (Multiset.replicate p t) := by
  rw [E_eval h, ← Multiset.coe_replicate, pol_coe h (by simp)]

/-- A polygon whose points are the values of a polar form at its own knots has this polar form. -/
theorem pol_unique {V : ℕ → K} {q s' : ℕ} {Q : ℕ → T} (h : Piece V q s') {f : Multiset K → T} (hf : Polar q f)
    (hQ : ∀ j, s' ≤ j + q → j ≤ s' → Q j = f (kms V (j + 1) q)) {m : Multiset K} (hm : m.card = q) : pol V q Q s' m = f m := by
  have hle := h.le
  have := E_unique (V := V) (Q := Q) h (F := fun xs => f (xs : Multiset K))
    (fun xs ys _ hp => by rw [Multiset.coe_eq_coe.mpr hp])
    (fun a b x y xs hab hx => by
      rw [← Multiset.cons_coe, ← Multiset.cons_coe, ← Multiset.cons_coe]
      exact hf a b x y _ hab (by simpa using hx)) hQ m.toList 0 (s' - q)
    (by simp; omega) (by omega) (by simp; omega)
  simpa [pol, kn] using this

end

/-! ## degree elevation -/

/-- the polar form of the same polynomial, regarded as one of degree `m.card ≥ p` -/
noncomputable def elev (p : ℕ) (f : Multiset K → T) (m : Multiset K) : T :=
  ((m.card.choose p : ℕ) : K)⁻¹ • ((m.powersetCard p).map f).sum

theorem elev_polar {p q : ℕ} {f : Multiset K → T} (hf : Polar p f) (hpq : p ≤ q) : Polar q (elev p f) := by
  intro a b x y m hab hm
  unfold elev
  simp only [Multiset.card_cons, hm]
  cases p with
  | zero =>
    simp only [Multiset.powersetCard_zero_left, Multiset.map_singleton, Multiset.sum_singleton, Nat.choose_zero_right]
    rw [← add_smul, hab, one_smul]
  | succ p =>
    simp only [Multiset.powersetCard_cons, Multiset.map_add, Multiset.sum_add, Multiset.map_map, Function.comp_def]
    have : ((m.powersetCard p).map (fun z => f ((a * x + b * y) ::ₘ z))).sum
        = a • ((m.powersetCard p).map (fun z => f (x ::ₘ z))).sum + b • ((m.powersetCard p).map (fun z => f (y ::ₘ z))).sum := by
      rw [Multiset.smul_sum, Multiset.smul_sum, Multiset.map_map, Multiset.map_map, ← Multiset.sum_map_add]
      congr 1
      apply Multiset.map_congr rfl
      intro z hz
      have := (Multiset.mem_powersetCard.mp hz).2
      exact hf a b x y z hab (by omega)
    rw [this]
    obtain rfl : b = 1 - a := by rw [← hab]; ring
    module

/-- counting the sub-multisets of a multiset with two different kinds of elements -/
theorem sum_powersetCard_two {a b : K} {f : Multiset K → T} : ∀ (B A p : ℕ),
    (((Multiset.replicate A a + Multiset.replicate B b).powersetCard p).map f).sum
      = ∑ j ∈ range (p + 1), ((B.choose j * A.choose (p - j) : ℕ) : K) • f (Multiset.replicate (p - j) a + Multiset.replicate j b) := by
  intro B
  induction B generalizing f with
  | zero =>
    intro A p
    induction A generalizing p f with
    | zero =>
      rw [Finset.sum_eq_single 0]
      · cases p with
        | zero => simp
        | succ p => rw [Multiset.powersetCard_eq_empty _ (by simp)]; simp
      · intro j _ hj
        obtain ⟨k, rfl⟩ : ∃ k, j = k + 1 := ⟨j - 1, by omega⟩
        simp
      · intro h; simp at h
    | succ A ih =>
      have ih' : ∀ (f : Multiset K → T) (p : ℕ), (((Multiset.replicate A a).powersetCard p).map f).sum
          = ((A.choose p : ℕ) : K) • f (Multiset.replicate p a) := by
        intro f p
        have := ih (f := f) p
        rw [Multiset.replicate_zero, add_zero] at this
        rw [this, Finset.sum_eq_single 0]
        · simp
        · intro j _ hj
          obtain ⟨k, rfl⟩ : ∃ k, j = k + 1 := ⟨j - 1, by omega⟩
          simp
        · intro h; simp at h
      rw [Multiset.replicate_zero, add_zero, Finset.sum_eq_single 0]
      · cases p with
        | zero => simp
        | succ p =>
          rw [Multiset.replicate_succ, Multiset.powersetCard_cons, Multiset.map_add, Multiset.sum_add, Multiset.map_map, ih',
            show (f ∘ Multiset.cons a) = (fun z => f (a ::ₘ z)) from rfl, ih' (fun z => f (a ::ₘ z))]
          simp only [Nat.choose_zero_right, Nat.sub_zero, one_mul, Multiset.replicate_zero, add_zero, ← Multiset.replicate_succ]
          rw [← add_smul, ← Nat.cast_add, add_comm (A.choose (p + 1)), ← Nat.choose_succ_succ]
      · intro j _ hj
        obtain ⟨k, rfl⟩ : ∃ k, j = k + 1 := ⟨j - 1, by omega⟩
        simp
      · intro h; simp at h
  | succ B ih =>
    intro A p
    have e : Multiset.replicate A a + Multiset.replicate (B + 1) b = b ::ₘ (Multiset.replicate A a + Multiset.replicate B b) := by
      rw [Multiset.replicate_succ, Multiset.add_cons]
    rw [e]
    cases p with
    | zero => simp
    | succ p =>
      rw [Multiset.powersetCard_cons, Multiset.map_add, Multiset.sum_add, Multiset.map_map, ih A (p + 1),
        show (f ∘ Multiset.cons b) = (fun z => f (b ::ₘ z)) from rfl, ih (f := fun z => f (b ::ₘ z)) A p]
      rw [Finset.sum_range_succ' _ (p + 1), Finset.sum_range_succ' _ (p + 1)]
      have h1 : ∀ j, b ::ₘ (Multiset.replicate (p - j) a + Multiset.replicate j b)
          = Multiset.replicate (p - j) a + Multiset.replicate (j + 1) b := by
        intro j; rw [Multiset.replicate_succ, Multiset.add_cons]
      simp only [h1, Nat.choose_zero_right, Nat.add_sub_add_right, Nat.choose_succ_succ (n := B)]
      rw [add_right_comm, ← Finset.sum_add_distrib]
      congr 1
      apply Finset.sum_congr rfl
      intro j _
      rw [← add_smul, ← Nat.cast_add]
      congr 2
      simp only [Nat.succ_eq_add_one]
      ring

theorem elev_diag {p q : ℕ} {f : Multiset K → T} (hpq : p ≤ q) (t : K) :
    elev p f (Multiset.replicate q t) = f (Multiset.replicate p t) := by
  unfold elev
  have := sum_powersetCard_two (a := t) (b := t) (f := f) 0 q p
  rw [Multiset.replicate_zero, add_zero] at this
  rw [this, Finset.sum_eq_single 0]
  · simp only [Multiset.card_replicate, Nat.choose_zero_right, one_mul, Nat.sub_zero, Multiset.replicate_zero, add_zero]
    rw [smul_smul, inv_mul_cancel₀, one_smul]
    exact_mod_cast (Nat.choose_pos hpq).ne'
  · intro j _ hj
    obtain ⟨k, rfl⟩ : ∃ k, j = k + 1 := ⟨j - 1, by omega⟩
    simp
  · intro h; simp at h

theorem choose_exchange {p t i j : ℕ} (hi : i ≤ p + t) (hj : j ≤ p) (hj' : j ≤ i) (hij : i ≤ j + t) :
    (p + t).choose i * (i.choose j * (p + t - i).choose (p - j)) = (p + t).choose p * (p.choose j * t.choose (i - j)) := by
  obtain ⟨k, rfl⟩ : ∃ k, i = j + k := ⟨i - j, by omega⟩
  obtain ⟨q, rfl⟩ : ∃ q, p = j + q := ⟨p - j, by omega⟩
  obtain ⟨l, rfl⟩ : ∃ l, t = k + l := ⟨t - k, by omega⟩
  have e1 : j + q + (k + l) - (j + k) = q + l := by omega
  have e2 : j + q - j = q := by omega
  have e3 : j + k - j = k := by omega
  rw [e1, e2, e3]
  have sy : ∀ a b : ℕ, (a + b).choose a * a.factorial * b.factorial = (a + b).factorial := by
    intro a b
    rw [Nat.choose_symm_add]
    exact Nat.add_choose_mul_factorial_mul_factorial a b
  have c1 := sy (j + k) (q + l)
  have c2 := sy j k
  have c3 := sy q l
  have c4 := sy (j + q) (k + l)
  have c5 := sy j q
  have c6 := sy k l
  have e4 : j + q + (k + l) = j + k + (q + l) := by omega
  rw [e4] at c4 ⊢
  have pos : 0 < j.factorial * k.factorial * q.factorial * l.factorial := by
    have := Nat.factorial_pos j
    have := Nat.factorial_pos k
    have := Nat.factorial_pos q
    have := Nat.factorial_pos l
    positivity
  apply Nat.eq_of_mul_eq_mul_right pos
  calc _ = (j + k + (q + l)).choose (j + k) * ((j + k).choose j * j.factorial * k.factorial) * ((q + l).choose q * q.factorial * l.factorial) := by ring
    _ = (j + k + (q + l)).choose (j + q) * ((j + q).choose j * j.factorial * q.factorial) * ((k + l).choose k * k.factorial * l.factorial) := by
      rw [c2, c3, c5, c6, c1, c4]
    _ = _ := by ring

/-- the coefficient that the degree elevation of Bézier points uses -/
noncomputable def elevCoeff (K : Type) [Field K] (p t i j : ℕ) : K :=
  if j ≤ i ∧ i ≤ j + t then ((p.choose j : ℕ) : K) * ((t.choose (i - j) : ℕ) : K) / (((p + t).choose i : ℕ) : K) else 0

theorem elev_bezier {p t i : ℕ} {f : Multiset K → T} (hi : i ≤ p + t) (a b : K) :
    elev p f (Multiset.replicate (p + t - i) a + Multiset.replicate i b)
      = ∑ j ∈ range (p + 1), elevCoeff K p t i j • f (Multiset.replicate (p - j) a + Multiset.replicate j b) := by
  unfold elev
  rw [sum_powersetCard_two, Finset.smul_sum]
  apply Finset.sum_congr rfl
  intro j hj
  simp only [mem_range] at hj
  rw [smul_smul]
  congr 1
  have hcard : (Multiset.replicate (p + t - i) a + Multiset.replicate i b).card = p + t := by simp; omega
  rw [hcard]
  unfold elevCoeff
  have h1 : (((p + t).choose p : ℕ) : K) ≠ 0 := by exact_mod_cast (Nat.choose_pos (by omega)).ne'
  have h2 : (((p + t).choose i : ℕ) : K) ≠ 0 := by exact_mod_cast (Nat.choose_pos hi).ne'
  split
  · rename_i h
    have := choose_exchange (p := p) (t := t) hi (by omega) h.1 h.2
    have : (((p + t).choose i : ℕ) : K) * ((i.choose j * (p + t - i).choose (p - j) : ℕ) : K)
        = (((p + t).choose p : ℕ) : K) * (((p.choose j : ℕ) : K) * ((t.choose (i - j) : ℕ) : K)) := by
      rw [← Nat.cast_mul, this]; push_cast; ring
    field_simp
    rw [mul_comm, this]; ring
  · rename_i h
    by_cases hji : j ≤ i
    · rw [Nat.choose_eq_zero_of_lt (show p + t - i < p - j by omega)]; simp
    · rw [Nat.choose_eq_zero_of_lt (show i < j by omega)]; simp

/-- elevated polar forms agree where enough arguments are equal to a common knot -/
theorem elev_agree {p t μ : ℕ} {f g : Multiset K → T} {x : K}
    (h : ∀ m : Multiset K, m.card = p → μ ≤ m.count x → f m = g m) {m : Multiset K} (hm : m.card = p + t) (hc : μ + t ≤ m.count x) :
    elev p f m = elev p g m := by
  unfold elev
  congr 2
  apply Multiset.map_congr rfl
  intro z hz
  obtain ⟨h1, h2⟩ := Multiset.mem_powersetCard.mp hz
  apply h z h2
  obtain ⟨r, rfl⟩ := Multiset.le_iff_exists_add.mp h1
  rw [Multiset.card_add] at hm
  rw [Multiset.count_add] at hc
  have := Multiset.count_le_card x r
  omega

end LNLib
