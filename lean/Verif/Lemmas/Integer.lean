import Verif.Model.Ops
import Verif.Lemmas.Splitter
/-!
# Lemmas about integers: literals and bounds
-/

set_option linter.unusedVariables false
set_option linter.unusedSimpArgs false

namespace Prexel.SInt
variable {w : Width}

theorem of?_eq_some {x : Int} {y : SInt w} : (of? x : Option (SInt w)) = some y ↔ y.1 = x := by
  unfold of?
  split
  · rename_i h
    constructor
    · intro h'; cases h'; rfl
    · intro h'; congr 1; exact Subtype.ext h'.symm
  · rename_i h
    constructor
    · intro h'; cases h'
    · intro h'; exact absurd (h' ▸ y.2) h

theorem of?_eq_none {x : Int} : (of? x : Option (SInt w)) = none ↔ ¬ w.Fits x := by
  unfold of?
  split <;> simp_all

theorem of?_fits {x : Int} (h : w.Fits x) : (of? x : Option (SInt w)) = some ⟨x, h⟩ := of?_eq_some.mpr rfl

theorem lo_lt_zero (w : Width) : w.lo < 0 := by
  have := two_le w
  simp only [Width.lo]; omega
theorem hi_pos (w : Width) : 1 ≤ w.hi := by
  have := two_le w
  simp only [Width.hi]; omega
theorem hi_eq (w : Width) : w.hi = -w.lo - 1 := by simp only [Width.hi, Width.lo]; omega

/-- A quotient fits unless the smallest number is divided by -1. -/
theorem tdiv_fits (x y : SInt w) (h : ¬ (x.1 = w.lo ∧ y.1 = -1)) (hy : y.1 ≠ 0) : w.Fits (x.1.tdiv y.1) := by
  obtain ⟨x, hx⟩ := x
  obtain ⟨y, hy'⟩ := y
  simp only at h hy ⊢
  have hh := hi_eq w
  have h0 := lo_lt_zero w
  have habs : (x.tdiv y).natAbs ≤ x.natAbs := by
    rw [Int.natAbs_tdiv]
    exact Nat.div_le_self _ _
  obtain ⟨h1, h2⟩ := hx
  by_cases hx : x = w.lo
  · have hy1 : y ≠ -1 := fun e => h ⟨hx, e⟩
    by_cases hy2 : y = 1
    · subst hy2; rw [Int.tdiv_one]; exact ⟨h1, h2⟩
    · have : (x.tdiv y).natAbs ≤ x.natAbs / 2 := by
        rw [Int.natAbs_tdiv]
        exact Nat.div_le_div_left (by omega) (by omega)
      constructor <;> omega
  · constructor <;> omega

theorem tmod_fits (x y : SInt w) : w.Fits (x.1.tmod y.1) := by
  obtain ⟨x, h1, h2⟩ := x
  simp only
  have hh := hi_eq w
  have h0 := lo_lt_zero w
  have habs : (x.tmod y.1).natAbs ≤ x.natAbs := by
    rw [Int.natAbs_tmod]
    exact Nat.mod_le _ _
  by_cases hx : x = w.lo
  · have : x.tmod y.1 ≤ 0 := by
      have := Int.tmod_nonneg y.1 (show (0 : Int) ≤ -x by omega)
      rw [Int.neg_tmod] at this
      omega
    constructor <;> omega
  · constructor <;> omega

/-! ## Literals -/

theorem digit_digitChar {radix n : Nat} (hr : radix ≤ 10) (h : n < radix) : digit radix n.digitChar = some n := by
  have h10 : n < 10 := by omega
  have : n.digitChar.toNat = 48 + n := by
    match n, h10 with
    | 0, _ => decide
    | 1, _ => decide
    | 2, _ => decide
    | 3, _ => decide
    | 4, _ => decide
    | 5, _ => decide
    | 6, _ => decide
    | 7, _ => decide
    | 8, _ => decide
    | 9, _ => decide
  unfold digit
  rw [this, if_pos ⟨by omega, by omega⟩]
  congr 1
  omega

theorem digits_append (radix : Nat) (a b : Str) (acc : Nat) :
    digits radix acc (a ++ b) = (digits radix acc a).bind fun n => digits radix n b := by
  induction a generalizing acc with
  | nil => rfl
  | cons c a ih =>
    simp only [List.cons_append, digits]
    cases digit radix c with
    | none => rfl
    | some d => exact ih _

/-- Reading back a number that was written without leading zeros. -/
theorem digits_toDigits {radix : Nat} (h1 : 1 < radix) (h10 : radix ≤ 10) (n : Nat) : digits radix 0 (Nat.toDigits radix n) = some n := by
  induction n using Nat.strongRecOn with
  | ind n ih =>
    rw [Nat.toDigits_eq_if h1]
    split
    · rename_i h
      simp [digits, digit_digitChar h10 h]
    · rename_i h
      have hlt : n / radix < n := Nat.div_lt_self (by omega) h1
      rw [digits_append, ih _ hlt]
      simp only [Option.bind_some, digits, digit_digitChar h10 (Nat.mod_lt n (by omega : radix > 0))]
      rw [Nat.mul_comm, Nat.div_add_mod]

theorem digitChar_isDigit {n : Nat} (h : n < 10) : isDigit n.digitChar = true := by
  match n, h with
  | 0, _ => decide
  | 1, _ => decide
  | 2, _ => decide
  | 3, _ => decide
  | 4, _ => decide
  | 5, _ => decide
  | 6, _ => decide
  | 7, _ => decide
  | 8, _ => decide
  | 9, _ => decide

theorem toDigits_isDigit {radix : Nat} (h1 : 1 < radix) (h10 : radix ≤ 10) (n : Nat) : ∀ c ∈ Nat.toDigits radix n, isDigit c = true := by
  induction n using Nat.strongRecOn with
  | ind n ih =>
    rw [Nat.toDigits_eq_if h1]
    split
    · rename_i h
      intro c hc
      rw [List.mem_singleton] at hc
      subst hc
      exact digitChar_isDigit (by omega)
    · rename_i h
      intro c hc
      rw [List.mem_append, List.mem_singleton] at hc
      rcases hc with hc | rfl
      · exact ih _ (Nat.div_lt_self (by omega) h1) c hc
      · exact digitChar_isDigit (by have := Nat.mod_lt n (by omega : radix > 0); omega)

theorem fromStrRadix_toDigits {radix : Nat} (h1 : 1 < radix) (h10 : radix ≤ 10) (n : Nat) :
    fromStrRadix w radix (Nat.toDigits radix n) = of? n := by
  have hd := toDigits_isDigit h1 h10 n
  have hn : Nat.toDigits radix n ≠ [] := Nat.toDigits_ne_nil
  have : fromStrRadix w radix (Nat.toDigits radix n) = signed w radix false (Nat.toDigits radix n) := by
    unfold fromStrRadix
    split
    · rename_i s heq
      have := hd '+' (by rw [heq]; simp)
      exact absurd this (by decide)
    · rename_i s heq
      have := hd '-' (by rw [heq]; simp)
      exact absurd this (by decide)
    · rfl
  rw [this, signed, if_neg hn, digits_toDigits h1 h10]
  rfl

theorem numericLoop_digits (b : Bool) (s : Str) (h : ∀ c ∈ s, isDigit c = true) : numericLoop b s = (s, s.length) := by
  induction s with
  | nil => rfl
  | cons c s ih =>
    have := ih fun x hx => h x (by simp [hx])
    simp [numericLoop, h c (by simp), this]

/-- A run of digits is one word. -/
theorem split_digits {s : Str} (hn : s ≠ []) (h : ∀ c ∈ s, isDigit c = true) : split defaultRules s = [s] := by
  cases s with
  | nil => exact absurd rfl hn
  | cons c s =>
    rw [split_cons]
    have : runRules defaultRules c s = (.data (c :: s), []) := by
      simp [defaultRules, splitterNew, runRules, splitNumeric, h c (by simp), numericLoop_digits false s fun x hx => h x (by simp [hx])]
    rw [this]
    simp [split, splitLoop]

end Prexel.SInt
