import Verif.Lemmas.Decimal96
import Verif.Lemmas.DoubleText
import Verif.Spec.Places
/-!
# Reading and printing decimals
-/

set_option linter.unusedVariables false

namespace Prexel

theorem WrittenPlaces.stands {s : Str} {c p : ℕ} (h : WrittenPlaces s c p) : Stands s ((c : ℚ) / 10 ^ p) := by
  cases h with
  | whole h => simpa using Stands.whole h
  | pointed h1 h2 => exact .pointed h1 h2

theorem digit_value {a b : Char} (ha : '0' ≤ a ∧ a ≤ '9') (hb : '0' ≤ b ∧ b ≤ '9') (h : a.toNat - 48 = b.toNat - 48) : a = b := by
  simp only [Char.le_def, UInt32.le_iff_toNat_le] at ha hb
  simp at ha hb
  refine Char.ext (UInt32.toNat_inj.1 ?_)
  have : a.val.toNat - 48 = b.val.toNat - 48 := h
  have h1 : a.toNat = a.val.toNat := rfl
  have h2 : b.toNat = b.val.toNat := rfl
  omega

theorem digit_lt {a : Char} (ha : '0' ≤ a ∧ a ≤ '9') : a.toNat - 48 < 10 := by
  simp only [Char.le_def, UInt32.le_iff_toNat_le] at ha
  simp at ha
  have : a.toNat = a.val.toNat := rfl
  omega

theorem digitsValue_snoc (s : Str) (c : Char) : digitsValue (s ++ [c]) = 10 * digitsValue s + (c.toNat - 48) := by simp [digitsValue]

theorem digitsValue_lt {s : Str} (h : ∀ c ∈ s, '0' ≤ c ∧ c ≤ '9') : digitsValue s < 10 ^ s.length := by
  induction s using List.reverseRecOn with
  | nil => simp [digitsValue]
  | append_singleton s c ih =>
    have h1 := ih fun c hc => h c (by simp [hc])
    have h2 := digit_lt (h c (by simp))
    rw [digitsValue_snoc, List.length_append, List.length_singleton, pow_succ]
    omega

/-- As many digits with the same value are the same digits. -/
theorem digits_inj {a b : Str} (ha : ∀ c ∈ a, '0' ≤ c ∧ c ≤ '9') (hb : ∀ c ∈ b, '0' ≤ c ∧ c ≤ '9') (hl : a.length = b.length)
    (h : digitsValue a = digitsValue b) : a = b := by
  induction a using List.reverseRecOn generalizing b with
  | nil => exact (List.length_eq_zero_iff.1 hl.symm).symm
  | append_singleton a x ih =>
    rcases List.eq_nil_or_concat b with rfl | ⟨b, y, rfl⟩
    · simp at hl
    simp only [List.concat_eq_append] at *
    rw [digitsValue_snoc, digitsValue_snoc] at h
    have h1 := digit_lt (ha x (by simp))
    have h2 := digit_lt (hb y (by simp))
    have e := digit_value (ha x (by simp)) (hb y (by simp)) (by omega)
    have := ih (b := b) (fun c hc => ha c (by simp [hc])) (fun c hc => hb c (by simp [hc])) (by simpa using hl) (by omega)
    rw [this, e]

/-- Digits that do not begin with a zero have at least this value. -/
theorem le_digitsValue {c : Char} {s : Str} (hc : '0' ≤ c ∧ c ≤ '9') (h0 : c ≠ '0') : 10 ^ s.length ≤ digitsValue (c :: s) := by
  rw [← List.singleton_append, B64.digitsValue_append]
  have : 1 ≤ digitsValue [c] := by
    have h1 : digitsValue [c] = c.toNat - 48 := by simp [digitsValue]
    rw [h1]
    by_contra hcon
    exact h0 (digit_value hc ⟨by decide, by decide⟩ (by
      have : '0'.toNat = 48 := rfl
      omega))
  nlinarith [Nat.pos_of_ne_zero (pow_ne_zero s.length (show (10 : ℕ) ≠ 0 by norm_num))]

namespace D96

/-- The digits, filled up with zeros so that one is left in front of the point. -/
def padded (c s : ℕ) : Str := List.replicate (s + 1 - (Nat.toDigits 10 c).length) '0' ++ Nat.toDigits 10 c

theorem padded_digits (c s : ℕ) : ∀ x ∈ padded c s, '0' ≤ x ∧ x ≤ '9' := by
  intro x hx
  rcases List.mem_append.1 hx with h | h
  · exact B64.zeros_digit _ x h
  · exact (toDigits_digits c).2 x h

theorem padded_value (c s : ℕ) : digitsValue (padded c s) = c := by
  rw [padded, B64.digitsValue_append, B64.digitsValue_zeros, toDigits_value]; simp

theorem padded_length (c s : ℕ) : (padded c s).length = max (s + 1) (Nat.toDigits 10 c).length := by
  rw [padded, List.length_append, List.length_replicate]; omega

theorem digitsOf_eq (c s : ℕ) : digitsOf c s =
    if s = 0 then Nat.toDigits 10 c else (padded c s).take ((padded c s).length - s) ++ '.' :: (padded c s).drop ((padded c s).length - s) := rfl

/-- What is printed is written with as many places as the scale. -/
theorem digitsOf_written (c s : ℕ) : WrittenPlaces (digitsOf c s) c s := by
  rw [digitsOf_eq]
  split
  · rename_i h
    subst h
    have := WrittenPlaces.whole (toDigits_digits c)
    rwa [toDigits_value] at this
  · rename_i hs
    have hl := padded_length c s
    have hd := padded_digits c s
    have hv := padded_value c s
    generalize padded c s = w at *
    have hdrop : (w.drop (w.length - s)).length = s := by simp; omega
    have := WrittenPlaces.pointed (a := w.take (w.length - s)) (b := w.drop (w.length - s))
      ⟨by rw [ne_eq, List.take_eq_nil_iff]; intro h; rcases h with h | h; · omega
          · rw [h] at hl; simp at hl; omega, fun c hc => hd c (List.mem_of_mem_take hc)⟩
      ⟨by intro h; rw [h] at hdrop; exact hs hdrop.symm, fun c hc => hd c (List.mem_of_mem_drop hc)⟩
    rwa [List.take_append_drop, hdrop, hv] at this

/-- Digits without superfluous zeros in front are what is printed for their value. -/
theorem padded_eq {a b : Str} (ha : Digits a) (hb : ∀ c ∈ b, '0' ≤ c ∧ c ≤ '9') (hu : ∀ r, a = '0' :: r → r = []) :
    padded (digitsValue (a ++ b)) b.length = a ++ b := by
  have hd : ∀ c ∈ a ++ b, '0' ≤ c ∧ c ≤ '9' := (B64.digits_append ha hb).2
  refine digits_inj (padded_digits _ _) hd ?_ (padded_value _ _)
  rw [padded_length]
  have hlt := digitsValue_lt hd
  cases a with
  | nil => exact absurd rfl ha.1
  | cons x a =>
    have hle : (Nat.toDigits 10 (digitsValue (x :: a ++ b))).length ≤ (x :: a ++ b).length :=
      (Nat.length_toDigits_le_iff (by norm_num) (by simp)).2 hlt
    by_cases hx : x = '0'
    · subst hx
      rw [hu a rfl] at hle ⊢
      simp at hle ⊢
      omega
    · have h1 := le_digitsValue (s := a ++ b) (ha.2 x (by simp)) hx
      have : ¬ (Nat.toDigits 10 (digitsValue (x :: a ++ b))).length ≤ (a ++ b).length := by
        intro h
        rcases Nat.eq_zero_or_pos (a ++ b).length with h0 | h0
        · rw [h0, Nat.le_zero] at h
          exact absurd (List.length_eq_zero_iff.1 h) Nat.toDigits_ne_nil
        · rw [Nat.length_toDigits_le_iff (by norm_num) h0] at h
          simp only [List.cons_append] at h
          omega
      simp only [List.cons_append, List.length_cons, List.length_append] at *
      omega

/-- A usual numeral is what is printed for it. -/
theorem digitsOf_usual {w : Str} {c s : ℕ} (h : WrittenPlaces w c s) (hu : UsualPlaces w) : digitsOf c s = w := by
  rw [digitsOf_eq]
  cases h with
  | whole h =>
    rw [if_pos rfl]
    have hne := h.1
    have := padded_eq (b := []) h (by simp) fun r hr => by
      rcases hu r hr with h' | ⟨b, h'⟩
      · exact h'
      · exfalso
        have h2 := h.2 '.' (by rw [hr, h']; simp)
        revert h2; decide
    simp only [List.append_nil, List.length_nil] at this
    rw [← this]
    unfold padded
    have hp : 0 < (Nat.toDigits 10 (digitsValue w)).length := Nat.length_toDigits_pos
    rw [show 0 + 1 - (Nat.toDigits 10 (digitsValue w)).length = 0 by omega]
    simp [toDigits_value]
  | @pointed a b ha hb =>
    have hb0 : b.length ≠ 0 := fun h => hb.1 (List.length_eq_zero_iff.1 h)
    rw [if_neg hb0]
    have := padded_eq ha hb.2 fun r hr => by
      rcases hu (r ++ '.' :: b) (by rw [hr]; rfl) with h' | ⟨b', h'⟩
      · simp at h'
      · cases r with
        | nil => rfl
        | cons y r =>
          exfalso
          have h2 := ha.2 y (by rw [hr]; simp)
          simp only [List.cons_append, List.cons.injEq] at h'
          rw [h'.1] at h2
          revert h2; decide
    rw [this]
    have hlen : (a ++ b).length - b.length = a.length := by simp
    rw [hlen]
    simp

/-- What is printed has no superfluous zeros in front. -/
theorem digitsOf_usual' (c s : ℕ) : UsualPlaces (digitsOf c s) := by
  have hfirst : ∀ r, Nat.toDigits 10 c = '0' :: r → r = [] := by
    intro r hr
    have hd := (toDigits_digits c).2
    have hv := toDigits_value c
    rw [hr] at hd hv
    by_contra hne
    have hlt := digitsValue_lt (s := r) fun x hx => hd x (by simp [hx])
    have hv' : digitsValue r = c := by
      rw [← hv, ← List.singleton_append, B64.digitsValue_append]
      simp [digitsValue]
    have hpos : 0 < r.length := List.length_pos_iff.2 hne
    have := (Nat.length_toDigits_le_iff (b := 10) (n := c) (by norm_num) hpos).2 (by rw [← hv']; exact hlt)
    rw [hr] at this
    simp at this
  intro r hr
  rw [digitsOf_eq] at hr
  split at hr
  · exact .inl (hfirst r hr)
  · rename_i hs
    right
    have hl := padded_length c s
    by_cases hle : (Nat.toDigits 10 c).length ≤ s + 1
    · have hl' : (padded c s).length - s = 1 := by rw [hl, max_eq_left hle]; omega
      rw [hl'] at hr
      cases hw : padded c s with
      | nil => rw [hw] at hl'; simp at hl'
      | cons x w =>
        rw [hw] at hr
        simp only [List.take_succ_cons, List.take_zero, List.drop_succ_cons, List.drop_zero, List.cons_append, List.nil_append, List.cons.injEq] at hr
        exact ⟨_, hr.2.symm⟩
    · exfalso
      have hp : padded c s = Nat.toDigits 10 c := by unfold padded; rw [show s + 1 - (Nat.toDigits 10 c).length = 0 by omega]; rfl
      rw [hp] at hr
      have hpos : 0 < (Nat.toDigits 10 c).length - s := by omega
      cases hw : Nat.toDigits 10 c with
      | nil => rw [hw] at hpos; simp at hpos
      | cons x w =>
        rw [hw] at hr hpos hle
        obtain ⟨k, hk⟩ : ∃ k, (x :: w).length - s = k + 1 := ⟨_, (Nat.sub_add_cancel hpos).symm⟩
        rw [hk, List.take_succ_cons, List.cons_append, List.cons.injEq] at hr
        rw [hr.1] at hw
        have := hfirst w hw
        rw [this] at hle
        simp at hle

theorem plain_written {neg : Bool} {s : Str} {c p : ℕ} (h : WrittenPlaces s c p) (hc : c < 2 ^ 96) (hp : p ≤ 28) : plain neg s = some ⟨neg, c, p, hc, hp⟩ := by
  cases h with
  | whole h =>
    obtain ⟨h1, h2⟩ := B64.takeWhile_digits (B64.digits_all h)
    have hex : exactly neg (digitsValue s) 0 = some ⟨neg, digitsValue s, 0, hc, hp⟩ := dif_pos ⟨hc, hp⟩
    simp only [plain, h1, h2]
    simpa [h.1, B64.natOf_eq] using hex
  | @pointed a b ha hb =>
    obtain ⟨h1, h2⟩ := B64.takeWhile_pointed (B64.digits_all ha) b
    have hex : exactly neg (digitsValue (a ++ b)) b.length = some ⟨neg, digitsValue (a ++ b), b.length, hc, hp⟩ := dif_pos ⟨hc, hp⟩
    simp only [plain, h1, h2]
    have hall : b.all isDigit = true := List.all_eq_true.2 (B64.digits_all hb)
    rw [if_pos ⟨ha.1, .inr ⟨rfl, hb.1, hall⟩⟩]
    exact hex

/-- A numeral of at most 96 bits and 28 places is read exactly. -/
theorem fromStr_written {F : Type} (lib : Lib F) {s : Str} {c p : ℕ} (h : WrittenPlaces s c p) (hc : c < 2 ^ 96) (hp : p ≤ 28) :
    fromStr lib s = some ⟨false, c, p, hc, hp⟩ := by
  obtain ⟨x, r, hs, hx⟩ := B64.Stands.head h.stands
  have hpl := plain_written (neg := false) h hc hp
  subst hs
  obtain ⟨-, h2, h3, -, -⟩ := B64.digit_lower hx
  unfold fromStr
  rw [if_neg]
  · split
    · rename_i heq; injection heq with h _; exact absurd h h2
    · rename_i heq; injection heq with h _; exact absurd h h3
    · rw [hpl]
  · simp [hx, (digit_not_letter hx).1]

theorem fromStr_none {F : Type} (lib : Lib F) {s : Str} (h : s.any isDigit = false ∨ s.head?.any isLetter = true) : fromStr lib s = none := by
  unfold fromStr; rw [if_pos h]

end D96
end Prexel
