import Verif.Model.DoubleText
import Verif.Lemmas.DoubleOps
import Verif.Lemmas.Numerals
/-!
# Reading and printing doubles
-/

set_option linter.unusedVariables false
set_option linter.unusedSimpArgs false

namespace Prexel.B64

theorem natOf_eq (s : Str) : natOf s = digitsValue s := rfl

theorem digits_all {s : Str} (h : Digits s) : ∀ c ∈ s, isDigit c = true := fun c hc => isDigit_iff.2 (h.2 c hc)

theorem takeWhile_pointed {a : Str} (ha : ∀ c ∈ a, isDigit c = true) (b : Str) :
    (a ++ '.' :: b).takeWhile isDigit = a ∧ (a ++ '.' :: b).dropWhile isDigit = '.' :: b := by
  have hp : isDigit '.' = false := by decide
  constructor
  · rw [List.takeWhile_append_of_pos ha, List.takeWhile_cons, hp]; simp
  · rw [List.dropWhile_append_of_pos ha, List.dropWhile_cons, hp]; simp

theorem takeWhile_digits {a : Str} (ha : ∀ c ∈ a, isDigit c = true) : a.takeWhile isDigit = a ∧ a.dropWhile isDigit = [] := by
  refine ⟨takeWhile_every a _ ha, ?_⟩
  have := List.dropWhile_append_of_pos (l₂ := []) ha
  simpa using this

theorem numberOf_stands {s : Str} {q : ℚ} (h : Stands s q) : numberOf s = some q := by
  cases h with
  | whole h =>
    obtain ⟨h1, h2⟩ := takeWhile_digits (digits_all h)
    unfold numberOf
    rw [h1, h2]
    simp [fractionOf, exponentOf, h.1, natOf_eq]
  | @pointed a b ha hb =>
    obtain ⟨h1, h2⟩ := takeWhile_pointed (digits_all ha) b
    obtain ⟨h3, h4⟩ := takeWhile_digits (digits_all hb)
    unfold numberOf
    rw [h1, h2]
    simp only [fractionOf, h3, h4, ha.1, false_and, if_false, exponentOf, Option.map_some, natOf_eq, zero_sub, zpow_neg, zpow_natCast]
    rw [div_eq_mul_inv]

theorem digit_lower {c : Char} (h : isDigit c = true) : c.toLower = c ∧ c ≠ '-' ∧ c ≠ '+' ∧ c ≠ 'n' ∧ c ≠ 'i' := by
  have hl := (digit_not_letter h).1
  rw [isDigit_iff] at h
  refine ⟨?_, ?_, ?_, ?_, ?_⟩
  · unfold Char.toLower
    rw [dif_neg]
    simp only [Char.le_def, UInt32.le_iff_toNat_le] at h
    simp at h
    intro hh
    have := hh.1
    simp [UInt32.le_iff_toNat_le] at this
    omega
  all_goals (rintro rfl; revert h; decide)

theorem Stands.head {s : Str} {q : ℚ} (h : Stands s q) : ∃ c r, s = c :: r ∧ isDigit c = true := by
  obtain ⟨c, r, hs, hc⟩ := (NumberWord.numeral h.numeral).head
  refine ⟨c, r, hs, ?_⟩
  subst hs
  generalize hw : c :: r = w at h
  cases h with
  | whole h => exact isDigit_iff.2 (h.2 c (by rw [← hw]; simp))
  | @pointed a b ha hb =>
    cases a with
    | nil => exact absurd rfl ha.1
    | cons d a => injection hw with h1 h2; subst h1; exact isDigit_iff.2 (ha.2 _ (by simp))

theorem unsigned_stands (neg : Bool) {s : Str} {q : ℚ} (h : Stands s q) : unsigned neg s = some (of neg (if neg then -q else q)) := by
  obtain ⟨c, r, hs, hc⟩ := Stands.head h
  obtain ⟨h1, h2, h3, h4, h5⟩ := digit_lower hc
  have hw : s.map Char.toLower = c :: r.map Char.toLower := by rw [hs, List.map_cons, h1]
  have e1 : (c :: r.map Char.toLower) ≠ str "nan" := fun e => h4 (by simpa [str] using congrArg (fun l => l.head?) e)
  have e2 : (c :: r.map Char.toLower) ≠ str "inf" := fun e => h5 (by simpa [str] using congrArg (fun l => l.head?) e)
  have e3 : (c :: r.map Char.toLower) ≠ str "infinity" := fun e => h5 (by simpa [str] using congrArg (fun l => l.head?) e)
  unfold unsigned
  simp only [hw, e1, e2, e3, or_self, if_false, numberOf_stands h, Option.map_some]

/-- A numeral is read as the double nearest to what it stands for. -/
theorem fromStr_stands {s : Str} {q : ℚ} (h : Stands s q) : fromStr s = some (of false q) := by
  obtain ⟨c, r, hs, hc⟩ := Stands.head h
  obtain ⟨h1, h2, h3, h4, h5⟩ := digit_lower hc
  have : fromStr s = unsigned false s := by
    subst hs
    unfold fromStr
    split
    · rename_i heq; injection heq with h _; exact absurd h h2
    · rename_i heq; injection heq with h _; exact absurd h h3
    · rfl
  rw [this, unsigned_stands false h]
  simp

/-! ## Printing -/

theorem candidate_reads {k : ℕ} {v : ℚ} {j : ℤ} {d : ℕ} (h : candidate k v j = some d) : units ((d : ℚ) * 10 ^ j * perOne) = k := by
  unfold candidate at h
  simp only at h
  split at h
  · rename_i h1
    split at h
    · rename_i h2; cases h; exact h2.1
    · cases h; exact h1
  · split at h
    · rename_i h2; cases h; exact h2
    · cases h

/-- A number of units is a whole multiple of a power of ten. -/
theorem whole_scaled (k N : ℕ) : (k : ℚ) / 2 ^ N / 10 ^ (-(N : ℤ)) = ((k * 5 ^ N : ℕ) : ℚ) := by
  rw [zpow_neg, zpow_natCast, show (10 : ℚ) = 2 * 5 by norm_num, mul_pow]
  have hx : (2 : ℚ) ^ N ≠ 0 := pow_ne_zero _ (by norm_num)
  have hy : (5 : ℚ) ^ N ≠ 0 := pow_ne_zero _ (by norm_num)
  push_cast
  field_simp

theorem last_reads {k N : ℕ} {P : ℚ} (hk : Wide k) (hP : P = 2 ^ N) :
    units ((⌊(k : ℚ) / P / 10 ^ (-(N : ℤ))⌋.toNat : ℚ) * 10 ^ (-(N : ℤ)) * P) = k := by
  subst hP
  have h10 : (10 : ℚ) ^ (-(N : ℤ)) ≠ 0 := zpow_ne_zero _ (by norm_num)
  have h2 : (2 : ℚ) ^ N ≠ 0 := pow_ne_zero _ (by norm_num)
  have : ((⌊(k : ℚ) / 2 ^ N / 10 ^ (-(N : ℤ))⌋.toNat : ℕ) : ℚ) = (k : ℚ) / 2 ^ N / 10 ^ (-(N : ℤ)) := by
    rw [whole_scaled, Int.floor_natCast, Int.toNat_natCast]
  rw [this, div_mul_cancel₀ _ h10, div_mul_cancel₀ _ h2, units_keep hk]

theorem shortest_reads {k N : ℕ} {P : ℕ} (hP : P = perOne) (hN : (P : ℚ) = 2 ^ N) (hk : Fits k) (n : ℕ) (j : ℤ) (hj : j = n - N) (p : ℕ × ℤ)
    (hp : shortest k (k / P) n j = p) : units ((p.1 : ℚ) * 10 ^ p.2 * P) = k := by
  induction n generalizing j with
  | zero =>
    have hj' : j = -(N : ℤ) := by rw [hj]; simp
    subst hp hj'
    exact last_reads hk.2 hN
  | succ n ih =>
    cases hd : candidate k (k / P) j with
    | some d =>
      simp only [shortest, hd] at hp
      rw [← hp, hP]
      exact candidate_reads hd
    | none =>
      simp only [shortest, hd] at hp
      exact ih (j - 1) (by rw [hj]; push_cast; ring) hp

theorem perOne_pow : (perOne : ℚ) = 2 ^ 1074 := by unfold perOne; exact Nat.cast_pow 2 1074

theorem digitsValue_append (a b : Str) : digitsValue (a ++ b) = digitsValue a * 10 ^ b.length + digitsValue b := by
  induction b using List.reverseRecOn generalizing a with
  | nil => simp [digitsValue]
  | append_singleton b c ih =>
    rw [← List.append_assoc]
    have h1 : ∀ s : Str, digitsValue (s ++ [c]) = 10 * digitsValue s + (c.toNat - 48) := fun s => by simp [digitsValue]
    rw [h1, h1, ih]
    simp [pow_succ]
    ring

theorem digitsValue_zeros (n : ℕ) : digitsValue (List.replicate n '0') = 0 := by
  induction n with
  | zero => rfl
  | succ n ih =>
    rw [List.replicate_succ', digitsValue_append, ih]
    rfl

theorem digits_append {a b : Str} (ha : Digits a) (hb : ∀ c ∈ b, '0' ≤ c ∧ c ≤ '9') : Digits (a ++ b) := by
  refine ⟨by simp [ha.1], fun c hc => ?_⟩
  rcases List.mem_append.mp hc with h | h
  · exact ha.2 c h
  · exact hb c h

theorem zeros_digit (n : ℕ) : ∀ c ∈ List.replicate n '0', '0' ≤ c ∧ c ≤ '9' := by
  intro c hc
  rw [List.eq_of_mem_replicate hc]
  decide

theorem pointed_stands {s : Str} (hs : ∀ c ∈ s, '0' ≤ c ∧ c ≤ '9') {n : ℕ} (hn : n ≠ 0) : Stands (pointed s n) ((digitsValue s : ℚ) / 10 ^ n) := by
  unfold pointed
  set w := List.replicate (n + 1 - s.length) '0' ++ s with hw
  have hl : n + 1 ≤ w.length := by rw [hw]; simp; omega
  have hd : ∀ c ∈ w, '0' ≤ c ∧ c ≤ '9' := by
    intro c hc
    rcases List.mem_append.mp hc with h | h
    · exact zeros_digit _ c h
    · exact hs c h
  have hv : digitsValue w = digitsValue s := by rw [hw, digitsValue_append, digitsValue_zeros]; simp
  have hdrop : (w.drop (w.length - n)).length = n := by simp; omega
  have := Stands.pointed (a := w.take (w.length - n)) (b := w.drop (w.length - n))
    ⟨by rw [ne_eq, List.take_eq_nil_iff]; intro h; rcases h with h | h; · omega
        · rw [h] at hl; simp at hl, fun c hc => hd c (List.mem_of_mem_take hc)⟩
    ⟨by intro h; rw [h] at hdrop; exact hn hdrop.symm, fun c hc => hd c (List.mem_of_mem_drop hc)⟩
  rwa [List.take_append_drop, hdrop, hv] at this

theorem plain_stands (d : ℕ) (j : ℤ) : Stands (plain d j) ((d : ℚ) * 10 ^ j) := by
  unfold plain
  split
  · rename_i hj
    have h := Stands.whole (digits_append (toDigits_digits d) (zeros_digit j.toNat))
    rw [digitsValue_append, toDigits_value, digitsValue_zeros] at h
    simp only [List.length_replicate, add_zero, Nat.cast_mul, Nat.cast_pow, Nat.cast_ofNat] at h
    have : (10 : ℚ) ^ j = 10 ^ j.toNat := by rw [← zpow_natCast, Int.toNat_of_nonneg hj]
    rwa [this]
  · rename_i hj
    have h := pointed_stands (toDigits_digits d).2 (n := (-j).toNat) (by omega)
    rw [toDigits_value] at h
    have : (10 : ℚ) ^ j = (10 ^ (-j).toNat)⁻¹ := by
      rw [← zpow_natCast, Int.toNat_of_nonneg (by omega), zpow_neg, inv_inv]
    rwa [this, ← div_eq_mul_inv]

/-- What is printed for a finite double is a numeral that is read as the double. -/
theorem digitsOf_stands {k : ℕ} (hk : Fits k) : ∃ q, Stands (digitsOf k) q ∧ of false q = .fin false k hk := by
  unfold digitsOf
  by_cases h0 : k = 0
  · subst h0
    rw [if_pos rfl]
    refine ⟨_, Stands.whole ⟨by simp, by decide⟩, ?_⟩
    simp [digitsValue, of, zero]
  · rw [if_neg h0]
    have key := shortest_reads rfl perOne_pow hk 1383 309 (by norm_num) _ rfl
    generalize shortest k (k / perOne) 1383 309 = p at key ⊢
    obtain ⟨d, j⟩ := p
    refine ⟨_, plain_stands _ _, ?_⟩
    have h : units ((d : ℚ) * 10 ^ j * perOne) = k := key
    have hp := perOne_pos
    have hpos : 0 < (d : ℚ) * 10 ^ j := by
      have h1 : (0 : ℚ) < 10 ^ j := zpow_pos (by norm_num) _
      have h2 : d ≠ 0 := by
        intro hd
        rw [hd] at h
        simp [units_zero] at h
        exact h0 h.symm
      have : 0 < (d : ℚ) := by exact_mod_cast Nat.pos_of_ne_zero h2
      positivity
    unfold of
    rw [if_neg (not_lt.mpr hpos.le), if_pos hpos]
    unfold round
    simp only [h]
    rw [dif_pos hk]

theorem stands_nonneg {s : Str} {q : ℚ} (h : Stands s q) : 0 ≤ q := by
  cases h <;> positivity

attribute [local irreducible] digitsOf

theorem toStr_pos (k : ℕ) (h : Fits k) : toStr (.fin false k h) = digitsOf k := by simp [toStr]
theorem toStr_neg (k : ℕ) (h : Fits k) : toStr (.fin true k h) = '-' :: digitsOf k := by simp [toStr]
theorem fromStr_minus (s : Str) : fromStr ('-' :: s) = unsigned true s := by simp [fromStr]

theorem toStr_reads (x : B64) : fromStr (toStr x) = some x := by
  cases x with
  | nan => decide +kernel
  | inf a => cases a <;> decide +kernel
  | fin a k h =>
    obtain ⟨q, h1, h2⟩ := digitsOf_stands h
    cases a with
    | false =>
      rw [toStr_pos, fromStr_stands h1, h2]
    | true =>
      rw [toStr_neg, fromStr_minus, unsigned_stands true h1]
      congr 1
      have hq : 0 ≤ q := stands_nonneg h1
      simp only [if_true]
      rcases hq.eq_or_lt with h0 | h0
      · subst h0
        rw [of, if_neg (lt_irrefl _), if_neg (lt_irrefl _)] at h2
        rw [of, if_neg (by simp), if_neg (by simp)]
        unfold zero at h2 ⊢
        injection h2 with _ h3
        subst h3
        rfl
      · rw [of, if_neg (not_lt.mpr h0.le), if_pos h0] at h2
        rw [of, if_pos (by linarith), neg_neg]
        unfold round at h2 ⊢
        generalize units (q * (perOne : ℚ)) = u at h2 ⊢
        split at h2
        · rename_i hf
          injection h2 with _ h3
          subst h3
          rw [dif_pos hf]
        · cases h2

end Prexel.B64
