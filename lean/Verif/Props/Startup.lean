import Verif.Model.Startup
import Verif.Lemmas.Numerals
import Mathlib.Data.List.Induction
import Verif.Spec.Numerals
/-!
# How the programs start (C141, C142)
-/

namespace Prexel

theorem u16_digits (acc : Nat) (ha : acc ≤ 65535) (s : Str) (n : Nat) :
    u16Digits acc s = some n ↔ (∀ c ∈ s, '0' ≤ c ∧ c ≤ '9') ∧ s.foldl (fun a c => 10 * a + (c.toNat - 48)) acc = n ∧ n ≤ 65535 := by
  have mono : ∀ (s : Str) (acc : Nat), acc ≤ s.foldl (fun a c => 10 * a + (c.toNat - 48)) acc := by
    intro s
    induction s with
    | nil => intro acc; exact Nat.le_refl _
    | cons c s ih => intro acc; exact Nat.le_trans (show acc ≤ 10 * acc + (c.toNat - 48) by omega) (ih _)
  induction s generalizing acc with
  | nil =>
    simp only [u16Digits, Option.some.injEq, List.foldl_nil]
    constructor
    · rintro rfl; exact ⟨by simp, rfl, ha⟩
    · rintro ⟨-, h, -⟩; exact h
  | cons c s ih =>
    simp only [u16Digits, List.foldl_cons]
    have hm := mono s (10 * acc + (c.toNat - 48))
    by_cases hc : '0' ≤ c ∧ c ≤ '9'
    · rw [if_pos hc]
      have e : 10 * acc + (c.toNat - 48) = acc * 10 + (c.toNat - 48) := by omega
      by_cases h1 : acc * 10 ≤ 65535
      · rw [if_pos h1]
        by_cases h2 : acc * 10 + (c.toNat - 48) ≤ 65535
        · rw [if_pos h2, e]
          refine (ih _ h2).trans ?_
          simp only [List.mem_cons, forall_eq_or_imp, hc, true_and]
        · rw [if_neg h2]
          constructor
          · intro h; cases h
          · rintro ⟨-, h, hn⟩; omega
      · rw [if_neg h1]
        constructor
        · intro h; cases h
        · rintro ⟨-, h, hn⟩; omega
    · rw [if_neg hc]
      constructor
      · intro h; cases h
      · rintro ⟨h, -, -⟩; exact absurd (h c (by simp)) hc

/-- The texts of the numbers that fit a port: digits, with a plus sign before them or without, for a number up to 65535. -/
def PortText (s : Str) (n : Nat) : Prop := ∃ d, (s = d ∨ s = '+' :: d) ∧ Digits d ∧ digitsValue d = n ∧ n ≤ 65535

theorem parseU16_iff (s : Str) (n : Nat) : parseU16 s = some n ↔ PortText s n := by
  have key : ∀ d : Str, d ≠ [] → (u16Digits 0 d = some n ↔ Digits d ∧ digitsValue d = n ∧ n ≤ 65535) := by
    intro d hd
    rw [u16_digits 0 (by omega) d n]
    exact ⟨fun ⟨h1, h2, h3⟩ => ⟨⟨hd, h1⟩, h2, h3⟩, fun ⟨h1, h2, h3⟩ => ⟨h1.2, h2, h3⟩⟩
  have plus_no : ∀ r : Str, ¬ Digits ('+' :: r) := fun r h => absurd (h.2 '+' (by simp)) (by decide)
  unfold parseU16
  split
  · constructor
    · intro h; cases h
    · rintro ⟨d, rfl | h, hd, -⟩
      · exact absurd rfl hd.1
      · cases h
  · constructor
    · intro h; cases h
    · rintro ⟨d, rfl | h, hd, -⟩
      · exact absurd hd (plus_no _)
      · injection h with _ h
        exact absurd h.symm hd.1
  · constructor
    · intro h; cases h
    · rintro ⟨d, rfl | h, hd, -⟩
      · exact absurd (hd.2 '-' (by simp)) (by decide)
      · injection h with h _
        exact absurd h (by decide)
  · rename_i r hne
    have hr : r ≠ [] := by
      rintro rfl
      exact hne rfl
    rw [key r hr]
    constructor
    · rintro ⟨h1, h2, h3⟩; exact ⟨r, .inr rfl, h1, h2, h3⟩
    · rintro ⟨d, rfl | h, hd, h2, h3⟩
      · exact absurd hd (plus_no _)
      · injection h with _ h; subst h; exact ⟨hd, h2, h3⟩
  · rename_i h1 h2 h3 h4
    rw [key s (by rintro rfl; exact h1 rfl)]
    constructor
    · rintro ⟨h1, h2, h3⟩; exact ⟨s, .inl rfl, h1, h2, h3⟩
    · rintro ⟨d, rfl | h, hd, h6, h7⟩
      · exact ⟨hd, h6, h7⟩
      · exact absurd h (h4 d)

/-- C141. The server listens on the port in the variable `PORT` if that is a number up to 65535, and on port 8000 otherwise. -/
theorem C141_port (v : Option Str) :
    (∀ s n, v = some s → PortText s n → serverPort v = n) ∧ ((∀ s n, v = some s → ¬ PortText s n) → serverPort v = 8000) := by
  constructor
  · rintro s n rfl h
    simp [serverPort, (parseU16_iff s n).2 h]
  · intro h
    cases v with
    | none => rfl
    | some s =>
      cases hp : parseU16 s with
      | none => simp [serverPort, hp]
      | some n => exact absurd ((parseU16_iff s n).1 hp) (h s n rfl)

/-- `9000` and `+80` are ports; `70000`, `-1` and `80 ` are not. -/
example : PortText (str "9000") 9000 ∧ PortText (str "+80") 80 ∧ ¬ (∃ n, PortText (str "70000") n) ∧ serverPort (some (str "70000")) = 8000 ∧
    serverPort (some (str "-1")) = 8000 ∧ serverPort (some (str "80 ")) = 8000 := by
  refine ⟨⟨_, .inl rfl, ⟨by decide, by decide⟩, by decide, by decide⟩, ⟨str "80", .inr rfl, ⟨by decide, by decide⟩, by decide, by decide⟩, ?_, by decide, by decide, by decide⟩
  rintro ⟨n, h⟩
  have := (parseU16_iff _ _).2 h
  revert this
  rw [show parseU16 (str "70000") = none by decide]
  intro h; cases h

/-! ## The builder of the prompt -/

/-- A call on the `ReplBuilder`. -/
inductive ReplCall where
  | prompt (s : Str)
  | history (n : Option Nat)
  | pre (s : Str)
  | exit (s : Str)

/-- The call. -/
def ReplCall.apply (b : ReplBuilder) : ReplCall → ReplBuilder
  | .prompt s => b.withPromptPrefix s
  | .history n => b.withHistorySize n
  | .pre s => b.withPreText s
  | .exit s => b.withExitText s

/-- The last call that `f` picks. -/
def lastCall {α : Type} (f : ReplCall → Option α) (l : List ReplCall) : Option α := (l.filterMap f).getLast?

/-- C142. A prompt built with any chain of calls has the prompt, the greeting and the farewell of the last call for each, none without one, and the history
size of the last call for it, 100 without one or if that call was with `None`. -/
theorem C142_builder (l : List ReplCall) :
    let r := (l.foldl ReplCall.apply ReplBuilder.new).build
    r.prompt = lastCall (fun | .prompt s => some s | _ => none) l ∧ r.preText = lastCall (fun | .pre s => some s | _ => none) l ∧
    r.exitText = lastCall (fun | .exit s => some s | _ => none) l ∧
    r.historySize = ((lastCall (fun | .history n => some n | _ => none) l).join).getD 100 := by
  have key : ∀ l : List ReplCall, let b := l.foldl ReplCall.apply ReplBuilder.new
      b.promptPrefix = lastCall (fun | .prompt s => some s | _ => none) l ∧ b.preText = lastCall (fun | .pre s => some s | _ => none) l ∧
      b.exitText = lastCall (fun | .exit s => some s | _ => none) l ∧ b.historySize = (lastCall (fun | .history n => some n | _ => none) l).join := by
    intro l
    induction l using List.reverseRecOn with
    | nil => exact ⟨rfl, rfl, rfl, rfl⟩
    | append_singleton l c ih =>
      simp only [List.foldl_append, List.foldl_cons, List.foldl_nil]
      generalize l.foldl ReplCall.apply ReplBuilder.new = b at ih ⊢
      obtain ⟨h1, h2, h3, h4⟩ := ih
      cases c <;> simp_all [ReplCall.apply, lastCall, ReplBuilder.withPromptPrefix, ReplBuilder.withHistorySize, ReplBuilder.withPreText, ReplBuilder.withExitText]
  obtain ⟨h1, h2, h3, h4⟩ := key l
  exact ⟨h1, h2, h3, by rw [← h4]; rfl⟩

/-- The chain of `eval_loop`, and one in which the size is taken back. -/
example :
    ([ReplCall.prompt (str ">>> "), .pre (str "Press CTRL+C or type 'exit' to Exit"), .exit (str "Bye bye!"), .history none].foldl ReplCall.apply ReplBuilder.new).build =
      ⟨some (str ">>> "), 100, some (str "Press CTRL+C or type 'exit' to Exit"), some (str "Bye bye!")⟩ ∧
    ([ReplCall.history (some 5), .history none].foldl ReplCall.apply ReplBuilder.new).build.historySize = 100 := ⟨rfl, rfl⟩

end Prexel
