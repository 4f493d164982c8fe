import Verif.Lemmas.JsonRequest
/-!
# Texts written as JSON
-/

namespace Prexel.Json

theorem hexChar_hex {n : ℕ} (h : n < 16) : Hex (hexChar n) n := by
  rw [← hexDigit_iff]
  have : ∀ n < 16, hexDigit (hexChar n) = some n := by decide
  exact this n h

theorem escape_spells (c : Char) {s t : Str} (h : Spells s t) : Spells (escape c ++ s) (c :: t) := by
  unfold escape
  split_ifs with h1 h2 h3 h4 h5 h6 h7 h8
  · subst h1; exact .short (by simp [shortEscapes]) h
  · subst h2; exact .short (by simp [shortEscapes]) h
  · have : c = '\x08' := Char.toNat_inj.1 h3
    subst this; exact .short (by simp [shortEscapes]) h
  · have : c = '\x0c' := Char.toNat_inj.1 h4
    subst this; exact .short (by simp [shortEscapes]) h
  · subst h5; exact .short (by simp [shortEscapes]) h
  · subst h6; exact .short (by simp [shortEscapes]) h
  · subst h7; exact .short (by simp [shortEscapes]) h
  · refine .hex ⟨0, 0, c.toNat / 16, c.toNat % 16, .inl (by decide), .inl (by decide), hexChar_hex (by omega), hexChar_hex (by omega), by omega⟩ h
  · exact .plain (by omega) h1 h2 h

theorem escape_all (s : Str) : Spells (s.flatMap escape) s := by
  induction s with
  | nil => exact .nil
  | cons c s ih => rw [List.flatMap_cons]; exact escape_spells c ih

/-- What an optional text is as JSON. -/
theorem quotedOption_writes (o : Option Str) : ∃ v, Writes (quotedOption o) v ∧ Optional IsString v o := by
  cases o with
  | none => exact ⟨_, .null, .inl ⟨rfl, rfl⟩⟩
  | some s => exact ⟨_, .str (spells_raw (escape_all s)), .inr ⟨s, rfl, _, rfl, escape_all s⟩⟩

theorem plain_raw {s : Str} (h : s.all (fun c => 32 ≤ c.toNat && c != '"' && c != '\\') = true) : Raw s := by
  induction s with
  | nil => exact .nil
  | cons c s ih =>
    simp only [List.all_cons, Bool.and_eq_true, decide_eq_true_eq, bne_iff_ne] at h
    exact .plain h.1.1.1 h.1.1.2 h.1.2 (ih h.2)

theorem plain_spells {s : Str} (h : s.all (fun c => 32 ≤ c.toNat && c != '"' && c != '\\') = true) : Spells s s := by
  induction s with
  | nil => exact .nil
  | cons c s ih =>
    simp only [List.all_cons, Bool.and_eq_true, decide_eq_true_eq, bne_iff_ne] at h
    exact .plain h.1.1.1 h.1.1.2 h.1.2 (ih h.2)

end Prexel.Json
