import Verif.Lemmas.Json
/-!
# The text of a JSON string
-/

namespace Prexel.Json

theorem hex4_lt {a b c d : Char} {n : ℕ} (h : Hex4 a b c d n) : n < 65536 := by
  obtain ⟨i, j, k, l, ha, hb, hc, hd, rfl⟩ := h
  have key : ∀ {c : Char} {n : ℕ}, Hex c n → n < 16 := by
    intro c n h
    have le : ∀ a b : Char, a ≤ b ↔ a.toNat ≤ b.toNat := fun a b => Iff.rfl
    unfold Hex at h
    simp only [le, show '9'.toNat = 57 from rfl, show 'f'.toNat = 102 from rfl, show 'F'.toNat = 70 from rfl, show '0'.toNat = 48 from rfl,
      show 'a'.toNat = 97 from rfl, show 'A'.toNat = 65 from rfl] at h
    omega
  have := key ha; have := key hb; have := key hc; have := key hd
  omega

theorem toNat_ofNat {n : ℕ} (h : n < 55296 ∨ (57343 < n ∧ n < 1114112)) : (Char.ofNat n).toNat = n := by
  unfold Char.ofNat
  rw [dif_pos (show n.isValidChar from by unfold Nat.isValidChar; omega)]
  unfold Char.ofNatAux Char.toNat
  simp

theorem char_valid (c : Char) : c.toNat < 55296 ∨ (57343 < c.toNat ∧ c.toNat < 1114112) := c.valid

theorem decode_plain {c : Char} (h2 : c ≠ '\\') (s : Str) :
    decode (c :: s) = if c.toNat < 32 ∨ c = '"' then none else (decode s).map fun t => c :: t := by
  rw [decode]
  all_goals simp_all

theorem decode_short {c : Char} (h1 : c ≠ 'u') (s : Str) :
    decode ('\\' :: c :: s) = match escaped c with
      | none => none
      | some x => (decode s).map fun t => x :: t := by
  rw [decode]
  · cases escaped c <;> rfl
  · simp_all

theorem decode_hex (a b c d : Char) (s : Str) (n : ℕ) (h : Hex4 a b c d n) (h1 : n < 0xD800 ∨ 0xDFFF < n) :
    decode ('\\' :: 'u' :: a :: b :: c :: d :: s) = (decode s).map fun t => Char.ofNat n :: t := by
  rw [decode, hex4_iff.2 h]
  simp only
  rw [if_neg (by omega), if_neg (by omega)]

theorem decode_pair (a b c d e f g h : Char) (s : Str) (n m : ℕ) (hn : Hex4 a b c d n) (hm : Hex4 e f g h m) (h1 : 0xD800 ≤ n ∧ n ≤ 0xDBFF)
    (h2 : 0xDC00 ≤ m ∧ m ≤ 0xDFFF) : decode ('\\' :: 'u' :: a :: b :: c :: d :: '\\' :: 'u' :: e :: f :: g :: h :: s) =
      (decode s).map fun t => Char.ofNat ((n - 0xD800) * 1024 + (m - 0xDC00) + 0x10000) :: t := by
  rw [decode, hex4_iff.2 hn]
  simp only
  rw [if_pos h1, hex4_iff.2 hm]
  simp only
  rw [if_pos h2]

theorem spelled_decode {r t : Str} (h : Spells r t) : decode r = some t := by
  induction h with
  | nil => rfl
  | plain h0 h1 h2 _ ih => rw [decode_plain h2, if_neg (by simp only [not_or]; exact ⟨by omega, h1⟩), ih]; rfl
  | @short c x s t hc _ ih => rw [decode_short (by rintro rfl; exact short_not_u hc), escaped_iff.2 hc, ih]; rfl
  | @hex a b c d x s t hn _ ih =>
    have hv := char_valid x
    rw [decode_hex _ _ _ _ _ _ hn (by omega), ih, Char.ofNat_toNat]; rfl
  | @pair a b c d e f g h x hi lo s t hn h1 hm h2 hx _ ih =>
    rw [decode_pair _ _ _ _ _ _ _ _ _ _ _ hn hm (by omega) (by omega), ih]
    have : (0xD800 + hi - 0xD800) * 1024 + (0xDC00 + lo - 0xDC00) + 0x10000 = x.toNat := by omega
    rw [this, Char.ofNat_toNat]; rfl

theorem decode_spelled (r : Str) : ∀ t, decode r = some t → Spells r t := by
  fun_induction decode r with
  | case1 => intro t h; cases h; exact .nil
  | case2 => intro t h; cases h
  | case3 => intro t h; cases h
  | case4 a b c d n hn h1 e f g h s m hm h2 ih =>
    intro t ht
    obtain ⟨p, hp, he⟩ := Option.map_eq_some_iff.1 ht
    cases he
    have e1 : 0xD800 + (n - 0xD800) = n := by omega
    have e2 : 0xDC00 + (m - 0xDC00) = m := by omega
    exact .pair (hi := n - 0xD800) (lo := m - 0xDC00) (by rw [e1]; exact hex4_iff.1 hn) (by omega) (by rw [e2]; exact hex4_iff.1 hm) (by omega)
      (by rw [toNat_ofNat (by omega)]; omega) (ih p hp)
  | case5 => intro t h; cases h
  | case6 => intro t h; cases h
  | case7 => intro t h; cases h
  | case8 a b c d s n hn h1 h2 ih =>
    intro t ht
    obtain ⟨p, hp, he⟩ := Option.map_eq_some_iff.1 ht
    cases he
    have hl := hex4_lt (hex4_iff.1 hn)
    refine .hex ?_ (ih p hp)
    rw [toNat_ofNat (by omega)]
    exact hex4_iff.1 hn
  | case9 => intro t h; cases h
  | case10 c s hu x hx ih =>
    intro t ht
    obtain ⟨p, hp, he⟩ := Option.map_eq_some_iff.1 ht
    cases he
    exact .short (escaped_iff.1 hx) (ih p hp)
  | case11 => intro t h; cases h
  | case12 => intro t h; cases h
  | case13 c s h1 h2 h3 h4 ih =>
    intro t ht
    obtain ⟨p, hp, he⟩ := Option.map_eq_some_iff.1 ht
    cases he
    simp only [not_or] at h4
    refine .plain (by omega) h4.2 ?_ (ih p hp)
    rintro rfl
    cases s with
    | nil => exact h3 rfl rfl
    | cons c s => exact h2 c s rfl rfl

theorem decode_iff {r t : Str} : decode r = some t ↔ Spells r t := ⟨decode_spelled r t, spelled_decode⟩

end Prexel.Json
