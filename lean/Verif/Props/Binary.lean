import Verif.Props.Builtin
import Verif.Props.Context
import Verif.Props.Tokenizer
import Verif.Lemmas.Integer
import Verif.Lemmas.Calls
import Verif.Spec.Bits
import Verif.Examples.Numbers
/-!
# Binary numbers (C39, C40, C60)
-/

set_option linter.unusedVariables false
set_option linter.unusedSimpArgs false

namespace Prexel

/-! ## C39: literals -/

theorem digit_two (c : Char) : SInt.digit 2 c = if c = '0' then some 0 else if c = '1' then some 1 else none := by
  unfold SInt.digit
  by_cases h0 : c = '0'
  · subst h0; decide
  · by_cases h1 : c = '1'
    · subst h1; decide
    · have : ¬ (48 ≤ c.toNat ∧ c.toNat < 48 + 2) := by
        rintro ⟨h2, h3⟩
        have : c.toNat = '0'.toNat ∨ c.toNat = '1'.toNat := by
          have e0 : '0'.toNat = 48 := by decide
          have e1 : '1'.toNat = 49 := by decide
          omega
        rcases this with h | h
        · exact h0 (Char.toNat_inj.mp h)
        · exact h1 (Char.toNat_inj.mp h)
      simp [this, h0, h1]

theorem digits_two (ds : Str) (h : ∀ d ∈ ds, d = '0' ∨ d = '1') (acc : Nat) :
    SInt.digits 2 acc ds = some (ds.foldl (fun n d => 2 * n + if d = '1' then 1 else 0) acc) := by
  induction ds generalizing acc with
  | nil => rfl
  | cons d ds ih =>
    have h1 := h d (by simp)
    have h2 := ih fun x hx => h x (by simp [hx])
    rcases h1 with rfl | rfl
    · simp only [SInt.digits, digit_two, List.foldl_cons]
      simp [h2, Nat.mul_comm]
    · simp only [SInt.digits, digit_two, List.foldl_cons]
      simp [h2, Nat.mul_comm]

theorem digits_two_bad (ds : Str) (acc : Nat) (h : SInt.digits 2 acc ds ≠ none) : ∀ d ∈ ds, d = '0' ∨ d = '1' := by
  induction ds generalizing acc with
  | nil => simp
  | cons d ds ih =>
    intro x hx
    simp only [SInt.digits, digit_two] at h
    rcases List.mem_cons.mp hx with rfl | hx
    · by_cases h0 : x = '0'
      · exact .inl h0
      · by_cases h1 : x = '1'
        · exact .inr h1
        · simp [h0, h1] at h
    · by_cases h0 : d = '0'
      · simp [h0] at h; exact ih _ h x hx
      · by_cases h1 : d = '1'
        · simp [h1] at h; exact ih _ h x hx
        · simp [h0, h1] at h

theorem fits_i128 (n : Nat) : i128.Fits (n : Int) ↔ n < 2 ^ 127 := by
  simp only [Width.Fits, Width.lo, Width.hi, i128]
  omega

theorem fromStrRadix_binary {ds : Str} (h : BinaryDigits ds) : SInt.fromStrRadix i128 2 ds = SInt.of? (binaryValue ds) := by
  obtain ⟨hn, hd⟩ := h
  cases ds with
  | nil => exact absurd rfl hn
  | cons d ds =>
    have h1 : SInt.fromStrRadix i128 2 (d :: ds) = SInt.signed i128 2 false (d :: ds) := by
      unfold SInt.fromStrRadix
      rcases hd d (by simp) with rfl | rfl <;> rfl
    rw [h1]
    unfold SInt.signed
    rw [digits_two _ hd]
    rfl

/-- C39. A literal `b<digits>` is the number with these binary digits; it is no number if that does not fit in 127 bits. -/
theorem C39_parse (ds : Str) (h : BinaryDigits ds) :
    Binary.parse ('b' :: ds) = if binaryValue ds < 2 ^ 127 then some (BitVec.ofNat 128 (binaryValue ds)) else none := by
  simp only [Binary.parse, Binary.parseInt, fromStrRadix_binary h]
  by_cases hf : binaryValue ds < 2 ^ 127
  · rw [SInt.of?_fits ((fits_i128 _).mpr hf), if_pos hf]
    exact congrArg some (BitVec.ofInt_natCast ..)
  · rw [SInt.of?_eq_none.mpr fun h => hf ((fits_i128 _).mp h), if_neg hf]
    rfl

/-- C39. Nothing else with the prefix `b` is a number, apart from a sign in front of the digits. -/
theorem C39_only_digits (s : Str) (x : Binary) (h : Binary.parse ('b' :: s) = some x) :
    BinaryDigits s ∨ ∃ ds, BinaryDigits ds ∧ (s = '+' :: ds ∨ s = '-' :: ds) := by
  have key : ∀ b t, SInt.signed i128 2 b t ≠ none → BinaryDigits t := by
    intro b t ht
    unfold SInt.signed at ht
    split at ht
    · exact absurd rfl ht
    · rename_i hn
      refine ⟨hn, digits_two_bad t 0 fun h0 => ?_⟩
      rw [h0] at ht
      exact ht rfl
  have h1 : SInt.fromStrRadix i128 2 s ≠ none := by
    intro h0
    simp [Binary.parse, Binary.parseInt, h0] at h
  unfold SInt.fromStrRadix at h1
  split at h1
  · exact .inr ⟨_, key _ _ h1, .inl rfl⟩
  · exact .inr ⟨_, key _ _ h1, .inr rfl⟩
  · exact .inl (key _ _ h1)

theorem display_digits (x : Binary) : BinaryDigits (Binary.display x) ∧ binaryValue (Binary.display x) = x.toNat := by
  have h1 : SInt.digits 2 0 (Nat.toDigits 2 x.toNat) = some x.toNat := SInt.digits_toDigits (by decide) (by decide) _
  have h2 := digits_two_bad (Nat.toDigits 2 x.toNat) 0 (by rw [h1]; simp)
  refine ⟨⟨Nat.toDigits_ne_nil, h2⟩, ?_⟩
  have h3 := digits_two (Nat.toDigits 2 x.toNat) h2 0
  rw [h1] at h3
  exact (Option.some.inj h3).symm

/-- C39, printing: the binary digits of the two's complement. -/
theorem C39_display (x : Binary) : BinaryDigits (Binary.display x) ∧ binaryValue (Binary.display x) = x.toNat := display_digits x

/-- C39, printing and parsing back, the part that holds: numbers that are not negative. Missing: negative numbers, see the counterexample. -/
theorem C39_round_trip_partial (x : Binary) (h : 0 ≤ x.toInt) : Binary.parse ('b' :: Binary.display x) = some x := by
  obtain ⟨h1, h2⟩ := display_digits x
  rw [C39_parse _ h1, h2, if_pos]
  · simp
  · have h3 := x.isLt
    have h4 := BitVec.toInt_eq_toNat_cond x
    rw [h4] at h
    split at h <;> omega

/-- C39 is false for every negative number: it is printed as 128 digits, which are not a number when read back. -/
theorem C39_negative_counterexample (x : Binary) (h : x.toInt < 0) : Binary.parse ('b' :: Binary.display x) = none := by
  obtain ⟨h1, h2⟩ := display_digits x
  rw [C39_parse _ h1, h2, if_neg]
  have h4 := BitVec.toInt_eq_toNat_cond x
  rw [h4] at h
  split at h <;> omega

example : Binary.parse (str "b0101") = some 5 ∧ BinaryDigits (str "0101") ∧ (-1 : Binary).toInt < 0 := by
  refine ⟨by decide, ⟨by decide, by decide⟩, by decide⟩

/-! ## C40: the operators -/

section
variable (K : Keys) (debug : Bool) (config : Config) (c : Context Binary)

theorem binary_provides (hc : Binary.context K debug config = .ok c) :
    Provides (c.view K) config [] (Binary.operators debug) [Binary.not] [] := by
  obtain ⟨c', hc', hp⟩ := C31_binary K debug config
  rw [hc] at hc'
  cases hc'
  exact hp

theorem binary_infix (hc : Binary.context K debug config = .ok c) (os : List (Op Binary)) {g : Named (BinFn Binary)}
    (hg : g ∈ Binary.operators debug) {k : Str} (hk : ∃ n ∈ g.names, CaseVariant n k) (x y : Binary) :
    evalTokens ((c.runAll K debug os).view K) (infixTokens x k y) = g.fn.call x y := by
  obtain ⟨n, hn, hv⟩ := hk
  refine eval_infix _ ((C26_never_replaced K debug c os _).2.2 _ ?_) x y
  exact (binary_provides K debug config c hc).binary.1 g hg n hn k hv
end

/-- The operator `k` between any two numbers gives a number whose bits are `f` of the bits of the operands. -/
def Bitwise (ctx : Ctx Binary) (k : Str) (f : Bool → Bool → Bool) : Prop :=
  ∀ x y : Binary, ∃ v, evalTokens ctx (infixTokens x k y) = .ok v ∧ ∀ i, i < 128 → v.getLsbD i = f (x.getLsbD i) (y.getLsbD i)

/-- The operator `k` between any two numbers gives 1 if `p` holds of them and 0 otherwise. -/
def Compares (ctx : Ctx Binary) (k : Str) (p : Int → Int → Bool) : Prop :=
  ∀ x y : Binary, ∃ v, evalTokens ctx (infixTokens x k y) = .ok v ∧ v.toInt = if p x.toInt y.toInt then 1 else 0

theorem Named1.names {g : Named (BinFn Binary)} {l : List String} {k : Str} (h : Named1 l k) (hl : g.name :: g.aliases = l.map str) :
    ∃ n ∈ g.names, CaseVariant n k := by
  obtain ⟨n, hn, hv⟩ := h
  refine ⟨str n, ?_, hv⟩
  show str n ∈ g.name :: g.aliases
  rw [hl]
  exact List.mem_map_of_mem hn

/-- C40. In the binary context, under every name and alias, in any case, and after any operations on the context: `&`, `|` and `^` act bit by
bit, and the comparisons give one for true and zero for false. -/
theorem C40_bitwise (K : Keys) (debug : Bool) (config : Config) (c : Context Binary) (hc : Binary.context K debug config = .ok c)
    (os : List (Op Binary)) (k : Str) :
    let ctx := (c.runAll K debug os).view K
    (Named1 ["&", "and"] k → Bitwise ctx k (· && ·)) ∧
    (Named1 ["|", "or"] k → Bitwise ctx k (· || ·)) ∧
    (Named1 ["^", "xor"] k → Bitwise ctx k (· != ·)) ∧
    (Named1 ["==", "eq", "equal"] k → Compares ctx k (· == ·)) ∧
    (Named1 ["!=", "ne", "no_equal"] k → Compares ctx k (· != ·)) ∧
    (Named1 [">", "gt"] k → Compares ctx k (fun x y => decide (x > y))) ∧
    (Named1 ["<", "lt"] k → Compares ctx k (fun x y => decide (x < y))) ∧
    (Named1 [">=", "gte"] k → Compares ctx k (fun x y => decide (x ≥ y))) ∧
    (Named1 ["<=", "lte"] k → Compares ctx k (fun x y => decide (x ≤ y))) := by
  intro ctx
  have hb : ∀ b : Bool, (Binary.ofBool b).toInt = if b then 1 else 0 := by decide
  refine ⟨fun h x y => ?_, fun h x y => ?_, fun h x y => ?_, fun h x y => ?_, fun h x y => ?_, fun h x y => ?_, fun h x y => ?_,
    fun h x y => ?_, fun h x y => ?_⟩
  · exact ⟨_, binary_infix K debug config c hc os (g := Binary.and) (by simp [Binary.operators]) (h.names rfl) x y,
      fun i hi => BitVec.getLsbD_and⟩
  · exact ⟨_, binary_infix K debug config c hc os (g := Binary.or) (by simp [Binary.operators]) (h.names rfl) x y,
      fun i hi => BitVec.getLsbD_or⟩
  · exact ⟨_, binary_infix K debug config c hc os (g := Binary.xor) (by simp [Binary.operators]) (h.names rfl) x y,
      fun i hi => BitVec.getLsbD_xor⟩
  · exact ⟨_, binary_infix K debug config c hc os (g := Binary.eq) (by simp [Binary.operators]) (h.names rfl) x y, by rw [hb]; simp⟩
  · exact ⟨_, binary_infix K debug config c hc os (g := Binary.ne) (by simp [Binary.operators]) (h.names rfl) x y, by rw [hb]; simp⟩
  · exact ⟨_, binary_infix K debug config c hc os (g := Binary.gt) (by simp [Binary.operators]) (h.names rfl) x y, by rw [hb]⟩
  · exact ⟨_, binary_infix K debug config c hc os (g := Binary.lt) (by simp [Binary.operators]) (h.names rfl) x y, by rw [hb]⟩
  · exact ⟨_, binary_infix K debug config c hc os (g := Binary.gte) (by simp [Binary.operators]) (h.names rfl) x y, by rw [hb]⟩
  · exact ⟨_, binary_infix K debug config c hc os (g := Binary.lte) (by simp [Binary.operators]) (h.names rfl) x y, by rw [hb]⟩

/-- C40. `~` and `not` in front of a number invert every bit. -/
theorem C40_not (K : Keys) (debug : Bool) (config : Config) (c : Context Binary) (hc : Binary.context K debug config = .ok c)
    (os : List (Op Binary)) (k : Str) (hk : Named1 ["~", "not"] k) (x : Binary) :
    ∃ v, evalTokens ((c.runAll K debug os).view K) [.unary k, .number x] = .ok v ∧
      (∀ i, i < 128 → v.getLsbD i = !x.getLsbD i) ∧ v.toInt = -x.toInt - 1 := by
  obtain ⟨n, hn, hv⟩ := hk
  have h1 : (c.view K).getUnary k = some Binary.not.fn := (binary_provides K debug config c hc).unary.1 Binary.not (by simp) (str n)
    (by show str n ∈ ["~", "not"].map str; exact List.mem_map_of_mem hn) k hv
  refine ⟨~~~x, ?_, fun i hi => by simp [hi], ?_⟩
  · exact eval_prefix _ ((C26_never_replaced K debug c os _).2.1 _ h1) rfl x
  · rw [BitVec.toInt_not]
    have := x.isLt
    rw [BitVec.toInt_eq_toNat_cond]
    simp only [Int.bmod]
    split <;> split <;> omega

/-- C40, shifts, the part that holds: by 0 to 127 bits, to the left dropping the bits that do not fit, to the right rounding down (keeping the
sign). Missing: other amounts, see the counterexample. -/
theorem C40_shift_partial (K : Keys) (debug : Bool) (config : Config) (c : Context Binary) (hc : Binary.context K debug config = .ok c)
    (os : List (Op Binary)) (k : Str) (x y : Binary) (m : Nat) (hm : y.toInt = m) (hlt : m < 128) :
    let ctx := (c.runAll K debug os).view K
    (Named1 ["<<", "shl"] k → ∃ v, evalTokens ctx (infixTokens x k y) = .ok v ∧
      ∀ i, i < 128 → v.getLsbD i = (decide (m ≤ i) && x.getLsbD (i - m))) ∧
    (Named1 [">>", "shr"] k → ∃ v, evalTokens ctx (infixTokens x k y) = .ok v ∧ v.toInt = x.toInt / (2 ^ m : Nat)) := by
  intro ctx
  have hy : y.toNat = m := by
    have := BitVec.toInt_eq_toNat_cond y
    have h2 := y.isLt
    rw [this] at hm
    split at hm <;> omega
  have hs : Binary.shiftAmount debug y = .ok m := by
    unfold Binary.shiftAmount
    rw [if_pos (by rw [hm]; omega), hy]
  refine ⟨fun h => ?_, fun h => ?_⟩
  · refine ⟨x <<< m, ?_, fun i hi => ?_⟩
    · refine (binary_infix K debug config c hc os (g := Binary.shl debug) (by simp [Binary.operators]) (h.names rfl) x y).trans ?_
      simp [Binary.shl, hs]
    · rw [BitVec.getLsbD_shiftLeft]
      by_cases hmi : m ≤ i
      · simp [hi, hmi]
      · simp [hi, hmi]
  · refine ⟨x.sshiftRight m, ?_, ?_⟩
    · refine (binary_infix K debug config c hc os (g := Binary.shr debug) (by simp [Binary.operators]) (h.names rfl) x y).trans ?_
      simp [Binary.shr, hs]
    · rw [BitVec.toInt_sshiftRight, Int.shiftRight_eq_div_pow]

/-- C40 is false for shifts by a negative number or by 128 and more: they panic in a debug build; a release build shifts by the amount
modulo 128. -/
theorem C40_shift_counterexample (K : Keys) (debug : Bool) (config : Config) (c : Context Binary) (hc : Binary.context K debug config = .ok c)
    (k : Str) (hk : Named1 ["<<", "shl"] k ∨ Named1 [">>", "shr"] k) (x y : Binary) (hy : ¬ (0 ≤ y.toInt ∧ y.toInt < 128)) :
    (debug = true → evalTokens (c.view K) (infixTokens x k y) = .panic) ∧
    (debug = false → evalTokens (c.view K) (infixTokens x k y) = evalTokens (c.view K) (infixTokens x k (y % 128))) := by
  have hr : ∀ z, (Named1 ["<<", "shl"] k → evalTokens (c.view K) (infixTokens x k z) = (Binary.shl debug).fn.call x z) ∧
      (Named1 [">>", "shr"] k → evalTokens (c.view K) (infixTokens x k z) = (Binary.shr debug).fn.call x z) := fun z =>
    ⟨fun h => binary_infix K debug config c hc [] (g := Binary.shl debug) (by simp [Binary.operators]) (h.names rfl) x z,
     fun h => binary_infix K debug config c hc [] (g := Binary.shr debug) (by simp [Binary.operators]) (h.names rfl) x z⟩
  have h1 : Binary.shiftAmount debug y = if debug then .panic else .ok (y.toNat % 128) := by
    unfold Binary.shiftAmount; rw [if_neg hy]
  have h3 : (y % 128).toNat = y.toNat % 128 := by rw [BitVec.toNat_umod]; rfl
  have h4 : (y % 128).toInt = (y.toNat % 128 : Nat) := by
    rw [BitVec.toInt_eq_toNat_cond, h3]
    split <;> omega
  have h2 : Binary.shiftAmount debug (y % 128) = .ok (y.toNat % 128) := by
    unfold Binary.shiftAmount; rw [if_pos (by rw [h4]; omega), h3]
  constructor <;> intro hd <;> subst hd <;> rcases hk with hk | hk
  · rw [(hr y).1 hk]; simp [Binary.shl, h1]
  · rw [(hr y).2 hk]; simp [Binary.shr, h1]
  · rw [(hr y).1 hk, (hr _).1 hk]; simp only [Binary.shl, h1, h2]; rfl
  · rw [(hr y).2 hk, (hr _).2 hk]; simp only [Binary.shr, h1, h2]; rfl

/-- The context exists, so the theorems apply: `b110 and b011`, and `1 << 200` in a debug build. -/
example : ∃ c, Binary.context Demo.keys true Config.new = .ok c ∧
    (∃ v, evalTokens (c.view Demo.keys) (infixTokens 6 (str "AND") 3) = .ok v ∧ ∀ i, i < 128 → v.getLsbD i = ((6 : Binary).getLsbD i && (3 : Binary).getLsbD i)) ∧
    (∃ v, evalTokens (c.view Demo.keys) (infixTokens (-5) (str ">>") 1) = .ok v ∧ v.toInt = -3) ∧
    evalTokens (c.view Demo.keys) (infixTokens 1 (str "<<") 200) = .panic := by
  obtain ⟨c, hc, -⟩ := binary_build Demo.keys true Config.new
  refine ⟨c, hc, (C40_bitwise Demo.keys true Config.new c hc [] (str "AND")).1 ⟨"and", by simp, by decide⟩ 6 3, ?_, ?_⟩
  · exact (C40_shift_partial Demo.keys true Config.new c hc [] (str ">>") (-5) 1 1 (by decide) (by decide)).2 ⟨">>", by simp, by decide⟩
  · exact (C40_shift_counterexample Demo.keys true Config.new c hc (str "<<") (.inl ⟨"<<", by simp, by decide⟩) 1 200 (by decide)).1 rfl

/-! ## C60: how the operators group -/

/-- The names of the operators in groups, from the one that binds tightest in C and Rust to the loosest. -/
def cLevels : List (List String) :=
  [["<<", "shl", ">>", "shr"], [">", "gt", "<", "lt", ">=", "gte", "<=", "lte"], ["==", "eq", "equal", "!=", "ne", "no_equal"],
   ["&", "and"], ["^", "xor"], ["|", "or"]]

/-- The precedences of the groups in the context. -/
def cPrecs : List Nat := [7, 9, 10, 11, 12, 13]

theorem cLevels_names (debug : Bool) : ∀ n ∈ cLevels.zip cPrecs, ∀ s ∈ n.1, ∃ g ∈ Binary.operators debug, str s ∈ g.name :: g.aliases ∧
    g.fn.prec = n.2 ∧ g.fn.assoc = .left := by
  intro n hn s hs
  simp only [cLevels, cPrecs, List.zip_cons_cons, List.zip_nil_right, List.mem_cons, List.not_mem_nil, or_false] at hn
  rcases hn with rfl | rfl | rfl | rfl | rfl | rfl <;>
    simp only [List.mem_cons, List.not_mem_nil, or_false] at hs
  · rcases hs with rfl | rfl | rfl | rfl
    · exact ⟨Binary.shl debug, by simp [Binary.operators], by cases debug <;> decide, rfl, rfl⟩
    · exact ⟨Binary.shl debug, by simp [Binary.operators], by cases debug <;> decide, rfl, rfl⟩
    · exact ⟨Binary.shr debug, by simp [Binary.operators], by cases debug <;> decide, rfl, rfl⟩
    · exact ⟨Binary.shr debug, by simp [Binary.operators], by cases debug <;> decide, rfl, rfl⟩
  · rcases hs with rfl | rfl | rfl | rfl | rfl | rfl | rfl | rfl
    · exact ⟨Binary.gt, by simp [Binary.operators], by decide, rfl, rfl⟩
    · exact ⟨Binary.gt, by simp [Binary.operators], by decide, rfl, rfl⟩
    · exact ⟨Binary.lt, by simp [Binary.operators], by decide, rfl, rfl⟩
    · exact ⟨Binary.lt, by simp [Binary.operators], by decide, rfl, rfl⟩
    · exact ⟨Binary.gte, by simp [Binary.operators], by decide, rfl, rfl⟩
    · exact ⟨Binary.gte, by simp [Binary.operators], by decide, rfl, rfl⟩
    · exact ⟨Binary.lte, by simp [Binary.operators], by decide, rfl, rfl⟩
    · exact ⟨Binary.lte, by simp [Binary.operators], by decide, rfl, rfl⟩
  · rcases hs with rfl | rfl | rfl | rfl | rfl | rfl
    · exact ⟨Binary.eq, by simp [Binary.operators], by decide, rfl, rfl⟩
    · exact ⟨Binary.eq, by simp [Binary.operators], by decide, rfl, rfl⟩
    · exact ⟨Binary.eq, by simp [Binary.operators], by decide, rfl, rfl⟩
    · exact ⟨Binary.ne, by simp [Binary.operators], by decide, rfl, rfl⟩
    · exact ⟨Binary.ne, by simp [Binary.operators], by decide, rfl, rfl⟩
    · exact ⟨Binary.ne, by simp [Binary.operators], by decide, rfl, rfl⟩
  · rcases hs with rfl | rfl <;> exact ⟨Binary.and, by simp [Binary.operators], by decide, rfl, rfl⟩
  · rcases hs with rfl | rfl <;> exact ⟨Binary.xor, by simp [Binary.operators], by decide, rfl, rfl⟩
  · rcases hs with rfl | rfl <;> exact ⟨Binary.or, by simp [Binary.operators], by decide, rfl, rfl⟩

theorem level_found {K : Keys} {debug : Bool} {config : Config} {c : Context Binary} (hc : Binary.context K debug config = .ok c)
    (os : List (Op Binary)) {i : Nat} {names : List String} (hi : cLevels[i]? = some names) {k : Str} (hk : Named1 names k) :
    ∃ p g, cPrecs[i]? = some p ∧ ((c.runAll K debug os).view K).getBinary k = some g ∧ g.prec = p ∧ g.assoc = .left := by
  obtain ⟨n, hn, hv⟩ := hk
  have hlen : i < 6 := by
    have := (List.getElem?_eq_some_iff.mp hi).1
    simpa [cLevels] using this
  obtain ⟨p, hp⟩ : ∃ p, cPrecs[i]? = some p := by
    rw [List.getElem?_eq_getElem (by simpa [cPrecs] using hlen)]; exact ⟨_, rfl⟩
  have hz : (names, p) ∈ cLevels.zip cPrecs := by
    refine List.mem_of_getElem? (i := i) ?_
    simp [List.getElem?_zip_eq_some, hi, hp]
  obtain ⟨g, hg, hn', h1, h2⟩ := cLevels_names debug _ hz n hn
  exact ⟨p, g.fn, hp, (C26_never_replaced K debug c os _).2.2 _ ((binary_provides K debug config c hc).binary.1 g hg _ hn' k hv), h1, h2⟩

theorem cPrecs_mono {i j p q : Nat} (hi : cPrecs[i]? = some p) (hj : cPrecs[j]? = some q) (h : i < j) : p < q := by
  have hs : cPrecs.Pairwise (· < ·) := by decide
  obtain ⟨h1, rfl⟩ := List.getElem?_eq_some_iff.mp hi
  obtain ⟨h2, rfl⟩ := List.getElem?_eq_some_iff.mp hj
  exact List.pairwise_iff_getElem.mp hs i j h1 h2 h

section
variable {N : Type} (ctx : Ctx N) {a b : Str} {fa fb : BinFn N} (ha : ctx.getBinary a = some fa) (hb : ctx.getBinary b = some fb) (x y z : N)

include ha hb in
theorem eval_three_right (h : ¬ GroupsLeft ctx a b) :
    evalTokens ctx [.number x, .binary a, .number y, .binary b, .number z] =
      evalTokens ctx [.number x, .binary a, .gopen '(', .number y, .binary b, .number z, .gclose ')'] := by
  have h1 := C01_eval_eq_denote ctx (.bin a (.atom (.num x)) (.bin b (.atom (.num y)) (.atom (.num z))))
    ⟨⟨fa, ha⟩, by simp [Expr.rightSpine], by simpa [Expr.leftSpine] using h, trivial,
      ⟨fb, hb⟩, by simp [Expr.rightSpine], by simp [Expr.leftSpine], trivial, trivial⟩
  have h2 := C01_eval_eq_denote ctx (.bin a (.atom (.num x)) (.paren .parenthesis (.bin b (.atom (.num y)) (.atom (.num z)))))
    ⟨⟨fa, ha⟩, by simp [Expr.rightSpine], by simp [Expr.leftSpine], trivial,
      ⟨fb, hb⟩, by simp [Expr.rightSpine], by simp [Expr.leftSpine], trivial, trivial⟩
  exact h1.trans h2.symm

include ha hb in
theorem eval_three_left (h : GroupsLeft ctx a b) :
    evalTokens ctx [.number x, .binary a, .number y, .binary b, .number z] =
      evalTokens ctx [.gopen '(', .number x, .binary a, .number y, .gclose ')', .binary b, .number z] := by
  have h1 := C01_eval_eq_denote ctx (.bin b (.bin a (.atom (.num x)) (.atom (.num y))) (.atom (.num z)))
    ⟨⟨fb, hb⟩, by simpa [Expr.rightSpine] using h, by simp [Expr.leftSpine],
      ⟨⟨fa, ha⟩, by simp [Expr.rightSpine], by simp [Expr.leftSpine], trivial, trivial⟩, trivial⟩
  have h2 := C01_eval_eq_denote ctx (.bin b (.paren .parenthesis (.bin a (.atom (.num x)) (.atom (.num y)))) (.atom (.num z)))
    ⟨⟨fb, hb⟩, by simp [Expr.rightSpine], by simp [Expr.leftSpine],
      ⟨⟨fa, ha⟩, by simp [Expr.rightSpine], by simp [Expr.leftSpine], trivial, trivial⟩, trivial⟩
  exact h1.trans h2.symm
end

/-- C60, the part that holds: operators of one group (such as `<<` and `>>`, or `<` and `>=`) are evaluated from left to right. Missing:
operators of different groups, see the counterexample. -/
theorem C60_same_group_partial (K : Keys) (debug : Bool) (config : Config) (c : Context Binary) (hc : Binary.context K debug config = .ok c)
    (os : List (Op Binary)) (i : Nat) (names : List String) (hi : cLevels[i]? = some names) (a b : Str) (ha : Named1 names a) (hb : Named1 names b)
    (x y z : Binary) :
    let ctx := (c.runAll K debug os).view K
    evalTokens ctx [.number x, .binary a, .number y, .binary b, .number z] =
      evalTokens ctx [.gopen '(', .number x, .binary a, .number y, .gclose ')', .binary b, .number z] := by
  intro ctx
  obtain ⟨p, f, h1, h2, h3, h4⟩ := level_found hc os hi ha
  obtain ⟨q, g, h5, h6, h7, h8⟩ := level_found hc os hi hb
  rw [h1] at h5
  cases h5
  exact eval_three_left ctx h2 h6 x y z ⟨f, g, h2, h6, .inr ⟨by rw [h3, h7], h4⟩⟩

/-- C60 is false for any two operators of different groups: the one that binds tighter in C and Rust binds looser in the binary context.
Here `a` binds tighter than `b` in C, and `x a y b z` means `x a (y b z)`, `x b y a z` means `(x b y) a z`. -/
theorem C60_reversed_counterexample (K : Keys) (debug : Bool) (config : Config) (c : Context Binary)
    (hc : Binary.context K debug config = .ok c) (os : List (Op Binary)) (i j : Nat) (hij : i < j) (ns ms : List String)
    (hi : cLevels[i]? = some ns) (hj : cLevels[j]? = some ms) (a b : Str) (ha : Named1 ns a) (hb : Named1 ms b) (x y z : Binary) :
    let ctx := (c.runAll K debug os).view K
    evalTokens ctx [.number x, .binary a, .number y, .binary b, .number z] =
      evalTokens ctx [.number x, .binary a, .gopen '(', .number y, .binary b, .number z, .gclose ')'] ∧
    evalTokens ctx [.number x, .binary b, .number y, .binary a, .number z] =
      evalTokens ctx [.gopen '(', .number x, .binary b, .number y, .gclose ')', .binary a, .number z] := by
  intro ctx
  obtain ⟨p, f, h1, h2, h3, h4⟩ := level_found hc os hi ha
  obtain ⟨q, g, h5, h6, h7, h8⟩ := level_found hc os hj hb
  have hpq := cPrecs_mono h1 h5 hij
  refine ⟨eval_three_right ctx h2 h6 x y z ?_, eval_three_left ctx h6 h2 x y z ⟨g, f, h6, h2, .inl (by omega)⟩⟩
  rintro ⟨f', g', e1, e2, h⟩
  rw [h2] at e1
  rw [h6] at e2
  cases e1; cases e2
  omega

/-- `b1 | b1 & b0` is 0; in C and Rust it is 1. -/
example : ∃ c, Binary.context Demo.keys false Config.new = .ok c ∧
    evalTokens (c.view Demo.keys) [.number 1, .binary ['|'], .number 1, .binary ['&'], .number 0] = .ok 0 := by
  obtain ⟨c, hc, hv⟩ := binary_build Demo.keys false Config.new
  refine ⟨c, hc, ?_⟩
  rw [hv]
  decide +kernel

end Prexel
