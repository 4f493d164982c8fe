import Verif.Model.Logical
import Verif.Spec.Logical
import Verif.Props.Arith
import Verif.Props.Tokenizer
import Verif.Lemmas.Builtin
import Verif.Lemmas.Numerals
/-!
# C121: the logical example
-/

namespace Prexel
open Logical
variable {N : Type}

/-- The meaning of the connectives. -/
def Logical.Bits.sem (B : Bits N) : Connective → N → N → N
  | .and => B.and_
  | .xor => B.xor_
  | .or => B.or_

def logicalCtx (B : Bits N) : Ctx N :=
  tablesCtx Config.new [(str "true", B.yes), (str "false", B.no)] [andOp B, orOp B, xorOp B] [] []

theorem logical_tables (B : Bits N) :
    Tables [(str "true", B.yes), (str "false", B.no)] [andOp B, orOp B, xorOp B] ([] : List (Named (UnFn N))) ([] : List (Named (Fn N))) := by
  refine ⟨?_, ?_, ?_, ?_⟩
  · exact (by decide +kernel : GoodNames [str "true", str "false"])
  · exact (by decide +kernel : GoodNames [str "and", str "or", str "xor"])
  · exact (by decide : GoodNames [])
  · exact (by decide : GoodNames [])

theorem logical_build (K : Keys) (debug : Bool) (B : Bits N) : ∃ c, context K debug B = .ok c ∧ c.view K = logicalCtx B :=
  build_ok K debug Config.new (logical_tables B)

theorem logical_binary (B : Bits N) (op : Connective) :
    (logicalCtx B).getBinary op.word = some ⟨op.level, .left, fun x y => .ok (B.sem op x y)⟩ := by
  cases op <;> rfl

theorem logical_unary (B : Bits N) (s : Str) : (logicalCtx B).getUnary s = none := rfl
theorem logical_function (B : Bits N) (s : Str) : (logicalCtx B).getFunction s = none := rfl
theorem logical_variable (B : Bits N) (s : Str) : (logicalCtx B).getVariable s = none := rfl

theorem logical_names (B : Bits N) {s : Str} (h : (logicalCtx B).getBinary s ≠ none) :
    hashInput s = ['a', 'n', 'd'] ∨ hashInput s = ['o', 'r'] ∨ hashInput s = ['x', 'o', 'r'] := by
  have h1 : (lookup hashSame [andOp B, orOp B, xorOp B] s).isSome = true := Option.isSome_iff_ne_none.mpr h
  rw [lookup_isSome] at h1
  obtain ⟨n, hn, hk⟩ := h1
  have hk : hashInput n = hashInput s := by simpa [hashSame] using hk
  have hn : n = str "and" ∨ n = str "or" ∨ n = str "xor" := by simpa [Named.names, andOp, orOp, xorOp] using hn
  rw [← hk]
  rcases hn with rfl | rfl | rfl
  · left; decide
  · right; left; decide
  · right; right; decide

theorem logical_lexical (B : Bits N) : Lexical (logicalCtx B) := by
  have two : ∀ {s}, (logicalCtx B).getBinary s ≠ none → ∃ c d t, s = c :: d :: t ∧ c.toNat < 128 := by
    intro s h
    have hl : 2 ≤ (hashInput s).length := by rcases logical_names B h with h | h | h <;> rw [h] <;> decide
    have ha : ∀ x ∈ hashInput s, x.toNat < 128 := by rcases logical_names B h with h | h | h <;> rw [h] <;> decide
    match s, hl, ha with
    | c :: d :: t, _, ha =>
      refine ⟨c, d, t, rfl, ?_⟩
      have := ha (asciiLower c) (by simp [hashInput])
      have e := asciiLower_ascii c
      simp only [isAscii] at e
      simpa [this] using e.symm
    | [c], hl, _ => simp [hashInput] at hl
    | [], hl, _ => simp [hashInput] at hl
  refine ⟨?_, ?_, ?_, ?_⟩
  · rintro s (h | h)
    · exact absurd (logical_unary B s) h
    · obtain ⟨c, d, t, rfl, hc⟩ := two h
      exact ⟨c, d :: t, rfl, hc⟩
  · rintro c (h | h)
    · exact absurd (logical_unary B _) h
    · obtain ⟨x, d, t, hx, _⟩ := two h
      cases hx
  · intro c t _
    exact .inl (logical_unary B _)
  · intro c t f h
    exact absurd h (by rw [logical_unary]; simp)

/-- The tree that the words mean. `leaf` says how a leaf is read. -/
def Logic.tree (leaf : Str → N → Atom N) (p : Nat) : Logic N → Expr N
  | .leaf w v => .atom (leaf w v)
  | .node op l r =>
    let inner := .bin op.word (l.tree leaf op.level) (r.tree leaf (op.level + 1))
    if op.level < p then .paren .parenthesis inner else inner

theorem logical_groups (B : Bits N) (a b : Connective) : GroupsLeft (logicalCtx B) a.word b.word ↔ b.level ≤ a.level := by
  simp only [GroupsLeft, logical_binary, Option.some.injEq]
  constructor
  · rintro ⟨_, _, rfl, rfl, h⟩
    simp only [and_true] at h
    omega
  · intro h
    refine ⟨_, _, rfl, rfl, ?_⟩
    simp only [and_true]
    omega

theorem Logic.tree_right (leaf : Str → N → Atom N) (p : Nat) (e : Logic N) : ∀ a ∈ (e.tree leaf p).rightSpine, ∃ o : Connective, a = .bin o.word ∧ p ≤ o.level := by
  induction e generalizing p with
  | leaf w v => simp [Logic.tree, Expr.rightSpine]
  | node op l r _ ih =>
    simp only [Logic.tree]
    split
    · simp [Expr.rightSpine]
    · intro a ha
      simp only [Expr.rightSpine, List.mem_append, List.mem_singleton] at ha
      rcases ha with ha | rfl
      · obtain ⟨o, h1, h2⟩ := ih (op.level + 1) a ha
        exact ⟨o, h1, by omega⟩
      · exact ⟨op, rfl, by omega⟩

theorem Logic.tree_left (leaf : Str → N → Atom N) (p : Nat) (e : Logic N) : ∀ a ∈ (e.tree leaf p).leftSpine, ∃ o : Connective, a = o.word ∧ p ≤ o.level := by
  induction e generalizing p with
  | leaf w v => simp [Logic.tree, Expr.leftSpine]
  | node op l r ih _ =>
    simp only [Logic.tree]
    split
    · simp [Expr.leftSpine]
    · intro a ha
      simp only [Expr.leftSpine, List.mem_append, List.mem_singleton] at ha
      rcases ha with ha | rfl
      · obtain ⟨o, h1, h2⟩ := ih op.level a ha
        exact ⟨o, h1, by omega⟩
      · exact ⟨op, rfl, by omega⟩

theorem Logic.tree_wf (B : Bits N) (leaf : Str → N → Atom N) (p : Nat) (e : Logic N) : (e.tree leaf p).WF (logicalCtx B) := by
  induction e generalizing p with
  | leaf w v => trivial
  | node op l r ihl ihr =>
    have : (Expr.bin op.word (l.tree leaf op.level) (r.tree leaf (op.level + 1))).WF (logicalCtx B) := by
      refine ⟨⟨_, logical_binary B op⟩, ?_, ?_, ihl _, ihr _⟩
      · intro a ha
        obtain ⟨o, rfl, ho⟩ := Logic.tree_right leaf _ l a ha
        exact ⟨_, rfl, (logical_groups B o op).2 ho⟩
      · intro b hb hg
        obtain ⟨o, rfl, ho⟩ := Logic.tree_left leaf _ r b hb
        have := (logical_groups B op o).1 hg
        omega
    simp only [Logic.tree]
    split
    · exact this
    · exact this

theorem Logic.tree_plain (B : Bits N) (leaf : Str → N → Atom N) (p : Nat) (e : Logic N) : (e.tree leaf p).Plain (logicalCtx B) := by
  induction e generalizing p with
  | leaf w v => trivial
  | node op l r ihl ihr =>
    simp only [Logic.tree]
    split
    · exact ⟨ihl _, ihr _⟩
    · exact ⟨ihl _, ihr _⟩

theorem Logic.tree_denote (B : Bits N) (leaf : Str → N → Atom N) (p : Nat) (e : Logic N)
    (h : e.Leaves fun w v => (leaf w v).denote (logicalCtx B) = .ok v) : (e.tree leaf p).denote (logicalCtx B) = .ok (e.value B.sem) := by
  induction e generalizing p with
  | leaf w v => exact h
  | node op l r ihl ihr =>
    have : (Expr.bin op.word (l.tree leaf op.level) (r.tree leaf (op.level + 1))).denote (logicalCtx B) = .ok (B.sem op (l.value B.sem) (r.value B.sem)) := by
      simp only [Expr.denote, ihl _ h.1, ihr _ h.2, logical_binary]
      rfl
    simp only [Logic.tree]
    split
    · exact this
    · exact this

/-- The words that are always there. -/
def LogicalRead (parse : Str → Option N) : Prop :=
  ∀ w ∈ [str "and", str "or", str "xor", ['('], [')']], parse w = none

theorem Pairwise2.append' {α β : Type} {R : α → β → Prop} {xs xs' : List α} {ys ys' : List β} (h : Pairwise2 R xs ys) (h' : Pairwise2 R xs' ys') :
    Pairwise2 R (xs ++ xs') (ys ++ ys') := by
  induction h with
  | nil => exact h'
  | cons hab _ ih => exact .cons hab ih

theorem Logic.tree_words (B : Bits N) (parse : Str → Option N) (hr : LogicalRead parse) (leaf : Str → N → Atom N) (p : Nat) (e : Logic N)
    (h : e.Leaves fun w v => StandsFor parse (logicalCtx B) w (leaf w v).token) :
    Pairwise2 (StandsFor parse (logicalCtx B)) (e.words p) (e.tree leaf p).render := by
  induction e generalizing p with
  | leaf w v => exact .cons h .nil
  | node op l r ihl ihr =>
    have hop : StandsFor parse (logicalCtx B) op.word (.binary op.word) := by
      refine ⟨rfl, ⟨?_, rfl, ?_, rfl⟩, .inl ?_⟩
      · exact hr _ (by cases op <;> decide)
      · cases op <;> rfl
      · rw [logical_binary]; simp
    have := Pairwise2.append' (ihl op.level h.1) (.cons hop (ihr (op.level + 1) h.2))
    simp only [Logic.tree, Logic.words]
    split
    · have ho : StandsFor parse (logicalCtx B) ['('] (.gopen '(') :=
        ⟨rfl, by decide, ⟨hr _ (by decide), rfl, rfl, rfl⟩, rfl, rfl⟩
      have hc : StandsFor parse (logicalCtx B) [')'] (.gclose ')') :=
        ⟨rfl, by decide, ⟨hr _ (by decide), rfl, rfl, rfl⟩, rfl, rfl⟩
      exact .cons ho (Pairwise2.append' this (.cons hc .nil))
    · exact this

theorem Logic.words_single (p : Nat) (e : Logic N) (h : e.Leaves fun w _ => split defaultRules w = [w]) :
    ∀ w ∈ e.words p, split defaultRules w = [w] := by
  induction e generalizing p with
  | leaf w v =>
    have h : split defaultRules w = [w] := h
    simpa [Logic.words] using h
  | node op l r ihl ihr =>
    have hi : ∀ w ∈ l.words op.level ++ op.word :: r.words (op.level + 1), split defaultRules w = [w] := by
      intro w hw
      simp only [List.mem_append, List.mem_cons] at hw
      rcases hw with hw | rfl | hw
      · exact ihl _ h.1 w hw
      · cases op <;> decide
      · exact ihr _ h.2 w hw
    simp only [Logic.words]
    split
    · intro w hw
      simp only [List.mem_append, List.mem_cons, List.not_mem_nil, or_false] at hw
      rcases hw with rfl | hw | rfl
      · decide
      · exact hi w (by simpa using hw)
      · decide
    · exact hi

theorem Logic.Leaves.mono {ok ok' : Str → N → Prop} (h : ∀ w v, ok w v → ok' w v) {e : Logic N} (he : e.Leaves ok) : e.Leaves ok' := by
  induction e with
  | leaf w v => exact h w v he
  | node op l r ihl ihr => exact ⟨ihl he.1, ihr he.2⟩

theorem logical_text (K : Keys) (debug : Bool) (B : Bits N) (parse : Str → Option N) (hr : LogicalRead parse) (leaf : Str → N → Atom N)
    {ok : Str → N → Prop} (h1 : ∀ w v, ok w v → split defaultRules w = [w]) (h2 : ∀ w v, ok w v → StandsFor parse (logicalCtx B) w (leaf w v).token)
    (h3 : ∀ w v, ok w v → (leaf w v).denote (logicalCtx B) = .ok v) :
    ∃ c, context K debug B = .ok c ∧ ∀ (e : Logic N) (s : Str), e.Leaves ok → Spaced (e.words 0) s →
      eval parse (split defaultRules) (c.view K) s = .ok (e.value B.sem) := by
  obtain ⟨c, hc, hv⟩ := logical_build K debug B
  refine ⟨c, hc, fun e s he hs => ?_⟩
  rw [hv, C23_spaced_text parse defaultRules_good defaultRules_skips (logicalCtx B) rfl (logical_lexical B) (e.tree leaf 0) (Logic.tree_wf B leaf 0 e)
    (Logic.tree_plain B leaf 0 e) (e.words 0) s (Logic.words_single 0 e (he.mono h1)) (Logic.tree_words B parse hr leaf 0 e (he.mono h2)) hs]
  exact Logic.tree_denote B leaf 0 e (he.mono h3)

/-- C121, for `bool`: every logical expression, written with the parentheses that it needs, evaluates to its truth value. -/
theorem C121_bool (K : Keys) (debug : Bool) :
    ∃ c, context K debug bool = .ok c ∧ ∀ (e : Logic Bool) (s : Str),
      e.Leaves (fun w v => (w = str "true" ∧ v = true) ∨ (w = str "false" ∧ v = false)) → Spaced (e.words 0) s →
      eval parseBool (split defaultRules) (c.view K) s =
        .ok (e.value fun op x y => match op with | .and => x && y | .xor => x != y | .or => x || y) := by
  have := logical_text K debug bool parseBool (by unfold LogicalRead; decide +kernel) (fun _ v => .num v)
    (ok := fun w v => (w = str "true" ∧ v = true) ∨ (w = str "false" ∧ v = false))
    (by rintro w v (⟨rfl, rfl⟩ | ⟨rfl, rfl⟩) <;> decide +kernel)
    (by rintro w v (⟨rfl, rfl⟩ | ⟨rfl, rfl⟩)
        · show parseBool (str "true") = some true; decide +kernel
        · show parseBool (str "false") = some false; decide +kernel)
    (fun _ _ _ => rfl)
  obtain ⟨c, hc, h⟩ := this
  refine ⟨c, hc, fun e s he hs => (h e s he hs).trans ?_⟩
  have : (bool.sem : Connective → Bool → Bool → Bool) = fun op x y => match op with | .and => x && y | .xor => x != y | .or => x || y := by
    funext op x y; cases op <;> cases x <;> cases y <;> rfl
  rw [this]

theorem parseU8_digits {w : Str} {v : BitVec 8} (hd : Digits w) (hv : digitsValue w = v.toNat) : parseU8 w = some v := by
  obtain ⟨hne, hd⟩ := hd
  have hp : ∀ r, w ≠ '+' :: r := by
    rintro r rfl
    exact absurd (hd '+' (by simp)) (by decide)
  have h1 := digits_value 0 w fun c hc => isDigit_iff.2 (hd c hc)
  unfold parseU8
  simp only [hne, if_false, h1]
  have h2 : v.toNat < 256 := v.isLt
  have h3 : w.foldl (fun a c => 10 * a + (c.toNat - 48)) 0 = v.toNat := hv
  simp only [h3, h2, if_true]
  simp

/-- C121, for `u8`: the same with the bits of numbers, where leaves are numbers from 0 to 255, or `true` for 1 and `false` for 0. -/
theorem C121_u8 (K : Keys) (debug : Bool) :
    ∃ c, context K debug u8 = .ok c ∧ ∀ (e : Logic (BitVec 8)) (s : Str),
      e.Leaves (fun w v => (Digits w ∧ digitsValue w = v.toNat) ∨ (w = str "true" ∧ v = 1) ∨ (w = str "false" ∧ v = 0)) → Spaced (e.words 0) s →
      eval parseU8 (split defaultRules) (c.view K) s =
        .ok (e.value fun op x y => match op with | .and => x &&& y | .xor => x ^^^ y | .or => x ||| y) := by
  have := logical_text K debug u8 parseU8 (by unfold LogicalRead; decide +kernel)
    (fun w v => if (parseU8 w).isSome then .num v else .const w)
    (ok := fun w v => (Digits w ∧ digitsValue w = v.toNat) ∨ (w = str "true" ∧ v = 1) ∨ (w = str "false" ∧ v = 0))
    (by
      rintro w v (⟨hd, _⟩ | ⟨rfl, rfl⟩ | ⟨rfl, rfl⟩)
      · exact split_numberWord defaultRules_plain (.numeral (.whole hd))
      · decide +kernel
      · decide +kernel)
    (by
      rintro w v (⟨hd, hv⟩ | ⟨rfl, rfl⟩ | ⟨rfl, rfl⟩)
      · have := parseU8_digits hd hv
        simp only [this, Option.isSome_some, if_true]
        exact this
      · have : parseU8 (str "true") = none := by decide +kernel
        simp only [this, Option.isSome_none, Bool.false_eq_true, if_false]
        exact ⟨rfl, this, rfl, by
          have : (logicalCtx u8).getConstant (str "true") = some 1 := rfl
          rw [this]; simp⟩
      · have : parseU8 (str "false") = none := by decide +kernel
        simp only [this, Option.isSome_none, Bool.false_eq_true, if_false]
        exact ⟨rfl, this, rfl, by
          have : (logicalCtx u8).getConstant (str "false") = some 0 := rfl
          rw [this]; simp⟩)
    (by
      rintro w v (⟨hd, hv⟩ | ⟨rfl, rfl⟩ | ⟨rfl, rfl⟩)
      · simp only [parseU8_digits hd hv, Option.isSome_some, if_true]
        rfl
      · have : parseU8 (str "true") = none := by decide +kernel
        simp only [this, Option.isSome_none, Bool.false_eq_true, if_false]
        rfl
      · have : parseU8 (str "false") = none := by decide +kernel
        simp only [this, Option.isSome_none, Bool.false_eq_true, if_false]
        rfl)
  obtain ⟨c, hc, h⟩ := this
  refine ⟨c, hc, fun e s he hs => (h e s he hs).trans ?_⟩
  have : (u8.sem : Connective → BitVec 8 → BitVec 8 → BitVec 8) = fun op x y => match op with | .and => x &&& y | .xor => x ^^^ y | .or => x ||| y := by
    funext op x y; cases op <;> rfl
  rw [this]

/-- `(6 xor true) or 8 and 255` in the context for `u8`: `or` binds before `and`, and a parenthesis is needed around `xor`. -/
example : let e : Logic (BitVec 8) := .node .and (.node .or (.node .xor (.leaf ['6'] 6) (.leaf (str "true") 1)) (.leaf ['8'] 8)) (.leaf ['2', '5', '5'] 255)
    e.words 0 = [['('], ['6'], str "xor", str "true", [')'], str "or", ['8'], str "and", ['2', '5', '5']] ∧
    e.value (fun op x y => match op with | .and => x &&& y | .xor => x ^^^ y | .or => x ||| y) = 15 ∧
    e.Leaves fun w v => (Digits w ∧ digitsValue w = v.toNat) ∨ (w = str "true" ∧ v = 1) ∨ (w = str "false" ∧ v = 0) := by
  refine ⟨by decide +kernel, by decide +kernel, ⟨⟨.inl ⟨⟨by decide, by decide⟩, by decide⟩, .inr (.inl ⟨rfl, rfl⟩)⟩, .inl ⟨⟨by decide, by decide⟩, by decide⟩⟩,
    .inl ⟨⟨by decide, by decide⟩, by decide⟩⟩

/-- C121. The precedences are not the usual ones: without parentheses `true or true and false` is false, because `or` binds tighter than `and`. -/
theorem C121_precedence_counterexample (K : Keys) (debug : Bool) :
    ∃ c, context K debug bool = .ok c ∧ eval parseBool (split defaultRules) (c.view K) (str "true or true and false") = .ok false := by
  obtain ⟨c, hc, hv⟩ := logical_build K debug bool
  exact ⟨c, hc, by rw [hv]; decide +kernel⟩

end Prexel
