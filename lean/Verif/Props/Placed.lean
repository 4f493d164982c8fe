import Verif.Lemmas.PlacedUnique
import Verif.Props.Tokenizer
/-!
# C129: every sensibly written expression has exactly one tree
-/

namespace Prexel
variable {N : Type}

/-- C129. A token list is one in which every token is in a possible place exactly when it is the writing of a tree that the registered precedences and
associativities dictate. -/
theorem C129_tree (c : Ctx N) (ts : List (Token N)) : WellPlaced c [] none ts ↔ ∃ e : Expr N, e.WF c ∧ e.render = ts := by
  refine ⟨wellPlaced_tree, ?_⟩
  rintro ⟨e, he, rfl⟩
  exact wellPlaced_render he

/-- C129. There is exactly one such tree, and evaluation gives the value of that tree. -/
theorem C129_unique (c : Ctx N) (ts : List (Token N)) (h : WellPlaced c [] none ts) :
    ∃ e : Expr N, e.WF c ∧ e.render = ts ∧ (∀ e' : Expr N, e'.WF c → e'.render = ts → e' = e) ∧
      infixToRpn c ts = .ok e.postfix ∧ evalTokens c ts = e.denote c := by
  obtain ⟨e, he, rfl⟩ := wellPlaced_tree h
  exact ⟨e, he, rfl, fun e' h1 h2 => tree_unique h1 he h2, infixToRpn_render c e he, C01_eval_eq_denote c e he⟩

/-- C129 for texts: whatever the splitter does, if the tokens of the text are well placed, the text has the value of their only tree. -/
theorem C129_text (parse : Str → Option N) (split : Str → List Str) (c : Ctx N) (s : Str) (ts : List (Token N)) (ht : tokenize parse split c s = .ok ts)
    (h : WellPlaced c [] none ts) :
    ∃ e : Expr N, e.WF c ∧ e.render = ts ∧ (∀ e' : Expr N, e'.WF c → e'.render = ts → e' = e) ∧ eval parse split c s = e.denote c := by
  obtain ⟨e, h1, h2, h3, -, h5⟩ := C129_unique c ts h
  exact ⟨e, h1, h2, h3, by unfold eval; rw [ht, Res.bind_ok, h5]⟩

/-- Three signs, a bracket inside a call, a product without a sign: `-2x^2*-sum(1,[x])%`. -/
def placedSample : List (Token Int) :=
  [.unary ['-'], .number 2, .variable_ ['x'], .binary ['^'], .number 2, .binary ['*'], .unary ['-'], .function ['s', 'u', 'm'], .gopen '(', .number 1, .comma,
    .gopen '[', .variable_ ['x'], .gclose ']', .gclose ')', .unary ['%']]

theorem placedSample_placed : WellPlaced (Demo.ctx true false) [] none placedSample := by
  have pre : IsPrefix (Demo.ctx true false) ['-'] := ⟨_, rfl, rfl⟩
  have post : IsPostfix (Demo.ctx true false) ['%'] := ⟨_, rfl, rfl⟩
  exact ⟨.operand _ _ trivial pre, .operand _ _ pre trivial, .product _ _ rfl trivial, .operator _ _ trivial ⟨_, rfl⟩, .operand _ _ trivial trivial,
    .operator _ _ trivial ⟨_, rfl⟩, .operand _ _ trivial pre, .operand _ _ pre trivial, .arguments _ .parenthesis (.inl rfl), .operand _ _ trivial trivial,
    .operator _ _ trivial trivial, ⟨_, _, rfl⟩, .operand _ _ trivial ⟨.bracket, rfl⟩, .operand _ _ trivial trivial, .operator _ _ trivial trivial,
    ⟨_, _, _, rfl, .inr (.inl ⟨by simp, rfl⟩), .operator _ _ trivial trivial, _, _, _, rfl, .inl ⟨by simp, rfl⟩, .operator _ _ trivial post, rfl, _, rfl, post⟩⟩

example : evalTokens (Demo.ctx true false) placedSample = .ok 7200 := by decide +kernel

/-- The other direction needs the placing rules: `2 3 +` is accepted (C13) although no tree is written like that. -/
theorem C129_counterexample :
    evalTokens (Demo.ctx false false) [.number 2, .number 3, .binary ['+']] = .ok 5 ∧
    ¬ ∃ e : Expr Int, e.WF (Demo.ctx false false) ∧ e.render = [.number 2, .number 3, .binary ['+']] := by
  refine ⟨rfl, fun h => ?_⟩
  obtain ⟨-, h, -⟩ := (C129_tree _ _).2 h
  cases h with
  | operand p t hp ht => exact hp
  | operator p t hp ht => exact ht
  | product p t hm h => exact h

end Prexel
