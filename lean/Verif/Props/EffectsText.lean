import Verif.Props.Effects
import Verif.Props.Tokenizer
/-!
# C112 for texts: `Evaluator::eval` with functions that have effects
-/

namespace Prexel
variable {σ N : Type}

/-- C112 for texts. Evaluating a text that spells a well-formed expression has the effects and the outcome of its tree, from every state. -/
theorem C112_text (parse : Str → Option N) {rules : List Rule} (hg : AllGood rules) (hs : SkipsWs rules) (c : EffCtx σ N)
    (hc : c.ctx.config.complexNumber = false) (hl : Lexical c.ctx) (e : Expr N) (hw : e.WF c.ctx) (hp : e.Plain c.ctx) (ws : List Str) (s : Str)
    (hws : ∀ w ∈ ws, split rules w = [w]) (h : Pairwise2 (StandsFor parse c.ctx) ws e.render) (hsp : Spaced ws s) :
    evalE c parse (split rules) s = e.run c := by
  have := C18_split_join hg hs hws hsp
  unfold evalE
  rw [(C23_text parse hs c.ctx hc hl e hw hp s (by rw [this]; exact h)).1, Action.bind_lift_ok, C112_order c e hw]

/-- C112 for texts, without effects: every text, every state. -/
theorem C112_text_pure (parse : Str → Option N) (splitter : Str → List Str) (ctx : Ctx N) (text : Str) (s : σ) :
    evalE ctx.noEffects parse splitter text s = (eval parse splitter ctx text, s) := by
  have : evalE (ctx.noEffects : EffCtx σ N) parse splitter text = .lift (eval parse splitter ctx text) := by
    unfold evalE eval
    rw [Action.lift_bind]
    congr 1
    funext ts
    funext s
    rw [C112_pure]
    rfl
  rw [this]
  rfl

/-- C112 for texts. A text that is not read or not converted has no effects, whatever the functions would do. -/
theorem C112_text_rejected (parse : Str → Option N) (splitter : Str → List Str) (c : EffCtx σ N) (text : Str)
    (h : ∀ ts, tokenize parse splitter c.ctx text = .ok ts → (infixToRpn c.ctx ts).isOk = false) (s : σ) :
    (evalE c parse splitter text s).2 = s ∧ (evalE c parse splitter text s).1.isOk = false := by
  unfold evalE
  cases ht : tokenize parse splitter c.ctx text with
  | err k => exact ⟨rfl, rfl⟩
  | panic => exact ⟨rfl, rfl⟩
  | ok ts =>
    have hr := h ts ht
    rw [Action.bind_lift_ok]
    refine ⟨(C112_rejected c ts hr s).2, ?_⟩
    unfold evalTokensE
    cases hi : infixToRpn c.ctx ts with
    | ok rpn => rw [hi] at hr; cases hr
    | err k => rfl
    | panic => rfl

/-- `1 + 2 - 3` counts two calls; `1 + ) 2` none. -/
example : evalE Demo.counter Demo.parse (split defaultRules) (str "1 + 2 - 3") 5 = (.ok 6, 7) ∧
    (evalE Demo.counter Demo.parse (split defaultRules) (str "1 + ) 2") 5).2 = 5 := by decide +kernel

end Prexel
