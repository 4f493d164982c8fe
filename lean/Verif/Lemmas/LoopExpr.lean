import Verif.Model.Evaluator
import Verif.Spec.Syntax
/-!
# The shunting-yard loop on a well-formed expression
-/

set_option linter.unusedVariables false
set_option linter.unusedSimpArgs false

namespace Prexel
variable {N : Type}

/-! ## Parts of an expression -/

def Open.token : Open → Token N
  | .pre u => .unary u
  | .bin o => .binary o

/-- Operators still on the stack after the expression, top first. -/
def Expr.pend (e : Expr N) : List (Token N) := e.rightSpine.map Open.token

mutual
/-- Tokens already on the output after the expression. -/
def Expr.done : Expr N → List (Token N)
  | .atom a => [a.token]
  | .signed u a => [a.token, .unary u]
  | .prefixed _ e => e.done
  | .postfixed p e => e.done ++ [.unary p]
  | .paren _ e => e.done ++ e.pend
  | .call f _ args => args.done ++ args.pend ++ [.argCount args.count, .function f]
  | .bin _ l r => l.done ++ l.pend ++ r.done
  | .imp l r => l.done ++ r.done
def Args.done : Args N → List (Token N)
  | .one e => e.done
  | .more e rest => e.done ++ e.pend ++ rest.done
def Args.pend : Args N → List (Token N)
  | .one e => e.pend
  | .more _ rest => rest.pend
end

/-- First token. -/
def Expr.first : Expr N → Token N
  | .atom a => a.token
  | .signed u _ => .unary u
  | .prefixed u _ => .unary u
  | .postfixed _ e => e.first
  | .paren g _ => .gopen g.opn
  | .call f _ _ => .function f
  | .bin _ l _ => l.first
  | .imp l _ => l.first

/-- Last token. -/
def Expr.last : Expr N → Token N
  | .atom a => a.token
  | .signed _ a => a.token
  | .prefixed _ e => e.last
  | .postfixed p _ => .unary p
  | .paren g _ => .gclose g.cls
  | .call _ g _ => .gclose g.cls
  | .bin _ _ r => r.last
  | .imp _ r => r.last

def Args.first : Args N → Token N
  | .one e => e.first
  | .more e _ => e.first

def Args.last : Args N → Token N
  | .one e => e.last
  | .more _ rest => rest.last

theorem Expr.render_first : (e : Expr N) → ∃ tl, e.render = e.first :: tl
  | .atom a => ⟨_, rfl⟩
  | .signed u a => ⟨_, rfl⟩
  | .prefixed u e => ⟨_, rfl⟩
  | .postfixed p e => by
    obtain ⟨tl, h⟩ := e.render_first
    exact ⟨tl ++ [.unary p], by simp [Expr.render, Expr.first, h]⟩
  | .paren g e => ⟨_, rfl⟩
  | .call f g args => ⟨_, rfl⟩
  | .bin o l r => by
    obtain ⟨tl, h⟩ := l.render_first
    exact ⟨tl ++ .binary o :: r.render, by simp only [Expr.render, Expr.first, h, List.cons_append]⟩
  | .imp l r => by
    obtain ⟨tl, h⟩ := l.render_first
    exact ⟨tl ++ r.render, by simp only [Expr.render, Expr.first, h, List.cons_append]⟩

theorem Args.render_first : (a : Args N) → ∃ tl, a.render = a.first :: tl
  | .one e => e.render_first
  | .more e rest => by
    obtain ⟨tl, h⟩ := e.render_first
    exact ⟨tl ++ .comma :: rest.render, by simp only [Args.render, Args.first, h, List.cons_append]⟩

theorem Expr.render_last : (e : Expr N) → ∃ ini, e.render = ini ++ [e.last]
  | .atom a => ⟨[], rfl⟩
  | .signed u a => ⟨[_], rfl⟩
  | .prefixed u e => by
    obtain ⟨ini, h⟩ := e.render_last
    exact ⟨.unary u :: ini, by simp [Expr.render, Expr.last, h]⟩
  | .postfixed p e => ⟨_, rfl⟩
  | .paren g e => ⟨_ :: _, rfl⟩
  | .call f g args => ⟨_ :: _ :: _, rfl⟩
  | .bin o l r => by
    obtain ⟨ini, h⟩ := r.render_last
    exact ⟨l.render ++ .binary o :: ini, by simp [Expr.render, Expr.last, h]⟩
  | .imp l r => by
    obtain ⟨ini, h⟩ := r.render_last
    exact ⟨l.render ++ ini, by simp [Expr.render, Expr.last, h]⟩

theorem Args.render_last : (a : Args N) → ∃ ini, a.render = ini ++ [a.last]
  | .one e => e.render_last
  | .more e rest => by
    obtain ⟨ini, h⟩ := rest.render_last
    exact ⟨e.render ++ .comma :: ini, by simp [Args.render, Args.last, h]⟩

theorem Expr.render_head (e : Expr N) (l : List (Token N)) : (e.render ++ l).head? = some e.first := by
  obtain ⟨tl, h⟩ := e.render_first
  simp [h]

theorem Args.render_head (e : Args N) (l : List (Token N)) : (e.render ++ l).head? = some e.first := by
  obtain ⟨tl, h⟩ := e.render_first
  simp [h]

theorem Atom.token_notGopen (a : Atom N) : a.token.isGopen = false := by cases a <;> rfl
theorem Atom.token_notGclose (a : Atom N) : a.token.isGclose = false := by cases a <;> rfl

theorem Expr.last_notGopen : (e : Expr N) → e.last.isGopen = false
  | .atom a => a.token_notGopen
  | .signed u a => a.token_notGopen
  | .prefixed u e => e.last_notGopen
  | .postfixed p e => rfl
  | .paren g e => rfl
  | .call f g args => rfl
  | .bin o l r => r.last_notGopen
  | .imp l r => r.last_notGopen

theorem Args.last_notGopen : (a : Args N) → a.last.isGopen = false
  | .one e => e.last_notGopen
  | .more _ rest => rest.last_notGopen

theorem Expr.first_notGclose : (e : Expr N) → e.first.isGclose = false
  | .atom a => a.token_notGclose
  | .signed u a => rfl
  | .prefixed u e => rfl
  | .postfixed p e => e.first_notGclose
  | .paren g e => rfl
  | .call f g args => rfl
  | .bin o l r => l.first_notGclose
  | .imp l r => l.first_notGclose

theorem Args.first_notGclose : (a : Args N) → a.first.isGclose = false
  | .one e => e.first_notGclose
  | .more e _ => e.first_notGclose

theorem Args.count_pos : (a : Args N) → 0 < a.count
  | .one _ => by simp [Args.count]
  | .more _ rest => by simp [Args.count]

theorem Expr.done_ne_nil : (e : Expr N) → e.done ≠ []
  | .atom a => by simp [Expr.done]
  | .signed u a => by simp [Expr.done]
  | .prefixed u e => by simpa [Expr.done] using e.done_ne_nil
  | .postfixed p e => by simp [Expr.done]
  | .paren g e => by simp [Expr.done, e.done_ne_nil]
  | .call f g args => by simp [Expr.done]
  | .bin o l r => by simp [Expr.done, l.done_ne_nil]
  | .imp l r => by simp [Expr.done, l.done_ne_nil]

mutual
theorem Expr.postfix_eq : (e : Expr N) → (ctx : Ctx N) → e.WF ctx → e.postfix = e.done ++ e.pend
  | .atom a, _, _ => by simp [Expr.postfix, Expr.done, Expr.pend, Expr.rightSpine]
  | .signed u a, _, _ => by simp [Expr.postfix, Expr.done, Expr.pend, Expr.rightSpine]
  | .prefixed u e, ctx, h => by
    have := Expr.postfix_eq e ctx h.2.2
    simp [Expr.postfix, Expr.done, Expr.pend, Expr.rightSpine, this, Open.token]
  | .postfixed p e, ctx, h => by
    have := Expr.postfix_eq e ctx h.2.2
    have hp : e.pend = [] := by
      have := h.2.1
      cases e <;> simp_all [Expr.primary, Expr.pend, Expr.rightSpine]
    rw [hp] at this
    simp only [Expr.postfix, Expr.done, this]
    simp [Expr.pend, Expr.rightSpine]
  | .paren g e, ctx, h => by
    have := Expr.postfix_eq e ctx h
    simp only [Expr.postfix, Expr.done, this]
    simp [Expr.pend, Expr.rightSpine]
  | .call f g args, ctx, h => by
    have := Args.postfix_eq args ctx h.2
    simp only [Expr.postfix, Expr.done, this]
    simp [Expr.pend, Expr.rightSpine]
  | .bin o l r, ctx, h => by
    have h1 := Expr.postfix_eq l ctx h.2.2.2.1
    have h2 := Expr.postfix_eq r ctx h.2.2.2.2
    simp only [Expr.postfix, Expr.done, h1, h2]
    simp [Expr.pend, Expr.rightSpine, Open.token]
  | .imp l r, ctx, h => by
    have h1 := Expr.postfix_eq l ctx h.2.2.2.2.1
    have h2 := Expr.postfix_eq r ctx h.2.2.2.2.2
    have hp : l.pend = [] := by
      have := h.2.1
      cases l <;> simp_all [Expr.impLeft, Expr.pend, Expr.rightSpine]
    rw [hp] at h1
    simp only [Expr.postfix, Expr.done, h1, h2]
    simp [Expr.pend, Expr.rightSpine, Open.token]
theorem Args.postfix_eq : (a : Args N) → (ctx : Ctx N) → a.WF ctx → a.postfix = a.done ++ a.pend
  | .one e, ctx, h => Expr.postfix_eq e ctx h
  | .more e rest, ctx, h => by
    have h1 := Expr.postfix_eq e ctx h.1
    have h2 := Args.postfix_eq rest ctx h.2
    simp only [Args.postfix, Args.done, Args.pend, h1, h2]
    simp
end

/-! ## Stacks -/

/-- The top of the stack is not a registered prefix operator. -/
def TopNotUnary (ctx : Ctx N) : List (Token N) → Prop
  | .unary u :: _ => ctx.getUnary u = none
  | _ => True

/-- An incoming binary operator `q` pops nothing. -/
def Stops (ctx : Ctx N) (q : Str) : List (Token N) → Prop
  | .function _ :: _ => False
  | .binary a :: _ => ¬ GroupsLeft ctx a q
  | _ => True

theorem popsBefore_iff (fa fb : BinFn N) :
    popsBefore fa fb = true ↔ (fb.prec < fa.prec ∨ (fa.prec = fb.prec ∧ fa.assoc = .left)) := by
  simp [popsBefore]

theorem popForBinary_stops (ctx : Ctx N) (q : Str) (fq : BinFn N) (hq : ctx.getBinary q = some fq)
    (ops out : List (Token N)) (h : Stops ctx q ops) : popForBinary ctx fq ops out = (ops, out) := by
  cases ops with
  | nil => rfl
  | cons t ops =>
    cases t <;> simp [popForBinary, Stops] at h ⊢
    rename_i a
    cases ha : ctx.getBinary a with
    | none => rfl
    | some fa =>
      simp only
      split
      · rename_i hp
        exact absurd ⟨fa, fq, ha, hq, (popsBefore_iff _ _).1 hp⟩ h
      · rfl

theorem popForBinary_spine (ctx : Ctx N) (q : Str) (fq : BinFn N) (hq : ctx.getBinary q = some fq)
    (sp : List Open) (hsp : ∀ a ∈ sp, ∃ b, a = .bin b ∧ GroupsLeft ctx b q)
    (ops out : List (Token N)) (h : Stops ctx q ops) :
    popForBinary ctx fq (sp.map Open.token ++ ops) out = (ops, out ++ sp.map Open.token) := by
  induction sp generalizing out with
  | nil => simpa using popForBinary_stops ctx q fq hq ops out h
  | cons a sp ih =>
    obtain ⟨b, rfl, fa, fb, ha, hb, hg⟩ := hsp a (by simp)
    rw [hq] at hb
    cases hb
    have := ih (fun a' h' => hsp a' (by simp [h'])) (out ++ [.binary b])
    simp [popForBinary, Open.token, ha, (popsBefore_iff _ _).2 hg] at this ⊢
    exact this

theorem popToOpen_spine (sp : List Open) (c : Char) (ops out : List (Token N)) :
    popToOpen (sp.map Open.token ++ .gopen c :: ops) out = some (c, ops, out ++ sp.map Open.token) := by
  induction sp generalizing out with
  | nil => simp [popToOpen]
  | cons a sp ih => cases a <;> simp [popToOpen, Open.token, ih]

theorem popUntilOpen_spine (sp : List Open) (c : Char) (ops out : List (Token N)) :
    popUntilOpen (sp.map Open.token ++ .gopen c :: ops) out = some (.gopen c :: ops, out ++ sp.map Open.token) := by
  induction sp generalizing out with
  | nil => simp [popUntilOpen]
  | cons a sp ih => cases a <;> simp [popUntilOpen, Open.token, ih]

theorem flush_spine (sp : List Open) (out : List (Token N)) :
    flush (sp.map Open.token) out = .ok (out ++ sp.map Open.token) := by
  induction sp generalizing out with
  | nil => simp [flush]
  | cons a sp ih => cases a <;> simp [flush, Open.token, ih, Token.isGclose]

/-! ## Steps -/

theorem syLoop_cons (ctx : Ctx N) (tokens : List (Token N)) (pos : Nat) (t : Token N) (rest : List (Token N)) (st st' : SY N)
    (h : dispatch ctx tokens pos t rest.head? st = .ok st') :
    syLoop ctx tokens pos (t :: rest) st =
      syLoop ctx tokens (pos + 1) rest (implicitMulBlock ctx t rest.head? st') := by
  simp [syLoop, syStep, h]

/-- The `*` pushed after the last token of an expression, if any. -/
def trail (ctx : Ctx N) (t : Token N) (next : Option (Token N)) : List (Token N) :=
  if implicitMulHere ctx t next then [.binary ['*']] else []

theorem implicitMulBlock_eq (ctx : Ctx N) (t : Token N) (next : Option (Token N)) (st : SY N) :
    implicitMulBlock ctx t next st = { st with ops := trail ctx t next ++ st.ops } := by
  unfold implicitMulBlock trail
  split <;> simp

theorem trail_binary (ctx : Ctx N) (t : Token N) (o : Str) : trail ctx t (some (.binary o)) = [] := by
  cases t <;> simp [trail, implicitMulHere]
theorem trail_unary (ctx : Ctx N) (t : Token N) (o : Str) : trail ctx t (some (.unary o)) = [] := by
  cases t <;> simp [trail, implicitMulHere]
theorem trail_gclose (ctx : Ctx N) (t : Token N) (o : Char) : trail ctx t (some (.gclose o)) = [] := by
  cases t <;> simp [trail, implicitMulHere]
theorem trail_comma (ctx : Ctx N) (t : Token N) : trail ctx t (some .comma) = [] := by
  cases t <;> simp [trail, implicitMulHere]
theorem trail_none (ctx : Ctx N) (t : Token N) : trail ctx t none = [] := by
  cases t <;> simp [trail, implicitMulHere]
theorem trail_of_binary (ctx : Ctx N) (n : Option (Token N)) (o : Str) : trail ctx (.binary o) n = [] := by
  simp [trail, implicitMulHere]
theorem trail_of_unary (ctx : Ctx N) (n : Option (Token N)) (o : Str) : trail ctx (.unary o) n = [] := by
  simp [trail, implicitMulHere]
theorem trail_of_gopen (ctx : Ctx N) (n : Option (Token N)) (o : Char) : trail ctx (.gopen o) n = [] := by
  simp [trail, implicitMulHere]
theorem trail_of_function (ctx : Ctx N) (n : Option (Token N)) (o : Str) : trail ctx (.function o) n = [] := by
  simp [trail, implicitMulHere]
theorem trail_of_comma (ctx : Ctx N) (n : Option (Token N)) : trail ctx .comma n = [] := by
  simp [trail, implicitMulHere]

theorem getGroupSymbol_opn (c : Config) (g : Grouping) : c.getGroupSymbol g.opn = some (g.opn, g.cls) := by
  cases g <;> rfl

theorem impRight_first (p : Prop) : (e : Expr N) → e.impRight p →
    (∃ s, e.first = .variable_ s) ∨ (∃ s, e.first = .constant s) ∨ (∃ s, e.first = .function s) ∨
    (∃ c, e.first = .gopen c) ∨ ((∃ n, e.first = .number n) ∧ ¬ p)
  | .atom (.num n), h => by simp [Expr.impRight] at h; simp [Expr.first, Atom.token, h]
  | .atom (.var n), h => by simp [Expr.first, Atom.token]
  | .atom (.const n), h => by simp [Expr.first, Atom.token]
  | .signed u a, h => h.elim
  | .prefixed u e, h => h.elim
  | .postfixed p' e, h => impRight_first p e h
  | .paren g e, h => by simp [Expr.first]
  | .call f g args, h => by simp [Expr.first]
  | .bin o l r, h => impRight_first p l h
  | .imp l r, h => impRight_first p l h

theorem trail_imp (ctx : Ctx N) (himp : ctx.config.implicitMul = true) (l r : Expr N) (hl : l.impLeft)
    (hr : r.impRight l.endsWithNumber) : trail ctx l.last (some r.first) = [.binary ['*']] := by
  have hr' := impRight_first _ r hr
  cases l with
  | atom a =>
    cases a <;> simp [Expr.impLeft] at hl
    rcases hr' with ⟨s, h⟩ | ⟨s, h⟩ | ⟨s, h⟩ | ⟨s, h⟩ | ⟨_, h⟩
    · simp [trail, implicitMulHere, himp, h, Expr.last, Atom.token]
    · simp [trail, implicitMulHere, himp, h, Expr.last, Atom.token]
    · simp [trail, implicitMulHere, himp, h, Expr.last, Atom.token]
    · simp [trail, implicitMulHere, himp, h, Expr.last, Atom.token]
    · simp [Expr.endsWithNumber] at h
  | signed u a =>
    cases a <;> simp [Expr.impLeft] at hl
    rcases hr' with ⟨s, h⟩ | ⟨s, h⟩ | ⟨s, h⟩ | ⟨s, h⟩ | ⟨_, h⟩
    · simp [trail, implicitMulHere, himp, h, Expr.last, Atom.token]
    · simp [trail, implicitMulHere, himp, h, Expr.last, Atom.token]
    · simp [trail, implicitMulHere, himp, h, Expr.last, Atom.token]
    · simp [trail, implicitMulHere, himp, h, Expr.last, Atom.token]
    · simp [Expr.endsWithNumber] at h
  | paren g e =>
    rcases hr' with ⟨s, h⟩ | ⟨s, h⟩ | ⟨s, h⟩ | ⟨s, h⟩ | ⟨⟨s, h⟩, _⟩ <;>
      simp [trail, implicitMulHere, himp, h, Expr.last]
  | call f g e =>
    rcases hr' with ⟨s, h⟩ | ⟨s, h⟩ | ⟨s, h⟩ | ⟨s, h⟩ | ⟨⟨s, h⟩, _⟩ <;>
      simp [trail, implicitMulHere, himp, h, Expr.last]
  | prefixed => exact hl.elim
  | postfixed => exact hl.elim
  | bin => exact hl.elim
  | imp => exact hl.elim

theorem dispatch_atom (ctx : Ctx N) (tokens : List (Token N)) (pos : Nat) (a : Atom N) (next : Option (Token N)) (st : SY N) :
    dispatch ctx tokens pos a.token next st = .ok (pushNumber ctx st a.token) := by
  cases a <;> rfl

theorem pushNumber_plain (ctx : Ctx N) (st : SY N) (t : Token N) (h : TopNotUnary ctx st.ops) :
    pushNumber ctx st t = { st with output := st.output ++ [t] } := by
  unfold pushNumber
  split
  · rename_i op ops heq
    rw [heq] at h
    simp only [TopNotUnary] at h
    simp [h]
  · rfl

theorem getElem?_last (pre : List (Token N)) (e ini suf : List (Token N)) (x : Token N) (h : e = ini ++ [x]) :
    (pre ++ (e ++ suf))[pre.length + e.length - 1]? = some x := by
  subst h
  have : pre.length + (ini ++ [x]).length - 1 = pre.length + ini.length := by simp
  rw [this]
  simp [List.getElem?_append_right]

theorem emptyGroup_false (ctx : Ctx N) (tokens : List (Token N)) (pos : Nat) (c : Char) (x : Token N)
    (h : tokens[pos - 1]? = some x) (hx : x.isGopen = false) : emptyGroup ctx tokens pos c = some false := by
  unfold emptyGroup
  split
  · rw [h]
    cases x <;> simp_all [Token.isGopen]
  · rfl

/-- The top of the stack is not a function. -/
def TopNotFunction : List (Token N) → Prop
  | .function _ :: _ => False
  | _ => True

theorem pushGroupingClose_paren (ctx : Ctx N) (g : Grouping) (sp : List Open) (out ops : List (Token N)) (ac gr : List Nat)
    (h : TopNotFunction ops) :
    pushGroupingClose ctx g.cls ⟨out, sp.map Open.token ++ .gopen g.opn :: ops, ac, gr⟩ =
      .ok ⟨out ++ sp.map Open.token, ops, ac, gr⟩ := by
  unfold pushGroupingClose
  simp only [popToOpen_spine, getGroupSymbol_opn, if_true]
  split
  · simp [TopNotFunction] at h
  · rfl

theorem pushGroupingClose_call (ctx : Ctx N) (g : Grouping) (sp : List Open) (f : Str) (out ops : List (Token N)) (n : Nat)
    (ac gr : List Nat) :
    pushGroupingClose ctx g.cls ⟨out, sp.map Open.token ++ .gopen g.opn :: .function f :: ops, n :: ac, gr⟩ =
      .ok ⟨out ++ sp.map Open.token ++ [.argCount (n + 1), .function f], ops, ac, gr⟩ := by
  unfold pushGroupingClose
  simp only [popToOpen_spine, getGroupSymbol_opn, if_true]

def Args.lastSpine : Args N → List Open
  | .one e => e.rightSpine
  | .more _ rest => rest.lastSpine

theorem Args.pend_eq : (a : Args N) → a.pend = a.lastSpine.map Open.token
  | .one e => rfl
  | .more _ rest => rest.pend_eq

theorem dispatch_gclose (ctx : Ctx N) (tokens : List (Token N)) (pos : Nat) (c : Char) (next : Option (Token N)) (st st' : SY N)
    (x : Token N) (hx : tokens[pos - 1]? = some x) (hx' : x.isGopen = false) (h : pushGroupingClose ctx c st = .ok st') :
    dispatch ctx tokens pos (.gclose c) next st =
      .ok { st' with grp := if st'.argc.isEmpty then st'.grp else st'.grp.tail } := by
  simp only [dispatch, h, Res.bind_ok, emptyGroup_false ctx tokens pos c x hx hx']

/-- The token in front of the recorded position is a function. -/
def funAt (T : List (Token N)) (p : Nat) : Bool := decide (p ≠ 0) && (T[p - 1]?).any Token.isFunction

mutual
theorem loop_expr (ctx : Ctx N) : (e : Expr N) → e.WF ctx → ∀ (pre suf : List (Token N)) (st : SY N),
    (e.startsWithAtom → TopNotUnary ctx st.ops) → TopNotFunction st.ops → (∀ q ∈ e.leftSpine, Stops ctx q st.ops) →
    ∃ junk : List Nat, ((st.argc ≠ [] → junk = []) ∧ ∀ j ∈ junk, funAt (pre ++ (e.render ++ suf)) j = true) ∧
      syLoop ctx (pre ++ (e.render ++ suf)) pre.length (e.render ++ suf) st =
      syLoop ctx (pre ++ (e.render ++ suf)) (pre.length + e.render.length) suf
        ⟨st.output ++ e.done, trail ctx e.last suf.head? ++ (e.pend ++ st.ops), st.argc, junk ++ st.grp⟩
  | .atom a, _, pre, suf, st, hs, _, _ => by
    refine ⟨[], by simp, ?_⟩
    simp only [Expr.render, List.cons_append, List.nil_append]
    rw [syLoop_cons _ _ _ _ _ _ _ (dispatch_atom ..), pushNumber_plain _ _ _ (hs trivial), implicitMulBlock_eq]
    simp [Expr.done, Expr.pend, Expr.rightSpine, Expr.last]
  | .signed u a, h, pre, suf, st, _, _, _ => by
    obtain ⟨f, hf, hn⟩ := h
    refine ⟨[], by simp, ?_⟩
    simp only [Expr.render, List.cons_append, List.nil_append]
    rw [syLoop_cons (st' := { st with ops := .unary u :: st.ops }) _ _ _ _ _ _
      (by simp [dispatch, pushUnaryFunction, hf, hn]), implicitMulBlock_eq, trail_of_unary]
    rw [syLoop_cons _ _ _ _ _ _ _ (dispatch_atom ..), implicitMulBlock_eq]
    simp [Expr.done, Expr.pend, Expr.rightSpine, Expr.last, pushNumber, hf]
  | .prefixed u e, h, pre, suf, st, _, _, _ => by
    obtain ⟨⟨f, hf, hn⟩, hna, hwf⟩ := h
    have ih := loop_expr ctx e hwf (pre ++ [.unary u]) suf { st with ops := .unary u :: st.ops }
      (fun h => absurd h hna) (by simp [TopNotFunction]) (by intro q _; simp [Stops])
    obtain ⟨junk, hj, ih⟩ := ih
    refine ⟨junk, ⟨hj.1, by simpa [Expr.render] using hj.2⟩, ?_⟩
    simp only [Expr.render, List.cons_append]
    rw [syLoop_cons (st' := { st with ops := .unary u :: st.ops }) _ _ _ _ _ _
      (by simp [dispatch, pushUnaryFunction, hf, hn]), implicitMulBlock_eq, trail_of_unary]
    simp only [List.append_assoc, List.cons_append, List.nil_append, List.length_append, List.length_cons, List.length_nil] at ih ⊢
    rw [Nat.zero_add] at ih
    rw [ih]
    simp [Expr.done, Expr.pend, Expr.rightSpine, Expr.last, Open.token, Nat.add_assoc, Nat.add_comm 1]
  | .postfixed p e, h, pre, suf, st, hs, htf, _ => by
    obtain ⟨⟨f, hf, hn⟩, hp, hwf⟩ := h
    have hls : e.leftSpine = [] := by cases e <;> simp_all [Expr.primary, Expr.leftSpine]
    have hpe : e.pend = [] := by cases e <;> simp_all [Expr.primary, Expr.pend, Expr.rightSpine]
    have ih := loop_expr ctx e hwf pre (.unary p :: suf) st hs htf (by simp [hls])
    obtain ⟨junk, hj, ih⟩ := ih
    refine ⟨junk, ⟨hj.1, by simpa [Expr.render] using hj.2⟩, ?_⟩
    simp only [Expr.render, List.append_assoc, List.cons_append, List.nil_append, List.length_append, List.length_cons,
      List.length_nil] at ih ⊢
    rw [ih]
    have hne : (st.output ++ e.done).isEmpty = false := by
      have := e.done_ne_nil
      simp [this]
    rw [syLoop_cons (st' := ⟨st.output ++ e.done ++ [.unary p], st.ops, st.argc, junk ++ st.grp⟩)]
    · rw [implicitMulBlock_eq, trail_of_unary]
      simp [Expr.done, Expr.pend, Expr.rightSpine, Expr.last, Nat.add_assoc, trail_of_unary]
    · simp only [dispatch, pushUnaryFunction, hf, hn, hne, List.head?_cons, trail_unary, hpe]
      simp
  | .paren g e, hwf, pre, suf, st, _, htf, _ => by
    have ih := loop_expr ctx e hwf (pre ++ [.gopen g.opn]) (.gclose g.cls :: suf)
      { st with ops := .gopen g.opn :: st.ops, grp := if st.argc.isEmpty then st.grp else pre.length :: st.grp }
      (by simp [TopNotUnary]) (by simp [TopNotFunction]) (by intro q _; simp [Stops])
    obtain ⟨junk, hj, ih⟩ := ih
    obtain ⟨ini, hini⟩ := e.render_last
    have hlast := getElem?_last (pre ++ [.gopen g.opn]) e.render ini (.gclose g.cls :: suf) _ hini
    simp only [Expr.render, List.append_assoc, List.cons_append, List.nil_append, List.length_append, List.length_cons,
      List.length_nil, Nat.zero_add] at ih hlast ⊢
    have hlen : ∃ j, (st.argc ≠ [] → j = []) ∧ (∀ x ∈ j, x ∈ junk) ∧
        (if st.argc.isEmpty then (junk ++ if st.argc.isEmpty then st.grp else pre.length :: st.grp)
          else (junk ++ if st.argc.isEmpty then st.grp else pre.length :: st.grp).tail) = j ++ st.grp := by
      by_cases hac : st.argc = []
      · exact ⟨junk, by simp [hac], by simp, by simp [hac]⟩
      · have := hj.1 hac
        refine ⟨[], by simp, by simp, ?_⟩
        simp_all
    obtain ⟨j, hj1, hj3, hj2⟩ := hlen
    refine ⟨j, ⟨hj1, fun x hx => by simpa [Expr.render] using hj.2 x (hj3 x hx)⟩, ?_⟩
    rw [syLoop_cons (st' := { st with ops := .gopen g.opn :: st.ops, grp := if st.argc.isEmpty then st.grp else pre.length :: st.grp }) _ _ _ _ _ _
      (by simp [dispatch]), implicitMulBlock_eq, trail_of_gopen]
    simp only [List.nil_append]
    rw [ih]
    rw [syLoop_cons (st' := ⟨st.output ++ e.done ++ e.pend, st.ops, st.argc, j ++ st.grp⟩)]
    · rw [implicitMulBlock_eq]
      simp [Expr.done, Expr.pend, Expr.rightSpine, Expr.last, Nat.add_assoc, Nat.add_comm 1]
    · rw [dispatch_gclose _ _ _ _ _ _ _ hlast e.last_notGopen (st' := ⟨st.output ++ e.done ++ e.pend, st.ops, st.argc, _⟩)]
      · simp only [← hj2]
        rfl
      · simp only [List.head?_cons, trail_gclose, List.nil_append]
        exact pushGroupingClose_paren ctx g e.rightSpine _ _ _ _ htf
  | .call f g args, h, pre, suf, st, _, _, _ => by
    obtain ⟨hg, hwf⟩ := h
    have ih := loop_args ctx args hwf (pre ++ [.function f, .gopen g.opn]) (.gclose g.cls :: suf) g.opn
      (.function f :: st.ops) 0 st.argc pre.length st.grp st.output ⟨_, rfl⟩ (by simp [Token.isFunction])
    obtain ⟨ini, hini⟩ := args.render_last
    have hlast := getElem?_last (pre ++ [.function f, .gopen g.opn]) args.render ini (.gclose g.cls :: suf) _ hini
    simp only [Expr.render, List.append_assoc, List.cons_append, List.nil_append, List.length_append, List.length_cons,
      List.length_nil, Nat.zero_add] at ih hlast ⊢
    refine ⟨if st.argc.isEmpty then [pre.length + 1] else [], ⟨by intro h; simp [h], ?_⟩, ?_⟩
    · intro j hj
      split at hj
      · simp at hj
        simp [hj, funAt, Token.isFunction]
      · simp at hj
    rw [syLoop_cons (st' := { st with ops := .function f :: st.ops, argc := 0 :: st.argc }) _ _ _ _ _ _
      (by rcases hg with rfl | hg <;> simp [dispatch, Grouping.opn, Token.containsSymbol, *]),
      implicitMulBlock_eq, trail_of_function]
    rw [syLoop_cons (st' := ⟨st.output, .gopen g.opn :: .function f :: st.ops, 0 :: st.argc, (pre.length + 1) :: st.grp⟩) _ _ _ _ _ _
      (by simp [dispatch]), implicitMulBlock_eq, trail_of_gopen]
    simp only [List.nil_append, Nat.add_assoc, Nat.reduceAdd] at ih ⊢
    rw [ih]
    rw [syLoop_cons (st' := ⟨st.output ++ args.done ++ args.pend ++ [.argCount args.count, .function f], st.ops, st.argc,
       (if st.argc.isEmpty then [pre.length + 1] else []) ++ st.grp⟩)]
    · rw [implicitMulBlock_eq]
      simp [Expr.done, Expr.pend, Expr.rightSpine, Expr.last]
      congr 1
      omega
    · rw [dispatch_gclose _ _ _ _ _ _ args.last (by rw [← hlast]; congr 1; omega) args.last_notGopen
        (st' := ⟨st.output ++ args.done ++ args.pend ++ [.argCount args.count, .function f], st.ops, st.argc, (pre.length + 1) :: st.grp⟩)]
      · cases st.argc <;> simp
      · rw [args.pend_eq]
        have := pushGroupingClose_call ctx g args.lastSpine f (st.output ++ args.done) st.ops (args.count - 1) st.argc ((pre.length + 1) :: st.grp)
        rw [show args.count - 1 + 1 = args.count from Nat.sub_add_cancel args.count_pos] at this
        exact this
  | .bin o l r, h, pre, suf, st, hs, htf, hst => by
    obtain ⟨⟨fo, hfo⟩, hl, hr, hwl, hwr⟩ := h
    obtain ⟨j1, hj1, ih1⟩ := loop_expr ctx l hwl pre (.binary o :: (r.render ++ suf)) st hs htf
      (fun q hq => hst q (by simp [Expr.leftSpine, hq]))
    obtain ⟨j2, hj2, ih2⟩ := loop_expr ctx r hwr (pre ++ l.render ++ [.binary o]) suf
      ⟨st.output ++ l.done ++ l.pend, .binary o :: st.ops, st.argc, j1 ++ st.grp⟩
      (by simp [TopNotUnary]) (by simp [TopNotFunction]) (fun q hq => by simpa [Stops] using hr q hq)
    refine ⟨j2 ++ j1, ⟨?_, ?_⟩, ?_⟩
    · intro h
      rw [hj1.1 h, hj2.1 h]; rfl
    · intro j hj
      rcases List.mem_append.mp hj with hj | hj
      · simpa [Expr.render] using hj2.2 j hj
      · simpa [Expr.render] using hj1.2 j hj
    simp only [Expr.render, List.append_assoc, List.cons_append, List.nil_append, List.length_append, List.length_cons,
      List.length_nil, Nat.zero_add] at ih1 ih2 ⊢
    rw [ih1]
    rw [syLoop_cons (st' := ⟨st.output ++ l.done ++ l.pend, .binary o :: st.ops, st.argc, j1 ++ st.grp⟩)]
    · rw [implicitMulBlock_eq, trail_of_binary]
      simp only [List.nil_append, Nat.add_assoc, List.append_assoc] at ih2 ⊢
      rw [ih2]
      simp [Expr.done, Expr.pend, Expr.rightSpine, Expr.last, Open.token, Nat.add_assoc, Nat.add_comm 1]
    · simp only [dispatch, pushBinaryFunction, hfo, List.head?_cons, trail_binary, List.nil_append]
      rw [show l.pend = l.rightSpine.map Open.token from rfl,
        popForBinary_spine ctx o fo hfo l.rightSpine hl _ _ (hst o (by simp [Expr.leftSpine]))]
  | .imp l r, h, pre, suf, st, hs, htf, _ => by
    obtain ⟨himp, hil, hir, hr, hwl, hwr⟩ := h
    have hls : l.leftSpine = [] := by cases l <;> simp_all [Expr.impLeft, Expr.leftSpine]
    have hpe : l.pend = [] := by cases l <;> simp_all [Expr.impLeft, Expr.pend, Expr.rightSpine]
    obtain ⟨j1, hj1, ih1⟩ := loop_expr ctx l hwl pre (r.render ++ suf) st hs htf (by simp [hls])
    obtain ⟨j2, hj2, ih2⟩ := loop_expr ctx r hwr (pre ++ l.render) suf
      ⟨st.output ++ l.done, .binary ['*'] :: st.ops, st.argc, j1 ++ st.grp⟩
      (by simp [TopNotUnary]) (by simp [TopNotFunction]) (fun q hq => by simpa [Stops] using hr q hq)
    refine ⟨j2 ++ j1, ⟨?_, ?_⟩, ?_⟩
    · intro h
      rw [hj1.1 h, hj2.1 h]; rfl
    · intro j hj
      rcases List.mem_append.mp hj with hj | hj
      · simpa [Expr.render] using hj2.2 j hj
      · simpa [Expr.render] using hj1.2 j hj
    rw [r.render_head, trail_imp ctx himp l r hil hir, hpe] at ih1
    simp only [Expr.render, List.append_assoc, List.cons_append, List.nil_append, List.length_append, List.length_cons,
      List.length_nil, Nat.zero_add] at ih1 ih2 ⊢
    rw [ih1, ih2]
    simp [Expr.done, Expr.pend, Expr.rightSpine, Expr.last, Open.token, Nat.add_assoc]
theorem loop_args (ctx : Ctx N) : (a : Args N) → a.WF ctx → ∀ (pre suf : List (Token N)) (c : Char) (ops : List (Token N))
    (n : Nat) (ac : List Nat) (g : Nat) (gr : List Nat) (out : List (Token N)),
    (∃ c', suf.head? = some (.gclose c')) → ((pre ++ (a.render ++ suf))[g]?).any Token.isFunction = true →
      syLoop ctx (pre ++ (a.render ++ suf)) pre.length (a.render ++ suf) ⟨out, .gopen c :: ops, n :: ac, (g + 1) :: gr⟩ =
      syLoop ctx (pre ++ (a.render ++ suf)) (pre.length + a.render.length) suf
        ⟨out ++ a.done, a.pend ++ .gopen c :: ops, (n + (a.count - 1)) :: ac, (g + 1) :: gr⟩
  | .one e, h, pre, suf, c, ops, n, ac, g, gr, out, ⟨c', hc⟩, _ => by
    obtain ⟨j, hj, ih⟩ := loop_expr ctx e h pre suf ⟨out, .gopen c :: ops, n :: ac, (g + 1) :: gr⟩
      (by simp [TopNotUnary]) (by simp [TopNotFunction]) (by intro q _; simp [Stops])
    have := hj.1 (by simp)
    subst this
    simp only [Args.render, Args.done, Args.pend, Args.count]
    rw [ih, hc, trail_gclose]
    simp
  | .more e rest, h, pre, suf, c, ops, n, ac, g, gr, out, hc, hg => by
    obtain ⟨j, hj, ih⟩ := loop_expr ctx e h.1 pre (.comma :: (rest.render ++ suf)) ⟨out, .gopen c :: ops, n :: ac, (g + 1) :: gr⟩
      (by simp [TopNotUnary]) (by simp [TopNotFunction]) (by intro q _; simp [Stops])
    have := hj.1 (by simp)
    subst this
    obtain ⟨ini, hini⟩ := e.render_last
    have hlast := getElem?_last pre e.render ini (.comma :: (rest.render ++ suf)) _ hini
    have ih2 := loop_args ctx rest h.2 (pre ++ e.render ++ [.comma]) suf c ops (n + 1) ac g gr (out ++ e.done ++ e.pend) hc
      (by simpa [Args.render] using hg)
    have hpos := rest.count_pos
    have hnext : (pre ++ (e.render ++ .comma :: (rest.render ++ suf)))[pre.length + e.render.length + 1]? = some rest.first := by
      obtain ⟨tl, htl⟩ := rest.render_first
      rw [List.getElem?_append_right (by omega), List.getElem?_append_right (by omega)]
      rw [show pre.length + e.render.length + 1 - pre.length - e.render.length = 1 by omega]
      simp [htl]
    have hnp : pre.length + e.render.length ≠ 0 := by
      rw [hini]; simp
    simp only [Args.render, List.append_assoc, List.cons_append, List.nil_append, List.length_append, List.length_cons,
      List.length_nil, Nat.zero_add] at ih ih2 hlast hg hnext ⊢
    rw [ih]
    rw [syLoop_cons (st' := ⟨out ++ e.done ++ e.pend, .gopen c :: ops, (n + 1) :: ac, (g + 1) :: gr⟩)]
    · rw [implicitMulBlock_eq, trail_of_comma]
      simp only [List.nil_append, Nat.add_assoc, List.append_assoc] at ih2 ⊢
      rw [ih2]
      simp only [Args.done, Args.pend, Args.count, List.append_assoc, Nat.add_assoc]
      congr 2
      · omega
      · congr 1
        omega
    · simp only [dispatch, checkCommaPosition, hlast, hnext, hg, List.head?_cons, trail_comma, List.nil_append]
      simp only [hnp, Option.any_some, e.last_notGopen, rest.first_notGclose]
      simp only [pushComma, show e.pend = e.rightSpine.map Open.token from rfl, popUntilOpen_spine]
      simp
end

end Prexel
