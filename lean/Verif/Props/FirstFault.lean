import Verif.Spec.FirstFault
import Verif.Lemmas.Messages
import Verif.Props.Messages
import Verif.Props.Imaginary
/-!
# C125: an expression fails with the error of the first step that fails
-/

namespace Prexel
variable {N α β γ : Type}

namespace Told

theorem bind_assoc (x : Told α) (f : α → Told β) (g : β → Told γ) : (x.bind f).bind g = x.bind fun v => (f v).bind g := by cases x <;> rfl
@[simp] theorem bind_ok (v : α) (f : α → Told β) : (Told.ok v).bind f = f v := rfl
@[simp] theorem bind_err (e : Fault) (f : α → Told β) : (Told.err e : Told α).bind f = .err e := rfl
@[simp] theorem bind_panic (f : α → Told β) : (Told.panic : Told α).bind f = .panic := rfl

end Told

/-- The value of a word, or the error with its message. -/
def Atom.told (ctx : Ctx N) : Atom N → Told N
  | .num n => .ok n
  | .var s => Told.ofOption (ctx.getVariable s) .invalidInput (str "Variable " ++ quoted s ++ str " not found")
  | .const s => Told.ofOption (ctx.getConstant s) .invalidInput (str "Constant " ++ quoted s ++ str " not found")

/-- A unary operator applied to a value. -/
def toldUnary (M : Inner N) (ctx : Ctx N) (u : Str) (x : N) : Told N :=
  (Told.ofOption (ctx.getUnary u) .invalidInput (str "Unary operator " ++ quoted u ++ str " not found")).bind fun f =>
    Told.ofRes (f.call x) (M.unary u x)

/-- A binary operator applied to values. -/
def toldBinary (M : Inner N) (ctx : Ctx N) (o : Str) (x y : N) : Told N :=
  (Told.ofOption (ctx.getBinary o) .invalidInput (str "Binary operator " ++ quoted o ++ str " not found")).bind fun f =>
    Told.ofRes (f.call x y) (M.binary o x y)

/-- A function applied to values. -/
def toldCall (M : Inner N) (ctx : Ctx N) (f : Str) (xs : List N) : Told N :=
  (Told.ofOption (ctx.getFunction f) .invalidInput (str "Function " ++ quoted f ++ str " not found")).bind fun fn =>
    Told.ofRes (fn xs) (M.function f xs)

mutual
/-- The value of an expression, or the error with its message. -/
def Expr.told (M : Inner N) (ctx : Ctx N) : Expr N → Told N
  | .atom a => a.told ctx
  | .signed u a => (a.told ctx).bind (toldUnary M ctx u)
  | .prefixed u e => (e.told M ctx).bind (toldUnary M ctx u)
  | .postfixed p e => (e.told M ctx).bind (toldUnary M ctx p)
  | .paren _ e => e.told M ctx
  | .call f _ args => (args.told M ctx).bind (toldCall M ctx f)
  | .bin o l r => (l.told M ctx).bind fun x => (r.told M ctx).bind fun y => toldBinary M ctx o x y
  | .imp l r => (l.told M ctx).bind fun x => (r.told M ctx).bind fun y => toldBinary M ctx ['*'] x y
/-- The values of the arguments, or the error with its message. -/
def Args.told (M : Inner N) (ctx : Ctx N) : Args N → Told (List N)
  | .one e => (e.told M ctx).bind fun x => .ok [x]
  | .more e rest => (e.told M ctx).bind fun x => (rest.told M ctx).bind fun xs => .ok (x :: xs)
end

open Told in
theorem Atom.told_plain (ctx : Ctx N) (a : Atom N) : (a.told ctx).plain = a.denote ctx := by
  cases a <;> simp [Atom.told, Atom.denote, plain_ofOption]

open Told in
theorem toldUnary_plain (M : Inner N) (ctx : Ctx N) (u : Str) (x : N) :
    (toldUnary M ctx u x).plain = (Res.ofOption (ctx.getUnary u) .invalidInput).bind fun f => f.call x := by
  simp [toldUnary, plain_bind, plain_ofOption, plain_ofRes]

open Told in
theorem toldBinary_plain (M : Inner N) (ctx : Ctx N) (o : Str) (x y : N) :
    (toldBinary M ctx o x y).plain = (Res.ofOption (ctx.getBinary o) .invalidInput).bind fun f => f.call x y := by
  simp [toldBinary, plain_bind, plain_ofOption, plain_ofRes]

open Told in
theorem toldCall_plain (M : Inner N) (ctx : Ctx N) (f : Str) (xs : List N) :
    (toldCall M ctx f xs).plain = (Res.ofOption (ctx.getFunction f) .invalidInput).bind fun fn => fn xs := by
  simp [toldCall, plain_bind, plain_ofOption, plain_ofRes]

mutual
theorem Expr.told_plain (M : Inner N) (ctx : Ctx N) : (e : Expr N) → (e.told M ctx).plain = e.denote ctx
  | .atom a => Atom.told_plain ctx a
  | .signed u a => by simp [Expr.told, Expr.denote, Told.plain_bind, Atom.told_plain, toldUnary_plain]
  | .prefixed u e => by simp [Expr.told, Expr.denote, Told.plain_bind, Expr.told_plain M ctx e, toldUnary_plain]
  | .postfixed u e => by simp [Expr.told, Expr.denote, Told.plain_bind, Expr.told_plain M ctx e, toldUnary_plain]
  | .paren _ e => by simpa [Expr.told, Expr.denote] using Expr.told_plain M ctx e
  | .call f _ args => by simp [Expr.told, Expr.denote, Told.plain_bind, Args.told_plain M ctx args, toldCall_plain]
  | .bin o l r => by
    simp [Expr.told, Expr.denote, Told.plain_bind, Expr.told_plain M ctx l, Expr.told_plain M ctx r, toldBinary_plain]
  | .imp l r => by
    simp [Expr.told, Expr.denote, Told.plain_bind, Expr.told_plain M ctx l, Expr.told_plain M ctx r, toldBinary_plain]
theorem Args.told_plain (M : Inner N) (ctx : Ctx N) : (a : Args N) → (a.told M ctx).plain = a.denote ctx
  | .one e => by simp [Args.told, Args.denote, Told.plain_bind, Expr.told_plain M ctx e]
  | .more e rest => by simp [Args.told, Args.denote, Told.plain_bind, Expr.told_plain M ctx e, Args.told_plain M ctx rest]
end

theorem Told.ok_of_plain {x : Told α} {v : α} (h : x.plain = .ok v) : x = .ok v := by
  cases x <;> simp_all [Told.plain]

theorem Told.bind_eq_err {x : Told α} {f : α → Told β} {e : Fault} (h : x.bind f = .err e) : x = .err e ∨ ∃ v, x = .ok v ∧ f v = .err e := by
  cases x with
  | ok v => exact .inr ⟨v, rfl, h⟩
  | err e' => cases h; exact .inl rfl
  | panic => cases h

theorem Expr.told_ok {M : Inner N} {ctx : Ctx N} {e : Expr N} {x : N} (h : e.told M ctx = .ok x) : e.denote ctx = .ok x := by
  rw [← e.told_plain M ctx, h]; rfl

theorem Args.told_ok {M : Inner N} {ctx : Ctx N} {a : Args N} {x : List N} (h : a.told M ctx = .ok x) : a.denote ctx = .ok x := by
  rw [← a.told_plain M ctx, h]; rfl

theorem Told.ofRes_err {r : Res α} {m : Option Str} {f : Fault} (h : Told.ofRes r m = .err f) : ∃ k, r = .err k ∧ f = ⟨k, m⟩ := by
  cases r with
  | ok v => cases h
  | err k => cases h; exact ⟨k, rfl, rfl⟩
  | panic => cases h

theorem toldUnary_err {M : Inner N} {ctx : Ctx N} {u : Str} {op : UnFn N} (ho : ctx.getUnary u = some op) {x : N} {f : Fault}
    (h : toldUnary M ctx u x = .err f) : ∃ k, op.call x = .err k ∧ f = ⟨k, M.unary u x⟩ := by
  unfold toldUnary at h
  rw [ho] at h
  exact Told.ofRes_err h

theorem toldBinary_err {M : Inner N} {ctx : Ctx N} {o : Str} {x y : N} {f : Fault} (h : toldBinary M ctx o x y = .err f) :
    (ctx.getBinary o = none ∧ f = .new .invalidInput (str "Binary operator `" ++ o ++ str "` not found")) ∨
      ∃ op k, ctx.getBinary o = some op ∧ op.call x y = .err k ∧ f = ⟨k, M.binary o x y⟩ := by
  unfold toldBinary at h
  cases ho : ctx.getBinary o with
  | none =>
    rw [ho] at h
    cases h
    exact .inl ⟨rfl, by simp [quoted, str]⟩
  | some op =>
    rw [ho] at h
    obtain ⟨k, h1, h2⟩ := Told.ofRes_err h
    exact .inr ⟨op, k, rfl, h1, h2⟩

theorem toldCall_err {M : Inner N} {ctx : Ctx N} {o : Str} {xs : List N} {f : Fault} (h : toldCall M ctx o xs = .err f) :
    (ctx.getFunction o = none ∧ f = .new .invalidInput (str "Function `" ++ o ++ str "` not found")) ∨
      ∃ op k, ctx.getFunction o = some op ∧ op xs = .err k ∧ f = ⟨k, M.function o xs⟩ := by
  unfold toldCall at h
  cases ho : ctx.getFunction o with
  | none =>
    rw [ho] at h
    cases h
    exact .inl ⟨rfl, by simp [quoted, str]⟩
  | some op =>
    rw [ho] at h
    obtain ⟨k, h1, h2⟩ := Told.ofRes_err h
    exact .inr ⟨op, k, rfl, h1, h2⟩

theorem Atom.told_err {M : Inner N} {ctx : Ctx N} {a : Atom N} {f : Fault} (h : a.told ctx = .err f) : (Expr.atom a).FirstFault M ctx f := by
  cases a with
  | num n => cases h
  | var s =>
    simp only [Atom.told] at h
    cases hv : ctx.getVariable s with
    | some v => rw [hv] at h; cases h
    | none =>
      rw [hv] at h
      cases h
      have := Expr.FirstFault.var (M := M) s hv
      simpa [quoted, str] using this
  | const s =>
    simp only [Atom.told] at h
    cases hv : ctx.getConstant s with
    | some v => rw [hv] at h; cases h
    | none =>
      rw [hv] at h
      cases h
      have := Expr.FirstFault.const (M := M) s hv
      simpa [quoted, str] using this

mutual
theorem Expr.told_fault {M : Inner N} {ctx : Ctx N} : (e : Expr N) → e.WF ctx → ∀ f, e.told M ctx = .err f → e.FirstFault M ctx f
  | .atom a, _, f, h => Atom.told_err h
  | .signed u a, hw, f, h => by
    obtain ⟨op, ho, -⟩ := hw
    rcases Told.bind_eq_err h with h | ⟨x, hx, h⟩
    · exact .signedWord u a f (Atom.told_err h)
    · obtain ⟨k, hk, rfl⟩ := toldUnary_err ho h
      exact .signed u a x (by rw [← Atom.told_plain, hx]; rfl) op ho k hk
  | .prefixed u e, hw, f, h => by
    obtain ⟨⟨op, ho, -⟩, -, hw⟩ := hw
    rcases Told.bind_eq_err h with h | ⟨x, hx, h⟩
    · exact .prefixedOperand u e f (Expr.told_fault e hw f h)
    · obtain ⟨k, hk, rfl⟩ := toldUnary_err ho h
      exact .prefixed u e x (Expr.told_ok hx) op ho k hk
  | .postfixed u e, hw, f, h => by
    obtain ⟨⟨op, ho, -⟩, -, hw⟩ := hw
    rcases Told.bind_eq_err h with h | ⟨x, hx, h⟩
    · exact .postfixedOperand u e f (Expr.told_fault e hw f h)
    · obtain ⟨k, hk, rfl⟩ := toldUnary_err ho h
      exact .postfixed u e x (Expr.told_ok hx) op ho k hk
  | .paren g e, hw, f, h => .paren g e f (Expr.told_fault e hw f h)
  | .call n g args, hw, f, h => by
    rcases Told.bind_eq_err h with h | ⟨x, hx, h⟩
    · exact .callArgument n g args f (Args.told_fault args hw.2 f h)
    · rcases toldCall_err h with ⟨hn, rfl⟩ | ⟨fn, k, hn, hk, rfl⟩
      · exact .callMissing n g args x (Args.told_ok hx) hn
      · exact .call n g args x (Args.told_ok hx) fn hn k hk
  | .bin o l r, hw, f, h => by
    obtain ⟨⟨op, ho⟩, -, -, hl, hr⟩ := hw
    rcases Told.bind_eq_err h with h | ⟨x, hx, h⟩
    · exact .binLeft o l r f (Expr.told_fault l hl f h)
    rcases Told.bind_eq_err h with h | ⟨y, hy, h⟩
    · exact .binRight o l r x (Expr.told_ok hx) f (Expr.told_fault r hr f h)
    rcases toldBinary_err h with ⟨hn, rfl⟩ | ⟨op, k, hn, hk, rfl⟩
    · rw [hn] at ho; cases ho
    · exact .bin o l r x y (Expr.told_ok hx) (Expr.told_ok hy) op hn k hk
  | .imp l r, hw, f, h => by
    obtain ⟨-, -, -, -, hl, hr⟩ := hw
    rcases Told.bind_eq_err h with h | ⟨x, hx, h⟩
    · exact .impLeft l r f (Expr.told_fault l hl f h)
    rcases Told.bind_eq_err h with h | ⟨y, hy, h⟩
    · exact .impRight l r x (Expr.told_ok hx) f (Expr.told_fault r hr f h)
    rcases toldBinary_err h with ⟨hn, rfl⟩ | ⟨op, k, hn, hk, rfl⟩
    · exact .impMissing l r x y (Expr.told_ok hx) (Expr.told_ok hy) hn
    · exact .imp l r x y (Expr.told_ok hx) (Expr.told_ok hy) op hn k hk
theorem Args.told_fault {M : Inner N} {ctx : Ctx N} : (a : Args N) → a.WF ctx → ∀ f, a.told M ctx = .err f → a.FirstFault M ctx f
  | .one e, hw, f, h => by
    rcases Told.bind_eq_err h with h | ⟨x, hx, h⟩
    · exact .one e f (Expr.told_fault e hw f h)
    · cases h
  | .more e rest, hw, f, h => by
    rcases Told.bind_eq_err h with h | ⟨x, hx, h⟩
    · exact .here e rest f (Expr.told_fault e hw.1 f h)
    rcases Told.bind_eq_err h with h | ⟨xs, hxs, h⟩
    · exact .later e rest x (Expr.told_ok hx) f (Args.told_fault rest hw.2 f h)
    · cases h
end

theorem Expr.told_of_ok {M : Inner N} {ctx : Ctx N} {e : Expr N} {x : N} (h : e.denote ctx = .ok x) : e.told M ctx = .ok x :=
  Told.ok_of_plain (by rw [e.told_plain, h])

theorem Args.told_of_ok {M : Inner N} {ctx : Ctx N} {a : Args N} {x : List N} (h : a.denote ctx = .ok x) : a.told M ctx = .ok x :=
  Told.ok_of_plain (by rw [a.told_plain, h])

theorem Atom.told_of_ok {ctx : Ctx N} {a : Atom N} {x : N} (h : a.denote ctx = .ok x) : a.told ctx = .ok x :=
  Told.ok_of_plain (by rw [a.told_plain, h])

mutual
theorem Expr.fault_told {M : Inner N} {ctx : Ctx N} {e : Expr N} {f : Fault} (h : e.FirstFault M ctx f) : e.told M ctx = .err f := by
  match h with
  | .var s hv => simp [Expr.told, Atom.told, hv, Told.ofOption, quoted, str]
  | .const s hv => simp [Expr.told, Atom.told, hv, Told.ofOption, quoted, str]
  | .signedWord u a f h => simp only [Expr.told]; have := Expr.fault_told h; simp only [Expr.told] at this; rw [this]; rfl
  | .signed u a x h op ho k hk => simp [Expr.told, Atom.told_of_ok h, toldUnary, ho, Told.ofOption, hk, Told.ofRes]
  | .prefixedOperand u e f h => simp [Expr.told, Expr.fault_told h]
  | .prefixed u e x h op ho k hk => simp [Expr.told, Expr.told_of_ok h, toldUnary, ho, Told.ofOption, hk, Told.ofRes]
  | .postfixedOperand u e f h => simp [Expr.told, Expr.fault_told h]
  | .postfixed u e x h op ho k hk => simp [Expr.told, Expr.told_of_ok h, toldUnary, ho, Told.ofOption, hk, Told.ofRes]
  | .paren g e f h => simp [Expr.told, Expr.fault_told h]
  | .callArgument n g args f h => simp [Expr.told, Args.fault_told h]
  | .callMissing n g args xs h hn => simp [Expr.told, Args.told_of_ok h, toldCall, hn, Told.ofOption, quoted, str]
  | .call n g args xs h fn hn k hk => simp [Expr.told, Args.told_of_ok h, toldCall, hn, Told.ofOption, hk, Told.ofRes]
  | .binLeft o l r f h => simp [Expr.told, Expr.fault_told h]
  | .binRight o l r x hl f h => simp [Expr.told, Expr.told_of_ok hl, Expr.fault_told h]
  | .bin o l r x y hl hr op ho k hk => simp [Expr.told, Expr.told_of_ok hl, Expr.told_of_ok hr, toldBinary, ho, Told.ofOption, hk, Told.ofRes]
  | .impLeft l r f h => simp [Expr.told, Expr.fault_told h]
  | .impRight l r x hl f h => simp [Expr.told, Expr.told_of_ok hl, Expr.fault_told h]
  | .impMissing l r x y hl hr hn =>
    simp [Expr.told, Expr.told_of_ok hl, Expr.told_of_ok hr, toldBinary, hn, Told.ofOption, quoted, str]
  | .imp l r x y hl hr op ho k hk => simp [Expr.told, Expr.told_of_ok hl, Expr.told_of_ok hr, toldBinary, ho, Told.ofOption, hk, Told.ofRes]
theorem Args.fault_told {M : Inner N} {ctx : Ctx N} {a : Args N} {f : Fault} (h : a.FirstFault M ctx f) : a.told M ctx = .err f := by
  match h with
  | .one e f h => simp [Args.told, Expr.fault_told h]
  | .here e rest f h => simp [Args.told, Expr.fault_told h]
  | .later e rest x hx f h => simp [Args.told, Expr.told_of_ok hx, Args.fault_told h]
end

/-! ## The loop -/

section
variable (D : Debugs N) (M : Inner N) (ctx : Ctx N) (ts : List (Token N))

theorem toldLoop_cons (t : Token N) (rest : List (Token N)) (vals : List N) (ac : Option Nat) :
    Told.rpnLoop D M ctx ts (t :: rest) vals ac = (Told.rpnStep D M ctx ts t vals ac).bind fun r => Told.rpnLoop D M ctx ts rest r.1 r.2 := rfl

theorem toldLoop_atom (a : Atom N) (rest : List (Token N)) (vals : List N) (ac : Option Nat) :
    Told.rpnLoop D M ctx ts (a.token :: rest) vals ac = (a.told ctx).bind fun v => Told.rpnLoop D M ctx ts rest (v :: vals) ac := by
  cases a <;> simp [toldLoop_cons, Atom.token, Told.rpnStep, Atom.told, Told.bind_assoc]

theorem toldLoop_unary (u : Str) (rest : List (Token N)) (v : N) (vals : List N) (ac : Option Nat) :
    Told.rpnLoop D M ctx ts (.unary u :: rest) (v :: vals) ac =
      (toldUnary M ctx u v).bind fun w => Told.rpnLoop D M ctx ts rest (w :: vals) ac := by
  simp [toldLoop_cons, Told.rpnStep, toldUnary, Told.bind_assoc]

theorem toldLoop_binary (o : Str) (rest : List (Token N)) (v w : N) (vals : List N) (ac : Option Nat) :
    Told.rpnLoop D M ctx ts (.binary o :: rest) (w :: v :: vals) ac =
      (toldBinary M ctx o v w).bind fun x => Told.rpnLoop D M ctx ts rest (x :: vals) ac := by
  simp [toldLoop_cons, Told.rpnStep, toldBinary, Told.bind_assoc]

theorem toldLoop_call (f : Str) (rest : List (Token N)) (xs : List N) (vals : List N) :
    Told.rpnLoop D M ctx ts (.argCount xs.length :: .function f :: rest) (xs.reverse ++ vals) none =
      (toldCall M ctx f xs).bind fun x => Told.rpnLoop D M ctx ts rest (x :: vals) none := by
  have h1 : (List.take xs.length (xs.reverse ++ vals)).reverse = xs := by
    rw [List.take_append_of_le_length (by simp)]
    simp [List.take_of_length_le]
  have h2 : List.drop xs.length (xs.reverse ++ vals) = vals := by
    rw [List.drop_append_of_le_length (by simp)]
    simp [List.drop_of_length_le]
  simp only [toldLoop_cons, Told.rpnStep, Option.isSome_none, Bool.false_eq_true, if_false, Told.bind_ok, toldCall, Told.bind_assoc]
  congr 1
  funext fn
  simp only [Told.ofOption, Told.bind_ok, h1, h2]

mutual
theorem toldLoop_expr : (e : Expr N) → ∀ (rest : List (Token N)) (vals : List N),
    Told.rpnLoop D M ctx ts (e.postfix ++ rest) vals none = (e.told M ctx).bind fun v => Told.rpnLoop D M ctx ts rest (v :: vals) none
  | .atom a, rest, vals => by simp [Expr.postfix, Expr.told, toldLoop_atom]
  | .signed u a, rest, vals => by simp [Expr.postfix, Expr.told, toldLoop_atom, toldLoop_unary, Told.bind_assoc]
  | .prefixed u e, rest, vals => by simp [Expr.postfix, Expr.told, toldLoop_expr e, toldLoop_unary, Told.bind_assoc]
  | .postfixed p e, rest, vals => by simp [Expr.postfix, Expr.told, toldLoop_expr e, toldLoop_unary, Told.bind_assoc]
  | .paren g e, rest, vals => by simpa [Expr.postfix, Expr.told] using toldLoop_expr e rest vals
  | .call f g args, rest, vals => by
    simp only [Expr.postfix, Expr.told, Told.bind_assoc, List.append_assoc, List.cons_append, List.nil_append]
    rw [toldLoop_args args]
    cases h : args.told M ctx with
    | err k => rfl
    | panic => rfl
    | ok xs =>
      simp only [Told.bind_ok]
      rw [← Args.denote_length ctx args xs (Args.told_ok h), toldLoop_call]
  | .bin o l r, rest, vals => by
    simp [Expr.postfix, Expr.told, toldLoop_expr l, toldLoop_expr r, toldLoop_binary, Told.bind_assoc]
  | .imp l r, rest, vals => by
    simp [Expr.postfix, Expr.told, toldLoop_expr l, toldLoop_expr r, toldLoop_binary, Told.bind_assoc]
theorem toldLoop_args : (a : Args N) → ∀ (rest : List (Token N)) (vals : List N),
    Told.rpnLoop D M ctx ts (a.postfix ++ rest) vals none = (a.told M ctx).bind fun xs => Told.rpnLoop D M ctx ts rest (xs.reverse ++ vals) none
  | .one e, rest, vals => by simp [Args.postfix, Args.told, toldLoop_expr e, Told.bind_assoc]
  | .more e as, rest, vals => by simp [Args.postfix, Args.told, toldLoop_expr e, toldLoop_args as, Told.bind_assoc]
end

end

theorem toldTokens_told (D : Debugs N) (M : Inner N) (c : Ctx N) (e : Expr N) (h : e.WF c) : Told.evalTokens D M c e.render = e.told M c := by
  unfold Told.evalTokens
  rw [Told.ok_of_plain (x := Told.infixToRpn D c e.render) (by rw [Told.infixToRpn_plain]; exact infixToRpn_render c e h), Told.bind_ok]
  have := toldLoop_expr D M c e.render e [] []
  rw [List.append_nil] at this
  rw [this]
  cases e.told M c <;> simp [Told.rpnLoop, Told.rpnResult]

/-! ## C125 -/

/-- C125. For every context and every dictated tree: evaluating its tokens fails with the error `f`, text included, exactly if `f` is the error of the
first step that fails; and there is only one such step. -/
theorem C125_first_fault (D : Debugs N) (M : Inner N) (c : Ctx N) (e : Expr N) (h : e.WF c) :
    (∀ f, Told.evalTokens D M c e.render = .err f ↔ e.FirstFault M c f) ∧ ∀ f f', e.FirstFault M c f → e.FirstFault M c f' → f = f' := by
  refine ⟨fun f => ?_, fun f f' h1 h2 => ?_⟩
  · rw [toldTokens_told D M c e h]
    exact ⟨Expr.told_fault e h f, Expr.fault_told⟩
  · have := (Expr.fault_told h1).symm.trans (Expr.fault_told h2)
    cases this
    rfl

/-- `z + 1 / 0`, where `z` is not registered. -/
def missing : Expr Int := .bin ['+'] (.atom (.var ['z'])) (.bin ['/'] (.atom (.num 1)) (.atom (.num 0)))

/-- The hypotheses are met, and the missing variable is reported, not the division. -/
example : missing.WF (Demo.ctx false false) ∧
    missing.FirstFault Demo.inner (Demo.ctx false false) (.new .invalidInput (str "Variable `z` not found")) ∧
    Told.evalTokens Demo.debugs Demo.inner (Demo.ctx false false) missing.render = .err (.new .invalidInput (str "Variable `z` not found")) :=
  ⟨by simp [missing, Expr.WF, Expr.leftSpine, Expr.rightSpine, GroupsLeft, Demo.ctx, Demo.add, Demo.div],
   .binLeft _ _ _ _ (.var _ rfl), by decide +kernel⟩

/-- C125, for texts: any text whose words are the words of a dictated tree. -/
theorem C125_text (D : Debugs N) (M : Inner N) (parse : Str → Option N) {rules : List Rule} (hs : SkipsWs rules) (c : Ctx N)
    (hc : c.config.complexNumber = false) (hl : Lexical c) (e : Expr N) (hw : e.WF c) (hp : e.Plain c) (s : Str)
    (h : Pairwise2 (StandsFor parse c) (split rules s) e.render) (f : Fault) :
    Told.eval D M parse (split rules) c s = .err f ↔ e.FirstFault M c f := by
  unfold Told.eval
  rw [Told.ok_of_plain (x := Told.tokenize D parse (split rules) c s)
    (by rw [Told.tokenize_plain]; exact (C23_text parse hs c hc hl e hw hp s h).1), Told.bind_ok]
  exact (C125_first_fault D M c e hw).1 f

/-- `sum(1, 2 / 0) + x`: the division fails. -/
example : ∃ e : Expr Int, e.WF (Demo.ctx false false) ∧ e.Plain (Demo.ctx false false) ∧
    Pairwise2 (StandsFor Demo.parse (Demo.ctx false false)) (split defaultRules (str "sum(1, 2 / 0) + x")) e.render ∧
    e.FirstFault Demo.inner (Demo.ctx false false) (.simple .divisionByZero) := by
  refine ⟨.bin ['+'] (.call ['s', 'u', 'm'] .parenthesis (.more (.atom (.num 1)) (.one (.bin ['/'] (.atom (.num 2)) (.atom (.num 0))))))
    (.atom (.var ['x'])), ?_, ?_, ?_, ?_⟩
  · simp [Expr.WF, Args.WF, Expr.leftSpine, Expr.rightSpine, GroupsLeft, Demo.ctx]
  · simp [Expr.Plain, Args.Plain]
  · have : split defaultRules (str "sum(1, 2 / 0) + x") =
        [['s', 'u', 'm'], ['('], ['1'], [','], ['2'], ['/'], ['0'], [')'], ['+'], ['x']] := by decide +kernel
    rw [this]
    simp only [Expr.render, Args.render, Atom.token, List.cons_append, List.nil_append]
    repeat' first | exact Pairwise2.nil | refine Pairwise2.cons ?_ ?_
    all_goals simp [StandsFor, NotValue, NoName, Demo.ctx, Demo.parse, Grouping.opn, Grouping.cls]
  · exact .binLeft _ _ _ _ (.callArgument _ _ _ _ (.later _ _ 1 rfl _ (.one _ _ (.bin _ _ _ 2 0 rfl rfl _ rfl _ rfl))))

/-- C125, for texts in a context with complex numbers. -/
theorem C125_complex_text (D : Debugs N) (M : Inner N) (parse : Str → Option N) {rules : List Rule} (hs : SkipsWs rules) (c : Ctx N)
    (hc : c.config.complexNumber = true) (hi : ReadsI parse c) (hl : Lexical c) (e : Expr N) (hw : e.WF c) (hp : e.Plain c) (s : Str)
    (ws : List Str) (hj : Joined parse (split rules s) ws) (h : Pairwise2 (StandsFor parse c) ws e.render) (f : Fault) :
    Told.eval D M parse (split rules) c s = .err f ↔ e.FirstFault M c f := by
  unfold Told.eval
  rw [Told.ok_of_plain (x := Told.tokenize D parse (split rules) c s)
    (by rw [Told.tokenize_plain]; exact (C23_complex_text parse hs c hc hi hl e hw hp s ws hj h).1), Told.bind_ok]
  exact (C125_first_fault D M c e hw).1 f

end Prexel
