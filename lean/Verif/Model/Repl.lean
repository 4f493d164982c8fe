import Verif.Model.Context
import Verif.Model.Tokenizer
/-!
# The interactive prompt

Models `eval/src/collections/carray.rs`, `Repl::run` of `eval/src/repl/repl.rs` and `eval_loop` of `eval/src/repl/mod.rs`.

What is drawn on the terminal is in `Model/Terminal.lean`. Not modelled: themes (`eval/src/repl/theme.rs`, not used) and failures of the
terminal (`event::poll(..).unwrap()`). What a line prints is modelled as the value, or as an error without its text.
-/

namespace Prexel
variable {N S α : Type}

/-- `CircularArray<T>`, eval/src/collections/carray.rs 5-9. -/
structure CircularArray (α : Type) where
  data : List α
  cap : Nat
  deriving DecidableEq, Repr

namespace CircularArray

/-- `CircularArray::new`, eval/src/collections/carray.rs 13-18. -/
def new (cap : Nat) : CircularArray α := ⟨[], cap⟩

/-- `CircularArray::push`, eval/src/collections/carray.rs 20-25. `Vec::remove(0)` panics on an empty vector. -/
def push (a : CircularArray α) (x : α) : Res (CircularArray α) :=
  if a.data.length = a.cap then
    match a.data with
    | [] => .panic
    | _ :: rest => .ok { a with data := rest ++ [x] }
  else .ok { a with data := a.data ++ [x] }

/-- `CircularArray::pop`, eval/src/collections/carray.rs 27-29. -/
def pop (a : CircularArray α) : Option α × CircularArray α := (a.data.getLast?, { a with data := a.data.dropLast })

/-- `CircularArray::remove`, eval/src/collections/carray.rs 31-37. -/
def remove (a : CircularArray α) (i : Nat) : Option α × CircularArray α :=
  if a.data.length ≤ i then (none, a) else (a.data[i]?, { a with data := a.data.eraseIdx i })

/-- `CircularArray::len`, eval/src/collections/carray.rs 39-41. -/
def len (a : CircularArray α) : Nat := a.data.length

/-- `Index::index`, eval/src/collections/carray.rs 60-66: panics out of bounds. -/
def index (a : CircularArray α) (i : Nat) : Res α :=
  match a.data[i]? with
  | some x => .ok x
  | none => .panic

/-- `last` of the slice behind `Deref`, eval/src/collections/carray.rs 83-89. -/
def last (a : CircularArray α) : Option α := a.data.getLast?

end CircularArray

/-- `str::trim` of the Rust standard library. -/
def trim (s : Str) : Str := ((s.dropWhile isWhitespace).reverse.dropWhile isWhitespace).reverse

/-- `str::split` on one character of the Rust standard library. -/
def splitChar (sep : Char) : Str → List Str
  | [] => [[]]
  | c :: s =>
    if c = sep then [] :: splitChar sep s
    else match splitChar sep s with
      | [] => [[c]]
      | w :: ws => (c :: w) :: ws

/-- What wakes the loop of `Repl::run` up: a key, another event, or the Ctrl-C handler (eval/src/repl/repl.rs 29-32). -/
inductive Key
  | backspace
  | enter
  | up
  | down
  | char (c : Char)
  | esc
  | interrupt
  | other
  deriving DecidableEq, Repr

/-- What the callback of `Repl::run` returns: `Option<ControlFlow<()>>`. -/
inductive Flow
  | none
  | continue_
  | break_
  deriving DecidableEq, Repr

/-- The local variables of `Repl::run`, eval/src/repl/repl.rs 20-35, and the state of the callback. -/
structure Editor (S : Type) where
  buf : Str
  history : CircularArray Str
  cursor : Nat
  state : S
  deriving DecidableEq

/-- The state before the loop, eval/src/repl/repl.rs 25-34. -/
def Editor.init (historySize : Nat) (s : S) : Editor S := ⟨[], .new historySize, 0, s⟩

/-- The arm `KeyCode::Enter`, eval/src/repl/repl.rs 59-80; the flag says whether the loop goes on. -/
def Editor.enter (f : S → Str → Res (Flow × S)) (e : Editor S) : Res (Bool × Editor S) :=
  (f e.state e.buf).bind fun r =>
    let e' : Editor S := { e with buf := [], state := r.2 }
    match r.1 with
    | .break_ => .ok (false, e')
    | .continue_ => .ok (true, e')
    | .none =>
      if (trim e.buf).length > 0 then
        (if e.history.last ≠ some e.buf then e.history.push e.buf else .ok e.history).bind fun h =>
          .ok (true, { e' with history := h, cursor := h.len })
      else .ok (true, e')

/-- The body of the loop of `Repl::run`, eval/src/repl/repl.rs 44-117; the flag says whether the loop goes on. -/
def Editor.step (f : S → Str → Res (Flow × S)) (e : Editor S) : Key → Res (Bool × Editor S)
  | .backspace => .ok (true, if e.buf.length > 0 then { e with buf := e.buf.dropLast } else e)
  | .enter => e.enter f
  | .up =>
    if e.cursor > 0 then
      (e.history.index (e.cursor - 1)).bind fun s => .ok (true, { e with cursor := e.cursor - 1, buf := s })
    else .ok (true, e)
  | .down =>
    if e.cursor < e.history.len then
      if e.cursor + 1 = e.history.len then .ok (true, { e with cursor := e.cursor + 1, buf := [] })
      else (e.history.index (e.cursor + 1)).bind fun s => .ok (true, { e with cursor := e.cursor + 1, buf := s })
    else .ok (true, e)
  | .char c => .ok (true, { e with buf := e.buf ++ [c] })
  | .esc => .ok (false, e)
  | .interrupt => .ok (false, e)
  | .other => .ok (true, e)

/-- The loop of `Repl::run`, eval/src/repl/repl.rs 44-117, over the events that arrive. Once it has ended, events are ignored. -/
def Editor.run (f : S → Str → Res (Flow × S)) : Editor S → List Key → Res (Bool × Editor S)
  | e, [] => .ok (true, e)
  | e, k :: ks => (e.step f k).bind fun r => if r.1 then Editor.run f r.2 ks else .ok (false, r.2)

/-- What entering a line prints, eval/src/repl/mod.rs 97-126. -/
inductive Printed (N : Type) where
  | value (n : N)
  | error
  deriving DecidableEq, Repr

/-- The parameters of `eval_loop`, eval/src/repl/mod.rs 54-73: number parser, build profile, key equivalence, and whether numbers are
binary. -/
structure Session (N : Type) where
  parse : Str → Option N
  K : Keys
  debug : Bool
  isBinary : Bool

/-- `RESULT`, eval/src/repl/mod.rs 60. -/
def resultName : Str := str "$result"

/-- `evaluator.mut_context().set_variable(..)` with its error printed, eval/src/repl/mod.rs 103-106 and 119-121. -/
def Session.assign (S : Session N) (c : Context N) (name : Str) (v : N) : Res (List (Printed N) × Context N) :=
  match Context.run S.K S.debug c (.setVariable name v) with
  | (.ok _, c') => .ok ([], c')
  | (.err _, c') => .ok ([.error], c')
  | (.panic, _) => .panic

/-- The callback of `eval_loop`, eval/src/repl/mod.rs 81-130: flow, output and context afterwards. -/
def Session.line (S : Session N) (c : Context N) (s : Str) : Res (Flow × List (Printed N) × Context N) :=
  let expression := trim s
  if expression = str "exit" then .ok (.break_, [], c)
  else if expression.contains '=' then
    match (splitChar '=' expression).map trim with
    | [name, value] =>
      match S.parse value with
      | some v => (S.assign c name v).bind fun r => .ok (.none, r.1, r.2)
      | none => .ok (.none, [.error], c)
    | _ => .ok (.none, [.error], c)
  else
    match eval S.parse (split (replRules S.isBinary)) (c.view S.K) expression with
    | .ok n => (S.assign c resultName n).bind fun r => .ok (.none, .value n :: r.1, r.2)
    | .err _ => .ok (.none, [.error], c)
    | .panic => .panic

/-- The start of `eval_loop`, eval/src/repl/mod.rs 62-68: `set_variable(RESULT, N::zero()).unwrap()`. -/
def Session.start (S : Session N) (c : Context N) (zero : N) : Res (Context N) :=
  match Context.run S.K S.debug c (.setVariable resultName zero) with
  | (.ok _, c') => .ok c'
  | _ => .panic

/-- The callback as `Repl::run` sees it: the state is what was printed so far and the context. -/
def Session.callback (S : Session N) (s : List (Printed N) × Context N) (l : Str) :
    Res (Flow × List (Printed N) × Context N) :=
  (S.line s.2 l).bind fun r => .ok (r.1, s.1 ++ r.2.1, r.2.2)

/-- `run_repl`, eval/src/repl/mod.rs 24-52 with 54-131, over the keys that are pressed: whether the session goes on, and its state. -/
def Session.run (S : Session N) (c : Context N) (zero : N) (historySize : Option Nat) (keys : List Key) :
    Res (Bool × Editor (List (Printed N) × Context N)) :=
  (S.start c zero).bind fun c' => Editor.run S.callback (Editor.init (historySize.getD 100) ([], c')) keys

end Prexel
