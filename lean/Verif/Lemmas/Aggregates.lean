import Verif.Spec.Aggregates
import Verif.Lemmas.Calls
import Verif.Model.Ops
/-!
# Lemmas about sums written out
-/

namespace Prexel
variable {N : Type}

/-- The tree of a chain of one operator that groups from the left. -/
def leftTree (o : Str) (e : Expr N) (xs : List N) : Expr N := xs.foldl (fun e y => .bin o e (.atom (.num y))) e

/-- The operation from left to right, up to the first failure. -/
def foldRes (h : N → N → Res N) (r : Res N) (xs : List N) : Res N := xs.foldl (fun r y => r.bind fun a => h a y) r

theorem leftTree_render (o : Str) (xs : List N) : ∀ e : Expr N,
    (leftTree o e xs).render = e.render ++ xs.flatMap fun y => [.binary o, .number y] := by
  induction xs with
  | nil => intro e; simp [leftTree]
  | cons y ys ih => intro e; rw [leftTree, List.foldl_cons, ← leftTree, ih]; simp [Expr.render, Atom.token]

theorem leftTree_wf (ctx : Ctx N) {o : Str} {g : BinFn N} (hg : ctx.getBinary o = some g) (hl : g.assoc = .left) (xs : List N) : ∀ e : Expr N,
    e.WF ctx → (∀ a ∈ e.rightSpine, a = .bin o) → (leftTree o e xs).WF ctx ∧ ∀ a ∈ (leftTree o e xs).rightSpine, a = .bin o := by
  induction xs with
  | nil => exact fun e h1 h2 => ⟨h1, h2⟩
  | cons y ys ih =>
    intro e h1 h2
    rw [leftTree, List.foldl_cons, ← leftTree]
    refine ih _ ⟨⟨g, hg⟩, fun a ha => ⟨o, h2 a ha, g, g, hg, hg, .inr ⟨rfl, hl⟩⟩, by simp [Expr.leftSpine], h1, trivial⟩ ?_
    simp [Expr.rightSpine]

theorem leftTree_denote (ctx : Ctx N) {o : Str} {g : BinFn N} (hg : ctx.getBinary o = some g) (xs : List N) : ∀ e : Expr N,
    (leftTree o e xs).denote ctx = foldRes g.call (e.denote ctx) xs := by
  induction xs with
  | nil => intro e; rfl
  | cons y ys ih =>
    intro e
    rw [leftTree, List.foldl_cons, ← leftTree, ih, foldRes, foldRes, List.foldl_cons]
    congr 1
    simp only [Expr.denote, Atom.denote]
    cases e.denote ctx <;> simp [hg, Res.ofOption]

theorem eval_writtenOut (ctx : Ctx N) {o : String} {g : BinFn N} (hg : ctx.getBinary (str o) = some g) (hl : g.assoc = .left) (x : N) (xs : List N) :
    evalTokens ctx (writtenOut o x xs) = foldRes g.call (.ok x) xs := by
  have h := leftTree_wf ctx hg hl xs (.atom (.num x)) trivial (by simp [Expr.rightSpine])
  have := C01_eval_eq_denote ctx (leftTree (str o) (.atom (.num x)) xs) h.1
  rw [leftTree_render, leftTree_denote ctx hg] at this
  exact this

theorem eval_writtenAverage (ctx : Ctx N) {g q : BinFn N} (hg : ctx.getBinary (str "+") = some g) (hl : g.assoc = .left)
    (hq : ctx.getBinary (str "/") = some q) (x : N) (xs : List N) (n : N) :
    evalTokens ctx (writtenAverage x xs n) = (foldRes g.call (.ok x) xs).bind fun s => q.call s n := by
  have h := leftTree_wf ctx hg hl xs (.atom (.num x)) trivial (by simp [Expr.rightSpine])
  have := C01_eval_eq_denote ctx (.bin (str "/") (.paren .parenthesis (leftTree (str "+") (.atom (.num x)) xs)) (.atom (.num n)))
    ⟨⟨q, hq⟩, by simp [Expr.rightSpine], by simp [Expr.leftSpine], h.1, trivial⟩
  refine (congrArg (evalTokens ctx) ?_).trans (this.trans ?_)
  · simp [writtenAverage, writtenOut, Expr.render, leftTree_render, Atom.token, Grouping.opn, Grouping.cls]
  · simp only [Expr.denote, Atom.denote, leftTree_denote ctx hg]
    cases foldRes g.call (.ok x) xs <;> simp [hq, Res.ofOption]

theorem foldRes_err (h : N → N → Res N) (k : ErrorKind) (xs : List N) : foldRes h (.err k) xs = .err k := by
  induction xs with
  | nil => rfl
  | cons y ys ih => exact ih

theorem foldRes_panic (h : N → N → Res N) (xs : List N) : foldRes h .panic xs = .panic := by
  induction xs with
  | nil => rfl
  | cons y ys ih => exact ih

theorem foldArgs_some (h : N → N → Res N) (xs : List N) : ∀ x, Ops.foldArgs h (some x) xs = (foldRes h (.ok x) xs).map some := by
  induction xs with
  | nil => intro x; rfl
  | cons y ys ih =>
    intro x
    rw [Ops.foldArgs, foldRes, List.foldl_cons, ← foldRes]
    show (h x y).bind _ = Res.map some (foldRes h (h x y) ys)
    cases hy : h x y with
    | ok a => simp only [Res.bind_ok]; exact ih a
    | err k => rw [foldRes_err]; rfl
    | panic => rw [foldRes_panic]; rfl

theorem foldArgs_first (h : N → N → Res N) (x : N) (xs : List N) : Ops.foldArgs h none (x :: xs) = (foldRes h (.ok x) xs).map some := foldArgs_some h xs x

end Prexel
