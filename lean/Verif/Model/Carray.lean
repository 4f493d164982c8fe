import Verif.Model.Repl
/-!
# The rest of the circular array

Models the parts of `eval/src/collections/carray.rs` that are not in `Model/Repl.lean`. A `&mut T` is modelled as the function that is applied to
what it refers to. Not modelled: the derived hash.
-/

namespace Prexel
variable {α : Type}

namespace CircularArray

/-- `CircularArray::capacity`, eval/src/collections/carray.rs 43-45. -/
def capacity (a : CircularArray α) : Nat := a.cap

/-- `CircularArray::get`, eval/src/collections/carray.rs 47-49. -/
def get (a : CircularArray α) (i : Nat) : Option α := a.data[i]?

/-- `CircularArray::get_mut`, eval/src/collections/carray.rs 51-53, and `g` applied to the element if there is one. Returned is what was there. -/
def getMut (a : CircularArray α) (i : Nat) (g : α → α) : Option α × CircularArray α := (a.data[i]?, { a with data := a.data.modify i g })

/-- `CircularArray::iter`, eval/src/collections/carray.rs 55-57: the elements in order. -/
def iter (a : CircularArray α) : List α := a.data

/-- `IntoIterator::into_iter`, eval/src/collections/carray.rs 74-81. -/
def intoIter (a : CircularArray α) : List α := a.data

/-- `IndexMut::index_mut`, eval/src/collections/carray.rs 68-72, and `g` applied to the element: panics out of bounds. -/
def indexMut (a : CircularArray α) (i : Nat) (g : α → α) : Res (Option α × CircularArray α) :=
  match a.data[i]? with
  | some x => .ok (some x, { a with data := a.data.modify i g })
  | none => .panic

/-- `Ord` of `Vec`, of the Rust standard library, for elements with the ordering `c`. -/
def cmpData (c : α → α → Ordering) : List α → List α → Ordering
  | [], [] => .eq
  | [], _ :: _ => .lt
  | _ :: _, [] => .gt
  | x :: xs, y :: ys => (c x y).then (cmpData c xs ys)

/-- The derived `Ord::cmp`, eval/src/collections/carray.rs 5: the fields in the order of their declarations. -/
def cmp (c : α → α → Ordering) (a b : CircularArray α) : Ordering := (cmpData c a.data b.data).then (compare a.cap b.cap)

/-- The calls that change an array. -/
inductive Call (α : Type)
  | push (x : α)
  | pop
  | remove (i : Nat)
  | getMut (i : Nat) (g : α → α)
  | indexMut (i : Nat) (g : α → α)

/-- A call of a method by name: what it returns (for `get_mut` and `index_mut`, what it refers to), and the array after it. -/
def call (a : CircularArray α) : Call α → Res (Option α × CircularArray α)
  | .push x => (a.push x).bind fun b => .ok (none, b)
  | .pop => .ok a.pop
  | .remove i => .ok (a.remove i)
  | .getMut i g => .ok (a.getMut i g)
  | .indexMut i g => a.indexMut i g

/-- A sequence of calls: what they returned, and the array after them. -/
def calls (a : CircularArray α) : List (Call α) → Res (List (Option α) × CircularArray α)
  | [] => .ok ([], a)
  | c :: cs => (a.call c).bind fun r => (r.2.calls cs).bind fun s => .ok (r.1 :: s.1, s.2)

end CircularArray

end Prexel
